import Verif.Hickle.LegacyV3
import Verif.Hickle.World
/-!
# How `load` hands a file of hickle 3 to the code of hickle 3

Models `hickle/legacy_v3/hickle.py` `file_opener` (161-199) and the beginning of `load` (473-500), and the branch of
`hickle/hickle.py` `load` (321-387) that leads there.  The file is open already when that branch is taken, but the code of version 3
gets the argument of the caller, not the open file, and opens it again with an opener of its own.

Simplifications: nothing but reading; the file is not changed in between; a text file object (`io.TextIOWrapper`) is one that
h5py can open, if `Files.content` has something for it.  Not modelled: that the class of an `h5py.File` given by the caller is
changed to `H5FileWrapper` (196), and the warning.
-/
namespace Verif.V3

/-- the argument `file_obj`, with what the opener of version 3 looks at in addition -/
structure Arg where
  arg : FileArg
  /-- an object of h5py is an `h5py.File`, not only an `h5py.Group` -/
  isFile : Bool := true
  /-- `(f.name, f.mode)` for an `io.TextIOWrapper` or an `io.BufferedWriter` -/
  native : Option (PyStr × PyStr) := none

/-- the files there are -/
structure Files where
  /-- the root group of a file, by its name or file object; `none`: h5py cannot open it -/
  content : Source → Option Node
  /-- the file that is open in a handle of the caller -/
  source : Nat → Source

/-- `h5py.File(src, mode)` for reading, or the open file -/
def Files.read (fs : Files) : Opening → Except PyErr Node
  | .h5File src mode =>
    if mode = ps "r" ∨ mode = ps "r+" then
      match fs.content src with
      | some n => .ok n
      | none => .error .osError
    else .error .unmodelled
  | .given h =>
    match fs.content (fs.source h) with
    | some n => .ok n
    | none => .error .unmodelled

/-- `file_opener(f)` (legacy_v3/hickle.py:161-199), with whether the file is closed afterwards.  `pathlib.Path` counts as a string
(62-64); `filename` of a closed `h5py.File` raises a `ValueError` (187-190). -/
def fileOpener (a : Arg) : Except PyErr (Opening × Bool) :=
  match a.arg with
  | .name s | .pathlib s => .ok (.h5File (.name s) (ps "r"), true)
  | .group g =>
    if a.isFile then if g.alive then .ok (.given g.handle, false) else .error .closedFileError
    else .error .fileError
  | .obj _ =>
    match a.native with
    | some (name, mode) => .ok (.h5File (.name name) (noB mode), true)
    | none => .error .fileError
  | .seq _ | .dict .. => .error .fileError

/-- `legacy_v3.load(file_obj, path, safe)` (legacy_v3/hickle.py:473-547).  `safe` is handed to the readers for Python 2 only
(504, 513, 525, 539), which raise an exception in Python 3. -/
def legacyLoad (l : Libs) (fuel : Nat) (fs : Files) (a : Arg) (path : PyStr) (_safe : Bool) : Except PyErr PV := do
  let o ← fileOpener a
  let root ← fs.read o.1
  loadFile l fuel (Verif.comps path) root

/-- the attributes of a group or dataset -/
def Node.attrs : Node → List (String × String)
  | .dset _ at' => at'
  | .group at' _ => at'

/-- texts as h5py gives them -/
def asAttrs (at' : List (String × String)) : Attrs := at'.map fun e => (e.1, .bytes e.2)

/-- the body of the `try` statement of `load` (hickle.py:322-354) up to the readers for later versions; `root` is the root group of
the open file, `path` the one `file_opener` returned -/
def loadTry (l : Libs) (fuel : Nat) (fs : Files) (a : Arg) (root : Node) (path : PyStr) (safe : Bool) : Except PyErr PV :=
  match nodeAt (Verif.comps path) root with
  | some (.group at' _) =>
    match route (asAttrs root.attrs) (asAttrs at') with
    | .refuse e => .error e
    | .v3 => legacyLoad l fuel fs a path safe
    | .v4 | .current => .error .unmodelled
  | _ => .error .fileError

/-- `hickle.load(file_obj, path, safe, filename)` (hickle.py:263-398) for files of hickle 3 -/
def hickleLoad (l : Libs) (fuel : Nat) (fs : Files) (a : Arg) (path : PyStr) (safe : Bool) (fn : NameArg) : Except PyErr PV := do
  let o ← Verif.fileOpener a.arg path (ps "r") fn
  let root ← fs.read o.what
  match loadTry l fuel fs a root o.path safe with
  | .ok v => .ok v
  | .error e => .error (wrapLoad e)

end Verif.V3
