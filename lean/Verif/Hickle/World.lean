import Verif.Hickle.FileIO
import Verif.Hickle.History
/-!
# `hickle.dump` and `hickle.load` as the caller sees them

File names, modes, handles, and what happens when a step fails.  Models `hickle/hickle.py` `dump`
(148-247) and `load` (263-398) around `dumpTop` and `loadTop`: `file_opener`, then the body, then the
`finally` clause that flushes, closes and switches the garbage collector.

`h5py.File` is modelled by its documentation: `r` an existing file for reading, `r+` an existing file,
`w` truncates, `x` and `w-` refuse an existing file, `a` creates a missing file.  Opening, flushing and
closing may also fail for other reasons (`Faults`): disk full, locks, broken file objects.
Simplification: `dump` with a mode for reading raises `FileError` in this model; in reality h5py
refuses the first change with an exception of its own.
-/
namespace Verif

/-- an open (or closed) `h5py.File` -/
structure Handle where
  src : Source
  writable : Bool
  isOpen : Bool := true
  /-- entries of the tables of managers for this file -/
  ldr : Bool := false
  ref : Bool := false
  deriving DecidableEq

structure World where
  /-- contents of files, by name or file object -/
  files : List (Source × Store) := []
  /-- all handles that were ever opened -/
  handles : List Handle := []
  /-- `gc.isenabled()` -/
  gc : Bool := true
  reg : Registry

/-- failures that do not depend on the arguments -/
structure Faults where
  openF : Option PyErr := none
  flush : Option PyErr := none
  close : Option PyErr := none

abbrev WM := M World

def emptyStore : Store := [⟨[], [], .group []⟩]

/-- access modes of `h5py.File` -/
inductive H5Mode where
  | r | rp | w | x | a
  deriving DecidableEq, Repr

/-- the mode strings `h5py.File` accepts -/
def h5Mode (mode : PyStr) : Option H5Mode :=
  if mode = ps "r" then some .r else if mode = ps "r+" then some .rp else if mode = ps "w" then some .w
  else if mode = ps "x" ∨ mode = ps "w-" then some .x else if mode = ps "a" then some .a else none

/-- content the file has right after it was opened, and whether it may be changed -/
def h5Content (old : Option Store) : H5Mode → Except PyErr (Store × Bool)
  | .r => match old with
    | some S => .ok (S, false)
    | none => .error .osError
  | .rp => match old with
    | some S => .ok (S, true)
    | none => .error .osError
  | .w => .ok (emptyStore, true)
  | .x => match old with
    | some _ => .error .osError
    | none => .ok (emptyStore, true)
  | .a => .ok (old.getD emptyStore, true)

/-- `h5py.File(src, mode)`: the index of the new handle -/
def h5Open (src : Source) (mode : PyStr) (flt : Faults) : WM Nat := fun w =>
  match h5Mode mode with
  | none => (.error .valueError, w)
  | some m =>
    match flt.openF with
    | some e => (.error e, w)
    | none =>
      match h5Content (Assoc.get? w.files src) m with
      | .error e => (.error e, w)
      | .ok (S, wr) => (.ok w.handles.length, { w with files := Assoc.put w.files src S, handles := w.handles ++ [{ src := src, writable := wr }] })

/-- the file is at hand: opened now or by the caller -/
def openWhat (o : Opening) (flt : Faults) : WM Nat :=
  match o with
  | .h5File src mode => h5Open src mode flt
  | .given h => pure h

def World.handle (w : World) (h : Nat) (f : Handle → Handle) : World :=
  { w with handles := w.handles.modify h f }

/-- run a computation on the open file with handle `h` -/
def onHandle {α : Type} (h : Nat) (x : SM α) : WM α := fun w =>
  match w.handles[h]? with
  | none => (.error .unmodelled, w)
  | some hd =>
    match Assoc.get? w.files hd.src with
    | none => (.error .unmodelled, w)
    | some S =>
      let r := x { store := S, writable := hd.writable, ldr := hd.ldr, ref := hd.ref, reg := w.reg }
      (r.1, { w with
        files := Assoc.put w.files hd.src r.2.store
        reg := r.2.reg
        handles := w.handles.modify h fun hd => { hd with ldr := r.2.ldr, ref := r.2.ref } })

/-- a step that may fail -/
def fault (f : Option PyErr) : WM Unit :=
  match f with
  | none => pure ()
  | some e => M.throw e

/-- `h5f.close()` -/
def h5Close (h : Nat) (flt : Faults) : WM Unit := do
  fault flt.close
  M.modify fun w => w.handle h fun hd => { hd with isOpen := false }

/-- `finally:` clause of `dump` and `load` (hickle.py:237-247, 388-398) -/
def closing (h : Nat) (closeFlag : Bool) (flt : Faults) : WM Unit := do
  fault flt.flush
  M.modify fun w => { w with gc := false }
  if closeFlag then h5Close h flt
  M.modify fun w => { w with gc := true }

/-- `file_opener(...)`, then `try: body finally: ...`; `body` gets the handle and the path -/
def withFile {α : Type} (f : FileArg) (path mode : PyStr) (fn : NameArg) (flt : Faults) (body : Nat → PyStr → WM α) : WM α := do
  let o ← M.ofExcept (fileOpener f path mode fn)
  let h ← openWhat o.what flt
  finally' (body h o.path) (closing h o.closeFlag flt)

/-- `hickle.dump(py_obj, file_obj, mode, path, filename=...)`; the path in `a` is not used -/
def dumpFile (a : DumpArgs) (f : FileArg) (mode path : PyStr) (fn : NameArg) (flt : Faults) : WM Unit :=
  withFile f path mode fn flt fun h p => onHandle h (dumpTop { a with path := comps p })

/-- `hickle.load(file_obj, path, filename=...)`; the path in `a` is not used -/
def loadFile (a : LoadArgs) (f : FileArg) (path : PyStr) (fn : NameArg) (flt : Faults) : WM (Heap × Addr) :=
  withFile f path (ps "r") fn flt fun h p => onHandle h (loadTop { a with path := comps p })

end Verif
