import Verif.Py.Err
import Verif.Py.Utf8
/-!
# File arguments

Models `hickle/fileio.py`: `not_io_base_like` (33-74) and `file_opener` (76-219).  What `h5py.File`
itself does with the file is in `Verif/Hickle/World.lean`.
Simplification: the texts of the messages are not modelled.
-/
namespace Verif

/-- outcome of calling a method that returns a flag -/
abbrev Call := Except PyErr Bool

/-- What `file_opener` can see of an object that is neither a file name nor an h5py group: for each
attribute whether it is there (`none`: it is not), and what calling it does.  `read`, `seek`, `tell` and
`write` are called with the arguments `0`, `0`, none and `b''`; `some false` means that the call raises. -/
structure FObj where
  id : Nat
  /-- `bool(getattr(f, 'closed', False))` -/
  closed : Bool := false
  readable : Option Call := none
  seekable : Option Call := none
  /-- the attribute the code looks for is spelled `writeable`; `io.IOBase` has `writable` -/
  writeable : Option Call := none
  read : Option Bool := none
  seek : Option Bool := none
  tell : Option Bool := none
  write : Option Bool := none
  deriving Inhabited

/-- an `h5py.File` or `h5py.Group` handed in by the caller -/
structure GroupArg where
  /-- `bool(f)`: the file is open and the group accessible -/
  alive : Bool
  /-- `f.name` -/
  name : PyStr
  /-- the open file `f.file`, an index into the table of open files -/
  handle : Nat
  /-- `f.file.mode == 'r'` -/
  readOnly : Bool

/-- the argument `file_obj` of `dump` and `load` -/
inductive FileArg where
  | name (s : PyStr)
  | pathlib (s : PyStr)
  | group (g : GroupArg)
  /-- tuple or list; its elements are looked at as objects, whatever they are -/
  | seq (items : List FObj)
  /-- dict: the values of the keys `file` and `name` -/
  | dict (file name : Option FObj)
  | obj (o : FObj)

/-- the argument `filename` -/
inductive NameArg where
  | absent
  /-- `str` or `bytes` -/
  | text
  | other
  deriving DecidableEq

/-- what is opened: a file by name or through a Python file object -/
inductive Source where
  | name (s : PyStr)
  | obj (id : Nat)
  deriving DecidableEq, Repr, Inhabited

/-- the call of `h5py.File` that `file_opener` makes, or the file that is open already -/
inductive Opening where
  | h5File (src : Source) (mode : PyStr)
  | given (handle : Nat)
  deriving DecidableEq, Repr

/-- what `file_opener` returns -/
structure Opened where
  what : Opening
  path : PyStr
  closeFlag : Bool
  deriving DecidableEq, Repr

/-- `must_test` (fileio.py:62-73) for the given commands -/
def mustTest (cmds : List (Option Bool)) : Bool :=
  !cmds.isEmpty && cmds.all fun c => c = some true

/-- `getattr(f, attribute, not_io_base_like(f, commands))()` (fileio.py:191, 192, 198) -/
def capable (attr : Option Call) (cmds : List (Option Bool)) : Except PyErr Bool :=
  match attr with
  | some r => r
  | none => .ok (mustTest cmds)

/-- `mode.replace('b', '')` -/
def noB (mode : PyStr) : PyStr := mode.filter fun c => c ≠ 98

/-- `path if path.startswith('/') else '/' + path` (fileio.py:142-143) -/
def absPath (path : PyStr) : PyStr := if path.head? = some 47 then path else 47 :: path

/-- `path.rstrip('/')` -/
def rstrip (path : PyStr) : PyStr := (path.reverse.dropWhile fun c => c = 47).reverse

/-- the part of `file_opener` for file objects (fileio.py:180-219); `f` is the object found in the argument -/
def openObj (f : FObj) (path mode : PyStr) : Except PyErr Opened := do
  if f.closed then throw .closedFileError
  let r ← capable f.readable [f.read]
  let s ← if r then capable f.seekable [f.seek, f.tell] else pure false
  if s then
    match mode with
    | [] => throw .indexError                                        -- mode[0]
    | m0 :: ms =>
      -- 'x' 'w' 'a', or 'r' with a '+'
      if m0 = 120 ∨ m0 = 119 ∨ m0 = 97 ∨ (43 ∈ ms ∧ m0 = 114) then
        let w ← capable f.writeable [f.write]
        if !w then throw .fileError
      else if m0 ≠ 114 then throw .valueError
      pure ⟨.h5File (.obj f.id) (if m0 = 114 then noB mode else [m0]), path, true⟩
  else throw .fileError

/-- `file_opener` (fileio.py:76-219).  Tuples, lists and dicts that are not unpacked have none of the
attributes looked for.  Simplification: a group has a name (fileio.py:157). -/
def fileOpener (f : FileArg) (path mode : PyStr) (filename : NameArg) : Except PyErr Opened :=
  match f with
  | .name s | .pathlib s => .ok ⟨.h5File (.name s) (noB mode), absPath path, true⟩
  | .group g =>
    if !g.alive then .error .closedFileError
    else if g.readOnly then
      match mode with
      | [] => .error .indexError                                     -- mode[0]
      | m0 :: ms =>
        if m0 ≠ 114 ∨ 43 ∈ ms then .error .fileError
        else .ok ⟨.given g.handle, g.name ++ rstrip (absPath path), false⟩
    else .ok ⟨.given g.handle, g.name ++ rstrip (absPath path), false⟩
  | .seq items =>
    match filename with
    | .other => .error .valueError
    | .text => openObj { id := 0 } (absPath path) mode
    | .absent =>
      match items with
      | f :: _ :: _ => openObj f (absPath path) mode
      | _ => openObj { id := 0 } (absPath path) mode
  | .dict file name =>
    match filename with
    | .other => .error .valueError
    | .text => openObj { id := 0 } (absPath path) mode
    | .absent =>
      match file, name with
      | some f, some _ => openObj f (absPath path) mode
      | _, _ => .error .keyError
  | .obj o =>
    match filename with
    | .other => .error .valueError
    | _ => openObj o (absPath path) mode

/-! ### paths -/

/-- the names along a path: HDF5 ignores empty components -/
def comps (p : PyStr) : List PyStr := go [] p
where
  go (acc : PyStr) : PyStr → List PyStr
    | [] => if acc.isEmpty then [] else [acc]
    | c :: cs => if c = 47 then (if acc.isEmpty then go [] cs else acc :: go [] cs) else go (acc ++ [c]) cs

theorem comps_go_append (acc p q : PyStr) : comps.go acc (p ++ 47 :: q) = comps.go acc p ++ comps q := by
  induction p generalizing acc with
  | nil =>
    simp only [List.nil_append, comps.go, if_true]
    cases acc <;> simp [comps]
  | cons c p ih =>
    simp only [List.cons_append, comps.go]
    split
    · split
      · exact ih []
      · rw [ih []]; rfl
    · exact ih _

theorem comps_append (p q : PyStr) : comps (p ++ 47 :: q) = comps p ++ comps q := comps_go_append [] p q

theorem comps_slash (p : PyStr) : comps (47 :: p) = comps p := by
  have := comps_append [] p
  simpa [comps, comps.go] using this

theorem comps_snoc (p : PyStr) : comps (p ++ [47]) = comps p := by
  rw [comps_append]; simp [comps, comps.go]

theorem comps_absPath (p : PyStr) : comps (absPath p) = comps p := by
  unfold absPath
  split
  · rfl
  · exact comps_slash p

theorem rstrip_snoc (p : PyStr) : rstrip (p ++ [47]) = rstrip p := by
  simp [rstrip]

theorem comps_rstrip (p : PyStr) : comps (rstrip p) = comps p := by
  induction hn : p.length generalizing p with
  | zero =>
    have : p = [] := by simpa using hn
    subst this; rfl
  | succ n ih =>
    rcases List.eq_nil_or_concat p with rfl | ⟨q, c, rfl⟩
    · rfl
    · simp only [List.concat_eq_append] at hn ⊢
      by_cases hc : c = 47
      · subst hc
        rw [rstrip_snoc, comps_snoc]
        exact ih q (by simpa using hn)
      · simp [rstrip, hc]

theorem rstrip_abs (p : PyStr) : rstrip (absPath p) = [] ∨ ∃ t, rstrip (absPath p) = 47 :: t := by
  have h : ∃ t, absPath p = 47 :: t := by
    unfold absPath
    split
    · next h =>
      cases p with
      | nil => simp at h
      | cons c t => simp at h; exact ⟨t, by rw [h]⟩
    · exact ⟨p, rfl⟩
  obtain ⟨t, ht⟩ := h
  rw [ht]
  have hp : rstrip (47 :: t) <+: 47 :: t := by
    unfold rstrip
    have : (47 :: t).reverse.dropWhile (fun c => decide (c = 47)) <:+ (47 :: t).reverse := List.dropWhile_suffix _
    have := List.reverse_prefix.2 this
    simpa using this
  obtain ⟨r, hr⟩ := hp
  cases hx : rstrip (47 :: t) with
  | nil => exact .inl rfl
  | cons c u =>
    rw [hx] at hr
    simp at hr
    exact .inr ⟨u, by rw [hr.1]⟩

end Verif
