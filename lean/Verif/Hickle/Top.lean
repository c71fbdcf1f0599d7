import Verif.H5.Tree
import Verif.Hickle.Load
/-!
# `hickle.dump` and `hickle.load` on an open file

Models `hickle/hickle.py` `dump` (218-236) and `load` (321-387) behind `file_opener` (which is
modelled in `Verif/Hickle/FileIO.lean`), `hickle/lookup.py` `BaseManager.create_manager`
(283-323), `ReferenceManager.__init__` (483-580), `__exit__` (829-843), `LoaderManager.__init__`
(1061-1129) and `__exit__` (1358-1365).
-/
namespace Verif

/-- An open HDF5 file together with the process state that hickle keeps for it. -/
structure Session where
  store : Store
  /-- `h5f.mode == 'r+'` -/
  writable : Bool
  /-- `LoaderManager.__managers__` has an entry for the file -/
  ldr : Bool := false
  /-- `ReferenceManager.__managers__` has an entry for the file -/
  ref : Bool := false
  reg : Registry

abbrev SM := M Session

/-- text of a path component or attribute -/
def tableName : PyStr := ps "hickle_types_table"
def dataName0 : PyStr := ps "data"

/-- `bool(value)` of an attribute value -/
def AttrVal.truthy : AttrVal → Bool
  | .int i => i != 0
  | .bool b => b
  | .bytes s => !s.toList.isEmpty
  | .ref _ | .dt _ | .udt _ | .odt | .pcls _ => true

/-! ### options -/

/-- `c.upper()` of an ASCII character -/
def upChar (c : Char) : Char := if 97 ≤ c.toNat ∧ c.toNat ≤ 122 then Char.ofNat (c.toNat - 32) else c
/-- `c.lower()` of an ASCII character -/
def lowChar (c : Char) : Char := if 65 ≤ c.toNat ∧ c.toNat ≤ 90 then Char.ofNat (c.toNat + 32) else c

/-- `_option_formatter.format(option_key.upper())` (lookup.py:1058, 1108).  ASCII option names. -/
def optAttr (k : String) : String := String.ofList ("OPTION_".toList ++ k.toList.map upChar)

/-- `_option_parser.match(name).group(1).lower()` (lookup.py:1059, 1096-1103).  The regular expression
`^OPTION_(.*)$` ignores case; `.` does not match a newline, `$` also matches before a final one. -/
def optName (name : String) : Option String :=
  if (name.toList.take 7).map upChar = "OPTION_".toList then
    let b := name.toList.drop 7
    let b := if b.getLast? = some '\n' then b.dropLast else b
    if b.contains '\n' then none else some (String.ofList (b.map lowChar))
  else none

/-- `attrs.items()`: every name once -/
def attrItems : Attrs → Attrs
  | [] => []
  | p :: l => p :: (attrItems l).filter fun q => q.1 ≠ p.1

/-- names of the options switched on in a group's attributes (lookup.py:1094-1103) -/
def attrOptions (at' : Attrs) : List String :=
  (attrItems at').filterMap fun p => if p.2.truthy then optName p.1 else none

/-- keys of the `LoaderManager` tables apart from `None` (lookup.py:876-894) -/
def validOption (k : String) : Bool := k = "custom" || k = "hickle-4.x"

/-- the maps inserted for the options read from the attributes (lookup.py:1112-1118) -/
def optMaps : List String → List Opt → Except PyErr (List Opt)
  | [], maps => .ok maps
  | k :: ks, maps => if validOption k then optMaps ks (some k :: maps) else .error .lookupError

/-- `h_root_group.attrs[...] = ...` -/
def sSetAttr (g : NodeId) (k : String) (v : AttrVal) : SM Unit :=
  M.modify fun s => { s with store := s.store.setAttr g k v }

/-- the same for the options handed to `dump`: the attribute is written before the option is looked
up (lookup.py:1104-1118) -/
def setOptions (g : NodeId) : List (String × Bool) → List Opt → SM (List Opt)
  | [], maps => pure maps
  | (k, on) :: ks, maps =>
    if on then do
      sSetAttr g (optAttr k) (.bool true)
      if validOption k then setOptions g ks (some k :: maps) else M.throw .lookupError
    else setOptions g ks maps

/-- the maps in lookup order (lookup.py:1087-1118) -/
def optionMaps (g : NodeId) : Option (List (String × Bool)) → SM (List Opt)
  | some os => setOptions g os [none]
  | none => do
    let s ← M.get
    M.ofExcept (optMaps (attrOptions ((s.store.attrs g).getD [])) [none])

/-- `LoaderManager.create_manager(h_root_group, False, options)` (lookup.py:1318-1348, 306-323,
1061-1129).  The entry of the file is made only when the constructor succeeded. -/
def loaderEnter (g : NodeId) (options : Option (List (String × Bool))) : SM Manager := do
  let s ← M.get
  if s.ldr then M.throw .lookupError
  else do
    let maps ← optionMaps g options
    M.modify fun s => { s with ldr := true }
    pure ⟨maps⟩

/-- `LoaderManager.__exit__` (lookup.py:1358-1365) -/
def loaderExit : SM Unit := M.modify fun s => { s with ldr := false }

/-! ### reference manager -/

/-- `ReferenceManager` after `__init__`; `table = none`: the table lives in an overlay file -/
structure RefMgr where
  table : Option NodeId
  tl : List (Cls × NodeId) := []
  bl : List (String × NodeId) := []
  tc : List (NodeId × TypeInfo) := []

/-- one round of the loop over an existing table (lookup.py:548-580).  Simplification: the message of
the two `ReferenceError`s mentions a variable that is not yet set for the first entry, which then
raises `UnboundLocalError` instead. -/
def refEntry (env : Env) (S : Store) (m : RefMgr) (p : PyStr × NodeId) : Except PyErr RefMgr :=
  match S[p.2]? with
  | none => .error .unmodelled
  | some nd =>
    match nd.body with
    | .group _ => .error .attributeError                               -- entry.shape
    | .dset d =>
      if d = .null "S1" then .ok { m with bl := Assoc.put m.bl (unps nd.name) p.2 }
      else match Assoc.get? nd.attrs "base_type" with
        | some (.ref b) =>
          match S[b]? with
          | none => .error .referenceError
          | some bn =>
            match d with
            | .pickleCls cls =>
              if clsImportable env cls then
                .ok { m with tl := Assoc.put m.tl cls p.2, tc := Assoc.put m.tc p.2 (.known cls (unps bn.name)) }
              else .ok { m with tc := Assoc.put m.tc p.2 (.lost (unps bn.name)) }
            | _ => .error .unmodelled
        | _ => .error .referenceError

def refEntries (env : Env) (S : Store) : RefMgr → List (PyStr × NodeId) → Except PyErr RefMgr
  | m, [] => .ok m
  | m, p :: ps => match refEntry env S m p with
    | .error e => .error e
    | .ok m' => refEntries env S m' ps

/-- `ReferenceManager.__init__` (lookup.py:483-580) -/
def refInit (env : Env) (g : NodeId) : SM RefMgr := fun s =>
  match s.store.links g with
  | none => (.error .unmodelled, s)
  | some ls =>
    match Assoc.get? ls tableName with
    | none =>
      if s.writable then
        match s.store.create g tableName (.group []) with
        | .error e => (.error e, s)
        | .ok (T, st) => (.ok ⟨some T, [], [], []⟩, { s with store := st })
      else (.ok ⟨none, [], [], []⟩, s)
    | some T =>
      match s.store.links T with
      | none => (.error .referenceError, s)
      | some es =>
        if s.writable then (refEntries env s.store ⟨some T, [], [], []⟩ es, s)
        else (.ok ⟨some T, [], [], []⟩, s)

/-- `ReferenceManager.create_manager` (lookup.py:453-481, 306-323) -/
def refEnter (env : Env) (g : NodeId) : SM RefMgr := do
  let s ← M.get
  if s.ref then M.throw .lookupError
  else do
    let m ← refInit env g
    M.modify fun s => { s with ref := true }
    pure m

/-- `ReferenceManager.__exit__` (lookup.py:829-843): the entry that is dropped is the one of the file
the table belongs to, with an overlay not the file's own entry -/
def refExit (m : RefMgr) : SM Unit :=
  M.modify fun s => { s with ref := if m.table.isSome then false else s.ref }

/-- `with` / `try ... finally` -/
def finally' {σ α : Type} (x : M σ α) (fin : M σ Unit) : M σ α := do
  let r ← M.attempt x
  fin
  M.ofExcept r

/-! ### dump -/

/-- arguments of `hickle.dump` and what it depends on -/
structure DumpArgs where
  env : Env
  /-- the objects of the program and the one to dump -/
  heap : Heap
  obj : Addr
  /-- components of the path (relative to the file) -/
  path : List PyStr
  kw : List Kw := []
  options : Option (List (String × Bool)) := some []
  /-- `sys.version_info` -/
  pyver : Nat × Nat × Nat := (3, 8, 10)
  /-- recursion depth the interpreter allows -/
  fuel : Nat

/-- `hickle.__version__` (hickle/__version__.py:14) -/
def hickleVersion : String := "5.0.3"

/-- `"%i.%i.%i" % (pv[0], pv[1], pv[2])` (hickle.py:223) -/
def verText (v : Nat × Nat × Nat) : String :=
  unps (digits v.1 ++ 46 :: digits v.2.1 ++ 46 :: digits v.2.2)

/-- missing groups of a path are created (`h5f.create_group(path)`, hickle.py:227) -/
def Store.mkPath (S : Store) (n : NodeId) : List PyStr → Except PyErr (NodeId × Store)
  | [] => .ok (n, S)
  | x :: xs =>
    match S.links n with
    | none => .error .valueError
    | some ls => match Assoc.get? ls x with
      | some m => Store.mkPath S m xs
      | none => match S.create n x (.group []) with
        | .error e => .error e
        | .ok (m, S') => Store.mkPath S' m xs

/-- names HDF5 can not encode or that are not modelled are refused before anything is created -/
def pathOk (path : List PyStr) : Except PyErr Unit :=
  if path.any badName then .error .unmodelled
  else if path.any fun x => (utf8Encode x).isNone then .error .unicodeEncodeError
  else .ok ()

/-- the group to dump to (hickle.py:225-229) -/
def dumpGroup (path : List PyStr) : SM NodeId := fun s =>
  match pathOk path with
  | .error e => (.error e, s)
  | .ok () =>
    match s.store.resolve 0 path with
    | some g =>
      match s.store.links g with
      | none => (.error .attributeError, s)                          -- a dataset has no items()
      | some [] => (.ok g, s)
      | some (_ :: _) => (.error .valueError, s)
    | none =>
      match s.store.mkPath 0 path with
      | .error e => (.error e, s)
      | .ok (g, st) => (.ok g, { s with store := st })

/-- `_dump(py_obj, h_root_group, 'data', memo, loader)` (hickle.py:236) -/
def dumpData (a : DumpArgs) (g : NodeId) (mgr : Manager) (m : RefMgr) : SM Unit := fun s =>
  match m.table with
  | none => (.error .unmodelled, s)                                  -- not reached: the file is writable
  | some T =>
    let r := dumpNode ⟨a.env, mgr, a.kw, T⟩ a.fuel a.obj g dataName0 []
      { heap := a.heap, store := s.store, tlinks := m.tl, blinks := m.bl, reg := s.reg }
    (r.1, { s with store := r.2.store, reg := r.2.reg })

/-- `dump` behind the opening of the file (hickle.py:218-236).  `file_opener` refuses files that are
open for reading only (fileio.py:155-160). -/
def dumpTop (a : DumpArgs) : SM Unit := do
  let s ← M.get
  if !s.writable then M.throw .fileError
  else do
    let g ← dumpGroup a.path
    sSetAttr g "HICKLE_VERSION" (.bytes hickleVersion)
    sSetAttr g "HICKLE_PYTHON_VERSION" (.bytes (verText a.pyver))
    let mgr ← loaderEnter g a.options
    finally' (do
      let m ← refEnter a.env g
      finally' (dumpData a g mgr m) (refExit m)) loaderExit

/-! ### load -/

/-- what `load` decides from the attributes (hickle.py:328-383) -/
inductive Route where
  | v3          -- legacy_v3.load
  | v4          -- hickle 4.x: legacy loaders
  | current     -- this version's loaders
  | refuse (e : PyErr)
  deriving DecidableEq, Repr

/-- `all(map(attrs.get, names))` -/
def allTruthy (at' : Attrs) (names : List String) : Bool :=
  names.all fun n => match Assoc.get? at' n with
    | some v => v.truthy
    | none => false

/-- `int(h5f.attrs['VERSION'][0])` (hickle.py:337): the first character of a string -/
def v3Major : Option AttrVal → Option Int
  | some (.bytes s) => match s.toList with
    | [] => none
    | c :: _ => parseInt [c.toNat]
  | _ => none

/-- `int(h_root_group.attrs["HICKLE_VERSION"].split('.')[0])` (hickle.py:365-366) -/
def majorVersion : AttrVal → Except PyErr Int
  | .bytes s => match parseInt ((s.toList.takeWhile (· ≠ '.')).map Char.toNat) with
    | some i => .ok i
    | none => .error .valueError
  | _ => .error .attributeError

/-- hickle.py:328-383; the exceptions raised with class `Exception` are `runtimeError` here -/
def route (fileAttrs groupAttrs : Attrs) : Route :=
  if allTruthy fileAttrs ["CLASS", "VERSION", "PYTHON_VERSION"] then
    if Assoc.get? fileAttrs "CLASS" ≠ some (.bytes "hickle") then .refuse .attributeError
    else if v3Major (Assoc.get? fileAttrs "VERSION") = some 3 then .v3 else .refuse .runtimeError
  else if allTruthy groupAttrs ["HICKLE_VERSION", "HICKLE_PYTHON_VERSION"] then
    match Assoc.get? groupAttrs "HICKLE_VERSION" with
    | some v => match majorVersion v with
      | .ok i => if i = 4 then .v4 else .current
      | .error e => .refuse e
    | none => .refuse .fileError
  else .refuse .fileError

/-- arguments of `hickle.load` and what it depends on -/
structure LoadArgs where
  env : Env
  path : List PyStr
  order : List (PyStr × NodeId) → List (PyStr × NodeId) := id
  fuel : Nat

/-- `_load(py_container, 'data', h_root_group['data'], memo, loader)` and `py_container.convert()`
(hickle.py:379-380) -/
def loadBodyTop (a : LoadArgs) (g : NodeId) (mgr : Manager) (m : RefMgr) : SM (Heap × Addr) := fun s =>
  match s.store.links g with
  | none => (.error .unmodelled, s)
  | some ls =>
    match Assoc.get? ls dataName0 with
    | none => (.error .keyError, s)
    | some d =>
      let r := loadNode ⟨a.env, mgr, s.store, a.order⟩ a.fuel (.root []) dataName0 d
        { heap := loadHeap, tcache := m.tc, reg := s.reg }
      let s' := { s with reg := r.2.reg }
      match r.1 with
      | .error e => (.error e, s')
      | .ok (.root (x :: _)) => (.ok (r.2.heap, x), s')
      | .ok _ => (.error .indexError, s')

/-- the body of the `try` statement of `load` (hickle.py:322-383); the readers for older formats are
not modelled here -/
def loadTry (a : LoadArgs) : SM (Heap × Addr) := do
  let s ← M.get
  match pathOk a.path with
  | .error e => M.throw e
  | .ok () =>
    match s.store.resolve 0 a.path with
    | none => M.throw .fileError
    | some g =>
      match s.store.links g with
      | none => M.throw .fileError
      | some _ =>
        match route ((s.store.attrs 0).getD []) ((s.store.attrs g).getD []) with
        | .refuse e => M.throw e
        | .v3 => M.throw .unmodelled
        | .v4 => M.throw .unmodelled
        | .current => do
          let mgr ← loaderEnter g none
          finally' (do
            let m ← refEnter a.env g
            finally' (loadBodyTop a g mgr m) (refExit m)) loaderExit

/-- every exception becomes a `ValueError` (hickle.py:386-387) -/
def wrapLoad : PyErr → PyErr
  | .unmodelled => .unmodelled
  | _ => .valueError

/-- `load` behind the opening of the file (hickle.py:321-387) -/
def loadTop (a : LoadArgs) : SM (Heap × Addr) := do
  let r ← M.attempt (loadTry a)
  match r with
  | .ok x => pure x
  | .error e => M.throw (wrapLoad e)

end Verif
