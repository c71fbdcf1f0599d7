import Verif.Py.Heap
import Verif.Py.Assoc
/-!
# The loader registry

Models `hickle/lookup.py` `LoaderManager` (853-1365): the class-level tables,
`register_class`, `register_class_exclude`, the option maps of one manager and
`load_loader`; and the `class_register` tables of `hickle/loaders/load_builtins.py`,
`load_numpy.py` and `load_scipy.py`.
-/
namespace Verif

/-- dump functions, by name -/
inductive DumpFn where
  | scalar        -- load_builtins.create_scalar_dataset
  | none          -- load_builtins.create_none_dataset
  | listlike      -- load_builtins.create_listlike_dataset
  | setlike       -- load_builtins.create_setlike_dataset
  | dictlike      -- load_builtins.create_dictlike_dataset
  | npScalar      -- load_numpy.create_np_scalar_dataset
  | npArray       -- load_numpy.create_np_array_dataset
  | npMasked      -- load_numpy.create_np_masked_array_dataset
  | sparse        -- load_scipy.create_sparse_dataset
  | pickled       -- lookup.create_pickled_dataset
  | notDumpable   -- helpers.not_dumpable
  | dumpNothing   -- lookup.dump_nothing
  | refusing      -- any dump function that raises NotHicklable
  | custom (n : Nat)
  deriving DecidableEq, Repr

/-- load functions, by name -/
inductive LoadFn where
  | scalar        -- load_builtins.load_scalar_dataset
  | none          -- load_builtins.load_none_dataset
  | list          -- load_builtins.load_list_dataset
  | str4x         -- load_builtins.load_hickle_4_x_string
  | npScalar      -- load_numpy.load_np_scalar_dataset
  | ndarray       -- load_numpy.load_ndarray_dataset
  | ndmasked4x    -- load_numpy.load_ndarray_masked_dataset
  | pickled       -- lookup.load_pickled_data
  | recover       -- lookup.recover_custom_dataset
  | nothing       -- lookup.load_nothing
  | custom (n : Nat)
  deriving DecidableEq, Repr

/-- container classes, by name -/
inductive ContK where
  | listLike      -- load_builtins.ListLikeContainer
  | setLike       -- load_builtins.SetLikeContainer
  | dictLike      -- load_builtins.DictLikeContainer
  | ndarrayLike   -- load_numpy.NDArrayLikeContainer
  | ndmasked      -- load_numpy.NDMaskedArrayContainer
  | sparse        -- load_scipy.SparseMatrixContainer
  | expandRef     -- lookup.ExpandReferenceContainer
  | recoverGroup  -- lookup.RecoverGroupContainer
  | noContainer   -- lookup.NoContainer
  | dictItem      -- lookup._DictItemContainer
  | custom (n : Nat)
  deriving DecidableEq, Repr

/-- entry of `__py_types__`: `(dump_function, hkl_str, memoise)` (lookup.py:1003) -/
structure Entry where
  fn : DumpFn
  base : String
  memoise : Bool
  deriving DecidableEq, Repr

/-- the three dictionaries of one option (lookup.py:876-894).  Simplification: hickle enters
every base type twice, as bytes and as str (1005-1009); one key stands for both. -/
structure Tables where
  types : List (Cls × Entry) := []
  fns : List (String × LoadFn) := []
  conts : List (String × ContK) := []
  deriving Repr

/-- loader options: `None` is the global set (lookup.py:876-880; `optional_loaders` is
`{'custom'}` in loaders/__init__.py) -/
abbrev Opt := Option String

/-- class-level state of `LoaderManager`: tables per option and names of loaded loader modules -/
structure Registry where
  glob : Tables := {}
  legacy : Tables := {}
  custom : Tables := {}
  loaded : List String := []
  deriving Repr

namespace Registry

/-- `cls.__py_types__[option]`; `none` is `KeyError` -/
def tables (r : Registry) : Opt → Option Tables
  | none => some r.glob
  | some o => if o = "hickle-4.x" then some r.legacy
              else if o = "custom" then some r.custom else none

/-- replace the tables of an option -/
def setTables (r : Registry) (o : Opt) (t : Tables) : Registry :=
  match o with
  | none => { r with glob := t }
  | some o => if o = "hickle-4.x" then { r with legacy := t }
              else if o = "custom" then { r with custom := t } else r

end Registry

/-- who defines the functions handed to `register_class` (lookup.py:978-987) -/
inductive Src where
  | core          -- hickle itself, outside hickle.loaders
  | hickleLoader  -- a module of hickle.loaders
  | foreign       -- any other module
  deriving DecidableEq, Repr

/-- arguments of one `register_class` call (lookup.py:901-904) -/
structure RegArgs where
  cls : Cls
  base : String
  dump : Option DumpFn := none
  load : Option LoadFn := none
  cont : Option ContK := none
  memoise : Bool := true
  option : Opt := none
  src : Src := .hickleLoader
  deriving Repr

/-- `hkl_str[:1] == hkl_str[-1:] == b'!'` (lookup.py:995) -/
def bangQuoted (s : String) : Bool := s.toList.head? == some '!' && s.toList.getLast? == some '!'

/-- `disallow_in_option` (lookup.py:1399) -/
def disallowInOption : List String := ["pickle"]
/-- `disallowed_to_ignore` (lookup.py:1395) -/
def disallowedToIgnore : List String := ["dict_item", "pickle"]

/-- the table updates of `register_class` (lookup.py:1002-1009) -/
def Tables.add (t : Tables) (a : RegArgs) : Tables where
  types := match a.dump with
    | some d => Assoc.put t.types a.cls ⟨d, a.base, a.memoise⟩
    | none => t.types
  fns := match a.load with
    | some f => Assoc.put t.fns a.base f
    | none => t.fns
  conts := match a.cont with
    | some c => Assoc.put t.conts a.base c
    | none => t.conts

/-- `LoaderManager.register_class` (lookup.py:901-1011).  Simplification: of the classes that
only hickle core may register (object, functions, metaclasses, `_DictItem`) only `object` is
among `Cls`. -/
def registerClass (a : RegArgs) : M Registry Unit := do
  let r ← M.get
  if a.cls = .object ∧ a.src ≠ .core then
    M.throw .typeError
  else if ((Assoc.get? r.glob.fns a.base).isSome || (Assoc.get? r.glob.conts a.base).isSome)
      && (bangQuoted a.base || disallowInOption.contains a.base) then
    M.throw .valueError
  else
    match r.tables a.option with
    | none =>
      -- KeyError is only raised by the first table access that happens (1001-1011)
      if a.dump.isSome || a.load.isSome || a.cont.isSome then M.throw .lookupError else pure ()
    | some t => M.modify fun r => r.setTables a.option (t.add a)

/-- `LoaderManager.register_class_exclude` (lookup.py:1017-1053).  The comparison
`hkl_str_to_ignore[0] == hkl_str_to_ignore[-1] == b'!'` compares integers with a bytes object
and is therefore never true. -/
def registerExclude (base : String) (o : Opt) : M Registry Unit := do
  let r ← M.get
  if base.toList = [] then M.throw .indexError
  else if disallowedToIgnore.contains base then M.throw .valueError
  else match r.tables o with
    | none => M.throw .lookupError
    | some t =>
      M.modify fun r => r.setTables o
        { t with fns := Assoc.put t.fns base .nothing, conts := Assoc.put t.conts base .noContainer }

/-- a loader module: its `class_register` and `exclude_register` -/
structure LoaderMod where
  register : List RegArgs
  exclude : List (String × Opt) := []

/-- load_builtins.py:528-543 -/
def loadBuiltins : LoaderMod where
  register := [
    { cls := .list, base := "list", dump := some .listlike, load := some .list, cont := some .listLike },
    { cls := .tuple, base := "tuple", dump := some .listlike, load := some .list, cont := some .listLike },
    { cls := .dict, base := "dict", dump := some .dictlike, cont := some .dictLike },
    { cls := .set, base := "set", dump := some .setlike, load := some .list, cont := some .setLike },
    { cls := .bytes, base := "bytes", dump := some .listlike, load := some .list },
    { cls := .str, base := "str", dump := some .listlike, load := some .list },
    { cls := .str, base := "str", load := some .str4x, option := some "hickle-4.x" },
    { cls := .int, base := "int", dump := some .scalar, load := some .scalar, memoise := false },
    { cls := .float, base := "float", dump := some .scalar, load := some .scalar, memoise := false },
    { cls := .complex, base := "complex", dump := some .scalar, load := some .scalar, memoise := false },
    { cls := .bool, base := "bool", dump := some .scalar, load := some .scalar, memoise := false },
    { cls := .noneType, base := "None", dump := some .none, load := some .none, memoise := false } ]

/-- load_numpy.py:318-344, but for `np.dtype`, which is not among the classes of the model -/
def loadNumpy : LoaderMod where
  register := [
    { cls := .npNumber, base := "np_scalar", dump := some .npScalar, load := some .npScalar, memoise := false },
    { cls := .npGeneric, base := "np_scalar", dump := some .npScalar, load := some .npScalar, memoise := false },
    { cls := .ndarray, base := "ndarray", dump := some .npArray, load := some .ndarray, cont := some .ndarrayLike },
    { cls := .masked, base := "ndarray_masked", dump := some .npMasked, cont := some .ndmasked },
    { cls := .masked, base := "ndarray_masked_data", load := some .ndmasked4x, memoise := false, option := some "hickle-4.x" },
    { cls := .matrix, base := "np_matrix", dump := some .npArray, load := some .ndarray } ]
  exclude := [("ndarray_masked_mask", some "hickle-4.x")]

/-- load_scipy.py:117-123 -/
def loadScipy : LoaderMod where
  register := [
    { cls := .csr, base := "csr_matrix", dump := some .sparse, cont := some .sparse },
    { cls := .csc, base := "csc_matrix", dump := some .sparse, cont := some .sparse },
    { cls := .bsr, base := "bsr_matrix", dump := some .sparse, cont := some .sparse } ]

/-- registrations made when `hickle.lookup` is imported (lookup.py:1419, 1456, 1515, 1571, 1591) -/
def coreRegister : List RegArgs := [
    { cls := .nodeRef, base := "!node-reference!", dump := some .dumpNothing, load := some .nothing,
      cont := some .expandRef, memoise := false, src := .core },
    { cls := .object, base := "pickle", load := some .pickled, src := .core },
    { cls := .recover, base := "!recover!", load := some .recover, cont := some .recoverGroup, src := .core } ]

/-- the environment: user classes, loader modules of other packages, interpreter limits -/
structure Env where
  u : Nat → UserCls
  /-- loader module found for a top level package other than builtins, numpy and scipy -/
  mods : String → Option LoaderMod
  /-- `repr(float)` and `float(text)` -/
  reprF : F64 → PyStr
  parseF : PyStr → Option F64
  /-- `repr(complex)` and `complex(text)` -/
  reprC : F64 → F64 → PyStr
  parseC : PyStr → Option (F64 × F64)
  /-- `sys.get_int_max_str_digits()`: longest decimal text `str(int)`/`int(str)` handle; `none`: no limit -/
  maxDigits : Option Nat
  /-- numpy's `NPY_MAXDIMS` -/
  maxDims : Nat
  /-- whether `np.ndim` raises on ragged nested sequences (numpy >= 1.24) -/
  raggedRaises : Bool
  /-- value equality of opaque objects by state -/
  opaqueEq : Nat → Nat → Bool

/-- the loader module hickle finds for a package (lookup.py:1208-1294), abstracting from the
file system search, which is in `LoaderSearch.lean` -/
def Env.loaderMod (env : Env) (p : String) : Option LoaderMod :=
  if p = "builtins" then some loadBuiltins
  else if p = "numpy" then some loadNumpy
  else if p = "scipy" then some loadScipy
  else env.mods p

/-- one `LoaderManager` object: the option maps in lookup order (lookup.py:1087-1129) -/
structure Manager where
  maps : List Opt
  deriving Repr

namespace Manager

def chainOf {κ ν : Type} [DecidableEq κ] (m : Manager) (r : Registry) (proj : Tables → List (κ × ν)) (k : κ) : Option ν :=
  Assoc.chain (m.maps.filterMap fun o => (r.tables o).map proj) k

/-- `types_dict.get(cls)` -/
def typeEntry (m : Manager) (r : Registry) (c : Cls) : Option Entry := m.chainOf r (·.types) c
/-- `hkl_types_dict.get(base_type)` -/
def loadFn (m : Manager) (r : Registry) (b : String) : Option LoadFn := m.chainOf r (·.fns) b
/-- `hkl_container_dict.get(base_type)` -/
def container (m : Manager) (r : Registry) (b : String) : Option ContK := m.chainOf r (·.conts) b

end Manager

/-- run all registrations of a loader module and remember it as loaded (lookup.py:1297-1301) -/
def runLoader (name : String) (lm : LoaderMod) : M Registry Unit := do
  M.forEach registerClass lm.register
  M.forEach (fun (p : String × Opt) => registerExclude p.1 p.2) lm.exclude
  M.modify fun r => { r with loaded := name :: r.loaded }

/-- store a class entry in the first map of the chain (`types_dict[mro_item] = ...`, lookup.py:1197) -/
def putDummy (m : Manager) (c : Cls) (e : Entry) : M Registry Unit := do
  let r ← M.get
  match m.maps with
  | [] => pure ()
  | o :: _ => match r.tables o with
    | some t => M.modify fun r => r.setTables o { t with types := Assoc.put t.types c e }
    | none => pure ()

/-- the loop over the mro in `LoaderManager.load_loader` (lookup.py:1163-1315) -/
def loadLoaderAux (env : Env) (m : Manager) (c : Cls) (base : Option String) :
    List Cls → M Registry (Cls × Entry)
  | [] => pure (.object, ⟨.pickled, "pickle", true⟩)                      -- 1315
  | k :: ks => do
    let r ← M.get
    match m.typeEntry r k with
    | some e => pure (c, e)                                               -- 1166-1168
    | none =>
      match k.origin env.u with
      | .core =>                                                          -- 1175-1182
        match base with
        | some b => if (m.loadFn r b).isSome || (m.container r b).isSome
                    then pure (c, ⟨.notDumpable, b, true⟩) else M.throw .runtimeError
        | none => M.throw .runtimeError
      | .dummy l =>                                                       -- 1194-1207
        putDummy m k ⟨.notDumpable, "NotHicklable", false⟩
        if r.loaded.contains l then pure (c, ⟨.notDumpable, "NotHicklable", false⟩)
        else match env.loaderMod l with
          | none => loadLoaderAux env m c base ks
          | some lm => do
            runLoader l lm
            let r' ← M.get
            match m.typeEntry r' k with
            | some e => pure (c, e)
            | none => loadLoaderAux env m c base ks
      | .pkg p =>
        if r.loaded.contains p then loadLoaderAux env m c base ks         -- 1249-1252
        else match env.loaderMod p with
          | none => loadLoaderAux env m c base ks                         -- 1268, 1282
          | some lm => do
            runLoader p lm                                                -- 1297-1301
            let r' ← M.get
            match m.typeEntry r' k with
            | some e => pure (c, e)                                       -- 1311
            | none => loadLoaderAux env m c base ks                       -- 1305-1308

/-- `LoaderManager.load_loader(py_obj_type, base_type=...)` (lookup.py:1131-1315) -/
def loadLoader (env : Env) (m : Manager) (c : Cls) (base : Option String) : M Registry (Cls × Entry) :=
  loadLoaderAux env m c base (c.mro env.u)

/-- the registry right after `import hickle` -/
def Registry.initial : Registry := (M.forEach registerClass coreRegister {}).2

end Verif
