import Verif.Hickle.Steps
import Verif.Hickle.Top
/-!
# `hickle.dump` in single steps

The functions of `Verif/Hickle/Dump.lean` and the dump part of `Verif/Hickle/Top.lean` once more, each call of h5py and each statement on
hickle's own tables being a step of its own; `StepSeq.lean` proves that the steps one after the other are what the functions there do.
`create_dataset` is two steps: it makes a dataset and then writes to it; if an exception comes between these two the dataset is left
without its data.  Simplification: every other call of h5py is one step.  `create_group` of a path makes several groups, here all or
none.
-/
namespace Verif

/-- what a dataset holds that was made and not yet written (HDF5's fill value): `h5py._hl.dataset.make_new_dset` calls `h5d.create` and
then `write`.  Simplification: the length of a pickle string is not known, it counts as one byte. -/
def Data.blank : Data → Data
  | .null t => .null t
  | .scalar v => .scalar v.dt.zero
  | .vec d l => .vec d (l.map fun _ => d.zero)
  | .array d sh l => .array d sh (l.map fun _ => d.zero)
  | .chars b => .chars (b.map fun _ => 0)
  | .raw b => .raw (b.map fun _ => 0)
  | .ref _ | .nullRef => .nullRef
  | .pickleObj _ _ | .pickleCls _ => .raw [0]

namespace Prog

/-- `dset_id.write(...)` in h5py's `make_new_dset` -/
def write (n : NodeId) (d : Data) : Prog DState Unit := op true (M.modify fun s => { s with store := s.store.write n d })

/-- `h_group.create_dataset(name, ...)`: the dataset is made and linked, then written (h5py `_hl/dataset.py:make_new_dset`) -/
def mkDset (kw : List Kw) (parent : NodeId) (name : PyStr) (d : Data) : Prog DState NodeId := do
  let n ← op true (Verif.mkDset kw parent name d.blank)
  write n d
  pure n

/-- `h_group.create_group(name)` -/
def mkGroup (parent : NodeId) (name : PyStr) : Prog DState NodeId := op true (Verif.mkGroup parent name)

/-- `h_node.attrs[k] = v` -/
def setAttr (n : NodeId) (k : String) (v : AttrVal) : Prog DState Unit := op true (Verif.setAttr n k v)

/-- `h_node.attrs.update(attrs)` -/
def setAttrs (n : NodeId) (attrs : Attrs) : Prog DState Unit := forEach (fun (p : String × AttrVal) => setAttr n p.1 p.2) attrs

/-- `create_scalar_dataset` (load_builtins.py:47-75) -/
def createScalar (c : DCtx) (o : Obj) (parent : NodeId) (name : PyStr) : Prog DState NodeId :=
  match o.val with
  | .int i =>
    if bitLength i > 63 then
      if digitsOk c.env i then mkDset c.kw parent name (.raw (asciiBytes (showInt i)))
      else raise .valueError
    else mkDset (noCompression c.kw) parent name (.scalar (.i i))
  | .bool b => mkDset (noCompression c.kw) parent name (.scalar (.b b))
  | .float x => mkDset (noCompression c.kw) parent name (.scalar (.f x))
  | .cplx x y => mkDset (noCompression c.kw) parent name (.scalar (.c x y))
  | _ => raise .unmodelled

/-- `create_none_dataset` (load_builtins.py:78-99) -/
def createNone (c : DCtx) (parent : NodeId) (name : PyStr) : Prog DState NodeId :=
  mkDset (noCompression c.kw) parent name (.null "V1")

/-- the part of `create_listlike_dataset` behind the dtype check (load_builtins.py:186-204) -/
def createItems (c : DCtx) (h : Heap) (items : List Addr) (dt : Option ItemDT) (parent : NodeId) (name : PyStr) :
    Prog DState (NodeId × Subs) :=
  match dt with
  | some (.num d) => do
    let vals := castPrefix h d items
    let n ← mkDset c.kw parent name (.vec d (vals ++ List.replicate (items.length - vals.length) d.zero))
    if vals.length = items.length then pure (n, []) else raise .overflowError
  | some .bytes => raise .unmodelled
  | none => do
    let n ← mkGroup parent name
    setAttr n "num_items" (.int items.length)
    pure (n, listSubs 0 items)

/-- `create_listlike_dataset` (load_builtins.py:144-204) -/
def createListlike (c : DCtx) (h : Heap) (o : Obj) (parent : NodeId) (name : PyStr) : Prog DState (NodeId × Subs) :=
  match o.val with
  | .str s =>
    match utf8Encode s with
    | none => raise .unicodeEncodeError
    | some b => do
      let n ← mkDset c.kw parent name (.chars b)
      setAttr n "str_type" (.bytes (o.cls.name c.env.u))
      pure (n, [])
  | .bytes b => do
      let n ← mkDset c.kw parent name (.chars b)
      setAttr n "str_type" (.bytes (o.cls.name c.env.u))
      pure (n, [])
  | .seq [] => do
      let n ← mkDset (noCompression c.kw) parent name (.null "int")
      pure (n, [])
  | .seq items =>
    match checkItems c.env h items with
    | .error e => raise e
    | .ok dt => createItems c h items dt parent name
  | _ => raise .unmodelled

/-- `create_setlike_dataset` (load_builtins.py:207-245).  The empty set becomes a dataset of shape
`(0,)`: h5py takes the shape from `data=[]`. -/
def createSetlike (c : DCtx) (h : Heap) (o : Obj) (parent : NodeId) (name : PyStr) : Prog DState (NodeId × Subs) :=
  match o.val with
  | .set [] => do
      let n ← mkDset (noCompression c.kw) parent name (.vec .int64 [])
      pure (n, [])
  | .set items =>
    match checkItems c.env h items with
    | .error e => raise e
    | .ok dt => createItems c h items dt parent name
  | _ => raise .unmodelled

/-- `create_dictlike_dataset` (load_builtins.py:251-307) -/
def createDictlike (c : DCtx) (h : Heap) (o : Obj) (parent : NodeId) (name : PyStr) : Prog DState (NodeId × Subs) :=
  match o.val with
  | .dict es => do
      let n ← mkGroup parent name
      pure (n, dictSubs c.env h 0 es)
  | _ => raise .unmodelled

/-- `create_np_scalar_dataset` (load_numpy.py:21-46) -/
def createNpScalar (c : DCtx) (o : Obj) (parent : NodeId) (name : PyStr) : Prog DState NodeId :=
  match o.val with
  | .np v => do
      let n ← mkDset (noCompression c.kw) parent name (.scalar v)
      setAttr n "np_dtype" (.dt v.dt)
      pure n
  | _ => raise .unmodelled

/-- `create_listlike_dataset` on the list `ndarray.tolist()` of an array of shape `n :: sh`
whose items are strings or lists (load_builtins.py:164-204).  An array has as many elements as its
shape says. -/
def createRows (c : DCtx) (n : Nat) (sh : List Nat) (ls : List Leaf) (parent : NodeId) (name : PyStr) : Prog DState (NodeId × Subs) :=
  if ls.length ≠ n * shSize sh then raise .unmodelled
  else if n = 0 then do
    let m ← mkDset (noCompression c.kw) parent name (.null "int")
    pure (m, [])
  else do
    let m ← mkGroup parent name
    setAttr m "num_items" (.int n)
    pure (m, nestSubs sh 0 n ls)

/-- the node of an array of objects (load_numpy.py:112-123).  An array without dimensions gives its only
element, which is stored like an array of objects itself if it is a list. -/
def createObjects (c : DCtx) (h : Heap) (shape : List Nat) (items : List Addr) (parent : NodeId) (name : PyStr) : Prog DState (NodeId × Subs) :=
  match shape, items with
  | [], [a] =>
    match h[a]? with
    | some ⟨cl, .seq l⟩ =>
      if Cls.list ∈ cl.mro c.env.u then createListlike c h ⟨cl, .seq l⟩ parent name
      else do
        let n ← mkGroup parent name
        pure (n, [.ok ⟨ps "data", .addr a, []⟩])
    | some _ => do
      let n ← mkGroup parent name
      pure (n, [.ok ⟨ps "data", .addr a, []⟩])
    | none => raise .unmodelled
  | [_], items => createListlike c h ⟨.list, .seq items⟩ parent name
  | n :: sh, items => createRows c n sh (items.map .addr) parent name
  | [], _ => raise .unmodelled

/-- the node of an array of strings (load_numpy.py:101-111) -/
def createStrings (c : DCtx) (shape : List Nat) (data : List PyStr) (parent : NodeId) (name : PyStr) : Prog DState (NodeId × Subs) :=
  match shape, data with
  | [], [s] =>
    match utf8Encode s with
    | none => raise .unicodeEncodeError
    | some b => do
      let n ← mkDset c.kw parent name (.chars b)
      pure (n, [])
  | [], _ => raise .unmodelled
  | n :: sh, data => createRows c n sh (data.map fun s => .obj ⟨.str, .str s⟩) parent name

/-- set the `np_dtype` attribute of the new node (load_numpy.py:129) -/
def withDtype (x : Prog DState (NodeId × Subs)) (d : AttrVal) : Prog DState (NodeId × Subs) := do
  let r ← x
  setAttr r.1 "np_dtype" d
  pure r

/-- `create_np_array_dataset` (load_numpy.py:74-130); arrays of bytes and of structures are not modelled -/
def createNpArray (c : DCtx) (h : Heap) (o : Obj) (parent : NodeId) (name : PyStr) : Prog DState (NodeId × Subs) :=
  match o.val with
  | .arr d shape data => withDtype (do
      let n ← mkDset c.kw parent name (.array d shape data)
      pure (n, [])) (.dt d)
  | .sarr w shape data => withDtype (createStrings c shape data parent name) (.udt w)
  | .oarr shape items => withDtype (createObjects c h shape items parent name) .odt
  | _ => raise .unmodelled

/-- `create_np_masked_array_dataset` (load_numpy.py:132-159), numeric dtypes -/
def createMasked (o : Obj) (parent : NodeId) (name : PyStr) : Prog DState (NodeId × Subs) :=
  match o.val with
  | .masked d shape data mask => do
      let n ← mkGroup parent name
      setAttr n "np_dtype" (.dt d)
      pure (n, [.ok ⟨ps "data", .nest .list [] [.obj ⟨.ndarray, .arr d shape data⟩], []⟩,
        .ok ⟨ps "mask", .nest .list [] [.obj (maskObj shape mask)], []⟩])
  | _ => raise .unmodelled

/-- `create_sparse_dataset` (load_scipy.py:22-48).  The matrices of scipy have two dimensions. -/
def createSparse (o : Obj) (parent : NodeId) (name : PyStr) : Prog DState (NodeId × Subs) :=
  match o.val with
  | .sparse d i p shape =>
    if shape.length ≠ 2 then raise .unmodelled
    else do
      let n ← mkGroup parent name
      pure (n, [.ok ⟨ps "data", .addr d, []⟩, .ok ⟨ps "indices", .addr i, []⟩, .ok ⟨ps "indptr", .addr p, []⟩,
        .ok ⟨ps "shape", .nest .tuple [shape.length] (shape.map fun (n : Nat) => .obj ⟨.int, .int n⟩), []⟩])
  | _ => raise .unmodelled

/-- `create_pickled_dataset` (lookup.py:1461-1501).  Pickling is modelled for opaque objects. -/
def createPickled (c : DCtx) (o : Obj) (parent : NodeId) (name : PyStr) : Prog DState NodeId :=
  match o.val with
  | .opaque st true => mkDset c.kw parent name (.pickleObj o.cls st)
  | .opaque _ false => raise .picklingError
  | _ => raise .unmodelled

/-- no sub items -/
def leaf (x : Prog DState NodeId) : Prog DState (NodeId × Subs) := do
  let n ← x
  pure (n, [])

/-- call of the create function an entry names (hickle.py:124) -/
def createFn (c : DCtx) (fn : DumpFn) (h : Heap) (o : Obj) (parent : NodeId) (name : PyStr) : Prog DState (NodeId × Subs) :=
  match fn with
  | .scalar => leaf (createScalar c o parent name)
  | .none => leaf (createNone c parent name)
  | .listlike => createListlike c h o parent name
  | .setlike => createSetlike c h o parent name
  | .dictlike => createDictlike c h o parent name
  | .npScalar => leaf (createNpScalar c o parent name)
  | .npArray => createNpArray c h o parent name
  | .npMasked => createMasked o parent name
  | .sparse => createSparse o parent name
  | .pickled => leaf (createPickled c o parent name)
  | .notDumpable => raise .runtimeError             -- helpers.py:221
  | .refusing => raise .notHicklable
  | .dumpNothing => raise .unmodelled
  | .custom _ => raise .unmodelled

/-- the entry of a base type in the types table (lookup.py:663-670) -/
def baseEntry (c : DCtx) (base : String) : Prog DState NodeId := do
  let s ← view
  match Assoc.get? s.blinks base with
  | some b => pure b
  | none => do
    let b ← mkDset (noCompression c.kw) c.table (ps base) (.null "S1")
    op false (M.modify fun s => { s with blinks := Assoc.put s.blinks base b })
    pure b

/-- the entry of a class in the types table (lookup.py:639-674) -/
def typeEntryNode (c : DCtx) (cls : Cls) (base : String) : Prog DState NodeId := do
  let s ← view
  match Assoc.get? s.tlinks cls with
  | some e => pure e
  | none =>
    if base.toList = [] then raise .valueError
    else if !clsPicklable c.env cls then raise .picklingError
    else
      match s.store.links c.table with
      | none => raise .unmodelled
      | some ls => do
        let e ← mkDset c.kw c.table (digits ls.length) (.pickleCls cls)
        let b ← baseEntry c base
        setAttr e "base_type" (.ref b)
        op false (M.modify fun s => { s with tlinks := Assoc.put s.tlinks cls e })
        pure e

/-- `ReferenceManager.store_type` (lookup.py:582-675) -/
def storeType (c : DCtx) (n : NodeId) (cls : Cls) (base : String) : Prog DState Unit :=
  if cls = .object then pure ()
  else do
    let e ← typeEntryNode c cls base
    setAttr n "type" (.ref e)

/-- the part of `_dump` that creates the node and stores its type (hickle.py:122-129) -/
def dumpCreate (c : DCtx) (o : Obj) (parent : NodeId) (name : PyStr) : Prog DState (NodeId × Subs × Bool) := do
  let (cls, e) ← ask c.mgr o.cls none
  let s ← view
  let r ← attempt (createFn c e.fn s.heap o parent name)
  match r with
  | .ok (n, subs) => do
      storeType c n cls e.base
      pure (n, subs, e.memoise)
  | .error err =>
      if err = .notHicklable then do
        let n ← createPickled c o parent name
        pure (n, [], e.memoise)
      else raise err

/-- the object of a sub item; temporary objects come into being here -/
def subAddr (so : SubObj) : Prog DState Addr := op false (Verif.subAddr so)

/-- `_dump` (hickle.py:77-145); `fuel` is the remaining recursion depth -/
def dumpNode (c : DCtx) : Nat → Addr → NodeId → PyStr → Attrs → Prog DState Unit
  | 0, _, _, _, _ => raise .recursionError
  | fuel + 1, a, parent, name, attrs => do
    let s ← view
    match Assoc.get? s.memo a with
    | some n => do                                                  -- 105-117
      let l ← mkDset [] parent name (.ref n)
      setAttrs l attrs
    | none =>
      match s.heap[a]? with
      | none => raise .unmodelled
      | some o => do
        let (n, subs, memoise) ← dumpCreate c o parent name         -- 122-129
        setAttrs n (attrs.filter fun p => p.1 ≠ "type")             -- 132
        (if memoise then op false (M.modify fun s => { s with memo := Assoc.put s.memo a n })
         else pure ())                                              -- 139-140
        forEach (fun sub => match sub with                        -- 144-145
          | .error e => raise e
          | .ok sub => do
            let b ← subAddr sub.obj
            dumpNode c fuel b n sub.name sub.attrs) subs

/-! ### the call -/

/-- the file and the process, and the objects and tables of the dump in progress -/
abbrev Call := Session × DState

/-- a step of the dump: the file and the registry are those of the process -/
def onD {α : Type} (x : M DState α) : M Call α := fun s =>
  let y := x { s.2 with store := s.1.store, reg := s.1.reg }
  (y.1, { s.1 with store := y.2.store, reg := y.2.reg }, y.2)

/-- a step outside the dump (or load) proper; `τ` is the state of what is in progress -/
def onS {τ α : Type} (x : SM α) : M (Session × τ) α := fun s => ((x s.1).1, (x s.1).2, s.2)

/-- the steps of the dump -/
def within {α : Type} : Prog DState α → Prog Call α
  | .ret r => .ret r
  | .act io x k => .act io (onD x) fun r => within (k r)
  | .look m c b k => .look m c b fun r => within (k r)

/-- `h_root_group.attrs[...] = ...` -/
def sSetAttr {τ : Type} (g : NodeId) (k : String) (v : AttrVal) : Prog (Session × τ) Unit := op true (onS (Verif.sSetAttr g k v))

/-- the options handed to `dump` (lookup.py:1104-1118) -/
def setOptions {τ : Type} (g : NodeId) : List (String × Bool) → List Opt → Prog (Session × τ) (List Opt)
  | [], maps => pure maps
  | (k, on) :: ks, maps =>
    if on then do
      sSetAttr g (optAttr k) (.bool true)
      if validOption k then setOptions g ks (some k :: maps) else raise .lookupError
    else setOptions g ks maps

/-- the maps in lookup order (lookup.py:1087-1118) -/
def optionMaps {τ : Type} (g : NodeId) : Option (List (String × Bool)) → Prog (Session × τ) (List Opt)
  | some os => setOptions g os [none]
  | none => op true (onS (Verif.optionMaps g none))

/-- `LoaderManager.create_manager` (lookup.py:1318-1348, 293-330): the entry of the file is made, then the function has to return and the
`with` statement to begin (the step that does nothing) -/
def loaderEnter {τ : Type} (g : NodeId) (options : Option (List (String × Bool))) : Prog (Session × τ) Manager := do
  let s ← view
  if s.1.ldr then raise .lookupError
  else do
    let maps ← optionMaps g options
    op false (onS (M.modify fun s => { s with ldr := true }))
    op false (pure ())
    pure ⟨maps⟩

/-- `ReferenceManager.create_manager` (lookup.py:453-481, 293-330) -/
def refEnter {τ : Type} (env : Env) (g : NodeId) : Prog (Session × τ) RefMgr := do
  let s ← view
  if s.1.ref then raise .lookupError
  else do
    let m ← op true (onS (refInit env g))
    op false (onS (M.modify fun s => { s with ref := true }))
    op false (pure ())
    pure m

/-- `_dump(py_obj, h_root_group, 'data', memo, loader)` (hickle.py:236) -/
def dumpData (a : DumpArgs) (g : NodeId) (mgr : Manager) (m : RefMgr) : Prog Call Unit :=
  match m.table with
  | none => raise .unmodelled
  | some T => do
    op false (M.modify fun s => (s.1, { heap := a.heap, store := [], tlinks := m.tl, blinks := m.bl, reg := {} }))
    within (dumpNode ⟨a.env, mgr, a.kw, T⟩ a.fuel a.obj g dataName0 [])

/-- `dump` behind the opening of the file (hickle.py:218-236) -/
def dumpTop (a : DumpArgs) : Prog Call Unit := do
  let s ← view
  if !s.1.writable then raise .fileError
  else do
    let g ← op true (onS (dumpGroup a.path))
    sSetAttr g "HICKLE_VERSION" (.bytes hickleVersion)
    sSetAttr g "HICKLE_PYTHON_VERSION" (.bytes (verText a.pyver))
    let mgr ← loaderEnter g a.options
    finally' (do
      let m ← refEnter a.env g
      finally' (dumpData a g mgr m) (op false (onS (refExit m)))) (op false (onS loaderExit))

/-- how the registry answers during a dump (hickle.py:122) -/
def dLook (env : Env) : Lk DState := fun m c b => onReg (loadLoader env m c b)

/-- the same, in the whole call -/
def cLook (env : Env) : Lk Call := fun m c b => onD (dLook env m c b)

/-- A dump into an open file with the given events.  `all = false`: calls of h5py raise exceptions; `all = true`: exceptions come
anywhere, as `KeyboardInterrupt` does. -/
def dumpF (all : Bool) (es : List Ev) (a : DumpArgs) : SM Unit := fun s =>
  let y := runF all (cLook a.env) (dumpTop a) es (s, { heap := a.heap, store := [], reg := {} })
  (y.1, y.2.1)

end Verif.Prog
