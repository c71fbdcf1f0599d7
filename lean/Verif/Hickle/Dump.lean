import Verif.H5.Store
import Verif.Hickle.Registry
import Verif.Py.Dec
import Verif.Py.Eq
/-!
# Dumping

Models `hickle/hickle.py` `_dump` (77-145), `hickle/lookup.py` `ReferenceManager.store_type`
(582-675) and `create_pickled_dataset` (1461-1501), `hickle/helpers.py` `no_compression`
(189-205) and `not_dumpable` (210-221), and the create functions of
`hickle/loaders/load_builtins.py` (47-307), `load_numpy.py` (21-159, but for `create_np_dtype`) and
`load_scipy.py` (22-48).
-/
namespace Verif

/-- the text of an ASCII string -/
def ps (s : String) : PyStr := s.toList.map Char.toNat

/-- state of a running dump: the objects (grows by temporary ones), the file,
the `ReferenceManager` tables, the loader registry -/
structure DState where
  heap : Heap
  store : Store
  /-- `memo[id(obj)]` (hickle.py:139-140) -/
  memo : List (Addr × NodeId) := []
  /-- `_py_obj_type_link[id(cls)]` (lookup.py:674) -/
  tlinks : List (Cls × NodeId) := []
  /-- `_base_type_link[base_type]` (lookup.py:665) -/
  blinks : List (String × NodeId) := []
  reg : Registry

/-- what stays fixed during one dump -/
structure DCtx where
  env : Env
  mgr : Manager
  /-- keyword arguments of `dump` for `create_dataset`; hickle hands the same ones to every node -/
  kw : List Kw := []
  /-- the `hickle_types_table` group -/
  table : NodeId

abbrev DM := M DState

/-- `no_compression` (helpers.py:189-205) -/
def noCompression (kw : List Kw) : List Kw := kw.filter fun k => !k.isFilter

/-- `h_group.create_dataset(name, ...)` -/
def mkDset (kw : List Kw) (parent : NodeId) (name : PyStr) (d : Data) : DM NodeId := fun s =>
  match checkKw kw d with
  | .error e => (.error e, s)
  | .ok () =>
    match s.store.create parent name (.dset d) with
    | .error e => (.error e, s)
    | .ok (n, st) => (.ok n, { s with store := st })

/-- `h_group.create_group(name)` -/
def mkGroup (parent : NodeId) (name : PyStr) : DM NodeId := fun s =>
  match s.store.create parent name (.group []) with
  | .error e => (.error e, s)
  | .ok (n, st) => (.ok n, { s with store := st })

/-- `h_node.attrs[k] = v` -/
def setAttr (n : NodeId) (k : String) (v : AttrVal) : DM Unit :=
  M.modify fun s => { s with store := s.store.setAttr n k v }

/-- `h_node.attrs.update(attrs)` -/
def setAttrs (n : NodeId) (attrs : Attrs) : DM Unit :=
  M.forEach (fun (p : String × AttrVal) => setAttr n p.1 p.2) attrs

/-- allocate a temporary object -/
def dAlloc (o : Obj) : DM Addr := fun s =>
  (.ok s.heap.length, { s with heap := s.heap ++ [o] })

/-- run a registry computation -/
def onReg {α : Type} (x : M Registry α) : DM α := fun s =>
  match x s.reg with
  | (r, reg) => (r, { s with reg := reg })

/-! ### items of lists -/

/-- an item whose class has a numpy dtype of its own: Python and numpy numbers of exactly these
classes (`np.dtype(item.__class__)` is `object` for subclasses) -/
def exactNum (o : Obj) : Option NpVal :=
  match o.cls, o.val with
  | .bool, .bool b => some (.b b)
  | .int, .int i => some (.i i)
  | .float, .float x => some (.f x)
  | .complex, .cplx x y => some (.c x y)
  | .npBool, .np (.b b) => some (.b b)
  | .npInt64, .np (.i i) => some (.i i)
  | .npFloat64, .np (.f x) => some (.f x)
  | .npComplex128, .np (.c x y) => some (.c x y)
  | _, _ => none

/-- `np.shape(obj)`; `none` when the nested sequences are ragged or nested too deeply -/
def npShape (h : Heap) : Nat → Addr → Option (List Nat)
  | 0, _ => none
  | fuel + 1, a =>
    match h[a]? with
    | some ⟨_, .seq items⟩ =>
      match items.mapM (npShape h fuel) with
      | none => none
      | some [] => some [0]
      | some (sh :: shs) => if shs.all (· = sh) then some ((sh :: shs).length :: sh) else none
    | some ⟨_, .arr _ shape _⟩ | some ⟨_, .sarr _ shape _⟩ | some ⟨_, .oarr shape _⟩ | some ⟨_, .masked _ shape _ _⟩ => some shape
    | _ => some []

/-- `np.ndim(item) != 0`; a sparse matrix has two dimensions -/
def hasDims (env : Env) (h : Heap) (a : Addr) : Except PyErr Bool :=
  match h[a]? with
  | some ⟨_, .seq _⟩ =>
    if (npShape h (env.maxDims + 1) a).isSome || !env.raggedRaises then .ok true else .error .valueError
  | some ⟨_, .arr _ shape _⟩ | some ⟨_, .sarr _ shape _⟩ | some ⟨_, .oarr shape _⟩ | some ⟨_, .masked _ shape _ _⟩ => .ok (!shape.isEmpty)
  | some ⟨_, .sparse ..⟩ => .ok true
  | _ => .ok false

/-- the dtype found by `check_iterable_item_type`; lists of one-byte `bytes` objects get a bytes
dtype, which is not modelled further -/
inductive ItemDT where
  | num (d : DT)
  | bytes
  deriving DecidableEq, Repr

/-- one round of the loop of `check_iterable_item_type` (load_builtins.py:128-141).
`none`: no common dtype. -/
def itemStep (env : Env) (h : Heap) (cur : ItemDT) (a : Addr) : Except PyErr (Option ItemDT) :=
  match hasDims env h a with
  | .error e => .error e
  | .ok true => .ok none
  | .ok false =>
    match h[a]? with
    | some o =>
      match exactNum o with
      | some v => match cur with
        | .num d => .ok (some (.num (d.join v.dt)))
        | .bytes => .error .typeError              -- `len(item)` of a number
      | none => match o.cls, o.val with
        | .bytes, .bytes b => if b.length > 1 then .ok none else .ok (some .bytes)
        | _, _ => .ok none
    | none => .error .unmodelled

/-- the loop of `check_iterable_item_type` (load_builtins.py:128-142) -/
def itemLoop (env : Env) (h : Heap) : ItemDT → List Addr → Except PyErr (Option ItemDT)
  | cur, [] => .ok (some cur)
  | cur, a :: as =>
    match itemStep env h cur a with
    | .error e => .error e
    | .ok none => .ok none
    | .ok (some d) => itemLoop env h d as

/-- `check_iterable_item_type` (load_builtins.py:102-142) on a non-empty sequence.  For the first
item every branch but number and short `bytes` ends in `return None` (118-127). -/
def checkItems (env : Env) (h : Heap) : List Addr → Except PyErr (Option ItemDT)
  | [] => .ok none
  | a :: as =>
    match h[a]? with
    | some o =>
      match exactNum o with
      | some v => itemLoop env h (.num v.dt) as
      | none => match o.cls, o.val with
        | .bytes, .bytes b => if b.length > 1 then .ok none else itemLoop env h .bytes as
        | _, _ => .ok none
    | none => .error .unmodelled

/-- `item_dtype.type(item)` for all items of the sequence -/
def castItem (h : Heap) (d : DT) (a : Addr) : Option NpVal :=
  match h[a]? with
  | some o => (exactNum o).bind (castNum d)
  | none => none

/-- fill value of a new dataset -/
def DT.zero : DT → NpVal
  | .bool => .b false
  | .int64 => .i 0
  | .float64 => .f .zero
  | .complex128 => .c .zero .zero

/-- the values written before the first item that does not fit (load_builtins.py:191-192) -/
def castPrefix (h : Heap) (d : DT) : List Addr → List NpVal
  | [] => []
  | a :: as => match castItem h d a with
    | some v => v :: castPrefix h d as
    | none => []

/-! ### create functions -/

/-- an element of a temporary object: an existing object or a new one -/
inductive Leaf where
  | addr (a : Addr)
  | obj (o : Obj)
  deriving DecidableEq, Repr

/-- The object of a sub item: an existing object; the tuple `(key, value)` that the generator of
`create_dictlike_dataset` builds when it is asked for the item; or an object made for the dump by an
attribute or method of the dumped object.  The last are nested sequences of class `c` and shape `sh` with
the elements `ls` in order: rows of `ndarray.tolist()`, `MaskedArray.data` and `.mask`,
the `shape` of a sparse matrix.  Simplification: the sequences inside `tolist()` come into being when
their row is dumped, not all at once. -/
inductive SubObj where
  | addr (a : Addr)
  | pair (k v : Addr)
  | nest (c : Cls) (sh : List Nat) (ls : List Leaf)
  deriving DecidableEq, Repr

/-- number of elements of an array of the given shape -/
def shSize : List Nat → Nat
  | [] => 1
  | n :: sh => n * shSize sh

/-- an element of an array of strings of width `w`: longer strings are cut, trailing NUL characters are
not kept by numpy -/
def fixStr (w : Nat) (s : PyStr) : PyStr := ((s.take w).reverse.dropWhile (· = 0)).reverse

/-- the rows of a nested sequence, built by `f` from `sz` elements each: the new objects and the rows -/
def nestRows (f : List Leaf → Nat → List Obj × Addr) (sz : Nat) : Nat → List Leaf → Nat → List Obj × List Addr
  | 0, _, _ => ([], [])
  | k + 1, ls, st =>
    let x := f (ls.take sz) st
    let y := nestRows f sz k (ls.drop sz) (st + x.1.length)
    (x.1 ++ y.1, x.2 :: y.2)

/-- The new objects of a nested sequence and its address, if they are placed at address `st` and
following; an array of shape `[]` has one element. -/
def nestBlock (c : Cls) : List Nat → List Leaf → Nat → List Obj × Addr
  | [], .obj o :: _, st => ([o], st)
  | [], .addr a :: _, _ => ([], a)
  | [], [], _ => ([], 0)
  | n :: sh, ls, st =>
    let x := nestRows (nestBlock c sh) (shSize sh) n ls st
    (x.1 ++ [⟨c, .seq x.2⟩], st + x.1.length)

/-- one element of `h_subitems`: name, object, attributes -/
structure Sub where
  name : PyStr
  obj : SubObj
  attrs : Attrs
  deriving DecidableEq, Repr

/-- sub items come from a generator; asking for the next one may raise -/
abbrev Subs := List (Except PyErr Sub)

/-- `str(i)` may refuse very long numbers -/
def digitsOk (env : Env) (i : Int) : Bool :=
  match env.maxDigits with
  | none => true
  | some d => (digits i.natAbs).length ≤ d

/-- ASCII text as bytes -/
def asciiBytes (s : PyStr) : Bytes := s.map UInt8.ofNat

/-- `create_scalar_dataset` (load_builtins.py:47-75) -/
def createScalar (c : DCtx) (o : Obj) (parent : NodeId) (name : PyStr) : DM NodeId :=
  match o.val with
  | .int i =>
    if bitLength i > 63 then
      if digitsOk c.env i then mkDset c.kw parent name (.raw (asciiBytes (showInt i)))
      else M.throw .valueError
    else mkDset (noCompression c.kw) parent name (.scalar (.i i))
  | .bool b => mkDset (noCompression c.kw) parent name (.scalar (.b b))
  | .float x => mkDset (noCompression c.kw) parent name (.scalar (.f x))
  | .cplx x y => mkDset (noCompression c.kw) parent name (.scalar (.c x y))
  | _ => M.throw .unmodelled

/-- `create_none_dataset` (load_builtins.py:78-99) -/
def createNone (c : DCtx) (parent : NodeId) (name : PyStr) : DM NodeId :=
  mkDset (noCompression c.kw) parent name (.null "V1")

/-- node names of list items: `"data{:d}".format(i)` -/
def dataName (i : Nat) : PyStr := ps "data" ++ digits i

/-- the generator `provide_listlike_items` (load_builtins.py:196-200) -/
def listSubs : Nat → List Addr → Subs
  | _, [] => []
  | i, a :: as => .ok ⟨dataName i, .addr a, [("item_index", .int i)]⟩ :: listSubs (i + 1) as

/-- the part of `create_listlike_dataset` behind the dtype check (load_builtins.py:186-204) -/
def createItems (c : DCtx) (h : Heap) (items : List Addr) (dt : Option ItemDT) (parent : NodeId) (name : PyStr) :
    DM (NodeId × Subs) :=
  match dt with
  | some (.num d) => do
    let vals := castPrefix h d items
    let n ← mkDset c.kw parent name (.vec d (vals ++ List.replicate (items.length - vals.length) d.zero))
    if vals.length = items.length then pure (n, []) else M.throw .overflowError
  | some .bytes => M.throw .unmodelled
  | none => do
    let n ← mkGroup parent name
    setAttr n "num_items" (.int items.length)
    pure (n, listSubs 0 items)

/-- `create_listlike_dataset` (load_builtins.py:144-204) -/
def createListlike (c : DCtx) (h : Heap) (o : Obj) (parent : NodeId) (name : PyStr) : DM (NodeId × Subs) :=
  match o.val with
  | .str s =>
    match utf8Encode s with
    | none => M.throw .unicodeEncodeError
    | some b => do
      let n ← mkDset c.kw parent name (.chars b)
      setAttr n "str_type" (.bytes (o.cls.name c.env.u))
      pure (n, [])
  | .bytes b => do
      let n ← mkDset c.kw parent name (.chars b)
      setAttr n "str_type" (.bytes (o.cls.name c.env.u))
      pure (n, [])
  | .seq [] => do
      let n ← mkDset (noCompression c.kw) parent name (.null "int")
      pure (n, [])
  | .seq items =>
    match checkItems c.env h items with
    | .error e => M.throw e
    | .ok dt => createItems c h items dt parent name
  | _ => M.throw .unmodelled

/-- `create_setlike_dataset` (load_builtins.py:207-245).  The empty set becomes a dataset of shape
`(0,)`: h5py takes the shape from `data=[]`. -/
def createSetlike (c : DCtx) (h : Heap) (o : Obj) (parent : NodeId) (name : PyStr) : DM (NodeId × Subs) :=
  match o.val with
  | .set [] => do
      let n ← mkDset (noCompression c.kw) parent name (.vec .int64 [])
      pure (n, [])
  | .set items =>
    match checkItems c.env h items with
    | .error e => M.throw e
    | .ok dt => createItems c h items dt parent name
  | _ => M.throw .unmodelled

/-- keys of `dict_key_types_dict` (load_builtins.py:31-43) -/
def dictKeyTypes : List String := ["float", "bool", "int", "complex", "NoneType"]

/-- `_str_slashes` matches `/` and `\` (load_builtins.py:249) -/
def strSlash (s : PyStr) : Bool := s.any fun c => c = 47 || c = 92
/-- `_byte_slashes` matches only `/`: the pattern `b'[\\/]'` is the bytes `[`, `\`, `/`, `]` (248) -/
def byteSlash (b : Bytes) : Bool := b.any fun c => c.toNat = 47

/-- `"{!r}".format(key)` for the classes of `dict_key_types_dict` -/
def reprKey (env : Env) (v : Val) : Except PyErr PyStr :=
  match v with
  | .none => .ok (ps "None")
  | .bool b => .ok (if b then ps "True" else ps "False")
  | .int i => if digitsOk env i then .ok (showInt i) else .error .valueError
  | .float x => .ok (env.reprF x)
  | .cplx x y => .ok (env.reprC x y)
  | _ => .error .unmodelled

/-- name and key base type under which `package_dict_items` stores an entry; `none`: stored as a
`(key, value)` tuple (load_builtins.py:281-305) -/
def keySlot (env : Env) (o : Obj) : Except PyErr (Option (PyStr × String)) :=
  let kbt := o.cls.name env.u
  match o.val with
  | .str s => .ok (if strSlash s then none else some (34 :: s ++ [34], kbt))
  | .bytes b =>
    .ok (if byteSlash b then none else
      match utf8Decode b with
      | none => none
      | some s => some (98 :: 34 :: s ++ [34], kbt))
  | v =>
    if dictKeyTypes.contains kbt then
      match reprKey env v with
      | .error e => .error e
      | .ok r => .ok (if strSlash r then none else some (r, kbt))
    else .ok none

/-- one item of the generator `package_dict_items` (load_builtins.py:279-306) -/
def dictSub (env : Env) (h : Heap) (idx : Nat) (k v : Addr) : Except PyErr Sub :=
  match h[k]? with
  | none => .error .unmodelled
  | some o =>
    match keySlot env o with
    | .error e => .error e
    | .ok (some (name, kbt)) => .ok ⟨name, .addr v, [("key_idx", .int idx), ("key_base_type", .bytes kbt)]⟩
    | .ok none => .ok ⟨dataName idx, .pair k v, [("key_idx", .int idx), ("key_base_type", .bytes "key_value")]⟩

/-- the generator `package_dict_items` -/
def dictSubs (env : Env) (h : Heap) : Nat → List (Addr × Addr) → Subs
  | _, [] => []
  | i, (k, v) :: es => dictSub env h i k v :: dictSubs env h (i + 1) es

/-- `create_dictlike_dataset` (load_builtins.py:251-307) -/
def createDictlike (c : DCtx) (h : Heap) (o : Obj) (parent : NodeId) (name : PyStr) : DM (NodeId × Subs) :=
  match o.val with
  | .dict es => do
      let n ← mkGroup parent name
      pure (n, dictSubs c.env h 0 es)
  | _ => M.throw .unmodelled

/-- `create_np_scalar_dataset` (load_numpy.py:21-46) -/
def createNpScalar (c : DCtx) (o : Obj) (parent : NodeId) (name : PyStr) : DM NodeId :=
  match o.val with
  | .np v => do
      let n ← mkDset (noCompression c.kw) parent name (.scalar v)
      setAttr n "np_dtype" (.dt v.dt)
      pure n
  | _ => M.throw .unmodelled

/-- the sub items of the list of lists (or elements) `ndarray.tolist()` gives: rows of shape `sh`
(load_builtins.py:196-200) -/
def nestSubs (sh : List Nat) : Nat → Nat → List Leaf → Subs
  | _, 0, _ => []
  | i, k + 1, ls =>
    .ok ⟨dataName i, .nest .list sh (ls.take (shSize sh)), [("item_index", .int i)]⟩ :: nestSubs sh (i + 1) k (ls.drop (shSize sh))

/-- `create_listlike_dataset` on the list `ndarray.tolist()` of an array of shape `n :: sh`
whose items are strings or lists (load_builtins.py:164-204).  An array has as many elements as its
shape says. -/
def createRows (c : DCtx) (n : Nat) (sh : List Nat) (ls : List Leaf) (parent : NodeId) (name : PyStr) : DM (NodeId × Subs) :=
  if ls.length ≠ n * shSize sh then M.throw .unmodelled
  else if n = 0 then do
    let m ← mkDset (noCompression c.kw) parent name (.null "int")
    pure (m, [])
  else do
    let m ← mkGroup parent name
    setAttr m "num_items" (.int n)
    pure (m, nestSubs sh 0 n ls)

/-- the node of an array of objects (load_numpy.py:112-123).  An array without dimensions gives its only
element, which is stored like an array of objects itself if it is a list. -/
def createObjects (c : DCtx) (h : Heap) (shape : List Nat) (items : List Addr) (parent : NodeId) (name : PyStr) : DM (NodeId × Subs) :=
  match shape, items with
  | [], [a] =>
    match h[a]? with
    | some ⟨cl, .seq l⟩ =>
      if Cls.list ∈ cl.mro c.env.u then createListlike c h ⟨cl, .seq l⟩ parent name
      else do
        let n ← mkGroup parent name
        pure (n, [.ok ⟨ps "data", .addr a, []⟩])
    | some _ => do
      let n ← mkGroup parent name
      pure (n, [.ok ⟨ps "data", .addr a, []⟩])
    | none => M.throw .unmodelled
  | [_], items => createListlike c h ⟨.list, .seq items⟩ parent name
  | n :: sh, items => createRows c n sh (items.map .addr) parent name
  | [], _ => M.throw .unmodelled

/-- the node of an array of strings (load_numpy.py:101-111) -/
def createStrings (c : DCtx) (shape : List Nat) (data : List PyStr) (parent : NodeId) (name : PyStr) : DM (NodeId × Subs) :=
  match shape, data with
  | [], [s] =>
    match utf8Encode s with
    | none => M.throw .unicodeEncodeError
    | some b => do
      let n ← mkDset c.kw parent name (.chars b)
      pure (n, [])
  | [], _ => M.throw .unmodelled
  | n :: sh, data => createRows c n sh (data.map fun s => .obj ⟨.str, .str s⟩) parent name

/-- set the `np_dtype` attribute of the new node (load_numpy.py:129) -/
def withDtype (x : DM (NodeId × Subs)) (d : AttrVal) : DM (NodeId × Subs) := do
  let r ← x
  setAttr r.1 "np_dtype" d
  pure r

/-- `create_np_array_dataset` (load_numpy.py:74-130); arrays of bytes and of structures are not modelled -/
def createNpArray (c : DCtx) (h : Heap) (o : Obj) (parent : NodeId) (name : PyStr) : DM (NodeId × Subs) :=
  match o.val with
  | .arr d shape data => withDtype (do
      let n ← mkDset c.kw parent name (.array d shape data)
      pure (n, [])) (.dt d)
  | .sarr w shape data => withDtype (createStrings c shape data parent name) (.udt w)
  | .oarr shape items => withDtype (createObjects c h shape items parent name) .odt
  | _ => M.throw .unmodelled

/-- `MaskedArray.mask` -/
def maskObj (shape : List Nat) : Option (List Bool) → Obj
  | none => ⟨.npBool, .np (.b false)⟩
  | some l => ⟨.ndarray, .arr .bool shape (l.map .b)⟩

/-- `create_np_masked_array_dataset` (load_numpy.py:132-159), numeric dtypes -/
def createMasked (o : Obj) (parent : NodeId) (name : PyStr) : DM (NodeId × Subs) :=
  match o.val with
  | .masked d shape data mask => do
      let n ← mkGroup parent name
      setAttr n "np_dtype" (.dt d)
      pure (n, [.ok ⟨ps "data", .nest .list [] [.obj ⟨.ndarray, .arr d shape data⟩], []⟩,
        .ok ⟨ps "mask", .nest .list [] [.obj (maskObj shape mask)], []⟩])
  | _ => M.throw .unmodelled

/-- `create_sparse_dataset` (load_scipy.py:22-48).  The matrices of scipy have two dimensions. -/
def createSparse (o : Obj) (parent : NodeId) (name : PyStr) : DM (NodeId × Subs) :=
  match o.val with
  | .sparse d i p shape =>
    if shape.length ≠ 2 then M.throw .unmodelled
    else do
      let n ← mkGroup parent name
      pure (n, [.ok ⟨ps "data", .addr d, []⟩, .ok ⟨ps "indices", .addr i, []⟩, .ok ⟨ps "indptr", .addr p, []⟩,
        .ok ⟨ps "shape", .nest .tuple [shape.length] (shape.map fun (n : Nat) => .obj ⟨.int, .int n⟩), []⟩])
  | _ => M.throw .unmodelled

/-- `create_pickled_dataset` (lookup.py:1461-1501).  Pickling is modelled for opaque objects. -/
def createPickled (c : DCtx) (o : Obj) (parent : NodeId) (name : PyStr) : DM NodeId :=
  match o.val with
  | .opaque st true => mkDset c.kw parent name (.pickleObj o.cls st)
  | .opaque _ false => M.throw .picklingError
  | _ => M.throw .unmodelled

/-- no sub items -/
def leaf (x : DM NodeId) : DM (NodeId × Subs) := do
  let n ← x
  pure (n, [])

/-- call of the create function an entry names (hickle.py:124) -/
def createFn (c : DCtx) (fn : DumpFn) (h : Heap) (o : Obj) (parent : NodeId) (name : PyStr) : DM (NodeId × Subs) :=
  match fn with
  | .scalar => leaf (createScalar c o parent name)
  | .none => leaf (createNone c parent name)
  | .listlike => createListlike c h o parent name
  | .setlike => createSetlike c h o parent name
  | .dictlike => createDictlike c h o parent name
  | .npScalar => leaf (createNpScalar c o parent name)
  | .npArray => createNpArray c h o parent name
  | .npMasked => createMasked o parent name
  | .sparse => createSparse o parent name
  | .pickled => leaf (createPickled c o parent name)
  | .notDumpable => M.throw .runtimeError             -- helpers.py:221
  | .refusing => M.throw .notHicklable
  | .dumpNothing => M.throw .unmodelled
  | .custom _ => M.throw .unmodelled

/-! ### types table and `_dump` -/

/-- `pickle.dumps(cls)` succeeds -/
def clsPicklable (env : Env) : Cls → Bool
  | .user k => (env.u k).picklable
  | _ => true

/-- the entry of a base type in the types table (lookup.py:663-670) -/
def baseEntry (c : DCtx) (base : String) : DM NodeId := do
  let s ← M.get
  match Assoc.get? s.blinks base with
  | some b => pure b
  | none => do
    let b ← mkDset (noCompression c.kw) c.table (ps base) (.null "S1")
    M.modify fun s => { s with blinks := Assoc.put s.blinks base b }
    pure b

/-- the entry of a class in the types table (lookup.py:639-674) -/
def typeEntryNode (c : DCtx) (cls : Cls) (base : String) : DM NodeId := do
  let s ← M.get
  match Assoc.get? s.tlinks cls with
  | some e => pure e
  | none =>
    if base.toList = [] then M.throw .valueError
    else if !clsPicklable c.env cls then M.throw .picklingError
    else
      match s.store.links c.table with
      | none => M.throw .unmodelled
      | some ls => do
        let e ← mkDset c.kw c.table (digits ls.length) (.pickleCls cls)
        let b ← baseEntry c base
        setAttr e "base_type" (.ref b)
        M.modify fun s => { s with tlinks := Assoc.put s.tlinks cls e }
        pure e

/-- `ReferenceManager.store_type` (lookup.py:582-675) -/
def storeType (c : DCtx) (n : NodeId) (cls : Cls) (base : String) : DM Unit :=
  if cls = .object then pure ()
  else do
    let e ← typeEntryNode c cls base
    setAttr n "type" (.ref e)

/-- the part of `_dump` that creates the node and stores its type (hickle.py:122-129) -/
def dumpCreate (c : DCtx) (o : Obj) (parent : NodeId) (name : PyStr) : DM (NodeId × Subs × Bool) := do
  let (cls, e) ← onReg (loadLoader c.env c.mgr o.cls none)
  let s ← M.get
  let r ← M.attempt (createFn c e.fn s.heap o parent name)
  match r with
  | .ok (n, subs) => do
      storeType c n cls e.base
      pure (n, subs, e.memoise)
  | .error err =>
      if err = .notHicklable then do
        let n ← createPickled c o parent name
        pure (n, [], e.memoise)
      else M.throw err

/-- the object of a sub item; temporary objects come into being here -/
def subAddr : SubObj → DM Addr
  | .addr a => pure a
  | .pair k v => dAlloc ⟨.tuple, .seq [k, v]⟩
  | .nest c sh ls => fun s =>
    let x := nestBlock c sh ls s.heap.length
    (.ok x.2, { s with heap := s.heap ++ x.1 })

/-- `_dump` (hickle.py:77-145); `fuel` is the remaining recursion depth -/
def dumpNode (c : DCtx) : Nat → Addr → NodeId → PyStr → Attrs → DM Unit
  | 0, _, _, _, _ => M.throw .recursionError
  | fuel + 1, a, parent, name, attrs => do
    let s ← M.get
    match Assoc.get? s.memo a with
    | some n => do                                                  -- 105-117
      let l ← mkDset [] parent name (.ref n)
      setAttrs l attrs
    | none =>
      match s.heap[a]? with
      | none => M.throw .unmodelled
      | some o => do
        let (n, subs, memoise) ← dumpCreate c o parent name         -- 122-129
        setAttrs n (attrs.filter fun p => p.1 ≠ "type")             -- 132
        (if memoise then M.modify fun s => { s with memo := Assoc.put s.memo a n }
         else pure ())                                              -- 139-140
        M.forEach (fun sub => match sub with                        -- 144-145
          | .error e => M.throw e
          | .ok sub => do
            let b ← subAddr sub.obj
            dumpNode c fuel b n sub.name sub.attrs) subs

end Verif
