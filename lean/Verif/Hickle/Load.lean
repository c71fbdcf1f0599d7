import Verif.H5.Store
import Verif.Hickle.Registry
import Verif.Hickle.Dump
import Verif.Py.Dec
import Verif.Py.Eq
/-!
# Loading

Models `hickle/hickle.py` `_load` (402-466) and `RootContainer` (253-260), `hickle/lookup.py`
`ReferenceManager.resolve_type` (677-820), `ExpandReferenceContainer` (1424-1458),
`load_pickled_data` (1503-1510), `recover_custom_dataset` (1517-1533), `RecoverGroupContainer`
(1535-1568), and the load functions and containers of `hickle/loaders/load_builtins.py`
(311-523), `load_numpy.py` (184-311) and `load_scipy.py` (54-114).

Loaded objects live in a heap of their own.  Address 0 is the empty tuple: CPython has only one,
and `helpers.nobody_is_my_name` (helpers.py:20) is that object.
-/
namespace Verif

/-- `_py_obj_type_link[entry.id]` (lookup.py:674, 809-816): class and base type; for a class that
can not be imported only the base type -/
inductive TypeInfo where
  | known (c : Cls) (b : String)
  | lost (b : String)
  deriving DecidableEq, Repr

/-- state of a running load -/
structure LState where
  heap : Heap
  memo : List (NodeId × Addr) := []
  tcache : List (NodeId × TypeInfo) := []
  reg : Registry

/-- what stays fixed during one load -/
structure LCtx where
  env : Env
  mgr : Manager
  store : Store
  /-- order in which h5py yields the links of a group -/
  order : List (PyStr × NodeId) → List (PyStr × NodeId) := id

abbrev LM := M LState

/-- the empty tuple, `nobody_is_my_name` -/
def nobody : Addr := 0

/-- heap a load starts with -/
def loadHeap : Heap := [⟨.tuple, .seq []⟩]

def lAlloc (o : Obj) : LM Addr := fun s => (.ok s.heap.length, { s with heap := s.heap ++ [o] })

def lOnReg {α : Type} (x : M Registry α) : LM α := fun s =>
  match x s.reg with
  | (r, reg) => (r, { s with reg := reg })

/-- allocate several objects -/
def lAllocs : List Obj → LM (List Addr)
  | [] => pure []
  | o :: os => do
    let a ← lAlloc o
    let as ← lAllocs os
    pure (a :: as)

/-- text of a table entry name back to a base type (`name.encode('ASCII')`, lookup.py:799) -/
def unps (s : PyStr) : String := String.ofList (s.map Char.ofNat)

/-- `pickle.loads` of a class reference succeeds -/
def clsImportable (env : Env) : Cls → Bool
  | .user k => (env.u k).importable
  | _ => true

/-! ### type resolution -/

/-- result of `resolve_type`; `orig` is the base type asked for with `base_type_type = -1` -/
structure Resolved where
  cls : Cls
  base : String
  orig : String
  isCont : Bool
  deriving Repr

def Node.isGroup (n : Node) : Bool := match n.body with | .group _ => true | .dset _ => false

/-- class and base type behind a types table entry (lookup.py:783-817) -/
def resolveEntry (c : LCtx) (e : NodeId) : LM TypeInfo := do
  match c.store[e]? with
  | none => M.throw .referenceError                                    -- 775-781
  | some entry =>
    let s ← M.get
    match Assoc.get? s.tcache e with
    | some ti => pure ti
    | none => do
      let base ← (match Assoc.get? entry.attrs "base_type" with
        | none => pure "pickle"
        | some (.ref b) => match c.store[b]? with
          | none => M.throw .referenceError                            -- 793-799
          | some bn => pure (unps bn.name)
        | some _ => M.throw .unmodelled : LM String)
      let ti ← (match entry.body with
        | .dset (.pickleCls cls) =>
          pure (if clsImportable c.env cls then .known cls base else .lost base)
        | _ => M.throw .unmodelled : LM TypeInfo)
      M.modify fun s => { s with tcache := Assoc.put s.tcache e ti }
      pure ti

/-- `ReferenceManager.resolve_type` (lookup.py:677-820) -/
def resolveType (c : LCtx) (node : Node) : LM Resolved := do
  match Assoc.get? node.attrs "type" with
  | some (.ref e) => do
    let ti ← resolveEntry c e
    match ti with
    | .known cls b => pure ⟨cls, b, b, node.isGroup⟩
    | .lost b => pure ⟨.recover, "!recover!", b, node.isGroup⟩
  | none =>
    match node.body with
    | .dset (.ref _) | .dset .nullRef => pure ⟨.nodeRef, "!node-reference!", "!node-reference!", true⟩
    | .dset _ => pure ⟨.object, "pickle", "pickle", false⟩
    | .group _ => M.throw .referenceError                              -- pickle.loads(None)
  | some (.pcls cls) =>
    let base := match Assoc.get? node.attrs "base_type" with
      | some (.bytes b) => b
      | _ => "pickle"
    if clsImportable c.env cls then pure ⟨cls, base, base, node.isGroup⟩
    else pure ⟨.recover, "!recover!", "!recover!", node.isGroup⟩
  | some (.int _) | some (.bool _) => M.throw .referenceError          -- not a pickle byte string
  | some _ => M.throw .unmodelled

/-! ### load functions -/

/-- `py_obj_type(content)` for a class of the program -/
def construct (env : Env) (k : Nat) (arg : CtorArg) : LM Addr := do
  let v ← M.ofExcept ((env.u k).ctor arg)
  lAlloc ⟨.user k, v⟩

/-- list or tuple of the given items; there is only one empty tuple -/
def mkSeq (env : Env) (c : Cls) (items : List Addr) : LM Addr :=
  match c with
  | .list => lAlloc ⟨.list, .seq items⟩
  | .tuple => if items = [] then pure nobody else lAlloc ⟨.tuple, .seq items⟩
  | .user k => construct env k (.items items)
  | _ => M.throw .unmodelled

/-- `content.add(item)`: an equal element stays, an unhashable one raises `TypeError` -/
def setAdd (env : Env) (h : Heap) (content : List Addr) (a : Addr) : Except PyErr (List Addr) :=
  match view env.u h a with
  | none => .error .typeError
  | some v =>
    if content.any fun b => match view env.u h b with
      | some w => KV.eqv env.opaqueEq w v
      | none => false
    then .ok content else .ok (content ++ [a])

/-- `set(items)` -/
def setOf (env : Env) (h : Heap) : List Addr → List Addr → Except PyErr (List Addr)
  | content, [] => .ok content
  | content, a :: as => match setAdd env h content a with
    | .error e => .error e
    | .ok c' => setOf env h c' as

/-- a set object of the given (already distinct) items -/
def mkSet (env : Env) (c : Cls) (items : List Addr) : LM Addr :=
  match c with
  | .set => lAlloc ⟨.set, .set items⟩
  | .user k => construct env k (.items items)
  | _ => M.throw .unmodelled

/-- `str(text)` of ASCII bytes, as `int(memoryview)` reads them -/
def bytesText (b : Bytes) : PyStr := b.map UInt8.toNat

/-- `load_scalar_dataset` (load_builtins.py:311-333) -/
def loadScalar (env : Env) (d : Data) (cls : Cls) : LM Addr :=
  match d with
  | .scalar v =>
    match cls, v with
    | .int, .i x => lAlloc ⟨.int, .int x⟩
    | .bool, .b x => lAlloc ⟨.bool, .bool x⟩
    | .float, .f x => lAlloc ⟨.float, .float x⟩
    | .complex, .c x y => lAlloc ⟨.complex, .cplx x y⟩
    | .user k, v => construct env k (.np v)
    | _, _ => M.throw .unmodelled
  | .raw b =>
    if b.length < 2 then M.throw .unmodelled
    else match cls with
    | .int => match parseInt (bytesText b) with
      | none => M.throw .valueError
      | some i => if digitsOk env i then lAlloc ⟨.int, .int i⟩ else M.throw .valueError
    | .user k => construct env k (.text b)
    | _ => M.throw .unmodelled
  | _ => M.throw .unmodelled

/-- `load_list_dataset` (load_builtins.py:356-393) -/
def loadList (env : Env) (d : Data) (attrs : Attrs) (cls : Cls) : LM Addr :=
  match d with
  | .null _ =>
    match cls with
    | .list => lAlloc ⟨.list, .seq []⟩
    | .tuple => pure nobody
    | .set => lAlloc ⟨.set, .set []⟩
    | .user k => construct env k .empty
    | _ => M.throw .unmodelled
  | .chars b =>
    if Assoc.get? attrs "str_type" = some (.bytes "str") then
      match utf8Decode b with
      | none => M.throw .valueError                                    -- UnicodeDecodeError
      | some s => match cls with
        | .str => lAlloc ⟨.str, .str s⟩
        | .user k => construct env k (.str s)
        | _ => M.throw .unmodelled
    else match cls with
      | .bytes => lAlloc ⟨.bytes, .bytes b⟩
      | .user k => construct env k (.chars b)
      | _ => M.throw .unmodelled
  | .vec _ vals => do
    let as ← lAllocs (vals.map fun v => ⟨v.cls, .np v⟩)
    match cls with
    | .set => do
      let s ← M.get
      let items ← M.ofExcept (setOf env s.heap [] as)
      mkSet env .set items
    | c => mkSeq env c as
  | _ => M.throw .unmodelled

/-- `load_np_scalar_dataset` (load_numpy.py:184-205) -/
def loadNpScalar (d : Data) (attrs : Attrs) : LM Addr :=
  match d, Assoc.get? attrs "np_dtype" with
  | .scalar v, some (.dt t) => if v.dt = t then lAlloc ⟨v.cls, .np v⟩ else M.throw .unmodelled
  | _, none => M.throw .keyError
  | _, _ => M.throw .unmodelled

/-- the Python number `astype(object)` gives for an element of a numeric array -/
def pyOf : NpVal → Obj
  | .b x => ⟨.bool, .bool x⟩
  | .i x => ⟨.int, .int x⟩
  | .f x => ⟨.float, .float x⟩
  | .c x y => ⟨.complex, .cplx x y⟩

/-- `load_ndarray_dataset` for a numeric dtype (load_numpy.py:236-241) -/
def loadNumArray (t : DT) (d : Data) (cls : Cls) : LM Addr :=
  match d with
  | .array t' shape data =>
    if t' ≠ t then M.throw .unmodelled
    else match cls with
    | .matrix => if shape.length = 2 then lAlloc ⟨.matrix, .arr t shape data⟩ else M.throw .unmodelled
    | _ => lAlloc ⟨.ndarray, .arr t shape data⟩
  | _ => M.throw .unmodelled

/-- `load_ndarray_dataset` for an array of strings without dimensions (load_numpy.py:228-235).  The
empty dataset an array without rows was stored as has no bytes. -/
def loadStrArray (w : Nat) (d : Data) : LM Addr :=
  match d with
  | .chars b =>
    match utf8Decode b with
    | none => M.throw .valueError                                      -- UnicodeDecodeError
    | some s => if w = 0 then M.throw .unmodelled else lAlloc ⟨.ndarray, .sarr w [] [fixStr w s]⟩
  | .null _ => M.throw .typeError
  | _ => M.throw .unmodelled

/-- `load_ndarray_dataset` for an array of objects (load_numpy.py:241): numbers become Python numbers -/
def loadObjArray (d : Data) : LM Addr :=
  match d with
  | .vec _ vals => do
    let as ← lAllocs (vals.map pyOf)
    lAlloc ⟨.ndarray, .oarr [as.length] as⟩
  | _ => M.throw .unmodelled

/-- `load_ndarray_dataset` (load_numpy.py:208-241) -/
def loadNdarray (d : Data) (attrs : Attrs) (cls : Cls) : LM Addr :=
  match Assoc.get? attrs "np_dtype" with
  | some (.dt t) => loadNumArray t d cls
  | some (.udt w) => loadStrArray w d
  | some .odt => loadObjArray d
  | none => M.throw .keyError
  | some _ => M.throw .unmodelled

/-- `RecoveredDataset(h_node[()], dtype, attrs)` (lookup.py:212-229): an h5py.Empty can not be
converted to an array -/
def recoverData (d : Data) (attrs : Attrs) : LM Addr :=
  match d with
  | .null _ => M.throw .typeError
  | d => lAlloc ⟨.recData, .recData d (attrs.filter fun p => p.1 ≠ "type")⟩

/-- the first byte of the data is zero, which starts no pickle string -/
def Data.zeroStart : Data → Bool
  | .chars (0 :: _) | .raw (0 :: _) => true
  | .scalar v => v = v.dt.zero
  | .vec d (v :: _) | .array d _ (v :: _) => v = d.zero
  | _ => false

/-- `load_pickled_data` (lookup.py:1503-1510).  `pickle.loads` refuses `h5py.Empty` (`TypeError`) and data that start with a zero byte
(`UnpicklingError`).  Simplification: what it makes of other data that `pickle.dumps` did not write is not modelled. -/
def loadPickled (env : Env) (d : Data) (attrs : Attrs) : LM Addr :=
  match d with
  | .pickleObj c st =>
    if clsImportable env c then lAlloc ⟨c, .opaque st true⟩ else recoverData d attrs
  | .null _ => M.throw .typeError
  | d => if d.zeroStart then M.throw .picklingError else M.throw .unmodelled

/-- call of the load function (hickle.py:460-461) -/
def loadData (c : LCtx) (fn : LoadFn) (d : Data) (attrs : Attrs) (orig : String) (cls : Cls) : LM Addr :=
  match fn with
  | .scalar => loadScalar c.env d cls
  | .none => lAlloc ⟨.noneType, .none⟩
  | .list => loadList c.env d attrs cls
  | .npScalar => loadNpScalar d attrs
  | .ndarray => loadNdarray d attrs cls
  | .pickled => loadPickled c.env d attrs
  | .recover => recoverData d (Assoc.put (attrs.filter fun p => p.1 ≠ "base_type") "base_type" (.bytes orig))
  | .nothing => pure nobody
  | .str4x => M.throw .unmodelled
  | .ndmasked4x => M.throw .unmodelled
  | .custom _ => M.throw .unmodelled

/-! ### containers -/

/-- element of `DictLikeContainer._content` -/
inductive DItem where
  | hole                 -- nobody_is_my_name
  | pair (k v : Addr)    -- the tuple built by append
  | item (a : Addr)      -- a loaded (key, value) tuple
  deriving DecidableEq, Repr

/-- `PyContainer` objects with their `_content` -/
inductive Cont where
  | root (content : List Addr)
  | list (c : Cls) (content : List Addr)
  | set (c : Cls) (content : List Addr)
  | dict (c : Cls) (content : List DItem)
  | expand (content : List Addr)
  | recover (base : String) (attrs : Attrs) (content : List (PyStr × Addr × Option Attrs))
  | ndarray (c : Cls) (attrs : Attrs) (content : List Addr) (single : Option Addr)
  | masked (c : Cls) (attrs : Attrs) (content : List (PyStr × Addr))
  | sparse (c : Cls) (data indices indptr shape : Option Addr)
  | nothing                                        -- NoContainer (lookup.py:1401-1407)
  deriving Repr

/-- `\d+$` on a node name (load_builtins.py:429) -/
def trailingDigits (s : PyStr) : Option Nat :=
  parseNat (s.reverse.takeWhile isDigit).reverse

/-- `l.extend([nobody] * ...)` up to the index -/
def padTo {α : Type} (x : α) (l : List α) (i : Nat) : List α :=
  l ++ List.replicate (i + 1 - l.length) x

/-- the index of a list item (load_builtins.py:440-450); `none`: ignore the item -/
def listIndex (name : PyStr) (a : Addr) (attrs : Attrs) : Except PyErr (Option Nat) :=
  match Assoc.get? attrs "item_index" with
  | some (.int i) => if 0 ≤ i then .ok (some i.toNat) else .error .unmodelled
  | some _ => .error .unmodelled
  | none =>
    match trailingDigits name with
    | some i => .ok (some i)
    | none => if a = nobody then .ok none else .error .keyError

/-- `ListLikeContainer.append` (load_builtins.py:438-456) -/
def listAppend (content : List Addr) (name : PyStr) (a : Addr) (attrs : Attrs) : Except PyErr (List Addr) :=
  match listIndex name a attrs with
  | .error e => .error e
  | .ok none => .ok content
  | .ok (some i) =>
    let content := padTo nobody content i
    if content[i]? = some nobody then .ok (content.set i a) else .error .indexError

/-- `self._swap_key_slashes.sub('/', name)` (load_builtins.py:485) -/
def swapSlashes (s : PyStr) : PyStr := s.map fun c => if c = 92 then 47 else c

/-- the key an entry name stands for (load_builtins.py:487-514); `none`: the item is a
`(key, value)` tuple -/
def loadKey (env : Env) (kbt : String) (name : PyStr) : Except PyErr (Option Obj) :=
  if kbt = "str" then
    .ok (some ⟨.str, .str (if name.head? = some 34 then (name.drop 1).dropLast
      else ((swapSlashes name).drop 1).dropLast)⟩)
  else if kbt = "bytes" then
    if name.take 2 = [98, 34] then
      match utf8Encode ((name.drop 2).dropLast) with
      | some b => .ok (some ⟨.bytes, .bytes b⟩)
      | none => .error .unicodeEncodeError
    else .ok (some ⟨.str, .str ((swapSlashes name).drop 1).dropLast⟩)
  else if kbt = "key_value" then .ok none
  else
    let text := swapSlashes name
    if kbt = "float" then match env.parseF text with
      | some x => .ok (some ⟨.float, .float x⟩)
      | none => .error .valueError
    else if kbt = "bool" then .ok (some ⟨.bool, .bool (!text.isEmpty)⟩)
    else if kbt = "int" then match parseInt text with
      | some i => if digitsOk env i then .ok (some ⟨.int, .int i⟩) else .error .valueError
      | none => .error .valueError
    else if kbt = "complex" then match env.parseC text with
      | some (x, y) => .ok (some ⟨.complex, .cplx x y⟩)
      | none => .error .valueError
    else if kbt = "NoneType" then .ok (some ⟨.noneType, .none⟩)
    else if kbt = "tuple" then .error .unmodelled          -- ast.literal_eval
    else .error .valueError

/-- `DictLikeContainer.append` behind the key conversion (load_builtins.py:509-519) -/
def dictPlace (content : List DItem) (item : DItem) (attrs : Attrs) : Except PyErr (List DItem) :=
  match Assoc.get? attrs "key_idx" with
  | some (.int i) =>
    if 0 ≤ i then
      let content := padTo .hole content i.toNat
      match content[i.toNat]? with
      | some .hole => .ok (content.set i.toNat item)
      | some (.item 0) => .ok (content.set i.toNat item)   -- an item that is the empty tuple itself
      | _ => .error .indexError
    else .error .unmodelled
  | some _ => .error .unmodelled
  | none =>
    match item with
    | .pair _ v => if v = nobody then .ok content else .error .keyError
    | _ => .error .unmodelled

/-- `DictLikeContainer.append` (load_builtins.py:486-519) -/
def dictAppend (env : Env) (content : List DItem) (name : PyStr) (a : Addr) (attrs : Attrs) : LM (List DItem) := do
  let kbt ← (match Assoc.get? attrs "key_base_type" with
    | some (.bytes s) => pure s
    | none => pure ""
    | some _ => M.throw .unmodelled : LM String)
  let key ← M.ofExcept (loadKey env kbt name)
  match key with
  | none => M.ofExcept (dictPlace content (.item a) attrs)
  | some o => do
    let k ← lAlloc o
    M.ofExcept (dictPlace content (.pair k a) attrs)

/-- the pairs of `dict(content)` -/
def dictPairs (h : Heap) : List DItem → Except PyErr (List (Addr × Addr))
  | [] => .ok []
  | .hole :: _ => .error .valueError              -- sequence element of length 0
  | .pair k v :: l => (dictPairs h l).map ((k, v) :: ·)
  | .item a :: l =>
    match h[a]? with
    | some ⟨_, .seq [k, v]⟩ => (dictPairs h l).map ((k, v) :: ·)
    | some ⟨_, .seq _⟩ => .error .valueError
    | some ⟨_, .none⟩ | some ⟨_, .bool _⟩ | some ⟨_, .int _⟩ | some ⟨_, .float _⟩ | some ⟨_, .cplx ..⟩
    | some ⟨_, .np _⟩ => .error .typeError
    | _ => .error .unmodelled

/-- `d[k] = v` of a Python dictionary: an equal key stays, the value is replaced -/
def dictPut (env : Env) (h : Heap) (es : List (Addr × Addr)) (k v : Addr) : Except PyErr (List (Addr × Addr)) :=
  match view env.u h k with
  | none => .error .typeError
  | some w =>
    let same : Addr → Bool := fun b => match view env.u h b with
      | some x => KV.eqv env.opaqueEq x w
      | none => false
    if es.any fun e => same e.1 then .ok (es.map fun e => if same e.1 then (e.1, v) else e)
    else .ok (es ++ [(k, v)])

/-- `dict(pairs)` -/
def dictOf (env : Env) (h : Heap) : List (Addr × Addr) → List (Addr × Addr) → Except PyErr (List (Addr × Addr))
  | es, [] => .ok es
  | es, (k, v) :: l => match dictPut env h es k v with
    | .error e => .error e
    | .ok es' => dictOf env h es' l

/-! ### arrays of strings and of objects, masked arrays, sparse matrices -/

/-- longest common beginning -/
def commonPrefix : List Nat → List Nat → List Nat
  | a :: as, b :: bs => if a = b then a :: commonPrefix as bs else []
  | _, _ => []

/-- longest common beginning of several lists -/
def commonPrefixes : List (List Nat) → List Nat
  | [] => []
  | [l] => l
  | l :: ls => commonPrefix l (commonPrefixes ls)

/-- the shape `np.array(item, dtype=object)` finds: lists and tuples are taken apart as far as all
their items agree.  `none`: an array or sparse matrix inside, not modelled.  Objects of other classes of the
program are assumed not to be sequences. -/
def objShape (h : Heap) : Nat → Addr → Option (List Nat)
  | 0, _ => none
  | fuel + 1, a =>
    match h[a]? with
    | some ⟨_, .seq items⟩ =>
      match items.mapM (objShape h fuel) with
      | none => none
      | some shs => some (items.length :: commonPrefixes shs)
    | none | some ⟨_, .arr ..⟩ | some ⟨_, .sarr ..⟩ | some ⟨_, .oarr ..⟩ | some ⟨_, .masked ..⟩ | some ⟨_, .sparse ..⟩ | some ⟨_, .recData ..⟩ => none
    | some _ => some []

/-- the shape `np.array(items, dtype=object)` finds -/
def objShapes (h : Heap) (items : List Addr) : Option (List Nat) :=
  match items.mapM (objShape h h.length) with
  | none => none
  | some shs => some (items.length :: commonPrefixes shs)

/-- the elements of a nested sequence of the given shape, in order -/
def flattenTo (h : Heap) : List Nat → Addr → Option (List Addr)
  | [], a => some [a]
  | _ :: sh, a =>
    match h[a]? with
    | some ⟨_, .seq items⟩ => (items.mapM (flattenTo h sh)).map List.flatten
    | _ => none

/-- shape and elements of `np.array(self._content, dtype=…)` (load_numpy.py:293) -/
def arrayOf (h : Heap) (content : List Addr) (single : Option Addr) : Option (List Nat × List Addr) :=
  match single with
  | some a =>
    match objShape h h.length a with
    | none => none
    | some sh => (flattenTo h sh a).map fun l => (sh, l)
  | none =>
    match objShapes h content with
    | none | some [] => none
    | some (n :: sh) => (content.mapM (flattenTo h sh)).map fun l => (n :: sh, l.flatten)

/-- the strings at some addresses, as elements of width `w`; a list among them can not be converted -/
def stringsOf (h : Heap) (w : Nat) : List Addr → Except PyErr (List PyStr)
  | [] => .ok []
  | a :: as =>
    match h[a]? with
    | some ⟨_, .str s⟩ => (stringsOf h w as).map (fixStr w s :: ·)
    | some ⟨_, .seq _⟩ => .error .valueError
    | _ => .error .unmodelled

/-- `NDArrayLikeContainer.append` (load_numpy.py:281-290) -/
def arrAppend (content : List Addr) (single : Option Addr) (name : PyStr) (a : Addr) (attrs : Attrs) : Except PyErr (List Addr × Option Addr) :=
  if Assoc.get? attrs "base_type" = some (.bytes "pickle") || name = ps "data" then .ok (content, some a)
  else match single with
    | some _ => .error .unmodelled
    | none => (listAppend content name a attrs).map fun l => (l, none)

/-- `NDArrayLikeContainer.convert` (load_numpy.py:292-294), for `numpy.ndarray` itself -/
def arrConvert (c : Cls) (attrs : Attrs) (content : List Addr) (single : Option Addr) : LM Addr := do
  let s ← M.get
  match Assoc.get? attrs "np_dtype" with
  | none => M.throw .keyError
  | some .odt =>
    match arrayOf s.heap content single with
    | some (sh, l) => if c = .ndarray then lAlloc ⟨.ndarray, .oarr sh l⟩ else M.throw .unmodelled
    | none => M.throw .unmodelled
  | some (.udt w) =>
    match arrayOf s.heap content single with
    | some (sh, l) => do
      let ss ← M.ofExcept (stringsOf s.heap w l)
      if c = .ndarray ∧ w ≠ 0 then lAlloc ⟨.ndarray, .sarr w sh ss⟩ else M.throw .unmodelled
    | none => M.throw .unmodelled
  | some _ => M.throw .unmodelled

/-- an element of a mask -/
def npBit : NpVal → Option Bool
  | .b x => some x
  | _ => none

/-- the mask `np.ma.array(data, mask=…)` gets from a loaded object: `numpy.False_` is `nomask` itself,
`numpy.True_` masks everything, an array has to have the shape of the data -/
def maskOf (shape : List Nat) (size : Nat) : Obj → Option (Option (List Bool))
  | ⟨_, .np (.b false)⟩ => some none
  | ⟨_, .np (.b true)⟩ => some (some (List.replicate size true))
  | ⟨_, .arr .bool shape' vs⟩ =>
    if shape' = shape then (vs.mapM npBit).map some else none
  | _ => none

/-- `NDMaskedArrayContainer.convert` (load_numpy.py:308-311), numeric dtypes -/
def maskedConvert (c : Cls) (attrs : Attrs) (content : List (PyStr × Addr)) : LM Addr := do
  let s ← M.get
  match Assoc.get? attrs "np_dtype", Assoc.get? content (ps "data"), Assoc.get? content (ps "mask") with
  | some (.dt d), some x, some y =>
    match s.heap[x]?, s.heap[y]? with
    | some ⟨_, .arr d' shape data⟩, some om =>
      match maskOf shape data.length om with
      | some mask => if d' = d ∧ c = .masked then lAlloc ⟨.masked, .masked d shape data mask⟩ else M.throw .unmodelled
      | none => M.throw .unmodelled
    | _, _ => M.throw .unmodelled
  | none, _, _ => M.throw .keyError
  | _, none, _ => M.throw .keyError
  | _, _, none => M.throw .keyError
  | _, _, _ => M.throw .unmodelled

/-- one number of a loaded shape tuple -/
def natAt (h : Heap) (a : Addr) : Option Nat :=
  match h[a]? with
  | some ⟨_, .np (.i n)⟩ | some ⟨_, .int n⟩ => if 0 ≤ n then some n.toNat else none
  | _ => none

/-- the numbers of a loaded shape tuple -/
def shapeOf (h : Heap) (x : Addr) : Option (List Nat) :=
  match h[x]? with
  | some ⟨_, .seq items⟩ => items.mapM (natAt h)
  | _ => none

/-- `SparseMatrixContainer.append` (load_scipy.py:109-111): an unknown name gives the index `None` -/
def sparseAppend (c : Cls) (d i p sh : Option Addr) (name : PyStr) (a : Addr) : Except PyErr Cont :=
  if name = ps "data" then .ok (.sparse c (some a) i p sh)
  else if name = ps "indices" then .ok (.sparse c d (some a) p sh)
  else if name = ps "indptr" then .ok (.sparse c d i (some a) sh)
  else if name = ps "shape" then .ok (.sparse c d i p (some a))
  else .error .typeError

/-- is the object a numeric array of class `numpy.ndarray` -/
def isNumArr (h : Heap) (a : Addr) : Bool :=
  match h[a]? with
  | some ⟨.ndarray, .arr ..⟩ => true
  | _ => false

/-- `SparseMatrixContainer.convert` (load_scipy.py:113-114).  scipy keeps the arrays it is given; that it may
convert the index arrays to a smaller integer type is not modelled, nor are its checks of the arrays. -/
def sparseConvert (c : Cls) (d i p sh : Option Addr) : LM Addr := do
  let s ← M.get
  match d, i, p, sh with
  | none, _, _, _ => M.throw .attributeError                           -- `None.dtype`
  | some d, some i, some p, some sh =>
    match shapeOf s.heap sh with
    | some shape =>
      if isNumArr s.heap d && isNumArr s.heap i && isNumArr s.heap p && shape.length = 2 && (c = .csr || c = .csc || c = .bsr) then
        lAlloc ⟨c, .sparse d i p shape⟩
      else M.throw .unmodelled
    | none => M.throw .unmodelled
  | _, _, _, _ => M.throw .unmodelled

/-- the container for a node (hickle.py:446-447) -/
def mkCont (k : ContK) (attrs : Attrs) (orig : String) (c : Cls) : LM Cont :=
  match k with
  | .listLike =>
    match Assoc.get? attrs "num_items" with
    | none => pure (.list c [])
    | some (.int i) => pure (.list c (List.replicate i.toNat nobody))
    | some _ => M.throw .unmodelled
  | .setLike => pure (.set c [])
  | .dictLike => pure (.dict c [])
  | .expandRef => pure (.expand [])
  | .recoverGroup => pure (.recover orig attrs [])
  | .noContainer => pure .nothing
  | .ndarrayLike =>
    match Assoc.get? attrs "num_items" with
    | none => pure (.ndarray c attrs [] none)
    | some (.int i) => pure (.ndarray c attrs (List.replicate i.toNat nobody) none)
    | some _ => M.throw .unmodelled
  | .ndmasked => pure (.masked c attrs [])
  | .sparse => pure (.sparse c none none none none)
  | _ => M.throw .unmodelled

/-- `py_subcontainer.filter(h_node)`: the sub nodes to load (helpers.py:93-106, lookup.py:1431-1447) -/
def contFilter (c : LCtx) (cont : Cont) (node : Node) : LM (List (PyStr × NodeId)) :=
  match cont, node.body with
  | .expand _, .dset (.ref t) =>
    match c.store[t]? with
    | none => M.throw .referenceError
    | some tn => pure [(tn.name, t)]
  | .expand _, .dset .nullRef => M.throw .referenceError
  | .expand _, _ => M.throw .unmodelled
  | _, .group ls => pure (c.order ls)
  | .nothing, .dset _ => M.throw .attributeError                       -- a dataset has no items()
  | _, .dset _ => M.throw .unmodelled

/-- is the object a `RecoveredGroup` or `RecoveredDataset` -/
def isRecovered (h : Heap) (a : Addr) : Bool :=
  match h[a]? with
  | some ⟨_, .recData ..⟩ | some ⟨_, .recGroup ..⟩ => true
  | _ => false

/-- `py_container.append(name, item, attrs)` -/
def contAppend (c : LCtx) (cont : Cont) (name : PyStr) (a : Addr) (attrs : Attrs) : LM Cont := do
  match cont with
  | .root l => pure (.root (l ++ [a]))
  | .expand l => pure (.expand (l ++ [a]))
  | .list cls l => do
    let l' ← M.ofExcept (listAppend l name a attrs)
    pure (.list cls l')
  | .set cls l => do
    let s ← M.get
    let l' ← M.ofExcept (setAdd c.env s.heap l a)
    pure (.set cls l')
  | .dict cls l => do
    let l' ← dictAppend c.env l name a attrs
    pure (.dict cls l')
  | .recover b at' l => do
    let s ← M.get
    pure (.recover b at' (l ++ [(name, a,
      if isRecovered s.heap a then none else some (attrs.filter fun p => p.1 ≠ "type"))]))
  | .nothing => pure .nothing
  | .ndarray cls at' l x => do
    let r ← M.ofExcept (arrAppend l x name a attrs)
    pure (.ndarray cls at' r.1 r.2)
  | .masked cls at' l => pure (.masked cls at' (Assoc.put l name a))
  | .sparse cls d i p sh => M.ofExcept (sparseAppend cls d i p sh name a)

/-- `py_container.convert()` -/
def contConvert (c : LCtx) (cont : Cont) : LM Addr :=
  match cont with
  | .root l | .expand l => match l with
    | a :: _ => pure a
    | [] => M.throw .indexError
  | .list cls l => mkSeq c.env cls l
  | .set cls l => mkSet c.env cls l
  | .dict cls l => do
    let s ← M.get
    let ps ← M.ofExcept (dictPairs s.heap l)
    match cls with
    | .dict => do
      let es ← M.ofExcept (dictOf c.env s.heap [] ps)
      lAlloc ⟨.dict, .dict es⟩
    | .user k => construct c.env k (.pairs ps)
    | _ => M.throw .unmodelled
  | .nothing => lAlloc ⟨.noneType, .none⟩
  | .ndarray cls at' l x => arrConvert cls at' l x
  | .masked cls at' l => maskedConvert cls at' l
  | .sparse cls d i p sh => sparseConvert cls d i p sh
  | .recover b attrs l =>
    lAlloc ⟨.recGroup, .recGroup l
      (Assoc.put (attrs.filter fun p => p.1 ≠ "type" && p.1 ≠ "base_type") "base_type" (.bytes b))⟩

/-- the object a node stands for once its class and loader are known (hickle.py:440-461); `rec`
is the recursive call -/
def loadBody (c : LCtx) (rec : Cont → PyStr → NodeId → LM Cont) (node : Node) (r : Resolved) (cls : Cls) : LM Addr := do
  let s ← M.get
  if r.isCont then do                                                    -- 446-453
    let sub ← mkCont ((c.mgr.container s.reg r.base).getD .recoverGroup) node.attrs r.orig cls
    let items ← contFilter c sub node
    let sub ← M.foldEach (fun sub (p : PyStr × NodeId) => rec sub p.1 p.2) sub items
    contConvert c sub
  else match node.body with                                              -- 460-461
    | .dset d => loadData c ((c.mgr.loadFn s.reg r.base).getD .recover) d node.attrs r.orig cls
    | .group _ => M.throw .unmodelled

/-- the object a node stands for and whether it is memoised (hickle.py:435-461) -/
def loadObj (c : LCtx) (rec : Cont → PyStr → NodeId → LM Cont) (node : Node) : LM (Addr × Bool) := do
  let r ← resolveType c node                                             -- 435
  let ce ← lOnReg (loadLoader c.env c.mgr r.cls (some r.base))           -- 436
  let a ← loadBody c rec node r ce.1
  pure (a, ce.2.memoise)

/-- hand the object to the parent container and remember it (hickle.py:454, 462, 465-466) -/
def loadFinish (c : LCtx) (cont : Cont) (name : PyStr) (a : Addr) (attrs : Attrs) (n : NodeId) (mem : Bool) : LM Cont := do
  let cont' ← contAppend c cont name a attrs
  if mem then do
    M.modify fun s => { s with memo := Assoc.put s.memo n a }
    pure cont'
  else pure cont'

/-- `_load` (hickle.py:402-466); `fuel` is the remaining recursion depth.  The parent container
is threaded through. -/
def loadNode (c : LCtx) : Nat → Cont → PyStr → NodeId → LM Cont
  | 0, _, _, _ => M.throw .recursionError
  | fuel + 1, cont, name, n =>
    match c.store[n]? with
    | none => M.throw .unmodelled
    | some node => do
      let s ← M.get
      match Assoc.get? s.memo n with
      | some a => contAppend c cont name a node.attrs                          -- 429-432
      | none => do
        let r ← loadObj c (loadNode c fuel) node
        loadFinish c cont name r.1 node.attrs n r.2

end Verif
