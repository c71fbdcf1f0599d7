import Verif.Hickle.LegacyV3
/-!
# Reading files of hickle 4.0

Models what `hickle.load` does with a file of version 4 (hickle.py:367-377): `lookup.py` `ReferenceManager.resolve_type` with the
class stored in the `type` attribute itself (736-765), `fix_lambda_obj_type` (1595-1617), `_moc_numpy_array_object_lambda` (1573-1593),
`_DictItemContainer` (1410-1421), the tables of the option `hickle-4.x` (1120-1126); `load_builtins.py` `load_scalar_dataset` (311-333),
`load_list_dataset` (356-393), `load_hickle_4_x_string` (395-418), `ListLikeContainer`, `SetLikeContainer`, `DictLikeContainer`
(420-523); `load_numpy.py` `load_np_scalar_dataset`, `load_ndarray_dataset`, `load_ndarray_masked_dataset`, `NDArrayLikeContainer`
(184-294); `load_scipy.py` `SparseMatrixContainer` with `_redirect_to_ndarray` (54-114).

Version 4.0 has no references between nodes: every object is written where it occurs.  Python values are therefore trees here,
and the only identity the reader looks at, that of the empty tuple (`nobody_is_my_name`), is a matter of the value.

Simplifications: the loader modules for builtins, numpy and scipy are taken to be loaded (`load_loader` loads them when it meets the
first class of the package, before it looks for a base type; see C25 and C26); numbers are `bool`, `int64`, `float64` and
`complex128`; pickle strings are kept symbolic; Python is 3.8 or later (see `fix_lambda_obj_type`); arrays of objects are taken apart
by numpy no further than modelled here.
-/
namespace Verif.V4
open V3 (Nd SpK)

/-- the class of a sequence or set -/
inductive SK where
  | list | tuple | set
  deriving DecidableEq, Repr

/-- Python values -/
inductive Val where
  | none
  | bool (b : Bool)
  | int (i : Int)
  | float (x : F64)
  | cplx (x y : F64)
  | str (s : PyStr)
  | bytes (b : Bytes)
  /-- a number of numpy -/
  | np (v : NpVal)
  /-- `numpy.bytes_` -/
  | npBytes (b : Bytes)
  /-- an array of numbers -/
  | arr (a : Nd)
  | matrix (a : Nd)
  /-- an array of strings, dtype `<U{w}` -/
  | sarr (w : Nat) (shape : List Nat) (data : List PyStr)
  /-- an array of byte strings, dtype `|S{w}` -/
  | barr (w : Nat) (shape : List Nat) (data : List Bytes)
  /-- an array of objects -/
  | oarr (shape : List Nat) (items : List Val)
  | masked (a : Nd) (mask : List Bool)
  | sparse (k : SpK) (data indices indptr : Nd) (shape : List Nat)
  /-- an object known to pickle only: class and state -/
  | opaque (c st : Nat)
  | seq (k : SK) (items : List Val)
  | dict (entries : List (V3.PV × Val))
  /-- an object of a class of the program derived from a container: class and content -/
  | inst (k : Nat) (content : Val)
  /-- `RecoveredDataset` or `RecoveredGroup` -/
  | recovered

/-- `nobody_is_my_name` (helpers.py:20), the empty tuple -/
def nobody : Val := .seq .tuple []

/-- is it that object -/
def Val.isNobody : Val → Bool
  | .seq .tuple [] => true
  | _ => false

/-- what the pickle string in a `type` attribute stands for -/
inductive Ty where
  | cls (c : Cls)
  /-- a lambda function, used by version 4.0 for arrays of objects: `pickle.loads` raises `TypeError` -/
  | lambda
  /-- `load_scipy.return_first`, used by version 4.0 for sparse matrices -/
  | returnFirst
  /-- something that can not be imported, such as `__builtin__.NoneType` for the arrays of a sparse matrix -/
  | lost
  deriving DecidableEq, Repr

/-- the `np_dtype` attribute -/
inductive NDt where
  | dt (d : DT)
  | u (w : Nat)
  | s (w : Nat)
  | o
  deriving DecidableEq, Repr

/-- attributes of a node -/
structure Attrs where
  type : Option Ty := Option.none
  base : Option String := Option.none
  strType : Option String := Option.none
  npDtype : Option NDt := Option.none
  keyBase : Option String := Option.none
  keyIdx : Option Nat := Option.none
  deriving DecidableEq, Repr

/-- content of a dataset -/
inductive DSet where
  /-- shape `None` -/
  | null
  /-- numbers; a single number has the shape `()` -/
  | array (a : Nd)
  /-- a single string of variable length -/
  | text (s : PyStr)
  /-- a single byte string of variable length -/
  | chars (b : Bytes)
  /-- byte strings of fixed length `w`, without the NUL bytes that fill them up; a single one has the shape `()` -/
  | fixed (w : Nat) (shape : List Nat) (data : List Bytes)
  /-- the pickle string of an object -/
  | pickle (c st : Nat)
  deriving DecidableEq, Repr

/-- a node of a file -/
inductive Node where
  | dset (d : DSet) (at' : Attrs)
  | group (at' : Attrs) (members : List (PyStr × Node))

abbrev Members := List (PyStr × Node)

def Node.attrs : Node → Attrs
  | .dset _ a | .group a _ => a

/-- Python, h5py, the classes of the program -/
structure Libs where
  v3 : V3.Libs
  /-- the members of a group in the order h5py lists them -/
  order : Members → Members
  /-- a class of the program called with a list, set or dictionary.  Simplification: a class derived from `dict` is called with a list of
  pairs, here with the dictionary of them. -/
  ctor : Nat → Val → Except PyErr Val

def Libs.env (l : Libs) : Env := l.v3.env

/-! ### classes and tables -/

/-- a type found by `resolve_type`: class or function, base type -/
structure Res where
  ty : Ty
  base : String
  deriving DecidableEq, Repr

/-- `resolve_type` (lookup.py:736-765) with `fix_lambda_obj_type` (1595-1617) as `pickle_loads`: no type at all is `object`, what raises
`TypeError` is the placeholder for a lambda function, what can not be imported is recovered -/
def resolve (l : Libs) (n : Node) : Res :=
  match n.attrs.type, n with
  | Option.none, .dset .. => ⟨.cls .object, "pickle"⟩
  | Option.none, .group .. => ⟨.cls .object, n.attrs.base.getD "pickle"⟩
  | some (.cls c), _ => if clsImportable' l.env c then ⟨.cls c, n.attrs.base.getD "pickle"⟩ else ⟨.cls .recover, "!recover!"⟩
  | some .lost, _ => ⟨.cls .recover, "!recover!"⟩
  | some t, _ => ⟨t, n.attrs.base.getD "pickle"⟩
where
  /-- `pickle.loads` of a class reference succeeds -/
  clsImportable' (env : Env) : Cls → Bool
    | .user k => (env.u k).importable
    | _ => true

/-- the registry with the loader modules for builtins, numpy and scipy loaded and `_DictItem` registered (lookup.py:1419-1421) -/
def reg : Registry :=
  let r := (runLoader "scipy" loadScipy (runLoader "numpy" loadNumpy (runLoader "builtins" loadBuiltins Registry.initial).2).2).2
  { r with legacy := { r.legacy with fns := Assoc.put r.legacy.fns "dict_item" .nothing, conts := Assoc.put r.legacy.conts "dict_item" .dictItem } }

/-- the manager for a file of version 4: the legacy tables before the global ones (lookup.py:1120-1124) -/
def mgr : Manager := ⟨[some "hickle-4.x", none]⟩

/-- `hkl_types_dict.get(base_type, recover_custom_dataset)` (hickle.py:460) -/
def fnOf (b : String) : LoadFn := (mgr.loadFn reg b).getD .recover

/-- `hkl_container_dict.get(base_type, RecoverGroupContainer)` (hickle.py:446) -/
def contOf (b : String) : ContK := (mgr.container reg b).getD .recoverGroup

/-! ### equality of elements and keys -/

mutual
/-- what a set sees of a value; `none`: not hashable -/
def Val.view : Val → Option V3.K
  | .none => some .none
  | .bool b => some (V3.K.ofNum (.b b))
  | .int i => some (V3.K.ofNum (.i i))
  | .float x => some (V3.K.ofNum (.f x))
  | .cplx x y => some (V3.K.ofNum (.c x y))
  | .np v => some (V3.K.ofNum v)
  | .str s => some (.str s)
  | .bytes b => some (.bytes b)
  | .npBytes b => some (.bytes b)
  | .opaque _ st => some (.opaque st)
  | .seq .tuple items => (Val.views items).map .tup
  | _ => Option.none
def Val.views : List Val → Option (List V3.K)
  | [] => some []
  | v :: vs =>
    match Val.view v, Val.views vs with
    | some k, some ks => some (k :: ks)
    | _, _ => Option.none
end

/-- are two values equal, as a set sees it -/
def Val.same (oeq : Nat → Nat → Bool) (v w : Val) : Bool :=
  match v.view, w.view with
  | some a, some b => V3.K.eqv oeq a b
  | _, _ => false

/-- `s.add(x)` -/
def setAdd (oeq : Nat → Nat → Bool) (acc : List Val) (v : Val) : Except PyErr (List Val) :=
  if v.view.isNone then .error .typeError
  else if acc.any fun w => w.same oeq v then .ok acc
  else .ok (acc ++ [v])

/-- `set(items)` -/
def setOf (oeq : Nat → Nat → Bool) : List Val → List Val → Except PyErr (List Val)
  | acc, [] => .ok acc
  | acc, v :: vs =>
    match setAdd oeq acc v with
    | .error e => .error e
    | .ok acc' => setOf oeq acc' vs

/-- `d[k] = v` on the entries of a dictionary: an equal key keeps its place -/
def dictPut (oeq : Nat → Nat → Bool) (k : V3.PV) (v : Val) : List (V3.PV × Val) → List (V3.PV × Val)
  | [] => [(k, v)]
  | (k', v') :: es => if k'.same oeq k then (k', v) :: es else (k', v') :: dictPut oeq k v es

/-- `dict(pairs)` -/
def dictOf (oeq : Nat → Nat → Bool) : List (V3.PV × Val) → List (V3.PV × Val) → Except PyErr (List (V3.PV × Val))
  | acc, [] => .ok acc
  | acc, (k, v) :: es => if k.view.isNone then .error .typeError else dictOf oeq (dictPut oeq k v acc) es

/-! ### load functions -/

/-- `py_obj_type(content)` unless the content is of that class, for the items of an iterable -/
def ofItems (l : Libs) (t : Ty) (items : List Val) : Except PyErr Val :=
  match t with
  | .cls .list => .ok (.seq .list items)
  | .cls .tuple => .ok (.seq .tuple items)
  | .cls .set => (setOf l.env.opaqueEq [] items).map (.seq .set)
  | .cls (.user k) => l.ctor k (.seq .list items)
  | _ => .error .unmodelled

/-- `py_obj_type(content)` unless the content is of that class, for a string: iterating over it gives its characters -/
def ofStr (l : Libs) (t : Ty) (s : PyStr) : Except PyErr Val :=
  match t with
  | .cls .str => .ok (.str s)
  | .cls (.user k) => l.ctor k (.str s)
  | t => ofItems l t (s.map fun c => .str [c])

/-- `py_obj_type(content)` unless the content is of that class, for a byte string -/
def ofBytes (t : Ty) (b : Bytes) : Except PyErr Val :=
  match t with
  | .cls .bytes => .ok (.bytes b)
  | _ => .error .unmodelled

/-- `bytes(...).decode('utf8')` -/
def decode (b : Bytes) : Except PyErr PyStr :=
  match utf8Decode b with
  | some s => .ok s
  | none => .error .valueError                                        -- UnicodeDecodeError

/-- an element of `np.asarray(content, dtype=str)` for byte strings: numpy decodes ASCII only -/
def decodeAscii (b : Bytes) : Except PyErr PyStr :=
  if b.all fun c => decide (c < 128) then .ok (b.map UInt8.toNat) else .error .valueError

/-- the bytes of an element of dtype `S1`: an empty string is a NUL byte -/
def oneByte (b : Bytes) : Bytes := match b with | [] => [0] | c :: _ => [c]

/-- `bytes(h_node[()])` of byte strings of length one: of an array its memory, of a single element its value -/
def rawBytes (shape : List Nat) (data : List Bytes) : Bytes :=
  if shape = [] then data.flatten else data.flatMap oneByte

/-- `load_list_dataset` (load_builtins.py:356-393) -/
def loadList (l : Libs) (d : DSet) (at' : Attrs) (t : Ty) : Except PyErr Val :=
  match d with
  | .null =>                                                          -- 376-379: `py_obj_type(())`
    if t = .cls .str then .ok (.str (ps "()"))
    else if t = .cls .bytes then .ok (.bytes [])
    else ofItems l t []
  | .fixed w shape data =>
    if at'.strType = some "str" then
      if w > 1 then do                                                -- 386-389
        let ss ← data.mapM decodeAscii
        match shape, ss with
        | [], [s] => ofStr l t s
        | [_], ss => ofItems l t (ss.map .str)
        | _, _ => .error .unmodelled
      else do                                                         -- 390-393
        let s ← decode (rawBytes shape data)
        ofStr l t s
    else match shape, data with
      | [], [b] => ofBytes t b
      | [_], data => ofItems l t (data.map .npBytes)
      | _, _ => .error .unmodelled
  | .array a =>
    if at'.strType = none ∧ a.shape = [a.data.length] then ofItems l t (a.data.map .np)
    else .error .unmodelled
  | .chars b =>
    if at'.strType = some "str" then do
      let s ← decode b
      ofStr l t s
    else ofBytes t b
  | .text _ => .error .unmodelled
  | .pickle .. => .error .unmodelled

/-- `load_hickle_4_x_string` (load_builtins.py:395-418).  h5py 2 gives a string, h5py 3 its UTF-8 encoding, which is decoded. -/
def loadStr4x (l : Libs) (d : DSet) (at' : Attrs) (t : Ty) : Except PyErr Val :=
  match d with
  | .text s =>
    if at'.strType = none then
      match t with
      | .cls .str => .ok (.str s)
      | .cls (.user k) => l.ctor k (.str s)
      | _ => .error .unmodelled
    else loadList l d at' t
  | .chars b =>
    if at'.strType = none then
      match t with
      | .cls .str => (decode b).map .str
      | t => ofBytes t b
    else loadList l d at' t
  | d => loadList l d at' t

/-- `load_scalar_dataset` (load_builtins.py:311-333) -/
def loadScalar (d : DSet) (t : Ty) : Except PyErr Val :=
  match d with
  | .array ⟨_, [], [v]⟩ =>
    match t, v with
    | .cls .int, .i x => .ok (.int x)
    | .cls .bool, .b x => .ok (.bool x)
    | .cls .float, .f x => .ok (.float x)
    | .cls .complex, .c x y => .ok (.cplx x y)
    | _, _ => .error .unmodelled
  | _ => .error .unmodelled

/-- `load_np_scalar_dataset` (load_numpy.py:184-205) -/
def loadNpScalar (d : DSet) (at' : Attrs) : Except PyErr Val :=
  match at'.npDtype, d with
  | none, _ => .error .keyError
  | some (.dt t), .array ⟨_, [], [v]⟩ => if v.dt = t then .ok (.np v) else .error .unmodelled
  | _, _ => .error .unmodelled

/-- `load_ndarray_dataset` (load_numpy.py:208-241) -/
def loadNdarray (d : DSet) (at' : Attrs) (t : Ty) : Except PyErr Val :=
  match at'.npDtype with
  | none => .error .keyError
  | some (.u w) =>
    match d with
    | .fixed w' shape data =>
      if w' ≤ 1 then do                                               -- 229-233
        let s ← decode (rawBytes shape data)
        .ok (.sarr w [] [fixStr w s])
      else do                                                         -- 234
        let ss ← data.mapM decodeAscii
        .ok (.sarr w shape (ss.map (fixStr w)))
    | .chars b => do
      let s ← decode b
      .ok (.sarr w [] [fixStr w s])
    | _ => .error .unmodelled
  | some (.s w) =>
    match d with
    | .fixed w' shape data => if w' = w ∧ t = .cls .ndarray then .ok (.barr w shape data) else .error .unmodelled
    | _ => .error .unmodelled
  | some (.dt dt) =>
    match d with
    | .array a =>
      if a.dt ≠ dt then .error .unmodelled
      else if t = .cls .matrix then (if a.shape.length = 2 then .ok (.matrix a) else .error .unmodelled)   -- 235-236
      else .ok (.arr a)                                               -- 240
    | _ => .error .unmodelled
  | some .o => .error .unmodelled

/-- the mask `np.ma.array` makes of a dataset: one boolean per element, or one for all -/
def maskOf (a : Nd) (m : Nd) : Option (List Bool) :=
  match m.dt, m.data.mapM V3.npBit with
  | .bool, some bs =>
    if m.shape = a.shape then some bs
    else match bs with
      | [b] => some (List.replicate a.data.length b)
      | _ => none
  | _, _ => none

/-- the name of the node of a mask (load_numpy.py:264) -/
def maskName (name : PyStr) : PyStr := name ++ ps "_mask"

/-- `load_ndarray_masked_dataset` (load_numpy.py:244-273): the mask is a member of the same group -/
def loadMasked (sib : Members) (name : PyStr) (d : DSet) (at' : Attrs) (t : Ty) : Except PyErr Val :=
  match d with
  | .array a =>
    match Assoc.get? sib (maskName name) with
    | none => .error .valueError                                      -- "mask not found"
    | some (.dset (.array m) _) =>
      match at'.npDtype, maskOf a m with
      | none, _ => .error .keyError
      | some (.dt dt), some bs => if a.dt = dt ∧ t = .cls .masked then .ok (.masked a bs) else .error .unmodelled
      | _, _ => .error .unmodelled
    | some _ => .error .unmodelled
  | _ => .error .unmodelled

/-- call of the load function (hickle.py:460-461) -/
def loadData (l : Libs) (sib : Members) (name : PyStr) (d : DSet) (at' : Attrs) (r : Res) : Except PyErr Val :=
  match fnOf r.base with
  | .scalar => loadScalar d r.ty
  | .none => .ok .none
  | .list => loadList l d at' r.ty
  | .str4x => loadStr4x l d at' r.ty
  | .npScalar => loadNpScalar d at'
  | .ndarray => loadNdarray d at' r.ty
  | .ndmasked4x => loadMasked sib name d at' r.ty
  | .pickled => match d with | .pickle c st => .ok (.opaque c st) | _ => .error .unmodelled
  | .nothing => .ok nobody
  | .recover => if d = .null then .error .typeError else .ok .recovered
  | .custom _ => .error .unmodelled

/-! ### containers -/

/-- `content.extend([hole] * …)`, check that the place is free, put the item there (load_builtins.py:450-456, 517-521) -/
def place {α : Type} (hole : α) (isHole : α → Bool) (content : List α) (i : Nat) (x : α) : Except PyErr (List α) :=
  let content := content ++ List.replicate (i + 1 - content.length) hole
  match content[i]? with
  | some y => if isHole y then .ok (content.set i x) else .error .indexError
  | none => .error .indexError

/-- `\d+$` on a node name (load_builtins.py:429) -/
def trailing (s : PyStr) : Option Nat := parseNat (s.reverse.takeWhile isDigit).reverse

/-- `ListLikeContainer.append` (load_builtins.py:438-456); version 4.0 does not write `item_index` -/
def listAppend (content : List Val) (name : PyStr) (v : Val) : Except PyErr (List Val) :=
  match trailing name with
  | some i => place nobody Val.isNobody content i v
  | none => if v.isNobody then .ok content else .error .keyError

/-- `\\` back to `/` (load_builtins.py:485) -/
def swapBack (s : PyStr) : PyStr := s.map fun c => if c = 92 then 47 else c

/-- the key a member name stands for (load_builtins.py:487-508) -/
def loadKey (l : Libs) (kb : String) (name : PyStr) : Except PyErr V3.PV :=
  if kb = "str" then
    .ok (.str (if name.head? = some 34 then (name.drop 1).dropLast else ((swapBack name).drop 1).dropLast))
  else if kb = "bytes" then
    if name.take 2 = [98, 34] then
      match utf8Encode ((name.drop 2).dropLast) with
      | some b => .ok (.bytes b)
      | none => .error .unicodeEncodeError
    else .ok (.str ((swapBack name).drop 1).dropLast)
  else if kb = "float" then match l.env.parseF (swapBack name) with
    | some x => .ok (.float x)
    | none => .error .valueError
  else if kb = "bool" then .ok (.bool (!name.isEmpty))
  else if kb = "int" then match parseInt (swapBack name) with
    | some i => if digitsOk l.env i then .ok (.int i) else .error .valueError
    | none => .error .valueError
  else if kb = "complex" then match l.env.parseC (swapBack name) with
    | some z => .ok (.cplx z.1 z.2)
    | none => .error .valueError
  else if kb = "NoneType" then .ok .none
  else if kb = "tuple" then V3.literalEval l.v3 (swapBack name)
  else .error .valueError

/-- `DictLikeContainer.append` (load_builtins.py:486-521) -/
def dictAppend (l : Libs) (content : List (Option (V3.PV × Val))) (name : PyStr) (v : Val) (at' : Attrs) :
    Except PyErr (List (Option (V3.PV × Val))) := do
  if at'.keyBase = some "key_value" then .error .unmodelled
  else
    let k ← loadKey l (at'.keyBase.getD "") name
    match at'.keyIdx with
    | none => if v.isNobody then .ok content else .error .keyError
    | some i => place none Option.isNone content i (some (k, v))

/-- the parts of a sparse matrix -/
structure Sp where
  ty : Ty
  data : Option Val := none
  indices : Option Val := none
  indptr : Option Val := none
  shape : Option Val := none

/-- `PyContainer` objects with their `_content` -/
inductive Cont where
  | list (content : List Val)
  | set (content : List Val)
  | dict (content : List (Option (V3.PV × Val)))
  /-- `_DictItemContainer` -/
  | item (content : List Val)
  /-- `NDArrayLikeContainer`: a list, or a single object in its place -/
  | ndarray (content : List Val) (single : Option Val)
  | sparse (s : Sp)
  | nothing
  | recover

/-- the container for a node (hickle.py:446-447) -/
def mkCont (r : Res) : Except PyErr Cont :=
  match contOf r.base with
  | .listLike => .ok (.list [])
  | .setLike => .ok (.set [])
  | .dictLike => .ok (.dict [])
  | .dictItem => .ok (.item [])
  | .ndarrayLike => .ok (.ndarray [] none)
  | .sparse => .ok (.sparse { ty := r.ty })
  | .noContainer => .ok .nothing
  | .recoverGroup => .ok .recover
  | _ => .error .unmodelled

/-- the names `SparseMatrixContainer` knows (load_scipy.py:62-67) -/
def spNames : List PyStr := [ps "data", ps "indices", ps "indptr", ps "shape"]

/-- the dtype string of a dataset, `item.dtype.str` -/
def DSet.dt? : DSet → Option NDt
  | .array a => some (.dt a.dt)
  | .fixed w .. => some (.s w)
  | .text _ | .chars _ => some .o
  | .null | .pickle .. => none

/-- how `_redirect_to_ndarray` presents a member: as array, the shape as tuple (load_scipy.py:84-106).  The changes are made to a proxy. -/
def redirect (name : PyStr) : Node → Node
  | .dset d at' =>
    if name = ps "shape" then .dset d { at' with type := some (.cls .tuple), base := some "tuple" }
    else .dset d { at' with type := some (.cls .ndarray), base := some "ndarray", npDtype := at'.npDtype.or d.dt? }
  | n => n

/-- `py_subcontainer.filter(h_node)`: the container, whose type may change, and the members to load (helpers.py:93-106,
load_scipy.py:71-106) -/
def filter (c : Cont) (ms : Members) : Except PyErr (Cont × Members) :=
  match c with
  | .sparse s =>
    if s.ty = .returnFirst then
      let ms := ms.filter fun e => spNames.contains e.1
      match Assoc.get? ms (ps "data") with
      | none => .ok (c, ms.map fun e => (e.1, redirect e.1 e.2))
      | some d => match d.attrs.type with
        | some t => .ok (.sparse { s with ty := t }, ms.map fun e => (e.1, redirect e.1 e.2))
        | none => .error .keyError
    else .ok (c, ms)
  | c => .ok (c, ms)

/-- `py_container.append(name, item, attrs)` -/
def append (l : Libs) (c : Cont) (name : PyStr) (v : Val) (at' : Attrs) : Except PyErr Cont :=
  match c with
  | .list content => (listAppend content name v).map .list
  | .set content => (setAdd l.env.opaqueEq content v).map .set
  | .dict content => (dictAppend l content name v at').map .dict
  | .item content => .ok (.item (content ++ [v]))
  | .ndarray content single =>
    if at'.base = some "pickle" ∨ name = ps "data" then .ok (.ndarray content (some v))       -- load_numpy.py:287-288
    else match single with
      | some _ => .error .unmodelled
      | none => (listAppend content name v).map fun content => .ndarray content none
  | .sparse s =>                                                                              -- load_scipy.py:108-110
    if name = ps "data" then .ok (.sparse { s with data := some v })
    else if name = ps "indices" then .ok (.sparse { s with indices := some v })
    else if name = ps "indptr" then .ok (.sparse { s with indptr := some v })
    else if name = ps "shape" then .ok (.sparse { s with shape := some v })
    else .error .typeError
  | .nothing => .ok .nothing
  | .recover => .ok .recover

/-- is it something `np.array(…, dtype=object)` takes apart -/
def Val.isSeq : Val → Bool
  | .seq .list _ | .seq .tuple _ | .arr _ | .matrix _ | .sarr .. | .barr .. | .oarr .. | .masked .. | .inst .. | .sparse .. | .recovered | .opaque .. => true
  | _ => false

/-- class of a sparse matrix -/
def spKind : Ty → Option SpK
  | .cls .csr => some .csr
  | .cls .csc => some .csc
  | .cls .bsr => some .bsr
  | _ => none

/-- a number of a loaded shape -/
def natOf : Val → Option Nat
  | .np (.i n) => if 0 ≤ n then some n.toNat else none
  | _ => none

/-- `py_container.convert()` -/
def convert (l : Libs) (t : Ty) (at' : Attrs) (c : Cont) : Except PyErr Val :=
  match c with
  | .list content => ofItems l t content                                                      -- load_builtins.py:458-459
  | .set content => match t with                                                              -- 476-477
    | .cls .set => .ok (.seq .set content)
    | .cls (.user k) => l.ctor k (.seq .set content)
    | _ => .error .unmodelled
  | .dict content =>                                                                          -- 522-523
    match content.mapM id with
    | none => .error .valueError                                                              -- a hole is no pair
    | some es => do
      let es ← dictOf l.env.opaqueEq [] es
      match t with
      | .cls .dict => .ok (.dict es)
      | .cls (.user k) => l.ctor k (.dict es)
      | _ => .error .unmodelled
  | .item content => match content with                                                       -- lookup.py:1416-1417
    | v :: _ => .ok v
    | [] => .error .indexError
  | .ndarray content single =>                                                                -- load_numpy.py:292-294
    match at'.npDtype with
    | none => .error .keyError
    | some .o =>
      if t = .cls .ndarray ∨ t = .lambda then
        match single with
        | some v => if v.isSeq then .error .unmodelled else .ok (.oarr [] [v])
        | none => if content.any Val.isSeq then .error .unmodelled else .ok (.oarr [content.length] content)
      else .error .unmodelled
    | some _ => .error .unmodelled
  | .sparse s =>                                                                              -- load_scipy.py:112-113
    match spKind s.ty, s.data, s.indices, s.indptr, s.shape with
    | some k, some (.arr d), some (.arr ix), some (.arr ip), some (.seq .tuple sh) =>
      match sh.mapM natOf with
      | some shape => .ok (.sparse k d ix ip shape)
      | none => .error .unmodelled
    | _, none, _, _, _ => .error .attributeError
    | _, _, _, _, _ => .error .unmodelled
  | .nothing => .ok .none
  | .recover => .ok .recovered

/-- the members one after the other: each is loaded and handed to the container (hickle.py:449-450, 454, 462) -/
def loadAll (l : Libs) (rec : PyStr → Node → Except PyErr Val) : Cont → Members → Except PyErr Cont
  | c, [] => .ok c
  | c, e :: es => do
    let v ← rec e.1 e.2
    let c ← append l c e.1 v e.2.attrs
    loadAll l rec c es

/-- `_load` (hickle.py:402-466) of one node, `sib` being the members of its group; `fuel` is the remaining recursion depth.
No node is met twice, so the memo is never used. -/
def load (l : Libs) : Nat → Members → PyStr → Node → Except PyErr Val
  | 0, _, _, _ => .error .recursionError
  | _ + 1, sib, name, .dset d at' => loadData l sib name d at' (resolve l (.dset d at'))
  | fuel + 1, _, _, .group at' ms => do
    let r := resolve l (.group at' ms)
    let c ← mkCont r
    let p ← filter c (l.order ms)
    let c ← loadAll l (load l fuel ms) p.1 p.2
    convert l r.ty at' c

/-- `load` of a file of version 4 (hickle.py:361-377): the object is the member `data` of the root -/
def loadFile (l : Libs) (fuel : Nat) (root : Members) : Except PyErr Val :=
  match Assoc.get? root (ps "data") with
  | none => .error .keyError
  | some n => load l fuel root (ps "data") n

end Verif.V4
