import Verif.Hickle.Dump
import Verif.Py.Repr
/-!
# Version 3: the writer and the reader

Models `hickle/legacy_v3`: `hickle.py` `_dump` (207-254), `dump` (257-309), `create_dataset_lookup` (312-329), `create_hkl_dataset` (333-346),
`create_hkl_group` (349-359), `create_dict_dataset` (362-388), `no_match` (391-403), `PyContainer` (412-453), `load_dataset_lookup`, `load`
(457-546), `load_dataset` (549-565), `_load` (567-610); `helpers.py` `get_type_and_data`, `get_type`, `sort_keys`, `check_is_iterable`,
`check_iterable_item_type`; `lookup.py` (67-150) and the loaders `load_python3.py`, `load_numpy.py`, `load_scipy.py`.

Version 3 does not look at the identity of objects, so Python values are trees here.

Simplifications: keyword arguments for `create_dataset` are not modelled; numbers are `bool`, `int64`, `float64` and `complex128`
(a list of integers that numpy would store as `uint64` is not modelled); arrays are arrays of numbers; `int()` of a text that is sorted by is not
limited in the number of digits; pickle strings are kept symbolic; `np.dtype`, astropy and Python 2 types are not modelled.
-/
namespace Verif.V3

/-- `sys.modules` classes of scipy for compressed matrices -/
inductive SpK where
  | csr | csc | bsr
  deriving DecidableEq, Repr

/-- the class of a sequence or set -/
inductive SeqK where
  | list | tuple | set
  /-- any other iterable class, such as `frozenset` or a class derived from `list` -/
  | other (name : String)
  deriving DecidableEq, Repr

/-- an array of numbers -/
structure Nd where
  dt : DT
  shape : List Nat
  data : List NpVal
  deriving DecidableEq, Repr

/-- Python values -/
inductive PV where
  | none
  | bool (b : Bool)
  | int (i : Int)
  | float (x : F64)
  | cplx (x y : F64)
  | str (s : PyStr)
  | bytes (b : Bytes)
  /-- a numpy scalar -/
  | np (v : NpVal)
  | arr (a : Nd)
  /-- a masked array with one boolean per element as mask -/
  | masked (a : Nd) (mask : List Bool)
  | sparse (k : SpK) (data indices indptr : Nd) (shape : List Nat)
  /-- an object that is neither iterable nor has a loader: class and state -/
  | opaque (c st : Nat)
  | seq (k : SeqK) (items : List PV)
  | dict (entries : List (PV × PV))
  /-- a `PyContainer` that is not converted, with the last part of the name of its node and its `key_type` -/
  | cont (name : PyStr) (keyType : Option String) (items : List PV)

/-- content of a dataset -/
inductive DSet where
  | array (a : Nd)
  | scalar (v : NpVal)
  /-- a one dimensional array of byte strings -/
  | bytesArr (l : List Bytes)
  /-- shape `(1,)`, strings of variable length -/
  | text (s : PyStr)
  /-- shape `(1,)`, the pickle string of an object -/
  | pickle (v : PV)

/-- a node of a file with its attributes (all of them texts); a group has its members in the order they were made in -/
inductive Node where
  | dset (d : DSet) (attrs : List (String × String))
  | group (attrs : List (String × String)) (members : List (PyStr × Node))

abbrev Members := List (PyStr × Node)

/-- the environment: Python, h5py -/
structure Libs where
  env : Env
  /-- `str.isprintable` for characters beyond ASCII -/
  printable : Nat → Bool
  /-- the file is written by h5py 3 or later -/
  newW : Bool
  /-- the file is read by h5py 3 or later -/
  newR : Bool
  /-- `h_group.keys()` in the order h5py lists them -/
  order : Members → List PyStr

/-! ## Names -/

/-- the first group of digits in a name, `re.search(br'\d+', key)` (helpers.py:39) -/
def firstDigits (s : PyStr) : PyStr := (s.dropWhile fun c => !isDigit c).takeWhile isDigit

/-- the number a name is sorted by; `none`: no digit in it (helpers.py:39, 43) -/
def number (s : PyStr) : Option Nat := parseNat (firstDigits s)

/-- insert behind the elements that are not greater -/
def insertBy {α : Type} (le : α → α → Bool) (x : α) : List α → List α
  | [] => [x]
  | y :: ys => if le y x then y :: insertBy le x ys else x :: y :: ys

/-- Python's `sorted`: a stable sort (elements are inserted behind equal ones) -/
def sortBy {α : Type} (le : α → α → Bool) (xs : List α) : List α := xs.foldl (fun acc x => insertBy le x acc) []

/-- comparison of byte strings -/
def textLe : PyStr → PyStr → Bool
  | [], _ => true
  | _ :: _, [] => false
  | a :: as, b :: bs => if a = b then textLe as bs else decide (a < b)

/-- `sort_keys` (helpers.py:19-47): names are encoded as ASCII; sorted by number if all have one, otherwise as texts -/
def sortKeys (keys : List PyStr) : Except PyErr (List PyStr) :=
  if keys.all fun k => k.all fun c => decide (c < 128) then
    if keys ≠ [] && keys.all fun k => (number k).isSome then
      .ok (sortBy (fun a b => decide ((number a).getD 0 ≤ (number b).getD 0)) keys)
    else .ok (sortBy textLe keys)
  else .error .unicodeEncodeError

/-- `'data_%i' % call_id` -/
def dataName (i : Nat) : PyStr := ps "data_" ++ digits i

/-- a new member of a group: h5py refuses a name in use -/
def putMember (ms : Members) (name : PyStr) (n : Node) : Except PyErr Members :=
  if (Assoc.get? ms name).isSome then .error .valueError else .ok (ms ++ [(name, n)])

/-- the names along a path: HDF5 ignores empty ones and `.` -/
def comps (p : PyStr) : List PyStr := (go [] p).filter fun c => c ≠ [] && c ≠ [46]
where
  go (acc : PyStr) : PyStr → List PyStr
    | [] => [acc.reverse]
    | c :: cs => if c = 47 then acc.reverse :: go [] cs else go (c :: acc) cs

/-- a new member at a path relative to the group: groups on the way are made, without attributes -/
def putPath : List PyStr → Members → Node → Except PyErr Members
  | [], _, _ => .error .valueError
  | [c], ms, n => putMember ms c n
  | c :: cs, ms, n =>
    match Assoc.get? ms c with
    | none => (putPath cs [] n).map fun sub => ms ++ [(c, .group [] sub)]
    | some (.group at' sub) => (putPath cs sub n).map fun sub' => ms.map fun e => if e.1 = c then (c, .group at' sub') else e
    | some (.dset ..) => .error .valueError

/-! ## Texts of keys -/

/-- the items of a tuple with what stands between them -/
def joinItems : List PyStr → PyStr
  | [] => []
  | [t] => t
  | t :: ts => t ++ 44 :: 32 :: joinItems ts

mutual
/-- `repr` of a value that can be a key of a dictionary -/
def reprPV (l : Libs) : PV → Except PyErr PyStr
  | .none => .ok (ps "None")
  | .bool true => .ok (ps "True")
  | .bool false => .ok (ps "False")
  | .int i => if digitsOk l.env i then .ok (showInt i) else .error .valueError
  | .float x => .ok (l.env.reprF x)
  | .cplx x y => .ok (l.env.reprC x y)
  | .str s => .ok (reprStr l.printable s)
  | .bytes b => .ok (reprBytes b)
  | .seq .tuple items => do
    match ← reprPVs l items with
    | [t] => .ok (40 :: t ++ [44, 41])
    | ts => .ok (40 :: joinItems ts ++ [41])
  | _ => .error .unmodelled
def reprPVs (l : Libs) : List PV → Except PyErr (List PyStr)
  | [] => .ok []
  | v :: vs => do
    let t ← reprPV l v
    let ts ← reprPVs l vs
    .ok (t :: ts)
end

/-- a number or a name in a literal.  `inf` and `nan` are names, not literals; complex numbers are not modelled. -/
def litToken (l : Libs) (t : PyStr) : Option PV :=
  if t = ps "None" then some .none
  else if t = ps "True" then some (.bool true)
  else if t = ps "False" then some (.bool false)
  else match parseInt t with
    | some i => if digitsOk l.env i then some (.int i) else none
    | none => if 110 ∈ t then none else (l.env.parseF t).map .float

/-- does a token end before this character -/
def tokenEnd (c : Nat) : Bool := c = 44 || c = 41

mutual
/-- `ast.literal_eval` of the literal at the beginning of a text, and what follows it; `fuel` bounds the nesting -/
def lit (l : Libs) : Nat → PyStr → Option (PV × PyStr)
  | 0, _ => none
  | _ + 1, [] => none
  | f + 1, c :: cs =>
    if c = 40 then
      if cs.head? = some 41 then some (.seq .tuple [], cs.tail)
      else match lit l f cs with
        | some (x, r) =>
          if r.head? = some 44 && r.tail.head? = some 41 then some (.seq .tuple [x], r.tail.tail)
          else if r.head? = some 44 && r.tail.head? = some 32 then
            match litItems l f r.tail.tail with
            | some (xs, r) => some (.seq .tuple (x :: xs), r)
            | none => none
          else none
        | none => none
    else if c = 39 ∨ c = 34 then (litBody c .plain cs).map fun r => (.str r.1, r.2)
    else if c = 98 then
      match litStr cs with
      | some (s, r) => if s.all fun x => decide (x < 256) then some (.bytes (s.map UInt8.ofNat), r) else none
      | none => none
    else (litToken l ((c :: cs).takeWhile fun x => !tokenEnd x)).map fun v => (v, (c :: cs).dropWhile fun x => !tokenEnd x)
/-- the further items of a tuple and what follows the closing bracket -/
def litItems (l : Libs) : Nat → PyStr → Option (List PV × PyStr)
  | 0, _ => none
  | f + 1, s =>
    match lit l f s with
    | some (x, r) =>
      if r.head? = some 41 then some ([x], r.tail)
      else if r.head? = some 44 && r.tail.head? = some 32 then
        match litItems l f r.tail.tail with
        | some (xs, r) => some (x :: xs, r)
        | none => none
      else none
    | none => none
end

/-- `ast.literal_eval` of a text -/
def literalEval (l : Libs) (t : PyStr) : Except PyErr PV :=
  match lit l (t.length + 1) t with
  | some (v, []) => .ok v
  | _ => .error .valueError

/-- name of the class of a value, `str(type(key))` -/
def SeqK.typeName : SeqK → String
  | .list => "<class 'list'>"
  | .tuple => "<class 'tuple'>"
  | .set => "<class 'set'>"
  | .other n => "<class '" ++ n ++ "'>"

/-- `str(type(key))` of a key -/
def keyTypeName : PV → String
  | .none => "<class 'NoneType'>"
  | .bool _ => "<class 'bool'>"
  | .int _ => "<class 'int'>"
  | .float _ => "<class 'float'>"
  | .cplx .. => "<class 'complex'>"
  | .str _ => "<class 'str'>"
  | .bytes _ => "<class 'bytes'>"
  | .seq k _ => k.typeName
  | _ => "<class 'object'>"

/-! ## Writing -/

/-- what `type(x) is first_type` distinguishes -/
inductive Ty where
  | none | bool | int | float | complex | str | bytes | np (d : DT) | arr | masked | sparse (k : SpK) | opaque (c : Nat)
  | seq (k : SeqK) | dict | cont
  deriving DecidableEq, Repr

def PV.ty : PV → Ty
  | .none => .none
  | .bool _ => .bool
  | .int _ => .int
  | .float _ => .float
  | .cplx .. => .complex
  | .str _ => .str
  | .bytes _ => .bytes
  | .np v => .np v.dt
  | .arr _ => .arr
  | .masked .. => .masked
  | .sparse k .. => .sparse k
  | .opaque c _ => .opaque c
  | .seq k _ => .seq k
  | .dict _ => .dict
  | .cont .. => .cont

/-- `check_iterable_item_type` (helpers.py:91-116); `none`: `False` -/
def itemType : List PV → Option Ty
  | [] => none
  | x :: xs => if xs.all fun y => y.ty = x.ty then some x.ty else none

/-- `dumpable_dtypes` (hickle.py:218-221) -/
def dumpable : Ty → Bool
  | .bool | .int | .float | .complex | .str | .bytes => true
  | _ => false

/-- trailing NUL bytes are not kept by arrays of byte strings of fixed width -/
def stripNul (b : Bytes) : Bytes := (b.reverse.dropWhile (· = 0)).reverse

/-- the array h5py makes of a list of byte strings: until version 2 of fixed width, from version 3 on strings of variable length,
which can not contain NUL -/
def bytesData (l : Libs) (bs : List Bytes) : Except PyErr DSet :=
  if l.newW then if bs.any fun b => b.contains 0 then .error .valueError else .ok (.bytesArr bs)
  else .ok (.bytesArr (bs.map stripNul))

/-- the strings of a list, encoded (load_python3.py:60) -/
def encodeAll : List PV → Except PyErr (List Bytes)
  | [] => .ok []
  | .str s :: vs =>
    match utf8Encode s with
    | none => .error .unicodeEncodeError
    | some b => (encodeAll vs).map (b :: ·)
  | .bytes b :: vs => (encodeAll vs).map (b :: ·)
  | _ :: _ => .error .unmodelled

/-- the number a Python value is -/
def PV.num? : PV → Option NpVal
  | .bool b => some (.b b)
  | .int i => some (.i i)
  | .float x => some (.f x)
  | .cplx x y => some (.c x y)
  | _ => Option.none

/-- `np.asarray` of a list of Python numbers of the same type.  Integers: `int64` if it can hold all of them; `float64` if some need
`uint64` and others `int64`; an array of objects, which h5py refuses, if one needs more than 64 bits. -/
def numArray (vs : List NpVal) : Except PyErr Nd :=
  match vs with
  | [] => .error .unmodelled
  | .i _ :: _ =>
    if vs.all NpVal.ok then .ok ⟨.int64, [vs.length], vs⟩
    else if vs.all fun v => match v with | .i x => -(2 ^ 63) ≤ x && x < 2 ^ 64 | _ => false then
      if vs.all fun v => match v with | .i x => 2 ^ 63 ≤ x | _ => false then .error .unmodelled
      else match vs.mapM (castNum .float64) with
        | some fs => .ok ⟨.float64, [vs.length], fs⟩
        | none => .error .overflowError
    else .error .typeError
  | v :: _ => .ok ⟨v.dt, [vs.length], vs⟩

/-- `no_match` (hickle.py:391-403): a pickle string contains NUL bytes -/
def noMatch (l : Libs) (v : PV) (i : Nat) (ms : Members) : Except PyErr Members :=
  if l.newW then .error .valueError
  else putMember ms (dataName i) (.dset (.pickle v) [("type", "pickle")])

/-- `create_listlike_dataset` (load_python3.py:41-71); the items are of one of the dumpable types -/
def createListlike (l : Libs) (k : SeqK) (items : List PV) (i : Nat) (ms : Members) : Except PyErr Members :=
  match itemType items with
  | some .str => do
    let d ← bytesData l (← encodeAll items)
    putMember ms (dataName i) (.dset d [("type", k.typeName), ("py3_string_type", "<class 'str'>")])
  | some .bytes => do
    let d ← bytesData l (← encodeAll items)
    putMember ms (dataName i) (.dset d [("type", k.typeName), ("py3_string_type", "<class 'bytes'>")])
  | _ =>
    match items.mapM PV.num? with
    | none => .error .unmodelled
    | some vs => do
      let a ← numArray vs
      putMember ms (dataName i) (.dset (.array a) [("type", k.typeName)])

/-- `create_python_dtype_dataset` (load_python3.py:75-87) -/
def createPyNum (v : NpVal) (name : String) (i : Nat) (ms : Members) : Except PyErr Members :=
  if v.ok then putMember ms (dataName i) (.dset (.scalar v) [("type", "python_dtype"), ("python_subdtype", name)])
  else .error .overflowError

def SpK.name : SpK → String
  | .csr => "csr" | .csc => "csc" | .bsr => "bsr"

/-- the shape of a matrix as an array -/
def shapeNd (shape : List Nat) : Nd := ⟨.int64, [shape.length], shape.map fun (n : Nat) => .i n⟩

/-- `create_sparse_dataset` (load_scipy.py:23-60) -/
def sparseGroup (k : SpK) (d ix ip : Nd) (shape : List Nat) : Node :=
  .group [("type", k.name ++ "_matrix")] [
    (ps "data", .dset (.array d) [("type", k.name ++ "_matrix_data")]),
    (ps "indices", .dset (.array ix) [("type", k.name ++ "_matrix_indices")]),
    (ps "indptr", .dset (.array ip) [("type", k.name ++ "_matrix_indptr")]),
    (ps "shape", .dset (.array (shapeNd shape)) [("type", k.name ++ "_matrix_shape")])]

/-- `create_hkl_dataset` (hickle.py:333-346) but for dictionaries; the table is that of load_python3.py:176-188, load_numpy.py:79-97
and load_scipy.py:85-89.  `numpy.bool_` is not in it. -/
def createDataset (l : Libs) (v : PV) (i : Nat) (ms : Members) : Except PyErr Members :=
  match v with
  | .none => putMember ms (dataName i) (.dset (.array ⟨.int64, [1], [.i 0]⟩) [("type", "none")])
  | .bool b => createPyNum (.b b) "<class 'bool'>" i ms
  | .int x => createPyNum (.i x) "<class 'int'>" i ms
  | .float x => createPyNum (.f x) "<class 'float'>" i ms
  | .cplx x y => createPyNum (.c x y) "<class 'complex'>" i ms
  | .str s =>
    if s.contains 0 then .error .valueError
    else if (utf8Encode s).isNone then .error .unicodeEncodeError
    else putMember ms (dataName i) (.dset (.text s) [("type", "string")])
  | .bytes b => do
    let d ← bytesData l [b]
    putMember ms (dataName i) (.dset d [("type", "bytes")])
  | .np (.b x) => noMatch l (.np (.b x)) i ms
  | .np v => putMember ms (dataName i) (.dset (.scalar v) [("type", "np_scalar")])
  | .arr a => putMember ms (dataName i) (.dset (.array a) [("type", "ndarray")])
  | .masked a mask => do
    let ms ← putMember ms (dataName i) (.dset (.array a) [("type", "ndarray_masked_data")])
    putMember ms (dataName i ++ ps "_mask") (.dset (.array ⟨.bool, a.shape, mask.map .b⟩) [("type", "ndarray_masked_mask")])
  | .sparse k d ix ip shape => putMember ms (dataName i) (sparseGroup k d ix ip shape)
  | .opaque .. => noMatch l v i ms
  | .seq (.other _) _ => noMatch l v i ms
  | .seq k items => createListlike l k items i ms
  | .dict _ | .cont .. => .error .unmodelled

/-- the name of the group of a key (hickle.py:380-383) -/
def keyText (l : Libs) (k : PV) : Except PyErr PyStr :=
  match k with
  | .none | .bool _ | .int _ | .float _ | .cplx .. | .str _ | .bytes _ | .seq .tuple _ => reprPV l k
  | _ => .error .unmodelled

/-- the items of a sequence, one after the other (hickle.py:236-237, 248-249) -/
def dumpItems (rec : PV → Nat → Members → Except PyErr Members) : List PV → Nat → Members → Except PyErr Members
  | [], _, ms => .ok ms
  | v :: vs, i, ms => do
    let ms ← rec v i ms
    dumpItems rec vs (i + 1) ms

/-- the attributes of the group of an entry (hickle.py:384-386) -/
def itemAttrs (k : PV) : List (String × String) := [("type", "dict_item"), ("key_type", keyTypeName k)]

/-- the loop of `create_dict_dataset` (hickle.py:379-388) -/
def dumpEntries (l : Libs) (rec : PV → Nat → Members → Except PyErr Members) : List (PV × PV) → Members → Except PyErr Members
  | [], ms => .ok ms
  | (k, v) :: es, ms => do
    let t ← keyText l k
    let _ ← putPath (comps t) ms (.group (itemAttrs k) [])
    let sub ← rec v 0 []
    let ms ← putPath (comps t) ms (.group (itemAttrs k) sub)
    dumpEntries l rec es ms

/-- `_dump` (hickle.py:207-254); `fuel` is the remaining recursion depth -/
def dump (l : Libs) : Nat → PV → Nat → Members → Except PyErr Members
  | 0, _, _, _ => .error .recursionError
  | fuel + 1, v, i, ms =>
    match v with
    | .dict es => do
      let _ ← putMember ms (dataName i) (.group [("type", "<class 'dict'>")] [])
      let sub ← dumpEntries l (dump l fuel) es []
      putMember ms (dataName i) (.group [("type", "<class 'dict'>")] sub)
    | .seq k items =>
      if (itemType items).elim false dumpable then createDataset l v i ms
      else do
        let _ ← putMember ms (dataName i) (.group [("type", k.typeName)] [])
        let sub ← dumpItems (dump l fuel) items 0 []
        putMember ms (dataName i) (.group [("type", k.typeName)] sub)
    | _ => createDataset l v i ms

/-- a new group at the path, with the groups on the way (hickle.py:290-294) -/
def dumpFresh (l : Libs) (fuel : Nat) (v : PV) : List PyStr → Except PyErr Node
  | [] => (dump l fuel v 0 []).map (.group [("type", "hickle")])
  | c :: cs => (dumpFresh l fuel v cs).map fun n => .group [] [(c, n)]

/-- the object is written into the group at the path, which is made if it is not there (hickle.py:288-296) -/
def dumpAt (l : Libs) (fuel : Nat) (v : PV) : List PyStr → Node → Except PyErr Node
  | [], .group at' ms => (dump l fuel v 0 ms).map (.group at')
  | c :: cs, .group at' ms =>
    match Assoc.get? ms c with
    | none => (dumpFresh l fuel v cs).map fun n => .group at' (ms ++ [(c, n)])
    | some n => (dumpAt l fuel v cs n).map fun n' => .group at' (ms.map fun e => if e.1 = c then (c, n') else e)
  | _, .dset .. => .error .unmodelled

/-- the attributes of the root of a file (hickle.py:281-287).  Simplification: one version of Python -/
def mark (at' : List (String × String)) : List (String × String) :=
  Assoc.put (Assoc.put (Assoc.put (Assoc.put at' "CLASS" "hickle") "VERSION" "3.4.8") "type" "hickle") "PYTHON_VERSION" "3.8.0"

/-- `dump` (hickle.py:257-309) on the root group of a file -/
def dumpFile (l : Libs) (fuel : Nat) (path : List PyStr) (v : PV) : Node → Except PyErr Node
  | .group at' ms => dumpAt l fuel v path (.group (mark at') ms)
  | .dset .. => .error .unmodelled

/-! ## Reading -/

/-- what `set.add` and `dict(...)` see of a value -/
inductive K where
  | none
  | num (v : XR × XR)
  | nan
  | str (s : PyStr)
  | bytes (b : Bytes)
  | opaque (st : Nat)
  | tup (l : List K)

mutual
/-- `x == y` -/
def K.eqv (oeq : Nat → Nat → Bool) : K → K → Bool
  | .none, .none => true
  | .num v, .num w => v = w
  | .str s, .str t => s = t
  | .bytes s, .bytes t => s = t
  | .opaque s, .opaque t => oeq s t
  | .tup l, .tup l' => K.eqvs oeq l l'
  | _, _ => false
def K.eqvs (oeq : Nat → Nat → Bool) : List K → List K → Bool
  | [], [] => true
  | x :: xs, y :: ys => K.eqv oeq x y && K.eqvs oeq xs ys
  | _, _ => false
end

def K.ofNum (v : NpVal) : K := if v.val.1 = .nan ∨ v.val.2 = .nan then .nan else .num v.val

mutual
/-- view of a value; `none`: not hashable.  Values of classes that are not modelled are taken for not hashable. -/
def PV.view : PV → Option K
  | .none => some .none
  | .bool b => some (K.ofNum (.b b))
  | .int i => some (K.ofNum (.i i))
  | .float x => some (K.ofNum (.f x))
  | .cplx x y => some (K.ofNum (.c x y))
  | .np v => some (K.ofNum v)
  | .str s => some (.str s)
  | .bytes b => some (.bytes b)
  | .opaque _ st => some (.opaque st)
  | .seq .tuple items => (PV.views items).map .tup
  | _ => Option.none
def PV.views : List PV → Option (List K)
  | [] => some []
  | v :: vs =>
    match PV.view v, PV.views vs with
    | some k, some ks => some (k :: ks)
    | _, _ => Option.none
end

/-- are two values equal, as a set sees it -/
def PV.same (oeq : Nat → Nat → Bool) (v w : PV) : Bool :=
  match v.view, w.view with
  | some a, some b => K.eqv oeq a b
  | _, _ => false

/-- `set(items)` -/
def setOf (oeq : Nat → Nat → Bool) : List PV → List PV → Except PyErr (List PV)
  | acc, [] => .ok acc
  | acc, v :: vs =>
    if v.view.isNone then .error .typeError
    else if acc.any fun w => w.same oeq v then setOf oeq acc vs
    else setOf oeq (acc ++ [v]) vs

/-- `d[k] = v` on the entries of a dictionary: an equal key keeps its place -/
def dictPut (oeq : Nat → Nat → Bool) (k v : PV) : List (PV × PV) → List (PV × PV)
  | [] => [(k, v)]
  | (k', v') :: es => if k'.same oeq k then (k', v) :: es else (k', v') :: dictPut oeq k v es

/-- `dict(zip(keys, items))` -/
def dictOf (oeq : Nat → Nat → Bool) : List (PV × PV) → List (PV × PV) → Except PyErr (List (PV × PV))
  | acc, [] => .ok acc
  | acc, (k, v) :: es => if k.view.isNone then .error .typeError else dictOf oeq (dictPut oeq k v acc) es

/-- sequence types as they stand in `type` of a dataset (load_python3.py:190-193) -/
def dsetKind (t : String) : Option SeqK :=
  if t = "<class 'list'>" then some .list
  else if t = "<class 'tuple'>" then some .tuple
  else if t = "<class 'set'>" then some .set
  else none

/-- sequence types as they stand in `type` of a group (lookup.py:82-88) -/
def seqKind (t : String) : Option SeqK :=
  if t = "<class 'list'>" ∨ t = "<type 'list'>" then some .list
  else if t = "<class 'tuple'>" ∨ t = "<type 'tuple'>" then some .tuple
  else if t = "<class 'set'>" ∨ t = "<type 'set'>" then some .set
  else none

/-- `list(self)`, `tuple(self)`, `set(self)` -/
def mkSeq (l : Libs) (k : SeqK) (items : List PV) : Except PyErr PV :=
  match k with
  | .set => (setOf l.env.opaqueEq [] items).map (.seq .set)
  | k => .ok (.seq k items)

/-- `str(item, 'utf8')` (load_python3.py:126-127) -/
def decodeText (b : Bytes) : Except PyErr PV :=
  match utf8Decode b with
  | some s => .ok (.str s)
  | none => .error .valueError                                        -- UnicodeDecodeError

/-- a byte string, decoded and encoded again (load_python3.py:123-125) -/
def decodeBytes (b : Bytes) : Except PyErr PV :=
  match utf8Decode b with
  | some s => match utf8Encode s with | some b' => .ok (.bytes b') | none => .error .unicodeEncodeError
  | none => .error .valueError

/-- the items of a dataset of a list (load_python3.py:119-129) -/
def listItems (d : DSet) (strType : Option String) : Except PyErr (List PV) :=
  match d with
  | .bytesArr bs =>
    if strType = some "<class 'bytes'>" then bs.mapM decodeBytes
    else if strType = some "<class 'str'>" then bs.mapM decodeText
    else .ok (bs.map .bytes)
  | .array a => if a.shape = [a.data.length] ∧ strType = none then .ok (a.data.map .np) else .error .unmodelled
  | _ => .error .unmodelled

/-- `tcast(data)` (load_python3.py:160-173) -/
def castPy (name : String) (v : NpVal) : Except PyErr PV :=
  if name = "<class 'int'>" then match v with | .i x => .ok (.int x) | _ => .error .unmodelled
  else if name = "<class 'float'>" then match v with | .f x => .ok (.float x) | _ => .error .unmodelled
  else if name = "<class 'bool'>" then match v with | .b x => .ok (.bool x) | _ => .error .unmodelled
  else if name = "<class 'complex'>" then match v with | .c x y => .ok (.cplx x y) | _ => .error .unmodelled
  else .error .typeError                                              -- None is not callable

/-- the array of a member of a group -/
def arrayAt (ms : Members) (name : PyStr) : Option Nd :=
  match Assoc.get? ms name with
  | some (.dset (.array a) _) => some a
  | _ => none

/-- an element of a mask -/
def npBit : NpVal → Option Bool
  | .b x => some x
  | _ => none

/-- an element of a shape -/
def npNat : NpVal → Option Nat
  | .i x => if 0 ≤ x then some x.toNat else none
  | _ => none

/-- `load_ndarray_masked_dataset` (load_numpy.py:115-127) -/
def loadMasked (sib : Members) (name : PyStr) (d : DSet) : Except PyErr PV :=
  match d, arrayAt sib (name ++ ps "_mask") with
  | .array a, some m => if m.shape = a.shape then match m.data.mapM npBit with | some bs => .ok (.masked a bs) | none => .error .unmodelled else .error .unmodelled
  | .array _, none => .error .typeError                               -- None[:]
  | _, _ => .error .unmodelled

/-- `load_sparse_matrix_data` (load_scipy.py:62-77).  scipy keeps the arrays it is given. -/
def loadSparse (k : SpK) (sib : Members) (d : DSet) : Except PyErr PV :=
  match d, arrayAt sib (ps "indices"), arrayAt sib (ps "indptr"), arrayAt sib (ps "shape") with
  | .array a, some ix, some ip, some sh => match sh.data.mapM npNat with | some shape => .ok (.sparse k a ix ip shape) | none => .error .unmodelled
  | .array _, _, _, _ => .error .typeError
  | _, _, _, _ => .error .unmodelled

/-- matrix types as they stand in `type`: the group, the data, one of the other arrays (lookup.py:89-91, load_scipy.py:85-103) -/
def spKind (suffix : String) (t : String) : Option SpK :=
  if t = "csr" ++ suffix then some .csr else if t = "csc" ++ suffix then some .csc else if t = "bsr" ++ suffix then some .bsr else none

/-- `load_dataset` (hickle.py:549-565) with the tables of load_python3.py:190-199, load_numpy.py:132-139, load_scipy.py:85-103; `sib`:
the members of the group the dataset is in -/
def loadDataset (l : Libs) (sib : Members) (name : PyStr) (d : DSet) (at' : List (String × String)) : Except PyErr PV :=
  match Assoc.get? at' "type" with
  | none => .error .keyError
  | some t =>
    match dsetKind t with
    | some k => do mkSeq l k (← listItems d (Assoc.get? at' "py3_string_type"))
    | none =>
      if t = "bytes" then match d with | .bytesArr (b :: _) => .ok (.bytes b) | _ => .error .unmodelled
      else if t = "string" then
        match d with                                                  -- `str(data[0])`
        | .text s => if l.newR then match utf8Encode s with | some b => .ok (.str (reprBytes b)) | none => .error .unmodelled else .ok (.str s)
        | _ => .error .unmodelled
      else if t = "python_dtype" then
        match d, Assoc.get? at' "python_subdtype" with
        | .scalar v, some n => castPy n v
        | _, none => .error .keyError
        | _, _ => .error .unmodelled
      else if t = "none" then .ok .none
      else if t = "pickle" then match d with | .pickle v => .ok v | _ => .error .unmodelled
      else if t = "np_scalar" then match d with | .scalar v => .ok (.np v) | _ => .error .unmodelled
      else if t = "ndarray" ∨ t = "numpy.ndarray" then match d with | .array a => .ok (.arr a) | _ => .error .unmodelled
      else if t = "ndarray_masked_data" then loadMasked sib name d
      else if t = "ndarray_masked_mask" then .ok .none
      else match spKind "_matrix_data" t with
        | some k => loadSparse k sib d
        | none =>
          if (spKind "_matrix_indices" t).isSome || (spKind "_matrix_indptr" t).isSome || (spKind "_matrix_shape" t).isSome then .ok .none
          else .error .runtimeError

/-- the key a text stands for (lookup.py:94-107, hickle.py:440-444) -/
def convKey (l : Libs) (kt : String) (text : PyStr) : Except PyErr PV :=
  if kt = "<class 'str'>" ∨ kt = "<type 'str'>" ∨ kt = "<class 'tuple'>" ∨ kt = "<type 'tuple'>" then literalEval l text
  else if kt = "<class 'float'>" ∨ kt = "<type 'float'>" then match l.env.parseF text with | some x => .ok (.float x) | none => .error .valueError
  else if kt = "<class 'bool'>" ∨ kt = "<type 'bool'>" then .ok (.bool (!text.isEmpty))
  else if kt = "<class 'int'>" ∨ kt = "<type 'int'>" then
    match parseInt text with
    | some i => if digitsOk l.env i then .ok (.int i) else .error .valueError
    | none => .error .valueError
  else if kt = "<class 'complex'>" ∨ kt = "<type 'complex'>" then
    match l.env.parseC text with
    | some z => .ok (.cplx z.1 z.2)
    | none => .error .valueError
  else .ok (.str text)

/-- the entries of a dictionary (hickle.py:437-450) -/
def dictEntries (l : Libs) : List PV → Except PyErr (List (PV × PV))
  | [] => .ok []
  | .cont name (some kt) items :: vs => do
    let k ← convKey l kt name
    let es ← dictEntries l vs
    match items with
    | x :: _ => .ok ((k, x) :: es)
    | [] => .error .indexError
  | .cont _ none _ :: _ => .error .typeError                          -- `None[0]`
  | _ :: _ => .error .attributeError

/-- `PyContainer.convert` (hickle.py:426-453) -/
def convert (l : Libs) (type : String) (name : PyStr) (kt : Option String) (items : List PV) : Except PyErr PV :=
  match seqKind type with
  | some k => mkSeq l k items
  | none =>
    if (spKind "_matrix" type).isSome then                            -- return_first
      match items with
      | x :: _ => .ok x
      | [] => .error .indexError
    else if type = "<class 'dict'>" then do
      let es ← dictEntries l items
      (dictOf l.env.opaqueEq [] es).map .dict
    else .ok (.cont name kt items)

/-- `types_not_to_sort` (lookup.py:79) -/
def unsorted : List String := ["dict", "csr_matrix", "csc_matrix", "bsr_matrix"]

/-- names of the members in the order in which they are visited (hickle.py:595-598) -/
def visit (type : String) (names : List PyStr) : Except PyErr (List PyStr) :=
  if unsorted.contains type then .ok names else sortKeys names

/-- `_load(py_subcontainer, h_group[h_name])` (hickle.py:600-602); `rec` is the recursive call -/
def member (rec : PyStr → Node → Except PyErr PV) (members : Members) (k : PyStr) : Except PyErr PV :=
  match Assoc.get? members k with
  | none => .error .keyError
  | some n => rec k n

/-- the `key_type` of the container (hickle.py:592-593) -/
def keyTypeOf (type : String) (at' : List (String × String)) : Except PyErr (Option String) :=
  if type = "dict_item" then
    match Assoc.get? at' "key_type" with
    | none => .error .keyError
    | some k => .ok (some k)
  else .ok none

/-- `_load` (hickle.py:567-610); `fuel` is the remaining recursion depth, `sib` the members of the group the node is in -/
def load (l : Libs) : Nat → Members → PyStr → Node → Except PyErr PV
  | 0, _, _, _ => .error .recursionError
  | _ + 1, sib, name, .dset d at' => loadDataset l sib name d at'
  | fuel + 1, _, name, .group at' ms =>
    match Assoc.get? at' "type" with
    | none => .error .keyError
    | some type => do
      let kt ← keyTypeOf type at'
      let keys ← visit type (l.order ms)
      let items ← keys.mapM (member (load l fuel ms) ms)
      convert l type name kt items

/-- `py_container[0][0]` (hickle.py:534) -/
def firstOf : PV → Except PyErr PV
  | .cont _ _ (x :: _) | .seq .list (x :: _) | .seq .tuple (x :: _) => .ok x
  | .cont _ _ [] | .seq .list [] | .seq .tuple [] => .error .indexError
  | _ => .error .unmodelled

/-- `h5f.get(path)` -/
def nodeAt : List PyStr → Node → Option Node
  | [], n => some n
  | c :: cs, .group _ ms =>
    match Assoc.get? ms c with
    | none => none
    | some n => nodeAt cs n
  | _ :: _, .dset .. => none

/-- `VER_MAJOR` (hickle.py:497-501) -/
def verMajor (v : String) : Option Int :=
  match parseInt (ps v) with
  | some i => some i
  | none => parseInt ((ps v).take 1)

/-- `load` (hickle.py:473-546).  The version is a text, so it is never equal to its number (510). -/
def loadFile (l : Libs) (fuel : Nat) (path : List PyStr) : Node → Except PyErr PV
  | .group at' ms =>
    match Assoc.get? at' "CLASS", Assoc.get? at' "VERSION" with
    | some _, some v =>
      match verMajor v with
      | none => .error .valueError
      | some i =>
        if i = 1 ∨ i = 2 then .error .runtimeError
        else if i ≥ 3 then
          match nodeAt path (.group at' ms) with
          | none => .error .attributeError                            -- `None.attrs`
          | some n => do firstOf (← load l fuel [] (path.getLast?.getD []) n)
        else .ok .none
    | _, _ => .error .runtimeError
  | .dset .. => .error .unmodelled

end Verif.V3
