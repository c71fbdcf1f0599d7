import Verif.Py.Dec
import Verif.Py.Err

/-!
# numpy dtypes, and arrays of every dtype

The main model knows the dtypes bool, int64, float64 and complex128 only. This module models what
`hickle/loaders/load_numpy.py` does with all of them: `create_np_dtype` / `load_np_dtype_dataset`
for dtype objects and the dataset branches of `create_np_array_dataset` / `load_ndarray_dataset` and
`create_np_scalar_dataset` / `load_np_scalar_dataset`. Everything there goes through two functions
of numpy, `dtype.str` and `np.dtype(bytes)`, which are modelled character by character.

Items are the bytes numpy holds in memory: an array of any dtype is its shape and one byte string
for each element.
-/

namespace Verif.Np

/-- the number types of numpy -/
inductive Kind where
  | bool | int | uint | float | complex
  deriving DecidableEq, Repr

/-- units of `datetime64` and `timedelta64` -/
inductive TimeUnit where
  | Y | M | W | D | h | m | s | ms | us | ns | ps | fs | as
  deriving DecidableEq, Repr

/-- numpy's dtypes. `big`: stored with the most significant byte first. `text n` is `<U{n}`,
`time true` is timedelta64 and `time false` datetime64, without unit if `unit` is `none`. The fields
of a structured dtype are name, offset and dtype. Metadata and the flag `align` are left out. -/
inductive Dtype where
  | num (k : Kind) (size : Nat) (big : Bool)
  | bytes (n : Nat)
  | text (n : Nat) (big : Bool)
  | void (n : Nat)
  | object
  | time (delta : Bool) (unit : Option (Nat × TimeUnit)) (big : Bool)
  | struct (fields : List (PyStr × Nat × Dtype)) (size : Nat)
  | sub (base : Dtype) (shape : List Nat)

/-- the sizes numpy has, on the machines whose `long double` takes 16 bytes -/
def Kind.sizes : Kind → List Nat
  | .bool => [1]
  | .int => [1, 2, 4, 8]
  | .uint => [1, 2, 4, 8]
  | .float => [2, 4, 8, 16]
  | .complex => [8, 16, 32]

/-- number of elements of an array of this shape -/
def count (shape : List Nat) : Nat := shape.foldr (· * ·) 1

/-- `dtype.itemsize` -/
def Dtype.itemsize : Dtype → Nat
  | .num _ size _ => size
  | .bytes n => n
  | .text n _ => 4 * n
  | .void n => n
  | .object => 8
  | .time _ _ _ => 8
  | .struct _ size => size
  | .sub base shape => base.itemsize * count shape

/-- dtypes that exist: a number has one of the sizes above and no byte order if it is one byte long;
a multiple of a unit of time is at least one -/
def Dtype.Real : Dtype → Prop
  | .num k size big => size ∈ k.sizes ∧ (size = 1 → big = false)
  | .time _ (some (n, _)) _ => 0 < n
  | _ => True

/-! ### `dtype.str` -/

/-- `dtype.kind` of the number types -/
def Kind.char : Kind → Nat
  | .bool => 98        -- b
  | .int => 105        -- i
  | .uint => 117       -- u
  | .float => 102      -- f
  | .complex => 99     -- c

/-- the name of a unit -/
def TimeUnit.str : TimeUnit → PyStr
  | .Y => [89] | .M => [77] | .W => [87] | .D => [68] | .h => [104] | .m => [109] | .s => [115]
  | .ms => [109, 115] | .us => [117, 115] | .ns => [110, 115] | .ps => [112, 115]
  | .fs => [102, 115] | .as => [97, 115]

/-- `<` or `>`: the byte order, on a machine that is little endian -/
def orderChar (big : Bool) : Nat := if big then 62 else 60

/-- `[ns]`, `[25s]` or nothing -/
def unitStr : Option (Nat × TimeUnit) → PyStr
  | none => []
  | some (n, u) => [91] ++ (if n = 1 then [] else digits n) ++ u.str ++ [93]

/-- `dtype.str`, used in load_numpy.py:45, 70, 129 and 158 (`arraydescr_protocol_typestr_get` of
numpy): byte order, kind and size; structured dtypes and subarrays are of kind `V` -/
def Dtype.str : Dtype → PyStr
  | .num k size big => (if size = 1 then 124 else orderChar big) :: k.char :: digits size
  | .bytes n => 124 :: 83 :: digits n
  | .text n big => orderChar big :: 85 :: digits n
  | .void n => 124 :: 86 :: digits n
  | .object => [124, 79]
  | .time delta unit big => orderChar big :: (if delta then 109 else 77) :: 56 :: unitStr unit
  | .struct _ size => 124 :: 86 :: digits size
  | .sub base shape => 124 :: 86 :: digits (base.itemsize * count shape)

/-! ### `np.dtype(bytes)` -/

/-- the number type of a kind character -/
def kindOf (c : Nat) : Option Kind :=
  if c = 98 then some .bool
  else if c = 105 then some .int
  else if c = 117 then some .uint
  else if c = 102 then some .float
  else if c = 99 then some .complex
  else none

/-- the name of a unit, read -/
def unitOf : PyStr → Option TimeUnit
  | [89] => some .Y | [77] => some .M | [87] => some .W | [68] => some .D | [104] => some .h
  | [109] => some .m | [115] => some .s | [109, 115] => some .ms | [117, 115] => some .us
  | [110, 115] => some .ns | [112, 115] => some .ps | [102, 115] => some .fs | [97, 115] => some .as
  | _ => none

/-- a number in front of a string, as `strtol` finds it, and the rest -/
def splitNum (s : PyStr) : PyStr × PyStr := (s.takeWhile isDigit, s.dropWhile isDigit)

/-- what stands in brackets behind `M8` or `m8`: nothing, or a number and a unit, the number being 1
if there is none. Fractions of units, `[s/10]`, are left out: `dtype.str` never gives any. -/
def readUnit : PyStr → Option (Option (Nat × TimeUnit))
  | [] => some none
  | 91 :: t =>
    if t.getLast? = some 93 then
      let (num, unit) := splitNum t.dropLast
      match (if num = [] then some 1 else parseNat num), unitOf unit with
      | some n, some u => if n = 0 then none else some (some (n, u))
      | _, _ => none
    else none
  | _ => none

/-- the dtypes known by a single character (numpy's type codes) -/
def ofCode (c : Nat) (big : Bool) : Option Dtype :=
  if c = 63 then some (.num .bool 1 false)            -- ?
  else if c = 98 then some (.num .int 1 false)        -- b
  else if c = 66 then some (.num .uint 1 false)       -- B
  else if c = 104 then some (.num .int 2 big)         -- h
  else if c = 72 then some (.num .uint 2 big)         -- H
  else if c = 105 then some (.num .int 4 big)         -- i
  else if c = 73 then some (.num .uint 4 big)         -- I
  else if c = 108 ∨ c = 113 then some (.num .int 8 big)    -- l q
  else if c = 76 ∨ c = 81 then some (.num .uint 8 big)     -- L Q
  else if c = 101 then some (.num .float 2 big)       -- e
  else if c = 102 then some (.num .float 4 big)       -- f
  else if c = 100 then some (.num .float 8 big)       -- d
  else if c = 103 then some (.num .float 16 big)      -- g
  else if c = 70 then some (.num .complex 8 big)      -- F
  else if c = 68 then some (.num .complex 16 big)     -- D
  else if c = 71 then some (.num .complex 32 big)     -- G
  else if c = 83 then some (.bytes 0)                 -- S
  else if c = 85 then some (.text 0 big)              -- U
  else if c = 86 then some (.void 0)                  -- V
  else if c = 79 then some .object                    -- O
  else if c = 77 then some (.time false none big)     -- M
  else if c = 109 then some (.time true none big)     -- m
  else none

/-- kind and size, behind the byte order -/
def readKind (c : Nat) (size : Nat) (big : Bool) : Option Dtype :=
  if c = 83 then some (.bytes size)
  else if c = 85 then some (.text size big)
  else if c = 86 then some (.void size)
  else match kindOf c with
    | some k => if size ∈ k.sizes then some (.num k size (big && size != 1)) else none
    | none => none

/-- the string without its byte order: is it big endian, and the rest -/
def splitOrder : PyStr → Bool × PyStr
  | 62 :: t => (true, t)         -- >
  | 60 :: t => (false, t)        -- <
  | 61 :: t => (false, t)        -- =
  | 124 :: t => (false, t)       -- |
  | t => (false, t)

/-- `np.dtype(b"…")`, used in load_numpy.py:181, 204, 227 and 293 (`_convert_from_str` of numpy):
byte order; `M8` and `m8` with their unit; one character; a kind and a size. Lists of types with
commas and names such as `int64` are left out: `dtype.str` never gives any. -/
def ofStr (s : PyStr) : Option Dtype :=
  match splitOrder s with
  | (big, 77 :: 56 :: t) => (readUnit t).map fun u => .time false u big
  | (big, 109 :: 56 :: t) => (readUnit t).map fun u => .time true u big
  | (big, [c]) => ofCode c big
  | (big, c :: t) => (parseNat t).bind fun size => readKind c size big
  | (_, []) => none

/-! ### dtype objects -/

/-- `create_np_dtype` (load_numpy.py:49-71): the bytes of the dataset, `bytearray(py_obj.str,
"ascii")` -/
def createDtype (d : Dtype) : PyStr := d.str

/-- `load_np_dtype_dataset` (load_numpy.py:162-181): `np.dtype(bytes(h_node[()]))`, a TypeError if
numpy does not understand it -/
def loadDtype (node : PyStr) : Except PyErr Dtype :=
  match ofStr node with
  | some d => .ok d
  | none => .error .typeError

/-! ### arrays -/

/-- an array: `items` are the bytes of its elements, in C order -/
structure Arr where
  dtype : Dtype
  shape : List Nat
  items : List (List Nat)

/-- a name of a dtype without its size -/
def Kind.name : Kind → PyStr
  | .bool => [98, 111, 111, 108]                       -- bool
  | .int => [105, 110, 116]                            -- int
  | .uint => [117, 105, 110, 116]                      -- uint
  | .float => [102, 108, 111, 97, 116]                 -- float
  | .complex => [99, 111, 109, 112, 108, 101, 120]     -- complex

/-- a size in bits, which is left out if it is 0 -/
def bits (n : Nat) : PyStr := if n = 0 then [] else digits (8 * n)

/-- `dtype.name` -/
def Dtype.name : Dtype → PyStr
  | .num .bool _ _ => Kind.bool.name
  | .num k size _ => k.name ++ digits (8 * size)
  | .bytes n => [98, 121, 116, 101, 115] ++ bits n                       -- bytes
  | .text n _ => [115, 116, 114] ++ bits (4 * n)                         -- str
  | .void n => [118, 111, 105, 100] ++ bits n                            -- void
  | .object => [111, 98, 106, 101, 99, 116]                              -- object
  | .time false u _ => [100, 97, 116, 101, 116, 105, 109, 101, 54, 52] ++ unitStr u       -- datetime64
  | .time true u _ =>
    [116, 105, 109, 101, 100, 101, 108, 116, 97, 54, 52] ++ unitStr u    -- timedelta64
  | .struct _ size => [118, 111, 105, 100] ++ bits size
  | .sub base shape => [118, 111, 105, 100] ++ bits (base.itemsize * count shape)

/-- `part in s`, for strings -/
def within (part : PyStr) : PyStr → Bool
  | [] => part.isEmpty
  | c :: t => part.isPrefixOf (c :: t) || within part t

/-- `"str"` -/
def strWord : PyStr := [115, 116, 114]
/-- `"object"` -/
def objectWord : PyStr := [111, 98, 106, 101, 99, 116]

mutual
/-- the dtypes h5py has an HDF5 type for: numbers, bytes and void of at least one byte, structures
with at least one field of such types. It has none for `U`, `O`, `M` and `m` (`h5py.h5t.py_create`
raises TypeError). -/
def Dtype.inH5 : Dtype → Bool
  | .num _ _ _ => true
  | .bytes n => 0 < n
  | .void n => 0 < n
  | .struct fields _ => !fields.isEmpty && fieldsInH5 fields
  | .sub base _ => base.inH5
  | .text _ _ => false
  | .object => false
  | .time _ _ _ => false
/-- all fields have such types -/
def fieldsInH5 : List (PyStr × Nat × Dtype) → Bool
  | [] => true
  | (_, _, d) :: t => d.inH5 && fieldsInH5 t
end

/-- what `create_np_array_dataset` makes of an array -/
inductive Stored where
  /-- a dataset that holds the array, and the attribute `np_dtype` -/
  | dataset (content : Arr) (npDtype : PyStr)
  /-- strings: a dataset of bytes, or a list of strings (load_numpy.py:102-111; property C33) -/
  | strings
  /-- objects: a list or a group with one item (load_numpy.py:113-123; property C33) -/
  | objects

/-- `h_group.create_dataset(name, data=…)` of h5py: HDF5 keeps dtype, shape and items, or h5py raises
TypeError -/
def h5Create (a : Arr) : Except PyErr Arr :=
  if a.dtype.inH5 then .ok a else .error .typeError

/-- `create_np_array_dataset` (load_numpy.py:74-130). The keyword arguments for compression are left
out: they do not change what is read. -/
def createArray (a : Arr) : Except PyErr Stored :=
  if within strWord a.dtype.name then .ok .strings
  else if a.dtype.name = objectWord then .ok .objects
  else match h5Create a with
    | .ok d => .ok (.dataset d a.dtype.str)
    | .error e => .error e

/-- `np.array(x, dtype=…)` for the items of `x`. Modelled are: the same dtype; the other byte order;
structures made void of the same size, where numpy copies the bytes. -/
def cast (x : Arr) (d : Dtype) : Option Arr :=
  match x.dtype, d with
  | .num k size big, .num k' size' big' =>
    if k = k' ∧ size = size' then
      if big = big' then some x
      else if k = .complex then
        some { x with dtype := d,
                      items := x.items.map fun b =>
                        (b.take (size / 2)).reverse ++ (b.drop (size / 2)).reverse }
      else some { x with dtype := d, items := x.items.map List.reverse }
    else none
  | .bytes n, .bytes n' => if n = n' then some x else none
  | .void n, .void n' => if n = n' then some x else none
  | .struct _ n, .void n' => if n = n' then some { x with dtype := d } else none
  | _, _ => none

/-- `load_ndarray_dataset` (load_numpy.py:208-241) for an array of class `ndarray`. The branch for
strings (lines 228-235) belongs to property C33; other casts are not modelled. -/
def loadArray (content : Arr) (npDtype : PyStr) : Except PyErr Arr :=
  match ofStr npDtype with
  | none => .error .typeError
  | some d =>
    if within strWord d.name then .error .unmodelled
    else match cast content d with
      | some a => .ok a
      | none => .error .unmodelled

/-- `dump` and `load` of an array stored as a dataset -/
def roundTrip (a : Arr) : Except PyErr Arr :=
  match createArray a with
  | .ok (.dataset content npDtype) => loadArray content npDtype
  | .ok _ => .error .unmodelled
  | .error e => .error e

/-! ### scalars -/

/-- a numpy number: the number type, its size and the bytes; it always has the byte order of the
machine -/
structure Scalar where
  kind : Kind
  size : Nat
  item : List Nat
  deriving DecidableEq

/-- `create_np_scalar_dataset` (load_numpy.py:21-46): a dataset of shape `()`, attribute `np_dtype` -/
def createScalar (x : Scalar) : Except PyErr (Arr × PyStr) :=
  match h5Create ⟨.num x.kind x.size false, [], [x.item]⟩ with
  | .ok a => .ok (a, (Dtype.num x.kind x.size false).str)
  | .error e => .error e

/-- `load_np_scalar_dataset` (load_numpy.py:184-205): `dtype.type(h_node[()])`, where the dataset
gives a number of the same class -/
def loadScalar (content : Arr) (npDtype : PyStr) : Except PyErr Scalar :=
  match ofStr npDtype, content.dtype, content.items with
  | some (.num k size _), .num k' size' false, [item] =>
    if k = k' ∧ size = size' then .ok ⟨k, size, item⟩ else .error .typeError
  | _, _, _ => .error .typeError

end Verif.Np
