import Verif.Hickle.Astropy
import Verif.Py.F64
/-!
# astropy: quantities, angles, coordinates, times, constants

Models the rest of `hickle/loaders/load_astropy.py`: `create_astropy_quantity` (16-42), `create_astropy_angle` (45-71),
`create_astropy_skycoord` (74-106), `create_astropy_time` (109-148), `create_astropy_constant` (151-183) and the functions that load
them (217-354).

Simplifications: these are the objects themselves, not their place in a graph (`Verif/Props/C42Graph.lean` is about that, and their nodes are ordinary nodes with attributes, which the
main model covers); of keyword arguments only those for compression are considered, where they are passed on; units are numbers with a text given by the library; constructors of classes derived
from these are taken to keep what they are given.
-/
namespace Verif.Astro

/-- an array of numbers, or a number for the shape `[]` -/
structure Arr where
  dt : DT
  shape : List Nat
  data : List NpVal
  deriving DecidableEq, Repr

/-- `Time.value` -/
inductive TimeVal where
  | nums (a : Arr)
  /-- strings of width `w` -/
  | strs (w : Nat) (shape : List Nat) (data : List PyStr)
  /-- `datetime.datetime` objects -/
  | objs (shape : List Nat)
  /-- `numpy.datetime64` -/
  | dates (shape : List Nat) (data : List Int)
  deriving DecidableEq, Repr

/-- astropy and h5py -/
structure Lib where
  /-- `unit.to_string()` -/
  unitText : Nat → PyStr
  /-- `Unit(text)` -/
  unitOf : PyStr → Option Nat
  /-- value of a time in a format and scale -/
  valueOf : PyStr → PyStr → Nat → TimeVal
  /-- `Time(value, format=, scale=)`: the instant a value stands for -/
  instantOf : PyStr → PyStr → TimeVal → Option Nat
  /-- h5py returns strings in attributes as `str` (version 3 or later), else as `bytes` -/
  attrText : Bool

/-- content of a dataset -/
inductive Dset where
  | nums (a : Arr)
  | bytes (w : Nat) (shape : List Nat) (data : List Bytes)
  deriving DecidableEq, Repr

/-- `text.encode('ascii')` -/
def encodeAscii (s : PyStr) : Except PyErr Bytes := if ascii s then .ok (s.map UInt8.ofNat) else .error .unicodeEncodeError

/-- `data.decode('ascii')`, or the text h5py gives -/
def decodeAscii (b : Bytes) : PyStr := b.map UInt8.toNat

/-- element of an array converted by `dtype='float64'`: the imaginary part is dropped (numpy warns) -/
def toFloat : NpVal → Option F64
  | .b x => F64.ofInt (if x then 1 else 0)
  | .i x => F64.ofInt x
  | .f x => some x
  | .c x _ => some x

/-- `h_group.create_dataset(name, data=..., dtype='float64')` -/
def floatArr (a : Arr) : Except PyErr Arr :=
  match a.data.mapM toFloat with
  | some xs => .ok ⟨.float64, a.shape, xs.map .f⟩
  | none => .error .overflowError

/-! ## quantities and angles -/

structure Quantity where
  value : Arr
  unit : Nat
  deriving DecidableEq, Repr

structure QNode where
  data : Arr
  unit : Bytes
  deriving DecidableEq, Repr

/-- `create_astropy_quantity` (39-42), `create_astropy_angle` (68-71) -/
def createQuantity (lib : Lib) (q : Quantity) : Except PyErr QNode := do
  let d ← floatArr q.value
  let u ← encodeAscii (lib.unitText q.unit)
  .ok ⟨d, u⟩

/-- `load_astropy_quantity_dataset` (217-235), `load_astropy_angle_dataset` (273-292).  A unit may be given as `bytes` too. -/
def loadQuantity (lib : Lib) (n : QNode) : Except PyErr Quantity :=
  match lib.unitOf (decodeAscii n.unit) with
  | some u => .ok ⟨n.data, u⟩
  | none => .error .valueError

/-! ## coordinates -/

/-- `SkyCoord`: longitude and latitude as its representation has them, frame (0: ICRS, the default), distance -/
structure SkyCoord where
  lon : Arr
  lat : Arr
  lonUnit : Nat
  latUnit : Nat
  frame : Nat
  distance : Option Arr
  deriving DecidableEq, Repr

structure SkyNode where
  data : Arr
  lonUnit : Bytes
  latUnit : Bytes
  deriving DecidableEq, Repr

/-- elements in turn from two lists -/
def interleave : List NpVal → List NpVal → List NpVal
  | x :: xs, y :: ys => x :: y :: interleave xs ys
  | _, _ => []

/-- `np.stack((a, b), axis=-1)` -/
def stack (a b : Arr) : Except PyErr Arr :=
  if a.shape = b.shape then .ok ⟨a.dt.join b.dt, a.shape ++ [2], interleave a.data b.data⟩ else .error .valueError

/-- every second element, from the first or the second one on -/
def evens : List NpVal → List NpVal
  | x :: _ :: xs => x :: evens xs
  | [x] => [x]
  | [] => []
def odds : List NpVal → List NpVal
  | _ :: y :: xs => y :: odds xs
  | _ => []

/-- `data[..., 0]` and `data[..., 1]` of an array whose last dimension is 2 -/
def slice (a : Arr) (second : Bool) : Except PyErr Arr :=
  if a.shape.getLast? = some 2 then .ok ⟨a.dt, a.shape.dropLast, if second then odds a.data else evens a.data⟩ else .error .unmodelled

/-- `create_astropy_skycoord` (96-106) -/
def createSky (lib : Lib) (s : SkyCoord) : Except PyErr SkyNode := do
  let dd ← stack s.lon s.lat
  let d ← floatArr dd
  let u ← encodeAscii (lib.unitText s.lonUnit)
  let v ← encodeAscii (lib.unitText s.latUnit)
  .ok ⟨d, u, v⟩

/-- `load_astropy_skycoord_dataset` (295-321): no frame is given, nor a distance -/
def loadSky (lib : Lib) (n : SkyNode) : Except PyErr SkyCoord := do
  let a ← slice n.data false
  let b ← slice n.data true
  match lib.unitOf (decodeAscii n.lonUnit), lib.unitOf (decodeAscii n.latUnit) with
  | some u, some v => .ok ⟨a, b, u, v, 0, none⟩
  | _, _ => .error .valueError

/-! ## times -/

/-- `Time`: the instant (astropy keeps two doubles), format, scale; `extra`: location, precision and the like, 0 by default -/
structure Time where
  instant : Nat
  format : PyStr
  scale : PyStr
  extra : Nat
  deriving DecidableEq, Repr

structure TNode where
  data : Dset
  /-- attribute `np_dtype`: width of the strings, or not strings -/
  dtype : Option Nat
  format : Bytes
  scale : Bytes
  deriving DecidableEq, Repr

/-- trailing NULs are no part of an element of a string array -/
def strip (b : Bytes) : Bytes := (b.reverse.dropWhile (· = 0)).reverse

/-- the dataset (132-143): strings are converted to byte strings of the same width; h5py refuses objects and `datetime64`; a single
`datetime` has no `dtype`.  `filters`: options for compression are given.  h5py refuses them for scalars; they are passed on for
strings only. -/
def timeData (filters : Bool) : TimeVal → Except PyErr (Dset × Option Nat)
  | .nums a => .ok (.nums a, none)
  | .strs w sh ss => do
    let bs ← ss.mapM encodeAscii
    if filters ∧ sh = [] then .error .typeError
    else .ok (.bytes w sh (bs.map fun b => strip (b.take w)), some w)
  | .objs sh => if sh = [] then .error .attributeError else .error .typeError
  | .dates .. => .error .typeError

/-- `create_astropy_time` (109-148) -/
def createTime (lib : Lib) (filters : Bool) (t : Time) : Except PyErr TNode := do
  let (d, w) ← timeData filters (lib.valueOf t.format t.scale t.instant)
  let f ← encodeAscii t.format
  let s ← encodeAscii t.scale
  .ok ⟨d, w, f, s⟩

/-- `load_astropy_time_dataset` (238-270) -/
def loadTime (lib : Lib) (n : TNode) : Except PyErr Time :=
  let fmt := decodeAscii n.format
  let scale := decodeAscii n.scale
  let value : Except PyErr TimeVal := match n.dtype, n.data with
    | some w, .bytes _ sh bs => .ok (.strs w sh (bs.map fun b => (decodeAscii b).take w))
    | none, .nums a => .ok (.nums a)
    | _, _ => .error .unmodelled
  match value with
  | .error e => .error e
  | .ok v =>
    match lib.instantOf fmt scale v with
    | some t => .ok ⟨t, fmt, scale, 0⟩
    | none => .error .valueError

/-! ## constants -/

/-- a text that may come back as `bytes` -/
inductive Txt where
  | str (s : PyStr)
  | bytes (b : Bytes)
  deriving DecidableEq, Repr

structure Constant where
  abbrev_ : Txt
  name : Txt
  value : F64
  unit : Nat
  uncertainty : F64
  reference : Txt
  system : Option Txt
  deriving DecidableEq, Repr

structure CNode where
  data : F64
  unit : Bytes
  abbrev_ : Bytes
  name : Bytes
  reference : Bytes
  uncertainty : F64
  system : Option Bytes
  deriving DecidableEq, Repr

/-- `text.encode('ascii')`: a method `bytes` does not have -/
def encodeTxt : Txt → Except PyErr Bytes
  | .str s => encodeAscii s
  | .bytes _ => .error .attributeError

/-- `if py_obj.system: ...` (181-182) -/
def encodeSystem : Option Txt → Except PyErr (Option Bytes)
  | none => .ok none
  | some (.str []) => .ok none
  | some (.bytes []) => .ok none
  | some t => (encodeTxt t).map some

/-- `create_astropy_constant` (172-183) -/
def createConst (lib : Lib) (c : Constant) : Except PyErr CNode := do
  let u ← encodeAscii (lib.unitText c.unit)
  let a ← encodeTxt c.abbrev_
  let n ← encodeTxt c.name
  let r ← encodeTxt c.reference
  let s ← encodeSystem c.system
  .ok ⟨c.value, u, a, n, r, c.uncertainty, s⟩

/-- a text attribute as h5py returns it -/
def Lib.attr (lib : Lib) (b : Bytes) : Txt := if lib.attrText then .str (decodeAscii b) else .bytes b

/-- `load_astropy_constant_dataset` (324-354) -/
def loadConst (lib : Lib) (n : CNode) : Except PyErr Constant :=
  match lib.unitOf (decodeAscii n.unit) with
  | none => .error .valueError
  | some u => .ok ⟨lib.attr n.abbrev_, lib.attr n.name, n.data, u, n.uncertainty, lib.attr n.reference, n.system.map lib.attr⟩

end Verif.Astro
