import Verif.Props.C42
import Verif.Props.C62
/-!
# Tests of hickle: astropy

Runs `hickle/tests/test_06_load_astropy.py` in the model of the loaders, which is what the tests call too: the `create_` function gives the node, the `load_` function
makes the object of it.  The library knows the units and the times of the tests only.  Left out: loading a time after its attribute `np_dtype` was deleted
(nothing hickle writes is like that), and what astropy itself makes of `1d20m`.
-/
namespace Verif.Tests.Astropy
open Verif.Astro

/-- the units of the tests by their text -/
def units : List PyStr := ["m3", "m6", "m3 / s", "m6 / s2", "kg / pc", "kg2 / pc2", "m", "rad", "deg", "hourangle", "m3 / (kg s2)", "Fr"].map tx

def fl (n : Nat) : NpVal := .f (.fin false n 0)

def isot : List PyStr := ["1999-01-01T00:00:00.123", "2010-01-01T00:00:00.000"].map tx

/-- the values of the times of the tests -/
def times : List TimeVal :=
  [.nums ⟨.float64, [3], [fl 58264, fl 58265, fl 58266]⟩, .nums ⟨.float64, [2, 3], [fl 58264, fl 58265, fl 58266, fl 58264, fl 58265, fl 58266]⟩,
   .strs 23 [2] isot, .strs 23 [2, 2] (isot ++ isot)]

def lib : Lib where
  unitText u := units.getD u []
  unitOf s := units.idxOf? s
  valueOf _ _ n := times.getD n (.objs [])
  instantOf _ _ v := times.idxOf? v
  attrText := true

def unit (s : String) : Nat := units.idxOf (tx s)

/-- node and object of a quantity or an angle: dtype `float64`, the text of the unit in the attribute, the same numbers and unit -/
def quantity (a : Arr) (u : String) (d : List NpVal) : Bool :=
  match createQuantity lib ⟨a, unit u⟩ with
  | .ok n => decide (n.unit = (tx u).map UInt8.ofNat ∧ n.data = ⟨.float64, a.shape, d⟩ ∧ (loadQuantity lib n).toOption = some ⟨⟨.float64, a.shape, d⟩, unit u⟩)
  | .error _ => false

-- test_create_astropy_quantity
example : (["m3", "m3 / s", "kg / pc"].all fun u => quantity ⟨.float64, [], [fl 7]⟩ u [fl 7]) = true := by decide +kernel
example : (["m6", "m6 / s2", "kg2 / pc2"].all fun u => quantity ⟨.float64, [], [fl 49]⟩ u [fl 49]) = true := by decide +kernel
-- test_astropy_quantity_array
example : quantity ⟨.float64, [3], [fl 1, fl 2, fl 3]⟩ "m" [fl 1, fl 2, fl 3] = true := by decide +kernel
-- test_astropy_angle: 1.02
def angle : NpVal := .f (.fin false 4593671619917906 (-52))
example : quantity ⟨.float64, [], [angle]⟩ "rad" [angle] = true ∧ quantity ⟨.float64, [], [angle]⟩ "deg" [angle] = true := by decide +kernel
-- test_astropy_angle_array
example : quantity ⟨.float64, [3], [fl 1, fl 2, fl 3]⟩ "deg" [fl 1, fl 2, fl 3] = true := by decide +kernel

-- test_create_astropy_constant
def txt (s : String) : Txt := .str (tx s)
def constG : Constant :=
  ⟨txt "G", txt "Gravitational constant", .fin false 5653430216468463 (-86), unit "m3 / (kg s2)", .fin false 5653430216468463 (-100), txt "CODATA 2018", some (txt "si")⟩
def constE : Constant :=
  ⟨txt "e", txt "Electron charge", .fin false 5653430216468463 (-83), unit "Fr", .zero, txt "CODATA 2018", some (txt "esu")⟩
def constant (c : Constant) (u a n r s : String) : Bool :=
  match createConst lib c with
  | .ok d => decide (d.unit = (tx u).map UInt8.ofNat ∧ d.abbrev_ = (tx a).map UInt8.ofNat ∧ d.name = (tx n).map UInt8.ofNat ∧ d.reference = (tx r).map UInt8.ofNat ∧
      d.uncertainty = c.uncertainty ∧ d.system = some ((tx s).map UInt8.ofNat) ∧ (loadConst lib d).toOption = some c)
  | .error _ => false
example : constant constG "m3 / (kg s2)" "G" "Gravitational constant" "CODATA 2018" "si" = true ∧ constant constE "Fr" "e" "Electron charge" "CODATA 2018" "esu" = true := by
  decide +kernel

-- test_astropy_table
def cols : List Column := [⟨tx "a", .nums .int64 [] [[.i 1], [.i 2]], none, none, none⟩, ⟨tx "b", .nums .int64 [] [[.i 3], [.i 4]], none, none, none⟩]
def table : Table := ⟨[tx "a", tx "b"], [(tx "name", .text (tx "test_thing"))], 0⟩
example : ((createCols cols).toOption.map fun n => (n.colnames.map decodeAscii, n.fields, (loadCols n).toOption)) =
    some ([tx "a", tx "b"], [⟨tx "a", .nums .int64 [] [[.i 1], [.i 2]]⟩, ⟨tx "b", .nums .int64 [] [[.i 3], [.i 4]]⟩], some cols) := by decide +kernel
example : ((create table).toOption.map fun n => (Assoc.get? n (tx "colnames"), Assoc.get? n (tx "name"), load true n)) =
    some (some (.names [tx "a", tx "b"]), some (.val (.text (tx "test_thing"))), ⟨some (.names [tx "a", tx "b"]), [(tx "name", .val (.text (tx "test_thing")))]⟩) := by
  decide +kernel

-- test_astropy_time_array, with and without options for compression
def time (filters : Bool) (n : Nat) (fmt : String) (w : Option Nat) : Bool :=
  match createTime lib filters ⟨n, tx fmt, tx "utc", 0⟩ with
  | .ok d => decide (d.format = (tx fmt).map UInt8.ofNat ∧ d.scale = (tx "utc").map UInt8.ofNat ∧ d.dtype = w ∧ (loadTime lib d).toOption = some ⟨n, tx fmt, tx "utc", 0⟩)
  | .error _ => false
example : ([true, false].all fun f => time f 0 "mjd" none && time f 1 "mjd" none && time f 2 "isot" (some 23) && time f 3 "isot" (some 23)) = true := by decide +kernel

-- test_astropy_skycoord, test_astropy_skycoord_array: the angles in degrees (numerators only, since the numbers are copied)
def sky (s : SkyCoord) (d : List NpVal) (u v : String) : Bool :=
  match createSky lib s with
  | .ok n => decide (n.data = ⟨.float64, s.lon.shape ++ [2], d⟩ ∧ n.lonUnit = (tx u).map UInt8.ofNat ∧ n.latUnit = (tx v).map UInt8.ofNat ∧ (loadSky lib n).toOption = some s)
  | .error _ => false
def coord (sh : List Nat) (lon lat : List NpVal) (u : String) : SkyCoord := ⟨⟨.float64, sh, lon⟩, ⟨.float64, sh, lat⟩, unit u, unit "deg", 0, none⟩
example : sky (coord [] [fl 4] [fl 33] "deg") [fl 4, fl 33] "deg" "deg" = true ∧ sky (coord [] [fl 4] [fl 33] "hourangle") [fl 4, fl 33] "hourangle" "deg" = true := by
  decide +kernel
example : sky (coord [2] [fl 80, fl 21] [fl 1980, .f (.fin true 1981 0)] "deg") [fl 80, fl 1980, fl 21, .f (.fin true 1981 0)] "deg" "deg" = true ∧
    sky (coord [2, 2] [fl 80, fl 21, fl 80, fl 21] [fl 1980, fl 1981, fl 1980, fl 1981] "hourangle") [fl 80, fl 1980, fl 21, fl 1981, fl 80, fl 1980, fl 21, fl 1981]
      "hourangle" "deg" = true := by decide +kernel

end Verif.Tests.Astropy
