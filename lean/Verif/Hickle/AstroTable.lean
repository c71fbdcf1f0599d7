import Verif.Hickle.AstroTypes
/-!
# astropy: the columns of a table

Models the rows of `create_astropy_table` (load_astropy.py:186-214) and `load_astropy_table` (357-388); the metadata are in
`Hickle/Astropy.lean`.  The library is astropy's `Table.as_array`, which makes one structured array of all columns, `Table(array, names=)`, which
makes columns of the fields, and h5py, which stores structured arrays of numbers and byte strings.
Simplifications: tables with at least one column; dtypes of numbers are those of the main model (others: C51); of what a column has besides values only
unit, description and mask are modelled; columns of other classes (`Time`, `SkyCoord`) are objects.
-/
namespace Verif.Astro

/-- the values of a column, row by row -/
inductive ColData where
  /-- numbers; `shape` is the shape of one element, which is given as the list of its numbers -/
  | nums (dt : DT) (shape : List Nat) (rows : List (List NpVal))
  /-- byte strings of width `w` -/
  | bytes (w : Nat) (rows : List Bytes)
  /-- text of width `w` -/
  | text (w : Nat) (rows : List PyStr)
  /-- Python objects -/
  | objs (rows : List Nat)
  deriving DecidableEq, Repr

/-- number of rows -/
def ColData.length : ColData → Nat
  | .nums _ _ r => r.length
  | .bytes _ r => r.length
  | .text _ r => r.length
  | .objs r => r.length

/-- a column: name, values, `mask` (which values are missing; `none` if it can not have missing values), unit, description -/
structure Column where
  name : PyStr
  data : ColData
  mask : Option (List Bool)
  unit : Option Nat
  description : Option PyStr
  deriving DecidableEq, Repr

/-- a field of a structured array -/
structure Field where
  name : PyStr
  data : ColData
  deriving DecidableEq, Repr

/-- `py_obj.as_array()` (207).  If a column has a mask the array is a masked one; h5py stores the values under the mask (`np.asarray`). -/
def asArray (cols : List Column) : List Field := cols.map fun c => ⟨c.name, c.data⟩

/-- h5py has a type for it -/
def Field.storable (f : Field) : Bool := match f.data with
  | .nums .. => true
  | .bytes .. => true
  | .text .. => false
  | .objs .. => false

/-- what is in the file: the dataset and the attribute `colnames` -/
structure ColNode where
  fields : List Field
  colnames : List Bytes
  deriving DecidableEq, Repr

/-- `create_astropy_table` (207-211): the dataset, then the names -/
def createCols (cols : List Column) : Except PyErr ColNode :=
  let fs := asArray cols
  if fs.all Field.storable then
    (cols.mapM fun c => encodeAscii c.name).map fun ns => ⟨fs, ns⟩
  else .error .typeError

/-- `Table(array, names=)`: the columns are the fields in their order, with the names that are given; there must be as many -/
def tableOf : List Field → List PyStr → Except PyErr (List Column)
  | [], [] => .ok []
  | f :: fs, n :: ns => (tableOf fs ns).map (⟨n, f.data, none, none, none⟩ :: ·)
  | _, _ => .error .valueError

/-- `load_astropy_table` (376-388) -/
def loadCols (n : ColNode) : Except PyErr (List Column) := tableOf n.fields (n.colnames.map decodeAscii)

end Verif.Astro
