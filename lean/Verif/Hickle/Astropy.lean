import Verif.Py.Assoc
import Verif.Py.Err
import Verif.Py.Utf8
/-!
# astropy tables

Models `hickle/loaders/load_astropy.py` `create_astropy_table` (186-214) and `load_astropy_table` (357-388), with the two
other writers of attributes of the same node: `ReferenceManager.store_type` (lookup.py:675) and the attributes a
container hands down to the node of an item (hickle.py:132).  The rows of the table are one opaque value.
-/
namespace Verif.Astro

/-- values of metadata entries: text, byte strings, and everything else h5py stores (numbers and arrays of numbers) -/
inductive MetaVal where
  | text (s : PyStr)
  | bytes (b : Bytes)
  | other (n : Nat)
  deriving DecidableEq, Repr

/-- an `astropy.table.Table`: names of the columns, metadata with text keys (h5py refuses others), rows -/
structure Table where
  colnames : List PyStr
  meta_ : List (PyStr × MetaVal)
  rows : Nat
  deriving DecidableEq, Repr

/-- values of attributes of the node -/
inductive Attr where
  | names (l : List PyStr)
  | val (v : MetaVal)
  /-- the reference to the entry of the class -/
  | typeRef
  deriving DecidableEq, Repr

abbrev At := List (PyStr × Attr)

/-- text of an ASCII string -/
def tx (s : String) : PyStr := s.toList.map Char.toNat

/-- `cn.encode('ascii')` succeeds -/
def ascii (s : PyStr) : Bool := s.all fun c => decide (c < 128)

/-- `d.attrs[key] = value` for all entries (load_astropy.py:212-213) -/
def putAll (at' : At) : List (PyStr × MetaVal) → At
  | [] => at'
  | (k, v) :: l => putAll (Assoc.put at' k (.val v)) l

/-- `create_astropy_table` (load_astropy.py:186-214): the attributes of the new node -/
def create (t : Table) : Except PyErr At :=
  if t.colnames.all ascii then .ok (putAll (Assoc.put [] (tx "colnames") (.names t.colnames)) t.meta_)
  else .error .unicodeEncodeError

/-- the node as `_dump` leaves it (hickle.py:122-132): `type` is written next, then what the parent hands down, for
example `item_index` -/
def dump (t : Table) (handed : List (PyStr × MetaVal)) : Except PyErr At :=
  match create t with
  | .error e => .error e
  | .ok at' => .ok (putAll (Assoc.put at' (tx "type") .typeRef) handed)

/-- `attrs.items()`: each name once -/
def items : At → At
  | [] => []
  | p :: l => p :: (items l).filter fun q => q.1 ≠ p.1

/-- What h5py returns for a stored value.  Byte strings are stored as text; since version 3 h5py returns such an attribute as
`str`. -/
def readVal (bytesAsText : Bool) : MetaVal → MetaVal
  | .bytes b => if bytesAsText then .text (b.map UInt8.toNat) else .bytes b
  | v => v

def readAttr (bytesAsText : Bool) : Attr → Attr
  | .val v => .val (readVal bytesAsText v)
  | a => a

/-- names that are left out of the metadata (load_astropy.py:384) -/
def reserved : List PyStr := [tx "type", tx "base_type", tx "colnames"]

/-- the arguments `names` and `meta` of the call of the class -/
structure Loaded where
  names : Option Attr
  meta_ : At
  deriving DecidableEq, Repr

/-- `load_astropy_table` (load_astropy.py:357-388); `its`: the attributes in the order h5py lists them -/
def load (bytesAsText : Bool) (its : At) : Loaded where
  names := (Assoc.get? its (tx "colnames")).map (readAttr bytesAsText)
  meta_ := (its.filter fun p => !reserved.contains p.1).map fun p => (p.1, readAttr bytesAsText p.2)

end Verif.Astro
