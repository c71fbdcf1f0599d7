import Verif.Py.Heap
import Verif.Py.Assoc
/-!
# The part of HDF5/h5py that hickle uses

A store is a list of nodes; a node id (an HDF5 object reference) is an index.
Nodes are never deleted.  Typed data is stored as is.
-/
namespace Verif

inductive Body where
  | group (links : List (PyStr × NodeId))
  | dset (d : Data)
  deriving DecidableEq, Repr, Inhabited

structure Node where
  /-- last component of the node's path -/
  name : PyStr
  attrs : Attrs := []
  body : Body
  deriving DecidableEq, Repr, Inhabited

abbrev Store := List Node

/-- keyword arguments of `h5py.Group.create_dataset` that hickle passes on, when truthy -/
inductive Kw where
  | compression | compressionOpts | shuffle | chunks | fletcher32 | scaleoffset
  | other (s : String)
  deriving DecidableEq, Repr

/-- filter options that h5py refuses on scalar and null datasets
(h5py `filters.fill_dcpl`: "Scalar datasets don't support chunk/filter options") -/
def Kw.isFilter : Kw → Bool
  | .other _ => false
  | _ => true

/-- options that a sized dataset of any type accepts; explicit chunk shapes, scale-offset and
foreign keywords depend on shape and type and are not modelled -/
def Kw.isSafe : Kw → Bool
  | .compression | .compressionOpts | .shuffle | .fletcher32 => true
  | _ => false

/-- h5py: shape `()` or `None` -/
def Data.unsized : Data → Bool
  | .null _ | .scalar _ | .ref _ | .nullRef => true
  | .array _ shape _ => shape.isEmpty
  | _ => false

/-- keyword checks of `create_dataset` -/
def checkKw (kw : List Kw) (d : Data) : Except PyErr Unit :=
  if d.unsized then
    if kw.any Kw.isFilter then .error .typeError
    else if kw.isEmpty then .ok () else .error .unmodelled
  else if kw.all Kw.isSafe then
    -- "Compression method must be specified"
    if kw.contains .compressionOpts && !kw.contains .compression then .error .typeError else .ok ()
  else .error .unmodelled

/-- Link names hickle generates: no `/` (a path), no NUL (C string), not empty, not `.`. -/
def badName (name : PyStr) : Bool :=
  name.contains 47 || name.contains 0 || name.isEmpty || name = [46]

namespace Store

/-- links of a group node -/
def links (s : Store) (n : NodeId) : Option (List (PyStr × NodeId)) :=
  match s[n]? with
  | some ⟨_, _, .group l⟩ => some l
  | _ => none

def attrs (s : Store) (n : NodeId) : Option Attrs := (s[n]?).map Node.attrs

/-- `h5py.Group.create_group` / `create_dataset` after the keyword checks: new node linked into
the parent.  The name is encoded as UTF-8; an existing name is refused. -/
def create (s : Store) (parent : NodeId) (name : PyStr) (body : Body) : Except PyErr (NodeId × Store) :=
  match s.links parent with
  | none => .error .unmodelled
  | some ls =>
    if badName name then .error .unmodelled
    else if (utf8Encode name).isNone then .error .unicodeEncodeError
    else if (Assoc.get? ls name).isSome then .error .valueError
    else
      let n := s.length
      .ok (n, (s.modify parent fun nd => { nd with body := .group (ls ++ [(name, n)]) })
        ++ [{ name := name, body := body }])

/-- `dset_id.write(...)` in h5py's `make_new_dset` (a group cannot be written) -/
def write (s : Store) (n : NodeId) (d : Data) : Store :=
  s.modify n fun nd => match nd.body with
    | .dset _ => { nd with body := .dset d }
    | .group _ => nd

/-- `node.attrs[k] = v` -/
def setAttr (s : Store) (n : NodeId) (k : String) (v : AttrVal) : Store :=
  s.modify n fun nd => { nd with attrs := Assoc.put nd.attrs k v }

end Store
end Verif
