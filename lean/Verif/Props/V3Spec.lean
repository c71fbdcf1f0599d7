import Verif.Props.V3Keys
/-!
# Specification of the version 3 round trip

`Same v w`: what a user expects `load` to return for the object given to `dump`.
`Clean l v`: the objects for which version 3 does that; each condition excludes a defect, shown in `C41.lean`.
-/
namespace Verif.V3

/-- `w` is the value `v`.  Version 3 gives the items of a list, tuple or set of numbers of one type as numpy scalars of the same value. -/
inductive Same : PV → PV → Prop
  | refl (v : PV) : Same v v
  | nums (k : SeqK) {items : List PV} {vs : List NpVal} : items.mapM PV.num? = some vs → Same (.seq k items) (.seq k (vs.map .np))
  | seq (k : SeqK) {items items' : List PV} : items'.length = items.length →
      (∀ (i : Nat) (x y : PV), items[i]? = some x → items'[i]? = some y → Same x y) → Same (.seq k items) (.seq k items')
  /-- the same keys with the same values, in some order -/
  | dict {es es1 es' : List (PV × PV)} : es1.Perm es → es'.length = es1.length →
      (∀ (i : Nat) (a b : PV × PV), es1[i]? = some a → es'[i]? = some b → b.1 = a.1) →
      (∀ (i : Nat) (a b : PV × PV), es1[i]? = some a → es'[i]? = some b → Same a.2 b.2) → Same (.dict es) (.dict es')

/-- h5py lists the members of a group: each one, once -/
def Lists (l : Libs) : Prop := ∀ ms : Members, (l.order ms).Perm (ms.map Prod.fst)

/-- ... and by name, as HDF5 does unless it is asked to keep track of the order of creation -/
def ByName (l : Libs) : Prop := ∀ ms : Members, (l.order ms).Pairwise fun a b => textLe a b = true

def PV.isMasked : PV → Bool
  | .masked .. => true
  | _ => false

/-- the keys of a dictionary: hashable, different from each other -/
def Differ (oeq : Nat → Nat → Bool) (ks : List PV) : Prop :=
  (∀ k ∈ ks, k.view.isSome = true) ∧ ks.Pairwise fun a b => a.same oeq b = false ∧ b.same oeq a = false

/-- the items of a list, tuple or set that version 3 stores as one dataset -/
inductive Item (l : Libs) : PV → Prop
  | bool (b : Bool) : Item l (.bool b)
  /-- greater ones make numpy take floating point numbers -/
  | int (i : Int) : NpVal.ok (.i i) = true → Item l (.int i)
  | float (x : F64) : Item l (.float x)
  | cplx (x y : F64) : Item l (.cplx x y)
  | str (s : PyStr) : (l.newW = false → s.getLast? ≠ some 0) → Item l (.str s)
  | bytes (b : Bytes) : (l.newW = false → b.getLast? ≠ some 0) → (utf8Decode b).isSome = true → Item l (.bytes b)

/-- objects that come back -/
inductive Clean (l : Libs) : PV → Prop
  | none : Clean l .none
  | bool (b : Bool) : Clean l (.bool b)
  | int (i : Int) : Clean l (.int i)
  | float (x : F64) : Clean l (.float x)
  | cplx (x y : F64) : Clean l (.cplx x y)
  | str (s : PyStr) : l.newR = false → Clean l (.str s)
  | bytes (b : Bytes) : (l.newW = false → b.getLast? ≠ some 0) → Clean l (.bytes b)
  | np (v : NpVal) : Clean l (.np v)
  | arr (a : Nd) : Clean l (.arr a)
  | sparse (k : SpK) (d ix ip : Nd) (shape : List Nat) : ByName l → Clean l (.sparse k d ix ip shape)
  | opaque (c st : Nat) : Clean l (.opaque c st)
  | data (k : SeqK) (items : List PV) : (itemType items).elim false dumpable = true →
      (k = .list ∨ k = .tuple ∨ k = .set → ∀ x ∈ items, Item l x) → (k = .set → Elements l.env.opaqueEq items) → Clean l (.seq k items)
  /-- items that are masked arrays, and other classes than these three, do not come back -/
  | group (k : SeqK) (items : List PV) : (itemType items).elim false dumpable = false → k = .list ∨ k = .tuple ∨ k = .set →
      (∀ x ∈ items, Clean l x) → (k = .set → Elements l.env.opaqueEq items) → Clean l (.seq k items)
  | dict (es : List (PV × PV)) : (∀ e ∈ es, Key l e.1) → Differ l.env.opaqueEq (es.map Prod.fst) →
      (∀ e ∈ es, e.2.isMasked = false → Clean l e.2) → ((∃ e ∈ es, e.2.isMasked = true) → ByName l) → Clean l (.dict es)

/-- an object as a whole: also a masked array -/
def CleanTop (l : Libs) (v : PV) : Prop := (v.isMasked = false → Clean l v) ∧ (v.isMasked = true → ByName l)

end Verif.V3
