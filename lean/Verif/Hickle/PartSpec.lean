import Verif.Hickle.Spec
import Verif.Py.Eq
/-!
# Specification: a part of an object

This file does not mention dump or load.  `Part env H L b a`: the object `b` of `L` is what may be left of the object `a` of `H` when
some of what it consists of is missing.  Nothing in it is made up: every object in it has the class of an object that is part of `a` and
shows some of its value, in its place; where something is missing there is an empty tuple, an element or entry less, or
a smaller array.
-/
namespace Verif

/-- the empty tuple, which stands for a missing item -/
def Hole (L : Heap) (x : Addr) : Prop := L[x]? = some ⟨.tuple, .seq []⟩

/-- the number `c` became the numpy scalar `x` of type `d` -/
def NumOf (H L : Heap) (d : DT) (x c : Addr) : Prop := ∃ o o', H[c]? = some o ∧ L[x]? = some o' ∧ SameNum d o o'

/-- items of a sequence: as many as there were, each in its place unless it is missing; a sequence of numbers that were converted to one numpy
type is complete -/
def ItemsPart (H L : Heap) (R : Addr → Addr → Prop) (xs as : List Addr) : Prop :=
  All2 (fun x c => Hole L x ∨ R x c) xs as ∨ ∃ d, All2 (NumOf H L d) xs as

/-- the dict key `c` was rebuilt as `x` -/
def KeyOf (H L : Heap) (x c : Addr) : Prop := ∃ o, H[c]? = some o ∧ L[x]? = some o ∧ o.nameKey = true

/-- an entry of a dict: the key rebuilt and a part of the value, or parts of both like the items of a tuple -/
def EntryPart (H L : Heap) (R : Addr → Addr → Prop) (e' e : Addr × Addr) : Prop :=
  (KeyOf H L e'.1 e.1 ∧ R e'.2 e.2) ∨ ItemsPart H L R [e'.1, e'.2] [e.1, e.2]

/-- the same key of a dict, or keys that are equal in Python -/
def KeyEq (env : Env) (L : Heap) (k k' : Addr) : Prop :=
  k' = k ∨ ∃ v w, view env.u L k = some v ∧ view env.u L k' = some w ∧ KV.eqv env.opaqueEq v w = true

/-- an element of an array, or a list of such, or a missing one -/
inductive RowPart (L : Heap) (Q : Addr → Prop) : Addr → Prop
  | hole {x} : Hole L x → RowPart L Q x
  | leaf {x} : Q x → RowPart L Q x
  | row {x ys} : L[x]? = some ⟨.list, .seq ys⟩ → (∀ y ∈ ys, RowPart L Q y) → RowPart L Q x

/-- `v'` is what may be left of the value `v`.
* values without references are complete, but an array of strings may have lost some;
* sequences keep their length (`ItemsPart`);
* elements of a set, or entries of a dict, may be missing; when an incomplete key has become equal to another one the entry has one of the
  keys and one of the values;
* the elements of an array of objects are of the original ones, or lists of them, in whatever shape;
* a sparse matrix has its shape and parts of its three arrays. -/
inductive PartVal (env : Env) (H L : Heap) (R : Addr → Addr → Prop) : Val → Val → Prop
  | atom {v} : v.isAtom = true → PartVal env H L R v v
  | seq {xs as} : ItemsPart H L R xs as → PartVal env H L R (.seq xs) (.seq as)
  | set {xs as} : (∀ x ∈ xs, ∃ c ∈ as, R x c ∨ ∃ d, NumOf H L d x c) → PartVal env H L R (.set xs) (.set as)
  | dict {es' es} : (∀ e' ∈ es', (∃ v, ∃ e ∈ es, EntryPart H L R (e'.1, v) e) ∧ ∃ k, KeyEq env L e'.1 k ∧ ∃ e ∈ es, EntryPart H L R (k, e'.2) e) →
      PartVal env H L R (.dict es') (.dict es)
  | sarr {w sh' sh ss' ss} : (∀ s ∈ ss', s ∈ ss) → PartVal env H L R (.sarr w sh' ss') (.sarr w sh ss)
  | oarr {sh' sh xs as} : (∀ x ∈ xs, RowPart L (fun y => ∃ c ∈ as, R y c ∨ ∃ d, NumOf H L d y c) x) → PartVal env H L R (.oarr sh' xs) (.oarr sh as)
  | sparse {d' i' p' d i p sh} : R d' d → R i' i → R p' p → PartVal env H L R (.sparse d' i' p' sh) (.sparse d i p sh)

/-- Object `b` of `L` is a part of object `a` of `H`.  `R x c`: object `x` is what is left of object `c`; distinct objects never
become one. -/
def Part (env : Env) (H L : Heap) (b a : Addr) : Prop :=
  ∃ R : Addr → Addr → Prop, R b a ∧ (∀ x c c', R x c → R x c' → c = c') ∧
    ∀ x c, R x c → ∃ o o', H[c]? = some o ∧ L[x]? = some o' ∧ o'.cls = o.cls ∧ PartVal env H L R o'.val o.val

end Verif
