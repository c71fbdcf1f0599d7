import Verif.Hickle.Custom
import Verif.Hickle.Spec
/-!
# What a loader has to do

`Copy` is what the user of `load` relies on.  `Contract` is what hickle relies on: each class alone, the container
given to `register_class` restores what the dump function has stored.
-/
namespace Verif.Custom

variable {C D V P K : Type}

/-- related objects have the same class, hold the same, and refer to related objects in the same order -/
def Valid (R : Nat → Nat → Prop) (H L : Heap C D) : Prop :=
  ∀ x y, R x y → ∃ o o', H[y]? = some o ∧ L[x]? = some o' ∧ o'.cls = o.cls ∧ o'.data = o.data ∧ All2 R o'.kids o.kids

/-- Object `b` of heap `L` is a copy of object `a` of heap `H`: same classes, same content, same order, and of the classes in
`shares` one object for each object. -/
def Copy (shares : C → Prop) (H L : Heap C D) (b a : Nat) : Prop :=
  ∃ R : Nat → Nat → Prop, R b a ∧ Valid R H L ∧
    ∀ x y x' y' o, R x y → R x' y' → H[y]? = some o → shares o.cls → (x = x' ↔ y = y')

/-- the attributes `own` can be read from `attrs` -/
def Agrees (own attrs : Attrs V) : Prop := ∀ n v, Assoc.get? own n = some v → Assoc.get? attrs n = some v

/-- Equal objects that need not be shared and refer to such objects or to objects related by `R`.  The container has made them, such as the keys
of a dict that are stored as names. -/
def Rebuilt (shares : C → Prop) (R : Nat → Nat → Prop) (H L : Heap C D) (x y : Nat) : Prop :=
  ∃ Q : Nat → Nat → Prop, Q x y ∧ ∀ x y, Q x y → ∃ o o', H[y]? = some o ∧ L[x]? = some o' ∧ o'.cls = o.cls ∧ o'.data = o.data ∧
    All2 (fun x y => R x y ∨ Q x y) o'.kids o.kids ∧ ¬ shares o.cls

/-- the container is given its items -/
def fill (r : Restorer C D V P K) : K → List (String × Nat × Attrs V) → Except PyErr K
  | k, [] => .ok k
  | k, (name, x, attrs) :: l => match r.append k name x attrs with
    | .ok k' => fill r k' l
    | .error e => .error e

/-- The container `r` restores object `o` from what the dump function has `m`ade of it: given the content of the node, attributes
that are as they were set, and a copy of each sub item in any order, it makes an object of the same class that holds the same and
refers to the copies or to objects that it rebuilds.  `Hf` are the objects at the end of the dump, `c` the class the container is told. -/
def Restores (shares : C → Prop) (r : Restorer C D V P K) (c : C) (o : Obj C D) (m : Made C D V P) : Prop :=
  ∀ Hf, m.heap <+: Hf → ∀ (R : Nat → Nat → Prop) (L0 : Heap C D), Valid R Hf L0 → ∀ attrs, Agrees m.own attrs →
    ∀ its : List (Sub V × Nat × Attrs V), (its.map (·.1)).Perm m.subs → (∀ i ∈ its, R i.2.1 i.1.addr ∧ Agrees i.1.attrs i.2.2) →
      ∃ k x L1 o', fill r (r.init m.payload attrs c) (its.map fun i => (i.1.name, i.2)) = .ok k ∧ r.convert k L0 = .ok (x, L1) ∧
        L0 <+: L1 ∧ L1[x]? = some o' ∧ o'.cls = o.cls ∧ o'.data = o.data ∧
        All2 (fun x y => R x y ∨ Rebuilt shares R Hf L1 x y) o'.kids o.kids ∧ (shares o.cls → L0.length ≤ x)

/-- the contract of all loaders; `good` are the heaps that can come up, `isSub` are the names of the attributes that dump functions give to sub items -/
structure Contract (L : Loaders C D V P K) (good : Heap C D → Prop) (shares : C → Prop) (isSub : String → Prop) : Prop where
  /-- objects that are to be shared are memoised -/
  memo : ∀ c, shares c → (L.entry c).memoise = true
  /-- a dump function changes no object -/
  keep : ∀ H o m, (L.entry o.cls).create H o = .ok m → H <+: m.heap
  stay : ∀ H o m, good H → (L.entry o.cls).create H o = .ok m → good m.heap
  /-- attributes of a node and of its sub items have different names -/
  own : ∀ H o m, (L.entry o.cls).create H o = .ok m → ∀ p ∈ m.own, ¬ isSub p.1 ∧ p.1 ≠ "type"
  sub : ∀ H o m, (L.entry o.cls).create H o = .ok m → ∀ sub ∈ m.subs, ∀ p ∈ sub.attrs, isSub p.1 ∧ p.1 ≠ "type"
  /-- what is stored is restored -/
  restores : ∀ (H : Heap C D) (a : Nat) o m, good H → H[a]? = some o → (L.entry o.cls).create H o = .ok m → Restores shares (L.restorer (L.entry o.cls).base) o.cls o m
  /-- objects that a dump function refuses are restored from their pickle string -/
  pickled : ∀ (H : Heap C D) (a : Nat) o p, good H → H[a]? = some o → (L.entry o.cls).create H o = .error .notHicklable → L.pickle H a = .ok p →
    Restores shares (L.restorer "pickle") L.object o ⟨p, [], [], H⟩
  objMemo : (L.entry L.object).memoise = true

/-- `z` is a sub item of `y` -/
def Needs (L : Loaders C D V P K) (Hf : Heap C D) (y z : Nat) : Prop :=
  ∃ (H : Heap C D) (o : Obj C D) (m : Made C D V P), H[y]? = some o ∧ (L.entry o.cls).create H o = .ok m ∧ m.heap <+: Hf ∧ ∃ sub ∈ m.subs, sub.addr = z

/-- sub items nest at most `k` deep -/
def Deep (L : Loaders C D V P K) (Hf : Heap C D) : Nat → Nat → Prop
  | 0, _ => False
  | k + 1, y => ∀ z, Needs L Hf y z → Deep L Hf k z

/-- references go to objects there are -/
def Closed (H : Heap C D) : Prop := ∀ (y : Nat) (o : Obj C D), H[y]? = some o → ∀ z ∈ o.kids, z < H.length

/-! ### one registration alone -/

/-- What the one who registers a class has to see to: the dump function changes no object, the container restores what it stores (`Restores`),
for the class and the classes derived from it, and objects that are to be shared are memoised.  No other loader is mentioned. -/
structure LoaderOk (core : Core C D V P K) (shares : C → Prop) (r : Reg C D V P K) : Prop where
  keep : ∀ H o m, r.create H o = .ok m → H <+: m.heap
  restores : ∀ (H : Heap C D) (a : Nat) o m, r.cls ∈ core.mro o.cls → H[a]? = some o → r.create H o = .ok m → Restores shares r.restorer o.cls o m
  memo : ∀ c, r.cls ∈ core.mro c → shares c → r.memoise = true

/-- The same for a loader that restores only some of the objects it stores, those that `fit`. -/
structure LoaderFor (core : Core C D V P K) (fits : Obj C D → Prop) (shares : C → Prop) (r : Reg C D V P K) : Prop where
  keep : ∀ H o m, r.create H o = .ok m → H <+: m.heap
  restores : ∀ (H : Heap C D) (a : Nat) o m, fits o → r.cls ∈ core.mro o.cls → H[a]? = some o → r.create H o = .ok m → Restores shares r.restorer o.cls o m
  memo : ∀ c, r.cls ∈ core.mro c → shares c → r.memoise = true

theorem LoaderOk.all {core : Core C D V P K} {shares : C → Prop} {r : Reg C D V P K} (h : LoaderOk core shares r) (fits : Obj C D → Prop) : LoaderFor core fits shares r :=
  ⟨h.keep, fun H a o m _ => h.restores H a o m, h.memo⟩

/-- objects are restored from their pickle strings -/
def PickleOk (core : Core C D V P K) (shares : C → Prop) : Prop :=
  ∀ (H : Heap C D) (a : Nat) o p, H[a]? = some o → core.pickle H a = .ok p → Restores shares core.unpickle core.object o ⟨p, [], [], H⟩

/-- attributes of nodes and attributes of sub items have different names, and none is called `type` -/
def Apart (isSub : String → Prop) (r : Reg C D V P K) : Prop :=
  ∀ H o m, r.create H o = .ok m →
    (∀ p ∈ m.own, ¬ isSub p.1 ∧ p.1 ≠ "type") ∧ ∀ sub ∈ m.subs, ∀ p ∈ sub.attrs, isSub p.1 ∧ p.1 ≠ "type"

end Verif.Custom
