import Verif.Hickle.CustomReg
/-!
# C54 Loaders that are right alone are right together

A program can register its own classes with `register_class`.  Whoever writes a loader can test it alone; the users of `dump` and `load`
rely on it in graphs that mix objects of all registered classes.  `LoaderOk` (in `CustomSpec.lean`) is what a loader has to do alone, `Copy` is
what the user relies on.
-/
namespace Verif.Custom

variable {C D V P K : Type} [DecidableEq C]

/-- **C54 (partial).**  If each registered loader alone restores what it stores, all have different base types, and the attributes they
give to nodes and to sub items have different names, then what is dumped is loaded as a copy: for every graph of objects of any of these classes,
of classes derived from them, and of classes that are pickled, with sharing, and for every order in which HDF5 gives the members of groups.
Sub items nest `k` deep, and a load that may nest `2 * k` calls returns.
What is missing: the same without the conditions on base types and on names of attributes, which is false (`C54_violated_base`, `C54_violated_attr`). -/
theorem C54_partial {core : Core C D V P K} (hobj : core.mro core.object = [core.object]) {shares : C → Prop}
    {regs : List (Reg C D V P K)} {t : Tables C D V P K} (hreg : registerAll core regs = .ok t)
    (hok : ∀ r ∈ regs, LoaderOk core shares r) (hpk : PickleOk core shares)
    (hbase : regs.Pairwise fun r r' => r.base ≠ r'.base) {isSub : String → Prop} (hap : ∀ r ∈ regs, Apart isSub r)
    {H : Heap C D} (hcl : Closed H) {a k : Nat} (hdeep : ∀ Hf, H <+: Hf → Deep (t.loaders core) Hf k a)
    {fuel : Nat} {file : File C V P} (hdump : dumpTop (t.loaders core) fuel H a = .ok file)
    {order : List (String × Nat) → List (String × Nat)} (hord : ∀ l, (order l).Perm l) {f : Nat} (hf : 2 * k ≤ f) :
    ∃ b L, loadTop (t.loaders core) order f file = .ok (b, L) ∧ Copy shares H L b a :=
  round_trip (contract (good := fun _ => True) (fits := fun _ => True) hobj hbase (fun r hr => (hok r hr).all _) (fun _ _ _ _ _ => trivial) hap hreg (fun _ _ _ _ _ _ _ => trivial) fun H a o p _ ho _ hp => hpk H a o p ho hp) trivial hcl hdeep hdump hord hf

/-- **C54 for loaders that restore only some of the objects they store**, those that `fit`: graphs of such objects are loaded as copies.  Objects that
dump functions make have to fit, too. -/
theorem C54_fitting_partial {core : Core C D V P K} (hobj : core.mro core.object = [core.object]) {shares : C → Prop} {fits : Obj C D → Prop}
    {regs : List (Reg C D V P K)} {t : Tables C D V P K} (hreg : registerAll core regs = .ok t)
    (hok : ∀ r ∈ regs, LoaderFor core fits shares r) (hstay : ∀ r ∈ regs, ∀ H o m, (∀ q ∈ H, fits q) → r.create H o = .ok m → ∀ q ∈ m.heap, fits q)
    (hpk : PickleOk core shares) (hbase : regs.Pairwise fun r r' => r.base ≠ r'.base) {isSub : String → Prop} (hap : ∀ r ∈ regs, Apart isSub r)
    {H : Heap C D} (hfit : ∀ q ∈ H, fits q) (hcl : Closed H) {a k : Nat} (hdeep : ∀ Hf, H <+: Hf → Deep (t.loaders core) Hf k a)
    {fuel : Nat} {file : File C V P} (hdump : dumpTop (t.loaders core) fuel H a = .ok file)
    {order : List (String × Nat) → List (String × Nat)} (hord : ∀ l, (order l).Perm l) {f : Nat} (hf : 2 * k ≤ f) :
    ∃ b L, loadTop (t.loaders core) order f file = .ok (b, L) ∧ Copy shares H L b a :=
  round_trip (contract (good := fun H => ∀ q ∈ H, fits q) hobj hbase hok (fun _ _ _ hg ho => hg _ (List.mem_of_getElem? ho)) hap hreg
    (fun r hr H o m hg hm => hstay r hr H o m hg hm) fun H a o p _ ho _ hp => hpk H a o p ho hp) hfit hcl hdeep hdump hord hf

/-- how deep sub items nest if dump functions make no objects: no deeper than references -/
theorem Deep.of_rank {L : Loaders C D V P K} (hL : ∀ H o m, (L.entry o.cls).create H o = .ok m → H <+: m.heap ∧ ∀ sub ∈ m.subs, sub.addr ∈ o.kids)
    {H : Heap C D} (hcl : Closed H) {rank : Nat → Nat} (hr : ∀ (y : Nat) (o : Obj C D), H[y]? = some o → ∀ z ∈ o.kids, rank z < rank y)
    {Hf : Heap C D} (hp : H <+: Hf) (k : Nat) : ∀ y, y < H.length → rank y < k → Deep L Hf k y := by
  induction k with
  | zero => intro y _ h; omega
  | succ k ih =>
    rintro y hy hk z ⟨H0, o, m, h1, h2, h3, sub, h4, rfl⟩
    obtain ⟨e1, e2⟩ := hL _ _ _ h2
    have h5 := at_prefix (e1.trans h3) h1
    obtain ⟨q, hq⟩ : ∃ q, H[y]? = some q := ⟨H[y], List.getElem?_eq_getElem hy⟩
    have h6 := at_prefix hp hq
    rw [h5] at h6; simp at h6; subst h6
    have := hr y o hq _ (e2 sub h4)
    exact ih _ (hcl y o hq _ (e2 sub h4)) (by omega)

/-! ### loaders for the examples -/

namespace Ex

/-- content of nodes: two numbers, or a pickle string, which holds objects and tells which of them was pickled -/
inductive Pay where
  | plain (d n : Nat)
  | blob (h : Heap Nat Nat) (a : Nat)

/-- the first number -/
def Pay.fst : Pay → Nat
  | .plain d _ => d
  | .blob .. => 0

/-- the second number -/
def Pay.snd : Pay → Nat
  | .plain _ n => n
  | .blob .. => 0

/-- the containers: class, what the object holds, number of items, items with their positions, objects of a pickle string -/
structure Box where
  cls : Nat
  data : Nat
  n : Nat
  got : List (Nat × Nat)
  blob : Option (Heap Nat Nat × Nat) := none

/-- items in the order of their positions -/
def pick (got : List (Nat × Nat)) : Nat → Nat → Option (List Nat)
  | _, 0 => some []
  | i, n + 1 => match Assoc.get? got i, pick got (i + 1) n with
    | some x, some xs => some (x :: xs)
    | _, _ => none

/-- the object of a container -/
def finish (k : Box) (h : Heap Nat Nat) : Except PyErr (Nat × Heap Nat Nat) :=
  match k.blob with
  | some (b, a) => .ok (h.length + a, h ++ b.map fun o => { o with kids := o.kids.map (h.length + ·) })
  | none =>
    match pick k.got 0 k.n with
    | some xs => .ok (h.length, h ++ [⟨k.cls, k.data, xs⟩])
    | none => .error .valueError

/-- an item at the position its attribute tells -/
def put (k : Box) (_ : String) (x : Nat) (attrs : Attrs Nat) : Except PyErr Box :=
  match Assoc.get? attrs "item_index" with
  | some i => .ok { k with got := (i, x) :: k.got }
  | none => .error .keyError

/-- sub items with their positions -/
def subsOf : Nat → List Nat → List (Sub Nat)
  | _, [] => []
  | i, z :: zs => ⟨Nat.repr i, z, [("item_index", i)]⟩ :: subsOf (i + 1) zs

/-- a class of trees: a number and any number of branches -/
def tree : Reg Nat Nat Nat Pay Box where
  cls := 1
  base := "tree"
  create := fun H o => .ok ⟨.plain o.data o.kids.length, [], subsOf 0 o.kids, H⟩
  restorer := ⟨fun p _ c => ⟨c, p.fst, p.snd, [], none⟩, put, finish⟩

/-- a class of tags: a number, which is stored as attribute `key` -/
def tag (key : String) : Reg Nat Nat Nat Pay Box where
  cls := 2
  base := "tag"
  create := fun H o => if o.kids = [] then .ok ⟨.plain 0 0, [(key, o.data)], [], H⟩ else .error .typeError
  restorer := ⟨fun _ attrs c => ⟨c, (Assoc.get? attrs key).getD 0, 0, [], none⟩, put, finish⟩

/-- a class of numbers that are stored plus one -/
def shifted (base : String) : Reg Nat Nat Nat Pay Box where
  cls := 3
  base := base
  create := fun H o => if o.kids = [] then .ok ⟨.plain (o.data + 1) 0, [], [], H⟩ else .error .notHicklable
  restorer := ⟨fun p _ c => ⟨c, p.fst - 1, 0, [], none⟩, put, finish⟩

/-- class 0 is `object`, 4 is derived from 1 -/
def core : Core Nat Nat Nat Pay Box where
  mro := fun c => if c = 0 then [0] else if c = 4 then [4, 1, 0] else [c, 0]
  object := 0
  pickle := fun H a => match H[a]? with
    | some ⟨c, d, []⟩ => .ok (.plain d c)
    | _ => .error .picklingError
  unpickle := ⟨fun p _ _ => ⟨p.snd, p.fst, 0, [], none⟩, put, finish⟩
  recover := ⟨fun p _ c => ⟨c, p.fst, 0, [], none⟩, put, finish⟩

/-- every object is to be shared -/
def shares (_ : Nat) : Prop := True

/-- restoring an object that refers to nothing -/
theorem restores_leaf {r : Restorer Nat Nat Nat Pay Box} (hr : r.convert = finish) {c : Nat} {o : Obj Nat Nat} (ho : o.kids = []) {p own H}
    (hi : ∀ attrs, Agrees own attrs → r.init p attrs c = ⟨o.cls, o.data, 0, [], none⟩) : Restores shares r c o ⟨p, own, [], H⟩ := by
  intro Hf _ R L0 _ attrs hat its hp hit
  have : its = [] := by
    have := hp.length_eq
    simpa using this
  subst this
  refine ⟨_, L0.length, L0 ++ [⟨o.cls, o.data, []⟩], ⟨o.cls, o.data, []⟩, rfl, ?_, ⟨_, rfl⟩, by simp, rfl, rfl, ?_, fun _ => Nat.le_refl _⟩
  · rw [hr, hi attrs hat]; rfl
  · rw [ho]; exact .nil

theorem mem_subsOf {i : Nat} {ks : List Nat} {sub : Sub Nat} (h : sub ∈ subsOf i ks) : ∃ j, ks[j]? = some sub.addr ∧ sub.attrs = [("item_index", i + j)] := by
  induction ks generalizing i with
  | nil => simp [subsOf] at h
  | cons z ks ih =>
    simp only [subsOf, List.mem_cons] at h
    rcases h with rfl | h
    · exact ⟨0, rfl, rfl⟩
    · obtain ⟨j, h1, h2⟩ := ih h
      exact ⟨j + 1, by simpa using h1, by rw [h2]; congr 2; omega⟩

theorem subsOf_mem {i : Nat} {ks : List Nat} {j z : Nat} (h : ks[j]? = some z) : ⟨Nat.repr (i + j), z, [("item_index", i + j)]⟩ ∈ subsOf i ks := by
  induction ks generalizing i j with
  | nil => simp at h
  | cons y ks ih =>
    simp only [subsOf, List.mem_cons]
    cases j with
    | zero => simp at h; subst h; exact .inl rfl
    | succ j =>
      have := ih (i := i + 1) (j := j) (by simpa using h)
      have e : i + 1 + j = i + (j + 1) := by omega
      rw [e] at this
      exact .inr this

theorem subsOf_kids {i : Nat} {ks : List Nat} {sub : Sub Nat} (h : sub ∈ subsOf i ks) : sub.addr ∈ ks := by
  obtain ⟨j, h1, _⟩ := mem_subsOf h
  exact List.mem_of_getElem? h1

/-- positions and copies of the items -/
def gotOf (its : List (Sub Nat × Nat × Attrs Nat)) (got : List (Nat × Nat)) : List (Nat × Nat) :=
  its.foldl (fun g i => ((Assoc.get? i.1.attrs "item_index").getD 0, i.2.1) :: g) got

theorem mem_gotOf {its : List (Sub Nat × Nat × Attrs Nat)} {got : List (Nat × Nat)} {p : Nat × Nat} :
    p ∈ gotOf its got ↔ p ∈ got ∨ ∃ i ∈ its, p = ((Assoc.get? i.1.attrs "item_index").getD 0, i.2.1) := by
  induction its generalizing got with
  | nil => simp [gotOf]
  | cons i its ih =>
    simp only [gotOf, List.foldl_cons] at ih ⊢
    rw [ih]
    constructor
    · rintro (h | ⟨j, h1, h2⟩)
      · rcases List.mem_cons.1 h with h | h
        · exact .inr ⟨i, by simp, h⟩
        · exact .inl h
      · exact .inr ⟨j, by simp [h1], h2⟩
    · rintro (h | ⟨j, h1, h2⟩)
      · exact .inl (by simp [h])
      · rcases List.mem_cons.1 h1 with rfl | h1
        · exact .inl (by simp [h2])
        · exact .inr ⟨j, h1, h2⟩

theorem fill_tree {r : Restorer Nat Nat Nat Pay Box} (hr : r.append = put) (its : List (Sub Nat × Nat × Attrs Nat))
    (h : ∀ i ∈ its, (∃ j, Assoc.get? i.1.attrs "item_index" = some j) ∧ Agrees i.1.attrs i.2.2) (k : Box) :
    fill r k (its.map fun i => (i.1.name, i.2)) = .ok { k with got := gotOf its k.got } := by
  induction its generalizing k with
  | nil => rfl
  | cons i its ih =>
    obtain ⟨⟨j, h1⟩, h2⟩ := h i (by simp)
    have h3 := h2 _ _ h1
    simp only [List.map_cons, fill, hr, put, h3]
    rw [ih (fun i hi => h i (by simp [hi]))]
    simp [gotOf, h1]

theorem pick_some {R : Nat → Nat → Prop} {got : List (Nat × Nat)} (i : Nat) (ks : List Nat) (h : ∀ j z, ks[j]? = some z → ∃ x, Assoc.get? got (i + j) = some x ∧ R x z) :
    ∃ xs, pick got i ks.length = some xs ∧ All2 R xs ks := by
  induction ks generalizing i with
  | nil => exact ⟨[], rfl, .nil⟩
  | cons z ks ih =>
    obtain ⟨x, h1, h2⟩ := h 0 z rfl
    obtain ⟨xs, h3, h4⟩ := ih (i + 1) (by
      intro j w hj
      have := h (j + 1) w (by simpa using hj)
      have e : i + 1 + j = i + (j + 1) := by omega
      rw [e]; exact this)
    simp only [Nat.add_zero] at h1
    exact ⟨x :: xs, by simp [pick, h1, h3], .cons h2 h4⟩

theorem get?_some_of_mem {l : List (Nat × Nat)} {p : Nat × Nat} (h : p ∈ l) : ∃ x, Assoc.get? l p.1 = some x := by
  cases hg : Assoc.get? l p.1 with
  | some x => exact ⟨x, rfl⟩
  | none => exact (Assoc.get?_none_of_mem hg h).elim

theorem tree_ok : LoaderOk core shares tree := by
  refine ⟨fun H o m h => ?_, fun H a o m _ _ h => ?_, fun _ _ _ => rfl⟩
  · simp only [tree, Except.ok.injEq] at h; subst h; exact List.prefix_rfl
  · simp only [tree, Except.ok.injEq] at h
    subst h
    intro Hf _ R L0 _ attrs _ its hp hit
    have hsub : ∀ i ∈ its, i.1 ∈ subsOf 0 o.kids := fun i hi => hp.mem_iff.1 (List.mem_map.2 ⟨i, hi, rfl⟩)
    have hfill := fill_tree (r := tree.restorer) rfl its (by
      intro i hi
      obtain ⟨j, _, h2⟩ := mem_subsOf (hsub i hi)
      exact ⟨⟨0 + j, by rw [h2]; simp [Assoc.get?]⟩, (hit i hi).2⟩) ⟨o.cls, o.data, o.kids.length, [], none⟩
    obtain ⟨xs, h1, h2⟩ := pick_some (R := R) (got := gotOf its []) 0 o.kids (by
      intro j z hj
      have hm := subsOf_mem (i := 0) hj
      obtain ⟨i, hi, e⟩ := List.mem_map.1 (hp.mem_iff.2 hm)
      have : (0 + j, i.2.1) ∈ gotOf its [] := mem_gotOf.2 (.inr ⟨i, hi, by rw [e]; simp [Assoc.get?]⟩)
      obtain ⟨x, hx⟩ := get?_some_of_mem this
      refine ⟨x, hx, ?_⟩
      rcases mem_gotOf.1 (Assoc.get?_mem hx) with h | ⟨i', hi', e'⟩
      · simp at h
      · obtain ⟨j', g1, g2⟩ := mem_subsOf (hsub i' hi')
        rw [g2] at e'
        simp [Assoc.get?] at e'
        obtain ⟨rfl, rfl⟩ := e'
        rw [hj] at g1; simp at g1
        rw [g1]; exact (hit i' hi').1)
    refine ⟨_, L0.length, L0 ++ [⟨o.cls, o.data, xs⟩], ⟨o.cls, o.data, xs⟩, hfill, ?_, ⟨_, rfl⟩, by simp, rfl, rfl, all2_imp h2 fun _ _ h => .inl h, fun _ => Nat.le_refl _⟩
    simp only [tree, finish, h1]

theorem tag_ok (key : String) : LoaderOk core shares (tag key) := by
  refine ⟨fun H o m h => ?_, fun H a o m _ _ h => ?_, fun _ _ _ => rfl⟩
  · simp only [tag] at h
    split at h
    · simp at h; subst h; exact List.prefix_rfl
    · simp at h
  · simp only [tag] at h
    split at h
    · next hk =>
      simp at h; subst h
      refine restores_leaf rfl hk fun attrs hat => ?_
      have := hat key o.data (by simp [Assoc.get?])
      simp [tag, this]
    · simp at h

theorem shifted_ok (base : String) : LoaderOk core shares (shifted base) := by
  refine ⟨fun H o m h => ?_, fun H a o m _ _ h => ?_, fun _ _ _ => rfl⟩
  · simp only [shifted] at h
    split at h
    · simp at h; subst h; exact List.prefix_rfl
    · simp at h
  · simp only [shifted] at h
    split at h
    · next hk =>
      simp at h; subst h
      exact restores_leaf rfl hk fun attrs hat => by simp [shifted, Pay.fst]
    · simp at h

theorem pickle_ok : PickleOk core shares := by
  intro H a o p ho h
  simp only [core, ho] at h
  split at h
  · next c d e =>
    simp at e; subst e
    simp at h; subst h
    exact restores_leaf rfl rfl fun attrs hat => by simp [core, Pay.fst, Pay.snd]
  · simp at h

/-- the names of attributes of sub items -/
def isSub (n : String) : Prop := n = "item_index"

theorem tree_apart : Apart isSub tree := by
  intro H o m h
  simp only [tree, Except.ok.injEq] at h
  subst h
  refine ⟨by simp, fun sub hs p hp => ?_⟩
  obtain ⟨j, _, h2⟩ := mem_subsOf hs
  rw [h2] at hp
  simp at hp; subst hp
  exact ⟨rfl, by simp⟩

theorem tag_apart : Apart isSub (tag "tag") := by
  intro H o m h
  simp only [tag] at h
  split at h
  · simp at h; subst h
    simp [isSub]
  · simp at h

theorem shifted_apart (base : String) : Apart isSub (shifted base) := by
  intro H o m h
  simp only [shifted] at h
  split at h
  · simp at h; subst h; simp
  · simp at h

/-- `t = Tag(5); d = DerivedTree(1, [t]); Tree(7, [t, d, t, Other(9), Shifted(3)])`, where the class `Other` is not registered -/
def heap : Heap Nat Nat := [⟨1, 7, [1, 2, 1, 3, 4]⟩, ⟨2, 5, []⟩, ⟨4, 1, [1]⟩, ⟨5, 9, []⟩, ⟨3, 3, []⟩]

def regs : List (Reg Nat Nat Nat Pay Box) := [tree, tag "tag", shifted "shifted"]

/-- the tables after the registrations -/
def tables (regs : List (Reg Nat Nat Nat Pay Box)) : Tables Nat Nat Nat Pay Box :=
  ⟨(regs.map fun r => (r.cls, r.entry)).reverse, (regs.map fun r => (r.base, r.restorer)).reverse ++ [("pickle", core.unpickle)]⟩

theorem registered {regs : List (Reg Nat Nat Nat Pay Box)} (h : ∀ r ∈ regs, r.cls ≠ 0 ∧ r.base ∉ reserved) : registerAll core regs = .ok (tables regs) := by
  suffices hs : ∀ t : Tables Nat Nat Nat Pay Box, each (register core) regs t =
      .ok ⟨(regs.map fun r => (r.cls, r.entry)).reverse ++ t.types, (regs.map fun r => (r.base, r.restorer)).reverse ++ t.conts⟩ by
    simpa [tables, registerAll] using hs ⟨[], [("pickle", core.unpickle)]⟩
  induction regs with
  | nil => intro t; simp [each]
  | cons r regs ih =>
    intro t
    obtain ⟨h1, h2⟩ := h r (by simp)
    have : register core r t = .ok ⟨Assoc.put t.types r.cls r.entry, Assoc.put t.conts r.base r.restorer⟩ := by
      unfold register
      rw [if_neg (by simpa [core] using h1), if_neg (by simpa using h2)]
    simp only [each, this]
    rw [ih fun r hr => h r (by simp [hr])]
    simp [Assoc.put]

/-- no dump function makes objects -/
theorem no_temps {regs : List (Reg Nat Nat Nat Pay Box)} (hd : regs.Pairwise fun r r' => r.base ≠ r'.base) {t} (hreg : registerAll core regs = .ok t)
    (hs : ∀ r ∈ regs, ∀ H o m, r.create H o = .ok m → m.heap = H ∧ ∀ sub ∈ m.subs, sub.addr ∈ o.kids) :
    ∀ H o m, ((t.loaders core).entry o.cls).create H o = .ok m → H <+: m.heap ∧ ∀ sub ∈ m.subs, sub.addr ∈ o.kids := by
  intro H o m h
  rcases entry_cases hd hreg o.cls with ⟨r, h1, _, h3⟩ | h3
  · simp only [Tables.loaders, h3, Reg.entry] at h
    obtain ⟨e1, e2⟩ := hs r h1 _ _ _ h
    rw [e1]; exact ⟨List.prefix_rfl, e2⟩
  · simp [Tables.loaders, h3] at h

theorem tree_subs : ∀ H o m, tree.create H o = .ok m → m.heap = H ∧ ∀ sub ∈ m.subs, sub.addr ∈ o.kids := by
  intro H o m h
  simp only [tree, Except.ok.injEq] at h
  subst h
  exact ⟨rfl, fun sub hs => subsOf_kids hs⟩

theorem tag_subs (key : String) : ∀ H o m, (tag key).create H o = .ok m → m.heap = H ∧ ∀ sub ∈ m.subs, sub.addr ∈ o.kids := by
  intro H o m h
  simp only [tag] at h
  split at h
  · simp at h; subst h; simp
  · simp at h

theorem shifted_subs (base : String) : ∀ H o m, (shifted base).create H o = .ok m → m.heap = H ∧ ∀ sub ∈ m.subs, sub.addr ∈ o.kids := by
  intro H o m h
  simp only [shifted] at h
  split at h
  · simp at h; subst h; simp
  · simp at h

theorem of_toOption {α : Type} {x : Except PyErr α} {a : α} (h : x.toOption = some a) : x = .ok a := by
  cases x with
  | error e => simp [Except.toOption] at h
  | ok b => simp [Except.toOption] at h; rw [h]

theorem ok_of {α : Type} {x : Except PyErr α} (h : x.toOption.isSome = true) : ∃ a, x = .ok a := by
  cases x with
  | error e => simp [Except.toOption] at h
  | ok b => exact ⟨b, rfl⟩

theorem heap_closed : Closed heap := by
  intro y o h z hz
  have : ∀ o ∈ heap, ∀ z ∈ o.kids, z < heap.length := by decide +kernel
  exact this o (List.mem_of_getElem? h) z hz

/-- how deep references nest below an object -/
def rank : Nat → Nat
  | 0 => 2
  | 2 => 1
  | _ => 0

theorem heap_rank (y : Nat) (o : Obj Nat Nat) (h : heap[y]? = some o) : ∀ z ∈ o.kids, rank z < rank y := by
  have : ∀ y : Fin 5, ∀ z ∈ (heap[y.1]'(y.2)).kids, rank z < rank y.1 := by decide +kernel
  obtain ⟨hy, e⟩ := List.getElem?_eq_some_iff.1 h
  subst e
  exact this ⟨y, hy⟩

/-- the hypotheses of `C54_partial` hold of the graph with all kinds of objects; the members of groups come backwards -/
example : ∃ file b L, dumpTop ((tables regs).loaders core) 10 heap 0 = .ok file ∧
    loadTop ((tables regs).loaders core) List.reverse 6 file = .ok (b, L) ∧ Copy shares heap L b 0 := by
  have hreg : registerAll core regs = .ok (tables regs) := registered (by
    intro r hr
    simp only [regs, List.mem_cons, List.not_mem_nil, or_false] at hr
    rcases hr with rfl | rfl | rfl <;> exact ⟨by decide, by decide⟩)
  have hbase : regs.Pairwise fun r r' => r.base ≠ r'.base := by
    simp [regs, tree, tag, shifted]
  obtain ⟨file, hf⟩ := ok_of (x := dumpTop ((tables regs).loaders core) 10 heap 0) (by decide +kernel)
  obtain ⟨b, L, h1, h2⟩ := C54_partial (core := core) rfl (shares := shares) hreg
    (by intro r hr
        simp only [regs, List.mem_cons, List.not_mem_nil, or_false] at hr
        rcases hr with rfl | rfl | rfl
        · exact tree_ok
        · exact tag_ok _
        · exact shifted_ok _)
    pickle_ok hbase (isSub := isSub)
    (by intro r hr
        simp only [regs, List.mem_cons, List.not_mem_nil, or_false] at hr
        rcases hr with rfl | rfl | rfl
        · exact tree_apart
        · exact tag_apart
        · exact shifted_apart _)
    heap_closed (a := 0) (k := 3)
    (fun Hf hp => Deep.of_rank (no_temps hbase hreg (by
        intro r hr
        simp only [regs, List.mem_cons, List.not_mem_nil, or_false] at hr
        rcases hr with rfl | rfl | rfl
        · exact tree_subs
        · exact tag_subs _
        · exact shifted_subs _)) heap_closed heap_rank hp 3 0 (by decide) (by decide))
    hf (order := List.reverse) List.reverse_perm (f := 6) (by decide)
  exact ⟨file, b, L, hf, h1, h2⟩

/-- not a copy: what the object itself holds differs -/
theorem not_copy {H L : Heap Nat Nat} {b a : Nat} (o o' : Obj Nat Nat) (h : H[a]? = some o) (h' : L[b]? = some o') (hd : o'.data ≠ o.data) : ¬ Copy shares H L b a := by
  rintro ⟨R, h1, h2, _⟩
  obtain ⟨p, p', e1, e2, _, e3, _⟩ := h2 _ _ h1
  rw [h] at e1; rw [h'] at e2
  simp at e1 e2; subst e1 e2
  exact hd e3

/-- not a copy: what the first item holds differs -/
theorem not_copy_item {H L : Heap Nat Nat} {b a z w : Nat} {zs ws : List Nat} (o o' q q' : Obj Nat Nat) (h : H[a]? = some o) (h' : L[b]? = some o')
    (hz : o.kids = z :: zs) (hw : o'.kids = w :: ws) (hq : H[z]? = some q) (hq' : L[w]? = some q') (hd : q'.data ≠ q.data) : ¬ Copy shares H L b a := by
  rintro ⟨R, h1, h2, h3⟩
  obtain ⟨p, p', e1, e2, _, _, e3⟩ := h2 _ _ h1
  rw [h] at e1; rw [h'] at e2
  simp at e1 e2; subst e1 e2
  rw [hz, hw] at e3
  cases e3 with
  | cons e3 _ =>
    obtain ⟨p, p', e1, e2, _, e4, _⟩ := h2 _ _ e3
    rw [hq] at e1; rw [hq'] at e2
    simp at e1 e2; subst e1 e2
    exact hd e4

/-- `Tree(7, [])` -/
def heap1 : Heap Nat Nat := [⟨1, 7, []⟩]
def regs1 : List (Reg Nat Nat Nat Pay Box) := [tree, shifted "tree"]

/-- `Tree(7, [Tag(5), Tag(6)])` -/
def heap2 : Heap Nat Nat := [⟨1, 7, [1, 2]⟩, ⟨2, 5, []⟩, ⟨2, 6, []⟩]
def regs2 : List (Reg Nat Nat Nat Pay Box) := [tree, tag "item_index"]

end Ex

/-- **C54 is violated** by registrations with the same base type: both are accepted and each loader alone is right, but objects of the class
registered first are loaded by the loader registered last, without an exception. -/
theorem C54_violated_base : ∃ t file b L, registerAll Ex.core Ex.regs1 = .ok t ∧ (∀ r ∈ Ex.regs1, LoaderOk Ex.core Ex.shares r ∧ Apart Ex.isSub r) ∧
    PickleOk Ex.core Ex.shares ∧ dumpTop (t.loaders Ex.core) 5 Ex.heap1 0 = .ok file ∧ loadTop (t.loaders Ex.core) id 5 file = .ok (b, L) ∧
    ¬ Copy Ex.shares Ex.heap1 L b 0 := by
  obtain ⟨file, hf⟩ := Ex.ok_of (x := dumpTop ((Ex.tables Ex.regs1).loaders Ex.core) 5 Ex.heap1 0) (by decide +kernel)
  have hl : (dumpTop ((Ex.tables Ex.regs1).loaders Ex.core) 5 Ex.heap1 0 >>= fun file => loadTop ((Ex.tables Ex.regs1).loaders Ex.core) id 5 file).toOption =
      some (0, [⟨1, 6, []⟩]) := by decide +kernel
  rw [hf] at hl
  refine ⟨Ex.tables Ex.regs1, file, 0, [⟨1, 6, []⟩], Ex.registered ?_, ?_, Ex.pickle_ok, hf, Ex.of_toOption hl, Ex.not_copy ⟨1, 7, []⟩ ⟨1, 6, []⟩ rfl rfl (by decide)⟩
  · intro r hr
    simp only [Ex.regs1, List.mem_cons, List.not_mem_nil, or_false] at hr
    rcases hr with rfl | rfl <;> exact ⟨by decide, by decide⟩
  · intro r hr
    simp only [Ex.regs1, List.mem_cons, List.not_mem_nil, or_false] at hr
    rcases hr with rfl | rfl
    · exact ⟨Ex.tree_ok, Ex.tree_apart⟩
    · exact ⟨Ex.shifted_ok _, Ex.shifted_apart _⟩

/-- **C54 is violated** by attributes with the same name: the attributes that a dump function gives to its sub items are written over those
that the dump function of the sub item has set.  Both loaders are right alone and have different base types, but the tags are loaded with the
numbers of their positions. -/
theorem C54_violated_attr : ∃ t file b L, registerAll Ex.core Ex.regs2 = .ok t ∧ (∀ r ∈ Ex.regs2, LoaderOk Ex.core Ex.shares r) ∧
    (Ex.regs2.Pairwise fun r r' => r.base ≠ r'.base) ∧ PickleOk Ex.core Ex.shares ∧
    dumpTop (t.loaders Ex.core) 5 Ex.heap2 0 = .ok file ∧ loadTop (t.loaders Ex.core) id 5 file = .ok (b, L) ∧ ¬ Copy Ex.shares Ex.heap2 L b 0 := by
  obtain ⟨file, hf⟩ := Ex.ok_of (x := dumpTop ((Ex.tables Ex.regs2).loaders Ex.core) 5 Ex.heap2 0) (by decide +kernel)
  have hl : (dumpTop ((Ex.tables Ex.regs2).loaders Ex.core) 5 Ex.heap2 0 >>= fun file => loadTop ((Ex.tables Ex.regs2).loaders Ex.core) id 5 file).toOption =
      some (2, [⟨2, 0, []⟩, ⟨2, 1, []⟩, ⟨1, 7, [0, 1]⟩]) := by decide +kernel
  rw [hf] at hl
  refine ⟨Ex.tables Ex.regs2, file, 2, _, Ex.registered ?_, ?_, by simp [Ex.regs2, Ex.tree, Ex.tag], Ex.pickle_ok, hf, Ex.of_toOption hl,
    Ex.not_copy_item (z := 1) (zs := [2]) (w := 0) (ws := [1]) ⟨1, 7, [1, 2]⟩ ⟨1, 7, [0, 1]⟩ ⟨2, 5, []⟩ ⟨2, 0, []⟩ rfl rfl rfl rfl rfl rfl (by decide)⟩
  · intro r hr
    simp only [Ex.regs2, List.mem_cons, List.not_mem_nil, or_false] at hr
    rcases hr with rfl | rfl <;> exact ⟨by decide, by decide⟩
  · intro r hr
    simp only [Ex.regs2, List.mem_cons, List.not_mem_nil, or_false] at hr
    rcases hr with rfl | rfl
    · exact Ex.tree_ok
    · exact Ex.tag_ok _

end Verif.Custom
