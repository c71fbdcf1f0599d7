import Verif.Props.C54
/-!
# C55 An object that is stored as a pickle string still shares what it shared

Objects of classes without a loader are stored as pickle strings, with everything they refer to (lookup.py:1460-1501).
-/
namespace Verif.Custom

variable {C D V P K : Type}

/-- `y` can be reached from `a` -/
inductive Reach (H : Heap C D) (a : Nat) : Nat → Prop
  | refl : Reach H a a
  | step {y z o} : Reach H a y → H[y]? = some o → z ∈ o.kids → Reach H a z

/-- What Python's pickle does: `loads(dumps(obj))` makes new objects, one (`φ y`) for each object `y` that can be reached from `obj`. -/
def Pickles (core : Core C D V P K) : Prop :=
  ∀ H a p, core.pickle H a = .ok p → ∀ attrs c L0, ∃ (L1 : Heap C D) (φ : Nat → Nat), core.unpickle.convert (core.unpickle.init p attrs c) L0 = .ok (φ a, L1) ∧ L0 <+: L1 ∧
    (∀ y, Reach H a y → ∃ o, H[y]? = some o ∧ L1[φ y]? = some ⟨o.cls, o.data, o.kids.map φ⟩ ∧ L0.length ≤ φ y) ∧
    ∀ y y', Reach H a y → Reach H a y' → φ y = φ y' → y = y'

theorem all2_map {R : Nat → Nat → Prop} {φ : Nat → Nat} (ks : List Nat) (h : ∀ z ∈ ks, R (φ z) z) : All2 R (ks.map φ) ks := by
  induction ks with
  | nil => exact .nil
  | cons z ks ih => exact .cons (h z (by simp)) (ih fun w hw => h w (by simp [hw]))

/-- `y` is inside the pickle string of `a`: it can be reached from `a` through a reference -/
def Inside (H : Heap C D) (a y : Nat) : Prop := ∃ z o, Reach H a z ∧ H[z]? = some o ∧ y ∈ o.kids

theorem Pickles.restores {core : Core C D V P K} (h : Pickles core) {shares : C → Prop} {H : Heap C D} {a : Nat} {o p} (ho : H[a]? = some o) (hp : core.pickle H a = .ok p)
    (hin : ∀ (y : Nat) (q : Obj C D), Inside H a y → H[y]? = some q → ¬ shares q.cls) : Restores shares core.unpickle core.object o ⟨p, [], [], H⟩ := by
  intro Hf hpre R L0 _ attrs _ its hits _
  have : its = [] := by
    have := hits.length_eq
    simpa using this
  subst this
  obtain ⟨L1, φ, h1, h2, h3, _⟩ := h H a p hp attrs core.object L0
  obtain ⟨o1, e1, e2, e3⟩ := h3 a .refl
  rw [ho] at e1; simp at e1; subst e1
  refine ⟨_, φ a, L1, _, rfl, h1, h2, e2, rfl, rfl, all2_map _ ?_, fun _ => e3⟩
  intro z hz
  refine .inr ⟨fun x y => x = φ y ∧ Inside H a y, ⟨rfl, a, o, .refl, ho, hz⟩, ?_⟩
  rintro x y ⟨rfl, u, v, hr, huv, hy⟩
  have hry : Reach H a y := .step hr huv hy
  obtain ⟨q, g1, g2, _⟩ := h3 y hry
  exact ⟨q, _, at_prefix hpre g1, g2, rfl, rfl, all2_map _ fun w hw => .inr ⟨rfl, y, q, hry, g1, hw⟩, hin y q ⟨u, v, hr, huv, hy⟩ g1⟩

variable [DecidableEq C]

/-- **C55 (partial).**  Whatever the pickled objects refer to, load returns an object of the same classes, content and order throughout, inside
and outside of the pickle strings.  Objects of the classes in `shares` are one object where they were one, if none of them is inside of a pickle string:
`good` are heaps without such objects, and it takes in all objects that dump functions make.
What is missing: that objects inside of pickle strings, too, are one object afterwards that were one before.  This is false (`C55_violated`). -/
theorem C55_partial {core : Core C D V P K} (hobj : core.mro core.object = [core.object]) (hpk : Pickles core) {shares : C → Prop}
    {regs : List (Reg C D V P K)} {t : Tables C D V P K} (hreg : registerAll core regs = .ok t) (hok : ∀ r ∈ regs, LoaderOk core shares r)
    (hbase : regs.Pairwise fun r r' => r.base ≠ r'.base) {isSub : String → Prop} (hap : ∀ r ∈ regs, Apart isSub r)
    {good : Heap C D → Prop} (hstay : ∀ r ∈ regs, ∀ H o m, good H → r.create H o = .ok m → good m.heap)
    (hin : ∀ (H : Heap C D) (a : Nat) o, good H → H[a]? = some o → (t.entry core o.cls).create H o = .error .notHicklable →
      ∀ (y : Nat) (q : Obj C D), Inside H a y → H[y]? = some q → ¬ shares q.cls)
    {H : Heap C D} (hgood : good H) (hcl : Closed H) {a k : Nat} (hdeep : ∀ Hf, H <+: Hf → Deep (t.loaders core) Hf k a)
    {fuel : Nat} {file : File C V P} (hdump : dumpTop (t.loaders core) fuel H a = .ok file)
    {order : List (String × Nat) → List (String × Nat)} (hord : ∀ l, (order l).Perm l) {f : Nat} (hf : 2 * k ≤ f) :
    ∃ b L, loadTop (t.loaders core) order f file = .ok (b, L) ∧ Copy shares H L b a :=
  round_trip (contract (fits := fun _ => True) hobj hbase (fun r hr => (hok r hr).all _) (fun _ _ _ _ _ => trivial) hap hreg hstay fun H a o _ hg ho hr hp => hpk.restores ho hp (hin H a o hg ho hr)) hgood hcl hdeep hdump hord hf

/-! ### a concrete pickle -/

namespace Ex

/-- all references go to objects there are -/
def closed (H : Heap Nat Nat) : Bool := H.all fun o => o.kids.all fun z => decide (z < H.length)

/-- a pickle string holds the objects themselves.  Objects that can not be reached from the pickled one are never seen by anyone after load. -/
def deep : Core Nat Nat Nat Pay Box where
  mro := core.mro
  object := 0
  pickle := fun H a => if closed H && decide (a < H.length) then .ok (.blob H a) else .error .picklingError
  unpickle := ⟨fun p _ c => match p with | .blob h a => ⟨c, 0, 0, [], some (h, a)⟩ | .plain d n => ⟨c, d, n, [], none⟩, put, finish⟩
  recover := core.recover

theorem closed_reach {H : Heap Nat Nat} (h : closed H = true) {a : Nat} (ha : a < H.length) {y : Nat} (hr : Reach H a y) : y < H.length := by
  induction hr with
  | refl => exact ha
  | step _ h1 h2 _ =>
    have := List.all_eq_true.1 h _ (List.mem_of_getElem? h1)
    simpa using List.all_eq_true.1 this _ h2

theorem deep_pickles : Pickles deep := by
  intro H a p h attrs c L0
  simp only [deep] at h
  split at h
  · next hc =>
    simp at h; subst h
    simp only [Bool.and_eq_true, decide_eq_true_eq] at hc
    refine ⟨_, (L0.length + ·), rfl, ⟨_, rfl⟩, ?_, ?_⟩
    · intro y hr
      have hy := closed_reach hc.1 hc.2 hr
      refine ⟨H[y], List.getElem?_eq_getElem hy, ?_, by simp⟩
      rw [List.getElem?_append_right (Nat.le_add_right _ _)]
      simp [hy]
    · intro y y' _ _ e
      simpa using e
  · simp at h

theorem loader_ok {r : Reg Nat Nat Nat Pay Box} (h : LoaderOk core shares r) (sh : Nat → Prop) : LoaderOk deep sh r := by
  refine ⟨h.keep, fun H a o m h1 h2 h3 => ?_, fun c h1 _ => h.memo c h1 trivial⟩
  intro Hf hpre R L0 hv attrs hat its hp hit
  obtain ⟨k, x, L1, o', e1, e2, e3, e4, e5, e6, e7, e8⟩ := h.restores H a o m h1 h2 h3 Hf hpre R L0 hv attrs hat its hp hit
  refine ⟨k, x, L1, o', e1, e2, e3, e4, e5, e6, all2_imp e7 fun u v h => ?_, fun _ => e8 trivial⟩
  rcases h with h | ⟨Q, h0, hQ⟩
  · exact .inl h
  · obtain ⟨_, _, _, _, _, _, _, hs⟩ := hQ _ _ h0
    exact (hs trivial).elim

/-- `x = Tree(5, []); Tree(7, [x, Other([x])])`, where the class `Other` is not registered -/
def heap3 : Heap Nat Nat := [⟨1, 7, [1, 2]⟩, ⟨1, 5, []⟩, ⟨5, 9, [1]⟩]
def regs3 : List (Reg Nat Nat Nat Pay Box) := [tree]

theorem heap3_closed : Closed heap3 := by
  intro y o h z hz
  have : ∀ o ∈ heap3, ∀ z ∈ o.kids, z < heap3.length := by decide +kernel
  exact this o (List.mem_of_getElem? h) z hz

/-- how deep references nest below an object -/
def rank3 : Nat → Nat
  | 0 => 2
  | 2 => 1
  | _ => 0

theorem heap3_rank (y : Nat) (o : Obj Nat Nat) (h : heap3[y]? = some o) : ∀ z ∈ o.kids, rank3 z < rank3 y := by
  have : ∀ y : Fin 3, ∀ z ∈ (heap3[y.1]'(y.2)).kids, rank3 z < rank3 y.1 := by decide +kernel
  obtain ⟨hy, e⟩ := List.getElem?_eq_some_iff.1 h
  subst e
  exact this ⟨y, hy⟩

/-- the tables after the registrations -/
def tables3 : Tables Nat Nat Nat Pay Box := ⟨[(1, tree.entry)], [("tree", tree.restorer), ("pickle", deep.unpickle)]⟩

theorem registered3 : registerAll deep regs3 = .ok tables3 := rfl

theorem no_temps3 : ∀ H o m, ((tables3.loaders deep).entry o.cls).create H o = .ok m → H <+: m.heap ∧ ∀ sub ∈ m.subs, sub.addr ∈ o.kids := by
  intro H o m h
  rcases entry_cases (regs := regs3) (by simp [regs3]) registered3 o.cls with ⟨r, h1, _, h3⟩ | h3
  · simp only [Tables.loaders, h3, Reg.entry] at h
    simp only [regs3, List.mem_singleton] at h1
    subst h1
    obtain ⟨e1, e2⟩ := tree_subs _ _ _ h
    rw [e1]; exact ⟨List.prefix_rfl, e2⟩
  · simp [Tables.loaders, h3] at h

/-- The hypotheses of `C55_partial` hold of this graph if no object needs to be shared. -/
example : ∃ file b L, dumpTop (tables3.loaders deep) 10 heap3 0 = .ok file ∧
    loadTop (tables3.loaders deep) List.reverse 6 file = .ok (b, L) ∧ Copy (fun _ => False) heap3 L b 0 := by
  obtain ⟨file, hf⟩ := ok_of (x := dumpTop (tables3.loaders deep) 10 heap3 0) (by decide +kernel)
  obtain ⟨b, L, h1, h2⟩ := C55_partial (core := deep) rfl deep_pickles (shares := fun _ => False) registered3
    (by intro r hr; simp only [regs3, List.mem_singleton] at hr; subst hr; exact loader_ok tree_ok _)
    (by simp [regs3]) (isSub := isSub) (by intro r hr; simp only [regs3, List.mem_singleton] at hr; subst hr; exact tree_apart)
    (good := fun _ => True) (fun _ _ _ _ _ _ _ => trivial) (fun _ _ _ _ _ _ _ _ _ _ h => h) trivial
    heap3_closed (a := 0) (k := 3) (fun Hf hp => Deep.of_rank no_temps3 heap3_closed heap3_rank hp 3 0 (by decide) (by decide))
    hf (order := List.reverse) List.reverse_perm (f := 6) (by decide)
  exact ⟨file, b, L, hf, h1, h2⟩

/-- `x = Tree(5, []); y = Other([Other2()]); Tree(7, [x, y, x, y])` -/
def heap4 : Heap Nat Nat := [⟨1, 7, [1, 2, 1, 2]⟩, ⟨1, 5, []⟩, ⟨5, 9, [3]⟩, ⟨6, 4, []⟩]

/-- objects of `Tree` and `Other` -/
def shares4 (c : Nat) : Prop := c = 1 ∨ c = 5

theorem heap4_closed : Closed heap4 := by
  intro y o h z hz
  have : ∀ o ∈ heap4, ∀ z ∈ o.kids, z < heap4.length := by decide +kernel
  exact this o (List.mem_of_getElem? h) z hz

theorem heap4_rank (y : Nat) (o : Obj Nat Nat) (h : heap4[y]? = some o) : ∀ z ∈ o.kids, rank3 z < rank3 y := by
  have : ∀ y : Fin 4, ∀ z ∈ (heap4[y.1]'(y.2)).kids, rank3 z < rank3 y.1 := by decide +kernel
  obtain ⟨hy, e⟩ := List.getElem?_eq_some_iff.1 h
  subst e
  exact this ⟨y, hy⟩

theorem reach4 {a y : Nat} (h : Reach heap4 a y) (ha : a = 2 ∨ a = 3) : y = a ∨ y = 3 := by
  induction h with
  | refl => exact .inl rfl
  | @step u z o _ h1 h2 ih =>
    have : u = 2 ∨ u = 3 := by omega
    rcases this with rfl | rfl
    · simp [heap4] at h1; subst h1; simp at h2; exact .inr h2
    · simp [heap4] at h1; subst h1; simp at h2

/-- The hypotheses of `C55_partial` hold of this graph, and its objects of `Tree` and `Other` stay shared. -/
example : ∃ file b L, dumpTop (tables3.loaders deep) 10 heap4 0 = .ok file ∧
    loadTop (tables3.loaders deep) List.reverse 6 file = .ok (b, L) ∧ Copy shares4 heap4 L b 0 := by
  obtain ⟨file, hf⟩ := ok_of (x := dumpTop (tables3.loaders deep) 10 heap4 0) (by decide +kernel)
  obtain ⟨b, L, h1, h2⟩ := C55_partial (core := deep) rfl deep_pickles (shares := shares4) registered3
    (by intro r hr; simp only [regs3, List.mem_singleton] at hr; subst hr; exact loader_ok tree_ok _)
    (by simp [regs3]) (isSub := isSub) (by intro r hr; simp only [regs3, List.mem_singleton] at hr; subst hr; exact tree_apart)
    (good := (· = heap4))
    (by rintro r hr _ o m rfl h; simp only [regs3, List.mem_singleton] at hr; subst hr; exact (tree_subs _ _ _ h).1)
    (by
      rintro _ a o rfl ho hc y q ⟨z, q', h1, h2, h3⟩ hq
      have ha : a = 2 ∨ a = 3 := by
        have hlt := (List.getElem?_eq_some_iff.1 ho).1
        simp [heap4] at hlt
        have : a = 0 ∨ a = 1 ∨ a = 2 ∨ a = 3 := by omega
        rcases this with rfl | rfl | h | h
        · simp [heap4] at ho; subst ho; simp [Tables.entry, tables3, deep, core, Assoc.get?, tree, Reg.entry] at hc
        · simp [heap4] at ho; subst ho; simp [Tables.entry, tables3, deep, core, Assoc.get?, tree, Reg.entry] at hc
        · exact .inl h
        · exact .inr h
      have hz : z = 2 ∨ z = 3 := by have := reach4 h1 ha; omega
      have hy : y = 3 := by
        rcases hz with rfl | rfl
        · simp [heap4] at h2; subst h2; simpa using h3
        · simp [heap4] at h2; subst h2; simp at h3
      subst hy
      simp [heap4] at hq; subst hq
      simp [shares4])
    rfl heap4_closed (a := 0) (k := 3) (fun Hf hp => Deep.of_rank no_temps3 heap4_closed heap4_rank hp 3 0 (by decide) (by decide))
    hf (order := List.reverse) List.reverse_perm (f := 6) (by decide)
  exact ⟨file, b, L, hf, h1, h2⟩

end Ex

/-- **C55 is violated**: what an object stored as a pickle string shares with an object outside of it are two objects after load.
The loader of the class and pickle are right alone. -/
theorem C55_violated : Pickles Ex.deep ∧ (∀ r ∈ Ex.regs3, LoaderOk Ex.deep Ex.shares r) ∧ ∃ t file b L, registerAll Ex.deep Ex.regs3 = .ok t ∧
    dumpTop (t.loaders Ex.deep) 10 Ex.heap3 0 = .ok file ∧ loadTop (t.loaders Ex.deep) id 6 file = .ok (b, L) ∧ ¬ Copy Ex.shares Ex.heap3 L b 0 := by
  refine ⟨Ex.deep_pickles, by intro r hr; simp only [Ex.regs3, List.mem_singleton] at hr; subst hr; exact Ex.loader_ok Ex.tree_ok _, Ex.tables3, ?_⟩
  obtain ⟨file, hf⟩ := Ex.ok_of (x := dumpTop (Ex.tables3.loaders Ex.deep) 10 Ex.heap3 0) (by decide +kernel)
  have hl : (dumpTop (Ex.tables3.loaders Ex.deep) 10 Ex.heap3 0 >>= fun file => loadTop (Ex.tables3.loaders Ex.deep) id 6 file).toOption =
      some (4, [⟨1, 5, []⟩, ⟨1, 7, [2, 3]⟩, ⟨1, 5, []⟩, ⟨5, 9, [2]⟩, ⟨1, 7, [0, 3]⟩]) := by decide +kernel
  rw [hf] at hl
  refine ⟨file, 4, _, Ex.registered3, hf, Ex.of_toOption hl, ?_⟩
  rintro ⟨R, h1, h2, h3⟩
  obtain ⟨o, o', e1, e2, _, _, e3⟩ := h2 _ _ h1
  simp [Ex.heap3] at e1 e2
  subst e1 e2
  cases e3 with
  | cons r1 e3 => cases e3 with
    | cons r2 _ =>
      obtain ⟨o, o', e1, e2, _, _, e3⟩ := h2 _ _ r2
      simp [Ex.heap3] at e1 e2
      subst e1 e2
      cases e3 with
      | cons r3 _ =>
        have := (h3 _ _ _ _ ⟨1, 5, []⟩ r1 r3 rfl trivial).2 rfl
        simp at this

end Verif.Custom
