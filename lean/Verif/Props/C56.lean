import Verif.Props.C54
import Verif.Hickle.CustomWork
/-!
# C56 The work of dump and load grows with the objects, not with the paths between them

A graph of `n` objects that each refer twice to the next has `2 ^ n` paths.
-/
namespace Verif.Custom

variable {C D V P K : Type} [DecidableEq C]

/-- **C56 (dump, partial).**  A dump makes at most as many nodes as the objects have sub items, and one more for the object given to it: `sz y` bounds the sub items of object `y`,
and each object counts once however often it is referred to.  The objects of `s'.heap` are those there were and those that dump functions made.
What is missing: classes with sub items that are registered with `memoise = False`, for which this is false (`C56_violated`). -/
theorem C56_dump_partial {L : Loaders C D V P K} (hkeep : ∀ H o m, (L.entry o.cls).create H o = .ok m → H <+: m.heap) {H : Heap C D} {fuel a : Nat} {s' : DState C D V P}
    (h : dump L fuel a none "data" [] ⟨H, [], []⟩ = .ok s') {sz : Nat → Nat} (hsz : Sized L s'.heap sz) :
    dumpTop L fuel H a = .ok s'.file ∧ s'.file.length ≤ 1 + ((List.range s'.heap.length).map sz).sum := by
  refine ⟨by simp [dumpTop, h, Except.map], ?_⟩
  obtain ⟨new, ad⟩ := dump_adds hkeep hsz fuel a none "data" [] _ _ h ⟨by simp [keys], by simp [keys]⟩ List.prefix_rfl
  have h1 := ad.file
  have hk : (keys s').Perm new := by have := ad.keys; simpa [keys] using this
  have := sumOf_le sz (l := new) (r := List.range s'.heap.length) (hk.nodup_iff.1 ad.ok.nodup) fun y hy => List.mem_range.2 (ad.ok.lt y (hk.mem_iff.2 hy))
  simp only [sumOf] at this h1
  simp at h1
  omega

/-- **C56 (load).**  A load makes no node into an object twice, and calls `_load` at most once for each node of the file and once more for each reference.
The hypotheses are those of `C54_partial`. -/
theorem C56_load_partial {core : Core C D V P K} (hobj : core.mro core.object = [core.object]) {shares : C → Prop}
    {regs : List (Reg C D V P K)} {t : Tables C D V P K} (hreg : registerAll core regs = .ok t)
    (hok : ∀ r ∈ regs, LoaderOk core shares r) (hpk : PickleOk core shares)
    (hbase : regs.Pairwise fun r r' => r.base ≠ r'.base) {isSub : String → Prop} (hap : ∀ r ∈ regs, Apart isSub r)
    {H : Heap C D} {a k : Nat} (hdeep : ∀ Hf, H <+: Hf → Deep (t.loaders core) Hf k a)
    {fuel : Nat} {file : File C V P} (hdump : dumpTop (t.loaders core) fuel H a = .ok file)
    {order : List (String × Nat) → List (String × Nat)} (hord : ∀ l, (order l).Perm l) {f : Nat} (hf : 2 * k ≤ f) :
    ∃ b s w, loadW (t.loaders core) file order f 0 ⟨[], []⟩ ⟨0, []⟩ = .ok (b, s, w) ∧ loadTop (t.loaders core) order f file = .ok (b, s.heap) ∧
      w.made.Nodup ∧ w.calls ≤ file.length + refs file :=
  load_work (contract (good := fun _ => True) (fits := fun _ => True) hobj hbase (fun r hr => (hok r hr).all _) (fun _ _ _ _ _ => trivial) hap hreg (fun _ _ _ _ _ _ _ => trivial) fun H a o p _ ho _ hp => hpk H a o p ho hp) trivial hdeep hdump hord hf

/-! ### the hypotheses hold of a graph with many paths -/

namespace Ex

/-- `n` trees that each refer twice to the next one, and the last one -/
def chain (n : Nat) : Heap Nat Nat := (List.range n).map (fun i => ⟨1, i, [i + 1, i + 1]⟩) ++ [⟨1, n, []⟩]

theorem chain_length (n : Nat) : (chain n).length = n + 1 := by simp [chain]

theorem chain_lt {n i : Nat} (h : i < n) : (chain n)[i]? = some ⟨1, i, [i + 1, i + 1]⟩ := by
  unfold chain
  rw [List.getElem?_append_left (by simp [h])]
  simp [h]

theorem chain_last (n : Nat) : (chain n)[n]? = some ⟨1, n, []⟩ := by
  unfold chain
  rw [List.getElem?_append_right (by simp)]
  simp

theorem chain_at {n y : Nat} {o : Obj Nat Nat} (h : (chain n)[y]? = some o) : ∀ z ∈ o.kids, z = y + 1 ∧ y < n := by
  intro z hz
  have hy : y < n + 1 := by rw [← chain_length]; exact lt_of_some h
  rcases Nat.lt_or_ge y n with hn | hn
  · rw [chain_lt hn] at h; simp at h; subst h; simp at hz; exact ⟨hz, hn⟩
  · have : y = n := by omega
    subst this
    rw [chain_last] at h; simp at h; subst h; simp at hz

theorem chain_closed (n : Nat) : Closed (chain n) := by
  intro y o h z hz
  obtain ⟨rfl, h2⟩ := chain_at h z hz
  rw [chain_length]; omega

/-- the loaders after registration of trees -/
def treeLoaders : Loaders Nat Nat Nat Pay Box := (tables [tree]).loaders core

theorem tree_registered : registerAll core [tree] = .ok (tables [tree]) := registered (by intro r hr; simp at hr; subst hr; decide)

theorem tree_entry {H : Heap Nat Nat} {o : Obj Nat Nat} {m} (h : (treeLoaders.entry o.cls).create H o = .ok m) : m.heap = H ∧ m.subs = subsOf 0 o.kids ∧ (treeLoaders.entry o.cls).memoise = true := by
  rcases entry_cases (by simp) tree_registered o.cls with ⟨r, h1, _, h3⟩ | h3
  · simp at h1; subst h1
    simp only [treeLoaders, Tables.loaders, h3, Reg.entry] at h ⊢
    simp only [tree, Except.ok.injEq] at h
    subst h
    exact ⟨rfl, rfl, rfl⟩
  · simp [treeLoaders, Tables.loaders, h3] at h

theorem subsOf_length (i : Nat) (ks : List Nat) : (subsOf i ks).length = ks.length := by
  induction ks generalizing i with
  | nil => rfl
  | cons z ks ih => simp [subsOf, ih]

/-- Twelve objects, 4095 paths: the hypotheses of `C56_dump_partial` hold, and the bound is 25 nodes. -/
example : ∃ s, dump treeLoaders 20 0 none "data" [] ⟨chain 11, [], []⟩ = .ok s ∧ s.file.length ≤ 25 := by
  obtain ⟨s, hs⟩ := ok_of (x := dump treeLoaders 20 0 none "data" [] ⟨chain 11, [], []⟩) (by decide +kernel)
  have hh : s.heap = chain 11 := by
    have h : (dump treeLoaders 20 0 none "data" [] ⟨chain 11, [], []⟩).toOption.map (·.heap) = some (chain 11) := by decide +kernel
    rw [hs] at h; simpa [Except.toOption] using h
  refine ⟨s, hs, ?_⟩
  have := (C56_dump_partial (fun H o m h => by rw [(tree_entry h).1]; exact List.prefix_rfl) hs (sz := fun _ => 2) (by
    intro H y o m ho hm hp
    obtain ⟨e1, e2, e3⟩ := tree_entry hm
    refine ⟨?_, fun h => by rw [e3] at h; simp at h⟩
    rw [e1, hh] at hp
    have ho := at_prefix hp ho
    have hy : y < 11 + 1 := by rw [← chain_length]; exact lt_of_some ho
    rw [e2, subsOf_length]
    rcases Nat.lt_or_ge y 11 with hn | hn
    · rw [chain_lt hn] at ho; simp at ho; subst ho; simp
    · have : y = 11 := by omega
      subst this
      rw [chain_last] at ho; simp at ho; subst ho; simp)).2
  rw [hh, chain_length] at this
  exact this

/-- The hypotheses of `C56_load_partial` hold of this graph: no more than 34 calls of `_load`. -/
example : ∃ file b s w, dumpTop treeLoaders 20 (chain 11) 0 = .ok file ∧ loadW treeLoaders file List.reverse 24 0 ⟨[], []⟩ ⟨0, []⟩ = .ok (b, s, w) ∧ w.made.Nodup ∧ w.calls ≤ 34 := by
  obtain ⟨file, hf⟩ := ok_of (x := dumpTop treeLoaders 20 (chain 11) 0) (by decide +kernel)
  have hn : (dumpTop treeLoaders 20 (chain 11) 0).toOption.map (fun f => (f.length, refs f)) = some (23, 11) := by decide +kernel
  rw [hf] at hn
  simp [Except.toOption] at hn
  obtain ⟨b, s, w, h1, _, h2, h3⟩ := C56_load_partial (core := core) (shares := shares) rfl tree_registered (by intro r hr; simp at hr; subst hr; exact tree_ok) pickle_ok (by simp)
    (isSub := isSub) (by intro r hr; simp at hr; subst hr; exact tree_apart) (H := chain 11) (a := 0) (k := 12)
    (fun Hf hp => Deep.of_rank (L := treeLoaders) (fun H o m h => by
        obtain ⟨e1, e2, _⟩ := tree_entry h
        rw [e1, e2]; exact ⟨List.prefix_rfl, fun sub hs => subsOf_kids hs⟩) (chain_closed 11) (rank := fun y => 11 - y)
        (by intro y o ho z hz; obtain ⟨rfl, h⟩ := chain_at ho z hz; omega) hp 12 0 (by decide) (by decide))
    hf (order := List.reverse) List.reverse_perm (f := 24) (by decide)
  refine ⟨file, b, s, w, hf, h1, h2, ?_⟩
  omega

end Ex

/-! ### classes that are not remembered -/

namespace Ex

/-- trees registered with `memoise = False` -/
def loose : Reg Nat Nat Nat Pay Box := { tree with memoise := false }

/-- the loaders after this registration -/
def looseLoaders : Loaders Nat Nat Nat Pay Box := (tables [loose]).loaders core

/-- the node of a tree -/
def treeNode (parent : Option Nat) (name : String) (attrs : Attrs Nat) (o : Obj Nat Nat) : Node Nat Nat Pay :=
  ⟨parent, name, .obj (some 1) "tree" (.plain o.data o.kids.length) (nodeAttrs [] attrs)⟩

theorem loose_step {H : Heap Nat Nat} {i fuel : Nat} {parent : Option Nat} {name : String} {attrs : Attrs Nat} {file : File Nat Nat Pay} {o : Obj Nat Nat} (ho : H[i]? = some o) (hc : o.cls = 1)
    (hfresh : ∀ nd ∈ file, nd.parent = parent → nd.name ≠ name) : dump looseLoaders (fuel + 1) i parent name attrs ⟨H, file, []⟩ =
      each (fun sub => dump looseLoaders fuel sub.addr (some file.length) sub.name sub.attrs) (subsOf 0 o.kids) ⟨H, file ++ [treeNode parent name attrs o], []⟩ := by
  obtain ⟨c, d, ks⟩ := o
  simp only at hc
  subst hc
  have e : looseLoaders.entry 1 = loose.entry := rfl
  have hpush : push (⟨H, file, []⟩ : DState Nat Nat Nat Pay) (treeNode parent name attrs ⟨1, d, ks⟩) = .ok ⟨H, file ++ [treeNode parent name attrs ⟨1, d, ks⟩], []⟩ := by
    unfold push
    rw [if_neg]
    simp only [List.any_eq_true, Bool.and_eq_true, beq_iff_eq, not_exists, not_and]
    intro m hm e
    exact hfresh m hm e
  simp only [treeNode] at hpush
  simp only [dump, Assoc.get?_nil, ho, e, Reg.entry, loose, tree, hpush, remember, Bool.false_eq_true, if_false, treeNode]

theorem loose_dump (n d : Nat) : ∀ (i fuel : Nat) (parent : Option Nat) (name : String) (attrs : Attrs Nat) (file : File Nat Nat Pay), i + d = n → d < fuel →
    (∀ nd ∈ file, nd.parent = parent → nd.name ≠ name) → (∀ nd ∈ file, ∀ g, nd.parent = some g → g < file.length) → (∀ g, parent = some g → g < file.length) →
    ∃ nd rest, dump looseLoaders fuel i parent name attrs ⟨chain n, file, []⟩ = .ok ⟨chain n, file ++ nd :: rest, []⟩ ∧ nd.parent = parent ∧ nd.name = name ∧
      (∀ m ∈ rest, ∃ g, m.parent = some g ∧ file.length ≤ g ∧ g < file.length + 1 + rest.length) ∧ rest.length + 2 = 2 ^ (d + 1) := by
  induction d with
  | zero =>
    intro i fuel parent name attrs file hi hfuel hfresh hpar hp
    obtain ⟨fuel, rfl⟩ : ∃ f, fuel = f + 1 := ⟨fuel - 1, by omega⟩
    have : i = n := by omega
    subst this
    refine ⟨treeNode parent name attrs ⟨1, i, []⟩, [], ?_, rfl, rfl, by simp, by simp⟩
    rw [loose_step (chain_last i) rfl hfresh]
    rfl
  | succ d ih =>
    intro i fuel parent name attrs file hi hfuel hfresh hpar hp
    obtain ⟨fuel, rfl⟩ : ∃ f, fuel = f + 1 := ⟨fuel - 1, by omega⟩
    rw [loose_step (chain_lt (show i < n by omega)) rfl hfresh]
    generalize hnd : treeNode parent name attrs ⟨1, i, [i + 1, i + 1]⟩ = nd
    have hnp : nd.parent = parent := by rw [← hnd]; rfl
    have hnn : nd.name = name := by rw [← hnd]; rfl
    have hpar1 : ∀ m ∈ file ++ [nd], ∀ g, m.parent = some g → g < file.length := by
      intro m hm g hg
      rcases List.mem_append.1 hm with hm | hm
      · exact hpar m hm g hg
      · simp at hm; subst hm; exact hp g (by rw [← hnp]; exact hg)
    obtain ⟨n1, r1, e1, e2, e3, e4, e5⟩ := ih (i + 1) fuel (some file.length) (Nat.repr 0) [("item_index", 0)] (file ++ [nd]) (by omega) (by omega)
      (by intro m hm e; have := hpar1 m hm _ e; omega) (by intro m hm g hg; have := hpar1 m hm g hg; simp; omega) (by simp)
    have hpar2 : ∀ m ∈ file ++ [nd] ++ n1 :: r1, ∀ g, m.parent = some g → g < (file ++ [nd] ++ n1 :: r1).length := by
      intro m hm g hg
      simp only [List.length_append, List.length_cons, List.length_nil] at e4 ⊢
      rcases List.mem_append.1 hm with hm | hm
      · have := hpar1 m hm g hg; omega
      · rcases List.mem_cons.1 hm with rfl | hm
        · rw [e2] at hg; simp at hg; omega
        · obtain ⟨g', h1, _, h3⟩ := e4 m hm
          rw [h1] at hg; simp at hg; omega
    obtain ⟨n2, r2, f1, f2, f3, f4, f5⟩ := ih (i + 1) fuel (some file.length) (Nat.repr 1) [("item_index", 1)] (file ++ [nd] ++ n1 :: r1) (by omega) (by omega)
      (by
        intro m hm e
        rcases List.mem_append.1 hm with hm | hm
        · have := hpar1 m hm _ e; omega
        · rcases List.mem_cons.1 hm with rfl | hm
          · rw [e3]; decide
          · obtain ⟨g', h1, h2, _⟩ := e4 m hm
            rw [h1] at e; simp at e h2; omega) hpar2 (by simp)
    refine ⟨nd, n1 :: r1 ++ n2 :: r2, ?_, hnp, hnn, ?_, ?_⟩
    · simp only [subsOf, each, e1, f1]
      simp
    · intro m hm
      simp only [List.length_append, List.length_cons, List.length_nil] at e4 f4 ⊢
      rcases List.mem_append.1 hm with hm | hm
      · rcases List.mem_cons.1 hm with rfl | hm
        · exact ⟨file.length, e2, by omega, by omega⟩
        · obtain ⟨g', h1, h2, h3⟩ := e4 m hm
          exact ⟨g', h1, by omega, by omega⟩
      · rcases List.mem_cons.1 hm with rfl | hm
        · exact ⟨file.length, f2, by omega, by omega⟩
        · obtain ⟨g', h1, h2, h3⟩ := f4 m hm
          exact ⟨g', h1, by omega, by omega⟩
    · have : 2 ^ (d + 1 + 1) = 2 ^ (d + 1) * 2 := Nat.pow_succ ..
      simp only [List.length_append, List.length_cons]
      omega

end Ex

/-- **C56 is violated** by objects of classes registered with `memoise = False`: `n + 1` objects make `2 ^ (n + 1) - 1` nodes. -/
theorem C56_violated (n : Nat) : (Ex.chain n).length = n + 1 ∧ ∃ file, dumpTop Ex.looseLoaders (n + 1) (Ex.chain n) 0 = .ok file ∧ file.length + 1 = 2 ^ (n + 1) := by
  obtain ⟨nd, rest, h1, _, _, _, h2⟩ := Ex.loose_dump n n 0 (n + 1) none "data" [] [] (by omega) (by omega) (by simp) (by simp) (by simp)
  refine ⟨Ex.chain_length n, nd :: rest, by simp [dumpTop, h1, Except.map], ?_⟩
  simp; omega

end Verif.Custom
