import Verif.Hickle.LoadGood
/-!
# Dump, then load

`Dumped`: the file holds a complete dump of an object.  `dump_dumped`: a successful `_dump`
establishes it.  `Dumped.mono`: it survives everything that leaves its nodes alone.
`Dumped.load`: loading gives a copy of the object.
-/
namespace Verif

variable {P : Nat → Prop}

/-- `H` is the heap `H0` with the objects made for a dump -/
structure Temps (H0 H : Heap) : Prop where
  pre : H0 <+: H
  temps : ∀ (p : Addr) (o : Obj), H0.length ≤ p → H[p]? = some o → TempOk H H0.length p o

/-- Node `m` of the file is the complete dump of object `a` of heap `H0`.  `W` are all (node, object)
pairs of the dump, `H` is `H0` with the objects made for the dump. -/
structure Dumped (env : Env) (H0 H : Heap) (S : Store) (W : Rel) (m : NodeId) (a : Addr) : Prop extends Temps H0 H where
  nodes : ∀ n b, W n b → NodeOk env H0.length H S W n b
  uniq : ∀ n b b', W n b → W n b' → b = b'
  one : ∀ n n' b o, W n b → W n' b → H[b]? = some o → (expected env o.cls).2.memoise = true → n = n'
  root : Child S W m a []

theorem Dumped.mono {env : Env} {H0 H : Heap} {S S' : Store} {W : Rel} {m a} (h : Dumped env H0 H S W m a) (hx : SExt S S')
    (hn : ∀ n b nd, W n b → S[n]? = some nd → S'[n]? = some nd) : Dumped env H0 H S' W m a :=
  { h with
    nodes := fun n b hw => (h.nodes n b hw).mono List.prefix_rfl hx (fun nd => hn n b nd hw) fun _ _ h => h
    root := h.root.mono hx fun _ _ h => h }

/-- everything a successful dump of `a` below `g` leaves behind -/
theorem dump_dumped {c : DCtx} (hE : EnvOk P c.env) (hm : c.mgr.Ok) {fuel : Nat} {a : Addr} {g : NodeId} {name : PyStr} {s s' : DState} {x}
    (hmemo : s.memo = []) (hreg : RegInv P s.reg) (hT : TInv c s) (hcls : ∀ (a : Addr) (o : Obj), s.heap[a]? = some o → GoodCls P c.env o.cls)
    (hg : g ≠ c.table) (h : dumpNode c fuel a g name [] s = (.ok x, s')) :
    ∃ W m ls, Dumped c.env s.heap s'.heap s'.store W m a ∧ (∀ n b, W n b → s.store.length ≤ n ∧ n ≠ c.table) ∧ s.store.length ≤ m ∧
      Frame c.table g s s' ∧ s.store.links g = some ls ∧ s'.store.links g = some (ls ++ [(name, m)]) ∧ TInv c s' ∧ RegInv P s'.reg := by
  have h0 : DInv P c s.heap.length [] [] s :=
    { reg := hreg, tinv := hT, done := by simp, memo := by rw [hmemo]; simp [Assoc.get?]
      memoised := by intro n a o hw; simp [W2] at hw
      uniq := by intro n a o hw; simp [W2] at hw
      lt := by intro n a hw; simp [W2] at hw
      cls := hcls, len := Nat.le_refl _
      temps := fun p o h1 h2 => by have := lt_of_getElem? h2; omega }
  obtain ⟨D, m, ls, d1, _, d3, d4, d5, d6, d7, d8⟩ := dumpNode_spec hE hm fuel a g name [] s s' [] [] x h0 (by simp) hg ⟨by simp, by simp⟩ h
  refine ⟨W2 D [], m, ls, ⟨⟨d4.heap, d1.temps⟩, ?_, d1.uniq, ?_, d8.1⟩, ?_, d7, d4, d5, d6, d1.tinv, d1.reg⟩
  · intro n b hw
    rcases hw with hw | hw
    · exact d1.done n b hw
    · simp at hw
  · intro n n' b o h1 h2 h3 h4
    have e1 := d1.memoised n b o h1 h3 h4
    have e2 := d1.memoised n' b o h2 h3 h4
    rw [e1] at e2; simpa using e2
  · intro n b hw
    refine ⟨?_, (d1.lt n b hw).2.2⟩
    rcases hw with hw | hw
    · exact d3 _ hw (by simp)
    · simp at hw

/-! ### the heap with the temporary objects -/

theorem getElem?_pre {α : Type} {l l' : List α} (h : l <+: l') {i : Nat} (hi : i < l.length) : l'[i]? = l[i]? := by
  obtain ⟨t, rfl⟩ := h
  exact List.getElem?_append_left hi

theorem view_mono {u : Nat → UserCls} {H H' : Heap} (hp : H <+: H') {a : Addr} {v : KV} (h : view u H a = some v) : view u H' a = some v :=
  keyView_mono hp (by have := hp.length_le; omega) h

theorem Distinct.mono {env : Env} {H H' : Heap} (hp : H <+: H') {as : List Addr} (h : Distinct env H as) : Distinct env H' as := by
  refine ⟨fun a ha => ?_, ?_⟩
  · obtain ⟨v, hv⟩ := Option.isSome_iff_exists.1 (h.1 a ha)
    rw [view_mono hp hv]; rfl
  · refine h.2.imp_of_mem ?_
    intro a b ha hb hab v w hv hw
    obtain ⟨v0, hv0⟩ := Option.isSome_iff_exists.1 (h.1 a ha)
    obtain ⟨w0, hw0⟩ := Option.isSome_iff_exists.1 (h.1 b hb)
    rw [view_mono hp hv0] at hv; rw [view_mono hp hw0] at hw
    simp at hv hw; subst hv hw
    exact hab v0 w0 hv0 hw0

theorem NumsOk.mono {H H' : Heap} (hp : H <+: H') {items : List Addr} (hl : ∀ a ∈ items, a < H.length) (h : NumsOk H items) : NumsOk H' items := by
  intro hall a ha b hb o p x v ho hpv
  rw [getElem?_pre hp (hl a ha)] at ho
  rw [getElem?_pre hp (hl b hb)] at hpv
  refine h (fun y hy => ?_) a ha b hb o p x v ho hpv
  have := hall y hy
  rwa [numDt, getElem?_pre hp (hl y hy)] at this

theorem TempIn.isTemp {H : Heap} {base : Nat} {v : Val} {p : Addr} (h : TempIn H base v p) {o : Obj} (ho : H[p]? = some o) : o.val.isTemp = true := by
  cases h with
  | leaf _ h2 h3 => rw [ho] at h2; simp at h2; subst h2; cases h3 <;> rfl
  | row _ h2 => rw [ho] at h2; simp at h2; subst h2; rfl
  | elems _ h2 => rw [ho] at h2; simp at h2; subst h2; rfl

theorem TempOk.isTemp {H : Heap} {base : Nat} {p : Addr} {o : Obj} (h : TempOk H base p o) (ho : H[p]? = some o) : o.val.isTemp = true := by
  rcases h with ⟨k, v, rfl, _⟩ | ⟨a, ow, _, h2⟩
  · rfl
  · exact h2.isTemp ho

/-- the object a temporary object was made for is one of the dumped objects -/
theorem Temps.owner {H0 H : Heap} (h : Temps H0 H) {d : Addr} {o : Obj}
    (hd : H[d]? = some o) (ht : o.val.isTemp = false) : H0[d]? = some o := by
  rcases Nat.lt_or_ge d H0.length with hl | hl
  · rw [← getElem?_pre h.pre hl]; exact hd
  · rw [(h.temps d o hl hd).isTemp hd] at ht; simp at ht

theorem Temps.dict {H0 H : Heap} (h : Temps H0 H) {d : Addr} {cl es}
    (hd : H[d]? = some ⟨cl, .dict es⟩) : H0[d]? = some ⟨cl, .dict es⟩ := h.owner hd rfl

theorem dict_lt {env : Env} {H0 : Heap} (hg : GoodGraph P env H0) {k v d : Addr} {cl es} (h1 : H0[d]? = some ⟨cl, .dict es⟩) (h2 : (k, v) ∈ es) :
    k < H0.length ∧ v < H0.length := by
  have hw := hg.wf d _ h1
  simp only [Val.children, List.mem_flatMap] at hw
  exact ⟨hw k ⟨_, h2, by simp⟩, hw v ⟨_, h2, by simp⟩⟩

/-- what is known of a temporary object -/
theorem Temps.temp {env : Env} {H0 H : Heap} (h : Temps H0 H) (hg : GoodGraph P env H0) {p : Addr} {o : Obj}
    (hp : H0.length ≤ p) (ho : H[p]? = some o) :
    NativeOk o = true ∧ o ≠ ⟨.tuple, .seq []⟩ ∧ o.val.isTemp = true ∧ ∀ x ∈ o.val.children, x < p := by
  have ht := (h.temps p o hp ho).isTemp ho
  rcases h.temps p o hp ho with ⟨k, v, rfl, d, cl, es, h1, h2⟩ | ⟨d, ow, h1, h2⟩
  · have hd := h.dict h1
    have hl := dict_lt hg hd h2
    refine ⟨rfl, by simp, ht, ?_⟩
    intro x hx
    simp [Val.children] at hx
    rcases hx with rfl | rfl <;> omega
  · cases h2 with
    | leaf _ h3 h4 =>
      rw [ho] at h3; simp at h3; subst h3
      generalize ow.val = v at h4
      cases h4 <;> exact ⟨rfl, by simp, ht, by simp [Val.children]⟩
    | row _ h3 h4 h5 h6 =>
      rw [ho] at h3; simp at h3; subst h3
      refine ⟨?_, ?_, ht, h5⟩
      · rcases h4 with rfl | ⟨rfl, _⟩ <;> rfl
      · rcases h4 with rfl | ⟨rfl, h4⟩
        · simp
        · simpa using h4
    | elems _ h3 h4 =>
      rw [ho] at h3; simp at h3; subst h3
      obtain ⟨shape, els, n, i, e1, e2, rfl, e4⟩ := h4
      have hd := h.owner h1 (by rw [e1]; rfl)
      have hmem : ∀ x ∈ (els.drop (i * n)).take n, x < H0.length := fun x hx =>
        hg.wf d ow hd x (by rw [e1]; exact List.mem_of_mem_drop (List.mem_of_mem_take hx))
      refine ⟨rfl, by simp, ht, fun x hx => ?_⟩
      have := hmem x hx; omega

theorem GoodGraph.reach_mono {env : Env} {H0 H : Heap} (hg : GoodGraph P env H0) (hp : H0 <+: H) {a : Addr} (ha : a < H0.length) :
    ∀ y, Reach H a y → Reach H0 a y ∧ y < H0.length := by
  intro y hy
  induction hy with
  | here => exact ⟨.here, ha⟩
  | into _ e1 e2 ih =>
    rw [getElem?_pre hp ih.2] at e1
    exact ⟨.into ih.1 e1 e2, hg.wf _ _ e1 _ e2⟩

theorem GoodGraph.numsIn_mono {env : Env} {H0 H : Heap} (hg : GoodGraph P env H0) (hp : H0 <+: H) {a : Addr} (ha : a < H0.length) (h : NumsIn H0 a) :
    NumsIn H a := by
  intro y o items hy ho hv
  obtain ⟨h1, h2⟩ := hg.reach_mono hp ha y hy
  rw [getElem?_pre hp h2] at ho
  exact (h y o items h1 ho hv).mono hp (fun x hx => hg.wf y o ho x (by rw [hv]; exact hx))

theorem GoodGraph.live_mono {env : Env} {H0 H : Heap} (hg : GoodGraph P env H0) (hp : H0 <+: H) {a : Addr} (ha : a < H0.length) (h : Live env H0 a) :
    Live env H a := by
  intro y o hy ho
  obtain ⟨h1, h2⟩ := hg.reach_mono hp ha y hy
  rw [getElem?_pre hp h2] at ho
  exact h y o h1 ho

theorem Temps.graph {env : Env} {H0 H : Heap} (h : Temps H0 H) (hg : GoodGraph P env H0) :
    GoodGraph P env H := by
  have hlen := h.pre.length_le
  have cases0 : ∀ (b : Addr) (o : Obj), H[b]? = some o → H0[b]? = some o ∨
      (NativeOk o = true ∧ o ≠ ⟨.tuple, .seq []⟩ ∧ o.val.isTemp = true ∧ ∀ x ∈ o.val.children, x < b) := by
    intro b o ho
    rcases Nat.lt_or_ge b H0.length with hl | hl
    · rw [getElem?_pre h.pre hl] at ho; exact .inl ho
    · exact .inr (h.temp hg hl ho)
  have hseq : ∀ {b : Addr} {o : Obj} {items : List Addr}, H0[b]? = some o → (o.val = .seq items ∨ o.val = .set items) → ∀ x ∈ items, x < H0.length := by
    intro b o items ho hv x hx
    refine hg.wf b o ho x ?_
    rcases hv with hv | hv <;> rw [hv] <;> exact hx
  constructor
  · intro b o ho
    rcases cases0 b o ho with h1 | ⟨h1, _⟩
    · exact hg.cls b o h1
    · exact goodCls_native (v := o.val) h1
  · intro b o ho hl
    rcases cases0 b o ho with h1 | ⟨h1, _⟩
    · exact hg.ok b o h1 hl
    · exact objOk_native h1
  · intro b o ho hl
    rcases cases0 b o ho with h1 | ⟨h1, _⟩
    · exact hg.lost b o h1 hl
    · rw [(objOk_native (env := env) h1).live] at hl; simp at hl
  · intro b o ho x hx
    rcases cases0 b o ho with h1 | ⟨_, _, _, h1⟩
    · have := hg.wf b o h1 x hx; omega
    · have := h1 x hx
      have := lt_of_getElem? ho
      omega
  · intro b o items ho hv hl
    rcases cases0 b o ho with h1 | ⟨_, _, h2, _⟩
    · obtain ⟨e1, e2⟩ := hg.nums b o items h1 hv hl
      exact ⟨e1.mono h.pre (hseq h1 (.inr hv)), fun x hx => hg.numsIn_mono h.pre (hseq h1 (.inr hv) x hx) (e2 x hx)⟩
    · rw [hv] at h2; simp [Val.isTemp] at h2
  · intro b o es ho hv hlo k v hkv
    rcases cases0 b o ho with h1 | ⟨_, _, h2, _⟩
    · obtain ⟨cl, val⟩ := o
      simp only at hv; subst hv
      have hl := dict_lt hg h1 hkv
      obtain ⟨e1, e2⟩ := hg.knums b _ es h1 rfl hlo k v hkv
      refine ⟨?_, hg.numsIn_mono h.pre hl.1 e2⟩
      intro o p x w ho hp
      rw [getElem?_pre h.pre hl.1] at ho
      rw [getElem?_pre h.pre hl.2] at hp
      exact e1 o p x w ho hp
    · rw [hv] at h2; simp [Val.isTemp] at h2
  · intro b o items ho hv hl
    rcases cases0 b o ho with h1 | ⟨_, _, h2, _⟩
    · obtain ⟨e1, e2⟩ := hg.sets b o items h1 hv hl
      exact ⟨e1.mono h.pre, fun x hx => hg.live_mono h.pre (hseq h1 (.inr hv) x hx) (e2 x hx)⟩
    · rw [hv] at h2; simp [Val.isTemp] at h2
  · intro b o es ho hv hlo
    rcases cases0 b o ho with h1 | ⟨_, _, h2, _⟩
    · obtain ⟨cl, val⟩ := o
      simp only at hv; subst hv
      obtain ⟨hd, hk⟩ := hg.keys b _ es h1 rfl hlo
      refine ⟨hd.mono h.pre, fun k v hkv => ?_⟩
      have hl := dict_lt hg h1 hkv
      refine ⟨hg.live_mono h.pre hl.1 (hk k v hkv).1, fun q hq => (hk k v hkv).2 q ?_⟩
      rw [← getElem?_pre h.pre hl.1]; exact hq
    · rw [hv] at h2; simp [Val.isTemp] at h2
  · intro b o d i p sh ho hv x hx
    rcases cases0 b o ho with h1 | ⟨_, _, h2, _⟩
    · obtain ⟨t, shape, l, e⟩ := hg.sparse b o d i p sh h1 hv x hx
      exact ⟨t, shape, l, by rw [getElem?_pre h.pre (lt_of_getElem? e)]; exact e⟩
    · rw [hv] at h2; simp [Val.isTemp] at h2
  · intro b o sh items ho hv
    rcases cases0 b o ho with h1 | ⟨_, _, h2, _⟩
    · obtain ⟨⟨g1, g2⟩, g3⟩ := hg.oarrs b o sh items h1 hv
      refine ⟨⟨fun x hx => ?_, fun n hn i hi => ?_⟩, fun x hx q hq => ?_⟩
      · obtain ⟨q, e1, e2⟩ := g1 x hx
        exact ⟨q, by rw [getElem?_pre h.pre (lt_of_getElem? e1)]; exact e1, e2⟩
      · obtain ⟨x, hx, e⟩ := g2 n hn i hi
        refine ⟨x, hx, ?_⟩
        obtain ⟨q, e1, _⟩ := g1 x (List.mem_of_mem_drop (List.mem_of_mem_take hx))
        rw [numDt, getElem?_pre h.pre (lt_of_getElem? e1)]; exact e
      · obtain ⟨_, e1, _⟩ := g1 x hx
        rw [getElem?_pre h.pre (lt_of_getElem? e1)] at hq
        exact g3 x hx q hq
    · rw [hv] at h2; simp [Val.isTemp] at h2
  · intro b b' h1 h2
    rcases cases0 b _ h1 with k1 | ⟨_, he, _⟩
    · rcases cases0 b' _ h2 with k2 | ⟨_, he, _⟩
      · exact hg.unit b b' k1 k2
      · exact absurd rfl he
    · exact absurd rfl he

theorem GoodGraph.toHeap {env : Env} {H : Heap} (h : GoodGraph P env H) (hl : ∀ (a : Addr) (o : Obj), H[a]? = some o → o.lost env = false) :
    GoodHeap P env H where
  cls a o ho := ⟨h.cls a o ho, h.ok a o ho (hl a o ho)⟩
  wf := h.wf
  nums a o items ho hv := h.nums a o items ho hv (hl a o ho)
  knums a o es ho hv := h.knums a o es ho hv (hl a o ho)
  sets a o items ho hv := (h.sets a o items ho hv (hl a o ho)).1
  keys a o es ho hv := ⟨(h.keys a o es ho hv (hl a o ho)).1,
    fun k v hk => ((h.keys a o es ho hv (hl a o ho)).2 k v hk).2⟩
  sparse := h.sparse
  oarrs a o sh items ho hv := (h.oarrs a o sh items ho hv).1
  unit := h.unit

theorem Dumped.good {env : Env} {H0 H : Heap} {S : Store} {W : Rel} {m a} (h : Dumped env H0 H S W m a) (hg : GoodHeap P env H0) :
    GoodHeap P env H := by
  refine (h.graph hg.toGraph).toHeap fun b o ho => ?_
  rcases Nat.lt_or_ge b H0.length with hl | hl
  · rw [getElem?_pre h.pre hl] at ho; exact (hg.cls b o ho).2.live
  · exact (objOk_native (env := env) (h.temp hg.toGraph hl ho).1).live

/-- maximum of some ranks -/
def maxOf (l : List Nat) : Nat := l.foldr max 0

theorem le_maxOf {l : List Nat} {x : Nat} (h : x ∈ l) : x ≤ maxOf l := by
  induction l with
  | nil => simp at h
  | cons y l ih =>
    simp only [maxOf, List.foldr_cons] at ih ⊢
    rcases List.mem_cons.1 h with rfl | h
    · omega
    · have := ih h; omega

theorem maxOf_le {l : List Nat} {b : Nat} (h : ∀ x ∈ l, x ≤ b) : maxOf l ≤ b := by
  induction l with
  | nil => simp [maxOf]
  | cons y l ih =>
    have h1 := h y (by simp)
    have h2 := ih fun x hx => h x (by simp [hx])
    simp only [maxOf, List.foldr_cons] at h2 ⊢
    omega

/-- rank of all objects, the temporary ones included: a temporary object ranks above its items and below the object
it was made for -/
def extRank (H0 H : Heap) (rk : Addr → Nat) (p : Addr) : Nat :=
  if p < H0.length then (H.length + 2) * (rk p + 1)
  else match H[p]? with
    | some ⟨_, .seq rows⟩ => 1 + maxOf (rows.map fun r => if r < p then extRank H0 H rk r else 0)
    | _ => 1
termination_by p

theorem extRank_old {H0 H : Heap} {rk : Addr → Nat} {p : Addr} (h : p < H0.length) : extRank H0 H rk p = (H.length + 2) * (rk p + 1) := by
  rw [extRank, if_pos h]

theorem extRank_seq {H0 H : Heap} {rk : Addr → Nat} {p : Addr} (h : H0.length ≤ p) {cl : Cls} {rows : List Addr} (hp : H[p]? = some ⟨cl, .seq rows⟩) :
    extRank H0 H rk p = 1 + maxOf (rows.map fun r => if r < p then extRank H0 H rk r else 0) := by
  rw [extRank, if_neg (by omega), hp]

theorem extRank_leaf {H0 H : Heap} {rk : Addr → Nat} {p : Addr} (h : H0.length ≤ p) {o : Obj} (hp : H[p]? = some o) (ho : ∀ items, o.val ≠ .seq items) :
    extRank H0 H rk p = 1 := by
  rw [extRank, if_neg (by omega), hp]
  obtain ⟨cl, v⟩ := o
  cases v <;> first | rfl | exact absurd rfl (ho _)

theorem rank_step {n a b : Nat} (h : a < b) : (n + 2) * (a + 1) + (n + 2) ≤ (n + 2) * (b + 1) := by
  have : (n + 2) * (a + 1) + (n + 2) = (n + 2) * (a + 1 + 1) := by rw [Nat.mul_succ (n + 2) (a + 1)]
  rw [this]
  exact Nat.mul_le_mul_left _ (by omega)

/-- rank of a nested sequence whose elements rank below `k` -/
theorem nested_rank {H0 H : Heap} {rk : Addr → Nat} {cl : Cls} {k : Nat} : ∀ {sh : List Nat} {ls : List Leaf} {p : Addr}, Nested H0.length H cl sh ls p →
    (∀ o, Leaf.obj o ∈ ls → ∀ items, o.val ≠ .seq items) → (∀ x, Leaf.addr x ∈ ls → x < H0.length ∧ rk x < k) →
    extRank H0 H rk p ≤ (H.length + 2) * k + (p - H0.length + 1) := by
  intro sh
  induction sh with
  | nil =>
    rintro ls p ⟨l, rfl, hl⟩ h1 h2
    cases l with
    | addr x =>
      rw [show p = x from hl]
      obtain ⟨e1, e2⟩ := h2 x (by simp)
      rw [extRank_old e1]
      have := Nat.mul_le_mul_left (H.length + 2) (show rk x + 1 ≤ k by omega)
      omega
    | obj o =>
      rw [extRank_leaf hl.1 hl.2 (h1 o (by simp))]
      omega
  | cons n sh ih =>
    rintro ls p ⟨hb, rows, lss, e1, _, rfl, e4⟩ h1 h2
    rw [extRank_seq hb e1]
    have : maxOf (rows.map fun r => if r < p then extRank H0 H rk r else 0) ≤ (H.length + 2) * k + (p - H0.length) := by
      refine maxOf_le ?_
      intro x hx
      obtain ⟨r, hr, rfl⟩ := List.mem_map.1 hx
      obtain ⟨l, hl, hn⟩ := e4.mem hr
      have := ih hn (fun o ho => h1 o (List.mem_flatten.2 ⟨l, hl, ho⟩)) (fun x hx => h2 x (List.mem_flatten.2 ⟨l, hl, hx⟩))
      by_cases hlt : r < p
      · rw [if_pos hlt]
        rcases Nat.lt_or_ge r H0.length with hr' | hr'
        · -- an element
          cases sh with
          | nil =>
            obtain ⟨lf, rfl, hlf⟩ := hn
            cases lf with
            | addr y =>
              rw [show r = y from hlf]
              obtain ⟨e1, e2⟩ := h2 y (List.mem_flatten.2 ⟨_, hl, by simp⟩)
              rw [extRank_old e1]
              have := Nat.mul_le_mul_left (H.length + 2) (show rk y + 1 ≤ k by omega)
              omega
            | obj o => have := hlf.1; omega
          | cons m sh => have := hn.1; omega
        · omega
      · rw [if_neg hlt]; omega
    omega

theorem Dumped.ranked {env : Env} {H0 H : Heap} {S : Store} {W : Rel} {m a} (h : Dumped env H0 H S W m a) (hg : GoodGraph P env H0)
    {rk : Addr → Nat} (hr : Ranked H0 rk) : Ranked H (extRank H0 H rk) ∧
      (∀ (d p k v : Addr) cl es, H[d]? = some ⟨cl, .dict es⟩ → (k, v) ∈ es → H0.length ≤ p →
        H[p]? = some ⟨.tuple, .seq [k, v]⟩ → extRank H0 H rk p < extRank H0 H rk d) ∧
      ∀ (d p : Addr) (o : Obj) cl sh ls, H[d]? = some o → o.val.isTemp = false → NestOf o.val cl sh ls → Nested H0.length H cl sh ls p → extRank H0 H rk p < extRank H0 H rk d := by
  refine ⟨?_, ?_, ?_⟩
  · intro b o ho x hx
    rcases Nat.lt_or_ge b H0.length with hl | hl
    · rw [getElem?_pre h.pre hl] at ho
      rw [extRank_old hl, extRank_old (hg.wf b o ho x hx)]
      have := rank_step (n := H.length) (hr b o ho x hx)
      omega
    · obtain ⟨_, _, h3, h4⟩ := h.temp hg hl ho
      obtain ⟨cl, v⟩ := o
      cases v <;> simp [Val.isTemp] at h3 <;> simp [Val.children] at hx
      rw [extRank_seq hl ho]
      have := le_maxOf (List.mem_map_of_mem (f := fun r => if r < b then extRank H0 H rk r else 0) hx)
      rw [if_pos (h4 x hx)] at this
      omega
  · intro d p k v cl es h1 h2 h3 h4
    have h1' := h.dict h1
    have hl := dict_lt hg h1' h2
    have hr' := hr d _ h1'
    simp only [Val.children, List.mem_flatMap] at hr'
    have r1 := rank_step (n := H.length) (hr' k ⟨_, h2, by simp⟩)
    have r2 := rank_step (n := H.length) (hr' v ⟨_, h2, by simp⟩)
    rw [extRank_seq h3 h4, extRank_old (lt_of_getElem? h1')]
    simp only [List.map_cons, List.map_nil, maxOf, List.foldr_cons, List.foldr_nil, if_pos (show k < p by omega), if_pos (show v < p by omega),
      extRank_old hl.1, extRank_old hl.2]
    omega
  · intro d p o cl sh ls h1 h0 h2 h3
    obtain ⟨h2, -⟩ := h2
    have hp : p < H.length := by
      cases sh with
      | cons n sh => obtain ⟨_, rows, lss, e, _⟩ := h3; exact lt_of_getElem? e
      | nil =>
        obtain ⟨l, rfl, hl⟩ := h3
        generalize hls : [l] = ls at h2
        cases h2 with
        | objs _ _ e =>
          cases l with
          | obj q => exact lt_of_getElem? hl.2
          | addr x =>
            have : Leaf.addr x ∈ [Leaf.addr x] := by simp
            rw [hls] at this
            simp at this
        | addrs _ _ e => simp at e
    have hd : H0[d]? = some o := h.owner h1 h0
    have := nested_rank (rk := rk) (k := rk d) h3 (by
      intro q hq items hi
      cases h2 with
      | objs _ e1 _ =>
        simp only [List.mem_map] at hq
        obtain ⟨q', e, e'⟩ := hq
        simp at e'; subst e'
        have := e1 _ e
        generalize o.val = v at this
        cases this <;> simp at hi
      | addrs => simp only [List.mem_map] at hq; obtain ⟨_, _, e⟩ := hq; simp at e) (by
      intro x hx
      cases h2 with
      | objs => simp at hx
      | @addrs shape items n off _ e1 e2 e3 e4 e5 =>
        simp only [List.mem_map, Leaf.addr.injEq, exists_eq_right] at hx
        have hx' : x ∈ o.val.children := by rw [e1]; exact List.mem_of_mem_drop (List.mem_of_mem_take hx)
        exact ⟨hg.wf d o hd x hx', hr d o hd x hx'⟩)
    rw [extRank_old (lt_of_getElem? hd), Nat.mul_succ]
    omega

/-! ### loading -/

/-- state a load starts with; `tc`: what the manager read from the types table when it was created -/
def loadInit (tc : List (NodeId × TypeInfo)) (reg : Registry) : LState := { heap := loadHeap, tcache := tc, reg := reg }

/-- what a manager knows of the types table agrees with the table -/
def TcOk (env : Env) (S : Store) (tc : List (NodeId × TypeInfo)) : Prop :=
  ∀ e ti cls, Assoc.get? tc e = some ti → EntryOk env S cls e → ti = typeInfo env cls

/-- restriction of the copy of a value to the objects of the original heap -/
theorem ValCopy.restrict {H0 H : Heap} {R Q : Addr → Addr → Prop} {N : DT → Addr → Addr → Prop} (hp : H0 <+: H) {val' val : Val}
    (hch : ∀ x ∈ val.children, x < H0.length) (h : ValCopy H R N Q val' val) :
    ValCopy H0 (fun x c => R x c ∧ c < H0.length) (fun d x c => N d x c ∧ c < H0.length) (fun x c => Q x c ∧ c < H0.length) val' val := by
  have items : ∀ {r : Addr → Addr → Prop} {xs as : List Addr}, All2 r xs as → (∀ y ∈ as, y < H0.length) → All2 (fun x c => r x c ∧ c < H0.length) xs as := by
    intro r xs as hall
    induction hall with
    | nil => intro _; exact .nil
    | cons q1 _ ih => intro hy; exact .cons ⟨q1, hy _ (by simp)⟩ (ih fun y hyy => hy y (by simp [hyy]))
  have itemsCopy : ∀ {xs as : List Addr}, ItemsCopy H R N xs as → (∀ y ∈ as, y < H0.length) →
      ItemsCopy H0 (fun x c => R x c ∧ c < H0.length) (fun d x c => N d x c ∧ c < H0.length) xs as := by
    intro xs as hic hy
    have hd : ∀ y ∈ as, numDt H y = numDt H0 y := fun y hyy => by simp only [numDt, getElem?_pre hp (hy y hyy)]
    rcases hic with ⟨q, q2⟩ | ⟨d, ⟨c, q1, q2⟩, q⟩
    · refine .inl ⟨items q hy, q2.imp id ?_⟩
      rintro ⟨c, q1, q2⟩
      exact ⟨c, q1, by rw [← hd c q1]; exact q2⟩
    · exact .inr ⟨d, ⟨c, q1, by rw [← hd c q1]; exact q2⟩, items q hy⟩
  cases h with
  | atom q => exact .atom q
  | seq q => exact .seq (itemsCopy q hch)
  | @set xs as bs q q2 =>
    have hb : ∀ y ∈ bs, y < H0.length := fun y hy => hch y (q2.mem_iff.1 hy)
    exact .set (itemsCopy q hb) q2
  | @dict es' es q =>
    refine .dict ?_
    simp only [Val.children, List.mem_flatMap] at hch
    have hch' : ∀ e ∈ es, e.1 < H0.length ∧ e.2 < H0.length :=
      fun e he => ⟨hch e.1 ⟨e, he, by simp⟩, hch e.2 ⟨e, he, by simp⟩⟩
    clear hch
    induction q with
    | nil => exact .nil
    | cons q1 _ ih =>
      refine .cons ?_ (ih fun e he => hch' e (by simp [he]))
      have hl := hch' _ (List.mem_cons_self ..)
      rcases q1 with ⟨q1, q2⟩ | ⟨⟨o, q1, q3⟩, q2⟩
      · exact .inl ⟨⟨q1, hl.1⟩, q2, hl.2⟩
      · refine .inr ⟨⟨o, by rw [← getElem?_pre hp hl.1]; exact q1, q3⟩, itemsCopy q2 ?_⟩
        intro y hy
        simp only [List.mem_cons, List.not_mem_nil, or_false] at hy
        rcases hy with rfl | rfl
        · exact hl.1
        · exact hl.2
  | oarr q => exact .oarr (items q hch)
  | sparse q1 q2 q3 =>
    simp only [Val.children] at hch
    exact .sparse ⟨q1, hch _ (by simp)⟩ ⟨q2, hch _ (by simp)⟩ ⟨q3, hch _ (by simp)⟩

/-- restriction of a copy to the objects of the original heap -/
theorem CopyBy.restrict {H0 H L : Heap} {R Q : Addr → Addr → Prop} {N : DT → Addr → Addr → Prop} {b a : Addr} (hp : H0 <+: H) (ha : a < H0.length)
    (hw : ∀ (a : Addr) (o : Obj), H0[a]? = some o → ∀ b ∈ o.val.children, b < H0.length) (h : CopyBy H L R N Q b a) : Copy H0 L b a := by
  obtain ⟨h1, h2, h3, h4, h5, h6⟩ := h
  refine ⟨fun x c => R x c ∧ c < H0.length, fun d x c => N d x c ∧ c < H0.length, fun x c => Q x c ∧ c < H0.length, ⟨h1, ha⟩, ?_, ?_, ?_, ?_, ?_⟩
  · rintro x c ⟨hr, hc⟩
    obtain ⟨o, o', e1, e2, e3, e4⟩ := h2 x c hr
    rw [getElem?_pre hp hc] at e1
    exact ⟨o, o', e1, e2, e3, e4.restrict hp (hw c o e1)⟩
  · rintro d x c ⟨hr, hc⟩
    obtain ⟨o, o', e1, e2, e3⟩ := h3 d x c hr
    rw [getElem?_pre hp hc] at e1
    exact ⟨o, o', e1, e2, e3⟩
  · rintro x c ⟨hr, hc⟩
    obtain ⟨o, e1, e2, e3⟩ := h4 x c hr
    rw [getElem?_pre hp hc] at e1
    exact ⟨o, e1, e2, e3⟩
  · rintro x c c' q1 q2
    refine h5 x c c' ?_ ?_
    · rcases q1 with q | q | q
      · exact .inl q.1
      · exact .inr (.inl (q.imp fun _ q => q.1))
      · exact .inr (.inr q.1)
    · rcases q2 with q | q | q
      · exact .inl q.1
      · exact .inr (.inl (q.imp fun _ q => q.1))
      · exact .inr (.inr q.1)
  · rintro x y c o ⟨q1, hc⟩ ⟨q2, _⟩ q3 q4
    exact h6 x y c o q1 q2 (by rw [getElem?_pre hp hc]; exact q3) q4

/-- `b` is what `a` is loaded as when some classes are missing: `R` relates the objects to their copies,
`N` numbers of lists to the numbers they were converted to, `Q` names to the keys they stand for -/
def RecBy (env : Env) (H L : Heap) (R : Addr → Addr → Prop) (N : DT → Addr → Addr → Prop) (Q : Addr → Addr → Prop) (b a : Addr) : Prop :=
  R b a ∧ (∀ x c, R x c → ∃ o o', H[c]? = some o ∧ L[x]? = some o' ∧ CopyOf env H R N Q o' o) ∧
  (∀ d x c, N d x c → ∃ o o', H[c]? = some o ∧ L[x]? = some o' ∧ SameNum d o o') ∧
  (∀ x c, Q x c → ∃ o, H[c]? = some o ∧ L[x]? = some o ∧ o.nameKey = true) ∧
  (∀ x c c', (R x c ∨ (∃ d, N d x c) ∨ Q x c) → (R x c' ∨ (∃ d, N d x c') ∨ Q x c') → c = c') ∧
  (∀ x y c o, R x c → R y c → H[c]? = some o → o.val.hasIdentity = true → x = y)

theorem All2.perm_right {α β : Type} {r : α → β → Prop} {ys zs : List β} (hp : ys.Perm zs) :
    ∀ {xs : List α}, All2 r xs ys → ∃ ws, All2 r ws zs ∧ ws.Perm xs := by
  induction hp with
  | nil => intro xs h; exact ⟨xs, h, .refl _⟩
  | cons a _ ih =>
    intro xs h
    cases h with
    | @cons x _ xs _ h1 h2 =>
      obtain ⟨ws, e1, e2⟩ := ih h2
      exact ⟨x :: ws, .cons h1 e1, e2.cons x⟩
  | swap a b l =>
    intro xs h
    cases h with
    | cons h1 h2 =>
      cases h2 with
      | cons h2 h3 => exact ⟨_, .cons h2 (.cons h1 h3), .swap _ _ _⟩
  | trans _ _ ih1 ih2 =>
    intro xs h
    obtain ⟨ws, e1, e2⟩ := ih1 h
    obtain ⟨us, e3, e4⟩ := ih2 e1
    exact ⟨us, e3, e4.trans e2⟩

/-! ### recovered objects, in terms of the original heap -/

theorem listSubs_zip {env : Env} {H0 H : Heap} {R : Addr → Addr → Prop} (hp : H0 <+: H) {items : List Addr} (hi : ∀ x ∈ items, x < H0.length) :
    ∀ {ms : List (PyStr × Addr × Option Attrs)} {j : Nat}, All2 (RecMember env H R) ms (listSubs j items) →
    All2 (RecItem env H0 fun x c => R x c ∧ c < H0.length) ms (items.zipIdx j) := by
  induction items with
  | nil => intro ms j h; cases h; exact .nil
  | cons a items ih =>
    intro ms j h
    simp only [listSubs] at h
    cases h with
    | cons h1 h2 =>
      refine .cons ?_ (ih (fun x hx => hi x (by simp [hx])) h2)
      obtain ⟨s, b, q, e1, e2, e3, e4, e5, e6⟩ := h1.ex
      simp only [Except.ok.injEq] at e1; subst e1
      have e3 : b = a := e3
      subst e3
      have hb := hi b (by simp)
      rw [getElem?_pre hp hb] at e5
      refine ⟨e2, ⟨e4, hb⟩, q, e5, ?_⟩
      rcases e6 with ⟨f1, f2⟩ | ⟨at1, f1, f2, f3⟩
      · exact .inl ⟨f2, f1⟩
      · exact .inr ⟨f2, at1, f1, f3⟩

theorem dictSubs_zip {env : Env} {H0 H L : Heap} {R : Addr → Addr → Prop} {N : DT → Addr → Addr → Prop} (hp : H0 <+: H) {es : List (Addr × Addr)}
    (hi : ∀ k v, (k, v) ∈ es → k < H0.length ∧ v < H0.length)
    (hpair : ∀ k v p x, (k, v) ∈ es → H[p]? = some ⟨.tuple, .seq [k, v]⟩ → R x p →
      Obj.lost env ⟨.tuple, .seq [k, v]⟩ = false → ∃ k' v', L[x]? = some ⟨.tuple, .seq [k', v']⟩ ∧
        ItemsCopy H0 (fun x c => R x c ∧ c < H0.length) (fun d x c => N d x c ∧ c < H0.length) [k', v'] [k, v]) :
    ∀ {ms : List (PyStr × Addr × Option Attrs)} {j : Nat}, All2 (RecMember env H R) ms (dictSubs env H j es) →
    All2 (RecEntry env H0 L (fun x c => R x c ∧ c < H0.length) (fun d x c => N d x c ∧ c < H0.length)) ms (es.zipIdx j) := by
  induction es with
  | nil => intro ms j h; cases h; exact .nil
  | cons e es ih =>
    obtain ⟨k, v⟩ := e
    intro ms j h
    simp only [dictSubs] at h
    cases h with
    | cons h1 h2 =>
      refine .cons ?_ (ih (fun k v hkv => hi k v (by simp [hkv])) (fun k v p x hkv => hpair k v p x (by simp [hkv])) h2)
      obtain ⟨s, b, q, e1, e2, e3, e4, e5, e6⟩ := h1.ex
      obtain ⟨hk, hv⟩ := hi k v (by simp)
      rcases dictSub_idx e1 with ⟨o, name, kbt, f1, f2, rfl⟩ | ⟨rfl, o, f1, f2⟩
      · have e3 : b = v := e3
        subst e3
        rw [getElem?_pre hp hk] at f1
        rw [getElem?_pre hp hv] at e5
        refine ⟨o, f1, .inl ⟨kbt, by rw [f2, e2], ⟨e4, hv⟩, q, e5, ?_⟩⟩
        rcases e6 with ⟨f1, f2⟩ | ⟨at1, f1, f2, f3⟩
        · exact .inl ⟨f2, f1⟩
        · exact .inr ⟨f2, at1, f1, f3⟩
      · have e3 : H[b]? = some ⟨.tuple, .seq [k, v]⟩ := e3
        rw [getElem?_pre hp hk] at f1
        rw [e5] at e3; simp only [Option.some.injEq] at e3; subst e3
        refine ⟨o, f1, .inr ⟨f2, e2, hpair k v b _ (by simp) e5 e4 rfl, ?_⟩⟩
        rcases e6 with ⟨_, f2⟩ | ⟨at1, f1, _, f3⟩
        · simp [Obj.lost] at f2
        · exact ⟨at1, f1, f3 ("key_idx", _) (by simp), f3 ("key_base_type", _) (by simp)⟩

theorem mapM_castItem {H0 H : Heap} (hp : H0 <+: H) {d : DT} : ∀ {items : List Addr} {vs : List NpVal}, (∀ x ∈ items, x < H0.length) →
    items.mapM (castItem H d) = some vs →
    All2 (fun w a => ∃ p v, H0[a]? = some p ∧ exactNum p = some v ∧ castNum d v = some w) vs items := by
  intro items
  induction items with
  | nil => intro vs _ h; simp at h; subst h; exact .nil
  | cons a items ih =>
    intro vs hi h
    simp only [List.mapM_cons, Option.bind_eq_bind, Option.bind_eq_some_iff, Option.pure_def, Option.some.injEq] at h
    obtain ⟨w, h1, ws, h2, rfl⟩ := h
    refine .cons ?_ (ih (fun x hx => hi x (by simp [hx])) h2)
    unfold castItem at h1
    rw [getElem?_pre hp (hi a (by simp))] at h1
    cases hq : H0[a]? with
    | none => rw [hq] at h1; simp at h1
    | some p =>
      rw [hq] at h1
      simp only [Option.bind_eq_some_iff] at h1
      obtain ⟨v, e1, e2⟩ := h1
      exact ⟨p, v, rfl, e1, e2⟩

theorem RecAttrs.toSpec {env : Env} {o : Obj} {at' at1 : Attrs} (h : RecAttrs (expected env o.cls).2.base at' at1) {attrs : Attrs}
    (ha : ∀ p ∈ attrs, p.1 ≠ "type" ∧ p.1 ≠ "base_type" ∧ Assoc.get? at' p.1 = some p.2) : RecoveredAttrs env o at1 attrs :=
  ⟨h.base, h.type, fun p hp => by rw [h.rest _ (ha p hp).1 (ha p hp).2.1]; exact (ha p hp).2.2⟩

/-- what is recovered, in terms of the original heap -/
theorem RecCopy.toSpec {env : Env} {H0 H L : Heap} {R : Addr → Addr → Prop} {N : DT → Addr → Addr → Prop} (hp : H0 <+: H) {o' o : Obj}
    (hlo : LostOk env o) (hch : ∀ x ∈ o.val.children, x < H0.length)
    (hpair : ∀ es k v p x, o.val = .dict es → (k, v) ∈ es → H[p]? = some ⟨.tuple, .seq [k, v]⟩ → R x p →
      ∃ k' v', L[x]? = some ⟨.tuple, .seq [k', v']⟩ ∧
        ItemsCopy H0 (fun x c => R x c ∧ c < H0.length) (fun d x c => N d x c ∧ c < H0.length) [k', v'] [k, v])
    (h : RecCopy env H R o' o) :
    Recovered env H0 L (fun x c => R x c ∧ c < H0.length) (fun d x c => N d x c ∧ c < H0.length) o' o := by
  cases h with
  | pickled h1 h2 => exact .pickled h1 h2
  | @data at' at1 d subs h1 h2 h3 h4 =>
    unfold LostOk at hlo
    generalize (expected env o.cls).2.fn = fn at h2 hlo
    have hnum : ∀ {items : List Addr} {d : DT}, (∀ x ∈ items, x < H0.length) →
        (∃ a ∈ items, ∃ p v, H[a]? = some p ∧ exactNum p = some v ∧ v.dt = d) → ∃ c ∈ items, numDt H0 c = some d := by
      rintro items d hi ⟨a, ha, p, v, e1, e2, e3⟩
      rw [getElem?_pre hp (hi a ha)] at e1
      exact ⟨a, ha, by simp [numDt, e1, e2, e3]⟩
    cases h2 with
    | intBig e1 e2 => exact .data (.intBig e1 e2) (h3.toSpec (by simp)) h4
    | int e1 e2 => exact .data (.int e1 e2) (h3.toSpec (by simp)) h4
    | bool e1 => simp [e1] at hlo
    | float e1 => exact .data (.float e1) (h3.toSpec (by simp)) h4
    | cplx e1 => exact .data (.cplx e1) (h3.toSpec (by simp)) h4
    | none => cases hv : o.val <;> simp [hv] at hlo; exact absurd hlo h1
    | str e1 e2 e3 => exact .data (.str e1 e2) (h3.toSpec (by simpa using e3)) h4
    | bytes e1 e3 => exact .data (.bytes e1) (h3.toSpec (by simpa using e3)) h4
    | seqNil e1 => simp [e1] at hlo
    | setNil e1 => exact .data (.setNil e1) (h3.toSpec (by simp)) h4
    | seqVec e1 e2 e3 e4 =>
      rw [e1] at hch
      exact .data (.nums (.inl e1) (hnum hch e4) (mapM_castItem hp hch e3)) (h3.toSpec (by simp)) h4
    | setVec e1 e2 e3 e4 =>
      rw [e1] at hch
      exact .data (.nums (.inr e1) (hnum hch e4) (mapM_castItem hp hch e3)) (h3.toSpec (by simp)) h4
    | np e1 => simp [e1] at hlo
    | arr e1 e2 => exact .data (.arr e1) (h3.toSpec (by simpa using e2)) h4
    | sstr e1 => simp [e1] at hlo
    | rowsNil e1 => cases e1 <;> simp_all
    | oseq e1 => cases e1 <;> simp_all
    | pickled e1 => simp only [e1] at hlo; exact absurd hlo h1
  | @group at' at1 subs subs' ms h1 h2 h3 h4 h5 =>
    obtain ⟨ms', g1, g2⟩ := All2.perm_right h3 h4
    unfold LostOk at hlo
    generalize (expected env o.cls).2.fn = fn at h1 hlo
    cases h1 with
    | seqItems e1 =>
      rw [e1] at hch
      exact .group (.items (.inl e1) g2 (listSubs_zip hp hch g1)) (h2.toSpec (by simp)) h5
    | setItems e1 =>
      rw [e1] at hch
      exact .group (.items (.inr e1) g2 (listSubs_zip hp hch g1)) (h2.toSpec (by simp)) h5
    | @dict _ _ es e1 =>
      rw [e1] at hch
      simp only [Val.children, List.mem_flatMap] at hch
      exact .group (.dict e1 g2 (dictSubs_zip hp (fun k v hkv => ⟨hch k ⟨_, hkv, by simp⟩, hch v ⟨_, hkv, by simp⟩⟩)
        (fun k v p x hkv h h' _ => hpair es k v p x e1 hkv h h') g1)) (h2.toSpec (by simp)) h5
    | rows e1 => cases e1 <;> simp_all
    | oseq e1 => cases e1 <;> simp_all
    | oone e1 => simp_all
    | masked e1 => simp_all
    | sparse e1 => simp_all

theorem RecBy.restrict {env : Env} {H0 H L : Heap} {R Q : Addr → Addr → Prop} {N : DT → Addr → Addr → Prop} {b a : Addr} (hp : H0 <+: H)
    (ha : a < H0.length) (hg : GoodGraph P env H0) (h : RecBy env H L R N Q b a) : RecoveredCopy env H0 L b a := by
  obtain ⟨h1, h2, h3, h4, h5, h6⟩ := h
  refine ⟨fun x c => R x c ∧ c < H0.length, fun d x c => N d x c ∧ c < H0.length, fun x c => Q x c ∧ c < H0.length, ⟨h1, ha⟩, ?_, ?_, ?_, ?_, ?_⟩
  · rintro x c ⟨hr, hc⟩
    obtain ⟨o, o', e1, e2, e3⟩ := h2 x c hr
    rw [getElem?_pre hp hc] at e1
    refine ⟨o, o', e1, e2, ?_⟩
    have hch := hg.wf c o e1
    rcases e3 with ⟨g1, g2, g3⟩ | ⟨g1, g2⟩
    · exact .inl ⟨g1, g2, g3.restrict hp hch⟩
    · refine .inr ⟨g1, g2.toSpec hp (hg.lost c o e1 g1) hch ?_⟩
      intro es k v p y hv hkv hp' hy
      obtain ⟨q, q', f1, f2, f3⟩ := h2 y p hy
      rw [hp'] at f1; simp only [Option.some.injEq] at f1; subst f1
      obtain ⟨f4, f5⟩ := f3.live rfl
      have hkv' : ∀ y ∈ (Val.seq [k, v]).children, y < H0.length := by
        intro y hy
        refine hch y ?_
        rw [hv]
        simp only [Val.children, List.mem_flatMap]
        refine ⟨(k, v), hkv, ?_⟩
        simpa [Val.children] using hy
      have f6 := f5.restrict hp hkv'
      obtain ⟨cl, val⟩ := q'
      simp only at f4 f6; subst f4
      cases f6 with
      | atom hh => simp [Val.isAtom] at hh
      | @seq xs _ hc =>
        have hlen : xs.length = 2 := by
          rcases hc with ⟨hc, _⟩ | ⟨d, _, hc⟩
          · exact hc.length
          · exact hc.length
        match xs, hlen with
        | [k', v'], _ => exact ⟨k', v', f2, hc⟩
  · rintro d x c ⟨hr, hc⟩
    obtain ⟨o, o', e1, e2, e3⟩ := h3 d x c hr
    rw [getElem?_pre hp hc] at e1
    exact ⟨o, o', e1, e2, e3⟩
  · rintro x c ⟨hr, hc⟩
    obtain ⟨o, e1, e2, e3⟩ := h4 x c hr
    rw [getElem?_pre hp hc] at e1
    exact ⟨o, e1, e2, e3⟩
  · rintro x c c' q1 q2
    refine h5 x c c' ?_ ?_
    · rcases q1 with q | q | q
      · exact .inl q.1
      · exact .inr (.inl (q.imp fun _ q => q.1))
      · exact .inr (.inr q.1)
    · rcases q2 with q | q | q
      · exact .inl q.1
      · exact .inr (.inl (q.imp fun _ q => q.1))
      · exact .inr (.inr q.1)
  · rintro x y c o ⟨q1, hc⟩ ⟨q2, _⟩ q3 q4
    exact h6 x y c o q1 q2 (by rw [getElem?_pre hp hc]; exact q3) q4

theorem memo_of_lost {env : Env} {H : Heap} {o : Obj} (hok : LostOk env o) {at' od subs} (hd : Head env H (expected env o.cls).2.fn o at' od subs)
    (hi : o.val.hasIdentity = true) : (expected env o.cls).2.memoise = true := by
  cases hm : (expected env o.cls).2.memoise with
  | true => rfl
  | false =>
    exfalso
    have hob : (expected env o.cls).1 ≠ .object := fun h => by rw [expected_object h] at hm; simp at hm
    rcases expected_memo env o.cls hm with h | h | h | h
    · rw [h] at hd
      cases hd with
      | intBig h1 => rw [h1] at hi; simp [Val.hasIdentity] at hi
      | int h1 => rw [h1] at hi; simp [Val.hasIdentity] at hi
      | bool h1 => rw [h1] at hi; simp [Val.hasIdentity] at hi
      | float h1 => rw [h1] at hi; simp [Val.hasIdentity] at hi
      | cplx h1 => rw [h1] at hi; simp [Val.hasIdentity] at hi
    · unfold LostOk at hok
      rw [h] at hok
      cases hv : o.val <;> simp [hv] at hok
      exact hob hok
    · rw [h] at hd
      cases hd with
      | np h1 => rw [h1] at hi; simp [Val.hasIdentity] at hi
    · rw [h] at hd; cases hd

/-- A complete dump loads, in every order of the links and from every registry state, whatever classes
are missing. -/
theorem Dumped.recovers {H0 H : Heap} {W : Rel} {m : NodeId} {a : Addr} {c : LCtx} (h : Dumped c.env H0 H c.store W m a) (hE : EnvOk P c.env) (hm : c.mgr.Ok)
    (hord : ∀ l, (c.order l).Perm l) (hg : GoodGraph P c.env H0) {rk : Addr → Nat} (hr : Ranked H0 rk) (ha : a < H0.length)
    {tc : List (NodeId × TypeInfo)} (htc : TcOk c.env c.store tc) {reg : Registry} (hreg : RegInv P reg) {fuel : Nat}
    (hf : 2 * ((H.length + 2) * (rk a + 1)) + 2 ≤ fuel) (name : PyStr) :
    ∃ b s', loadNode c fuel (.root []) name m (loadInit tc reg) = (.ok (.root [b]), s') ∧
      (∃ R N Q, RecBy c.env H s'.heap R N Q b a) ∧ RegInv P s'.reg ∧ (GoodHeap P c.env H0 → GoodHeap P c.env s'.heap) ∧ Ranked s'.heap id ∧ b < s'.heap.length := by
  have hgood := h.graph hg
  obtain ⟨hrk, hpairs, hnests⟩ := h.ranked hg hr
  have hh : LHyp P H0.length H W (extRank H0 H rk) c :=
    ⟨hE, hm, hord, hgood, h.nodes, h.uniq, h.one, hrk, hpairs, hnests⟩
  let G0 : Ghost := ⟨fun x b => x = 0 ∧ H[b]? = some unitObj, fun _ _ _ => False, fun _ _ => False⟩
  have hT : ∀ x b, G0.T x b → x = 0 ∧ H[b]? = some unitObj := by
    rintro x b (h1 | ⟨_, h1⟩ | h1)
    · exact h1
    · exact h1.elim
    · exact h1.elim
  have hL : LInv P H W c G0 (loadInit tc reg) :=
    { zero := rfl
      lt := fun x b ht => by have := (hT x b ht).1; simp [loadInit, loadHeap, this]
      func := fun x b b' h1 h2 => hgood.unit b b' (hT x b h1).2 (hT x b' h2).2
      exact := by
        rintro x b ⟨rfl, hb⟩
        exact ⟨unitObj, unitObj, hb, rfl, .inl ⟨rfl, rfl, .seq (.inl ⟨.nil, .inl rfl⟩)⟩⟩
      num := fun _ _ _ h => h.elim
      key := fun _ _ h => h.elim
      unitR := fun b hb => ⟨rfl, hb⟩
      unit0 := fun x b h1 _ => h1.1
      memo := by intro n x hn; simp [loadInit] at hn
      tc := htc
      reg := hreg
      below := by
        intro x o ho y hy
        rcases x with _ | x
        · simp [loadInit, loadHeap] at ho; subst ho; simp [Val.children] at hy
        · simp [loadInit, loadHeap] at ho
      all := by intro x hx; simp [loadInit, loadHeap] at hx; exact .inl hx }
  have hS : Shared H W G0 (loadInit tc reg) := by
    rintro x b o ⟨_, hb⟩ ho _ hu
    rw [hb] at ho; simp at ho; exact absurd ho.symm hu
  have hrank : extRank H0 H rk a = (H.length + 2) * (rk a + 1) := extRank_old ha
  obtain ⟨x, nd, mem, s1, G1, e1, e2, ld⟩ := (loadNode_spec hh fuel).2 m a [] G0 (loadInit tc reg) (by omega) h.root hL hS
  obtain ⟨s3, f1, f2, f3, f4, _⟩ := ld.finish (cont := .root []) (cont' := .root [x]) (name := name) (attrs := nd.attrs) (s2 := s1) rfl ld.inv rfl rfl
  refine ⟨x, s3, (e2 _ _).trans f1, ⟨G1.R, G1.N, G1.Q, ld.res, f2.exact, f2.num, f2.key, f2.func, ?_⟩, f2.reg,
    fun hgh => f2.goodHeap (h.good hgh), f2.ranked, f2.lt x a (.inl ld.res)⟩
  intro y z b o hy hz ho hi
  by_cases hu : o = unitObj
  · subst hu
    rw [f2.unit0 y b hy ho, f2.unit0 z b hz ho]
  · obtain ⟨n, w1, m1⟩ := f3 y b o hy ho hi hu
    obtain ⟨n', w2, m2⟩ := f3 z b o hz ho hi hu
    obtain ⟨o', nd', od, subs, k1, k2, k3, k4, k5⟩ := h.nodes n b w1
    rw [ho] at k1; simp at k1; subst k1
    have := h.one n n' b o w1 w2 ho (by
      cases hl : o.lost c.env with
      | false => exact memo_of_identity (hgood.ok b o ho hl) k4 hi
      | true => exact memo_of_lost (hgood.lost b o ho hl) k4 hi)
    subst this
    rw [m1] at m2; simpa using m2

/-- A complete dump loads, in every order of the links and from every registry state, and gives a
copy of the dumped object. -/
theorem Dumped.load {H0 H : Heap} {W : Rel} {m : NodeId} {a : Addr} {c : LCtx} (h : Dumped c.env H0 H c.store W m a) (hg : GoodHeap P c.env H0)
    (ha : a < H0.length) {L : Heap} {b : Addr} (hc : ∃ R N Q, RecBy c.env H L R N Q b a) : Copy H0 L b a := by
  obtain ⟨R, N, Q, h1, h2, h3, h4, h5, h6⟩ := hc
  refine CopyBy.restrict (R := R) (N := N) (Q := Q) h.pre ha hg.wf ⟨h1, ?_, h3, h4, h5, h6⟩
  intro x d hx
  obtain ⟨o, o', e1, e2, e3⟩ := h2 x d hx
  exact ⟨o, o', e1, e2, e3.live ((h.good hg).cls d o e1).2.live⟩

end Verif
