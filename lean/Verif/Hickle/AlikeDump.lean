import Verif.Hickle.Alike
/-!
# Two object graphs that are dumped alike: whole dumps
-/
namespace Verif

/-! ### temporary objects -/

/-- the correspondence with `n` new objects on both sides, placed at `st` and `st'` -/
def New (R : Addr → Addr → Prop) (st st' n : Nat) (x y : Addr) : Prop := R x y ∨ ∃ i, i < n ∧ x = st + i ∧ y = st' + i

theorem New.wide {R : Addr → Addr → Prop} {st st' k m n : Nat} (hn : k + m ≤ n) {x y : Addr} (h : New R (st + k) (st' + k) m x y) : New R st st' n x y := by
  rcases h with h | ⟨i, h1, h2, h3⟩
  · exact .inl h
  · exact .inr ⟨k + i, by omega, by omega, by omega⟩

theorem New.wide0 {R : Addr → Addr → Prop} {st st' m n : Nat} (hn : m ≤ n) {x y : Addr} (h : New R st st' m x y) : New R st st' n x y :=
  New.wide (k := 0) (m := m) (by omega) h

/-- corresponding new objects, which are added to the heaps `k` and `k'` -/
def BlockAlike (env : Env) (k k' : Heap) (R' : Addr → Addr → Prop) (B B' : List Obj) : Prop :=
  All2 (fun o o' : Obj => o.cls = o'.cls ∧ ∀ h h', k <+: h → k' <+: h' → ValAlike env h h' R' o.val o'.val) B B'

theorem BlockAlike.mono {env : Env} {k k' : Heap} {R R' : Addr → Addr → Prop} (hR : ∀ x y, R x y → R' x y) {B B'} (h : BlockAlike env k k' R B B') : BlockAlike env k k' R' B B' :=
  All2.mono (fun _ _ h => ⟨h.1, fun _ _ g g' => (h.2 _ _ g g').grow List.prefix_rfl List.prefix_rfl hR⟩) h

section
variable {env : Env} {h h' : Heap} {R : Addr → Addr → Prop} {c : Cls}

theorem rows_alike {sh : List Nat} (ih : ∀ ls ls' st st', All2 (LeafAlike R) ls ls' → ls.length = shSize sh →
      BlockAlike env h h' (New R st st' (nestBlock c sh ls st).1.length) (nestBlock c sh ls st).1 (nestBlock c sh ls' st').1 ∧
      New R st st' (nestBlock c sh ls st).1.length (nestBlock c sh ls st).2 (nestBlock c sh ls' st').2) (k : Nat) :
    ∀ ls ls' st st', All2 (LeafAlike R) ls ls' → ls.length = k * shSize sh →
      BlockAlike env h h' (New R st st' (nestRows (nestBlock c sh) (shSize sh) k ls st).1.length) (nestRows (nestBlock c sh) (shSize sh) k ls st).1
        (nestRows (nestBlock c sh) (shSize sh) k ls' st').1 ∧
      All2 (New R st st' (nestRows (nestBlock c sh) (shSize sh) k ls st).1.length) (nestRows (nestBlock c sh) (shSize sh) k ls st).2
        (nestRows (nestBlock c sh) (shSize sh) k ls' st').2 := by
  induction k with
  | zero => intro ls ls' st st' _ _; exact ⟨.nil, .nil⟩
  | succ k ihk =>
    intro ls ls' st st' a hl
    have hl' : ls.length = k * shSize sh + shSize sh := by rw [hl, Nat.succ_mul]
    obtain ⟨h1, h2⟩ := ih (ls.take (shSize sh)) (ls'.take (shSize sh)) st st' (a.take _) (by rw [List.length_take]; omega)
    simp only [nestRows]
    rcases hx : nestBlock c sh (ls.take (shSize sh)) st with ⟨blk, root⟩
    rcases hx' : nestBlock c sh (ls'.take (shSize sh)) st' with ⟨blk', root'⟩
    simp only [hx, hx'] at h1 h2
    have hlen : blk.length = blk'.length := h1.length
    obtain ⟨h3, h4⟩ := ihk (ls.drop (shSize sh)) (ls'.drop (shSize sh)) (st + blk.length) (st' + blk'.length) (a.drop _) (by rw [List.length_drop]; omega)
    simp only
    rcases hy : nestRows (nestBlock c sh) (shSize sh) k (ls.drop (shSize sh)) (st + blk.length) with ⟨blk2, rows⟩
    rcases hy' : nestRows (nestBlock c sh) (shSize sh) k (ls'.drop (shSize sh)) (st' + blk'.length) with ⟨blk2', rows'⟩
    simp only [hy, hy'] at h3 h4
    rw [← hlen] at h3 h4
    have w1 : ∀ x y, New R st st' blk.length x y → New R st st' (blk ++ blk2).length x y := fun x y h => h.wide0 (by simp)
    have w2 : ∀ x y, New R (st + blk.length) (st' + blk.length) blk2.length x y → New R st st' (blk ++ blk2).length x y := fun x y h => h.wide (by simp)
    exact ⟨(h1.mono w1).append (h3.mono w2), .cons (w1 _ _ h2) (h4.mono w2)⟩

theorem nest_alike (sh : List Nat) : ∀ ls ls' st st', All2 (LeafAlike R) ls ls' → ls.length = shSize sh →
    BlockAlike env h h' (New R st st' (nestBlock c sh ls st).1.length) (nestBlock c sh ls st).1 (nestBlock c sh ls' st').1 ∧
    New R st st' (nestBlock c sh ls st).1.length (nestBlock c sh ls st).2 (nestBlock c sh ls' st').2 := by
  induction sh with
  | nil =>
    intro ls ls' st st' a hl
    cases a with
    | nil => simp [shSize] at hl
    | @cons l l' _ _ h1 a =>
      cases l with
      | addr x => cases l' with
        | addr y => exact ⟨.nil, .inl h1⟩
        | obj => exact h1.elim
      | obj o => cases l' with
        | addr y => exact h1.elim
        | obj o' =>
          obtain ⟨rfl, h1⟩ := h1
          exact ⟨.cons ⟨rfl, fun _ _ _ _ => .atom h1⟩ .nil, .inr ⟨0, by simp [nestBlock], rfl, rfl⟩⟩
  | cons n sh ih =>
    intro ls ls' st st' a hl
    obtain ⟨h1, h2⟩ := rows_alike (env := env) (h := h) (h' := h') (c := c) ih n ls ls' st st' a hl
    simp only [nestBlock]
    rcases hy : nestRows (nestBlock c sh) (shSize sh) n ls st with ⟨blk, rows⟩
    rcases hy' : nestRows (nestBlock c sh) (shSize sh) n ls' st' with ⟨blk', rows'⟩
    simp only [hy, hy'] at h1 h2 ⊢
    have hlen : blk.length = blk'.length := h1.length
    have w : ∀ x y, New R st st' blk.length x y → New R st st' (blk ++ [(⟨c, .seq rows⟩ : Obj)]).length x y := fun x y h => h.wide0 (by simp)
    refine ⟨(h1.mono w).append (.cons ⟨rfl, fun _ _ _ _ => .seq (.inl (h2.mono w))⟩ .nil), .inr ⟨blk.length, by simp, rfl, by rw [hlen]⟩⟩

end

variable {P : Nat → Prop} {c : DCtx} {R : Addr → Addr → Prop}

theorem Mirror.lt {env : Env} {s t : DState} (m : Mirror P env R s t) {x y : Addr} (h : R x y) : x < s.heap.length ∧ y < t.heap.length := by
  obtain ⟨o, o', h1, h2, _⟩ := m.alike x y h
  exact ⟨lt_of_getElem? h1, lt_of_getElem? h2⟩

/-- new objects on both sides -/
theorem Mirror.grow {env : Env} {s t : DState} (m : Mirror P env R s t) {B B' : List Obj} (hb : BlockAlike env s.heap t.heap (New R s.heap.length t.heap.length B.length) B B')
    (hc : ∀ o ∈ B, TempCls o.cls) :
    Mirror P env (New R s.heap.length t.heap.length B.length) { s with heap := s.heap ++ B } { t with heap := t.heap ++ B' } := by
  have hp : s.heap <+: s.heap ++ B := List.prefix_append _ _
  have hp' : t.heap <+: t.heap ++ B' := List.prefix_append _ _
  refine ⟨m.store, m.tl, m.bl, m.reg, ?_, ?_, ?_, m.inv, ?_⟩
  · rintro x y (h | ⟨i, h1, rfl, rfl⟩)
    · obtain ⟨o, o', h1, h2, h3, h4⟩ := m.alike x y h
      exact ⟨o, o', getElem?_prefix hp h1, getElem?_prefix hp' h2, h3, h4.grow hp hp' fun _ _ h => .inl h⟩
    · have h1' : i < B'.length := hb.length ▸ h1
      have key : ∀ {X Y : List Obj} {Q : Obj → Obj → Prop}, All2 Q X Y → ∀ (i : Nat), i < X.length → ∃ o o', X[i]? = some o ∧ Y[i]? = some o' ∧ Q o o' := by
        intro X Y Q h
        induction h with
        | nil => intro i hi; simp at hi
        | cons h1 _ ih =>
          intro i hi
          cases i with
          | zero => exact ⟨_, _, rfl, rfl, h1⟩
          | succ i => simpa using ih i (by simpa using hi)
      obtain ⟨o, o', e1, e2, e3, e4⟩ := key hb i h1
      refine ⟨o, o', ?_, ?_, e3, e4 _ _ hp hp'⟩
      · show (s.heap ++ B)[s.heap.length + i]? = some o
        rw [List.getElem?_append_right (by omega)]; simpa using e1
      · show (t.heap ++ B')[t.heap.length + i]? = some o'
        rw [List.getElem?_append_right (by omega)]; simpa using e2
  · intro x y x' y' o h h' ho hm
    rcases h with h | ⟨i, h1, rfl, rfl⟩ <;> rcases h' with h' | ⟨j, h2, rfl, rfl⟩
    · have := (m.lt h).1
      have ho' : (s.heap ++ B)[x]? = some o := ho
      rw [List.getElem?_append_left this] at ho'
      exact m.one x y x' y' o h h' ho' hm
    · have := m.lt h; constructor <;> intro e <;> omega
    · have := m.lt h'; constructor <;> intro e <;> omega
    · constructor <;> intro e <;> omega
  · exact m.memo.mono fun p q ⟨h1, h2, o, h3, h4⟩ => ⟨.inl h1, h2, o, getElem?_prefix hp h3, h4⟩
  · intro o ho
    rcases List.mem_append.1 ho with ho | ho
    · exact m.cls o ho
    · exact (hc o ho).good _ _

theorem subAddr_mirror {env : Env} {s t : DState} (m : Mirror P env R s t) {h h' : Heap} (hp : h <+: s.heap) (hp' : h' <+: t.heap) {so so' : SubObj}
    (a : ObjAlike h h' R so so') {h0 : Heap} {o : Obj} (hs : SubOf h0 o so) :
    ∃ (R' : Addr → Addr → Prop) (b b' : Addr) (s' t' : DState), subAddr so s = (.ok b, s') ∧ subAddr so' t = (.ok b', t') ∧ (∀ x y, R x y → R' x y) ∧ R' b b' ∧ Mirror P env R' s' t' ∧
      s.heap <+: s'.heap ∧ t.heap <+: t'.heap := by
  have ht := newObjs_temp hs s.heap.length
  cases so with
  | addr x => cases so' with
    | addr y => exact ⟨R, x, y, s, t, rfl, rfl, fun _ _ h => h, a, m, List.prefix_rfl, List.prefix_rfl⟩
    | pair => exact a.elim
    | nest => exact a.elim
  | pair k v => cases so' with
    | addr => exact a.elim
    | nest => exact a.elim
    | pair k' v' =>
      have a' : ItemsAlike h h' R [k, v] [k', v'] := a
      have hb : Mirror P env (New R s.heap.length t.heap.length 1) { s with heap := s.heap ++ [⟨.tuple, .seq [k, v]⟩] } { t with heap := t.heap ++ [⟨.tuple, .seq [k', v']⟩] } :=
        m.grow (B := [⟨.tuple, .seq [k, v]⟩]) (B' := [⟨.tuple, .seq [k', v']⟩]) (.cons ⟨rfl, fun _ _ g g' => .seq (a'.grow (hp.trans g) (hp'.trans g') fun _ _ h => Or.inl h)⟩ .nil) ht
      exact ⟨New R s.heap.length t.heap.length 1, s.heap.length, t.heap.length, _, _, rfl, rfl, fun _ _ h => .inl h, .inr ⟨0, by simp, rfl, rfl⟩, hb, List.prefix_append _ _, List.prefix_append _ _⟩
  | nest cl sh ls => cases so' with
    | addr => exact a.elim
    | pair => exact a.elim
    | nest cl' sh' ls' =>
      obtain ⟨rfl, rfl, a⟩ := a
      obtain ⟨k1, k2⟩ := nest_alike (env := env) (h := s.heap) (h' := t.heap) (R := R) (c := cl) sh ls ls' s.heap.length t.heap.length a hs.2.1.1.length
      exact ⟨_, _, _, _, _, rfl, rfl, fun _ _ h => .inl h, k2, m.grow k1 ht, List.prefix_append _ _, List.prefix_append _ _⟩

/-! ### `_dump` -/

theorem memo_lookup {Q : Addr × NodeId → Prop} {m m' : List (Addr × NodeId)} (h : All2 (fun (p q : Addr × NodeId) => R p.1 q.1 ∧ p.2 = q.2 ∧ Q p) m m') {a b : Addr}
    (he : ∀ p q : Addr × NodeId, R p.1 q.1 → Q p → (p.1 = a ↔ q.1 = b)) : Assoc.get? m a = Assoc.get? m' b := by
  induction h with
  | nil => rfl
  | @cons p q _ _ h1 _ ih =>
    obtain ⟨x, n⟩ := p
    obtain ⟨y, n'⟩ := q
    obtain ⟨r, e, hq⟩ := h1
    simp only at e; subst e
    have := he _ _ r hq
    simp only at this
    simp only [Assoc.get?]
    by_cases hx : x = a
    · rw [if_pos hx, if_pos (this.1 hx)]
    · rw [if_neg hx, if_neg (fun hy => hx (this.2 hy)), ih]

theorem Mirror.lookup {env : Env} {s t : DState} (m : Mirror P env R s t) {a b : Addr} (hab : R a b) : Assoc.get? s.memo a = Assoc.get? t.memo b :=
  memo_lookup (Q := fun p => ∃ o : Obj, s.heap[p.1]? = some o ∧ (expected env o.cls).2.memoise = true) m.memo
    fun _ _ h1 ⟨o, h2, h3⟩ => m.one _ _ a b o h1 hab h2 h3

theorem dumpCreate_mirror (hE : EnvOk P c.env) (hm : c.mgr.Dumps) {s t : DState} (m : Mirror P c.env R s t) {cl : Cls} {v v' : Val} (hc : GoodCls P c.env cl)
    (a : ValAlike c.env s.heap t.heap R v v') {p name} :
    Agree (fun x y => x.1 = y.1 ∧ All2 (SubAlike s.heap t.heap R) x.2.1 y.2.1 ∧ x.2.2 = (expected c.env cl).2.memoise ∧ y.2.2 = (expected c.env cl).2.memoise)
      (dumpCreate c ⟨cl, v⟩ p name s).1 (dumpCreate c ⟨cl, v'⟩ p name t).1 ∧ Mirror P c.env R (dumpCreate c ⟨cl, v⟩ p name s).2 (dumpCreate c ⟨cl, v'⟩ p name t).2 := by
  obtain ⟨r, e, i, _⟩ := loadLoader_spec hE hm hc none m.inv
  have h1 : ∀ u : DState, u.reg = s.reg → onReg (loadLoader c.env c.mgr cl none) u = (.ok (expected c.env cl), { u with reg := r }) := by
    intro u hu; unfold onReg; rw [hu, e]
  have m1 : Mirror P c.env R { s with reg := r } { t with reg := r } := ⟨m.store, m.tl, m.bl, rfl, m.alike, m.one, m.memo, i, m.cls⟩
  unfold dumpCreate
  simp only
  rw [M.bind_of_ok (h1 s rfl), M.bind_of_ok (h1 t m.reg), M.bind_of_ok (M.get_apply _), M.bind_of_ok (M.get_apply _)]
  refine Both.bind (W := Mirror P c.env R) (.attempt (createFn_both (h := s.heap) (h' := t.heap) m.alike a)) (fun x y hxy => ?_) _ _ m1
  cases hxy with
  | ok h =>
    rename_i x y
    obtain ⟨n, l⟩ := x
    obtain ⟨n', l'⟩ := y
    obtain ⟨e1, e2⟩ := h
    simp only at e1 e2; subst e1
    exact .bind storeType_both fun _ _ _ => .pure ⟨rfl, e2, rfl, rfl⟩
  | error e =>
    simp only []
    split
    · exact .bind (createPickled_both (h := s.heap) (h' := t.heap) a) fun n n' e => by subst e; exact .pure ⟨rfl, .nil, rfl, rfl⟩
    · exact .throw _

/-- the heap is left as it is -/
theorem dumpCreate_sameHeap {o : Obj} {p name} (s : DState) : (dumpCreate c o p name s).2.heap = s.heap :=
  (dumpCreate_on (c := c) (o := o) (p := p) (name := name) (J := fun h _ _ => h = s.heap) (fun _ _ _ _ h => h) s rfl).1

/-- what the two computations do from two corresponding states: corresponding outcomes and states, with new objects on both sides -/
def Grown {α β : Type} (P : Nat → Prop) (env : Env) (R : Addr → Addr → Prop) (x : DM α) (y : DM β) (s t : DState) (Q : (Addr → Addr → Prop) → α → β → Prop) : Prop :=
  ∃ R' : Addr → Addr → Prop, (∀ a b, R a b → R' a b) ∧ Agree (Q R') (x s).1 (y t).1 ∧ Mirror P env R' (x s).2 (y t).2 ∧ s.heap <+: (x s).2.heap ∧ t.heap <+: (y t).2.heap

namespace Grown
variable {α β γ δ : Type} {env : Env}

theorem bind {x : DM α} {y : DM β} {f : α → DM γ} {g : β → DM δ} {s t : DState} {Q : (Addr → Addr → Prop) → α → β → Prop} {Q' : (Addr → Addr → Prop) → γ → δ → Prop}
    (hx : Grown P env R x y s t Q)
    (hf : ∀ R' a b s' t', (∀ x y, R x y → R' x y) → Q R' a b → Mirror P env R' s' t' → s.heap <+: s'.heap → t.heap <+: t'.heap → Grown P env R' (f a) (g b) s' t' Q') :
    Grown P env R (x >>= f) (y >>= g) s t Q' := by
  obtain ⟨R', h1, h2, h3, h4, h5⟩ := hx
  unfold Grown
  rw [M.bind_apply, M.bind_apply]
  rcases hxs : x s with ⟨r, s1⟩
  rcases hyt : y t with ⟨r', t1⟩
  rw [hxs] at h2 h3 h4
  rw [hyt] at h2 h3 h5
  simp only at h2 h3 h4 h5
  cases h2 with
  | error e => exact ⟨R', h1, .error e, h3, h4, h5⟩
  | ok hq =>
    obtain ⟨R'', k1, k2, k3, k4, k5⟩ := hf R' _ _ s1 t1 h1 hq h3 h4 h5
    exact ⟨R'', fun a b h => k1 a b (h1 a b h), k2, k3, h4.trans k4, h5.trans k5⟩

theorem of_both {x : DM α} {y : DM β} {Q : α → β → Prop} {s t : DState} (h : Both (Mirror P env R) x y Q) (m : Mirror P env R s t)
    (hx : Keeps (OnState fun h _ _ => h = s.heap) x) (hy : Keeps (OnState fun h _ _ => h = t.heap) y) : Grown P env R x y s t fun _ => Q := by
  obtain ⟨h1, h2⟩ := h s t m
  exact ⟨R, fun _ _ h => h, h1, h2, by rw [show (x s).2.heap = s.heap from (hx s rfl).1]; exact List.prefix_rfl, by rw [show (y t).2.heap = t.heap from (hy t rfl).1]; exact List.prefix_rfl⟩

theorem pure {s t : DState} (m : Mirror P env R s t) {a : α} {b : β} {Q : (Addr → Addr → Prop) → α → β → Prop} (h : Q R a b) :
    Grown P env R (Pure.pure a : DM α) (Pure.pure b : DM β) s t Q := ⟨R, fun _ _ h => h, .ok h, m, List.prefix_rfl, List.prefix_rfl⟩

theorem throw {s t : DState} (m : Mirror P env R s t) {Q : (Addr → Addr → Prop) → α → β → Prop} (e : PyErr) :
    Grown P env R (M.throw e : DM α) (M.throw e : DM β) s t Q := ⟨R, fun _ _ h => h, .error e, m, List.prefix_rfl, List.prefix_rfl⟩

end Grown

theorem ObjAlike.grow {h h' : Heap} {R R' : Addr → Addr → Prop} (hR : ∀ x y, R x y → R' x y) {u v : SubObj} (a : ObjAlike h h' R u v) : ObjAlike h h' R' u v := by
  cases u with
  | addr x => cases v with
    | addr y => exact hR _ _ a
    | pair => exact a.elim
    | nest => exact a.elim
  | pair k w => cases v with
    | addr => exact a.elim
    | nest => exact a.elim
    | pair k' w' => exact ItemsAlike.grow List.prefix_rfl List.prefix_rfl hR (show ItemsAlike h h' R [k, w] [k', w'] from a)
  | nest cl sh ls => cases v with
    | addr => exact a.elim
    | pair => exact a.elim
    | nest cl' sh' ls' =>
      obtain ⟨e1, e2, a⟩ := a
      refine ⟨e1, e2, a.mono fun l l' h => ?_⟩
      cases l <;> cases l'
      · exact hR _ _ h
      · exact h.elim
      · exact h.elim
      · exact h

theorem dumpSubs_mirror {env : Env} {f g : Sub → DM Unit} {h h' : Heap} {o : Obj} {R : Addr → Addr → Prop} {xs ys : Subs} (a : All2 (SubAlike h h' R) xs ys)
    (hs : ∀ sub ∈ xs, (∃ e, sub = .error e) ∨ ∃ (h : Heap) (sb : Sub), sub = .ok sb ∧ SubOf h o sb.obj)
    (hf : ∀ (R' : Addr → Addr → Prop) (u v : Sub) (s t : DState), Mirror P env R' s t → h <+: s.heap → h' <+: t.heap → u.name = v.name → u.attrs = v.attrs → ObjAlike h h' R' u.obj v.obj →
      (∃ k : Heap, SubOf k o u.obj) → Grown P env R' (f u) (g v) s t fun _ _ _ => True) :
    ∀ (R' : Addr → Addr → Prop) (s t : DState), (∀ x y, R x y → R' x y) → Mirror P env R' s t → h <+: s.heap → h' <+: t.heap →
      Grown P env R' (M.forEach (fun sub => match sub with | .error e => M.throw e | .ok sub => f sub) xs)
        (M.forEach (fun sub => match sub with | .error e => M.throw e | .ok sub => g sub) ys) s t fun _ _ _ => True := by
  induction a with
  | nil => intro R' s t _ m _ _; exact .pure m trivial
  | @cons x y _ _ h1 _ ih =>
    intro R' s t hR m hp hp'
    simp only [M.forEach]
    refine .bind (Q := fun _ _ _ => True) ?_ fun R'' _ _ s' t' e1 _ m' e2 e3 =>
      ih (fun sub h => hs sub (.tail _ h)) R'' s' t' (fun x y h => e1 x y (hR x y h)) m' (hp.trans e2) (hp'.trans e3)
    have hh := hs x (.head _)
    cases h1 with
    | error e => exact .throw m e
    | @ok u v h1 =>
      obtain ⟨e1, e2, e3⟩ := h1
      refine hf R' u v s t m hp hp' e1 e2 (ObjAlike.grow hR e3) ?_
      rcases hh with ⟨e, he⟩ | ⟨k, sb, he, hk⟩
      · cases he
      · cases he; exact ⟨k, hk⟩

theorem Mirror.remember {env : Env} {s t : DState} (m : Mirror P env R s t) {a b : Addr} (hab : R a b) {o : Obj} (ho : s.heap[a]? = some o)
    (hm : (expected env o.cls).2.memoise = true) (n : NodeId) :
    Mirror P env R { s with memo := Assoc.put s.memo a n } { t with memo := Assoc.put t.memo b n } :=
  ⟨m.store, m.tl, m.bl, m.reg, m.alike, m.one, .cons ⟨hab, rfl, o, ho, hm⟩ m.memo, m.inv, m.cls⟩

theorem dumpNode_mirror (hE : EnvOk P c.env) (hm : c.mgr.Dumps) (fuel : Nat) : ∀ (R : Addr → Addr → Prop) (a b : Addr) (p : NodeId) (name : PyStr) (attrs : Attrs) (s t : DState),
    Mirror P c.env R s t → R a b → Grown P c.env R (dumpNode c fuel a p name attrs) (dumpNode c fuel b p name attrs) s t fun _ _ _ => True := by
  induction fuel with
  | zero => intro R a b p name attrs s t m _; exact .throw m _
  | succ fuel ih =>
    intro R a b p name attrs s t m hab
    unfold Grown
    simp only [dumpNode]
    rw [M.bind_of_ok (M.get_apply s), M.bind_of_ok (M.get_apply t), ← m.lookup hab]
    cases hme : Assoc.get? s.memo a with
    | some n =>
      simp only []
      exact Grown.of_both (.bind mkDset_both fun l l' e => by subst e; exact setAttrs_both) m (.bind mkDset_on fun _ _ => setAttrs_on) (.bind mkDset_on fun _ _ => setAttrs_on)
    | none =>
      obtain ⟨⟨cl, v⟩, ⟨cl', v'⟩, e1, e2, e3, e4⟩ := m.alike a b hab
      simp only at e3 e4; subst e3
      simp only [e1, e2]
      have hc := m.cls _ (List.mem_of_getElem? e1)
      obtain ⟨k1, k2⟩ := dumpCreate_mirror hE hm m hc e4 (p := p) (name := name)
      have hh := dumpCreate_sameHeap (c := c) (o := ⟨cl, v⟩) (p := p) (name := name) s
      have hh' := dumpCreate_sameHeap (c := c) (o := ⟨cl, v'⟩) (p := p) (name := name) t
      have hfrom := fun x => dumpCreate_from (c := c) (o := ⟨cl, v⟩) (p := p) (name := name) (s := s) (x := x)
      refine Grown.bind (Q := fun R' x y => R' = R ∧ x.1 = y.1 ∧ All2 (SubAlike s.heap t.heap R) x.2.1 y.2.1 ∧ x.2.2 = (expected c.env cl).2.memoise ∧ y.2.2 = (expected c.env cl).2.memoise ∧
        ∀ sub ∈ x.2.1, (∃ e, sub = .error e) ∨ ∃ (h : Heap) (sb : Sub), sub = .ok sb ∧ SubOf h ⟨cl, v⟩ sb.obj) ?_ ?_
      · refine ⟨R, fun _ _ h => h, ?_, k2, by rw [hh]; exact List.prefix_rfl, by rw [hh']; exact List.prefix_rfl⟩
        generalize hx : (dumpCreate c ⟨cl, v⟩ p name s).1 = x at k1
        generalize (dumpCreate c ⟨cl, v'⟩ p name t).1 = y at k1
        cases k1 with
        | error e => exact .error e
        | ok h => exact .ok ⟨rfl, h.1, h.2.1, h.2.2.1, h.2.2.2, hfrom _ hx⟩
      · rintro R' ⟨n, subs, mem⟩ ⟨n', subs', mem'⟩ s1 t1 - ⟨rfl, q1, q2, q3, q4, q5⟩ m1 g1 g2
        simp only at q1 q2 q3 q4 q5
        subst q1 q3 q4
        simp only []
        refine Grown.bind (.of_both setAttrs_both m1 setAttrs_on setAttrs_on) fun R1 _ _ s2 t2 r1 _ m2 g3 g4 => ?_
        refine Grown.bind (Q := fun _ _ _ => True) ?_ fun R2 _ _ s3 t3 r2 _ m3 g5 g6 => ?_
        · split
          · rename_i hme
            exact ⟨R1, fun _ _ h => h, .ok trivial, m2.remember (r1 _ _ hab) (getElem?_prefix (g1.trans g3) e1) hme n, List.prefix_rfl, List.prefix_rfl⟩
          · exact .pure m2 trivial
        · refine dumpSubs_mirror q2 q5 ?_ R2 s3 t3 (fun x y h => r2 x y (r1 x y h)) m3 ((g1.trans g3).trans g5) ((g2.trans g4).trans g6)
          intro R3 u u' s4 t4 m4 g7 g8 n1 n2 ha ⟨k, hk⟩
          refine Grown.bind (Q := fun R' x y => R' x y) ?_ fun R4 x y s5 t5 r4 hxy m5 _ _ => by rw [← n1, ← n2]; exact ih R4 x y _ _ _ s5 t5 m5 hxy
          obtain ⟨R5, x, y, s6, t6, w1, w2, w3, w4, w5, w6, w7⟩ := subAddr_mirror m4 g7 g8 ha hk
          exact ⟨R5, w3, by rw [w1, w2]; exact .ok w4, by rw [w1, w2]; exact w5, by rw [w1]; exact w6, by rw [w2]; exact w7⟩

/-! ### `dump` -/

/-- two computations that do the same from every state in which the registry is in order -/
def SameRun {α : Type} (P : Nat → Prop) (x y : SM α) : Prop := ∀ s, RegInv P s.reg → x s = y s

theorem SameRun.bind {α β : Type} {x y : SM α} {f g : α → SM β} {Q : α → Prop} (h2 : Two (SameFile P) x Q) (h : SameRun P x y) (hf : ∀ a, Q a → SameRun P (f a) (g a)) :
    SameRun P (x >>= f) (y >>= g) := by
  intro s hs
  obtain ⟨_, h3, h4⟩ := h2 s s ⟨rfl, rfl, rfl, rfl, hs, hs⟩
  rw [M.bind_apply, M.bind_apply, ← h s hs]
  rcases hx : x s with ⟨r, s1⟩
  rw [hx] at h3 h4
  cases r with
  | error e => rfl
  | ok a => exact hf a (h4 a rfl) s1 h3.left

theorem SameRun.refl {α : Type} (x : SM α) : SameRun P x x := fun _ _ => rfl

theorem finally_same {α : Type} {x y : SM α} {fin : SM Unit} (h : SameRun P x y) : SameRun P (finally' x fin) (finally' y fin) := by
  intro s hs
  have e : M.attempt x s = M.attempt y s := by unfold M.attempt; rw [h s hs]
  unfold finally'
  rw [M.bind_apply, M.bind_apply, e]

theorem dumpData_mirror {a : DumpArgs} {H' : Heap} {b : Addr} {g m} {mgr : Manager} (hE : EnvOk P a.env) (hm : mgr.Dumps) (hc : ∀ o ∈ a.heap, GoodCls P a.env o.cls)
    (hR : Alike a.env a.heap H' R) (hone : ∀ (x y x' y' : Addr) (o : Obj), R x y → R x' y' → a.heap[x]? = some o → (expected a.env o.cls).2.memoise = true → (x = x' ↔ y = y'))
    (hab : R a.obj b) : SameRun P (dumpData a g mgr m) (dumpData { a with heap := H', obj := b } g mgr m) := by
  intro s hs
  unfold dumpData
  cases m.table with
  | none => rfl
  | some T =>
    simp only []
    obtain ⟨R', _, h2, h3, _⟩ := dumpNode_mirror (c := ⟨a.env, mgr, a.kw, T⟩) hE hm a.fuel R a.obj b g dataName0 []
      { heap := a.heap, store := s.store, tlinks := m.tl, blinks := m.bl, reg := s.reg } { heap := H', store := s.store, tlinks := m.tl, blinks := m.bl, reg := s.reg }
      ⟨rfl, rfl, rfl, rfl, hR, hone, .nil, hs, hc⟩ hab
    rw [h3.store, h3.reg]
    refine Prod.ext ?_ rfl
    simp only
    generalize (dumpNode ⟨a.env, mgr, a.kw, T⟩ a.fuel a.obj g dataName0 [] { heap := a.heap, store := s.store, tlinks := m.tl, blinks := m.bl, reg := s.reg }).1 = x at h2
    generalize (dumpNode ⟨a.env, mgr, a.kw, T⟩ a.fuel b g dataName0 [] { heap := H', store := s.store, tlinks := m.tl, blinks := m.bl, reg := s.reg }).1 = y at h2
    cases h2 <;> rfl

theorem dumpTop_mirror {a : DumpArgs} {H' : Heap} {b : Addr} (hE : EnvOk P a.env) (hc : ∀ o ∈ a.heap, GoodCls P a.env o.cls) {os} (hos : a.options = some os)
    (hR : Alike a.env a.heap H' R) (hone : ∀ (x y x' y' : Addr) (o : Obj), R x y → R x' y' → a.heap[x]? = some o → (expected a.env o.cls).2.memoise = true → (x = x' ↔ y = y'))
    (hab : R a.obj b) : SameRun P (dumpTop a) (dumpTop { a with heap := H', obj := b }) := by
  unfold dumpTop
  intro s hs
  rw [M.bind_of_ok (M.get_apply s), M.bind_of_ok (M.get_apply s)]
  by_cases hw : s.writable = true
  · simp only [hw, Bool.not_true, Bool.false_eq_true, if_false]
    rw [hos]
    exact SameRun.bind (dumpGroup_two _) (.refl _) (fun g _ => .bind (Q := fun _ => True) (sSetAttr_two _ _ _) (.refl _) fun _ _ => .bind (Q := fun _ => True) (sSetAttr_two _ _ _) (.refl _) fun _ _ =>
      .bind loaderEnter_two (.refl _) fun mgr hmgr => finally_same (.bind refEnter_two (.refl _) fun m _ => finally_same (dumpData_mirror hE hmgr hc hR hone hab))) s hs
  · simp only [Bool.eq_false_iff.2 hw, Bool.not_false, if_true]

end Verif
