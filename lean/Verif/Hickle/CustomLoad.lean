import Verif.Hickle.CustomDump
/-!
# What a load with arbitrary loaders makes of the file
-/
namespace Verif.Custom

variable {C D V P K : Type}

/-- the file holds every object of `W` -/
structure Whole (L : Loaders C D V P K) (shares : C → Prop) (Hf : Heap C D) (file : File C V P) (W : Nat → Nat → Prop) : Prop where
  fn : ∀ n y y', W n y → W n y' → y = y'
  rep : ∀ n y, W n y → ∃ subs, Rep L shares Hf file n y subs ∧ All2 (Child file W) (links file n) subs
  one : ∀ (n n' y : Nat) (o : Obj C D), W n y → W n' y → Hf[y]? = some o → shares o.cls → n = n'

/-- what has been loaded so far -/
structure LInv (shares : C → Prop) (Hf : Heap C D) (W : Nat → Nat → Prop) (R : Nat → Nat → Prop) (s : LState C D) : Prop where
  valid : Valid R Hf s.heap
  memo : ∀ n x, Assoc.get? s.memo n = some x → ∃ y, W n y ∧ R x y
  shared : ∀ (x y : Nat) (o : Obj C D), R x y → Hf[y]? = some o → shares o.cls → ∃ n, W n y ∧ Assoc.get? s.memo n = some x
  inj : ∀ (x y y' : Nat) (o : Obj C D), R x y → R x y' → Hf[y]? = some o → shares o.cls → y = y'

theorem Valid.grow {R : Nat → Nat → Prop} {H L L' : Heap C D} (h : Valid R H L) (hp : L <+: L') : Valid R H L' := by
  intro x y hr
  obtain ⟨o, o', h1, h2, h3⟩ := h x y hr
  exact ⟨o, o', h1, at_prefix hp h2, h3⟩

theorem Deep.succ {L : Loaders C D V P K} {Hf : Heap C D} {k y : Nat} (h : Deep L Hf k y) : Deep L Hf (k + 1) y := by
  induction k generalizing y with
  | zero => exact h.elim
  | succ k ih => exact fun z hz => ih (h z hz)

theorem all2_perm {α β : Type} {r : α → β → Prop} {xs xs' : List α} {ys : List β} (hp : xs.Perm xs') (h : All2 r xs ys) : ∃ ys', ys'.Perm ys ∧ All2 r xs' ys' := by
  induction hp generalizing ys with
  | nil => exact ⟨ys, .refl _, h⟩
  | cons x _ ih =>
    cases h with
    | cons h1 h2 =>
      obtain ⟨ys', e1, e2⟩ := ih h2
      exact ⟨_ :: ys', e1.cons _, .cons h1 e2⟩
  | swap x y l =>
    cases h with
    | cons h1 h2 => cases h2 with | cons h2 h3 => exact ⟨_, .swap _ _ _, .cons h2 (.cons h1 h3)⟩
  | trans _ _ ih1 ih2 =>
    obtain ⟨ys', e1, e2⟩ := ih1 h
    obtain ⟨ys'', f1, f2⟩ := ih2 e2
    exact ⟨ys'', f1.trans e1, f2⟩

/-- what a call of `_load` does -/
structure LStep (L : Loaders C D V P K) (shares : C → Prop) (Hf : Heap C D) (W : Nat → Nat → Prop) (k : Nat) (R : Nat → Nat → Prop) (s s' : LState C D) (R' : Nat → Nat → Prop) : Prop where
  inv : LInv shares Hf W R' s'
  rel : ∀ x y, R x y → R' x y
  heap : s.heap <+: s'.heap
  keep : ∀ m v, Assoc.get? s.memo m = some v → Assoc.get? s'.memo m = some v
  new : ∀ m v, Assoc.get? s'.memo m = some v → Assoc.get? s.memo m = some v ∨ ∃ z, W m z ∧ Deep L Hf k z

theorem LStep.refl {L : Loaders C D V P K} {shares : C → Prop} {Hf : Heap C D} {W : Nat → Nat → Prop} {k : Nat} {R : Nat → Nat → Prop} {s : LState C D} (h : LInv shares Hf W R s) :
    LStep L shares Hf W k R s s R := ⟨h, fun _ _ h => h, List.prefix_rfl, fun _ _ h => h, fun _ _ h => .inl h⟩

theorem LStep.trans {L : Loaders C D V P K} {shares : C → Prop} {Hf : Heap C D} {W : Nat → Nat → Prop} {k : Nat} {R R1 R2 : Nat → Nat → Prop} {s s1 s2 : LState C D}
    (h1 : LStep L shares Hf W k R s s1 R1) (h2 : LStep L shares Hf W k R1 s1 s2 R2) : LStep L shares Hf W k R s s2 R2 := by
  refine ⟨h2.inv, fun x y h => h2.rel _ _ (h1.rel _ _ h), h1.heap.trans h2.heap, fun m v h => h2.keep _ _ (h1.keep _ _ h), ?_⟩
  intro m v h
  rcases h2.new m v h with h | h
  · exact h1.new m v h
  · exact .inr h

theorem LStep.up {L : Loaders C D V P K} {shares : C → Prop} {Hf : Heap C D} {W : Nat → Nat → Prop} {k : Nat} {R R' : Nat → Nat → Prop} {s s' : LState C D}
    (h : LStep L shares Hf W k R s s' R') : LStep L shares Hf W (k + 1) R s s' R' :=
  ⟨h.inv, h.rel, h.heap, h.keep, fun m v e => (h.new m v e).imp id fun ⟨z, h1, h2⟩ => ⟨z, h1, h2.succ⟩⟩

/-- a node of an object is no reference -/
theorem Whole.obj {L : Loaders C D V P K} {shares : C → Prop} {Hf : Heap C D} {file : File C V P} {W : Nat → Nat → Prop} (hW : Whole L shares Hf file W) {n y : Nat} (h : W n y) {nd t at'}
    (h1 : file[n]? = some nd) (h2 : nd.kind = .ref t at') : False := by
  obtain ⟨_, ⟨o, m, cls, base, attrs, pa, na, _, _, h3, _⟩, _⟩ := hW.rep n y h
  rw [h3] at h1
  simp at h1
  subst h1
  simp at h2

/-- the loop over the members -/
theorem items_spec {L : Loaders C D V P K} {shares : C → Prop} {Hf : Heap C D} {file : File C V P} {W : Nat → Nat → Prop} (hW : Whole L shares Hf file W)
    {order : List (String × Nat) → List (String × Nat)} {k f : Nat} (hf : 2 * k + 1 ≤ f)
    (ih : ∀ (f n y : Nat) (R : Nat → Nat → Prop) (s : LState C D), 2 * k ≤ f → W n y → Deep L Hf k y → LInv shares Hf W R s →
      ∃ x s' R', load L file order f n s = .ok (x, s') ∧ R' x y ∧ LStep L shares Hf W k R s s' R')
    (r : Restorer C D V P K) (ls : List (String × Nat)) (subs : List (Sub V)) (hls : All2 (Child file W) ls subs) (hdeep : ∀ sub ∈ subs, Deep L Hf k sub.addr)
    (R : Nat → Nat → Prop) (s : LState C D) (hI : LInv shares Hf W R s) :
    ∃ (its : List (Sub V × Nat × Attrs V)) (s' : LState C D) (R' : Nat → Nat → Prop), its.map (·.1) = subs ∧ (∀ i ∈ its, R' i.2.1 i.1.addr ∧ Agrees i.1.attrs i.2.2) ∧
      LStep L shares Hf W k R s s' R' ∧
      ∀ k0, items file r (load L file order f) ls k0 s =
        match fill r k0 (its.map fun i => (i.1.name, i.2)) with
        | .ok k1 => .ok (k1, s')
        | .error e => .error e := by
  induction hls generalizing R s with
  | nil => exact ⟨[], s, R, rfl, by simp, .refl hI, fun k0 => by simp [items, fill]⟩
  | @cons l sub ls subs hc _ ihl =>
    obtain ⟨name, m⟩ := l
    obtain ⟨hname, nd, hnd, hag, hch⟩ := hc
    simp only at hname hnd hch
    have hone : ∃ x s1 R1, load L file order f m s = .ok (x, s1) ∧ R1 x sub.addr ∧ LStep L shares Hf W k R s s1 R1 := by
      rcases hch with hch | ⟨t, at', hk, hch⟩
      · exact ih f m sub.addr R s (by omega) hch (hdeep sub (by simp)) hI
      · obtain ⟨f, rfl⟩ : ∃ f', f = f' + 1 := ⟨f - 1, by omega⟩
        obtain ⟨x, s1, R1, e1, e2⟩ := ih f t sub.addr R s (by omega) hch (hdeep sub (by simp)) hI
        refine ⟨x, s1, R1, ?_, e2⟩
        have hm : Assoc.get? s.memo m = none := by
          cases hm : Assoc.get? s.memo m with
          | none => rfl
          | some v =>
            obtain ⟨y, hw, _⟩ := hI.memo _ _ hm
            exact (hW.obj hw hnd hk).elim
        obtain ⟨pa, na, kd⟩ := nd
        simp only at hk
        subst hk
        simp only [load, hm, hnd]
        exact e1
    obtain ⟨x, s1, R1, e1, e2, st⟩ := hone
    obtain ⟨its, s2, R2, f1, f2, f3, f4⟩ := ihl (fun x hx => hdeep x (by simp [hx])) R1 s1 st.inv
    refine ⟨(sub, x, nd.kind.attrs) :: its, s2, R2, by simp [f1], ?_, st.trans f3, ?_⟩
    · intro i hi
      rcases List.mem_cons.1 hi with rfl | hi
      · exact ⟨f3.rel _ _ e2, hag⟩
      · exact f2 i hi
    · intro k0
      simp only [items, e1, hnd, List.map_cons, fill, hname]
      cases r.append k0 sub.name x nd.kind.attrs with
      | error e => rfl
      | ok k1 => exact f4 k1

theorem load_spec {L : Loaders C D V P K} {shares : C → Prop} {Hf : Heap C D} {file : File C V P} {W : Nat → Nat → Prop} (hW : Whole L shares Hf file W)
    {order : List (String × Nat) → List (String × Nat)} (hord : ∀ l, (order l).Perm l) (k : Nat) :
    ∀ (f n y : Nat) (R : Nat → Nat → Prop) (s : LState C D), 2 * k ≤ f → W n y → Deep L Hf k y → LInv shares Hf W R s →
      ∃ x s' R', load L file order f n s = .ok (x, s') ∧ R' x y ∧ LStep L shares Hf W k R s s' R' := by
  induction k with
  | zero => intro f n y R s _ _ h; exact h.elim
  | succ k ih =>
    intro f n y R s hf hw hd hI
    by_cases hdk : Deep L Hf k y
    · obtain ⟨x, s', R', e1, e2, e3⟩ := ih f n y R s (by omega) hw hdk hI
      exact ⟨x, s', R', e1, e2, e3.up⟩
    obtain ⟨f, rfl⟩ : ∃ f', f = f' + 1 := ⟨f - 1, by omega⟩
    cases hm : Assoc.get? s.memo n with
    | some x =>
      obtain ⟨y', h1, h2⟩ := hI.memo _ _ hm
      have := hW.fn _ _ _ h1 hw
      subst this
      exact ⟨x, s, R, by simp [load, hm], h2, .refl hI⟩
    | none =>
      obtain ⟨subs, ⟨o, m, cls, base, attrs, pa, na, r1, r2, r3, r4, r5, r6, r7, r8⟩, hls⟩ := hW.rep n y hw
      obtain ⟨subs', p1, hls'⟩ := all2_perm (hord _).symm hls
      obtain ⟨its, s1, R1, i1, i2, i3, i4⟩ := items_spec hW (f := f) (by omega) ih (L.restorer base) _ subs' hls'
        (fun sub hs => hd _ (r8 sub (p1.mem_iff.1 hs))) R s hI
      obtain ⟨k1, x, L1, o', c1, c2, c3, c4, c5, c6, c7, c8⟩ := r5 Hf r2 R1 s1.heap i3.inv.valid attrs r4 its (by rw [i1, r7]; exact p1) i2
      have hload : load L file order (f + 1) n s = .ok (x, ⟨L1, if (L.entry (L.clsOf cls)).memoise then Assoc.put s1.memo n x else s1.memo⟩) := by
        simp only [load, hm, r3, i4, c1, c2]
      have hn1 : Assoc.get? s1.memo n = none := by
        cases h1 : Assoc.get? s1.memo n with
        | none => rfl
        | some v =>
          rcases i3.new n v h1 with h2 | ⟨z, h2, h3⟩
          · rw [hm] at h2; simp at h2
          · have := hW.fn _ _ _ h2 hw
            subst this
            exact (hdk h3).elim
      generalize hM : (if (L.entry (L.clsOf cls)).memoise then Assoc.put s1.memo n x else s1.memo) = M1 at hload
      have hkeep : ∀ m v, Assoc.get? s1.memo m = some v → Assoc.get? M1 m = some v := by
        intro m v hv
        subst hM
        split
        · rw [Assoc.get?_put_ne]
          · exact hv
          · rintro rfl; rw [hn1] at hv; simp at hv
        · exact hv
      have hnew : ∀ m v, Assoc.get? M1 m = some v → Assoc.get? s1.memo m = some v ∨ m = n ∧ v = x := by
        intro m v hv
        subst hM
        split at hv
        · rw [Assoc.get?_put] at hv
          split at hv
          · next h => simp at hv; exact .inr ⟨h.symm, hv.symm⟩
          · exact .inl hv
        · exact .inl hv
      have hput : shares o.cls → Assoc.get? M1 n = some x := by
        intro hs
        subst hM
        rw [r6 hs]; simp
      let R2 : Nat → Nat → Prop := fun x' y' => R1 x' y' ∨ (x' = x ∧ y' = y) ∨ Rebuilt shares R1 Hf L1 x' y'
      -- the class of the objects that stand for an object that is to be shared
      have hval : Valid R2 Hf L1 := by
        rintro x' y' (h | ⟨rfl, rfl⟩ | h)
        · obtain ⟨p, p', h1, h2, h3, h4, h5⟩ := i3.inv.valid.grow c3 x' y' h
          exact ⟨p, p', h1, h2, h3, h4, all2_imp h5 fun _ _ h => .inl h⟩
        · refine ⟨o, o', r1, c4, c5, c6, all2_imp c7 fun _ _ h => ?_⟩
          rcases h with h | h
          · exact .inl h
          · exact .inr (.inr h)
        · obtain ⟨Q, h0, hQ⟩ := h
          obtain ⟨p, p', h1, h2, h3, h4, h5, _⟩ := hQ x' y' h0
          refine ⟨p, p', h1, h2, h3, h4, all2_imp h5 fun u v h => ?_⟩
          rcases h with h | h
          · exact .inl h
          · exact .inr (.inr ⟨Q, h, hQ⟩)
      have hcase : ∀ (x' y' : Nat) (p : Obj C D), R2 x' y' → Hf[y']? = some p → shares p.cls → R1 x' y' ∨ (x' = x ∧ y' = y) := by
        rintro x' y' p (h | h | h) hp hs
        · exact .inl h
        · exact .inr h
        · obtain ⟨Q, h0, hQ⟩ := h
          obtain ⟨q, _, h1, _, _, _, _, h2⟩ := hQ x' y' h0
          rw [hp] at h1; simp at h1; subst h1
          exact (h2 hs).elim
      have hlt : ∀ x' y', R1 x' y' → x' < s1.heap.length := by
        intro x' y' h
        obtain ⟨p, p', _, h2, _⟩ := i3.inv.valid x' y' h
        rcases Nat.lt_or_ge x' s1.heap.length with h | h
        · exact h
        · simp [h] at h2
      refine ⟨x, ⟨L1, M1⟩, R2, hload, .inr (.inl ⟨rfl, rfl⟩), ⟨⟨hval, ?_, ?_, ?_⟩, fun x y h => .inl (i3.rel _ _ h), i3.heap.trans c3, fun m v h => hkeep _ _ (i3.keep _ _ h), ?_⟩⟩
      · intro m v hv
        rcases hnew m v hv with hv | ⟨rfl, rfl⟩
        · obtain ⟨z, h1, h2⟩ := i3.inv.memo _ _ hv
          exact ⟨z, h1, .inl h2⟩
        · exact ⟨y, hw, .inr (.inl ⟨rfl, rfl⟩)⟩
      · intro x' y' p hr hp hs
        rcases hcase x' y' p hr hp hs with h | ⟨rfl, rfl⟩
        · obtain ⟨m, h1, h2⟩ := i3.inv.shared _ _ _ h hp hs
          exact ⟨m, h1, hkeep _ _ h2⟩
        · rw [r1] at hp; simp at hp; subst hp
          exact ⟨n, hw, hput hs⟩
      · intro x' y' y'' p h1 h2 hp hs
        obtain ⟨q, q', g1, g2, g3, _⟩ := hval x' y' h1
        obtain ⟨q2, q2', k1, k2, k3, _⟩ := hval x' y'' h2
        have hs2 : shares q2.cls := by
          rw [g2] at k2; simp at k2; subst k2
          rw [hp] at g1; simp at g1; subst g1
          rw [← k3, g3]; exact hs
        rcases hcase x' y' p h1 hp hs with h5 | ⟨rfl, rfl⟩ <;> rcases hcase x' y'' q2 h2 k1 hs2 with h6 | ⟨h6, rfl⟩
        · exact i3.inv.inj _ _ _ _ h5 h6 hp hs
        · rw [r1] at k1; simp at k1; subst k1
          have := hlt _ _ h5
          have := c8 hs2
          omega
        · rw [r1] at hp; simp at hp; subst hp
          have := hlt _ _ h6
          have := c8 hs
          omega
        · rfl
      · intro m v hv
        rcases hnew m v hv with hv | ⟨rfl, rfl⟩
        · rcases i3.new m v hv with h | ⟨z, h1, h2⟩
          · exact .inl h
          · exact .inr ⟨z, h1, h2.succ⟩
        · exact .inr ⟨y, hw, hd⟩

/-- dump, then load -/
theorem round_trip {L : Loaders C D V P K} {good : Heap C D → Prop} {shares : C → Prop} {isSub : String → Prop} (hc : Contract L good shares isSub) {H : Heap C D} (hg : good H) (hcl : Closed H) {a k : Nat}
    (hd : ∀ Hf, H <+: Hf → Deep L Hf k a) {fuel : Nat} {file : File C V P} (h : dumpTop L fuel H a = .ok file)
    {order : List (String × Nat) → List (String × Nat)} (hord : ∀ l, (order l).Perm l) {f : Nat} (hf : 2 * k ≤ f) :
    ∃ b L', loadTop L order f file = .ok (b, L') ∧ Copy shares H L' b a := by
  unfold dumpTop at h
  cases hdump : dump L fuel a none "data" [] ⟨H, [], []⟩ with
  | error e => rw [hdump] at h; simp [Except.map] at h
  | ok s' =>
    rw [hdump] at h
    simp [Except.map] at h
    subst h
    have hI : Inv L good shares (fun _ _ => False) [] (⟨H, [], []⟩ : DState C D V P) :=
      ⟨hg, by simp, fun y n h => by simp at h, fun _ _ _ h => h.elim, fun _ _ _ h => h.elim, fun _ _ h => h.elim⟩
    obtain ⟨W, nd, news, st⟩ := dump_spec hc fuel a none "data" [] _ s' _ [] hdump hI (by simp) (by simp)
    have hW : Whole L shares s'.heap s'.file W := by
      refine ⟨st.inv.fn, ?_, ?_⟩
      · intro n y hw
        obtain ⟨subs, h1, h2⟩ := st.inv.rep n y hw
        exact ⟨subs, h1, h2 (by simp)⟩
      · intro n n' y o h1 h2 h3 h4
        have e1 := st.inv.memoised _ _ _ h1 h3 (hc.memo _ h4)
        have e2 := st.inv.memoised _ _ _ h2 h3 (hc.memo _ h4)
        rw [e1] at e2; simpa using e2
    obtain ⟨hroot, hlt⟩ : W 0 a ∧ a < H.length := st.direct rfl
    obtain ⟨x, t, R, e1, e2, st2⟩ := load_spec hW hord k f 0 a (fun _ _ => False) ⟨[], []⟩ hf hroot (hd _ st.heap)
      ⟨fun _ _ h => h.elim, fun n x h => by simp at h, fun _ _ _ h => h.elim, fun _ _ _ _ h => h.elim⟩
    refine ⟨x, t.heap, by simp [loadTop, e1, Except.map], fun x y => R x y ∧ y < H.length, ⟨e2, hlt⟩, ?_, ?_⟩
    · rintro x y ⟨h1, h2⟩
      obtain ⟨o, o', g1, g2, g3, g4, g5⟩ := st2.inv.valid x y h1
      have hy : H[y]? = some o := by
        obtain ⟨q, hq⟩ : ∃ q, H[y]? = some q := ⟨H[y], List.getElem?_eq_getElem h2⟩
        have := at_prefix st.heap hq
        rw [g1] at this; simp at this; rw [this]; exact hq
      refine ⟨o, o', hy, g2, g3, g4, ?_⟩
      have hk := hcl y o hy
      generalize o.kids = ks at g5 hk
      clear g2
      generalize o'.kids = ks' at g5
      induction g5 with
      | nil => exact .nil
      | cons r _ ih => exact .cons ⟨r, hk _ (by simp)⟩ (ih fun z hz => hk z (by simp [hz]))
    · rintro x y x' y' o ⟨h1, _⟩ ⟨h2, _⟩ h3 h4
      have h3' := at_prefix st.heap h3
      constructor
      · rintro rfl
        exact st2.inv.inj _ _ _ _ h1 h2 h3' h4
      · rintro rfl
        obtain ⟨n, g1, g2⟩ := st2.inv.shared _ _ _ h1 h3' h4
        obtain ⟨n', g3, g4⟩ := st2.inv.shared _ _ _ h2 h3' h4
        have := hW.one _ _ _ _ g1 g3 h3' h4
        subst this
        rw [g2] at g4; simpa using g4

end Verif.Custom
