import Verif.Props.Basic
/-!
# When two object graphs are the same

`Same L b K c`: object `b` of heap `L` and object `c` of heap `K` have the same structure: same classes,
same values, same order, same sharing.  The specification does not mention dump or load.
-/
namespace Verif

/-- equal values up to the naming of objects by `I` -/
inductive ValSame (I : Addr → Addr → Prop) : Val → Val → Prop
  | atom {v} : v.isAtom = true → ValSame I v v
  | seq {xs ys} : All2 I xs ys → ValSame I (.seq xs) (.seq ys)
  | set {xs ys zs} : All2 I xs zs → zs.Perm ys → ValSame I (.set xs) (.set ys)
  | dict {es es'} : All2 (fun (e e' : Addr × Addr) => I e.1 e'.1 ∧ I e.2 e'.2) es es' → ValSame I (.dict es) (.dict es')
  | oarr {sh xs ys} : All2 I xs ys → ValSame I (.oarr sh xs) (.oarr sh ys)
  | sparse {d i p d' i' p' sh} : I d d' → I i i' → I p p' → ValSame I (.sparse d i p sh) (.sparse d' i' p' sh)

/-- lists, tuples, sets, dicts, arrays, sparse matrices and pickled objects (not numbers and strings) -/
def Val.shareable : Val → Bool
  | .seq _ | .set _ | .dict _ | .arr .. | .sarr .. | .oarr .. | .masked .. | .sparse .. | .opaque .. => true
  | _ => false

/-- the same object, up to the naming of objects -/
def Same (L : Heap) (b : Addr) (K : Heap) (c : Addr) : Prop :=
  ∃ I : Addr → Addr → Prop, I b c ∧
    (∀ x y, I x y → ∃ o o', L[x]? = some o ∧ K[y]? = some o' ∧ o.cls = o'.cls ∧ ValSame I o.val o'.val) ∧
    (∀ x y x' y' o, I x y → I x' y' → L[x]? = some o → o.val.shareable = true → (x = x' ↔ y = y'))

/-! ### two copies of one object are the same -/

theorem All2.zip {α β γ : Type} {r : α → γ → Prop} {r' : β → γ → Prop} {q : α → β → Prop} {xs : List α} {ys : List β} {zs : List γ}
    (h1 : All2 r xs zs) (h2 : All2 r' ys zs) (h : ∀ x y z, r x z → r' y z → q x y) : All2 q xs ys := by
  induction h1 generalizing ys with
  | nil => cases h2; exact .nil
  | cons a _ ih => cases h2 with | cons b h2 => exact .cons (h _ _ _ a b) (ih h2)

theorem All2.mem_right {α β : Type} {r : α → β → Prop} {xs ys} (ha : All2 r xs ys) {y} (hy : y ∈ ys) : ∃ x ∈ xs, r x y := by
  induction ha with
  | nil => simp at hy
  | cons h1 _ ih =>
    rcases List.mem_cons.1 hy with rfl | hy
    · exact ⟨_, by simp, h1⟩
    · obtain ⟨x, h2, h3⟩ := ih hy; exact ⟨x, by simp [h2], h3⟩

theorem All2.flip {α β : Type} {r : α → β → Prop} {xs ys} (h : All2 r xs ys) : All2 (fun y x => r x y) ys xs := by
  induction h with
  | nil => exact .nil
  | cons h1 _ ih => exact .cons h1 ih

theorem All2.imp_mem {α β : Type} {r q : α → β → Prop} {xs ys} (ha : All2 r xs ys) (h : ∀ x y, x ∈ xs → r x y → q x y) : All2 q xs ys := by
  induction ha with
  | nil => exact .nil
  | cons h1 _ ih => exact .cons (h _ _ (by simp) h1) (ih fun x y hx => h x y (by simp [hx]))

theorem castNum_rank {d : DT} {v w : NpVal} (h : castNum d v = some w) : v.dt.rank ≤ d.rank := by
  cases d <;> cases v <;> simp [castNum] at h <;> simp [NpVal.dt, DT.rank]

theorem DT.rank_inj {d e : DT} (h : d.rank = e.rank) : d = e := by cases d <;> cases e <;> simp [DT.rank] at h <;> rfl

/-- facts about a number that was converted -/
theorem SameNum.rank {H : Heap} {d : DT} {c : Addr} {o o' : Obj} (ho : H[c]? = some o) (h : SameNum d o o') :
    ∃ e, numDt H c = some e ∧ e.rank ≤ d.rank := by
  obtain ⟨v, w, h1, _, h2, _⟩ := h
  exact ⟨v.dt, by simp [numDt, ho, h1], castNum_rank h2⟩

theorem SameNum.unique {d : DT} {o o1 o2 : Obj} (h1 : SameNum d o o1) (h2 : SameNum d o o2) : o1 = o2 := by
  obtain ⟨v, w, a1, a2, a3, _⟩ := h1
  obtain ⟨v', w', b1, b2, b3, _⟩ := h2
  rw [a1] at b1; simp at b1; subst b1
  rw [a3] at b3; simp at b3; subst b3
  rw [a2, b2]

/-- the type numbers are converted to is determined by the numbers -/
theorem NumItems.unique {H : Heap} {d e : DT} {as : List Addr} (hd : ∃ c ∈ as, numDt H c = some d) (he : ∃ c ∈ as, numDt H c = some e)
    (h1 : ∀ c ∈ as, ∃ f, numDt H c = some f ∧ f.rank ≤ d.rank) (h2 : ∀ c ∈ as, ∃ f, numDt H c = some f ∧ f.rank ≤ e.rank) : d = e := by
  obtain ⟨c, hc, hd⟩ := hd
  obtain ⟨c', hc', he⟩ := he
  obtain ⟨f, f1, f2⟩ := h2 c hc
  obtain ⟨g, g1, g2⟩ := h1 c' hc'
  rw [hd] at f1; rw [he] at g1; simp at f1 g1; subst f1 g1
  exact DT.rank_inj (Nat.le_antisymm f2 g2)

theorem copies_same {H L K : Heap} {a b c : Addr} (h1 : Copy H L b a) (h2 : Copy H K c a) : Same L b K c := by
  obtain ⟨R, N, Q, r1, r2, r3, r4, r5, r6⟩ := h1
  obtain ⟨R', N', Q', q1, q2, q3, q4, q5, q6⟩ := h2
  let I : Addr → Addr → Prop := fun x y => ∃ z, ((R x z ∨ Q x z) ∧ (R' y z ∨ Q' y z)) ∨ ∃ d, N d x z ∧ N' d y z
  have hN : ∀ {d xs as}, All2 (N d) xs as → ∀ z ∈ as, ∃ f, numDt H z = some f ∧ f.rank ≤ d.rank := by
    intro d xs as h z hz
    obtain ⟨x, _, h1⟩ := h.mem_right hz
    obtain ⟨o, o', e1, _, e2⟩ := r3 d x z h1
    exact e2.rank e1
  have hN' : ∀ {d xs as}, All2 (N' d) xs as → ∀ z ∈ as, ∃ f, numDt H z = some f ∧ f.rank ≤ d.rank := by
    intro d xs as h z hz
    obtain ⟨x, _, h1⟩ := h.mem_right hz
    obtain ⟨o, o', e1, _, e2⟩ := q3 d x z h1
    exact e2.rank e1
  -- items
  have items : ∀ {xs ys as}, ItemsCopy H R N xs as → ItemsCopy H R' N' ys as → All2 I xs ys := by
    intro xs ys as i1 i2
    rcases i1 with ⟨i1, j1⟩ | ⟨d, j1, i1⟩ <;> rcases i2 with ⟨i2, j2⟩ | ⟨e, j2, i2⟩
    · exact i1.zip i2 fun x y z k1 k2 => ⟨z, .inl ⟨.inl k1, .inl k2⟩⟩
    · rcases j1 with rfl | ⟨z, k1, k2⟩
      · obtain ⟨z, k1, _⟩ := j2; simp at k1
      · obtain ⟨f, k3, _⟩ := hN' i2 z k1
        rw [k2] at k3; simp at k3
    · rcases j2 with rfl | ⟨z, k1, k2⟩
      · obtain ⟨z, k1, _⟩ := j1; simp at k1
      · obtain ⟨f, k3, _⟩ := hN i1 z k1
        rw [k2] at k3; simp at k3
    · have := NumItems.unique j1 j2 (hN i1) (hN' i2)
      subst this
      exact i1.zip i2 fun x y z k1 k2 => ⟨z, .inr ⟨d, k1, k2⟩⟩
  -- a key rebuilt in one and copied in the other
  have mixed : ∀ {z : Addr} {o : Obj} {xs v} {R0 : Addr → Addr → Prop} {N0 : DT → Addr → Addr → Prop}, H[z]? = some o → o.nameKey = true → o.plainKey = false →
      (∀ {d xs as}, All2 (N0 d) xs as → ∀ z ∈ as, ∃ f, numDt H z = some f ∧ f.rank ≤ d.rank) → ItemsCopy H R0 N0 xs [z, v] → All2 R0 xs [z, v] := by
    intro z o xs v R0 N0 h1 h2 h3 h4 h5
    rcases h5 with ⟨h5, _⟩ | ⟨d, _, h5⟩
    · exact h5
    · obtain ⟨f, k1, _⟩ := h4 h5 z (by simp)
      simp [numDt, h1, nameKey_num h2 h3] at k1
  refine ⟨I, ⟨a, .inl ⟨.inl r1, .inl q1⟩⟩, ?_, ?_⟩
  · rintro x y ⟨z, ⟨hx | hx, hy | hy⟩ | ⟨d, hx, hy⟩⟩
    · obtain ⟨⟨cl, val⟩, ⟨cl1, val1⟩, e1, e2, e3, e4⟩ := r2 x z hx
      obtain ⟨o, ⟨cl2, val2⟩, f1, f2, f3, f4⟩ := q2 y z hy
      rw [e1] at f1; simp at f1; subst f1
      simp only at e3 e4 f3 f4
      refine ⟨_, _, e2, f2, by simp [e3, f3], ?_⟩
      simp only
      cases e4 with
      | atom ha =>
        cases f4 with
        | atom _ => exact .atom ha
        | _ => simp [Val.isAtom] at ha
      | seq i1 =>
        cases f4 with
        | atom ha => simp [Val.isAtom] at ha
        | seq i2 => exact .seq (items i1 i2)
      | @set xs as bs i1 p1 =>
        cases f4 with
        | atom ha => simp [Val.isAtom] at ha
        | @set ys _ bs' i2 p2 =>
          -- the elements of the second set in the order of the first
          have hp : bs'.Perm bs := p2.trans p1.symm
          have : ∃ ys', ItemsCopy H R' N' ys' bs ∧ ys'.Perm ys := by
            rcases i2 with ⟨i2, j⟩ | ⟨d, ⟨w, j1, j2⟩, i2⟩
            · obtain ⟨ws, k1, k2⟩ := All2.perm_right hp i2
              refine ⟨ws, .inl ⟨k1, ?_⟩, k2⟩
              rcases j with rfl | ⟨w, j1, j2⟩
              · exact .inl hp.symm.eq_nil
              · exact .inr ⟨w, hp.mem_iff.1 j1, j2⟩
            · obtain ⟨ws, k1, k2⟩ := All2.perm_right hp i2
              exact ⟨ws, .inr ⟨d, ⟨w, hp.mem_iff.1 j1, j2⟩, k1⟩, k2⟩
          obtain ⟨ys', k1, k2⟩ := this
          exact .set (items i1 k1) k2
      | dict i1 =>
        cases f4 with
        | atom ha => simp [Val.isAtom] at ha
        | dict i2 =>
          refine .dict (i1.zip i2 ?_)
          rintro ⟨k1, v1⟩ ⟨k2, v2⟩ ⟨k, v⟩ h1 h2
          simp only [EntryCopy] at h1 h2 ⊢
          rcases h1 with ⟨h1, h3⟩ | ⟨⟨o1, h1, h3⟩, h5⟩ <;> rcases h2 with ⟨h2, h4⟩ | ⟨⟨o2, h2, h4⟩, h6⟩
          · exact ⟨⟨k, .inl ⟨.inr h1, .inr h2⟩⟩, ⟨v, .inl ⟨.inl h3, .inl h4⟩⟩⟩
          · obtain ⟨o, g1, g2, g3⟩ := r4 _ _ h1
            rw [g1] at h2; simp at h2; subst h2
            have := mixed g1 g3 h4 hN' h6
            cases this with
            | cons m1 m2 => cases m2 with | cons m2 _ =>
              exact ⟨⟨k, .inl ⟨.inr h1, .inl m1⟩⟩, ⟨v, .inl ⟨.inl h3, .inl m2⟩⟩⟩
          · obtain ⟨o, g1, g2, g3⟩ := q4 _ _ h2
            rw [g1] at h1; simp at h1; subst h1
            have := mixed g1 g3 h3 hN h5
            cases this with
            | cons m1 m2 => cases m2 with | cons m2 _ =>
              exact ⟨⟨k, .inl ⟨.inl m1, .inr h2⟩⟩, ⟨v, .inl ⟨.inl m2, .inl h4⟩⟩⟩
          · cases items h5 h6 with
            | cons m1 m2 => cases m2 with | cons m2 _ => exact ⟨m1, m2⟩
      | oarr i1 =>
        cases f4 with
        | atom ha => simp [Val.isAtom] at ha
        | oarr i2 => exact .oarr (i1.zip i2 fun x y z k1 k2 => ⟨z, .inl ⟨.inl k1, .inl k2⟩⟩)
      | sparse i1 i2 i3 =>
        cases f4 with
        | atom ha => simp [Val.isAtom] at ha
        | sparse j1 j2 j3 => exact .sparse ⟨_, .inl ⟨.inl i1, .inl j1⟩⟩ ⟨_, .inl ⟨.inl i2, .inl j2⟩⟩ ⟨_, .inl ⟨.inl i3, .inl j3⟩⟩
    · obtain ⟨⟨cl, val⟩, ⟨cl1, val1⟩, e1, e2, e3, e4⟩ := r2 x z hx
      obtain ⟨o, f1, f2, f3⟩ := q4 y z hy
      rw [e1] at f1; simp at f1; subst f1
      refine ⟨_, _, e2, f2, e3, ?_⟩
      have := Obj.nameKey_atom f3
      simp only at e4 this ⊢
      cases e4 with
      | atom ha => exact .atom ha
      | _ => simp [Val.isAtom] at this
    · obtain ⟨⟨cl, val⟩, ⟨cl1, val1⟩, e1, e2, e3, e4⟩ := q2 y z hy
      obtain ⟨o, f1, f2, f3⟩ := r4 x z hx
      rw [e1] at f1; simp at f1; subst f1
      refine ⟨_, _, f2, e2, e3.symm, ?_⟩
      have := Obj.nameKey_atom f3
      simp only at e4 this ⊢
      cases e4 with
      | atom ha => exact .atom ha
      | _ => simp [Val.isAtom] at this
    · obtain ⟨o, e1, e2, e3⟩ := r4 x z hx
      obtain ⟨o', f1, f2, f3⟩ := q4 y z hy
      rw [e1] at f1; simp at f1; subst f1
      exact ⟨o, o, e2, f2, rfl, .atom (Obj.nameKey_atom e3)⟩
    · obtain ⟨o, o1, e1, e2, e3⟩ := r3 d x z hx
      obtain ⟨o', o2, f1, f2, f3⟩ := q3 d y z hy
      rw [e1] at f1; simp at f1; subst f1
      have := e3.unique f3
      subst this
      obtain ⟨v, w, _, rfl, _⟩ := e3
      exact ⟨_, _, e2, f2, rfl, .atom rfl⟩
  · -- sharing
    have inR : ∀ {x y o z}, L[x]? = some o → o.val.shareable = true → ((R x z ∨ Q x z) ∧ (R' y z ∨ Q' y z)) ∨ (∃ d, N d x z ∧ N' d y z) →
        R x z ∧ R' y z ∧ ∃ q, H[z]? = some q ∧ q.val.hasIdentity = true := by
      intro x y o z ho hs h
      have hq : ∀ {o : Obj}, o.nameKey = true → o.val.shareable = false := by
        rintro ⟨cl, v⟩ hk
        cases cl <;> cases v <;> first | rfl | simp [Obj.nameKey, Obj.plainKey] at hk
      rcases h with ⟨hx | hx, hy⟩ | ⟨d, hx, _⟩
      · obtain ⟨⟨cl, val⟩, ⟨cl1, val1⟩, e1, e2, e3, e4⟩ := r2 x z hx
        rw [ho] at e2; simp at e2; subst e2
        have hid : val.shareable = true ∧ val.hasIdentity = true := by
          simp only at e4 hs
          cases e4 with
          | atom ha => exact ⟨hs, by cases val <;> first | rfl | simp [Val.shareable] at hs⟩
          | _ => exact ⟨rfl, rfl⟩
        refine ⟨hx, ?_, _, e1, hid.2⟩
        rcases hy with hy | hy
        · exact hy
        · obtain ⟨o', f1, f2, f3⟩ := q4 y z hy
          rw [e1] at f1; simp at f1; subst f1
          have := hq f3
          simp only at this
          rw [hid.1] at this; simp at this
      · obtain ⟨o', e1, e2, e3⟩ := r4 x z hx
        rw [ho] at e2; simp at e2; subst e2
        rw [hq e3] at hs; simp at hs
      · obtain ⟨o', o1, e1, e2, v, w, _, rfl, _⟩ := r3 d x z hx
        rw [ho] at e2; simp at e2; subst e2
        simp [Val.shareable] at hs
    have toT : ∀ {x y z}, ((R x z ∨ Q x z) ∧ (R' y z ∨ Q' y z)) ∨ (∃ d, N d x z ∧ N' d y z) →
        (R x z ∨ (∃ d, N d x z) ∨ Q x z) ∧ (R' y z ∨ (∃ d, N' d y z) ∨ Q' y z) := by
      rintro x y z (⟨h1, h2⟩ | ⟨d, h1, h2⟩)
      · exact ⟨h1.elim .inl fun h => .inr (.inr h), h2.elim .inl fun h => .inr (.inr h)⟩
      · exact ⟨.inr (.inl ⟨d, h1⟩), .inr (.inl ⟨d, h2⟩)⟩
    rintro x y x' y' o ⟨z, h1⟩ ⟨z', h2⟩ ho hs
    obtain ⟨k1, k2, q, k3, k4⟩ := inR ho hs h1
    constructor
    · rintro rfl
      have := r5 x z z' (toT h1).1 (toT h2).1
      subst this
      obtain ⟨_, m2, _⟩ := inR ho hs h2
      exact q6 y y' z q k2 m2 k3 k4
    · rintro rfl
      have := q5 y z z' (toT h1).2 (toT h2).2
      subst this
      have : R x' z := by
        rcases h2 with ⟨h2 | h2, _⟩ | ⟨d, h2, _⟩
        · exact h2
        · obtain ⟨o', e1, e2, e3⟩ := r4 x' z h2
          rw [k3] at e1; simp at e1; subst e1
          obtain ⟨⟨cl, val⟩, o1, f1, f2, f3, f4⟩ := r2 x z k1
          rw [k3] at f1; simp at f1; subst f1
          rw [ho] at f2; simp at f2; subst f2
          have := Obj.nameKey_atom e3
          obtain ⟨cl1, val1⟩ := o
          simp only at f4 this hs
          cases f4 with
          | atom _ =>
            cases cl <;> cases val <;> first | (simp [Val.shareable] at hs; done) | simp [Obj.nameKey, Obj.plainKey] at e3
          | _ => simp [Val.isAtom] at this
        · obtain ⟨o', o1, e1, _, v, w, e2, _⟩ := r3 d x' z h2
          rw [k3] at e1; simp at e1; subst e1
          obtain ⟨cl, val⟩ := q
          cases val <;> first | (simp [Val.hasIdentity] at k4; done) | (cases cl <;> simp [exactNum] at e2)
      exact r6 x x' z q k1 this k3 k4

/-! ### a copy of a copy is the same as the copy -/

theorem copy_again {H L K : Heap} {a b c : Addr} (h1 : Copy H L b a) (h2 : Copy L K c b) : Same L b K c := by
  obtain ⟨R, N, Q, r1, r2, r3, r4, r5, r6⟩ := h1
  obtain ⟨R', N', Q', q1, q2, q3, q4, q5, q6⟩ := h2
  -- what the first copy made of an object that is a number now
  have numR : ∀ {x z e}, R x z → numDt L x = some e → numDt H z = some e := by
    intro x z e hx he
    obtain ⟨⟨cl, val⟩, ⟨cl', val'⟩, e1, e2, e3, e4⟩ := r2 x z hx
    simp only at e3 e4
    subst e3
    simp only [numDt, e2, Option.bind_some, Option.map_eq_some_iff] at he
    obtain ⟨v, he, hd⟩ := he
    have hat := exactNum_atom he
    cases e4 with
    | atom => simp [numDt, e1, he, hd]
    | _ => simp [Val.isAtom] at hat
  -- if all items are numbers now, the first copy made them so
  have settle : ∀ {xs as : List Addr} {d : DT} {ys : List Addr}, ItemsCopy H R N xs as → (∃ x ∈ xs, numDt L x = some d) → All2 (N' d) ys xs →
      All2 (fun x y => ∃ d, N' d y x ∧ L[x]? = K[y]?) xs ys := by
    intro xs as d ys i1 hatt i2
    have hall : ∀ x ∈ xs, ∃ e, numDt L x = some e := by
      intro x hx
      obtain ⟨y, _, hy⟩ := i2.mem_right hx
      obtain ⟨o, o', e1, _, e2⟩ := q3 d y x hy
      obtain ⟨e, e3, _⟩ := e2.rank e1
      exact ⟨e, e3⟩
    rcases i1 with ⟨i1, j⟩ | ⟨d0, _, i1⟩
    · rcases j with rfl | ⟨z, j1, j2⟩
      · cases i1; obtain ⟨x, hx, _⟩ := hatt; simp at hx
      · obtain ⟨x, hx, hr⟩ := i1.mem_right j1
        obtain ⟨e, he⟩ := hall x hx
        rw [numR hr he] at j2; simp at j2
    · have hd : ∀ x ∈ xs, ∃ w : NpVal, L[x]? = some ⟨w.cls, .np w⟩ ∧ w.dt = d0 := by
        intro x hx
        obtain ⟨z, _, hz⟩ := i1.mem hx
        obtain ⟨o, o', _, e2, v, w, _, rfl, e3, _⟩ := r3 d0 x z hz
        exact ⟨w, e2, (castNum_native e3).2⟩
      have hdd : d0 = d := by
        obtain ⟨x, hx, he⟩ := hatt
        obtain ⟨w, e1, e2⟩ := hd x hx
        simp [numDt, e1, exactNum_np] at he
        rw [← e2, he]
      subst hdd
      clear i1 hatt hall
      induction i2 with
      | nil => exact .nil
      | @cons y x ys xs hy _ ih =>
        refine .cons ⟨d0, hy, ?_⟩ (ih fun x hx => hd x (by simp [hx]))
        obtain ⟨w, e1, e2⟩ := hd x (by simp)
        obtain ⟨o, o', f1, f2, v, w', f3, rfl, f4, _⟩ := q3 d0 y x hy
        rw [e1] at f1; simp at f1; subst f1
        rw [exactNum_np] at f3; simp at f3; subst f3
        rw [castNum_same f4 e2.symm] at f2
        rw [e1, f2]
  let T : Addr → Prop := fun x => ∃ z, R x z ∨ (∃ d, N d x z) ∨ Q x z
  let I : Addr → Addr → Prop := fun x y => T x ∧ (R' y x ∨ Q' y x ∨ ∃ d, N' d y x ∧ L[x]? = K[y]?)
  have hT : ∀ {xs as}, ItemsCopy H R N xs as → ∀ x ∈ xs, T x := by
    intro xs as i x hx
    rcases i with ⟨i, _⟩ | ⟨d, _, i⟩
    · obtain ⟨z, _, hz⟩ := i.mem hx; exact ⟨z, .inl hz⟩
    · obtain ⟨z, _, hz⟩ := i.mem hx; exact ⟨z, .inr (.inl ⟨d, hz⟩)⟩
  have items : ∀ {xs as ys : List Addr}, ItemsCopy H R N xs as → ItemsCopy L R' N' ys xs → All2 I xs ys := by
    intro xs as ys i1 i2
    have ht := hT i1
    rcases i2 with ⟨i2, _⟩ | ⟨d, hd, i2⟩
    · exact i2.flip.imp_mem fun x y hx h => ⟨ht x hx, .inl h⟩
    · exact (settle i1 hd i2).imp_mem fun x y hx h => ⟨ht x hx, .inr (.inr h)⟩
  refine ⟨I, ⟨⟨a, .inl r1⟩, .inl q1⟩, ?_, ?_⟩
  · rintro x y ⟨⟨z, hx⟩, hy | hy | ⟨d, hy, hd⟩⟩
    · obtain ⟨⟨cl1, val1⟩, ⟨cl2, val2⟩, f1, f2, f3, f4⟩ := q2 y x hy
      refine ⟨_, _, f1, f2, f3.symm, ?_⟩
      simp only at f4 ⊢
      rcases hx with hx | ⟨d, hx⟩ | hx
      · obtain ⟨⟨cl, val⟩, o1, e1, e2, e3, e4⟩ := r2 x z hx
        rw [f1] at e2; simp at e2; subst e2
        simp only at e4
        cases f4 with
        | atom ha => exact .atom ha
        | seq i2 =>
          cases e4 with
          | atom ha => simp [Val.isAtom] at ha
          | seq i1 => exact .seq (items i1 i2)
        | @set ys xs bs i2 p2 =>
          cases e4 with
          | atom ha => simp [Val.isAtom] at ha
          | @set _ as bs' i1 p1 =>
            -- ys are copies of bs, a reordering of xs; reorder ys instead
            have : ∃ ys', ItemsCopy L R' N' ys' xs ∧ ys'.Perm ys := by
              rcases i2 with ⟨i2, j⟩ | ⟨d, ⟨w, j1, j2⟩, i2⟩
              · obtain ⟨ws, k1, k2⟩ := All2.perm_right p2 i2
                refine ⟨ws, .inl ⟨k1, ?_⟩, k2⟩
                rcases j with rfl | ⟨w, j1, j2⟩
                · exact .inl p2.symm.eq_nil
                · exact .inr ⟨w, p2.mem_iff.1 j1, j2⟩
              · obtain ⟨ws, k1, k2⟩ := All2.perm_right p2 i2
                exact ⟨ws, .inr ⟨d, ⟨w, p2.mem_iff.1 j1, j2⟩, k1⟩, k2⟩
            obtain ⟨ys', k1, k2⟩ := this
            exact .set (items i1 k1) k2
        | dict i2 =>
          cases e4 with
          | atom ha => simp [Val.isAtom] at ha
          | dict i1 =>
            refine .dict ?_
            clear e1 f1 f2 hx hy
            rename_i es1 es2 es0
            clear e3 f3
            induction i2 generalizing es0 with
            | nil => exact .nil
            | @cons e' e es' es g1 _ ih =>
              cases i1 with
              | @cons _ e0 _ as g0 i1 =>
                refine .cons ?_ (ih i1)
                obtain ⟨k2, v2⟩ := e'
                obtain ⟨k1, v1⟩ := e
                obtain ⟨k, v⟩ := e0
                simp only [EntryCopy] at g0 g1 ⊢
                rcases g0 with ⟨g0, g2⟩ | ⟨_, g2⟩
                · rcases g1 with ⟨g1, g3⟩ | ⟨⟨o, g1, g4⟩, g3⟩
                  · exact ⟨⟨⟨k, .inr (.inr g0)⟩, .inr (.inl g1)⟩, ⟨⟨v, .inl g2⟩, .inl g3⟩⟩
                  · obtain ⟨o', m1, m2, m3⟩ := r4 _ _ g0
                    rw [g1] at m2; simp at m2; subst m2
                    rcases g3 with ⟨g3, _⟩ | ⟨d, _, g3⟩
                    · cases g3 with
                      | cons n1 n2 => cases n2 with | cons n2 _ => exact ⟨⟨⟨k, .inr (.inr g0)⟩, .inl n1⟩, ⟨⟨v, .inl g2⟩, .inl n2⟩⟩
                    · cases g3 with
                      | cons n1 _ =>
                        obtain ⟨o', o1, n2, _, n3⟩ := q3 d _ _ n1
                        obtain ⟨e, n4, _⟩ := n3.rank n2
                        simp [numDt, g1, nameKey_num m3 g4] at n4
                · have ht := hT g2
                  rcases g1 with ⟨g1, g3⟩ | ⟨_, g3⟩
                  · exact ⟨⟨ht _ (by simp), .inr (.inl g1)⟩, ⟨ht _ (by simp), .inl g3⟩⟩
                  · cases items g2 g3 with
                    | cons n1 n2 => cases n2 with | cons n2 _ => exact ⟨n1, n2⟩
        | oarr i2 =>
          cases e4 with
          | atom ha => simp [Val.isAtom] at ha
          | oarr i1 =>
            refine .oarr (i2.flip.imp_mem fun x y hx h => ⟨?_, .inl h⟩)
            obtain ⟨z, _, hz⟩ := i1.mem hx
            exact ⟨z, .inl hz⟩
        | sparse j1 j2 j3 =>
          cases e4 with
          | atom ha => simp [Val.isAtom] at ha
          | sparse i1 i2 i3 => exact .sparse ⟨⟨_, .inl i1⟩, .inl j1⟩ ⟨⟨_, .inl i2⟩, .inl j2⟩ ⟨⟨_, .inl i3⟩, .inl j3⟩
      · obtain ⟨o, o', e1, e2, v, w, _, rfl, _⟩ := r3 d x z hx
        rw [f1] at e2; simp at e2; obtain ⟨rfl, rfl⟩ := e2
        cases f4 with | atom ha => exact .atom ha
      · obtain ⟨o, e1, e2, e3⟩ := r4 x z hx
        rw [f1] at e2; simp at e2; subst e2
        have := Obj.nameKey_atom e3
        simp only at this
        cases f4 with
        | atom ha => exact .atom ha
        | _ => simp [Val.isAtom] at this
    · obtain ⟨o, e1, e2, e3⟩ := q4 y x hy
      exact ⟨o, o, e1, e2, rfl, .atom (Obj.nameKey_atom e3)⟩
    · obtain ⟨o, o', e1, e2, v, w, _, rfl, _⟩ := q3 d y x hy
      rw [e1, e2] at hd; simp at hd; subst hd
      exact ⟨_, _, e1, e2, rfl, .atom rfl⟩
  · have hid : ∀ {x y o}, L[x]? = some o → o.val.shareable = true → (R' y x ∨ Q' y x ∨ ∃ d, N' d y x ∧ L[x]? = K[y]?) →
        R' y x ∧ o.val.hasIdentity = true := by
      rintro x y ⟨cl, val⟩ ho hs (h | h | ⟨d, h, _⟩)
      · refine ⟨h, ?_⟩
        cases val <;> first | rfl | simp [Val.shareable] at hs
      · obtain ⟨o, e1, e2, e3⟩ := q4 y x h
        rw [ho] at e1; simp at e1; subst e1
        cases cl <;> cases val <;> first | (simp [Val.shareable] at hs; done) | simp [Obj.nameKey, Obj.plainKey] at e3
      · obtain ⟨o, o', e1, e2, v, w, e3, _⟩ := q3 d y x h
        rw [ho] at e1; simp at e1; subst e1
        cases val <;> first | (simp [Val.shareable] at hs; done) | (cases cl <;> simp [exactNum] at e3)
    have toT : ∀ {x y}, (R' y x ∨ Q' y x ∨ ∃ d, N' d y x ∧ L[x]? = K[y]?) → R' y x ∨ (∃ d, N' d y x) ∨ Q' y x := by
      rintro x y (h | h | ⟨d, h, _⟩)
      · exact .inl h
      · exact .inr (.inr h)
      · exact .inr (.inl ⟨d, h⟩)
    rintro x y x' y' o ⟨_, h1⟩ ⟨_, h2⟩ ho hs
    constructor
    · rintro rfl
      obtain ⟨k1, k2⟩ := hid ho hs h1
      exact q6 y y' x o k1 (hid ho hs h2).1 ho k2
    · rintro rfl
      exact q5 y x x' (toT h1) (toT h2)

end Verif
