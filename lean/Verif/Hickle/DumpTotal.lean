import Verif.Hickle.DumpDomain
import Verif.Hickle.DumpEnds
import Verif.Props.C07
/-!
# `dump` accepts what the specification names

For every object graph in `DumpDomain`, creating nodes, storing types and running through the sub items
succeeds.
-/
namespace Verif

variable {P : Nat → Prop}

/-- a name HDF5 accepts -/
def GoodName (name : PyStr) : Prop := badName name = false ∧ (utf8Encode name).isSome = true

theorem create_total {S : Store} {g ls name} (body : Body) (hl : S.links g = some ls) (hn : GoodName name) (hf : Assoc.get? ls name = none) :
    ∃ n st, S.create g name body = .ok (n, st) := by
  unfold Store.create
  simp only [hl, hn.1, Bool.false_eq_true, if_false]
  have h2 : (utf8Encode name).isNone = false := by have := hn.2; cases h : utf8Encode name <;> simp [h] at this ⊢
  simp [h2, hf]

theorem mkGroup_total {s : DState} {g ls name} (hl : s.store.links g = some ls) (hn : GoodName name) (hf : Assoc.get? ls name = none) :
    ∃ n s1, mkGroup g name s = (.ok n, s1) := by
  obtain ⟨n, st, h⟩ := create_total (.group []) hl hn hf
  exact ⟨n, _, by unfold mkGroup; rw [h]⟩

theorem mkDset_total {s : DState} {kw d} {g ls name} (hk : checkKw kw d = .ok ()) (hl : s.store.links g = some ls) (hn : GoodName name)
    (hf : Assoc.get? ls name = none) : ∃ n s1, mkDset kw g name d s = (.ok n, s1) := by
  obtain ⟨n, st, h⟩ := create_total (.dset d) hl hn hf
  exact ⟨n, _, by unfold mkDset; rw [hk]; simp only []; rw [h]⟩

theorem noCompression_nil {kw : List Kw} (h : KwOk kw) : noCompression kw = [] := by
  unfold noCompression
  rw [List.filter_eq_nil_iff]
  intro k hk
  have := h.1 k hk
  cases k <;> simp [Kw.isSafe] at this <;> simp [Kw.isFilter]

theorem checkKw_nil (d : Data) : checkKw [] d = .ok () := by
  unfold checkKw; split <;> rfl

theorem checkKw_sized {kw : List Kw} (h : KwOk kw) {d : Data} (hd : d.unsized = false) : checkKw kw d = .ok () := by
  unfold checkKw
  have h1 : kw.all Kw.isSafe = true := List.all_eq_true.2 h.1
  simp only [hd, Bool.false_eq_true, if_false, h1, if_true]
  split
  · next hc =>
    simp at hc
    exact absurd (h.2 hc.1) hc.2
  · rfl

theorem setAttrs_total (n : NodeId) (attrs : Attrs) (s : DState) : ∃ s1, setAttrs n attrs s = (.ok (), s1) := by
  induction attrs generalizing s with
  | nil => exact ⟨s, rfl⟩
  | cons p ps ih =>
    unfold setAttrs
    simp only [M.forEach]
    rw [M.bind_of_ok (show setAttr n p.1 p.2 s = (.ok (), _) from M.modify_apply _ _)]
    exact ih _

/-! ### numbers -/

theorem roundNat_bound {n k : Nat} (h : n < 2 ^ k) (hk : k ≤ 1023) : (F64.roundNat n).1 * 2 ^ (F64.roundNat n).2 < 2 ^ 1024 := by
  have hp : 2 ^ k ≤ 2 ^ 1023 := Nat.pow_le_pow_right (by omega) hk
  unfold F64.roundNat
  simp only []
  split
  · simp only [Nat.pow_zero, Nat.mul_one]
    exact Nat.lt_of_lt_of_le (Nat.lt_of_lt_of_le h hp) (Nat.pow_le_pow_right (by omega) (by omega))
  · next hk0 =>
    have hn0 : n ≠ 0 := by
      intro h0; subst h0
      have : (0:Nat).log2 = 0 := by decide
      omega
    generalize hj : n.log2 + 1 - 53 = j at *
    have hd : n / 2 ^ j * 2 ^ j ≤ n := Nat.div_mul_le_self n (2 ^ j)
    have h2 : (n / 2 ^ j + 1) * 2 ^ j ≤ n + 2 ^ j := by rw [Nat.add_mul]; omega
    have hlog : 2 ^ n.log2 ≤ n := Nat.log2_self_le hn0
    have hj2 : 2 ^ j ≤ n := Nat.le_trans (Nat.pow_le_pow_right (by omega) (by omega)) hlog
    have hbig : (2:Nat) ^ 1024 = 2 * 2 ^ 1023 := by decide +kernel
    have : ∀ d, d ≤ n / 2 ^ j + 1 → d * 2 ^ j < 2 ^ 1024 := by
      intro d hd'
      have := Nat.mul_le_mul_right (2 ^ j) hd'
      omega
    split
    · exact this _ (by omega)
    · split
      · split
        · exact this _ (by omega)
        · exact this _ (by omega)
      · exact this _ (by omega)

theorem ofInt_isSome {x : Int} (h : (NpVal.i x).ok = true) : (F64.ofInt x).isSome = true := by
  have hx : x.natAbs < 2 ^ 64 := by
    simp [NpVal.ok] at h
    omega
  unfold F64.ofInt
  simp only []
  rw [if_pos (roundNat_bound hx (by decide))]
  rfl

theorem castNum_total {d : DT} {v : NpVal} (hr : v.dt.rank ≤ d.rank)
    (hi : ∀ x, v = .i x → (NpVal.i x).ok = true ∨ ((F64.ofInt x).isSome = true ∧ 2 ≤ d.rank)) : (castNum d v).isSome = true := by
  have h01 : ∀ b : Bool, (F64.ofInt (if b then 1 else 0)).isSome = true := by intro b; cases b <;> decide +kernel
  cases v with
  | b x => cases d <;> simp [castNum, h01]
  | i x =>
    have hs : (F64.ofInt x).isSome = true := by
      rcases hi x rfl with h | h
      · exact ofInt_isSome h
      · exact h.1
    cases d with
    | bool => simp [NpVal.dt, DT.rank] at hr
    | int64 =>
      rcases hi x rfl with h | h
      · simp [castNum, h]
      · have := h.2; simp [DT.rank] at this
    | float64 => simp [castNum, hs]
    | complex128 => simp [castNum, hs]
  | f x => cases d <;> simp [NpVal.dt, DT.rank] at hr <;> simp [castNum]
  | c x y => cases d <;> simp [NpVal.dt, DT.rank] at hr <;> simp [castNum]

theorem rank_join_left (a b : DT) : a.rank ≤ (a.join b).rank := by unfold DT.join; split <;> omega
theorem rank_join_right (a b : DT) : b.rank ≤ (a.join b).rank := by unfold DT.join; split <;> omega

theorem itemLoop_total {env : Env} {H : Heap} {as : List Addr} (he : ∀ a ∈ as, a < H.length) (hr : ∀ a ∈ as, ¬ Ragged env H a ∧ ∀ o : Obj, H[a]? = some o → ¬ o.ShortBytes)
    (d : DT) : itemLoop env H (.num d) as = .ok none ∨ ∃ d', itemLoop env H (.num d) as = .ok (some (.num d')) ∧ d.rank ≤ d'.rank ∧
      ∀ a ∈ as, ∃ (o : Obj) (v : NpVal), H[a]? = some o ∧ exactNum o = some v ∧ v.dt.rank ≤ d'.rank := by
  induction as generalizing d with
  | nil => exact .inr ⟨d, rfl, Nat.le_refl _, by simp⟩
  | cons a as ih =>
    have hlt := he a (by simp)
    obtain ⟨hr1, hr2⟩ := hr a (by simp)
    have ho : H[a]? = some H[a] := List.getElem?_eq_getElem hlt
    generalize hoo : H[a] = o at ho
    simp only [itemLoop]
    have hdims : (∃ b, hasDims env H a = .ok b) := by
      unfold hasDims
      obtain ⟨cl, v⟩ := o
      cases v with
      | seq items =>
        simp only [ho]
        split
        · exact ⟨_, rfl⟩
        · next hn =>
          exfalso; apply hr1
          simp at hn
          exact ⟨hn.2, ⟨cl, items, ho⟩, hn.1⟩
      | _ => simp only [ho]; exact ⟨_, rfl⟩
    obtain ⟨b, hb⟩ := hdims
    have hstep : itemStep env H (.num d) a = .ok none ∨ ∃ v, exactNum o = some v ∧ itemStep env H (.num d) a = .ok (some (.num (d.join v.dt))) := by
      unfold itemStep
      rw [hb]
      cases b with
      | true => exact .inl rfl
      | false =>
        simp only [ho]
        cases hv : exactNum o with
        | some v => exact .inr ⟨v, rfl, rfl⟩
        | none =>
          left
          have hns := hr2 o ho
          obtain ⟨cl, v⟩ := o
          simp only []
          split
          · next b =>
            split
            · rfl
            · exact absurd ⟨rfl, b, rfl, by omega⟩ hns
          · rfl
    rcases hstep with hs | ⟨v, hv, hs⟩
    · rw [hs]; exact .inl rfl
    · rw [hs]
      simp only []
      rcases ih (fun x hx => he x (by simp [hx])) (fun x hx => hr x (by simp [hx])) (d.join v.dt) with h | ⟨d', h1, h2, h3⟩
      · exact .inl h
      · refine .inr ⟨d', h1, Nat.le_trans (rank_join_left _ _) h2, ?_⟩
        intro x hx
        rcases List.mem_cons.1 hx with rfl | hx
        · exact ⟨o, v, ho, hv, Nat.le_trans (rank_join_right _ _) h2⟩
        · exact h3 x hx

theorem castPrefix_total {H : Heap} {d : DT} {items : List Addr} (h : ∀ a ∈ items, (castItem H d a).isSome = true) :
    (castPrefix H d items).length = items.length := by
  induction items with
  | nil => rfl
  | cons a as ih =>
    have h1 := h a (by simp)
    cases hc : castItem H d a with
    | none => rw [hc] at h1; simp at h1
    | some v => simp only [castPrefix, hc, List.length_cons]; rw [ih fun x hx => h x (by simp [hx])]

theorem checkItems_total {env : Env} {H : Heap} {items : List Addr} (hok : ItemsOk env H items) (he : ∀ a ∈ items, a < H.length) :
    checkItems env H items = .ok none ∨ ∃ d, checkItems env H items = .ok (some (.num d)) ∧ (castPrefix H d items).length = items.length := by
  cases items with
  | nil => exact .inl rfl
  | cons a as =>
    have hlt := he a (by simp)
    have ho : H[a]? = some H[a] := List.getElem?_eq_getElem hlt
    generalize hoo : H[a] = o at ho
    simp only [checkItems, ho]
    cases hv : exactNum o with
    | none =>
      left
      have hns := hok.first a o rfl ho
      obtain ⟨cl, v⟩ := o
      simp only []
      split
      · next b =>
        split
        · rfl
        · exact absurd ⟨rfl, b, rfl, by omega⟩ hns
      · rfl
    | some v =>
      simp only []
      have hrest := hok.rest a rfl ⟨o, v, ho, hv⟩
      rcases itemLoop_total (env := env) (as := as) (fun x hx => he x (by simp [hx])) (fun x hx => hrest x (by simp [hx])) v.dt with h | ⟨d', h1, h2, h3⟩
      · exact .inl h
      · refine .inr ⟨d', h1, castPrefix_total ?_⟩
        have hall : ∀ x ∈ a :: as, ∃ (o : Obj) (v : NpVal), H[x]? = some o ∧ exactNum o = some v ∧ v.dt.rank ≤ d'.rank := by
          intro x hx
          rcases List.mem_cons.1 hx with rfl | hx
          · exact ⟨o, v, ho, hv, h2⟩
          · exact h3 x hx
        intro x hx
        obtain ⟨ox, vx, e1, e2, e3⟩ := hall x hx
        unfold castItem
        simp only [e1, e2, Option.bind_some]
        refine castNum_total e3 ?_
        rintro i rfl
        rcases hok.fit (fun y hy => by obtain ⟨o, v, q1, q2, _⟩ := hall y hy; exact ⟨o, v, q1, q2⟩) x hx ox i e1 e2 with h | ⟨h, y, hy, p, w, f1, f2, f3⟩
        · exact .inl h
        · obtain ⟨p', w', g1, g2, g3⟩ := hall y hy
          rw [f1] at g1; simp at g1; subst g1
          rw [f2] at g2; simp at g2; subst g2
          refine .inr ⟨h, ?_⟩
          rcases f3 with f3 | f3 <;> rw [f3] at g3 <;> simp [DT.rank] at g3 ⊢ <;> omega

/-! ### create functions -/

theorem createItems_total {c : DCtx} {H : Heap} {items : List Addr} {dt} {s : DState} {g ls name} (hk : KwOk c.kw)
    (hc : dt = none ∨ ∃ d, dt = some (.num d) ∧ (castPrefix H d items).length = items.length)
    (hl : s.store.links g = some ls) (hn : GoodName name) (hf : Assoc.get? ls name = none) :
    ∃ r s1, createItems c H items dt g name s = (.ok r, s1) := by
  rcases hc with rfl | ⟨d, rfl, hlen⟩
  · unfold createItems
    simp only []
    obtain ⟨n, s1, h1⟩ := mkGroup_total hl hn hf
    rw [M.bind_of_ok h1, M.bind_of_ok (show setAttr n "num_items" _ s1 = (.ok (), _) from M.modify_apply _ _)]
    exact ⟨_, _, rfl⟩
  · unfold createItems
    simp only []
    obtain ⟨n, s1, h1⟩ := mkDset_total (d := .vec d (castPrefix H d items ++ List.replicate (items.length - (castPrefix H d items).length) d.zero))
      (checkKw_sized hk rfl) hl hn hf
    rw [M.bind_of_ok h1, if_pos hlen]
    exact ⟨_, _, rfl⟩

theorem leaf_total {x : DM NodeId} {s : DState} (h : ∃ n s1, x s = (.ok n, s1)) : ∃ r s1, leaf x s = (.ok r, s1) := by
  obtain ⟨n, s1, h⟩ := h
  unfold leaf
  rw [M.bind_of_ok h]
  exact ⟨_, _, rfl⟩

theorem withDtype_total {x : DM (NodeId × Subs)} {d : AttrVal} {s : DState} (h : ∃ r s1, x s = (.ok r, s1)) : ∃ r s1, withDtype x d s = (.ok r, s1) := by
  obtain ⟨r, s1, h⟩ := h
  unfold withDtype
  rw [M.bind_of_ok h, M.bind_of_ok (show setAttr r.1 "np_dtype" d s1 = (.ok (), _) from M.modify_apply _ _)]
  exact ⟨_, _, rfl⟩

/-- the create function of an object that can be stored does not fail -/
theorem createFn_total {c : DCtx} {H : Heap} {o : Obj} {s : DState} {g ls name} (hk : KwOk c.kw) (hd : ObjPlain c.env c.kw H o)
    (hw : ∀ b ∈ o.val.children, b < H.length) (hq : ∀ (b : Addr) (q : Obj), H[b]? = some q → (∀ b' ∈ q.val.children, b' < H.length) ∧ ∀ l, q.val = .seq l → ItemsOk c.env H l)
    (hl : s.store.links g = some ls) (hn : GoodName name) (hf : Assoc.get? ls name = none) :
    ∃ r s1, createFn c (expected c.env o.cls).2.fn H o g name s = (.ok r, s1) := by
  have hnull : ∀ d, ∃ n s1, mkDset (noCompression c.kw) g name d s = (.ok n, s1) := by
    intro d; rw [noCompression_nil hk]; exact mkDset_total (checkKw_nil d) hl hn hf
  have hsized : ∀ d : Data, d.unsized = false → ∃ n s1, mkDset c.kw g name d s = (.ok n, s1) :=
    fun d h => mkDset_total (checkKw_sized hk h) hl hn hf
  have hkind := hd.kind
  unfold KindOk at hkind
  generalize (expected c.env o.cls).2.fn = fn at hkind
  obtain ⟨cl, v⟩ := o
  have hone : ∀ (d : Data) (k : String) (v : AttrVal), d.unsized = false →
      ∃ r s1, (do let n ← mkDset c.kw g name d; setAttr n k v; pure (n, []) : DM (NodeId × Subs)) s = (.ok r, s1) := by
    intro d k v hu
    obtain ⟨n, s1, h1⟩ := hsized d hu
    rw [M.bind_of_ok h1, M.bind_of_ok (show setAttr n k v s1 = (.ok (), _) from M.modify_apply _ _)]
    exact ⟨_, _, rfl⟩
  have hitems : ∀ x xs, ItemsOk c.env H (x :: xs) → (∀ b ∈ x :: xs, b < H.length) → ∃ r s1,
      (match checkItems c.env H (x :: xs) with
        | .error e => M.throw e
        | .ok dt => createItems c H (x :: xs) dt g name : DM (NodeId × Subs)) s = (.ok r, s1) := by
    intro x xs hi he
    rcases checkItems_total hi he with h | ⟨d, h, h2⟩
    · rw [h]; exact createItems_total hk (.inl rfl) hl hn hf
    · rw [h]; exact createItems_total hk (.inr ⟨d, rfl, h2⟩) hl hn hf
  have hpair : ∀ {x : DM NodeId}, (∃ n s1, x s = (.ok n, s1)) → ∃ r s1, (do let n ← x; pure (n, []) : DM (NodeId × Subs)) s = (.ok r, s1) := by
    intro x ⟨n, s1, h⟩
    rw [M.bind_of_ok h]; exact ⟨_, _, rfl⟩
  have hrows : ∀ n sh ls', ls'.length = n * shSize sh → ∃ r s1, createRows c n sh ls' g name s = (.ok r, s1) := by
    intro n sh ls' h1
    unfold createRows
    rw [if_neg (by simp [h1])]
    split
    · exact hpair (hnull _)
    · obtain ⟨n, s1, h⟩ := mkGroup_total hl hn hf
      rw [M.bind_of_ok h, M.bind_of_ok (show setAttr n "num_items" _ s1 = (.ok (), _) from M.modify_apply _ _)]
      exact ⟨_, _, rfl⟩
  cases v with
  | none =>
    cases fn <;> simp at hkind
    exact leaf_total (hnull _)
  | bool b =>
    cases fn <;> simp at hkind
    exact leaf_total (hnull _)
  | float x =>
    cases fn <;> simp at hkind
    exact leaf_total (hnull _)
  | cplx x y =>
    cases fn <;> simp at hkind
    exact leaf_total (hnull _)
  | int i =>
    cases fn <;> simp at hkind
    apply leaf_total
    unfold createScalar
    simp only []
    split
    · next hb => rw [if_pos (hd.int i rfl hb)]; exact hsized _ rfl
    · exact hnull _
  | str t =>
    cases fn <;> simp at hkind
    simp only [createFn, createListlike]
    have := hd.str t rfl
    cases he : utf8Encode t with
    | none => rw [he] at this; simp at this
    | some b => exact hone _ _ _ rfl
  | bytes b =>
    cases fn <;> simp at hkind
    simp only [createFn, createListlike]
    exact hone _ _ _ rfl
  | seq items =>
    cases fn <;> simp at hkind
    simp only [createFn, createListlike]
    cases items with
    | nil => exact hpair (hnull _)
    | cons x xs => exact hitems x xs (hd.items _ (.inl rfl)) hw
  | set items =>
    cases fn <;> simp at hkind
    simp only [createFn, createSetlike]
    cases items with
    | nil => exact hpair (hnull _)
    | cons x xs => exact hitems x xs (hd.items _ (.inr rfl)) hw
  | dict es =>
    cases fn <;> simp at hkind
    simp only [createFn, createDictlike]
    obtain ⟨n, s1, h⟩ := mkGroup_total hl hn hf
    rw [M.bind_of_ok h]; exact ⟨_, _, rfl⟩
  | np v =>
    cases fn <;> simp at hkind
    apply leaf_total
    unfold createNpScalar
    simp only []
    obtain ⟨n, s1, h⟩ := hnull (.scalar v)
    rw [M.bind_of_ok h, M.bind_of_ok (show setAttr n "np_dtype" _ s1 = (.ok (), _) from M.modify_apply _ _)]
    exact ⟨_, _, rfl⟩
  | arr d shape data =>
    cases fn <;> simp at hkind
    unfold createFn createNpArray withDtype
    simp only []
    have : ∃ n s1, mkDset c.kw g name (.array d shape data) s = (.ok n, s1) := by
      cases shape with
      | nil => rw [hd.arr d data rfl]; exact mkDset_total (checkKw_nil _) hl hn hf
      | cons x xs => exact hsized _ rfl
    obtain ⟨n, s1, h⟩ := this
    rw [M.bind_of_ok (show (do let n ← mkDset c.kw g name (.array d shape data); pure (n, []) : DM (NodeId × Subs)) s = (.ok (n, []), s1) by
        rw [M.bind_of_ok h]; rfl),
      M.bind_of_ok (show setAttr n "np_dtype" _ s1 = (.ok (), _) from M.modify_apply _ _)]
    exact ⟨_, _, rfl⟩
  | sarr w shape ss =>
    cases fn <;> simp at hkind
    simp only [createFn, createNpArray]
    apply withDtype_total
    obtain ⟨h1, h2⟩ := hd.strs w shape ss rfl
    cases shape with
    | nil =>
      match ss, h1 with
      | [t], _ =>
        simp only [createStrings]
        have := h2 t (by simp)
        cases he : utf8Encode t with
        | none => rw [he] at this; simp at this
        | some b => exact hpair (hsized _ rfl)
      | [], h1 => simp [shSize] at h1
      | _ :: _ :: _, h1 => simp [shSize] at h1
    | cons n sh => exact hrows n sh _ (by simpa [shSize] using h1)
  | oarr shape items =>
    cases fn <;> simp at hkind
    simp only [createFn, createNpArray]
    apply withDtype_total
    obtain ⟨h1, h2⟩ := hd.objs shape items rfl
    match shape, items, h1, h2 with
    | [], [a], _, _ =>
      simp only [createObjects]
      have ha : a < H.length := hw a (by simp [Val.children])
      have ho : H[a]? = some H[a] := List.getElem?_eq_getElem ha
      generalize H[a] = q at ho
      simp only [ho]
      obtain ⟨h3, h4⟩ := hq a q ho
      have hone' : ∃ r s1, (do let n ← mkGroup g name; pure (n, [.ok ⟨ps "data", .addr a, []⟩]) : DM (NodeId × Subs)) s = (.ok r, s1) := by
        obtain ⟨n, s1, h⟩ := mkGroup_total hl hn hf
        rw [M.bind_of_ok h]; exact ⟨_, _, rfl⟩
      obtain ⟨cq, vq⟩ := q
      cases vq with
      | seq l =>
        simp only []
        split
        · simp only [createListlike]
          cases l with
          | nil => exact hpair (hnull _)
          | cons x xs => exact hitems x xs (h4 _ rfl) h3
        · exact hone'
      | _ => exact hone'
    | [], [], h1, _ => simp [shSize] at h1
    | [], _ :: _ :: _, h1, _ => simp [shSize] at h1
    | [n], items, h1, h2 =>
      simp only [createObjects, createListlike]
      simp only [shSize, Nat.mul_one] at h1
      cases items with
      | nil => exact hpair (hnull _)
      | cons x xs =>
        refine hitems x xs ?_ hw
        have := h2 n 0 rfl
        rw [Nat.zero_mul, List.drop_zero, List.take_of_length_le (by omega)] at this
        exact this
    | n :: m :: sh, items, h1, h2 =>
      simp only [createObjects]
      exact hrows n (m :: sh) _ (by simpa [shSize] using h1)
  | masked d shape data mask =>
    cases fn <;> simp at hkind
    simp only [createFn, createMasked]
    obtain ⟨n, s1, h⟩ := mkGroup_total hl hn hf
    rw [M.bind_of_ok h, M.bind_of_ok (show setAttr n "np_dtype" _ s1 = (.ok (), _) from M.modify_apply _ _)]
    exact ⟨_, _, rfl⟩
  | sparse d i p shape =>
    cases fn <;> simp at hkind
    simp only [createFn, createSparse]
    rw [if_neg (by simp [(hd.dims d i p shape rfl).1])]
    obtain ⟨n, s1, h⟩ := mkGroup_total hl hn hf
    rw [M.bind_of_ok h]
    exact ⟨_, _, rfl⟩
  | «opaque» st pk =>
    cases fn <;> simp at hkind
    subst hkind
    apply leaf_total
    unfold createPickled
    exact hsized _ rfl
  | recData => cases fn <;> simp at hkind
  | recGroup => cases fn <;> simp at hkind

/-! ### the types table -/

/-- base types of the standard loaders -/
def stdBases : List String := ["list", "tuple", "dict", "set", "bytes", "str", "int", "float", "complex", "bool", "None", "np_scalar", "ndarray",
  "np_matrix", "ndarray_masked", "csr_matrix", "csc_matrix", "bsr_matrix",
  "!node-reference!", "pickle"]

theorem stdBases_good : ∀ b ∈ stdBases, GoodName (ps b) ∧ (ps b).all (fun c => isDigit c) = false := by
  unfold GoodName; decide

theorem firstStd_base {l : List Cls} {e : Entry} (h : firstStd l = some e) : e.base ∈ stdBases := by
  induction l with
  | nil => simp [firstStd] at h
  | cons k ks ih =>
    simp only [firstStd] at h
    cases hk : stdReg k with
    | none => rw [hk] at h; exact ih h
    | some p =>
      rw [hk] at h
      cases k <;> simp [stdReg] at hk <;> (subst hk; simp at h; subst h; decide)

theorem expected_base (env : Env) (c : Cls) : (expected env c).2.base ∈ stdBases := by
  unfold expected
  split
  · next e he => exact firstStd_base he
  · decide

theorem ps_inj {a b : String} (h : ps a = ps b) : a = b := by rw [← unps_ps a, h, unps_ps]

theorem goodName_digits (n : Nat) : GoodName (digits n) := by
  have hd : ∀ c ∈ digits n, 48 ≤ c ∧ c ≤ 57 := by
    intro c hc; have := digits_isDigit n c hc; simp [isDigit] at this; omega
  refine ⟨?_, ?_⟩
  · unfold badName
    simp only [Bool.or_eq_false_iff, List.contains_eq_mem, decide_eq_false_iff_not, List.isEmpty_eq_false_iff]
    refine ⟨⟨⟨fun h => ?_, fun h => ?_⟩, digits_ne_nil n⟩, fun h => ?_⟩
    · have := hd _ h; omega
    · have := hd _ h; omega
    · have := hd 46 (by rw [h]; simp); omega
  · rw [utf8Encode_isSome_iff]
    intro c hc; have := hd c hc; omega

/-- the names in the types table are the numbers of the entries and the base types the manager knows -/
def TabNames (c : DCtx) (s : DState) : Prop :=
  ∃ ls, s.store.links c.table = some ls ∧ ∀ x ∈ ls, (∃ i, i < ls.length ∧ x.1 = digits i) ∨
    ∃ b ∈ stdBases, x.1 = ps b ∧ (Assoc.get? s.blinks b).isSome = true

theorem TabNames.congr {c : DCtx} {s s' : DState} (h : TabNames c s) (h1 : s'.store.links c.table = s.store.links c.table)
    (h2 : s'.blinks = s.blinks) : TabNames c s' := by
  obtain ⟨ls, e1, e2⟩ := h
  exact ⟨ls, h1.trans e1, by rw [h2]; exact e2⟩

theorem digits_ne_base {i : Nat} {b : String} (hb : b ∈ stdBases) : digits i ≠ ps b := by
  intro h
  have := (stdBases_good b hb).2
  rw [← h] at this
  have h2 : (digits i).all (fun c => isDigit c) = true := List.all_eq_true.2 (digits_isDigit i)
  rw [h2] at this; simp at this

theorem baseEntry_total {c : DCtx} {b : String} {s : DState} (hb : b ∈ stdBases) (hT : TabNames c s) (hk : KwOk c.kw) :
    ∃ n s1, baseEntry c b s = (.ok n, s1) ∧ TabNames c s1 := by
  unfold baseEntry
  rw [M.bind_of_ok (M.get_apply s)]
  cases h : Assoc.get? s.blinks b with
  | some n => exact ⟨n, s, rfl, hT⟩
  | none =>
    simp only []
    obtain ⟨ls, hl, hn⟩ := hT
    have hf : Assoc.get? ls (ps b) = none := by
      cases hg : Assoc.get? ls (ps b) with
      | none => rfl
      | some m =>
        exfalso
        rcases hn _ (Assoc.get?_mem hg) with ⟨i, _, e⟩ | ⟨b', hb', e, e2⟩
        · exact digits_ne_base hb e.symm
        · rw [← ps_inj e, h] at e2; simp at e2
    obtain ⟨n, s1, h1⟩ := mkDset_total (s := s) (kw := noCompression c.kw) (d := .null "S1") (by rw [noCompression_nil hk]; exact checkKw_nil _) hl (stdBases_good b hb).1 hf
    rw [M.bind_of_ok h1, M.bind_of_ok (M.modify_apply _ _)]
    refine ⟨n, _, rfl, ?_⟩
    obtain ⟨_, hc⟩ := mkDset_ok h1
    have hs1 : s1 = { s with store := s1.store } := by obtain ⟨_, _, e, _⟩ := hc; exact e
    obtain ⟨nd, ls', a1, a2, a3, a4, a5, a6, a7, a8⟩ := hc.facts
    have : ls' = ls := by
      obtain ⟨nd0, k1, k2⟩ := Store.links_eq hl
      rw [a1] at k1; simp at k1; subst k1
      rw [a2] at k2; simp at k2; exact k2
    subst this
    refine ⟨_, Store.links_of a4 rfl, ?_⟩
    intro x hx
    simp only [List.mem_append, List.mem_singleton] at hx
    rcases hx with hx | rfl
    · rcases hn x hx with ⟨i, hi, e⟩ | ⟨b', hb', e, e2⟩
      · exact .inl ⟨i, by simp; omega, e⟩
      · refine .inr ⟨b', hb', e, ?_⟩
        simp only [Assoc.get?_put]
        split
        · rfl
        · rw [hs1]; exact e2
    · exact .inr ⟨b, hb, rfl, by simp [Assoc.get?_put_self]⟩

theorem TabNames.setAttr {c : DCtx} {s : DState} (h : TabNames c s) (n : NodeId) (k : String) (v : AttrVal) :
    TabNames c { s with store := s.store.setAttr n k v } :=
  h.congr (Store.links_setAttr _ _ _ _ _) rfl

theorem typeEntryNode_total {c : DCtx} {cls : Cls} {b : String} {s : DState} (hb : b ∈ stdBases) (hp : clsPicklable c.env cls = true) (hT : TabNames c s)
    (hk : KwOk c.kw) : ∃ n s1, typeEntryNode c cls b s = (.ok n, s1) ∧ TabNames c s1 := by
  unfold typeEntryNode
  rw [M.bind_of_ok (M.get_apply s)]
  cases h : Assoc.get? s.tlinks cls with
  | some n => exact ⟨n, s, rfl, hT⟩
  | none =>
    simp only []
    have hne : ¬ b.toList = [] := by
      have : ∀ b ∈ stdBases, b.toList ≠ [] := by decide
      exact this b hb
    rw [if_neg hne]
    simp only [hp, Bool.not_true, Bool.false_eq_true, if_false]
    obtain ⟨ls, hl, hn⟩ := hT
    simp only [hl]
    have hf : Assoc.get? ls (digits ls.length) = none := by
      cases hg : Assoc.get? ls (digits ls.length) with
      | none => rfl
      | some m =>
        exfalso
        rcases hn _ (Assoc.get?_mem hg) with ⟨i, hi, e⟩ | ⟨b', hb', e, e2⟩
        · have := digits_inj e; omega
        · exact digits_ne_base hb' e
    obtain ⟨n, s1, h1⟩ := mkDset_total (s := s) (kw := c.kw) (d := .pickleCls cls) (checkKw_sized hk rfl) hl (goodName_digits _) hf
    rw [M.bind_of_ok h1]
    obtain ⟨_, hc⟩ := mkDset_ok h1
    have hs1 : s1 = { s with store := s1.store } := by obtain ⟨_, _, e, _⟩ := hc; exact e
    obtain ⟨nd, ls', a1, a2, a3, a4, a5, a6, a7, a8⟩ := hc.facts
    have : ls' = ls := by
      obtain ⟨nd0, k1, k2⟩ := Store.links_eq hl
      rw [a1] at k1; simp at k1; subst k1
      rw [a2] at k2; simp at k2; exact k2
    subst this
    have hT1 : TabNames c s1 := by
      refine ⟨_, Store.links_of a4 rfl, ?_⟩
      intro x hx
      simp only [List.mem_append, List.mem_singleton] at hx
      rcases hx with hx | rfl
      · rcases hn x hx with ⟨i, hi, e⟩ | ⟨b', hb', e, e2⟩
        · exact .inl ⟨i, by simp; omega, e⟩
        · exact .inr ⟨b', hb', e, by rw [hs1]; exact e2⟩
      · exact .inl ⟨_, by simp, rfl⟩
    obtain ⟨m, s2, h2, hT2⟩ := baseEntry_total hb hT1 hk
    rw [M.bind_of_ok h2, M.bind_of_ok (show Verif.setAttr n "base_type" (.ref m) s2 = (.ok (), _) from M.modify_apply _ _),
      M.bind_of_ok (M.modify_apply _ _)]
    exact ⟨n, _, rfl, (hT2.setAttr n "base_type" (.ref m)).congr rfl rfl⟩

theorem storeType_total {c : DCtx} {n : NodeId} {cls : Cls} {b : String} {s : DState} (hb : b ∈ stdBases)
    (hp : cls ≠ .object → clsPicklable c.env cls = true) (hT : TabNames c s) (hk : KwOk c.kw) :
    ∃ s1, storeType c n cls b s = (.ok (), s1) ∧ TabNames c s1 := by
  unfold storeType
  split
  · exact ⟨s, rfl, hT⟩
  · next hc =>
    obtain ⟨e, s1, h1, hT1⟩ := typeEntryNode_total hb (hp hc) hT hk
    rw [M.bind_of_ok h1, show Verif.setAttr n "type" (.ref e) s1 = (.ok (), _) from M.modify_apply _ _]
    exact ⟨_, rfl, hT1.setAttr _ _ _⟩

/-- the first half of `_dump` does not fail for an object that can be stored -/
theorem dumpCreate_total {c : DCtx} (hE : EnvOk P c.env) (hm : c.mgr.Ok) {o : Obj} (hc : GoodCls P c.env o.cls) {s : DState} (hr : RegInv P s.reg)
    (hk : KwOk c.kw) (hd : ObjPlain c.env c.kw s.heap o) (hw : ∀ b ∈ o.val.children, b < s.heap.length)
    (hq : ∀ (b : Addr) (q : Obj), s.heap[b]? = some q → (∀ b' ∈ q.val.children, b' < s.heap.length) ∧ ∀ l, q.val = .seq l → ItemsOk c.env s.heap l)
    (hT : TabNames c s) {g ls name}
    (hg : g ≠ c.table) (hl : s.store.links g = some ls) (hn : GoodName name) (hf : Assoc.get? ls name = none) :
    ∃ r s1, dumpCreate c o g name s = (.ok r, s1) ∧ TabNames c s1 := by
  obtain ⟨r', hlo, _⟩ := loadLoader_spec (m := c.mgr) hE hm.dumps hc none hr
  unfold dumpCreate
  have hon : onReg (loadLoader c.env c.mgr o.cls none) s = (.ok (expected c.env o.cls), { s with reg := r' }) := by
    unfold onReg; rw [hlo]
  rw [M.bind_of_ok hon, show expected c.env o.cls = ((expected c.env o.cls).1, (expected c.env o.cls).2) from rfl]
  dsimp only
  rw [M.bind_of_ok (M.get_apply _), M.bind_of_ok (M.attempt_apply _ _)]
  simp only
  obtain ⟨⟨n, subs⟩, s2, h2⟩ := createFn_total (s := { s with reg := r' }) hk hd hw hq hl hn hf
  rw [h2]
  obtain ⟨at', od, hcr, _, _⟩ := createFn_ok h2
  obtain ⟨pnd, ls', f1, f2, f3, f4, f5, f6, f7, f8⟩ := hcr.facts
  have hs2 : s2 = { s with reg := r', store := s2.store } := by obtain ⟨_, _, e, _⟩ := hcr; exact e
  have hnT : c.table ≠ n := by
    obtain ⟨tl, e, _⟩ := hT
    obtain ⟨nd, e, _⟩ := Store.links_eq e
    have := lt_of_getElem? e
    simp only at f3; omega
  have hT2 : TabNames c s2 := hT.congr (Store.links_congr (f6 _ (Ne.symm hg) hnT)) (by rw [hs2])
  obtain ⟨s3, h3, hT3⟩ := storeType_total (n := n) (cls := (expected c.env o.cls).1) (expected_base c.env o.cls)
    (fun hne => by rw [expected_cls _ _ hne]; exact hd.cls hne) hT2 hk
  simp only
  rw [M.bind_of_ok h3]
  exact ⟨_, _, rfl, hT3⟩

/-! ### names of sub items -/

theorem goodName_of {n : PyStr} (h : ∀ c ∈ n, c ≠ 47 ∧ c ≠ 0) (he : (utf8Encode n).isSome = true) (h1 : n ≠ []) (h2 : n ≠ [46]) : GoodName n := by
  refine ⟨?_, he⟩
  unfold badName
  simp only [Bool.or_eq_false_iff, List.contains_eq_mem, decide_eq_false_iff_not, List.isEmpty_eq_false_iff]
  exact ⟨⟨⟨fun h' => (h _ h').1 rfl, fun h' => (h _ h').2 rfl⟩, h1⟩, h2⟩

theorem goodName_ascii {n : PyStr} (h : ∀ c ∈ n, 0 < c ∧ c < 128 ∧ c ≠ 47) (h1 : n ≠ []) (h2 : n ≠ [46]) : GoodName n :=
  goodName_of (fun c hc => ⟨(h c hc).2.2, by have := (h c hc).1; omega⟩)
    ((utf8Encode_isSome_iff n).2 fun c hc => by have := (h c hc).2.1; omega) h1 h2

theorem goodName_data (i : Nat) : GoodName (dataName i) := by
  have hp : ps "data" = [100, 97, 116, 97] := by decide
  refine goodName_ascii ?_ (by simp [dataName, hp]) (by simp [dataName, hp])
  intro c hc
  simp only [dataName, hp, List.mem_append, List.mem_cons, List.not_mem_nil, or_false] at hc
  rcases hc with (rfl | rfl | rfl | rfl) | hc
  all_goals first | decide | skip
  have := digits_isDigit i c hc
  simp [isDigit] at this
  omega

/-- a character of the text is a byte of its encoding -/
theorem utf8Encode_ascii {s : PyStr} {b : Bytes} (h : utf8Encode s = some b) {c : Nat} (hc : c ∈ s) (h128 : c < 128) : UInt8.ofNat c ∈ b := by
  induction s generalizing b with
  | nil => simp at hc
  | cons x xs ih =>
    simp only [utf8Encode] at h
    cases hx : encodeCp x with
    | none => simp [hx] at h
    | some bx =>
      cases hxs : utf8Encode xs with
      | none => simp [hx, hxs] at h
      | some bs =>
        simp [hx, hxs] at h
        subst h
        rcases List.mem_cons.1 hc with rfl | hc
        · unfold encodeCp at hx
          have : encodable c = true := by simp [encodable]; omega
          simp [this, h128] at hx
          subst hx; simp
        · simp [ih hxs hc]

theorem utf8_quoted {s : PyStr} (l r : PyStr) (h : (utf8Encode s).isSome = true) (hl : ∀ c ∈ l, c < 128) (hr : ∀ c ∈ r, c < 128) :
    (utf8Encode (l ++ s ++ r)).isSome = true := by
  rw [utf8Encode_isSome_iff] at h ⊢
  intro c hc
  simp only [List.mem_append] at hc
  rcases hc with (hc | hc) | hc
  · have := hl c hc; omega
  · exact h c hc
  · have := hr c hc; omega

/-- a key has a good name, or is stored in a tuple -/
theorem keySlot_total {env : Env} (ht : TextOk env) {kw H} {q : Obj} (hq : ObjPlain env kw H q) (hk : KeyDump env q) :
    keySlot env q = .ok none ∨ ∃ r kbt, keySlot env q = .ok (some (r, kbt)) ∧ GoodName r := by
  obtain ⟨cl, v⟩ := q
  unfold keySlot
  simp only []
  have hstd : ∀ (v : Val) (r : PyStr), reprKey env v = .ok r → GoodName r → (∀ s, v ≠ .str s) → (∀ b, v ≠ .bytes b) →
      (if dictKeyTypes.contains (cl.name env.u) then
        match reprKey env v with
        | .error e => .error e
        | .ok r => .ok (if strSlash r then none else some (r, cl.name env.u))
      else .ok none : Except PyErr (Option (PyStr × String))) = .ok none ∨ ∃ r kbt,
      (if dictKeyTypes.contains (cl.name env.u) then
        match reprKey env v with
        | .error e => .error e
        | .ok r => .ok (if strSlash r then none else some (r, cl.name env.u))
      else .ok none : Except PyErr (Option (PyStr × String))) = .ok (some (r, kbt)) ∧ GoodName r := by
    intro v r h1 h2 _ _
    split
    · rw [h1]
      simp only []
      split
      · exact .inl rfl
      · exact .inr ⟨r, _, rfl, h2⟩
    · exact .inl rfl
  have hother : KindOk env ⟨cl, v⟩ = true → (∀ x, v ≠ .float x) → (∀ x y, v ≠ .cplx x y) → (∀ i, v ≠ .int i) → (∀ b, v ≠ .bool b) → v ≠ .none →
      dictKeyTypes.contains (cl.name env.u) = false := by
    intro hk2 h1 h2 h3 h4 h5
    have hkind := hk2
    unfold KindOk at hkind
    cases cl with
    | user k => exact hk.cls k rfl
    | float => simp [expected, firstStd, Cls.mro, stdReg] at hkind; cases v <;> simp_all
    | bool => simp [expected, firstStd, Cls.mro, stdReg] at hkind; cases v <;> simp_all
    | int => simp [expected, firstStd, Cls.mro, stdReg] at hkind; cases v <;> simp_all
    | complex => simp [expected, firstStd, Cls.mro, stdReg] at hkind; cases v <;> simp_all
    | noneType => simp [expected, firstStd, Cls.mro, stdReg] at hkind; cases v <;> simp_all
    | _ => simp only [Cls.name]; decide
  cases v with
  | str s =>
    simp only []
    split
    · exact .inl rfl
    · next hs =>
      refine .inr ⟨_, _, rfl, goodName_of ?_ ?_ (by simp) (by simp)⟩
      · intro c hc
        simp only [List.mem_append, List.mem_cons, List.not_mem_nil, or_false] at hc
        rcases hc with (rfl | hc) | rfl
        · decide
        · refine ⟨?_, ?_⟩
          · rintro rfl; apply hs; simp [strSlash]; exact ⟨47, hc, .inl rfl⟩
          · rintro rfl; exact hk.str s rfl hc
        · decide
      · exact utf8_quoted [34] [34] (hq.str s rfl) (by simp) (by simp)
  | bytes b =>
    simp only []
    split
    · exact .inl rfl
    · next hs =>
      cases hd : utf8Decode b with
      | none => exact .inl rfl
      | some s =>
        have hen := utf8Encode_decode hd
        refine .inr ⟨_, _, rfl, goodName_of ?_ ?_ (by simp) (by simp)⟩
        · intro c hc
          simp only [List.mem_append, List.mem_cons, List.not_mem_nil, or_false] at hc
          rcases hc with (rfl | rfl | hc) | rfl
          · decide
          · decide
          · refine ⟨?_, ?_⟩
            · rintro rfl; apply hs
              simp only [byteSlash, List.any_eq_true, decide_eq_true_eq]
              exact ⟨_, utf8Encode_ascii hen hc (by decide), by decide⟩
            · rintro rfl; exact hk.bytes b rfl (utf8Encode_ascii hen hc (by decide))
          · decide
        · exact utf8_quoted [98, 34] [34] (by rw [hen]; rfl) (by simp) (by simp)
  | none => exact hstd .none _ rfl (by unfold GoodName; decide) (by simp) (by simp)
  | bool b => exact hstd (.bool b) _ rfl (by cases b <;> (unfold GoodName; decide)) (by simp) (by simp)
  | int i =>
    refine hstd (.int i) (showInt i) (by simp [reprKey, hk.int i rfl]) ?_ (by simp) (by simp)
    have hc : ∀ c ∈ showInt i, (48 ≤ c ∧ c ≤ 57) ∨ c = 45 := by
      intro c hc
      rcases showInt_chars i c hc with h | h
      · simp [isDigit] at h; omega
      · exact .inr h
    refine goodName_ascii (fun c h => by have := hc c h; omega) (showInt_ne_nil i) ?_
    intro h
    have := hc 46 (by rw [h]; simp)
    omega
  | float x =>
    refine hstd (.float x) (env.reprF x) rfl ?_ (by simp) (by simp)
    refine goodName_ascii ?_ ?_ (fun h => ht.dotF x (by rw [h]; decide))
    · intro c hc
      have : ∀ c ∈ ps "0123456789+-.einfa", 0 < c ∧ c < 128 ∧ c ≠ 47 := by decide
      exact this c (ht.charsF x c hc)
    · intro h; obtain ⟨c, h1, _⟩ := ht.pointF x; rw [h] at h1; simp at h1
  | cplx x y =>
    refine hstd (.cplx x y) (env.reprC x y) rfl ?_ (by simp) (by simp)
    refine goodName_ascii ?_ ?_ ?_
    · intro c hc
      have : ∀ c ∈ ps "0123456789+-.einfa()j", 0 < c ∧ c < 128 ∧ c ≠ 47 := by decide
      exact this c (ht.charsC x y c hc)
    · intro h; have := ht.jC x y; rw [h] at this; simp at this
    · intro h; have := ht.jC x y; rw [h] at this; simp at this
  | _ => left; simp only []; rw [hother hq.kind (by simp) (by simp) (by simp) (by simp) (by simp)]; rfl

/-! ### the heap of a running dump -/

theorem getElem?_of_prefix {α : Type} {l l' : List α} (h : l <+: l') {i : Nat} (hi : i < l.length) : l'[i]? = l[i]? := by
  obtain ⟨t, rfl⟩ := h
  exact List.getElem?_append_left hi

theorem npShape_mono {H H' : Heap} (hp : H <+: H') (hc : Closed H) (fuel : Nat) : ∀ a : Addr, a < H.length → npShape H' fuel a = npShape H fuel a := by
  induction fuel with
  | zero => intro a _; rfl
  | succ fuel ih =>
    intro a ha
    unfold npShape
    rw [getElem?_of_prefix hp ha]
    cases ho : H[a]? with
    | none => rfl
    | some o =>
      obtain ⟨cl, v⟩ := o
      cases v with
      | seq items =>
        have hi : ∀ b ∈ items, b < H.length := hc a _ ho
        have : ∀ items : List Addr, (∀ b ∈ items, b < H.length) → items.mapM (npShape H' fuel) = items.mapM (npShape H fuel) := by
          intro items
          induction items with
          | nil => intro _; rfl
          | cons x xs ihx =>
            intro hi
            simp only [List.mapM_cons]
            rw [ih x (hi x (by simp)), ihx (fun b hb => hi b (by simp [hb]))]
        simp only []
        rw [this items hi]
      | _ => rfl

theorem IsNum.iff {H H' : Heap} (hp : H <+: H') {a : Addr} (ha : a < H.length) : IsNum H' a ↔ IsNum H a := by
  unfold IsNum; rw [getElem?_of_prefix hp ha]

theorem ItemsOk.mono {env : Env} {H H' : Heap} (hp : H <+: H') (hc : Closed H) {items : List Addr} (hi : ∀ a ∈ items, a < H.length)
    (h : ItemsOk env H items) : ItemsOk env H' items where
  first a o ha ho := by
    rw [getElem?_of_prefix hp (hi a (List.mem_of_mem_head? (by simp [ha])))] at ho
    exact h.first a o ha ho
  rest a ha hn b hb := by
    rw [IsNum.iff hp (hi a (List.mem_of_mem_head? (by simp [ha])))] at hn
    obtain ⟨h1, h2⟩ := h.rest a ha hn b hb
    refine ⟨?_, fun o ho => h2 o (by rw [getElem?_of_prefix hp (hi b hb)] at ho; exact ho)⟩
    rintro ⟨r1, r2, r3⟩
    refine h1 ⟨r1, by rw [getElem?_of_prefix hp (hi b hb)] at r2; exact r2, ?_⟩
    rw [npShape_mono hp hc _ b (hi b hb)] at r3; exact r3
  fit hall a ha o x ho hx := by
    rw [getElem?_of_prefix hp (hi a ha)] at ho
    rcases h.fit (fun b hb => (IsNum.iff hp (hi b hb)).1 (hall b hb)) a ha o x ho hx with h1 | ⟨h1, b, hb, p, v, e1, e2⟩
    · exact .inl h1
    · exact .inr ⟨h1, b, hb, p, v, by rw [getElem?_of_prefix hp (hi b hb)]; exact e1, e2⟩

theorem ObjPlain.mono {env : Env} {kw : List Kw} {H H' : Heap} (hp : H <+: H') (hc : Closed H) {o : Obj} (hi : ∀ b ∈ o.val.children, b < H.length)
    (h : ObjPlain env kw H o) : ObjPlain env kw H' o where
  kind := h.kind
  cls := h.cls
  str := h.str
  int := h.int
  arr := h.arr
  mask := h.mask
  items items hv := (h.items items hv).mono hp hc (by rcases hv with hv | hv <;> (intro b hb; exact hi b (by rw [hv]; exact hb)))
  strs := h.strs
  objs shape items hv := ⟨(h.objs shape items hv).1, fun n i hn => ((h.objs shape items hv).2 n i hn).mono hp hc fun b hb =>
    hi b (by rw [hv]; exact List.mem_of_mem_drop (List.mem_of_mem_take hb))⟩
  dims := h.dims

/-- the objects of a running dump: those of the graph, and those made for the dump, which can be stored as well -/
structure Dom (env : Env) (kw : List Kw) (H : Heap) (h : Heap) : Prop where
  dom : DumpDomain env kw H
  pre : H <+: h
  temps : ∀ (p : Addr) (o : Obj), H.length ≤ p → h[p]? = some o → ObjPlain env kw h o ∧ (∀ b ∈ o.val.children, b < h.length) ∧ ∀ es, o.val ≠ .dict es

theorem Dom.plain {env : Env} {kw H h} (hd : Dom env kw H h) {a : Addr} {o : Obj} (ha : h[a]? = some o) :
    ObjPlain env kw h o ∧ ∀ b ∈ o.val.children, b < h.length := by
  have hlen := hd.pre.length_le
  rcases Nat.lt_or_ge a H.length with hl | hl
  · rw [getElem?_of_prefix hd.pre hl] at ha
    have hw := hd.dom.wf a o ha
    exact ⟨(hd.dom.obj a o ha).toObjPlain.mono hd.pre hd.dom.wf hw, fun b hb => Nat.lt_of_lt_of_le (hw b hb) hlen⟩
  · have := hd.temps a o hl ha
    exact ⟨this.1, this.2.1⟩

theorem Dom.closed {env : Env} {kw H h} (hd : Dom env kw H h) : Closed h := fun _ _ ha => (hd.plain ha).2

/-- new objects that can be stored -/
theorem Dom.alloc {env : Env} {kw H h} (hd : Dom env kw H h) {blk : List Obj}
    (hb : ∀ (p : Addr) (o : Obj), h.length ≤ p → (h ++ blk)[p]? = some o →
      ObjPlain env kw (h ++ blk) o ∧ (∀ b ∈ o.val.children, b < (h ++ blk).length) ∧ ∀ es, o.val ≠ .dict es) : Dom env kw H (h ++ blk) where
  dom := hd.dom
  pre := hd.pre.trans (List.prefix_append _ _)
  temps p o hp ho := by
    rcases Nat.lt_or_ge p h.length with hl | hl
    · rw [List.getElem?_append_left hl] at ho
      obtain ⟨h1, h2, h3⟩ := hd.temps p o hp ho
      exact ⟨h1.mono (List.prefix_append _ _) hd.closed h2, fun b hb => by have := h2 b hb; simp; omega, h3⟩
    · exact hb p o hl ho

theorem ObjPlain.simple {env : Env} {kw : List Kw} {H : Heap} {o : Obj} (hk : KindOk env o = true) (hc : clsPicklable env o.cls = true)
    (hs : ∀ s, o.val = .str s → (utf8Encode s).isSome = true) (hi : ∀ i, o.val = .int i → bitLength i ≤ 63) (ha : ∀ d data, o.val = .arr d [] data → kw = [])
    (hl : ∀ l, o.val = .seq l → ItemsOk env H l) (ht : o.val.isTemp = true) : ObjPlain env kw H o where
  kind := hk
  cls _ := hc
  str := hs
  int i hv hb := by have := hi i hv; omega
  arr := ha
  mask _ _ _ hv := by rw [hv] at ht; simp [Val.isTemp] at ht
  items l hv := by
    rcases hv with hv | hv
    · exact hl l hv
    · rw [hv] at ht; simp [Val.isTemp] at ht
  strs _ _ _ hv := by rw [hv] at ht; simp [Val.isTemp] at ht
  objs _ _ hv := by rw [hv] at ht; simp [Val.isTemp] at ht
  dims _ _ _ _ hv := by rw [hv] at ht; simp [Val.isTemp] at ht

/-- the objects made for the content of an array can be stored -/
theorem Dom.nest {env : Env} {kw H h} (hd : Dom env kw H h) {a : Addr} {ow : Obj} (ha : h[a]? = some ow) {c sh ls} (hn : NestOf ow.val c sh ls) :
    Dom env kw H (h ++ (nestBlock c sh ls h.length).1) ∧ (nestBlock c sh ls h.length).2 < (h ++ (nestBlock c sh ls h.length).1).length := by
  have hb := nest_spec (H := h ++ (nestBlock c sh ls h.length).1) (base := h.length) sh ls h.length hn.1 hn.2 (Nat.le_refl _) (by
    intro i o hi
    rw [List.getElem?_append_right (by omega), Nat.add_sub_cancel_left]; exact hi)
  generalize hblk : (nestBlock c sh ls h.length).1 = blk at hb
  generalize (nestBlock c sh ls h.length).2 = root at hb
  refine ⟨hd.alloc ?_, by have := hb.hi; simp; omega⟩
  intro p o hp ho
  have hlt := lt_of_getElem? ho
  have ht := hb.all (p - h.length) (by simp at hlt; omega)
  rw [show h.length + (p - h.length) = p by omega] at ht
  obtain ⟨hpl, hch⟩ := hd.plain ha
  have hleaf : ∀ (r : Addr) (q : Obj), (h ++ blk)[r]? = some q → LeafOf ow.val q → (∀ cl l, q ≠ ⟨cl, .seq l⟩) ∧ ¬ q.ShortBytes ∧ ∀ i, exactNum q = some (.i i) → (NpVal.i i).ok = true := by
    intro r q hq hl
    obtain ⟨cl, v⟩ := ow
    simp only at hl hpl
    cases hl with
    | str _ => exact ⟨by simp, by rintro ⟨h, _⟩; simp at h, by simp [exactNum]⟩
    | data => exact ⟨by simp, by rintro ⟨h, _⟩; simp at h, by simp [exactNum]⟩
    | nomask => exact ⟨by simp, by rintro ⟨h, _⟩; simp at h, by simp [exactNum]⟩
    | @dim _ _ _ _ n hm =>
      refine ⟨by simp, by rintro ⟨h, _⟩; simp at h, ?_⟩
      intro i hi
      simp [exactNum] at hi; subst hi
      have := (hpl.dims _ _ _ _ rfl).2 n hm
      simp [NpVal.ok]; omega
  cases ht with
  | leaf _ h2 h3 =>
    rw [ho] at h2; simp at h2; subst h2
    obtain ⟨h4, h5, h6⟩ := h3.temp
    refine ⟨?_, by rw [h6]; simp, fun es he => by rw [he] at h5; simp [Val.isTemp] at h5⟩
    obtain ⟨cl, v⟩ := ow
    simp only at h3 hpl
    cases h3 with
    | str hs => exact ObjPlain.simple rfl rfl (fun s h => by simp at h; subst h; exact (hpl.strs _ _ _ rfl).2 _ hs) (by simp) (by simp) (by simp) rfl
    | data => exact ObjPlain.simple rfl rfl (by simp) (by simp) (fun d data h => by simp at h; rw [h.2.1] at hpl; exact hpl.mask _ _ _ rfl) (by simp) rfl
    | nomask => exact ObjPlain.simple rfl rfl (by simp) (by simp) (by simp) (by simp) rfl
    | @dim _ _ _ _ n hm =>
      refine ObjPlain.simple rfl rfl (by simp) (fun i h => ?_) (by simp) (by simp) rfl
      simp at h; subst h
      rw [bitLength_le_63]
      have := (hpl.dims _ _ _ _ rfl).2 n hm
      simpa using this
  | @row _ c rows _ h2 h3 h4 h5 h6 =>
    rw [ho] at h2; simp at h2; subst h2
    refine ⟨ObjPlain.simple ?_ ?_ (by simp) (by simp) (by simp) ?_ rfl, fun b hb => by have := h4 b hb; omega, by simp⟩
    · rcases h3 with rfl | ⟨rfl, _⟩ <;> rfl
    · rcases h3 with rfl | ⟨rfl, _⟩ <;> rfl
    · intro l hl
      simp at hl; subst hl
      rcases h6 with h6 | h6
      · constructor
        · intro r q hr hq
          obtain ⟨q', e1, e2⟩ := h6 r (List.mem_of_mem_head? (by simp [hr]))
          rw [hq] at e1; simp at e1; subst e1
          exact (hleaf r q hq e2).2.1
        · intro _ _ _ b hb
          obtain ⟨q', e1, e2⟩ := h6 b hb
          obtain ⟨k1, k2, _⟩ := hleaf b q' e1 e2
          refine ⟨?_, fun q hq => by rw [e1] at hq; simp at hq; subst hq; exact k2⟩
          rintro ⟨_, ⟨cl, l, hq⟩, _⟩
          rw [e1] at hq; simp at hq
          exact k1 cl l hq
        · intro _ b hb q x hq hx
          obtain ⟨q', e1, e2⟩ := h6 b hb
          rw [hq] at e1; simp at e1; subst e1
          exact .inl ((hleaf b q hq e2).2.2 x hx)
      · constructor
        · intro r q hr hq
          obtain ⟨cl, l, e1⟩ := h6 r (List.mem_of_mem_head? (by simp [hr]))
          rw [hq] at e1; simp at e1; subst e1
          rintro ⟨_, b, hb, _⟩
          simp at hb
        · intro r hr hn
          obtain ⟨cl, l, e1⟩ := h6 r (List.mem_of_mem_head? (by simp [hr]))
          obtain ⟨q, v, e2, e3⟩ := hn
          rw [e1] at e2; simp at e2; subst e2
          simp [exactNum] at e3
        · intro _ b hb q x hq hx
          obtain ⟨cl, l, e1⟩ := h6 b hb
          rw [hq] at e1; simp at e1; subst e1
          simp [exactNum] at hx
  | @elems _ rows _ h2 h3 =>
    rw [ho] at h2; simp at h2; subst h2
    obtain ⟨shape, items, n, i, e1, e2, e3, _⟩ := h3
    have hmem : ∀ b ∈ rows, b < h.length := fun b hb => hch b (by rw [e1]; rw [e3] at hb; exact List.mem_of_mem_drop (List.mem_of_mem_take hb))
    refine ⟨ObjPlain.simple rfl rfl (by simp) (by simp) (by simp) ?_ rfl, fun b hb => by have := hmem b hb; simp; omega, by simp⟩
    intro l hl
    simp at hl; subst hl
    refine ItemsOk.mono (List.prefix_append _ _) hd.closed hmem ?_
    rw [e3]
    exact (hpl.objs shape items e1).2 n i e2

/-- what the loop over the sub items needs to know about them -/
structure SubsGood (env : Env) (H : Heap) (h : Heap) (subs : Subs) : Prop where
  each : ∀ x ∈ subs, ∃ sb : Sub, x = .ok sb ∧ GoodName sb.name ∧ (∀ b, sb.obj = .addr b → b < h.length) ∧
    ∀ k v : Addr, sb.obj = .pair k v → k < H.length ∧ v < H.length ∧ ItemsOk env H [k, v]
  names : subs.Pairwise fun x y => ∀ sb sb' : Sub, x = .ok sb → y = .ok sb' → sb.name ≠ sb'.name

theorem SubsGood.tail {env H h x subs} (hs : SubsGood env H h (x :: subs)) : SubsGood env H h subs :=
  ⟨fun y hy => hs.each y (by simp [hy]), (List.pairwise_cons.1 hs.names).2⟩

theorem SubsGood.mono {env H h h' subs} (hp : h <+: h') (hs : SubsGood env H h subs) : SubsGood env H h' subs :=
  ⟨fun y hy => by
    obtain ⟨sb, e1, e2, e3, e4⟩ := hs.each y hy
    exact ⟨sb, e1, e2, fun b hb => Nat.lt_of_lt_of_le (e3 b hb) hp.length_le, e4⟩, hs.names⟩

theorem listSubs_good {env H h} {items : List Addr} : ∀ {i : Nat}, (∀ b ∈ items, b < h.length) → SubsGood env H h (listSubs i items) := by
  intro i hi
  constructor
  · intro x hx
    induction items generalizing i with
    | nil => simp [listSubs] at hx
    | cons a as ih =>
      simp only [listSubs, List.mem_cons] at hx
      rcases hx with rfl | hx
      · refine ⟨_, rfl, goodName_data i, ?_, by simp⟩
        intro b hb; simp at hb; subst hb; exact hi _ (by simp)
      · exact ih (fun b hb => hi b (by simp [hb])) hx
  · have hge : ∀ (as : List Addr) (j : Nat) (sb : Sub), Except.ok sb ∈ listSubs j as → ∃ m, j ≤ m ∧ sb.name = dataName m := by
      intro as
      induction as with
      | nil => intro j sb h; simp [listSubs] at h
      | cons a as ih =>
        intro j sb h
        simp only [listSubs, List.mem_cons, Except.ok.injEq] at h
        rcases h with rfl | h
        · exact ⟨j, Nat.le_refl _, rfl⟩
        · obtain ⟨m, h1, h2⟩ := ih (j + 1) sb h
          exact ⟨m, by omega, h2⟩
    clear hi
    induction items generalizing i with
    | nil => simp [listSubs]
    | cons a as ih =>
      simp only [listSubs, List.pairwise_cons]
      refine ⟨?_, ih⟩
      intro y hy sb sb' h1 h2 hn
      subst h2
      simp at h1; subst h1
      obtain ⟨m, h3, h4⟩ := hge _ _ _ hy
      simp only [h4] at hn
      have := dataName_inj hn
      omega

theorem dictSubs_getElem? {env : Env} {H : Heap} {es : List (Addr × Addr)} {i b : Nat} {x} (h : (dictSubs env H b es)[i]? = some x) :
    ∃ k v, es[i]? = some (k, v) ∧ x = dictSub env H (b + i) k v := by
  cases he : es[i]? with
  | none =>
    have hl : ∀ (es : List (Addr × Addr)) b, (dictSubs env H b es).length = es.length := by
      intro es; induction es with
      | nil => intro b; rfl
      | cons e es ih => intro b; simp [dictSubs, ih]
    rw [List.getElem?_eq_none_iff] at he
    have := lt_of_getElem? h
    rw [hl] at this; omega
  | some e =>
    obtain ⟨k, v⟩ := e
    rw [dictSubs_at he] at h
    simp at h
    exact ⟨k, v, rfl, h.symm⟩

theorem dictSubs_good {env : Env} (ht : TextOk env) {kw H h} (hd : Dom env kw H h) {a : Addr} {cl es} (ha : H[a]? = some ⟨cl, .dict es⟩) :
    SubsGood env H h (dictSubs env h 0 es) := by
  have hw := hd.dom.wf a _ ha
  have hdk := (hd.dom.obj a _ ha).dict es rfl
  have hlen := hd.pre.length_le
  have hkv : ∀ {i : Nat} {k v : Addr}, es[i]? = some (k, v) → k < H.length ∧ v < H.length := by
    intro i k v hi
    have hm := List.mem_of_getElem? hi
    exact ⟨hw k (by simp only [Val.children, List.mem_flatMap]; exact ⟨_, hm, by simp⟩),
      hw v (by simp only [Val.children, List.mem_flatMap]; exact ⟨_, hm, by simp⟩)⟩
  have hcongr : ∀ {i : Nat} {k v : Addr}, es[i]? = some (k, v) → ∀ j, dictSub env h j k v = dictSub env H j k v := by
    intro i k v hi j
    unfold dictSub
    rw [getElem?_of_prefix hd.pre (hkv hi).1]
  constructor
  · intro x hx
    obtain ⟨i, hi⟩ := List.getElem?_of_mem hx
    obtain ⟨k, v, he, rfl⟩ := dictSubs_getElem? hi
    obtain ⟨hk, hv⟩ := hkv he
    have hq : H[k]? = some H[k] := List.getElem?_eq_getElem hk
    obtain ⟨h1, h2⟩ := hdk.keys k v (List.mem_of_getElem? he) _ hq
    rw [hcongr he]
    unfold dictSub
    rw [hq]
    simp only []
    rcases keySlot_total ht (hd.dom.obj k _ hq).toObjPlain h1 with hs | ⟨r, kbt, hs, hr⟩
    · rw [hs]
      refine ⟨_, rfl, goodName_data _, by simp, ?_⟩
      intro k' v' hp
      simp at hp; obtain ⟨rfl, rfl⟩ := hp
      exact ⟨hk, hv, h2 hs⟩
    · rw [hs]
      refine ⟨_, rfl, hr, ?_, by simp⟩
      intro b hb; simp at hb; subst hb; omega
  · rw [List.pairwise_iff_getElem]
    intro i j hi hj hij sb sb' h1 h2 hn
    obtain ⟨k, v, e1, e2⟩ := dictSubs_getElem? (List.getElem?_eq_getElem hi)
    obtain ⟨k', v', e3, e4⟩ := dictSubs_getElem? (List.getElem?_eq_getElem hj)
    rw [e2, hcongr e1, Nat.zero_add] at h1
    rw [e4, hcongr e3, Nat.zero_add] at h2
    obtain ⟨o, o', g1, g2, g3, g4⟩ := C07_names ht hdk.distinct (by omega) e1 e3 h1 h2 hn
    have := List.pairwise_iff_getElem.1 hdk.nan i j (lt_of_getElem? e1) (lt_of_getElem? e3) hij
    rw [List.getElem?_eq_getElem (lt_of_getElem? e1)] at e1
    rw [List.getElem?_eq_getElem (lt_of_getElem? e3)] at e3
    simp only [Option.some.injEq] at e1 e3
    rw [e1, e3] at this
    exact this ⟨⟨o, g1, g3⟩, ⟨o', g2, g4⟩⟩

theorem nestSubs_good {env H h} {sh : List Nat} (k : Nat) : ∀ {i : Nat} {ls : List Leaf}, SubsGood env H h (nestSubs sh i k ls) := by
  induction k with
  | zero => intro i ls; exact ⟨by simp [nestSubs], by simp [nestSubs]⟩
  | succ k ih =>
    intro i ls
    simp only [nestSubs]
    constructor
    · intro x hx
      rcases List.mem_cons.1 hx with rfl | hx
      · exact ⟨_, rfl, goodName_data i, by simp, by simp⟩
      · exact ih.each x hx
    · refine .cons ?_ ih.names
      intro y hy sb sb' h1 h2 hn
      subst h2
      simp at h1; subst h1
      obtain ⟨j, _, rfl⟩ := nestSubs_mem hy
      have := dataName_inj hn
      omega

theorem subsGood_one {env H h} {name : PyStr} {a : Addr} (hn : GoodName name) (ha : a < h.length) {subs : Subs} (hs : SubsGood env H h subs)
    (hf : ∀ sb : Sub, .ok sb ∈ subs → sb.name ≠ name) : SubsGood env H h (.ok ⟨name, .addr a, []⟩ :: subs) where
  each x hx := by
    rcases List.mem_cons.1 hx with rfl | hx
    · exact ⟨_, rfl, hn, fun b hb => by simp at hb; subst hb; exact ha, by simp⟩
    · exact hs.each x hx
  names := .cons (fun y hy sb sb' h1 h2 he => by
    subst h2; simp at h1; subst h1
    exact hf sb' hy he.symm) hs.names

theorem subsGood_nest {env H h} {name : PyStr} {c sh ls} (hn : GoodName name) {subs : Subs} (hs : SubsGood env H h subs)
    (hf : ∀ sb : Sub, .ok sb ∈ subs → sb.name ≠ name) : SubsGood env H h (.ok ⟨name, .nest c sh ls, []⟩ :: subs) where
  each x hx := by
    rcases List.mem_cons.1 hx with rfl | hx
    · exact ⟨_, rfl, hn, by simp, by simp⟩
    · exact hs.each x hx
  names := .cons (fun y hy sb sb' h1 h2 he => by
    subst h2; simp at h1; subst h1
    exact hf sb' hy he.symm) hs.names

theorem Head.subsGood {env : Env} (ht : TextOk env) {kw H h} (hd : Dom env kw H h) {fn o at' od subs} {a : Addr} (ha : h[a]? = some o)
    (hh : Head env h fn o at' od subs) : SubsGood env H h subs := by
  have hw := (hd.plain ha).2
  have hnil : SubsGood env H h [] := ⟨by simp, by simp⟩
  have g1 : GoodName (ps "data") := by unfold GoodName; decide
  have g2 : GoodName (ps "mask") := by unfold GoodName; decide
  have g3 : GoodName (ps "indices") := by unfold GoodName; decide
  have g4 : GoodName (ps "indptr") := by unfold GoodName; decide
  have g5 : GoodName (ps "shape") := by unfold GoodName; decide
  cases hh with
  | rows => exact nestSubs_good _
  | oseq hr _ hq =>
    cases hq with
    | items =>
      cases hr with
      | one hv => exact listSubs_good (by rw [hv] at hw; exact hw)
      | zero _ hl => exact listSubs_good (hd.plain hl).2
    | _ => exact hnil
  | oone hv => exact subsGood_one g1 (hw _ (by rw [hv]; simp [Val.children])) hnil (by simp)
  | masked hv => exact subsGood_nest g1 (subsGood_nest g2 hnil (by simp)) (by simp; decide)
  | sparse hv =>
    rw [hv] at hw
    simp only [Val.children, List.mem_cons, List.not_mem_nil, or_false, forall_eq_or_imp, forall_eq] at hw
    exact subsGood_one g1 hw.1 (subsGood_one g3 hw.2.1 (subsGood_one g4 hw.2.2 (subsGood_nest g5 hnil (by simp)) (by simp; decide)) (by simp; decide)) (by simp; decide)
  | seqItems h1 => exact listSubs_good (by rw [h1] at hw; exact hw)
  | setItems h1 => exact listSubs_good (by rw [h1] at hw; exact hw)
  | @dict _ _ es h1 =>
    obtain ⟨cl, v⟩ := o
    simp only at h1; subst h1
    rcases Nat.lt_or_ge a H.length with hl | hl
    · rw [getElem?_of_prefix hd.pre hl] at ha
      exact dictSubs_good ht hd ha
    · exact absurd rfl ((hd.temps a _ hl ha).2.2 es)
  | _ => exact hnil

/-! ### `_dump` -/

theorem setAttrs_tab {c : DCtx} (n : NodeId) (attrs : Attrs) {s : DState} (hT : TabNames c s) :
    ∃ s1, setAttrs n attrs s = (.ok (), s1) ∧ TabNames c s1 := by
  induction attrs generalizing s with
  | nil => exact ⟨s, rfl, hT⟩
  | cons p ps ih =>
    unfold setAttrs
    simp only [M.forEach]
    rw [M.bind_of_ok (show setAttr n p.1 p.2 s = (.ok (), _) from M.modify_apply _ _)]
    exact ih (hT.setAttr _ _ _)

/-- returns, or is stopped by the recursion limit -/
def Returns (c : DCtx) (H : Heap) (x : Except PyErr Unit × DState) : Prop :=
  x.1 = .error .recursionError ∨ ∃ s', x = (.ok (), s') ∧ TabNames c s' ∧ Dom c.env c.kw H s'.heap

theorem subs_total {c : DCtx} (hE : EnvOk P c.env) (hm : c.mgr.Ok) {H : Heap} {fuel : Nat}
    (ih : ∀ a g name attrs s D O ls, DInv P c H.length D O s → (∀ b, (g, b) ∉ D) → g ≠ c.table → AttrsOk attrs → TabNames c s → Dom c.env c.kw H s.heap →
      s.store.links g = some ls → GoodName name → Assoc.get? ls name = none → a < s.heap.length → Returns c H (dumpNode c fuel a g name attrs s))
    {n : NodeId} (hnT : n ≠ c.table) {O : List (NodeId × Addr)} (subs : Subs) :
    ∀ D s ls, DInv P c H.length D O s → (∀ b, (n, b) ∉ D) → SubsOk H.length s.heap subs → SubsGood c.env H s.heap subs → s.store.links n = some ls →
      (∀ sb : Sub, .ok sb ∈ subs → Assoc.get? ls sb.name = none) → TabNames c s → Dom c.env c.kw H s.heap →
      Returns c H (M.forEach (fun sub => match sub with
          | .error e => M.throw e
          | .ok sub => do
            let b ← subAddr sub.obj
            dumpNode c fuel b n sub.name sub.attrs) subs s) := by
  induction subs with
  | nil => intro D s ls hD hn hs hg hl hf hT hd; exact .inr ⟨s, rfl, hT, hd⟩
  | cons sub subs ihs =>
    intro D s ls hD hn hs hg hl hf hT hd
    obtain ⟨sb, rfl, g1, g2, g3⟩ := hg.each sub (by simp)
    simp only [M.forEach]
    have hs0 : ∃ b s0, subAddr sb.obj s = (.ok b, s0) ∧ DInv P c H.length D O s0 ∧ s0.store = s.store ∧ s.heap <+: s0.heap ∧ b < s0.heap.length ∧
        TabNames c s0 ∧ Dom c.env c.kw H s0.heap := by
      cases ho : sb.obj with
      | addr a => exact ⟨a, s, rfl, hD, rfl, List.prefix_rfl, g2 a ho, hT, hd⟩
      | nest cl sh ls =>
        obtain ⟨a, ow, e1, e2⟩ := hs.nests sb cl sh ls (by simp) ho
        obtain ⟨k1, k2⟩ := hd.nest e1 e2
        exact ⟨_, _, rfl, (hD.sub hs (by rw [ho]; rfl)).1, rfl, List.prefix_append _ _, k2, hT.congr rfl rfl, k1⟩
      | pair k v =>
        refine ⟨_, _, rfl, (hD.sub hs (by rw [ho]; rfl)).1, rfl, List.prefix_append _ _, by simp, hT.congr rfl rfl, hd.alloc ?_⟩
        intro p o hp hpo
        rw [List.getElem?_append_right hp] at hpo
        rcases hx : p - s.heap.length with _ | x
        · rw [hx] at hpo; simp at hpo; subst hpo
          obtain ⟨q1, q2, q3⟩ := g3 k v ho
          have hlen := hd.pre.length_le
          have hc : ∀ b ∈ [k, v], b < H.length := by simp [q1, q2]
          refine ⟨ObjPlain.simple rfl rfl (by simp) (by simp) (by simp) ?_ rfl, ?_, by simp⟩
          · intro l hl; simp at hl; subst hl
            exact q3.mono (hd.pre.trans (List.prefix_append _ _)) hd.dom.wf hc
          · intro b hb
            have := hc b hb
            simp; omega
        · rw [hx] at hpo; simp at hpo
    obtain ⟨b, s0, h3, hD0, hst, hpre, hb, hT0, hd0⟩ := hs0
    have hattr := hs.attrs sb (by simp)
    have hl0 : s0.store.links n = some ls := by rw [hst]; exact hl
    have hstep := ih b n sb.name sb.attrs s0 D O ls hD0 hn hnT hattr hT0 hd0 hl0 g1 (hf sb (by simp)) hb
    rcases hstep with he | ⟨s1, h4, hT1, hd1⟩
    · left
      have : (subAddr sb.obj >>= fun b => dumpNode c fuel b n sb.name sb.attrs) s = (.error .recursionError, (dumpNode c fuel b n sb.name sb.attrs s0).2) := by
        rw [M.bind_of_ok h3]
        exact Prod.ext he rfl
      rw [M.bind_of_error this]
    · have h5 : (subAddr sb.obj >>= fun b => dumpNode c fuel b n sb.name sb.attrs) s = (.ok (), s1) := by
        rw [M.bind_of_ok h3]; exact h4
      rw [M.bind_of_ok h5]
      obtain ⟨D1, m, ls1, p1, p2, p3, p4, p5, p6, p7, p8, p9⟩ := dumpNode_spec hE hm fuel b n sb.name sb.attrs s0 s1 D O () hD0 hn hnT hattr h4
      rw [hl0] at p5
      simp only [Option.some.injEq] at p5
      subst p5
      have hnlt : n < s.store.length := by
        obtain ⟨nd, e, _⟩ := Store.links_eq hl; exact lt_of_getElem? e
      have hn1 : ∀ b, (n, b) ∉ D1 := by
        intro b' hb'
        have := p3 _ hb' (hn b')
        rw [hst] at this
        simp only at this
        omega
      have hp1 : s.heap <+: s1.heap := hpre.trans p4.heap
      refine ihs D1 s1 (ls ++ [(sb.name, m)]) p1 hn1 ((hs.tail).mono hp1) ((hg.tail).mono hp1) p6 ?_ hT1 hd1
      intro sb' hsb'
      rw [get?_append, hf sb' (by simp [hsb'])]
      have := (List.pairwise_cons.1 hg.names).1 _ hsb' sb sb' rfl rfl
      simp [Assoc.get?, this]

/-- `_dump` of an object that can be stored does not fail but for the recursion limit -/
theorem dumpNode_total {c : DCtx} (hE : EnvOk P c.env) (ht : TextOk c.env) (hm : c.mgr.Ok) (hk : KwOk c.kw) {H : Heap} (fuel : Nat) :
    ∀ a g name attrs s D O ls, DInv P c H.length D O s → (∀ b, (g, b) ∉ D) → g ≠ c.table → AttrsOk attrs → TabNames c s → Dom c.env c.kw H s.heap →
      s.store.links g = some ls → GoodName name → Assoc.get? ls name = none → a < s.heap.length → Returns c H (dumpNode c fuel a g name attrs s) := by
  induction fuel with
  | zero => intros; exact .inl rfl
  | succ fuel ih =>
    intro a g name attrs s D O ls hD hg hgT ha hT hd hl hn hf hlt
    unfold dumpNode
    rw [M.bind_of_ok (M.get_apply s)]
    cases hmem : Assoc.get? s.memo a with
    | some n =>
      simp only
      obtain ⟨l, s1, h1⟩ := mkDset_total (kw := []) (checkKw_nil (.ref n)) hl hn hf
      rw [M.bind_of_ok h1]
      obtain ⟨_, hcr⟩ := mkDset_ok h1
      obtain ⟨pnd, ls', f1, f2, f3, f4, f5, f6, f7, f8⟩ := hcr.facts
      have hs1 : s1 = { s with store := s1.store } := by obtain ⟨_, _, e, _⟩ := hcr; exact e
      have hT1 : TabNames c s1 := hT.congr (Store.links_congr (f6 _ (Ne.symm hgT) (by have := hD.tinv.table_lt; omega))) (by rw [hs1])
      obtain ⟨s2, h2, hT2⟩ := setAttrs_tab l attrs hT1
      obtain ⟨_, _, e5, _⟩ := setAttrs_ok (c := c) ha f5 h2
      exact .inr ⟨s2, h2, hT2, by rw [e5, hs1]; exact hd⟩
    | none =>
      have ho : s.heap[a]? = some s.heap[a] := List.getElem?_eq_getElem hlt
      simp only [ho]
      obtain ⟨hpl, hch⟩ := hd.plain ho
      obtain ⟨⟨n, subs, mem⟩, s1, h1, hT1⟩ := dumpCreate_total hE hm (hD.cls a _ ho) hD.reg hk hpl hch (fun b q hb => ⟨(hd.plain hb).2, fun l hl' => (hd.plain hb).1.items l (.inl hl')⟩) hT hgT hl hn hf
      rw [M.bind_of_ok h1]
      dsimp only
      have hflt : (attrs.filter fun p => decide (p.1 ≠ "type")) = attrs := by
        rw [List.filter_eq_self]
        intro p hp
        rcases ha.2 p hp with h | h | h <;> rw [h] <;> decide
      rw [hflt]
      obtain ⟨s2, h2, hT2⟩ := setAttrs_tab n attrs hT1
      rw [M.bind_of_ok h2]
      have h3 : ∃ s3, (if mem then M.modify fun s => { s with memo := Assoc.put s.memo a n } else pure () : DM Unit) s2 = (.ok (), s3) ∧ TabNames c s3 := by
        split
        · exact ⟨_, rfl, hT2.congr rfl rfl⟩
        · exact ⟨_, rfl, hT2⟩
      obtain ⟨s3, h3, hT3⟩ := h3
      rw [M.bind_of_ok h3]
      obtain ⟨ls', nd, od, hen⟩ := dumpEnter_ok hE hm hD hg hgT ha hmem ho h1 h2 h3
      have hd3 : Dom c.env c.kw H s3.heap := by rw [hen.heap]; exact hd
      cases od with
      | some d =>
        have := hen.head.leaf
        subst this
        exact .inr ⟨s3, rfl, hT3, hd3⟩
      | none =>
        exact subs_total hE hm ih hen.neTable subs D s3 [] hen.inv hen.fresh (hen.head.subsOk hen.obj) (hen.head.subsGood ht hd3 hen.obj)
          (Store.links_of hen.node hen.body) (fun _ _ => rfl) hT3 hd3

end Verif
