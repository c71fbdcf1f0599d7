import Verif.Props.V4Spec
/-!
# Objects in files of hickle 4.0 come back
-/
namespace Verif.V4
open V3 (Nd SpK)

/-! ### lists -/

/-- finite choice -/
theorem choose_list {β : Type} {n : Nat} {P : Nat → β → Prop} (h : ∀ i, i < n → ∃ y, P i y) :
    ∃ ys : List β, ys.length = n ∧ ∀ i y, ys[i]? = some y → P i y := by
  induction n with
  | zero => exact ⟨[], rfl, by simp⟩
  | succ n ih =>
    obtain ⟨ys, hl, hy⟩ := ih fun i hi => h i (by omega)
    obtain ⟨y, hn⟩ := h n (by omega)
    refine ⟨ys ++ [y], by simp [hl], fun i z hz => ?_⟩
    rw [List.getElem?_append] at hz
    split at hz
    · exact hy i z hz
    · have : i - ys.length = 0 := by
        have := (List.getElem?_eq_some_iff.1 hz).1
        simp at this; omega
      rw [this] at hz
      simp at hz
      have : i = n := by omega
      subst this; subst hz; exact hn

/-- a bound for all -/
theorem ev_all {n : Nat} {P : Nat → Nat → Prop} (h : ∀ i, i < n → ∃ f0, ∀ f, f0 ≤ f → P i f) : ∃ f0, ∀ f, f0 ≤ f → ∀ i, i < n → P i f := by
  induction n with
  | zero => exact ⟨0, fun f _ i hi => by omega⟩
  | succ n ih =>
    obtain ⟨f1, h1⟩ := ih fun i hi => h i (by omega)
    obtain ⟨f2, h2⟩ := h n (by omega)
    refine ⟨max f1 f2, fun f hf i hi => ?_⟩
    by_cases hin : i = n
    · subst hin; exact h2 f (by omega)
    · exact h1 f (by omega) i (by omega)

theorem getElem?_some_of_lt {α : Type} {xs : List α} {i : Nat} (h : i < xs.length) : ∃ x, xs[i]? = some x := ⟨xs[i], by simp [h]⟩

theorem lt_of_getElem? {α : Type} {xs : List α} {i : Nat} {x : α} (h : xs[i]? = some x) : i < xs.length := (List.getElem?_eq_some_iff.1 h).1

/-- an item finds its place -/
theorem place_ok {α : Type} {hole : α} {isHole : α → Bool} (hh : isHole hole = true) {c : List α} {i : Nat} (x : α) (hc : c[i]?.getD hole = hole) :
    ∃ c', place hole isHole c i x = .ok c' ∧ c'.length = max c.length (i + 1) ∧ c'[i]? = some x ∧
      ∀ j, j ≠ i → c'[j]?.getD hole = c[j]?.getD hole ∧ ∀ y, c[j]? = some y → c'[j]? = some y := by
  have hg : (c ++ List.replicate (i + 1 - c.length) hole)[i]? = some hole := by
    rw [List.getElem?_append]
    split
    · next h => rw [List.getElem?_eq_getElem h] at hc ⊢; simpa using hc
    · next h => rw [List.getElem?_replicate, if_pos (by omega)]
  refine ⟨(c ++ List.replicate (i + 1 - c.length) hole).set i x, ?_, ?_, ?_, ?_⟩
  · simp only [place, hg, hh, if_true]
  · simp; omega
  · rw [List.getElem?_set]; simp; omega
  · intro j hj
    rw [List.getElem?_set, if_neg (by omega)]
    constructor
    · rw [List.getElem?_append]
      split
      · rfl
      · next h =>
        rw [List.getElem?_replicate, List.getElem?_eq_none (by omega)]
        split <;> rfl
    · intro y hy
      rw [List.getElem?_append, if_pos (lt_of_getElem? hy), hy]

/-- the items of a container, met in any order -/
theorem fold_place {α E : Type} {hole : α} {isHole : α → Bool} (hh : isHole hole = true) (idx : E → Option Nat) (W : List α) (step : List α → E → Except PyErr (List α)) :
    ∀ (es : List E) (c : List α),
    (∀ e ∈ es, ∀ c, (∃ i x, idx e = some i ∧ W[i]? = some x ∧ step c e = place hole isHole c i x) ∨ (idx e = none ∧ step c e = .ok c)) →
    es.Pairwise (fun a b => ∀ i, idx a = some i → idx b ≠ some i) → c.length ≤ W.length →
    (∀ i x, W[i]? = some x → ((∃ e ∈ es, idx e = some i) ∧ c[i]?.getD hole = hole) ∨ ((∀ e ∈ es, idx e ≠ some i) ∧ c[i]? = some x)) →
    es.foldlM step c = .ok W
  | [], c, _, _, hl, hi => by
    have : c = W := by
      apply List.ext_getElem?
      intro i
      cases hw : W[i]? with
      | some x => rcases hi i x hw with ⟨⟨e, he, _⟩, _⟩ | ⟨_, h⟩
                  · simp at he
                  · exact h
      | none => rw [List.getElem?_eq_none_iff] at hw ⊢; omega
    subst this; rfl
  | e :: es, c, hs, hp, hl, hi => by
    rw [List.foldlM_cons]
    have hp' := List.pairwise_cons.1 hp
    rcases hs e (by simp) c with ⟨i, x, h1, h2, h3⟩ | ⟨h1, h2⟩
    · have hc : c[i]?.getD hole = hole := by
        rcases hi i x h2 with ⟨_, h⟩ | ⟨h, _⟩
        · exact h
        · exact absurd h1 (h e (by simp))
      obtain ⟨c', e1, e2, e3, e4⟩ := place_ok hh x hc
      rw [h3, e1]
      have hlt := lt_of_getElem? h2
      refine fold_place hh idx W step es c' (fun e he => hs e (by simp [he])) hp'.2 (by omega) fun j y hj => ?_
      by_cases hji : j = i
      · subst hji
        rw [h2] at hj
        cases hj
        exact .inr ⟨fun e' he' => hp'.1 e' he' j h1, e3⟩
      · rcases hi j y hj with ⟨⟨e', he', hx⟩, h⟩ | ⟨ha, h⟩
        · cases he' with
          | head => rw [h1] at hx; exact absurd (Option.some.inj hx).symm hji
          | tail _ he' => exact .inl ⟨⟨e', he', hx⟩, by rw [(e4 j hji).1, h]⟩
        · exact .inr ⟨fun e' he' => ha e' (by simp [he']), (e4 j hji).2 y h⟩
    · rw [h2]
      refine fold_place hh idx W step es c (fun e he => hs e (by simp [he])) hp'.2 hl fun j y hj => ?_
      rcases hi j y hj with ⟨⟨e', he', hx⟩, h⟩ | ⟨ha, h⟩
      · cases he' with
        | head => rw [h1] at hx; simp at hx
        | tail _ he' => exact .inl ⟨⟨e', he', hx⟩, h⟩
      · exact .inr ⟨fun e' he' => ha e' (by simp [he']), h⟩

/-- from an empty container on -/
theorem fold_place_nil {α E : Type} {hole : α} {isHole : α → Bool} (hh : isHole hole = true) (idx : E → Option Nat) (W : List α) (step : List α → E → Except PyErr (List α))
    (es : List E) (hs : ∀ e ∈ es, ∀ c, (∃ i x, idx e = some i ∧ W[i]? = some x ∧ step c e = place hole isHole c i x) ∨ (idx e = none ∧ step c e = .ok c))
    (hp : es.Pairwise (fun a b => ∀ i, idx a = some i → idx b ≠ some i)) (ha : ∀ i, i < W.length → ∃ e ∈ es, idx e = some i) : es.foldlM step [] = .ok W :=
  fold_place hh idx W step es [] hs hp (by simp) fun i x hx => .inl ⟨ha i (lt_of_getElem? hx), by simp⟩

/-! ### names -/

theorem trailing_data (i : Nat) : trailing (V3.dataName i) = some i := by
  have hp : ps "data_" = [100, 97, 116, 97, 95] := by decide
  have hd : ∀ c ∈ (digits i).reverse, isDigit c = true := fun c hc => digits_isDigit i c (by simpa using hc)
  have : ((V3.dataName i).reverse.takeWhile isDigit).reverse = digits i := by
    rw [V3.dataName, List.reverse_append, List.takeWhile_append_of_pos hd, hp]
    simp [isDigit]
  rw [trailing, this, parseNat_digits]

theorem trailing_mask (name : PyStr) : trailing (maskName name) = none := by
  have hp : ps "_mask" = [95, 109, 97, 115, 107] := by decide
  simp [trailing, maskName, hp, isDigit, parseNat]

theorem dataName_inj {i j : Nat} (h : V3.dataName i = V3.dataName j) : i = j := by
  have := trailing_data i
  rw [h, trailing_data] at this
  exact (Option.some.inj this).symm

theorem maskName_inj {a b : PyStr} (h : maskName a = maskName b) : a = b := List.append_cancel_right h

theorem data_ne_mask (i : Nat) (name : PyStr) : V3.dataName i ≠ maskName name := by
  intro h
  have := trailing_data i
  rw [h, trailing_mask] at this
  simp at this

/-! ### values -/

theorem num_view {v : Val} {x : NpVal} (h : v.num? = some x) : v.view = some (V3.K.ofNum x) := by
  cases v <;> simp [Val.num?] at h <;> subst h <;> rfl

theorem mapM_cons_some {α β : Type} {f : α → Option β} {a : α} {as : List α} {ys : List β} (h : (a :: as).mapM f = some ys) :
    ∃ y ys', f a = some y ∧ as.mapM f = some ys' ∧ ys = y :: ys' := by
  rw [List.mapM_cons] at h
  cases h1 : f a with
  | none => simp [h1] at h
  | some y =>
    cases h2 : as.mapM f with
    | none => simp [h1, h2] at h
    | some ys' => simp [h1, h2] at h; exact ⟨y, ys', rfl, rfl, h.symm⟩

theorem nums_view : ∀ {items : List Val} {vs : List NpVal}, items.mapM Val.num? = some vs → (vs.map Val.np).map Val.view = items.map Val.view
  | [], vs, h => by simp at h; subst h; rfl
  | x :: xs, vs, h => by
    obtain ⟨y, ys, h1, h2, rfl⟩ := mapM_cons_some h
    rw [List.map_cons, List.map_cons, List.map_cons, nums_view h2, num_view h1, Val.view]

theorem views_eq : ∀ {a b : List Val}, a.map Val.view = b.map Val.view → Val.views a = Val.views b
  | [], [], _ => rfl
  | [], _ :: _, h => by simp at h
  | _ :: _, [], h => by simp at h
  | x :: xs, y :: ys, h => by
    simp only [List.map_cons, List.cons.injEq] at h
    rw [Val.views, Val.views, h.1, views_eq h.2]

theorem map_view_eq {a b : List Val} (hl : b.length = a.length) (h : ∀ (i : Nat) (x y : Val), a[i]? = some x → b[i]? = some y → y.view = x.view) :
    b.map Val.view = a.map Val.view := by
  apply List.ext_getElem?
  intro i
  rw [List.getElem?_map, List.getElem?_map]
  by_cases hi : i < a.length
  · obtain ⟨x, hx⟩ := getElem?_some_of_lt hi
    obtain ⟨y, hy⟩ := getElem?_some_of_lt (hl ▸ hi)
    rw [hx, hy, Option.map_some, Option.map_some, h i x y hx hy]
  · rw [List.getElem?_eq_none (by omega), List.getElem?_eq_none (by omega)]

theorem Same.view {v w : Val} (h : Same v w) : w.view = v.view := by
  induction h with
  | refl v => rfl
  | nums k h =>
    cases k <;> first | rfl | skip
    rw [Val.view, Val.view, views_eq (nums_view h)]
  | bytess k bs =>
    cases k <;> first | rfl | skip
    rw [Val.view, Val.view, views_eq (b := bs.map .bytes)]
    rw [List.map_map, List.map_map]; rfl
  | seq k hl h ih =>
    cases k <;> first | rfl | skip
    rw [Val.view, Val.view, views_eq (map_view_eq hl ih)]
  | set => rfl
  | dict => rfl
  | oarr => rfl
  | inst => rfl

theorem Same.isSeq {v w : Val} (h : Same v w) : w.isSeq = v.isSeq := by
  induction h with
  | refl v => rfl
  | nums k h => cases k <;> rfl
  | bytess k bs => cases k <;> rfl
  | seq k hl h ih => cases k <;> rfl
  | set => rfl
  | dict => rfl
  | oarr => rfl
  | inst => rfl

theorem same_eq {oeq : Nat → Nat → Bool} {a b a' b' : Val} (h1 : a'.view = a.view) (h2 : b'.view = b.view) : a'.same oeq b' = a.same oeq b := by
  simp only [Val.same, h1, h2]

/-- what the elements of a set look like -/
theorem Elements.of_view {oeq : Nat → Nat → Bool} : ∀ {a b : List Val}, b.map Val.view = a.map Val.view → Elements oeq a → Elements oeq b
  | [], [], _, _ => ⟨by simp, .nil⟩
  | [], _ :: _, h, _ => by simp at h
  | _ :: _, [], h, _ => by simp at h
  | x :: xs, y :: ys, h, he => by
    simp only [List.map_cons, List.cons.injEq] at h
    have hp := List.pairwise_cons.1 he.2
    have ih := Elements.of_view h.2 ⟨fun v hv => he.1 v (by simp [hv]), hp.2⟩
    refine ⟨fun v hv => ?_, List.pairwise_cons.2 ⟨fun w hw => ?_, ih.2⟩⟩
    · cases hv with
      | head => rw [h.1]; exact he.1 x (by simp)
      | tail _ hv => exact ih.1 v hv
    · have : w.view ∈ ys.map Val.view := List.mem_map_of_mem hw
      rw [h.2] at this
      obtain ⟨z, hz, hzw⟩ := List.mem_map.1 this
      have := hp.1 z hz
      exact ⟨by rw [same_eq h.1 hzw.symm]; exact this.1, by rw [same_eq hzw.symm h.1]; exact this.2⟩

theorem Elements.perm {oeq : Nat → Nat → Bool} {a b : List Val} (hp : b.Perm a) (h : Elements oeq a) : Elements oeq b :=
  ⟨fun v hv => h.1 v (hp.mem_iff.1 hv), (hp.pairwise_iff (fun {_ _} h => ⟨h.2, h.1⟩)).2 h.2⟩

theorem setAdd_new {oeq : Nat → Nat → Bool} {acc : List Val} {v : Val} {rest : List Val} (h : Elements oeq (acc ++ v :: rest)) : setAdd oeq acc v = .ok (acc ++ [v]) := by
  have h1 : v.view.isNone = false := by
    have := h.1 v (by simp)
    cases hv : v.view <;> simp_all
  have h2 : (acc.any fun w => w.same oeq v) = false := by
    rw [List.any_eq_false]
    intro w hw
    have := (List.pairwise_append.1 h.2).2.2 w hw v (by simp)
    simp [this.1]
  simp [setAdd, h1, h2]

theorem setOf_elements {oeq : Nat → Nat → Bool} : ∀ {items acc : List Val}, Elements oeq (acc ++ items) → setOf oeq acc items = .ok (acc ++ items)
  | [], acc, _ => by simp [setOf]
  | v :: vs, acc, h => by
    rw [setOf, setAdd_new h]
    have := setOf_elements (items := vs) (acc := acc ++ [v]) (by simpa using h)
    simpa using this

/-- the items of a list, tuple or set of numbers or strings -/
theorem ofItems_ok {l : Libs} (hc : CtorOk l) {u : Option Nat} {k : SK} {items : List Val} (hu : u ≠ none → k = .list) (he : k = .set → Elements l.env.opaqueEq items) :
    ofItems l (own u k.cls) items = .ok (wrap u (.seq k items)) := by
  cases u with
  | some n =>
    cases hu (by simp)
    simp [ofItems, own, wrap, hc n]
  | none =>
    cases k with
    | list => rfl
    | tuple => rfl
    | set =>
      have := setOf_elements (acc := []) (by simpa using he rfl)
      simp only [own, SK.cls, ofItems, this]; rfl

theorem dictOf_differ {oeq : Nat → Nat → Bool} : ∀ {es acc : List (V3.PV × Val)}, V3.Differ oeq ((acc ++ es).map Prod.fst) → dictOf oeq acc es = .ok (acc ++ es)
  | [], acc, _ => by simp [dictOf]
  | (k, v) :: es, acc, h => by
    have h1 : k.view.isNone = false := by
      have := h.1 k (by simp)
      cases hv : k.view <;> simp_all
    have key : ∀ acc : List (V3.PV × Val), (∀ e ∈ acc, e.1.same oeq k = false) → dictPut oeq k v acc = acc ++ [(k, v)] := by
      intro acc ha
      induction acc with
      | nil => rfl
      | cons e acc ih =>
        obtain ⟨k', v'⟩ := e
        have := ha (k', v') (by simp)
        simp only at this
        rw [dictPut, this, ih fun e he => ha e (by simp [he])]; rfl
    have h2 : ∀ e ∈ acc, e.1.same oeq k = false := by
      intro e he
      have := h.2
      rw [List.map_append, List.pairwise_append] at this
      exact (this.2.2 e.1 (List.mem_map_of_mem he) k (by simp)).1
    rw [dictOf, h1, key acc h2]
    have := dictOf_differ (es := es) (acc := acc ++ [(k, v)]) (by simpa using h)
    simpa using this

/-! ### keys -/

theorem swapBack_id {t : PyStr} (h : 92 ∉ t) : swapBack t = t := by
  rw [swapBack]
  conv => rhs; rw [← List.map_id t]
  apply List.map_congr_left
  intro c hc
  rw [if_neg (by rintro rfl; exact h hc)]; rfl

theorem escChar_plain {p : Nat → Bool} {q c : Nat} (h : 92 ∉ escChar p q c) : escChar p q c = [c] := by
  revert h
  unfold escChar
  repeat' split
  all_goals simp

theorem reprStr_plain {p : Nat → Bool} {s : PyStr} (h : 92 ∉ reprStr p s) : reprStr p s = quoteFor s :: s ++ [quoteFor s] := by
  have key : ∀ (q : Nat) (t : PyStr), 92 ∉ t.flatMap (escChar p q) → t.flatMap (escChar p q) = t := by
    intro q t
    induction t with
    | nil => intro; rfl
    | cons c t ih =>
      intro h
      rw [List.flatMap_cons, List.mem_append] at h
      rw [List.flatMap_cons, escChar_plain fun hm => h (.inl hm), ih fun hm => h (.inr hm)]; rfl
  rw [reprStr] at h ⊢
  rw [key _ _ fun hm => h (by simp [hm])]

/-- **the key of an entry comes back** -/
theorem Key.back {l : Libs} (hx : TextOk l.env) {k : V3.PV} (h : Key l k) {n : PyStr} (hn : V3.reprPV l.v3 k = .ok n) {b : String} (hb : keyBase k = some b) :
    loadKey l b n = .ok k := by
  cases h with
  | str s h1 h2 =>
    simp only [keyBase] at hb; cases hb
    simp only [V3.reprPV] at hn; cases hn
    have hq : ((quoteFor s :: s ++ [quoteFor s]).drop 1).dropLast = s := by simp
    rw [loadKey, if_pos rfl, swapBack_id h1, reprStr_plain h1, hq]
    simp
  | int i =>
    simp only [keyBase] at hb; cases hb
    simp only [V3.reprPV] at hn
    split at hn
    · next hd =>
      cases hn
      have : 92 ∉ showInt i := fun hm => by
        have := showInt_chars i 92 hm
        simp [isDigit] at this
      have hd : digitsOk l.env i = Bool.true := hd
      simp [loadKey, swapBack_id this, parseInt_showInt, hd]
    · simp at hn
  | float x =>
    simp only [keyBase] at hb; cases hb
    simp only [V3.reprPV] at hn; cases hn
    have hc : 92 ∉ ps "0123456789+-.einfa" := by decide
    have : 92 ∉ l.env.reprF x := fun hm => hc (hx.charsF x 92 hm)
    have h3 : 92 ∉ l.v3.env.reprF x := this
    have h4 : l.env.parseF (l.v3.env.reprF x) = some x := hx.readF x
    simp [loadKey, swapBack_id h3, h4]
  | cplx x y =>
    simp only [keyBase] at hb; cases hb
    simp only [V3.reprPV] at hn; cases hn
    have hc : 92 ∉ ps "0123456789+-.einfa()j" := by decide
    have h3 : 92 ∉ l.v3.env.reprC x y := fun hm => hc (hx.charsC x y 92 hm)
    have h4 : l.env.parseC (l.v3.env.reprC x y) = some (x, y) := hx.readC x y
    simp [loadKey, swapBack_id h3, h4]
  | true =>
    simp only [keyBase] at hb; cases hb
    simp only [V3.reprPV] at hn; cases hn
    have : (ps "True").isEmpty = false := by decide
    simp [loadKey, this]
  | tuple items h1 h2 =>
    simp only [keyBase] at hb; cases hb
    have hr := V3.Literal.reads hx (.tuple items h1) n hn
    have := hr.eval
    simp [loadKey, swapBack_id (h2 n hn), this]

/-! ### loading -/

theorem order_mem {l : Libs} (hl : Lists l) {ms : Members} {e : PyStr × Node} : e ∈ l.order ms ↔ e ∈ ms := (hl ms).mem_iff

theorem loadAll_list {l : Libs} {rec : PyStr → Node → Except PyErr Val} : ∀ (es : Members) (c : List Val),
    loadAll l rec (.list c) es = (es.foldlM (fun c e => (rec e.1 e.2).bind fun v => listAppend c e.1 v) c).map .list
  | [], c => rfl
  | e :: es, c => by
    rw [loadAll, List.foldlM_cons]
    cases h1 : rec e.1 e.2 with
    | error x => rfl
    | ok v =>
      simp only [bind, Except.bind, append]
      cases h2 : listAppend c e.1 v with
      | error x => rfl
      | ok c' => simp only [Except.map]; rw [loadAll_list es c']; rfl

theorem loadAll_dict {l : Libs} {rec : PyStr → Node → Except PyErr Val} : ∀ (es : Members) (c : List (Option (V3.PV × Val))),
    loadAll l rec (.dict c) es = (es.foldlM (fun c e => (rec e.1 e.2).bind fun v => dictAppend l c e.1 v e.2.attrs) c).map .dict
  | [], c => rfl
  | e :: es, c => by
    rw [loadAll, List.foldlM_cons]
    cases h1 : rec e.1 e.2 with
    | error x => rfl
    | ok v =>
      simp only [bind, Except.bind, append]
      cases h2 : dictAppend l c e.1 v e.2.attrs with
      | error x => rfl
      | ok c' => simp only [Except.map]; rw [loadAll_dict es c']; rfl

theorem loadAll_set {l : Libs} {rec : PyStr → Node → Except PyErr Val} {val : PyStr × Node → Val} : ∀ (es : Members) (acc : List Val),
    (∀ e ∈ es, rec e.1 e.2 = .ok (val e)) → Elements l.env.opaqueEq (acc ++ es.map val) → loadAll l rec (.set acc) es = .ok (.set (acc ++ es.map val))
  | [], acc, _, _ => by simp [loadAll]
  | e :: es, acc, hr, he => by
    rw [loadAll, hr e (by simp)]
    simp only [bind, Except.bind, append]
    rw [setAdd_new he]
    simp only [Except.map]
    rw [loadAll_set es _ (fun e' he' => hr e' (by simp [he'])) (by simpa using he)]
    simp

/-- the object under the name is followed by nothing, a masked array by its mask -/
def Rest (l : Libs) (name : PyStr) (v : Val) (rest : Members) : Prop :=
  (v.isMasked = false ∧ rest = []) ∨
  (v.isMasked = true ∧ ∃ mn, rest = [(maskName name, mn)] ∧ ∀ f sib, 1 ≤ f → load l f sib (maskName name) mn = .ok nobody)

/-- the first of these members loads as `w`, wherever they are -/
def Loads (l : Libs) (name : PyStr) (v : Val) (ms : Members) : Prop :=
  ∃ node rest w f0, ms = (name, node) :: rest ∧ Rest l name v rest ∧ Same v w ∧
    ∀ f, f0 ≤ f → ∀ sib : Members, (∀ e ∈ ms, Assoc.get? sib e.1 = some e.2) → load l f sib name node = .ok w

/-- a dataset -/
theorem Loads.dset {l : Libs} {name : PyStr} {v w : Val} {d : DSet} {at' : Attrs} (hm : v.isMasked = false) (hs : Same v w)
    (h : ∀ sib, loadData l sib name d at' (resolve l (.dset d at')) = .ok w) : Loads l name v [(name, .dset d at')] :=
  ⟨_, _, w, 1, rfl, .inl ⟨hm, rfl⟩, hs, fun f hf sib _ => by
    obtain ⟨f, rfl⟩ : ∃ g, f = g + 1 := ⟨f - 1, by omega⟩
    rw [load, h sib]⟩

theorem fn_none : fnOf "None" = .none := by decide
theorem fn_bool : fnOf "bool" = .scalar := by decide
theorem fn_int : fnOf "int" = .scalar := by decide
theorem fn_float : fnOf "float" = .scalar := by decide
theorem fn_complex : fnOf "complex" = .scalar := by decide
theorem fn_str : fnOf "str" = .str4x := by decide
theorem fn_bytes : fnOf "bytes" = .list := by decide
theorem fn_seq (k : SK) : fnOf k.base = .list := by cases k <;> decide
theorem fn_np : fnOf "np_scalar" = .npScalar := by decide
theorem fn_ndarray : fnOf "ndarray" = .ndarray := by decide
theorem fn_masked : fnOf "ndarray_masked_data" = .ndmasked4x := by decide
theorem fn_mask : fnOf "ndarray_masked_mask" = .nothing := by decide
theorem fn_tuple : fnOf "tuple" = .list := by decide
theorem fn_pickle : fnOf "pickle" = .pickled := by decide
theorem cont_list : contOf "list" = .listLike := by decide
theorem cont_tuple : contOf "tuple" = .listLike := by decide
theorem cont_set : contOf "set" = .setLike := by decide
theorem cont_dict : contOf "dict" = .dictLike := by decide
theorem cont_item : contOf "dict_item" = .dictItem := by decide
theorem cont_ndarray : contOf "ndarray" = .ndarrayLike := by decide
theorem cont_sparse (k : SpK) : contOf (spCls k).2 = .sparse := by cases k <;> decide

/-- the class stored with a node -/
theorem resolve_cls {l : Libs} {d : DSet} {c : Cls} {b : String} {at' : Attrs} (h1 : at'.type = some (.cls c)) (h2 : at'.base = some b) (h : ∀ k, c ≠ .user k) :
    resolve l (.dset d at') = ⟨.cls c, b⟩ := by
  have : resolve.clsImportable' l.env c = true := by
    cases c <;> first | rfl | exact absurd rfl (h _)
  simp [resolve, Node.attrs, h1, h2, this]

theorem resolve_own {l : Libs} {n : Node} {u : Option Nat} {c : Cls} {b : String} (h1 : n.attrs.type = some (own u c)) (h2 : n.attrs.base = some b) (h : ∀ k, c ≠ .user k)
    (hu : ∀ k, u = some k → (l.env.u k).importable = true) : resolve l n = ⟨own u c, b⟩ := by
  cases u with
  | some k =>
    have : resolve.clsImportable' l.env (.user k) = true := hu k rfl
    cases n <;> simp only [resolve, h1, own, this, if_true, h2, Option.getD_some]
  | none =>
    have : resolve.clsImportable' l.env c = true := by cases c <;> first | rfl | exact absurd rfl (h _)
    cases n <;> simp only [resolve, h1, own, this, if_true, h2, Option.getD_some]

theorem Clean.unwrap {l : Libs} {u : Option Nat} {v : Val} (h : Clean l (wrap u v)) : Clean l v ∧ ∀ k, u = some k → (l.env.u k).importable = true := by
  cases u with
  | none => exact ⟨h, by simp⟩
  | some k =>
    cases h with
    | inst k v h1 h2 => exact ⟨h2, fun k' hk => by cases hk; exact h1⟩

theorem Same.wrap {u : Option Nat} {v w : Val} (h : Same v w) : Same (wrap u v) (wrap u w) := by
  cases u with
  | none => exact h
  | some k => exact .inst k h

end Verif.V4
