import Verif.Hickle.History
/-!
# A computable check of `GoodHeap`

Only used to show that concrete object graphs meet the hypotheses of the theorems.
-/
namespace Verif

def numsB (H : Heap) (items : List Addr) : Bool :=
  !(items.all fun a => decide (numDt H a ≠ none)) || items.all fun a => items.all fun b =>
    match H[a]?.bind exactNum, H[b]?.bind exactNum with
    | some (.i x), some v => !(v.dt == .float64 || v.dt == .complex128) || (match F64.ofInt x with
      | some y => decide (y.val = .q x)
      | none => true)
    | _, _ => true

theorem numsOk_of {H items} (h : numsB H items = true) : NumsOk H items := by
  intro hn a ha b hb o p x v h1 h2 h3 h4 h5
  unfold numsB at h
  rw [List.all_eq_true.2 (fun a ha => by simpa using hn a ha)] at h
  simp only [Bool.not_true, Bool.false_or] at h
  have := List.all_eq_true.1 (List.all_eq_true.1 h a ha) b hb
  simp only [h1, h2, Option.bind_some, h3, h4] at this
  intro y hy
  rw [hy] at this
  rcases h5 with h5 | h5 <;> simpa [h5] using this

/-- parts of objects, `n` levels -/
def grow (H : Heap) : Nat → List Addr → List Addr
  | 0, as => as
  | n + 1, as =>
    let new := ((as.flatMap fun a => match H[a]? with | some o => o.val.children | none => []).filter fun b => !as.contains b).eraseDups
    if new.isEmpty then as else grow H n (as ++ new)

theorem mem_grow {H : Heap} {n : Nat} {as : List Addr} {a : Addr} (h : a ∈ as) : a ∈ grow H n as := by
  induction n generalizing as with
  | zero => exact h
  | succ n ih =>
    simp only [grow]
    split
    · exact h
    · exact ih (by simp [h])

def numsInB (H : Heap) (a : Addr) : Bool :=
  let as := grow H H.length [a]
  as.all fun c => match H[c]? with
    | none => true
    | some o => o.val.children.all (fun d => decide (d ∈ as)) && (match o.val with
      | .seq items => numsB H items
      | _ => true)

theorem numsIn_of {H : Heap} {a : Addr} (h : numsInB H a = true) : NumsIn H a := by
  simp only [numsInB] at h
  have ha : a ∈ grow H H.length [a] := mem_grow (by simp)
  generalize grow H H.length [a] = as at h ha
  have step : ∀ c ∈ as, ∀ o, H[c]? = some o → (∀ d ∈ o.val.children, d ∈ as) ∧ ∀ items, o.val = .seq items → numsB H items = true := by
    intro c hc o ho
    have := List.all_eq_true.1 h c hc
    rw [ho] at this
    simp only [Bool.and_eq_true, List.all_eq_true, decide_eq_true_eq] at this
    refine ⟨this.1, fun items hv => ?_⟩
    have := this.2
    rw [hv] at this
    exact this
  have mem : ∀ y, Reach H a y → y ∈ as := by
    intro y hy
    induction hy with
    | here => exact ha
    | into _ ho hd ih => exact (step _ ih _ ho).1 _ hd
  intro y o items hy ho hv
  exact numsOk_of ((step y (mem y hy) o ho).2 items hv)

def knumB (H : Heap) (k v : Addr) : Bool :=
  match H[k]?, H[v]? with
  | some o, some p => o.plainKey || (match exactNum o, exactNum p with
    | some (.i x), some w => !(w.dt == .float64 || w.dt == .complex128) || (match F64.ofInt x with
      | some y => decide (y.val = .q x)
      | none => true)
    | _, _ => true)
  | _, _ => true

theorem knum_of {H : Heap} {k v : Addr} (h : knumB H k v = true) : KeyNumOk H k v := by
  intro o p x w ho hp hpl hx hw hfl y hy
  simp only [knumB, ho, hp, hpl, hx, hw, hy, Bool.false_or] at h
  rcases hfl with h5 | h5 <;> simpa [h5] using h

def neqB (env : Env) (H : Heap) (a b : Addr) : Bool :=
  match view env.u H a, view env.u H b with
  | some v, some w => !KV.eqv env.opaqueEq v w && !KV.eqv env.opaqueEq w v
  | _, _ => false

def distinctB (env : Env) (H : Heap) : List Addr → Bool
  | [] => true
  | a :: as => (view env.u H a).isSome && as.all (neqB env H a) && distinctB env H as

theorem distinct_of {env : Env} {H : Heap} {as : List Addr} (h : distinctB env H as = true) : Distinct env H as := by
  induction as with
  | nil => exact ⟨by simp, .nil⟩
  | cons a as ih =>
    simp only [distinctB, Bool.and_eq_true] at h
    obtain ⟨⟨h1, h2⟩, h3⟩ := h
    obtain ⟨i1, i2⟩ := ih h3
    refine ⟨?_, .cons ?_ i2⟩
    · intro b hb
      rcases List.mem_cons.1 hb with rfl | hb
      · exact h1
      · exact i1 b hb
    · intro b hb v w hv hw
      have := List.all_eq_true.1 h2 b hb
      simp only [neqB, hv, hw, Bool.and_eq_true, Bool.not_eq_true'] at this
      exact this

def keyB (env : Env) (o : Obj) : Bool :=
  (match o.val with
    | .bool b => b
    | .str _ => decide (o.cls = .str)
    | .bytes _ => decide (o.cls = .bytes)
    | .float x => decide (env.parseF (env.reprF x) = some x) && !strSlash (env.reprF x)
    | .cplx x y => decide (env.parseC (env.reprC x y) = some (x, y)) && !strSlash (env.reprC x y)
    | _ => true) &&
  (match o.cls with
    | .user k => !dictKeyTypes.contains (env.u k).name
    | _ => true)

theorem keyOk_of {env : Env} {o : Obj} (h : keyB env o = true) : KeyOk env o := by
  obtain ⟨cl, v⟩ := o
  simp only [keyB, Bool.and_eq_true] at h
  obtain ⟨h1, h2⟩ := h
  refine ⟨?_, ?_, ?_, ?_, ?_, ?_⟩
  · rintro rfl; simp at h1
  · rintro s rfl; simpa using h1
  · rintro s rfl; simpa using h1
  · intro k hk
    simp only at hk; subst hk
    simpa using h2
  · rintro s rfl; simpa using h1
  · rintro s t rfl; simpa using h1

def rowsB (H : Heap) (sh : List Nat) (items : List Addr) : Bool :=
  match sh.getLast? with
  | none => true
  | some n => (List.range items.length).all fun i => !decide (i * n < items.length) || ((items.drop (i * n)).take n).any fun a => decide (numDt H a = none)

theorem rowsMixed_of {H : Heap} {sh : List Nat} {items : List Addr} (h : rowsB H sh items = true) : RowsMixed H sh items := by
  intro n hn i hi
  unfold rowsB at h
  rw [hn] at h
  simp only [] at h
  have hlt : i < items.length := by
    rcases Nat.eq_zero_or_pos n with rfl | hp
    · have := List.all_eq_true.1 h 0 (by simp; omega)
      simp at this; subst this; simp at hi
    · exact Nat.lt_of_le_of_lt (Nat.le_mul_of_pos_right i hp) hi
  have := List.all_eq_true.1 h i (by simp [hlt])
  simp only [hi, decide_true, Bool.not_true, Bool.false_or, List.any_eq_true, decide_eq_true_eq] at this
  exact this

def oarrB (H : Heap) (sh : List Nat) (items : List Addr) : Bool :=
  (items.all fun a => match H[a]? with
    | some o => o.val.noDims
    | none => false) && rowsB H sh items

theorem objArrOk_of {H : Heap} {sh : List Nat} {items : List Addr} (h : oarrB H sh items = true) : ObjArrOk H sh items := by
  simp only [oarrB, Bool.and_eq_true] at h
  refine ⟨fun a ha => ?_, rowsMixed_of h.2⟩
  have := List.all_eq_true.1 h.1 a ha
  cases ho : H[a]? with
  | none => rw [ho] at this; simp at this
  | some o => rw [ho] at this; exact ⟨o, rfl, this⟩

def numArr (H : Heap) (x : Addr) : Bool :=
  match H[x]? with
  | some ⟨.ndarray, .arr ..⟩ => true
  | _ => false

theorem numArr_of {H : Heap} {x : Addr} (h : numArr H x = true) : ∃ t shape l, H[x]? = some ⟨.ndarray, .arr t shape l⟩ := by
  unfold numArr at h
  split at h
  · next t sh l he => exact ⟨t, sh, l, he⟩
  · simp at h

def objB (env : Env) (H : Heap) (o : Obj) : Bool :=
  o.val.children.all (fun b => decide (b < H.length)) &&
  match o.val with
  | .set items => (numsB H items && items.all (numsInB H)) && distinctB env H items
  | .dict es => distinctB env H (es.map Prod.fst) && es.all fun e => (knumB H e.1 e.2 && numsInB H e.1) && (match H[e.1]? with
    | some q => keyB env q
    | none => true)
  | .sparse d i p _ => [d, i, p].all (numArr H)
  | .oarr sh items => oarrB H sh items
  | _ => true

def unitB (H : Heap) : Bool := decide ((H.filter fun o => decide (o = ⟨.tuple, .seq []⟩)).length ≤ 1)

theorem unit_of {H : Heap} (h : unitB H = true) (a b : Addr) (h1 : H[a]? = some ⟨.tuple, .seq []⟩) (h2 : H[b]? = some ⟨.tuple, .seq []⟩) : a = b := by
  simp only [unitB, decide_eq_true_eq] at h
  induction H generalizing a b with
  | nil => simp at h1
  | cons o H ih =>
    have mem : ∀ {c : Nat}, H[c]? = some ⟨.tuple, .seq []⟩ → 1 ≤ (H.filter fun o => decide (o = ⟨.tuple, .seq []⟩)).length := by
      intro c hc
      exact List.length_pos_of_mem (a := ⟨.tuple, .seq []⟩) (List.mem_filter.2 ⟨List.mem_of_getElem? hc, by simp⟩)
    rcases a with _ | a <;> rcases b with _ | b
    · rfl
    · simp at h1 h2; subst h1
      have := mem h2
      simp only [List.filter_cons, decide_true, if_true, List.length_cons] at h
      omega
    · simp at h1 h2; subst h2
      have := mem h1
      simp only [List.filter_cons, decide_true, if_true, List.length_cons] at h
      omega
    · simp at h1 h2
      have : (H.filter fun o => decide (o = ⟨.tuple, .seq []⟩)).length ≤ 1 := by
        simp only [List.filter_cons] at h
        split at h
        · simp only [List.length_cons] at h; omega
        · exact h
      rw [ih a b h1 h2 this]

theorem goodHeap_of {P : Nat → Prop} {env : Env} {H : Heap} (hc : ∀ o ∈ H, GoodCls P env o.cls ∧ ObjOk env o)
    (ho : H.all (objB env H) = true) (hu : unitB H = true) : GoodHeap P env H := by
  have key : ∀ (a : Addr) (o : Obj), H[a]? = some o → objB env H o = true := fun a o h => List.all_eq_true.1 ho o (List.mem_of_getElem? h)
  have split : ∀ (a : Addr) (o : Obj), H[a]? = some o → o.val.children.all (fun b => decide (b < H.length)) = true ∧
      (match o.val with
        | .set items => (numsB H items && items.all (numsInB H)) && distinctB env H items
        | .dict es => distinctB env H (es.map Prod.fst) && es.all fun e => (knumB H e.1 e.2 && numsInB H e.1) && (match H[e.1]? with
          | some q => keyB env q
          | none => true)
        | .sparse d i p _ => [d, i, p].all (numArr H)
        | .oarr sh items => oarrB H sh items
        | _ => true) = true := by
    intro a o h
    have := key a o h
    unfold objB at this
    exact Bool.and_eq_true _ _ ▸ this
  refine ⟨fun a o h => hc o (List.mem_of_getElem? h), ?_, ?_, ?_, ?_, ?_, ?_, ?_, unit_of hu⟩
  · intro a o h b hb
    simpa using List.all_eq_true.1 (split a o h).1 b hb
  · intro a o items h hv
    have := (split a o h).2
    rw [hv] at this
    simp only [Bool.and_eq_true, List.all_eq_true] at this
    exact ⟨numsOk_of this.1.1, fun x hx => numsIn_of (this.1.2 x hx)⟩
  · intro a o es h hv k v hkv
    have := (split a o h).2
    rw [hv] at this
    simp only [Bool.and_eq_true] at this
    have h2 := List.all_eq_true.1 this.2 (k, v) hkv
    simp only [Bool.and_eq_true] at h2
    exact ⟨knum_of h2.1.1, numsIn_of h2.1.2⟩
  · intro a o items h hv
    have := (split a o h).2
    rw [hv] at this
    simp only [Bool.and_eq_true] at this
    exact distinct_of this.2
  · intro a o es h hv
    have := (split a o h).2
    rw [hv] at this
    simp only [Bool.and_eq_true] at this
    refine ⟨distinct_of this.1, fun k v hkv => ?_⟩
    have h2 := List.all_eq_true.1 this.2 (k, v) hkv
    simp only [Bool.and_eq_true] at h2
    intro q hq
    have := h2.2
    rw [hq] at this
    exact keyOk_of this
  · intro a o d i p sh h hv x hx
    have := (split a o h).2
    rw [hv] at this
    exact numArr_of (List.all_eq_true.1 this x hx)
  · intro a o sh items h hv
    have := (split a o h).2
    rw [hv] at this
    exact objArrOk_of this

/-- rank by address: objects refer to objects at lower addresses only -/
def rankB : Nat → Heap → Bool
  | _, [] => true
  | i, o :: H => o.val.children.all (fun b => decide (b < i)) && rankB (i + 1) H

theorem ranked_of {H : Heap} (h : rankB 0 H = true) : Ranked H id := by
  have : ∀ (H : Heap) (i : Nat), rankB i H = true → ∀ (a : Addr) (o : Obj), H[a]? = some o → ∀ b ∈ o.val.children, b < i + a := by
    intro H
    induction H with
    | nil => intro i _ a o h; simp at h
    | cons p H ih =>
      intro i hr a o ho b hb
      simp only [rankB, Bool.and_eq_true] at hr
      rcases a with _ | a
      · simp at ho; subst ho
        simpa using List.all_eq_true.1 hr.1 b hb
      · simp at ho
        have := ih (i + 1) hr.2 a o ho b hb
        omega
  intro a o ho b hb
  have := this H 0 h a o ho b hb
  simpa using this

end Verif
