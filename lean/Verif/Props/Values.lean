import Verif.Props.C02
/-!
# Values along paths

Which parts of an object are given back exactly: everything but numbers next to numbers only, see
`Kept`.  (Sequences of numbers are stored as one vector and come back as numpy scalars, C10.)
-/
namespace Verif

/-- The part one step away is stored by itself: an item of a sequence not all of whose items are numbers;
a value or key of a dict entry, unless key and value are numbers and the key is a numpy scalar. -/
def StoredSingly (H : Heap) : Val → Step → Prop
  | .seq xs, .item _ => ∃ c ∈ xs, numDt H c = none
  | .dict es, .key i | .dict es, .value i => ∀ k v, es[i]? = some (k, v) → numDt H k = none ∨ numDt H v = none ∨ ∃ o, H[k]? = some o ∧ o.plainKey = true
  | _, _ => True

/-- the part a path leads to is the object itself or stored by itself -/
def Kept (H : Heap) (a : Addr) (π : List Step) : Prop :=
  ∀ π0 st, π = π0 ++ [st] → ∀ c o, follow H a π0 = some c → H[c]? = some o → StoredSingly H o.val st

theorem follow_snoc (H : Heap) (a : Addr) (π : List Step) (st : Step) :
    follow H a (π ++ [st]) = (follow H a π).bind fun c => H[c]?.bind fun o => o.val.step st := by
  induction π generalizing a with
  | nil =>
    simp only [List.nil_append, follow, Option.bind_some]
    cases (H[a]?.bind fun o => o.val.step st) <;> rfl
  | cons t π ih =>
    simp only [List.cons_append, follow]
    cases (H[a]?.bind fun o => o.val.step t) with
    | none => rfl
    | some c => exact ih c

/-- no number, so never part of a vector -/
theorem CopyBy.nonum {H L : Heap} {R N Q b a} (h : CopyBy H L R N Q b a) {x c : Addr} (hx : R x c ∨ (∃ d, N d x c) ∨ Q x c)
    (hn : numDt H c = none) : R x c ∨ Q x c := by
  rcases hx with hx | ⟨d, hx⟩ | hx
  · exact .inl hx
  · obtain ⟨o, o', e1, _, v, w, e3, _⟩ := h.2.2.1 d x c hx
    simp [numDt, e1, e3] at hn
  · exact .inr hx

theorem CopyBy.items_single {H L : Heap} {R N Q b a} (h : CopyBy H L R N Q b a) {xs as : List Addr} (hi : ItemsCopy H R N xs as)
    (hs : ∃ c ∈ as, numDt H c = none) : All2 R xs as := by
  rcases hi with ⟨hi, _⟩ | ⟨d, _, hi⟩
  · exact hi
  · obtain ⟨c, hc, hn⟩ := hs
    obtain ⟨x, _, hx⟩ := hi.mem_right hc
    obtain ⟨o, o', e1, _, v, w, e3, _⟩ := h.2.2.1 d x c hx
    simp [numDt, e1, e3] at hn

/-- an entry that is not a vector of two numbers -/
theorem CopyBy.entry_single {H L : Heap} {R N Q b a} (h : CopyBy H L R N Q b a) {e' e : Addr × Addr} (he : EntryCopy H R N Q e' e)
    (hs : numDt H e.1 = none ∨ numDt H e.2 = none ∨ ∃ o, H[e.1]? = some o ∧ o.plainKey = true) :
    (R e'.1 e.1 ∨ Q e'.1 e.1) ∧ R e'.2 e.2 := by
  rcases he with ⟨h1, h2⟩ | ⟨⟨o, ho, hp⟩, hi⟩
  · exact ⟨.inr h1, h2⟩
  · have : ∃ c ∈ [e.1, e.2], numDt H c = none := by
      rcases hs with hs | hs | ⟨o', ho', hp'⟩
      · exact ⟨_, by simp, hs⟩
      · exact ⟨_, by simp, hs⟩
      · rw [ho] at ho'; simp at ho'; subst ho'
        rw [hp] at hp'; simp at hp'
    cases h.items_single hi this with
    | cons h1 h2 => cases h2 with | cons h2 _ => exact ⟨.inl h1, h2⟩

theorem CopyBy.kept_step {H L : Heap} {R N Q b a} (h : CopyBy H L R N Q b a) {x c : Addr} (hx : R x c ∨ (∃ d, N d x c) ∨ Q x c) {st : Step}
    {o : Obj} (ho : H[c]? = some o) (hs : StoredSingly H o.val st) {z : Addr} (hz : o.val.step st = some z) :
    ∃ y, (L[x]?.bind fun o => o.val.step st) = some y ∧ (R y z ∨ Q y z) := by
  have atom : ∀ v : Val, v.isAtom = true → v.step st = none := by
    intro v hv
    cases v <;> cases st <;> first | rfl | simp [Val.isAtom] at hv
  rcases hx with hx | ⟨d, hx⟩ | hx
  · obtain ⟨⟨cl, val⟩, ⟨cl', val'⟩, e1, e2, _, e4⟩ := h.2.1 x c hx
    rw [ho] at e1; simp at e1; subst e1
    simp only at e4 hs hz
    simp only [e2, Option.bind_some]
    cases e4 with
    | atom ha => rw [atom _ ha] at hz; simp at hz
    | seq hi =>
      cases st with
      | item i =>
        rcases (h.items_single hi hs).get i with ⟨h1, h2⟩ | ⟨y, z', h1, h2, h3⟩
        · simp [Val.step, h2] at hz
        · simp [Val.step, h2] at hz; subst hz
          exact ⟨y, h1, .inl h3⟩
      | key i => simp [Val.step] at hz
      | value i => simp [Val.step] at hz
    | set hi hp => cases st <;> simp [Val.step] at hz
    | dict hi =>
      cases st with
      | item i => simp [Val.step] at hz
      | key i =>
        rcases hi.get i with ⟨h1, h2⟩ | ⟨e', e, h1, h2, h3⟩
        · simp [Val.step, h2] at hz
        · simp [Val.step, h2] at hz; subst hz
          exact ⟨e'.1, by simp [Val.step, h1], (h.entry_single h3 (hs e.1 e.2 h2)).1⟩
      | value i =>
        rcases hi.get i with ⟨h1, h2⟩ | ⟨e', e, h1, h2, h3⟩
        · simp [Val.step, h2] at hz
        · simp [Val.step, h2] at hz; subst hz
          exact ⟨e'.2, by simp [Val.step, h1], .inl (h.entry_single h3 (hs e.1 e.2 h2)).2⟩
    | oarr hi =>
      cases st with
      | item i =>
        rcases hi.get i with ⟨h1, h2⟩ | ⟨y, z', h1, h2, h3⟩
        · simp [Val.step, h2] at hz
        · simp [Val.step, h2] at hz; subst hz
          exact ⟨y, h1, .inl h3⟩
      | key i => simp [Val.step] at hz
      | value i => simp [Val.step] at hz
    | @sparse d' i' p' d i p _ h1 h2 h3 =>
      cases st with
      | item j =>
        rcases (All2.cons h1 (.cons h2 (.cons h3 .nil)) : All2 R [d', i', p'] [d, i, p]).get j with ⟨_, h2⟩ | ⟨y, z', h1, h2, h3⟩
        · simp only [Val.step, h2] at hz; simp at hz
        · simp only [Val.step, h2] at hz; simp at hz; subst hz
          exact ⟨y, h1, .inl h3⟩
      | key i => simp [Val.step] at hz
      | value i => simp [Val.step] at hz
  · obtain ⟨p, o', e1, e2, v, w, e3, rfl, _⟩ := h.2.2.1 d x c hx
    rw [ho] at e1; simp at e1; subst e1
    rw [atom _ (exactNum_atom e3)] at hz; simp at hz
  · obtain ⟨p, e1, e2, e3⟩ := h.2.2.2.1 x c hx
    rw [ho] at e1; simp at e1; subst e1
    rw [atom _ (Obj.nameKey_atom e3)] at hz; simp at hz

theorem CopyBy.kept {H L : Heap} {R N Q b a} (h : CopyBy H L R N Q b a) {π : List Step} {c : Addr} (hf : Verif.follow H a π = some c)
    (hk : Kept H a π) : ∃ x, Verif.follow L b π = some x ∧ (R x c ∨ Q x c) := by
  rcases List.eq_nil_or_concat π with rfl | ⟨π0, st, rfl⟩
  · simp [Verif.follow] at hf; subst hf
    exact ⟨b, rfl, .inl h.1⟩
  · simp only [List.concat_eq_append] at *
    rw [follow_snoc] at hf
    cases h0 : Verif.follow H a π0 with
    | none => rw [h0] at hf; simp at hf
    | some c0 =>
      rw [h0] at hf
      simp only [Option.bind_some] at hf
      cases ho : H[c0]? with
      | none => rw [ho] at hf; simp at hf
      | some o =>
        rw [ho] at hf
        simp only [Option.bind_some] at hf
        rcases h.follow π0 (.inl h.1) with ⟨_, h2⟩ | ⟨y, z, h1, h2, h3⟩
        · rw [h0] at h2; simp at h2
        · rw [h0] at h2; simp at h2; subst h2
          obtain ⟨x, e1, e2⟩ := h.kept_step h3 ho (hk π0 st rfl c0 o h0 ho) hf
          exact ⟨x, by rw [follow_snoc, h1]; exact e1, e2⟩

theorem CopyBy.atom {H L : Heap} {R N Q b a} (h : CopyBy H L R N Q b a) {x c : Addr} (hx : R x c ∨ Q x c) {o : Obj} (ho : H[c]? = some o)
    (ha : o.val.isAtom = true) : L[x]? = some o := by
  rcases hx with hx | hx
  · obtain ⟨⟨cl, val⟩, ⟨cl', val'⟩, e1, e2, e3, e4⟩ := h.2.1 x c hx
    rw [ho] at e1; simp at e1; subst e1
    simp only at e3 e4 ha
    subst e3
    cases e4 with
    | atom => exact e2
    | _ => simp [Val.isAtom] at ha
  · obtain ⟨p, e1, e2, e3⟩ := h.2.2.2.1 x c hx
    rw [ho] at e1; simp at e1; subst e1
    exact e2

/-- atoms that are stored by themselves come back as they are -/
theorem Copy.exact {H L : Heap} {b a : Addr} (h : Copy H L b a) {π : List Step} {c : Addr} {o : Obj} (hf : follow H a π = some c)
    (hk : Kept H a π) (ho : H[c]? = some o) (ha : o.val.isAtom = true) : ∃ x : Addr, follow L b π = some x ∧ L[x]? = some o := by
  obtain ⟨R, N, Q, h⟩ := h
  obtain ⟨x, e1, e2⟩ := h.kept hf hk
  exact ⟨x, e1, h.atom e2 ho ha⟩

/-- atoms that are no numbers come back as they are, wherever they are -/
theorem Copy.exact_nonum {H L : Heap} {b a : Addr} (h : Copy H L b a) {π : List Step} {c : Addr} {o : Obj} (hf : follow H a π = some c)
    (ho : H[c]? = some o) (hn : exactNum o = none) (ha : o.val.isAtom = true) : ∃ x : Addr, follow L b π = some x ∧ L[x]? = some o := by
  obtain ⟨R, N, Q, h⟩ := h
  rcases h.follow π (.inl h.1) with ⟨_, h2⟩ | ⟨y, z, h1, h2, h3⟩
  · rw [hf] at h2; simp at h2
  · rw [hf] at h2; simp at h2; subst h2
    exact ⟨y, h1, h.atom (h.nonum h3 (by simp [numDt, ho, hn])) ho ha⟩

/-- numbers come back as they are or as numpy scalars -/
theorem Copy.number {H L : Heap} {b a : Addr} (h : Copy H L b a) {π : List Step} {c : Addr} {o : Obj} {v : NpVal} (hf : follow H a π = some c)
    (ho : H[c]? = some o) (hv : exactNum o = some v) :
    ∃ (x : Addr) (o' : Obj), follow L b π = some x ∧ L[x]? = some o' ∧ (o' = o ∨ ∃ d, SameNum d o o') := by
  obtain ⟨R, N, Q, h⟩ := h
  rcases h.follow π (.inl h.1) with ⟨_, h2⟩ | ⟨y, z, h1, h2, h3⟩
  · rw [hf] at h2; simp at h2
  · rw [hf] at h2; simp at h2; subst h2
    rcases h3 with h3 | ⟨d, h3⟩ | h3
    · exact ⟨y, o, h1, h.atom (.inl h3) ho (exactNum_atom hv), .inl rfl⟩
    · obtain ⟨p, o', e1, e2, e3⟩ := h.2.2.1 d y c h3
      rw [ho] at e1; simp at e1; subst e1
      exact ⟨y, o', h1, e2, .inr ⟨d, e3⟩⟩
    · exact ⟨y, o, h1, h.atom (.inr h3) ho (exactNum_atom hv), .inl rfl⟩

/-- elements of a set at the end of a path; an element is looked up by its value -/
theorem Copy.set {H L : Heap} {b a : Addr} (h : Copy H L b a) {π : List Step} {c : Addr} {cl : Cls} {as : List Addr} (hf : follow H a π = some c)
    (ho : H[c]? = some ⟨cl, .set as⟩) :
    ∃ (x : Addr) (xs : List Addr), follow L b π = some x ∧ L[x]? = some ⟨cl, .set xs⟩ ∧ xs.length = as.length ∧
      (∀ e ∈ as, ∀ o, H[e]? = some o → o.val.isAtom = true → (exactNum o = none ∨ ∃ e' ∈ as, numDt H e' = none) → ∃ y ∈ xs, L[y]? = some o) ∧
      (∀ e ∈ as, ∀ o v, H[e]? = some o → exactNum o = some v → ∃ y ∈ xs, ∃ o', L[y]? = some o' ∧
        (o' = o ∨ ∃ d, (∃ c ∈ as, numDt H c = some d) ∧ (∀ c ∈ as, numDt H c ≠ none) ∧ SameNum d o o')) := by
  obtain ⟨R, N, Q, h⟩ := h
  rcases h.follow π (.inl h.1) with ⟨_, h2⟩ | ⟨x, z, h1, h2, h3⟩
  · rw [hf] at h2; simp at h2
  · rw [hf] at h2; simp at h2; subst h2
    have hR := h.shared ho rfl h3
    obtain ⟨⟨cl0, val⟩, ⟨cl', val'⟩, e1, e2, e3, e4⟩ := h.2.1 x c hR
    rw [ho] at e1; simp at e1; obtain ⟨rfl, rfl⟩ := e1
    simp only at e3 e4
    subst e3
    cases e4 with
    | atom ha => simp [Val.isAtom] at ha
    | @set xs _ bs hi hp =>
      refine ⟨x, xs, h1, e2, ?_, ?_, ?_⟩
      · rcases hi with ⟨hi, _⟩ | ⟨d, _, hi⟩ <;> rw [hi.length, hp.length_eq]
      · intro e he o ho' hat hn
        rcases hi with ⟨hi, _⟩ | ⟨d, _, hi⟩
        · obtain ⟨y, hy, hr⟩ := hi.mem_right (hp.mem_iff.2 he)
          exact ⟨y, hy, h.atom (.inl hr) ho' hat⟩
        · have nums : ∀ e' ∈ bs, numDt H e' ≠ none := by
            intro e' he' hn
            obtain ⟨y, _, hr⟩ := hi.mem_right he'
            obtain ⟨p, o', f1, _, v, w, f3, _⟩ := h.2.2.1 d y e' hr
            simp [numDt, f1, f3] at hn
          rcases hn with hn | ⟨e', he', hn⟩
          · exact absurd (by simp [numDt, ho', hn]) (nums e (hp.mem_iff.2 he))
          · exact absurd hn (nums e' (hp.mem_iff.2 he'))
      · intro e he o v ho' hv
        rcases hi with ⟨hi, _⟩ | ⟨d, ⟨c', hc', hd⟩, hi⟩
        · obtain ⟨y, hy, hr⟩ := hi.mem_right (hp.mem_iff.2 he)
          exact ⟨y, hy, o, h.atom (.inl hr) ho' (exactNum_atom hv), .inl rfl⟩
        · obtain ⟨y, hy, hr⟩ := hi.mem_right (hp.mem_iff.2 he)
          obtain ⟨p, o', f1, f2, f3⟩ := h.2.2.1 d y e hr
          rw [ho'] at f1; simp at f1; subst f1
          refine ⟨y, hy, o', f2, .inr ⟨d, ⟨c', hp.mem_iff.1 hc', hd⟩, fun e' he' => ?_, f3⟩⟩
          obtain ⟨y', _, hr'⟩ := hi.mem_right (hp.mem_iff.2 he')
          obtain ⟨p, o', f1, _, v, w, f3, _⟩ := h.2.2.1 d y' e' hr'
          simp [numDt, f1, f3]

/-- the items of a list or tuple at the end of a path -/
theorem Copy.seq {H L : Heap} {b a : Addr} (h : Copy H L b a) {π : List Step} {c : Addr} {cl : Cls} {as : List Addr} (hf : follow H a π = some c)
    (ho : H[c]? = some ⟨cl, .seq as⟩) :
    ∃ (x : Addr) (xs : List Addr), follow L b π = some x ∧ L[x]? = some ⟨cl, .seq xs⟩ ∧ xs.length = as.length ∧
      ∀ (i e : Nat) (o : Obj) (v : NpVal), as[i]? = some e → H[e]? = some o → exactNum o = some v → ∃ (y : Addr) (o' : Obj), xs[i]? = some y ∧ L[y]? = some o' ∧
        ((o' = o ∧ ∃ c ∈ as, numDt H c = none) ∨ ∃ d, (∃ c ∈ as, numDt H c = some d) ∧ (∀ c ∈ as, ∃ e, numDt H c = some e ∧ e.rank ≤ d.rank) ∧ SameNum d o o') := by
  obtain ⟨R, N, Q, h⟩ := h
  rcases h.follow π (.inl h.1) with ⟨_, h2⟩ | ⟨x, z, h1, h2, h3⟩
  · rw [hf] at h2; simp at h2
  · rw [hf] at h2; simp at h2; subst h2
    have hR := h.shared ho rfl h3
    obtain ⟨⟨cl0, val⟩, ⟨cl', val'⟩, e1, e2, e3, e4⟩ := h.2.1 x c hR
    rw [ho] at e1; simp at e1; obtain ⟨rfl, rfl⟩ := e1
    simp only at e3 e4
    subst e3
    cases e4 with
    | atom ha => simp [Val.isAtom] at ha
    | @seq xs _ hi =>
      refine ⟨x, xs, h1, e2, ?_, ?_⟩
      · rcases hi with ⟨hi, _⟩ | ⟨d, _, hi⟩ <;> exact hi.length
      · intro i e o v hie ho' hv
        rcases hi with ⟨hi, hn⟩ | ⟨d, hd, hi⟩
        · rcases hi.get i with ⟨_, g⟩ | ⟨y, z, g1, g2, g3⟩
          · rw [hie] at g; simp at g
          · rw [hie] at g2; simp at g2; subst g2
            refine ⟨y, o, g1, h.atom (.inl g3) ho' (exactNum_atom hv), .inl ⟨rfl, ?_⟩⟩
            rcases hn with rfl | hn
            · simp at hie
            · exact hn
        · rcases hi.get i with ⟨_, g⟩ | ⟨y, z, g1, g2, g3⟩
          · rw [hie] at g; simp at g
          · rw [hie] at g2; simp at g2; subst g2
            obtain ⟨p, o', f1, f2, f3⟩ := h.2.2.1 d y e g3
            rw [ho'] at f1; simp at f1; subst f1
            refine ⟨y, o', g1, f2, .inr ⟨d, hd, fun c' hc' => ?_, f3⟩⟩
            obtain ⟨y', _, hr'⟩ := hi.mem_right hc'
            obtain ⟨p, o', f1, _, f3⟩ := h.2.2.1 d y' c' hr'
            exact f3.rank f1

end Verif
