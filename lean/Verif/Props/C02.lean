import Verif.Props.Same
import Verif.Props.Examples
/-!
# C02 Sharing is preserved: one object stays one object

Specification: paths into an object graph, below.  An object is shared if two paths lead to it.
-/
namespace Verif

variable {P : Nat → Prop}

/-- one step into an object: `o[i]` of a list or tuple, the `i`-th element of an array of objects, the parts `data`, `indices` and
`indptr` of a sparse matrix, the `i`-th key or the `i`-th value of a dict -/
inductive Step
  | item (i : Nat)
  | key (i : Nat)
  | value (i : Nat)

def Val.step : Val → Step → Option Addr
  | .seq xs, .item i => xs[i]?
  | .oarr _ xs, .item i => xs[i]?
  | .sparse d x p _, .item i => [d, x, p][i]?
  | .dict es, .key i => es[i]?.map Prod.fst
  | .dict es, .value i => es[i]?.map Prod.snd
  | _, _ => Option.none

/-- the object a path leads to -/
def follow (H : Heap) (a : Addr) : List Step → Option Addr
  | [] => some a
  | st :: π => ((H[a]?.bind fun o => o.val.step st).bind fun c => follow H c π)

theorem All2.get {α β : Type} {r : α → β → Prop} {xs : List α} {ys : List β} (h : All2 r xs ys) (i : Nat) :
    (xs[i]? = none ∧ ys[i]? = none) ∨ ∃ x y, xs[i]? = some x ∧ ys[i]? = some y ∧ r x y := by
  induction h generalizing i with
  | nil => simp
  | cons h1 _ ih =>
    cases i with
    | zero => exact .inr ⟨_, _, rfl, rfl, h1⟩
    | succ i => simpa using ih i

theorem step_atom {v : Val} (hv : v.isAtom = true) (st : Step) : v.step st = none := by
  cases v <;> cases st <;> first | rfl | simp [Val.isAtom] at hv

/-- corresponding steps in copies of values -/
theorem ValCopy.step {H : Heap} {R Q : Addr → Addr → Prop} {N : DT → Addr → Addr → Prop} {v' v : Val} (h : ValCopy H R N Q v' v) (st : Step) :
    (v'.step st = none ∧ v.step st = none) ∨
    ∃ y z, v'.step st = some y ∧ v.step st = some z ∧ (R y z ∨ (∃ d, N d y z) ∨ Q y z) := by
  have items : ∀ {xs as}, ItemsCopy H R N xs as → All2 (fun y z => R y z ∨ (∃ d, N d y z) ∨ Q y z) xs as := by
    rintro xs as (⟨h, _⟩ | ⟨d, _, h⟩)
    · exact h.mono fun _ _ h => .inl h
    · exact h.mono fun _ _ h => .inr (.inl ⟨d, h⟩)
  cases h with
  | atom ha => exact .inl ⟨step_atom ha st, step_atom ha st⟩
  | seq hi =>
    cases st with
    | item i => exact (items hi).get i
    | key i => exact .inl ⟨rfl, rfl⟩
    | value i => exact .inl ⟨rfl, rfl⟩
  | set hi hp => cases st <;> exact .inl ⟨rfl, rfl⟩
  | oarr hi =>
    cases st with
    | item i => exact (hi.mono fun _ _ h => .inl h : All2 (fun y z => R y z ∨ (∃ d, N d y z) ∨ Q y z) _ _).get i
    | key i => exact .inl ⟨rfl, rfl⟩
    | value i => exact .inl ⟨rfl, rfl⟩
  | sparse h1 h2 h3 =>
    cases st with
    | item i => exact (.cons (.inl h1) (.cons (.inl h2) (.cons (.inl h3) .nil)) : All2 (fun y z => R y z ∨ (∃ d, N d y z) ∨ Q y z) [_, _, _] [_, _, _]).get i
    | key i => exact .inl ⟨rfl, rfl⟩
    | value i => exact .inl ⟨rfl, rfl⟩
  | dict hi =>
    have hk : ∀ (e' e : Addr × Addr), EntryCopy H R N Q e' e → (R e'.1 e.1 ∨ (∃ d, N d e'.1 e.1) ∨ Q e'.1 e.1) ∧ (R e'.2 e.2 ∨ (∃ d, N d e'.2 e.2) ∨ Q e'.2 e.2) := by
      rintro e' e (⟨h1, h2⟩ | ⟨_, h1⟩)
      · exact ⟨.inr (.inr h1), .inl h2⟩
      · cases items h1 with
        | cons h1 h2 => cases h2 with | cons h2 _ => exact ⟨h1, h2⟩
    cases st with
    | item i => exact .inl ⟨rfl, rfl⟩
    | key i =>
      rcases hi.get i with ⟨h1, h2⟩ | ⟨e', e, h1, h2, h3⟩
      · exact .inl ⟨by simp [Val.step, h1], by simp [Val.step, h2]⟩
      · exact .inr ⟨_, _, by simp only [Val.step, h1, Option.map_some], by simp only [Val.step, h2, Option.map_some], (hk _ _ h3).1⟩
    | value i =>
      rcases hi.get i with ⟨h1, h2⟩ | ⟨e', e, h1, h2, h3⟩
      · exact .inl ⟨by simp [Val.step, h1], by simp [Val.step, h2]⟩
      · exact .inr ⟨_, _, by simp only [Val.step, h1, Option.map_some], by simp only [Val.step, h2, Option.map_some], (hk _ _ h3).2⟩

/-- corresponding steps in a copy -/
theorem CopyBy.step {H L : Heap} {R N Q b a} (h : CopyBy H L R N Q b a) {x c : Addr} (hx : R x c ∨ (∃ d, N d x c) ∨ Q x c) (st : Step) :
    ((L[x]?.bind fun o => o.val.step st) = none ∧ (H[c]?.bind fun o => o.val.step st) = none) ∨
    ∃ y z, (L[x]?.bind fun o => o.val.step st) = some y ∧ (H[c]?.bind fun o => o.val.step st) = some z ∧ (R y z ∨ (∃ d, N d y z) ∨ Q y z) := by
  obtain ⟨_, r2, r3, r4, _, _⟩ := h
  rcases hx with hx | ⟨d, hx⟩ | hx
  · obtain ⟨o, o', e1, e2, _, e4⟩ := r2 x c hx
    simp only [e1, e2, Option.bind_some]
    exact e4.step st
  · obtain ⟨o, o', e1, e2, v, w, e3, rfl, _⟩ := r3 d x c hx
    simp only [e1, e2, Option.bind_some]
    exact .inl ⟨step_atom rfl st, step_atom (exactNum_atom e3) st⟩
  · obtain ⟨o, e1, e2, e3⟩ := r4 x c hx
    simp only [e1, e2, Option.bind_some]
    exact .inl ⟨step_atom (Obj.nameKey_atom e3) st, step_atom (Obj.nameKey_atom e3) st⟩

/-- corresponding paths in a copy -/
theorem CopyBy.follow {H L : Heap} {R N Q b a} (h : CopyBy H L R N Q b a) (π : List Step) :
    ∀ {x c : Addr}, (R x c ∨ (∃ d, N d x c) ∨ Q x c) → (Verif.follow L x π = none ∧ Verif.follow H c π = none) ∨
      ∃ y z, Verif.follow L x π = some y ∧ Verif.follow H c π = some z ∧ (R y z ∨ (∃ d, N d y z) ∨ Q y z) := by
  induction π with
  | nil => intro x c hx; exact .inr ⟨x, c, rfl, rfl, hx⟩
  | cons st π ih =>
    intro x c hx
    simp only [Verif.follow]
    rcases h.step hx st with ⟨h1, h2⟩ | ⟨y, z, h1, h2, h3⟩
    · exact .inl ⟨by rw [h1]; rfl, by rw [h2]; rfl⟩
    · rw [h1, h2]
      exact ih h3

/-- an object with an identity is copied, not rebuilt -/
theorem CopyBy.shared {H L : Heap} {R N Q b a} (h : CopyBy H L R N Q b a) {x c : Addr} {o : Obj} (ho : H[c]? = some o)
    (hs : o.val.shareable = true) (hx : R x c ∨ (∃ d, N d x c) ∨ Q x c) : R x c := by
  obtain ⟨_, _, r3, r4, _, _⟩ := h
  obtain ⟨cl, val⟩ := o
  rcases hx with hx | ⟨d, hx⟩ | hx
  · exact hx
  · obtain ⟨o, o', e1, _, v, w, e3, _⟩ := r3 d x c hx
    rw [ho] at e1; simp at e1; subst e1
    cases val <;> first | (simp [Val.shareable] at hs; done) | (cases cl <;> simp [exactNum] at e3)
  · obtain ⟨o, e1, _, e3⟩ := r4 x c hx
    rw [ho] at e1; simp at e1; subst e1
    cases cl <;> cases val <;> first | (simp [Val.shareable] at hs; done) | simp [Obj.nameKey, Obj.plainKey] at e3

theorem Val.shareable_identity {v : Val} (h : v.shareable = true) : v.hasIdentity = true := by
  cases v <;> first | rfl | simp [Val.shareable] at h

theorem Copy.sharing {H L : Heap} {b a : Addr} (h : Copy H L b a) (π π' : List Step) :
    (follow H a π = none ↔ follow L b π = none) ∧
    ∀ c c' x x', follow H a π = some c → follow H a π' = some c' → follow L b π = some x → follow L b π' = some x' →
      (x = x' → c = c') ∧ ∀ o, H[c]? = some o → o.val.shareable = true → (c = c' → x = x') := by
  obtain ⟨R, N, Q, hc⟩ := h
  refine ⟨?_, ?_⟩
  · rcases hc.follow π (.inl hc.1) with ⟨h1, h2⟩ | ⟨y, z, h1, h2, _⟩
    · rw [h1, h2]
    · rw [h1, h2]; simp
  · intro c c' x x' h1 h2 h3 h4
    have t : ∀ {π : List Step} {c x : Addr}, Verif.follow H a π = some c → Verif.follow L b π = some x → R x c ∨ (∃ d, N d x c) ∨ Q x c := by
      intro π c x k1 k2
      rcases hc.follow π (.inl hc.1) with ⟨h1, h2⟩ | ⟨y, z, h1, h2, h3⟩
      · rw [h1] at k2; simp at k2
      · rw [h1] at k2; rw [h2] at k1; simp at k1 k2; subst k1 k2; exact h3
    have t1 := t h1 h3
    have t2 := t h2 h4
    refine ⟨?_, ?_⟩
    · rintro rfl
      exact hc.2.2.2.2.1 x c c' t1 t2
    · rintro o ho hs rfl
      exact hc.2.2.2.2.2 x x' c o (hc.shared ho hs t1) (hc.shared ho hs t2) ho (Val.shareable_identity hs)

/-- **C02.**  After dump and load, take any two paths that exist in the original object: they exist in the
loaded object too (and no others do).  If they lead to one object there, they led to one object in the original.  If they led to
one list, tuple, set, dict, array or pickled object in the original, they lead to one object. -/
theorem C02_sharing {a : DumpArgs} {s s' : Session} (h : GoodDump P a s s') :
    Loads P a.env s'.store a.path fun L b => ∀ π π' : List Step,
      (follow a.heap a.obj π = none ↔ follow L b π = none) ∧
      ∀ c c' x x', follow a.heap a.obj π = some c → follow a.heap a.obj π' = some c' →
        follow L b π = some x → follow L b π' = some x' →
        (x = x' → c = c') ∧ ∀ o, a.heap[c]? = some o → o.val.shareable = true → (c = c' → x = x') :=
  h.loads.imp fun _ _ h π π' => h.1.sharing π π'

/-- in `Ex.heap` the list 2 is reached as `obj[0]["key"]`, as `obj[0][(7, 7)]` and as `obj[1]` -/
example : Loads (fun _ => True) Ex.env Ex.file1.store [ps "run", ps "a"] fun L b =>
    ∃ x : Addr, follow L b [.item 0, .value 0] = some x ∧ follow L b [.item 0, .value 2] = some x ∧ follow L b [.item 1] = some x := by
  refine (C02_sharing Ex.good).imp fun L b h => ?_
  have e1 : follow Ex.heap 11 [.item 0, .value 0] = some 2 := by decide +kernel
  have e2 : follow Ex.heap 11 [.item 0, .value 2] = some 2 := by decide +kernel
  have e3 : follow Ex.heap 11 [.item 1] = some 2 := by decide +kernel
  have some_of : ∀ π, follow Ex.heap 11 π = some 2 → ∃ x, follow L b π = some x := by
    intro π hπ
    cases hx : follow L b π with
    | none =>
      have := ((h π π).1).2 hx
      change follow Ex.heap 11 π = none at this
      rw [this] at hπ; simp at hπ
    | some x => exact ⟨x, rfl⟩
  obtain ⟨x, hx⟩ := some_of _ e1
  obtain ⟨y, hy⟩ := some_of _ e2
  obtain ⟨z, hz⟩ := some_of _ e3
  have k1 := ((h _ _).2 2 2 x y e1 e2 hx hy).2 _ rfl rfl rfl
  have k2 := ((h _ _).2 2 2 x z e1 e3 hx hz).2 _ rfl rfl rfl
  subst k1 k2
  exact ⟨x, hx, hy, hz⟩

/-- **C02 through sets.**  The objects reachable in the loaded object correspond to the objects reachable
in the original: every one to exactly one, and a list, tuple, set, dict, array or pickled object of the original to exactly one. -/
theorem C02_everywhere {a : DumpArgs} {s s' : Session} (h : GoodDump P a s s') :
    Loads P a.env s'.store a.path fun L b => ∃ T : Addr → Addr → Prop, T b a.obj ∧
      (∀ x, Reach L b x → ∃ c, Reach a.heap a.obj c ∧ T x c) ∧
      (∀ c, Reach a.heap a.obj c → ∃ x, Reach L b x ∧ T x c) ∧
      (∀ x c c', T x c → T x c' → c = c') ∧
      (∀ x x' c o, T x c → T x' c → a.heap[c]? = some o → o.val.shareable = true → x = x') := by
  refine h.loads.imp fun L b hl => ?_
  obtain ⟨⟨R, N, Q, hc⟩, hg, _⟩ := hl
  have hc' := hc
  obtain ⟨r1, r2, r3, r4, r5, r6⟩ := hc
  let T : Addr → Addr → Prop := fun x c => R x c ∨ (∃ d, N d x c) ∨ Q x c
  have items : ∀ {xs as}, ItemsCopy a.heap R N xs as → All2 T xs as := by
    rintro xs as (⟨h, _⟩ | ⟨d, _, h⟩)
    · exact h.mono fun _ _ h => .inl h
    · exact h.mono fun _ _ h => .inr (.inl ⟨d, h⟩)
  have atom : ∀ v : Val, v.isAtom = true → v.children = [] := by
    intro v hv
    cases v <;> first | rfl | simp [Val.isAtom] at hv
  have kids : ∀ {x c o o'}, T x c → L[x]? = some o' → a.heap[c]? = some o →
      (∀ y ∈ o'.val.children, ∃ d ∈ o.val.children, T y d) ∧ (∀ d ∈ o.val.children, ∃ y ∈ o'.val.children, T y d) := by
    intro x c o o' hx ho' ho
    rcases hx with hx | ⟨d, hx⟩ | hx
    · obtain ⟨⟨cl, val⟩, ⟨cl', val'⟩, e1, e2, _, e4⟩ := r2 x c hx
      rw [ho] at e1; rw [ho'] at e2; simp at e1 e2; subst e1 e2
      simp only at e4 ⊢
      cases e4 with
      | atom ha => rw [atom _ ha]; simp
      | seq hi => exact ⟨fun y hy => (items hi).mem hy, fun d hd => (items hi).mem_right hd⟩
      | oarr hi =>
        have ht : All2 T _ _ := hi.mono fun _ _ h => .inl h
        exact ⟨fun y hy => ht.mem hy, fun d hd => ht.mem_right hd⟩
      | @sparse d' i' p' d i p _ h1 h2 h3 =>
        have ht : All2 T [d', i', p'] [d, i, p] := .cons (.inl h1) (.cons (.inl h2) (.cons (.inl h3) .nil))
        exact ⟨fun y hy => ht.mem hy, fun d hd => ht.mem_right hd⟩
      | set hi hp =>
        refine ⟨fun y hy => ?_, fun d hd => (items hi).mem_right (hp.mem_iff.2 hd)⟩
        obtain ⟨d, h1, h2⟩ := (items hi).mem hy
        exact ⟨d, hp.mem_iff.1 h1, h2⟩
      | dict hi =>
        have hk : ∀ (e' e : Addr × Addr), EntryCopy a.heap R N Q e' e → T e'.1 e.1 ∧ T e'.2 e.2 := by
          rintro e' e (⟨h1, h2⟩ | ⟨_, h1⟩)
          · exact ⟨.inr (.inr h1), .inl h2⟩
          · cases items h1 with
            | cons h1 h2 => cases h2 with | cons h2 _ => exact ⟨h1, h2⟩
        constructor
        · intro y hy
          simp only [Val.children, List.mem_flatMap] at hy ⊢
          obtain ⟨e', h1, h2⟩ := hy
          obtain ⟨e, h3, h4⟩ := hi.mem h1
          simp only [List.mem_cons, List.not_mem_nil, or_false] at h2
          rcases h2 with rfl | rfl
          · exact ⟨e.1, ⟨e, h3, by simp⟩, (hk _ _ h4).1⟩
          · exact ⟨e.2, ⟨e, h3, by simp⟩, (hk _ _ h4).2⟩
        · intro y hy
          simp only [Val.children, List.mem_flatMap] at hy ⊢
          obtain ⟨e, h1, h2⟩ := hy
          obtain ⟨e', h3, h4⟩ := hi.mem_right h1
          simp only [List.mem_cons, List.not_mem_nil, or_false] at h2
          rcases h2 with rfl | rfl
          · exact ⟨e'.1, ⟨e', h3, by simp⟩, (hk _ _ h4).1⟩
          · exact ⟨e'.2, ⟨e', h3, by simp⟩, (hk _ _ h4).2⟩
    · obtain ⟨p, p', e1, e2, v, w, e3, rfl, _⟩ := r3 d x c hx
      rw [ho] at e1; rw [ho'] at e2; simp at e1 e2; subst e1 e2
      rw [atom _ (exactNum_atom e3)]
      exact ⟨fun y hy => by simp [Val.children] at hy, fun y hy => by simp at hy⟩
    · obtain ⟨p, e1, e2, e3⟩ := r4 x c hx
      rw [ho] at e1; rw [ho'] at e2; simp at e1 e2; subst e1 e2
      rw [atom _ (Obj.nameKey_atom e3)]; simp
  have look : ∀ {x c}, T x c → (∃ o, a.heap[c]? = some o) ∧ ∃ o', L[x]? = some o' := by
    rintro x c (hx | ⟨d, hx⟩ | hx)
    · obtain ⟨o, o', e1, e2, _⟩ := r2 x c hx; exact ⟨⟨o, e1⟩, o', e2⟩
    · obtain ⟨o, o', e1, e2, _⟩ := r3 d x c hx; exact ⟨⟨o, e1⟩, o', e2⟩
    · obtain ⟨o, e1, e2, _⟩ := r4 x c hx; exact ⟨⟨o, e1⟩, o, e2⟩
  refine ⟨T, .inl r1, ?_, ?_, r5, ?_⟩
  · intro x hx
    induction hx with
    | here => exact ⟨a.obj, .here, .inl r1⟩
    | into _ ho hd ih =>
      obtain ⟨c, h1, h2⟩ := ih
      obtain ⟨⟨o, h3⟩, _⟩ := look h2
      obtain ⟨d, h4, h5⟩ := (kids h2 ho h3).1 _ hd
      exact ⟨d, h1.into h3 h4, h5⟩
  · intro c hc
    induction hc with
    | here => exact ⟨b, .here, .inl r1⟩
    | into _ ho hd ih =>
      obtain ⟨x, h1, h2⟩ := ih
      obtain ⟨_, o', h3⟩ := look h2
      obtain ⟨d, h4, h5⟩ := (kids h2 h3 ho).2 _ hd
      exact ⟨d, h1.into h3 h4, h5⟩
  · intro x x' c o h1 h2 ho hs
    exact r6 x x' c o (hc'.shared ho hs h1) (hc'.shared ho hs h2) ho (Val.shareable_identity hs)

/-- the string 0 of `Ex.heap` is an element of the set 8: reachable, and only through the set from there -/
example : Reach Ex.heap 8 0 := .into .here (o := ⟨.set, .set [0, 6]⟩) rfl (by decide +kernel)

example : Loads (fun _ => True) Ex.env Ex.file1.store [ps "run", ps "a"] fun L b => ∃ T : Addr → Addr → Prop, T b 11 ∧
    ∀ x, Reach L b x → ∃ c, Reach Ex.heap 11 c ∧ T x c :=
  (C02_everywhere Ex.good).imp fun _ _ ⟨T, h1, h2, _⟩ => ⟨T, h1, h2⟩

end Verif
