import Verif.Hickle.DumpEnds
import Verif.Hickle.History
/-!
# Two processes that dump the same

Two runs of a computation from states that differ in the loader registry only.
-/
namespace Verif

/-- `x` has the same outcome in related states and leaves related states behind; its result satisfies `Q` -/
def Two {σ α : Type} (R : σ → σ → Prop) (x : M σ α) (Q : α → Prop := fun _ => True) : Prop :=
  ∀ s t, R s t → (x s).1 = (x t).1 ∧ R (x s).2 (x t).2 ∧ ∀ a, (x s).1 = .ok a → Q a

namespace Two
variable {σ α β : Type} {R : σ → σ → Prop}

theorem bind {x : M σ α} {f : α → M σ β} {Q : α → Prop} {Q' : β → Prop} (hx : Two R x Q) (hf : ∀ a, Q a → Two R (f a) Q') : Two R (x >>= f) Q' := by
  intro s t hst
  obtain ⟨h1, h2, h3⟩ := hx s t hst
  rw [M.bind_apply, M.bind_apply]
  rcases hs : x s with ⟨r, s'⟩
  rcases ht : x t with ⟨r', t'⟩
  rw [hs, ht] at h1 h2
  rw [hs] at h3
  simp only at h1
  subst h1
  cases r with
  | ok a => exact hf a (h3 a rfl) s' t' h2
  | error e => exact ⟨rfl, h2, by simp⟩

theorem pure {Q : α → Prop} {a : α} (h : Q a) : Two R (pure a : M σ α) Q := fun s t hs => ⟨rfl, hs, fun b hb => by simp at hb; subst hb; exact h⟩

theorem throw {Q : α → Prop} (e : PyErr) : Two R (M.throw e : M σ α) Q := fun s t hs => ⟨rfl, hs, fun b hb => by simp at hb⟩

theorem modify {f : σ → σ} {Q : Unit → Prop} (h : ∀ s t, R s t → R (f s) (f t)) (hQ : Q ()) : Two R (M.modify f) Q := fun s t hs => ⟨rfl, h s t hs, fun _ _ => hQ⟩

theorem attempt {x : M σ α} {Q : α → Prop} (h : Two R x Q) : Two R (M.attempt x) (fun r => ∀ a, r = .ok a → Q a) := fun s t hs => by
  obtain ⟨h1, h2, h3⟩ := h s t hs
  refine ⟨?_, h2, fun b hb a ha => ?_⟩
  · simp only [M.attempt_apply]; rw [h1]
  · simp only [M.attempt_apply, Except.ok.injEq] at hb; exact h3 a (hb.trans ha)

theorem ofExcept {Q : α → Prop} {x : Except PyErr α} (h : ∀ a, x = .ok a → Q a) : Two R (M.ofExcept x : M σ α) Q := fun _ _ hs => ⟨rfl, hs, fun a ha => h a ha⟩

/-- the state may be looked at where the two states agree -/
theorem get {f : σ → M σ β} {Q : β → Prop} (h1 : ∀ s t, R s t → f s = f t) (h2 : ∀ s t, R s t → Two R (f s) Q) : Two R (M.get >>= f) Q := by
  intro s t hst
  rw [M.bind_of_ok (M.get_apply s), M.bind_of_ok (M.get_apply t), ← h1 s t hst]
  exact h2 s t hst s t hst

theorem weaken {x : M σ α} {Q Q' : α → Prop} (h : Two R x Q) (hq : ∀ a, Q a → Q' a) : Two R x Q' :=
  fun s t hs => ⟨(h s t hs).1, (h s t hs).2.1, fun a ha => hq a ((h s t hs).2.2 a ha)⟩

theorem forEach {f : α → M σ Unit} (xs : List α) (h : ∀ x ∈ xs, Two R (f x)) : Two R (M.forEach f xs) := by
  induction xs with
  | nil => exact pure trivial
  | cons x xs ih => exact bind (h x (by simp)) fun _ _ => ih fun y hy => h y (by simp [hy])

end Two

/-- the states agree in everything but the registries; a condition on the objects and the two registries -/
abbrev Twin (J : Heap → Registry → Registry → Prop) (s t : DState) : Prop := t = { s with reg := t.reg } ∧ J s.heap s.reg t.reg

section
variable {J : Heap → Registry → Registry → Prop}

theorem Twin.mk {s : DState} {r : Registry} (h : J s.heap s.reg r) : Twin J s { s with reg := r } := ⟨rfl, h⟩

/-- it is enough to look at states of this form -/
theorem Two.twin {α : Type} {x : DM α} {Q : α → Prop} (h : ∀ (s : DState) (r : Registry), J s.heap s.reg r →
    (x s).1 = (x { s with reg := r }).1 ∧ Twin J (x s).2 (x { s with reg := r }).2 ∧ ∀ a, (x s).1 = .ok a → Q a) : Two (Twin J) x Q := by
  rintro s t ⟨h1, h2⟩
  rw [h1]
  exact h s t.reg h2

theorem mkDset_two {kw p name d} : Two (Twin J) (mkDset kw p name d) := by
  refine .twin fun s r h => ?_
  unfold mkDset
  cases checkKw kw d with
  | error e => exact ⟨rfl, .mk h, fun _ _ => trivial⟩
  | ok u =>
    simp only []
    cases s.store.create p name (.dset d) with
    | error e => exact ⟨rfl, .mk h, fun _ _ => trivial⟩
    | ok y => exact ⟨rfl, .mk h, fun _ _ => trivial⟩

theorem mkGroup_two {p name} : Two (Twin J) (mkGroup p name) := by
  refine .twin fun s r h => ?_
  unfold mkGroup
  simp only []
  cases s.store.create p name (.group []) with
  | error e => exact ⟨rfl, .mk h, fun _ _ => trivial⟩
  | ok y => exact ⟨rfl, .mk h, fun _ _ => trivial⟩

theorem setAttr_two {n k v} : Two (Twin J) (setAttr n k v) := by
  refine .twin fun s r h => ⟨rfl, .mk h, fun _ _ => trivial⟩
theorem write_two {n d} : Two (Twin J) (M.modify fun s : DState => { s with store := s.store.write n d }) := by
  refine .twin fun s r h => ⟨rfl, .mk h, fun _ _ => trivial⟩
theorem setAttrs_two {n l} : Two (Twin J) (setAttrs n l) := .forEach _ fun _ _ => setAttr_two

theorem createItems_two {c h items dt p name} : Two (Twin J) (createItems c h items dt p name) := by
  unfold createItems
  split
  · refine .bind mkDset_two fun n _ => ?_
    split
    · exact .pure trivial
    · exact .throw _
  · exact .throw _
  · exact .bind mkGroup_two fun n _ => .bind setAttr_two fun _ _ => .pure trivial

theorem createPickled_two {c o p name} : Two (Twin J) (createPickled c o p name) := by
  unfold createPickled
  repeat' split
  · exact mkDset_two
  · exact .throw _
  · exact .throw _

theorem createListlike_two {c h o p name} : Two (Twin J) (createListlike c h o p name) := by
  unfold createListlike
  repeat' split
  all_goals first
    | exact .throw _
    | exact createItems_two
    | exact .bind mkDset_two fun n _ => .bind setAttr_two fun _ _ => .pure trivial
    | exact .bind mkDset_two fun n _ => .pure trivial

theorem createRows_two {c n sh ls p name} : Two (Twin J) (createRows c n sh ls p name) := by
  unfold createRows
  split
  · exact .throw _
  · split
    · exact .bind mkDset_two fun n _ => .pure trivial
    · exact .bind mkGroup_two fun n _ => .bind setAttr_two fun _ _ => .pure trivial

theorem createNpArray_two {c h o p name} : Two (Twin J) (createNpArray c h o p name) := by
  have dt : ∀ {x d}, Two (Twin J) x → Two (Twin J) (withDtype x d) :=
    fun hx => .bind hx fun r _ => .bind setAttr_two fun _ _ => .pure trivial
  unfold createNpArray
  split
  · exact dt (.bind mkDset_two fun n _ => .pure trivial)
  · refine dt ?_
    unfold createStrings
    repeat' split
    all_goals first
      | exact .throw _
      | exact createRows_two
      | exact .bind mkDset_two fun n _ => .pure trivial
  · refine dt ?_
    unfold createObjects
    repeat' split
    all_goals first
      | exact .throw _
      | exact createRows_two
      | exact createListlike_two
      | exact .bind mkGroup_two fun n _ => .pure trivial
  · exact .throw _

theorem createFn_two {c fn h o p name} : Two (Twin J) (createFn c fn h o p name) := by
  unfold createFn
  split
  · refine .bind (Q := fun _ => True) ?_ fun n _ => .pure trivial
    unfold createScalar
    repeat' split
    all_goals first | exact mkDset_two | exact .throw _
  · exact .bind (Q := fun _ => True) mkDset_two fun n _ => .pure trivial
  · exact createListlike_two
  · unfold createSetlike
    repeat' split
    all_goals first
      | exact .throw _
      | exact createItems_two
      | exact .bind mkDset_two fun n _ => .pure trivial
  · unfold createDictlike
    split
    · exact .bind mkGroup_two fun n _ => .pure trivial
    · exact .throw _
  · refine .bind (Q := fun _ => True) ?_ fun n _ => .pure trivial
    unfold createNpScalar
    split
    · exact .bind mkDset_two fun n _ => .bind setAttr_two fun _ _ => .pure trivial
    · exact .throw _
  · exact createNpArray_two
  · unfold createMasked
    split
    · exact .bind mkGroup_two fun n _ => .bind setAttr_two fun _ _ => .pure trivial
    · exact .throw _
  · unfold createSparse
    split
    · split
      · exact .throw _
      · exact .bind mkGroup_two fun n _ => .pure trivial
    · exact .throw _
  · exact .bind (Q := fun _ => True) createPickled_two fun n _ => .pure trivial
  all_goals exact .throw _

theorem Twin.fields {s t : DState} (h : Twin J s t) : t.heap = s.heap ∧ t.store = s.store ∧ t.memo = s.memo ∧ t.tlinks = s.tlinks ∧ t.blinks = s.blinks := by
  rw [h.1]; exact ⟨rfl, rfl, rfl, rfl, rfl⟩

theorem baseEntry_two {c b} : Two (Twin J) (baseEntry c b) := by
  unfold baseEntry
  refine .get (fun s t h => by rw [h.fields.2.2.2.2]) fun s t h => ?_
  cases Assoc.get? s.blinks b with
  | some n => exact .pure trivial
  | none => exact .bind mkDset_two fun _ _ => .bind (Q := fun _ => True) (.twin fun s r h => ⟨rfl, .mk h, fun _ _ => trivial⟩) fun _ _ => .pure trivial

theorem storeType_two {c n cls b} : Two (Twin J) (storeType c n cls b) := by
  unfold storeType
  split
  · exact .pure trivial
  · refine .bind (Q := fun _ => True) ?_ fun _ _ => setAttr_two
    unfold typeEntryNode
    refine .get (fun s t h => by rw [h.fields.2.2.2.1, h.fields.2.1]) fun s t h => ?_
    cases Assoc.get? s.tlinks cls with
    | some e => exact .pure trivial
    | none =>
      simp only []
      split
      · exact .throw _
      · split
        · exact .throw _
        · cases s.store.links c.table with
          | none => exact .throw _
          | some ls =>
            exact .bind mkDset_two fun _ _ => .bind (Q := fun _ => True) baseEntry_two fun _ _ => .bind setAttr_two fun _ _ =>
              .bind (Q := fun _ => True) (.twin fun s r h => ⟨rfl, .mk h, fun _ _ => trivial⟩) fun _ _ => .pure trivial

end

/-- every object has a class whose loaders are hickle's own, and nothing but these was done to the registries -/
def Fair (P : Nat → Prop) (env : Env) (h : Heap) (r r' : Registry) : Prop := (∀ o ∈ h, GoodCls P env o.cls) ∧ RegInv P r ∧ RegInv P r'

variable {P : Nat → Prop} {c : DCtx}

theorem dumpCreate_two (hE : EnvOk P c.env) (hm : c.mgr.Dumps) {o : Obj} (hc : GoodCls P c.env o.cls) {p name} : Two (Twin (Fair P c.env)) (dumpCreate c o p name) := by
  unfold dumpCreate
  refine .bind (Q := fun _ => True) ?_ fun r _ => .get (fun s t h => by simp only [h.fields.1]) fun s t _ => .bind (.attempt (Q := fun _ => True) createFn_two) fun r _ => ?_
  · refine .twin fun s r h => ?_
    obtain ⟨h0, h1, h2⟩ := h
    obtain ⟨r1, e1, i1, _⟩ := loadLoader_spec hE hm hc none h1
    obtain ⟨r2, e2, i2, _⟩ := loadLoader_spec hE hm hc none h2
    unfold onReg
    simp only [e1, e2]
    exact ⟨trivial, ⟨rfl, h0, i1, i2⟩, fun _ _ => trivial⟩
  · cases r with
    | ok r => exact .bind storeType_two fun _ _ => .pure trivial
    | error e =>
      simp only []
      split
      · exact .bind createPickled_two fun _ _ => .pure trivial
      · exact .throw _

/-- the objects made for a sub item have classes hickle knows -/
theorem newObjs_temp {h : Heap} {o : Obj} {so : SubObj} (hs : SubOf h o so) (n : Nat) : ∀ x ∈ (match so with
    | .addr _ => ([] : List Obj)
    | .pair k v => [⟨.tuple, .seq [k, v]⟩]
    | .nest c sh ls => (nestBlock c sh ls n).1), TempCls x.cls := by
  cases so with
  | addr a => simp
  | pair k v => simp [TempCls]
  | nest cl sh ls =>
    obtain ⟨_, hn, _⟩ := hs
    simp only []
    intro x hx
    have hb := nest_spec (H := List.replicate n ⟨.noneType, .none⟩ ++ (nestBlock cl sh ls n).1) (base := 0) sh ls n hn.1 hn.2 (Nat.zero_le _) (by
      intro i o hi
      rw [List.getElem?_append_right (by simp)]
      simpa using hi)
    obtain ⟨i, hi, e⟩ := List.getElem_of_mem hx
    obtain ⟨o', g1, g2⟩ := (hb.all i hi).cls
    rw [List.getElem?_append_right (by simp)] at g1
    simp only [List.length_replicate, Nat.add_sub_cancel_left, List.getElem?_eq_getElem hi, e, Option.some.injEq] at g1
    subst g1
    exact g2

theorem subAddr_two {h : Heap} {o : Obj} {so : SubObj} (hs : SubOf h o so) : Two (Twin (Fair P c.env)) (subAddr so) := by
  refine .twin fun s r hf => ?_
  have ht := newObjs_temp hs s.heap.length
  have grow : ∀ l : List Obj, (∀ x ∈ l, TempCls x.cls) → Fair P c.env (s.heap ++ l) s.reg r := by
    intro l hl
    refine ⟨fun x hx => ?_, hf.2⟩
    rcases List.mem_append.1 hx with hx | hx
    · exact hf.1 x hx
    · exact (hl x hx).good _ _
  cases so with
  | addr a => exact ⟨rfl, .mk hf, fun _ _ => trivial⟩
  | pair k v => exact ⟨rfl, ⟨rfl, grow _ ht⟩, fun _ _ => trivial⟩
  | nest cl sh ls => exact ⟨rfl, ⟨rfl, grow _ ht⟩, fun _ _ => trivial⟩

theorem dumpCreate_from {o : Obj} {p name} {s : DState} {x} (h : (dumpCreate c o p name s).1 = .ok x) :
    ∀ sub ∈ x.2.1, (∃ e, sub = .error e) ∨ ∃ (h : Heap) (sb : Sub), sub = .ok sb ∧ SubOf h o sb.obj := by
  obtain ⟨n, subs, mem⟩ := x
  intro sub hs
  have := dumpCreate_subs (s1 := (dumpCreate c o p name s).2) (show dumpCreate c o p name s = (.ok (n, subs, mem), _) by rw [← h])
  rcases this sub hs with rfl | rfl | ⟨sb, rfl, h⟩
  · exact .inl ⟨_, rfl⟩
  · exact .inl ⟨_, rfl⟩
  · exact .inr ⟨_, sb, rfl, h⟩

theorem dumpNode_two (hE : EnvOk P c.env) (hm : c.mgr.Dumps) (fuel : Nat) : ∀ a p name attrs, Two (Twin (Fair P c.env)) (dumpNode c fuel a p name attrs) := by
  induction fuel with
  | zero => exact fun a p name attrs => .throw _
  | succ fuel ih =>
    intro a p name attrs
    simp only [dumpNode]
    refine .get (fun s t h => by simp only [h.fields.1, h.fields.2.2.1]) fun s t hst => ?_
    cases Assoc.get? s.memo a with
    | some n => exact .bind mkDset_two fun n _ => setAttrs_two
    | none =>
      simp only []
      cases ho : s.heap[a]? with
      | none => exact .throw _
      | some o =>
        simp only []
        have hc := hst.2.1 o (List.mem_of_getElem? ho)
        have h1 : Two (Twin (Fair P c.env)) (dumpCreate c o p name) (fun x => ∀ sub ∈ x.2.1, (∃ e, sub = .error e) ∨ ∃ (h : Heap) (sb : Sub), sub = .ok sb ∧ SubOf h o sb.obj) := by
          intro s t h
          obtain ⟨k1, k2, _⟩ := dumpCreate_two (p := p) (name := name) hE hm hc s t h
          exact ⟨k1, k2, fun x hx => dumpCreate_from hx⟩
        refine .bind h1 fun r hr => .bind setAttrs_two fun _ _ => .bind (Q := fun _ => True) ?_ fun _ _ => .forEach _ fun sub hmem => ?_
        · split
          · exact .twin fun s r h => ⟨rfl, .mk h, fun _ _ => trivial⟩
          · exact .pure trivial
        · rcases hr sub hmem with ⟨e, rfl⟩ | ⟨h, sb, rfl, hso⟩
          · exact .throw _
          · exact .bind (Q := fun _ => True) (subAddr_two hso) fun b _ => ih b _ _ _

/-! ### whole dumps -/

/-- two processes with the same file -/
structure SameFile (P : Nat → Prop) (s t : Session) : Prop where
  store : t.store = s.store
  writable : t.writable = s.writable
  ldr : t.ldr = s.ldr
  ref : t.ref = s.ref
  left : RegInv P s.reg
  right : RegInv P t.reg

theorem SameFile.eq {s t : Session} (h : SameFile P s t) : t = { s with reg := t.reg } := by
  obtain ⟨h1, h2, h3, h4, _, _⟩ := h
  cases s; cases t
  simp only at h1 h2 h3 h4
  subst h1 h2 h3 h4
  rfl

theorem Two.file {α : Type} {x : SM α} {Q : α → Prop} (h : ∀ (s : Session) (r : Registry), RegInv P s.reg → RegInv P r →
    (x s).1 = (x { s with reg := r }).1 ∧ SameFile P (x s).2 (x { s with reg := r }).2 ∧ ∀ a, (x s).1 = .ok a → Q a) : Two (SameFile P) x Q := by
  intro s t hst
  rw [hst.eq]
  exact h s t.reg hst.left hst.right

theorem SameFile.mk' {s : Session} {r : Registry} (h1 : RegInv P s.reg) (h2 : RegInv P r) : SameFile P s { s with reg := r } := ⟨rfl, rfl, rfl, rfl, h1, h2⟩

theorem sModify_two {f : Session → Session} (h : ∀ s r, f { s with reg := r } = { f s with reg := r }) (h' : ∀ s, (f s).reg = s.reg) : Two (SameFile P) (M.modify f) := by
  refine .file fun s r h1 h2 => ⟨rfl, ?_, fun _ _ => trivial⟩
  have e : (M.modify f { s with reg := r }).2 = { f s with reg := r } := h s r
  rw [e]
  exact SameFile.mk' (s := f s) (by rw [h']; exact h1) h2

theorem dumpGroup_two (path) : Two (SameFile P) (dumpGroup path) := by
  refine .file fun s r h1 h2 => ?_
  unfold dumpGroup
  cases pathOk path with
  | error e => exact ⟨rfl, .mk' h1 h2, fun _ _ => trivial⟩
  | ok u =>
    simp only []
    cases s.store.resolve 0 path with
    | some g =>
      simp only []
      cases s.store.links g with
      | none => exact ⟨rfl, .mk' h1 h2, fun _ _ => trivial⟩
      | some l => cases l <;> exact ⟨rfl, .mk' h1 h2, fun _ _ => trivial⟩
    | none =>
      simp only []
      cases s.store.mkPath 0 path with
      | error e => exact ⟨rfl, .mk' h1 h2, fun _ _ => trivial⟩
      | ok y => exact ⟨rfl, ⟨rfl, rfl, rfl, rfl, h1, h2⟩, fun _ _ => trivial⟩

theorem sSetAttr_two (g k v) : Two (SameFile P) (sSetAttr g k v) := sModify_two (fun _ _ => rfl) (fun _ => rfl)

theorem setOptions_two (g) : ∀ (os : List (String × Bool)) (maps : List Opt), (∃ pre, maps = pre ++ [none] ∧ ∀ o ∈ pre, o = some "custom" ∨ o = some "hickle-4.x") →
    Two (SameFile P) (setOptions g os maps) (fun maps => Manager.Dumps ⟨maps⟩)
  | [], maps, hm => .pure hm
  | (k, on) :: os, maps, hm => by
    rw [setOptions]
    split
    · next hon =>
      refine .bind (Q := fun _ => True) (sSetAttr_two _ _ _) fun _ _ => ?_
      split
      · next hv =>
        refine setOptions_two g os _ ?_
        obtain ⟨pre, rfl, hp⟩ := hm
        refine ⟨some k :: pre, rfl, ?_⟩
        intro o ho
        rcases List.mem_cons.1 ho with rfl | ho
        · unfold validOption at hv
          simp only [Bool.or_eq_true, decide_eq_true_eq] at hv
          rcases hv with rfl | rfl
          · exact .inl rfl
          · exact .inr rfl
        · exact hp o ho
      · exact .throw _
    · exact setOptions_two g os maps hm

theorem loaderEnter_two {g os} : Two (SameFile P) (loaderEnter g (some os)) (fun m => m.Dumps) := by
  unfold loaderEnter
  refine .get (fun s t h => by simp only [h.ldr]) fun s t _ => ?_
  split
  · exact .throw _
  · exact .bind (setOptions_two g os [none] ⟨[], rfl, by simp⟩) fun maps hmaps => .bind (Q := fun _ => True) (sModify_two (fun _ _ => rfl) (fun _ => rfl)) fun _ _ => .pure hmaps

theorem refEnter_two {env g} : Two (SameFile P) (refEnter env g) := by
  unfold refEnter
  refine .get (fun s t h => by simp only [h.ref]) fun s t _ => ?_
  split
  · exact .throw _
  · refine .bind (Q := fun _ => True) ?_ fun maps hmaps => .bind (Q := fun _ => True) (sModify_two (fun _ _ => rfl) (fun _ => rfl)) fun _ _ => .pure trivial
    refine .file fun s r h1 h2 => ?_
    unfold refInit
    simp only []
    cases s.store.links g with
    | none => exact ⟨rfl, .mk' h1 h2, fun _ _ => trivial⟩
    | some ls =>
      simp only []
      cases Assoc.get? ls tableName with
      | none =>
        simp only []
        cases hw : s.writable with
        | false =>
          simp only [Bool.false_eq_true, if_false]
          exact ⟨trivial, ⟨rfl, hw.symm, rfl, rfl, h1, h2⟩, fun _ _ => trivial⟩
        | true =>
          simp only [if_true]
          cases s.store.create g tableName (.group []) with
          | error e => exact ⟨rfl, ⟨rfl, hw.symm, rfl, rfl, h1, h2⟩, fun _ _ => trivial⟩
          | ok y => exact ⟨rfl, ⟨rfl, rfl, rfl, rfl, h1, h2⟩, fun _ _ => trivial⟩
      | some T =>
        simp only []
        cases s.store.links T with
        | none => exact ⟨rfl, .mk' h1 h2, fun _ _ => trivial⟩
        | some es =>
          simp only []
          cases hw : s.writable with
          | false => simp only [Bool.false_eq_true, if_false]; exact ⟨trivial, ⟨rfl, hw.symm, rfl, rfl, h1, h2⟩, fun _ _ => trivial⟩
          | true => simp only [if_true]; exact ⟨trivial, ⟨rfl, hw.symm, rfl, rfl, h1, h2⟩, fun _ _ => trivial⟩

theorem finally_two {α : Type} {x : SM α} {fin : SM Unit} (hx : Two (SameFile P) x) (hf : Two (SameFile P) fin) : Two (SameFile P) (finally' x fin) := by
  unfold finally'
  exact .bind hx.attempt fun r _ => .bind hf fun _ _ => .ofExcept fun _ _ => trivial

theorem dumpData_two {a : DumpArgs} {g m} {mgr : Manager} (hE : EnvOk P a.env) (hm : mgr.Dumps) (hc : ∀ o ∈ a.heap, GoodCls P a.env o.cls) : Two (SameFile P) (dumpData a g mgr m) := by
  refine .file fun s r h1 h2 => ?_
  unfold dumpData
  cases m.table with
  | none => exact ⟨rfl, .mk' h1 h2, fun _ _ => trivial⟩
  | some T =>
    simp only []
    obtain ⟨k1, k2, _⟩ := dumpNode_two (c := ⟨a.env, mgr, a.kw, T⟩) hE hm a.fuel a.obj g dataName0 []
      { heap := a.heap, store := s.store, tlinks := m.tl, blinks := m.bl, reg := s.reg } { heap := a.heap, store := s.store, tlinks := m.tl, blinks := m.bl, reg := r } ⟨rfl, hc, h1, h2⟩
    exact ⟨k1, ⟨k2.fields.2.1, rfl, rfl, rfl, k2.2.2.1, k2.2.2.2⟩, fun _ _ => trivial⟩

theorem dumpTop_two {a : DumpArgs} (hE : EnvOk P a.env) (hc : ∀ o ∈ a.heap, GoodCls P a.env o.cls) {os} (hos : a.options = some os) :
    Two (SameFile P) (dumpTop a) := by
  unfold dumpTop
  refine .get (fun s t h => by simp only [h.writable]) fun s t _ => ?_
  split
  · exact .throw _
  · rw [hos]
    exact .bind (dumpGroup_two _) fun g _ => .bind (Q := fun _ => True) (sSetAttr_two _ _ _) fun _ _ => .bind (Q := fun _ => True) (sSetAttr_two _ _ _) fun _ _ =>
      .bind loaderEnter_two fun mgr hmgr => finally_two (.bind refEnter_two fun m _ => finally_two (dumpData_two hE hmgr hc) (sModify_two (fun _ _ => rfl) (fun _ => rfl)))
        (sModify_two (fun _ _ => rfl) (fun _ => rfl))

end Verif
