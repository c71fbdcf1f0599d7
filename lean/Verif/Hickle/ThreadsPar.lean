import Verif.Hickle.ThreadsSafe
/-!
# The steps of a dump, whatever the others do

`Par R A p s Q`: whatever registry in `R` is put in before each step, and if `load_loader` answers as `A` says, the steps `p` leave the
registry alone, ask only for what `A` has an answer to, with a manager made by `dump` or `load`, and end with an outcome in `Q`.
`Sim` relates such steps to a computation done alone.
-/
namespace Verif.Threads
open Prog (Call)

/-- states with a registry -/
class HasReg (σ : Type) where
  rd : σ → Registry
  wr : σ → Registry → σ
open HasReg (rd wr)

instance : HasReg DState := ⟨fun s => s.reg, fun s r => { s with reg := r }⟩
instance {τ : Type} : HasReg (Session × τ) := ⟨fun s => s.1.reg, withReg⟩

variable {P : Nat → Prop} {r0 : Registry} {env : Env} {C : Cls → Prop} {R : Registry → Prop} {A : Cls → Option String → Cls × Entry → Prop}

section
variable {σ ρ α β : Type} [HasReg σ]

def Par (R : Registry → Prop) (A : Cls → Option String → Cls × Entry → Prop) : Prog σ α → σ → (Except PyErr α → σ → Prop) → Prop
  | .ret r, s, Q => Q r s
  | .act _ x k, s, Q => ∀ r, R r → rd (x (wr s r)).2 = r ∧ Par R A (k (x (wr s r)).1) (x (wr s r)).2 Q
  | .look m c b k, s, Q => m.Dumps ∧ ∃ ans, A c b ans ∧ Par R A (k (.ok ans)) s Q

theorem Par.mono {p : Prog σ α} : ∀ {s : σ} {Q Q' : Except PyErr α → σ → Prop}, Par R A p s Q → (∀ r s, Q r s → Q' r s) → Par R A p s Q' := by
  induction p with
  | ret r => intro s Q Q' h hq; exact hq _ _ h
  | act io x k ih => intro s Q Q' h hq r hr; exact ⟨(h r hr).1, ih _ (h r hr).2 hq⟩
  | look m c b k ih => intro s Q Q' ⟨hm, ans, ha, h⟩ hq; exact ⟨hm, ans, ha, ih _ h hq⟩

theorem Par.bind {f : α → Prog σ β} {Q : Except PyErr β → σ → Prop} {p : Prog σ α} : ∀ {s : σ},
    Par R A p s (fun r s' => match r with
      | .ok a => Par R A (f a) s' Q
      | .error e => Q (.error e) s') → Par R A (p >>= f) s Q := by
  show ∀ {s : σ}, _ → Par R A (p.bind f) s Q
  induction p with
  | ret r => intro s h; cases r <;> exact h
  | act io x k ih => intro s h r hr; exact ⟨(h r hr).1, ih _ (h r hr).2⟩
  | look m c b k ih => intro s ⟨hm, ans, ha, h⟩; exact ⟨hm, ans, ha, ih _ h⟩

theorem Par.attempt {Q : Except PyErr (Except PyErr α) → σ → Prop} {p : Prog σ α} : ∀ {s : σ}, Par R A p s (fun r s' => Q (.ok r) s') → Par R A p.attempt s Q := by
  induction p with
  | ret r => intro s h; exact h
  | act io x k ih => intro s h r hr; exact ⟨(h r hr).1, ih _ (h r hr).2⟩
  | look m c b k ih => intro s ⟨hm, ans, ha, h⟩; exact ⟨hm, ans, ha, ih _ h⟩

/-- the steps `p` in a thread do what `x` does alone; `Rl` relates the states -/
def Sim (R : Registry → Prop) (A : Cls → Option String → Cls × Entry → Prop) (Rl : σ → ρ → Prop) (p : Prog σ α) (x : M ρ α) (Q : α → Prop := fun _ => True) : Prop :=
  ∀ s t, Rl s t → Par R A p s (fun r s' => r = (x t).1 ∧ Rl s' (x t).2 ∧ ∀ a, r = .ok a → Q a)

variable {Rl : σ → ρ → Prop}

theorem Sim.bind {p : Prog σ α} {x : M ρ α} {f : α → Prog σ β} {y : α → M ρ β} {Q : α → Prop} {Q' : β → Prop} (h : Sim R A Rl p x Q)
    (hf : ∀ a, Q a → Sim R A Rl (f a) (y a) Q') : Sim R A Rl (p >>= f) (x >>= y) Q' := by
  intro s t hst
  refine Par.bind ((h s t hst).mono ?_)
  intro r s' ⟨e, hs', hq⟩
  rw [M.bind_apply]
  rcases hx : x t with ⟨z, t'⟩
  rw [hx] at e hs'
  subst e
  cases r with
  | ok a => exact hf a (hq a rfl) s' t' hs'
  | error e => exact ⟨rfl, hs', fun a ha => by simp at ha⟩

theorem Sim.pure {Q : α → Prop} {a : α} (h : Q a) : Sim R A Rl (pure a) (pure a) Q := fun s t hst => ⟨rfl, hst, fun b hb => by simp at hb; subst hb; exact h⟩
theorem Sim.throw {Q : α → Prop} {e : PyErr} : Sim R A Rl (Prog.raise e : Prog σ α) (M.throw e) Q := fun s t hst => ⟨rfl, hst, fun b hb => by simp at hb⟩
theorem Sim.ret {r : Except PyErr α} : Sim R A Rl (.ret r) (M.ofExcept r) := fun s t hst => ⟨rfl, hst, fun _ _ => trivial⟩

theorem Sim.attempt {p : Prog σ α} {x : M ρ α} {Q : α → Prop} (h : Sim R A Rl p x Q) :
    Sim R A Rl p.attempt (M.attempt x) (fun r => ∀ a, r = .ok a → Q a) := by
  intro s t hst
  refine Par.attempt ((h s t hst).mono ?_)
  intro r s' ⟨e, hs', hq⟩
  exact ⟨by rw [e]; rfl, hs', fun b hb a ha => by simp only [Except.ok.injEq] at hb; subst hb; exact hq a ha⟩

theorem Sim.finally {p : Prog σ α} {x : M ρ α} {fin : Prog σ Unit} {y : M ρ Unit} (h : Sim R A Rl p x) (hf : Sim R A Rl fin y) :
    Sim R A Rl (Prog.finally' p fin) (finally' x y) := h.attempt.bind fun _ _ => hf.bind fun _ _ => .ret

theorem Sim.forEach {f : α → Prog σ Unit} {y : α → M ρ Unit} (xs : List α) (h : ∀ x ∈ xs, Sim R A Rl (f x) (y x)) :
    Sim R A Rl (Prog.forEach f xs) (M.forEach y xs) := by
  induction xs with
  | nil => exact .pure trivial
  | cons x xs ih => exact .bind (h x (by simp)) fun _ _ => ih fun z hz => h z (by simp [hz])

theorem Sim.foldEach {f : β → α → Prog σ β} {y : β → α → M ρ β} (xs : List α) (h : ∀ b x, x ∈ xs → Sim R A Rl (f b x) (y b x)) (b : β) :
    Sim R A Rl (Prog.foldEach f b xs) (M.foldEach y b xs) := by
  induction xs generalizing b with
  | nil => exact .pure trivial
  | cons x xs ih => exact .bind (h b x (by simp)) fun b' _ => ih (fun b z hz => h b z (by simp [hz])) b'

/-- the state may be looked at -/
theorem Sim.view' {f : σ → Prog σ α} {y : ρ → M ρ α} {Q : α → Prop} (hrd : ∀ (s : σ) r, rd (wr s r : σ) = r) (hR : ∀ s t r, Rl s t → Rl (wr s r) t)
    (h : ∀ s t, Rl s t → R (rd s) → Sim R A Rl (f s) (y t) Q) : Sim R A Rl (Prog.view >>= f) (M.get >>= y) Q := by
  intro s t hst r hr
  refine ⟨hrd s r, ?_⟩
  rw [M.bind_of_ok (M.get_apply t)]
  exact h _ _ (hR s t r hst) (by rw [hrd]; exact hr) _ _ (hR s t r hst)

end

/-! ### dumps in threads and alone -/

/-- the states of a dump in a thread and of the same dump done alone -/
structure Rel (P : Nat → Prop) (C : Cls → Prop) (s t : DState) : Prop where
  same : t = { s with reg := t.reg }
  reg : RegInv P t.reg
  cls : ∀ o ∈ s.heap, C o.cls

theorem Rel.fields {s t : DState} (h : Rel P C s t) : t.heap = s.heap ∧ t.store = s.store ∧ t.memo = s.memo ∧ t.tlinks = s.tlinks ∧ t.blinks = s.blinks := by
  rw [h.same]; exact ⟨rfl, rfl, rfl, rfl, rfl⟩

theorem Rel.wr {s t : DState} (h : Rel P C s t) (r : Registry) : Rel P C { s with reg := r } t := ⟨by rw [h.same], h.reg, h.cls⟩

/-- a computation that does not look at the registry -/
def Blind {α : Type} (x : DM α) : Prop := ∀ J, Two (Twin J) x

section
variable {α β : Type}

theorem Sim.op {io : Bool} {x : DM α} (h : Blind x) : Sim R A (Rel P C) (Prog.op io x) x := by
  intro s t hst r _
  obtain ⟨h1, ⟨h2, h3, h4, h5⟩, _⟩ := h (fun hp ra rb => ra = r ∧ RegInv P rb ∧ ∀ o ∈ hp, C o.cls) { s with reg := r } t ⟨by rw [hst.same], rfl, hst.reg, hst.cls⟩
  exact ⟨h3, h1, ⟨h2, h4, h5⟩, fun _ _ => trivial⟩

theorem Sim.view {f : DState → Prog DState α} {y : DState → DM α} {Q : α → Prop} (h : ∀ s t, Rel P C s t → Sim R A (Rel P C) (f s) (y t) Q) :
    Sim R A (Rel P C) (Prog.view >>= f) (M.get >>= y) Q := .view' (fun _ _ => rfl) (fun _ _ r h => h.wr r) fun s t hst _ => h s t hst

/-- steps that neither ask the registry nor look at the state as a whole -/
def Quiet : Prog DState α → Prop
  | .ret _ => True
  | .act _ x k => Blind x ∧ ∀ r, Quiet (k r)
  | .look _ _ _ _ => False

theorem Quiet.bind {p : Prog DState α} {f : α → Prog DState β} (h : Quiet p) (hf : ∀ a, Quiet (f a)) : Quiet (p >>= f) := by
  show Quiet (p.bind f)
  induction p with
  | ret r => cases r with
    | ok a => exact hf a
    | error e => trivial
  | act io x k ih => exact ⟨h.1, fun r => ih r (h.2 r)⟩
  | look m c b k ih => exact h.elim

theorem Quiet.op {io : Bool} {x : DM α} (h : Blind x) : Quiet (Prog.op io x) := ⟨h, fun _ => trivial⟩
theorem Quiet.pure {a : α} : Quiet (pure a : Prog DState α) := trivial
theorem Quiet.throw {e : PyErr} : Quiet (Prog.raise e : Prog DState α) := trivial

theorem Quiet.forEach {f : α → Prog DState Unit} (xs : List α) (h : ∀ x ∈ xs, Quiet (f x)) : Quiet (Prog.forEach f xs) := by
  induction xs with
  | nil => trivial
  | cons x xs ih => exact .bind (h x (by simp)) fun _ => ih fun z hz => h z (by simp [hz])

theorem Sim.quiet (lk : Prog.Lk DState) {p : Prog DState α} (h : Quiet p) : Sim R A (Rel P C) p (Prog.run lk p) := by
  induction p with
  | ret r => exact fun s t hst => ⟨rfl, hst, fun _ _ => trivial⟩
  | act io x k ih =>
    intro s t hst r _
    obtain ⟨h1, ⟨h2, h3, h4, h5⟩, _⟩ := h.1 (fun hp ra rb => ra = r ∧ RegInv P rb ∧ ∀ o ∈ hp, C o.cls) { s with reg := r } t ⟨by rw [hst.same], rfl, hst.reg, hst.cls⟩
    refine ⟨h3, ?_⟩
    have := ih (x { s with reg := r }).1 (h.2 _) (x { s with reg := r }).2 (x t).2 ⟨h2, h4, h5⟩
    simp only [Prog.run]
    rw [← h1]
    exact this
  | look m c b k ih => exact h.elim

end

theorem mkDset_quiet {kw p n d} : Quiet (Prog.mkDset kw p n d) :=
  .bind (.op fun _ => mkDset_two) fun _ => .bind (.op fun _ => write_two) fun _ => .pure
theorem mkGroup_quiet {p n} : Quiet (Prog.mkGroup p n) := .op fun _ => mkGroup_two
theorem setAttr_quiet {n k v} : Quiet (Prog.setAttr n k v) := .op fun _ => setAttr_two
theorem setAttrs_quiet {n l} : Quiet (Prog.setAttrs n l) := .forEach _ fun _ _ => setAttr_quiet

theorem createItems_quiet {c h items dt p name} : Quiet (Prog.createItems c h items dt p name) := by
  unfold Prog.createItems
  split
  · refine .bind mkDset_quiet fun n => ?_
    split
    · exact .pure
    · exact .throw
  · exact .throw
  · exact .bind mkGroup_quiet fun n => .bind setAttr_quiet fun _ => .pure

theorem createPickled_quiet {c o p name} : Quiet (Prog.createPickled c o p name) := by
  unfold Prog.createPickled
  repeat' split
  · exact mkDset_quiet
  · exact .throw
  · exact .throw

theorem createListlike_quiet {c h o p name} : Quiet (Prog.createListlike c h o p name) := by
  unfold Prog.createListlike
  repeat' split
  all_goals first
    | exact .throw
    | exact createItems_quiet
    | exact .bind mkDset_quiet fun n => .bind setAttr_quiet fun _ => .pure
    | exact .bind mkDset_quiet fun n => .pure

theorem createRows_quiet {c n sh ls p name} : Quiet (Prog.createRows c n sh ls p name) := by
  unfold Prog.createRows
  split
  · exact .throw
  · split
    · exact .bind mkDset_quiet fun n => .pure
    · exact .bind mkGroup_quiet fun n => .bind setAttr_quiet fun _ => .pure

theorem createNpArray_quiet {c h o p name} : Quiet (Prog.createNpArray c h o p name) := by
  have dt : ∀ {x d}, Quiet x → Quiet (Prog.withDtype x d) := fun hx => .bind hx fun r => .bind setAttr_quiet fun _ => .pure
  unfold Prog.createNpArray
  split
  · exact dt (.bind mkDset_quiet fun n => .pure)
  · refine dt ?_
    unfold Prog.createStrings
    repeat' split
    all_goals first
      | exact .throw
      | exact createRows_quiet
      | exact .bind mkDset_quiet fun n => .pure
  · refine dt ?_
    unfold Prog.createObjects
    repeat' split
    all_goals first
      | exact .throw
      | exact createRows_quiet
      | exact createListlike_quiet
      | exact .bind mkGroup_quiet fun n => .pure
  · exact .throw

theorem createFn_quiet {c fn h o p name} : Quiet (Prog.createFn c fn h o p name) := by
  unfold Prog.createFn
  split
  · refine .bind ?_ fun n => .pure
    unfold Prog.createScalar
    repeat' split
    all_goals first | exact mkDset_quiet | exact .throw
  · exact .bind mkDset_quiet fun n => .pure
  · exact createListlike_quiet
  · unfold Prog.createSetlike
    repeat' split
    all_goals first
      | exact .throw
      | exact createItems_quiet
      | exact .bind mkDset_quiet fun n => .pure
  · unfold Prog.createDictlike
    split
    · exact .bind mkGroup_quiet fun n => .pure
    · exact .throw
  · refine .bind ?_ fun n => .pure
    unfold Prog.createNpScalar
    split
    · exact .bind mkDset_quiet fun n => .bind setAttr_quiet fun _ => .pure
    · exact .throw
  · exact createNpArray_quiet
  · unfold Prog.createMasked
    split
    · exact .bind mkGroup_quiet fun n => .bind setAttr_quiet fun _ => .pure
    · exact .throw
  · unfold Prog.createSparse
    split
    · split
      · exact .throw
      · exact .bind mkGroup_quiet fun n => .pure
    · exact .throw
  · exact .bind createPickled_quiet fun n => .pure
  all_goals exact .throw

theorem mkDset_sim {kw p n d} : Sim R A (Rel P C) (Prog.mkDset kw p n d) (mkDset kw p n d) := by
  have h := Sim.quiet (R := R) (A := A) (P := P) (C := C) (fun _ _ _ => M.throw .unmodelled) (mkDset_quiet (kw := kw) (p := p) (n := n) (d := d))
  rwa [Prog.run_mkDset] at h
theorem setAttr_sim {n k v} : Sim R A (Rel P C) (Prog.setAttr n k v) (setAttr n k v) := .op fun _ => setAttr_two
theorem setAttrs_sim {n l} : Sim R A (Rel P C) (Prog.setAttrs n l) (setAttrs n l) := .forEach _ fun _ _ => setAttr_sim

theorem baseEntry_sim {c b} : Sim R A (Rel P C) (Prog.baseEntry c b) (baseEntry c b) := by
  unfold Prog.baseEntry baseEntry
  refine .view fun s t h => ?_
  rw [h.fields.2.2.2.2]
  cases Assoc.get? s.blinks b with
  | some n => exact .pure trivial
  | none => exact .bind mkDset_sim fun _ _ => .bind (.op fun _ => .twin fun s r h => ⟨rfl, .mk h, fun _ _ => trivial⟩) fun _ _ => .pure trivial

theorem storeType_sim {c n cls b} : Sim R A (Rel P C) (Prog.storeType c n cls b) (storeType c n cls b) := by
  unfold Prog.storeType storeType
  split
  · exact .pure trivial
  · refine .bind (Q := fun _ => True) ?_ fun _ _ => setAttr_sim
    unfold Prog.typeEntryNode typeEntryNode
    refine .view fun s t h => ?_
    rw [h.fields.2.2.2.1, h.fields.2.1]
    cases Assoc.get? s.tlinks cls with
    | some e => exact .pure trivial
    | none =>
      simp only []
      split
      · exact .throw
      · split
        · exact .throw
        · cases s.store.links c.table with
          | none => exact .throw
          | some ls =>
            exact .bind mkDset_sim fun _ _ => .bind baseEntry_sim fun _ _ => .bind setAttr_sim fun _ _ =>
              .bind (.op fun _ => .twin fun s r h => ⟨rfl, .mk h, fun _ _ => trivial⟩) fun _ _ => .pure trivial

/-- the classes asked for: their loaders are hickle's own and loaded from the beginning; among them those of temporary objects -/
structure Asked (P : Nat → Prop) (env : Env) (C : Cls → Prop) (A : Cls → Option String → Cls × Entry → Prop) : Prop where
  ans : ∀ c b, C c → A c b (expected env c)
  good : ∀ c, C c → GoodCls P env c
  temp : ∀ c, TempCls c → C c

variable {c : DCtx}

theorem ask_sim (hE : EnvOk P c.env) (hm : c.mgr.Dumps) (hC : Asked P c.env C A) {k : Cls} (hk : C k) :
    Sim R A (Rel P C) (Prog.ask c.mgr k none) (onReg (loadLoader c.env c.mgr k none)) := by
  intro s t hst
  obtain ⟨r', e, i, _⟩ := loadLoader_spec hE hm (hC.good k hk) none hst.reg
  refine ⟨hm, _, hC.ans k none hk, ?_⟩
  unfold onReg
  simp only [e]
  exact ⟨rfl, ⟨by rw [hst.same], i, hst.cls⟩, fun _ _ => trivial⟩

theorem dumpCreate_sim (hE : EnvOk P c.env) (hm : c.mgr.Dumps) (hC : Asked P c.env C A) {o : Obj} (ho : C o.cls) {p name} :
    Sim R A (Rel P C) (Prog.dumpCreate c o p name) (dumpCreate c o p name)
      (fun x => ∀ sub ∈ x.2.1, (∃ e, sub = .error e) ∨ ∃ (h : Heap) (sb : Sub), sub = .ok sb ∧ SubOf h o sb.obj) := by
  have h : Sim R A (Rel P C) (Prog.dumpCreate c o p name) (dumpCreate c o p name) := by
    unfold Prog.dumpCreate dumpCreate
    refine .bind (ask_sim hE hm hC ho) fun ce _ => .view fun s t hst => ?_
    rw [hst.fields.1]
    have hq := Sim.quiet (P := P) (C := C) (R := R) (A := A) (Prog.dLook c.env) (createFn_quiet (c := c) (fn := ce.2.fn) (h := s.heap) (o := o) (p := p) (name := name))
    rw [Prog.run_createFn] at hq
    refine .bind hq.attempt fun r _ => ?_
    cases r with
    | ok r => exact .bind storeType_sim fun _ _ => .pure trivial
    | error e =>
      simp only []
      split
      · have hq := Sim.quiet (P := P) (C := C) (R := R) (A := A) (Prog.dLook c.env) (createPickled_quiet (c := c) (o := o) (p := p) (name := name))
        rw [Prog.run_createPickled] at hq
        exact .bind hq fun _ _ => .pure trivial
      · exact .throw
  intro s t hst
  refine (h s t hst).mono ?_
  intro r s' ⟨e, hs', _⟩
  exact ⟨e, hs', fun x hx => dumpCreate_from (e.symm.trans hx)⟩

theorem subAddr_sim (hC : Asked P c.env C A) {h : Heap} {o : Obj} {so : SubObj} (hs : SubOf h o so) : Sim R A (Rel P C) (Prog.subAddr so) (subAddr so) := by
  intro s t hst r _
  have ht := newObjs_temp hs s.heap.length
  have grow : ∀ l : List Obj, (∀ x ∈ l, TempCls x.cls) → ∀ x ∈ s.heap ++ l, C x.cls := by
    intro l hl x hx
    rcases List.mem_append.1 hx with hx | hx
    · exact hst.cls x hx
    · exact hC.temp _ (hl x hx)
  obtain ⟨h1, h2, h3⟩ := hst
  rw [h1]
  cases so with
  | addr a => exact ⟨rfl, rfl, ⟨rfl, h2, h3⟩, fun _ _ => trivial⟩
  | pair k v => exact ⟨rfl, rfl, ⟨rfl, h2, grow _ ht⟩, fun _ _ => trivial⟩
  | nest cl sh ls => exact ⟨rfl, rfl, ⟨rfl, h2, grow _ ht⟩, fun _ _ => trivial⟩

theorem dumpNode_sim (hE : EnvOk P c.env) (hm : c.mgr.Dumps) (hC : Asked P c.env C A) (fuel : Nat) : ∀ a p name attrs,
    Sim R A (Rel P C) (Prog.dumpNode c fuel a p name attrs) (dumpNode c fuel a p name attrs) := by
  induction fuel with
  | zero => exact fun a p name attrs => .throw
  | succ fuel ih =>
    intro a p name attrs
    simp only [Prog.dumpNode, dumpNode]
    refine .view fun s t hst => ?_
    rw [hst.fields.1, hst.fields.2.2.1]
    cases Assoc.get? s.memo a with
    | some n => exact .bind mkDset_sim fun n _ => setAttrs_sim
    | none =>
      simp only []
      cases ho : s.heap[a]? with
      | none => exact .throw
      | some o =>
        simp only []
        have hc := hst.cls o (List.mem_of_getElem? ho)
        refine .bind (dumpCreate_sim hE hm hC hc) fun r hr => .bind setAttrs_sim fun _ _ => .bind (Q := fun _ => True) ?_ fun _ _ => .forEach _ fun sub hmem => ?_
        · split
          · exact .op fun _ => .twin fun s r h => ⟨rfl, .mk h, fun _ _ => trivial⟩
          · exact .pure trivial
        · rcases hr sub hmem with ⟨e, rfl⟩ | ⟨h, sb, rfl, hso⟩
          · exact .throw
          · exact .bind (subAddr_sim hC hso) fun b _ => ih b _ _ _

/-! ### whole calls -/

/-- the states of a call in a thread and of the same call done alone -/
structure FRel (G : Registry → Prop) (I : Store → Prop) {τ : Type} (s : Session × τ) (t : Session) : Prop where
  same : t = { s.1 with reg := t.reg }
  reg : G t.reg
  file : I s.1.store

variable {G : Registry → Prop} {I : Store → Prop} {τ : Type}

/-- a computation that does not look at the registry -/
def FBlind {α : Type} (x : SM α) : Prop := ∀ (s : Session) (r : Registry), x { s with reg := r } = ((x s).1, { (x s).2 with reg := r })

section
variable {α β : Type}

theorem Sim.fop {io : Bool} {x : SM α} {Q : α → Prop} (h : FBlind x) (hI : ∀ s, I s.store → I (x s).2.store ∧ ∀ a, (x s).1 = .ok a → Q a) :
    Sim R A (FRel G I (τ := τ)) (Prog.op io (Prog.onS x)) x Q := by
  intro s t hst r _
  obtain ⟨s1, s2⟩ := s
  have h1 := h s1 r
  have h2 := h s1 t.reg
  rw [show ({ s1 with reg := t.reg } : Session) = t from hst.same.symm] at h2
  obtain ⟨h3, h4⟩ := hI s1 hst.file
  refine ⟨?_, ?_, ⟨?_, ?_, ?_⟩, ?_⟩
  · show (x { s1 with reg := r }).2.reg = r
    rw [h1]
  · show (x { s1 with reg := r }).1 = _
    rw [h1, h2]
  · show (x t).2 = { (x { s1 with reg := r }).2 with reg := (x t).2.reg }
    rw [h1, h2]
  · rw [h2]; exact hst.reg
  · show I (x { s1 with reg := r }).2.store
    rw [h1]; exact h3
  · show ∀ a, (x { s1 with reg := r }).1 = .ok a → Q a
    rw [h1]; exact h4

theorem FRel.wr {s : Session × τ} {t : Session} (h : FRel G I s t) (r : Registry) : FRel G I (withReg s r) t := ⟨by rw [h.same]; rfl, h.reg, h.file⟩

theorem Sim.fview {f : Session × τ → Prog (Session × τ) α} {y : Session → SM α} {Q : α → Prop} (h : ∀ s t, FRel G I s t → Sim R A (FRel G I) (f s) (y t) Q) :
    Sim R A (FRel G I) (Prog.view >>= f) (M.get >>= y) Q := .view' (fun _ _ => rfl) (fun _ _ r h => h.wr r) fun s t hst _ => h s t hst

theorem Par.within {p : Prog DState α} : ∀ {d : DState} {s : Call} {Q : Except PyErr α → DState → Prop} {Q' : Except PyErr α → Call → Prop}, Par R A p d Q →
    { s.2 with store := s.1.store, reg := d.reg } = d → (∀ r d' s', Q r d' → s'.1 = { s.1 with store := d'.store, reg := s'.1.reg } → Q' r s') →
    Par R A (Prog.within p) s Q' := by
  induction p with
  | ret r =>
    intro d s Q Q' h hd hq
    refine hq r d s h ?_
    obtain ⟨s1, s2⟩ := s
    rw [← hd]
  | act io x k ih =>
    intro d s Q Q' h hd hq r hr
    obtain ⟨s1, s2⟩ := s
    obtain ⟨h1, h2⟩ := h r hr
    have he : (wr d r : DState) = { s2 with store := s1.store, reg := r } := by rw [← hd]; rfl
    rw [he] at h1 h2
    refine ⟨h1, ih _ h2 rfl ?_⟩
    intro r' d' s' hq' hs'
    exact hq r' d' s' hq' hs'
  | look m c b k ih =>
    intro d s Q Q' ⟨hm, ans, ha, h⟩ hd hq
    exact ⟨hm, ans, ha, ih _ h hd hq⟩

end

theorem dumpGroup_blind (path) : FBlind (dumpGroup path) := by
  intro s r
  unfold dumpGroup
  cases pathOk path with
  | error e => rfl
  | ok u =>
    simp only []
    cases s.store.resolve 0 path with
    | some g =>
      simp only []
      cases s.store.links g with
      | none => rfl
      | some l => cases l <;> rfl
    | none =>
      simp only []
      cases s.store.mkPath 0 path with
      | error e => rfl
      | ok y => rfl

theorem refInit_blind {env g} : FBlind (refInit env g) := by
  intro s r
  unfold refInit
  simp only []
  cases s.store.links g with
  | none => rfl
  | some ls =>
    simp only []
    cases Assoc.get? ls tableName with
    | none =>
      simp only []
      cases hw : s.writable with
      | false => simp [hw]
      | true =>
        simp only [if_true]
        cases s.store.create g tableName (.group []) with
        | error e => simp [hw]
        | ok y => simp
    | some T =>
      simp only []
      cases s.store.links T with
      | none => rfl
      | some es =>
        simp only []
        cases hw : s.writable with
        | false => simp [hw]
        | true => simp [hw]

/-- nothing is asked of the file -/
abbrev AnyFile : Store → Prop := fun _ => True

theorem Sim.dop {α : Type} {io : Bool} {x : SM α} (h : FBlind x) : Sim R A (FRel G AnyFile (τ := τ)) (Prog.op io (Prog.onS x)) x := .fop h fun _ _ => ⟨trivial, fun _ _ => trivial⟩

theorem setOptions_sim {g : NodeId} : ∀ (os : List (String × Bool)) (maps : List Opt), (∃ pre, maps = pre ++ [none] ∧ ∀ o ∈ pre, o = some "custom" ∨ o = some "hickle-4.x") →
    Sim R A (FRel G AnyFile (τ := τ)) (Prog.setOptions g os maps) (setOptions g os maps) (fun maps => Manager.Dumps ⟨maps⟩)
  | [], maps, hm => .pure hm
  | (k, on) :: os, maps, hm => by
    rw [Prog.setOptions, setOptions]
    split
    · next hon =>
      refine .bind (Q := fun _ => True) (.dop fun _ _ => rfl) fun _ _ => ?_
      split
      · next hv =>
        refine setOptions_sim os _ ?_
        obtain ⟨pre, rfl, hp⟩ := hm
        refine ⟨some k :: pre, rfl, ?_⟩
        intro o ho
        rcases List.mem_cons.1 ho with rfl | ho
        · unfold validOption at hv
          simp only [Bool.or_eq_true, decide_eq_true_eq] at hv
          rcases hv with rfl | rfl
          · exact .inl rfl
          · exact .inr rfl
        · exact hp o ho
      · exact .throw
    · exact setOptions_sim os maps hm

theorem gap_sim {α : Type} {p : Prog (Session × τ) α} {x : SM α} {Q : α → Prop} (h : Sim R A (FRel G I) p x Q) : Sim R A (FRel G I) (Prog.op false (pure ()) >>= fun _ => p) x Q := by
  intro s t hst r _
  exact ⟨rfl, h _ _ (hst.wr r)⟩

theorem loaderEnter_sim {g : NodeId} {os} : Sim R A (FRel G AnyFile (τ := τ)) (Prog.loaderEnter g (some os)) (loaderEnter g (some os)) (fun m => m.Dumps) := by
  unfold Prog.loaderEnter loaderEnter
  refine .fview fun s t h => ?_
  rw [show t.ldr = s.1.ldr by rw [h.same]]
  split
  · exact .throw
  · exact .bind (setOptions_sim os [none] ⟨[], rfl, by simp⟩) fun maps hmaps => .bind (Q := fun _ => True) (.dop fun _ _ => rfl) fun _ _ => gap_sim (.pure hmaps)

theorem refEnter_sim {env' : Env} {g : NodeId} : Sim R A (FRel G AnyFile (τ := τ)) (Prog.refEnter env' g) (refEnter env' g) := by
  unfold Prog.refEnter refEnter
  refine .fview fun s t h => ?_
  rw [show t.ref = s.1.ref by rw [h.same]]
  split
  · exact .throw
  · exact .bind (.dop refInit_blind) fun maps hmaps => .bind (Q := fun _ => True) (.dop fun _ _ => rfl) fun _ _ => gap_sim (.pure trivial)

theorem dumpData_sim {a : DumpArgs} {g m} {mgr : Manager} (hE : EnvOk P a.env) (hm : mgr.Dumps) (hC : Asked P a.env C A) (hc : ∀ o ∈ a.heap, C o.cls) :
    Sim R A (FRel (RegInv P) AnyFile) (Prog.dumpData a g mgr m) (dumpData a g mgr m) := by
  intro s t hst
  unfold Prog.dumpData dumpData
  cases m.table with
  | none => exact ⟨rfl, hst, fun _ _ => trivial⟩
  | some T =>
    simp only []
    refine Par.bind ?_
    intro r _
    refine ⟨rfl, ?_⟩
    obtain ⟨s1, s2⟩ := s
    have h := dumpNode_sim (R := R) (c := ⟨a.env, mgr, a.kw, T⟩) hE hm hC a.fuel a.obj g dataName0 []
      { heap := a.heap, store := s1.store, tlinks := m.tl, blinks := m.bl, reg := r } { heap := a.heap, store := t.store, tlinks := m.tl, blinks := m.bl, reg := t.reg }
      ⟨by rw [show t.store = s1.store by rw [hst.same]], hst.reg, hc⟩
    refine h.within rfl ?_
    intro r' d' s' ⟨e, hd', _⟩ hs'
    refine ⟨e, ⟨?_, hd'.reg, trivial⟩, fun _ _ => trivial⟩
    rw [hs']
    have := hd'.fields.2.1
    obtain ⟨w, l, rf⟩ : t.writable = s1.writable ∧ t.ldr = s1.ldr ∧ t.ref = s1.ref := by rw [hst.same]; exact ⟨rfl, rfl, rfl⟩
    simp only [this, w, l, rf]
    rfl

theorem dumpTop_sim {a : DumpArgs} (hE : EnvOk P a.env) (hC : Asked P a.env C A) (hc : ∀ o ∈ a.heap, C o.cls) {os} (hos : a.options = some os) :
    Sim R A (FRel (RegInv P) AnyFile) (Prog.dumpTop a) (dumpTop a) := by
  unfold Prog.dumpTop dumpTop
  refine .fview fun s t h => ?_
  rw [show t.writable = s.1.writable by rw [h.same]]
  split
  · exact .throw
  · rw [hos]
    exact .bind (.dop (dumpGroup_blind _)) fun g _ => .bind (Q := fun _ => True) (.dop fun _ _ => rfl) fun _ _ => .bind (Q := fun _ => True) (.dop fun _ _ => rfl) fun _ _ =>
      .bind loaderEnter_sim fun mgr hmgr => .finally (.bind refEnter_sim fun m _ => .finally (dumpData_sim hE hmgr hC hc) (.dop fun _ _ => rfl)) (.dop fun _ _ => rfl)

end Verif.Threads
