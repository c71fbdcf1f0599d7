import Verif.Hickle.LoadBlind
import Verif.Hickle.ThreadsLoad
/-!
# A load in two processes

The registries of the two processes may differ: one may have just started, the other may have dumped and loaded before.
-/
namespace Verif

variable {P : Nat → Prop} {env : Env} {c : LCtx}

/-- a type as hickle writes it: an ordinary class with the base type of its loader, or with a base type hickle's core knows -/
def UsualType (P : Nat → Prop) (env : Env) (c : Cls) (b : String) : Prop :=
  GoodCls P env c ∧ (b = (expected env c).2.base ∨ ∃ f k, stdBase b = some (none, f, k))

/-- both registries are as hickle leaves them -/
def BothInv (P : Nat → Prop) (ra rb : Registry) : Prop := RegInv P ra ∧ RegInv P rb

/-- two states of a load that differ in the registries -/
abbrev LRegs (P : Nat → Prop) (env : Env) : LState → LState → Prop := LTwin (LJ (UsualType P env) (BothInv P))

/-- `x` does the same in `s` and `t` -/
def TwoAt {σ α : Type} (R : σ → σ → Prop) (x : M σ α) (s t : σ) (Q : α → Prop) : Prop := (x s).1 = (x t).1 ∧ R (x s).2 (x t).2 ∧ ∀ a, (x s).1 = .ok a → Q a

theorem TwoAt.bind {σ α β : Type} {R : σ → σ → Prop} {x : M σ α} {f : α → M σ β} {Q : α → Prop} {Q' : β → Prop} {s t : σ} (hx : TwoAt R x s t Q) (hf : ∀ a, Q a → Two R (f a) Q') :
    TwoAt R (x >>= f) s t Q' := by
  obtain ⟨h1, h2, h3⟩ := hx
  unfold TwoAt
  rw [M.bind_apply, M.bind_apply]
  rcases hs : x s with ⟨r, s'⟩
  rcases ht : x t with ⟨r', t'⟩
  rw [hs, ht] at h1 h2
  rw [hs] at h3
  simp only at h1
  subst h1
  cases r with
  | ok a => exact hf a (h3 a rfl) s' t' h2
  | error e => exact ⟨rfl, h2, by simp⟩

/-- the loader registry is asked: both answers are the same, and the base type is known afterwards -/
theorem askL_two (hE : EnvOk P c.env) (hm : c.mgr.Ok) {r : Resolved} (hr : ROk (UsualType P c.env) r) {α : Type} {f : Cls × Entry → LM α} {Q : α → Prop}
    (h : ∀ ce s t, LRegs P c.env s t → BaseReady s.reg r.base → BaseReady t.reg r.base → TwoAt (LRegs P c.env) (f ce) s t Q) :
    Two (LRegs P c.env) (lOnReg (loadLoader c.env c.mgr r.cls (some r.base)) >>= f) Q := by
  intro s t ⟨h1, h2, h3, h4⟩
  rcases hr with ⟨hk, hb⟩ | ⟨e1, e2⟩
  · obtain ⟨ra, ea, ia, _, ba⟩ := loadLoader_spec hE hm.dumps hk (some r.base) h3
    obtain ⟨rb, eb, ib, _, bb⟩ := loadLoader_spec hE hm.dumps hk (some r.base) h4
    have e1 : lOnReg (loadLoader c.env c.mgr r.cls (some r.base)) s = (.ok (expected c.env r.cls), { s with reg := ra }) := by
      unfold lOnReg; simp only [ea]
    have e2 : lOnReg (loadLoader c.env c.mgr r.cls (some r.base)) t = (.ok (expected c.env r.cls), { t with reg := rb }) := by
      unfold lOnReg; simp only [eb]
    rw [M.bind_apply, M.bind_apply, e1, e2]
    refine h _ _ _ ⟨by rw [h1], h2, ia, ib⟩ ?_ ?_
    · rcases hb with hb | ⟨f, k, hb⟩
      · rw [hb]; exact ba
      · exact ⟨none, f, k, hb, rfl⟩
    · rcases hb with hb | ⟨f, k, hb⟩
      · rw [hb]; exact bb
      · exact ⟨none, f, k, hb, rfl⟩
  · have ea : lOnReg (loadLoader c.env c.mgr r.cls (some r.base)) s = (.ok (.recover, ⟨.notDumpable, "!recover!", true⟩), s) := by
      unfold lOnReg; rw [e1, e2, loadLoader_recover h3 hm]
    have eb : lOnReg (loadLoader c.env c.mgr r.cls (some r.base)) t = (.ok (.recover, ⟨.notDumpable, "!recover!", true⟩), t) := by
      unfold lOnReg; rw [e1, e2, loadLoader_recover h4 hm]
    rw [M.bind_apply, M.bind_apply, ea, eb]
    exact h _ _ _ ⟨h1, h2, h3, h4⟩ (by rw [e2]; exact ⟨none, _, _, rfl, rfl⟩) (by rw [e2]; exact ⟨none, _, _, rfl, rfl⟩)

theorem usual_object : UsualType P env .object "pickle" := ⟨Threads.known_object (r0 := {}) |>.1, .inr ⟨_, _, rfl⟩⟩
theorem usual_nodeRef : UsualType P env .nodeRef "!node-reference!" := ⟨Threads.known_nodeRef (r0 := {}) |>.1, .inr ⟨_, _, rfl⟩⟩

theorem Two.foldEach {σ α β : Type} {R : σ → σ → Prop} {f : β → α → M σ β} (h : ∀ b x, Two R (f b x)) : ∀ (xs : List α) (b : β), Two R (M.foldEach f b xs)
  | [], b => .pure trivial
  | x :: xs, b => .bind (h b x) fun b' _ => Two.foldEach h xs b'

theorem loadNode_two (hE : EnvOk P c.env) (hm : c.mgr.Ok) (hS : FileIs c.env (UsualType P c.env) c.store) (fuel : Nat) : ∀ cont name n, Two (LRegs P c.env) (loadNode c fuel cont name n) := by
  induction fuel with
  | zero => exact fun _ _ _ => .throw _
  | succ fuel ih =>
    intro cont name n
    simp only [loadNode]
    cases hn : c.store[n]? with
    | none => exact .throw _
    | some node =>
      have hmem := List.mem_of_getElem? hn
      refine .get (fun s t h => by rw [show t.memo = s.memo by rw [h.1]]) fun s _ _ => ?_
      cases Assoc.get? s.memo n with
      | some a => exact contAppend_two
      | none =>
        refine .bind (Q := fun _ => True) ?_ fun r _ => ?_
        · unfold loadObj
          refine .bind (resolveType_two usual_object usual_nodeRef hS hmem) fun r hr => askL_two hE hm hr fun ce s t hst hbs hbt => ?_
          refine TwoAt.bind (Q := fun _ => True) ?_ fun _ _ => .pure trivial
          obtain ⟨q, f, k, hb, hl⟩ := hbs
          obtain ⟨q', f', k', hb', hl'⟩ := hbt
          rw [hb] at hb'
          simp only [Option.some.injEq, Prod.mk.injEq] at hb'
          obtain ⟨rfl, rfl, rfl⟩ := hb'
          unfold TwoAt loadBody
          simp only [M.bind_of_ok (M.get_apply _)]
          rw [BaseReady.loadFn hst.2.2.1 hm ⟨q, f, k, hb, hl⟩ hb, BaseReady.container hst.2.2.1 hm ⟨q, f, k, hb, hl⟩ hb,
            BaseReady.loadFn hst.2.2.2 hm ⟨q, f, k, hb, hl'⟩ hb, BaseReady.container hst.2.2.2 hm ⟨q, f, k, hb, hl'⟩ hb]
          split
          · exact (Two.bind mkCont_two fun sub _ => .bind contFilter_two fun items _ => .bind (.foldEach (fun b (x : PyStr × NodeId) => ih b x.1 x.2) _ _) fun _ _ => contConvert_two) s t hst
          · cases node.body with
            | dset d => exact loadData_two s t hst
            | group ls => exact Two.throw (Q := fun _ => True) _ s t hst
        · unfold loadFinish
          refine .bind contAppend_two fun cont' _ => ?_
          split
          · refine .bind (Q := fun _ => True) (.modify (fun s t h => ?_) trivial) fun _ _ => .pure trivial
            exact ⟨by rw [h.1], h.2⟩
          · exact .pure trivial

/-! ### whole calls -/

/-- two processes with the same file, in which all types are usual ones -/
structure UsualFile (P : Nat → Prop) (env : Env) (s t : Session) : Prop where
  same : t = { s with reg := t.reg }
  left : RegInv P s.reg
  right : RegInv P t.reg
  file : FileIs env (UsualType P env) s.store

theorem Two.blind {α : Type} {x : SM α} {Q : α → Prop} (h : Threads.FBlind x) (hI : ∀ s, FileIs env (UsualType P env) s.store → FileIs env (UsualType P env) (x s).2.store ∧ ∀ a, (x s).1 = .ok a → Q a) :
    Two (UsualFile P env) x Q := by
  intro s t hst
  have h1 := h s t.reg
  rw [← hst.same] at h1
  have h2 := h s s.reg
  have hreg : (x s).2.reg = s.reg := by
    have : x s = ((x s).1, { (x s).2 with reg := s.reg }) := h2
    rw [this]
  rw [h1]
  exact ⟨rfl, ⟨rfl, by rw [hreg]; exact hst.left, hst.right, (hI s hst.file).1⟩, (hI s hst.file).2⟩

theorem Two.finally {σ α : Type} {R : σ → σ → Prop} {x : M σ α} {fin : M σ Unit} (hx : Two R x) (hf : Two R fin) : Two R (finally' x fin) := by
  unfold finally'
  exact .bind hx.attempt fun r _ => .bind hf fun _ _ => .ofExcept fun _ _ => trivial

theorem loadBodyTop_two {a : LoadArgs} {g : NodeId} {mgr : Manager} {m : RefMgr} (hE : EnvOk P a.env) (hm : mgr.Ok) (htc : ∀ p ∈ m.tc, TiOk (UsualType P a.env) p.2) :
    Two (UsualFile P a.env) (loadBodyTop a g mgr m) := by
  intro s t hst
  unfold loadBodyTop
  rw [show t.store = s.store by rw [hst.same]]
  cases s.store.links g with
  | none => exact ⟨rfl, hst, fun _ _ => trivial⟩
  | some ls =>
    simp only []
    cases Assoc.get? ls dataName0 with
    | none => exact ⟨rfl, hst, fun _ _ => trivial⟩
    | some d =>
      simp only []
      have h := loadNode_two (c := ⟨a.env, mgr, s.store, a.order⟩) hE hm hst.file a.fuel (.root []) dataName0 d
        { heap := loadHeap, tcache := m.tc, reg := s.reg } { heap := loadHeap, tcache := m.tc, reg := t.reg } ⟨rfl, htc, hst.left, hst.right⟩
      revert h
      generalize loadNode ⟨a.env, mgr, s.store, a.order⟩ a.fuel (.root []) dataName0 d { heap := loadHeap, tcache := m.tc, reg := s.reg } = x
      generalize loadNode ⟨a.env, mgr, s.store, a.order⟩ a.fuel (.root []) dataName0 d { heap := loadHeap, tcache := m.tc, reg := t.reg } = y
      obtain ⟨x1, x2⟩ := x
      obtain ⟨y1, y2⟩ := y
      rintro ⟨e, ⟨hh, _, h1, h2⟩, _⟩
      simp only at e hh
      subst e
      have hfin : UsualFile P a.env { s with reg := x2.reg } { t with store := s.store, reg := y2.reg } := by
        refine ⟨?_, h1, h2, hst.file⟩
        rw [show t.writable = s.writable by rw [hst.same], show t.ldr = s.ldr by rw [hst.same], show t.ref = s.ref by rw [hst.same]]
      have hheap : y2.heap = x2.heap := by rw [hh]
      simp only [hheap]
      cases x1 with
      | error e => exact ⟨rfl, hfin, fun _ _ => trivial⟩
      | ok cont =>
        cases cont with
        | root l => cases l <;> exact ⟨rfl, hfin, fun _ _ => trivial⟩
        | _ => exact ⟨rfl, hfin, fun _ _ => trivial⟩

theorem loaderEnterL_two {g : NodeId} : Two (UsualFile P env) (loaderEnter g none) (fun m => m.Ok) := by
  unfold loaderEnter
  refine .get (fun s t h => by rw [show t.ldr = s.ldr by rw [h.same]]) fun s _ _ => ?_
  split
  · exact .throw _
  · refine .bind (Q := fun maps => Manager.Ok ⟨maps⟩) (.blind ?_ ?_) fun maps hmaps => .bind (Q := fun _ => True) (.blind (fun _ _ => rfl) fun _ h => ⟨h, fun _ _ => trivial⟩) fun _ _ => .pure hmaps
    · intro s r
      rw [optionMaps_none, optionMaps_none]
    · intro s hs
      rw [optionMaps_none]
      refine ⟨hs, fun maps hmaps => Threads.optMaps_ready _ [none] ?_ ⟨[], rfl, by simp⟩ maps hmaps⟩
      unfold Store.attrs
      cases hg : s.store[g]? with
      | none => simp [attrOptions, attrItems]
      | some n => exact hs.options n (List.mem_of_getElem? hg)

theorem refEnterL_two {g : NodeId} : Two (UsualFile P env) (refEnter env g) (fun m => ∀ p ∈ m.tc, TiOk (UsualType P env) p.2) := by
  unfold refEnter
  refine .get (fun s t h => by rw [show t.ref = s.ref by rw [h.same]]) fun s _ _ => ?_
  split
  · exact .throw _
  · exact .bind (.blind Threads.refInit_blind refInit_types) fun m hm => .bind (Q := fun _ => True) (.blind (fun _ _ => rfl) fun _ h => ⟨h, fun _ _ => trivial⟩) fun _ _ => .pure hm

/-- **a load does the same in both processes** -/
theorem loadTop_two {a : LoadArgs} (hE : EnvOk P a.env) : Two (UsualFile P a.env) (loadTop a) := by
  have h : Two (UsualFile P a.env) (loadTry a) := by
    unfold loadTry
    refine .get (fun s t h => by rw [show t.store = s.store by rw [h.same]]) fun s _ _ => ?_
    repeat' split
    all_goals first
      | exact .throw _
      | exact .bind loaderEnterL_two fun mgr hmgr => .finally (.bind refEnterL_two fun m hm => .finally (loadBodyTop_two hE hmgr hm) (.blind (fun _ _ => rfl) fun _ h => ⟨h, fun _ _ => trivial⟩))
          (.blind (fun _ _ => rfl) fun _ h => ⟨h, fun _ _ => trivial⟩)
  unfold loadTop
  refine .bind h.attempt fun r _ => ?_
  cases r with
  | ok x => exact .pure trivial
  | error e => exact .throw _

end Verif
