import Verif.Hickle.ThreadsSys
import Verif.Hickle.StepLoad
import Verif.Hickle.LoadBlind
/-!
# The steps of a load, whatever the other threads do

As `ThreadsPar.lean` for dumps.  A load looks into the tables of the registry itself, for the container class or load function of a base
type: there it matters that the entries of hickle's own base types stay as they are once they have been made.
-/
namespace Verif

namespace Threads

variable {P : Nat → Prop} {r0 : Registry} {env : Env}

/-! ### files whose types are known -/

/-- a type a load can make use of: its class is ordinary, and its loaders as well as those of its base type are there -/
def HasType (P : Nat → Prop) (r0 : Registry) (env : Env) (c : Cls) (b : String) : Prop := Known P r0 env c ∧ BaseReady r0 b

/-- the loaders of all types in the file are there, and no group asks for the loaders of version 4.0 -/
abbrev FileReady (P : Nat → Prop) (r0 : Registry) (env : Env) (S : Store) : Prop := FileIs env (HasType P r0 env) S

/-! ### `_load` -/

open HasReg (rd wr)

instance : HasReg LState := ⟨fun s => s.reg, fun s r => { s with reg := r }⟩

/-- the states of a load in a thread and of the same load done alone -/
structure LRel (P : Nat → Prop) (r0 : Registry) (env : Env) (s t : LState) : Prop where
  same : t = { s with reg := t.reg }
  reg : RegInv P t.reg
  le : RegLe r0 t.reg
  types : ∀ p ∈ s.tcache, TiOk (HasType P r0 env) p.2

variable {A : Cls → Option String → Cls × Entry → Prop} {α : Type}

/-- steps of a load in a thread that do what `x` does alone -/
abbrev LSim (P : Nat → Prop) (r0 : Registry) (env : Env) (p : Prog LState α) (x : LM α) (Q : α → Prop := fun _ => True) : Prop :=
  Sim (Shared P r0) (Ans P r0 env) (LRel P r0 env) p x Q

/-- the registries: one that other threads have put in, one of a process that loads alone -/
def LK (P : Nat → Prop) (r0 r : Registry) (ra rb : Registry) : Prop := ra = r ∧ RegInv P rb ∧ RegLe r0 rb

theorem Sim.lop {io : Bool} {x : LM α} {Q : α → Prop} (h : ∀ r, Two (LTwin (LJ (HasType P r0 env) (LK P r0 r))) x Q) : LSim P r0 env (Prog.op io x) x Q := by
  intro s t hst r _
  obtain ⟨h1, ⟨h2, h3, h4, h5, h6⟩, h7⟩ := h r { s with reg := r } t ⟨by rw [hst.same], hst.types, rfl, hst.reg, hst.le⟩
  exact ⟨h4, h1, ⟨h2, h5, h6, h3⟩, h7⟩

theorem Sim.lview {f : LState → Prog LState α} {y : LState → LM α} {Q : α → Prop} (h : ∀ s t, LRel P r0 env s t → Shared P r0 s.reg → LSim P r0 env (f s) (y t) Q) :
    LSim P r0 env (Prog.view >>= f) (M.get >>= y) Q :=
  .view' (fun _ _ => rfl) (fun _ _ r h => ⟨by rw [h.same]; rfl, h.reg, h.le, h.types⟩) h

theorem known_object : Known P r0 env .object := by
  refine ⟨?_, .of_all ?_⟩
  · intro k hk
    simp only [Cls.mro, List.mem_singleton] at hk; subst hk
    exact ⟨trivial, .inl ⟨_, rfl⟩⟩
  · intro k hk q e hs
    simp only [Cls.mro, List.mem_singleton] at hk; subst hk
    simp [stdReg] at hs

theorem known_nodeRef : Known P r0 env .nodeRef := by
  refine ⟨?_, .of_all ?_⟩
  · intro k hk
    simp only [Cls.mro, List.mem_cons, List.not_mem_nil, or_false] at hk
    rcases hk with rfl | rfl
    · exact ⟨trivial, .inr rfl⟩
    · exact ⟨trivial, .inl ⟨_, rfl⟩⟩
  · intro k hk q e hs
    simp only [Cls.mro, List.mem_cons, List.not_mem_nil, or_false] at hk
    rcases hk with rfl | rfl
    · simp [stdReg] at hs; rw [← hs.1]; rfl
    · simp [stdReg] at hs

variable {c : LCtx}

theorem askL_sim (hE : EnvOk P c.env) (hm : c.mgr.Ok) {r : Resolved} (hr : ROk (HasType P r0 c.env) r) :
    LSim P r0 c.env (Prog.ask c.mgr r.cls (some r.base)) (lOnReg (loadLoader c.env c.mgr r.cls (some r.base))) := by
  intro s t hst
  rcases hr with ⟨hk, _⟩ | ⟨h1, h2⟩
  · obtain ⟨r', e, i, le, _⟩ := loadLoader_spec hE hm.dumps hk.1 (some r.base) hst.reg
    refine ⟨hm.dumps, _, .inl ⟨hk, rfl⟩, ?_⟩
    unfold lOnReg
    simp only [e]
    exact ⟨rfl, ⟨by rw [hst.same], i, hst.le.trans le, hst.types⟩, fun _ _ => trivial⟩
  · refine ⟨hm.dumps, recoverAnswer, .inr ⟨h1, by rw [h2], rfl⟩, ?_⟩
    unfold lOnReg
    rw [h1, h2, loadLoader_recover hst.reg hm]
    exact ⟨rfl, hst, fun _ _ => trivial⟩

theorem Shared.loadFn {r : Registry} (h : Shared P r0 r) {m : Manager} (hm : m.Ok) {b q f k} (hb : stdBase b = some (q, f, k)) (hl : isLoaded r0 q = true) : m.loadFn r b = f := by
  unfold Manager.loadFn
  rw [chainOf_eq hm r _ b (h.cfns b (by simp [hb]))]
  exact h.fns b q f k hb hl

theorem Shared.container {r : Registry} (h : Shared P r0 r) {m : Manager} (hm : m.Ok) {b q f k} (hb : stdBase b = some (q, f, k)) (hl : isLoaded r0 q = true) : m.container r b = k := by
  unfold Manager.container
  rw [chainOf_eq hm r _ b (h.cconts b (by simp [hb]))]
  exact h.conts b q f k hb hl

theorem loadNode_sim (hE : EnvOk P c.env) (hm : c.mgr.Ok) (hS : FileReady P r0 c.env c.store) (fuel : Nat) : ∀ cont name n,
    LSim P r0 c.env (Prog.loadNode c fuel cont name n) (loadNode c fuel cont name n) := by
  induction fuel with
  | zero => exact fun _ _ _ => .throw
  | succ fuel ih =>
    intro cont name n
    simp only [Prog.loadNode, loadNode]
    cases hn : c.store[n]? with
    | none => exact .throw
    | some node =>
      have hmem := List.mem_of_getElem? hn
      refine .lview fun s t hst hsh => ?_
      rw [show t.memo = s.memo by rw [hst.same]]
      cases Assoc.get? s.memo n with
      | some a => exact .lop fun _ => contAppend_two
      | none =>
        refine .bind (Q := fun _ => True) ?_ fun r _ => ?_
        · unfold Prog.loadObj loadObj
          refine .bind (.lop fun _ => resolveType_two ⟨known_object, none, _, _, rfl, rfl⟩ ⟨known_nodeRef, none, _, _, rfl, rfl⟩ hS hmem) fun r hr => .bind (askL_sim hE hm hr) fun ce _ => .bind (Q := fun _ => True) ?_ fun _ _ => .pure trivial
          unfold Prog.loadBody loadBody
          refine .lview fun s t hst hsh => ?_
          obtain ⟨q, f, k, hb, hl⟩ : BaseReady r0 r.base := by
            rcases hr with h | ⟨_, h⟩
            · exact h.2
            · rw [h]; exact ⟨none, _, _, rfl, rfl⟩
          have hbt := BaseReady.mono hst.le ⟨q, f, k, hb, hl⟩
          rw [hsh.loadFn hm hb hl, hsh.container hm hb hl, hbt.loadFn hst.reg hm hb, hbt.container hst.reg hm hb]
          split
          · exact .bind (.lop fun _ => mkCont_two) fun sub _ => .bind (.lop fun _ => contFilter_two) fun items _ =>
              .bind (.foldEach _ (fun b x _ => ih b x.1 x.2) _) fun _ _ => .lop fun _ => contConvert_two
          · cases node.body with
            | dset d => exact .lop fun _ => loadData_two
            | group ls => exact .throw
        · unfold Prog.loadFinish loadFinish
          refine .bind (.lop fun _ => contAppend_two) fun cont' _ => ?_
          split
          · refine .bind (Q := fun _ => True) (.lop fun _ => .modify (fun s t h => ?_) trivial) fun _ _ => .pure trivial
            exact ⟨by rw [h.1], h.2⟩
          · exact .pure trivial

/-! ### whole calls -/

theorem Par.withinL {R : Registry → Prop} {p : Prog LState α} : ∀ {d : LState} {s : Prog.LCall} {Q : Except PyErr α → LState → Prop} {Q' : Except PyErr α → Prog.LCall → Prop},
    Par R A p d Q → { s.2 with reg := d.reg } = d →
    (∀ r d' s', Q r d' → s'.1 = { s.1 with reg := s'.1.reg } → s'.2.heap = d'.heap → Q' r s') → Par R A (Prog.withinL p) s Q' := by
  induction p with
  | ret r =>
    intro d s Q Q' h hd hq
    refine hq r d s h rfl ?_
    rw [← hd]
  | act io x k ih =>
    intro d s Q Q' h hd hq r hr
    obtain ⟨s1, s2⟩ := s
    obtain ⟨h1, h2⟩ := h r hr
    have he : (wr d r : LState) = { s2 with reg := r } := by rw [← hd]; rfl
    rw [he] at h1 h2
    refine ⟨h1, ih _ h2 rfl ?_⟩
    intro r' d' s' hq' hs' hh
    exact hq r' d' s' hq' hs' hh
  | look m c b k ih =>
    intro d s Q Q' ⟨hm, ans, ha, h⟩ hd hq
    exact ⟨hm, ans, ha, ih _ h hd hq⟩

/-- the registry of the process that loads alone -/
def LG (P : Nat → Prop) (r0 r : Registry) : Prop := RegInv P r ∧ RegLe r0 r

/-- steps of a call of `load` that do what `x` does alone -/
abbrev LFSim (P : Nat → Prop) (r0 : Registry) (env : Env) (p : Prog Prog.LCall α) (x : SM α) (Q : α → Prop := fun _ => True) : Prop :=
  Sim (Shared P r0) (Ans P r0 env) (FRel (LG P r0) (FileReady P r0 env)) p x Q

theorem optMaps_ready : ∀ (os : List String) (maps : List Opt), "hickle-4.x" ∉ os → Manager.Ok ⟨maps⟩ → ∀ maps', optMaps os maps = .ok maps' → Manager.Ok ⟨maps'⟩ := by
  intro os
  induction os with
  | nil => intro maps _ hm maps' h; simp only [optMaps, Except.ok.injEq] at h; rw [← h]; exact hm
  | cons k os ih =>
    intro maps hos hm maps' h
    simp only [optMaps] at h
    split at h
    · next hv =>
      refine ih _ (fun h => hos (by simp [h])) ?_ maps' h
      obtain ⟨pre, h1, h2⟩ := hm
      simp only at h1
      refine ⟨some k :: pre, by simp [h1], ?_⟩
      intro o ho
      rcases List.mem_cons.1 ho with rfl | ho
      · unfold validOption at hv
        simp only [Bool.or_eq_true, decide_eq_true_eq] at hv
        rcases hv with rfl | rfl
        · rfl
        · simp at hos
      · exact h2 o ho
    · simp at h

theorem loaderEnterL_sim {g : NodeId} : LFSim P r0 env (Prog.loaderEnter g none) (loaderEnter g none) (fun m => m.Ok) := by
  unfold Prog.loaderEnter loaderEnter
  refine .fview fun s t h => ?_
  rw [show t.ldr = s.1.ldr by rw [h.same]]
  split
  · exact .throw
  · refine .bind (Q := fun maps => Manager.Ok ⟨maps⟩) (.fop ?_ ?_) fun maps hmaps => .bind (Q := fun _ => True) (.fop (fun _ _ => rfl) fun _ h => ⟨h, fun _ _ => trivial⟩) fun _ _ => gap_sim (.pure hmaps)
    · intro s r
      rw [optionMaps_none, optionMaps_none]
    · intro s hs
      rw [optionMaps_none]
      refine ⟨hs, fun maps hmaps => optMaps_ready _ [none] ?_ ⟨[], rfl, by simp⟩ maps hmaps⟩
      unfold Store.attrs
      cases hg : s.store[g]? with
      | none => simp [attrOptions, attrItems]
      | some n => exact hs.options n (List.mem_of_getElem? hg)

theorem refEnterL_sim {g : NodeId} : LFSim P r0 env (Prog.refEnter env g) (refEnter env g) (fun m => ∀ p ∈ m.tc, TiOk (HasType P r0 env) p.2) := by
  unfold Prog.refEnter refEnter
  refine .fview fun s t h => ?_
  rw [show t.ref = s.1.ref by rw [h.same]]
  split
  · exact .throw
  · exact .bind (.fop refInit_blind refInit_types) fun m hm => .bind (Q := fun _ => True) (.fop (fun _ _ => rfl) fun _ h => ⟨h, fun _ _ => trivial⟩) fun _ _ => gap_sim (.pure hm)

theorem Par.getL {R : Registry → Prop} {io : Bool} {f : Prog.LCall → Prog Prog.LCall α} {s : Prog.LCall} {Q : Except PyErr α → Prog.LCall → Prop}
    (h : ∀ r, R r → ∀ s', s' = withReg s r → Par R A (f s') s' Q) : Par R A (Prog.op io M.get >>= f) s Q :=
  fun r hr => ⟨rfl, h r hr _ rfl⟩

theorem loadBodyTop_sim {a : LoadArgs} {g : NodeId} {mgr : Manager} {m : RefMgr} (hE : EnvOk P a.env) (hm : mgr.Ok) (htc : ∀ p ∈ m.tc, TiOk (HasType P r0 a.env) p.2) :
    LFSim P r0 a.env (Prog.loadBodyTop a g mgr m) (loadBodyTop a g mgr m) := by
  intro s t hst
  unfold Prog.loadBodyTop loadBodyTop
  refine Par.getL fun r _ s' hs' => ?_
  have hs2 : FRel (LG P r0) (FileReady P r0 a.env) s' t := by rw [hs']; exact hst.wr r
  have hstore : t.store = s'.1.store := by rw [hs2.same]
  rw [hstore]
  cases s'.1.store.links g with
  | none => exact ⟨rfl, hs2, fun _ _ => trivial⟩
  | some ls =>
    simp only []
    cases Assoc.get? ls dataName0 with
    | none => exact ⟨rfl, hs2, fun _ _ => trivial⟩
    | some d =>
      simp only []
      refine Par.bind ?_
      intro r1 hr1
      refine ⟨rfl, ?_⟩
      have h := loadNode_sim (c := ⟨a.env, mgr, s'.1.store, a.order⟩) hE hm hs2.file a.fuel (.root []) dataName0 d
        { heap := loadHeap, tcache := m.tc, reg := r1 } { heap := loadHeap, tcache := m.tc, reg := t.reg } ⟨rfl, hs2.reg.1, hs2.reg.2, htc⟩
      refine Par.bind (h.withinL rfl ?_)
      intro x d' s3 ⟨e, hd', _⟩ hs3 hheap
      generalize loadNode ⟨a.env, mgr, s'.1.store, a.order⟩ a.fuel (.root []) dataName0 d { heap := loadHeap, tcache := m.tc, reg := t.reg } = y at *
      obtain ⟨y1, y2⟩ := y
      simp only at e hd'
      subst e
      have hfin : FRel (LG P r0) (FileReady P r0 a.env) s3 { t with store := s'.1.store, reg := y2.reg } := by
        refine ⟨?_, ⟨hd'.reg, hd'.le⟩, ?_⟩
        · rw [hs3, show t.writable = s'.1.writable by rw [hs2.same], show t.ldr = s'.1.ldr by rw [hs2.same], show t.ref = s'.1.ref by rw [hs2.same]]
          rfl
        · rw [hs3]; exact hs2.file
      cases x with
      | error e => exact ⟨rfl, hfin, fun _ _ => trivial⟩
      | ok cont =>
        simp only []
        refine Par.bind ?_
        intro r2 hr2
        refine ⟨rfl, ?_⟩
        have hfin' := hfin.wr r2
        cases cont with
        | root l =>
          cases l with
          | nil => exact ⟨rfl, hfin', fun _ _ => trivial⟩
          | cons x l =>
            refine ⟨?_, hfin', fun _ _ => trivial⟩
            show Except.ok (s3.2.heap, x) = Except.ok (y2.heap, x)
            rw [hheap, show y2.heap = d'.heap by rw [hd'.same]]
        | _ => exact ⟨rfl, hfin', fun _ _ => trivial⟩

/-- **a load in a thread does what the same load does alone** -/
theorem loadTop_sim {a : LoadArgs} (hE : EnvOk P a.env) : LFSim P r0 a.env (Prog.loadTop a) (loadTop a) := by
  have h : LFSim P r0 a.env (Prog.loadTry a) (loadTry a) := by
    unfold Prog.loadTry loadTry
    intro s t hst
    refine Par.getL fun r _ s' hs' => ?_
    have hs2 : FRel (LG P r0) (FileReady P r0 a.env) s' t := by rw [hs']; exact hst.wr r
    rw [M.bind_of_ok (M.get_apply t)]
    have hstore : t.store = s'.1.store := by rw [hs2.same]
    rw [hstore]
    generalize s'.1.store = S
    refine (show LFSim P r0 a.env _ _ from ?_) s' t hs2
    cases pathOk a.path with
    | error e => exact .throw
    | ok u =>
      simp only []
      cases S.resolve 0 a.path with
      | none => exact .throw
      | some g =>
        simp only []
        cases S.links g with
        | none => exact .throw
        | some ls =>
          simp only []
          cases route ((S.attrs 0).getD []) ((S.attrs g).getD []) with
          | current =>
            exact .bind loaderEnterL_sim fun mgr hmgr => .finally (.bind refEnterL_sim fun m hm => .finally (loadBodyTop_sim hE hmgr hm) (.fop (fun _ _ => rfl) fun _ h => ⟨h, fun _ _ => trivial⟩))
              (.fop (fun _ _ => rfl) fun _ h => ⟨h, fun _ _ => trivial⟩)
          | _ => exact .throw
  unfold Prog.loadTop loadTop
  refine .bind h.attempt fun r _ => ?_
  cases r with
  | ok x => exact .pure trivial
  | error e => exact .throw

end Threads
end Verif
