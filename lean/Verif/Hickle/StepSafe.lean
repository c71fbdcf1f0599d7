import Verif.Hickle.StepSeq
import Verif.Hickle.TopSteps
/-!
# What holds after a dump, whatever exceptions were raised on the way
-/
namespace Verif.Prog

variable {P : Nat → Prop} {all : Bool}

section
variable {lk : Lk DState} {N : Nat} {g T : NodeId} {nm : PyStr} {S : Store} {H : Heap}

theorem mkDset_safe {kw p name d} (hp : Place N g T nm p name) : Safe all lk (Going P N g T nm S H) (mkDset kw p name d) (N ≤ ·) :=
  .bind (.op (mkDset_keeps hp)) fun _ hn => .bind (.op (write_keeps hn)) fun _ _ => .pure hn
theorem mkGroup_safe {p name} (hp : Place N g T nm p name) : Safe all lk (Going P N g T nm S H) (mkGroup p name) (N ≤ ·) := .op (mkGroup_keeps hp)
theorem setAttr_safe {n k v} (hn : N ≤ n) : Safe all lk (Going P N g T nm S H) (setAttr n k v) := .op (setAttr_keeps hn)

theorem setAttrs_safe {n attrs} (hn : N ≤ n) : Safe all lk (Going P N g T nm S H) (setAttrs n attrs) :=
  .forEach _ fun _ _ => setAttr_safe hn

theorem leaf_safe {x : Prog DState NodeId} (h : Safe all lk (Going P N g T nm S H) x (N ≤ ·)) :
    Safe all lk (Going P N g T nm S H) (leaf x) (fun r => N ≤ r.1) :=
  .bind h fun _ hn => .pure hn

theorem createItems_safe {c h items dt p name} (hp : Place N g T nm p name) :
    Safe all lk (Going P N g T nm S H) (createItems c h items dt p name) (fun r => N ≤ r.1) := by
  unfold createItems
  split
  · refine .bind (mkDset_safe hp) fun n hn => ?_
    split
    · exact .pure hn
    · exact .throw _
  · exact .throw _
  · exact .bind (mkGroup_safe hp) fun n hn => .bind (setAttr_safe hn) fun _ _ => .pure hn

theorem createListlike_safe {c h o p name} (hp : Place N g T nm p name) :
    Safe all lk (Going P N g T nm S H) (createListlike c h o p name) (fun r => N ≤ r.1) := by
  unfold createListlike
  repeat' split
  all_goals first
    | exact .throw _
    | exact createItems_safe hp
    | exact .bind (mkDset_safe hp) fun n hn => .bind (setAttr_safe hn) fun _ _ => .pure hn
    | exact .bind (mkDset_safe hp) fun n hn => .pure hn

theorem createRows_safe {c n sh ls p name} (hp : Place N g T nm p name) :
    Safe all lk (Going P N g T nm S H) (createRows c n sh ls p name) (fun r => N ≤ r.1) := by
  unfold createRows
  split
  · exact .throw _
  · split
    · exact .bind (mkDset_safe hp) fun n hn => .pure hn
    · exact .bind (mkGroup_safe hp) fun n hn => .bind (setAttr_safe hn) fun _ _ => .pure hn

theorem createNpArray_safe {c h o p name} (hp : Place N g T nm p name) :
    Safe all lk (Going P N g T nm S H) (createNpArray c h o p name) (fun r => N ≤ r.1) := by
  have dt : ∀ {x d}, Safe all lk (Going P N g T nm S H) x (fun r => N ≤ r.1) → Safe all lk (Going P N g T nm S H) (withDtype x d) (fun r => N ≤ r.1) :=
    fun hx => .bind hx fun r hr => .bind (setAttr_safe hr) fun _ _ => .pure hr
  unfold createNpArray
  split
  · exact dt (.bind (mkDset_safe hp) fun n hn => .pure hn)
  · refine dt ?_
    unfold createStrings
    repeat' split
    all_goals first
      | exact .throw _
      | exact createRows_safe hp
      | exact .bind (mkDset_safe hp) fun n hn => .pure hn
  · refine dt ?_
    unfold createObjects
    repeat' split
    all_goals first
      | exact .throw _
      | exact createRows_safe hp
      | exact createListlike_safe hp
      | exact .bind (mkGroup_safe hp) fun n hn => .pure hn
  · exact .throw _

theorem createPickled_safe {c o p name} (hp : Place N g T nm p name) :
    Safe all lk (Going P N g T nm S H) (createPickled c o p name) (N ≤ ·) := by
  unfold createPickled
  split
  · exact mkDset_safe hp
  · exact .throw _
  · exact .throw _

theorem createFn_safe {c fn h o p name} (hp : Place N g T nm p name) :
    Safe all lk (Going P N g T nm S H) (createFn c fn h o p name) (fun r => N ≤ r.1) := by
  unfold createFn
  split
  · refine leaf_safe ?_
    unfold createScalar
    repeat' split
    all_goals first | exact mkDset_safe hp | exact .throw _
  · exact leaf_safe (mkDset_safe hp)
  · exact createListlike_safe hp
  · unfold createSetlike
    repeat' split
    all_goals first
      | exact .throw _
      | exact createItems_safe hp
      | exact .bind (mkDset_safe hp) fun n hn => .pure hn
  · unfold createDictlike
    split
    · exact .bind (mkGroup_safe hp) fun n hn => .pure hn
    · exact .throw _
  · refine leaf_safe ?_
    unfold createNpScalar
    split
    · exact .bind (mkDset_safe hp) fun n hn => .bind (setAttr_safe hn) fun _ _ => .pure hn
    · exact .throw _
  · exact createNpArray_safe hp
  · unfold createMasked
    split
    · exact .bind (mkGroup_safe hp) fun n hn => .bind (setAttr_safe hn) fun _ _ => .pure hn
    · exact .throw _
  · unfold createSparse
    split
    · split
      · exact .throw _
      · exact .bind (mkGroup_safe hp) fun n hn => .pure hn
    · exact .throw _
  · exact leaf_safe (createPickled_safe hp)
  all_goals exact .throw _

theorem baseEntry_safe {c : DCtx} {b : String} : Safe all lk (Going P N g c.table nm S H) (baseEntry c b) := by
  unfold baseEntry
  refine .bind .view fun s _ => ?_
  split
  · exact .pure trivial
  · exact .bind (mkDset_safe (.inr (.inl rfl))) fun n _ =>
      .bind (.op (.modify (Q := fun _ => True) (fun s hs => ⟨hs.grow, hs.len, hs.reg, hs.heap⟩) trivial)) fun _ _ => .pure trivial

theorem typeEntryNode_safe {c : DCtx} {cls : Cls} {b : String} : Safe all lk (Going P N g c.table nm S H) (typeEntryNode c cls b) := by
  unfold typeEntryNode
  refine .bind .view fun s _ => ?_
  split
  · exact .pure trivial
  · split
    · exact .throw _
    · split
      · exact .throw _
      · split
        · exact .throw _
        · exact .bind (mkDset_safe (.inr (.inl rfl))) fun e he => .bind baseEntry_safe fun _ _ =>
            .bind (setAttr_safe he) fun _ _ =>
            .bind (.op (.modify (Q := fun _ => True) (fun s hs => ⟨hs.grow, hs.len, hs.reg, hs.heap⟩) trivial)) fun _ _ => .pure trivial

theorem storeType_safe {c : DCtx} {n : NodeId} {cls : Cls} {b : String} (hn : N ≤ n) :
    Safe all lk (Going P N g c.table nm S H) (storeType c n cls b) := by
  unfold storeType
  split
  · exact .pure trivial
  · exact .bind typeEntryNode_safe fun _ _ => setAttr_safe hn

theorem dumpCreate_safe {c : DCtx} (hE : EnvOk P c.env) (hP : ProtOk P c.env) {o p name} (hp : Place N g c.table nm p name) :
    Safe all (dLook c.env) (Going P N g c.table nm S H) (dumpCreate c o p name) (fun r => N ≤ r.1) := by
  unfold dumpCreate
  refine .bind (Safe.ask (onReg_keeps (loadLoaderAux_keeps hE hP _ _ _))) fun ce _ => ?_
  refine .bind .view fun s _ => ?_
  refine .bind (.attempt (createFn_safe hp)) fun r hr => ?_
  split
  · next n subs =>
    exact .bind (storeType_safe (hr _ rfl)) fun _ _ => .pure (hr _ rfl)
  · split
    · exact .bind (createPickled_safe hp) fun n hn => .pure hn
    · exact .throw _

theorem subAddr_safe {so : SubObj} : Safe all lk (Going P N g T nm S H) (subAddr so) := .op subAddr_keeps

/-- whatever the outcome of `_dump`: the file only grew in the allowed places, and the registry is
in a reachable state -/
theorem dumpNode_safe {c : DCtx} (hE : EnvOk P c.env) (hP : ProtOk P c.env) (fuel : Nat) :
    ∀ a p name attrs, Place N g c.table nm p name → Safe all (dLook c.env) (Going P N g c.table nm S H) (dumpNode c fuel a p name attrs) := by
  induction fuel with
  | zero => exact fun a p name attrs _ => .throw _
  | succ fuel ih =>
    intro a p name attrs hp
    simp only [dumpNode]
    refine .bind .view fun s _ => ?_
    split
    · exact .bind (mkDset_safe hp) fun n hn => setAttrs_safe hn
    · split
      · exact .throw _
      · refine .bind (dumpCreate_safe hE hP hp) fun r hr => ?_
        refine .bind (setAttrs_safe hr) fun _ _ => ?_
        refine .bind (Q := fun _ => True) ?_ fun _ _ => ?_
        · split
          · exact .op (.modify (fun s hs => ⟨hs.grow, hs.len, hs.reg, hs.heap⟩) trivial)
          · exact .pure trivial
        · refine .forEach _ fun sub _ => ?_
          split
          · exact .throw _
          · exact .bind subAddr_safe fun b _ => ih b _ _ _ (.inr (.inr hr))

end

/-! ### the call -/

/-- the state of the dump in progress -/
def inner (s : Call) : DState := { s.2 with store := s.1.store, reg := s.1.reg }

theorem wp_within {α : Type} {env : Env} {p : Prog DState α} {Q : Except PyErr α → DState → Prop} : ∀ {s : Call}, wp all (dLook env) p Q (inner s) →
    wp all (cLook env) (within p) (fun r s' => Q r (inner s') ∧ s'.1.writable = s.1.writable ∧ s'.1.ldr = s.1.ldr ∧ s'.1.ref = s.1.ref) s := by
  induction p with
  | ret r => exact fun h => ⟨h, rfl, rfl, rfl⟩
  | act io x k ih =>
    intro s h ev he
    have := h ev he
    cases ev with
    | go => exact ih _ (s := (strike .go (onD x s) s).2) this
    | early e => exact ih _ (s := s) this
    | late e => exact ih _ (s := (strike .go (onD x s) s).2) this
  | look m c b k ih =>
    intro s h ev he
    have := h ev he
    cases ev with
    | go => exact ih _ (s := (strike .go (onD (dLook env m c b) s) s).2) this
    | early e => exact ih _ (s := s) this
    | late e => exact ih _ (s := (strike .go (onD (dLook env m c b) s) s).2) this

/-- The state of a call in progress: what happened to the file, and the process state.  The entries of the managers are known if exceptions
come from h5py only. -/
structure Amid {τ : Type} (P : Nat → Prop) (all : Bool) (q : List PyStr) (S : Store) (w l r : Bool) (s : Session × τ) : Prop where
  chg : Chg q S s.1.store
  reg : RegInv P s.1.reg
  writable : s.1.writable = w
  ldr : all = false → s.1.ldr = l
  ref : all = false → s.1.ref = r

section
variable {τ : Type} {lk : Lk (Session × τ)} {q : List PyStr} {S : Store} {w l r : Bool} {g : NodeId}

theorem sSetAttr_amid {k v} (hg : MayRoot S q g) (hk : RootKey k) : Safe all lk (Amid P all q S w l r) (sSetAttr g k v) := by
  refine .op fun s hs => ?_
  exact ⟨⟨hs.chg.attr (hg.imp id fun h => ⟨h.1, h.2, hk⟩), hs.reg, hs.writable, hs.ldr, hs.ref⟩, fun _ _ => trivial⟩

theorem setOptions_amid (hg : MayRoot S q g) (os : List (String × Bool)) : ∀ maps, Safe all lk (Amid P all q S w l r) (setOptions g os maps) := by
  induction os with
  | nil => exact fun maps => .pure trivial
  | cons o os ih =>
    obtain ⟨k, on⟩ := o
    intro maps
    simp only [setOptions]
    split
    · refine .bind (sSetAttr_amid hg (.inr (.inr ⟨k, rfl⟩))) fun _ _ => ?_
      split
      · exact ih _
      · exact .throw _
    · exact ih _

/-- a step that sets an entry, and the return from `create_manager` behind it -/
theorem wp_entry {α : Type} {f : Session → Session} {a : α} {s : Session × τ} {Q : Except PyErr α → Session × τ → Prop} (h1 : Q (.ok a) (f s.1, s.2))
    (h2 : all = true → ∀ e, Q (.error e) s ∧ Q (.error e) (f s.1, s.2)) :
    wp all lk (do op false (onS (M.modify f)); op false (pure ()); pure a : Prog (Session × τ) α) Q s := by
  refine wp_bind ?_
  intro ev he
  cases ev with
  | go =>
    refine wp_bind ?_
    intro ev he
    cases ev with
    | go => exact h1
    | early e => exact (h2 (by cases all <;> simp at he ⊢) e).2
    | late e => exact (h2 (by cases all <;> simp at he ⊢) e).2
  | early e => exact (h2 (by cases all <;> simp at he ⊢) e).1
  | late e => exact (h2 (by cases all <;> simp at he ⊢) e).2

theorem wp_view {α : Type} {f : Session × τ → Prog (Session × τ) α} {s : Session × τ} {Q : Except PyErr α → Session × τ → Prop} (h1 : wp all lk (f s) Q s) (h2 : all = true → ∀ e, Q (.error e) s) :
    wp all lk (view >>= f) Q s := by
  refine wp_bind ?_
  intro ev he
  cases ev with
  | go => exact h1
  | early e => exact h2 (by cases all <;> simp at he ⊢) e
  | late e => exact h2 (by cases all <;> simp at he ⊢) e

theorem loaderEnter_amid {os : Option (List (String × Bool))} (hg : MayRoot S q g) {s : Session × τ} (hs : Amid P all q S w l r s) :
    wp all lk (loaderEnter g os) (fun x s' => match x with
      | .ok _ => Amid P all q S w true r s' ∧ (all = false → l = false)
      | .error _ => Amid P all q S w l r s') s := by
  unfold loaderEnter
  refine wp_view ?_ fun _ _ => hs
  split
  · exact hs
  · next hl =>
    have hl' : all = false → l = false := fun h => by rw [← hs.ldr h]; simpa using hl
    refine wp_bind (wp_mono ?_ ((show Safe all lk (Amid P all q S w l r) (optionMaps g os) from ?_) s hs))
    · intro x s' h
      cases x with
      | error e => exact h.1
      | ok maps =>
        refine wp_entry ⟨⟨h.1.chg, h.1.reg, h.1.writable, fun _ => rfl, h.1.ref⟩, hl'⟩ fun ha _ => ⟨h.1, ⟨h.1.chg, h.1.reg, h.1.writable, fun h => ?_, h.1.ref⟩⟩
        rw [ha] at h; simp at h
    · cases os with
      | some os => exact setOptions_amid hg _ _
      | none =>
        refine .op fun s hs => ?_
        have : (onS (Verif.optionMaps g none) s).2 = s := by
          unfold onS; rw [optionMaps_none]
        rw [this]
        exact ⟨hs, fun _ _ => trivial⟩

theorem refInit_ref {env : Env} (b : Bool) (s : Session) :
    refInit env g { s with ref := b } = ((refInit env g s).1, { (refInit env g s).2 with ref := b }) := by
  obtain ⟨st, w, l, r, rg⟩ := s
  unfold refInit
  simp only []
  cases st.links g with
  | none => rfl
  | some ls =>
    simp only []
    cases Assoc.get? ls tableName with
    | none =>
      simp only []
      cases w with
      | false => rfl
      | true =>
        simp only [if_true]
        cases st.create g tableName (.group []) <;> rfl
    | some T =>
      simp only []
      cases st.links T with
      | none => rfl
      | some es => cases w <;> rfl

theorem refInit_keepsRef {env : Env} (s : Session) : (refInit env g s).2.ldr = s.ldr ∧ (refInit env g s).2.ref = s.ref := by
  unfold refInit
  repeat' split
  all_goals exact ⟨rfl, rfl⟩

theorem refInit_amid {env : Env} (hr : MayRoot S q g) :
    Keeps (Amid (τ := τ) P all q S w l r) (onS (refInit env g)) (fun m => (w = true → m.table.isSome = true) ∧ ∀ T, m.table = some T → S.length ≤ T ∨ OnPath S q T) := by
  intro s hs
  have h0 : Verif.Busy P q S w s.1.ldr false { s.1 with ref := false } := ⟨hs.chg, hs.reg, hs.writable, rfl, rfl⟩
  have hk := refInit_keepsRef (env := env) (g := g) s.1
  have hp := refEnter_post (env := env) h0 (hr.imp id And.left)
  unfold Verif.refEnter at hp
  rw [M.bind_of_ok (M.get_apply _)] at hp
  simp only [Bool.false_eq_true, if_false] at hp
  have e := refInit_ref (env := env) (g := g) false s.1
  unfold onS
  generalize refInit env g s.1 = y at *
  obtain ⟨x, s'⟩ := y
  simp only at hk
  cases x with
  | error e' =>
    rw [M.bind_of_error e] at hp
    rcases hp with ⟨_, s1, h1, h2⟩ | ⟨_, m, s1, h1, _⟩
    · obtain ⟨_, rfl⟩ := Prod.mk.inj h1
      exact ⟨⟨h2.chg, h2.reg, h2.writable, fun h => hk.1.trans (hs.ldr h), fun h => hk.2.trans (hs.ref h)⟩, fun a ha => by simp at ha⟩
    · simp at h1
  | ok m =>
    rw [M.bind_of_ok e] at hp
    rcases hp with ⟨_, s1, h1, h2⟩ | ⟨_, m', s1, h1, h2, h3, h4⟩
    · exact absurd (Prod.mk.inj h1).1 (by intro h; cases h)
    · obtain ⟨hm, rfl⟩ := Prod.mk.inj h1
      have hm' : m = m' := by injection hm
      subst hm'
      refine ⟨⟨h2.chg, h2.reg, h2.writable, fun h => hk.1.trans (hs.ldr h), fun h => hk.2.trans (hs.ref h)⟩, ?_⟩
      intro a ha
      have : a = m := by injection ha with h; exact h.symm
      subst this
      refine ⟨fun hw => by obtain ⟨T, hT⟩ := h3 hw; rw [hT]; rfl, fun T hT => ?_⟩
      obtain ⟨ls, hl1, hl2⟩ := h4 T hT
      rcases h2.chg.links g ls hl1 _ (Assoc.get?_mem hl2) with ⟨ls0, k1, k2⟩ | k
      · rcases hr with hr | ⟨_, hr⟩
        · obtain ⟨nd, k3, _⟩ := Store.links_eq k1
          have := lt_of_getElem? k3; omega
        · rw [hr] at k1; simp at k1; subst k1; simp at k2
      · exact .inl k

theorem refEnter_amid {env : Env} (hg : MayRoot S q g) {s : Session × τ} (hs : Amid P all q S w l r s) :
    wp all lk (refEnter env g) (fun x s' => match x with
      | .ok m => Amid P all q S w l true s' ∧ (all = false → r = false) ∧ (w = true → m.table.isSome = true) ∧ ∀ T, m.table = some T → S.length ≤ T ∨ OnPath S q T
      | .error _ => Amid P all q S w l r s') s := by
  unfold refEnter
  refine wp_view ?_ fun _ _ => hs
  split
  · exact hs
  · next hl =>
    have hl' : all = false → r = false := fun h => by rw [← hs.ref h]; simpa using hl
    refine wp_bind (wp_mono ?_ ((Safe.op (refInit_amid hg)) s hs))
    intro x s' h
    cases x with
    | error e => exact h.1
    | ok m =>
      refine wp_entry ⟨⟨h.1.chg, h.1.reg, h.1.writable, h.1.ldr, fun _ => rfl⟩, hl', h.2 m rfl⟩ fun ha _ => ⟨h.1, ⟨h.1.chg, h.1.reg, h.1.writable, h.1.ldr, fun h => ?_⟩⟩
      rw [ha] at h; simp at h

theorem dumpData_amid {a : DumpArgs} {mgr : Manager} {m : RefMgr} (hE : EnvOk P a.env) (hP : ProtOk P a.env)
    (hg : S.length ≤ g ∨ OnPath S q g) (hT : ∀ T, m.table = some T → S.length ≤ T ∨ OnPath S q T) :
    Safe all (cLook a.env) (Amid P all q S w l r) (dumpData a g mgr m) := by
  unfold dumpData
  cases ht : m.table with
  | none => exact .throw _
  | some T =>
    refine .bind (Q := fun _ => True) (.op fun s hs => ⟨⟨hs.chg, hs.reg, hs.writable, hs.ldr, hs.ref⟩, fun _ _ => trivial⟩) fun _ _ => ?_
    intro s hs
    have h0 : Going P s.1.store.length g T dataName0 s.1.store [] (inner s) := ⟨.refl, Nat.le_refl _, hs.reg, List.nil_prefix⟩
    refine wp_mono ?_ (wp_within (dumpNode_safe (c := ⟨a.env, mgr, a.kw, T⟩) hE hP a.fuel a.obj g dataName0 [] (.inl ⟨rfl, rfl⟩) (inner s) h0))
    intro x s' ⟨⟨h1, _⟩, h2, h3, h4⟩
    exact ⟨⟨hs.chg.ofGrow h1.grow hs.chg.length hg (hT T ht), h1.reg, h2.trans hs.writable, fun h => h3.trans (hs.ldr h), fun h => h4.trans (hs.ref h)⟩, fun _ _ => trivial⟩

/-- a `with` statement: the entry of the manager is dropped -/
theorem wp_with {α : Type} {p : Prog (Session × τ) α} {f : Session → Session} {s : Session × τ} {I J : Session × τ → Prop} (hp : wp all lk p (fun _ s' => I s') s)
    (h1 : ∀ s, I s → J (f s.1, s.2)) (h2 : all = true → ∀ s, I s → J s) : wp all lk (finally' p (op false (onS (M.modify f)))) (fun _ s' => J s') s := by
  refine wp_bind (wp_attempt (wp_mono ?_ hp))
  intro x s' hI
  refine wp_bind ?_
  intro ev he
  cases ev with
  | go => exact h1 s' hI
  | early e => exact h2 (by cases all <;> simp at he ⊢) s' hI
  | late e => exact h1 s' hI

end

/-- whatever exceptions come: the file only changed along the path; and if they come from h5py only, no manager is left behind -/
theorem dumpTop_amid {a : DumpArgs} (hE : EnvOk P a.env) (hP : ProtOk P a.env) {s : Call} (hreg : RegInv P s.1.reg) :
    wp all (cLook a.env) (dumpTop a) (fun _ s' => Amid P all a.path s.1.store s.1.writable s.1.ldr s.1.ref s') s := by
  have h0 : Amid P all a.path s.1.store s.1.writable s.1.ldr s.1.ref s := ⟨.refl, hreg, rfl, fun _ => rfl, fun _ => rfl⟩
  unfold dumpTop
  refine wp_view ?_ fun _ _ => h0
  split
  · exact h0
  · next hw =>
    have key : Amid P all a.path s.1.store s.1.writable s.1.ldr s.1.ref (onS (dumpGroup a.path) s).2 ∧
        ∀ g, (onS (dumpGroup a.path) s).1 = .ok g → MayRoot s.1.store a.path g := by
      unfold onS
      cases hd : dumpGroup a.path s.1 with
      | mk x s1 =>
        cases x with
        | error e => rw [dumpGroup_err hd]; exact ⟨h0, by simp⟩
        | ok g =>
          obtain ⟨ht, hs1⟩ := dumpGroup_ok hd
          refine ⟨?_, fun g' hg => ?_⟩
          · rw [hs1]; exact ⟨ht.chg, hreg, rfl, fun _ => rfl, fun _ => rfl⟩
          · simp at hg; subst hg; exact ht.place
    refine wp_bind ?_
    intro ev he
    cases ev with
    | early e => exact h0
    | late e => exact key.1
    | go =>
      simp only [strike]
      generalize onS (dumpGroup a.path) s = y at key
      obtain ⟨x, s1⟩ := y
      cases x with
      | error e => exact key.1
      | ok g =>
        have hroot := key.2 g rfl
        have h1 := key.1
        refine wp_bind (wp_mono ?_ (sSetAttr_amid (k := "HICKLE_VERSION") (v := .bytes hickleVersion) hroot (.inl rfl) s1 h1))
        rintro (e | _) s2 ⟨h2, _⟩
        · exact h2
        refine wp_bind (wp_mono ?_ (sSetAttr_amid (k := "HICKLE_PYTHON_VERSION") (v := .bytes (verText a.pyver)) hroot (.inr (.inl rfl)) s2 h2))
        rintro (e | _) s3 ⟨h3, _⟩
        · exact h3
        refine wp_bind (wp_mono ?_ (loaderEnter_amid (os := a.options) hroot h3))
        rintro (e | mgr) s4 h4
        · exact h4
        obtain ⟨h4, hl⟩ := h4
        refine wp_with (I := Amid P all a.path s.1.store s.1.writable true s.1.ref) ?_ (fun t ht => ⟨ht.chg, ht.reg, ht.writable, fun h => (hl h).symm, ht.ref⟩)
          (fun ha t ht => ⟨ht.chg, ht.reg, ht.writable, fun h => by rw [ha] at h; simp at h, ht.ref⟩)
        refine wp_bind (wp_mono ?_ (refEnter_amid (env := a.env) hroot h4))
        rintro (e | m) s5 h5
        · exact h5
        obtain ⟨h5, hr, htab, hT⟩ := h5
        refine wp_with (I := fun t => Amid P all a.path s.1.store s.1.writable true true t) ?_ (fun t ht => ⟨ht.chg, ht.reg, ht.writable, ht.ldr, fun h => ?_⟩)
          (fun ha t ht => ⟨ht.chg, ht.reg, ht.writable, ht.ldr, fun h => by rw [ha] at h; simp at h⟩)
        · exact wp_mono (fun _ _ h => h.1) (dumpData_amid hE hP (hroot.imp id And.left) hT s5 h5)
        · rw [htab (by simpa using hw)]
          exact (hr h).symm

end Verif.Prog
