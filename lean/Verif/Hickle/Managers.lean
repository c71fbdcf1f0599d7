import Verif.Py.Err
/-!
# The tables of managers

Models `hickle/lookup.py` `BaseManager._drop_manager` (267-291), `create_manager` (293-329), `__exit__` (358-362),
`ReferenceManager.create_manager` (452-481), `__exit__` (829-843), `LoaderManager.create_manager` (1317-1348), `__exit__` (1358-1365), and the two `with` statements of
`dump` (hickle.py:234-236) and `load` (370-373, 377-379), for any number of calls running at the same time (threads, or
calls made by loaders) on any number of files.

A call makes one object of each manager class, so the objects are identified by the call.  Simplifications: the
file of a node (`h_node.file.id`) is a number, two nodes of one open file have the same; what the managers do besides
is not modelled here.
-/
namespace Verif.Mgr

notation "FileId" => Nat
notation "CallId" => Nat

/-- where a call is: between which `__enter__` and `__exit__` -/
inductive Phase where
  /-- in the body of `with LoaderManager...`, before `ReferenceManager.create_manager` -/
  | loader
  /-- in the body of both -/
  | both
  /-- `ReferenceManager.__exit__` is done, or its creation raised -/
  | closing
  | ended
  deriving DecidableEq, Repr

structure Call where
  file : FileId
  phase : Phase
  /-- the file of the types table, when it is not `file` (the overlay, lookup.py:525-531) -/
  overlay : Option FileId := none
  deriving DecidableEq, Repr

structure St where
  /-- `LoaderManager.__managers__` -/
  ldr : FileId → Option CallId
  /-- `ReferenceManager.__managers__` -/
  ref : FileId → Option CallId
  calls : CallId → Option Call

def St.init : St := ⟨fun _ => none, fun _ => none, fun _ => none⟩

def put {α : Type} (m : Nat → Option α) (k : Nat) (v : Option α) : Nat → Option α := fun x => if x = k then v else m x

inductive Ev where
  /-- `LoaderManager.create_manager` for a node of file `f`; `ok`: the constructor returns -/
  | enterLoader (c : CallId) (f : FileId) (ok : Bool)
  /-- `ReferenceManager.create_manager`; `ok`: the constructor returns; `overlay`: the types table lives in that file -/
  | enterRef (c : CallId) (ok : Bool) (overlay : Option FileId)
  /-- the body of the inner `with` ends, normally or by an exception -/
  | exitRef (c : CallId)
  | exitLoader (c : CallId)
  /-- the manager object of an ended call is garbage collected, its finalizer runs (lookup.py:328) -/
  | collectLoader (c : CallId)
  | collectRef (c : CallId)
  deriving DecidableEq, Repr

/-- What an event does; `none`: it can not happen now.  The flag is false when `create_manager` raises. -/
def step (s : St) : Ev → Option (Bool × St)
  | .enterLoader c f ok =>
    match s.calls c with
    | some _ => none
    | none =>
      match s.ldr f with                                             -- 320-326
      | some _ => some (false, { s with calls := put s.calls c (some ⟨f, .ended, none⟩) })
      | none =>
        if ok then some (true, { s with ldr := put s.ldr f (some c), calls := put s.calls c (some ⟨f, .loader, none⟩) })
        else some (false, { s with calls := put s.calls c (some ⟨f, .ended, none⟩) })
  | .enterRef c ok overlay =>
    match s.calls c with
    | some ⟨f, .loader, _⟩ =>
      match s.ref f with
      | some _ => some (false, { s with calls := put s.calls c (some ⟨f, .closing, none⟩) })
      | none =>
        if ok then some (true, { s with ref := put s.ref f (some c), calls := put s.calls c (some ⟨f, .both, overlay⟩) })
        else some (false, { s with calls := put s.calls c (some ⟨f, .closing, none⟩) })
    | _ => none
  | .exitRef c =>
    match s.calls c with
    | some ⟨f, .both, ov⟩ =>                                         -- 836: the file of the types table
      some (true, { s with ref := put s.ref (ov.getD f) none, calls := put s.calls c (some ⟨f, .closing, ov⟩) })
    | _ => none
  | .exitLoader c =>
    match s.calls c with
    | some ⟨f, .closing, ov⟩ => some (true, { s with ldr := put s.ldr f none, calls := put s.calls c (some ⟨f, .ended, ov⟩) })
    | _ => none
  | .collectLoader c =>
    match s.calls c with
    | some ⟨f, .ended, _⟩ => if s.ldr f = some c then none else some (true, { s with ldr := put s.ldr f none })
    | _ => none
  | .collectRef c =>
    match s.calls c with
    | some ⟨f, .ended, _⟩ => if s.ref f = some c then none else some (true, { s with ref := put s.ref f none })
    | _ => none

/-- the file of the call an event belongs to -/
def Ev.file (s : St) : Ev → Option FileId
  | .enterLoader _ f _ => some f
  | .enterRef c _ _ | .exitRef c | .exitLoader c | .collectLoader c | .collectRef c => (s.calls c).map Call.file

/-- a call is in progress on file `f` -/
def Busy (s : St) (c : CallId) (f : FileId) : Prop := ∃ p ov, s.calls c = some ⟨f, p, ov⟩ ∧ p ≠ .ended

/-- histories; `A` restricts the events -/
inductive Run (A : St → Ev → Prop) : St → Prop
  | init : Run A .init
  | step {s e b s'} : Run A s → A s e → step s e = some (b, s') → Run A s'

/-- No types table in an overlay file, and manager objects of ended calls are collected before the next call begins on the same
file.  (CPython frees them at the end of the `with` statement, unless something, for example a stored traceback, still
refers to them.) -/
def Tidy (s : St) : Ev → Prop
  | .enterRef _ _ ov => ov = none
  | .collectLoader c | .collectRef c => ∀ f, (s.calls c).map Call.file = some f → ∀ c', ¬ Busy s c' f
  | _ => True

/-- what holds between events of tidy histories -/
structure Inv (s : St) : Prop where
  ldr : ∀ f c, s.ldr f = some c ↔ ∃ p ov, s.calls c = some ⟨f, p, ov⟩ ∧ p ≠ .ended
  ref : ∀ f c, s.ref f = some c ↔ ∃ ov, s.calls c = some ⟨f, .both, ov⟩
  own : ∀ c f p ov, s.calls c = some ⟨f, p, ov⟩ → ov = none

theorem put_self {α : Type} (m : Nat → Option α) (k : Nat) (v : Option α) : put m k v k = v := by simp [put]
theorem put_ne {α : Type} (m : Nat → Option α) {k x : Nat} (v : Option α) (h : x ≠ k) : put m k v x = m x := by simp [put, h]

theorem Inv.init : Inv .init := ⟨by simp [St.init], by simp [St.init], by simp [St.init]⟩

theorem Inv.step {s s' : St} {e : Ev} {b : Bool} (h : Inv s) (ha : Tidy s e) (he : Mgr.step s e = some (b, s')) : Inv s' := by
  -- one call per file
  have uniq : ∀ {f c c' p p' ov ov'}, s.calls c = some ⟨f, p, ov⟩ → p ≠ .ended → s.calls c' = some ⟨f, p', ov'⟩ → p' ≠ .ended → c = c' := by
    intro f c c' p p' ov ov' h1 h2 h3 h4
    have k1 := (h.ldr f c).2 ⟨p, ov, h1, h2⟩
    have k2 := (h.ldr f c').2 ⟨p', ov', h3, h4⟩
    rw [k1] at k2; simpa using k2
  have own' : ∀ (cl : Call), cl.overlay = none → ∀ c0, ∀ c f p ov, put s.calls c0 (some cl) c = some ⟨f, p, ov⟩ → ov = none := by
    intro cl hcl c0 c f p ov hc
    by_cases hcc : c = c0
    · subst hcc; rw [put_self] at hc; simp at hc; subst hc; exact hcl
    · rw [put_ne _ _ hcc] at hc; exact h.own c f p ov hc
  cases e with
  | enterLoader c0 f0 ok =>
    simp only [Mgr.step] at he
    cases hc0 : s.calls c0 with
    | some _ => rw [hc0] at he; simp at he
    | none =>
      rw [hc0] at he; simp only [] at he
      have refused : Inv { s with calls := put s.calls c0 (some ⟨f0, .ended, none⟩) } := by
        refine ⟨fun f c => ?_, fun f c => ?_, own' _ rfl c0⟩
        · rw [h.ldr]
          by_cases hcc : c = c0
          · subst hcc; simp only [put_self, hc0]; simp
          · simp only [put_ne _ _ hcc]
        · rw [h.ref]
          by_cases hcc : c = c0
          · subst hcc; simp only [put_self, hc0]; simp
          · simp only [put_ne _ _ hcc]
      cases hl : s.ldr f0 with
      | some c1 => rw [hl] at he; simp at he; obtain ⟨_, rfl⟩ := he; exact refused
      | none =>
        rw [hl] at he; simp only [] at he
        cases ok with
        | false => simp at he; obtain ⟨_, rfl⟩ := he; exact refused
        | true =>
          simp at he; obtain ⟨_, rfl⟩ := he
          refine ⟨fun f c => ?_, fun f c => ?_, own' _ rfl c0⟩
          · by_cases hcc : c = c0
            · subst hcc
              simp only [put_self]
              by_cases hff : f = f0
              · subst hff; simp [put_self]
              · simp only [put_ne _ _ hff, h.ldr, hc0]; simp; exact fun h1 => absurd h1.symm hff
            · simp only [put_ne _ _ hcc]
              by_cases hff : f = f0
              · subst hff
                (try dsimp only); rw [put_self]
                constructor
                · intro h1; simp at h1; exact absurd h1.symm hcc
                · intro h1; rw [(h.ldr f c).2 h1] at hl; simp at hl
              · (try dsimp only); rw [put_ne _ _ hff]; exact h.ldr f c
          · rw [h.ref]
            by_cases hcc : c = c0
            · subst hcc; simp only [put_self, hc0]; simp
            · simp only [put_ne _ _ hcc]
  | enterRef c0 ok ov0 =>
    simp only [Mgr.step] at he
    split at he
    · next f0 ov1 hc0 =>
      have ended : Inv { s with calls := put s.calls c0 (some ⟨f0, .closing, none⟩) } := by
        refine ⟨fun f c => ?_, fun f c => ?_, own' _ rfl c0⟩
        · rw [h.ldr]
          by_cases hcc : c = c0
          · subst hcc; simp only [put_self, hc0]
            constructor
            · rintro ⟨p, ov, h1, h2⟩; simp at h1; exact ⟨.closing, none, by simp [h1.1], by simp⟩
            · rintro ⟨p, ov, h1, h2⟩; simp at h1; exact ⟨.loader, ov1, by simp [h1.1], by simp⟩
          · simp only [put_ne _ _ hcc]
        · rw [h.ref]
          by_cases hcc : c = c0
          · subst hcc; simp only [put_self, hc0]; simp
          · simp only [put_ne _ _ hcc]
      cases hr : s.ref f0 with
      | some c1 => rw [hr] at he; simp at he; obtain ⟨_, rfl⟩ := he; exact ended
      | none =>
        rw [hr] at he; simp only [] at he
        cases ok with
        | false => simp at he; obtain ⟨_, rfl⟩ := he; exact ended
        | true =>
          simp at he; obtain ⟨_, rfl⟩ := he
          have hov : ov0 = none := ha
          subst hov
          refine ⟨fun f c => ?_, fun f c => ?_, own' _ rfl c0⟩
          · rw [h.ldr]
            by_cases hcc : c = c0
            · subst hcc; simp only [put_self, hc0]
              constructor
              · rintro ⟨p, ov, h1, h2⟩; simp at h1; exact ⟨.both, none, by simp [h1.1], by simp⟩
              · rintro ⟨p, ov, h1, h2⟩; simp at h1; exact ⟨.loader, ov1, by simp [h1.1], by simp⟩
            · simp only [put_ne _ _ hcc]
          · by_cases hcc : c = c0
            · subst hcc
              simp only [put_self]
              by_cases hff : f = f0
              · subst hff; simp [put_self]
              · (try dsimp only); rw [put_ne _ _ hff, h.ref, hc0]; simp; exact fun h1 => absurd h1.symm hff
            · simp only [put_ne _ _ hcc]
              by_cases hff : f = f0
              · subst hff
                (try dsimp only); rw [put_self]
                constructor
                · intro h1; simp at h1; exact absurd h1.symm hcc
                · intro h1; rw [(h.ref f c).2 h1] at hr; simp at hr
              · (try dsimp only); rw [put_ne _ _ hff]; exact h.ref f c
    · simp at he
  | exitRef c0 =>
    simp only [Mgr.step] at he
    split at he
    · next f0 ov0 hc0 =>
      have hov := h.own _ _ _ _ hc0
      subst hov
      simp at he; obtain ⟨_, rfl⟩ := he
      refine ⟨fun f c => ?_, fun f c => ?_, own' _ rfl c0⟩
      · rw [h.ldr]
        by_cases hcc : c = c0
        · subst hcc; simp only [put_self, hc0]
          constructor
          · rintro ⟨p, ov, h1, h2⟩; simp at h1; exact ⟨.closing, none, by simp [h1.1], by simp⟩
          · rintro ⟨p, ov, h1, h2⟩; simp at h1; exact ⟨.both, none, by simp [h1.1], by simp⟩
        · simp only [put_ne _ _ hcc]
      · by_cases hff : f = f0
        · subst hff
          (try dsimp only); rw [put_self]
          by_cases hcc : c = c0
          · subst hcc; simp [put_self]
          · simp only [put_ne _ _ hcc]
            simp
            intro ov h1
            exact hcc (uniq h1 (by simp) hc0 (by simp))
        · (try dsimp only); rw [put_ne _ _ hff, h.ref]
          by_cases hcc : c = c0
          · subst hcc; simp only [put_self, hc0]; simp; exact fun h1 => absurd h1.symm hff
          · simp only [put_ne _ _ hcc]
    · simp at he
  | exitLoader c0 =>
    simp only [Mgr.step] at he
    split at he
    · next f0 ov0 hc0 =>
      have hov := h.own _ _ _ _ hc0
      subst hov
      simp at he; obtain ⟨_, rfl⟩ := he
      refine ⟨fun f c => ?_, fun f c => ?_, own' _ rfl c0⟩
      · by_cases hff : f = f0
        · subst hff
          (try dsimp only); rw [put_self]
          by_cases hcc : c = c0
          · subst hcc; simp only [put_self]; simp
          · simp only [put_ne _ _ hcc]
            constructor
            · simp
            · rintro ⟨p, ov, h1, h2⟩; exact absurd (uniq h1 h2 hc0 (by simp)) hcc
        · (try dsimp only); rw [put_ne _ _ hff, h.ldr]
          by_cases hcc : c = c0
          · subst hcc; simp only [put_self, hc0]
            constructor
            · rintro ⟨p, ov, h1, h2⟩; simp at h1; exact absurd h1.1.symm hff
            · rintro ⟨p, ov, h1, h2⟩; simp at h1; exact absurd h1.1.symm hff
          · simp only [put_ne _ _ hcc]
      · rw [h.ref]
        by_cases hcc : c = c0
        · subst hcc; simp only [put_self, hc0]; simp
        · simp only [put_ne _ _ hcc]
    · simp at he
  | collectLoader c0 =>
    simp only [Mgr.step] at he
    split at he
    · next f0 ov0 hc0 =>
      split at he
      · simp at he
      · simp at he; obtain ⟨_, rfl⟩ := he
        have hno := ha f0 (by rw [hc0]; rfl)
        refine ⟨fun f c => ?_, h.ref, h.own⟩
        by_cases hff : f = f0
        · subst hff
          (try dsimp only); rw [put_self]
          constructor
          · simp
          · rintro ⟨p, ov, h1, h2⟩; exact absurd ⟨p, ov, h1, h2⟩ (hno c)
        · (try dsimp only); rw [put_ne _ _ hff]; exact h.ldr f c
    · simp at he
  | collectRef c0 =>
    simp only [Mgr.step] at he
    split at he
    · next f0 ov0 hc0 =>
      split at he
      · simp at he
      · simp at he; obtain ⟨_, rfl⟩ := he
        have hno := ha f0 (by rw [hc0]; rfl)
        refine ⟨h.ldr, fun f c => ?_, h.own⟩
        by_cases hff : f = f0
        · subst hff
          (try dsimp only); rw [put_self]
          constructor
          · simp
          · rintro ⟨ov, h1⟩; exact absurd ⟨.both, ov, h1, by simp⟩ (hno c)
        · (try dsimp only); rw [put_ne _ _ hff]; exact h.ref f c
    · simp at he

theorem Run.inv {s : St} (h : Run Tidy s) : Inv s := by
  induction h with
  | init => exact .init
  | step _ ha he ih => exact ih.step ha he

end Verif.Mgr
