import Verif.Hickle.StepLoad
import Verif.Hickle.StepSafe
/-!
# What holds after a load, whatever exceptions were raised on the way
-/
namespace Verif.Prog

variable {P : Nat → Prop} {all : Bool}

theorem loadNode_safe {c : LCtx} (hE : EnvOk P c.env) (hP : ProtOk P c.env) (fuel : Nat) :
    ∀ cont name n, Safe all (lLook c.env) (LReg P) (loadNode c fuel cont name n) := by
  induction fuel with
  | zero => exact fun _ _ _ => .throw _
  | succ fuel ih =>
    intro cont name n
    simp only [loadNode]
    split
    · exact .throw _
    · refine .bind .view fun s _ => ?_
      split
      · exact .op contAppend_keeps
      · refine .bind (Q := fun _ => True) ?_ fun r _ => ?_
        · unfold loadObj
          refine .bind (.op resolveType_keeps) fun r _ => .bind (.ask (lOnReg_keeps (loadLoaderAux_keeps hE hP _ _ _))) fun ce _ => ?_
          refine .bind (Q := fun _ => True) ?_ fun _ _ => .pure trivial
          unfold loadBody
          refine .bind .view fun s _ => ?_
          split
          · refine .bind (.op mkCont_keeps) fun sub _ => .bind (.op contFilter_keeps) fun items _ => ?_
            exact .bind (.foldEach _ (fun b x _ => ih _ _ _) _) fun _ _ => .op contConvert_keeps
          · split
            · exact .op loadData_keeps
            · exact .throw _
        · unfold loadFinish
          refine .bind (.op contAppend_keeps) fun _ _ => ?_
          split
          · exact .bind (Q := fun _ => True) (.op (.modify (fun s hs => hs) trivial)) fun _ _ => .pure trivial
          · exact .pure trivial

/-- the state of the load in progress -/
def innerL (s : LCall) : LState := { s.2 with reg := s.1.reg }

theorem wp_withinL {α : Type} {env : Env} {p : Prog LState α} {Q : Except PyErr α → LState → Prop} : ∀ {s : LCall}, wp all (lLook env) p Q (innerL s) →
    wp all (lcLook env) (withinL p) (fun r s' => Q r (innerL s') ∧ s'.1 = { s.1 with reg := s'.1.reg }) s := by
  induction p with
  | ret r => exact fun h => ⟨h, rfl⟩
  | act io x k ih =>
    intro s h ev he
    have := h ev he
    cases ev with
    | go => exact ih _ (s := (strike .go (onL x s) s).2) this
    | early e => exact ih _ (s := s) this
    | late e => exact ih _ (s := (strike .go (onL x s) s).2) this
  | look m c b k ih =>
    intro s h ev he
    have := h ev he
    cases ev with
    | go => exact ih _ (s := (strike .go (onL (lLook env m c b) s) s).2) this
    | early e => exact ih _ (s := s) this
    | late e => exact ih _ (s := (strike .go (onL (lLook env m c b) s) s).2) this

/-- the file is the same; or it is open for writing, the group had no types table, and an empty one was added -/
def Kept (S : Store) (w : Bool) (p : List PyStr) (st : Store) : Prop :=
  st = S ∨ ∃ g ls T, w = true ∧ S.resolve 0 p = some g ∧ S.links g = some ls ∧ Assoc.get? ls tableName = none ∧ S.create g tableName (.group []) = .ok (T, st)

/-- the group has a types table -/
def HasTable (S : Store) (p : List PyStr) : Prop := ∃ g ls, S.resolve 0 p = some g ∧ S.links g = some ls ∧ (Assoc.get? ls tableName).isSome = true

/-- The state of a load in progress.  The entries of the managers are known if exceptions come from h5py only. -/
structure LAmid (P : Nat → Prop) (all : Bool) (p : List PyStr) (S : Store) (w l r : Bool) (s : LCall) : Prop where
  kept : Kept S w p s.1.store
  reg : RegInv P s.1.reg
  writable : s.1.writable = w
  ldr : all = false → s.1.ldr = l
  ref : all = false → s.1.ref = r

theorem Kept.chg {S : Store} {w : Bool} {p : List PyStr} {st : Store} (h : Kept S w p st) : Chg p S st := by
  rcases h with rfl | ⟨g, ls, T, _, h1, _, _, h2⟩
  · exact .refl
  · exact Chg.refl.create h2 rfl (.inr ⟨_, List.prefix_rfl, h1⟩)

section
variable {p : List PyStr} {S : Store} {w l r : Bool} {g : NodeId}

theorem refEntries_table {env : Env} {S : Store} : ∀ (es : List (PyStr × NodeId)) (m0 m : RefMgr), refEntries env S m0 es = .ok m → m.table = m0.table := by
  intro es
  induction es with
  | nil => intro m0 m h; simp [refEntries] at h; rw [h]
  | cons p es ih =>
    intro m0 m h
    simp only [refEntries] at h
    cases he : refEntry env S m0 p with
    | error e => rw [he] at h; simp at h
    | ok m1 =>
      rw [he] at h
      rw [ih m1 m h]
      unfold refEntry at he
      repeat' split at he
      all_goals simp at he
      all_goals rw [← he]

theorem refInit_lamid {env : Env} {lk : Lk LCall} (hg : S.resolve 0 p = some g) {s : LCall} (hs : LAmid P all p S w l r s) (h0 : s.1.store = S) :
    wp all lk (op true (onS (refInit env g))) (fun x s' => LAmid P all p S w l r s' ∧ ∀ m, x = .ok m → (w = true ∨ HasTable S p) → m.table.isSome = true) s := by
  have key : LAmid P all p S w l r (onS (refInit env g) s).2 ∧ ∀ m, (onS (refInit env g) s).1 = .ok m → (w = true ∨ HasTable S p) → m.table.isSome = true := by
    unfold onS refInit
    rw [h0]
    cases hl : S.links g with
    | none => exact ⟨hs, fun m hm => by simp at hm⟩
    | some ls =>
      simp only []
      cases ht : Assoc.get? ls tableName with
      | none =>
        simp only []
        have no : ¬ HasTable S p := by
          rintro ⟨g', ls', h1, h2, h3⟩
          rw [hg] at h1; simp at h1; subst h1
          rw [hl] at h2; simp at h2; subst h2
          rw [ht] at h3; simp at h3
        cases hw : s.1.writable with
        | false =>
          refine ⟨hs, fun m hm h => ?_⟩
          rcases h with h | h
          · rw [← hs.writable, hw] at h; simp at h
          · exact absurd h no
        | true =>
          simp only [if_true]
          have hw' : w = true := hs.writable.symm.trans hw
          cases hc : S.create g tableName (.group []) with
          | error e => exact ⟨hs, fun m hm => by simp at hm⟩
          | ok x =>
            obtain ⟨T, st⟩ := x
            exact ⟨⟨.inr ⟨g, ls, T, hw', hg, hl, ht, hc⟩, hs.reg, hw.symm.trans hs.writable, hs.ldr, hs.ref⟩, fun m hm _ => by simp at hm; subst hm; rfl⟩
      | some T =>
        simp only []
        cases S.links T with
        | none => exact ⟨hs, fun m hm => by simp at hm⟩
        | some es =>
          simp only []
          cases hw : s.1.writable with
          | false => exact ⟨hs, fun m hm _ => by simp at hm; subst hm; rfl⟩
          | true =>
            simp only [if_true]
            refine ⟨hs, fun m hm _ => ?_⟩
            rw [refEntries_table _ _ _ hm]
            rfl
  intro ev he
  cases ev with
  | go => exact key
  | early e => exact ⟨hs, fun m hm => by simp [strike] at hm⟩
  | late e => exact ⟨key.1, fun m hm => by simp [strike] at hm⟩

theorem refEnter_lamid {env : Env} {lk : Lk LCall} (hg : S.resolve 0 p = some g) {s : LCall} (hs : LAmid P all p S w l r s) (h0 : s.1.store = S) :
    wp all lk (refEnter env g) (fun x s' => match x with
      | .ok m => LAmid P all p S w l true s' ∧ (all = false → r = false) ∧ ((w = true ∨ HasTable S p) → m.table.isSome = true)
      | .error _ => LAmid P all p S w l r s') s := by
  unfold refEnter
  refine wp_view ?_ fun _ _ => hs
  split
  · exact hs
  · next hl =>
    have hl' : all = false → r = false := fun h => by rw [← hs.ref h]; simpa using hl
    refine wp_bind (wp_mono ?_ (refInit_lamid hg hs h0))
    intro x s' ⟨h1, h2⟩
    cases x with
    | error e => exact h1
    | ok m =>
      refine wp_entry ⟨⟨h1.kept, h1.reg, h1.writable, h1.ldr, fun _ => rfl⟩, hl', h2 m rfl⟩ fun ha _ => ⟨h1, ⟨h1.kept, h1.reg, h1.writable, h1.ldr, fun h => ?_⟩⟩
      rw [ha] at h; simp at h

theorem loaderEnter_lamid {lk : Lk LCall} {s : LCall} (hs : LAmid P all p S w l r s) (h0 : s.1.store = S) :
    wp all lk (loaderEnter g none) (fun x s' => match x with
      | .ok _ => LAmid P all p S w true r s' ∧ (all = false → l = false) ∧ s'.1.store = S
      | .error _ => LAmid P all p S w l r s') s := by
  unfold loaderEnter
  refine wp_view ?_ fun _ _ => hs
  split
  · exact hs
  · next hl =>
    have hl' : all = false → l = false := fun h => by rw [← hs.ldr h]; simpa using hl
    have hst : ∀ s : LCall, (onS (Verif.optionMaps g none) s).2 = s := fun s => by unfold onS; rw [optionMaps_none]
    refine wp_bind (wp_mono ?_ (show wp all lk (optionMaps g none) (fun _ s' => s' = s) s from ?_))
    · intro x s' e
      subst e
      cases x with
      | error e => exact hs
      | ok maps =>
        refine wp_entry ⟨⟨hs.kept, hs.reg, hs.writable, fun _ => rfl, hs.ref⟩, hl', h0⟩ fun ha _ => ⟨hs, ⟨hs.kept, hs.reg, hs.writable, fun h => ?_, hs.ref⟩⟩
        rw [ha] at h; simp at h
    · intro ev he
      cases ev with
      | go => exact hst s
      | early e => rfl
      | late e => exact hst s

theorem loadBodyTop_lamid {a : LoadArgs} {mgr : Manager} {m : RefMgr} (hE : EnvOk P a.env) (hP : ProtOk P a.env) :
    Safe all (lcLook a.env) (LAmid P all p S w l r) (loadBodyTop a g mgr m) := by
  unfold loadBodyTop
  refine .bind (Q := fun _ => True) (.op fun s hs => ⟨hs, fun _ _ => trivial⟩) fun s _ => ?_
  split
  · exact .throw _
  · split
    · exact .throw _
    · next d _ =>
      refine .bind (Q := fun _ => True) (.op fun s hs => ⟨⟨hs.kept, hs.reg, hs.writable, hs.ldr, hs.ref⟩, fun _ _ => trivial⟩) fun _ _ => ?_
      refine .bind (Q := fun _ => True) ?_ fun r _ => .bind (Q := fun _ => True) (.op fun s hs => ⟨hs, fun _ _ => trivial⟩) fun t _ => ?_
      · intro t ht
        refine wp_mono ?_ (wp_withinL (loadNode_safe (c := ⟨a.env, mgr, s.1.store, a.order⟩) hE hP a.fuel (.root []) dataName0 d (innerL t) ht.reg))
        intro x s' ⟨⟨h1, _⟩, h2⟩
        refine ⟨⟨?_, h1, ?_, fun h => ?_, fun h => ?_⟩, fun _ _ => trivial⟩
        · rw [h2]; exact ht.kept
        · rw [h2]; exact ht.writable
        · rw [h2]; exact ht.ldr h
        · rw [h2]; exact ht.ref h
      · split
        · exact .pure trivial
        · exact .throw _

end

/-- the state when a load has ended -/
structure LoadEnd (P : Nat → Prop) (all : Bool) (p : List PyStr) (t : Session) (s : Session) : Prop where
  kept : Kept t.store t.writable p s.store
  reg : RegInv P s.reg
  writable : s.writable = t.writable
  ldr : all = false → s.ldr = t.ldr
  ref : all = false → (t.writable = true ∨ HasTable t.store p) → s.ref = t.ref

theorem loadTop_ends {a : LoadArgs} (hE : EnvOk P a.env) (hP : ProtOk P a.env) {s : LCall} (hreg : RegInv P s.1.reg) :
    wp all (lcLook a.env) (loadTop a) (fun _ s' => LoadEnd P all a.path s.1 s'.1) s := by
  have h0 : LAmid P all a.path s.1.store s.1.writable s.1.ldr s.1.ref s := ⟨.inl rfl, hreg, rfl, fun _ => rfl, fun _ => rfl⟩
  have e0 : LoadEnd P all a.path s.1 s.1 := ⟨.inl rfl, hreg, rfl, fun _ => rfl, fun _ _ => rfl⟩
  have main : wp all (lcLook a.env) (loadTry a) (fun _ s' => LoadEnd P all a.path s.1 s'.1) s := by
    unfold loadTry
    refine wp_bind (wp_mono ?_ (show wp all _ (op true M.get) (fun x s' => s' = s ∧ ∀ v, x = .ok v → v = s) s from ?_))
    rotate_left
    · intro ev he
      cases ev with
      | go => exact ⟨rfl, fun v h => (Except.ok.inj h).symm⟩
      | early e => exact ⟨rfl, fun v h => by simp [strike] at h⟩
      | late e => exact ⟨rfl, fun v h => by simp [strike] at h⟩
    rintro x s' ⟨hs', hx⟩
    rw [hs']
    cases x with
    | error e => exact e0
    | ok v =>
    rw [hx v rfl]
    show wp all _ _ _ s
    cases pathOk a.path with
    | error e => exact e0
    | ok u =>
      simp only []
      cases hr : s.1.store.resolve 0 a.path with
      | none => exact e0
      | some g =>
        simp only []
        cases s.1.store.links g with
        | none => exact e0
        | some ls =>
          simp only []
          cases route ((s.1.store.attrs 0).getD []) ((s.1.store.attrs g).getD []) with
          | current =>
            simp only []
            refine wp_bind (wp_mono ?_ (loaderEnter_lamid (g := g) h0 rfl))
            rintro (e | mgr) s4 h4
            · exact ⟨h4.kept, h4.reg, h4.writable, h4.ldr, fun h _ => h4.ref h⟩
            obtain ⟨h4, hl, hst⟩ := h4
            refine wp_with (I := fun t : LCall => LoadEnd P all a.path { s.1 with ldr := true } t.1) ?_ (fun t ht => ⟨ht.kept, ht.reg, ht.writable, fun h => (hl h).symm, ht.ref⟩)
              (fun ha t ht => ⟨ht.kept, ht.reg, ht.writable, fun h => by rw [ha] at h; simp at h, ht.ref⟩)
            refine wp_bind (wp_mono ?_ (refEnter_lamid (env := a.env) hr h4 hst))
            rintro (e | m) s5 h5
            · exact ⟨h5.kept, h5.reg, h5.writable, h5.ldr, fun h _ => h5.ref h⟩
            obtain ⟨h5, hrf, htab⟩ := h5
            refine wp_with (I := fun t => LAmid P all a.path s.1.store s.1.writable true true t) ?_ (fun t ht => ⟨ht.kept, ht.reg, ht.writable, ht.ldr, fun h hh => ?_⟩)
              (fun ha t ht => ⟨ht.kept, ht.reg, ht.writable, ht.ldr, fun h => by rw [ha] at h; simp at h⟩)
            · exact wp_mono (fun _ _ h => h.1) (loadBodyTop_lamid hE hP s5 h5)
            · rw [htab hh]
              exact (hrf h).symm
          | _ => exact e0
  unfold loadTop
  refine wp_bind (wp_attempt (wp_mono ?_ main))
  rintro x s' h
  cases x with
  | ok v => exact h
  | error e => exact h

theorem loadF_ends {a : LoadArgs} (hE : EnvOk P a.env) (hP : ProtOk P a.env) {s : Session} (hreg : RegInv P s.reg) (all : Bool) (es : List Ev) :
    LoadEnd P all a.path s (loadF all es a s).2 :=
  wp_sound _ (loadTop_ends (a := a) hE hP (s := (s, { heap := loadHeap, reg := {} })) hreg) es

/-! ### no exception is lost -/

section
variable {σ α β : Type}

/-- the program ends with an exception, whatever happens -/
def Fails : Prog σ α → Prop
  | .ret (.ok _) => False
  | .ret (.error _) => True
  | .act _ _ k => ∀ r, Fails (k r)
  | .look _ _ _ k => ∀ r, Fails (k r)

/-- an exception at any step ends the program with an exception -/
def Strict : Prog σ α → Prop
  | .ret _ => True
  | .act _ _ k => (∀ e, Fails (k (.error e))) ∧ ∀ a, Strict (k (.ok a))
  | .look _ _ _ k => (∀ e, Fails (k (.error e))) ∧ ∀ a, Strict (k (.ok a))

theorem Fails.bind {p : Prog σ α} {f : α → Prog σ β} (h : Fails p) : Fails (p >>= f) := by
  show Fails (p.bind f)
  induction p with
  | ret r => cases r with
    | ok a => exact h.elim
    | error e => trivial
  | act io x k ih => exact fun r => ih r (h r)
  | look m c b k ih => exact fun r => ih r (h r)

/-- every outcome of a failing program under `attempt` is an exception -/
theorem Fails.attempt {p : Prog σ α} {f : Except PyErr α → Prog σ β} (h : Fails p) (hf : ∀ e, Fails (f (.error e))) : Fails (p.attempt >>= f) := by
  show Fails (p.attempt.bind f)
  induction p with
  | ret r => cases r with
    | ok a => exact h.elim
    | error e => exact hf e
  | act io x k ih => exact fun r => ih r (h r)
  | look m c b k ih => exact fun r => ih r (h r)

theorem Fails.after (p : Prog σ α) {f : α → Prog σ β} (hf : ∀ a, Fails (f a)) : Fails (p >>= f) := by
  show Fails (p.bind f)
  induction p with
  | ret r => cases r with
    | ok a => exact hf a
    | error e => trivial
  | act io x k ih => exact fun r => ih r
  | look m c b k ih => exact fun r => ih r

namespace Strict

theorem bind {p : Prog σ α} {f : α → Prog σ β} (h : Strict p) (hf : ∀ a, Strict (f a)) : Strict (p >>= f) := by
  show Strict (p.bind f)
  induction p with
  | ret r => cases r with
    | ok a => exact hf a
    | error e => trivial
  | act io x k ih => exact ⟨fun e => (h.1 e).bind, fun a => ih _ (h.2 a)⟩
  | look m c b k ih => exact ⟨fun e => (h.1 e).bind, fun a => ih _ (h.2 a)⟩

theorem attempt {p : Prog σ α} {f : Except PyErr α → Prog σ β} (h : Strict p) (hf : ∀ r, Strict (f r)) (he : ∀ e, Fails (f (.error e))) : Strict (p.attempt >>= f) := by
  show Strict (p.attempt.bind f)
  induction p with
  | ret r => exact hf r
  | act io x k ih => exact ⟨fun e => (h.1 e).attempt he, fun a => ih _ (h.2 a)⟩
  | look m c b k ih => exact ⟨fun e => (h.1 e).attempt he, fun a => ih _ (h.2 a)⟩

theorem finally' {p : Prog σ α} {fin : Prog σ Unit} (h : Strict p) (hf : Strict fin) : Strict (finally' p fin) :=
  h.attempt (fun _ => hf.bind fun _ => trivial) fun _ => .after fin fun _ => trivial

theorem op {io : Bool} {x : M σ α} : Strict (op io x) := ⟨fun _ => trivial, fun _ => trivial⟩
theorem ask {m : Manager} {c : Cls} {b : Option String} : Strict (ask m c b : Prog σ _) := ⟨fun _ => trivial, fun _ => trivial⟩

theorem foldEach {f : β → α → Prog σ β} (h : ∀ b x, Strict (f b x)) (xs : List α) : ∀ b, Strict (foldEach f b xs) := by
  induction xs with
  | nil => exact fun b => trivial
  | cons x xs ih => exact fun b => (h b x).bind fun b' => ih b'

end Strict

/-- a failing program fails in every run -/
theorem Fails.run {lk : Lk σ} {p : Prog σ α} : ∀ (_ : Fails p) (es : List Ev) (s : σ) (a : α), (runF all lk p es s).1 ≠ .ok a := by
  induction p with
  | ret r => cases r with
    | ok a => exact fun h => h.elim
    | error e => intro _ es s a h; cases h
  | act io x k ih => exact fun h es s a => ih _ (h _) _ _ _
  | look m c b k ih => exact fun h es s a => ih _ (h _) _ _ _

/-- **a strict program that returns despite all events has not been hit** -/
theorem Strict.run {lk : Lk σ} {p : Prog σ α} : ∀ (_ : Strict p) (es : List Ev) (s : σ) (a : α), (runF all lk p es s).1 = .ok a → runF all lk p es s = Prog.run lk p s := by
  have hit : ∀ (ev : Ev) {β : Type} (y : Except PyErr β × σ) (s : σ), strike ev y s = y ∨ ∃ e s', strike ev y s = (.error e, s') := by
    intro ev β y s
    cases ev with
    | go => exact .inl rfl
    | early e => exact .inr ⟨_, _, rfl⟩
    | late e => exact .inr ⟨_, _, rfl⟩
  induction p with
  | ret r => exact fun _ _ _ _ _ => rfl
  | act io x k ih =>
    intro h es s a ha
    simp only [runF, Prog.run] at ha ⊢
    rcases hit (next (all || io) es).1 (x s) s with e | ⟨e, s', e'⟩
    · rw [e] at ha ⊢
      rcases hx : x s with ⟨r, s'⟩
      rw [hx] at ha
      cases r with
      | ok b => exact ih _ (h.2 b) _ _ _ ha
      | error e => exact absurd ha ((h.1 e).run _ _ _)
    · rw [e'] at ha
      exact absurd ha ((h.1 e).run _ _ _)
  | look m c b k ih =>
    intro h es s a ha
    simp only [runF, Prog.run] at ha ⊢
    rcases hit (next all es).1 (lk m c b s) s with e | ⟨e, s', e'⟩
    · rw [e] at ha ⊢
      rcases hx : lk m c b s with ⟨r, s'⟩
      rw [hx] at ha
      cases r with
      | ok b => exact ih _ (h.2 b) _ _ _ ha
      | error e => exact absurd ha ((h.1 e).run _ _ _)
    · rw [e'] at ha
      exact absurd ha ((h.1 e).run _ _ _)

end

theorem loadNode_strict {c : LCtx} (fuel : Nat) : ∀ cont name n, Strict (loadNode c fuel cont name n) := by
  induction fuel with
  | zero => exact fun _ _ _ => trivial
  | succ fuel ih =>
    intro cont name n
    simp only [loadNode]
    split
    · trivial
    · refine .bind .op fun s => ?_
      split
      · exact .op
      · refine .bind ?_ fun r => ?_
        · unfold loadObj
          refine .bind .op fun r => .bind .ask fun ce => .bind ?_ fun _ => trivial
          unfold loadBody
          refine .bind .op fun s => ?_
          split
          · exact .bind .op fun sub => .bind .op fun items => .bind (.foldEach (fun b x => ih _ _ _) _ _) fun _ => .op
          · split
            · exact .op
            · trivial
        · unfold loadFinish
          refine .bind .op fun _ => ?_
          split
          · exact .bind .op fun _ => trivial
          · trivial

theorem withinL_strict {α : Type} {p : Prog LState α} (h : Strict p) : Strict (withinL p) := by
  have f : ∀ {p : Prog LState α}, Fails p → Fails (withinL p) := by
    intro p
    induction p with
    | ret r => exact fun h => by cases r <;> exact h
    | act io x k ih => exact fun h r => ih r (h r)
    | look m c b k ih => exact fun h r => ih r (h r)
  induction p with
  | ret r => trivial
  | act io x k ih => exact ⟨fun e => f (h.1 e), fun a => ih _ (h.2 a)⟩
  | look m c b k ih => exact ⟨fun e => f (h.1 e), fun a => ih _ (h.2 a)⟩

theorem loadTop_strict (a : LoadArgs) : Strict (loadTop a) := by
  unfold loadTop
  refine .attempt ?_ (fun r => by cases r <;> trivial) fun e => trivial
  unfold loadTry
  refine .bind .op fun s => ?_
  cases pathOk a.path with
  | error e => trivial
  | ok u =>
    simp only []
    cases s.1.store.resolve 0 a.path with
    | none => trivial
    | some g =>
      simp only []
      cases s.1.store.links g with
      | none => trivial
      | some ls =>
        simp only []
        cases route ((s.1.store.attrs 0).getD []) ((s.1.store.attrs g).getD []) with
        | current =>
          refine .bind ?_ fun mgr => .finally' (.bind ?_ fun m => .finally' ?_ .op) .op
          · unfold loaderEnter
            refine .bind .op fun s => ?_
            split
            · trivial
            · exact .bind .op fun _ => .bind .op fun _ => .bind .op fun _ => trivial
          · unfold refEnter
            refine .bind .op fun s => ?_
            split
            · trivial
            · exact .bind .op fun _ => .bind .op fun _ => .bind .op fun _ => trivial
          · unfold loadBodyTop
            refine .bind .op fun s => ?_
            split
            · trivial
            · split
              · trivial
              · refine .bind .op fun _ => .bind (withinL_strict (loadNode_strict _ _ _ _)) fun r => .bind .op fun t => ?_
                split <;> trivial
        | _ => trivial

theorem loadF_ok {all : Bool} {es : List Ev} {a : LoadArgs} {s : Session} {v : Heap × Addr} (h : (loadF all es a s).1 = .ok v) : loadF all es a s = Verif.loadTop a s := by
  have := (loadTop_strict a).run (all := all) (lk := lcLook a.env) es (s, { heap := loadHeap, reg := {} }) v h
  unfold loadF
  rw [this]
  obtain ⟨d, e⟩ := loadTop_does a (s, { heap := loadHeap, reg := {} })
  rw [e]

end Verif.Prog
