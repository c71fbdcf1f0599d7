import Verif.Hickle.Managers
import Verif.Props.Examples
/-!
# C17 Each call cleans up its per-file managers; concurrent use of one file is refused
-/
namespace Verif

variable {P : Nat → Prop}

/-! ### any number of calls at the same time -/

/-- **C17, exclusion (partial).**  While a call is in progress on a file, another one that begins on the same file is refused.  Any
interleaving of any number of calls on any number of files, exceptions at any point.
What is missing: histories in which the manager objects of an ended call live on, see `C17_violated_collected`. -/
theorem C17_exclusive_partial {s : Mgr.St} (h : Mgr.Run Mgr.Tidy s) {c c' : Nat} {f : Nat} (hb : Mgr.Busy s c f) {ok b : Bool} {s' : Mgr.St}
    (he : Mgr.step s (.enterLoader c' f ok) = some (b, s')) : b = false ∧ s'.ldr = s.ldr ∧ s'.ref = s.ref := by
  obtain ⟨p, ov, h1, h2⟩ := hb
  have hl := (h.inv.ldr f c).2 ⟨p, ov, h1, h2⟩
  simp only [Mgr.step] at he
  split at he
  · simp at he
  · rw [hl] at he; simp at he; obtain ⟨rfl, rfl⟩ := he; exact ⟨rfl, rfl, rfl⟩

/-- **C17, clean-up (partial).**  When no call is in progress on a file, the next one is not refused: both its managers can be
made.
What is missing: loads from groups without a types table in files open for reading only, see `C17_violated_overlay`. -/
theorem C17_clean_partial {s : Mgr.St} (h : Mgr.Run Mgr.Tidy s) {f : Nat} (hf : ∀ c, ¬ Mgr.Busy s c f) {c : Nat} (hc : s.calls c = none) :
    ∃ s1 s2, Mgr.step s (.enterLoader c f true) = some (true, s1) ∧ Mgr.step s1 (.enterRef c true none) = some (true, s2) := by
  have h1 : s.ldr f = none := by
    cases hl : s.ldr f with
    | none => rfl
    | some c' => exact absurd ((h.inv.ldr f c').1 hl) (fun ⟨p, ov, h1, h2⟩ => hf c' ⟨p, ov, h1, h2⟩)
  have h2 : s.ref f = none := by
    cases hl : s.ref f with
    | none => rfl
    | some c' => exact absurd ((h.inv.ref f c').1 hl) (fun ⟨ov, h1⟩ => hf c' ⟨.both, ov, h1, by simp⟩)
  refine ⟨⟨Mgr.put s.ldr f (some c), s.ref, Mgr.put s.calls c (some ⟨f, .loader, none⟩)⟩,
    ⟨Mgr.put s.ldr f (some c), Mgr.put s.ref f (some c), Mgr.put (Mgr.put s.calls c (some ⟨f, .loader, none⟩)) c (some ⟨f, .both, none⟩)⟩, ?_, ?_⟩
  · simp [Mgr.step, hc, h1]
  · simp [Mgr.step, Mgr.put_self, h2]

/-- **C17, independence.**  What a call on one file does never touches the managers of another file, in any state. -/
theorem C17_independent {s s' : Mgr.St} {e : Mgr.Ev} {b : Bool} (he : Mgr.step s e = some (b, s')) {g : Nat} (hg : e.file s ≠ some g)
    (hov : ∀ c cl, s.calls c = some cl → cl.overlay ≠ some g) : s'.ldr g = s.ldr g ∧ s'.ref g = s.ref g := by
  cases e with
  | enterLoader c f ok =>
    have hgf : g ≠ f := fun h => hg (by rw [h]; rfl)
    simp only [Mgr.step] at he
    repeat' split at he
    all_goals simp at he
    all_goals obtain ⟨_, rfl⟩ := he
    all_goals simp [Mgr.put_ne _ _ hgf]
  | enterRef c ok ov =>
    simp only [Mgr.step] at he
    split at he
    · next f ov1 hc =>
      have hgf : g ≠ f := fun h => hg (by simp [Mgr.Ev.file, hc, h])
      repeat' split at he
      all_goals simp at he
      all_goals obtain ⟨_, rfl⟩ := he
      all_goals simp [Mgr.put_ne _ _ hgf]
    · simp at he
  | exitRef c =>
    simp only [Mgr.step] at he
    split at he
    · next f ov1 hc =>
      have hgf : g ≠ f := fun h => hg (by simp [Mgr.Ev.file, hc, h])
      have hgo : g ≠ ov1.getD f := by
        cases ov1 with
        | none => exact hgf
        | some o => exact fun h => hov c _ hc (by simpa using h.symm)
      simp at he
      obtain ⟨_, rfl⟩ := he
      simp [Mgr.put_ne _ _ hgo]
    · simp at he
  | exitLoader c =>
    simp only [Mgr.step] at he
    split at he
    · next f ov1 hc =>
      have hgf : g ≠ f := fun h => hg (by simp [Mgr.Ev.file, hc, h])
      simp at he
      obtain ⟨_, rfl⟩ := he
      simp [Mgr.put_ne _ _ hgf]
    · simp at he
  | collectLoader c =>
    simp only [Mgr.step] at he
    split at he
    · next f ov1 hc =>
      have hgf : g ≠ f := fun h => hg (by simp [Mgr.Ev.file, hc, h])
      split at he
      · simp at he
      · simp at he
        obtain ⟨_, rfl⟩ := he
        simp [Mgr.put_ne _ _ hgf]
    · simp at he
  | collectRef c =>
    simp only [Mgr.step] at he
    split at he
    · next f ov1 hc =>
      have hgf : g ≠ f := fun h => hg (by simp [Mgr.Ev.file, hc, h])
      split at he
      · simp at he
      · simp at he
        obtain ⟨_, rfl⟩ := he
        simp [Mgr.put_ne _ _ hgf]
    · simp at he

/-- run a list of events -/
def Mgr.play : Mgr.St → List Mgr.Ev → Option (List Bool × Mgr.St)
  | s, [] => some ([], s)
  | s, e :: es => match Mgr.step s e with
    | none => none
    | some (b, s') => (Mgr.play s' es).map fun r => (b :: r.1, r.2)

/-- calls 1 and 2 on files 10 and 20 at the same time, 3 is refused, 4 comes after the end of 1 -/
example : ((Mgr.play .init [.enterLoader 1 10 true, .enterLoader 2 20 true, .enterRef 1 true none, .enterLoader 3 10 true, .exitRef 1, .enterRef 2 false none,
    .exitLoader 1, .collectLoader 1, .collectRef 1, .enterLoader 4 10 true, .enterRef 4 true none, .exitLoader 2]).map Prod.fst) =
      some [true, true, true, false, true, false, true, true, true, true, true, true] := by decide

/-- **C17 is violated** when the managers of an ended call live on.  Call 1 has raised and something keeps its traceback.  Call 2 is
in progress on the same file when the managers of call 1 are garbage collected: their finalizers drop the entries of
call 2, and call 3 on the same file is not refused. -/
theorem C17_violated_collected : ((Mgr.play .init [.enterLoader 1 10 true, .enterRef 1 false none, .exitLoader 1,
    .enterLoader 2 10 true, .enterRef 2 true none, .collectLoader 1, .collectRef 1, .enterLoader 3 10 true, .enterRef 3 true none]).map Prod.fst) =
      some [true, false, true, true, true, true, true, true, true] := by decide

/-! ### one call after the other -/

/-- **C17, dump.**  After a dump, returned or not, the entries of the managers are as before. -/
theorem C17_dump {a : DumpArgs} {s : Session} (hE : EnvOk P a.env) (hP : ProtOk P a.env) (hreg : RegInv P s.reg) :
    (dumpTop a s).2.ldr = s.ldr ∧ (dumpTop a s).2.ref = s.ref :=
  ⟨(dumpTop_post hE hP hreg).ldr, (dumpTop_post hE hP hreg).ref⟩

/-- **C17, load (partial).**  After a load, returned or not, from a file open for writing, the entries of the managers are as before. -/
theorem C17_load_partial {a : LoadArgs} {s : Session} (hE : EnvOk P a.env) (hP : ProtOk P a.env) (hreg : RegInv P s.reg) (hw : s.writable = true) :
    (loadTop a s).2.ldr = s.ldr ∧ (loadTop a s).2.ref = s.ref := by
  obtain ⟨r, h1, h2, _⟩ := loadTop_post (a := a) (s := s) hE hP hreg
  exact ⟨h1.ldr, h1.ref.trans (h2 hw)⟩

/-- a call in progress makes a dump raise, wherever it goes -/
theorem C17_dump_refused (a : DumpArgs) (s : Session) (hl : s.ldr = true) : ∃ e s', dumpTop a s = (.error e, s') := by
  unfold dumpTop
  rw [M.bind_of_ok (M.get_apply s)]
  cases hw : s.writable with
  | false => exact ⟨_, _, rfl⟩
  | true =>
    simp only [Bool.not_true, Bool.false_eq_true, if_false]
    rw [M.bind_apply]
    cases hg : dumpGroup a.path s with
    | mk r s1 =>
      cases r with
      | error e => exact ⟨_, _, rfl⟩
      | ok g =>
        have h1 := (dumpGroup_ok hg).2
        have hl1 : s1.ldr = true := by rw [h1]; exact hl
        simp only []
        unfold sSetAttr
        rw [M.bind_of_ok (M.modify_apply _ _), M.bind_of_ok (M.modify_apply _ _)]
        unfold loaderEnter
        simp only [M.bind_apply, M.get_apply]
        rw [if_pos hl1]
        exact ⟨_, _, rfl⟩

/-- a call in progress makes a load raise -/
theorem C17_load_refused (a : LoadArgs) (s : Session) (hl : s.ldr = true) : ∃ e s', loadTop a s = (.error e, s') := by
  have h : ∃ e s', loadTry a s = (.error e, s') := by
    unfold loadTry
    rw [M.bind_of_ok (M.get_apply s)]
    cases pathOk a.path with
    | error e => exact ⟨_, _, rfl⟩
    | ok u =>
      simp only []
      cases s.store.resolve 0 a.path with
      | none => exact ⟨_, _, rfl⟩
      | some g =>
        simp only []
        cases s.store.links g with
        | none => exact ⟨_, _, rfl⟩
        | some ls =>
          simp only []
          cases route ((s.store.attrs 0).getD []) ((s.store.attrs g).getD []) with
          | v3 => exact ⟨_, _, rfl⟩
          | v4 => exact ⟨_, _, rfl⟩
          | refuse e => exact ⟨_, _, rfl⟩
          | current =>
            simp only []
            unfold loaderEnter
            simp only [M.bind_apply, M.get_apply]
            rw [if_pos hl]
            exact ⟨_, _, rfl⟩
  obtain ⟨e, s', h⟩ := h
  unfold loadTop
  rw [M.bind_of_ok (M.attempt_apply _ _), h]
  exact ⟨_, _, rfl⟩

/-- **C17 is violated** by a load from a file that is open for reading only.  The group `/b` has no types table, because a dump to it
was given the option `Custom` and raised.  Loading `/b` raises; the entry of its reference manager is never dropped, and
then `/run/a` can not be loaded any more, although it could before. -/
theorem C17_violated_overlay :
    let s1 := runOps [.dump { Ex.dumpArgs with path := [ps "b"], options := some [("Custom", true)] }, .reopen false] Ex.file1
    let l1 := loadTop ⟨Ex.env, [ps "run", ps "a"], id, 100⟩ s1
    let l2 := loadTop ⟨Ex.env, [ps "b"], id, 100⟩ l1.2
    let l3 := loadTop ⟨Ex.env, [ps "run", ps "a"], id, 100⟩ l2.2
    Ex.isOk l1.1 = true ∧ Ex.raised l2.1 = some .valueError ∧ Ex.raised l3.1 = some .valueError := by
  decide +kernel

end Verif
