import Verif.Hickle.World
import Verif.Props.Examples
/-!
# C18 hickle closes exactly the files it opened

`C18_given_partial` (whatever fails) and `C18_closes_partial` (nothing fails in flush and close) are what
holds of the code; `C18_violated_flush`, `C18_violated_always`: when flushing fails, the file hickle opened stays open.
-/
namespace Verif

/-- the handles that were there before are as open as before -/
def OldKept (w w' : World) : Prop := ∀ (i : Nat) (hd : Handle), w.handles[i]? = some hd → ∃ hd' : Handle, w'.handles[i]? = some hd' ∧ hd'.isOpen = hd.isOpen

/-- the handles that were opened since then are closed -/
def NewClosed (w w' : World) : Prop := ∀ (i : Nat) (hd : Handle), w.handles.length ≤ i → w'.handles[i]? = some hd → hd.isOpen = false

/-- the same handles, as open as before -/
structure SameOpen (w w' : World) : Prop where
  len : w'.handles.length = w.handles.length
  kept : OldKept w w'

theorem SameOpen.refl (w : World) : SameOpen w w := ⟨rfl, fun _ hd h => ⟨hd, h, rfl⟩⟩

theorem onHandle_same {α : Type} (h : Nat) (x : SM α) (w : World) : SameOpen w (onHandle h x w).2 := by
  unfold onHandle
  split
  · exact .refl w
  · split
    · exact .refl w
    · refine ⟨by simp, fun i hd hi => ?_⟩
      simp only [List.getElem?_modify, hi, Option.map_eq_map, Option.map_some]
      split
      · exact ⟨_, rfl, rfl⟩
      · exact ⟨_, rfl, rfl⟩

theorem onHandle_gc {α : Type} (h : Nat) (x : SM α) (w : World) : (onHandle h x w).2.gc = w.gc := by
  unfold onHandle
  split
  · rfl
  · split <;> rfl

/-- what opening does to the table of handles -/
theorem openWhat_handles {o : Opening} {flt : Faults} {w w1 : World} {h : Nat} (e : openWhat o flt w = (.ok h, w1)) :
    (∃ g, o = .given g ∧ h = g ∧ w1 = w) ∨ (∃ src mode, o = .h5File src mode) ∧ h = w.handles.length ∧ ∃ hd, w1.handles = w.handles ++ [hd] ∧ w1.gc = w.gc := by
  cases o with
  | given g => simp [openWhat] at e; exact .inl ⟨g, rfl, e.1.symm, e.2.symm⟩
  | h5File src mode =>
    simp only [openWhat, h5Open] at e
    split at e
    · simp at e
    · split at e
      · simp at e
      · split at e
        · simp at e
        · simp at e
          obtain ⟨rfl, rfl⟩ := e
          exact .inr ⟨⟨_, _, rfl⟩, rfl, _, rfl, rfl⟩

theorem openWhat_error {o : Opening} {flt : Faults} {w w1 : World} {e : PyErr} (h : openWhat o flt w = (.error e, w1)) : w1 = w := by
  cases o with
  | given g => simp [openWhat] at h
  | h5File src mode =>
    simp only [openWhat, h5Open] at h
    split at h
    · simp at h; exact h.2.symm
    · split at h
      · simp at h; exact h.2.symm
      · split at h
        · simp at h; exact h.2.symm
        · simp at h

/-- `file_opener` asks to close exactly what it opens -/
theorem fileOpener_flag {f : FileArg} {path mode : PyStr} {fn : NameArg} {o : Opened} (h : fileOpener f path mode fn = .ok o) :
    (o.closeFlag = true ∧ ∃ src m, o.what = .h5File src m) ∨ (o.closeFlag = false ∧ ∃ g, o.what = .given g) := by
  have hobj : ∀ (x : FObj) (p : PyStr), openObj x p mode = .ok o → o.closeFlag = true ∧ ∃ src m, o.what = .h5File src m := by
    intro x p hx
    simp only [openObj, bind, Except.bind, pure, Except.pure, throw, throwThe, MonadExceptOf.throw] at hx
    repeat' split at hx
    all_goals first
      | (simp at hx; done)
      | (simp only [Except.ok.injEq] at hx; subst hx; exact ⟨rfl, _, _, rfl⟩)
  unfold fileOpener at h
  repeat' split at h
  all_goals first
    | (simp at h; done)
    | (simp only [Except.ok.injEq] at h; subst h; exact .inl ⟨rfl, _, _, rfl⟩)
    | (simp only [Except.ok.injEq] at h; subst h; exact .inr ⟨rfl, _, rfl⟩)
    | exact .inl (hobj _ _ h)

/-- the `finally` clause, written out -/
theorem closing_eq (h : Nat) (flag : Bool) (flt : Faults) (w : World) : closing h flag flt w =
    match flt.flush with
    | some e => (.error e, w)
    | none =>
      if flag then
        match flt.close with
        | some e => (.error e, { w with gc := false })
        | none => (.ok (), { w with gc := true, handles := w.handles.modify h fun hd => { hd with isOpen := false } })
      else (.ok (), { w with gc := true }) := by
  unfold closing
  cases hf : flt.flush with
  | some e => rfl
  | none =>
    cases flag with
    | false => rfl
    | true =>
      cases hc : flt.close with
      | some e => simp [fault, h5Close, hc, M.bind_apply]
      | none => simp [fault, h5Close, hc, M.bind_apply, World.handle]

theorem finally_eq {σ α : Type} (x : M σ α) (fin : M σ Unit) (s : σ) : finally' x fin s =
    match fin (x s).2 with
    | (.ok _, s') => ((x s).1, s')
    | (.error e, s') => (.error e, s') := by
  simp only [finally', M.bind_apply, M.attempt_apply]
  cases fin (x s).2 with
  | mk r s' => cases r <;> rfl

/-- the ways a call can go: the argument is refused, the file can not be opened, or the body runs -/
theorem withFile_cases {α : Type} (f : FileArg) (path mode : PyStr) (fn : NameArg) (flt : Faults) (body : Nat → PyStr → WM α) (w : World) :
    (∃ e, withFile f path mode fn flt body w = (.error e, w)) ∨
    ∃ o h w1, fileOpener f path mode fn = .ok o ∧ openWhat o.what flt w = (.ok h, w1) ∧
      withFile f path mode fn flt body w = finally' (body h o.path) (closing h o.closeFlag flt) w1 := by
  unfold withFile
  cases ho : fileOpener f path mode fn with
  | error e => exact .inl ⟨e, rfl⟩
  | ok o =>
    rw [M.bind_of_ok (show M.ofExcept (.ok o) w = (.ok o, w) from rfl)]
    cases hw : openWhat o.what flt w with
    | mk r w1 =>
      cases r with
      | error e =>
        have := openWhat_error hw; subst this
        exact .inl ⟨e, by rw [M.bind_of_error hw]⟩
      | ok h => exact .inr ⟨o, h, w1, rfl, hw, by rw [M.bind_of_ok hw]⟩

/-- what a call does to the handles, if its body does not open or close files -/
theorem withFile_handles {α : Type} (f : FileArg) (path mode : PyStr) (fn : NameArg) (flt : Faults) (body : Nat → PyStr → WM α)
    (hb : ∀ h p w, SameOpen w (body h p w).2) (w : World) :
    OldKept w (withFile f path mode fn flt body w).2 ∧
    (flt.flush = none → flt.close = none → NewClosed w (withFile f path mode fn flt body w).2) := by
  rcases withFile_cases f path mode fn flt body w with ⟨e, h⟩ | ⟨o, h, w1, h1, h2, h3⟩
  · rw [h]
    exact ⟨(SameOpen.refl w).kept, fun _ _ i hd hi hx => by
      have := (List.getElem?_eq_some_iff.1 hx).1; simp only at this; omega⟩
  · rw [h3, finally_eq, closing_eq]
    have hs := hb h o.path w1
    have hf := fileOpener_flag h1
    rcases openWhat_handles h2 with ⟨g, e1, rfl, rfl⟩ | ⟨⟨src, m, e1⟩, rfl, hd0, e2, _⟩
    · have hflag : o.closeFlag = false := by
        rcases hf with ⟨_, src, m, e⟩ | ⟨hf, _⟩
        · rw [e1] at e; simp at e
        · exact hf
      rw [hflag]
      have hk : OldKept w1 (body h o.path w1).2 ∧ NewClosed w1 (body h o.path w1).2 := by
        refine ⟨hs.kept, fun i hd hi hx => ?_⟩
        have := (List.getElem?_eq_some_iff.1 hx).1
        rw [hs.len] at this; omega
      cases flt.flush with
      | some e => exact ⟨hk.1, fun h0 => by simp at h0⟩
      | none => exact ⟨hk.1, fun _ _ => hk.2⟩
    · have hflag : o.closeFlag = true := by
        rcases hf with ⟨hf, _⟩ | ⟨_, g, e⟩
        · exact hf
        · rw [e1] at e; simp at e
      rw [hflag]
      have hold : ∀ (i : Nat) (hd : Handle), w.handles[i]? = some hd → ∃ hd', (body w.handles.length o.path w1).2.handles[i]? = some hd' ∧ hd'.isOpen = hd.isOpen := by
        intro i hd hi
        refine hs.kept i hd ?_
        rw [e2, List.getElem?_append_left (List.getElem?_eq_some_iff.1 hi).1]; exact hi
      have hlen : (body w.handles.length o.path w1).2.handles.length = w.handles.length + 1 := by
        rw [hs.len, e2]; simp
      cases flt.flush with
      | some e => exact ⟨hold, fun h0 => by simp at h0⟩
      | none =>
        cases flt.close with
        | some e => exact ⟨hold, fun _ h0 => by simp at h0⟩
        | none =>
          refine ⟨fun i hd hi => ?_, fun _ _ i hd hi hx => ?_⟩
          · obtain ⟨hd', g1, g2⟩ := hold i hd hi
            have hlt := (List.getElem?_eq_some_iff.1 hi).1
            refine ⟨hd', ?_, g2⟩
            simp only [if_true, List.getElem?_modify, g1, Option.map_eq_map, Option.map_some]
            rw [if_neg (by omega)]
          · simp only [if_true, List.getElem?_modify, Option.map_eq_map, Option.map_eq_some_iff] at hx
            obtain ⟨y, hy, rfl⟩ := hx
            have := (List.getElem?_eq_some_iff.1 hy).1
            rw [if_pos (by omega)]

/-- **C18, the caller's files.**  Whatever fails: a file that was open before the call is open after it (and one that
was closed is closed).  Missing from the property: the files hickle opened, next theorem. -/
theorem C18_given_partial (flt : Faults) (w : World) :
    (∀ a f mode path fn, OldKept w (dumpFile a f mode path fn flt w).2) ∧ (∀ a f path fn, OldKept w (loadFile a f path fn flt w).2) :=
  ⟨fun _ f mode path fn => (withFile_handles f path mode fn flt _ (fun h _ w => onHandle_same h _ w) w).1,
   fun _ f path fn => (withFile_handles f path _ fn flt _ (fun h _ w => onHandle_same h _ w) w).1⟩

/-- **C18, the files hickle opened.**  On every exit, normal or exceptional, they are closed.
Missing: the exits on which flushing or closing the file fails. -/
theorem C18_closes_partial {flt : Faults} (h1 : flt.flush = none) (h2 : flt.close = none) (w : World) :
    (∀ a f mode path fn, NewClosed w (dumpFile a f mode path fn flt w).2) ∧ (∀ a f path fn, NewClosed w (loadFile a f path fn flt w).2) :=
  ⟨fun _ f mode path fn => (withFile_handles f path mode fn flt _ (fun h _ w => onHandle_same h _ w) w).2 h1 h2,
   fun _ f path fn => (withFile_handles f path _ fn flt _ (fun h _ w => onHandle_same h _ w) w).2 h1 h2⟩

/-- a caller with one open file; `a.h5` exists too -/
def Ex.world : World :=
  { files := [(.name (ps "b.h5"), emptyStore), (.name (ps "a.h5"), emptyStore)], handles := [{ src := .name (ps "b.h5"), writable := true }], reg := Registry.initial }

/-- a dump that fails (a lambda can not be pickled) does open a file, and it is closed -/
example : ∃ e, (dumpFile (Ex.args [⟨.user 0, .opaque 5 false⟩] 0) (.name (ps "a.h5")) (ps "w") (ps "/") .absent {} Ex.world).1 = .error e ∧
    (dumpFile (Ex.args [⟨.user 0, .opaque 5 false⟩] 0) (.name (ps "a.h5")) (ps "w") (ps "/") .absent {} Ex.world).2.handles =
      [{ src := .name (ps "b.h5"), writable := true }, { src := .name (ps "a.h5"), writable := true, isOpen := false }] := by
  have h : Ex.raised (dumpFile (Ex.args [⟨.user 0, .opaque 5 false⟩] 0) (.name (ps "a.h5")) (ps "w") (ps "/") .absent {} Ex.world).1 = some .picklingError := by
    decide +kernel
  refine ⟨_, by rw [Ex.eq_of_raised h], by decide +kernel⟩

/-- **C18 is violated.**  When flushing fails, the file that hickle opened stays open: `h5f.close()` is not reached. -/
theorem C18_violated_flush :
    ∃ w', dumpFile (Ex.args [⟨.noneType, .none⟩] 0) (.name (ps "a.h5")) (ps "w") (ps "/") .absent { flush := some .osError } Ex.world = (.error .osError, w') ∧
      w'.handles[1]? = some { src := .name (ps "a.h5"), writable := true, isOpen := true } := by
  have h : Ex.raised (dumpFile (Ex.args [⟨.noneType, .none⟩] 0) (.name (ps "a.h5")) (ps "w") (ps "/") .absent { flush := some .osError } Ex.world).1 = some .osError := by
    decide +kernel
  exact ⟨_, Ex.eq_of_raised h, by decide +kernel⟩

/-- the handles that were opened since then are still open -/
def NewOpen (w w' : World) : Prop := ∀ (i : Nat) (hd : Handle), w.handles.length ≤ i → w'.handles[i]? = some hd → hd.isOpen = true

theorem openWhat_open {o : Opening} {flt : Faults} {w w1 : World} {h : Nat} (e : openWhat o flt w = (.ok h, w1)) : NewOpen w w1 := by
  intro i hd hi hx
  have hlt := (List.getElem?_eq_some_iff.1 hx).1
  cases o with
  | given g => simp [openWhat] at e; rw [← e.2] at hlt; omega
  | h5File src mode =>
    simp only [openWhat, h5Open] at e
    split at e
    · simp at e
    · split at e
      · simp at e
      · split at e
        · simp at e
        · simp at e
          obtain ⟨rfl, rfl⟩ := e
          simp only [List.length_append, List.length_cons, List.length_nil] at hlt
          have : i = w.handles.length := by omega
          subst this
          simp at hx
          rw [← hx]

theorem withFile_leaks {α : Type} (f : FileArg) (path mode : PyStr) (fn : NameArg) {flt : Faults} {e : PyErr} (hf : flt.flush = some e)
    (body : Nat → PyStr → WM α) (hb : ∀ h p w, SameOpen w (body h p w).2) (w : World) : NewOpen w (withFile f path mode fn flt body w).2 := by
  rcases withFile_cases f path mode fn flt body w with ⟨e, h⟩ | ⟨o, h, w1, _, h2, h3⟩
  · rw [h]
    intro i hd hi hx
    have := (List.getElem?_eq_some_iff.1 hx).1; simp only at this; omega
  · rw [h3, finally_eq, closing_eq, hf]
    have hs := hb h o.path w1
    intro i hd hi hx
    have hlt := (List.getElem?_eq_some_iff.1 hx).1
    simp only at hlt hx
    rw [hs.len] at hlt
    obtain ⟨hd', g1, g2⟩ := hs.kept i _ (List.getElem?_eq_getElem hlt)
    rw [hx] at g1
    cases g1
    rw [g2]
    exact openWhat_open h2 i _ hi (List.getElem?_eq_getElem hlt)

/-- **C18 is violated by every call whose flush fails.**  Every file hickle has opened in the call, for dump or for load, stays open. -/
theorem C18_violated_always {flt : Faults} {e : PyErr} (hf : flt.flush = some e) (w : World) :
    (∀ a f mode path fn, NewOpen w (dumpFile a f mode path fn flt w).2) ∧ (∀ a f path fn, NewOpen w (loadFile a f path fn flt w).2) :=
  ⟨fun _ f mode path fn => withFile_leaks f path mode fn hf _ (fun h _ w => onHandle_same h _ w) w,
   fun _ f path fn => withFile_leaks f path _ fn hf _ (fun h _ w => onHandle_same h _ w) w⟩

/-- in `C18_violated_flush` there is such a file -/
example : (dumpFile (Ex.args [⟨.noneType, .none⟩] 0) (.name (ps "a.h5")) (ps "w") (ps "/") .absent { flush := some .osError } Ex.world).2.handles.length =
    Ex.world.handles.length + 1 := by decide +kernel

end Verif
