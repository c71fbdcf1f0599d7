import Verif.Props.C18
/-!
# C19 The garbage collector setting of the caller is left as found

Violated: `C19_violated_enabled` (a collector switched off by the caller is switched on by every call),
`C19_violated_disabled` (it stays off when closing the file fails).  `C19_partial` is what holds.
-/
namespace Verif

theorem withFile_gc {α : Type} (f : FileArg) (path mode : PyStr) (fn : NameArg) (flt : Faults) (body : Nat → PyStr → WM α)
    (hb : ∀ h p w, (body h p w).2.gc = w.gc) (w : World) :
    (withFile f path mode fn flt body w).2.gc = w.gc ∨ (flt.flush = none ∧ flt.close = none ∧ (withFile f path mode fn flt body w).2.gc = true) ∨
    (flt.flush = none ∧ (withFile f path mode fn flt body w).2.gc = true) ∨ (flt.flush = none ∧ flt.close.isSome ∧ (withFile f path mode fn flt body w).2.gc = false) := by
  rcases withFile_cases f path mode fn flt body w with ⟨e, h⟩ | ⟨o, h, w1, h1, h2, h3⟩
  · rw [h]; exact .inl rfl
  · rw [h3, finally_eq, closing_eq]
    have hgc : (body h o.path w1).2.gc = w.gc := by
      rw [hb]
      rcases openWhat_handles h2 with ⟨g, _, _, rfl⟩ | ⟨_, _, _, _, h⟩
      · rfl
      · exact h
    cases flt.flush with
    | some e => exact .inl hgc
    | none =>
      cases o.closeFlag with
      | false => exact .inr (.inr (.inl ⟨rfl, rfl⟩))
      | true =>
        cases flt.close with
        | some e => exact .inr (.inr (.inr ⟨rfl, rfl, rfl⟩))
        | none => exact .inr (.inl ⟨rfl, rfl, rfl⟩)

/-- **C19, partial.**  A collector that is enabled stays enabled, on every exit on which closing the file does not fail.
Missing: a collector that is disabled, and failures of `close`; there the code violates the property. -/
theorem C19_partial {flt : Faults} (hc : flt.close = none) {w : World} (hw : w.gc = true) :
    (∀ a f mode path fn, (dumpFile a f mode path fn flt w).2.gc = w.gc) ∧ (∀ a f path fn, (loadFile a f path fn flt w).2.gc = w.gc) := by
  have main : ∀ {α : Type} (f : FileArg) (path mode : PyStr) (fn : NameArg) (body : Nat → PyStr → WM α) (_ : ∀ h p w, (body h p w).2.gc = w.gc),
      (withFile f path mode fn flt body w).2.gc = w.gc := by
    intro α f path mode fn body hb
    rcases withFile_gc f path mode fn flt body hb w with h | ⟨_, _, h⟩ | ⟨_, h⟩ | ⟨_, h, _⟩
    · exact h
    · rw [h, hw]
    · rw [h, hw]
    · rw [hc] at h; simp at h
  exact ⟨fun _ f mode path fn => main f path mode fn _ fun h _ w => onHandle_gc h _ w, fun _ f path fn => main f path _ fn _ fun h _ w => onHandle_gc h _ w⟩

/-- the hypotheses are met, also by a call that fails -/
example : (loadFile ⟨Ex.env, [], id, 100⟩ (.name (ps "a.h5")) (ps "/x") .absent {} Ex.world).2.gc = true :=
  (C19_partial rfl rfl).2 ⟨Ex.env, [], id, 100⟩ (.name (ps "a.h5")) (ps "/x") .absent

/-- **C19 is violated, always.**  Whatever the arguments and the outcome: once the file is open, and flushing and closing
succeed, the collector is enabled after the call, also if the caller had disabled it. -/
theorem C19_violated_enabled {flt : Faults} (h1 : flt.flush = none) (h2 : flt.close = none) {w w1 : World} {a : DumpArgs} {f : FileArg} {mode path : PyStr}
    {fn : NameArg} {o : Opened} {h : Nat} (ho : fileOpener f path mode fn = .ok o) (hw : openWhat o.what flt w = (.ok h, w1)) :
    (dumpFile a f mode path fn flt w).2.gc = true := by
  unfold dumpFile withFile
  rw [ho, M.bind_of_ok (show M.ofExcept (.ok o) w = (.ok o, w) from rfl), M.bind_of_ok hw, finally_eq, closing_eq, h1, h2]
  cases o.closeFlag <;> rfl

/-- … as here: the caller disabled the collector, `dump` returns, the collector is enabled -/
example : ∃ w', dumpFile (Ex.args [⟨.noneType, .none⟩] 0) (.name (ps "a.h5")) (ps "w") (ps "/") .absent {} { Ex.world with gc := false } = (.ok (), w') ∧ w'.gc = true := by
  obtain ⟨x, h⟩ := Ex.eq_of_isOk (r := dumpFile (Ex.args [⟨.noneType, .none⟩] 0) (.name (ps "a.h5")) (ps "w") (ps "/") .absent {} { Ex.world with gc := false }) (by decide +kernel)
  exact ⟨_, h, by decide +kernel⟩

/-- **C19 is violated.**  The collector is enabled before the call; closing the file fails; it stays disabled. -/
theorem C19_violated_disabled :
    ∃ w', dumpFile (Ex.args [⟨.noneType, .none⟩] 0) (.name (ps "a.h5")) (ps "w") (ps "/") .absent { close := some .osError } Ex.world = (.error .osError, w') ∧
      Ex.world.gc = true ∧ w'.gc = false := by
  have h : Ex.raised (dumpFile (Ex.args [⟨.noneType, .none⟩] 0) (.name (ps "a.h5")) (ps "w") (ps "/") .absent { close := some .osError } Ex.world).1 = some .osError := by
    decide +kernel
  exact ⟨_, Ex.eq_of_raised h, rfl, by decide +kernel⟩

end Verif
