import Verif.Props.Examples
/-!
# C14 dump never overwrites existing data in a group
-/
namespace Verif

variable {P : Nat → Prop}

/-- **C14.**  Dumping to a path whose group has members raises `ValueError` and changes nothing at all: neither the
file nor the state of the process.  Any object, any options, any file. -/
theorem C14_refused (a : DumpArgs) (s : Session) {g : NodeId} {ls : List (PyStr × NodeId)} (hw : s.writable = true) (hp : pathOk a.path = .ok ())
    (hg : s.store.resolve 0 a.path = some g) (hl : s.store.links g = some ls) (hne : ls ≠ []) :
    dumpTop a s = (.error .valueError, s) := by
  have h : dumpGroup a.path s = (.error .valueError, s) := by
    unfold dumpGroup
    rw [hp]; simp only []
    rw [hg]; simp only []
    rw [hl]
    cases ls with
    | nil => simp at hne
    | cons e ls => rfl
  unfold dumpTop
  rw [M.bind_of_ok (M.get_apply s), hw]
  simp only [Bool.not_true, Bool.false_eq_true, if_false]
  rw [M.bind_of_error h]

/-- **C14.**  Whatever a dump does, returning or raising, to whatever path: every dataset that was in the file is unchanged,
every group keeps its members, and a group that had members keeps its attributes. -/
theorem C14_preserved {a : DumpArgs} {s : Session} (hE : EnvOk P a.env) (hP : ProtOk P a.env) (hreg : RegInv P s.reg) {n : NodeId} {nd : Node}
    (hn : s.store[n]? = some nd) :
    (∀ d, nd.body = .dset d → (dumpTop a s).2.store[n]? = some nd) ∧
    (∀ ls, nd.body = .group ls → ∃ at' new, (dumpTop a s).2.store[n]? = some ⟨nd.name, at', .group (ls ++ new)⟩ ∧ (ls ≠ [] → at' = nd.attrs)) := by
  obtain ⟨nd', h1, h2, h3, h4, h5, _⟩ := (dumpTop_post (a := a) (s := s) hE hP hreg).chg.keep n nd hn
  refine ⟨fun d hd => by rw [h1, h3 d hd], fun ls hls => ?_⟩
  obtain ⟨l, hl⟩ := h4 ls hls
  refine ⟨nd'.attrs, l, ?_, fun hne => h5 (by rw [hls]; simpa using hne)⟩
  rw [h1]
  obtain ⟨nm, at', body⟩ := nd'
  simp only at h2 hl ⊢
  rw [h2, hl]

/-- a second dump to the same path of the file of `Ex`, of another object -/
example : dumpTop { Ex.dumpArgs with obj := 3 } Ex.file1 = (.error .valueError, Ex.file1) := by
  have h : (match Ex.file1.store.resolve 0 [ps "run", ps "a"] with
      | some g => match Ex.file1.store.links g with
        | some (_ :: _) => true
        | _ => false
      | none => false) = true := by decide +kernel
  split at h
  · next g hg =>
    split at h
    · next e ls hl => exact C14_refused _ _ (by decide +kernel) rfl hg hl (by simp)
    · simp at h
  · simp at h

end Verif
