import Verif.Props.Examples
/-!
# C22 Files are read by the loader of the version that wrote them
-/
namespace Verif

variable {P : Nat → Prop}

/-- all the attributes are there and none of their values is empty, zero or false -/
def HasAll (at' : Attrs) (names : List String) : Prop := ∀ n ∈ names, ∃ v, Assoc.get? at' n = some v ∧ v.truthy = true

/-- the text before the first `.` of a version text -/
def majorText (s : String) : PyStr := (s.toList.takeWhile (· ≠ '.')).map Char.toNat

/-- the root of the file carries the attributes of hickle 3 -/
def LooksV3 (fileAttrs : Attrs) : Prop := HasAll fileAttrs ["CLASS", "VERSION", "PYTHON_VERSION"]
/-- the group carries the attributes of hickle 4 and later -/
def LooksV4 (groupAttrs : Attrs) : Prop := HasAll groupAttrs ["HICKLE_VERSION", "HICKLE_PYTHON_VERSION"]

theorem allTruthy_iff (at' : Attrs) (names : List String) : allTruthy at' names = true ↔ HasAll at' names := by
  unfold allTruthy HasAll
  rw [List.all_eq_true]
  refine forall_congr' fun n => forall_congr' fun _ => ?_
  cases Assoc.get? at' n with
  | none => simp
  | some v => simp

theorem allTruthy_false (at' : Attrs) (names : List String) : allTruthy at' names = false ↔ ¬ HasAll at' names := by
  rw [← allTruthy_iff]; simp

theorem parseInt_three {c : Char} (h : parseInt [c.toNat] = some 3) : c = '3' := by
  have h1 : parseInt [c.toNat] = (if isDigit c.toNat then some ((c.toNat - 48 : Nat) : Int) else none) := by
    unfold parseInt
    split
    · next e => simp at e; rw [e.1]; rw [e.2]; decide
    · simp only [parseNat, parseDigits]; split <;> simp
  rw [h1] at h
  split at h
  · simp at h
    apply Char.ext
    apply UInt32.toNat_inj.1
    show c.toNat = 51
    omega
  · simp at h

/-- **C22, the version 3 reader.**  It is selected by the attributes of the root of the file alone. -/
theorem C22_v3 (fa ga : Attrs) : route fa ga = .v3 ↔
    LooksV3 fa ∧ Assoc.get? fa "CLASS" = some (.bytes "hickle") ∧ ∃ c rest, Assoc.get? fa "VERSION" = some (.bytes (String.ofList (c :: rest))) ∧ c = '3' := by
  unfold route LooksV3
  constructor
  · intro h
    split at h
    · next h1 =>
      refine ⟨(allTruthy_iff _ _).1 h1, ?_⟩
      split at h
      · simp at h
      · next h2 =>
        split at h
        · next h3 =>
          refine ⟨by simpa using h2, ?_⟩
          unfold v3Major at h3
          split at h3
          · next s hs =>
            split at h3
            · simp at h3
            · next c cs hc =>
              refine ⟨c, cs, ?_, ?_⟩
              · rw [hs, ← hc, String.ofList_toList]
              · exact parseInt_three h3
          · simp at h3
        · simp at h
    · next h1 =>
      repeat' split at h
      all_goals simp at h
  · rintro ⟨h1, h2, c, rest, h3, rfl⟩
    rw [if_pos ((allTruthy_iff _ _).2 h1), if_neg (by simp [h2]), if_pos]
    rw [h3]; simp only [v3Major, String.toList_ofList]; decide

/-- **C22, the two other readers.**  Without the attributes of version 3, those of the group decide: major version 4 selects the
compatibility mode, any other number the current reader. -/
theorem C22_v4_or_current (fa ga : Attrs) : (route fa ga = .v4 ↔
      ¬ LooksV3 fa ∧ LooksV4 ga ∧ ∃ s, Assoc.get? ga "HICKLE_VERSION" = some (.bytes s) ∧ parseInt (majorText s) = some 4) ∧
    (route fa ga = .current ↔
      ¬ LooksV3 fa ∧ LooksV4 ga ∧ ∃ s n, Assoc.get? ga "HICKLE_VERSION" = some (.bytes s) ∧ parseInt (majorText s) = some n ∧ n ≠ 4) := by
  unfold route LooksV3 LooksV4
  rw [← allTruthy_iff, ← allTruthy_iff]
  cases h1 : allTruthy fa ["CLASS", "VERSION", "PYTHON_VERSION"] with
  | true =>
    simp only [if_true, not_true, false_and, iff_false]
    constructor
    · split
      · simp
      · split <;> simp
    · split
      · simp
      · split <;> simp
  | false =>
    simp only [Bool.false_eq_true, if_false, not_false_eq_true, true_and]
    cases h2 : allTruthy ga ["HICKLE_VERSION", "HICKLE_PYTHON_VERSION"] with
    | false => simp
    | true =>
      simp only [if_true, true_and]
      cases h3 : Assoc.get? ga "HICKLE_VERSION" with
      | none => simp
      | some v =>
        cases v with
        | bytes s =>
          have hm : majorVersion (.bytes s) = (match parseInt (majorText s) with
            | some i => .ok i
            | none => .error .valueError) := rfl
          simp only [hm, Option.some.injEq, AttrVal.bytes.injEq, exists_eq_left']
          cases hp : parseInt (majorText s) with
          | none => simp [hp]
          | some i =>
            by_cases hi : i = 4
            · simp [hp, hi]
            · simp [hp, hi]
        | _ => simp [majorVersion]

/-- **C22, refusal.**  With neither set of attributes `load` raises `ValueError`, whatever else is in the file. -/
theorem C22_refused (a : LoadArgs) (s : Session) (h3 : ¬ LooksV3 ((s.store.attrs 0).getD []))
    (h4 : ∀ g, s.store.resolve 0 a.path = some g → ¬ LooksV4 ((s.store.attrs g).getD [])) (hp : pathOk a.path = .ok ()) :
    loadTop a s = (.error .valueError, s) := by
  have h : ∃ e, loadTry a s = (.error e, s) ∧ wrapLoad e = .valueError := by
    unfold loadTry
    rw [M.bind_of_ok (M.get_apply s), hp]
    simp only []
    cases hr : s.store.resolve 0 a.path with
    | none => exact ⟨_, rfl, rfl⟩
    | some g =>
      simp only []
      cases s.store.links g with
      | none => exact ⟨_, rfl, rfl⟩
      | some ls =>
        simp only []
        have : route ((s.store.attrs 0).getD []) ((s.store.attrs g).getD []) = .refuse .fileError := by
          unfold route
          rw [if_neg (by rw [allTruthy_iff]; exact h3), if_neg (by rw [allTruthy_iff]; exact h4 g hr)]
        rw [this]
        exact ⟨_, rfl, rfl⟩
  obtain ⟨e, h, hw⟩ := h
  unfold loadTop
  rw [M.bind_of_ok (M.attempt_apply _ _), h]
  simp only [M.throw_apply, hw]

/-- **C22, own files.**  What dump has written is read in current mode, after any calls that follow and do not lead into the dump,
if the root of the file does not look like version 3 (which no call of dump brings about, see `FileOk`). -/
theorem C22_own {a : DumpArgs} {s s' : Session} (h : GoodDump P a s s') {ops : List Op} (hok : ∀ o ∈ ops, o.ok P)
    (hp : ∀ o ∈ ops, ∀ q, o.path = some q → Avoids a.path q) :
    ∃ g ga, (runOps ops s').store.resolve 0 a.path = some g ∧ (runOps ops s').store.attrs g = some ga ∧
      route (((runOps ops s').store.attrs 0).getD []) ga = .current := by
  obtain ⟨H, W, g, T, m, N, M', k⟩ := h.stored.run hok h.file' hp
  obtain ⟨at', h1, h2⟩ := k.attrs
  exact ⟨g, at', k.res, h1, route_current h2 (h.file'.run hok).noV3⟩

/-- a new file does not look like version 3 -/
example : ¬ LooksV3 ((Ex.file0.store.attrs 0).getD []) := by
  unfold LooksV3; rw [← allTruthy_iff]; decide

/-- A file of version 3 is one for all readers: something dumped by this version to a free path of it is given to the version 3
reader. -/
theorem C22_mixed :
    let f : Session := { Ex.file0 with store := [⟨[], [("CLASS", .bytes "hickle"), ("VERSION", .bytes "3.4.9"), ("PYTHON_VERSION", .bytes "3.7.4")], .group []⟩] }
    let d := dumpTop Ex.dumpArgs f
    Ex.isOk d.1 = true ∧ (match d.2.store.resolve 0 Ex.dumpArgs.path with
      | some g => some (route ((d.2.store.attrs 0).getD []) ((d.2.store.attrs g).getD []))
      | none => none) = some .v3 := by
  decide +kernel

/-- the cases of the decision are all met -/
example : route [] [("HICKLE_VERSION", .bytes "4.0.4"), ("HICKLE_PYTHON_VERSION", .bytes "3.7.4")] = .v4 ∧
    route [] [("HICKLE_VERSION", .bytes "5.0.3"), ("HICKLE_PYTHON_VERSION", .bytes "3.7.4")] = .current ∧
    route [] [("HICKLE_VERSION", .bytes "40.0"), ("HICKLE_PYTHON_VERSION", .bytes "3.7.4")] = .current ∧
    route [("CLASS", .bytes "hickle"), ("VERSION", .bytes "3.4.9"), ("PYTHON_VERSION", .bytes "3.7.4")] [] = .v3 ∧
    route [("CLASS", .bytes "hickle"), ("VERSION", .bytes "2.1"), ("PYTHON_VERSION", .bytes "3.7.4")] [] = .refuse .runtimeError ∧
    route [] [("HICKLE_VERSION", .bytes "5.0.3")] = .refuse .fileError := by decide +kernel

end Verif
