import Verif.Props.Examples
/-!
# C30 Loading never modifies the file
-/
namespace Verif

/-- the file `S` with an empty group called `hickle_types_table` added to group `g` -/
def withEmptyTable (S : Store) (g : NodeId) : Store :=
  S.modify g (fun nd => match nd.body with
    | .group ls => { nd with body := .group (ls ++ [(tableName, S.length)]) }
    | .dset _ => nd) ++ [{ name := tableName, attrs := [], body := .group [] }]

theorem loadBodyTop_store (a : LoadArgs) (g : NodeId) (mgr : Manager) (m : RefMgr) (s : Session) : (loadBodyTop a g mgr m s).2.store = s.store := by
  unfold loadBodyTop
  cases s.store.links g with
  | none => rfl
  | some ls =>
    simp only []
    cases Assoc.get? ls dataName0 with
    | none => rfl
    | some d =>
      simp only []
      repeat' split
      all_goals rfl

theorem refInit_store {env : Env} {g : NodeId} {s : Session} : (refInit env g s).2.store = s.store ∨
    (s.writable = true ∧ (∃ ls, s.store.links g = some ls ∧ Assoc.get? ls tableName = none) ∧ (refInit env g s).2.store = withEmptyTable s.store g) := by
  unfold refInit
  cases hl : s.store.links g with
  | none => exact .inl rfl
  | some ls =>
    simp only []
    cases ht : Assoc.get? ls tableName with
    | none =>
      simp only []
      cases hw : s.writable with
      | false => exact .inl rfl
      | true =>
        simp only [if_true]
        cases hc : s.store.create g tableName (.group []) with
        | error e => exact .inl rfl
        | ok r =>
          obtain ⟨T, st⟩ := r
          refine .inr ⟨trivial, ⟨ls, rfl, ht⟩, ?_⟩
          simp only [Store.create, hl] at hc
          repeat' split at hc
          all_goals simp at hc
          obtain ⟨rfl, rfl⟩ := hc
          unfold withEmptyTable
          obtain ⟨nd, h1, h2⟩ := Store.links_eq hl
          simp only []
          congr 1
          apply List.ext_getElem?
          intro i
          rw [List.getElem?_modify, List.getElem?_modify]
          by_cases hi : g = i
          · subst hi; rw [h1]; simp [h2]
          · simp [hi]
    | some T =>
      simp only []
      repeat' split
      all_goals exact .inl rfl

/-- **C30 (partial).**  load leaves the content of the file as it was, whatever is in the file, whether it returns or raises, with
one exception: the file is open for writing and the group has no types table.  Then an empty one is added and that is all.
What is missing from C30: that exception.  See `C30_violated`. -/
theorem C30_partial (a : LoadArgs) (s : Session) : (loadTop a s).2.store = s.store ∨
    (s.writable = true ∧ ∃ g ls, s.store.resolve 0 a.path = some g ∧ s.store.links g = some ls ∧ Assoc.get? ls tableName = none ∧
      (loadTop a s).2.store = withEmptyTable s.store g) := by
  have main : (loadTry a s).2.store = s.store ∨
    (s.writable = true ∧ ∃ g ls, s.store.resolve 0 a.path = some g ∧ s.store.links g = some ls ∧ Assoc.get? ls tableName = none ∧
      (loadTry a s).2.store = withEmptyTable s.store g) := by
    unfold loadTry
    rw [M.bind_of_ok (M.get_apply s)]
    cases pathOk a.path with
    | error e => exact .inl rfl
    | ok u =>
      simp only []
      cases hr : s.store.resolve 0 a.path with
      | none => exact .inl rfl
      | some g =>
        simp only []
        cases hl : s.store.links g with
        | none => exact .inl rfl
        | some ls =>
          simp only []
          cases route ((s.store.attrs 0).getD []) ((s.store.attrs g).getD []) with
          | v3 => exact .inl rfl
          | v4 => exact .inl rfl
          | refuse e => exact .inl rfl
          | current =>
            simp only []
            have hle : (loaderEnter g none s).2.store = s.store ∧ (loaderEnter g none s).2.writable = s.writable := by
              unfold loaderEnter
              rw [M.bind_of_ok (M.get_apply s)]
              cases s.ldr with
              | true => exact ⟨rfl, rfl⟩
              | false =>
                simp only [Bool.false_eq_true, if_false]
                rw [M.bind_apply, optionMaps_none]
                cases optMaps (attrOptions ((s.store.attrs g).getD [])) [none] with
                | error e => exact ⟨rfl, rfl⟩
                | ok maps => exact ⟨rfl, rfl⟩
            rw [M.bind_apply]
            cases he : loaderEnter g none s with
            | mk r s1 =>
              rw [he] at hle
              obtain ⟨h1, h2⟩ := hle
              simp only at h1 h2
              cases r with
              | error e => exact .inl h1
              | ok mgr =>
                simp only []
                unfold loaderExit
                rw [finally'_modify]
                simp only []
                unfold refEnter
                simp only [M.bind_apply, M.get_apply]
                cases s1.ref with
                | true => exact .inl h1
                | false =>
                  simp only [Bool.false_eq_true, if_false, M.bind_apply]
                  have hi := refInit_store (env := a.env) (g := g) (s := s1)
                  rw [h1, h2] at hi
                  cases hi2 : refInit a.env g s1 with
                  | mk r s2 =>
                    rw [hi2] at hi
                    simp only at hi
                    have hi' : s2.store = s.store ∨ (s.writable = true ∧ ∃ g1 ls1, some g = some g1 ∧ s.store.links g1 = some ls1 ∧
                        Assoc.get? ls1 tableName = none ∧ s2.store = withEmptyTable s.store g1) := by
                      rcases hi with hi | ⟨hw, ⟨ls', hl', ht⟩, hi⟩
                      · exact .inl hi
                      · exact .inr ⟨hw, g, ls', rfl, hl', ht, hi⟩
                    cases r with
                    | error e => exact hi'
                    | ok m =>
                      simp only []
                      unfold refExit
                      simp only [M.modify_apply, finally'_modify, M.pure_apply]
                      rw [loadBodyTop_store]
                      exact hi'
  unfold loadTop
  rw [M.bind_of_ok (M.attempt_apply _ _)]
  cases he : loadTry a s with
  | mk r s1 =>
    rw [he] at main
    cases r with
    | error e => exact main
    | ok v => exact main

/-- **C30** for files that are open for reading only. -/
theorem C30_readonly (a : LoadArgs) (s : Session) (h : s.writable = false) : (loadTop a s).2.store = s.store := by
  rcases C30_partial a s with h1 | ⟨h1, _⟩
  · exact h1
  · rw [h] at h1; simp at h1

/-- **C30** for what dump has written, in any mode: the group has a types table. -/
theorem C30_with_table (a : LoadArgs) (s : Session) {g : NodeId} {ls : List (PyStr × NodeId)} (hg : s.store.resolve 0 a.path = some g)
    (hl : s.store.links g = some ls) (ht : (Assoc.get? ls tableName).isSome) : (loadTop a s).2.store = s.store := by
  rcases C30_partial a s with h1 | ⟨_, g', ls', h1, h2, h3, _⟩
  · exact h1
  · rw [hg] at h1; cases h1
    rw [hl] at h2; cases h2
    rw [h3] at ht; simp at ht

/-- the file of `Ex`, open for writing, has one -/
example : (match Ex.file1.store.resolve 0 [ps "run", ps "a"] with
    | some g => match Ex.file1.store.links g with
      | some ls => (Assoc.get? ls tableName).isSome
      | none => false
    | none => false) = true ∧ Ex.file1.writable = true := by decide +kernel

/-- **C30 is violated** by a load from a file that is open for writing, from a group that has the version attributes and no types
table, such as one a dump with the option `Custom` (instead of `custom`) has left.  The load raises and a group is added to
the file. -/
theorem C30_violated :
    let d := dumpTop { Ex.dumpArgs with options := some [("Custom", true)] } Ex.file0
    let l := loadTop ⟨Ex.env, [ps "run", ps "a"], id, 100⟩ d.2
    Ex.raised d.1 = some .lookupError ∧ d.2.writable = true ∧ Ex.raised l.1 = some .valueError ∧ l.2.store ≠ d.2.store := by
  decide +kernel

end Verif
