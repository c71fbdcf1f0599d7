import Verif.Hickle.LoadSteps
import Verif.Hickle.TopSteps
/-!
# What kind of objects load makes, whatever is in the file
-/
namespace Verif

/-- An object that load makes.  An instance of a class of the program comes from a call of the class or from a pickle string.
Numeric arrays are instances of `numpy.ndarray` or `numpy.matrix`, arrays of strings or objects instances of `numpy.ndarray`. -/
def MadeBy (env : Env) : Obj → Prop
  | ⟨.user k, v⟩ => (∃ arg, (env.u k).ctor arg = .ok v) ∨ ∃ st, v = .opaque st true
  | ⟨c, .arr ..⟩ => c = .ndarray ∨ c = .matrix
  | ⟨c, .sarr ..⟩ | ⟨c, .oarr ..⟩ => c = .ndarray
  | ⟨c, .masked ..⟩ => c = .masked
  | ⟨c, .sparse ..⟩ => c = .csr ∨ c = .csc ∨ c = .bsr
  | _ => True

/-- all objects of the running load are of this kind -/
def AllMade (env : Env) (s : LState) : Prop := ∀ o ∈ s.heap, MadeBy env o

variable {env : Env}

theorem lAlloc_made {o : Obj} (h : MadeBy env o) : Keeps (AllMade env) (lAlloc o) := by
  refine fun s hs => ⟨fun p hp => ?_, fun _ _ => trivial⟩
  rcases List.mem_append.mp hp with hp | hp
  · exact hs p hp
  · rw [List.mem_singleton.mp hp]; exact h

theorem lAllocs_made (os : List Obj) (h : ∀ o ∈ os, MadeBy env o) : Keeps (AllMade env) (lAllocs os) := by
  induction os with
  | nil => exact .pure trivial
  | cons o os ih =>
    exact .bind (lAlloc_made (h o (List.mem_cons_self ..))) fun _ _ =>
      .bind (ih fun p hp => h p (List.mem_cons_of_mem _ hp)) fun _ _ => .pure trivial

theorem made_np (v : NpVal) : MadeBy env ⟨v.cls, .np v⟩ := by cases v <;> trivial
theorem made_py (v : NpVal) : MadeBy env (pyOf v) := by cases v <;> trivial
theorem made_pickled (c : Cls) (st : Nat) : MadeBy env ⟨c, .opaque st true⟩ := by
  cases c <;> first | trivial | exact .inr ⟨st, rfl⟩

/-- the objects the load functions make -/
macro "made" : tactic => `(tactic| first
  | trivial
  | exact .inl rfl
  | exact .inr rfl
  | exact rfl
  | exact made_np _
  | exact made_pickled _ _)

theorem lAllocs_np (vs : List NpVal) : Keeps (AllMade env) (lAllocs (vs.map fun v => ⟨v.cls, .np v⟩)) :=
  lAllocs_made _ fun o ho => by obtain ⟨v, _, rfl⟩ := List.mem_map.mp ho; exact made_np v

theorem lAllocs_py (vs : List NpVal) : Keeps (AllMade env) (lAllocs (vs.map pyOf)) :=
  lAllocs_made _ fun o ho => by obtain ⟨v, _, rfl⟩ := List.mem_map.mp ho; exact made_py v

theorem loadKey_made {kbt : String} {name : PyStr} {o : Obj} (h : loadKey env kbt name = .ok (some o)) : MadeBy env o := by
  unfold loadKey at h
  repeat' split at h
  all_goals first | (simp at h; done) | (simp at h; subst h; trivial) | skip
  all_goals
    simp only [] at h
    repeat' split at h
    all_goals first | (simp at h; done) | (simp at h; subst h; trivial)

theorem construct_made {k arg} : Keeps (AllMade env) (construct env k arg) :=
  .bind (Q := fun v => (env.u k).ctor arg = .ok v) (.ofExcept fun _ h => h) fun _ h => lAlloc_made (.inl ⟨arg, h⟩)

theorem mkSeq_made {c items} : Keeps (AllMade env) (mkSeq env c items) := by
  unfold mkSeq
  repeat' split
  all_goals first
    | exact lAlloc_made (by made)
    | exact construct_made
    | exact .throw _
    | exact .pure trivial

theorem mkSet_made {c items} : Keeps (AllMade env) (mkSet env c items) := by
  unfold mkSet
  repeat' split
  all_goals first
    | exact lAlloc_made (by made)
    | exact construct_made
    | exact .throw _

theorem recoverData_made {d at'} : Keeps (AllMade env) (recoverData d at') := by
  unfold recoverData
  split
  · exact .throw _
  · exact lAlloc_made (by made)

theorem loadData_made {c : LCtx} (hc : c.env = env) {fn d at' orig cls} : Keeps (AllMade env) (loadData c fn d at' orig cls) := by
  subst hc
  unfold loadData
  split
  · unfold loadScalar
    repeat' split
    all_goals first | exact .throw _ | exact lAlloc_made (by made) | exact construct_made
  · exact lAlloc_made (by made)
  · unfold loadList
    repeat' split
    all_goals first
      | exact .throw _
      | exact lAlloc_made (by made)
      | exact construct_made
      | exact .pure trivial
      | exact .bind (lAllocs_np _) fun as _ => .bind .get fun s _ => .bind .ofExcept' fun _ _ => mkSet_made
      | exact .bind (lAllocs_np _) fun as _ => mkSeq_made
  · unfold loadNpScalar
    repeat' split
    all_goals first | exact .throw _ | exact lAlloc_made (by made)
  · unfold loadNdarray loadNumArray loadStrArray loadObjArray
    repeat' split
    all_goals first | exact .throw _ | exact lAlloc_made (by made) | exact .bind (lAllocs_py _) fun as _ => lAlloc_made (by made)
  · unfold loadPickled
    repeat' split
    all_goals first | exact .throw _ | exact lAlloc_made (by made) | exact recoverData_made
  · exact recoverData_made
  · exact .pure trivial
  all_goals exact .throw _

theorem dictAppend_made {content name a at'} : Keeps (AllMade env) (dictAppend env content name a at') := by
  unfold dictAppend
  refine .bind (Q := fun _ => True) ?_ fun kbt _ => ?_
  · repeat' split
    all_goals first | exact .throw _ | exact .pure trivial
  · refine .bind (Q := fun key => ∀ o, key = some o → MadeBy env o) (.ofExcept fun _ h o ho => loadKey_made (ho ▸ h)) fun key hk => ?_
    split
    · exact .ofExcept'
    · exact .bind (lAlloc_made (hk _ rfl)) fun k _ => .ofExcept'

theorem contAppend_made {c : LCtx} (hc : c.env = env) {cont name a at'} : Keeps (AllMade env) (contAppend c cont name a at') := by
  subst hc
  unfold contAppend
  split
  · exact .pure trivial
  · exact .pure trivial
  · exact .bind .ofExcept' fun _ _ => .pure trivial
  · exact .bind .get fun s _ => .bind .ofExcept' fun _ _ => .pure trivial
  · exact .bind dictAppend_made fun _ _ => .pure trivial
  · exact .bind .get fun s _ => .pure trivial
  · exact .pure trivial
  · exact .bind .ofExcept' fun _ _ => .pure trivial
  · exact .pure trivial
  · exact .ofExcept'

theorem contConvert_made {c : LCtx} (hc : c.env = env) {cont} : Keeps (AllMade env) (contConvert c cont) := by
  subst hc
  unfold contConvert
  split
  · split
    · exact .pure trivial
    · exact .throw _
  · split
    · exact .pure trivial
    · exact .throw _
  · exact mkSeq_made
  · exact mkSet_made
  · refine .bind .get fun s _ => .bind .ofExcept' fun ps _ => ?_
    split
    · exact .bind .ofExcept' fun _ _ => lAlloc_made (by made)
    · exact construct_made
    · exact .throw _
  · exact lAlloc_made (by made)
  · unfold arrConvert
    refine .bind .get fun s _ => ?_
    repeat' split
    all_goals first
      | exact .throw _
      | exact lAlloc_made (by made)
      | exact .bind .ofExcept' fun _ _ => lAlloc_made (by made)
      | exact .bind .ofExcept' fun _ _ => .throw _
  · unfold maskedConvert
    refine .bind .get fun s _ => ?_
    repeat' split
    all_goals first | exact .throw _ | exact lAlloc_made (by made)
  · unfold sparseConvert
    refine .bind .get fun s _ => ?_
    repeat' split
    all_goals first | exact .throw _ | skip
    next h =>
      simp only [Bool.and_eq_true, Bool.or_eq_true, decide_eq_true_eq] at h
      rcases h.2 with (h | h) | h <;> subst h <;> exact lAlloc_made (by simp [MadeBy])
  · exact lAlloc_made (by made)

theorem resolveEntry_made {c e} : Keeps (AllMade env) (resolveEntry c e) := by
  unfold resolveEntry
  split
  · exact .throw _
  · refine .bind .get fun s _ => ?_
    split
    · exact .pure trivial
    · refine .bind (Q := fun _ => True) ?_ fun base _ => ?_
      · repeat' split
        all_goals first | exact .throw _ | exact .pure trivial
      · refine .bind (Q := fun _ => True) ?_ fun ti _ => ?_
        · repeat' split
          all_goals first | exact .throw _ | exact .pure trivial
        · exact .bind (Q := fun _ => True) (.modify (fun s hs => hs) trivial) fun _ _ => .pure trivial

theorem resolveType_made {c node} : Keeps (AllMade env) (resolveType c node) := by
  unfold resolveType
  repeat' split
  all_goals first
    | exact .throw _
    | exact .pure trivial
    | (refine .bind resolveEntry_made fun ti _ => ?_
       split <;> exact .pure trivial)
    | skip
  all_goals
    simp only []
    split <;> exact .pure trivial

theorem lOnReg_made {α : Type} {x : M Registry α} : Keeps (AllMade env) (lOnReg x) := by
  intro s hs
  unfold lOnReg
  generalize x s.reg = y at *
  obtain ⟨r, reg⟩ := y
  exact ⟨hs, fun _ _ => trivial⟩

theorem loadNode_made {c : LCtx} (fuel : Nat) : ∀ cont name n, Keeps (AllMade c.env) (loadNode c fuel cont name n) := by
  induction fuel with
  | zero => exact fun _ _ _ => .throw _
  | succ fuel ih =>
    intro cont name n
    simp only [loadNode]
    split
    · exact .throw _
    · refine .bind .get fun s _ => ?_
      split
      · exact contAppend_made rfl
      · refine .bind (Q := fun _ => True) ?_ fun r _ => ?_
        · unfold loadObj
          refine .bind resolveType_made fun r _ => .bind lOnReg_made fun ce _ => ?_
          refine .bind (Q := fun _ => True) ?_ fun _ _ => .pure trivial
          unfold loadBody
          refine .bind .get fun s _ => ?_
          split
          · refine .bind (Q := fun _ => True) ?_ fun sub _ => .bind (Q := fun _ => True) ?_ fun items _ => ?_
            · unfold mkCont
              repeat' split
              all_goals first | exact .throw _ | exact .pure trivial
            · unfold contFilter
              repeat' split
              all_goals first | exact .throw _ | exact .pure trivial
            · exact .bind (.foldEach trivial _ fun b _ x _ => ih _ _ _) fun _ _ => contConvert_made rfl
          · split
            · exact loadData_made rfl
            · exact .throw _
        · unfold loadFinish
          refine .bind (contAppend_made rfl) fun _ _ => ?_
          split
          · exact .bind (Q := fun _ => True) (.modify (fun s hs => hs) trivial) fun _ _ => .pure trivial
          · exact .pure trivial

/-- all objects a load returns are of this kind, whatever is in the file -/
theorem loadTop_made {a : LoadArgs} {s s' : Session} {L : Heap} {b : Addr} (h : loadTop a s = (.ok (L, b), s')) : ∀ o ∈ L, MadeBy a.env o := by
  have key : Keeps (fun _ : Session => True) (loadTop a) (fun r => ∀ o ∈ r.1, MadeBy a.env o) := by
    unfold loadTop
    refine .bind (Q := fun r => ∀ x, r = .ok x → ∀ o ∈ x.1, MadeBy a.env o) ?_ fun r hr => ?_
    · refine fun s _ => ⟨trivial, fun r h => ?_⟩
      rw [M.attempt_apply] at h
      simp only [Except.ok.injEq] at h
      have key : Keeps (fun _ : Session => True) (loadTry a) (fun r => ∀ o ∈ r.1, MadeBy a.env o) := by
        unfold loadTry
        refine .bind .get fun s _ => ?_
        split
        · exact .throw _
        · split
          · exact .throw _
          · split
            · exact .throw _
            · split
              · exact .throw _
              · exact .throw _
              · exact .throw _
              · refine .bind (Q := fun _ => True) (fun _ _ => ⟨trivial, fun _ _ => trivial⟩) fun mgr _ => ?_
                unfold loaderExit
                intro s _
                rw [finally'_modify]
                refine ⟨trivial, ?_⟩
                simp only []
                refine (Keeps.bind (I := fun _ : Session => True) (Q := fun _ => True) (fun _ _ => ⟨trivial, fun _ _ => trivial⟩) fun m _ => ?_) s trivial |>.2
                unfold refExit
                intro s _
                rw [finally'_modify]
                refine ⟨trivial, ?_⟩
                simp only []
                unfold loadBodyTop
                split
                · simp
                · split
                  · simp
                  · next d _ =>
                    have hk := (loadNode_made (c := ⟨a.env, mgr, s.store, a.order⟩) a.fuel (.root []) dataName0 d { heap := loadHeap, tcache := m.tc, reg := s.reg }
                      (fun o ho => by simp [loadHeap] at ho; subst ho; trivial)).1
                    simp only []
                    split
                    · simp
                    · intro r hr
                      simp only [Except.ok.injEq] at hr
                      subst hr
                      exact hk
                    · simp
      intro x hx
      rw [hx] at h
      exact (key s trivial).2 x h
    · split
      · exact .pure (hr _ rfl)
      · exact .throw _
  exact (key s trivial).2 (L, b) (by rw [h])

end Verif
