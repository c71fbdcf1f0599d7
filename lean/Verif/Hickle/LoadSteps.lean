import Verif.Hickle.DumpSteps
import Verif.Hickle.Load
/-!
# Loading keeps the loader registry in a reachable state, whatever is in the file
-/
namespace Verif

variable {P : Nat → Prop} {I : LState → Prop}

/-- the condition says nothing about the objects made so far -/
class HeapFree (I : LState → Prop) : Prop where
  heap : ∀ s h, I s → I { s with heap := h }

/-- the registry of a running load is in a reachable state -/
def LReg (P : Nat → Prop) (s : LState) : Prop := RegInv P s.reg

instance : HeapFree (LReg P) := ⟨fun _ _ h => h⟩

theorem lAlloc_keeps [HeapFree I] {o} : Keeps I (lAlloc o) := fun s hs => ⟨HeapFree.heap s _ hs, fun _ _ => trivial⟩

theorem lAllocs_keeps [HeapFree I] (os : List Obj) : Keeps I (lAllocs os) := by
  induction os with
  | nil => exact .pure trivial
  | cons o os ih => exact .bind lAlloc_keeps fun _ _ => .bind ih fun _ _ => .pure trivial

theorem lOnReg_keeps {α : Type} {x : M Registry α} (hx : Keeps (RegInv P) x) : Keeps (LReg P) (lOnReg x) := by
  intro s hs
  have := (hx s.reg hs).1
  unfold lOnReg
  generalize x s.reg = y at *
  obtain ⟨r, reg⟩ := y
  exact ⟨this, fun _ _ => trivial⟩

theorem Keeps.ofExcept' {σ α : Type} {I : σ → Prop} {x : Except PyErr α} : Keeps I (M.ofExcept x : M σ α) := .ofExcept fun _ _ => trivial

theorem construct_keeps [HeapFree I] {env k arg} : Keeps I (construct env k arg) :=
  .bind .ofExcept' fun _ _ => lAlloc_keeps

theorem mkSeq_keeps [HeapFree I] {env c items} : Keeps I (mkSeq env c items) := by
  unfold mkSeq
  repeat' split
  all_goals first
    | exact lAlloc_keeps
    | exact construct_keeps
    | exact .throw _
    | exact .pure trivial

theorem mkSet_keeps [HeapFree I] {env c items} : Keeps I (mkSet env c items) := by
  unfold mkSet
  repeat' split
  all_goals first
    | exact lAlloc_keeps
    | exact construct_keeps
    | exact .throw _

theorem resolveEntry_keeps {c e} : Keeps (LReg P) (resolveEntry c e) := by
  unfold resolveEntry
  split
  · exact .throw _
  · refine .bind .get fun s _ => ?_
    split
    · exact .pure trivial
    · refine .bind (Q := fun _ => True) ?_ fun base _ => ?_
      · repeat' split
        all_goals first | exact .throw _ | exact .pure trivial
      · refine .bind (Q := fun _ => True) ?_ fun ti _ => ?_
        · repeat' split
          all_goals first | exact .throw _ | exact .pure trivial
        · exact .bind (Q := fun _ => True) (.modify (fun s hs => hs) trivial) fun _ _ => .pure trivial

theorem resolveType_keeps {c node} : Keeps (LReg P) (resolveType c node) := by
  unfold resolveType
  repeat' split
  all_goals first
    | exact .throw _
    | exact .pure trivial
    | (refine .bind resolveEntry_keeps fun ti _ => ?_
       split <;> exact .pure trivial)
    | skip
  all_goals
    simp only []
    split <;> exact .pure trivial

theorem recoverData_keeps [HeapFree I] {d at'} : Keeps I (recoverData d at') := by
  unfold recoverData
  split
  · exact .throw _
  · exact lAlloc_keeps

theorem loadData_keeps [HeapFree I] {c fn d at' orig cls} : Keeps I (loadData c fn d at' orig cls) := by
  unfold loadData
  split
  · unfold loadScalar
    repeat' split
    all_goals first | exact .throw _ | exact lAlloc_keeps | exact construct_keeps
  · exact lAlloc_keeps
  · unfold loadList
    repeat' split
    all_goals first
      | exact .throw _
      | exact lAlloc_keeps
      | exact construct_keeps
      | exact .pure trivial
      | exact .bind (lAllocs_keeps _) fun as _ => .bind .get fun s _ => .bind .ofExcept' fun _ _ => mkSet_keeps
      | exact .bind (lAllocs_keeps _) fun as _ => mkSeq_keeps
  · unfold loadNpScalar
    repeat' split
    all_goals first | exact .throw _ | exact lAlloc_keeps
  · unfold loadNdarray loadNumArray loadStrArray loadObjArray
    repeat' split
    all_goals first | exact .throw _ | exact lAlloc_keeps | exact .bind (lAllocs_keeps _) fun as _ => lAlloc_keeps
  · unfold loadPickled
    repeat' split
    all_goals first | exact .throw _ | exact lAlloc_keeps | exact recoverData_keeps
  · exact recoverData_keeps
  · exact .pure trivial
  all_goals exact .throw _

theorem mkCont_keeps [HeapFree I] {k at' orig c} : Keeps I (mkCont k at' orig c) := by
  unfold mkCont
  repeat' split
  all_goals first | exact .throw _ | exact .pure trivial

theorem contFilter_keeps [HeapFree I] {c cont node} : Keeps I (contFilter c cont node) := by
  unfold contFilter
  repeat' split
  all_goals first | exact .throw _ | exact .pure trivial

theorem dictAppend_keeps [HeapFree I] {env content name a at'} : Keeps I (dictAppend env content name a at') := by
  unfold dictAppend
  refine .bind (Q := fun _ => True) ?_ fun kbt _ => ?_
  · repeat' split
    all_goals first | exact .throw _ | exact .pure trivial
  · refine .bind .ofExcept' fun key _ => ?_
    split
    · exact .ofExcept'
    · exact .bind lAlloc_keeps fun k _ => .ofExcept'

theorem contAppend_keeps [HeapFree I] {c cont name a at'} : Keeps I (contAppend c cont name a at') := by
  unfold contAppend
  split
  · exact .pure trivial
  · exact .pure trivial
  · exact .bind .ofExcept' fun _ _ => .pure trivial
  · exact .bind .get fun s _ => .bind .ofExcept' fun _ _ => .pure trivial
  · exact .bind dictAppend_keeps fun _ _ => .pure trivial
  · exact .bind .get fun s _ => .pure trivial
  · exact .pure trivial
  · exact .bind .ofExcept' fun _ _ => .pure trivial
  · exact .pure trivial
  · exact .ofExcept'

theorem contConvert_keeps [HeapFree I] {c cont} : Keeps I (contConvert c cont) := by
  unfold contConvert
  split
  · split
    · exact .pure trivial
    · exact .throw _
  · split
    · exact .pure trivial
    · exact .throw _
  · exact mkSeq_keeps
  · exact mkSet_keeps
  · refine .bind .get fun s _ => .bind .ofExcept' fun ps _ => ?_
    split
    · exact .bind .ofExcept' fun _ _ => lAlloc_keeps
    · exact construct_keeps
    · exact .throw _
  · exact lAlloc_keeps
  · unfold arrConvert
    refine .bind .get fun s _ => ?_
    repeat' split
    all_goals first
      | exact .throw _
      | exact lAlloc_keeps
      | exact .bind .ofExcept' fun _ _ => lAlloc_keeps
      | exact .bind .ofExcept' fun _ _ => .throw _
  · unfold maskedConvert
    refine .bind .get fun s _ => ?_
    repeat' split
    all_goals first | exact .throw _ | exact lAlloc_keeps
  · unfold sparseConvert
    refine .bind .get fun s _ => ?_
    repeat' split
    all_goals first | exact .throw _ | exact lAlloc_keeps
  · exact lAlloc_keeps

theorem loadNode_keeps {c : LCtx} (hE : EnvOk P c.env) (hP : ProtOk P c.env) (fuel : Nat) :
    ∀ cont name n, Keeps (LReg P) (loadNode c fuel cont name n) := by
  induction fuel with
  | zero => exact fun _ _ _ => .throw _
  | succ fuel ih =>
    intro cont name n
    simp only [loadNode]
    split
    · exact .throw _
    · refine .bind .get fun s _ => ?_
      split
      · exact contAppend_keeps
      · refine .bind (Q := fun _ => True) ?_ fun r _ => ?_
        · unfold loadObj
          refine .bind resolveType_keeps fun r _ => .bind (lOnReg_keeps (loadLoaderAux_keeps hE hP _ _ _)) fun ce _ => ?_
          refine .bind (Q := fun _ => True) ?_ fun _ _ => .pure trivial
          unfold loadBody
          refine .bind .get fun s _ => ?_
          split
          · refine .bind mkCont_keeps fun sub _ => .bind contFilter_keeps fun items _ => ?_
            exact .bind (.foldEach trivial _ fun b _ x _ => ih _ _ _) fun _ _ => contConvert_keeps
          · split
            · exact loadData_keeps
            · exact .throw _
        · unfold loadFinish
          refine .bind contAppend_keeps fun _ _ => ?_
          split
          · exact .bind (Q := fun _ => True) (.modify (fun s hs => hs) trivial) fun _ _ => .pure trivial
          · exact .pure trivial

end Verif
