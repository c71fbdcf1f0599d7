import Verif.Hickle.StepDump
/-!
# The steps of a dump one after the other

Without anything in between the program of `StepDump.lean` is the dump of `Dump.lean` and `Top.lean`.
-/
namespace Verif.Prog

section
variable {lk : Lk DState}

theorem blank_unsized (d : Data) : d.blank.unsized = d.unsized := by cases d <;> rfl

theorem modify_last {α : Type} (l l' : List α) (a : α) (f : α → α) (h : l'.length = l.length) : (l' ++ [a]).modify l.length f = l' ++ [f a] := by
  rw [← h]
  apply List.ext_getElem?
  intro i
  rw [List.getElem?_modify]
  rcases Nat.lt_trichotomy i l'.length with hi | hi | hi
  · rw [List.getElem?_append_left hi, List.getElem?_append_left hi]; simp [Nat.ne_of_gt hi]
  · subst hi; simp
  · simp [List.getElem?_append_right (Nat.le_of_lt hi), Nat.ne_of_lt hi]
    have : i - l'.length = (i - l'.length - 1) + 1 := by omega
    rw [this]; simp

/-- `create_dataset` makes a dataset and then writes to it -/
theorem mkDset_split (kw : List Kw) (p : NodeId) (n : PyStr) (d : Data) :
    Verif.mkDset kw p n d =
      (do let m ← Verif.mkDset kw p n d.blank
          M.modify fun s : DState => { s with store := s.store.write m d }
          pure m) := by
  funext s
  rw [M.bind_apply]
  unfold Verif.mkDset
  rw [show checkKw kw d.blank = checkKw kw d by unfold checkKw; rw [blank_unsized]]
  cases checkKw kw d with
  | error e => rfl
  | ok u =>
    simp only []
    unfold Store.create
    cases s.store.links p with
    | none => rfl
    | some ls =>
      simp only []
      by_cases h1 : badName n = true
      · simp only [h1, if_true]
      by_cases h2 : (utf8Encode n).isNone = true
      · simp only [h1, h2, if_true, if_false, Bool.false_eq_true]
      by_cases h3 : (Assoc.get? ls n).isSome = true
      · simp only [h1, h2, h3, if_true, if_false, Bool.false_eq_true]
      · simp only [h1, h2, h3, if_false, Bool.false_eq_true]
        show _ = (Except.ok _, _)
        simp only [Store.write]
        rw [modify_last _ _ _ _ (by simp)]

theorem run_mkDset {kw p n d} : run lk (mkDset kw p n d) = Verif.mkDset kw p n d := by
  rw [mkDset_split]
  simp only [mkDset, write, run_bind, run_op, run_pure]
theorem run_mkGroup {p n} : run lk (mkGroup p n) = Verif.mkGroup p n := rfl
theorem run_setAttr {n k v} : run lk (setAttr n k v) = Verif.setAttr n k v := rfl
theorem run_setAttrs {n l} : run lk (setAttrs n l) = Verif.setAttrs n l := run_forEach _ _
theorem run_subAddr {so} : run lk (subAddr so) = Verif.subAddr so := rfl

/-- both sides decide by the same cases -/
local macro "same" : tactic => `(tactic| all_goals first
  | rfl
  | (simp only [*]; done)
  | (simp only [*, run_bind, run_mkDset, run_mkGroup, run_setAttr, run_pure, run_raise]; done)
  | (simp only [*, run_bind, run_mkDset, run_mkGroup, run_setAttr, run_pure, run_raise, if_true, if_false, Bool.false_eq_true]; done))

theorem run_createPickled {c o p n} : run lk (createPickled c o p n) = Verif.createPickled c o p n := by
  unfold createPickled Verif.createPickled
  split
  same

theorem run_createItems {c h items dt p n} : run lk (createItems c h items dt p n) = Verif.createItems c h items dt p n := by
  unfold createItems Verif.createItems
  cases dt with
  | none => same
  | some d =>
    cases d with
    | bytes => rfl
    | num d =>
      simp only [run_bind, run_mkDset]
      congr 1; funext m
      split <;> rfl

theorem run_createListlike {c h o p n} : run lk (createListlike c h o p n) = Verif.createListlike c h o p n := by
  unfold createListlike Verif.createListlike
  obtain ⟨cl, v⟩ := o
  cases v with
  | str s => simp only []; cases utf8Encode s <;> same
  | seq l =>
    cases l with
    | nil => same
    | cons a l => simp only []; cases checkItems c.env h (a :: l) with
      | error e => rfl
      | ok dt => exact run_createItems
  | _ => same

theorem run_createRows {c k sh ls p n} : run lk (createRows c k sh ls p n) = Verif.createRows c k sh ls p n := by
  unfold createRows Verif.createRows
  split
  · rfl
  · split <;> simp only [run_bind, run_mkDset, run_mkGroup, run_setAttr, run_pure]

theorem run_withDtype {x d} : run lk (withDtype x d) = Verif.withDtype (run lk x) d := by
  unfold withDtype Verif.withDtype
  simp only [run_bind, run_setAttr, run_pure]

theorem run_leaf {x} : run lk (leaf x) = Verif.leaf (run lk x) := by
  unfold leaf Verif.leaf
  simp only [run_bind, run_pure]

theorem run_createStrings {c sh ss p n} : run lk (createStrings c sh ss p n) = Verif.createStrings c sh ss p n := by
  unfold createStrings Verif.createStrings
  match sh, ss with
  | [], [] => rfl
  | [], [s] => simp only []; cases utf8Encode s <;> same
  | [], _ :: _ :: _ => rfl
  | _ :: _, _ => exact run_createRows

theorem run_createObjects {c h sh as p n} : run lk (createObjects c h sh as p n) = Verif.createObjects c h sh as p n := by
  unfold createObjects Verif.createObjects
  match sh, as with
  | [], [] => rfl
  | [], [a] =>
    simp only []
    cases h[a]? with
    | none => rfl
    | some o =>
      obtain ⟨cl, v⟩ := o
      cases v with
      | seq l =>
        simp only []
        split
        · exact run_createListlike
        · same
      | _ => same
  | [], _ :: _ :: _ => rfl
  | [_], _ => exact run_createListlike
  | _ :: _ :: _, _ => exact run_createRows

theorem run_createNpArray {c h o p n} : run lk (createNpArray c h o p n) = Verif.createNpArray c h o p n := by
  unfold createNpArray Verif.createNpArray
  obtain ⟨cl, v⟩ := o
  cases v with
  | arr d sh l => simp only [run_withDtype, run_bind, run_mkDset, run_pure]
  | sarr w sh l => simp only [run_withDtype, run_createStrings]
  | oarr sh l => simp only [run_withDtype, run_createObjects]
  | _ => rfl

theorem run_createScalar {c o p n} : run lk (createScalar c o p n) = Verif.createScalar c o p n := by
  unfold createScalar Verif.createScalar
  obtain ⟨cl, v⟩ := o
  cases v with
  | int i =>
    simp only []
    split
    · split
      · exact run_mkDset
      · rfl
    · exact run_mkDset
  | _ => first | exact run_mkDset | rfl

theorem run_createSetlike {c h o p n} : run lk (createSetlike c h o p n) = Verif.createSetlike c h o p n := by
  unfold createSetlike Verif.createSetlike
  obtain ⟨cl, v⟩ := o
  cases v with
  | set l =>
    cases l with
    | nil => same
    | cons a l => simp only []; cases checkItems c.env h (a :: l) with
      | error e => rfl
      | ok dt => exact run_createItems
  | _ => rfl

theorem run_createFn {c fn h o p n} : run lk (createFn c fn h o p n) = Verif.createFn c fn h o p n := by
  cases fn with
  | scalar => simp only [createFn, Verif.createFn, run_leaf, run_createScalar]
  | none => simp only [createFn, Verif.createFn, run_leaf, createNone, Verif.createNone, run_mkDset]
  | listlike => exact run_createListlike
  | setlike => exact run_createSetlike
  | dictlike =>
    simp only [createFn, Verif.createFn, createDictlike, Verif.createDictlike]
    obtain ⟨cl, v⟩ := o
    cases v with
    | dict es => same
    | _ => rfl
  | npScalar =>
    simp only [createFn, Verif.createFn, run_leaf]
    congr 1
    unfold createNpScalar Verif.createNpScalar
    obtain ⟨cl, v⟩ := o
    cases v with
    | np x => same
    | _ => rfl
  | npArray => exact run_createNpArray
  | npMasked =>
    simp only [createFn, Verif.createFn, createMasked, Verif.createMasked]
    obtain ⟨cl, v⟩ := o
    cases v with
    | masked d sh l m => same
    | _ => rfl
  | sparse =>
    simp only [createFn, Verif.createFn, createSparse, Verif.createSparse]
    obtain ⟨cl, v⟩ := o
    cases v with
    | sparse d i q sh =>
      simp only []
      split
      · rfl
      · same
    | _ => rfl
  | pickled => simp only [createFn, Verif.createFn, run_leaf, run_createPickled]
  | _ => rfl

theorem run_baseEntry {c b} : run lk (baseEntry c b) = Verif.baseEntry c b := by
  unfold baseEntry Verif.baseEntry
  simp only [run_bind, run_view]
  congr 1; funext s
  cases Assoc.get? s.blinks b with
  | some n => rfl
  | none => simp only [run_bind, run_mkDset, run_op, run_pure]

theorem run_storeType {c n cls b} : run lk (storeType c n cls b) = Verif.storeType c n cls b := by
  unfold storeType Verif.storeType
  split
  · rfl
  · simp only [run_bind, run_setAttr]
    congr 1
    unfold typeEntryNode Verif.typeEntryNode
    simp only [run_bind, run_view]
    congr 1; funext s
    cases Assoc.get? s.tlinks cls with
    | some e => rfl
    | none =>
      simp only []
      split
      · rfl
      · split
        · rfl
        · cases s.store.links c.table with
          | none => rfl
          | some ls => simp only [run_bind, run_mkDset, run_baseEntry, run_setAttr, run_op, run_pure]

theorem run_dumpCreate {c : DCtx} {o p n} : run (dLook c.env) (dumpCreate c o p n) = Verif.dumpCreate c o p n := by
  unfold dumpCreate Verif.dumpCreate
  simp only [run_bind, run_ask, run_view, run_attempt, run_createFn, dLook]
  congr 1; funext ce
  congr 1; funext s
  congr 1; funext r
  cases r with
  | ok r => simp only [run_bind, run_storeType, run_pure]
  | error e =>
    simp only []
    split
    · simp only [run_bind, run_createPickled, run_pure]
    · rfl

theorem run_dumpNode {c : DCtx} (fuel : Nat) : ∀ a p n attrs, run (dLook c.env) (dumpNode c fuel a p n attrs) = Verif.dumpNode c fuel a p n attrs := by
  induction fuel with
  | zero => intros; rfl
  | succ fuel ih =>
    intro a p n attrs
    simp only [dumpNode, Verif.dumpNode, run_bind, run_view]
    congr 1; funext s
    cases Assoc.get? s.memo a with
    | some m => simp only [run_bind, run_mkDset, run_setAttrs]
    | none =>
      simp only []
      cases s.heap[a]? with
      | none => rfl
      | some o =>
        simp only [run_bind, run_dumpCreate, run_setAttrs]
        congr 1; funext r
        congr 1; funext _
        congr 1
        · split <;> rfl
        · funext _
          rw [run_forEach]
          congr 1; funext sub
          cases sub with
          | error e => rfl
          | ok sub => simp only [run_bind, run_subAddr, ih]

end

/-! ### the call -/

theorem run_within {α : Type} {env : Env} (p : Prog DState α) : ∀ s : Call, run (cLook env) (within p) s =
    ((run (dLook env) p { s.2 with store := s.1.store, reg := s.1.reg }).1,
      { s.1 with
        store := (run (dLook env) p { s.2 with store := s.1.store, reg := s.1.reg }).2.store
        reg := (run (dLook env) p { s.2 with store := s.1.store, reg := s.1.reg }).2.reg },
      (run (cLook env) (within p) s).2.2) := by
  induction p with
  | ret r => intro s; rfl
  | act io x k ih => intro s; simp only [within, run]; rw [ih]; rfl
  | look m c b k ih => intro s; simp only [within, run]; rw [ih]; rfl

/-- the program does to the file what the computation does -/
def Does {τ α : Type} (lk : Lk (Session × τ)) (p : Prog (Session × τ) α) (x : SM α) : Prop := ∀ s : Session × τ, ∃ d, run lk p s = ((x s.1).1, (x s.1).2, d)

section
variable {τ α β : Type} {lk : Lk (Session × τ)}

theorem Does.bind {p : Prog (Session × τ) α} {x : SM α} {f : α → Prog (Session × τ) β} {y : α → SM β} (h : Does lk p x) (hf : ∀ a, Does lk (f a) (y a)) :
    Does lk (p >>= f) (x >>= y) := by
  intro s
  obtain ⟨d, e⟩ := h s
  rw [run_bind, M.bind_apply, M.bind_apply, e]
  rcases x s.1 with ⟨r, s'⟩
  cases r with
  | ok a => exact hf a (s', d)
  | error e => exact ⟨d, rfl⟩

theorem Does.ret {r : Except PyErr α} : Does lk (.ret r) (M.ofExcept r) := fun s => ⟨s.2, rfl⟩
theorem Does.pure {a : α} : Does lk (pure a) (pure a) := fun s => ⟨s.2, rfl⟩
theorem Does.throw {e : PyErr} : Does lk (raise e : Prog (Session × τ) α) (M.throw e) := fun s => ⟨s.2, rfl⟩
theorem Does.op {io : Bool} {x : SM α} : Does lk (op io (onS x)) x := fun s => ⟨s.2, rfl⟩
theorem Does.view {f : Session × τ → Prog (Session × τ) α} {y : Session → SM α} (h : ∀ s, Does lk (f s) (y s.1)) : Does lk (view >>= f) (M.get >>= y) := by
  intro s
  rw [run_bind, M.bind_apply, M.bind_apply]
  exact h s s

theorem Does.attempt {p : Prog (Session × τ) α} {x : SM α} (h : Does lk p x) : Does lk p.attempt (M.attempt x) := by
  intro s
  obtain ⟨d, e⟩ := h s
  refine ⟨d, ?_⟩
  rw [run_attempt, M.attempt_apply, e]
  rfl

theorem Does.finally {p : Prog (Session × τ) α} {x : SM α} {fin : Prog (Session × τ) Unit} {y : SM Unit} (h : Does lk p x) (hf : Does lk fin y) :
    Does lk (finally' p fin) (Verif.finally' x y) := h.attempt.bind fun _ => hf.bind fun _ => .ret

theorem setOptions_does {g : NodeId} (os : List (String × Bool)) : ∀ maps, Does lk (setOptions g os maps) (Verif.setOptions g os maps) := by
  induction os with
  | nil => intro maps; exact .pure
  | cons o os ih =>
    obtain ⟨k, on⟩ := o
    intro maps
    simp only [setOptions, Verif.setOptions]
    split
    · refine .bind .op fun _ => ?_
      split
      · exact ih _
      · exact .throw
    · exact ih _

theorem loaderEnter_does {g os} : Does lk (loaderEnter g os) (Verif.loaderEnter g os) := by
  unfold loaderEnter Verif.loaderEnter
  refine .view fun s => ?_
  split
  · exact .throw
  · refine .bind ?_ fun maps => .bind .op fun _ => ?_
    · cases os with
      | none => exact .op
      | some os => exact setOptions_does _ _
    · exact fun s => ⟨s.2, rfl⟩

theorem refEnter_does {env g} : Does lk (refEnter env g) (Verif.refEnter env g) := by
  unfold refEnter Verif.refEnter
  refine .view fun s => ?_
  split
  · exact .throw
  · exact .bind .op fun maps => .bind .op fun _ => fun s => ⟨s.2, rfl⟩

end

theorem dumpData_does {a : DumpArgs} {g mgr m} : Does (cLook a.env) (dumpData a g mgr m) (Verif.dumpData a g mgr m) := by
  intro s
  unfold dumpData Verif.dumpData
  cases m.table with
  | none => exact ⟨s.2, rfl⟩
  | some T =>
    have h : run (dLook a.env) (dumpNode ⟨a.env, mgr, a.kw, T⟩ a.fuel a.obj g dataName0 []) = Verif.dumpNode ⟨a.env, mgr, a.kw, T⟩ a.fuel a.obj g dataName0 [] :=
      run_dumpNode (c := ⟨a.env, mgr, a.kw, T⟩) _ _ _ _ _
    simp only []
    rw [run_bind, run_op, M.bind_of_ok (M.modify_apply _ _), run_within, h]
    exact ⟨_, rfl⟩

/-- **the steps of a dump, one after the other, are the dump** -/
theorem dumpTop_does (a : DumpArgs) : Does (cLook a.env) (dumpTop a) (Verif.dumpTop a) := by
  unfold dumpTop Verif.dumpTop
  refine .view fun s => ?_
  split
  · exact .throw
  · exact .bind .op fun g => .bind .op fun _ => .bind .op fun _ => .bind loaderEnter_does fun mgr =>
      .finally (.bind refEnter_does fun m => .finally dumpData_does .op) .op

theorem dumpF_nil (all : Bool) (a : DumpArgs) : dumpF all [] a = Verif.dumpTop a := by
  funext s
  unfold dumpF
  rw [runF_nil]
  obtain ⟨d, e⟩ := dumpTop_does a (s, { heap := a.heap, store := [], reg := {} })
  rw [e]

end Verif.Prog
