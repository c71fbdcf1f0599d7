import Verif.Hickle.History
/-!
# No call makes the process forget a loader module it has run

For every object, every file and every loader module: the list of modules that have been run only grows.
-/
namespace Verif

variable {r0 : Registry}

/-! ### the registry -/

theorem setTables_grows {o : Opt} {t : Tables} {r : Registry} (h : RegLe r0 r) : RegLe r0 (r.setTables o t) := by
  unfold Registry.setTables
  repeat' split
  all_goals exact h

theorem registerClass_grows (a : RegArgs) : Keeps (RegLe r0) (registerClass a) := by
  unfold registerClass
  refine .bind .get fun r _ => ?_
  split
  · exact .throw _
  · split
    · exact .throw _
    · split
      · split
        · exact .throw _
        · exact .pure trivial
      · exact .modify (fun _ h => setTables_grows h) trivial

theorem registerExclude_grows (b : String) (o : Opt) : Keeps (RegLe r0) (registerExclude b o) := by
  unfold registerExclude
  refine .bind .get fun r _ => ?_
  repeat' split
  all_goals first
    | exact .throw _
    | exact .modify (fun _ h => setTables_grows h) trivial

theorem runLoader_grows (name : String) (lm : LoaderMod) : Keeps (RegLe r0) (runLoader name lm) := by
  refine .bind (Q := fun _ => True) (.forEach trivial _ fun a _ => registerClass_grows a) fun _ _ => .bind (Q := fun _ => True) (.forEach trivial _ fun p _ => registerExclude_grows p.1 p.2) fun _ _ => .modify ?_ trivial
  intro r h p hp
  have := h p hp
  simp only [List.contains_cons, Bool.or_eq_true]
  exact .inr this

theorem loadLoaderAux_grows {env : Env} {m : Manager} {c : Cls} {base : Option String} : ∀ ks, Keeps (RegLe r0) (loadLoaderAux env m c base ks)
  | [] => .pure trivial
  | k :: ks => by
    have ih := loadLoaderAux_grows (env := env) (m := m) (c := c) (base := base) ks
    have run : ∀ p lm, Keeps (RegLe r0) (runLoader p lm >>= fun _ => M.get >>= fun r' => match m.typeEntry r' k with
        | some e => pure (c, e)
        | none => loadLoaderAux env m c base ks) := by
      intro p lm
      refine .bind (runLoader_grows p lm) fun _ _ => .bind .get fun r' _ => ?_
      split
      · exact .pure trivial
      · exact ih
    simp only [loadLoaderAux]
    refine .bind .get fun r _ => ?_
    split
    · exact .pure trivial
    · split
      · split
        · split
          · exact .pure trivial
          · exact .throw _
        · exact .throw _
      · refine .bind (Q := fun _ => True) ?_ fun _ _ => ?_
        · unfold putDummy
          refine .bind .get fun r _ => ?_
          repeat' split
          all_goals first
            | exact .pure trivial
            | exact .modify (fun _ h => setTables_grows h) trivial
        · split
          · exact .pure trivial
          · split
            · exact ih
            · exact run _ _
      · split
        · exact ih
        · split
          · exact ih
          · exact run _ _

/-! ### dump -/

abbrev DGrows (r0 : Registry) (s : DState) : Prop := RegLe r0 s.reg

theorem mkDset_grows {kw p name d} : Keeps (DGrows r0) (mkDset kw p name d) := by
  intro s hs
  unfold mkDset
  split
  · exact ⟨hs, fun _ _ => trivial⟩
  · split <;> exact ⟨hs, fun _ _ => trivial⟩

theorem mkGroup_grows {p name} : Keeps (DGrows r0) (mkGroup p name) := by
  intro s hs
  unfold mkGroup
  split <;> exact ⟨hs, fun _ _ => trivial⟩

theorem setAttr_grows {n k v} : Keeps (DGrows r0) (setAttr n k v) := .modify (fun _ h => h) trivial

theorem setAttrs_grows {n attrs} : Keeps (DGrows r0) (setAttrs n attrs) := .forEach trivial _ fun _ _ => setAttr_grows

theorem leaf_grows {x : DM NodeId} (h : Keeps (DGrows r0) x) : Keeps (DGrows r0) (leaf x) := .bind h fun _ _ => .pure trivial

theorem createItems_grows {c h items dt p name} : Keeps (DGrows r0) (createItems c h items dt p name) := by
  unfold createItems
  split
  · refine .bind mkDset_grows fun n hn => ?_
    split
    · exact .pure trivial
    · exact .throw _
  · exact .throw _
  · exact .bind mkGroup_grows fun n hn => .bind setAttr_grows fun _ _ => .pure trivial

theorem createListlike_grows {c h o p name} : Keeps (DGrows r0) (createListlike c h o p name) := by
  unfold createListlike
  repeat' split
  all_goals first
    | exact .throw _
    | exact createItems_grows
    | exact .bind mkDset_grows fun n hn => .bind setAttr_grows fun _ _ => .pure trivial
    | exact .bind mkDset_grows fun n hn => .pure trivial

theorem createRows_grows {c n sh ls p name} : Keeps (DGrows r0) (createRows c n sh ls p name) := by
  unfold createRows
  split
  · exact .throw _
  · split
    · exact .bind mkDset_grows fun n hn => .pure trivial
    · exact .bind mkGroup_grows fun n hn => .bind setAttr_grows fun _ _ => .pure trivial

theorem createNpArray_grows {c h o p name} : Keeps (DGrows r0) (createNpArray c h o p name) := by
  have dt : ∀ {x d}, Keeps (DGrows r0) x → Keeps (DGrows r0) (withDtype x d) :=
    fun hx => .bind hx fun r hr => .bind setAttr_grows fun _ _ => .pure trivial
  unfold createNpArray
  split
  · exact dt (.bind mkDset_grows fun n hn => .pure trivial)
  · refine dt ?_
    unfold createStrings
    repeat' split
    all_goals first
      | exact .throw _
      | exact createRows_grows
      | exact .bind mkDset_grows fun n hn => .pure trivial
  · refine dt ?_
    unfold createObjects
    repeat' split
    all_goals first
      | exact .throw _
      | exact createRows_grows
      | exact createListlike_grows
      | exact .bind mkGroup_grows fun n hn => .pure trivial
  · exact .throw _

theorem createPickled_grows {c o p name} : Keeps (DGrows r0) (createPickled c o p name) := by
  unfold createPickled
  split
  · exact mkDset_grows
  · exact .throw _
  · exact .throw _

theorem createFn_grows {c fn h o p name} : Keeps (DGrows r0) (createFn c fn h o p name) := by
  unfold createFn
  split
  · refine leaf_grows ?_
    unfold createScalar
    repeat' split
    all_goals first | exact mkDset_grows | exact .throw _
  · exact leaf_grows mkDset_grows
  · exact createListlike_grows
  · unfold createSetlike
    repeat' split
    all_goals first
      | exact .throw _
      | exact createItems_grows
      | exact .bind mkDset_grows fun n hn => .pure trivial
  · unfold createDictlike
    split
    · exact .bind mkGroup_grows fun n hn => .pure trivial
    · exact .throw _
  · refine leaf_grows ?_
    unfold createNpScalar
    split
    · exact .bind mkDset_grows fun n hn => .bind setAttr_grows fun _ _ => .pure trivial
    · exact .throw _
  · exact createNpArray_grows
  · unfold createMasked
    split
    · exact .bind mkGroup_grows fun n hn => .bind setAttr_grows fun _ _ => .pure trivial
    · exact .throw _
  · unfold createSparse
    split
    · split
      · exact .throw _
      · exact .bind mkGroup_grows fun n hn => .pure trivial
    · exact .throw _
  · exact leaf_grows createPickled_grows
  all_goals exact .throw _

theorem typeEntryNode_grows {c cls b} : Keeps (DGrows r0) (typeEntryNode c cls b) := by
  unfold typeEntryNode baseEntry
  refine .bind .get fun s _ => ?_
  repeat' split
  all_goals first
    | exact .pure trivial
    | exact .throw _
    | skip
  all_goals
    refine .bind mkDset_grows fun e _ => .bind (Q := fun _ => True) (.bind .get fun s _ => ?_) fun b _ => .bind setAttr_grows fun _ _ => .bind (Q := fun _ => True) (.modify (fun _ h => h) trivial) fun _ _ => .pure trivial
    split
    · exact .pure trivial
    · exact .bind mkDset_grows fun _ _ => .bind (Q := fun _ => True) (.modify (fun _ h => h) trivial) fun _ _ => .pure trivial

theorem storeType_grows {c n cls b} : Keeps (DGrows r0) (storeType c n cls b) := by
  unfold storeType
  split
  · exact .pure trivial
  · exact .bind typeEntryNode_grows fun _ _ => setAttr_grows

theorem dumpCreate_grows {c o p name} : Keeps (DGrows r0) (dumpCreate c o p name) := by
  unfold dumpCreate
  refine .bind (Q := fun _ => True) ?_ fun r _ => .bind .get fun s _ => .bind (.attempt (Q := fun _ => True) createFn_grows) fun x _ => ?_
  · intro s hs
    have := (loadLoaderAux_grows (r0 := r0) (env := c.env) (m := c.mgr) (c := o.cls) (base := none) (o.cls.mro c.env.u) s.reg hs).1
    unfold onReg loadLoader
    generalize loadLoaderAux c.env c.mgr o.cls none (o.cls.mro c.env.u) s.reg = y at *
    obtain ⟨r, reg⟩ := y
    exact ⟨this, fun _ _ => trivial⟩
  · cases x with
    | ok x => exact .bind storeType_grows fun _ _ => .pure trivial
    | error e =>
      simp only []
      split
      · exact .bind createPickled_grows fun _ _ => .pure trivial
      · exact .throw _

theorem dumpNode_grows {c : DCtx} (fuel : Nat) : ∀ a p name attrs, Keeps (DGrows r0) (dumpNode c fuel a p name attrs) := by
  induction fuel with
  | zero => exact fun a p name attrs => .throw _
  | succ fuel ih =>
    intro a p name attrs
    simp only [dumpNode]
    refine .bind .get fun s _ => ?_
    split
    · exact .bind mkDset_grows fun n _ => setAttrs_grows
    · split
      · exact .throw _
      · refine .bind dumpCreate_grows fun r _ => ?_
        obtain ⟨n, subs, mem⟩ := r
        refine .bind setAttrs_grows fun _ _ => .bind (Q := fun _ => True) ?_ fun _ _ => .forEach trivial _ fun sub _ => ?_
        · split
          · exact .modify (fun _ h => h) trivial
          · exact .pure trivial
        · cases sub with
          | error e => exact .throw _
          | ok sub =>
            refine .bind (Q := fun _ => True) ?_ fun b _ => ih _ _ _ _
            intro s hs
            cases sub.obj <;> exact ⟨hs, fun _ _ => trivial⟩

/-! ### load -/

/-- the modules run before are still known -/
def LGrows (r0 : Registry) (s : LState) : Prop := RegLe r0 s.reg

instance : HeapFree (LGrows r0) := ⟨fun _ _ h => h⟩

theorem resolveEntry_grows {c e} : Keeps (LGrows r0) (resolveEntry c e) := by
  unfold resolveEntry
  split
  · exact .throw _
  · refine .bind .get fun s _ => ?_
    split
    · exact .pure trivial
    · refine .bind (Q := fun _ => True) ?_ fun base _ => ?_
      · repeat' split
        all_goals first | exact .throw _ | exact .pure trivial
      · refine .bind (Q := fun _ => True) ?_ fun ti _ => ?_
        · repeat' split
          all_goals first | exact .throw _ | exact .pure trivial
        · exact .bind (Q := fun _ => True) (.modify (fun s hs => hs) trivial) fun _ _ => .pure trivial

theorem resolveType_grows {c node} : Keeps (LGrows r0) (resolveType c node) := by
  unfold resolveType
  repeat' split
  all_goals first
    | exact .throw _
    | exact .pure trivial
    | (refine .bind resolveEntry_grows fun ti _ => ?_
       split <;> exact .pure trivial)
    | skip
  all_goals
    simp only []
    split <;> exact .pure trivial

theorem lOnReg_grows {env : Env} {m : Manager} {c : Cls} {b : Option String} : Keeps (LGrows r0) (lOnReg (loadLoader env m c b)) := by
  intro s hs
  have := (loadLoaderAux_grows (r0 := r0) (env := env) (m := m) (c := c) (base := b) (c.mro env.u) s.reg hs).1
  unfold lOnReg loadLoader
  generalize loadLoaderAux env m c b (c.mro env.u) s.reg = y at *
  obtain ⟨r, reg⟩ := y
  exact ⟨this, fun _ _ => trivial⟩

theorem loadNode_grows {c : LCtx} (fuel : Nat) : ∀ cont name n, Keeps (LGrows r0) (loadNode c fuel cont name n) := by
  induction fuel with
  | zero => exact fun _ _ _ => .throw _
  | succ fuel ih =>
    intro cont name n
    simp only [loadNode]
    split
    · exact .throw _
    · refine .bind .get fun s _ => ?_
      split
      · exact contAppend_keeps
      · refine .bind (Q := fun _ => True) ?_ fun r _ => ?_
        · unfold loadObj
          refine .bind resolveType_grows fun r _ => .bind lOnReg_grows fun ce _ => ?_
          refine .bind (Q := fun _ => True) ?_ fun _ _ => .pure trivial
          unfold loadBody
          refine .bind .get fun s _ => ?_
          split
          · refine .bind mkCont_keeps fun sub _ => .bind contFilter_keeps fun items _ => ?_
            exact .bind (.foldEach trivial _ fun b _ x _ => ih _ _ _) fun _ _ => contConvert_keeps
          · split
            · exact loadData_keeps
            · exact .throw _
        · unfold loadFinish
          refine .bind contAppend_keeps fun _ _ => ?_
          split
          · exact .bind (Q := fun _ => True) (.modify (fun s hs => hs) trivial) fun _ _ => .pure trivial
          · exact .pure trivial

/-! ### whole calls -/

abbrev SGrows (r0 : Registry) (s : Session) : Prop := RegLe r0 s.reg

theorem finally_keeps {α : Type} {I : Session → Prop} {x : SM α} {fin : SM Unit} (hx : Keeps I x) (hf : Keeps I fin) : Keeps I (finally' x fin) := by
  unfold finally'
  exact .bind hx.attempt fun r _ => .bind hf fun _ _ => .ofExcept fun _ _ => trivial

theorem setOptions_grows {g} : ∀ (os : List (String × Bool)) (maps : List Opt), Keeps (SGrows r0) (setOptions g os maps)
  | [], maps => .pure trivial
  | (k, on) :: os, maps => by
    rw [setOptions]
    split
    · refine .bind (Q := fun _ => True) (.modify (fun _ h => h) trivial) fun _ _ => ?_
      split
      · exact setOptions_grows os _
      · exact .throw _
    · exact setOptions_grows os maps

theorem loaderEnter_grows {g opts} : Keeps (SGrows r0) (loaderEnter g opts) := by
  unfold loaderEnter
  refine .bind .get fun s _ => ?_
  split
  · exact .throw _
  · refine .bind (Q := fun _ => True) ?_ fun maps _ => .bind (Q := fun _ => True) (.modify (fun _ h => h) trivial) fun _ _ => .pure trivial
    cases opts with
    | some os => exact setOptions_grows os [none]
    | none => exact .bind .get fun s _ => .ofExcept'

theorem refEnter_grows {env g} : Keeps (SGrows r0) (refEnter env g) := by
  unfold refEnter
  refine .bind .get fun s _ => ?_
  split
  · exact .throw _
  · refine .bind (Q := fun _ => True) ?_ fun m _ => .bind (Q := fun _ => True) (.modify (fun _ h => h) trivial) fun _ _ => .pure trivial
    intro s hs
    unfold refInit
    repeat' split
    all_goals exact ⟨hs, fun _ _ => trivial⟩

theorem dumpTop_grows (a : DumpArgs) : Keeps (SGrows r0) (dumpTop a) := by
  unfold dumpTop
  refine .bind .get fun s _ => ?_
  split
  · exact .throw _
  · refine .bind (Q := fun _ => True) ?_ fun g _ => .bind (Q := fun _ => True) (.modify (fun _ h => h) trivial) fun _ _ => .bind (Q := fun _ => True) (.modify (fun _ h => h) trivial) fun _ _ =>
      .bind loaderEnter_grows fun mgr _ => finally_keeps (.bind refEnter_grows fun m _ => finally_keeps ?_ (.modify (fun _ h => h) trivial)) (.modify (fun _ h => h) trivial)
    · intro s hs
      unfold dumpGroup
      repeat' split
      all_goals exact ⟨hs, fun _ _ => trivial⟩
    · intro s hs
      unfold dumpData
      split
      · exact ⟨hs, fun _ _ => trivial⟩
      · exact ⟨(dumpNode_grows (r0 := r0) a.fuel a.obj g dataName0 [] _ hs).1, fun _ _ => trivial⟩

theorem loadTop_grows (a : LoadArgs) : Keeps (SGrows r0) (loadTop a) := by
  unfold loadTop
  refine .bind (Keeps.attempt (Q := fun _ => True) ?_) fun r _ => ?_
  · unfold loadTry
    refine .bind .get fun s _ => ?_
    split
    · exact .throw _
    · split
      · exact .throw _
      · split
        · exact .throw _
        · split
          · exact .throw _
          · exact .throw _
          · exact .throw _
          · refine .bind loaderEnter_grows fun mgr _ => finally_keeps (.bind refEnter_grows fun m _ => finally_keeps ?_ (.modify (fun _ h => h) trivial)) (.modify (fun _ h => h) trivial)
            intro s hs
            unfold loadBodyTop
            split
            · exact ⟨hs, fun _ _ => trivial⟩
            · split
              · exact ⟨hs, fun _ _ => trivial⟩
              · next d _ =>
                have := (loadNode_grows (r0 := r0) (c := ⟨a.env, mgr, s.store, a.order⟩) a.fuel (.root []) dataName0 d { heap := loadHeap, tcache := m.tc, reg := s.reg } hs).1
                simp only []
                split <;> exact ⟨this, fun _ _ => trivial⟩
  · split
    · exact .pure trivial
    · exact .throw _

/-- no call makes the process forget a loader module -/
theorem Op.run_grows (o : Op) (s : Session) : RegLe s.reg (o.run s).reg := by
  cases o with
  | dump a => exact (dumpTop_grows a s (RegLe.refl _)).1
  | load a => exact (loadTop_grows a s (RegLe.refl _)).1
  | reopen w => exact RegLe.refl _

end Verif
