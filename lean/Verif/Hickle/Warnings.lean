import Verif.Hickle.Top
/-!
# The warnings of `dump` and `load`

`hickle/lookup.py` calls `warnings.warn` when `dump` stores an object as a pickle string
(`create_pickled_dataset`, 1491-1496) and when `load` returns a substitute for an object
(`recover_custom_dataset`, 1523-1530; `RecoverGroupContainer.filter`, 1547-1554).  Here `dump` and `load`
of the main model are written once more with a log of these calls; everything else is taken from the
main model by `quiet`.  `erases` theorems show that the log is all that was added.

Not modelled: the filters of Python's `warnings` module, which may show a warning once only or turn it into
an exception; the warnings about packages, lambdas and files of version 3.
-/
namespace Verif.Warnings

/-- a call of `warnings.warn`: its category and what the text mentions -/
inductive Warn where
  /-- `SerializedWarning` and the class of the object -/
  | serialized (c : Cls)
  /-- `DataRecoveredWarning`, the loader that is said to be missing and the name of the node -/
  | recovered (loader : String) (name : PyStr)
  deriving DecidableEq, Repr

/-- computations with a log -/
abbrev WM (σ α : Type) := M (σ × List Warn) α

/-- a computation that warns of nothing -/
def quiet {σ α : Type} (x : M σ α) : WM σ α := fun s => ((x s.1).1, ((x s.1).2, s.2))

/-- `warnings.warn(...)` -/
def warn {σ : Type} (w : Warn) : WM σ Unit := fun s => (.ok (), (s.1, s.2 ++ [w]))

/-! ### dump -/

/-- `create_pickled_dataset` (lookup.py:1460-1501): the warning comes first -/
def createPickledW (c : DCtx) (o : Obj) (parent : NodeId) (name : PyStr) : WM DState NodeId := do
  warn (.serialized o.cls)
  quiet (createPickled c o parent name)

/-- call of the create function (hickle.py:124) -/
def createFnW (c : DCtx) (fn : DumpFn) (h : Heap) (o : Obj) (parent : NodeId) (name : PyStr) : WM DState (NodeId × Subs) :=
  match fn with
  | .pickled => do
    let n ← createPickledW c o parent name
    pure (n, [])
  | fn => quiet (createFn c fn h o parent name)

/-- hickle.py:122-129 -/
def dumpCreateW (c : DCtx) (o : Obj) (parent : NodeId) (name : PyStr) : WM DState (NodeId × Subs × Bool) := do
  let (cls, e) ← quiet (onReg (loadLoader c.env c.mgr o.cls none))
  let s ← quiet M.get
  let r ← M.attempt (createFnW c e.fn s.heap o parent name)
  match r with
  | .ok (n, subs) => do
      quiet (storeType c n cls e.base)
      pure (n, subs, e.memoise)
  | .error err =>
      if err = .notHicklable then do
        let n ← createPickledW c o parent name
        pure (n, [], e.memoise)
      else M.throw err

/-- `_dump` (hickle.py:77-145) -/
def dumpNodeW (c : DCtx) : Nat → Addr → NodeId → PyStr → Attrs → WM DState Unit
  | 0, _, _, _, _ => M.throw .recursionError
  | fuel + 1, a, parent, name, attrs => do
    let s ← quiet M.get
    match Assoc.get? s.memo a with
    | some n => quiet do
      let l ← mkDset [] parent name (.ref n)
      setAttrs l attrs
    | none =>
      match s.heap[a]? with
      | none => M.throw .unmodelled
      | some o => do
        let (n, subs, memoise) ← dumpCreateW c o parent name
        quiet (setAttrs n (attrs.filter fun p => p.1 ≠ "type"))
        quiet (if memoise then M.modify fun s => { s with memo := Assoc.put s.memo a n }
         else pure ())
        M.forEach (fun sub => match sub with
          | .error e => M.throw e
          | .ok sub => do
            let b ← quiet (subAddr sub.obj)
            dumpNodeW c fuel b n sub.name sub.attrs) subs

/-- hickle.py:236 -/
def dumpDataW (a : DumpArgs) (g : NodeId) (mgr : Manager) (m : RefMgr) : WM Session Unit := fun s =>
  match m.table with
  | none => (.error .unmodelled, s)
  | some T =>
    let r := dumpNodeW ⟨a.env, mgr, a.kw, T⟩ a.fuel a.obj g dataName0 []
      ({ heap := a.heap, store := s.1.store, tlinks := m.tl, blinks := m.bl, reg := s.1.reg }, s.2)
    (r.1, ({ s.1 with store := r.2.1.store, reg := r.2.1.reg }, r.2.2))

/-- `dump` behind the opening of the file (hickle.py:218-236) -/
def dumpW (a : DumpArgs) : WM Session Unit := do
  let s ← quiet M.get
  if !s.writable then M.throw .fileError
  else do
    let g ← quiet (dumpGroup a.path)
    quiet (sSetAttr g "HICKLE_VERSION" (.bytes hickleVersion))
    quiet (sSetAttr g "HICKLE_PYTHON_VERSION" (.bytes (verText a.pyver)))
    let mgr ← quiet (loaderEnter g a.options)
    finally' (do
      let m ← quiet (refEnter a.env g)
      finally' (dumpDataW a g mgr m) (quiet (refExit m))) (quiet loaderExit)

/-! ### load -/

/-- `filter` of the container of a group that is to be recovered (lookup.py:1542-1557).  The text is made
before the base type is looked up: it mentions the one `_load` was given. -/
def warnFilter (cont : Cont) (r : Resolved) (node : Node) : WM LState Unit :=
  match cont with
  | .recover .. => warn (.recovered r.base node.name)
  | _ => pure ()

/-- `recover_custom_dataset` (lookup.py:1517-1533).  The text is made after the base type has been looked up.
`load_pickled_data` (1503-1510) does not warn. -/
def warnData (fn : LoadFn) (r : Resolved) (node : Node) : WM LState Unit :=
  match fn with
  | .recover => warn (.recovered r.orig node.name)
  | _ => pure ()

/-- hickle.py:440-461 -/
def loadBodyW (c : LCtx) (rec : Cont → PyStr → NodeId → WM LState Cont) (node : Node) (r : Resolved) (cls : Cls) : WM LState Addr := do
  let s ← quiet M.get
  if r.isCont then do
    let sub ← quiet (mkCont ((c.mgr.container s.reg r.base).getD .recoverGroup) node.attrs r.orig cls)
    warnFilter sub r node
    let items ← quiet (contFilter c sub node)
    let sub ← M.foldEach (fun sub (p : PyStr × NodeId) => rec sub p.1 p.2) sub items
    quiet (contConvert c sub)
  else match node.body with
    | .dset d => do
      warnData ((c.mgr.loadFn s.reg r.base).getD .recover) r node
      quiet (loadData c ((c.mgr.loadFn s.reg r.base).getD .recover) d node.attrs r.orig cls)
    | .group _ => M.throw .unmodelled

/-- hickle.py:435-461 -/
def loadObjW (c : LCtx) (rec : Cont → PyStr → NodeId → WM LState Cont) (node : Node) : WM LState (Addr × Bool) := do
  let r ← quiet (resolveType c node)
  let ce ← quiet (lOnReg (loadLoader c.env c.mgr r.cls (some r.base)))
  let a ← loadBodyW c rec node r ce.1
  pure (a, ce.2.memoise)

/-- `_load` (hickle.py:402-466) -/
def loadNodeW (c : LCtx) : Nat → Cont → PyStr → NodeId → WM LState Cont
  | 0, _, _, _ => M.throw .recursionError
  | fuel + 1, cont, name, n =>
    match c.store[n]? with
    | none => M.throw .unmodelled
    | some node => do
      let s ← quiet M.get
      match Assoc.get? s.memo n with
      | some a => quiet (contAppend c cont name a node.attrs)
      | none => do
        let r ← loadObjW c (loadNodeW c fuel) node
        quiet (loadFinish c cont name r.1 node.attrs n r.2)

/-- hickle.py:379-380 -/
def loadBodyTopW (a : LoadArgs) (g : NodeId) (mgr : Manager) (m : RefMgr) : WM Session (Heap × Addr) := fun s =>
  match s.1.store.links g with
  | none => (.error .unmodelled, s)
  | some ls =>
    match Assoc.get? ls dataName0 with
    | none => (.error .keyError, s)
    | some d =>
      let r := loadNodeW ⟨a.env, mgr, s.1.store, a.order⟩ a.fuel (.root []) dataName0 d
        ({ heap := loadHeap, tcache := m.tc, reg := s.1.reg }, s.2)
      let s' := ({ s.1 with reg := r.2.1.reg }, r.2.2)
      match r.1 with
      | .error e => (.error e, s')
      | .ok (.root (x :: _)) => (.ok (r.2.1.heap, x), s')
      | .ok _ => (.error .indexError, s')

/-- hickle.py:322-383 -/
def loadTryW (a : LoadArgs) : WM Session (Heap × Addr) := do
  let s ← quiet M.get
  match pathOk a.path with
  | .error e => M.throw e
  | .ok () =>
    match s.store.resolve 0 a.path with
    | none => M.throw .fileError
    | some g =>
      match s.store.links g with
      | none => M.throw .fileError
      | some _ =>
        match route ((s.store.attrs 0).getD []) ((s.store.attrs g).getD []) with
        | .refuse e => M.throw e
        | .v3 => M.throw .unmodelled
        | .v4 => M.throw .unmodelled
        | .current => do
          let mgr ← quiet (loaderEnter g none)
          finally' (do
            let m ← quiet (refEnter a.env g)
            finally' (loadBodyTopW a g mgr m) (quiet (refExit m))) (quiet loaderExit)

/-- `load` behind the opening of the file (hickle.py:321-387) -/
def loadW (a : LoadArgs) : WM Session (Heap × Addr) := do
  let r ← M.attempt (loadTryW a)
  match r with
  | .ok x => pure x
  | .error e => M.throw (wrapLoad e)

/-! ### the log is all that was added -/

/-- without the log, `x` does what `y` does -/
def Erases {σ α : Type} (x : WM σ α) (y : M σ α) : Prop := ∀ s l, (x (s, l)).1 = (y s).1 ∧ (x (s, l)).2.1 = (y s).2

namespace Erases
variable {σ α β : Type}

theorem quiet (y : M σ α) : Erases (Warnings.quiet y) y := fun _ _ => ⟨rfl, rfl⟩
theorem pure (a : α) : Erases (Pure.pure a : WM σ α) (Pure.pure a) := fun _ _ => ⟨rfl, rfl⟩
theorem throw (e : PyErr) : Erases (M.throw e : WM σ α) (M.throw e) := fun _ _ => ⟨rfl, rfl⟩
theorem ofExcept (e : Except PyErr α) : Erases (M.ofExcept e : WM σ α) (M.ofExcept e) := fun _ _ => ⟨rfl, rfl⟩

theorem bind {x : WM σ α} {y : M σ α} {f : α → WM σ β} {g : α → M σ β} (hx : Erases x y) (hf : ∀ a, Erases (f a) (g a)) :
    Erases (x >>= f) (y >>= g) := by
  intro s l
  obtain ⟨h1, h2⟩ := hx s l
  rw [M.bind_apply, M.bind_apply]
  rcases ex : x (s, l) with ⟨r, s1, l1⟩
  rcases ey : y s with ⟨r', s1'⟩
  rw [ex, ey] at h1 h2
  simp only at h1 h2
  subst h1; subst h2
  cases r with
  | ok a => exact hf a _ _
  | error e => exact ⟨rfl, rfl⟩

/-- a warning is added in front -/
theorem warn {w : WM σ Unit} (hw : Erases w (Pure.pure ())) {x : WM σ α} {y : M σ α} (hx : Erases x y) : Erases (w >>= fun _ => x) y := by
  have := bind hw fun _ => hx
  intro s l
  exact this s l

theorem attempt {x : WM σ α} {y : M σ α} (hx : Erases x y) : Erases (M.attempt x) (M.attempt y) := by
  intro s l
  obtain ⟨h1, h2⟩ := hx s l
  exact ⟨by simp [h1], by simp [h2]⟩

theorem forEach {f : α → WM σ Unit} {g : α → M σ Unit} (h : ∀ a, Erases (f a) (g a)) : ∀ xs, Erases (M.forEach f xs) (M.forEach g xs)
  | [] => pure ()
  | x :: xs => bind (h x) fun _ => forEach h xs

theorem foldEach {f : β → α → WM σ β} {g : β → α → M σ β} (h : ∀ b a, Erases (f b a) (g b a)) : ∀ xs b, Erases (M.foldEach f b xs) (M.foldEach g b xs)
  | [], b => pure b
  | x :: xs, b => bind (h b x) fun b' => foldEach h xs b'

theorem finally' {x : WM σ α} {y : M σ α} {f : WM σ Unit} {g : M σ Unit} (hx : Erases x y) (hf : Erases f g) :
    Erases (Verif.finally' x f) (Verif.finally' y g) :=
  bind (attempt hx) fun r => bind hf fun _ => ofExcept r

end Erases

theorem createPickledW_erases (c o p name) : Erases (createPickledW c o p name) (createPickled c o p name) :=
  .warn (fun _ _ => ⟨rfl, rfl⟩) (.quiet _)

theorem createFnW_erases (c fn h o p name) : Erases (createFnW c fn h o p name) (createFn c fn h o p name) := by
  cases fn
  case pickled => exact .bind (createPickledW_erases _ _ _ _) fun _ => .pure _
  all_goals exact .quiet _

theorem dumpCreateW_erases (c o p name) : Erases (dumpCreateW c o p name) (dumpCreate c o p name) := by
  refine .bind (.quiet _) fun ce => .bind (.quiet _) fun s => .bind (.attempt (createFnW_erases _ _ _ _ _ _)) fun r => ?_
  cases r with
  | ok x => exact .bind (.quiet _) fun _ => .pure _
  | error e =>
    dsimp only
    split
    · exact .bind (createPickledW_erases _ _ _ _) fun _ => .pure _
    · exact .throw _

theorem dumpNodeW_erases (c : DCtx) : ∀ fuel a p name attrs, Erases (dumpNodeW c fuel a p name attrs) (dumpNode c fuel a p name attrs)
  | 0, _, _, _, _ => .throw _
  | fuel + 1, a, p, name, attrs => by
    rw [dumpNodeW, dumpNode]
    refine .bind (.quiet _) fun s => ?_
    cases Assoc.get? s.memo a with
    | some n => exact .quiet _
    | none =>
      dsimp only
      cases s.heap[a]? with
      | none => exact .throw _
      | some o =>
        refine .bind (dumpCreateW_erases _ _ _ _) fun r => .bind (.quiet _) fun _ => .bind (.quiet _) fun _ => .forEach (fun sub => ?_) _
        cases sub with
        | error e => exact .throw _
        | ok sub => exact .bind (.quiet _) fun b => dumpNodeW_erases c fuel _ _ _ _

theorem dumpDataW_erases (a g mgr m) : Erases (dumpDataW a g mgr m) (dumpData a g mgr m) := by
  intro s l
  unfold dumpDataW dumpData
  cases m.table with
  | none => exact ⟨rfl, rfl⟩
  | some T =>
    obtain ⟨h1, h2⟩ := dumpNodeW_erases ⟨a.env, mgr, a.kw, T⟩ a.fuel a.obj g dataName0 []
      { heap := a.heap, store := s.store, tlinks := m.tl, blinks := m.bl, reg := s.reg } l
    exact ⟨h1, by simp only [h2]⟩

/-- `dump` with its warnings does what `dump` of the main model does -/
theorem dumpW_erases (a : DumpArgs) : Erases (dumpW a) (dumpTop a) := by
  unfold dumpW dumpTop
  refine .bind (.quiet _) fun s => ?_
  cases s.writable with
  | false => exact .throw _
  | true => exact .bind (.quiet _) fun g => .bind (.quiet _) fun _ => .bind (.quiet _) fun _ => .bind (.quiet _) fun mgr =>
      .finally' (.bind (.quiet _) fun m => .finally' (dumpDataW_erases _ _ _ _) (.quiet _)) (.quiet _)

theorem warnFilter_erases (cont r node) : Erases (warnFilter cont r node) (pure ()) := by
  cases cont <;> exact fun _ _ => ⟨rfl, rfl⟩

theorem warnData_erases (fn r node) : Erases (warnData fn r node) (pure ()) := by
  cases fn <;> exact fun _ _ => ⟨rfl, rfl⟩

theorem loadBodyW_erases (c : LCtx) {recW : Cont → PyStr → NodeId → WM LState Cont} {rec' : Cont → PyStr → NodeId → LM Cont}
    (h : ∀ k x n, Erases (recW k x n) (rec' k x n)) (node r cls) : Erases (loadBodyW c recW node r cls) (loadBody c rec' node r cls) := by
  unfold loadBodyW loadBody
  refine .bind (.quiet _) fun s => ?_
  cases r.isCont with
  | true => exact .bind (.quiet _) fun sub => .warn (warnFilter_erases _ _ _) (.bind (.quiet _) fun items =>
      .bind (.foldEach (fun b p => h _ _ _) _ _) fun sub => .quiet _)
  | false =>
    simp only [Bool.false_eq_true, if_false]
    cases node.body with
    | dset d => exact .warn (warnData_erases _ _ _) (.quiet _)
    | group ls => exact .throw _

theorem loadNodeW_erases (c : LCtx) : ∀ fuel cont name n, Erases (loadNodeW c fuel cont name n) (loadNode c fuel cont name n)
  | 0, _, _, _ => .throw _
  | fuel + 1, cont, name, n => by
    rw [loadNodeW, loadNode]
    cases c.store[n]? with
    | none => exact .throw _
    | some node =>
      refine .bind (.quiet _) fun s => ?_
      cases Assoc.get? s.memo n with
      | some a => exact .quiet _
      | none =>
        exact .bind (.bind (.quiet _) fun r => .bind (.quiet _) fun ce =>
          .bind (loadBodyW_erases c (loadNodeW_erases c fuel) _ _ _) fun a => .pure _) fun r => .quiet _

theorem loadBodyTopW_erases (a g mgr m) : Erases (loadBodyTopW a g mgr m) (loadBodyTop a g mgr m) := by
  intro s l
  unfold loadBodyTopW loadBodyTop
  cases s.store.links g with
  | none => exact ⟨rfl, rfl⟩
  | some ls =>
    dsimp only
    cases Assoc.get? ls dataName0 with
    | none => exact ⟨rfl, rfl⟩
    | some d =>
      dsimp only
      obtain ⟨h1, h2⟩ := loadNodeW_erases ⟨a.env, mgr, s.store, a.order⟩ a.fuel (.root []) dataName0 d
        { heap := loadHeap, tcache := m.tc, reg := s.reg } l
      rw [h1, h2]
      cases (loadNode ⟨a.env, mgr, s.store, a.order⟩ a.fuel (.root []) dataName0 d { heap := loadHeap, tcache := m.tc, reg := s.reg }).1 with
      | error e => exact ⟨rfl, rfl⟩
      | ok k =>
        cases k with
        | root l => cases l <;> exact ⟨rfl, rfl⟩
        | _ => exact ⟨rfl, rfl⟩

/-- `load` with its warnings does what `load` of the main model does -/
theorem loadW_erases (a : LoadArgs) : Erases (loadW a) (loadTop a) := by
  unfold loadW loadTop
  refine .bind (.attempt ?_) fun r => ?_
  · unfold loadTryW loadTry
    refine .bind (.quiet _) fun s => ?_
    cases pathOk a.path with
    | error e => exact .throw _
    | ok u =>
      dsimp only
      cases s.store.resolve 0 a.path with
      | none => exact .throw _
      | some g =>
        dsimp only
        cases s.store.links g with
        | none => exact .throw _
        | some _ =>
          dsimp only
          cases route ((s.store.attrs 0).getD []) ((s.store.attrs g).getD []) with
          | current =>
            exact .bind (.quiet _) fun mgr => .finally' (.bind (.quiet _) fun m => .finally' (loadBodyTopW_erases _ _ _ _) (.quiet _)) (.quiet _)
          | _ => exact .throw _
  · cases r with
    | ok x => exact .pure _
    | error e => exact .throw _

end Verif.Warnings
