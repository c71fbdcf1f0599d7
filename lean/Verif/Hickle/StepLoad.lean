import Verif.Hickle.StepSeq
/-!
# `hickle.load` in single steps

The functions of `Verif/Hickle/Load.lean` behind `_load` and the load part of `Verif/Hickle/Top.lean` once more, as programs of single
steps; the steps one after the other are what the functions there do (`loadTop_does`).  A step is one `load_loader`, one look into the
tables of the registry, or one call that works on one node: `resolve_type`, a load function, the constructor, `filter`, `append` or
`convert` of a container.  What such a call does with h5py counts as one step: it reads the file and changes nothing but the objects
and tables of this load, which are lost when an exception ends it.
-/
namespace Verif.Prog

/-- the object a node stands for once its class and loader are known (hickle.py:440-461) -/
def loadBody (c : LCtx) (rec : Cont → PyStr → NodeId → Prog LState Cont) (node : Node) (r : Resolved) (cls : Cls) : Prog LState Addr := do
  let s ← view                                                           -- 446, 460
  if r.isCont then do
    let sub ← op true (mkCont ((c.mgr.container s.reg r.base).getD .recoverGroup) node.attrs r.orig cls)
    let items ← op true (contFilter c sub node)
    let sub ← foldEach (fun sub (p : PyStr × NodeId) => rec sub p.1 p.2) sub items
    op true (contConvert c sub)
  else match node.body with
    | .dset d => op true (loadData c ((c.mgr.loadFn s.reg r.base).getD .recover) d node.attrs r.orig cls)
    | .group _ => raise .unmodelled

/-- the object a node stands for and whether it is memoised (hickle.py:435-461) -/
def loadObj (c : LCtx) (rec : Cont → PyStr → NodeId → Prog LState Cont) (node : Node) : Prog LState (Addr × Bool) := do
  let r ← op true (resolveType c node)                                   -- 435
  let ce ← ask c.mgr r.cls (some r.base)                                 -- 436
  let a ← loadBody c rec node r ce.1
  pure (a, ce.2.memoise)

/-- hand the object to the parent container and remember it (hickle.py:454, 462, 465-466) -/
def loadFinish (c : LCtx) (cont : Cont) (name : PyStr) (a : Addr) (attrs : Attrs) (n : NodeId) (mem : Bool) : Prog LState Cont := do
  let cont' ← op true (contAppend c cont name a attrs)
  if mem then do
    op false (M.modify fun s => { s with memo := Assoc.put s.memo n a })
    pure cont'
  else pure cont'

/-- `_load` (hickle.py:402-466) -/
def loadNode (c : LCtx) : Nat → Cont → PyStr → NodeId → Prog LState Cont
  | 0, _, _, _ => raise .recursionError
  | fuel + 1, cont, name, n =>
    match c.store[n]? with
    | none => raise .unmodelled
    | some node => do
      let s ← view                                                       -- 428
      match Assoc.get? s.memo n with
      | some a => op true (contAppend c cont name a node.attrs)          -- 429-432
      | none => do
        let r ← loadObj c (loadNode c fuel) node
        loadFinish c cont name r.1 node.attrs n r.2

/-! ### the call -/

/-- the file and the process, and the objects and tables of the load in progress -/
abbrev LCall := Session × LState

/-- a step of the load: the registry is that of the process -/
def onL {α : Type} (x : M LState α) : M LCall α := fun s =>
  let y := x { s.2 with reg := s.1.reg }
  (y.1, { s.1 with reg := y.2.reg }, y.2)

/-- the steps of the load -/
def withinL {α : Type} : Prog LState α → Prog LCall α
  | .ret r => .ret r
  | .act io x k => .act io (onL x) fun r => withinL (k r)
  | .look m c b k => .look m c b fun r => withinL (k r)

/-- `_load(py_container, 'data', h_root_group['data'], memo, loader)` and `py_container.convert()` (hickle.py:379-380) -/
def loadBodyTop (a : LoadArgs) (g : NodeId) (mgr : Manager) (m : RefMgr) : Prog LCall (Heap × Addr) := do
  let s ← op true M.get
  match s.1.store.links g with
  | none => raise .unmodelled
  | some ls =>
    match Assoc.get? ls dataName0 with
    | none => raise .keyError
    | some d => do
      op false (M.modify fun s => (s.1, { heap := loadHeap, tcache := m.tc, reg := {} }))
      let r ← withinL (loadNode ⟨a.env, mgr, s.1.store, a.order⟩ a.fuel (.root []) dataName0 d)
      let t ← view
      match r with
      | .root (x :: _) => pure (t.2.heap, x)
      | _ => raise .indexError

/-- the body of the `try` statement of `load` (hickle.py:322-383) -/
def loadTry (a : LoadArgs) : Prog LCall (Heap × Addr) := do
  let s ← op true M.get
  match pathOk a.path with
  | .error e => raise e
  | .ok () =>
    match s.1.store.resolve 0 a.path with
    | none => raise .fileError
    | some g =>
      match s.1.store.links g with
      | none => raise .fileError
      | some _ =>
        match route ((s.1.store.attrs 0).getD []) ((s.1.store.attrs g).getD []) with
        | .refuse e => raise e
        | .v3 => raise .unmodelled
        | .v4 => raise .unmodelled
        | .current => do
          let mgr ← loaderEnter g none
          finally' (do
            let m ← refEnter a.env g
            finally' (loadBodyTop a g mgr m) (op false (onS (refExit m)))) (op false (onS loaderExit))

/-- `load` behind the opening of the file (hickle.py:321-387).  An exception that is not an `Exception`, as `KeyboardInterrupt`, is not
turned into a `ValueError`; the model has no value for it. -/
def loadTop (a : LoadArgs) : Prog LCall (Heap × Addr) := do
  let r ← attempt (loadTry a)
  match r with
  | .ok x => pure x
  | .error e => raise (wrapLoad e)

/-- how the registry answers during a load (hickle.py:436) -/
def lLook (env : Env) : Lk LState := fun m c b => lOnReg (loadLoader env m c b)

/-- the same, in the whole call -/
def lcLook (env : Env) : Lk LCall := fun m c b => onL (lLook env m c b)

/-- a load from an open file with the given events (as `dumpF`) -/
def loadF (all : Bool) (es : List Ev) (a : LoadArgs) : SM (Heap × Addr) := fun s =>
  let y := runF all (lcLook a.env) (loadTop a) es (s, { heap := loadHeap, reg := {} })
  (y.1, y.2.1)

/-! ### the steps one after the other -/

theorem run_loadBody {c : LCtx} {rec : Cont → PyStr → NodeId → Prog LState Cont} {rec' : Cont → PyStr → NodeId → LM Cont} {lk : Lk LState}
    (h : ∀ a b d, run lk (rec a b d) = rec' a b d) {node r cls} : run lk (loadBody c rec node r cls) = Verif.loadBody c rec' node r cls := by
  unfold loadBody Verif.loadBody
  simp only [run_bind, run_view]
  congr 1; funext s
  split
  · simp only [run_bind, run_op, run_foldEach, h]
  · cases node.body <;> rfl

theorem run_loadNode {c : LCtx} (fuel : Nat) : ∀ cont name n, run (lLook c.env) (loadNode c fuel cont name n) = Verif.loadNode c fuel cont name n := by
  induction fuel with
  | zero => intros; rfl
  | succ fuel ih =>
    intro cont name n
    simp only [loadNode, Verif.loadNode]
    cases c.store[n]? with
    | none => rfl
    | some node =>
      simp only [run_bind, run_view]
      congr 1; funext s
      cases Assoc.get? s.memo n with
      | some a => rfl
      | none =>
        simp only [run_bind]
        congr 1
        · unfold loadObj Verif.loadObj
          simp only [run_bind, run_op, run_ask, run_loadBody ih, run_pure, lLook]
        · funext r
          unfold loadFinish Verif.loadFinish
          simp only [run_bind, run_op]
          congr 1; funext cont'
          split <;> rfl

theorem run_withinL {α : Type} {env : Env} (p : Prog LState α) : ∀ s : LCall, run (lcLook env) (withinL p) s =
    ((run (lLook env) p { s.2 with reg := s.1.reg }).1,
      { s.1 with reg := (run (lLook env) p { s.2 with reg := s.1.reg }).2.reg }, (run (lcLook env) (withinL p) s).2.2) ∧
    (run (lcLook env) (withinL p) s).2.2.heap = (run (lLook env) p { s.2 with reg := s.1.reg }).2.heap := by
  induction p with
  | ret r => intro s; exact ⟨rfl, rfl⟩
  | act io x k ih =>
    intro s
    simp only [withinL, run]
    obtain ⟨h1, h2⟩ := ih (onL x s).1 (onL x s).2
    exact ⟨h1, h2⟩
  | look m c b k ih =>
    intro s
    simp only [withinL, run]
    obtain ⟨h1, h2⟩ := ih (lcLook env m c b s).1 (lcLook env m c b s).2
    exact ⟨h1, h2⟩

theorem loadBodyTop_does {a : LoadArgs} {g mgr m} : Does (lcLook a.env) (loadBodyTop a g mgr m) (Verif.loadBodyTop a g mgr m) := by
  intro s
  unfold loadBodyTop Verif.loadBodyTop
  rw [run_bind, run_op, M.bind_of_ok (M.get_apply _)]
  cases s.1.store.links g with
  | none => exact ⟨_, rfl⟩
  | some ls =>
    simp only []
    cases Assoc.get? ls dataName0 with
    | none => exact ⟨_, rfl⟩
    | some d =>
      simp only []
      rw [run_bind, run_op, M.bind_of_ok (M.modify_apply _ _), run_bind, M.bind_apply]
      obtain ⟨h1, h2⟩ := run_withinL (env := a.env) (loadNode ⟨a.env, mgr, s.1.store, a.order⟩ a.fuel (.root []) dataName0 d)
        (s.1, { heap := loadHeap, tcache := m.tc, reg := {} })
      have h3 := run_loadNode (c := ⟨a.env, mgr, s.1.store, a.order⟩) a.fuel (.root []) dataName0 d
      simp only at h1 h2 h3
      rw [h3] at h1 h2
      rw [h1]
      generalize Verif.loadNode ⟨a.env, mgr, s.1.store, a.order⟩ a.fuel (.root []) dataName0 d { heap := loadHeap, tcache := m.tc, reg := s.1.reg } = y at *
      obtain ⟨x, t⟩ := y
      simp only [] at h2 ⊢
      cases x with
      | error e => exact ⟨_, rfl⟩
      | ok r =>
        simp only [run_bind, run_view, M.bind_of_ok (M.get_apply _)]
        cases r with
        | root l =>
          cases l with
          | nil => exact ⟨_, rfl⟩
          | cons x l => simp only [run_pure]; rw [← h2]; exact ⟨_, rfl⟩
        | _ => exact ⟨_, rfl⟩

/-- **the steps of a load, one after the other, are the load** -/
theorem loadTop_does (a : LoadArgs) : Does (lcLook a.env) (loadTop a) (Verif.loadTop a) := by
  have h : Does (lcLook a.env) (loadTry a) (Verif.loadTry a) := by
    unfold loadTry Verif.loadTry
    refine .view fun s => ?_
    cases pathOk a.path with
    | error e => exact .throw
    | ok u =>
      simp only []
      cases s.1.store.resolve 0 a.path with
      | none => exact .throw
      | some g =>
        simp only []
        cases s.1.store.links g with
        | none => exact .throw
        | some ls =>
          simp only []
          cases route ((s.1.store.attrs 0).getD []) ((s.1.store.attrs g).getD []) with
          | current =>
            exact .bind loaderEnter_does fun mgr => .finally (.bind refEnter_does fun m => .finally loadBodyTop_does .op) .op
          | _ => exact .throw
  unfold loadTop Verif.loadTop
  refine .bind h.attempt fun r => ?_
  cases r with
  | ok x => exact .pure
  | error e => exact .throw

theorem loadF_nil (all : Bool) (a : LoadArgs) : loadF all [] a = Verif.loadTop a := by
  funext s
  unfold loadF
  rw [runF_nil]
  obtain ⟨d, e⟩ := loadTop_does a (s, { heap := loadHeap, reg := {} })
  rw [e]

end Verif.Prog
