import Verif.Hickle.Warnings
import Verif.Hickle.DumpState
import Verif.H5.StoreLemmas
/-!
# What `dump` stores as pickle strings, and what it warns of
-/
namespace Verif.Warnings

/-- the class of the object a node holds as a pickle string -/
def pickleOf : Body → Option Cls
  | .dset (.pickleObj c _) => some c
  | _ => none

/-- the classes of the objects stored as pickle strings, in the order they were stored -/
def pickles (S : Store) : List Cls := S.filterMap fun n => pickleOf n.body

/-- the data is not the pickle string of an object -/
def NoPickle : Data → Prop
  | .pickleObj .. => False
  | _ => True

theorem filterMap_modify {α β : Type} (f : α → Option β) (g : α → α) : ∀ (l : List α) (i : Nat), (∀ x, l[i]? = some x → f (g x) = f x) →
    (l.modify i g).filterMap f = l.filterMap f
  | [], i, _ => by cases i <;> rfl
  | x :: l, 0, h => by
    simp only [List.modify_zero_cons, List.filterMap_cons]
    rw [h x rfl]
  | x :: l, i + 1, h => by
    simp only [List.modify_succ_cons, List.filterMap_cons]
    rw [filterMap_modify f g l i fun y hy => h y (by simpa using hy)]

theorem pickles_setAttr (S : Store) (n k v) : pickles (S.setAttr n k v) = pickles S :=
  filterMap_modify _ _ _ _ fun _ _ => rfl

theorem pickles_create {S S' : Store} {p name body n} (h : S.create p name body = .ok (n, S')) :
    pickles S' = pickles S ++ (pickleOf body).toList := by
  unfold Store.create at h
  split at h
  · simp at h
  · next ls hls =>
    obtain ⟨nd, hnd, hb⟩ := Store.links_eq hls
    repeat' split at h
    all_goals simp only [Except.ok.injEq, Prod.mk.injEq, reduceCtorEq] at h
    obtain ⟨_, rfl⟩ := h
    unfold pickles
    rw [List.filterMap_append, filterMap_modify]
    · congr 1
    · intro x hx
      have : x = nd := by have := hx.symm.trans hnd; simpa using this
      subst this
      simp only [hb, pickleOf]

/-! ### parts that store no pickle string -/

section
variable {L : List Cls}

/-- a condition on the file of a running dump -/
abbrev OnStore (L : List Cls) (s : DState) : Prop := pickles s.store = L

theorem mkDset_keeps {kw p name d} (hd : NoPickle d) : Keeps (OnStore L) (mkDset kw p name d) := by
  intro s hs
  unfold mkDset
  split
  · exact ⟨hs, fun _ _ => trivial⟩
  · split
    · exact ⟨hs, fun _ _ => trivial⟩
    · next h =>
      refine ⟨?_, fun _ _ => trivial⟩
      show pickles _ = L
      rw [pickles_create h, ← hs]
      cases d <;> first | exact hd.elim | simp [pickleOf]

theorem mkGroup_keeps {p name} : Keeps (OnStore L) (mkGroup p name) := by
  intro s hs
  unfold mkGroup
  split
  · exact ⟨hs, fun _ _ => trivial⟩
  · next h =>
    refine ⟨?_, fun _ _ => trivial⟩
    show pickles _ = L
    rw [pickles_create h, ← hs]
    simp [pickleOf]

theorem setAttr_keeps {n k v} : Keeps (OnStore L) (setAttr n k v) :=
  .modify (fun s hs => (pickles_setAttr s.store n k v).trans hs) trivial
theorem setAttrs_keeps {n l} : Keeps (OnStore L) (setAttrs n l) := .forEach trivial _ fun _ _ => setAttr_keeps

theorem createItems_keeps {c h items dt p name} : Keeps (OnStore L) (createItems c h items dt p name) := by
  unfold createItems
  split
  · refine .bind (mkDset_keeps trivial) fun n _ => ?_
    split
    · exact .pure trivial
    · exact .throw _
  · exact .throw _
  · exact .bind mkGroup_keeps fun n _ => .bind setAttr_keeps fun _ _ => .pure trivial

theorem createListlike_keeps {c h o p name} : Keeps (OnStore L) (createListlike c h o p name) := by
  unfold createListlike
  repeat' split
  all_goals first
    | exact .throw _
    | exact createItems_keeps
    | exact .bind (mkDset_keeps trivial) fun n _ => .bind setAttr_keeps fun _ _ => .pure trivial
    | exact .bind (mkDset_keeps trivial) fun n _ => .pure trivial

theorem createRows_keeps {c n sh ls p name} : Keeps (OnStore L) (createRows c n sh ls p name) := by
  unfold createRows
  split
  · exact .throw _
  · split
    · exact .bind (mkDset_keeps trivial) fun n _ => .pure trivial
    · exact .bind mkGroup_keeps fun n _ => .bind setAttr_keeps fun _ _ => .pure trivial

theorem createNpArray_keeps {c h o p name} : Keeps (OnStore L) (createNpArray c h o p name) := by
  have dt : ∀ {x d}, Keeps (OnStore L) x → Keeps (OnStore L) (withDtype x d) :=
    fun hx => .bind hx fun r _ => .bind setAttr_keeps fun _ _ => .pure trivial
  unfold createNpArray
  split
  · exact dt (.bind (mkDset_keeps trivial) fun n _ => .pure trivial)
  · refine dt ?_
    unfold createStrings
    repeat' split
    all_goals first
      | exact .throw _
      | exact createRows_keeps
      | exact .bind (mkDset_keeps trivial) fun n _ => .pure trivial
  · refine dt ?_
    unfold createObjects
    repeat' split
    all_goals first
      | exact .throw _
      | exact createRows_keeps
      | exact createListlike_keeps
      | exact .bind mkGroup_keeps fun n _ => .pure trivial
  · exact .throw _

theorem createFn_keeps {c fn h o p name} (hf : fn ≠ .pickled) : Keeps (OnStore L) (createFn c fn h o p name) := by
  unfold createFn
  split
  · refine .bind (Q := fun _ => True) ?_ fun n _ => .pure trivial
    unfold createScalar
    repeat' split
    all_goals first | exact mkDset_keeps trivial | exact .throw _
  · exact .bind (Q := fun _ => True) (mkDset_keeps trivial) fun n _ => .pure trivial
  · exact createListlike_keeps
  · unfold createSetlike
    repeat' split
    all_goals first
      | exact .throw _
      | exact createItems_keeps
      | exact .bind (mkDset_keeps trivial) fun n _ => .pure trivial
  · unfold createDictlike
    split
    · exact .bind mkGroup_keeps fun n _ => .pure trivial
    · exact .throw _
  · refine .bind (Q := fun _ => True) ?_ fun n _ => .pure trivial
    unfold createNpScalar
    split
    · exact .bind (mkDset_keeps trivial) fun n _ => .bind setAttr_keeps fun _ _ => .pure trivial
    · exact .throw _
  · exact createNpArray_keeps
  · unfold createMasked
    split
    · exact .bind mkGroup_keeps fun n _ => .bind setAttr_keeps fun _ _ => .pure trivial
    · exact .throw _
  · unfold createSparse
    split
    · split
      · exact .throw _
      · exact .bind mkGroup_keeps fun n _ => .pure trivial
    · exact .throw _
  · exact absurd rfl hf
  all_goals exact .throw _

theorem storeType_keeps {c n cls b} : Keeps (OnStore L) (storeType c n cls b) := by
  unfold storeType
  split
  · exact .pure trivial
  · refine .bind (Q := fun _ => True) ?_ fun _ _ => setAttr_keeps
    unfold typeEntryNode
    refine .bind .get fun s _ => ?_
    split
    · exact .pure trivial
    · split
      · exact .throw _
      · split
        · exact .throw _
        · split
          · exact .throw _
          · refine .bind (mkDset_keeps trivial) fun _ _ => .bind (Q := fun _ => True) ?_ fun _ _ => .bind setAttr_keeps fun _ _ =>
              .bind (Q := fun _ => True) (.modify (fun _ hs => hs) trivial) fun _ _ => .pure trivial
            unfold baseEntry
            refine .bind .get fun s _ => ?_
            split
            · exact .pure trivial
            · exact .bind (mkDset_keeps trivial) fun _ _ => .bind (Q := fun _ => True) (.modify (fun _ hs => hs) trivial) fun _ _ => .pure trivial

theorem subAddr_keeps {x} : Keeps (OnStore L) (subAddr x) := by
  cases x <;> exact fun s hs => ⟨hs, fun _ _ => trivial⟩

end

/-! ### the account -/

/-- between two moments pickle strings were added to the file and warnings to the log: every pickle string was
warned of before, and if nothing was raised (`ok`) there are no other warnings -/
def Told (S S' : Store) (l l' : List Warn) (ok : Prop) : Prop :=
  ∃ new said, pickles S' = pickles S ++ new ∧ l' = l ++ said.map .serialized ∧ new.Sublist said ∧ (ok → new = said)

theorem Told.refl {S S' : Store} (h : pickles S' = pickles S) (l : List Warn) (ok : Prop) : Told S S' l l ok :=
  ⟨[], [], by simp [h], by simp, List.Sublist.refl _, fun _ => rfl⟩

theorem Told.trans {S S' S'' : Store} {l l' l'' : List Warn} {ok ok' ok'' : Prop} (h : Told S S' l l' ok) (h' : Told S' S'' l' l'' ok')
    (ho : ok'' → ok ∧ ok') : Told S S'' l l'' ok'' := by
  obtain ⟨n1, s1, a1, b1, c1, d1⟩ := h
  obtain ⟨n2, s2, a2, b2, c2, d2⟩ := h'
  exact ⟨n1 ++ n2, s1 ++ s2, by rw [a2, a1, List.append_assoc], by rw [b2, b1, List.append_assoc, List.map_append], c1.append c2,
    fun k => by rw [d1 (ho k).1, d2 (ho k).2]⟩

/-- a computation on a state that holds a file keeps the account -/
def Tells {σ α : Type} (st : σ → Store) (x : WM σ α) : Prop :=
  ∀ s l, Told (st s) (st (x (s, l)).2.1) l (x (s, l)).2.2 (∃ a, (x (s, l)).1 = .ok a)

namespace Tells
variable {σ α β : Type} {st : σ → Store}

theorem bind {x : WM σ α} {f : α → WM σ β} (hx : Tells st x) (hf : ∀ a, Tells st (f a)) : Tells st (x >>= f) := by
  intro s l
  have h1 := hx s l
  rw [M.bind_apply]
  rcases ex : x (s, l) with ⟨r, s1, l1⟩
  rw [ex] at h1
  cases r with
  | ok a =>
    dsimp only at h1 ⊢
    exact h1.trans (hf a s1 l1) fun k => ⟨⟨a, rfl⟩, k⟩
  | error e =>
    dsimp only at h1 ⊢
    obtain ⟨n1, s1, a1, b1, c1, d1⟩ := h1
    exact ⟨n1, s1, a1, b1, c1, fun ⟨a, k⟩ => by simp at k⟩

theorem pure (a : α) : Tells st (Pure.pure a : WM σ α) := fun _ l => .refl rfl l _
theorem throw (e : PyErr) : Tells st (M.throw e : WM σ α) := fun _ l => .refl rfl l _

theorem quiet {y : M σ α} (h : ∀ L, Keeps (fun s => pickles (st s) = L) y) : Tells st (Warnings.quiet y) :=
  fun s l => .refl ((h _ s rfl).1) l _

theorem forEach {f : α → WM σ Unit} (h : ∀ a, Tells st (f a)) : ∀ xs, Tells st (M.forEach f xs)
  | [] => pure ()
  | x :: xs => bind (h x) fun _ => forEach h xs

theorem finally' {x : WM σ α} {y : M σ Unit} (hx : Tells st x) (hy : ∀ L, Keeps (fun s => pickles (st s) = L) y)
    (hk : ∀ s, ∃ u, (y s).1 = .ok u) : Tells st (Verif.finally' x (Warnings.quiet y)) := by
  intro s l
  unfold Verif.finally'
  rw [M.bind_apply]
  simp only [M.attempt_apply]
  have h1 := hx s l
  rcases ex : x (s, l) with ⟨r, s1, l1⟩
  rw [ex] at h1
  dsimp only at h1 ⊢
  rw [M.bind_apply]
  obtain ⟨u, hu⟩ := hk s1
  have e2 : Warnings.quiet y (s1, l1) = (.ok u, ((y s1).2, l1)) := by unfold Warnings.quiet; rw [hu]
  rw [e2]
  simp only [M.ofExcept_apply]
  exact h1.trans (.refl ((hy _ s1 rfl).1) l1 True) fun k => ⟨k, trivial⟩

end Tells

/-- one pickle string, one warning -/
theorem createPickledW_tells (c : DCtx) (o : Obj) (p : NodeId) (name : PyStr) : Tells DState.store (createPickledW c o p name) := by
  intro s l
  unfold createPickledW
  rw [M.bind_apply]
  unfold warn quiet createPickled
  dsimp only
  have fail : ∀ (l : List Warn) (e : PyErr), Told s.store s.store l (l ++ [.serialized o.cls]) (∃ a : NodeId, Except.error e = .ok a) :=
    fun l e => ⟨[], [o.cls], by simp, by simp, by simp, fun ⟨a, h⟩ => by simp at h⟩
  cases hv : o.val with
  | «opaque» st b =>
    cases b with
    | false => exact fail _ _
    | true =>
      dsimp only
      unfold mkDset
      cases checkKw c.kw (.pickleObj o.cls st) with
      | error e => exact fail _ _
      | ok u =>
        dsimp only
        cases h : s.store.create p name (.dset (.pickleObj o.cls st)) with
        | error e => exact fail _ _
        | ok x => exact ⟨[o.cls], [o.cls], by simpa [pickleOf] using pickles_create h, by simp, by simp, fun _ => rfl⟩
  | _ => exact fail _ _

/-- `createPickled` does not refuse objects with `NotHicklable` -/
theorem createPickled_err {c o p name s e} (h : (createPickled c o p name s).1 = .error e) : e ≠ .notHicklable := by
  unfold createPickled at h
  have conv : ∀ {e'}, (Except.error e' : Except PyErr NodeId) = .error e → e' ≠ .notHicklable → e ≠ .notHicklable := by
    intro e' h1 h2; cases h1; exact h2
  cases hv : o.val with
  | «opaque» st b =>
    rw [hv] at h
    cases b with
    | false => exact conv h (by simp)
    | true =>
      dsimp only at h
      unfold mkDset at h
      cases hc : checkKw c.kw (.pickleObj o.cls st) with
      | error e' =>
        rw [hc] at h
        refine conv h ?_
        unfold checkKw at hc
        repeat' split at hc
        all_goals simp at hc
        all_goals simp [← hc]
      | ok u =>
        rw [hc] at h
        dsimp only at h
        cases hs : s.store.create p name (.dset (.pickleObj o.cls st)) with
        | error e' =>
          rw [hs] at h
          refine conv h ?_
          unfold Store.create at hs
          repeat' split at hs
          all_goals simp at hs
          all_goals simp [← hs]
        | ok x => rw [hs] at h; simp at h
  | _ => rw [hv] at h; exact conv h (by simp)

theorem createFnW_tells (c fn h o p name) : Tells DState.store (createFnW c fn h o p name) := by
  cases fn
  case pickled => exact .bind (createPickledW_tells _ _ _ _) fun _ => .pure _
  all_goals exact .quiet fun L => createFn_keeps (by simp)

/-- a create function that is refused has not warned: it was not the one for pickle strings -/
theorem createFnW_refused {c fn h o p name s l} (he : (createFnW c fn h o p name (s, l)).1 = .error .notHicklable) :
    pickles (createFnW c fn h o p name (s, l)).2.1.store = pickles s.store ∧ (createFnW c fn h o p name (s, l)).2.2 = l := by
  cases fn
  case pickled =>
    exfalso
    have h1 := (createFnW_erases c .pickled h o p name s l).1
    rw [he] at h1
    simp only [createFn, leaf] at h1
    rw [M.bind_apply] at h1
    split at h1
    · simp at h1
    · next e s1 hx =>
      simp only [Except.error.injEq] at h1
      exact createPickled_err (c := c) (o := o) (p := p) (name := name) (s := s) (e := e) (by rw [hx]) h1.symm
  all_goals exact ⟨((createFn_keeps (L := pickles s.store) (by simp)) s rfl).1, rfl⟩

theorem dumpCreateW_tells (c o p name) : Tells DState.store (dumpCreateW c o p name) := by
  refine .bind (.quiet fun L => fun s hs => ⟨hs, fun _ _ => trivial⟩) fun ce => .bind (.quiet fun L => fun s hs => ⟨hs, fun _ _ => trivial⟩) fun s0 => ?_
  intro s l
  have h1 := createFnW_tells c ce.2.fn s0.heap o p name s l
  have h2 := @createFnW_refused c ce.2.fn s0.heap o p name s l
  rw [M.bind_apply]
  simp only [M.attempt_apply]
  rcases ex : createFnW c ce.2.fn s0.heap o p name (s, l) with ⟨r, s1, l1⟩
  rw [ex] at h1 h2
  dsimp only at h1 h2 ⊢
  cases r with
  | ok x =>
    obtain ⟨n, subs⟩ := x
    have := (Tells.bind (st := DState.store) (.quiet fun L => storeType_keeps (c := c) (n := n) (cls := ce.1) (b := ce.2.base))
      (fun _ => .pure (n, subs, ce.2.memoise))) s1 l1
    exact h1.trans this fun k => ⟨⟨_, rfl⟩, k⟩
  | error e =>
    by_cases he : e = .notHicklable
    · obtain ⟨h3, h4⟩ := h2 (by rw [he])
      dsimp only
      rw [if_pos he]
      subst h4
      have := (Tells.bind (createPickledW_tells c o p name) (fun n => .pure (st := DState.store) (n, ([] : Subs), ce.2.memoise))) s1 l1
      refine Told.trans (.refl h3 l1 True) this fun k => ⟨trivial, k⟩
    · dsimp only
      rw [if_neg he]
      obtain ⟨n1, s1, a1, b1, c1, d1⟩ := h1
      exact ⟨n1, s1, a1, b1, c1, fun ⟨a, k⟩ => by simp at k⟩

theorem dumpNodeW_tells (c : DCtx) : ∀ fuel a p name attrs, Tells DState.store (dumpNodeW c fuel a p name attrs)
  | 0, _, _, _, _ => .throw _
  | fuel + 1, a, p, name, attrs => by
    rw [dumpNodeW]
    refine .bind (.quiet fun L => fun s hs => ⟨hs, fun _ _ => trivial⟩) fun s => ?_
    cases Assoc.get? s.memo a with
    | some n => exact .quiet fun L => .bind (mkDset_keeps trivial) fun _ _ => setAttrs_keeps
    | none =>
      dsimp only
      cases s.heap[a]? with
      | none => exact .throw _
      | some o =>
        refine .bind (dumpCreateW_tells _ _ _ _) fun r => .bind (.quiet fun L => setAttrs_keeps) fun _ => .bind (.quiet fun L => ?_) fun _ => .forEach (fun sub => ?_) _
        · split
          · exact .modify (fun s hs => hs) trivial
          · exact .pure trivial
        · cases sub with
          | error e => exact .throw _
          | ok sub => exact .bind (.quiet fun L => subAddr_keeps) fun b => dumpNodeW_tells c fuel _ _ _ _

theorem dumpDataW_tells (a g mgr m) : Tells Session.store (dumpDataW a g mgr m) := by
  intro s l
  unfold dumpDataW
  cases m.table with
  | none => exact .refl rfl _ _
  | some T =>
    exact dumpNodeW_tells ⟨a.env, mgr, a.kw, T⟩ a.fuel a.obj g dataName0 []
      { heap := a.heap, store := s.store, tlinks := m.tl, blinks := m.bl, reg := s.reg } l

/-! ### opening and closing -/

section
variable {L : List Cls}

theorem mkPath_pickles : ∀ (path : List PyStr) {S S' : Store} {n g : NodeId}, S.mkPath n path = .ok (g, S') → pickles S' = pickles S
  | [], S, S', n, g, h => by simp only [Store.mkPath, Except.ok.injEq, Prod.mk.injEq] at h; rw [h.2]
  | x :: xs, S, S', n, g, h => by
    rw [Store.mkPath] at h
    split at h
    · simp at h
    · split at h
      · exact mkPath_pickles xs h
      · split at h
        · simp at h
        · next hc => rw [mkPath_pickles xs h, pickles_create hc]; simp [pickleOf]

theorem dumpGroup_keeps {path} : Keeps (fun s : Session => pickles s.store = L) (dumpGroup path) := by
  intro s hs
  refine ⟨?_, fun _ _ => trivial⟩
  unfold dumpGroup
  repeat' split
  all_goals first | exact hs | skip
  next h => exact (mkPath_pickles _ h).trans hs

theorem sSetAttr_keeps {g k v} : Keeps (fun s : Session => pickles s.store = L) (sSetAttr g k v) :=
  .modify (fun s hs => (pickles_setAttr s.store g k v).trans hs) trivial

theorem setOptions_keeps {g} : ∀ {os maps}, Keeps (fun s : Session => pickles s.store = L) (setOptions g os maps)
  | [], _ => .pure trivial
  | (k, on) :: ks, maps => by
    rw [setOptions]
    split
    · refine .bind sSetAttr_keeps fun _ _ => ?_
      split
      · exact setOptions_keeps
      · exact .throw _
    · exact setOptions_keeps

theorem loaderEnter_keeps {g os} : Keeps (fun s : Session => pickles s.store = L) (loaderEnter g os) := by
  unfold loaderEnter
  refine .bind .get fun s _ => ?_
  split
  · exact .throw _
  · refine .bind (Q := fun _ => True) ?_ fun _ _ => .bind (Q := fun _ => True) (.modify (fun s hs => hs) trivial) fun _ _ => .pure trivial
    unfold optionMaps
    split
    · exact setOptions_keeps
    · exact .bind .get fun s _ => .ofExcept fun _ _ => trivial

theorem refEnter_keeps {env g} : Keeps (fun s : Session => pickles s.store = L) (refEnter env g) := by
  unfold refEnter
  refine .bind .get fun s _ => ?_
  split
  · exact .throw _
  · refine .bind (Q := fun _ => True) ?_ fun _ _ => .bind (Q := fun _ => True) (.modify (fun s hs => hs) trivial) fun _ _ => .pure trivial
    intro s hs
    refine ⟨?_, fun _ _ => trivial⟩
    unfold refInit
    repeat' split
    all_goals first | exact hs | skip
    next h => show pickles _ = L; rw [pickles_create h, hs]; simp [pickleOf]

end

theorem dumpW_tells (a : DumpArgs) : Tells Session.store (dumpW a) := by
  unfold dumpW
  refine .bind (.quiet fun L => fun s hs => ⟨hs, fun _ _ => trivial⟩) fun s => ?_
  cases s.writable with
  | false => exact .throw _
  | true =>
    exact .bind (.quiet fun L => dumpGroup_keeps) fun g => .bind (.quiet fun L => sSetAttr_keeps) fun _ => .bind (.quiet fun L => sSetAttr_keeps) fun _ =>
      .bind (.quiet fun L => loaderEnter_keeps) fun mgr =>
      .finally' (.bind (.quiet fun L => refEnter_keeps) fun m => .finally' (dumpDataW_tells _ _ _ _) (fun L => .modify (fun s hs => hs) trivial) fun s => ⟨(), rfl⟩)
        (fun L => .modify (fun s hs => hs) trivial) fun s => ⟨(), rfl⟩

end Verif.Warnings
