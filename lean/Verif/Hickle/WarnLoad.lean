import Verif.Hickle.WarnDump
/-!
# The substitutes `load` returns, and what it warns of
-/
namespace Verif.Warnings

/-- a `RecoveredGroup` or `RecoveredDataset` (lookup.py:187-270): an object `load` returns in place of another -/
def isSubst : Obj → Bool
  | ⟨.recData, .recData ..⟩ => true
  | ⟨.recGroup, .recGroup ..⟩ => true
  | _ => false

/-- the number of substitutes among the objects -/
def substs (H : Heap) : Nat := H.countP isSubst

theorem substs_append (H : Heap) (o : Obj) : substs (H ++ [o]) = substs H + (if isSubst o then 1 else 0) := by
  simp [substs, List.countP_append, List.countP_cons]

/-- every pickle string in the file can be read -/
def Readable (env : Env) (S : Store) : Prop := ∀ c ∈ pickles S, clsImportable env c = true

theorem Readable.node {env : Env} {S : Store} (h : Readable env S) {n : Node} (hn : n ∈ S) {c st} (hb : n.body = .dset (.pickleObj c st)) :
    clsImportable env c = true :=
  h c (by rw [pickles, List.mem_filterMap]; exact ⟨n, hn, by rw [hb]; rfl⟩)

/-! ### parts that make no substitute -/

section
variable {k : Nat}

/-- a condition on the objects of a running load -/
abbrev OnHeap (k : Nat) (s : LState) : Prop := substs s.heap = k

theorem lAlloc_keeps {o : Obj} (h : isSubst o = false) : Keeps (OnHeap k) (lAlloc o) := by
  intro s hs
  refine ⟨?_, fun _ _ => trivial⟩
  show substs (s.heap ++ [o]) = k
  rw [substs_append, h]
  simpa using hs

theorem construct_keeps {env i arg} : Keeps (OnHeap k) (construct env i arg) :=
  .bind (.ofExcept (Q := fun _ => True) fun _ _ => trivial) fun _ _ => lAlloc_keeps rfl

theorem mkSeq_keeps {env c items} : Keeps (OnHeap k) (mkSeq env c items) := by
  unfold mkSeq
  repeat' split
  all_goals first | exact lAlloc_keeps rfl | exact construct_keeps | exact .throw _ | exact .pure trivial

theorem mkSet_keeps {env c items} : Keeps (OnHeap k) (mkSet env c items) := by
  unfold mkSet
  repeat' split
  all_goals first | exact lAlloc_keeps rfl | exact construct_keeps | exact .throw _

theorem lAllocs_keeps : ∀ {os : List Obj}, (∀ o ∈ os, isSubst o = false) → Keeps (OnHeap k) (lAllocs os)
  | [], _ => .pure trivial
  | o :: os, h => .bind (Q := fun _ => True) (lAlloc_keeps (h o (by simp))) fun _ _ =>
    .bind (Q := fun _ => True) (lAllocs_keeps fun x hx => h x (by simp [hx])) fun _ _ => .pure trivial

theorem loadScalar_keeps {env d cls} : Keeps (OnHeap k) (loadScalar env d cls) := by
  unfold loadScalar
  repeat' split
  all_goals first | exact lAlloc_keeps rfl | exact construct_keeps | exact .throw _

theorem np_subst (c : Cls) (v : NpVal) : isSubst ⟨c, .np v⟩ = false := by
  unfold isSubst; split <;> simp_all

theorem loadList_keeps {env d attrs cls} : Keeps (OnHeap k) (loadList env d attrs cls) := by
  unfold loadList
  repeat' split
  all_goals first
    | exact lAlloc_keeps rfl
    | exact construct_keeps
    | exact .throw _
    | exact .pure trivial
    | skip
  all_goals
    refine .bind (Q := fun _ => True) (lAllocs_keeps ?_) fun as _ => ?_
    · intro o ho
      simp only [List.mem_map] at ho
      obtain ⟨v, _, rfl⟩ := ho
      exact np_subst ..
  · exact .bind .get fun s _ => .bind (.ofExcept (Q := fun _ => True) fun _ _ => trivial) fun _ _ => mkSet_keeps
  · exact mkSeq_keeps

theorem loadNpScalar_keeps {d attrs} : Keeps (OnHeap k) (loadNpScalar d attrs) := by
  unfold loadNpScalar
  repeat' split
  all_goals first | exact lAlloc_keeps (np_subst ..) | exact .throw _

theorem pyOf_subst (v : NpVal) : isSubst (pyOf v) = false := by cases v <;> rfl

theorem loadNdarray_keeps {d attrs cls} : Keeps (OnHeap k) (loadNdarray d attrs cls) := by
  unfold loadNdarray
  split
  · unfold loadNumArray
    repeat' split
    all_goals first | exact lAlloc_keeps rfl | exact .throw _
  · unfold loadStrArray
    repeat' split
    all_goals first | exact lAlloc_keeps rfl | exact .throw _
  · unfold loadObjArray
    split
    · refine .bind (Q := fun _ => True) (lAllocs_keeps ?_) fun as _ => lAlloc_keeps rfl
      intro o ho
      simp only [List.mem_map] at ho
      obtain ⟨v, _, rfl⟩ := ho
      exact pyOf_subst v
    · exact .throw _
  · exact .throw _
  · exact .throw _

theorem loadData_keeps {c fn d attrs orig cls} (hf : fn ≠ .recover) (hd : ∀ i st, d = .pickleObj i st → clsImportable c.env i = true) :
    Keeps (OnHeap k) (loadData c fn d attrs orig cls) := by
  unfold loadData
  split
  · exact loadScalar_keeps
  · exact lAlloc_keeps rfl
  · exact loadList_keeps
  · exact loadNpScalar_keeps
  · exact loadNdarray_keeps
  · unfold loadPickled
    split
    · rw [if_pos (hd _ _ rfl)]
      exact lAlloc_keeps (by unfold isSubst; split <;> simp_all)
    · exact .throw _
    · split <;> exact .throw _
  · exact absurd rfl hf
  · exact .pure trivial
  all_goals exact .throw _

/-- is it the container of a group that is to be recovered -/
def Cont.isRecover : Cont → Bool
  | .recover .. => true
  | _ => false

theorem dictAppend_keeps {env content name a attrs} : Keeps (OnHeap k) (dictAppend env content name a attrs) := by
  unfold dictAppend
  refine .bind (Q := fun _ => True) ?_ fun kbt _ => .bind (.ofExcept (Q := fun key => ∀ o, key = some o → isSubst o = false) ?_) fun key hk => ?_
  · repeat' split
    all_goals first | exact .pure trivial | exact .throw _
  · intro key hl o ho
    subst ho
    unfold loadKey at hl
    dsimp only at hl
    repeat' split at hl
    all_goals first
      | (simp only [Except.ok.injEq, Option.some.injEq, reduceCtorEq] at hl; subst hl; rfl)
      | (simp at hl)
  · split
    · exact .ofExcept fun _ _ => trivial
    · exact .bind (Q := fun _ => True) (lAlloc_keeps (hk _ rfl)) fun _ _ => .ofExcept fun _ _ => trivial

/-- appending to a container makes no substitute and leaves it the container it is -/
theorem contAppend_keeps {c cont name a attrs} : Keeps (OnHeap k) (contAppend c cont name a attrs) fun x => Cont.isRecover x = Cont.isRecover cont := by
  unfold contAppend
  split
  · exact .pure rfl
  · exact .pure rfl
  · exact .bind (.ofExcept (Q := fun _ => True) fun _ _ => trivial) fun _ _ => .pure rfl
  · exact .bind .get fun s _ => .bind (.ofExcept (Q := fun _ => True) fun _ _ => trivial) fun _ _ => .pure rfl
  · exact .bind (Q := fun _ => True) dictAppend_keeps fun _ _ => .pure rfl
  · exact .bind .get fun s _ => .pure rfl
  · exact .pure rfl
  · exact .bind (.ofExcept (Q := fun _ => True) fun _ _ => trivial) fun _ _ => .pure rfl
  · exact .pure rfl
  · refine .ofExcept fun x hx => ?_
    unfold sparseAppend at hx
    repeat' split at hx
    all_goals simp at hx
    all_goals subst hx; rfl

theorem contConvert_keeps {c cont} (h : Cont.isRecover cont = false) : Keeps (OnHeap k) (contConvert c cont) := by
  unfold contConvert
  split
  · split
    · exact .pure trivial
    · exact .throw _
  · split
    · exact .pure trivial
    · exact .throw _
  · exact mkSeq_keeps
  · exact mkSet_keeps
  · refine .bind .get fun s _ => .bind (.ofExcept (Q := fun _ => True) fun _ _ => trivial) fun _ _ => ?_
    split
    · exact .bind (.ofExcept (Q := fun _ => True) fun _ _ => trivial) fun _ _ => lAlloc_keeps rfl
    · exact construct_keeps
    · exact .throw _
  · exact lAlloc_keeps rfl
  · unfold arrConvert
    refine .bind .get fun s _ => ?_
    repeat' split
    all_goals first
      | exact lAlloc_keeps rfl
      | exact .throw _
      | (refine .bind (.ofExcept (Q := fun _ => True) fun _ _ => trivial) fun _ _ => ?_
         first | exact lAlloc_keeps rfl | exact .throw _)
  · unfold maskedConvert
    refine .bind .get fun s _ => ?_
    repeat' split
    all_goals first | exact lAlloc_keeps rfl | exact .throw _
  · unfold sparseConvert
    refine .bind .get fun s _ => ?_
    repeat' split
    all_goals first
      | exact .throw _
      | exact lAlloc_keeps (by unfold isSubst; split <;> simp_all)
  · simp [Cont.isRecover] at h

theorem mkCont_keeps {x attrs orig cls} : Keeps (OnHeap k) (mkCont x attrs orig cls) := by
  unfold mkCont
  repeat' split
  all_goals first | exact .pure trivial | exact .throw _

theorem contFilter_keeps {c cont node} : Keeps (OnHeap k) (contFilter c cont node) := by
  unfold contFilter
  repeat' split
  all_goals first | exact .pure trivial | exact .throw _

theorem resolveType_keeps {c node} : Keeps (OnHeap k) (resolveType c node) := by
  unfold resolveType
  split
  · refine .bind (Q := fun _ => True) ?_ fun ti _ => ?_
    · unfold resolveEntry
      split
      · exact .throw _
      · refine .bind .get fun s _ => ?_
        split
        · exact .pure trivial
        · refine .bind (Q := fun _ => True) ?_ fun base _ => .bind (Q := fun _ => True) ?_ fun ti _ =>
            .bind (Q := fun _ => True) (.modify (fun s hs => hs) trivial) fun _ _ => .pure trivial
          all_goals
            repeat' split
            all_goals first | exact .pure trivial | exact .throw _
    · split <;> exact .pure trivial
  · split
    all_goals first | exact .pure trivial | exact .throw _
  · dsimp only
    split <;> exact .pure trivial
  all_goals exact .throw _

theorem loadFinish_keeps {c cont name a attrs n mem} : Keeps (OnHeap k) (loadFinish c cont name a attrs n mem) fun x => Cont.isRecover x = Cont.isRecover cont := by
  unfold loadFinish
  refine .bind contAppend_keeps fun x hx => ?_
  split
  · exact .bind (Q := fun _ => True) (.modify (fun s hs => hs) trivial) fun _ _ => .pure hx
  · exact .pure hx

end

/-! ### the account -/

/-- warnings minus substitutes -/
def balance (s : LState × List Warn) : Int := s.2.length - substs s.1.heap

/-- a computation that succeeds changes the balance by `d`; it does not make it smaller if it fails -/
def Bal {α : Type} (d : Int) (x : WM LState α) (Q : α → Prop := fun _ => True) : Prop :=
  ∀ s, (∀ a, (x s).1 = .ok a → balance (x s).2 = balance s + d ∧ Q a) ∧ (∀ e, (x s).1 = .error e → balance s ≤ balance (x s).2)

namespace Bal
variable {α β : Type}

theorem bind {d1 d2 : Int} {x : WM LState α} {f : α → WM LState β} {Q : α → Prop} {Q' : β → Prop} (hd : 0 ≤ d1) (hx : Bal d1 x Q)
    (hf : ∀ a, Q a → Bal d2 (f a) Q') : Bal (d1 + d2) (x >>= f) Q' := by
  intro s
  obtain ⟨h1, h2⟩ := hx s
  rw [M.bind_apply]
  rcases ex : x s with ⟨r, s1⟩
  rw [ex] at h1 h2
  cases r with
  | ok a =>
    obtain ⟨h3, h4⟩ := h1 a rfl
    obtain ⟨h5, h6⟩ := hf a h4 s1
    dsimp only at h3 ⊢
    exact ⟨fun b hb => ⟨by have := (h5 b hb).1; omega, (h5 b hb).2⟩, fun e he => by have := h6 e he; omega⟩
  | error e =>
    dsimp only
    exact ⟨fun b hb => by simp at hb, fun _ _ => h2 e rfl⟩

theorem bind0 {d2 : Int} {x : WM LState α} {f : α → WM LState β} {Q : α → Prop} {Q' : β → Prop} (hx : Bal 0 x Q)
    (hf : ∀ a, Q a → Bal d2 (f a) Q') : Bal d2 (x >>= f) Q' := by
  have := bind (Int.le_refl 0) hx hf
  rwa [Int.zero_add] at this

theorem pure {Q : α → Prop} {a : α} (h : Q a) : Bal 0 (Pure.pure a : WM LState α) Q := by
  intro s
  refine ⟨fun b hb => ⟨by simp, ?_⟩, fun e he => by simp at he⟩
  simp at hb
  exact hb ▸ h

theorem throw {d : Int} {Q : α → Prop} (e : PyErr) : Bal d (M.throw e : WM LState α) Q := by
  intro s
  exact ⟨fun b hb => by simp at hb, fun e he => by simp⟩

theorem quiet {y : M LState α} {Q : α → Prop} (h : ∀ k, Keeps (OnHeap k) y Q) : Bal 0 (Warnings.quiet y) Q := by
  intro s
  obtain ⟨h1, h2⟩ := h _ s.1 rfl
  have hb : balance (Warnings.quiet y s).2 = balance s := by
    unfold balance Warnings.quiet
    dsimp only
    have h1 : substs (y s.1).2.heap = substs s.1.heap := h1
    rw [h1]
  exact ⟨fun a ha => ⟨by omega, h2 a ha⟩, fun e he => by omega⟩

theorem get : Bal 0 (Warnings.quiet (M.get : M LState LState)) := quiet fun _ => fun s hs => ⟨hs, fun _ _ => trivial⟩

theorem foldEach {f : β → α → WM LState β} {Q : β → Prop} (h : ∀ b a, Q b → Bal 0 (f b a) Q) : ∀ xs {b}, Q b → Bal 0 (M.foldEach f b xs) Q
  | [], _, hb => pure hb
  | x :: xs, b, hb => bind0 (h b x hb) fun _ hb' => foldEach h xs hb'

end Bal

theorem warnFilter_bal {cont r node} (h : Cont.isRecover cont = true) : Bal 1 (warnFilter cont r node) := by
  cases cont <;> simp [Cont.isRecover] at h
  intro s
  refine ⟨fun a ha => ⟨?_, trivial⟩, fun e he => by simp [warnFilter, warn] at he⟩
  simp [warnFilter, warn, balance]
  omega

theorem warnFilter_bal0 {cont r node} (h : Cont.isRecover cont = false) : Bal 0 (warnFilter cont r node) := by
  cases cont <;> first | exact .pure trivial | simp [Cont.isRecover] at h

theorem convert_bal {c cont} (h : Cont.isRecover cont = true) : Bal (-1) (quiet (contConvert c cont)) := by
  cases cont <;> simp [Cont.isRecover] at h
  intro s
  refine ⟨fun a ha => ⟨?_, trivial⟩, fun e he => by simp [quiet, contConvert, lAlloc] at he⟩
  simp only [quiet, contConvert, lAlloc, balance, substs_append, isSubst]
  simp
  omega

theorem recoverData_bal {r node d attrs} : Bal 0 (warnData .recover r node >>= fun _ => quiet (recoverData d attrs)) := by
  intro s
  rw [M.bind_apply]
  have alloc : ∀ at', balance (quiet (lAlloc ⟨.recData, .recData d at'⟩) (s.1, s.2 ++ [Warn.recovered r.orig node.name])).2 = balance s := by
    intro at'
    simp only [quiet, lAlloc, balance, substs_append, isSubst]
    simp
    omega
  have fail : balance (s.1, s.2 ++ [Warn.recovered r.orig node.name]) = balance s + 1 := by
    simp [balance]; omega
  simp only [warnData, warn]
  cases d with
  | null t => exact ⟨fun a ha => by simp [quiet, recoverData] at ha, fun e he => by
      show balance s ≤ balance (s.1, s.2 ++ [Warn.recovered r.orig node.name])
      omega⟩
  | _ => exact ⟨fun a ha => ⟨by have := alloc (attrs.filter fun p => p.1 ≠ "type"); rw [Int.add_zero]; exact this, trivial⟩, fun e he => by
      simp [quiet, recoverData, lAlloc] at he⟩

theorem loadBodyW_bal (c : LCtx) {recW : Cont → PyStr → NodeId → WM LState Cont}
    (hr : ∀ k x n, Bal 0 (recW k x n) fun y => Cont.isRecover y = Cont.isRecover k) {node r cls}
    (hd : ∀ d, node.body = .dset d → ∀ i st, d = .pickleObj i st → clsImportable c.env i = true) : Bal 0 (loadBodyW c recW node r cls) := by
  unfold loadBodyW
  refine .bind0 .get fun s _ => ?_
  cases r.isCont with
  | true =>
    refine .bind0 (Q := fun _ => True) (.quiet fun _ => mkCont_keeps) fun sub _ => ?_
    have fold : ∀ items : List (PyStr × NodeId), Bal 0 (M.foldEach (fun sub (p : PyStr × NodeId) => recW sub p.1 p.2) sub items)
        fun y => Cont.isRecover y = Cont.isRecover sub :=
      fun items => .foldEach (fun b p hb => fun s => ⟨fun a ha => ⟨((hr b p.1 p.2 s).1 a ha).1, ((hr b p.1 p.2 s).1 a ha).2.trans hb⟩,
        (hr b p.1 p.2 s).2⟩) items rfl
    cases hs : Cont.isRecover sub with
    | false =>
      exact .bind0 (warnFilter_bal0 hs) fun _ _ => .bind0 (Q := fun _ => True) (.quiet fun _ => contFilter_keeps) fun items _ =>
        .bind0 (fold items) fun y hy => .quiet fun _ => contConvert_keeps (hy.trans hs)
    | true =>
      have := Bal.bind (d1 := 1) (d2 := -1) (by omega) (warnFilter_bal (r := r) (node := node) hs) fun _ _ =>
        Bal.bind0 (Q := fun _ => True) (.quiet fun _ => contFilter_keeps (c := c) (cont := sub) (node := node)) fun items _ =>
        .bind0 (fold items) fun y hy => convert_bal (c := c) (hy.trans hs)
      exact this
  | false =>
    simp only [Bool.false_eq_true, if_false]
    cases hb : node.body with
    | group ls => exact .throw _
    | dset d =>
      dsimp only
      generalize (c.mgr.loadFn s.reg r.base).getD .recover = fn
      by_cases hf : fn = .recover
      · subst hf; exact recoverData_bal
      · refine .bind0 (Q := fun _ => True) ?_ fun _ _ => .quiet fun _ => loadData_keeps hf (hd d hb)
        cases fn <;> first | exact .pure trivial | exact absurd rfl hf

theorem loadNodeW_bal (c : LCtx) (hS : Readable c.env c.store) : ∀ fuel cont name n,
    Bal 0 (loadNodeW c fuel cont name n) fun y => Cont.isRecover y = Cont.isRecover cont
  | 0, _, _, _ => .throw _
  | fuel + 1, cont, name, n => by
    rw [loadNodeW]
    cases hn : c.store[n]? with
    | none => exact .throw _
    | some node =>
      refine .bind0 .get fun s _ => ?_
      cases Assoc.get? s.memo n with
      | some a => exact .quiet fun _ => contAppend_keeps
      | none =>
        refine .bind0 (Q := fun _ => True) ?_ fun r _ => .quiet fun _ => loadFinish_keeps
        exact .bind0 (Q := fun _ => True) (.quiet fun _ => resolveType_keeps) fun r _ =>
          .bind0 (Q := fun _ => True) (.quiet fun _ => fun s hs => ⟨hs, fun _ _ => trivial⟩) fun ce _ =>
          .bind0 (Q := fun _ => True) (loadBodyW_bal c (loadNodeW_bal c hS fuel)
            (fun d hd i st he => hS.node (List.mem_of_getElem? hn) (st := st) (by rw [hd, he]))) fun a _ => .pure trivial

/-- if it returns an object, there was a warning for each of the substitutes -/
def Accounts (L : List Cls) (x : WM Session (Heap × Addr)) : Prop :=
  ∀ s l, pickles s.store = L → ∀ H b, (x (s, l)).1 = .ok (H, b) → (x (s, l)).2.2.length = l.length + substs H

namespace Accounts
variable {L : List Cls} {α : Type}

theorem throw (e : PyErr) : Accounts L (M.throw e) := fun s l _ H b h => by simp at h

theorem bind {x : M Session α} {f : α → WM Session (Heap × Addr)} (hx : Keeps (fun s : Session => pickles s.store = L) x)
    (hf : ∀ a, Accounts L (f a)) : Accounts L (quiet x >>= f) := by
  intro s l hs H b h
  obtain ⟨h1, _⟩ := hx s hs
  have hq : quiet x (s, l) = ((x s).1, ((x s).2, l)) := rfl
  rw [M.bind_apply, hq] at h ⊢
  cases hr : (x s).1 with
  | ok a => rw [hr] at h; simp only [hr] at h ⊢; exact hf a _ _ h1 H b h
  | error e => rw [hr] at h; simp at h

theorem «finally» {x : WM Session (Heap × Addr)} {fin : SM Unit} (hx : Accounts L x) : Accounts L (finally' x (quiet fin)) := by
  intro s l hs H b h
  have hx := hx s l hs H b
  unfold finally' at h ⊢
  simp only [M.bind_apply, M.attempt, quiet] at h ⊢
  cases hf : (fin (x (s, l)).2.1).1 with
  | error e => rw [hf] at h; simp at h
  | ok u =>
    rw [hf] at h
    simp only [hf] at h ⊢
    cases hr : (x (s, l)).1 with
    | error e => rw [hr] at h; simp [M.ofExcept] at h
    | ok y =>
      rw [hr] at h
      simp only [M.ofExcept] at h ⊢
      exact hx (by rw [hr]; exact h)

end Accounts

theorem loadBodyTopW_accounts {L : List Cls} (a : LoadArgs) (hL : ∀ c ∈ L, clsImportable a.env c = true) (g mgr m) : Accounts L (loadBodyTopW a g mgr m) := by
  intro s l hs H b h
  unfold loadBodyTopW at h ⊢
  cases hl : s.store.links g with
  | none => simp [hl] at h
  | some ls =>
    simp only [hl] at h ⊢
    cases hd : Assoc.get? ls dataName0 with
    | none => simp [hd] at h
    | some d =>
      simp only [hd] at h ⊢
      obtain ⟨h1, _⟩ := loadNodeW_bal ⟨a.env, mgr, s.store, a.order⟩ (by rw [Readable, hs]; exact hL) a.fuel (.root []) dataName0 d
        ({ heap := loadHeap, tcache := m.tc, reg := s.reg }, l)
      generalize loadNodeW ⟨a.env, mgr, s.store, a.order⟩ a.fuel (.root []) dataName0 d ({ heap := loadHeap, tcache := m.tc, reg := s.reg }, l) = r at h h1 ⊢
      obtain ⟨r, s', l'⟩ := r
      cases r with
      | error e => simp at h
      | ok k =>
        obtain ⟨h2, _⟩ := h1 k rfl
        have h0 : substs loadHeap = 0 := rfl
        simp only [balance, h0] at h2
        cases k with
        | root xs =>
          cases xs with
          | nil => simp at h
          | cons x xs =>
            simp only [Except.ok.injEq, Prod.mk.injEq] at h
            obtain ⟨rfl, rfl⟩ := h
            show l'.length = l.length + substs s'.heap
            omega
        | _ => simp at h

theorem loadW_accounts {L : List Cls} (a : LoadArgs) (hL : ∀ c ∈ L, clsImportable a.env c = true) : Accounts L (loadW a) := by
  have ht : Accounts L (loadTryW a) := by
    unfold loadTryW
    refine .bind (fun s hs => ⟨hs, fun _ _ => trivial⟩) fun s => ?_
    repeat' split
    all_goals first | exact .throw _ | skip
    exact .bind loaderEnter_keeps fun mgr => .finally (.bind refEnter_keeps fun m => .finally (loadBodyTopW_accounts a hL _ _ _))
  intro s l hs H b h
  have ht := ht s l hs H b
  unfold loadW at h ⊢
  rw [M.bind_apply] at h ⊢
  simp only [M.attempt] at h ⊢
  cases hr : (loadTryW a (s, l)).1 with
  | error e => rw [hr] at h; simp at h
  | ok y => rw [hr] at h; simp at h; simp; exact ht (by rw [hr, h])

end Verif.Warnings
