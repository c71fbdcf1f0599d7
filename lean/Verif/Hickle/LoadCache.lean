import Verif.Hickle.LoadTwins
/-!
# What a load remembers of the types table makes no difference

The types read so far are kept (`_py_obj_type_link`).  Two runs of a load in which different entries have been read before do the same, if what was
read is what is in the file.
-/
namespace Verif

/-- the states agree in everything but the types read before; a condition on these -/
abbrev LCached (K : List (NodeId × TypeInfo) → List (NodeId × TypeInfo) → Prop) (s t : LState) : Prop := t = { s with tcache := t.tcache } ∧ K s.tcache t.tcache

section
variable {K : List (NodeId × TypeInfo) → List (NodeId × TypeInfo) → Prop}

theorem LCached.heap {s t : LState} (h : LCached K s t) : t.heap = s.heap := by rw [h.1]

theorem lAlloc_cached {o} : Two (LCached K) (lAlloc o) := by
  rintro s t ⟨h1, h2⟩
  rw [h1]
  exact ⟨rfl, ⟨rfl, h2⟩, fun _ _ => trivial⟩

theorem lAllocs_cached (os : List Obj) : Two (LCached K) (lAllocs os) := by
  induction os with
  | nil => exact .pure trivial
  | cons o os ih => exact .bind lAlloc_cached fun _ _ => .bind ih fun _ _ => .pure trivial

/-- the objects made so far may be looked at -/
theorem Two.cheap {β : Type} {f : LState → LM β} (g : Heap → LM β) (hg : ∀ s, f s = g s.heap) (h : ∀ hp, Two (LCached K) (g hp)) : Two (LCached K) (M.get >>= f) :=
  .get (fun s t hst => by rw [hg, hg, hst.heap]) fun s _ _ => by rw [hg]; exact h _

theorem construct_cached {env k arg} : Two (LCached K) (construct env k arg) := .bind .ofExcept' fun _ _ => lAlloc_cached

theorem mkSeq_cached {env c items} : Two (LCached K) (mkSeq env c items) := by
  unfold mkSeq
  repeat' split
  all_goals first
    | exact lAlloc_cached
    | exact construct_cached
    | exact .throw _
    | exact .pure trivial

theorem mkSet_cached {env c items} : Two (LCached K) (mkSet env c items) := by
  unfold mkSet
  repeat' split
  all_goals first
    | exact lAlloc_cached
    | exact construct_cached
    | exact .throw _

theorem recoverData_cached {d at'} : Two (LCached K) (recoverData d at') := by
  unfold recoverData
  split
  · exact .throw _
  · exact lAlloc_cached

theorem loadData_cached {c fn d at' orig cls} : Two (LCached K) (loadData c fn d at' orig cls) := by
  unfold loadData
  split
  · unfold loadScalar
    repeat' split
    all_goals first | exact .throw _ | exact lAlloc_cached | exact construct_cached
  · exact lAlloc_cached
  · unfold loadList
    repeat' split
    all_goals first
      | exact .throw _
      | exact lAlloc_cached
      | exact construct_cached
      | exact .pure trivial
      | exact .bind (lAllocs_cached _) fun as _ => .cheap (fun hp => M.ofExcept (setOf c.env hp [] as) >>= fun items => mkSet c.env .set items) (fun _ => rfl)
          fun _ => .bind .ofExcept' fun _ _ => mkSet_cached
      | exact .bind (lAllocs_cached _) fun as _ => mkSeq_cached
  · unfold loadNpScalar
    repeat' split
    all_goals first | exact .throw _ | exact lAlloc_cached
  · unfold loadNdarray loadNumArray loadStrArray loadObjArray
    repeat' split
    all_goals first | exact .throw _ | exact lAlloc_cached | exact .bind (lAllocs_cached _) fun as _ => lAlloc_cached
  · unfold loadPickled
    repeat' split
    all_goals first | exact .throw _ | exact lAlloc_cached | exact recoverData_cached
  · exact recoverData_cached
  · exact .pure trivial
  all_goals exact .throw _

theorem mkCont_cached {k at' orig c} : Two (LCached K) (mkCont k at' orig c) := by
  unfold mkCont
  repeat' split
  all_goals first | exact .throw _ | exact .pure trivial

theorem contFilter_cached {c cont node} : Two (LCached K) (contFilter c cont node) := by
  unfold contFilter
  repeat' split
  all_goals first | exact .throw _ | exact .pure trivial

theorem dictAppend_cached {env content name a at'} : Two (LCached K) (dictAppend env content name a at') := by
  unfold dictAppend
  refine .bind (Q := fun _ => True) ?_ fun kbt _ => ?_
  · repeat' split
    all_goals first | exact .throw _ | exact .pure trivial
  · refine .bind .ofExcept' fun key _ => ?_
    split
    · exact .ofExcept'
    · exact .bind lAlloc_cached fun k _ => .ofExcept'

theorem contAppend_cached {c cont name a at'} : Two (LCached K) (contAppend c cont name a at') := by
  unfold contAppend
  split
  · exact .pure trivial
  · exact .pure trivial
  · exact .bind .ofExcept' fun _ _ => .pure trivial
  · next cls l => exact .cheap (fun hp => M.ofExcept (setAdd c.env hp l a) >>= fun l' => pure (.set cls l')) (fun _ => rfl) fun _ => .bind .ofExcept' fun _ _ => .pure trivial
  · exact .bind dictAppend_cached fun _ _ => .pure trivial
  · next b at'' l =>
    exact .cheap (fun hp => pure (.recover b at'' (l ++ [(name, a, if isRecovered hp a then none else some (at'.filter fun p => p.1 ≠ "type"))]))) (fun _ => rfl) fun _ => .pure trivial
  · exact .pure trivial
  · exact .bind .ofExcept' fun _ _ => .pure trivial
  · exact .pure trivial
  · exact .ofExcept'

theorem contConvert_cached {c cont} : Two (LCached K) (contConvert c cont) := by
  unfold contConvert
  split
  · split
    · exact .pure trivial
    · exact .throw _
  · split
    · exact .pure trivial
    · exact .throw _
  · exact mkSeq_cached
  · exact mkSet_cached
  · refine .get (fun s t h => by rw [h.heap]) fun s t h => .bind .ofExcept' fun ps _ => ?_
    split
    · exact .bind .ofExcept' fun _ _ => lAlloc_cached
    · exact construct_cached
    · exact .throw _
  · exact lAlloc_cached
  · unfold arrConvert
    refine .get (fun s t h => by rw [h.heap]) fun s t h => ?_
    repeat' split
    all_goals first
      | exact .throw _
      | exact lAlloc_cached
      | exact .bind .ofExcept' fun _ _ => lAlloc_cached
      | exact .bind .ofExcept' fun _ _ => .throw _
  · unfold maskedConvert
    refine .get (fun s t h => by rw [h.heap]) fun s t h => ?_
    repeat' split
    all_goals first | exact .throw _ | exact lAlloc_cached
  · unfold sparseConvert
    refine .get (fun s t h => by rw [h.heap]) fun s t h => ?_
    repeat' split
    all_goals first | exact .throw _ | exact lAlloc_cached
  · exact lAlloc_cached

end

/-- what reading an entry of the types table gives (`resolveEntry` without what was read before) -/
def freshEntry (c : LCtx) (e : NodeId) : Except PyErr TypeInfo :=
  match c.store[e]? with
  | none => .error .referenceError
  | some entry =>
    match (match Assoc.get? entry.attrs "base_type" with
      | none => .ok "pickle"
      | some (.ref b) => match c.store[b]? with
        | none => .error .referenceError
        | some bn => .ok (unps bn.name)
      | some _ => .error .unmodelled : Except PyErr String) with
    | .error x => .error x
    | .ok base =>
      match entry.body with
      | .dset (.pickleCls cls) => .ok (if clsImportable c.env cls then .known cls base else .lost base)
      | _ => .error .unmodelled

/-- what was read before is what is in the file -/
def TrueCache (c : LCtx) (tc : List (NodeId × TypeInfo)) : Prop := ∀ e ti, Assoc.get? tc e = some ti → freshEntry c e = .ok ti

theorem TrueCache.put {c : LCtx} {tc : List (NodeId × TypeInfo)} (h : TrueCache c tc) {e : NodeId} {ti : TypeInfo} (he : freshEntry c e = .ok ti) : TrueCache c (Assoc.put tc e ti) := by
  intro e' ti' h'
  by_cases hh : e' = e
  · subst hh; rw [Assoc.get?_put_self] at h'; cases h'; exact he
  · rw [Assoc.get?_put_ne _ _ (Ne.symm hh)] at h'; exact h e' ti' h'

theorem resolveEntry_fresh {c : LCtx} {e : NodeId} {s : LState} (h : TrueCache c s.tcache) :
    (resolveEntry c e s).1 = freshEntry c e ∧ ∃ tc, (resolveEntry c e s).2 = { s with tcache := tc } ∧ TrueCache c tc := by
  unfold resolveEntry
  cases hn : c.store[e]? with
  | none => exact ⟨by simp [freshEntry, hn], _, rfl, h⟩
  | some entry =>
    simp only
    rw [M.bind_of_ok (M.get_apply s)]
    cases hc : Assoc.get? s.tcache e with
    | some ti => exact ⟨(h e ti hc).symm, _, rfl, h⟩
    | none =>
      simp only
      have last : ∀ base, (match Assoc.get? entry.attrs "base_type" with
          | none => .ok "pickle"
          | some (.ref b) => match c.store[b]? with
            | none => .error .referenceError
            | some bn => .ok (unps bn.name)
          | some _ => .error .unmodelled : Except PyErr String) = .ok base → ∀ X : LM TypeInfo, X = (do
            let ti ← (match entry.body with
              | .dset (.pickleCls cls) => pure (if clsImportable c.env cls then .known cls base else .lost base)
              | _ => M.throw .unmodelled : LM TypeInfo)
            M.modify fun s => { s with tcache := Assoc.put s.tcache e ti }
            pure ti) → (X s).1 = freshEntry c e ∧ ∃ tc, (X s).2 = { s with tcache := tc } ∧ TrueCache c tc := by
        rintro base hbase X rfl
        have hf : freshEntry c e = match entry.body with
            | .dset (.pickleCls cls) => .ok (if clsImportable c.env cls then .known cls base else .lost base)
            | _ => .error .unmodelled := by
          unfold freshEntry
          simp only [hn, hbase]
        cases hbody : entry.body with
        | group ls => rw [hbody] at hf; exact ⟨hf.symm, _, rfl, h⟩
        | dset d =>
          rw [hbody] at hf
          cases d with
          | pickleCls cls => exact ⟨hf.symm, _, rfl, h.put hf⟩
          | _ => exact ⟨hf.symm, _, rfl, h⟩
      have fail : ∀ x, (match Assoc.get? entry.attrs "base_type" with
          | none => .ok "pickle"
          | some (.ref b) => match c.store[b]? with
            | none => .error .referenceError
            | some bn => .ok (unps bn.name)
          | some _ => .error .unmodelled : Except PyErr String) = .error x → freshEntry c e = .error x := by
        intro x hx
        unfold freshEntry
        simp only [hn, hx]
      cases hb : Assoc.get? entry.attrs "base_type" with
      | none => exact last "pickle" (by rw [hb]) _ rfl
      | some v =>
        cases v with
        | ref b =>
          cases hbn : c.store[b]? with
          | none =>
            refine ⟨(fail .referenceError (by rw [hb]; simp only [hbn])).symm ▸ ?_, s.tcache, ?_, h⟩ <;> simp only [hbn] <;> rfl
          | some bn =>
            refine last (unps bn.name) (by rw [hb]; simp only [hbn]) _ ?_
            simp only [hbn]; rfl
        | _ => exact ⟨(fail .unmodelled (by rw [hb])).symm ▸ rfl, s.tcache, rfl, h⟩

/-- both runs remember what is in the file -/
abbrev BothTrue (c : LCtx) : LState → LState → Prop := LCached fun x y => TrueCache c x ∧ TrueCache c y

theorem resolveEntry_cached {c : LCtx} {e : NodeId} : Two (BothTrue c) (resolveEntry c e) := by
  rintro s t ⟨h1, h2, h3⟩
  obtain ⟨a1, tc, a2, a3⟩ := resolveEntry_fresh (e := e) h2
  obtain ⟨b1, tc', b2, b3⟩ := resolveEntry_fresh (e := e) h3
  refine ⟨a1.trans b1.symm, ?_, fun _ _ => trivial⟩
  rw [a2, b2, h1]
  exact ⟨rfl, a3, b3⟩

theorem resolveType_cached {c : LCtx} {node : Node} : Two (BothTrue c) (resolveType c node) := by
  unfold resolveType
  repeat' split
  all_goals first
    | exact .throw _
    | exact .pure trivial
    | (refine .bind resolveEntry_cached fun ti _ => ?_; cases ti <;> exact .pure trivial)

theorem lOnReg_cached {c : LCtx} {α : Type} {x : M Registry α} : Two (BothTrue c) (lOnReg x) := by
  rintro s t ⟨h1, h2, h3⟩
  have hr : t.reg = s.reg := by rw [h1]
  unfold lOnReg
  rw [hr]
  rcases x s.reg with ⟨r, r'⟩
  cases r <;> exact ⟨rfl, ⟨by rw [h1], h2, h3⟩, fun _ _ => trivial⟩

theorem loadNode_cached {c : LCtx} (fuel : Nat) : ∀ cont name n, Two (BothTrue c) (loadNode c fuel cont name n) := by
  induction fuel with
  | zero => exact fun _ _ _ => .throw _
  | succ fuel ih =>
    intro cont name n
    simp only [loadNode]
    cases hn : c.store[n]? with
    | none => exact .throw _
    | some node =>
      refine .get (fun s t h => by rw [show t.memo = s.memo by rw [h.1]]) fun s _ _ => ?_
      cases Assoc.get? s.memo n with
      | some a => exact contAppend_cached
      | none =>
        refine .bind (Q := fun _ => True) ?_ fun r _ => ?_
        · unfold loadObj
          refine .bind resolveType_cached fun r _ => .bind lOnReg_cached fun ce _ => .bind (Q := fun _ => True) ?_ fun _ _ => .pure trivial
          unfold loadBody
          refine .get (fun s t h => by rw [show t.reg = s.reg by rw [h.1]]) fun s _ _ => ?_
          split
          · exact Two.bind mkCont_cached fun sub _ => .bind contFilter_cached fun items _ => .bind (.foldEach (fun b (x : PyStr × NodeId) => ih b x.1 x.2) _ _) fun _ _ => contConvert_cached
          · cases node.body with
            | dset d => exact loadData_cached
            | group ls => exact .throw _
        · unfold loadFinish
          refine .bind contAppend_cached fun cont' _ => ?_
          split
          · refine .bind (Q := fun _ => True) (.modify (fun s t h => ?_) trivial) fun _ _ => .pure trivial
            exact ⟨by rw [h.1], h.2⟩
          · exact .pure trivial

/-! ### the call, with the file open for writing and for reading -/

theorem refEntries_true {env : Env} {mgr : Manager} {S : Store} {order} : ∀ (es : List (PyStr × NodeId)) (m0 m : RefMgr), TrueCache ⟨env, mgr, S, order⟩ m0.tc →
    refEntries env S m0 es = .ok m → TrueCache ⟨env, mgr, S, order⟩ m.tc ∧ m.table = m0.table
  | [], m0, m, h0, h => by simp [refEntries] at h; rw [← h]; exact ⟨h0, rfl⟩
  | p :: es, m0, m, h0, h => by
    simp only [refEntries] at h
    cases he : refEntry env S m0 p with
    | error e => rw [he] at h; simp at h
    | ok m1 =>
      rw [he] at h
      have key : TrueCache ⟨env, mgr, S, order⟩ m1.tc ∧ m1.table = m0.table := by
        unfold refEntry at he
        cases hn : S[p.2]? with
        | none => rw [hn] at he; simp at he
        | some nd =>
          rw [hn] at he
          simp only [] at he
          cases hb : nd.body with
          | group ls => rw [hb] at he; simp at he
          | dset d =>
            rw [hb] at he
            simp only [] at he
            split at he
            · simp only [Except.ok.injEq] at he; subst he; exact ⟨h0, rfl⟩
            · cases hr : Assoc.get? nd.attrs "base_type" with
              | none => rw [hr] at he; simp at he
              | some v =>
                rw [hr] at he
                cases v with
                | ref b =>
                  simp only [] at he
                  cases hbn : S[b]? with
                  | none => rw [hbn] at he; simp at he
                  | some bn =>
                    rw [hbn] at he
                    cases d with
                    | pickleCls cls =>
                      simp only [] at he
                      split at he
                      all_goals
                        next hi =>
                        simp only [Except.ok.injEq] at he
                        subst he
                        exact ⟨h0.put (by simp [freshEntry, hn, hr, hbn, hb, hi]), rfl⟩
                    | _ => simp at he
                | _ => simp at he
      obtain ⟨k1, k2⟩ := refEntries_true es m1 m key.1 h
      exact ⟨k1, k2.trans key.2⟩

/-- the same open file, opened for reading -/
def Session.forReading (s : Session) : Session := { s with writable := false }

theorem loadBodyTop_reading {a : LoadArgs} {g : NodeId} {mgr : Manager} {m m' : RefMgr} {s : Session} (h : TrueCache ⟨a.env, mgr, s.store, a.order⟩ m.tc)
    (h' : TrueCache ⟨a.env, mgr, s.store, a.order⟩ m'.tc) : (loadBodyTop a g mgr m' s.forReading).1 = (loadBodyTop a g mgr m s).1 := by
  unfold loadBodyTop
  have e : s.forReading.store = s.store := rfl
  rw [e]
  cases s.store.links g with
  | none => rfl
  | some ls =>
    simp only
    cases Assoc.get? ls dataName0 with
    | none => rfl
    | some d =>
      simp only
      obtain ⟨k1, ⟨k2, _⟩, _⟩ := loadNode_cached (c := ⟨a.env, mgr, s.store, a.order⟩) a.fuel (.root []) dataName0 d { heap := loadHeap, tcache := m.tc, reg := s.reg }
        { heap := loadHeap, tcache := m'.tc, reg := s.reg } ⟨rfl, h, h'⟩
      have e' : s.forReading.reg = s.reg := rfl
      rw [e']
      rw [← k1, show (loadNode ⟨a.env, mgr, s.store, a.order⟩ a.fuel (.root []) dataName0 d { heap := loadHeap, tcache := m'.tc, reg := s.reg }).2.heap =
        (loadNode ⟨a.env, mgr, s.store, a.order⟩ a.fuel (.root []) dataName0 d { heap := loadHeap, tcache := m.tc, reg := s.reg }).2.heap by rw [k2]]
      split <;> rfl

theorem finally_ok {σ α : Type} {x : M σ α} {fin : M σ Unit} {s : σ} {v : α} (hf : ∀ s, (fin s).1 = .ok ()) : (finally' x fin s).1 = .ok v ↔ (x s).1 = .ok v := by
  unfold finally'
  rw [M.bind_apply, M.attempt_apply]
  simp only [M.bind_apply]
  rcases hx : fin (x s).2 with ⟨r, s'⟩
  have := hf (x s).2
  rw [hx] at this
  simp only at this
  subst this
  rfl

theorem loaderEnter_eq (g : NodeId) (s : Session) : loaderEnter g none s =
    if s.ldr then (.error .lookupError, s) else match optMaps (attrOptions ((s.store.attrs g).getD [])) [none] with
      | .error e => (.error e, s)
      | .ok maps => (.ok ⟨maps⟩, { s with ldr := true }) := by
  unfold loaderEnter
  rw [M.bind_of_ok (M.get_apply _)]
  cases s.ldr with
  | true => rfl
  | false =>
    simp only [Bool.false_eq_true, if_false, optionMaps, M.bind_apply, M.get_apply]
    cases optMaps (attrOptions ((s.store.attrs g).getD [])) [none] <;> rfl

theorem refEnter_eq (env : Env) (g : NodeId) (s : Session) : refEnter env g s =
    if s.ref then (.error .lookupError, s) else match refInit env g s with
      | (.error e, s1) => (.error e, s1)
      | (.ok m, s1) => (.ok m, { s1 with ref := true }) := by
  unfold refEnter
  rw [M.bind_of_ok (M.get_apply _)]
  cases s.ref with
  | true => rfl
  | false =>
    simp only [Bool.false_eq_true, if_false, M.bind_apply]
    rcases refInit env g s with ⟨r, s1⟩
    cases r <;> rfl

/-- A file whose group has a types table: what load returns when the file is open for writing, it returns when it is open for reading. -/
theorem loadTop_reading {a : LoadArgs} {s : Session} {g : NodeId} {ls : List (PyStr × NodeId)} {T : NodeId} (hg : s.store.resolve 0 a.path = some g)
    (hl : s.store.links g = some ls) (hT : Assoc.get? ls tableName = some T) {v : Heap × Addr} (h : (loadTop a s).1 = .ok v) : (loadTop a s.forReading).1 = .ok v := by
  have hr : s.forReading.store = s.store := rfl
  have top : ∀ t : Session, (loadTop a t).1 = .ok v ↔ (loadTry a t).1 = .ok v := by
    intro t
    unfold loadTop
    rw [M.bind_apply, M.attempt_apply]
    rcases loadTry a t with ⟨r, t'⟩
    cases r <;> simp
  rw [top] at h ⊢
  unfold loadTry at h ⊢
  rw [M.bind_of_ok (M.get_apply _)] at h ⊢
  cases hp : pathOk a.path with
  | error e => rw [hp] at h; simp at h
  | ok u =>
    rw [hp] at h
    simp only [hg, hl] at h
    simp only [hr, hg, hl]
    cases hroute : route ((s.store.attrs 0).getD []) ((s.store.attrs g).getD []) with
    | refuse e => rw [hroute] at h; simp at h
    | v3 => rw [hroute] at h; simp at h
    | v4 => rw [hroute] at h; simp at h
    | current =>
      rw [hroute] at h
      simp only at h ⊢
      rw [M.bind_apply, loaderEnter_eq] at h ⊢
      cases hld : s.ldr with
      | true => rw [hld] at h; simp at h
      | false =>
        rw [hld] at h
        rw [show s.forReading.ldr = false from hld, hr]
        simp only [Bool.false_eq_true, if_false] at h ⊢
        cases ho : optMaps (attrOptions ((s.store.attrs g).getD [])) [none] with
        | error e => rw [ho] at h; simp at h
        | ok maps =>
          rw [ho] at h
          simp only at h ⊢
          have hfin : ∀ s, (loaderExit s).1 = .ok () := fun _ => rfl
          have hfin' : ∀ m s, (refExit m s).1 = .ok () := fun _ _ => rfl
          rw [finally_ok hfin, M.bind_apply, refEnter_eq] at h ⊢
          cases hrf : s.ref with
          | true => simp [hrf] at h
          | false =>
            simp only [hrf, Session.forReading, Bool.false_eq_true, if_false, refInit, hl, hT] at h ⊢
            cases he : s.store.links T with
            | none => simp [he] at h
            | some es =>
              simp only [he] at h ⊢
              cases hw : s.writable with
              | false =>
                simp only [hw, Bool.false_eq_true, if_false] at h ⊢
                exact h
              | true =>
                simp only [hw, if_true] at h
                cases hm : refEntries a.env s.store ⟨some T, [], [], []⟩ es with
                | error e => simp [hm] at h
                | ok m =>
                  simp only [hm] at h
                  have hnil : TrueCache ⟨a.env, ⟨maps⟩, s.store, a.order⟩ [] := fun e ti h => by simp [Assoc.get?] at h
                  have ht := (refEntries_true (mgr := ⟨maps⟩) (order := a.order) es _ m hnil hm).1
                  rw [finally_ok (hfin' _)] at h ⊢
                  rw [← h]
                  exact loadBodyTop_reading (m' := ⟨some T, [], [], []⟩) (s := { s with writable := true, ldr := true, ref := true }) ht hnil

end Verif
