import Verif.Hickle.Stored
/-!
# How deep `_dump` and `_load` nest

Every call of `_dump` and of `_load` may call itself for each member (hickle.py:144-145, 450-451);
the interpreter limits how deep such calls nest.  `dumpNode_lay`: a `dump` that nested at most
`fuel` deep has made no path of members longer than `fuel`.  `loadTop_deep`: `load` needs as many
levels as there are nodes on the longest way through members and node references.  `dumpTop_deep`
puts both together.
-/
namespace Verif

variable {P : Nat → Prop}

/-! ### load -/

/-- from node `n` one gets to node `m`: a member of a group, or the target of a node reference -/
inductive Goes (S : Store) (n m : NodeId) : Prop
  | link {ls : List (PyStr × NodeId)} {x : PyStr} : S.links n = some ls → (x, m) ∈ ls → Goes S n m
  | ref {nd : Node} : S[n]? = some nd → nd.body = .dset (.ref m) → Goes S n m

/-- every way from node `n` visits at most `k` nodes -/
def Deep (S : Store) : Nat → NodeId → Prop
  | 0, _ => False
  | k + 1, n => ∀ m, Goes S n m → Deep S k m

theorem Deep.mono {S : Store} {k k' : Nat} (h : k ≤ k') {n : NodeId} (hd : Deep S k n) : Deep S k' n := by
  induction k generalizing k' n with
  | zero => exact hd.elim
  | succ k ih =>
    cases k' with
    | zero => omega
    | succ k' => exact fun m hm => ih (by omega) (hd m hm)

theorem M.foldEach_congr {σ α β : Type} {f f' : β → α → M σ β} (xs : List α) (h : ∀ b, ∀ x ∈ xs, f b x = f' b x) (b : β) :
    M.foldEach f b xs = M.foldEach f' b xs := by
  induction xs generalizing b with
  | nil => rfl
  | cons x xs ih =>
    simp only [M.foldEach, h b x (by simp)]
    congr 1
    funext b'
    exact ih (fun b y hy => h b y (by simp [hy])) b'

/-- the nodes that are read are those the node leads to -/
theorem contFilter_goes {c : LCtx} {sub : Cont} {n : NodeId} {node : Node} (hn : c.store[n]? = some node) (hord : ∀ l, (c.order l).Perm l)
    {s s' : LState} {items} (h : contFilter c sub node s = (.ok items, s')) : ∀ p ∈ items, Goes c.store n p.2 := by
  unfold contFilter at h
  cases hb : node.body with
  | group ls =>
    have key : ∀ p ∈ c.order ls, Goes c.store n p.2 := fun p hp =>
      .link (Store.links_of hn hb) (x := p.1) ((hord ls).mem_iff.1 hp)
    cases sub <;> simp only [hb, M.throw_apply, M.pure_apply, Prod.mk.injEq, Except.ok.injEq, reduceCtorEq, false_and] at h <;>
      (obtain ⟨rfl, _⟩ := h; exact key)
  | dset d =>
    cases sub with
    | expand l =>
      cases d with
      | ref t =>
        simp only [hb] at h
        cases ht : c.store[t]? with
        | none => rw [ht] at h; simp at h
        | some tn =>
          rw [ht] at h; simp at h
          obtain ⟨rfl, _⟩ := h
          intro p hp
          simp at hp; subst hp
          exact .ref hn hb
      | _ => simp [hb] at h
    | _ => simp [hb] at h

theorem loadNode_deep {c : LCtx} (hord : ∀ l, (c.order l).Perm l) (f : Nat) :
    ∀ f' n, Deep c.store f n → f ≤ f' → ∀ cont name, loadNode c f cont name n = loadNode c f' cont name n := by
  induction f with
  | zero => exact fun _ _ h => h.elim
  | succ f ih =>
    intro f' n hd hf cont name
    obtain ⟨k, rfl⟩ : ∃ k, f' = k + 1 := ⟨f' - 1, by omega⟩
    simp only [loadNode]
    cases hn : c.store[n]? with
    | none => rfl
    | some node =>
      simp only []
      congr 1
      funext s
      cases Assoc.get? s.memo n with
      | some a => rfl
      | none =>
        simp only []
        congr 1
        unfold loadObj
        congr 1
        funext r
        congr 1
        funext ce
        congr 1
        unfold loadBody
        congr 1
        funext s
        split
        · congr 1
          funext sub
          funext st
          cases hc : contFilter c sub node st with
          | mk x st' =>
            cases x with
            | error e => rw [M.bind_of_error hc, M.bind_of_error hc]
            | ok items =>
              rw [M.bind_of_ok hc, M.bind_of_ok hc]
              rw [M.foldEach_congr items (fun b x hx => ih k x.2 (hd x.2 (contFilter_goes hn hord hc x hx)) (by omega) b x.1)]
        · rfl

theorem loadBodyTop_deep {env : Env} {p : List PyStr} {order : List (PyStr × NodeId) → List (PyStr × NodeId)} (hord : ∀ l, (order l).Perm l)
    {f f' : Nat} (hf : f ≤ f') {g : NodeId} {mgr : Manager} {m : RefMgr} {s : Session}
    (hd : ∀ ls d, s.store.links g = some ls → Assoc.get? ls dataName0 = some d → Deep s.store f d) :
    loadBodyTop ⟨env, p, order, f⟩ g mgr m s = loadBodyTop ⟨env, p, order, f'⟩ g mgr m s := by
  unfold loadBodyTop
  cases hl : s.store.links g with
  | none => rfl
  | some ls =>
    simp only []
    cases hg : Assoc.get? ls dataName0 with
    | none => rfl
    | some d =>
      simp only []
      rw [loadNode_deep (c := ⟨env, mgr, s.store, order⟩) hord f f' d (hd ls d hl hg) hf]

/-- the group has a types table: opening it for a call leaves the file alone -/
theorem refEnter_store {env : Env} {g T : NodeId} {ls : List (PyStr × NodeId)} {s s' : Session} {r} (hl : s.store.links g = some ls)
    (ht : Assoc.get? ls tableName = some T) (h : refEnter env g s = (r, s')) : s'.store = s.store := by
  unfold refEnter at h
  rw [M.bind_of_ok (M.get_apply s)] at h
  split at h
  · simp at h; rw [← h.2]
  · cases hi : refInit env g s with
    | mk x s1 =>
      have h1 : s1 = s := by
        unfold refInit at hi
        simp only [hl, ht] at hi
        repeat' split at hi
        all_goals (simp at hi; rw [← hi.2])
      cases x with
      | error e => rw [M.bind_of_error hi] at h; simp at h; rw [← h.2, h1]
      | ok m =>
        rw [M.bind_of_ok hi, M.bind_of_ok (M.modify_apply _ _)] at h
        simp at h; rw [← h.2, h1]

theorem optionMaps_none_store {g : NodeId} {s s' : Session} {r} (h : optionMaps g none s = (r, s')) : s' = s := by
  rw [optionMaps_none] at h
  exact (Prod.mk.inj h).2.symm

/-- `load` with a limit that is never reached does what it does with any higher limit -/
theorem loadTop_deep {env : Env} {p : List PyStr} {order : List (PyStr × NodeId) → List (PyStr × NodeId)} (hord : ∀ l, (order l).Perm l)
    {f f' : Nat} (hf : f ≤ f') {s : Session} {g T d : NodeId} {ls : List (PyStr × NodeId)} (hg : s.store.resolve 0 p = some g)
    (hl : s.store.links g = some ls) (hT : Assoc.get? ls tableName = some T) (hdn : Assoc.get? ls dataName0 = some d) (hd : Deep s.store f d) :
    loadTop ⟨env, p, order, f⟩ s = loadTop ⟨env, p, order, f'⟩ s := by
  have : loadTry ⟨env, p, order, f⟩ s = loadTry ⟨env, p, order, f'⟩ s := by
    unfold loadTry
    rw [M.bind_of_ok (M.get_apply s), M.bind_of_ok (M.get_apply s)]
    simp only [hg, hl]
    cases pathOk p with
    | error e => rfl
    | ok u =>
      simp only []
      cases route ((s.store.attrs 0).getD []) ((s.store.attrs g).getD []) with
      | current =>
        simp only []
        cases hle : loaderEnter g none s with
        | mk x s1 =>
          cases x with
          | error e => rw [M.bind_of_error hle, M.bind_of_error hle]
          | ok mgr =>
            rw [M.bind_of_ok hle, M.bind_of_ok hle]
            have hs1 : s1.store = s.store := by
              unfold loaderEnter at hle
              rw [M.bind_of_ok (M.get_apply s)] at hle
              split at hle
              · simp at hle
              · cases ho : optionMaps g none s with
                | mk y s2 =>
                  have := optionMaps_none_store ho
                  cases y with
                  | error e => rw [M.bind_of_error ho] at hle; simp at hle
                  | ok maps =>
                    rw [M.bind_of_ok ho, M.bind_of_ok (M.modify_apply _ _)] at hle
                    simp at hle
                    rw [← hle.2, this]
            unfold loaderExit
            rw [finally'_modify, finally'_modify]
            cases hre : refEnter env g s1 with
            | mk y s2 =>
              have hs2 := refEnter_store (by rw [hs1]; exact hl) hT hre
              cases y with
              | error e => rw [M.bind_of_error hre, M.bind_of_error hre]
              | ok m =>
                rw [M.bind_of_ok hre, M.bind_of_ok hre]
                unfold refExit
                rw [finally'_modify, finally'_modify, loadBodyTop_deep hord hf (s := s2)]
                intro ls' d' h1 h2
                rw [hs2, hs1] at h1 ⊢
                rw [hl] at h1; simp at h1; subst h1
                rw [hdn] at h2; simp at h2; subst h2
                exact hd
      | _ => rfl
  unfold loadTop
  rw [M.bind_of_ok (M.attempt_apply _ _), M.bind_of_ok (M.attempt_apply _ _), this]

/-! ### dump -/

/-- a new node is the only new thing one gets to -/
theorem Store.resolve_create {S S' : Store} {p n : NodeId} {name : PyStr} {body : Body} (hf : body.fresh = true)
    (h : S.create p name body = .ok (n, S')) : ∀ (xs : List PyStr) (m : NodeId), S'.resolve 0 xs = some m →
    S.resolve 0 xs = some m ∨ (m = n ∧ ∃ ys, xs = ys ++ [name] ∧ S.resolve 0 ys = some p) := by
  obtain ⟨ls, h1, h2, h3, h4, h5, h6⟩ := Store.create_links hf h
  intro xs
  induction hl : xs.length generalizing xs with
  | zero =>
    intro m hm
    have : xs = [] := by simpa using hl
    subst this
    exact .inl hm
  | succ k ih =>
    intro m hm
    rcases List.eq_nil_or_concat xs with rfl | ⟨ys, x, rfl⟩
    · simp at hl
    · simp only [List.concat_eq_append] at *
      obtain ⟨p', ls', g1, g2, g3⟩ := Store.resolve_snoc hm
      rcases ih ys (by simpa using hl) p' g1 with h0 | ⟨rfl, _⟩
      · have step : ∀ l, S.links p' = some l → Assoc.get? l x = some m → S.resolve 0 (ys ++ [x]) = some m := by
          intro l k1 k2
          rw [Store.resolve_append, h0]
          simp [Store.resolve, k1, k2]
        by_cases hp : p' = p
        · subst hp
          rw [h2] at g2; simp at g2; subst g2
          cases hx : Assoc.get? ls x with
          | some m' =>
            rw [Assoc.get?_append_some hx] at g3; simp at g3; subst g3
            exact .inl (step ls h1 hx)
          | none =>
            have := Assoc.get?_mem g3
            rcases List.mem_append.1 this with k | k
            · exact (Assoc.get?_none_of_mem (p := (x, m)) hx k).elim
            · simp at k
              obtain ⟨rfl, rfl⟩ := k
              exact .inr ⟨rfl, ys, rfl, h0⟩
        · by_cases hn : p' = n
          · subst hn
            rw [h5 ls' g2] at g3; simp at g3
          · rw [h6 p' hp hn] at g2
            exact .inl (step ls' g2 g3)
      · rw [h5 ls' g2] at g3; simp at g3

/-- The layout of a dump in progress.  Paths below `data` are shorter than `F`; every node from `N`
on is below `data` or a member of the types table `T`. -/
structure Lay (T : NodeId) (path : List PyStr) (N F : Nat) (S : Store) : Prop where
  tree : Tree S
  tab : S.resolve 0 (path ++ [tableName]) = some T
  deep : ∀ q n, S.resolve 0 (path ++ dataName0 :: q) = some n → q.length < F
  reach : ∀ n, N ≤ n → n < S.length → (∃ q, S.resolve 0 (path ++ dataName0 :: q) = some n) ∨ ∃ x, S.resolve 0 (path ++ [tableName, x]) = some n

/-- where a call of `_dump` that may nest `f` deep puts its node -/
def LayAt (path : List PyStr) (F : Nat) (S : Store) (p : NodeId) (name : PyStr) (f : Nat) : Prop :=
  ∃ pp q, S.resolve 0 pp = some p ∧ pp ++ [name] = path ++ dataName0 :: q ∧ q.length + f ≤ F

theorem LayAt.ext {path : List PyStr} {F : Nat} {S S' : Store} {p name f} (hx : SExt S S') (h : LayAt path F S p name f) : LayAt path F S' p name f := by
  obtain ⟨pp, q, h1, h2⟩ := h
  exact ⟨pp, q, Store.resolve_ext hx.links h1, h2⟩

variable {T : NodeId} {path : List PyStr} {N F : Nat}

theorem Lay.create {S S' : Store} {p n : NodeId} {name : PyStr} {body : Body} (h : Lay T path N F S) (hf : body.fresh = true)
    (hc : S.create p name body = .ok (n, S')) (hp : p = T ∨ ∃ f, LayAt path F S p name (f + 1)) : Lay T path N F S' := by
  have hx := SExt.create hc
  obtain ⟨ls, h1, h2, h3, h4, h5, h6⟩ := Store.create_links hf hc
  have hnew : ∀ ys, S.resolve 0 ys = some p → S'.resolve 0 (ys ++ [name]) = some n := by
    intro ys hy
    rw [Store.resolve_append, Store.resolve_ext hx.links hy]
    have hm : Assoc.get? (ls ++ [(name, n)]) name = some n := by
      have hpw := (h.tree.create hf hc).names p _ h2
      exact Assoc.get?_of_mem (p := (name, n)) hpw (by simp)
    simp [Store.resolve, h2, hm]
  refine ⟨h.tree.create hf hc, Store.resolve_ext hx.links h.tab, ?_, ?_⟩
  · intro q m hm
    rcases Store.resolve_create hf hc _ m hm with h0 | ⟨rfl, ys, e, hy⟩
    · exact h.deep q m h0
    · rcases hp with rfl | ⟨f, pp, q', k1, k2, k3⟩
      · have := h.tree.path_unique _ _ hy h.tab
        subst this
        rw [List.append_assoc] at e
        have e := List.append_cancel_left e
        simp at e
        exact absurd e.1 (by decide)
      · have := h.tree.path_unique _ _ hy k1
        subst this
        rw [k2] at e
        have e := List.append_cancel_left e
        simp at e
        subst e
        omega
  · intro m hN hm
    by_cases hmn : m = n
    · subst hmn
      rcases hp with rfl | ⟨f, pp, q', k1, k2, k3⟩
      · exact .inr ⟨name, by have := hnew _ h.tab; rw [List.append_assoc] at this; exact this⟩
      · exact .inl ⟨q', by rw [← k2]; exact hnew pp k1⟩
    · rcases h.reach m hN (by omega) with ⟨q, hq⟩ | ⟨x, hx'⟩
      · exact .inl ⟨q, Store.resolve_ext hx.links hq⟩
      · exact .inr ⟨x, Store.resolve_ext hx.links hx'⟩

/-- only links matter -/
theorem Lay.congr {S S' : Store} (h : Lay T path N F S) (hT : Tree S') (hl : ∀ n, S'.links n = S.links n) (hlen : S'.length = S.length) : Lay T path N F S' := by
  refine ⟨hT, ?_, ?_, ?_⟩
  · rw [Store.resolve_congr hl]; exact h.tab
  · intro q n; rw [Store.resolve_congr hl]; exact h.deep q n
  · intro n; rw [hlen]; simp only [Store.resolve_congr hl]; exact h.reach n

theorem Lay.setAttr {S : Store} {n k v} (h : Lay T path N F S) : Lay T path N F (S.setAttr n k v) :=
  h.congr h.tree.setAttr (fun m => Store.links_setAttr S n m k v) (by simp)

theorem Created.lay {s s1 : DState} {p n : NodeId} {name : PyStr} {body : Body} {at' : Attrs} (h : Lay T path N F s.store) (hf : body.fresh = true)
    (hc : Created s p name n body at' s1) (hp : p = T ∨ ∃ f, LayAt path F s.store p name (f + 1)) : Lay T path N F s1.store := by
  obtain ⟨st, h1, h2, h3, h4⟩ := hc
  have hl := h.create hf h1 hp
  obtain ⟨_, _, _, _, _, _, _, e1, e2, e3, _⟩ := Store.create_ok h1
  have hlinks : ∀ m, s1.store.links m = st.links m := by
    intro m
    by_cases hm : m = n
    · subst hm; unfold Store.links; rw [h3, e3]; cases body <;> rfl
    · exact Store.links_congr (h4 m hm)
  have hlen : s1.store.length = st.length := by
    have key : ∀ m, m < s1.store.length ↔ m < st.length := by
      intro m
      by_cases hm : m = n
      · subst hm
        exact ⟨fun _ => lt_of_getElem? e3, fun _ => lt_of_getElem? h3⟩
      · have := h4 m hm
        have k := List.getElem?_eq_none_iff (l := s1.store) (i := m)
        rw [this, List.getElem?_eq_none_iff] at k
        omega
    have k1 := key s1.store.length
    have k2 := key st.length
    omega
  have hT : Tree s1.store := by
    have ht := hl.tree
    exact ⟨by rw [hlinks]; exact ht.root, fun p ls h e he => by rw [hlinks] at h; rw [hlen]; exact ht.up p ls h e he,
      fun p p' ls ls' h h' => ht.one p p' ls ls' (by rw [← hlinks]; exact h) (by rw [← hlinks]; exact h'),
      fun p ls h => ht.names p ls (by rw [← hlinks]; exact h)⟩
  exact hl.congr hT hlinks hlen

/-- the state of a dump whose file is laid out like this -/
def LayS (T : NodeId) (path : List PyStr) (N F : Nat) (s : DState) : Prop := Lay T path N F s.store

theorem mkDset_lay {kw name d} : Keeps (LayS T path N F) (mkDset kw T name d) := by
  intro s hs
  cases h : mkDset kw T name d s with
  | mk x s1 =>
    cases x with
    | error e =>
      refine ⟨?_, by simp⟩
      unfold mkDset at h
      split at h
      · simp at h; rw [← h.2]; exact hs
      · split at h
        · simp at h; rw [← h.2]; exact hs
        · simp at h
    | ok n => exact ⟨(mkDset_ok h).2.lay hs rfl (.inl rfl), fun _ _ => trivial⟩

theorem setAttr_lay {n k v} : Keeps (LayS T path N F) (setAttr n k v) := .modify (fun _ hs => Lay.setAttr hs) trivial

theorem setAttrs_lay {n attrs} : Keeps (LayS T path N F) (setAttrs n attrs) := .forEach trivial _ fun _ _ => setAttr_lay

theorem baseEntry_lay {c : DCtx} {b : String} : Keeps (LayS c.table path N F) (baseEntry c b) := by
  unfold baseEntry
  refine .bind .get fun s _ => ?_
  split
  · exact .pure trivial
  · exact .bind mkDset_lay fun n _ => .bind (.modify (Q := fun _ => True) (fun s hs => hs) trivial) fun _ _ => .pure trivial

theorem storeType_lay {c : DCtx} {n : NodeId} {cls : Cls} {b : String} : Keeps (LayS c.table path N F) (storeType c n cls b) := by
  unfold storeType
  split
  · exact .pure trivial
  · refine .bind (Q := fun _ => True) ?_ fun _ _ => setAttr_lay
    unfold typeEntryNode
    refine .bind .get fun s _ => ?_
    split
    · exact .pure trivial
    · split
      · exact .throw _
      · split
        · exact .throw _
        · split
          · exact .throw _
          · exact .bind mkDset_lay fun e _ => .bind baseEntry_lay fun _ _ => .bind setAttr_lay fun _ _ =>
              .bind (.modify (Q := fun _ => True) (fun s hs => hs) trivial) fun _ _ => .pure trivial

theorem bodyOf_fresh (od : Option Data) : (bodyOf od).fresh = true := by cases od <;> rfl

theorem dumpCreate_lay {c : DCtx} (hE : EnvOk P c.env) (hm : c.mgr.Ok) {o : Obj} (hc : GoodCls P c.env o.cls)
    {s s1 : DState} (hreg : RegInv P s.reg) {g : NodeId} {name : PyStr} {r} (hl : Lay c.table path N F s.store) {f : Nat}
    (hp : LayAt path F s.store g name (f + 1)) (h : dumpCreate c o g name s = (.ok r, s1)) : Lay c.table path N F s1.store := by
  obtain ⟨r', hld, hr', _, _⟩ := loadLoader_spec (m := c.mgr) hE hm.dumps hc none hreg
  unfold dumpCreate at h
  have hon : onReg (loadLoader c.env c.mgr o.cls none) s = (.ok (expected c.env o.cls), { s with reg := r' }) := by
    unfold onReg; rw [hld]
  rw [M.bind_of_ok hon, show expected c.env o.cls = ((expected c.env o.cls).1, (expected c.env o.cls).2) from rfl] at h
  dsimp only at h
  rw [M.bind_of_ok (M.get_apply _), M.bind_of_ok (M.attempt_apply _ _)] at h
  simp only at h
  rcases hcf : createFn c (expected c.env o.cls).2.fn s.heap o g name { s with reg := r' } with ⟨r, s2⟩
  rw [hcf] at h
  cases r with
  | error e =>
    simp only at h
    split at h
    · next he => exact absurd (he ▸ hcf) (createFn_noNH (expected_fn c.env o.cls).1 _ _)
    · simp at h
  | ok r =>
    obtain ⟨n', subs'⟩ := r
    simp only [M.bind_ok_iff] at h
    obtain ⟨x, s3, h1, h2⟩ := h
    simp only [M.pure_apply, Prod.mk.injEq, Except.ok.injEq] at h2
    obtain ⟨_, rfl⟩ := h2
    obtain ⟨at', od, hcr, _, _⟩ := createFn_ok hcf
    have h0 : LayS c.table path N F s2 := hcr.lay (s := { s with reg := r' }) hl (bodyOf_fresh od) (.inr ⟨f, hp⟩)
    have := (storeType_lay (n := n') (cls := (expected c.env o.cls).1) (b := (expected c.env o.cls).2.base) s2 h0).1
    rw [h1] at this
    exact this

/-- After a successful `_dump` that nested at most `f` deep no path is longer than allowed. -/
theorem dumpNode_lay {c : DCtx} (hE : EnvOk P c.env) (hm : c.mgr.Ok) {base : Nat} (fuel : Nat) :
    ∀ a g name attrs s s' D O x, DInv P c base D O s → (∀ b, (g, b) ∉ D) → g ≠ c.table → AttrsOk attrs →
      Lay c.table path N F s.store → LayAt path F s.store g name fuel →
      dumpNode c fuel a g name attrs s = (.ok x, s') → Lay c.table path N F s'.store := by
  induction fuel with
  | zero => intro a g name attrs s s' D O x _ _ _ _ _ _ h; simp [dumpNode] at h
  | succ fuel ih =>
    intro a g name attrs s s' D O x hD hg hgT ha hL hA h
    unfold dumpNode at h
    rw [M.bind_of_ok (M.get_apply s)] at h
    cases hmem : Assoc.get? s.memo a with
    | some n =>
      simp only [hmem, M.bind_ok_iff] at h
      obtain ⟨l, s1, h1, h2⟩ := h
      have h0 : LayS c.table path N F s1 := (mkDset_ok h1).2.lay hL rfl (.inr ⟨fuel, hA⟩)
      have := (setAttrs_lay (n := l) (attrs := attrs) s1 h0).1
      rw [h2] at this
      exact this
    | none =>
      simp only [hmem] at h
      cases ho : s.heap[a]? with
      | none => simp [ho] at h
      | some o =>
        simp only [ho, M.bind_ok_iff] at h
        obtain ⟨⟨n, subs, mem⟩, s1, h1, y, s2, h2, z, s3, h3, h4⟩ := h
        dsimp only at h2 h3 h4
        have hL1 : LayS c.table path N F s1 := dumpCreate_lay hE hm (hD.cls a o ho) hD.reg hL hA h1
        have hL2 := (setAttrs_lay (n := n) (attrs := attrs.filter fun p => decide (p.1 ≠ "type")) s1 hL1).1
        rw [h2] at hL2
        have hL3 : Lay c.table path N F s3.store := by
          split at h3 <;> (simp at h3; subst h3; exact hL2)
        have hflt : (attrs.filter fun p => decide (p.1 ≠ "type")) = attrs := by
          rw [List.filter_eq_self]
          intro p hp
          rcases ha.2 p hp with h | h | h <;> rw [h] <;> decide
        rw [hflt] at h2
        obtain ⟨ls, nd, od, hen⟩ := dumpEnter_ok hE hm hD hg hgT ha hmem ho h1 h2 h3
        -- the path of the new node
        obtain ⟨pp, q, a1, a2, a3⟩ := hA.ext hen.frame.ext
        have hn : s3.store.resolve 0 (path ++ dataName0 :: q) = some n := by
          rw [← a2, Store.resolve_append, a1]
          have : Assoc.get? (ls ++ [(name, n)]) name = some n :=
            Assoc.get?_of_mem (p := (name, n)) (hL3.tree.names g _ hen.links') (by simp)
          simp [Store.resolve, hen.links', this]
        -- the sub items
        have loop : ∀ (subs : Subs) (D O : List (NodeId × Addr)) (s3 : DState), DInv P c base D O s3 → (∀ b, (n, b) ∉ D) → SubsOk base s3.heap subs →
            Lay c.table path N F s3.store → s3.store.resolve 0 (path ++ dataName0 :: q) = some n →
            M.forEach (fun sub => match sub with
              | .error e => M.throw e
              | .ok sub => do
                let b ← subAddr sub.obj
                dumpNode c fuel b n sub.name sub.attrs) subs s3 = (.ok x, s') → Lay c.table path N F s'.store := by
          intro subs
          induction subs with
          | nil =>
            intro D O s3 _ _ _ hl _ h4
            simp [M.forEach] at h4; subst h4; exact hl
          | cons sub subs ihs =>
            intro D O s3 hD hnD hs hl hn h4
            simp only [M.forEach, M.bind_ok_iff] at h4
            obtain ⟨y, s5, h5, h6⟩ := h4
            cases sub with
            | error e => simp at h5
            | ok sb =>
              simp only [M.bind_ok_iff] at h5
              obtain ⟨b, s4, h7, h8⟩ := h5
              obtain ⟨hD4, hst, hpre, _⟩ := hD.sub hs h7
              have hl4 : Lay c.table path N F s4.store := by rw [hst]; exact hl
              have hat4 : LayAt path F s4.store n sb.name fuel :=
                ⟨path ++ dataName0 :: q, q ++ [sb.name], by rw [hst]; exact hn, by simp, by simp; omega⟩
              have hl5 := ih b n sb.name sb.attrs s4 s5 D O y hD4 hnD hen.neTable (hs.attrs sb (by simp)) hl4 hat4 h8
              obtain ⟨D1, m, ls1, p1, p2, p3, p4, p5, p6, p7, p8, p9⟩ :=
                dumpNode_spec hE hm fuel b n sb.name sb.attrs s4 s5 D O y hD4 hnD hen.neTable (hs.attrs sb (by simp)) h8
              refine ihs D1 O s5 p1 ?_ ((hs.tail).mono (hpre.trans p4.heap)) hl5 ?_ h6
              · intro b' hb'
                have := p3 _ hb' (hnD b')
                have hlt : n < s4.store.length := by
                  obtain ⟨nd, e, _⟩ := Store.links_eq p5; exact lt_of_getElem? e
                simp only at this
                omega
              · exact Store.resolve_ext p4.ext.links (by rw [hst]; exact hn)
        exact loop subs D _ s3 hen.inv hen.fresh (hen.head.subsOk hen.obj) hL3 hn h4

/-! ### the depth of what a dump left -/

/-- a way from node `n` to node `m` through members of groups and `k` node references -/
inductive Way (S : Store) (n : NodeId) : Nat → NodeId → Prop
  | here : Way S n 0 n
  | member {k p m ls x} : Way S n k p → S.links p = some ls → (x, m) ∈ ls → Way S n k m
  | jump {k p m} {nd : Node} : Way S n k p → S[p]? = some nd → nd.body = .dset (.ref m) → Way S n (k + 1) m

theorem Head.notRef {env : Env} {H : Heap} {fn o at' d subs} (h : Head env H fn o at' (some d) subs) (t : NodeId) : d ≠ .ref t := by
  cases h with
  | oseq _ _ h => cases h <;> simp
  | _ => simp

theorem Kids.child {base : Nat} {H : Heap} {S : Store} {W : Rel} {ls subs} (h : Kids base H S W ls subs) {p} (hp : p ∈ ls) :
    ∃ a attrs, Child S W p.2 a attrs := by
  induction h with
  | nil => simp at hp
  | cons h0 h1 h2 _ ih =>
    rcases List.mem_cons.1 hp with rfl | hp
    · exact ⟨_, _, h2⟩
    · exact ih hp

theorem dumpTop_deep {a : DumpArgs} {s s' : Session} (hE : EnvOk P a.env) (hreg : RegInv P s.reg) (hT : Tree s.store)
    (hcls : ∀ (x : Addr) (o : Obj), a.heap[x]? = some o → GoodCls P a.env o.cls) (ho : OptsOk a s.store)
    (h : dumpTop a s = (.ok (), s')) {r : Nat}
    (hr : ∀ d, s'.store.resolve 0 (a.path ++ [dataName0]) = some d → ∀ k m, Way s'.store d k m → k ≤ r) :
    ∃ g T d ls, s'.store.resolve 0 a.path = some g ∧ s'.store.links g = some ls ∧ Assoc.get? ls tableName = some T ∧
      Assoc.get? ls dataName0 = some d ∧ Deep s'.store ((r + 1) * a.fuel) d := by
  obtain ⟨c, g, st, sd, hc, hst⟩ := dumpTop_call hT ho h
  rw [hst] at hr ⊢
  have hti := hc.tinv
  have hgT := hc.ne
  obtain ⟨henv, hmgr, hpath, hresg, htree, c2, hlT, hlt, hattr, hdn⟩ := hc
  obtain ⟨env, mgr, kw, T⟩ := c
  dsimp only at henv hmgr c2 hlT hlt hgT
  subst henv
  let s0 : DState := { heap := a.heap, store := st, tlinks := [], blinks := [], reg := s.reg }
  obtain ⟨W, d, ls, k1, k2, k3, k4, k5, k6, k7, _⟩ := dump_dumped (P := P) (c := ⟨a.env, mgr, kw, T⟩) hE hmgr (s := s0) rfl hreg hti hcls hgT hdn
  have k5' : st.links g = some ls := k5
  rw [c2] at k5'; simp at k5'; subst k5'
  simp only [List.cons_append, List.nil_append] at k6
  -- the layout
  have hL0 : Lay T a.path st.length a.fuel s0.store := by
    refine ⟨htree, ?_, ?_, fun n h1 h2 => absurd h2 (by show ¬ n < st.length; omega)⟩
    · show st.resolve 0 _ = _
      rw [Store.resolve_append, hresg]; simp [Store.resolve, c2, Assoc.get?]
    · intro q n hq
      have hq : st.resolve 0 (a.path ++ dataName0 :: q) = some n := hq
      rw [Store.resolve_append, hresg] at hq
      simp [Store.resolve, c2, Assoc.get?, show tableName ≠ dataName0 by decide] at hq
  have h0 : DInv P ⟨a.env, mgr, kw, T⟩ s0.heap.length [] [] s0 :=
    { reg := hreg, tinv := hti, done := by simp, memo := by simp [s0, Assoc.get?]
      memoised := by intro n a o hw; simp [W2] at hw
      uniq := by intro n a o hw; simp [W2] at hw
      lt := by intro n a hw; simp [W2] at hw
      cls := hcls, len := Nat.le_refl _
      temps := fun p o h1 h2 => by have := lt_of_getElem? h2; omega }
  have hL : Lay T a.path st.length a.fuel sd.store :=
    dumpNode_lay (c := ⟨a.env, mgr, kw, T⟩) hE hmgr a.fuel a.obj g dataName0 [] s0 sd [] [] () h0 (by simp) hgT ⟨by simp, by simp⟩ hL0
      ⟨a.path, [], hresg, rfl, by simp⟩ hdn
  have hg : sd.store.resolve 0 a.path = some g := Store.resolve_ext (SExt.links k4.ext) hresg
  have hd : sd.store.resolve 0 (a.path ++ [dataName0]) = some d := by
    rw [Store.resolve_append, hg]
    simp [Store.resolve, k6, Assoc.get?, show tableName ≠ dataName0 by decide]
  have hF : 0 < a.fuel := hL.deep [] d hd
  -- what is below a node of the dump
  have key : ∀ (j i k : Nat) (n : NodeId) (q : List PyStr), Way sd.store d k n → r - k = j → a.fuel - q.length = i →
      sd.store.resolve 0 (a.path ++ dataName0 :: q) = some n →
      ((∃ b, W n b) ∨ ∃ t b nd, sd.store[n]? = some nd ∧ nd.body = .dset (.ref t) ∧ W t b) → Deep sd.store (j * a.fuel + i) n := by
    intro j
    induction j using Nat.strongRecOn with
    | ind j ihj =>
    intro i
    induction i with
    | zero =>
      intro k n q _ _ hi hq
      have := hL.deep q n hq
      omega
    | succ i ihi =>
      intro k n q hw hk hi hq hn
      show ∀ m, Goes sd.store n m → Deep sd.store (j * a.fuel + i) m
      intro m hm
      rcases hn with ⟨b, hb⟩ | ⟨t, b, nd, e1, e2, hb⟩
      · obtain ⟨o, nd, od, subs, _, e2, _, e4, e5⟩ := k1.nodes n b hb
        cases od with
        | some x =>
          cases hm with
          | link q1 q2 =>
            obtain ⟨nd', q3, q4⟩ := Store.links_eq q1
            rw [e2] at q3; cases q3
            rw [e5] at q4; simp at q4
          | ref q1 q2 =>
            rw [e2] at q1; cases q1
            rw [e5] at q2
            exact absurd (by simpa using q2) (e4.notRef m)
        | none =>
          obtain ⟨ls, f1, f2⟩ := e5
          have hls := Store.links_of e2 f1
          cases hm with
          | @link ls' x q1 q2 =>
            rw [hls] at q1; cases q1
            have hmp : sd.store.resolve 0 (a.path ++ dataName0 :: (q ++ [x])) = some m := by
              rw [show a.path ++ dataName0 :: (q ++ [x]) = (a.path ++ dataName0 :: q) ++ [x] by simp, Store.resolve_append, hq]
              have := Assoc.get?_of_mem (p := (x, m)) (hL.tree.names n _ hls) q2
              simp only at this
              simp [Store.resolve, hls, this]
            refine ihi k m (q ++ [x]) (.member hw hls q2) hk (by simp; omega) hmp ?_
            obtain ⟨b', at', nd', g1, _, g2⟩ := f2.child q2
            rcases g2 with g2 | ⟨t, g2, _, g3⟩
            · exact .inl ⟨_, g2⟩
            · exact .inr ⟨t, _, nd', g1, g2, g3⟩
          | ref q1 q2 =>
            rw [e2] at q1; cases q1
            rw [f1] at q2; simp at q2
      · cases hm with
        | link q1 q2 =>
          obtain ⟨nd', q3, q4⟩ := Store.links_eq q1
          rw [e1] at q3; cases q3
          rw [e2] at q4; simp at q4
        | ref q1 q2 =>
          rw [e1] at q1; cases q1
          rw [e2] at q2; simp at q2; subst q2
          have hw' : Way sd.store d (k + 1) t := .jump hw e1 e2
          have hle := hr d hd _ _ hw'
          obtain ⟨o, nd', od, subs, _, g2, _, g4, g5⟩ := k1.nodes t b hb
          have hmono : ∀ x, x ≤ j * a.fuel → Deep sd.store x t → Deep sd.store (j * a.fuel + i) t := fun x hx hdp => hdp.mono (by omega)
          obtain ⟨j', rfl⟩ : ∃ j', j = j' + 1 := ⟨j - 1, by omega⟩
          rcases hL.reach t (k2 t b hb).1 (lt_of_getElem? g2) with ⟨q', hq'⟩ | ⟨x, hx⟩
          · refine hmono (j' * a.fuel + (a.fuel - q'.length)) ?_ (ihj j' (by omega) _ (k + 1) t q' hw' (by omega) rfl hq' (.inl ⟨b, hb⟩))
            rw [Nat.add_mul]; omega
          · rw [show a.path ++ [tableName, x] = (a.path ++ [tableName]) ++ [x] by simp] at hx
            obtain ⟨T', es, p1, p2, p3⟩ := Store.resolve_snoc hx
            rw [hL.tab] at p1; cases p1
            obtain ⟨nd2, p4, p5⟩ := k7.ents es p2 _ (Assoc.get?_mem p3)
            refine hmono 1 (by rw [Nat.add_mul]; omega) ?_
            show ∀ m, Goes sd.store t m → Deep sd.store 0 m
            intro m hm
            cases hm with
            | link q1 q2 =>
              obtain ⟨nd3, q3, q4⟩ := Store.links_eq q1
              rw [p4] at q3; cases q3
              rcases p5 with p5 | ⟨cls, p5, _⟩ <;> (rw [p5] at q4; simp at q4)
            | ref q1 q2 =>
              rw [p4] at q1; cases q1
              rcases p5 with p5 | ⟨cls, p5, _⟩ <;> (rw [p5] at q2; simp at q2)
  refine ⟨g, T, d, _, hg, k6, by simp [Assoc.get?], by simp [Assoc.get?, show tableName ≠ dataName0 by decide], ?_⟩
  have := key r a.fuel 0 d [] .here (by omega) (by simp) hd (by
    obtain ⟨nd, e1, _, e2⟩ := k1.root
    rcases e2 with e2 | ⟨t, e2, _, e3⟩
    · exact .inl ⟨_, e2⟩
    · exact .inr ⟨t, _, nd, e1, e2, e3⟩)
  rw [Nat.add_mul, Nat.one_mul]
  exact this

end Verif
