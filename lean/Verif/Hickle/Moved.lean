import Verif.Hickle.TopSteps
/-!
# What a load looks at

A load looks only at the attributes of the group it loads from, at what can be reached from its member `data` (members of groups and targets of
references), and at the types table: the entries found in `hickle_types_table` or referred to by an attribute `type`, and the names of the entries
these refer to.
-/
namespace Verif

/-- `m` can be reached from the member `data` of the group `g` by links and by references -/
inductive Seen (S : Store) (g : NodeId) : NodeId → Prop
  | start {m : NodeId} {x : PyStr} {ls : List (PyStr × NodeId)} : S.links g = some ls → Assoc.get? ls x = some m → x = dataName0 → Seen S g m
  | member {n m : NodeId} {x : PyStr} {ls : List (PyStr × NodeId)} : Seen S g n → S.links n = some ls → (x, m) ∈ ls → Seen S g m
  | data {n m : NodeId} {nd : Node} : Seen S g n → S[n]? = some nd → nd.body = .dset (.ref m) → Seen S g m

/-- `e` is an entry of the types table of `g`, or something stored there has it as its type -/
inductive SeenEntry (S : Store) (g : NodeId) : NodeId → Prop
  | type {n e : NodeId} {nd : Node} : Seen S g n → S[n]? = some nd → Assoc.get? nd.attrs "type" = some (.ref e) → SeenEntry S g e
  | table {T e : NodeId} {x : PyStr} {ls es : List (PyStr × NodeId)} : S.links g = some ls → Assoc.get? ls tableName = some T → S.links T = some es → (x, e) ∈ es →
      SeenEntry S g e

/-- the second file has what hickle has stored at the group `g` of the first one.  The group may have other members, and there may be anything
else in the file. -/
structure SameBelow (S S' : Store) (g : NodeId) : Prop where
  nodes : ∀ n, Seen S g n → S'[n]? = S[n]?
  entries : ∀ e, SeenEntry S g e → S'[e]? = S[e]?
  names : ∀ (e b : NodeId) (nd : Node), SeenEntry S g e → S[e]? = some nd → Assoc.get? nd.attrs "base_type" = some (.ref b) →
    (S'[b]?).map Node.name = (S[b]?).map Node.name
  table : ∀ (ls : List (PyStr × NodeId)) (T : NodeId), S.links g = some ls → Assoc.get? ls tableName = some T → S'.links T = S.links T
  attrs : S'.attrs g = S.attrs g
  group : ∃ ls ls', S.links g = some ls ∧ S'.links g = some ls' ∧ ∀ x, x = dataName0 ∨ x = tableName → Assoc.get? ls' x = Assoc.get? ls x

section
variable {c : LCtx} {S' : Store} {g : NodeId}

theorem SameBelow.links {S S' : Store} (h : SameBelow S S' g) {n : NodeId} (hn : Seen S g n) : S'.links n = S.links n := by
  unfold Store.links
  rw [h.nodes n hn]

theorem resolveEntry_same (h : SameBelow c.store S' g) {e : NodeId} (he : SeenEntry c.store g e) : resolveEntry { c with store := S' } e = resolveEntry c e := by
  unfold resolveEntry
  simp only [h.entries e he]
  cases hn : c.store[e]? with
  | none => rfl
  | some entry =>
    simp only
    cases hb : Assoc.get? entry.attrs "base_type" with
    | none => rfl
    | some v =>
      cases v with
      | ref b =>
        have := h.names e b entry he hn hb
        cases h1 : S'[b]? <;> cases h2 : c.store[b]? <;> rw [h1, h2] at this <;> simp at this
        · simp only [h1, h2]
        · simp only [h1, h2, this]
      | _ => rfl

theorem resolveType_same (h : SameBelow c.store S' g) {n : NodeId} {node : Node} (hn : Seen c.store g n) (hs : c.store[n]? = some node) :
    resolveType { c with store := S' } node = resolveType c node := by
  unfold resolveType
  cases ht : Assoc.get? node.attrs "type" with
  | none => rfl
  | some v =>
    cases v with
    | ref e =>
      simp only
      rw [resolveEntry_same h (.type hn hs ht)]
    | _ => rfl

theorem contFilter_same (h : SameBelow c.store S' g) {n : NodeId} {node : Node} (hn : Seen c.store g n) (hs : c.store[n]? = some node) (sub : Cont) :
    contFilter { c with store := S' } sub node = contFilter c sub node := by
  unfold contFilter
  cases hb : node.body with
  | group ls => cases sub <;> rfl
  | dset d =>
    cases d with
    | ref t => cases sub <;> simp only [h.nodes t (.data hn hs hb)]
    | _ => cases sub <;> rfl

/-- the nodes a container is filled from -/
theorem contFilter_seen (hord : ∀ l, ∀ p ∈ c.order l, p ∈ l) {n : NodeId} {node : Node} (hn : Seen c.store g n) (hs : c.store[n]? = some node) {sub : Cont} {items}
    {s s' : LState} (h : contFilter c sub node s = (.ok items, s')) : ∀ p ∈ items, Seen c.store g p.2 := by
  unfold contFilter at h
  cases hb : node.body with
  | group ls =>
    rw [hb] at h
    have key : items = c.order ls → ∀ p ∈ items, Seen c.store g p.2 := by
      rintro rfl p hp
      exact .member (x := p.1) hn (Store.links_of hs hb) (hord ls p hp)
    cases sub <;> simp at h <;> exact key h.1.symm
  | dset d =>
    rw [hb] at h
    cases d with
    | ref t =>
      cases sub with
      | expand l =>
        simp only at h
        cases ht : c.store[t]? with
        | none => rw [ht] at h; simp at h
        | some tn =>
          rw [ht] at h
          simp at h
          rw [← h.1]
          intro p hp
          simp at hp
          subst hp
          exact .data hn hs hb
      | _ => simp at h
    | _ => cases sub <;> simp at h

theorem foldEach_congr {σ α β : Type} {f f' : β → α → M σ β} {xs : List α} (h : ∀ b, ∀ x ∈ xs, f b x = f' b x) (b : β) : M.foldEach f b xs = M.foldEach f' b xs := by
  induction xs generalizing b with
  | nil => rfl
  | cons x xs ih =>
    simp only [M.foldEach]
    rw [h b x (by simp)]
    congr 1
    funext b'
    exact ih (fun b y hy => h b y (by simp [hy])) b'

theorem bind_congr_at {σ α β : Type} {x : M σ α} {f f' : α → M σ β} {s : σ} (h : ∀ a s', x s = (.ok a, s') → f a s' = f' a s') : (x >>= f) s = (x >>= f') s := by
  rw [M.bind_apply, M.bind_apply]
  cases hx : x s with
  | mk r s' =>
    cases r with
    | ok a => exact h a s' hx
    | error e => rfl

/-- loading a node looks only at what can be reached from it -/
theorem loadNode_same (hord : ∀ l, ∀ p ∈ c.order l, p ∈ l) (h : SameBelow c.store S' g) (fuel : Nat) : ∀ cont name n, Seen c.store g n →
    loadNode { c with store := S' } fuel cont name n = loadNode c fuel cont name n := by
  induction fuel with
  | zero => intros; rfl
  | succ fuel ih =>
    intro cont name n hn
    simp only [loadNode, h.nodes n hn]
    cases hs : c.store[n]? with
    | none => rfl
    | some node =>
      simp only
      have hobj : loadObj { c with store := S' } (loadNode { c with store := S' } fuel) node = loadObj c (loadNode c fuel) node := by
        unfold loadObj
        rw [resolveType_same h hn hs]
        congr 1
        funext r
        refine congrArg (lOnReg (loadLoader c.env c.mgr r.cls (some r.base)) >>= ·) ?_
        funext ce
        refine congrArg (· >>= fun a => pure (a, ce.2.memoise)) ?_
        unfold loadBody
        funext s0
        rw [M.bind_of_ok (M.get_apply s0), M.bind_of_ok (M.get_apply s0)]
        split
        · refine bind_congr_at fun sub s1 _ => ?_
          rw [contFilter_same h hn hs]
          refine bind_congr_at fun items s2 hi => ?_
          rw [foldEach_congr (fun b p hp => ih b p.1 p.2 (contFilter_seen hord hn hs hi p hp))]
          rfl
        · rfl
      rw [hobj]
      rfl

end

/-! ### the whole call -/

/-- Two programs do the same, one on the file `S` and the other on the file `S'`, and leave the files alone -/
def Alongside {α : Type} (S S' : Store) (w : Bool) (x y : SM α) : Prop := ∀ s : Session, s.store = S → s.writable = w →
  y { s with store := S' } = ((x s).1, { (x s).2 with store := S' }) ∧ (x s).2.store = S ∧ (x s).2.writable = w

namespace Alongside
variable {α β : Type} {S S' : Store} {w : Bool}

theorem pure (a : α) : Alongside S S' w (Pure.pure a) (Pure.pure a) := fun _ h1 h2 => ⟨rfl, h1, h2⟩
theorem throw (e : PyErr) : Alongside S S' w (M.throw e : SM α) (M.throw e) := fun _ h1 h2 => ⟨rfl, h1, h2⟩
theorem ofExcept (e : Except PyErr α) : Alongside S S' w (M.ofExcept e : SM α) (M.ofExcept e) := fun _ h1 h2 => by
  cases e <;> exact ⟨rfl, h1, h2⟩

theorem bind {x y : SM α} {f f' : α → SM β} (hx : Alongside S S' w x y) (hf : ∀ a, Alongside S S' w (f a) (f' a)) : Alongside S S' w (x >>= f) (y >>= f') := by
  intro s h1 h2
  obtain ⟨k1, k2, k3⟩ := hx s h1 h2
  rw [M.bind_apply, M.bind_apply, k1]
  rcases hxs : x s with ⟨r, s1⟩
  rw [hxs] at k2 k3
  cases r with
  | ok a => exact hf a s1 k2 k3
  | error e => exact ⟨rfl, k2, k3⟩

theorem attempt {x y : SM α} (hx : Alongside S S' w x y) : Alongside S S' w (M.attempt x) (M.attempt y) := by
  intro s h1 h2
  obtain ⟨k1, k2, k3⟩ := hx s h1 h2
  rw [M.attempt_apply, M.attempt_apply, k1]
  exact ⟨rfl, k2, k3⟩

theorem finally' {x y : SM α} {f f' : SM Unit} (hx : Alongside S S' w x y) (hf : Alongside S S' w f f') : Alongside S S' w (Verif.finally' x f) (Verif.finally' y f') :=
  bind (attempt hx) fun r => bind hf fun _ => ofExcept r

end Alongside

section
variable {S S' : Store} {w : Bool} {g : NodeId}

theorem loaderEnter_along (h : SameBelow S S' g) : Alongside S S' w (loaderEnter g none) (loaderEnter g none) := by
  intro s h1 h2
  unfold loaderEnter
  rw [M.bind_of_ok (M.get_apply _), M.bind_of_ok (M.get_apply _)]
  split
  · exact ⟨rfl, h1, h2⟩
  · refine Alongside.bind ?_ (fun m => .bind (fun s h1 h2 => ⟨rfl, h1, h2⟩) fun _ => .pure _) s h1 h2
    intro s h1 h2
    unfold optionMaps
    simp only
    rw [M.bind_of_ok (M.get_apply _), M.bind_of_ok (M.get_apply _)]
    simp only [h1, h.attrs]
    exact Alongside.ofExcept _ s h1 h2

theorem refEntries_same (env : Env) (h : SameBelow S S' g) : ∀ (es : List (PyStr × NodeId)) (m : RefMgr), (∀ p ∈ es, SeenEntry S g p.2) → refEntries env S' m es = refEntries env S m es := by
  intro es
  induction es with
  | nil => intros; rfl
  | cons p es ih =>
    intro m hs
    have hp : refEntry env S' m p = refEntry env S m p := by
      have hps := hs p (by simp)
      unfold refEntry
      rw [h.entries _ hps]
      cases hn : S[p.2]? with
      | none => rfl
      | some nd =>
        simp only
        cases hb : nd.body with
        | group ls => rfl
        | dset d =>
          simp only
          split
          · rfl
          · cases ha : Assoc.get? nd.attrs "base_type" with
            | none => rfl
            | some v =>
              cases v with
              | ref b =>
                have := h.names _ b nd hps hn ha
                cases h1 : S'[b]? <;> cases h2 : S[b]? <;> rw [h1, h2] at this <;> simp at this
                · simp only [h1, h2]
                · simp only [h1, h2, this]
              | _ => rfl
    simp only [refEntries, hp]
    cases refEntry env S m p with
    | error e => rfl
    | ok m' => exact ih m' fun q hq => hs q (by simp [hq])

theorem refInit_along (env : Env) (h : SameBelow S S' g) (ht : w = true → ∃ ls T, S.links g = some ls ∧ Assoc.get? ls tableName = some T) :
    Alongside S S' w (refInit env g) (refInit env g) := by
  intro s h1 h2
  unfold refInit
  obtain ⟨ls, ls', hl, hl', hget⟩ := h.group
  simp only [h1, hl, hl', hget tableName (.inr rfl)]
  cases hT : Assoc.get? ls tableName with
  | none =>
    simp only
    split
    · next hw =>
      obtain ⟨ls', T, e1, e2⟩ := ht (by rw [← h2]; exact hw)
      rw [hl] at e1; cases e1
      rw [hT] at e2; cases e2
    · exact ⟨rfl, h1, h2⟩
  | some T =>
    simp only [h.table ls T hl hT]
    cases he : S.links T with
    | none => exact ⟨rfl, h1, h2⟩
    | some es =>
      simp only
      rw [refEntries_same env h es _ fun p hp => .table (x := p.1) hl hT he hp]
      split <;> exact ⟨rfl, h1, h2⟩

theorem refEnter_along (env : Env) (h : SameBelow S S' g) (ht : w = true → ∃ ls T, S.links g = some ls ∧ Assoc.get? ls tableName = some T) :
    Alongside S S' w (refEnter env g) (refEnter env g) := by
  intro s h1 h2
  unfold refEnter
  rw [M.bind_of_ok (M.get_apply _), M.bind_of_ok (M.get_apply _)]
  split
  · exact ⟨rfl, h1, h2⟩
  · exact Alongside.bind (refInit_along env h ht) (fun m => .bind (fun s h1 h2 => ⟨rfl, h1, h2⟩) fun _ => .pure _) s h1 h2

theorem loadBodyTop_along {a : LoadArgs} {q : List PyStr} (hord : ∀ l, ∀ p ∈ a.order l, p ∈ l) (h : SameBelow S S' g) (mgr : Manager) (m : RefMgr) :
    Alongside S S' w (loadBodyTop a g mgr m) (loadBodyTop { a with path := q } g mgr m) := by
  intro s h1 h2
  unfold loadBodyTop
  obtain ⟨ls, ls', hl, hl', hget⟩ := h.group
  simp only [h1, hl, hl', hget dataName0 (.inl rfl)]
  cases hd : Assoc.get? ls dataName0 with
  | none => exact ⟨rfl, h1, h2⟩
  | some d =>
    simp only
    have key := loadNode_same (c := ⟨a.env, mgr, S, a.order⟩) hord h a.fuel (.root []) dataName0 d (.start hl hd rfl)
    simp only at key
    rw [key]
    generalize loadNode ⟨a.env, mgr, S, a.order⟩ a.fuel (.root []) dataName0 d { heap := loadHeap, tcache := m.tc, reg := s.reg } = r
    obtain ⟨r1, r2⟩ := r
    cases r1 with
    | error e => exact ⟨rfl, rfl, h2⟩
    | ok k =>
      cases k with
      | root l => cases l <;> exact ⟨rfl, rfl, h2⟩
      | _ => exact ⟨rfl, rfl, h2⟩

theorem loadTop_along {a : LoadArgs} {q : List PyStr} (hord : ∀ l, ∀ p ∈ a.order l, p ∈ l) (hp : pathOk a.path = .ok ()) (hq : pathOk q = .ok ())
    (hS : S.resolve 0 a.path = some g) (hS' : S'.resolve 0 q = some g) (h : SameBelow S S' g)
    (hr : route ((S'.attrs 0).getD []) ((S.attrs g).getD []) = route ((S.attrs 0).getD []) ((S.attrs g).getD []))
    (ht : w = true → ∃ ls T, S.links g = some ls ∧ Assoc.get? ls tableName = some T) :
    Alongside S S' w (loadTop a) (loadTop { a with path := q }) := by
  unfold loadTop
  refine .bind (.attempt ?_) fun r => ?_
  · intro s h1 h2
    unfold loadTry
    rw [M.bind_of_ok (M.get_apply _), M.bind_of_ok (M.get_apply _)]
    obtain ⟨ls, ls', hl, hl', _⟩ := h.group
    simp only [hp, hq, h1, hS, hS', hl, hl', h.attrs, hr]
    cases route ((S.attrs 0).getD []) ((S.attrs g).getD []) with
    | refuse e => exact ⟨rfl, h1, h2⟩
    | v3 => exact ⟨rfl, h1, h2⟩
    | v4 => exact ⟨rfl, h1, h2⟩
    | current =>
      exact Alongside.bind (loaderEnter_along h) (fun mgr => .finally' (.bind (refEnter_along a.env h ht) fun m =>
        .finally' (loadBodyTop_along hord h mgr m) (fun s h1 h2 => ⟨rfl, h1, h2⟩)) (fun s h1 h2 => ⟨rfl, h1, h2⟩)) s h1 h2
  · cases r with
    | ok x => exact .pure _
    | error e => exact .throw _

end

end Verif
