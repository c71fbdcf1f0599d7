import Verif.Hickle.LoadSteps
import Verif.Hickle.TopSteps
/-!
# A load that returns has read everything

For arbitrary file content: when `loadNode` returns, every node below the node, also behind node
references, has been read, and there is no way back from a node to itself.
-/
namespace Verif

/-- from node `n` one gets to node `m`: a member of a group, or the target of a node reference -/
inductive Leads (S : Store) (n m : NodeId) : Prop
  | link {ls : List (PyStr × NodeId)} {x : PyStr} : S.links n = some ls → (x, m) ∈ ls → Leads S n m
  | ref {nd : Node} : S[n]? = some nd → nd.body = .dset (.ref m) → Assoc.get? nd.attrs "type" = none → Leads S n m

/-- `m` is `n` or below it -/
inductive Under (S : Store) (n : NodeId) : NodeId → Prop
  | here : Under S n n
  | down {k m} : Under S n k → Leads S k m → Under S n m

/-- `m` is properly below `n` -/
def Inside (S : Store) (n m : NodeId) : Prop := Relation.TransGen (Leads S) n m

/-- an entry of the types table that exists and whose loader name exists -/
def EntrySound (S : Store) (e : NodeId) : Prop :=
  ∃ entry : Node, S[e]? = some entry ∧ ∀ b, Assoc.get? entry.attrs "base_type" = some (.ref b) → ∃ bn : Node, S[b]? = some bn

/-- the types that have been resolved were there -/
def CacheSound (S : Store) (s : LState) : Prop := ∀ e ti, Assoc.get? s.tcache e = some ti → EntrySound S e

/-- a node which has not been loaded yet can not be loaded, at whatever time -/
def Refused (c : LCtx) (n : NodeId) : Prop :=
  ∀ fuel cont name s, CacheSound c.store s → Assoc.get? s.memo n = none → ∀ r s', loadNode c fuel cont name n s ≠ (.ok r, s')

/-- the node and everything below it can be loaded, in finitely many steps -/
inductive ReadAll (c : LCtx) : NodeId → Prop
  | intro {n} : ¬ Refused c n → (∀ m, Leads c.store n m → ReadAll c m) → ReadAll c n

theorem ReadAll.of_under {c : LCtx} {n m : NodeId} (h : ReadAll c n) (hb : Under c.store n m) : ReadAll c m := by
  induction hb with
  | here => exact h
  | down _ hl ih => cases ih with | intro _ h => exact h _ hl

theorem ReadAll.notRefused {c : LCtx} {n : NodeId} (h : ReadAll c n) : ¬ Refused c n := by cases h; assumption

theorem ReadAll.acc {c : LCtx} {n : NodeId} (h : ReadAll c n) : Acc (fun m n => Leads c.store n m) n := by
  induction h with
  | intro _ _ ih => exact ⟨_, fun m hm => ih m hm⟩

/-- what holds between the steps of a load -/
structure Reading (c : LCtx) (s : LState) : Prop where
  cache : CacheSound c.store s
  memo : ∀ n a, Assoc.get? s.memo n = some a → ReadAll c n

instance (c : LCtx) : HeapFree (Reading c) := ⟨fun _ _ h => ⟨h.cache, h.memo⟩⟩

theorem lOnReg_reading {α : Type} {c : LCtx} {x : M Registry α} : Keeps (Reading c) (lOnReg x) :=
  fun _ hs => ⟨⟨hs.cache, hs.memo⟩, fun _ _ => trivial⟩

/-- a condition that resolving types keeps -/
class CacheInv (c : LCtx) (I : LState → Prop) : Prop where
  sound : ∀ s, I s → CacheSound c.store s
  put : ∀ s e ti, I s → EntrySound c.store e → I { s with tcache := Assoc.put s.tcache e ti }

theorem CacheSound.put {S : Store} {s : LState} {e : NodeId} (ti : TypeInfo) (h : CacheSound S s) (he : EntrySound S e) :
    CacheSound S { s with tcache := Assoc.put s.tcache e ti } := by
  intro e' ti' h'
  by_cases hee : e' = e
  · subst hee; exact he
  · rw [Assoc.get?_put_ne _ _ (Ne.symm hee)] at h'
    exact h e' ti' h'

instance (c : LCtx) : CacheInv c (Reading c) := ⟨fun _ h => h.cache, fun _ _ ti h he => ⟨h.cache.put ti he, h.memo⟩⟩
instance (c : LCtx) : CacheInv c (CacheSound c.store) := ⟨fun _ h => h, fun _ _ ti h he => h.put ti he⟩

variable {I : LState → Prop}

theorem resolveEntry_reading {c : LCtx} [CacheInv c I] {e : NodeId} : Keeps I (resolveEntry c e) (fun _ => EntrySound c.store e) := by
  unfold resolveEntry
  cases he : c.store[e]? with
  | none => exact .throw _
  | some entry =>
    intro s hs
    simp only []
    rw [M.bind_of_ok (M.get_apply s)]
    cases ht : Assoc.get? s.tcache e with
    | some ti => exact ⟨hs, fun _ _ => CacheInv.sound (c := c) s hs e ti ht⟩
    | none =>
      simp only []
      refine Keeps.bind (I := I) (Q := fun _ => EntrySound c.store e) ?_ (fun base hb => ?_) s hs
      · cases hb : Assoc.get? entry.attrs "base_type" with
        | none => exact .pure ⟨entry, he, fun b h => by rw [hb] at h; simp at h⟩
        | some v =>
          cases v with
          | ref b =>
            simp only []
            cases hbn : c.store[b]? with
            | none => exact .throw _
            | some bn => exact .pure ⟨entry, he, fun b' h => by rw [hb] at h; cases h; exact ⟨bn, hbn⟩⟩
          | _ => exact .throw _
      · refine .bind (Q := fun _ => True) ?_ fun ti _ => ?_
        · split
          · exact .pure trivial
          · exact .throw _
        · exact .bind (Q := fun _ => True) (.modify (fun s hs => CacheInv.put s e ti hs hb) trivial) fun _ _ => .pure hb

theorem resolveType_reading {c : LCtx} [CacheInv c I] {node : Node} : Keeps I (resolveType c node)
    (fun r => (∀ e, Assoc.get? node.attrs "type" = some (.ref e) → EntrySound c.store e) ∧
      (Assoc.get? node.attrs "type" = none → ∀ t, node.body = .dset (.ref t) → r.isCont = true) ∧
      (r.isCont = false → (∀ ls, node.body ≠ .group ls) ∧ (Assoc.get? node.attrs "type" = none → ∀ t, node.body ≠ .dset (.ref t)))) := by
  unfold resolveType
  cases ht : Assoc.get? node.attrs "type" with
  | none =>
    simp only []
    cases hb : node.body with
    | group ls => exact .throw _
    | dset d => cases d <;> exact .pure (by simp)
  | some v =>
    have hg : node.isGroup = false → ∀ ls, node.body ≠ .group ls := by
      intro h ls e
      simp [Node.isGroup, e] at h
    cases v with
    | ref e =>
      refine .bind resolveEntry_reading fun ti hti => ?_
      cases ti with
      | known cls b => exact .pure ⟨fun e' h => by simp at h; subst h; exact hti, by simp, fun h => ⟨hg h, by simp⟩⟩
      | lost b => exact .pure ⟨fun e' h => by simp at h; subst h; exact hti, by simp, fun h => ⟨hg h, by simp⟩⟩
    | pcls cls =>
      simp only []
      split <;> exact .pure ⟨by simp, by simp, fun h => ⟨hg h, by simp⟩⟩
    | int _ => exact .throw _
    | bool _ => exact .throw _
    | bytes _ => exact .throw _
    | dt _ => exact .throw _
    | udt _ => exact .throw _
    | odt => exact .throw _

theorem Keeps.foldEach_all {σ α β : Type} {I : σ → Prop} {f : β → α → M σ β} {R : α → Prop} {b : β} (xs : List α)
    (h : ∀ b, ∀ x ∈ xs, Keeps I (f b x) (fun _ => R x)) : Keeps I (M.foldEach f b xs) (fun _ => ∀ x ∈ xs, R x) := by
  induction xs generalizing b with
  | nil => exact .pure (by simp)
  | cons x xs ih =>
    refine .bind (h b x (by simp)) fun b' hb' => .weaken (ih fun c y hy => h c y (by simp [hy])) fun _ h2 => ?_
    intro y hy
    rcases List.mem_cons.1 hy with rfl | hy
    · exact hb'
    · exact h2 y hy

/-- the sub nodes that are loaded are those the node leads to -/
theorem contFilter_all {c : LCtx} {sub : Cont} {n : NodeId} {node : Node} (hn : c.store[n]? = some node) (hord : ∀ l, (c.order l).Perm l) :
    Keeps (Reading c) (contFilter c sub node) (fun items => ∀ m, Leads c.store n m → ∃ x, (x, m) ∈ items) := by
  unfold contFilter
  cases hb : node.body with
  | group ls =>
    have key : ∀ m, Leads c.store n m → ∃ x, (x, m) ∈ c.order ls := by
      intro m hm
      cases hm with
      | link h1 h2 =>
        obtain ⟨nd, k1, k2⟩ := Store.links_eq h1
        rw [hn] at k1; cases k1
        rw [hb] at k2; cases k2
        exact ⟨_, (hord ls).mem_iff.2 h2⟩
      | ref h1 h2 _ =>
        rw [hn] at h1; cases h1
        rw [hb] at h2; simp at h2
    cases sub <;> first | exact .throw _ | exact .pure key
  | dset d =>
    cases sub with
    | expand l =>
      cases d with
      | ref t =>
        simp only []
        cases ht : c.store[t]? with
        | none => exact .throw _
        | some tn =>
          refine .pure fun m hm => ?_
          cases hm with
          | link h1 h2 =>
            obtain ⟨nd, k1, k2⟩ := Store.links_eq h1
            rw [hn] at k1; cases k1
            rw [hb] at k2; simp at k2
          | ref h1 h2 _ =>
            rw [hn] at h1; cases h1
            rw [hb] at h2; cases h2
            exact ⟨tn.name, by simp⟩
      | _ => exact .throw _
    | _ => exact .throw _

theorem loadNode_all {c : LCtx} (hord : ∀ l, (c.order l).Perm l) (fuel : Nat) :
    ∀ cont name n, Keeps (Reading c) (loadNode c fuel cont name n) (fun _ => ReadAll c n) := by
  induction fuel with
  | zero => exact fun _ _ _ => .throw _
  | succ fuel ih =>
    intro cont name n s hs
    cases hn : c.store[n]? with
    | none =>
      have : loadNode c (fuel + 1) cont name n s = (.error .unmodelled, s) := by simp only [loadNode, hn, M.throw_apply]
      rw [this]; exact ⟨hs, by simp⟩
    | some node =>
      cases hm : Assoc.get? s.memo n with
      | some a =>
        have : loadNode c (fuel + 1) cont name n s = contAppend c cont name a node.attrs s := by
          simp only [loadNode, hn]
          rw [M.bind_of_ok (M.get_apply s), hm]
        rw [this]
        exact ⟨(contAppend_keeps s hs).1, fun _ _ => hs.memo n a hm⟩
      | none =>
        have e : loadNode c (fuel + 1) cont name n s = (loadObj c (loadNode c fuel) node >>= fun r => loadFinish c cont name r.1 node.attrs n r.2) s := by
          simp only [loadNode, hn]
          rw [M.bind_of_ok (M.get_apply s), hm]
        -- what the node leads to has been read
        have h1 : Keeps (Reading c) (loadObj c (loadNode c fuel) node) (fun _ => ∀ m, Leads c.store n m → ReadAll c m) := by
          unfold loadObj
          refine .bind resolveType_reading fun r hr => .bind lOnReg_reading fun ce _ => ?_
          refine .bind (Q := fun _ => ∀ m, Leads c.store n m → ReadAll c m) ?_ fun _ h => .pure h
          unfold loadBody
          refine .bind .get fun s _ => ?_
          split
          · refine .bind mkCont_keeps fun sub _ => .bind (contFilter_all hn hord) fun items hitems => ?_
            refine .bind (.foldEach_all (R := fun p => ReadAll c p.2) items fun b x _ => ih _ _ _) fun _ hall => ?_
            refine .weaken contConvert_keeps fun _ _ m hm => ?_
            obtain ⟨x, hx⟩ := hitems m hm
            exact hall _ hx
          · next hc =>
            obtain ⟨k1, k2⟩ := hr.2.2 (by simpa using hc)
            cases hb : node.body with
            | group ls => exact absurd hb (k1 ls)
            | dset d =>
              simp only []
              refine .weaken loadData_keeps fun _ _ m hm => ?_
              cases hm with
              | link q1 q2 =>
                obtain ⟨nd, q3, q4⟩ := Store.links_eq q1
                rw [hn] at q3; cases q3
                rw [hb] at q4; simp at q4
              | ref q1 q2 q3 =>
                rw [hn] at q1; cases q1
                exact absurd q2 (k2 q3 m)
        -- a returned call shows that the node is not refused
        have h2 : ∀ r, (loadNode c (fuel + 1) cont name n s).1 = .ok r → ¬ Refused c n := by
          intro r hr hR
          exact hR (fuel + 1) cont name s hs.cache hm r _ (Prod.ext hr rfl)
        obtain ⟨g1, g2⟩ := h1 s hs
        cases ho : loadObj c (loadNode c fuel) node s with
        | mk x s1 =>
          rw [ho] at g1 g2
          cases x with
          | error er =>
            rw [e, M.bind_of_error ho]; exact ⟨g1, by simp⟩
          | ok r =>
            have hall : ∀ m, Leads c.store n m → ReadAll c m := g2 r rfl
            rw [M.bind_of_ok ho] at e
            rw [e]
            unfold loadFinish at e ⊢
            have ha := contAppend_keeps (I := Reading c) (c := c) (cont := cont) (name := name) (a := r.1) (at' := node.attrs) s1 g1
            cases hca : contAppend c cont name r.1 node.attrs s1 with
            | mk y s2 =>
              rw [hca] at ha
              cases y with
              | error er =>
                rw [M.bind_of_error hca]; exact ⟨ha.1, by simp⟩
              | ok cont' =>
                rw [M.bind_of_ok hca] at e ⊢
                cases hmem : r.2 with
                | false =>
                  rw [hmem] at e
                  simp only [Bool.false_eq_true, if_false] at e ⊢
                  exact ⟨ha.1, fun _ _ => .intro (h2 cont' (by rw [e]; rfl)) hall⟩
                | true =>
                  rw [hmem] at e
                  simp only [if_true] at e ⊢
                  rw [M.bind_of_ok (M.modify_apply _ _)] at e ⊢
                  have hR : ReadAll c n := .intro (h2 cont' (by rw [e]; rfl)) hall
                  refine ⟨⟨ha.1.cache, ?_⟩, fun _ _ => hR⟩
                  intro n' a' h'
                  simp only [M.pure_apply] at h'
                  by_cases hnn : n' = n
                  · subst hnn; exact hR
                  · rw [Assoc.get?_put_ne _ _ (Ne.symm hnn)] at h'
                    exact ha.1.memo n' a' h'

/-! ### stale references -/

/-- a node with a reference that points to nothing: to its class, from there to its loader's name, or to another node -/
inductive Stale (S : Store) (n : NodeId) : Prop
  | type {nd : Node} {e : NodeId} : S[n]? = some nd → Assoc.get? nd.attrs "type" = some (.ref e) → S[e]? = none → Stale S n
  | base {nd entry : Node} {e b : NodeId} : S[n]? = some nd → Assoc.get? nd.attrs "type" = some (.ref e) → S[e]? = some entry →
      Assoc.get? entry.attrs "base_type" = some (.ref b) → S[b]? = none → Stale S n
  | node {nd : Node} {t : NodeId} : S[n]? = some nd → Assoc.get? nd.attrs "type" = none → nd.body = .dset (.ref t) → S[t]? = none → Stale S n

theorem Stale.type_unsound {S : Store} {e : NodeId} (h : EntrySound S e) (hx : S[e]? = none ∨ ∃ entry b, S[e]? = some entry ∧
    Assoc.get? entry.attrs "base_type" = some (.ref b) ∧ S[b]? = none) : False := by
  obtain ⟨en, h1, h2⟩ := h
  rcases hx with hx | ⟨en', b, k1, k2, k3⟩
  · rw [h1] at hx; simp at hx
  · rw [h1] at k1; cases k1
    obtain ⟨bn, hb⟩ := h2 b k2
    rw [hb] at k3; simp at k3

theorem Stale.refused {c : LCtx} {n : NodeId} (h : Stale c.store n) : Refused c n := by
  intro fuel cont name s hs hm r s' hl
  cases fuel with
  | zero => simp [loadNode] at hl
  | succ fuel =>
    have main : ∃ nd : Node, c.store[n]? = some nd ∧ ∀ x s1, loadObj c (loadNode c fuel) nd s ≠ (.ok x, s1) := by
      have hty : ∀ (nd : Node) (e : NodeId), Assoc.get? nd.attrs "type" = some (.ref e) → (EntrySound c.store e → False) →
          ∀ x s1, loadObj c (loadNode c fuel) nd s ≠ (.ok x, s1) := by
        intro nd e h2 hno x s1 hx
        unfold loadObj at hx
        rw [M.bind_apply] at hx
        obtain ⟨_, k⟩ := resolveType_reading (c := c) (I := CacheSound c.store) (node := nd) s hs
        cases hrt : resolveType c nd s with
        | mk y s2 =>
          rw [hrt] at k hx
          cases y with
          | error e => simp at hx
          | ok r => exact hno ((k r rfl).1 e h2)
      cases h with
      | type h1 h2 h3 => exact ⟨_, h1, hty _ _ h2 fun he => Stale.type_unsound he (.inl h3)⟩
      | base h1 h2 h3 h4 h5 => exact ⟨_, h1, hty _ _ h2 fun he => Stale.type_unsound he (.inr ⟨_, _, h3, h4, h5⟩)⟩
      | @node nd t h1 h2 h3 h4 =>
        refine ⟨nd, h1, fun x s1 hx => ?_⟩
        have hrt : resolveType c nd s = (.ok ⟨.nodeRef, "!node-reference!", "!node-reference!", true⟩, s) := by
          unfold resolveType
          rw [h2]; simp only []; rw [h3]; rfl
        unfold loadObj at hx
        rw [M.bind_of_ok hrt, M.bind_apply] at hx
        split at hx
        · next ce s2 _ =>
          rw [M.bind_apply] at hx
          unfold loadBody at hx
          rw [M.bind_of_ok (M.get_apply s2)] at hx
          simp only [if_true] at hx
          rw [M.bind_apply] at hx
          split at hx
          · next _ a2 s3 heq =>
            split at heq
            · next _ sub s4 _ =>
              have : ∀ z s5, contFilter c sub nd s4 ≠ (.ok z, s5) := by
                intro z s5
                unfold contFilter
                rw [h3]
                cases sub <;> simp [h4]
              rw [M.bind_apply] at heq
              split at heq
              · next _ z s5 hz => exact this z s5 hz
              · simp at heq
            · simp at heq
          · simp at hx
        · simp at hx
    obtain ⟨nd, h1, h2⟩ := main
    simp only [loadNode, h1] at hl
    rw [M.bind_of_ok (M.get_apply s), hm] at hl
    simp only [] at hl
    rw [M.bind_apply] at hl
    split at hl
    · next x s1 hx => exact h2 x s1 hx
    · simp at hl

/-! ### the whole call -/

theorem refEntries_sound {env : Env} {S : Store} {es : List (PyStr × NodeId)} : ∀ {m m' : RefMgr}, (∀ e ti, Assoc.get? m.tc e = some ti → EntrySound S e) →
    refEntries env S m es = .ok m' → ∀ e ti, Assoc.get? m'.tc e = some ti → EntrySound S e := by
  induction es with
  | nil => intro m m' h he; simp [refEntries] at he; subst he; exact h
  | cons p es ih =>
    intro m m' h he
    simp only [refEntries] at he
    cases hx : refEntry env S m p with
    | error e => rw [hx] at he; simp at he
    | ok m1 =>
      rw [hx] at he
      refine ih ?_ he
      unfold refEntry at hx
      split at hx
      · simp at hx
      · next nd hnd =>
        split at hx
        · simp at hx
        · next d hd =>
          split at hx
          · simp at hx; subst hx; exact h
          · split at hx
            · next b hb =>
              split at hx
              · simp at hx
              · next bn hbn =>
                have hs : EntrySound S p.2 := ⟨nd, hnd, fun b' h' => by rw [hb] at h'; cases h'; exact ⟨bn, hbn⟩⟩
                have hput : ∀ x, ∀ e ti, Assoc.get? (Assoc.put m.tc p.2 x) e = some ti → EntrySound S e := by
                  intro x e ti h'
                  by_cases hee : e = p.2
                  · subst hee; exact hs
                  · rw [Assoc.get?_put_ne _ _ (Ne.symm hee)] at h'
                    exact h e ti h'
                split at hx
                · split at hx
                  · simp at hx; subst hx; exact hput _
                  · simp at hx; subst hx; exact hput _
                · simp at hx
            · simp at hx

theorem refInit_sound {env : Env} {g : NodeId} {s s' : Session} {m : RefMgr} (h : refInit env g s = (.ok m, s')) :
    (∀ e ti, Assoc.get? m.tc e = some ti → EntrySound s'.store e) ∧ s'.ldr = s.ldr ∧ s'.writable = s.writable := by
  unfold refInit at h
  cases hl : s.store.links g with
  | none => rw [hl] at h; simp at h
  | some ls =>
    rw [hl] at h; simp only [] at h
    cases ht : Assoc.get? ls tableName with
    | none =>
      rw [ht] at h; simp only [] at h
      split at h
      · split at h
        · simp at h
        · simp at h; obtain ⟨rfl, rfl⟩ := h; exact ⟨by simp [Assoc.get?], rfl, rfl⟩
      · simp at h; obtain ⟨rfl, rfl⟩ := h; exact ⟨by simp [Assoc.get?], rfl, rfl⟩
    | some T =>
      rw [ht] at h; simp only [] at h
      split at h
      · simp at h
      · split at h
        · simp at h
          obtain ⟨h1, rfl⟩ := h
          exact ⟨refEntries_sound (by simp [Assoc.get?]) h1, rfl, rfl⟩
        · simp at h; obtain ⟨rfl, rfl⟩ := h; exact ⟨by simp [Assoc.get?], rfl, rfl⟩

/-- A load that returns has read everything: the file it reads (`S`: the file, with an empty types table if it
had none), and all that is below the node `data` of the group. -/
theorem loadTop_all {a : LoadArgs} {s s' : Session} {r : Heap × Addr} (hord : ∀ l, (a.order l).Perm l) (h : loadTop a s = (.ok r, s')) :
    ∃ g ls d mgr, s'.store.links g = some ls ∧ s.store.resolve 0 a.path = some g ∧ Assoc.get? ls dataName0 = some d ∧
      ReadAll ⟨a.env, mgr, s'.store, a.order⟩ d := by
  unfold loadTop at h
  rw [M.bind_of_ok (M.attempt_apply _ _)] at h
  cases he : loadTry a s with
  | mk x s1 =>
    rw [he] at h
    cases x with
    | error e => simp at h
    | ok v =>
      simp at h
      obtain ⟨rfl, rfl⟩ := h
      unfold loadTry at he
      rw [M.bind_of_ok (M.get_apply s)] at he
      cases hp : pathOk a.path with
      | error e => rw [hp] at he; simp at he
      | ok u =>
        rw [hp] at he; simp only [] at he
        cases hr : s.store.resolve 0 a.path with
        | none => rw [hr] at he; simp at he
        | some g =>
          rw [hr] at he; simp only [] at he
          cases hl : s.store.links g with
          | none => rw [hl] at he; simp at he
          | some ls0 =>
            rw [hl] at he; simp only [] at he
            cases hro : route ((s.store.attrs 0).getD []) ((s.store.attrs g).getD []) with
            | v3 => rw [hro] at he; simp at he
            | v4 => rw [hro] at he; simp at he
            | refuse e => rw [hro] at he; simp at he
            | current =>
              rw [hro] at he; simp only [] at he
              rw [M.bind_apply] at he
              cases hle : loaderEnter g none s with
              | mk x s2 =>
                rw [hle] at he
                cases x with
                | error e => simp at he
                | ok mgr =>
                  simp only [] at he
                  unfold loaderExit at he
                  rw [finally'_modify] at he
                  simp only [Prod.mk.injEq] at he
                  obtain ⟨h1, h2⟩ := he
                  rw [M.bind_apply] at h1 h2
                  cases hre : refEnter a.env g s2 with
                  | mk y s3 =>
                    rw [hre] at h1 h2
                    cases y with
                    | error e => simp at h1
                    | ok m =>
                      simp only [] at h1 h2
                      unfold refExit at h1 h2
                      rw [finally'_modify] at h1 h2
                      simp only [] at h1 h2
                      have hm : ∀ e ti, Assoc.get? m.tc e = some ti → EntrySound s3.store e := by
                        unfold refEnter at hre
                        rw [M.bind_of_ok (M.get_apply s2)] at hre
                        split at hre
                        · simp at hre
                        · rw [M.bind_apply] at hre
                          split at hre
                          · next m2 s4 hi =>
                            simp only [M.bind_apply, M.modify_apply, M.pure_apply] at hre
                            simp at hre
                            obtain ⟨rfl, rfl⟩ := hre
                            exact (refInit_sound hi).1
                          · simp at hre
                      unfold loadBodyTop at h1 h2
                      cases hlk : s3.store.links g with
                      | none => rw [hlk] at h1; simp at h1
                      | some ls =>
                        rw [hlk] at h1 h2; simp only [] at h1 h2
                        cases hd : Assoc.get? ls dataName0 with
                        | none => rw [hd] at h1; simp at h1
                        | some d =>
                          rw [hd] at h1 h2; simp only [] at h1 h2
                          have hk := loadNode_all (c := ⟨a.env, mgr, s3.store, a.order⟩) hord a.fuel (.root []) dataName0 d
                            { heap := loadHeap, tcache := m.tc, reg := s3.reg } ⟨hm, by simp [Assoc.get?]⟩
                          cases hln : loadNode ⟨a.env, mgr, s3.store, a.order⟩ a.fuel (.root []) dataName0 d { heap := loadHeap, tcache := m.tc, reg := s3.reg } with
                          | mk z s4 =>
                            rw [hln] at h1 h2 hk
                            cases z with
                            | error e => simp at h1
                            | ok cont =>
                              have hst : s1.store = s3.store := by
                                rw [← h2]; simp only []
                                repeat' split
                                all_goals rfl
                              rw [hst]
                              exact ⟨g, ls, d, mgr, hlk, rfl, hd, hk.2 cont rfl⟩

end Verif
