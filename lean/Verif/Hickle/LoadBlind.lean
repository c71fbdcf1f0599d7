import Verif.Hickle.LoadNode
import Verif.Hickle.Top
import Verif.Hickle.TopSteps
import Verif.Hickle.DumpTwins
/-!
# What a load does without looking at the loader registry

Two runs of a load with different registries: every part that does not ask the registry does the same in both.  A load asks it for the
types in the file, so the types have to be known: `FileIs`.
-/
namespace Verif

/-! ### what a load does without looking at the registry -/

/-- the states agree in everything but the registries; a condition on what is known of the types and on the two registries -/
abbrev LTwin (J : List (NodeId × TypeInfo) → Registry → Registry → Prop) (s t : LState) : Prop := t = { s with reg := t.reg } ∧ J s.tcache s.reg t.reg

section
variable {J : List (NodeId × TypeInfo) → Registry → Registry → Prop}

theorem LTwin.heap {s t : LState} (h : LTwin J s t) : t.heap = s.heap := by rw [h.1]

theorem lAlloc_two {o} : Two (LTwin J) (lAlloc o) := by
  rintro s t ⟨h1, h2⟩
  rw [h1]
  exact ⟨rfl, ⟨rfl, h2⟩, fun _ _ => trivial⟩

theorem lAllocs_two (os : List Obj) : Two (LTwin J) (lAllocs os) := by
  induction os with
  | nil => exact .pure trivial
  | cons o os ih => exact .bind lAlloc_two fun _ _ => .bind ih fun _ _ => .pure trivial

theorem Two.ofExcept' {σ α : Type} {R : σ → σ → Prop} {x : Except PyErr α} : Two R (M.ofExcept x : M σ α) := .ofExcept fun _ _ => trivial

/-- the objects made so far may be looked at -/
theorem Two.heap {β : Type} {f : LState → LM β} (g : Heap → LM β) (hg : ∀ s, f s = g s.heap) (h : ∀ hp, Two (LTwin J) (g hp)) : Two (LTwin J) (M.get >>= f) :=
  .get (fun s t hst => by rw [hg, hg, hst.heap]) fun s _ _ => by rw [hg]; exact h _

theorem construct_two {env k arg} : Two (LTwin J) (construct env k arg) := .bind .ofExcept' fun _ _ => lAlloc_two

theorem mkSeq_two {env c items} : Two (LTwin J) (mkSeq env c items) := by
  unfold mkSeq
  repeat' split
  all_goals first
    | exact lAlloc_two
    | exact construct_two
    | exact .throw _
    | exact .pure trivial

theorem mkSet_two {env c items} : Two (LTwin J) (mkSet env c items) := by
  unfold mkSet
  repeat' split
  all_goals first
    | exact lAlloc_two
    | exact construct_two
    | exact .throw _

theorem recoverData_two {d at'} : Two (LTwin J) (recoverData d at') := by
  unfold recoverData
  split
  · exact .throw _
  · exact lAlloc_two

theorem loadData_two {c fn d at' orig cls} : Two (LTwin J) (loadData c fn d at' orig cls) := by
  unfold loadData
  split
  · unfold loadScalar
    repeat' split
    all_goals first | exact .throw _ | exact lAlloc_two | exact construct_two
  · exact lAlloc_two
  · unfold loadList
    repeat' split
    all_goals first
      | exact .throw _
      | exact lAlloc_two
      | exact construct_two
      | exact .pure trivial
      | exact .bind (lAllocs_two _) fun as _ => .heap (fun hp => M.ofExcept (setOf c.env hp [] as) >>= fun items => mkSet c.env .set items) (fun _ => rfl)
          fun _ => .bind .ofExcept' fun _ _ => mkSet_two
      | exact .bind (lAllocs_two _) fun as _ => mkSeq_two
  · unfold loadNpScalar
    repeat' split
    all_goals first | exact .throw _ | exact lAlloc_two
  · unfold loadNdarray loadNumArray loadStrArray loadObjArray
    repeat' split
    all_goals first | exact .throw _ | exact lAlloc_two | exact .bind (lAllocs_two _) fun as _ => lAlloc_two
  · unfold loadPickled
    repeat' split
    all_goals first | exact .throw _ | exact lAlloc_two | exact recoverData_two
  · exact recoverData_two
  · exact .pure trivial
  all_goals exact .throw _

theorem mkCont_two {k at' orig c} : Two (LTwin J) (mkCont k at' orig c) := by
  unfold mkCont
  repeat' split
  all_goals first | exact .throw _ | exact .pure trivial

theorem contFilter_two {c cont node} : Two (LTwin J) (contFilter c cont node) := by
  unfold contFilter
  repeat' split
  all_goals first | exact .throw _ | exact .pure trivial

theorem dictAppend_two {env content name a at'} : Two (LTwin J) (dictAppend env content name a at') := by
  unfold dictAppend
  refine .bind (Q := fun _ => True) ?_ fun kbt _ => ?_
  · repeat' split
    all_goals first | exact .throw _ | exact .pure trivial
  · refine .bind .ofExcept' fun key _ => ?_
    split
    · exact .ofExcept'
    · exact .bind lAlloc_two fun k _ => .ofExcept'

theorem contAppend_two {c cont name a at'} : Two (LTwin J) (contAppend c cont name a at') := by
  unfold contAppend
  split
  · exact .pure trivial
  · exact .pure trivial
  · exact .bind .ofExcept' fun _ _ => .pure trivial
  · next cls l => exact .heap (fun hp => M.ofExcept (setAdd c.env hp l a) >>= fun l' => pure (.set cls l')) (fun _ => rfl) fun _ => .bind .ofExcept' fun _ _ => .pure trivial
  · exact .bind dictAppend_two fun _ _ => .pure trivial
  · next b at'' l =>
    exact .heap (fun hp => pure (.recover b at'' (l ++ [(name, a, if isRecovered hp a then none else some (at'.filter fun p => p.1 ≠ "type"))]))) (fun _ => rfl) fun _ => .pure trivial
  · exact .pure trivial
  · exact .bind .ofExcept' fun _ _ => .pure trivial
  · exact .pure trivial
  · exact .ofExcept'

theorem contConvert_two {c cont} : Two (LTwin J) (contConvert c cont) := by
  unfold contConvert
  split
  · split
    · exact .pure trivial
    · exact .throw _
  · split
    · exact .pure trivial
    · exact .throw _
  · exact mkSeq_two
  · exact mkSet_two
  · refine .get (fun s t h => by rw [h.heap]) fun s t h => .bind .ofExcept' fun ps _ => ?_
    split
    · exact .bind .ofExcept' fun _ _ => lAlloc_two
    · exact construct_two
    · exact .throw _
  · exact lAlloc_two
  · unfold arrConvert
    refine .get (fun s t h => by rw [h.heap]) fun s t h => ?_
    repeat' split
    all_goals first
      | exact .throw _
      | exact lAlloc_two
      | exact .bind .ofExcept' fun _ _ => lAlloc_two
      | exact .bind .ofExcept' fun _ _ => .throw _
  · unfold maskedConvert
    refine .get (fun s t h => by rw [h.heap]) fun s t h => ?_
    repeat' split
    all_goals first | exact .throw _ | exact lAlloc_two
  · unfold sparseConvert
    refine .get (fun s t h => by rw [h.heap]) fun s t h => ?_
    repeat' split
    all_goals first | exact .throw _ | exact lAlloc_two
  · exact lAlloc_two

end

/-! ### files whose types are known -/

section
variable {env : Env} {T : Cls → String → Prop} {K : Registry → Registry → Prop} {c : LCtx}

/-- the base type of a node with a type of its own (lookup.py:737-767) -/
def nodeBase (n : Node) : String :=
  match Assoc.get? n.attrs "base_type" with
  | some (.bytes b) => b
  | _ => "pickle"

/-- what is known of a type: its class and base type -/
def TiOk (T : Cls → String → Prop) : TypeInfo → Prop
  | .known c b => T c b
  | .lost _ => True

/-- all importable classes in the file and their base types are as `T` says, and no group asks for the loaders of version 4.0 -/
structure FileIs (env : Env) (T : Cls → String → Prop) (S : Store) : Prop where
  entry : ∀ n ∈ S, ∀ c, n.body = .dset (.pickleCls c) → clsImportable env c = true → Assoc.get? n.attrs "base_type" = none → T c "pickle"
  base : ∀ n ∈ S, ∀ c b, n.body = .dset (.pickleCls c) → Assoc.get? n.attrs "base_type" = some (.ref b) → ∃ bn, S[b]? = some bn ∧ (clsImportable env c = true → T c (unps bn.name))
  node : ∀ n ∈ S, ∀ c, Assoc.get? n.attrs "type" = some (.pcls c) → clsImportable env c = true → T c (nodeBase n)
  options : ∀ n ∈ S, "hickle-4.x" ∉ attrOptions n.attrs

/-- a new table without entries changes nothing -/
theorem FileIs.table {S S' : Store} {g t : NodeId} (h : FileIs env T S) (hc : S.create g tableName (.group []) = .ok (t, S')) : FileIs env T S' := by
  obtain ⟨nd, ls, h1, h2, _, _, _, rfl, hlen, h3, h4, h5⟩ := Store.create_ok hc
  have old : ∀ n ∈ S', (n = { name := tableName, body := .group [] } ∨ n = { nd with body := .group (ls ++ [(tableName, S.length)]) } ∧ nd ∈ S ∨ n ∈ S) := by
    intro n hn
    obtain ⟨i, hi⟩ := List.mem_iff_getElem?.1 hn
    by_cases e1 : i = g
    · rw [e1, h4] at hi; simp only [Option.some.injEq] at hi; exact .inr (.inl ⟨hi.symm, List.mem_of_getElem? h1⟩)
    · by_cases e2 : i = S.length
      · rw [e2, h3] at hi; simp only [Option.some.injEq] at hi; exact .inl hi.symm
      · rw [h5 i e1 e2] at hi; exact .inr (.inr (List.mem_of_getElem? hi))
  have names : ∀ (b : NodeId) (bn : Node), S[b]? = some bn → ∃ bn', S'[b]? = some bn' ∧ bn'.name = bn.name := by
    intro b bn hb
    by_cases e1 : b = g
    · subst e1
      rw [h1] at hb; simp only [Option.some.injEq] at hb; subst hb
      exact ⟨_, h4, rfl⟩
    · refine ⟨bn, ?_, rfl⟩
      rw [h5 b e1 ?_]; exact hb
      intro e; rw [e, List.getElem?_eq_none (Nat.le_refl _)] at hb; simp at hb
  refine ⟨fun n hn c hb hi hnone => ?_, fun n hn c b hb hr => ?_, fun n hn c ht hi => ?_, fun n hn => ?_⟩
  · rcases old n hn with rfl | ⟨rfl, _⟩ | hn
    · simp at hb
    · simp at hb
    · exact h.entry n hn c hb hi hnone
  · rcases old n hn with rfl | ⟨rfl, _⟩ | hn
    · simp at hb
    · simp at hb
    · obtain ⟨bn, e, hk⟩ := h.base n hn c b hb hr
      obtain ⟨bn', e', hname⟩ := names b bn e
      exact ⟨bn', e', by rw [hname]; exact hk⟩
  · rcases old n hn with rfl | ⟨rfl, hm⟩ | hn
    · simp at ht
    · exact h.node nd hm c ht hi
    · exact h.node n hn c ht hi
  · rcases old n hn with rfl | ⟨rfl, hm⟩ | hn
    · simp [attrOptions, attrItems]
    · exact h.options nd hm
    · exact h.options n hn

/-- what is known after an existing table has been read -/
theorem refEntries_types {S : Store} (hS : FileIs env T S) : ∀ (es : List (PyStr × NodeId)) (m0 m : RefMgr), (∀ p ∈ m0.tc, TiOk T p.2) →
    refEntries env S m0 es = .ok m → ∀ p ∈ m.tc, TiOk T p.2 := by
  intro es
  induction es with
  | nil => intro m0 m h0 h; simp [refEntries] at h; rw [← h]; exact h0
  | cons p es ih =>
    intro m0 m h0 h
    simp only [refEntries] at h
    cases he : refEntry env S m0 p with
    | error e => rw [he] at h; simp at h
    | ok m1 =>
      rw [he] at h
      refine ih m1 m ?_ h
      unfold refEntry at he
      cases hn : S[p.2]? with
      | none => rw [hn] at he; simp at he
      | some nd =>
        rw [hn] at he
        simp only [] at he
        have hmem := List.mem_of_getElem? hn
        cases hb : nd.body with
        | group ls => rw [hb] at he; simp at he
        | dset d =>
          rw [hb] at he
          simp only [] at he
          split at he
          · simp only [Except.ok.injEq] at he; subst he; exact h0
          · cases hr : Assoc.get? nd.attrs "base_type" with
            | none => rw [hr] at he; simp at he
            | some v =>
              rw [hr] at he
              cases v with
              | ref b =>
                simp only [] at he
                cases hbn : S[b]? with
                | none => rw [hbn] at he; simp at he
                | some bn =>
                  rw [hbn] at he
                  simp only [] at he
                  cases d with
                  | pickleCls c =>
                    simp only [] at he
                    split at he
                    · next hi =>
                      simp only [Except.ok.injEq] at he; subst he
                      intro q hq
                      rcases List.mem_cons.1 hq with rfl | hq
                      · obtain ⟨bn', e, hk⟩ := hS.base nd hmem c b hb hr
                        rw [hbn] at e; simp only [Option.some.injEq] at e; subst e
                        exact hk hi
                      · exact h0 q hq
                    · simp only [Except.ok.injEq] at he; subst he
                      intro q hq
                      rcases List.mem_cons.1 hq with rfl | hq
                      · trivial
                      · exact h0 q hq
                  | _ => simp at he
              | _ => simp at he

theorem refInit_types {g : NodeId} (s : Session) (h : FileIs env T s.store) :
    FileIs env T (refInit env g s).2.store ∧ ∀ m, (refInit env g s).1 = .ok m → ∀ p ∈ m.tc, TiOk T p.2 := by
  unfold refInit
  cases s.store.links g with
  | none => exact ⟨h, by simp⟩
  | some ls =>
    simp only []
    cases Assoc.get? ls tableName with
    | none =>
      simp only []
      split
      · cases hc : s.store.create g tableName (.group []) with
        | error e => exact ⟨h, by simp⟩
        | ok y => exact ⟨h.table hc, fun m hm => by simp only [Except.ok.injEq] at hm; subst hm; simp⟩
      · exact ⟨h, fun m hm => by simp only [Except.ok.injEq] at hm; subst hm; simp⟩
    | some T =>
      simp only []
      cases s.store.links T with
      | none => exact ⟨h, by simp⟩
      | some es =>
        simp only []
        split
        · exact ⟨h, fun m hm => refEntries_types h es _ m (by simp) hm⟩
        · exact ⟨h, fun m hm => by simp only [Except.ok.injEq] at hm; subst hm; simp⟩

/-- what `resolve_type` finds -/
def ROk (T : Cls → String → Prop) (r : Resolved) : Prop := T r.cls r.base ∨ (r.cls = .recover ∧ r.base = "!recover!")

/-- what a step may use of two states -/
def LJ (T : Cls → String → Prop) (K : Registry → Registry → Prop) (tc : List (NodeId × TypeInfo)) (ra rb : Registry) : Prop := (∀ p ∈ tc, TiOk T p.2) ∧ K ra rb

theorem resolveEntry_two (hS : FileIs c.env T c.store) {e : NodeId} :
    Two (LTwin (LJ T K)) (resolveEntry c e) (TiOk T) := by
  unfold resolveEntry
  cases he : c.store[e]? with
  | none => exact .throw _
  | some entry =>
    simp only []
    refine .get (fun s t h => by rw [show t.tcache = s.tcache by rw [h.1]]) fun s t h => ?_
    cases hg : Assoc.get? s.tcache e with
    | some ti => exact .pure (h.2.1 _ (Assoc.get?_mem hg))
    | none =>
      simp only []
      have hmem := List.mem_of_getElem? he
      refine .bind (Q := fun b => ∀ cls, entry.body = .dset (.pickleCls cls) → clsImportable c.env cls = true → T cls b) ?_ fun b hb => ?_
      · cases hr : Assoc.get? entry.attrs "base_type" with
        | none => exact .pure fun cls h1 h2 => hS.entry entry hmem cls h1 h2 hr
        | some v =>
          cases v with
          | ref b =>
            simp only []
            cases hbn : c.store[b]? with
            | none => exact .throw _
            | some bn =>
              refine .pure fun cls h1 h2 => ?_
              obtain ⟨bn', e', hk⟩ := hS.base entry hmem cls b h1 hr
              rw [hbn] at e'; simp only [Option.some.injEq] at e'; subst e'
              exact hk h2
          | _ => exact .throw _
      · refine .bind (Q := TiOk T) ?_ fun ti hti => ?_
        · cases hbody : entry.body with
          | group ls => exact .throw _
          | dset d =>
            cases d with
            | pickleCls cls =>
              simp only []
              split
              · next hi => exact .pure (hb cls hbody hi)
              · exact .pure trivial
            | _ => exact .throw _
        · refine .bind (Q := fun _ => True) (.modify (fun s t h => ?_) trivial) fun _ _ => .pure hti
          refine ⟨by rw [h.1], ?_, h.2.2⟩
          intro p hp
          rcases List.mem_cons.1 hp with rfl | hp
          · exact hti
          · exact h.2.1 p hp

theorem resolveType_two (h1 : T .object "pickle") (h2 : T .nodeRef "!node-reference!") (hS : FileIs c.env T c.store) {node : Node} (hn : node ∈ c.store) :
    Two (LTwin (LJ T K)) (resolveType c node) (ROk T) := by
  have hrec : ∀ {o b}, ROk T ⟨.recover, "!recover!", o, b⟩ := .inr ⟨rfl, rfl⟩
  unfold resolveType
  cases ht : Assoc.get? node.attrs "type" with
  | none =>
    simp only []
    cases node.body with
    | group ls => exact .throw _
    | dset d =>
      cases d with
      | ref t => exact .pure (.inl h2)
      | nullRef => exact .pure (.inl h2)
      | _ => exact .pure (.inl h1)
  | some v =>
    cases v with
    | ref e =>
      refine .bind (resolveEntry_two hS) fun ti hti => ?_
      cases ti with
      | known cls b => exact .pure (.inl hti)
      | lost b => exact .pure hrec
    | pcls cls =>
      simp only []
      split
      · next hi =>
        exact .pure (.inl (hS.node node hn cls ht hi))
      · exact .pure hrec
    | _ => exact .throw _

end

end Verif
