import Verif.Hickle.WarnLoad
import Verif.Hickle.LoadBlind
/-!
# What the warnings of `load` name
-/
namespace Verif.Warnings

/-- the loader an entry of the types table names: the target of its attribute `base_type` -/
def entryLoader (S : Store) (e : NodeId) : Option String :=
  match S[e]? with
  | none => none
  | some entry => match Assoc.get? entry.attrs "base_type" with
    | some (.ref b) => (S[b]?).map fun bn => unps bn.name
    | none => some "pickle"
    | _ => none

/-- the entry of the types table the attribute `type` of a node refers to -/
def entryOf (nd : Node) : Option NodeId :=
  match Assoc.get? nd.attrs "type" with
  | some (.ref e) => some e
  | _ => none

/-- the warning is about a node of the file; if that is a dataset with an entry in the types table it names the loader of the entry -/
def Apt (S : Store) (w : Warn) : Prop :=
  ∃ nd ∈ S, ∃ loader, w = .recovered loader nd.name ∧ (nd.isGroup = false → ∀ e, entryOf nd = some e → entryLoader S e = some loader)

/-- the base type -/
def base : TypeInfo → String
  | .known _ b => b
  | .lost b => b

/-- what is known of the entries is what they say -/
def Cached (S : Store) (tc : List (NodeId × TypeInfo)) : Prop := ∀ p ∈ tc, entryLoader S p.1 = some (base p.2)

theorem keeps_of_two {α : Type} {C : List (NodeId × TypeInfo) → Prop} {x : LM α} {Q : α → Prop} (h : Two (LTwin fun tc _ _ => C tc) x Q) :
    Keeps (fun s : LState => C s.tcache) x Q := by
  intro s hs
  obtain ⟨_, h2, h3⟩ := h s s ⟨rfl, hs⟩
  exact ⟨h2.2, h3⟩

/-- the state of a load: the types known so far and the warnings given so far -/
def Good (S : Store) (s : LState × List Warn) : Prop := Cached S s.1.tcache ∧ ∀ w ∈ s.2, Apt S w

theorem quiet_good {α : Type} {S : Store} {x : LM α} {Q : α → Prop} (h : Keeps (fun s : LState => Cached S s.tcache) x Q) : Keeps (Good S) (quiet x) Q :=
  fun s hs => ⟨⟨(h s.1 hs.1).1, hs.2⟩, (h s.1 hs.1).2⟩

theorem warn_good {S : Store} {w : Warn} (h : Apt S w) : Keeps (Good S) (warn w) :=
  fun s hs => ⟨⟨hs.1, fun v hv => by
    simp only [warn, List.mem_append, List.mem_singleton] at hv
    rcases hv with hv | rfl
    · exact hs.2 v hv
    · exact h⟩, fun _ _ => trivial⟩

theorem resolveEntry_good {c : LCtx} {e : NodeId} :
    Keeps (fun s : LState => Cached c.store s.tcache) (resolveEntry c e) fun ti => entryLoader c.store e = some (base ti) := by
  unfold resolveEntry
  cases he : c.store[e]? with
  | none => exact .throw _
  | some entry =>
    refine .bind .get fun s hs => ?_
    cases hc : Assoc.get? s.tcache e with
    | some ti => exact .pure (hs _ (Assoc.get?_mem hc))
    | none =>
      refine .bind (Q := fun b => entryLoader c.store e = some b) ?_ fun b hb => .bind (Q := fun ti => base ti = b) ?_ fun ti hti =>
        .bind (Q := fun _ => True) (.modify ?_ trivial) fun _ _ => .pure (by rw [hb, hti])
      · simp only [entryLoader, he]
        cases Assoc.get? entry.attrs "base_type" with
        | none => exact .pure rfl
        | some v =>
          cases v with
          | ref b =>
            cases hb : c.store[b]? with
            | none => simp only [hb]; exact .throw _
            | some bn => simp only [hb]; exact .pure rfl
          | _ => exact .throw _
      · split
        · refine .pure ?_
          split <;> rfl
        · exact .throw _
      · intro s hs p hp
        simp only [Assoc.put, List.mem_cons] at hp
        rcases hp with rfl | hp
        · rw [hb, hti]
        · exact hs p hp

theorem resolveType_good {c : LCtx} {node : Node} :
    Keeps (fun s : LState => Cached c.store s.tcache) (resolveType c node) fun r => ∀ e, entryOf node = some e → entryLoader c.store e = some r.orig := by
  unfold resolveType entryOf
  cases Assoc.get? node.attrs "type" with
  | none =>
    dsimp only
    repeat' split
    all_goals first | exact .pure (by simp) | exact .throw _
  | some v =>
    cases v with
    | ref e =>
      refine .bind resolveEntry_good fun ti hti => ?_
      cases ti with
      | known cls b => exact .pure fun e' he' => by cases he'; exact hti
      | lost b => exact .pure fun e' he' => by cases he'; exact hti
    | pcls cls =>
      dsimp only
      split <;> exact .pure (by simp)
    | _ => exact .throw _

theorem loadBodyW_good (c : LCtx) {recW : Cont → PyStr → NodeId → WM LState Cont} (hr : ∀ k x n, Keeps (Good c.store) (recW k x n)) {node : Node} {r cls}
    (hn : node ∈ c.store) (ho : ∀ e, entryOf node = some e → entryLoader c.store e = some r.orig) (hg : r.isCont = false ∨ node.isGroup = true ∨ entryOf node = none) :
    Keeps (Good c.store) (loadBodyW c recW node r cls) := by
  unfold loadBodyW
  refine .bind (quiet_good .get) fun s _ => ?_
  split
  · next hc =>
    refine .bind (Q := fun _ => True) (quiet_good (keeps_of_two mkCont_two)) fun sub _ => .bind (Q := fun _ => True) ?_ fun _ _ =>
      .bind (Q := fun _ => True) (quiet_good (keeps_of_two contFilter_two)) fun items _ =>
      .bind (Q := fun _ => True) (.foldEach trivial items fun b _ p _ => hr b p.1 p.2) fun y _ => quiet_good (keeps_of_two contConvert_two)
    unfold warnFilter
    split
    · refine warn_good ⟨node, hn, _, rfl, fun h1 e he => ?_⟩
      rcases hg with h | h | h
      · rw [hc] at h; simp at h
      · rw [h] at h1; simp at h1
      · rw [h] at he; simp at he
    · exact .pure trivial
  · split
    · refine .bind (Q := fun _ => True) ?_ fun _ _ => quiet_good (keeps_of_two loadData_two)
      unfold warnData
      split
      · exact warn_good ⟨node, hn, _, rfl, fun _ => ho⟩
      · exact .pure trivial
    · exact .throw _

/-- a node is loaded as a container if it is a group or has no type at all -/
theorem resolveType_kind {c : LCtx} {node : Node} :
    Keeps (fun s : LState => Cached c.store s.tcache) (resolveType c node) fun r => r.isCont = false ∨ node.isGroup = true ∨ entryOf node = none := by
  unfold resolveType entryOf
  cases Assoc.get? node.attrs "type" with
  | none =>
    dsimp only
    repeat' split
    all_goals first | exact .pure (by simp) | exact .throw _
  | some v =>
    cases v with
    | ref e =>
      refine .bind resolveEntry_good fun ti hti => ?_
      cases ti <;> refine .pure ?_ <;> (simp only [reduceCtorEq, or_false]; cases node.isGroup <;> simp)
    | pcls cls =>
      dsimp only
      split <;> exact .pure (by simp)
    | _ => exact .throw _

theorem loadNodeW_good (c : LCtx) : ∀ fuel cont name n, Keeps (Good c.store) (loadNodeW c fuel cont name n)
  | 0, _, _, _ => .throw _
  | fuel + 1, cont, name, n => by
    rw [loadNodeW]
    cases hn : c.store[n]? with
    | none => exact .throw _
    | some node =>
      refine .bind (quiet_good .get) fun s _ => ?_
      cases Assoc.get? s.memo n with
      | some a => exact quiet_good (keeps_of_two contAppend_two)
      | none =>
        refine .bind (Q := fun _ => True) ?_ fun r _ => quiet_good ?_
        · exact .bind (quiet_good fun s hs => ⟨(resolveType_good s hs).1, fun r hr => And.intro ((resolveType_good s hs).2 r hr) ((resolveType_kind s hs).2 r hr)⟩) fun r hr =>
            .bind (Q := fun _ => True) (quiet_good fun s hs => ⟨hs, fun _ _ => trivial⟩) fun ce _ =>
            .bind (Q := fun _ => True) (loadBodyW_good c (loadNodeW_good c fuel) (List.mem_of_getElem? hn) hr.1 hr.2) fun a _ => .pure trivial
        · unfold loadFinish
          refine .bind (Q := fun _ => True) (keeps_of_two contAppend_two) fun x _ => ?_
          split
          · exact .bind (Q := fun _ => True) (.modify (fun s hs => hs) trivial) fun _ _ => .pure trivial
          · exact .pure trivial

/-! ### the call -/

theorem refEntries_cached {env : Env} {S : Store} : ∀ (es : List (PyStr × NodeId)) (m0 m : RefMgr), Cached S m0.tc → refEntries env S m0 es = .ok m → Cached S m.tc
  | [], m0, m, h0, h => by simp [refEntries] at h; rw [← h]; exact h0
  | p :: es, m0, m, h0, h => by
    simp only [refEntries] at h
    cases he : refEntry env S m0 p with
    | error e => rw [he] at h; simp at h
    | ok m1 =>
      rw [he] at h
      refine refEntries_cached es m1 m ?_ h
      unfold refEntry at he
      cases hn : S[p.2]? with
      | none => rw [hn] at he; simp at he
      | some nd =>
        rw [hn] at he
        simp only [] at he
        cases hb : nd.body with
        | group ls => rw [hb] at he; simp at he
        | dset d =>
          rw [hb] at he
          simp only [] at he
          split at he
          · simp only [Except.ok.injEq] at he; subst he; exact h0
          · cases hr : Assoc.get? nd.attrs "base_type" with
            | none => rw [hr] at he; simp at he
            | some v =>
              rw [hr] at he
              cases v with
              | ref b =>
                simp only [] at he
                cases hbn : S[b]? with
                | none => rw [hbn] at he; simp at he
                | some bn =>
                  rw [hbn] at he
                  have hl : entryLoader S p.2 = some (unps bn.name) := by simp [entryLoader, hn, hr, hbn]
                  cases d with
                  | pickleCls cls =>
                    simp only [] at he
                    split at he
                    all_goals
                      simp only [Except.ok.injEq] at he
                      subst he
                      intro q hq
                      simp only [Assoc.put, List.mem_cons] at hq
                      rcases hq with rfl | hq
                      · exact hl
                      · exact h0 q hq
                  | _ => simp at he
              | _ => simp at he

theorem refEnter_cached {env : Env} {g : NodeId} {s s' : Session} {m : RefMgr} (h : refEnter env g s = (.ok m, s')) : Cached s'.store m.tc := by
  unfold refEnter at h
  rw [M.bind_apply] at h
  simp only [M.get] at h
  split at h
  · simp at h
  · rw [M.bind_apply] at h
    cases hr : refInit env g s with
    | mk r s1 =>
      rw [hr] at h
      cases r with
      | error e => simp at h
      | ok m' =>
        simp only [M.bind_apply, M.modify, M.pure_apply, Prod.mk.injEq, Except.ok.injEq] at h
        obtain ⟨rfl, rfl⟩ := h
        unfold refInit at hr
        have nil : ∀ S : Store, Cached S [] := fun S p hp => by simp at hp
        repeat' split at hr
        all_goals simp only [Prod.mk.injEq, Except.ok.injEq, reduceCtorEq, false_and] at hr
        all_goals obtain ⟨h1, rfl⟩ := hr
        all_goals first
          | (subst h1; exact nil _)
          | exact refEntries_cached _ _ _ (nil _) h1

/-- the warnings are apt for the file as it is afterwards -/
def NamesAt {α : Type} (x : WM Session α) (s : Session) : Prop := ∀ w ∈ (x (s, [])).2.2, Apt (x (s, [])).2.1.store w

namespace NamesAt
variable {α β : Type}

theorem throw (e : PyErr) (s : Session) : NamesAt (M.throw e : WM Session α) s := fun w hw => by simp at hw

theorem bind {x : M Session β} {f : β → WM Session α} {s : Session} (hf : ∀ a s', x s = (.ok a, s') → NamesAt (f a) s') : NamesAt (quiet x >>= f) s := by
  intro w hw
  have hq : quiet x (s, []) = ((x s).1, ((x s).2, [])) := rfl
  rw [M.bind_apply, hq] at hw ⊢
  cases hr : (x s).1 with
  | ok a => simp only [hr] at hw ⊢; exact hf a _ (by rw [← hr]) w hw
  | error e => simp [hr] at hw

theorem «finally» {x : WM Session α} {fin : SM Unit} {s : Session} (hx : NamesAt x s) (h1 : ∀ t, (fin t).2.store = t.store) :
    NamesAt (finally' x (quiet fin)) s := by
  have hs : (finally' x (quiet fin) (s, [])).2 = ((fin (x (s, [])).2.1).2, (x (s, [])).2.2) := by
    unfold finally'
    simp only [M.bind_apply, M.attempt, quiet]
    cases (fin (x (s, [])).2.1).1 <;> rfl
  intro w hw
  rw [hs] at hw ⊢
  show Apt (fin (x (s, [])).2.1).2.store w
  rw [h1]
  exact hx w hw

end NamesAt

theorem loadBodyTopW_names (a : LoadArgs) (g mgr m) {s : Session} (hm : Cached s.store m.tc) : NamesAt (loadBodyTopW a g mgr m) s := by
  intro w hw
  unfold loadBodyTopW at hw ⊢
  cases hl : s.store.links g with
  | none => simp [hl] at hw
  | some ls =>
    simp only [hl] at hw ⊢
    cases hd : Assoc.get? ls dataName0 with
    | none => simp [hd] at hw
    | some d =>
      simp only [hd] at hw ⊢
      obtain ⟨⟨_, h1⟩, _⟩ := loadNodeW_good ⟨a.env, mgr, s.store, a.order⟩ a.fuel (.root []) dataName0 d
        ({ heap := loadHeap, tcache := m.tc, reg := s.reg }, []) ⟨hm, fun w hw => by simp at hw⟩
      generalize loadNodeW ⟨a.env, mgr, s.store, a.order⟩ a.fuel (.root []) dataName0 d ({ heap := loadHeap, tcache := m.tc, reg := s.reg }, []) = r at hw h1 ⊢
      obtain ⟨r, s', l'⟩ := r
      have h1 : ∀ w ∈ l', Apt s.store w := h1
      cases r with
      | error e => exact h1 w hw
      | ok k =>
        cases k with
        | root xs => cases xs <;> exact h1 w hw
        | _ => exact h1 w hw

theorem loadW_names (a : LoadArgs) (s : Session) : NamesAt (loadW a) s := by
  have ht : NamesAt (loadTryW a) s := by
    unfold loadTryW
    refine .bind fun s0 s' _ => ?_
    repeat' split
    all_goals first | exact .throw _ _ | skip
    exact .bind fun mgr s1 _ => .finally (.bind fun m s2 hm => .finally (loadBodyTopW_names a _ _ _ (refEnter_cached hm)) fun t => rfl) fun t => rfl
  have hs : (loadW a (s, [])).2 = (loadTryW a (s, [])).2 := by
    unfold loadW
    simp only [M.bind_apply, M.attempt]
    cases (loadTryW a (s, [])).1 <;> rfl
  intro w hw
  rw [hs] at hw ⊢
  exact ht w hw

end Verif.Warnings
