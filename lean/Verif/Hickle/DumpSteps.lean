import Verif.Py.Hoare
import Verif.H5.Tree
import Verif.Hickle.DumpInv
/-!
# What a dump does to the file, whether it succeeds or fails

`Grow`: nodes are only added, below the target group (as its member `nm`), below the types table
and below new nodes; only attributes and contents of new nodes change.
-/
namespace Verif

/-- changes a dump below group `g` may make to a file that had `N` nodes -/
inductive Grow (N : Nat) (g T : NodeId) (nm : PyStr) (S : Store) : Store → Prop
  | refl : Grow N g T nm S S
  | create {S1 S2 p name body n} : Grow N g T nm S S1 → Store.create S1 p name body = .ok (n, S2) → body.fresh = true →
      (p = g ∧ name = nm) ∨ p = T ∨ N ≤ p → Grow N g T nm S S2
  | attr {S1 n k v} : Grow N g T nm S S1 → N ≤ n → Grow N g T nm S (Store.setAttr S1 n k v)
  | write {S1 n d} : Grow N g T nm S S1 → N ≤ n → Grow N g T nm S (Store.write S1 n d)

namespace Grow
variable {N : Nat} {g T : NodeId} {nm : PyStr} {S S' : Store}

theorem length (h : Grow N g T nm S S') : S.length ≤ S'.length := by
  induction h with
  | refl => exact Nat.le_refl _
  | create _ hc _ _ ih =>
    obtain ⟨_, _, _, _, _, _, _, _, e, _⟩ := Store.create_ok hc
    omega
  | attr _ _ ih => rw [Store.length_setAttr]; exact ih
  | write _ _ ih => rw [Store.length_write]; exact ih

theorem tree (h : Grow N g T nm S S') (ht : Tree S) : Tree S' := by
  induction h with
  | refl => exact ht
  | create _ hc hf _ ih => exact ih.create hf hc
  | attr _ _ ih => exact ih.setAttr
  | write _ _ ih => exact ih.write

/-- nodes that were there before: only the target group and the types table may gain links -/
theorem old (h : Grow N g T nm S S') (hN : N = S.length) : ∀ (n : NodeId) (nd : Node), S[n]? = some nd →
    ∃ nd', S'[n]? = some nd' ∧ NodeLe nd nd' ∧ (n ≠ g → n ≠ T → nd' = nd) := by
  induction h with
  | refl => exact fun n nd h => ⟨nd, h, NodeLe.refl _, fun _ _ => rfl⟩
  | @create S1 S2 p name body m hg hc hf hp ih =>
    intro n nd hn
    obtain ⟨nd1, h1, h2, h3⟩ := ih n nd hn
    obtain ⟨nd2, h4, h5⟩ := SExt.create hc n nd1 h1
    refine ⟨nd2, h4, h2.trans h5, fun k1 k2 => ?_⟩
    obtain ⟨pd, ls, e1, e2, _, _, _, e3, _, e5, e6, e7⟩ := Store.create_ok hc
    have hlt := lt_of_getElem? hn
    have hlt1 := lt_of_getElem? h1
    have : n ≠ p := by rcases hp with ⟨hp, _⟩ | hp | hp <;> omega
    rw [e7 n this (by omega), h1] at h4
    simp at h4; subst h4; exact h3 k1 k2
  | @attr S1 m k v hg hm ih =>
    intro n nd hn
    obtain ⟨nd1, h1, h2, h3⟩ := ih n nd hn
    have hlt := lt_of_getElem? hn
    exact ⟨nd1, by rw [Store.getElem?_setAttr_ne (by omega)]; exact h1, h2, h3⟩
  | @write S1 m d hg hm ih =>
    intro n nd hn
    obtain ⟨nd1, h1, h2, h3⟩ := ih n nd hn
    have hlt := lt_of_getElem? hn
    exact ⟨nd1, by rw [Store.getElem?_write_ne (by omega)]; exact h1, h2, h3⟩

theorem ext (h : Grow N g T nm S S') (hN : N = S.length) : SExt S S' := fun n nd hn => by
  obtain ⟨nd', h1, h2, _⟩ := h.old hN n nd hn
  exact ⟨nd', h1, h2⟩

/-- every link of the file was there before, or leads from one of the growing places to a new node -/
theorem links (h : Grow N g T nm S S') (hN : N ≤ S.length) : ∀ (p : NodeId) (ls : List (PyStr × NodeId)), S'.links p = some ls → ∀ e ∈ ls,
    (∃ ls0, S.links p = some ls0 ∧ e ∈ ls0) ∨ (N ≤ e.2 ∧ ((p = g ∧ e.1 = nm) ∨ p = T ∨ N ≤ p)) := by
  induction h with
  | refl => exact fun p ls h e he => .inl ⟨ls, h, he⟩
  | @create S1 S2 q name body m hg hc hf hq ih =>
    intro p ls hl e he
    obtain ⟨ls1, h1, h2, h3, h4, h5, h6⟩ := Store.create_links hf hc
    have hlen := hg.length
    by_cases hpq : p = q
    · subst hpq
      rw [h2] at hl; simp at hl; subst hl
      rcases List.mem_append.1 he with he | he
      · exact ih p ls1 h1 e he
      · simp at he; subst he
        exact .inr ⟨by simp only; omega, hq⟩
    · by_cases hpm : p = m
      · subst hpm
        rw [h5 ls hl] at he; simp at he
      · rw [h6 p hpq hpm] at hl
        exact ih p ls hl e he
  | @attr S1 m k v hg hm ih =>
    intro p ls hl
    rw [Store.links_setAttr] at hl
    exact ih p ls hl
  | @write S1 m d hg hm ih =>
    intro p ls hl
    rw [Store.links_write] at hl
    exact ih p ls hl

theorem trans {S'' : Store} (h : Grow N g T nm S S') (h' : Grow N g T nm S' S'') : Grow N g T nm S S'' := by
  induction h' with
  | refl => exact h
  | create _ hc hf hp ih => exact ih.create hc hf hp
  | attr _ hm ih => exact ih.attr hm
  | write _ hm ih => exact ih.write hm

end Grow

/-- the registry invariant survives `load_loader` for every class: user classes considered are not
dummy classes of loader modules -/
def ProtOk (P : Nat → Prop) (env : Env) : Prop := ∀ k, P k → ∃ p, (env.u k).origin = .pkg p

variable {P : Nat → Prop}

theorem RegInv.putDummy {m : Manager} {r : Registry} {k : Cls} {e : Entry} (h : RegInv P r) (hk : ¬ Protected P k) :
    RegInv P (Verif.putDummy m k e r).2 ∧ (Verif.putDummy m k e r).2.loaded = r.loaded := by
  have hne : ∀ c, Protected P c → k ≠ c := fun c hc' e => hk (e ▸ hc')
  unfold Verif.putDummy
  rw [M.bind_of_ok (M.get_apply r)]
  cases m.maps with
  | nil => exact ⟨h, rfl⟩
  | cons o tl =>
    simp only []
    cases o with
    | none =>
      refine ⟨⟨fun c hcp => ?_, h.fns, h.conts, h.ctypes, h.cfns, h.cconts, h.ltypes⟩, rfl⟩
      exact (Assoc.get?_put_ne _ _ (hne c hcp)).trans (h.types c hcp)
    | some o =>
      simp only [Registry.tables, Registry.setTables]
      by_cases h1 : o = "hickle-4.x"
      · simp only [h1, if_true, M.modify_apply]
        exact ⟨⟨h.types, h.fns, h.conts, h.ctypes, h.cfns, h.cconts, fun c hcp => (Assoc.get?_put_ne _ _ (hne c hcp)).trans (h.ltypes c hcp)⟩, trivial⟩
      · by_cases h2 : o = "custom"
        · simp only [h2, if_true, String.reduceEq, if_false, M.modify_apply]
          refine ⟨⟨h.types, h.fns, h.conts, fun c hcp => ?_, h.cfns, h.cconts, h.ltypes⟩, trivial⟩
          exact (Assoc.get?_put_ne _ _ (hne c hcp)).trans (h.ctypes c hcp)
        · simp only [h1, h2, if_false]
          exact ⟨h, rfl⟩

theorem loadLoaderAux_keeps {env : Env} {m : Manager} (hE : EnvOk P env) (hP : ProtOk P env) (c : Cls) (base : Option String) (ks : List Cls) :
    Keeps (RegInv P) (loadLoaderAux env m c base ks) := by
  induction ks with
  | nil => exact .pure trivial
  | cons k ks ih =>
    intro r hr
    simp only [loadLoaderAux]
    rw [M.bind_of_ok (M.get_apply r)]
    cases hte : m.typeEntry r k with
    | some e => exact ⟨hr, fun _ _ => trivial⟩
    | none =>
      simp only []
      cases ho : k.origin env.u with
      | core =>
        simp only []
        cases base with
        | none => exact ⟨hr, fun _ _ => trivial⟩
        | some b =>
          simp only []
          split <;> exact ⟨hr, fun _ _ => trivial⟩
      | dummy l =>
        simp only []
        have hnp : ¬ Protected P k := by
          intro hp
          cases k <;> simp [Cls.origin] at ho
          obtain ⟨p, hp'⟩ := hP _ hp
          rw [hp'] at ho; simp at ho
        obtain ⟨h1, h2⟩ := hr.putDummy (m := m) (e := ⟨.notDumpable, "NotHicklable", false⟩) hnp
        have hok : ∃ s1, putDummy m k ⟨.notDumpable, "NotHicklable", false⟩ r = (.ok (), s1) := by
          unfold putDummy
          rw [M.bind_of_ok (M.get_apply r)]
          cases hmm : m.maps with
          | nil => exact ⟨_, rfl⟩
          | cons o tl =>
            simp only []
            cases r.tables o <;> exact ⟨_, rfl⟩
        obtain ⟨s1, hs1⟩ := hok
        rw [M.bind_of_ok hs1]
        rw [hs1] at h1 h2
        simp only at h1 h2
        split
        · exact ⟨h1, fun _ _ => trivial⟩
        · next hl =>
          cases hlm : env.loaderMod l with
          | none => exact ih s1 h1
          | some lm =>
            simp only []
            obtain ⟨r2, e2, i2, _⟩ := loadMod_spec hE h1 (by rw [h2]; simpa using hl) hlm
            rw [M.bind_of_ok e2, M.bind_of_ok (M.get_apply r2)]
            cases m.typeEntry r2 k with
            | some e => exact ⟨i2, fun _ _ => trivial⟩
            | none => exact ih r2 i2
      | pkg p =>
        simp only []
        split
        · exact ih r hr
        · next hl =>
          cases hlm : env.loaderMod p with
          | none => exact ih r hr
          | some lm =>
            simp only []
            obtain ⟨r2, e2, i2, _⟩ := loadMod_spec hE hr (by simpa using hl) hlm
            rw [M.bind_of_ok e2, M.bind_of_ok (M.get_apply r2)]
            cases m.typeEntry r2 k with
            | some e => exact ⟨i2, fun _ _ => trivial⟩
            | none => exact ih r2 i2

/-! ### every step of a dump -/

/-- what holds throughout a dump, until it returns or raises -/
structure Going (P : Nat → Prop) (N : Nat) (g T : NodeId) (nm : PyStr) (S : Store) (H : Heap) (s : DState) : Prop where
  grow : Grow N g T nm S s.store
  len : N ≤ s.store.length
  reg : RegInv P s.reg
  heap : H <+: s.heap

section
variable {N : Nat} {g T : NodeId} {nm : PyStr} {S : Store} {H : Heap}

/-- where a dump may create nodes -/
def Place (N : Nat) (g T : NodeId) (nm : PyStr) (p : NodeId) (name : PyStr) : Prop := (p = g ∧ name = nm) ∨ p = T ∨ N ≤ p

theorem mkDset_keeps {kw p name d} (hp : Place N g T nm p name) : Keeps (Going P N g T nm S H) (mkDset kw p name d) (N ≤ ·) := by
  intro s hs
  unfold mkDset
  split
  · exact ⟨hs, by simp⟩
  · split
    · exact ⟨hs, by simp⟩
    · next n st hc =>
      obtain ⟨_, _, _, _, _, _, _, e1, e2, _⟩ := Store.create_ok hc
      have := hs.len
      refine ⟨⟨hs.grow.create hc rfl hp, by simp only; omega, hs.reg, hs.heap⟩, ?_⟩
      intro a ha; simp at ha; omega

theorem mkGroup_keeps {p name} (hp : Place N g T nm p name) : Keeps (Going P N g T nm S H) (mkGroup p name) (N ≤ ·) := by
  intro s hs
  unfold mkGroup
  split
  · exact ⟨hs, by simp⟩
  · next n st hc =>
    obtain ⟨_, _, _, _, _, _, _, e1, e2, _⟩ := Store.create_ok hc
    have := hs.len
    refine ⟨⟨hs.grow.create hc rfl hp, by simp only; omega, hs.reg, hs.heap⟩, ?_⟩
    intro a ha; simp at ha; omega

theorem setAttr_keeps {n k v} (hn : N ≤ n) : Keeps (Going P N g T nm S H) (setAttr n k v) :=
  .modify (fun s hs => ⟨hs.grow.attr hn, by simpa using hs.len, hs.reg, hs.heap⟩) trivial

theorem write_keeps {n d} (hn : N ≤ n) : Keeps (Going P N g T nm S H) (M.modify fun s => { s with store := s.store.write n d }) :=
  .modify (fun s hs => ⟨hs.grow.write hn, by simpa using hs.len, hs.reg, hs.heap⟩) trivial

theorem setAttrs_keeps {n attrs} (hn : N ≤ n) : Keeps (Going P N g T nm S H) (setAttrs n attrs) :=
  .forEach trivial _ fun _ _ => setAttr_keeps hn

theorem leaf_keeps {x : DM NodeId} (h : Keeps (Going P N g T nm S H) x (N ≤ ·)) :
    Keeps (Going P N g T nm S H) (leaf x) (fun r => N ≤ r.1) :=
  .bind h fun _ hn => .pure hn

theorem createItems_keeps {c h items dt p name} (hp : Place N g T nm p name) :
    Keeps (Going P N g T nm S H) (createItems c h items dt p name) (fun r => N ≤ r.1) := by
  unfold createItems
  split
  · refine .bind (mkDset_keeps hp) fun n hn => ?_
    split
    · exact .pure hn
    · exact .throw _
  · exact .throw _
  · exact .bind (mkGroup_keeps hp) fun n hn => .bind (setAttr_keeps hn) fun _ _ => .pure hn

theorem createListlike_keeps {c h o p name} (hp : Place N g T nm p name) :
    Keeps (Going P N g T nm S H) (createListlike c h o p name) (fun r => N ≤ r.1) := by
  unfold createListlike
  repeat' split
  all_goals first
    | exact .throw _
    | exact createItems_keeps hp
    | exact .bind (mkDset_keeps hp) fun n hn => .bind (setAttr_keeps hn) fun _ _ => .pure hn
    | exact .bind (mkDset_keeps hp) fun n hn => .pure hn

theorem createRows_keeps {c n sh ls p name} (hp : Place N g T nm p name) :
    Keeps (Going P N g T nm S H) (createRows c n sh ls p name) (fun r => N ≤ r.1) := by
  unfold createRows
  split
  · exact .throw _
  · split
    · exact .bind (mkDset_keeps hp) fun n hn => .pure hn
    · exact .bind (mkGroup_keeps hp) fun n hn => .bind (setAttr_keeps hn) fun _ _ => .pure hn

theorem createNpArray_keeps {c h o p name} (hp : Place N g T nm p name) :
    Keeps (Going P N g T nm S H) (createNpArray c h o p name) (fun r => N ≤ r.1) := by
  have dt : ∀ {x d}, Keeps (Going P N g T nm S H) x (fun r => N ≤ r.1) → Keeps (Going P N g T nm S H) (withDtype x d) (fun r => N ≤ r.1) :=
    fun hx => .bind hx fun r hr => .bind (setAttr_keeps hr) fun _ _ => .pure hr
  unfold createNpArray
  split
  · exact dt (.bind (mkDset_keeps hp) fun n hn => .pure hn)
  · refine dt ?_
    unfold createStrings
    repeat' split
    all_goals first
      | exact .throw _
      | exact createRows_keeps hp
      | exact .bind (mkDset_keeps hp) fun n hn => .pure hn
  · refine dt ?_
    unfold createObjects
    repeat' split
    all_goals first
      | exact .throw _
      | exact createRows_keeps hp
      | exact createListlike_keeps hp
      | exact .bind (mkGroup_keeps hp) fun n hn => .pure hn
  · exact .throw _

theorem createPickled_keeps {c o p name} (hp : Place N g T nm p name) :
    Keeps (Going P N g T nm S H) (createPickled c o p name) (N ≤ ·) := by
  unfold createPickled
  split
  · exact mkDset_keeps hp
  · exact .throw _
  · exact .throw _

theorem createFn_keeps {c fn h o p name} (hp : Place N g T nm p name) :
    Keeps (Going P N g T nm S H) (createFn c fn h o p name) (fun r => N ≤ r.1) := by
  unfold createFn
  split
  · refine leaf_keeps ?_
    unfold createScalar
    repeat' split
    all_goals first | exact mkDset_keeps hp | exact .throw _
  · exact leaf_keeps (mkDset_keeps hp)
  · exact createListlike_keeps hp
  · unfold createSetlike
    repeat' split
    all_goals first
      | exact .throw _
      | exact createItems_keeps hp
      | exact .bind (mkDset_keeps hp) fun n hn => .pure hn
  · unfold createDictlike
    split
    · exact .bind (mkGroup_keeps hp) fun n hn => .pure hn
    · exact .throw _
  · refine leaf_keeps ?_
    unfold createNpScalar
    split
    · exact .bind (mkDset_keeps hp) fun n hn => .bind (setAttr_keeps hn) fun _ _ => .pure hn
    · exact .throw _
  · exact createNpArray_keeps hp
  · unfold createMasked
    split
    · exact .bind (mkGroup_keeps hp) fun n hn => .bind (setAttr_keeps hn) fun _ _ => .pure hn
    · exact .throw _
  · unfold createSparse
    split
    · split
      · exact .throw _
      · exact .bind (mkGroup_keeps hp) fun n hn => .pure hn
    · exact .throw _
  · exact leaf_keeps (createPickled_keeps hp)
  all_goals exact .throw _

theorem baseEntry_keeps {c : DCtx} {b : String} : Keeps (Going P N g c.table nm S H) (baseEntry c b) := by
  unfold baseEntry
  refine .bind .get fun s _ => ?_
  split
  · exact .pure trivial
  · exact .bind (mkDset_keeps (.inr (.inl rfl))) fun n _ =>
      .bind (.modify (Q := fun _ => True) (fun s hs => ⟨hs.grow, hs.len, hs.reg, hs.heap⟩) trivial) fun _ _ => .pure trivial

theorem typeEntryNode_keeps {c : DCtx} {cls : Cls} {b : String} : Keeps (Going P N g c.table nm S H) (typeEntryNode c cls b) := by
  unfold typeEntryNode
  refine .bind .get fun s _ => ?_
  split
  · exact .pure trivial
  · split
    · exact .throw _
    · split
      · exact .throw _
      · split
        · exact .throw _
        · exact .bind (mkDset_keeps (.inr (.inl rfl))) fun e he => .bind baseEntry_keeps fun _ _ =>
            .bind (setAttr_keeps he) fun _ _ =>
            .bind (.modify (Q := fun _ => True) (fun s hs => ⟨hs.grow, hs.len, hs.reg, hs.heap⟩) trivial) fun _ _ => .pure trivial

theorem storeType_keeps {c : DCtx} {n : NodeId} {cls : Cls} {b : String} (hn : N ≤ n) :
    Keeps (Going P N g c.table nm S H) (storeType c n cls b) := by
  unfold storeType
  split
  · exact .pure trivial
  · exact .bind typeEntryNode_keeps fun _ _ => setAttr_keeps hn

theorem onReg_keeps {α : Type} {x : M Registry α} (hx : Keeps (RegInv P) x) : Keeps (Going P N g T nm S H) (onReg x) := by
  intro s hs
  have := (hx s.reg hs.reg).1
  unfold onReg
  generalize x s.reg = y at *
  obtain ⟨r, reg⟩ := y
  exact ⟨⟨hs.grow, hs.len, this, hs.heap⟩, fun _ _ => trivial⟩

theorem dumpCreate_keeps {c : DCtx} (hE : EnvOk P c.env) (hP : ProtOk P c.env) {o p name} (hp : Place N g c.table nm p name) :
    Keeps (Going P N g c.table nm S H) (dumpCreate c o p name) (fun r => N ≤ r.1) := by
  unfold dumpCreate
  refine .bind (onReg_keeps (loadLoaderAux_keeps hE hP _ _ _)) fun ce _ => ?_
  refine .bind .get fun s _ => ?_
  refine .bind (.attempt (createFn_keeps hp)) fun r hr => ?_
  split
  · next n subs =>
    exact .bind (storeType_keeps (hr _ rfl)) fun _ _ => .pure (hr _ rfl)
  · split
    · exact .bind (createPickled_keeps hp) fun n hn => .pure hn
    · exact .throw _

theorem subAddr_keeps {so : SubObj} : Keeps (Going P N g T nm S H) (subAddr so) := by
  unfold subAddr
  split
  · exact .pure trivial
  · intro s hs
    exact ⟨⟨hs.grow, hs.len, hs.reg, hs.heap.trans (List.prefix_append _ _)⟩, fun _ _ => trivial⟩
  · intro s hs
    exact ⟨⟨hs.grow, hs.len, hs.reg, hs.heap.trans (List.prefix_append _ _)⟩, fun _ _ => trivial⟩

/-- whatever the outcome of `_dump`: the file only grew in the allowed places, and the registry is
in a reachable state -/
theorem dumpNode_keeps {c : DCtx} (hE : EnvOk P c.env) (hP : ProtOk P c.env) (fuel : Nat) :
    ∀ a p name attrs, Place N g c.table nm p name → Keeps (Going P N g c.table nm S H) (dumpNode c fuel a p name attrs) := by
  induction fuel with
  | zero => exact fun a p name attrs _ => .throw _
  | succ fuel ih =>
    intro a p name attrs hp
    simp only [dumpNode]
    refine .bind .get fun s _ => ?_
    split
    · exact .bind (mkDset_keeps hp) fun n hn => setAttrs_keeps hn
    · split
      · exact .throw _
      · refine .bind (dumpCreate_keeps hE hP hp) fun r hr => ?_
        refine .bind (setAttrs_keeps hr) fun _ _ => ?_
        refine .bind (Q := fun _ => True) ?_ fun _ _ => ?_
        · split
          · exact .modify (fun s hs => ⟨hs.grow, hs.len, hs.reg, hs.heap⟩) trivial
          · exact .pure trivial
        · refine .forEach trivial _ fun sub _ => ?_
          split
          · exact .throw _
          · exact .bind subAddr_keeps fun b _ => ih b _ _ _ (.inr (.inr hr))

end
end Verif
