import Verif.Hickle.LoadTwins
import Verif.Hickle.Grows
/-!
# Files made by hickle have types that fit the classes

Every step of a dump, and so every dump, failing or not, keeps `FileIs env (UsualType P env)`: the entries of the types table name a class
with the base type of its loader.
-/
namespace Verif

variable {P : Nat → Prop} {env : Env}

/-- all types in the file fit the classes -/
abbrev Fit (P : Nat → Prop) (env : Env) (S : Store) : Prop := FileIs env (UsualType P env) S

theorem FileIs.create {T : Cls → String → Prop} {S S' : Store} {p m : NodeId} {name : PyStr} {body : Body} (h : FileIs env T S) (hc : S.create p name body = .ok (m, S'))
    (hb : ∀ c, body = .dset (.pickleCls c) → clsImportable env c = true → T c "pickle") : FileIs env T S' := by
  obtain ⟨nd, ls, h1, h2, _, _, _, rfl, hlen, h3, h4, h5⟩ := Store.create_ok hc
  have old : ∀ n ∈ S', (n = { name := name, body := body } ∨ n = { nd with body := .group (ls ++ [(name, S.length)]) } ∧ nd ∈ S ∨ n ∈ S) := by
    intro n hn
    obtain ⟨i, hi⟩ := List.mem_iff_getElem?.1 hn
    by_cases e1 : i = p
    · rw [e1, h4] at hi; simp only [Option.some.injEq] at hi; exact .inr (.inl ⟨hi.symm, List.mem_of_getElem? h1⟩)
    · by_cases e2 : i = S.length
      · rw [e2, h3] at hi; simp only [Option.some.injEq] at hi; exact .inl hi.symm
      · rw [h5 i e1 e2] at hi; exact .inr (.inr (List.mem_of_getElem? hi))
  have names : ∀ (b : NodeId) (bn : Node), S[b]? = some bn → ∃ bn', S'[b]? = some bn' ∧ bn'.name = bn.name := by
    intro b bn hb
    by_cases e1 : b = p
    · subst e1
      rw [h1] at hb; simp only [Option.some.injEq] at hb; subst hb
      exact ⟨_, h4, rfl⟩
    · refine ⟨bn, ?_, rfl⟩
      rw [h5 b e1 ?_]; exact hb
      intro e; rw [e, List.getElem?_eq_none (Nat.le_refl _)] at hb; simp at hb
  refine ⟨fun n hn c hb' hi hnone => ?_, fun n hn c b hb' hr => ?_, fun n hn c ht hi => ?_, fun n hn => ?_⟩
  · rcases old n hn with rfl | ⟨rfl, _⟩ | hn
    · exact hb c hb' hi
    · simp at hb'
    · exact h.entry n hn c hb' hi hnone
  · rcases old n hn with rfl | ⟨rfl, _⟩ | hn
    · simp at hr
    · simp at hb'
    · obtain ⟨bn, e, hk⟩ := h.base n hn c b hb' hr
      obtain ⟨bn', e', hname⟩ := names b bn e
      exact ⟨bn', e', by rw [hname]; exact hk⟩
  · rcases old n hn with rfl | ⟨rfl, hm⟩ | hn
    · simp at ht
    · exact h.node nd hm c ht hi
    · exact h.node n hn c ht hi
  · rcases old n hn with rfl | ⟨rfl, hm⟩ | hn
    · simp [attrOptions, attrItems]
    · exact h.options nd hm
    · exact h.options n hn

/-- an option attribute that is not the one for version 4.0 -/
def Harmless (k : String) : Prop := optName k ≠ some "hickle-4.x"

theorem attrItems_mem {at' : Attrs} {q : String × AttrVal} (h : q ∈ attrItems at') : q ∈ at' := by
  induction at' with
  | nil => exact h
  | cons p l ih =>
    simp only [attrItems, List.mem_cons, List.mem_filter] at h
    rcases h with rfl | ⟨h, _⟩
    · simp
    · exact List.mem_cons_of_mem _ (ih h)

theorem attrOptions_put {at' : Attrs} {k : String} {v : AttrVal} (hk : Harmless k) (h : "hickle-4.x" ∉ attrOptions at') : "hickle-4.x" ∉ attrOptions (Assoc.put at' k v) := by
  intro hm
  simp only [attrOptions, Assoc.put, attrItems, List.filterMap_cons, List.mem_filterMap] at hm
  have old : ¬ ∃ q ∈ (attrItems at').filter (fun q => q.1 ≠ k), (if q.2.truthy then optName q.1 else none) = some "hickle-4.x" := by
    rintro ⟨q, hq, e⟩
    exact h (List.mem_filterMap.2 ⟨q, (List.mem_filter.1 hq).1, e⟩)
  revert hm
  by_cases hv : v.truthy = true
  · rw [if_pos hv]
    cases ho : optName k with
    | none => simpa using old
    | some o =>
      simp only [List.mem_cons, List.mem_filterMap]
      rintro (rfl | hm)
      · exact hk ho
      · exact old hm
  · rw [if_neg hv]
    simpa using old

theorem FileIs.attr {T : Cls → String → Prop} {S : Store} {m : NodeId} {k : String} {v : AttrVal} (h : FileIs env T S) (hk : k ≠ "base_type") (ht : k = "type" → ∀ c, v ≠ .pcls c)
    (ho : Harmless k) : FileIs env T (S.setAttr m k v) := by
  have old : ∀ n ∈ S.setAttr m k v, n ∈ S ∨ ∃ nd ∈ S, n = { nd with attrs := Assoc.put nd.attrs k v } := by
    intro n hn
    obtain ⟨i, hi⟩ := List.mem_iff_getElem?.1 hn
    by_cases e : i = m
    · subst e
      cases hs : S[i]? with
      | none =>
        rw [List.getElem?_eq_none (by simpa using hs)] at hi
        simp at hi
      | some nd =>
        rw [Store.getElem?_setAttr_self hs] at hi
        simp only [Option.some.injEq] at hi
        exact .inr ⟨nd, List.mem_of_getElem? hs, hi.symm⟩
    · rw [Store.getElem?_setAttr_ne e] at hi
      exact .inl (List.mem_of_getElem? hi)
  have names : ∀ (b : NodeId) (bn : Node), S[b]? = some bn → ∃ bn', (S.setAttr m k v)[b]? = some bn' ∧ bn'.name = bn.name := by
    intro b bn hb
    by_cases e : b = m
    · subst e; exact ⟨_, Store.getElem?_setAttr_self hb k v, rfl⟩
    · exact ⟨bn, by rw [Store.getElem?_setAttr_ne e]; exact hb, rfl⟩
  have hbase : ∀ nd : Node, Assoc.get? (Assoc.put nd.attrs k v) "base_type" = Assoc.get? nd.attrs "base_type" := fun nd => Assoc.get?_put_ne _ _ hk
  refine ⟨fun n hn c hb' hi hnone => ?_, fun n hn c b hb' hr => ?_, fun n hn c ht' hi => ?_, fun n hn => ?_⟩
  · rcases old n hn with hn | ⟨nd, hm, rfl⟩
    · exact h.entry n hn c hb' hi hnone
    · exact h.entry nd hm c hb' hi (by rw [← hbase]; exact hnone)
  · have : ∃ nd ∈ S, nd.body = n.body ∧ Assoc.get? nd.attrs "base_type" = some (.ref b) := by
      rcases old n hn with hn | ⟨nd, hm, rfl⟩
      · exact ⟨n, hn, rfl, hr⟩
      · exact ⟨nd, hm, rfl, by rw [← hbase]; exact hr⟩
    obtain ⟨nd, hm, e1, e2⟩ := this
    obtain ⟨bn, e, hk⟩ := h.base nd hm c b (e1.trans hb') e2
    obtain ⟨bn', e', hname⟩ := names b bn e
    exact ⟨bn', e', by rw [hname]; exact hk⟩
  · rcases old n hn with hn | ⟨nd, hm, rfl⟩
    · exact h.node n hn c ht' hi
    · have e1 : nodeBase { nd with attrs := Assoc.put nd.attrs k v } = nodeBase nd := by
        unfold nodeBase
        simp only [hbase]
      rw [e1]
      simp only at ht'
      by_cases hkt : k = "type"
      · subst hkt
        rw [Assoc.get?_put_self] at ht'
        exact absurd (Option.some.inj ht') (ht rfl c)
      · rw [Assoc.get?_put_ne _ _ hkt] at ht'
        exact h.node nd hm c ht' hi
  · rcases old n hn with hn | ⟨nd, hm, rfl⟩
    · exact h.options n hn
    · exact attrOptions_put ho (h.options nd hm)

/-- the base type of an entry is set -/
theorem FileIs.setBase {T : Cls → String → Prop} {S : Store} {e b : NodeId} {nd bn : Node} {cls : Cls} (h : FileIs env T S) (he : S[e]? = some nd) (hd : nd.body = .dset (.pickleCls cls))
    (hb : S[b]? = some bn) (hT : T cls (unps bn.name)) (hty : ∀ c, Assoc.get? nd.attrs "type" ≠ some (.pcls c)) : FileIs env T (S.setAttr e "base_type" (.ref b)) := by
  have old : ∀ n ∈ S.setAttr e "base_type" (.ref b), n ∈ S ∨ n = { nd with attrs := Assoc.put nd.attrs "base_type" (.ref b) } := by
    intro n hn
    obtain ⟨i, hi⟩ := List.mem_iff_getElem?.1 hn
    by_cases e' : i = e
    · subst e'
      rw [Store.getElem?_setAttr_self he] at hi
      simp only [Option.some.injEq] at hi
      exact .inr hi.symm
    · rw [Store.getElem?_setAttr_ne e'] at hi
      exact .inl (List.mem_of_getElem? hi)
  have names : ∀ (i : NodeId) (n : Node), S[i]? = some n → ∃ n', (S.setAttr e "base_type" (.ref b))[i]? = some n' ∧ n'.name = n.name := by
    intro i n hi
    by_cases e' : i = e
    · subst e'; exact ⟨_, Store.getElem?_setAttr_self hi _ _, rfl⟩
    · exact ⟨n, by rw [Store.getElem?_setAttr_ne e']; exact hi, rfl⟩
  refine ⟨fun n hn c hb' hi hnone => ?_, fun n hn c b' hb' hr => ?_, fun n hn c ht' hi => ?_, fun n hn => ?_⟩
  · rcases old n hn with hn | rfl
    · exact h.entry n hn c hb' hi hnone
    · simp only [Assoc.get?_put_self] at hnone; simp at hnone
  · rcases old n hn with hn | rfl
    · obtain ⟨x, e1, hk⟩ := h.base n hn c b' hb' hr
      obtain ⟨x', e', hname⟩ := names b' x e1
      exact ⟨x', e', by rw [hname]; exact hk⟩
    · simp only [Assoc.get?_put_self, Option.some.injEq, AttrVal.ref.injEq] at hr
      subst hr
      obtain ⟨x', e', hname⟩ := names b bn hb
      refine ⟨x', e', fun _ => ?_⟩
      simp only [hd, Body.dset.injEq, Data.pickleCls.injEq] at hb'
      subst hb'
      rw [hname]; exact hT
  · rcases old n hn with hn | rfl
    · exact h.node n hn c ht' hi
    · simp only at ht'
      rw [Assoc.get?_put_ne _ _ (by decide)] at ht'
      exact absurd ht' (hty c)
  · rcases old n hn with hn | rfl
    · exact h.options n hn
    · exact attrOptions_put (by unfold Harmless; decide) (h.options nd (List.mem_of_getElem? he))

/-! ### every step of a dump -/

/-- what a type entry may say, given the loaders that have been registered: the loader found for the class, or the core loader for pickle
strings, and it stays true when more loaders are registered -/
structure Fits (P : Nat → Prop) (env : Env) (T : Registry → Cls → String → Prop) : Prop where
  mono : ∀ {r r' c b}, RegLe r r' → T r c b → T r' c b
  base : ∀ {r c}, GoodCls P env c → BaseReady r (expected env c).2.base → T r c (expected env c).2.base
  pickle : ∀ {r c}, GoodCls P env c → BaseReady r (expected env c).2.base → T r c "pickle"

theorem FileIs.mono {T T' : Cls → String → Prop} {S : Store} (h : FileIs env T S) (hT : ∀ c b, T c b → T' c b) : FileIs env T' S :=
  ⟨fun n hn c h1 h2 h3 => hT _ _ (h.entry n hn c h1 h2 h3), fun n hn c b h1 h2 => by
    obtain ⟨bn, e, hb⟩ := h.base n hn c b h1 h2
    exact ⟨bn, e, fun hi => hT _ _ (hb hi)⟩, fun n hn c h1 h2 => hT _ _ (h.node n hn c h1 h2), h.options⟩

theorem Fits.usual : Fits P env (fun _ => UsualType P env) := ⟨fun _ h => h, fun hc _ => ⟨hc, .inl rfl⟩, fun hc _ => ⟨hc, .inr ⟨_, _, rfl⟩⟩⟩

variable {T : Registry → Cls → String → Prop} {r0 : Registry}

/-- what holds throughout a dump that began with the loaders `r0` -/
structure Fitted (P : Nat → Prop) (env : Env) (T : Registry → Cls → String → Prop) (r0 : Registry) (s : DState) : Prop where
  file : FileIs env (T s.reg) s.store
  bases : ∀ b n, Assoc.get? s.blinks b = some n → ∃ nd, s.store[n]? = some nd ∧ unps nd.name = b
  cls : ∀ o ∈ s.heap, GoodCls P env o.cls
  reg : RegInv P s.reg
  le : RegLe r0 s.reg

theorem Store.create_names {S S' : Store} {p m : NodeId} {name : PyStr} {body : Body} (hc : S.create p name body = .ok (m, S')) {i : NodeId} {nd : Node} (h : S[i]? = some nd) :
    ∃ nd', S'[i]? = some nd' ∧ nd'.name = nd.name := by
  obtain ⟨pd, ls, h1, h2, _, _, _, rfl, hlen, h3, h4, h5⟩ := Store.create_ok hc
  by_cases e1 : i = p
  · subst e1
    rw [h1] at h; simp only [Option.some.injEq] at h; subst h
    exact ⟨_, h4, rfl⟩
  · refine ⟨nd, ?_, rfl⟩
    rw [h5 i e1 ?_]; exact h
    intro e; rw [e, List.getElem?_eq_none (Nat.le_refl _)] at h; simp at h

theorem Fitted.create {s : DState} {p m : NodeId} {name : PyStr} {body : Body} {st : Store} (h : Fitted P env T r0 s) (hc : s.store.create p name body = .ok (m, st))
    (hb : ∀ c, body = .dset (.pickleCls c) → T s.reg c "pickle") : Fitted P env T r0 { s with store := st } where
  file := h.file.create hc fun c e _ => hb c e
  bases b n hn := by
    obtain ⟨nd, h1, h2⟩ := h.bases b n hn
    obtain ⟨nd', h3, h4⟩ := Store.create_names hc h1
    exact ⟨nd', h3, by rw [h4]; exact h2⟩
  cls := h.cls
  reg := h.reg
  le := h.le

theorem Store.setAttr_names {S : Store} {m i : NodeId} {k : String} {v : AttrVal} {nd : Node} (h : S[i]? = some nd) : ∃ nd', (S.setAttr m k v)[i]? = some nd' ∧ nd'.name = nd.name := by
  by_cases e : i = m
  · subst e; exact ⟨_, Store.getElem?_setAttr_self h k v, rfl⟩
  · exact ⟨nd, by rw [Store.getElem?_setAttr_ne e]; exact h, rfl⟩

theorem mkDset_fit {kw p name d} (hd : ∀ c, d ≠ .pickleCls c) : Keeps (Fitted P env T r0) (mkDset kw p name d) := by
  intro s hs
  unfold mkDset
  split
  · exact ⟨hs, fun _ _ => trivial⟩
  · split
    · exact ⟨hs, fun _ _ => trivial⟩
    · next n st hc => exact ⟨hs.create hc fun c e => by simp only [Body.dset.injEq] at e; exact absurd e (hd c), fun _ _ => trivial⟩

theorem mkGroup_fit {p name} : Keeps (Fitted P env T r0) (mkGroup p name) := by
  intro s hs
  unfold mkGroup
  split
  · exact ⟨hs, fun _ _ => trivial⟩
  · next n st hc => exact ⟨hs.create hc (by simp), fun _ _ => trivial⟩

/-- names of attributes that no loader looks at for the type -/
def Neutral (k : String) : Prop := k ≠ "base_type" ∧ k ≠ "type" ∧ Harmless k

theorem setAttr_fit' {n k v} (h1 : k ≠ "base_type") (h2 : k = "type" → ∀ c, v ≠ .pcls c) (h3 : Harmless k) : Keeps (Fitted P env T r0) (setAttr n k v) :=
  .modify (fun s hs => ⟨hs.file.attr h1 h2 h3, fun b m hm => by
    obtain ⟨nd, e1, e2⟩ := hs.bases b m hm
    obtain ⟨nd', e3, e4⟩ := Store.setAttr_names (m := n) (k := k) (v := v) e1
    exact ⟨nd', e3, by rw [e4]; exact e2⟩, hs.cls, hs.reg, hs.le⟩) trivial

theorem setAttr_fit {n k v} (h : Neutral k) : Keeps (Fitted P env T r0) (setAttr n k v) := setAttr_fit' h.1 (fun e => absurd e h.2.1) h.2.2

instance (k : String) : Decidable (Neutral k) := by unfold Neutral Harmless; infer_instance

theorem setAttrs_fit {n attrs} (h : AttrsOk attrs) : Keeps (Fitted P env T r0) (setAttrs n attrs) :=
  .forEach trivial _ fun p hp => setAttr_fit (by rcases h.2 p hp with e | e | e <;> rw [e] <;> decide)

theorem leaf_fit {x : DM NodeId} (h : Keeps (Fitted P env T r0) x) : Keeps (Fitted P env T r0) (leaf x) := .bind h fun _ _ => .pure trivial

theorem createItems_fit {c h items dt p name} : Keeps (Fitted P env T r0) (createItems c h items dt p name) := by
  unfold createItems
  split
  · refine .bind (mkDset_fit (by simp)) fun n hn => ?_
    split
    · exact .pure trivial
    · exact .throw _
  · exact .throw _
  · exact .bind mkGroup_fit fun n hn => .bind (setAttr_fit (by decide)) fun _ _ => .pure trivial

theorem createListlike_fit {c h o p name} : Keeps (Fitted P env T r0) (createListlike c h o p name) := by
  unfold createListlike
  repeat' split
  all_goals first
    | exact .throw _
    | exact createItems_fit
    | exact .bind (mkDset_fit (by simp)) fun n hn => .bind (setAttr_fit (by decide)) fun _ _ => .pure trivial
    | exact .bind (mkDset_fit (by simp)) fun n hn => .pure trivial

theorem createRows_fit {c n sh ls p name} : Keeps (Fitted P env T r0) (createRows c n sh ls p name) := by
  unfold createRows
  split
  · exact .throw _
  · split
    · exact .bind (mkDset_fit (by simp)) fun n hn => .pure trivial
    · exact .bind mkGroup_fit fun n hn => .bind (setAttr_fit (by decide)) fun _ _ => .pure trivial

theorem createNpArray_fit {c h o p name} : Keeps (Fitted P env T r0) (createNpArray c h o p name) := by
  have dt : ∀ {x d}, Keeps (Fitted P env T r0) x → Keeps (Fitted P env T r0) (withDtype x d) :=
    fun hx => .bind hx fun r hr => .bind (setAttr_fit (by decide)) fun _ _ => .pure trivial
  unfold createNpArray
  split
  · exact dt (.bind (mkDset_fit (by simp)) fun n hn => .pure trivial)
  · refine dt ?_
    unfold createStrings
    repeat' split
    all_goals first
      | exact .throw _
      | exact createRows_fit
      | exact .bind (mkDset_fit (by simp)) fun n hn => .pure trivial
  · refine dt ?_
    unfold createObjects
    repeat' split
    all_goals first
      | exact .throw _
      | exact createRows_fit
      | exact createListlike_fit
      | exact .bind mkGroup_fit fun n hn => .pure trivial
  · exact .throw _

theorem createPickled_fit {c o p name} : Keeps (Fitted P env T r0) (createPickled c o p name) := by
  unfold createPickled
  split
  · exact mkDset_fit (by simp)
  · exact .throw _
  · exact .throw _

theorem createFn_fit {c fn h o p name} : Keeps (Fitted P env T r0) (createFn c fn h o p name) := by
  unfold createFn
  split
  · refine leaf_fit ?_
    unfold createScalar
    repeat' split
    all_goals first | exact mkDset_fit (by simp) | exact .throw _
  · exact leaf_fit (mkDset_fit (by simp))
  · exact createListlike_fit
  · unfold createSetlike
    repeat' split
    all_goals first
      | exact .throw _
      | exact createItems_fit
      | exact .bind (mkDset_fit (by simp)) fun n hn => .pure trivial
  · unfold createDictlike
    split
    · exact .bind mkGroup_fit fun n hn => .pure trivial
    · exact .throw _
  · refine leaf_fit ?_
    unfold createNpScalar
    split
    · exact .bind (mkDset_fit (by simp)) fun n hn => .bind (setAttr_fit (by decide)) fun _ _ => .pure trivial
    · exact .throw _
  · exact createNpArray_fit
  · unfold createMasked
    split
    · exact .bind mkGroup_fit fun n hn => .bind (setAttr_fit (by decide)) fun _ _ => .pure trivial
    · exact .throw _
  · unfold createSparse
    split
    · split
      · exact .throw _
      · exact .bind mkGroup_fit fun n hn => .pure trivial
    · exact .throw _
  · exact leaf_fit createPickled_fit
  all_goals exact .throw _

/-- the entry `e` has just been made -/
def Fresh (cls : Cls) (e : NodeId) (s : DState) : Prop := ∃ nd, s.store[e]? = some nd ∧ nd.body = .dset (.pickleCls cls) ∧ nd.attrs = []

theorem mkDset_cases (kw : List Kw) (p : NodeId) (name : PyStr) (d : Data) (s : DState) :
    (∃ e, mkDset kw p name d s = (.error e, s)) ∨ ∃ n st, s.store.create p name (.dset d) = .ok (n, st) ∧ mkDset kw p name d s = (.ok n, { s with store := st }) := by
  unfold mkDset
  split
  · exact .inl ⟨_, rfl⟩
  · split
    · exact .inl ⟨_, rfl⟩
    · next n st hc => exact .inr ⟨n, st, hc, rfl⟩

theorem baseEntry_fit {c : DCtx} {b : String} {cls : Cls} {e : NodeId} {s : DState} (hs : Fitted P env T r0 s) (hf : Fresh cls e s) :
    Fitted P env T r0 (baseEntry c b s).2 ∧ Fresh cls e (baseEntry c b s).2 ∧
      ∀ n, (baseEntry c b s).1 = .ok n → ∃ nd, (baseEntry c b s).2.store[n]? = some nd ∧ unps nd.name = b := by
  unfold baseEntry
  rw [M.bind_of_ok (M.get_apply s)]
  cases hb : Assoc.get? s.blinks b with
  | some n => exact ⟨hs, hf, fun m hm => by cases hm; exact hs.bases b n hb⟩
  | none =>
    simp only []
    rcases mkDset_cases (noCompression c.kw) c.table (ps b) (.null "S1") s with ⟨err, hk⟩ | ⟨n, st, hc, hk⟩
    · rw [M.bind_of_error hk]
      exact ⟨hs, hf, by simp⟩
    · rw [M.bind_of_ok hk]
      · have h1 := hs.create hc (by simp)
        obtain ⟨pd, ls, k1, k2, _, _, _, rfl, hlen, k3, k4, k5⟩ := Store.create_ok hc
        obtain ⟨nd, f1, f2, f3⟩ := hf
        have he : st[e]? = some nd := by
          rw [k5 e ?_ ?_]; exact f1
          · rintro rfl
            rw [k1] at f1; cases f1
            rw [k2] at f2; simp at f2
          · intro h
            rw [h, List.getElem?_eq_none (Nat.le_refl _)] at f1; simp at f1
        refine ⟨⟨h1.file, ?_, h1.cls, h1.reg, h1.le⟩, ⟨nd, he, f2, f3⟩, ?_⟩
        · intro b' n' hn'
          simp only [M.bind_apply, M.modify_apply, M.pure_apply] at hn' ⊢
          by_cases hbb : b' = b
          · subst hbb
            rw [Assoc.get?_put_self] at hn'
            cases hn'
            exact ⟨_, k3, unps_ps _⟩
          · rw [Assoc.get?_put_ne _ _ (fun h => hbb h.symm)] at hn'
            exact h1.bases b' n' hn'
        · intro m hm
          cases hm
          exact ⟨_, k3, unps_ps _⟩

theorem typeEntryNode_fit (hT : Fits P env T) {c : DCtx} {cls : Cls} {b : String} (hc : GoodCls P env cls) (hb : b = (expected env cls).2.base) (hr : BaseReady r0 (expected env cls).2.base) : Keeps (Fitted P env T r0) (typeEntryNode c cls b) := by
  intro s hs
  unfold typeEntryNode
  rw [M.bind_of_ok (M.get_apply s)]
  cases Assoc.get? s.tlinks cls with
  | some e => exact ⟨hs, fun _ _ => trivial⟩
  | none =>
    simp only []
    split
    · exact ⟨hs, fun _ _ => trivial⟩
    · split
      · exact ⟨hs, fun _ _ => trivial⟩
      · cases s.store.links c.table with
        | none => exact ⟨hs, fun _ _ => trivial⟩
        | some ls =>
          simp only []
          refine ⟨?_, fun _ _ => trivial⟩
          rcases mkDset_cases c.kw c.table (digits ls.length) (.pickleCls cls) s with ⟨err, hk⟩ | ⟨e, st, hcr, hk⟩
          · rw [M.bind_of_error hk]
            exact hs
          · rw [M.bind_of_ok hk]
            · have h1 := hs.create hcr (fun c' e' => by simp only [Body.dset.injEq, Data.pickleCls.injEq] at e'; subst e'; exact hT.pickle hc (hr.mono hs.le))
              obtain ⟨pd, ls', k1, k2, _, _, _, rfl, hlen, k3, k4, k5⟩ := Store.create_ok hcr
              have hfr : Fresh cls s.store.length { s with store := st } := ⟨_, k3, rfl, rfl⟩
              obtain ⟨g1, g2, g3⟩ := baseEntry_fit (c := c) (b := b) h1 hfr
              rw [M.bind_apply]
              revert g1 g2 g3
              generalize baseEntry c b { s with store := st } = y
              obtain ⟨y1, y2⟩ := y
              intro g1 g2 g3
              cases y1 with
              | error err => exact g1
              | ok n =>
                obtain ⟨bn, e1, e2⟩ := g3 n rfl
                obtain ⟨nd, f1, f2, f3⟩ := g2
                refine ⟨g1.file.setBase f1 f2 e1 (by rw [e2, hb]; exact hT.base hc (hr.mono g1.le)) (by rw [f3]; simp), ?_, g1.cls, g1.reg, g1.le⟩
                intro b' n' hn'
                obtain ⟨nd', q1, q2⟩ := g1.bases b' n' hn'
                obtain ⟨nd'', q3, q4⟩ := Store.setAttr_names (m := s.store.length) (k := "base_type") (v := .ref n) q1
                exact ⟨nd'', q3, by rw [q4]; exact q2⟩

theorem storeType_fit (hT : Fits P env T) {c : DCtx} {n : NodeId} {o : Obj} (hc : GoodCls P env o.cls) (hr : BaseReady r0 (expected env o.cls).2.base) : Keeps (Fitted P env T r0) (storeType c n (expected env o.cls).1 (expected env o.cls).2.base) := by
  unfold storeType
  split
  · exact .pure trivial
  · next h =>
    have : (expected env o.cls).1 = o.cls := by
      unfold expected at h ⊢
      split
      · rfl
      · next hn => simp [hn] at h
    rw [this]
    exact .bind (typeEntryNode_fit hT hc rfl hr) fun e _ => setAttr_fit' (by decide) (fun _ => by simp) (by unfold Harmless; decide)

theorem dumpCreate_fit {c : DCtx} (hT : Fits P c.env T) (hE : EnvOk P c.env) (hm : c.mgr.Ok) {o : Obj} (hc : GoodCls P c.env o.cls) {p name} : Keeps (Fitted P c.env T r0) (dumpCreate c o p name) := by
  intro s hs
  refine ⟨?_, fun _ _ => trivial⟩
  obtain ⟨r1, e1, i1, l1, b1⟩ := loadLoader_spec hE hm.dumps hc none hs.reg
  have h1 : onReg (loadLoader c.env c.mgr o.cls none) s = (.ok (expected c.env o.cls), { s with reg := r1 }) := by unfold onReg; rw [e1]
  have hs1 : Fitted P c.env T r1 { s with reg := r1 } := ⟨hs.file.mono fun _ _ => hT.mono l1, hs.bases, hs.cls, i1, RegLe.refl _⟩
  unfold dumpCreate
  rw [M.bind_of_ok h1]
  have key : ∀ (x : DM (NodeId × Subs × Bool)), Keeps (Fitted P c.env T r1) x → Fitted P c.env T r0 (x { s with reg := r1 }).2 := by
    intro x hx
    have := (hx _ hs1).1
    exact ⟨this.file, this.bases, this.cls, this.reg, hs.le.trans (l1.trans this.le)⟩
  refine key _ ?_
  refine .bind .get fun s _ => .bind (.attempt (Q := fun _ => True) createFn_fit) fun x _ => ?_
  cases x with
  | ok x => exact .bind (storeType_fit hT hc b1) fun _ _ => .pure trivial
  | error e =>
    simp only []
    split
    · exact .bind createPickled_fit fun _ _ => .pure trivial
    · exact .throw _

theorem dumpCreate_attrs {c : DCtx} {o p name s n subs mem s1} {a : Addr} (ha : s.heap[a]? = some o) (h : dumpCreate c o p name s = (.ok (n, subs, mem), s1)) :
    ∀ sb, Except.ok sb ∈ subs → AttrsOk sb.attrs := by
  unfold dumpCreate at h
  obtain ⟨⟨cls, e⟩, s2, hr, h⟩ := M.bind_ok_iff.1 h
  have hh : s2.heap = s.heap := by
    unfold onReg at hr
    generalize loadLoader c.env c.mgr o.cls none s.reg = y at hr
    obtain ⟨x, r⟩ := y
    cases hr
    rfl
  dsimp only at h
  rw [M.bind_of_ok (M.get_apply s2), M.bind_of_ok (M.attempt_apply _ s2)] at h
  cases hc : createFn c e.fn s2.heap o p name s2 with
  | mk r s3 =>
    rw [hc] at h
    cases r with
    | ok r =>
      simp only [] at h
      obtain ⟨_, s4, _, h⟩ := M.bind_ok_iff.1 h
      simp at h
      obtain ⟨⟨rfl, rfl, _⟩, _⟩ := h
      rw [hh] at hc
      obtain ⟨at', od, _, _, hd⟩ := createFn_ok hc
      exact (hd.subsOk (base := 0) ha).attrs
    | error e' =>
      simp only [] at h
      split at h
      · obtain ⟨_, s4, _, h⟩ := M.bind_ok_iff.1 h
        simp at h
        obtain ⟨⟨_, rfl, _⟩, _⟩ := h
        simp
      · simp at h

theorem subAddr_fit {h : Heap} {o : Obj} {so : SubObj} (hs : SubOf h o so) : Keeps (Fitted P env T r0) (subAddr so) := by
  intro s hf
  have ht := newObjs_temp hs s.heap.length
  have grow : ∀ l : List Obj, (∀ x ∈ l, TempCls x.cls) → Fitted P env T r0 { s with heap := s.heap ++ l } := by
    intro l hl
    refine ⟨hf.file, hf.bases, fun x hx => ?_, hf.reg, hf.le⟩
    rcases List.mem_append.1 hx with hx | hx
    · exact hf.cls x hx
    · exact (hl x hx).good _ _
  cases so with
  | addr a => exact ⟨hf, fun _ _ => trivial⟩
  | pair k v => exact ⟨grow _ ht, fun _ _ => trivial⟩
  | nest cl sh ls => exact ⟨grow _ ht, fun _ _ => trivial⟩

/-- **whatever the outcome of `_dump`: the types in the file fit the classes** -/
theorem dumpNode_fit {c : DCtx} (hT : Fits P c.env T) (hE : EnvOk P c.env) (hm : c.mgr.Ok) (fuel : Nat) : ∀ a p name attrs, AttrsOk attrs → Keeps (Fitted P c.env T r0) (dumpNode c fuel a p name attrs) := by
  induction fuel with
  | zero => exact fun a p name attrs _ => .throw _
  | succ fuel ih =>
    intro a p name attrs hat
    simp only [dumpNode]
    intro s hs
    rw [M.bind_of_ok (M.get_apply s)]
    revert hs
    cases Assoc.get? s.memo a with
    | some n => exact Keeps.bind (mkDset_fit (by simp)) (fun n _ => setAttrs_fit hat) s
    | none =>
      simp only []
      cases ho : s.heap[a]? with
      | none => exact Keeps.throw _ s
      | some o =>
        simp only []
        intro hs
        have hc := hs.cls o (List.mem_of_getElem? ho)
        rw [M.bind_apply]
        cases hcr : dumpCreate c o p name s with
        | mk r s1 =>
          have hs1 : Fitted P c.env T r0 s1 := by have := (dumpCreate_fit hT hE hm hc (p := p) (name := name) s hs).1; rw [hcr] at this; exact this
          cases r with
          | error e => exact ⟨hs1, by simp⟩
          | ok r =>
            obtain ⟨n, subs, mem⟩ := r
            have hsub := dumpCreate_subs hcr
            have hatt := dumpCreate_attrs ho hcr
            simp only []
            refine Keeps.bind (setAttrs_fit ⟨hat.1.sublist (List.Sublist.map _ List.filter_sublist), fun q hq => hat.2 q (List.mem_filter.1 hq).1⟩) (fun _ _ => ?_) s1 hs1
            refine .bind (Q := fun _ => True) ?_ fun _ _ => .forEach trivial _ fun sub hmem => ?_
            · split
              · exact .modify (fun s hs => ⟨hs.file, hs.bases, hs.cls, hs.reg, hs.le⟩) trivial
              · exact .pure trivial
            · rcases hsub sub hmem with rfl | rfl | ⟨sb, rfl, hso⟩
              · exact .throw _
              · exact .throw _
              · exact .bind (subAddr_fit hso) fun b _ => ih b _ _ _ (hatt sb hmem)

/-! ### whole calls -/

/-- what holds of the file between the parts of a call -/
structure FitFile (P : Nat → Prop) (env : Env) (T : Registry → Cls → String → Prop) (s : Session) : Prop where
  file : FileIs env (T s.reg) s.store
  reg : RegInv P s.reg

/-- an option that is not the one for version 4.0, however it is spelt -/
def OptionOk (k : String) : Prop := Harmless (optAttr k)

theorem sSetAttr_fit {g k v} (h1 : k ≠ "base_type") (h2 : k ≠ "type") (h3 : Harmless k) : Keeps (FitFile P env T) (sSetAttr g k v) :=
  .modify (fun _ hs => ⟨hs.file.attr h1 (fun e => absurd e h2) h3, hs.reg⟩) trivial

theorem Store.mkPath_fit {T : Cls → String → Prop} : ∀ (path : List PyStr) {S S' : Store} {n g : NodeId}, FileIs env T S → S.mkPath n path = .ok (g, S') → FileIs env T S'
  | [], S, S', n, g, h, e => by simp only [Store.mkPath, Except.ok.injEq, Prod.mk.injEq] at e; exact e.2 ▸ h
  | x :: xs, S, S', n, g, h, e => by
    rw [Store.mkPath] at e
    cases hl : S.links n with
    | none => simp only [hl] at e; simp at e
    | some ls =>
      simp only [hl] at e
      cases hx : Assoc.get? ls x with
      | some m => simp only [hx] at e; exact Store.mkPath_fit xs h e
      | none =>
        simp only [hx] at e
        cases hc : S.create n x (.group []) with
        | error err => simp only [hc] at e; simp at e
        | ok r =>
          obtain ⟨m, S1⟩ := r
          simp only [hc] at e
          exact Store.mkPath_fit xs (h.create hc (by simp)) e

theorem dumpGroup_fit {path} : Keeps (FitFile P env T) (dumpGroup path) := by
  intro s hs
  unfold dumpGroup
  cases pathOk path with
  | error e => exact ⟨hs, fun _ _ => trivial⟩
  | ok u =>
    simp only []
    cases s.store.resolve 0 path with
    | some g =>
      simp only []
      cases s.store.links g with
      | none => exact ⟨hs, fun _ _ => trivial⟩
      | some l => cases l <;> exact ⟨hs, fun _ _ => trivial⟩
    | none =>
      simp only []
      cases hm : s.store.mkPath 0 path with
      | error e => exact ⟨hs, fun _ _ => trivial⟩
      | ok y =>
        obtain ⟨g, st⟩ := y
        exact ⟨⟨Store.mkPath_fit _ hs.file hm, hs.reg⟩, fun _ _ => trivial⟩

theorem optAttr_take (k : String) : ((optAttr k).toList.take 1) = ['O'] := by
  unfold optAttr
  rw [String.toList_ofList]
  rfl

theorem optAttr_plain (k : String) : optAttr k ≠ "base_type" ∧ optAttr k ≠ "type" := by
  constructor <;> intro h <;> have := optAttr_take k <;> rw [h] at this <;> revert this <;> decide

theorem setOptions_fit {g} : ∀ (os : List (String × Bool)) (maps : List Opt), (∀ p ∈ os, p.2 = true → OptionOk p.1) → (∃ pre, maps = pre ++ [none] ∧ ∀ o ∈ pre, o = some "custom") →
    Keeps (FitFile P env T) (setOptions g os maps) (fun maps => Manager.Ok ⟨maps⟩)
  | [], maps, _, hm => .pure hm
  | (k, on) :: os, maps, hos, hm => by
    rw [setOptions]
    split
    · next hon =>
      have hk := hos (k, on) (by simp) hon
      refine .bind (sSetAttr_fit (optAttr_plain k).1 (optAttr_plain k).2 hk) fun _ _ => ?_
      split
      · next hv =>
        refine setOptions_fit os _ (fun p h => hos p (by simp [h])) ?_
        obtain ⟨pre, rfl, hp⟩ := hm
        refine ⟨some k :: pre, rfl, ?_⟩
        intro o ho
        rcases List.mem_cons.1 ho with rfl | ho
        · unfold validOption at hv
          simp only [Bool.or_eq_true, decide_eq_true_eq] at hv
          rcases hv with rfl | rfl
          · rfl
          · exact absurd (show optName (optAttr "hickle-4.x") = some "hickle-4.x" by decide +kernel) hk
        · exact hp o ho
      · exact .throw _
    · exact setOptions_fit os maps (fun p h => hos p (by simp [h])) hm

theorem loaderEnter_fit {g opts} (hos : ∀ os, opts = some os → ∀ p ∈ os, p.2 = true → OptionOk p.1) : Keeps (FitFile P env T) (loaderEnter g opts) (fun m => m.Ok) := by
  unfold loaderEnter
  refine .bind .get fun s _ => ?_
  split
  · exact .throw _
  · refine .bind (Q := fun maps => Manager.Ok ⟨maps⟩) ?_ fun maps hmaps => .bind (Q := fun _ => True) (.modify (fun s hs => ⟨hs.file, hs.reg⟩) trivial) fun _ _ => .pure hmaps
    cases opts with
    | some os => exact setOptions_fit os [none] (hos os rfl) ⟨[], rfl, by simp⟩
    | none =>
      intro s hs
      rw [optionMaps_none]
      refine ⟨hs, fun maps hmaps => Threads.optMaps_ready _ [none] ?_ ⟨[], rfl, by simp⟩ maps hmaps⟩
      unfold Store.attrs
      cases hg : s.store[g]? with
      | none => simp [attrOptions, attrItems]
      | some n => exact hs.file.options n (List.mem_of_getElem? hg)

/-- the names under which base types are known after an existing table has been read -/
theorem refEntries_bases {S : Store} : ∀ (es : List (PyStr × NodeId)) (m0 m : RefMgr), (∀ b n, Assoc.get? m0.bl b = some n → ∃ nd, S[n]? = some nd ∧ unps nd.name = b) →
    refEntries env S m0 es = .ok m → ∀ b n, Assoc.get? m.bl b = some n → ∃ nd, S[n]? = some nd ∧ unps nd.name = b
  | [], m0, m, h, e => by simp only [refEntries, Except.ok.injEq] at e; subst e; exact h
  | p :: es, m0, m, h, e => by
    simp only [refEntries] at e
    cases h1 : refEntry env S m0 p with
    | error err => simp only [h1] at e; simp at e
    | ok m1 =>
      simp only [h1] at e
      refine refEntries_bases es m1 m ?_ e
      unfold refEntry at h1
      cases hs : S[p.2]? with
      | none => simp only [hs] at h1; simp at h1
      | some nd =>
        simp only [hs] at h1
        cases hb : nd.body with
        | group l => simp only [hb] at h1; simp at h1
        | dset d =>
          simp only [hb] at h1
          by_cases hd : d = .null "S1"
          · rw [if_pos hd] at h1
            simp only [Except.ok.injEq] at h1
            subst h1
            intro b n hn
            simp only at hn
            by_cases hbb : b = unps nd.name
            · subst hbb
              rw [Assoc.get?_put_self] at hn
              cases hn
              exact ⟨nd, hs, rfl⟩
            · rw [Assoc.get?_put_ne _ _ (fun h => hbb h.symm)] at hn
              exact h b n hn
          · rw [if_neg hd] at h1
            have : m1.bl = m0.bl := by
              revert h1
              repeat' split
              all_goals first
                | (intro h; simp at h; done)
                | (intro h; simp only [Except.ok.injEq] at h; subst h; rfl)
            rw [this]
            exact h

theorem refInit_fit {g} : ∀ s, FitFile P env T s → FitFile P env T (refInit env g s).2 ∧ ∀ m, (refInit env g s).1 = .ok m →
    ∀ b n, Assoc.get? m.bl b = some n → ∃ nd, (refInit env g s).2.store[n]? = some nd ∧ unps nd.name = b := by
  intro s hs
  unfold refInit
  · cases s.store.links g with
    | none => exact ⟨hs, by simp⟩
    | some ls =>
      simp only []
      cases Assoc.get? ls tableName with
      | none =>
        simp only []
        split
        · cases hc : s.store.create g tableName (.group []) with
          | error e => exact ⟨hs, by simp⟩
          | ok y =>
            obtain ⟨T, st⟩ := y
            refine ⟨⟨hs.file.create hc (by simp), hs.reg⟩, fun m hm b n hn => ?_⟩
            cases hm
            simp at hn
        · refine ⟨⟨hs.file, hs.reg⟩, fun m hm b n hn => ?_⟩
          cases hm
          simp at hn
      | some T =>
        simp only []
        cases s.store.links T with
        | none => exact ⟨hs, by simp⟩
        | some es =>
          simp only []
          split
          · cases hr : refEntries env s.store ⟨some T, [], [], []⟩ es with
            | error e => exact ⟨hs, by simp⟩
            | ok m0 =>
              refine ⟨⟨hs.file, hs.reg⟩, fun m hm b n hn => ?_⟩
              cases hm
              exact refEntries_bases es _ _ (by simp) hr b n hn
          · refine ⟨⟨hs.file, hs.reg⟩, fun m hm b n hn => ?_⟩
            cases hm
            simp at hn

theorem refEnter_fit {g} : ∀ s, FitFile P env T s → FitFile P env T (refEnter env g s).2 ∧ ∀ m, (refEnter env g s).1 = .ok m →
    ∀ b n, Assoc.get? m.bl b = some n → ∃ nd, (refEnter env g s).2.store[n]? = some nd ∧ unps nd.name = b := by
  intro s hs
  obtain ⟨h1, h2⟩ := refInit_fit (g := g) s hs
  unfold refEnter
  rw [M.bind_of_ok (M.get_apply s)]
  split
  · exact ⟨hs, by simp⟩
  · rw [M.bind_apply]
    revert h1 h2
    generalize refInit env g s = y
    obtain ⟨y1, y2⟩ := y
    intro h1 h2
    cases y1 with
    | error e => exact ⟨h1, by simp⟩
    | ok m0 =>
      refine ⟨⟨h1.file, h1.reg⟩, fun m hm => ?_⟩
      cases hm
      exact h2 m0 rfl

theorem dumpTop_fit {a : DumpArgs} (hT : Fits P a.env T) (hE : EnvOk P a.env) (hc : ∀ o ∈ a.heap, GoodCls P a.env o.cls) (hos : ∀ os, a.options = some os → ∀ p ∈ os, p.2 = true → OptionOk p.1) :
    Keeps (FitFile P a.env T) (dumpTop a) := by
  unfold dumpTop
  refine .bind .get fun s _ => ?_
  split
  · exact .throw _
  · refine .bind dumpGroup_fit fun g _ => .bind (sSetAttr_fit (by decide) (by decide) (by unfold Harmless; decide)) fun _ _ =>
      .bind (sSetAttr_fit (by decide) (by decide) (by unfold Harmless; decide)) fun _ _ =>
      .bind (loaderEnter_fit hos) fun mgr hmgr => finally_keeps ?_ (.modify (fun s hs => ⟨hs.file, hs.reg⟩) trivial)
    intro s hs
    obtain ⟨h1, h2⟩ := refEnter_fit (g := g) s hs
    rw [M.bind_apply]
    revert h1 h2
    generalize refEnter a.env g s = y
    obtain ⟨y1, y2⟩ := y
    intro h1 h2
    cases y1 with
    | error e => exact ⟨h1, fun _ _ => trivial⟩
    | ok m =>
      simp only []
      have key : FitFile P a.env T (dumpData a g mgr m y2).2 := by
        unfold dumpData
        cases m.table with
        | none => exact h1
        | some tb =>
          have := (dumpNode_fit (c := ⟨a.env, mgr, a.kw, tb⟩) hT hE hmgr a.fuel a.obj g dataName0 [] ⟨by simp, by simp⟩
            { heap := a.heap, store := y2.store, tlinks := m.tl, blinks := m.bl, reg := y2.reg } ⟨h1.file, h2 m rfl, hc, h1.reg, RegLe.refl _⟩).1
          exact ⟨this.file, this.reg⟩
      refine ⟨?_, fun _ _ => trivial⟩
      have e : (finally' (dumpData a g mgr m) (refExit m) y2).2 = (refExit m (dumpData a g mgr m y2).2).2 := by
        unfold finally'
        rw [M.bind_of_ok (M.attempt_apply _ _)]
        rfl
      rw [e]
      exact ⟨key.file, key.reg⟩

theorem loadTop_fit {a : LoadArgs} (hE : EnvOk P a.env) : Keeps (FitFile P a.env fun _ => UsualType P a.env) (loadTop a) := by
  intro s hs
  obtain ⟨_, h2, _⟩ := loadTop_two hE s s ⟨rfl, hs.reg, hs.reg, hs.file⟩
  exact ⟨⟨h2.file, h2.left⟩, fun _ _ => trivial⟩

theorem loadTop_fits {a : LoadArgs} (hT : Fits P a.env T) (hE : EnvOk P a.env) (hP : ProtOk P a.env) : Keeps (FitFile P a.env T) (loadTop a) := by
  unfold loadTop
  refine .bind (Keeps.attempt (Q := fun _ => True) ?_) fun r _ => ?_
  · unfold loadTry
    refine .bind .get fun s _ => ?_
    split
    · exact .throw _
    · split
      · exact .throw _
      · split
        · exact .throw _
        · split
          · exact .throw _
          · exact .throw _
          · exact .throw _
          · refine .bind (loaderEnter_fit (by simp)) fun mgr _ => finally_keeps (.bind (Q := fun _ => True) (fun s hs => ⟨(refEnter_fit s hs).1, fun _ _ => trivial⟩) fun m _ => finally_keeps ?_ (.modify (fun s hs => ⟨hs.file, hs.reg⟩) trivial)) (.modify (fun s hs => ⟨hs.file, hs.reg⟩) trivial)
            intro s hs
            unfold loadBodyTop
            split
            · exact ⟨hs, fun _ _ => trivial⟩
            · split
              · exact ⟨hs, fun _ _ => trivial⟩
              · next d _ =>
                have h1 := (loadNode_grows (r0 := s.reg) (c := ⟨a.env, mgr, s.store, a.order⟩) a.fuel (.root []) dataName0 d { heap := loadHeap, tcache := m.tc, reg := s.reg } (RegLe.refl s.reg)).1
                have h2 := (loadNode_keeps (P := P) (c := ⟨a.env, mgr, s.store, a.order⟩) hE hP a.fuel (.root []) dataName0 d { heap := loadHeap, tcache := m.tc, reg := s.reg } hs.reg).1
                have h3 : FitFile P a.env T { s with reg := (loadNode ⟨a.env, mgr, s.store, a.order⟩ a.fuel (.root []) dataName0 d { heap := loadHeap, tcache := m.tc, reg := s.reg }).2.reg } :=
                  ⟨hs.file.mono fun _ _ => hT.mono h1, h2⟩
                simp only []
                split <;> exact ⟨h3, fun _ _ => trivial⟩
  · split
    · exact .pure trivial
    · exact .throw _

end Verif
