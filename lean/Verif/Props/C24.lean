import Verif.Props.C26
/-!
# C24 Loader options chosen at dump are in force at load

Specification: `ActiveSets`, the sets of loaders a `load` uses.  `C24_violated`, `C24_violated_ever`: options left over in the attributes of a group by a
call that failed are also in force.
-/
namespace Verif

variable {P : Nat → Prop}

/-- the sets of loaders `load` uses for path `p` of the file, in the order in which they are searched -/
def ActiveSets (S : Store) (p : List PyStr) (sets : List Opt) : Prop :=
  ∃ g, S.resolve 0 p = some g ∧ ∀ s : Session, s.store = S → s.ldr = false → loaderEnter g none s = (.ok ⟨sets⟩, { s with ldr := true })

/-- attributes of the group at path `p`, if there is one -/
def attrsAt (S : Store) (p : List PyStr) : Attrs :=
  match S.resolve 0 p with
  | some g => (S.attrs g).getD []
  | none => []

/-- the attributes after the options have been written -/
def withOptions : List (String × Bool) → Attrs → Attrs
  | [], at' => at'
  | (k, true) :: os, at' => withOptions os (Assoc.put at' (optAttr k) (.bool true))
  | (_, false) :: os, at' => withOptions os at'

theorem attrItems_of_mem {l : Attrs} {p : String × AttrVal} (h : p ∈ attrItems l) {k : String} (hk : p.1 = k) : Assoc.get? l k = some p.2 := by
  induction l with
  | nil => simp [attrItems] at h
  | cons q l ih =>
    obtain ⟨k', v⟩ := q
    simp only [attrItems, List.mem_cons, List.mem_filter, decide_eq_true_eq] at h
    simp only [Assoc.get?]
    rcases h with rfl | ⟨h1, h2⟩
    · simp at hk; simp [hk]
    · rw [if_neg]
      · exact ih h1
      · intro e; exact h2 (by rw [hk]; exact e.symm)

theorem mem_attrOptions_iff {l : Attrs} {k : String} {v : AttrVal} {o : String} (hv : v.truthy = true ∨ optName k = none) :
    o ∈ attrOptions (Assoc.put l k v) ↔ optName k = some o ∨ o ∈ attrOptions l := by
  constructor
  · exact mem_attrOptions_put
  · intro h
    simp only [attrOptions, Assoc.put, attrItems, List.mem_filterMap, List.mem_cons, List.mem_filter] at h ⊢
    rcases h with h | ⟨p, hp, ho⟩
    · refine ⟨(k, v), .inl rfl, ?_⟩
      rcases hv with hv | hv
      · simp [hv, h]
      · rw [hv] at h; simp at h
    · by_cases e : p.1 = k
      · rcases hv with hv | hv
        · refine ⟨(k, v), .inl rfl, ?_⟩
          split at ho
          · simp only [hv, if_true]; rw [← e]; exact ho
          · simp at ho
        · split at ho
          · rw [e, hv] at ho; simp at ho
          · simp at ho
      · exact ⟨p, .inr ⟨hp, by simpa using e⟩, ho⟩

theorem validOption_name {k : String} (h : validOption k = true) : optName (optAttr k) = some k := by
  simp only [validOption, Bool.or_eq_true, decide_eq_true_eq] at h
  rcases h with rfl | rfl <;> decide

theorem mem_withOptions {os : List (String × Bool)} (hv : ∀ k, (k, true) ∈ os → validOption k = true) {at' : Attrs} {o : String} :
    o ∈ attrOptions (withOptions os at') ↔ (o, true) ∈ os ∨ o ∈ attrOptions at' := by
  induction os generalizing at' with
  | nil => simp [withOptions]
  | cons p os ih =>
    obtain ⟨k, on⟩ := p
    cases on with
    | false => simp only [withOptions]; rw [ih (fun k h => hv k (by simp [h]))]; simp
    | true =>
      simp only [withOptions]
      rw [ih (fun k h => hv k (by simp [h])), mem_attrOptions_iff (.inl rfl), validOption_name (hv k (by simp))]
      simp only [List.mem_cons, Prod.mk.injEq, and_true, Option.some.injEq]
      constructor
      · rintro (h | h | h)
        · exact .inl (.inr h)
        · exact .inl (.inl h.symm)
        · exact .inr h
      · rintro ((h | h) | h)
        · exact .inr (.inl h.symm)
        · exact .inl h
        · exact .inr (.inr h)

theorem setOptions_attrs {path g s0} (os : List (String × Bool)) : ∀ {s maps r s' at'},
    Ready path g (· = at') s0 s → setOptions g os maps s = (.ok r, s') →
      Ready path g (· = withOptions os at') s0 s' ∧ ∀ k, (k, true) ∈ os → validOption k = true := by
  induction os with
  | nil =>
    intro s maps r s' at' h he
    simp only [setOptions] at he
    obtain ⟨rfl, rfl⟩ : maps = r ∧ s = s' := by simpa using he
    exact ⟨h, by simp⟩
  | cons o os ih =>
    obtain ⟨k, on⟩ := o
    intro s maps r s' at' h he
    cases on with
    | false =>
      simp only [setOptions, Bool.false_eq_true, if_false] at he
      obtain ⟨h1, h2⟩ := ih h he
      exact ⟨h1, fun k' hk => h2 k' (by simpa using hk)⟩
    | true =>
      simp only [setOptions, if_true] at he
      obtain ⟨s1, e1, h1⟩ := h.set (Q' := (· = Assoc.put at' (optAttr k) (.bool true))) (k := optAttr k) (v := .bool true) (fun x hx => by rw [hx])
      rw [M.bind_of_ok e1] at he
      by_cases hv : validOption k = true
      · rw [if_pos hv] at he
        obtain ⟨h1, h2⟩ := ih h1 he
        refine ⟨h1, fun k' hk => ?_⟩
        simp only [List.mem_cons, Prod.mk.injEq, and_true] at hk
        rcases hk with rfl | hk
        · exact hv
        · exact h2 k' hk
      · rw [if_neg hv] at he; simp at he

theorem Tree.resolve_lt {S : Store} (hT : Tree S) {q : List PyStr} {x : NodeId} (h : S.resolve 0 q = some x) : x < S.length := by
  rcases List.eq_nil_or_concat q with rfl | ⟨q0, z, rfl⟩
  · simp [Store.resolve] at h
    subst h
    obtain ⟨ls, hl⟩ := hT.root
    obtain ⟨nd, h1, _⟩ := Store.links_eq hl
    exact lt_of_getElem? h1
  · simp only [List.concat_eq_append] at h
    obtain ⟨y, ls, _, g2, g3⟩ := Store.resolve_snoc h
    exact (hT.up y ls g2 _ (Assoc.get?_mem g3)).2

/-- attributes of the target group before and after a dump that returned, and the loaders it used -/
theorem dumpTop_attrs {a : DumpArgs} {s s' : Session} (hE : EnvOk P a.env) (hP : ProtOk P a.env) (hreg : RegInv P s.reg) (hT : Tree s.store)
    (h : dumpTop a s = (.ok (), s')) : ∃ g at' ls, s'.store.resolve 0 a.path = some g ∧ s'.store.attrs g = some at' ∧ s'.store.links g = some ls ∧ ls ≠ [] ∧
      match a.options with
      | some os => (∀ k, (k, true) ∈ os → validOption k = true) ∧ ∀ o, o ∈ attrOptions at' ↔ (o, true) ∈ os ∨ o ∈ attrOptions (attrsAt s.store a.path)
      | none => (∀ o ∈ attrOptions at', validOption o = true) ∧ ∀ o, o ∈ attrOptions at' ↔ o ∈ attrOptions (attrsAt s.store a.path) := by
  unfold dumpTop at h
  rw [M.bind_of_ok (M.get_apply s)] at h
  cases hw : s.writable with
  | false => rw [hw] at h; simp at h
  | true =>
  rw [hw] at h
  simp only [Bool.not_true, Bool.false_eq_true, if_false] at h
  cases hd : dumpGroup a.path s with
  | mk x s1 =>
  cases x with
  | error e => rw [M.bind_of_error hd] at h; simp at h
  | ok g =>
  rw [M.bind_of_ok hd] at h
  obtain ⟨ht, hs1⟩ := dumpGroup_ok hd
  -- the attributes of the group
  have hQ : s1.store.attrs g = some (attrsAt s.store a.path) := by
    obtain ⟨nd, hn, _⟩ := Store.links_eq ht.empty
    have hat : s1.store.attrs g = some nd.attrs := by simp [Store.attrs, hn]
    have hat0 := hat
    rw [ht.attrs] at hat
    split at hat
    · next hlt =>
      rcases ht.place with hp | ⟨⟨q1, hq, hr⟩, _⟩
      · omega
      · have hr2 : s1.store.resolve 0 q1 = some g := Store.resolve_ext ht.chg.glinks hr
        have : q1 = a.path := (ht.chg.tree hT).path_unique _ _ hr2 ht.res
        subst this
        rw [hat0]; simp [attrsAt, hr, hat]
    · next hge =>
      have hr : s.store.resolve 0 a.path = none := by
        cases hr : s.store.resolve 0 a.path with
        | none => rfl
        | some x =>
          have hr2 := Store.resolve_ext ht.chg.glinks hr
          rw [ht.res] at hr2; simp at hr2; subst hr2
          exact absurd (hT.resolve_lt hr) hge
      rw [hat0]; simp [attrsAt, hr]
      simpa using hat.symm
  have r1 : Ready a.path g (· = attrsAt s.store a.path) s s1 := ⟨ht.chg.tree hT, ht.res, ht.empty, ⟨_, hQ, rfl⟩, hs1⟩
  obtain ⟨s2, e2, r2⟩ := r1.set (k := "HICKLE_VERSION") (v := .bytes hickleVersion) (Q' := (· = _)) (fun x hx => by rw [hx])
  rw [M.bind_of_ok e2] at h
  obtain ⟨s3, e3, r3⟩ := r2.set (k := "HICKLE_PYTHON_VERSION") (v := .bytes (verText a.pyver)) (Q' := (· = _)) (fun x hx => by rw [hx])
  rw [M.bind_of_ok e3] at h
  have hopt : ∀ o, o ∈ attrOptions (Assoc.put (Assoc.put (attrsAt s.store a.path) "HICKLE_VERSION" (.bytes hickleVersion)) "HICKLE_PYTHON_VERSION" (.bytes (verText a.pyver))) ↔
      o ∈ attrOptions (attrsAt s.store a.path) := by
    intro o
    have n1 : optName "HICKLE_VERSION" = none := by decide
    have n2 : optName "HICKLE_PYTHON_VERSION" = none := by decide
    rw [mem_attrOptions_iff (.inr n2), mem_attrOptions_iff (.inr n1), n1, n2]
    simp
  generalize Assoc.put (Assoc.put (attrsAt s.store a.path) "HICKLE_VERSION" (.bytes hickleVersion)) "HICKLE_PYTHON_VERSION" (.bytes (verText a.pyver)) = at3 at r3 hopt
  -- the loader manager
  cases hle : loaderEnter g a.options s3 with
  | mk x s4 =>
  cases x with
  | error e => rw [M.bind_of_error hle] at h; simp at h
  | ok mgr =>
  rw [M.bind_of_ok hle] at h
  obtain ⟨s3', at4, r4, hat4, hs4⟩ : ∃ s3' at4, Ready a.path g (· = at4) s s3' ∧ (match a.options with
      | some os => (∀ k, (k, true) ∈ os → validOption k = true) ∧ ∀ o, o ∈ attrOptions at4 ↔ (o, true) ∈ os ∨ o ∈ attrOptions (attrsAt s.store a.path)
      | none => (∀ o ∈ attrOptions at4, validOption o = true) ∧ ∀ o, o ∈ attrOptions at4 ↔ o ∈ attrOptions (attrsAt s.store a.path)) ∧ s4 = { s3' with ldr := true } := by
    unfold loaderEnter at hle
    rw [M.bind_of_ok (M.get_apply s3)] at hle
    split at hle
    · simp at hle
    · cases hx : optionMaps g a.options s3 with
      | mk y s3' =>
      cases y with
      | error e => rw [M.bind_of_error hx] at hle; simp at hle
      | ok maps =>
        rw [M.bind_of_ok hx, M.bind_of_ok (M.modify_apply _ _)] at hle
        simp at hle
        obtain ⟨rfl, rfl⟩ := hle
        cases hopt' : a.options with
        | none =>
          rw [hopt', optionMaps_none] at hx
          obtain ⟨hx1, rfl⟩ := Prod.mk.inj hx
          refine ⟨_, at3, r3, ⟨?_, hopt⟩, rfl⟩
          obtain ⟨at', h1, rfl⟩ := r3.attrs
          rw [h1, Option.getD_some] at hx1
          have key : ∀ (l : List String) acc, optMaps l acc = .ok maps → ∀ o ∈ l, validOption o = true := by
            intro l
            induction l with
            | nil => simp
            | cons k l ih =>
              intro acc h o ho
              simp only [optMaps] at h
              split at h
              · next hv =>
                simp at ho
                rcases ho with rfl | ho
                · exact hv
                · exact ih _ h o ho
              · simp at h
          exact key _ _ hx1
        | some os =>
          rw [hopt'] at hx
          obtain ⟨k1, k2⟩ := setOptions_attrs os r3 hx
          refine ⟨_, _, k1, ⟨k2, fun o => ?_⟩, rfl⟩
          rw [mem_withOptions k2, hopt]
  unfold loaderExit at h
  rw [finally'_modify] at h
  obtain ⟨hin, hst⟩ := Prod.mk.inj h
  rw [← hst]
  simp only
  -- the reference manager
  cases hre : refEnter a.env g s4 with
  | mk x s5 =>
  cases x with
  | error e => rw [M.bind_of_error hre] at hin; simp at hin
  | ok rm =>
  rw [M.bind_of_ok hre] at hin ⊢
  unfold refExit at hin ⊢
  rw [finally'_modify] at hin ⊢
  simp only at hin ⊢
  have hw4 : s4.writable = true := by rw [hs4]; show s3'.writable = true; rw [r4.rest]; exact hw
  have hst4 : s4.store = s3'.store := by rw [hs4]
  have hreg4 : s4.reg = s.reg := by rw [hs4]; show s3'.reg = s.reg; rw [r4.rest]
  have hl4 : s4.store.links g = some [] := by rw [hst4]; exact r4.empty
  obtain ⟨T, st, hcr, rfl, hs5⟩ : ∃ T st, s4.store.create g tableName (.group []) = .ok (T, st) ∧ rm = ⟨some T, [], [], []⟩ ∧
      s5 = { s4 with store := st, ref := true } := by
    unfold refEnter at hre
    rw [M.bind_of_ok (M.get_apply s4)] at hre
    split at hre
    · simp at hre
    · cases hc : s4.store.create g tableName (.group []) with
      | error e =>
        have : refInit a.env g s4 = (.error e, s4) := by
          unfold refInit; simp only [hl4, Assoc.get?_nil, hw4, if_true, hc]
        rw [M.bind_of_error this] at hre; simp at hre
      | ok p =>
        obtain ⟨T, st⟩ := p
        have : refInit a.env g s4 = (.ok ⟨some T, [], [], []⟩, { s4 with store := st }) := by
          unfold refInit; simp only [hl4, Assoc.get?_nil, hw4, if_true, hc]
        rw [M.bind_of_ok this, M.bind_of_ok (M.modify_apply _ _)] at hre
        simp at hre
        exact ⟨T, st, rfl, hre.1.symm, hre.2.symm⟩
  have x1 : SExt s4.store st := SExt.create hcr
  unfold dumpData at hin ⊢
  rw [hs5] at hin ⊢
  simp only at hin ⊢
  have h0 : Going P st.length g T dataName0 st a.heap { heap := a.heap, store := st, tlinks := [], blinks := [], reg := s4.reg } :=
    ⟨.refl, Nat.le_refl _, by rw [← hreg4] at hreg; exact hreg, List.prefix_rfl⟩
  have hgo := (dumpNode_keeps (c := ⟨a.env, mgr, a.kw, T⟩) hE hP a.fuel a.obj g dataName0 [] (.inl ⟨rfl, rfl⟩) _ h0).1
  generalize (dumpNode ⟨a.env, mgr, a.kw, T⟩ a.fuel a.obj g dataName0 [] { heap := a.heap, store := st, tlinks := [], blinks := [], reg := s4.reg }).2 = sd at hgo
  have x2 := x1.trans (hgo.grow.ext rfl)
  obtain ⟨ls0, c1, c2, _⟩ := Store.create_links rfl hcr
  obtain ⟨l2, c3⟩ := (hgo.grow.ext rfl).links g _ c2
  refine ⟨g, at4, _, ?_, ?_, c3, by simp, hat4⟩
  · refine Store.resolve_ext x2.links ?_
    rw [hst4]; exact r4.res
  · obtain ⟨at', h1, rfl⟩ := r4.attrs
    rw [← hst4] at h1
    unfold Store.attrs at h1 ⊢
    cases hn : s4.store[g]? with
    | none => rw [hn] at h1; simp at h1
    | some nd =>
      rw [hn] at h1; simp at h1
      obtain ⟨nd', k1, k2⟩ := x2 g nd hn
      rw [k1]; simp [k2.attrs, h1]

/-- the attributes of a group that has members never change again -/
theorem runOps_attrs {p : List PyStr} {g : NodeId} {at' : Attrs} {ls : List (PyStr × NodeId)} {ops : List Op} {s : Session} (ho : ∀ o ∈ ops, o.ok P) (hs : FileOk P s)
    (h1 : s.store.resolve 0 p = some g) (h2 : s.store.attrs g = some at') (h3 : s.store.links g = some ls) (h4 : ls ≠ []) :
    (runOps ops s).store.resolve 0 p = some g ∧ (runOps ops s).store.attrs g = some at' := by
  induction ops generalizing s ls with
  | nil => exact ⟨h1, h2⟩
  | cons o ops ih =>
    obtain ⟨k1, q, _, _, k4, _⟩ := Op.chg (ho o (by simp)) hs
    obtain ⟨l, hl⟩ := k4.glinks g ls h3
    refine ih (fun o' h => ho o' (by simp [h])) k1 (Store.resolve_ext k4.glinks h1) ?_ hl (by simp [h4])
    obtain ⟨gd, hg1, hg2⟩ := Store.links_eq h3
    obtain ⟨gd', j1, _, _, _, j2, _⟩ := k4.keep g gd hg1
    have : gd'.attrs = gd.attrs := by
      apply j2
      rw [hg2]; intro e; simp at e; exact h4 e
    rw [← h2]; simp [Store.attrs, j1, hg1, this]

theorem optMaps_valid : ∀ (l : List String) (acc : List Opt), (∀ o ∈ l, validOption o = true) → optMaps l acc = .ok ((l.map some).reverse ++ acc) := by
  intro l
  induction l with
  | nil => intro acc _; rfl
  | cons k l ih =>
    intro acc h
    simp only [optMaps]
    rw [if_pos (h k (by simp)), ih _ (fun o ho => h o (by simp [ho]))]
    simp

/-- a load uses the sets of loaders named by the attributes -/
theorem activeSets_of {S : Store} {p : List PyStr} {g : NodeId} {at' : Attrs} (h1 : S.resolve 0 p = some g) (h2 : S.attrs g = some at')
    (h3 : ∀ o ∈ attrOptions at', validOption o = true) : ActiveSets S p (((attrOptions at').map some).reverse ++ [none]) := by
  refine ⟨g, h1, ?_⟩
  rintro s rfl hl
  unfold loaderEnter
  rw [M.bind_of_ok (M.get_apply s), hl]
  simp only [Bool.false_eq_true, if_false]
  have : optionMaps g none s = (.ok (((attrOptions at').map some).reverse ++ [none]), s) := by
    rw [optionMaps_none, h2, Option.getD_some, optMaps_valid _ _ h3]
  rw [M.bind_of_ok this]
  rfl

/-- **C24 (partial).**  After a dump that returned, and after any later calls on the file, the sets of loaders used by `load` are
those switched on in the options of that dump, and after them the global set.  The group may have carried attributes before, as
long as none of them names an option that the dump did not switch on.
Missing: such attributes left over on the group (`C24_violated`). -/
theorem C24_partial {a : DumpArgs} {s s' : Session} (hE : EnvOk P a.env) (hP : ProtOk P a.env) (hs : FileOk P s) {os : List (String × Bool)} (ha : a.options = some os)
    (hold : ∀ o ∈ attrOptions (attrsAt s.store a.path), (o, true) ∈ os) (h : dumpTop a s = (.ok (), s')) {ops : List Op} (hops : ∀ o ∈ ops, o.ok P) :
    ∃ sets, ActiveSets (runOps ops s').store a.path (sets ++ [none]) ∧ ∀ o, o ∈ sets ↔ ∃ k, o = some k ∧ (k, true) ∈ os := by
  obtain ⟨g, at', ls, h1, h2, h3, h4, h5⟩ := dumpTop_attrs hE hP hs.reg hs.tree h
  rw [ha] at h5
  obtain ⟨h5, h6⟩ := h5
  have hon : ∀ o, o ∈ attrOptions at' ↔ (o, true) ∈ os := fun o => (h6 o).trans ⟨fun h => h.elim id (hold o), .inl⟩
  have hf : FileOk P s' := by
    have := (Op.chg (o := .dump a) ⟨hE, hP⟩ hs).1
    simpa only [Op.run, h] using this
  obtain ⟨j1, j2⟩ := runOps_attrs hops hf h1 h2 h3 h4
  refine ⟨_, activeSets_of j1 j2 (fun o ho => h5 o ((hon o).1 ho)), fun o => ?_⟩
  simp only [List.mem_reverse, List.mem_map]
  constructor
  · rintro ⟨k, hk, rfl⟩; exact ⟨k, rfl, (hon k).1 hk⟩
  · rintro ⟨k, rfl, hk⟩; exact ⟨k, (hon k).2 hk, rfl⟩

/-- **C24, options taken from the group.**  With `options=None` the dump uses the sets named by the attributes of the group, and so
does every later load. -/
theorem C24_none {a : DumpArgs} {s s' : Session} (hE : EnvOk P a.env) (hP : ProtOk P a.env) (hs : FileOk P s) (ha : a.options = none)
    (h : dumpTop a s = (.ok (), s')) {ops : List Op} (hops : ∀ o ∈ ops, o.ok P) :
    ∃ sets, ActiveSets (runOps ops s').store a.path (sets ++ [none]) ∧ ∀ o, o ∈ sets ↔ ∃ k, o = some k ∧ k ∈ attrOptions (attrsAt s.store a.path) := by
  obtain ⟨g, at', ls, h1, h2, h3, h4, h5⟩ := dumpTop_attrs hE hP hs.reg hs.tree h
  rw [ha] at h5
  obtain ⟨h5, h6⟩ := h5
  have hf : FileOk P s' := by
    have := (Op.chg (o := .dump a) ⟨hE, hP⟩ hs).1
    simpa only [Op.run, h] using this
  obtain ⟨j1, j2⟩ := runOps_attrs hops hf h1 h2 h3 h4
  refine ⟨_, activeSets_of j1 j2 h5, fun o => ?_⟩
  simp only [List.mem_reverse, List.mem_map]
  constructor
  · rintro ⟨k, hk, rfl⟩; exact ⟨k, rfl, (h6 k).1 hk⟩
  · rintro ⟨k, rfl, hk⟩; exact ⟨k, (h6 k).2 hk, rfl⟩

/-- **C24, unknown options.**  A dump with an option that is switched on and is not known does not return. -/
theorem C24_unknown {a : DumpArgs} {s : Session} (hE : EnvOk P a.env) (hP : ProtOk P a.env) (hs : FileOk P s) {os : List (String × Bool)} (ha : a.options = some os)
    {k : String} (hk : (k, true) ∈ os) (hv : k ≠ "custom" ∧ k ≠ "hickle-4.x") : Ex.isOk (dumpTop a s).1 = false := by
  cases hx : dumpTop a s with
  | mk x s' =>
    cases x with
    | error e => rfl
    | ok u =>
      obtain ⟨g, at', ls, _, _, _, _, h5⟩ := dumpTop_attrs hE hP hs.reg hs.tree hx
      rw [ha] at h5
      have := h5.1 k hk
      simp [validOption, hv.1, hv.2] at this

/-- a dump with an option switched on and another one switched off -/
def Ex.optArgs : DumpArgs := { Ex.dumpArgs with options := some [("custom", true), ("hickle-4.x", false)] }

example : ∃ s', dumpTop Ex.optArgs Ex.file0 = (.ok (), s') ∧ ∃ sets, ActiveSets s'.store Ex.optArgs.path (sets ++ [none]) ∧
    ∀ o, o ∈ sets ↔ ∃ k, o = some k ∧ (k, true) ∈ [("custom", true), ("hickle-4.x", false)] := by
  have h : Ex.isOk (dumpTop Ex.optArgs Ex.file0).1 = true := by decide +kernel
  obtain ⟨_, h'⟩ := Ex.eq_of_isOk h
  exact ⟨_, h', C24_partial (ops := []) Ex.envOk Ex.protOk Ex.file0_ok rfl (by decide +kernel) h' (by simp)⟩

/-- **C24 is violated.**  A dump with an unknown option is refused, but by then the option has been written to the group.  A second
dump to the same group without that option returns, and its data can not be loaded, as the option is in force and unknown. -/
theorem C24_violated :
    let first := dumpTop { Ex.dumpArgs with options := some [("compact", true)] } Ex.file0
    let second := dumpTop Ex.dumpArgs first.2
    Ex.raised first.1 = some .lookupError ∧ Ex.isOk second.1 = true ∧
    attrOptions (attrsAt second.2.store Ex.dumpArgs.path) = ["compact"] ∧
    Ex.raised (loadTop ⟨Ex.env, Ex.dumpArgs.path, id, 100⟩ second.2).1 = some .valueError := by
  refine ⟨by decide +kernel, by decide +kernel, by decide +kernel, by decide +kernel⟩

theorem optMaps_known : ∀ {ks : List String} {maps r : List Opt}, optMaps ks maps = .ok r → ∀ k ∈ ks, validOption k = true
  | [], _, _, _ => by simp
  | k :: ks, maps, r, h => by
    unfold optMaps at h
    split at h
    · next hv =>
      intro j hj
      rcases List.mem_cons.1 hj with rfl | hj
      · exact hv
      · exact optMaps_known h j hj
    · cases h

/-- a load that returns has found no unknown option at the group -/
theorem loadTop_options {a : LoadArgs} {s s' : Session} {r : Heap × Addr} (h : loadTop a s = (.ok r, s')) :
    ∀ k ∈ attrOptions (attrsAt s.store a.path), validOption k = true := by
  unfold loadTop at h
  rw [M.bind_of_ok (M.attempt_apply _ _)] at h
  cases he : loadTry a s with
  | mk x s1 =>
    rw [he] at h
    cases x with
    | error e => simp at h
    | ok v =>
      unfold loadTry at he
      rw [M.bind_of_ok (M.get_apply s)] at he
      cases hp : pathOk a.path with
      | error e => rw [hp] at he; simp at he
      | ok u =>
        rw [hp] at he; simp only [] at he
        cases hr : s.store.resolve 0 a.path with
        | none => rw [hr] at he; simp at he
        | some g =>
          rw [hr] at he; simp only [] at he
          cases hl : s.store.links g with
          | none => rw [hl] at he; simp at he
          | some ls0 =>
            rw [hl] at he; simp only [] at he
            cases hro : route ((s.store.attrs 0).getD []) ((s.store.attrs g).getD []) with
            | v3 => rw [hro] at he; simp at he
            | v4 => rw [hro] at he; simp at he
            | refuse e => rw [hro] at he; simp at he
            | current =>
              rw [hro] at he; simp only [] at he
              rw [M.bind_apply] at he
              cases hle : loaderEnter g none s with
              | mk x s2 =>
                rw [hle] at he
                cases x with
                | error e => simp at he
                | ok mgr =>
                  unfold loaderEnter at hle
                  rw [M.bind_of_ok (M.get_apply s)] at hle
                  split at hle
                  · simp at hle
                  · unfold optionMaps at hle
                    cases ho : optMaps (attrOptions ((s.store.attrs g).getD [])) [none] with
                    | error e => simp [M.bind_apply, ho, M.ofExcept] at hle
                    | ok maps => simpa [attrsAt, hr] using optMaps_known ho

/-- **C24 is violated by every unknown option that was left over.**  Once the group has such an option, no load from it ever returns, and dumping
to it again does not help: a dump with options that returns leaves the option there, so its data can not be loaded either. -/
theorem C24_violated_ever {s : Session} {path : List PyStr} {k : String} (hk : k ∈ attrOptions (attrsAt s.store path)) (hv : k ≠ "custom" ∧ k ≠ "hickle-4.x") :
    (∀ b : LoadArgs, b.path = path → ∀ t : Session, t.store = s.store → ∀ r t', loadTop b t ≠ (.ok r, t')) ∧
    ∀ a : DumpArgs, a.path = path → EnvOk P a.env → ProtOk P a.env → FileOk P s → ∀ os, a.options = some os → ∀ s', dumpTop a s = (.ok (), s') →
      ∀ b : LoadArgs, b.path = path → ∀ t : Session, t.store = s'.store → ∀ r t', loadTop b t ≠ (.ok r, t') := by
  have hno : validOption k = false := by simp [validOption, hv.1, hv.2]
  refine ⟨fun b hb t ht r t' h => ?_, fun a ha hE hP hs os hos s' hd b hb t ht r t' h => ?_⟩
  · have := loadTop_options h k (by rw [ht, hb]; exact hk)
    rw [hno] at this; cases this
  · obtain ⟨g, at', ls, h1, h2, _, _, h5⟩ := dumpTop_attrs hE hP hs.reg hs.tree hd
    rw [hos] at h5
    have := loadTop_options h k (by
      rw [ht, hb, ← ha]
      simp only [attrsAt, h1, h2, Option.getD_some]
      exact (h5.2 k).2 (.inr (by rw [ha]; exact hk)))
    rw [hno] at this; cases this

/-- the option is there after the first dump of `C24_violated` -/
example : "compact" ∈ attrOptions (attrsAt (dumpTop { Ex.dumpArgs with options := some [("compact", true)] } Ex.file0).2.store Ex.dumpArgs.path) := by decide +kernel

end Verif
