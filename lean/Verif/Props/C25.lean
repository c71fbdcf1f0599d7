import Verif.Props.Examples
/-!
# C25 Core loaders can not be replaced or disabled

Histories of registrations: `RegEvent`.  `C25_pickle` holds of all of them; `C25_partial` of those without a call of
`register_class_exclude` for the base type.  `C25_violated`: such a call is not refused, and then shared references can not be
loaded any more.
-/
namespace Verif

/-- what changes the tables of loaders -/
inductive RegEvent where
  /-- `LoaderManager.register_class(...)` -/
  | register (a : RegArgs)
  /-- `LoaderManager.register_class_exclude(base, option)` -/
  | exclude (base : String) (o : Opt)
  /-- `load_loader` while dumping or loading, which imports loader modules and runs their registrations -/
  | lookup (env : Env) (m : Manager) (c : Cls) (base : Option String)

/-- the tables afterwards, whether the call returned or raised -/
def RegEvent.run : RegEvent → Registry → Registry
  | .register a, r => (registerClass a r).2
  | .exclude b o, r => (registerExclude b o r).2
  | .lookup env m c base, r => (loadLoader env m c base r).2

def runRegs : List RegEvent → Registry → Registry
  | [], r => r
  | e :: es, r => runRegs es (e.run r)

/-- base type `b` is excluded by the event: directly or by a loader module it imports -/
def RegEvent.excludes (b : String) : RegEvent → Prop
  | .register _ => False
  | .exclude b' _ => b' = b
  | .lookup env _ _ _ => ∃ p lm o, env.mods p = some lm ∧ (b, o) ∈ lm.exclude

/-- load function and container class of base type `b` in the set of loaders `o` -/
def look (r : Registry) (b : String) (o : Opt) : Option LoadFn × Option ContK :=
  match r.tables o with
  | some t => (Assoc.get? t.fns b, Assoc.get? t.conts b)
  | none => (none, none)

/-- the base types of hickle core -/
def coreBases : List String := ["pickle", "!node-reference!", "!recover!"]

theorem tables_setTables (r : Registry) (o o' : Opt) (t : Tables) (ho : (r.tables o).isSome) :
    (r.setTables o t).tables o' = if o' = o then some t else r.tables o' := by
  cases o with
  | none => cases o' <;> simp [Registry.setTables, Registry.tables]
  | some o =>
    simp only [Registry.tables] at ho
    by_cases h1 : o = "hickle-4.x"
    · subst h1
      cases o' with
      | none => simp [Registry.setTables, Registry.tables]
      | some o' => by_cases h : o' = "hickle-4.x" <;> simp [Registry.setTables, Registry.tables, h]
    · by_cases h2 : o = "custom"
      · subst h2
        cases o' with
        | none => simp [Registry.setTables, Registry.tables]
        | some o' =>
          by_cases h : o' = "hickle-4.x"
          · subst h; simp [Registry.setTables, Registry.tables]
          · by_cases h' : o' = "custom" <;> simp [Registry.setTables, Registry.tables, h, h']
      · simp [h1, h2] at ho

theorem look_set (r : Registry) (o o' : Opt) (t t0 : Tables) (b : String) (ho : r.tables o = some t0)
    (hf : Assoc.get? t.fns b = Assoc.get? t0.fns b) (hc : Assoc.get? t.conts b = Assoc.get? t0.conts b) :
    look (r.setTables o t) b o' = look r b o' := by
  unfold look
  rw [tables_setTables r o o' t (by rw [ho]; rfl)]
  by_cases h : o' = o
  · subst h; simp [ho, hf, hc]
  · simp [h]

/-- a base type that hickle core has registered and that is protected -/
structure Guarded (r : Registry) (b : String) : Prop where
  there : look r b none ≠ (none, none)
  prot : bangQuoted b = true ∨ disallowInOption.contains b = true

/-- the same loaders for `b` as in `r0` -/
def KeptBase (b : String) (r0 r : Registry) : Prop := ∀ o, look r b o = look r0 b o

theorem registerClass_kept {r0 : Registry} {b : String} (hg : Guarded r0 b) (a : RegArgs) : Keeps (KeptBase b r0) (registerClass a) := by
  intro r hr
  unfold registerClass
  rw [M.bind_of_ok (M.get_apply r)]
  split
  · exact ⟨hr, fun a h => by simp at h⟩
  · split
    · exact ⟨hr, fun a h => by simp at h⟩
    · next hno =>
      cases ht : r.tables a.option with
      | none =>
        simp only []
        split
        · exact ⟨hr, fun a h => by simp at h⟩
        · exact ⟨hr, fun _ _ => trivial⟩
      | some t =>
        refine ⟨fun o => ?_, fun _ _ => trivial⟩
        have hne : a.base ≠ b := by
          rintro rfl
          apply hno
          have h0 := hr none
          have h1 := hg.there
          rw [← h0] at h1
          have : look r a.base none = (Assoc.get? r.glob.fns a.base, Assoc.get? r.glob.conts a.base) := rfl
          rw [this] at h1
          have h2 : ((Assoc.get? r.glob.fns a.base).isSome || (Assoc.get? r.glob.conts a.base).isSome) = true := by
            cases hf : Assoc.get? r.glob.fns a.base with
            | some f => rfl
            | none =>
              cases hc : Assoc.get? r.glob.conts a.base with
              | some f => rfl
              | none => rw [hf, hc] at h1; exact absurd rfl h1
          have h3 : (bangQuoted a.base || disallowInOption.contains a.base) = true := by
            rcases hg.prot with h | h <;> rw [h] <;> simp
          rw [h2, h3]; rfl
        rw [← hr o]
        simp only [M.modify_apply]
        refine look_set r a.option o _ t b ht ?_ ?_
        · simp only [Tables.add]
          split
          · exact Assoc.get?_put_ne _ _ hne
          · rfl
        · simp only [Tables.add]
          split
          · exact Assoc.get?_put_ne _ _ hne
          · rfl

theorem registerExclude_kept {r0 : Registry} {b : String} {b' : String} (h : b' ≠ b ∨ disallowedToIgnore.contains b = true) (o : Opt) :
    Keeps (KeptBase b r0) (registerExclude b' o) := by
  intro r hr
  unfold registerExclude
  rw [M.bind_of_ok (M.get_apply r)]
  split
  · exact ⟨hr, fun a h => by simp at h⟩
  · split
    · exact ⟨hr, fun a h => by simp at h⟩
    · next hno =>
      cases ht : r.tables o with
      | none => exact ⟨hr, fun a h => by simp at h⟩
      | some t =>
        refine ⟨fun o' => ?_, fun _ _ => trivial⟩
        have hne : b' ≠ b := by
          rcases h with h | h
          · exact h
          · rintro rfl; exact hno h
        rw [← hr o']
        simp only [M.modify_apply]
        exact look_set r o o' _ t b ht (Assoc.get?_put_ne _ _ hne) (Assoc.get?_put_ne _ _ hne)

theorem runLoader_kept {r0 : Registry} {b : String} (hg : Guarded r0 b) (name : String) {lm : LoaderMod}
    (h : disallowedToIgnore.contains b = true ∨ ∀ o, (b, o) ∉ lm.exclude) : Keeps (KeptBase b r0) (runLoader name lm) := by
  unfold runLoader
  refine .bind (.forEach (Q := fun _ => True) trivial _ fun a _ => registerClass_kept hg a) fun _ _ =>
    .bind (.forEach (Q := fun _ => True) trivial _ fun p hp => ?_) fun _ _ => ?_
  · refine registerExclude_kept ?_ p.2
    rcases h with h | h
    · exact .inr h
    · refine .inl ?_
      rintro rfl; exact h p.2 hp
  · exact fun r hr => ⟨hr, fun _ _ => trivial⟩

theorem putDummy_kept {r0 : Registry} {b : String} (m : Manager) (c : Cls) (e : Entry) : Keeps (KeptBase b r0) (putDummy m c e) := by
  intro r hr
  unfold putDummy
  rw [M.bind_of_ok (M.get_apply r)]
  cases m.maps with
  | nil => exact ⟨hr, fun _ _ => trivial⟩
  | cons o os =>
    simp only []
    cases ht : r.tables o with
    | none => exact ⟨hr, fun _ _ => trivial⟩
    | some t =>
      refine ⟨fun o' => ?_, fun _ _ => trivial⟩
      rw [← hr o']
      exact look_set r o o' _ t b ht rfl rfl

theorem loadLoader_kept {r0 : Registry} {b : String} (hg : Guarded r0 b) (hb : b ≠ "ndarray_masked_mask") (env : Env) (m : Manager) (c : Cls) (base : Option String)
    (h : disallowedToIgnore.contains b = true ∨ ∀ p lm o, env.mods p = some lm → (b, o) ∉ lm.exclude) :
    Keeps (KeptBase b r0) (loadLoader env m c base) := by
  have hmod : ∀ p lm, env.loaderMod p = some lm → disallowedToIgnore.contains b = true ∨ ∀ o, (b, o) ∉ lm.exclude := by
    intro p lm hl
    unfold Env.loaderMod at hl
    split at hl
    · cases hl; exact .inr (by simp [loadBuiltins])
    · split at hl
      · cases hl; exact .inr (by simp [loadNumpy, hb])
      · split at hl
        · cases hl; exact .inr (by simp [loadScipy])
        · rcases h with h | h
          · exact .inl h
          · exact .inr fun o => h p lm o hl
  have main : ∀ ks, Keeps (KeptBase b r0) (loadLoaderAux env m c base ks) := by
    intro ks
    induction ks with
    | nil => exact .pure trivial
    | cons k ks ih =>
      unfold loadLoaderAux
      refine .bind .get fun r _ => ?_
      cases m.typeEntry r k with
      | some e => exact .pure trivial
      | none =>
        simp only []
        cases k.origin env.u with
        | core =>
          cases base with
          | none => exact .throw _
          | some b' =>
            simp only []
            split
            · exact .pure trivial
            · exact .throw _
        | dummy l =>
          refine .bind (putDummy_kept _ _ _) fun _ _ => ?_
          split
          · exact .pure trivial
          · cases hl : env.loaderMod l with
            | none => exact ih
            | some lm =>
              refine .bind (runLoader_kept hg l (hmod l lm hl)) fun _ _ => .bind .get fun r' _ => ?_
              cases m.typeEntry r' k with
              | some e => exact .pure trivial
              | none => exact ih
        | pkg p =>
          simp only []
          split
          · exact ih
          · cases hl : env.loaderMod p with
            | none => exact ih
            | some lm =>
              refine .bind (runLoader_kept hg p (hmod p lm hl)) fun _ _ => .bind .get fun r' _ => ?_
              cases m.typeEntry r' k with
              | some e => exact .pure trivial
              | none => exact ih
  exact main _

theorem guarded_initial : ∀ b ∈ coreBases, Guarded Registry.initial b := by
  intro b hb
  simp only [coreBases, List.mem_cons, List.not_mem_nil, or_false] at hb
  rcases hb with rfl | rfl | rfl
  · exact ⟨by decide, .inr (by decide)⟩
  · exact ⟨by decide, .inl (by decide)⟩
  · exact ⟨by decide, .inl (by decide)⟩

/-- what a manager answers depends on the loaders of the base type only -/
theorem chain_congr {κ ν : Type} [DecidableEq κ] (proj : Tables → List (κ × ν)) (m : Manager) (r r' : Registry) (k : κ)
    (h : ∀ o, (r'.tables o).map (fun t => Assoc.get? (proj t) k) = (r.tables o).map (fun t => Assoc.get? (proj t) k)) :
    m.chainOf r' proj k = m.chainOf r proj k := by
  unfold Manager.chainOf
  induction m.maps with
  | nil => rfl
  | cons o os ih =>
    have ho := h o
    simp only [List.filterMap_cons]
    cases h1 : r'.tables o with
    | none =>
      cases h2 : r.tables o with
      | none => simpa using ih
      | some t => rw [h1, h2] at ho; simp at ho
    | some t =>
      cases h2 : r.tables o with
      | none => rw [h1, h2] at ho; simp at ho
      | some t' =>
        rw [h1, h2] at ho
        simp at ho
        simp only [Option.map_some, Assoc.chain, ho, ih]

theorem tables_isSome (r r' : Registry) (o : Opt) : (r.tables o).isSome = (r'.tables o).isSome := by
  cases o with
  | none => rfl
  | some o =>
    simp only [Registry.tables]
    by_cases h1 : o = "hickle-4.x"
    · simp [h1]
    · by_cases h2 : o = "custom" <;> simp [h1, h2]

theorem KeptBase.manager {b : String} {r0 r : Registry} (h : KeptBase b r0 r) (m : Manager) :
    m.loadFn r b = m.loadFn r0 b ∧ m.container r b = m.container r0 b := by
  constructor
  · refine chain_congr _ m r0 r b fun o => ?_
    have h1 := h o
    have h2 := tables_isSome r r0 o
    unfold look at h1
    cases ht : r.tables o <;> cases ht0 : r0.tables o <;> rw [ht, ht0] at h1 h2 <;> simp at h1 h2 ⊢
    exact h1.1
  · refine chain_congr _ m r0 r b fun o => ?_
    have h1 := h o
    have h2 := tables_isSome r r0 o
    unfold look at h1
    cases ht : r.tables o <;> cases ht0 : r0.tables o <;> rw [ht, ht0] at h1 h2 <;> simp at h1 h2 ⊢
    exact h1.2

theorem runRegs_kept {b : String} (hb : b ∈ coreBases) {es : List RegEvent}
    (he : disallowedToIgnore.contains b = true ∨ ∀ e ∈ es, ¬ e.excludes b) : KeptBase b Registry.initial (runRegs es Registry.initial) := by
  have hg := guarded_initial b hb
  have hnm : b ≠ "ndarray_masked_mask" := by rintro rfl; revert hb; decide
  have main : ∀ r, KeptBase b Registry.initial r → KeptBase b Registry.initial (runRegs es r) := by
    induction es with
    | nil => exact fun r h => h
    | cons e es ih =>
      intro r hr
      have he' : disallowedToIgnore.contains b = true ∨ ∀ e ∈ es, ¬ e.excludes b := by
        rcases he with h | h
        · exact .inl h
        · exact .inr fun e' h' => h e' (by simp [h'])
      refine ih he' _ ?_
      cases e with
      | register a => exact (registerClass_kept hg a r hr).1
      | exclude b' o =>
        refine (registerExclude_kept (b := b) ?_ o r hr).1
        rcases he with h | h
        · exact .inr h
        · exact .inl fun e => h (.exclude b' o) (List.mem_cons_self ..) e
      | lookup env m c base =>
        refine (loadLoader_kept hg hnm env m c base ?_ r hr).1
        rcases he with h | h
        · exact .inl h
        · refine .inr fun p lm o hp hin => ?_
          exact h _ (List.mem_cons_self ..) ⟨p, lm, o, hp, hin⟩
  exact main _ fun _ => rfl

theorem chain_single {κ ν : Type} [DecidableEq κ] (proj : Tables → List (κ × ν)) (m : Manager) (r : Registry) (k : κ) (v : Option ν)
    (h0 : Assoc.get? (proj r.glob) k = v) (h : ∀ o t, r.tables (some o) = some t → Assoc.get? (proj t) k = none) (hm : none ∈ m.maps) :
    m.chainOf r proj k = v := by
  unfold Manager.chainOf
  have key : ∀ maps : List Opt, Assoc.chain (maps.filterMap fun o => (r.tables o).map proj) k = if none ∈ maps then v else none := by
    intro maps
    induction maps with
    | nil => rfl
    | cons o os ih =>
      simp only [List.filterMap_cons]
      cases o with
      | none =>
        have ht : r.tables none = some r.glob := rfl
        simp only [ht, Option.map_some, Assoc.chain, h0]
        cases v with
        | some v => simp
        | none => simp only []; rw [ih]; simp
      | some o =>
        have hin : (none ∈ (some o :: os)) ↔ none ∈ os := by simp
        simp only [hin]
        cases ht : r.tables (some o) with
        | none => simpa using ih
        | some t => simp only [Option.map_some, Assoc.chain, h o t ht]; exact ih
  rw [key, if_pos hm]

/-- the loaders of hickle core: load function and container class -/
def coreLoaders : List (String × Option LoadFn × Option ContK) :=
  [("pickle", some .pickled, none), ("!node-reference!", some .nothing, some .expandRef), ("!recover!", some .recover, some .recoverGroup)]

theorem initial_core {b : String} {f : Option LoadFn} {k : Option ContK} (h : (b, f, k) ∈ coreLoaders) (m : Manager) (hm : none ∈ m.maps) :
    m.loadFn Registry.initial b = f ∧ m.container Registry.initial b = k := by
  have h0 : ∀ x ∈ coreLoaders, Assoc.get? Registry.initial.glob.fns x.1 = x.2.1 ∧ Assoc.get? Registry.initial.glob.conts x.1 = x.2.2 := by decide
  have h1 : ∀ o t, Registry.initial.tables (some o) = some t → t.fns = [] ∧ t.conts = [] := by
    intro o t ht
    simp only [Registry.tables] at ht
    split at ht
    · cases ht; exact ⟨rfl, rfl⟩
    · split at ht
      · cases ht; exact ⟨rfl, rfl⟩
      · simp at ht
  exact ⟨chain_single _ m _ b f (h0 _ h).1 (fun o t ht => by rw [(h1 o t ht).1]; rfl) hm,
    chain_single _ m _ b k (h0 _ h).2 (fun o t ht => by rw [(h1 o t ht).2]; rfl) hm⟩

/-- **C25, pickled data.**  After any history of registrations, exclusions and imports of loader modules, with any arguments, every
manager finds the load function of hickle core for pickled data, and no container class. -/
theorem C25_pickle (es : List RegEvent) (m : Manager) (hm : none ∈ m.maps) :
    m.loadFn (runRegs es Registry.initial) "pickle" = some .pickled ∧ m.container (runRegs es Registry.initial) "pickle" = none := by
  obtain ⟨h1, h2⟩ := (runRegs_kept (b := "pickle") (by decide) (es := es) (.inl (by decide))).manager m
  rw [h1, h2]
  exact initial_core (by decide) m hm

/-- **C25 (partial), shared references and recovered data.**  The same for all loaders of hickle core, as long as nobody excludes
the base type.  Missing: those exclusions, which the code means to refuse. -/
theorem C25_partial (es : List RegEvent) (m : Manager) (hm : none ∈ m.maps) {b : String} {f : Option LoadFn} {k : Option ContK}
    (hb : (b, f, k) ∈ coreLoaders) (he : ∀ e ∈ es, ¬ e.excludes b) :
    m.loadFn (runRegs es Registry.initial) b = f ∧ m.container (runRegs es Registry.initial) b = k := by
  have hb' : b ∈ coreBases := by
    have : ∀ x ∈ coreLoaders, x.1 ∈ coreBases := by decide
    exact this _ hb
  obtain ⟨h1, h2⟩ := (runRegs_kept hb' (es := es) (.inr he)).manager m
  rw [h1, h2]
  exact initial_core hb m hm

/-- what loader modules may try: register another load function for pickled data and for references, globally and as an option,
take over the class `object`, exclude `pickle`; and a lookup that imports the loaders for `list` -/
def Ex.attack : List RegEvent := [
  .register { cls := .user 0, base := "pickle", load := some (.custom 1), src := .foreign },
  .register { cls := .user 0, base := "!node-reference!", load := some (.custom 1), cont := some (.custom 2), option := some "custom", src := .foreign },
  .register { cls := .object, base := "mine", dump := some (.custom 1), load := some (.custom 1), src := .foreign },
  .exclude "pickle" none,
  .exclude "mine" none,
  .lookup Ex.env ⟨[some "custom", none]⟩ .list none]

example : (⟨[some "custom", none]⟩ : Manager).container (runRegs Ex.attack Registry.initial) "!node-reference!" = some .expandRef :=
  (C25_partial Ex.attack ⟨[some "custom", none]⟩ (by decide) (f := some .nothing) (by decide) (by
    intro e he
    simp only [Ex.attack, List.mem_cons, List.not_mem_nil, or_false] at he
    rcases he with rfl | rfl | rfl | rfl | rfl | rfl <;> simp [RegEvent.excludes, Ex.env])).2

/-- only two of the calls in it have an effect -/
example : (registerClass { cls := .user 0, base := "pickle", load := some (.custom 1), src := .foreign } Registry.initial).1 = .error .valueError ∧
    (registerClass { cls := .object, base := "mine", dump := some (.custom 1), load := some (.custom 1), src := .foreign } Registry.initial).1 = .error .typeError ∧
    (registerExclude "pickle" none Registry.initial).1 = .error .valueError := by
  refine ⟨?_, ?_, ?_⟩ <;> rfl

/-- **C25 is violated.**  `register_class_exclude(b'!node-reference!')` is accepted (an integer is compared with a byte string), and
then a file with a shared object, which could be loaded before, can not be loaded. -/
theorem C25_violated :
    let H : Heap := [⟨.list, .seq []⟩, ⟨.list, .seq [0, 0]⟩]
    let s := (dumpTop (Ex.args H 1) Ex.file0).2
    Ex.isOk (loadTop ⟨Ex.env, [], id, 100⟩ s).1 = true ∧
    (registerExclude "!node-reference!" none s.reg).1 = .ok () ∧
    Ex.raised (loadTop ⟨Ex.env, [], id, 100⟩ { s with reg := (registerExclude "!node-reference!" none s.reg).2 }).1 = some .valueError := by
  refine ⟨by decide +kernel, ?_, by decide +kernel⟩
  rfl

end Verif
