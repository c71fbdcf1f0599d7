import Verif.Props.C25
/-!
# C26 The most specific registered class decides

Specification: `firstEntry`, the first class in the method resolution order for which there is an entry.
`C26_partial` is about loader modules that register classes of their own package (all of hickle's do).
`C26_violated`: with a module that registers a class of another package the first lookup differs from all later ones.
-/
namespace Verif

/-- the entry of the first class that has one -/
def firstEntry (entry : Cls → Option Entry) : List Cls → Option Entry
  | [] => none
  | k :: ks => match entry k with
    | some e => some e
    | none => firstEntry entry ks

/-- the class belongs to the package, or is a dummy class of its loader module -/
def Cls.belongs (u : Nat → UserCls) (c : Cls) (p : String) : Prop := c.origin u = .pkg p ∨ c.origin u = .dummy p

/-- the loader modules register loaders for classes of their own package only -/
def OwnClasses (env : Env) : Prop := ∀ p lm, env.loaderMod p = some lm → ∀ a ∈ lm.register, a.dump.isSome → a.cls.belongs env.u p

/-- the loader module that defines a dummy class is there -/
def DummiesThere (env : Env) : Prop := ∀ (c : Cls) (l : String), c.origin env.u = .dummy l → (env.loaderMod l).isSome

/-- the options of the manager exist (`LoaderManager.__init__` makes sure) -/
structure Manager.Valid (m : Manager) : Prop where
  ne : m.maps ≠ []
  opts : ∀ o ∈ m.maps, o = none ∨ o = some "hickle-4.x" ∨ o = some "custom"

theorem Manager.Valid.tables {m : Manager} (h : m.Valid) (r : Registry) {o : Opt} (ho : o ∈ m.maps) : ∃ t, r.tables o = some t := by
  rcases h.opts o ho with rfl | rfl | rfl
  · exact ⟨_, rfl⟩
  · exact ⟨_, rfl⟩
  · exact ⟨r.custom, by simp [Registry.tables]⟩

/-- entries of the class in all sets are the same -/
def SameTypes (k : Cls) (r r' : Registry) : Prop :=
  ∀ o, (r'.tables o).map (fun t => Assoc.get? t.types k) = (r.tables o).map (fun t => Assoc.get? t.types k)

theorem SameTypes.entry {k : Cls} {r r' : Registry} (h : SameTypes k r r') (m : Manager) : m.typeEntry r' k = m.typeEntry r k :=
  chain_congr _ m r r' k h

theorem sameTypes_set {k : Cls} {r : Registry} {o : Opt} {t t0 : Tables} (ho : r.tables o = some t0) (h : Assoc.get? t.types k = Assoc.get? t0.types k) :
    SameTypes k r (r.setTables o t) := by
  intro o'
  rw [tables_setTables r o o' t (by rw [ho]; rfl)]
  by_cases e : o' = o
  · subst e; simp [ho, h]
  · simp [e]

theorem registerClass_types {a : RegArgs} {k : Cls} (h : a.dump.isSome → a.cls ≠ k) (r0 : Registry) : Keeps (fun r => SameTypes k r0 r ∧ r.loaded = r0.loaded) (registerClass a) := by
  intro r hr
  unfold registerClass
  rw [M.bind_of_ok (M.get_apply r)]
  split
  · exact ⟨hr, fun a h => by simp at h⟩
  · split
    · exact ⟨hr, fun a h => by simp at h⟩
    · cases ht : r.tables a.option with
      | none =>
        simp only []
        split
        · exact ⟨hr, fun a h => by simp at h⟩
        · exact ⟨hr, fun _ _ => trivial⟩
      | some t =>
        refine ⟨⟨fun o => ?_, ?_⟩, fun _ _ => trivial⟩
        · refine (sameTypes_set (k := k) ht ?_ o).trans (hr.1 o)
          simp only [Tables.add]
          cases hd : a.dump with
          | none => rfl
          | some d => exact Assoc.get?_put_ne _ _ (h (by simp [hd]))
        · simp only [M.modify_apply]
          rw [← hr.2]
          unfold Registry.setTables
          repeat' split
          all_goals rfl

theorem registerExclude_types (b : String) (o : Opt) (k : Cls) (r0 : Registry) : Keeps (fun r => SameTypes k r0 r ∧ r.loaded = r0.loaded) (registerExclude b o) := by
  intro r hr
  unfold registerExclude
  rw [M.bind_of_ok (M.get_apply r)]
  split
  · exact ⟨hr, fun a h => by simp at h⟩
  · split
    · exact ⟨hr, fun a h => by simp at h⟩
    · cases ht : r.tables o with
      | none => exact ⟨hr, fun a h => by simp at h⟩
      | some t =>
        refine ⟨⟨fun o' => (sameTypes_set (k := k) (t := { t with fns := Assoc.put t.fns b .nothing, conts := Assoc.put t.conts b .noContainer }) ht rfl o').trans (hr.1 o'), ?_⟩, fun _ _ => trivial⟩
        simp only [M.modify_apply]
        rw [← hr.2]
        unfold Registry.setTables
        repeat' split
        all_goals rfl

/-- a loader module changes the entries of its own classes only -/
theorem runLoader_types {p : String} {lm : LoaderMod} {k : Cls} (h : ∀ a ∈ lm.register, a.dump.isSome → a.cls ≠ k) {r r' : Registry}
    (he : runLoader p lm r = (.ok (), r')) : SameTypes k r r' ∧ r'.loaded = p :: r.loaded := by
  unfold runLoader at he
  have h1 := Keeps.forEach (I := fun x => SameTypes k r x ∧ x.loaded = r.loaded) (Q := fun _ => True) trivial lm.register fun a ha => registerClass_types (h a ha) r
  have h2 := Keeps.forEach (I := fun x => SameTypes k r x ∧ x.loaded = r.loaded) (Q := fun _ => True) trivial lm.exclude
    fun x _ => registerExclude_types x.1 x.2 k r
  rw [M.bind_apply] at he
  split at he
  · next _ u r1 e1 =>
    have k1 := h1.ok ⟨fun _ => rfl, rfl⟩ e1
    rw [M.bind_apply] at he
    split at he
    · next _ u2 r2 e2 =>
      have k2 := h2.ok k1 e2
      simp at he
      subst he
      exact ⟨k2.1, by simp [k2.2]⟩
    · simp at he
  · simp at he

/-- the class has an entry in the set of loaders -/
def HasEntry (k : Cls) (o : Opt) (r : Registry) : Prop := ∃ t, r.tables o = some t ∧ (Assoc.get? t.types k).isSome

theorem hasEntry_set {k : Cls} {o o' : Opt} {r : Registry} {t t0 : Tables} (h : HasEntry k o r) (ho : r.tables o' = some t0)
    (ht : (Assoc.get? t0.types k).isSome → (Assoc.get? t.types k).isSome) : HasEntry k o (r.setTables o' t) := by
  obtain ⟨t1, h1, h2⟩ := h
  unfold HasEntry
  rw [tables_setTables r o' o t (by rw [ho]; rfl)]
  by_cases e : o = o'
  · subst e
    rw [ho] at h1; cases h1
    exact ⟨t, by simp, ht h2⟩
  · exact ⟨t1, by simp [e, h1], h2⟩

theorem registerClass_has (a : RegArgs) (k : Cls) (o : Opt) : Keeps (HasEntry k o) (registerClass a) := by
  intro r hr
  unfold registerClass
  rw [M.bind_of_ok (M.get_apply r)]
  split
  · exact ⟨hr, fun a h => by simp at h⟩
  · split
    · exact ⟨hr, fun a h => by simp at h⟩
    · cases ht : r.tables a.option with
      | none =>
        simp only []
        split
        · exact ⟨hr, fun a h => by simp at h⟩
        · exact ⟨hr, fun _ _ => trivial⟩
      | some t =>
        refine ⟨hasEntry_set hr ht fun h => ?_, fun _ _ => trivial⟩
        simp only [Tables.add]
        cases hd : a.dump with
        | none => exact h
        | some d =>
          by_cases e : a.cls = k
          · subst e; simp only [Assoc.get?_put_self]; rfl
          · simp only [Assoc.get?_put_ne _ _ e]; exact h

theorem registerExclude_has (b : String) (o' : Opt) (k : Cls) (o : Opt) : Keeps (HasEntry k o) (registerExclude b o') := by
  intro r hr
  unfold registerExclude
  rw [M.bind_of_ok (M.get_apply r)]
  split
  · exact ⟨hr, fun a h => by simp at h⟩
  · split
    · exact ⟨hr, fun a h => by simp at h⟩
    · cases ht : r.tables o' with
      | none => exact ⟨hr, fun a h => by simp at h⟩
      | some t => exact ⟨hasEntry_set hr ht fun h => h, fun _ _ => trivial⟩

theorem runLoader_has {p : String} {lm : LoaderMod} {k : Cls} {o : Opt} {r r' : Registry} (h : HasEntry k o r)
    (he : runLoader p lm r = (.ok (), r')) : HasEntry k o r' := by
  unfold runLoader at he
  have h1 := Keeps.forEach (I := HasEntry k o) (Q := fun _ => True) trivial lm.register fun a _ => registerClass_has a k o
  have h2 := Keeps.forEach (I := HasEntry k o) (Q := fun _ => True) trivial lm.exclude fun x _ => registerExclude_has x.1 x.2 k o
  rw [M.bind_apply] at he
  split at he
  · next _ u r1 e1 =>
    have k1 := h1.ok h e1
    rw [M.bind_apply] at he
    split at he
    · next _ u2 r2 e2 =>
      have k2 := h2.ok k1 e2
      simp at he
      subst he
      exact k2
    · simp at he
  · simp at he

/-- nothing is known about the class, and no loader module is left that could register it -/
def Settled (env : Env) (m : Manager) (r : Registry) (k : Cls) : Prop :=
  m.typeEntry r k = none ∧ ∃ p, k.origin env.u = .pkg p ∧ (r.loaded.contains p = true ∨ env.loaderMod p = none)

theorem loadLoaderAux_first {env : Env} {m : Manager} (hv : m.Valid) (hown : OwnClasses env) (hdum : DummiesThere env) {c : Cls} {ks : List Cls} :
    ∀ (pre : List Cls) (r r' : Registry) (c' : Cls) (e : Entry), (∀ k ∈ pre, Settled env m r k) → loadLoaderAux env m c none ks r = (.ok (c', e), r') →
      (∀ k ∈ pre, Settled env m r' k) ∧
      ((firstEntry (m.typeEntry r') ks = some e ∧ c' = c) ∨
        (firstEntry (m.typeEntry r') ks = none ∧ (∀ k ∈ ks, Settled env m r' k) ∧ c' = .object ∧ e = ⟨.pickled, "pickle", true⟩)) ∧
      loadLoaderAux env m c none ks r' = (.ok (c', e), r') := by
  induction ks with
  | nil =>
    intro pre r r' c' e hp h
    simp [loadLoaderAux] at h
    obtain ⟨⟨rfl, rfl⟩, rfl⟩ := h
    exact ⟨hp, .inr ⟨rfl, by simp, rfl, rfl⟩, rfl⟩
  | cons k ks ih =>
    intro pre r r' c' e hp h
    -- what is left to do when class `k` is settled
    have next : ∀ r1, (∀ k' ∈ pre, Settled env m r1 k') → Settled env m r1 k → loadLoaderAux env m c none ks r1 = (.ok (c', e), r') →
        (∀ k' ∈ pre, Settled env m r' k') ∧
        ((firstEntry (m.typeEntry r') (k :: ks) = some e ∧ c' = c) ∨
          (firstEntry (m.typeEntry r') (k :: ks) = none ∧ (∀ k' ∈ k :: ks, Settled env m r' k') ∧ c' = .object ∧ e = ⟨.pickled, "pickle", true⟩)) ∧
        loadLoaderAux env m c none (k :: ks) r' = (.ok (c', e), r') := by
      intro r1 hp1 hs1 h1
      obtain ⟨i1, i2, i3⟩ := ih (k :: pre) r1 r' c' e (by intro x hx; simp at hx; rcases hx with rfl | hx; exact hs1; exact hp1 x hx) h1
      have hk := i1 k (by simp)
      refine ⟨fun x hx => i1 x (by simp [hx]), ?_, ?_⟩
      · simp only [firstEntry, hk.1]
        rcases i2 with i2 | ⟨j1, j2, j3⟩
        · exact .inl i2
        · exact .inr ⟨j1, by intro x hx; simp at hx; rcases hx with rfl | hx; exact hk; exact j2 x hx, j3⟩
      · obtain ⟨k0, p, k1, k2⟩ := hk
        unfold loadLoaderAux
        rw [M.bind_of_ok (M.get_apply r'), k0]
        simp only [k1]
        rcases k2 with k2 | k2
        · rw [k2]; exact i3
        · split
          · exact i3
          · rw [k2]; exact i3
    -- the class has an entry now
    have found : ∀ r1 e1, (∀ k' ∈ pre, Settled env m r1 k') → m.typeEntry r1 k = some e1 → (c, e1) = (c', e) ∧ r1 = r' →
        (∀ k' ∈ pre, Settled env m r' k') ∧
        ((firstEntry (m.typeEntry r') (k :: ks) = some e ∧ c' = c) ∨
          (firstEntry (m.typeEntry r') (k :: ks) = none ∧ (∀ k' ∈ k :: ks, Settled env m r' k') ∧ c' = .object ∧ e = ⟨.pickled, "pickle", true⟩)) ∧
        loadLoaderAux env m c none (k :: ks) r' = (.ok (c', e), r') := by
      rintro r1 e1 hp1 h1 ⟨he, rfl⟩
      cases he
      refine ⟨hp1, .inl ⟨by simp only [firstEntry, h1], rfl⟩, ?_⟩
      unfold loadLoaderAux
      rw [M.bind_of_ok (M.get_apply r1), h1]
      rfl
    -- running a loader module that is not loaded yet
    have run : ∀ p lm (r1 r2 : Registry), r1.loaded.contains p = false → env.loaderMod p = some lm → (∀ k' ∈ pre, Settled env m r1 k') →
        runLoader p lm r1 = (.ok (), r2) → (∀ k' ∈ pre, Settled env m r2 k') ∧ r2.loaded.contains p = true := by
      intro p lm r1 r2 hnl hl hp1 hr
      refine ⟨fun k' hk' => ?_, ?_⟩
      · obtain ⟨j1, q, j2, j3⟩ := hp1 k' hk'
        have hne : ∀ a ∈ lm.register, a.dump.isSome → a.cls ≠ k' := by
          rintro a ha had rfl
          rcases hown p lm hl a ha had with hb | hb
          · rw [hb] at j2; cases j2
            rcases j3 with j3 | j3
            · rw [j3] at hnl; simp at hnl
            · rw [hl] at j3; simp at j3
          · rw [hb] at j2; simp at j2
        obtain ⟨t1, t2⟩ := runLoader_types hne hr
        refine ⟨by rw [t1.entry]; exact j1, q, j2, ?_⟩
        rcases j3 with j3 | j3
        · left; rw [t2]; simp at j3 ⊢; exact .inr j3
        · exact .inr j3
      · unfold runLoader at hr
        rw [M.bind_apply] at hr
        split at hr
        · rw [M.bind_apply] at hr
          split at hr
          · simp at hr; subst hr; simp
          · simp at hr
        · simp at hr
    unfold loadLoaderAux at h
    rw [M.bind_of_ok (M.get_apply r)] at h
    cases ht : m.typeEntry r k with
    | some e1 =>
      rw [ht] at h
      simp at h
      exact found r e1 hp ht (by simpa using h)
    | none =>
      rw [ht] at h
      simp only [] at h
      cases ho : k.origin env.u with
      | core => rw [ho] at h; simp at h
      | pkg p =>
        rw [ho] at h
        simp only [] at h
        cases hl : r.loaded.contains p with
        | true =>
          rw [hl] at h
          exact next r hp ⟨ht, p, ho, .inl hl⟩ h
        | false =>
          rw [hl] at h
          simp only [Bool.false_eq_true, if_false] at h
          cases hm : env.loaderMod p with
          | none =>
            rw [hm] at h
            exact next r hp ⟨ht, p, ho, .inr hm⟩ h
          | some lm =>
            rw [hm] at h
            simp only [] at h
            rw [M.bind_apply] at h
            split at h
            · next _ u r1 e1 =>
              obtain ⟨q1, q2⟩ := run p lm r r1 hl hm hp e1
              rw [M.bind_of_ok (M.get_apply r1)] at h
              cases ht1 : m.typeEntry r1 k with
              | some e2 =>
                rw [ht1] at h
                simp at h
                exact found r1 e2 q1 ht1 (by simpa using h)
              | none =>
                rw [ht1] at h
                exact next r1 q1 ⟨ht1, p, ho, .inl q2⟩ h
            · simp at h
      | dummy l =>
        rw [ho] at h
        simp only [] at h
        have hkp : k ∉ pre := by
          intro hk
          obtain ⟨_, p, j, _⟩ := hp k hk
          rw [ho] at j; simp at j
        obtain ⟨o, os, hmaps⟩ : ∃ o os, m.maps = o :: os := by
          cases hmm : m.maps with
          | nil => exact absurd hmm hv.ne
          | cons o os => exact ⟨o, os, rfl⟩
        obtain ⟨t, hto⟩ := hv.tables r (o := o) (by rw [hmaps]; simp)
        let e0 : Entry := ⟨.notDumpable, "NotHicklable", false⟩
        let r1 : Registry := r.setTables o { t with types := Assoc.put t.types k e0 }
        have hput : putDummy m k e0 r = (.ok (), r1) := by
          unfold putDummy
          rw [M.bind_of_ok (M.get_apply r), hmaps]
          simp only [hto, M.modify_apply]; rfl
        have hr1 : m.typeEntry r1 k = some e0 := by
          unfold Manager.typeEntry Manager.chainOf
          rw [hmaps]
          simp only [List.filterMap_cons]
          have : r1.tables o = some { t with types := Assoc.put t.types k e0 } := by
            rw [tables_setTables r o o _ (by rw [hto]; rfl), if_pos rfl]
          rw [this]
          simp [Assoc.chain]
        have hp1 : ∀ k' ∈ pre, Settled env m r1 k' := by
          intro k' hk'
          obtain ⟨j1, q, j2, j3⟩ := hp k' hk'
          have hne : k ≠ k' := by rintro rfl; exact hkp hk'
          have hst : SameTypes k' r r1 := sameTypes_set hto (Assoc.get?_put_ne _ _ hne)
          refine ⟨by rw [hst.entry]; exact j1, q, j2, ?_⟩
          have : r1.loaded = r.loaded := by
            simp only [r1]
            unfold Registry.setTables
            repeat' split
            all_goals rfl
          rw [this]; exact j3
        have hrl : r1.loaded = r.loaded := by
          simp only [r1]
          unfold Registry.setTables
          repeat' split
          all_goals rfl
        rw [M.bind_of_ok hput] at h
        cases hl : r.loaded.contains l with
        | true =>
          rw [hl] at h
          simp at h
          exact found r1 e0 hp1 hr1 (by simpa using h)
        | false =>
          rw [hl] at h
          simp only [Bool.false_eq_true, if_false] at h
          cases hm : env.loaderMod l with
          | none => have := hdum k l ho; rw [hm] at this; simp at this
          | some lm =>
            rw [hm] at h
            simp only [] at h
            rw [M.bind_apply] at h
            split at h
            · next _ u r2 e1 =>
              obtain ⟨q1, q2⟩ := run l lm r1 r2 (by rw [hrl]; exact hl) hm hp1 e1
              rw [M.bind_of_ok (M.get_apply r2)] at h
              cases ht1 : m.typeEntry r2 k with
              | some e2 =>
                rw [ht1] at h
                simp at h
                exact found r2 e2 q1 ht1 (by simpa using h)
              | none =>
                exfalso
                have hh : HasEntry k o r1 := ⟨_, by rw [tables_setTables r o o _ (by rw [hto]; rfl), if_pos rfl], by simp [Assoc.get?_put_self]⟩
                obtain ⟨t2, a1, a2⟩ := runLoader_has hh e1
                unfold Manager.typeEntry Manager.chainOf at ht1
                rw [hmaps] at ht1
                simp only [List.filterMap_cons, a1, Option.map_some, Assoc.chain] at ht1
                cases hg : Assoc.get? t2.types k with
                | none => rw [hg] at a2; simp at a2
                | some v => rw [hg] at ht1; simp at ht1
            · simp at h

/-- the entry of a class in one set of loaders -/
def entryIn (r : Registry) (k : Cls) (o : Opt) : Option Entry :=
  match r.tables o with
  | some t => Assoc.get? t.types k
  | none => none

/-- the first answer -/
def firstSome {α β : Type} (f : α → Option β) : List α → Option β
  | [] => none
  | a :: as => match f a with
    | some b => some b
    | none => firstSome f as

/-- the entry of a class in the active sets of loaders, tried in order -/
def activeEntry (r : Registry) (sets : List Opt) (k : Cls) : Option Entry := firstSome (entryIn r k) sets

theorem typeEntry_active (m : Manager) (r : Registry) (k : Cls) : m.typeEntry r k = activeEntry r m.maps k := by
  unfold Manager.typeEntry Manager.chainOf activeEntry
  induction m.maps with
  | nil => rfl
  | cons o os ih =>
    simp only [List.filterMap_cons, firstSome, entryIn]
    cases ht : r.tables o with
    | none => simpa using ih
    | some t =>
      simp only [Option.map_some, Assoc.chain]
      cases Assoc.get? t.types k with
      | none => exact ih
      | some e => rfl

/-- what the property asks for: the first class with an entry, or pickling as `object` -/
def choice (r : Registry) (sets : List Opt) (c : Cls) (mro : List Cls) : Cls × Entry :=
  match firstSome (activeEntry r sets) mro with
  | some e => (c, e)
  | none => (.object, ⟨.pickled, "pickle", true⟩)

theorem firstEntry_some (f : Cls → Option Entry) (ks : List Cls) : firstEntry f ks = firstSome f ks := by
  induction ks with
  | nil => rfl
  | cons k ks ih => simp only [firstEntry, firstSome, ih]; cases f k <;> rfl

/-- **C26 (partial).**  Whenever a loader is found for dumping an object of class `c`, it is that of the first class in the method
resolution order that has one in the active sets of loaders, searched in order; if there is none, the object is pickled.  That holds
for the registry after the lookup, which may have imported loader modules; asking again gives the same answer and changes nothing.
Missing: loader modules that register classes of other packages. -/
theorem C26_partial {env : Env} {m : Manager} (hv : m.Valid) (hown : OwnClasses env) (hdum : DummiesThere env) {c c' : Cls} {e : Entry} {r r' : Registry}
    (h : loadLoader env m c none r = (.ok (c', e), r')) :
    (c', e) = choice r' m.maps c (c.mro env.u) ∧ loadLoader env m c none r' = (.ok (c', e), r') := by
  obtain ⟨_, h2, h3⟩ := loadLoaderAux_first hv hown hdum [] r r' c' e (by simp) h
  refine ⟨?_, h3⟩
  have hf : firstEntry (m.typeEntry r') (c.mro env.u) = firstSome (activeEntry r' m.maps) (c.mro env.u) := by
    rw [firstEntry_some]
    congr 1
    funext k
    exact typeEntry_active m r' k
  rw [hf] at h2
  unfold choice
  rcases h2 with ⟨h2, rfl⟩ | ⟨h2, _, rfl, rfl⟩
  · rw [h2]
  · rw [h2]

/-- **C26, registering.**  A registration with a dump function that is accepted replaces the entry of the class in its set of
loaders and leaves all other entries alone. -/
theorem C26_replace {a : RegArgs} {d : DumpFn} (hd : a.dump = some d) {r r' : Registry} (h : registerClass a r = (.ok (), r')) (k : Cls) (o : Opt) :
    entryIn r' k o = if k = a.cls ∧ o = a.option then some ⟨d, a.base, a.memoise⟩ else entryIn r k o := by
  unfold registerClass at h
  rw [M.bind_of_ok (M.get_apply r)] at h
  split at h
  · simp at h
  · split at h
    · simp at h
    · cases ht : r.tables a.option with
      | none => rw [ht] at h; simp [hd] at h
      | some t =>
        rw [ht] at h
        simp only [M.modify_apply, Prod.mk.injEq, true_and] at h
        subst h
        unfold entryIn
        rw [tables_setTables r a.option o _ (by rw [ht]; rfl)]
        by_cases ho : o = a.option
        · subst ho
          simp only [if_true, Tables.add, hd, ht, and_true]
          by_cases hk : k = a.cls
          · subst hk; simp
          · rw [if_neg hk]; exact Assoc.get?_put_ne _ _ (Ne.symm hk)
        · simp [ho]

/-- the active sets of a dump: the global set comes last, the options before it, a later one before an earlier one -/
theorem C26_sets (g : NodeId) (opts : List (String × Bool)) (s s' : Session) (maps : List Opt) (h : optionMaps g (some opts) s = (.ok maps, s')) :
    maps = ((opts.filter (·.2)).map fun p => some p.1).reverse ++ [none] := by
  have key : ∀ (opts : List (String × Bool)) (acc : List Opt) (s : Session), setOptions g opts acc s = (.ok maps, s') →
      maps = ((opts.filter (·.2)).map fun p => some p.1).reverse ++ acc := by
    intro opts
    induction opts with
    | nil => intro acc s h; simp [setOptions] at h; simp [h.1]
    | cons p opts ih =>
      intro acc s h
      obtain ⟨k, on⟩ := p
      unfold setOptions at h
      cases on with
      | false => simpa using ih acc s h
      | true =>
        simp only [if_true] at h
        rw [M.bind_of_ok (show sSetAttr g (optAttr k) (.bool true) s = (.ok (), _) from rfl)] at h
        split at h
        · have := ih _ _ h
          simpa using this
        · simp at h
  exact key opts [none] s h

/-- a class hierarchy with loaders at several places -/
def Ex.hier : Nat → UserCls
  | 0 => ⟨"Base", .pkg "a", [.object], true, true, fun _ => .error .typeError⟩
  | 1 => ⟨"Mixin", .pkg "b", [.object], true, true, fun _ => .error .typeError⟩
  | 2 => ⟨"Both", .pkg "c", [.user 0, .user 1, .list, .object], true, true, fun _ => .error .typeError⟩
  | _ => ⟨"Dummy", .dummy "d", [.object], true, true, fun _ => .error .typeError⟩

/-- the loader module of package `b` -/
def Ex.modB : LoaderMod := ⟨[{ cls := .user 1, base := "mixin", dump := some (.custom 1) }], []⟩

def Ex.hierEnv : Env := { Ex.env with u := Ex.hier, mods := fun p => if p = "b" then some Ex.modB else if p = "d" then some ⟨[], []⟩ else none }

theorem Ex.hierEnv_own : OwnClasses Ex.hierEnv := by
  intro p lm h a ha hd
  unfold Env.loaderMod at h
  split at h
  · next e =>
    subst e; cases h
    have : ∀ a ∈ loadBuiltins.register, a.cls.origin Ex.hier = .pkg "builtins" := by decide
    exact .inl (this a ha)
  · split at h
    · next e =>
      subst e; cases h
      have : ∀ a ∈ loadNumpy.register, a.cls.origin Ex.hier = .pkg "numpy" := by decide
      exact .inl (this a ha)
    · split at h
      · next e =>
        subst e; cases h
        have : ∀ a ∈ loadScipy.register, a.cls.origin Ex.hier = .pkg "scipy" := by decide
        exact .inl (this a ha)
      · simp only [Ex.hierEnv] at h
        split at h
        · next e =>
          subst e; cases h
          have : ∀ a ∈ Ex.modB.register, a.cls.origin Ex.hier = .pkg "b" := by decide
          exact .inl (this a ha)
        · split at h
          · cases h; simp at ha
          · simp at h

theorem Ex.hierEnv_dummies : DummiesThere Ex.hierEnv := by
  intro c l h
  have : l = "d" := by
    simp only [Ex.hierEnv] at h
    unfold Cls.origin at h
    split at h <;> try (simp at h)
    next k =>
      match k with
      | 0 => simp [Ex.hier] at h
      | 1 => simp [Ex.hier] at h
      | 2 => simp [Ex.hier] at h
      | n + 3 => simp [Ex.hier] at h; exact h.symm
  subst this
  rfl

/-- `Both` is dumped with the loader of `Mixin`, found by importing the loader module of its package; with a loader for `Base` in
the option set `custom` it is dumped by that one -/
example :
    let m : Manager := ⟨[some "custom", none]⟩
    let r1 := (registerClass { cls := .user 0, base := "base", dump := some (.custom 2), option := some "custom" } Registry.initial).2
    m.Valid ∧ ((loadLoader Ex.hierEnv m (.user 2) none Registry.initial).1.toOption = some (.user 2, ⟨.custom 1, "mixin", true⟩)) ∧
      ((loadLoader Ex.hierEnv m (.user 2) none r1).1.toOption = some (.user 2, ⟨.custom 2, "base", true⟩)) ∧
      ((loadLoader Ex.hierEnv ⟨[none]⟩ (.user 0) none r1).1.toOption = some (.object, ⟨.pickled, "pickle", true⟩)) :=
  ⟨⟨by simp, by simp⟩, by decide +kernel, by decide +kernel, by decide +kernel⟩

/-- a loader module of package `b` that also has a loader for a class of package `a` -/
def Ex.modAB : LoaderMod := ⟨[{ cls := .user 0, base := "base", dump := some (.custom 2) }, { cls := .user 1, base := "mixin", dump := some (.custom 1) }], []⟩

/-- **C26 is violated** when a loader module registers a class of another package: the module of package `b` also has a loader for
`Base` of package `a`.  The first object of class `Both` is dumped by the loader of `Mixin` although `Base`, which comes first, has
one when the lookup ends; every later object is dumped by the loader of `Base`. -/
theorem C26_violated :
    let env : Env := { Ex.hierEnv with mods := fun p => if p = "b" then some Ex.modAB else none }
    let first := loadLoader env ⟨[none]⟩ (.user 2) none Registry.initial
    first.1.toOption = some (.user 2, ⟨.custom 1, "mixin", true⟩) ∧
    choice first.2 [none] (.user 2) (Cls.mro env.u (.user 2)) = (.user 2, ⟨.custom 2, "base", true⟩) ∧
    (loadLoader env ⟨[none]⟩ (.user 2) none first.2).1.toOption = some (.user 2, ⟨.custom 2, "base", true⟩) := by
  refine ⟨by decide +kernel, by decide +kernel, by decide +kernel⟩

end Verif
