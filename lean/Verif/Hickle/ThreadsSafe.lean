import Verif.Hickle.ThreadsSeq
import Verif.Hickle.StepSeq
import Verif.Hickle.DumpTwins
/-!
# Threads do not disturb each other once the loaders they need are there

`Shared` describes the shared tables between any two steps, `PcOk` a thread within `load_loader`, `Par` the rest of a thread: whatever the
others do to the tables, it will end with a given outcome.  `Sim` relates the steps of a dump to the same dump done alone.
-/
namespace Verif.Threads

variable {P : Nat → Prop} {r0 : Registry} {env : Env}

/-! ### the shared tables -/

/-- the shared tables, when they were `r0` at the beginning -/
structure Shared (P : Nat → Prop) (r0 r : Registry) : Prop where
  types : ∀ c, Protected P c → Assoc.get? r.glob.types c = none ∨ ∃ q e, stdReg c = some (q, e) ∧ Assoc.get? r.glob.types c = some e
  ready : ∀ c q e, Protected P c → stdReg c = some (q, e) → isLoaded r0 q = true → Assoc.get? r.glob.types c = some e
  ctypes : ∀ c, Protected P c → Assoc.get? r.custom.types c = none
  fns : ∀ b q f k, stdBase b = some (q, f, k) → isLoaded r0 q = true → Assoc.get? r.glob.fns b = f
  conts : ∀ b q f k, stdBase b = some (q, f, k) → isLoaded r0 q = true → Assoc.get? r.glob.conts b = k
  cfns : ∀ b, (stdBase b).isSome → Assoc.get? r.custom.fns b = none
  cconts : ∀ b, (stdBase b).isSome → Assoc.get? r.custom.conts b = none
  ltypes : ∀ c, Protected P c → Assoc.get? r.legacy.types c = none

theorem Shared.initial (h : RegInv P r0) : Shared P r0 r0 := by
  refine ⟨fun c hc => ?_, fun c q e hc hs hl => ?_, h.ctypes, fun b q f k hb hl => by rw [h.fns b q f k hb, if_pos hl], fun b q f k hb hl => by rw [h.conts b q f k hb, if_pos hl], h.cfns, h.cconts, h.ltypes⟩
  · rw [h.types c hc]
    unfold expectType
    split
    · exact .inl rfl
    · next p e hs =>
      split
      · exact .inr ⟨p, e, hs, rfl⟩
      · exact .inl rfl
  · rw [h.types c hc]
    unfold expectType
    rw [hs]
    simp only [hl, if_true]

/-- a base type that is not one of hickle's own, or the tables of the option hickle-4.x -/
def BaseOk (b : String) (o : Opt) : Prop :=
  o = some "hickle-4.x" ∨ (stdBase b = none ∧ (o = none ∨ o = some "custom"))

/-- an operation that does not disturb the classes and base types considered -/
def PutOk (P : Nat → Prop) : Put → Prop
  | .check a => a.cls ≠ .object ∧ bangQuoted a.base = false ∧ disallowInOption.contains a.base = false
  | .type a => ∀ d, a.dump = some d → (a.option = none ∧ ∃ q, stdReg a.cls = some (q, ⟨d, a.base, a.memoise⟩)) ∨
      (¬ Protected P a.cls ∧ (a.option = none ∨ a.option = some "hickle-4.x" ∨ a.option = some "custom"))
  | .fn a => ∀ f, a.load = some f → (a.option = none ∧ ∃ q k, stdBase a.base = some (q, some f, k)) ∨ BaseOk a.base a.option
  | .cont a => ∀ k, a.cont = some k → (a.option = none ∧ ∃ q f, stdBase a.base = some (q, f, some k)) ∨ BaseOk a.base a.option
  | .exCheck b _ => b.toList ≠ [] ∧ disallowedToIgnore.contains b = false
  | .exFn b o => BaseOk b o
  | .exCont b o => BaseOk b o
  | .mark _ => True

/-- an operation on the tables of an option that leaves the types and hickle's own base types as they are -/
theorem Shared.onTables {r : Registry} (h : Shared P r0 r) {b : String} {o : Opt} (ho : BaseOk b o) {f : Tables → Tables}
    (hf : ∀ t, (f t).types = t.types) (hfn : ∀ t b', b ≠ b' → Assoc.get? (f t).fns b' = Assoc.get? t.fns b')
    (hco : ∀ t b', b ≠ b' → Assoc.get? (f t).conts b' = Assoc.get? t.conts b') : ∃ r', Threads.onTables o f r = (.ok (), r') ∧ Shared P r0 r' := by
  obtain ⟨h1, h2, h3, h4, h5, h6, h7, h8⟩ := h
  rcases ho with rfl | ⟨hb, ho⟩
  · refine ⟨_, onTables_ok (t := r.legacy) rfl f, h1, h2, h3, h4, h5, h6, h7, ?_⟩
    simpa only [Registry.setTables, if_true, hf]
  have hne : ∀ b', (stdBase b').isSome → b ≠ b' := by
    rintro b' hs rfl
    rw [hb] at hs; simp at hs
  rcases ho with rfl | rfl
  · refine ⟨_, onTables_ok (t := r.glob) rfl f, ?_⟩
    refine ⟨?_, ?_, h3, ?_, ?_, h6, h7, h8⟩
    · simpa only [Registry.setTables, hf]
    · simpa only [Registry.setTables, hf]
    · intro b' q f' k hs hl
      simp only [Registry.setTables]
      rw [hfn _ _ (hne b' (by rw [hs]; rfl))]
      exact h4 b' q f' k hs hl
    · intro b' q f' k hs hl
      simp only [Registry.setTables]
      rw [hco _ _ (hne b' (by rw [hs]; rfl))]
      exact h5 b' q f' k hs hl
  · refine ⟨_, onTables_ok (t := r.custom) rfl f, h1, h2, ?_, h4, h5, ?_, ?_, h8⟩
    · simpa only [Registry.setTables, if_true, String.reduceEq, if_false, hf]
    · intro b' hs
      simp only [Registry.setTables, if_true, String.reduceEq, if_false]
      rw [hfn _ _ (hne b' hs)]
      exact h6 b' hs
    · intro b' hs
      simp only [Registry.setTables, if_true, String.reduceEq, if_false]
      rw [hco _ _ (hne b' hs)]
      exact h7 b' hs

theorem Shared.put {r : Registry} (h : Shared P r0 r) {w : Put} (hw : PutOk P w) : ∃ r', w.exec r = (.ok (), r') ∧ Shared P r0 r' := by
  cases w with
  | check a =>
    refine ⟨r, ?_, h⟩
    rw [exec_check, if_neg (by simp [hw.1]), if_neg (by rw [hw.2.1, hw.2.2]; simp)]
  | type a =>
    simp only [Put.exec]
    cases hd : a.dump with
    | none => exact ⟨r, rfl, h⟩
    | some d =>
      simp only []
      obtain ⟨h1, h2, h3, h4, h5, h6, h7, h8⟩ := h
      rcases hw d hd with ⟨ho, q, hs⟩ | ⟨hn, ho⟩
      · rw [ho]
        refine ⟨_, onTables_ok (t := r.glob) rfl _, ?_, ?_, h3, h4, h5, h6, h7, h8⟩
        · intro c hc
          simp only [Registry.setTables]
          by_cases e : a.cls = c
          · subst e
            rw [Assoc.get?_put_self]
            exact .inr ⟨q, _, hs, rfl⟩
          · rw [Assoc.get?_put_ne _ _ e]; exact h1 c hc
        · intro c q' e' hc hs' hl
          simp only [Registry.setTables]
          by_cases e : a.cls = c
          · subst e
            rw [Assoc.get?_put_self]
            rw [hs] at hs'
            simp only [Option.some.injEq, Prod.mk.injEq] at hs' ⊢
            exact hs'.2
          · rw [Assoc.get?_put_ne _ _ e]; exact h2 c q' e' hc hs' hl
      · have hne : ∀ c, Protected P c → a.cls ≠ c := fun c hc e => hn (e ▸ hc)
        have hg : ∀ (t : Tables) c, Protected P c → Assoc.get? (Assoc.put t.types a.cls ⟨d, a.base, a.memoise⟩) c = Assoc.get? t.types c :=
          fun t c hc => Assoc.get?_put_ne _ _ (hne c hc)
        rcases ho with ho | ho | ho <;> rw [ho]
        · refine ⟨_, onTables_ok (t := r.glob) rfl _, ?_, ?_, h3, h4, h5, h6, h7, h8⟩
          · intro c hc; simp only [Registry.setTables]; rw [hg _ _ hc]; exact h1 c hc
          · intro c q e hc hs hl; simp only [Registry.setTables]; rw [hg _ _ hc]; exact h2 c q e hc hs hl
        · refine ⟨_, onTables_ok (t := r.legacy) rfl _, h1, h2, h3, h4, h5, h6, h7, ?_⟩
          intro c hc
          simp only [Registry.setTables, if_true]
          rw [hg _ _ hc]; exact h8 c hc
        · refine ⟨_, onTables_ok (t := r.custom) rfl _, h1, h2, ?_, h4, h5, h6, h7, h8⟩
          intro c hc
          simp only [Registry.setTables, if_true, String.reduceEq, if_false]
          rw [hg _ _ hc]; exact h3 c hc
  | fn a =>
    simp only [Put.exec]
    cases hl : a.load with
    | none => exact ⟨r, rfl, h⟩
    | some f =>
      simp only []
      rcases hw f hl with ⟨ho, q, k, hs⟩ | ho
      · obtain ⟨h1, h2, h3, h4, h5, h6, h7, h8⟩ := h
        rw [ho]
        refine ⟨_, onTables_ok (t := r.glob) rfl _, h1, h2, h3, ?_, h5, h6, h7, h8⟩
        intro b q' f' k' hs' hl'
        simp only [Registry.setTables]
        by_cases e : a.base = b
        · subst e
          rw [Assoc.get?_put_self]
          rw [hs] at hs'
          simp only [Option.some.injEq, Prod.mk.injEq] at hs'
          exact hs'.2.1
        · rw [Assoc.get?_put_ne _ _ e]; exact h4 b q' f' k' hs' hl'
      · exact h.onTables ho (fun _ => rfl) (fun _ _ hn => Assoc.get?_put_ne _ _ hn) fun _ _ _ => rfl
  | cont a =>
    simp only [Put.exec]
    cases hl : a.cont with
    | none => exact ⟨r, rfl, h⟩
    | some k =>
      simp only []
      rcases hw k hl with ⟨ho, q, f, hs⟩ | ho
      · obtain ⟨h1, h2, h3, h4, h5, h6, h7, h8⟩ := h
        rw [ho]
        refine ⟨_, onTables_ok (t := r.glob) rfl _, h1, h2, h3, h4, ?_, h6, h7, h8⟩
        intro b q' f' k' hs' hl'
        simp only [Registry.setTables]
        by_cases e : a.base = b
        · subst e
          rw [Assoc.get?_put_self]
          rw [hs] at hs'
          simp only [Option.some.injEq, Prod.mk.injEq] at hs'
          exact hs'.2.2
        · rw [Assoc.get?_put_ne _ _ e]; exact h5 b q' f' k' hs' hl'
      · exact h.onTables ho (fun _ => rfl) (fun _ _ _ => rfl) fun _ _ hn => Assoc.get?_put_ne _ _ hn
  | exCheck b o => exact ⟨r, by rw [exec_exCheck, if_neg hw.1, if_neg (by rw [hw.2]; simp)], h⟩
  | exFn b o => exact h.onTables hw (fun _ => rfl) (fun _ _ hn => Assoc.get?_put_ne _ _ hn) fun _ _ _ => rfl
  | exCont b o => exact h.onTables hw (fun _ => rfl) (fun _ _ _ => rfl) fun _ _ hn => Assoc.get?_put_ne _ _ hn
  | mark p => exact ⟨_, rfl, h.types, h.ready, h.ctypes, h.fns, h.conts, h.cfns, h.cconts, h.ltypes⟩

/-- what is asked of one registration and one exclusion -/
def RegOk (P : Nat → Prop) (a : RegArgs) : Prop := PutOk P (.check a) ∧ PutOk P (.type a) ∧ PutOk P (.fn a) ∧ PutOk P (.cont a)
def ExOk (P : Nat → Prop) (e : String × Opt) : Prop := PutOk P (.exCheck e.1 e.2) ∧ PutOk P (.exFn e.1 e.2)

theorem puts_ok {lm : LoaderMod} (h1 : ∀ a ∈ lm.register, RegOk P a) (h2 : ∀ e ∈ lm.exclude, ExOk P e) (p : String) : ∀ w ∈ puts p lm, PutOk P w := by
  intro w hw
  simp only [puts, List.mem_append, List.mem_flatMap, List.mem_cons, List.not_mem_nil, or_false] at hw
  rcases hw with ⟨a, ha, rfl | rfl | rfl | rfl⟩ | ⟨e, he, rfl | rfl | rfl⟩ | rfl
  · exact (h1 a ha).1
  · exact (h1 a ha).2.1
  · exact (h1 a ha).2.2.1
  · exact (h1 a ha).2.2.2
  · exact (h2 e he).1
  · exact (h2 e he).2
  · exact (h2 e he).2
  · trivial

/-- registrations of hickle's own loader modules, decidably -/
def regCheck (a : RegArgs) : Bool :=
  a.cls != .object && !bangQuoted a.base && !disallowInOption.contains a.base &&
  (match a.dump with
  | none => true
  | some d => a.option == none && (match stdReg a.cls with
    | some (_, e) => decide (e = ⟨d, a.base, a.memoise⟩)
    | none => false)) &&
  (a.option == some "hickle-4.x" || a.option == none && (match stdBase a.base with
    | some (_, f, k) => (a.load.isNone || decide (f = a.load)) && (a.cont.isNone || decide (k = a.cont))
    | none => false))

theorem RegOk.of_check {a : RegArgs} (h : regCheck a = true) : RegOk P a := by
  unfold regCheck at h
  simp only [Bool.and_eq_true, bne_iff_ne, ne_eq, Bool.not_eq_true', Bool.or_eq_true, beq_iff_eq] at h
  obtain ⟨⟨⟨⟨h1, h2⟩, h3⟩, h5⟩, h4⟩ := h
  refine ⟨⟨h1, h2, h3⟩, fun d hd => ?_, fun f hf => ?_, fun k hk => ?_⟩
  · rw [hd] at h5
    simp only [Bool.and_eq_true, beq_iff_eq] at h5
    refine .inl ⟨h5.1, ?_⟩
    cases hs : stdReg a.cls with
    | none => rw [hs] at h5; simp at h5
    | some x =>
      obtain ⟨q, e⟩ := x
      rw [hs] at h5
      simp only [decide_eq_true_eq] at h5
      exact ⟨q, by rw [h5.2]⟩
  · rcases h4 with h4 | ⟨ho, h4⟩
    · exact .inr (.inl h4)
    · refine .inl ⟨ho, ?_⟩
      cases hs : stdBase a.base with
      | none => rw [hs] at h4; simp at h4
      | some x =>
        obtain ⟨q, f', k'⟩ := x
        rw [hs, hf] at h4
        simp only [Option.isNone_some, Bool.false_or, Bool.and_eq_true, decide_eq_true_eq] at h4
        exact ⟨q, k', by rw [h4.1]⟩
  · rcases h4 with h4 | ⟨ho, h4⟩
    · exact .inr (.inl h4)
    · refine .inl ⟨ho, ?_⟩
      cases hs : stdBase a.base with
      | none => rw [hs] at h4; simp at h4
      | some x =>
        obtain ⟨q, f', k'⟩ := x
        rw [hs, hk] at h4
        simp only [Option.isNone_some, Bool.false_or, Bool.and_eq_true, decide_eq_true_eq] at h4
        exact ⟨q, f', by rw [h4.2]⟩

/-- the operations of every loader module hickle can find are of this kind -/
theorem mod_puts (hE : EnvOk P env) {p : String} {lm : LoaderMod} (h : env.loaderMod p = some lm) : ∀ w ∈ puts p lm, PutOk P w := by
  unfold Env.loaderMod at h
  split at h
  · simp only [Option.some.injEq] at h
    subst h
    exact puts_ok (fun a ha => .of_check ((List.all_eq_true.1 (by decide +kernel : loadBuiltins.register.all regCheck = true)) a ha)) (by simp [loadBuiltins]) p
  · split at h
    · simp only [Option.some.injEq] at h
      subst h
      refine puts_ok (fun a ha => .of_check ((List.all_eq_true.1 (by decide +kernel : loadNumpy.register.all regCheck = true)) a ha)) ?_ p
      intro e he
      simp only [loadNumpy, List.mem_singleton] at he
      subst he
      exact ⟨⟨by decide, by decide⟩, .inl rfl⟩
    · split at h
      · simp only [Option.some.injEq] at h
        subst h
        exact puts_ok (fun a ha => .of_check ((List.all_eq_true.1 (by decide +kernel : loadScipy.register.all regCheck = true)) a ha)) (by simp [loadScipy]) p
      · have hb := hE p lm h
        refine puts_ok (fun a ha => ?_) (fun e he => ?_) p
        · have hr := hb.reg a ha
          have hobj : a.cls ≠ .object := by
            intro hc; exact hr.cls (by rw [hc]; trivial)
          have hp : disallowInOption.contains a.base = false := by
            by_cases hb : a.base = "pickle"
            · have := hr.base; rw [hb] at this; simp [stdBase, Assoc.get?] at this
            · simp [disallowInOption, hb]
          have hk : BaseOk a.base a.option := by
            rcases hr.opt with ho | ho | ho
            · exact .inr ⟨hr.base, .inl ho⟩
            · exact .inl ho
            · exact .inr ⟨hr.base, .inr ho⟩
          exact ⟨⟨hobj, hr.bang, hp⟩, fun d _ => .inr ⟨hr.cls, hr.opt⟩, fun _ _ => .inr hk, fun _ _ => .inr hk⟩
        · have hx := hb.excl e he
          refine ⟨⟨hx.ne, hx.ok⟩, ?_⟩
          rcases hx.opt with ho | ho | ho
          · exact .inr ⟨hx.base, .inl ho⟩
          · exact .inl ho
          · exact .inr ⟨hx.base, .inr ho⟩

/-! ### a thread within `load_loader` -/

/-- the loader for the first of the classes that has one is there from the beginning -/
def Ready (r0 : Registry) : List Cls → Prop
  | [] => True
  | k :: ks => match stdReg k with
    | some (q, _) => isLoaded r0 q = true
    | none => Ready r0 ks

theorem Ready.of_split {r0 : Registry} : ∀ {ks : List Cls}, (∀ pre k post q e, ks = pre ++ k :: post → (∀ x ∈ pre, stdReg x = none) → stdReg k = some (q, e) → isLoaded r0 q = true) → Ready r0 ks
  | [], _ => trivial
  | k :: ks, h => by
    unfold Ready
    cases hs : stdReg k with
    | some x => exact h [] k ks x.1 x.2 rfl (by simp) hs
    | none =>
      refine Ready.of_split fun pre k' post q e he hp hk => h (k :: pre) k' post q e (by rw [he]; rfl) ?_ hk
      intro x hx
      rcases List.mem_cons.1 hx with rfl | hx
      · exact hs
      · exact hp x hx

theorem Ready.of_all {r0 : Registry} {ks : List Cls} (h : ∀ k ∈ ks, ∀ q e, stdReg k = some (q, e) → isLoaded r0 q = true) : Ready r0 ks :=
  .of_split fun pre k post q e he _ hk => h k (by simp [he]) q e hk

/-- the answer for the rest of the classes -/
def answer (c : Cls) (ks : List Cls) : Cls × Entry :=
  match firstStd ks with
  | some e => (c, e)
  | none => (.object, ⟨.pickled, "pickle", true⟩)

structure Rest (P : Nat → Prop) (r0 : Registry) (env : Env) (c : Cls) (ks : List Cls) : Prop where
  ans : answer c ks = expected env c
  good : ∀ k ∈ ks, Protected P k ∧ ((∃ p, k.origin env.u = .pkg p) ∨ k = .nodeRef)
  ready : Ready r0 ks

def PcOk (P : Nat → Prop) (r0 : Registry) (env : Env) (c : Cls) : Pc → Prop
  | .at ks => Rest P r0 env c ks
  | .home k ks => Protected P k ∧ stdReg k = none ∧ (∃ p, k.origin env.u = .pkg p) ∧ Rest P r0 env c ks
  | .dummy _ _ _ => False
  | .reg k ks todo => Protected P k ∧ stdReg k = none ∧ Rest P r0 env c ks ∧ ∀ w ∈ todo, PutOk P w
  | .again k ks => Protected P k ∧ stdReg k = none ∧ Rest P r0 env c ks
  | .done x => x = .ok (expected env c)

theorem Shared.typeEntry {r : Registry} (h : Shared P r0 r) {m : Manager} (hm : m.Dumps) {c : Cls} (hc : Protected P c) :
    m.typeEntry r c = Assoc.get? r.glob.types c := by
  obtain ⟨pre, hp, ho⟩ := hm
  unfold Manager.typeEntry Manager.chainOf
  rw [hp, List.filterMap_append]
  refine chain_eq_last _ _ _ fun t ht => ?_
  simp only [List.mem_filterMap] at ht
  obtain ⟨o, h1, h2⟩ := ht
  rcases ho o h1 with rfl | rfl
  · simp [Registry.tables] at h2
    rw [← h2]; exact h.ctypes c hc
  · simp [Registry.tables] at h2
    rw [← h2]; exact h.ltypes c hc

theorem Shared.none {r : Registry} (h : Shared P r0 r) {m : Manager} (hm : m.Dumps) {c : Cls} (hc : Protected P c) (hs : stdReg c = none) : m.typeEntry r c = none := by
  rw [h.typeEntry hm hc]
  rcases h.types c hc with e | ⟨q, e, h1, _⟩
  · exact e
  · rw [hs] at h1; simp at h1

theorem tick_ok (hE : EnvOk P env) {m : Manager} (hm : m.Dumps) {c : Cls} {base : Option String} {pc : Pc} {r : Registry} (hr : Shared P r0 r) (hp : PcOk P r0 env c pc) :
    PcOk P r0 env c (tick env m c base pc r).1 ∧ Shared P r0 (tick env m c base pc r).2 := by
  cases pc with
  | «at» ks =>
    cases ks with
    | nil =>
      refine ⟨?_, hr⟩
      simp only [tick, PcOk]
      rw [← hp.ans]
      rfl
    | cons k ks =>
      obtain ⟨h1, h2, h3⟩ := hp
      obtain ⟨hP, ho⟩ := h2 k (by simp)
      simp only [tick]
      cases hs : stdReg k with
      | none =>
        rw [hr.none hm hP hs]
        refine ⟨⟨hP, hs, ?_, ?_, fun k' hk => h2 k' (by simp [hk]), by unfold Ready at h3; simpa only [hs] using h3⟩, hr⟩
        · rcases ho with ho | rfl
          · exact ho
          · simp [stdReg] at hs
        · rw [← h1]
          simp only [answer, firstStd, hs]
      | some x =>
        obtain ⟨q, e⟩ := x
        rw [hr.typeEntry hm hP, hr.ready k q e hP hs (by unfold Ready at h3; simpa only [hs] using h3)]
        refine ⟨?_, hr⟩
        simp only [PcOk]
        rw [← h1]
        simp only [answer, firstStd, hs]
  | home k ks =>
    obtain ⟨hP, hs, ⟨p, ho⟩, hrest⟩ := hp
    simp only [tick, ho]
    split
    · exact ⟨hrest, hr⟩
    · cases hlm : env.loaderMod p with
      | none => exact ⟨hrest, hr⟩
      | some lm => exact ⟨⟨hP, hs, hrest, mod_puts hE hlm⟩, hr⟩
  | dummy k l ks => exact hp.elim
  | reg k ks todo =>
    obtain ⟨hP, hs, hrest, hw⟩ := hp
    cases todo with
    | nil => exact ⟨⟨hP, hs, hrest⟩, hr⟩
    | cons w ws =>
      obtain ⟨r', e, hr'⟩ := hr.put (hw w (by simp))
      simp only [tick, e]
      exact ⟨⟨hP, hs, hrest, fun w' h => hw w' (by simp [h])⟩, hr'⟩
  | again k ks =>
    obtain ⟨hP, hs, hrest⟩ := hp
    simp only [tick, hr.none hm hP hs]
    exact ⟨hrest, hr⟩
  | done x => exact ⟨hp, hr⟩

end Verif.Threads
