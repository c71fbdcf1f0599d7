import Verif.Hickle.Registry
/-!
# What `load_loader` answers in every reachable registry state

The registry is filled lazily: a loader module runs when the first class of its package is
met.  `RegInv` describes all states reachable from the initial one when the other packages'
loader modules are *benign* (they register neither the classes nor the base types considered
here).  `loadLoader_spec` says what `load_loader` then returns, independently of what happened
before.
-/
namespace Verif

/-- package whose loader registers the class, and the entry; `none`: registered by hickle core -/
def stdReg : Cls → Option (Option String × Entry)
  | .list => some (some "builtins", ⟨.listlike, "list", true⟩)
  | .tuple => some (some "builtins", ⟨.listlike, "tuple", true⟩)
  | .dict => some (some "builtins", ⟨.dictlike, "dict", true⟩)
  | .set => some (some "builtins", ⟨.setlike, "set", true⟩)
  | .bytes => some (some "builtins", ⟨.listlike, "bytes", true⟩)
  | .str => some (some "builtins", ⟨.listlike, "str", true⟩)
  | .int => some (some "builtins", ⟨.scalar, "int", false⟩)
  | .float => some (some "builtins", ⟨.scalar, "float", false⟩)
  | .complex => some (some "builtins", ⟨.scalar, "complex", false⟩)
  | .bool => some (some "builtins", ⟨.scalar, "bool", false⟩)
  | .noneType => some (some "builtins", ⟨.none, "None", false⟩)
  | .npNumber => some (some "numpy", ⟨.npScalar, "np_scalar", false⟩)
  | .npGeneric => some (some "numpy", ⟨.npScalar, "np_scalar", false⟩)
  | .ndarray => some (some "numpy", ⟨.npArray, "ndarray", true⟩)
  | .masked => some (some "numpy", ⟨.npMasked, "ndarray_masked", true⟩)
  | .matrix => some (some "numpy", ⟨.npArray, "np_matrix", true⟩)
  | .csr => some (some "scipy", ⟨.sparse, "csr_matrix", true⟩)
  | .csc => some (some "scipy", ⟨.sparse, "csc_matrix", true⟩)
  | .bsr => some (some "scipy", ⟨.sparse, "bsr_matrix", true⟩)
  | .nodeRef => some (none, ⟨.dumpNothing, "!node-reference!", false⟩)
  | _ => none

/-- package, load function and container class of a base type -/
def stdBase (b : String) : Option (Option String × Option LoadFn × Option ContK) :=
  Assoc.get? [
    ("list", (some "builtins", some .list, some .listLike)),
    ("tuple", (some "builtins", some .list, some .listLike)),
    ("dict", (some "builtins", none, some .dictLike)),
    ("set", (some "builtins", some .list, some .setLike)),
    ("bytes", (some "builtins", some .list, none)),
    ("str", (some "builtins", some .list, none)),
    ("int", (some "builtins", some .scalar, none)),
    ("float", (some "builtins", some .scalar, none)),
    ("complex", (some "builtins", some .scalar, none)),
    ("bool", (some "builtins", some .scalar, none)),
    ("None", (some "builtins", some .none, none)),
    ("np_scalar", (some "numpy", some .npScalar, none)),
    ("ndarray", (some "numpy", some .ndarray, some .ndarrayLike)),
    ("ndarray_masked", (some "numpy", none, some .ndmasked)),
    ("np_matrix", (some "numpy", some .ndarray, none)),
    ("csr_matrix", (some "scipy", none, some .sparse)),
    ("csc_matrix", (some "scipy", none, some .sparse)),
    ("bsr_matrix", (some "scipy", none, some .sparse)),
    ("pickle", (none, some .pickled, none)),
    ("!node-reference!", (none, some .nothing, some .expandRef)),
    ("!recover!", (none, some .recover, some .recoverGroup))] b

/-- is the package's loader loaded? core registrations always are -/
def isLoaded (r : Registry) : Option String → Bool
  | none => true
  | some p => r.loaded.contains p

/-- the classes considered: all named ones, and the user classes in `P` -/
def Protected (P : Nat → Prop) : Cls → Prop
  | .user k => P k
  | _ => True

/-- what is expected in the global table for a class -/
def expectType (r : Registry) (c : Cls) : Option Entry :=
  match stdReg c with
  | none => none
  | some (p, e) => if isLoaded r p then some e else none

/-- states reachable with benign loaders -/
structure RegInv (P : Nat → Prop) (r : Registry) : Prop where
  types : ∀ c, Protected P c → Assoc.get? r.glob.types c = expectType r c
  fns : ∀ b p f k, stdBase b = some (p, f, k) → Assoc.get? r.glob.fns b = if isLoaded r p then f else none
  conts : ∀ b p f k, stdBase b = some (p, f, k) → Assoc.get? r.glob.conts b = if isLoaded r p then k else none
  ctypes : ∀ c, Protected P c → Assoc.get? r.custom.types c = none
  cfns : ∀ b, (stdBase b).isSome → Assoc.get? r.custom.fns b = none
  cconts : ∀ b, (stdBase b).isSome → Assoc.get? r.custom.conts b = none
  ltypes : ∀ c, Protected P c → Assoc.get? r.legacy.types c = none

/-- a registration that touches nothing considered here -/
structure BenignReg (P : Nat → Prop) (a : RegArgs) : Prop where
  cls : ¬ Protected P a.cls
  base : stdBase a.base = none
  bang : bangQuoted a.base = false
  opt : a.option = none ∨ a.option = some "hickle-4.x" ∨ a.option = some "custom"

structure BenignExcl (p : String × Opt) : Prop where
  base : stdBase p.1 = none
  ne : p.1.toList ≠ []
  ok : disallowedToIgnore.contains p.1 = false
  opt : p.2 = none ∨ p.2 = some "hickle-4.x" ∨ p.2 = some "custom"

structure BenignMod (P : Nat → Prop) (lm : LoaderMod) : Prop where
  reg : ∀ a ∈ lm.register, BenignReg P a
  excl : ∀ p ∈ lm.exclude, BenignExcl p

/-- all other packages' loaders are benign -/
def EnvOk (P : Nat → Prop) (env : Env) : Prop :=
  ∀ p lm, env.mods p = some lm → BenignMod P lm

/-- managers made by `dump`/`load` without legacy: the global map last, possibly options before -/
def Manager.Ok (m : Manager) : Prop := ∃ pre, m.maps = pre ++ [none] ∧ ∀ o ∈ pre, o = some "custom"

/-- managers made by `dump`: like these, but `hickle-4.x` may be among the options -/
def Manager.Dumps (m : Manager) : Prop := ∃ pre, m.maps = pre ++ [none] ∧ ∀ o ∈ pre, o = some "custom" ∨ o = some "hickle-4.x"

theorem Manager.Ok.dumps {m : Manager} (h : m.Ok) : m.Dumps := by
  obtain ⟨pre, hp, hc⟩ := h
  exact ⟨pre, hp, fun o ho => .inl (hc o ho)⟩

/-! ### consequences of the invariant -/

theorem chain_eq_last {κ ν : Type} [DecidableEq κ] (ms : List (List (κ × ν))) (l : List (κ × ν)) (k : κ)
    (h : ∀ m ∈ ms, Assoc.get? m k = none) : Assoc.chain (ms ++ [l]) k = Assoc.get? l k := by
  induction ms with
  | nil => simp only [List.nil_append, Assoc.chain]; cases Assoc.get? l k <;> rfl
  | cons m ms ih =>
    simp only [List.cons_append, Assoc.chain, h m (by simp)]
    exact ih fun m' hm => h m' (by simp [hm])

theorem chainOf_eq {κ ν : Type} [DecidableEq κ] {m : Manager} (hm : m.Ok) (r : Registry)
    (proj : Tables → List (κ × ν)) (k : κ) (h : Assoc.get? (proj r.custom) k = none) :
    m.chainOf r proj k = Assoc.get? (proj r.glob) k := by
  obtain ⟨pre, hp, hc⟩ := hm
  unfold Manager.chainOf
  rw [hp, List.filterMap_append]
  have : List.filterMap (fun o => (r.tables o).map proj) [none] = [proj r.glob] := rfl
  rw [this]
  apply chain_eq_last
  intro t ht
  simp only [List.mem_filterMap] at ht
  obtain ⟨o, ho, h'⟩ := ht
  rw [hc o ho] at h'
  simp [Registry.tables] at h'
  rw [← h']; exact h

variable {P : Nat → Prop} {r : Registry} {m : Manager}

theorem RegInv.typeEntry (h : RegInv P r) (hm : m.Dumps) {c : Cls} (hc : Protected P c) :
    m.typeEntry r c = expectType r c := by
  obtain ⟨pre, hp, ho⟩ := hm
  unfold Manager.typeEntry Manager.chainOf
  rw [hp, List.filterMap_append, ← h.types c hc]
  refine chain_eq_last _ _ _ fun t ht => ?_
  simp only [List.mem_filterMap] at ht
  obtain ⟨o, h1, h2⟩ := ht
  rcases ho o h1 with rfl | rfl
  · simp [Registry.tables] at h2
    rw [← h2]; exact h.ctypes c hc
  · simp [Registry.tables] at h2
    rw [← h2]; exact h.ltypes c hc

theorem RegInv.loadFn (h : RegInv P r) (hm : m.Ok) {b p f k} (hb : stdBase b = some (p, f, k))
    (hl : isLoaded r p) : m.loadFn r b = f := by
  unfold Manager.loadFn
  rw [chainOf_eq hm r _ b (h.cfns b (by simp [hb]))]
  rw [h.fns b p f k hb, if_pos hl]

theorem RegInv.container (h : RegInv P r) (hm : m.Ok) {b p f k} (hb : stdBase b = some (p, f, k))
    (hl : isLoaded r p) : m.container r b = k := by
  unfold Manager.container
  rw [chainOf_eq hm r _ b (h.cconts b (by simp [hb]))]
  rw [h.conts b p f k hb, if_pos hl]

/-! ### benign registrations succeed and keep the invariant -/

theorem registerClass_benign (h : RegInv P r) {a : RegArgs} (ha : BenignReg P a) :
    ∃ r', registerClass a r = (.ok (), r') ∧ RegInv P r' ∧ r'.loaded = r.loaded := by
  have hobj : a.cls ≠ .object := by
    intro hc; exact ha.cls (by rw [hc]; trivial)
  have hp : disallowInOption.contains a.base = false := by
    by_cases hb : a.base = "pickle"
    · have := ha.base; rw [hb] at this; simp [stdBase, Assoc.get?] at this
    · simp [disallowInOption, hb]
  unfold registerClass
  rw [M.bind_of_ok (M.get_apply r)]
  rw [if_neg (by simp [hobj]), if_neg (by rw [hp, ha.bang]; simp)]
  have hne : ∀ c, Protected P c → a.cls ≠ c := fun c hc e => ha.cls (e ▸ hc)
  have hbne : ∀ b, (stdBase b).isSome → a.base ≠ b := by
    intro b hb e; rw [← e, ha.base] at hb; simp at hb
  have ht : ∀ (t : Tables) c, Protected P c → Assoc.get? (t.add a).types c = Assoc.get? t.types c := by
    intro t c hc
    unfold Tables.add
    cases a.dump
    · rfl
    · exact Assoc.get?_put_ne _ _ (hne c hc)
  have hf : ∀ (t : Tables) b, (stdBase b).isSome → Assoc.get? (t.add a).fns b = Assoc.get? t.fns b := by
    intro t b hb
    unfold Tables.add
    cases a.load
    · rfl
    · exact Assoc.get?_put_ne _ _ (hbne b hb)
  have hk : ∀ (t : Tables) b, (stdBase b).isSome → Assoc.get? (t.add a).conts b = Assoc.get? t.conts b := by
    intro t b hb
    unfold Tables.add
    cases a.cont
    · rfl
    · exact Assoc.get?_put_ne _ _ (hbne b hb)
  rcases ha.opt with ho | ho | ho
  all_goals
    rw [ho]
    simp only [Registry.tables, Registry.setTables, if_true, String.reduceEq, if_false, M.modify_apply]
    refine ⟨_, rfl, ?_, rfl⟩
  · exact ⟨fun c hc => (ht _ c hc).trans (h.types c hc),
      fun b p f k hb => (hf _ b (by simp [hb])).trans (h.fns b p f k hb),
      fun b p f k hb => (hk _ b (by simp [hb])).trans (h.conts b p f k hb),
      h.ctypes, h.cfns, h.cconts, h.ltypes⟩
  · exact ⟨h.types, h.fns, h.conts, h.ctypes, h.cfns, h.cconts, fun c hc => (ht _ c hc).trans (h.ltypes c hc)⟩
  · exact ⟨h.types, h.fns, h.conts, fun c hc => (ht _ c hc).trans (h.ctypes c hc),
      fun b hb => (hf _ b hb).trans (h.cfns b hb), fun b hb => (hk _ b hb).trans (h.cconts b hb), h.ltypes⟩

theorem registerExclude_benign (h : RegInv P r) {p : String × Opt} (hp : BenignExcl p) :
    ∃ r', registerExclude p.1 p.2 r = (.ok (), r') ∧ RegInv P r' ∧ r'.loaded = r.loaded := by
  unfold registerExclude
  rw [M.bind_of_ok (M.get_apply r), if_neg hp.ne, if_neg (by rw [hp.ok]; simp)]
  have hbne : ∀ b, (stdBase b).isSome → p.1 ≠ b := by
    intro b hb e; rw [← e, hp.base] at hb; simp at hb
  rcases hp.opt with ho | ho | ho
  all_goals
    rw [ho]
    simp only [Registry.tables, Registry.setTables, if_true, String.reduceEq, if_false, M.modify_apply]
    refine ⟨_, rfl, ?_, rfl⟩
  · constructor
    · exact h.types
    · intro b q f k hb
      exact (Assoc.get?_put_ne _ _ (hbne b (by simp [hb]))).trans (h.fns b q f k hb)
    · intro b q f k hb
      exact (Assoc.get?_put_ne _ _ (hbne b (by simp [hb]))).trans (h.conts b q f k hb)
    · exact h.ctypes
    · exact h.cfns
    · exact h.cconts
    · exact h.ltypes
  · exact ⟨h.types, h.fns, h.conts, h.ctypes, h.cfns, h.cconts, h.ltypes⟩
  · exact ⟨h.types, h.fns, h.conts, h.ctypes,
      fun b hb => by rw [← h.cfns b hb]; exact Assoc.get?_put_ne _ _ (hbne b hb),
      fun b hb => by rw [← h.cconts b hb]; exact Assoc.get?_put_ne _ _ (hbne b hb), h.ltypes⟩

theorem forEach_inv {α σ : Type} {f : α → M σ Unit} {I : σ → Prop} (xs : List α) (s : σ) (hs : I s)
    (h : ∀ x ∈ xs, ∀ s, I s → ∃ s', f x s = (.ok (), s') ∧ I s') :
    ∃ s', M.forEach f xs s = (.ok (), s') ∧ I s' := by
  induction xs generalizing s with
  | nil => exact ⟨s, rfl, hs⟩
  | cons x xs ih =>
    obtain ⟨s1, h1, i1⟩ := h x (by simp) s hs
    obtain ⟨s2, h2, i2⟩ := ih s1 i1 fun y hy => h y (by simp [hy])
    refine ⟨s2, ?_, i2⟩
    simp only [M.forEach]
    rw [M.bind_of_ok h1]; exact h2

/-- the invariant does not mention loaded modules other than builtins, numpy and scipy -/
theorem RegInv.addLoaded (h : RegInv P r) {p : String} (h1 : p ≠ "builtins") (h2 : p ≠ "numpy") (h3 : p ≠ "scipy") :
    RegInv P { r with loaded := p :: r.loaded } := by
  have hl : ∀ q, (q = none ∨ q = some "builtins" ∨ q = some "numpy" ∨ q = some "scipy") →
      isLoaded { r with loaded := p :: r.loaded } q = isLoaded r q := by
    rintro q (rfl | rfl | rfl | rfl) <;> simp [isLoaded, Ne.symm h1, Ne.symm h2, Ne.symm h3]
  have hb : ∀ b q f k, stdBase b = some (q, f, k) → (q = none ∨ q = some "builtins" ∨ q = some "numpy" ∨ q = some "scipy") := by
    intro b q f k hq
    have := Assoc.get?_mem hq
    simp at this
    rcases this with this | this | this | this | this | this | this | this | this | this | this | this | this | this | this | this | this | this | this | this | this <;>
      simp [this]
  have hc : ∀ c q e, stdReg c = some (q, e) → (q = none ∨ q = some "builtins" ∨ q = some "numpy" ∨ q = some "scipy") := by
    intro c q e hq
    cases c <;> simp [stdReg] at hq <;> simp [← hq.1]
  refine ⟨?_, ?_, ?_, h.ctypes, h.cfns, h.cconts, h.ltypes⟩
  · intro c hcp
    rw [show Assoc.get? _ c = expectType r c from h.types c hcp]
    unfold expectType
    split
    · rfl
    · next q e he => rw [hl q (hc c q e he)]
  · intro b q f k hq
    rw [hl q (hb b q f k hq)]
    exact h.fns b q f k hq
  · intro b q f k hq
    rw [hl q (hb b q f k hq)]
    exact h.conts b q f k hq

theorem runLoader_benign (h : RegInv P r) {p : String} {lm : LoaderMod} (hb : BenignMod P lm)
    (h1 : p ≠ "builtins") (h2 : p ≠ "numpy") (h3 : p ≠ "scipy") :
    ∃ r', runLoader p lm r = (.ok (), r') ∧ RegInv P r' ∧ r'.loaded = p :: r.loaded := by
  obtain ⟨r1, e1, i1, l1⟩ := forEach_inv (f := registerClass) (I := fun r' => RegInv P r' ∧ r'.loaded = r.loaded)
    lm.register r ⟨h, rfl⟩ (fun a ha s hs => by
      obtain ⟨s', e, i, l⟩ := registerClass_benign hs.1 (hb.reg a ha)
      exact ⟨s', e, i, l.trans hs.2⟩)
  obtain ⟨r2, e2, i2, l2⟩ := forEach_inv (f := fun (p : String × Opt) => registerExclude p.1 p.2)
    (I := fun r' => RegInv P r' ∧ r'.loaded = r.loaded)
    lm.exclude r1 ⟨i1, l1⟩ (fun a ha s hs => by
      obtain ⟨s', e, i, l⟩ := registerExclude_benign hs.1 (hb.excl a ha)
      exact ⟨s', e, i, l.trans hs.2⟩)
  refine ⟨{ r2 with loaded := p :: r2.loaded }, ?_, ?_, by simp [l2]⟩
  · unfold runLoader
    rw [M.bind_of_ok e1, M.bind_of_ok e2]; rfl
  · exact i2.addLoaded h1 h2 h3


/-! ### the loader modules of builtins, numpy and scipy -/

/-- effect of a registration that passes the guards -/
def regStep (r : Registry) (a : RegArgs) : Registry :=
  match r.tables a.option with
  | some t => r.setTables a.option (t.add a)
  | none => r

/-- effect of an exclusion that passes the guards -/
def exclStep (r : Registry) (p : String × Opt) : Registry :=
  match r.tables p.2 with
  | some t => r.setTables p.2
      { t with fns := Assoc.put t.fns p.1 .nothing, conts := Assoc.put t.conts p.1 .noContainer }
  | none => r

/-- guards of `register_class` hold whatever the state -/
def regSimple (a : RegArgs) : Bool :=
  a.cls ≠ .object && !bangQuoted a.base && !disallowInOption.contains a.base &&
  (a.option = none || a.option = some "hickle-4.x" || a.option = some "custom")

theorem registerClass_simple {a : RegArgs} (h : regSimple a = true) (r : Registry) :
    registerClass a r = (.ok (), regStep r a) := by
  simp only [regSimple, Bool.and_eq_true, Bool.not_eq_true', decide_eq_true_eq, Bool.or_eq_true, ne_eq] at h
  obtain ⟨⟨⟨h1, h2⟩, h3⟩, h4⟩ := h
  unfold registerClass
  rw [M.bind_of_ok (M.get_apply r), if_neg (by simp [h1]), if_neg (by rw [h2, h3]; simp)]
  have : (r.tables a.option).isSome := by
    rcases h4 with (h4 | h4) | h4 <;> rw [h4] <;> simp [Registry.tables]
  unfold regStep
  cases ht : r.tables a.option with
  | none => rw [ht] at this; simp at this
  | some t => rfl

theorem forEach_registerClass_simple (l : List RegArgs) (h : l.all regSimple = true) (r : Registry) :
    M.forEach registerClass l r = (.ok (), l.foldl regStep r) := by
  induction l generalizing r with
  | nil => rfl
  | cons a l ih =>
    simp only [List.all_cons, Bool.and_eq_true] at h
    simp only [M.forEach]
    rw [M.bind_of_ok (registerClass_simple h.1 r)]
    exact ih h.2 _

/-- guards of `register_class_exclude` hold whatever the state -/
def exclSimple (p : String × Opt) : Bool :=
  !p.1.toList.isEmpty && !disallowedToIgnore.contains p.1 &&
  (p.2 = none || p.2 = some "hickle-4.x" || p.2 = some "custom")

theorem registerExclude_simple {p : String × Opt} (h : exclSimple p = true) (r : Registry) :
    registerExclude p.1 p.2 r = (.ok (), exclStep r p) := by
  simp only [exclSimple, Bool.and_eq_true, Bool.not_eq_true', decide_eq_true_eq, Bool.or_eq_true,
    List.isEmpty_eq_false_iff] at h
  obtain ⟨⟨h1, h2⟩, h4⟩ := h
  unfold registerExclude
  rw [M.bind_of_ok (M.get_apply r), if_neg h1, if_neg (by rw [h2]; simp)]
  have : (r.tables p.2).isSome := by
    rcases h4 with (h4 | h4) | h4 <;> rw [h4] <;> simp [Registry.tables]
  unfold exclStep
  cases ht : r.tables p.2 with
  | none => rw [ht] at this; simp at this
  | some t => rfl

theorem forEach_registerExclude_simple (l : List (String × Opt)) (h : l.all exclSimple = true) (r : Registry) :
    M.forEach (fun (p : String × Opt) => registerExclude p.1 p.2) l r = (.ok (), l.foldl exclStep r) := by
  induction l generalizing r with
  | nil => rfl
  | cons a l ih =>
    simp only [List.all_cons, Bool.and_eq_true] at h
    simp only [M.forEach]
    rw [M.bind_of_ok (registerExclude_simple h.1 r)]
    exact ih h.2 _

theorem runLoader_simple (name : String) (lm : LoaderMod) (h1 : lm.register.all regSimple = true)
    (h2 : lm.exclude.all exclSimple = true) (r : Registry) :
    runLoader name lm r = (.ok (),
      let r' := lm.exclude.foldl exclStep (lm.register.foldl regStep r)
      { r' with loaded := name :: r'.loaded }) := by
  unfold runLoader
  rw [M.bind_of_ok (forEach_registerClass_simple _ h1 r),
    M.bind_of_ok (forEach_registerExclude_simple _ h2 _)]
  rfl

theorem get?_append {κ ν : Type} [DecidableEq κ] (a b : List (κ × ν)) (k : κ) :
    Assoc.get? (a ++ b) k = (Assoc.get? a k).or (Assoc.get? b k) := by
  induction a with
  | nil => simp
  | cons x a ih =>
    obtain ⟨k', v⟩ := x
    simp only [List.cons_append, Assoc.get?]
    split
    · rfl
    · exact ih

/-- everything a standard base type can be -/
theorem stdBase_cases {b p f k} (h : stdBase b = some (p, f, k))
    {Q : String → Option String → Option LoadFn → Option ContK → Prop}
    (hQ : ∀ x ∈ ["list", "tuple", "dict", "set", "bytes", "str", "int", "float", "complex", "bool", "None",
      "np_scalar", "ndarray", "ndarray_masked", "np_matrix", "csr_matrix", "csc_matrix", "bsr_matrix", "pickle", "!node-reference!", "!recover!"],
      ∀ p f k, stdBase x = some (p, f, k) → Q x p f k) : Q b p f k := by
  have hm := Assoc.get?_mem h
  apply hQ b _ p f k h
  have := List.mem_map_of_mem (f := Prod.fst) hm
  exact this

/-- loading one of the standard modules: the tables gain known entries in front -/
theorem RegInv.loadStd (h : RegInv P r) {pk : String}
    {T : List (Cls × Entry)} {F : List (String × LoadFn)} {C : List (String × ContK)} {r' : Registry}
    (e1 : r'.glob.types = T ++ r.glob.types) (e2 : r'.glob.fns = F ++ r.glob.fns)
    (e3 : r'.glob.conts = C ++ r.glob.conts) (e4 : r'.custom = r.custom) (e6 : r'.legacy.types = r.legacy.types)
    (e5 : r'.loaded = pk :: r.loaded)
    (hT : ∀ c, Assoc.get? T c = match stdReg c with
      | some (some q, e) => if q = pk then some e else none
      | _ => none)
    (hF : ∀ x ∈ ["list", "tuple", "dict", "set", "bytes", "str", "int", "float", "complex", "bool", "None",
      "np_scalar", "ndarray", "ndarray_masked", "np_matrix", "csr_matrix", "csc_matrix", "bsr_matrix", "pickle", "!node-reference!", "!recover!"],
      Assoc.get? F x = match stdBase x with
      | some (some q, f, _) => if q = pk then f else none
      | _ => none)
    (hC : ∀ x ∈ ["list", "tuple", "dict", "set", "bytes", "str", "int", "float", "complex", "bool", "None",
      "np_scalar", "ndarray", "ndarray_masked", "np_matrix", "csr_matrix", "csc_matrix", "bsr_matrix", "pickle", "!node-reference!", "!recover!"],
      Assoc.get? C x = match stdBase x with
      | some (some q, _, k) => if q = pk then k else none
      | _ => none) (hn : r.loaded.contains pk = false) :
    RegInv P r' := by
  have hl : ∀ q, q ≠ some pk → isLoaded r' q = isLoaded r q := by
    intro q hq
    cases q with
    | none => rfl
    | some p =>
      have : p ≠ pk := fun e => hq (by rw [e])
      simp [isLoaded, e5, this]
  have hl' : isLoaded r' (some pk) = true := by simp [isLoaded, e5]
  refine ⟨?_, ?_, ?_, by rw [e4]; exact h.ctypes, by rw [e4]; exact h.cfns, by rw [e4]; exact h.cconts, by rw [e6]; exact h.ltypes⟩
  · intro c hc
    rw [e1, get?_append, hT c, h.types c hc]
    unfold expectType
    cases hs : stdReg c with
    | none => rfl
    | some pe =>
      obtain ⟨q, e⟩ := pe
      cases q with
      | none => simp [isLoaded]
      | some q =>
        simp only []
        by_cases hq : q = pk
        · subst hq; simp [hl']
        · rw [hl (some q) (by simpa using hq)]; simp [hq]
  · intro b p f k hb
    rw [e2, get?_append]
    have hx : b ∈ _ := List.mem_map_of_mem (f := Prod.fst) (Assoc.get?_mem hb)
    rw [hF b hx, hb, h.fns b p f k hb]
    cases p with
    | none => simp [isLoaded]
    | some q =>
      simp only []
      by_cases hq : q = pk
      · subst hq
        rw [hl', if_pos rfl, if_pos rfl]
        simp only [isLoaded, hn]
        cases f <;> rfl
      · rw [if_neg hq, hl (some q) (by simpa using hq)]
        simp
  · intro b p f k hb
    rw [e3, get?_append]
    have hx : b ∈ _ := List.mem_map_of_mem (f := Prod.fst) (Assoc.get?_mem hb)
    rw [hC b hx, hb, h.conts b p f k hb]
    cases p with
    | none => simp [isLoaded]
    | some q =>
      simp only []
      by_cases hq : q = pk
      · subst hq
        rw [hl', if_pos rfl, if_pos rfl]
        simp only [isLoaded, hn]
        cases k <;> rfl
      · rw [if_neg hq, hl (some q) (by simpa using hq)]
        simp

theorem runLoader_builtins (h : RegInv P r) (hn : r.loaded.contains "builtins" = false) :
    ∃ r', runLoader "builtins" loadBuiltins r = (.ok (), r') ∧ RegInv P r' ∧ r'.loaded = "builtins" :: r.loaded := by
  refine ⟨_, runLoader_simple _ _ (by decide) (by decide) r, ?_, rfl⟩
  refine h.loadStd (pk := "builtins")
    (T := [(.noneType, ⟨.none, "None", false⟩), (.bool, ⟨.scalar, "bool", false⟩), (.complex, ⟨.scalar, "complex", false⟩),
      (.float, ⟨.scalar, "float", false⟩), (.int, ⟨.scalar, "int", false⟩), (.str, ⟨.listlike, "str", true⟩),
      (.bytes, ⟨.listlike, "bytes", true⟩), (.set, ⟨.setlike, "set", true⟩), (.dict, ⟨.dictlike, "dict", true⟩),
      (.tuple, ⟨.listlike, "tuple", true⟩), (.list, ⟨.listlike, "list", true⟩)])
    (F := [("None", .none), ("bool", .scalar), ("complex", .scalar), ("float", .scalar), ("int", .scalar),
      ("str", .list), ("bytes", .list), ("set", .list), ("tuple", .list), ("list", .list)])
    (C := [("set", .setLike), ("dict", .dictLike), ("tuple", .listLike), ("list", .listLike)])
    rfl rfl rfl rfl rfl rfl ?_ (by decide) (by decide) hn
  intro c; cases c <;> rfl

theorem runLoader_numpy (h : RegInv P r) (hn : r.loaded.contains "numpy" = false) :
    ∃ r', runLoader "numpy" loadNumpy r = (.ok (), r') ∧ RegInv P r' ∧ r'.loaded = "numpy" :: r.loaded := by
  refine ⟨_, runLoader_simple _ _ (by decide) (by decide) r, ?_, rfl⟩
  refine h.loadStd (pk := "numpy")
    (T := [(.matrix, ⟨.npArray, "np_matrix", true⟩), (.masked, ⟨.npMasked, "ndarray_masked", true⟩),
      (.ndarray, ⟨.npArray, "ndarray", true⟩), (.npGeneric, ⟨.npScalar, "np_scalar", false⟩),
      (.npNumber, ⟨.npScalar, "np_scalar", false⟩)])
    (F := [("np_matrix", .ndarray), ("ndarray", .ndarray), ("np_scalar", .npScalar), ("np_scalar", .npScalar)])
    (C := [("ndarray_masked", .ndmasked), ("ndarray", .ndarrayLike)])
    rfl rfl rfl rfl rfl rfl ?_ (by decide) (by decide) hn
  intro c; cases c <;> rfl

theorem runLoader_scipy (h : RegInv P r) (hn : r.loaded.contains "scipy" = false) :
    ∃ r', runLoader "scipy" loadScipy r = (.ok (), r') ∧ RegInv P r' ∧ r'.loaded = "scipy" :: r.loaded := by
  refine ⟨_, runLoader_simple _ _ (by decide) (by decide) r, ?_, rfl⟩
  refine h.loadStd (pk := "scipy")
    (T := [(.bsr, ⟨.sparse, "bsr_matrix", true⟩), (.csc, ⟨.sparse, "csc_matrix", true⟩), (.csr, ⟨.sparse, "csr_matrix", true⟩)])
    (F := [])
    (C := [("bsr_matrix", .sparse), ("csc_matrix", .sparse), ("csr_matrix", .sparse)])
    rfl rfl rfl rfl rfl rfl ?_ (by decide) (by decide) hn
  intro c; cases c <;> rfl

theorem RegInv.initial : RegInv P Registry.initial := by
  refine ⟨?_, ?_, ?_, ?_, ?_, ?_, ?_⟩
  · intro c _; cases c <;> rfl
  · intro b p f k hb
    refine stdBase_cases hb (Q := fun b p f _ => Assoc.get? Registry.initial.glob.fns b = if isLoaded Registry.initial p then f else none) ?_
    intro x hx p f k hs
    have : ∀ x ∈ ["list", "tuple", "dict", "set", "bytes", "str", "int", "float", "complex", "bool", "None",
      "np_scalar", "ndarray", "ndarray_masked", "np_matrix", "csr_matrix", "csc_matrix", "bsr_matrix", "pickle", "!node-reference!", "!recover!"],
      Assoc.get? Registry.initial.glob.fns x = match stdBase x with
        | some (p, f, _) => if isLoaded Registry.initial p then f else none
        | none => none := by decide
    have := this x hx
    rw [hs] at this; exact this
  · intro b p f k hb
    refine stdBase_cases hb (Q := fun b p _ k => Assoc.get? Registry.initial.glob.conts b = if isLoaded Registry.initial p then k else none) ?_
    intro x hx p f k hs
    have : ∀ x ∈ ["list", "tuple", "dict", "set", "bytes", "str", "int", "float", "complex", "bool", "None",
      "np_scalar", "ndarray", "ndarray_masked", "np_matrix", "csr_matrix", "csc_matrix", "bsr_matrix", "pickle", "!node-reference!", "!recover!"],
      Assoc.get? Registry.initial.glob.conts x = match stdBase x with
        | some (p, _, k) => if isLoaded Registry.initial p then k else none
        | none => none := by decide
    have := this x hx
    rw [hs] at this; exact this
  · intro c _; rfl
  · intro b _; rfl
  · intro b _; rfl
  · intro c _; rfl

/-! ### the answer of `load_loader` -/

/-- first class of the mro with a standard entry -/
def firstStd : List Cls → Option Entry
  | [] => none
  | k :: ks => match stdReg k with
    | some (_, e) => some e
    | none => firstStd ks

/-- what `load_loader(c)` returns: the entry of the first registered class in the mro, else pickle -/
def expected (env : Env) (c : Cls) : Cls × Entry :=
  match firstStd (c.mro env.u) with
  | some e => (c, e)
  | none => (.object, ⟨.pickled, "pickle", true⟩)

/-- classes considered whose mro is considered too and comes from ordinary packages, except for
the reference marker class itself -/
def GoodCls (P : Nat → Prop) (env : Env) (c : Cls) : Prop :=
  ∀ k ∈ c.mro env.u, Protected P k ∧ ((∃ p, k.origin env.u = .pkg p) ∨ k = .nodeRef)

theorem stdReg_origin {env : Env} {k : Cls} {q e} (h : stdReg k = some (some q, e)) : k.origin env.u = .pkg q := by
  cases k <;> simp [stdReg] at h <;> simp [Cls.origin, h.1]

theorem loadMod_spec (hE : EnvOk P env) (h : RegInv P r) {p : String} (hn : r.loaded.contains p = false)
    {lm : LoaderMod} (hlm : env.loaderMod p = some lm) :
    ∃ r', runLoader p lm r = (.ok (), r') ∧ RegInv P r' ∧ r'.loaded = p :: r.loaded := by
  unfold Env.loaderMod at hlm
  split at hlm
  · next hp => subst hp; simp at hlm; subst hlm; exact runLoader_builtins h hn
  · next hp =>
    split at hlm
    · next hp2 => subst hp2; simp at hlm; subst hlm; exact runLoader_numpy h hn
    · next hp2 =>
      split at hlm
      · next hp3 => subst hp3; simp at hlm; subst hlm; exact runLoader_scipy h hn
      · next hp3 => exact runLoader_benign h (hE p lm hlm) hp hp2 hp3

/-- the registry grew: nothing that was loaded is forgotten -/
def RegLe (r r' : Registry) : Prop := ∀ p, r.loaded.contains p → r'.loaded.contains p

theorem RegLe.refl (r : Registry) : RegLe r r := fun _ h => h
theorem RegLe.trans {a b c : Registry} (h1 : RegLe a b) (h2 : RegLe b c) : RegLe a c := fun p h => h2 p (h1 p h)

theorem stdReg_base {c : Cls} {p e} (h : stdReg c = some (p, e)) : ∃ f k, stdBase e.base = some (p, f, k) := by
  cases c <;> simp [stdReg] at h <;> obtain ⟨rfl, rfl⟩ := h <;> exact ⟨_, _, rfl⟩

/-- the loader behind a base type is loaded -/
def BaseReady (r : Registry) (b : String) : Prop := ∃ p f k, stdBase b = some (p, f, k) ∧ isLoaded r p

theorem BaseReady.mono {r r' : Registry} {b : String} (hle : RegLe r r') (h : BaseReady r b) : BaseReady r' b := by
  obtain ⟨p, f, k, h1, h2⟩ := h
  refine ⟨p, f, k, h1, ?_⟩
  cases p with
  | none => rfl
  | some p => exact hle p h2

theorem loadLoaderAux_spec {env : Env} (hE : EnvOk P env) (hm : m.Dumps) (c : Cls) (base : Option String) (ks : List Cls)
    (hks : ∀ k ∈ ks, Protected P k ∧ ((∃ p, k.origin env.u = .pkg p) ∨ k = .nodeRef)) (r : Registry) (h : RegInv P r) :
    ∃ r' ce, loadLoaderAux env m c base ks r = (.ok ce, r') ∧
      ce = (match firstStd ks with
          | some e => (c, e)
          | none => (.object, ⟨.pickled, "pickle", true⟩)) ∧
      RegInv P r' ∧ RegLe r r' ∧ BaseReady r' ce.2.base := by
  induction ks generalizing r with
  | nil => exact ⟨r, _, rfl, rfl, h, RegLe.refl r, ⟨none, _, _, rfl, rfl⟩⟩
  | cons k ks ih =>
    obtain ⟨hP, ho⟩ := hks k (by simp)
    have hks' : ∀ k ∈ ks, Protected P k ∧ ((∃ p, k.origin env.u = .pkg p) ∨ k = .nodeRef) :=
      fun k' hk' => hks k' (by simp [hk'])
    simp only [loadLoaderAux, firstStd]
    rw [M.bind_of_ok (M.get_apply r)]
    rw [h.typeEntry hm hP]
    cases hs : stdReg k with
    | none =>
      have hx : expectType r k = none := by simp [expectType, hs]
      rw [hx]
      simp only []
      rcases ho with ⟨p, ho⟩ | rfl
      · rw [ho]
        simp only []
        by_cases hl : r.loaded.contains p = true
        · rw [if_pos hl]; exact ih hks' r h
        · rw [if_neg hl]
          cases hlm : env.loaderMod p with
          | none => exact ih hks' r h
          | some lm =>
            obtain ⟨r1, e1, i1, l1⟩ := loadMod_spec hE h (by simpa using hl) hlm
            simp only []
            rw [M.bind_of_ok e1, M.bind_of_ok (M.get_apply r1), i1.typeEntry hm hP]
            have hx : expectType r1 k = none := by simp [expectType, hs]
            rw [hx]
            obtain ⟨r2, ce, e2, q2, i2, le2, b2⟩ := ih hks' r1 i1
            refine ⟨r2, ce, e2, q2, i2, RegLe.trans (fun q hq => ?_) le2, b2⟩
            rw [l1]; simp at hq; simp [hq]
      · simp [stdReg] at hs
    | some pe =>
      obtain ⟨p, e⟩ := pe
      obtain ⟨f, kk, hb⟩ := stdReg_base hs
      by_cases hl : isLoaded r p = true
      · have hx : expectType r k = some e := by simp [expectType, hs, hl]
        rw [hx]
        exact ⟨r, _, rfl, rfl, h, RegLe.refl r, ⟨p, f, kk, hb, hl⟩⟩
      · have hx : expectType r k = none := by simp [expectType, hs, hl]
        rw [hx]
        simp only []
        cases p with
        | none => simp [isLoaded] at hl
        | some p =>
          rw [stdReg_origin hs]
          have hl' : r.loaded.contains p = false := by simpa [isLoaded] using hl
          simp only []
          rw [if_neg (by rw [hl']; simp)]
          have hlm : ∃ lm, env.loaderMod p = some lm := by
            cases k <;> simp [stdReg] at hs <;> obtain ⟨rfl, _⟩ := hs <;> simp [Env.loaderMod]
          obtain ⟨lm, hlm⟩ := hlm
          rw [hlm]
          obtain ⟨r1, e1, i1, l1⟩ := loadMod_spec hE h hl' hlm
          simp only []
          rw [M.bind_of_ok e1, M.bind_of_ok (M.get_apply r1), i1.typeEntry hm hP]
          have hl1 : isLoaded r1 (some p) = true := by simp [isLoaded, l1]
          have hx : expectType r1 k = some e := by simp [expectType, hs, hl1]
          rw [hx]
          refine ⟨r1, _, rfl, rfl, i1, fun q hq => ?_, ⟨_, f, kk, hb, hl1⟩⟩
          rw [l1]; simp at hq; simp [hq]

/-- In every reachable registry state `load_loader` returns the loader of the first registered
class in the method resolution order, or the pickle fallback; the tables needed to load the base
type back are in place afterwards. -/
theorem loadLoader_spec {env : Env} (hE : EnvOk P env) (hm : m.Dumps) {c : Cls} (hc : GoodCls P env c) (base : Option String)
    (h : RegInv P r) :
    ∃ r', loadLoader env m c base r = (.ok (expected env c), r') ∧ RegInv P r' ∧ RegLe r r' ∧
      BaseReady r' (expected env c).2.base := by
  obtain ⟨r', ce, e, q, i, l, b⟩ := loadLoaderAux_spec hE hm c base (c.mro env.u) hc r h
  have : ce = expected env c := q
  subst this
  exact ⟨r', e, i, l, b⟩

theorem BaseReady.loadFn (h : RegInv P r) (hm : m.Ok) {b p f k} (hr : BaseReady r b)
    (hb : stdBase b = some (p, f, k)) : m.loadFn r b = f := by
  obtain ⟨p', f', k', h1, h2⟩ := hr
  rw [hb] at h1; simp at h1; obtain ⟨rfl, rfl, rfl⟩ := h1
  exact h.loadFn hm hb h2

theorem BaseReady.container (h : RegInv P r) (hm : m.Ok) {b p f k} (hr : BaseReady r b)
    (hb : stdBase b = some (p, f, k)) : m.container r b = k := by
  obtain ⟨p', f', k', h1, h2⟩ := hr
  rw [hb] at h1; simp at h1; obtain ⟨rfl, rfl, rfl⟩ := h1
  exact h.container hm hb h2

end Verif
