import Verif.Hickle.Threads
/-!
# `load_loader` in single steps, with nothing in between

The steps of `tick` one after the other are `loadLoader` of `Registry.lean`.
-/
namespace Verif.Threads

theorem tables_set (r : Registry) (o : Opt) {t : Tables} (h : r.tables o = some t) (t' : Tables) : (r.setTables o t').tables o = some t' := by
  cases o with
  | none => rfl
  | some o =>
    simp only [Registry.tables, Registry.setTables] at *
    split
    · rfl
    · next h1 =>
      rw [if_neg h1] at h
      split
      · rfl
      · next h2 => rw [if_neg h2] at h; simp at h

theorem set_set (r : Registry) (o : Opt) (t t' : Tables) : (r.setTables o t).setTables o t' = r.setTables o t' := by
  cases o with
  | none => rfl
  | some o =>
    simp only [Registry.setTables]
    split
    · rfl
    · split <;> rfl

theorem set_self (r : Registry) (o : Opt) {t : Tables} (h : r.tables o = some t) : r.setTables o t = r := by
  obtain ⟨g, l, c, n⟩ := r
  cases o with
  | none => simp only [Registry.tables, Option.some.injEq] at h; subst h; rfl
  | some o =>
    simp only [Registry.tables, Registry.setTables] at *
    split
    · next h1 => rw [if_pos h1] at h; simp only [Option.some.injEq] at h; subst h; rfl
    · next h1 =>
      rw [if_neg h1] at h
      split
      · next h2 => rw [if_pos h2] at h; simp only [Option.some.injEq] at h; subst h; rfl
      · rfl

theorem onTables_ok {r : Registry} {o : Opt} {t : Tables} (h : r.tables o = some t) (f : Tables → Tables) : onTables o f r = (.ok (), r.setTables o (f t)) := by
  unfold onTables
  rw [M.bind_of_ok (M.get_apply r), h]
  rfl

theorem onTables_none {r : Registry} {o : Opt} (h : r.tables o = none) (f : Tables → Tables) : onTables o f r = (.error .lookupError, r) := by
  unfold onTables
  rw [M.bind_of_ok (M.get_apply r), h]
  rfl

theorem exec_check (a : RegArgs) (r : Registry) : (Put.check a).exec r =
    if a.cls = .object ∧ a.src ≠ .core then (.error .typeError, r)
    else if ((Assoc.get? r.glob.fns a.base).isSome || (Assoc.get? r.glob.conts a.base).isSome)
        && (bangQuoted a.base || disallowInOption.contains a.base) then (.error .valueError, r)
    else (.ok (), r) := by
  simp only [Put.exec]
  rw [M.bind_of_ok (M.get_apply r)]
  split
  · rfl
  · split <;> rfl

theorem exec_exCheck (b : String) (o : Opt) (r : Registry) : (Put.exCheck b o).exec r =
    if b.toList = [] then (.error .indexError, r) else if disallowedToIgnore.contains b then (.error .valueError, r) else (.ok (), r) := by
  simp only [Put.exec]
  split
  · rfl
  · split <;> rfl

/-- the four steps of a registration -/
theorem register_steps (a : RegArgs) (rest : List Put) (r : Registry) :
    M.forEach Put.exec (.check a :: .type a :: .fn a :: .cont a :: rest) r = (registerClass a >>= fun _ => M.forEach Put.exec rest) r := by
  simp only [M.forEach]
  rw [M.bind_apply, M.bind_apply]
  unfold registerClass
  rw [exec_check, M.bind_of_ok (M.get_apply r)]
  by_cases c1 : a.cls = .object ∧ a.src ≠ .core
  · rw [if_pos c1, if_pos c1]; rfl
  rw [if_neg c1, if_neg c1]
  by_cases c2 : (((Assoc.get? r.glob.fns a.base).isSome || (Assoc.get? r.glob.conts a.base).isSome)
        && (bangQuoted a.base || disallowInOption.contains a.base)) = true
  · rw [if_pos c2, if_pos c2]; rfl
  rw [if_neg c2, if_neg c2]
  simp only []
  cases ht : r.tables a.option with
  | none =>
    cases hd : a.dump with
    | some d => simp only [M.bind_apply, Put.exec, hd, onTables_none ht, Option.isSome_some, Bool.true_or, if_true, M.throw_apply]
    | none =>
      cases hl : a.load with
      | some l => simp only [M.bind_apply, Put.exec, hd, hl, onTables_none ht, Option.isSome_some, Option.isSome_none, Bool.false_or, Bool.true_or, if_true, M.throw_apply, M.pure_apply]
      | none =>
        cases hc : a.cont with
        | some c => simp only [M.bind_apply, Put.exec, hd, hl, hc, onTables_none ht, Option.isSome_some, Option.isSome_none, Bool.false_or, if_true, M.throw_apply, M.pure_apply]
        | none => simp only [M.bind_apply, Put.exec, hd, hl, hc, Option.isSome_none, Bool.false_or, Bool.false_eq_true, if_false, M.pure_apply]
  | some t =>
    obtain ⟨ty, fn, ct⟩ := t
    have h1 : (Put.type a).exec r = (.ok (), r.setTables a.option ⟨(Tables.add ⟨ty, fn, ct⟩ a).types, fn, ct⟩) := by
      cases hd : a.dump with
      | none => simp only [Put.exec, Tables.add, hd, M.pure_apply]; rw [set_self r _ ht]
      | some d => simp only [Put.exec, Tables.add, hd, onTables_ok ht]
    have ht1 := tables_set r a.option ht ⟨(Tables.add ⟨ty, fn, ct⟩ a).types, fn, ct⟩
    have h2 : (Put.fn a).exec (r.setTables a.option ⟨(Tables.add ⟨ty, fn, ct⟩ a).types, fn, ct⟩) =
        (.ok (), r.setTables a.option ⟨(Tables.add ⟨ty, fn, ct⟩ a).types, (Tables.add ⟨ty, fn, ct⟩ a).fns, ct⟩) := by
      cases hl : a.load with
      | none => simp only [Put.exec, M.pure_apply, Tables.add, hl]
      | some d => simp only [Put.exec, hl, onTables_ok ht1, set_set]; simp only [Tables.add, hl]
    have ht2 := tables_set r a.option ht ⟨(Tables.add ⟨ty, fn, ct⟩ a).types, (Tables.add ⟨ty, fn, ct⟩ a).fns, ct⟩
    have h3 : (Put.cont a).exec (r.setTables a.option ⟨(Tables.add ⟨ty, fn, ct⟩ a).types, (Tables.add ⟨ty, fn, ct⟩ a).fns, ct⟩) =
        (.ok (), r.setTables a.option (Tables.add ⟨ty, fn, ct⟩ a)) := by
      cases hl : a.cont with
      | none => simp only [Put.exec, M.pure_apply, Tables.add, hl]
      | some d => simp only [Put.exec, hl, onTables_ok ht2, set_set]; simp only [Tables.add, hl]
    simp only [M.bind_of_ok h1, M.bind_of_ok h2, M.bind_of_ok h3, M.modify_apply]

/-- the three steps of an exclusion -/
theorem exclude_steps (b : String) (o : Opt) (rest : List Put) (r : Registry) :
    M.forEach Put.exec (.exCheck b o :: .exFn b o :: .exCont b o :: rest) r = (registerExclude b o >>= fun _ => M.forEach Put.exec rest) r := by
  simp only [M.forEach]
  rw [M.bind_apply, M.bind_apply]
  unfold registerExclude
  rw [exec_exCheck, M.bind_of_ok (M.get_apply r)]
  by_cases c1 : b.toList = []
  · rw [if_pos c1, if_pos c1]; rfl
  rw [if_neg c1, if_neg c1]
  by_cases c2 : disallowedToIgnore.contains b = true
  · rw [if_pos c2, if_pos c2]; rfl
  rw [if_neg c2, if_neg c2]
  simp only []
  cases ht : r.tables o with
  | none => simp only [M.bind_apply, Put.exec, onTables_none ht, M.throw_apply]
  | some t =>
    obtain ⟨ty, fn, ct⟩ := t
    have ht1 := tables_set r o ht ⟨ty, Assoc.put fn b .nothing, ct⟩
    have h1 : (Put.exFn b o).exec r = (.ok (), r.setTables o ⟨ty, Assoc.put fn b .nothing, ct⟩) := by
      simp only [Put.exec]; rw [onTables_ok ht]
    have h2 : (Put.exCont b o).exec (r.setTables o ⟨ty, Assoc.put fn b .nothing, ct⟩) =
        (.ok (), r.setTables o ⟨ty, Assoc.put fn b .nothing, Assoc.put ct b .noContainer⟩) := by
      simp only [Put.exec]; rw [onTables_ok ht1, set_set]
    simp only [M.bind_of_ok h1, M.bind_of_ok h2, M.modify_apply]

theorem M.bind_assoc {σ α β γ : Type} (x : M σ α) (f : α → M σ β) (g : β → M σ γ) : x >>= f >>= g = x >>= fun a => f a >>= g := by
  funext s
  rw [M.bind_apply, M.bind_apply, M.bind_apply]
  rcases x s with ⟨r, s'⟩
  cases r <;> rfl

/-- the steps of a registration are `runLoader` -/
theorem puts_run (p : String) (lm : LoaderMod) : M.forEach Put.exec (puts p lm) = runLoader p lm := by
  obtain ⟨rs, es⟩ := lm
  unfold puts runLoader
  simp only []
  have h2 : ∀ es : List (String × Opt), M.forEach Put.exec (es.flatMap (fun e => [Put.exCheck e.1 e.2, .exFn e.1 e.2, .exCont e.1 e.2]) ++ [.mark p]) =
      (M.forEach (fun (p : String × Opt) => registerExclude p.1 p.2) es >>= fun _ => M.modify fun r => { r with loaded := p :: r.loaded }) := by
    intro es
    induction es with
    | nil =>
      funext r
      simp [M.forEach, M.bind_apply, Put.exec]
    | cons e es ih =>
      funext r
      simp only [List.flatMap_cons, List.cons_append, List.nil_append]
      rw [exclude_steps, ih]
      simp only [M.forEach]
      rw [M.bind_assoc]
  induction rs with
  | nil =>
    simp only [List.flatMap_nil, List.nil_append, h2]
    rfl
  | cons a rs ih =>
    funext r
    simp only [List.flatMap_cons, List.cons_append, List.nil_append]
    rw [register_steps, ih]
    simp only [M.forEach]
    rw [M.bind_assoc]

/-! ### the lookup -/

section
variable {env : Env} {m : Manager} {c : Cls} {base : Option String}

/-- steps of a thread with nothing in between -/
def ticks (env : Env) (m : Manager) (c : Cls) (base : Option String) : Nat → Pc × Registry → Pc × Registry
  | 0, x => x
  | n + 1, x => ticks env m c base n (tick env m c base x.1 x.2)

theorem ticks_add (i j : Nat) : ∀ x, ticks env m c base (i + j) x = ticks env m c base j (ticks env m c base i x) := by
  induction i with
  | zero => intro x; simp [ticks]
  | succ i ih => intro x; rw [Nat.succ_add]; exact ih _

theorem ticks_reg (k : Cls) (ks : List Cls) (ws : List Put) : ∀ r, ∃ n, ticks env m c base n (.reg k ks ws, r) =
    match M.forEach Put.exec ws r with
    | (.ok _, r') => (.again k ks, r')
    | (.error e, r') => (.done (.error e), r') := by
  induction ws with
  | nil => intro r; exact ⟨1, rfl⟩
  | cons w ws ih =>
    intro r
    simp only [M.forEach]
    rcases hw : w.exec r with ⟨x, r'⟩
    cases x with
    | error e =>
      refine ⟨1, ?_⟩
      rw [M.bind_of_error hw]
      simp only [ticks, tick, hw]
    | ok u =>
      obtain ⟨n, h⟩ := ih r'
      refine ⟨n + 1, ?_⟩
      rw [M.bind_of_ok hw, ← h]
      simp only [ticks, tick, hw]

theorem ticks_mod {k : Cls} {ks : List Cls} {p : String} {lm : LoaderMod}
    (ih : ∀ r, ∃ n, ticks env m c base n (.at ks, r) = (.done (loadLoaderAux env m c base ks r).1, (loadLoaderAux env m c base ks r).2)) (r : Registry) :
    ∃ n, ticks env m c base n (.reg k ks (puts p lm), r) =
      (let x : M Registry (Cls × Entry) := (do
          runLoader p lm
          let r' ← M.get
          match m.typeEntry r' k with
          | some e => pure (c, e)
          | none => loadLoaderAux env m c base ks)
       (.done (x r).1, (x r).2)) := by
  obtain ⟨n, h⟩ := ticks_reg (env := env) (m := m) (c := c) (base := base) k ks (puts p lm) r
  rw [puts_run] at h
  rcases hr : runLoader p lm r with ⟨x, r'⟩
  rw [hr] at h
  cases x with
  | error e =>
    refine ⟨n, ?_⟩
    simp only [M.bind_of_error hr]
    exact h
  | ok u =>
    simp only [M.bind_of_ok hr, M.bind_of_ok (M.get_apply r')]
    cases ht : m.typeEntry r' k with
    | some e =>
      refine ⟨n + 1, ?_⟩
      rw [ticks_add, h]
      simp only [ticks, tick, ht, M.pure_apply]
    | none =>
      obtain ⟨n', h'⟩ := ih r'
      refine ⟨n + (1 + n'), ?_⟩
      rw [ticks_add, h, ticks_add]
      simp only [ticks, tick, ht]
      exact h'

/-- **the steps of `load_loader`, one after the other, are `loadLoader`** -/
theorem ticks_spec (ks : List Cls) : ∀ r, ∃ n, ticks env m c base n (.at ks, r) = (.done (loadLoaderAux env m c base ks r).1, (loadLoaderAux env m c base ks r).2) := by
  induction ks with
  | nil => intro r; exact ⟨1, rfl⟩
  | cons k ks ih =>
    intro r
    simp only [loadLoaderAux]
    rw [M.bind_of_ok (M.get_apply r)]
    cases ht : m.typeEntry r k with
    | some e => exact ⟨1, by simp only [ticks, tick, ht, M.pure_apply]⟩
    | none =>
      simp only []
      cases ho : k.origin env.u with
      | core =>
        refine ⟨2, ?_⟩
        simp only [ticks, tick, ht, ho]
        cases base with
        | none => rfl
        | some b =>
          simp only []
          split <;> rfl
      | dummy l =>
        obtain ⟨r', hp⟩ : ∃ r', putDummy m k ⟨.notDumpable, "NotHicklable", false⟩ r = (.ok (), r') := by
          unfold putDummy
          rw [M.bind_of_ok (M.get_apply r)]
          cases m.maps with
          | nil => exact ⟨_, rfl⟩
          | cons o _ => simp only []; cases r.tables o <;> exact ⟨_, rfl⟩
        have hl : r'.loaded = r.loaded := by
          unfold putDummy at hp
          rw [M.bind_of_ok (M.get_apply r)] at hp
          cases hm : m.maps with
          | nil => rw [hm] at hp; simp at hp; rw [← hp]
          | cons o _ =>
            rw [hm] at hp
            simp only [] at hp
            cases ht : r.tables o with
            | none => rw [ht] at hp; simp at hp; rw [← hp]
            | some t =>
              rw [ht] at hp
              simp at hp
              rw [← hp]
              cases o with
              | none => rfl
              | some o => simp only [Registry.setTables]; split; rfl; split <;> rfl
        simp only [M.bind_of_ok hp]
        rw [← hl]
        by_cases hc : r'.loaded.contains l = true
        · refine ⟨3, ?_⟩
          simp only [ticks, tick, ht, ho, hp, hc, if_true, M.pure_apply]
        · simp only [hc, if_false]
          cases hlm : env.loaderMod l with
          | none =>
            obtain ⟨n, h⟩ := ih r'
            refine ⟨3 + n, ?_⟩
            rw [ticks_add]
            simp only [ticks, tick, ht, ho, hp, hc, if_false, hlm]
            exact h
          | some lm =>
            obtain ⟨n, h⟩ := ticks_mod (k := k) (p := l) (lm := lm) ih r'
            refine ⟨3 + n, ?_⟩
            rw [ticks_add]
            simp only [ticks, tick, ht, ho, hp, hc, if_false, hlm]
            exact h
      | pkg p =>
        simp only []
        by_cases hc : r.loaded.contains p = true
        · obtain ⟨n, h⟩ := ih r
          refine ⟨2 + n, ?_⟩
          rw [ticks_add]
          simp only [ticks, tick, ht, ho, hc, if_true]
          exact h
        · simp only [hc, if_false]
          cases hlm : env.loaderMod p with
          | none =>
            obtain ⟨n, h⟩ := ih r
            refine ⟨2 + n, ?_⟩
            rw [ticks_add]
            simp only [ticks, tick, ht, ho, hc, if_false, hlm]
            exact h
          | some lm =>
            obtain ⟨n, h⟩ := ticks_mod (k := k) (p := p) (lm := lm) ih r
            refine ⟨2 + n, ?_⟩
            rw [ticks_add]
            simp only [ticks, tick, ht, ho, hc, if_false, hlm]
            exact h

end

end Verif.Threads
