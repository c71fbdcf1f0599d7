import Verif.Hickle.ThreadsPar
/-!
# All threads together

Between any two steps of the process the shared tables satisfy `Shared` and every thread is going to end with its own outcome (`TOk`).
And every thread that gets its turn again and again ends (`Ends`).
-/
namespace Verif.Threads
variable {P : Nat → Prop} {r0 : Registry} {env : Env} {α : Type}

/-- classes whose loaders are there from the beginning -/
def Known (P : Nat → Prop) (r0 : Registry) (env : Env) (c : Cls) : Prop := GoodCls P env c ∧ Ready r0 (c.mro env.u)

/-- the answer of `load_loader` for the classes of objects a file does not have (`AttemptRecoverCustom`, lookup.py:1175-1177) -/
def recoverAnswer : Cls × Entry := (.recover, ⟨.notDumpable, "!recover!", true⟩)

/-- what `load_loader` answers, whatever the other threads do -/
def Ans (P : Nat → Prop) (r0 : Registry) (env : Env) (c : Cls) (b : Option String) (ans : Cls × Entry) : Prop :=
  (Known P r0 env c ∧ ans = expected env c) ∨ (c = .recover ∧ b = some "!recover!" ∧ ans = recoverAnswer)

theorem known_asked (hb : "builtins" ∈ r0.loaded) (hn : "numpy" ∈ r0.loaded) : Asked P env (Known P r0 env) (Ans P r0 env) := by
  refine ⟨fun c b h => .inl ⟨h, rfl⟩, fun c h => h.1, fun c h => ⟨h.good _ _, .of_all ?_⟩⟩
  intro k hk q e hs
  have h1 : r0.loaded.contains "builtins" = true := by simpa using hb
  have h2 : r0.loaded.contains "numpy" = true := by simpa using hn
  rcases h with rfl | rfl | rfl | rfl | rfl | rfl <;> simp only [Cls.mro, List.mem_cons, List.not_mem_nil, or_false] at hk <;>
    (rcases hk with rfl | rfl | rfl | rfl | rfl <;> simp [stdReg] at hs <;> obtain ⟨rfl, rfl⟩ := hs <;> assumption)

/-- `load_loader` on its way to the answer for `AttemptRecoverCustom` -/
def RecPc : Pc → Prop
  | .at ks => ks = [.recover, .object]
  | .home k _ => k = .recover
  | .done x => x = .ok recoverAnswer
  | _ => False

theorem chain_last_isSome {κ ν : Type} [DecidableEq κ] {ms : List (List (κ × ν))} {l : List (κ × ν)} {k : κ} (h : (Assoc.get? l k).isSome = true) :
    (Assoc.chain (ms ++ [l]) k).isSome = true := by
  induction ms with
  | nil => simp only [List.nil_append, Assoc.chain]; cases hl : Assoc.get? l k <;> simp_all
  | cons m ms ih =>
    simp only [List.cons_append, Assoc.chain]
    cases Assoc.get? m k with
    | some v => rfl
    | none => exact ih

theorem RecPc.tick {m : Manager} (hm : m.Dumps) {pc : Pc} {r : Registry} (hr : Shared P r0 r) (h : RecPc pc) :
    RecPc (tick env m .recover (some "!recover!") pc r).1 ∧ (tick env m .recover (some "!recover!") pc r).2 = r := by
  cases pc with
  | «at» ks =>
    rw [show ks = [.recover, .object] from h]
    simp only [Threads.tick, hr.none hm (c := .recover) trivial rfl]
    exact ⟨rfl, trivial⟩
  | home k ks =>
    rw [show k = .recover from h]
    have ho : Cls.origin env.u .recover = .core := rfl
    have hf : (m.loadFn r "!recover!").isSome = true := by
      obtain ⟨pre, hp, _⟩ := hm
      unfold Manager.loadFn Manager.chainOf
      rw [hp, List.filterMap_append]
      exact chain_last_isSome (l := r.glob.fns) (by rw [hr.fns "!recover!" none _ _ rfl rfl]; rfl)
    simp only [Threads.tick, ho, hf, Bool.true_or, if_true]
    exact ⟨rfl, trivial⟩
  | done x => exact ⟨h, rfl⟩
  | _ => exact h.elim

/-- `load_loader` on its way to the answer `ans` -/
def PcAns (P : Nat → Prop) (r0 : Registry) (env : Env) (c : Cls) (b : Option String) (ans : Cls × Entry) (pc : Pc) : Prop :=
  (ans = expected env c ∧ PcOk P r0 env c pc) ∨ (c = .recover ∧ b = some "!recover!" ∧ ans = recoverAnswer ∧ RecPc pc)

theorem PcAns.start {c : Cls} {b : Option String} {ans : Cls × Entry} (h : Ans P r0 env c b ans) : PcAns P r0 env c b ans (.at (c.mro env.u)) := by
  rcases h with ⟨h, rfl⟩ | ⟨rfl, rfl, rfl⟩
  · exact .inl ⟨rfl, rfl, h.1, h.2⟩
  · exact .inr ⟨rfl, rfl, rfl, rfl⟩

theorem PcAns.tick (hE : EnvOk P env) {m : Manager} (hm : m.Dumps) {c : Cls} {b : Option String} {ans : Cls × Entry} {pc : Pc} {r : Registry}
    (hr : Shared P r0 r) (h : PcAns P r0 env c b ans pc) : PcAns P r0 env c b ans (tick env m c b pc r).1 ∧ Shared P r0 (tick env m c b pc r).2 := by
  rcases h with ⟨e, h⟩ | ⟨rfl, rfl, e, h⟩
  · obtain ⟨h1, h2⟩ := tick_ok hE hm (base := b) hr h
    exact ⟨.inl ⟨e, h1⟩, h2⟩
  · obtain ⟨h1, h2⟩ := RecPc.tick (env := env) hm hr h
    exact ⟨.inr ⟨rfl, rfl, e, h1⟩, by rw [h2]; exact hr⟩

theorem PcAns.done {c : Cls} {b : Option String} {ans : Cls × Entry} {x} (h : PcAns P r0 env c b ans (.done x)) : x = .ok ans := by
  rcases h with ⟨rfl, h⟩ | ⟨_, _, rfl, h⟩
  · exact h
  · exact h

/-- a thread that is going to end with `Q` -/
def TOk (P : Nat → Prop) (r0 : Registry) (env : Env) (Q : Except PyErr α → Session → Prop) : Thread α → Prop
  | .run p s => Par (Shared P r0) (Ans P r0 env) p s fun x s => Q x s.1
  | .look m c b pc k s => m.Dumps ∧ ∃ ans, PcAns P r0 env c b ans pc ∧ Par (Shared P r0) (Ans P r0 env) (k (.ok ans)) s fun x s => Q x s.1

theorem TOk.step (hE : EnvOk P env) {Q : Except PyErr α → Session → Prop} {t : Thread α} {r : Registry} (hr : Shared P r0 r) (h : TOk P r0 env Q t) :
    TOk P r0 env Q (t.step env r).1 ∧ Shared P r0 (t.step env r).2 := by
  cases t with
  | run p s =>
    cases p with
    | ret x => exact ⟨h, hr⟩
    | act io x k =>
      obtain ⟨h1, h2⟩ := h r hr
      refine ⟨h2, ?_⟩
      have h1 : (x (withReg s r)).2.1.reg = r := h1
      simp only [Thread.step]
      rw [h1]
      exact hr
    | look m c b k =>
      obtain ⟨hm, ans, ha, h⟩ := h
      exact ⟨⟨hm, ans, .start ha, h⟩, hr⟩
  | look m c b pc k s =>
    obtain ⟨hm, ans, hp, hk⟩ := h
    obtain ⟨h1, h2⟩ := hp.tick hE hm hr
    cases pc with
    | done x =>
      refine ⟨?_, hr⟩
      rw [hp.done]
      exact hk
    | _ => exact ⟨⟨hm, ans, h1, hk⟩, h2⟩

/-- the whole process -/
structure SysOk (P : Nat → Prop) (r0 : Registry) (env : Env) (Q : Nat → Except PyErr α → Session → Prop) (σ : Sys α) : Prop where
  reg : Shared P r0 σ.reg
  each : ∀ i t, σ.threads[i]? = some t → TOk P r0 env (Q i) t

theorem SysOk.step (hE : EnvOk P env) {Q : Nat → Except PyErr α → Session → Prop} {σ : Sys α} (h : SysOk P r0 env Q σ) (i : Nat) : SysOk P r0 env Q (σ.step env i) := by
  unfold Sys.step
  cases ht : σ.threads[i]? with
  | none => exact h
  | some t =>
    obtain ⟨h1, h2⟩ := (h.each i t ht).step hE h.reg
    refine ⟨h2, fun j u hu => ?_⟩
    simp only [List.getElem?_set] at hu
    split at hu
    · next e =>
      subst e
      split at hu
      · simp only [Option.some.injEq] at hu; subst hu; exact h1
      · simp at hu
    · exact h.each j u hu

theorem SysOk.run (hE : EnvOk P env) {Q : Nat → Except PyErr α → Session → Prop} (l : List Nat) : ∀ {σ : Sys α}, SysOk P r0 env Q σ → SysOk P r0 env Q (σ.run env l) := by
  induction l with
  | nil => exact fun h => h
  | cons i l ih => exact fun h => ih (h.step hE i)

theorem TOk.result {Q : Except PyErr α → Session → Prop} {t : Thread α} (h : TOk P r0 env Q t) {x s} (hr : t.result = some (x, s)) : Q x s := by
  cases t with
  | look m c b pc k s => simp [Thread.result] at hr
  | run p s =>
    cases p with
    | ret y => simp only [Thread.result, Option.some.injEq, Prod.mk.injEq] at hr; obtain ⟨rfl, rfl⟩ := hr; exact h
    | act io x k => simp [Thread.result] at hr
    | look m c b k => simp [Thread.result] at hr

/-! ### threads end -/

/-- whatever the others do meanwhile, the thread has only finitely many steps -/
inductive Ends (env : Env) : Thread α → Prop
  | now {t} : t.result.isSome = true → Ends env t
  | step {t} : (∀ r, Ends env (t.step env r).1) → Ends env t

theorem Ends.look {m : Manager} {c : Cls} {b : Option String} {τ : Type} {k : Except PyErr (Cls × Entry) → Prog (Session × τ) α} {s : Session × τ} (hk : ∀ x s, Ends env (.run (k x) s)) :
    ∀ pc, Ends env (.look m c b pc k s) := by
  have done : ∀ x, Ends env (.look m c b (.done x) k s) := fun x => .step fun r => hk x s
  have go : ∀ pc, (∀ x, pc ≠ .done x) → (∀ r, Ends env (.look m c b (tick env m c b pc r).1 k s)) → Ends env (.look m c b pc k s) := by
    intro pc hpc h
    refine .step fun r => ?_
    cases pc with
    | done x => exact absurd rfl (hpc x)
    | _ => exact h r
  have reg : ∀ kk ks, (Ends env (.look m c b (.at ks) k s)) → ∀ ws, Ends env (.look m c b (.reg kk ks ws) k s) := by
    intro kk ks hat ws
    induction ws with
    | nil =>
      refine go _ (by simp) fun r => go _ (by simp [tick]) fun r' => ?_
      simp only [tick]
      split
      · exact done _
      · exact hat
    | cons w ws ih =>
      refine go _ (by simp) fun r => ?_
      simp only [tick]
      split
      · exact ih
      · exact done _
  have dummy : ∀ kk l ks, (Ends env (.look m c b (.at ks) k s)) → Ends env (.look m c b (.dummy kk l ks) k s) := by
    intro kk l ks hat
    refine go _ (by simp) fun r => ?_
    simp only [tick]
    split
    · exact done _
    · split
      · exact hat
      · exact reg _ _ hat _
  have home : ∀ kk ks, (Ends env (.look m c b (.at ks) k s)) → Ends env (.look m c b (.home kk ks) k s) := by
    intro kk ks hat
    refine go _ (by simp) fun r => ?_
    simp only [tick]
    split
    · cases b with
      | none => exact done _
      | some b =>
        simp only []
        split <;> exact done _
    · exact dummy _ _ _ hat
    · split
      · exact hat
      · split
        · exact hat
        · exact reg _ _ hat _
  have hat : ∀ ks, Ends env (.look m c b (.at ks) k s) := by
    intro ks
    induction ks with
    | nil => exact go _ (by simp) fun r => done _
    | cons kk ks ih =>
      refine go _ (by simp) fun r => ?_
      simp only [tick]
      split
      · exact done _
      · exact home _ _ ih
  intro pc
  cases pc with
  | «at» ks => exact hat ks
  | home kk ks => exact home _ _ (hat ks)
  | dummy kk l ks => exact dummy _ _ _ (hat ks)
  | reg kk ks ws => exact reg _ _ (hat ks) _
  | again kk ks =>
    refine go _ (by simp) fun r => ?_
    simp only [tick]
    split
    · exact done _
    · exact hat ks
  | done x => exact done x

theorem Ends.all (t : Thread α) : Ends env t := by
  have run : ∀ {τ : Type} (p : Prog (Session × τ) α) s, Ends env (.run p s) := by
    intro τ p
    induction p with
    | ret x => exact fun s => .now rfl
    | act io x k ih => exact fun s => .step fun r => ih _ _
    | look m c b k ih => exact fun s => .step fun r => Ends.look ih _
  cases t with
  | run p s => exact run p s
  | look m c b pc k s => exact Ends.look (fun x s => run _ s) pc

/-- the process after the first `n` turns of an endless schedule -/
def Sys.after (env : Env) (σ : Sys α) (f : Nat → Nat) (n : Nat) : Sys α := σ.run env ((List.range n).map f)

theorem Sys.after_succ (σ : Sys α) (f : Nat → Nat) (n : Nat) : σ.after env f (n + 1) = (σ.after env f n).step env (f n) := by
  simp [Sys.after, Sys.run, List.range_succ]

theorem Sys.step_other {σ : Sys α} {i j : Nat} (h : j ≠ i) : (σ.step env j).threads[i]? = σ.threads[i]? := by
  unfold Sys.step
  split
  · rfl
  · exact List.getElem?_set_ne h

theorem Sys.step_self {σ : Sys α} {i : Nat} {t : Thread α} (h : σ.threads[i]? = some t) : (σ.step env i).threads[i]? = some (t.step env σ.reg).1 := by
  unfold Sys.step
  rw [h]
  simp only []
  obtain ⟨hi, _⟩ := List.getElem?_eq_some_iff.1 h
  simp [hi]

/-- a finished thread stays as it is -/
theorem Thread.step_result {t : Thread α} {x} (h : t.result = some x) (r : Registry) : (t.step env r).1.result = some x := by
  cases t with
  | look m c b pc k s => simp [Thread.result] at h
  | run p s =>
    cases p with
    | ret y => exact h
    | act io x k => simp [Thread.result] at h
    | look m c b k => simp [Thread.result] at h

theorem Sys.step_result {σ : Sys α} {i : Nat} {t : Thread α} {x} (h : σ.threads[i]? = some t) (hx : t.result = some x) (j : Nat) :
    ∃ t', (σ.step env j).threads[i]? = some t' ∧ t'.result = some x := by
  by_cases hj : j = i
  · subst hj; exact ⟨_, Sys.step_self h, Thread.step_result hx _⟩
  · exact ⟨t, by rw [Sys.step_other hj]; exact h, hx⟩

/-- a thread that gets its turn again and again ends -/
theorem ends (σ : Sys α) (f : Nat → Nat) (i : Nat) (hf : ∀ n, ∃ m, n ≤ m ∧ f m = i) {t : Thread α} : ∀ n, (σ.after env f n).threads[i]? = some t →
    ∃ m t' x, (σ.after env f m).threads[i]? = some t' ∧ t'.result = some x := by
  have wait : ∀ d n m, m = n + d → ∀ t, (σ.after env f n).threads[i]? = some t → f m = i →
      ∃ m', (σ.after env f m').threads[i]? = some t ∧ f m' = i := by
    intro d
    induction d with
    | zero => intro n m hm t ht hi; exact ⟨n, ht, by rw [hm] at hi; exact hi⟩
    | succ d ih =>
      intro n m hm t ht hi
      by_cases h : f n = i
      · exact ⟨n, ht, h⟩
      · exact ih (n + 1) m (by omega) t (by rw [Sys.after_succ, Sys.step_other h]; exact ht) hi
  have key : ∀ t, Ends env t → ∀ n, (σ.after env f n).threads[i]? = some t → ∃ m t' x, (σ.after env f m).threads[i]? = some t' ∧ t'.result = some x := by
    intro t h
    induction h with
    | now h =>
      intro n hn
      obtain ⟨x, hx⟩ := Option.isSome_iff_exists.1 h
      exact ⟨n, _, x, hn, hx⟩
    | step _ ih =>
      intro n hn
      obtain ⟨m, hm, hi⟩ := hf n
      obtain ⟨m', h1, h2⟩ := wait (m - n) n m (by omega) _ hn hi
      exact ih _ (m' + 1) (by rw [Sys.after_succ, h2]; exact Sys.step_self h1)
  exact key t (Ends.all t)

theorem stays (σ : Sys α) (f : Nat → Nat) {i n : Nat} {t : Thread α} {x} (h : (σ.after env f n).threads[i]? = some t) (hx : t.result = some x) :
    ∀ m, n ≤ m → ∃ t', (σ.after env f m).threads[i]? = some t' ∧ t'.result = some x := by
  intro m hm
  induction hm with
  | refl => exact ⟨t, h, hx⟩
  | step _ ih =>
    obtain ⟨t', h1, h2⟩ := ih
    rw [Sys.after_succ]
    exact Sys.step_result h1 h2 _

end Verif.Threads
