import Verif.Hickle.ThreadsSys
import Verif.Props.C43
/-!
# C46 Dumps running at the same time in several threads

A process dumps in several threads, each into a file of its own.  Whatever the order of their steps, each call ends as it would have
ended alone, and leaves the file it would have left alone.
-/
namespace Verif
open Threads

variable {P : Nat → Prop}

/-- the process at the beginning: one thread for each call of `dump`, each with its own file -/
def startAll (r : Registry) (jobs : List (DumpArgs × Session)) : Sys Unit := ⟨r, jobs.map fun j => thread j.1 j.2⟩

/-- If hickle has a loader module for `c` or one of its base classes, the one for the nearest of them has been run. -/
def HasLoaders (env : Env) (r : Registry) (c : Cls) : Prop :=
  ∀ pre k post p e, c.mro env.u = pre ++ k :: post → (∀ x ∈ pre, stdReg x = none) → stdReg k = some (some p, e) → p ∈ r.loaded

theorem HasLoaders.of_all {env : Env} {r : Registry} {c : Cls} (h : ∀ k ∈ c.mro env.u, ∀ p e, stdReg k = some (some p, e) → p ∈ r.loaded) : HasLoaders env r c :=
  fun pre k post p e he _ hk => h k (by simp [he]) p e hk

theorem HasLoaders.known {env : Env} {r : Registry} {c : Cls} (h : GoodCls P env c ∧ HasLoaders env r c) : Known P r env c := by
  refine ⟨h.1, .of_split fun pre k post q e he hp hk => ?_⟩
  cases q with
  | none => rfl
  | some p => simpa [isLoaded] using h.2 pre k post p e he hp hk

/-- a thread has ended as the same call does in a process without other threads, and its file is the same -/
structure AsAlone (r : Registry) (j : DumpArgs × Session) (x : Except PyErr Unit × Session) : Prop where
  outcome : x.1 = (dumpTop j.1 { j.2 with reg := r }).1
  file : x.2.store = (dumpTop j.1 { j.2 with reg := r }).2.store
  managers : x.2.ldr = (dumpTop j.1 { j.2 with reg := r }).2.ldr ∧ x.2.ref = (dumpTop j.1 { j.2 with reg := r }).2.ref

/-- the calls: objects of ordinary classes whose loaders are there -/
structure Jobs (P : Nat → Prop) (env : Env) (r : Registry) (jobs : List (DumpArgs × Session)) : Prop where
  same : ∀ j ∈ jobs, j.1.env = env
  good : ∀ j ∈ jobs, ∀ o ∈ j.1.heap, GoodCls P env o.cls
  loaders : ∀ j ∈ jobs, ∀ o ∈ j.1.heap, HasLoaders env r o.cls
  temporary : "builtins" ∈ r.loaded ∧ "numpy" ∈ r.loaded
  options : ∀ j ∈ jobs, ∃ os, j.1.options = some os

theorem Jobs.start {env : Env} {r : Registry} {jobs : List (DumpArgs × Session)} (hE : EnvOk P env) (hr : RegInv P r) (h : Jobs P env r jobs) :
    ∃ Q : Nat → Except PyErr Unit → Session → Prop, SysOk P r env Q (startAll r jobs) ∧
      ∀ i j x s, jobs[i]? = some j → Q i x s → AsAlone r j (x, s) := by
  refine ⟨fun i x s => ∀ j, jobs[i]? = some j → x = (dumpTop j.1 { j.2 with reg := r }).1 ∧ s = { (dumpTop j.1 { j.2 with reg := r }).2 with reg := s.reg }, ⟨.initial hr, ?_⟩, ?_⟩
  · intro i t ht
    unfold startAll at ht
    simp only [List.getElem?_map, Option.map_eq_some_iff] at ht
    obtain ⟨⟨a, s⟩, hj, rfl⟩ := ht
    have hm := List.mem_of_getElem? hj
    have he := h.same _ hm
    obtain ⟨os, ho⟩ := h.options _ hm
    have hg := h.good _ hm
    have hl := h.loaders _ hm
    simp only at he hg hl ho
    subst he
    have hc : ∀ o ∈ a.heap, Known P r a.env o.cls := fun o hmem => HasLoaders.known ⟨hg o hmem, hl o hmem⟩
    have key := dumpTop_sim (P := P) (R := Threads.Shared P r) (a := a) hE (known_asked h.temporary.1 h.temporary.2) hc ho (s, { heap := a.heap, store := [], reg := {} }) { s with reg := r } ⟨rfl, hr, trivial⟩
    refine Par.mono key ?_
    intro x s' ⟨h1, h2, _⟩ j hj'
    rw [hj] at hj'
    simp only [Option.some.injEq] at hj'
    subst hj'
    exact ⟨h1, by rw [h2.same]⟩
  · intro i j x s hj hq
    obtain ⟨h1, h2⟩ := hq j hj
    refine ⟨h1, ?_, ?_, ?_⟩ <;> rw [h2]

/-- **C46.**  After any number of turns in any order, every thread that has ended has ended as it would have alone.
*Missing*: loaders that have not been registered when the threads start (`C46_violated`). -/
theorem C46_partial {env : Env} {r : Registry} {jobs : List (DumpArgs × Session)} (hE : EnvOk P env) (hr : Reached P r) (h : Jobs P env r jobs) (turns : List Nat)
    {i : Nat} {j t x} (hj : jobs[i]? = some j) (ht : ((startAll r jobs).run env turns).threads[i]? = some t) (hx : t.result = some x) : AsAlone r j x := by
  obtain ⟨Q, h1, h2⟩ := h.start hE hr.inv
  obtain ⟨x1, x2⟩ := x
  exact h2 i j _ _ hj (((h1.run hE turns).each i t ht).result hx)

/-- every thread of a list gets its turn again and again -/
def FairTo (n : Nat) (f : Nat → Nat) : Prop := ∀ i < n, ∀ k, ∃ m, k ≤ m ∧ f m = i

theorem C46_end {env : Env} {r : Registry} {jobs : List (DumpArgs × Session)} {f : Nat → Nat} (hf : FairTo jobs.length f) :
    ∀ n, n ≤ jobs.length → ∃ N, ∀ m, N ≤ m → ∀ i < n, ∃ (t : Thread Unit) (x : Except PyErr Unit × Session), ((startAll r jobs).after env f m).threads[i]? = some t ∧ t.result = some x := by
  intro n
  induction n with
  | zero => exact fun _ => ⟨0, fun m _ i hi => absurd hi (Nat.not_lt_zero _)⟩
  | succ n ih =>
    intro hn
    obtain ⟨N, hN⟩ := ih (by omega)
    have h0 : ((startAll r jobs).after env f 0).threads[n]? = some (thread jobs[n].1 jobs[n].2) := by
      simp [Sys.after, Sys.run, startAll, List.getElem?_eq_getElem (show n < jobs.length by omega)]
    obtain ⟨K, t, x, h1, h2⟩ := ends (env := env) (startAll r jobs) f n (hf n (by omega)) 0 h0
    refine ⟨N + K, fun m hm i hi => ?_⟩
    by_cases hin : i = n
    · subst hin
      obtain ⟨t', h3, h4⟩ := stays (startAll r jobs) f h1 h2 m (by omega)
      exact ⟨t', x, h3, h4⟩
    · exact hN m (by omega) i (by omega)

/-- **C46, all of it.**  If every thread gets its turn again and again, all of them end, each as it would have alone. -/
theorem C46_all_partial {env : Env} {r : Registry} {jobs : List (DumpArgs × Session)} (hE : EnvOk P env) (hr : Reached P r) (h : Jobs P env r jobs)
    {f : Nat → Nat} (hf : FairTo jobs.length f) :
    ∃ N, ∀ m, N ≤ m → ∀ (i : Nat) j, jobs[i]? = some j → ∃ (t : Thread Unit) (x : Except PyErr Unit × Session), ((startAll r jobs).after env f m).threads[i]? = some t ∧ t.result = some x ∧ AsAlone r j x := by
  obtain ⟨N, hN⟩ := C46_end (env := env) (r := r) hf jobs.length (Nat.le_refl _)
  refine ⟨N, fun m hm i j hj => ?_⟩
  obtain ⟨hi, _⟩ := List.getElem?_eq_some_iff.1 hj
  obtain ⟨t, x, h1, h2⟩ := hN m hm i hi
  exact ⟨t, x, h1, h2, C46_partial hE hr h _ hj h1 h2⟩

/-- The steps of a lookup that no other thread interrupts are `load_loader` as the other theorems know it. -/
theorem C46_alone (env : Env) (m : Manager) (c : Cls) (r : Registry) :
    ∃ n, ticks env m c none n (.at (c.mro env.u), r) = (.done (loadLoader env m c none r).1, (loadLoader env m c none r).2) := ticks_spec _ r

/-! ### examples -/

/-- a process that has dumped the objects of `Ex.heap` and an array -/
def C46.before : List Op := [.dump Ex.dumpArgs, .dump { Ex.args [⟨.ndarray, .arr .int64 [2] [.i 1, .i 2]⟩] 0 with path := [ps "b"] }]
def C46.reg : Registry := (runOps C46.before Ex.file0).reg
theorem C46.reg_reached : Reached (fun _ => True) C46.reg :=
  Reached.run (s := Ex.file0) (os := C46.before) (by
    intro o ho
    rcases List.mem_cons.1 ho with rfl | ho
    · exact ⟨Ex.envOk, Ex.protOk⟩
    · rw [List.mem_singleton.1 ho]; exact ⟨Ex.envOk, Ex.protOk⟩) .start

/-- three threads in that process: two dump the objects of `Ex.heap`, one an object that cannot be pickled -/
def C46.jobs : List (DumpArgs × Session) := [(Ex.dumpArgs, Ex.file0), (Ex.args [⟨.user 0, .opaque 5 false⟩] 0, Ex.file0), (Ex.dumpArgs, Ex.file1)]

theorem C46.jobs_ok : Jobs (fun _ => True) Ex.env C46.reg C46.jobs := by
  have hh : ∀ j ∈ C46.jobs, ∀ o ∈ j.1.heap, o.cls ≠ .recover ∧ o.cls ≠ .recGroup ∧ o.cls ≠ .recData ∧ o.cls ≠ .nodeRef := by decide +kernel
  have hl : "builtins" ∈ C46.reg.loaded ∧ "numpy" ∈ C46.reg.loaded := by decide +kernel
  refine ⟨by intro j hj; simp only [C46.jobs, List.mem_cons, List.not_mem_nil, or_false] at hj; rcases hj with rfl | rfl | rfl <;> rfl,
    fun j hj o ho => Ex.goodCls (hh j hj o ho), ?_, hl, ?_⟩
  · have key : ∀ j ∈ C46.jobs, ∀ o ∈ j.1.heap, ∀ k ∈ o.cls.mro Ex.env.u, ∀ p ∈ (stdReg k).bind (·.1), p = "builtins" ∨ p = "numpy" := by decide +kernel
    intro j hj o ho
    refine .of_all fun k hk p e hs => ?_
    rcases key j hj o ho k hk p (by rw [hs]; rfl) with rfl | rfl
    · exact hl.1
    · exact hl.2
  · intro j hj
    simp only [C46.jobs, List.mem_cons, List.not_mem_nil, or_false] at hj
    rcases hj with rfl | rfl | rfl <;> exact ⟨[], rfl⟩

/-- they take turns -/
theorem C46.fair : FairTo C46.jobs.length (· % 3) := by
  intro i hi k
  have hi : i < 3 := hi
  exact ⟨3 * k + i, by omega, by show (3 * k + i) % 3 = i; omega⟩

/-- the two good dumps succeed, the bad one and no other fails -/
example : ∃ N, ∀ m, N ≤ m → ∀ (i : Nat) j, C46.jobs[i]? = some j → ∃ (t : Thread Unit) (x : Except PyErr Unit × Session), ((startAll C46.reg C46.jobs).after Ex.env (· % 3) m).threads[i]? = some t ∧ t.result = some x ∧
    AsAlone C46.reg j x := C46_all_partial Ex.envOk C46.reg_reached C46.jobs_ok C46.fair

example : (C46.jobs.map fun j => Ex.raised (dumpTop j.1 { j.2 with reg := C46.reg }).1) = [none, some .picklingError, some .valueError] := by decide +kernel

/-! ### violations: the loaders are registered while the threads run -/

/-- two threads of a new process that dump `True`, each into its own file -/
def C46.flag : DumpArgs := Ex.args [⟨.bool, .bool true⟩] 0
def C46.both : Sys Unit := startAll Registry.initial [(C46.flag, Ex.file0), (C46.flag, Ex.file0)]
/-- the second thread gets as far as finding that there is no loader for `bool` yet; the first one does everything; then the second one goes on -/
def C46.turns : List Nat := List.replicate 15 1 ++ List.replicate 200 0 ++ List.replicate 100 1
/-- how the value is labelled in the file -/
def C46.labels (s : Session) : Option (List PyStr) := do
  let t ← s.store.resolve 0 [tableName]
  (← s.store.links t).map (·.1)

/-- **C46 is violated** when the loaders have yet to be registered: both dumps succeed, but the second file calls the value an `int`. -/
theorem C46_violated :
    (((C46.both.run Ex.env C46.turns).threads.filterMap (·.result)).map fun x => (Ex.isOk x.1, C46.labels x.2)) =
      [(true, some [ps "0", ps "bool"]), (true, some [ps "0", ps "int"])] ∧
    C46.labels (dumpTop C46.flag Ex.file0).2 = some [ps "0", ps "bool"] := by
  refine ⟨by decide +kernel, by decide +kernel⟩

/-- what `load_loader` is about to return to a thread -/
def C46.answer : Thread Unit → Option (Cls × Entry)
  | .look _ _ _ (.done (.ok r)) _ _ => some r
  | _ => none

/-- the same for a list: the second thread is told to pickle it (`object`), as if hickle had no loader for lists -/
def C46.mixed : DumpArgs := Ex.args [⟨.noneType, .none⟩, ⟨.str, .str (ps "ab")⟩, ⟨.list, .seq [0, 1, 0]⟩] 2
theorem C46_violated_pickle :
    (((startAll Registry.initial [(C46.mixed, Ex.file0), (C46.mixed, Ex.file0)]).run Ex.env (List.replicate 15 1 ++ List.replicate 200 0 ++ List.replicate 4 1)).threads.map
      C46.answer) = [none, some (.object, ⟨.pickled, "pickle", true⟩)] ∧
    ((loadLoader Ex.env ⟨[none]⟩ .list none Registry.initial).1.toOption = some (.list, ⟨.listlike, "list", true⟩)) := by
  refine ⟨by decide +kernel, by decide +kernel⟩

/-- a file with that list, written by another process -/
def C46.file : Session := (dumpTop C46.mixed Ex.file0).2
/-- what `load` gets from it, if the tables are as the first thread has left them after `n` of its steps -/
def C46.loaded (n : Nat) : Option Cls :=
  match (loadTop { env := Ex.env, path := [], fuel := 20 } { C46.file with reg := (C46.both.run Ex.env (List.replicate n 0)).reg }).1 with
  | .ok r => (r.1[r.2]?).map (·.cls)
  | .error _ => none

/-- **`load` is affected too**: while another thread registers the loaders for its dump, `load` returns a substitute instead of the list,
without an error.  Before and afterwards it returns the list. -/
theorem C46_violated_load : C46.loaded 15 = some .list ∧ C46.loaded 18 = some .recGroup ∧ C46.loaded 100 = some .list := by
  refine ⟨by decide +kernel, by decide +kernel, by decide +kernel⟩

end Verif
