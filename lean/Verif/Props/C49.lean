import Verif.Hickle.ThreadsLoad
import Verif.Hickle.Fitting
import Verif.Props.C46
import Verif.Props.C01
/-!
# C49 Loads and dumps running at the same time in several threads

A process dumps and loads in several threads, each call with a file of its own.  Whatever the order of their steps, each call ends as
it would have ended alone: `load` returns the same value or fails in the same way, and `dump` leaves the same file.  Threads that share
an open file do disturb each other (`C49_violated_shared`).
-/
namespace Verif
open Threads

variable {P : Nat → Prop}

/-- a call -/
inductive Task where
  | dump (a : DumpArgs)
  | load (a : LoadArgs)

/-- what a call returns: `none` for `dump`, an object for `load` -/
abbrev Returned := Option (Heap × Addr)

/-- the call done alone -/
def Task.alone : Task → SM Returned
  | .dump a => do dumpTop a; pure none
  | .load a => do let v ← loadTop a; pure (some v)

/-- the call as a thread -/
def Task.thread (s : Session) : Task → Thread Returned
  | .dump a => .run (do Prog.dumpTop a; pure none) (s, ({ heap := a.heap, store := [], reg := {} } : DState))
  | .load a => .run (do let v ← Prog.loadTop a; pure (some v)) (s, ({ heap := loadHeap, reg := {} } : LState))

/-- the process at the beginning: one thread for each call, each with its own file -/
def startTasks (r : Registry) (jobs : List (Task × Session)) : Sys Returned := ⟨r, jobs.map fun j => j.1.thread j.2⟩

/-- All classes mentioned in a file are ordinary ones, and their loaders have been registered; no object was stored with the option that
asks for the loaders of version 4.0. -/
structure LoadersThere (P : Nat → Prop) (env : Env) (r : Registry) (S : Store) : Prop where
  classes : ∀ n ∈ S, ∀ c, n.body = .dset (.pickleCls c) → clsImportable env c = true → GoodCls P env c ∧ HasLoaders env r c
  bases : ∀ n ∈ S, ∀ c b, n.body = .dset (.pickleCls c) → Assoc.get? n.attrs "base_type" = some (.ref b) → ∃ bn, S[b]? = some bn ∧ (clsImportable env c = true → BaseReady r (unps bn.name))
  own : ∀ n ∈ S, ∀ c, Assoc.get? n.attrs "type" = some (.pcls c) → clsImportable env c = true → (GoodCls P env c ∧ HasLoaders env r c) ∧ BaseReady r (nodeBase n)
  options : ∀ n ∈ S, "hickle-4.x" ∉ attrOptions n.attrs

/-- the conditions on a call and its file; `F` is what is required of the files that are loaded -/
def TaskOk (P : Nat → Prop) (env : Env) (r : Registry) (F : Store → Prop) (s : Session) : Task → Prop
  | .dump a => a.env = env ∧ (∀ o ∈ a.heap, GoodCls P env o.cls ∧ HasLoaders env r o.cls) ∧ ∃ os, a.options = some os
  | .load a => a.env = env ∧ F s.store

/-- the conditions on all calls -/
structure Tasks (P : Nat → Prop) (env : Env) (r : Registry) (F : Store → Prop) (jobs : List (Task × Session)) : Prop where
  each : ∀ j ∈ jobs, TaskOk P env r F j.2 j.1
  temporary : "builtins" ∈ r.loaded ∧ "numpy" ∈ r.loaded

/-- a thread has ended as the same call does in a process without other threads, and its file is the same -/
structure LikeAlone (r : Registry) (j : Task × Session) (x : Except PyErr Returned × Session) : Prop where
  outcome : x.1 = (j.1.alone { j.2 with reg := r }).1
  file : x.2.store = (j.1.alone { j.2 with reg := r }).2.store
  managers : x.2.ldr = (j.1.alone { j.2 with reg := r }).2.ldr ∧ x.2.ref = (j.1.alone { j.2 with reg := r }).2.ref

theorem LoadersThere.ready {env : Env} {r : Registry} {S : Store} (h : LoadersThere P env r S) : FileReady P r env S :=
  ⟨fun n hn c h1 h2 _ => ⟨HasLoaders.known (h.classes n hn c h1 h2), none, _, _, rfl, rfl⟩, fun n hn c b h1 h2 => by
    obtain ⟨bn, e, hb⟩ := h.bases n hn c b h1 h2
    exact ⟨bn, e, fun hi => ⟨HasLoaders.known (h.classes n hn c h1 hi), hb hi⟩⟩, fun n hn c h1 h2 => ⟨HasLoaders.known (h.own n hn c h1 h2).1, (h.own n hn c h1 h2).2⟩, h.options⟩

theorem Threads.FRel.back {τ : Type} {G : Registry → Prop} {I : Store → Prop} {s : Session × τ} {t : Session} (h : FRel G I s t) : s.1 = { t with reg := s.1.reg } := by rw [h.same]

theorem Tasks.start {env : Env} {r : Registry} {F : Store → Prop} {jobs : List (Task × Session)} (hE : EnvOk P env) (hr : RegInv P r) (hF : ∀ S, F S → FileReady P r env S) (h : Tasks P env r F jobs) :
    ∃ Q : Nat → Except PyErr Returned → Session → Prop, SysOk P r env Q (startTasks r jobs) ∧
      ∀ i j x s, jobs[i]? = some j → Q i x s → LikeAlone r j (x, s) := by
  refine ⟨fun i x s => ∀ j, jobs[i]? = some j → x = (j.1.alone { j.2 with reg := r }).1 ∧ s = { (j.1.alone { j.2 with reg := r }).2 with reg := s.reg }, ⟨.initial hr, ?_⟩, ?_⟩
  · intro i t ht
    unfold startTasks at ht
    simp only [List.getElem?_map, Option.map_eq_some_iff] at ht
    obtain ⟨⟨k, s⟩, hj, rfl⟩ := ht
    have ok := h.each _ (List.mem_of_getElem? hj)
    cases k with
    | dump a =>
      obtain ⟨he, hk, os, ho⟩ := ok
      subst he
      have key := Sim.bind (dumpTop_sim (P := P) (R := Threads.Shared P r) (a := a) hE (known_asked h.temporary.1 h.temporary.2) (fun o ho => HasLoaders.known (hk o ho)) ho)
        (fun _ _ => .pure (Q := fun _ => True) (a := (none : Returned)) trivial) (s, { heap := a.heap, store := [], reg := {} }) { s with reg := r } ⟨rfl, hr, trivial⟩
      refine Par.mono key ?_
      intro x s' ⟨h1, h2, _⟩ j hj'
      rw [hj] at hj'
      simp only [Option.some.injEq] at hj'
      subst hj'
      exact ⟨h1, h2.back⟩
    | load a =>
      obtain ⟨he, hS⟩ := ok
      subst he
      have key := Sim.bind (loadTop_sim (P := P) (r0 := r) (a := a) hE) (fun v _ => .pure (Q := fun _ => True) (a := some v) trivial)
        (s, { heap := loadHeap, reg := {} }) { s with reg := r } ⟨rfl, ⟨hr, RegLe.refl r⟩, hF _ hS⟩
      refine Par.mono key ?_
      intro x s' ⟨h1, h2, _⟩ j hj'
      rw [hj] at hj'
      simp only [Option.some.injEq] at hj'
      subst hj'
      exact ⟨h1, h2.back⟩
  · intro i j x s hj hq
    obtain ⟨h1, h2⟩ := hq j hj
    refine ⟨h1, ?_, ?_, ?_⟩ <;> rw [h2]

/-- **C49.**  After any number of turns in any order, every thread that has ended has ended as it would have alone.
*Missing*: loaders that have not been registered when the threads start (`C46_violated`, `C46_violated_load`). -/
theorem C49_partial {env : Env} {r : Registry} {jobs : List (Task × Session)} (hE : EnvOk P env) (hr : Reached P r) (h : Tasks P env r (LoadersThere P env r) jobs) (turns : List Nat)
    {i : Nat} {j t x} (hj : jobs[i]? = some j) (ht : ((startTasks r jobs).run env turns).threads[i]? = some t) (hx : t.result = some x) : LikeAlone r j x := by
  obtain ⟨Q, h1, h2⟩ := h.start hE hr.inv fun _ hS => hS.ready
  obtain ⟨x1, x2⟩ := x
  exact h2 i j _ _ hj (((h1.run hE turns).each i t ht).result hx)

/-- **C49, all of it.**  If every thread gets its turn again and again, all of them end, each as it would have alone. -/
theorem C49_all_partial {env : Env} {r : Registry} {jobs : List (Task × Session)} (hE : EnvOk P env) (hr : Reached P r) (h : Tasks P env r (LoadersThere P env r) jobs)
    {f : Nat → Nat} (hf : FairTo jobs.length f) (i : Nat) {j} (hj : jobs[i]? = some j) :
    ∃ N, ∀ m, N ≤ m → ∃ (t : Thread Returned) (x : Except PyErr Returned × Session), ((startTasks r jobs).after env f m).threads[i]? = some t ∧ t.result = some x ∧ LikeAlone r j x := by
  obtain ⟨hi, he⟩ := List.getElem?_eq_some_iff.1 hj
  have h0 : ((startTasks r jobs).after env f 0).threads[i]? = some (j.1.thread j.2) := by
    simp [Sys.after, Sys.run, startTasks, hj]
  obtain ⟨K, t, x, h1, h2⟩ := ends (env := env) (startTasks r jobs) f i (hf i hi) 0 h0
  refine ⟨K, fun m hm => ?_⟩
  obtain ⟨t', h3, h4⟩ := stays (startTasks r jobs) f h1 h2 m hm
  exact ⟨t', x, h3, h4, C49_partial hE hr h _ hj h3 h4⟩

/-- **C49 with C01.**  A value that was dumped before is loaded by one of the threads: whatever the others do, what the thread returns is
a copy of it. -/
theorem C49_value_partial {a : DumpArgs} {s s' : Session} (hd : GoodDump P a s s') : ∃ depth, ∀ fuel, depth ≤ fuel →
    ∀ (r : Registry) (jobs : List (Task × Session)), Reached P r → Tasks P a.env r (LoadersThere P a.env r) jobs → ∀ order : List (PyStr × NodeId) → List (PyStr × NodeId), (∀ l, (order l).Perm l) →
      ∀ (turns : List Nat) (i : Nat) (f : Session) t x, f.store = s'.store → f.ldr = false → f.ref = false →
      jobs[i]? = some (.load ⟨a.env, a.path, order, fuel⟩, f) → ((startTasks r jobs).run a.env turns).threads[i]? = some t → t.result = some x →
      (∃ L b, x.1 = .ok (some (L, b)) ∧ Copy a.heap L b a.obj) ∧ x.2.store = s'.store := by
  obtain ⟨d, hl⟩ := C01_round_trip hd
  refine ⟨d, fun fuel hf r jobs hr h order ho turns i f t x h1 h2 h3 hj ht hx => ?_⟩
  have hx' := C49_partial hd.env hr h turns hj ht hx
  obtain ⟨L, b, s2, e1, e2, e3⟩ := hl { f with reg := r } h1 h2 h3 hr.inv order ho fuel hf
  have e : Task.alone (.load ⟨a.env, a.path, order, fuel⟩) { f with reg := r } = (.ok (some (L, b)), s2) := by
    show (loadTop _ >>= _) _ = _
    rw [M.bind_of_ok e1]; rfl
  have o := hx'.outcome
  have fl := hx'.file
  rw [e] at o fl
  exact ⟨⟨L, b, o, e2⟩, by rw [fl, e3]⟩

/-! ### files of the process itself -/

/-- A file that the process has made itself: `OwnFile P env r S` if the process, whose loaders are now `r`, made the file, called `dump` and
`load` on it any number of times, with success or without, and had any other calls on other files in between. -/
inductive OwnFile (P : Nat → Prop) (env : Env) : Registry → Store → Prop
  | new {r : Registry} : Reached P r → OwnFile P env r [⟨[], [], .group []⟩]
  | dump {s : Session} {a : DumpArgs} : OwnFile P env s.reg s.store → a.env = env → (∀ o ∈ a.heap, GoodCls P env o.cls) →
      (∀ os, a.options = some os → ∀ p ∈ os, p.2 = true → optName (optAttr p.1) ≠ some "hickle-4.x") → OwnFile P env (dumpTop a s).2.reg (dumpTop a s).2.store
  | load {s : Session} {a : LoadArgs} : OwnFile P env s.reg s.store → a.env = env → OwnFile P env (loadTop a s).2.reg (loadTop a s).2.store
  | other {s : Session} {S : Store} {o : Op} : OwnFile P env s.reg S → o.ok P → OwnFile P env (o.run s).reg S

theorem HasType.fits {env : Env} : Fits P env (fun r => HasType P r env) := by
  have key : ∀ {r c}, GoodCls P env c → BaseReady r (expected env c).2.base → Known P r env c := by
    intro r c hc hb
    refine ⟨hc, ?_⟩
    unfold expected at hb
    generalize c.mro env.u = ks at *
    induction ks with
    | nil => exact trivial
    | cons k ks ih =>
      unfold Threads.Ready
      cases hs : stdReg k with
      | none =>
        simp only [firstStd, hs] at hb
        exact ih hb
      | some x =>
        simp only [firstStd, hs] at hb
        obtain ⟨f, k', h1⟩ := stdReg_base hs
        obtain ⟨p, f', k'', h2, h3⟩ := hb
        rw [h1] at h2
        simp only [Option.some.injEq, Prod.mk.injEq] at h2
        show isLoaded r x.1 = true
        rw [h2.1]; exact h3
  refine ⟨fun hle h => ⟨⟨h.1.1, ?_⟩, h.2.mono hle⟩, fun hc hb => ⟨key hc hb, hb⟩, fun hc hb => ⟨key hc hb, none, _, _, rfl, rfl⟩⟩
  have := h.1.2
  revert this
  generalize Cls.mro _ _ = ks
  intro this
  induction ks with
  | nil => exact trivial
  | cons k ks ih =>
    unfold Threads.Ready at this ⊢
    cases hs : stdReg k with
    | none => simp only [hs] at this ⊢; exact ih this
    | some x =>
      simp only [hs] at this ⊢
      revert this
      cases x.1 with
      | none => exact fun _ => rfl
      | some p => exact fun h => hle p h

theorem OwnFile.ready {env : Env} (hE : EnvOk P env) (hP : ProtOk P env) {r : Registry} {S : Store} (h : OwnFile P env r S) : Reached P r ∧ FileReady P r env S := by
  induction h with
  | new hr => exact ⟨hr, by refine ⟨?_, ?_, ?_, ?_⟩ <;> simp [attrOptions, attrItems]⟩
  | @dump s a _ ha hc ho ih =>
    subst ha
    exact ⟨ih.1.call (.dump a) ⟨hE, hP⟩, (dumpTop_fit HasType.fits hE hc ho s ⟨ih.2, ih.1.inv⟩).1.file⟩
  | @load s a _ ha ih =>
    subst ha
    exact ⟨ih.1.call (.load a) ⟨hE, hP⟩, (loadTop_fits HasType.fits hE hP s ⟨ih.2, ih.1.inv⟩).1.file⟩
  | @other s S o _ ho ih => exact ⟨ih.1.call o ho, ih.2.mono fun _ _ => HasType.fits.mono (o.run_grows s)⟩

/-- **C49 for the files of the process itself.**  The process has made the files that the threads load, whatever it has done before and in
between; or it has not, and the loaders are there all the same.  Every thread that has ended has ended as it would have alone.
*Missing*: loaders for the objects dumped that have not been registered when the threads start (`C46_violated`). -/
theorem C49_own_partial {env : Env} {r : Registry} {jobs : List (Task × Session)} (hE : EnvOk P env) (hP : ProtOk P env) (hr : Reached P r)
    (h : Tasks P env r (fun S => OwnFile P env r S ∨ LoadersThere P env r S) jobs) (turns : List Nat)
    {i : Nat} {j t x} (hj : jobs[i]? = some j) (ht : ((startTasks r jobs).run env turns).threads[i]? = some t) (hx : t.result = some x) : LikeAlone r j x := by
  obtain ⟨Q, h1, h2⟩ := h.start hE hr.inv fun S hS => hS.elim (fun h => (h.ready hE hP).2) (·.ready)
  obtain ⟨x1, x2⟩ := x
  exact h2 i j _ _ hj (((h1.run hE turns).each i t ht).result hx)

/-- if every thread gets its turn again and again, all of them end like that -/
theorem C49_own_all_partial {env : Env} {r : Registry} {jobs : List (Task × Session)} (hE : EnvOk P env) (hP : ProtOk P env) (hr : Reached P r)
    (h : Tasks P env r (fun S => OwnFile P env r S ∨ LoadersThere P env r S) jobs)
    {f : Nat → Nat} (hf : FairTo jobs.length f) (i : Nat) {j} (hj : jobs[i]? = some j) :
    ∃ N, ∀ m, N ≤ m → ∃ (t : Thread Returned) (x : Except PyErr Returned × Session), ((startTasks r jobs).after env f m).threads[i]? = some t ∧ t.result = some x ∧ LikeAlone r j x := by
  obtain ⟨hi, he⟩ := List.getElem?_eq_some_iff.1 hj
  have h0 : ((startTasks r jobs).after env f 0).threads[i]? = some (j.1.thread j.2) := by
    simp [Sys.after, Sys.run, startTasks, hj]
  obtain ⟨K, t, x, h1, h2⟩ := ends (env := env) (startTasks r jobs) f i (hf i hi) 0 h0
  refine ⟨K, fun m hm => ?_⟩
  obtain ⟨t', h3, h4⟩ := stays (startTasks r jobs) f h1 h2 m hm
  exact ⟨t', x, h3, h4, C49_own_partial hE hP hr h _ hj h3 h4⟩

/-! ### examples -/

/-- `LoadersThere` for the classes of `Ex.env`, as a test -/
def C49.check (r : Registry) (S : Store) : Bool :=
  let cls (c : Cls) : Bool := decide (c ≠ .recover ∧ c ≠ .recGroup ∧ c ≠ .recData ∧ c ≠ .nodeRef) &&
    (c.mro Ex.env.u).all fun k => match stdReg k with
      | some (some p, _) => r.loaded.contains p
      | _ => true
  let base (b : String) : Bool := match stdBase b with
    | some (p, _, _) => isLoaded r p
    | none => false
  S.all fun n =>
    (match n.body with
      | .dset (.pickleCls c) => cls c && (match Assoc.get? n.attrs "base_type" with
        | some (.ref b) => match S[b]? with
          | some bn => base (unps bn.name)
          | none => false
        | _ => true)
      | _ => true) &&
    (match Assoc.get? n.attrs "type" with
      | some (.pcls c) => cls c && base (nodeBase n)
      | _ => true) &&
    !(attrOptions n.attrs).contains "hickle-4.x"

theorem C49.check_ok {r : Registry} {S : Store} (h : C49.check r S = true) : LoadersThere (fun _ => True) Ex.env r S := by
  have hcls : ∀ {c : Cls}, (decide (c ≠ .recover ∧ c ≠ .recGroup ∧ c ≠ .recData ∧ c ≠ .nodeRef) && (c.mro Ex.env.u).all fun k => match stdReg k with
      | some (some p, _) => r.loaded.contains p
      | _ => true) = true → GoodCls (fun _ => True) Ex.env c ∧ HasLoaders Ex.env r c := by
    intro c hc
    simp only [Bool.and_eq_true, decide_eq_true_eq, List.all_eq_true] at hc
    refine ⟨Ex.goodCls hc.1, .of_all fun k hk p e hs => ?_⟩
    have := hc.2 k hk
    rw [hs] at this
    simpa using this
  have hbase : ∀ {b : String}, (match stdBase b with
    | some (p, _, _) => isLoaded r p
    | none => false) = true → BaseReady r b := by
    intro b hb
    cases hs : stdBase b with
    | none => rw [hs] at hb; simp at hb
    | some x => rw [hs] at hb; exact ⟨x.1, x.2.1, x.2.2, hs, hb⟩
  unfold C49.check at h
  simp only [List.all_eq_true, Bool.and_eq_true] at h
  refine ⟨fun n hn c hb _ => ?_, fun n hn c b hb hr => ?_, fun n hn c ht _ => ?_, fun n hn => ?_⟩
  · have := (h n hn).1.1
    rw [hb] at this
    simp only [Bool.and_eq_true] at this
    exact hcls (by simpa using this.1)
  · have := (h n hn).1.1
    rw [hb] at this
    simp only [hr, Bool.and_eq_true] at this
    cases hs : S[b]? with
    | none => rw [hs] at this; simp at this
    | some bn => rw [hs] at this; exact ⟨bn, rfl, fun _ => hbase this.2⟩
  · have := (h n hn).1.2
    rw [ht] at this
    simp only [Bool.and_eq_true] at this
    exact ⟨hcls (by simpa using this.1), hbase this.2⟩
  · simpa using (h n hn).2

/-- a process that has dumped and loaded before: two threads load values another process has written, one of them a path that is not
there; one dumps; one dumps an object that cannot be pickled -/
def C49.jobs : List (Task × Session) :=
  [(.load { env := Ex.env, path := [ps "run", ps "a"], fuel := 100 }, Ex.file1),
   (.dump Ex.dumpArgs, Ex.file0),
   (.load { env := Ex.env, path := [ps "nowhere"], fuel := 100 }, Ex.file1),
   (.dump (Ex.args [⟨.user 0, .opaque 5 false⟩] 0), Ex.file0),
   (.load { env := Ex.env, path := [], fuel := 100 }, C46.file)]

theorem C49.jobs_ok : Tasks (fun _ => True) Ex.env C46.reg (LoadersThere (fun _ => True) Ex.env C46.reg) C49.jobs := by
  have d := C46.jobs_ok
  refine ⟨?_, d.temporary⟩
  intro j hj
  simp only [C49.jobs, List.mem_cons, List.not_mem_nil, or_false] at hj
  rcases hj with rfl | rfl | rfl | rfl | rfl
  · exact ⟨rfl, C49.check_ok (by decide +kernel)⟩
  · have hm : (Ex.dumpArgs, Ex.file0) ∈ C46.jobs := by simp [C46.jobs]
    exact ⟨rfl, fun o ho => ⟨d.good _ hm o ho, d.loaders _ hm o ho⟩, [], rfl⟩
  · exact ⟨rfl, C49.check_ok (by decide +kernel)⟩
  · have hm : (Ex.args [⟨.user 0, .opaque 5 false⟩] 0, Ex.file0) ∈ C46.jobs := by simp [C46.jobs]
    exact ⟨rfl, fun o ho => ⟨d.good _ hm o ho, d.loaders _ hm o ho⟩, [], rfl⟩
  · exact ⟨rfl, C49.check_ok (by decide +kernel)⟩

/-- they take turns -/
theorem C49.fair : FairTo C49.jobs.length (· % 5) := by
  intro i hi k
  have hi : i < 5 := hi
  exact ⟨5 * k + i, by omega, by show (5 * k + i) % 5 = i; omega⟩

example (i : Nat) {j} (hj : C49.jobs[i]? = some j) : ∃ N, ∀ m, N ≤ m → ∃ (t : Thread Returned) (x : Except PyErr Returned × Session),
    ((startTasks C46.reg C49.jobs).after Ex.env (· % 5) m).threads[i]? = some t ∧ t.result = some x ∧ LikeAlone C46.reg j x :=
  C49_all_partial Ex.envOk C46.reg_reached C49.jobs_ok C49.fair i hj

/-- the calls that fail alone are the load of a path that is not there and the dump that cannot be done -/
example : (C49.jobs.map fun j => Ex.raised (j.1.alone { j.2 with reg := C46.reg }).1) = [none, none, some .valueError, some .picklingError, none] := by decide +kernel

/-- two threads load the file of `C46.before`, which the process has made; one thing in it is an array -/
def C49.own : Session := runOps C46.before Ex.file0

theorem OwnFile.twice {env : Env} {a b : DumpArgs} (ha : a.env = env) (hb : b.env = env) (ca : ∀ o ∈ a.heap, GoodCls P env o.cls) (cb : ∀ o ∈ b.heap, GoodCls P env o.cls)
    (oa : a.options = some []) (ob : b.options = some []) :
    OwnFile P env (runOps [.dump a, .dump b] (newFile Registry.initial)).reg (runOps [.dump a, .dump b] (newFile Registry.initial)).store :=
  .dump (s := (dumpTop a (newFile Registry.initial)).2) (.dump (s := newFile Registry.initial) (.new .start) ha ca (by simp [oa])) hb cb (by simp [ob])

theorem C49.own_ok : OwnFile (fun _ => True) Ex.env C46.reg C49.own.store := by
  refine OwnFile.twice rfl rfl (fun o ho => ?_) (fun o ho => ?_) rfl rfl
  · obtain ⟨i, hi⟩ := List.mem_iff_getElem?.1 ho
    exact (Ex.goodHeap.cls i o hi).1
  · rw [List.mem_singleton.1 ho]
    exact Ex.goodCls (by decide)

theorem C49.own_jobs : Tasks (fun _ => True) Ex.env C46.reg (fun S => OwnFile (fun _ => True) Ex.env C46.reg S ∨ LoadersThere (fun _ => True) Ex.env C46.reg S)
    [(.load { env := Ex.env, path := [ps "b"], fuel := 100 }, C49.own), (.load { env := Ex.env, path := [ps "run", ps "a"], fuel := 100 }, C49.own)] := by
  refine ⟨?_, C46.jobs_ok.temporary⟩
  intro j hj
  simp only [List.mem_cons, List.not_mem_nil, or_false] at hj
  rcases hj with rfl | rfl <;> exact ⟨rfl, .inl C49.own_ok⟩

/-- what is in `Ex.file1` comes back, whatever the other threads do -/
def C49.readOnly (s : Session) : Session := { s with writable := false }
theorem C49.readOnly_store (s : Session) : (C49.readOnly s).store = s.store := rfl
def C49.same : Session := C49.readOnly Ex.file1
theorem C49.same_store : C49.same.store = Ex.file1.store := C49.readOnly_store _
theorem C49.same_ok : LoadersThere (fun _ => True) Ex.env C46.reg C49.same.store := C49.check_ok (by decide +kernel)
theorem C49.same_free : C49.same.ldr = false ∧ C49.same.ref = false := by decide +kernel
def C49.more (fuel : Nat) : List (Task × Session) := (.load ⟨Ex.env, Ex.dumpArgs.path, id, fuel⟩, C49.same) :: C49.jobs
theorem C49.more_ok (fuel : Nat) : Tasks (fun _ => True) Ex.env C46.reg (LoadersThere (fun _ => True) Ex.env C46.reg) (C49.more fuel) := by
  refine ⟨?_, C49.jobs_ok.temporary⟩
  intro j hj
  rcases List.mem_cons.1 hj with rfl | hj
  · exact ⟨rfl, C49.same_ok⟩
  · exact C49.jobs_ok.each j hj

example : ∃ depth, ∀ fuel, depth ≤ fuel → ∀ (turns : List Nat) t x, ((startTasks C46.reg (C49.more fuel)).run Ex.env turns).threads[0]? = some t → t.result = some x →
    ∃ L b, x.1 = .ok (some (L, b)) ∧ Copy Ex.heap L b 11 := by
  obtain ⟨d, h⟩ := C49_value_partial Ex.good
  refine ⟨d, fun fuel hf turns t x ht hx => ?_⟩
  have key := h fuel hf C46.reg (C49.more fuel) C46.reg_reached (C49.more_ok fuel) id (fun l => .refl _) turns 0 C49.same t x C49.same_store C49.same_free.1 C49.same_free.2 rfl
  exact (key ht hx).1

/-! ### violation: threads sharing an open file -/

/-- the file of a thread, as the other threads of the process see it -/
def C49.seen : Thread Returned → Session
  | .run _ s => s.1
  | .look _ _ _ _ _ s => s.1

/-- `load` called by another thread with the same `h5py.File` after the first thread has done `n` steps of its own call of `load` -/
def C49.second (n : Nat) : Option PyErr :=
  match ((startTasks C46.reg [(.load { env := Ex.env, path := [], fuel := 100 }, C46.file)]).run Ex.env (List.replicate n 0)).threads with
  | [t] => Ex.raised (loadTop { env := Ex.env, path := [], fuel := 100 } { C49.seen t with reg := C46.reg }).1
  | _ => none

/-- **C49 is violated** for threads that share an open file, even if all of them only read: while one call of `load` is at work, the
others fail with a `ValueError` ("manager already created for file", lookup.py:320-326).  Before and afterwards they succeed. -/
theorem C49_violated_shared : C49.second 0 = none ∧ C49.second 10 = some .valueError ∧ C49.second 60 = none := by
  refine ⟨by decide +kernel, by decide +kernel, by decide +kernel⟩

end Verif
