import Verif.Hickle.Fitting
import Verif.Props.C46
/-!
# C50 What `load` returns does not depend on what the process has done before

C01 says this of files that `dump` has written and nobody has touched.  Here the file may hold anything: data that is damaged, incomplete
or that nobody has dumped (`C50_partial`).  For files that only hickle has written to, whatever the calls, no condition on the content is left
(`C50_files`).  Whatever a process has dumped and loaded before, `load` ends as it does in a process that has just started.
-/
namespace Verif

variable {P : Nat → Prop}

/-- The types in the file fit the classes as they are now: an importable class is an ordinary one and has the base type of the loader
`dump` would use for it, or a base type hickle's core knows (`pickle`, for example).  The rest of the file is arbitrary.  No group asks
for the loaders of version 4.0. -/
structure FittingTypes (P : Nat → Prop) (env : Env) (S : Store) : Prop where
  entry : ∀ n ∈ S, ∀ c, n.body = .dset (.pickleCls c) → clsImportable env c = true → GoodCls P env c
  base : ∀ n ∈ S, ∀ c b, n.body = .dset (.pickleCls c) → Assoc.get? n.attrs "base_type" = some (.ref b) → ∃ bn, S[b]? = some bn ∧
    (clsImportable env c = true → unps bn.name = (expected env c).2.base ∨ ∃ f k, stdBase (unps bn.name) = some (none, f, k))
  own : ∀ n ∈ S, ∀ c, Assoc.get? n.attrs "type" = some (.pcls c) → clsImportable env c = true → GoodCls P env c ∧
    (nodeBase n = (expected env c).2.base ∨ ∃ f k, stdBase (nodeBase n) = some (none, f, k))
  options : ∀ n ∈ S, "hickle-4.x" ∉ attrOptions n.attrs

theorem FittingTypes.usual {env : Env} {S : Store} (h : FittingTypes P env S) : FileIs env (UsualType P env) S :=
  ⟨fun n hn c h1 h2 _ => ⟨h.entry n hn c h1 h2, .inr ⟨_, _, rfl⟩⟩, fun n hn c b h1 h2 => by
    obtain ⟨bn, e, hb⟩ := h.base n hn c b h1 h2
    exact ⟨bn, e, fun hi => ⟨h.entry n hn c h1 hi, hb hi⟩⟩, fun n hn c h1 h2 => h.own n hn c h1 h2, h.options⟩

/-- **C50.**  In two processes with any history of calls, `load` returns the same object or raises the same error, and leaves the same file.
*Missing*: files whose types no longer fit the classes (`C50_violated`). -/
theorem C50_partial {a : LoadArgs} {s : Session} {r r' : Registry} (hE : EnvOk P a.env) (hr : Reached P r) (hr' : Reached P r') (hS : FittingTypes P a.env s.store) :
    (loadTop a { s with reg := r }).1 = (loadTop a { s with reg := r' }).1 ∧ (loadTop a { s with reg := r }).2.store = (loadTop a { s with reg := r' }).2.store := by
  obtain ⟨h1, h2, _⟩ := loadTop_two hE { s with reg := r } { s with reg := r' } ⟨rfl, hr.inv, hr'.inv, hS.usual⟩
  exact ⟨h1, by rw [h2.same]⟩

/-- Files in which nothing but hickle has written: they begin empty; any number of processes `dump` into them and `load` from them, at any
paths, with success or without.  The classes are the same for all of them, no object dumped is one of hickle's substitutes for lost
classes, no option given is `hickle-4.x`.  `s` is the state of the process that calls: the file, whether it is open for writing, what
managers are around, what loaders are registered. -/
inductive Written (P : Nat → Prop) (env : Env) : Store → Prop
  | new : Written P env [⟨[], [], .group []⟩]
  | dump {s : Session} {a : DumpArgs} : Written P env s.store → Reached P s.reg → a.env = env → (∀ o ∈ a.heap, GoodCls P env o.cls) →
      (∀ os, a.options = some os → ∀ p ∈ os, p.2 = true → optName (optAttr p.1) ≠ some "hickle-4.x") → Written P env (dumpTop a s).2.store
  | load {s : Session} {a : LoadArgs} : Written P env s.store → Reached P s.reg → a.env = env → Written P env (loadTop a s).2.store

theorem Written.fit {env : Env} (hE : EnvOk P env) {S : Store} (h : Written P env S) : Fit P env S := by
  induction h with
  | new => refine ⟨?_, ?_, ?_, ?_⟩ <;> simp [attrOptions, attrItems]
  | @dump s a _ hr ha hc ho ih => subst ha; exact (dumpTop_fit .usual hE hc ho s ⟨ih, hr.inv⟩).1.file
  | @load s a _ hr ha ih => subst ha; exact (loadTop_fit hE s ⟨ih, hr.inv⟩).1.file

/-- **C50** for the files hickle has written: after any calls, failed ones included, `load` of anything in the file does the same in all
processes, whatever they have done before. -/
theorem C50_files {a : LoadArgs} {s : Session} {r r' : Registry} (hE : EnvOk P a.env) (hr : Reached P r) (hr' : Reached P r') (hS : Written P a.env s.store) :
    (loadTop a { s with reg := r }).1 = (loadTop a { s with reg := r' }).1 ∧ (loadTop a { s with reg := r }).2.store = (loadTop a { s with reg := r' }).2.store := by
  obtain ⟨h1, h2, _⟩ := loadTop_two hE { s with reg := r } { s with reg := r' } ⟨rfl, hr.inv, hr'.inv, hS.fit hE⟩
  exact ⟨h1, by rw [h2.same]⟩

/-! ### examples -/

/-- `FittingTypes` for the classes of `Ex.env`, as a test -/
def C50.check (S : Store) : Bool :=
  let cls (c : Cls) : Bool := decide (c ≠ .recover ∧ c ≠ .recGroup ∧ c ≠ .recData ∧ c ≠ .nodeRef)
  let base (c : Cls) (b : String) : Bool := b == (expected Ex.env c).2.base || (match stdBase b with
    | some (none, _, _) => true
    | _ => false)
  S.all fun n =>
    (match n.body with
      | .dset (.pickleCls c) => cls c && (match Assoc.get? n.attrs "base_type" with
        | some (.ref b) => match S[b]? with
          | some bn => base c (unps bn.name)
          | none => false
        | _ => true)
      | _ => true) &&
    (match Assoc.get? n.attrs "type" with
      | some (.pcls c) => cls c && base c (nodeBase n)
      | _ => true) &&
    !(attrOptions n.attrs).contains "hickle-4.x"

theorem C50.check_ok {S : Store} (h : C50.check S = true) : FittingTypes (fun _ => True) Ex.env S := by
  have hbase : ∀ {c : Cls} {b : String}, (b == (expected Ex.env c).2.base || (match stdBase b with
    | some (none, _, _) => true
    | _ => false)) = true → b = (expected Ex.env c).2.base ∨ ∃ f k, stdBase b = some (none, f, k) := by
    intro c b hb
    simp only [Bool.or_eq_true, beq_iff_eq] at hb
    rcases hb with hb | hb
    · exact .inl hb
    · split at hb
      · next f k hs => exact .inr ⟨f, k, hs⟩
      · simp at hb
  unfold C50.check at h
  simp only [List.all_eq_true, Bool.and_eq_true] at h
  refine ⟨fun n hn c hb _ => ?_, fun n hn c b hb hr => ?_, fun n hn c ht _ => ?_, fun n hn => ?_⟩
  · have := (h n hn).1.1
    rw [hb] at this
    simp only [Bool.and_eq_true] at this
    exact Ex.goodCls (by simpa using this.1)
  · have := (h n hn).1.1
    rw [hb] at this
    simp only [hr, Bool.and_eq_true] at this
    cases hs : S[b]? with
    | none => rw [hs] at this; simp at this
    | some bn => rw [hs] at this; exact ⟨bn, rfl, fun _ => hbase this.2⟩
  · have := (h n hn).1.2
    rw [ht] at this
    simp only [Bool.and_eq_true] at this
    exact ⟨Ex.goodCls (by simpa using this.1), hbase this.2⟩
  · simpa using (h n hn).2

/-- a file whose content is damaged: the types and members of all objects are there, but all datasets with data are empty -/
def C50.damaged : Session := { Ex.file1 with store := Ex.file1.store.map fun n => match n.body with
  | .dset (.pickleCls c) => { n with body := .dset (.pickleCls c) }
  | .dset _ => { n with body := .dset (.null "S1") }
  | .group ls => { n with body := .group ls } }

/-- a load of it does the same in a new process and in one that has dumped before -/
example (path : List PyStr) (fuel : Nat) : (loadTop { env := Ex.env, path := path, fuel := fuel } { C50.damaged with reg := Registry.initial }).1 =
    (loadTop { env := Ex.env, path := path, fuel := fuel } { C50.damaged with reg := C46.reg }).1 :=
  (C50_partial (P := fun _ => True) (a := { env := Ex.env, path := path, fuel := fuel }) Ex.envOk .start C46.reg_reached (C50.check_ok (by decide +kernel))).1

/-- a dump that fails after it has written a part: the third item of the list can not be pickled -/
def C50.broken : DumpArgs := { Ex.args [⟨.list, .seq [1, 2, 3]⟩, ⟨.user 1, .seq []⟩, ⟨.dict, .dict []⟩, ⟨.user 0, .opaque 5 false⟩] 0 with path := [ps "part"] }

/-- the dump fails, its data is in the file, in part, next to the data of a dump that went well -/
example : Ex.isOk (dumpTop C50.broken Ex.file1).1 = false ∧ (dumpTop C50.broken Ex.file1).2.store.length > Ex.file1.store.length + 5 := by
  decide +kernel

/-- the file it leaves is one of those that `C50_files` is about -/
theorem C50.broken_written : Written (fun _ => True) Ex.env (dumpTop C50.broken Ex.file1).2.store := by
  have h1 : Written (fun _ => True) Ex.env Ex.file1.store := by
    refine .dump (s := Ex.file0) .new .start rfl (fun o ho => by
      obtain ⟨i, hi⟩ := List.mem_iff_getElem?.1 ho
      exact (Ex.goodHeap.cls i o hi).1) (by simp [Ex.dumpArgs])
  refine .dump (s := Ex.file1) h1 ?_ rfl (fun o ho => Ex.goodCls ?_) (by simp [C50.broken])
  · exact .call (s := Ex.file0) (.dump Ex.dumpArgs) ⟨Ex.envOk, Ex.protOk⟩ .start
  · have : ∀ o ∈ C50.broken.heap, o.cls ≠ .recover ∧ o.cls ≠ .recGroup ∧ o.cls ≠ .recData ∧ o.cls ≠ .nodeRef := by decide +kernel
    exact this o ho

/-- a load of the part that failed, or of anything else in the file, does the same in a new process and in one that has dumped before -/
example (path : List PyStr) (fuel : Nat) : (loadTop { env := Ex.env, path := path, fuel := fuel } { (dumpTop C50.broken Ex.file1).2 with reg := Registry.initial }).1 =
    (loadTop { env := Ex.env, path := path, fuel := fuel } { (dumpTop C50.broken Ex.file1).2 with reg := C46.reg }).1 :=
  (C50_files (P := fun _ => True) (a := { env := Ex.env, path := path, fuel := fuel }) Ex.envOk .start C46.reg_reached C50.broken_written).1

/-! ### violation -/

/-- `Image` as it was when the file was written: a subclass of `numpy.ndarray` -/
def C50.thenEnv : Env := { Ex.env with u := fun n => if n = 9 then { Ex.env.u 9 with name := "Image", origin := .pkg "shop", bases := [.ndarray, .object], picklable := true, importable := true } else Ex.env.u n }
/-- `Image` as it is now: a class of its own -/
def C50.nowEnv : Env := { Ex.env with u := fun n => if n = 9 then { Ex.env.u 9 with name := "Image", origin := .pkg "shop", bases := [.object], picklable := true, importable := true } else Ex.env.u n }
def C50.image : Session := (dumpTop { Ex.args [⟨.user 9, .arr .int64 [2] [.i 1, .i 2]⟩] 0 with env := C50.thenEnv } Ex.file0).2
def C50.kind (r : Registry) : Option Cls :=
  match (loadTop { env := C50.nowEnv, path := [], fuel := 20 } { C50.image with reg := r }).1 with
  | .ok v => (v.1[v.2]?).map (·.cls)
  | .error _ => none

/-- **C50 is violated** if a class has changed since the file was written: what was stored as an array, as the class was derived from one,
comes back as a substitute in a new process, and as an array if the process happens to have used arrays with hickle before
(hickle.py:436, 460: `load_loader` registers the loaders for the classes `Image` has now). -/
theorem C50_violated : C50.kind Registry.initial = some .recData ∧ C50.kind C46.reg = some .ndarray := by
  refine ⟨by decide +kernel, by decide +kernel⟩

end Verif
