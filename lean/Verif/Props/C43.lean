import Verif.Hickle.DumpTwins
import Verif.Props.C26
/-!
# C43 What dump does depends on the object and the file, not on what the process did before

The loader registry of a process grows with every object dumped or loaded (lookup.py:1131-1315).  Two processes that did different
things dump the same object into equal files: both return, or both raise the same exception, and the files are equal again.
-/
namespace Verif

variable {P : Nat → Prop}

/-- The registries a process can have: hickle's at import, changed by any dumps and loads, successful or not, on any files whatever,
with loader modules that leave the classes in `P` alone -/
inductive Reached (P : Nat → Prop) : Registry → Prop
  | start : Reached P Registry.initial
  | call {s : Session} (o : Op) : o.ok P → Reached P s.reg → Reached P (o.run s).reg

theorem Reached.inv {r : Registry} (h : Reached P r) : RegInv P r := by
  induction h with
  | start => exact RegInv.initial
  | call o ho _ ih =>
    cases o with
    | dump a => exact (dumpTop_post ho.1 ho.2 ih).reg
    | load a => obtain ⟨_, h, _⟩ := loadTop_post (a := a) ho.1 ho.2 ih; exact h.reg
    | reopen w => exact ih

/-- any number of calls -/
theorem Reached.run {os : List Op} {s : Session} (ho : ∀ o ∈ os, o.ok P) (h : Reached P s.reg) : Reached P (runOps os s).reg := by
  induction os generalizing s with
  | nil => exact h
  | cons o os ih => exact ih (fun o' h => ho o' (by simp [h])) (h.call o (ho o (by simp)))

/-- **C43.**  The outcome of `dump`, a return or the exception, and the file afterwards, complete or partly written, are the same in
every process.  *Missing*: loader modules that register classes of other packages (`C43_violated`). -/
theorem C43_history_partial {a : DumpArgs} {r r' : Registry} (h : Reached P r) (h' : Reached P r') (hE : EnvOk P a.env)
    (hcls : ∀ o ∈ a.heap, GoodCls P a.env o.cls) {os} (hos : a.options = some os) (s : Session) :
    let x := dumpTop a { s with reg := r }
    let y := dumpTop a { s with reg := r' }
    x.1 = y.1 ∧ x.2.store = y.2.store ∧ x.2.ldr = y.2.ldr ∧ x.2.ref = y.2.ref := by
  obtain ⟨h1, h2, _⟩ := dumpTop_two hE hcls hos { s with reg := r } { s with reg := r' } ⟨rfl, rfl, rfl, rfl, h.inv, h'.inv⟩
  exact ⟨h1, h2.store.symm, h2.ldr.symm, h2.ref.symm⟩

/-- So a sequence of dumps writes the same file whatever is done in between on other files. -/
theorem C43_sequence_partial (as : List DumpArgs) (hok : ∀ a ∈ as, EnvOk P a.env ∧ ProtOk P a.env ∧ (∀ o ∈ a.heap, GoodCls P a.env o.cls) ∧
      ∃ os, a.options = some os)
    (between : DumpArgs → Registry → Registry) (hb : ∀ a r, Reached P r → Reached P (between a r)) (s : Session) (hr : Reached P s.reg) :
    (as.foldl (fun s a => (dumpTop a { s with reg := between a s.reg }).2) s).store = (as.foldl (fun s a => (dumpTop a s).2) s).store := by
  have key : ∀ (as : List DumpArgs) (s t : Session), (∀ a ∈ as, EnvOk P a.env ∧ ProtOk P a.env ∧ (∀ o ∈ a.heap, GoodCls P a.env o.cls) ∧
      ∃ os, a.options = some os) → SameFile P s t → Reached P s.reg →
      (as.foldl (fun s a => (dumpTop a { s with reg := between a s.reg }).2) s).store = (as.foldl (fun s a => (dumpTop a s).2) t).store := by
    intro as
    induction as with
    | nil => intro s t _ h _; exact h.store.symm
    | cons a as ih =>
      intro s t hok h hr
      obtain ⟨h1, h2, h3, os, h4⟩ := hok a (by simp)
      have hr' := hb a _ hr
      obtain ⟨_, k, _⟩ := dumpTop_two h1 h3 h4 { s with reg := between a s.reg } t ⟨h.store, h.writable, h.ldr, h.ref, hr'.inv, h.right⟩
      exact ih _ _ (fun b hb => hok b (by simp [hb])) k (hr'.call (s := { s with reg := between a s.reg }) (.dump a) ⟨h1, h2⟩)
  exact key as s s hok ⟨rfl, rfl, rfl, rfl, hr.inv, hr.inv⟩ hr

/-! ### examples -/

/-- a process that has dumped the objects of `Ex.heap` and loaded them has more loaders than a new one … -/
def Ex.usedOps : List Op := [.dump Ex.dumpArgs, .load { env := Ex.env, path := [ps "run", ps "a"], fuel := 20 }]
def Ex.usedReg : Registry := (runOps Ex.usedOps Ex.file0).reg

example : Ex.usedReg.loaded ≠ Registry.initial.loaded := by decide +kernel

theorem Ex.usedReg_reached : Reached (fun _ => True) Ex.usedReg :=
  Reached.run (s := Ex.file0) (os := Ex.usedOps) (by
    intro o ho
    rcases List.mem_cons.1 ho with rfl | ho
    · exact ⟨Ex.envOk, Ex.protOk⟩
    · rw [List.mem_singleton.1 ho]; exact ⟨Ex.envOk, Ex.protOk⟩) .start

/-- … and dumps the same as the new one: here the same objects again into another file -/
example : (dumpTop Ex.dumpArgs { Ex.file0 with reg := Registry.initial }).2.store = (dumpTop Ex.dumpArgs { Ex.file0 with reg := Ex.usedReg }).2.store := by
  have hh : ∀ o ∈ Ex.heap, o.cls ≠ .recover ∧ o.cls ≠ .recGroup ∧ o.cls ≠ .recData ∧ o.cls ≠ .nodeRef := by decide
  have hc : ∀ o ∈ Ex.dumpArgs.heap, GoodCls (fun _ => True) Ex.dumpArgs.env o.cls := fun o ho => Ex.goodCls (hh o ho)
  have ho : Ex.dumpArgs.options = some [] := rfl
  have key : ∀ r r', Reached (fun _ => True) r → Reached (fun _ => True) r' →
      (dumpTop Ex.dumpArgs { Ex.file0 with reg := r }).2.store = (dumpTop Ex.dumpArgs { Ex.file0 with reg := r' }).2.store := by
    intro r r' h h'
    exact (C43_history_partial h h' Ex.envOk hc ho Ex.file0).2.1
  exact key _ _ .start Ex.usedReg_reached

/-- the same with the option for files of hickle 4.x, which is then noted in the file -/
def Ex.dump4x : DumpArgs := { Ex.dumpArgs with options := some [("hickle-4.x", true)] }
example : (dumpTop Ex.dump4x { Ex.file0 with reg := Registry.initial }).2.store = (dumpTop Ex.dump4x { Ex.file0 with reg := Ex.usedReg }).2.store := by
  have hh : ∀ o ∈ Ex.heap, o.cls ≠ .recover ∧ o.cls ≠ .recGroup ∧ o.cls ≠ .recData ∧ o.cls ≠ .nodeRef := by decide
  have hc : ∀ o ∈ Ex.dump4x.heap, GoodCls (fun _ => True) Ex.dump4x.env o.cls := fun o ho => Ex.goodCls (hh o ho)
  have ho : Ex.dump4x.options = some [("hickle-4.x", true)] := rfl
  have key : ∀ r r', Reached (fun _ => True) r → Reached (fun _ => True) r' →
      (dumpTop Ex.dump4x { Ex.file0 with reg := r }).2.store = (dumpTop Ex.dump4x { Ex.file0 with reg := r' }).2.store := by
    intro r r' h h'
    exact (C43_history_partial h h' Ex.envOk hc ho Ex.file0).2.1
  exact key _ _ .start Ex.usedReg_reached
example : Ex.isOk (dumpTop Ex.dump4x Ex.file0).1 = true := by decide +kernel

/-- the same failure: an object that cannot be pickled -/
example : Ex.raised (dumpTop (Ex.args [⟨.user 0, .opaque 5 false⟩] 0) { Ex.file0 with reg := Ex.usedReg }).1 = some .picklingError := by decide +kernel

/-! ### violation -/

/-- the loader module of package `b` has loaders for its own class `Mixin` and for the class `Base` of package `a` -/
def C43.modAB : LoaderMod := ⟨[{ cls := .user 0, base := "base", dump := some .pickled }, { cls := .user 1, base := "mixin", dump := some .pickled }], []⟩
def C43.env : Env := { Ex.hierEnv with mods := fun p => if p = "b" then some C43.modAB else none }
/-- one object of a class that inherits from both -/
def C43.args : DumpArgs := { Ex.args [⟨.user 2, .opaque 5 true⟩] 0 with env := C43.env }

/-- the names in the types table -/
def C43.bases (s : Session) : Option (List PyStr) := do
  let t ← s.store.resolve 0 (C43.args.path ++ [tableName])
  (← s.store.links t).map (·.1)

/-- **C43 is violated** by a loader module with a loader for a class of another package: the first time the object is dumped it is
labelled `mixin`, the second time, in the same process, `base`. -/
theorem C43_violated :
    let first := dumpTop C43.args Ex.file0
    let second := dumpTop C43.args { Ex.file0 with reg := first.2.reg }
    Ex.isOk first.1 = true ∧ Ex.isOk second.1 = true ∧ C43.bases first.2 = some [ps "0", ps "mixin"] ∧ C43.bases second.2 = some [ps "0", ps "base"] := by
  refine ⟨by decide +kernel, by decide +kernel, by decide +kernel, by decide +kernel⟩

end Verif
