import Verif.Hickle.StepLoadSafe
import Verif.Props.C15
/-!
# C45 A dump that is interrupted harms nothing but itself

`Prog.dumpF all es a` is the dump `a` in single steps (`Verif/Hickle/StepDump.lean`), hit by the events `es`: at each step that can be hit
nothing unusual happens, or an exception is raised before the step takes effect, or after it took effect.  With `all = false` exceptions
come from h5py (the disk is full, the device fails); with `all = true` they come anywhere, as `KeyboardInterrupt` does.  Handlers and
`with` blocks of hickle run as written; what they do can be hit again.  `Prog.dumpF_nil`: without events this is the dump of all other
theorems.
-/
namespace Verif
open Prog (Ev dumpF loadF)

variable {P : Nat → Prop}

/-- one event in the life of a file; dumps and loads (`Verif/Hickle/StepLoad.lean`) are hit by exceptions -/
inductive FOp where
  | dump (all : Bool) (es : List Ev) (a : DumpArgs)
  | load (all : Bool) (es : List Ev) (a : LoadArgs)
  | reopen (w : Bool)

def FOp.run : FOp → Session → Session
  | .dump all es a, s => (dumpF all es a s).2
  | .load all es a, s => (loadF all es a s).2
  | .reopen w, s => { s with writable := w, ldr := false, ref := false }

def runFOps : List FOp → Session → Session
  | [], s => s
  | o :: os, s => runFOps os (o.run s)

/-- path a call works on -/
def FOp.path : FOp → Option (List PyStr)
  | .dump _ _ a => some a.path
  | .load _ _ a => some a.path
  | .reopen _ => none

/-- the loader modules present during a call do not interfere with the classes in `P` -/
def FOp.ok (P : Nat → Prop) : FOp → Prop
  | .dump _ _ a => EnvOk P a.env ∧ ProtOk P a.env
  | .load _ _ a => EnvOk P a.env ∧ ProtOk P a.env
  | .reopen _ => True

/-- exceptions come from h5py only -/
def FOp.h5 : FOp → Prop
  | .dump all _ _ => all = false
  | .load all _ _ => all = false
  | .reopen _ => True

theorem dumpF_amid {a : DumpArgs} (hE : EnvOk P a.env) (hP : ProtOk P a.env) {s : Session} (hreg : RegInv P s.reg) (all : Bool) (es : List Ev) :
    ∃ d : DState, Prog.Amid P all a.path s.store s.writable s.ldr s.ref ((dumpF all es a s).2, d) :=
  ⟨_, Prog.wp_sound _ (Prog.dumpTop_amid (a := a) hE hP (s := (s, { heap := a.heap, store := [], reg := {} })) hreg) es⟩

/-- what holds of the file between calls, managers aside -/
structure Whole (P : Nat → Prop) (s : Session) : Prop where
  tree : Tree s.store
  reg : RegInv P s.reg
  noV3 : NoV3 s.store

theorem FOp.chg {o : FOp} {s : Session} (ho : o.ok P) (hs : Whole P s) : Whole P (o.run s) ∧
    ∃ q, (∀ q', o.path = some q' → q = q') ∧ Chg q s.store (o.run s).store ∧ (o.path = none → (o.run s).store = s.store) := by
  cases o with
  | dump all es a =>
    obtain ⟨d, h⟩ := dumpF_amid (a := a) ho.1 ho.2 hs.reg all es
    exact ⟨⟨h.chg.tree hs.tree, h.reg, hs.noV3.keep hs.tree h.chg⟩, a.path, by simp [FOp.path], h.chg, by simp [FOp.path]⟩
  | load all es a =>
    have h := Prog.loadF_ends (a := a) ho.1 ho.2 hs.reg all es
    exact ⟨⟨h.kept.chg.tree hs.tree, h.reg, hs.noV3.keep hs.tree h.kept.chg⟩, a.path, by simp [FOp.path], h.kept.chg, by simp [FOp.path]⟩
  | reopen w => exact ⟨⟨hs.tree, hs.reg, hs.noV3⟩, [], by simp [FOp.path], .refl, fun _ => rfl⟩

theorem Whole.run {os : List FOp} {s : Session} (ho : ∀ o ∈ os, o.ok P) (hs : Whole P s) : Whole P (runFOps os s) := by
  induction os generalizing s with
  | nil => exact hs
  | cons o os ih => exact ih (fun o' h => ho o' (by simp [h])) (FOp.chg (ho o (by simp)) hs).1

theorem Stored.runF {env : Env} {p : List PyStr} {H0 : Heap} {a : Addr} {os : List FOp} {s : Session} (ho : ∀ o ∈ os, o.ok P) (hs : Whole P s)
    (hp : ∀ o ∈ os, ∀ q, o.path = some q → Avoids p q) (h : Stored env s.store p H0 a) : Stored env (runFOps os s).store p H0 a := by
  induction os generalizing s with
  | nil => exact h
  | cons o os ih =>
    obtain ⟨h1, q, h2, h4, h5⟩ := FOp.chg (ho o (by simp)) hs
    refine ih (fun o' h => ho o' (by simp [h])) h1 (fun o' h => hp o' (by simp [h])) ?_
    cases hpth : o.path with
    | none => rw [h5 hpth]; exact h
    | some q' =>
      have hq := h2 q' hpth
      subst hq
      exact h.keep hs.tree h4 (hp o (by simp) q hpth)

/-- **C45, the rest of the file.**  After a dump that returned, let any calls follow, dumps and loads among them that are interrupted by any exceptions
at any points, any number of times.  As long as their paths do not lead into the two nodes the dump has made, load still returns a copy
of the dumped object. -/
theorem C45_rest {a : DumpArgs} {s s' : Session} (h : GoodDump P a s s') {ops : List FOp} (hok : ∀ o ∈ ops, o.ok P)
    (hp : ∀ o ∈ ops, ∀ q, o.path = some q → Avoids a.path q) :
    Loads P a.env (runFOps ops s').store a.path fun L b => Copy a.heap L b a.obj := by
  have hw : Whole P s' := ⟨h.file'.tree, h.file'.reg, h.file'.noV3⟩
  exact ((h.stored.runF hok hw hp).loads h.env h.graph h.acyclic h.obj (hw.run hok).noV3).imp fun _ _ h => h.1

/-- **C45, nothing is overwritten.**  Wherever a dump is interrupted: every dataset that was in the file is unchanged, every group keeps its
members, and a group that had members keeps its attributes. -/
theorem C45_preserved {a : DumpArgs} {s : Session} (hE : EnvOk P a.env) (hP : ProtOk P a.env) (hreg : RegInv P s.reg) (all : Bool) (es : List Ev) {n : NodeId} {nd : Node}
    (hn : s.store[n]? = some nd) :
    (∀ d, nd.body = .dset d → (dumpF all es a s).2.store[n]? = some nd) ∧
    (∀ ls, nd.body = .group ls → ∃ at' new, (dumpF all es a s).2.store[n]? = some ⟨nd.name, at', .group (ls ++ new)⟩ ∧ (ls ≠ [] → at' = nd.attrs)) := by
  obtain ⟨d, h⟩ := dumpF_amid (a := a) hE hP hreg all es
  obtain ⟨nd', h1, h2, h3, h4, h5, _⟩ := h.chg.keep n nd hn
  refine ⟨fun d hd => by rw [h1, h3 d hd], fun ls hls => ?_⟩
  obtain ⟨l, hl⟩ := h4 ls hls
  refine ⟨nd'.attrs, l, ?_, fun hne => h5 (by rw [hls]; simpa using hne)⟩
  rw [h1]
  obtain ⟨nm, at', body⟩ := nd'
  simp only at h2 hl ⊢
  rw [h2, hl]

/-- **C45, the file stays usable (partial).**  If the exceptions come from h5py, no entry of a manager is left behind: the state of the process
for the file is the one of a newly opened file, so that the next call is not refused.
What is missing: exceptions that come between other statements, see `C45_violated`; and loads from files open for reading only without a
types table (C17). -/
theorem C45_usable_partial {s : Session} (hs : FileOk P s) {ops : List FOp} (hok : ∀ o ∈ ops, o.ok P) (hh : ∀ o ∈ ops, o.h5)
    (hw : (runFOps ops s).writable = true) : (FOp.reopen true).run (runFOps ops s) = runFOps ops s := by
  have key : ∀ (ops : List FOp) (s : Session), FileOk P s → (∀ o ∈ ops, o.ok P) → (∀ o ∈ ops, o.h5) → FileOk P (runFOps ops s) := by
    intro ops
    induction ops with
    | nil => exact fun s hs _ _ => hs
    | cons o os ih =>
      intro s hs hok hh
      refine ih _ ?_ (fun o' h => hok o' (by simp [h])) (fun o' h => hh o' (by simp [h]))
      have ho := hok o (by simp)
      have h5 := hh o (by simp)
      have hw := (FOp.chg (s := s) ho ⟨hs.tree, hs.reg, hs.noV3⟩).1
      cases o with
      | dump all es a =>
        have h5 : all = false := h5
        subst h5
        obtain ⟨d, h⟩ := dumpF_amid (a := a) ho.1 ho.2 hs.reg false es
        exact ⟨hw.tree, hw.reg, hw.noV3, (h.ldr rfl).trans hs.ldr, fun hw' => (h.ref rfl).trans (hs.ref (h.writable.symm.trans hw'))⟩
      | load all es a =>
        have h5 : all = false := h5
        subst h5
        have h := Prog.loadF_ends (a := a) ho.1 ho.2 hs.reg false es
        refine ⟨hw.tree, hw.reg, hw.noV3, (h.ldr rfl).trans hs.ldr, fun hw' => ?_⟩
        have hw' := h.writable.symm.trans hw'
        exact (h.ref rfl (.inl hw')).trans (hs.ref hw')
      | reopen w => exact ⟨hw.tree, hw.reg, hw.noV3, rfl, fun _ => rfl⟩
  have h := key ops s hs hok hh
  have h1 := h.ldr
  have h2 := h.ref hw
  generalize runFOps ops s = t at *
  obtain ⟨st, w, l, r, rg⟩ := t
  simp only at hw h1 h2
  subst hw h1 h2
  rfl

/-- two strings in a list -/
def C45.heap : Heap := [⟨.str, .str (ps "a")⟩, ⟨.str, .str (ps "b")⟩, ⟨.list, .seq [0, 1]⟩]

/-- an exception before step `n` takes effect -/
def C45.at (n : Nat) (e : PyErr) : List Ev := List.replicate n .go ++ [.early e]

/-- **C45 is violated: exceptions between statements.**  An exception that comes when `create_manager` has made its entry and the `with` block
is not entered yet (step 6; the model has no value for `KeyboardInterrupt`, and nothing here tells it from `OSError`): the entry stays,
and the next dump into the open file, to another path, raises `LookupError`. -/
theorem C45_violated :
    let s1 := (dumpF true (C45.at 6 .osError) (Ex.args C45.heap 2) Ex.file0).2
    Ex.raised (dumpF true (C45.at 6 .osError) (Ex.args C45.heap 2) Ex.file0).1 = some .osError ∧
    Ex.raised (dumpTop { Ex.args C45.heap 2 with path := [ps "other"] } s1).1 = some .lookupError ∧
    Ex.isOk (dumpTop { Ex.args C45.heap 2 with path := [ps "other"] } ((FOp.reopen true).run s1)).1 = true := by decide +kernel

/-- the same for the other manager, and for exceptions within either `__exit__` -/
theorem C45_violated_exit : [10, 58, 59].all (fun n =>
    let s1 := (dumpF true (C45.at n .osError) (Ex.args C45.heap 2) Ex.file0).2
    decide (Ex.raised (dumpTop { Ex.args C45.heap 2 with path := [ps "other"] } s1).1 = some .lookupError)) = true := by decide +kernel

/-- **C45 does not cover the interrupted dump itself**: the disk is full when the second item of `['a', 'b']` is written.  `dump` raises
`OSError`; load returns `['a', ()]` (as in C16). -/
theorem C45_violated_self :
    Ex.raised (dumpF false (C45.at 22 .osError) (Ex.args C45.heap 2) Ex.file0).1 = some .osError ∧
    (loadTop ⟨Ex.env, [], id, 100⟩ (dumpF false (C45.at 22 .osError) (Ex.args C45.heap 2) Ex.file0).2).1.toOption =
      some ([⟨.tuple, .seq []⟩, ⟨.str, .str (ps "a")⟩, ⟨.list, .seq [1, 0]⟩], 2) := by decide +kernel

/-- one step later the dataset of the second item is there without its data and load raises `ValueError` -/
example : Ex.raised (dumpF false (C45.at 23 .osError) (Ex.args C45.heap 2) Ex.file0).1 = some .osError ∧
    Ex.raised (loadTop ⟨Ex.env, [], id, 100⟩ (dumpF false (C45.at 23 .osError) (Ex.args C45.heap 2) Ex.file0).2).1 = some .valueError := by
  decide +kernel

/-- A second dump to the path of an interrupted one that has left members there raises `ValueError`: the two are not mixed.  This is
`C14_refused`, which does not ask where the members come from. -/
example : Ex.raised (dumpTop (Ex.args C45.heap 2) (dumpF false (C45.at 22 .osError) (Ex.args C45.heap 2) Ex.file0).2).1 = some .valueError := by
  decide +kernel

/-! `C45_rest` on concrete data: three dumps, to `/b`, below `/run/a` and to `/run/a` itself, interrupted at different points in different
ways, a load in between, and the file opened anew -/

def C45.ops : List FOp := [.dump true (C45.at 6 .osError) { Ex.dumpArgs with path := [ps "b"] },
  .load true [.go, .go, .late .osError] ⟨Ex.env, [ps "b"], id, 9⟩,
  .dump false (List.replicate 20 .go ++ [.late .osError, .early .runtimeError]) { Ex.dumpArgs with path := [ps "run", ps "a", ps "more"] },
  .reopen true,
  .dump true [.go, .late .osError] { Ex.dumpArgs with obj := 3 }]

example : Loads (fun _ => True) Ex.env (runFOps C45.ops Ex.file1).store [ps "run", ps "a"] fun L b => Copy Ex.heap L b 11 := by
  refine C45_rest Ex.good ?_ ?_
  · intro o ho
    simp only [C45.ops, List.mem_cons, List.not_mem_nil, or_false] at ho
    rcases ho with rfl | rfl | rfl | rfl | rfl <;> first | exact ⟨Ex.envOk, Ex.protOk⟩ | trivial
  · intro o ho q hq
    simp only [C45.ops, List.mem_cons, List.not_mem_nil, or_false] at ho
    unfold Avoids
    rcases ho with rfl | rfl | rfl | rfl | rfl <;> simp [FOp.path] at hq <;> subst hq <;> decide

/-- `C45_usable_partial`: the disk is full during a dump; the next dump, to another path, returns -/
example : (FOp.reopen true).run (runFOps [.dump false (C45.at 22 .osError) (Ex.args C45.heap 2)] Ex.file0) =
    runFOps [.dump false (C45.at 22 .osError) (Ex.args C45.heap 2)] Ex.file0 :=
  C45_usable_partial (P := fun _ => True) Ex.file0_ok (by simp only [List.mem_singleton]; rintro o rfl; exact ⟨Ex.envOk, Ex.protOk⟩)
    (by simp only [List.mem_singleton]; rintro o rfl; rfl) (by decide +kernel)

example : Ex.isOk (dumpTop { Ex.args C45.heap 2 with path := [ps "other"] } (dumpF false (C45.at 22 .osError) (Ex.args C45.heap 2) Ex.file0).2).1 = true := by
  decide +kernel

end Verif
