import Verif.Props.C39
/-!
# C58: a dump that raises destroys nothing that could be loaded before

The claim: what could be loaded before a call of `dump` that raises can still be loaded after it.  Proved for calls that do not
discard the file on opening it and whose path does not lead into the nodes of the earlier dump.  Both restrictions are needed:
the default mode `w` empties the file before anything is known about the object, and a path into the node of an empty dict puts
its group attributes and the pieces of the new object into the dict before the object is refused.
-/
namespace Verif

variable {P : Nat → Prop}

/-- **C58.**  An object was dumped to `path` in the file named `n`, other calls may have followed that keep it; now a call of `dump`
raises, for any reason: the object is refused in the middle, the path is taken, the file cannot be opened, flushed or closed.
Then the first object is still loaded from the file.  Missing: modes that discard the content, and paths into the earlier dump
(`C58_violated`, `C58_violated_inside`). -/
theorem C58_partial {a : DumpArgs} {n mode path : PyStr} {fn : NameArg} {flt : Faults} {w w' : World} (hw : WorldOk P w)
    (hE : EnvOk P a.env) (hP : ProtOk P a.env) (hg : GoodHeap P a.env a.heap) (hr : ∃ rk, Ranked a.heap rk) (ha : a.obj < a.heap.length)
    (ho : ∀ S, w.start n mode = some S → OptsOk { a with path := comps path } S)
    (h : dumpFile a (.name n) mode path fn flt w = (.ok (), w')) {ops : List WOp} (hok : ∀ o ∈ ops, o.ok P)
    (hops : ∀ o ∈ ops, ∀ p, o.opened = .ok p → (p.what.Keeps ∧ Avoids (comps path) (comps p.path)) ∨ ∃ s m, p.what = .h5File s m ∧ s ≠ .name n)
    {b : DumpArgs} {f : FileArg} {mode' path' : PyStr} {fn' : NameArg} {flt' : Faults} (hE' : EnvOk P b.env) (hP' : ProtOk P b.env)
    (hmode : ∀ p, fileOpener f path' mode' fn' = .ok p → p.what.Keeps ∧ Avoids (comps path) (comps p.path))
    {e : PyErr} {w'' : World} (hfail : dumpFile b f mode' path' fn' flt' (runWOps ops w') = (.error e, w'')) :
    ∃ S, w''.content (.name n) = some S ∧ LoadsName P a.env n S path fun L b => Copy a.heap L b a.obj := by
  have := C39_history hw hE hP hg hr ha ho h (ops := ops ++ [.dump b f mode' path' fn' flt'])
    (fun o h => by
      rcases List.mem_append.1 h with h | h
      · exact hok o h
      · obtain rfl := List.mem_singleton.1 h; exact ⟨hE', hP'⟩)
    (fun o h p hp => by
      rcases List.mem_append.1 h with h | h
      · exact hops o h p hp
      · obtain rfl := List.mem_singleton.1 h; exact .inl (hmode p hp))
  have e1 : ∀ (os : List WOp) (o : WOp) (w : World), runWOps (os ++ [o]) w = o.run (runWOps os w) := by
    intro os o
    induction os with
    | nil => intro w; rfl
    | cons x os ih => intro w; exact ih (x.run w)
  rw [e1] at this
  simp only [WOp.run, hfail] at this
  exact this

/-- With mode `w` (or `wb`) a failed dump leaves nothing of what was in the file: the content is that of the same failed dump to a new
file, whatever was there before. -/
theorem C58_truncated {a : DumpArgs} {n mode path : PyStr} {fn : NameArg} {w : World} {e : PyErr} {w' : World} (hm : mode ∈ ["w", "wb"].map ps)
    (h : dumpFile a (.name n) mode path fn {} w = (.error e, w')) :
    ∃ w1, dumpFile a (.name n) mode path fn {} { w with files := [] } = (.error e, w1) ∧ w'.content (.name n) = w1.content (.name n) := by
  obtain ⟨k1, k2⟩ := C39_truncates (a := a) (n := n) (path := path) (fn := fn) (w1 := w) (w2 := { w with files := [] }) hm rfl
  rw [h] at k1 k2
  exact ⟨(dumpFile a (.name n) mode path fn {} { w with files := [] }).2, Prod.ext k1.symm rfl, k2⟩

namespace C58

/-- a list with a string, and a list with a string and an object that pickle refuses -/
def heap : Heap := [⟨.str, .str (ps "a")⟩, ⟨.list, .seq [0, 0]⟩, ⟨.object, .opaque 9 false⟩, ⟨.list, .seq [0, 2]⟩, ⟨.dict, .dict []⟩]

def dump (obj : Addr) (mode path : PyStr) (w : World) : Except PyErr Unit × World :=
  dumpFile (Ex.args heap obj) (.name (ps "d.h5")) mode path .absent {} w

/-- outcome of loading the root path of `d.h5` -/
def load (w : World) : Except PyErr (Heap × Addr) := (loadFile ⟨Ex.env, [], id, 100⟩ (.name (ps "d.h5")) (ps "/") .absent {} w).1

/-- the object is dumped, then another, which is refused, to the given path: what load returns before and after the second dump, and what
that dump raised -/
def trial (obj : Addr) (mode path : PyStr) : Option (Heap × Addr) × Option PyErr × Option (Heap × Addr) :=
  let w1 := dump obj (ps "w") (ps "/") Ex.world
  let w2 := dump 3 mode path w1.2
  ((load w1.2).toOption, (match w2.1 with | .ok _ => none | .error e => some e), (load w2.2).toOption)

/-- the first object as it is loaded; the empty tuple is the place holder load starts with -/
def first : Heap × Addr := ([⟨.tuple, .seq []⟩, ⟨.str, .str (ps "a")⟩, ⟨.list, .seq [1, 1]⟩], 2)

/-- `['a', ()]`, what load makes of the unfinished second object -/
def piece : Heap × Addr := ([⟨.tuple, .seq []⟩, ⟨.str, .str (ps "a")⟩, ⟨.list, .seq [1, 0]⟩], 2)

end C58

/-- **C58 is violated.**  `dump(x, 'd.h5')` and then `dump(y, 'd.h5')`, both with the default mode: pickle refuses `y`, the call raises, and
`x` is gone; load now returns `['a', ()]`, the piece of `y` that was written. -/
theorem C58_violated : C58.trial 1 (ps "w") (ps "/") =
    (some C58.first, some .picklingError, some C58.piece) := by
  decide +kernel

/-- **C58 is violated** with mode `a` too.  An empty dict is dumped to the file, then `y` to the path `/data`, where the dict has its node: the
call raises, and the dict cannot be loaded any more. -/
theorem C58_violated_inside : C58.trial 4 (ps "a") (ps "/data") = (some ([⟨.tuple, .seq []⟩, ⟨.dict, .dict []⟩], 1), some .picklingError, none) := by
  decide +kernel

/-- with other paths, or with the path of the first object itself, the first object is still there -/
example : C58.trial 1 (ps "a") (ps "/b") =
    (some C58.first, some .picklingError, some C58.first) := by
  decide +kernel

example : C58.trial 1 (ps "a") (ps "/") =
    (some C58.first, some .valueError, some C58.first) := by
  decide +kernel

/-- the hypotheses of `C58_partial` are met: the object graph of `Ex` is dumped to `a.h5`, then the list that pickle refuses to `/b` in the
same file -/
example : ∃ e w'' S, dumpFile (Ex.args C58.heap 3) (.name (ps "a.h5")) (ps "a") (ps "/b") .absent {} (Ex.named.run Ex.world) = (.error e, w'') ∧
    w''.content (.name (ps "a.h5")) = some S ∧ LoadsName (fun _ => True) Ex.env (ps "a.h5") S (ps "run/a/") fun L b => Copy Ex.heap L b 11 := by
  have hret : Ex.isOk (dumpFile Ex.dumpArgs (.name (ps "a.h5")) (ps "w") (ps "run/a/") .absent {} Ex.world).1 = true := by decide +kernel
  obtain ⟨⟨⟩, hret⟩ := Ex.eq_of_isOk hret
  have hstart : Ex.world.start (ps "a.h5") (ps "w") = some emptyStore := rfl
  have hfail : Ex.raised (dumpFile (Ex.args C58.heap 3) (.name (ps "a.h5")) (ps "a") (ps "/b") .absent {} (Ex.named.run Ex.world)).1 = some .picklingError := by
    decide +kernel
  have hfail := Ex.eq_of_raised hfail
  obtain ⟨S, k1, k2⟩ := C58_partial Ex.world_ok Ex.envOk Ex.protOk Ex.good.graph Ex.good.acyclic Ex.good.obj (fun S hS => by
      rw [hstart] at hS; cases hS
      refine ⟨fun os h => by simp [Ex.dumpArgs] at h; subst h; decide, fun g at' h => ?_⟩
      have : emptyStore.resolve 0 (comps (ps "run/a/")) = none := by decide
      simp only [this] at h; simp at h) hret (ops := []) (fun _ h => by simp at h) (fun _ h => by simp at h)
    (b := Ex.args C58.heap 3) (f := .name (ps "a.h5")) (mode' := ps "a") (path' := ps "/b") (fn' := .absent) (flt' := {}) Ex.envOk Ex.protOk
    (fun p hp => by
      simp [fileOpener] at hp; subst hp
      exact ⟨by unfold Opening.Keeps; decide, by unfold Avoids; decide⟩) hfail
  exact ⟨_, _, S, hfail, k1, k2⟩

end Verif
