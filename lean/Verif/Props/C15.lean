import Verif.Props.Examples
/-!
# C15 Objects dumped to different paths of a file are independent

Histories of calls: `Op`, `runOps` in `Verif/Hickle/History.lean`.
-/
namespace Verif

variable {P : Nat → Prop}

/-- **C15.**  After a dump that returned, let any calls follow: dumps of any objects, loads, closing and opening the file, the
calls returning or raising; to any paths, beneath or above that of the dump, as long as they do not lead into the two nodes
(`data` and `hickle_types_table`) the dump has made.  Then load still returns a copy of the dumped object. -/
theorem C15_independent {a : DumpArgs} {s s' : Session} (h : GoodDump P a s s') {ops : List Op} (hok : ∀ o ∈ ops, o.ok P)
    (hp : ∀ o ∈ ops, ∀ q, o.path = some q → Avoids a.path q) :
    Loads P a.env (runOps ops s').store a.path fun L b => Copy a.heap L b a.obj :=
  ((h.stored.run hok h.file' hp).loads h.env h.graph h.acyclic h.obj (h.file'.run hok).noV3).imp fun _ _ h => h.1

/-- **C15, whole histories.**  `before` and `after` are arbitrary calls on a new file. -/
theorem C15_history {a : DumpArgs} {before after : List Op} {reg : Registry} (hreg : RegInv P reg) (hb : ∀ o ∈ before, o.ok P) (ha : ∀ o ∈ after, o.ok P)
    (hE : EnvOk P a.env) (hP : ProtOk P a.env) (hg : GoodHeap P a.env a.heap) (hr : ∃ rk, Ranked a.heap rk) (hobj : a.obj < a.heap.length)
    (hopt : OptsOk a (runOps before (newFile reg)).store) (hd : (dumpTop a (runOps before (newFile reg))).1 = .ok ())
    (hp : ∀ o ∈ after, ∀ q, o.path = some q → Avoids a.path q) :
    Loads P a.env (runOps (before ++ .dump a :: after) (newFile reg)).store a.path fun L b => Copy a.heap L b a.obj := by
  have hrun : ∀ (xs ys : List Op) (t : Session), runOps (xs ++ ys) t = runOps ys (runOps xs t) := by
    intro xs ys
    induction xs with
    | nil => intro t; rfl
    | cons x xs ih => intro t; exact ih _
  rw [hrun]
  have hf : FileOk P (runOps before (newFile reg)) := (newFile_ok hreg).run hb
  exact C15_independent (s' := (dumpTop a (runOps before (newFile reg))).2) ⟨hE, hP, hf, hg, hr, hobj, hopt, by rw [← hd]⟩ ha hp

/-- dump something to `/run`, above the dump of `Ex`, and to `/run/a/more`, beneath it, fail to dump to `/run/a`, load, and open
the file for reading only -/
def C15.ops : List Op := [
  .dump { Ex.dumpArgs with obj := 3, path := [ps "run"] },
  .dump { Ex.dumpArgs with obj := 2, path := [ps "run", ps "a", ps "more"] },
  .dump { Ex.dumpArgs with obj := 2 },
  .load { env := Ex.env, path := [ps "run", ps "a", ps "more"], fuel := 30 },
  .reopen false]

example : Loads (fun _ => True) Ex.env (runOps C15.ops Ex.file1).store [ps "run", ps "a"] fun L b => Copy Ex.heap L b 11 := by
  refine C15_independent Ex.good ?_ ?_
  · intro o ho
    simp only [C15.ops, List.mem_cons, List.not_mem_nil, or_false] at ho
    rcases ho with rfl | rfl | rfl | rfl | rfl <;> first | exact ⟨Ex.envOk, Ex.protOk⟩ | trivial
  · intro o ho q hq
    simp only [C15.ops, List.mem_cons, List.not_mem_nil, or_false] at ho
    unfold Avoids
    rcases ho with rfl | rfl | rfl | rfl | rfl <;> simp [Op.path] at hq <;> subst hq <;> decide

/-- the dump to `/run/a/more` in it returned, the dumps to `/run` (which has a member) and `/run/a` raised -/
example : (Ex.isOk (dumpTop { Ex.dumpArgs with obj := 3, path := [ps "run"] } Ex.file1).1,
    Ex.isOk (dumpTop { Ex.dumpArgs with obj := 2, path := [ps "run", ps "a", ps "more"] } Ex.file1).1,
    Ex.isOk (dumpTop { Ex.dumpArgs with obj := 2 } Ex.file1).1) = (false, true, false) := by decide +kernel

/-- The condition on the paths is needed.  `dump([None, 'x'], f, path='/')`, then `dump(None, f, path='/data/x')`: both return, and
loading from `/` raises. -/
theorem C15_beneath_data :
    let H : Heap := [⟨.noneType, .none⟩, ⟨.str, .str (ps "x")⟩, ⟨.list, .seq [0, 1]⟩]
    let s1 := (dumpTop (Ex.args H 2) Ex.file0).2
    let s2 := (dumpTop { Ex.args H 0 with path := [ps "data", ps "x"] } s1).2
    dumpTop (Ex.args H 2) Ex.file0 = (.ok (), s1) ∧ dumpTop { Ex.args H 0 with path := [ps "data", ps "x"] } s1 = (.ok (), s2) ∧
      Ex.isOk (loadTop ⟨Ex.env, [], id, 100⟩ s1).1 = true ∧ Ex.raised (loadTop ⟨Ex.env, [], id, 100⟩ s2).1 = some .valueError := by
  refine ⟨?_, ?_, by decide +kernel, by decide +kernel⟩
  · obtain ⟨⟨⟩, h⟩ := Ex.eq_of_isOk (r := dumpTop (Ex.args [⟨.noneType, .none⟩, ⟨.str, .str (ps "x")⟩, ⟨.list, .seq [0, 1]⟩] 2) Ex.file0) (by decide +kernel)
    exact h
  · obtain ⟨⟨⟩, h⟩ := Ex.eq_of_isOk (r := dumpTop { Ex.args [⟨.noneType, .none⟩, ⟨.str, .str (ps "x")⟩, ⟨.list, .seq [0, 1]⟩] 0 with path := [ps "data", ps "x"] }
      (dumpTop (Ex.args [⟨.noneType, .none⟩, ⟨.str, .str (ps "x")⟩, ⟨.list, .seq [0, 1]⟩] 2) Ex.file0).2) (by decide +kernel)
    exact h

/-- the same with a path inside the types table, the file being open for writing -/
theorem C15_beneath_table :
    let H : Heap := [⟨.noneType, .none⟩, ⟨.str, .str (ps "x")⟩, ⟨.list, .seq [0, 1]⟩]
    let s1 := (dumpTop (Ex.args H 2) Ex.file0).2
    let s2 := (dumpTop { Ex.args H 0 with path := [tableName, ps "x"] } s1).2
    dumpTop (Ex.args H 2) Ex.file0 = (.ok (), s1) ∧ dumpTop { Ex.args H 0 with path := [tableName, ps "x"] } s1 = (.ok (), s2) ∧
      Ex.isOk (loadTop ⟨Ex.env, [], id, 100⟩ s1).1 = true ∧ Ex.raised (loadTop ⟨Ex.env, [], id, 100⟩ s2).1 = some .valueError := by
  refine ⟨?_, ?_, by decide +kernel, by decide +kernel⟩
  · obtain ⟨⟨⟩, h⟩ := Ex.eq_of_isOk (r := dumpTop (Ex.args [⟨.noneType, .none⟩, ⟨.str, .str (ps "x")⟩, ⟨.list, .seq [0, 1]⟩] 2) Ex.file0) (by decide +kernel)
    exact h
  · obtain ⟨⟨⟩, h⟩ := Ex.eq_of_isOk (r := dumpTop { Ex.args [⟨.noneType, .none⟩, ⟨.str, .str (ps "x")⟩, ⟨.list, .seq [0, 1]⟩] 0 with path := [tableName, ps "x"] }
      (dumpTop (Ex.args [⟨.noneType, .none⟩, ⟨.str, .str (ps "x")⟩, ⟨.list, .seq [0, 1]⟩] 2) Ex.file0).2) (by decide +kernel)
    exact h

end Verif
