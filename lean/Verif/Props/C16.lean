import Verif.Props.C15
/-!
# C16 A failed dump is never mistaken for a good one
-/
namespace Verif

variable {P : Nat → Prop}

/-- **C16 (partial).**  A dump that raises leaves everything that was dumped before as it was: load from any other path, or from the same
path if it held a dump already, gives what it gave before.
What is missing from C16: a failed dump to a free path.  See `C16_violated`. -/
theorem C16_partial {a : DumpArgs} {s s' : Session} (h : GoodDump P a s s') {b : DumpArgs} (hE : EnvOk P b.env) (hP : ProtOk P b.env)
    (hb : Avoids a.path b.path) : Loads P a.env (dumpTop b s').2.store a.path fun L c => Copy a.heap L c a.obj :=
  C15_independent h (ops := [.dump b]) (by simp [Op.ok, hE, hP]) (by simp [Op.path]; exact hb)

/-- a failed dump to the same path, of another object -/
example : Loads (fun _ => True) Ex.env (dumpTop { Ex.dumpArgs with obj := 3 } Ex.file1).2.store [ps "run", ps "a"] fun L c => Copy Ex.heap L c 11 :=
  C16_partial Ex.good Ex.envOk Ex.protOk (by unfold Avoids; decide)

/-- load after a dump that raised -/
def C16.loadAfter (H : Heap) (obj : Addr) : Option (PyErr × Heap × Addr) :=
  match dumpTop (Ex.args H obj) Ex.file0 with
  | (.error e, s') => match loadTop ⟨Ex.env, [], id, 100⟩ s' with
    | (.ok r, _) => some (e, r)
    | _ => none
  | _ => none

/-- **C16 is violated.**  `dump(['a', unpicklable, None], f)` raises `PicklingError`; load returns `['a', (), ()]`. -/
theorem C16_violated :
    C16.loadAfter [⟨.str, .str (ps "a")⟩, ⟨.user 0, .opaque 9 false⟩, ⟨.noneType, .none⟩, ⟨.list, .seq [0, 1, 2]⟩] 3 =
      some (.picklingError, [⟨.tuple, .seq []⟩, ⟨.str, .str (ps "a")⟩, ⟨.list, .seq [1, 0, 0]⟩], 2) := by decide +kernel

/-- a dictionary loses the entries from the failing one on: `{'a': None, 'b': unpicklable, 'c': None}` loads as `{'a': None}` -/
theorem C16_violated_dict :
    C16.loadAfter [⟨.str, .str (ps "a")⟩, ⟨.str, .str (ps "b")⟩, ⟨.str, .str (ps "c")⟩, ⟨.user 0, .opaque 9 false⟩, ⟨.noneType, .none⟩,
        ⟨.dict, .dict [(0, 4), (1, 3), (2, 4)]⟩] 5 =
      some (.picklingError, [⟨.tuple, .seq []⟩, ⟨.noneType, .none⟩, ⟨.str, .str (ps "a")⟩, ⟨.dict, .dict [(2, 1)]⟩], 3) := by decide +kernel

end Verif
