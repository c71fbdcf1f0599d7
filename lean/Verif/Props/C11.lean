import Verif.Props.Same
import Verif.Props.Examples
/-!
# C11 A second round trip changes nothing more

Specification: `Same` in `Verif/Props/Same.lean`.
-/
namespace Verif

variable {P : Nat → Prop}

/-- **C11.**  Dump an object, load it, dump the loaded object, to the same or another path of the same or another
file, load it again: the second loaded object is the same as the first. -/
theorem C11_second_round_trip {a : DumpArgs} {s s' : Session} (h : GoodDump P a s s') :
    Loads P a.env s'.store a.path fun L b =>
      ∀ (a2 : DumpArgs) (t t' : Session), a2.env = a.env → a2.heap = L → a2.obj = b → FileOk P t → OptsOk a2 t.store →
        dumpTop a2 t = (.ok (), t') → Loads P a.env t'.store a2.path fun L2 b2 => Same L b L2 b2 := by
  refine h.loads.imp ?_
  rintro L b ⟨hc, hg, hr, hb⟩ a2 t t' he rfl rfl hf ho hd
  have h2 : GoodDump P a2 t t' := ⟨he ▸ h.env, he ▸ h.prot, hf, he ▸ hg, ⟨_, hr⟩, hb, ho, hd⟩
  have := h2.loads
  rw [he] at this
  exact this.imp fun L2 b2 h3 => copy_again hc h3.1

/-- the numbers of `[1, 2.5, 3]` and `{1: [True, 2]}`, which the first load changes to numpy scalars -/
def C11.heap : Heap := [
  ⟨.int, .int 1⟩, ⟨.float, .float (.fin false 5 (-1))⟩, ⟨.bool, .bool true⟩, ⟨.list, .seq [0, 1, 2]⟩,
  ⟨.list, .seq [2, 0]⟩, ⟨.dict, .dict [(0, 4)]⟩, ⟨.list, .seq [3, 5]⟩]

/-- the hypotheses are met: both dumps return.  (The heap of the loaded object has numpy numbers in it.) -/
example : ∃ s', GoodDump (fun _ => True) (Ex.args C11.heap 6) Ex.file0 s' := Ex.good_of (by decide +kernel)

/-- what the kernel computes for two round trips: `(dump, load, dump)` all return -/
def C11.twice : Bool :=
  match loadTop ⟨Ex.env, [], id, 100⟩ (dumpTop (Ex.args C11.heap 6) Ex.file0).2 with
  | (.ok (L, b), _) => Ex.isOk (dumpTop (Ex.args L b) Ex.file0).1 && L.any fun o => o.val == .np (.f (.fin false 5 (-1)))
  | _ => false

example : C11.twice = true := by decide +kernel

end Verif
