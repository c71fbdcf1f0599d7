import Verif.Props.Same
import Verif.Props.Examples
/-!
# C04 The loaded object does not depend on HDF5 iteration order

Specification: `Same` in `Verif/Props/Same.lean`.
-/
namespace Verif

variable {P : Nat → Prop}

/-- **C04.**  After a dump, take any two orders of listing the members of groups (and any two states of the
process): both loads return, and they return the same object. -/
theorem C04_any_order {a : DumpArgs} {s s' : Session} (h : GoodDump P a s s') :
    ∃ depth, ∀ t1 t2 : Session, (t1.store = s'.store ∧ t1.ldr = false ∧ t1.ref = false ∧ RegInv P t1.reg) →
      (t2.store = s'.store ∧ t2.ldr = false ∧ t2.ref = false ∧ RegInv P t2.reg) →
      ∀ order1 order2 : List (PyStr × NodeId) → List (PyStr × NodeId), (∀ l, (order1 l).Perm l) → (∀ l, (order2 l).Perm l) →
      ∀ fuel1 fuel2, depth ≤ fuel1 → depth ≤ fuel2 →
        ∃ L1 b1 t1' L2 b2 t2', loadTop ⟨a.env, a.path, order1, fuel1⟩ t1 = (.ok (L1, b1), t1') ∧
          loadTop ⟨a.env, a.path, order2, fuel2⟩ t2 = (.ok (L2, b2), t2') ∧ Same L1 b1 L2 b2 := by
  obtain ⟨depth, hl⟩ := h.loads
  refine ⟨depth, fun t1 t2 ⟨h1, h2, h3, h4⟩ ⟨g1, g2, g3, g4⟩ o1 o2 p1 p2 f1 f2 l1 l2 => ?_⟩
  obtain ⟨L1, b1, t1', e1, e2, _⟩ := hl t1 h1 h2 h3 h4 o1 p1 f1 l1
  obtain ⟨L2, b2, t2', e3, e4, _⟩ := hl t2 g1 g2 g3 g4 o2 p2 f2 l2
  exact ⟨L1, b1, t1', L2, b2, t2', e1, e3, copies_same e2.1 e4.1⟩

/-- the order of h5py and the reverse order, for the file of `Ex` -/
example : ∃ fuel L1 b1 t1 L2 b2 t2, loadTop ⟨Ex.env, [ps "run", ps "a"], id, fuel⟩ Ex.file1 = (.ok (L1, b1), t1) ∧
    loadTop ⟨Ex.env, [ps "run", ps "a"], List.reverse, fuel⟩ Ex.file1 = (.ok (L2, b2), t2) ∧ Same L1 b1 L2 b2 := by
  have hf := Ex.good.file'
  obtain ⟨depth, h⟩ := C04_any_order Ex.good
  have hs : Ex.file1.store = Ex.file1.store ∧ Ex.file1.ldr = false ∧ Ex.file1.ref = false ∧ RegInv (fun _ => True) Ex.file1.reg :=
    ⟨rfl, hf.ldr, hf.ref (by decide +kernel), hf.reg⟩
  obtain ⟨L1, b1, t1, L2, b2, t2, e⟩ := h Ex.file1 Ex.file1 hs hs id List.reverse (fun _ => .refl _) (fun l => List.reverse_perm l) depth depth
    (Nat.le_refl _) (Nat.le_refl _)
  exact ⟨depth, L1, b1, t1, L2, b2, t2, e⟩

end Verif
