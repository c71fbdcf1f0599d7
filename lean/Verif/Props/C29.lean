import Verif.Props.C30
import Verif.Hickle.LoadAll
/-!
# C29 Stale references are detected
-/
namespace Verif

/-- The node `data` of the group at path `p`, and the group has a types table. -/
def DataAt (S : Store) (p : List PyStr) (d : NodeId) : Prop :=
  ∃ g ls, S.resolve 0 p = some g ∧ S.links g = some ls ∧ Assoc.get? ls dataName0 = some d ∧ (Assoc.get? ls tableName).isSome = true

/-- a returned load of a file with a types table has read everything below `data` and left the file as it was -/
theorem loadTop_read {a : LoadArgs} {s s' : Session} {r : Heap × Addr} (hord : ∀ l, (a.order l).Perm l) (h : loadTop a s = (.ok r, s')) {d : NodeId}
    (hd : DataAt s.store a.path d) : ∃ mgr, ReadAll ⟨a.env, mgr, s.store, a.order⟩ d := by
  obtain ⟨g, ls, h1, h2, h3, h4⟩ := hd
  have hst := C30_with_table a s h1 h2 h4
  rw [h] at hst
  simp only at hst
  obtain ⟨g', ls', d', mgr, k1, k2, k3, k4⟩ := loadTop_all hord h
  rw [h1] at k2; cases k2
  rw [hst] at k1 k4
  rw [h2] at k1; cases k1
  rw [h3] at k3; cases k3
  exact ⟨mgr, k4⟩

/-- **C29.**  Take any file, written by hickle or not, and anywhere below its data, or behind the references in it, a node with
a stale reference: to the entry of its class, from that entry to the name of its loader, or to another node.  Then load
does not return. -/
theorem C29_stale (a : LoadArgs) (s : Session) (hord : ∀ l, (a.order l).Perm l) {d n : NodeId} (hd : DataAt s.store a.path d)
    (hn : Under s.store d n) (hs : Stale s.store n) : ∀ r s', loadTop a s ≠ (.ok r, s') := by
  intro r s' h
  obtain ⟨mgr, hr⟩ := loadTop_read hord h hd
  exact (hr.of_under hn).notRefused hs.refused

/-- a list with a stale reference behind another one: `data` is a list whose item refers to the node `x`, elsewhere in the file, which
refers to nothing -/
def C29.file : Session := { Ex.file0 with store := [
  ⟨[], [("HICKLE_VERSION", .bytes "5.0.3"), ("HICKLE_PYTHON_VERSION", .bytes "3.8.10")], .group [(dataName0, 1), (tableName, 2), (ps "x", 6)]⟩,
  ⟨dataName0, [("type", .ref 4), ("num_items", .int 1)], .group [(ps "data0", 5)]⟩,
  ⟨tableName, [], .group [(ps "list", 3), (ps "0", 4)]⟩,
  ⟨ps "list", [], .dset (.null "S1")⟩,
  ⟨ps "0", [("base_type", .ref 3)], .dset (.pickleCls .list)⟩,
  ⟨ps "data0", [], .dset (.ref 6)⟩,
  ⟨ps "x", [], .dset (.ref 77)⟩] }

example : DataAt C29.file.store [] 1 ∧ Under C29.file.store 1 6 ∧ Stale C29.file.store 6 ∧
    Ex.raised (loadTop ⟨Ex.env, [], id, 100⟩ C29.file).1 = some .valueError := by
  refine ⟨⟨0, _, rfl, rfl, by decide, by decide⟩, .down (.down .here (.link rfl (x := ps "data0") (m := 5) (by simp))) (.ref rfl rfl rfl), .node rfl rfl rfl rfl, by decide +kernel⟩

/-- the same file without the stale reference is read -/
example : Ex.isOk (loadTop ⟨Ex.env, [], id, 100⟩ { C29.file with store := C29.file.store.set 6 ⟨ps "x", [("type", .ref 4), ("num_items", .int 0)], .group []⟩ }).1 = true := by
  decide +kernel

end Verif
