import Verif.Props.C29
/-!
# C21 load fails only with ValueError once the file is open, and never returns a half-built object
-/
namespace Verif

/-- **C21, errors.**  Whatever is in the file, a load that does not return raises `ValueError`.  (`unmodelled` marks situations the
model leaves out, no exception.) -/
theorem C21_errors (a : LoadArgs) (s : Session) {e : PyErr} (h : (loadTop a s).1 = .error e) : e = .valueError ∨ e = .unmodelled := by
  unfold loadTop at h
  rw [M.bind_of_ok (M.attempt_apply _ _)] at h
  cases hx : (loadTry a s).1 with
  | ok r => rw [hx] at h; simp at h
  | error e' =>
    rw [hx] at h
    simp at h
    subst h
    cases e' <;> simp [wrapLoad]

/-- **C21, completeness.**  Whatever is in the file: if load returns, every node below the data of the group, also behind
references, could be read by itself, and the nodes form no cycle.  So one node that can not be read, at whatever depth, makes load
raise. -/
theorem C21_complete (a : LoadArgs) (s : Session) (hord : ∀ l, (a.order l).Perm l) {d : NodeId} (hd : DataAt s.store a.path d)
    {r : Heap × Addr} {s' : Session} (h : loadTop a s = (.ok r, s')) :
    ∃ mgr, ∀ n, Under s.store d n → ¬ Inside s.store n n ∧
      ∃ fuel cont name t r' t', CacheSound s.store t ∧ Assoc.get? t.memo n = none ∧ loadNode ⟨a.env, mgr, s.store, a.order⟩ fuel cont name n t = (.ok r', t') := by
  obtain ⟨mgr, hr⟩ := loadTop_read hord h hd
  refine ⟨mgr, fun n hn => ⟨?_, ?_⟩⟩
  · have hacc := (hr.of_under hn).acc
    simp only at hacc
    intro hin
    have key : ∀ x, Acc (fun m n => Leads s.store n m) x → ∀ y, Under s.store x y → ¬ Inside s.store y y := by
      intro x hx
      induction hx with
      | intro x _ ih =>
        intro y hu hin
        have hfirst : ∀ {n m : NodeId}, Inside s.store n m → ∃ k, Leads s.store n k ∧ Under s.store k m := by
          intro n m h
          induction h with
          | single h => exact ⟨_, h, .here⟩
          | tail _ hl ih =>
            obtain ⟨k, h1, h2⟩ := ih
            exact ⟨k, h1, .down h2 hl⟩
        have hstep : ∃ k, Leads s.store x k ∧ Under s.store k y := by
          rcases (show y = x ∨ Inside s.store x y by
            clear hin
            induction hu with
            | here => exact .inl rfl
            | down _ hl ih =>
              rcases ih with rfl | ih
              · exact .inr (.single hl)
              · exact .inr (.tail ih hl)) with rfl | hi
          · exact hfirst hin
          · exact hfirst hi
        obtain ⟨k, h1, h2⟩ := hstep
        exact ih k h1 y h2 hin
    exact key n hacc n .here hin
  · have := (hr.of_under hn).notRefused
    unfold Refused at this
    simp only [Classical.not_forall] at this
    obtain ⟨fuel, cont, name, t, h1, h2, r', t', h3⟩ := this
    exact ⟨fuel, cont, name, t, r', t', h1, h2, Classical.not_not.1 h3⟩

/-- a list of two items; the second is a group without a type, which can not be read: load raises, although the first can be read -/
def C21.file (second : Node) : Session := { Ex.file0 with store := [
  ⟨[], [("HICKLE_VERSION", .bytes "5.0.3"), ("HICKLE_PYTHON_VERSION", .bytes "3.8.10")], .group [(dataName0, 1), (tableName, 2)]⟩,
  ⟨dataName0, [("type", .ref 4), ("num_items", .int 2)], .group [(ps "data0", 5), (ps "data1", 6)]⟩,
  ⟨tableName, [], .group [(ps "list", 3), (ps "0", 4)]⟩,
  ⟨ps "list", [], .dset (.null "S1")⟩,
  ⟨ps "0", [("base_type", .ref 3)], .dset (.pickleCls .list)⟩,
  ⟨ps "data0", [("type", .ref 4), ("num_items", .int 0)], .group []⟩,
  second] }

example : DataAt (C21.file ⟨ps "data1", [], .group []⟩).store [] 1 ∧
    Ex.raised (loadTop ⟨Ex.env, [], id, 100⟩ (C21.file ⟨ps "data1", [], .group []⟩)).1 = some .valueError ∧
    Ex.isOk (loadTop ⟨Ex.env, [], id, 100⟩ (C21.file ⟨ps "data1", [("type", .ref 4), ("num_items", .int 0)], .group []⟩)).1 = true :=
  ⟨⟨0, _, rfl, rfl, by decide, by decide⟩, by decide +kernel, by decide +kernel⟩

end Verif
