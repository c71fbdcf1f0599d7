import Verif.Hickle.Memory
import Verif.Props.Examples
/-!
# C35 Temporary objects never alias
-/
namespace Verif

/-- The addresses of the objects of the program: one each, all different. -/
structure Situated (H : Heap) (ids : List Nat) : Prop where
  len : ids.length = H.length
  inj : ids.Nodup

/-- **C35.**  Whatever address the memory manager gives to the objects made while dumping, as long as it is not the address of an object
in use, and wherever the objects of the program are: dump has the same outcome and leaves the same file as if every object had an
identity of its own that no other object ever gets.  The memory manager may look at the whole state to choose, so it may give away an address
again as soon as its object has been released. -/
theorem C35_no_alias {alloc : AState → Nat} (hfresh : AState.Fresh alloc) {a : DumpArgs} {ids : List Nat} (hids : Situated a.heap ids)
    (hw : ∀ (x : Addr) (o : Obj), a.heap[x]? = some o → ∀ b ∈ o.val.children, b < a.heap.length) (ho : a.obj < a.heap.length) (s : Session) :
    dumpTopP alloc true ids a s = dumpTop a s := by
  have : ∀ g mgr m, dumpDataP alloc true ids a g mgr m = dumpData a g mgr m := by
    intro g mgr m
    funext s
    unfold dumpDataP dumpData
    cases m.table with
    | none => rfl
    | some T =>
      have h0 : AState.Ok a.heap { d := { heap := a.heap, store := s.store, tlinks := m.tl, blinks := m.bl, reg := s.reg }, addr := ids } := by
        refine ⟨List.prefix_rfl, fun _ _ => by simp, fun _ => by simp, hids.len, ?_, by simp⟩
        intro x y z _ _ h1 h2
        exact (List.getElem?_inj (lt_of_getElem? h1) hids.inj).1 (h1.trans h2.symm)
      have h1 := dumpNodeP_sim (c := ⟨a.env, mgr, a.kw, T⟩) hfresh hw a.fuel a.obj g dataName0 [] _ 0 h0 (.old ho)
      have h2 := h1.out
      have h3 := h1.state
      simp only [AState.erase, List.map_nil] at h2 h3
      simp only []
      rw [h2, ← h3]
  unfold dumpTopP dumpTop
  simp only [this]

/-- **C35, the lookup.**  In every state such a dump can be in, an entry found in the memo under the address of an object in use is
the entry of that very object. -/
theorem C35_lookup {N : Heap} {s : AState} (h : s.Ok N) {a : Addr} (ha : s.Live a) {id : Nat} (hid : s.addr[a]? = some id) {e} (he : Assoc.get? s.memo id = some e) :
    e.2 = a := by
  obtain ⟨h1, h2⟩ := h.memo _ (Assoc.get?_mem he)
  exact h.inj _ _ id h1 ha h2 hid

/-! ### a memory manager that uses addresses again -/

namespace C35

/-- addresses in use -/
def inUse (s : AState) : List Nat := ((List.range s.d.heap.length).filter fun a => !s.dead.contains a).filterMap fun a => s.addr[a]?

/-- the address behind the last one in use -/
def next (s : AState) : Nat := (inUse s).foldr (fun x y => max (x + 1) y) 0

theorem lt_next {l : List Nat} {x : Nat} (h : x ∈ l) : x < l.foldr (fun x y => max (x + 1) y) 0 := by
  induction l with
  | nil => simp at h
  | cons y l ih =>
    simp only [List.foldr_cons]
    rcases List.mem_cons.1 h with rfl | h
    · omega
    · have := ih h; omega

theorem next_fresh : AState.Fresh next := by
  intro s a ha he
  have : next s ∈ inUse s := by
    unfold inUse
    rw [List.mem_filterMap]
    refine ⟨a, ?_, he⟩
    rw [List.mem_filter]
    exact ⟨List.mem_range.2 ha.1, by simpa using ha.2⟩
  exact absurd (lt_next this) (by unfold next; omega)

/-- `{("a", None): "x", ("b", None): "y"}`: two entries that are stored as tuples -/
def heap : Heap := [⟨.str, .str (ps "a")⟩, ⟨.str, .str (ps "b")⟩, ⟨.noneType, .none⟩, ⟨.tuple, .seq [0, 2]⟩, ⟨.tuple, .seq [1, 2]⟩,
  ⟨.str, .str (ps "x")⟩, ⟨.str, .str (ps "y")⟩, ⟨.dict, .dict [(3, 5), (4, 6)]⟩]

def ids : List Nat := [10, 11, 12, 13, 14, 15, 16, 17]

/-- the nodes of the two entries of the dict in the file of a session -/
def entries (s : Session) : Option (List Body) :=
  (s.store.resolve 0 [ps "data"]).bind fun d => (s.store.links d).map fun ls => ls.filterMap fun l => s.store[l.2]?.map Node.body

/-- is it a group, is it a reference? -/
def kind : Body → Option Bool
  | .group _ => some true
  | .dset (.ref _) => some false
  | _ => none

end C35

/-- the hypotheses of `C35_no_alias` are met; both entries are stored -/
example : dumpTopP C35.next true C35.ids (Ex.args C35.heap 7) Ex.file0 = dumpTop (Ex.args C35.heap 7) Ex.file0 :=
  C35_no_alias C35.next_fresh ⟨by decide, by decide⟩ (fun x o h => by
    have hn : ∀ o ∈ C35.heap, ∀ b ∈ o.val.children, b < C35.heap.length := by decide
    exact hn o (List.mem_of_getElem? h)) (by decide) _

example : (C35.entries (dumpTopP C35.next true C35.ids (Ex.args C35.heap 7) Ex.file0).2).map (·.map C35.kind) = some [some true, some true] := by decide +kernel

/-- Without the memo keeping objects (hickle.py:140 stores the object next to its node) the second tuple gets the address of the
first and is stored as a reference to it: the statement tells the two programs apart. -/
example : (C35.entries (dumpTopP C35.next false C35.ids (Ex.args C35.heap 7) Ex.file0).2).map (·.map C35.kind) = some [some true, some false] := by
  decide +kernel

end Verif
