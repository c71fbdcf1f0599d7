import Verif.Hickle.Depth
import Verif.Props.C01
/-!
# C53 Reading an object back needs no deeper recursion than writing it

`fuel` in the arguments of `dump` and `load` is the number of calls of `_dump` and of `_load` that may nest (one frame each,
hickle.py:77-145, 402-466); beyond it Python raises `RecursionError`.
-/
namespace Verif

variable {P : Nat → Prop}

/-- **C53 (partial).**  If a dump returns that may nest `fuel` calls, and no way through the file from `data` passes more than `r` node
references, then a load returns a copy of the object if it may nest `(r + 1) * fuel` calls.  In particular (`r = 0`), the limit under which
the object was written is enough to read it if no object was stored by reference.
What is missing: the bound without the factor, which is false (`C53_violated`). -/
theorem C53_partial {a : DumpArgs} {s s' : Session} (h : GoodDump P a s s') {r : Nat}
    (hr : ∀ d, s'.store.resolve 0 (a.path ++ [dataName0]) = some d → ∀ k m, Way s'.store d k m → k ≤ r)
    {t : Session} (hs : t.store = s'.store) (hl : t.ldr = false) (hf : t.ref = false) (hreg : RegInv P t.reg)
    {order : List (PyStr × NodeId) → List (PyStr × NodeId)} (hord : ∀ l, (order l).Perm l) {fuel : Nat} (hfuel : (r + 1) * a.fuel ≤ fuel) :
    ∃ L b t', loadTop ⟨a.env, a.path, order, fuel⟩ t = (.ok (L, b), t') ∧ Copy a.heap L b a.obj ∧ t'.store = s'.store := by
  obtain ⟨g, T, d, ls, h1, h2, h3, h4, h5⟩ := dumpTop_deep h.env h.file.reg h.file.tree (fun x o hx => (h.graph.cls x o hx).1) h.opts h.returns hr
  obtain ⟨depth, hload⟩ := h.loads
  obtain ⟨L, b, t', e1, e2, e3⟩ := hload t hs hl hf hreg order hord (max depth fuel) (Nat.le_max_left _ _)
  refine ⟨L, b, t', ?_, e2.1, e3⟩
  rw [← e1]
  rw [← hs] at h1 h2 h5
  exact loadTop_deep hord (Nat.le_max_right _ _) h1 h2 h3 h4 (h5.mono hfuel)

namespace C53

/-- names of nodes as HDF5 compares them -/
def before (x y : PyStr × NodeId) : Bool := decide (x.1 < y.1)

/-- insert behind what comes first -/
def insert (x : PyStr × NodeId) : List (PyStr × NodeId) → List (PyStr × NodeId)
  | [] => [x]
  | y :: l => if before y x then y :: insert x l else x :: y :: l

/-- members in the order of their names, which is the order of HDF5 -/
def byName : List (PyStr × NodeId) → List (PyStr × NodeId)
  | [] => []
  | x :: l => insert x (byName l)

theorem insert_perm (x : PyStr × NodeId) (l : List (PyStr × NodeId)) : (insert x l).Perm (x :: l) := by
  induction l with
  | nil => exact .refl _
  | cons y l ih =>
    simp only [insert]
    split
    · exact (ih.cons y).trans (.swap x y l)
    · exact .refl _

theorem byName_perm (l : List (PyStr × NodeId)) : (byName l).Perm l := by
  induction l with
  | nil => exact .refl _
  | cons x l ih => exact (insert_perm x _).trans (ih.cons x)

/-- `x = ["a"]; r = [x]`, then ten times `x = [x]; r.append(x)` -/
def heap : Heap := [
  ⟨.str, .str (ps "a")⟩,                                              -- 0
  ⟨.list, .seq [0]⟩, ⟨.list, .seq [1]⟩, ⟨.list, .seq [2]⟩, ⟨.list, .seq [3]⟩, ⟨.list, .seq [4]⟩, ⟨.list, .seq [5]⟩,
  ⟨.list, .seq [6]⟩, ⟨.list, .seq [7]⟩, ⟨.list, .seq [8]⟩, ⟨.list, .seq [9]⟩, ⟨.list, .seq [10]⟩,   -- 1 to 11
  ⟨.list, .seq [1, 2, 3, 4, 5, 6, 7, 8, 9, 10, 11]⟩]                  -- 12

def args : DumpArgs := { Ex.args heap 12 with fuel := 3 }

/-- `w` numbers the nodes so that members have no higher number than their group, and the target of a reference has a lower one -/
def weighs (S : Store) (w : NodeId → Nat) : Bool :=
  (List.range S.length).all fun n => match S[n]? with
    | some ⟨_, _, .group ls⟩ => ls.all fun p => decide (w p.2 ≤ w n)
    | some ⟨_, _, .dset (.ref t)⟩ => decide (w t < w n)
    | _ => true

theorem way_of_weighs {S : Store} {w : NodeId → Nat} (h : weighs S w = true) {d : NodeId} {k m} (hw : Way S d k m) : k + w m ≤ w d := by
  simp only [weighs, List.all_eq_true, List.mem_range] at h
  induction hw with
  | here => omega
  | @member k p m ls x _ h1 h2 ih =>
    obtain ⟨⟨nm, at', bd⟩, k1, k2⟩ := Store.links_eq h1
    have := h p (lt_of_getElem? k1)
    simp only at k2
    subst k2
    simp only [k1, List.all_eq_true, decide_eq_true_eq] at this
    have := this _ h2
    simp only at this
    omega
  | @jump k p m nd _ h1 h2 ih =>
    obtain ⟨nm, at', bd⟩ := nd
    have := h p (lt_of_getElem? h1)
    simp only at h2
    subst h2
    simp only [h1, decide_eq_true_eq] at this
    omega

def weight (n : NodeId) : Nat :=
  if n ∈ [0, 1, 2, 3, 4, 7, 21, 23, 24] then 2 else if n ∈ [10, 17, 22, 26, 29, 33, 35, 36] then 1 else 0

theorem weighs_file1 : weighs Ex.file1.store weight = true := by decide +kernel

theorem data_file1 : Ex.file1.store.resolve 0 (Ex.dumpArgs.path ++ [dataName0]) = some 4 := by decide +kernel

end C53

/-- the dump of the examples nests at most 20 calls and has references to objects with references: 60 calls are enough to read it -/
example : ∃ L b t', loadTop ⟨Ex.env, Ex.dumpArgs.path, id, 60⟩ Ex.file1 = (.ok (L, b), t') ∧ Copy Ex.heap L b 11 ∧ t'.store = Ex.file1.store :=
  C53_partial Ex.good (r := 2) (t := Ex.file1) (fun d hd k m hw => by
    rw [C53.data_file1] at hd
    cases hd
    have := C53.way_of_weighs C53.weighs_file1 hw
    simp [C53.weight] at this
    omega) rfl Ex.good.file'.ldr rfl Ex.good.file'.reg (fun _ => .refl _) (by decide)

/-- **C53 is violated.**  Eleven lists in a list, each holding the one before.  `dump` nests three calls: when it gets to a list, the one
inside has its node already.  `load` visits the members by name, `data10` before `data2` to `data9`, and follows the references from each to
the next: it fails if fifteen nested calls are allowed. -/
theorem C53_violated : ∃ (a : DumpArgs) (s s' : Session), GoodDump (fun _ => True) a s s' ∧ a.fuel = 3 ∧
    (loadTop ⟨a.env, a.path, C53.byName, 15⟩ s').1 = .error .valueError := by
  obtain ⟨_, h⟩ := Ex.good_of (H := C53.heap) (obj := 12) (by decide +kernel)
  have hd : dumpTop C53.args Ex.file0 = (.ok (), (dumpTop C53.args Ex.file0).2) := by
    obtain ⟨x, hx⟩ := Ex.eq_of_isOk (r := dumpTop C53.args Ex.file0) (by decide +kernel)
    exact hx
  refine ⟨C53.args, Ex.file0, _, ⟨h.env, h.prot, h.file, h.graph, h.acyclic, h.obj, ⟨h.opts.call, h.opts.stale⟩, hd⟩, rfl, ?_⟩
  exact congrArg Prod.fst (Ex.eq_of_raised (r := loadTop ⟨Ex.env, [], C53.byName, 15⟩ (dumpTop C53.args Ex.file0).2) (by decide +kernel))

end Verif
