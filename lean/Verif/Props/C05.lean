import Verif.Props.Values
/-!
# C05 Integers of every size survive
-/
namespace Verif

variable {P : Nat → Prop}

/-- **C05.**  Every `int`, of any size and sign, that is the dumped object itself or is stored as an item of
its own (`Kept`: not in a sequence of numbers only) loads as the same `int`, along every path. -/
theorem C05_integers {a : DumpArgs} {s s' : Session} (h : GoodDump P a s s') {π : List Step} {c : Addr} {i : Int}
    (hf : follow a.heap a.obj π = some c) (hk : Kept a.heap a.obj π) (hc : a.heap[c]? = some ⟨.int, .int i⟩) :
    Loads P a.env s'.store a.path fun L b => ∃ x : Addr, follow L b π = some x ∧ L[x]? = some ⟨.int, .int i⟩ :=
  h.loads.imp fun _ _ hl => hl.1.exact hf hk hc rfl

/-- the same for elements of a set that does not consist of numbers only -/
theorem C05_in_sets {a : DumpArgs} {s s' : Session} (h : GoodDump P a s s') {π : List Step} {c : Addr} {cl : Cls} {as : List Addr}
    (hf : follow a.heap a.obj π = some c) (hc : a.heap[c]? = some ⟨cl, .set as⟩) {e e' : Addr} {i : Int} (he : e ∈ as)
    (hi : a.heap[e]? = some ⟨.int, .int i⟩) (he' : e' ∈ as) (hn : numDt a.heap e' = none) :
    Loads P a.env s'.store a.path fun L b => ∃ (x : Addr) (xs : List Addr), follow L b π = some x ∧ L[x]? = some ⟨cl, .set xs⟩ ∧
      ∃ y ∈ xs, L[y]? = some ⟨.int, .int i⟩ := by
  refine h.loads.imp fun L b hl => ?_
  obtain ⟨x, xs, h1, h2, _, h3, _⟩ := hl.1.set hf hc
  exact ⟨x, xs, h1, h2, h3 e he _ hi rfl (.inr ⟨e', he', hn⟩)⟩

/-- boundary values in a list with None: ±2^63, ±(2^63 − 1), a 200 bit number -/
def C05.heap : Heap := [
  ⟨.noneType, .none⟩, ⟨.int, .int (2 ^ 63)⟩, ⟨.int, .int (-2 ^ 63)⟩, ⟨.int, .int (2 ^ 63 - 1)⟩, ⟨.int, .int (-2 ^ 63 + 1)⟩,
  ⟨.int, .int (-2 ^ 200 - 1)⟩, ⟨.list, .seq [0, 1, 2, 3, 4, 5]⟩]

example : ∃ s', GoodDump (fun _ => True) (Ex.args C05.heap 6) Ex.file0 s' ∧
    Loads (fun _ => True) Ex.env s'.store [] fun L b => ∃ x : Addr, follow L b [.item 5] = some x ∧ L[x]? = some ⟨.int, .int (-2 ^ 200 - 1)⟩ := by
  obtain ⟨s', h⟩ := Ex.good_of (H := C05.heap) (obj := 6) (by decide +kernel)
  refine ⟨s', h, C05_integers h (c := 5) (by decide +kernel) ?_ rfl⟩
  intro π0 st hπ c o h1 h2
  obtain ⟨rfl, rfl⟩ : π0 = [] ∧ st = .item 5 := by
    rcases π0 with _ | ⟨t, _ | ⟨u, π0⟩⟩ <;> simp_all
  simp [follow] at h1; subst h1
  simp [C05.heap] at h2; subst h2
  exact ⟨0, by simp, rfl⟩

end Verif
