import Verif.Props.Values
/-!
# C09 Sequences keep their order and length
-/
namespace Verif

variable {P : Nat → Prop}

/-- `y` (of the loaded objects `L`) is what became of part `c` of the dumped object: a copy, or for numbers
a numpy scalar of the same value -/
def PartCopy (H L : Heap) (y c : Addr) : Prop :=
  Copy H L y c ∨ ∃ d o o', H[c]? = some o ∧ L[y]? = some o' ∧ SameNum d o o'

theorem CopyBy.partR {H L : Heap} {R N Q b a} (h : CopyBy H L R N Q b a) {x c : Addr} (hx : R x c) : PartCopy H L x c :=
  .inl ⟨R, N, Q, hx, h.2⟩

theorem CopyBy.partN {H L : Heap} {R N Q b a} (h : CopyBy H L R N Q b a) {x c : Addr} {d} (hx : N d x c) : PartCopy H L x c := by
  obtain ⟨o, o', e⟩ := h.2.2.1 d x c hx
  exact .inr ⟨d, o, o', e⟩

/-- **C09.**  A list or tuple at the end of any path loads as a sequence of the same class and length whose `i`-th
item is what became of the `i`-th item. -/
theorem C09_order {a : DumpArgs} {s s' : Session} (h : GoodDump P a s s') {π : List Step} {c : Addr} {cl : Cls} {as : List Addr}
    (hf : follow a.heap a.obj π = some c) (hc : a.heap[c]? = some ⟨cl, .seq as⟩) :
    Loads P a.env s'.store a.path fun L b => ∃ (x : Addr) (xs : List Addr), follow L b π = some x ∧ L[x]? = some ⟨cl, .seq xs⟩ ∧
      xs.length = as.length ∧ ∀ (i : Nat) (d : Addr), as[i]? = some d → ∃ y : Addr, xs[i]? = some y ∧ PartCopy a.heap L y d := by
  refine h.loads.imp fun L b hl => ?_
  obtain ⟨⟨R, N, Q, hl⟩, _⟩ := hl
  rcases hl.follow π (.inl hl.1) with ⟨_, h2⟩ | ⟨x, z, h1, h2, h3⟩
  · rw [hf] at h2; simp at h2
  · rw [hf] at h2; simp at h2; subst h2
    have hR := hl.shared hc rfl h3
    obtain ⟨⟨cl0, val⟩, ⟨cl', val'⟩, e1, e2, e3, e4⟩ := hl.2.1 x c hR
    rw [hc] at e1; simp at e1; obtain ⟨rfl, rfl⟩ := e1
    simp only at e3 e4
    subst e3
    cases e4 with
    | atom ha => simp [Val.isAtom] at ha
    | @seq xs _ hi =>
      refine ⟨x, xs, h1, e2, ?_, fun i d hd => ?_⟩
      · rcases hi with ⟨hi, _⟩ | ⟨d, _, hi⟩ <;> exact hi.length
      · rcases hi with ⟨hi, _⟩ | ⟨d', _, hi⟩
        · rcases hi.get i with ⟨_, g2⟩ | ⟨y, z, g1, g2, g3⟩
          · rw [hd] at g2; simp at g2
          · rw [hd] at g2; simp at g2; subst g2
            exact ⟨y, g1, hl.partR g3⟩
        · rcases hi.get i with ⟨_, g2⟩ | ⟨y, z, g1, g2, g3⟩
          · rw [hd] at g2; simp at g2
          · rw [hd] at g2; simp at g2; subst g2
            exact ⟨y, g1, hl.partN g3⟩

/-- a list of twelve strings: the indices have one and two digits -/
def C09.heap : Heap := [⟨.str, .str (ps "a")⟩, ⟨.str, .str (ps "b")⟩, ⟨.list, .seq [0, 1, 0, 0, 1, 1, 0, 1, 1, 0, 1, 0]⟩]

example : ∃ s', GoodDump (fun _ => True) (Ex.args C09.heap 2) Ex.file0 s' ∧
    Loads (fun _ => True) Ex.env s'.store [] fun L b => ∃ (x : Addr) (xs : List Addr), follow L b [] = some x ∧ L[x]? = some ⟨.list, .seq xs⟩ ∧ xs.length = 12 ∧
      ∃ y : Addr, xs[10]? = some y ∧ PartCopy C09.heap L y 1 := by
  obtain ⟨s', h⟩ := Ex.good_of (H := C09.heap) (obj := 2) (by decide +kernel)
  refine ⟨s', h, (C09_order h (π := []) rfl rfl).imp ?_⟩
  rintro L b ⟨x, xs, h1, h2, h3, h4⟩
  exact ⟨x, xs, h1, h2, h3, h4 10 1 rfl⟩

end Verif
