import Verif.Props.C09
/-!
# C33 numpy arrays come back with the same shape, dtype and elements

Proved for arrays of numbers of every shape, for arrays of strings without an empty dimension, and for arrays of objects
without an empty dimension whose elements are not sequences and where every innermost row has an element that is not a
number (`ObjArrOk`).  The theorems named `C33_violated` show that each of these restrictions is needed.
-/
namespace Verif

variable {P : Nat → Prop}

/-- **C33, numbers.**  An array or matrix of numbers at the end of any path loads with the same class, dtype, shape and elements.
The shape is any list of naturals: no dimensions, and empty dimensions included. -/
theorem C33_numbers_partial {a : DumpArgs} {s s' : Session} (h : GoodDump P a s s') {π : List Step} {c : Addr} {cl : Cls} {d : DT} {shape : List Nat}
    {data : List NpVal} (hf : follow a.heap a.obj π = some c) (hc : a.heap[c]? = some ⟨cl, .arr d shape data⟩) :
    Loads P a.env s'.store a.path fun L b => ∃ x : Addr, follow L b π = some x ∧ L[x]? = some ⟨cl, .arr d shape data⟩ :=
  h.loads.imp fun _ _ hl => hl.1.exact_nonum hf hc (by cases cl <;> rfl) rfl

/-- **C33, strings.**  An array of strings (dtype `<U w`) loads with the same dtype, shape and strings. -/
theorem C33_strings_partial {a : DumpArgs} {s s' : Session} (h : GoodDump P a s s') {π : List Step} {c : Addr} {cl : Cls} {w : Nat} {shape : List Nat}
    {ss : List PyStr} (hf : follow a.heap a.obj π = some c) (hc : a.heap[c]? = some ⟨cl, .sarr w shape ss⟩) :
    Loads P a.env s'.store a.path fun L b => ∃ x : Addr, follow L b π = some x ∧ L[x]? = some ⟨cl, .sarr w shape ss⟩ :=
  h.loads.imp fun _ _ hl => hl.1.exact_nonum hf hc (by cases cl <;> rfl) rfl

/-- **C33, objects.**  An array of objects loads as an array of objects of the same shape; the element at each position is a copy
of the element that was there. -/
theorem C33_objects_partial {a : DumpArgs} {s s' : Session} (h : GoodDump P a s s') {π : List Step} {c : Addr} {cl : Cls} {shape : List Nat}
    {items : List Addr} (hf : follow a.heap a.obj π = some c) (hc : a.heap[c]? = some ⟨cl, .oarr shape items⟩) :
    Loads P a.env s'.store a.path fun L b => ∃ (x : Addr) (xs : List Addr), follow L b π = some x ∧ L[x]? = some ⟨cl, .oarr shape xs⟩ ∧
      xs.length = items.length ∧ ∀ (i : Nat) (d : Addr), items[i]? = some d → ∃ y : Addr, xs[i]? = some y ∧ Copy a.heap L y d := by
  refine h.loads.imp fun L b hl => ?_
  obtain ⟨⟨R, N, Q, hl⟩, _⟩ := hl
  rcases hl.follow π (.inl hl.1) with ⟨_, h2⟩ | ⟨x, z, h1, h2, h3⟩
  · rw [hf] at h2; simp at h2
  · rw [hf] at h2; simp at h2; subst h2
    have hR := hl.shared hc rfl h3
    obtain ⟨⟨cl0, val⟩, ⟨cl', val'⟩, e1, e2, e3, e4⟩ := hl.2.1 x c hR
    rw [hc] at e1; simp at e1; obtain ⟨rfl, rfl⟩ := e1
    simp only at e3 e4
    subst e3
    cases e4 with
    | atom ha => simp [Val.isAtom] at ha
    | @oarr _ xs _ hi =>
      refine ⟨x, xs, h1, e2, hi.length, fun i d hd => ?_⟩
      rcases hi.get i with ⟨_, g2⟩ | ⟨y, z, g1, g2, g3⟩
      · rw [hd] at g2; simp at g2
      · rw [hd] at g2; simp at g2; subst g2
        exact ⟨y, g1, R, N, Q, g3, hl.2⟩

/-- arrays of numbers with an empty dimension and without dimensions; arrays of strings, also without dimensions; an array of objects with
2 × 2 elements, one of which is a dict that contains another array; all of them in a list -/
def C33.heap : Heap := [
  ⟨.ndarray, .arr .float64 [2, 0, 3] []⟩, ⟨.ndarray, .arr .int64 [] [.i 7]⟩, ⟨.matrix, .arr .bool [1, 2] [.b true, .b false]⟩,
  ⟨.ndarray, .sarr 3 [2, 1] [ps "abc", ps ""]⟩, ⟨.ndarray, .sarr 1 [] [ps "x"]⟩,
  ⟨.str, .str (ps "k")⟩, ⟨.int, .int 5⟩, ⟨.noneType, .none⟩, ⟨.dict, .dict [(5, 0)]⟩,
  ⟨.ndarray, .oarr [2, 2] [6, 7, 8, 6]⟩, ⟨.ndarray, .oarr [] [7]⟩,
  ⟨.list, .seq [0, 1, 2, 3, 4, 9, 10]⟩]

example : ∃ s', GoodDump (fun _ => True) (Ex.args C33.heap 11) Ex.file0 s' ∧
    (Loads (fun _ => True) Ex.env s'.store [] fun L b => ∃ x : Addr, follow L b [.item 0] = some x ∧ L[x]? = some ⟨.ndarray, .arr .float64 [2, 0, 3] []⟩) ∧
    (Loads (fun _ => True) Ex.env s'.store [] fun L b => ∃ x : Addr, follow L b [.item 3] = some x ∧ L[x]? = some ⟨.ndarray, .sarr 3 [2, 1] [ps "abc", ps ""]⟩) ∧
    Loads (fun _ => True) Ex.env s'.store [] fun L b => ∃ (x : Addr) (xs : List Addr), follow L b [.item 5] = some x ∧ L[x]? = some ⟨.ndarray, .oarr [2, 2] xs⟩ ∧
      xs.length = 4 ∧ ∃ y : Addr, xs[2]? = some y ∧ Copy C33.heap L y 8 := by
  obtain ⟨s', h⟩ := Ex.good_of (H := C33.heap) (obj := 11) (by decide +kernel)
  refine ⟨s', h, C33_numbers_partial h rfl rfl, C33_strings_partial h rfl rfl, (C33_objects_partial h (π := [.item 5]) rfl rfl).imp ?_⟩
  rintro L b ⟨x, xs, h1, h2, h3, h4⟩
  exact ⟨x, xs, h1, h2, h3, h4 2 8 rfl⟩

/-! ### what is lost -/

/-- **C33 is violated by empty arrays of strings.**  `np.array([], dtype='<U1')`: dump returns, load raises `ValueError`. -/
theorem C33_violated_no_strings : Ex.isOk (dumpTop (Ex.args [⟨.ndarray, .sarr 1 [0] []⟩] 0) Ex.file0).1 = true ∧
    Ex.raised (loadTop ⟨Ex.env, [], id, 100⟩ (dumpTop (Ex.args [⟨.ndarray, .sarr 1 [0] []⟩] 0) Ex.file0).2).1 = some .valueError := by decide +kernel

/-- the class and value of the loaded object -/
def C33.result (H : Heap) (obj : Addr) : Option Obj := (Ex.roundTrip Ex.env H obj).bind fun r => r.1[r.2]?

/-- **C33 is violated by arrays of strings with an empty dimension** that is not the last: 2 × 0 × 3 becomes 2 × 0. -/
theorem C33_violated_shape : C33.result [⟨.ndarray, .sarr 1 [2, 0, 3] []⟩] 0 = some ⟨.ndarray, .sarr 1 [2, 0] []⟩ := by decide +kernel

/-- **C33 is violated by arrays of lists.**  An array of two lists of two strings each becomes a 2 × 2 array of strings
(the model's `0` is the empty tuple that a load starts with). -/
theorem C33_violated_lists :
    C33.result [⟨.str, .str (ps "a")⟩, ⟨.list, .seq [0, 0]⟩, ⟨.list, .seq [0, 0]⟩, ⟨.ndarray, .oarr [2] [1, 2]⟩] 3 =
      some ⟨.ndarray, .oarr [2, 2] [1, 1, 1, 1]⟩ := by decide +kernel

/-- lists of different lengths stay elements, also when their own items are lists of one length -/
theorem C33_ragged :
    (C33.result [⟨.str, .str (ps "a")⟩, ⟨.list, .seq [0, 0]⟩, ⟨.list, .seq [1]⟩, ⟨.list, .seq [1, 1]⟩, ⟨.ndarray, .oarr [2] [2, 3]⟩] 4).map
      (fun o => match o.val with | .oarr sh items => (sh, items.length) | _ => ([], 0)) = some ([2], 2) := by decide +kernel

/-- **C33 is violated by arrays without dimensions that hold a list**: they become arrays of its items. -/
theorem C33_violated_boxed_list :
    C33.result [⟨.str, .str (ps "a")⟩, ⟨.list, .seq [0, 0]⟩, ⟨.ndarray, .oarr [] [1]⟩] 2 = some ⟨.ndarray, .oarr [2] [1, 1]⟩ := by decide +kernel

/-- the values of the elements of the loaded array -/
def C33.elements (H : Heap) (obj : Addr) : Option (List (Option Obj)) :=
  (Ex.roundTrip Ex.env H obj).bind fun r => r.1[r.2]?.bind fun o => match o.val with
    | .oarr _ items => some (items.map fun i => r.1[i]?)
    | _ => none

/-- **C33 is violated by arrays of objects that are all numbers.**  `[1, 1.5]` of dtype `object`: the int comes back as a float. -/
theorem C33_violated_mixed_numbers :
    C33.elements [⟨.int, .int 1⟩, ⟨.float, .float (.fin false 3 (-1))⟩, ⟨.ndarray, .oarr [2] [0, 1]⟩] 2 =
      some [some ⟨.float, .float (.fin false 1 0)⟩, some ⟨.float, .float (.fin false 3 (-1))⟩] := by decide +kernel

/-- a numpy scalar in such an array comes back as a Python number -/
theorem C33_violated_scalar : C33.elements [⟨.npInt64, .np (.i 1)⟩, ⟨.ndarray, .oarr [1] [0]⟩] 1 = some [some ⟨.int, .int 1⟩] := by decide +kernel

/-- and with two dimensions Python numbers come back as numpy scalars -/
theorem C33_violated_rows : C33.elements [⟨.int, .int 1⟩, ⟨.ndarray, .oarr [1, 1] [0]⟩] 1 = some [some ⟨.npInt64, .np (.i 1)⟩] := by decide +kernel

end Verif
