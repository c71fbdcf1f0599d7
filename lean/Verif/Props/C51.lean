import Verif.Hickle.NpTypes

/-!
# C51: numpy dtypes, and arrays of every dtype, come back as they were

Numbers of every size and byte order, bytes and void of every length, strings, objects, times of
every unit: the dtype comes back (`C51_dtype_partial`), arrays of the dtypes HDF5 knows come back
with dtype, shape and every bit of their items (`C51_array_partial`), and so do numbers alone
(`C51_scalar`). Structured dtypes and subarrays do not: they come back as bytes without fields
(`C51_violated_dtype`, `C51_violated_array`). Arrays of times are refused (`C51_refused`).
-/

namespace Verif.Np

/-- a dtype without inner structure -/
def Plain : Dtype → Prop
  | .struct _ _ => False
  | .sub _ _ => False
  | _ => True

/-- numbers, bytes and void data of at least one byte -/
def Flat : Dtype → Prop
  | .num _ _ _ => True
  | .bytes n => n ≠ 0
  | .void n => n ≠ 0
  | _ => False

theorem Flat.plain {d : Dtype} (h : Flat d) : Plain d := by cases d <;> first | trivial | exact h

theorem Flat.inH5 {d : Dtype} (h : Flat d) : d.inH5 = true := by
  cases d with
  | num => rfl
  | bytes n => exact decide_eq_true (Nat.pos_of_ne_zero h)
  | void n => exact decide_eq_true (Nat.pos_of_ne_zero h)
  | text | object | time | struct | sub => exact absurd h id

/-! ### reading what `dtype.str` writes -/

theorem digits_cons (n : Nat) : ∃ c t, digits n = c :: t ∧ isDigit c = true := by
  cases h : digits n with
  | nil => exact absurd h (digits_ne_nil n)
  | cons c t => exact ⟨c, t, rfl, digits_isDigit n c (by rw [h]; exact List.mem_cons_self ..)⟩

theorem takeWhile_append_of_all {l r : PyStr} (hl : ∀ c ∈ l, isDigit c = true)
    (hr : r.head?.all (fun c => !isDigit c) = true) : splitNum (l ++ r) = (l, r) := by
  unfold splitNum
  induction l with
  | nil =>
    cases r with
    | nil => rfl
    | cons c t =>
      have : isDigit c = false := by simpa using hr
      simp [this]
  | cons c t ih =>
    have hc := hl c (List.mem_cons_self ..)
    have ih := ih fun x hx => hl x (List.mem_cons_of_mem _ hx)
    simp only [Prod.mk.injEq] at ih
    simp [hc, ih]

theorem unitOf_str (u : TimeUnit) : unitOf u.str = some u := by cases u <;> rfl

theorem unit_head (u : TimeUnit) : u.str.head?.all (fun c => !isDigit c) = true := by
  cases u <;> decide

theorem readUnit_unitStr (u : Option (Nat × TimeUnit)) (h : ∀ n v, u = some (n, v) → 0 < n) :
    readUnit (unitStr u) = some u := by
  cases u with
  | none => rfl
  | some p =>
    obtain ⟨n, v⟩ := p
    have hn := h n v rfl
    have hlast : ∀ x : PyStr, (x ++ [93]).getLast? = some 93 := by intro x; simp
    have hdrop : ∀ x : PyStr, (x ++ [93]).dropLast = x := by intro x; simp
    unfold unitStr
    simp only [List.cons_append, List.nil_append]
    unfold readUnit
    simp only [hlast, hdrop, if_true]
    by_cases h1 : n = 1
    · subst h1
      have := takeWhile_append_of_all (l := []) (r := v.str) (by simp) (unit_head v)
      simp only [List.nil_append] at this
      simp only [if_true, List.nil_append, this, unitOf_str]
      rfl
    · have := takeWhile_append_of_all (l := digits n) (r := v.str) (digits_isDigit n) (unit_head v)
      have h0 : n ≠ 0 := by omega
      simp only [if_neg h1, this, unitOf_str, if_neg (digits_ne_nil n), parseNat_digits, if_neg h0]

theorem splitOrder_order (big : Bool) (t : PyStr) : splitOrder (orderChar big :: t) = (big, t) := by
  cases big <;> rfl

/-- a kind that is not the `M` or `m` of times, and a number -/
theorem ofStr_kind {s : PyStr} {big : Bool} {c n : Nat} (h : splitOrder s = (big, c :: digits n))
    (h1 : c ≠ 77) (h2 : c ≠ 109) : ofStr s = readKind c n big := by
  obtain ⟨x, t, hx, _⟩ := digits_cons n
  unfold ofStr
  rw [h, hx]
  have hp := parseNat_digits n
  rw [hx] at hp
  split
  · rename_i heq; simp only [Prod.mk.injEq, List.cons.injEq] at heq; omega
  · rename_i heq; simp only [Prod.mk.injEq, List.cons.injEq] at heq; omega
  · rename_i heq; simp at heq
  · rename_i heq
    simp only [Prod.mk.injEq, List.cons.injEq] at heq
    obtain ⟨rfl, rfl, rfl⟩ := heq
    rw [hp]; rfl
  · rename_i heq; simp at heq

theorem ofStr_void (n : Nat) : ofStr (124 :: 86 :: digits n) = some (.void n) := by
  rw [ofStr_kind (big := false) (c := 86) (n := n) rfl (by decide) (by decide)]
  rfl

theorem ofStr_str (d : Dtype) (hr : d.Real) (hp : Plain d) : ofStr d.str = some d := by
  cases d with
  | num k size big =>
    obtain ⟨hs, hb⟩ := hr
    have hk : kindOf k.char = some k := by cases k <;> rfl
    have hc : k.char ≠ 77 ∧ k.char ≠ 109 ∧ k.char ≠ 83 ∧ k.char ≠ 85 ∧ k.char ≠ 86 := by
      cases k <;> decide
    simp only [Dtype.str]
    by_cases h1 : size = 1
    · have := hb h1
      subst h1; subst this
      rw [if_pos rfl, ofStr_kind (big := false) (c := k.char) (n := 1) rfl hc.1 hc.2.1]
      simp [readKind, hk, hs, hc.2.2.1, hc.2.2.2.1, hc.2.2.2.2]
    · rw [if_neg h1, ofStr_kind (splitOrder_order big _) hc.1 hc.2.1]
      simp [readKind, hk, hs, hc.2.2.1, hc.2.2.2.1, hc.2.2.2.2, h1]
  | bytes n =>
    simp only [Dtype.str]
    rw [ofStr_kind (big := false) (c := 83) (n := n) rfl (by decide) (by decide)]; rfl
  | text n big =>
    simp only [Dtype.str]
    rw [ofStr_kind (splitOrder_order big _) (by decide) (by decide)]; rfl
  | void n => exact ofStr_void n
  | object => rfl
  | time delta u big =>
    have hu : readUnit (unitStr u) = some u := readUnit_unitStr u (by
      intro n v h; subst h; exact hr)
    simp only [Dtype.str]
    unfold ofStr
    rw [splitOrder_order]
    cases delta <;> simp [hu]
  | struct _ _ => exact absurd hp id
  | sub _ _ => exact absurd hp id

/-! ### the names of dtypes -/

theorem prefix_mem {p s : PyStr} (h : p.isPrefixOf s = true) {c : Nat} (hc : c ∈ p) : c ∈ s := by
  rw [List.isPrefixOf_iff_prefix] at h
  exact h.subset hc

theorem within_mem {p s : PyStr} (h : within p s = true) {c : Nat} (hc : c ∈ p) : c ∈ s := by
  induction s with
  | nil =>
    have : p = [] := by simpa [within] using h
    rw [this] at hc; exact absurd hc (by simp)
  | cons x t ih =>
    simp only [within, Bool.or_eq_true] at h
    cases h with
    | inl h => exact prefix_mem h hc
    | inr h => exact List.mem_cons_of_mem _ (ih h)

theorem digits_no {n c : Nat} (h : isDigit c = false) : c ∉ digits n := by
  intro hm; have := digits_isDigit n c hm; rw [h] at this; exact absurd this (by decide)

theorem bits_no {n c : Nat} (h : isDigit c = false) : c ∉ bits n := by
  unfold bits; split
  · simp
  · exact digits_no h

theorem unitStr_no_r (u : Option (Nat × TimeUnit)) : 114 ∉ unitStr u := by
  cases u with
  | none => simp [unitStr]
  | some p =>
    obtain ⟨n, v⟩ := p
    have h : 114 ∉ digits n := digits_no (by decide)
    have hv : 114 ∉ v.str := by cases v <;> decide
    simp [unitStr, h, hv]

/-- only the names of string dtypes have the word `str` in them -/
theorem name_str (d : Dtype) (h : within strWord d.name = true) : ∃ n big, d = .text n big := by
  have hm : 114 ∈ d.name := within_mem h (c := 114) (by decide)
  cases d with
  | text n big => exact ⟨n, big, rfl⟩
  | num k size big =>
    have hd : 114 ∉ digits (8 * size) := digits_no (by decide)
    cases k <;> simp [Dtype.name, Kind.name, hd] at hm
  | bytes n => simp [Dtype.name, bits_no (n := n) (c := 114) (by decide)] at hm
  | void n => simp [Dtype.name, bits_no (n := n) (c := 114) (by decide)] at hm
  | object => simp [Dtype.name] at hm
  | time delta u big => cases delta <;> simp [Dtype.name, unitStr_no_r u] at hm
  | struct f n => simp [Dtype.name, bits_no (n := n) (c := 114) (by decide)] at hm
  | sub b s =>
    simp [Dtype.name, bits_no (n := b.itemsize * count s) (c := 114) (by decide)] at hm

/-- only one dtype has the name `object` -/
theorem name_object (d : Dtype) (h : d.name = objectWord) : d = .object := by
  have hm : 98 ∈ d.name ∧ 106 ∈ d.name := by rw [h]; decide
  cases d with
  | object => rfl
  | num k size big =>
    have hd : 106 ∉ digits (8 * size) := digits_no (by decide)
    cases k <;> simp [Dtype.name, Kind.name, hd] at hm
  | bytes n => simp [Dtype.name, bits_no (n := n) (c := 106) (by decide)] at hm
  | text n _ => simp [Dtype.name, bits_no (n := 4 * n) (c := 106) (by decide)] at hm
  | void n => simp [Dtype.name, bits_no (n := n) (c := 106) (by decide)] at hm
  | time delta u big =>
    have hj : 106 ∉ unitStr u := by
      cases u with
      | none => simp [unitStr]
      | some p =>
        obtain ⟨n, v⟩ := p
        have h : 106 ∉ digits n := digits_no (by decide)
        have hv : 106 ∉ v.str := by cases v <;> decide
        simp [unitStr, h, hv]
    cases delta <;> simp [Dtype.name, hj] at hm
  | struct f n => simp [Dtype.name, bits_no (n := n) (c := 106) (by decide)] at hm
  | sub b s =>
    simp [Dtype.name, bits_no (n := b.itemsize * count s) (c := 106) (by decide)] at hm

/-- a dtype HDF5 knows is stored as a dataset -/
theorem createArray_dataset (a : Arr) (h : a.dtype.inH5 = true) :
    createArray a = .ok (.dataset a a.dtype.str) := by
  unfold createArray
  have h1 : ¬ within strWord a.dtype.name = true := by
    intro hw
    obtain ⟨n, big, he⟩ := name_str _ hw
    rw [he] at h; simp [Dtype.inH5] at h
  have h2 : ¬ a.dtype.name = objectWord := by
    intro hw
    rw [name_object _ hw] at h; simp [Dtype.inH5] at h
  rw [if_neg h1, if_neg h2, h5Create, if_pos h]

/-! ### the theorems -/

/-- **C51** for dtype objects without inner structure: what `dump` writes for a dtype, `load` reads as
this dtype, for numbers of all sizes and byte orders, bytes, strings and void of all lengths, objects
and times of all units. Missing: `C51_violated_dtype`. -/
theorem C51_dtype_partial (d : Dtype) (hr : d.Real) (hp : Plain d) :
    loadDtype (createDtype d) = .ok d := by
  unfold loadDtype createDtype
  rw [ofStr_str d hr hp]

/-- **C51** is false for every structured dtype and every subarray: what is loaded are bytes of the
same size without names, offsets, types or shape -/
theorem C51_violated_dtype (d : Dtype) (hp : ¬ Plain d) :
    loadDtype (createDtype d) = .ok (.void d.itemsize) ∧ d ≠ .void d.itemsize := by
  unfold loadDtype createDtype
  cases d with
  | struct f n => exact ⟨by simp only [Dtype.str, ofStr_void, Dtype.itemsize], by simp⟩
  | sub b s => exact ⟨by simp only [Dtype.str, ofStr_void, Dtype.itemsize], by simp⟩
  | num | bytes | text | void | object | time => exact absurd trivial hp

/-- different dtypes without inner structure are never written the same way -/
theorem C51_distinct (d e : Dtype) (hd : d.Real) (he : e.Real) (pd : Plain d) (pe : Plain e)
    (h : createDtype d = createDtype e) : d = e := by
  have h1 := ofStr_str d hd pd
  have h2 := ofStr_str e he pe
  have h : d.str = e.str := h
  rw [h, h2] at h1
  exact (Option.some.inj h1).symm

/-- **C51** for arrays: an array of numbers of any kind and size, of bytes or of void data comes back with
the same dtype, byte order included, the same shape and all bits of all items. Missing:
`C51_violated_array`, `C51_refused`. -/
theorem C51_array_partial (a : Arr) (hr : a.dtype.Real) (hf : Flat a.dtype) :
    roundTrip a = .ok a := by
  have hp := hf.plain
  have h5 := hf.inH5
  unfold roundTrip
  rw [createArray_dataset a h5]
  simp only [loadArray]
  rw [ofStr_str _ hr hp]
  have hw : ¬ within strWord a.dtype.name = true := by
    intro hw
    obtain ⟨n, big, he⟩ := name_str _ hw
    rw [he] at h5; simp [Dtype.inH5] at h5
  simp only [if_neg hw]
  obtain ⟨d, shape, items⟩ := a
  cases d with
  | num | bytes | void => simp [cast]
  | text | object | time => simp [Dtype.inH5] at h5
  | struct _ _ => exact absurd hp id
  | sub _ _ => exact absurd hp id

/-- **C51** is false for every array of structures: the bytes of the items come back, the names,
offsets and types of their fields do not -/
theorem C51_violated_array (a : Arr) (f : List (PyStr × Nat × Dtype)) (n : Nat)
    (hd : a.dtype = .struct f n) (h5 : a.dtype.inH5 = true) :
    roundTrip a = .ok { a with dtype := .void n } ∧ roundTrip a ≠ .ok a := by
  have key : roundTrip a = .ok { a with dtype := .void n } := by
    unfold roundTrip
    rw [createArray_dataset a h5]
    simp only [loadArray, hd, Dtype.str]
    rw [ofStr_void]
    have hw : ¬ within strWord (Dtype.void n).name = true := by
      intro hw
      obtain ⟨m, big, he⟩ := name_str _ hw
      cases he
    simp only [if_neg hw]
    obtain ⟨d, shape, items⟩ := a
    simp only at hd
    subst hd
    simp [cast]
  refine ⟨key, ?_⟩
  rw [key]
  intro h
  have h : Dtype.void n = a.dtype := congrArg Arr.dtype (Except.ok.inj h)
  rw [hd] at h
  cases h

/-- `dump` refuses every array of dates or time spans -/
theorem C51_refused (a : Arr) (delta big : Bool) (u : Option (Nat × TimeUnit))
    (h : a.dtype = .time delta u big) : createArray a = .error .typeError := by
  unfold createArray
  have h1 : ¬ within strWord a.dtype.name = true := by
    intro hw
    obtain ⟨n, b, he⟩ := name_str _ hw
    rw [he] at h; cases h
  have h2 : ¬ a.dtype.name = objectWord := by
    intro hw
    rw [name_object _ hw] at h; cases h
  rw [if_neg h1, if_neg h2, h5Create, h]
  simp [Dtype.inH5]

/-- `dump` takes arrays of strings, and no others, to the branch for strings, and arrays of objects,
and no others, to the branch for objects (property C33) -/
theorem C51_branches (a : Arr) :
    (createArray a = .ok .strings ↔ ∃ n big, a.dtype = .text n big) ∧
    (createArray a = .ok .objects ↔ a.dtype = .object) := by
  have htext : ∀ n big, within strWord (Dtype.text n big).name = true := by
    intro n big
    simp [Dtype.name, within, strWord, List.isPrefixOf]
  constructor
  · constructor
    · intro h
      unfold createArray at h
      by_cases hw : within strWord a.dtype.name = true
      · exact name_str _ hw
      · rw [if_neg hw] at h
        split at h
        · cases h
        · split at h <;> cases h
    · rintro ⟨n, big, h⟩
      unfold createArray
      rw [h, if_pos (htext n big)]
  · constructor
    · intro h
      unfold createArray at h
      split at h
      · cases h
      · split at h
        · rename_i h2; exact name_object _ h2
        · split at h <;> cases h
    · intro h
      unfold createArray
      rw [h]
      rfl

/-- **C51** for numbers: a numpy number of any type and size comes back with its type and all its
bits -/
theorem C51_scalar (x : Scalar) (h : x.size ∈ x.kind.sizes) :
    ∃ node, createScalar x = .ok node ∧ loadScalar node.1 node.2 = .ok x := by
  refine ⟨_, rfl, ?_⟩
  have := ofStr_str (.num x.kind x.size false) ⟨h, fun _ => rfl⟩ trivial
  simp [loadScalar, this]

/-! ### examples -/

/-- a structure of an integer and a big-endian float -/
def exStruct : Dtype :=
  .struct [([97], 0, .num .int 4 false), ([98], 4, .num .float 8 true)] 12

/-- `>f8`, `<M8[25us]` and `|S300` are written as they should be and come back -/
example : (Dtype.num .float 8 true).str = [62, 102, 56] ∧
    (Dtype.time false (some (25, .us)) false).str = [60, 77, 56, 91, 50, 53, 117, 115, 93] ∧
    (Dtype.bytes 300).str = [124, 83, 51, 48, 48] := by
  refine ⟨?_, ?_, ?_⟩ <;> decide +kernel

example : (Dtype.num .float 8 true).Real ∧ Plain (Dtype.num .float 8 true) ∧
    (Dtype.num .float 8 true).inH5 = true := by
  refine ⟨⟨by decide, by decide⟩, trivial, rfl⟩

example : (Dtype.time true (some (25, .us)) true).Real ∧ Plain (.time true (some (25, .us)) true) :=
  ⟨by show 0 < 25; decide, trivial⟩

/-- an array of two big-endian floats comes back -/
example : roundTrip ⟨.num .float 8 true, [2], [[64, 0, 0, 0, 0, 0, 0, 0], [63, 240, 0, 0, 0, 0, 0, 1]]⟩
    = .ok ⟨.num .float 8 true, [2], [[64, 0, 0, 0, 0, 0, 0, 0], [63, 240, 0, 0, 0, 0, 0, 1]]⟩ :=
  C51_array_partial _ ⟨by decide, by decide⟩ trivial

/-- an array of three times two void bytes comes back -/
example : roundTrip ⟨.void 2, [3], [[1, 2], [3, 4], [5, 6]]⟩ = .ok ⟨.void 2, [3], [[1, 2], [3, 4], [5, 6]]⟩ :=
  C51_array_partial _ trivial (by show 2 ≠ 0; decide)

/-- the structured dtype above is known to HDF5, and comes back as `|V12` -/
example : exStruct.inH5 = true ∧ ¬ Plain exStruct ∧
    loadDtype (createDtype exStruct) = .ok (.void 12) :=
  ⟨by decide +kernel, id, (C51_violated_dtype exStruct id).1⟩

example : (16 : Nat) ∈ Kind.sizes .float := by decide

end Verif.Np
