import Verif.Hickle.AstroTable
import Verif.Props.C42
/-!
# C62: the columns of an astropy table come back

`Verif/Hickle/AstroTable.lean` models how they are stored and read.
-/
namespace Verif.Astro

/-- the same column: name, values in their order, and no mask, unit or description -/
def Column.bare (c : Column) : Column := { c with mask := none, unit := none, description := none }

/-- numbers or byte strings -/
def Plain (d : ColData) : Prop := (∃ dt sh rows, d = .nums dt sh rows) ∨ ∃ w rows, d = .bytes w rows

theorem storable_iff {f : Field} : f.storable = true ↔ Plain f.data := by
  obtain ⟨n, d⟩ := f
  cases d <;> simp [Field.storable, Plain]

theorem tableOf_back {cols : List Column} {ns : List Bytes} (h : cols.mapM (fun c => encodeAscii c.name) = .ok ns) :
    tableOf (asArray cols) (ns.map decodeAscii) = .ok (cols.map Column.bare) := by
  induction cols generalizing ns with
  | nil => simp only [List.mapM_nil, pure, Except.pure, Except.ok.injEq] at h; subst h; rfl
  | cons c cols ih =>
    rw [List.mapM_cons] at h
    cases hc : encodeAscii c.name with
    | error e => rw [hc] at h; simp [bind, Except.bind] at h
    | ok b =>
      cases hr : cols.mapM (fun c => encodeAscii c.name) with
      | error e => rw [hc, hr] at h; simp [bind, Except.bind] at h
      | ok bs =>
        rw [hc, hr] at h
        simp only [bind, Except.bind, pure, Except.pure, Except.ok.injEq] at h
        subst h
        show (tableOf (asArray cols) (bs.map decodeAscii)).map _ = _
        rw [ih hr, decode_encode hc]
        rfl

theorem mapM_names {cols : List Column} : (∃ ns, cols.mapM (fun c => encodeAscii c.name) = .ok ns) ↔ ∀ c ∈ cols, ascii c.name = true := by
  induction cols with
  | nil => simp [pure, Except.pure]
  | cons c cols ih =>
    rw [List.mapM_cons]
    cases hc : encodeAscii c.name with
    | error e =>
      have : ascii c.name ≠ true := by intro h; simp [encodeAscii, h] at hc
      simp [bind, Except.bind, this]
    | ok b =>
      have : ascii c.name = true := by
        unfold encodeAscii at hc
        split at hc
        · next h => exact h
        · simp at hc
      cases hr : cols.mapM (fun c => encodeAscii c.name) with
      | error e => simp [bind, Except.bind, this, ← ih, hr]
      | ok bs => simp [bind, Except.bind, pure, Except.pure, this, ← ih, hr]

/-- **C62, which tables are accepted**: those whose columns are numbers or byte strings and have ASCII names. -/
theorem C62_accepted (cols : List Column) : (∃ n, createCols cols = .ok n) ↔ ∀ c ∈ cols, Plain c.data ∧ ascii c.name = true := by
  have h1 : (asArray cols).all Field.storable = true ↔ ∀ c ∈ cols, Plain c.data := by
    simp only [List.all_eq_true, asArray, List.mem_map]
    constructor
    · intro h c hc; exact storable_iff.1 (h ⟨c.name, c.data⟩ ⟨c, hc, rfl⟩)
    · rintro h _ ⟨c, hc, rfl⟩; exact storable_iff.2 (h c hc)
  constructor
  · rintro ⟨n, h⟩ c hc
    simp only [createCols] at h
    split at h
    · next hs =>
      refine ⟨h1.1 hs c hc, ?_⟩
      cases hr : cols.mapM (fun c => encodeAscii c.name) with
      | error e => rw [hr] at h; simp [Except.map] at h
      | ok ns => exact mapM_names.1 ⟨ns, hr⟩ c hc
    · simp at h
  · intro h
    obtain ⟨ns, hn⟩ := mapM_names.2 fun c hc => (h c hc).2
    refine ⟨⟨asArray cols, ns⟩, ?_⟩
    simp only [createCols, if_pos (h1.2 fun c hc => (h c hc).1), hn, Except.map]

/-- **C62, what is loaded, for every table that dump accepts**: the same columns in the same order with all their values, but no masks, units and descriptions. -/
theorem C62_exact {cols : List Column} {n : ColNode} (h : createCols cols = .ok n) : loadCols n = .ok (cols.map Column.bare) := by
  simp only [createCols] at h
  split at h
  · cases hr : cols.mapM (fun c => encodeAscii c.name) with
    | error e => rw [hr] at h; simp [Except.map] at h
    | ok ns =>
      rw [hr] at h
      simp only [Except.map, Except.ok.injEq] at h
      subst h
      exact tableOf_back hr
  · simp at h

/-- **C62, the part that holds.**  A table of columns of numbers and byte strings with ASCII names, without masks, units and descriptions, is accepted and comes back.
Missing: text and objects, which are refused; masks, units and descriptions, which are lost. -/
theorem C62_partial {cols : List Column} (hp : ∀ c ∈ cols, Plain c.data ∧ ascii c.name = true) (hb : ∀ c ∈ cols, c.mask = none ∧ c.unit = none ∧ c.description = none) :
    ∃ n, createCols cols = .ok n ∧ loadCols n = .ok cols := by
  obtain ⟨n, hn⟩ := (C62_accepted cols).2 hp
  refine ⟨n, hn, ?_⟩
  rw [C62_exact hn]
  congr 1
  conv => rhs; rw [← List.map_id cols]
  refine List.map_congr_left fun c hc => ?_
  obtain ⟨name, d, m, u, de⟩ := c
  obtain ⟨h1, h2, h3⟩ := hb _ hc
  simp only at h1 h2 h3
  subst h1 h2 h3
  rfl

/-- a table with a column of pairs of floats and a column of byte strings -/
def Ex.cols : List Column :=
  [⟨tx "pos", .nums .float64 [2] [[.f .zero, .f (.fin false 1 0)], [.f (.fin true 3 0), .f .zero]], none, none, none⟩,
   ⟨tx "name", .bytes 3 [[97, 98], []], none, none, none⟩]

example : ∃ n, createCols Ex.cols = .ok n ∧ loadCols n = .ok Ex.cols :=
  C62_partial (by
    intro c hc
    simp only [Ex.cols, List.mem_cons, List.not_mem_nil, or_false] at hc
    rcases hc with rfl | rfl
    · exact ⟨.inl ⟨_, _, _, rfl⟩, by decide⟩
    · exact ⟨.inr ⟨_, _, rfl⟩, by decide⟩) (by decide)

/-- **C62 is violated** by every table with a column that has a unit: dump accepts it and load returns the column without. -/
theorem C62_violated_unit {cols : List Column} {c : Column} (hc : c ∈ cols) (hu : c.unit ≠ none) {n : ColNode} (h : createCols cols = .ok n) :
    loadCols n ≠ .ok cols := by
  rw [C62_exact h]
  intro he
  injection he with he
  rw [← he] at hc
  obtain ⟨c', _, rfl⟩ := List.mem_map.1 hc
  exact hu rfl

/-- **C62 is violated** by every table with missing values: they come back as values. -/
theorem C62_violated_mask {cols : List Column} {c : Column} (hc : c ∈ cols) (hu : c.mask ≠ none) {n : ColNode} (h : createCols cols = .ok n) :
    loadCols n ≠ .ok cols := by
  rw [C62_exact h]
  intro he
  injection he with he
  rw [← he] at hc
  obtain ⟨c', _, rfl⟩ := List.mem_map.1 hc
  exact hu rfl

/-- dump refuses every table with a column of text -/
theorem C62_refused {cols : List Column} {c : Column} (hc : c ∈ cols) {w : Nat} {rows : List PyStr} (hd : c.data = .text w rows) : createCols cols = .error .typeError := by
  have : ¬ (asArray cols).all Field.storable = true := by
    intro h
    have := List.all_eq_true.1 h ⟨c.name, c.data⟩ (List.mem_map.2 ⟨c, hc, rfl⟩)
    simp [Field.storable, hd] at this
  simp only [createCols, if_neg this]

/-- one value -/
def Ex.one (mask : Option (List Bool)) (unit : Option Nat) : List Column := [⟨tx "d", .nums .float64 [] [[.f (.fin false 5 0)]], mask, unit, none⟩]

theorem Ex.one_ok (mask : Option (List Bool)) (unit : Option Nat) : ∃ n, createCols (Ex.one mask unit) = .ok n ∧ loadCols n = .ok (Ex.one none none) := by
  obtain ⟨n, h⟩ := (C62_accepted (Ex.one mask unit)).2 (by
    intro c hc
    simp only [Ex.one, List.mem_cons, List.not_mem_nil, or_false] at hc
    subst hc
    exact ⟨.inl ⟨_, _, _, rfl⟩, by show ascii (tx "d") = true; decide⟩)
  exact ⟨n, h, C62_exact h⟩

/-- a value in metres (unit 1) and a missing value -/
example : ∃ n, createCols (Ex.one none (some 1)) = .ok n ∧ loadCols n = .ok (Ex.one none none) := Ex.one_ok _ _
example : ∃ n, createCols (Ex.one (some [true]) none) = .ok n ∧ loadCols n = .ok (Ex.one none none) := Ex.one_ok _ _
example : createCols [⟨tx "n", .text 3 [tx "abc"], none, none, none⟩] = .error .typeError := rfl

end Verif.Astro
