import Verif.Hickle.AstroTypes
import Verif.Props.Examples
/-!
# C42: astropy objects come back

`Verif/Hickle/AstroTypes.lean` models how quantities, angles, coordinates, times and constants are stored and read.
-/
namespace Verif.Astro

/-- units are written as ASCII text from which they are found again -/
def UnitsOk (lib : Lib) : Prop := ∀ u, ascii (lib.unitText u) = true ∧ lib.unitOf (lib.unitText u) = some u

/-- the same numbers in the same shape: numbers of another type if these are the same, complex ones not -/
structure SameNumbers (a b : Arr) : Prop where
  shape : b.shape = a.shape
  length : b.data.length = a.data.length
  value : ∀ (i : Nat) (x y : NpVal), a.data[i]? = some x → b.data[i]? = some y → y.val = x.val

/-- numbers a float64 can hold -/
def Real53 : NpVal → Bool
  | .i x => x.natAbs ≤ 2 ^ 53
  | .c _ _ => false
  | _ => true

theorem decode_encode {s : PyStr} {b : Bytes} (h : encodeAscii s = .ok b) : decodeAscii b = s := by
  unfold encodeAscii at h
  split at h
  · next ha =>
    injection h with h
    subst h
    unfold decodeAscii
    rw [List.map_map]
    conv => rhs; rw [← List.map_id s]
    refine List.map_congr_left fun c hc => ?_
    have : c < 128 := by simpa [ascii] using List.all_eq_true.1 ha c hc
    exact toNat_ofNat_lt (by omega)
  · simp at h

theorem encode_of_ascii {s : PyStr} (h : ascii s = true) : encodeAscii s = .ok (s.map UInt8.ofNat) := by simp [encodeAscii, h]

theorem toFloat_val {x : NpVal} {y : F64} (h : toFloat x = some y) (hr : Real53 x = true) : (NpVal.f y).val = x.val := by
  cases x with
  | b v =>
    rw [toFloat] at h
    obtain ⟨z, h1, h2⟩ := F64.ofInt_small (i := if v then 1 else 0) (by split <;> decide)
    have h := Option.some.inj (h1.symm.trans h); subst h
    simp only [NpVal.val, h2]
    cases v <;> rfl
  | i v =>
    rw [toFloat] at h
    obtain ⟨z, h1, h2⟩ := F64.ofInt_small (i := v) (by simpa [Real53] using hr)
    have h := Option.some.inj (h1.symm.trans h); subst h
    simp only [NpVal.val, h2]
  | f v => simp only [toFloat] at h; injection h with h; subst h; rfl
  | c v w => simp [Real53] at hr

theorem mapM_idx {α β : Type} {f : α → Option β} : ∀ {xs : List α} {ys : List β}, xs.mapM f = some ys → ys.length = xs.length ∧
    ∀ (i : Nat) (x : α) (y : β), xs[i]? = some x → ys[i]? = some y → f x = some y
  | [], ys, h => by simp at h; subst h; simp
  | x :: xs, ys, h => by
    rw [List.mapM_cons] at h
    cases hx : f x with
    | none => simp [hx] at h
    | some v =>
      cases hr : xs.mapM f with
      | none => simp [hx, hr] at h
      | some vs' =>
        simp [hx, hr] at h
        subst h
        obtain ⟨h1, h2⟩ := mapM_idx hr
        refine ⟨by simp [h1], fun i y v' hy hv => ?_⟩
        cases i with
        | zero => simp at hy hv; subst hy; subst hv; exact hx
        | succ i => simp at hy hv; exact h2 i y v' hy hv

theorem floatArr_same {a b : Arr} (h : floatArr a = .ok b) (hr : ∀ x ∈ a.data, Real53 x = true) : SameNumbers a b := by
  unfold floatArr at h
  cases hm : a.data.mapM toFloat with
  | none => simp [hm] at h
  | some xs =>
    simp only [hm] at h
    injection h with h; subst h
    obtain ⟨h1, h2⟩ := mapM_idx hm
    refine ⟨rfl, by simp [h1], fun i x y hx hy => ?_⟩
    rw [List.getElem?_map] at hy
    obtain ⟨z, hz, rfl⟩ := Option.map_eq_some_iff.1 hy
    exact toFloat_val (h2 i x z hx hz) (hr x (List.mem_of_getElem? hx))

theorem floatArr_total {a : Arr} (hr : ∀ x ∈ a.data, Real53 x = true) : ∃ b, floatArr a = .ok b := by
  have : ∀ xs : List NpVal, (∀ x ∈ xs, Real53 x = true) → ∃ ys, xs.mapM toFloat = some ys := by
    intro xs
    induction xs with
    | nil => intro _; exact ⟨[], rfl⟩
    | cons x xs ih =>
      intro h
      obtain ⟨ys, hy⟩ := ih fun y hy => h y (by simp [hy])
      have hx : ∃ z, toFloat x = some z := by
        have hx := h x (by simp)
        cases x with
        | b v => obtain ⟨z, h1, _⟩ := F64.ofInt_small (i := if v then 1 else 0) (by split <;> decide); exact ⟨z, h1⟩
        | i v => obtain ⟨z, h1, _⟩ := F64.ofInt_small (i := v) (by simpa [Real53] using hx); exact ⟨z, h1⟩
        | f v => exact ⟨v, rfl⟩
        | c v w => exact ⟨v, rfl⟩
      obtain ⟨z, hz⟩ := hx
      exact ⟨z :: ys, by rw [List.mapM_cons, hz, hy]; rfl⟩
  obtain ⟨ys, hy⟩ := this a.data hr
  exact ⟨⟨.float64, a.shape, ys.map .f⟩, by simp [floatArr, hy]⟩

/-- **C42, quantities and angles** of any shape: dump accepts them, load gives the same numbers and the same unit.
Missing: complex numbers and integers beyond 2^53, for which it is false; the type of integers is not kept. -/
theorem C42_quantity_partial {lib : Lib} (hu : UnitsOk lib) {q : Quantity} (hr : ∀ x ∈ q.value.data, Real53 x = true) :
    ∃ n q', createQuantity lib q = .ok n ∧ loadQuantity lib n = .ok q' ∧ q'.unit = q.unit ∧ SameNumbers q.value q'.value := by
  obtain ⟨d, hd⟩ := floatArr_total hr
  have hb := encode_of_ascii (hu q.unit).1
  refine ⟨⟨d, (lib.unitText q.unit).map UInt8.ofNat⟩, ⟨d, q.unit⟩, ?_, ?_, rfl, floatArr_same hd hr⟩
  · simp only [createQuantity, hd, hb, bind, Except.bind]
  · simp only [loadQuantity, decode_encode hb, (hu q.unit).2]

/-- quantities of float64 are equal afterwards -/
theorem C42_quantity_exact {lib : Lib} (hu : UnitsOk lib) {q : Quantity} (hd : q.value.dt = .float64) (hr : ∀ x ∈ q.value.data, ∃ y, x = .f y) :
    ∃ n, createQuantity lib q = .ok n ∧ loadQuantity lib n = .ok q := by
  have key : ∀ xs : List NpVal, (∀ x ∈ xs, ∃ y, x = NpVal.f y) → ∃ ys, xs.mapM toFloat = some ys ∧ ys.map NpVal.f = xs := by
    intro xs
    induction xs with
    | nil => intro _; exact ⟨[], rfl, rfl⟩
    | cons x xs ih =>
      intro h
      obtain ⟨ys, h1, h2⟩ := ih fun y hy => h y (by simp [hy])
      obtain ⟨y, rfl⟩ := h x (by simp)
      exact ⟨y :: ys, by rw [List.mapM_cons, h1]; rfl, by simp [h2]⟩
  obtain ⟨ys, h1, h2⟩ := key _ hr
  have hb := encode_of_ascii (hu q.unit).1
  obtain ⟨⟨dt, sh, data⟩, u⟩ := q
  simp only at hd h1 h2
  subst hd
  refine ⟨⟨⟨.float64, sh, data⟩, (lib.unitText u).map UInt8.ofNat⟩, ?_, ?_⟩
  · simp only [createQuantity, floatArr, h1, h2, hb, bind, Except.bind]
  · simp only [loadQuantity, decode_encode hb, (hu u).2]

theorem interleave_evens : ∀ (xs ys : List NpVal), xs.length = ys.length → evens (interleave xs ys) = xs
  | [], [], _ => rfl
  | x :: xs, y :: ys, h => by rw [interleave, evens, interleave_evens xs ys (by simpa using h)]
  | [], _ :: _, h => by simp at h
  | _ :: _, [], h => by simp at h

theorem interleave_odds : ∀ (xs ys : List NpVal), xs.length = ys.length → odds (interleave xs ys) = ys
  | [], [], _ => rfl
  | x :: xs, y :: ys, h => by rw [interleave, odds, interleave_odds xs ys (by simpa using h)]
  | [], _ :: _, h => by simp at h
  | _ :: _, [], h => by simp at h

theorem interleave_floats : ∀ (xs ys : List NpVal), (∀ x ∈ xs, ∃ y, x = NpVal.f y) → (∀ x ∈ ys, ∃ y, x = NpVal.f y) →
    ∃ zs, (interleave xs ys).mapM toFloat = some zs ∧ zs.map NpVal.f = interleave xs ys
  | x :: xs, y :: ys, hx, hy => by
    obtain ⟨zs, h1, h2⟩ := interleave_floats xs ys (fun z hz => hx z (by simp [hz])) (fun z hz => hy z (by simp [hz]))
    obtain ⟨a, rfl⟩ := hx x (by simp)
    obtain ⟨b, rfl⟩ := hy y (by simp)
    refine ⟨a :: b :: zs, ?_, by simp [interleave, h2]⟩
    rw [interleave, List.mapM_cons, List.mapM_cons, h1]; rfl
  | [], [], _, _ => ⟨[], rfl, rfl⟩
  | [], _ :: _, _, _ => ⟨[], rfl, rfl⟩
  | _ :: _, [], _, _ => ⟨[], rfl, rfl⟩

/-- an array of float64 -/
def FloatArr (a : Arr) : Prop := a.dt = .float64 ∧ ∀ x ∈ a.data, ∃ y, x = NpVal.f y

/-- **C42, coordinates** of any shape.  Missing: other frames than ICRS and distances, which are lost (see below). -/
theorem C42_skycoord_partial {lib : Lib} (hu : UnitsOk lib) {s : SkyCoord} (h1 : FloatArr s.lon) (h2 : FloatArr s.lat) (hs : s.lon.shape = s.lat.shape)
    (hl : s.lon.data.length = s.lat.data.length) (hf : s.frame = 0) (hd : s.distance = none) : ∃ n, createSky lib s = .ok n ∧ loadSky lib n = .ok s := by
  obtain ⟨⟨dt, sh, xs⟩, ⟨dt', sh', ys⟩, u, v, frame, dist⟩ := s
  obtain ⟨rfl, h1⟩ := h1
  obtain ⟨hdt, h2⟩ := h2
  simp only at hdt hs hl hf hd h1 h2
  subst hdt hs hf hd
  obtain ⟨zs, hz1, hz2⟩ := interleave_floats xs ys h1 h2
  have hb := encode_of_ascii (hu u).1
  have hc := encode_of_ascii (hu v).1
  refine ⟨⟨⟨.float64, sh ++ [2], interleave xs ys⟩, (lib.unitText u).map UInt8.ofNat, (lib.unitText v).map UInt8.ofNat⟩, ?_, ?_⟩
  · simp only [createSky, stack, if_true, floatArr, hz1, hz2, hb, hc, bind, Except.bind]
  · simp only [loadSky, slice, List.getLast?_concat, List.dropLast_concat, if_true, bind, Except.bind, decode_encode hb, decode_encode hc, (hu u).2, (hu v).2,
      interleave_evens xs ys hl, interleave_odds xs ys hl, Bool.false_eq_true, if_false]

/-- strings an array of strings of width `w` can hold, as astropy's formats make them -/
def TimeStrs (w : Nat) (ss : List PyStr) : Prop := ∀ s ∈ ss, ascii s = true ∧ s.length ≤ w ∧ s.getLast? ≠ some 0

theorem strip_of_last {b : Bytes} (h : b.getLast? ≠ some 0) : strip b = b := by
  unfold strip
  have : b.reverse.dropWhile (fun x => decide (x = 0)) = b.reverse := by
    cases hb : b.reverse with
    | nil => rfl
    | cons c r =>
      have : b.getLast? = some c := by rw [List.getLast?_eq_head?_reverse, hb]; rfl
      rw [List.dropWhile_cons, if_neg]
      simp only [decide_eq_true_eq]
      rintro rfl
      exact h this
  rw [this, List.reverse_reverse]

theorem strs_back {w : Nat} : ∀ {ss : List PyStr}, TimeStrs w ss → ∃ bs, ss.mapM encodeAscii = .ok bs ∧
    (bs.map fun b => strip (b.take w)).map (fun b => (decodeAscii b).take w) = ss
  | [], _ => ⟨[], rfl, rfl⟩
  | s :: ss, h => by
    obtain ⟨bs, h1, h2⟩ := strs_back (ss := ss) fun t ht => h t (by simp [ht])
    obtain ⟨ha, hl, hn⟩ := h s (by simp)
    have hb := encode_of_ascii ha
    refine ⟨s.map UInt8.ofNat :: bs, by rw [List.mapM_cons, hb, h1]; rfl, ?_⟩
    rw [List.map_cons, List.map_cons, h2, List.take_of_length_le (l := s.map UInt8.ofNat) (by simpa using hl), strip_of_last, decode_encode hb, List.take_of_length_le hl]
    rw [List.getLast?_map]
    intro he
    obtain ⟨c, hc, he⟩ := Option.map_eq_some_iff.1 he
    have hlt : c < 128 := by
      have := List.all_eq_true.1 (show (s.all fun c => decide (c < 128)) = true from ha) c (List.mem_of_getLast? hc)
      simpa using this
    have := congrArg UInt8.toNat he
    rw [toNat_ofNat_lt (by omega)] at this
    have : c = 0 := this
    subst this
    exact hn hc

/-- the value of a time is one hickle can store, with options for compression or without -/
def Storable (filters : Bool) : TimeVal → Prop
  | .nums _ => True
  | .strs w sh ss => TimeStrs w ss ∧ (filters = true → sh ≠ [])
  | _ => False

/-- **C42, times** whose value in their format determines the instant.  Missing: times for which it does not (one float for
astropy's two), location, precision and the like, and a single time as text with options for compression. -/
theorem C42_time_partial {lib : Lib} {filters : Bool} {t : Time} (hf : ascii t.format = true) (hs : ascii t.scale = true) (hv : Storable filters (lib.valueOf t.format t.scale t.instant))
    (hi : lib.instantOf t.format t.scale (lib.valueOf t.format t.scale t.instant) = some t.instant) (he : t.extra = 0) :
    ∃ n, createTime lib filters t = .ok n ∧ loadTime lib n = .ok t := by
  have h1 := encode_of_ascii hf
  have h2 := encode_of_ascii hs
  obtain ⟨i, fmt, sc, ex⟩ := t
  simp only at h1 h2 hv hi he ⊢
  subst he
  cases hval : lib.valueOf fmt sc i with
  | nums a =>
    rw [hval] at hi
    refine ⟨⟨.nums a, none, fmt.map UInt8.ofNat, sc.map UInt8.ofNat⟩, by simp only [createTime, hval, timeData, h1, h2, bind, Except.bind], ?_⟩
    simp only [loadTime, decode_encode h1, decode_encode h2, hi]
  | strs w sh ss =>
    rw [hval] at hi hv
    obtain ⟨hv, hsh⟩ := hv
    obtain ⟨bs, hb1, hb2⟩ := strs_back hv
    have hsh : ¬ (filters = true ∧ sh = []) := fun h => hsh h.1 h.2
    refine ⟨⟨.bytes w sh (bs.map fun b => strip (b.take w)), some w, fmt.map UInt8.ofNat, sc.map UInt8.ofNat⟩, by simp only [createTime, hval, timeData, hb1, if_neg hsh, h1, h2, bind, Except.bind], ?_⟩
    simp only [loadTime, decode_encode h1, decode_encode h2, hb2, hi]
  | objs sh => rw [hval] at hv; exact hv.elim
  | dates sh d => rw [hval] at hv; exact hv.elim

/-- text of a constant -/
def TextOf (t : Txt) : Prop := ∃ s, t = .str s ∧ ascii s = true

/-- **C42, constants** with h5py 3 or later. -/
theorem C42_constant_partial {lib : Lib} (hu : UnitsOk lib) (ht : lib.attrText = true) {c : Constant} (ha : TextOf c.abbrev_) (hn : TextOf c.name) (hr : TextOf c.reference)
    (hs : ∀ t, c.system = some t → TextOf t ∧ t ≠ .str []) : ∃ n, createConst lib c = .ok n ∧ loadConst lib n = .ok c := by
  obtain ⟨ab, nm, val, u, unc, rf, sys⟩ := c
  obtain ⟨a, rfl, ha⟩ := ha
  obtain ⟨n, rfl, hn⟩ := hn
  obtain ⟨r, rfl, hr⟩ := hr
  have e1 := encode_of_ascii ha
  have e2 := encode_of_ascii hn
  have e3 := encode_of_ascii hr
  have e4 := encode_of_ascii (hu u).1
  have hsys : ∃ b, encodeSystem sys = .ok b ∧ b.map lib.attr = sys := by
    cases sys with
    | none => exact ⟨none, rfl, rfl⟩
    | some t =>
      obtain ⟨⟨s, rfl, hsa⟩, hne⟩ := hs t rfl
      have e5 := encode_of_ascii hsa
      cases s with
      | nil => exact absurd rfl hne
      | cons x xs =>
        refine ⟨some ((x :: xs).map UInt8.ofNat), ?_, ?_⟩
        · simp only [encodeSystem, encodeTxt, e5]; rfl
        · simp only [Option.map_some, Lib.attr, ht, if_true, decode_encode e5]
  obtain ⟨b, hb1, hb2⟩ := hsys
  refine ⟨⟨val, (lib.unitText u).map UInt8.ofNat, a.map UInt8.ofNat, n.map UInt8.ofNat, r.map UInt8.ofNat, unc, b⟩, by simp only [createConst, encodeTxt, e1, e2, e3, e4, hb1, bind, Except.bind], ?_⟩
  simp only [loadConst, decode_encode e4, (hu u).2, Lib.attr, ht, if_true, decode_encode e1, decode_encode e2, decode_encode e3] at hb2 ⊢
  rw [hb2]

/-! ### examples -/

/-- units `1`, `11`, `111`, ... ; times with the formats `n` (a float) and `s` (as many `x` as the number says) -/
def Ex.lib : Lib where
  unitText := fun u => List.replicate (u + 1) 49
  unitOf := fun s => some (s.length - 1)
  valueOf := fun fmt _ n => if fmt = tx "n" then .nums ⟨.float64, [], [match F64.ofInt n with | some x => .f x | none => .f .nan]⟩ else .strs 100 [1] [List.replicate n 120]
  instantOf := fun _ _ v => match v with
    | .strs _ _ [s] => some s.length
    | .nums ⟨_, _, [.f (.fin _ m e)]⟩ => some (m * 2 ^ e.toNat)
    | _ => none
  attrText := true

theorem Ex.units : UnitsOk Ex.lib := fun u => by
  refine ⟨?_, by simp [Ex.lib]⟩
  simp only [ascii, Ex.lib, List.all_eq_true]
  intro c hc
  rw [List.eq_of_mem_replicate hc]
  rfl

/-- a matrix of numbers, one of them an integer, with unit 4 -/
example : ∃ n q', createQuantity Ex.lib ⟨⟨.int64, [2, 1], [.i 7, .i (-3)]⟩, 4⟩ = .ok n ∧ loadQuantity Ex.lib n = .ok q' ∧ q'.unit = 4 ∧
    SameNumbers ⟨.int64, [2, 1], [.i 7, .i (-3)]⟩ q'.value := C42_quantity_partial Ex.units (by decide)

example : ∃ n, createSky Ex.lib ⟨⟨.float64, [2], [.f (.fin false 1 0), .f (.fin false 3 0)]⟩, ⟨.float64, [2], [.f (.fin true 1 0), .f .zero]⟩, 1, 2, 0, none⟩ = .ok n ∧
    loadSky Ex.lib n = .ok ⟨⟨.float64, [2], [.f (.fin false 1 0), .f (.fin false 3 0)]⟩, ⟨.float64, [2], [.f (.fin true 1 0), .f .zero]⟩, 1, 2, 0, none⟩ :=
  C42_skycoord_partial Ex.units ⟨rfl, by simp⟩ ⟨rfl, by simp⟩ rfl rfl rfl rfl

example : ∃ n, createTime Ex.lib true ⟨5, tx "s", tx "utc", 0⟩ = .ok n ∧ loadTime Ex.lib n = .ok ⟨5, tx "s", tx "utc", 0⟩ :=
  C42_time_partial (by decide) (by decide) (by
    show TimeStrs 100 [List.replicate 5 120] ∧ _
    refine ⟨?_, by simp⟩
    intro s hs; simp only [List.mem_singleton] at hs; subst hs; decide) (by decide) rfl

example : ∃ n, createConst Ex.lib ⟨.str (tx "c"), .str (tx "Speed of light"), .fin false 299792458 0, 2, .zero, .str (tx "CODATA 2018"), some (.str (tx "si"))⟩ = .ok n ∧
    loadConst Ex.lib n = .ok ⟨.str (tx "c"), .str (tx "Speed of light"), .fin false 299792458 0, 2, .zero, .str (tx "CODATA 2018"), some (.str (tx "si"))⟩ :=
  C42_constant_partial Ex.units rfl ⟨_, rfl, by decide⟩ ⟨_, rfl, by decide⟩ ⟨_, rfl, by decide⟩ (by rintro t ⟨⟩; exact ⟨⟨_, rfl, by decide⟩, by decide⟩)

/-! ### what is lost -/

/-- **C42 is violated** by complex quantities: the imaginary part is lost, whatever the library is. -/
theorem C42_violated_complex {lib : Lib} (hu : UnitsOk lib) (x y y' : F64) (u : Nat) :
    createQuantity lib ⟨⟨.complex128, [], [.c x y]⟩, u⟩ = createQuantity lib ⟨⟨.complex128, [], [.c x y']⟩, u⟩ ∧
    Ex.isOk (createQuantity lib ⟨⟨.complex128, [], [.c x y]⟩, u⟩) = true := by
  refine ⟨rfl, ?_⟩
  simp only [createQuantity, encode_of_ascii (hu u).1]
  rfl

/-- **C42 is violated** by integers beyond 2^53: 2^53 and 2^53 + 1 are stored alike. -/
theorem C42_violated_int {lib : Lib} (u : Nat) :
    createQuantity lib ⟨⟨.int64, [], [.i (2 ^ 53)]⟩, u⟩ = createQuantity lib ⟨⟨.int64, [], [.i (2 ^ 53 + 1)]⟩, u⟩ := by
  have : floatArr ⟨.int64, [], [.i (2 ^ 53)]⟩ = floatArr ⟨.int64, [], [.i (2 ^ 53 + 1)]⟩ := by
    have h : F64.ofInt (2 ^ 53) = F64.ofInt (2 ^ 53 + 1) := by decide +kernel
    simp only [floatArr, List.mapM_cons, List.mapM_nil, toFloat, h]
  simp only [createQuantity, this]

/-- **C42 is violated** by coordinates in another frame, or with a distance: neither is stored. -/
theorem C42_violated_frame {lib : Lib} (s : SkyCoord) (frame : Nat) (d : Option Arr) : createSky lib { s with frame := frame, distance := d } = createSky lib s := rfl

/-- ... and what is loaded is in the frame ICRS and without distance. -/
theorem C42_violated_icrs {lib : Lib} {n : SkyNode} {s : SkyCoord} (h : loadSky lib n = .ok s) : s.frame = 0 ∧ s.distance = none := by
  simp only [loadSky, bind, Except.bind] at h
  split at h
  · simp at h
  · split at h
    · simp at h
    · split at h
      · injection h with h; subst h; exact ⟨rfl, rfl⟩
      · simp at h

/-- **C42 is violated** by times: two of them with the same value in their format are stored alike, so at most one of them comes back. -/
theorem C42_violated_time {lib : Lib} {filters : Bool} {t t' : Time} (hf : t.format = t'.format) (hs : t.scale = t'.scale)
    (hv : lib.valueOf t.format t.scale t.instant = lib.valueOf t'.format t'.scale t'.instant) (hne : t ≠ t') {n n' : TNode} (hn : createTime lib filters t = .ok n) (hn' : createTime lib filters t' = .ok n') :
    ¬ (loadTime lib n = .ok t ∧ loadTime lib n' = .ok t') := by
  have : createTime lib filters t = createTime lib filters t' := by
    unfold createTime
    rw [hv, hf, hs]
  rw [hn, hn'] at this
  injection this with this
  subst this
  rintro ⟨h1, h2⟩
  rw [h1] at h2
  injection h2 with h2
  exact hne h2

/-- such times: instants that differ by less than a float64 of this size can tell; times that differ in location or precision -/
example : Ex.lib.valueOf (tx "n") [] (2 ^ 53) = Ex.lib.valueOf (tx "n") [] (2 ^ 53 + 1) := by decide +kernel
example : createTime Ex.lib true ⟨5, tx "s", tx "utc", 0⟩ = createTime Ex.lib true ⟨5, tx "s", tx "utc", 1⟩ := by simp only [createTime]

/-- **C42 is violated** by times in the formats `datetime` and `datetime64`: dump raises `AttributeError` or `TypeError`. -/
theorem C42_violated_datetime {lib : Lib} {filters : Bool} {t : Time} {sh : List Nat} (h : lib.valueOf t.format t.scale t.instant = .objs sh) :
    Ex.raised (createTime lib filters t) = some (if sh = [] then .attributeError else .typeError) := by
  simp only [createTime, h, timeData]
  by_cases hs : sh = []
  · simp only [hs, if_true]; rfl
  · simp only [hs, if_false]; rfl

/-- **C42 is violated** by a single time whose value is a text, with options for compression: dump raises `TypeError`. -/
theorem C42_violated_filters {lib : Lib} {t : Time} {w : Nat} {s : PyStr} (hs : ascii s = true) (h : lib.valueOf t.format t.scale t.instant = .strs w [] [s]) :
    Ex.raised (createTime lib true t) = some .typeError := by
  simp only [createTime, h, timeData, List.mapM_cons, List.mapM_nil, encode_of_ascii hs]
  rfl

/-- **C42 is violated** by constants with h5py 2: name, abbreviation and reference come back as `bytes`. -/
theorem C42_violated_constant : (loadConst { Ex.lib with attrText := false } ⟨.zero, [49], [99], [110], [114], .zero, none⟩).toOption =
    some ⟨.bytes [99], .bytes [110], .zero, 0, .zero, .bytes [114], none⟩ := by decide

end Verif.Astro
