import Verif.Py.Dec
/-!
# Numbers: Python scalars and the four numpy dtypes they map to

`hickle/loaders/load_builtins.py:102-142` (`check_iterable_item_type`) asks numpy
for the least common dtype of a sequence and `:193` casts every item with
`item_dtype.type(item)`.  Python `bool`, `int`, `float` and `complex` map to numpy
`bool`, `int64`, `float64` and `complex128` (64-bit Linux).

A binary64 datum is `nan`, an infinity or a dyadic `(-1)^neg * m * 2^e`.
Simplification: NaN payloads are not distinguished.
-/
namespace Verif

/-- a binary64 datum -/
inductive F64 where
  | nan
  | inf (neg : Bool)
  | fin (neg : Bool) (m : Nat) (e : Int)
  deriving DecidableEq, Repr, Inhabited

/-- extended rational: the mathematical value of a real datum -/
inductive XR where
  | nan
  | inf (neg : Bool)
  | q (r : Rat)
  deriving DecidableEq, Repr, Inhabited

/-- exact value of `m * 2^e` -/
def dyadic (m : Int) (e : Int) : Rat :=
  if 0 ≤ e then ((m * 2 ^ e.toNat : Int) : Rat) else mkRat m (2 ^ (-e).toNat)

namespace F64

/-- mathematical value of a datum -/
def val : F64 → XR
  | nan => .nan
  | inf s => .inf s
  | fin s m e => .q (dyadic (if s then -(m : Int) else m) e)

/-- round a positive natural number to 53 significant bits, ties to even -/
def roundNat (n : Nat) : Nat × Nat :=
  let k := n.log2 + 1 - 53
  if k = 0 then (n, 0)
  else
    let d := n / 2 ^ k
    let r := n % 2 ^ k
    let half := 2 ^ (k - 1)
    let d' := if r < half then d else if r = half then (if d % 2 = 0 then d else d + 1) else d + 1
    (d', k)

/-- `float(i)` / `np.float64(i)`: nearest binary64, ties to even; `none` is `OverflowError` -/
def ofInt (i : Int) : Option F64 :=
  let (m, k) := roundNat i.natAbs
  if m * 2 ^ k < 2 ^ 1024 then some (fin (i < 0) m k) else none

end F64

/-- numpy dtypes that occur here (`numpy.dtype(int)` is `int64`), plus zero-length byte string -/
inductive DT where
  | bool | int64 | float64 | complex128
  deriving DecidableEq, Repr, Inhabited

/-- a numpy scalar value (also: one element of a numpy array or HDF5 dataset) -/
inductive NpVal where
  | b (x : Bool)
  | i (x : Int)
  | f (x : F64)
  | c (re im : F64)
  deriving DecidableEq, Repr, Inhabited

namespace DT
/-- position in numpy's promotion order bool < int64 < float64 < complex128 -/
def rank : DT → Nat
  | bool => 0 | int64 => 1 | float64 => 2 | complex128 => 3

/-- `np.result_type(a, b)` restricted to these dtypes -/
def join (a b : DT) : DT := if a.rank ≤ b.rank then b else a
end DT

namespace NpVal
def dt : NpVal → DT
  | b _ => .bool | i _ => .int64 | f _ => .float64 | c _ _ => .complex128

/-- mathematical value: real and imaginary part -/
def val : NpVal → XR × XR
  | b x => (.q (if x then 1 else 0), .q 0)
  | i x => (.q x, .q 0)
  | f x => (x.val, .q 0)
  | c re im => (re.val, im.val)

/-- values an `int64` can hold; the other dtypes have no range restriction -/
def ok : NpVal → Bool
  | i x => -(2 ^ 63) ≤ x && x < 2 ^ 63
  | _ => true
end NpVal

/-- zero of binary64 -/
def F64.zero : F64 := .fin false 0 0

/-- `dtype.type(item)` for a Python or numpy number whose dtype is not above the target:
`np.int64(2**63)` and `np.float64(10**400)` raise `OverflowError`. `none` is that error.
Downcasts never happen because the target is the common dtype. -/
def castNum : DT → NpVal → Option NpVal
  | .bool, .b x => some (.b x)
  | .int64, .b x => some (.i (if x then 1 else 0))
  | .int64, .i x => if (NpVal.i x).ok then some (.i x) else none
  | .float64, .b x => (F64.ofInt (if x then 1 else 0)).map .f
  | .float64, .i x => (F64.ofInt x).map .f
  | .float64, .f x => some (.f x)
  | .complex128, .b x => (F64.ofInt (if x then 1 else 0)).map (.c · .zero)
  | .complex128, .i x => (F64.ofInt x).map (.c · .zero)
  | .complex128, .f x => some (.c x .zero)
  | .complex128, .c x y => some (.c x y)
  | _, _ => none

theorem F64.ofInt_small {i : Int} (h : i.natAbs ≤ 2 ^ 53) :
    ∃ x, F64.ofInt i = some x ∧ x.val = .q i := by
  by_cases h53 : i.natAbs = 2 ^ 53
  · have hi : i = 2 ^ 53 ∨ i = - 2 ^ 53 := by omega
    rcases hi with rfl | rfl
    · exact ⟨.fin false (2 ^ 52) 1, by decide +kernel, by decide +kernel⟩
    · exact ⟨.fin true (2 ^ 52) 1, by decide +kernel, by decide +kernel⟩
  · have hlt : i.natAbs < 2 ^ 53 := by omega
    have hl : i.natAbs.log2 + 1 - 53 = 0 := by
      by_cases h0 : i.natAbs = 0
      · rw [h0]; decide
      · have := (Nat.log2_lt h0).2 hlt; omega
    refine ⟨.fin (i < 0) i.natAbs 0, ?_, ?_⟩
    · have h1 : F64.roundNat i.natAbs = (i.natAbs, 0) := by
        unfold F64.roundNat; simp only [hl, if_true]
      have h2 : i.natAbs * 2 ^ 0 < 2 ^ 1024 := by
        have : (2:Nat) ^ 53 < 2 ^ 1024 := by decide +kernel
        omega
      unfold F64.ofInt
      rw [h1]
      simp only []
      rw [if_pos h2]; rfl
    · simp only [F64.val, dyadic]
      congr 1
      rw [if_pos (by decide)]
      congr 1
      by_cases hn : i < 0
      · simp only [hn, decide_true, if_true]; simp; omega
      · simp only [hn, decide_false]; simp; omega

/-- `float(x)` is exact (or raises `OverflowError`) -/
def F64.Fits (x : Int) : Prop := ∀ y, F64.ofInt x = some y → y.val = .q x

theorem F64.fits_small {x : Int} (hx : x.natAbs ≤ 2 ^ 53) : F64.Fits x := by
  intro y hy
  obtain ⟨z, h1, h2⟩ := F64.ofInt_small hx
  rw [h1] at hy; simp only [Option.some.injEq] at hy; exact hy ▸ h2

/-- casting is exact for everything except integers that do not fit, going to a float type -/
theorem castNum_exact {d : DT} {v w : NpVal} (h : castNum d v = some w)
    (hx : ∀ x, v = .i x → d ≠ .int64 → F64.Fits x) : w.val = v.val ∧ w.dt = d ∧ w.ok := by
  have key : ∀ x : Int, F64.Fits x → ∀ y, F64.ofInt x = some y → y.val = .q x := fun x hx => hx
  have key' : ∀ x : Bool, ∀ y, F64.ofInt (if x then 1 else 0) = some y → y.val = .q (if x then 1 else 0) := by
    intro x y hy
    have := key (if x then 1 else 0) (F64.fits_small (by cases x <;> decide)) y hy
    rw [this]; cases x <;> rfl
  have hz : F64.zero.val = .q 0 := by decide
  cases d <;> cases v <;> simp only [castNum, Option.map_eq_some_iff, Option.some.injEq] at h <;>
    (try (simp at h; done))
  case bool.b => subst h; simp [NpVal.val, NpVal.dt, NpVal.ok]
  case int64.b x => subst h; cases x <;> decide
  case int64.i x => split at h <;> simp at h; subst h; next hk => exact ⟨rfl, rfl, hk⟩
  case float64.b x => obtain ⟨y, hy, rfl⟩ := h; simp [NpVal.val, NpVal.dt, NpVal.ok, key' _ _ hy]
  case float64.i x => obtain ⟨y, hy, rfl⟩ := h; simp [NpVal.val, NpVal.dt, NpVal.ok, key _ (hx x rfl (by simp)) _ hy]
  case float64.f x => subst h; simp [NpVal.dt, NpVal.ok]
  case complex128.b x => obtain ⟨y, hy, rfl⟩ := h; simp [NpVal.val, NpVal.dt, NpVal.ok, key' _ _ hy, hz]
  case complex128.i x => obtain ⟨y, hy, rfl⟩ := h; simp [NpVal.val, NpVal.dt, NpVal.ok, key _ (hx x rfl (by simp)) _ hy, hz]
  case complex128.f x => subst h; simp [NpVal.val, NpVal.dt, NpVal.ok, hz]
  case complex128.c x => subst h; simp [NpVal.dt, NpVal.ok]

end Verif
