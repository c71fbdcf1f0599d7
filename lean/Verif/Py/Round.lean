import Verif.Py.F64
/-!
# Conversion of ints to floats

`F64.ofInt`, the model of `float(i)`, gives the nearest binary64 number: no other one is closer.
-/
namespace Verif
namespace F64

/-- how far the rounded number is away -/
theorem roundNat_near (n : Nat) : ∃ d r δ : Nat, n = d * 2 ^ (roundNat n).2 + r ∧ r < 2 ^ (roundNat n).2 ∧ δ ≤ r ∧ (0 < (roundNat n).2 → δ ≤ 2 ^ (roundNat n).2 - r) ∧
    (0 < (roundNat n).2 → 2 ^ 52 ≤ d) ∧
    ((roundNat n).1 * 2 ^ (roundNat n).2 = n + δ ∨ (roundNat n).1 * 2 ^ (roundNat n).2 + δ = n) := by
  by_cases hk : n.log2 + 1 - 53 = 0
  · have h1 : roundNat n = (n, 0) := by unfold roundNat; simp only [hk, if_true]
    rw [h1]
    exact ⟨n, 0, 0, by simp, by simp, by simp, by simp, by simp, by simp⟩
  · have h2 : (roundNat n).2 = n.log2 + 1 - 53 := by unfold roundNat; simp only [hk, if_false]
    have h1 : (roundNat n).1 = if n % 2 ^ (n.log2 + 1 - 53) < 2 ^ (n.log2 + 1 - 53 - 1) then n / 2 ^ (n.log2 + 1 - 53) else
        if n % 2 ^ (n.log2 + 1 - 53) = 2 ^ (n.log2 + 1 - 53 - 1) then (if n / 2 ^ (n.log2 + 1 - 53) % 2 = 0 then n / 2 ^ (n.log2 + 1 - 53) else n / 2 ^ (n.log2 + 1 - 53) + 1)
        else n / 2 ^ (n.log2 + 1 - 53) + 1 := by unfold roundNat; simp only [hk, if_false]
    rw [h2]
    have hn0 : n ≠ 0 := by rintro rfl; simp at hk
    have hlog : 2 ^ n.log2 ≤ n := Nat.log2_self_le hn0
    have hpow : 2 ^ n.log2 = 2 ^ 52 * 2 ^ (n.log2 + 1 - 53) := by rw [← Nat.pow_add]; congr 1; omega
    have hhalf : 2 ^ (n.log2 + 1 - 53) = 2 * 2 ^ (n.log2 + 1 - 53 - 1) := by
      rw [← Nat.pow_succ']; congr 1; omega
    generalize n.log2 + 1 - 53 = k at *
    have hpos : 0 < 2 ^ k := Nat.two_pow_pos k
    have hdiv : n = n / 2 ^ k * 2 ^ k + n % 2 ^ k := (Nat.div_add_mod' n (2 ^ k)).symm
    have hmod : n % 2 ^ k < 2 ^ k := Nat.mod_lt _ hpos
    have hd : 2 ^ 52 ≤ n / 2 ^ k := (Nat.le_div_iff_mul_le hpos).2 (by rw [← hpow]; exact hlog)
    have up : (n / 2 ^ k + 1) * 2 ^ k = n / 2 ^ k * 2 ^ k + 2 ^ k := Nat.succ_mul _ _
    generalize hD : n / 2 ^ k = d at *
    generalize hr : n % 2 ^ k = r at *
    generalize hX : d * 2 ^ k = X at *
    rw [h1]
    by_cases c1 : r < 2 ^ (k - 1)
    · rw [if_pos c1, hX]
      exact ⟨d, r, r, by rw [hX]; exact hdiv, hmod, Nat.le_refl _, fun _ => by omega, fun _ => hd, .inr (by omega)⟩
    · rw [if_neg c1]
      by_cases c2 : r = 2 ^ (k - 1)
      · rw [if_pos c2]
        by_cases c3 : d % 2 = 0
        · rw [if_pos c3, hX]
          exact ⟨d, r, r, by rw [hX]; exact hdiv, hmod, Nat.le_refl _, fun _ => by omega, fun _ => hd, .inr (by omega)⟩
        · rw [if_neg c3, up]
          exact ⟨d, r, 2 ^ k - r, by rw [hX]; exact hdiv, hmod, by omega, fun _ => by omega, fun _ => hd, .inl (by omega)⟩
      · rw [if_neg c2, up]
        exact ⟨d, r, 2 ^ k - r, by rw [hX]; exact hdiv, hmod, by omega, fun _ => by omega, fun _ => hd, .inl (by omega)⟩

/-- a multiple of the last place, or a number below all numbers of this size, is not closer -/
theorem roundNat_least (n : Nat) (Z : Int) (hZ : (∃ q : Int, Z = q * 2 ^ (roundNat n).2) ∨ (0 < (roundNat n).2 ∧ Z ≤ 2 ^ 52 * 2 ^ (roundNat n).2)) :
    Z ≤ n - ((((roundNat n).1 * 2 ^ (roundNat n).2 : Nat) : Int) - n).natAbs ∨ n + ((((roundNat n).1 * 2 ^ (roundNat n).2 : Nat) : Int) - n).natAbs ≤ Z := by
  obtain ⟨d, r, δ, h1, h2, h3, h4, h5, h6⟩ := roundNat_near n
  have hδ : ((((roundNat n).1 * 2 ^ (roundNat n).2 : Nat) : Int) - n).natAbs = δ := by omega
  rw [hδ]
  clear hδ h6
  generalize (roundNat n).2 = k at *
  have hn : (n : Int) = d * 2 ^ k + r := by rw [h1]; simp
  have hr : (r : Int) < 2 ^ k := by exact_mod_cast h2
  have hpos : (0 : Int) < 2 ^ k := Int.pow_pos (by decide)
  have below : Z ≤ d * 2 ^ k → Z ≤ n - δ := fun h => by omega
  rcases hZ with ⟨q, rfl⟩ | ⟨hk, hZ⟩
  · by_cases hq : q ≤ d
    · exact .inl (below (Int.mul_le_mul_of_nonneg_right hq (by omega)))
    · right
      have h7 : ((d : Int) + 1) * 2 ^ k ≤ q * 2 ^ k := Int.mul_le_mul_of_nonneg_right (by omega) (by omega)
      rw [Int.add_mul] at h7
      have h8 : (δ : Int) + r ≤ 2 ^ k := by
        rcases Nat.eq_zero_or_pos k with rfl | hk
        · simp at hr ⊢; omega
        · have := h4 hk
          have h9 : δ + r ≤ 2 ^ k := by omega
          exact_mod_cast h9
      omega
  · refine .inl (below (Int.le_trans hZ (Int.mul_le_mul_of_nonneg_right ?_ (by omega))))
    have := h5 hk
    omega

theorem mkRat_le {s c : Int} {D : Nat} (hD : 0 < D) (h : s ≤ c * D) : mkRat s D ≤ (c : Rat) := by
  have hD' : (0 : Rat) < (D : Rat) := by exact_mod_cast hD
  refine Rat.le_of_mul_le_mul_right (c := (D : Rat)) ?_ hD'
  rw [Rat.mkRat_eq_div, Rat.div_mul_cancel (by intro h0; rw [h0] at hD'; exact absurd hD' (by decide))]
  exact_mod_cast h

theorem le_mkRat {s c : Int} {D : Nat} (hD : 0 < D) (h : c * D ≤ s) : (c : Rat) ≤ mkRat s D := by
  have hD' : (0 : Rat) < (D : Rat) := by exact_mod_cast hD
  refine Rat.le_of_mul_le_mul_right (c := (D : Rat)) ?_ hD'
  rw [Rat.mkRat_eq_div, Rat.div_mul_cancel (by intro h0; rw [h0] at hD'; exact absurd hD' (by decide))]
  exact_mod_cast h

/-- **`float(x)` is the nearest float.**  It is an integer `r`, and no float `(-1)^neg * m * 2^e` is closer to `x`
than `r` is. -/
theorem ofInt_nearest {x : Int} {y : F64} (h : ofInt x = some y) :
    ∃ r : Int, y.val = .q r ∧ ∀ (neg : Bool) (m : Nat) (e : Int), m < 2 ^ 53 → ∀ z, (fin neg m e).val = .q z →
      z ≤ ((x - (r - x).natAbs : Int) : Rat) ∨ ((x + (r - x).natAbs : Int) : Rat) ≤ z := by
  have hy : y = fin (decide (x < 0)) (roundNat x.natAbs).1 (roundNat x.natAbs).2 := by
    unfold ofInt at h
    simp only at h
    split at h
    · exact (Option.some.inj h).symm
    · simp at h
  subst hy
  generalize hR : (((roundNat x.natAbs).1 * 2 ^ (roundNat x.natAbs).2 : Nat) : Int) = R
  have hval : (fin (decide (x < 0)) (roundNat x.natAbs).1 (roundNat x.natAbs).2).val = .q ((if x < 0 then -R else R : Int) : Rat) := by
    simp only [val, dyadic]
    rw [if_pos (by omega), ← hR]
    by_cases hx : x < 0
    · simp [hx, Int.neg_mul]
    · simp [hx]
  refine ⟨if x < 0 then -R else R, hval, ?_⟩
  intro neg m e hm z hz
  have hδ : ((if x < 0 then -R else R) - x).natAbs = (R - (x.natAbs : Int)).natAbs := by split <;> omega
  rw [hδ]
  simp only [val, XR.q.injEq] at hz
  generalize hs : (if neg = true then -(m : Int) else (m : Int)) = s at hz
  have hs1 : s < 2 ^ 53 := by split at hs <;> omega
  have hs2 : -2 ^ 53 < s := by split at hs <;> omega
  have least := roundNat_least x.natAbs
  rw [hR] at least
  obtain ⟨d, r, δ, n1, n2, n3, _, n5, n6⟩ := roundNat_near x.natAbs
  have hk0 : (roundNat x.natAbs).2 = 0 → R = x.natAbs := by
    intro h0
    rw [h0] at n2
    omega
  have hk1 : 0 < (roundNat x.natAbs).2 → 2 ^ 53 ≤ x.natAbs := by
    intro hk
    have h5 := n5 hk
    have : 2 ≤ 2 ^ (roundNat x.natAbs).2 := Nat.pow_le_pow_right (n := 2) (by decide) hk
    have := Nat.mul_le_mul h5 this
    omega
  have hp52 : 0 < (roundNat x.natAbs).2 → (2 : Int) ^ 53 ≤ 2 ^ 52 * 2 ^ (roundNat x.natAbs).2 := by
    intro hk
    have : 2 ≤ 2 ^ (roundNat x.natAbs).2 := Nat.pow_le_pow_right (n := 2) (by decide) hk
    have h2 : (2 : Int) ≤ 2 ^ (roundNat x.natAbs).2 := by exact_mod_cast this
    omega
  clear n1 n2 n3 n5 n6 hval h
  generalize (roundNat x.natAbs).2 = k at *
  by_cases he : 0 ≤ e
  · simp only [dyadic, if_pos he] at hz
    subst hz
    have cls : ∀ t : Int, t < 2 ^ 53 → (∃ q : Int, t * 2 ^ e.toNat = q * 2 ^ k) ∨ (0 < k ∧ t * 2 ^ e.toNat ≤ 2 ^ 52 * 2 ^ k) := by
      intro t ht
      by_cases hek : k ≤ e.toNat
      · left
        refine ⟨t * 2 ^ (e.toNat - k), ?_⟩
        rw [Int.mul_assoc, ← Int.pow_add]
        congr 2; omega
      · right
        refine ⟨by omega, ?_⟩
        have h1 : (2 : Int) ^ e.toNat ≤ 2 ^ (k - 1) := by
          have := Nat.pow_le_pow_right (n := 2) (by decide) (show e.toNat ≤ k - 1 by omega)
          exact_mod_cast this
        have h2 : (2 : Int) ^ k = 2 * 2 ^ (k - 1) := by
          have : (2 : Nat) ^ k = 2 * 2 ^ (k - 1) := by rw [← Nat.pow_succ']; congr 1; omega
          exact_mod_cast this
        have h3 : t * 2 ^ e.toNat ≤ 2 ^ 53 * 2 ^ e.toNat :=
          Int.mul_le_mul_of_nonneg_right (by omega) (Int.le_of_lt (Int.pow_pos (by decide)))
        rw [h2]
        omega
    rw [Rat.intCast_le_intCast, Rat.intCast_le_intCast]
    by_cases hx : x < 0
    · have := least (-s * 2 ^ e.toNat) (cls (-s) (by omega))
      rw [Int.neg_mul] at this
      omega
    · have := least (s * 2 ^ e.toNat) (cls s hs1)
      omega
  · simp only [dyadic, if_neg he] at hz
    subst hz
    have hD : 0 < 2 ^ (-e).toNat := Nat.two_pow_pos _
    rcases Nat.eq_zero_or_pos k with hk | hk
    · have := hk0 hk
      rw [this]
      simp only [Int.sub_self, Int.natAbs_zero, Int.natCast_zero, Int.sub_zero, Int.add_zero]
      exact Rat.le_total
    · have h1 := least (2 ^ 53 - 1) (.inr ⟨hk, by have := hp52 hk; omega⟩)
      have h2 := hk1 hk
      have hDi : (1 : Int) ≤ ((2 ^ (-e).toNat : Nat) : Int) := by exact_mod_cast hD
      generalize 2 ^ (-e).toNat = D at *
      by_cases hx : x < 0
      · right
        refine Rat.le_trans (b := ((-(2 ^ 53 - 1) : Int) : Rat)) (Rat.intCast_le_intCast.2 (by omega)) (le_mkRat hD ?_)
        have : (2 ^ 53 - 1) * 1 ≤ (2 ^ 53 - 1) * (D : Int) := Int.mul_le_mul_of_nonneg_left hDi (by decide)
        omega
      · left
        refine Rat.le_trans (b := ((2 ^ 53 - 1 : Int) : Rat)) (mkRat_le hD ?_) (Rat.intCast_le_intCast.2 (by omega))
        have : (2 ^ 53 - 1) * 1 ≤ (2 ^ 53 - 1) * (D : Int) := Int.mul_le_mul_of_nonneg_left hDi (by decide)
        omega

end F64
end Verif
