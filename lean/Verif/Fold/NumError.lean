import Verif.Fold.FloatText
/-!
# How accurately numbers in files are read (C139): the computation in `f64`
-/

set_option autoImplicit false

namespace Kami.FoldFile

open Kami F32

attribute [local irreducible] F64.unit

/-! ### one rounding -/

/-- the error of rounding, also for subnormal numbers -/
theorem rnd_any (num den : ℕ) (hd : 0 < den) : |(F64.rnd num den : ℝ) - (num : ℝ) / den| ≤ (num : ℝ) / den / 2 ^ 53 + 1 := by
  have h0 : (0 : ℝ) ≤ (num : ℝ) / den / 2 ^ 53 := by positivity
  by_cases h : 2 ^ 52 * den ≤ num
  · have := F64.rnd_err num den hd h
    linarith
  · have h1 := F64.rnd_err_ulp num den hd
    have hq : num / den < 2 ^ 52 := (Nat.div_lt_iff_lt_mul hd).2 (not_le.1 h)
    have hs : Nat.log2 (num / den) - 52 = 0 := by
      by_cases hz : num / den = 0
      · rw [hz]; decide
      · have := (Nat.log2_lt hz).2 hq
        omega
    rw [hs, pow_zero] at h1
    linarith

theorem unitR_pos : (0 : ℝ) < F64.unit := Nat.cast_pos.2 (lt_of_lt_of_le (by norm_num) unit_large)

theorem ofNat_err (S : ℕ) : |(F64.ofNat S : ℝ) - S * F64.unit| ≤ S * F64.unit / 2 ^ 53 := by
  rcases Nat.eq_zero_or_pos S with rfl | hS
  · rw [ofNat_exact (by norm_num)]
    simp
  · have hU := unit_large
    have h := F64.rnd_err (S * F64.unit) 1 one_pos (by
      rw [Nat.mul_one]
      refine le_trans ?_ (Nat.le_mul_of_pos_left _ hS)
      refine le_trans ?_ hU
      norm_num)
    rw [Nat.cast_one, div_one] at h
    simp only [Nat.cast_mul] at h
    exact h

theorem err3 {W q F : ℝ} (h1 : |q - W| ≤ 3 * (W / 2 ^ 53)) (h2 : |F - q| ≤ q / 2 ^ 53 + 1) (hW : 0 ≤ W) :
    |F - W| ≤ 5 * (W / 2 ^ 53) + 1 := by
  have h3 : q ≤ 2 * W := by
    have := (abs_le.1 h1).2
    norm_num at this ⊢
    linarith
  calc |F - W| = |(F - q) + (q - W)| := by ring_nf
    _ ≤ |F - q| + |q - W| := abs_add_le _ _
    _ ≤ 5 * (W / 2 ^ 53) + 1 := by
      norm_num at h1 h2 ⊢
      linarith

theorem pow10_bounds (n : ℕ) : (10 : ℝ) ^ n * F64.unit * (2 / 3) ≤ pow10 n ∧ (pow10 n : ℝ) ≤ 2 * (10 ^ n * F64.unit) := by
  have h := abs_le.1 (pow10_err n)
  have hX : (0 : ℝ) ≤ 10 ^ n * F64.unit := mul_nonneg (by positivity) unitR_pos.le
  generalize (10 : ℝ) ^ n * F64.unit = X at *
  norm_num at h ⊢
  constructor <;> linarith

/-- a significand times a power of ten -/
theorem mul_read_err (S n : ℕ) :
    |(F64.mul (F64.ofNat S) (pow10 n) : ℝ) - S * 10 ^ n * F64.unit| ≤ 5 * (S * 10 ^ n * F64.unit / 2 ^ 53) + 1 := by
  have hU := unitR_pos
  have hT : (0 : ℝ) < 10 ^ n := by positivity
  have hA := ofNat_err S
  have hP := pow10_err n
  have hPb := pow10_bounds n
  have hr := rnd_any (F64.ofNat S * pow10 n) F64.unit (Nat.cast_pos.1 hU)
  rw [Nat.cast_mul] at hr
  have hS : (0 : ℝ) ≤ S := Nat.cast_nonneg S
  refine err3 ?_ hr (by positivity)
  generalize (F64.ofNat S : ℝ) = A at *
  generalize (pow10 n : ℝ) = P at *
  generalize (F64.unit : ℝ) = U at *
  generalize (10 : ℝ) ^ n = T at *
  generalize (S : ℝ) = s at *
  have hP0 : 0 ≤ P := le_trans (by positivity) hPb.1
  have e : A * P / U - s * T * U = (A - s * U) * (P / U) + s * (P - T * U) := by field_simp; ring
  have hPU : P / U ≤ 2 * T := by rw [div_le_iff₀ hU]; linarith
  calc |A * P / U - s * T * U| = |(A - s * U) * (P / U) + s * (P - T * U)| := by rw [e]
    _ ≤ |(A - s * U) * (P / U)| + |s * (P - T * U)| := abs_add_le _ _
    _ = |A - s * U| * (P / U) + s * |P - T * U| := by
      rw [abs_mul, abs_mul, abs_of_nonneg hS, abs_of_nonneg (div_nonneg hP0 hU.le)]
    _ ≤ (s * U / 2 ^ 53) * (2 * T) + s * (T * U / 2 ^ 53) :=
      add_le_add (mul_le_mul hA hPU (div_nonneg hP0 hU.le) (by positivity)) (mul_le_mul_of_nonneg_left hP hS)
    _ = 3 * (s * T * U / 2 ^ 53) := by ring

/-- a significand divided by a power of ten -/
theorem div_read_err (S n : ℕ) :
    |(F64.div (F64.ofNat S) (pow10 n) : ℝ) - S / 10 ^ n * F64.unit| ≤ 5 * (S / 10 ^ n * F64.unit / 2 ^ 53) + 1 := by
  have hU := unitR_pos
  have hT : (0 : ℝ) < 10 ^ n := by positivity
  have hA := ofNat_err S
  have hP := pow10_err n
  have hPb := pow10_bounds n
  have hP0 : (0 : ℝ) < pow10 n := lt_of_lt_of_le (by positivity) hPb.1
  have hr := rnd_any (F64.ofNat S * F64.unit) (pow10 n) (Nat.cast_pos.1 hP0)
  rw [Nat.cast_mul] at hr
  have hS : (0 : ℝ) ≤ S := Nat.cast_nonneg S
  refine err3 ?_ hr (by positivity)
  generalize (F64.ofNat S : ℝ) = A at *
  generalize (pow10 n : ℝ) = P at *
  generalize (F64.unit : ℝ) = U at *
  generalize (10 : ℝ) ^ n = T at *
  generalize (S : ℝ) = s at *
  have e : A * U / P - s / T * U = (A - s * U) * (U / P) + s / T * ((T * U - P) * (U / P)) := by field_simp; ring
  have hUP : U / P ≤ 3 / 2 / T := by
    rw [div_le_div_iff₀ hP0 hT]
    linarith
  have hUP0 : 0 ≤ U / P := by positivity
  calc |A * U / P - s / T * U| = |(A - s * U) * (U / P) + s / T * ((T * U - P) * (U / P))| := by rw [e]
    _ ≤ |(A - s * U) * (U / P)| + |s / T * ((T * U - P) * (U / P))| := abs_add_le _ _
    _ = |A - s * U| * (U / P) + s / T * (|P - T * U| * (U / P)) := by
      rw [abs_mul, abs_mul, abs_mul, abs_of_nonneg hUP0, abs_of_nonneg (show 0 ≤ s / T by positivity), abs_sub_comm P]
    _ ≤ (s * U / 2 ^ 53) * (3 / 2 / T) + s / T * ((T * U / 2 ^ 53) * (3 / 2 / T)) := by
      refine add_le_add (mul_le_mul hA hUP hUP0 (by positivity)) (mul_le_mul_of_nonneg_left ?_ (by positivity))
      exact mul_le_mul hP hUP hUP0 (by positivity)
    _ = 3 * (s / T * U / 2 ^ 53) := by field_simp; ring

/-! ### exponents beyond the table -/

theorem unit_small : 2 ^ 400 * 10 ^ 200 ≤ F64.unit ∧ 2 ^ 70 * F64.unit ≤ 2 ^ 400 * 10 ^ 308 := by
  refine ⟨?_, ?_⟩ <;> decide +kernel

theorem tooLarge_bounds : 17 * 10 ^ 307 * F64.unit ≤ F64.tooLarge ∧ F64.tooLarge ≤ 18 * 10 ^ 307 * F64.unit := by
  refine ⟨?_, ?_⟩ <;> decide +kernel

/-- dividing keeps small numbers small -/
theorem div_small {f n B : ℕ} (hn : 1 ≤ n) (hB : 2 ≤ B) (hf : f ≤ B) : F64.div f (pow10 n) ≤ B := by
  have hU := unitR_pos
  have hPb := (pow10_bounds n).1
  have hT : (10 : ℝ) ≤ 10 ^ n := by
    calc (10 : ℝ) = 10 ^ 1 := (pow_one _).symm
      _ ≤ 10 ^ n := pow_le_pow_right₀ (by norm_num) hn
  have hP0 : (0 : ℝ) < pow10 n := lt_of_lt_of_le (by positivity) hPb
  have hr := rnd_any (f * F64.unit) (pow10 n) (Nat.cast_pos.1 hP0)
  rw [Nat.cast_mul] at hr
  have hfB : (f : ℝ) ≤ B := Nat.cast_le.2 hf
  have hB2 : (2 : ℝ) ≤ B := by exact_mod_cast hB
  have hf0 : (0 : ℝ) ≤ f := Nat.cast_nonneg f
  have hgoal : (F64.rnd (f * F64.unit) (pow10 n) : ℝ) ≤ B := by
    have hq : (f : ℝ) * F64.unit / pow10 n ≤ f / 6 := by
      rw [div_le_div_iff₀ hP0 (by norm_num)]
      have : (10 : ℝ) * F64.unit ≤ 10 ^ n * F64.unit := mul_le_mul_of_nonneg_right hT hU.le
      have h6 : (F64.unit : ℝ) * 6 ≤ pow10 n := by linarith
      nlinarith
    have := (abs_le.1 hr).2
    generalize (f : ℝ) * F64.unit / pow10 n = q at *
    generalize (F64.rnd (f * F64.unit) (pow10 n) : ℝ) = F at *
    norm_num at this
    linarith
  exact Nat.cast_le.1 hgoal

theorem scaleDown_small {B : ℕ} (hB : 2 ≤ B) (fuel : ℕ) : ∀ {f n : ℕ}, 1 ≤ n → f ≤ B → scaleDown fuel f n ≤ B := by
  induction fuel with
  | zero => intro f n hn hf; exact div_small hn hB hf
  | succ k ih =>
    intro f n hn hf
    unfold scaleDown
    by_cases h1 : n ≤ 308
    · rw [if_pos h1]; exact div_small hn hB hf
    · rw [if_neg h1]
      by_cases h2 : f = 0
      · rw [if_pos h2]; exact Nat.zero_le _
      · rw [if_neg h2]
        exact ih (by omega) (div_small (by norm_num) hB hf)

/-- far below the table -/
theorem far_below {S n : ℕ} (hS : S < 2 ^ 64) (hn : 308 ≤ n) : (S : ℝ) / 10 ^ n * F64.unit ≤ 2 ^ 394 := by
  have hU := unitR_pos
  have h1 : (S : ℝ) ≤ 2 ^ 64 := by exact_mod_cast hS.le
  have h2 : (10 : ℝ) ^ 308 ≤ 10 ^ n := pow_le_pow_right₀ (by norm_num) hn
  have h3 : (2 : ℝ) ^ 70 * F64.unit ≤ 2 ^ 400 * 10 ^ 308 := by
    have := Nat.cast_le (α := ℝ).2 unit_small.2
    rw [Nat.cast_mul, Nat.cast_mul, Nat.cast_pow, Nat.cast_pow, Nat.cast_pow, Nat.cast_ofNat, Nat.cast_ofNat] at this
    exact this
  have h4 : (0 : ℝ) < 10 ^ 308 := by positivity
  rw [div_mul_eq_mul_div, div_le_iff₀ (lt_of_lt_of_le h4 h2)]
  have h6 : (2 : ℝ) ^ 400 = 64 * 2 ^ 394 := by
    rw [show (64 : ℝ) = 2 ^ 6 by norm_num, ← pow_add]
  have h7 : (2 : ℝ) ^ 70 = 64 * 2 ^ 64 := by norm_num
  have h8 : (0 : ℝ) < 2 ^ 394 := by positivity
  rw [h6, h7] at h3
  generalize (10 : ℝ) ^ 308 = K at *
  generalize (2 : ℝ) ^ 394 = L at *
  generalize (F64.unit : ℝ) = U at *
  generalize (10 : ℝ) ^ n = T at *
  have h5 : (S : ℝ) * U ≤ 2 ^ 64 * U := mul_le_mul_of_nonneg_right h1 hU.le
  nlinarith [mul_le_mul_of_nonneg_left h2 h8.le]

theorem zpow_neg_nat {e : ℤ} (h : ¬ 0 ≤ e) : (10 : ℝ) ^ e = 1 / 10 ^ (-e).toNat := by
  obtain ⟨n, hn⟩ := Int.eq_ofNat_of_zero_le (show 0 ≤ -e by omega)
  obtain rfl : e = -n := by omega
  rw [neg_neg, Int.toNat_natCast, zpow_neg, zpow_natCast, one_div]

theorem zpow_nonneg_nat {e : ℤ} (h : 0 ≤ e) : (10 : ℝ) ^ e = 10 ^ e.toNat := by
  obtain ⟨n, rfl⟩ := Int.eq_ofNat_of_zero_le h
  rw [Int.toNat_natCast, zpow_natCast]

/-- a number `L` for the proofs, instead of a power -/
theorem small_bound : ∃ (L : ℝ) (B : ℕ), 1 ≤ L ∧ (2 : ℝ) ^ 400 = 64 * L ∧ 2 ≤ B ∧ (B : ℝ) = 4 * L ∧
    ∀ S n : ℕ, S < 2 ^ 64 → 308 ≤ n → (S : ℝ) / 10 ^ n * F64.unit ≤ L := by
  refine ⟨2 ^ 394, 2 ^ 396, one_le_pow₀ (by norm_num), ?_, ?_, ?_, fun S n => far_below⟩
  · rw [show (64 : ℝ) = 2 ^ 6 by norm_num, ← pow_add]
  · decide +kernel
  · rw [show (4 : ℝ) = 2 ^ 2 by norm_num, ← pow_add, Nat.cast_pow, Nat.cast_ofNat]

/-- **the number computed from a significand and an exponent** -/
theorem fromParts_err {S F : ℕ} {e : ℤ} (hS : S < 2 ^ 64) (h : f64FromParts S e = some F) :
    |(F : ℝ) - S * 10 ^ e * F64.unit| ≤ 5 * (S * 10 ^ e * F64.unit / 2 ^ 53) + 2 ^ 400 := by
  have hU := unitR_pos
  have hS0 : (0 : ℝ) ≤ S := Nat.cast_nonneg S
  obtain ⟨L, B, hL1, h400, hB2, hBL, hfar⟩ := small_bound
  rw [h400]
  clear h400
  unfold f64FromParts at h
  by_cases h0 : 0 ≤ e
  · rw [if_pos h0] at h
    by_cases h1 : e ≤ 308
    · rw [if_pos h1] at h
      simp only at h
      by_cases h2 : F64.tooLarge ≤ F64.mul (F64.ofNat S) (pow10 e.toNat)
      · rw [if_pos h2] at h; cases h
      · rw [if_neg h2] at h
        cases h
        have := mul_read_err S e.toNat
        rw [zpow_nonneg_nat h0]
        linarith
    · rw [if_neg h1] at h
      by_cases h2 : S = 0
      · rw [if_pos h2] at h
        cases h
        rw [h2]
        simp only [Nat.cast_zero, zero_mul, sub_zero, abs_zero, zero_div, mul_zero, zero_add]
        linarith
      · rw [if_neg h2] at h; cases h
  · rw [if_neg h0, Option.some.injEq] at h
    rw [zpow_neg_nat h0, mul_one_div]
    have hneg : 1 ≤ (-e).toNat := by omega
    generalize (-e).toNat = n at *
    by_cases h1 : n ≤ 308
    · have hF : F = F64.div (F64.ofNat S) (pow10 n) := by
        rw [← h]
        cases n / 308 with
        | zero => rfl
        | succ k => unfold scaleDown; rw [if_pos h1]
      rw [hF]
      have := div_read_err S n
      linarith
    · have hfirst : F64.div (F64.ofNat S) (pow10 308) ≤ B := by
        have h2 := (abs_le.1 (div_read_err S 308)).2
        have h3 := hfar S 308 hS (le_refl 308)
        refine Nat.cast_le (α := ℝ).1 ?_
        rw [hBL]
        generalize (S : ℝ) / 10 ^ 308 * F64.unit = W at *
        norm_num at h2
        linarith
      have hF : F ≤ B := by
        obtain ⟨k, hk⟩ : ∃ k, n / 308 = k + 1 := ⟨n / 308 - 1, by omega⟩
        rw [hk] at h
        unfold scaleDown at h
        rw [if_neg h1] at h
        by_cases h2 : F64.ofNat S = 0
        · rw [if_pos h2] at h
          rw [← h]
          exact Nat.zero_le _
        · rw [if_neg h2] at h
          rw [← h]
          exact scaleDown_small hB2 k (by omega) hfirst
      have hFR : (F : ℝ) ≤ 4 * L := hBL ▸ Nat.cast_le (α := ℝ).2 hF
      have hW := hfar S n hS (by omega)
      have hW0 : 0 ≤ (S : ℝ) / 10 ^ n * F64.unit := by positivity
      have hF0 : (0 : ℝ) ≤ F := Nat.cast_nonneg F
      generalize (S : ℝ) / 10 ^ n * F64.unit = W at *
      rw [abs_le]
      have : 0 ≤ W / 2 ^ 53 := by positivity
      constructor <;> linarith

theorem tooLargeR : 17 * 10 ^ 307 * (F64.unit : ℝ) ≤ F64.tooLarge ∧ (F64.tooLarge : ℝ) ≤ 18 * 10 ^ 307 * F64.unit := by
  have h1 := Nat.cast_le (α := ℝ).2 tooLarge_bounds.1
  have h2 := Nat.cast_le (α := ℝ).2 tooLarge_bounds.2
  rw [Nat.cast_mul, Nat.cast_mul, Nat.cast_pow, Nat.cast_ofNat, Nat.cast_ofNat] at h1 h2
  exact ⟨h1, h2⟩

/-- the numbers `10^307` and `tooLarge` for the proofs -/
theorem large_bound : ∃ K X : ℝ, (10 : ℝ) ^ 307 = K ∧ (F64.tooLarge : ℝ) = X ∧ 10 ^ 25 ≤ K ∧ (10 : ℝ) ^ 309 = 100 * K ∧
    17 * K * (F64.unit : ℝ) ≤ X ∧ X ≤ 18 * K * F64.unit := by
  refine ⟨10 ^ 307, F64.tooLarge, rfl, rfl, pow_le_pow_right₀ (by norm_num) (by norm_num), ?_, tooLargeR.1, tooLargeR.2⟩
  rw [show (100 : ℝ) = 10 ^ 2 by norm_num, ← pow_add]

theorem one_le_unitR : (1 : ℝ) ≤ F64.unit := by
  have : 1 ≤ F64.unit := Nat.cast_pos.1 unitR_pos
  exact_mod_cast this

/-- only very large numbers are refused -/
theorem fromParts_none {S : ℕ} {e : ℤ} (h : f64FromParts S e = none) : 15 * 10 ^ 307 ≤ (S : ℝ) * 10 ^ e := by
  have hU := unitR_pos
  have hU1 := one_le_unitR
  obtain ⟨K, X, hK, hX, hK25, h309, hX1, hX2⟩ := large_bound
  rw [hK]
  clear hK
  have hK1 : 1 ≤ K := le_trans (by norm_num) hK25
  unfold f64FromParts at h
  by_cases h0 : 0 ≤ e
  · rw [if_pos h0] at h
    rw [zpow_nonneg_nat h0]
    by_cases h1 : e ≤ 308
    · rw [if_pos h1] at h
      simp only at h
      by_cases h2 : F64.tooLarge ≤ F64.mul (F64.ofNat S) (pow10 e.toNat)
      · have h3 := (abs_le.1 (mul_read_err S e.toNat)).2
        have h4 := Nat.cast_le (α := ℝ).2 h2
        rw [hX] at h4
        clear h2 hX h h309 h1
        refine le_of_mul_le_mul_right ?_ hU
        generalize (S : ℝ) * 10 ^ e.toNat * F64.unit = W at *
        generalize (F64.mul (F64.ofNat S) (pow10 e.toNat) : ℝ) = F at *
        have hKU : 1 ≤ K * (F64.unit : ℝ) := by nlinarith
        generalize (F64.unit : ℝ) = U at *
        rw [mul_assoc] at hX1 ⊢
        generalize K * U = Y at *
        norm_num at h3
        linarith
      · rw [if_neg h2] at h; cases h
    · rw [if_neg h1] at h
      by_cases h2 : S = 0
      · rw [if_pos h2] at h; cases h
      · have h3 : (1 : ℝ) ≤ S := by exact_mod_cast Nat.one_le_iff_ne_zero.2 h2
        have h4 : (10 : ℝ) ^ 309 ≤ 10 ^ e.toNat := pow_le_pow_right₀ (by norm_num) (by omega)
        rw [h309] at h4
        clear h309 hX
        generalize (10 : ℝ) ^ e.toNat = T at *
        nlinarith
  · rw [if_neg h0] at h; cases h

/-- very large numbers are refused -/
theorem fromParts_refused {S : ℕ} {e : ℤ} (hS : S < 2 ^ 64) (h : 50 * 10 ^ 307 ≤ (S : ℝ) * 10 ^ e) : f64FromParts S e = none := by
  have hU := unitR_pos
  have hU1 := one_le_unitR
  have hS1 : (S : ℝ) ≤ 2 ^ 64 := by exact_mod_cast hS.le
  obtain ⟨K, X, hK, hX, hK25, h309, hX1, hX2⟩ := large_bound
  rw [hK] at h
  clear hK h309
  have hK1 : 1 ≤ K := le_trans (by norm_num) hK25
  have hSpos : S ≠ 0 := by
    rintro rfl
    rw [Nat.cast_zero, zero_mul] at h
    linarith
  have h0 : 0 ≤ e := by
    by_contra hneg
    have h1 : (10 : ℝ) ^ e ≤ 1 := zpow_le_one_of_nonpos₀ (by norm_num) (by omega)
    have h2 : (0 : ℝ) ≤ (10 : ℝ) ^ e := by positivity
    have h3 : (S : ℝ) * 10 ^ e ≤ 2 ^ 64 * 1 := mul_le_mul hS1 h1 h2 (by positivity)
    norm_num at h3 hK25
    linarith
  unfold f64FromParts
  rw [if_pos h0]
  rw [zpow_nonneg_nat h0] at h
  by_cases h1 : e ≤ 308
  · rw [if_pos h1]
    simp only
    rw [if_pos]
    have h3 := (abs_le.1 (mul_read_err S e.toNat)).1
    refine Nat.cast_le (α := ℝ).1 ?_
    rw [hX]
    clear hX
    refine hX2.trans ?_
    have h6 := mul_le_mul_of_nonneg_right h hU.le
    generalize (S : ℝ) * 10 ^ e.toNat * F64.unit = W at *
    generalize (F64.mul (F64.ofNat S) (pow10 e.toNat) : ℝ) = F at *
    have hKU : 1 ≤ K * (F64.unit : ℝ) := by nlinarith
    generalize (F64.unit : ℝ) = U at *
    rw [mul_assoc] at h6 ⊢
    generalize K * U = Y at *
    norm_num at h3
    linarith
  · rw [if_neg h1, if_neg hSpos]

end Kami.FoldFile
