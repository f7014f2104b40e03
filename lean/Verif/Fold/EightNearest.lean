import Verif.Fold.EightDigits
import Verif.Num.Display
/-!
# Decimals with at most eight digits are read as the nearest f32

The middle of two neighbouring numbers is either far from the decimal, or equal to it, or among the cases computed in
`EightCheck`.
-/

set_option autoImplicit false

namespace Kami.FoldFile

open Kami F32

theorem toNat_zpow (a : ℝ) (ha : a ≠ 0) (z : ℤ) : a ^ z.toNat = a ^ z * a ^ (-z).toNat := by
  rcases le_total 0 z with h | h
  · obtain ⟨n, rfl⟩ := Int.eq_ofNat_of_zero_le h
    simp
  · obtain ⟨n, hn⟩ := Int.eq_ofNat_of_zero_le (show 0 ≤ -z by omega)
    obtain rfl : z = -n := by omega
    have := pow_ne_zero n ha
    simp [this]

theorem slope_eq (e : ℤ) (j : ℕ) : (slopeNum e j : ℝ) * 2 ^ j = slopeDen e j * (10 ^ e * 2 ^ 150) := by
  unfold slopeNum slopeDen
  simp only [Nat.cast_mul, Nat.cast_pow, Nat.cast_ofNat]
  rw [toNat_zpow 5 (by norm_num) e, toNat_zpow 2 (by norm_num) (e + 150 - j)]
  have h1 : (2 : ℝ) ^ (e + 150 - j) * 2 ^ j = 2 ^ e * 2 ^ 150 := by
    rw [← zpow_natCast (2 : ℝ) j, ← zpow_add₀ (by norm_num), show e + 150 - (j : ℤ) + j = e + (150 : ℕ) by push_cast; ring,
      zpow_add₀ (by norm_num), zpow_natCast]
  have h2 : (10 : ℝ) ^ e = 5 ^ e * 2 ^ e := by rw [← mul_zpow]; norm_num
  rw [h2]
  generalize (5 : ℝ) ^ (-e).toNat = a
  generalize (2 : ℝ) ^ (-(e + 150 - (j : ℤ))).toNat = b
  calc (5 : ℝ) ^ e * a * (2 ^ (e + 150 - (j : ℤ)) * b) * 2 ^ j = 5 ^ e * a * b * (2 ^ (e + 150 - (j : ℤ)) * 2 ^ j) := by ring
    _ = _ := by rw [h1]; ring

/-- the middle of two neighbouring numbers -/
theorem middle_eq (k : ℕ) : ∃ m j, mag k + mag (k + 1) = m * 2 ^ j ∧ m % 2 = 1 ∧ m < 2 ^ 25 ∧ (j ≠ 0 → 2 ^ 24 ≤ m) := by
  refine ⟨2 * (k - 2 ^ 23 * (k / 2 ^ 23 - 1)) + 1, k / 2 ^ 23 - 1, ?_, by omega, by omega, by omega⟩
  rw [mag_succ]
  unfold mag
  ring

theorem eight_digits {d : ℕ} (h0 : 0 < d) (h8 : d < 10 ^ 8) : ∃ i ≤ 7, 10 ^ 7 ≤ d * 10 ^ i ∧ d * 10 ^ i < 10 ^ 8 := by
  rcases Nat.lt_or_ge d 10 with h | h
  · exact ⟨7, by norm_num, by omega, by omega⟩
  rcases Nat.lt_or_ge d 100 with h | h
  · exact ⟨6, by norm_num, by omega, by omega⟩
  rcases Nat.lt_or_ge d 1000 with h | h
  · exact ⟨5, by norm_num, by omega, by omega⟩
  rcases Nat.lt_or_ge d 10000 with h | h
  · exact ⟨4, by norm_num, by omega, by omega⟩
  rcases Nat.lt_or_ge d 100000 with h | h
  · exact ⟨3, by norm_num, by omega, by omega⟩
  rcases Nat.lt_or_ge d 1000000 with h | h
  · exact ⟨2, by norm_num, by omega, by omega⟩
  rcases Nat.lt_or_ge d 10000000 with h | h
  · exact ⟨1, by norm_num, by omega, by omega⟩
  · exact ⟨0, by norm_num, by omega, by omega⟩

attribute [local irreducible] F64.unit

/-- units of `2^-1074` and of `2^-149` -/
theorem unit_idx : F64.unit = 2 ^ 149 * 2 ^ 925 := by decide +kernel

/-- `nearestIdx` is the nearest number -/
theorem nearestIdx_ridx (d : ℕ) (e : ℤ) : RIdx ((d : ℝ) * 10 ^ e * 2 ^ 149) (nearestIdx d e) := by
  have h := roundIdx_ridx (d * 10 ^ e.toNat * 2 ^ 149) (10 ^ (-e).toNat) (by positivity)
  have e1 : ((d * 10 ^ e.toNat * 2 ^ 149 : ℕ) : ℝ) / ((10 ^ (-e).toNat : ℕ) : ℝ) = (d : ℝ) * 10 ^ e * 2 ^ 149 := by
    simp only [Nat.cast_mul, Nat.cast_pow, Nat.cast_ofNat]
    rw [toNat_zpow 10 (by norm_num) e]
    field_simp
  rw [e1] at h
  exact h

/-- the decimal is away from the middle, or is the middle, or was computed -/
theorem same_side {d : ℕ} {e : ℤ} (h0 : 0 < d) (h8 : d < 10 ^ 8) (he : -53 ≤ e) (hv : (d : ℝ) * 10 ^ e < 10 ^ 39)
    {y : ℝ} (hy : y * 2 ^ 925 = readParts d e) (k : ℕ) :
    (∃ (D : ℕ) (E : ℤ), okPoint D E = true ∧ ∃ i : ℕ, i < 8 ∧ D = d * 10 ^ i ∧ E + i = e) ∨
    ((mag k : ℝ) + mag (k + 1) < 2 * y ∧ (mag k : ℝ) + mag (k + 1) < 2 * (d * 10 ^ e * 2 ^ 149)) ∨
    (2 * y < (mag k : ℝ) + mag (k + 1) ∧ 2 * (d * 10 ^ e * 2 ^ 149) < (mag k : ℝ) + mag (k + 1)) ∨
    ((mag k : ℝ) + mag (k + 1) = 2 * y ∧ (mag k : ℝ) + mag (k + 1) = 2 * (d * 10 ^ e * 2 ^ 149)) := by
  obtain ⟨m, j, hmid, hodd, hm25, hm24⟩ := middle_eq k
  have hQ : (mag k : ℝ) + mag (k + 1) = m * 2 ^ j := by exact_mod_cast hmid
  rw [hQ]
  obtain ⟨i, hi, hD7, hD8⟩ := eight_digits h0 h8
  have herr := readParts_err h0 (h8.trans (by norm_num)) (show -60 ≤ e by omega)
  have hU : (F64.unit : ℝ) = 2 ^ 149 * 2 ^ 925 := by
    rw [unit_idx]; simp only [Nat.cast_mul, Nat.cast_pow, Nat.cast_ofNat]
  rw [← hy, hU] at herr
  have hK : (0 : ℝ) < 2 ^ 925 := pow_pos (by norm_num) _
  have htie : (d : ℝ) * 10 ^ e * 2 ^ 150 = m * 2 ^ j → 2 * y = m * 2 ^ j := by
    intro h
    have := readParts_tie h0 h8 (by omega) hm25 h
    rw [this, pow_add] at hy
    have e2 : (2 : ℝ) ^ 925 = 2 * 2 ^ 924 := pow_succ' 2 924
    rw [e2] at hy
    have hK' : (0 : ℝ) < 2 ^ 924 := pow_pos (by norm_num) _
    simp only [Nat.cast_mul, Nat.cast_pow, Nat.cast_ofNat] at hy
    generalize (2 : ℝ) ^ 924 = K at *
    have : (2 * y - m * 2 ^ j) * K = 0 := by linarith
    rcases mul_eq_zero.1 this with h | h
    · linarith
    · exact absurd h hK'.ne'
  clear hy
  generalize (2 : ℝ) ^ 925 = K at *
  have herr' : |2 * y - 2 * ((d : ℝ) * 10 ^ e * 2 ^ 149)| ≤ 2 * ((d : ℝ) * 10 ^ e * 2 ^ 149) / 2 ^ 51 := by
    have h1 : |y * K - d * 10 ^ e * (2 ^ 149 * K)| = |y - d * 10 ^ e * 2 ^ 149| * K := by
      rw [show y * K - d * 10 ^ e * (2 ^ 149 * K) = (y - d * 10 ^ e * 2 ^ 149) * K by ring, abs_mul, abs_of_pos hK]
    rw [h1, show (d : ℝ) * 10 ^ e * (2 ^ 149 * K) / 2 ^ 51 = (d * 10 ^ e * 2 ^ 149 / 2 ^ 51) * K by ring] at herr
    have := le_of_mul_le_mul_right herr hK
    rw [show 2 * y - 2 * (d * 10 ^ e * 2 ^ 149) = 2 * (y - d * 10 ^ e * 2 ^ 149) by ring, abs_mul, abs_two]
    linarith
  clear herr
  have hr0 : (0 : ℝ) < d * 10 ^ e * 2 ^ 149 := by
    have : (0 : ℝ) < d := by exact_mod_cast h0
    positivity
  by_cases hnear : |2 * ((d : ℝ) * 10 ^ e * 2 ^ 149) - (m : ℝ) * 2 ^ j| ≤ 2 * ((d : ℝ) * 10 ^ e * 2 ^ 149) / 2 ^ 51
  · -- near
    have hpj : (0 : ℝ) < 2 ^ j := by positivity
    have hj : j < 260 := by
      by_contra hc
      have h24 := hm24 (by omega)
      have hp : (2 : ℝ) ^ 200 ≤ 2 ^ j := pow_le_pow_right₀ (by norm_num) (by omega)
      have hp' : (2 : ℝ) ^ 60 * 2 ^ 200 ≤ 2 ^ j := by
        rw [← pow_add]
        exact pow_le_pow_right₀ (by norm_num) (by omega)
      have h1 : (2 : ℝ) ^ 24 * 2 ^ j ≤ m * 2 ^ j := mul_le_mul_of_nonneg_right (by exact_mod_cast h24) hpj.le
      have h2 := (abs_le.1 hnear).1
      have h3 : (d : ℝ) * 10 ^ e * 2 ^ 149 < 10 ^ 39 * 2 ^ 149 := mul_lt_mul_of_pos_right hv (by positivity)
      have h5 : 2 * ((d : ℝ) * 10 ^ e * 2 ^ 149) / 2 ^ 51 ≤ 2 * (d * 10 ^ e * 2 ^ 149) :=
        div_le_self (mul_nonneg (by norm_num) hr0.le) (by norm_num)
      generalize (d : ℝ) * 10 ^ e * 2 ^ 149 = r at *
      generalize 2 * r / 2 ^ 51 = r' at *
      generalize (m : ℝ) * 2 ^ j = x at *
      generalize (2 : ℝ) ^ j = z at *
      norm_num at h1 h3 hp hp'
      linarith
    have hE : (10 : ℝ) ^ e = 10 ^ i * 10 ^ (e - i) := by
      rw [← zpow_natCast (10 : ℝ) i, ← zpow_add₀ (by norm_num)]
      congr 1
      ring
    have hEu : e - i < 32 := by
      by_contra hc
      have h1 : (10 : ℝ) ^ (32 : ℤ) ≤ 10 ^ (e - i) := zpow_le_zpow_right₀ (by norm_num) (by omega)
      have h2 : (10 ^ 7 : ℝ) ≤ (d * 10 ^ i : ℕ) := by exact_mod_cast hD7
      have h3 : (10 ^ 7 : ℝ) * 10 ^ (32 : ℤ) ≤ (d * 10 ^ i : ℕ) * 10 ^ (e - i) :=
        mul_le_mul h2 h1 (by positivity) (by positivity)
      rw [hE] at hv
      push_cast at h3
      have h4 : (10 ^ 7 : ℝ) * 10 ^ (32 : ℤ) = 10 ^ 39 := by norm_num
      rw [h4] at h3
      linarith
    have hok := okExponent_all (e - i + 60).toNat (by omega)
    unfold okExponent at hok
    rw [List.all_eq_true] at hok
    have hline := hok j (List.mem_range.2 hj)
    rw [show (((e - i + 60).toNat : ℕ) : ℤ) - 60 = e - i by omega] at hline
    have hs := slope_eq (e - i) j
    have hB : (0 : ℝ) < slopeDen (e - i) j := by exact_mod_cast slopeDen_pos (e - i) j
    have hval : (((d * 10 ^ i : ℕ) : ℝ) * slopeNum (e - i) j) * 2 ^ j = 2 * (d * 10 ^ e * 2 ^ 149) * slopeDen (e - i) j := by
      rw [mul_assoc, hs, hE]
      push_cast
      ring
    have hdiff : (((d * 10 ^ i : ℕ) : ℝ) * slopeNum (e - i) j - m * slopeDen (e - i) j) * 2 ^ j =
        (2 * (d * 10 ^ e * 2 ^ 149) - m * 2 ^ j) * slopeDen (e - i) j := by
      rw [sub_mul, hval]; ring
    rcases okLine_sound hline (d := d * 10 ^ i) hD7 hD8 hodd hm25 hm24 (by
      have hR : (2 ^ 25 : ℝ) * |((d * 10 ^ i : ℕ) : ℝ) * slopeNum (e - i) j - m * slopeDen (e - i) j| ≤ slopeDen (e - i) j := by
        refine le_of_mul_le_mul_right ?_ hpj
        have h1 : |((d * 10 ^ i : ℕ) : ℝ) * slopeNum (e - i) j - m * slopeDen (e - i) j| * 2 ^ j =
            |2 * ((d : ℝ) * 10 ^ e * 2 ^ 149) - (m : ℝ) * 2 ^ j| * slopeDen (e - i) j := by
          have := congrArg (fun x : ℝ => |x|) hdiff
          beta_reduce at this
          rwa [abs_mul, abs_mul, abs_of_pos hpj, abs_of_pos hB] at this
        rw [mul_assoc, h1, ← mul_assoc, mul_comm (slopeDen (e - i) j : ℝ)]
        refine mul_le_mul_of_nonneg_right ?_ hB.le
        have hm : (m : ℝ) ≤ 2 ^ 25 := by exact_mod_cast hm25.le
        have h2 : (m : ℝ) * 2 ^ j ≤ 2 ^ 25 * 2 ^ j := mul_le_mul_of_nonneg_right hm hpj.le
        have h3 := (abs_le.1 hnear).2
        generalize 2 * ((d : ℝ) * 10 ^ e * 2 ^ 149) = r at *
        generalize |r - (m : ℝ) * 2 ^ j| = q at *
        generalize (m : ℝ) * 2 ^ j = x at *
        generalize (2 : ℝ) ^ j = z at *
        norm_num at hnear h2 h3 ⊢
        linarith
      have e3 : ((((d * 10 ^ i : ℕ) : ℤ) * slopeNum (e - i) j - m * slopeDen (e - i) j).natAbs : ℝ) =
          |((d * 10 ^ i : ℕ) : ℝ) * slopeNum (e - i) j - m * slopeDen (e - i) j| := by
        rw [Nat.cast_natAbs, Int.cast_abs]
        simp only [Int.cast_sub, Int.cast_mul, Int.cast_natCast]
      rw [← e3] at hR
      exact_mod_cast hR) with h | h
    · right; right; right
      have hN : ((d * 10 ^ i : ℕ) : ℝ) * slopeNum (e - i) j = m * slopeDen (e - i) j := by exact_mod_cast h
      rw [hN, sub_self, zero_mul] at hdiff
      have hz : 2 * (d * 10 ^ e * 2 ^ 149) = (m : ℝ) * 2 ^ j := by
        rcases mul_eq_zero.1 hdiff.symm with h | h
        · linarith
        · exact absurd h hB.ne'
      exact ⟨(htie (by rw [← hz]; ring)).symm, hz.symm⟩
    · left
      exact ⟨_, _, h, i, by omega, rfl, by ring⟩
  · -- far
    right
    rw [not_le] at hnear
    obtain ⟨h1, h2⟩ := abs_le.1 herr'
    rcases lt_abs.1 hnear with h | h
    · left; exact ⟨by linarith, by
        have : 0 < 2 * ((d : ℝ) * 10 ^ e * 2 ^ 149) / 2 ^ 51 := by positivity
        linarith⟩
    · right; left; exact ⟨by linarith, by
        have : 0 < 2 * ((d : ℝ) * 10 ^ e * 2 ^ 149) / 2 ^ 51 := by positivity
        linarith⟩

set_option exponentiation.threshold 1100 in
/-- up to eight digits are read as the nearest number, with six exceptions -/
theorem readIdx_eq {d : ℕ} {e : ℤ} (h0 : 0 < d) (h8 : d < 10 ^ 8) (he : -53 ≤ e) (hv : (d : ℝ) * 10 ^ e < 10 ^ 39)
    (hx : (d, e) ∉ misread) : readIdx d e = nearestIdx d e := by
  by_cases hp : ∃ (D : ℕ) (E : ℤ), okPoint D E = true ∧ ∃ i : ℕ, i < 8 ∧ D = d * 10 ^ i ∧ E + i = e
  · obtain ⟨D, E, hok, i, hi, rfl, hE⟩ := hp
    unfold okPoint at hok
    rw [List.all_eq_true] at hok
    have := hok i (List.mem_range.2 hi)
    rw [Nat.mul_mod_left, Nat.mul_div_cancel _ (by positivity), hE] at this
    simp only [bne_self_eq_false, Bool.false_or, Bool.or_eq_true, beq_iff_eq, List.contains_eq_mem, decide_eq_true_eq] at this
    exact this.resolve_right hx
  · have hK : (0 : ℝ) < 2 ^ 925 := pow_pos (by norm_num) _
    have hy : ((readParts d e : ℝ) / ((2 ^ 925 : ℕ) : ℝ)) * 2 ^ 925 = readParts d e := by
      rw [Nat.cast_pow, Nat.cast_ofNat]
      generalize (2 : ℝ) ^ 925 = K at *
      exact div_mul_cancel₀ _ hK.ne'
    have hs := same_side h0 h8 he hv hy
    have h1 : RIdx ((readParts d e : ℝ) / ((2 ^ 925 : ℕ) : ℝ)) (readIdx d e) :=
      roundIdx_ridx (readParts d e) (2 ^ 925) (Nat.two_pow_pos 925)
    refine RIdx.unique h1 ?_
    intro k
    rw [nearestIdx_ridx d e k]
    rcases hs k with h | ⟨h, h'⟩ | ⟨h, h'⟩ | ⟨h, h'⟩
    · exact absurd h hp
    · simp only [h, h', true_or]
    · simp only [h.not_gt, h'.not_gt, h.ne', h'.ne', false_or, false_and]
    · rw [← h, ← h']

end Kami.FoldFile
