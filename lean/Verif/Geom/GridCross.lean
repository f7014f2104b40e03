import Verif.Num.F32Round
import Verif.Num.F32Int
import Verif.Geom.SpacingF32
/-!
# C126: a cross with whole coordinates in f32

The crossing of a horizontal and a vertical segment with whole coordinates of size at most 1024 is found, and it passes the
on-segment test for both segments although it is rounded.
-/

set_option autoImplicit false

namespace Kami.Utils

open Kami.F32 Kami.DistF32 Kami.UtilThm Kami.Simple
open scoped Kami

/-- the finite number with the whole value `z` -/
def Whole (x : F32) (z : ℤ) : Prop := IsFin x ∧ toReal x = z

theorem Whole.rep {x : F32} {z : ℤ} (h : Whole x z) : Rep 149 x z := by
  obtain ⟨⟨s, n, rfl⟩, h⟩ := h
  refine ⟨s, n, rfl, ?_⟩
  unfold toReal at h
  rw [div_eq_iff (by positivity)] at h
  exact_mod_cast h

theorem whole_of_rep {x : F32} {z : ℤ} (h : Rep 149 x z) : Whole x z := by
  obtain ⟨s, n, rfl, h⟩ := h
  refine ⟨⟨_, _, rfl⟩, ?_⟩
  unfold toReal
  rw [div_eq_iff (by positivity), h]
  norm_num

theorem Whole.sub {x y : F32} {a b : ℤ} (hx : Whole x a) (hy : Whole y b) (h : |a - b| ≤ 2 ^ 24) : Whole (x - y) (a - b) :=
  whole_of_rep (Rep.sub (by norm_num) hx.rep hy.rep h)

theorem Whole.add {x y : F32} {a b : ℤ} (hx : Whole x a) (hy : Whole y b) (h : |a + b| ≤ 2 ^ 24) : Whole (x + y) (a + b) :=
  whole_of_rep (Rep.add (by norm_num) hx.rep hy.rep h)

theorem Whole.mul {x y : F32} {a b : ℤ} (hx : Whole x a) (hy : Whole y b) (h : |a * b| ≤ 2 ^ 24) : Whole (x * y) (a * b) :=
  whole_of_rep (Rep.mul (by norm_num) rfl hx.rep hy.rep h)

theorem Whole.neg {x : F32} {a : ℤ} (hx : Whole x a) : Whole (-x) (-a) := whole_of_rep (Rep.neg hx.rep)

/-- whole numbers below `2^23` have an even index -/
theorem even_idx {k L : ℕ} (h0 : 0 < L) (hL : L < 2 ^ 23) (h : mag k = L * 2 ^ 149) : k % 2 = 0 := by
  by_contra hk
  have hk1 : 2 ^ 23 ≤ k := by
    by_contra hc
    have : mag k < mag (2 ^ 23) := mag_lt.2 (by omega)
    rw [show mag (2 ^ 23) = 2 ^ 23 by decide +kernel, h] at this
    have h2 : 1 * 2 ^ 149 ≤ L * 2 ^ 149 := Nat.mul_le_mul_right _ h0
    norm_num at this h2
    omega
  set j := k / 2 ^ 23 - 1 with hj
  obtain ⟨M, hM⟩ : ∃ M, k = M + 2 ^ 23 * j := ⟨k - 2 ^ 23 * j, by omega⟩
  have hM1 : 2 ^ 23 ≤ M := by omega
  have hodd : M % 2 = 1 := by omega
  have hmag : mag k = M * 2 ^ j := by
    unfold mag
    rw [← hj]
    congr 1
    omega
  rw [hmag] at h
  rcases le_or_gt 149 j with hj' | hj'
  · obtain ⟨i, hi⟩ := Nat.exists_eq_add_of_le hj'
    rw [hi, pow_add, show M * (2 ^ 149 * 2 ^ i) = (M * 2 ^ i) * 2 ^ 149 by ring] at h
    have := Nat.eq_of_mul_eq_mul_right (by positivity) h
    have : M * 1 ≤ M * 2 ^ i := Nat.mul_le_mul_left _ Nat.one_le_two_pow
    omega
  · obtain ⟨i, hi⟩ := Nat.exists_eq_add_of_lt hj'
    rw [hi, show j + i + 1 = (i + 1) + j by ring, pow_add, ← mul_assoc] at h
    have := Nat.eq_of_mul_eq_mul_right (by positivity) h
    rw [pow_succ, ← mul_assoc] at this
    omega

/-- the value in units of `2^-149` -/
theorem units (s : Bool) (n : Fin 0x7f800000) : toReal (fin s n) * 2 ^ 149 = val s n := by
  unfold toReal
  rw [div_mul_cancel₀ _ (by positivity)]

theorem abs_units {v w : ℝ} (h : v * 2 ^ 149 = w) : |v| * 2 ^ 149 = |w| := by
  rw [← h, abs_mul, abs_of_pos (show (0 : ℝ) < 2 ^ 149 by positivity)]

theorem shift_le {k : ℕ} (h : ¬ k / 2 ^ 23 - 1 ≤ 149) : 151 * 2 ^ 23 ≤ k := by omega

theorem abs_val (s : Bool) (n : ℕ) : |val s n| = mag n := by
  cases s <;> simp [val]

/-- the rounded sum of a whole number and `m` differs from the whole number by a representable amount -/
theorem back_exact {A m : F32} {x0 : ℤ} (hA : Whole A x0) (hm : IsFin m) (hA1 : |(x0 : ℝ)| ≤ 2 ^ 11) (hm1 : |toReal m| ≤ 2 ^ 12)
    (hf : IsFin (A + m)) : ∃ k : Fin 0x7f800000, |toReal (A + m) - x0| = toReal (fin false k) := by
  have hP := add_rnd hA.1 hm hf
  rw [hA.2] at hP
  have hp : (0 : ℝ) < 2 ^ 149 := by positivity
  have hpe := hP.err_pow 138 (by
    have := abs_add_le (x0 : ℝ) (toReal m)
    calc |(x0 : ℝ) + toReal m| * 2 ^ 149 ≤ 2 ^ 13 * 2 ^ 149 := mul_le_mul_of_nonneg_right (by norm_num at *; linarith) hp.le
      _ = 2 ^ (138 + 24) := by norm_num)
  obtain ⟨s, n, rfl⟩ := hm
  generalize hPd : A + fin s n = Pf at *
  obtain ⟨sp, kp, rfl⟩ := hf
  have hjb : n.val / 2 ^ 23 - 1 ≤ 149 := by
    by_contra hc
    have h1 : mag (151 * 2 ^ 23) ≤ mag n := mag_le.2 (by omega)
    rw [mag_pow 150] at h1
    have h2 : ((2 ^ (150 + 23) : ℕ) : ℝ) ≤ mag n := by exact_mod_cast h1
    rw [toReal_fin, mul_div_assoc, abs_sign, abs_of_nonneg (by positivity), div_le_iff₀ hp] at hm1
    push_cast at h2
    norm_num at h2 hm1
    linarith
  set j := n.val / 2 ^ 23 - 1 with hj
  have hmagn : ∃ M : ℕ, mag n = M * 2 ^ j ∧ M ≤ 2 ^ 24 := by
    refine ⟨n.val - 2 ^ 23 * j, rfl, ?_⟩
    omega
  obtain ⟨M, hM, hM2⟩ := hmagn
  have hW : ∃ σ : ℤ, x0 * 2 ^ 149 + val s n = σ * 2 ^ j := by
    have h1 : (2 ^ j : ℤ) ∣ x0 * 2 ^ 149 := Dvd.dvd.mul_left (pow_dvd_pow 2 hjb) _
    have h2 : (2 ^ j : ℤ) ∣ val s n := by
      rw [← dvd_abs, abs_val, hM]
      push_cast
      exact Dvd.intro_left _ rfl
    obtain ⟨σ, hσ⟩ := dvd_add h1 h2
    exact ⟨σ, by rw [hσ]; ring⟩
  obtain ⟨σ, hσ⟩ := hW
  have hS : ((x0 : ℝ) + toReal (fin s n)) * 2 ^ 149 = σ * 2 ^ j := by
    rw [add_mul, units]
    exact_mod_cast hσ
  have hSabs : |(x0 : ℝ) + toReal (fin s n)| * 2 ^ 149 = |(σ : ℝ)| * 2 ^ j := by
    rw [abs_units hS, abs_mul, abs_of_pos (show (0 : ℝ) < 2 ^ j by positivity)]
  by_cases hc : |σ| ≤ 2 ^ 24
  · obtain ⟨k, _, hk⟩ := exists_mag j σ.natAbs (by zify; exact hc) (by omega)
    have := hP.exact (k := k) (by
      rw [hSabs, hk, Nat.cast_mul, Nat.cast_natAbs, Int.cast_abs]
      push_cast
      rfl)
    refine ⟨n, ?_⟩
    rw [this, toReal_fin, toReal_fin, add_sub_cancel_left, mul_div_assoc, abs_sign, abs_of_nonneg (by positivity)]
    simp
  · have hlow : 2 ^ 24 * 2 ^ j ≤ mag kp := by
      obtain ⟨k, hk, hke⟩ := exists_mag j (2 ^ 24) le_rfl (by omega)
      have h1 := hP.lower (y := fin false ⟨k, hk⟩) ⟨_, _, rfl⟩ (by
        refine le_of_mul_le_mul_right ?_ hp
        rw [hSabs, toReal_fin, if_neg Bool.false_ne_true, one_mul, abs_of_nonneg (by positivity), div_mul_cancel₀ _ hp.ne']
        change ((mag k : ℕ) : ℝ) ≤ _
        rw [hke]
        push_cast
        refine mul_le_mul_of_nonneg_right ?_ (by positivity)
        have : (((2 : ℤ) ^ 24 : ℤ) : ℝ) ≤ ((|σ| : ℤ) : ℝ) := Int.cast_le.2 (not_le.1 hc).le
        rw [Int.cast_abs] at this
        norm_num at this ⊢
        exact this)
      have h2 := mul_le_mul_of_nonneg_right h1 hp.le
      rw [toReal_fin, if_neg Bool.false_ne_true, one_mul, abs_of_nonneg (by positivity), div_mul_cancel₀ _ hp.ne', toReal_fin, mul_div_assoc,
        abs_sign, abs_of_nonneg (by positivity), div_mul_cancel₀ _ hp.ne'] at h2
      rw [← hke]
      exact_mod_cast h2
    have hkp : (j + 2) * 2 ^ 23 ≤ kp.val := by
      have : mag ((j + 2) * 2 ^ 23) ≤ mag kp := by
        rw [mag_pow (j + 1)]
        refine le_trans (le_of_eq ?_) hlow
        rw [← pow_add]
        congr 1
        omega
      exact mag_le.1 this
    set J := kp.val / 2 ^ 23 - 1 with hJ
    have hJj : j + 1 ≤ J := by
      have := (Nat.le_div_iff_mul_le (show 0 < 2 ^ 23 by norm_num)).2 hkp
      omega
    have hJb : J ≤ 149 := by
      by_contra hcc
      have h1 : mag (151 * 2 ^ 23) ≤ mag kp := mag_le.2 (shift_le hcc)
      rw [mag_pow 150] at h1
      have h2 : ((2 ^ (150 + 23) : ℕ) : ℝ) ≤ mag kp := by exact_mod_cast h1
      have h3 : |toReal (fin sp kp)| * 2 ^ 149 = mag kp := by
        rw [toReal_fin, mul_div_assoc, abs_sign, abs_of_nonneg (by positivity), div_mul_cancel₀ _ hp.ne']
      have h4 := abs_add_le (x0 : ℝ) (toReal (fin s n))
      have h5 := abs_sub_abs_le_abs_sub (toReal (fin sp kp)) ((x0 : ℝ) + toReal (fin s n))
      have h6 := mul_le_mul_of_nonneg_right h5 hp.le
      rw [sub_mul, h3] at h6
      have h7 : |(x0 : ℝ) + toReal (fin s n)| * 2 ^ 149 ≤ 2 ^ 13 * 2 ^ 149 :=
        mul_le_mul_of_nonneg_right (by norm_num at *; linarith) hp.le
      push_cast at h2
      generalize (mag kp : ℝ) = Q at *
      norm_num at h2 h6 h7 hpe
      linarith
    obtain ⟨z, hz⟩ : ∃ z : ℤ, val sp kp - x0 * 2 ^ 149 = z * 2 ^ J := by
      have h1 : (2 ^ J : ℤ) ∣ x0 * 2 ^ 149 := Dvd.dvd.mul_left (pow_dvd_pow 2 hJb) _
      have h2 : (2 ^ J : ℤ) ∣ val sp kp := by
        rw [← dvd_abs, abs_val]
        unfold mag
        push_cast
        exact Dvd.intro_left _ rfl
      obtain ⟨z, hz⟩ := dvd_sub h2 h1
      exact ⟨z, by rw [hz]; ring⟩
    have hzr : (toReal (fin sp kp) - x0) * 2 ^ 149 = z * 2 ^ J := by
      rw [sub_mul, units]
      exact_mod_cast hz
    have hzabs : |toReal (fin sp kp) - x0| * 2 ^ 149 = |(z : ℝ)| * 2 ^ J := by
      rw [abs_units hzr, abs_mul, abs_of_pos (show (0 : ℝ) < 2 ^ J by positivity)]
    have hSb : |(x0 : ℝ) + toReal (fin s n)| * 2 ^ 149 ≤ 2 ^ (J + 1 + 24) := by
      obtain ⟨_, k, h1, h2, _⟩ := hP
      have hk : k = kp.val := by
        have h3 : |toReal (fin sp kp)| * 2 ^ 149 = mag kp := by
          rw [toReal_fin, mul_div_assoc, abs_sign, abs_of_nonneg (by positivity), div_mul_cancel₀ _ hp.ne']
        rw [h3] at h2
        have : mag kp = mag k := by exact_mod_cast h2
        exact (mag_strictMono.injective this).symm
      have h3 := h1.upper
      have h4 : (mag k : ℝ) ≤ mag (k + 1) := magR_le (by omega)
      have h5 : mag (k + 1) ≤ mag ((J + 3) * 2 ^ 23) := mag_le.2 (by omega)
      rw [mag_pow (J + 2)] at h5
      have h6 : (mag (k + 1) : ℝ) ≤ 2 ^ (J + 2 + 23) := by exact_mod_cast h5
      rw [show J + 1 + 24 = J + 2 + 23 by ring]
      linarith
    have he := hP.err_pow (J + 1) hSb
    have hzb : |(z : ℝ)| ≤ 2 ^ 24 := by
      refine le_of_mul_le_mul_right ?_ (show (0 : ℝ) < 2 ^ J by positivity)
      rw [← hzabs]
      have h1 : |toReal (fin sp kp) - x0| ≤ |toReal (fin sp kp) - ((x0 : ℝ) + toReal (fin s n))| + |toReal (fin s n)| := by
        have := abs_add_le (toReal (fin sp kp) - ((x0 : ℝ) + toReal (fin s n))) (toReal (fin s n))
        rwa [show toReal (fin sp kp) - ((x0 : ℝ) + toReal (fin s n)) + toReal (fin s n) = toReal (fin sp kp) - x0 by ring] at this
      have h2 := mul_le_mul_of_nonneg_right h1 hp.le
      have h3 : |toReal (fin s n)| * 2 ^ 149 ≤ 2 ^ 24 * 2 ^ j := by
        rw [toReal_fin, mul_div_assoc, abs_sign, abs_of_nonneg (by positivity), div_mul_cancel₀ _ hp.ne', hM]
        push_cast
        refine mul_le_mul_of_nonneg_right ?_ (by positivity)
        exact_mod_cast hM2
      have h4 : (2 : ℝ) ^ j * 2 ≤ 2 ^ J := by
        rw [← pow_succ]
        exact pow_le_pow_right₀ (by norm_num) hJj
      rw [show (2 : ℝ) ^ (J + 1) = 2 * 2 ^ J by ring] at he
      have h5 : (0 : ℝ) < 2 ^ J := by positivity
      rw [add_mul] at h2
      norm_num at h2 h3 he ⊢
      linarith
    obtain ⟨k, hk, hke⟩ := exists_mag J z.natAbs (by
      have : |z| ≤ 2 ^ 24 := by exact_mod_cast hzb
      zify; exact this) (by omega)
    refine ⟨⟨k, hk⟩, ?_⟩
    refine mul_right_cancel₀ hp.ne' ?_
    rw [hzabs, toReal_fin, if_neg Bool.false_ne_true, one_mul, div_mul_cancel₀ _ hp.ne']
    change _ = ((mag k : ℕ) : ℝ)
    rw [hke, Nat.cast_mul, Nat.cast_natAbs, Int.cast_abs]
    push_cast
    rfl

/-- the crossing along the segment from `x0` to `x1`: it is close to `c`, and the two rounded parts add up to the length -/
theorem step {A X1 DX t : F32} {x0 x1 c : ℤ} (hA : Whole A x0) (hX : Whole X1 x1) (hD : Whole DX (x1 - x0)) (b0 : |x0| ≤ 1024)
    (b1 : |x1| ≤ 1024) (hc : (x0 < c ∧ c < x1) ∨ (x1 < c ∧ c < x0)) (ht : Rnd (((c : ℝ) - x0) / (x1 - x0)) t) :
    IsFin (A + t * DX) ∧ |toReal (A + t * DX) - c| ≤ 3 / 2 ^ 14 ∧
    (IsFin (A + t * DX - A) ∧ toReal (A + t * DX - A) = toReal (A + t * DX) - x0) ∧
    (IsFin (X1 - (A + t * DX)) ∧ 1 / 2 ≤ |toReal (X1 - (A + t * DX))| ∧ |toReal (X1 - (A + t * DX))| ≤ 2 ^ 12) ∧
    1 / 2 ≤ |toReal (A + t * DX) - x0| ∧ |toReal (A + t * DX) - x0| ≤ 2 ^ 12 ∧
    ∀ f g, IsFin f → IsFin g → toReal f = |toReal (A + t * DX) - x0| → toReal g = |toReal (X1 - (A + t * DX))| →
      IsFin (f + g) ∧ toReal (f + g) = |(x1 : ℝ) - x0| := by
  have hp : (0 : ℝ) < 2 ^ 149 := by positivity
  have hmax : (2 : ℝ) ^ 13 < maxHalf := by unfold maxHalf; norm_num
  obtain ⟨c0l, c0u⟩ := abs_le.1 b0
  obtain ⟨c1l, c1u⟩ := abs_le.1 b1
  have r0 : |(x0 : ℝ)| ≤ 1024 := by exact_mod_cast b0
  have r1 : |(x1 : ℝ)| ≤ 1024 := by exact_mod_cast b1
  have rc : |(c : ℝ)| ≤ 1024 := by
    have : |c| ≤ 1024 := abs_le.2 (by omega)
    exact_mod_cast this
  obtain ⟨r0l, r0u⟩ := abs_le.1 r0
  obtain ⟨r1l, r1u⟩ := abs_le.1 r1
  obtain ⟨rcl, rcu⟩ := abs_le.1 rc
  have hL : |(x1 : ℝ) - x0| ≤ 2048 := abs_le.2 ⟨by linarith, by linarith⟩
  have hne : (x1 : ℝ) - x0 ≠ 0 := by
    intro h
    have : (x1 : ℝ) = x0 := by linarith
    have : x1 = x0 := by exact_mod_cast this
    omega
  -- the parameter
  have hτ : 0 < ((c : ℝ) - x0) / (x1 - x0) ∧ ((c : ℝ) - x0) / (x1 - x0) < 1 := by
    rcases hc with ⟨h1, h2⟩ | ⟨h1, h2⟩
    · have h1' : (x0 : ℝ) < c := by exact_mod_cast h1
      have h2' : (c : ℝ) < x1 := by exact_mod_cast h2
      exact ⟨div_pos (by linarith) (by linarith), by rw [div_lt_one (by linarith)]; linarith⟩
    · have h1' : (x1 : ℝ) < c := by exact_mod_cast h1
      have h2' : (c : ℝ) < x0 := by exact_mod_cast h2
      exact ⟨div_pos_of_neg_of_neg (by linarith) (by linarith), by rw [div_lt_one_of_neg (by linarith)]; linarith⟩
  have hτL : ((c : ℝ) - x0) / (x1 - x0) * (x1 - x0) = c - x0 := div_mul_cancel₀ _ hne
  have ht1 : |toReal t| ≤ 1 := by
    have := ht.upper one_isFin (by rw [toReal_one, abs_of_pos hτ.1, abs_one]; exact hτ.2.le)
    rwa [toReal_one, abs_one] at this
  have hte : |toReal t - ((c : ℝ) - x0) / (x1 - x0)| ≤ 1 / 2 ^ 25 := by
    have := ht.err_pow 125 (by
      rw [abs_of_pos hτ.1]
      calc ((c : ℝ) - x0) / (x1 - x0) * 2 ^ 149 ≤ 1 * 2 ^ 149 := mul_le_mul_of_nonneg_right hτ.2.le hp.le
        _ = 2 ^ (125 + 24) := by norm_num)
    norm_num at this ⊢
    linarith
  generalize ((c : ℝ) - x0) / (x1 - x0) = τ at *
  -- the product
  have hDr : toReal DX = (x1 : ℝ) - x0 := by rw [hD.2]; push_cast; rfl
  have htD : |toReal t * toReal DX| ≤ 2048 := by
    rw [abs_mul, hDr]
    calc |toReal t| * |(x1 : ℝ) - x0| ≤ 1 * 2048 := mul_le_mul ht1 hL (abs_nonneg _) (by norm_num)
      _ = 2048 := by norm_num
  have fm : IsFin (t * DX) := mul_isFin ht.1 hD.1 (by refine lt_of_le_of_lt htD (lt_trans ?_ hmax); norm_num)
  have hme := (mul_rnd ht.1 hD.1 fm).err_pow 136 (by
    calc |toReal t * toReal DX| * 2 ^ 149 ≤ 2048 * 2 ^ 149 := mul_le_mul_of_nonneg_right htD hp.le
      _ = 2 ^ (136 + 24) := by norm_num)
  have hm1 : |toReal (t * DX) - toReal t * toReal DX| ≤ 1 / 2 ^ 14 := by
    norm_num at hme ⊢
    linarith
  have hm2 : |toReal t * toReal DX - (c - x0)| ≤ 1 / 2 ^ 14 := by
    rw [← hτL, hDr, ← sub_mul, abs_mul]
    calc |toReal t - τ| * |(x1 : ℝ) - x0| ≤ 1 / 2 ^ 25 * 2048 := mul_le_mul hte hL (abs_nonneg _) (by positivity)
      _ = 1 / 2 ^ 14 := by norm_num
  have hm : |toReal (t * DX) - (c - x0)| ≤ 2 / 2 ^ 14 := by
    have := abs_add_le (toReal (t * DX) - toReal t * toReal DX) (toReal t * toReal DX - (c - x0))
    rw [sub_add_sub_cancel] at this
    have e : (2 : ℝ) / 2 ^ 14 = 1 / 2 ^ 14 + 1 / 2 ^ 14 := by norm_num
    linarith
  obtain ⟨hml, hmu⟩ := abs_le.1 hm
  -- the sum
  have hsum : |(x0 : ℝ) + toReal (t * DX)| ≤ 2048 := by
    norm_num at hml hmu
    exact abs_le.2 ⟨by linarith, by linarith⟩
  have fp : IsFin (A + t * DX) := add_isFin hA.1 fm (by rw [hA.2]; refine lt_of_le_of_lt hsum (lt_trans ?_ hmax); norm_num)
  have hpr := add_rnd hA.1 fm fp
  rw [hA.2] at hpr
  have hpe := hpr.err_pow 136 (by
    calc |(x0 : ℝ) + toReal (t * DX)| * 2 ^ 149 ≤ 2048 * 2 ^ 149 := mul_le_mul_of_nonneg_right hsum hp.le
      _ = 2 ^ (136 + 24) := by norm_num)
  have hpc : |toReal (A + t * DX) - c| ≤ 3 / 2 ^ 14 := by
    have h1 : |toReal (A + t * DX) - ((x0 : ℝ) + toReal (t * DX))| ≤ 1 / 2 ^ 14 := by
      norm_num at hpe ⊢
      linarith
    have := abs_add_le (toReal (A + t * DX) - ((x0 : ℝ) + toReal (t * DX))) (toReal (t * DX) - (c - x0))
    rw [show toReal (A + t * DX) - ((x0 : ℝ) + toReal (t * DX)) + (toReal (t * DX) - (c - x0)) = toReal (A + t * DX) - c by ring] at this
    have e : (3 : ℝ) / 2 ^ 14 = 1 / 2 ^ 14 + 2 / 2 ^ 14 := by norm_num
    linarith
  have hback := back_exact hA fm (by norm_num; linarith) (by
    norm_num at hml hmu
    norm_num
    exact abs_le.2 ⟨by linarith, by linarith⟩) fp
  generalize A + t * DX = p at *
  clear hpe hsum hpr hmu hml hm hm1 hm2 hme fm htD hte ht1 ht hτ hτL
  obtain ⟨hpl, hpu⟩ := abs_le.1 hpc
  norm_num at hpl hpu
  have fpA : IsFin (p - A) := sub_isFin fp hA.1 (by
    rw [hA.2]
    refine lt_of_le_of_lt (abs_le.2 ⟨?_, ?_⟩) hmax <;> norm_num <;> linarith)
  obtain ⟨k, hk⟩ := hback
  have epA : toReal (p - A) = toReal p - x0 := by
    have := (sub_rnd fp hA.1 fpA).exact_of (y := fin false k) ⟨_, _, rfl⟩ (by
      rw [hA.2, hk, abs_of_nonneg]
      rw [← hk]
      exact abs_nonneg _)
    rw [this, hA.2]
  have fXp : IsFin (X1 - p) := sub_isFin hX.1 fp (by
    rw [hX.2]
    refine lt_of_le_of_lt (abs_le.2 ⟨?_, ?_⟩) hmax <;> norm_num <;> linarith)
  have hXr := sub_rnd hX.1 fp fXp
  rw [hX.2] at hXr
  -- positions along the segment
  have hsplit : |(x1 : ℝ) - toReal p| = |(x1 : ℝ) - x0| - |toReal p - x0| ∧ 1 / 2 ≤ |(x1 : ℝ) - toReal p| ∧ 1 / 2 ≤ |toReal p - x0| := by
    rcases hc with ⟨h1, h2⟩ | ⟨h1, h2⟩
    · have h1' : (x0 : ℝ) + 1 ≤ c := by exact_mod_cast h1
      have h2' : (c : ℝ) + 1 ≤ x1 := by exact_mod_cast h2
      rw [abs_of_pos (by linarith : 0 < (x1 : ℝ) - toReal p), abs_of_pos (by linarith : 0 < (x1 : ℝ) - x0),
        abs_of_pos (by linarith : 0 < toReal p - x0)]
      exact ⟨by ring, by linarith, by linarith⟩
    · have h1' : (x1 : ℝ) + 1 ≤ c := by exact_mod_cast h1
      have h2' : (c : ℝ) + 1 ≤ x0 := by exact_mod_cast h2
      rw [abs_of_neg (by linarith : (x1 : ℝ) - toReal p < 0), abs_of_neg (by linarith : (x1 : ℝ) - x0 < 0),
        abs_of_neg (by linarith : toReal p - x0 < 0)]
      exact ⟨by ring, by linarith, by linarith⟩
  obtain ⟨hs1, hs2, hs3⟩ := hsplit
  have hhalf : |toReal (OrdScalar.half : F32)| = 1 / 2 := by rw [toReal_half, abs_of_pos (by norm_num)]
  have hXlo : 1 / 2 ≤ |toReal (X1 - p)| := by
    have := hXr.lower half_isFin (by rw [hhalf]; exact hs2)
    rwa [hhalf] at this
  have hXe := hXr.err_pow 137 (by
    calc |(x1 : ℝ) - toReal p| * 2 ^ 149 ≤ 2048 * 2 ^ 149 := mul_le_mul_of_nonneg_right (by linarith) hp.le
      _ ≤ 2 ^ (137 + 24) := by norm_num)
  have hXhi : |toReal (X1 - p)| ≤ 2 ^ 12 := by
    have h1 : |toReal (X1 - p) - ((x1 : ℝ) - toReal p)| ≤ 1 := by
      norm_num at hXe ⊢
      linarith
    have := abs_sub_abs_le_abs_sub (toReal (X1 - p)) ((x1 : ℝ) - toReal p)
    norm_num
    linarith
  refine ⟨fp, hpc, ⟨fpA, epA⟩, ⟨fXp, hXlo, hXhi⟩, hs3, by norm_num; linarith, ?_⟩
  intro f g hf hg ef eg
  have ff : IsFin (f + g) := add_isFin hf hg (by
    rw [ef, eg]
    refine lt_of_le_of_lt (abs_le.2 ⟨by norm_num; linarith, ?_⟩) hmax
    norm_num at hXhi ⊢
    linarith)
  refine ⟨ff, ?_⟩
  obtain ⟨L, hLd⟩ : ∃ L : ℕ, |(x1 : ℝ) - x0| = L := ⟨(x1 - x0).natAbs, by rw [Nat.cast_natAbs, Int.cast_abs]; push_cast; rfl⟩
  have hL0 : 0 < L := by
    have : (0 : ℝ) < L := by rw [← hLd]; exact abs_pos.2 hne
    exact_mod_cast this
  have hL1 : L < 2 ^ 23 := by
    have : (L : ℝ) ≤ 2048 := by rw [← hLd]; exact hL
    have : L ≤ 2048 := by exact_mod_cast this
    omega
  obtain ⟨k0, _, hk0⟩ := exists_mag 149 L (by omega) (by norm_num)
  have heven := even_idx hL0 hL1 hk0
  have hk0r : |(x1 : ℝ) - x0| * 2 ^ 149 = mag k0 := by rw [hLd, hk0, Nat.cast_mul]; norm_num
  obtain ⟨_, n, hn1, hn2, _⟩ := hXr
  have habs := ridx_absorb heven hn1 (by positivity) (by
    rw [← hk0r]
    exact mul_le_mul_of_nonneg_right (by rw [hs1]; linarith [abs_nonneg (toReal p - x0)]) hp.le)
  have hval : |toReal f + toReal g| * 2 ^ 149 = mag k0 + (mag n - |(x1 : ℝ) - toReal p| * 2 ^ 149) := by
    rw [abs_of_nonneg (by rw [ef, eg]; positivity), add_mul, ef, eg, hn2, ← hk0r, hs1]
    ring
  refine (add_rnd hf hg ff).eq_of_idx (k := k0) (by rw [hval]; exact habs) (by rw [abs_abs, hk0r]) (Or.inl ?_)
  rw [ef, eg]
  have : 0 < |(x1 : ℝ) - x0| := abs_pos.2 hne
  have : 0 < |toReal p - x0| := by linarith
  positivity

/-! ### distances -/

theorem zero_sq {z : F32} (hz : Whole z 0) : IsFin (z * z) ∧ toReal (z * z) = 0 := by
  refine mul_zero' hz.1 hz.1 ?_
  rw [hz.2]
  simp

theorem two_pow_isFin : IsFin (fin false ⟨247 * 2 ^ 23, by decide⟩) := ⟨_, _, rfl⟩

theorem two_pow_toReal : toReal (fin false ⟨247 * 2 ^ 23, by decide⟩) = 2 ^ 120 := by
  rw [toReal_fin, if_neg Bool.false_ne_true, one_mul]
  change ((mag ((246 + 1) * 2 ^ 23) : ℕ) : ℝ) / 2 ^ 149 = _
  rw [mag_pow 246, Nat.cast_pow, Nat.cast_ofNat, div_eq_iff (by positivity), ← pow_add]

/-- distance along an axis -/
theorem dist_axis {a b : Vec2 F32} (hy : Whole (b.y - a.y) 0) (hx : IsFin (b.x - a.x)) (h1 : 1 / 2 ^ 40 ≤ |toReal (b.x - a.x)|)
    (h2 : |toReal (b.x - a.x)| ≤ 2 ^ 60) : IsFin (distance a b) ∧ toReal (distance a b) = |toReal (b.x - a.x)| := by
  obtain ⟨f0, e0⟩ := zero_sq hy
  have hsq : |toReal (b.x - a.x) * toReal (b.x - a.x)| < maxHalf := by
    rw [abs_mul]
    calc |toReal (b.x - a.x)| * |toReal (b.x - a.x)| ≤ 2 ^ 60 * 2 ^ 60 := mul_le_mul h2 h2 (abs_nonneg _) (by positivity)
      _ < maxHalf := by unfold maxHalf; norm_num
  have f1 : IsFin ((b.x - a.x) * (b.x - a.x)) := mul_isFin hx hx hsq
  have f2 : IsFin ((b.x - a.x) * (b.x - a.x) + (b.y - a.y) * (b.y - a.y)) := by
    refine add_isFin f1 f0 ?_
    rw [e0, add_zero]
    have := (mul_rnd hx hx f1).upper two_pow_isFin (by
      rw [two_pow_toReal, abs_mul, abs_of_pos (show (0 : ℝ) < 2 ^ 120 by positivity)]
      refine le_trans (mul_le_mul h2 h2 (abs_nonneg _) (by positivity)) ?_
      norm_num)
    refine lt_of_le_of_lt this ?_
    rw [two_pow_toReal]
    unfold maxHalf
    norm_num
  have e2 : toReal ((b.x - a.x) * (b.x - a.x) + (b.y - a.y) * (b.y - a.y)) = toReal ((b.x - a.x) * (b.x - a.x)) := by
    rw [(add_rnd f1 f0 f2).exact_of f1 (by rw [e0, add_zero]), e0, add_zero]
  exact sqrt_mul_self hx h1 h2 f2 e2

/-- the distance to a point at a whole distance across is not changed by a tiny shift -/
theorem dist_across {a b : Vec2 F32} {n : ℤ} (hx : IsFin (b.x - a.x)) (h : |toReal (b.x - a.x)| ≤ 3 / 2 ^ 14) (hy : Whole (b.y - a.y) n)
    (h0 : n ≠ 0) (hn : |n| ≤ 2048) : IsFin (distance a b) ∧ toReal (distance a b) = |(n : ℝ)| := by
  obtain ⟨k24, hk24, e24⟩ := pow_float 24 (by norm_num)
  have hp : (0 : ℝ) < 2 ^ 149 := by positivity
  have hdd : |toReal (b.x - a.x) * toReal (b.x - a.x)| ≤ 1 / 2 ^ 24 := by
    rw [abs_mul]
    refine le_trans (mul_le_mul h h (abs_nonneg _) (by positivity)) ?_
    norm_num
  have f1 : IsFin ((b.x - a.x) * (b.x - a.x)) := mul_isFin hx hx (lt_of_le_of_lt hdd (by unfold maxHalf; norm_num))
  have u1 : toReal ((b.x - a.x) * (b.x - a.x)) ≤ 1 / 2 ^ 24 := by
    have := (mul_rnd hx hx f1).upper (y := fin false ⟨k24, hk24⟩) ⟨_, _, rfl⟩ (by
      rw [e24, abs_of_pos (show (0 : ℝ) < 1 / 2 ^ 24 by positivity)]; exact hdd)
    rw [e24, abs_of_pos (show (0 : ℝ) < 1 / 2 ^ 24 by positivity)] at this
    exact (le_abs_self _).trans this
  have l1 := mul_self_nonneg' hx f1
  have hnn : |n * n| ≤ 2 ^ 22 := by
    rw [abs_mul]
    calc |n| * |n| ≤ 2048 * 2048 := mul_le_mul hn hn (abs_nonneg _) (by norm_num)
      _ = 2 ^ 22 := by norm_num
  have w2 := hy.mul hy (hnn.trans (by norm_num))
  have hn1 : 1 ≤ n * n := by
    have := mul_self_pos.2 h0
    omega
  have rn1 : (1 : ℝ) ≤ ((n * n : ℤ) : ℝ) := by exact_mod_cast hn1
  have rn2 : ((n * n : ℤ) : ℝ) ≤ 2 ^ 22 := by exact_mod_cast (le_abs_self _).trans hnn
  have f2 : IsFin ((b.x - a.x) * (b.x - a.x) + (b.y - a.y) * (b.y - a.y)) := by
    refine add_isFin f1 w2.1 ?_
    rw [w2.2, abs_of_nonneg (by linarith)]
    refine lt_of_le_of_lt (b := (2 : ℝ) ^ 23) ?_ (by unfold maxHalf; norm_num)
    norm_num at u1 rn2 ⊢
    linarith
  have hidx : ∀ L : ℕ, 0 < L → L < 2 ^ 23 → ∃ k, k % 2 = 0 ∧ (L : ℝ) * 2 ^ 149 = mag k ∧ 127 * 2 ^ 23 ≤ k := by
    intro L hL0 hL1
    obtain ⟨k, _, hk⟩ := exists_mag 149 L (by omega) (by norm_num)
    refine ⟨k, even_idx hL0 hL1 hk, by rw [hk, Nat.cast_mul]; norm_num, ?_⟩
    refine mag_le.1 ?_
    rw [mag_pow 126, hk]
    exact Nat.le_mul_of_pos_left _ hL0
  have e2 : toReal ((b.x - a.x) * (b.x - a.x) + (b.y - a.y) * (b.y - a.y)) = ((n * n : ℤ) : ℝ) := by
    obtain ⟨k, hk1, hk2, hk3⟩ := hidx (n * n).natAbs (by omega) (by zify; exact lt_of_le_of_lt hnn (by norm_num))
    rw [Nat.cast_natAbs, Int.cast_abs, abs_of_pos (by linarith)] at hk2
    refine (add_rnd f1 w2.1 f2).eq_of_idx (k := k) ?_ (by rw [abs_of_pos (by linarith), hk2]) (Or.inl ?_)
    · rw [w2.2, abs_of_nonneg (by linarith)]
      have g1 : 0 ≤ toReal ((b.x - a.x) * (b.x - a.x)) * 2 ^ 149 := mul_nonneg l1 hp.le
      have g2 : toReal ((b.x - a.x) * (b.x - a.x)) * 2 ^ 149 ≤ 2 ^ 125 := by
        refine le_trans (mul_le_mul_of_nonneg_right u1 hp.le) ?_
        norm_num
      have g3 : (mag k : ℝ) + 2 ^ 126 ≤ mag (k + 1) := by
        have h1 : 2 ^ 126 ≤ 2 ^ (k / 2 ^ 23 - 1) := Nat.pow_le_pow_right (by norm_num) (by omega)
        have h2 := mag_succ k
        have : mag k + 2 ^ 126 ≤ mag (k + 1) := by rw [h2]; exact Nat.add_le_add_left h1 _
        exact_mod_cast this
      rw [add_mul, hk2]
      refine ridx_even hk1 (Or.inr ?_) ?_
      · have : (mag (k - 1) : ℝ) ≤ mag k := magR_le (by omega)
        linarith
      · generalize toReal ((b.x - a.x) * (b.x - a.x)) * 2 ^ 149 = w at *
        generalize (mag k : ℝ) = K at *
        generalize (mag (k + 1) : ℝ) = K' at *
        norm_num at g2 g3
        linarith
    · rw [w2.2]
      have : 0 < ((n * n : ℤ) : ℝ) := by linarith
      positivity
  have hpos : 0 ≤ toReal ((b.x - a.x) * (b.x - a.x) + (b.y - a.y) * (b.y - a.y)) := by rw [e2]; linarith
  refine ⟨sqrt_isFin f2 hpos, ?_⟩
  have hsqrt : Real.sqrt (toReal ((b.x - a.x) * (b.x - a.x) + (b.y - a.y) * (b.y - a.y))) = |(n : ℝ)| := by
    rw [e2]
    push_cast
    exact Real.sqrt_mul_self_eq_abs _
  obtain ⟨k, _, hk2, _⟩ := hidx n.natAbs (by omega) (by zify; exact lt_of_le_of_lt hn (by norm_num))
  rw [Nat.cast_natAbs, Int.cast_abs] at hk2
  have := (sqrt_rnd f2 hpos).exact (k := k) (by rw [hsqrt, abs_abs, hk2])
  change toReal (F32.sqrt _) = _
  rw [← hsqrt]
  exact this

theorem on_of_sum {a b p : Vec2 F32} (f0 : IsFin (distance a b)) (f1 : IsFin (distance a p)) (f2 : IsFin (distance p b))
    (f3 : IsFin (distance a p + distance p b)) (h : toReal (distance a p + distance p b) = toReal (distance a b))
    (h1 : 1 / 2 ≤ toReal (distance a p)) (h2 : 1 / 2 ≤ toReal (distance p b)) (f : Bool) : isOnLineSegment a b p f = true := by
  have f4 : IsFin (distance a p + distance p b - distance a b) :=
    sub_isFin f3 f0 (by rw [h, sub_self, abs_zero]; unfold maxHalf; positivity)
  have e4 : toReal (distance a p + distance p b - distance a b) = 0 := by
    rw [(sub_rnd f3 f0 f4).exact_of zero_isFin (by rw [h, toReal_zero, sub_self]), h, sub_self]
  obtain ⟨g1, k1⟩ := abs_fin' f1
  obtain ⟨g2, k2⟩ := abs_fin' f2
  obtain ⟨g4, k4⟩ := abs_fin' f4
  unfold isOnLineSegment
  change (F32.lt (F32.abs _) _ && F32.lt _ (F32.abs _) && F32.lt _ (F32.abs _)) = true
  have e : (1 : ℝ) / 2 ^ 23 < 1 / 2 := by norm_num
  rw [(lt_fin g4 eps_isFin).2 (by rw [k4, e4, abs_zero, toReal_eps]; positivity),
    (lt_fin eps_isFin g1).2 (by rw [k1, toReal_eps, abs_of_nonneg (by linarith)]; linarith),
    (lt_fin eps_isFin g2).2 (by rw [k2, toReal_eps, abs_of_nonneg (by linarith)]; linarith)]
  rfl

/-! ### the crossing -/

/-- the point with the whole coordinates `x` and `y` -/
def At (v : Vec2 F32) (x y : ℤ) : Prop := Whole v.x x ∧ Whole v.y y

/-- strictly between, in either direction -/
def Btw (p q r : ℤ) : Prop := (p < q ∧ q < r) ∨ (r < q ∧ q < p)

theorem whole_abs {x : F32} {z : ℤ} (h : IsFin x) (e : toReal x = |(z : ℝ)|) : Whole x |z| := ⟨h, by rw [e, Int.cast_abs]⟩

theorem quot_unit {N D : F32} {n d : ℤ} (hN : Whole N n) (hD : Whole D d) (hd : d ≠ 0) (h0 : 0 < (n : ℝ) / d) (h1 : (n : ℝ) / d < 1) :
    Rnd ((n : ℝ) / d) (N / D) ∧ ((OrdScalar.zero : F32) ≤. N / D) = true ∧ (N / D ≤. (OrdScalar.one : F32)) = true := by
  have hd' : toReal D ≠ 0 := by rw [hD.2]; exact_mod_cast hd
  have hf : IsFin (N / D) := div_isFin hN.1 hD.1 hd' (by
    rw [hN.2, hD.2, abs_of_pos h0]
    exact lt_trans h1 (by unfold maxHalf; norm_num))
  have hr := div_rnd hN.1 hD.1 hd' hf
  rw [hN.2, hD.2] at hr
  refine ⟨hr, (le_fin zero_isFin hf).2 ?_, (le_fin hf one_isFin).2 ?_⟩
  · rw [toReal_zero]
    obtain ⟨_, _, _, _, h⟩ := hr
    exact nonneg_of_mul_nonneg_left h h0
  · have := hr.upper one_isFin (by rw [toReal_one, abs_one, abs_of_pos h0]; exact h1.le)
    rw [toReal_one, abs_one] at this
    rw [toReal_one]
    exact (le_abs_self _).trans this

theorem btw_ratio {p q r : ℤ} (h : Btw p q r) : 0 < ((q : ℝ) - p) / (r - p) ∧ ((q : ℝ) - p) / (r - p) < 1 := by
  rcases h with ⟨h1, h2⟩ | ⟨h1, h2⟩
  · have h1' : (p : ℝ) < q := by exact_mod_cast h1
    have h2' : (q : ℝ) < r := by exact_mod_cast h2
    exact ⟨div_pos (by linarith) (by linarith), by rw [div_lt_one (by linarith)]; linarith⟩
  · have h1' : (r : ℝ) < q := by exact_mod_cast h1
    have h2' : (q : ℝ) < p := by exact_mod_cast h2
    exact ⟨div_pos_of_neg_of_neg (by linarith) (by linarith), by rw [div_lt_one_of_neg (by linarith)]; linarith⟩

theorem distance_comm (a b : Vec2 F32) : distance a b = distance b a := by
  change F32.sqrt (F32.add (F32.mul (F32.sub b.x a.x) (F32.sub b.x a.x)) (F32.mul (F32.sub b.y a.y) (F32.sub b.y a.y))) =
    F32.sqrt (F32.add (F32.mul (F32.sub a.x b.x) (F32.sub a.x b.x)) (F32.mul (F32.sub a.y b.y) (F32.sub a.y b.y)))
  rw [sq_sub_comm b.x a.x, sq_sub_comm b.y a.y]

/-- finite and at least one half -/
def Far (x : F32) : Prop := IsFin x ∧ 1 / 2 ≤ toReal x

/-- what a graph needs of a crossing `q` of `a b` and `c d`: it passes both on-segment tests and is away from the four ends -/
def Good (a b c d q : Vec2 F32) : Prop :=
  (∀ f, isOnLineSegment a b q f = true ∧ isOnLineSegment c d q f = true) ∧ ∀ v ∈ [a, b, c, d], Far (distance q v)

/-- the point at `a.x + t * (b.x - a.x)` on the level of a horizontal segment, close to the vertical one -/
theorem good_of_step {a b c d q : Vec2 F32} {x0 x1 y z y2 y3 : ℤ} (ha : At a x0 y) (hb : At b x1 y) (hc : At c z y2) (hd : At d z y3)
    (bx0 : |x0| ≤ 1024) (bx1 : |x1| ≤ 1024) (by2 : |y2| ≤ 1024) (by3 : |y3| ≤ 1024) (hz : Btw x0 z x1) (hy : Btw y2 y y3) {t : F32}
    (ht : Rnd (((z : ℝ) - x0) / (x1 - x0)) t) (hq : q.x = a.x + t * (b.x - a.x)) (hqy : Whole q.y y) :
    Good a b c d q ∧ IsFin q.x ∧ |toReal q.x - z| ≤ 3 / 2 ^ 14 := by
  obtain ⟨c0l, c0u⟩ := abs_le.1 bx0
  obtain ⟨c1l, c1u⟩ := abs_le.1 bx1
  obtain ⟨c2l, c2u⟩ := abs_le.1 by2
  obtain ⟨c3l, c3u⟩ := abs_le.1 by3
  unfold Btw at hz hy
  have hDX : Whole (b.x - a.x) (x1 - x0) := hb.1.sub ha.1 (abs_le.2 (by constructor <;> norm_num <;> omega))
  obtain ⟨fp, hpc, ⟨fpA, epA⟩, ⟨fXp, hXlo, hXhi⟩, hlo, hhi, hsum⟩ := step ha.1 hb.1 hDX bx0 bx1 hz ht
  rw [← hq] at *
  -- the horizontal segment
  have z1 : Whole (q.y - a.y) 0 := by simpa using hqy.sub ha.2 (by simp)
  have z2 : Whole (b.y - q.y) 0 := by simpa using hb.2.sub hqy (by simp)
  have z3 : Whole (b.y - a.y) 0 := by simpa using hb.2.sub ha.2 (by simp)
  have tiny : (1 : ℝ) / 2 ^ 40 ≤ 1 / 2 := by norm_num
  have big : (2 : ℝ) ^ 12 ≤ 2 ^ 60 := by norm_num
  obtain ⟨d1, e1⟩ := dist_axis z1 fpA (by rw [epA]; linarith) (by rw [epA]; linarith)
  obtain ⟨d2, e2⟩ := dist_axis z2 fXp (by linarith) (by linarith)
  have hLr : toReal (b.x - a.x) = (x1 : ℝ) - x0 := by rw [hDX.2]; push_cast; rfl
  have hL : 1 ≤ |(x1 : ℝ) - x0| ∧ |(x1 : ℝ) - x0| ≤ 2048 := by
    have h1 : 1 ≤ |x1 - x0| := Int.one_le_abs (by omega)
    have h2 : |x1 - x0| ≤ 2048 := abs_le.2 (by omega)
    constructor
    · exact_mod_cast h1
    · exact_mod_cast h2
  obtain ⟨d3, e3⟩ := dist_axis z3 hDX.1 (by rw [hLr]; linarith) (by rw [hLr]; norm_num; linarith)
  rw [epA] at e1
  obtain ⟨d4, e4⟩ := hsum _ _ d1 d2 e1 e2
  have on1 : ∀ f, isOnLineSegment a b q f = true :=
    on_of_sum d3 d1 d2 d4 (by rw [e4, e3, hLr]) (by rw [e1]; exact hlo) (by rw [e2]; exact hXlo)
  -- the vertical segment
  obtain ⟨k, hk, hke⟩ := exists_mag 135 3 (by norm_num) (by norm_num)
  have ke : |toReal (fin false ⟨k, hk⟩)| = 3 / 2 ^ 14 := by
    rw [toReal_fin, if_neg Bool.false_ne_true, one_mul, abs_of_nonneg (by positivity)]
    change ((mag k : ℕ) : ℝ) / 2 ^ 149 = _
    rw [hke]
    norm_num
  have hmax : (3 : ℝ) / 2 ^ 14 < maxHalf := by unfold maxHalf; norm_num
  have w1 : IsFin (q.x - c.x) ∧ |toReal (q.x - c.x)| ≤ 3 / 2 ^ 14 := by
    have hf : IsFin (q.x - c.x) := sub_isFin fp hc.1.1 (by rw [hc.1.2]; exact lt_of_le_of_lt hpc hmax)
    have := (sub_rnd fp hc.1.1 hf).upper (y := fin false ⟨k, hk⟩) ⟨_, _, rfl⟩ (by rw [hc.1.2, ke]; exact hpc)
    exact ⟨hf, by rwa [ke] at this⟩
  have w2 : IsFin (d.x - q.x) ∧ |toReal (d.x - q.x)| ≤ 3 / 2 ^ 14 := by
    have hf : IsFin (d.x - q.x) := sub_isFin hd.1.1 fp (by rw [hd.1.2, abs_sub_comm]; exact lt_of_le_of_lt hpc hmax)
    have := (sub_rnd hd.1.1 fp hf).upper (y := fin false ⟨k, hk⟩) ⟨_, _, rfl⟩ (by rw [hd.1.2, ke, abs_sub_comm]; exact hpc)
    exact ⟨hf, by rwa [ke] at this⟩
  have w3 : Whole (d.x - c.x) 0 := by simpa using hd.1.sub hc.1 (by simp)
  have v1 : Whole (q.y - c.y) (y - y2) := hqy.sub hc.2 (abs_le.2 (by constructor <;> norm_num <;> omega))
  have v2 : Whole (d.y - q.y) (y3 - y) := hd.2.sub hqy (abs_le.2 (by constructor <;> norm_num <;> omega))
  have v3 : Whole (d.y - c.y) (y3 - y2) := hd.2.sub hc.2 (abs_le.2 (by constructor <;> norm_num <;> omega))
  obtain ⟨g1, k1⟩ := dist_across w1.1 w1.2 v1 (by omega) (abs_le.2 (by omega))
  obtain ⟨g2, k2⟩ := dist_across w2.1 w2.2 v2 (by omega) (abs_le.2 (by omega))
  obtain ⟨g3, k3⟩ := dist_across w3.1 (by rw [w3.2]; norm_num) v3 (by omega) (abs_le.2 (by omega))
  have hadd : |y - y2| + |y3 - y| = |y3 - y2| := by
    rcases hy with ⟨h1, h2⟩ | ⟨h1, h2⟩
    · rw [abs_of_pos (by omega), abs_of_pos (by omega), abs_of_pos (by omega)]; ring
    · rw [abs_of_neg (by omega), abs_of_neg (by omega), abs_of_neg (by omega)]; ring
  have s1 := (whole_abs g1 k1).add (whole_abs g2 k2) (by rw [hadd, abs_abs]; exact abs_le.2 (by constructor <;> norm_num <;> omega))
  rw [hadd] at s1
  have one1 : (1 : ℝ) ≤ |((y - y2 : ℤ) : ℝ)| := by
    have : 1 ≤ |y - y2| := Int.one_le_abs (by omega)
    exact_mod_cast this
  have one2 : (1 : ℝ) ≤ |((y3 - y : ℤ) : ℝ)| := by
    have : 1 ≤ |y3 - y| := Int.one_le_abs (by omega)
    exact_mod_cast this
  have on2 : ∀ f, isOnLineSegment c d q f = true :=
    on_of_sum g3 g1 g2 s1.1 (by rw [s1.2, k3, Int.cast_abs]) (by rw [k1]; linarith) (by rw [k2]; linarith)
  refine ⟨⟨fun f => ⟨on1 f, on2 f⟩, ?_⟩, fp, hpc⟩
  intro v hv
  simp only [List.mem_cons, List.not_mem_nil, or_false] at hv
  rcases hv with rfl | rfl | rfl | rfl
  · rw [distance_comm]
    exact ⟨d1, by rw [e1]; exact hlo⟩
  · exact ⟨d2, by rw [e2]; exact hXlo⟩
  · rw [distance_comm]
    exact ⟨g1, by rw [k1]; linarith⟩
  · exact ⟨g2, by rw [k2]; linarith⟩

/-- exchanging the coordinates -/
def flip (v : Vec2 F32) : Vec2 F32 := ⟨v.y, v.x⟩

theorem distance_flip (a b : Vec2 F32) : distance (flip a) (flip b) = distance a b := by
  change F32.sqrt (F32.add (F32.mul (F32.sub b.y a.y) (F32.sub b.y a.y)) (F32.mul (F32.sub b.x a.x) (F32.sub b.x a.x))) =
    F32.sqrt (F32.add (F32.mul (F32.sub b.x a.x) (F32.sub b.x a.x)) (F32.mul (F32.sub b.y a.y) (F32.sub b.y a.y)))
  rw [add_comm']

theorem on_flip (a b p : Vec2 F32) (f : Bool) : isOnLineSegment (flip a) (flip b) (flip p) f = isOnLineSegment a b p f := by
  unfold isOnLineSegment
  rw [distance_flip, distance_flip, distance_flip]

theorem Good.flip {a b c d q : Vec2 F32} (h : Good (flip a) (flip b) (flip c) (flip d) (flip q)) : Good a b c d q := by
  obtain ⟨h1, h2⟩ := h
  refine ⟨fun f => ⟨by rw [← on_flip]; exact (h1 f).1, by rw [← on_flip]; exact (h1 f).2⟩, fun v hv => ?_⟩
  rw [← distance_flip]
  refine h2 _ ?_
  simp only [List.mem_cons, List.not_mem_nil, or_false] at hv ⊢
  rcases hv with rfl | rfl | rfl | rfl <;> simp

theorem zero_add_whole {A t Z : F32} {x0 : ℤ} (hA : Whole A x0) (hx : |x0| ≤ 1024) (ht : IsFin t) (hZ : Whole Z 0) : Whole (A + t * Z) x0 := by
  obtain ⟨f, e⟩ := mul_zero' ht hZ.1 (by rw [hZ.2]; simp)
  have hW : Whole (t * Z) 0 := ⟨f, by rw [e]; simp⟩
  have := hA.add hW (by rw [add_zero]; exact hx.trans (by norm_num))
  rwa [add_zero] at this

/-- **C126.** A horizontal segment `a b` and a vertical segment `c d` with whole coordinates of size at most 1024 that cross inside
both of them: in f32 the crossing is found from either side, it is off by at most `3 * 2^-14` along the segment it is computed on, it passes
the on-segment test for both segments, and it is away from the four ends. -/
theorem C126_cross {a b c d : Vec2 F32} {x0 x1 y z y2 y3 : ℤ} (ha : At a x0 y) (hb : At b x1 y) (hc : At c z y2) (hd : At d z y3)
    (bx0 : |x0| ≤ 1024) (bx1 : |x1| ≤ 1024) (by2 : |y2| ≤ 1024) (by3 : |y3| ≤ 1024) (hz : Btw x0 z x1) (hy : Btw y2 y y3) :
    (∃ q, calculateLineSegmentIntersection a b c d = some q ∧ Good a b c d q ∧ IsFin q.x ∧ |toReal q.x - z| ≤ 3 / 2 ^ 14 ∧ Whole q.y y) ∧
    (∃ q, calculateLineSegmentIntersection c d a b = some q ∧ Good c d a b q ∧ Whole q.x z ∧ IsFin q.y ∧ |toReal q.y - y| ≤ 3 / 2 ^ 14) := by
  obtain ⟨c0l, c0u⟩ := abs_le.1 bx0
  obtain ⟨c1l, c1u⟩ := abs_le.1 bx1
  obtain ⟨c2l, c2u⟩ := abs_le.1 by2
  obtain ⟨c3l, c3u⟩ := abs_le.1 by3
  have hz' := hz
  have hy' := hy
  unfold Btw at hz' hy'
  have bd : ∀ {m : ℤ}, |m| ≤ 2048 → |m| ≤ 2 ^ 24 := fun h => h.trans (by norm_num)
  have bz : |z| ≤ 1024 := abs_le.2 (by omega)
  have by' : |y| ≤ 1024 := abs_le.2 (by omega)
  have mb : ∀ {m n : ℤ}, |m| ≤ 2048 → |n| ≤ 2048 → |m * n| ≤ 2 ^ 24 := by
    intro m n h1 h2
    rw [abs_mul]
    calc |m| * |n| ≤ 2048 * 2048 := mul_le_mul h1 h2 (abs_nonneg _) (by norm_num)
      _ ≤ 2 ^ 24 := by norm_num
  have dx : Whole (b.x - a.x) (x1 - x0) := hb.1.sub ha.1 (bd (abs_le.2 (by omega)))
  have dy : Whole (d.y - c.y) (y3 - y2) := hd.2.sub hc.2 (bd (abs_le.2 (by omega)))
  have zy : Whole (b.y - a.y) 0 := by simpa using hb.2.sub ha.2 (by simp)
  have zx : Whole (d.x - c.x) 0 := by simpa using hd.1.sub hc.1 (by simp)
  have ax : Whole (a.x - c.x) (x0 - z) := ha.1.sub hc.1 (bd (abs_le.2 (by omega)))
  have ay : Whole (a.y - c.y) (y - y2) := ha.2.sub hc.2 (bd (abs_le.2 (by omega)))
  have cx : Whole (c.x - a.x) (z - x0) := hc.1.sub ha.1 (bd (abs_le.2 (by omega)))
  have cy : Whole (c.y - a.y) (y2 - y) := hc.2.sub ha.2 (bd (abs_le.2 (by omega)))
  have bdx : |x1 - x0| ≤ 2048 := abs_le.2 (by omega)
  have bdy : |y3 - y2| ≤ 2048 := abs_le.2 (by omega)
  have hnex : (x1 : ℝ) - x0 ≠ 0 := by
    have : x1 - x0 ≠ 0 := by omega
    exact_mod_cast this
  have hney : (y3 : ℝ) - y2 ≠ 0 := by
    have : y3 - y2 ≠ 0 := by omega
    exact_mod_cast this
  obtain ⟨p1, p2⟩ := btw_ratio hz
  obtain ⟨p3, p4⟩ := btw_ratio hy
  have zero : ∀ {Z : F32}, Whole Z 0 → ∀ {X : F32} {m : ℤ}, Whole X m → Whole (Z * X) 0 := by
    intro Z hZ X m hX
    have := hZ.mul hX (by simp)
    simpa using this
  have nz : ∀ {Z : F32}, Whole Z 0 → Whole (-Z) 0 := by
    intro Z hZ
    simpa using hZ.neg
  constructor
  · have hD : Whole (-(d.x - c.x) * (b.y - a.y) + (b.x - a.x) * (d.y - c.y)) ((x1 - x0) * (y3 - y2)) := by
      have := (zero (nz zx) zy).add (dx.mul dy (mb bdx bdy)) (by rw [zero_add]; exact mb bdx bdy)
      rwa [zero_add] at this
    have hS : Whole (-(b.y - a.y) * (a.x - c.x) + (b.x - a.x) * (a.y - c.y)) ((x1 - x0) * (y - y2)) := by
      have hm := mb bdx (n := y - y2) (abs_le.2 (by omega))
      have := (zero (nz zy) ax).add (dx.mul ay hm) (by rw [zero_add]; exact hm)
      rwa [zero_add] at this
    have hT : Whole ((d.x - c.x) * (a.y - c.y) - (d.y - c.y) * (a.x - c.x)) ((y3 - y2) * (z - x0)) := by
      have hm := mb bdy (n := x0 - z) (abs_le.2 (by omega))
      have := (zero zx ay).sub (dy.mul ax hm) (by rw [zero_sub, abs_neg]; exact hm)
      rwa [zero_sub, show -((y3 - y2) * (x0 - z)) = (y3 - y2) * (z - x0) by ring] at this
    have hd0 : (x1 - x0) * (y3 - y2) ≠ 0 := mul_ne_zero (by omega) (by omega)
    have es : (((x1 - x0) * (y - y2) : ℤ) : ℝ) / (((x1 - x0) * (y3 - y2) : ℤ) : ℝ) = ((y : ℝ) - y2) / (y3 - y2) := by
      push_cast
      field_simp
    have et : (((y3 - y2) * (z - x0) : ℤ) : ℝ) / (((x1 - x0) * (y3 - y2) : ℤ) : ℝ) = ((z : ℝ) - x0) / (x1 - x0) := by
      push_cast
      field_simp
    obtain ⟨_, s1, s2⟩ := quot_unit hS hD hd0 (by rw [es]; exact p3) (by rw [es]; exact p4)
    obtain ⟨t0, t1, t2⟩ := quot_unit hT hD hd0 (by rw [et]; exact p1) (by rw [et]; exact p2)
    rw [et] at t0
    have hqy := zero_add_whole ha.2 by' t0.1 zy
    refine ⟨⟨a.x + codeT a b c d * (b.x - a.x), a.y + codeT a b c d * (b.y - a.y)⟩, ?_, ?_⟩
    · exact ((DistF32.code_eq).trans (if_pos (by
        unfold codeS codeT codeDenom
        rw [s1, s2, t1, t2]
        rfl)))
    · obtain ⟨g1, g2, g3⟩ := good_of_step ha hb hc hd bx0 bx1 by2 by3 hz hy t0
        (q := ⟨a.x + codeT a b c d * (b.x - a.x), a.y + codeT a b c d * (b.y - a.y)⟩) rfl hqy
      exact ⟨g1, g2, g3, hqy⟩
  · have hD : Whole (-(b.x - a.x) * (d.y - c.y) + (d.x - c.x) * (b.y - a.y)) (-(x1 - x0) * (y3 - y2)) := by
      have hm : |-(x1 - x0) * (y3 - y2)| ≤ 2 ^ 24 := mb (by rw [abs_neg]; exact bdx) bdy
      have := (dx.neg.mul dy hm).add (zero zx zy) (by rw [add_zero]; exact hm)
      rwa [add_zero] at this
    have hS : Whole (-(d.y - c.y) * (c.x - a.x) + (d.x - c.x) * (c.y - a.y)) (-(y3 - y2) * (z - x0)) := by
      have hm : |-(y3 - y2) * (z - x0)| ≤ 2 ^ 24 := mb (by rw [abs_neg]; exact bdy) (abs_le.2 (by omega))
      have := (dy.neg.mul cx hm).add (zero zx cy) (by rw [add_zero]; exact hm)
      rwa [add_zero] at this
    have hT : Whole ((b.x - a.x) * (c.y - a.y) - (b.y - a.y) * (c.x - a.x)) ((x1 - x0) * (y2 - y)) := by
      have hm := mb bdx (n := y2 - y) (abs_le.2 (by omega))
      have := (dx.mul cy hm).sub (zero zy cx) (by rw [sub_zero]; exact hm)
      rwa [sub_zero] at this
    have hd0 : -(x1 - x0) * (y3 - y2) ≠ 0 := mul_ne_zero (by omega) (by omega)
    have es : ((-(y3 - y2) * (z - x0) : ℤ) : ℝ) / ((-(x1 - x0) * (y3 - y2) : ℤ) : ℝ) = ((z : ℝ) - x0) / (x1 - x0) := by
      push_cast
      rw [neg_mul, neg_mul, neg_div_neg_eq]
      field_simp
    have et : (((x1 - x0) * (y2 - y) : ℤ) : ℝ) / ((-(x1 - x0) * (y3 - y2) : ℤ) : ℝ) = ((y : ℝ) - y2) / (y3 - y2) := by
      push_cast
      rw [neg_mul, div_neg, ← neg_div, show -(((x1 : ℝ) - x0) * (y2 - y)) = (x1 - x0) * (y - y2) by ring]
      field_simp
    obtain ⟨_, s1, s2⟩ := quot_unit hS hD hd0 (by rw [es]; exact p1) (by rw [es]; exact p2)
    obtain ⟨t0, t1, t2⟩ := quot_unit hT hD hd0 (by rw [et]; exact p3) (by rw [et]; exact p4)
    rw [et] at t0
    have hqx := zero_add_whole hc.1 bz t0.1 zx
    refine ⟨⟨c.x + codeT c d a b * (d.x - c.x), c.y + codeT c d a b * (d.y - c.y)⟩, ?_, ?_⟩
    · exact ((DistF32.code_eq).trans (if_pos (by
        unfold codeS codeT codeDenom
        rw [s1, s2, t1, t2]
        rfl)))
    · obtain ⟨g1, g2, g3⟩ := good_of_step (a := flip c) (b := flip d) (c := flip a) (d := flip b) ⟨hc.2, hc.1⟩ ⟨hd.2, hd.1⟩ ⟨ha.2, ha.1⟩
        ⟨hb.2, hb.1⟩ by2 by3 bx0 bx1 hy hz t0 (q := flip ⟨c.x + codeT c d a b * (d.x - c.x), c.y + codeT c d a b * (d.y - c.y)⟩) rfl hqx
      exact ⟨g1.flip, hqx, g2, g3⟩

/-- whole numbers up to `2^24` as literals -/
theorem whole_lit (z : ℤ) (hz : z.natAbs ≤ 2 ^ 24) : Whole (F32.lit z) z := by
  obtain ⟨n, hn, hm⟩ := exists_mag 149 z.natAbs hz (by norm_num)
  have h1 : F32.lit z = fin (decide (z < 0)) ⟨n, hn⟩ := by
    unfold F32.lit F32.round
    have := roundIdx_exact n 1 Nat.one_pos
    rw [Nat.mul_one, hm] at this
    rw [this]
    unfold pack
    rw [dif_pos hn]
  refine ⟨⟨_, _, h1⟩, ?_⟩
  rw [h1, toReal_fin]
  simp only [hm, Nat.cast_mul, Nat.cast_pow, Nat.cast_ofNat, decide_eq_true_eq]
  rw [mul_div_assoc, mul_div_assoc, div_self (by positivity), mul_one, Nat.cast_natAbs, Int.cast_abs]
  by_cases h : z < 0
  · rw [if_pos h, abs_of_neg (by exact_mod_cast h)]
    ring
  · rw [if_neg h, abs_of_nonneg (by exact_mod_cast not_lt.1 h)]
    ring

/-- the segments from (0, 0) to (105, 0) and from (27, 1) to (27, -1) meet at (27 + 2^-19, 0) or at (27, 0), depending on the order -/
example : (∃ q, calculateLineSegmentIntersection (⟨F32.lit 0, F32.lit 0⟩ : Vec2 F32) ⟨F32.lit 105, F32.lit 0⟩ ⟨F32.lit 27, F32.lit 1⟩
      ⟨F32.lit 27, F32.lit (-1)⟩ = some q ∧ |toReal q.x - (27 : ℤ)| ≤ 3 / 2 ^ 14) ∧
    (calculateLineSegmentIntersection (⟨F32.lit 0, F32.lit 0⟩ : Vec2 F32) ⟨F32.lit 105, F32.lit 0⟩ ⟨F32.lit 27, F32.lit 1⟩
      ⟨F32.lit 27, F32.lit (-1)⟩).map (fun q => (toRat q.x, toRat q.y)) = some (27 + 1 / 2 ^ 19, 0) ∧
    (calculateLineSegmentIntersection (⟨F32.lit 27, F32.lit 1⟩ : Vec2 F32) ⟨F32.lit 27, F32.lit (-1)⟩ ⟨F32.lit 0, F32.lit 0⟩
      ⟨F32.lit 105, F32.lit 0⟩).map (fun q => (toRat q.x, toRat q.y)) = some (27, 0) := by
  have h : ∀ x y : ℤ, x.natAbs ≤ 2 ^ 24 → y.natAbs ≤ 2 ^ 24 → At ⟨F32.lit x, F32.lit y⟩ x y := fun x y h1 h2 => ⟨whole_lit x h1, whole_lit y h2⟩
  obtain ⟨⟨q, h, _, _, h', _⟩, _⟩ := C126_cross (h 0 0 (by norm_num) (by norm_num)) (h 105 0 (by norm_num) (by norm_num))
    (h 27 1 (by norm_num) (by norm_num)) (h 27 (-1) (by norm_num) (by norm_num)) (by norm_num) (by norm_num) (by norm_num) (by norm_num)
    (Or.inl ⟨by norm_num, by norm_num⟩) (Or.inr ⟨by norm_num, by norm_num⟩)
  exact ⟨⟨q, h, h'⟩, by decide +kernel, by decide +kernel⟩

end Kami.Utils
