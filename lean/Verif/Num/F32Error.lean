import Verif.Num.F32Real
import Mathlib.Tactic.Ring
/-!
# Rounding errors of the binary32 operations

`u = 2^-24`: sums, differences and square roots have relative error at most `u`; products and quotients in addition an
absolute error of at most `2^-150` (underflow).
-/

set_option autoImplicit false

namespace Kami.F32

/-- unit roundoff -/
noncomputable def u : ℝ := 1 / 2 ^ 24
/-- half the least subnormal number -/
noncomputable def η : ℝ := 1 / 2 ^ 150

theorem u_pos : 0 < u := by unfold u; positivity
theorem η_pos : 0 < η := by unfold η; positivity

theorem pack_err {r : ℝ} (hr : 0 ≤ r) {n : ℕ} (h : RIdx r n) (s : Bool) (hn : n < 0x7f800000) :
    |toReal (pack s n) - (if s then -1 else 1) * (r / 2 ^ 149)| ≤ u * (r / 2 ^ 149) ∨
    (n ≤ 2 ^ 23 ∧ |toReal (pack s n) - (if s then -1 else 1) * (r / 2 ^ 149)| ≤ η ∧ |r - mag n| ≤ 1 / 2) := by
  have hp : (0 : ℝ) < 2 ^ 149 := by positivity
  have e : |toReal (pack s n) - (if s then -1 else 1) * (r / 2 ^ 149)| = |r - mag n| / 2 ^ 149 := by
    rw [show pack s n = fin s ⟨n, hn⟩ from dif_pos hn, toReal_fin, ← abs_of_pos hp, ← abs_div, abs_of_pos hp]
    cases s
    · rw [← abs_neg]; congr 1; simp; ring
    · congr 1; simp; ring
  rw [e]
  rcases h.err hr with h1 | ⟨h1, h2⟩
  · left
    unfold u
    rw [div_le_iff₀ hp]
    have : 1 / 2 ^ 24 * (r / 2 ^ 149) * 2 ^ 149 = r / 2 ^ 24 := by field_simp
    rw [this, le_div_iff₀ (by positivity)]
    linarith
  · right
    refine ⟨h1, ?_, h2⟩
    unfold η
    rw [div_le_iff₀ hp]
    refine h2.trans (le_of_eq ?_)
    rw [show (2 : ℝ) ^ 150 = 2 * 2 ^ 149 by rw [pow_succ]; ring]
    field_simp

theorem RoundsTo.isFin {r : ℝ} {x : F32} (h : RoundsTo r x) (hr : |r| < maxHalf) : IsFin x := by
  cases x with
  | nan => exact h.elim
  | inf s =>
    exfalso
    obtain ⟨h1, h2⟩ := abs_lt.1 hr
    cases s
    · simp only [RoundsTo, Bool.false_eq_true, if_false] at h; linarith
    · simp only [RoundsTo, if_true] at h; linarith
  | fin s n => exact ⟨s, n, rfl⟩

theorem pack_isFin {s : Bool} {n : ℕ} (h : IsFin (pack s n)) : n < 0x7f800000 := by
  by_contra hn
  obtain ⟨t, m, h⟩ := h
  rw [show pack s n = inf s from dif_neg hn] at h
  cases h

theorem abs_sign (s : Bool) (x : ℝ) : |(if s then (-1 : ℝ) else 1) * x| = |x| := by cases s <;> simp

section
variable {x y : F32}

theorem add_isFin (hx : IsFin x) (hy : IsFin y) (h : |toReal x + toReal y| < maxHalf) : IsFin (x + y) := by
  obtain ⟨s, m, rfl⟩ := hx
  obtain ⟨t, n, rfl⟩ := hy
  exact (add_rounds s t m n).isFin h

theorem neg_isFin (hx : IsFin x) : IsFin (-x) := by
  obtain ⟨s, m, rfl⟩ := hx
  exact ⟨!s, m, rfl⟩

theorem sub_isFin (hx : IsFin x) (hy : IsFin y) (h : |toReal x - toReal y| < maxHalf) : IsFin (x - y) := by
  obtain ⟨s, m, rfl⟩ := hx
  obtain ⟨t, n, rfl⟩ := hy
  exact (sub_rounds s t m n).isFin h

theorem mul_isFin (hx : IsFin x) (hy : IsFin y) (h : |toReal x * toReal y| < maxHalf) : IsFin (x * y) := by
  obtain ⟨s, m, rfl⟩ := hx
  obtain ⟨t, n, rfl⟩ := hy
  exact (mul_rounds s t m n).isFin h

theorem add_err (hx : IsFin x) (hy : IsFin y) (h : IsFin (x + y)) :
    |toReal (x + y) - (toReal x + toReal y)| ≤ u * |toReal x + toReal y| := by
  obtain ⟨s, m, rfl⟩ := hx
  obtain ⟨t, n, rfl⟩ := hy
  change IsFin (F32.add (fin s m) (fin t n)) at h
  change |toReal (F32.add (fin s m) (fin t n)) - _| ≤ _
  have hval : toReal (fin s m) + toReal (fin t n) = ((val s m + val t n : ℤ) : ℝ) / 2 ^ 149 := by
    unfold toReal; push_cast; ring
  rw [hval]
  unfold F32.add at h ⊢
  simp only at h ⊢
  generalize val s m + val t n = z at *
  split at h
  · rename_i hz
    rw [if_pos hz, hz]
    simp [toReal, val]
  · rename_i hz
    rw [if_neg hz]
    have hn := pack_isFin h
    have hr := roundIdx_ridx z.natAbs 1 one_pos
    rw [Nat.cast_one, div_one] at hr
    have h1 : ((z.natAbs : ℕ) : ℝ) = |(z : ℝ)| := by rw [Nat.cast_natAbs, Int.cast_abs]
    have h2 : (if decide (z < 0) = true then (-1 : ℝ) else 1) * ((z.natAbs : ℝ) / 2 ^ 149) = (z : ℝ) / 2 ^ 149 := by
      rw [h1]
      by_cases hneg : z < 0
      · have : (z : ℝ) < 0 := by exact_mod_cast hneg
        rw [abs_of_neg this]; simp [hneg]; ring
      · have : (0 : ℝ) ≤ z := by exact_mod_cast not_lt.1 hneg
        rw [abs_of_nonneg this]; simp [hneg]
    have hp : (0 : ℝ) < 2 ^ 149 := by positivity
    have h3 : |(z : ℝ) / 2 ^ 149| = (z.natAbs : ℝ) / 2 ^ 149 := by rw [abs_div, abs_of_pos hp, h1]
    rw [h3]
    rcases pack_err (Nat.cast_nonneg _) hr (decide (z < 0)) hn with h4 | ⟨h4, _, h5⟩
    · rwa [h2] at h4
    · -- integers below 2^24 are on the grid
      have h6 : z.natAbs = mag (roundIdx z.natAbs 1) := by
        have h7 : |((z.natAbs : ℤ) : ℝ) - ((mag (roundIdx z.natAbs 1) : ℤ) : ℝ)| < 1 := by
          rw [Int.cast_natCast, Int.cast_natCast]
          linarith
        rw [← Int.cast_sub, ← Int.cast_abs] at h7
        have h8 : |(z.natAbs : ℤ) - (mag (roundIdx z.natAbs 1) : ℤ)| < 1 := by exact_mod_cast h7
        have := Int.abs_lt_one_iff.1 h8
        omega
      have h9 : toReal (round (decide (z < 0)) z.natAbs 1) = (z : ℝ) / 2 ^ 149 := by
        rw [← h2]
        unfold round
        rw [show pack _ _ = fin _ ⟨_, hn⟩ from dif_pos hn, toReal_fin]
        simp only
        rw [← h6]
        ring
      rw [h9, sub_self, abs_zero]
      have := u_pos
      positivity

theorem sub_eq_add_neg' (x y : F32) : x - y = x + -y := rfl

theorem sub_err (hx : IsFin x) (hy : IsFin y) (h : IsFin (x - y)) :
    |toReal (x - y) - (toReal x - toReal y)| ≤ u * |toReal x - toReal y| := by
  have := add_err hx (neg_isFin hy) h
  rw [show toReal (-y) = -toReal y from toReal_neg y, ← sub_eq_add_neg] at this
  exact this

theorem mul_err (hx : IsFin x) (hy : IsFin y) (h : IsFin (x * y)) :
    |toReal (x * y) - toReal x * toReal y| ≤ u * |toReal x * toReal y| + η := by
  obtain ⟨s, m, rfl⟩ := hx
  obtain ⟨t, n, rfl⟩ := hy
  change IsFin (round (s ^^ t) (mag m * mag n) (2 ^ 149)) at h
  change |toReal (round (s ^^ t) (mag m * mag n) (2 ^ 149)) - _| ≤ _
  have hn := pack_isFin h
  have hr := roundIdx_ridx (mag m * mag n) (2 ^ 149) (by positivity)
  have hr0 : (0 : ℝ) ≤ ((mag m * mag n : ℕ) : ℝ) / ((2 ^ 149 : ℕ) : ℝ) := by positivity
  have e : (if (s ^^ t) then (-1 : ℝ) else 1) * (((mag m * mag n : ℕ) : ℝ) / ((2 ^ 149 : ℕ) : ℝ) / 2 ^ 149)
      = toReal (fin s m) * toReal (fin t n) := by
    rw [sign_xor, toReal_fin, toReal_fin]
    push_cast
    ring
  have e2 : ((mag m * mag n : ℕ) : ℝ) / ((2 ^ 149 : ℕ) : ℝ) / 2 ^ 149 = |toReal (fin s m) * toReal (fin t n)| := by
    rw [← e, abs_sign, abs_of_nonneg (by positivity)]
  have h1 := pack_err hr0 hr (s ^^ t) hn
  rw [e, e2] at h1
  have := η_pos
  have := u_pos
  have := abs_nonneg (toReal (fin s m) * toReal (fin t n))
  unfold round
  rcases h1 with h1 | ⟨_, h1, _⟩ <;> nlinarith

theorem div_err (hx : IsFin x) (hy : IsFin y) (hy0 : toReal y ≠ 0) (h : IsFin (x / y)) :
    |toReal (x / y) - toReal x / toReal y| ≤ u * |toReal x / toReal y| + η := by
  obtain ⟨s, m, rfl⟩ := hx
  obtain ⟨t, n, rfl⟩ := hy
  have hn0 : n.val ≠ 0 := by
    intro h0
    apply hy0
    rw [toReal_fin, h0, mag_zero]
    simp
  have hpos : 0 < mag n := Nat.pos_of_ne_zero (fun h => hn0 (mag_eq_zero.1 h))
  have hd : fin s m / fin t n = round (s ^^ t) (mag m * 2 ^ 149) (mag n) := by
    show F32.div (fin s m) (fin t n) = _
    unfold F32.div
    simp only [if_neg hn0]
  rw [hd] at h ⊢
  have hn := pack_isFin h
  have hr := roundIdx_ridx (mag m * 2 ^ 149) (mag n) hpos
  have hr0 : (0 : ℝ) ≤ ((mag m * 2 ^ 149 : ℕ) : ℝ) / (mag n : ℝ) := by positivity
  have hpos' : (mag n : ℝ) ≠ 0 := by exact_mod_cast hpos.ne'
  have e : (if (s ^^ t) then (-1 : ℝ) else 1) * (((mag m * 2 ^ 149 : ℕ) : ℝ) / (mag n : ℝ) / 2 ^ 149)
      = toReal (fin s m) / toReal (fin t n) := by
    rw [sign_xor, toReal_fin, toReal_fin, Nat.cast_mul, Nat.cast_pow, Nat.cast_ofNat]
    have hw : (2 : ℝ) ^ 149 ≠ 0 := by positivity
    generalize (2 : ℝ) ^ 149 = w at *
    cases s <;> cases t <;> simp <;> field_simp
  have e2 : ((mag m * 2 ^ 149 : ℕ) : ℝ) / (mag n : ℝ) / 2 ^ 149 = |toReal (fin s m) / toReal (fin t n)| := by
    rw [← e, abs_sign, abs_of_nonneg (by positivity)]
  have h1 := pack_err hr0 hr (s ^^ t) hn
  rw [e, e2] at h1
  have := η_pos
  have := u_pos
  have := abs_nonneg (toReal (fin s m) / toReal (fin t n))
  unfold round
  rcases h1 with h1 | ⟨_, h1, _⟩ <;> nlinarith

theorem toReal_nonneg_cases (hx : IsFin x) (h0 : 0 ≤ toReal x) :
    (∃ n, x = fin false n) ∨ x = fin true ⟨0, by decide⟩ := by
  obtain ⟨s, n, rfl⟩ := hx
  cases s
  · exact Or.inl ⟨n, rfl⟩
  · right
    rw [toReal_fin, if_pos rfl] at h0
    have h1 : (mag n : ℝ) ≤ 0 := by
      by_contra hc
      push Not at hc
      have : -1 * (mag n : ℝ) / 2 ^ 149 < 0 := by
        rw [div_lt_iff₀ (by positivity)]; linarith
      linarith
    have h2 : mag n = 0 := by exact_mod_cast le_antisymm h1 (Nat.cast_nonneg _)
    have h3 := mag_eq_zero.1 h2
    congr 1
    exact Fin.ext h3

theorem toReal_lt_max (hx : IsFin x) : |toReal x| < 2 ^ 128 := by
  obtain ⟨s, n, rfl⟩ := hx
  rw [toReal_fin, mul_div_assoc, abs_sign, abs_of_nonneg (by positivity), div_lt_iff₀ (by positivity)]
  have h1 : mag n < mag 0x7f800000 := mag_lt.2 n.isLt
  have h2 : mag 0x7f800000 = 2 ^ 128 * 2 ^ 149 := by decide +kernel
  rw [h2] at h1
  exact_mod_cast h1

theorem sqrt_isFin (hx : IsFin x) (h0 : 0 ≤ toReal x) : IsFin (F32.sqrt x) := by
  rcases toReal_nonneg_cases hx h0 with ⟨n, rfl⟩ | rfl
  · refine (sqrt_rounds n).isFin ?_
    rw [abs_of_nonneg (Real.sqrt_nonneg _)]
    have h1 := toReal_lt_max hx
    rw [abs_of_nonneg h0] at h1
    have h2 : Real.sqrt (toReal (fin false n)) < 2 ^ 64 := by
      rw [Real.sqrt_lt' (by positivity), ← pow_mul]
      exact h1
    refine h2.trans ?_
    unfold maxHalf
    norm_num
  · exact ⟨true, ⟨0, by decide⟩, rfl⟩

theorem sqrt_err (hx : IsFin x) (h0 : 0 ≤ toReal x) :
    |toReal (F32.sqrt x) - Real.sqrt (toReal x)| ≤ u * Real.sqrt (toReal x) := by
  have hf := sqrt_isFin hx h0
  rcases toReal_nonneg_cases hx h0 with ⟨n, rfl⟩ | rfl
  · unfold F32.sqrt at hf ⊢
    simp only [Bool.false_eq_true, if_false] at hf ⊢
    by_cases hn0 : n.val = 0
    · rw [if_pos hn0]
      have : toReal (fin false n) = 0 := by rw [toReal_fin, hn0, mag_zero]; simp
      rw [this, Real.sqrt_zero]; simp
    · rw [if_neg hn0] at hf ⊢
      have hn := pack_isFin hf
      have hr := sqrtIdx_ridx (mag n * 2 ^ 149)
      have e : Real.sqrt ((mag n * 2 ^ 149 : ℕ) : ℝ) / 2 ^ 149 = Real.sqrt (toReal (fin false n)) := by
        rw [toReal_fin, Nat.cast_mul, Nat.cast_pow, Nat.cast_ofNat, if_neg Bool.false_ne_true, one_mul]
        rw [show (mag n : ℝ) / 2 ^ 149 = (mag n * 2 ^ 149) / (2 ^ 149) ^ 2 by field_simp,
          Real.sqrt_div' _ (by positivity), Real.sqrt_sq (by positivity)]
      have h1 := pack_err (Real.sqrt_nonneg _) hr false hn
      rw [if_neg Bool.false_ne_true, one_mul, e] at h1
      rcases h1 with h1 | ⟨h1, left, h2⟩
      · exact h1
      · exfalso
        -- the root of a positive number is at least 2^74 units
        have h3 : (1 : ℝ) ≤ mag n := by
          exact_mod_cast Nat.pos_of_ne_zero (fun h => hn0 (mag_eq_zero.1 h))
        have h4 : (2 : ℝ) ^ 74 ≤ Real.sqrt ((mag n * 2 ^ 149 : ℕ) : ℝ) := by
          refine Real.le_sqrt_of_sq_le ?_
          rw [Nat.cast_mul, Nat.cast_pow, Nat.cast_ofNat, ← pow_mul]
          have : (2 : ℝ) ^ (74 * 2) ≤ 1 * 2 ^ 149 := by norm_num
          nlinarith
        have h5 : (mag (sqrtIdx (mag n * 2 ^ 149)) : ℝ) ≤ mag (2 ^ 23) := magR_le h1
        have h6 : mag (2 ^ 23) = 2 ^ 23 := by decide +kernel
        rw [h6, Nat.cast_pow, Nat.cast_ofNat] at h5
        have h7 := (abs_le.1 h2).2
        have h8 : (2 : ℝ) ^ 74 > 2 ^ 23 + 1 := by norm_num
        clear e left h2 hr hn hf h1
        generalize (mag (sqrtIdx (mag n * 2 ^ 149)) : ℝ) = B at *
        generalize Real.sqrt ((mag n * 2 ^ 149 : ℕ) : ℝ) = A at *
        linarith
  · have : toReal (fin true ⟨0, by decide⟩) = 0 := by rw [toReal_fin, mag_zero]; simp
    show |toReal (fin true ⟨0, by decide⟩) - _| ≤ _
    rw [this, Real.sqrt_zero]; simp

/-! ## comparisons -/

theorem toReal_lt_iff (s t : Bool) (m n : Fin 0x7f800000) : toReal (fin s m) < toReal (fin t n) ↔ val s m < val t n := by
  unfold toReal
  rw [div_lt_div_iff_of_pos_right (by positivity), Int.cast_lt]

theorem toReal_eq_iff (s t : Bool) (m n : Fin 0x7f800000) : toReal (fin s m) = toReal (fin t n) ↔ val s m = val t n := by
  unfold toReal
  rw [div_left_inj' (by positivity), Int.cast_inj]

theorem lt_fin (hx : IsFin x) (hy : IsFin y) : F32.lt x y = true ↔ toReal x < toReal y := by
  obtain ⟨s, m, rfl⟩ := hx
  obtain ⟨t, n, rfl⟩ := hy
  rw [toReal_lt_iff]
  simp [F32.lt]

theorem eq_fin (hx : IsFin x) (hy : IsFin y) : F32.eq x y = true ↔ toReal x = toReal y := by
  obtain ⟨s, m, rfl⟩ := hx
  obtain ⟨t, n, rfl⟩ := hy
  rw [toReal_eq_iff]
  simp [F32.eq]

theorem le_fin (hx : IsFin x) (hy : IsFin y) : F32.le x y = true ↔ toReal x ≤ toReal y := by
  unfold F32.le
  rw [Bool.or_eq_true, lt_fin hx hy, eq_fin hx hy, le_iff_lt_or_eq]

theorem zero_isFin : IsFin (ofBits 0) := ⟨false, ⟨0, by decide⟩, rfl⟩
theorem toReal_zero : toReal (ofBits 0) = 0 := by
  show toReal (fin false ⟨0, by decide⟩) = 0
  rw [toReal_fin, mag_zero]; simp

/-- equal values are equal numbers, up to the sign of zero -/
theorem eq_of_toReal (hx : IsFin x) (hy : IsFin y) (h : toReal x = toReal y) : x = y ∨ toReal x = 0 := by
  obtain ⟨s, m, rfl⟩ := hx
  obtain ⟨t, n, rfl⟩ := hy
  have hv := (toReal_eq_iff s t m n).1 h
  have hmn : mag m = mag n := by
    have := congrArg Int.natAbs hv
    rwa [natAbs_val, natAbs_val] at this
  have e : m = n := Fin.ext (mag_inj.1 hmn)
  subst e
  by_cases hst : s = t
  · exact Or.inl (by rw [hst])
  · right
    have : val s m = 0 := by
      cases s <;> cases t <;> simp [val] at hv hst ⊢ <;> omega
    show (val s m : ℝ) / 2 ^ 149 = 0
    rw [this]; simp

/-- the product of finite numbers, one of them zero -/
theorem mul_zero' (hx : IsFin x) (hy : IsFin y) (h : toReal x * toReal y = 0) : IsFin (x * y) ∧ toReal (x * y) = 0 := by
  have hf : IsFin (x * y) := mul_isFin hx hy (by rw [h, abs_zero]; unfold maxHalf; norm_num)
  refine ⟨hf, ?_⟩
  obtain ⟨s, m, rfl⟩ := hx
  obtain ⟨t, n, rfl⟩ := hy
  have h0 : mag m * mag n = 0 := by
    rcases mul_eq_zero.1 h with h | h
    · have : mag m = 0 := by
        rw [toReal_fin, mul_div_assoc] at h
        have := abs_sign s ((mag m : ℝ) / 2 ^ 149)
        rw [h, abs_zero] at this
        have h2 := abs_eq_zero.1 this.symm
        have h3 : (mag m : ℝ) = 0 := by
          rcases div_eq_zero_iff.1 h2 with h3 | h3
          · exact h3
          · exact absurd h3 (by positivity)
        exact_mod_cast h3
      rw [this, Nat.zero_mul]
    · have : mag n = 0 := by
        rw [toReal_fin, mul_div_assoc] at h
        have := abs_sign t ((mag n : ℝ) / 2 ^ 149)
        rw [h, abs_zero] at this
        have h2 := abs_eq_zero.1 this.symm
        have h3 : (mag n : ℝ) = 0 := by
          rcases div_eq_zero_iff.1 h2 with h3 | h3
          · exact h3
          · exact absurd h3 (by positivity)
        exact_mod_cast h3
      rw [this, Nat.mul_zero]
  show toReal (round (s ^^ t) (mag m * mag n) (2 ^ 149)) = 0
  rw [h0]
  unfold round
  rw [roundIdx_zero _ (by positivity)]
  show toReal (fin _ ⟨0, by decide⟩) = 0
  rw [toReal_fin, mag_zero]; simp

/-- products of equal values are equal values -/
theorem mul_congr' {x' y' : F32} (hx : IsFin x) (hy : IsFin y) (hx' : IsFin x') (hy' : IsFin y')
    (ex : toReal x = toReal x') (ey : toReal y = toReal y') : toReal (x * y) = toReal (x' * y') := by
  by_cases h : toReal x * toReal y = 0
  · rw [(mul_zero' hx hy h).2, (mul_zero' hx' hy' (by rw [← ex, ← ey, h])).2]
  · have h1 : toReal x ≠ 0 := left_ne_zero_of_mul h
    have h2 : toReal y ≠ 0 := right_ne_zero_of_mul h
    rw [(eq_of_toReal hx hx' ex).resolve_right h1, (eq_of_toReal hy hy' ey).resolve_right h2]

end

end Kami.F32
