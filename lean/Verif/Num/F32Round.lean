import Verif.Num.F32Scale
import Verif.Num.F32Near
/-!
# Exact results of rounding

When a rounded result is known exactly: values on the grid stay, bounds on the grid are kept, `sqrt (x * x)` is `|x|`, and
the error of a difference is absorbed by a sum with an even result.
-/

set_option autoImplicit false

namespace Kami.F32

/-- the finite number `x` is `z` rounded to nearest, ties to even -/
def Rnd (z : ℝ) (x : F32) : Prop :=
  IsFin x ∧ ∃ n, RIdx (|z| * 2 ^ 149) n ∧ |toReal x| * 2 ^ 149 = mag n ∧ 0 ≤ toReal x * z

theorem pack_rnd {r : ℝ} (hr : 0 ≤ r) {n : ℕ} (h : RIdx r n) (s : Bool) (hf : IsFin (pack s n)) :
    Rnd ((if s then -1 else 1) * (r / 2 ^ 149)) (pack s n) := by
  have hn := pack_isFin hf
  have hp : (0 : ℝ) < 2 ^ 149 := by positivity
  refine ⟨hf, n, ?_, ?_, ?_⟩
  · rw [abs_sign, abs_of_nonneg (by positivity), div_mul_cancel₀ _ hp.ne']
    exact h
  · rw [show pack s n = fin s ⟨n, hn⟩ from dif_pos hn, toReal_fin, mul_div_assoc, abs_sign, abs_of_nonneg (by positivity),
      div_mul_cancel₀ _ hp.ne']
  · rw [show pack s n = fin s ⟨n, hn⟩ from dif_pos hn, toReal_fin]
    have h1 : (0 : ℝ) ≤ (mag n : ℝ) / 2 ^ 149 * (r / 2 ^ 149) := by positivity
    cases s <;> simp only [Bool.false_eq_true, if_false, if_true] <;> linarith

section
variable {x y : F32}

theorem add_rnd (hx : IsFin x) (hy : IsFin y) (h : IsFin (x + y)) : Rnd (toReal x + toReal y) (x + y) := by
  obtain ⟨s, m, rfl⟩ := hx
  obtain ⟨t, n, rfl⟩ := hy
  change IsFin (F32.add (fin s m) (fin t n)) at h
  change Rnd _ (F32.add (fin s m) (fin t n))
  have hval : toReal (fin s m) + toReal (fin t n) = ((val s m + val t n : ℤ) : ℝ) / 2 ^ 149 := by
    unfold toReal; push_cast; ring
  rw [hval]
  unfold F32.add at h ⊢
  simp only at h ⊢
  generalize val s m + val t n = z at *
  split at h
  · rename_i hz
    rw [if_pos hz, hz]
    refine ⟨⟨_, _, rfl⟩, 0, ?_, ?_, ?_⟩
    · have := roundIdx_ridx 0 1 (by norm_num)
      rw [Nat.cast_zero, zero_div, roundIdx_zero 1 one_pos] at this
      simpa using this
    · simp [toReal, val]
    · simp
  · rename_i hz
    rw [if_neg hz]
    have hr := roundIdx_ridx z.natAbs 1 one_pos
    rw [Nat.cast_one, div_one] at hr
    have h1 : ((z.natAbs : ℕ) : ℝ) = |(z : ℝ)| := by rw [Nat.cast_natAbs, Int.cast_abs]
    have h2 : (if decide (z < 0) = true then (-1 : ℝ) else 1) * ((z.natAbs : ℝ) / 2 ^ 149) = (z : ℝ) / 2 ^ 149 := by
      rw [h1]
      by_cases hneg : z < 0
      · have : (z : ℝ) < 0 := by exact_mod_cast hneg
        rw [abs_of_neg this]; simp [hneg]; ring
      · have : (0 : ℝ) ≤ z := by exact_mod_cast not_lt.1 hneg
        rw [abs_of_nonneg this]; simp [hneg]
    have := pack_rnd (Nat.cast_nonneg _) hr (decide (z < 0)) h
    rw [h2] at this
    exact this

theorem sub_rnd (hx : IsFin x) (hy : IsFin y) (h : IsFin (x - y)) : Rnd (toReal x - toReal y) (x - y) := by
  have := add_rnd hx (neg_isFin hy) h
  rw [show toReal (-y) = -toReal y from toReal_neg y, ← sub_eq_add_neg] at this
  exact this

theorem mul_rnd (hx : IsFin x) (hy : IsFin y) (h : IsFin (x * y)) : Rnd (toReal x * toReal y) (x * y) := by
  obtain ⟨s, m, rfl⟩ := hx
  obtain ⟨t, n, rfl⟩ := hy
  have hr := roundIdx_ridx (mag m * mag n) (2 ^ 149) (by positivity)
  have := pack_rnd (by positivity) hr (s ^^ t) h
  have e : (if (s ^^ t) then (-1 : ℝ) else 1) * (((mag m * mag n : ℕ) : ℝ) / ((2 ^ 149 : ℕ) : ℝ) / 2 ^ 149)
      = toReal (fin s m) * toReal (fin t n) := by
    rw [sign_xor, toReal_fin, toReal_fin]
    push_cast
    ring
  rw [e] at this
  exact this

theorem div_rnd (hx : IsFin x) (hy : IsFin y) (hy0 : toReal y ≠ 0) (h : IsFin (x / y)) : Rnd (toReal x / toReal y) (x / y) := by
  obtain ⟨s, m, rfl⟩ := hx
  obtain ⟨t, n, rfl⟩ := hy
  have hn0 : n.val ≠ 0 := by
    intro h0
    apply hy0
    rw [toReal_fin, h0, mag_zero]
    simp
  have hpos : 0 < mag n := Nat.pos_of_ne_zero (fun h => hn0 (mag_eq_zero.1 h))
  have hd : fin s m / fin t n = F32.round (s ^^ t) (mag m * 2 ^ 149) (mag n) := by
    show F32.div (fin s m) (fin t n) = _
    unfold F32.div
    simp only [if_neg hn0]
  rw [hd] at h ⊢
  have hr := roundIdx_ridx (mag m * 2 ^ 149) (mag n) hpos
  have hpos' : (mag n : ℝ) ≠ 0 := by exact_mod_cast hpos.ne'
  have e : (if (s ^^ t) then (-1 : ℝ) else 1) * (((mag m * 2 ^ 149 : ℕ) : ℝ) / (mag n : ℝ) / 2 ^ 149)
      = toReal (fin s m) / toReal (fin t n) := by
    rw [sign_xor, toReal_fin, toReal_fin, Nat.cast_mul, Nat.cast_pow, Nat.cast_ofNat]
    have hw : (2 : ℝ) ^ 149 ≠ 0 := by positivity
    generalize (2 : ℝ) ^ 149 = w at *
    cases s <;> cases t <;> simp <;> field_simp
  have := pack_rnd (by positivity) hr (s ^^ t) h
  rw [e] at this
  exact this

theorem sqrt_rnd (hx : IsFin x) (h0 : 0 ≤ toReal x) : Rnd (Real.sqrt (toReal x)) (F32.sqrt x) := by
  have hf := sqrt_isFin hx h0
  rcases toReal_nonneg_cases hx h0 with ⟨n, rfl⟩ | rfl
  · unfold F32.sqrt at hf ⊢
    simp only [Bool.false_eq_true, if_false] at hf ⊢
    by_cases hn0 : n.val = 0
    · rw [if_pos hn0]
      have h1 : toReal (fin false n) = 0 := by rw [toReal_fin, hn0, mag_zero]; simp
      refine ⟨⟨_, _, rfl⟩, 0, ?_, ?_, ?_⟩
      · have := roundIdx_ridx 0 1 (by norm_num)
        rw [Nat.cast_zero, zero_div, roundIdx_zero 1 one_pos] at this
        rw [h1]
        simpa using this
      · rw [h1]; simp
      · rw [h1]; simp
    · rw [if_neg hn0] at hf ⊢
      have hr := sqrtIdx_ridx (mag n * 2 ^ 149)
      have e : Real.sqrt ((mag n * 2 ^ 149 : ℕ) : ℝ) / 2 ^ 149 = Real.sqrt (toReal (fin false n)) := by
        rw [toReal_fin, Nat.cast_mul, Nat.cast_pow, Nat.cast_ofNat, if_neg Bool.false_ne_true, one_mul]
        rw [show (mag n : ℝ) / 2 ^ 149 = (mag n * 2 ^ 149) / (2 ^ 149) ^ 2 by field_simp,
          Real.sqrt_div' _ (by positivity), Real.sqrt_sq (by positivity)]
      have := pack_rnd (Real.sqrt_nonneg _) hr false hf
      rw [if_neg Bool.false_ne_true, one_mul, e] at this
      exact this
  · have h1 : toReal (fin true ⟨0, by decide⟩) = 0 := by rw [toReal_fin, mag_zero]; simp
    show Rnd _ (fin true ⟨0, by decide⟩)
    refine ⟨⟨_, _, rfl⟩, 0, ?_, ?_, ?_⟩
    · have := roundIdx_ridx 0 1 (by norm_num)
      rw [Nat.cast_zero, zero_div, roundIdx_zero 1 one_pos] at this
      rw [h1]
      simpa using this
    · rw [h1]; simp
    · rw [h1]; simp

end

/-! ### rounding on and near the grid -/

/-- a grid value is its own index -/
theorem ridx_mag (k : ℕ) : RIdx (mag k) k := by
  have := roundIdx_ridx (mag k * 1) 1 one_pos
  rw [roundIdx_exact k 1 one_pos] at this
  simpa using this

/-- results with the same sign as `z` and the same size as `w` -/
theorem Rnd.eq_of_idx {z w : ℝ} {x : F32} {k : ℕ} (h : Rnd z x) (hk : RIdx (|z| * 2 ^ 149) k) (hw : |w| * 2 ^ 149 = mag k)
    (hs : 0 < w * z ∨ w = 0) : toReal x = w := by
  obtain ⟨_, n, h1, h2, h3⟩ := h
  obtain rfl := h1.unique hk
  have h4 : |toReal x| = |w| := by
    have hp : (0 : ℝ) < 2 ^ 149 := by positivity
    exact mul_right_cancel₀ hp.ne' (h2.trans hw.symm)
  rcases hs with hs | hs
  · rcases abs_eq_abs.1 h4 with h5 | h5
    · exact h5
    · rw [h5] at h3
      linarith
  · rw [hs, abs_zero] at h4
    rw [hs]
    exact abs_eq_zero.1 h4

/-- grid values are not changed by rounding -/
theorem Rnd.exact {z : ℝ} {x : F32} (h : Rnd z x) {k : ℕ} (hk : |z| * 2 ^ 149 = mag k) : toReal x = z := by
  refine h.eq_of_idx (k := k) (by rw [hk]; exact ridx_mag k) hk ?_
  rcases eq_or_ne z 0 with h0 | h0
  · exact Or.inr h0
  · exact Or.inl (mul_self_pos.2 h0)

/-- values of finite numbers are not changed by rounding -/
theorem Rnd.exact_of {z : ℝ} {x y : F32} (h : Rnd z x) (hy : IsFin y) (hz : |z| = |toReal y|) : toReal x = z := by
  obtain ⟨s, k, rfl⟩ := hy
  refine h.exact (k := k) ?_
  rw [hz, toReal_fin, mul_div_assoc, abs_sign, abs_of_nonneg (by positivity), div_mul_cancel₀ _ (by positivity)]

/-- rounding keeps lower bounds on the grid -/
theorem Rnd.lower {z : ℝ} {x y : F32} (h : Rnd z x) (hy : IsFin y) (hz : |toReal y| ≤ |z|) : |toReal y| ≤ |toReal x| := by
  obtain ⟨s, k, rfl⟩ := hy
  obtain ⟨_, n, h1, h2, _⟩ := h
  have hp : (0 : ℝ) < 2 ^ 149 := by positivity
  have e : |toReal (fin s k)| * 2 ^ 149 = mag k := by
    rw [toReal_fin, mul_div_assoc, abs_sign, abs_of_nonneg (by positivity), div_mul_cancel₀ _ (by positivity)]
  refine le_of_mul_le_mul_right ?_ hp
  rw [h2, e]
  have h3 := h1.nearest k
  have h4 : (mag k : ℝ) ≤ |z| * 2 ^ 149 := by rw [← e]; exact mul_le_mul_of_nonneg_right hz hp.le
  rw [abs_of_nonneg (sub_nonneg.2 h4)] at h3
  have := (abs_le.1 h3).2
  linarith

/-- rounding keeps upper bounds on the grid -/
theorem Rnd.upper {z : ℝ} {x y : F32} (h : Rnd z x) (hy : IsFin y) (hz : |z| ≤ |toReal y|) : |toReal x| ≤ |toReal y| := by
  obtain ⟨s, k, rfl⟩ := hy
  obtain ⟨_, n, h1, h2, _⟩ := h
  have hp : (0 : ℝ) < 2 ^ 149 := by positivity
  have e : |toReal (fin s k)| * 2 ^ 149 = mag k := by
    rw [toReal_fin, mul_div_assoc, abs_sign, abs_of_nonneg (by positivity), div_mul_cancel₀ _ (by positivity)]
  refine le_of_mul_le_mul_right ?_ hp
  rw [h2, e]
  have h3 := h1.nearest k
  have h4 : |z| * 2 ^ 149 ≤ (mag k : ℝ) := by rw [← e]; exact mul_le_mul_of_nonneg_right hz hp.le
  rw [abs_sub_comm _ (mag k : ℝ), abs_of_nonneg (sub_nonneg.2 h4)] at h3
  have := (abs_le.1 h3).1
  linarith

/-- an even grid value attracts everything up to half way to its neighbours -/
theorem ridx_even {r : ℝ} {k : ℕ} (hk : k % 2 = 0) (h1 : k = 0 ∨ (mag (k - 1) : ℝ) + mag k ≤ 2 * r)
    (h2 : 2 * r ≤ (mag k : ℝ) + mag (k + 1)) : RIdx r k := by
  intro m
  rcases lt_trichotomy m k with hm | rfl | hm
  · refine iff_of_true hm ?_
    rcases h1 with h1 | h1
    · omega
    by_cases hmk : m + 1 = k
    · obtain rfl : m = k - 1 := by omega
      rw [hmk]
      rcases h1.lt_or_eq with h | h
      · exact Or.inl h
      · exact Or.inr ⟨h, by omega⟩
    · left
      have a : (mag m : ℝ) < mag (k - 1) := magR_lt (by omega)
      have b : (mag (m + 1) : ℝ) < mag k := magR_lt (by omega)
      linarith
  · refine iff_of_false (by omega) ?_
    rintro (h | ⟨h, h'⟩)
    · linarith
    · omega
  · refine iff_of_false (by omega) ?_
    have a : (mag k : ℝ) < mag m := magR_lt hm
    have b : (mag (k + 1) : ℝ) < mag (m + 1) := magR_lt (by omega)
    rintro (h | ⟨h, _⟩) <;> linarith

/-- a grid value attracts everything less than half way to its neighbours -/
theorem ridx_inside {r : ℝ} {k : ℕ} (h1 : k = 0 ∨ (mag (k - 1) : ℝ) + mag k < 2 * r)
    (h2 : 2 * r < (mag k : ℝ) + mag (k + 1)) : RIdx r k := by
  intro m
  rcases lt_trichotomy m k with hm | rfl | hm
  · refine iff_of_true hm (Or.inl ?_)
    rcases h1 with h1 | h1
    · omega
    have a : (mag m : ℝ) ≤ mag (k - 1) := magR_le (by omega)
    have b : (mag (m + 1) : ℝ) ≤ mag k := magR_le (by omega)
    linarith
  · refine iff_of_false (by omega) ?_
    rintro (h | ⟨h, _⟩) <;> linarith
  · refine iff_of_false (by omega) ?_
    have a : (mag k : ℝ) < mag m := magR_lt hm
    have b : (mag (k + 1) : ℝ) < mag (m + 1) := magR_lt (by omega)
    rintro (h | ⟨h, _⟩) <;> linarith

theorem gap_mono {m k : ℕ} (h : m ≤ k) : (mag (m + 1) : ℝ) - mag m ≤ mag (k + 1) - mag k := by
  rw [mag_succ m, mag_succ k]
  have : 2 ^ (m / 2 ^ 23 - 1) ≤ 2 ^ (k / 2 ^ 23 - 1) :=
    Nat.pow_le_pow_right (by norm_num) (Nat.sub_le_sub_right (Nat.div_le_div_right h) 1)
  have h' : ((2 ^ (m / 2 ^ 23 - 1) : ℕ) : ℝ) ≤ ((2 ^ (k / 2 ^ 23 - 1) : ℕ) : ℝ) := by exact_mod_cast this
  push_cast at h' ⊢
  linarith

/-- **absorption.** If a part `r` of an even grid value `mag k` is rounded, the rest plus the rounded part still rounds to
`mag k`. -/
theorem ridx_absorb {r : ℝ} {m k : ℕ} (hk : k % 2 = 0) (h : RIdx r m) (h0 : 0 ≤ r) (hr : r ≤ mag k) :
    RIdx (mag k + (mag m - r)) k := by
  have hmk : m ≤ k := by
    by_contra hc
    have h1 := h.nearest k
    have h2 : (mag k : ℝ) < mag m := magR_lt (by omega)
    rw [abs_sub_comm r (mag k : ℝ), abs_of_nonneg (sub_nonneg.2 hr), abs_sub_comm, abs_of_nonneg (by linarith)] at h1
    linarith
  refine ridx_even hk ?_ ?_
  · by_cases hk0 : k = 0
    · exact Or.inl hk0
    right
    rcases hmk.lt_or_eq with hlt | rfl
    · have h1 := h.upper
      have h2 := gap_mono (m := m) (k := k - 1) (by omega)
      rw [show k - 1 + 1 = k by omega] at h2
      linarith
    · have : (mag (m - 1) : ℝ) ≤ mag m := magR_le (by omega)
      linarith
  · rcases Nat.eq_zero_or_pos m with rfl | hm
    · have h1 : (mag 0 : ℝ) = 0 := by rw [mag_zero]; simp
      have : (mag k : ℝ) ≤ mag (k + 1) := magR_le (by omega)
      linarith
    · have h1 := h.lower (m - 1) (by omega)
      rw [show m - 1 + 1 = m by omega] at h1
      have h2 := gap_mono (m := m - 1) (k := k) (by omega)
      rw [show m - 1 + 1 = m by omega] at h2
      linarith

/-- the index of a power of two -/
theorem mag_pow (e : ℕ) : mag ((e + 1) * 2 ^ 23) = 2 ^ (e + 23) := by
  unfold mag
  rw [Nat.mul_div_cancel _ (by norm_num), Nat.add_sub_cancel, show (e + 1) * 2 ^ 23 - 2 ^ 23 * e = 2 ^ 23 by
    rw [add_mul, mul_comm]; omega, ← pow_add, add_comm]

/-- below `2^(e + 24)` the error is at most half a step of `2^e` -/
theorem RIdx.err_pow {r : ℝ} {n e : ℕ} (h : RIdx r n) (h0 : 0 ≤ r) (hr : r ≤ 2 ^ (e + 24)) : |r - mag n| ≤ 2 ^ e / 2 := by
  have hK : mag ((e + 2) * 2 ^ 23) = 2 ^ (e + 24) := mag_pow (e + 1)
  have hKr : (mag ((e + 2) * 2 ^ 23) : ℝ) = 2 ^ (e + 24) := by rw [hK]; push_cast; rfl
  have gap : ∀ m, m < (e + 2) * 2 ^ 23 → (mag (m + 1) : ℝ) - mag m ≤ 2 ^ e := by
    intro m hm
    rw [mag_succ]
    push_cast
    have : (2 : ℝ) ^ (m / 2 ^ 23 - 1) ≤ 2 ^ e := pow_le_pow_right₀ (by norm_num) (by omega)
    linarith
  have hp : (0 : ℝ) < 2 ^ e := by positivity
  have hn : n ≤ (e + 2) * 2 ^ 23 := by
    by_contra hc
    have h1 := h.lower ((e + 2) * 2 ^ 23) (by omega)
    have h2 : (mag ((e + 2) * 2 ^ 23) : ℝ) < mag ((e + 2) * 2 ^ 23 + 1) := magR_lt (by omega)
    rw [hKr] at h1 h2
    linarith
  rcases le_total (mag n : ℝ) r with hc | hc
  · rw [abs_of_nonneg (by linarith)]
    rcases hn.lt_or_eq with hlt | rfl
    · have := h.upper
      have := gap n hlt
      linarith
    · rw [hKr] at hc ⊢
      linarith
  · rw [abs_sub_comm, abs_of_nonneg (by linarith)]
    rcases Nat.eq_zero_or_pos n with rfl | hpos
    · have h1 : (mag 0 : ℝ) = 0 := by rw [mag_zero]; simp
      rw [h1]
      linarith
    · have h1 := h.lower (n - 1) (by omega)
      have h2 := gap (n - 1) (by omega)
      rw [show n - 1 + 1 = n by omega] at h1 h2
      linarith

theorem Rnd.err_pow {z : ℝ} {x : F32} (h : Rnd z x) (e : ℕ) (hz : |z| * 2 ^ 149 ≤ 2 ^ (e + 24)) :
    |toReal x - z| * 2 ^ 149 ≤ 2 ^ e / 2 := by
  obtain ⟨_, n, h1, h2, h3⟩ := h
  have h4 := h1.err_pow (by positivity) hz
  rw [← h2, ← sub_mul, abs_mul, abs_of_pos (show (0 : ℝ) < 2 ^ 149 by positivity)] at h4
  refine le_trans ?_ h4
  refine mul_le_mul_of_nonneg_right ?_ (by positivity)
  rcases le_total 0 z with hz | hz <;> rcases le_total 0 (toReal x) with hx | hx
  · rw [abs_of_nonneg hz, abs_of_nonneg hx, abs_sub_comm]
  · have : toReal x * z = 0 := le_antisymm (mul_nonpos_of_nonpos_of_nonneg hx hz) h3
    rcases mul_eq_zero.1 this with h | h <;> rw [h] <;> simp [abs_of_nonneg, abs_of_nonpos, hx, hz]
  · have : toReal x * z = 0 := le_antisymm (mul_nonpos_of_nonneg_of_nonpos hx hz) h3
    rcases mul_eq_zero.1 this with h | h <;> rw [h] <;> simp [abs_of_nonneg, abs_of_nonpos, hx, hz]
  · rw [abs_of_nonpos hz, abs_of_nonpos hx]
    rw [show -z - -toReal x = toReal x - z by ring]

/-- `sqrt (x * x)` is `|x|` if the square neither overflows nor underflows -/
theorem sqrt_mul_self {x s : F32} (hx : IsFin x) (h1 : 1 / 2 ^ 40 ≤ |toReal x|) (h2 : |toReal x| ≤ 2 ^ 60) (hs : IsFin s)
    (he : toReal s = toReal (x * x)) : IsFin (F32.sqrt s) ∧ toReal (F32.sqrt s) = |toReal x| := by
  have hX : 0 < |toReal x| := lt_of_lt_of_le (by positivity) h1
  set X := |toReal x| with hXd
  have hsq : toReal x * toReal x = X * X := (abs_mul_abs_self _).symm
  have hXX : X * X ≤ 2 ^ 120 := by
    calc X * X ≤ 2 ^ 60 * 2 ^ 60 := mul_le_mul h2 h2 hX.le (by positivity)
      _ = 2 ^ 120 := by norm_num
  have hf : IsFin (x * x) := mul_isFin hx hx (by
    rw [hsq, abs_of_pos (by positivity)]
    refine lt_of_le_of_lt hXX ?_
    unfold maxHalf; norm_num)
  obtain ⟨_, k, hk, hk2, hk3⟩ := mul_rnd hx hx hf
  rw [hsq, abs_of_pos (by positivity : 0 < X * X)] at hk
  have hspos : 0 ≤ toReal (x * x) := by
    rw [hsq] at hk3
    exact nonneg_of_mul_nonneg_left hk3 (by positivity)
  rw [abs_of_nonneg hspos, ← he] at hk2
  have h0 : 0 ≤ toReal s := by rw [he]; exact hspos
  have hfs := sqrt_isFin hs h0
  refine ⟨hfs, ?_⟩
  obtain ⟨t, n, rfl⟩ := hx
  have hXn : X * 2 ^ 149 = mag n := by
    rw [hXd, toReal_fin, mul_div_assoc, abs_sign, abs_of_nonneg (by positivity), div_mul_cancel₀ _ (by positivity)]
  have hr := sqrt_rnd hs h0
  have hp : (0 : ℝ) < 2 ^ 149 := by positivity
  set j := n.val / 2 ^ 23 - 1 with hj
  have hn : 110 * 2 ^ 23 ≤ n.val + 23 * 2 ^ 23 := by
    by_contra hc
    have : mag n < mag (87 * 2 ^ 23) := mag_lt.2 (by omega)
    rw [mag_pow 86] at this
    have h3 : ((mag n : ℕ) : ℝ) < ((2 ^ (86 + 23) : ℕ) : ℝ) := by exact_mod_cast this
    rw [← hXn] at h3
    push_cast at h3
    have : (1 : ℝ) / 2 ^ 40 * 2 ^ 149 ≤ X * 2 ^ 149 := mul_le_mul_of_nonneg_right h1 hp.le
    norm_num at h3 this
    linarith
  have hj86 : 86 ≤ j := by omega
  obtain ⟨M, hM⟩ : ∃ M, n.val = M + 2 ^ 23 * j := ⟨n.val - 2 ^ 23 * j, by omega⟩
  have hM1 : 2 ^ 23 ≤ M := by omega
  have hM2 : M < 2 ^ 24 := by omega
  have hmag : mag n = M * 2 ^ j := by
    unfold mag
    rw [← hj, hM, Nat.add_sub_cancel]
  have hXM : X * 2 ^ 149 = M * 2 ^ j := by rw [hXn, hmag]; push_cast; rfl
  by_cases hc : M = 2 ^ 23
  · -- a power of two: nothing is rounded
    have hj2 : j ≤ 186 := by
      by_contra hc2
      have : X * 2 ^ 149 ≤ 2 ^ 60 * 2 ^ 149 := mul_le_mul_of_nonneg_right h2 hp.le
      rw [hXM, hc] at this
      have h3 : (2 : ℝ) ^ 187 ≤ 2 ^ j := pow_le_pow_right₀ (by norm_num) (by omega)
      push_cast at this
      norm_num at this h3
      linarith
    have hsqr : toReal s = X * X := by
      rw [he, ← hsq]
      obtain ⟨k', _, hk'⟩ := exists_mag (2 * j - 126) (2 ^ 23) (by norm_num) (by omega)
      refine (mul_rnd ⟨_, _, rfl⟩ ⟨_, _, rfl⟩ hf).exact (k := k') ?_
      rw [hk', hsq, abs_of_pos (by positivity)]
      have e1 : X * X * 2 ^ 149 * 2 ^ 149 = 2 ^ 46 * 2 ^ (2 * j) := by
        rw [show X * X * 2 ^ 149 * 2 ^ 149 = (X * 2 ^ 149) * (X * 2 ^ 149) by ring, hXM, hc]
        push_cast
        ring
      have e2 : (2 : ℝ) ^ (2 * j) * 2 ^ 46 = 2 ^ 23 * 2 ^ (2 * j - 126) * 2 ^ 149 := by
        rw [← pow_add, ← pow_add, ← pow_add]; congr 1; omega
      push_cast
      refine mul_right_cancel₀ hp.ne' ?_
      rw [e1]
      linarith
    rw [hr.exact (k := n) (by rw [hsqr, Real.sqrt_mul_self hX.le, abs_of_pos hX, hXn]), hsqr, Real.sqrt_mul_self hX.le]
  · have hsr : |toReal s - X * X| * 2 ^ 24 ≤ X * X := by
      rcases hk.err (by positivity) with h | ⟨h, _⟩
      · rw [← hk2, ← sub_mul, abs_mul, abs_of_pos hp, abs_sub_comm] at h
        refine le_of_mul_le_mul_right ?_ hp
        linarith
      · exfalso
        have h3 := hk.upper
        have h4 : (mag k : ℝ) ≤ mag (2 ^ 23) := magR_le h
        have h5 : (mag (k + 1) : ℝ) ≤ mag (2 ^ 23 + 1) := magR_le (by omega)
        rw [show mag (2 ^ 23) = 2 ^ 23 by decide +kernel] at h4
        rw [show mag (2 ^ 23 + 1) = 2 ^ 23 + 1 by decide +kernel] at h5
        have h6 : (1 / 2 ^ 40) * (1 / 2 ^ 40) ≤ X * X := mul_le_mul h1 h1 (by positivity) hX.le
        have h4' : (mag k : ℝ) ≤ 8388608 := by exact_mod_cast h4
        have h5' : (mag (k + 1) : ℝ) ≤ 8388609 := by exact_mod_cast h5
        norm_num at h3 h6
        linarith
    obtain ⟨hs1, hs2⟩ := abs_le.1 (le_div_iff₀ (by positivity) |>.2 hsr)
    refine hr.eq_of_idx (k := n) ?_ (by rw [abs_of_pos hX, hXn]) (Or.inl ?_)
    · rw [abs_of_nonneg (Real.sqrt_nonneg _)]
      have up : Real.sqrt (toReal s) < X * (1 + 1 / 2 ^ 25) := by
        rw [Real.sqrt_lt' (by positivity)]
        have : (X * (1 + 1 / 2 ^ 25)) ^ 2 = X * X + X * X / 2 ^ 24 + X * X / 2 ^ 50 := by ring
        rw [this]
        have : 0 < X * X / 2 ^ 50 := by positivity
        linarith
      have lo : X * (1 - 1 / 2 ^ 25 - 1 / 2 ^ 50) < Real.sqrt (toReal s) := by
        refine Real.lt_sqrt_of_sq_lt ?_
        have : (X * (1 - 1 / 2 ^ 25 - 1 / 2 ^ 50)) ^ 2 = X * X * (1 - 1 / 2 ^ 25 - 1 / 2 ^ 50) ^ 2 := by ring
        rw [this]
        have h3 : (1 - 1 / 2 ^ 25 - 1 / 2 ^ 50 : ℝ) ^ 2 < 1 - 1 / 2 ^ 24 := by norm_num
        have := mul_lt_mul_of_pos_left h3 (show 0 < X * X by positivity)
        linarith
      have hj0 : (0 : ℝ) < 2 ^ j := by positivity
      have hMr : (M : ℝ) ≤ 2 ^ 24 - 1 := by
        have : M + 1 ≤ 2 ^ 24 := hM2
        have : ((M + 1 : ℕ) : ℝ) ≤ ((2 ^ 24 : ℕ) : ℝ) := by exact_mod_cast this
        push_cast at this
        linarith
      have hb : X * 2 ^ 149 ≤ (2 ^ 24 - 1) * 2 ^ j := by rw [hXM]; exact mul_le_mul_of_nonneg_right hMr hj0.le
      have g1 : (mag (n.val + 1) : ℝ) = mag n.val + 2 ^ j := by
        rw [mag_succ]; push_cast; rfl
      have g2 : (mag n.val : ℝ) = mag (n.val - 1) + 2 ^ j := by
        have : mag n.val = mag (n.val - 1) + 2 ^ ((n.val - 1) / 2 ^ 23 - 1) := by
          rw [← mag_succ]; congr 1; omega
        rw [this]
        push_cast
        congr 2
        omega
      refine ridx_inside (Or.inr ?_) ?_
      · have := mul_lt_mul_of_pos_right lo hp
        have e1 : X * (1 - 1 / 2 ^ 25 - 1 / 2 ^ 50) * 2 ^ 149 = (1 - 1 / 2 ^ 25 - 1 / 2 ^ 50) * (X * 2 ^ 149) := by ring
        rw [e1] at this
        generalize Real.sqrt (toReal s) * 2 ^ 149 = q at *
        generalize X * 2 ^ 149 = D at *
        norm_num at this hb ⊢
        linarith
      · have := mul_lt_mul_of_pos_right up hp
        have e1 : X * (1 + 1 / 2 ^ 25) * 2 ^ 149 = (1 + 1 / 2 ^ 25) * (X * 2 ^ 149) := by ring
        rw [e1] at this
        rw [g1]
        generalize Real.sqrt (toReal s) * 2 ^ 149 = q at *
        generalize X * 2 ^ 149 = D at *
        norm_num at this hb ⊢
        linarith
    · have : 0 < toReal s := by
        have : 0 < X * X := by positivity
        have : X * X / 2 ^ 24 < X * X := by
          rw [div_lt_iff₀ (by positivity)]
          norm_num
          linarith
        linarith
      positivity

end Kami.F32
