import Verif.Geom.DistF32
/-!
# Running error bounds

`Near x X M ε`: the float `x` is finite and within `ε` of the real number `X`, which is at most `M` in absolute value.
One rule per operation.
-/

set_option autoImplicit false

namespace Kami.F32

open Kami.DistF32

/-- `x` approximates `X` up to `ε`, and `X` is bounded by `M` -/
structure Near (x : F32) (X M ε : ℝ) : Prop where
  isFin : IsFin x
  bound : |X| ≤ M
  err : |toReal x - X| ≤ ε

namespace Near
variable {x y : F32} {X Y M N ε δ : ℝ}

theorem exact (hx : IsFin x) : Near x (toReal x) |toReal x| 0 := ⟨hx, le_refl _, by simp⟩

theorem weaken {M' ε' : ℝ} (h : Near x X M ε) (hM : M ≤ M') (hε : ε ≤ ε') : Near x X M' ε' :=
  ⟨h.isFin, h.bound.trans hM, h.err.trans hε⟩

theorem size (h : Near x X M ε) : |toReal x| ≤ M + ε := by
  have h1 := abs_sub_abs_le_abs_sub (toReal x) X
  have := h.bound
  have := h.err
  linarith

theorem nonneg (h : Near x X M ε) : 0 ≤ M ∧ 0 ≤ ε := ⟨(abs_nonneg _).trans h.bound, (abs_nonneg _).trans h.err⟩

theorem neg (h : Near x X M ε) : Near (-x) (-X) M ε := by
  refine ⟨neg_isFin h.isFin, by rw [abs_neg]; exact h.bound, ?_⟩
  rw [show toReal (-x) = -toReal x from toReal_neg x, neg_sub_neg, abs_sub_comm]
  exact h.err

theorem add (h : Near x X M ε) (h' : Near y Y N δ) (hle : M + N + ε + δ ≤ 2 ^ 127) :
    Near (x + y) (X + Y) (M + N) (ε + δ + u * (M + N + ε + δ)) := by
  have hs : |toReal x + toReal y| ≤ M + N + ε + δ := by
    refine (abs_add_le _ _).trans ?_
    have := h.size
    have := h'.size
    linarith
  have hf : IsFin (x + y) := add_isFin h.isFin h'.isFin
    (lt_of_le_of_lt (hs.trans hle) (by unfold maxHalf; norm_num))
  have he := add_err h.isFin h'.isFin hf
  have hus : u * |toReal x + toReal y| ≤ u * (M + N + ε + δ) := mul_le_mul_of_nonneg_left hs u_pos.le
  refine ⟨hf, (abs_add_le _ _).trans (add_le_add h.bound h'.bound), ?_⟩
  have e : toReal (x + y) - (X + Y) = (toReal (x + y) - (toReal x + toReal y)) + ((toReal x - X) + (toReal y - Y)) := by ring
  rw [e]
  refine (abs_add_le _ _).trans ?_
  have := abs_add_le (toReal x - X) (toReal y - Y)
  have := h.err
  have := h'.err
  linarith

theorem sub (h : Near x X M ε) (h' : Near y Y N δ) (hle : M + N + ε + δ ≤ 2 ^ 127) :
    Near (x - y) (X - Y) (M + N) (ε + δ + u * (M + N + ε + δ)) := by
  have := h.add h'.neg hle
  rwa [← sub_eq_add_neg, ← sub_eq_add_neg'] at this

theorem mul (h : Near x X M ε) (h' : Near y Y N δ) (hle : (M + ε) * (N + δ) ≤ 2 ^ 127) :
    Near (x * y) (X * Y) (M * N) (M * δ + N * ε + ε * δ + u * ((M + ε) * (N + δ)) + η) := by
  have hs : |toReal x * toReal y| ≤ (M + ε) * (N + δ) := by
    rw [abs_mul]
    exact mul_le_mul h.size h'.size (abs_nonneg _) (by have := h.nonneg; linarith)
  have hf : IsFin (x * y) := mul_isFin h.isFin h'.isFin
    (lt_of_le_of_lt (hs.trans hle) (by unfold maxHalf; norm_num))
  have he := mul_err h.isFin h'.isFin hf
  have hus : u * |toReal x * toReal y| ≤ u * ((M + ε) * (N + δ)) := mul_le_mul_of_nonneg_left hs u_pos.le
  refine ⟨hf, ?_, ?_⟩
  · rw [abs_mul]; exact mul_le_mul h.bound h'.bound (abs_nonneg _) h.nonneg.1
  · have e : toReal (x * y) - X * Y = (toReal (x * y) - toReal x * toReal y) +
        (X * (toReal y - Y) + Y * (toReal x - X) + (toReal x - X) * (toReal y - Y)) := by ring
    rw [e]
    refine (abs_add_le _ _).trans ?_
    have a1 : |X * (toReal y - Y)| ≤ M * δ := by
      rw [abs_mul]; exact mul_le_mul h.bound h'.err (abs_nonneg _) h.nonneg.1
    have a2 : |Y * (toReal x - X)| ≤ N * ε := by
      rw [abs_mul]; exact mul_le_mul h'.bound h.err (abs_nonneg _) h'.nonneg.1
    have a3 : |(toReal x - X) * (toReal y - Y)| ≤ ε * δ := by
      rw [abs_mul]; exact mul_le_mul h.err h'.err (abs_nonneg _) h.nonneg.2
    have a4 := abs_add_le (X * (toReal y - Y) + Y * (toReal x - X)) ((toReal x - X) * (toReal y - Y))
    have a5 := abs_add_le (X * (toReal y - Y)) (Y * (toReal x - X))
    linarith

/-- a quotient; `e` and `d` are the errors of the two numbers relative to the denominator -/
theorem div (h : Near x X M ε) (h' : Near y Y N δ) {Q e d : ℝ} (hY : 0 < Y) (hQ : M ≤ Q * Y) (he : ε ≤ e * Y) (hd : δ ≤ d * Y)
    (hd8 : d ≤ 1 / 8) (hle : Q + 8 / 7 * (e + Q * d) ≤ 2 ^ 127) :
    Near (x / y) (X / Y) Q (8 / 7 * (e + Q * d) + u * (Q + 8 / 7 * (e + Q * d)) + η) := by
  have hQ0 : 0 ≤ Q := by
    have := h.nonneg.1.trans hQ
    exact nonneg_of_mul_nonneg_left this hY
  have hb : |X / Y| ≤ Q := by
    rw [abs_div, abs_of_pos hY, div_le_iff₀ hY]
    exact h.bound.trans hQ
  have hy : 7 / 8 * Y ≤ toReal y := by
    have h1 := (abs_le.1 h'.err).1
    have h2 : d * Y ≤ 1 / 8 * Y := mul_le_mul_of_nonneg_right hd8 hY.le
    linarith
  have hy0 : 0 < toReal y := by linarith
  have hq : |toReal x / toReal y - X / Y| ≤ 8 / 7 * (e + Q * d) := by
    have e1 : toReal x / toReal y - X / Y = ((toReal x - X) - X / Y * (toReal y - Y)) / toReal y := by
      field_simp
      ring
    rw [e1, abs_div, abs_of_pos hy0, div_le_iff₀ hy0]
    refine (abs_sub _ _).trans ?_
    rw [abs_mul]
    have h1 : |X / Y| * |toReal y - Y| ≤ Q * (d * Y) := mul_le_mul hb (h'.err.trans hd) (abs_nonneg _) hQ0
    have h2 := h.err.trans he
    have h3 : 0 ≤ e + Q * d := by
      refine nonneg_of_mul_nonneg_left (b := Y) ?_ hY
      have := (abs_nonneg _).trans h2
      have e2 : (e + Q * d) * Y = e * Y + Q * (d * Y) := by ring
      rw [e2]
      have : 0 ≤ Q * (d * Y) := (mul_nonneg (abs_nonneg _) (abs_nonneg _)).trans h1
      linarith
    calc |toReal x - X| + |X / Y| * |toReal y - Y| ≤ e * Y + Q * (d * Y) := add_le_add h2 h1
      _ = 8 / 7 * (e + Q * d) * (7 / 8 * Y) := by ring
      _ ≤ 8 / 7 * (e + Q * d) * toReal y := mul_le_mul_of_nonneg_left hy (by linarith)
  have hs : |toReal x / toReal y| ≤ Q + 8 / 7 * (e + Q * d) := by
    have := abs_sub_abs_le_abs_sub (toReal x / toReal y) (X / Y)
    linarith
  have hf : IsFin (x / y) := div_isFin h.isFin h'.isFin hy0.ne' (lt_of_le_of_lt (hs.trans hle) (by unfold maxHalf; norm_num))
  have herr := div_err h.isFin h'.isFin hy0.ne' hf
  have hus : u * |toReal x / toReal y| ≤ u * (Q + 8 / 7 * (e + Q * d)) := mul_le_mul_of_nonneg_left hs u_pos.le
  refine ⟨hf, hb, ?_⟩
  have e3 : toReal (x / y) - X / Y = (toReal (x / y) - toReal x / toReal y) + (toReal x / toReal y - X / Y) := by ring
  rw [e3]
  refine (abs_add_le _ _).trans ?_
  linarith

end Near

/-- rounding keeps the sign of a sum of numbers that are not negative -/
theorem add_nonneg' {x y : F32} (hx : IsFin x) (hy : IsFin y) (h : IsFin (x + y)) (h0 : 0 ≤ toReal x) (h1 : 0 ≤ toReal y) :
    0 ≤ toReal (x + y) := by
  have he := add_err hx hy h
  rw [abs_of_nonneg (add_nonneg h0 h1)] at he
  have := (abs_le.1 he).1
  have hu : u ≤ 1 := by unfold u; norm_num
  have : u * (toReal x + toReal y) ≤ 1 * (toReal x + toReal y) := mul_le_mul_of_nonneg_right hu (add_nonneg h0 h1)
  linarith

/-- square root of an approximate number -/
theorem root_near {s D r : ℝ} (hD : 0 ≤ D) (hs : |s - D| ≤ 6 * u * D + 8 * η)
    (hr : |r - Real.sqrt s| ≤ u * Real.sqrt s) : |r - Real.sqrt D| ≤ 5 * u * Real.sqrt D + 1 / 2 ^ 72 := by
  set d := Real.sqrt D with hd
  have hd0 : 0 ≤ d := Real.sqrt_nonneg _
  have hdD : d * d = D := Real.mul_self_sqrt hD
  obtain ⟨s1, s2⟩ := abs_le.1 hs
  have hη : η = (1 / 2 ^ 73) ^ 2 / 16 := by unfold η; norm_num
  set ε : ℝ := 1 / 2 ^ 73 with hε
  have hε0 : 0 < ε := by rw [hε]; positivity
  have hu := u_pos
  have hu6 : 6 * u ≤ 1 := by unfold u; norm_num
  have hup : Real.sqrt s ≤ (1 + 3 * u) * d + ε := by
    rw [Real.sqrt_le_iff]
    refine ⟨by positivity, ?_⟩
    have : (1 + 3 * u) ^ 2 * (d * d) ≥ (1 + 6 * u) * (d * d) := by
      refine mul_le_mul_of_nonneg_right ?_ (by positivity)
      nlinarith
    have h2 : 0 ≤ (1 + 3 * u) * d * ε := by positivity
    have h3 := sq_nonneg ε
    have h4 : ((1 + 3 * u) * d + ε) ^ 2 = (1 + 3 * u) ^ 2 * (d * d) + 2 * ((1 + 3 * u) * d * ε) + ε ^ 2 := by ring
    rw [hη] at s2
    rw [← hdD] at s2
    clear_value ε d
    linarith
  have hc : (1 - 3 * u - 18 * u ^ 2) ^ 2 ≤ 1 - 6 * u := by unfold u; norm_num
  have hc0 : 0 ≤ 1 - 3 * u - 18 * u ^ 2 := by unfold u; norm_num
  have hlo : (1 - 3 * u - 18 * u ^ 2) * d - ε ≤ Real.sqrt s := by
    by_cases hY : (1 - 3 * u - 18 * u ^ 2) * d - ε ≤ 0
    · exact hY.trans (Real.sqrt_nonneg _)
    · refine Real.le_sqrt_of_sq_le ?_
      have h1 : ((1 - 3 * u - 18 * u ^ 2) * d) ^ 2 ≤ (1 - 6 * u) * (d * d) := by
        have : ((1 - 3 * u - 18 * u ^ 2) * d) ^ 2 = (1 - 3 * u - 18 * u ^ 2) ^ 2 * (d * d) := by ring
        rw [this]
        exact mul_le_mul_of_nonneg_right hc (by positivity)
      rw [hη] at s1
      rw [← hdD] at s1
      generalize (1 - 3 * u - 18 * u ^ 2) * d = Z at *
      have h4 : (Z - ε) ^ 2 = Z ^ 2 - ε ^ 2 - 2 * (ε * (Z - ε)) := by ring
      have h5 : 0 ≤ ε * (Z - ε) := mul_nonneg hε0.le (by linarith)
      have h6 := sq_nonneg ε
      clear_value ε d
      linarith
  obtain ⟨r1, r2⟩ := abs_le.1 hr
  have h73 : (1 : ℝ) / 2 ^ 72 = 2 * ε := by rw [hε]; norm_num
  rw [h73]
  have hus : u * Real.sqrt s ≤ u * ((1 + 3 * u) * d + ε) := mul_le_mul_of_nonneg_left hup hu.le
  have hus2 : u * ((1 + 3 * u) * d + ε) ≤ 5 / 4 * u * d + ε := by
    have a1 : u * ((1 + 3 * u) * d + ε) = (u + 3 * u ^ 2) * d + u * ε := by ring
    have a2 : (u + 3 * u ^ 2) * d ≤ 5 / 4 * u * d := mul_le_mul_of_nonneg_right (by unfold u; norm_num) hd0
    have a3 : u * ε ≤ 1 * ε := mul_le_mul_of_nonneg_right (by linarith) hε0.le
    linarith
  have hl2 : (1 - 13 / 4 * u) * d ≤ (1 - 3 * u - 18 * u ^ 2) * d :=
    mul_le_mul_of_nonneg_right (by unfold u; norm_num) hd0
  have hud : 0 ≤ u * d := by positivity
  have b1 : Real.sqrt s ≤ d + 3 * (u * d) + ε := hup.trans (le_of_eq (by ring))
  have b2 : d - 13 / 4 * (u * d) - ε ≤ Real.sqrt s := by
    have h1 : (1 - 13 / 4 * u) * d = d - 13 / 4 * (u * d) := by ring
    rw [← h1]
    exact (sub_le_sub_right hl2 ε).trans hlo
  have b3 : u * Real.sqrt s ≤ 5 / 4 * (u * d) + ε := (hus.trans hus2).trans (le_of_eq (by ring))
  have e5 : 5 * u * d = 5 * (u * d) := by ring
  rw [e5]
  clear hη hε hc hc0 hl2 hus hus2 hlo hup h73 s1 s2 hs hr hdD hd
  clear_value ε d
  generalize u * d = w at *
  generalize u * Real.sqrt s = w2 at *
  rw [abs_le]
  constructor <;> linarith

end Kami.F32
