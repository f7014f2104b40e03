import Verif.Geom.Simple.FilterF32
import Verif.Geom.UtilsExact2
/-!
# Distances and constructed points in f32

Error bounds for `distance`, `calculate_midpoint`, `is_on_line_segment` and the point returned by
`calculate_line_segment_intersection`.
-/

set_option autoImplicit false
set_option linter.unusedSectionVars false

namespace Kami.DistF32

open Kami Kami.F32 Kami.Utils Kami.UtilThm Kami.Simple
open scoped Kami

/-! ### specification -/

/-- the exact position of a point with finite coordinates -/
noncomputable def rpos (v : Vec2 F32) : ℝ × ℝ := ((toRat v.x : ℝ), (toRat v.y : ℝ))

/-! ### error analysis -/

theorem rpos_eq (v : Vec2 F32) : rpos v = (toReal v.x, toReal v.y) := by
  unfold rpos; rw [toRat_toReal, toRat_toReal]

theorem mul_self_nonneg' {x : F32} (hx : IsFin x) (h : IsFin (x * x)) : 0 ≤ toReal (x * x) := by
  obtain ⟨s, m, rfl⟩ := hx
  have he : fin s m * fin s m = pack false (roundIdx (mag m * mag m) (2 ^ 149)) := by
    show F32.mul (fin s m) (fin s m) = _
    unfold F32.mul F32.round
    simp
  rw [he] at h ⊢
  have hn := pack_isFin h
  rw [show pack false (roundIdx (mag m * mag m) (2 ^ 149)) = fin false ⟨_, hn⟩ from dif_pos hn, toReal_fin]
  simp
  positivity

/-- the sum of two approximate numbers, rounded -/
theorem sum_err {p q P Q s : ℝ} (hp : |p - P| ≤ 4 * u * |P| + η) (hq : |q - Q| ≤ 4 * u * |Q| + η)
    (hs : |s - (p + q)| ≤ u * |p + q|) : |s - (P + Q)| ≤ 6 * u * (|P| + |Q|) + 3 * η := by
  have hP := abs_nonneg P
  have hQ := abs_nonneg Q
  have h1 : |(p + q) - (P + Q)| ≤ 4 * u * (|P| + |Q|) + 2 * η := by
    have e : (p + q) - (P + Q) = (p - P) + (q - Q) := by ring
    rw [e]
    refine (abs_add_le _ _).trans ?_
    linarith
  have h2 : |p + q| ≤ |P| + |Q| + (4 * u * (|P| + |Q|) + 2 * η) := by
    have := abs_sub_abs_le_abs_sub (p + q) (P + Q)
    have := abs_add_le P Q
    linarith
  have h3 : |s - (P + Q)| ≤ |s - (p + q)| + |(p + q) - (P + Q)| := by
    have := abs_add_le (s - (p + q)) ((p + q) - (P + Q))
    simpa using this
  have h4 : u * |p + q| ≤ u * (|P| + |Q| + (4 * u * (|P| + |Q|) + 2 * η)) := mul_le_mul_of_nonneg_left h2 u_pos.le
  have e1 : u * (|P| + |Q| + (4 * u * (|P| + |Q|) + 2 * η)) = (u + 4 * u ^ 2) * (|P| + |Q|) + 2 * u * η := by ring
  have e2 : u + 4 * u ^ 2 ≤ 2 * u := by unfold u; norm_num
  have e3 : 2 * u * η ≤ 1 * η := mul_le_mul_of_nonneg_right (by unfold u; norm_num) η_pos.le
  have e4 : (u + 4 * u ^ 2) * (|P| + |Q|) ≤ 2 * u * (|P| + |Q|) := mul_le_mul_of_nonneg_right e2 (by linarith)
  linarith

/-- square root of an approximate number -/
theorem root_err {s D r : ℝ} (hD : 0 ≤ D) (hs : |s - D| ≤ 6 * u * D + 3 * η)
    (hr : |r - Real.sqrt s| ≤ u * Real.sqrt s) : |r - Real.sqrt D| ≤ Real.sqrt D / 2 ^ 21 + 1 / 2 ^ 73 := by
  set d := Real.sqrt D with hd
  have hd0 : 0 ≤ d := Real.sqrt_nonneg _
  have hdD : d * d = D := Real.mul_self_sqrt hD
  obtain ⟨s1, s2⟩ := abs_le.1 hs
  have hη : η = (1 / 2 ^ 74) ^ 2 / 4 := by unfold η; norm_num
  set ε : ℝ := 1 / 2 ^ 74 with hε
  have hε0 : 0 < ε := by rw [hε]; positivity
  have hu := u_pos
  have hu6 : 6 * u ≤ 1 := by unfold u; norm_num
  have hup : Real.sqrt s ≤ (1 + 3 * u) * d + ε := by
    rw [Real.sqrt_le_iff]
    refine ⟨by positivity, ?_⟩
    have : (1 + 3 * u) ^ 2 * (d * d) ≥ (1 + 6 * u) * (d * d) := by
      refine mul_le_mul_of_nonneg_right ?_ (by positivity)
      nlinarith
    have h2 : 0 ≤ (1 + 3 * u) * d * ε := by positivity
    have h3 := sq_nonneg ε
    have h4 : ((1 + 3 * u) * d + ε) ^ 2 = (1 + 3 * u) ^ 2 * (d * d) + 2 * ((1 + 3 * u) * d * ε) + ε ^ 2 := by ring
    rw [hη] at s2
    rw [← hdD] at s2
    clear_value ε d
    linarith
  have hlo : (1 - 6 * u) * d - ε ≤ Real.sqrt s := by
    by_cases hY : (1 - 6 * u) * d - ε ≤ 0
    · exact hY.trans (Real.sqrt_nonneg _)
    · refine Real.le_sqrt_of_sq_le ?_
      have hZ : ε < (1 - 6 * u) * d := by linarith
      have h1 : ((1 - 6 * u) * d) ^ 2 ≤ (1 - 6 * u) * (d * d) := by
        have : ((1 - 6 * u) * d) ^ 2 = (1 - 6 * u) * ((1 - 6 * u) * (d * d)) := by ring
        rw [this]
        refine mul_le_mul_of_nonneg_left ?_ (by linarith)
        have : 0 ≤ d * d := by positivity
        nlinarith
      rw [hη] at s1
      rw [← hdD] at s1
      have h4 : ((1 - 6 * u) * d - ε) ^ 2 = ((1 - 6 * u) * d) ^ 2 - ε ^ 2 - 2 * (ε * ((1 - 6 * u) * d - ε)) := by ring
      have h5 : 0 ≤ ε * ((1 - 6 * u) * d - ε) := mul_nonneg hε0.le (by linarith)
      have h6 := sq_nonneg ε
      clear_value ε d
      linarith
  obtain ⟨r1, r2⟩ := abs_le.1 hr
  have hu2 : u = 1 / 2 ^ 24 := rfl
  have h73 : (1 : ℝ) / 2 ^ 73 = 2 * ε := by rw [hε]; norm_num
  rw [h73]
  have hus : u * Real.sqrt s ≤ u * ((1 + 3 * u) * d + ε) := mul_le_mul_of_nonneg_left hup hu.le
  have hus2 : u * ((1 + 3 * u) * d + ε) ≤ 2 * u * d + ε := by
    have a1 : u * ((1 + 3 * u) * d + ε) = (u + 3 * u ^ 2) * d + u * ε := by ring
    have a2 : (u + 3 * u ^ 2) * d ≤ 2 * u * d := mul_le_mul_of_nonneg_right (by unfold u; norm_num) hd0
    have a3 : u * ε ≤ 1 * ε := mul_le_mul_of_nonneg_right (by linarith) hε0.le
    linarith
  have h21 : d / 2 ^ 21 = 8 * u * d := by unfold u; ring
  rw [h21]
  have hud : 0 ≤ u * d := by positivity
  rw [abs_le]
  constructor <;> linarith

theorem small_rsub {a b : F32} (ha : SmallNum a) (hb : SmallNum b) : (toReal a - toReal b) ^ 2 ≤ 2 ^ 122 := by
  obtain ⟨_, _, h, _⟩ := small_sub ha hb
  rw [← sq_abs]
  calc |toReal a - toReal b| ^ 2 ≤ (2 ^ 61) ^ 2 := pow_le_pow_left₀ (abs_nonneg _) h 2
    _ = 2 ^ 122 := by norm_num

/-- **C90.** For points with coordinates up to `2^60` the distance computed in `f32` is a finite number, within a relative
error of `2^-21` and an absolute error of `2^-73` of the true distance. -/
theorem C90_distance {a b : Vec2 F32} (ha : SmallPt a) (hb : SmallPt b) :
    IsFin (distance a b) ∧ 0 ≤ (toRat (distance a b) : ℝ) ∧
    |(toRat (distance a b) : ℝ) - dst (rpos a) (rpos b)| ≤ dst (rpos a) (rpos b) / 2 ^ 21 + 1 / 2 ^ 73 := by
  rw [toRat_toReal]
  obtain ⟨f1, e1, b1⟩ := small_prod hb.1 ha.1 hb.1 ha.1
  obtain ⟨f2, e2, b2⟩ := small_prod hb.2 ha.2 hb.2 ha.2
  obtain ⟨fx, _⟩ := small_sub hb.1 ha.1
  obtain ⟨fy, _⟩ := small_sub hb.2 ha.2
  have n1 := mul_self_nonneg' fx f1
  have n2 := mul_self_nonneg' fy f2
  have f3 : IsFin ((b.x - a.x) * (b.x - a.x) + (b.y - a.y) * (b.y - a.y)) := by
    refine add_isFin f1 f2 ?_
    refine lt_of_le_of_lt (abs_add_le _ _) ?_
    have : (2 : ℝ) ^ 125 + 2 ^ 125 < maxHalf := by unfold maxHalf; norm_num
    linarith
  have e3 := add_err f1 f2 f3
  have n3 : 0 ≤ toReal ((b.x - a.x) * (b.x - a.x) + (b.y - a.y) * (b.y - a.y)) := by
    obtain ⟨h1, _⟩ := abs_le.1 e3
    rw [abs_of_nonneg (by linarith)] at h1
    have : u * (toReal ((b.x - a.x) * (b.x - a.x)) + toReal ((b.y - a.y) * (b.y - a.y))) ≤
        1 * (toReal ((b.x - a.x) * (b.x - a.x)) + toReal ((b.y - a.y) * (b.y - a.y))) :=
      mul_le_mul_of_nonneg_right (by unfold u; norm_num) (by linarith)
    linarith
  have e4 := sqrt_err f3 n3
  have e5 := sum_err e1 e2 e3
  have p1 : 0 ≤ (toReal b.x - toReal a.x) * (toReal b.x - toReal a.x) := mul_self_nonneg _
  have p2 : 0 ≤ (toReal b.y - toReal a.y) * (toReal b.y - toReal a.y) := mul_self_nonneg _
  rw [abs_of_nonneg p1, abs_of_nonneg p2] at e5
  have h := root_err (by linarith) e5 e4
  have hd : Real.sqrt ((toReal b.x - toReal a.x) * (toReal b.x - toReal a.x) +
      (toReal b.y - toReal a.y) * (toReal b.y - toReal a.y)) = dst (rpos a) (rpos b) := by
    rw [rpos_eq, rpos_eq]; unfold dst; simp only; congr 1; ring
  rw [hd] at h
  refine ⟨sqrt_isFin f3 n3, ?_, h⟩
  have := abs_le.1 e4
  have h0 := Real.sqrt_nonneg (toReal ((b.x - a.x) * (b.x - a.x) + (b.y - a.y) * (b.y - a.y)))
  have : u * Real.sqrt (toReal ((b.x - a.x) * (b.x - a.x) + (b.y - a.y) * (b.y - a.y))) ≤
      1 * Real.sqrt (toReal ((b.x - a.x) * (b.x - a.x) + (b.y - a.y) * (b.y - a.y))) :=
    mul_le_mul_of_nonneg_right (by unfold u; norm_num) h0
  show 0 ≤ toReal (F32.sqrt ((b.x - a.x) * (b.x - a.x) + (b.y - a.y) * (b.y - a.y)))
  linarith

theorem eps_isFin : IsFin (Scalar.epsilon : F32) := ⟨false, ⟨0x34000000, by decide⟩, by decide +kernel⟩
theorem toReal_eps : toReal (Scalar.epsilon : F32) = 1 / 2 ^ 23 := by
  rw [← toRat_toReal]
  have : toRat (Scalar.epsilon : F32) = 1 / 2 ^ 23 := by decide +kernel
  rw [this]; norm_num

/-- **C90, threshold.** A computed distance below epsilon means a true distance below `(1 + 2^-20) * 2^-23`, one that is not
below epsilon means a true distance of at least `(1 - 2^-20) * 2^-23`. -/
theorem C90_threshold {a b : Vec2 F32} (ha : SmallPt a) (hb : SmallPt b) :
    ((distance a b <. Scalar.epsilon) = true → dst (rpos a) (rpos b) ≤ (1 + 1 / 2 ^ 20) / 2 ^ 23) ∧
    ((distance a b <. Scalar.epsilon) = false → (1 - 1 / 2 ^ 20) / 2 ^ 23 ≤ dst (rpos a) (rpos b)) := by
  obtain ⟨hf, h0, h⟩ := C90_distance ha hb
  rw [toRat_toReal] at h h0
  have hlt : (distance a b <. Scalar.epsilon) = true ↔ toReal (distance a b) < 1 / 2 ^ 23 := by
    rw [← toReal_eps]; exact lt_fin hf eps_isFin
  have hd := dst_nonneg (rpos a) (rpos b)
  obtain ⟨h1, h2⟩ := abs_le.1 h
  refine ⟨fun hb => ?_, fun hb => ?_⟩
  · rw [hlt] at hb
    norm_num at *
    linarith
  · have : ¬ toReal (distance a b) < 1 / 2 ^ 23 := by rw [← hlt, hb]; simp
    norm_num at *
    linarith

/-! ### midpoint -/

theorem half_isFin : IsFin (OrdScalar.half : F32) := ⟨false, ⟨0x3f000000, by decide⟩, by decide +kernel⟩
theorem toReal_half : toReal (OrdScalar.half : F32) = 1 / 2 := by
  rw [← toRat_toReal]
  have : toRat (OrdScalar.half : F32) = 1 / 2 := by decide +kernel
  rw [this]; norm_num

theorem mid_err {x y : F32} (hx : IsFin x) (hy : IsFin y) (h : |toReal x + toReal y| ≤ 2 ^ 127) :
    IsFin ((x + y) * OrdScalar.half) ∧
    |toReal ((x + y) * OrdScalar.half) - (toReal x + toReal y) / 2| ≤ |(toReal x + toReal y) / 2| / 2 ^ 22 + 1 / 2 ^ 150 := by
  have f1 : IsFin (x + y) := add_isFin hx hy (lt_of_le_of_lt h (by unfold maxHalf; norm_num))
  have e1 := add_err hx hy f1
  have hb : |toReal (x + y)| ≤ (1 + u) * |toReal x + toReal y| := by
    have := abs_sub_abs_le_abs_sub (toReal (x + y)) (toReal x + toReal y)
    linarith
  have hu := u_pos
  have hu1 : u ≤ 1 / 2 := by unfold u; norm_num
  have hS := abs_nonneg (toReal x + toReal y)
  have hm : |toReal (x + y) * toReal (OrdScalar.half : F32)| ≤ (1 + u) * |toReal x + toReal y| / 2 := by
    rw [toReal_half, abs_mul, abs_of_pos (by norm_num : (0 : ℝ) < 1 / 2)]
    linarith
  have f2 : IsFin ((x + y) * OrdScalar.half) := by
    refine mul_isFin f1 half_isFin (lt_of_le_of_lt hm ?_)
    have h1 : (1 + u) * |toReal x + toReal y| ≤ 3 / 2 * 2 ^ 127 := mul_le_mul (by linarith) h hS (by norm_num)
    have : 3 / 2 * 2 ^ 127 / 2 < maxHalf := by unfold maxHalf; norm_num
    linarith
  refine ⟨f2, ?_⟩
  have e2 := mul_err f1 half_isFin f2
  have e3 : u * |toReal (x + y) * toReal (OrdScalar.half : F32)| ≤ u * ((1 + u) * |toReal x + toReal y| / 2) :=
    mul_le_mul_of_nonneg_left hm hu.le
  have e4 : |toReal (x + y) * toReal (OrdScalar.half : F32) - (toReal x + toReal y) / 2| ≤ u * |toReal x + toReal y| / 2 := by
    rw [toReal_half]
    have e : toReal (x + y) * (1 / 2) - (toReal x + toReal y) / 2 = (toReal (x + y) - (toReal x + toReal y)) * (1 / 2) := by ring
    rw [e, abs_mul, abs_of_pos (by norm_num : (0 : ℝ) < 1 / 2)]
    linarith
  have ht := abs_add_le (toReal ((x + y) * OrdScalar.half) - toReal (x + y) * toReal (OrdScalar.half : F32))
    (toReal (x + y) * toReal (OrdScalar.half : F32) - (toReal x + toReal y) / 2)
  rw [sub_add_sub_cancel] at ht
  have hη : η = 1 / 2 ^ 150 := rfl
  rw [abs_div, abs_of_pos (by norm_num : (0 : ℝ) < 2)]
  have e5 : u * ((1 + u) * |toReal x + toReal y| / 2) ≤ 3 / 2 * (u * |toReal x + toReal y| / 2) := by
    have : 0 ≤ u * |toReal x + toReal y| := by positivity
    nlinarith
  have e6 : |toReal x + toReal y| / 2 / 2 ^ 22 = 4 * (u * |toReal x + toReal y| / 2) := by unfold u; ring
  have : 0 ≤ u * |toReal x + toReal y| := by positivity
  linarith

/-- **C91.** For finite points whose coordinate sums do not exceed `2^127` the midpoint computed in `f32` is finite and each
coordinate is within a relative error of `2^-22` and an absolute error of `2^-150` of the true midpoint's. -/
theorem C91_midpoint {a b : Vec2 F32} (ha : IsFin a.x ∧ IsFin a.y) (hb : IsFin b.x ∧ IsFin b.y)
    (hx : |(toRat a.x : ℝ) + toRat b.x| ≤ 2 ^ 127) (hy : |(toRat a.y : ℝ) + toRat b.y| ≤ 2 ^ 127) :
    let m := calculateMidpoint a b
    IsFin m.x ∧ IsFin m.y ∧
    |(toRat m.x : ℝ) - (toRat a.x + toRat b.x) / 2| ≤ |((toRat a.x : ℝ) + toRat b.x) / 2| / 2 ^ 22 + 1 / 2 ^ 150 ∧
    |(toRat m.y : ℝ) - (toRat a.y + toRat b.y) / 2| ≤ |((toRat a.y : ℝ) + toRat b.y) / 2| / 2 ^ 22 + 1 / 2 ^ 150 := by
  simp only [toRat_toReal] at *
  obtain ⟨h1, h2⟩ := mid_err ha.1 hb.1 hx
  obtain ⟨h3, h4⟩ := mid_err ha.2 hb.2 hy
  exact ⟨h1, h3, h2, h4⟩

/-- **C91, overflow.** The midpoint of a point with itself can overflow to infinity. -/
theorem C91_counterexample : let a : Vec2 F32 := ⟨F32.lit (2 ^ 127), F32.lit 0⟩
    IsFin a.x ∧ (calculateMidpoint a a).x = .inf false :=
  ⟨⟨false, ⟨0x7f000000, by decide⟩, by decide +kernel⟩, by decide +kernel⟩

/-! ### segment intersection -/

theorem one_isFin : IsFin (OrdScalar.one : F32) := ⟨false, ⟨0x3f800000, by decide⟩, by decide +kernel⟩
theorem toReal_one : toReal (OrdScalar.one : F32) = 1 := by
  rw [← toRat_toReal]
  have : toRat (OrdScalar.one : F32) = 1 := by decide +kernel
  rw [this]; norm_num

/-- a number between 0 and 1 is finite -/
theorem unit_isFin {t : F32} (h0 : ((OrdScalar.zero : F32) ≤. t) = true) (h1 : (t ≤. OrdScalar.one) = true) :
    IsFin t ∧ 0 ≤ toReal t ∧ toReal t ≤ 1 := by
  have hf : IsFin t := by
    cases t with
    | nan => exact absurd h0 (by decide +kernel)
    | inf s =>
      cases s
      · exact absurd h1 (by decide +kernel)
      · exact absurd h0 (by decide +kernel)
    | fin s n => exact ⟨s, n, rfl⟩
  refine ⟨hf, ?_, ?_⟩
  · have := (le_fin zero_isFin hf).1 h0
    rwa [toReal_zero] at this
  · have := (le_fin hf one_isFin).1 h1
    rwa [toReal_one] at this

/-- one coordinate of `a + t * (b - a)` -/
theorem lerp_err {a b t : F32} (ha : SmallNum a) (hb : SmallNum b) (ht : IsFin t) (h0 : 0 ≤ toReal t) (h1 : toReal t ≤ 1)
    {B : ℝ} (hA : |toReal a| ≤ B) (hB : |toReal b| ≤ B) :
    IsFin (a + t * (b - a)) ∧
    |toReal (a + t * (b - a)) - (toReal a + toReal t * (toReal b - toReal a))| ≤ B / 2 ^ 21 + 1 / 2 ^ 149 := by
  obtain ⟨fd, ed, bd, md⟩ := small_sub hb ha
  obtain ⟨fa, ba⟩ := small_fin ha
  have hu := u_pos
  have hη := η_pos
  have hB0 : 0 ≤ B := (abs_nonneg _).trans hA
  have hta : |toReal t| ≤ 1 := by rw [abs_of_nonneg h0]; exact h1
  have hm : |toReal t * toReal (b - a)| ≤ |toReal (b - a)| := by
    rw [abs_mul]
    calc |toReal t| * |toReal (b - a)| ≤ 1 * |toReal (b - a)| := mul_le_mul_of_nonneg_right hta (abs_nonneg _)
      _ = _ := one_mul _
  have fm : IsFin (t * (b - a)) := mul_isFin ht fd (lt_of_le_of_lt (hm.trans md) (by unfold maxHalf; norm_num))
  have em := mul_err ht fd fm
  have hD : |toReal b - toReal a| ≤ 2 * B := by
    refine (abs_sub _ _).trans ?_; linarith
  have hD' : |toReal (b - a)| ≤ (1 + u) * (2 * B) := by
    have := abs_sub_abs_le_abs_sub (toReal (b - a)) (toReal b - toReal a)
    have : u * |toReal b - toReal a| ≤ u * (2 * B) := mul_le_mul_of_nonneg_left hD hu.le
    linarith
  -- product
  have e1 : |toReal (t * (b - a)) - toReal t * (toReal b - toReal a)| ≤ u * ((1 + u) * (2 * B)) + η + u * (2 * B) := by
    have h3 := abs_add_le (toReal (t * (b - a)) - toReal t * toReal (b - a))
      (toReal t * toReal (b - a) - toReal t * (toReal b - toReal a))
    rw [sub_add_sub_cancel] at h3
    have h4 : |toReal t * toReal (b - a) - toReal t * (toReal b - toReal a)| ≤ u * (2 * B) := by
      rw [← mul_sub, abs_mul]
      calc |toReal t| * |toReal (b - a) - (toReal b - toReal a)| ≤ 1 * (u * (2 * B)) :=
            mul_le_mul hta (ed.trans (mul_le_mul_of_nonneg_left hD hu.le)) (abs_nonneg _) (by norm_num)
        _ = _ := one_mul _
    have h5 : u * |toReal t * toReal (b - a)| ≤ u * ((1 + u) * (2 * B)) :=
      mul_le_mul_of_nonneg_left (hm.trans hD') hu.le
    linarith
  have hconv : |toReal a + toReal t * (toReal b - toReal a)| ≤ B := by
    have e : toReal a + toReal t * (toReal b - toReal a) = (1 - toReal t) * toReal a + toReal t * toReal b := by ring
    rw [e]
    refine (abs_add_le _ _).trans ?_
    rw [abs_mul, abs_mul, abs_of_nonneg h0, abs_of_nonneg (by linarith : 0 ≤ 1 - toReal t)]
    nlinarith
  have hη1 : η ≤ 1 := by unfold η; norm_num
  have hu4 : u ≤ 1 / 2 ^ 4 := by unfold u; norm_num
  have hs : |toReal a + toReal (t * (b - a))| ≤ B + (u * ((1 + u) * (2 * B)) + η + u * (2 * B)) := by
    have h3 := abs_sub_abs_le_abs_sub (toReal a + toReal (t * (b - a))) (toReal a + toReal t * (toReal b - toReal a))
    have e : toReal a + toReal (t * (b - a)) - (toReal a + toReal t * (toReal b - toReal a)) =
        toReal (t * (b - a)) - toReal t * (toReal b - toReal a) := by ring
    rw [e] at h3
    linarith
  have huB : 0 ≤ u * B := by positivity
  have huuB : u * u * B ≤ 1 / 2 ^ 4 * (u * B) := by
    have : u * u * B = u * (u * B) := by ring
    rw [this]; exact mul_le_mul_of_nonneg_right hu4 huB
  have fsum : IsFin (a + t * (b - a)) := by
    refine add_isFin fa fm ?_
    have h6 : |toReal a + toReal (t * (b - a))| ≤ |toReal a| + |toReal (t * (b - a))| := abs_add_le _ _
    have h7 : |toReal (t * (b - a))| ≤ 2 ^ 62 + (1 * 2 ^ 62 + 1) := by
      have h8 := abs_sub_abs_le_abs_sub (toReal (t * (b - a))) (toReal t * toReal (b - a))
      have h9 : u * |toReal t * toReal (b - a)| ≤ 1 * 2 ^ 62 :=
        mul_le_mul (by linarith) (hm.trans md) (abs_nonneg _) (by norm_num)
      linarith [hm.trans md]
    have : (2 : ℝ) ^ 60 + (2 ^ 62 + (1 * 2 ^ 62 + 1)) < maxHalf := by unfold maxHalf; norm_num
    linarith
  have e2 := add_err fa fm fsum
  refine ⟨fsum, ?_⟩
  have h3 := abs_add_le (toReal (a + t * (b - a)) - (toReal a + toReal (t * (b - a))))
    (toReal a + toReal (t * (b - a)) - (toReal a + toReal t * (toReal b - toReal a)))
  rw [sub_add_sub_cancel] at h3
  have e : toReal a + toReal (t * (b - a)) - (toReal a + toReal t * (toReal b - toReal a)) =
      toReal (t * (b - a)) - toReal t * (toReal b - toReal a) := by ring
  rw [e] at h3
  have h4 : u * |toReal a + toReal (t * (b - a))| ≤ u * (B + (u * ((1 + u) * (2 * B)) + η + u * (2 * B))) :=
    mul_le_mul_of_nonneg_left hs hu.le
  have h5 : B / 2 ^ 21 = 8 * (u * B) := by unfold u; ring
  have h6 : (1 : ℝ) / 2 ^ 149 = 2 * η := by unfold η; norm_num
  rw [h5, h6]
  have h7 : u * η ≤ 1 / 2 ^ 4 * η := mul_le_mul_of_nonneg_right hu4 hη.le
  have h8 : u * (u * u * B) ≤ 1 / 2 ^ 4 * (u * u * B) := mul_le_mul_of_nonneg_right hu4 (by positivity)
  nlinarith

/-- **C92.** Whatever `calculate_line_segment_intersection` returns in `f32` for points with coordinates up to `2^60` is a
finite point next to the first segment: both coordinates are within `B / 2^21 + 2^-149` of a point of the segment, where `B`
bounds the coordinates of the segment's ends. -/
theorem C92_near_first {a b c d q : Vec2 F32} (ha : SmallPt a) (hb : SmallPt b) {B : ℝ}
    (hB : |(toRat a.x : ℝ)| ≤ B ∧ |(toRat a.y : ℝ)| ≤ B ∧ |(toRat b.x : ℝ)| ≤ B ∧ |(toRat b.y : ℝ)| ≤ B)
    (h : calculateLineSegmentIntersection a b c d = some q) :
    IsFin q.x ∧ IsFin q.y ∧ ∃ p, OnSegR (rpos a) (rpos b) p ∧
      |(rpos q).1 - p.1| ≤ B / 2 ^ 21 + 1 / 2 ^ 149 ∧ |(rpos q).2 - p.2| ≤ B / 2 ^ 21 + 1 / 2 ^ 149 := by
  simp only [toRat_toReal] at hB
  unfold calculateLineSegmentIntersection at h
  simp only at h
  split at h
  · rename_i hc
    simp only [Bool.and_eq_true] at hc
    obtain ⟨⟨_, t0⟩, t1⟩ := hc
    cases h
    obtain ⟨ft, t0', t1'⟩ := unit_isFin t0 t1
    obtain ⟨g1, g2⟩ := lerp_err ha.1 hb.1 ft t0' t1' hB.1 hB.2.2.1
    obtain ⟨g3, g4⟩ := lerp_err ha.2 hb.2 ft t0' t1' hB.2.1 hB.2.2.2
    refine ⟨g1, g3, (_, _), ⟨_, t0', t1', rfl⟩, ?_, ?_⟩
    · simp only [rpos_eq]; exact g2
    · simp only [rpos_eq]; exact g4
  · cases h

/-! #### accuracy -/

/-- the sum of the absolute values of all products computed by `calculate_line_segment_intersection` -/
noncomputable def segMass (a b c d : ℝ × ℝ) : ℝ :=
  |(d.1 - c.1) * (b.2 - a.2)| + |(b.1 - a.1) * (d.2 - c.2)| + (|(d.1 - c.1) * (a.2 - c.2)| + |(d.2 - c.2) * (a.1 - c.1)|) +
    (|(b.2 - a.2) * (a.1 - c.1)| + |(b.1 - a.1) * (a.2 - c.2)|)

/-- the relative error of the two line parameters -/
noncomputable def segErr (a b c d : ℝ × ℝ) : ℝ := (segMass a b c d / 2 ^ 20 + 1 / 2 ^ 147) / |crs a b c d|

theorem div_isFin {x y : F32} (hx : IsFin x) (hy : IsFin y) (hy0 : toReal y ≠ 0) (h : |toReal x / toReal y| < maxHalf) :
    IsFin (x / y) := by
  obtain ⟨s, m, rfl⟩ := hx
  obtain ⟨t, n, rfl⟩ := hy
  refine (div_rounds s t m n ?_).isFin h
  intro hn
  apply hy0
  rw [toReal_fin, hn, mag_zero]; simp

/-- a quotient of approximate numbers -/
theorem quot_err {x y : F32} {N D E : ℝ} (hx : IsFin x) (hy : IsFin y) (hN : |toReal x - N| ≤ E) (hD : |toReal y - D| ≤ E)
    (h8 : 8 * E ≤ |D|) (h6 : 6 * u * |D| ≤ E) (hpos : 0 < |D|) :
    toReal y ≠ 0 ∧ |toReal x / toReal y| ≤ 2 * (1 + |N / D|) ∧
    (IsFin (x / y) → |toReal (x / y) - N / D| ≤ (1 + |N / D|) * (2 * E / |D|)) := by
  have hu := u_pos
  have hη := η_pos
  have hE : 0 ≤ E := (abs_nonneg _).trans hN
  have hD0 : D ≠ 0 := abs_pos.1 hpos
  have hy7 : 7 / 8 * |D| ≤ |toReal y| := by
    have := abs_sub_abs_le_abs_sub D (toReal y)
    rw [abs_sub_comm D] at this
    linarith
  have hy0 : toReal y ≠ 0 := abs_pos.1 (by linarith)
  have hypos : 0 < |toReal y| := abs_pos.2 hy0
  set t := N / D with ht
  have hNt : N = t * D := by rw [ht]; field_simp
  have h1 : |toReal x - t * toReal y| ≤ (1 + |t|) * E := by
    have e : toReal x - t * toReal y = (toReal x - N) - t * (toReal y - D) := by rw [hNt]; ring
    rw [e]
    refine (abs_sub _ _).trans ?_
    rw [abs_mul]
    have := mul_le_mul_of_nonneg_left hD (abs_nonneg t)
    linarith
  have h2 : |toReal x / toReal y - t| ≤ (1 + |t|) * (8 / 7 * (E / |D|)) := by
    have e : toReal x / toReal y - t = (toReal x - t * toReal y) / toReal y := by field_simp
    rw [e, abs_div, div_le_iff₀ hypos]
    refine h1.trans ?_
    have h3 : E ≤ 8 / 7 * (E / |D|) * |toReal y| := by
      have : 8 / 7 * (E / |D|) * (7 / 8 * |D|) = E := by field_simp
      calc E = 8 / 7 * (E / |D|) * (7 / 8 * |D|) := this.symm
        _ ≤ _ := mul_le_mul_of_nonneg_left hy7 (by positivity)
    calc (1 + |t|) * E ≤ (1 + |t|) * (8 / 7 * (E / |D|) * |toReal y|) := mul_le_mul_of_nonneg_left h3 (by positivity)
      _ = _ := by ring
  have hr : E / |D| ≤ 1 / 8 := by rw [div_le_iff₀ hpos]; linarith
  have hr6 : 6 * u ≤ E / |D| := by rw [le_div_iff₀ hpos]; exact h6
  set r := E / |D| with hrdef
  have ht0 := abs_nonneg t
  have hq : |toReal x / toReal y| ≤ 8 / 7 * (1 + |t|) := by
    have := abs_sub_abs_le_abs_sub (toReal x / toReal y) t
    have h3 : (1 + |t|) * (8 / 7 * r) ≤ (1 + |t|) * (1 / 7) := mul_le_mul_of_nonneg_left (by linarith) (by positivity)
    linarith
  refine ⟨hy0, by linarith, fun hf => ?_⟩
  have he := div_err hx hy hy0 hf
  have h4 := abs_add_le (toReal (x / y) - toReal x / toReal y) (toReal x / toReal y - t)
  rw [sub_add_sub_cancel] at h4
  have h5 : u * |toReal x / toReal y| ≤ u * (8 / 7 * (1 + |t|)) := mul_le_mul_of_nonneg_left hq hu.le
  have hηu : η ≤ u := by unfold η u; norm_num
  have e2 : 2 * E / |D| = 2 * r := by rw [hrdef]; ring
  rw [e2]
  have h7 : 6 * u * (1 + |t|) ≤ r * (1 + |t|) := mul_le_mul_of_nonneg_right hr6 (by positivity)
  have h9 : 0 ≤ u * |t| := by positivity
  have h10 : 0 ≤ r * (1 + |t|) := by
    have : 0 ≤ r := by linarith
    positivity
  linarith

theorem neg_prod {a b c d : F32} (ha : SmallNum a) (hb : SmallNum b) (hc : SmallNum c) (hd : SmallNum d) :
    IsFin (-(a - b) * (c - d)) ∧ |toReal (-(a - b) * (c - d)) - (-((toReal a - toReal b) * (toReal c - toReal d)))| ≤
      4 * u * |-((toReal a - toReal b) * (toReal c - toReal d))| + η ∧ |toReal (-(a - b) * (c - d))| ≤ 2 ^ 125 := by
  obtain ⟨f1, e1, b1, m1⟩ := small_sub ha hb
  obtain ⟨f2, e2, b2, m2⟩ := small_sub hc hd
  have f1' := neg_isFin f1
  have hneg : toReal (-(a - b)) = -toReal (a - b) := toReal_neg _
  have hm : |toReal (-(a - b)) * toReal (c - d)| ≤ 2 ^ 124 := by
    rw [hneg, neg_mul, abs_neg, abs_mul]
    refine (mul_le_mul m1 m2 (abs_nonneg _) (by norm_num)).trans ?_
    norm_num
  have f3 : IsFin (-(a - b) * (c - d)) := mul_isFin f1' f2 (lt_of_le_of_lt hm (by unfold maxHalf; norm_num))
  have e3 := mul_err f1' f2 f3
  have e1' : |toReal (-(a - b)) - (-(toReal a - toReal b))| ≤ u * |-(toReal a - toReal b)| := by
    rw [hneg, abs_neg, neg_sub_neg, abs_sub_comm]; exact e1
  refine ⟨f3, ?_, ?_⟩
  · have := prod_err e1' e2 e3
    rwa [neg_mul] at this
  have h2 := abs_sub_abs_le_abs_sub (toReal (-(a - b) * (c - d))) (toReal (-(a - b)) * toReal (c - d))
  have h3 : u * |toReal (-(a - b)) * toReal (c - d)| ≤ 1 / 2 * 2 ^ 124 :=
    mul_le_mul (by unfold u; norm_num) hm (abs_nonneg _) (by norm_num)
  have h4 : η ≤ 1 := by unfold η; norm_num
  have : (2 : ℝ) ^ 125 = 2 ^ 124 + 1 / 2 * 2 ^ 124 + 1 / 2 * 2 ^ 124 := by norm_num
  have : (1 : ℝ) ≤ 1 / 2 * 2 ^ 124 := by norm_num
  linarith

theorem add2 {x y : F32} {P Q : ℝ} (fx : IsFin x) (fy : IsFin y) (ex : |toReal x - P| ≤ 4 * u * |P| + η)
    (ey : |toReal y - Q| ≤ 4 * u * |Q| + η) (bx : |toReal x| ≤ 2 ^ 125) (by' : |toReal y| ≤ 2 ^ 125) :
    IsFin (x + y) ∧ |toReal (x + y) - (P + Q)| ≤ 6 * u * (|P| + |Q|) + 3 * η := by
  have f3 : IsFin (x + y) := by
    refine add_isFin fx fy (lt_of_le_of_lt (abs_add_le _ _) ?_)
    have : (2 : ℝ) ^ 125 + 2 ^ 125 < maxHalf := by unfold maxHalf; norm_num
    linarith
  exact ⟨f3, sum_err ex ey (add_err fx fy f3)⟩

theorem sub2 {x y : F32} {P Q : ℝ} (fx : IsFin x) (fy : IsFin y) (ex : |toReal x - P| ≤ 4 * u * |P| + η)
    (ey : |toReal y - Q| ≤ 4 * u * |Q| + η) (bx : |toReal x| ≤ 2 ^ 125) (by' : |toReal y| ≤ 2 ^ 125) :
    IsFin (x - y) ∧ |toReal (x - y) - (P - Q)| ≤ 6 * u * (|P| + |Q|) + 3 * η := by
  have hneg : toReal (-y) = -toReal y := toReal_neg _
  have := add2 fx (neg_isFin fy) (Q := -Q) ex (by rw [hneg, abs_neg, neg_sub_neg, abs_sub_comm]; exact ey) bx
    (by rw [hneg, abs_neg]; exact by')
  rw [abs_neg, ← sub_eq_add_neg, ← sub_eq_add_neg'] at this
  exact this

section
variable {a b c d : Vec2 F32}

/-- the two line parameters the code computes -/
def codeDenom (a b c d : Vec2 F32) : F32 := -(d.x - c.x) * (b.y - a.y) + (b.x - a.x) * (d.y - c.y)
@[inherit_doc codeDenom] def codeS (a b c d : Vec2 F32) : F32 :=
  (-(b.y - a.y) * (a.x - c.x) + (b.x - a.x) * (a.y - c.y)) / codeDenom a b c d
@[inherit_doc codeDenom] def codeT (a b c d : Vec2 F32) : F32 :=
  ((d.x - c.x) * (a.y - c.y) - (d.y - c.y) * (a.x - c.x)) / codeDenom a b c d

theorem code_eq : calculateLineSegmentIntersection a b c d =
    if (OrdScalar.zero ≤. codeS a b c d) && (codeS a b c d ≤. OrdScalar.one) && (OrdScalar.zero ≤. codeT a b c d) &&
      (codeT a b c d ≤. OrdScalar.one) then
      some ⟨a.x + codeT a b c d * (b.x - a.x), a.y + codeT a b c d * (b.y - a.y)⟩ else none := rfl

/-- both parameters are accurate -/
theorem param_err (ha : SmallPt a) (hb : SmallPt b) (hc : SmallPt c) (hd : SmallPt d) {t s : ℝ}
    (hx : (rpos a).1 + t * ((rpos b).1 - (rpos a).1) = (rpos c).1 + s * ((rpos d).1 - (rpos c).1))
    (hy : (rpos a).2 + t * ((rpos b).2 - (rpos a).2) = (rpos c).2 + s * ((rpos d).2 - (rpos c).2))
    (h0 : crs (rpos a) (rpos b) (rpos c) (rpos d) ≠ 0)
    (hτ : segErr (rpos a) (rpos b) (rpos c) (rpos d) ≤ 1 / 4) :
    (|t| ≤ 1 → IsFin (codeT a b c d)) ∧ (|s| ≤ 1 → IsFin (codeS a b c d)) ∧
    (IsFin (codeT a b c d) → |toReal (codeT a b c d) - t| ≤ (1 + |t|) * segErr (rpos a) (rpos b) (rpos c) (rpos d)) ∧
    (IsFin (codeS a b c d) → |toReal (codeS a b c d) - s| ≤ (1 + |s|) * segErr (rpos a) (rpos b) (rpos c) (rpos d)) := by
  obtain ⟨g1, g2, g3⟩ := neg_prod hd.1 hc.1 hb.2 ha.2
  obtain ⟨g4, g5, g6⟩ := small_prod hb.1 ha.1 hd.2 hc.2
  obtain ⟨k1, k2, k3⟩ := neg_prod hb.2 ha.2 ha.1 hc.1
  obtain ⟨k4, k5, k6⟩ := small_prod hb.1 ha.1 ha.2 hc.2
  obtain ⟨l1, l2, l3⟩ := small_prod hd.1 hc.1 ha.2 hc.2
  obtain ⟨l4, l5, l6⟩ := small_prod hd.2 hc.2 ha.1 hc.1
  obtain ⟨fD, eD⟩ := add2 g1 g4 g2 g5 g3 g6
  obtain ⟨fS, eS⟩ := add2 k1 k4 k2 k5 k3 k6
  obtain ⟨fT, eT⟩ := sub2 l1 l4 l2 l5 l3 l6
  have hpos : 0 < |crs (rpos a) (rpos b) (rpos c) (rpos d)| := abs_pos.2 h0
  unfold segErr at hτ ⊢
  rw [div_le_iff₀ hpos] at hτ
  unfold segMass crs at *
  simp only [rpos_eq] at *
  rw [abs_neg] at eD eS
  set p1 := (toReal d.x - toReal c.x) * (toReal b.y - toReal a.y) with hp1
  set p2 := (toReal b.x - toReal a.x) * (toReal d.y - toReal c.y) with hp2
  set p3 := (toReal d.x - toReal c.x) * (toReal a.y - toReal c.y) with hp3
  set p4 := (toReal d.y - toReal c.y) * (toReal a.x - toReal c.x) with hp4
  set p5 := (toReal b.y - toReal a.y) * (toReal a.x - toReal c.x) with hp5
  set p6 := (toReal b.x - toReal a.x) * (toReal a.y - toReal c.y) with hp6
  set M := |p1| + |p2| + (|p3| + |p4|) + (|p5| + |p6|) with hM
  have n1 := abs_nonneg p1
  have n2 := abs_nonneg p2
  have n3 := abs_nonneg p3
  have n4 := abs_nonneg p4
  have n5 := abs_nonneg p5
  have n6 := abs_nonneg p6
  have hu := u_pos
  have hη := η_pos
  set E : ℝ := 8 * u * M + 4 * η with hE
  have hE2 : M / 2 ^ 20 + 1 / 2 ^ 147 = 2 * E := by rw [hE]; unfold u η; ring
  rw [hE2] at hτ ⊢
  have hDD : p2 - p1 = -p1 + p2 := by ring
  rw [hDD] at hτ hpos h0 ⊢
  have hle : ∀ m, m ≤ M → 6 * u * m + 3 * η ≤ E := by
    intro m hm
    have := mul_le_mul_of_nonneg_left hm (by positivity : 0 ≤ 6 * u)
    have : 0 ≤ u * M := by
      have : 0 ≤ M := by linarith
      positivity
    linarith
  have q1 := eD.trans (hle _ (by linarith))
  have q2 := eS.trans (hle _ (by linarith))
  have q3 := eT.trans (hle _ (by linarith))
  have q4 : 6 * u * |-p1 + p2| ≤ E := by
    have h1 : |-p1 + p2| ≤ M := by
      refine (abs_add_le _ _).trans ?_
      rw [abs_neg]; linarith
    have := hle _ h1
    linarith
  have tT : (p3 - p4) / (-p1 + p2) = t := by
    rw [div_eq_iff h0, hp1, hp2, hp3, hp4]
    linear_combination (toReal d.x - toReal c.x) * hy - (toReal d.y - toReal c.y) * hx
  have tS : (-p5 + p6) / (-p1 + p2) = s := by
    rw [div_eq_iff h0, hp1, hp2, hp5, hp6]
    linear_combination (toReal b.x - toReal a.x) * hy - (toReal b.y - toReal a.y) * hx
  obtain ⟨r1, r2, r3⟩ := quot_err fT fD q3 q1 (by linarith) q4 hpos
  obtain ⟨_, r5, r6⟩ := quot_err fS fD q2 q1 (by linarith) q4 hpos
  rw [tT] at r2 r3
  rw [tS] at r5 r6
  refine ⟨fun h => ?_, fun h => ?_, r3, r6⟩
  · exact div_isFin fT fD r1 (lt_of_le_of_lt r2 (lt_of_le_of_lt (by linarith : _ ≤ (4 : ℝ)) (by unfold maxHalf; norm_num)))
  · exact div_isFin fS fD r1 (lt_of_le_of_lt r5 (lt_of_le_of_lt (by linarith : _ ≤ (4 : ℝ)) (by unfold maxHalf; norm_num)))

/-- **C92, crossing segments.** If the two segments cross at a point that is not too close to an end of either (relative to the
error bound), the code finds the crossing in `f32`, and each coordinate of the answer is accurate. -/
theorem C92_crossing (ha : SmallPt a) (hb : SmallPt b) (hc : SmallPt c) (hd : SmallPt d) {t s B : ℝ}
    (hx : (rpos a).1 + t * ((rpos b).1 - (rpos a).1) = (rpos c).1 + s * ((rpos d).1 - (rpos c).1))
    (hy : (rpos a).2 + t * ((rpos b).2 - (rpos a).2) = (rpos c).2 + s * ((rpos d).2 - (rpos c).2))
    (h0 : crs (rpos a) (rpos b) (rpos c) (rpos d) ≠ 0)
    (hτ : segErr (rpos a) (rpos b) (rpos c) (rpos d) ≤ 1 / 4)
    (ht : 3 * segErr (rpos a) (rpos b) (rpos c) (rpos d) ≤ t ∧ t ≤ 1 - 3 * segErr (rpos a) (rpos b) (rpos c) (rpos d))
    (hs : 3 * segErr (rpos a) (rpos b) (rpos c) (rpos d) ≤ s ∧ s ≤ 1 - 3 * segErr (rpos a) (rpos b) (rpos c) (rpos d))
    (hB : |(rpos a).1| ≤ B ∧ |(rpos a).2| ≤ B ∧ |(rpos b).1| ≤ B ∧ |(rpos b).2| ≤ B) :
    ∃ q, calculateLineSegmentIntersection a b c d = some q ∧ IsFin q.x ∧ IsFin q.y ∧
      |(rpos q).1 - ((rpos a).1 + t * ((rpos b).1 - (rpos a).1))| ≤
        2 * segErr (rpos a) (rpos b) (rpos c) (rpos d) * |(rpos b).1 - (rpos a).1| + (B / 2 ^ 21 + 1 / 2 ^ 149) ∧
      |(rpos q).2 - ((rpos a).2 + t * ((rpos b).2 - (rpos a).2))| ≤
        2 * segErr (rpos a) (rpos b) (rpos c) (rpos d) * |(rpos b).2 - (rpos a).2| + (B / 2 ^ 21 + 1 / 2 ^ 149) := by
  obtain ⟨e1, e2, e3, e4⟩ := param_err ha hb hc hd hx hy h0 hτ
  have hτ0 : 0 ≤ segErr (rpos a) (rpos b) (rpos c) (rpos d) := by unfold segErr segMass; positivity
  set τ := segErr (rpos a) (rpos b) (rpos c) (rpos d) with hτd
  have t0 : 0 ≤ t := by linarith
  have s0 : 0 ≤ s := by linarith
  have fT := e1 (by rw [abs_of_nonneg t0]; linarith)
  have fS := e2 (by rw [abs_of_nonneg s0]; linarith)
  have dT := e3 fT
  have dS := e4 fS
  rw [abs_of_nonneg t0] at dT
  rw [abs_of_nonneg s0] at dS
  have dT2 : |toReal (codeT a b c d) - t| ≤ 2 * τ := dT.trans (mul_le_mul_of_nonneg_right (by linarith) hτ0)
  have dS2 : |toReal (codeS a b c d) - s| ≤ 2 * τ := dS.trans (mul_le_mul_of_nonneg_right (by linarith) hτ0)
  obtain ⟨a1, a2⟩ := abs_le.1 dT2
  obtain ⟨a3, a4⟩ := abs_le.1 dS2
  have c1 : ((OrdScalar.zero : F32) ≤. codeS a b c d) = true := (le_fin zero_isFin fS).2 (by rw [toReal_zero]; linarith)
  have c2 : (codeS a b c d ≤. OrdScalar.one) = true := (le_fin fS one_isFin).2 (by rw [toReal_one]; linarith)
  have c3 : ((OrdScalar.zero : F32) ≤. codeT a b c d) = true := (le_fin zero_isFin fT).2 (by rw [toReal_zero]; linarith)
  have c4 : (codeT a b c d ≤. OrdScalar.one) = true := (le_fin fT one_isFin).2 (by rw [toReal_one]; linarith)
  rw [code_eq, c1, c2, c3, c4]
  have hB' : |toReal a.x| ≤ B ∧ |toReal a.y| ≤ B ∧ |toReal b.x| ≤ B ∧ |toReal b.y| ≤ B := by
    simpa only [rpos_eq] using hB
  have hadj : ∀ {v w y : ℝ} {z : ℝ}, |z - (v + toReal (codeT a b c d) * (w - v))| ≤ y →
      |z - (v + t * (w - v))| ≤ 2 * τ * |w - v| + y := by
    intro v w y z h
    have h1 := abs_add_le (z - (v + toReal (codeT a b c d) * (w - v))) ((toReal (codeT a b c d) - t) * (w - v))
    have e : z - (v + toReal (codeT a b c d) * (w - v)) + (toReal (codeT a b c d) - t) * (w - v) = z - (v + t * (w - v)) := by
      ring
    rw [e, abs_mul] at h1
    have := mul_le_mul_of_nonneg_right dT2 (abs_nonneg (w - v))
    linarith
  obtain ⟨g1, g2⟩ := lerp_err ha.1 hb.1 fT (by linarith) (by linarith) hB'.1 hB'.2.2.1
  obtain ⟨g3, g4⟩ := lerp_err ha.2 hb.2 fT (by linarith) (by linarith) hB'.2.1 hB'.2.2.2
  refine ⟨_, rfl, g1, g3, ?_, ?_⟩
  · simp only [rpos_eq]; exact hadj g2
  · simp only [rpos_eq]; exact hadj g4

/-- **C92, separated segments.** If the lines of the two segments meet at a point clearly outside one of them, the code
returns no point in `f32`. -/
theorem C92_apart (ha : SmallPt a) (hb : SmallPt b) (hc : SmallPt c) (hd : SmallPt d) {t s : ℝ}
    (hx : (rpos a).1 + t * ((rpos b).1 - (rpos a).1) = (rpos c).1 + s * ((rpos d).1 - (rpos c).1))
    (hy : (rpos a).2 + t * ((rpos b).2 - (rpos a).2) = (rpos c).2 + s * ((rpos d).2 - (rpos c).2))
    (h0 : crs (rpos a) (rpos b) (rpos c) (rpos d) ≠ 0)
    (hτ : segErr (rpos a) (rpos b) (rpos c) (rpos d) ≤ 1 / 4)
    (hout : t < -3 * segErr (rpos a) (rpos b) (rpos c) (rpos d) ∨ 1 + 3 * segErr (rpos a) (rpos b) (rpos c) (rpos d) < t ∨
      s < -3 * segErr (rpos a) (rpos b) (rpos c) (rpos d) ∨ 1 + 3 * segErr (rpos a) (rpos b) (rpos c) (rpos d) < s) :
    calculateLineSegmentIntersection a b c d = none := by
  obtain ⟨_, _, e3, e4⟩ := param_err ha hb hc hd hx hy h0 hτ
  have hτ0 : 0 ≤ segErr (rpos a) (rpos b) (rpos c) (rpos d) := by unfold segErr segMass; positivity
  set τ := segErr (rpos a) (rpos b) (rpos c) (rpos d) with hτd
  have key : ∀ {x : F32} {r : ℝ}, (IsFin x → |toReal x - r| ≤ (1 + |r|) * τ) → (r < -3 * τ ∨ 1 + 3 * τ < r) →
      ((OrdScalar.zero : F32) ≤. x) = true → (x ≤. OrdScalar.one) = true → False := by
    intro x r he hr h1 h2
    obtain ⟨f, x0, x1⟩ := unit_isFin h1 h2
    obtain ⟨a1, a2⟩ := abs_le.1 (he f)
    rcases hr with hr | hr
    · rw [abs_of_neg (by linarith)] at a2
      nlinarith
    · rw [abs_of_pos (by linarith)] at a1
      nlinarith
  rw [code_eq, if_neg]
  simp only [Bool.and_eq_true]
  rintro ⟨⟨⟨c1, c2⟩, c3⟩, c4⟩
  rcases hout with h | h | h | h
  · exact key e3 (Or.inl h) c3 c4
  · exact key e3 (Or.inr h) c3 c4
  · exact key e4 (Or.inl h) c1 c2
  · exact key e4 (Or.inr h) c1 c2

end

/-! ### is_on_line_segment -/

theorem abs_fin' {x : F32} (hx : IsFin x) : IsFin (F32.abs x) ∧ toReal (F32.abs x) = |toReal x| := by
  obtain ⟨s, n, rfl⟩ := hx
  refine ⟨⟨false, n, rfl⟩, ?_⟩
  show toReal (fin false n) = _
  rw [toReal_fin, toReal_fin, mul_div_assoc, mul_div_assoc, abs_sign, abs_of_nonneg (by positivity)]
  simp

theorem small_dst {a b : Vec2 F32} (ha : SmallPt a) (hb : SmallPt b) : dst (rpos a) (rpos b) ≤ 2 ^ 62 := by
  unfold dst
  rw [Real.sqrt_le_iff]
  refine ⟨by positivity, ?_⟩
  simp only [rpos_eq]
  have h1 := small_rsub hb.1 ha.1
  have h2 := small_rsub hb.2 ha.2
  have : ((2 : ℝ) ^ 62) ^ 2 = 2 ^ 122 + 2 ^ 122 + 2 ^ 123 := by norm_num
  have : (0 : ℝ) ≤ 2 ^ 123 := by positivity
  linarith

/-- the computed value of `|ap + pb - ab|` -/
theorem detour_err {a b p : Vec2 F32} (ha : SmallPt a) (hb : SmallPt b) (hp : SmallPt p) :
    let A := dst (rpos a) (rpos b)
    let P := dst (rpos a) (rpos p)
    let Q := dst (rpos p) (rpos b)
    let x := (distance a p + distance p b) - distance a b
    IsFin x ∧ |toReal x - (P + Q - A)| ≤ u * |toReal x| * 2 + (P + Q + A) * (10 * u) + 1 / 2 ^ 70 := by
  intro A P Q x
  obtain ⟨fA, A0, eA⟩ := C90_distance ha hb
  obtain ⟨fP, P0, eP⟩ := C90_distance ha hp
  obtain ⟨fQ, Q0, eQ⟩ := C90_distance hp hb
  rw [toRat_toReal] at A0 eA P0 eP Q0 eQ
  have mA : A ≤ 2 ^ 62 := small_dst ha hb
  have mP : P ≤ 2 ^ 62 := small_dst ha hp
  have mQ : Q ≤ 2 ^ 62 := small_dst hp hb
  have nA : 0 ≤ A := dst_nonneg _ _
  have nP : 0 ≤ P := dst_nonneg _ _
  have nQ : 0 ≤ Q := dst_nonneg _ _
  change |toReal (distance a b) - A| ≤ A / 2 ^ 21 + 1 / 2 ^ 73 at eA
  change |toReal (distance a p) - P| ≤ P / 2 ^ 21 + 1 / 2 ^ 73 at eP
  change |toReal (distance p b) - Q| ≤ Q / 2 ^ 21 + 1 / 2 ^ 73 at eQ
  have hx : x = (distance a p + distance p b) - distance a b := rfl
  clear_value A P Q x
  subst hx
  generalize distance a b = fa at *
  generalize distance a p = fp at *
  generalize distance p b = fq at *
  have hu := u_pos
  have h21 : ∀ X : ℝ, X / 2 ^ 21 = 8 * u * X := by intro X; unfold u; ring
  rw [h21] at eA eP eQ
  set ε : ℝ := 1 / 2 ^ 73 with hε
  have hε0 : 0 < ε := by rw [hε]; positivity
  have h70 : (1 : ℝ) / 2 ^ 70 = 8 * ε := by rw [hε]; norm_num
  rw [h70]
  have hε1 : ε ≤ 1 := by rw [hε]; norm_num
  clear_value ε
  have hu4 : 8 * u ≤ 1 / 2 := by unfold u; norm_num
  have huA : 8 * u * A ≤ 1 / 2 * A := mul_le_mul_of_nonneg_right hu4 nA
  have huP : 8 * u * P ≤ 1 / 2 * P := mul_le_mul_of_nonneg_right hu4 nP
  have huQ : 8 * u * Q ≤ 1 / 2 * Q := mul_le_mul_of_nonneg_right hu4 nQ
  obtain ⟨a1, a2⟩ := abs_le.1 eA
  obtain ⟨p1, p2⟩ := abs_le.1 eP
  obtain ⟨q1, q2⟩ := abs_le.1 eQ
  have h64 : (2 : ℝ) ^ 64 = 4 * 2 ^ 62 := by norm_num
  have h62 : (2 : ℝ) ≤ 2 ^ 62 := by norm_num
  have hbig : (2 : ℝ) ^ 66 < maxHalf := by unfold maxHalf; norm_num
  have h66 : (2 : ℝ) ^ 66 = 16 * 2 ^ 62 := by norm_num
  have fS : IsFin (fp + fq) := by
    refine add_isFin fP fQ ?_
    rw [abs_of_nonneg (by linarith)]
    linarith
  have eS := add_err fP fQ fS
  rw [abs_of_nonneg (by linarith : 0 ≤ toReal fp + toReal fq)] at eS
  obtain ⟨s1, s2⟩ := abs_le.1 eS
  have huS : u * (toReal fp + toReal fq) ≤ 1 / 2 * (toReal fp + toReal fq) :=
    mul_le_mul_of_nonneg_right (by linarith) (by linarith)
  have fX : IsFin (fp + fq - fa) := by
    refine sub_isFin fS fA ?_
    refine lt_of_le_of_lt (abs_sub _ _) ?_
    rw [abs_of_nonneg (by linarith), abs_of_nonneg A0]
    linarith
  have eX := sub_err fS fA fX
  refine ⟨fX, ?_⟩
  -- the last rounding, relative to the result
  have hrel : |toReal (fp + fq - fa) - (toReal (fp + fq) - toReal fa)| ≤ u * |toReal (fp + fq - fa)| * 2 := by
    have h1 := abs_sub_abs_le_abs_sub (toReal (fp + fq) - toReal fa) (toReal (fp + fq - fa))
    rw [abs_sub_comm (toReal (fp + fq) - toReal fa)] at h1
    have h2 : u * |toReal (fp + fq) - toReal fa| ≤ 1 / 2 * |toReal (fp + fq) - toReal fa| :=
      mul_le_mul_of_nonneg_right (by linarith) (abs_nonneg _)
    have h3 : |toReal (fp + fq) - toReal fa| ≤ 2 * |toReal (fp + fq - fa)| := by linarith
    have := mul_le_mul_of_nonneg_left h3 hu.le
    linarith
  have hS : u * (toReal fp + toReal fq) ≤ 2 * u * (P + Q) + ε := by
    have h1 : u * (toReal fp + toReal fq) ≤ u * (3 / 2 * (P + Q) + 2 * ε) :=
      mul_le_mul_of_nonneg_left (by linarith) hu.le
    have h2 : u * ε ≤ 1 / 4 * ε := mul_le_mul_of_nonneg_right (by linarith) hε0.le
    have h3 : 0 ≤ u * (P + Q) := mul_nonneg hu.le (by linarith)
    linarith
  obtain ⟨r1, r2⟩ := abs_le.1 hrel
  have hAP : 0 ≤ u * A := mul_nonneg hu.le nA
  rw [abs_le]
  constructor <;> linarith

/-- **C93.** For coordinates up to `2^60`: a point accepted in `f32` is in a slightly larger ellipse around the segment, and on
edges of length at most `1/32` every point of the segment that is not within `2^-22` of an end is accepted. -/
theorem C93_on_segment {a b p : Vec2 F32} (ha : SmallPt a) (hb : SmallPt b) (hp : SmallPt p) (f : Bool) :
    (isOnLineSegment a b p f = true →
      dst (rpos a) (rpos p) + dst (rpos p) (rpos b) ≤ (1 + 1 / 2 ^ 18) * dst (rpos a) (rpos b) + 1 / 2 ^ 21) ∧
    (OnSegR (rpos a) (rpos b) (rpos p) → dst (rpos a) (rpos b) ≤ 1 / 32 → 1 / 2 ^ 22 ≤ dst (rpos a) (rpos p) →
      1 / 2 ^ 22 ≤ dst (rpos p) (rpos b) → isOnLineSegment a b p f = true) := by
  obtain ⟨fX, eX⟩ := detour_err ha hb hp
  obtain ⟨fX', aX⟩ := abs_fin' fX
  have hlt : (OrdScalar.abs ((distance a p + distance p b) - distance a b) <. Scalar.epsilon) = true ↔
      |toReal ((distance a p + distance p b) - distance a b)| < 1 / 2 ^ 23 := by
    rw [← toReal_eps, ← aX]; exact lt_fin fX' eps_isFin
  have nA := dst_nonneg (rpos a) (rpos b)
  have nP := dst_nonneg (rpos a) (rpos p)
  have nQ := dst_nonneg (rpos p) (rpos b)
  have hu : u = 1 / 2 ^ 24 := rfl
  constructor
  · intro h
    unfold isOnLineSegment at h
    simp only [Bool.and_eq_true] at h
    have h1 := hlt.1 h.1.1
    obtain ⟨e1, e2⟩ := abs_le.1 eX
    have h2 := le_abs_self (toReal ((distance a p + distance p b) - distance a b))
    generalize toReal ((distance a p + distance p b) - distance a b) = X at *
    generalize dst (rpos a) (rpos b) = A at *
    generalize dst (rpos a) (rpos p) = P at *
    generalize dst (rpos p) (rpos b) = Q at *
    rw [hu] at e1
    norm_num at *
    linarith
  · intro hs hA hP hQ
    have hadd : dst (rpos a) (rpos p) + dst (rpos p) (rpos b) = dst (rpos a) (rpos b) := by
      have h1 : dst (rpos a) (rpos p) + dst (rpos p) (rpos b) ≤ dst (rpos a) (rpos b) := by
        obtain ⟨t, t0, t1, hpt⟩ := hs
        rw [dst_add_le_iff, hpt]
        refine ⟨by unfold crs; simp only; ring, ?_⟩
        have e : dt (rpos a) ((rpos a).1 + t * ((rpos b).1 - (rpos a).1), (rpos a).2 + t * ((rpos b).2 - (rpos a).2))
            ((rpos a).1 + t * ((rpos b).1 - (rpos a).1), (rpos a).2 + t * ((rpos b).2 - (rpos a).2)) (rpos b) =
            t * (1 - t) * (((rpos b).1 - (rpos a).1) ^ 2 + ((rpos b).2 - (rpos a).2) ^ 2) := by
          unfold dt; simp only; ring
        rw [e]
        have : 0 ≤ 1 - t := by linarith
        positivity
      exact le_antisymm h1 (dst_triangle _ _ _)
    obtain ⟨fP, P0, eP⟩ := C90_distance ha hp
    obtain ⟨fQ, Q0, eQ⟩ := C90_distance hp hb
    rw [toRat_toReal] at P0 eP Q0 eQ
    obtain ⟨fP', aP⟩ := abs_fin' fP
    obtain ⟨fQ', aQ⟩ := abs_fin' fQ
    unfold isOnLineSegment
    simp only [Bool.and_eq_true]
    refine ⟨⟨hlt.2 ?_, (lt_fin eps_isFin fP').2 ?_⟩, (lt_fin eps_isFin fQ').2 ?_⟩
    · have h2 := abs_sub_abs_le_abs_sub (toReal ((distance a p + distance p b) - distance a b)) 0
      rw [hadd, sub_self, sub_zero] at eX
      generalize |toReal ((distance a p + distance p b) - distance a b)| = X at *
      generalize dst (rpos a) (rpos b) = A at *
      rw [hu] at eX
      norm_num at *
      linarith
    · rw [aP, toReal_eps, abs_of_nonneg P0]
      obtain ⟨e1, e2⟩ := abs_le.1 eP
      norm_num at *
      linarith
    · rw [aQ, toReal_eps, abs_of_nonneg Q0]
      obtain ⟨e1, e2⟩ := abs_le.1 eQ
      norm_num at *
      linarith

/-- **C93, longer edges.** (1, 2) is exactly on the segment from (0, 0) to (3, 6), far from both ends, and is not accepted. -/
theorem C93_counterexample :
    let a : Vec2 F32 := ⟨F32.lit 0, F32.lit 0⟩
    let b : Vec2 F32 := ⟨F32.lit 3, F32.lit 6⟩
    let p : Vec2 F32 := ⟨F32.lit 1, F32.lit 2⟩
    OnSegR (rpos a) (rpos b) (rpos p) ∧ ∀ f, isOnLineSegment a b p f = false := by
  refine ⟨⟨1 / 3, by norm_num, by norm_num, ?_⟩, ?_⟩
  · have e : toRat (F32.lit 0) = 0 ∧ toRat (F32.lit 3) = 3 ∧ toRat (F32.lit 6) = 6 ∧ toRat (F32.lit 1) = 1 ∧
        toRat (F32.lit 2) = 2 := by decide +kernel
    simp only [rpos, e]
    norm_num
  · decide +kernel

/-! ### instances -/

theorem small_of {x : F32} (h : (match x with | .fin _ _ => true | _ => false) = true) (hb : |toRat x| ≤ 2 ^ 60) :
    SmallNum x := by
  refine ⟨?_, hb⟩
  cases x with
  | nan => cases h
  | inf s => cases h
  | fin s n => exact ⟨s, n, rfl⟩

/-- the points of the examples: (0, 0), (0.1, 0.7), (4, 4), (0, 4), (4, 0), (2^-7, 0), (2^-6, 0) -/
def exPts : List (Vec2 F32) :=
  [⟨F32.lit 0, F32.lit 0⟩, ⟨F32.lit 1 10, F32.lit 7 10⟩, ⟨F32.lit 4, F32.lit 4⟩, ⟨F32.lit 0, F32.lit 4⟩,
   ⟨F32.lit 4, F32.lit 0⟩, ⟨F32.lit 1 128, F32.lit 0⟩, ⟨F32.lit 1 64, F32.lit 0⟩]

theorem exPts_small : ∀ v ∈ exPts, SmallPt v := by
  intro v hv
  simp only [exPts, List.mem_cons, List.not_mem_nil, or_false] at hv
  rcases hv with rfl | rfl | rfl | rfl | rfl | rfl | rfl <;>
    exact ⟨small_of (by decide +kernel) (by decide +kernel), small_of (by decide +kernel) (by decide +kernel)⟩

theorem exPts_rat : exPts.map (fun v => (toRat v.x, toRat v.y)) =
    [(0, 0), (13421773 / 134217728, 11744051 / 16777216), (4, 4), (0, 4), (4, 0), (1 / 128, 0), (1 / 64, 0)] := by
  decide +kernel

theorem exPts_rpos : exPts.map rpos =
    [(0, 0), (13421773 / 134217728, 11744051 / 16777216), (4, 4), (0, 4), (4, 0), (1 / 128, 0), (1 / 64, 0)] := by
  have h := congrArg (List.map (fun v : ℚ × ℚ => ((v.1 : ℝ), (v.2 : ℝ)))) exPts_rat
  rw [List.map_map] at h
  refine Eq.trans ?_ (h.trans ?_)
  · rfl
  · norm_num

example : |(toRat (distance exPts[0] exPts[1]) : ℝ) - dst (rpos exPts[0]) (rpos exPts[1])| ≤
    dst (rpos exPts[0]) (rpos exPts[1]) / 2 ^ 21 + 1 / 2 ^ 73 :=
  (C90_distance (exPts_small _ (by simp [exPts])) (exPts_small _ (by simp [exPts]))).2.2

example : IsFin (calculateMidpoint exPts[0] exPts[1]).x := by
  refine (C91_midpoint ⟨(exPts_small exPts[0] (by simp [exPts])).1.1, (exPts_small exPts[0] (by simp [exPts])).2.1⟩
    ⟨(exPts_small exPts[1] (by simp [exPts])).1.1, (exPts_small exPts[1] (by simp [exPts])).2.1⟩ ?_ ?_).1
  · have h := exPts_rpos
    simp only [exPts, List.map_cons, List.map_nil, List.cons.injEq, rpos, Prod.mk.injEq] at h
    simp only [exPts, List.getElem_cons_zero, List.getElem_cons_succ]
    rw [h.1.1, h.2.1.1]; norm_num
  · have h := exPts_rpos
    simp only [exPts, List.map_cons, List.map_nil, List.cons.injEq, rpos, Prod.mk.injEq] at h
    simp only [exPts, List.getElem_cons_zero, List.getElem_cons_succ]
    rw [h.1.2, h.2.1.2]; norm_num

theorem ex_at (i : Nat) (hi : i < exPts.length) (q : ℝ × ℝ)
    (h : ([(0, 0), (13421773 / 134217728, 11744051 / 16777216), (4, 4), (0, 4), (4, 0), (1 / 128, 0), (1 / 64, 0)] :
      List (ℝ × ℝ))[i]? = some q) : rpos exPts[i] = q := by
  rw [← exPts_rpos, List.getElem?_map, List.getElem?_eq_getElem hi] at h
  simpa using h

/-- the diagonals of the square (0, 0), (4, 4) meet in the middle -/
example : ∃ q, calculateLineSegmentIntersection exPts[0] exPts[2] exPts[3] exPts[4] = some q ∧ IsFin q.x ∧
    |(rpos q).1 - 2| ≤ 1 / 2 ^ 12 := by
  have e0 := ex_at 0 (by decide) _ rfl
  have e2 := ex_at 2 (by decide) _ rfl
  have e3 := ex_at 3 (by decide) _ rfl
  have e4 := ex_at 4 (by decide) _ rfl
  obtain ⟨q, h1, h2, _, h3, _⟩ := C92_crossing (a := exPts[0]) (b := exPts[2]) (c := exPts[3]) (d := exPts[4])
    (t := 1 / 2) (s := 1 / 2) (B := 4)
    (exPts_small _ (by simp [exPts])) (exPts_small _ (by simp [exPts])) (exPts_small _ (by simp [exPts]))
    (exPts_small _ (by simp [exPts])) (by rw [e0, e2, e3, e4]) (by rw [e0, e2, e3, e4]; norm_num)
    (by rw [e0, e2, e3, e4]; norm_num [crs]) (by rw [e0, e2, e3, e4]; norm_num [segErr, segMass, crs])
    (by rw [e0, e2, e3, e4]; norm_num [segErr, segMass, crs]) (by rw [e0, e2, e3, e4]; norm_num [segErr, segMass, crs])
    (by rw [e0, e2]; norm_num)
  refine ⟨q, h1, h2, ?_⟩
  rw [e0, e2, e3, e4] at h3
  norm_num [segErr, segMass, crs] at h3 ⊢
  linarith

/-- the segment from (0, 0) to (1/64, 0) does not reach the segment from (4, 4) to (4, 0) -/
example : calculateLineSegmentIntersection exPts[0] exPts[6] exPts[2] exPts[4] = none := by
  have e0 := ex_at 0 (by decide) _ rfl
  have e6 := ex_at 6 (by decide) _ rfl
  have e2 := ex_at 2 (by decide) _ rfl
  have e4 := ex_at 4 (by decide) _ rfl
  refine C92_apart (t := 256) (s := 1)
    (exPts_small _ (by simp [exPts])) (exPts_small _ (by simp [exPts])) (exPts_small _ (by simp [exPts]))
    (exPts_small _ (by simp [exPts])) (by rw [e0, e2, e6, e4]; norm_num) (by rw [e0, e2, e6, e4]; norm_num)
    (by rw [e0, e2, e6, e4]; norm_num [crs]) (by rw [e0, e2, e6, e4]; norm_num [segErr, segMass, crs])
    (Or.inr (Or.inl ?_))
  rw [e0, e2, e6, e4]; norm_num [segErr, segMass, crs]

example : isOnLineSegment exPts[0] exPts[6] exPts[5] false = true := by
  have e0 := ex_at 0 (by decide) _ rfl
  have e6 := ex_at 6 (by decide) _ rfl
  have e5 := ex_at 5 (by decide) _ rfl
  refine (C93_on_segment (exPts_small _ (by simp [exPts])) (exPts_small _ (by simp [exPts]))
    (exPts_small _ (by simp [exPts])) false).2 ?_ ?_ ?_ ?_
  · rw [e0, e6, e5]; exact ⟨1 / 2, by norm_num, by norm_num, by norm_num⟩
  · rw [e0, e6]; unfold dst; rw [Real.sqrt_le_iff]; norm_num
  · rw [e0, e5]; unfold dst; apply Real.le_sqrt_of_sq_le; norm_num
  · rw [e6, e5]; unfold dst; apply Real.le_sqrt_of_sq_le; norm_num

end Kami.DistF32
