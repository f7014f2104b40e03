import Verif.Geom.UtilsModel
import Verif.Num.XReal
import Mathlib.Analysis.SpecialFunctions.Sqrt
import Mathlib.Tactic.LinearCombination
import Mathlib.Tactic.FieldSimp
/-!
# C36-C44, C48: the geometric helpers of `utils.rs`, exact arithmetic with IEEE special values

Specification: points are pairs of reals; Euclidean distance, dot and cross product are written out in coordinates.
-/

set_option autoImplicit false

namespace Kami.UtilThm

open Kami Kami.Utils

noncomputable section

/-! ### Specification -/

/-- Euclidean distance -/
def dst (p q : ℝ × ℝ) : ℝ := Real.sqrt ((q.1 - p.1) ^ 2 + (q.2 - p.2) ^ 2)

/-- cross product of `q - p` and `s - r` -/
def crs (p q r s : ℝ × ℝ) : ℝ := (q.1 - p.1) * (s.2 - r.2) - (s.1 - r.1) * (q.2 - p.2)

/-- dot product of `q - p` and `s - r` -/
def dt (p q r s : ℝ × ℝ) : ℝ := (q.1 - p.1) * (s.1 - r.1) + (q.2 - p.2) * (s.2 - r.2)

/-- `p` is on the closed segment `ab` -/
def OnSegR (a b p : ℝ × ℝ) : Prop :=
  ∃ t : ℝ, 0 ≤ t ∧ t ≤ 1 ∧ p = (a.1 + t * (b.1 - a.1), a.2 + t * (b.2 - a.2))

/-- `p` is on the line through `a` and `b` -/
def OnLineR (a b p : ℝ × ℝ) : Prop := ∃ t : ℝ, p = (a.1 + t * (b.1 - a.1), a.2 + t * (b.2 - a.2))

/-- the three points are on one line -/
def Collinear3 (a b c : ℝ × ℝ) : Prop :=
  ∃ p d : ℝ × ℝ, ∃ x y z : ℝ, a = (p.1 + x * d.1, p.2 + x * d.2) ∧ b = (p.1 + y * d.1, p.2 + y * d.2) ∧
    c = (p.1 + z * d.1, p.2 + z * d.2)

/-! ### distance -/

theorem dst_nonneg (p q : ℝ × ℝ) : 0 ≤ dst p q := Real.sqrt_nonneg _

theorem dst_sq (p q : ℝ × ℝ) : dst p q ^ 2 = (q.1 - p.1) ^ 2 + (q.2 - p.2) ^ 2 :=
  Real.sq_sqrt (by positivity)

theorem dst_comm (p q : ℝ × ℝ) : dst p q = dst q p := by unfold dst; congr 1; ring

theorem dst_eq_zero {p q : ℝ × ℝ} : dst p q = 0 ↔ p = q := by
  constructor
  · intro h
    have h2 := dst_sq p q
    rw [h] at h2
    have h1 : q.1 - p.1 = 0 := by nlinarith [sq_nonneg (q.1 - p.1), sq_nonneg (q.2 - p.2)]
    have h3 : q.2 - p.2 = 0 := by nlinarith [sq_nonneg (q.1 - p.1), sq_nonneg (q.2 - p.2)]
    exact Prod.ext (by linarith) (by linarith)
  · rintro rfl; simp [dst]

theorem dst_pos {p q : ℝ × ℝ} (h : p ≠ q) : 0 < dst p q :=
  lt_of_le_of_ne (dst_nonneg p q) (fun h0 => h (dst_eq_zero.1 h0.symm))

/-- Cauchy-Schwarz -/
theorem dt_le (a b c d : ℝ × ℝ) : |dt a b c d| ≤ dst a b * dst c d := by
  apply abs_le_of_sq_le_sq _ (mul_nonneg (dst_nonneg _ _) (dst_nonneg _ _))
  rw [mul_pow, dst_sq, dst_sq]
  unfold dt
  nlinarith [sq_nonneg ((b.1 - a.1) * (d.2 - c.2) - (d.1 - c.1) * (b.2 - a.2))]

theorem dst_triangle (a b c : ℝ × ℝ) : dst a c ≤ dst a b + dst b c := by
  apply le_of_sq_le_sq _ (add_nonneg (dst_nonneg _ _) (dst_nonneg _ _))
  have h := (abs_le.1 (dt_le a b b c)).2
  have e : (dst a b + dst b c) ^ 2 = dst a b ^ 2 + dst b c ^ 2 + 2 * (dst a b * dst b c) := by ring
  rw [e, dst_sq, dst_sq, dst_sq]
  unfold dt at h
  nlinarith

theorem distance_pt (p q : ℝ × ℝ) : distance (pt p) (pt q) = .fin (dst p q) := by
  unfold distance Vec2.norm Vec2.dot Vec2.sub
  simp only [pt_x, pt_y, XReal.fin_sub, XReal.fin_mul, XReal.fin_add]
  rw [XReal.fin_sqrt _ (by nlinarith [mul_self_nonneg (q.1 - p.1), mul_self_nonneg (q.2 - p.2)])]
  unfold dst
  congr 2
  ring

/-! ## C36 -/

/-- C36: zero vectors are parallel to nothing; parallel non-zero vectors are recognised; and whatever is recognised has a
sine (cross product over the product of the lengths) below `sqrt (2 eps)`. -/
theorem C36_parallel (a b c d : ℝ × ℝ) :
    ((a = b ∨ c = d) → parallel (pt a) (pt b) (pt c) (pt d) = false) ∧
    (a ≠ b → c ≠ d → crs a b c d = 0 → parallel (pt a) (pt b) (pt c) (pt d) = true) ∧
    (parallel (pt a) (pt b) (pt c) (pt d) = true →
      |crs a b c d| / (dst a b * dst c d) < Real.sqrt (2 * XReal.epsR)) := by
  have hn : ∀ p q : ℝ × ℝ, ((pt q).sub (pt p)).norm = .fin (dst p q) := fun p q => distance_pt p q
  have hnan : ∀ p : ℝ × ℝ, ((pt p).sub (pt p)).normalize = ⟨.nan, .nan⟩ := by
    intro p
    unfold Vec2.normalize
    rw [hn, dst_eq_zero.2 rfl]
    simp [Vec2.sub, XReal.fin_div_zero]
  have hfin : ∀ p q : ℝ × ℝ, p ≠ q →
      ((pt q).sub (pt p)).normalize = ⟨.fin ((q.1 - p.1) / dst p q), .fin ((q.2 - p.2) / dst p q)⟩ := by
    intro p q h
    unfold Vec2.normalize
    rw [hn]
    simp [Vec2.sub, XReal.fin_div _ _ (dst_pos h).ne']
  have hmain : a ≠ b → c ≠ d → parallel (pt a) (pt b) (pt c) (pt d) =
      decide (|(|dt a b c d / (dst a b * dst c d)| - 1)| < XReal.epsR) := by
    intro h1 h2
    unfold parallel normalizeDot
    simp only []
    rw [hfin a b h1, hfin c d h2]
    simp only [Vec2.dot, XReal.fin_mul, XReal.fin_add, XReal.fin_abs, XReal.fin_one, XReal.fin_sub, XReal.eps_def,
      XReal.fin_lt]
    have p1 := (dst_pos h1).ne'
    have p2 := (dst_pos h2).ne'
    have e : (b.1 - a.1) / dst a b * ((d.1 - c.1) / dst c d) + (b.2 - a.2) / dst a b * ((d.2 - c.2) / dst c d) =
        dt a b c d / (dst a b * dst c d) := by
      unfold dt; field_simp
    rw [e]
  refine ⟨?_, ?_, ?_⟩
  · have hn1 : ∀ x : XReal, (XReal.nan : XReal) * x = .nan := by intro x; cases x <;> rfl
    have hn2 : ∀ x : XReal, x * (XReal.nan : XReal) = .nan := by intro x; cases x <;> rfl
    have hn3 : ∀ x : XReal, (XReal.nan : XReal) + x = .nan := by intro x; cases x <;> rfl
    have hn4 : OrdScalar.abs (XReal.nan) = .nan := rfl
    have hn5 : ∀ x : XReal, (XReal.nan : XReal) - x = .nan := by intro x; cases x <;> rfl
    rintro (rfl | rfl)
    · unfold parallel normalizeDot
      simp only [hnan, Vec2.dot, hn1, hn3, hn4, hn5, XReal.nan_lt]
    · unfold parallel normalizeDot
      simp only [hnan, Vec2.dot, hn2, hn3, hn4, hn5, XReal.nan_lt]
  · intro h1 h2 h3
    rw [hmain h1 h2, decide_eq_true_eq]
    have e : dt a b c d ^ 2 = (dst a b * dst c d) ^ 2 := by
      rw [mul_pow, dst_sq, dst_sq]
      unfold dt
      unfold crs at h3
      linear_combination (-(((b.1 - a.1) * (d.2 - c.2) - (d.1 - c.1) * (b.2 - a.2)))) * h3
    have hp := mul_pos (dst_pos h1) (dst_pos h2)
    have e2 : |dt a b c d| = dst a b * dst c d := by
      have := (sq_eq_sq_iff_abs_eq_abs _ _).1 e
      rwa [abs_of_pos hp] at this
    rw [abs_div, abs_of_pos hp, e2, div_self hp.ne', sub_self, abs_zero]
    exact XReal.epsR_pos
  · intro h
    by_cases h1 : a = b
    · subst h1
      simp only [crs, sub_self, zero_mul, mul_zero, abs_zero, zero_div]
      exact Real.sqrt_pos.2 (by have := XReal.epsR_pos; linarith)
    by_cases h2 : c = d
    · subst h2
      simp only [crs, sub_self, zero_mul, mul_zero, abs_zero, zero_div]
      exact Real.sqrt_pos.2 (by have := XReal.epsR_pos; linarith)
    rw [hmain h1 h2, decide_eq_true_eq] at h
    have hp := mul_pos (dst_pos h1) (dst_pos h2)
    apply Real.lt_sqrt_of_sq_lt
    have e : (|crs a b c d| / (dst a b * dst c d)) ^ 2 = 1 - |dt a b c d / (dst a b * dst c d)| ^ 2 := by
      rw [sq_abs, div_pow, div_pow, sq_abs, eq_sub_iff_add_eq, ← add_div, div_eq_one_iff_eq (by positivity), mul_pow,
        dst_sq, dst_sq]
      unfold crs dt; ring
    rw [e]
    have hle : |dt a b c d / (dst a b * dst c d)| ≤ 1 := by
      rw [abs_div, abs_of_pos hp, div_le_one hp]
      exact dt_le a b c d
    have h0 := abs_nonneg (dt a b c d / (dst a b * dst c d))
    generalize |dt a b c d / (dst a b * dst c d)| = z at *
    have := (abs_lt.1 h).1
    nlinarith

example : ((0, 0) : ℝ × ℝ) ≠ (1, 2) ∧ ((5, 5) : ℝ × ℝ) ≠ (3, 1) ∧ crs (0, 0) (1, 2) (5, 5) (3, 1) = 0 := by
  refine ⟨by simp, by simp, by norm_num [crs]⟩

/-! ## C37 -/

theorem crs_zero_iff (a b c : ℝ × ℝ) : crs a b a c = 0 ↔ Collinear3 a b c := by
  constructor
  · intro h
    by_cases hab : a = b
    · subst hab
      exact ⟨a, (c.1 - a.1, c.2 - a.2), 0, 0, 1, by ext <;> simp, by ext <;> simp, by ext <;> simp⟩
    · unfold crs at h
      have h2 : 0 < dst a b ^ 2 := by have := dst_pos hab; positivity
      rw [dst_sq] at h2
      refine ⟨a, (b.1 - a.1, b.2 - a.2), 0, 1,
        ((c.1 - a.1) * (b.1 - a.1) + (c.2 - a.2) * (b.2 - a.2)) / ((b.1 - a.1) ^ 2 + (b.2 - a.2) ^ 2),
        by ext <;> simp, by ext <;> simp, ?_⟩
      ext
      · simp only
        field_simp
        linear_combination (-(b.2 - a.2)) * h
      · simp only
        field_simp
        linear_combination (b.1 - a.1) * h
  · rintro ⟨p, d, x, y, z, rfl, rfl, rfl⟩
    unfold crs; simp only; ring

theorem dst_add_le_iff (a b c : ℝ × ℝ) : dst a b + dst b c ≤ dst a c ↔ crs a b b c = 0 ∧ 0 ≤ dt a b b c := by
  have n1 := dst_nonneg a b
  have n2 := dst_nonneg b c
  have n3 := dst_nonneg a c
  have s1 := dst_sq a b
  have s2 := dst_sq b c
  have s3 := dst_sq a c
  have key : dst a c ^ 2 = dst a b ^ 2 + dst b c ^ 2 + 2 * dt a b b c := by
    rw [s1, s2, s3]; unfold dt; ring
  have lag : dt a b b c ^ 2 + crs a b b c ^ 2 = (dst a b * dst b c) ^ 2 := by
    rw [mul_pow, s1, s2]; unfold dt crs; ring
  constructor
  · intro h
    have h2 : (dst a b + dst b c) ^ 2 ≤ dst a c ^ 2 := pow_le_pow_left₀ (by positivity) h 2
    have h3 : dst a b * dst b c ≤ dt a b b c := by nlinarith
    have h4 : 0 ≤ dst a b * dst b c := mul_nonneg n1 n2
    have h5 : (dst a b * dst b c) ^ 2 ≤ dt a b b c ^ 2 := pow_le_pow_left₀ h4 h3 2
    exact ⟨pow_eq_zero_iff (n := 2) (by norm_num) |>.1 (by nlinarith [sq_nonneg (crs a b b c)]), by linarith⟩
  · rintro ⟨h1, h2⟩
    rw [h1] at lag
    have h3 : dt a b b c = dst a b * dst b c := by
      have := (sq_eq_sq₀ h2 (mul_nonneg n1 n2)).1 (by linarith)
      exact this
    apply le_of_sq_le_sq _ n3
    rw [key, h3]; nlinarith

/-- C37: `is_degenerate_triangle` is true exactly for three points on one line. -/
theorem C37_degenerate (a b c : ℝ × ℝ) :
    isDegenerateTriangle (pt a) (pt b) (pt c) = true ↔ Collinear3 a b c := by
  rw [← crs_zero_iff]
  unfold isDegenerateTriangle
  simp only [distance_pt, XReal.fin_add, XReal.fin_le, Bool.or_eq_true, decide_eq_true_eq]
  have e1 : dst b c + dst a c ≤ dst a b ↔ crs a c c b = 0 ∧ 0 ≤ dt a c c b := by
    rw [← dst_add_le_iff a c b, dst_comm c b, add_comm]
  have e2 : dst b c + dst a b ≤ dst a c ↔ crs a b b c = 0 ∧ 0 ≤ dt a b b c := by
    rw [← dst_add_le_iff a b c, add_comm]
  have e3 : dst a c + dst a b ≤ dst b c ↔ crs b a a c = 0 ∧ 0 ≤ dt b a a c := by
    rw [← dst_add_le_iff b a c, dst_comm b a, add_comm]
  rw [e1, e2, e3]
  have c1 : crs a c c b = -crs a b a c := by unfold crs; ring
  have c2 : crs a b b c = crs a b a c := by unfold crs; ring
  have c3 : crs b a a c = -crs a b a c := by unfold crs; ring
  rw [c1, c2, c3, neg_eq_zero]
  constructor
  · tauto
  · intro h
    by_contra hc
    push Not at hc
    obtain ⟨⟨h1, h2⟩, h3⟩ := hc
    have h1 := h1 h
    have h2 := h2 h
    have h3 := h3 h
    unfold dt at h1 h2 h3
    unfold crs at h
    set u := c.1 - a.1
    set v := c.2 - a.2
    set p := b.1 - a.1
    set q := b.2 - a.2
    have k1 : (b.1 - c.1) = p - u := by simp [p, u]
    have k2 : (b.2 - c.2) = q - v := by simp [q, v]
    have k3 : (c.1 - b.1) = u - p := by simp [p, u]
    have k4 : (c.2 - b.2) = v - q := by simp [q, v]
    have k5 : (a.1 - b.1) = -p := by simp [p]
    have k6 : (a.2 - b.2) = -q := by simp [q]
    rw [k1, k2] at h1
    rw [k3, k4] at h2
    rw [k5, k6] at h3
    -- with `x = u.p`, `U = |u|²`, `P = |p|²`: `x < U`, `x < P`, `x > 0`, `x² = U P`
    have hx : (u * p + v * q) ^ 2 = (u ^ 2 + v ^ 2) * (p ^ 2 + q ^ 2) := by
      linear_combination (-(p * v - u * q)) * h
    nlinarith

/-! ## C38 -/

theorem heron (a b c : ℝ × ℝ) :
    (dst b c + dst a c + dst a b) * (1 / 2) * ((dst b c + dst a c + dst a b) * (1 / 2) - dst b c) *
      ((dst b c + dst a c + dst a b) * (1 / 2) - dst a c) * ((dst b c + dst a c + dst a b) * (1 / 2) - dst a b) =
    (crs a b a c / 2) ^ 2 := by
  have s1 := dst_sq b c
  have s2 := dst_sq a c
  have s3 := dst_sq a b
  have e : (dst b c + dst a c + dst a b) * (1 / 2) * ((dst b c + dst a c + dst a b) * (1 / 2) - dst b c) *
      ((dst b c + dst a c + dst a b) * (1 / 2) - dst a c) * ((dst b c + dst a c + dst a b) * (1 / 2) - dst a b) =
      (2 * (dst b c ^ 2 * dst a c ^ 2 + dst a c ^ 2 * dst a b ^ 2 + dst a b ^ 2 * dst b c ^ 2) -
        (dst b c ^ 2) ^ 2 - (dst a c ^ 2) ^ 2 - (dst a b ^ 2) ^ 2) / 16 := by ring
  rw [e, s1, s2, s3]; unfold crs; ring

theorem ratio (x y C S : ℝ) (hC : 0 < C) (hS : 0 < S) (h : x * S = y * C) : |x| / C = |y| / S := by
  rw [div_eq_div_iff hC.ne' hS.ne']
  have := congrArg abs h
  rwa [abs_mul, abs_mul, abs_of_pos hC, abs_of_pos hS] at this

/-- C38: `None` exactly for collinear points; otherwise the returned point is a strict convex combination of the corners
and its distance to each of the three side lines is the returned, positive radius. -/
theorem C38_incenter (a b c : ℝ × ℝ) :
    (calculateTriangleIncenter (pt a) (pt b) (pt c) = none ↔ Collinear3 a b c) ∧
    (¬ Collinear3 a b c → ∃ (i : ℝ × ℝ) (r : ℝ), calculateTriangleIncenter (pt a) (pt b) (pt c) = some (pt i, .fin r) ∧
      0 < r ∧
      (∃ x y z : ℝ, 0 < x ∧ 0 < y ∧ 0 < z ∧ x + y + z = 1 ∧
        i = (x * a.1 + y * b.1 + z * c.1, x * a.2 + y * b.2 + z * c.2)) ∧
      |crs a b a i| / dst a b = r ∧ |crs b c b i| / dst b c = r ∧ |crs c a c i| / dst c a = r) := by
  have hdeg := C37_degenerate a b c
  have hsome : ¬ Collinear3 a b c → ∃ (i : ℝ × ℝ) (r : ℝ),
      calculateTriangleIncenter (pt a) (pt b) (pt c) = some (pt i, .fin r) ∧
      0 < r ∧
      (∃ x y z : ℝ, 0 < x ∧ 0 < y ∧ 0 < z ∧ x + y + z = 1 ∧
        i = (x * a.1 + y * b.1 + z * c.1, x * a.2 + y * b.2 + z * c.2)) ∧
      |crs a b a i| / dst a b = r ∧ |crs b c b i| / dst b c = r ∧ |crs c a c i| / dst c a = r := by
    intro hnc
    have hcr : crs a b a c ≠ 0 := fun h => hnc ((crs_zero_iff a b c).1 h)
    have hab : a ≠ b := by rintro rfl; apply hcr; unfold crs; ring
    have hac : a ≠ c := by rintro rfl; apply hcr; unfold crs; ring
    have hbc : b ≠ c := by rintro rfl; apply hcr; unfold crs; ring
    have pA := dst_pos hbc
    have pB := dst_pos hac
    have pC := dst_pos hab
    have hS : 0 < dst b c + dst a c + dst a b := by positivity
    have hd : isDegenerateTriangle (pt a) (pt b) (pt c) = false := by
      rw [← Bool.not_eq_true]; exact fun h => hnc (hdeg.1 h)
    set A := dst b c with hA
    set B := dst a c with hB
    set C := dst a b with hC
    refine ⟨((A * a.1 + B * b.1 + C * c.1) * (1 / (A + B + C)), (A * a.2 + B * b.2 + C * c.2) * (1 / (A + B + C))),
      |crs a b a c| / (A + B + C), ?_, by positivity, ?_, ?_, ?_, ?_⟩
    · unfold calculateTriangleIncenter
      rw [hd]
      simp only [Bool.false_eq_true, if_false, distance_pt, XReal.fin_add, pt_x, pt_y, XReal.fin_mul, XReal.fin_sub,
        XReal.fin_half, XReal.fin_one, ← hA, ← hB, ← hC]
      rw [XReal.fin_div _ _ hS.ne', hA, hB, hC, heron a b c, XReal.fin_sqrt _ (sq_nonneg _), Real.sqrt_sq_eq_abs,
        XReal.fin_div _ _ (by rw [← hA, ← hB, ← hC]; positivity), ← hA, ← hB, ← hC]
      simp only [Option.some.injEq, Prod.mk.injEq, XReal.fin.injEq]
      refine ⟨?_, ?_⟩
      · simp [pt, XReal.fin_mul]
      · rw [abs_div, abs_two]; field_simp
    · refine ⟨A / (A + B + C), B / (A + B + C), C / (A + B + C), by positivity, by positivity, by positivity, ?_, ?_⟩
      · field_simp
      · ext <;> simp only <;> field_simp
    · apply ratio _ _ _ _ pC hS
      unfold crs; simp only; field_simp; ring
    · apply ratio _ _ _ _ pA hS
      unfold crs; simp only; field_simp; ring
    · rw [dst_comm c a]
      apply ratio _ _ _ _ pB hS
      unfold crs; simp only; field_simp; ring
  refine ⟨⟨fun h => ?_, fun h => ?_⟩, hsome⟩
  · by_contra hnc
    obtain ⟨i, r, hi, _⟩ := hsome hnc
    rw [h] at hi; cases hi
  · unfold calculateTriangleIncenter
    rw [if_pos (hdeg.2 h)]

example : ¬ Collinear3 (0, 0) (4, 0) (0, 3) := by
  rw [← crs_zero_iff]; norm_num [crs]

end

end Kami.UtilThm
