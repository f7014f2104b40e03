import Verif.Geom.PolygonBasics
import Mathlib.RingTheory.RootsOfUnity.Complex
import Mathlib.Analysis.SpecialFunctions.Trigonometric.Basic
/-!
# C30: regular polygons
-/

set_option autoImplicit false

namespace Kami.PolyThm

open Kami Kami.Pred

/-- real coordinates as a pair -/
def rv (p : ℝ × ℝ) : Vec2 ℝ := ⟨p.1, p.2⟩

theorem fanSum_xreal (a : ℝ × ℝ) (l : List (ℝ × ℝ)) (s : ℝ) :
    Polygon.fanSum (pt a) (l.map pt) (.fin s) = .fin (Polygon.fanSum (rv a) (l.map rv) s) := by
  induction l generalizing s with
  | nil => rfl
  | cons b l ih =>
    cases l with
    | nil => rfl
    | cons c l =>
      have h : area2 (pt a) (pt b) (pt c) = .fin (area2 (rv a) (rv b) (rv c)) := by
        simp [area2, rv]
      simp only [List.map_cons, Polygon.fanSum, h, XReal.fin_add] at ih ⊢
      rw [ih]

theorem areaPoly2_xreal (l : List (ℝ × ℝ)) : (xpoly l).areaPoly2 = .fin (shoelace (l.map rv)) := by
  rw [← areaPoly2_eq]
  cases l with
  | nil => rfl
  | cons a l => exact fanSum_xreal a l 0

/-- vertex `i` of the regular polygon -/
noncomputable def regVertex (n : Nat) (r : ℝ) (c : ℝ × ℝ) (i : Nat) : ℝ × ℝ :=
  (c.1 + r * Real.cos (2 * Real.pi * i / n), c.2 + r * Real.sin (2 * Real.pi * i / n))

theorem shoelace_range (n : Nat) (f : Nat → Vec2 ℝ) (k : ℝ)
    (h : ∀ i, i < n → crossTerm (f i) (f ((i + 1) % n)) = k) :
    shoelace ((List.range n).map f) = n * k := by
  have e : List.zipWith crossTerm ((List.range n).map f) (((List.range n).map f).rotate 1) =
      (List.replicate n k) := by
    apply List.ext_getElem
    · simp
    · intro i h1 h2
      simp only [List.length_zipWith, List.length_map, List.length_range, List.length_rotate, Nat.min_self] at h1
      simp [List.getElem_rotate, h i h1]
  unfold shoelace
  rw [e]; simp

theorem regular_shoelace (n : Nat) (hn : 3 ≤ n) (r : ℝ) (c : ℝ × ℝ) :
    shoelace (((List.range n).map (regVertex n r c)).map rv) = n * (r ^ 2 * Real.sin (2 * Real.pi / n)) := by
  have hn0 : (n : ℝ) ≠ 0 := by positivity
  have e : ((List.range n).map (regVertex n r c)).map rv =
      (((List.range n).map (fun i => rv (regVertex n r (0, 0) i))).map fun v => ⟨v.x + (rv c).x, v.y + (rv c).y⟩) := by
    simp only [List.map_map]
    apply List.map_congr_left
    intro i _
    simp [rv, regVertex, add_comm]
  rw [e, shoelace_translate]
  apply shoelace_range
  intro i hi
  have hs : ∀ j : ℝ, Real.sin (2 * Real.pi * (j + 1) / n - 2 * Real.pi * j / n) = Real.sin (2 * Real.pi / n) := by
    intro j; congr 1; field_simp; ring
  have key : ∀ x y : ℝ, r * Real.cos x * (r * Real.sin y) - r * Real.cos y * (r * Real.sin x)
      = r ^ 2 * Real.sin (y - x) := by intro x y; rw [Real.sin_sub]; ring
  simp only [crossTerm, rv, regVertex, zero_add]
  rcases Nat.lt_or_ge (i + 1) n with h | h
  · rw [Nat.mod_eq_of_lt h, key]
    push_cast
    rw [hs]
  · have hin : i + 1 = n := by omega
    have hmod : (i + 1) % n = 0 := by rw [hin, Nat.mod_self]
    rw [hmod, key]
    congr 1
    have hi' : (i : ℝ) = n - 1 := by rw [← hin]; push_cast; ring
    rw [hi']
    have : 2 * Real.pi * ((0 : ℕ) : ℝ) / n - 2 * Real.pi * ((n : ℝ) - 1) / n = 2 * Real.pi / n - 2 * Real.pi := by
      push_cast; field_simp; ring
    rw [this, Real.sin_sub_two_pi]

theorem sum_exp (n : Nat) (hn : 2 ≤ n) :
    ((List.range n).map fun i : Nat => Real.cos (2 * Real.pi * i / n)).sum = 0 ∧
    ((List.range n).map fun i : Nat => Real.sin (2 * Real.pi * i / n)).sum = 0 := by
  have hroot := (Complex.isPrimitiveRoot_exp n (by omega)).geom_sum_eq_zero (by omega : 1 < n)
  have hterm : ∀ i : Nat, Complex.exp (2 * Real.pi * Complex.I / n) ^ i =
      ⟨Real.cos (2 * Real.pi * i / n), Real.sin (2 * Real.pi * i / n)⟩ := by
    intro i
    rw [← Complex.exp_nat_mul]
    have : (i : ℂ) * (2 * Real.pi * Complex.I / n) = ((2 * Real.pi * i / n : ℝ) : ℂ) * Complex.I := by
      push_cast; ring
    rw [this]
    apply Complex.ext
    · rw [Complex.exp_ofReal_mul_I_re]
    · rw [Complex.exp_ofReal_mul_I_im]
  simp only [hterm] at hroot
  constructor
  · have h := congrArg Complex.re hroot
    simp only [Complex.re_sum, Complex.zero_re] at h
    rw [← List.sum_toFinset _ List.nodup_range, List.toFinset_range]
    exact h
  · have h := congrArg Complex.im hroot
    simp only [Complex.im_sum, Complex.zero_im] at h
    rw [← List.sum_toFinset _ List.nodup_range, List.toFinset_range]
    exact h

/-- C30: for at least 3 sides the regular polygon has its vertices, in this order, at the stated angles; each is at
distance |r| from the centre, the centroid is the centre, and the area is `n/2 r² sin(2π/n)`. -/
theorem C30_regular (n : Nat) (hn : 3 ≤ n) (r : ℝ) (c : ℝ × ℝ) :
    ∃ l : List (ℝ × ℝ), Polygon.regular n (.fin r) (pt c) = .ok (xpoly l) ∧ l.length = n ∧
      (∀ i, i < n → l[i]? = some (c.1 + r * Real.cos (2 * Real.pi * i / n), c.2 + r * Real.sin (2 * Real.pi * i / n))) ∧
      (∀ p ∈ l, (p.1 - c.1) ^ 2 + (p.2 - c.2) ^ 2 = r ^ 2) ∧
      (xpoly l).center = pt c ∧
      (xpoly l).area = .fin (n / 2 * r ^ 2 * Real.sin (2 * Real.pi / n)) := by
  have hn0 : (n : ℝ) ≠ 0 := by positivity
  have hsin : 0 ≤ Real.sin (2 * Real.pi / n) := by
    apply Real.sin_nonneg_of_nonneg_of_le_pi
    · positivity
    · rw [div_le_iff₀ (by positivity)]
      have : (2 : ℝ) ≤ n := by exact_mod_cast (by omega : 2 ≤ n)
      nlinarith [Real.pi_pos]
  have hsh := regular_shoelace n hn r c
  have hpos : 0 ≤ (n : ℝ) * (r ^ 2 * Real.sin (2 * Real.pi / n)) := by positivity
  refine ⟨(List.range n).map (regVertex n r c), ?_, by simp, ?_, ?_, ?_, ?_⟩
  · have e : (List.range n).map (fun i : Nat => (⟨(pt c).x + XReal.fin r *
        TrigScalar.cos (TrigScalar.two * TrigScalar.pi * (Scalar.ofNat i / Scalar.ofNat n)),
        (pt c).y + XReal.fin r * TrigScalar.sin (TrigScalar.two * TrigScalar.pi * (Scalar.ofNat i / Scalar.ofNat n))⟩ :
          Vec2 XReal)) = ((List.range n).map (regVertex n r c)).map pt := by
      rw [List.map_map]
      apply List.map_congr_left
      intro i _
      simp only [XReal.ofNat_def, XReal.fin_div _ _ hn0, XReal.two_def, XReal.pi_def, XReal.fin_mul, XReal.fin_cos,
        XReal.fin_sin, XReal.fin_add, Function.comp, pt, regVertex, mul_div_assoc]
    unfold Polygon.regular Polygon.newUnwrap Polygon.new
    simp only [e]
    rw [if_neg (by simp; omega)]
    have ha : (Polygon.mk (((List.range n).map (regVertex n r c)).map pt)).areaPoly2 = _ :=
      areaPoly2_xreal ((List.range n).map (regVertex n r c))
    rw [ha, hsh]
    simp only [XReal.fin_zero, XReal.fin_lt, decide_eq_true_eq]
    rw [if_neg (not_lt.2 hpos)]
    rfl
  · intro i hi
    simp [hi, regVertex]
  · intro p hp
    obtain ⟨i, _, rfl⟩ := List.mem_map.1 hp
    simp only [regVertex]
    have := Real.sin_sq_add_cos_sq (2 * Real.pi * i / n)
    linear_combination r ^ 2 * this
  · rw [center_eq _ (by intro h; have := congrArg List.length h; simp at this; omega)]
    congr 1
    obtain ⟨h1, h2⟩ := sum_exp n (by omega)
    have hsum : ∀ (g : Nat → ℝ) (a : ℝ) (m : List Nat),
        (m.map fun i => a + r * g i).sum = m.length * a + r * (m.map g).sum := by
      intro g a m
      induction m with
      | nil => simp
      | cons x m ih => simp only [List.map_cons, List.sum_cons, List.length_cons]; rw [ih]; push_cast; ring
    have e1 := hsum (fun i => Real.cos (2 * Real.pi * i / n)) c.1 (List.range n)
    have e2 := hsum (fun i => Real.sin (2 * Real.pi * i / n)) c.2 (List.range n)
    rw [h1] at e1
    rw [h2] at e2
    simp only [mean, List.map_map, Function.comp_def, regVertex, e1, e2, List.length_map, List.length_range]
    ext <;> simp only <;> field_simp <;> ring
  · unfold Polygon.area
    rw [areaPoly2_xreal, hsh]
    simp only [XReal.fin_abs, XReal.fin_half, XReal.fin_mul]
    rw [abs_of_nonneg hpos]
    congr 1; ring

/-- C30: for fewer than 3 sides the call panics, for any arithmetic. -/
theorem C30_panics {F : Type} [TrigScalar F] (n : Nat) (hn : n < 3) (r : F) (c : Vec2 F) :
    Polygon.regular n r c = .error .unwrapFailed := by
  unfold Polygon.regular Polygon.newUnwrap
  have : ∀ vs : List (Vec2 F), vs.length < 3 → Polygon.new vs = .error .Degenerate :=
    fun vs h => (C27_new_vertices vs).1.2 h
  simp only
  rw [this _ (by simpa using hn)]

example : 3 ≤ 17 := by norm_num

end Kami.PolyThm
