import Verif.Graph.Relate
import Verif.Geom.UtilsExact2
/-!
# C143 in exact arithmetic: the graph code commutes with every isometry of the plane
-/

set_option autoImplicit false

namespace Kami.Graph

open Kami Kami.UtilThm
open scoped Kami
open PlanarGraph

noncomputable section

/-- the map keeps all distances -/
def IsIsometry (φ : ℝ × ℝ → ℝ × ℝ) : Prop := ∀ p q, dst (φ p) (φ q) = dst p q

/-- `w` is the image of `v`, both with finite coordinates -/
def Image (φ : ℝ × ℝ → ℝ × ℝ) (v w : Vec2 XReal) : Prop := ∃ p, v = pt p ∧ w = pt (φ p)

/-- the point at parameter `t` between `a` and `b` -/
def between' (a b : ℝ × ℝ) (t : ℝ) : ℝ × ℝ := (a.1 + t * (b.1 - a.1), a.2 + t * (b.2 - a.2))

theorem dst_between' (a b : ℝ × ℝ) {t : ℝ} (h0 : 0 ≤ t) (h1 : t ≤ 1) :
    dst a (between' a b t) = t * dst a b ∧ dst (between' a b t) b = (1 - t) * dst a b := by
  constructor
  · rw [← abs_of_nonneg (mul_nonneg h0 (dst_nonneg a b)), ← abs_of_nonneg (dst_nonneg a (between' a b t)), ← sq_eq_sq_iff_abs_eq_abs,
      mul_pow, dst_sq, dst_sq]
    unfold between'; ring
  · rw [← abs_of_nonneg (mul_nonneg (by linarith : 0 ≤ 1 - t) (dst_nonneg a b)), ← abs_of_nonneg (dst_nonneg (between' a b t) b),
      ← sq_eq_sq_iff_abs_eq_abs, mul_pow, dst_sq, dst_sq]
    unfold between'; ring

/-- the two distances from the ends determine the point between them -/
theorem eq_between' {a b p : ℝ × ℝ} {t : ℝ} (h1 : dst a p = t * dst a b) (h2 : dst p b = (1 - t) * dst a b) : p = between' a b t := by
  have s1 : dst a p ^ 2 = t ^ 2 * dst a b ^ 2 := by rw [h1]; ring
  have s2 : dst p b ^ 2 = (1 - t) ^ 2 * dst a b ^ 2 := by rw [h2]; ring
  have : dst p (between' a b t) ^ 2 = 0 := by
    rw [dst_sq] at s1 s2 ⊢
    rw [dst_sq] at s1 s2
    unfold between'
    simp only
    linear_combination (1 - t) * s1 + t * s2
  exact dst_eq_zero.1 (pow_eq_zero_iff (two_ne_zero) |>.1 this)

theorem onSeg_dist (a b p : ℝ × ℝ) : OnSegR a b p ↔ dst a p + dst p b = dst a b := by
  constructor
  · rintro ⟨t, h0, h1, rfl⟩
    obtain ⟨e1, e2⟩ := dst_between' a b h0 h1
    unfold between' at e1 e2
    rw [e1, e2]; ring
  · intro h
    have n1 := dst_nonneg a p
    have n2 := dst_nonneg p b
    rcases (dst_nonneg a b).eq_or_lt with h0 | h0
    · have ha : dst a p = 0 := by linarith
      rw [dst_eq_zero.1 ha]
      exact ⟨0, le_refl _, zero_le_one, by simp⟩
    · refine ⟨dst a p / dst a b, by positivity, by rw [div_le_one h0]; linarith, ?_⟩
      refine eq_between' ?_ ?_
      · field_simp
      · field_simp
        linarith

theorem dt_dist (a b c d : ℝ × ℝ) : dt a b c d = (dst a d ^ 2 + dst b c ^ 2 - dst a c ^ 2 - dst b d ^ 2) / 2 := by
  simp only [dst_sq]
  unfold dt
  ring

theorem crs_dist (a b c d : ℝ × ℝ) : crs a b c d ^ 2 = dst a b ^ 2 * dst c d ^ 2 - dt a b c d ^ 2 := by
  simp only [dst_sq]
  unfold dt crs
  ring

variable {φ : ℝ × ℝ → ℝ × ℝ}

theorem IsIsometry.crs_ne (h : IsIsometry φ) (a b c d : ℝ × ℝ) : crs (φ a) (φ b) (φ c) (φ d) ≠ 0 ↔ crs a b c d ≠ 0 := by
  rw [← pow_ne_zero_iff two_ne_zero, ← pow_ne_zero_iff (a := crs a b c d) two_ne_zero, crs_dist, crs_dist, dt_dist, dt_dist]
  simp only [h _ _]

theorem IsIsometry.onSeg (h : IsIsometry φ) (a b p : ℝ × ℝ) : OnSegR (φ a) (φ b) (φ p) ↔ OnSegR a b p := by
  rw [onSeg_dist, onSeg_dist, h, h, h]

theorem IsIsometry.hits (h : IsIsometry φ) {a b q : ℝ × ℝ} (hq : OnSegR (φ a) (φ b) q) : ∃ p, φ p = q := by
  obtain ⟨t, h0, h1, rfl⟩ := hq
  obtain ⟨e1, e2⟩ := dst_between' a b h0 h1
  refine ⟨between' a b t, eq_between' ?_ ?_⟩
  · rw [h, h, e1]
  · rw [h, h, e2]

theorem IsIsometry.cross (h : IsIsometry φ) (a b c d : ℝ × ℝ) :
    OptRel (Image φ) (Utils.calculateLineSegmentIntersection (pt a) (pt b) (pt c) (pt d))
      (Utils.calculateLineSegmentIntersection (pt (φ a)) (pt (φ b)) (pt (φ c)) (pt (φ d))) := by
  by_cases h0 : crs a b c d = 0
  · rw [seg_parallel_none _ _ _ _ h0, seg_parallel_none _ _ _ _ (by by_contra h1; exact (h.crs_ne a b c d).1 h1 h0)]
    trivial
  · have h0' := (h.crs_ne a b c d).2 h0
    cases h1 : Utils.calculateLineSegmentIntersection (pt a) (pt b) (pt c) (pt d) with
    | none =>
      cases h2 : Utils.calculateLineSegmentIntersection (pt (φ a)) (pt (φ b)) (pt (φ c)) (pt (φ d)) with
      | none => trivial
      | some q =>
        obtain ⟨p, -, o1, o2, -⟩ := C39_sound _ _ _ _ _ h2
        obtain ⟨p, rfl⟩ := h.hits o1
        exact ((C40_complete_partial a b c d h0).1 h1 ⟨p, (h.onSeg _ _ _).1 o1, (h.onSeg _ _ _).1 o2⟩).elim
    | some q =>
      obtain ⟨p, rfl, o1, o2, -⟩ := C39_sound _ _ _ _ _ h1
      have o1' := (h.onSeg _ _ _).2 o1
      have o2' := (h.onSeg _ _ _).2 o2
      cases h2 : Utils.calculateLineSegmentIntersection (pt (φ a)) (pt (φ b)) (pt (φ c)) (pt (φ d)) with
      | none => exact ((C40_complete_partial _ _ _ _ h0').1 h2 ⟨φ p, o1', o2'⟩).elim
      | some q' =>
        obtain ⟨p', rfl, _, _, _, hu⟩ := C39_sound _ _ _ _ _ h2
        rw [← hu _ o1' o2']
        exact ⟨p, rfl, rfl⟩

theorem IsIsometry.preserves (h : IsIsometry φ) : Preserves (Image φ) := by
  refine ⟨?_, ?_⟩
  · rintro _ _ _ _ ⟨p, rfl, rfl⟩ ⟨q, rfl, rfl⟩
    rw [distance_pt, distance_pt, h]
  · rintro _ _ _ _ _ _ _ _ ⟨a, rfl, rfl⟩ ⟨b, rfl, rfl⟩ ⟨c, rfl, rfl⟩ ⟨d, rfl, rfl⟩
    exact h.cross a b c d

end

end Kami.Graph
