import Verif.Geom.UtilsLists
import Verif.Geom.UtilsExact2
/-!
# C43 and C47: exactly when the claim holds
-/

set_option autoImplicit false

namespace Kami
namespace UtilThm

open scoped Kami
open Utils

/-! ## C47 -/

/-- **C47, exact condition.** Every input point has a close point in the result of `unique_points_among` if and only if
every point is close to itself (its coordinates are finite) and no two points at different positions are close; the
result is then the whole input.  So the function keeps a representative of every cluster only where there is nothing to
filter out. -/
theorem C47_exact {F : Type} [Scalar F] [LawfulScalar F] (ps : List (Vec2 F)) :
    ((∀ p ∈ ps, ∃ q ∈ uniquePointsAmong ps, closeTo p q = true) ↔
      (∀ p ∈ ps, closeTo p p = true) ∧
        ∀ (i j : Nat) (a b : Vec2 F), ps[i]? = some a → ps[j]? = some b → i ≠ j → closeTo a b = false) ∧
    ((∀ p ∈ ps, ∃ q ∈ uniquePointsAmong ps, closeTo p q = true) → uniquePointsAmong ps = ps) := by
  have key : (∀ p ∈ ps, ∃ q ∈ uniquePointsAmong ps, closeTo p q = true) →
      ∀ (i : Nat) (a : Vec2 F), ps[i]? = some a → closeTo a a = true ∧
        ∀ (j : Nat) b, ps[j]? = some b → j ≠ i → closeTo a b = false := by
    intro h i a hi
    obtain ⟨q, hq, hc⟩ := h a (List.mem_of_getElem? hi)
    obtain ⟨k, hk, hl⟩ := ((C47_unique_partial ps).2.1 q).1 hq
    by_cases e : i = k
    · subst e
      rw [hi] at hk
      cases hk
      exact ⟨hc, hl⟩
    · rw [closeTo_symm, hl i a hi e] at hc
      cases hc
  have hall : (∀ p ∈ ps, ∃ q ∈ uniquePointsAmong ps, closeTo p q = true) →
      ∀ (i j : Nat) (a b : Vec2 F), ps[i]? = some a → ps[j]? = some b → i ≠ j → closeTo a b = false :=
    fun h i j a b hi hj hne => (key h i a hi).2 j b hj (Ne.symm hne)
  refine ⟨⟨fun h => ⟨?_, hall h⟩, ?_⟩, fun h => C47_nothing_dropped ps (hall h)⟩
  · intro p hp
    obtain ⟨i, hi⟩ := List.mem_iff_getElem?.1 hp
    exact (key h i p hi).1
  · rintro ⟨h1, h2⟩ p hp
    rw [C47_nothing_dropped ps h2]
    exact ⟨p, hp, h1 p hp⟩

/-- three points that are kept, and three of which two are lost -/
example : (∀ p ∈ [(⟨F32.lit 1, F32.lit 1⟩ : Vec2 F32), ⟨F32.lit 2, F32.lit 1⟩, ⟨F32.lit 3, F32.lit 1⟩],
      ∃ q ∈ uniquePointsAmong [(⟨F32.lit 1, F32.lit 1⟩ : Vec2 F32), ⟨F32.lit 2, F32.lit 1⟩, ⟨F32.lit 3, F32.lit 1⟩],
        closeTo p q = true) ∧
    ¬ (∀ p ∈ [(⟨F32.lit 1, F32.lit 1⟩ : Vec2 F32), ⟨F32.lit 2, F32.lit 1⟩, ⟨F32.lit 1, F32.lit 1⟩],
      ∃ q ∈ uniquePointsAmong [(⟨F32.lit 1, F32.lit 1⟩ : Vec2 F32), ⟨F32.lit 2, F32.lit 1⟩, ⟨F32.lit 1, F32.lit 1⟩],
        closeTo p q = true) := by
  decide +kernel

/-! ## C43 -/

noncomputable section

theorem bisector_point (a : ℝ × ℝ) (o r : ℝ) :
    (calculatePerpendicularBisector (pt a) (pt a) (.fin o)).2.y ≠ .fin r := by
  unfold calculatePerpendicularBisector
  simp only [midpoint_pt, Vec2.add, pt_x, pt_y, XReal.fin_sub, XReal.fin_zero, XReal.fin_one, XReal.fin_neg,
    XReal.fin_add, sub_self]
  rw [XReal.fin_div_zero, if_pos rfl]
  intro h
  cases h

/-- **C43, exact condition.** The result is the midpoint and a point of the perpendicular bisector at distance `offset`
if and only if the segment is vertical, or `offset` is 0 and the segment is not horizontal (a single point counts as
horizontal). -/
theorem C43_exact (a b : ℝ × ℝ) (o : ℝ) :
    (∃ m q, calculatePerpendicularBisector (pt a) (pt b) (.fin o) = (pt m, pt q) ∧
      dst a m = dst b m ∧ dst a m + dst m b = dst a b ∧ dst a q = dst b q ∧ dst m q = |o|) ↔
    a.2 ≠ b.2 ∧ (a.1 = b.1 ∨ o = 0) := by
  constructor
  · rintro ⟨m, q, h, -, -, -, hd⟩
    have hy : a.2 ≠ b.2 := by
      intro hy
      have h2 : (calculatePerpendicularBisector (pt a) (pt b) (.fin o)).2.y = .fin q.2 := by rw [h]; rfl
      by_cases hx : a.1 = b.1
      · have e : a = b := Prod.ext hx hy
        subst e
        exact bisector_point a o q.2 h2
      · exact C43_horizontal a b o hx hy q.2 h2
    refine ⟨hy, ?_⟩
    obtain ⟨m', q', h', -, -, -, -, hi⟩ := C43_bisector_partial a b o hy
    rw [h] at h'
    have hm : m = m' := pt_inj.1 (congrArg Prod.fst h')
    have hq : q = q' := pt_inj.1 (congrArg Prod.snd h')
    subst hm hq
    exact hi.1 hd
  · rintro ⟨hy, ho⟩
    obtain ⟨m, q, h, hm, hq, -, -, hi⟩ := C43_bisector_partial a b o hy
    rw [midpoint_pt] at hm
    have hm : ((a.1 + b.1) / 2, (a.2 + b.2) / 2) = m := pt_inj.1 hm
    have h1 : dst a m = dst a b / 2 := by
      rw [← hm]; unfold dst; simp only
      rw [show (2 : ℝ) = Real.sqrt (2 ^ 2) by rw [Real.sqrt_sq (by norm_num)], ← Real.sqrt_div' _ (by positivity),
        Real.sqrt_sq (by norm_num : (0:ℝ) ≤ 2)]
      congr 1; ring
    have h2 : dst b m = dst a b / 2 := by
      rw [← hm]; unfold dst; simp only
      rw [show (2 : ℝ) = Real.sqrt (2 ^ 2) by rw [Real.sqrt_sq (by norm_num)], ← Real.sqrt_div' _ (by positivity),
        Real.sqrt_sq (by norm_num : (0:ℝ) ≤ 2)]
      congr 1; ring
    refine ⟨m, q, h, by rw [h1, h2], ?_, hq, hi.2 ho⟩
    rw [dst_comm m b, h1, h2]; ring

/-- a vertical segment meets the condition, an oblique one with offset 1 does not -/
example : ((0, 0) : ℝ × ℝ).2 ≠ ((0, 2) : ℝ × ℝ).2 ∧ (((0, 0) : ℝ × ℝ).1 = ((0, 2) : ℝ × ℝ).1 ∨ (1 : ℝ) = 0) := by
  norm_num

end

end UtilThm
end Kami
