import Verif.Geom.Predicates
/-!
# C26: exactly when `intersect` answers wrongly

`C26_intersect_partial` covers segments with distinct end points.  Here the remaining inputs, segments that are single
points, are described exactly.
-/

set_option autoImplicit false

namespace Kami.Pred

open Kami

variable {K : Type} [Field K] [LinearOrder K] [IsStrictOrderedRing K]

theorem intersectProp_left_degenerate (a c d : Vec2 K) : intersectProp a a c d ≠ true := by
  intro h
  obtain ⟨p, h1, _⟩ := (C25_intersect_prop a a c d).1 h
  exact h1.2.1 (((C24_degenerate a p).2).1 h1.1)

theorem intersectProp_right_degenerate (a b c : Vec2 K) : intersectProp a b c c ≠ true := by
  intro h
  obtain ⟨p, _, h2, _⟩ := (C25_intersect_prop a b c c).1 h
  exact h2.2.1 (((C24_degenerate c p).2).1 h2.1)

theorem onSeg_point_left (a c d : Vec2 K) : (∃ p, OnSeg a a p ∧ OnSeg c d p) ↔ OnSeg c d a := by
  constructor
  · rintro ⟨p, h1, h2⟩
    rwa [((C24_degenerate a p).2).1 h1] at h2
  · exact fun h => ⟨a, onSeg_left a a, h⟩

theorem onSeg_point_right (a b c : Vec2 K) : (∃ p, OnSeg a b p ∧ OnSeg c c p) ↔ OnSeg a b c := by
  constructor
  · rintro ⟨p, h1, h2⟩
    rwa [((C24_degenerate c p).2).1 h2] at h1
  · exact fun h => ⟨c, h, onSeg_left c c⟩

/-- C24, exactly: `between a b c` answers `true` if and only if `c` lies on the closed segment, or the segment is a single point
and `c` lies at its height. -/
theorem C24_exact (a b c : Vec2 K) : between a b c = true ↔ OnSeg a b c ∨ (a = b ∧ c.y = a.y) := by
  by_cases hab : a = b
  · subst hab
    rw [(C24_degenerate a c).1, (C24_degenerate a c).2]
    exact ⟨fun h => Or.inr ⟨rfl, h⟩, fun h => h.elim (fun h => by rw [h]) fun h => h.2⟩
  · rw [C24_between_partial a b c hab]
    simp [hab]

/-- C26, exactly: `intersect` answers `true` if and only if the two segments have a common point, or one of them is a
single point and an end point of the other lies at the same height. -/
theorem C26_exact (a b c d : Vec2 K) :
    intersect a b c d = true ↔
      (∃ p, OnSeg a b p ∧ OnSeg c d p) ∨ (a = b ∧ (c.y = a.y ∨ d.y = a.y)) ∨ (c = d ∧ (a.y = c.y ∨ b.y = c.y)) := by
  by_cases hab : a = b
  · subst hab
    by_cases hcd : c = d
    · subst hcd
      unfold intersect
      rw [if_neg (intersectProp_left_degenerate a c c), onSeg_point_left]
      simp only [ite_eq_left_iff, Bool.or_eq_true, (C24_degenerate a c).1, (C24_degenerate c a).1,
        (C24_degenerate c a).2, Bool.false_eq_true, imp_false, not_not, or_self, true_and]
      constructor
      · rintro ((h | h) | h)
        · exact Or.inr (Or.inl h)
        · exact Or.inr (Or.inr h)
        · exact Or.inr (Or.inr h)
      · rintro (h | h | h)
        · exact Or.inr (by rw [h])
        · exact Or.inl (Or.inl h)
        · exact Or.inr h
    · unfold intersect
      rw [if_neg (intersectProp_left_degenerate a c d), onSeg_point_left]
      simp only [ite_eq_left_iff, Bool.or_eq_true, (C24_degenerate a c).1, (C24_degenerate a d).1,
        C24_between_partial c d a hcd, Bool.false_eq_true, imp_false, not_not, or_self, true_and, hcd,
        false_and, or_false]
      tauto
  · by_cases hcd : c = d
    · subst hcd
      unfold intersect
      rw [if_neg (intersectProp_right_degenerate a b c), onSeg_point_right]
      simp only [ite_eq_left_iff, Bool.or_eq_true, (C24_degenerate c a).1, (C24_degenerate c b).1,
        C24_between_partial a b c hab, Bool.false_eq_true, imp_false, not_not, or_self, true_and, hab,
        false_and, false_or]
      tauto
    · rw [C26_intersect_partial a b c d hab hcd]
      simp only [hab, hcd, false_and, or_false]

/-- Both a right and a wrong `true` on single-point segments, and a right `false`. -/
example : intersect (⟨0, 0⟩ : Vec2 ℚ) ⟨0, 0⟩ ⟨5, 0⟩ ⟨6, 1⟩ = true ∧ intersect (⟨0, 0⟩ : Vec2 ℚ) ⟨0, 0⟩ ⟨-1, -1⟩ ⟨6, 6⟩ = true ∧
    intersect (⟨0, 0⟩ : Vec2 ℚ) ⟨0, 0⟩ ⟨5, -1⟩ ⟨6, 1⟩ = false := by decide +kernel

end Kami.Pred
