import Verif.Geom.PolygonModel
import Verif.Num.F32Laws
import Mathlib.LinearAlgebra.Matrix.Determinant.Basic
import Mathlib.Tactic.FieldSimp
import Mathlib.Tactic.LinearCombination
import Mathlib.Tactic.Positivity
import Mathlib.Data.Rat.Lemmas
/-!
# C22-C26: the geometric predicates of `polygon.rs`

Specification: orientation by the determinant of homogeneous coordinates, closed segments by their parametrisation.
Exact arithmetic in an arbitrary linearly ordered field; C23 on f32.
-/

set_option autoImplicit false

namespace Kami.Pred

open Kami

variable {K : Type} [Field K] [LinearOrder K] [IsStrictOrderedRing K]

/-! ### Specification -/

/-- orientation of three points: the determinant of their homogeneous coordinates -/
def orient (a b c : Vec2 K) : K := Matrix.det !![1, a.x, a.y; 1, b.x, b.y; 1, c.x, c.y]

/-- `p` is a point of the closed segment from `a` to `b` -/
def OnSeg (a b p : Vec2 K) : Prop :=
  ∃ t : K, 0 ≤ t ∧ t ≤ 1 ∧ p.x = a.x + t * (b.x - a.x) ∧ p.y = a.y + t * (b.y - a.y)

/-- `p` is a point of the line through `a` and `b` -/
def OnLine (a b p : Vec2 K) : Prop :=
  ∃ t : K, p.x = a.x + t * (b.x - a.x) ∧ p.y = a.y + t * (b.y - a.y)

/-- `p` is a point of the segment other than its end points -/
def InteriorSeg (a b p : Vec2 K) : Prop := OnSeg a b p ∧ p ≠ a ∧ p ≠ b

/-! ### Unfolding -/

theorem area2_eq (a b c : Vec2 K) :
    area2 a b c = (b.x - a.x) * (c.y - a.y) - (c.x - a.x) * (b.y - a.y) := rfl

theorem area2_orient (a b c : Vec2 K) : area2 a b c = orient a b c := by
  simp only [orient, area2_eq, Matrix.det_fin_three, Matrix.of_apply, Matrix.cons_val', Matrix.cons_val_zero,
    Matrix.cons_val_one, Matrix.cons_val, Matrix.cons_val_fin_one]
  ring

theorem left_iff (a b c : Vec2 K) : left a b c = true ↔ 0 < area2 a b c := by simp [left]
theorem leftOn_iff (a b c : Vec2 K) : leftOn a b c = true ↔ 0 ≤ area2 a b c := by simp [leftOn]
theorem collinear_iff (a b c : Vec2 K) : collinear a b c = true ↔ area2 a b c = 0 := by simp [collinear]

omit [Field K] [IsStrictOrderedRing K] in
theorem vec2_ne {a b : Vec2 K} (h : a ≠ b) : a.x ≠ b.x ∨ a.y ≠ b.y := by
  by_contra hc
  push Not at hc
  exact h (Vec2.ext hc.1 hc.2)

/-! ## C22 -/

/-- C22: `left`, `collinear` and `left_on` are the sign of the orientation determinant. -/
theorem C22_orientation (a b c : Vec2 K) :
    (left a b c = true ↔ 0 < orient a b c) ∧ (leftOn a b c = true ↔ 0 ≤ orient a b c) ∧
    (collinear a b c = true ↔ orient a b c = 0) := by
  rw [← area2_orient]; exact ⟨left_iff a b c, leftOn_iff a b c, collinear_iff a b c⟩

/-- C22: exactly one of left of `ab`, on the line, left of `ba`; `left_on` is left or on the line. -/
theorem C22_trichotomy (a b c : Vec2 K) :
    (left a b c = true ∨ collinear a b c = true ∨ left b a c = true) ∧
    ¬ (left a b c = true ∧ collinear a b c = true) ∧ ¬ (left a b c = true ∧ left b a c = true) ∧
    ¬ (collinear a b c = true ∧ left b a c = true) ∧
    (leftOn a b c = (left a b c || collinear a b c)) := by
  have hs : area2 b a c = -area2 a b c := by simp only [area2_eq]; ring
  simp only [left_iff, collinear_iff, hs]
  refine ⟨?_, ?_, ?_, ?_, ?_⟩
  · rcases lt_trichotomy (area2 a b c) 0 with h | h | h
    · exact Or.inr (Or.inr (by linarith))
    · exact Or.inr (Or.inl h)
    · exact Or.inl h
  · rintro ⟨h1, h2⟩; linarith
  · rintro ⟨h1, h2⟩; linarith
  · rintro ⟨h1, h2⟩; linarith
  · rw [Bool.eq_iff_iff, Bool.or_eq_true, left_iff, collinear_iff, leftOn_iff, le_iff_lt_or_eq]
    exact or_congr Iff.rfl eq_comm

/-- C22: invariance under cyclic rotation and translation; a swap of two points mirrors the test. -/
theorem C22_invariance (a b c t : Vec2 K) :
    (left b c a = left a b c ∧ leftOn b c a = leftOn a b c ∧ collinear b c a = collinear a b c) ∧
    (∀ f : Vec2 K → Vec2 K, (∀ p, f p = ⟨p.x + t.x, p.y + t.y⟩) →
      left (f a) (f b) (f c) = left a b c ∧ leftOn (f a) (f b) (f c) = leftOn a b c ∧
      collinear (f a) (f b) (f c) = collinear a b c) ∧
    (leftOn a b c = !left b a c ∧ leftOn a b c = !left a c b ∧ collinear b a c = collinear a b c) := by
  have h1 : area2 b c a = area2 a b c := by simp only [area2_eq]; ring
  have h3 : area2 b a c = -area2 a b c := by simp only [area2_eq]; ring
  have h4 : area2 a c b = -area2 a b c := by simp only [area2_eq]; ring
  refine ⟨?_, ?_, ?_⟩
  · simp only [left, leftOn, collinear, h1, and_self]
  · intro f hf
    have h2 : area2 (f a) (f b) (f c) = area2 a b c := by simp only [hf, area2_eq]; ring
    simp only [left, leftOn, collinear, h2, and_self]
  · refine ⟨?_, ?_, ?_⟩
    · rw [Bool.eq_iff_iff, Bool.not_eq_true', Bool.eq_false_iff, ne_eq, left_iff, leftOn_iff, h3]
      constructor <;> intro h <;> linarith
    · rw [Bool.eq_iff_iff, Bool.not_eq_true', Bool.eq_false_iff, ne_eq, left_iff, leftOn_iff, h4]
      constructor <;> intro h <;> linarith
    · rw [Bool.eq_iff_iff, collinear_iff, collinear_iff, h3, neg_eq_zero]

/-- C22: for distinct `a`, `b`: `collinear(a, b, c)` exactly when `c` is on the line through `a` and `b`. -/
theorem C22_collinear (a b c : Vec2 K) (hab : a ≠ b) : collinear a b c = true ↔ OnLine a b c := by
  rw [collinear_iff, area2_eq]
  constructor
  · intro h
    rcases vec2_ne hab with hx | hy
    · have hx' : b.x - a.x ≠ 0 := sub_ne_zero.2 (Ne.symm hx)
      refine ⟨(c.x - a.x) / (b.x - a.x), ?_, ?_⟩
      · field_simp; ring
      · field_simp; linear_combination h
    · have hy' : b.y - a.y ≠ 0 := sub_ne_zero.2 (Ne.symm hy)
      refine ⟨(c.y - a.y) / (b.y - a.y), ?_, ?_⟩
      · field_simp; linear_combination -h
      · field_simp; ring
  · rintro ⟨t, h1, h2⟩
    rw [h1, h2]; ring

example : (⟨0, 0⟩ : Vec2 ℚ) ≠ ⟨1, 2⟩ ∧ collinear (⟨0, 0⟩ : Vec2 ℚ) ⟨1, 2⟩ ⟨3, 6⟩ = true ∧
    left (⟨0, 0⟩ : Vec2 ℚ) ⟨1, 2⟩ ⟨0, 1⟩ = true := by decide +kernel

/-! ## C23 -/

/-- C23: on f32, with NaN, infinities and rounding, swapping the last two arguments of `area2` negates it exactly, up
to the sign of zero; hence the two strict tests are never both true. -/
theorem C23_swap_f32 (a b c : Vec2 F32) :
    (area2 a c b = -area2 a b c ∨ ∃ s t, area2 a c b = .fin s ⟨0, by decide⟩ ∧ area2 a b c = .fin t ⟨0, by decide⟩) ∧
    ¬ (left a b c = true ∧ left a c b = true) := by
  have h : area2 a c b = -area2 a b c ∨
      ∃ s t, area2 a c b = .fin s ⟨0, by decide⟩ ∧ area2 a b c = .fin t ⟨0, by decide⟩ := F32.sub_swap _ _
  refine ⟨h, ?_⟩
  rintro ⟨h1, h2⟩
  have h1' : F32.lt (F32.ofBits 0) (area2 a b c) = true := h1
  have h2' : F32.lt (F32.ofBits 0) (area2 a c b) = true := h2
  rw [F32.lt_iff] at h1' h2'
  have hz : F32.key (F32.ofBits 0) = 0 := rfl
  rw [hz] at h1' h2'
  rcases h with h | ⟨s, t, h, _⟩
  · have hk : F32.key (area2 a c b) = -F32.key (area2 a b c) := by
      rw [h]
      show F32.key (F32.neg _) = _
      generalize area2 a b c = z
      cases z <;> simp [F32.neg, F32.key]
    omega
  · rw [h] at h2'
    have : F32.key (F32.fin s ⟨0, by decide⟩) = 0 := by cases s <;> rfl
    omega

/-- In f32 the other invariances do fail: `left` is not invariant under cyclic rotation of its arguments. -/
theorem C23_cyclic_fails_f32 : ∃ a b c : Vec2 F32, left a b c ≠ left b c a :=
  ⟨⟨F32.lit 1 10, F32.lit 1 7⟩, ⟨F32.lit 3 10, F32.lit 3 7⟩, ⟨F32.lit 2 10, F32.lit 2 7⟩, by decide +kernel⟩

/-! ## C24 -/

theorem area2_of_onSeg {a b p : Vec2 K} (h : OnSeg a b p) : area2 a b p = 0 := by
  obtain ⟨t, _, _, h1, h2⟩ := h
  rw [area2_eq, h1, h2]; ring

theorem between_iff (a b c : Vec2 K) : between a b c = true ↔ area2 a b c = 0 ∧
    (a.x ≠ b.x → (a.x ≤ c.x ∧ c.x ≤ b.x) ∨ (c.x ≤ a.x ∧ b.x ≤ c.x)) ∧
    (a.x = b.x → (a.y ≤ c.y ∧ c.y ≤ b.y) ∨ (c.y ≤ a.y ∧ b.y ≤ c.y)) := by
  unfold between
  by_cases h : area2 a b c = 0
  · have hc := (collinear_iff a b c).2 h
    by_cases hx : a.x = b.x
    · simp [hc, h, hx]
    · simp [hc, h, hx]
  · have hc : collinear a b c = false := by
      rw [Bool.eq_false_iff, ne_eq, collinear_iff]; exact h
    simp [hc, h]

/-- C24, partial: for a segment with distinct end points, `between` decides membership in the closed segment.
Missing: for `a = b` the claim is false, see `C24_degenerate`. -/
theorem C24_between_partial (a b c : Vec2 K) (hab : a ≠ b) : between a b c = true ↔ OnSeg a b c := by
  rw [between_iff]
  constructor
  · rintro ⟨h0, h1, h2⟩
    rw [area2_eq] at h0
    by_cases hx : a.x = b.x
    · have hy : a.y ≠ b.y := fun hy => hab (Vec2.ext hx hy)
      have hy' : b.y - a.y ≠ 0 := sub_ne_zero.2 (Ne.symm hy)
      refine ⟨(c.y - a.y) / (b.y - a.y), ?_, ?_, ?_, ?_⟩
      · rcases h2 hx with ⟨u, v⟩ | ⟨u, v⟩
        · exact div_nonneg (by linarith) (by linarith)
        · exact div_nonneg_of_nonpos (by linarith) (by linarith)
      · rcases h2 hx with ⟨u, v⟩ | ⟨u, v⟩
        · exact div_le_one_of_le₀ (by linarith) (by linarith)
        · rw [← neg_div_neg_eq]; exact div_le_one_of_le₀ (by linarith) (by linarith)
      · field_simp; linear_combination -h0
      · field_simp; ring
    · have hx' : b.x - a.x ≠ 0 := sub_ne_zero.2 (Ne.symm hx)
      refine ⟨(c.x - a.x) / (b.x - a.x), ?_, ?_, ?_, ?_⟩
      · rcases h1 hx with ⟨u, v⟩ | ⟨u, v⟩
        · exact div_nonneg (by linarith) (by linarith)
        · exact div_nonneg_of_nonpos (by linarith) (by linarith)
      · rcases h1 hx with ⟨u, v⟩ | ⟨u, v⟩
        · exact div_le_one_of_le₀ (by linarith) (by linarith)
        · rw [← neg_div_neg_eq]; exact div_le_one_of_le₀ (by linarith) (by linarith)
      · field_simp; ring
      · field_simp; linear_combination h0
  · intro h
    refine ⟨area2_of_onSeg h, ?_, ?_⟩
    all_goals
      obtain ⟨t, ht0, ht1, hx, hy⟩ := h
      intro hne
    · rcases le_total a.x b.x with h | h
      · left; constructor <;> rw [hx] <;> nlinarith
      · right; constructor <;> rw [hx] <;> nlinarith
    · rcases le_total a.y b.y with h | h
      · left; constructor <;> rw [hy] <;> nlinarith
      · right; constructor <;> rw [hy] <;> nlinarith

/-- C24 for a degenerate segment `a = b`: `between` compares only the y coordinates, so it accepts every point at the
height of `a`. -/
theorem C24_degenerate (a c : Vec2 K) : (between a a c = true ↔ c.y = a.y) ∧ (OnSeg a a c ↔ c = a) := by
  constructor
  · rw [between_iff]
    have h0 : area2 a a c = 0 := by rw [area2_eq]; ring
    constructor
    · rintro ⟨_, _, h⟩
      rcases h rfl with ⟨h1, h2⟩ | ⟨h1, h2⟩ <;> exact le_antisymm (by assumption) (by assumption)
    · intro h
      exact ⟨h0, fun h => absurd rfl h, fun _ => Or.inl ⟨h.ge, h.le⟩⟩
  · constructor
    · rintro ⟨t, _, _, h1, h2⟩
      exact Vec2.ext (by rw [h1]; ring) (by rw [h2]; ring)
    · rintro rfl; exact ⟨0, le_rfl, zero_le_one, by ring, by ring⟩

/-- C24 counterexample: the point (5, 0) is accepted as lying on the segment from (0, 0) to (0, 0). -/
theorem C24_counterexample : ∃ a b c : Vec2 ℚ, between a b c = true ∧ ¬ OnSeg a b c :=
  ⟨⟨0, 0⟩, ⟨0, 0⟩, ⟨5, 0⟩, by decide +kernel, by rintro ⟨t, _, _, h, _⟩; norm_num at h⟩

/-- In every case the end points are accepted and membership implies `between`. -/
theorem C24_complete (a b c : Vec2 K) (h : OnSeg a b c) : between a b c = true := by
  by_cases hab : a = b
  · subst hab
    rw [(C24_degenerate a c).1, ((C24_degenerate a c).2).1 h]
  · exact (C24_between_partial a b c hab).2 h

example : (⟨0, 0⟩ : Vec2 ℚ) ≠ ⟨2, 4⟩ ∧ between (⟨0, 0⟩ : Vec2 ℚ) ⟨2, 4⟩ ⟨1, 2⟩ = true ∧
    between (⟨0, 0⟩ : Vec2 ℚ) ⟨2, 4⟩ ⟨3, 6⟩ = false := by decide +kernel

/-! ## C25 -/

theorem intersectProp_iff (a b c d : Vec2 K) : intersectProp a b c d = true ↔
    area2 a b c * area2 a b d < 0 ∧ area2 c d a * area2 c d b < 0 := by
  unfold intersectProp
  by_cases hz : area2 a b c = 0 ∨ area2 a b d = 0 ∨ area2 c d a = 0 ∨ area2 c d b = 0
  · have : (collinear a b c || collinear a b d || collinear c d a || collinear c d b) = true := by
      simp only [Bool.or_eq_true, collinear_iff]; tauto
    rw [if_pos this]
    constructor
    · intro h; cases h
    · rintro ⟨h1, h2⟩
      rcases hz with h | h | h | h <;> simp [h] at h1 h2
  · push Not at hz
    have : ¬ (collinear a b c || collinear a b d || collinear c d a || collinear c d b) = true := by
      simp only [Bool.or_eq_true, collinear_iff]; tauto
    rw [if_neg this]
    have key : ∀ p q : K, p ≠ 0 → q ≠ 0 → ((decide (0 < p) ^^ decide (0 < q)) = true ↔ p * q < 0) := by
      intro p q hp hq
      rcases lt_or_gt_of_ne hp with h1 | h1 <;> rcases lt_or_gt_of_ne hq with h2 | h2
      · simp [not_lt.2 h1.le, not_lt.2 h2.le, not_lt.2 (mul_pos_of_neg_of_neg h1 h2).le]
      · simp [not_lt.2 h1.le, h2, mul_neg_of_neg_of_pos h1 h2]
      · simp [not_lt.2 h2.le, h1, mul_neg_of_pos_of_neg h1 h2]
      · simp [h1, h2, not_lt.2 (mul_pos h1 h2).le]
    rw [Bool.and_eq_true]
    simp only [left, exact_lt, exact_zero]
    rw [key _ _ hz.1 hz.2.1, key _ _ hz.2.2.1 hz.2.2.2]

/-- the point where the lines meet lies at parameter `area2 c d a / (area2 c d a - area2 c d b)` of `ab` -/
theorem prop_point (a b c d : Vec2 K) (h1 : area2 a b c * area2 a b d < 0) (h2 : area2 c d a * area2 c d b < 0) :
    ∃ p : Vec2 K, InteriorSeg a b p ∧ InteriorSeg c d p ∧ ∀ q, OnSeg a b q → OnSeg c d q → q = p := by
  have hparam : ∀ u v : K, u * v < 0 → u - v ≠ 0 ∧ 0 < u / (u - v) ∧ u / (u - v) < 1 := by
    intro u v h
    rcases mul_neg_iff.1 h with ⟨hu, hv⟩ | ⟨hu, hv⟩
    · have : 0 < u - v := by linarith
      exact ⟨this.ne', div_pos hu this, (div_lt_one this).2 (by linarith)⟩
    · have : u - v < 0 := by linarith
      refine ⟨this.ne, div_pos_of_neg_of_neg hu this, ?_⟩
      rw [← neg_div_neg_eq]; exact (div_lt_one (by linarith)).2 (by linarith)
  obtain ⟨hs, hs0, hs1⟩ := hparam _ _ h2
  obtain ⟨ht, ht0, ht1⟩ := hparam _ _ h1
  set s := area2 c d a / (area2 c d a - area2 c d b) with hsdef
  set t := area2 a b c / (area2 a b c - area2 a b d) with htdef
  have hD : area2 c d a - area2 c d b = -(area2 a b c - area2 a b d) := by simp only [area2_eq]; ring
  -- the two parametrisations give the same point
  have hpx : a.x + s * (b.x - a.x) = c.x + t * (d.x - c.x) := by
    rw [hsdef, htdef, hD]
    have ht' := ht
    rw [div_neg]
    field_simp
    simp only [area2_eq]; ring
  have hpy : a.y + s * (b.y - a.y) = c.y + t * (d.y - c.y) := by
    rw [hsdef, htdef, hD]
    rw [div_neg]
    field_simp
    simp only [area2_eq]; ring
  have hab : a ≠ b := by rintro rfl; apply hs; ring
  have hcd : c ≠ d := by rintro rfl; apply ht; ring
  refine ⟨⟨a.x + s * (b.x - a.x), a.y + s * (b.y - a.y)⟩, ⟨⟨s, hs0.le, hs1.le, rfl, rfl⟩, ?_, ?_⟩,
    ⟨⟨t, ht0.le, ht1.le, hpx, hpy⟩, ?_, ?_⟩, ?_⟩
  · intro h
    have hx := congrArg Vec2.x h; have hy := congrArg Vec2.y h
    simp only at hx hy
    rcases vec2_ne hab with hne | hne
    · have : s * (b.x - a.x) = 0 := by linear_combination hx
      rcases mul_eq_zero.1 this with h | h
      · exact hs0.ne' h
      · exact hne (by linear_combination -h)
    · have : s * (b.y - a.y) = 0 := by linear_combination hy
      rcases mul_eq_zero.1 this with h | h
      · exact hs0.ne' h
      · exact hne (by linear_combination -h)
  · intro h
    have hx := congrArg Vec2.x h; have hy := congrArg Vec2.y h
    simp only at hx hy
    rcases vec2_ne hab with hne | hne
    · have : (1 - s) * (b.x - a.x) = 0 := by linear_combination -hx
      rcases mul_eq_zero.1 this with h | h
      · exact hs1.ne (by linear_combination -h)
      · exact hne (by linear_combination -h)
    · have : (1 - s) * (b.y - a.y) = 0 := by linear_combination -hy
      rcases mul_eq_zero.1 this with h | h
      · exact hs1.ne (by linear_combination -h)
      · exact hne (by linear_combination -h)
  · intro h
    have hx := congrArg Vec2.x h; have hy := congrArg Vec2.y h
    simp only [hpx, hpy] at hx hy
    rcases vec2_ne hcd with hne | hne
    · have : t * (d.x - c.x) = 0 := by linear_combination hx
      rcases mul_eq_zero.1 this with h | h
      · exact ht0.ne' h
      · exact hne (by linear_combination -h)
    · have : t * (d.y - c.y) = 0 := by linear_combination hy
      rcases mul_eq_zero.1 this with h | h
      · exact ht0.ne' h
      · exact hne (by linear_combination -h)
  · intro h
    have hx := congrArg Vec2.x h; have hy := congrArg Vec2.y h
    simp only [hpx, hpy] at hx hy
    rcases vec2_ne hcd with hne | hne
    · have : (1 - t) * (d.x - c.x) = 0 := by linear_combination -hx
      rcases mul_eq_zero.1 this with h | h
      · exact ht1.ne (by linear_combination -h)
      · exact hne (by linear_combination -h)
    · have : (1 - t) * (d.y - c.y) = 0 := by linear_combination -hy
      rcases mul_eq_zero.1 this with h | h
      · exact ht1.ne (by linear_combination -h)
      · exact hne (by linear_combination -h)
  · rintro q ⟨u, _, _, hux, huy⟩ hq
    have h0 := area2_of_onSeg hq
    have : u * (area2 c d a - area2 c d b) = area2 c d a := by
      simp only [area2_eq, hux, huy] at h0 ⊢; linear_combination -h0
    have hu : u = s := by rw [hsdef, eq_div_iff hs]; exact this
    exact Vec2.ext (by rw [hux, hu]) (by rw [huy, hu])

/-- If two segments with a common point interior to both lie on one line, they have another common point. -/
theorem overlap_not_unique (a b c d p : Vec2 K) (hab : InteriorSeg a b p) (hcd : InteriorSeg c d p)
    (hpar : (b.x - a.x) * (d.y - c.y) = (d.x - c.x) * (b.y - a.y)) :
    ∃ q, q ≠ p ∧ OnSeg a b q ∧ OnSeg c d q := by
  obtain ⟨⟨s, hs0, hs1, hsx, hsy⟩, hpa, hpb⟩ := hab
  obtain ⟨⟨t, ht0, ht1, htx, hty⟩, hpc, hpd⟩ := hcd
  have hab' : a ≠ b := by
    rintro rfl; exact hpa (Vec2.ext (by rw [hsx]; ring) (by rw [hsy]; ring))
  have hcd' : c ≠ d := by
    rintro rfl; exact hpc (Vec2.ext (by rw [htx]; ring) (by rw [hty]; ring))
  have hs0' : 0 < s := lt_of_le_of_ne hs0 (by rintro rfl; exact hpa (Vec2.ext (by rw [hsx]; ring) (by rw [hsy]; ring)))
  have hs1' : s < 1 := lt_of_le_of_ne hs1 (by rintro rfl; exact hpb (Vec2.ext (by rw [hsx]; ring) (by rw [hsy]; ring)))
  have ht0' : 0 < t := lt_of_le_of_ne ht0 (by rintro rfl; exact hpc (Vec2.ext (by rw [htx]; ring) (by rw [hty]; ring)))
  have ht1' : t < 1 := lt_of_le_of_ne ht1 (by rintro rfl; exact hpd (Vec2.ext (by rw [htx]; ring) (by rw [hty]; ring)))
  -- d - c = k (b - a)
  obtain ⟨k, hkx, hky⟩ : ∃ k : K, d.x - c.x = k * (b.x - a.x) ∧ d.y - c.y = k * (b.y - a.y) := by
    rcases vec2_ne hab' with hne | hne
    · have h : b.x - a.x ≠ 0 := sub_ne_zero.2 (Ne.symm hne)
      refine ⟨(d.x - c.x) / (b.x - a.x), by field_simp, ?_⟩
      field_simp; linear_combination hpar
    · have h : b.y - a.y ≠ 0 := sub_ne_zero.2 (Ne.symm hne)
      refine ⟨(d.y - c.y) / (b.y - a.y), ?_, by field_simp⟩
      field_simp; linear_combination -hpar
  have hk : k ≠ 0 := by
    rintro rfl
    exact hcd' (Vec2.ext (by linear_combination -hkx) (by linear_combination -hky))
  -- move by a small e > 0 along b - a: e ≤ 1 - s, and e / k within [-t, 1 - t]
  have hkpos : 0 < |k| := abs_pos.2 hk
  set e := min (1 - s) (|k| * min t (1 - t)) with he
  have hm : 0 < min t (1 - t) := lt_min ht0' (by linarith)
  have he0 : 0 < e := lt_min (by linarith) (mul_pos hkpos hm)
  have he1 : e ≤ 1 - s := min_le_left _ _
  have he2 : e ≤ |k| * min t (1 - t) := min_le_right _ _
  have hek : |e / k| ≤ min t (1 - t) := by
    rw [abs_div, abs_of_pos he0, div_le_iff₀ hkpos, mul_comm]; exact he2
  obtain ⟨hl, hr⟩ := abs_le.1 hek
  have hmt : min t (1 - t) ≤ t := min_le_left _ _
  have hmt' : min t (1 - t) ≤ 1 - t := min_le_right _ _
  refine ⟨⟨a.x + (s + e) * (b.x - a.x), a.y + (s + e) * (b.y - a.y)⟩, ?_,
    ⟨s + e, by linarith, by linarith, rfl, rfl⟩, ⟨t + e / k, by linarith, by linarith, ?_, ?_⟩⟩
  · intro h
    have hx := congrArg Vec2.x h; have hy := congrArg Vec2.y h
    simp only [hsx, hsy] at hx hy
    rcases vec2_ne hab' with hne | hne
    · have : e * (b.x - a.x) = 0 := by linear_combination hx
      rcases mul_eq_zero.1 this with h | h
      · exact he0.ne' h
      · exact hne (by linear_combination -h)
    · have : e * (b.y - a.y) = 0 := by linear_combination hy
      rcases mul_eq_zero.1 this with h | h
      · exact he0.ne' h
      · exact hne (by linear_combination -h)
  · show a.x + (s + e) * (b.x - a.x) = c.x + (t + e / k) * (d.x - c.x)
    have : e / k * (d.x - c.x) = e * (b.x - a.x) := by rw [hkx]; field_simp
    linear_combination -hsx + htx - this
  · show a.y + (s + e) * (b.y - a.y) = c.y + (t + e / k) * (d.y - c.y)
    have : e / k * (d.y - c.y) = e * (b.y - a.y) := by rw [hky]; field_simp
    linear_combination -hsy + hty - this

/-- C25: `intersect_prop` holds exactly when the segments meet in exactly one point and that point is interior to
both. -/
theorem C25_intersect_prop (a b c d : Vec2 K) : intersectProp a b c d = true ↔
    ∃ p, InteriorSeg a b p ∧ InteriorSeg c d p ∧ ∀ q, OnSeg a b q → OnSeg c d q → q = p := by
  rw [intersectProp_iff]
  constructor
  · rintro ⟨h1, h2⟩; exact prop_point a b c d h1 h2
  · rintro ⟨p, hab, hcd, huniq⟩
    have hD : (b.x - a.x) * (d.y - c.y) ≠ (d.x - c.x) * (b.y - a.y) := by
      intro h
      obtain ⟨q, hq, h1, h2⟩ := overlap_not_unique a b c d p hab hcd h
      exact hq (huniq q h1 h2)
    obtain ⟨⟨s, hs0, hs1, hsx, hsy⟩, hpa, hpb⟩ := hab
    obtain ⟨⟨t, ht0, ht1, htx, hty⟩, hpc, hpd⟩ := hcd
    have hs0' : 0 < s := lt_of_le_of_ne hs0 (by rintro rfl; exact hpa (Vec2.ext (by rw [hsx]; ring) (by rw [hsy]; ring)))
    have hs1' : s < 1 := lt_of_le_of_ne hs1 (by rintro rfl; exact hpb (Vec2.ext (by rw [hsx]; ring) (by rw [hsy]; ring)))
    have ht0' : 0 < t := lt_of_le_of_ne ht0 (by rintro rfl; exact hpc (Vec2.ext (by rw [htx]; ring) (by rw [hty]; ring)))
    have ht1' : t < 1 := lt_of_le_of_ne ht1 (by rintro rfl; exact hpd (Vec2.ext (by rw [htx]; ring) (by rw [hty]; ring)))
    have hex : a.x + s * (b.x - a.x) = c.x + t * (d.x - c.x) := by rw [← hsx, ← htx]
    have hey : a.y + s * (b.y - a.y) = c.y + t * (d.y - c.y) := by rw [← hsy, ← hty]
    set D := (b.x - a.x) * (d.y - c.y) - (d.x - c.x) * (b.y - a.y) with hDdef
    have hD' : D ≠ 0 := sub_ne_zero.2 hD
    have hD2 : 0 < D ^ 2 := by positivity
    have e1 : area2 a b c = -t * D := by
      rw [area2_eq, hDdef]; linear_combination (-(b.x - a.x)) * hey + (b.y - a.y) * hex
    have e2 : area2 a b d = (1 - t) * D := by
      rw [area2_eq, hDdef]; linear_combination (-(b.x - a.x)) * hey + (b.y - a.y) * hex
    have e3 : area2 c d a = s * D := by
      rw [area2_eq, hDdef]; linear_combination (d.x - c.x) * hey - (d.y - c.y) * hex
    have e4 : area2 c d b = -(1 - s) * D := by
      rw [area2_eq, hDdef]; linear_combination (d.x - c.x) * hey - (d.y - c.y) * hex
    rw [e1, e2, e3, e4]
    constructor
    · have : 0 < t * (1 - t) * D ^ 2 := mul_pos (mul_pos ht0' (by linarith)) hD2
      linarith
    · have : 0 < s * (1 - s) * D ^ 2 := mul_pos (mul_pos hs0' (by linarith)) hD2
      linarith

/-- C25: symmetric in the two segments and in the orientation of each. -/
theorem C25_symmetric (a b c d : Vec2 K) : intersectProp a b c d = intersectProp c d a b ∧
    intersectProp a b c d = intersectProp b a c d ∧ intersectProp a b c d = intersectProp a b d c := by
  have hs : ∀ p q r : Vec2 K, area2 q p r = -area2 p q r := by intro p q r; simp only [area2_eq]; ring
  refine ⟨?_, ?_, ?_⟩ <;> rw [Bool.eq_iff_iff, intersectProp_iff, intersectProp_iff]
  · tauto
  · rw [hs a b c, hs a b d, neg_mul_neg, mul_comm (area2 c d b)]
  · rw [hs c d a, hs c d b, neg_mul_neg, mul_comm (area2 a b d)]

example : intersectProp (⟨0, 0⟩ : Vec2 ℚ) ⟨2, 2⟩ ⟨0, 2⟩ ⟨2, 0⟩ = true := by decide +kernel

/-! ## C26 -/

/-- if one of the segments is parallel to the other and they have a common point, then an end point of one of them
lies on the other -/
theorem overlap_endpoint (a b c d p : Vec2 K) (hab : OnSeg a b p) (hcd : OnSeg c d p)
    (hpar : (b.x - a.x) * (d.y - c.y) = (d.x - c.x) * (b.y - a.y)) :
    OnSeg a b c ∨ OnSeg a b d ∨ OnSeg c d a ∨ OnSeg c d b := by
  obtain ⟨s, hs0, hs1, hsx, hsy⟩ := hab
  obtain ⟨t, ht0, ht1, htx, hty⟩ := hcd
  by_cases hab' : a = b
  · subst hab'
    refine Or.inr (Or.inr (Or.inl ⟨t, ht0, ht1, ?_, ?_⟩))
    · rw [← htx, hsx]; ring
    · rw [← hty, hsy]; ring
  obtain ⟨k, hkx, hky⟩ : ∃ k : K, d.x - c.x = k * (b.x - a.x) ∧ d.y - c.y = k * (b.y - a.y) := by
    rcases vec2_ne hab' with hne | hne
    · have h : b.x - a.x ≠ 0 := sub_ne_zero.2 (Ne.symm hne)
      refine ⟨(d.x - c.x) / (b.x - a.x), by field_simp, ?_⟩
      field_simp; linear_combination hpar
    · have h : b.y - a.y ≠ 0 := sub_ne_zero.2 (Ne.symm hne)
      refine ⟨(d.y - c.y) / (b.y - a.y), ?_, by field_simp⟩
      field_simp; linear_combination -hpar
  -- parameters of c and d along ab
  have hcx : c.x = a.x + (s - t * k) * (b.x - a.x) := by linear_combination -htx + hsx - t * hkx
  have hcy : c.y = a.y + (s - t * k) * (b.y - a.y) := by linear_combination -hty + hsy - t * hky
  have hdx : d.x = a.x + (s + (1 - t) * k) * (b.x - a.x) := by linear_combination -htx + hsx + (1 - t) * hkx
  have hdy : d.y = a.y + (s + (1 - t) * k) * (b.y - a.y) := by linear_combination -hty + hsy + (1 - t) * hky
  by_cases hc : 0 ≤ s - t * k ∧ s - t * k ≤ 1
  · exact Or.inl ⟨_, hc.1, hc.2, hcx, hcy⟩
  by_cases hd : 0 ≤ s + (1 - t) * k ∧ s + (1 - t) * k ≤ 1
  · exact Or.inr (Or.inl ⟨_, hd.1, hd.2, hdx, hdy⟩)
  -- c and d are on different sides beyond the ends, so a is between them
  have hk : k ≠ 0 := by rintro rfl; apply hc; constructor <;> linarith
  refine Or.inr (Or.inr (Or.inl ⟨t - s / k, ?_, ?_, ?_, ?_⟩))
  · rcases lt_or_gt_of_ne hk with h | h
    · have : s / k ≤ 0 := div_nonpos_of_nonneg_of_nonpos hs0 h.le
      linarith
    · have h1 : s - t * k < 0 := by
        by_contra hcon
        push Not at hcon
        apply hc; refine ⟨hcon, ?_⟩
        nlinarith
      rw [sub_nonneg, div_le_iff₀ h]; linarith
  · rcases lt_or_gt_of_ne hk with h | h
    · have h1 : s + (1 - t) * k < 0 := by
        by_contra hcon
        push Not at hcon
        apply hd; refine ⟨hcon, ?_⟩
        nlinarith
      have : -(1 - t) ≤ s / k := by
        rw [le_div_iff_of_neg h]; linarith
      linarith
    · have : 0 ≤ s / k := div_nonneg hs0 h.le
      linarith
  · rw [hkx, hcx]; field_simp; ring
  · rw [hky, hcy]; field_simp; ring

/-- common point of two non-parallel segments: either an end point or a proper crossing -/
theorem cross_cases (a b c d p : Vec2 K) (hab : OnSeg a b p) (hcd : OnSeg c d p)
    (hD : (b.x - a.x) * (d.y - c.y) ≠ (d.x - c.x) * (b.y - a.y)) :
    intersectProp a b c d = true ∨ OnSeg a b c ∨ OnSeg a b d ∨ OnSeg c d a ∨ OnSeg c d b := by
  by_cases h : p = a ∨ p = b ∨ p = c ∨ p = d
  · rcases h with h | h | h | h <;> rw [h] at hab hcd <;> tauto
  · push Not at h
    left
    rw [C25_intersect_prop]
    refine ⟨p, ⟨hab, h.1, h.2.1⟩, ⟨hcd, h.2.2.1, h.2.2.2⟩, ?_⟩
    rintro q ⟨u, _, _, hux, huy⟩ ⟨v, _, _, hvx, hvy⟩
    obtain ⟨s, _, _, hsx, hsy⟩ := hab
    obtain ⟨t, _, _, htx, hty⟩ := hcd
    have hD' : (b.x - a.x) * (d.y - c.y) - (d.x - c.x) * (b.y - a.y) ≠ 0 := sub_ne_zero.2 hD
    have : (u - s) * ((b.x - a.x) * (d.y - c.y) - (d.x - c.x) * (b.y - a.y)) = 0 := by
      have e1 : q.x - p.x = (u - s) * (b.x - a.x) := by rw [hux, hsx]; ring
      have e2 : q.y - p.y = (u - s) * (b.y - a.y) := by rw [huy, hsy]; ring
      have e3 : q.x - p.x = (v - t) * (d.x - c.x) := by rw [hvx, htx]; ring
      have e4 : q.y - p.y = (v - t) * (d.y - c.y) := by rw [hvy, hty]; ring
      linear_combination (-(d.y - c.y)) * e1 + (d.x - c.x) * e2 + (d.y - c.y) * e3 - (d.x - c.x) * e4
    rcases mul_eq_zero.1 this with h | h
    · have : u = s := by linear_combination h
      exact Vec2.ext (by rw [hux, hsx, this]) (by rw [huy, hsy, this])
    · exact absurd h hD'

/-- C26, completeness: segments with a common point are always reported, degenerate or not. -/
theorem C26_complete (a b c d : Vec2 K) (h : ∃ p, OnSeg a b p ∧ OnSeg c d p) : intersect a b c d = true := by
  obtain ⟨p, hab, hcd⟩ := h
  have key : intersectProp a b c d = true ∨ OnSeg a b c ∨ OnSeg a b d ∨ OnSeg c d a ∨ OnSeg c d b := by
    by_cases hD : (b.x - a.x) * (d.y - c.y) = (d.x - c.x) * (b.y - a.y)
    · exact Or.inr (overlap_endpoint a b c d p hab hcd hD)
    · exact cross_cases a b c d p hab hcd hD
  unfold intersect
  split
  · rfl
  · rename_i hp
    have : (between a b c || between a b d || between c d a || between c d b) = true := by
      simp only [Bool.or_eq_true]
      rcases key with h | h | h | h | h
      · exact absurd h hp
      · exact Or.inl (Or.inl (Or.inl (C24_complete _ _ _ h)))
      · exact Or.inl (Or.inl (Or.inr (C24_complete _ _ _ h)))
      · exact Or.inl (Or.inr (C24_complete _ _ _ h))
      · exact Or.inr (C24_complete _ _ _ h)
    rw [if_pos this]

theorem onSeg_left (a b : Vec2 K) : OnSeg a b a := ⟨0, le_rfl, zero_le_one, by ring, by ring⟩
theorem onSeg_right (a b : Vec2 K) : OnSeg a b b := ⟨1, zero_le_one, le_rfl, by ring, by ring⟩

/-- C26, partial: for segments with distinct end points, `intersect` decides whether the closed segments have a common
point.  Missing: for a degenerate segment it may answer `true` wrongly (`C26_counterexample`), never `false` wrongly
(`C26_complete`). -/
theorem C26_intersect_partial (a b c d : Vec2 K) (hab : a ≠ b) (hcd : c ≠ d) :
    intersect a b c d = true ↔ ∃ p, OnSeg a b p ∧ OnSeg c d p := by
  refine ⟨fun h => ?_, C26_complete a b c d⟩
  unfold intersect at h
  split at h
  · rename_i hp
    obtain ⟨p, h1, h2, _⟩ := (C25_intersect_prop a b c d).1 hp
    exact ⟨p, h1.1, h2.1⟩
  · split at h
    · rename_i hb
      simp only [Bool.or_eq_true] at hb
      rcases hb with ((hb | hb) | hb) | hb
      · exact ⟨c, (C24_between_partial _ _ _ hab).1 hb, onSeg_left c d⟩
      · exact ⟨d, (C24_between_partial _ _ _ hab).1 hb, onSeg_right c d⟩
      · exact ⟨a, onSeg_left a b, (C24_between_partial _ _ _ hcd).1 hb⟩
      · exact ⟨b, onSeg_right a b, (C24_between_partial _ _ _ hcd).1 hb⟩
    · cases h

/-- C26 counterexample: the degenerate segment at (0, 0) is reported to meet the segment from (5, 0) to (6, 1). -/
theorem C26_counterexample : ∃ a b c d : Vec2 ℚ, intersect a b c d = true ∧ ¬ ∃ p, OnSeg a b p ∧ OnSeg c d p := by
  refine ⟨⟨0, 0⟩, ⟨0, 0⟩, ⟨5, 0⟩, ⟨6, 1⟩, by decide +kernel, ?_⟩
  rintro ⟨p, ⟨s, _, _, h1, h2⟩, ⟨t, ht0, _, h3, h4⟩⟩
  norm_num at h1 h2 h3 h4
  rw [h1] at h3
  linarith

example : (⟨0, 0⟩ : Vec2 ℚ) ≠ ⟨2, 0⟩ ∧ (⟨1, 0⟩ : Vec2 ℚ) ≠ ⟨5, 0⟩ ∧ intersect (⟨0, 0⟩ : Vec2 ℚ) ⟨2, 0⟩ ⟨1, 0⟩ ⟨5, 0⟩ = true ∧
    intersect (⟨0, 0⟩ : Vec2 ℚ) ⟨2, 0⟩ ⟨3, 0⟩ ⟨5, 0⟩ = false := by decide +kernel

end Kami.Pred
