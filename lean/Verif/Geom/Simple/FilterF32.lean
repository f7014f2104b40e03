import Verif.Num.F32Error
import Verif.Geom.Simple.GridF32
/-!
# Orientation tests in f32 away from the grid

`left`, `left_on` and `collinear` in `f32` are right whenever the exact value exceeds a rounding-error margin; if all triples
of vertices of a polygon do, triangulation in `f32` is exact.
-/

set_option autoImplicit false
set_option linter.unusedSectionVars false
set_option linter.dupNamespace false

namespace Kami.Simple

open Kami Kami.Pred Kami.PolyThm Kami.Polygon Kami.Transfer Kami.F32
open scoped Kami

/-! ### specification -/

/-- a finite number of absolute value at most `2^60` -/
def SmallNum (x : F32) : Prop := (∃ s n, x = F32.fin s n) ∧ |toRat x| ≤ 2 ^ 60

/-- a point with such coordinates -/
def SmallPt (v : Vec2 F32) : Prop := SmallNum v.x ∧ SmallNum v.y

/-- the two products whose difference is twice the signed area of the triangle -/
def prodP {K : Type} [Field K] (a b c : Vec2 K) : K := (b.x - a.x) * (c.y - a.y)
@[inherit_doc prodP] def prodQ {K : Type} [Field K] (a b c : Vec2 K) : K := (c.x - a.x) * (b.y - a.y)

/-- the triangle's exact signed area is larger than the possible rounding error -/
def Margin {K : Type} [Field K] [LinearOrder K] (a b c : Vec2 K) : Prop :=
  (|prodP a b c| + |prodQ a b c|) / 2 ^ 22 + 1 / 2 ^ 149 < |prodP a b c - prodQ a b c|

/-! ### error analysis -/

theorem toRat_toReal (x : F32) : (toRat x : ℝ) = toReal x := by
  cases x with
  | nan => simp [toRat, toReal]
  | inf s => simp [toRat, toReal]
  | fin s n => simp [toRat, toReal]

/-- relative error of a product of two approximate factors -/
theorem prod_err {x y x' y' p : ℝ} (hx : |x' - x| ≤ u * |x|) (hy : |y' - y| ≤ u * |y|)
    (hp : |p - x' * y'| ≤ u * |x' * y'| + η) : |p - x * y| ≤ 4 * u * |x * y| + η := by
  have hu : u = 1 / 2 ^ 24 := rfl
  have hx' : |x'| ≤ (1 + u) * |x| := by
    have := abs_sub_abs_le_abs_sub x' x
    linarith
  have hy' : |y'| ≤ (1 + u) * |y| := by
    have := abs_sub_abs_le_abs_sub y' y
    linarith
  have h0 : 0 ≤ |x| := abs_nonneg x
  have h1 : 0 ≤ |y| := abs_nonneg y
  have h2 : |x' * y' - x * y| ≤ u * |x| * ((1 + u) * |y|) + |x| * (u * |y|) := by
    have e : x' * y' - x * y = (x' - x) * y' + x * (y' - y) := by ring
    rw [e]
    refine (abs_add_le _ _).trans ?_
    rw [abs_mul, abs_mul]
    exact add_le_add (mul_le_mul hx hy' (abs_nonneg _) (mul_nonneg u_pos.le h0)) (mul_le_mul_of_nonneg_left hy h0)
  have h3 : |x' * y'| ≤ (1 + u) * |x| * ((1 + u) * |y|) := by
    rw [abs_mul]
    exact mul_le_mul hx' hy' (abs_nonneg _) (by have := u_pos; positivity)
  have h4 : |p - x * y| ≤ |p - x' * y'| + |x' * y' - x * y| := by
    have := abs_add_le (p - x' * y') (x' * y' - x * y)
    simpa using this
  have h5 : u * |x' * y'| ≤ u * ((1 + u) * |x| * ((1 + u) * |y|)) := mul_le_mul_of_nonneg_left h3 u_pos.le
  have h6 : 0 ≤ |x| * |y| := mul_nonneg h0 h1
  rw [abs_mul]
  have h7 : u * ((1 + u) * |x| * ((1 + u) * |y|)) + (u * |x| * ((1 + u) * |y|) + |x| * (u * |y|))
      ≤ 4 * u * (|x| * |y|) := by
    have : u * ((1 + u) * |x| * ((1 + u) * |y|)) + (u * |x| * ((1 + u) * |y|) + |x| * (u * |y|))
        = (3 * u + 3 * u ^ 2 + u ^ 3) * (|x| * |y|) := by ring
    rw [this]
    refine mul_le_mul_of_nonneg_right ?_ h6
    rw [hu]; norm_num
  linarith

theorem small_fin {x : F32} (h : SmallNum x) : IsFin x ∧ |toReal x| ≤ 2 ^ 60 :=
  ⟨h.1, by rw [← toRat_toReal]; exact_mod_cast h.2⟩

/-- a difference of small numbers -/
theorem small_sub {x y : F32} (hx : SmallNum x) (hy : SmallNum y) : IsFin (x - y) ∧
    |toReal (x - y) - (toReal x - toReal y)| ≤ u * |toReal x - toReal y| ∧ |toReal x - toReal y| ≤ 2 ^ 61 ∧
    |toReal (x - y)| ≤ 2 ^ 62 := by
  obtain ⟨fx, bx⟩ := small_fin hx
  obtain ⟨fy, by'⟩ := small_fin hy
  have h1 : |toReal x - toReal y| ≤ 2 ^ 61 := by
    refine (abs_sub _ _).trans ?_
    have : (2 : ℝ) ^ 61 = 2 ^ 60 + 2 ^ 60 := by norm_num
    linarith
  have hf : IsFin (x - y) := sub_isFin fx fy (lt_of_le_of_lt h1 (by unfold maxHalf; norm_num))
  have he := sub_err fx fy hf
  refine ⟨hf, he, h1, ?_⟩
  have h2 := abs_sub_abs_le_abs_sub (toReal (x - y)) (toReal x - toReal y)
  have h3 : u * |toReal x - toReal y| ≤ 1 * 2 ^ 61 :=
    mul_le_mul (by unfold u; norm_num) h1 (abs_nonneg _) (by norm_num)
  have : (2 : ℝ) ^ 62 = 2 ^ 61 + 2 ^ 61 := by norm_num
  linarith

theorem real_x (a : Vec2 F32) : (real ℝ a).x = toReal a.x := toRat_toReal _
theorem real_y (a : Vec2 F32) : (real ℝ a).y = toReal a.y := toRat_toReal _

/-- one product of `area2` -/
theorem small_prod {a b c d : F32} (ha : SmallNum a) (hb : SmallNum b) (hc : SmallNum c) (hd : SmallNum d) :
    IsFin ((a - b) * (c - d)) ∧ |toReal ((a - b) * (c - d)) - (toReal a - toReal b) * (toReal c - toReal d)| ≤
      4 * u * |(toReal a - toReal b) * (toReal c - toReal d)| + η ∧ |toReal ((a - b) * (c - d))| ≤ 2 ^ 125 := by
  obtain ⟨f1, e1, b1, m1⟩ := small_sub ha hb
  obtain ⟨f2, e2, b2, m2⟩ := small_sub hc hd
  have hm : |toReal (a - b) * toReal (c - d)| ≤ 2 ^ 124 := by
    rw [abs_mul]
    refine (mul_le_mul m1 m2 (abs_nonneg _) (by norm_num)).trans ?_
    norm_num
  have f3 : IsFin ((a - b) * (c - d)) := mul_isFin f1 f2 (lt_of_le_of_lt hm (by unfold maxHalf; norm_num))
  have e3 := mul_err f1 f2 f3
  refine ⟨f3, prod_err e1 e2 e3, ?_⟩
  have h2 := abs_sub_abs_le_abs_sub (toReal ((a - b) * (c - d))) (toReal (a - b) * toReal (c - d))
  have h3 : u * |toReal (a - b) * toReal (c - d)| ≤ 1 / 2 * 2 ^ 124 :=
    mul_le_mul (by unfold u; norm_num) hm (abs_nonneg _) (by norm_num)
  have h4 : η ≤ 1 := by unfold η; norm_num
  have : (2 : ℝ) ^ 125 = 2 ^ 124 + 1 / 2 * 2 ^ 124 + 1 / 2 * 2 ^ 124 := by norm_num
  have : (1 : ℝ) ≤ 1 / 2 * 2 ^ 124 := by norm_num
  linarith

/-- `area2` in `f32`: the sign is that of the difference of two approximate products -/
theorem area2_f32 {a b c : Vec2 F32} (ha : SmallPt a) (hb : SmallPt b) (hc : SmallPt c) :
    IsFin (area2 a b c) ∧ ∃ p q : ℝ,
      p = toReal ((b.x - a.x) * (c.y - a.y)) ∧ q = toReal ((c.x - a.x) * (b.y - a.y)) ∧
      |p - prodP (real ℝ a) (real ℝ b) (real ℝ c)| ≤ 4 * u * |prodP (real ℝ a) (real ℝ b) (real ℝ c)| + η ∧
      |q - prodQ (real ℝ a) (real ℝ b) (real ℝ c)| ≤ 4 * u * |prodQ (real ℝ a) (real ℝ b) (real ℝ c)| + η ∧
      |toReal (area2 a b c) - (p - q)| ≤ u * |p - q| := by
  obtain ⟨f1, e1, m1⟩ := small_prod hb.1 ha.1 hc.2 ha.2
  obtain ⟨f2, e2, m2⟩ := small_prod hc.1 ha.1 hb.2 ha.2
  have f3 : IsFin ((b.x - a.x) * (c.y - a.y) - (c.x - a.x) * (b.y - a.y)) := by
    refine sub_isFin f1 f2 ?_
    refine lt_of_le_of_lt (abs_sub _ _) ?_
    have : (2 : ℝ) ^ 125 + 2 ^ 125 < maxHalf := by unfold maxHalf; norm_num
    linarith
  refine ⟨f3, _, _, rfl, rfl, ?_, ?_, sub_err f1 f2 f3⟩
  · unfold prodP; rw [real_x, real_x, real_y, real_y]; exact e1
  · unfold prodQ; rw [real_x, real_x, real_y, real_y]; exact e2

/-- a number close to another has its sign -/
theorem sign_of_rel {v w : ℝ} (h : |v - w| ≤ u * |w|) : (0 < v ↔ 0 < w) ∧ (v = 0 ↔ w = 0) := by
  have hu : u ≤ 1 / 2 := by unfold u; norm_num
  obtain ⟨h1, h2⟩ := abs_le.1 h
  have h3 : u * |w| ≤ 1 / 2 * |w| := mul_le_mul_of_nonneg_right hu (abs_nonneg _)
  constructor <;> constructor <;> intro h5
  · by_contra hc
    rw [abs_of_nonpos (not_lt.1 hc)] at h3 h2
    linarith
  · rw [abs_of_pos h5] at h3 h1
    linarith
  · by_contra hc
    rcases lt_or_gt_of_ne hc with h6 | h6
    · rw [abs_of_neg h6] at h3 h2 h1; linarith
    · rw [abs_of_pos h6] at h3 h1; linarith
  · rw [h5, abs_zero, mul_zero] at h
    have := abs_nonpos_iff.1 h
    linarith

theorem exact_area2 (a b c : Vec2 ℝ) : area2 a b c = prodP a b c - prodQ a b c := rfl

theorem area2_sign {a b c : Vec2 F32} (ha : SmallPt a) (hb : SmallPt b) (hc : SmallPt c)
    (hm : Margin (real ℝ a) (real ℝ b) (real ℝ c)) :
    (0 < toReal (area2 a b c) ↔ 0 < area2 (real ℝ a) (real ℝ b) (real ℝ c)) ∧
    (toReal (area2 a b c) = 0 ↔ area2 (real ℝ a) (real ℝ b) (real ℝ c) = 0) := by
  obtain ⟨_, p, q, _, _, hp, hq, hs⟩ := area2_f32 ha hb hc
  unfold Margin at hm
  rw [exact_area2]
  obtain ⟨s1, s2⟩ := sign_of_rel hs
  rw [s1, s2]
  generalize prodP (real ℝ a) (real ℝ b) (real ℝ c) = P at *
  generalize prodQ (real ℝ a) (real ℝ b) (real ℝ c) = Q at *
  have hb : 4 * u * |P| + η + (4 * u * |Q| + η) = (|P| + |Q|) / 2 ^ 22 + 1 / 2 ^ 149 := by
    unfold u η; ring
  obtain ⟨p1, p2⟩ := abs_le.1 hp
  obtain ⟨q1, q2⟩ := abs_le.1 hq
  rcases lt_or_ge 0 (P - Q) with h | h
  · rw [abs_of_pos h] at hm
    exact ⟨iff_of_true (by linarith) h, iff_of_false (by intro h'; linarith) h.ne'⟩
  · rw [abs_of_nonpos h] at hm
    have hη := η_pos
    have : P - Q < 0 := by
      have := abs_nonneg P
      have := abs_nonneg Q
      have : 0 < 1 / (2 : ℝ) ^ 149 := by positivity
      have : 0 ≤ (|P| + |Q|) / 2 ^ 22 := by positivity
      linarith
    exact ⟨iff_of_false (by intro h'; linarith) (by linarith), iff_of_false (by intro h'; linarith) this.ne⟩

theorem area2_pred {a b c : Vec2 F32} (hf : IsFin (area2 a b c))
    (h : (0 < toReal (area2 a b c) ↔ 0 < area2 (real ℝ a) (real ℝ b) (real ℝ c)) ∧
      (toReal (area2 a b c) = 0 ↔ area2 (real ℝ a) (real ℝ b) (real ℝ c) = 0)) :
    left (real ℝ a) (real ℝ b) (real ℝ c) = left a b c ∧ leftOn (real ℝ a) (real ℝ b) (real ℝ c) = leftOn a b c ∧
    collinear (real ℝ a) (real ℝ b) (real ℝ c) = collinear a b c := by
  have e1 : left (real ℝ a) (real ℝ b) (real ℝ c) = decide (0 < area2 (real ℝ a) (real ℝ b) (real ℝ c)) := rfl
  have e2 : leftOn (real ℝ a) (real ℝ b) (real ℝ c) = decide (0 ≤ area2 (real ℝ a) (real ℝ b) (real ℝ c)) := rfl
  have e3 : collinear (real ℝ a) (real ℝ b) (real ℝ c) = decide (area2 (real ℝ a) (real ℝ b) (real ℝ c) = 0) := rfl
  refine ⟨?_, ?_, ?_⟩
  · rw [e1, Bool.eq_iff_iff, decide_eq_true_iff]
    show _ ↔ F32.lt (ofBits 0) (area2 a b c) = true
    rw [lt_fin zero_isFin hf, toReal_zero, h.1]
  · rw [e2, Bool.eq_iff_iff, decide_eq_true_iff]
    show _ ↔ F32.le (ofBits 0) (area2 a b c) = true
    rw [le_fin zero_isFin hf, toReal_zero, le_iff_lt_or_eq, le_iff_lt_or_eq, h.1, eq_comm, @eq_comm ℝ 0 (toReal _), h.2]
  · rw [e3, Bool.eq_iff_iff, decide_eq_true_iff]
    show _ ↔ F32.eq (area2 a b c) (ofBits 0) = true
    rw [eq_fin hf zero_isFin, toReal_zero, h.2]

/-- **C87.** For finite coordinates up to `2^60`: if the exact signed area exceeds the margin, the `f32` orientation tests give
the exact answers. -/
theorem C87_filter {a b c : Vec2 F32} (ha : SmallPt a) (hb : SmallPt b) (hc : SmallPt c)
    (hm : Margin (real ℝ a) (real ℝ b) (real ℝ c)) :
    left a b c = left (real ℝ a) (real ℝ b) (real ℝ c) ∧ leftOn a b c = leftOn (real ℝ a) (real ℝ b) (real ℝ c) ∧
    collinear a b c = false := by
  obtain ⟨h1, h2, h3⟩ := area2_pred (area2_f32 ha hb hc).1 (area2_sign ha hb hc hm)
  refine ⟨h1.symm, h2.symm, ?_⟩
  rw [← h3]
  show decide _ = false
  rw [decide_eq_false_iff_not, exact_area2]
  intro h0
  unfold Margin at hm
  rw [h0, exact_zero, abs_zero] at hm
  have : 0 ≤ (|prodP (real ℝ a) (real ℝ b) (real ℝ c)| + |prodQ (real ℝ a) (real ℝ b) (real ℝ c)|) / 2 ^ 22 := by positivity
  have : 0 < 1 / (2 : ℝ) ^ 149 := by positivity
  linarith

/-! ### degenerate triples -/

theorem area2_degenerate {a b c : Vec2 F32} (ha : SmallPt a) (hb : SmallPt b) (hc : SmallPt c)
    (hd : real ℝ a = real ℝ b ∨ real ℝ b = real ℝ c ∨ real ℝ a = real ℝ c) : toReal (area2 a b c) = 0 := by
  obtain ⟨_, p, q, ep, eq, hp, hq, hs⟩ := area2_f32 ha hb hc
  rw [(sign_of_rel hs).2]
  have hx : ∀ v w : Vec2 F32, real ℝ v = real ℝ w → toReal v.x = toReal w.x ∧ toReal v.y = toReal w.y := by
    intro v w h
    rw [← real_x, ← real_x, ← real_y, ← real_y, h]
    exact ⟨rfl, rfl⟩
  have z : ∀ {x y : F32}, SmallNum x → SmallNum y → toReal x = toReal y → toReal (x - y) = 0 := by
    intro x y h1 h2 h
    obtain ⟨_, e, _, _⟩ := small_sub h1 h2
    rw [h, sub_self, abs_zero, mul_zero] at e
    have := abs_nonpos_iff.1 e
    linarith
  have f := fun {x y : F32} (h1 : SmallNum x) (h2 : SmallNum y) => (small_sub h1 h2).1
  rcases hd with h | h | h
  · obtain ⟨h1, h2⟩ := hx _ _ h
    rw [ep, eq, (mul_zero' (f hb.1 ha.1) (f hc.2 ha.2) (by rw [z hb.1 ha.1 h1.symm, zero_mul])).2,
      (mul_zero' (f hc.1 ha.1) (f hb.2 ha.2) (by rw [z hb.2 ha.2 h2.symm, mul_zero])).2, sub_self]
  · obtain ⟨h1, h2⟩ := hx _ _ h
    have g : ∀ {x y w : F32}, SmallNum x → SmallNum y → SmallNum w → toReal x = toReal y →
        toReal (x - w) = toReal (y - w) := by
      intro x y w sx sy sw hxy
      rcases eq_of_toReal sx.1 sy.1 hxy with h | h
      · rw [h]
      · -- both zero: the difference is rounded from the same number, which is on the grid
        obtain ⟨fx, e1, _, _⟩ := small_sub sx sw
        obtain ⟨fy, e2, _, _⟩ := small_sub sy sw
        have hk : ∀ {x : F32}, SmallNum x → toReal x = 0 → toReal (x - w) = - toReal w := by
          intro x sx h0
          obtain ⟨s, m, rfl⟩ := sx.1
          obtain ⟨t, n, rfl⟩ := sw.1
          obtain ⟨fx, _, _, _⟩ := small_sub sx sw
          have hr := sub_rounds s t m n
          rw [h0, zero_sub] at hr
          obtain ⟨s', k, hk⟩ := fx
          change F32.sub (fin s m) (fin t n) = fin s' k at hk
          rw [hk] at hr
          have h5 := hr.2.1 (!t) n
          rw [show fin (!t) n = F32.neg (fin t n) from rfl, toReal_neg, sub_self, abs_zero] at h5
          have := abs_nonpos_iff.1 h5
          show toReal (F32.sub (fin s m) (fin t n)) = _
          rw [hk]
          linarith
        rw [hk sx h, hk sy (by rw [← hxy, h])]
    rw [ep, eq, show (c.x - a.x) * (b.y - a.y) = (b.y - a.y) * (c.x - a.x) from mul_comm' _ _,
      show (b.x - a.x) * (c.y - a.y) = (c.y - a.y) * (b.x - a.x) from mul_comm' _ _,
      mul_congr' (f hc.2 ha.2) (f hb.1 ha.1) (f hb.2 ha.2) (f hc.1 ha.1) (g hc.2 hb.2 ha.2 h2.symm) (g hb.1 hc.1 ha.1 h1),
      sub_self]
  · obtain ⟨h1, h2⟩ := hx _ _ h
    rw [ep, eq, (mul_zero' (f hb.1 ha.1) (f hc.2 ha.2) (by rw [z hc.2 ha.2 h2.symm, mul_zero])).2,
      (mul_zero' (f hc.1 ha.1) (f hb.2 ha.2) (by rw [z hc.1 ha.1 h1.symm, zero_mul])).2, sub_self]

/-! ### polygons -/

/-- the margin can be checked on rational numbers -/
theorem margin_rat {a b c : Vec2 F32} (h : Margin (real ℚ a) (real ℚ b) (real ℚ c)) :
    Margin (real ℝ a) (real ℝ b) (real ℝ c) := by
  unfold Margin prodP prodQ real at h ⊢
  simp only [Rat.cast_id] at h ⊢
  have h' := (Rat.cast_lt (K := ℝ)).2 h
  push_cast at h'
  exact h'

/-- coordinates up to `2^60`, and every three different points span a triangle above the margin -/
def ClearPosition (l : List (Vec2 F32)) : Prop :=
  (∀ v ∈ l, SmallPt v) ∧ ∀ a ∈ l, ∀ b ∈ l, ∀ c ∈ l, real ℝ a ≠ real ℝ b → real ℝ b ≠ real ℝ c → real ℝ a ≠ real ℝ c →
    Margin (real ℝ a) (real ℝ b) (real ℝ c)

theorem clear_sign {l : List (Vec2 F32)} (h : ClearPosition l) {a b c : Vec2 F32} (ha : a ∈ l) (hb : b ∈ l) (hc : c ∈ l) :
    (0 < toReal (area2 a b c) ↔ 0 < area2 (real ℝ a) (real ℝ b) (real ℝ c)) ∧
      (toReal (area2 a b c) = 0 ↔ area2 (real ℝ a) (real ℝ b) (real ℝ c) = 0) := by
  by_cases hd : real ℝ a = real ℝ b ∨ real ℝ b = real ℝ c ∨ real ℝ a = real ℝ c
  · have h0 := area2_degenerate (h.1 a ha) (h.1 b hb) (h.1 c hc) hd
    have h1 : area2 (real ℝ a) (real ℝ b) (real ℝ c) = 0 := by
      rw [exact_area2]
      unfold prodP prodQ
      rcases hd with e | e | e <;> rw [e] <;> ring
    rw [h0, h1]
    simp
  · push Not at hd
    exact area2_sign (h.1 a ha) (h.1 b hb) (h.1 c hc) (h.2 a ha b hb c hc hd.1 hd.2.1 hd.2.2)

theorem clear_agrees {l : List (Vec2 F32)} (h : ClearPosition l) : Agrees (fun v => v ∈ l) (real ℝ) := by
  have hp := fun {a b c : Vec2 F32} (ha : a ∈ l) (hb : b ∈ l) (hc : c ∈ l) =>
    area2_pred (area2_f32 (h.1 a ha) (h.1 b hb) (h.1 c hc)).1 (clear_sign h ha hb hc)
  refine .of_order (fun a b c ha hb hc => (hp ha hb hc).1) (fun a b c ha hb hc => (hp ha hb hc).2.1)
    (fun a b c ha hb hc => (hp ha hb hc).2.2) ?_ ?_ ?_ ?_
  · intro a b c ha hb hc
    have hf := (area2_f32 (h.1 a ha) (h.1 b hb) (h.1 c hc)).1
    have hz : |toReal (ofBits 0) + toReal (area2 a b c)| < maxHalf := by
      rw [toReal_zero, zero_add]
      obtain ⟨s, n, hn⟩ := hf
      rw [hn]
      obtain ⟨t, hle⟩ : ∃ t : ℕ, mag n ≤ mag 0x7f7fffff := ⟨0, mag_le.2 (by have := n.isLt; omega)⟩
      rw [toReal_fin, mul_div_assoc, abs_sign, abs_of_nonneg (by positivity), div_lt_iff₀ (by positivity)]
      have e : mag 0x7f7fffff = (2 ^ 24 - 1) * 2 ^ 253 := by decide +kernel
      rw [e] at hle
      have hle' : (mag n : ℝ) ≤ ((2 ^ 24 - 1) * 2 ^ 253 : ℕ) := by exact_mod_cast hle
      refine lt_of_le_of_lt hle' ?_
      unfold maxHalf
      norm_num
    have hf2 : IsFin (ofBits 0 + area2 a b c) := add_isFin zero_isFin hf hz
    have he := add_err zero_isFin hf hf2
    rw [toReal_zero, zero_add] at he
    obtain ⟨s1, s2⟩ := sign_of_rel he
    obtain ⟨c1, c2⟩ := clear_sign h ha hb hc
    have e : ((OrdScalar.zero + area2 (real ℝ a) (real ℝ b) (real ℝ c)) <. (OrdScalar.zero : ℝ)) =
        decide (0 + area2 (real ℝ a) (real ℝ b) (real ℝ c) < 0) := rfl
    rw [e, Bool.eq_iff_iff, decide_eq_true_iff, zero_add]
    show _ ↔ F32.lt (ofBits 0 + area2 a b c) (ofBits 0) = true
    rw [lt_fin hf2 zero_isFin, toReal_zero]
    have l1 : area2 (real ℝ a) (real ℝ b) (real ℝ c) < 0 ↔ ¬ (0 < area2 (real ℝ a) (real ℝ b) (real ℝ c) ∨ area2 (real ℝ a) (real ℝ b) (real ℝ c) = 0) := by
      rw [not_or, not_lt]; exact ⟨fun h => ⟨h.le, h.ne⟩, fun h => lt_of_le_of_ne h.1 h.2⟩
    have l2 : toReal (ofBits 0 + area2 a b c) < 0 ↔ ¬ (0 < toReal (ofBits 0 + area2 a b c) ∨ toReal (ofBits 0 + area2 a b c) = 0) := by
      rw [not_or, not_lt]; exact ⟨fun h => ⟨h.le, h.ne⟩, fun h => lt_of_le_of_ne h.1 h.2⟩
    rw [l1, l2, s1, s2, c1, c2]
  · intro a b ha hb
    show decide ((real ℝ a).x = (real ℝ b).x) = F32.eq a.x b.x
    rw [Bool.eq_iff_iff, decide_eq_true_iff, eq_fin (h.1 a ha).1.1 (h.1 b hb).1.1, real_x, real_x]
  · intro a b ha hb
    show decide ((real ℝ a).x ≤ (real ℝ b).x) = F32.le a.x b.x
    rw [Bool.eq_iff_iff, decide_eq_true_iff, le_fin (h.1 a ha).1.1 (h.1 b hb).1.1, real_x, real_x]
  · intro a b ha hb
    show decide ((real ℝ a).y ≤ (real ℝ b).y) = F32.le a.y b.y
    rw [Bool.eq_iff_iff, decide_eq_true_iff, le_fin (h.1 a ha).2.1 (h.1 b hb).2.1, real_y, real_y]

/-- **C88.** `triangulate` in `f32` terminates on every counter-clockwise simple polygon in clear position, and its triangles
tile the polygon. -/
theorem C88_triangulate (P : Polygon F32) (h : ClearPosition P.vertices) (hs : SimplePolygon (P.vertices.map (real ℝ)))
    (hc : 0 ≤ shoelace (P.vertices.map (real ℝ))) :
    ∃ ts, Triangulates P (.ok ts) ∧ Tiles (P.vertices.map (real ℝ)) (ts.map fun T => T.vertices.map (real ℝ)) :=
  triangulate_of_agrees P (clear_agrees h) (simple_of_spec hs) hc

/-- **C88, diagonal.** In clear position the `f32` diagonal test is true exactly for inner diagonals. -/
theorem C88_diagonal (P : Polygon F32) (h : ClearPosition P.vertices) (hs : SimplePolygon (P.vertices.map (real ℝ)))
    (hc : 0 ≤ shoelace (P.vertices.map (real ℝ))) (i j : Nat) (hi : i < P.vertices.length) (hj : j < P.vertices.length) :
    P.diagonal i j = .ok true ↔ i ≠ j ∧ ∀ x, OnSeg (real ℝ P.vertices[i]) (real ℝ P.vertices[j]) x →
      x ≠ real ℝ P.vertices[i] → x ≠ real ℝ P.vertices[j] → Inside (P.vertices.map (real ℝ)) x := by
  rw [← diagonal_map (clear_agrees h) P (fun _ hv => hv)]
  have := C77_diagonal_iff (mapP (real ℝ) P) hs hc i j (by simpa [mapP] using hi) (by simpa [mapP] using hj)
  simpa [mapP] using this

/-! ### instances -/

/-- the dart with a vertex at (1.1, 0.7): coordinates that are not on a common coarse grid -/
def dartOff : List (Vec2 F32) :=
  [⟨F32.lit 0, F32.lit 0⟩, ⟨F32.lit 4, F32.lit 0⟩, ⟨F32.lit 11 10, F32.lit 7 10⟩, ⟨F32.lit 0, F32.lit 4⟩]

theorem dartOff_clear : ClearPosition dartOff := by
  constructor
  · intro v hv
    simp only [dartOff, List.mem_cons, List.not_mem_nil, or_false] at hv
    rcases hv with rfl | rfl | rfl | rfl <;>
      exact ⟨⟨⟨_, _, rfl⟩, by decide +kernel⟩, ⟨⟨_, _, rfl⟩, by decide +kernel⟩⟩
  · intro a ha b hb c hc hab hbc hac
    have hq : ∀ a ∈ dartOff, ∀ b ∈ dartOff, ∀ c ∈ dartOff, a ≠ b → b ≠ c → a ≠ c →
        Margin (real ℚ a) (real ℚ b) (real ℚ c) := by unfold Margin; decide +kernel
    exact margin_rat (hq a ha b hb c hc (fun h => hab (by rw [h])) (fun h => hbc (by rw [h])) (fun h => hac (by rw [h])))

theorem dartOff_real : dartOff.map (real ℝ) =
    [⟨0, 0⟩, ⟨4, 0⟩, ⟨9227469 / 8388608, 11744051 / 16777216⟩, ⟨0, 4⟩] := by
  have h : dartOff.map (real ℚ) = [⟨0, 0⟩, ⟨4, 0⟩, ⟨9227469 / 8388608, 11744051 / 16777216⟩, ⟨0, 4⟩] := by decide +kernel
  simp only [dartOff, List.map_cons, List.map_nil, List.cons.injEq, real, Vec2.mk.injEq, Rat.cast_id] at h ⊢
  obtain ⟨⟨h1, h2⟩, ⟨h3, h4⟩, ⟨h5, h6⟩, ⟨h7, h8⟩, _⟩ := h
  rw [h1, h3, h5, h6]
  norm_num

theorem dartOff_simple : SimplePolygon (dartOff.map (real ℝ)) := by
  rw [dartOff_real]
  refine ⟨by decide, ?_, ?_⟩
  · simp [List.Nodup, Vec2.mk.injEq]
    norm_num
  intro i j a b c d p hij hi hi' hj hj' h1 h2
  have hil : i < 4 := (List.getElem?_eq_some_iff.1 hi).1
  have hjl : j < 4 := (List.getElem?_eq_some_iff.1 hj).1
  obtain ⟨px, py⟩ := p
  obtain ⟨t, t0, t1, tx, ty⟩ := h1
  obtain ⟨s, s0, s1, sx, sy⟩ := h2
  simp only [List.length_cons, List.length_nil] at hi' hj' ⊢
  interval_cases i <;> interval_cases j <;> first
    | exact absurd rfl hij
    | (simp only [List.getElem?_cons_zero, List.getElem?_cons_succ, Nat.reduceAdd, Nat.reduceMod, Option.some.injEq] at hi hi' hj hj'
       subst hi hi' hj hj'
       simp only at tx ty sx sy
       first
        | exact Or.inl ⟨by rw [Vec2.mk.injEq]; constructor <;> linarith, by decide⟩
        | exact Or.inr ⟨by rw [Vec2.mk.injEq]; constructor <;> linarith, by decide⟩
        | (exfalso; linarith))

example : ∃ ts, Triangulates (⟨dartOff⟩ : Polygon F32) (.ok ts) ∧
    Tiles (dartOff.map (real ℝ)) (ts.map fun T => T.vertices.map (real ℝ)) :=
  C88_triangulate ⟨dartOff⟩ dartOff_clear dartOff_simple (by
    show 0 ≤ shoelace (dartOff.map (real ℝ))
    rw [dartOff_real]
    norm_num [shoelace, crossTerm])

/-- **C87, the margin cannot be dropped.** (0.6, 0.8), (0.2, 0.4), (0.1, 0.3): `f32` says left, the exact answer is right. -/
theorem C87_counterexample :
    let a : Vec2 F32 := ⟨F32.lit 6 10, F32.lit 8 10⟩
    let b : Vec2 F32 := ⟨F32.lit 2 10, F32.lit 4 10⟩
    let c : Vec2 F32 := ⟨F32.lit 1 10, F32.lit 3 10⟩
    left a b c = true ∧ area2 (real ℚ a) (real ℚ b) (real ℚ c) < 0 := by
  decide +kernel

/-- **C87, f32 is not invariant under rotation of the arguments.** For (0.1, 0.7), (0.5, 0.3), (0.6, 0.2), `left(b, c, a)` is
true but `left(a, b, c)` is false. The opposite orientation `left(a, c, b)` is true at the same time as `left(b, c, a)`. -/
theorem C87_counterexample_rotation :
    let a : Vec2 F32 := ⟨F32.lit 1 10, F32.lit 7 10⟩
    let b : Vec2 F32 := ⟨F32.lit 5 10, F32.lit 3 10⟩
    let c : Vec2 F32 := ⟨F32.lit 6 10, F32.lit 2 10⟩
    left b c a = true ∧ left a b c = false ∧ left a c b = true := by
  decide +kernel

end Kami.Simple
