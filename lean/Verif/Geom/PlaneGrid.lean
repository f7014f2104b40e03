import Verif.Geom.GridCross
import Verif.Geom.MarginReal
/-!
# C127: points off a segment on a small whole-number grid

Between whole-number points the differences, their squares and the sum of the squares are exact, so a distance is a correctly rounded
root.  On a grid of side 40 the rounding is too small to hide the detour over a point that is not on the segment.
-/

set_option autoImplicit false

namespace Kami.Utils

open Kami.F32 Kami.DistF32 Kami.UtilThm Kami.Simple
open scoped Kami

theorem rpos_at {v : Vec2 F32} {x y : ℤ} (h : At v x y) : rpos v = ((x : ℝ), (y : ℝ)) := by rw [rpos_eq, h.1.2, h.2.2]

theorem rpos_at_ne {v w : Vec2 F32} {x y x' y' : ℤ} (h : At v x y) (h' : At w x' y') : rpos v = rpos w ↔ x = x' ∧ y = y' := by
  rw [rpos_at h, rpos_at h']
  simp

/-- the distance of whole-number points is a correctly rounded root -/
theorem dist_whole {a b : Vec2 F32} {x y x' y' : ℤ} (ha : At a x y) (hb : At b x' y') (hx : |x' - x| ≤ 2048) (hy : |y' - y| ≤ 2048) :
    IsFin (distance a b) ∧ |toReal (distance a b) - dst (rpos a) (rpos b)| ≤ u * dst (rpos a) (rpos b) := by
  have sq : ∀ m : ℤ, |m| ≤ 2048 → |m * m| ≤ 2 ^ 22 := by
    intro m h
    rw [abs_mul]
    calc |m| * |m| ≤ 2048 * 2048 := mul_le_mul h h (abs_nonneg _) (by norm_num)
      _ ≤ 2 ^ 22 := by norm_num
  have w1 := hb.1.sub ha.1 (hx.trans (by norm_num))
  have w2 := hb.2.sub ha.2 (hy.trans (by norm_num))
  have v1 := w1.mul w1 ((sq _ hx).trans (by norm_num))
  have v2 := w2.mul w2 ((sq _ hy).trans (by norm_num))
  have v := v1.add v2 ((abs_add_le _ _).trans ((add_le_add (sq _ hx) (sq _ hy)).trans (by norm_num)))
  have h0 : 0 ≤ toReal ((b.x - a.x) * (b.x - a.x) + (b.y - a.y) * (b.y - a.y)) := by
    rw [v.2]
    have : (0 : ℤ) ≤ (x' - x) * (x' - x) + (y' - y) * (y' - y) := add_nonneg (mul_self_nonneg _) (mul_self_nonneg _)
    exact_mod_cast this
  have e : dst (rpos a) (rpos b) = Real.sqrt (toReal ((b.x - a.x) * (b.x - a.x) + (b.y - a.y) * (b.y - a.y))) := by
    rw [v.2, rpos_at ha, rpos_at hb]
    unfold dst
    congr 1
    push_cast
    ring
  rw [e]
  exact ⟨sqrt_isFin v.1 h0, sqrt_err v.1 h0⟩

/-- different whole-number points are at least 1 apart -/
theorem dst_whole_ge {a b : Vec2 F32} {x y x' y' : ℤ} (ha : At a x y) (hb : At b x' y') (hne : rpos a ≠ rpos b) :
    1 ≤ dst (rpos a) (rpos b) := by
  rw [rpos_at ha, rpos_at hb]
  have h : x ≠ x' ∨ y ≠ y' := by
    by_contra hc
    push Not at hc
    exact hne ((rpos_at_ne ha hb).2 hc)
  unfold dst
  rw [Real.one_le_sqrt]
  have : (1 : ℤ) ≤ (x' - x) ^ 2 + (y' - y) ^ 2 := by
    rcases h with h | h
    · have h1 : 0 < (x' - x) ^ 2 := sq_pos_of_ne_zero (sub_ne_zero.2 (Ne.symm h))
      linarith [sq_nonneg (y' - y)]
    · have h1 : 0 < (y' - y) ^ 2 := sq_pos_of_ne_zero (sub_ne_zero.2 (Ne.symm h))
      linarith [sq_nonneg (x' - x)]
  change (1 : ℝ) ≤ ((x' : ℝ) - x) ^ 2 + ((y' : ℝ) - y) ^ 2
  exact_mod_cast this

/-- the detour over a whole-number point that is not on the segment -/
theorem excess {a b p : Vec2 F32} {x y x' y' i j : ℤ} (ha : At a x y) (hb : At b x' y') (hp : At p i j)
    (hpa : rpos p ≠ rpos a) (hpb : rpos p ≠ rpos b) (hno : ¬ OnSegR (rpos a) (rpos b) (rpos p)) :
    1 ≤ (dst (rpos a) (rpos p) + dst (rpos p) (rpos b) - dst (rpos a) (rpos b)) *
      (dst (rpos a) (rpos p) + dst (rpos p) (rpos b) + dst (rpos a) (rpos b)) * (dst (rpos a) (rpos p) * dst (rpos p) (rpos b)) := by
  have g1 := dst_whole_ge ha hp hpa.symm
  have g2 := dst_whole_ge hp hb hpb
  rw [rpos_at ha, rpos_at hb, rpos_at hp] at *
  set A := dst ((x : ℝ), (y : ℝ)) ((i : ℝ), (j : ℝ)) with hA
  set C := dst ((i : ℝ), (j : ℝ)) ((x' : ℝ), (y' : ℝ)) with hC
  set L := dst ((x : ℝ), (y : ℝ)) ((x' : ℝ), (y' : ℝ)) with hL
  have sA : A ^ 2 = (i - x) ^ 2 + (j - y) ^ 2 := Real.sq_sqrt (by positivity)
  have sC : C ^ 2 = (x' - i) ^ 2 + (y' - j) ^ 2 := Real.sq_sqrt (by positivity)
  have sL : L ^ 2 = (x' - x) ^ 2 + (y' - y) ^ 2 := Real.sq_sqrt (by positivity)
  -- cross and dot product of `a - p` and `b - p`
  set c : ℤ := (x - i) * (y' - j) - (x' - i) * (y - j) with hc
  set d : ℤ := (x - i) * (x' - i) + (y - j) * (y' - j) with hd
  have hX : (A * C) ^ 2 = (c : ℝ) ^ 2 + (d : ℝ) ^ 2 := by
    rw [mul_pow, sA, sC, hc, hd]
    push_cast
    ring
  have hE : (A + C - L) * (A + C + L) = 2 * (A * C + d) := by
    have : (A + C - L) * (A + C + L) = A ^ 2 + C ^ 2 + 2 * (A * C) - L ^ 2 := by ring
    rw [this, sA, sC, sL, hd]
    push_cast
    ring
  rw [hE]
  set X := A * C
  have hX1 : 1 ≤ X := by nlinarith
  rcases le_or_gt 1 d with h1 | h1
  · have : (1 : ℝ) ≤ d := by exact_mod_cast h1
    nlinarith
  · have hd0 : d ≤ 0 := by omega
    have hc0 : c ≠ 0 := by
      intro h0
      apply hno
      -- the parameter is `|a - p|^2 / ((a - p) (a - b))`
      have hden : (0 : ℝ) < A ^ 2 - d := by
        have : (d : ℝ) ≤ 0 := by exact_mod_cast hd0
        nlinarith
      have h0' : ((x : ℝ) - i) * (y' - j) - (x' - i) * (y - j) = 0 := by
        have : (c : ℝ) = 0 := by exact_mod_cast h0
        rw [hc] at this
        push_cast at this
        exact this
      have hdd : (d : ℝ) = (x - i) * (x' - i) + (y - j) * (y' - j) := by rw [hd]; push_cast; ring
      refine ⟨A ^ 2 / (A ^ 2 - d), by positivity, ?_, ?_⟩
      · rw [div_le_one hden]
        have : (d : ℝ) ≤ 0 := by exact_mod_cast hd0
        linarith
      · apply Prod.ext
        · simp only
          field_simp
          rw [hdd, sA]
          linear_combination ((y : ℝ) - j) * h0'
        · simp only
          field_simp
          rw [hdd, sA]
          linear_combination (-(x : ℝ) + i) * h0'
    have hc1 : (1 : ℝ) ≤ (c : ℝ) ^ 2 := by
      have : (1 : ℤ) ≤ c ^ 2 := by
        have : 0 < c ^ 2 := by positivity
        omega
      exact_mod_cast this
    have h3 : (X - d) * (X + d) = (c : ℝ) ^ 2 := by linear_combination hX
    have hd' : (d : ℝ) ≤ 0 := by exact_mod_cast hd0
    have h4 : 0 ≤ X + d := by
      by_contra hneg
      push Not at hneg
      have : 0 < X - d := by linarith
      nlinarith
    nlinarith

theorem dst_whole_le {a b : Vec2 F32} {x y x' y' : ℤ} (ha : At a x y) (hb : At b x' y') (hx : |x' - x| ≤ 2048) (hy : |y' - y| ≤ 2048) :
    dst (rpos a) (rpos b) ≤ 4096 := by
  rw [rpos_at ha, rpos_at hb]
  unfold dst
  rw [Real.sqrt_le_left (by norm_num)]
  rw [abs_le] at hx hy
  have : (x' - x) ^ 2 + (y' - y) ^ 2 ≤ 4096 ^ 2 := by nlinarith
  change ((x' : ℝ) - x) ^ 2 + ((y' : ℝ) - y) ^ 2 ≤ 4096 ^ 2
  exact_mod_cast this

/-- rounding four times does not hide the detour -/
theorem no_hide {u A C L ab ap pb : ℝ} (hu0 : 0 < u) (hu1 : u ≤ 1 / 16777216) (hL1 : 5 / 4 ≤ L) (hL : L ^ 2 ≤ 3200) (hA : 1 ≤ A) (hC : 1 ≤ C)
    (hex : 1 ≤ (A + C - L) * (A + C + L) * (A * C)) (eab : -(u * L) ≤ ab - L ∧ ab - L ≤ u * L) (eap : -(u * A) ≤ ap - A ∧ ap - A ≤ u * A)
    (epb : -(u * C) ≤ pb - C ∧ pb - C ≤ u * C) (es : -(u * (ap + pb)) ≤ ab - (ap + pb) ∧ ab - (ap + pb) ≤ u * (ap + pb)) : False := by
  obtain ⟨S, hS⟩ : ∃ S, S = A + C := ⟨_, rfl⟩
  have h1 : (1 - u) * ((1 - u) * S) ≤ (1 + u) * L := by
    have : (1 - u) * (ap + pb) ≤ ab := by linarith [es.1]
    have h2 : (1 - u) * S ≤ ap + pb := by rw [hS]; linarith [eap.1, epb.1]
    have h3 : (1 - u) * ((1 - u) * S) ≤ (1 - u) * (ap + pb) := mul_le_mul_of_nonneg_left h2 (by linarith)
    linarith [eab.2]
  have hSL : S ≤ L * (1 + 3.0001 / 16777216) := by
    have h2 : (1 - 1 / 16777216) * ((1 - 1 / 16777216) * S) ≤ (1 - u) * ((1 - u) * S) := by
      have hS0 : 0 ≤ S := by rw [hS]; linarith
      exact mul_le_mul (by linarith) (mul_le_mul_of_nonneg_right (by linarith) hS0) (mul_nonneg (by norm_num) hS0) (by linarith)
    have h3 : (1 + u) * L ≤ (1 + 1 / 16777216) * L := mul_le_mul_of_nonneg_right (by linarith) (by linarith)
    linarith
  have hE : S - L ≤ L * (3.0001 / 16777216) := by linarith
  have hAC : A * C ≤ S ^ 2 / 4 := by rw [hS]; nlinarith [sq_nonneg (A - C)]
  rw [← hS] at hex
  have hAC0 : 0 ≤ A * C := by positivity
  have hpos : 0 < S - L := by
    by_contra hc
    have : (S - L) * (S + L) * (A * C) ≤ 0 :=
      mul_nonpos_of_nonpos_of_nonneg (mul_nonpos_of_nonpos_of_nonneg (not_lt.1 hc) (by rw [hS]; linarith)) hAC0
    linarith
  have hL0 : 0 < L := by linarith
  have h4 : A * C ≤ (L * (1 + 3.0001 / 16777216)) ^ 2 / 4 :=
    hAC.trans (div_le_div_of_nonneg_right (pow_le_pow_left₀ (by linarith) hSL 2) (by norm_num))
  have h5 : (S - L) * (S + L) ≤ L * (3.0001 / 16777216) * (L * (2 + 3.0001 / 16777216)) :=
    mul_le_mul hE (by linarith) (by linarith) (by positivity)
  have h6 := mul_le_mul h5 h4 hAC0 (by positivity)
  have h7 : L * (3.0001 / 16777216) * (L * (2 + 3.0001 / 16777216)) * ((L * (1 + 3.0001 / 16777216)) ^ 2 / 4) =
      (L ^ 2) ^ 2 * (3.0001 / 16777216 * (2 + 3.0001 / 16777216) * (1 + 3.0001 / 16777216) ^ 2 / 4) := by ring
  have h8 : (L ^ 2) ^ 2 ≤ 3200 ^ 2 := pow_le_pow_left₀ (by positivity) hL 2
  rw [h7] at h6
  have h9 := mul_le_mul_of_nonneg_right h8
    (show (0 : ℝ) ≤ 3.0001 / 16777216 * (2 + 3.0001 / 16777216) * (1 + 3.0001 / 16777216) ^ 2 / 4 by positivity)
  norm_num at h6 h9 hex
  linarith

/-- **C127, the test.** For whole-number points, `a` and `b` at most 40 apart in each coordinate, `is_on_line_segment` accepts no point
that is not on the segment (and, as always, no end point). -/
theorem C127_off {a b p : Vec2 F32} {x y x' y' i j : ℤ} (ha : At a x y) (hb : At b x' y') (hp : At p i j)
    (hx : |x' - x| ≤ 40) (hy : |y' - y| ≤ 40) (hpx : |i - x| ≤ 1024) (hpy : |j - y| ≤ 1024)
    (hne : rpos a ≠ rpos b) (hno : OnSegR (rpos a) (rpos b) (rpos p) → rpos p = rpos a ∨ rpos p = rpos b) (f : Bool) :
    isOnLineSegment a b p f = false := by
  rw [← Bool.not_eq_true]
  intro hon
  rw [abs_le] at hx hy hpx hpy
  obtain ⟨fab, eab⟩ := dist_whole ha hb (abs_le.2 (by omega)) (abs_le.2 (by omega))
  obtain ⟨fap, eap⟩ := dist_whole ha hp (abs_le.2 (by omega)) (abs_le.2 (by omega))
  obtain ⟨fpb, epb⟩ := dist_whole hp hb (abs_le.2 (by omega)) (abs_le.2 (by omega))
  have zero : ∀ {v w : Vec2 F32}, rpos v = rpos w → dst (rpos v) (rpos w) = 0 := fun h => dst_eq_zero.2 h
  have hon' : (OrdScalar.abs ((distance a p + distance p b) - distance a b) <. (Scalar.epsilon : F32)) = true ∧
      ((Scalar.epsilon : F32) <. OrdScalar.abs (distance a p)) = true ∧ ((Scalar.epsilon : F32) <. OrdScalar.abs (distance p b)) = true := by
    unfold isOnLineSegment at hon
    simpa [Bool.and_eq_true, and_assoc] using hon
  obtain ⟨h1, h2, h3⟩ := hon'
  have near : ∀ {v : F32} {r : ℝ}, IsFin v → |toReal v - r| ≤ u * r → r = 0 → ((Scalar.epsilon : F32) <. OrdScalar.abs v) = true → False := by
    intro v r hv he hr hlt
    rw [hr, sub_zero, mul_zero] at he
    have hlt' := (lt_fin eps_isFin (abs_fin' hv).1).1 hlt
    rw [(abs_fin' hv).2, toReal_eps] at hlt'
    have : (0 : ℝ) < 1 / 2 ^ 23 := by positivity
    linarith
  have hpa : rpos p ≠ rpos a := by
    intro h
    exact near fap eap (zero h.symm) h2
  have hpb : rpos p ≠ rpos b := by
    intro h
    exact near fpb epb (zero h) h3
  have hno' : ¬ OnSegR (rpos a) (rpos b) (rpos p) := fun h => (hno h).elim hpa hpb
  have hex := excess ha hb hp hpa hpb hno'
  have gab := dst_whole_ge ha hb hne
  have gap := dst_whole_ge ha hp hpa.symm
  have gpb := dst_whole_ge hp hb hpb
  have hL : dst (rpos a) (rpos b) ^ 2 ≤ 3200 := by
    rw [rpos_at ha, rpos_at hb]
    unfold dst
    rw [Real.sq_sqrt (by positivity)]
    have : (x' - x) ^ 2 + (y' - y) ^ 2 ≤ 3200 := by nlinarith
    change ((x' : ℝ) - x) ^ 2 + ((y' : ℝ) - y) ^ 2 ≤ 3200
    exact_mod_cast this
  have hA : dst (rpos a) (rpos p) ≤ 4096 := dst_whole_le ha hp (abs_le.2 (by omega)) (abs_le.2 (by omega))
  have hC : dst (rpos p) (rpos b) ≤ 4096 := dst_whole_le hp hb (abs_le.2 (by omega)) (abs_le.2 (by omega))
  generalize dst (rpos a) (rpos p) = A at *
  generalize dst (rpos p) (rpos b) = C at *
  generalize dst (rpos a) (rpos b) = L at *
  rw [abs_le] at eab eap epb
  have hu : u = 1 / 2 ^ 24 := rfl
  have hu0 : (0 : ℝ) < u := by rw [hu]; positivity
  have hu1 : u ≤ 1 / 16777216 := by rw [hu]; norm_num
  have fs : IsFin (distance a p + distance p b) := add_isFin fap fpb (by
    rw [abs_lt]
    have : (10000 : ℝ) < maxHalf := by unfold maxHalf; norm_num
    constructor <;> nlinarith)
  have es := add_err fap fpb fs
  have hsum0 : 0 ≤ toReal (distance a p) + toReal (distance p b) := by nlinarith
  rw [abs_of_nonneg hsum0, abs_le] at es
  generalize hs : distance a p + distance p b = s at *
  rcases le_or_gt (5 / 4) L with hL1 | hL1
  · have hone : ((OrdScalar.one : F32) <. distance a b) = true := by
      refine (lt_fin one_isFin fab).2 ?_
      rw [toReal_one]
      nlinarith
    rw [C125_on_segment fab hone, hs, Bool.and_eq_true, Bool.and_eq_true] at hon
    have heq := (eq_fin fs fab).1 hon.1.1
    rw [heq] at es
    exact no_hide hu0 hu1 hL1 hL gap gpb hex eab eap epb es
  · have fe : IsFin (s - distance a b) := sub_isFin fs fab (by
      rw [abs_lt]
      have : (20000 : ℝ) < maxHalf := by unfold maxHalf; norm_num
      constructor <;> nlinarith)
    have ee := sub_err fs fab fe
    have hlt := (lt_fin (abs_fin' fe).1 eps_isFin).1 h1
    rw [(abs_fin' fe).2, toReal_eps] at hlt
    have hbig : 1 / 2 ≤ toReal s - toReal (distance a b) := by nlinarith
    rw [abs_of_nonneg (by linarith : (0 : ℝ) ≤ toReal s - toReal (distance a b)), abs_le] at ee
    have := le_abs_self (toReal (s - distance a b))
    have h23 : (1 : ℝ) / 2 ^ 23 < 1 / 8 := by norm_num
    have h24 := mul_le_mul_of_nonneg_right hu1 (by linarith : (0 : ℝ) ≤ toReal s - toReal (distance a b))
    linarith [ee.1]

/-- on the segment from (0, 0) to (40, 37) the near miss (13, 12) is rejected; the test is not vacuous, (20, 18) on (0, 0)-(40, 36) passes -/
example : isOnLineSegment (⟨F32.lit 0, F32.lit 0⟩ : Vec2 F32) ⟨F32.lit 40, F32.lit 37⟩ ⟨F32.lit 13, F32.lit 12⟩ false = false ∧
    isOnLineSegment (⟨F32.lit 0, F32.lit 0⟩ : Vec2 F32) ⟨F32.lit 40, F32.lit 36⟩ ⟨F32.lit 20, F32.lit 18⟩ false = true := by
  refine ⟨?_, by decide +kernel⟩
  have h : ∀ x y : ℤ, x.natAbs ≤ 2 ^ 24 → y.natAbs ≤ 2 ^ 24 → At ⟨F32.lit x, F32.lit y⟩ x y := fun x y h1 h2 => ⟨whole_lit x h1, whole_lit y h2⟩
  have h0 := h 0 0 (by norm_num) (by norm_num)
  have h1 := h 40 37 (by norm_num) (by norm_num)
  have h2 := h 13 12 (by norm_num) (by norm_num)
  refine C127_off h0 h1 h2 (by norm_num) (by norm_num) (by norm_num) (by norm_num) ?_ ?_ false
  · rw [Ne, rpos_at_ne h0 h1]; norm_num
  · rw [rpos_at h0, rpos_at h1, rpos_at h2]
    rintro ⟨t, _, _, ht⟩
    simp only [Prod.mk.injEq] at ht
    exfalso
    obtain ⟨e1, e2⟩ := ht
    push_cast at e1 e2
    linarith

/-- **C127, the test, is close to sharp.** At a distance of 49 the point (15, 16), which is not on the segment from (0, 0) to (46, 49),
is accepted. -/
theorem C127_sharp_test : isOnLineSegment (⟨F32.lit 0, F32.lit 0⟩ : Vec2 F32) ⟨F32.lit 46, F32.lit 49⟩ ⟨F32.lit 15, F32.lit 16⟩ false = true ∧
    (15 * 49 - 16 * 46 : ℤ) ≠ 0 := by
  decide +kernel

/-! ### where two segments meet -/

theorem units_zero {s : Bool} {n : Fin 0x7f800000} : n.val = 0 ↔ toReal (fin s n) = 0 := by
  rw [toReal_fin, ← mag_eq_zero]
  cases s <;> simp

/-- a quotient of whole numbers that passes the range test -/
theorem quot_in {N D : F32} {n d : ℤ} (hN : Whole N n) (hD : Whole D d) (bn : |n| ≤ 2 ^ 22) (bd : |d| ≤ 2 ^ 22)
    (h0 : ((OrdScalar.zero : F32) ≤. N / D) = true) (h1 : (N / D ≤. (OrdScalar.one : F32)) = true) :
    d ≠ 0 ∧ 0 ≤ (n : ℝ) / d ∧ (n : ℝ) / d ≤ 1 ∧ IsFin (N / D) ∧ ((n : ℝ) / d = 0 → toReal (N / D) = 0) ∧
      ((n : ℝ) / d = 1 → toReal (N / D) = 1) := by
  have hd : d ≠ 0 := by
    rintro rfl
    obtain ⟨⟨s, m, rfl⟩, _⟩ := hN
    obtain ⟨⟨t, k, rfl⟩, hz⟩ := hD
    rw [Int.cast_zero] at hz
    have hz := units_zero.2 hz
    change F32.le _ (F32.div (fin s m) (fin t k)) = true at h0
    change F32.le (F32.div (fin s m) (fin t k)) _ = true at h1
    unfold F32.div at h0 h1
    simp only [hz, ↓reduceIte] at h0 h1
    by_cases hm : m.val = 0
    · rw [if_pos hm] at h0
      cases h0
    · rw [if_neg hm] at h0 h1
      cases h : (s ^^ t)
      · rw [h] at h1
        cases h1
      · rw [h] at h0
        cases h0
  have hd' : toReal D ≠ 0 := by rw [hD.2]; exact_mod_cast hd
  have bd1 : (1 : ℝ) ≤ |(d : ℝ)| := by
    have : (1 : ℤ) ≤ |d| := Int.one_le_abs hd
    exact_mod_cast this
  have bdr : |(d : ℝ)| ≤ 2 ^ 22 := by exact_mod_cast bd
  have bnr : |(n : ℝ)| ≤ 2 ^ 22 := by exact_mod_cast bn
  have hf : IsFin (N / D) := div_isFin hN.1 hD.1 hd' (by
    rw [hN.2, hD.2, abs_div]
    calc |(n : ℝ)| / |(d : ℝ)| ≤ |(n : ℝ)| := div_le_self (abs_nonneg _) bd1
      _ ≤ 2 ^ 22 := bnr
      _ < maxHalf := by unfold maxHalf; norm_num)
  have hr := div_rnd hN.1 hD.1 hd' hf
  have he := div_err hN.1 hD.1 hd' hf
  rw [hN.2, hD.2] at hr he
  have g0 := (le_fin zero_isFin hf).1 h0
  have g1 := (le_fin hf one_isFin).1 h1
  rw [toReal_zero] at g0
  rw [toReal_one] at g1
  have hη : η ≤ 1 / 2 ^ 40 := by unfold η; norm_num
  have hu : u = 1 / 2 ^ 24 := rfl
  -- the size of a quotient that is not zero or one
  have hq : (n : ℝ) / d * d = n := div_mul_cancel₀ _ (by exact_mod_cast hd)
  obtain ⟨v, hv⟩ : ∃ v, v = (n : ℝ) / d := ⟨_, rfl⟩
  rw [← hv] at he hq hr ⊢
  obtain ⟨w, hw⟩ : ∃ w, w = toReal (N / D) := ⟨_, rfl⟩
  rw [← hw] at he g0 g1 ⊢
  have tiny : ∀ z : ℤ, z ≠ 0 → (1 : ℝ) / 2 ^ 22 ≤ |(z : ℝ) / d| := by
    intro z hz
    have : (1 : ℤ) ≤ |z| := Int.one_le_abs hz
    have hz' : (1 : ℝ) ≤ |(z : ℝ)| := by exact_mod_cast this
    rw [abs_div]
    exact div_le_div₀ (by linarith) hz' (by linarith) bdr
  refine ⟨hd, ?_, ?_, hf, ?_, ?_⟩
  · by_contra hc
    have hn : n ≠ 0 := by
      rintro rfl
      rw [hv] at hc
      simp at hc
    have h3 := tiny n hn
    rw [← hv, abs_of_neg (not_le.1 hc)] at h3
    rw [abs_of_neg (not_le.1 hc), abs_le, hu] at he
    norm_num at h3 hη
    linarith [he.2]
  · by_contra hc
    have hc' := not_le.1 hc
    have hn : n - d ≠ 0 := by
      intro h0
      rw [hv, show n = d by omega, div_self (by exact_mod_cast hd)] at hc
      exact hc le_rfl
    have h3 := tiny (n - d) hn
    rw [Int.cast_sub, sub_div, ← hv, div_self (by exact_mod_cast hd), abs_of_pos (by linarith)] at h3
    rw [abs_of_pos (by linarith : (0 : ℝ) < v), abs_le, hu] at he
    norm_num at h3 hη
    linarith [he.1]
  · intro h
    have := hr.exact_of zero_isFin (by rw [h, toReal_zero])
    rw [hw, this, h]
  · intro h
    have := hr.exact_of one_isFin (by rw [h, toReal_one])
    rw [hw, this, h]

/-- If the intersection of two segments between whole-number points is found, they meet in exact arithmetic, at `y`; and if `y` is an end
of the first one, the point found is exactly there. -/
theorem touch_grid {a b c d q : Vec2 F32} {x0 y0 x1 y1 x2 y2 x3 y3 : ℤ} (ha : At a x0 y0) (hb : At b x1 y1) (hc : At c x2 y2) (hd : At d x3 y3)
    (k1 : |x1 - x0| ≤ 1024) (k2 : |y1 - y0| ≤ 1024) (k3 : |x3 - x2| ≤ 1024) (k4 : |y3 - y2| ≤ 1024) (k5 : |x0 - x2| ≤ 1024)
    (k6 : |y0 - y2| ≤ 1024) (bx0 : |x0| ≤ 2 ^ 22) (by0 : |y0| ≤ 2 ^ 22) (bx1 : |x1| ≤ 2 ^ 22) (by1 : |y1| ≤ 2 ^ 22)
    (h : calculateLineSegmentIntersection a b c d = some q) :
    ∃ y, OnSegR (rpos a) (rpos b) y ∧ OnSegR (rpos c) (rpos d) y ∧
      (rpos a ≠ rpos b → y = rpos a → At q x0 y0) ∧ (rpos a ≠ rpos b → y = rpos b → At q x1 y1) := by
  have mb : ∀ {m n : ℤ}, |m| ≤ 1024 → |n| ≤ 1024 → |m * n| ≤ 2 ^ 20 := by
    intro m n h1 h2
    rw [abs_mul]
    calc |m| * |n| ≤ 1024 * 1024 := mul_le_mul h1 h2 (abs_nonneg _) (by norm_num)
      _ ≤ 2 ^ 20 := by norm_num
  have le24 : ∀ {m : ℤ}, |m| ≤ 2 ^ 20 → |m| ≤ 2 ^ 24 := fun h => h.trans (by norm_num)
  have s24 : ∀ {m : ℤ}, |m| ≤ 1024 → |m| ≤ 2 ^ 24 := fun h => h.trans (by norm_num)
  have add21 : ∀ {m n : ℤ}, |m| ≤ 2 ^ 20 → |n| ≤ 2 ^ 20 → |m + n| ≤ 2 ^ 22 := fun h1 h2 => (abs_add_le _ _).trans ((add_le_add h1 h2).trans (by norm_num))
  have sub21 : ∀ {m n : ℤ}, |m| ≤ 2 ^ 20 → |n| ≤ 2 ^ 20 → |m - n| ≤ 2 ^ 22 := fun h1 h2 => (abs_sub _ _).trans ((add_le_add h1 h2).trans (by norm_num))
  have n1024 : ∀ {m : ℤ}, |m| ≤ 1024 → |-m| ≤ 1024 := fun h => by rwa [abs_neg]
  have wbx := hb.1.sub ha.1 (s24 k1)
  have wby := hb.2.sub ha.2 (s24 k2)
  have wdx := hd.1.sub hc.1 (s24 k3)
  have wdy := hd.2.sub hc.2 (s24 k4)
  have wax := ha.1.sub hc.1 (s24 k5)
  have way := ha.2.sub hc.2 (s24 k6)
  have le24' : ∀ {m : ℤ}, |m| ≤ 2 ^ 22 → |m| ≤ 2 ^ 24 := fun h => h.trans (by norm_num)
  have hD := (wdx.neg.mul wby (le24 (mb (n1024 k3) k2))).add (wbx.mul wdy (le24 (mb k1 k4))) (le24' (add21 (mb (n1024 k3) k2) (mb k1 k4)))
  have hS := (wby.neg.mul wax (le24 (mb (n1024 k2) k5))).add (wbx.mul way (le24 (mb k1 k6))) (le24' (add21 (mb (n1024 k2) k5) (mb k1 k6)))
  have hT := (wdx.mul way (le24 (mb k3 k6))).sub (wdy.mul wax (le24 (mb k4 k5))) (le24' (sub21 (mb k3 k6) (mb k4 k5)))
  rw [code_eq] at h
  by_cases hcond : ((OrdScalar.zero ≤. codeS a b c d) && (codeS a b c d ≤. OrdScalar.one) && (OrdScalar.zero ≤. codeT a b c d) &&
      (codeT a b c d ≤. OrdScalar.one)) = true
  swap
  · rw [if_neg hcond] at h
    cases h
  rw [if_pos hcond] at h
  simp only [Bool.and_eq_true] at hcond
  obtain ⟨⟨⟨c1, c2⟩, c3⟩, c4⟩ := hcond
  obtain ⟨d0, s0, s1, _⟩ := quot_in hS hD (add21 (mb (n1024 k2) k5) (mb k1 k6)) (add21 (mb (n1024 k3) k2) (mb k1 k4)) c1 c2
  obtain ⟨_, t0, t1, ft, tz, tone⟩ := quot_in hT hD (sub21 (mb k3 k6) (mb k4 k5)) (add21 (mb (n1024 k3) k2) (mb k1 k4)) c3 c4
  have hd0 : ((-(x3 - x2) * (y1 - y0) + (x1 - x0) * (y3 - y2) : ℤ) : ℝ) ≠ 0 := by exact_mod_cast d0
  change IsFin (codeT a b c d) at ft
  change _ → toReal (codeT a b c d) = 0 at tz
  change _ → toReal (codeT a b c d) = 1 at tone
  obtain ⟨t, ht⟩ : ∃ t : ℝ, t = (((x3 - x2) * (y0 - y2) - (y3 - y2) * (x0 - x2) : ℤ) : ℝ) / ((-(x3 - x2) * (y1 - y0) + (x1 - x0) * (y3 - y2) : ℤ) : ℝ) := ⟨_, rfl⟩
  obtain ⟨r, hr⟩ : ∃ r : ℝ, r = ((-(y1 - y0) * (x0 - x2) + (x1 - x0) * (y0 - y2) : ℤ) : ℝ) / ((-(x3 - x2) * (y1 - y0) + (x1 - x0) * (y3 - y2) : ℤ) : ℝ) := ⟨_, rfl⟩
  rw [← ht] at t0 t1 tz tone
  rw [← hr] at s0 s1
  rw [eq_div_iff hd0] at ht hr
  push_cast at ht hr hd0
  rw [rpos_at ha, rpos_at hb, rpos_at hc, rpos_at hd]
  refine ⟨((x0 : ℝ) + t * (x1 - x0), (y0 : ℝ) + t * (y1 - y0)), ⟨t, t0, t1, rfl⟩, ⟨r, s0, s1, ?_⟩, ?_, ?_⟩
  · apply Prod.ext
    · simp only
      apply mul_right_cancel₀ hd0
      linear_combination (x1 - x0 : ℝ) * ht - (x3 - x2 : ℝ) * hr
    · simp only
      apply mul_right_cancel₀ hd0
      linear_combination (y1 - y0 : ℝ) * ht - (y3 - y2 : ℝ) * hr
  · intro hne hy
    have hz : t = 0 := by
      have h1 := congrArg Prod.fst hy
      have h2 := congrArg Prod.snd hy
      simp only at h1 h2
      by_contra ht0
      apply hne
      have h3 : (x1 : ℝ) - x0 = 0 := (mul_eq_zero.1 (by linarith : t * ((x1 : ℝ) - x0) = 0)).resolve_left ht0
      have h4 : (y1 : ℝ) - y0 = 0 := (mul_eq_zero.1 (by linarith : t * ((y1 : ℝ) - y0) = 0)).resolve_left ht0
      exact Prod.ext (by simp only; linarith) (by simp only; linarith)
    have wt : Whole (codeT a b c d) 0 := ⟨ft, by rw [tz hz]; simp⟩
    cases h
    have e1 := ha.1.add (wt.mul wbx (by simp)) (by simpa using bx0.trans (by norm_num))
    have e2 := ha.2.add (wt.mul wby (by simp)) (by simpa using by0.trans (by norm_num))
    rw [zero_mul, add_zero] at e1 e2
    exact ⟨e1, e2⟩
  · intro hne hy
    have hz : t = 1 := by
      have h1 := congrArg Prod.fst hy
      have h2 := congrArg Prod.snd hy
      simp only at h1 h2
      by_contra ht0
      apply hne
      have h3 : (x1 : ℝ) - x0 = 0 := (mul_eq_zero.1 (by linarith : (t - 1) * ((x1 : ℝ) - x0) = 0)).resolve_left (sub_ne_zero.2 ht0)
      have h4 : (y1 : ℝ) - y0 = 0 := (mul_eq_zero.1 (by linarith : (t - 1) * ((y1 : ℝ) - y0) = 0)).resolve_left (sub_ne_zero.2 ht0)
      exact Prod.ext (by simp only; linarith) (by simp only; linarith)
    have wt : Whole (codeT a b c d) 1 := ⟨ft, by rw [tone hz]; simp⟩
    cases h
    have e1 := ha.1.add (wt.mul wbx (by rw [one_mul]; exact s24 k1)) (by rw [one_mul, add_sub_cancel]; exact bx1.trans (by norm_num))
    have e2 := ha.2.add (wt.mul wby (by rw [one_mul]; exact s24 k2)) (by rw [one_mul, add_sub_cancel]; exact by1.trans (by norm_num))
    rw [one_mul, add_sub_cancel] at e1 e2
    exact ⟨e1, e2⟩

end Kami.Utils
