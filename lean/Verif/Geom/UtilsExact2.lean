import Verif.Geom.UtilsExact
/-!
# C39-C44, C48: intersections, perpendiculars, membership in a segment
-/

set_option autoImplicit false

namespace Kami.UtilThm

open Kami Kami.Utils

noncomputable section

/-! ## C39, C40 -/

theorem seg_parallel_none (a b c d : ℝ × ℝ) (h : crs a b c d = 0) :
    calculateLineSegmentIntersection (pt a) (pt b) (pt c) (pt d) = none := by
  unfold calculateLineSegmentIntersection
  simp only [pt_x, pt_y, XReal.fin_sub, XReal.fin_neg, XReal.fin_mul, XReal.fin_add, XReal.fin_zero, XReal.fin_one]
  have e : -(d.1 - c.1) * (b.2 - a.2) + (b.1 - a.1) * (d.2 - c.2) = 0 := by unfold crs at h; linarith
  rw [e, XReal.fin_div_zero]
  split
  · simp
  · generalize XReal.sgn _ = s
    cases s <;> simp

theorem seg_eq (a b c d : ℝ × ℝ) (h : crs a b c d ≠ 0) :
    calculateLineSegmentIntersection (pt a) (pt b) (pt c) (pt d) =
      if (0 ≤ crs a b c a / crs a b c d ∧ crs a b c a / crs a b c d ≤ 1) ∧
        (0 ≤ crs c d c a / crs a b c d ∧ crs c d c a / crs a b c d ≤ 1) then
        some (pt (a.1 + crs c d c a / crs a b c d * (b.1 - a.1), a.2 + crs c d c a / crs a b c d * (b.2 - a.2)))
      else none := by
  unfold calculateLineSegmentIntersection
  simp only [pt_x, pt_y, XReal.fin_sub, XReal.fin_neg, XReal.fin_mul, XReal.fin_add, XReal.fin_zero, XReal.fin_one]
  have e : -(d.1 - c.1) * (b.2 - a.2) + (b.1 - a.1) * (d.2 - c.2) = crs a b c d := by unfold crs; ring
  have e1 : -(b.2 - a.2) * (a.1 - c.1) + (b.1 - a.1) * (a.2 - c.2) = crs a b c a := by unfold crs; ring
  have e2 : (d.1 - c.1) * (a.2 - c.2) - (d.2 - c.2) * (a.1 - c.1) = crs c d c a := by unfold crs; ring
  rw [e, e1, e2, XReal.fin_div _ _ h, XReal.fin_div _ _ h]
  simp only [XReal.fin_le, XReal.fin_mul, XReal.fin_add, Bool.and_eq_true, decide_eq_true_eq, and_assoc]
  rfl

theorem common_params (a b c d : ℝ × ℝ) (h : crs a b c d ≠ 0) (t s : ℝ)
    (hx : a.1 + t * (b.1 - a.1) = c.1 + s * (d.1 - c.1)) (hy : a.2 + t * (b.2 - a.2) = c.2 + s * (d.2 - c.2)) :
    t = crs c d c a / crs a b c d ∧ s = crs a b c a / crs a b c d := by
  constructor
  · rw [eq_div_iff h]; unfold crs
    linear_combination (d.2 - c.2) * hx - (d.1 - c.1) * hy
  · rw [eq_div_iff h]; unfold crs
    linear_combination (b.2 - a.2) * hx - (b.1 - a.1) * hy

/-- C39: a returned point lies on both closed segments; the segments are not parallel and share no other point. -/
theorem C39_sound (a b c d : ℝ × ℝ) (q : Vec2 XReal)
    (h : calculateLineSegmentIntersection (pt a) (pt b) (pt c) (pt d) = some q) :
    ∃ p, q = pt p ∧ OnSegR a b p ∧ OnSegR c d p ∧ crs a b c d ≠ 0 ∧
      ∀ p', OnSegR a b p' → OnSegR c d p' → p' = p := by
  have h0 : crs a b c d ≠ 0 := by
    intro h0; rw [seg_parallel_none a b c d h0] at h; cases h
  rw [seg_eq a b c d h0] at h
  split at h
  · rename_i hc
    obtain ⟨⟨s0, s1⟩, t0, t1⟩ := hc
    cases h
    refine ⟨_, rfl, ⟨_, t0, t1, rfl⟩, ⟨_, s0, s1, ?_⟩, h0, ?_⟩
    · ext
      · simp only
        field_simp
        unfold crs; ring
      · simp only
        field_simp
        unfold crs; ring
    · rintro p' ⟨t, _, _, rfl⟩ ⟨s, _, _, hp⟩
      have hx := congrArg Prod.fst hp
      have hy := congrArg Prod.snd hp
      simp only at hx hy
      obtain ⟨rfl, _⟩ := common_params a b c d h0 t s hx hy
      rfl
  · cases h

/-- C40 for segments that are not parallel: `None` exactly when they share no point.  Missing: parallel segments, for
which the answer is always `None` (`C40_counterexample`). -/
theorem C40_complete_partial (a b c d : ℝ × ℝ) (h0 : crs a b c d ≠ 0) :
    calculateLineSegmentIntersection (pt a) (pt b) (pt c) (pt d) = none ↔ ¬ ∃ p, OnSegR a b p ∧ OnSegR c d p := by
  constructor
  · rintro h ⟨p, ⟨t, t0, t1, rfl⟩, ⟨s, s0, s1, hp⟩⟩
    have hx := congrArg Prod.fst hp
    have hy := congrArg Prod.snd hp
    simp only at hx hy
    obtain ⟨rfl, rfl⟩ := common_params a b c d h0 t s hx hy
    rw [seg_eq a b c d h0, if_pos ⟨⟨s0, s1⟩, t0, t1⟩] at h
    cases h
  · intro h
    by_contra hc
    obtain ⟨q, hq⟩ := Option.ne_none_iff_exists'.1 hc
    obtain ⟨p, _, h1, h2, _⟩ := C39_sound a b c d q hq
    exact h ⟨p, h1, h2⟩

/-- C40 is false for parallel segments: two segments of one line that meet in a single end point. -/
theorem C40_counterexample : ∃ a b c d : ℝ × ℝ,
    calculateLineSegmentIntersection (pt a) (pt b) (pt c) (pt d) = none ∧ ∃ p, OnSegR a b p ∧ OnSegR c d p := by
  refine ⟨(0, 0), (1, 0), (1, 0), (2, 0), seg_parallel_none _ _ _ _ (by norm_num [crs]), (1, 0),
    ⟨1, by norm_num, by norm_num, by norm_num⟩, ⟨0, by norm_num, by norm_num, by norm_num⟩⟩

/-- **C40, exact form.** It returns None if and only if the segments are parallel (or one of them is a point) or have no point
in common. -/
theorem C40_exact (a b c d : ℝ × ℝ) :
    calculateLineSegmentIntersection (pt a) (pt b) (pt c) (pt d) = none ↔
      (b.1 - a.1) * (d.2 - c.2) = (b.2 - a.2) * (d.1 - c.1) ∨ ¬ ∃ p, OnSegR a b p ∧ OnSegR c d p := by
  have hc : crs a b c d = 0 ↔ (b.1 - a.1) * (d.2 - c.2) = (b.2 - a.2) * (d.1 - c.1) := by
    unfold crs
    constructor <;> intro h <;> linarith
  rw [← hc]
  by_cases h : crs a b c d = 0
  · simp only [h, true_or, iff_true]
    exact seg_parallel_none a b c d h
  · simp only [h, false_or]
    exact C40_complete_partial a b c d h

example : crs (0, 0) (2, 2) (0, 2) (2, 0) ≠ 0 ∧
    calculateLineSegmentIntersection (pt (0, 0)) (pt (2, 2)) (pt (0, 2)) (pt (2, 0)) = some (pt (1, 1)) := by
  have h : crs (0, 0) (2, 2) (0, 2) (2, 0) ≠ 0 := by norm_num [crs]
  refine ⟨h, ?_⟩
  rw [seg_eq _ _ _ _ h, if_pos (by norm_num [crs])]
  norm_num [crs]

/-! ## C41, C42 -/

/-- C41: for `a ≠ b` the result is the point of the line `ab` where the perpendicular through `p` meets it, and no point
of the line is nearer to `p`. -/
theorem C41_perpendicular (a b p : ℝ × ℝ) (h : a ≠ b) :
    ∃ q, calculatePerpendicularPoint (pt a) (pt b) (pt p) = pt q ∧ OnLineR a b q ∧ dt p q a b = 0 ∧
      ∀ r, OnLineR a b r → dst p q ≤ dst p r := by
  have hd : (b.2 - a.2) * (b.2 - a.2) + (b.1 - a.1) * (b.1 - a.1) ≠ 0 := by
    have h2 : 0 < dst a b ^ 2 := by have := dst_pos h; positivity
    rw [dst_sq] at h2; nlinarith
  set k := ((b.2 - a.2) * (p.1 - a.1) - (b.1 - a.1) * (p.2 - a.2)) /
    ((b.2 - a.2) * (b.2 - a.2) + (b.1 - a.1) * (b.1 - a.1)) with hk
  have hk2 := (eq_div_iff hd).1 hk
  have hline : OnLineR a b (p.1 - k * (b.2 - a.2), p.2 + k * (b.1 - a.1)) := by
    obtain ⟨τ, hτ⟩ : ∃ τ, τ * ((b.2 - a.2) * (b.2 - a.2) + (b.1 - a.1) * (b.1 - a.1)) =
        (p.1 - a.1) * (b.1 - a.1) + (p.2 - a.2) * (b.2 - a.2) := ⟨_, div_mul_cancel₀ _ hd⟩
    refine ⟨τ, ?_⟩
    ext
    · apply mul_right_cancel₀ hd
      simp only
      linear_combination (-(b.2 - a.2)) * hk2 - (b.1 - a.1) * hτ
    · apply mul_right_cancel₀ hd
      simp only
      linear_combination (b.1 - a.1) * hk2 - (b.2 - a.2) * hτ
  have hperp : dt p (p.1 - k * (b.2 - a.2), p.2 + k * (b.1 - a.1)) a b = 0 := by unfold dt; simp only; ring
  refine ⟨_, ?_, hline, hperp, ?_⟩
  · unfold calculatePerpendicularPoint
    simp only [pt_x, pt_y, XReal.fin_sub, XReal.fin_mul, XReal.fin_add]
    rw [XReal.fin_div _ _ hd, ← hk]
    simp only [XReal.fin_sub, XReal.fin_mul, XReal.fin_add]
    rfl
  · rintro r ⟨t, rfl⟩
    obtain ⟨u, hu⟩ := hline
    apply Real.sqrt_le_sqrt
    unfold dt at hperp
    have hx := congrArg Prod.fst hu
    have hy := congrArg Prod.snd hu
    simp only at hx hy hperp ⊢
    rw [hx, hy] at hperp ⊢
    have e : (a.1 + t * (b.1 - a.1) - p.1) ^ 2 + (a.2 + t * (b.2 - a.2) - p.2) ^ 2 =
        (a.1 + u * (b.1 - a.1) - p.1) ^ 2 + (a.2 + u * (b.2 - a.2) - p.2) ^ 2 + ((t - u) * (b.1 - a.1)) ^ 2 +
          ((t - u) * (b.2 - a.2)) ^ 2 := by linear_combination (2 * (t - u)) * hperp
    rw [e]
    nlinarith [sq_nonneg ((t - u) * (b.1 - a.1)), sq_nonneg ((t - u) * (b.2 - a.2))]

example : calculatePerpendicularPoint (pt (0, 0)) (pt (2, 0)) (pt (5, 3)) = pt (5, 0) := by
  unfold calculatePerpendicularPoint
  simp only [pt_x, pt_y, XReal.fin_sub, XReal.fin_mul, XReal.fin_add]
  rw [XReal.fin_div _ _ (by norm_num)]
  simp only [XReal.fin_sub, XReal.fin_mul, XReal.fin_add]
  norm_num [pt]

theorem midpoint_pt (a b : ℝ × ℝ) :
    calculateMidpoint (pt a) (pt b) = pt ((a.1 + b.1) / 2, (a.2 + b.2) / 2) := by
  unfold calculateMidpoint Vec2.add Vec2.scale
  simp only [XReal.fin_add, XReal.fin_half, XReal.fin_mul, pt, Vec2.mk.injEq, XReal.fin.injEq]
  constructor <;> ring

/-- C42: the midpoint is symmetric in the end points, on the segment, and at half the distance from both ends. -/
theorem C42_midpoint (a b : ℝ × ℝ) :
    calculateMidpoint (pt a) (pt b) = calculateMidpoint (pt b) (pt a) ∧
    ∃ m, calculateMidpoint (pt a) (pt b) = pt m ∧ OnSegR a b m ∧ dst a m = dst a b / 2 ∧ dst m b = dst a b / 2 := by
  have hh : ∀ x y : ℝ, Real.sqrt ((x / 2) ^ 2 + (y / 2) ^ 2) = Real.sqrt (x ^ 2 + y ^ 2) / 2 := by
    intro x y
    have : (x / 2) ^ 2 + (y / 2) ^ 2 = (x ^ 2 + y ^ 2) / 2 ^ 2 := by ring
    rw [this, Real.sqrt_div (by positivity), Real.sqrt_sq (by norm_num)]
  refine ⟨?_, _, midpoint_pt a b, ⟨1 / 2, by norm_num, by norm_num, ?_⟩, ?_, ?_⟩
  · rw [midpoint_pt, midpoint_pt, add_comm a.1, add_comm a.2]
  · ext <;> simp only <;> ring
  · unfold dst
    rw [← hh]; congr 2 <;> ring
  · unfold dst
    rw [← hh]; congr 2 <;> ring

/-- C42, any arithmetic with commutative addition (f32 included): symmetry. -/
theorem C42_symmetric {F : Type} [Scalar F] (hadd : ∀ x y : F, x + y = y + x) (a b : Vec2 F) :
    calculateMidpoint a b = calculateMidpoint b a := by
  unfold calculateMidpoint Vec2.add
  rw [hadd a.x, hadd a.y]

/-! ## C43 -/

theorem bisector_oblique (a b : ℝ × ℝ) (o : ℝ) (hx : a.1 ≠ b.1) (hy : a.2 ≠ b.2) :
    calculatePerpendicularBisector (pt a) (pt b) (.fin o) =
      (pt ((a.1 + b.1) / 2, (a.2 + b.2) / 2),
       pt ((a.1 + b.1) / 2 + o, (a.2 + b.2) / 2 - o * ((b.1 - a.1) / (b.2 - a.2)))) := by
  have h1 : b.1 - a.1 ≠ 0 := sub_ne_zero.2 hx.symm
  have h2 : b.2 - a.2 ≠ 0 := sub_ne_zero.2 hy.symm
  unfold calculatePerpendicularBisector
  simp only [midpoint_pt, Vec2.add, pt_x, pt_y, XReal.fin_sub, XReal.fin_zero, XReal.fin_one, XReal.fin_neg,
    XReal.fin_add]
  rw [XReal.fin_div _ _ h1, XReal.fin_div _ _ (div_ne_zero h2 h1)]
  simp only [XReal.fin_mul, XReal.fin_sub, XReal.fin_add, Prod.mk.injEq, true_and, pt, Vec2.mk.injEq, XReal.fin.injEq]
  field_simp
  ring

theorem bisector_vertical (a b : ℝ × ℝ) (o : ℝ) (hx : a.1 = b.1) (hy : a.2 ≠ b.2) :
    calculatePerpendicularBisector (pt a) (pt b) (.fin o) =
      (pt ((a.1 + b.1) / 2, (a.2 + b.2) / 2), pt ((a.1 + b.1) / 2 + o, (a.2 + b.2) / 2)) := by
  have h2 : b.2 - a.2 ≠ 0 := sub_ne_zero.2 hy.symm
  unfold calculatePerpendicularBisector
  simp only [midpoint_pt, Vec2.add, pt_x, pt_y, XReal.fin_sub, XReal.fin_zero, XReal.fin_one, XReal.fin_neg,
    XReal.fin_add]
  rw [sub_eq_zero.2 hx.symm, XReal.fin_div_zero, if_neg h2]
  have e : ∀ s, XReal.fin (-1) / XReal.inf s = .fin 0 := fun s => rfl
  rw [e]
  simp only [XReal.fin_mul, XReal.fin_sub, XReal.fin_add, Prod.mk.injEq, true_and, pt, Vec2.mk.injEq, XReal.fin.injEq]
  ring

/-- C43 for segments that are not horizontal: the first point is the midpoint, the second a point of the perpendicular
bisector; its distance from the midpoint is `|offset| * |ab| / |b.y - a.y|`, which is `|offset|` exactly for vertical
segments (or `offset = 0`).  Missing: the requested distance, and horizontal segments (`C43_counterexample`,
`C43_horizontal`). -/
theorem C43_bisector_partial (a b : ℝ × ℝ) (o : ℝ) (hy : a.2 ≠ b.2) :
    ∃ m q, calculatePerpendicularBisector (pt a) (pt b) (.fin o) = (pt m, pt q) ∧
      calculateMidpoint (pt a) (pt b) = pt m ∧ dst a q = dst b q ∧ dt m q a b = 0 ∧
      dst m q = |o| * dst a b / |b.2 - a.2| ∧ (dst m q = |o| ↔ a.1 = b.1 ∨ o = 0) := by
  have h2 : b.2 - a.2 ≠ 0 := sub_ne_zero.2 hy.symm
  have hform : calculatePerpendicularBisector (pt a) (pt b) (.fin o) =
      (pt ((a.1 + b.1) / 2, (a.2 + b.2) / 2),
       pt ((a.1 + b.1) / 2 + o, (a.2 + b.2) / 2 - o * ((b.1 - a.1) / (b.2 - a.2)))) := by
    by_cases hx : a.1 = b.1
    · rw [bisector_vertical a b o hx hy, sub_eq_zero.2 hx.symm]; simp
    · exact bisector_oblique a b o hx hy
  have hdist : dst ((a.1 + b.1) / 2, (a.2 + b.2) / 2)
      ((a.1 + b.1) / 2 + o, (a.2 + b.2) / 2 - o * ((b.1 - a.1) / (b.2 - a.2))) = |o| * dst a b / |b.2 - a.2| := by
    unfold dst
    simp only
    rw [← Real.sqrt_sq_eq_abs, ← Real.sqrt_sq_eq_abs (b.2 - a.2), ← Real.sqrt_mul (sq_nonneg _), ← Real.sqrt_div']
    · congr 1; field_simp; ring
    · exact sq_nonneg _
  refine ⟨_, _, hform, midpoint_pt a b, ?_, ?_, hdist, ?_⟩
  · unfold dst; congr 1; simp only; field_simp; ring
  · unfold dt; simp only; field_simp; ring
  · rw [hdist]
    have hp : 0 < |b.2 - a.2| := abs_pos.2 h2
    rw [div_eq_iff hp.ne']
    constructor
    · intro h
      by_cases ho : o = 0
      · exact Or.inr ho
      · left
        have h3 : dst a b = |b.2 - a.2| := mul_left_cancel₀ (abs_pos.2 ho).ne' h
        have h4 := dst_sq a b
        rw [h3, sq_abs] at h4
        have h5 : (b.1 - a.1) ^ 2 = 0 := by linarith
        have := pow_eq_zero_iff (n := 2) (by norm_num) |>.1 h5
        linarith
    · rintro (h | h)
      · congr 1
        unfold dst
        rw [sub_eq_zero.2 h.symm, ← Real.sqrt_sq_eq_abs]
        congr 1; ring
      · rw [h]; simp

/-- C43 fails for horizontal segments: the second point has no finite coordinate. -/
theorem C43_horizontal (a b : ℝ × ℝ) (o : ℝ) (hx : a.1 ≠ b.1) (hy : a.2 = b.2) (r : ℝ) :
    (calculatePerpendicularBisector (pt a) (pt b) (.fin o)).2.y ≠ .fin r := by
  have h1 : b.1 - a.1 ≠ 0 := sub_ne_zero.2 hx.symm
  unfold calculatePerpendicularBisector
  simp only [midpoint_pt, Vec2.add, pt_x, pt_y, XReal.fin_sub, XReal.fin_zero, XReal.fin_one, XReal.fin_neg,
    XReal.fin_add]
  rw [sub_eq_zero.2 hy.symm, XReal.fin_div _ _ h1, zero_div, XReal.fin_div_zero, if_neg (by norm_num)]
  have hm : ∀ (s : Bool) (x : ℝ), (∃ t, XReal.inf s * .fin x = .inf t) ∨ XReal.inf s * .fin x = .nan := by
    intro s x
    by_cases hx : x = 0
    · right; show (if x = 0 then _ else _) = _; rw [if_pos hx]
    · left; refine ⟨s ^^ XReal.sgn x, ?_⟩; show (if x = 0 then _ else _) = _; rw [if_neg hx]
  have hm' : ∀ (s : Bool) (x : ℝ), (∃ t, XReal.fin x * .inf s = .inf t) ∨ XReal.fin x * .inf s = .nan := by
    intro s x
    by_cases hx : x = 0
    · right; show (if x = 0 then _ else _) = _; rw [if_pos hx]
    · left; refine ⟨XReal.sgn x ^^ s, ?_⟩; show (if x = 0 then _ else _) = _; rw [if_neg hx]
  have hadd : ∀ x y : XReal, ((∃ t, x = .inf t) ∨ x = .nan) → x + y ≠ .fin r := by
    rintro x y (⟨t, rfl⟩ | rfl)
    · cases y with
      | nan => exact fun h => by cases h
      | inf u =>
        intro h
        have h' : (if t = u then XReal.inf t else .nan) = .fin r := h
        split at h' <;> cases h'
      | fin u => exact fun h => by cases h
    · cases y <;> exact fun h => by cases h
  apply hadd
  exact hm' _ _

/-- C43 is false: asked for a point at distance 1, the code returns one at distance √2. -/
theorem C43_counterexample : ∃ (a b m q : ℝ × ℝ),
    calculatePerpendicularBisector (pt a) (pt b) (.fin 1) = (pt m, pt q) ∧ dst m q = Real.sqrt 2 := by
  refine ⟨(0, 0), (2, 2), (1, 1), (2, 0), ?_, ?_⟩
  · rw [bisector_oblique _ _ _ (by norm_num) (by norm_num)]
    norm_num
  · unfold dst; norm_num

/-! ## C44 -/

/-- the test, in terms of distances -/
theorem onSeg_test (a b p : ℝ × ℝ) (f : Bool) : isOnLineSegment (pt a) (pt b) (pt p) f = true ↔
    dst a p + dst p b < dst a b + XReal.epsR ∧ XReal.epsR < dst a p ∧ XReal.epsR < dst p b := by
  unfold isOnLineSegment
  simp only [distance_pt, XReal.fin_add, XReal.fin_sub, XReal.fin_abs, XReal.eps_def, XReal.fin_lt, Bool.and_eq_true,
    decide_eq_true_eq, and_assoc]
  rw [abs_of_nonneg (dst_nonneg a p), abs_of_nonneg (dst_nonneg p b),
    abs_of_nonneg (sub_nonneg.2 (dst_triangle a p b)), sub_lt_iff_lt_add']

/-- C44 except for the flag: true for points of the segment farther than epsilon from both ends, false within epsilon
of an end, true only inside the ellipse `|ap| + |pb| < |ab| + eps`.  Missing: `include_endpoints` has no effect
(`C44_counterexample`). -/
theorem C44_on_segment_partial (a b p : ℝ × ℝ) (f : Bool) :
    (OnSegR a b p → XReal.epsR < dst a p → XReal.epsR < dst p b → isOnLineSegment (pt a) (pt b) (pt p) f = true) ∧
    ((dst a p ≤ XReal.epsR ∨ dst p b ≤ XReal.epsR) → isOnLineSegment (pt a) (pt b) (pt p) f = false) ∧
    (isOnLineSegment (pt a) (pt b) (pt p) f = true → dst a p + dst p b < dst a b + XReal.epsR) := by
  refine ⟨fun h h1 h2 => ?_, fun h => ?_, fun h => ((onSeg_test a b p f).1 h).1⟩
  · rw [onSeg_test]
    refine ⟨?_, h1, h2⟩
    have : dst a p + dst p b ≤ dst a b := by
      rw [dst_add_le_iff]
      obtain ⟨t, t0, t1, rfl⟩ := h
      unfold crs dt
      simp only
      refine ⟨by ring, ?_⟩
      have : 0 ≤ t * (1 - t) := mul_nonneg t0 (by linarith)
      nlinarith [mul_nonneg this (sq_nonneg (b.1 - a.1)), mul_nonneg this (sq_nonneg (b.2 - a.2))]
    have := XReal.epsR_pos
    linarith
  · rw [← Bool.not_eq_true, onSeg_test]
    rintro ⟨_, h1, h2⟩
    rcases h with h | h <;> linarith

/-- C44: the accepted points are within `sqrt (eps * (|ab| + eps))` of the line through the segment. -/
theorem C44_near_line (a b p : ℝ × ℝ) (f : Bool) (hab : a ≠ b)
    (h : isOnLineSegment (pt a) (pt b) (pt p) f = true) :
    (crs a b a p / dst a b) ^ 2 ≤ XReal.epsR * (dst a b + XReal.epsR) := by
  rw [onSeg_test] at h
  obtain ⟨h1, _, _⟩ := h
  have n1 := dst_nonneg a p
  have n2 := dst_nonneg p b
  have pab := dst_pos hab
  have s1 := dst_sq a p
  have s2 := dst_sq p b
  have s3 := dst_sq a b
  rw [div_pow, div_le_iff₀ (by positivity)]
  -- 16 area² = ((s)² - c²)(c² - (ap - pb)²)
  have key : 4 * crs a b a p ^ 2 = ((dst a p + dst p b) ^ 2 - dst a b ^ 2) *
      (dst a b ^ 2 - (dst a p - dst p b) ^ 2) := by
    have e : ((dst a p + dst p b) ^ 2 - dst a b ^ 2) * (dst a b ^ 2 - (dst a p - dst p b) ^ 2) =
        2 * (dst a p ^ 2 * dst p b ^ 2 + dst p b ^ 2 * dst a b ^ 2 + dst a b ^ 2 * dst a p ^ 2) -
        (dst a p ^ 2) ^ 2 - (dst p b ^ 2) ^ 2 - (dst a b ^ 2) ^ 2 := by ring
    rw [e, s1, s2, s3]; unfold crs; ring
  have he := XReal.epsR_pos
  set s := dst a p + dst p b
  set c := dst a b
  have hs : c ≤ s := dst_triangle a p b
  have b1 : s ^ 2 - c ^ 2 ≤ XReal.epsR * (2 * c + XReal.epsR) := by nlinarith
  have b2 : c ^ 2 - (dst a p - dst p b) ^ 2 ≤ c ^ 2 := by nlinarith [sq_nonneg (dst a p - dst p b)]
  have b0 : 0 ≤ s ^ 2 - c ^ 2 := by nlinarith
  have : 4 * crs a b a p ^ 2 ≤ XReal.epsR * (2 * c + XReal.epsR) * c ^ 2 := by
    rw [key]
    calc (s ^ 2 - c ^ 2) * (c ^ 2 - (dst a p - dst p b) ^ 2) ≤ (s ^ 2 - c ^ 2) * c ^ 2 :=
          mul_le_mul_of_nonneg_left b2 b0
      _ ≤ _ := mul_le_mul_of_nonneg_right b1 (sq_nonneg c)
  have hc2 : 0 < c ^ 2 := by positivity
  nlinarith [mul_pos he hc2, mul_pos (mul_pos he he) hc2, mul_pos (mul_pos he pab) hc2]

/-- the flag `include_endpoints` is ignored, in any arithmetic -/
theorem C44_flag_ignored {F : Type} [Scalar F] (a b p : Vec2 F) (f g : Bool) :
    isOnLineSegment a b p f = isOnLineSegment a b p g := rfl

/-- C44 is false for the flag: an end point is rejected although end points are asked for. -/
theorem C44_counterexample : ∃ a b : ℝ × ℝ, a ≠ b ∧ isOnLineSegment (pt a) (pt b) (pt a) true = false := by
  refine ⟨(0, 0), (1, 0), by simp, ((C44_on_segment_partial _ _ _ true).2.1 (Or.inl ?_))⟩
  rw [dst_eq_zero.2 rfl]; exact XReal.epsR_pos.le

example : OnSegR (0, 0) (2, 0) (1, 0) ∧ XReal.epsR < dst (0, 0) (1, 0) ∧ XReal.epsR < dst (1, 0) (2, 0) := by
  refine ⟨⟨1 / 2, by norm_num, by norm_num, by norm_num⟩, ?_, ?_⟩
  · unfold dst XReal.epsR; norm_num
  · unfold dst XReal.epsR; norm_num

/-! ## C48 -/

/-- C48, exactly: a point is returned if and only if the determinant exceeds epsilon in absolute value and the common
point of the lines lies on both segments; it is then that common point.  Missing: common points outside the segments,
which the documentation promises (`C48_counterexample`), and lines with a small determinant. -/
theorem C48_line_intersection_partial (a b c d : ℝ × ℝ) (q : Vec2 XReal) :
    calculateLineIntersection (pt a) (pt b) (pt c) (pt d) = some q ↔
      XReal.epsR < |crs a b c d| ∧ ∃ p, q = pt p ∧ OnSegR a b p ∧ OnSegR c d p := by
  have hform : calculateLineIntersection (pt a) (pt b) (pt c) (pt d) =
      if XReal.epsR < |crs a b c d| then calculateLineSegmentIntersection (pt a) (pt b) (pt c) (pt d) else none := by
    unfold calculateLineIntersection
    simp only [pt_x, pt_y, XReal.fin_sub, XReal.fin_mul, XReal.fin_zero, XReal.fin_one, XReal.fin_abs,
      XReal.eps_def, XReal.fin_lt, decide_eq_true_eq]
    have e : (d.2 - c.2) * (b.1 - a.1) - (d.1 - c.1) * (b.2 - a.2) = crs a b c d := by unfold crs; ring
    have e1 : (d.1 - c.1) * (a.2 - c.2) - (d.2 - c.2) * (a.1 - c.1) = crs c d c a := by unfold crs; ring
    have e2 : (b.1 - a.1) * (a.2 - c.2) - (b.2 - a.2) * (a.1 - c.1) = crs a b c a := by unfold crs; ring
    rw [e, e1, e2]
    split
    · rename_i h
      have h0 : crs a b c d ≠ 0 := by
        intro h0; rw [h0, abs_zero] at h; exact absurd h (not_lt.2 XReal.epsR_pos.le)
      rw [XReal.fin_div _ _ h0, XReal.fin_div _ _ h0, seg_eq a b c d h0]
      simp only [XReal.fin_le, XReal.fin_mul, XReal.fin_add, Bool.and_eq_true, decide_eq_true_eq, Bool.not_eq_true',
        ← Bool.not_eq_true]
      by_cases hc : (0 ≤ crs c d c a / crs a b c d ∧ crs c d c a / crs a b c d ≤ 1) ∧
          (0 ≤ crs a b c a / crs a b c d ∧ crs a b c a / crs a b c d ≤ 1)
      · rw [if_neg (not_not.2 hc), if_pos ⟨hc.2, hc.1⟩]; rfl
      · rw [if_pos hc, if_neg (fun h => hc ⟨h.2, h.1⟩)]
    · rfl
  rw [hform]
  constructor
  · intro h
    split at h
    · rename_i hd
      obtain ⟨p, h1, h2, h3, _⟩ := C39_sound a b c d q h
      exact ⟨hd, p, h1, h2, h3⟩
    · cases h
  · rintro ⟨hd, p, rfl, h2, h3⟩
    rw [if_pos hd]
    have h0 : crs a b c d ≠ 0 := by
      intro h0; rw [h0, abs_zero] at hd; exact absurd hd (not_lt.2 XReal.epsR_pos.le)
    cases hr : calculateLineSegmentIntersection (pt a) (pt b) (pt c) (pt d) with
    | none => exact absurd ⟨p, h2, h3⟩ ((C40_complete_partial a b c d h0).1 hr)
    | some q =>
      obtain ⟨p', rfl, _, _, _, hu⟩ := C39_sound a b c d q hr
      rw [hu p h2 h3]

/-- C48 is false: the lines through these segments are perpendicular and meet in `(3, 0)`, outside the first segment. -/
theorem C48_counterexample : ∃ a b c d p : ℝ × ℝ, dt a b c d = 0 ∧ a ≠ b ∧ c ≠ d ∧ OnLineR a b p ∧ OnLineR c d p ∧
    calculateLineIntersection (pt a) (pt b) (pt c) (pt d) = none := by
  refine ⟨(0, 0), (1, 0), (3, -1), (3, 1), (3, 0), by norm_num [dt], by simp, by norm_num, ⟨3, by norm_num⟩,
    ⟨1 / 2, by norm_num⟩, ?_⟩
  rw [Option.eq_none_iff_forall_ne_some]
  intro q hq
  obtain ⟨_, p, _, ⟨t, t0, t1, hp⟩, ⟨s, _, _, hp'⟩⟩ := (C48_line_intersection_partial _ _ _ _ q).1 hq
  rw [hp] at hp'
  have := congrArg Prod.fst hp'
  norm_num at this
  linarith

end

end Kami.UtilThm
