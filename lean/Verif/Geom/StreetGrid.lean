import Verif.Geom.PlaneGrid
/-!
# C128: streets on a small whole-number grid

Between whole-number points with differences of at most 12, a crossing at a whole-number point is found exactly in f32, and the
on-segment test of horizontal and vertical segments is exact.
-/

set_option autoImplicit false

namespace Kami.Utils

open Kami.F32 Kami.DistF32 Kami.UtilThm Kami.Simple
open scoped Kami

/-! ### quotients -/

/-- rounding has one result -/
theorem Rnd.value_unique {z : ℝ} {x y : F32} (hx : Rnd z x) (hy : Rnd z y) : toReal x = toReal y := by
  obtain ⟨_, n, h1, h2, h3⟩ := hx
  obtain ⟨_, m, k1, k2, k3⟩ := hy
  obtain rfl := h1.unique k1
  have hp : (0 : ℝ) < 2 ^ 149 := by positivity
  have h4 : |toReal x| = |toReal y| := mul_right_cancel₀ hp.ne' (h2.trans k2.symm)
  rcases eq_or_ne z 0 with hz | hz
  · have h0 : RIdx (|z| * 2 ^ 149) 0 := by
      have := ridx_mag 0
      rw [mag_zero, Nat.cast_zero] at this
      rw [hz, abs_zero, zero_mul]
      exact this
    obtain rfl := h1.unique h0
    rw [mag_zero, Nat.cast_zero] at h2 k2
    have e1 : toReal x = 0 := abs_eq_zero.1 ((mul_eq_zero.1 h2).resolve_right hp.ne')
    have e2 : toReal y = 0 := abs_eq_zero.1 ((mul_eq_zero.1 k2).resolve_right hp.ne')
    rw [e1, e2]
  · rcases abs_eq_abs.1 h4 with h5 | h5
    · exact h5
    · rw [h5] at h3
      have h6 : toReal y * z = 0 := by linarith
      have h7 := (mul_eq_zero.1 h6).resolve_right hz
      rw [h5, h7, neg_zero]

/-- all fractions with a denominator of size at most 12 -/
theorem small_back : ((List.range 25).all fun i => (List.range 25).all fun j =>
    decide ((j : ℤ) - 12 = 0) || decide ((((i : ℤ) - 12)).natAbs > ((j : ℤ) - 12).natAbs) ||
      F32.eq (F32.mul (F32.div (F32.lit ((i : ℤ) - 12)) (F32.lit ((j : ℤ) - 12))) (F32.lit ((j : ℤ) - 12))) (F32.lit ((i : ℤ) - 12))) = true := by
  decide +kernel

/-- the rounded quotient `n / d = p / q` times `q` is `p` -/
theorem quot_back {N D Q : F32} {n d p q : ℤ} (hN : Whole N n) (hD : Whole D d) (hQ : Whole Q q) (hd : d ≠ 0) (bq : |q| ≤ 12)
    (bp : |p| ≤ |q|) (h : n * q = p * d) (hf : IsFin (N / D)) : Whole (N / D * Q) p := by
  rcases eq_or_ne q 0 with rfl | hq
  · have hp0 : p = 0 := by simpa using bp
    subst hp0
    have hm : |toReal (N / D) * toReal Q| < maxHalf := by
      rw [hQ.2, Int.cast_zero, mul_zero, abs_zero]
      unfold maxHalf
      positivity
    have hfm := mul_isFin hf hQ.1 hm
    have hr := mul_rnd hf hQ.1 hfm
    refine ⟨hfm, ?_⟩
    rw [hr.exact_of zero_isFin (by rw [hQ.2, toReal_zero]; simp), hQ.2]
    simp
  obtain ⟨bq1, bq2⟩ := abs_le.1 bq
  obtain ⟨bp1, bp2⟩ := abs_le.1 (bp.trans bq)
  have hP0 := whole_lit p (by omega)
  have hQ0 := whole_lit q (by omega)
  have hq' : (q : ℝ) ≠ 0 := by exact_mod_cast hq
  have hd' : (d : ℝ) ≠ 0 := by exact_mod_cast hd
  have hz : (n : ℝ) / d = p / q := by
    rw [div_eq_div_iff hd' hq']
    exact_mod_cast h
  have hle : |(p : ℝ) / q| ≤ 1 := by
    rw [abs_div, div_le_one (abs_pos.2 hq')]
    exact_mod_cast bp
  have hf0 : IsFin (F32.lit p / F32.lit q) := div_isFin hP0.1 hQ0.1 (by rw [hQ0.2]; exact hq') (by
    rw [hP0.2, hQ0.2]
    exact hle.trans_lt (by unfold maxHalf; norm_num))
  have r0 := div_rnd hP0.1 hQ0.1 (by rw [hQ0.2]; exact hq') hf0
  have r1 := div_rnd hN.1 hD.1 (by rw [hD.2]; exact hd') hf
  rw [hP0.2, hQ0.2] at r0
  rw [hN.2, hD.2, hz] at r1
  have hv := Rnd.value_unique r1 r0
  have hle' : |toReal (F32.lit p / F32.lit q)| ≤ 1 := by
    have := r0.upper one_isFin (by rw [toReal_one, abs_one]; exact hle)
    rwa [toReal_one, abs_one] at this
  have bqr : |(q : ℝ)| ≤ 12 := by exact_mod_cast bq
  have hsm : |toReal (F32.lit p / F32.lit q) * q| < maxHalf := by
    rw [abs_mul]
    calc |toReal (F32.lit p / F32.lit q)| * |(q : ℝ)| ≤ 1 * 12 := mul_le_mul hle' bqr (abs_nonneg _) (by norm_num)
      _ < maxHalf := by unfold maxHalf; norm_num
  have hg0 : IsFin (F32.lit p / F32.lit q * F32.lit q) := mul_isFin hf0 hQ0.1 (by rw [hQ0.2]; exact hsm)
  have hg1 : IsFin (N / D * Q) := mul_isFin hf hQ.1 (by rw [hQ.2, hv]; exact hsm)
  have s0 := mul_rnd hf0 hQ0.1 hg0
  have s1 := mul_rnd hf hQ.1 hg1
  rw [hQ0.2] at s0
  rw [hQ.2, hv] at s1
  refine ⟨hg1, ?_⟩
  rw [Rnd.value_unique s1 s0]
  have hk := small_back
  rw [List.all_eq_true] at hk
  have hk := hk (p + 12).toNat (by rw [List.mem_range]; omega)
  rw [List.all_eq_true] at hk
  have hk := hk (q + 12).toNat (by rw [List.mem_range]; omega)
  have e1 : (((p + 12).toNat : ℕ) : ℤ) - 12 = p := by omega
  have e2 : (((q + 12).toNat : ℕ) : ℤ) - 12 = q := by omega
  rw [e1, e2, Bool.or_eq_true, Bool.or_eq_true, decide_eq_true_eq, decide_eq_true_eq] at hk
  rcases hk with (hk | hk) | hk
  · exact absurd hk hq
  · rw [Int.abs_eq_natAbs, Int.abs_eq_natAbs] at bp
    omega
  · rw [← hP0.2]
    exact (eq_fin hg0 hP0.1).1 hk

/-- the range test of a quotient of whole numbers is exact -/
theorem quot_test {N D : F32} {n d : ℤ} (hN : Whole N n) (hD : Whole D d) (hd : d ≠ 0) (bn : |n| ≤ 2 ^ 22)
    (bd : |d| ≤ 2 ^ 22) : IsFin (N / D) ∧
    ((((OrdScalar.zero : F32) ≤. N / D) = true ∧ (N / D ≤. (OrdScalar.one : F32)) = true) ↔ 0 ≤ (n : ℝ) / d ∧ (n : ℝ) / d ≤ 1) := by
  have hd' : toReal D ≠ 0 := by rw [hD.2]; exact_mod_cast hd
  have bd1 : (1 : ℝ) ≤ |(d : ℝ)| := by
    have : (1 : ℤ) ≤ |d| := Int.one_le_abs hd
    exact_mod_cast this
  have bnr : |(n : ℝ)| ≤ 2 ^ 22 := by exact_mod_cast bn
  have hf : IsFin (N / D) := div_isFin hN.1 hD.1 hd' (by
    rw [hN.2, hD.2, abs_div]
    calc |(n : ℝ)| / |(d : ℝ)| ≤ |(n : ℝ)| := div_le_self (abs_nonneg _) bd1
      _ ≤ 2 ^ 22 := bnr
      _ < maxHalf := by unfold maxHalf; norm_num)
  refine ⟨hf, ?_, ?_⟩
  · rintro ⟨h0, h1⟩
    obtain ⟨_, g0, g1, _⟩ := quot_in hN hD bn bd h0 h1
    exact ⟨g0, g1⟩
  · rintro ⟨g0, g1⟩
    have hr := div_rnd hN.1 hD.1 hd' hf
    rw [hN.2, hD.2] at hr
    obtain ⟨v, hv⟩ : ∃ v, v = (n : ℝ) / d := ⟨_, rfl⟩
    rw [← hv] at g0 g1 hr
    have k0 : 0 ≤ toReal (N / D) := by
      rcases g0.lt_or_eq with h | h
      · have := hr.2.choose_spec.2.2
        by_contra hc
        have := mul_neg_of_neg_of_pos (not_le.1 hc) h
        linarith
      · rw [hr.exact_of zero_isFin (by rw [← h, toReal_zero]), ← h]
    have k1 := hr.upper one_isFin (by rw [toReal_one, abs_one, abs_of_nonneg g0]; exact g1)
    rw [toReal_one, abs_one, abs_of_nonneg k0] at k1
    exact ⟨(le_fin zero_isFin hf).2 (by rw [toReal_zero]; exact k0), (le_fin hf one_isFin).2 (by rw [toReal_one]; exact k1)⟩

/-! ### where two segments meet -/

/-- **C128, the crossing.** Segments between whole-number points with differences of at most 12.  If the point where they meet in exact
arithmetic, if there is one, has whole coordinates, then f32 finds exactly this point, and none if there is none. -/
theorem C128_meet {a b c d : Vec2 F32} {x0 y0 x1 y1 x2 y2 x3 y3 : ℤ} (ha : At a x0 y0) (hb : At b x1 y1) (hc : At c x2 y2) (hd : At d x3 y3)
    (k1 : |x1 - x0| ≤ 12) (k2 : |y1 - y0| ≤ 12) (k3 : |x3 - x2| ≤ 12) (k4 : |y3 - y2| ≤ 12) (k5 : |x0 - x2| ≤ 12)
    (k6 : |y0 - y2| ≤ 12) (bx0 : |x0| ≤ 2 ^ 22) (by0 : |y0| ≤ 2 ^ 22)
    (hw : ∀ y, calculateLineSegmentIntersection (pt (rpos a)) (pt (rpos b)) (pt (rpos c)) (pt (rpos d)) = some (pt y) →
      ∃ i j : ℤ, y = ((i : ℝ), (j : ℝ))) :
    calculateLineSegmentIntersection (pt (rpos a)) (pt (rpos b)) (pt (rpos c)) (pt (rpos d)) =
      (calculateLineSegmentIntersection a b c d).map (fun v => pt (rpos v)) ∧
    ∀ q, calculateLineSegmentIntersection a b c d = some q → (∃ i j : ℤ, At q i j) ∧ OnSegR (rpos a) (rpos b) (rpos q) := by
  have mb : ∀ {m n : ℤ}, |m| ≤ 12 → |n| ≤ 12 → |m * n| ≤ 144 := by
    intro m n h1 h2
    rw [abs_mul]
    calc |m| * |n| ≤ 12 * 12 := mul_le_mul h1 h2 (abs_nonneg _) (by norm_num)
      _ ≤ 144 := by norm_num
  have le24 : ∀ {m : ℤ}, |m| ≤ 144 → |m| ≤ 2 ^ 24 := fun h => h.trans (by norm_num)
  have s24 : ∀ {m : ℤ}, |m| ≤ 12 → |m| ≤ 2 ^ 24 := fun h => h.trans (by norm_num)
  have add22 : ∀ {m n : ℤ}, |m| ≤ 144 → |n| ≤ 144 → |m + n| ≤ 2 ^ 22 := fun h1 h2 => (abs_add_le _ _).trans ((add_le_add h1 h2).trans (by norm_num))
  have sub22 : ∀ {m n : ℤ}, |m| ≤ 144 → |n| ≤ 144 → |m - n| ≤ 2 ^ 22 := fun h1 h2 => (abs_sub _ _).trans ((add_le_add h1 h2).trans (by norm_num))
  have n12 : ∀ {m : ℤ}, |m| ≤ 12 → |-m| ≤ 12 := fun h => by rwa [abs_neg]
  have wbx := hb.1.sub ha.1 (s24 k1)
  have wby := hb.2.sub ha.2 (s24 k2)
  have wdx := hd.1.sub hc.1 (s24 k3)
  have wdy := hd.2.sub hc.2 (s24 k4)
  have wax := ha.1.sub hc.1 (s24 k5)
  have way := ha.2.sub hc.2 (s24 k6)
  have le24' : ∀ {m : ℤ}, |m| ≤ 2 ^ 22 → |m| ≤ 2 ^ 24 := fun h => h.trans (by norm_num)
  have bD := add22 (mb (n12 k3) k2) (mb k1 k4)
  have bS := add22 (mb (n12 k2) k5) (mb k1 k6)
  have bT := sub22 (mb k3 k6) (mb k4 k5)
  have hD := (wdx.neg.mul wby (le24 (mb (n12 k3) k2))).add (wbx.mul wdy (le24 (mb k1 k4))) (le24' bD)
  have hS := (wby.neg.mul wax (le24 (mb (n12 k2) k5))).add (wbx.mul way (le24 (mb k1 k6))) (le24' bS)
  have hT := (wdx.mul way (le24 (mb k3 k6))).sub (wdy.mul wax (le24 (mb k4 k5))) (le24' bT)
  have eD : crs (rpos a) (rpos b) (rpos c) (rpos d) = ((-(x3 - x2) * (y1 - y0) + (x1 - x0) * (y3 - y2) : ℤ) : ℝ) := by
    rw [rpos_at ha, rpos_at hb, rpos_at hc, rpos_at hd]
    unfold crs
    push_cast
    ring
  have eS : crs (rpos a) (rpos b) (rpos c) (rpos a) = ((-(y1 - y0) * (x0 - x2) + (x1 - x0) * (y0 - y2) : ℤ) : ℝ) := by
    rw [rpos_at ha, rpos_at hb, rpos_at hc]
    unfold crs
    push_cast
    ring
  have eT : crs (rpos c) (rpos d) (rpos c) (rpos a) = (((x3 - x2) * (y0 - y2) - (y3 - y2) * (x0 - x2) : ℤ) : ℝ) := by
    rw [rpos_at ha, rpos_at hc, rpos_at hd]
    unfold crs
    push_cast
    ring
  by_cases d0 : -(x3 - x2) * (y1 - y0) + (x1 - x0) * (y3 - y2) = 0
  · have hpar := seg_parallel_none _ _ _ _ (eD.trans (by rw [d0]; simp))
    have hnone : calculateLineSegmentIntersection a b c d = none := by
      rw [code_eq]
      refine if_neg ?_
      intro hcond
      simp only [Bool.and_eq_true] at hcond
      obtain ⟨⟨⟨c1, c2⟩, _⟩, _⟩ := hcond
      exact (quot_in hS hD bS bD c1 c2).1 d0
    rw [hpar, hnone]
    exact ⟨rfl, fun q hq => by cases hq⟩
  · have hd0 : ((-(x3 - x2) * (y1 - y0) + (x1 - x0) * (y3 - y2) : ℤ) : ℝ) ≠ 0 := by exact_mod_cast d0
    have hex := seg_eq (rpos a) (rpos b) (rpos c) (rpos d) (by rw [eD]; exact hd0)
    rw [eD, eS, eT] at hex
    obtain ⟨_, tS⟩ := quot_test hS hD d0 bS bD
    obtain ⟨fT, tT⟩ := quot_test hT hD d0 bT bD
    by_cases hin : (0 ≤ ((-(y1 - y0) * (x0 - x2) + (x1 - x0) * (y0 - y2) : ℤ) : ℝ) / ((-(x3 - x2) * (y1 - y0) + (x1 - x0) * (y3 - y2) : ℤ) : ℝ) ∧
        ((-(y1 - y0) * (x0 - x2) + (x1 - x0) * (y0 - y2) : ℤ) : ℝ) / ((-(x3 - x2) * (y1 - y0) + (x1 - x0) * (y3 - y2) : ℤ) : ℝ) ≤ 1) ∧
        0 ≤ (((x3 - x2) * (y0 - y2) - (y3 - y2) * (x0 - x2) : ℤ) : ℝ) / ((-(x3 - x2) * (y1 - y0) + (x1 - x0) * (y3 - y2) : ℤ) : ℝ) ∧
        (((x3 - x2) * (y0 - y2) - (y3 - y2) * (x0 - x2) : ℤ) : ℝ) / ((-(x3 - x2) * (y1 - y0) + (x1 - x0) * (y3 - y2) : ℤ) : ℝ) ≤ 1
    · rw [if_pos hin] at hex
      obtain ⟨i, j, hij⟩ := hw _ hex
      obtain ⟨c1, c2⟩ := tS.2 hin.1
      obtain ⟨c3, c4⟩ := tT.2 hin.2
      have hcode : calculateLineSegmentIntersection a b c d =
          some ⟨a.x + codeT a b c d * (b.x - a.x), a.y + codeT a b c d * (b.y - a.y)⟩ := by
        rw [code_eq]
        refine if_pos ?_
        simp only [Bool.and_eq_true]
        exact ⟨⟨⟨c1, c2⟩, c3⟩, c4⟩
      obtain ⟨t, ht⟩ : ∃ t : ℝ, t = (((x3 - x2) * (y0 - y2) - (y3 - y2) * (x0 - x2) : ℤ) : ℝ) / ((-(x3 - x2) * (y1 - y0) + (x1 - x0) * (y3 - y2) : ℤ) : ℝ) := ⟨_, rfl⟩
      rw [← ht] at hin hij hex
      have htd := (eq_div_iff hd0).1 ht
      obtain ⟨_, t0, t1⟩ := hin
      have step : ∀ {A Q : F32} {z w m : ℤ}, Whole A z → Whole Q w → |w| ≤ 12 → |z| ≤ 2 ^ 22 → (z : ℝ) + t * w = m →
          Whole (A + codeT a b c d * Q) m := by
        intro A Q z w m hA hQ bw bz hm
        have hpr : ((m - z : ℤ) : ℝ) = t * w := by push_cast; linarith
        have hbp : |m - z| ≤ |w| := by
          have : |((m - z : ℤ) : ℝ)| ≤ |(w : ℝ)| := by
            rw [hpr, abs_mul, abs_of_nonneg t0]
            calc t * |(w : ℝ)| ≤ 1 * |(w : ℝ)| := mul_le_mul_of_nonneg_right t1 (abs_nonneg _)
              _ = |(w : ℝ)| := one_mul _
          exact_mod_cast this
        have hnq : ((x3 - x2) * (y0 - y2) - (y3 - y2) * (x0 - x2)) * w = (m - z) * (-(x3 - x2) * (y1 - y0) + (x1 - x0) * (y3 - y2)) := by
          have : ((((x3 - x2) * (y0 - y2) - (y3 - y2) * (x0 - x2) : ℤ) : ℝ)) * w =
              ((m - z : ℤ) : ℝ) * ((-(x3 - x2) * (y1 - y0) + (x1 - x0) * (y3 - y2) : ℤ) : ℝ) := by
            rw [hpr, ← htd]
            ring
          exact_mod_cast this
        have hmul : Whole (codeT a b c d * Q) (m - z) := quot_back hT hD hQ d0 bw hbp hnq fT
        have hmz := (hbp.trans bw)
        have := hA.add hmul (by
          rw [abs_le] at bz hmz ⊢
          constructor <;> omega)
        rwa [add_sub_cancel] at this
      have e1 := congrArg Prod.fst hij
      have e2 := congrArg Prod.snd hij
      simp only [rpos_at ha, rpos_at hb] at e1 e2
      have hq : At ⟨a.x + codeT a b c d * (b.x - a.x), a.y + codeT a b c d * (b.y - a.y)⟩ i j :=
        ⟨step ha.1 wbx k1 bx0 (by push_cast; exact e1), step ha.2 wby k2 by0 (by push_cast; exact e2)⟩
      rw [hcode, hex, hij]
      refine ⟨by rw [Option.map_some, rpos_at hq], ?_⟩
      intro q h
      cases h
      exact ⟨⟨i, j, hq⟩, t, t0, t1, by rw [rpos_at hq, ← hij]⟩
    · rw [if_neg hin] at hex
      have hnone : calculateLineSegmentIntersection a b c d = none := by
        rw [code_eq]
        refine if_neg ?_
        intro hcond
        simp only [Bool.and_eq_true] at hcond
        obtain ⟨⟨⟨c1, c2⟩, c3⟩, c4⟩ := hcond
        exact hin ⟨tS.1 ⟨c1, c2⟩, tT.1 ⟨c3, c4⟩⟩
      rw [hex, hnone]
      exact ⟨rfl, fun q hq => by cases hq⟩

/-! ### horizontal and vertical segments -/

/-- horizontal or vertical -/
def Straight (a b : ℝ × ℝ) : Prop := a.1 = b.1 ∨ a.2 = b.2

theorem straight_at {v w : Vec2 F32} {x y x' y' : ℤ} (h : At v x y) (h' : At w x' y') : Straight (rpos v) (rpos w) ↔ x = x' ∨ y = y' := by
  rw [rpos_at h, rpos_at h']
  unfold Straight
  simp

/-- distances along streets are exact -/
theorem dist_street {a b : Vec2 F32} {x y x' y' : ℤ} (ha : At a x y) (hb : At b x' y') (h : x = x' ∨ y = y') (hx : |x' - x| ≤ 1024)
    (hy : |y' - y| ≤ 1024) : Whole (distance a b) (|x' - x| + |y' - y|) ∧ dst (rpos a) (rpos b) = ((|x' - x| + |y' - y| : ℤ) : ℝ) := by
  have sq : ∀ m : ℤ, |m| ≤ 1024 → |m * m| ≤ 2 ^ 22 := by
    intro m h
    rw [abs_mul]
    calc |m| * |m| ≤ 1024 * 1024 := mul_le_mul h h (abs_nonneg _) (by norm_num)
      _ ≤ 2 ^ 22 := by norm_num
  have w1 := hb.1.sub ha.1 (hx.trans (by norm_num))
  have w2 := hb.2.sub ha.2 (hy.trans (by norm_num))
  have v1 := w1.mul w1 ((sq _ hx).trans (by norm_num))
  have v2 := w2.mul w2 ((sq _ hy).trans (by norm_num))
  have v := v1.add v2 ((abs_add_le _ _).trans ((add_le_add (sq _ hx) (sq _ hy)).trans (by norm_num)))
  obtain ⟨m, hm⟩ : ∃ m, m = |x' - x| + |y' - y| := ⟨_, rfl⟩
  rw [← hm]
  have hm0 : 0 ≤ m := by rw [hm]; positivity
  have hsq : (x' - x) * (x' - x) + (y' - y) * (y' - y) = m * m := by
    rcases h with rfl | rfl
    · rw [hm]; simp
    · rw [hm]; simp
  rw [hsq] at v
  have h0 : 0 ≤ toReal ((b.x - a.x) * (b.x - a.x) + (b.y - a.y) * (b.y - a.y)) := by
    rw [v.2]
    exact_mod_cast mul_self_nonneg m
  have er : Real.sqrt (toReal ((b.x - a.x) * (b.x - a.x) + (b.y - a.y) * (b.y - a.y))) = (m : ℝ) := by
    rw [v.2]
    push_cast
    exact Real.sqrt_mul_self (by exact_mod_cast hm0)
  have hr := sqrt_rnd v.1 h0
  rw [er] at hr
  have hl := whole_lit m (by
    rw [abs_le] at hx hy
    have : m ≤ 2048 := by
      rw [hm]
      have a1 := abs_le.2 hx
      have a2 := abs_le.2 hy
      omega
    omega)
  refine ⟨⟨hr.1, hr.exact_of hl.1 (by rw [hl.2])⟩, ?_⟩
  rw [← er, v.2, rpos_at ha, rpos_at hb]
  unfold dst
  congr 1
  rw [← hsq]
  push_cast
  ring

theorem eps_lt_one : XReal.epsR < 1 := by unfold XReal.epsR; norm_num

theorem onSeg_dst {a b p : ℝ × ℝ} (h : OnSegR a b p) : dst a p + dst p b = dst a b := by
  obtain ⟨t, t0, t1, rfl⟩ := h
  have e1 : dst a (a.1 + t * (b.1 - a.1), a.2 + t * (b.2 - a.2)) = t * dst a b := by
    unfold dst
    rw [← Real.sqrt_sq t0, ← Real.sqrt_mul (sq_nonneg t), Real.sqrt_sq t0]
    congr 1
    ring
  have e2 : dst (a.1 + t * (b.1 - a.1), a.2 + t * (b.2 - a.2)) b = (1 - t) * dst a b := by
    have h1 : (0 : ℝ) ≤ 1 - t := by linarith
    unfold dst
    rw [← Real.sqrt_sq h1, ← Real.sqrt_mul (sq_nonneg (1 - t))]
    congr 1
    ring
  rw [e1, e2]
  ring

/-- **C128, the test.** For whole-number points with differences of at most 12 and a horizontal or vertical segment, `is_on_line_segment`
in f32 and in exact arithmetic accepts exactly the points on the segment that are not its ends. -/
theorem C128_on {a b p : Vec2 F32} {x y x' y' i j : ℤ} (ha : At a x y) (hb : At b x' y') (hp : At p i j) (h : x = x' ∨ y = y')
    (hx : |x' - x| ≤ 12) (hy : |y' - y| ≤ 12) (hpx : |i - x| ≤ 12) (hpy : |j - y| ≤ 12) (hne : rpos a ≠ rpos b) (f : Bool) :
    (isOnLineSegment a b p f = true ↔ OnSegR (rpos a) (rpos b) (rpos p) ∧ rpos p ≠ rpos a ∧ rpos p ≠ rpos b) ∧
    (isOnLineSegment (pt (rpos a)) (pt (rpos b)) (pt (rpos p)) f = true ↔
      OnSegR (rpos a) (rpos b) (rpos p) ∧ rpos p ≠ rpos a ∧ rpos p ≠ rpos b) := by
  have epos := XReal.epsR_pos
  have e1 := eps_lt_one
  constructor
  · constructor
    · intro hon
      by_contra hc
      have := C127_off ha hb hp (hx.trans (by norm_num)) (hy.trans (by norm_num)) (hpx.trans (by norm_num)) (hpy.trans (by norm_num)) hne
        (fun hs => by
          by_contra hn
          push Not at hn
          exact hc ⟨hs, hn.1, hn.2⟩) f
      rw [this] at hon
      cases hon
    · rintro ⟨hs, n1, n2⟩
      have hsum := onSeg_dst hs
      have g1 := dst_whole_ge ha hp n1.symm
      have g2 := dst_whole_ge hp hb n2
      have hst : (x = i ∨ y = j) ∧ (i = x' ∨ j = y') := by
        obtain ⟨t, _, _, ht⟩ := hs
        rw [rpos_at ha, rpos_at hb, rpos_at hp] at ht
        have t1 := congrArg Prod.fst ht
        have t2 := congrArg Prod.snd ht
        simp only at t1 t2
        rcases h with rfl | rfl
        · rw [sub_self, mul_zero, add_zero] at t1
          have : i = x := by exact_mod_cast t1
          exact ⟨Or.inl this.symm, Or.inl this⟩
        · rw [sub_self, mul_zero, add_zero] at t2
          have : j = y := by exact_mod_cast t2
          exact ⟨Or.inr this.symm, Or.inr this⟩
      rw [abs_le] at hx hy hpx hpy
      obtain ⟨wab, dab⟩ := dist_street ha hb h (abs_le.2 (by omega)) (abs_le.2 (by omega))
      obtain ⟨wap, dap⟩ := dist_street ha hp hst.1 (abs_le.2 (by omega)) (abs_le.2 (by omega))
      obtain ⟨wpb, dpb⟩ := dist_street hp hb hst.2 (abs_le.2 (by omega)) (abs_le.2 (by omega))
      have hsumZ : |i - x| + |j - y| + (|x' - i| + |y' - j|) = |x' - x| + |y' - y| := by
        rw [dab, dap, dpb] at hsum
        exact_mod_cast hsum
      have ws := wap.add wpb (by
        rw [hsumZ, abs_of_nonneg (by positivity)]
        have a1 := abs_le.2 hx
        have a2 := abs_le.2 hy
        omega)
      refine on_of_sum wab.1 wap.1 wpb.1 ws.1 ?_ ?_ ?_ f
      · rw [ws.2, wab.2, hsumZ]
      · rw [wap.2, ← dap]; linarith
      · rw [wpb.2, ← dpb]; linarith
  · constructor
    · intro hon
      rw [onSeg_test] at hon
      obtain ⟨h1, h2, h3⟩ := hon
      have n1 : rpos p ≠ rpos a := by
        intro hc
        rw [hc, dst_eq_zero.2 rfl] at h2
        linarith
      have n2 : rpos p ≠ rpos b := by
        intro hc
        rw [hc, dst_eq_zero.2 rfl] at h3
        linarith
      refine ⟨?_, n1, n2⟩
      by_contra hc
      have hex := excess ha hb hp n1 n2 hc
      have g1 := dst_whole_ge ha hp n1.symm
      have g2 := dst_whole_ge hp hb n2
      have hL : dst (rpos a) (rpos b) ≤ 24 := by
        obtain ⟨_, dab⟩ := dist_street ha hb h (hx.trans (by norm_num)) (hy.trans (by norm_num))
        rw [dab]
        have : |x' - x| + |y' - y| ≤ 24 := by omega
        exact_mod_cast this
      have hL0 := dst_nonneg (rpos a) (rpos b)
      have he : XReal.epsR = 1 / 8388608 := by unfold XReal.epsR; norm_num
      generalize dst (rpos a) (rpos p) = A at *
      generalize dst (rpos p) (rpos b) = C at *
      generalize dst (rpos a) (rpos b) = L at *
      have hA : A ≤ 25 := by linarith
      have hC : C ≤ 25 := by linarith
      have h5 : A * C ≤ 25 * 25 := mul_le_mul hA hC (by linarith) (by norm_num)
      have h6 : 0 < A + C - L := by
        by_contra hneg
        have : (A + C - L) * (A + C + L) * (A * C) ≤ 0 :=
          mul_nonpos_of_nonpos_of_nonneg (mul_nonpos_of_nonpos_of_nonneg (not_lt.1 hneg) (by linarith)) (by positivity)
        linarith
      have h7 : (A + C - L) * (A + C + L) ≤ XReal.epsR * 80 := mul_le_mul (by linarith) (by linarith) (by linarith) epos.le
      have h8 : (A + C - L) * (A + C + L) * (A * C) ≤ XReal.epsR * 80 * (25 * 25) := mul_le_mul h7 h5 (by positivity) (by positivity)
      rw [he] at h8
      norm_num at h8
      linarith
    · rintro ⟨hs, n1, n2⟩
      have g1 := dst_whole_ge ha hp n1.symm
      have g2 := dst_whole_ge hp hb n2
      exact (C44_on_segment_partial _ _ _ f).1 hs (by linarith) (by linarith)

/-- streets between whole-number points meet in whole-number points -/
theorem street_whole {a b c d : Vec2 F32} {x0 y0 x1 y1 x2 y2 x3 y3 : ℤ} (ha : At a x0 y0) (hb : At b x1 y1) (hc : At c x2 y2) (hd : At d x3 y3)
    (h1 : x0 = x1 ∨ y0 = y1) (h2 : x2 = x3 ∨ y2 = y3) (y : ℝ × ℝ)
    (h : calculateLineSegmentIntersection (pt (rpos a)) (pt (rpos b)) (pt (rpos c)) (pt (rpos d)) = some (pt y)) :
    ∃ i j : ℤ, y = ((i : ℝ), (j : ℝ)) := by
  obtain ⟨p, hp, ⟨t, _, _, ht⟩, ⟨s, _, _, hs⟩, hcr, _⟩ := C39_sound _ _ _ _ _ h
  have hyp : y = p := by
    unfold pt at hp
    simp only [Vec2.mk.injEq, XReal.fin.injEq] at hp
    exact Prod.ext hp.1 hp.2
  subst hyp
  rw [rpos_at ha, rpos_at hb, rpos_at hc, rpos_at hd] at *
  have t1 := congrArg Prod.fst ht
  have t2 := congrArg Prod.snd ht
  have s1 := congrArg Prod.fst hs
  have s2 := congrArg Prod.snd hs
  simp only at t1 t2 s1 s2
  rcases h1 with rfl | rfl <;> rcases h2 with rfl | rfl
  · exact absurd (by unfold crs; simp) hcr
  · refine ⟨x0, y2, Prod.ext ?_ ?_⟩
    · rw [t1]; ring
    · rw [s2]; ring
  · refine ⟨x2, y0, Prod.ext ?_ ?_⟩
    · rw [s1]; ring
    · rw [t2]; ring
  · exact absurd (by unfold crs; simp) hcr

/-- the hypotheses of `C128_meet` and `C128_on` for a crossing at (5, 3) -/
example : (calculateLineSegmentIntersection (⟨F32.lit 0, F32.lit 3⟩ : Vec2 F32) ⟨F32.lit 12, F32.lit 3⟩ ⟨F32.lit 5, F32.lit 12⟩ ⟨F32.lit 5, F32.lit 0⟩ =
      some ⟨F32.lit 5, F32.lit 3⟩) ∧
    isOnLineSegment (⟨F32.lit 0, F32.lit 3⟩ : Vec2 F32) ⟨F32.lit 12, F32.lit 3⟩ ⟨F32.lit 5, F32.lit 3⟩ false = true := by
  decide +kernel

theorem lit_at (x y : ℤ) (hx : x.natAbs ≤ 2 ^ 24) (hy : y.natAbs ≤ 2 ^ 24) : At ⟨F32.lit x, F32.lit y⟩ x y := ⟨whole_lit x hx, whole_lit y hy⟩

/-- also for directions other than the axes: the diagonals of (0, 0)-(12, 8) meet in (6, 4), found exactly -/
example : calculateLineSegmentIntersection (pt ((0 : ℝ), (0 : ℝ))) (pt (12, 8)) (pt (0, 8)) (pt (12, 0)) = some (pt (6, 4)) ∧
    calculateLineSegmentIntersection (⟨F32.lit 0, F32.lit 0⟩ : Vec2 F32) ⟨F32.lit 12, F32.lit 8⟩ ⟨F32.lit 0, F32.lit 8⟩ ⟨F32.lit 12, F32.lit 0⟩ =
      some ⟨F32.lit 6, F32.lit 4⟩ := by
  refine ⟨?_, by decide +kernel⟩
  rw [seg_eq _ _ _ _ (by norm_num [crs])]
  norm_num [crs]

/-- **C128 is sharp for the size.** Over a length of 13 the crossing at (7, 0) is found next to it. -/
theorem C128_sharp_size :
    calculateLineSegmentIntersection (pt ((0 : ℝ), (0 : ℝ))) (pt (13, 0)) (pt (7, -1)) (pt (7, 1)) = some (pt (7, 0)) ∧
    calculateLineSegmentIntersection (⟨F32.lit 0, F32.lit 0⟩ : Vec2 F32) ⟨F32.lit 13, F32.lit 0⟩ ⟨F32.lit 7, F32.lit (-1)⟩ ⟨F32.lit 7, F32.lit 1⟩ =
      some ⟨F32.lit (7 * 2 ^ 21 + 1) (2 ^ 21), F32.lit 0⟩ := by
  refine ⟨?_, by decide +kernel⟩
  rw [seg_eq _ _ _ _ (by norm_num [crs])]
  norm_num [crs]

/-- **C128 is sharp for the directions.** On the diagonal from (0, 0) to (7, 7) the point (1, 1) is rejected in f32. -/
theorem C128_sharp_diagonal (f : Bool) :
    isOnLineSegment (pt ((0 : ℝ), (0 : ℝ))) (pt (7, 7)) (pt (1, 1)) f = true ∧
    isOnLineSegment (⟨F32.lit 0, F32.lit 0⟩ : Vec2 F32) ⟨F32.lit 7, F32.lit 7⟩ ⟨F32.lit 1, F32.lit 1⟩ f = false := by
  refine ⟨?_, by cases f <;> decide +kernel⟩
  have h0 := lit_at 0 0 (by norm_num) (by norm_num)
  have h1 := lit_at 7 7 (by norm_num) (by norm_num)
  have h2 := lit_at 1 1 (by norm_num) (by norm_num)
  have r0 : rpos ⟨F32.lit 0, F32.lit 0⟩ = (0, 0) := by rw [rpos_at h0]; norm_num
  have r1 : rpos ⟨F32.lit 7, F32.lit 7⟩ = (7, 7) := by rw [rpos_at h1]; norm_num
  have r2 : rpos ⟨F32.lit 1, F32.lit 1⟩ = (1, 1) := by rw [rpos_at h2]; norm_num
  have g1 := dst_whole_ge h0 h2 (by rw [r0, r2]; norm_num)
  have g2 := dst_whole_ge h2 h1 (by rw [r1, r2]; norm_num)
  rw [r0, r2] at g1
  rw [r1, r2] at g2
  have := eps_lt_one
  exact (C44_on_segment_partial _ _ _ f).1 ⟨1 / 7, by norm_num, by norm_num, by norm_num⟩ (by linarith) (by linarith)

end Kami.Utils
