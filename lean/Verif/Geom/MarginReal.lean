import Verif.Geom.UtilsExact2
/-!
# Plane geometry with margins

Real geometry used to show that well separated drawings are handled correctly in spite of rounding.
-/

set_option autoImplicit false

namespace Kami.Margin

open Kami.UtilThm

/-- the point of the segment `ab` with parameter `t` -/
def at' (a b : ℝ × ℝ) (t : ℝ) : ℝ × ℝ := (a.1 + t * (b.1 - a.1), a.2 + t * (b.2 - a.2))

theorem onSeg_at' {a b p : ℝ × ℝ} : OnSegR a b p ↔ ∃ t, 0 ≤ t ∧ t ≤ 1 ∧ p = at' a b t := Iff.rfl

theorem dst_scale (x y v : ℝ × ℝ) (k : ℝ) (h1 : y.1 - x.1 = k * v.1) (h2 : y.2 - x.2 = k * v.2) :
    dst x y = |k| * Real.sqrt (v.1 ^ 2 + v.2 ^ 2) := by
  unfold dst
  rw [h1, h2, ← Real.sqrt_sq (abs_nonneg k), ← Real.sqrt_mul (sq_nonneg _), sq_abs]
  congr 1; ring

/-- a vector is bounded by its components along two transversal directions -/
theorem oblique (p q r s x y : ℝ × ℝ) :
    |crs p q r s| * dst x y ≤ |crs p q x y| * dst r s + |crs r s x y| * dst p q := by
  -- `(e × f) v = (v × f) e - (v × e) f`
  set A := crs r s x y with hA
  set C := crs p q x y with hC
  have h1 : dst (0, 0) (A * (q.1 - p.1), A * (q.2 - p.2)) = |A| * dst p q :=
    dst_scale _ _ (q.1 - p.1, q.2 - p.2) A (by simp) (by simp)
  have h2 : dst (A * (q.1 - p.1), A * (q.2 - p.2)) (A * (q.1 - p.1) - C * (s.1 - r.1), A * (q.2 - p.2) - C * (s.2 - r.2)) =
      |C| * dst r s := by
    rw [dst_scale _ _ (s.1 - r.1, s.2 - r.2) (-C) (by simp) (by simp), abs_neg]; rfl
  have h3 : dst (0, 0) (A * (q.1 - p.1) - C * (s.1 - r.1), A * (q.2 - p.2) - C * (s.2 - r.2)) = |crs p q r s| * dst x y := by
    rw [dst_scale _ _ (y.1 - x.1, y.2 - x.2) (-crs p q r s), abs_neg]
    · rfl
    · simp only [hA, hC, crs]; ring
    · simp only [hA, hC, crs]; ring
  have := dst_triangle (0, 0) (A * (q.1 - p.1), A * (q.2 - p.2))
    (A * (q.1 - p.1) - C * (s.1 - r.1), A * (q.2 - p.2) - C * (s.2 - r.2))
  rw [h1, h2, h3] at this
  linarith

theorem abs_crs_le (p q r s : ℝ × ℝ) : |crs p q r s| ≤ dst p q * dst r s := by
  apply abs_le_of_sq_le_sq _ (mul_nonneg (dst_nonneg _ _) (dst_nonneg _ _))
  rw [mul_pow, dst_sq, dst_sq]
  unfold crs
  nlinarith [sq_nonneg ((q.1 - p.1) * (s.1 - r.1) + (q.2 - p.2) * (s.2 - r.2))]

/-- the products of the coordinates of two vectors -/
theorem cross_mass (p q r s : ℝ × ℝ) : |(q.1 - p.1) * (s.2 - r.2)| + |(s.1 - r.1) * (q.2 - p.2)| ≤ dst p q * dst r s := by
  apply le_of_sq_le_sq _ (mul_nonneg (dst_nonneg _ _) (dst_nonneg _ _))
  rw [mul_pow, dst_sq, dst_sq, add_sq, sq_abs, sq_abs, mul_assoc, ← abs_mul]
  have h : |(q.1 - p.1) * (s.2 - r.2) * ((s.1 - r.1) * (q.2 - p.2))| = |((q.1 - p.1) * (s.1 - r.1)) * ((s.2 - r.2) * (q.2 - p.2))| := by
    congr 1; ring
  rw [h, abs_mul]
  nlinarith [sq_nonneg (|(q.1 - p.1) * (s.1 - r.1)| - |(s.2 - r.2) * (q.2 - p.2)|), sq_abs ((q.1 - p.1) * (s.1 - r.1)),
    sq_abs ((s.2 - r.2) * (q.2 - p.2))]

/-- how the distance from a line changes along a segment -/
theorem crs_at' (p q r a b : ℝ × ℝ) (t : ℝ) : crs p q r (at' a b t) = (1 - t) * crs p q r a + t * crs p q r b := by
  unfold crs at'; ring

/-- moving both ends of a segment moves its points at most as far -/
theorem dst_at'_le {a b a' b' : ℝ × ℝ} {δ t : ℝ} (ha : dst a' a ≤ δ) (hb : dst b' b ≤ δ) (t0 : 0 ≤ t) (t1 : t ≤ 1) :
    dst (at' a' b' t) (at' a b t) ≤ δ := by
  have h1 : dst (at' a' b' t) (at' a b' t) = (1 - t) * dst a' a := by
    rw [dst_scale _ _ (a.1 - a'.1, a.2 - a'.2) (1 - t), abs_of_nonneg (by linarith)]
    · rfl
    · simp only [at']; ring
    · simp only [at']; ring
  have h2 : dst (at' a b' t) (at' a b t) = t * dst b' b := by
    rw [dst_scale _ _ (b.1 - b'.1, b.2 - b'.2) t, abs_of_nonneg t0]
    · rfl
    · simp only [at']; ring
    · simp only [at']; ring
  have h3 := dst_triangle (at' a' b' t) (at' a b' t) (at' a b t)
  have h4 := mul_le_mul_of_nonneg_left ha (by linarith : 0 ≤ 1 - t)
  have h5 := mul_le_mul_of_nonneg_left hb t0
  rw [h1, h2] at h3
  linarith

/-- a point at least `m` away from a segment is outside its ellipse of semi-minor axis `m` -/
theorem far_ellipse {a b p : ℝ × ℝ} {m : ℝ} (hm : 0 ≤ m) (h : ∀ z, OnSegR a b z → m ≤ dst p z) :
    dst a b ^ 2 + 4 * m ^ 2 ≤ (dst a p + dst p b) ^ 2 := by
  have hL := dst_nonneg a b
  have hP := dst_nonneg a p
  have hQ := dst_nonneg p b
  -- coordinates along and across the segment, scaled by its length
  set X := dt a b a p with hX
  set Y := crs a b a p with hY
  have hL2 := dst_sq a b
  have hP2 := dst_sq a p
  have hQ2 := dst_sq p b
  have e1 : dst a b ^ 2 * dst a p ^ 2 = X ^ 2 + Y ^ 2 := by rw [hL2, hP2, hX, hY]; unfold dt crs; ring
  have e2 : dst p b ^ 2 = dst a p ^ 2 - 2 * X + dst a b ^ 2 := by rw [hL2, hP2, hQ2, hX]; unfold dt; ring
  have ma : m ≤ dst a p := by rw [dst_comm]; exact h a ⟨0, le_refl _, zero_le_one, by simp⟩
  have mb : m ≤ dst p b := h b ⟨1, zero_le_one, le_refl _, by simp⟩
  rcases le_or_gt X 0 with hX0 | hX0
  · -- before `a`
    have : dst a b ^ 2 + dst a p ^ 2 ≤ dst p b ^ 2 := by linarith
    nlinarith [mul_nonneg hP hQ, mul_le_mul ma mb hm hP, sq_nonneg (dst p b - dst a p), mul_le_mul ma ma hm hP]
  · rcases le_or_gt (dst a b ^ 2) X with hX1 | hX1
    · -- after `b`
      have : dst a b ^ 2 + dst p b ^ 2 ≤ dst a p ^ 2 := by linarith
      nlinarith [mul_nonneg hP hQ, mul_le_mul ma mb hm hP, mul_le_mul mb mb hm hQ]
    · -- in between: the foot is on the segment
      have hLpos : 0 < dst a b ^ 2 := by linarith
      set f := at' a b (X / dst a b ^ 2) with hf
      have hfm := h f ⟨X / dst a b ^ 2, by positivity, by rw [div_le_one hLpos]; exact hX1.le, rfl⟩
      have hfd : dst p f ^ 2 * dst a b ^ 2 = Y ^ 2 := by
        have : dst a p ^ 2 = (p.1 - a.1) ^ 2 + (p.2 - a.2) ^ 2 := hP2
        rw [dst_sq p f, hf]
        simp only [at']
        have e3 : ((a.1 + X / dst a b ^ 2 * (b.1 - a.1) - p.1) ^ 2 + (a.2 + X / dst a b ^ 2 * (b.2 - a.2) - p.2) ^ 2) =
            dst a p ^ 2 - 2 * (X / dst a b ^ 2) * X + (X / dst a b ^ 2) ^ 2 * dst a b ^ 2 := by
          rw [hL2, hP2, hX]
          unfold dt; ring
        have hne : dst a b ^ 2 ≠ 0 := hLpos.ne'
        have e4 : X / dst a b ^ 2 * dst a b ^ 2 = X := div_mul_cancel₀ _ hne
        rw [e3]
        linear_combination e1 + (X / dst a b ^ 2 * dst a b ^ 2 - X) * e4
      have hm2 : m ^ 2 * dst a b ^ 2 ≤ Y ^ 2 := by
        rw [← hfd]
        exact mul_le_mul_of_nonneg_right (pow_le_pow_left₀ hm hfm 2) hLpos.le
      -- `P Q L² ≥ X (L² - X) + Y²`
      have hPQ : X * (dst a b ^ 2 - X) + Y ^ 2 ≤ dst a b ^ 2 * (dst a p * dst p b) := by
        apply abs_le_of_sq_le_sq' _ (by positivity) |>.2
        have e4 : (dst a b ^ 2 * (dst a p * dst p b)) ^ 2 = (dst a b ^ 2 * dst a p ^ 2) * (dst a b ^ 2 * dst p b ^ 2) := by ring
        have e5 : dst a b ^ 2 * dst p b ^ 2 = (dst a b ^ 2 - X) ^ 2 + Y ^ 2 := by
          rw [e2]
          have : dst a b ^ 2 * (dst a p ^ 2 - 2 * X + dst a b ^ 2) = dst a b ^ 2 * dst a p ^ 2 - 2 * X * dst a b ^ 2 + (dst a b ^ 2) ^ 2 := by ring
          rw [this, e1]; ring
        rw [e4, e1, e5]
        nlinarith [sq_nonneg (Y * (dst a b ^ 2 - X) - Y * X)]
      have e6 : dst a b ^ 2 * (dst a p + dst p b) ^ 2 = 2 * (dst a b ^ 2 * dst a p ^ 2) - 2 * X * dst a b ^ 2 + (dst a b ^ 2) ^ 2 +
          2 * (dst a b ^ 2 * (dst a p * dst p b)) := by
        have : dst a b ^ 2 * (dst a p + dst p b) ^ 2 = dst a b ^ 2 * (dst a p ^ 2 + dst p b ^ 2) + 2 * (dst a b ^ 2 * (dst a p * dst p b)) := by ring
        rw [this, e2]; ring
      have h7 : dst a b ^ 2 * (dst a b ^ 2 + 4 * m ^ 2) ≤ dst a b ^ 2 * (dst a p + dst p b) ^ 2 := by
        rw [e6, e1]
        nlinarith
      exact le_of_mul_le_mul_left h7 hLpos

/-- leaving the unit interval on the way to `t` -/
theorem leave (t t1 : ℝ) (h0 : 0 ≤ t1) (h1 : t1 ≤ 1) : ∃ l, 0 ≤ l ∧ l ≤ 1 ∧
    (∀ k, l ≤ k → k ≤ 1 → 0 ≤ t + k * (t1 - t) ∧ t + k * (t1 - t) ≤ 1) ∧
    ((l = 0 ∧ 0 ≤ t ∧ t ≤ 1) ∨ t + l * (t1 - t) = 0 ∨ t + l * (t1 - t) = 1) := by
  rcases lt_or_ge t 0 with ht | ht
  · have hd : 0 < t1 - t := by linarith
    refine ⟨-t / (t1 - t), by apply div_nonneg <;> linarith, by rw [div_le_one hd]; linarith, ?_, Or.inr (Or.inl (by field_simp; ring))⟩
    intro k hk hk1
    rw [div_le_iff₀ hd] at hk
    constructor
    · linarith
    · nlinarith
  · rcases lt_or_ge 1 t with ht' | ht'
    · have hd : 0 < t - t1 := by linarith
      refine ⟨(t - 1) / (t - t1), by apply div_nonneg <;> linarith, by rw [div_le_one hd]; linarith, ?_, Or.inr (Or.inr ?_)⟩
      · intro k hk hk1
        rw [div_le_iff₀ hd] at hk
        constructor
        · nlinarith
        · nlinarith
      · have : t - t1 ≠ 0 := hd.ne'
        field_simp; ring
    · refine ⟨0, le_refl _, zero_le_one, ?_, Or.inl ⟨rfl, ht, ht'⟩⟩
      intro k hk hk1
      constructor <;> nlinarith

/-- Two segments that are not parallel and have no common point are at least as far apart as their ends are from the other
segment. -/
theorem apart_of_ends {a b c d : ℝ × ℝ} {m : ℝ} (hD : crs a b c d ≠ 0) (hno : ∀ z, OnSegR a b z → ¬ OnSegR c d z)
    (h1 : ∀ z, OnSegR c d z → m ≤ dst a z) (h2 : ∀ z, OnSegR c d z → m ≤ dst b z)
    (h3 : ∀ z, OnSegR a b z → m ≤ dst c z) (h4 : ∀ z, OnSegR a b z → m ≤ dst d z) {z w : ℝ × ℝ} (hz : OnSegR a b z)
    (hw : OnSegR c d w) : m ≤ dst z w := by
  obtain ⟨t1, t0, t1', rfl⟩ := hz
  obtain ⟨s1, s0, s1', rfl⟩ := hw
  -- where the lines meet
  set t := crs c d c a / crs a b c d with ht
  set s := crs a b c a / crs a b c d with hs
  have htD : t * crs a b c d = crs c d c a := div_mul_cancel₀ _ hD
  have hsD : s * crs a b c d = crs a b c a := div_mul_cancel₀ _ hD
  have ex : at' a b t = at' c d s := by
    have k1 : (a.1 + t * (b.1 - a.1) - (c.1 + s * (d.1 - c.1))) * crs a b c d = 0 := by
      have : (a.1 + t * (b.1 - a.1) - (c.1 + s * (d.1 - c.1))) * crs a b c d =
        (a.1 - c.1) * crs a b c d + (t * crs a b c d) * (b.1 - a.1) - (s * crs a b c d) * (d.1 - c.1) := by ring
      rw [this, htD, hsD]; unfold crs; ring
    have k2 : (a.2 + t * (b.2 - a.2) - (c.2 + s * (d.2 - c.2))) * crs a b c d = 0 := by
      have : (a.2 + t * (b.2 - a.2) - (c.2 + s * (d.2 - c.2))) * crs a b c d =
        (a.2 - c.2) * crs a b c d + (t * crs a b c d) * (b.2 - a.2) - (s * crs a b c d) * (d.2 - c.2) := by ring
      rw [this, htD, hsD]; unfold crs; ring
    have k1' := (mul_eq_zero.1 k1).resolve_right hD
    have k2' := (mul_eq_zero.1 k2).resolve_right hD
    unfold at'
    ext <;> simp only <;> linarith
  have ex1 := congrArg Prod.fst ex
  have ex2 := congrArg Prod.snd ex
  simp only [at'] at ex1 ex2
  -- on the way there the distance shrinks
  obtain ⟨l, l0, l1, lin, lout⟩ := leave t t1 t0 t1'
  obtain ⟨k, k0, k1, kin, kout⟩ := leave s s1 s0 s1'
  have hshrink : ∀ r, 0 ≤ r → r ≤ 1 → dst (at' a b (t + r * (t1 - t))) (at' c d (s + r * (s1 - s))) ≤ dst (at' a b t1) (at' c d s1) := by
    intro r r0 r1
    have e : dst (at' a b (t + r * (t1 - t))) (at' c d (s + r * (s1 - s))) = r * dst (at' a b t1) (at' c d s1) := by
      rw [dst_scale _ _ ((at' c d s1).1 - (at' a b t1).1, (at' c d s1).2 - (at' a b t1).2) r, abs_of_nonneg r0]
      · rfl
      · simp only [at']; linear_combination (1 - r) * (-ex1)
      · simp only [at']; linear_combination (1 - r) * (-ex2)
    rw [e]
    have := mul_le_mul_of_nonneg_right r1 (dst_nonneg (at' a b t1) (at' c d s1))
    linarith
  have e0 : ∀ x y : ℝ × ℝ, at' x y 0 = x := by intro x y; simp [at']
  have e1 : ∀ x y : ℝ × ℝ, at' x y 1 = y := by intro x y; simp [at']
  show m ≤ dst (at' a b t1) (at' c d s1)
  refine le_trans ?_ (hshrink (max l k) (le_max_of_le_left l0) (max_le l1 k1))
  have onab : OnSegR a b (at' a b (t + max l k * (t1 - t))) :=
    ⟨_, (lin _ (le_max_left _ _) (max_le l1 k1)).1, (lin _ (le_max_left _ _) (max_le l1 k1)).2, rfl⟩
  have oncd : OnSegR c d (at' c d (s + max l k * (s1 - s))) :=
    ⟨_, (kin _ (le_max_right _ _) (max_le l1 k1)).1, (kin _ (le_max_right _ _) (max_le l1 k1)).2, rfl⟩
  rcases le_total l k with hlk | hlk
  · rw [max_eq_right hlk] at onab oncd ⊢
    rcases kout with ⟨rfl, q0, q1⟩ | h | h
    · -- then both parameters are in the unit interval, so the segments meet
      exfalso
      have hl : l = 0 := le_antisymm hlk l0
      subst hl
      have hz := onab
      have hw := oncd
      simp only [zero_mul, add_zero] at hz hw
      rw [ex] at hz
      exact hno _ hz hw
    · rw [h, e0, dst_comm]; exact h3 _ onab
    · rw [h, e1, dst_comm]; exact h4 _ onab
  · rw [max_eq_left hlk] at onab oncd ⊢
    rcases lout with ⟨rfl, q0, q1⟩ | h | h
    · exfalso
      have hk : k = 0 := le_antisymm hlk k0
      subst hk
      have hz := onab
      have hw := oncd
      simp only [zero_mul, add_zero] at hz hw
      rw [ex] at hz
      exact hno _ hz hw
    · rw [h, e0]; exact h1 _ oncd
    · rw [h, e1]; exact h2 _ oncd

end Kami.Margin
