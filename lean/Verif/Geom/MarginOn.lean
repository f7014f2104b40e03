import Verif.Geom.MarginCross
/-!
# The on-segment test for a node known up to an error, in f32
-/

set_option autoImplicit false

namespace Kami.Margin

open Kami Kami.F32 Kami.Utils Kami.UtilThm Kami.Simple Kami.DistF32
open scoped Kami

variable {B θ μ κ δ : ℝ} {A A' a b p : ℝ × ℝ} {a' b' p' : Vec2 F32}

/-- deviation from a segment is deviation from its parts -/
theorem dev_part (ha : OnSegR A A' a) (hb : OnSegR A A' b) {v : ℝ × ℝ} (h : |crs A A' A v| ≤ κ * dst A A') :
    |crs a b a v| ≤ κ * dst a b := by
  obtain ⟨s, s0, s1, rfl⟩ := ha
  obtain ⟨t, t0, t1, rfl⟩ := hb
  have e1 : dst (A.1 + s * (A'.1 - A.1), A.2 + s * (A'.2 - A.2)) (A.1 + t * (A'.1 - A.1), A.2 + t * (A'.2 - A.2)) = |t - s| * dst A A' := by
    rw [dst_scale _ _ (A'.1 - A.1, A'.2 - A.2) (t - s) (by simp only; ring) (by simp only; ring)]; rfl
  have e2 : crs (A.1 + s * (A'.1 - A.1), A.2 + s * (A'.2 - A.2)) (A.1 + t * (A'.1 - A.1), A.2 + t * (A'.2 - A.2))
      (A.1 + s * (A'.1 - A.1), A.2 + s * (A'.2 - A.2)) v = (t - s) * crs A A' A v := by
    unfold crs; simp only; ring
  rw [e1, e2, abs_mul]
  have := mul_le_mul_of_nonneg_left h (abs_nonneg (t - s))
  linarith

theorem abs_dt_le (p q r s : ℝ × ℝ) : |dt p q r s| ≤ dst p q * dst r s := by
  apply abs_le_of_sq_le_sq _ (mul_nonneg (dst_nonneg _ _) (dst_nonneg _ _))
  rw [mul_pow, dst_sq, dst_sq]
  unfold dt
  nlinarith [sq_nonneg ((q.1 - p.1) * (s.2 - r.2) - (q.2 - p.2) * (s.1 - r.1))]

/-- a vector is hardly longer than its component along a line it hardly deviates from -/
theorem dst_le_along {x y : ℝ × ℝ} {h : ℝ} (hL : 0 < dst a b) (h0 : 0 < h) (h1 : h * dst a b ≤ dt a b x y)
    (hx : |crs a b a x| ≤ κ * dst a b) (hy : |crs a b a y| ≤ κ * dst a b) :
    dst x y * dst a b ≤ dt a b x y + 2 * κ ^ 2 / h * dst a b := by
  set L := dst a b
  set D := dt a b x y
  have hD : 0 < D := lt_of_lt_of_le (mul_pos h0 hL) h1
  have e : (dst x y * L) ^ 2 = D ^ 2 + crs a b x y ^ 2 := by
    rw [mul_pow, dst_sq, dst_sq]; simp only [D]; unfold dt crs; ring
  have hc : |crs a b x y| ≤ 2 * κ * L := by
    rw [crs_sub _ _ a]
    have := abs_sub (crs a b a y) (crs a b a x)
    linarith
  have hc2 : crs a b x y ^ 2 ≤ (2 * κ * L) ^ 2 := sq_le_sq' (abs_le.1 hc).1 (abs_le.1 hc).2
  have hk : 0 ≤ 2 * κ ^ 2 / h * L := by positivity
  apply le_of_sq_le_sq _ (by linarith)
  rw [e]
  have h2 : 4 * κ ^ 2 * L ^ 2 ≤ 2 * D * (2 * κ ^ 2 / h * L) := by
    have h3 : h * L * (2 * (2 * κ ^ 2 / h * L)) ≤ D * (2 * (2 * κ ^ 2 / h * L)) := mul_le_mul_of_nonneg_right h1 (by linarith)
    have e3 : h * L * (2 * (2 * κ ^ 2 / h * L)) = 4 * κ ^ 2 * L ^ 2 := by field_simp; ring
    linarith
  nlinarith [sq_nonneg (2 * κ ^ 2 / h * L)]

/-- a node strictly inside an edge is found there -/
theorem on_true (hs : Sizes B θ μ κ δ) (hκu : κ ≤ 4 * u) (hμ : 1 / 2 ^ 19 ≤ μ) (sa : SmallPt a') (sb : SmallPt b') (sp : SmallPt p')
    (hab : dst (rpos a') (rpos b') ≤ 1 / 256) (hp : OnSegR a b p) (fa : μ ≤ dst a p) (fb : μ ≤ dst p b)
    (na : dst (rpos a') a ≤ δ) (nb : dst (rpos b') b ≤ δ) (np : dst (rpos p') p ≤ δ)
    (da : |crs a b a (rpos a')| ≤ κ * dst a b) (db : |crs a b a (rpos b')| ≤ κ * dst a b) (dp : |crs a b a (rpos p')| ≤ κ * dst a b) :
    isOnLineSegment a' b' p' false = true := by
  obtain ⟨t, t0, t1, hpt⟩ := hp
  have hμ0 := hs.μ0
  have hδ := hs.hδ
  have hu := u_pos
  have eap : dst a p = t * dst a b := by
    rw [hpt, dst_scale _ _ (b.1 - a.1, b.2 - a.2) t (by simp) (by simp), abs_of_nonneg t0]; rfl
  have epb : dst p b = (1 - t) * dst a b := by
    rw [hpt, dst_scale _ _ (b.1 - a.1, b.2 - a.2) (1 - t) (by simp; ring) (by simp; ring), abs_of_nonneg (by linarith)]; rfl
  have hL : 0 < dst a b := by
    rcases eq_or_lt_of_le (dst_nonneg a b) with h | h
    · rw [← h, mul_zero] at eap; linarith
    · exact h
  have hap : dt a b a p = dst a p * dst a b := by
    rw [eap, mul_assoc, ← sq, dst_sq, hpt]; unfold dt; ring
  have hpb : dt a b p b = dst p b * dst a b := by
    rw [epb, mul_assoc, ← sq, dst_sq, hpt]; unfold dt; ring
  -- components along the edge
  have move : ∀ {x y x' y' : ℝ × ℝ}, dst x' x ≤ δ → dst y' y ≤ δ → dt a b x y - 2 * δ * dst a b ≤ dt a b x' y' := by
    intro x y x' y' hx hy
    have e : dt a b x' y' = dt a b x y + dt a b x' x - dt a b y' y := by unfold dt; ring
    have h1 := (abs_le.1 (abs_dt_le a b x' x)).1
    have h2 := (abs_le.1 (abs_dt_le a b y' y)).2
    have h3 := mul_le_mul_of_nonneg_left hx hL.le
    have h4 := mul_le_mul_of_nonneg_left hy hL.le
    rw [e]; linarith
  have m1 := move na np
  have m2 := move np nb
  have hh : 0 < 15 / 16 * μ := by linarith
  have k1 : 15 / 16 * μ * dst a b ≤ dt a b (rpos a') (rpos p') := by
    rw [hap] at m1
    have : (15 / 16 * μ) * dst a b ≤ (dst a p - 2 * δ) * dst a b := mul_le_mul_of_nonneg_right (by linarith) hL.le
    linarith
  have k2 : 15 / 16 * μ * dst a b ≤ dt a b (rpos p') (rpos b') := by
    rw [hpb] at m2
    have : (15 / 16 * μ) * dst a b ≤ (dst p b - 2 * δ) * dst a b := mul_le_mul_of_nonneg_right (by linarith) hL.le
    linarith
  have g1 := dst_le_along hL hh k1 da dp
  have g2 := dst_le_along hL hh k2 dp db
  have g3 : dt a b (rpos a') (rpos p') + dt a b (rpos p') (rpos b') ≤ dst (rpos a') (rpos b') * dst a b := by
    have e : dt a b (rpos a') (rpos p') + dt a b (rpos p') (rpos b') = dt a b (rpos a') (rpos b') := by unfold dt; ring
    rw [e, mul_comm]
    exact (le_abs_self _).trans (abs_dt_le _ _ _ _)
  have hex : 2 * κ ^ 2 / (15 / 16 * μ) ≤ u / 4 := by
    rw [div_le_iff₀ hh]
    have h1 : κ * κ ≤ κ * (4 * u) := mul_le_mul_of_nonneg_left hκu hs.κ0
    have h2 : κ ≤ μ / 64 := by have := hs.hκ; have := hs.θμ; linarith
    have h3 : κ * (4 * u) ≤ μ / 64 * (4 * u) := mul_le_mul_of_nonneg_right h2 (by linarith)
    have h4 : 0 < u * μ := mul_pos hu hμ0
    rw [sq]
    linarith
  have g4 : (dst (rpos a') (rpos p') + dst (rpos p') (rpos b')) * dst a b ≤ (dst (rpos a') (rpos b') + u / 2) * dst a b := by
    have := mul_le_mul_of_nonneg_right hex hL.le
    linarith
  have g5 := le_of_mul_le_mul_right g4 hL
  have len : ∀ {x y : ℝ × ℝ}, 15 / 16 * μ * dst a b ≤ dt a b x y → 1 / 2 ^ 21 ≤ dst x y := by
    intro x y h
    have h1 := (le_abs_self _).trans (abs_dt_le a b x y)
    have h2 : 15 / 16 * μ * dst a b ≤ dst x y * dst a b := by linarith
    have h3 := le_of_mul_le_mul_right h2 hL
    have h4 : (1 : ℝ) / 2 ^ 21 ≤ 15 / 16 * (1 / 2 ^ 19) := by norm_num
    linarith
  exact on_accept sa sb sp hab g5 (len k1) (len k2)

/-- a node away from an edge is not found on it -/
theorem on_false (hs : Sizes B θ μ κ δ) (hμ : 1 / 2 ^ 19 ≤ μ) (hμB : 8 * (u * B) ≤ μ ^ 2) (sa : SmallPt a') (sb : SmallPt b') (sp : SmallPt p')
    (hab : dst (rpos a') (rpos b') ≤ 1 / 256) (hab4 : dst (rpos a') (rpos b') ≤ 4 * B)
    (na : dst (rpos a') a ≤ δ) (nb : dst (rpos b') b ≤ δ) (np : dst (rpos p') p ≤ δ)
    (hfar : ∀ z, OnSegR a b z → μ ≤ dst p z) : isOnLineSegment a' b' p' false = false := by
  rw [← Bool.not_eq_true]
  intro hc
  have h1 := on_excess sa sb sp hab hc
  have hδ := hs.hδ
  have hμ0 := hs.μ0
  have hu := u_pos
  have h2 : dst (rpos a') (rpos b') ^ 2 + 4 * (15 / 16 * μ + μ / 64) ^ 2 ≤ (dst (rpos a') (rpos p') + dst (rpos p') (rpos b')) ^ 2 := by
    apply far_ellipse (by linarith)
    rintro z ⟨t, t0, t1, rfl⟩
    have h3 := hfar _ (at'_seg t0 t1 : OnSegR a b (at' a b t))
    have h4 := dst_at'_le na nb t0 t1
    have h5 := dst_triangle p (rpos p') (at' (rpos a') (rpos b') t)
    have h6 := dst_triangle p (at' (rpos a') (rpos b') t) (at' a b t)
    rw [dst_comm p (rpos p')] at h5
    change 15 / 16 * μ + μ / 64 ≤ dst (rpos p') (at' (rpos a') (rpos b') t)
    linarith
  have h0 := dst_nonneg (rpos a') (rpos b')
  have h0' := dst_nonneg (rpos a') (rpos p')
  have h0'' := dst_nonneg (rpos p') (rpos b')
  have h3 : (dst (rpos a') (rpos p') + dst (rpos p') (rpos b')) ^ 2 ≤ (dst (rpos a') (rpos b') + 3 * u) ^ 2 :=
    pow_le_pow_left₀ (by linarith) h1 2
  have h4 : u * dst (rpos a') (rpos b') ≤ u * (4 * B) := mul_le_mul_of_nonneg_left hab4 hu.le
  have h5 : u ^ 2 ≤ μ ^ 2 / 1024 := by
    have h6 : u ≤ μ / 32 := by
      have : u ≤ 1 / 2 ^ 19 / 32 := by unfold u; norm_num
      linarith
    have := pow_le_pow_left₀ hu.le h6 2
    have e : (μ / 32) ^ 2 = μ ^ 2 / 1024 := by ring
    linarith
  have h6 : 0 < μ ^ 2 := by positivity
  nlinarith

end Kami.Margin
