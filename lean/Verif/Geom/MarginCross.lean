import Verif.Geom.MarginF32
/-!
# A piece of an old segment against a new segment, in f32

The nodes of the piece are known up to an error; the ends of the new segment are exact.
-/

set_option autoImplicit false

namespace Kami.Margin

open Kami Kami.F32 Kami.Utils Kami.UtilThm Kami.Simple Kami.DistF32
open Kami.UtilsF32 (dst_le_coord abs_fst_le)
open scoped Kami

/-- numbers: size `B` of the drawing, sine `θ` of the least angle, least distance `μ`, deviation `κ` of nodes from the line of their
segment, error `δ` of node positions -/
structure Sizes (B θ μ κ δ : ℝ) : Prop where
  B0 : 0 < B
  θ0 : 0 < θ
  θ1 : θ ≤ 1
  μ0 : 0 < μ
  κ0 : 0 ≤ κ
  δ0 : 0 ≤ δ
  hδ : 64 * δ ≤ μ
  hκ : 64 * κ ≤ θ * μ
  hν : 2 ^ 14 * (u * B) ≤ θ * μ

/-- the piece between the nodes `a'`, `b'`, whose true positions `a`, `b` are on the segment `A A'`; the new segment is `c d` -/
structure Piece (B μ κ δ : ℝ) (A A' a b : ℝ × ℝ) (a' b' c d : Vec2 F32) : Prop where
  quad : Quad B a' b' c d
  on_a : OnSegR A A' a
  on_b : OnSegR A A' b
  near_a : dst (rpos a') a ≤ δ
  near_b : dst (rpos b') b ≤ δ
  dev_a : |crs A A' A (rpos a')| ≤ κ * dst A A'
  dev_b : |crs A A' A (rpos b')| ≤ κ * dst A A'
  len : μ ≤ dst a b

theorem at'_seg {a b : ℝ × ℝ} {t : ℝ} (h0 : 0 ≤ t) (h1 : t ≤ 1) : OnSegR a b (at' a b t) := ⟨t, h0, h1, rfl⟩

theorem crs_self_on {A A' a : ℝ × ℝ} (h : OnSegR A A' a) : crs A A' A a = 0 := by
  obtain ⟨t, _, _, rfl⟩ := h
  unfold crs; ring

theorem crs_sub (p q r x y : ℝ × ℝ) : crs p q x y = crs p q r y - crs p q r x := by unfold crs; ring

theorem crs_swap (p q r s : ℝ × ℝ) : crs r s p q = - crs p q r s := by unfold crs; ring

section
variable {B θ μ κ δ : ℝ} {A A' a b : ℝ × ℝ} {a' b' c d : Vec2 F32}

theorem Sizes.ν0 (h : Sizes B θ μ κ δ) : 0 < u * B := mul_pos u_pos h.B0

theorem Sizes.θμ (h : Sizes B θ μ κ δ) : θ * μ ≤ μ := by
  have := mul_le_mul_of_nonneg_right h.θ1 h.μ0.le
  linarith

theorem Piece.len' (h : Piece B μ κ δ A A' a b a' b' c d) : μ - 2 * δ ≤ dst (rpos a') (rpos b') := by
  have h1 := dst_triangle a (rpos a') b
  have h2 := dst_triangle (rpos a') (rpos b') b
  have := h.near_a
  have := h.near_b
  have := h.len
  rw [dst_comm a (rpos a')] at h1
  linarith

theorem onSeg_dst_le {A A' a b : ℝ × ℝ} (ha : OnSegR A A' a) (hb : OnSegR A A' b) : dst a b ≤ dst A A' := by
  obtain ⟨t, t0, t1, rfl⟩ := ha
  obtain ⟨s, s0, s1, rfl⟩ := hb
  rw [dst_scale _ _ (A'.1 - A.1, A'.2 - A.2) (s - t) (by simp only; ring) (by simp only; ring)]
  have : |s - t| ≤ 1 := abs_le.2 ⟨by linarith, by linarith⟩
  have := mul_le_mul_of_nonneg_right this (dst_nonneg A A')
  rw [one_mul] at this
  exact this

theorem Piece.stroke_pos (h : Piece B μ κ δ A A' a b a' b' c d) (hs : Sizes B θ μ κ δ) : 0 < dst A A' :=
  lt_of_lt_of_le (lt_of_lt_of_le hs.μ0 h.len) (onSeg_dst_le h.on_a h.on_b)

theorem Piece.cd_pos (h : Piece B μ κ δ A A' a b a' b' c d) : 0 < dst (rpos c) (rpos d) :=
  lt_of_lt_of_le (by positivity) h.quad.cd

/-- deviation of the points of the drawn piece -/
theorem Piece.dev (h : Piece B μ κ δ A A' a b a' b' c d) {t : ℝ} (t0 : 0 ≤ t) (t1 : t ≤ 1) :
    |crs A A' A (at' (rpos a') (rpos b') t)| ≤ κ * dst A A' := by
  rw [crs_at']
  obtain ⟨a1, a2⟩ := abs_le.1 h.dev_a
  obtain ⟨b1, b2⟩ := abs_le.1 h.dev_b
  rw [abs_le]
  constructor <;> nlinarith

/-- the directions of the drawn piece and of the new segment are transversal if the segments are -/
theorem Piece.transversal (h : Piece B μ κ δ A A' a b a' b' c d) (hs : Sizes B θ μ κ δ)
    (hθ : θ * (dst A A' * dst (rpos c) (rpos d)) ≤ |crs A A' (rpos c) (rpos d)|) :
    θ / 2 * (dst (rpos a') (rpos b') * dst (rpos c) (rpos d)) ≤ |crs (rpos a') (rpos b') (rpos c) (rpos d)| := by
  have hpos := h.stroke_pos hs
  have hcd := h.cd_pos
  have hl := h.len'
  have ob := oblique A A' (rpos c) (rpos d) (rpos a') (rpos b')
  have e1 : |crs A A' (rpos a') (rpos b')| ≤ 2 * κ * dst A A' := by
    rw [crs_sub _ _ A]
    have := abs_sub (crs A A' A (rpos b')) (crs A A' A (rpos a'))
    have := h.dev_a
    have := h.dev_b
    linarith
  rw [crs_swap (rpos a') (rpos b') (rpos c) (rpos d), abs_neg] at ob
  set L := dst A A'
  set M := dst (rpos c) (rpos d)
  set R := dst (rpos a') (rpos b')
  set D := |crs (rpos a') (rpos b') (rpos c) (rpos d)|
  have hR : 0 ≤ R := dst_nonneg _ _
  have k1 : θ * (L * M) * R ≤ 2 * κ * L * M + D * L := by
    have := mul_le_mul_of_nonneg_right hθ hR
    have := mul_le_mul_of_nonneg_right e1 hcd.le
    linarith
  have k2 : L * (θ * M * R) ≤ L * (2 * κ * M + D) := by linarith
  have k3 := le_of_mul_le_mul_left k2 hpos
  have hκ := hs.hκ
  have hδ := hs.hδ
  have hμ := hs.μ0
  have k4 : 2 * κ ≤ θ / 2 * R := by
    have : θ * (μ - 2 * δ) ≤ θ * R := mul_le_mul_of_nonneg_left hl hs.θ0.le
    have : θ * (64 * δ) ≤ θ * μ := mul_le_mul_of_nonneg_left hδ hs.θ0.le
    have : 0 < θ * μ := mul_pos hs.θ0 hμ
    linarith
  have k5 := mul_le_mul_of_nonneg_right k4 hcd.le
  linarith

/-- an accepted crossing -/
theorem Piece.accept (h : Piece B μ κ δ A A' a b a' b' c d) {q : Vec2 F32} (hq : calculateLineSegmentIntersection a' b' c d = some q) :
    ∃ t s, (0 ≤ t ∧ t ≤ 1) ∧ (0 ≤ s ∧ s ≤ 1) ∧
      |crs (rpos c) (rpos d) (rpos c) (at' (rpos a') (rpos b') t)| ≤ 87 * (u * B) * dst (rpos c) (rpos d) ∧
      |crs (rpos a') (rpos b') (rpos a') (at' (rpos c) (rpos d) s)| ≤ 87 * (u * B) * dst (rpos a') (rpos b') ∧
      (IsFin q.x ∧ IsFin q.y) ∧ dst (rpos q) (at' (rpos a') (rpos b') t) ≤ 15 * (u * B) := by
  obtain ⟨t, s, ht, hs, e1, e2, f, e3⟩ := h.quad.accept hq
  refine ⟨t, s, ht, hs, ?_, ?_, f, e3⟩
  · have e : crs (rpos c) (rpos d) (rpos c) (at' (rpos a') (rpos b') t) =
      crs (rpos c) (rpos d) (rpos c) (rpos a') - t * crs (rpos a') (rpos b') (rpos c) (rpos d) := by unfold crs at'; ring
    rw [e]; exact e1
  · have e : crs (rpos a') (rpos b') (rpos a') (at' (rpos c) (rpos d) s) =
      -(crs (rpos a') (rpos b') (rpos c) (rpos a') - s * crs (rpos a') (rpos b') (rpos c) (rpos d)) := by unfold crs at'; ring
    rw [e, abs_neg]; exact e2

/-- no crossing with a segment that lies on one side of the new one -/
theorem Piece.beside (h : Piece B μ κ δ A A' a b a' b' c d) (hs : Sizes B θ μ κ δ) {σ : ℝ} (hσ : |σ| = 1)
    (hb : ∀ z, OnSegR A A' z → μ * dst (rpos c) (rpos d) ≤ σ * crs (rpos c) (rpos d) (rpos c) z) :
    calculateLineSegmentIntersection a' b' c d = none := by
  rw [Option.eq_none_iff_forall_ne_some]
  intro q hq
  obtain ⟨t, s, ht, _, e1, _⟩ := h.accept hq
  have hz : OnSegR A A' (at' a b t) := by
    obtain ⟨x, x0, x1, hx⟩ := h.on_a
    obtain ⟨y, y0, y1, hy⟩ := h.on_b
    refine ⟨(1 - t) * x + t * y, by nlinarith [ht.1, ht.2], by nlinarith [ht.1, ht.2], ?_⟩
    rw [hx, hy]; unfold at'; ext <;> simp only <;> ring
  have h1 := hb _ hz
  have h2 := dst_at'_le h.near_a h.near_b ht.1 ht.2
  have h3 := abs_crs_le (rpos c) (rpos d) (at' (rpos a') (rpos b') t) (at' a b t)
  rw [crs_sub _ _ (rpos c)] at h3
  have h4 : σ * crs (rpos c) (rpos d) (rpos c) (at' a b t) ≤ |crs (rpos c) (rpos d) (rpos c) (at' a b t)| := by
    have := le_abs_self (σ * crs (rpos c) (rpos d) (rpos c) (at' a b t))
    rwa [abs_mul, hσ, one_mul] at this
  have h5 := abs_sub_abs_le_abs_sub (crs (rpos c) (rpos d) (rpos c) (at' a b t)) (crs (rpos c) (rpos d) (rpos c) (at' (rpos a') (rpos b') t))
  have h6 := mul_le_mul_of_nonneg_left h2 h.cd_pos.le
  have h7 : (μ - 87 * (u * B) - δ) * dst (rpos c) (rpos d) ≤ 0 := by linarith
  have h8 : 0 < μ - 87 * (u * B) - δ := by
    have := hs.hν
    have := hs.hδ
    have := hs.θμ
    have := hs.μ0
    linarith
  have := mul_pos h8 h.cd_pos
  linarith

/-- no crossing with a piece that is transversal and has no point in common with the new segment -/
theorem Piece.disjoint (h : Piece B μ κ δ A A' a b a' b' c d) (hs : Sizes B θ μ κ δ)
    (hθ : θ * (dst A A' * dst (rpos c) (rpos d)) ≤ |crs A A' (rpos c) (rpos d)|)
    (hfar : ∀ z w, OnSegR a b z → OnSegR (rpos c) (rpos d) w → μ ≤ dst z w) :
    calculateLineSegmentIntersection a' b' c d = none := by
  rw [Option.eq_none_iff_forall_ne_some]
  intro q hq
  obtain ⟨t, s, ht, hs', e1, e2, _⟩ := h.accept hq
  have hD := h.transversal hs hθ
  have hl := h.len'
  have hcd := h.cd_pos
  have ob := oblique (rpos a') (rpos b') (rpos c) (rpos d) (at' (rpos a') (rpos b') t) (at' (rpos c) (rpos d) s)
  have c1 : crs (rpos a') (rpos b') (at' (rpos a') (rpos b') t) (at' (rpos c) (rpos d) s) =
      crs (rpos a') (rpos b') (rpos a') (at' (rpos c) (rpos d) s) := by unfold crs at'; ring
  have c2 : crs (rpos c) (rpos d) (at' (rpos a') (rpos b') t) (at' (rpos c) (rpos d) s) =
      - crs (rpos c) (rpos d) (rpos c) (at' (rpos a') (rpos b') t) := by unfold crs at'; ring
  rw [c1, c2, abs_neg] at ob
  have hf := hfar _ _ (at'_seg ht.1 ht.2 : OnSegR a b (at' a b t)) (at'_seg hs'.1 hs'.2)
  have h2 := dst_at'_le h.near_a h.near_b ht.1 ht.2
  have h3 := dst_triangle (at' a b t) (at' (rpos a') (rpos b') t) (at' (rpos c) (rpos d) s)
  rw [dst_comm (at' a b t) (at' (rpos a') (rpos b') t)] at h3
  set G := dst (at' (rpos a') (rpos b') t) (at' (rpos c) (rpos d) s)
  set M := dst (rpos c) (rpos d)
  set R := dst (rpos a') (rpos b')
  have hR : 0 < R := lt_of_lt_of_le (by have := hs.hδ; have := hs.μ0; linarith) hl
  have hG : 0 ≤ G := dst_nonneg _ _
  have k1 := mul_le_mul_of_nonneg_right hD hG
  have k2 := mul_le_mul_of_nonneg_right e1 hR.le
  have k3 := mul_le_mul_of_nonneg_right e2 hcd.le
  have k4 : (R * M) * (θ / 2 * G) ≤ (R * M) * (174 * (u * B)) := by linarith
  have k5 := le_of_mul_le_mul_left k4 (mul_pos hR hcd)
  have hν := hs.hν
  have hδ := hs.hδ
  have hμ := hs.μ0
  have k6 : μ - δ ≤ G := by linarith
  have k7 : θ * (μ - δ) ≤ θ * G := mul_le_mul_of_nonneg_left k6 hs.θ0.le
  have k8 : θ * (64 * δ) ≤ θ * μ := mul_le_mul_of_nonneg_left hδ hs.θ0.le
  have k9 : 0 < θ * μ := mul_pos hs.θ0 hμ
  linarith

/-- a crossing found for a piece that starts or ends where the new segment starts or ends is next to that point -/
theorem Piece.shared (h : Piece B μ κ δ A A' a b a' b' c d) (hs : Sizes B θ μ κ δ)
    (hθ : θ * (dst A A' * dst (rpos c) (rpos d)) ≤ |crs A A' (rpos c) (rpos d)|) {X : ℝ × ℝ}
    (h1 : X = rpos a' ∨ X = rpos b') (h2 : X = rpos c ∨ X = rpos d) {q : Vec2 F32}
    (hq : calculateLineSegmentIntersection a' b' c d = some q) :
    (IsFin q.x ∧ IsFin q.y) ∧ θ * dst (rpos q) X ≤ 190 * (u * B) := by
  obtain ⟨t, s, ht, hs', e1, e2, hfin, e3⟩ := h.accept hq
  refine ⟨hfin, ?_⟩
  have hD := h.transversal hs hθ
  have hl := h.len'
  have hcd := h.cd_pos
  have ob := oblique (rpos a') (rpos b') (rpos c) (rpos d) X (at' (rpos a') (rpos b') t)
  have c1 : crs (rpos a') (rpos b') X (at' (rpos a') (rpos b') t) = 0 := by
    rcases h1 with rfl | rfl <;> (unfold crs at'; ring)
  have c2 : crs (rpos c) (rpos d) X (at' (rpos a') (rpos b') t) = crs (rpos c) (rpos d) (rpos c) (at' (rpos a') (rpos b') t) := by
    rcases h2 with rfl | rfl
    · rfl
    · unfold crs at'; ring
  rw [c1, c2, abs_zero, zero_mul, zero_add] at ob
  have h3 := dst_triangle (rpos q) (at' (rpos a') (rpos b') t) X
  rw [dst_comm (at' (rpos a') (rpos b') t) X] at h3
  set G := dst X (at' (rpos a') (rpos b') t)
  set M := dst (rpos c) (rpos d)
  set R := dst (rpos a') (rpos b')
  have hR : 0 < R := lt_of_lt_of_le (by have := hs.hδ; have := hs.μ0; linarith) hl
  have hG : 0 ≤ G := dst_nonneg _ _
  have k1 := mul_le_mul_of_nonneg_right hD hG
  have k2 := mul_le_mul_of_nonneg_right e1 hR.le
  have k4 : (R * M) * (θ / 2 * G) ≤ (R * M) * (87 * (u * B)) := by linarith
  have k5 := le_of_mul_le_mul_left k4 (mul_pos hR hcd)
  have k6 := mul_le_mul_of_nonneg_left h3 hs.θ0.le
  have k7 : θ * dst (rpos q) (at' (rpos a') (rpos b') t) ≤ 1 * (15 * (u * B)) := mul_le_mul hs.θ1 e3 (dst_nonneg _ _) zero_le_one
  have := hs.ν0
  linarith

/-- an affine function without zeros on the segment does not change its sign -/
theorem same_sign {f0 f1 m : ℝ} (h : ∀ t, 0 ≤ t → t ≤ 1 → m ≤ |(1 - t) * f0 + t * f1|) (hm : 0 < m) : 0 < f0 * f1 := by
  by_contra hc
  push Not at hc
  have h0 := h 0 le_rfl zero_le_one
  have h1 := h 1 zero_le_one le_rfl
  simp only [sub_zero, one_mul, zero_mul, add_zero, sub_self, zero_add] at h0 h1
  have n0 : f0 ≠ 0 := abs_pos.1 (lt_of_lt_of_le hm h0)
  have n1 : f1 ≠ 0 := abs_pos.1 (lt_of_lt_of_le hm h1)
  have hne : f0 - f1 ≠ 0 := by
    intro he
    have : f0 = f1 := by linarith
    rw [this] at hc
    have := mul_self_pos.2 n1
    linarith
  have hd : 0 < f0 * (f0 - f1) := by
    have := mul_self_pos.2 n0
    nlinarith
  have hd2 : 0 < (f0 - f1) ^ 2 := by positivity
  have hq : 0 ≤ f0 / (f0 - f1) := by
    have : f0 / (f0 - f1) = f0 * (f0 - f1) / (f0 - f1) ^ 2 := by field_simp
    rw [this]; positivity
  have hq1 : f0 / (f0 - f1) ≤ 1 := by
    have : 1 - f0 / (f0 - f1) = (-(f0 * f1) + f1 ^ 2) / (f0 - f1) ^ 2 := by field_simp; ring
    have h2 : 0 ≤ (-(f0 * f1) + f1 ^ 2) / (f0 - f1) ^ 2 := by
      apply div_nonneg _ hd2.le
      have := sq_nonneg f1
      linarith
    linarith
  have := h _ hq hq1
  have e : (1 - f0 / (f0 - f1)) * f0 + f0 / (f0 - f1) * f1 = 0 := by field_simp; ring
  rw [e, abs_zero] at this
  linarith

/-- the side of the new segment on which a node is, and how far -/
theorem side_of {p v y c d : ℝ × ℝ} (hs : Sizes B θ μ κ δ) (hθ : θ * (dst A A' * dst c d) ≤ |crs A A' c d|)
    (hA : 0 < dst A A') (hcd : 0 < dst c d)
    (hp : OnSegR A A' p) (hy : OnSegR A A' y) (hyc : crs c d c y = 0) (hnear : dst v p ≤ δ) (hdev : |crs A A' A v| ≤ κ * dst A A')
    (hfar : μ ≤ dst p y) : 0 < crs c d c p * crs c d c v ∧ θ * μ * (15 / 16) * dst c d ≤ |crs c d c v| := by
  have key : ∀ t, 0 ≤ t → t ≤ 1 → θ * μ * (15 / 16) * dst c d ≤ |(1 - t) * crs c d c p + t * crs c d c v| := by
    intro t t0 t1
    rw [← crs_at']
    set m := at' p v t
    have h1 : dst m p ≤ δ := by
      have e : dst m p = t * dst v p := by
        rw [dst_comm m, dst_comm v, dst_scale p m (v.1 - p.1, v.2 - p.2) t (by simp [m, at']) (by simp [m, at']), abs_of_nonneg t0]
        rfl
      rw [e]
      calc t * dst v p ≤ 1 * δ := mul_le_mul t1 hnear (dst_nonneg _ _) zero_le_one
        _ = δ := one_mul _
    have h2 : |crs A A' A m| ≤ κ * dst A A' := by
      simp only [m]
      rw [crs_at', crs_self_on hp, mul_zero, zero_add, abs_mul, abs_of_nonneg t0]
      calc t * |crs A A' A v| ≤ 1 * (κ * dst A A') := mul_le_mul t1 hdev (abs_nonneg _) zero_le_one
        _ = _ := one_mul _
    have h3 : μ - δ ≤ dst y m := by
      have := dst_triangle p m y
      rw [dst_comm p m, dst_comm m y] at this
      linarith
    have ob := oblique A A' c d y m
    have c1 : crs A A' y m = crs A A' A m := by rw [crs_sub _ _ A, crs_self_on hy, sub_zero]
    have c2 : crs c d y m = crs c d c m := by rw [crs_sub _ _ c, hyc, sub_zero]
    rw [c1, c2] at ob
    have hG : 0 ≤ dst y m := dst_nonneg _ _
    have k1 := mul_le_mul_of_nonneg_right hθ hG
    have k2 := mul_le_mul_of_nonneg_right h2 hcd.le
    have k3 : dst A A' * (θ * dst c d * dst y m) ≤ dst A A' * (κ * dst c d + |crs c d c m|) := by linarith
    have k4 := le_of_mul_le_mul_left k3 hA
    have k5 : θ * dst c d * (μ - δ) ≤ θ * dst c d * dst y m := mul_le_mul_of_nonneg_left h3 (mul_pos hs.θ0 hcd).le
    have k6 := mul_le_mul_of_nonneg_right hs.hκ hcd.le
    have k7 := mul_le_mul_of_nonneg_left hs.hδ (mul_pos hs.θ0 hcd).le
    have k8 : 0 < θ * μ * dst c d := mul_pos (mul_pos hs.θ0 hs.μ0) hcd
    nlinarith
  have hpos : 0 < θ * μ * (15 / 16) * dst c d := by
    have := mul_pos (mul_pos hs.θ0 hs.μ0) hcd
    linarith
  refine ⟨same_sign key hpos, ?_⟩
  have := key 1 zero_le_one le_rfl
  simpa using this

set_option maxHeartbeats 800000 in
/-- the crossing of a piece and the new segment, away from all their ends, is found -/
theorem Piece.crossing (h : Piece B μ κ δ A A' a b a' b' c d) (hs : Sizes B θ μ κ δ)
    (hθ : θ * (dst A A' * dst (rpos c) (rpos d)) ≤ |crs A A' (rpos c) (rpos d)|) {y : ℝ × ℝ}
    (hy1 : OnSegR a b y) (hy2 : OnSegR (rpos c) (rpos d) y)
    (fa : μ ≤ dst a y) (fb : μ ≤ dst b y) (fc : μ ≤ dst (rpos c) y) (fd : μ ≤ dst (rpos d) y) :
    ∃ q, calculateLineSegmentIntersection a' b' c d = some q ∧ (IsFin q.x ∧ IsFin q.y) ∧
      |crs (rpos c) (rpos d) (rpos c) (rpos q)| ≤ 102 * (u * B) * dst (rpos c) (rpos d) ∧
      |crs A A' A (rpos q)| ≤ (κ + 15 * (u * B)) * dst A A' ∧ θ * dst (rpos q) y ≤ κ + 117 * (u * B) := by
  have hA := h.stroke_pos hs
  have hcd := h.cd_pos
  have hD := h.transversal hs hθ
  have hl := h.len'
  have hν0 := hs.ν0
  have hyA : OnSegR A A' y := by
    obtain ⟨t, t0, t1, rfl⟩ := hy1
    obtain ⟨x, x0, x1, hx⟩ := h.on_a
    obtain ⟨z, z0, z1, hz⟩ := h.on_b
    refine ⟨(1 - t) * x + t * z, by nlinarith, by nlinarith, ?_⟩
    rw [hx, hz]; ext <;> simp only <;> ring
  have hyc := crs_self_on hy2
  obtain ⟨sa, ma⟩ := side_of hs hθ hA hcd h.on_a hyA hyc h.near_a h.dev_a fa
  obtain ⟨sb, mb⟩ := side_of hs hθ hA hcd h.on_b hyA hyc h.near_b h.dev_b fb
  -- the ends of the piece are on different sides of the new segment
  have hopp : crs (rpos c) (rpos d) (rpos c) a * crs (rpos c) (rpos d) (rpos c) b ≤ 0 := by
    obtain ⟨t, t0, t1, hy⟩ := hy1
    have e : (1 - t) * crs (rpos c) (rpos d) (rpos c) a + t * crs (rpos c) (rpos d) (rpos c) b = 0 := by
      rw [← crs_at', ← hyc]; exact congrArg _ hy.symm
    by_contra hc
    push Not at hc
    set p := crs (rpos c) (rpos d) (rpos c) a
    set r := crs (rpos c) (rpos d) (rpos c) b
    have e1 : (1 - t) * (p * p) + t * (p * r) = 0 := by
      have : (1 - t) * (p * p) + t * (p * r) = p * ((1 - t) * p + t * r) := by ring
      rw [this, e, mul_zero]
    have hp : p ≠ 0 := by rintro h0; rw [h0, zero_mul] at hc; exact lt_irrefl _ hc
    have hpp := mul_self_pos.2 hp
    rcases eq_or_lt_of_le t0 with h0 | h0
    · rw [← h0] at e1; linarith
    · have := mul_pos h0 hc
      have := mul_nonneg (by linarith : 0 ≤ 1 - t) hpp.le
      linarith
  have hopp' : crs (rpos c) (rpos d) (rpos c) (rpos a') * crs (rpos c) (rpos d) (rpos c) (rpos b') < 0 := by
    set p := crs (rpos c) (rpos d) (rpos c) a
    set r := crs (rpos c) (rpos d) (rpos c) b
    set p' := crs (rpos c) (rpos d) (rpos c) (rpos a')
    set r' := crs (rpos c) (rpos d) (rpos c) (rpos b')
    have h1 : 0 < (p * r) * (p' * r') := by
      have := mul_pos sa sb
      nlinarith
    by_contra hc
    push Not at hc
    have := mul_nonpos_of_nonpos_of_nonneg hopp hc
    linarith
  set D := crs (rpos a') (rpos b') (rpos c) (rpos d) with hDdef
  set p' := crs (rpos c) (rpos d) (rpos c) (rpos a') with hp'
  set r' := crs (rpos c) (rpos d) (rpos c) (rpos b') with hr'
  have hpr : p' - r' = D := by rw [hp', hr', hDdef]; unfold crs; ring
  set M := dst (rpos c) (rpos d)
  set R := dst (rpos a') (rpos b')
  have hR : 0 < R := lt_of_lt_of_le (by have := hs.hδ; have := hs.μ0; linarith) hl
  have hDpos : 0 < |D| := lt_of_lt_of_le (mul_pos (by have := hs.θ0; linarith) (mul_pos hR hcd)) hD
  have hD0 : D ≠ 0 := abs_pos.1 hDpos
  have hDabs : |D| = |p'| + |r'| := by
    rw [← hpr]
    rcases mul_neg_iff.1 hopp' with ⟨h1, h2⟩ | ⟨h1, h2⟩
    · rw [abs_of_pos h1, abs_of_neg h2, abs_of_pos (by linarith)]; ring
    · rw [abs_of_neg h1, abs_of_pos h2, abs_of_neg (by linarith)]; ring
  have ht0 : p' / D * |D| = |p'| := by
    have h2 : 0 < p' * D := by rw [← hpr]; have := mul_self_nonneg p'; nlinarith
    rcases mul_pos_iff.1 h2 with ⟨h3, h4⟩ | ⟨h3, h4⟩
    · rw [abs_of_pos h4, abs_of_pos h3]; field_simp
    · rw [abs_of_neg h4, abs_of_neg h3]; field_simp
  set t := p' / D with ht
  have htD : p' = t * D := by rw [ht]; field_simp
  have ht1 : (1 - t) * |D| = |r'| := by rw [sub_mul, ht0, hDabs]; ring
  have hθμ : 0 < θ * μ := mul_pos hs.θ0 hs.μ0
  have hνM := mul_le_mul_of_nonneg_right hs.hν hcd.le
  have t0 : 0 ≤ t := by
    by_contra hc
    push Not at hc
    have := mul_neg_of_neg_of_pos hc hDpos
    rw [ht0] at this
    linarith [abs_nonneg p']
  have t1 : t ≤ 1 := by
    by_contra hc
    push Not at hc
    have := mul_neg_of_neg_of_pos (by linarith : 1 - t < 0) hDpos
    rw [ht1] at this
    linarith [abs_nonneg r']
  -- the crossing of the drawn piece with the line of the new segment
  set X := at' (rpos a') (rpos b') t with hX
  have hXc : crs (rpos c) (rpos d) (rpos c) X = 0 := by
    have : crs (rpos c) (rpos d) (rpos c) X = p' - t * D := by rw [hX, hp', hDdef]; unfold crs at'; ring
    rw [this, htD]; ring
  have hXdev := h.dev t0 t1
  have hXy : θ * dst y X ≤ κ := by
    have ob := oblique A A' (rpos c) (rpos d) y X
    have c1 : crs A A' y X = crs A A' A X := by rw [crs_sub _ _ A, crs_self_on hyA, sub_zero]
    have c2 : crs (rpos c) (rpos d) y X = 0 := by rw [crs_sub _ _ (rpos c), hyc, hXc, sub_zero]
    rw [c1, c2, abs_zero, zero_mul, add_zero] at ob
    have k1 := mul_le_mul_of_nonneg_right hθ (dst_nonneg y X)
    have k2 := mul_le_mul_of_nonneg_right hXdev hcd.le
    have k3 : (dst A A' * M) * (θ * dst y X) ≤ (dst A A' * M) * κ := by linarith
    exact le_of_mul_le_mul_left k3 (mul_pos hA hcd)
  have hXy' : 64 * dst y X ≤ μ := by
    have := hs.hκ
    have : θ * (64 * dst y X) ≤ θ * μ := by linarith
    exact le_of_mul_le_mul_left this hs.θ0
  -- its parameter on the new segment
  set s := crs (rpos a') (rpos b') (rpos c) (rpos a') / D with hsd
  have hsD : crs (rpos a') (rpos b') (rpos c) (rpos a') = s * D := by rw [hsd]; field_simp
  have hXs : X = at' (rpos c) (rpos d) s := by
    have k1 : (X.1 - (at' (rpos c) (rpos d) s).1) * D = 0 := by
      have : (X.1 - (at' (rpos c) (rpos d) s).1) * D =
        ((rpos a').1 - (rpos c).1) * D + (t * D) * ((rpos b').1 - (rpos a').1) - (s * D) * ((rpos d).1 - (rpos c).1) := by
        rw [hX]; simp only [at']; ring
      rw [this, ← htD, ← hsD, hp', hDdef]; unfold crs; ring
    have k2 : (X.2 - (at' (rpos c) (rpos d) s).2) * D = 0 := by
      have : (X.2 - (at' (rpos c) (rpos d) s).2) * D =
        ((rpos a').2 - (rpos c).2) * D + (t * D) * ((rpos b').2 - (rpos a').2) - (s * D) * ((rpos d).2 - (rpos c).2) := by
        rw [hX]; simp only [at']; ring
      rw [this, ← htD, ← hsD, hp', hDdef]; unfold crs; ring
    have k1' := (mul_eq_zero.1 k1).resolve_right hD0
    have k2' := (mul_eq_zero.1 k2).resolve_right hD0
    ext
    · linarith
    · linarith
  have hsM : 15 / 16 * μ ≤ s * M ∧ 15 / 16 * μ ≤ (1 - s) * M := by
    obtain ⟨w, w0, w1, hw⟩ := hy2
    have e1 : dst (rpos c) y = w * M := by
      rw [hw, dst_scale _ _ ((rpos d).1 - (rpos c).1, (rpos d).2 - (rpos c).2) w (by simp) (by simp), abs_of_nonneg w0]; rfl
    have e2 : dst (rpos d) y = (1 - w) * M := by
      rw [hw, dst_scale _ _ ((rpos d).1 - (rpos c).1, (rpos d).2 - (rpos c).2) (w - 1) (by simp; ring) (by simp; ring),
        abs_of_nonpos (by linarith), neg_sub]; rfl
    have e3 : dst y X = |s - w| * M := by
      rw [hXs, hw, dst_scale _ _ ((rpos d).1 - (rpos c).1, (rpos d).2 - (rpos c).2) (s - w) (by simp [at']; ring) (by simp [at']; ring)]; rfl
    rw [e1] at fc
    rw [e2] at fd
    rw [e3] at hXy'
    have h1 := mul_le_mul_of_nonneg_right (neg_abs_le (s - w)) hcd.le
    have h2 := mul_le_mul_of_nonneg_right (le_abs_self (s - w)) hcd.le
    have := hs.μ0
    constructor <;> linarith
  have hsR : 228 * (u * B) * R ≤ s * |D| ∧ 228 * (u * B) * R ≤ (1 - s) * |D| := by
    have hb : 228 * (u * B) ≤ 15 / 16 * μ * (θ / 2) := by
      have := hs.hν
      have e4 : 15 / 16 * μ * (θ / 2) = 15 / 32 * (θ * μ) := by ring
      rw [e4]; linarith
    have hb2 := mul_le_mul_of_nonneg_right hb hR.le
    have g : ∀ x : ℝ, 15 / 16 * μ ≤ x * M → 228 * (u * B) * R ≤ x * |D| := by
      intro x hx
      have hx0 : 0 < x := by
        by_contra hc
        push Not at hc
        have := mul_nonpos_of_nonpos_of_nonneg hc hcd.le
        have := hs.μ0
        linarith
      have k1 := mul_le_mul_of_nonneg_left hD hx0.le
      have k2 := mul_le_mul_of_nonneg_right hx (mul_nonneg (by have := hs.θ0; linarith : 0 ≤ θ / 2) hR.le)
      have e4 : x * M * (θ / 2 * R) = x * (θ / 2 * (R * M)) := by ring
      have e5 : 15 / 16 * μ * (θ / 2 * R) = 15 / 16 * μ * (θ / 2) * R := by ring
      rw [e4, e5] at k2
      exact hb2.trans (k2.trans k1)
    exact ⟨g s hsM.1, g (1 - s) hsM.2⟩
  have hνM0 : 0 < u * B * M := mul_pos hν0 hcd
  have hpM : 228 * (u * B) * M ≤ |p'| := by linarith
  have hrM : 228 * (u * B) * M ≤ |r'| := by linarith
  obtain ⟨q, hq⟩ := h.quad.inside hD0 htD hsD (by rw [ht0]; exact hpM) (by rw [ht1]; exact hrM) hsR.1 hsR.2
  refine ⟨q, hq, ?_⟩
  obtain ⟨t', s', hht, _, e1, _, hfin, e3⟩ := h.accept hq
  have d1 : |crs (rpos c) (rpos d) (rpos c) (rpos q)| ≤ 102 * (u * B) * M := by
    have h1 := abs_crs_le (rpos c) (rpos d) (at' (rpos a') (rpos b') t') (rpos q)
    rw [crs_sub _ _ (rpos c), dst_comm _ (rpos q)] at h1
    have h2 := abs_sub_abs_le_abs_sub (crs (rpos c) (rpos d) (rpos c) (rpos q)) (crs (rpos c) (rpos d) (rpos c) (at' (rpos a') (rpos b') t'))
    have h3 := mul_le_mul_of_nonneg_left e3 hcd.le
    linarith
  have d2 : |crs A A' A (rpos q)| ≤ (κ + 15 * (u * B)) * dst A A' := by
    have h1 := abs_crs_le A A' (at' (rpos a') (rpos b') t') (rpos q)
    rw [crs_sub _ _ A, dst_comm _ (rpos q)] at h1
    have h2 := abs_sub_abs_le_abs_sub (crs A A' A (rpos q)) (crs A A' A (at' (rpos a') (rpos b') t'))
    have h3 := mul_le_mul_of_nonneg_left e3 hA.le
    have h4 := h.dev hht.1 hht.2
    linarith
  refine ⟨hfin, d1, d2, ?_⟩
  have ob := oblique A A' (rpos c) (rpos d) y (rpos q)
  have c1 : crs A A' y (rpos q) = crs A A' A (rpos q) := by rw [crs_sub _ _ A, crs_self_on hyA, sub_zero]
  have c2 : crs (rpos c) (rpos d) y (rpos q) = crs (rpos c) (rpos d) (rpos c) (rpos q) := by
    rw [crs_sub _ _ (rpos c), hyc, sub_zero]
  rw [c1, c2] at ob
  rw [dst_comm (rpos q)]
  have k1 := mul_le_mul_of_nonneg_right hθ (dst_nonneg y (rpos q))
  have k2 := mul_le_mul_of_nonneg_right d2 hcd.le
  have k3 := mul_le_mul_of_nonneg_right d1 hA.le
  have k4 : (dst A A' * M) * (θ * dst y (rpos q)) ≤ (dst A A' * M) * (κ + 117 * (u * B)) := by linarith
  exact le_of_mul_le_mul_left k4 (mul_pos hA hcd)

end

end Kami.Margin
