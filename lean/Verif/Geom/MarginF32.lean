import Verif.Geom.DistF32
import Verif.Geom.UtilsF32
import Verif.Geom.MarginReal
/-!
# The segment tests of the graph in f32, for well separated input

Error bounds for the accept/reject decisions of `calculate_line_segment_intersection` and `is_on_line_segment`
(src/geometry/utils.rs:66, :121) that do not require the input to be transversal.
-/

set_option autoImplicit false

namespace Kami.Margin

open Kami Kami.F32 Kami.Utils Kami.UtilThm Kami.Simple Kami.DistF32
open Kami.UtilsF32 (dst_le_coord abs_fst_le)
open scoped Kami

/-! ### quotients -/

theorem div_den_ne {x y : F32} (hx : IsFin x) (hy : IsFin y) (h : IsFin (x / y)) : toReal y ≠ 0 := by
  obtain ⟨s, m, rfl⟩ := hx
  obtain ⟨t, n, rfl⟩ := hy
  intro h0
  have hn : n.val = 0 := by
    by_contra hn
    have hm : mag n ≠ 0 := fun hc => hn (mag_eq_zero.1 hc)
    have hm' : (mag n : ℝ) ≠ 0 := by exact_mod_cast hm
    rw [toReal_fin] at h0
    cases t <;> simp [hm'] at h0
  obtain ⟨s', m', h'⟩ := h
  change (if n.val = 0 then (if m.val = 0 then nan else inf (s ^^ t)) else F32.round (s ^^ t) (mag m * 2 ^ 149) (mag n)) = _ at h'
  rw [if_pos hn] at h'
  split at h' <;> cases h'

/-- a quotient accepted as a parameter is close to solving the equation -/
theorem quot_accept {x y : F32} {N D E : ℝ} (hx : IsFin x) (hy : IsFin y) (hN : |toReal x - N| ≤ E) (hD : |toReal y - D| ≤ E)
    (h0 : ((OrdScalar.zero : F32) ≤. x / y) = true) (h1 : (x / y ≤. OrdScalar.one) = true) :
    IsFin (x / y) ∧ 0 ≤ toReal (x / y) ∧ toReal (x / y) ≤ 1 ∧ |N - toReal (x / y) * D| ≤ 3 * E + 3 * u * |D| := by
  obtain ⟨hf, q0, q1⟩ := unit_isFin h0 h1
  refine ⟨hf, q0, q1, ?_⟩
  have hy0 := div_den_ne hx hy hf
  have he := div_err hx hy hy0 hf
  set q := toReal (x / y)
  set X := toReal x
  set Y := toReal y
  have hu := u_pos
  have hη : η ≤ u := by unfold η u; norm_num
  have hu4 : u ≤ 1 / 16 := by unfold u; norm_num
  have hE : 0 ≤ E := (abs_nonneg _).trans hN
  have hY : 0 < |Y| := abs_pos.2 hy0
  have hr : |X / Y| ≤ 2 := by
    have := abs_sub_abs_le_abs_sub (X / Y) q
    rw [abs_sub_comm] at this
    rw [abs_of_nonneg q0] at this
    have : u * |X / Y| ≤ 1 / 16 * |X / Y| := mul_le_mul_of_nonneg_right hu4 (abs_nonneg _)
    linarith
  have h2 : |q * Y - X| ≤ 3 * u * |Y| := by
    have e : q * Y - X = (q - X / Y) * Y := by field_simp
    rw [e, abs_mul]
    apply mul_le_mul_of_nonneg_right _ hY.le
    have : u * |X / Y| ≤ u * 2 := mul_le_mul_of_nonneg_left hr hu.le
    linarith
  have h3 : |Y| ≤ |D| + E := by
    have := abs_sub_abs_le_abs_sub Y D
    linarith
  have h4 : |q * (Y - D)| ≤ E := by
    rw [abs_mul, abs_of_nonneg q0]
    calc q * |Y - D| ≤ 1 * E := mul_le_mul q1 hD (abs_nonneg _) zero_le_one
      _ = E := one_mul _
  have e : N - q * D = q * (Y - D) - (q * Y - X) - (X - N) := by ring
  rw [e]
  have h5 := abs_sub (q * (Y - D) - (q * Y - X)) (X - N)
  have h6 := abs_sub (q * (Y - D)) (q * Y - X)
  have h7 : 3 * u * |Y| ≤ 3 * u * (|D| + E) := mul_le_mul_of_nonneg_left h3 (by positivity)
  have h8 : 3 * u * E ≤ 1 * E := mul_le_mul_of_nonneg_right (by linarith) hE
  linarith

/-- a quotient with a margin on both sides is accepted -/
theorem quot_inside {x y : F32} {N D E r : ℝ} (hx : IsFin x) (hy : IsFin y) (hN : |toReal x - N| ≤ E) (hD : |toReal y - D| ≤ E)
    (hr : N = r * D) (hpos : 0 < |D|) (m0 : 4 * E + 32 * u * |D| ≤ r * |D|) (m1 : 4 * E + 32 * u * |D| ≤ (1 - r) * |D|) :
    ((OrdScalar.zero : F32) ≤. x / y) = true ∧ (x / y ≤. OrdScalar.one) = true := by
  have hu := u_pos
  have hE : 0 ≤ E := (abs_nonneg _).trans hN
  have huD : 0 < u * |D| := by positivity
  set E' := E + 6 * u * |D| with hE'
  have hD0 : D ≠ 0 := abs_pos.1 hpos
  have hND : N / D = r := by rw [hr]; field_simp
  have r0 : 0 < r := by
    by_contra hc
    push Not at hc
    have : r * |D| ≤ 0 := mul_nonpos_of_nonpos_of_nonneg hc hpos.le
    linarith
  have r1 : r < 1 := by
    by_contra hc
    push Not at hc
    have : (1 - r) * |D| ≤ 0 := mul_nonpos_of_nonpos_of_nonneg (by linarith) hpos.le
    linarith
  have h8 : 8 * E' ≤ |D| := by rw [hE']; linarith
  obtain ⟨y0, b, e⟩ := quot_err hx hy (E := E') (by linarith) (by linarith) h8 (by linarith) hpos
  rw [hND, abs_of_pos r0] at b e
  have hf : IsFin (x / y) := div_isFin hx hy y0 (lt_of_le_of_lt b (lt_of_le_of_lt (by linarith : _ ≤ (4 : ℝ)) (by unfold maxHalf; norm_num)))
  have e := e hf
  have h9 : (1 + r) * (2 * E' / |D|) ≤ 4 * E' / |D| := by
    have : 0 ≤ 2 * E' / |D| := by positivity
    have e4 : 4 * E' / |D| = 2 * (2 * E' / |D|) := by ring
    rw [e4]
    exact mul_le_mul_of_nonneg_right (by linarith) this
  have h10 : 4 * E' / |D| ≤ r := by rw [div_le_iff₀ hpos]; linarith
  have h11 : 4 * E' / |D| ≤ 1 - r := by rw [div_le_iff₀ hpos]; linarith
  obtain ⟨e1, e2⟩ := abs_le.1 (e.trans h9)
  exact ⟨(le_fin zero_isFin hf).2 (by rw [toReal_zero]; linarith), (le_fin hf one_isFin).2 (by rw [toReal_one]; linarith)⟩

/-! ### the computed products -/

theorem denom_err {a b c d : Vec2 F32} (ha : SmallPt a) (hb : SmallPt b) (hc : SmallPt c) (hd : SmallPt d) :
    IsFin (codeDenom a b c d) ∧ |toReal (codeDenom a b c d) - crs (rpos a) (rpos b) (rpos c) (rpos d)| ≤
      6 * u * (dst (rpos a) (rpos b) * dst (rpos c) (rpos d)) + 3 * η := by
  obtain ⟨g1, g2, g3⟩ := neg_prod hd.1 hc.1 hb.2 ha.2
  obtain ⟨g4, g5, g6⟩ := small_prod hb.1 ha.1 hd.2 hc.2
  obtain ⟨fD, eD⟩ := add2 g1 g4 g2 g5 g3 g6
  refine ⟨fD, ?_⟩
  have hm := cross_mass (rpos a) (rpos b) (rpos c) (rpos d)
  have e : crs (rpos a) (rpos b) (rpos c) (rpos d) = -((toReal d.x - toReal c.x) * (toReal b.y - toReal a.y)) +
      (toReal b.x - toReal a.x) * (toReal d.y - toReal c.y) := by
    simp only [rpos_eq]; unfold crs; ring
  rw [e]
  refine eD.trans ?_
  simp only [rpos_eq] at hm ⊢
  rw [abs_neg]
  have := mul_le_mul_of_nonneg_left hm (by have := u_pos; positivity : 0 ≤ 6 * u)
  linarith

theorem numS_err {a b c : Vec2 F32} (ha : SmallPt a) (hb : SmallPt b) (hc : SmallPt c) :
    IsFin (-(b.y - a.y) * (a.x - c.x) + (b.x - a.x) * (a.y - c.y)) ∧
    |toReal (-(b.y - a.y) * (a.x - c.x) + (b.x - a.x) * (a.y - c.y)) - crs (rpos a) (rpos b) (rpos c) (rpos a)| ≤
      6 * u * (dst (rpos a) (rpos b) * dst (rpos c) (rpos a)) + 3 * η := by
  obtain ⟨g1, g2, g3⟩ := neg_prod hb.2 ha.2 ha.1 hc.1
  obtain ⟨g4, g5, g6⟩ := small_prod hb.1 ha.1 ha.2 hc.2
  obtain ⟨fD, eD⟩ := add2 g1 g4 g2 g5 g3 g6
  refine ⟨fD, ?_⟩
  have hm := cross_mass (rpos a) (rpos b) (rpos c) (rpos a)
  have e : crs (rpos a) (rpos b) (rpos c) (rpos a) = -((toReal b.y - toReal a.y) * (toReal a.x - toReal c.x)) +
      (toReal b.x - toReal a.x) * (toReal a.y - toReal c.y) := by
    simp only [rpos_eq]; unfold crs; ring
  rw [e]
  refine eD.trans ?_
  simp only [rpos_eq] at hm ⊢
  rw [abs_neg, mul_comm (toReal b.y - toReal a.y)]
  have := mul_le_mul_of_nonneg_left hm (by have := u_pos; positivity : 0 ≤ 6 * u)
  linarith

theorem numT_err {a c d : Vec2 F32} (ha : SmallPt a) (hc : SmallPt c) (hd : SmallPt d) :
    IsFin ((d.x - c.x) * (a.y - c.y) - (d.y - c.y) * (a.x - c.x)) ∧
    |toReal ((d.x - c.x) * (a.y - c.y) - (d.y - c.y) * (a.x - c.x)) - crs (rpos c) (rpos d) (rpos c) (rpos a)| ≤
      6 * u * (dst (rpos c) (rpos d) * dst (rpos c) (rpos a)) + 3 * η := by
  obtain ⟨g1, g2, g3⟩ := small_prod hd.1 hc.1 ha.2 hc.2
  obtain ⟨g4, g5, g6⟩ := small_prod hd.2 hc.2 ha.1 hc.1
  obtain ⟨fD, eD⟩ := sub2 g1 g4 g2 g5 g3 g6
  refine ⟨fD, ?_⟩
  have hm := cross_mass (rpos c) (rpos d) (rpos c) (rpos a)
  have e : crs (rpos c) (rpos d) (rpos c) (rpos a) = (toReal d.x - toReal c.x) * (toReal a.y - toReal c.y) -
      (toReal d.y - toReal c.y) * (toReal a.x - toReal c.x) := by
    simp only [rpos_eq]; unfold crs; ring
  rw [e]
  refine eD.trans ?_
  simp only [rpos_eq] at hm ⊢
  rw [mul_comm (toReal d.y - toReal c.y)]
  have := mul_le_mul_of_nonneg_left hm (by have := u_pos; positivity : 0 ≤ 6 * u)
  linarith

/-! ### accepting and rejecting a crossing -/

/-- four points with coordinates up to `9/8 B`, both segments longer than `2^-20` -/
structure Quad (B : ℝ) (a b c d : Vec2 F32) : Prop where
  small : SmallPt a ∧ SmallPt b ∧ SmallPt c ∧ SmallPt d
  box : ∀ v ∈ [a, b, c, d], |(rpos v).1| ≤ 9 / 8 * B ∧ |(rpos v).2| ≤ 9 / 8 * B
  low : 1 / 2 ^ 19 ≤ B
  ab : 1 / 2 ^ 20 ≤ dst (rpos a) (rpos b)
  cd : 1 / 2 ^ 20 ≤ dst (rpos c) (rpos d)

/-- the errors of the products relative to the lengths of the segments -/
theorem Quad.errs {B : ℝ} {a b c d : Vec2 F32} (h : Quad B a b c d) :
    |toReal ((d.x - c.x) * (a.y - c.y) - (d.y - c.y) * (a.x - c.x)) - crs (rpos c) (rpos d) (rpos c) (rpos a)| ≤
      25 * (u * B) * dst (rpos c) (rpos d) ∧
    |toReal (codeDenom a b c d) - crs (rpos a) (rpos b) (rpos c) (rpos d)| ≤ 25 * (u * B) * dst (rpos c) (rpos d) ∧
    |toReal (-(b.y - a.y) * (a.x - c.x) + (b.x - a.x) * (a.y - c.y)) - crs (rpos a) (rpos b) (rpos c) (rpos a)| ≤
      25 * (u * B) * dst (rpos a) (rpos b) ∧
    |toReal (codeDenom a b c d) - crs (rpos a) (rpos b) (rpos c) (rpos d)| ≤ 25 * (u * B) * dst (rpos a) (rpos b) ∧
    u * |crs (rpos a) (rpos b) (rpos c) (rpos d)| ≤ 4 * (u * B) * dst (rpos c) (rpos d) ∧
    u * |crs (rpos a) (rpos b) (rpos c) (rpos d)| ≤ 4 * (u * B) * dst (rpos a) (rpos b) := by
  obtain ⟨sa, sb, sc, sd⟩ := h.small
  have la := h.box a (by simp)
  have lb := h.box b (by simp)
  have lc := h.box c (by simp)
  have ld := h.box d (by simp)
  have hu := u_pos
  have hB := h.low
  have hB0 : 0 < B := lt_of_lt_of_le (by positivity) hB
  have d1 := dst_le_coord la lb
  have d2 := dst_le_coord lc ld
  have d3 := dst_le_coord lc la
  have hab := h.ab
  have hcd := h.cd
  obtain ⟨_, e1⟩ := denom_err sa sb sc sd
  obtain ⟨_, e2⟩ := numS_err sa sb sc
  obtain ⟨_, e3⟩ := numT_err sa sc sd
  have hc := abs_crs_le (rpos a) (rpos b) (rpos c) (rpos d)
  have hη : 3 * η ≤ u * (1 / 2 ^ 19) * (1 / 2 ^ 20) := by unfold η u; norm_num
  have hx : ∀ x, 1 / 2 ^ 20 ≤ x → 3 * η ≤ u * B * x := by
    intro x hx
    refine hη.trans (mul_le_mul (mul_le_mul_of_nonneg_left hB hu.le) hx (by positivity) (by positivity))
  have hy : ∀ x y, 0 ≤ x → y ≤ 3 * (9 / 8 * B) → x * y ≤ 4 * B * x := by
    intro x y h0 h1
    have := mul_le_mul_of_nonneg_left h1 h0
    nlinarith
  set x := dst (rpos a) (rpos b)
  set y := dst (rpos c) (rpos d)
  set z := dst (rpos c) (rpos a)
  have x0 : 0 < x := lt_of_lt_of_le (by positivity) hab
  have y0 : 0 < y := lt_of_lt_of_le (by positivity) hcd
  have k1 := hy x y x0.le d2
  have k2 := hy y x y0.le d1
  have k3 := hy y z y0.le d3
  have k4 := hy x z x0.le d3
  have n1 := hx x hab
  have n2 := hx y hcd
  have m : ∀ {p q r : ℝ}, p * q ≤ 4 * B * r → 6 * u * (p * q) ≤ 24 * (u * B) * r := by
    intro p q r hpq
    have := mul_le_mul_of_nonneg_left hpq (by positivity : 0 ≤ 6 * u)
    linarith
  have m' : ∀ {p r : ℝ}, p ≤ 4 * B * r → u * p ≤ 4 * (u * B) * r := by
    intro p r hp
    have := mul_le_mul_of_nonneg_left hp hu.le
    linarith
  have q1 := m k1
  have q2 := m k2
  have q3 := m k3
  have q4 := m k4
  rw [mul_comm y x] at q2 k2
  exact ⟨by linarith, by linarith, by linarith, by linarith, m' (by linarith), m' (by linarith)⟩

/-- an accepted crossing: both parameters nearly solve their equations, and the point is next to the one with parameter `t` -/
theorem Quad.accept {B : ℝ} {a b c d q : Vec2 F32} (h : Quad B a b c d) (hq : calculateLineSegmentIntersection a b c d = some q) :
    ∃ t s, (0 ≤ t ∧ t ≤ 1) ∧ (0 ≤ s ∧ s ≤ 1) ∧
      |crs (rpos c) (rpos d) (rpos c) (rpos a) - t * crs (rpos a) (rpos b) (rpos c) (rpos d)| ≤
        87 * (u * B) * dst (rpos c) (rpos d) ∧
      |crs (rpos a) (rpos b) (rpos c) (rpos a) - s * crs (rpos a) (rpos b) (rpos c) (rpos d)| ≤
        87 * (u * B) * dst (rpos a) (rpos b) ∧
      (IsFin q.x ∧ IsFin q.y) ∧ dst (rpos q) (at' (rpos a) (rpos b) t) ≤ 15 * (u * B) := by
  obtain ⟨e1, e2, e3, e4, e5, e6⟩ := h.errs
  obtain ⟨sa, sb, sc, sd⟩ := h.small
  have fD := (denom_err sa sb sc sd).1
  have fS := (numS_err sa sb sc).1
  have fT := (numT_err sa sc sd).1
  rw [code_eq] at hq
  split at hq
  · rename_i hc
    simp only [Bool.and_eq_true] at hc
    obtain ⟨⟨⟨c1, c2⟩, c3⟩, c4⟩ := hc
    obtain ⟨_, s0, s1, hs⟩ := quot_accept fS fD e3 e4 c1 c2
    obtain ⟨ft, t0, t1, ht⟩ := quot_accept fT fD e1 e2 c3 c4
    change IsFin (codeT a b c d) at ft
    change 0 ≤ toReal (codeT a b c d) at t0
    change toReal (codeT a b c d) ≤ 1 at t1
    refine ⟨toReal (codeT a b c d), toReal (codeS a b c d), ⟨t0, t1⟩, ⟨s0, s1⟩, ?_, ?_, ?_⟩
    · refine ht.trans ?_
      linarith
    · refine hs.trans ?_
      linarith
    · cases hq
      have la := h.box a (by simp)
      have lb := h.box b (by simp)
      simp only [rpos_eq] at la lb
      obtain ⟨g1, g2⟩ := lerp_err sa.1 sb.1 ft t0 t1 la.1 lb.1
      obtain ⟨g3, g4⟩ := lerp_err sa.2 sb.2 ft t0 t1 la.2 lb.2
      refine ⟨⟨g1, g3⟩, ?_⟩
      have hB0 : 0 < B := lt_of_lt_of_le (by positivity) h.low
      have hη : (1 : ℝ) / 2 ^ 149 ≤ u * B := by
        have h1 : (1 : ℝ) / 2 ^ 149 ≤ u * (1 / 2 ^ 19) := by unfold u; norm_num
        exact h1.trans (mul_le_mul_of_nonneg_left h.low u_pos.le)
      have h21 : 9 / 8 * B / 2 ^ 21 = 9 * (u * B) := by unfold u; ring
      rw [h21] at g2 g4
      have huB : 0 < u * B := mul_pos u_pos hB0
      unfold dst
      rw [Real.sqrt_le_iff]
      refine ⟨by positivity, ?_⟩
      simp only [rpos_eq, at']
      have k1 := (g2.trans (by linarith : _ ≤ 10 * (u * B)))
      have k2 := (g4.trans (by linarith : _ ≤ 10 * (u * B)))
      have k3 := sq_le_sq' (abs_le.1 k1).1 (abs_le.1 k1).2
      have k4 := sq_le_sq' (abs_le.1 k2).1 (abs_le.1 k2).2
      have e7 : ∀ p q : ℝ, (p - q) ^ 2 = (q - p) ^ 2 := by intros; ring
      rw [e7 _ (toReal (a.x + _)), e7 _ (toReal (a.y + _))]
      nlinarith
  · cases hq

/-- a crossing with margins is accepted -/
theorem Quad.inside {B t s : ℝ} {a b c d : Vec2 F32} (h : Quad B a b c d)
    (hD : crs (rpos a) (rpos b) (rpos c) (rpos d) ≠ 0)
    (ht : crs (rpos c) (rpos d) (rpos c) (rpos a) = t * crs (rpos a) (rpos b) (rpos c) (rpos d))
    (hs : crs (rpos a) (rpos b) (rpos c) (rpos a) = s * crs (rpos a) (rpos b) (rpos c) (rpos d))
    (t0 : 228 * (u * B) * dst (rpos c) (rpos d) ≤ t * |crs (rpos a) (rpos b) (rpos c) (rpos d)|)
    (t1 : 228 * (u * B) * dst (rpos c) (rpos d) ≤ (1 - t) * |crs (rpos a) (rpos b) (rpos c) (rpos d)|)
    (s0 : 228 * (u * B) * dst (rpos a) (rpos b) ≤ s * |crs (rpos a) (rpos b) (rpos c) (rpos d)|)
    (s1 : 228 * (u * B) * dst (rpos a) (rpos b) ≤ (1 - s) * |crs (rpos a) (rpos b) (rpos c) (rpos d)|) :
    ∃ q, calculateLineSegmentIntersection a b c d = some q := by
  obtain ⟨e1, e2, e3, e4, e5, e6⟩ := h.errs
  obtain ⟨sa, sb, sc, sd⟩ := h.small
  have fD := (denom_err sa sb sc sd).1
  have fS := (numS_err sa sb sc).1
  have fT := (numT_err sa sc sd).1
  have hpos := abs_pos.2 hD
  obtain ⟨c1, c2⟩ := quot_inside fS fD e3 e4 hs hpos (by linarith) (by linarith)
  obtain ⟨c3, c4⟩ := quot_inside fT fD e1 e2 ht hpos (by linarith) (by linarith)
  rw [code_eq]
  change ((OrdScalar.zero : F32) ≤. codeS a b c d) = true at c1
  change (codeS a b c d ≤. OrdScalar.one) = true at c2
  change ((OrdScalar.zero : F32) ≤. codeT a b c d) = true at c3
  change (codeT a b c d ≤. OrdScalar.one) = true at c4
  rw [c1, c2, c3, c4]
  exact ⟨_, rfl⟩

/-! ### the on-segment test -/

/-- an accepted point has a detour of at most `3u` -/
theorem on_excess {a b p : Vec2 F32} (ha : SmallPt a) (hb : SmallPt b) (hp : SmallPt p) (hA : dst (rpos a) (rpos b) ≤ 1 / 256)
    (h : isOnLineSegment a b p false = true) : dst (rpos a) (rpos p) + dst (rpos p) (rpos b) ≤ dst (rpos a) (rpos b) + 3 * u := by
  obtain ⟨fX, eX⟩ := detour_err ha hb hp
  obtain ⟨fX', aX⟩ := abs_fin' fX
  have hlt : (OrdScalar.abs ((distance a p + distance p b) - distance a b) <. Scalar.epsilon) = true ↔
      |toReal ((distance a p + distance p b) - distance a b)| < 1 / 2 ^ 23 := by
    rw [← aX, ← toReal_eps]; exact lt_fin fX' eps_isFin
  unfold isOnLineSegment at h
  simp only [Bool.and_eq_true] at h
  have h1 := hlt.1 h.1.1
  have nA := dst_nonneg (rpos a) (rpos b)
  have hu : (1 : ℝ) / 2 ^ 23 = 2 * u := by unfold u; norm_num
  rw [hu] at h1
  have hu0 := u_pos
  have h70 : (1 : ℝ) / 2 ^ 70 ≤ u / 100 := by unfold u; norm_num
  have hu4 : u ≤ 1 / 1000 := by unfold u; norm_num
  obtain ⟨e1, e2⟩ := abs_le.1 eX
  obtain ⟨x1, x2⟩ := abs_le.1 h1.le
  set A := dst (rpos a) (rpos b)
  set S := dst (rpos a) (rpos p) + dst (rpos p) (rpos b)
  have hux : u * |toReal ((distance a p + distance p b) - distance a b)| * 2 ≤ u / 100 := by
    have := mul_le_mul_of_nonneg_left h1.le hu0.le
    nlinarith
  have hS : S * (1 - 10 * u) ≤ A * (1 + 10 * u) + 2.1 * u := by nlinarith
  have hAu : A * u ≤ 1 / 256 * u := mul_le_mul_of_nonneg_right hA hu0.le
  by_contra hc
  push Not at hc
  have : (A + 3 * u) * (1 - 10 * u) < S * (1 - 10 * u) := mul_lt_mul_of_pos_right hc (by linarith)
  nlinarith

/-- a point with a detour of at most `u/2` away from the ends is accepted -/
theorem on_accept {a b p : Vec2 F32} (ha : SmallPt a) (hb : SmallPt b) (hp : SmallPt p) (hA : dst (rpos a) (rpos b) ≤ 1 / 256)
    (hex : dst (rpos a) (rpos p) + dst (rpos p) (rpos b) ≤ dst (rpos a) (rpos b) + u / 2)
    (h1 : 1 / 2 ^ 21 ≤ dst (rpos a) (rpos p)) (h2 : 1 / 2 ^ 21 ≤ dst (rpos p) (rpos b)) : isOnLineSegment a b p false = true := by
  obtain ⟨fX, eX⟩ := detour_err ha hb hp
  obtain ⟨fX', aX⟩ := abs_fin' fX
  have hlt : (OrdScalar.abs ((distance a p + distance p b) - distance a b) <. Scalar.epsilon) = true ↔
      |toReal ((distance a p + distance p b) - distance a b)| < 1 / 2 ^ 23 := by
    rw [← aX, ← toReal_eps]; exact lt_fin fX' eps_isFin
  have far : ∀ {v w : Vec2 F32}, SmallPt v → SmallPt w → 1 / 2 ^ 21 ≤ dst (rpos v) (rpos w) →
      ((Scalar.epsilon : F32) <. OrdScalar.abs (distance v w)) = true := by
    intro v w hv hw h
    obtain ⟨f, n, e⟩ := C90_distance hv hw
    rw [toRat_toReal] at e n
    obtain ⟨fa, aa⟩ := abs_fin' f
    refine (lt_fin eps_isFin fa).2 ?_
    rw [toReal_eps, aa, abs_of_nonneg n]
    obtain ⟨e1, e2⟩ := abs_le.1 e
    norm_num at *
    linarith
  have nA := dst_nonneg (rpos a) (rpos b)
  have tri := dst_triangle (rpos a) (rpos p) (rpos b)
  unfold isOnLineSegment
  simp only [Bool.and_eq_true]
  refine ⟨⟨hlt.2 ?_, far ha hp h1⟩, far hp hb h2⟩
  have hu : (1 : ℝ) / 2 ^ 23 = 2 * u := by unfold u; norm_num
  rw [hu]
  have hu0 := u_pos
  have h70 : (1 : ℝ) / 2 ^ 70 ≤ u / 100 := by unfold u; norm_num
  have hu4 : u ≤ 1 / 1000 := by unfold u; norm_num
  set A := dst (rpos a) (rpos b)
  set P := dst (rpos a) (rpos p)
  set Q := dst (rpos p) (rpos b)
  set x := toReal ((distance a p + distance p b) - distance a b)
  have eX : |x - (P + Q - A)| ≤ u * |x| * 2 + (P + Q + A) * (10 * u) + 1 / 2 ^ 70 := eX
  have h3 := abs_sub_abs_le_abs_sub x (P + Q - A)
  rw [abs_of_nonneg (by linarith : 0 ≤ P + Q - A)] at h3
  have h4 : (P + Q + A) * (10 * u) ≤ (2 * (1 / 256) + u / 2) * (10 * u) := mul_le_mul_of_nonneg_right (by linarith) (by positivity)
  have h5 : u * |x| ≤ 1 / 1000 * |x| := mul_le_mul_of_nonneg_right hu4 (abs_nonneg _)
  nlinarith

/-- a point is not on a segment it is an end of -/
theorem on_end {a b p : Vec2 F32} (ha : SmallPt a) (hb : SmallPt b) (h : p = a ∨ p = b) : isOnLineSegment a b p false = false := by
  have zero : ∀ {v : Vec2 F32}, SmallPt v → ((Scalar.epsilon : F32) <. OrdScalar.abs (distance v v)) = false := by
    intro v hv
    obtain ⟨f, n, e⟩ := C90_distance hv hv
    rw [toRat_toReal] at e n
    obtain ⟨fa, aa⟩ := abs_fin' f
    rw [← Bool.not_eq_true]
    intro hc
    have hc' := (lt_fin eps_isFin fa).1 hc
    rw [toReal_eps, aa, abs_of_nonneg n] at hc'
    have h0 : dst (rpos v) (rpos v) = 0 := by rw [dst_eq_zero]
    rw [h0] at e
    obtain ⟨e1, e2⟩ := abs_le.1 e
    norm_num at *
    linarith
  unfold isOnLineSegment
  simp only [Bool.and_eq_false_iff]
  rcases h with rfl | rfl
  · exact Or.inl (Or.inr (zero ha))
  · exact Or.inr (zero hb)

end Kami.Margin
