import Verif.Geom.ParallelF32
import Verif.Geom.LineTheorems
/-!
# C123: `calculate_perpendicular_bisector` and `Line::contains` in f32
-/

set_option autoImplicit false

namespace Kami.UtilsF32

open Kami Kami.F32 Kami.Utils Kami.UtilThm Kami.Simple Kami.DistF32
open scoped Kami

/-! ### the bisector -/

/-- a quotient of two numbers with small relative errors -/
theorem quot_rel {x y : F32} {X Y ε δ κ : ℝ} (hx : IsFin x) (hy : IsFin y) (ex : |toReal x - X| ≤ ε * |X|)
    (ey : |toReal y - Y| ≤ δ * |Y|) (hX0 : X ≠ 0) (hY0 : Y ≠ 0) (nδ : 0 ≤ δ) (nε : 0 ≤ ε) (hδ : δ ≤ 1 / 8) (hε : ε ≤ 1 / 8)
    (hlo : 1 / 2 ^ 100 ≤ |X / Y|) (hhi : |X / Y| ≤ 2 ^ 100) (hκ : 8 / 7 * (ε + δ) + 2 * u ≤ κ) :
    IsFin (x / y) ∧ |toReal (x / y) - X / Y| ≤ κ * |X / Y| := by
  have hY : 0 < |Y| := abs_pos.2 hY0
  have hy' : 7 / 8 * |Y| ≤ |toReal y| := by
    have h1 := abs_sub_abs_le_abs_sub Y (toReal y)
    rw [abs_sub_comm] at h1
    have h2 : δ * |Y| ≤ 1 / 8 * |Y| := mul_le_mul_of_nonneg_right hδ hY.le
    linarith
  have hy0 : toReal y ≠ 0 := by
    intro hc
    rw [hc, abs_zero] at hy'
    linarith
  have hyp : 0 < |toReal y| := abs_pos.2 hy0
  have hQ : 0 < |X / Y| := lt_of_lt_of_le (by norm_num) hlo
  have hq : |toReal x / toReal y - X / Y| ≤ 8 / 7 * (ε + δ) * |X / Y| := by
    have e1 : toReal x / toReal y - X / Y = ((toReal x - X) - X / Y * (toReal y - Y)) / toReal y := by
      field_simp
      ring
    rw [e1, abs_div, div_le_iff₀ hyp]
    refine (abs_sub _ _).trans ?_
    rw [abs_mul]
    have hXY : |X / Y| * |Y| = |X| := by rw [← abs_mul]; congr 1; field_simp
    have h1 : |X / Y| * |toReal y - Y| ≤ δ * |X| := by
      refine (mul_le_mul_of_nonneg_left ey hQ.le).trans (le_of_eq ?_)
      rw [← hXY]; ring
    calc |toReal x - X| + |X / Y| * |toReal y - Y| ≤ ε * |X| + δ * |X| := add_le_add ex h1
      _ = 8 / 7 * (ε + δ) * |X / Y| * (7 / 8 * |Y|) := by rw [← hXY]; ring
      _ ≤ 8 / 7 * (ε + δ) * |X / Y| * |toReal y| := mul_le_mul_of_nonneg_left hy' (by positivity)
  have hs : |toReal x / toReal y| ≤ 3 / 2 * |X / Y| := by
    have := abs_sub_abs_le_abs_sub (toReal x / toReal y) (X / Y)
    have h8 : 8 / 7 * (ε + δ) * |X / Y| ≤ 1 / 2 * |X / Y| := mul_le_mul_of_nonneg_right (by linarith) hQ.le
    linarith
  have hf : IsFin (x / y) := div_isFin hx hy hy0 (lt_of_le_of_lt hs (by unfold maxHalf; norm_num at hhi ⊢; linarith))
  refine ⟨hf, ?_⟩
  have herr := div_err hx hy hy0 hf
  have hus : u * |toReal x / toReal y| ≤ u * (3 / 2 * |X / Y|) := mul_le_mul_of_nonneg_left hs u_pos.le
  have hη : η ≤ 1 / 2 * u * |X / Y| := by
    unfold η u
    norm_num at hlo ⊢
    linarith
  have hk := mul_le_mul_of_nonneg_right hκ hQ.le
  have e3 : toReal (x / y) - X / Y = (toReal (x / y) - toReal x / toReal y) + (toReal x / toReal y - X / Y) := by ring
  rw [e3]
  refine (abs_add_le _ _).trans ?_
  linarith

/-- the arithmetic after the slope -/
theorem bisector_near {mx my o s : F32} {X Y σ S B : ℝ} (hx : Near mx X B (5 * u * B)) (hy : Near my Y B (5 * u * B))
    (ho : IsFin o) (hoB : |toReal o| ≤ B) (hs : Near s σ S (8 * u * S)) (hlo : 1 / 2 ^ 100 ≤ B) (hhi : B ≤ 2 ^ 60) (hS : S ≤ 2 ^ 40) :
    Near (mx + o) (X + toReal o) (2 * B) (8 * u * B) ∧
    Near ((mx + o) * s + (my - s * mx)) (Y + σ * toReal o) (3 * (S * B) + B) (48 * u * (S * B) + 11 * u * B) := by
  have nS := hs.nonneg.1
  have nB : 0 < B := lt_of_lt_of_le (by norm_num) hlo
  have nSB : 0 ≤ S * B := mul_nonneg nS nB.le
  have hSB : S * B ≤ 2 ^ 40 * 2 ^ 60 := mul_le_mul hS hhi nB.le (by norm_num)
  have hη : η ≤ u * B / 2 ^ 20 := by
    unfold η u
    norm_num at hlo ⊢
    linarith
  have ho' : Near o (toReal o) B 0 := ⟨ho, hoB, by simp⟩
  have k1 : Near (mx + o) (X + toReal o) (2 * B) (8 * u * B) := by
    have k := hx.add ho' (by unfold u; norm_num at hhi ⊢; linarith)
    refine k.weaken (by linarith) ?_
    unfold u
    norm_num
    linarith
  have e1 : (S + 8 * u * S) * (B + 5 * u * B) = (1 + 8 * u) * (1 + 5 * u) * (S * B) := by ring
  have e2 : S * (5 * u * B) + B * (8 * u * S) + 8 * u * S * (5 * u * B) = (13 * u + 40 * u * u) * (S * B) := by ring
  have p1 : Near (s * mx) (σ * X) (S * B) (15 * u * (S * B) + η) := by
    have k := hs.mul hx (by rw [e1]; unfold u; norm_num at hSB ⊢; linarith)
    refine k.weaken (le_refl _) ?_
    rw [e1, e2]
    unfold u
    norm_num
    linarith
  have p2 : Near (my - s * mx) (Y - σ * X) (B + S * B) (8 * u * B + 17 * u * (S * B)) := by
    have k := hy.sub p1 (by
      have : η ≤ 1 := by unfold η; norm_num
      unfold u; norm_num at hSB hhi ⊢; linarith)
    refine k.weaken (le_refl _) ?_
    unfold u at hη ⊢
    norm_num at hη ⊢
    linarith
  have e3 : (2 * B + 8 * u * B) * (S + 8 * u * S) = (2 + 8 * u) * (1 + 8 * u) * (S * B) := by ring
  have e4 : 2 * B * (8 * u * S) + S * (8 * u * B) + 8 * u * B * (8 * u * S) = (24 * u + 64 * u * u) * (S * B) := by ring
  have p3 : Near ((mx + o) * s) ((X + toReal o) * σ) (2 * (S * B)) (27 * u * (S * B) + η) := by
    have k := k1.mul hs (by rw [e3]; unfold u; norm_num at hSB ⊢; linarith)
    refine k.weaken (le_of_eq (by ring)) ?_
    rw [e3, e4]
    unfold u
    norm_num
    linarith
  refine ⟨k1, ?_⟩
  have k := p3.add p2 (by
    have : η ≤ 1 := by unfold η; norm_num
    unfold u; norm_num at hSB hhi ⊢; linarith)
  have e5 : (X + toReal o) * σ + (Y - σ * X) = Y + σ * toReal o := by ring
  rw [e5] at k
  refine k.weaken (by linarith) ?_
  unfold u at hη ⊢
  norm_num at hη ⊢
  linarith

/-- **C123.** For a segment that is neither horizontal nor vertical, with coordinates and offset up to `B`, and whose perpendicular has a
slope `σ` of size between `2^-40` and `2^40`: there is a point `q` of the perpendicular bisector with first coordinate `offset` to
the right of the midpoint; the computed second point is finite, within `2^-21 B` of `q` in the first and within
`2^-18 (1 + |σ|) B` of it in the second coordinate. -/
theorem C123_bisector {a b : Vec2 F32} {o : F32} {B : ℝ} (fa : IsFin a.x ∧ IsFin a.y) (fb : IsFin b.x ∧ IsFin b.y) (fo : IsFin o)
    (ha : |(rpos a).1| ≤ B ∧ |(rpos a).2| ≤ B) (hb : |(rpos b).1| ≤ B ∧ |(rpos b).2| ≤ B) (ho : |(toRat o : ℝ)| ≤ B)
    (hlo : 1 / 2 ^ 100 ≤ B) (hhi : B ≤ 2 ^ 60) (hx : (rpos a).1 ≠ (rpos b).1) (hy : (rpos a).2 ≠ (rpos b).2) {σ : ℝ}
    (hσ : σ = -((rpos b).1 - (rpos a).1) / ((rpos b).2 - (rpos a).2)) (lσ : 1 / 2 ^ 40 ≤ |σ|) (uσ : |σ| ≤ 2 ^ 40) :
    ∃ m q : ℝ × ℝ, ∃ m' q' : Vec2 F32, calculatePerpendicularBisector a b o = (m', q') ∧
      m = (((rpos a).1 + (rpos b).1) / 2, ((rpos a).2 + (rpos b).2) / 2) ∧ dst (rpos a) q = dst (rpos b) q ∧ q.1 - m.1 = toRat o ∧
      (IsFin m'.x ∧ IsFin m'.y ∧ IsFin q'.x ∧ IsFin q'.y) ∧
      |(rpos m').1 - m.1| ≤ 1 / 2 ^ 21 * B ∧ |(rpos m').2 - m.2| ≤ 1 / 2 ^ 21 * B ∧
      |(rpos q').1 - q.1| ≤ 1 / 2 ^ 21 * B ∧ |(rpos q').2 - q.2| ≤ 1 / 2 ^ 18 * ((1 + |σ|) * B) := by
  have rx : ∀ p : Vec2 F32, (rpos p).1 = toReal p.x := fun p => toRat_toReal _
  have ry : ∀ p : Vec2 F32, (rpos p).2 = toReal p.y := fun p => toRat_toReal _
  have nB : 0 < B := lt_of_lt_of_le (by norm_num) hlo
  rw [toRat_toReal] at ho
  have big : ∀ {x y : ℝ}, |x| ≤ B → |y| ≤ B → |x + y| ≤ 2 ^ 127 := by
    intro x y h1 h2
    have := abs_add_le x y
    norm_num at hhi ⊢
    linarith
  obtain ⟨mf1, mf2, me1, me2⟩ := C91_midpoint fa fb (big ha.1 hb.1) (big ha.2 hb.2)
  have mid : ∀ {x y : ℝ} {z : F32}, |x| ≤ B → |y| ≤ B → IsFin z → |(toRat z : ℝ) - (x + y) / 2| ≤ |(x + y) / 2| / 2 ^ 22 + 1 / 2 ^ 150 →
      Near z ((x + y) / 2) B (5 * u * B) := by
    intro x y z h1 h2 hz h
    rw [toRat_toReal] at h
    have h3 : |(x + y) / 2| ≤ B := by
      rw [abs_div, abs_two]
      have := abs_add_le x y
      linarith
    refine ⟨hz, h3, h.trans ?_⟩
    unfold u
    norm_num at hlo ⊢
    linarith
  have n1 := mid ha.1 hb.1 mf1 me1
  have n2 := mid ha.2 hb.2 mf2 me2
  have diff : ∀ {x y : F32}, IsFin x → IsFin y → |toReal x| ≤ B → |toReal y| ≤ B →
      IsFin (x - y) ∧ |toReal (x - y) - (toReal x - toReal y)| ≤ u * |toReal x - toReal y| := by
    intro x y fx fy h1 h2
    have k := (Near.exact fx).sub (Near.exact fy) (by norm_num at hhi ⊢; linarith)
    exact ⟨k.isFin, sub_err fx fy k.isFin⟩
  rw [rx, ry] at ha hb
  rw [rx, rx] at hx
  rw [ry, ry] at hy
  obtain ⟨dx1, dx2⟩ := diff fb.1 fa.1 hb.1 ha.1
  obtain ⟨dy1, dy2⟩ := diff fb.2 fa.2 hb.2 ha.2
  have hX0 : toReal b.x - toReal a.x ≠ 0 := sub_ne_zero.2 hx.symm
  have hY0 : toReal b.y - toReal a.y ≠ 0 := sub_ne_zero.2 hy.symm
  rw [rx, rx, ry, ry] at hσ
  have hσ0 : σ ≠ 0 := by
    intro hc
    rw [hc, abs_zero] at lσ
    norm_num at lσ
  have hinv : (toReal b.y - toReal a.y) / (toReal b.x - toReal a.x) = -σ⁻¹ := by rw [hσ]; field_simp
  have lσ' : 1 / 2 ^ 100 ≤ |(toReal b.y - toReal a.y) / (toReal b.x - toReal a.x)| := by
    rw [hinv, abs_neg, abs_inv, ← one_div]
    rw [div_le_div_iff₀ (by norm_num) (abs_pos.2 hσ0)]
    norm_num at uσ ⊢
    linarith
  have uσ' : |(toReal b.y - toReal a.y) / (toReal b.x - toReal a.x)| ≤ 2 ^ 100 := by
    rw [hinv, abs_neg, abs_inv, ← one_div, div_le_iff₀ (abs_pos.2 hσ0)]
    norm_num at lσ ⊢
    linarith
  have hu8 : u ≤ 1 / 8 := by unfold u; norm_num
  obtain ⟨s1, s2⟩ := quot_rel (κ := 9 / 2 * u) dy1 dx1 dy2 dx2 hY0 hX0 u_pos.le u_pos.le hu8 hu8 lσ' uσ' (by have := u_pos; linarith)
  have f1 : IsFin (-(OrdScalar.one : F32)) := neg_isFin one_isFin
  have e1 : toReal (-(OrdScalar.one : F32)) = -1 := by
    rw [show toReal (-(OrdScalar.one : F32)) = -toReal (OrdScalar.one : F32) from toReal_neg _, toReal_one]
  have hsig : -1 / ((toReal b.y - toReal a.y) / (toReal b.x - toReal a.x)) = σ := by
    rw [hinv]; field_simp
  obtain ⟨t1, t2⟩ := quot_rel (κ := 8 * u) f1 s1 (ε := 0) (X := -1) (by rw [e1]; simp) s2 (by norm_num) (by rw [hinv]; simp [hσ0])
    (by have := u_pos; linarith) (le_refl _) (by unfold u; norm_num) (by norm_num) (by rw [hsig]; norm_num at lσ ⊢; linarith)
    (by rw [hsig]; norm_num at uσ ⊢; linarith) (by have := u_pos; linarith)
  rw [hsig] at t2
  have hs : Near (-(OrdScalar.one : F32) / ((b.y - a.y) / (b.x - a.x))) σ |σ| (8 * u * |σ|) := ⟨t1, le_refl _, t2⟩
  obtain ⟨k1, k2⟩ := bisector_near n1 n2 fo ho hs hlo hhi uσ
  refine ⟨_, (((rpos a).1 + (rpos b).1) / 2 + toRat o, ((rpos a).2 + (rpos b).2) / 2 + σ * toRat o), _, _, rfl, rfl, ?_, ?_,
    ⟨mf1, mf2, k1.isFin, k2.isFin⟩, ?_, ?_, ?_, ?_⟩
  · have hrel : σ * (toReal b.y - toReal a.y) = -(toReal b.x - toReal a.x) := by rw [hσ]; field_simp
    unfold dst
    simp only [rx, ry]
    congr 1
    linear_combination 2 * (toRat o : ℝ) * hrel
  · simp
  · show |(toRat (calculateMidpoint a b).x : ℝ) - _| ≤ _
    rw [toRat_toReal]
    refine n1.err.trans ?_
    unfold u; norm_num; linarith
  · show |(toRat (calculateMidpoint a b).y : ℝ) - _| ≤ _
    rw [toRat_toReal]
    refine n2.err.trans ?_
    unfold u; norm_num; linarith
  · have h := k1.err
    rw [rx, toRat_toReal]
    refine h.trans ?_
    unfold u; norm_num
  · have h := k2.err
    rw [ry, toRat_toReal]
    refine h.trans ?_
    have : 0 ≤ |σ| * B := by positivity
    rw [add_mul, one_mul]
    unfold u; norm_num; linarith

theorem fin_of_zero {x : F32} (hx : IsFin x) (h : toReal x = 0) : ∃ s, x = F32.fin s ⟨0, by decide⟩ := by
  obtain ⟨s, n, rfl⟩ := hx
  refine ⟨s, ?_⟩
  have hm : mag n = 0 := by
    rw [toReal_fin, mul_div_assoc] at h
    have := abs_sign s ((mag n : ℝ) / 2 ^ 149)
    rw [h, abs_zero] at this
    have h2 := abs_eq_zero.1 this.symm
    rcases div_eq_zero_iff.1 h2 with h3 | h3
    · exact_mod_cast h3
    · exact absurd h3 (by positivity)
  have : n = ⟨0, by decide⟩ := Fin.ext (F32.mag_eq_zero.1 hm)
  rw [this]

theorem add_zero_real {x y : F32} (hx : IsFin x) (hy : IsFin y) (h : toReal y = 0) : IsFin (x + y) ∧ toReal (x + y) = toReal x := by
  obtain ⟨s, rfl⟩ := fin_of_zero hy h
  have h1 : F32.Same (x + F32.fin s ⟨0, by decide⟩) x :=
    (F32.Same.add (F32.Same.refl x) (.inr ⟨s, false, rfl, rfl⟩)).trans (F32.add_zero_same x)
  rcases h1 with h1 | ⟨s', t, h1, h2⟩
  · rw [h1]; exact ⟨hx, rfl⟩
  · rw [h1, h2]
    refine ⟨⟨_, _, rfl⟩, ?_⟩
    rw [toReal_fin, toReal_fin, F32.mag_zero]; simp

theorem div_zero_inf {x y : F32} (hx : IsFin x) (hy : IsFin y) (h : toReal x ≠ 0) (h0 : toReal y = 0) : ∃ s, x / y = F32.inf s := by
  obtain ⟨s, rfl⟩ := fin_of_zero hy h0
  obtain ⟨t, n, rfl⟩ := hx
  have hn : n.val ≠ 0 := by
    intro hc
    apply h
    rw [toReal_fin, hc, F32.mag_zero]; simp
  refine ⟨t ^^ s, ?_⟩
  show (if (0 : ℕ) = 0 then (if n.val = 0 then F32.nan else F32.inf (t ^^ s)) else F32.round (t ^^ s) (mag n * 2 ^ 149) (mag 0)) = _
  rw [if_pos rfl, if_neg hn]

theorem sub_zero_fin {x y : F32} (hx : IsFin x) (hy : IsFin y) (h : toReal x = toReal y) : IsFin (x - y) ∧ toReal (x - y) = 0 := by
  have hf : IsFin (x - y) := sub_isFin hx hy (by rw [h, sub_self, abs_zero]; unfold maxHalf; norm_num)
  have := sub_err hx hy hf
  rw [h, sub_self, abs_zero, mul_zero, sub_zero] at this
  exact ⟨hf, abs_eq_zero.1 (le_antisymm this (abs_nonneg _))⟩

theorem sub_ne_real {x y : F32} (hx : IsFin x) (hy : IsFin y) (h : toReal x ≠ toReal y) (hb : |toReal x - toReal y| ≤ 2 ^ 127) :
    IsFin (x - y) ∧ toReal (x - y) ≠ 0 := by
  have hf : IsFin (x - y) := sub_isFin hx hy (lt_of_le_of_lt hb (by unfold maxHalf; norm_num))
  have := sub_err hx hy hf
  refine ⟨hf, fun hc => ?_⟩
  rw [hc, zero_sub, abs_neg] at this
  have h1 := abs_pos.2 (sub_ne_zero.2 h)
  have h2 : u < 1 := by unfold u; norm_num
  nlinarith

/-- **C123, vertical segments.** When the first coordinates agree and the second do not, the computed points have the same second
coordinate, that of the computed midpoint: the slope of the segment is an infinity and `-1` divided by it a zero. -/
theorem C123_vertical {a b : Vec2 F32} {o : F32} (fa : IsFin a.x ∧ IsFin a.y) (fb : IsFin b.x ∧ IsFin b.y)
    (hx : (rpos a).1 = (rpos b).1) (hy : (rpos a).2 ≠ (rpos b).2) (hb : |(rpos b).2 - (rpos a).2| ≤ 2 ^ 127)
    (fm : IsFin (calculateMidpoint a b).x ∧ IsFin (calculateMidpoint a b).y) (fo : IsFin ((calculateMidpoint a b).x + o)) :
    ∃ q, calculatePerpendicularBisector a b o = (calculateMidpoint a b, q) ∧ IsFin q.y ∧ (rpos q).2 = (rpos (calculateMidpoint a b)).2 ∧
      q.x = (calculateMidpoint a b).x + o := by
  have rx : ∀ p : Vec2 F32, (rpos p).1 = toReal p.x := fun p => toRat_toReal _
  have ry : ∀ p : Vec2 F32, (rpos p).2 = toReal p.y := fun p => toRat_toReal _
  rw [rx, rx] at hx
  rw [ry, ry] at hy hb
  obtain ⟨d1, d2⟩ := sub_zero_fin fb.1 fa.1 hx.symm
  obtain ⟨d3, d4⟩ := sub_ne_real fb.2 fa.2 hy.symm hb
  obtain ⟨s, hs⟩ := div_zero_inf d3 d1 d4 d2
  obtain ⟨t, ht⟩ : ∃ t, -(OrdScalar.one : F32) / ((b.y - a.y) / (b.x - a.x)) = F32.fin t ⟨0, by decide⟩ := by
    rw [hs]
    obtain ⟨v, n, hv⟩ := neg_isFin one_isFin
    rw [show -(OrdScalar.one : F32) = F32.fin v n from hv]
    exact ⟨_, rfl⟩
  have z1 : IsFin (F32.fin t ⟨0, by decide⟩) := ⟨_, _, rfl⟩
  have z2 : toReal (F32.fin t ⟨0, by decide⟩) = 0 := by rw [toReal_fin, F32.mag_zero]; simp
  obtain ⟨p1, p2⟩ := mul_zero' z1 fm.1 (by rw [z2, zero_mul])
  obtain ⟨p3, p4⟩ := add_zero_real fm.2 (neg_isFin p1) (by
    exact (toReal_neg _).trans (by rw [p2, neg_zero]))
  obtain ⟨p5, p6⟩ := mul_zero' fo z1 (by rw [z2, mul_zero])
  obtain ⟨p7, p8⟩ := add_zero_real p3 p5 p6
  refine ⟨_, rfl, ?_, ?_, rfl⟩
  · show IsFin (((calculateMidpoint a b).x + o) * (-OrdScalar.one / ((b.y - a.y) / (b.x - a.x))) +
      ((calculateMidpoint a b).y - (-OrdScalar.one / ((b.y - a.y) / (b.x - a.x))) * (calculateMidpoint a b).x))
    rw [ht, F32.Same.add_comm]
    exact p7
  · rw [ry, ry]
    show toReal (((calculateMidpoint a b).x + o) * (-OrdScalar.one / ((b.y - a.y) / (b.x - a.x))) +
      ((calculateMidpoint a b).y - (-OrdScalar.one / ((b.y - a.y) / (b.x - a.x))) * (calculateMidpoint a b).x)) = _
    rw [ht, F32.Same.add_comm]
    exact p8.trans p4

/-- **C123, horizontal segments.** When the second coordinates agree and the first do not, the second coordinate of the second
point is not finite, whatever the offset. -/
theorem C123_horizontal {a b : Vec2 F32} (o : F32) (fa : IsFin a.x ∧ IsFin a.y) (fb : IsFin b.x ∧ IsFin b.y)
    (hx : (rpos a).1 ≠ (rpos b).1) (hy : (rpos a).2 = (rpos b).2) (hb : |(rpos b).1 - (rpos a).1| ≤ 2 ^ 127) :
    ¬ IsFin (calculatePerpendicularBisector a b o).2.y := by
  have rx : ∀ p : Vec2 F32, (rpos p).1 = toReal p.x := fun p => toRat_toReal _
  have ry : ∀ p : Vec2 F32, (rpos p).2 = toReal p.y := fun p => toRat_toReal _
  rw [rx, rx] at hx hb
  rw [ry, ry] at hy
  obtain ⟨d1, d2⟩ := sub_zero_fin fb.2 fa.2 hy.symm
  obtain ⟨d3, d4⟩ := sub_ne_real fb.1 fa.1 hx.symm hb
  obtain ⟨q1, q2⟩ : IsFin ((b.y - a.y) / (b.x - a.x)) ∧ toReal ((b.y - a.y) / (b.x - a.x)) = 0 := by
    obtain ⟨s, hs⟩ := fin_of_zero d1 d2
    rw [hs]
    obtain ⟨t, n, hn⟩ := d3
    have h0 : n.val ≠ 0 := by
      intro hc
      apply d4
      rw [hn, toReal_fin, hc, F32.mag_zero]; simp
    rw [hn]
    have e : (F32.fin s ⟨0, by decide⟩ / F32.fin t n : F32) = F32.fin (s ^^ t) ⟨0, by decide⟩ := by
      show (if n.val = 0 then _ else F32.round (s ^^ t) (mag 0 * 2 ^ 149) (mag n)) = _
      rw [if_neg h0, F32.mag_zero, Nat.zero_mul]
      unfold F32.round
      rw [roundIdx_zero _ (Nat.pos_of_ne_zero (fun hc => h0 (F32.mag_eq_zero.1 hc)))]
      rfl
    rw [e]
    exact ⟨⟨_, _, rfl⟩, by rw [toReal_fin, F32.mag_zero]; simp⟩
  obtain ⟨s, hs⟩ := div_zero_inf (x := -(OrdScalar.one : F32)) (neg_isFin one_isFin) q1 (by
    rw [show toReal (-(OrdScalar.one : F32)) = -toReal (OrdScalar.one : F32) from toReal_neg _, toReal_one]; norm_num) q2
  show ¬ IsFin (((calculateMidpoint a b).x + o) * (-OrdScalar.one / ((b.y - a.y) / (b.x - a.x))) + _)
  rw [hs]
  have hm : ∀ x : F32, (∃ t, x * F32.inf s = F32.inf t) ∨ x * F32.inf s = F32.nan := by
    intro x
    cases x with
    | nan => exact .inr rfl
    | inf t => exact .inl ⟨_, rfl⟩
    | fin t n =>
      by_cases h : n.val = 0
      · right; show (if n.val = 0 then _ else _) = _; rw [if_pos h]
      · left; refine ⟨t ^^ s, ?_⟩; show (if n.val = 0 then _ else _) = _; rw [if_neg h]
  have hadd : ∀ x y : F32, ((∃ t, x = F32.inf t) ∨ x = F32.nan) → ¬ IsFin (x + y) := by
    rintro x y (⟨t, rfl⟩ | rfl)
    · cases y with
      | nan => rintro ⟨_, _, h⟩; cases h
      | inf t' =>
        rintro ⟨_, _, h⟩
        have h' : (if t = t' then F32.inf t else F32.nan) = F32.fin _ _ := h
        split at h' <;> cases h'
      | fin t' n => rintro ⟨_, _, h⟩; cases h
    · cases y <;> (rintro ⟨_, _, h⟩; cases h)
  exact hadd _ _ (hm _)

/-- the hypotheses of `C123_bisector`: from (0, 0) to (4, 4) with offset 1; of the other two, the sides of the square -/
example : ∃ o : F32, IsFin o ∧ (toRat o : ℝ) = 1 ∧ (rpos exPts[0]).1 ≠ (rpos exPts[2]).1 ∧ (rpos exPts[0]).2 ≠ (rpos exPts[2]).2 ∧
    -((rpos exPts[2]).1 - (rpos exPts[0]).1) / ((rpos exPts[2]).2 - (rpos exPts[0]).2) = -1 ∧
    (rpos exPts[0]).1 = (rpos exPts[3]).1 ∧ (rpos exPts[0]).2 ≠ (rpos exPts[3]).2 ∧
    (rpos exPts[0]).1 ≠ (rpos exPts[4]).1 ∧ (rpos exPts[0]).2 = (rpos exPts[4]).2 := by
  have e0 := ex_at 0 (by decide) (0, 0) rfl
  have e4 := ex_at 4 (by decide) (4, 0) rfl
  have e3 := ex_at 3 (by decide) (0, 4) rfl
  have e2 := ex_at 2 (by decide) (4, 4) rfl
  refine ⟨OrdScalar.one, one_isFin, by rw [toRat_toReal, toReal_one], ?_⟩
  rw [e0, e2, e3, e4]
  norm_num

/-! ### the line -/

theorem wedge_near {x1 x2 p1 p2 u1 u2 : F32} {D U : ℝ} (fx : IsFin x1 ∧ IsFin x2) (fp : IsFin p1 ∧ IsFin p2) (fu : IsFin u1 ∧ IsFin u2)
    (hd : |toReal x1 - toReal p1| ≤ D ∧ |toReal x2 - toReal p2| ≤ D) (hu : |toReal u1| ≤ U ∧ |toReal u2| ≤ U)
    (hD : 1 / 2 ^ 40 ≤ D ∧ D ≤ 2 ^ 60) (hU : 1 / 2 ^ 40 ≤ U ∧ U ≤ 2 ^ 60) :
    Near ((x1 - p1) * u2 - (x2 - p2) * u1) ((toReal x1 - toReal p1) * toReal u2 - (toReal x2 - toReal p2) * toReal u1) (2 * (D * U))
      (7 * u * (D * U)) := by
  have hu0 := u_pos
  have hu1 : u ≤ 1 / 2 ^ 20 := by unfold u; norm_num
  have pD : 0 < D := lt_of_lt_of_le (by norm_num) hD.1
  have pU : 0 < U := lt_of_lt_of_le (by norm_num) hU.1
  have hDU : D * U ≤ 2 ^ 120 := by
    calc D * U ≤ 2 ^ 60 * 2 ^ 60 := mul_le_mul hD.2 hU.2 pU.le (by norm_num)
      _ = 2 ^ 120 := by norm_num
  have hDU1 : 1 / 2 ^ 80 ≤ D * U := by
    calc (1 : ℝ) / 2 ^ 80 = 1 / 2 ^ 40 * (1 / 2 ^ 40) := by norm_num
      _ ≤ D * U := mul_le_mul hD.1 hU.1 (by norm_num) pD.le
  have d : ∀ {x p : F32}, IsFin x → IsFin p → |toReal x - toReal p| ≤ D → Near (x - p) (toReal x - toReal p) D (u * D) := by
    intro x p f1 f2 h
    have hf : IsFin (x - p) := sub_isFin f1 f2 (lt_of_le_of_lt (h.trans hD.2) (by unfold maxHalf; norm_num))
    exact ⟨hf, h, (sub_err f1 f2 hf).trans (mul_le_mul_of_nonneg_left h hu0.le)⟩
  have m : ∀ {x p w : F32}, IsFin x → IsFin p → IsFin w → |toReal x - toReal p| ≤ D → |toReal w| ≤ U →
      Near ((x - p) * w) ((toReal x - toReal p) * toReal w) (D * U) (2 * u * (D * U) + u / 4 * (D * U)) := by
    intro x p w f1 f2 f3 h1 h3
    have hd := d f1 f2 h1
    have e : (D + u * D) * (U + 0) = (1 + u) * (D * U) := by ring
    refine (hd.mul ((Near.exact f3).weaken h3 (le_refl _)) ?_).weaken (le_refl _) ?_
    · rw [e]
      have : (1 + u) * (D * U) ≤ 3 * (2 ^ 120) := mul_le_mul (by norm_num at hu1; linarith) hDU (by positivity) (by norm_num)
      refine this.trans (by norm_num)
    · rw [e]
      have h4 : η ≤ u / 8 * (D * U) := by
        have : η ≤ u / 8 * (1 / 2 ^ 80) := by unfold η u; norm_num
        refine this.trans (mul_le_mul_of_nonneg_left hDU1 (by linarith))
      have h5 : u * u * (D * U) ≤ u / 8 * (D * U) := mul_le_mul_of_nonneg_right (by norm_num at hu1; nlinarith) (by positivity)
      nlinarith
  have m1 := m fx.1 fp.1 fu.2 hd.1 hu.2
  have m2 := m fx.2 fp.2 fu.1 hd.2 hu.1
  refine (m1.sub m2 ?_).weaken (by linarith) ?_
  · have h6 : u * (D * U) ≤ 1 / 2 ^ 20 * (D * U) := mul_le_mul_of_nonneg_right hu1 (by positivity)
    have : D * U + D * U + (2 * u * (D * U) + u / 4 * (D * U)) + (2 * u * (D * U) + u / 4 * (D * U)) ≤ 5 * (D * U) := by
      norm_num at h6; nlinarith
    refine this.trans ?_
    have : 5 * (D * U) ≤ 5 * 2 ^ 120 := by linarith
    refine this.trans (by norm_num)
  · have h5 : u * u * (D * U) ≤ u / 1000 * (D * U) := mul_le_mul_of_nonneg_right (by norm_num at hu1; nlinarith) (by positivity)
    have h6 : 0 ≤ u * (D * U) := by positivity
    nlinarith

/-- all components finite and at most `M` in absolute value -/
def Within (v : Vector3 F32) (M : ℝ) : Prop :=
  (IsFin v.a1 ∧ IsFin v.a2 ∧ IsFin v.a3) ∧ |(toRat v.a1 : ℝ)| ≤ M ∧ |(toRat v.a2 : ℝ)| ≤ M ∧ |(toRat v.a3 : ℝ)| ≤ M

/-- the largest of the components of `(x - p) ∧ w`, over the reals -/
noncomputable def spread (p w x : Vector3 F32) : ℝ :=
  max (max |((toRat x.a1 : ℝ) - toRat p.a1) * toRat w.a2 - ((toRat x.a2 : ℝ) - toRat p.a2) * toRat w.a1|
    |((toRat x.a1 : ℝ) - toRat p.a1) * toRat w.a3 - ((toRat x.a3 : ℝ) - toRat p.a3) * toRat w.a1|)
    |((toRat x.a2 : ℝ) - toRat p.a2) * toRat w.a3 - ((toRat x.a3 : ℝ) - toRat p.a3) * toRat w.a2|

/-- **C123, the line.** Let no coordinate of the point be further than `D` from that of the line's point, and the components of the
direction at most `U`. A point whose true area components are at most `2^-23` less the error `7·2^-24·D·U` is accepted;
an accepted point has true area components at most `2^-23` plus that error. -/
theorem C123_line {p w x : Vector3 F32} {D U M : ℝ} (fp : Within p M) (fx : Within x M) (fw : Within w U)
    (hd : |(toRat x.a1 : ℝ) - toRat p.a1| ≤ D ∧ |(toRat x.a2 : ℝ) - toRat p.a2| ≤ D ∧ |(toRat x.a3 : ℝ) - toRat p.a3| ≤ D)
    (hD : 1 / 2 ^ 40 ≤ D ∧ D ≤ 2 ^ 60) (hU : 1 / 2 ^ 40 ≤ U ∧ U ≤ 2 ^ 60) :
    (spread p w x + 7 / 2 ^ 24 * (D * U) ≤ 1 / 2 ^ 23 → (Line.new p w).contains (F32.ulpsEq Scalar.epsilon 4) x = true) ∧
    ((Line.new p w).contains (F32.ulpsEq Scalar.epsilon 4) x = true → spread p w x ≤ 1 / 2 ^ 23 + 7 / 2 ^ 24 * (D * U)) := by
  obtain ⟨⟨p1, p2, p3⟩, -⟩ := fp
  obtain ⟨⟨x1, x2, x3⟩, -⟩ := fx
  obtain ⟨⟨w1, w2, w3⟩, u1, u2, u3⟩ := fw
  unfold spread
  simp only [toRat_toReal] at hd u1 u2 u3 ⊢
  have n1 := wedge_near ⟨x1, x2⟩ ⟨p1, p2⟩ ⟨w1, w2⟩ ⟨hd.1, hd.2.1⟩ ⟨u1, u2⟩ hD hU
  have n2 := wedge_near ⟨x1, x3⟩ ⟨p1, p3⟩ ⟨w1, w3⟩ ⟨hd.1, hd.2.2⟩ ⟨u1, u3⟩ hD hU
  have n3 := wedge_near ⟨x2, x3⟩ ⟨p2, p3⟩ ⟨w2, w3⟩ ⟨hd.2.1, hd.2.2⟩ ⟨u2, u3⟩ hD hU
  have ce : (7 : ℝ) / 2 ^ 24 * (D * U) = 7 * u * (D * U) := by unfold u; ring
  rw [Kami.LineThm.C20_contains_iff_f32, ce]
  have key : ∀ {z : F32} {Z N : ℝ}, Near z Z N (7 * u * (D * U)) →
      (|Z| + 7 * u * (D * U) ≤ 1 / 2 ^ 23 → F32.le (F32.abs z) Scalar.epsilon = true) ∧
      (F32.le (F32.abs z) Scalar.epsilon = true → |Z| ≤ 1 / 2 ^ 23 + 7 * u * (D * U)) := by
    intro z Z N h
    rw [le_fin (abs_fin' h.isFin).1 eps_isFin, (abs_fin' h.isFin).2, toReal_eps]
    have h1 := abs_sub_abs_le_abs_sub (toReal z) Z
    have h2 := abs_sub_abs_le_abs_sub Z (toReal z)
    rw [abs_sub_comm] at h2
    have := h.err
    constructor
    · intro h3; linarith
    · intro h3; linarith
  have k1 := key n1
  have k2 := key n2
  have k3 := key n3
  constructor
  · intro h
    refine ⟨k1.1 ?_, k2.1 ?_, k3.1 ?_⟩
    · refine le_trans ?_ h
      gcongr
      exact (le_max_left _ _).trans (le_max_left _ _)
    · refine le_trans ?_ h
      gcongr
      exact (le_max_right _ _).trans (le_max_left _ _)
    · refine le_trans ?_ h
      gcongr
      exact le_max_right _ _
  · rintro ⟨h1, h2, h3⟩
    exact max_le (max_le (k1.2 h1) (k2.2 h2)) (k3.2 h3)

/-- **C123, consequence.** A point exactly on the line, with `D · U` at most `2/7`, is accepted. -/
theorem C123_on_line {p w x : Vector3 F32} {D U M : ℝ} (fp : Within p M) (fx : Within x M) (fw : Within w U)
    (hd : |(toRat x.a1 : ℝ) - toRat p.a1| ≤ D ∧ |(toRat x.a2 : ℝ) - toRat p.a2| ≤ D ∧ |(toRat x.a3 : ℝ) - toRat p.a3| ≤ D)
    (hD : 1 / 2 ^ 40 ≤ D ∧ D ≤ 2 ^ 60) (hU : 1 / 2 ^ 40 ≤ U ∧ U ≤ 2 ^ 60) (hDU : D * U ≤ 2 / 7) {t : ℝ}
    (h1 : (toRat x.a1 : ℝ) = toRat p.a1 + t * toRat w.a1) (h2 : (toRat x.a2 : ℝ) = toRat p.a2 + t * toRat w.a2)
    (h3 : (toRat x.a3 : ℝ) = toRat p.a3 + t * toRat w.a3) :
    (Line.new p w).contains (F32.ulpsEq Scalar.epsilon 4) x = true := by
  refine (C123_line fp fx fw hd hD hU).1 ?_
  have : spread p w x = 0 := by
    unfold spread
    rw [h1, h2, h3]
    ring_nf
    simp
  rw [this]
  norm_num
  linarith

/-- **C123, far points.** The point (16777216, 2019, 0) is on the line through (-1, 0, 0) in the direction (24929, 3, 0), at
`t = 673`, and is rejected. -/
theorem C123_far_rejected :
    (Line.new (⟨F32.lit (-1), F32.lit 0, F32.lit 0⟩ : Vector3 F32) ⟨F32.lit 24929, F32.lit 3, F32.lit 0⟩).contains
      (F32.ulpsEq Scalar.epsilon 4) ⟨F32.lit 16777216, F32.lit 2019, F32.lit 0⟩ = false ∧
    toRat (F32.lit 16777216) = toRat (F32.lit (-1)) + 673 * toRat (F32.lit 24929) ∧
    toRat (F32.lit 2019) = toRat (F32.lit 0) + 673 * toRat (F32.lit 3) ∧
    toRat (F32.lit 0) = toRat (F32.lit 0) + 673 * toRat (F32.lit 0) := by
  decide +kernel

/-- the hypotheses of `C123_on_line`: the point (1/8, 1/4, 0) of the line through the origin in the direction (1/2, 1, 0) -/
example : ∃ p w x : Vector3 F32, Within p 1 ∧ Within x 1 ∧ Within w 1 ∧ (toRat x.a1 : ℝ) = 1 / 8 ∧ (toRat x.a2 : ℝ) = 1 / 4 ∧
    (toRat x.a1 : ℝ) = toRat p.a1 + 1 / 4 * toRat w.a1 ∧ (toRat x.a2 : ℝ) = toRat p.a2 + 1 / 4 * toRat w.a2 := by
  have h0 : toRat (F32.lit 0) = 0 := by decide +kernel
  have h1 : toRat (F32.lit 1) = 1 := by decide +kernel
  have h2 : toRat (F32.lit 1 2) = 1 / 2 := by decide +kernel
  have h4 : toRat (F32.lit 1 4) = 1 / 4 := by decide +kernel
  have h8 : toRat (F32.lit 1 8) = 1 / 8 := by decide +kernel
  have f0 : IsFin (F32.lit 0) := ⟨_, _, rfl⟩
  refine ⟨⟨F32.lit 0, F32.lit 0, F32.lit 0⟩, ⟨F32.lit 1 2, F32.lit 1, F32.lit 0⟩, ⟨F32.lit 1 8, F32.lit 1 4, F32.lit 0⟩, ?_⟩
  unfold Within
  simp only [h0, h1, h2, h4, h8]
  refine ⟨⟨⟨f0, f0, f0⟩, ?_⟩, ⟨⟨⟨_, _, rfl⟩, ⟨_, _, rfl⟩, f0⟩, ?_⟩, ⟨⟨⟨_, _, rfl⟩, ⟨_, _, rfl⟩, f0⟩, ?_⟩, ?_⟩ <;> norm_num [abs_le]

end Kami.UtilsF32
