import Verif.Geom.InradiusF32
import Verif.Num.F32Same
/-!
# C122: `parallel` in f32

The test compares the rounded cosine with 1, up to `f32::EPSILON`: only the two numbers `1` and `1 - 2^-24` pass.  So the answer `true`
bounds the true angle, but a segment need not be parallel to itself.
-/

set_option autoImplicit false

namespace Kami.UtilsF32

open Kami Kami.F32 Kami.Utils Kami.UtilThm Kami.Simple Kami.DistF32
open scoped Kami

/-! ### laws that hold for all bit patterns -/

theorem normalizeDot_comm (x y : Vec2 F32) : normalizeDot x y = normalizeDot y x := by
  unfold normalizeDot Vec2.dot
  rw [Same.mul_comm y.normalize.x, Same.mul_comm y.normalize.y]

theorem abs_same {a b : F32} (h : F32.Same a b) : F32.Same (F32.abs a) (F32.abs b) := by
  rcases h with rfl | ⟨s, t, rfl, rfl⟩
  · exact .refl _
  · exact .inr ⟨_, _, rfl, rfl⟩

theorem abs_neg_eq (a : F32) : F32.abs (-a) = F32.abs a := by
  rcases a with _ | s | ⟨s, n⟩ <;> rfl

theorem abs_same_eq {a b : F32} (h : F32.Same a b) : F32.abs a = F32.abs b := by
  rcases h with rfl | ⟨s, t, rfl, rfl⟩ <;> rfl

theorem norm_flip (a b : Vec2 F32) : (a.sub b).norm = (b.sub a).norm := by
  unfold Vec2.norm Vec2.dot Vec2.sub
  have h : ∀ x y : F32, (x - y) * (x - y) = (y - x) * (y - x) := sq_sub_comm
  simp only [h a.x b.x, h a.y b.y]

theorem normalizeDot_flip (a b : Vec2 F32) (v : Vec2 F32) :
    F32.Same (normalizeDot (a.sub b) v) (-(normalizeDot (b.sub a) v)) := by
  unfold normalizeDot Vec2.dot Vec2.normalize
  rw [norm_flip a b]
  have h : ∀ x y n w : F32, F32.Same ((x - y) / n * w) (-((y - x) / n * w)) := by
    intro x y n w
    rw [← neg_mul', ← neg_div']
    exact ((neg_sub' y x).symm.div n).mul (.refl w)
  exact ((h _ _ _ _).add (h _ _ _ _)).trans (neg_add' _ _).symm

/-- **C122, symmetry.** The answer of `parallel` depends neither on the order of the segments nor on their directions, for all f32
numbers including NaN and infinities. -/
theorem C122_symmetry (a b c d : Vec2 F32) : parallel c d a b = parallel a b c d ∧ parallel b a c d = parallel a b c d ∧
    parallel a b d c = parallel a b c d := by
  have h1 : ∀ a b c d : Vec2 F32, parallel c d a b = parallel a b c d := by
    intro a b c d
    unfold parallel
    simp only []
    rw [normalizeDot_comm]
  have h2 : ∀ a b c d : Vec2 F32, parallel b a c d = parallel a b c d := by
    intro a b c d
    have h : (OrdScalar.abs (normalizeDot (a.sub b) (d.sub c)) : F32) = OrdScalar.abs (normalizeDot (b.sub a) (d.sub c)) := by
      refine (abs_same_eq (normalizeDot_flip a b (d.sub c))).trans (abs_neg_eq _)
    unfold parallel
    simp only []
    rw [h]
  exact ⟨h1 a b c d, h2 a b c d, by rw [← h1, h2, h1]⟩

/-! ### the angle of recognised segments -/

/-- a component of the direction of a segment, divided by the length -/
theorem unit_near {a b : Vec2 F32} {x y : F32} {X L : ℝ} (hx : SmallNum x) (hy : SmallNum y) (ha : SmallPt a) (hb : SmallPt b)
    (hL : L = dst (rpos a) (rpos b)) (hX : X = toReal y - toReal x) (hXL : |X| ≤ L) (hlo : 1 / 2 ^ 40 ≤ L) :
    Near ((y - x) / distance a b) (X / L) 1 (25 / 2 * u) := by
  have hL0 : 0 < L := lt_of_lt_of_le (by norm_num) hlo
  have fx : IsFin x := hx.1
  have fy : IsFin y := hy.1
  have bx : |toReal x| ≤ 2 ^ 60 := by
    rw [← toRat_toReal]; exact_mod_cast hx.2
  have by' : |toReal y| ≤ 2 ^ 60 := by
    rw [← toRat_toReal]; exact_mod_cast hy.2
  have hs : Near (y - x) X L (u * L) := by
    have hf : IsFin (y - x) := by
      have k := (Near.exact fy).sub (Near.exact fx) (by norm_num at bx by' ⊢; linarith)
      exact k.isFin
    refine ⟨hf, hXL, ?_⟩
    have h1 := sub_err fy fx hf
    rw [← hX] at h1
    exact h1.trans (mul_le_mul_of_nonneg_left hXL u_pos.le)
  have hd := dist_near ha hb
  rw [← hL] at hd
  have h9 : 8 * u * L + 1 / 2 ^ 73 ≤ 9 * u * L := by
    unfold u
    norm_num at hlo ⊢
    linarith
  have k := hs.div hd (Q := 1) (e := u) (d := 9 * u) hL0 (by linarith) (le_refl _) h9 (by unfold u; norm_num)
    (by unfold u; norm_num)
  refine k.weaken (le_refl _) ?_
  unfold u η
  norm_num

/-- **C122, the cosine.** The number that `parallel` compares with 1 is the cosine of the angle up to `55 * 2^-24`, for segments with
coordinates up to `2^60` and lengths of at least `2^-40`. -/
theorem C122_cosine {a b c d : Vec2 F32} (ha : SmallPt a) (hb : SmallPt b) (hc : SmallPt c) (hd : SmallPt d)
    (hab : 1 / 2 ^ 40 ≤ dst (rpos a) (rpos b)) (hcd : 1 / 2 ^ 40 ≤ dst (rpos c) (rpos d)) :
    IsFin (normalizeDot (b.sub a) (d.sub c)) ∧
    |(toRat (normalizeDot (b.sub a) (d.sub c)) : ℝ) -
      dt (rpos a) (rpos b) (rpos c) (rpos d) / (dst (rpos a) (rpos b) * dst (rpos c) (rpos d))| ≤ 55 / 2 ^ 24 := by
  have comp : ∀ p q : ℝ × ℝ, |q.1 - p.1| ≤ dst p q ∧ |q.2 - p.2| ≤ dst p q := by
    intro p q
    unfold dst
    constructor <;> apply Real.abs_le_sqrt <;> nlinarith [sq_nonneg (q.1 - p.1), sq_nonneg (q.2 - p.2)]
  have rx : ∀ p : Vec2 F32, (rpos p).1 = toReal p.x := fun p => toRat_toReal _
  have ry : ∀ p : Vec2 F32, (rpos p).2 = toReal p.y := fun p => toRat_toReal _
  obtain ⟨c1, c2⟩ := comp (rpos a) (rpos b)
  obtain ⟨c3, c4⟩ := comp (rpos c) (rpos d)
  have n1 := unit_near (X := (rpos b).1 - (rpos a).1) ha.1 hb.1 ha hb rfl (by rw [rx, rx]) c1 hab
  have n2 := unit_near (X := (rpos b).2 - (rpos a).2) ha.2 hb.2 ha hb rfl (by rw [ry, ry]) c2 hab
  have n3 := unit_near (X := (rpos d).1 - (rpos c).1) hc.1 hd.1 hc hd rfl (by rw [rx, rx]) c3 hcd
  have n4 := unit_near (X := (rpos d).2 - (rpos c).2) hc.2 hd.2 hc hd rfl (by rw [ry, ry]) c4 hcd
  have m1 := n1.mul n3 (by unfold u; norm_num)
  have m2 := n2.mul n4 (by unfold u; norm_num)
  have k := m1.add m2 (by unfold u η; norm_num)
  have p1 : 0 < dst (rpos a) (rpos b) := lt_of_lt_of_le (by norm_num) hab
  have p2 : 0 < dst (rpos c) (rpos d) := lt_of_lt_of_le (by norm_num) hcd
  have e : dt (rpos a) (rpos b) (rpos c) (rpos d) / (dst (rpos a) (rpos b) * dst (rpos c) (rpos d)) =
      ((rpos b).1 - (rpos a).1) / dst (rpos a) (rpos b) * (((rpos d).1 - (rpos c).1) / dst (rpos c) (rpos d)) +
      ((rpos b).2 - (rpos a).2) / dst (rpos a) (rpos b) * (((rpos d).2 - (rpos c).2) / dst (rpos c) (rpos d)) := by
    unfold dt; field_simp
  rw [e, toRat_toReal]
  refine ⟨k.isFin, k.err.trans ?_⟩
  unfold u η
  norm_num

/-- **C122, the angle.** If `parallel` answers `true` for such segments, then the sine of the angle between their lines is at most
`2^-8.5`. -/
theorem C122_angle {a b c d : Vec2 F32} (ha : SmallPt a) (hb : SmallPt b) (hc : SmallPt c) (hd : SmallPt d)
    (hab : 1 / 2 ^ 40 ≤ dst (rpos a) (rpos b)) (hcd : 1 / 2 ^ 40 ≤ dst (rpos c) (rpos d)) (h : parallel a b c d = true) :
    crs (rpos a) (rpos b) (rpos c) (rpos d) ^ 2 ≤ 1 / 2 ^ 17 * (dst (rpos a) (rpos b) * dst (rpos c) (rpos d)) ^ 2 := by
  obtain ⟨hf, he⟩ := C122_cosine ha hb hc hd hab hcd
  have p1 : 0 < dst (rpos a) (rpos b) := lt_of_lt_of_le (by norm_num) hab
  have p2 : 0 < dst (rpos c) (rpos d) := lt_of_lt_of_le (by norm_num) hcd
  rw [toRat_toReal] at he
  have hlag : crs (rpos a) (rpos b) (rpos c) (rpos d) ^ 2 + dt (rpos a) (rpos b) (rpos c) (rpos d) ^ 2 =
      (dst (rpos a) (rpos b) * dst (rpos c) (rpos d)) ^ 2 := by
    rw [mul_pow]
    unfold dst
    rw [Real.sq_sqrt (by positivity), Real.sq_sqrt (by positivity)]
    unfold crs dt; ring
  obtain ⟨C, hC⟩ : ∃ C, C = dt (rpos a) (rpos b) (rpos c) (rpos d) / (dst (rpos a) (rpos b) * dst (rpos c) (rpos d)) := ⟨_, rfl⟩
  rw [← hC] at he
  have hdt : dt (rpos a) (rpos b) (rpos c) (rpos d) = C * (dst (rpos a) (rpos b) * dst (rpos c) (rpos d)) := by
    rw [hC]; field_simp
  rw [hdt, mul_pow] at hlag
  have hpos : 0 < (dst (rpos a) (rpos b) * dst (rpos c) (rpos d)) ^ 2 := by positivity
  generalize (dst (rpos a) (rpos b) * dst (rpos c) (rpos d)) ^ 2 = D at *
  have hC1 : |C| ≤ 1 := by
    rw [abs_le_one_iff_mul_self_le_one]
    have : C ^ 2 * D ≤ 1 * D := by nlinarith [sq_nonneg (crs (rpos a) (rpos b) (rpos c) (rpos d))]
    have := le_of_mul_le_mul_right this hpos
    nlinarith
  change F32.lt (F32.abs (F32.abs (normalizeDot (b.sub a) (d.sub c)) - (OrdScalar.one : F32))) (Scalar.epsilon : F32) = true at h
  generalize normalizeDot (b.sub a) (d.sub c) = q at *
  obtain ⟨fa, ea⟩ := abs_fin' hf
  have f1 : IsFin (OrdScalar.one : F32) := ⟨false, ⟨0x3f800000, by decide⟩, by decide +kernel⟩
  have e1 : toReal (OrdScalar.one : F32) = 1 := by
    rw [← toRat_toReal]
    have : toRat (OrdScalar.one : F32) = 1 := by decide +kernel
    rw [this]; norm_num
  have hq : |toReal q| ≤ 2 := by
    have := abs_sub_abs_le_abs_sub (toReal q) C
    norm_num at he
    linarith
  have fs : IsFin (F32.abs q - (OrdScalar.one : F32)) := by
    have k := (Near.exact fa).sub (Near.exact f1) (by rw [ea, e1, abs_abs, abs_one]; norm_num; linarith)
    exact k.isFin
  have es := sub_err fa f1 fs
  obtain ⟨fz, ez⟩ := abs_fin' fs
  rw [lt_fin fz eps_isFin, toReal_eps, ez] at h
  rw [ea, e1] at es
  have h3 : 1 - 21 / 10 / 2 ^ 23 ≤ |toReal q| := by
    have h4 := abs_sub_abs_le_abs_sub (|toReal q| - 1) (toReal (F32.abs q - (OrdScalar.one : F32)))
    rw [abs_sub_comm (|toReal q| - 1)] at h4
    have h5 : u * _root_.abs (|toReal q| - 1) ≤ 1 / 2 ^ 20 * _root_.abs (|toReal q| - 1) := mul_le_mul_of_nonneg_right (by unfold u; norm_num) (abs_nonneg _)
    have h6 := neg_abs_le (|toReal q| - 1)
    norm_num at h h5 ⊢
    linarith
  have h7 : 1 - 60 / 2 ^ 24 ≤ |C| := by
    have := abs_sub_abs_le_abs_sub (toReal q) C
    norm_num at he h3 ⊢
    linarith
  have h8 : 1 - 1 / 2 ^ 17 ≤ C ^ 2 := by
    rw [← sq_abs]
    have := abs_nonneg C
    have h9 : (1 - 60 / 2 ^ 24 : ℝ) ^ 2 ≤ |C| ^ 2 := pow_le_pow_left₀ (by norm_num) h7 2
    norm_num at h9 ⊢
    linarith
  have h10 := mul_le_mul_of_nonneg_right h8 hpos.le
  linarith

theorem sub_self_fin {x : F32} (hx : IsFin x) : x - x = fin false ⟨0, by decide⟩ := by
  obtain ⟨s, n, rfl⟩ := hx
  show F32.add (fin s n) (F32.neg (fin s n)) = _
  have hv : val s n + val (!s) n = 0 := by cases s <;> simp [val]
  unfold F32.add F32.neg
  simp only [hv]
  cases s <;> rfl

/-- **C122, points.** A segment without length is parallel to nothing. -/
theorem C122_point {a c d : Vec2 F32} (hx : IsFin a.x) (hy : IsFin a.y) : parallel a a c d = false ∧ parallel c d a a = false := by
  have hn : (a.sub a).normalize = ⟨F32.nan, F32.nan⟩ := by
    unfold Vec2.sub
    rw [sub_self_fin hx, sub_self_fin hy]
    decide +kernel
  have h : parallel a a c d = false := by
    unfold parallel normalizeDot
    simp only []
    rw [hn]
    rfl
  exact ⟨h, by rw [(C122_symmetry a a c d).1]; exact h⟩

/-- **C122, not reflexive.** The segment from (0, 0) to (1, 4) is not parallel to itself, nor to the one from (0, 0) to (2, 8). -/
theorem C122_not_reflexive :
    parallel (⟨F32.lit 0, F32.lit 0⟩ : Vec2 F32) ⟨F32.lit 1, F32.lit 4⟩ ⟨F32.lit 0, F32.lit 0⟩ ⟨F32.lit 1, F32.lit 4⟩ = false ∧
    parallel (⟨F32.lit 0, F32.lit 0⟩ : Vec2 F32) ⟨F32.lit 1, F32.lit 4⟩ ⟨F32.lit 0, F32.lit 0⟩ ⟨F32.lit 2, F32.lit 8⟩ = false := by
  decide +kernel

/-- the hypotheses of the bounds: a diagonal of the square and a side -/
example : parallel exPts[0] exPts[4] exPts[2] exPts[3] = true ∧ parallel exPts[0] exPts[4] exPts[0] exPts[2] = false ∧
    SmallPt exPts[0] ∧ SmallPt exPts[4] ∧ SmallPt exPts[2] ∧ SmallPt exPts[3] ∧ 1 / 2 ^ 40 ≤ dst (rpos exPts[0]) (rpos exPts[4]) ∧
    1 / 2 ^ 40 ≤ dst (rpos exPts[2]) (rpos exPts[3]) := by
  have e0 := ex_at 0 (by decide) (0, 0) rfl
  have e4 := ex_at 4 (by decide) (4, 0) rfl
  have e3 := ex_at 3 (by decide) (0, 4) rfl
  have e2 := ex_at 2 (by decide) (4, 4) rfl
  refine ⟨by decide +kernel, by decide +kernel, exPts_small _ (by simp [exPts]), exPts_small _ (by simp [exPts]),
    exPts_small _ (by simp [exPts]), exPts_small _ (by simp [exPts]), ?_, ?_⟩
  · rw [e0, e4]; unfold dst; rw [Real.le_sqrt' (by norm_num)]; norm_num
  · rw [e2, e3]; unfold dst; rw [Real.le_sqrt' (by norm_num)]; norm_num

end Kami.UtilsF32
