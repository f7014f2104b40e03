import Verif.Geom.UtilsF32
/-!
# C108: the radius of the incircle in f32

`calculate_triangle_incenter` computes the radius by Heron's formula, which loses accuracy for flat triangles.  The bound
below is relative and grows with the flatness of the triangle.
-/

set_option autoImplicit false

namespace Kami.UtilsF32

open Kami Kami.F32 Kami.Utils Kami.UtilThm Kami.Simple Kami.DistF32
open scoped Kami

/-- `x` approximates the positive number `X` up to a relative error `ε` -/
structure Rel (x : F32) (X ε : ℝ) : Prop where
  isFin : IsFin x
  pos : 0 < X
  err : |toReal x - X| ≤ ε * X

theorem Rel.near {x : F32} {X ε : ℝ} (h : Rel x X ε) : Near x X X (ε * X) :=
  ⟨h.isFin, le_of_eq (abs_of_pos h.pos), h.err⟩

theorem Rel.nonneg {x : F32} {X ε : ℝ} (h : Rel x X ε) : 0 ≤ ε := by
  have := (abs_nonneg _).trans h.err
  exact nonneg_of_mul_nonneg_left this h.pos

theorem Rel.mul {x y : F32} {X Y ε δ κ : ℝ} (h : Rel x X ε) (h' : Rel y Y δ) (hε : ε ≤ 1 / 8) (hδ : δ ≤ 1 / 8)
    (hlo : 1 / 2 ^ 110 ≤ X * Y) (hhi : X * Y ≤ 2 ^ 120) (hκ : ε + δ + ε * δ + 2 * u ≤ κ) : Rel (x * y) (X * Y) κ := by
  have nε := h.nonneg
  have nδ := h'.nonneg
  have hXY : 0 < X * Y := mul_pos h.pos h'.pos
  have e1 : (X + ε * X) * (Y + δ * Y) = (1 + ε) * (1 + δ) * (X * Y) := by ring
  have b1 : (1 + ε) * (1 + δ) ≤ 3 / 2 := by
    have : (1 + ε) * (1 + δ) ≤ (1 + 1 / 8) * (1 + 1 / 8) := by
      apply mul_le_mul <;> linarith
    linarith
  have b2 : (1 + ε) * (1 + δ) * (X * Y) ≤ 3 / 2 * (X * Y) := mul_le_mul_of_nonneg_right b1 hXY.le
  have k := h.near.mul h'.near (by rw [e1]; norm_num at hhi ⊢; linarith)
  refine ⟨k.isFin, hXY, k.err.trans ?_⟩
  rw [e1]
  have e2 : X * (δ * Y) + Y * (ε * X) + ε * X * (δ * Y) = (ε + δ + ε * δ) * (X * Y) := by ring
  rw [e2]
  have b3 : u * ((1 + ε) * (1 + δ) * (X * Y)) ≤ u * (3 / 2 * (X * Y)) := mul_le_mul_of_nonneg_left b2 u_pos.le
  have b4 : η ≤ 1 / 2 * u * (X * Y) := by
    unfold η u
    norm_num at hlo ⊢
    linarith
  have b5 := mul_le_mul_of_nonneg_right hκ hXY.le
  have e3 : (ε + δ + ε * δ + 2 * u) * (X * Y) = (ε + δ + ε * δ) * (X * Y) + 2 * u * (X * Y) := by ring
  rw [e3] at b5
  linarith

theorem Rel.sqrt {x : F32} {X ε κ : ℝ} (h : Rel x X ε) (hε : ε ≤ 1 / 8) (hκ : ε + 2 * u ≤ κ) :
    Rel (F32.sqrt x) (Real.sqrt X) κ := by
  have nε := h.nonneg
  have hX := h.pos
  have hx : 0 ≤ toReal x := by
    have := (abs_le.1 h.err).1
    have : ε * X ≤ 1 / 8 * X := mul_le_mul_of_nonneg_right hε hX.le
    linarith
  have hs := Real.sqrt_pos.2 hX
  have s0 := Real.sqrt_nonneg (toReal x)
  have h1 : |Real.sqrt (toReal x) - Real.sqrt X| ≤ ε * Real.sqrt X := by
    have e : (Real.sqrt (toReal x) - Real.sqrt X) * (Real.sqrt (toReal x) + Real.sqrt X) = toReal x - X := by
      have q1 := Real.mul_self_sqrt hx
      have q2 := Real.mul_self_sqrt hX.le
      linear_combination q1 - q2
    have h2 : |Real.sqrt (toReal x) - Real.sqrt X| * Real.sqrt X ≤ ε * X := by
      refine le_trans ?_ h.err
      rw [← e, abs_mul, abs_of_pos (by linarith : 0 < Real.sqrt (toReal x) + Real.sqrt X)]
      exact mul_le_mul_of_nonneg_left (by linarith) (abs_nonneg _)
    have h3 : ε * X = ε * Real.sqrt X * Real.sqrt X := by rw [mul_assoc, Real.mul_self_sqrt hX.le]
    rw [h3] at h2
    exact le_of_mul_le_mul_right h2 hs
  refine ⟨sqrt_isFin h.isFin hx, hs, ?_⟩
  have h2 := sqrt_err h.isFin hx
  have e : toReal (F32.sqrt x) - Real.sqrt X =
      (toReal (F32.sqrt x) - Real.sqrt (toReal x)) + (Real.sqrt (toReal x) - Real.sqrt X) := by ring
  rw [e]
  refine (abs_add_le _ _).trans ?_
  have h3 : Real.sqrt (toReal x) ≤ 2 * Real.sqrt X := by
    have := (abs_le.1 h1).2
    have : ε * Real.sqrt X ≤ 1 / 8 * Real.sqrt X := mul_le_mul_of_nonneg_right hε hs.le
    linarith
  have h4 := mul_le_mul_of_nonneg_left h3 u_pos.le
  have h5 := mul_le_mul_of_nonneg_right hκ hs.le
  linarith

/-- half the sum of the sides -/
theorem semi_rel {a b c : F32} {A B C : ℝ} (ha : Near a A A (8 * u * A + 1 / 2 ^ 73)) (hb : Near b B B (8 * u * B + 1 / 2 ^ 73))
    (hc : Near c C C (8 * u * C + 1 / 2 ^ 73)) (hlo : 1 / 2 ^ 20 ≤ (A + B + C) * (1 / 2)) (hhi : (A + B + C) * (1 / 2) ≤ 2 ^ 30) :
    Rel ((a + b + c) * OrdScalar.half) ((A + B + C) * (1 / 2)) (13 * u) := by
  have nA := ha.nonneg.1
  have nB := hb.nonneg.1
  have nC := hc.nonneg.1
  have h12 := ha.add hb (by unfold u; norm_num at hhi ⊢; linarith)
  have hs := h12.add hc (by unfold u; norm_num at hhi ⊢; linarith)
  have hh : Near (OrdScalar.half : F32) (1 / 2) (1 / 2) 0 := by
    refine ⟨⟨false, ⟨0x3f000000, by decide⟩, by decide +kernel⟩, by norm_num, ?_⟩
    have : toReal (OrdScalar.half : F32) = 1 / 2 := by
      rw [← toRat_toReal]
      have : toRat (OrdScalar.half : F32) = 1 / 2 := by decide +kernel
      rw [this]; norm_num
    rw [this]; simp
  have k := hs.mul hh (by unfold u; norm_num at hhi ⊢; linarith)
  refine ⟨k.isFin, lt_of_lt_of_le (by norm_num) hlo, k.err.trans ?_⟩
  unfold u η
  norm_num at hlo ⊢
  linarith

/-- half the sum of the sides minus one side -/
theorem excess_rel {p a : F32} {P A θ d : ℝ} (hp : Rel p P (13 * u)) (ha : Near a A A (8 * u * A + 1 / 2 ^ 73)) (hAP : A ≤ P)
    (hθ : θ * P ≤ P - A) (hd : d * θ = 24 * u) (hθ0 : 0 < θ) (hlo : 1 / 2 ^ 20 ≤ P) (hhi : P ≤ 2 ^ 30) : Rel (p - a) (P - A) d := by
  have nA := ha.nonneg.1
  have hP : 0 < P := hp.pos
  have k := hp.near.sub ha (by unfold u; norm_num at hhi ⊢; linarith)
  have hx : 0 < P - A := lt_of_lt_of_le (mul_pos hθ0 hP) hθ
  refine ⟨k.isFin, hx, k.err.trans ?_⟩
  have hd0 : 0 ≤ d := by
    have : 0 ≤ d * θ := by rw [hd]; unfold u; norm_num
    exact nonneg_of_mul_nonneg_left this hθ0
  have h1 : 24 * u * P ≤ d * (P - A) := by
    rw [← hd, mul_assoc]
    exact mul_le_mul_of_nonneg_left hθ hd0
  refine le_trans ?_ h1
  unfold u
  norm_num at hlo ⊢
  linarith

/-- Heron's formula -/
theorem radius_rel {p x y z : F32} {P X Y Z θ d : ℝ} (hp : Rel p P (13 * u)) (hx : Rel x X d) (hy : Rel y Y d) (hz : Rel z Z d)
    (hd : d * θ = 24 * u) (hθ : 1 / 2 ^ 10 ≤ θ) (hθ1 : θ ≤ 1 / 3) (lP : 1 / 2 ^ 20 ≤ P) (uP : P ≤ 2 ^ 30)
    (lX : θ * P ≤ X) (lY : θ * P ≤ Y) (lZ : θ * P ≤ Z) (uX : X ≤ P) (uY : Y ≤ P) (uZ : Z ≤ P) :
    Rel (F32.sqrt (p * x * y * z) / p) (Real.sqrt (P * X * Y * Z) / P) (5 * d) := by
  have hd0 := hx.nonneg
  have hθ0 : 0 < θ := lt_of_lt_of_le (by norm_num) hθ
  have d9 : d ≤ 1 / 2 ^ 9 := by
    have h1 : d * (1 / 2 ^ 10) ≤ d * θ := mul_le_mul_of_nonneg_left hθ hd0
    rw [hd] at h1
    unfold u at h1
    norm_num at h1 ⊢
    linarith
  have hud : 72 * u ≤ d := by
    have h1 : d * θ ≤ d * (1 / 3) := mul_le_mul_of_nonneg_left hθ1 hd0
    rw [hd] at h1
    linarith
  have hdd : d * d ≤ 1 / 2 ^ 9 * d := mul_le_mul_of_nonneg_right d9 hd0
  have u0 := u_pos
  have hu20 : u ≤ 1 / 2 ^ 20 := by unfold u; norm_num
  have low : ∀ {W : ℝ}, θ * P ≤ W → 1 / 2 ^ 30 ≤ W := by
    intro W hW
    have h1 : (1 : ℝ) / 2 ^ 10 * (1 / 2 ^ 20) ≤ θ * P := mul_le_mul hθ lP (by norm_num) hθ0.le
    norm_num at h1 ⊢
    linarith
  have x30 := low lX
  have y30 := low lY
  have z30 := low lZ
  have uX' := uX.trans uP
  have uY' := uY.trans uP
  have uZ' := uZ.trans uP
  have hP0 := hp.pos
  have hX0 := hx.pos
  have hY0 := hy.pos
  have hZ0 := hz.pos
  have l1 : 1 / 2 ^ 20 * (1 / 2 ^ 30) ≤ P * X := mul_le_mul lP x30 (by norm_num) hP0.le
  have l2 : 1 / 2 ^ 20 * (1 / 2 ^ 30) * (1 / 2 ^ 30) ≤ P * X * Y := mul_le_mul l1 y30 (by norm_num) (by positivity)
  have l3 : 1 / 2 ^ 20 * (1 / 2 ^ 30) * (1 / 2 ^ 30) * (1 / 2 ^ 30) ≤ P * X * Y * Z :=
    mul_le_mul l2 z30 (by norm_num) (by positivity)
  have v1 : P * X ≤ 2 ^ 30 * 2 ^ 30 := mul_le_mul uP uX' hX0.le (by norm_num)
  have v2 : P * X * Y ≤ 2 ^ 30 * 2 ^ 30 * 2 ^ 30 := mul_le_mul v1 uY' hY0.le (by norm_num)
  have v3 : P * X * Y * Z ≤ 2 ^ 30 * 2 ^ 30 * 2 ^ 30 * 2 ^ 30 := mul_le_mul v2 uZ' hZ0.le (by norm_num)
  have h13 : 13 * u * d ≤ 1 / 2 ^ 9 * d := by
    refine mul_le_mul_of_nonneg_right ?_ hd0
    unfold u; norm_num
  have d8 : d ≤ 1 / 8 := d9.trans (by norm_num)
  have m1 : Rel (p * x) (P * X) (5 / 4 * d) := by
    refine hp.mul hx (by unfold u; norm_num) d8 (le_trans (by norm_num) l1) (v1.trans (by norm_num)) ?_
    norm_num at h13 ⊢
    linarith
  have m2 : Rel (p * x * y) (P * X * Y) (7 / 3 * d) := by
    refine m1.mul hy (by norm_num at d9 ⊢; linarith) d8 (le_trans (by norm_num) l2) (v2.trans (by norm_num)) ?_
    rw [mul_assoc (5 / 4) d d]
    norm_num at hdd ⊢
    linarith
  have m3 : Rel (p * x * y * z) (P * X * Y * Z) (17 / 5 * d) := by
    refine m2.mul hz (by norm_num at d9 ⊢; linarith) d8 (le_trans (by norm_num) l3) (v3.trans (by norm_num)) ?_
    rw [mul_assoc (7 / 3) d d]
    norm_num at hdd ⊢
    linarith
  have m4 : Rel (F32.sqrt (p * x * y * z)) (Real.sqrt (P * X * Y * Z)) (7 / 2 * d) :=
    m3.sqrt (by norm_num at d9 ⊢; linarith) (by linarith)
  have hW : 1 / 2 ^ 55 ≤ Real.sqrt (P * X * Y * Z) := by
    rw [Real.le_sqrt' (by norm_num)]
    refine le_trans ?_ l3
    norm_num
  have hW2 : Real.sqrt (P * X * Y * Z) ≤ 2 ^ 60 := by
    rw [Real.sqrt_le_iff]
    refine ⟨by norm_num, v3.trans ?_⟩
    norm_num
  generalize Real.sqrt (P * X * Y * Z) = W at *
  have hW0 := m4.pos
  obtain ⟨r, hr⟩ : ∃ r, r = W / P := ⟨_, rfl⟩
  have hrP : r * P = W := by rw [hr]; field_simp
  have hr0 : 0 < r := by rw [hr]; positivity
  have lr : 1 / 2 ^ 85 ≤ r := by
    rw [hr, le_div_iff₀ hP0]
    refine le_trans ?_ hW
    norm_num at uP ⊢
    linarith
  have ur : r ≤ 2 ^ 80 := by
    rw [hr, div_le_iff₀ hP0]
    refine hW2.trans ?_
    norm_num at lP ⊢
    linarith
  have hrd : r * d ≤ 1 / 2 ^ 9 * r := by rw [mul_comm]; exact mul_le_mul_of_nonneg_right d9 hr0.le
  have hru : 72 * (r * u) ≤ r * d := by
    have := mul_le_mul_of_nonneg_left hud hr0.le
    linarith
  have hru0 : 0 ≤ r * u := mul_nonneg hr0.le u0.le
  have e0 : 7 / 2 * d * r = 7 / 2 * (r * d) := by ring
  have e1 : r * (13 * u) = 13 * (r * u) := by ring
  have k := m4.near.div hp.near (Q := r) (e := 7 / 2 * d * r) (d := 13 * u) hP0 (le_of_eq hrP.symm)
    (by rw [mul_assoc (7 / 2 * d), hrP]) (le_refl _) (by unfold u; norm_num) (by
      rw [e0, e1]
      norm_num at ur hrd hru ⊢
      linarith)
  refine ⟨k.isFin, by positivity, k.err.trans ?_⟩
  rw [← hr, e0, e1]
  have e2 : u * (r + 8 / 7 * (7 / 2 * (r * d) + 13 * (r * u))) ≤ 2 * (r * u) := by
    have : r + 8 / 7 * (7 / 2 * (r * d) + 13 * (r * u)) ≤ 2 * r := by
      norm_num at hrd ⊢
      linarith
    have := mul_le_mul_of_nonneg_left this u0.le
    linarith
  have e3 : η ≤ r * u := by
    have : 1 / 2 ^ 85 * u ≤ r * u := mul_le_mul_of_nonneg_right lr u0.le
    refine le_trans ?_ this
    unfold η u; norm_num
  have e4 : 5 * d * r = 5 * (r * d) := by ring
  rw [e4]
  linarith

/-- the radius by Heron's formula -/
theorem inradius_formula {a b c i : ℝ × ℝ} {r : ℝ} (h : IsIncentre a b c i r) (h0 : ¬ Collinear3 a b c) :
    r * (dst b c + dst a c + dst a b) = |crs a b a c| := by
  obtain ⟨⟨x, y, z, hx, hy, hz, hs, rfl⟩, h1, h2, h3⟩ := h
  have hcr : crs a b a c ≠ 0 := fun h => h0 ((crs_zero_iff a b c).1 h)
  have hab : a ≠ b := by rintro rfl; apply hcr; unfold crs; ring
  have hac : a ≠ c := by rintro rfl; apply hcr; unfold crs; ring
  have hbc : b ≠ c := by rintro rfl; apply hcr; unfold crs; ring
  have pA := dst_pos hbc
  have pB := dst_pos hac
  have pC := dst_pos hab
  rw [dst_comm c a] at h3
  rw [div_eq_iff pC.ne'] at h1
  rw [div_eq_iff pA.ne'] at h2
  rw [div_eq_iff pB.ne'] at h3
  have hx' : x = 1 - y - z := by linarith
  have e1 : crs a b a (x * a.1 + y * b.1 + z * c.1, x * a.2 + y * b.2 + z * c.2) = z * crs a b a c := by
    rw [hx']; unfold crs; simp only; ring
  have e2 : crs b c b (x * a.1 + y * b.1 + z * c.1, x * a.2 + y * b.2 + z * c.2) = x * crs a b a c := by
    have : z = 1 - x - y := by linarith
    rw [this]; unfold crs; simp only; ring
  have e3 : crs c a c (x * a.1 + y * b.1 + z * c.1, x * a.2 + y * b.2 + z * c.2) = y * crs a b a c := by
    rw [hx']; unfold crs; simp only; ring
  rw [e1, abs_mul, abs_of_pos hz] at h1
  rw [e2, abs_mul, abs_of_pos hx] at h2
  rw [e3, abs_mul, abs_of_pos hy] at h3
  have : (x + y + z) * |crs a b a c| = r * (dst b c + dst a c + dst a b) := by linarith
  rw [hs, one_mul] at this
  exact this.symm

/-- **C108, inradius.** Let half the perimeter `P` lie between `2^-20` and `2^30` and exceed each side by at least `θ P`,
`2^-10 ≤ θ` (the triangle is not too flat).  Then the `f32` computation finds a circle, and its radius is the radius of the
incircle up to a relative error of `2^-17 / θ`. -/
theorem C108_inradius {a b c : Vec2 F32} (ha : SmallPt a) (hb : SmallPt b) (hc : SmallPt c) {P θ : ℝ}
    (hP : 2 * P = dst (rpos b) (rpos c) + dst (rpos a) (rpos c) + dst (rpos a) (rpos b))
    (lP : 1 / 2 ^ 20 ≤ P) (uP : P ≤ 2 ^ 30) (hθ : 1 / 2 ^ 10 ≤ θ) (h1 : θ * P ≤ P - dst (rpos b) (rpos c))
    (h2 : θ * P ≤ P - dst (rpos a) (rpos c)) (h3 : θ * P ≤ P - dst (rpos a) (rpos b)) {i : ℝ × ℝ} {r : ℝ}
    (hi : IsIncentre (rpos a) (rpos b) (rpos c) i r) :
    ∃ q ρ, calculateTriangleIncenter a b c = some (q, ρ) ∧ IsFin ρ ∧ |(toRat ρ : ℝ) - r| ≤ 1 / 2 ^ 17 / θ * r := by
  have hP0 : 0 < P := lt_of_lt_of_le (by norm_num) lP
  have hθ0 : 0 < θ := lt_of_lt_of_le (by norm_num) hθ
  have hθP : 1 / 2 ^ 10 * P ≤ θ * P := mul_le_mul_of_nonneg_right hθ hP0.le
  have hPe : (dst (rpos b) (rpos c) + dst (rpos a) (rpos c) + dst (rpos a) (rpos b)) * (1 / 2) = P := by linarith
  have hher := heron (rpos a) (rpos b) (rpos c)
  rw [hPe] at hher
  have hX : 0 < P - dst (rpos b) (rpos c) := lt_of_lt_of_le (mul_pos hθ0 hP0) h1
  have hY : 0 < P - dst (rpos a) (rpos c) := lt_of_lt_of_le (mul_pos hθ0 hP0) h2
  have hZ : 0 < P - dst (rpos a) (rpos b) := lt_of_lt_of_le (mul_pos hθ0 hP0) h3
  have hnc : ¬ Collinear3 (rpos a) (rpos b) (rpos c) := by
    intro hcol
    rw [← crs_zero_iff] at hcol
    rw [hcol] at hher
    have : 0 < P * (P - dst (rpos b) (rpos c)) * (P - dst (rpos a) (rpos c)) * (P - dst (rpos a) (rpos b)) := by positivity
    rw [hher] at this
    norm_num at this
  have hr := inradius_formula hi hnc
  have nA := dst_nonneg (rpos b) (rpos c)
  have nB := dst_nonneg (rpos a) (rpos c)
  have nC := dst_nonneg (rpos a) (rpos b)
  have hdeg : isDegenerateTriangle a b c = false := by
    by_contra hcon
    rw [Bool.not_eq_false] at hcon
    have := C108_degenerate ha hb hc hcon
    simp only at this
    norm_num at this lP hθP
    rcases this with h | h | h <;> linarith
  have nearA := dist_near hb hc
  have nearB := dist_near ha hc
  have nearC := dist_near ha hb
  obtain ⟨d, hd⟩ : ∃ d, d = 24 * u / θ := ⟨_, rfl⟩
  have hdθ : d * θ = 24 * u := by rw [hd]; field_simp
  have hp := semi_rel nearA nearB nearC (by rw [hPe]; exact lP) (by rw [hPe]; exact uP)
  rw [hPe] at hp
  have hθ3 : θ ≤ 1 / 3 := by
    have : θ * P * 3 ≤ P := by linarith
    have : θ * 3 * P ≤ 1 * P := by linarith
    have := le_of_mul_le_mul_right this hP0
    linarith
  have k := radius_rel hp (excess_rel hp nearA (by linarith) h1 hdθ hθ0 lP uP) (excess_rel hp nearB (by linarith) h2 hdθ hθ0 lP uP)
    (excess_rel hp nearC (by linarith) h3 hdθ hθ0 lP uP) hdθ hθ hθ3 lP uP h1 h2 h3 (by linarith) (by linarith) (by linarith)
  have hrr : Real.sqrt (P * (P - dst (rpos b) (rpos c)) * (P - dst (rpos a) (rpos c)) * (P - dst (rpos a) (rpos b))) / P = r := by
    rw [hher, Real.sqrt_sq_eq_abs, abs_div, ← hr, ← hP, div_eq_iff hP0.ne', abs_two]
    ring
  rw [hrr] at k
  unfold calculateTriangleIncenter
  rw [hdeg]
  simp only [Bool.false_eq_true, if_false]
  refine ⟨_, _, rfl, k.isFin, ?_⟩
  rw [toRat_toReal]
  refine k.err.trans (mul_le_mul_of_nonneg_right ?_ k.pos.le)
  rw [hd, mul_div_assoc']
  refine div_le_div_of_nonneg_right ?_ hθ0.le
  unfold u; norm_num

/-- the circle inscribed in the triangle (0, 0), (4, 0), (0, 4) -/
example : ∃ q ρ i r, calculateTriangleIncenter exPts[0] exPts[4] exPts[3] = some (q, ρ) ∧
    IsIncentre (rpos exPts[0]) (rpos exPts[4]) (rpos exPts[3]) i r ∧ |(toRat ρ : ℝ) - r| ≤ 7 / 2 ^ 17 * r := by
  have e0 := ex_at 0 (by decide) (0, 0) rfl
  have e4 := ex_at 4 (by decide) (4, 0) rfl
  have e3 := ex_at 3 (by decide) (0, 4) rfl
  have hnc : ¬ Collinear3 (rpos exPts[0]) (rpos exPts[4]) (rpos exPts[3]) := by
    rw [e0, e4, e3, ← crs_zero_iff]; norm_num [crs]
  obtain ⟨i, r, _, _, h1, h2⟩ := (C38_incenter (rpos exPts[0]) (rpos exPts[4]) (rpos exPts[3])).2 hnc
  have d1 : dst (rpos exPts[0]) (rpos exPts[3]) = 4 := by
    rw [e0, e3]; unfold dst; exact (Real.sqrt_eq_iff_mul_self_eq_of_pos (by norm_num)).2 (by norm_num)
  have d2 : dst (rpos exPts[0]) (rpos exPts[4]) = 4 := by
    rw [e0, e4]; unfold dst; exact (Real.sqrt_eq_iff_mul_self_eq_of_pos (by norm_num)).2 (by norm_num)
  have d3 : (5 : ℝ) ≤ dst (rpos exPts[4]) (rpos exPts[3]) := by
    rw [e4, e3]; unfold dst; rw [Real.le_sqrt' (by norm_num)]; norm_num
  have d4 : dst (rpos exPts[4]) (rpos exPts[3]) ≤ 17 / 3 := by
    rw [e4, e3]; unfold dst; rw [Real.sqrt_le_iff]; norm_num
  obtain ⟨q, ρ, hq, _, hb⟩ := C108_inradius (exPts_small exPts[0] (by simp [exPts])) (exPts_small exPts[4] (by simp [exPts]))
    (exPts_small exPts[3] (by simp [exPts])) (P := (dst (rpos exPts[4]) (rpos exPts[3]) + 8) / 2) (θ := 1 / 7)
    (by rw [d1, d2]; ring) (by norm_num; linarith) (by norm_num; linarith) (by norm_num) (by linarith) (by rw [d1]; linarith)
    (by rw [d2]; linarith) ⟨h1, h2⟩
  refine ⟨q, ρ, i, r, hq, ⟨h1, h2⟩, hb.trans (le_of_eq ?_)⟩
  norm_num

end Kami.UtilsF32
