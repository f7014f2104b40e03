import Verif.Num.F32Near
import Verif.Geom.UtilsLists
/-!
# C108: the remaining functions of `utils.rs` in f32

`find_closest_to`, `close_to`, the degeneracy test, the incentre, the foot of a perpendicular, and
`calculate_line_intersection`.
-/

set_option autoImplicit false

namespace Kami.UtilsF32

open Kami Kami.F32 Kami.Utils Kami.UtilThm Kami.Simple Kami.DistF32
open scoped Kami

/-! ### specification -/

/-- `i` lies inside the triangle and has distance `r` from each of the three lines through its sides -/
def IsIncentre (a b c i : ℝ × ℝ) (r : ℝ) : Prop :=
  (∃ x y z : ℝ, 0 < x ∧ 0 < y ∧ 0 < z ∧ x + y + z = 1 ∧
    i = (x * a.1 + y * b.1 + z * c.1, x * a.2 + y * b.2 + z * c.2)) ∧
  |crs a b a i| / dst a b = r ∧ |crs b c b i| / dst b c = r ∧ |crs c a c i| / dst c a = r

/-- `i` is the foot of the perpendicular from `p` to the line `ab` -/
def IsFoot (a b p i : ℝ × ℝ) : Prop := OnLineR a b i ∧ dt p i a b = 0

/-! ### nearest points -/

theorem dist_lt_max {a b : Vec2 F32} (ha : SmallPt a) (hb : SmallPt b) : (distance a b <. Scalar.maxValue) = true := by
  obtain ⟨hf, h0, h⟩ := C90_distance ha hb
  rw [toRat_toReal] at h h0
  have hm : IsFin (Scalar.maxValue : F32) := ⟨false, ⟨0x7f7fffff, by decide⟩, by decide +kernel⟩
  have hmv : (2 : ℝ) ^ 100 ≤ toReal (Scalar.maxValue : F32) := by
    rw [← toRat_toReal]
    have : (2 : ℚ) ^ 100 ≤ toRat (Scalar.maxValue : F32) := by decide +kernel
    exact_mod_cast this
  refine (lt_fin hf hm).2 (lt_of_lt_of_le ?_ hmv)
  have hd := small_dst ha hb
  have := (abs_le.1 h).2
  norm_num at this hd ⊢
  linarith

/-- the start value of the search is the largest finite number -/
theorem C45_start_f32 : findClosestTo (F := F32) ⟨F32.lit 0, F32.lit 0⟩ [] = (0, Scalar.maxValue) ∧
    toRat (Scalar.maxValue : F32) = (2 ^ 24 - 1) * 2 ^ 104 ∧
    ∀ x : F32, IsFin x → (x ≤. Scalar.maxValue) = true := by
  refine ⟨rfl, by decide +kernel, ?_⟩
  have hm : (Scalar.maxValue : F32) = .fin false ⟨0x7f7fffff, by decide⟩ := by decide +kernel
  rintro x ⟨s, n, rfl⟩
  rw [hm]
  refine (le_fin ⟨_, _, rfl⟩ ⟨_, _, rfl⟩).2 ?_
  have h : mag n ≤ mag 0x7f7fffff := mag_le.2 (by have := n.isLt; omega)
  by_contra hc
  rw [not_le, toReal_lt_iff] at hc
  cases s <;> simp [val] at hc <;> omega

/-- **C108, nearest point.** For points with coordinates up to `2^60`, `find_closest_to` on a list that is not empty returns
the index of a point and its distance up to `2^-21`; no point of the list is nearer by more than a factor `1 + 2^-19`, up to
`2^-71`. -/
theorem C108_closest {t : Vec2 F32} {ps : List (Vec2 F32)} (ht : SmallPt t) (hps : ∀ p ∈ ps, SmallPt p) (hne : ps ≠ []) :
    ∃ i p, ps[i]? = some p ∧ (findClosestTo t ps).1 = i ∧
      |(toRat (findClosestTo t ps).2 : ℝ) - dst (rpos t) (rpos p)| ≤ dst (rpos t) (rpos p) / 2 ^ 21 + 1 / 2 ^ 73 ∧
      ∀ q ∈ ps, dst (rpos t) (rpos p) ≤ (1 + 1 / 2 ^ 19) * dst (rpos t) (rpos q) + 1 / 2 ^ 71 := by
  obtain ⟨p0, hp0⟩ := List.exists_mem_of_ne_nil ps hne
  obtain ⟨i, p, h1, h2, _, h4, _⟩ := (C45_closest t ps).1 ⟨p0, hp0, dist_lt_max ht (hps p0 hp0)⟩
  have hp := hps p (List.mem_of_getElem? h1)
  obtain ⟨fp, np, ep⟩ := C90_distance ht hp
  refine ⟨i, p, h1, by rw [h2], by rw [h2]; exact ep, fun q hq => ?_⟩
  obtain ⟨fq, nq, eq⟩ := C90_distance ht (hps q hq)
  have hle : toReal (distance t p) ≤ toReal (distance t q) := by
    have := h4 q hq
    rw [← not_lt, ← lt_fin fq fp]
    exact Bool.eq_false_iff.1 this
  rw [toRat_toReal] at ep eq
  have d1 := dst_nonneg (rpos t) (rpos p)
  have d2 := dst_nonneg (rpos t) (rpos q)
  obtain ⟨a1, _⟩ := abs_le.1 ep
  obtain ⟨_, a2⟩ := abs_le.1 eq
  generalize dst (rpos t) (rpos p) = x at *
  generalize dst (rpos t) (rpos q) = y at *
  clear h1 h2 h4 hp
  norm_num at a1 a2 ⊢
  linarith

/-- **C108, points taken for equal.** `close_to` says yes only for points less than `(1 + 2^-20) 2^-23` apart, and no only
for points at least `(1 - 2^-20) 2^-23` apart. -/
theorem C108_close {a b : Vec2 F32} (ha : SmallPt a) (hb : SmallPt b) :
    (closeTo a b = true → dst (rpos a) (rpos b) ≤ (1 + 1 / 2 ^ 20) / 2 ^ 23) ∧
    (closeTo a b = false → (1 - 1 / 2 ^ 20) / 2 ^ 23 ≤ dst (rpos a) (rpos b)) := by
  obtain ⟨hf, h0, h⟩ := C90_distance ha hb
  rw [toRat_toReal] at h h0
  have hle : closeTo a b = true ↔ toReal (distance a b) ≤ 1 / 2 ^ 23 := by
    rw [← toReal_eps]; exact le_fin hf eps_isFin
  have hd := dst_nonneg (rpos a) (rpos b)
  obtain ⟨h1, h2⟩ := abs_le.1 h
  refine ⟨fun hb => ?_, fun hb => ?_⟩
  · rw [hle] at hb
    norm_num at *
    linarith
  · have : ¬ toReal (distance a b) ≤ 1 / 2 ^ 23 := by rw [← hle, hb]; simp
    norm_num at *
    linarith

/-! ### triangles -/

/-- a distance as an approximate number -/
theorem dist_near {a b : Vec2 F32} (ha : SmallPt a) (hb : SmallPt b) :
    Near (distance a b) (dst (rpos a) (rpos b)) (dst (rpos a) (rpos b)) (8 * u * dst (rpos a) (rpos b) + 1 / 2 ^ 73) := by
  obtain ⟨hf, _, h⟩ := C90_distance ha hb
  rw [toRat_toReal] at h
  refine ⟨hf, le_of_eq (abs_of_nonneg (dst_nonneg _ _)), h.trans (le_of_eq ?_)⟩
  unfold u; ring

theorem le_of_near {a b c : F32} {A B C τ : ℝ} (ha : Near a A A (8 * u * A + τ)) (hb : Near b B B (8 * u * B + τ))
    (hc : Near c C C (8 * u * C + τ)) (hA : A ≤ 2 ^ 62) (hB : B ≤ 2 ^ 62) (nτ : 0 ≤ τ) (hτ : τ ≤ 1) (h : (a + b ≤. c) = true) :
    A + B ≤ (1 + 1 / 2 ^ 19) * C + 8 * τ := by
  have nA := ha.nonneg.1
  have nB := hb.nonneg.1
  have nC := hc.nonneg.1
  have hs := ha.add hb (by unfold u; norm_num at hA hB ⊢; linarith)
  have h' := (le_fin hs.isFin hc.isFin).1 h
  have e1 := (abs_le.1 hs.err).1
  have e2 := (abs_le.1 hc.err).2
  unfold u at e1 e2
  norm_num at e1 e2 ⊢
  linarith

/-- **C108, degenerate triangles.** If the triangle test of `calculate_triangle_incenter` says degenerate, then the detour
over one corner is longer than the opposite side by at most a factor `1 + 2^-19`, up to `2^-70`.  (So every triangle that is
clearly not flat gets an incentre.) -/
theorem C108_degenerate {a b c : Vec2 F32} (ha : SmallPt a) (hb : SmallPt b) (hc : SmallPt c)
    (h : isDegenerateTriangle a b c = true) :
    let A := dst (rpos b) (rpos c)
    let B := dst (rpos a) (rpos c)
    let C := dst (rpos a) (rpos b)
    A + B ≤ (1 + 1 / 2 ^ 19) * C + 1 / 2 ^ 70 ∨ A + C ≤ (1 + 1 / 2 ^ 19) * B + 1 / 2 ^ 70 ∨
      B + C ≤ (1 + 1 / 2 ^ 19) * A + 1 / 2 ^ 70 := by
  have nA := dist_near hb hc
  have nB := dist_near ha hc
  have nC := dist_near ha hb
  have sA := small_dst hb hc
  have sB := small_dst ha hc
  have sC := small_dst ha hb
  have e : (1 : ℝ) / 2 ^ 70 = 8 * (1 / 2 ^ 73) := by norm_num
  simp only [e]
  unfold isDegenerateTriangle at h
  simp only [Bool.or_eq_true] at h
  rcases h with (h | h) | h
  · exact Or.inl (le_of_near nA nB nC sA sB (by norm_num) (by norm_num) h)
  · exact Or.inr (Or.inl (le_of_near nA nC nB sA sC (by norm_num) (by norm_num) h))
  · exact Or.inr (Or.inr (le_of_near nB nC nA sB sC (by norm_num) (by norm_num) h))

/-- one side times one coordinate -/
theorem term_near {a x : F32} {A B τ : ℝ} (ha : Near a A A (8 * u * A + τ)) (hx : SmallNum x) (hB : |toReal x| ≤ B)
    (hB60 : B ≤ 2 ^ 60) (hA : A ≤ 2 ^ 62) (nτ : 0 ≤ τ) (hτ : τ ≤ 1) :
    Near (a * x) (A * toReal x) (A * B) (10 * u * (A * B) + 2 * (B * τ) + η) := by
  have nA := ha.nonneg.1
  have nB : 0 ≤ B := (abs_nonneg _).trans hB
  have hAB : 0 ≤ A * B := mul_nonneg nA nB
  have hBτ : 0 ≤ B * τ := mul_nonneg nB nτ
  have hAB2 : A * B ≤ 2 ^ 62 * 2 ^ 60 := mul_le_mul hA hB60 nB (by norm_num)
  have hBτ2 : B * τ ≤ 2 ^ 60 * 1 := mul_le_mul hB60 hτ nτ (by norm_num)
  have hx' : Near x (toReal x) B 0 := (Near.exact (small_fin hx).1).weaken hB (le_refl _)
  have e : (A + (8 * u * A + τ)) * (B + 0) = (1 + 8 * u) * (A * B) + B * τ := by ring
  refine (ha.mul hx' ?_).weaken (le_refl _) ?_
  · rw [e]
    unfold u
    norm_num at hAB2 hBτ2 ⊢
    linarith
  · rw [e]
    have e2 : A * 0 + B * (8 * u * A + τ) + (8 * u * A + τ) * 0 + u * ((1 + 8 * u) * (A * B) + B * τ) + η =
        (8 * u + u * (1 + 8 * u)) * (A * B) + (1 + u) * (B * τ) + η := by ring
    rw [e2]
    generalize A * B = w at *
    generalize B * τ = w' at *
    unfold u
    norm_num
    linarith

/-- one coordinate of the weighted average of the corners -/
theorem average_near {a b c x y z : F32} {A B C R τ : ℝ} (ha : Near a A A (8 * u * A + τ)) (hb : Near b B B (8 * u * B + τ))
    (hc : Near c C C (8 * u * C + τ)) (hA : A ≤ 2 ^ 62) (hB : B ≤ 2 ^ 62) (hC : C ≤ 2 ^ 62) (hτ : τ = 1 / 2 ^ 73)
    (hx : SmallNum x) (hy : SmallNum y) (hz : SmallNum z) (bx : |toReal x| ≤ R) (by' : |toReal y| ≤ R) (bz : |toReal z| ≤ R)
    (hR : R ≤ 2 ^ 60) (hP : 1 / 2 ^ 40 ≤ A + B + C) :
    Near ((a * x + b * y + c * z) * (OrdScalar.one / (a + b + c)))
      ((A * toReal x + B * toReal y + C * toReal z) * (1 / (A + B + C))) R (32 * u * R + 1 / 2 ^ 100) := by
  have nA := ha.nonneg.1
  have nB := hb.nonneg.1
  have nC := hc.nonneg.1
  have nR : 0 ≤ R := (abs_nonneg _).trans bx
  have nτ : 0 ≤ τ := by rw [hτ]; norm_num
  have hτ1 : τ ≤ 1 := by rw [hτ]; norm_num
  have t1 := term_near ha hx bx hR hA nτ hτ1
  have t2 := term_near hb hy by' hR hB nτ hτ1
  have t3 := term_near hc hz bz hR hC nτ hτ1
  have hη := η_pos
  have hη1 : η ≤ 1 := by unfold η; norm_num
  have w1 : 0 ≤ A * R := mul_nonneg nA nR
  have w2 : 0 ≤ B * R := mul_nonneg nB nR
  have w3 : 0 ≤ C * R := mul_nonneg nC nR
  have w4 : 0 ≤ R * τ := mul_nonneg nR nτ
  have v1 : A * R ≤ 2 ^ 62 * 2 ^ 60 := mul_le_mul hA hR nR (by norm_num)
  have v2 : B * R ≤ 2 ^ 62 * 2 ^ 60 := mul_le_mul hB hR nR (by norm_num)
  have v3 : C * R ≤ 2 ^ 62 * 2 ^ 60 := mul_le_mul hC hR nR (by norm_num)
  have v4 : R * τ ≤ 2 ^ 60 * 1 := mul_le_mul hR hτ1 nτ (by norm_num)
  have hs : Near (a * x + b * y + c * z) (A * toReal x + B * toReal y + C * toReal z) ((A + B + C) * R)
      (13 * u * ((A + B + C) * R) + 7 * (R * τ) + 4 * η) := by
    have e0 : (A + B + C) * R = A * R + B * R + C * R := by ring
    rw [e0]
    generalize A * R = p at *
    generalize B * R = q at *
    generalize C * R = r at *
    generalize R * τ = w at *
    generalize η = e at *
    have t12 := t1.add t2 (by unfold u; norm_num at v1 v2 v3 v4 ⊢; linarith)
    refine (t12.add t3 (by unfold u; norm_num at v1 v2 v3 v4 ⊢; linarith)).weaken (le_refl _) ?_
    unfold u
    norm_num
    linarith
  have hp : Near (a + b + c) (A + B + C) (A + B + C) (11 * u * (A + B + C) + 4 * τ) := by
    have h12 := ha.add hb (by unfold u; norm_num at hA hB ⊢; linarith)
    refine (h12.add hc (by unfold u; norm_num at hA hB hC ⊢; linarith)).weaken (le_refl _) ?_
    unfold u
    norm_num
    linarith
  have hP0 : 0 < A + B + C := lt_of_lt_of_le (by norm_num) hP
  have hP64 : A + B + C ≤ 2 ^ 64 := by norm_num at hA hB hC ⊢; linarith
  have hone : Near (OrdScalar.one : F32) 1 1 0 := ⟨one_isFin, by norm_num, by rw [toReal_one]; norm_num⟩
  clear t1 t2 t3 w1 w2 w3 v1 v2 v3 v4
  generalize hPe : A + B + C = P at *
  obtain ⟨Q, hQ⟩ : ∃ Q, Q = 1 / P := ⟨_, rfl⟩
  have hPQ : P * Q = 1 := by rw [hQ]; field_simp
  have hQ0 : 0 < Q := by rw [hQ]; positivity
  have hQ40 : Q ≤ 2 ^ 40 := by
    rw [hQ, div_le_iff₀ hP0]
    norm_num at hP ⊢
    linarith
  have hQ64 : 1 / 2 ^ 64 ≤ Q := by
    rw [hQ]
    exact one_div_le_one_div_of_le hP0 hP64
  have hinv : Near (OrdScalar.one / (a + b + c)) (1 / P) Q (15 * u * Q) := by
    refine (hone.div hp (Q := Q) (e := 0) (d := 12 * u) hP0 (by rw [mul_comm, hPQ]) (by simp) ?_ (by unfold u; norm_num) ?_).weaken
      (le_refl _) ?_
    · rw [hτ]
      unfold u
      norm_num at hP ⊢
      linarith
    · unfold u
      norm_num at hQ40 ⊢
      linarith
    · unfold u η
      norm_num at hQ64 ⊢
      linarith
  have hPRQ : P * R * Q = R := by rw [mul_right_comm, hPQ, one_mul]
  have hE : Q * (13 * u * (P * R) + 7 * (R * τ) + 4 * η) ≤ (13 + 1 / 16) * u * R + 1 / 2 ^ 107 := by
    have e1 : Q * (13 * u * (P * R) + 7 * (R * τ) + 4 * η) = 13 * u * (P * R * Q) + 7 * (R * (τ * Q)) + 4 * (η * Q) := by ring
    have e2 : τ * Q ≤ 1 / 2 ^ 33 := by
      rw [hτ]; norm_num at hQ40 ⊢; linarith
    have e3 : η * Q ≤ 1 / 2 ^ 110 := by
      unfold η; norm_num at hQ40 ⊢; linarith
    have e4 : R * (τ * Q) ≤ R * (1 / 2 ^ 33) := mul_le_mul_of_nonneg_left e2 nR
    rw [e1, hPRQ]
    generalize R * (τ * Q) = w at *
    generalize η * Q = w' at *
    unfold u
    norm_num at e3 e4 ⊢
    linarith
  have hE0 : 0 ≤ Q * (13 * u * (P * R) + 7 * (R * τ) + 4 * η) := mul_nonneg hQ0.le hs.nonneg.2
  have k1 : (P * R + (13 * u * (P * R) + 7 * (R * τ) + 4 * η)) * (Q + 15 * u * Q) =
      (1 + 15 * u) * (P * R * Q + Q * (13 * u * (P * R) + 7 * (R * τ) + 4 * η)) := by ring
  have k2 : P * R * (15 * u * Q) + Q * (13 * u * (P * R) + 7 * (R * τ) + 4 * η) +
      (13 * u * (P * R) + 7 * (R * τ) + 4 * η) * (15 * u * Q) =
      15 * u * (P * R * Q) + (1 + 15 * u) * (Q * (13 * u * (P * R) + 7 * (R * τ) + 4 * η)) := by ring
  refine (hs.mul hinv ?_).weaken (le_of_eq hPRQ) ?_
  · rw [k1, hPRQ]
    generalize Q * (13 * u * (P * R) + 7 * (R * τ) + 4 * η) = w at *
    unfold u at hE ⊢
    norm_num at hE hR ⊢
    linarith
  · rw [k1, k2, hPRQ]
    generalize Q * (13 * u * (P * R) + 7 * (R * τ) + 4 * η) = w at *
    unfold u at hE ⊢
    unfold η
    norm_num at hE ⊢
    linarith

theorem incentre_formula {a b c i : ℝ × ℝ} {r : ℝ} (h : IsIncentre a b c i r) (h0 : ¬ Collinear3 a b c) :
    i.1 = (dst b c * a.1 + dst a c * b.1 + dst a b * c.1) * (1 / (dst b c + dst a c + dst a b)) ∧
    i.2 = (dst b c * a.2 + dst a c * b.2 + dst a b * c.2) * (1 / (dst b c + dst a c + dst a b)) := by
  obtain ⟨⟨x, y, z, hx, hy, hz, hs, rfl⟩, h1, h2, h3⟩ := h
  have hcr : crs a b a c ≠ 0 := fun h => h0 ((crs_zero_iff a b c).1 h)
  have hab : a ≠ b := by rintro rfl; apply hcr; unfold crs; ring
  have hac : a ≠ c := by rintro rfl; apply hcr; unfold crs; ring
  have hbc : b ≠ c := by rintro rfl; apply hcr; unfold crs; ring
  have pA := dst_pos hbc
  have pB := dst_pos hac
  have pC := dst_pos hab
  rw [dst_comm c a] at h3
  rw [div_eq_iff pC.ne'] at h1
  rw [div_eq_iff pA.ne'] at h2
  rw [div_eq_iff pB.ne'] at h3
  have hx' : x = 1 - y - z := by linarith
  have e1 : crs a b a (x * a.1 + y * b.1 + z * c.1, x * a.2 + y * b.2 + z * c.2) = z * crs a b a c := by
    rw [hx']; unfold crs; simp only; ring
  have e2 : crs b c b (x * a.1 + y * b.1 + z * c.1, x * a.2 + y * b.2 + z * c.2) = x * crs a b a c := by
    have : z = 1 - x - y := by linarith
    rw [this]; unfold crs; simp only; ring
  have e3 : crs c a c (x * a.1 + y * b.1 + z * c.1, x * a.2 + y * b.2 + z * c.2) = y * crs a b a c := by
    rw [hx']; unfold crs; simp only; ring
  rw [e1, abs_mul, abs_of_pos hz] at h1
  rw [e2, abs_mul, abs_of_pos hx] at h2
  rw [e3, abs_mul, abs_of_pos hy] at h3
  have hD : 0 < |crs a b a c| := abs_pos.2 hcr
  generalize |crs a b a c| = D at *
  generalize dst b c = A at *
  generalize dst a c = B at *
  generalize dst a b = C at *
  have hr : r * (A + B + C) = D := by
    have : (x + y + z) * D = r * (A + B + C) := by linarith
    rw [hs, one_mul] at this
    exact this.symm
  have hr0 : r ≠ 0 := by rintro rfl; rw [zero_mul] at hr; exact hD.ne hr
  have hP : 0 < A + B + C := by positivity
  have kx : x * (A + B + C) = A := by
    apply mul_left_cancel₀ hr0
    rw [← h2, ← hr]; ring
  have ky : y * (A + B + C) = B := by
    apply mul_left_cancel₀ hr0
    rw [← h3, ← hr]; ring
  have kz : z * (A + B + C) = C := by
    apply mul_left_cancel₀ hr0
    rw [← h1, ← hr]; ring
  constructor
  · simp only
    rw [mul_one_div, eq_div_iff hP.ne']
    linear_combination a.1 * kx + b.1 * ky + c.1 * kz
  · simp only
    rw [mul_one_div, eq_div_iff hP.ne']
    linear_combination a.2 * kx + b.2 * ky + c.2 * kz

/-- **C108, incentre.** For a triangle with coordinates up to `R ≤ 2^60` and perimeter at least `2^-40`, an incentre computed
in `f32` is within `2^-19 R` of the point inside the triangle that has the same distance from its three sides. -/
theorem C108_incenter {a b c : Vec2 F32} {q : Vec2 F32} {ρ : F32} (ha : SmallPt a) (hb : SmallPt b) (hc : SmallPt c) {R : ℝ}
    (hR : R ≤ 2 ^ 60) (hx : |(rpos a).1| ≤ R ∧ |(rpos b).1| ≤ R ∧ |(rpos c).1| ≤ R)
    (hy : |(rpos a).2| ≤ R ∧ |(rpos b).2| ≤ R ∧ |(rpos c).2| ≤ R)
    (hP : 1 / 2 ^ 40 ≤ dst (rpos b) (rpos c) + dst (rpos a) (rpos c) + dst (rpos a) (rpos b))
    (h0 : ¬ Collinear3 (rpos a) (rpos b) (rpos c)) {i : ℝ × ℝ} {r : ℝ} (hi : IsIncentre (rpos a) (rpos b) (rpos c) i r)
    (h : calculateTriangleIncenter a b c = some (q, ρ)) :
    IsFin q.x ∧ IsFin q.y ∧ |(rpos q).1 - i.1| ≤ R / 2 ^ 19 + 1 / 2 ^ 100 ∧ |(rpos q).2 - i.2| ≤ R / 2 ^ 19 + 1 / 2 ^ 100 := by
  obtain ⟨i1, i2⟩ := incentre_formula hi h0
  have e32 : R / 2 ^ 19 = 32 * u * R := by unfold u; ring
  unfold calculateTriangleIncenter at h
  simp only at h
  split at h
  · cases h
  · simp only [Option.some.injEq, Prod.mk.injEq] at h
    obtain ⟨rfl, _⟩ := h
    rw [i1, i2, e32]
    have k1 := average_near (dist_near hb hc) (dist_near ha hc) (dist_near ha hb) (small_dst hb hc) (small_dst ha hc)
      (small_dst ha hb) rfl ha.1 hb.1 hc.1 (R := R) (by simpa only [rpos_eq] using hx.1) (by simpa only [rpos_eq] using hx.2.1)
      (by simpa only [rpos_eq] using hx.2.2) hR hP
    have k2 := average_near (dist_near hb hc) (dist_near ha hc) (dist_near ha hb) (small_dst hb hc) (small_dst ha hc)
      (small_dst ha hb) rfl ha.2 hb.2 hc.2 (R := R) (by simpa only [rpos_eq] using hy.1) (by simpa only [rpos_eq] using hy.2.1)
      (by simpa only [rpos_eq] using hy.2.2) hR hP
    refine ⟨k1.isFin, k2.isFin, ?_, ?_⟩
    · have := k1.err
      simpa only [rpos_eq] using this
    · have := k2.err
      simpa only [rpos_eq] using this

/-! ### the foot of a perpendicular -/

/-- a difference of coordinates as an approximate number -/
theorem sub_near {x y : F32} (hx : SmallNum x) (hy : SmallNum y) {L : ℝ} (hL : |toReal x - toReal y| ≤ L) :
    Near (x - y) (toReal x - toReal y) L (u * L) := by
  obtain ⟨hf, he, _, _⟩ := small_sub hx hy
  exact ⟨hf, hL, he.trans (mul_le_mul_of_nonneg_left hL u_pos.le)⟩

/-- a product of two such differences -/
theorem prod_near {x y : F32} {X Y L R : ℝ} (hx : Near x X L (u * L)) (hy : Near y Y R (u * R)) (hL : L ≤ 2 ^ 62) (hR : R ≤ 2 ^ 62) :
    Near (x * y) (X * Y) (L * R) (13 / 4 * u * (L * R) + η) := by
  have nL := hx.nonneg.1
  have nR := hy.nonneg.1
  have h0 : 0 ≤ L * R := mul_nonneg nL nR
  have h1 : L * R ≤ 2 ^ 62 * 2 ^ 62 := mul_le_mul hL hR nR (by norm_num)
  have e1 : (L + u * L) * (R + u * R) = (1 + u) ^ 2 * (L * R) := by ring
  have e2 : L * (u * R) + R * (u * L) + u * L * (u * R) = (2 * u + u ^ 2) * (L * R) := by ring
  refine (hx.mul hy ?_).weaken (le_refl _) ?_
  · rw [e1]
    unfold u
    norm_num at h1 ⊢
    linarith
  · rw [e1, e2]
    generalize L * R = w at *
    unfold u
    norm_num
    linarith

theorem abs_fst_le (a b : ℝ × ℝ) : |b.1 - a.1| ≤ dst a b ∧ |b.2 - a.2| ≤ dst a b := by
  constructor <;>
  · rw [← sq_le_sq₀ (abs_nonneg _) (dst_nonneg _ _), dst_sq, sq_abs]
    nlinarith [sq_nonneg (b.1 - a.1), sq_nonneg (b.2 - a.2)]

/-- the factor `k` of `calculate_perpendicular_point` -/
theorem factor_near {a b p : Vec2 F32} (ha : SmallPt a) (hb : SmallPt b) (hp : SmallPt p)
    (hL : 1 / 2 ^ 30 ≤ dst (rpos a) (rpos b)) :
    Near (((b.y - a.y) * (p.x - a.x) - (b.x - a.x) * (p.y - a.y)) / ((b.y - a.y) * (b.y - a.y) + (b.x - a.x) * (b.x - a.x)))
      ((((rpos b).2 - (rpos a).2) * ((rpos p).1 - (rpos a).1) - ((rpos b).1 - (rpos a).1) * ((rpos p).2 - (rpos a).2)) /
        dst (rpos a) (rpos b) ^ 2)
      (dst (rpos a) (rpos p) / dst (rpos a) (rpos b))
      (17 * u * (dst (rpos a) (rpos p) / dst (rpos a) (rpos b)) + 1 / 2 ^ 86) := by
  set L := dst (rpos a) (rpos b) with hLd
  set R := dst (rpos a) (rpos p) with hRd
  have L62 : L ≤ 2 ^ 62 := small_dst ha hb
  have R62 : R ≤ 2 ^ 62 := small_dst ha hp
  have nR : 0 ≤ R := dst_nonneg _ _
  have pL : 0 < L := lt_of_lt_of_le (by norm_num) hL
  obtain ⟨lx, ly⟩ := abs_fst_le (rpos a) (rpos b)
  obtain ⟨rx, ry⟩ := abs_fst_le (rpos a) (rpos p)
  have hsq := dst_sq (rpos a) (rpos b)
  rw [← hLd] at lx ly hsq
  rw [← hRd] at rx ry
  simp only [rpos_eq] at lx ly rx ry hsq ⊢
  have nx := sub_near hb.1 ha.1 lx
  have ny := sub_near hb.2 ha.2 ly
  have mx := sub_near hp.1 ha.1 rx
  have my := sub_near hp.2 ha.2 ry
  have hLR : 0 ≤ L * R := mul_nonneg pL.le nR
  have hLR2 : L * R ≤ 2 ^ 62 * 2 ^ 62 := mul_le_mul L62 R62 nR (by norm_num)
  have hη := η_pos
  have hη1 : η ≤ 1 := by unfold η; norm_num
  have hnum : Near ((b.y - a.y) * (p.x - a.x) - (b.x - a.x) * (p.y - a.y))
      ((toReal b.y - toReal a.y) * (toReal p.x - toReal a.x) - (toReal b.x - toReal a.x) * (toReal p.y - toReal a.y))
      (2 * (L * R)) (35 / 4 * u * (L * R) + 3 * η) := by
    refine ((prod_near ny mx L62 R62).sub (prod_near nx my L62 R62) ?_).weaken (by linarith) ?_
    · unfold u
      norm_num at hLR2 ⊢
      linarith
    · unfold u
      generalize η = e at *
      norm_num
      linarith
  have hcs : |(toReal b.y - toReal a.y) * (toReal p.x - toReal a.x) - (toReal b.x - toReal a.x) * (toReal p.y - toReal a.y)| ≤ L * R := by
    have hsq2 := dst_sq (rpos a) (rpos p)
    rw [← hRd] at hsq2
    simp only [rpos_eq] at hsq2
    rw [← sq_le_sq₀ (abs_nonneg _) hLR, sq_abs, mul_pow, hsq, hsq2]
    nlinarith [sq_nonneg ((toReal b.x - toReal a.x) * (toReal p.x - toReal a.x) + (toReal b.y - toReal a.y) * (toReal p.y - toReal a.y))]
  have hnum' := (⟨hnum.isFin, hcs, hnum.err⟩ : Near _ _ (L * R) (35 / 4 * u * (L * R) + 3 * η))
  have hden : Near ((b.y - a.y) * (b.y - a.y) + (b.x - a.x) * (b.x - a.x)) (L ^ 2) (L ^ 2) (9 / 2 * u * L ^ 2 + 3 * η) := by
    have qx := prod_near (sub_near hb.1 ha.1 (le_refl _)) (sub_near hb.1 ha.1 (le_refl _)) (lx.trans L62) (lx.trans L62)
    have qy := prod_near (sub_near hb.2 ha.2 (le_refl _)) (sub_near hb.2 ha.2 (le_refl _)) (ly.trans L62) (ly.trans L62)
    rw [abs_mul_abs_self] at qx qy
    have e : L ^ 2 = (toReal b.y - toReal a.y) * (toReal b.y - toReal a.y) + (toReal b.x - toReal a.x) * (toReal b.x - toReal a.x) := by
      rw [hsq]; ring
    have hL2 : L ^ 2 ≤ 2 ^ 124 := by
      calc L ^ 2 ≤ (2 ^ 62) ^ 2 := pow_le_pow_left₀ pL.le L62 2
        _ = 2 ^ 124 := by norm_num
    rw [e] at hL2 ⊢
    have n1 := mul_self_nonneg (toReal b.y - toReal a.y)
    have n2 := mul_self_nonneg (toReal b.x - toReal a.x)
    generalize (toReal b.y - toReal a.y) * (toReal b.y - toReal a.y) = v at *
    generalize (toReal b.x - toReal a.x) * (toReal b.x - toReal a.x) = w at *
    refine (qy.add qx ?_).weaken (le_refl _) ?_
    · unfold u
      norm_num at hL2 ⊢
      linarith
    · unfold u
      generalize η = e at *
      norm_num
      linarith
  have hL60 : 1 / 2 ^ 60 ≤ L ^ 2 := by
    calc (1 : ℝ) / 2 ^ 60 = (1 / 2 ^ 30) ^ 2 := by norm_num
      _ ≤ L ^ 2 := pow_le_pow_left₀ (by norm_num) hL 2
  obtain ⟨Q, hQ⟩ : ∃ Q, Q = R / L := ⟨_, rfl⟩
  have hQL : Q * L ^ 2 = L * R := by rw [hQ]; field_simp
  have nQ : 0 ≤ Q := by rw [hQ]; positivity
  have hQ92 : Q ≤ 2 ^ 92 := by
    rw [hQ, div_le_iff₀ pL]
    norm_num at R62 hL ⊢
    linarith
  rw [← hQ]
  refine (hnum'.div hden (Q := Q) (e := 35 / 4 * u * Q + 1 / 2 ^ 88) (d := 5 * u) (by positivity) (le_of_eq hQL.symm) ?_ ?_
    (by unfold u; norm_num) ?_).weaken (le_refl _) ?_
  · have e1 : (35 / 4 * u * Q + 1 / 2 ^ 88) * L ^ 2 = 35 / 4 * u * (Q * L ^ 2) + 1 / 2 ^ 88 * L ^ 2 := by ring
    rw [e1, hQL]
    unfold η
    norm_num at hL60 ⊢
    linarith
  · unfold η u
    norm_num at hL60 ⊢
    linarith
  · unfold u
    norm_num at hQ92 ⊢
    linarith
  · unfold u η
    norm_num
    linarith

/-- one coordinate of the foot -/
theorem foot_near {x k d : F32} {K D R L B : ℝ} (hx : SmallNum x) (hB : |toReal x| ≤ B) (hB60 : B ≤ 2 ^ 60)
    (pL : 1 / 2 ^ 30 ≤ L) (hL : L ≤ 3 * B) (nR : 0 ≤ R) (hR : R ≤ 3 * B)
    (hk : Near k K (R / L) (17 * u * (R / L) + 1 / 2 ^ 86)) (hd : Near d D L (u * L)) :
    Near (x - k * d) (toReal x - K * D) (4 * B) (64 * u * B + 1 / 2 ^ 149) ∧
    Near (x + k * d) (toReal x + K * D) (4 * B) (64 * u * B + 1 / 2 ^ 149) := by
  have L0 : 0 < L := lt_of_lt_of_le (by norm_num) pL
  have hB0 : 0 ≤ B := (abs_nonneg _).trans hB
  have hQL : R / L * L = R := by field_simp
  have e1 : (R / L + (17 * u * (R / L) + 1 / 2 ^ 86)) * (L + u * L) =
      (1 + u) * ((1 + 17 * u) * (R / L * L) + 1 / 2 ^ 86 * L) := by ring
  have e2 : R / L * (u * L) + L * (17 * u * (R / L) + 1 / 2 ^ 86) + (17 * u * (R / L) + 1 / 2 ^ 86) * (u * L) =
      u * (R / L * L) + (1 + u) * (17 * u * (R / L * L) + 1 / 2 ^ 86 * L) := by ring
  have hkd : Near (k * d) (K * D) R (77 / 4 * u * R + 1 / 2 ^ 85 * L + η) := by
    refine (hk.mul hd ?_).weaken (le_of_eq hQL) ?_
    · rw [e1, hQL]
      unfold u
      norm_num at hB60 ⊢
      linarith
    · rw [e1, e2, hQL]
      unfold u
      norm_num
      linarith
  have hx' : Near x (toReal x) B 0 := (Near.exact (small_fin hx).1).weaken hB (le_refl _)
  constructor
  · refine (hx'.sub hkd ?_).weaken (by linarith) ?_
    · unfold u η
      norm_num at hB60 ⊢
      linarith
    · unfold u η
      norm_num
      linarith
  · refine (hx'.add hkd ?_).weaken (by linarith) ?_
    · unfold u η
      norm_num at hB60 ⊢
      linarith
    · unfold u η
      norm_num
      linarith

theorem dst_le_coord {a b : ℝ × ℝ} {B : ℝ} (h : |a.1| ≤ B ∧ |a.2| ≤ B) (h' : |b.1| ≤ B ∧ |b.2| ≤ B) : dst a b ≤ 3 * B := by
  have hB : 0 ≤ B := (abs_nonneg _).trans h.1
  unfold dst
  rw [Real.sqrt_le_iff]
  refine ⟨by linarith, ?_⟩
  obtain ⟨a1, a2⟩ := abs_le.1 h.1
  obtain ⟨a3, a4⟩ := abs_le.1 h.2
  obtain ⟨b1, b2⟩ := abs_le.1 h'.1
  obtain ⟨b3, b4⟩ := abs_le.1 h'.2
  have k1 : (b.1 - a.1) ^ 2 ≤ (2 * B) ^ 2 := sq_le_sq' (by linarith) (by linarith)
  have k2 : (b.2 - a.2) ^ 2 ≤ (2 * B) ^ 2 := sq_le_sq' (by linarith) (by linarith)
  nlinarith [sq_nonneg B]

/-- **C108, foot of a perpendicular.** For points with coordinates up to `B ≤ 2^60` and a line through two points at least
`2^-30` apart, the point computed in `f32` is finite and within `2^-18 B` of the foot of the perpendicular. -/
theorem C108_foot {a b p : Vec2 F32} (ha : SmallPt a) (hb : SmallPt b) (hp : SmallPt p) {B : ℝ} (hB : B ≤ 2 ^ 60)
    (bx : |(rpos a).1| ≤ B ∧ |(rpos b).1| ≤ B ∧ |(rpos p).1| ≤ B) (by' : |(rpos a).2| ≤ B ∧ |(rpos b).2| ≤ B ∧ |(rpos p).2| ≤ B)
    (hL : 1 / 2 ^ 30 ≤ dst (rpos a) (rpos b)) {i : ℝ × ℝ} (hi : IsFoot (rpos a) (rpos b) (rpos p) i) :
    let q := calculatePerpendicularPoint a b p
    IsFin q.x ∧ IsFin q.y ∧ |(rpos q).1 - i.1| ≤ B / 2 ^ 18 + 1 / 2 ^ 149 ∧ |(rpos q).2 - i.2| ≤ B / 2 ^ 18 + 1 / 2 ^ 149 := by
  have L0 : 0 < dst (rpos a) (rpos b) := lt_of_lt_of_le (by norm_num) hL
  have hk := factor_near ha hb hp hL
  obtain ⟨lx, ly⟩ := abs_fst_le (rpos a) (rpos b)
  have hL3 := dst_le_coord ⟨bx.1, by'.1⟩ ⟨bx.2.1, by'.2.1⟩
  have hR3 := dst_le_coord ⟨bx.1, by'.1⟩ ⟨bx.2.2, by'.2.2⟩
  have hsq := dst_sq (rpos a) (rpos b)
  have nR := dst_nonneg (rpos a) (rpos p)
  have e64 : B / 2 ^ 18 = 64 * u * B := by unfold u; ring
  -- the exact foot
  have hfoot : i.1 = (rpos p).1 - (((rpos b).2 - (rpos a).2) * ((rpos p).1 - (rpos a).1) -
        ((rpos b).1 - (rpos a).1) * ((rpos p).2 - (rpos a).2)) / dst (rpos a) (rpos b) ^ 2 * ((rpos b).2 - (rpos a).2) ∧
      i.2 = (rpos p).2 + (((rpos b).2 - (rpos a).2) * ((rpos p).1 - (rpos a).1) -
        ((rpos b).1 - (rpos a).1) * ((rpos p).2 - (rpos a).2)) / dst (rpos a) (rpos b) ^ 2 * ((rpos b).1 - (rpos a).1) := by
    obtain ⟨⟨t, rfl⟩, h2⟩ := hi
    unfold dt at h2
    simp only at h2 ⊢
    have hne : dst (rpos a) (rpos b) ^ 2 ≠ 0 := by positivity
    generalize dst (rpos a) (rpos b) ^ 2 = S at *
    constructor
    · field_simp
      rw [hsq]
      linear_combination ((rpos b).1 - (rpos a).1) * h2
    · field_simp
      rw [hsq]
      linear_combination ((rpos b).2 - (rpos a).2) * h2
  rw [hfoot.1, hfoot.2, e64]
  have ny : Near (b.y - a.y) ((rpos b).2 - (rpos a).2) (dst (rpos a) (rpos b)) (u * dst (rpos a) (rpos b)) := by
    simp only [rpos_eq b, rpos_eq a] at ly ⊢
    exact sub_near hb.2 ha.2 ly
  have nx : Near (b.x - a.x) ((rpos b).1 - (rpos a).1) (dst (rpos a) (rpos b)) (u * dst (rpos a) (rpos b)) := by
    simp only [rpos_eq b, rpos_eq a] at lx ⊢
    exact sub_near hb.1 ha.1 lx
  have k1 := (foot_near hp.1 (by simpa only [rpos_eq] using bx.2.2) hB hL hL3 nR hR3 hk ny).1
  have k2 := (foot_near hp.2 (by simpa only [rpos_eq] using by'.2.2) hB hL hL3 nR hR3 hk nx).2
  refine ⟨k1.isFin, k2.isFin, ?_, ?_⟩
  · have := k1.err
    rw [rpos_eq (calculatePerpendicularPoint a b p), rpos_eq p]
    rw [rpos_eq p] at this
    exact this
  · have := k2.err
    rw [rpos_eq (calculatePerpendicularPoint a b p), rpos_eq p]
    rw [rpos_eq p] at this
    exact this

/-! ### intersection of lines -/

/-- **C108, intersection.** A point returned by `calculate_line_intersection` in `f32` is finite and within `2^-21 B` of a
point of the first segment. -/
theorem C108_line_near {a b c d q : Vec2 F32} (ha : SmallPt a) (hb : SmallPt b) {B : ℝ}
    (hB : |(rpos a).1| ≤ B ∧ |(rpos a).2| ≤ B ∧ |(rpos b).1| ≤ B ∧ |(rpos b).2| ≤ B)
    (h : calculateLineIntersection a b c d = some q) :
    IsFin q.x ∧ IsFin q.y ∧ ∃ p, OnSegR (rpos a) (rpos b) p ∧
      |(rpos q).1 - p.1| ≤ B / 2 ^ 21 + 1 / 2 ^ 149 ∧ |(rpos q).2 - p.2| ≤ B / 2 ^ 21 + 1 / 2 ^ 149 := by
  simp only [rpos_eq] at hB
  unfold calculateLineIntersection at h
  simp only at h
  split at h
  · split at h
    · cases h
    · rename_i hc
      simp only [Bool.not_eq_true, Bool.not_eq_false', Bool.and_eq_true] at hc
      obtain ⟨⟨t0, t1⟩, _⟩ := hc
      cases h
      obtain ⟨ft, t0', t1'⟩ := unit_isFin t0 t1
      obtain ⟨g1, g2⟩ := lerp_err ha.1 hb.1 ft t0' t1' hB.1 hB.2.2.1
      obtain ⟨g3, g4⟩ := lerp_err ha.2 hb.2 ft t0' t1' hB.2.1 hB.2.2.2
      refine ⟨g1, g3, _, ⟨_, t0', t1', rfl⟩, ?_, ?_⟩
      · simpa only [rpos_eq] using g2
      · simpa only [rpos_eq] using g4
  · cases h

/-! ### instances -/

/-- the point (0.1, 0.7) is nearest to the origin among these -/
example : findClosestTo exPts[0] [exPts[2], exPts[1], exPts[3]] = (1, distance exPts[0] exPts[1]) ∧
    ∀ p ∈ [exPts[2], exPts[1], exPts[3]], SmallPt p := by
  refine ⟨by decide +kernel, fun p hp => exPts_small p ?_⟩
  simp only [List.mem_cons, List.not_mem_nil, or_false] at hp
  rcases hp with rfl | rfl | rfl <;> simp [exPts]

/-- the triangle (0, 0), (4, 0), (0, 4) has an incentre, and the computed one is within `2^-16` of it -/
example : ∃ q ρ i r, calculateTriangleIncenter exPts[0] exPts[4] exPts[3] = some (q, ρ) ∧
    IsIncentre (rpos exPts[0]) (rpos exPts[4]) (rpos exPts[3]) i r ∧ |(rpos q).1 - i.1| ≤ 1 / 2 ^ 16 := by
  have e0 := ex_at 0 (by decide) (0, 0) rfl
  have e4 := ex_at 4 (by decide) (4, 0) rfl
  have e3 := ex_at 3 (by decide) (0, 4) rfl
  have hnc : ¬ Collinear3 (rpos exPts[0]) (rpos exPts[4]) (rpos exPts[3]) := by
    rw [e0, e4, e3, ← crs_zero_iff]; norm_num [crs]
  obtain ⟨i, r, _, _, h1, h2⟩ := (C38_incenter (rpos exPts[0]) (rpos exPts[4]) (rpos exPts[3])).2 hnc
  have hs : (calculateTriangleIncenter exPts[0] exPts[4] exPts[3]).isSome = true := by decide +kernel
  obtain ⟨⟨q, ρ⟩, hq⟩ := Option.isSome_iff_exists.1 hs
  refine ⟨q, ρ, i, r, hq, ⟨h1, h2⟩, ?_⟩
  have hd : (4 : ℝ) ≤ dst (rpos exPts[0]) (rpos exPts[3]) := by
    rw [e0, e3]; unfold dst; rw [Real.le_sqrt' (by norm_num)]; norm_num
  have n1 := dst_nonneg (rpos exPts[4]) (rpos exPts[3])
  have n2 := dst_nonneg (rpos exPts[0]) (rpos exPts[4])
  have hP : (1 : ℝ) / 2 ^ 40 ≤ dst (rpos exPts[4]) (rpos exPts[3]) + dst (rpos exPts[0]) (rpos exPts[3]) +
      dst (rpos exPts[0]) (rpos exPts[4]) := by
    have : (1 : ℝ) / 2 ^ 40 ≤ 4 := by norm_num
    linarith
  have := (C108_incenter (exPts_small _ (by simp [exPts])) (exPts_small _ (by simp [exPts])) (exPts_small _ (by simp [exPts]))
    (R := 4) (by norm_num) (by rw [e0, e4, e3]; norm_num) (by rw [e0, e4, e3]; norm_num) hP hnc ⟨h1, h2⟩ hq).2.2.1
  refine this.trans ?_
  norm_num

/-- the foot of the perpendicular from (0.1, 0.7) to the diagonal of the square -/
example : |(rpos (calculatePerpendicularPoint exPts[0] exPts[2] exPts[1])).1 - 107374181 / 268435456| ≤ 1 / 2 ^ 15 := by
  have e0 := ex_at 0 (by decide) (0, 0) rfl
  have e2 := ex_at 2 (by decide) (4, 4) rfl
  have e1 := ex_at 1 (by decide) (13421773 / 134217728, 11744051 / 16777216) rfl
  have hd : (1 : ℝ) / 2 ^ 30 ≤ dst (rpos exPts[0]) (rpos exPts[2]) := by
    rw [e0, e2]; unfold dst; rw [Real.le_sqrt' (by norm_num)]; norm_num
  have hi : IsFoot (rpos exPts[0]) (rpos exPts[2]) (rpos exPts[1]) (107374181 / 268435456, 107374181 / 268435456) := by
    rw [e0, e1, e2]
    refine ⟨⟨107374181 / 1073741824, by norm_num⟩, by norm_num [dt]⟩
  have := (C108_foot (exPts_small _ (by simp [exPts])) (exPts_small _ (by simp [exPts])) (exPts_small _ (by simp [exPts]))
    (B := 4) (by norm_num) (by rw [e0, e1, e2]; norm_num) (by rw [e0, e1, e2]; norm_num) hd hi).2.2.1
  refine this.trans ?_
  norm_num

/-- the diagonals of the square, as lines -/
example : (calculateLineIntersection exPts[0] exPts[2] exPts[3] exPts[4]).isSome = true := by decide +kernel

/-- the flat triangle (0, 0), (2^-7, 0), (2^-6, 0) is degenerate -/
example : isDegenerateTriangle exPts[0] exPts[5] exPts[6] = true ∧ closeTo exPts[0] exPts[5] = false := by decide +kernel

end Kami.UtilsF32
