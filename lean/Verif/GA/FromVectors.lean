import Verif.GA.Rotations
/-!
# C05: exactly which pairs of vectors `from_vectors` handles

`C05_from_vectors_partial` gives a sufficient condition and two counterexamples.  Here the condition is made exact: for
all pairs of real vectors, when does the rotor of `from_vectors(u, v)` rotate `u` onto `v`, and when at least into the
direction of `v`?
-/

set_option autoImplicit false

namespace Kami.GA

open Kami

/-- the rotor is not a number in any component when `|1 + vu|² = 0` -/
theorem fromVectors_nan (u v : Vector3 ℝ) (h : 1 + 2 * u.dot v + u.normSquared * v.normSquared = 0) :
    Rotor3.fromVectors (xv u) (xv v) = ⟨.nan, ⟨.nan, .nan, .nan⟩⟩ := by
  have h0 : halfway u v = ⟨0, ⟨0, 0, 0⟩⟩ := by
    rw [← rotor_normSquared_eq_zero, halfway_normSquared]; exact h
  rw [fromVectors_eq, h0, Rotor3.normalize, xr_norm]
  have : Real.sqrt (⟨0, ⟨0, 0, 0⟩⟩ : Rotor3 ℝ).normSquared = 0 := by
    rw [(rotor_normSquared_eq_zero _).2 rfl, Real.sqrt_zero]
  rw [this]
  simp [xr, Rotor3.map, Bivector3.map, Rotor3.divScalar, Bivector3.divScalar, XReal.fin_div_zero]

theorem rotate_nan_ne (u w x : Vector3 ℝ) (v : Vector3 ℝ)
    (h : 1 + 2 * u.dot v + u.normSquared * v.normSquared = 0) :
    (Rotor3.fromVectors (xv u) (xv v)).rotate (xv w) ≠ xv x := by
  rw [fromVectors_nan u v h]
  intro h'
  have := congrArg Vector3.a1 h'
  revert this
  simp only [Rotor3.rotate, xv, Vector3.map]
  intro h''
  cases h''

/-- rotating `u` gives `w` exactly if the cleared equations hold -/
theorem fromVectors_rotate_iff (u v w : Vector3 ℝ) :
    (Rotor3.fromVectors (xv u) (xv v)).rotate (xv u) = xv w ↔
      1 + 2 * u.dot v + u.normSquared * v.normSquared ≠ 0 ∧
      (u.scale (1 - u.normSquared * v.normSquared)).add (v.scale (2 * u.normSquared * (1 + u.dot v))) =
        w.scale (1 + 2 * u.dot v + u.normSquared * v.normSquared) := by
  by_cases h : 1 + 2 * u.dot v + u.normSquared * v.normSquared = 0
  · exact ⟨fun h' => absurd h' (rotate_nan_ne u u w v h), fun h' => absurd h h'.1⟩
  · rw [C05_from_vectors_general u v h]
    generalize 1 + 2 * u.dot v + u.normSquared * v.normSquared = N at *
    generalize (u.scale (1 - u.normSquared * v.normSquared)).add (v.scale (2 * u.normSquared * (1 + u.dot v))) = z
    constructor
    · intro h'
      refine ⟨h, ?_⟩
      rw [← xv_inj h']
      ext <;> simp only [Vector3.scale, Vector3.divScalar] <;> field_simp
    · rintro ⟨_, rfl⟩
      congr 1
      ext <;> simp only [Vector3.scale, Vector3.divScalar] <;> field_simp

/-- C05, exactly: `from_vectors(u, v)` rotates `u` onto `v` if and only if `u` and `v` are equal, or are unit vectors
that are not opposite. -/
theorem C05_exact (u v : Vector3 ℝ) :
    (Rotor3.fromVectors (xv u) (xv v)).rotate (xv u) = xv v ↔
      u = v ∨ (u.a1 ^ 2 + u.a2 ^ 2 + u.a3 ^ 2 = 1 ∧ v.a1 ^ 2 + v.a2 ^ 2 + v.a3 ^ 2 = 1 ∧ u ≠ v.neg) := by
  rw [← vec_normSquared_eq, ← vec_normSquared_eq]
  constructor
  · intro h
    obtain ⟨hN, hE⟩ := (fromVectors_rotate_iff u v v).1 h
    obtain ⟨x, y, z⟩ := u
    obtain ⟨p, q, r⟩ := v
    simp only [Vector3.scale, Vector3.add, Vector3.mk.injEq] at hE
    obtain ⟨e1, e2, e3⟩ := hE
    have ha : (⟨x, y, z⟩ : Vector3 ℝ).normSquared = x * x + y * y + z * z := rfl
    have hb : (⟨p, q, r⟩ : Vector3 ℝ).normSquared = p * p + q * q + r * r := rfl
    have hc : (⟨x, y, z⟩ : Vector3 ℝ).dot ⟨p, q, r⟩ = x * p + y * q + z * r := rfl
    generalize (⟨x, y, z⟩ : Vector3 ℝ).normSquared = a at *
    generalize (⟨p, q, r⟩ : Vector3 ℝ).normSquared = b at *
    generalize (⟨x, y, z⟩ : Vector3 ℝ).dot ⟨p, q, r⟩ = c at *
    have hab : a = b := by
      have h2 : (1 + 2 * c + a * b) ^ 2 * (a - b) = 0 := by
        have k1 := congrArg (· ^ 2) e1
        have k2 := congrArg (· ^ 2) e2
        have k3 := congrArg (· ^ 2) e3
        have s : (1 - a * b) ^ 2 * (x * x + y * y + z * z) + 2 * (1 - a * b) * (2 * a * (1 + c)) * (x * p + y * q + z * r)
            + (2 * a * (1 + c)) ^ 2 * (p * p + q * q + r * r) = (1 + 2 * c + a * b) ^ 2 * (p * p + q * q + r * r) := by
          linear_combination k1 + k2 + k3
        rw [← ha, ← hb, ← hc] at s
        linear_combination s
      rcases mul_eq_zero.1 h2 with h3 | h3
      · exact absurd (pow_eq_zero_iff (two_ne_zero)|>.1 h3) hN
      · linarith
    by_cases h1 : a = 1
    · right
      refine ⟨h1, by rw [← hab]; exact h1, ?_⟩
      intro hn
      simp only [Vector3.neg, Vector3.mk.injEq] at hn
      obtain ⟨rfl, rfl, rfl⟩ := hn
      apply hN
      have : c = -b := by rw [hc, hb]; ring
      rw [this, ← hab, h1]; norm_num
    · left
      rw [← hab] at e1 e2 e3 hb hN
      have h1' : 1 - a ≠ 0 := fun h => h1 (by linarith)
      have f1 : (1 + a) * x = (1 - a + 2 * c) * p := mul_left_cancel₀ h1' (by linear_combination e1)
      have f2 : (1 + a) * y = (1 - a + 2 * c) * q := mul_left_cancel₀ h1' (by linear_combination e2)
      have f3 : (1 + a) * z = (1 - a + 2 * c) * r := mul_left_cancel₀ h1' (by linear_combination e3)
      by_cases h0 : a = 0
      · have hx := mul_self_nonneg x
        have hy := mul_self_nonneg y
        have hz := mul_self_nonneg z
        have hp := mul_self_nonneg p
        have hq := mul_self_nonneg q
        have hr := mul_self_nonneg r
        have ex : x = 0 := mul_self_eq_zero.1 (by linarith)
        have ey : y = 0 := mul_self_eq_zero.1 (by linarith)
        have ez : z = 0 := mul_self_eq_zero.1 (by linarith)
        have ep : p = 0 := mul_self_eq_zero.1 (by linarith)
        have eq : q = 0 := mul_self_eq_zero.1 (by linarith)
        have er : r = 0 := mul_self_eq_zero.1 (by linarith)
        rw [ex, ey, ez, ep, eq, er]
      · have hsq : (1 + a) ^ 2 * a = (1 - a + 2 * c) ^ 2 * a := by
          have k1 := congrArg (· ^ 2) f1
          have k2 := congrArg (· ^ 2) f2
          have k3 := congrArg (· ^ 2) f3
          have s : (1 + a) ^ 2 * (x * x + y * y + z * z) = (1 - a + 2 * c) ^ 2 * (p * p + q * q + r * r) := by
            linear_combination k1 + k2 + k3
          rwa [← ha, ← hb] at s
        have hsq' := mul_right_cancel₀ h0 hsq
        have hpos : 0 ≤ a := by rw [ha]; nlinarith [mul_self_nonneg x, mul_self_nonneg y, mul_self_nonneg z]
        have hne : (1 : ℝ) + a ≠ 0 := by positivity
        rcases sq_eq_sq_iff_eq_or_eq_neg.1 hsq' with h2 | h2
        · rw [← h2] at f1 f2 f3
          rw [mul_left_cancel₀ hne f1, mul_left_cancel₀ hne f2, mul_left_cancel₀ hne f3]
        · exfalso
          have e : 1 - a + 2 * c = -(1 + a) := by linarith
          rw [e] at f1 f2 f3
          have g1 : x = -p := mul_left_cancel₀ hne (by linarith)
          have g2 : y = -q := mul_left_cancel₀ hne (by linarith)
          have g3 : z = -r := mul_left_cancel₀ hne (by linarith)
          have : c = -a := by rw [hc, hb, g1, g2, g3]; ring
          apply h1; linarith
  · rintro (rfl | ⟨hu, hv, hne⟩)
    · rw [fromVectors_rotate_iff]
      have hd : u.dot u = u.normSquared := rfl
      have h0 := vec_normSquared_nonneg u
      rw [hd]
      refine ⟨by positivity, ?_⟩
      ext <;> simp only [Vector3.scale, Vector3.add] <;> ring
    · exact (C05_from_vectors_partial u v hu hv hne).1

/-- C05, exactly, up to length: for non-zero vectors, `from_vectors(u, v)` turns `u` into the direction of `v` if and only
if `u` already has that direction, or the product of the two lengths is 1 and the directions are not opposite. -/
theorem C05_exact_direction (u v : Vector3 ℝ) (hu : u ≠ Vector3.zero) (hv : v ≠ Vector3.zero) :
    (∃ k : ℝ, 0 < k ∧ (Rotor3.fromVectors (xv u) (xv v)).rotate (xv u) = xv (v.scale k)) ↔
      (∃ k : ℝ, 0 < k ∧ u = v.scale k) ∨
      ((u.a1 ^ 2 + u.a2 ^ 2 + u.a3 ^ 2) * (v.a1 ^ 2 + v.a2 ^ 2 + v.a3 ^ 2) = 1 ∧ ¬ ∃ k : ℝ, k < 0 ∧ u = v.scale k) := by
  rw [← vec_normSquared_eq, ← vec_normSquared_eq]
  have hapos : 0 < u.normSquared :=
    lt_of_le_of_ne (vec_normSquared_nonneg u) fun h => hu ((vec_normSquared_eq_zero u).1 h.symm)
  have hbpos : 0 < v.normSquared :=
    lt_of_le_of_ne (vec_normSquared_nonneg v) fun h => hv ((vec_normSquared_eq_zero v).1 h.symm)
  have par : ∀ m : ℝ, u = v.scale m → u.dot v = m * v.normSquared ∧ u.normSquared = m ^ 2 * v.normSquared := by
    rintro m rfl
    constructor <;> simp only [Vector3.dot, Vector3.normSquared, Vector3.scale] <;> ring
  constructor
  · rintro ⟨k, hk, h⟩
    obtain ⟨hN, hE⟩ := (fromVectors_rotate_iff u v _).1 h
    by_cases h1 : u.normSquared * v.normSquared = 1
    · by_cases hneg : ∃ k : ℝ, k < 0 ∧ u = v.scale k
      · exfalso
        obtain ⟨m, hm, e⟩ := hneg
        obtain ⟨ec, ea⟩ := par m e
        apply hN
        have : (u.dot v) ^ 2 = 1 := by rw [← h1, ea, ec]; ring
        have hneg : u.dot v < 0 := by rw [ec]; exact mul_neg_of_neg_of_pos hm hbpos
        have hone : u.dot v = -1 := by nlinarith
        rw [hone, h1]; norm_num
      · exact Or.inr ⟨h1, hneg⟩
    · left
      have h1' : 1 - u.normSquared * v.normSquared ≠ 0 := fun h => h1 (by linarith)
      have e : u = v.scale ((k * (1 + 2 * u.dot v + u.normSquared * v.normSquared) - 2 * u.normSquared * (1 + u.dot v)) /
          (1 - u.normSquared * v.normSquared)) := by
        generalize u.normSquared * v.normSquared = ab at *
        generalize 1 + 2 * u.dot v + ab = N at *
        generalize 2 * u.normSquared * (1 + u.dot v) = w at *
        have e1 := congrArg Vector3.a1 hE
        have e2 := congrArg Vector3.a2 hE
        have e3 := congrArg Vector3.a3 hE
        simp only [Vector3.scale, Vector3.add] at e1 e2 e3
        ext <;> simp only [Vector3.scale] <;> field_simp
        · linear_combination e1
        · linear_combination e2
        · linear_combination e3
      generalize (k * (1 + 2 * u.dot v + u.normSquared * v.normSquared) - 2 * u.normSquared * (1 + u.dot v)) /
          (1 - u.normSquared * v.normSquared) = m at e
      obtain ⟨ec, ea⟩ := par m e
      refine ⟨k, hk, ?_⟩
      -- a vector parallel to `v` is left where it is
      have hfix : v.scale ((1 + 2 * u.dot v + u.normSquared * v.normSquared) * m) =
          v.scale ((1 + 2 * u.dot v + u.normSquared * v.normSquared) * k) := by
        have hE' := hE
        rw [ec, ea, e] at hE'
        rw [ec, ea]
        have e1 := congrArg Vector3.a1 hE'
        have e2 := congrArg Vector3.a2 hE'
        have e3 := congrArg Vector3.a3 hE'
        simp only [Vector3.scale, Vector3.add] at e1 e2 e3
        ext <;> simp only [Vector3.scale]
        · linear_combination e1
        · linear_combination e2
        · linear_combination e3
      have hmk : m = k := by
        have hz : ∀ s t : ℝ, v.scale s = v.scale t → s = t := by
          intro s t hst
          by_contra hne
          apply hv
          simp only [Vector3.scale, Vector3.mk.injEq] at hst
          have hd : s - t ≠ 0 := sub_ne_zero.2 hne
          ext <;> simp only [Vector3.zero]
          · exact mul_left_cancel₀ hd (by linear_combination hst.1)
          · exact mul_left_cancel₀ hd (by linear_combination hst.2.1)
          · exact mul_left_cancel₀ hd (by linear_combination hst.2.2)
        exact mul_left_cancel₀ hN (hz _ _ hfix)
      rw [← hmk]; exact e
  · rintro (⟨k, hk, e⟩ | ⟨h1, hneg⟩)
    · refine ⟨k, hk, (fromVectors_rotate_iff u v _).2 ?_⟩
      obtain ⟨ec, ea⟩ := par k e
      rw [ec, ea]
      have hp : 0 < 1 + 2 * (k * v.normSquared) + k ^ 2 * v.normSquared * v.normSquared := by positivity
      refine ⟨hp.ne', ?_⟩
      rw [e]
      ext <;> simp only [Vector3.scale, Vector3.add] <;> ring
    · refine ⟨u.normSquared, hapos, (fromVectors_rotate_iff u v _).2 ?_⟩
      have hN : 1 + u.dot v ≠ 0 := by
        intro hc
        apply hneg
        refine ⟨-u.normSquared, by linarith, ?_⟩
        have h0 : (u.add (v.scale u.normSquared)).normSquared = 0 := by
          have : (u.add (v.scale u.normSquared)).normSquared =
              u.normSquared * (1 + 2 * u.dot v + u.normSquared * v.normSquared) := by
            generalize hg : u.normSquared = a
            rw [Vector3.normSquared, Vector3.dot] at hg
            simp only [Vector3.normSquared, Vector3.dot, Vector3.add, Vector3.scale]
            linear_combination hg
          rw [this, h1]; linear_combination (2 * u.normSquared) * hc
        have h2 := (vec_normSquared_eq_zero _).1 h0
        simp only [Vector3.add, Vector3.scale, Vector3.zero, Vector3.mk.injEq] at h2
        ext <;> simp only [Vector3.scale] <;> linarith
      rw [h1]
      refine ⟨fun h => hN (by linarith), ?_⟩
      ext <;> simp only [Vector3.scale, Vector3.add] <;> ring

/-- Both sides of `C05_exact_direction` for a pair of different lengths: `(2,0,0)` is turned into the direction of
`(0,1/2,0)` (the lengths multiply to 1), but not onto it. -/
example : (⟨2, 0, 0⟩ : Vector3 ℝ) ≠ Vector3.zero ∧ (⟨0, 1 / 2, 0⟩ : Vector3 ℝ) ≠ Vector3.zero ∧
    (∃ k : ℝ, 0 < k ∧ (Rotor3.fromVectors (xv ⟨2, 0, 0⟩) (xv ⟨0, 1 / 2, 0⟩)).rotate (xv ⟨2, 0, 0⟩) =
      xv ((⟨0, 1 / 2, 0⟩ : Vector3 ℝ).scale k)) ∧
    (Rotor3.fromVectors (xv ⟨2, 0, 0⟩) (xv ⟨0, 1 / 2, 0⟩)).rotate (xv ⟨2, 0, 0⟩) ≠ xv ⟨0, 1 / 2, 0⟩ := by
  have h1 : (⟨2, 0, 0⟩ : Vector3 ℝ) ≠ Vector3.zero := by norm_num [Vector3.zero]
  have h2 : (⟨0, 1 / 2, 0⟩ : Vector3 ℝ) ≠ Vector3.zero := by norm_num [Vector3.zero]
  refine ⟨h1, h2, (C05_exact_direction _ _ h1 h2).2 (Or.inr ⟨by norm_num, ?_⟩), ?_⟩
  · rintro ⟨k, _, e⟩
    have := congrArg Vector3.a1 e
    norm_num [Vector3.scale] at this
  · rw [Ne, C05_exact]
    norm_num

end Kami.GA
