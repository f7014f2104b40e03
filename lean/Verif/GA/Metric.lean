import Verif.GA.Algebra
import Mathlib.Analysis.SpecialFunctions.Trigonometric.Inverse
/-!
# C07, C09-C14: inverses, norms, reflection, projection, angle
-/

set_option autoImplicit false

namespace Kami.GA

open Kami

/-! ## C07: inverses -/

/-- C07: `u⁻¹u = uu⁻¹ = 1` for every non-zero vector. -/
theorem C07_vector_inverse (u : Vector3 ℝ) (hu : u ≠ Vector3.zero) :
    (xv u).inverse.mul (xv u) = xr Rotor3.identity ∧ (xv u).mul (xv u).inverse = xr Rotor3.identity := by
  have h0 : u.normSquared ≠ 0 := fun h => hu ((vec_normSquared_eq_zero u).1 h)
  have h1 := vec_normSquared_eq u
  rw [Vector3.inverse, xv_normSquared, xv_div _ _ h0, xv_mul, xv_mul]
  rw [h1] at h0 ⊢
  constructor <;> congr 1 <;> ext <;>
    simp only [Vector3.mul, Vector3.dot, Vector3.wedge, Vector3.divScalar, Rotor3.identity, Bivector3.zero] <;>
    field_simp <;> ring

/-- C07: the same for bivectors. -/
theorem C07_bivector_inverse (b : Bivector3 ℝ) (hb : b ≠ Bivector3.zero) :
    (xb b).inverse.mul (xb b) = xr Rotor3.identity ∧ (xb b).mul (xb b).inverse = xr Rotor3.identity := by
  have h0 : b.normSquared ≠ 0 := fun h => hb ((biv_normSquared_eq_zero b).1 h)
  have h1 := biv_normSquared_eq b
  rw [Bivector3.inverse, xb_normSquared, xb_neg, xb_div _ _ h0, xb_mul, xb_mul]
  rw [h1] at h0 ⊢
  constructor <;> congr 1 <;> ext <;>
    simp only [Bivector3.mul, Bivector3.divScalar, Bivector3.neg, Rotor3.identity, Bivector3.zero] <;>
    field_simp <;> ring

/-- C07: the same for trivectors. -/
theorem C07_trivector_inverse (t : Trivector3 ℝ) (ht : t ≠ Trivector3.zero) :
    (xt t).inverse.mul (xt t) = .fin 1 ∧ (xt t).mul (xt t).inverse = .fin 1 := by
  have h0 : t.normSquared ≠ 0 := fun h => ht ((tri_normSquared_eq_zero t).1 h)
  have h1 := tri_normSquared_eq t
  rw [Trivector3.inverse, xt_normSquared, xt_neg, xt_div _ _ h0]
  rw [h1] at h0 ⊢
  simp only [xt, Trivector3.map, Trivector3.mul, XReal.fin_neg, XReal.fin_mul, XReal.fin.injEq, Trivector3.divScalar,
    Trivector3.neg]
  have h2 : t.t1 ≠ 0 := by intro h; apply h0; rw [h]; norm_num
  constructor <;> field_simp

/-- non-zero operands exist -/
example : (⟨1, -2, 3⟩ : Vector3 ℝ) ≠ Vector3.zero ∧ (⟨0, -2, 3⟩ : Bivector3 ℝ) ≠ Bivector3.zero ∧
    (⟨-5⟩ : Trivector3 ℝ) ≠ Trivector3.zero := by
  norm_num [Vector3.zero, Bivector3.zero, Trivector3.zero]

/-! ## C09: normalize -/

theorem xv_norm (u : Vector3 ℝ) : (xv u).norm = .fin (Real.sqrt u.normSquared) := by
  rw [Vector3.norm, xv_normSquared, XReal.fin_sqrt _ (vec_normSquared_nonneg u)]
theorem xb_norm (u : Bivector3 ℝ) : (xb u).norm = .fin (Real.sqrt u.normSquared) := by
  rw [Bivector3.norm, xb_normSquared, XReal.fin_sqrt _ (biv_normSquared_nonneg u)]
theorem xt_norm (u : Trivector3 ℝ) : (xt u).norm = .fin (Real.sqrt u.normSquared) := by
  rw [Trivector3.norm, xt_normSquared, XReal.fin_sqrt _ (tri_normSquared_nonneg u)]
theorem xr_norm' (u : Rotor3 ℝ) : (xr u).norm = .fin (Real.sqrt u.normSquared) := by
  rw [Rotor3.norm, xr_normSquared, XReal.fin_sqrt _ (rotor_normSquared_nonneg u)]

/-- C09: normalising a non-zero value divides it by its (positive) norm and the result has norm 1. -/
theorem C09_normalize (u : Vector3 ℝ) (hu : u ≠ Vector3.zero) (b : Bivector3 ℝ) (hb : b ≠ Bivector3.zero)
    (t : Trivector3 ℝ) (ht : t ≠ Trivector3.zero) (r : Rotor3 ℝ) (hr : r ≠ ⟨0, ⟨0, 0, 0⟩⟩) :
    (∃ k > 0, (xv u).norm = .fin k ∧ (xv u).normalize = xv (u.scale (1 / k)) ∧ (xv u).normalize.norm = .fin 1) ∧
    (∃ k > 0, (xb b).norm = .fin k ∧ (xb b).normalize = xb (b.scale (1 / k)) ∧ (xb b).normalize.norm = .fin 1) ∧
    (∃ k > 0, (xt t).norm = .fin k ∧ (xt t).normalize = xt ⟨t.t1 * (1 / k)⟩ ∧ (xt t).normalize.norm = .fin 1) ∧
    (∃ k > 0, (xr r).norm = .fin k ∧ (xr r).normalize = xr (r.scale (1 / k)) ∧ (xr r).normalize.norm = .fin 1) := by
  refine ⟨?_, ?_, ?_, ?_⟩
  · have h0 : 0 < u.normSquared :=
      lt_of_le_of_ne (vec_normSquared_nonneg u) fun h => hu ((vec_normSquared_eq_zero u).1 h.symm)
    have hk := Real.sqrt_pos.2 h0
    have e : (xv u).normalize = xv (u.scale (1 / Real.sqrt u.normSquared)) := by
      rw [Vector3.normalize, xv_norm, xv_div _ _ hk.ne']
      congr 1; ext <;> simp only [Vector3.divScalar, Vector3.scale] <;> ring
    refine ⟨_, hk, xv_norm u, e, ?_⟩
    rw [e, xv_norm]
    have : (u.scale (1 / Real.sqrt u.normSquared)).normSquared = u.normSquared / Real.sqrt u.normSquared ^ 2 := by
      rw [vec_normSquared_eq, vec_normSquared_eq]; simp only [Vector3.scale]; ring
    rw [this, Real.sq_sqrt h0.le, div_self h0.ne', Real.sqrt_one]
  · have h0 : 0 < b.normSquared :=
      lt_of_le_of_ne (biv_normSquared_nonneg b) fun h => hb ((biv_normSquared_eq_zero b).1 h.symm)
    have hk := Real.sqrt_pos.2 h0
    have e : (xb b).normalize = xb (b.scale (1 / Real.sqrt b.normSquared)) := by
      rw [Bivector3.normalize, xb_norm, xb_div _ _ hk.ne']
      congr 1; ext <;> simp only [Bivector3.divScalar, Bivector3.scale] <;> ring
    refine ⟨_, hk, xb_norm b, e, ?_⟩
    rw [e, xb_norm]
    have : (b.scale (1 / Real.sqrt b.normSquared)).normSquared = b.normSquared / Real.sqrt b.normSquared ^ 2 := by
      rw [biv_normSquared_eq, biv_normSquared_eq]; simp only [Bivector3.scale]; ring
    rw [this, Real.sq_sqrt h0.le, div_self h0.ne', Real.sqrt_one]
  · have h0 : 0 < t.normSquared :=
      lt_of_le_of_ne (tri_normSquared_nonneg t) fun h => ht ((tri_normSquared_eq_zero t).1 h.symm)
    have hk := Real.sqrt_pos.2 h0
    have e : (xt t).normalize = xt ⟨t.t1 * (1 / Real.sqrt t.normSquared)⟩ := by
      rw [Trivector3.normalize, xt_norm, xt_div _ _ hk.ne']
      congr 1; ext; simp only [Trivector3.divScalar]; ring
    refine ⟨_, hk, xt_norm t, e, ?_⟩
    rw [e, xt_norm]
    have : (⟨t.t1 * (1 / Real.sqrt t.normSquared)⟩ : Trivector3 ℝ).normSquared
        = t.normSquared / Real.sqrt t.normSquared ^ 2 := by
      rw [tri_normSquared_eq, tri_normSquared_eq]; ring
    rw [this, Real.sq_sqrt h0.le, div_self h0.ne', Real.sqrt_one]
  · have h0 : 0 < r.normSquared :=
      lt_of_le_of_ne (rotor_normSquared_nonneg r) fun h => hr ((rotor_normSquared_eq_zero r).1 h.symm)
    have hk := Real.sqrt_pos.2 h0
    have e : (xr r).normalize = xr (r.scale (1 / Real.sqrt r.normSquared)) := by
      rw [Rotor3.normalize, xr_norm', xr_div _ _ hk.ne']
      congr 1
      ext <;> simp only [Rotor3.divScalar, Rotor3.scale, Bivector3.divScalar, Bivector3.scale] <;> ring
    refine ⟨_, hk, xr_norm' r, e, ?_⟩
    rw [e, xr_norm']
    have : (r.scale (1 / Real.sqrt r.normSquared)).normSquared = r.normSquared / Real.sqrt r.normSquared ^ 2 := by
      rw [rotor_normSquared_eq, rotor_normSquared_eq]; simp only [Rotor3.scale, Bivector3.scale]; ring
    rw [this, Real.sq_sqrt h0.le, div_self h0.ne', Real.sqrt_one]

/-- C09: normalising zero gives NaN in every component. -/
theorem C09_normalize_zero :
    (xv Vector3.zero).normalize = ⟨.nan, .nan, .nan⟩ ∧ (xb Bivector3.zero).normalize = ⟨.nan, .nan, .nan⟩ ∧
    (xt Trivector3.zero).normalize = ⟨.nan⟩ ∧ (xr ⟨0, ⟨0, 0, 0⟩⟩).normalize = ⟨.nan, ⟨.nan, .nan, .nan⟩⟩ := by
  refine ⟨?_, ?_, ?_, ?_⟩
  · rw [Vector3.normalize, xv_norm, (vec_normSquared_eq_zero _).2 rfl, Real.sqrt_zero]
    simp [xv, Vector3.map, Vector3.zero, Vector3.divScalar, XReal.fin_div_zero]
  · rw [Bivector3.normalize, xb_norm, (biv_normSquared_eq_zero _).2 rfl, Real.sqrt_zero]
    simp [xb, Bivector3.map, Bivector3.zero, Bivector3.divScalar, XReal.fin_div_zero]
  · rw [Trivector3.normalize, xt_norm, (tri_normSquared_eq_zero _).2 rfl, Real.sqrt_zero]
    simp [xt, Trivector3.map, Trivector3.zero, Trivector3.divScalar, XReal.fin_div_zero]
  · rw [Rotor3.normalize, xr_norm', (rotor_normSquared_eq_zero _).2 rfl, Real.sqrt_zero]
    simp [xr, Rotor3.map, Bivector3.map, Rotor3.divScalar, Bivector3.divScalar, XReal.fin_div_zero]

/-! ## C10: norms measure -/

/-- C10: norms are non-negative and zero only for zero. -/
theorem C10_norm_nonneg (u : Vector3 ℝ) (b : Bivector3 ℝ) (t : Trivector3 ℝ) (r : Rotor3 ℝ) :
    (∃ k ≥ 0, (xv u).norm = .fin k ∧ (k = 0 ↔ u = Vector3.zero)) ∧
    (∃ k ≥ 0, (xb b).norm = .fin k ∧ (k = 0 ↔ b = Bivector3.zero)) ∧
    (∃ k ≥ 0, (xt t).norm = .fin k ∧ k = |t.t1|) ∧
    (∃ k ≥ 0, (xr r).norm = .fin k ∧ (k = 0 ↔ r = ⟨0, ⟨0, 0, 0⟩⟩)) := by
  refine ⟨⟨_, Real.sqrt_nonneg _, xv_norm u, ?_⟩, ⟨_, Real.sqrt_nonneg _, xb_norm b, ?_⟩,
    ⟨_, Real.sqrt_nonneg _, xt_norm t, ?_⟩, ⟨_, Real.sqrt_nonneg _, xr_norm' r, ?_⟩⟩
  · rw [Real.sqrt_eq_zero (vec_normSquared_nonneg u), vec_normSquared_eq_zero]
  · rw [Real.sqrt_eq_zero (biv_normSquared_nonneg b), biv_normSquared_eq_zero]
  · rw [tri_normSquared_eq, Real.sqrt_sq_eq_abs]
  · rw [Real.sqrt_eq_zero (rotor_normSquared_nonneg r), rotor_normSquared_eq_zero]

/-- C10: Lagrange's identity: the squared area of `u ∧ v`. -/
theorem C10_wedge_area {R : Type} [CommRing R] (u v : Vector3 R) :
    (u.wedge v).normSquared = u.normSquared * v.normSquared - (u.dot v) ^ 2 := by
  simp only [Vector3.wedge, Bivector3.normSquared, Bivector3.dot, Bivector3.neg, Vector3.normSquared, Vector3.dot]; ring

/-- C10: `u ∧ v ∧ w` is the determinant, and its norm the volume. -/
theorem C10_volume (u v w : Vector3 ℝ) :
    ((u.wedge v).wedgeVector w).t1 = Matrix.det !![u.a1, u.a2, u.a3; v.a1, v.a2, v.a3; w.a1, w.a2, w.a3] ∧
    ((xv u).wedge (xv v)).wedgeVector (xv w) = xt ((u.wedge v).wedgeVector w) ∧
    (xt ((u.wedge v).wedgeVector w)).norm =
      .fin |Matrix.det !![u.a1, u.a2, u.a3; v.a1, v.a2, v.a3; w.a1, w.a2, w.a3]| := by
  have h : ((u.wedge v).wedgeVector w).t1 =
      Matrix.det !![u.a1, u.a2, u.a3; v.a1, v.a2, v.a3; w.a1, w.a2, w.a3] := by
    simp only [Matrix.det_fin_three, Matrix.of_apply, Matrix.cons_val', Matrix.cons_val_zero, Matrix.cons_val_one,
      Matrix.cons_val, Matrix.cons_val_fin_one, Vector3.wedge, Bivector3.wedgeVector]
    ring
  refine ⟨h, ?_, ?_⟩
  · rw [xv_wedge]; simp [xb, xv, xt, Bivector3.map, Vector3.map, Trivector3.map, Bivector3.wedgeVector]
  · rw [xt_norm, tri_normSquared_eq, Real.sqrt_sq_eq_abs, h]

/-- C10: `wedge` is alternating, `dot` symmetric; a trivector wedged with a trivector is zero. -/
theorem C10_symmetries {R : Type} [CommRing R] (u v : Vector3 R) (b c : Bivector3 R) (s t : Trivector3 R) :
    u.wedge v = (v.wedge u).neg ∧ u.wedge u = Bivector3.zero ∧ u.dot v = v.dot u ∧
    b.dot c = c.dot b ∧ b.wedge c = (c.wedge b).neg ∧ s.dot t = t.dot s ∧ s.wedge t = 0 := by
  refine ⟨?_, ?_, ?_, ?_, ?_, ?_, rfl⟩
  · ext <;> simp only [Vector3.wedge, Bivector3.neg] <;> ring
  · ext <;> simp only [Vector3.wedge, Bivector3.zero] <;> ring
  · simp only [Vector3.dot]; ring
  · simp only [Bivector3.dot]; ring
  · ext <;> simp only [Bivector3.wedge, Bivector3.neg] <;> ring
  · simp only [Trivector3.dot]; ring

/-- C10: the wedge of two vectors vanishes exactly when they are parallel. -/
theorem C10_wedge_eq_zero (u v : Vector3 ℝ) (hv : v ≠ Vector3.zero) :
    u.wedge v = Bivector3.zero ↔ ∃ k : ℝ, u = v.scale k := by
  constructor
  · intro h
    have h0 : v.normSquared ≠ 0 := fun h => hv ((vec_normSquared_eq_zero v).1 h)
    simp only [Vector3.wedge, Bivector3.zero, Bivector3.mk.injEq] at h
    refine ⟨u.dot v / v.normSquared, ?_⟩
    rw [vec_normSquared_eq] at h0 ⊢
    ext <;> simp only [Vector3.scale, Vector3.dot] <;> field_simp
    · linear_combination v.a2 * h.1 + v.a3 * h.2.1
    · linear_combination -v.a1 * h.1 + v.a3 * h.2.2
    · linear_combination -v.a1 * h.2.1 - v.a2 * h.2.2
  · rintro ⟨k, rfl⟩
    ext <;> simp only [Vector3.wedge, Vector3.scale, Bivector3.zero] <;> ring

/-! ## C11: reflect -/

theorem xv_reflectParts (u v : Vector3 ℝ) (hv : v ≠ Vector3.zero) :
    (xv u).reflectParts (xv v) =
      (xv ((v.scale (2 * (u.dot v / v.normSquared))).sub u), xt Trivector3.zero) := by
  have h0 : v.normSquared ≠ 0 := fun h => hv ((vec_normSquared_eq_zero v).1 h)
  rw [Vector3.reflectParts, Vector3.inverse, xv_normSquared, xv_div _ _ h0]
  simp only [xv_mul, xr_mulVector, Prod.mk.injEq]
  rw [vec_normSquared_eq] at h0 ⊢
  constructor
  · congr 1
    ext <;> simp only [Rotor3.mulVector, Vector3.mul, Vector3.dot, Vector3.wedge, Vector3.divScalar, Vector3.scale,
      Vector3.sub] <;> field_simp <;> ring
  · congr 1
    ext
    simp only [Rotor3.mulVector, Vector3.mul, Vector3.wedge, Vector3.divScalar, Trivector3.zero]
    field_simp
    ring

/-- C11: `u.reflect(v) = 2 (u·v / v·v) v - u`, and the trivector part that the code drops is zero. -/
theorem C11_reflect (u v : Vector3 ℝ) (hv : v ≠ Vector3.zero) :
    (xv u).reflect (xv v) = xv ((v.scale (2 * (u.dot v / v.normSquared))).sub u) ∧
    ((xv u).reflectParts (xv v)).2 = xt Trivector3.zero := by
  rw [Vector3.reflect, xv_reflectParts u v hv]; exact ⟨rfl, rfl⟩

/-- C11: reflecting twice is the identity, lengths are kept, multiples of `v` are fixed, vectors orthogonal to `v` are
negated. -/
theorem C11_reflect_properties (u v : Vector3 ℝ) (hv : v ≠ Vector3.zero) :
    ((xv u).reflect (xv v)).reflect (xv v) = xv u ∧
    ((xv u).reflect (xv v)).normSquared = (xv u).normSquared ∧
    (∀ k, u = v.scale k → (xv u).reflect (xv v) = xv u) ∧
    (u.dot v = 0 → (xv u).reflect (xv v) = xv u.neg) := by
  have h0 : v.normSquared ≠ 0 := fun h => hv ((vec_normSquared_eq_zero v).1 h)
  have hn := vec_normSquared_eq v
  refine ⟨?_, ?_, ?_, ?_⟩
  · rw [(C11_reflect u v hv).1, (C11_reflect _ v hv).1]
    congr 1
    rw [hn] at h0 ⊢
    ext <;> simp only [Vector3.sub, Vector3.scale, Vector3.dot] <;> field_simp <;> ring
  · rw [(C11_reflect u v hv).1, xv_normSquared, xv_normSquared]
    congr 1
    rw [hn] at h0 ⊢
    rw [vec_normSquared_eq, vec_normSquared_eq]
    simp only [Vector3.sub, Vector3.scale, Vector3.dot]
    field_simp
    ring
  · rintro k rfl
    rw [(C11_reflect _ v hv).1]
    congr 1
    rw [hn] at h0 ⊢
    ext <;> simp only [Vector3.sub, Vector3.scale, Vector3.dot] <;> field_simp <;> ring
  · intro h
    rw [(C11_reflect u v hv).1, h]
    congr 1
    ext <;> simp [Vector3.sub, Vector3.scale, Vector3.neg]

/-! ## C12: project -/

/-- C12: `u.project(v)` is `(u·v / v·v) v`; the rest is orthogonal to `v`; projecting again changes nothing. -/
theorem C12_project (u v : Vector3 ℝ) (hv : v ≠ Vector3.zero) :
    ∃ p : Vector3 ℝ, (xv u).project (xv v) = xv p ∧ (∃ k, p = v.scale k) ∧ (u.sub p).dot v = 0 ∧
      (xv p).project (xv v) = xv p := by
  have h0 : v.normSquared ≠ 0 := fun h => hv ((vec_normSquared_eq_zero v).1 h)
  have hn := vec_normSquared_eq v
  have key : ∀ u : Vector3 ℝ, (xv u).project (xv v) = xv (v.scale (u.dot v / v.normSquared)) := by
    intro u
    rw [Vector3.project, Vector3.inverse, xv_normSquared, xv_div _ _ h0, xv_dot, xv_scale]
    congr 1
    ext <;> simp only [Vector3.scale, Vector3.divScalar] <;> ring
  refine ⟨_, key u, ⟨_, rfl⟩, ?_, ?_⟩
  · rw [hn] at h0 ⊢
    simp only [Vector3.sub, Vector3.scale, Vector3.dot]; field_simp; ring
  · rw [key]
    congr 1
    rw [hn] at h0 ⊢
    ext <;> simp only [Vector3.scale, Vector3.dot] <;> field_simp

/-! ## C14: halves of the geometric product -/

/-- C14: `(uv + vu)/2 = u·v` and `(uv - vu)/2 = u∧v`. -/
theorem C14_halves (u v : Vector3 ℝ) :
    (((xv u).mul (xv v)).add ((xv v).mul (xv u))).scale OrdScalar.half = xr ⟨u.dot v, Bivector3.zero⟩ ∧
    (((xv u).mul (xv v)).sub ((xv v).mul (xv u))).scale OrdScalar.half = xr ⟨0, u.wedge v⟩ := by
  constructor <;>
    simp only [xv, xr, Vector3.map, Rotor3.map, Bivector3.map, Vector3.mul, Vector3.dot, Vector3.wedge, Rotor3.add,
      Rotor3.sub, Bivector3.add, Bivector3.sub, Rotor3.scale, Bivector3.scale, Bivector3.zero, XReal.fin_half,
      XReal.fin_mul, XReal.fin_add, XReal.fin_sub, Rotor3.mk.injEq, Bivector3.mk.injEq, XReal.fin.injEq] <;>
    refine ⟨by ring, by ring, by ring, by ring⟩

/-! ## C13: angle -/

theorem angleCos_eq (u v : Vector3 ℝ) (hu : u ≠ Vector3.zero) (hv : v ≠ Vector3.zero) :
    (xv u).angleCos (xv v) = .fin (u.dot v / (Real.sqrt u.normSquared * Real.sqrt v.normSquared)) := by
  have hu0 : 0 < u.normSquared :=
    lt_of_le_of_ne (vec_normSquared_nonneg u) fun h => hu ((vec_normSquared_eq_zero u).1 h.symm)
  have hv0 : 0 < v.normSquared :=
    lt_of_le_of_ne (vec_normSquared_nonneg v) fun h => hv ((vec_normSquared_eq_zero v).1 h.symm)
  have hu1 := Real.sqrt_pos.2 hu0
  have hv1 := Real.sqrt_pos.2 hv0
  rw [Vector3.angleCos, Vector3.normalize, Vector3.normalize, xv_norm, xv_norm, xv_div _ _ hu1.ne',
    xv_div _ _ hv1.ne', xv_dot]
  congr 1
  simp only [Vector3.dot, Vector3.divScalar]
  field_simp

theorem cauchy_schwarz (u v : Vector3 ℝ) : (u.dot v) ^ 2 ≤ u.normSquared * v.normSquared := by
  have h := C10_wedge_area u v
  have h' := biv_normSquared_nonneg (u.wedge v)
  linarith

theorem cos_range (u v : Vector3 ℝ) (hu : u ≠ Vector3.zero) (hv : v ≠ Vector3.zero) :
    -1 ≤ u.dot v / (Real.sqrt u.normSquared * Real.sqrt v.normSquared) ∧
      u.dot v / (Real.sqrt u.normSquared * Real.sqrt v.normSquared) ≤ 1 := by
  have hu0 : 0 < u.normSquared :=
    lt_of_le_of_ne (vec_normSquared_nonneg u) fun h => hu ((vec_normSquared_eq_zero u).1 h.symm)
  have hv0 : 0 < v.normSquared :=
    lt_of_le_of_ne (vec_normSquared_nonneg v) fun h => hv ((vec_normSquared_eq_zero v).1 h.symm)
  have hp : 0 < Real.sqrt u.normSquared * Real.sqrt v.normSquared :=
    mul_pos (Real.sqrt_pos.2 hu0) (Real.sqrt_pos.2 hv0)
  have h : |u.dot v| ≤ Real.sqrt u.normSquared * Real.sqrt v.normSquared := by
    rw [← Real.sqrt_mul hu0.le]
    exact Real.abs_le_sqrt (cauchy_schwarz u v)
  have := abs_le.1 h
  constructor
  · rw [le_div_iff₀ hp]; linarith
  · rw [div_le_iff₀ hp]; linarith

/-- C13, partial: in exact arithmetic the angle of two non-zero vectors is a number in `[0, π]` with
`|u||v| cos(angle) = u·v`, symmetric, and unchanged by positive scaling.  Missing: the claim that an f32 computation
never returns NaN is false (`C13_counterexample_f32`). -/
theorem C13_angle_partial (u v : Vector3 ℝ) (hu : u ≠ Vector3.zero) (hv : v ≠ Vector3.zero) :
    ∃ t : ℝ, (xv u).angle (xv v) = .fin t ∧ 0 ≤ t ∧ t ≤ Real.pi ∧
      Real.sqrt u.normSquared * Real.sqrt v.normSquared * Real.cos t = u.dot v ∧
      (xv v).angle (xv u) = .fin t ∧
      ∀ k > 0, (xv (u.scale k)).angle (xv v) = .fin t ∧ (xv u).angle (xv (v.scale k)) = .fin t := by
  have hu0 : 0 < u.normSquared :=
    lt_of_le_of_ne (vec_normSquared_nonneg u) fun h => hu ((vec_normSquared_eq_zero u).1 h.symm)
  have hv0 : 0 < v.normSquared :=
    lt_of_le_of_ne (vec_normSquared_nonneg v) fun h => hv ((vec_normSquared_eq_zero v).1 h.symm)
  have hu1 := Real.sqrt_pos.2 hu0
  have hv1 := Real.sqrt_pos.2 hv0
  have key : ∀ u v : Vector3 ℝ, u ≠ Vector3.zero → v ≠ Vector3.zero → (xv u).angle (xv v) =
      .fin (Real.arccos (u.dot v / (Real.sqrt u.normSquared * Real.sqrt v.normSquared))) := by
    intro u v hu hv
    rw [Vector3.angle, angleCos_eq u v hu hv, XReal.fin_acos _ (cos_range u v hu hv)]
  have hscale : ∀ (w : Vector3 ℝ) (k : ℝ), 0 < k → w ≠ Vector3.zero →
      w.scale k ≠ Vector3.zero ∧ Real.sqrt (w.scale k).normSquared = k * Real.sqrt w.normSquared := by
    intro w k hk hw
    have hn : (w.scale k).normSquared = k ^ 2 * w.normSquared := by
      rw [vec_normSquared_eq, vec_normSquared_eq]; simp only [Vector3.scale]; ring
    constructor
    · intro h
      have := (vec_normSquared_eq_zero _).2 h
      rw [hn] at this
      rcases mul_eq_zero.1 this with h | h
      · exact hk.ne' (pow_eq_zero_iff two_ne_zero |>.1 h)
      · exact hw ((vec_normSquared_eq_zero w).1 h)
    · rw [hn, Real.sqrt_mul (sq_nonneg k), Real.sqrt_sq hk.le]
  refine ⟨_, key u v hu hv, Real.arccos_nonneg _, Real.arccos_le_pi _, ?_, ?_, ?_⟩
  · rw [Real.cos_arccos (cos_range u v hu hv).1 (cos_range u v hu hv).2]
    field_simp
  · rw [key v u hv hu, (C10_symmetries v u ⟨0,0,0⟩ ⟨0,0,0⟩ ⟨0⟩ ⟨0⟩).2.2.1, mul_comm (Real.sqrt v.normSquared)]
  · intro k hk
    constructor
    · rw [key _ v (hscale u k hk hu).1 hv, (hscale u k hk hu).2]
      congr 2
      have : (u.scale k).dot v = k * u.dot v := by simp only [Vector3.scale, Vector3.dot]; ring
      rw [this]; field_simp
    · rw [key u _ hu (hscale v k hk hv).1, (hscale v k hk hv).2]
      congr 2
      have : u.dot (v.scale k) = k * u.dot v := by simp only [Vector3.scale, Vector3.dot]; ring
      rw [this]; field_simp

end Kami.GA
