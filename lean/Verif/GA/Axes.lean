import Verif.GA.Clifford
import Verif.GA.FromVectors
import Verif.GA.Metric
/-!
# C146: the algebra does not depend on the axes

A map of space that keeps lengths (a rotation, a reflection, ...) may be applied before or after every operation of
src/math: vectors are moved by the map, bivectors, trivectors and rotors by the maps it induces on planes and volumes.
-/

set_option autoImplicit false

namespace Kami.GA

open Kami CliffordAlgebra

/-! ### Specification -/

/-- a linear map of space that keeps lengths and angles, given by the images of the unit vectors: three unit vectors,
perpendicular to each other (right- or left-handed) -/
structure Ortho where
  p : Vector3 ℝ
  q : Vector3 ℝ
  r : Vector3 ℝ
  pp : p.a1 * p.a1 + p.a2 * p.a2 + p.a3 * p.a3 = 1
  qq : q.a1 * q.a1 + q.a2 * q.a2 + q.a3 * q.a3 = 1
  rr : r.a1 * r.a1 + r.a2 * r.a2 + r.a3 * r.a3 = 1
  pq : p.a1 * q.a1 + p.a2 * q.a2 + p.a3 * q.a3 = 0
  pr : p.a1 * r.a1 + p.a2 * r.a2 + p.a3 * r.a3 = 0
  qr : q.a1 * r.a1 + q.a2 * r.a2 + q.a3 * r.a3 = 0

namespace Ortho

/-- the image of a vector -/
def ap (φ : Ortho) (u : Vector3 ℝ) : Vector3 ℝ :=
  ⟨u.a1 * φ.p.a1 + u.a2 * φ.q.a1 + u.a3 * φ.r.a1, u.a1 * φ.p.a2 + u.a2 * φ.q.a2 + u.a3 * φ.r.a2,
    u.a1 * φ.p.a3 + u.a2 * φ.q.a3 + u.a3 * φ.r.a3⟩

/-- the oriented parallelogram of two vectors: its three projections to the coordinate planes, as 2x2 determinants -/
def cell (u v : Vector3 ℝ) : Bivector3 ℝ :=
  ⟨u.a1 * v.a2 - u.a2 * v.a1, u.a1 * v.a3 - u.a3 * v.a1, u.a2 * v.a3 - u.a3 * v.a2⟩

/-- the image of a bivector: the unit cells go to the cells of the images of the unit vectors -/
def apB (φ : Ortho) (b : Bivector3 ℝ) : Bivector3 ℝ :=
  ⟨b.b1 * (cell φ.p φ.q).b1 + b.b2 * (cell φ.p φ.r).b1 + b.b3 * (cell φ.q φ.r).b1,
    b.b1 * (cell φ.p φ.q).b2 + b.b2 * (cell φ.p φ.r).b2 + b.b3 * (cell φ.q φ.r).b2,
    b.b1 * (cell φ.p φ.q).b3 + b.b2 * (cell φ.p φ.r).b3 + b.b3 * (cell φ.q φ.r).b3⟩

/-- the determinant: the oriented volume spanned by the images of the unit vectors -/
def det (φ : Ortho) : ℝ :=
  φ.p.a1 * (φ.q.a2 * φ.r.a3 - φ.q.a3 * φ.r.a2) - φ.p.a2 * (φ.q.a1 * φ.r.a3 - φ.q.a3 * φ.r.a1) +
    φ.p.a3 * (φ.q.a1 * φ.r.a2 - φ.q.a2 * φ.r.a1)

/-- the image of a trivector -/
def apT (φ : Ortho) (t : Trivector3 ℝ) : Trivector3 ℝ := ⟨t.t1 * φ.det⟩

/-- the image of a rotor -/
def apR (φ : Ortho) (r : Rotor3 ℝ) : Rotor3 ℝ := ⟨r.scalar, φ.apB r.bivector⟩

/-! ### The induced map of the Clifford algebra -/

/-- the map on coordinate triples -/
def lin (φ : Ortho) : (Fin 3 → ℝ) →ₗ[ℝ] (Fin 3 → ℝ) where
  toFun x := ![x 0 * φ.p.a1 + x 1 * φ.q.a1 + x 2 * φ.r.a1, x 0 * φ.p.a2 + x 1 * φ.q.a2 + x 2 * φ.r.a2,
    x 0 * φ.p.a3 + x 1 * φ.q.a3 + x 2 * φ.r.a3]
  map_add' x y := by
    funext i
    fin_cases i <;> simp <;> ring
  map_smul' k x := by
    funext i
    fin_cases i <;> simp <;> ring

theorem lin_Q (φ : Ortho) (x : Fin 3 → ℝ) : Q ℝ (φ.lin x) = Q ℝ x := by
  rw [Q_apply, Q_apply]
  simp only [lin, LinearMap.coe_mk, AddHom.coe_mk, Matrix.cons_val_zero, Matrix.cons_val_one, Matrix.cons_val]
  linear_combination x 0 ^ 2 * φ.pp + x 1 ^ 2 * φ.qq + x 2 ^ 2 * φ.rr + 2 * x 0 * x 1 * φ.pq + 2 * x 0 * x 2 * φ.pr +
    2 * x 1 * x 2 * φ.qr

/-- the induced homomorphism -/
noncomputable def cl (φ : Ortho) : Cl ℝ →ₐ[ℝ] Cl ℝ :=
  lift (Q ℝ) ⟨(ι (Q ℝ)).comp φ.lin, fun x => by
    rw [LinearMap.comp_apply, ι_sq_scalar, lin_Q]⟩

theorem cl_vec (φ : Ortho) (u : Vector3 ℝ) : φ.cl (vec u) = vec (φ.ap u) := by
  unfold cl vec
  rw [lift_ι_apply, LinearMap.comp_apply]
  rfl

theorem cl_e (φ : Ortho) : φ.cl (e ℝ 0) = vec φ.p ∧ φ.cl (e ℝ 1) = vec φ.q ∧ φ.cl (e ℝ 2) = vec φ.r := by
  obtain ⟨⟨h1, h2, h3⟩, _⟩ := C100_units (R := ℝ)
  rw [← h1, ← h2, ← h3, cl_vec, cl_vec, cl_vec]
  simp [ap, Vector3.unitX, Vector3.unitY, Vector3.unitZ]

theorem cl_biv (φ : Ortho) (b : Bivector3 ℝ) : φ.cl (biv b) = biv (φ.apB b) := by
  obtain ⟨h1, h2, h3⟩ := φ.cl_e
  have hp : vec φ.p * vec φ.q = biv (cell φ.p φ.q) := by
    rw [C01_dot_plus_wedge, Vector3.dot, φ.pq, map_zero, zero_add]; rfl
  have hq : vec φ.p * vec φ.r = biv (cell φ.p φ.r) := by
    rw [C01_dot_plus_wedge, Vector3.dot, φ.pr, map_zero, zero_add]; rfl
  have hr : vec φ.q * vec φ.r = biv (cell φ.q φ.r) := by
    rw [C01_dot_plus_wedge, Vector3.dot, φ.qr, map_zero, zero_add]; rfl
  rw [biv, map_add, map_add, map_smul, map_smul, map_smul, map_mul, map_mul, map_mul, h1, h2, h3, hp, hq, hr]
  simp only [biv, apB, smul_add, smul_smul]
  module

theorem cl_rot (φ : Ortho) (r : Rotor3 ℝ) : φ.cl (rot r) = rot (φ.apR r) := by
  rw [rot, map_add, AlgHom.commutes, cl_biv]
  rfl

theorem cl_tri (φ : Ortho) (t : Trivector3 ℝ) : φ.cl (tri t) = tri (φ.apT t) := by
  obtain ⟨h1, h2, h3⟩ := φ.cl_e
  have hp : vec φ.p * vec φ.q = rot ⟨0, cell φ.p φ.q⟩ := by
    rw [C01_dot_plus_wedge, Vector3.dot, φ.pq]; rfl
  have h4 : rot ⟨0, cell φ.p φ.q⟩ * vec φ.r = tri ⟨φ.det⟩ := by
    rw [← C02_rotor_mul_vector]
    have e1 : ((⟨0, cell φ.p φ.q⟩ : Rotor3 ℝ).mulVector φ.r).1 = Vector3.zero := by
      have hpr := φ.pr
      have hqr := φ.qr
      simp only [Rotor3.mulVector, cell, Vector3.zero, Vector3.mk.injEq]
      refine ⟨?_, ?_, ?_⟩
      · linear_combination φ.p.a1 * hqr - φ.q.a1 * hpr
      · linear_combination φ.p.a2 * hqr - φ.q.a2 * hpr
      · linear_combination φ.p.a3 * hqr - φ.q.a3 * hpr
    have e2 : ((⟨0, cell φ.p φ.q⟩ : Rotor3 ℝ).mulVector φ.r).2 = ⟨φ.det⟩ := by
      simp only [Rotor3.mulVector, cell, det, Trivector3.mk.injEq]
      ring
    rw [e1, e2, (C100_units (R := ℝ)).2.2.2.2.1, zero_add]
  rw [tri, map_smul, map_mul, map_mul, h1, h2, h3, hp, h4]
  simp only [tri, apT, smul_smul]

theorem det_sq (φ : Ortho) : φ.det * φ.det = 1 := by
  have h := φ.cl_tri ⟨1⟩
  have h2 : φ.cl (tri ⟨1⟩) * φ.cl (tri ⟨1⟩) = algebraMap ℝ (Cl ℝ) (-1) := by
    rw [← map_mul, C02_trivector_dot]
    simp [Trivector3.dot]
  rw [h, C02_trivector_dot] at h2
  have h3 : rot (⟨(φ.apT ⟨1⟩).dot (φ.apT ⟨1⟩), ⟨0, 0, 0⟩⟩ : Rotor3 ℝ) = rot ⟨-1, ⟨0, 0, 0⟩⟩ := by
    simp only [rot, h2]
  have h4 := congrArg Rotor3.scalar (rot_injective h3)
  simp only [apT, Trivector3.dot, one_mul] at h4
  linarith

end Ortho

open Ortho

/-! ### C146 -/

/-- **C146, products.** Dot products do not change under a map that keeps lengths; wedge products, the geometric products of all
grades, and the wedge of a bivector with a vector are moved by the map. -/
theorem C146_products (φ : Ortho) (u v : Vector3 ℝ) (b c : Bivector3 ℝ) (s t : Trivector3 ℝ) (q r : Rotor3 ℝ) :
    ((φ.ap u).dot (φ.ap v) = u.dot v ∧ (φ.apB b).dot (φ.apB c) = b.dot c ∧ (φ.apT s).dot (φ.apT t) = s.dot t ∧
      (φ.apR q).dot (φ.apR r) = q.dot r) ∧
    ((φ.ap u).wedge (φ.ap v) = φ.apB (u.wedge v) ∧ (φ.apB b).wedge (φ.apB c) = φ.apB (b.wedge c) ∧
      (φ.apB b).wedgeVector (φ.ap u) = φ.apT (b.wedgeVector u)) ∧
    (φ.ap u).mul (φ.ap v) = φ.apR (u.mul v) ∧
    (φ.ap u).mulBivector (φ.apB b) = (φ.ap (u.mulBivector b).1, φ.apT (u.mulBivector b).2) ∧
    (φ.apB b).mul (φ.apB c) = φ.apR (b.mul c) ∧
    (φ.apR r).mulVector (φ.ap u) = (φ.ap (r.mulVector u).1, φ.apT (r.mulVector u).2) ∧
    (φ.apR q).mul (φ.apR r) = φ.apR (q.mul r) ∧
    (φ.apT s).mul (φ.apT t) = s.mul t := by
  have hvv : (φ.ap u).mul (φ.ap v) = φ.apR (u.mul v) := by
    apply rot_injective
    rw [C01_vector_mul_vector, ← cl_rot, C01_vector_mul_vector, map_mul, cl_vec, cl_vec]
  have hbb : (φ.apB b).mul (φ.apB c) = φ.apR (b.mul c) := by
    apply rot_injective
    rw [C02_bivector_mul_bivector, ← cl_rot, C02_bivector_mul_bivector, map_mul, cl_biv, cl_biv]
  have htt : (φ.apT s).mul (φ.apT t) = s.mul t := by
    simp only [Trivector3.mul, apT]
    linear_combination (-(s.t1 * t.t1)) * φ.det_sq
  have hbd : (φ.apB b).dot (φ.apB c) = b.dot c := congrArg Rotor3.scalar hbb
  have hqr : (φ.apR q).mul (φ.apR r) = φ.apR (q.mul r) := by
    apply rot_injective
    rw [C02_rotor_mul_rotor, ← cl_rot, ← cl_rot, ← cl_rot, C02_rotor_mul_rotor, map_mul]
  have hqrd : (φ.apR q).dot (φ.apR r) = q.dot r := by
    have := congrArg Rotor3.scalar hqr
    simp only [apR, Rotor3.mul] at this
    simp only [apR, Rotor3.dot, Bivector3.dot]
    linarith
  have hwv : (φ.apB b).wedgeVector (φ.ap u) = φ.apT (b.wedgeVector u) := by
    obtain ⟨w, hw⟩ := C02_bivector_wedge_vector b u
    obtain ⟨w', hw'⟩ := C02_bivector_wedge_vector (φ.apB b) (φ.ap u)
    rw [← cl_biv, ← cl_vec, ← map_mul, hw, map_add, cl_vec, cl_tri] at hw'
    exact (vec_tri_injective hw').2.symm
  refine ⟨⟨congrArg Rotor3.scalar hvv, hbd, htt, hqrd⟩,
    ⟨congrArg Rotor3.bivector hvv, congrArg Rotor3.bivector hbb, hwv⟩, hvv, ?_, hbb, ?_, hqr, htt⟩
  · have h := C02_vector_mul_bivector (φ.ap u) (φ.apB b)
    rw [← cl_biv, ← cl_vec, ← map_mul, ← C02_vector_mul_bivector, map_add, cl_vec, cl_tri] at h
    obtain ⟨h1, h2⟩ := vec_tri_injective h
    exact Prod.ext h1 h2
  · have h := C02_rotor_mul_vector (φ.apR r) (φ.ap u)
    rw [← cl_rot, ← cl_vec, ← map_mul, ← C02_rotor_mul_vector, map_add, cl_vec, cl_tri] at h
    obtain ⟨h1, h2⟩ := vec_tri_injective h
    exact Prod.ext h1 h2

theorem apR_inverse (φ : Ortho) (r : Rotor3 ℝ) : (φ.apR r).inverse = φ.apR r.inverse := by
  simp only [Rotor3.inverse, apR, apB, Bivector3.neg]
  congr 2 <;> ring

/-- **C146, rotations.** The moved rotor rotates the moved vector to the moved image; this is also true for reflections. -/
theorem C146_rotate (φ : Ortho) (r : Rotor3 ℝ) (u : Vector3 ℝ) : (φ.apR r).rotate (φ.ap u) = φ.ap (r.rotate u) := by
  have h := C04_rotate_sandwich (φ.apR r) (φ.ap u)
  rw [apR_inverse, ← cl_rot, ← cl_vec, ← cl_rot, ← map_mul, ← map_mul, ← C04_rotate_sandwich, cl_vec] at h
  have h' : vec ((φ.apR r).rotate (φ.ap u)) + tri ⟨0⟩ = vec (φ.ap (r.rotate u)) + tri ⟨0⟩ := by rw [h]
  exact (vec_tri_injective h').1

theorem ap_normSquared (φ : Ortho) (u : Vector3 ℝ) : (φ.ap u).normSquared = u.normSquared :=
  (C146_products φ u u ⟨0, 0, 0⟩ ⟨0, 0, 0⟩ ⟨0⟩ ⟨0⟩ ⟨0, ⟨0, 0, 0⟩⟩ ⟨0, ⟨0, 0, 0⟩⟩).1.1

theorem apB_neg (φ : Ortho) (b : Bivector3 ℝ) : (φ.apB b).neg = φ.apB b.neg := by
  simp only [apB, Bivector3.neg]
  congr 1 <;> ring

theorem apB_normSquared (φ : Ortho) (b : Bivector3 ℝ) : (φ.apB b).normSquared = b.normSquared := by
  unfold Bivector3.normSquared
  rw [apB_neg]
  exact (C146_products φ ⟨0, 0, 0⟩ ⟨0, 0, 0⟩ _ _ ⟨0⟩ ⟨0⟩ ⟨0, ⟨0, 0, 0⟩⟩ ⟨0, ⟨0, 0, 0⟩⟩).1.2.1

theorem apT_normSquared (φ : Ortho) (t : Trivector3 ℝ) : (φ.apT t).normSquared = t.normSquared := by
  rw [tri_normSquared_eq, tri_normSquared_eq]
  simp only [apT]
  linear_combination t.t1 ^ 2 * φ.det_sq

theorem apR_normSquared (φ : Ortho) (r : Rotor3 ℝ) : (φ.apR r).normSquared = r.normSquared := by
  unfold Rotor3.normSquared
  rw [apR_inverse]
  exact (C146_products φ ⟨0, 0, 0⟩ ⟨0, 0, 0⟩ ⟨0, 0, 0⟩ ⟨0, 0, 0⟩ ⟨0⟩ ⟨0⟩ _ _).1.2.2.2

theorem ap_ne_zero {φ : Ortho} {u : Vector3 ℝ} (h : u ≠ Vector3.zero) : φ.ap u ≠ Vector3.zero := by
  rw [Ne, ← vec_normSquared_eq_zero, ap_normSquared, vec_normSquared_eq_zero]
  exact h

theorem ap_scale (φ : Ortho) (u : Vector3 ℝ) (k : ℝ) : (φ.ap u).scale k = φ.ap (u.scale k) := by
  simp only [ap, Vector3.scale]
  congr 1 <;> ring

theorem ap_divScalar (φ : Ortho) (u : Vector3 ℝ) (k : ℝ) : (φ.ap u).divScalar k = φ.ap (u.divScalar k) := by
  simp only [ap, Vector3.divScalar]
  congr 1 <;> ring

theorem apB_divScalar (φ : Ortho) (b : Bivector3 ℝ) (k : ℝ) : (φ.apB b).divScalar k = φ.apB (b.divScalar k) := by
  simp only [apB, Bivector3.divScalar]
  congr 1 <;> ring

theorem apR_divScalar (φ : Ortho) (r : Rotor3 ℝ) (k : ℝ) : (φ.apR r).divScalar k = φ.apR (r.divScalar k) := by
  simp only [apR, Rotor3.divScalar, apB_divScalar]

/-- **C146, measures.** Norms and angles do not change. -/
theorem C146_measures (φ : Ortho) (u v : Vector3 ℝ) (b : Bivector3 ℝ) (t : Trivector3 ℝ) (r : Rotor3 ℝ) :
    (xv (φ.ap u)).norm = (xv u).norm ∧ (xb (φ.apB b)).norm = (xb b).norm ∧ (xt (φ.apT t)).norm = (xt t).norm ∧
    (xr (φ.apR r)).norm = (xr r).norm ∧
    (u ≠ Vector3.zero → v ≠ Vector3.zero → (xv (φ.ap u)).angle (xv (φ.ap v)) = (xv u).angle (xv v)) := by
  refine ⟨?_, ?_, ?_, ?_, ?_⟩
  · rw [xv_norm, xv_norm, ap_normSquared]
  · rw [xb_norm, xb_norm, apB_normSquared]
  · rw [xt_norm, xt_norm, apT_normSquared]
  · rw [xr_norm, xr_norm, apR_normSquared]
  · intro hu hv
    have hs : ∀ {w : Vector3 ℝ}, w ≠ Vector3.zero → Real.sqrt w.normSquared ≠ 0 := fun hw =>
      (Real.sqrt_ne_zero (vec_normSquared_nonneg _)).2 fun h => hw ((vec_normSquared_eq_zero _).1 h)
    unfold Vector3.angle Vector3.angleCos Vector3.normalize
    simp only [xv_norm, ap_normSquared]
    rw [xv_div _ _ (hs hu), xv_div _ _ (hs hv), xv_div _ _ (hs hu), xv_div _ _ (hs hv), xv_dot, xv_dot, ap_divScalar,
      ap_divScalar]
    rw [(C146_products φ _ _ ⟨0, 0, 0⟩ ⟨0, 0, 0⟩ ⟨0⟩ ⟨0⟩ ⟨0, ⟨0, 0, 0⟩⟩ ⟨0, ⟨0, 0, 0⟩⟩).1.1]

/-- **C146, quotients.** Normalising, inverting, projecting and reflecting commute with the map. -/
theorem C146_quotients (φ : Ortho) (u v : Vector3 ℝ) (hv : v ≠ Vector3.zero) (r : Rotor3 ℝ) (hr : r ≠ ⟨0, ⟨0, 0, 0⟩⟩) :
    (∃ w, (xv v).normalize = xv w ∧ (xv (φ.ap v)).normalize = xv (φ.ap w)) ∧
    (∃ w, (xv v).inverse = xv w ∧ (xv (φ.ap v)).inverse = xv (φ.ap w)) ∧
    (∃ w, (xv u).project (xv v) = xv w ∧ (xv (φ.ap u)).project (xv (φ.ap v)) = xv (φ.ap w)) ∧
    (∃ w, (xv u).reflect (xv v) = xv w ∧ (xv (φ.ap u)).reflect (xv (φ.ap v)) = xv (φ.ap w)) ∧
    (∃ s, (xr r).normalize = xr s ∧ (xr (φ.apR r)).normalize = xr (φ.apR s)) := by
  have h0 : v.normSquared ≠ 0 := fun h => hv ((vec_normSquared_eq_zero _).1 h)
  have hs : Real.sqrt v.normSquared ≠ 0 := (Real.sqrt_ne_zero (vec_normSquared_nonneg _)).2 h0
  have hd := (C146_products φ u v ⟨0, 0, 0⟩ ⟨0, 0, 0⟩ ⟨0⟩ ⟨0⟩ ⟨0, ⟨0, 0, 0⟩⟩ ⟨0, ⟨0, 0, 0⟩⟩).1.1
  refine ⟨⟨v.divScalar (Real.sqrt v.normSquared), ?_, ?_⟩, ⟨v.divScalar v.normSquared, ?_, ?_⟩,
    ⟨(v.divScalar v.normSquared).scale (u.dot v), ?_, ?_⟩, ⟨(((v.divScalar v.normSquared).mul u).mulVector v).1, ?_, ?_⟩,
    ⟨r.divScalar (Real.sqrt r.normSquared), ?_, ?_⟩⟩
  · rw [Vector3.normalize, xv_norm, xv_div _ _ hs]
  · rw [Vector3.normalize, xv_norm, ap_normSquared, xv_div _ _ hs, ap_divScalar]
  · rw [Vector3.inverse, xv_normSquared, xv_div _ _ h0]
  · rw [Vector3.inverse, xv_normSquared, ap_normSquared, xv_div _ _ h0, ap_divScalar]
  · rw [Vector3.project, Vector3.inverse, xv_normSquared, xv_div _ _ h0, xv_dot, xv_scale]
  · rw [Vector3.project, Vector3.inverse, xv_normSquared, ap_normSquared, xv_div _ _ h0, xv_dot, xv_scale, hd, ap_divScalar,
      ap_scale]
  · unfold Vector3.reflect Vector3.reflectParts
    simp only []
    rw [Vector3.inverse, xv_normSquared, xv_div _ _ h0, xv_mul, xr_mulVector]
  · unfold Vector3.reflect Vector3.reflectParts
    simp only []
    rw [Vector3.inverse, xv_normSquared, ap_normSquared, xv_div _ _ h0, xv_mul, xr_mulVector, ap_divScalar]
    obtain ⟨_, _, h3, _⟩ := C146_products φ (v.divScalar v.normSquared) u ⟨0, 0, 0⟩ ⟨0, 0, 0⟩ ⟨0⟩ ⟨0⟩ ⟨0, ⟨0, 0, 0⟩⟩
      ⟨0, ⟨0, 0, 0⟩⟩
    rw [h3]
    obtain ⟨_, _, _, _, _, h6, _⟩ := C146_products φ v u ⟨0, 0, 0⟩ ⟨0, 0, 0⟩ ⟨0⟩ ⟨0⟩ ⟨0, ⟨0, 0, 0⟩⟩
      ((v.divScalar v.normSquared).mul u)
    rw [h6]
  · exact xr_normalize r fun h => hr ((rotor_normSquared_eq_zero r).1 h)
  · have h1 : (φ.apR r).normSquared ≠ 0 := by
      rw [apR_normSquared]
      exact fun h => hr ((rotor_normSquared_eq_zero r).1 h)
    rw [xr_normalize _ h1, apR_normSquared, apR_divScalar]

/-- **C146, planes and volumes.** Normalising and inverting bivectors and trivectors, and inverting rotors, commute with the
map. -/
theorem C146_quotients_graded (φ : Ortho) (b : Bivector3 ℝ) (hb : b ≠ Bivector3.zero) (t : Trivector3 ℝ)
    (ht : t ≠ Trivector3.zero) (r : Rotor3 ℝ) :
    (∃ c, (xb b).normalize = xb c ∧ (xb (φ.apB b)).normalize = xb (φ.apB c)) ∧
    (∃ c, (xb b).inverse = xb c ∧ (xb (φ.apB b)).inverse = xb (φ.apB c)) ∧
    (∃ s, (xt t).normalize = xt s ∧ (xt (φ.apT t)).normalize = xt (φ.apT s)) ∧
    (∃ s, (xt t).inverse = xt s ∧ (xt (φ.apT t)).inverse = xt (φ.apT s)) ∧
    (∃ s, (xr r).inverse = xr s ∧ (xr (φ.apR r)).inverse = xr (φ.apR s)) := by
  have h0 : b.normSquared ≠ 0 := fun h => hb ((biv_normSquared_eq_zero _).1 h)
  have hs : Real.sqrt b.normSquared ≠ 0 := (Real.sqrt_ne_zero (biv_normSquared_nonneg _)).2 h0
  have g0 : t.normSquared ≠ 0 := fun h => ht ((tri_normSquared_eq_zero _).1 h)
  have gs : Real.sqrt t.normSquared ≠ 0 := (Real.sqrt_ne_zero (tri_normSquared_nonneg _)).2 g0
  have htd : ∀ (s : Trivector3 ℝ) (k : ℝ), (φ.apT s).divScalar k = φ.apT (s.divScalar k) := by
    intro s k
    simp only [apT, Trivector3.divScalar]
    congr 1
    ring
  have htn : ∀ s : Trivector3 ℝ, (φ.apT s).neg = φ.apT s.neg := by
    intro s
    simp only [apT, Trivector3.neg]
    congr 1
    ring
  refine ⟨⟨b.divScalar (Real.sqrt b.normSquared), ?_, ?_⟩, ⟨b.neg.divScalar b.normSquared, ?_, ?_⟩,
    ⟨t.divScalar (Real.sqrt t.normSquared), ?_, ?_⟩, ⟨t.neg.divScalar t.normSquared, ?_, ?_⟩, ⟨r.inverse, xr_inverse r, ?_⟩⟩
  · rw [Bivector3.normalize, xb_norm, xb_div _ _ hs]
  · rw [Bivector3.normalize, xb_norm, apB_normSquared, xb_div _ _ hs, apB_divScalar]
  · rw [Bivector3.inverse, xb_normSquared, xb_neg, xb_div _ _ h0]
  · rw [Bivector3.inverse, xb_normSquared, xb_neg, apB_normSquared, xb_div _ _ h0, apB_neg, apB_divScalar]
  · rw [Trivector3.normalize, xt_norm, xt_div _ _ gs]
  · rw [Trivector3.normalize, xt_norm, apT_normSquared, xt_div _ _ gs, htd]
  · rw [Trivector3.inverse, xt_normSquared, xt_neg, xt_div _ _ g0]
  · rw [Trivector3.inverse, xt_normSquared, xt_neg, apT_normSquared, xt_div _ _ g0, htn, htd]
  · rw [xr_inverse, apR_inverse]

/-- **C146, constructors.** The rotor from one vector to another, and the rotor of an angle in a plane, are moved by the map; where
`from_vectors` gives NaN, it does so for the moved vectors as well. -/
theorem C146_constructors (φ : Ortho) (u v : Vector3 ℝ) (t : ℝ) (b : Bivector3 ℝ) :
    (¬ (u.dot v = -1 ∧ u.wedge v = Bivector3.zero) →
      ∃ r, Rotor3.fromVectors (xv u) (xv v) = xr r ∧ Rotor3.fromVectors (xv (φ.ap u)) (xv (φ.ap v)) = xr (φ.apR r)) ∧
    (u.dot v = -1 ∧ u.wedge v = Bivector3.zero → Rotor3.fromVectors (xv u) (xv v) = ⟨.nan, ⟨.nan, .nan, .nan⟩⟩ ∧
      Rotor3.fromVectors (xv (φ.ap u)) (xv (φ.ap v)) = ⟨.nan, ⟨.nan, .nan, .nan⟩⟩) ∧
    (∃ r, Rotor3.fromAnglePlane (.fin t) (xb b) = xr r ∧ Rotor3.fromAnglePlane (.fin t) (xb (φ.apB b)) = xr (φ.apR r)) := by
  have hh : halfway (φ.ap u) (φ.ap v) = φ.apR (halfway u v) := by
    obtain ⟨⟨h1, _⟩, ⟨h2, _⟩, _⟩ := C146_products φ v u ⟨0, 0, 0⟩ ⟨0, 0, 0⟩ ⟨0⟩ ⟨0⟩ ⟨0, ⟨0, 0, 0⟩⟩ ⟨0, ⟨0, 0, 0⟩⟩
    unfold halfway
    rw [h1, h2]
    rfl
  refine ⟨?_, ?_, ?_⟩
  · intro h
    have hne : halfway u v ≠ ⟨0, ⟨0, 0, 0⟩⟩ := by
      intro hc
      apply h
      have h1 := congrArg Rotor3.scalar hc
      have h2 := congrArg Rotor3.bivector hc
      simp only [halfway, Vector3.dot, Vector3.wedge, Bivector3.mk.injEq] at h1 h2
      simp only [Vector3.dot, Vector3.wedge, Bivector3.zero, Bivector3.mk.injEq]
      refine ⟨by linarith, by linarith, by linarith, by linarith⟩
    obtain ⟨_, _, _, _, s, h1, h2⟩ := C146_quotients φ u ⟨1, 0, 0⟩ (by simp [Vector3.zero]) _ hne
    exact ⟨s, by rw [fromVectors_eq, h1], by rw [fromVectors_eq, hh, h2]⟩
  · rintro ⟨h1, h2⟩
    have h3 : halfway u v = ⟨0, ⟨0, 0, 0⟩⟩ := by
      simp only [Vector3.dot, Vector3.wedge, Bivector3.zero, Bivector3.mk.injEq] at h1 h2
      simp only [halfway, Vector3.dot, Vector3.wedge, Rotor3.mk.injEq, Bivector3.mk.injEq]
      refine ⟨by linarith, by linarith, by linarith, by linarith⟩
    have h4 : φ.apR ⟨0, ⟨0, 0, 0⟩⟩ = ⟨0, ⟨0, 0, 0⟩⟩ := by simp [apR, apB]
    rw [fromVectors_eq, fromVectors_eq, hh, h3, h4]
    exact ⟨C09_normalize_zero.2.2.2, C09_normalize_zero.2.2.2⟩
  · refine ⟨anglePlane t b, fromAnglePlane_eq t b, ?_⟩
    rw [fromAnglePlane_eq]
    congr 1
    simp only [anglePlane, apR, apB, Bivector3.scale]
    congr 2 <;> ring

/-- a reflection that is not a permutation of the axes, and a rotation about an oblique axis -/
example : ∃ φ ψ : Ortho, φ.det = -1 ∧ ψ.det = 1 ∧ φ.ap ⟨1, 2, 3⟩ = ⟨11 / 5, -2 / 5, 3⟩ ∧
    ψ.ap ⟨3, 0, 0⟩ = ⟨2, 2, -1⟩ := by
  refine ⟨⟨⟨3 / 5, 4 / 5, 0⟩, ⟨4 / 5, -3 / 5, 0⟩, ⟨0, 0, 1⟩, ?_, ?_, ?_, ?_, ?_, ?_⟩,
    ⟨⟨2 / 3, 2 / 3, -1 / 3⟩, ⟨-1 / 3, 2 / 3, 2 / 3⟩, ⟨2 / 3, -1 / 3, 2 / 3⟩, ?_, ?_, ?_, ?_, ?_, ?_⟩, ?_, ?_, ?_, ?_⟩ <;>
  norm_num [det, ap]

end Kami.GA
