import Verif.GA.Model
import Mathlib.LinearAlgebra.CliffordAlgebra.Conjugation
import Mathlib.LinearAlgebra.QuadraticForm.Basic
import Mathlib.LinearAlgebra.Matrix.Notation
import Mathlib.LinearAlgebra.Complex.Module
import Mathlib.Data.Matrix.Basic
import Mathlib.Tactic.Module
import Mathlib.Tactic.NoncommRing
import Mathlib.Tactic.LinearCombination
/-!
# C01, C02: the products of the crate are the products of the Clifford algebra

The specification is Mathlib's `CliffordAlgebra` of the standard quadratic form of 3-space over a commutative ring:
the free algebra on vectors modulo `v * v = |v|^2`.  It knows nothing about the crate's component formulas.
-/

set_option autoImplicit false

namespace Kami.GA

open CliffordAlgebra

section Spec
variable (R : Type*) [CommRing R]

/-- The standard quadratic form `x₁² + x₂² + x₃²`. -/
noncomputable def Q : QuadraticForm R (Fin 3 → R) := QuadraticMap.weightedSumSquares R fun _ : Fin 3 => (1 : R)

/-- The Clifford algebra of 3-space. -/
abbrev Cl := CliffordAlgebra (Q R)

/-- Basis vector `eᵢ₊₁` of the Clifford algebra. -/
noncomputable def e (i : Fin 3) : Cl R := ι (Q R) (Pi.single i 1)

end Spec

section
variable {R : Type*} [CommRing R]

theorem Q_apply (x : Fin 3 → R) : Q R x = x 0 * x 0 + x 1 * x 1 + x 2 * x 2 := by
  simp [Q, QuadraticMap.weightedSumSquares_apply, Fin.sum_univ_three]

/-- The vector `a₁e₁ + a₂e₂ + a₃e₃` as an element of the Clifford algebra. -/
noncomputable def vec (u : Vector3 R) : Cl R := ι (Q R) ![u.a1, u.a2, u.a3]

/-- The bivector `b₁e₁₂ + b₂e₁₃ + b₃e₂₃`, with the basis announced in src/math/bivector.rs:16-23. -/
noncomputable def biv (b : Bivector3 R) : Cl R :=
  b.b1 • (e R 0 * e R 1) + b.b2 • (e R 0 * e R 2) + b.b3 • (e R 1 * e R 2)

/-- The trivector `t₁e₁₂₃`. -/
noncomputable def tri (t : Trivector3 R) : Cl R := t.t1 • (e R 0 * e R 1 * e R 2)

/-- Scalar plus bivector. -/
noncomputable def rot (r : Rotor3 R) : Cl R := algebraMap R _ r.scalar + biv r.bivector

theorem vec_eq (u : Vector3 R) : vec u = u.a1 • e R 0 + u.a2 • e R 1 + u.a3 • e R 2 := by
  simp only [vec, e, ← map_smul, ← map_add]
  congr 1
  funext i
  fin_cases i <;> simp

theorem e_sq (i : Fin 3) : e R i * e R i = 1 := by
  rw [e, ι_sq_scalar, Q_apply]
  fin_cases i <;> simp

theorem e_anti {i j : Fin 3} (h : i ≠ j) : e R i * e R j = -(e R j * e R i) := by
  have := ι_mul_ι_add_swap (Q := Q R) (Pi.single i 1) (Pi.single j 1)
  rw [eq_neg_iff_add_eq_zero, e, e, this]
  have : QuadraticMap.polar (Q R) (Pi.single i 1) (Pi.single j 1) = 0 := by
    simp only [QuadraticMap.polar, Q_apply]
    fin_cases i <;> fin_cases j <;> simp at h ⊢
  rw [this, map_zero]

theorem e10 : e R 1 * e R 0 = -(e R 0 * e R 1) := e_anti (by decide)
theorem e20 : e R 2 * e R 0 = -(e R 0 * e R 2) := e_anti (by decide)
theorem e21 : e R 2 * e R 1 = -(e R 1 * e R 2) := e_anti (by decide)
theorem e10' (x : Cl R) : e R 1 * (e R 0 * x) = -(e R 0 * (e R 1 * x)) := by
  rw [← mul_assoc, e10, neg_mul, mul_assoc]
theorem e20' (x : Cl R) : e R 2 * (e R 0 * x) = -(e R 0 * (e R 2 * x)) := by
  rw [← mul_assoc, e20, neg_mul, mul_assoc]
theorem e21' (x : Cl R) : e R 2 * (e R 1 * x) = -(e R 1 * (e R 2 * x)) := by
  rw [← mul_assoc, e21, neg_mul, mul_assoc]
theorem e_sq' (i : Fin 3) (x : Cl R) : e R i * (e R i * x) = x := by
  rw [← mul_assoc, e_sq, one_mul]

/-- expand a product of graded elements into the basis -/
macro "clifford" : tactic => `(tactic|
  (simp only [vec_eq, biv, tri, rot, Algebra.algebraMap_eq_smul_one, mul_add, add_mul, smul_mul_assoc, mul_smul_comm, smul_smul,
     mul_assoc, e10, e20, e21, e10', e20', e21', e_sq, e_sq', mul_neg, neg_mul, neg_neg, mul_one, one_mul, smul_neg]
   module))

/-! ### The products -/

/-- C01: `u * v` is the geometric product. -/
theorem C01_vector_mul_vector (u v : Vector3 R) : rot (u.mul v) = vec u * vec v := by
  simp only [Vector3.mul, Vector3.dot, Vector3.wedge]
  clifford

/-- C02: vector * bivector. -/
theorem C02_vector_mul_bivector (u : Vector3 R) (b : Bivector3 R) :
    vec (u.mulBivector b).1 + tri (u.mulBivector b).2 = vec u * biv b := by
  simp only [Vector3.mulBivector]
  clifford

/-- C02: bivector * bivector. -/
theorem C02_bivector_mul_bivector (b c : Bivector3 R) : rot (b.mul c) = biv b * biv c := by
  simp only [Bivector3.mul]
  clifford

/-- C02: rotor * vector. -/
theorem C02_rotor_mul_vector (r : Rotor3 R) (u : Vector3 R) :
    vec (r.mulVector u).1 + tri (r.mulVector u).2 = rot r * vec u := by
  simp only [Rotor3.mulVector]
  clifford

/-- C02: rotor * rotor. -/
theorem C02_rotor_mul_rotor (r s : Rotor3 R) : rot (r.mul s) = rot r * rot s := by
  simp only [Rotor3.mul]
  clifford

/-- C02: trivector * trivector. -/
theorem C02_trivector_mul_trivector (s t : Trivector3 R) : algebraMap R (Cl R) (s.mul t) = tri s * tri t := by
  simp only [Trivector3.mul]
  clifford

/-- C01: the scalar and the bivector part separately: `uv = u·v + u∧v`. -/
theorem C01_dot_plus_wedge (u v : Vector3 R) :
    vec u * vec v = algebraMap R (Cl R) (u.dot v) + biv (u.wedge v) := by
  simp only [Vector3.dot, Vector3.wedge]
  clifford

/-- C02: `B.wedge(u)` is the trivector part of the geometric product of a bivector and a vector. -/
theorem C02_bivector_wedge_vector (b : Bivector3 R) (u : Vector3 R) :
    ∃ w : Vector3 R, biv b * vec u = vec w + tri (b.wedgeVector u) := by
  refine ⟨⟨b.b1 * u.a2 + b.b2 * u.a3, b.b3 * u.a3 - b.b1 * u.a1, -b.b2 * u.a1 - b.b3 * u.a2⟩, ?_⟩
  simp only [Bivector3.wedgeVector]
  clifford

/-- C02: `dot` and `wedge` of two bivectors are the scalar and the bivector part of their product. -/
theorem C02_bivector_dot_wedge (b c : Bivector3 R) :
    biv b * biv c = algebraMap R (Cl R) (b.dot c) + biv (b.wedge c) := by
  simp only [Bivector3.dot, Bivector3.wedge]
  clifford

/-- C02: `dot` of two trivectors is their (scalar) product. -/
theorem C02_trivector_dot (s t : Trivector3 R) : tri s * tri t = algebraMap R (Cl R) (s.dot t) := by
  simp only [Trivector3.dot]
  clifford

/-- **C81.** Negation, addition and subtraction of every type are those of the Clifford algebra. -/
theorem C81_additive (u v : Vector3 R) (b c : Bivector3 R) (s t : Trivector3 R) (q r : Rotor3 R) :
    (vec u.neg = -vec u ∧ vec (u.add v) = vec u + vec v ∧ vec (u.sub v) = vec u - vec v) ∧
    (biv b.neg = -biv b ∧ biv (b.add c) = biv b + biv c ∧ biv (b.sub c) = biv b - biv c) ∧
    (tri s.neg = -tri s ∧ tri (s.add t) = tri s + tri t ∧ tri (s.sub t) = tri s - tri t) ∧
    (rot q.neg = -rot q ∧ rot (q.add r) = rot q + rot r ∧ rot (q.sub r) = rot q - rot r) := by
  refine ⟨⟨?_, ?_, ?_⟩, ⟨?_, ?_, ?_⟩, ⟨?_, ?_, ?_⟩, ⟨?_, ?_, ?_⟩⟩ <;>
    simp only [Vector3.neg, Vector3.add, Vector3.sub, Bivector3.neg, Bivector3.add, Bivector3.sub, Trivector3.neg,
      Trivector3.add, Trivector3.sub, Rotor3.neg, Rotor3.add, Rotor3.sub] <;>
    clifford

/-- **C81, rotations.** A rotor and its negative are the same rotation, and negation is an involution that cancels under
addition. -/
theorem C81_rotation (q : Rotor3 R) (u : Vector3 R) :
    q.neg.rotate u = q.rotate u ∧ q.neg.neg = q ∧ q.add q.neg = ⟨0, Bivector3.zero⟩ := by
  refine ⟨?_, ?_, ?_⟩
  · simp only [Rotor3.rotate, Rotor3.neg, Bivector3.neg, Vector3.mk.injEq]
    refine ⟨?_, ?_, ?_⟩ <;> ring
  · simp [Rotor3.neg, Bivector3.neg]
  · simp [Rotor3.neg, Rotor3.add, Bivector3.neg, Bivector3.add, Bivector3.zero]

example : (⟨2, ⟨1, -3, 5⟩⟩ : Rotor3 ℤ).neg.rotate ⟨1, 2, 3⟩ = (⟨2, ⟨1, -3, 5⟩⟩ : Rotor3 ℤ).rotate ⟨1, 2, 3⟩ ∧
    (⟨2, ⟨1, -3, 5⟩⟩ : Rotor3 ℤ).rotate ⟨1, 2, 3⟩ ≠ ⟨0, 0, 0⟩ := by decide

/-- **C100.** The unit constructors are the basis elements of the Clifford algebra: `e₁, e₂, e₃`, their products and `1`. -/
theorem C100_units :
    (vec (Vector3.unitX : Vector3 R) = e R 0 ∧ vec (Vector3.unitY : Vector3 R) = e R 1 ∧
      vec (Vector3.unitZ : Vector3 R) = e R 2) ∧
    (biv (Bivector3.unitXY : Bivector3 R) = e R 0 * e R 1 ∧ biv (Bivector3.unitXZ : Bivector3 R) = e R 0 * e R 2 ∧
      biv (Bivector3.unitYZ : Bivector3 R) = e R 1 * e R 2) ∧
    tri (Trivector3.unitXYZ : Trivector3 R) = e R 0 * e R 1 * e R 2 ∧ rot (Rotor3.identity : Rotor3 R) = 1 ∧
    vec (Vector3.zero : Vector3 R) = 0 ∧ biv (Bivector3.zero : Bivector3 R) = 0 ∧ tri (Trivector3.zero : Trivector3 R) = 0 := by
  refine ⟨⟨?_, ?_, ?_⟩, ⟨?_, ?_, ?_⟩, ?_, ?_, ?_, ?_, ?_⟩ <;>
    simp [vec_eq, biv, tri, rot, Vector3.unitX, Vector3.unitY, Vector3.unitZ, Bivector3.unitXY, Bivector3.unitXZ,
      Bivector3.unitYZ, Trivector3.unitXYZ, Rotor3.identity, Vector3.zero, Bivector3.zero, Trivector3.zero]

/-- **C100, components.** The components of a vector, bivector or trivector are its coefficients in the unit elements, in the
arithmetic of the code, and the unit bivectors and trivector are the wedge products of the unit vectors. -/
theorem C100_components (u : Vector3 R) (b : Bivector3 R) (t : Trivector3 R) :
    ((Vector3.unitX.scale u.a1).add (Vector3.unitY.scale u.a2)).add (Vector3.unitZ.scale u.a3) = u ∧
    ((Bivector3.unitXY.scale b.b1).add (Bivector3.unitXZ.scale b.b2)).add (Bivector3.unitYZ.scale b.b3) = b ∧
    (⟨Trivector3.unitXYZ.t1 * t.t1⟩ : Trivector3 R) = t ∧
    (u.dot Vector3.unitX = u.a1 ∧ u.dot Vector3.unitY = u.a2 ∧ u.dot Vector3.unitZ = u.a3) ∧
    (Vector3.unitX.wedge Vector3.unitY = (Bivector3.unitXY : Bivector3 R) ∧
      Vector3.unitX.wedge Vector3.unitZ = (Bivector3.unitXZ : Bivector3 R) ∧
      Vector3.unitY.wedge Vector3.unitZ = (Bivector3.unitYZ : Bivector3 R)) ∧
    (Vector3.unitX.wedge (Vector3.unitY : Vector3 R)).wedgeVector Vector3.unitZ = Trivector3.unitXYZ := by
  simp [Vector3.unitX, Vector3.unitY, Vector3.unitZ, Bivector3.unitXY, Bivector3.unitXZ, Bivector3.unitYZ, Trivector3.unitXYZ,
    Vector3.add, Vector3.scale, Bivector3.add, Bivector3.scale, Vector3.dot, Vector3.wedge, Bivector3.wedgeVector]

/-- C04: `rotate` is the sandwich product `R u R†`. -/
theorem C04_rotate_sandwich (r : Rotor3 R) (u : Vector3 R) :
    vec (r.rotate u) = rot r * vec u * rot r.inverse := by
  simp only [Rotor3.rotate, Rotor3.inverse, Bivector3.neg]
  clifford

/-- C04: `inverse()` of a rotor is the reversion of the Clifford algebra. -/
theorem C04_inverse_is_reverse (r : Rotor3 R) : reverse (rot r) = rot r.inverse := by
  have he : ∀ i, reverse (e R i) = e R i := fun i => reverse_ι _
  simp only [rot, biv, Rotor3.inverse, Bivector3.neg, map_add, map_smul, reverse.map_mul, reverse.commutes, he,
    e10, e20, e21]
  module

end

/-! ### Faithfulness over the reals -/

open Complex in
/-- The Pauli matrices as the image of a real 3-vector. -/
noncomputable def pauli : (Fin 3 → ℝ) →ₗ[ℝ] Matrix (Fin 2) (Fin 2) ℂ where
  toFun x := !![(x 2 : ℂ), x 0 - x 1 * I; x 0 + x 1 * I, -x 2]
  map_add' x y := by
    ext i j; fin_cases i <;> fin_cases j <;> simp <;> ring
  map_smul' c x := by
    ext i j; fin_cases i <;> fin_cases j <;> simp <;> ring

theorem pauli_sq (x : Fin 3 → ℝ) : pauli x * pauli x = algebraMap ℝ _ (Q ℝ x) := by
  rw [Q_apply, Algebra.algebraMap_eq_smul_one]
  ext i j
  fin_cases i <;> fin_cases j <;>
    simp [pauli, Matrix.mul_apply, Fin.sum_univ_two] <;> ring_nf <;> simp

/-- The representation of the Clifford algebra by complex 2x2 matrices. -/
noncomputable def rep : Cl ℝ →ₐ[ℝ] Matrix (Fin 2) (Fin 2) ℂ := lift (Q ℝ) ⟨pauli, pauli_sq⟩

theorem rep_vec (u : Vector3 ℝ) : rep (vec u) = pauli ![u.a1, u.a2, u.a3] := by
  simp [rep, vec]

theorem rep_e (i : Fin 3) : rep (e ℝ i) = pauli (Pi.single i 1) := by
  simp [rep, e]

open Complex in
/-- The four graded parts of an element of the Clifford algebra determine each other: the embedding of
scalar, vector, bivector and trivector components is injective. -/
theorem graded_injective (s s' : ℝ) (u u' : Vector3 ℝ) (b b' : Bivector3 ℝ) (t t' : Trivector3 ℝ)
    (h : algebraMap ℝ (Cl ℝ) s + vec u + biv b + tri t = algebraMap ℝ (Cl ℝ) s' + vec u' + biv b' + tri t') :
    s = s' ∧ u = u' ∧ b = b' ∧ t = t' := by
  have h := congrArg rep h
  simp only [map_add, rep_vec, biv, tri, map_smul, map_mul, rep_e,
    Algebra.algebraMap_eq_smul_one] at h
  have h00 := congrFun (congrFun h 0) 0
  have h01 := congrFun (congrFun h 0) 1
  have h10 := congrFun (congrFun h 1) 0
  have h11 := congrFun (congrFun h 1) 1
  simp [pauli, Complex.ext_iff] at h00 h01 h10 h11
  obtain ⟨a, b⟩ := h00
  obtain ⟨c, d⟩ := h01
  obtain ⟨e, f⟩ := h10
  obtain ⟨g, k⟩ := h11
  refine ⟨by linarith, ?_, ?_, ?_⟩
  · ext <;> linarith
  · ext <;> linarith
  · ext; linarith

theorem rot_injective {r s : Rotor3 ℝ} (h : rot r = rot s) : r = s := by
  have h' : algebraMap ℝ (Cl ℝ) r.scalar + vec ⟨0, 0, 0⟩ + biv r.bivector + tri ⟨0⟩
      = algebraMap ℝ (Cl ℝ) s.scalar + vec ⟨0, 0, 0⟩ + biv s.bivector + tri ⟨0⟩ := by
    simp only [rot] at h
    rw [add_right_comm (algebraMap _ _ r.scalar), h, add_right_comm (algebraMap _ _ s.scalar)]
  obtain ⟨h1, -, h2, -⟩ := graded_injective _ _ _ _ _ _ _ _ h'
  exact Rotor3.ext h1 h2

theorem vec_tri_injective {u v : Vector3 ℝ} {s t : Trivector3 ℝ} (h : vec u + tri s = vec v + tri t) :
    u = v ∧ s = t := by
  have h' : algebraMap ℝ (Cl ℝ) 0 + vec u + biv ⟨0, 0, 0⟩ + tri s
      = algebraMap ℝ (Cl ℝ) 0 + vec v + biv ⟨0, 0, 0⟩ + tri t := by
    rw [add_right_comm, add_assoc _ (vec u), h, ← add_assoc, add_right_comm]
  obtain ⟨-, h1, -, h2⟩ := graded_injective _ _ _ _ _ _ _ _ h'
  exact ⟨h1, h2⟩

/-- C01: over the reals `u * v` is the only rotor representing the Clifford product. -/
theorem C01_unique (u v : Vector3 ℝ) (r : Rotor3 ℝ) : rot r = vec u * vec v ↔ r = u.mul v := by
  rw [← C01_vector_mul_vector]
  exact ⟨rot_injective, fun h => by rw [h]⟩

/-- C02: over the reals the product operators are determined by the Clifford product. -/
theorem C02_unique (u w : Vector3 ℝ) (b c : Bivector3 ℝ) (r s q : Rotor3 ℝ) (t : Trivector3 ℝ) :
    (vec w + tri t = vec u * biv b ↔ (w, t) = u.mulBivector b) ∧
    (rot q = biv b * biv c ↔ q = b.mul c) ∧
    (vec w + tri t = rot r * vec u ↔ (w, t) = r.mulVector u) ∧
    (rot q = rot r * rot s ↔ q = r.mul s) ∧
    ((∃ w, biv b * vec u = vec w + tri t) ↔ t = b.wedgeVector u) := by
  refine ⟨?_, ?_, ?_, ?_, ?_⟩
  · rw [← C02_vector_mul_bivector]
    exact ⟨fun h => Prod.ext (vec_tri_injective h).1 (vec_tri_injective h).2, fun h => by rw [← h]⟩
  · rw [← C02_bivector_mul_bivector]
    exact ⟨rot_injective, fun h => by rw [h]⟩
  · rw [← C02_rotor_mul_vector]
    exact ⟨fun h => Prod.ext (vec_tri_injective h).1 (vec_tri_injective h).2, fun h => by rw [← h]⟩
  · rw [← C02_rotor_mul_rotor]
    exact ⟨rot_injective, fun h => by rw [h]⟩
  · obtain ⟨w₀, h₀⟩ := C02_bivector_wedge_vector b u
    constructor
    · rintro ⟨w, h⟩
      exact (vec_tri_injective (h.symm.trans h₀)).2
    · rintro rfl
      exact ⟨w₀, h₀⟩

/-- The statements above are about genuinely different graded parts: `e₁e₂` is not a scalar. -/
example : (⟨1, 0, 0⟩ : Vector3 ℝ).mul ⟨0, 1, 0⟩ = ⟨0, ⟨1, 0, 0⟩⟩ ∧
    rot (⟨0, ⟨1, 0, 0⟩⟩ : Rotor3 ℝ) ≠ rot ⟨0, ⟨0, 0, 0⟩⟩ := by
  constructor
  · simp [Vector3.mul, Vector3.dot, Vector3.wedge]
  · intro h
    have := rot_injective h
    simp at this

end Kami.GA
