import Verif.GA.Model
import Verif.Num.XReal
import Mathlib.Tactic.Ring
import Mathlib.Tactic.FieldSimp
import Mathlib.Tactic.LinearCombination
import Mathlib.LinearAlgebra.Matrix.Determinant.Basic
/-!
# C03-C12, C14, C15: algebraic properties

Polynomial identities are proved over every commutative ring.  Statements involving division or square roots are
proved of the code run on `XReal` (exact reals with NaN and infinities): the operands are embedded reals, the results
are shown to be embedded reals with the stated property, or NaN.
-/

set_option autoImplicit false

namespace Kami.GA

open Kami

/-! ## Embedding of real operands -/

/-- apply a function to every component -/
def Vector3.map {A B : Type} (f : A → B) (u : Vector3 A) : Vector3 B := ⟨f u.a1, f u.a2, f u.a3⟩
/-- apply a function to every component -/
def Bivector3.map {A B : Type} (f : A → B) (u : Bivector3 A) : Bivector3 B := ⟨f u.b1, f u.b2, f u.b3⟩
/-- apply a function to every component -/
def Trivector3.map {A B : Type} (f : A → B) (u : Trivector3 A) : Trivector3 B := ⟨f u.t1⟩
/-- apply a function to every component -/
def Rotor3.map {A B : Type} (f : A → B) (u : Rotor3 A) : Rotor3 B := ⟨f u.scalar, Bivector3.map f u.bivector⟩

/-- a real vector as an operand of the code -/
def xv (u : Vector3 ℝ) : Vector3 XReal := Vector3.map XReal.fin u
/-- a real bivector as an operand of the code -/
def xb (u : Bivector3 ℝ) : Bivector3 XReal := Bivector3.map XReal.fin u
/-- a real trivector as an operand of the code -/
def xt (u : Trivector3 ℝ) : Trivector3 XReal := Trivector3.map XReal.fin u
/-- a real rotor as an operand of the code -/
def xr (u : Rotor3 ℝ) : Rotor3 XReal := Rotor3.map XReal.fin u

theorem xv_inj {u v : Vector3 ℝ} (h : xv u = xv v) : u = v := by
  simp only [xv, Vector3.map, Vector3.mk.injEq, XReal.fin.injEq] at h
  exact Vector3.ext h.1 h.2.1 h.2.2

section Transfer
variable (u v : Vector3 ℝ) (b c : Bivector3 ℝ) (t : Trivector3 ℝ) (r s : Rotor3 ℝ) (k : ℝ)

theorem xv_dot : (xv u).dot (xv v) = .fin (u.dot v) := by simp [xv, Vector3.map, Vector3.dot]
theorem xv_wedge : (xv u).wedge (xv v) = xb (u.wedge v) := by
  simp [xv, xb, Vector3.map, Vector3.wedge, Bivector3.map]
theorem xv_mul : (xv u).mul (xv v) = xr (u.mul v) := by
  simp [Vector3.mul, xv_dot, xv_wedge, xr, Rotor3.map, xb]
theorem xv_scale : (xv u).scale (.fin k) = xv (u.scale k) := by simp [xv, Vector3.map, Vector3.scale]
theorem xv_add : (xv u).add (xv v) = xv (u.add v) := by simp [xv, Vector3.map, Vector3.add]
theorem xv_sub : (xv u).sub (xv v) = xv (u.sub v) := by simp [xv, Vector3.map, Vector3.sub]
theorem xv_div (h : k ≠ 0) : (xv u).divScalar (.fin k) = xv (u.divScalar k) := by
  simp [xv, Vector3.map, Vector3.divScalar, XReal.fin_div _ _ h]
theorem xb_div (h : k ≠ 0) : (xb b).divScalar (.fin k) = xb (b.divScalar k) := by
  simp [xb, Bivector3.map, Bivector3.divScalar, XReal.fin_div _ _ h]
theorem xt_div (h : k ≠ 0) : (xt t).divScalar (.fin k) = xt (t.divScalar k) := by
  simp [xt, Trivector3.map, Trivector3.divScalar, XReal.fin_div _ _ h]
theorem xr_div (h : k ≠ 0) : (xr r).divScalar (.fin k) = xr (r.divScalar k) := by
  simp only [xr, Rotor3.map, Rotor3.divScalar, XReal.fin_div _ _ h, Rotor3.mk.injEq, true_and]
  exact xb_div _ _ h
theorem xb_neg : (xb b).neg = xb b.neg := by simp [xb, Bivector3.map, Bivector3.neg]
theorem xb_scale : (xb b).scale (.fin k) = xb (b.scale k) := by simp [xb, Bivector3.map, Bivector3.scale]
theorem xt_neg : (xt t).neg = xt t.neg := by simp [xt, Trivector3.map, Trivector3.neg]
theorem xv_normSquared : (xv u).normSquared = .fin u.normSquared := xv_dot u u
theorem xb_normSquared : (xb b).normSquared = .fin b.normSquared := by
  simp [Bivector3.normSquared, Bivector3.dot, xb, Bivector3.map, Bivector3.neg]
theorem xt_normSquared : (xt t).normSquared = .fin t.normSquared := by
  simp [Trivector3.normSquared, Trivector3.dot, xt, Trivector3.map, Trivector3.neg]
theorem xr_normSquared : (xr r).normSquared = .fin r.normSquared := by
  simp [Rotor3.normSquared, Rotor3.inverse, Rotor3.dot, Bivector3.dot, xr, Rotor3.map, Bivector3.map, Bivector3.neg]
theorem xb_mul : (xb b).mul (xb c) = xr (b.mul c) := by
  simp [Bivector3.mul, xb, xr, Rotor3.map, Bivector3.map]
theorem xr_mul : (xr r).mul (xr s) = xr (r.mul s) := by
  simp [Rotor3.mul, xr, Rotor3.map, Bivector3.map]
theorem xr_mulVector : (xr r).mulVector (xv u) = (xv (r.mulVector u).1, xt (r.mulVector u).2) := by
  simp [Rotor3.mulVector, xr, xv, xt, Rotor3.map, Bivector3.map, Vector3.map, Trivector3.map]
theorem xr_inverse : (xr r).inverse = xr r.inverse := by
  simp [Rotor3.inverse, xr, Rotor3.map, Bivector3.map, Bivector3.neg]
theorem xr_rotate : (xr r).rotate (xv u) = xv (r.rotate u) := by
  simp [Rotor3.rotate, xr, xv, Rotor3.map, Bivector3.map, Vector3.map]

end Transfer

theorem vec_normSquared_eq (u : Vector3 ℝ) : u.normSquared = u.a1 ^ 2 + u.a2 ^ 2 + u.a3 ^ 2 := by
  simp [Vector3.normSquared, Vector3.dot]; ring
theorem biv_normSquared_eq (b : Bivector3 ℝ) : b.normSquared = b.b1 ^ 2 + b.b2 ^ 2 + b.b3 ^ 2 := by
  simp [Bivector3.normSquared, Bivector3.dot, Bivector3.neg]; ring
theorem tri_normSquared_eq (t : Trivector3 ℝ) : t.normSquared = t.t1 ^ 2 := by
  simp [Trivector3.normSquared, Trivector3.dot, Trivector3.neg]; ring
theorem rotor_normSquared_eq (r : Rotor3 ℝ) :
    r.normSquared = r.scalar ^ 2 + r.bivector.b1 ^ 2 + r.bivector.b2 ^ 2 + r.bivector.b3 ^ 2 := by
  simp [Rotor3.normSquared, Rotor3.inverse, Rotor3.dot, Bivector3.dot, Bivector3.neg]; ring

theorem vec_normSquared_nonneg (u : Vector3 ℝ) : 0 ≤ u.normSquared := by rw [vec_normSquared_eq]; positivity
theorem biv_normSquared_nonneg (b : Bivector3 ℝ) : 0 ≤ b.normSquared := by rw [biv_normSquared_eq]; positivity
theorem tri_normSquared_nonneg (t : Trivector3 ℝ) : 0 ≤ t.normSquared := by rw [tri_normSquared_eq]; positivity
theorem rotor_normSquared_nonneg (r : Rotor3 ℝ) : 0 ≤ r.normSquared := by rw [rotor_normSquared_eq]; positivity

theorem vec_normSquared_eq_zero (u : Vector3 ℝ) : u.normSquared = 0 ↔ u = Vector3.zero := by
  rw [vec_normSquared_eq]
  constructor
  · intro h
    have h1 := sq_nonneg u.a1; have h2 := sq_nonneg u.a2; have h3 := sq_nonneg u.a3
    ext
    · exact pow_eq_zero_iff (two_ne_zero) |>.1 (by linarith)
    · exact pow_eq_zero_iff (two_ne_zero) |>.1 (by linarith)
    · exact pow_eq_zero_iff (two_ne_zero) |>.1 (by linarith)
  · rintro rfl; simp [Vector3.zero]
theorem biv_normSquared_eq_zero (u : Bivector3 ℝ) : u.normSquared = 0 ↔ u = Bivector3.zero := by
  rw [biv_normSquared_eq]
  constructor
  · intro h
    have h1 := sq_nonneg u.b1; have h2 := sq_nonneg u.b2; have h3 := sq_nonneg u.b3
    ext
    · exact pow_eq_zero_iff (two_ne_zero) |>.1 (by linarith)
    · exact pow_eq_zero_iff (two_ne_zero) |>.1 (by linarith)
    · exact pow_eq_zero_iff (two_ne_zero) |>.1 (by linarith)
  · rintro rfl; simp [Bivector3.zero]
theorem tri_normSquared_eq_zero (t : Trivector3 ℝ) : t.normSquared = 0 ↔ t = Trivector3.zero := by
  rw [tri_normSquared_eq]
  constructor
  · intro h; ext; exact pow_eq_zero_iff (two_ne_zero) |>.1 h
  · rintro rfl; simp [Trivector3.zero]
theorem rotor_normSquared_eq_zero (r : Rotor3 ℝ) : r.normSquared = 0 ↔ r = ⟨0, ⟨0, 0, 0⟩⟩ := by
  rw [rotor_normSquared_eq]
  constructor
  · intro h
    have h0 := sq_nonneg r.scalar
    have h1 := sq_nonneg r.bivector.b1; have h2 := sq_nonneg r.bivector.b2; have h3 := sq_nonneg r.bivector.b3
    ext
    · exact pow_eq_zero_iff (two_ne_zero) |>.1 (by linarith)
    · exact pow_eq_zero_iff (two_ne_zero) |>.1 (by linarith)
    · exact pow_eq_zero_iff (two_ne_zero) |>.1 (by linarith)
    · exact pow_eq_zero_iff (two_ne_zero) |>.1 (by linarith)
  · rintro rfl; simp

/-! ## C03: rotor products compose -/
section Ring
variable {R : Type} [CommRing R]

/-- C03: the right factor acts first. -/
theorem C03_rotate_mul (r s : Rotor3 R) (u : Vector3 R) : (r.mul s).rotate u = r.rotate (s.rotate u) := by
  ext <;> simp only [Rotor3.mul, Rotor3.rotate] <;> ring

/-- C03: associativity. -/
theorem C03_mul_assoc (r s q : Rotor3 R) : (r.mul s).mul q = r.mul (s.mul q) := by
  ext <;> simp only [Rotor3.mul] <;> ring

/-- C03: `identity()` is a two-sided unit and rotates nothing. -/
theorem C03_identity (r : Rotor3 R) (u : Vector3 R) :
    (Rotor3.identity : Rotor3 R).mul r = r ∧ r.mul Rotor3.identity = r ∧
      (Rotor3.identity : Rotor3 R).rotate u = u := by
  refine ⟨?_, ?_, ?_⟩ <;> ext <;> simp [Rotor3.mul, Rotor3.rotate, Rotor3.identity, Bivector3.zero]

/-- The order matters: the quarter turns `e₁ → e₂` and `e₂ → e₃` (up to scaling) do not commute. -/
example : (⟨1, ⟨-1, 0, 0⟩⟩ : Rotor3 ℤ).mul ⟨1, ⟨0, 0, -1⟩⟩ ≠ (⟨1, ⟨0, 0, -1⟩⟩ : Rotor3 ℤ).mul ⟨1, ⟨-1, 0, 0⟩⟩ ∧
    (⟨1, ⟨-1, 0, 0⟩⟩ : Rotor3 ℤ).rotate ⟨1, 0, 0⟩ = ⟨0, 2, 0⟩ := by decide

/-! ## C04: rotations -/

/-- C04: linearity. -/
theorem C04_rotate_linear (r : Rotor3 R) (u v : Vector3 R) (k : R) :
    r.rotate (u.add v) = (r.rotate u).add (r.rotate v) ∧ r.rotate (u.scale k) = (r.rotate u).scale k := by
  constructor <;> ext <;> simp only [Rotor3.rotate, Vector3.add, Vector3.scale] <;> ring

/-- C04: inner products are multiplied by `|R|^4`. -/
theorem C04_rotate_dot (r : Rotor3 R) (u v : Vector3 R) :
    (r.rotate u).dot (r.rotate v) = r.normSquared ^ 2 * u.dot v := by
  simp only [Rotor3.rotate, Vector3.dot, Rotor3.normSquared, Rotor3.inverse, Rotor3.dot, Bivector3.dot, Bivector3.neg]
  ring

/-- C04: signed volumes are multiplied by `|R|^6`. -/
theorem C04_rotate_det (r : Rotor3 R) (u v w : Vector3 R) :
    Matrix.det !![(r.rotate u).a1, (r.rotate u).a2, (r.rotate u).a3;
                  (r.rotate v).a1, (r.rotate v).a2, (r.rotate v).a3;
                  (r.rotate w).a1, (r.rotate w).a2, (r.rotate w).a3]
      = r.normSquared ^ 3 * Matrix.det !![u.a1, u.a2, u.a3; v.a1, v.a2, v.a3; w.a1, w.a2, w.a3] := by
  simp only [Matrix.det_fin_three, Matrix.of_apply, Matrix.cons_val', Matrix.cons_val_zero, Matrix.cons_val_one,
    Matrix.cons_val, Matrix.cons_val_fin_one, Rotor3.rotate, Rotor3.normSquared, Rotor3.inverse, Rotor3.dot,
    Bivector3.dot, Bivector3.neg]
  ring

/-- C04: a unit rotor preserves inner products (hence lengths and angles) and signed volumes (handedness). -/
theorem C04_unit_rotor (r : Rotor3 R) (h : r.normSquared = 1) (u v w : Vector3 R) :
    (r.rotate u).dot (r.rotate v) = u.dot v ∧
    (r.rotate u).normSquared = u.normSquared ∧
    Matrix.det !![(r.rotate u).a1, (r.rotate u).a2, (r.rotate u).a3;
                  (r.rotate v).a1, (r.rotate v).a2, (r.rotate v).a3;
                  (r.rotate w).a1, (r.rotate w).a2, (r.rotate w).a3]
      = Matrix.det !![u.a1, u.a2, u.a3; v.a1, v.a2, v.a3; w.a1, w.a2, w.a3] := by
  refine ⟨?_, ?_, ?_⟩
  · rw [C04_rotate_dot, h]; ring
  · rw [Vector3.normSquared, C04_rotate_dot, h, Vector3.normSquared]; ring
  · rw [C04_rotate_det, h]; ring

/-- norms of rotors multiply, so unit rotors are closed under composition -/
theorem C04_norm_mul (r s : Rotor3 R) : (r.mul s).normSquared = r.normSquared * s.normSquared := by
  simp only [Rotor3.mul, Rotor3.normSquared, Rotor3.inverse, Rotor3.dot, Bivector3.dot, Bivector3.neg]; ring

/-- A unit rotor with four non-zero components (over ℚ) satisfying the hypothesis of `C04_unit_rotor`. -/
example : (⟨1/2, ⟨1/2, -1/2, 1/2⟩⟩ : Rotor3 ℚ).normSquared = 1 ∧
    (⟨1/2, ⟨1/2, -1/2, 1/2⟩⟩ : Rotor3 ℚ).rotate ⟨1, 2, 3⟩ ≠ ⟨1, 2, 3⟩ := by
  norm_num [Rotor3.normSquared, Rotor3.inverse, Rotor3.dot, Bivector3.dot, Bivector3.neg, Rotor3.rotate]

/-! ## C08: rotor inverse -/

/-- C08, partial: `R.inverse() * R` and `R * R.inverse()` are the scalar `|R|²`; it is the identity exactly for
unit rotors.  The full claim (for every non-zero rotor) is false, see `C08_counterexample`. -/
theorem C08_inverse_mul_partial (r : Rotor3 R) :
    r.inverse.mul r = ⟨r.normSquared, ⟨0, 0, 0⟩⟩ ∧ r.mul r.inverse = ⟨r.normSquared, ⟨0, 0, 0⟩⟩ ∧
    (r.inverse.mul r = Rotor3.identity ↔ r.normSquared = 1) := by
  have h : r.inverse.mul r = ⟨r.normSquared, ⟨0, 0, 0⟩⟩ := by
    ext <;> simp only [Rotor3.mul, Rotor3.inverse, Rotor3.normSquared, Rotor3.dot, Bivector3.dot, Bivector3.neg] <;> ring
  refine ⟨h, ?_, ?_⟩
  · ext <;> simp only [Rotor3.mul, Rotor3.inverse, Rotor3.normSquared, Rotor3.dot, Bivector3.dot, Bivector3.neg] <;> ring
  · rw [h]; simp [Rotor3.identity, Bivector3.zero]

/-- C08 fails as documented: the rotor `2` has `R⁻¹R = 4`. -/
theorem C08_counterexample :
    ∃ r : Rotor3 ℚ, r ≠ ⟨0, ⟨0, 0, 0⟩⟩ ∧ r.inverse.mul r ≠ Rotor3.identity :=
  ⟨⟨2, ⟨0, 0, 0⟩⟩, by decide, by decide +kernel⟩

/-- unit rotors: `inverse` undoes the rotation -/
theorem C08_unit_rotor_undo_partial (r : Rotor3 R) (h : r.normSquared = 1) (u : Vector3 R) :
    r.inverse.rotate (r.rotate u) = u ∧ r.rotate (r.inverse.rotate u) = u := by
  have key : ∀ k : R, ∀ u : Vector3 R, (⟨k, ⟨0, 0, 0⟩⟩ : Rotor3 R).rotate u = u.scale (k ^ 2) := by
    intro k u; ext <;> simp only [Rotor3.rotate, Vector3.scale] <;> ring
  obtain ⟨h1, h2, -⟩ := C08_inverse_mul_partial r
  constructor
  · rw [← C03_rotate_mul, h1, key, h]; ext <;> simp [Vector3.scale]
  · rw [← C03_rotate_mul, h2, key, h]; ext <;> simp [Vector3.scale]

end Ring
end Kami.GA
