import Verif.GA.Algebra
import Mathlib.Analysis.SpecialFunctions.Trigonometric.Basic
/-!
# C05, C06: rotor constructors

The code is run on `XReal` operands that are embedded reals.
-/

set_option autoImplicit false

namespace Kami.GA

open Kami

theorem xr_norm (r : Rotor3 ℝ) : (xr r).norm = .fin (Real.sqrt r.normSquared) := by
  rw [Rotor3.norm, xr_normSquared, XReal.fin_sqrt _ (rotor_normSquared_nonneg r)]

theorem xr_normalize (r : Rotor3 ℝ) (h : r.normSquared ≠ 0) :
    (xr r).normalize = xr (r.divScalar (Real.sqrt r.normSquared)) := by
  rw [Rotor3.normalize, xr_norm, xr_div]
  exact (Real.sqrt_ne_zero (rotor_normSquared_nonneg r)).2 h

theorem divScalar_rotate (r : Rotor3 ℝ) (k : ℝ) (u : Vector3 ℝ) :
    (r.divScalar k).rotate u = (r.rotate u).divScalar (k ^ 2) := by
  ext <;> simp only [Rotor3.rotate, Rotor3.divScalar, Bivector3.divScalar, Vector3.divScalar] <;> ring

/-- the rotor `1 + vu` before normalisation -/
def halfway {R : Type} [CommRing R] (u v : Vector3 R) : Rotor3 R := ⟨1 + v.dot u, v.wedge u⟩

theorem halfway_rotate {R : Type} [CommRing R] (u v : Vector3 R) :
    (halfway u v).rotate u =
      (u.scale (1 - u.normSquared * v.normSquared)).add (v.scale (2 * u.normSquared * (1 + u.dot v))) := by
  ext <;> simp only [halfway, Rotor3.rotate, Vector3.wedge, Vector3.dot, Vector3.scale, Vector3.add,
    Vector3.normSquared] <;> ring

theorem halfway_normSquared {R : Type} [CommRing R] (u v : Vector3 R) :
    (halfway u v).normSquared = 1 + 2 * u.dot v + u.normSquared * v.normSquared := by
  simp only [halfway, Rotor3.normSquared, Rotor3.inverse, Rotor3.dot, Bivector3.dot, Bivector3.neg, Vector3.wedge,
    Vector3.dot, Vector3.normSquared]
  ring

theorem fromVectors_eq (u v : Vector3 ℝ) : Rotor3.fromVectors (xv u) (xv v) = (xr (halfway u v)).normalize := by
  simp only [Rotor3.fromVectors, xv_dot, xv_wedge, halfway, xr, Rotor3.map, xb]
  rfl

/-- What `from_vectors` computes for all vectors: it rotates `u` to
`((1 - |u|²|v|²) u + 2|u|²(1 + u·v) v) / (1 + 2 u·v + |u|²|v|²)`. -/
theorem C05_from_vectors_general (u v : Vector3 ℝ) (h : 1 + 2 * u.dot v + u.normSquared * v.normSquared ≠ 0) :
    (Rotor3.fromVectors (xv u) (xv v)).rotate (xv u) =
      xv (((u.scale (1 - u.normSquared * v.normSquared)).add (v.scale (2 * u.normSquared * (1 + u.dot v)))).divScalar
        (1 + 2 * u.dot v + u.normSquared * v.normSquared)) := by
  have h' : (halfway u v).normSquared ≠ 0 := by rw [halfway_normSquared]; exact h
  rw [fromVectors_eq, xr_normalize _ h', xr_rotate, divScalar_rotate, Real.sq_sqrt (rotor_normSquared_nonneg _),
    halfway_rotate, halfway_normSquared]

theorem unit_dot_ne (u v : Vector3 ℝ) (hu : u.normSquared = 1) (hv : v.normSquared = 1) (hne : u ≠ v.neg) :
    1 + u.dot v ≠ 0 := by
  intro h
  apply hne
  have h0 : (u.add v).normSquared = 0 := by
    have : (u.add v).normSquared = u.normSquared + v.normSquared + 2 * u.dot v := by
      simp only [Vector3.normSquared, Vector3.dot, Vector3.add]; ring
    rw [this, hu, hv]; linarith
  have h1 := (vec_normSquared_eq_zero _).1 h0
  simp only [Vector3.add, Vector3.zero, Vector3.mk.injEq] at h1
  ext <;> simp only [Vector3.neg] <;> linarith

/-- C05, partial: for unit vectors that are not opposite, the rotor is a unit rotor, rotates `u` onto `v`, and fixes
every vector orthogonal to both.  Missing from the full claim: vectors that are not of unit length
(`C05_counterexample_length`) and opposite vectors (`C05_counterexample_opposite`). -/
theorem C05_from_vectors_partial (u v : Vector3 ℝ) (hu : u.normSquared = 1) (hv : v.normSquared = 1)
    (hne : u ≠ v.neg) :
    (Rotor3.fromVectors (xv u) (xv v)).rotate (xv u) = xv v ∧
    (∃ r : Rotor3 ℝ, Rotor3.fromVectors (xv u) (xv v) = xr r ∧ r.normSquared = 1) ∧
    (∀ w : Vector3 ℝ, w.dot u = 0 → w.dot v = 0 → (Rotor3.fromVectors (xv u) (xv v)).rotate (xv w) = xv w) := by
  have hc := unit_dot_ne u v hu hv hne
  have hN : 1 + 2 * u.dot v + u.normSquared * v.normSquared = 2 * (1 + u.dot v) := by rw [hu, hv]; ring
  have hN0 : 1 + 2 * u.dot v + u.normSquared * v.normSquared ≠ 0 := by rw [hN]; positivity
  have h' : (halfway u v).normSquared ≠ 0 := by rw [halfway_normSquared]; exact hN0
  refine ⟨?_, ?_, ?_⟩
  · rw [C05_from_vectors_general u v hN0, hN, hu, hv]
    congr 1
    ext <;> simp only [Vector3.scale, Vector3.add, Vector3.divScalar] <;> field_simp <;> ring
  · refine ⟨_, by rw [fromVectors_eq, xr_normalize _ h'], ?_⟩
    have hs : Real.sqrt (halfway u v).normSquared ^ 2 = (halfway u v).normSquared :=
      Real.sq_sqrt (rotor_normSquared_nonneg _)
    have hdiv : ∀ (r : Rotor3 ℝ) (k : ℝ), (r.divScalar k).normSquared = r.normSquared / k ^ 2 := by
      intro r k; rw [rotor_normSquared_eq, rotor_normSquared_eq]; simp only [Rotor3.divScalar, Bivector3.divScalar]; ring
    rw [hdiv, hs, div_self h']
  · intro w hwu hwv
    rw [fromVectors_eq, xr_normalize _ h', xr_rotate, divScalar_rotate, Real.sq_sqrt (rotor_normSquared_nonneg _)]
    congr 1
    have hrot : (halfway u v).rotate w = w.scale (halfway u v).normSquared := by
      simp only [Vector3.dot] at hwu hwv
      ext
      · simp only [halfway, Rotor3.rotate, Rotor3.normSquared, Rotor3.inverse, Rotor3.dot, Bivector3.dot,
          Bivector3.neg, Vector3.wedge, Vector3.dot, Vector3.scale]
        linear_combination
          (2 * (1 + (v.a1 * u.a1 + v.a2 * u.a2 + v.a3 * u.a3)) * v.a1
            + 2 * (v.a1 * (u.a1 * v.a1 + u.a2 * v.a2 + u.a3 * v.a3)
              - u.a1 * (v.a1 * v.a1 + v.a2 * v.a2 + v.a3 * v.a3))) * hwu
          + (-2 * (1 + (v.a1 * u.a1 + v.a2 * u.a2 + v.a3 * u.a3)) * u.a1
            - 2 * (v.a1 * (u.a1 * u.a1 + u.a2 * u.a2 + u.a3 * u.a3)
              - u.a1 * (u.a1 * v.a1 + u.a2 * v.a2 + u.a3 * v.a3))) * hwv
      · simp only [halfway, Rotor3.rotate, Rotor3.normSquared, Rotor3.inverse, Rotor3.dot, Bivector3.dot,
          Bivector3.neg, Vector3.wedge, Vector3.dot, Vector3.scale]
        linear_combination
          (2 * (1 + (v.a1 * u.a1 + v.a2 * u.a2 + v.a3 * u.a3)) * v.a2
            + 2 * (v.a2 * (u.a1 * v.a1 + u.a2 * v.a2 + u.a3 * v.a3)
              - u.a2 * (v.a1 * v.a1 + v.a2 * v.a2 + v.a3 * v.a3))) * hwu
          + (-2 * (1 + (v.a1 * u.a1 + v.a2 * u.a2 + v.a3 * u.a3)) * u.a2
            - 2 * (v.a2 * (u.a1 * u.a1 + u.a2 * u.a2 + u.a3 * u.a3)
              - u.a2 * (u.a1 * v.a1 + u.a2 * v.a2 + u.a3 * v.a3))) * hwv
      · simp only [halfway, Rotor3.rotate, Rotor3.normSquared, Rotor3.inverse, Rotor3.dot, Bivector3.dot,
          Bivector3.neg, Vector3.wedge, Vector3.dot, Vector3.scale]
        linear_combination
          (2 * (1 + (v.a1 * u.a1 + v.a2 * u.a2 + v.a3 * u.a3)) * v.a3
            + 2 * (v.a3 * (u.a1 * v.a1 + u.a2 * v.a2 + u.a3 * v.a3)
              - u.a3 * (v.a1 * v.a1 + v.a2 * v.a2 + v.a3 * v.a3))) * hwu
          + (-2 * (1 + (v.a1 * u.a1 + v.a2 * u.a2 + v.a3 * u.a3)) * u.a3
            - 2 * (v.a3 * (u.a1 * u.a1 + u.a2 * u.a2 + u.a3 * u.a3)
              - u.a3 * (u.a1 * v.a1 + u.a2 * v.a2 + u.a3 * v.a3))) * hwv
    rw [hrot]
    ext <;> simp only [Vector3.scale, Vector3.divScalar] <;> field_simp

/-- The hypotheses of `C05_from_vectors_partial` are met by a non-axis-aligned pair. -/
example : (⟨3/5, 4/5, 0⟩ : Vector3 ℝ).normSquared = 1 ∧ (⟨0, 5/13, 12/13⟩ : Vector3 ℝ).normSquared = 1 ∧
    (⟨3/5, 4/5, 0⟩ : Vector3 ℝ) ≠ (⟨0, 5/13, 12/13⟩ : Vector3 ℝ).neg := by
  norm_num [Vector3.normSquared, Vector3.dot, Vector3.neg]

/-- C05 fails for vectors that are not of unit length, even if they are equally long: `(2,0,0)` is not rotated
onto `(0,2,0)`, nor onto any multiple of it. -/
theorem C05_counterexample_length :
    ∃ u v : Vector3 ℝ, u.normSquared = v.normSquared ∧ u ≠ v.neg ∧
      ∀ k : ℝ, (Rotor3.fromVectors (xv u) (xv v)).rotate (xv u) ≠ xv (v.scale k) := by
  refine ⟨⟨2, 0, 0⟩, ⟨0, 2, 0⟩, ?_, ?_, ?_⟩
  · norm_num [Vector3.normSquared, Vector3.dot]
  · norm_num [Vector3.neg]
  · intro k
    rw [C05_from_vectors_general]
    · intro h
      have := congrArg Vector3.a1 (xv_inj h)
      norm_num [Vector3.normSquared, Vector3.dot, Vector3.scale, Vector3.add, Vector3.divScalar] at this
    · norm_num [Vector3.normSquared, Vector3.dot]

/-- C05 fails for opposite unit vectors: every component of the rotor is NaN. -/
theorem C05_counterexample_opposite (u : Vector3 ℝ) (hu : u.normSquared = 1) :
    Rotor3.fromVectors (xv u) (xv u.neg) = ⟨.nan, ⟨.nan, .nan, .nan⟩⟩ := by
  have h0 : halfway u u.neg = ⟨0, ⟨0, 0, 0⟩⟩ := by
    have : u.a1 * u.a1 + u.a2 * u.a2 + u.a3 * u.a3 = 1 := hu
    ext <;> simp only [halfway, Vector3.neg, Vector3.dot, Vector3.wedge] <;> linarith
  rw [fromVectors_eq, h0, Rotor3.normalize, xr_norm]
  have : Real.sqrt (⟨0, ⟨0, 0, 0⟩⟩ : Rotor3 ℝ).normSquared = 0 := by
    rw [(rotor_normSquared_eq_zero _).2 rfl, Real.sqrt_zero]
  rw [this]
  simp [xr, Rotor3.map, Bivector3.map, Rotor3.divScalar, Bivector3.divScalar, XReal.fin_div_zero]

example : (⟨3/5, 4/5, 0⟩ : Vector3 ℝ).normSquared = 1 := by norm_num [Vector3.normSquared, Vector3.dot]

/-! ## C06 -/

/-- the real rotor that `from_angle_plane` builds -/
noncomputable def anglePlane (t : ℝ) (b : Bivector3 ℝ) : Rotor3 ℝ :=
  ⟨Real.cos (t / 2), b.scale (-Real.sin (t / 2))⟩

theorem fromAnglePlane_eq (t : ℝ) (b : Bivector3 ℝ) :
    Rotor3.fromAnglePlane (.fin t) (xb b) = xr (anglePlane t b) := by
  have h : XReal.fin t / XReal.fin 2 = .fin (t / 2) := XReal.fin_div _ _ two_ne_zero
  simp only [Rotor3.fromAnglePlane, XReal.two_def, h, XReal.fin_sin, XReal.fin_cos, XReal.fin_neg, xb_scale]
  rfl

theorem half_angle (t : ℝ) :
    Real.cos t = Real.cos (t / 2) ^ 2 - Real.sin (t / 2) ^ 2 ∧ Real.sin t = 2 * Real.sin (t / 2) * Real.cos (t / 2) := by
  have h : t = 2 * (t / 2) := by ring
  constructor
  · conv_lhs => rw [h]
    rw [Real.cos_two_mul']
  · conv_lhs => rw [h]
    rw [Real.sin_two_mul]

/-- C06: `from_angle_plane(t, B)` for a unit bivector `B` is a unit rotor. -/
theorem C06_unit (t : ℝ) (b : Bivector3 ℝ) (hb : b.normSquared = 1) :
    ∃ r : Rotor3 ℝ, Rotor3.fromAnglePlane (.fin t) (xb b) = xr r ∧ r.normSquared = 1 := by
  refine ⟨_, fromAnglePlane_eq t b, ?_⟩
  rw [biv_normSquared_eq] at hb
  rw [rotor_normSquared_eq]
  simp only [anglePlane, Bivector3.scale]
  linear_combination Real.sin (t / 2) ^ 2 * hb + Real.sin_sq_add_cos_sq (t / 2)

theorem rotate_anglePlane (t : ℝ) (b : Bivector3 ℝ) (u : Vector3 ℝ) :
    (anglePlane t b).rotate u =
      (u.scale (Real.cos (t / 2) ^ 2)).add (((u.mulBivector b).1.scale (2 * Real.cos (t / 2) * Real.sin (t / 2))).add
        (((u.scale b.normSquared).add ((((u.mulBivector b).1).mulBivector b).1.scale 2)).scale (Real.sin (t / 2) ^ 2))) := by
  rw [biv_normSquared_eq]
  ext <;> simp only [anglePlane, Rotor3.rotate, Bivector3.scale, Vector3.mulBivector, Vector3.scale, Vector3.add] <;> ring

theorem mulBivector_twice (b : Bivector3 ℝ) (u : Vector3 ℝ) :
    (((u.mulBivector b).1).mulBivector b).1 =
      (u.scale (-b.normSquared)).add ((⟨b.b3, -b.b2, b.b1⟩ : Vector3 ℝ).scale (u.mulBivector b).2.t1) := by
  rw [biv_normSquared_eq]
  ext <;> simp only [Vector3.mulBivector, Vector3.scale, Vector3.add] <;> ring

/-- C06: rotation by angle `t` in the plane of the unit bivector `B`: the part of `u` orthogonal to the plane is
kept, the part in the plane is turned by `t` in the orientation of `B`.  `p` is the in-plane part of `u`
(`p ∧ B = 0` and `u - p` is orthogonal to the plane, i.e. the vector part of `(u - p) B` vanishes), and the vector part
of `p B` is `p` turned by a right angle. -/
theorem C06_rotates_plane (t : ℝ) (b : Bivector3 ℝ) (hb : b.normSquared = 1) (u p : Vector3 ℝ)
    (hp : (p.mulBivector b).2 = ⟨0⟩) (hq : ((u.sub p).mulBivector b).1 = ⟨0, 0, 0⟩) :
    (Rotor3.fromAnglePlane (.fin t) (xb b)).rotate (xv u) =
      xv ((u.sub p).add ((p.scale (Real.cos t)).add ((p.mulBivector b).1.scale (Real.sin t)))) := by
  rw [fromAnglePlane_eq, xr_rotate]
  congr 1
  obtain ⟨hcos, hsin⟩ := half_angle t
  rw [hcos, hsin]
  have h1 := Real.sin_sq_add_cos_sq (t / 2)
  rw [rotate_anglePlane, hb]
  have hD : (u.mulBivector b).1 = (p.mulBivector b).1 := by
    simp only [Vector3.mulBivector, Vector3.sub, Vector3.mk.injEq] at hq ⊢
    exact ⟨by linarith [hq.1], by linarith [hq.2.1], by linarith [hq.2.2]⟩
  rw [hD, mulBivector_twice, hp, hb]
  set S := Real.sin (t / 2)
  set C := Real.cos (t / 2)
  ext
  · simp only [Vector3.scale, Vector3.add, Vector3.sub]
    linear_combination (u.a1 - p.a1) * h1
  · simp only [Vector3.scale, Vector3.add, Vector3.sub]
    linear_combination (u.a2 - p.a2) * h1
  · simp only [Vector3.scale, Vector3.add, Vector3.sub]
    linear_combination (u.a3 - p.a3) * h1

/-- The hypotheses of `C06_rotates_plane` for a plane that is not a coordinate plane: `B = 3/5 e₁₂ + 4/5 e₁₃`,
`u = e₁ + e₂` with in-plane part `e₁ + 9/25 e₂ + 12/25 e₃`. -/
example : (⟨3/5, 4/5, 0⟩ : Bivector3 ℝ).normSquared = 1 ∧
    ((⟨1, 9/25, 12/25⟩ : Vector3 ℝ).mulBivector ⟨3/5, 4/5, 0⟩).2 = ⟨0⟩ ∧
    (((⟨1, 1, 0⟩ : Vector3 ℝ).sub ⟨1, 9/25, 12/25⟩).mulBivector ⟨3/5, 4/5, 0⟩).1 = ⟨0, 0, 0⟩ := by
  refine ⟨by rw [biv_normSquared_eq]; norm_num, ?_, ?_⟩ <;>
    norm_num [Vector3.mulBivector, Vector3.sub]

/-- C06: the coordinate-plane constructors turn the first axis of the plane towards the second by `t`, the second
towards the negative first, and fix the third axis. -/
theorem C06_coordinate_planes (t : ℝ) :
    let c := Real.cos t
    let s := Real.sin t
    let xy := Rotor3.fromXYRotation (T := XReal) (.fin t)
    let xz := Rotor3.fromXZRotation (T := XReal) (.fin t)
    let yz := Rotor3.fromYZRotation (T := XReal) (.fin t)
    xy.rotate (xv ⟨1, 0, 0⟩) = xv ⟨c, s, 0⟩ ∧ xy.rotate (xv ⟨0, 1, 0⟩) = xv ⟨-s, c, 0⟩ ∧
      xy.rotate (xv ⟨0, 0, 1⟩) = xv ⟨0, 0, 1⟩ ∧
    xz.rotate (xv ⟨1, 0, 0⟩) = xv ⟨c, 0, s⟩ ∧ xz.rotate (xv ⟨0, 0, 1⟩) = xv ⟨-s, 0, c⟩ ∧
      xz.rotate (xv ⟨0, 1, 0⟩) = xv ⟨0, 1, 0⟩ ∧
    yz.rotate (xv ⟨0, 1, 0⟩) = xv ⟨0, c, s⟩ ∧ yz.rotate (xv ⟨0, 0, 1⟩) = xv ⟨0, -s, c⟩ ∧
      yz.rotate (xv ⟨1, 0, 0⟩) = xv ⟨1, 0, 0⟩ := by
  have hxy : (Bivector3.unitXY : Bivector3 XReal) = xb ⟨1, 0, 0⟩ := rfl
  have hxz : (Bivector3.unitXZ : Bivector3 XReal) = xb ⟨0, 1, 0⟩ := rfl
  have hyz : (Bivector3.unitYZ : Bivector3 XReal) = xb ⟨0, 0, 1⟩ := rfl
  obtain ⟨hcos, hsin⟩ := half_angle t
  have h1 := Real.sin_sq_add_cos_sq (t / 2)
  simp only [Rotor3.fromXYRotation, Rotor3.fromXZRotation, Rotor3.fromYZRotation, hxy, hxz, hyz, fromAnglePlane_eq,
    xr_rotate, hcos, hsin]
  refine ⟨?_, ?_, ?_, ?_, ?_, ?_, ?_, ?_, ?_⟩ <;> congr 1 <;> ext <;>
    simp only [anglePlane, Rotor3.rotate, Bivector3.scale] <;> first | ring1 | linear_combination h1

theorem mul_anglePlane (s t : ℝ) (b : Bivector3 ℝ) (hb : b.normSquared = 1) :
    (anglePlane s b).mul (anglePlane t b) = anglePlane (s + t) b := by
  rw [biv_normSquared_eq] at hb
  have h : (s + t) / 2 = s / 2 + t / 2 := by ring
  simp only [anglePlane, h, Real.cos_add, Real.sin_add]
  ext <;> simp only [Rotor3.mul, Bivector3.scale]
  · linear_combination (-Real.sin (s / 2) * Real.sin (t / 2)) * hb
  all_goals ring

/-- C06: rotors of one plane multiply by adding angles, and `inverse` is the rotor of the opposite angle. -/
theorem C06_angles_add (s t : ℝ) (b : Bivector3 ℝ) (hb : b.normSquared = 1) :
    (Rotor3.fromAnglePlane (.fin s) (xb b)).mul (Rotor3.fromAnglePlane (.fin t) (xb b)) =
      Rotor3.fromAnglePlane (.fin (s + t)) (xb b) ∧
    (Rotor3.fromAnglePlane (.fin s) (xb b)).inverse = Rotor3.fromAnglePlane (.fin (-s)) (xb b) ∧
    Rotor3.fromAnglePlane (.fin 0) (xb b) = xr Rotor3.identity := by
  refine ⟨?_, ?_, ?_⟩
  · rw [fromAnglePlane_eq, fromAnglePlane_eq, xr_mul, mul_anglePlane s t b hb, fromAnglePlane_eq]
  · rw [fromAnglePlane_eq, fromAnglePlane_eq, xr_inverse]
    congr 1
    have h : -s / 2 = -(s / 2) := by ring
    ext <;> simp [anglePlane, Rotor3.inverse, Bivector3.neg, Bivector3.scale, h]
  · rw [fromAnglePlane_eq]
    congr 1
    ext <;> simp [anglePlane, Rotor3.identity, Bivector3.zero, Bivector3.scale]

end Kami.GA
