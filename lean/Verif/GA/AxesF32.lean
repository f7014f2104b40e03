import Verif.GA.Model
import Verif.Graph.SymmetryF32
/-!
# C146 in `f32`: changing the signs of axes

Reversing some of the coordinate axes commutes with the operations of src/math without any rounding error: every component of
the result is the component for the original axes with the sign that belongs to it.  Only the sign of a component that is zero
is left open.
-/

set_option autoImplicit false

namespace Kami.GA.Flip

open Kami Kami.F32
open Kami.Graph (Sg)

/-- `v` is `u` seen from axes of which the first, second, third are reversed where `x`, `y`, `z` are set; `Sg` leaves the sign of
a zero open. -/
def FV (x y z : Bool) (u v : Vector3 F32) : Prop := Sg x u.a1 v.a1 ∧ Sg y u.a2 v.a2 ∧ Sg z u.a3 v.a3

/-- The same for planes: a plane is reversed when exactly one of its two axes is. -/
def FB (x y z : Bool) (b c : Bivector3 F32) : Prop :=
  Sg (x ^^ y) b.b1 c.b1 ∧ Sg (x ^^ z) b.b2 c.b2 ∧ Sg (y ^^ z) b.b3 c.b3

/-- The same for the volume. -/
def FT (x y z : Bool) (s t : Trivector3 F32) : Prop := Sg (x ^^ y ^^ z) s.t1 t.t1

/-- The same for scalar and plane. -/
def FR (x y z : Bool) (q r : Rotor3 F32) : Prop := Sg false q.scalar r.scalar ∧ FB x y z q.bivector r.bivector

theorem sg_mul {ε δ γ : Bool} {a b a' b' : F32} (h : Sg ε a a') (h' : Sg δ b b') (e : (ε ^^ δ) = γ) :
    Sg γ (a * b) (a' * b') := e ▸ h.mul h'

theorem sg_neg_mul {ε δ γ : Bool} {a b a' b' : F32} (h : Sg ε a a') (h' : Sg δ b b') (e : (ε ^^ δ) = γ) :
    Sg γ (-a * b) (-a' * b') := sg_mul h.neg h' e

theorem sg_div {ε : Bool} {a a' : F32} (h : Sg ε a a') (b : F32) : Sg ε (a / b) (a' / b) := by
  cases ε
  · exact Same.div h b
  · have h1 : Same (-a / b) (a' / b) := Same.div h b
    rw [neg_div'] at h1
    exact h1

/-- follow the formula; the leaves are hypotheses -/
macro "flip" x:ident y:ident z:ident : tactic => `(tactic|
  repeat' first
    | with_reducible assumption
    | with_reducible refine Sg.add ?_ ?_
    | with_reducible refine Sg.sub ?_ ?_
    | with_reducible refine Sg.neg ?_
    | with_reducible apply sg_neg_mul
    | with_reducible apply sg_mul
    | with_reducible rfl
    | (cases $x:ident <;> cases $y:ident <;> cases $z:ident <;> rfl))

/-- **C146, products in `f32`.** Reversing axes commutes with the products of all grades, bit for bit up to signs of zeros. -/
theorem C146_products_f32 (x y z : Bool) (u u' v v' : Vector3 F32) (b b' c c' : Bivector3 F32) (s s' t t' : Trivector3 F32)
    (q q' r r' : Rotor3 F32) (hu : FV x y z u u') (hv : FV x y z v v') (hb : FB x y z b b') (hc : FB x y z c c')
    (hs : FT x y z s s') (ht : FT x y z t t') (hq : FR x y z q q') (hr : FR x y z r r') :
    (Same (u.dot v) (u'.dot v') ∧ Same (b.dot c) (b'.dot c') ∧ Same (s.dot t) (s'.dot t') ∧ Same (q.dot r) (q'.dot r')) ∧
    (FB x y z (u.wedge v) (u'.wedge v') ∧ FB x y z (b.wedge c) (b'.wedge c') ∧
      FT x y z (b.wedgeVector u) (b'.wedgeVector u')) ∧
    FR x y z (u.mul v) (u'.mul v') ∧
    (FV x y z (u.mulBivector b).1 (u'.mulBivector b').1 ∧ FT x y z (u.mulBivector b).2 (u'.mulBivector b').2) ∧
    FR x y z (b.mul c) (b'.mul c') ∧
    (FV x y z (r.mulVector u).1 (r'.mulVector u').1 ∧ FT x y z (r.mulVector u).2 (r'.mulVector u').2) ∧
    FR x y z (q.mul r) (q'.mul r') ∧ Same (s.mul t) (s'.mul t') := by
  obtain ⟨u1, u2, u3⟩ := hu
  obtain ⟨v1, v2, v3⟩ := hv
  obtain ⟨b1, b2, b3⟩ := hb
  obtain ⟨c1, c2, c3⟩ := hc
  obtain ⟨q0, q1, q2, q3⟩ := hq
  obtain ⟨r0, r1, r2, r3⟩ := hr
  unfold FT at hs ht
  have e : ∀ {a a' : F32}, Sg false a a' → Same a a' := fun h => h
  refine ⟨⟨e ?_, e ?_, e ?_, e ?_⟩, ⟨⟨?_, ?_, ?_⟩, ⟨?_, ?_, ?_⟩, ?_⟩, ⟨?_, ?_, ?_, ?_⟩, ⟨⟨?_, ?_, ?_⟩, ?_⟩, ⟨?_, ?_, ?_, ?_⟩,
    ⟨⟨?_, ?_, ?_⟩, ?_⟩, ⟨?_, ?_, ?_, ?_⟩, e ?_⟩ <;>
  simp only [FT, Vector3.dot, Bivector3.dot, Trivector3.dot, Rotor3.dot, Vector3.wedge, Bivector3.wedge,
    Bivector3.wedgeVector, Vector3.mul, Vector3.mulBivector, Bivector3.mul, Rotor3.mulVector, Rotor3.mul, Trivector3.mul] <;>
  flip x y z

/-- **C146, rotations in `f32`.** A rotor seen from reversed axes rotates the vector seen from reversed axes to the rotated vector
seen from reversed axes. -/
theorem C146_rotate_f32 (x y z : Bool) (u u' : Vector3 F32) (r r' : Rotor3 F32) (hu : FV x y z u u') (hr : FR x y z r r') :
    FV x y z (r.rotate u) (r'.rotate u') := by
  obtain ⟨u1, u2, u3⟩ := hu
  obtain ⟨r0, r1, r2, r3⟩ := hr
  unfold Rotor3.rotate
  simp only
  have p1 : Sg x (r.scalar * u.a1 + r.bivector.b1 * u.a2 + r.bivector.b2 * u.a3)
      (r'.scalar * u'.a1 + r'.bivector.b1 * u'.a2 + r'.bivector.b2 * u'.a3) := by flip x y z
  have p2 : Sg y (r.scalar * u.a2 - r.bivector.b1 * u.a1 + r.bivector.b3 * u.a3)
      (r'.scalar * u'.a2 - r'.bivector.b1 * u'.a1 + r'.bivector.b3 * u'.a3) := by flip x y z
  have p3 : Sg z (r.scalar * u.a3 - r.bivector.b2 * u.a1 - r.bivector.b3 * u.a2)
      (r'.scalar * u'.a3 - r'.bivector.b2 * u'.a1 - r'.bivector.b3 * u'.a2) := by flip x y z
  have p4 : Sg (x ^^ y ^^ z) (-r.bivector.b1 * u.a3 + r.bivector.b2 * u.a2 - r.bivector.b3 * u.a1)
      (-r'.bivector.b1 * u'.a3 + r'.bivector.b2 * u'.a2 - r'.bivector.b3 * u'.a1) := by flip x y z
  refine ⟨?_, ?_, ?_⟩ <;> flip x y z

theorem normSquared_same {x y z : Bool} {u u' : Vector3 F32} (h : FV x y z u u') : u.normSquared = u'.normSquared := by
  unfold Vector3.normSquared Vector3.dot
  rw [Graph.sg_sq h.1, Graph.sg_sq h.2.1, Graph.sg_sq h.2.2]

theorem bnormSquared_same {x y z : Bool} {b b' : Bivector3 F32} (h : FB x y z b b') : b.normSquared = b'.normSquared := by
  unfold Bivector3.normSquared Bivector3.dot Bivector3.neg
  simp only [neg_mul']
  rw [Graph.sg_sq h.1, Graph.sg_sq h.2.1, Graph.sg_sq h.2.2]

theorem rnormSquared_same {x y z : Bool} {r r' : Rotor3 F32} (h : FR x y z r r') : r.normSquared = r'.normSquared := by
  unfold Rotor3.normSquared Rotor3.dot Rotor3.inverse
  simp only
  have := bnormSquared_same h.2
  unfold Bivector3.normSquared at this
  rw [this, Graph.sg_sq h.1]

theorem tnormSquared_same {x y z : Bool} {t t' : Trivector3 F32} (h : FT x y z t t') : t.normSquared = t'.normSquared := by
  unfold Trivector3.normSquared Trivector3.dot Trivector3.neg
  simp only [neg_neg_eq]
  rw [Graph.sg_sq h]

/-- **C146, measures in `f32`.** Norms are equal bit for bit; so are the cosines passed to `acos`, up to the sign of a zero. -/
theorem C146_measures_f32 (x y z : Bool) (u u' v v' : Vector3 F32) (b b' : Bivector3 F32) (t t' : Trivector3 F32)
    (r r' : Rotor3 F32) (hu : FV x y z u u') (hv : FV x y z v v') (hb : FB x y z b b') (ht : FT x y z t t') (hr : FR x y z r r') :
    u.norm = u'.norm ∧ b.norm = b'.norm ∧ t.norm = t'.norm ∧ r.norm = r'.norm ∧ Same (u.angleCos v) (u'.angleCos v') := by
  refine ⟨?_, ?_, ?_, ?_, ?_⟩
  · unfold Vector3.norm; rw [normSquared_same hu]
  · unfold Bivector3.norm; rw [bnormSquared_same hb]
  · unfold Trivector3.norm; rw [tnormSquared_same ht]
  · unfold Rotor3.norm; rw [rnormSquared_same hr]
  · unfold Vector3.angleCos Vector3.normalize Vector3.norm Vector3.dot Vector3.divScalar
    simp only
    rw [normSquared_same hu, normSquared_same hv]
    have h1 := sg_div hu.1 (Scalar.sqrt u'.normSquared)
    have h2 := sg_div hu.2.1 (Scalar.sqrt u'.normSquared)
    have h3 := sg_div hu.2.2 (Scalar.sqrt u'.normSquared)
    have h4 := sg_div hv.1 (Scalar.sqrt v'.normSquared)
    have h5 := sg_div hv.2.1 (Scalar.sqrt v'.normSquared)
    have h6 := sg_div hv.2.2 (Scalar.sqrt v'.normSquared)
    have e : ∀ {a a' : F32}, Sg false a a' → Same a a' := fun h => h
    apply e
    flip x y z

theorem inverse_flip {x y z : Bool} {v v' : Vector3 F32} (hv : FV x y z v v') : FV x y z v.inverse v'.inverse := by
  unfold Vector3.inverse Vector3.divScalar
  rw [normSquared_same hv]
  exact ⟨sg_div hv.1 _, sg_div hv.2.1 _, sg_div hv.2.2 _⟩

/-- **C146, quotients in `f32`.** Normalising, inverting, projecting and reflecting commute with the reversal of axes. -/
theorem C146_quotients_f32 (x y z : Bool) (u u' v v' : Vector3 F32) (b b' : Bivector3 F32) (r r' : Rotor3 F32)
    (hu : FV x y z u u') (hv : FV x y z v v') (hb : FB x y z b b') (hr : FR x y z r r') :
    FV x y z v.normalize v'.normalize ∧ FV x y z v.inverse v'.inverse ∧ FV x y z (u.project v) (u'.project v') ∧
    FV x y z (u.reflect v) (u'.reflect v') ∧ FB x y z b.normalize b'.normalize ∧ FB x y z b.inverse b'.inverse ∧
    FR x y z r.normalize r'.normalize ∧ FR x y z r.inverse r'.inverse := by
  have hi := inverse_flip hv
  have z0 : ∀ {x y z : Bool}, FB x y z (⟨0, 0, 0⟩ : Bivector3 F32) ⟨0, 0, 0⟩ := by
    intro x y z
    have : ∀ ε : Bool, Sg ε (0 : F32) 0 := by
      intro ε
      cases ε
      · exact .refl _
      · exact .inr ⟨_, _, rfl, rfl⟩
    exact ⟨this _, this _, this _⟩
  have zt : ∀ {x y z : Bool}, FT x y z (⟨0⟩ : Trivector3 F32) ⟨0⟩ := fun {x y z} => by
    have := @z0 (x ^^ y ^^ z) false false
    have h := this.1
    rw [Bool.xor_false] at h
    exact h
  have zr : FR x y z (⟨0, ⟨0, 0, 0⟩⟩ : Rotor3 F32) ⟨0, ⟨0, 0, 0⟩⟩ := ⟨.refl _, z0⟩
  refine ⟨?_, hi, ?_, ?_, ?_, ?_, ?_, ?_⟩
  · unfold Vector3.normalize Vector3.norm Vector3.divScalar
    rw [normSquared_same hv]
    exact ⟨sg_div hv.1 _, sg_div hv.2.1 _, sg_div hv.2.2 _⟩
  · obtain ⟨⟨h, _⟩, _⟩ := C146_products_f32 x y z u u' v v' _ _ _ _ _ _ _ _ _ _ _ _ hu hv z0 z0 zt zt zr zr
    have h : Sg false (u.dot v) (u'.dot v') := h
    obtain ⟨i1, i2, i3⟩ := hi
    unfold Vector3.project Vector3.scale
    refine ⟨?_, ?_, ?_⟩ <;> flip x y z
  · obtain ⟨_, _, h, _⟩ := C146_products_f32 x y z _ _ u u' _ _ _ _ _ _ _ _ _ _ _ _ hi hu z0 z0 zt zt zr zr
    obtain ⟨_, _, _, _, _, h', _⟩ := C146_products_f32 x y z v v' u u' _ _ _ _ _ _ _ _ _ _ _ _ hv hu z0 z0 zt zt zr h
    exact h'.1
  · unfold Bivector3.normalize Bivector3.norm Bivector3.divScalar
    rw [bnormSquared_same hb]
    exact ⟨sg_div hb.1 _, sg_div hb.2.1 _, sg_div hb.2.2 _⟩
  · unfold Bivector3.inverse Bivector3.divScalar Bivector3.neg
    rw [bnormSquared_same hb]
    exact ⟨sg_div hb.1.neg _, sg_div hb.2.1.neg _, sg_div hb.2.2.neg _⟩
  · unfold Rotor3.normalize Rotor3.norm Rotor3.divScalar
    rw [rnormSquared_same hr]
    exact ⟨sg_div hr.1 _, sg_div hr.2.1 _, sg_div hr.2.2.1 _, sg_div hr.2.2.2 _⟩
  · exact ⟨hr.1, hr.2.1.neg, hr.2.2.1.neg, hr.2.2.2.neg⟩

/-- **C146, volumes in `f32`.** Normalising and inverting trivectors. -/
theorem C146_quotients_trivector_f32 (x y z : Bool) (t t' : Trivector3 F32) (ht : FT x y z t t') :
    FT x y z t.normalize t'.normalize ∧ FT x y z t.inverse t'.inverse := by
  unfold Trivector3.normalize Trivector3.norm Trivector3.inverse Trivector3.divScalar Trivector3.neg
  rw [tnormSquared_same ht]
  exact ⟨sg_div (Sg.of_same ht (.refl _)) _, sg_div (Sg.neg ht) _⟩

/-- **C146, `from_vectors` in `f32`.** -/
theorem C146_from_vectors_f32 (x y z : Bool) (u u' v v' : Vector3 F32) (hu : FV x y z u u') (hv : FV x y z v v') :
    FR x y z (Rotor3.fromVectors u v) (Rotor3.fromVectors u' v') := by
  obtain ⟨u1, u2, u3⟩ := hu
  obtain ⟨v1, v2, v3⟩ := hv
  have hd : Sg false (v.dot u) (v'.dot u') := by unfold Vector3.dot; flip x y z
  have hw : FB x y z (v.wedge u) (v'.wedge u') := by
    unfold Vector3.wedge
    refine ⟨?_, ?_, ?_⟩ <;> flip x y z
  have h1 : Sg false (1 : F32) 1 := .refl _
  have hr : FR x y z (⟨1 + v.dot u, v.wedge u⟩ : Rotor3 F32) ⟨1 + v'.dot u', v'.wedge u'⟩ := ⟨h1.add hd, hw⟩
  exact (C146_quotients_f32 x y z u u' v v' _ _ _ _ ⟨u1, u2, u3⟩ ⟨v1, v2, v3⟩ hw hr).2.2.2.2.2.2.1

/-- **C146, not for exchanged axes.** Exchanging two axes is a symmetry of space but not of the `f32` code: the dot product of
`(1, h, h)` and `(1, 1, 1)`, where `h = 2^-24`, is 1, but that of `(h, h, 1)` and `(1, 1, 1)` is not. -/
theorem C146_sharp_exchange :
    let h : F32 := lit 1 (2 ^ 24)
    (⟨lit 1 1, h, h⟩ : Vector3 F32).dot ⟨lit 1 1, lit 1 1, lit 1 1⟩ = lit 1 1 ∧
    (⟨h, h, lit 1 1⟩ : Vector3 F32).dot ⟨lit 1 1, lit 1 1, lit 1 1⟩ = lit (2 ^ 23 + 1) (2 ^ 23) ∧
    (lit (2 ^ 23 + 1) (2 ^ 23) : F32) ≠ lit 1 1 := by decide +kernel

/-- a vector and a rotor seen from reversed first and third axes, and the rotated vector -/
example :
    let u : Vector3 F32 := ⟨lit 1 3, lit 2 1, lit (-1) 7⟩
    let u' : Vector3 F32 := ⟨-u.a1, u.a2, -u.a3⟩
    let r : Rotor3 F32 := ⟨lit 3 10, ⟨lit 1 2, lit 1 5, lit (-2) 3⟩⟩
    let r' : Rotor3 F32 := ⟨r.scalar, ⟨-r.bivector.b1, r.bivector.b2, -r.bivector.b3⟩⟩
    FV true false true u u' ∧ FR true false true r r' ∧
      r'.rotate u' = ⟨-(r.rotate u).a1, (r.rotate u).a2, -(r.rotate u).a3⟩ ∧ (r.rotate u).a1 ≠ lit 0 1 :=
  ⟨⟨.refl _, .refl _, .refl _⟩, ⟨.refl _, .refl _, .refl _, .refl _⟩, by decide +kernel, by decide +kernel⟩

end Kami.GA.Flip
