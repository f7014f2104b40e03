import Verif.GA.Model
import Verif.Num.F32Same
/-!
# C106: laws of the algebra that survive rounding

In `f32`, products are not associative and do not distribute over sums.  The laws below nevertheless hold for the rounded
operations, bit by bit or up to the sign of zero, for all inputs including NaN and the infinities unless a
hypothesis says otherwise.
-/

set_option autoImplicit false

namespace Kami

open F32

/-- equal component by component, up to the sign of zero -/
def Vector3.Same (u v : Vector3 F32) : Prop := F32.Same u.a1 v.a1 ∧ F32.Same u.a2 v.a2 ∧ F32.Same u.a3 v.a3
/-- equal component by component, up to the sign of zero -/
def Bivector3.Same (u v : Bivector3 F32) : Prop := F32.Same u.b1 v.b1 ∧ F32.Same u.b2 v.b2 ∧ F32.Same u.b3 v.b3
/-- equal component by component, up to the sign of zero -/
def Rotor3.Same (u v : Rotor3 F32) : Prop := F32.Same u.scalar v.scalar ∧ Bivector3.Same u.bivector v.bivector
/-- all components are finite -/
def Vector3.Finite (u : Vector3 F32) : Prop :=
  (∃ s n, u.a1 = fin s n) ∧ (∃ s n, u.a2 = fin s n) ∧ (∃ s n, u.a3 = fin s n)
/-- all components are finite -/
def Rotor3.Finite (r : Rotor3 F32) : Prop :=
  (∃ s n, r.scalar = fin s n) ∧ (∃ s n, r.bivector.b1 = fin s n) ∧ (∃ s n, r.bivector.b2 = fin s n) ∧
  (∃ s n, r.bivector.b3 = fin s n)

/-- a negated sum is the sum of the negated terms -/
theorem neg_sum_same {x y x' y' : F32} (hx : F32.Same x (-x')) (hy : F32.Same y (-y')) : F32.Same (x + y) (-(x' + y')) :=
  (hx.add hy).trans (neg_add' _ _).symm

theorem neg_diff_same {x y x' y' : F32} (hx : F32.Same x (-x')) (hy : F32.Same y (-y')) : F32.Same (x - y) (-(x' - y')) :=
  (hx.sub hy).trans (neg_sub_neg' _ _).symm

/-- **C106, commutativity.** The inner product is commutative and the cosine of `angle` is symmetric, bit by bit. -/
theorem C106_symmetric (u v : Vector3 F32) (a b : Bivector3 F32) (q r : Rotor3 F32) :
    u.dot v = v.dot u ∧ a.dot b = b.dot a ∧ q.dot r = r.dot q ∧ u.angleCos v = v.angleCos u := by
  have h : ∀ u v : Vector3 F32, u.dot v = v.dot u := by
    intro u v
    unfold Vector3.dot
    rw [Same.mul_comm u.a1, Same.mul_comm u.a2, Same.mul_comm u.a3]
  have h' : ∀ a b : Bivector3 F32, a.dot b = b.dot a := by
    intro a b
    unfold Bivector3.dot
    rw [Same.mul_comm a.b1, Same.mul_comm a.b2, Same.mul_comm a.b3]
  refine ⟨h u v, h' a b, ?_, ?_⟩
  · unfold Rotor3.dot
    rw [h', Same.mul_comm q.scalar]
  · unfold Vector3.angleCos
    exact h _ _

/-- **C106, anticommutativity.** Exchanging the factors negates the wedge product, so `v * u` is the reverse of `u * v`. -/
theorem C106_wedge (u v : Vector3 F32) :
    (u.wedge v).Same (v.wedge u).neg ∧ Rotor3.Same (u.mul v) (v.mul u).inverse := by
  have h : ∀ a b c d : F32, F32.Same (a * b - c * d) (-(d * c - b * a)) := by
    intro a b c d
    rw [Same.mul_comm a b, Same.mul_comm c d]
    exact (neg_sub' _ _).symm
  have hw : (u.wedge v).Same (v.wedge u).neg := by
    refine ⟨?_, ?_, ?_⟩
    · exact (h _ _ _ _)
    · exact (h _ _ _ _)
    · exact (h _ _ _ _)
  exact ⟨hw, Same.of_eq (C106_symmetric u v (u.wedge v) (u.wedge v) (u.mul v) (u.mul v)).1, hw⟩

/-- **C106, signs.** Negating an argument negates the norm not at all, the normalised value and the inverse bit by bit, and the
products up to the sign of zero. -/
theorem C106_signs (u v : Vector3 F32) :
    u.neg.normSquared = u.normSquared ∧ u.neg.norm = u.norm ∧ u.neg.normalize = u.normalize.neg ∧ u.neg.inverse = u.inverse.neg ∧
    F32.Same (u.neg.dot v) (-(u.dot v)) ∧ (u.neg.wedge v).Same (u.wedge v).neg ∧ u.neg.neg = u := by
  have hn : u.neg.normSquared = u.normSquared := by
    unfold Vector3.normSquared Vector3.dot Vector3.neg
    simp only [neg_mul', mul_neg', neg_neg_eq]
  have hn' : u.neg.norm = u.norm := by unfold Vector3.norm; rw [hn]
  refine ⟨hn, hn', ?_, ?_, ?_, ?_, ?_⟩
  · unfold Vector3.normalize
    rw [hn']
    unfold Vector3.divScalar Vector3.neg
    simp only [neg_div']
  · unfold Vector3.inverse
    rw [hn]
    unfold Vector3.divScalar Vector3.neg
    simp only [neg_div']
  · unfold Vector3.dot Vector3.neg
    simp only [neg_mul']
    exact neg_sum_same (neg_sum_same (.refl _) (.refl _)) (.refl _)
  · refine ⟨?_, ?_, ?_⟩ <;>
    · simp only [Vector3.wedge, Vector3.neg, Bivector3.neg, neg_mul']
      exact neg_diff_same (.refl _) (.refl _)
  · simp only [Vector3.neg, neg_neg_eq]

theorem neg_mul_neg_same {a q q' : F32} (h : F32.Same q' (-q)) : F32.Same (-a * q') (a * q) :=
  ((Same.refl (-a)).mul h).trans (.of_eq (by rw [neg_mul', mul_neg', neg_neg_eq]))

theorem mul_neg_neg_same {a q q' : F32} (h : F32.Same q' (-q)) : F32.Same (q' * -a) (q * a) := by
  rw [Same.mul_comm, Same.mul_comm q]; exact neg_mul_neg_same h

theorem mul_neg_same {a q q' : F32} (h : F32.Same q' (-q)) : F32.Same (a * q') (-(a * q)) :=
  ((Same.refl a).mul h).trans (.of_eq (mul_neg' _ _))

theorem neg_mul_same {a q q' : F32} (h : F32.Same q' (-q)) : F32.Same (q' * a) (-(q * a)) :=
  (h.mul (Same.refl a)).trans (.of_eq (neg_mul' _ _))

/-- **C106, double cover.** A rotor and its negative rotate alike, and rotating the opposite vector gives the opposite vector. -/
theorem C106_rotate (r : Rotor3 F32) (v : Vector3 F32) :
    (r.neg.rotate v).Same (r.rotate v) ∧ (r.rotate v.neg).Same (r.rotate v).neg := by
  obtain ⟨a, b1, b2, b3⟩ := r
  obtain ⟨u1, u2, u3⟩ := v
  constructor
  · have q1 : F32.Same (-a * u1 + -b1 * u2 + -b2 * u3) (-(a * u1 + b1 * u2 + b2 * u3)) := by
      simp only [neg_mul']
      exact neg_sum_same (neg_sum_same (.refl _) (.refl _)) (.refl _)
    have q2 : F32.Same (-a * u2 - -b1 * u1 + -b3 * u3) (-(a * u2 - b1 * u1 + b3 * u3)) := by
      simp only [neg_mul']
      exact neg_sum_same (neg_diff_same (.refl _) (.refl _)) (.refl _)
    have q3 : F32.Same (-a * u3 - -b2 * u1 - -b3 * u2) (-(a * u3 - b2 * u1 - b3 * u2)) := by
      simp only [neg_mul']
      exact neg_diff_same (neg_diff_same (.refl _) (.refl _)) (.refl _)
    have y : F32.Same (- -b1 * u3 + -b2 * u2 - -b3 * u1) (-(-b1 * u3 + b2 * u2 - b3 * u1)) := by
      simp only [neg_mul']
      exact neg_diff_same (neg_sum_same (.refl _) (.refl _)) (.refl _)
    refine ⟨?_, ?_, ?_⟩
    · exact (((neg_mul_neg_same q1).add (mul_neg_neg_same q2)).add (mul_neg_neg_same q3)).sub (mul_neg_neg_same y)
    · exact (((neg_mul_neg_same q2).sub (mul_neg_neg_same q1)).add (mul_neg_neg_same y)).add (mul_neg_neg_same q3)
    · exact (((neg_mul_neg_same q3).sub (mul_neg_neg_same y)).sub (mul_neg_neg_same q1)).sub (mul_neg_neg_same q2)
  · have q1 : F32.Same (a * -u1 + b1 * -u2 + b2 * -u3) (-(a * u1 + b1 * u2 + b2 * u3)) := by
      simp only [mul_neg']
      exact neg_sum_same (neg_sum_same (.refl _) (.refl _)) (.refl _)
    have q2 : F32.Same (a * -u2 - b1 * -u1 + b3 * -u3) (-(a * u2 - b1 * u1 + b3 * u3)) := by
      simp only [mul_neg']
      exact neg_sum_same (neg_diff_same (.refl _) (.refl _)) (.refl _)
    have q3 : F32.Same (a * -u3 - b2 * -u1 - b3 * -u2) (-(a * u3 - b2 * u1 - b3 * u2)) := by
      simp only [mul_neg']
      exact neg_diff_same (neg_diff_same (.refl _) (.refl _)) (.refl _)
    have y : F32.Same (-b1 * -u3 + b2 * -u2 - b3 * -u1) (-(-b1 * u3 + b2 * u2 - b3 * u1)) := by
      simp only [mul_neg']
      exact neg_diff_same (neg_sum_same (.refl _) (.refl _)) (.refl _)
    refine ⟨?_, ?_, ?_⟩
    · exact neg_diff_same (neg_sum_same (neg_sum_same (mul_neg_same q1) (neg_mul_same q2)) (neg_mul_same q3)) (neg_mul_same y)
    · exact neg_sum_same (neg_sum_same (neg_diff_same (mul_neg_same q2) (neg_mul_same q1)) (neg_mul_same y)) (neg_mul_same q3)
    · exact neg_diff_same (neg_diff_same (neg_diff_same (mul_neg_same q3) (neg_mul_same y)) (neg_mul_same q1)) (neg_mul_same q2)

/-- **C106, mirrors.** Reflecting about a vector or its negative is the same, and so is projecting. -/
theorem C106_mirror (u v : Vector3 F32) :
    (u.reflect v.neg).Same (u.reflect v) ∧ (u.project v.neg).Same (u.project v) ∧
    (u.neg.reflect v).Same (u.reflect v).neg ∧ (u.neg.project v).Same (u.project v).neg := by
  have hi : ∀ v : Vector3 F32, v.neg.inverse = v.inverse.neg := fun v => (C106_signs v v).2.2.2.1
  have hd : ∀ u v : Vector3 F32, F32.Same (u.neg.dot v) (-(u.dot v)) := fun u v => (C106_signs u v).2.2.2.2.1
  have hw : ∀ u v : Vector3 F32, (u.neg.wedge v).Same (u.wedge v).neg := fun u v => (C106_signs u v).2.2.2.2.2.1
  have hd' : ∀ u v : Vector3 F32, F32.Same (u.dot v.neg) (-(u.dot v)) := by
    intro u v
    have h1 := (C106_symmetric u v.neg (u.wedge v) (u.wedge v) (u.mul v) (u.mul v)).1
    have h2 := (C106_symmetric u v (u.wedge v) (u.wedge v) (u.mul v) (u.mul v)).1
    rw [h1, h2]; exact hd v u
  have hw' : ∀ u v : Vector3 F32, (u.wedge v.neg).Same (u.wedge v).neg := by
    intro u v
    refine ⟨?_, ?_, ?_⟩ <;>
    · simp only [Vector3.wedge, Vector3.neg, Bivector3.neg, mul_neg']
      exact neg_diff_same (.refl _) (.refl _)
  refine ⟨?_, ?_, ?_, ?_⟩
  · have h1 := hd v.inverse u
    obtain ⟨w1, w2, w3⟩ := hw v.inverse u
    simp only [Bivector3.neg] at w1 w2 w3
    unfold Vector3.reflect Vector3.reflectParts
    rw [hi]
    refine ⟨?_, ?_, ?_⟩
    · exact ((mul_neg_neg_same h1).add (mul_neg_neg_same w1)).add (mul_neg_neg_same w2)
    · exact ((mul_neg_neg_same h1).sub (mul_neg_neg_same w1)).add (mul_neg_neg_same w3)
    · exact ((mul_neg_neg_same h1).sub (mul_neg_neg_same w2)).sub (mul_neg_neg_same w3)
  · unfold Vector3.project Vector3.scale
    rw [hi]
    have h1 := hd' u v
    exact ⟨neg_mul_neg_same h1, neg_mul_neg_same h1, neg_mul_neg_same h1⟩
  · have h1 := hd' v.inverse u
    obtain ⟨w1, w2, w3⟩ := hw' v.inverse u
    simp only [Bivector3.neg] at w1 w2 w3
    unfold Vector3.reflect Vector3.reflectParts
    refine ⟨?_, ?_, ?_⟩
    · exact neg_sum_same (neg_sum_same (neg_mul_same h1) (neg_mul_same w1)) (neg_mul_same w2)
    · exact neg_sum_same (neg_diff_same (neg_mul_same h1) (neg_mul_same w1)) (neg_mul_same w3)
    · exact neg_diff_same (neg_diff_same (neg_mul_same h1) (neg_mul_same w2)) (neg_mul_same w3)
  · unfold Vector3.project Vector3.scale
    have h1 := hd u v
    exact ⟨mul_neg_same h1, mul_neg_same h1, mul_neg_same h1⟩

theorem zero_same {x : F32} (h : ∃ s n, x = fin s n) : F32.Same (0 * x) 0 ∧ F32.Same (x * 0) 0 ∧ F32.Same (-0 * x) 0 := by
  obtain ⟨s, n, rfl⟩ := h
  refine ⟨zero_mul_fin s n, ?_, ?_⟩
  · rw [Same.mul_comm]; exact zero_mul_fin s n
  · rw [neg_mul']
    exact (zero_mul_fin s n).neg.trans (.inr ⟨true, false, rfl, rfl⟩)

theorem add_zero_of {x y z : F32} (h : F32.Same x z) (h0 : F32.Same y 0) : F32.Same (x + y) z :=
  ((h.add h0).trans (add_zero_same _))

theorem sub_zero_of {x y z : F32} (h : F32.Same x z) (h0 : F32.Same y 0) : F32.Same (x - y) z :=
  add_zero_of h (h0.neg.trans (.inr ⟨true, false, rfl, rfl⟩))

theorem zero_add_of {x y z : F32} (h : F32.Same x z) (h0 : F32.Same y 0) : F32.Same (y + x) z := by
  rw [Same.add_comm]; exact add_zero_of h h0

/-- a number that is the same as a finite number is finite -/
theorem fin_of_same {x y : F32} (h : F32.Same x y) (hy : ∃ s n, y = fin s n) : ∃ s n, x = fin s n := by
  rcases h with rfl | ⟨s, t, rfl, _⟩
  · exact hy
  · exact ⟨_, _, rfl⟩

/-- **C106, identity.** The identity rotor is neutral for finite operands, on both sides and as a rotation. -/
theorem C106_identity (r : Rotor3 F32) (v : Vector3 F32) (hr : r.Finite) (hv : v.Finite) :
    Rotor3.Same (Rotor3.identity.mul r) r ∧ Rotor3.Same (r.mul Rotor3.identity) r ∧ (Rotor3.identity.rotate v).Same v := by
  obtain ⟨a, b1, b2, b3⟩ := r
  obtain ⟨u1, u2, u3⟩ := v
  obtain ⟨h0, h1, h2, h3⟩ := hr
  obtain ⟨g1, g2, g3⟩ := hv
  simp only at h0 h1 h2 h3 g1 g2 g3
  obtain ⟨_, z1, _⟩ := zero_same h1
  obtain ⟨y0, z0, _⟩ := zero_same h0
  obtain ⟨y1, z1, _⟩ := zero_same h1
  obtain ⟨y2, z2, _⟩ := zero_same h2
  obtain ⟨y3, z3, _⟩ := zero_same h3
  obtain ⟨k1, l1, m1⟩ := zero_same g1
  obtain ⟨k2, l2, m2⟩ := zero_same g2
  obtain ⟨k3, l3, m3⟩ := zero_same g3
  have one : ∀ x : F32, F32.Same (1 * x) x := fun x => .of_eq (one_mul' x)
  have one' : ∀ x : F32, F32.Same (x * 1) x := fun x => .of_eq (mul_one' x)
  refine ⟨⟨?_, ?_, ?_, ?_⟩, ⟨?_, ?_, ?_, ?_⟩, ?_⟩
  · exact sub_zero_of (sub_zero_of (sub_zero_of (one a) y1) y2) y3
  · exact add_zero_of (sub_zero_of (add_zero_of (one b1) z0) y3) y2
  · exact sub_zero_of (add_zero_of (add_zero_of (one b2) z0) y3) y1
  · exact add_zero_of (sub_zero_of (add_zero_of (one b3) z0) y2) y1
  · exact sub_zero_of (sub_zero_of (sub_zero_of (one' a) z1) z2) z3
  · exact add_zero_of (sub_zero_of (zero_add_of (one b1) z0) z2) z3
  · exact sub_zero_of (add_zero_of (zero_add_of (one b2) z0) z1) z3
  · exact add_zero_of (sub_zero_of (zero_add_of (one b3) z0) z1) z2
  · have q1 : F32.Same (1 * u1 + 0 * u2 + 0 * u3) u1 := add_zero_of (add_zero_of (one u1) k2) k3
    have q2 : F32.Same (1 * u2 - 0 * u1 + 0 * u3) u2 := add_zero_of (sub_zero_of (one u2) k1) k3
    have q3 : F32.Same (1 * u3 - 0 * u1 - 0 * u2) u3 := sub_zero_of (sub_zero_of (one u3) k1) k2
    have y : F32.Same (-0 * u3 + 0 * u2 - 0 * u1) 0 := sub_zero_of (add_zero_of m3 k2) k1
    obtain ⟨_, p1, _⟩ := zero_same (fin_of_same q1 g1)
    obtain ⟨_, p2, _⟩ := zero_same (fin_of_same q2 g2)
    obtain ⟨_, p3, _⟩ := zero_same (fin_of_same q3 g3)
    obtain ⟨_, p4, _⟩ := zero_same (fin_of_same y ⟨false, ⟨0, by decide⟩, rfl⟩)
    refine ⟨?_, ?_, ?_⟩
    · exact sub_zero_of (add_zero_of (add_zero_of ((one _).trans q1) p2) p3) p4
    · exact add_zero_of (add_zero_of (sub_zero_of ((one _).trans q2) p1) p4) p3
    · exact sub_zero_of (sub_zero_of (sub_zero_of ((one _).trans q3) p4) p1) p2

/-- the hypotheses are met, with components that are not exact -/
example : Rotor3.Finite ⟨F32.lit 1 3, ⟨F32.lit (-1) 10, F32.lit 2, F32.lit 0⟩⟩ ∧
    Vector3.Finite ⟨F32.lit 1 7, F32.lit 0, F32.lit (-5) 3⟩ :=
  ⟨⟨⟨_, _, rfl⟩, ⟨_, _, rfl⟩, ⟨_, _, rfl⟩, ⟨_, _, rfl⟩⟩, ⟨_, _, rfl⟩, ⟨_, _, rfl⟩, ⟨_, _, rfl⟩⟩

/-- finiteness is needed: the identity turns an infinite vector into NaN -/
example : (Rotor3.identity.rotate ⟨.inf false, 0, 0⟩ : Vector3 F32).a2 = .nan := by decide +kernel

/-- "up to the sign of zero" is needed: the wedge of a vector with itself is `+0`, not `-0` -/
example : ((⟨1, 1, 1⟩ : Vector3 F32).wedge ⟨1, 1, 1⟩) ≠ ((⟨1, 1, 1⟩ : Vector3 F32).wedge ⟨1, 1, 1⟩).neg := by decide +kernel

/-- the reverse of a product is *not* the product of the reverses in exchanged order: the last two summands change places -/
example : let q : Rotor3 F32 := ⟨1, ⟨0, F32.lit (2 ^ 24), 1⟩⟩
    let r : Rotor3 F32 := ⟨0, ⟨1, 1, F32.lit (-1)⟩⟩
    F32.eq (q.mul r).inverse.bivector.b1 (r.inverse.mul q.inverse).bivector.b1 = false := by
  decide +kernel

end Kami
