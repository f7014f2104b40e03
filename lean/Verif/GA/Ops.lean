import Verif.GA.Model
import Verif.Num.Approx
import Mathlib.Tactic.Linarith
/-!
# C15, C16 and the f32 parts of C09, C13
-/

set_option autoImplicit false

namespace Kami.GA

open Kami

/-! ## C15 -/

/-- C15: compound assignment equals the plain operator, for any scalar type whatsoever. -/
theorem C15_assign {T : Type} [Add T] [Sub T] [Mul T] [Div T]
    (u v : Vector3 T) (b c : Bivector3 T) (s t : Trivector3 T) (q r : Rotor3 T) (k : T) :
    (u.addAssign v = u.add v ∧ u.subAssign v = u.sub v ∧ u.mulAssign k = u.scale k ∧ u.divAssign k = u.divScalar k) ∧
    (b.addAssign c = b.add c ∧ b.subAssign c = b.sub c ∧ b.mulAssign k = b.scale k ∧ b.divAssign k = b.divScalar k) ∧
    (s.addAssign t = s.add t ∧ s.subAssign t = s.sub t ∧ s.mulAssign k = ⟨s.t1 * k⟩ ∧ s.divAssign k = s.divScalar k) ∧
    (q.addAssign r = q.add r ∧ q.subAssign r = q.sub r ∧ q.mulAssign k = q.scale k ∧ q.divAssign k = q.divScalar k) :=
  ⟨⟨rfl, rfl, rfl, rfl⟩, ⟨rfl, rfl, rfl, rfl⟩, ⟨rfl, rfl, rfl, rfl⟩, ⟨rfl, rfl, rfl, rfl⟩⟩

/-- C15: what the plain operators are, componentwise, for any scalar type. -/
theorem C15_componentwise {T : Type} [Add T] [Sub T] [Mul T] [Div T] (u v : Vector3 T) (b c : Bivector3 T)
    (s t : Trivector3 T) (q r : Rotor3 T) (k : T) :
    (u.add v = ⟨u.a1 + v.a1, u.a2 + v.a2, u.a3 + v.a3⟩ ∧ u.sub v = ⟨u.a1 - v.a1, u.a2 - v.a2, u.a3 - v.a3⟩ ∧
      u.scale k = ⟨u.a1 * k, u.a2 * k, u.a3 * k⟩ ∧ u.divScalar k = ⟨u.a1 / k, u.a2 / k, u.a3 / k⟩) ∧
    (b.add c = ⟨b.b1 + c.b1, b.b2 + c.b2, b.b3 + c.b3⟩ ∧ b.sub c = ⟨b.b1 - c.b1, b.b2 - c.b2, b.b3 - c.b3⟩ ∧
      b.scale k = ⟨b.b1 * k, b.b2 * k, b.b3 * k⟩ ∧ b.divScalar k = ⟨b.b1 / k, b.b2 / k, b.b3 / k⟩) ∧
    (s.add t = ⟨s.t1 + t.t1⟩ ∧ s.sub t = ⟨s.t1 - t.t1⟩ ∧ s.divScalar k = ⟨s.t1 / k⟩) ∧
    (q.add r = ⟨q.scalar + r.scalar, q.bivector.add r.bivector⟩ ∧
      q.sub r = ⟨q.scalar - r.scalar, q.bivector.sub r.bivector⟩ ∧
      q.scale k = ⟨q.scalar * k, q.bivector.scale k⟩ ∧ q.divScalar k = ⟨q.scalar / k, q.bivector.divScalar k⟩) :=
  ⟨⟨rfl, rfl, rfl, rfl⟩, ⟨rfl, rfl, rfl, rfl⟩, ⟨rfl, rfl, rfl⟩, ⟨rfl, rfl, rfl, rfl⟩⟩

/-- C15: `zero()` is neutral in any additive monoid, and `is_zero()` recognises exactly `zero()` when the component
type's does. -/
theorem C15_zero {T : Type} [AddZeroClass T] (isZ : T → Bool) (hz : ∀ x, isZ x = true ↔ x = 0)
    (u : Vector3 T) (b : Bivector3 T) (t : Trivector3 T) :
    (u.add Vector3.zero = u ∧ Vector3.zero.add u = u ∧ (u.isZero isZ = true ↔ u = Vector3.zero)) ∧
    (b.add Bivector3.zero = b ∧ Bivector3.zero.add b = b ∧ (b.isZero isZ = true ↔ b = Bivector3.zero)) ∧
    (t.add Trivector3.zero = t ∧ Trivector3.zero.add t = t ∧ (t.isZero isZ = true ↔ t = Trivector3.zero)) := by
  refine ⟨⟨?_, ?_, ?_⟩, ⟨?_, ?_, ?_⟩, ⟨?_, ?_, ?_⟩⟩
  · ext <;> simp [Vector3.add, Vector3.zero]
  · ext <;> simp [Vector3.add, Vector3.zero]
  · simp [Vector3.isZero, hz, Vector3.zero, Vector3.ext_iff, and_assoc]
  · ext <;> simp [Bivector3.add, Bivector3.zero]
  · ext <;> simp [Bivector3.add, Bivector3.zero]
  · simp [Bivector3.isZero, hz, Bivector3.zero, Bivector3.ext_iff, and_assoc]
  · ext; simp [Trivector3.add, Trivector3.zero]
  · ext; simp [Trivector3.add, Trivector3.zero]
  · simp [Trivector3.isZero, hz, Trivector3.zero, Trivector3.ext_iff]

/-- the hypothesis is satisfied by the rational test `x == 0` -/
example : ∀ x : Int, (fun x : Int => x == 0) x = true ↔ x = 0 := by simp

open F32 in
/-- adding `0.0` does not change an f32 that is not NaN, up to the sign of zero -/
theorem f32_add_zero (x : F32) (hx : isNan x = false) : F32.eq (F32.add x (ofBits 0)) x = true := by
  have h0 : ofBits 0 = fin false ⟨0, by decide⟩ := rfl
  rw [h0]
  rcases x with _ | s | ⟨s, m⟩
  · simp [isNan] at hx
  · rw [eq_iff]; exact ⟨rfl, rfl, rfl⟩
  · have hv : val false ((⟨0, by decide⟩ : Fin 0x7f800000) : Nat) = 0 := rfl
    simp only [F32.add, hv, Int.add_zero]
    split
    · rename_i h
      rw [eq_iff]; exact ⟨rfl, rfl, by simp only [key, h]; cases s <;> rfl⟩
    · rename_i h
      have hr : F32.round (decide (val s m < 0)) (val s m).natAbs 1 = fin s m := by
        have hab : (val s m).natAbs = mag m * 1 := by cases s <;> simp [val]
        rw [F32.round, hab, roundIdx_exact _ _ Nat.one_pos, pack, dif_pos m.isLt]
        have hm : mag m ≠ 0 := by
          intro h'; apply h; cases s <;> simp [val, h']
        have hs : decide (val s m < 0) = s := by
          cases s <;> simp [val]; omega
        rw [hs]
      rw [hr, eq_iff]; exact ⟨rfl, rfl, rfl⟩

/-- C15 on `f32`: `zero()` is neutral for `+` with respect to `==` for values without NaN components, and `is_zero`
holds exactly of the values `== zero()`. -/
theorem C15_zero_f32 (u : Vector3 F32) (h1 : F32.isNan u.a1 = false) (h2 : F32.isNan u.a2 = false)
    (h3 : F32.isNan u.a3 = false) :
    (Vector3.approxEq F32.eq (u.add Vector3.zero) u = true) ∧
    (u.isZero (fun x => F32.eq x 0) = true ↔ Vector3.approxEq F32.eq u Vector3.zero = true) := by
  constructor
  · simp only [Vector3.approxEq, Bool.and_eq_true]
    exact ⟨⟨f32_add_zero _ h1, f32_add_zero _ h2⟩, f32_add_zero _ h3⟩
  · rfl

example : F32.isNan (F32.lit 3) = false ∧ F32.isNan (F32.lit (-1) 3) = false := by decide +kernel

/-! ## C16 -/

/-- C16: the comparisons hold exactly when they hold for every component (for every comparison of components). -/
theorem C16_componentwise {T : Type} (cmp : T → T → Bool) (u v : Vector3 T) (b c : Bivector3 T) (s t : Trivector3 T)
    (q r : Rotor3 T) :
    (u.approxEq cmp v = true ↔ cmp u.a1 v.a1 = true ∧ cmp u.a2 v.a2 = true ∧ cmp u.a3 v.a3 = true) ∧
    (b.approxEq cmp c = true ↔ cmp b.b1 c.b1 = true ∧ cmp b.b2 c.b2 = true ∧ cmp b.b3 c.b3 = true) ∧
    (s.approxEq cmp t = true ↔ cmp s.t1 t.t1 = true) ∧
    (q.approxEq cmp r = true ↔ cmp q.scalar r.scalar = true ∧ cmp q.bivector.b1 r.bivector.b1 = true ∧
      cmp q.bivector.b2 r.bivector.b2 = true ∧ cmp q.bivector.b3 r.bivector.b3 = true) := by
  simp [Vector3.approxEq, Bivector3.approxEq, Trivector3.approxEq, Rotor3.approxEq, and_assoc]

/-- the three f32 comparisons, with their tolerances -/
inductive Tol
  | absDiff (eps : F32)
  | relative (eps maxRelative : F32)
  | ulps (eps : F32) (maxUlps : Nat)

/-- the comparison a tolerance stands for -/
def Tol.cmp : Tol → F32 → F32 → Bool
  | absDiff e => F32.absDiffEq e
  | relative e r => F32.relativeEq e r
  | ulps e u => F32.ulpsEq e u

/-- tolerances for which the comparisons are meant: a non-negative `epsilon`, `max_ulps` within `i32` -/
def Tol.Sane : Tol → Prop
  | absDiff e => F32.le (F32.ofBits 0) e = true
  | relative _ _ => True
  | ulps _ u => u < 2 ^ 31

theorem Tol.cmp_symm (c : Tol) (a b : F32) : c.cmp a b = c.cmp b a := by
  cases c
  · exact F32.absDiffEq_symm _ _ _
  · exact F32.relativeEq_symm _ _ _ _
  · exact F32.ulpsEq_symm _ _ _ _

theorem Tol.cmp_refl (c : Tol) (hc : c.Sane) (a : F32) (ha : ∃ s n, a = F32.fin s n) : c.cmp a a = true := by
  have hn : F32.isNan a = false := by obtain ⟨s, n, rfl⟩ := ha; rfl
  cases c
  · exact F32.absDiffEq_refl _ _ ha hc
  · exact F32.relativeEq_refl _ _ _ hn
  · exact F32.ulpsEq_refl _ _ _ hn hc

/-- C16: on `f32` all three comparisons of all four types are symmetric, whatever the values and tolerances. -/
theorem C16_symmetric (c : Tol) (u v : Vector3 F32) (a b : Bivector3 F32) (s t : Trivector3 F32) (q r : Rotor3 F32) :
    u.approxEq c.cmp v = v.approxEq c.cmp u ∧ a.approxEq c.cmp b = b.approxEq c.cmp a ∧
    s.approxEq c.cmp t = t.approxEq c.cmp s ∧ q.approxEq c.cmp r = r.approxEq c.cmp q := by
  refine ⟨?_, ?_, ?_, ?_⟩
  · simp only [Vector3.approxEq]; rw [c.cmp_symm u.a1, c.cmp_symm u.a2, c.cmp_symm u.a3]
  · simp only [Bivector3.approxEq]; rw [c.cmp_symm a.b1, c.cmp_symm a.b2, c.cmp_symm a.b3]
  · simp only [Trivector3.approxEq]; rw [c.cmp_symm s.t1]
  · simp only [Rotor3.approxEq, Bivector3.approxEq]
    rw [c.cmp_symm q.scalar, c.cmp_symm q.bivector.b1, c.cmp_symm q.bivector.b2, c.cmp_symm q.bivector.b3]

/-- finite f32 -/
def FinF (a : F32) : Prop := ∃ s n, a = F32.fin s n

/-- C16: on finite `f32` values they are reflexive. -/
theorem C16_reflexive (c : Tol) (hc : c.Sane) (u : Vector3 F32) (b : Bivector3 F32) (t : Trivector3 F32) (r : Rotor3 F32)
    (hu : FinF u.a1 ∧ FinF u.a2 ∧ FinF u.a3) (hb : FinF b.b1 ∧ FinF b.b2 ∧ FinF b.b3) (ht : FinF t.t1)
    (hr : FinF r.scalar ∧ FinF r.bivector.b1 ∧ FinF r.bivector.b2 ∧ FinF r.bivector.b3) :
    u.approxEq c.cmp u = true ∧ b.approxEq c.cmp b = true ∧ t.approxEq c.cmp t = true ∧ r.approxEq c.cmp r = true := by
  have h := c.cmp_refl hc
  obtain ⟨h1, h2, h3, h4⟩ := C16_componentwise c.cmp u u b b t t r r
  exact ⟨h1.2 ⟨h _ hu.1, h _ hu.2.1, h _ hu.2.2⟩, h2.2 ⟨h _ hb.1, h _ hb.2.1, h _ hb.2.2⟩, h3.2 (h _ ht),
    h4.2 ⟨h _ hr.1, h _ hr.2.1, h _ hr.2.2.1, h _ hr.2.2.2⟩⟩

/-- the tolerances used by the code and its tests satisfy the hypothesis -/
example : (Tol.absDiff Scalar.epsilon).Sane ∧ (Tol.relative Scalar.epsilon Scalar.epsilon).Sane ∧
    (Tol.ulps Scalar.epsilon 4).Sane ∧ FinF (F32.lit 1 10) := by
  refine ⟨by show F32.le _ _ = true; decide +kernel, trivial, by show 4 < 2 ^ 31; norm_num, _, _, rfl⟩

/-! ## C09 and C13 on f32 -/

/-- C09 on `f32`: normalising the zero value gives NaN in every component. -/
theorem C09_normalize_zero_f32 :
    (Vector3.zero : Vector3 F32).normalize = ⟨.nan, .nan, .nan⟩ ∧
    (Bivector3.zero : Bivector3 F32).normalize = ⟨.nan, .nan, .nan⟩ ∧
    (Trivector3.zero : Trivector3 F32).normalize = ⟨.nan⟩ ∧
    (⟨0, Bivector3.zero⟩ : Rotor3 F32).normalize = ⟨.nan, ⟨.nan, .nan, .nan⟩⟩ := by
  decide +kernel

/-- C13 fails in `f32`: the vector (4, 1, 0) makes an angle with itself whose cosine is computed as a number above 1,
so that every arc cosine following IEEE-754 (NaN outside [-1, 1]) returns NaN. -/
theorem C13_counterexample_f32 :
    ∃ u : Vector3 F32, FinF u.a1 ∧ FinF u.a2 ∧ FinF u.a3 ∧ u.isZero (fun x => F32.eq x 0) = false ∧
      F32.lt 1 (u.angleCos u) = true ∧
      ∀ trig : TrigScalar F32, trig.toScalar = inferInstanceAs (Scalar F32) →
        (∀ x, F32.lt 1 x = true → trig.acos x = .nan) → @Vector3.angle F32 trig u u = .nan := by
  have hc : F32.lt 1 ((⟨F32.lit 4, F32.lit 1, F32.lit 0⟩ : Vector3 F32).angleCos ⟨F32.lit 4, F32.lit 1, F32.lit 0⟩) = true := by
    decide +kernel
  refine ⟨⟨F32.lit 4, F32.lit 1, F32.lit 0⟩, ⟨_, _, rfl⟩, ⟨_, _, rfl⟩, ⟨_, _, rfl⟩, by decide +kernel, hc, ?_⟩
  intro trig ht h
  unfold Vector3.angle
  apply h
  cases trig with
  | mk sin cos acos pi two =>
    subst ht
    exact hc

end Kami.GA
