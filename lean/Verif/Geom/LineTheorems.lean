import Verif.Geom.LineModel
import Verif.GA.Ops
import Verif.GA.Metric
/-!
# C20, C21: lines
-/

set_option autoImplicit false

namespace Kami.LineThm

open Kami Kami.GA

/-- exact counterpart of `ulps_eq(a, b, f32::EPSILON, 4)` against zero, see `ulps_zero_iff` -/
noncomputable def near (a b : XReal) : Bool := OrdScalar.abs (a - b) ≤. Scalar.epsilon

/-! ### what the f32 comparison against zero means -/

theorem sub_zero_key (b : F32) (hb : F32.isNan b = false) :
    F32.isNan (F32.sub b (F32.ofBits 0)) = false ∧ F32.key (F32.sub b (F32.ofBits 0)) = F32.key b := by
  have h : F32.eq (F32.sub b (F32.ofBits 0)) b = true := by
    -- adding -0.0 instead of +0.0 makes a difference only for the sign of a zero
    have h0 : F32.neg (F32.ofBits 0) = F32.fin true ⟨0, by decide⟩ := rfl
    rw [F32.sub, h0]
    rcases b with _ | s | ⟨s, m⟩
    · simp [F32.isNan] at hb
    · rw [F32.eq_iff]; exact ⟨rfl, rfl, rfl⟩
    · have hv : F32.val true ((⟨0, by decide⟩ : Fin 0x7f800000) : Nat) = 0 := rfl
      simp only [F32.add, hv, Int.add_zero]
      split
      · rename_i h
        rw [F32.eq_iff]; exact ⟨rfl, rfl, by simp only [F32.key, h]; cases s <;> rfl⟩
      · rename_i h
        have hr : F32.round (decide (F32.val s m < 0)) (F32.val s m).natAbs 1 = F32.fin s m := by
          have hab : (F32.val s m).natAbs = F32.mag m * 1 := by cases s <;> simp [F32.val]
          rw [F32.round, hab, F32.roundIdx_exact _ _ Nat.one_pos, F32.pack, dif_pos m.isLt]
          have hm : F32.mag m ≠ 0 := by
            intro h'; apply h; cases s <;> simp [F32.val, h']
          have hs : decide (F32.val s m < 0) = s := by
            cases s <;> simp [F32.val]; omega
          rw [hs]
        rw [hr, F32.eq_iff]; exact ⟨rfl, rfl, rfl⟩
  rw [F32.eq_iff] at h
  exact ⟨h.1, h.2.2⟩

/-- Comparing an f32 with zero by `ulps_eq(.., EPSILON, 4)` is the test `|b| <= EPSILON`: numbers within four units in
the last place of zero are far smaller than `EPSILON` anyway. -/
theorem ulps_zero_iff (b : F32) :
    F32.ulpsEq Scalar.epsilon 4 b 0 = F32.le (F32.abs b) Scalar.epsilon := by
  have hz : (0 : F32) = F32.ofBits 0 := rfl
  have hd : F32.absDiffEq Scalar.epsilon b 0 = F32.le (F32.abs b) Scalar.epsilon := by
    rcases hb : F32.isNan b with _ | _
    · obtain ⟨h1, h2⟩ := sub_zero_key b hb
      rw [Bool.eq_iff_iff, F32.absDiffEq, hz, F32.le_iff, F32.le_iff, F32.key_abs, F32.key_abs, h2]
      have e1 : F32.isNan (F32.abs (F32.sub b (F32.ofBits 0))) = false := by
        revert h1; generalize F32.sub b (F32.ofBits 0) = c; intro h; cases c <;> simp_all [F32.isNan, F32.abs]
      have e2 : F32.isNan (F32.abs b) = false := by cases b <;> simp_all [F32.isNan, F32.abs]
      rw [e1, e2]
    · cases b <;> simp [F32.isNan] at hb
      rfl
  rw [F32.ulpsEq, hd]
  split
  · rename_i h; exact h.symm
  · rename_i h
    have h' := Bool.eq_false_iff.2 h
    rw [h']
    split
    · rfl
    · rw [decide_eq_false_iff_not]
      rename_i hs
      simp only [Bool.not_eq_true', Bool.not_eq_false] at hs
      rcases b with _ | s | ⟨s, m⟩
      · exact absurd hs (by decide +kernel)
      · cases s
        · decide +kernel
        · exact absurd hs (by decide +kernel)
      · cases s
        · -- non-negative and above epsilon: many ulps away from zero
          have hm : ¬ (m.val ≤ 0x34000000) := by
            intro hm
            apply h
            rw [F32.le_iff]
            refine ⟨rfl, rfl, ?_⟩
            show F32.val false m ≤ F32.val false 0x34000000
            simp only [F32.val]
            have := F32.mag_le.2 hm
            simpa using this
          have e1 : F32.bitsI32 (F32.fin false m) = m.val := by
            have : m.val < 2 ^ 31 := by have := m.isLt; omega
            simp [F32.bitsI32, F32.toBits]; omega
          have e2 : F32.bitsI32 (0 : F32) = 0 := by decide +kernel
          have e3 : F32.u32AsI32 4 = 4 := by decide +kernel
          rw [e1, e2, e3, sub_zero, abs_of_nonneg (by omega)]
          omega
        · exact absurd hs (by
            have : F32.eq (F32.signum (F32.fin true m)) (F32.signum 0) = false := by
              show F32.eq (F32.ofBits 0xbf800000) (F32.ofBits 0x3f800000) = false
              decide +kernel
            rw [this]; decide)

/-- C20 (second half, on f32 itself): a point is accepted exactly when each component of `(x - p) ∧ u`, as computed, is
at most `f32::EPSILON` in absolute value. -/
theorem C20_contains_iff_f32 (p u x : Vector3 F32) :
    (Line.new p u).contains (F32.ulpsEq Scalar.epsilon 4) x = true ↔
      (F32.le (F32.abs ((x.sub p).wedge u).b1) Scalar.epsilon = true ∧
       F32.le (F32.abs ((x.sub p).wedge u).b2) Scalar.epsilon = true ∧
       F32.le (F32.abs ((x.sub p).wedge u).b3) Scalar.epsilon = true) := by
  simp only [Line.contains, Line.new, Bivector3.approxEq, Bivector3.zero, Bool.and_eq_true, ulps_zero_iff, and_assoc]

/-- C20, exact arithmetic: every point `p + t u` is accepted, and an accepted point spans with `u` an area whose
components are at most `2^-23`. -/
theorem C20_contains_exact (p u : Vector3 ℝ) :
    (∀ t : ℝ, (Line.new (xv p) (xv u)).contains near (xv (p.add (u.scale t))) = true) ∧
    (∀ x : Vector3 ℝ, (Line.new (xv p) (xv u)).contains near (xv x) = true ↔
      |(x.a1 - p.a1) * u.a2 - (x.a2 - p.a2) * u.a1| ≤ 1 / 2 ^ 23 ∧
      |(x.a1 - p.a1) * u.a3 - (x.a3 - p.a3) * u.a1| ≤ 1 / 2 ^ 23 ∧
      |(x.a2 - p.a2) * u.a3 - (x.a3 - p.a3) * u.a2| ≤ 1 / 2 ^ 23) := by
  have key : ∀ x : Vector3 ℝ, (Line.new (xv p) (xv u)).contains near (xv x) = true ↔
      |(x.a1 - p.a1) * u.a2 - (x.a2 - p.a2) * u.a1| ≤ 1 / 2 ^ 23 ∧
      |(x.a1 - p.a1) * u.a3 - (x.a3 - p.a3) * u.a1| ≤ 1 / 2 ^ 23 ∧
      |(x.a2 - p.a2) * u.a3 - (x.a3 - p.a3) * u.a2| ≤ 1 / 2 ^ 23 := by
    intro x
    simp only [Line.contains, Line.new, near, xv, Vector3.map, Vector3.sub, Vector3.wedge, Bivector3.approxEq,
      Bivector3.zero, XReal.zero_def, XReal.fin_sub, XReal.fin_mul, XReal.fin_abs, XReal.eps_def, XReal.fin_le,
      Bool.and_eq_true, decide_eq_true_eq, sub_zero, XReal.epsR, and_assoc]
  refine ⟨fun t => ?_, key⟩
  rw [key]
  simp only [Vector3.add, Vector3.scale]
  refine ⟨?_, ?_, ?_⟩
  · rw [show (p.a1 + u.a1 * t - p.a1) * u.a2 - (p.a2 + u.a2 * t - p.a2) * u.a1 = 0 by ring]; norm_num
  · rw [show (p.a1 + u.a1 * t - p.a1) * u.a3 - (p.a3 + u.a3 * t - p.a3) * u.a1 = 0 by ring]; norm_num
  · rw [show (p.a2 + u.a2 * t - p.a2) * u.a3 - (p.a3 + u.a3 * t - p.a3) * u.a2 = 0 by ring]; norm_num

/-- a line and points on either side of the test: (1,1,0) + t(1,2,0) contains (2,3,0) and not (-1,1,0), in f32 -/
example : (Line.new (⟨F32.lit 1, F32.lit 1, F32.lit 0⟩ : Vector3 F32) ⟨F32.lit 1, F32.lit 2, F32.lit 0⟩).contains
      (F32.ulpsEq Scalar.epsilon 4) ⟨F32.lit 2, F32.lit 3, F32.lit 0⟩ = true ∧
    (Line.new (⟨F32.lit 1, F32.lit 1, F32.lit 0⟩ : Vector3 F32) ⟨F32.lit 1, F32.lit 2, F32.lit 0⟩).contains
      (F32.ulpsEq Scalar.epsilon 4) ⟨F32.lit (-1), F32.lit 1, F32.lit 0⟩ = false := by decide +kernel

/-- C20 on f32: the points `p + t u` as computed in f32 are not always accepted; here `p = (1/5, 1/10, 0)`,
`u = (1, 1, 0)`, `t = 4`. -/
theorem C20_counterexample_f32 :
    ∃ (p u : Vector3 F32) (t : F32), FinF t ∧
      (Line.new p u).contains (F32.ulpsEq Scalar.epsilon 4) (p.add (u.scale t)) = false :=
  ⟨⟨F32.lit 1 5, F32.lit 1 10, F32.lit 0⟩, ⟨F32.lit 1, F32.lit 1, F32.lit 0⟩, F32.lit 4, ⟨_, _, rfl⟩, by decide +kernel⟩

/-- C21 fails: `intersect` returns `None` for all lines, although, for instance, the two coordinate axes meet in the
origin. -/
theorem C21_counterexample :
    (∀ l m : Line F32, l.intersect m = none) ∧
    ∃ l m : Line ℝ, ∃! x : Vector3 ℝ, (∃ s, x = l.point.add (l.direction.scale s)) ∧
      (∃ t, x = m.point.add (m.direction.scale t)) := by
  refine ⟨fun _ _ => rfl, Line.new ⟨0, 0, 0⟩ ⟨1, 0, 0⟩, Line.new ⟨0, 0, 0⟩ ⟨0, 1, 0⟩, ⟨0, 0, 0⟩, ?_, ?_⟩
  · exact ⟨⟨0, by ext <;> simp [Line.new, Vector3.add, Vector3.scale]⟩,
      ⟨0, by ext <;> simp [Line.new, Vector3.add, Vector3.scale]⟩⟩
  · rintro x ⟨⟨s, hs⟩, ⟨t, ht⟩⟩
    rw [hs] at ht
    simp [Line.new, Vector3.add, Vector3.scale] at ht
    rw [hs]
    ext <;> simp [Line.new, Vector3.add, Vector3.scale, ht.1]

end Kami.LineThm
