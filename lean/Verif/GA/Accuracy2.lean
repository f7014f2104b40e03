import Verif.GA.Accuracy
/-!
# C118: accuracy of inverses, projections, reflections, angles and products of rotors in f32

The reference values are written with the length and the inner product of real vectors; for rotors it is the product of the
algebra (C03).  All lengths lie between `2^-40` and `2^61` where the code divides by them.
-/

set_option autoImplicit false

namespace Kami.GAF32

open Kami Kami.F32 Kami.Simple Kami.DistF32

/-! ### lengths -/

/-- inner product of real vectors -/
def ip (v w : Vector3 ℝ) : ℝ := v.a1 * w.a1 + v.a2 * w.a2 + v.a3 * w.a3

theorem lenV_nonneg (v : Vector3 ℝ) : 0 ≤ lenV v := Real.sqrt_nonneg _

theorem lenV_sq (v : Vector3 ℝ) : lenV v ^ 2 = v.a1 ^ 2 + v.a2 ^ 2 + v.a3 ^ 2 := Real.sq_sqrt (by positivity)

theorem comp_le_len (v : Vector3 ℝ) : |v.a1| ≤ lenV v ∧ |v.a2| ≤ lenV v ∧ |v.a3| ≤ lenV v := by
  refine ⟨?_, ?_, ?_⟩ <;>
  · refine abs_le_of_sq_le_sq ?_ (lenV_nonneg v)
    rw [lenV_sq]
    linarith [sq_nonneg v.a1, sq_nonneg v.a2, sq_nonneg v.a3]

/-- Cauchy's inequality for the absolute products -/
theorem abs_ip_le (v w : Vector3 ℝ) : |v.a1 * w.a1| + |v.a2 * w.a2| + |v.a3 * w.a3| ≤ lenV v * lenV w := by
  refine le_of_sq_le_sq ?_ (mul_nonneg (lenV_nonneg v) (lenV_nonneg w))
  rw [mul_pow, lenV_sq, lenV_sq]
  simp only [abs_mul]
  have h1 := sq_abs v.a1
  have h2 := sq_abs v.a2
  have h3 := sq_abs v.a3
  have k1 := sq_abs w.a1
  have k2 := sq_abs w.a2
  have k3 := sq_abs w.a3
  rw [← h1, ← h2, ← h3, ← k1, ← k2, ← k3]
  generalize |v.a1| = x1
  generalize |v.a2| = x2
  generalize |v.a3| = x3
  generalize |w.a1| = y1
  generalize |w.a2| = y2
  generalize |w.a3| = y3
  linarith [sq_nonneg (x1 * y2 - x2 * y1), sq_nonneg (x1 * y3 - x3 * y1), sq_nonneg (x2 * y3 - x3 * y2)]

theorem small_len {v : Vector3 F32} (hv : SmallV v) : lenV (realV v) ≤ 2 ^ 61 := by
  obtain ⟨h1, h2, h3⟩ := hv
  have b1 := (small_fin h1).2
  have b2 := (small_fin h2).2
  have b3 := (small_fin h3).2
  rw [← toRat_toReal] at b1 b2 b3
  unfold lenV realV
  rw [Real.sqrt_le_iff]
  refine ⟨by positivity, ?_⟩
  simp only
  have s1 := sq_le_sq' (abs_le.1 b1).1 (abs_le.1 b1).2
  have s2 := sq_le_sq' (abs_le.1 b2).1 (abs_le.1 b2).2
  have s3 := sq_le_sq' (abs_le.1 b3).1 (abs_le.1 b3).2
  norm_num at s1 s2 s3 ⊢
  linarith

/-! ### inverse -/

/-- a component divided by the computed squared length -/
theorem inv_near {x n : F32} {L : ℝ} (hx : IsFin x) (hX : |toReal x| ≤ L) (hn : Near n (L ^ 2) (L ^ 2) (4 * u * L ^ 2 + 4 * η))
    (hL : 1 / 2 ^ 40 ≤ L) (hL' : L ≤ 2 ^ 61) :
    Near (x / n) (toReal x / L ^ 2) (1 / L) (8 * u * (1 / L)) := by
  have hL0 : 0 < L := lt_of_lt_of_le (by positivity) hL
  have hLL : (1 / 2 ^ 40) ^ 2 ≤ L ^ 2 := pow_le_pow_left₀ (by positivity) hL 2
  have hJ : 1 / L ≤ 2 ^ 40 := by
    rw [div_le_iff₀ hL0]
    norm_num at hL ⊢
    linarith
  have hJ' : 1 / 2 ^ 61 ≤ 1 / L := one_div_le_one_div_of_le hL0 hL'
  have hd : 4 * u * L ^ 2 + 4 * η ≤ 5 * u * L ^ 2 := by
    unfold u η
    norm_num at hLL ⊢
    linarith
  have h := (Near.mk (M := L) (ε := 0) hx hX (by simp)).div hn (Q := 1 / L) (e := 0) (d := 5 * u) (by positivity)
    (le_of_eq (by field_simp)) (by simp) hd (by unfold u; norm_num) (by
      unfold u
      norm_num at hJ ⊢
      linarith)
  refine h.weaken (le_refl _) ?_
  unfold u η
  generalize 1 / L = J at *
  norm_num at hJ hJ' ⊢
  linarith

theorem normSq_near' (v : Vector3 F32) (hv : SmallV v) :
    Near v.normSquared (lenV (realV v) ^ 2) (lenV (realV v) ^ 2) (4 * u * lenV (realV v) ^ 2 + 4 * η) := by
  have h := (normSq_near hv.1 hv.2.1 hv.2.2).1
  rw [lenV_sq]
  unfold realV
  simp only [toRat_toReal]
  exact h

theorem inv_near_vector (v : Vector3 F32) (hv : SmallV v) (hl : 1 / 2 ^ 40 ≤ lenV (realV v)) :
    Near v.inverse.a1 ((realV v).a1 / lenV (realV v) ^ 2) (1 / lenV (realV v)) (8 * u * (1 / lenV (realV v))) ∧
    Near v.inverse.a2 ((realV v).a2 / lenV (realV v) ^ 2) (1 / lenV (realV v)) (8 * u * (1 / lenV (realV v))) ∧
    Near v.inverse.a3 ((realV v).a3 / lenV (realV v) ^ 2) (1 / lenV (realV v)) (8 * u * (1 / lenV (realV v))) := by
  obtain ⟨l1, l2, l3⟩ := comp_le_len (realV v)
  have hn := normSq_near' v hv
  have hL := small_len hv
  have e : ∀ x : F32, (toRat x : ℝ) = toReal x := fun x => toRat_toReal x
  have h1 : |toReal v.a1| ≤ lenV (realV v) := by rw [← toRat_toReal]; exact l1
  have h2 : |toReal v.a2| ≤ lenV (realV v) := by rw [← toRat_toReal]; exact l2
  have h3 : |toReal v.a3| ≤ lenV (realV v) := by rw [← toRat_toReal]; exact l3
  have r1 := inv_near hv.1.1 h1 hn hl hL
  have r2 := inv_near hv.2.1.1 h2 hn hl hL
  have r3 := inv_near hv.2.2.1 h3 hn hl hL
  rw [← toRat_toReal] at r1 r2 r3
  exact ⟨r1, r2, r3⟩

/-- **C118, inverse.** For a vector of length `L` of at least `2^-40`, each component of the computed inverse is within `2^-21 / L`
of the component of `v / L^2`. -/
theorem C118_inverse_vector (v : Vector3 F32) (hv : SmallV v) (hl : 1 / 2 ^ 40 ≤ lenV (realV v)) :
    (IsFin v.inverse.a1 ∧ IsFin v.inverse.a2 ∧ IsFin v.inverse.a3) ∧
    |(realV v.inverse).a1 - (realV v).a1 / lenV (realV v) ^ 2| ≤ 1 / 2 ^ 21 / lenV (realV v) ∧
    |(realV v.inverse).a2 - (realV v).a2 / lenV (realV v) ^ 2| ≤ 1 / 2 ^ 21 / lenV (realV v) ∧
    |(realV v.inverse).a3 - (realV v).a3 / lenV (realV v) ^ 2| ≤ 1 / 2 ^ 21 / lenV (realV v) := by
  obtain ⟨h1, h2, h3⟩ := inv_near_vector v hv hl
  have e : 8 * u * (1 / lenV (realV v)) = 1 / 2 ^ 21 / lenV (realV v) := by unfold u; ring
  rw [e] at h1 h2 h3
  have e1 := h1.err
  have e2 := h2.err
  have e3 := h3.err
  rw [← toRat_toReal] at e1 e2 e3
  exact ⟨⟨h1.isFin, h2.isFin, h3.isFin⟩, e1, e2, e3⟩

theorem lenB_nonneg (b : Bivector3 ℝ) : 0 ≤ lenB b := Real.sqrt_nonneg _

/-- **C118, inverse.** The same for bivectors: the inverse is `-b / |b|^2`. -/
theorem C118_inverse_bivector (b : Bivector3 F32) (hb : SmallB b) (hl : 1 / 2 ^ 40 ≤ lenB (realB b)) :
    (IsFin b.inverse.b1 ∧ IsFin b.inverse.b2 ∧ IsFin b.inverse.b3) ∧
    |(realB b.inverse).b1 - -(realB b).b1 / lenB (realB b) ^ 2| ≤ 1 / 2 ^ 21 / lenB (realB b) ∧
    |(realB b.inverse).b2 - -(realB b).b2 / lenB (realB b) ^ 2| ≤ 1 / 2 ^ 21 / lenB (realB b) ∧
    |(realB b.inverse).b3 - -(realB b).b3 / lenB (realB b) ^ 2| ≤ 1 / 2 ^ 21 / lenB (realB b) := by
  have eV : lenB (realB b) = lenV (realV ⟨b.b1, b.b2, b.b3⟩) := rfl
  have hv : SmallV ⟨b.b1, b.b2, b.b3⟩ := hb
  obtain ⟨l1, l2, l3⟩ := comp_le_len (realV ⟨b.b1, b.b2, b.b3⟩)
  have hn : Near b.normSquared (lenB (realB b) ^ 2) (lenB (realB b) ^ 2) (4 * u * lenB (realB b) ^ 2 + 4 * η) :=
    Near.of_same (bivector_same b) (normSq_near' ⟨b.b1, b.b2, b.b3⟩ hv)
  have hL : lenB (realB b) ≤ 2 ^ 61 := small_len hv
  have c : ∀ {x : F32}, SmallNum x → |(toRat x : ℝ)| ≤ lenB (realB b) →
      Near (-x / b.normSquared) (-(toRat x : ℝ) / lenB (realB b) ^ 2) (1 / lenB (realB b)) (8 * u * (1 / lenB (realB b))) := by
    intro x hx h
    have e : toReal (-x) = -(toRat x : ℝ) := by rw [toRat_toReal]; exact toReal_neg x
    rw [← e]
    refine inv_near (neg_isFin hx.1) ?_ hn hl hL
    rw [e, abs_neg]
    exact h
  have h1 := c hb.1 l1
  have h2 := c hb.2.1 l2
  have h3 := c hb.2.2 l3
  have e : 8 * u * (1 / lenB (realB b)) = 1 / 2 ^ 21 / lenB (realB b) := by unfold u; ring
  rw [e] at h1 h2 h3
  have e1 := h1.err
  have e2 := h2.err
  have e3 := h3.err
  rw [← toRat_toReal] at e1 e2 e3
  exact ⟨⟨h1.isFin, h2.isFin, h3.isFin⟩, e1, e2, e3⟩

/-! ### projection -/

theorem dot_near' (v w : Vector3 F32) (hv : SmallV v) (hw : SmallV w) :
    Near (v.dot w) (ip (realV v) (realV w)) (lenV (realV v) * lenV (realV w))
      (4 * u * (lenV (realV v) * lenV (realV w)) + 4 * η) := by
  have h := dot_near hv.1 hv.2.1 hv.2.2 hw.1 hw.2.1 hw.2.2
  have hc := abs_ip_le (realV v) (realV w)
  simp only [← toRat_toReal] at h
  have hu := mul_le_mul_of_nonneg_left hc (mul_nonneg (by norm_num : (0 : ℝ) ≤ 4) u_pos.le)
  exact h.weaken hc (by unfold realV at hu ⊢; simp only at hu ⊢; linarith)

/-- a component of the projection -/
theorem project_comp {i d : F32} {I D U L : ℝ} (hi : Near i I (1 / L) (8 * u * (1 / L)))
    (hd : Near d D (U * L) (4 * u * (U * L) + 4 * η)) (hL : 1 / 2 ^ 40 ≤ L) (hU0 : 0 ≤ U) (hU : U ≤ 2 ^ 61) :
    Near (i * d) (I * D) U (U / 2 ^ 20 + 1 / 2 ^ 100) := by
  have hL0 : 0 < L := lt_of_lt_of_le (by positivity) hL
  have hJ : 1 / L ≤ 2 ^ 40 := by
    rw [div_le_iff₀ hL0]
    norm_num at hL ⊢
    linarith
  have hJ0 : 0 < 1 / L := by positivity
  have hJU : 1 / L * (U * L) = U := by field_simp
  have hη := η_pos
  have hηJ : η * (1 / L) ≤ 1 / 2 ^ 110 := by
    refine (mul_le_mul_of_nonneg_left hJ hη.le).trans ?_
    unfold η; norm_num
  have e1 : (1 / L + 8 * u * (1 / L)) * (U * L + (4 * u * (U * L) + 4 * η)) =
      (1 + 8 * u) * ((1 + 4 * u) * U + 4 * (η * (1 / L))) := by
    field_simp
    ring
  have h := hi.mul hd (by
    rw [e1]
    have h1 : (1 + 4 * u) * U + 4 * (η * (1 / L)) ≤ 2 ^ 62 := by
      unfold u
      norm_num at hU hηJ ⊢
      linarith
    refine (mul_le_mul_of_nonneg_left h1 (by have := u_pos; linarith)).trans ?_
    unfold u; norm_num)
  refine h.weaken (le_of_eq hJU) ?_
  rw [e1]
  have e2 : 1 / L * (4 * u * (U * L) + 4 * η) + U * L * (8 * u * (1 / L)) + 8 * u * (1 / L) * (4 * u * (U * L) + 4 * η) =
      4 * u * U + 4 * (η * (1 / L)) + 8 * u * U + 8 * u * (4 * u * U + 4 * (η * (1 / L))) := by
    field_simp
  rw [e2]
  have hη2 : η ≤ 1 / 2 ^ 110 := by unfold η; norm_num
  generalize η * (1 / L) = z at *
  unfold u
  norm_num at hηJ hη2 ⊢
  linarith

/-- **C118, project.** For `v` of length at least `2^-40`, each component of the computed projection of `w` onto `v` is within
`2^-20` of the length of `w` (and `2^-100`) of the component of `(w·v / v·v) v`. -/
theorem C118_project (w v : Vector3 F32) (hw : SmallV w) (hv : SmallV v) (hl : 1 / 2 ^ 40 ≤ lenV (realV v)) :
    let c := realV (w.project v)
    let k := ip (realV w) (realV v) / ip (realV v) (realV v)
    (IsFin (w.project v).a1 ∧ IsFin (w.project v).a2 ∧ IsFin (w.project v).a3) ∧
    |c.a1 - k * (realV v).a1| ≤ lenV (realV w) / 2 ^ 20 + 1 / 2 ^ 100 ∧
    |c.a2 - k * (realV v).a2| ≤ lenV (realV w) / 2 ^ 20 + 1 / 2 ^ 100 ∧
    |c.a3 - k * (realV v).a3| ≤ lenV (realV w) / 2 ^ 20 + 1 / 2 ^ 100 := by
  intro c k
  obtain ⟨i1, i2, i3⟩ := inv_near_vector v hv hl
  have hd := dot_near' w v hw hv
  have hk : ip (realV v) (realV v) = lenV (realV v) ^ 2 := by rw [lenV_sq]; unfold ip; ring
  have U := small_len hw
  have U0 := lenV_nonneg (realV w)
  have h1 := (project_comp i1 hd hl U0 U).err
  have h2 := (project_comp i2 hd hl U0 U).err
  have h3 := (project_comp i3 hd hl U0 U).err
  rw [← toRat_toReal] at h1 h2 h3
  have e : ∀ x : ℝ, x / lenV (realV v) ^ 2 * ip (realV w) (realV v) = k * x := by
    intro x
    show _ = ip (realV w) (realV v) / ip (realV v) (realV v) * x
    rw [hk]; ring
  rw [e] at h1 h2 h3
  exact ⟨⟨(project_comp i1 hd hl U0 U).isFin, (project_comp i2 hd hl U0 U).isFin, (project_comp i3 hd hl U0 U).isFin⟩, h1, h2, h3⟩

/-! ### reflection -/

section
variable {U L : ℝ}

/-- one product of a component of the inverse with a component of the reflected vector -/
theorem refl_prod {i w : F32} {I W : ℝ} (hi : Near i I (1 / L) (8 * u * (1 / L))) (hw : Near w W U 0)
    (hJ : 1 / L ≤ 2 ^ 40) (hU : U ≤ 2 ^ 61) : Near (i * w) (I * W) (1 / L * U) (10 * u * (1 / L * U) + η) := by
  have hJ0 := hi.nonneg.1
  have hU0 := hw.nonneg.1
  have hJU : 1 / L * U ≤ 2 ^ 40 * 2 ^ 61 := mul_le_mul hJ hU hU0 (by positivity)
  have h := hi.mul hw (by
    have : (1 / L + 8 * u * (1 / L)) * (U + 0) = (1 + 8 * u) * (1 / L * U) := by ring
    rw [this]
    unfold u
    norm_num at hJU ⊢
    linarith)
  refine h.weaken (le_refl _) ?_
  have e : 1 / L * 0 + U * (8 * u * (1 / L)) + 8 * u * (1 / L) * 0 + u * ((1 / L + 8 * u * (1 / L)) * (U + 0)) + η =
      8 * u * (1 / L * U) + u * (1 + 8 * u) * (1 / L * U) + η := by ring
  rw [e]
  have h0 := mul_nonneg hJ0 hU0
  generalize 1 / L * U = z at *
  unfold u
  norm_num
  linarith

/-- a sum of three of them -/
theorem refl_dot {x y z : F32} {X Y Z A : ℝ} (hx : Near x X A (10 * u * A + η)) (hy : Near y Y A (10 * u * A + η))
    (hz : Near z Z A (10 * u * A + η)) (hA : A ≤ 2 ^ 101) : Near (x + y + z) (X + Y + Z) (3 * A) (36 * u * A + 4 * η) := by
  have hA0 := hx.nonneg.1
  have hη := η_small
  have hη0 := η_pos
  have m1 := hx.add hy (by unfold u; norm_num at hA ⊢; linarith)
  have m2 := m1.add hz (by unfold u; norm_num at hA ⊢; linarith)
  refine m2.weaken (by linarith) ?_
  unfold u
  norm_num
  linarith

/-- a difference of two -/
theorem refl_cross {x y : F32} {X Y A : ℝ} (hx : Near x X A (10 * u * A + η)) (hy : Near y Y A (10 * u * A + η))
    (hA : A ≤ 2 ^ 101) : Near (x - y) (X - Y) (2 * A) (23 * u * A + 4 * η) := by
  have hA0 := hx.nonneg.1
  have hη := η_small
  have hη0 := η_pos
  have m1 := hx.sub hy (by unfold u; norm_num at hA ⊢; linarith)
  refine m1.weaken (by linarith) ?_
  unfold u
  norm_num
  linarith

/-- a component of the rotor times a component of the mirror -/
theorem refl_term {r v : F32} {R V k m : ℝ} (hr : Near r R (k * (1 / L * U)) (m * u * (1 / L * U) + 4 * η)) (hv : Near v V L 0)
    (hL0 : 0 < L) (hL : L ≤ 2 ^ 61) (hU0 : 0 ≤ U) (hU : U ≤ 2 ^ 61) (hk : k ≤ 3) (hm0 : 0 ≤ m) (hm : m ≤ 36) :
    Near (r * v) (R * V) (k * U) ((m + k + 1) * u * U + 1 / 2 ^ 85) := by
  have e : 1 / L * U * L = U := by field_simp
  have hη := η_pos
  have hηL : η * L ≤ 1 / 2 ^ 89 := by
    refine (mul_le_mul_of_nonneg_left hL hη.le).trans ?_
    unfold η; norm_num
  have hηL0 : 0 ≤ η * L := mul_nonneg hη.le hL0.le
  have hu := u_pos
  have e1 : (k * (1 / L * U) + (m * u * (1 / L * U) + 4 * η)) * (L + 0) = k * U + m * u * U + 4 * (η * L) := by
    field_simp
    ring
  have hkU : k * U ≤ 3 * 2 ^ 61 := mul_le_mul hk hU hU0 (by norm_num)
  have hmU : m * U ≤ 36 * 2 ^ 61 := mul_le_mul hm hU hU0 (by norm_num)
  have hmU0 : 0 ≤ m * U := mul_nonneg hm0 hU0
  have hmu : m * u * U ≤ 1 * (m * U) := by
    have : m * u * U = u * (m * U) := by ring
    rw [this]
    exact mul_le_mul_of_nonneg_right (by unfold u; norm_num) hmU0
  have h := hr.mul hv (by
    rw [e1]
    norm_num at hkU hmU hηL ⊢
    linarith)
  refine h.weaken (le_of_eq (by field_simp)) ?_
  rw [e1]
  have e2 : k * (1 / L * U) * 0 + L * (m * u * (1 / L * U) + 4 * η) + (m * u * (1 / L * U) + 4 * η) * 0 =
      m * u * U + 4 * (η * L) := by field_simp; ring
  rw [e2]
  have hmu2 : u * (m * u * U) ≤ 1 / 2 * (u * U) := by
    have : u * (m * u * U) = u * m * (u * U) := by ring
    rw [this]
    refine mul_le_mul_of_nonneg_right ?_ (mul_nonneg hu.le hU0)
    unfold u
    norm_num
    linarith
  have hη2 : η ≤ 1 / 2 ^ 110 := by unfold η; norm_num
  have huη : u * (4 * (η * L)) ≤ 4 * (η * L) := by
    have := mul_le_mul_of_nonneg_right (show u ≤ 1 by unfold u; norm_num) (show 0 ≤ 4 * (η * L) by positivity)
    linarith
  have e3 : (m + k + 1) * u * U = m * u * U + u * (k * U) + u * U := by ring
  have e4 : u * (k * U + m * u * U + 4 * (η * L)) = u * (k * U) + u * (m * u * U) + u * (4 * (η * L)) := by ring
  rw [e3, e4]
  have huU : 0 ≤ u * U := mul_nonneg hu.le hU0
  norm_num at hηL hη2 ⊢
  linarith

/-- the sum of one scalar and two bivector terms -/
theorem refl_sum {x y z : F32} {X Y Z : ℝ} (hx : Near x X (3 * U) ((36 + 3 + 1) * u * U + 1 / 2 ^ 85))
    (hy : Near y Y (2 * U) ((23 + 2 + 1) * u * U + 1 / 2 ^ 85)) (hz : Near z Z (2 * U) ((23 + 2 + 1) * u * U + 1 / 2 ^ 85))
    (hU0 : 0 ≤ U) (hU : U ≤ 2 ^ 61) : Near (x + y + z) (X + Y + Z) (7 * U) (U / 2 ^ 17 + 1 / 2 ^ 82) := by
  have m1 := hx.add hy (by unfold u; norm_num at hU ⊢; linarith)
  have m2 := m1.add hz (by unfold u; norm_num at hU ⊢; linarith)
  refine m2.weaken (by linarith) ?_
  unfold u
  norm_num
  linarith

end

/-- **C118, reflect.** For `v` of length at least `2^-40`, each component of the computed reflection of `w` about `v` is within
`2^-17` of the length of `w` (and `2^-82`) of the component of `2 (w·v / v·v) v - w`. -/
theorem C118_reflect (w v : Vector3 F32) (hw : SmallV w) (hv : SmallV v) (hl : 1 / 2 ^ 40 ≤ lenV (realV v)) :
    let c := realV (w.reflect v)
    let k := ip (realV w) (realV v) / ip (realV v) (realV v)
    (IsFin (w.reflect v).a1 ∧ IsFin (w.reflect v).a2 ∧ IsFin (w.reflect v).a3) ∧
    |c.a1 - (2 * k * (realV v).a1 - (realV w).a1)| ≤ lenV (realV w) / 2 ^ 17 + 1 / 2 ^ 82 ∧
    |c.a2 - (2 * k * (realV v).a2 - (realV w).a2)| ≤ lenV (realV w) / 2 ^ 17 + 1 / 2 ^ 82 ∧
    |c.a3 - (2 * k * (realV v).a3 - (realV w).a3)| ≤ lenV (realV w) / 2 ^ 17 + 1 / 2 ^ 82 := by
  intro c k
  obtain ⟨i1, i2, i3⟩ := inv_near_vector v hv hl
  have hL := small_len hv
  have hU := small_len hw
  have U0 := lenV_nonneg (realV w)
  have L0 : 0 < lenV (realV v) := lt_of_lt_of_le (by positivity) hl
  obtain ⟨l1, l2, l3⟩ := comp_le_len (realV v)
  obtain ⟨m1, m2, m3⟩ := comp_le_len (realV w)
  have hk : ip (realV v) (realV v) = lenV (realV v) ^ 2 := by rw [lenV_sq]; unfold ip; ring
  have hs := lenV_sq (realV v)
  have g : ∀ {x : F32} {B : ℝ}, SmallNum x → |(toRat x : ℝ)| ≤ B → Near x (toRat x : ℝ) B 0 := by
    intro x B hx hb
    rw [toRat_toReal] at hb ⊢
    exact ⟨hx.1, hb, by simp⟩
  have V1 : Near v.a1 (realV v).a1 (lenV (realV v)) 0 := g hv.1 l1
  have V2 : Near v.a2 (realV v).a2 (lenV (realV v)) 0 := g hv.2.1 l2
  have V3 : Near v.a3 (realV v).a3 (lenV (realV v)) 0 := g hv.2.2 l3
  have W1 : Near w.a1 (realV w).a1 (lenV (realV w)) 0 := g hw.1 m1
  have W2 : Near w.a2 (realV w).a2 (lenV (realV w)) 0 := g hw.2.1 m2
  have W3 : Near w.a3 (realV w).a3 (lenV (realV w)) 0 := g hw.2.2 m3
  have hkk : k = ip (realV w) (realV v) / lenV (realV v) ^ 2 := by rw [← hk]
  have ec : c = realV (w.reflect v) := rfl
  clear_value c k
  generalize lenV (realV v) = L at *
  generalize lenV (realV w) = U at *
  have hJ : 1 / L ≤ 2 ^ 40 := by
    rw [div_le_iff₀ L0]
    norm_num at hl ⊢
    linarith
  have hA : 1 / L * U ≤ 2 ^ 101 := by
    refine (mul_le_mul hJ hU U0 (by positivity)).trans ?_
    norm_num
  have pr := fun {i w : F32} {I W : ℝ} (hi : Near i I (1 / L) (8 * u * (1 / L))) (hw : Near w W U 0) => refl_prod hi hw hJ hU
  have s := refl_dot (pr i1 W1) (pr i2 W2) (pr i3 W3) hA
  have b1 := refl_cross (pr i1 W2) (pr i2 W1) hA
  have b2 := refl_cross (pr i1 W3) (pr i3 W1) hA
  have b3 := refl_cross (pr i2 W3) (pr i3 W2) hA
  have ts := fun {v : F32} {V : ℝ} (hv : Near v V L 0) =>
    refl_term s hv L0 hL U0 hU (by norm_num) (by norm_num) (by norm_num)
  have tb := fun {r v : F32} {R V : ℝ} (hr : Near r R (2 * (1 / L * U)) (23 * u * (1 / L * U) + 4 * η)) (hv : Near v V L 0) =>
    refl_term hr hv L0 hL U0 hU (by norm_num) (by norm_num) (by norm_num)
  have f1 := (refl_sum (ts V1) (tb b1 V2) (tb b2 V3) U0 hU).isFin
  have f2 := (refl_sum (ts V2) (tb b1 V1).neg (tb b3 V3) U0 hU).isFin
  have f3 := (refl_sum (ts V3) (tb b2 V1).neg (tb b3 V2).neg U0 hU).isFin
  simp only [← sub_eq_add_neg'] at f1 f2 f3
  have r1 := (refl_sum (ts V1) (tb b1 V2) (tb b2 V3) U0 hU).err
  have r2 := (refl_sum (ts V2) (tb b1 V1).neg (tb b3 V3) U0 hU).err
  have r3 := (refl_sum (ts V3) (tb b2 V1).neg (tb b3 V2).neg U0 hU).err
  simp only [← sub_eq_add_neg, ← sub_eq_add_neg'] at r1 r2 r3
  rw [← toRat_toReal] at r1 r2 r3
  have L2 : L ^ 2 ≠ 0 := by positivity
  have q1 : 2 * k * (realV v).a1 - (realV w).a1 =
      ((realV v).a1 / L ^ 2 * (realV w).a1 + (realV v).a2 / L ^ 2 * (realV w).a2 + (realV v).a3 / L ^ 2 * (realV w).a3) * (realV v).a1 +
      ((realV v).a1 / L ^ 2 * (realV w).a2 - (realV v).a2 / L ^ 2 * (realV w).a1) * (realV v).a2 +
      ((realV v).a1 / L ^ 2 * (realV w).a3 - (realV v).a3 / L ^ 2 * (realV w).a1) * (realV v).a3 := by
    rw [hkk]; unfold ip; field_simp; rw [hs]; ring
  have q2 : 2 * k * (realV v).a2 - (realV w).a2 =
      ((realV v).a1 / L ^ 2 * (realV w).a1 + (realV v).a2 / L ^ 2 * (realV w).a2 + (realV v).a3 / L ^ 2 * (realV w).a3) * (realV v).a2 -
      ((realV v).a1 / L ^ 2 * (realV w).a2 - (realV v).a2 / L ^ 2 * (realV w).a1) * (realV v).a1 +
      ((realV v).a2 / L ^ 2 * (realV w).a3 - (realV v).a3 / L ^ 2 * (realV w).a2) * (realV v).a3 := by
    rw [hkk]; unfold ip; field_simp; rw [hs]; ring
  have q3 : 2 * k * (realV v).a3 - (realV w).a3 =
      ((realV v).a1 / L ^ 2 * (realV w).a1 + (realV v).a2 / L ^ 2 * (realV w).a2 + (realV v).a3 / L ^ 2 * (realV w).a3) * (realV v).a3 -
      ((realV v).a1 / L ^ 2 * (realV w).a3 - (realV v).a3 / L ^ 2 * (realV w).a1) * (realV v).a1 -
      ((realV v).a2 / L ^ 2 * (realV w).a3 - (realV v).a3 / L ^ 2 * (realV w).a2) * (realV v).a2 := by
    rw [hkk]; unfold ip; field_simp; rw [hs]; ring
  rw [q1, q2, q3, ec]
  exact ⟨⟨f1, f2, f3⟩, r1, r2, r3⟩

/-! ### the cosine of the angle -/

/-- **C118, angle.** For two vectors of length at least `2^-40`, the number that `angle` passes to `acos` is within `2^-18` of the
cosine of the angle. -/
theorem C118_angle_cos (w v : Vector3 F32) (hw : SmallV w) (hv : SmallV v) (kl : 1 / 2 ^ 40 ≤ lenV (realV w))
    (hl : 1 / 2 ^ 40 ≤ lenV (realV v)) :
    IsFin (w.angleCos v) ∧
    |(toRat (w.angleCos v) : ℝ) - ip (realV w) (realV v) / (lenV (realV w) * lenV (realV v))| ≤ 1 / 2 ^ 18 := by
  obtain ⟨⟨f1, f2, f3⟩, e1, e2, e3, _⟩ := C107_normalize_vector w hw kl
  obtain ⟨⟨g1, g2, g3⟩, d1, d2, d3, _⟩ := C107_normalize_vector v hv hl
  obtain ⟨l1, l2, l3⟩ := comp_le_len (realV v)
  obtain ⟨m1, m2, m3⟩ := comp_le_len (realV w)
  have K0 : 0 < lenV (realV w) := lt_of_lt_of_le (by positivity) kl
  have L0 : 0 < lenV (realV v) := lt_of_lt_of_le (by positivity) hl
  have mk : ∀ {x : F32} {X L : ℝ}, IsFin x → 0 < L → |X| ≤ L → |(toRat x : ℝ) - X / L| ≤ 1 / 2 ^ 21 →
      Near x (X / L) 1 (8 * u) := by
    intro x X L hx hL hX he
    refine ⟨hx, ?_, ?_⟩
    · rw [abs_div, abs_of_pos hL, div_le_one hL]; exact hX
    · rw [← toRat_toReal]
      refine he.trans (le_of_eq ?_)
      unfold u; norm_num
  have pr : ∀ {x y : F32} {X Y : ℝ}, Near x X 1 (8 * u) → Near y Y 1 (8 * u) → Near (x * y) (X * Y) 1 (18 * u) := by
    intro x y X Y hx hy
    refine (hx.mul hy (by unfold u; norm_num)).weaken (by norm_num) ?_
    unfold u η
    norm_num
  have p1 := pr (mk f1 K0 m1 e1) (mk g1 L0 l1 d1)
  have p2 := pr (mk f2 K0 m2 e2) (mk g2 L0 l2 d2)
  have p3 := pr (mk f3 K0 m3 e3) (mk g3 L0 l3 d3)
  have s := ((p1.add p2 (by unfold u; norm_num)).add p3 (by unfold u; norm_num))
  refine ⟨s.isFin, ?_⟩
  rw [toRat_toReal]
  have ex : ip (realV w) (realV v) / (lenV (realV w) * lenV (realV v)) =
      (realV w).a1 / lenV (realV w) * ((realV v).a1 / lenV (realV v)) + (realV w).a2 / lenV (realV w) * ((realV v).a2 / lenV (realV v)) +
      (realV w).a3 / lenV (realV w) * ((realV v).a3 / lenV (realV v)) := by
    unfold ip; field_simp
  rw [ex]
  refine s.err.trans ?_
  unfold u
  norm_num

/-! ### products of rotors -/

theorem lenR_nonneg (r : Rotor3 ℝ) : 0 ≤ lenR r := Real.sqrt_nonneg _

theorem lenR_sq (r : Rotor3 ℝ) :
    lenR r ^ 2 = r.scalar ^ 2 + r.bivector.b1 ^ 2 + r.bivector.b2 ^ 2 + r.bivector.b3 ^ 2 := Real.sq_sqrt (by positivity)

/-- lengths multiply -/
theorem lenR_mul (r s : Rotor3 ℝ) : lenR (r.mul s) = lenR r * lenR s := by
  have h : lenR (r.mul s) ^ 2 = (lenR r * lenR s) ^ 2 := by
    rw [mul_pow, lenR_sq, lenR_sq, lenR_sq]
    unfold Rotor3.mul
    simp only
    ring
  exact (sq_eq_sq₀ (lenR_nonneg _) (mul_nonneg (lenR_nonneg _) (lenR_nonneg _))).1 h

/-- Cauchy's inequality in 4-space, absolute products -/
theorem cauchy4 (x1 x2 x3 x4 y1 y2 y3 y4 : ℝ) :
    |x1 * y1| + |x2 * y2| + |x3 * y3| + |x4 * y4| ≤
      Real.sqrt (x1 ^ 2 + x2 ^ 2 + x3 ^ 2 + x4 ^ 2) * Real.sqrt (y1 ^ 2 + y2 ^ 2 + y3 ^ 2 + y4 ^ 2) := by
  refine le_of_sq_le_sq ?_ (by positivity)
  rw [mul_pow, Real.sq_sqrt (by positivity), Real.sq_sqrt (by positivity)]
  simp only [abs_mul]
  rw [← sq_abs x1, ← sq_abs x2, ← sq_abs x3, ← sq_abs x4, ← sq_abs y1, ← sq_abs y2, ← sq_abs y3, ← sq_abs y4]
  generalize |x1| = x1
  generalize |x2| = x2
  generalize |x3| = x3
  generalize |x4| = x4
  generalize |y1| = y1
  generalize |y2| = y2
  generalize |y3| = y3
  generalize |y4| = y4
  linarith [sq_nonneg (x1 * y2 - x2 * y1), sq_nonneg (x1 * y3 - x3 * y1), sq_nonneg (x2 * y3 - x3 * y2),
    sq_nonneg (x1 * y4 - x4 * y1), sq_nonneg (x2 * y4 - x4 * y2), sq_nonneg (x3 * y4 - x4 * y3)]

/-- four products, added -/
theorem four_near {p q r s : F32} {P Q R S : ℝ} (hp : Near p P |P| (u * |P| + η)) (hq : Near q Q |Q| (u * |Q| + η))
    (hr : Near r R |R| (u * |R| + η)) (hs : Near s S |S| (u * |S| + η)) (bp : |P| ≤ 2 ^ 120) (bq : |Q| ≤ 2 ^ 120)
    (br : |R| ≤ 2 ^ 120) (bs : |S| ≤ 2 ^ 120) {K : ℝ} (hK : |P| + |Q| + |R| + |S| ≤ K) :
    Near (p + q + r + s) (P + Q + R + S) K (5 * u * K + 8 * η) := by
  have hη := η_small
  have hη0 := η_pos
  have p0 := abs_nonneg P
  have q0 := abs_nonneg Q
  have r0 := abs_nonneg R
  have s0 := abs_nonneg S
  have m1 := hp.add hq (by unfold u; norm_num at *; linarith)
  have m2 := m1.add hr (by unfold u; norm_num at *; linarith)
  have m3 := m2.add hs (by unfold u; norm_num at *; linarith)
  refine m3.weaken hK ?_
  clear m1 m2 m3 hp hq hr hs
  unfold u
  norm_num
  linarith

/-- a component of a product of rotors -/
theorem Near.neg_abs {x : F32} {X : ℝ} (h : Near x X |X| (u * |X| + η)) : Near (-x) (-X) |(-X)| (u * |(-X)| + η) := by
  rw [abs_neg]; exact h.neg

/-- a product of rotors, componentwise -/
theorem mul_near (r s : Rotor3 F32) (hr : SmallR r) (hs : SmallR s) :
    Near (r.mul s).scalar ((realR r).mul (realR s)).scalar (lenR (realR r) * lenR (realR s))
      (5 * u * (lenR (realR r) * lenR (realR s)) + 8 * η) ∧
    Near (r.mul s).bivector.b1 ((realR r).mul (realR s)).bivector.b1 (lenR (realR r) * lenR (realR s))
      (5 * u * (lenR (realR r) * lenR (realR s)) + 8 * η) ∧
    Near (r.mul s).bivector.b2 ((realR r).mul (realR s)).bivector.b2 (lenR (realR r) * lenR (realR s))
      (5 * u * (lenR (realR r) * lenR (realR s)) + 8 * η) ∧
    Near (r.mul s).bivector.b3 ((realR r).mul (realR s)).bivector.b3 (lenR (realR r) * lenR (realR s))
      (5 * u * (lenR (realR r) * lenR (realR s)) + 8 * η) := by
  obtain ⟨a, b1, b2, b3⟩ := r
  obtain ⟨c, d1, d2, d3⟩ := s
  obtain ⟨ha, hb1, hb2, hb3⟩ := hr
  obtain ⟨hc, hd1, hd2, hd3⟩ := hs
  simp only at ha hb1 hb2 hb3 hc hd1 hd2 hd3
  have eR : lenR (realR ⟨a, b1, b2, b3⟩) = Real.sqrt (toReal a ^ 2 + toReal b1 ^ 2 + toReal b2 ^ 2 + toReal b3 ^ 2) := by
    unfold lenR realR realB; simp only [toRat_toReal]
  have eS : lenR (realR ⟨c, d1, d2, d3⟩) = Real.sqrt (toReal c ^ 2 + toReal d1 ^ 2 + toReal d2 ^ 2 + toReal d3 ^ 2) := by
    unfold lenR realR realB; simp only [toRat_toReal]
  rw [eR, eS]
  generalize hK : Real.sqrt (toReal a ^ 2 + toReal b1 ^ 2 + toReal b2 ^ 2 + toReal b3 ^ 2) *
    Real.sqrt (toReal c ^ 2 + toReal d1 ^ 2 + toReal d2 ^ 2 + toReal d3 ^ 2) = K
  have k0 : |toReal a * toReal c| + |-(toReal b1 * toReal d1)| + |-(toReal b2 * toReal d2)| + |-(toReal b3 * toReal d3)| ≤ K := by
    rw [abs_neg, abs_neg, abs_neg, ← hK]
    exact cauchy4 _ _ _ _ _ _ _ _
  have k1 : |toReal a * toReal d1| + |toReal c * toReal b1| + |-(toReal b2 * toReal d3)| + |toReal b3 * toReal d2| ≤ K := by
    have := cauchy4 (toReal a) (toReal b1) (toReal b2) (toReal b3) (toReal d1) (toReal c) (toReal d3) (toReal d2)
    rw [abs_neg, ← hK, mul_comm (toReal c) (toReal b1)]
    refine this.trans (le_of_eq ?_)
    congr 2; ring
  have k2 : |toReal a * toReal d2| + |toReal c * toReal b2| + |toReal b1 * toReal d3| + |-(toReal b3 * toReal d1)| ≤ K := by
    have := cauchy4 (toReal a) (toReal b2) (toReal b1) (toReal b3) (toReal d2) (toReal c) (toReal d3) (toReal d1)
    rw [abs_neg, ← hK, mul_comm (toReal c) (toReal b2)]
    refine this.trans (le_of_eq ?_)
    congr 2 <;> ring
  have k3 : |toReal a * toReal d3| + |toReal c * toReal b3| + |-(toReal b1 * toReal d2)| + |toReal b2 * toReal d1| ≤ K := by
    have := cauchy4 (toReal a) (toReal b3) (toReal b1) (toReal b2) (toReal d3) (toReal c) (toReal d2) (toReal d1)
    rw [abs_neg, ← hK, mul_comm (toReal c) (toReal b3)]
    refine this.trans (le_of_eq ?_)
    congr 2 <;> ring
  have nb : ∀ {x y : F32}, SmallNum x → SmallNum y → |-(toReal x * toReal y)| ≤ 2 ^ 120 := by
    intro x y hx hy; rw [abs_neg]; exact (prod_near hx hy).2
  have n0 := four_near (prod_near ha hc).1 (Near.neg_abs (prod_near hb1 hd1).1) (Near.neg_abs (prod_near hb2 hd2).1)
    (Near.neg_abs (prod_near hb3 hd3).1) (prod_near ha hc).2 (nb hb1 hd1) (nb hb2 hd2) (nb hb3 hd3) k0
  have n1 := four_near (prod_near ha hd1).1 (prod_near hc hb1).1 (Near.neg_abs (prod_near hb2 hd3).1) (prod_near hb3 hd2).1
    (prod_near ha hd1).2 (prod_near hc hb1).2 (nb hb2 hd3) (prod_near hb3 hd2).2 k1
  have n2 := four_near (prod_near ha hd2).1 (prod_near hc hb2).1 (prod_near hb1 hd3).1 (Near.neg_abs (prod_near hb3 hd1).1)
    (prod_near ha hd2).2 (prod_near hc hb2).2 (prod_near hb1 hd3).2 (nb hb3 hd1) k2
  have n3 := four_near (prod_near ha hd3).1 (prod_near hc hb3).1 (Near.neg_abs (prod_near hb1 hd2).1) (prod_near hb2 hd1).1
    (prod_near ha hd3).2 (prod_near hc hb3).2 (nb hb1 hd2) (prod_near hb2 hd1).2 k3
  simp only [← sub_eq_add_neg, ← sub_eq_add_neg'] at n0 n1 n2 n3
  simp only [← toRat_toReal] at n0 n1 n2 n3
  exact ⟨n0, n1, n2, n3⟩

/-- **C118, product of rotors.** Each component of the computed product is within `5 * 2^-24` of the product of the lengths (and
`2^-147`) of the exact component. -/
theorem C118_rotor_product (r s : Rotor3 F32) (hr : SmallR r) (hs : SmallR s) :
    let c := realR (r.mul s)
    let e := (realR r).mul (realR s)
    let b := lenR (realR r) * lenR (realR s) * 5 / 2 ^ 24 + 1 / 2 ^ 147
    (IsFin (r.mul s).scalar ∧ IsFin (r.mul s).bivector.b1 ∧ IsFin (r.mul s).bivector.b2 ∧ IsFin (r.mul s).bivector.b3) ∧
    |c.scalar - e.scalar| ≤ b ∧ |c.bivector.b1 - e.bivector.b1| ≤ b ∧ |c.bivector.b2 - e.bivector.b2| ≤ b ∧
    |c.bivector.b3 - e.bivector.b3| ≤ b := by
  intro c e b
  obtain ⟨n0, n1, n2, n3⟩ := mul_near r s hr hs
  have eb : 5 * u * (lenR (realR r) * lenR (realR s)) + 8 * η = b := by
    show _ = lenR (realR r) * lenR (realR s) * 5 / 2 ^ 24 + 1 / 2 ^ 147
    unfold u η; ring
  rw [eb] at n0 n1 n2 n3
  have e0 := n0.err
  have e1 := n1.err
  have e2 := n2.err
  have e3 := n3.err
  rw [← toRat_toReal] at e0 e1 e2 e3
  exact ⟨⟨n0.isFin, n1.isFin, n2.isFin, n3.isFin⟩, e0, e1, e2, e3⟩

/-! ### long products -/

/-- distance of two rotors as points of 4-space -/
noncomputable def distR (r s : Rotor3 ℝ) : ℝ :=
  Real.sqrt ((r.scalar - s.scalar) ^ 2 + (r.bivector.b1 - s.bivector.b1) ^ 2 + (r.bivector.b2 - s.bivector.b2) ^ 2 +
    (r.bivector.b3 - s.bivector.b3) ^ 2)

theorem distR_nonneg (r s : Rotor3 ℝ) : 0 ≤ distR r s := Real.sqrt_nonneg _

theorem distR_eq (r s : Rotor3 ℝ) : distR r s = lenR (r.sub s) := rfl

theorem lenR_add (r s : Rotor3 ℝ) : lenR (r.add s) ≤ lenR r + lenR s := by
  refine le_of_sq_le_sq ?_ (add_nonneg (lenR_nonneg _) (lenR_nonneg _))
  have hc := cauchy4 r.scalar r.bivector.b1 r.bivector.b2 r.bivector.b3 s.scalar s.bivector.b1 s.bivector.b2 s.bivector.b3
  have hc' : r.scalar * s.scalar + r.bivector.b1 * s.bivector.b1 + r.bivector.b2 * s.bivector.b2 + r.bivector.b3 * s.bivector.b3 ≤
      lenR r * lenR s := by
    refine le_trans ?_ hc
    linarith [le_abs_self (r.scalar * s.scalar), le_abs_self (r.bivector.b1 * s.bivector.b1),
      le_abs_self (r.bivector.b2 * s.bivector.b2), le_abs_self (r.bivector.b3 * s.bivector.b3)]
  have e : (lenR r + lenR s) ^ 2 = lenR r ^ 2 + lenR s ^ 2 + 2 * (lenR r * lenR s) := by ring
  rw [e, lenR_sq, lenR_sq, lenR_sq]
  unfold Rotor3.add Bivector3.add
  simp only
  linarith

theorem distR_triangle (r s t : Rotor3 ℝ) : distR r t ≤ distR r s + distR s t := by
  have h := lenR_add (r.sub s) (s.sub t)
  have e : (r.sub s).add (s.sub t) = r.sub t := by
    unfold Rotor3.add Rotor3.sub Bivector3.add Bivector3.sub
    simp
  rw [e] at h
  exact h

theorem lenR_le_dist (r s : Rotor3 ℝ) : lenR r ≤ lenR s + distR r s := by
  have h := lenR_add s (r.sub s)
  have e : s.add (r.sub s) = r := by
    unfold Rotor3.add Rotor3.sub Bivector3.add Bivector3.sub
    simp
  rw [e] at h
  exact h

theorem distR_comm (r s : Rotor3 ℝ) : distR r s = distR s r := by
  unfold distR; congr 1; ring

/-- multiplication from the right scales distances -/
theorem distR_mul (r s t : Rotor3 ℝ) : distR (r.mul t) (s.mul t) = distR r s * lenR t := by
  rw [distR_eq, distR_eq, ← lenR_mul]
  congr 1
  unfold Rotor3.mul Rotor3.sub Bivector3.sub
  simp only [Rotor3.mk.injEq, Bivector3.mk.injEq]
  refine ⟨?_, ?_, ?_, ?_⟩ <;> ring

/-- one rounded product -/
theorem mul_dist (r s : Rotor3 F32) (hr : SmallR r) (hs : SmallR s) :
    distR (realR (r.mul s)) ((realR r).mul (realR s)) ≤ 10 * u * (lenR (realR r) * lenR (realR s)) + 16 * η := by
  obtain ⟨n0, n1, n2, n3⟩ := mul_near r s hr hs
  have e0 := n0.err
  have e1 := n1.err
  have e2 := n2.err
  have e3 := n3.err
  rw [← toRat_toReal] at e0 e1 e2 e3
  generalize hb : 5 * u * (lenR (realR r) * lenR (realR s)) + 8 * η = b at *
  have eb : 10 * u * (lenR (realR r) * lenR (realR s)) + 16 * η = 2 * b := by rw [← hb]; ring
  rw [eb]
  have hb0 : 0 ≤ b := n0.nonneg.2
  unfold distR
  rw [Real.sqrt_le_iff]
  refine ⟨by linarith, ?_⟩
  have s0 := sq_le_sq' (abs_le.1 e0).1 (abs_le.1 e0).2
  have s1 := sq_le_sq' (abs_le.1 e1).1 (abs_le.1 e1).2
  have s2 := sq_le_sq' (abs_le.1 e2).1 (abs_le.1 e2).2
  have s3 := sq_le_sq' (abs_le.1 e3).1 (abs_le.1 e3).2
  have e4 : (2 * b) ^ 2 = b ^ 2 + b ^ 2 + b ^ 2 + b ^ 2 := by ring
  rw [e4]
  exact add_le_add (add_le_add (add_le_add s0 s1) s2) s3

theorem small_of_len {r : Rotor3 F32} (h0 : IsFin r.scalar) (h1 : IsFin r.bivector.b1) (h2 : IsFin r.bivector.b2)
    (h3 : IsFin r.bivector.b3) (h : lenR (realR r) ≤ 2) : SmallR r := by
  have hs := lenR_sq (realR r)
  have hl := pow_le_pow_left₀ (lenR_nonneg (realR r)) h 2
  have c : ∀ {x : F32}, IsFin x → (toRat x : ℝ) ^ 2 ≤ 2 ^ 2 → SmallNum x := by
    intro x hx hb
    refine ⟨hx, ?_⟩
    have := abs_le_of_sq_le_sq hb (by norm_num)
    have h2 : |(toRat x : ℝ)| ≤ 2 ^ 60 := this.trans (by norm_num)
    exact_mod_cast h2
  have p0 := sq_nonneg (realR r).scalar
  have p1 := sq_nonneg (realR r).bivector.b1
  have p2 := sq_nonneg (realR r).bivector.b2
  have p3 := sq_nonneg (realR r).bivector.b3
  exact ⟨c h0 (show (realR r).scalar ^ 2 ≤ _ by linarith), c h1 (show (realR r).bivector.b1 ^ 2 ≤ _ by linarith),
    c h2 (show (realR r).bivector.b2 ^ 2 ≤ _ by linarith), c h3 (show (realR r).bivector.b3 ^ 2 ≤ _ by linarith)⟩

/-- the arithmetic of one step of a long product -/
theorem chain_step {k d e t p : ℝ} (hk : k ≤ 2 ^ 16) (hd0 : 0 ≤ d) (hd : d ≤ k / 2 ^ 20) (he : |e - 1| ≤ (k + 1) * 9 / 2 ^ 23)
    (ht : |t - 1| ≤ 1 / 2 ^ 20) (hp : p ≤ e + d) :
    10 * u * (p * t) + 16 * η + d * t ≤ (k + 1) / 2 ^ 20 ∧ |e * t - 1| ≤ (k + 2) * 9 / 2 ^ 23 := by
  obtain ⟨e1, e2⟩ := abs_le.1 he
  obtain ⟨t1, t2⟩ := abs_le.1 ht
  norm_num at hk hd e1 e2 t1 t2 ⊢
  have e3 : e ≤ 11 / 10 := by linarith
  have p3 : p ≤ 6 / 5 := by linarith
  have hpt : p * t ≤ 5 / 4 := by
    have : p * t ≤ 6 / 5 * (25 / 24) := mul_le_mul p3 (by linarith) (by linarith) (by norm_num)
    linarith
  have hdt : d * t ≤ d + d / 1048576 := by
    have : d * t ≤ d * (1 + 1 / 1048576) := mul_le_mul_of_nonneg_left (by linarith) hd0
    linarith
  constructor
  · unfold u η
    norm_num
    linarith
  · have h : |e * t - 1| ≤ |e - 1| + |e| * |t - 1| := by
      have : e * t - 1 = (e - 1) + e * (t - 1) := by ring
      rw [this]
      refine (abs_add_le _ _).trans ?_
      rw [abs_mul]
    have h2 : |e| * |t - 1| ≤ 11 / 10 * (1 / 1048576) := by
      refine mul_le_mul (abs_le.2 ⟨by linarith, e3⟩) (abs_le.2 ⟨by linarith, by linarith⟩) (abs_nonneg _) (by norm_num)
    norm_num at he
    refine h.trans ?_
    linarith

/-- **C118, long products.** Multiply up to `2^16 + 1` rotors of `f32` components whose lengths are within `2^-20` of 1, as `normalize`
returns them, from the left to the right.  With `n` multiplications the computed rotor is finite, within `n * 2^-20` of the exact
product of the given rotors, and of a length within `(n + 1) * 2^-18` of 1. -/
theorem C118_rotor_chain (r : Rotor3 F32) (rs : List (Rotor3 F32)) (hn : rs.length ≤ 2 ^ 16)
    (hs : ∀ q ∈ r :: rs, SmallR q ∧ |lenR (realR q) - 1| ≤ 1 / 2 ^ 20) :
    let c := rs.foldl Rotor3.mul r
    let e := (rs.map realR).foldl Rotor3.mul (realR r)
    SmallR c ∧ distR (realR c) e ≤ rs.length / 2 ^ 20 ∧ |lenR (realR c) - 1| ≤ (rs.length + 1) / 2 ^ 18 := by
  have main : SmallR (rs.foldl Rotor3.mul r) ∧
      distR (realR (rs.foldl Rotor3.mul r)) ((rs.map realR).foldl Rotor3.mul (realR r)) ≤ (rs.length : ℝ) / 2 ^ 20 ∧
      |lenR ((rs.map realR).foldl Rotor3.mul (realR r)) - 1| ≤ ((rs.length : ℝ) + 1) * 9 / 2 ^ 23 := by
    induction rs using List.reverseRecOn with
    | nil =>
      obtain ⟨h1, h2⟩ := hs r (by simp)
      refine ⟨h1, ?_, ?_⟩
      · simp [distR]
      · refine h2.trans ?_
        norm_num
    | append_singleton rs q ih =>
      have hlen : (rs ++ [q]).length = rs.length + 1 := by simp
      rw [hlen] at hn
      obtain ⟨i1, i2, i3⟩ := ih (by omega) fun x hx => hs x (by
        rcases List.mem_cons.1 hx with rfl | hx
        · simp
        · exact List.mem_cons_of_mem _ (List.mem_append_left _ hx))
      obtain ⟨q1, q2⟩ := hs q (by simp)
      rw [List.map_append, List.foldl_append, List.foldl_append, hlen]
      simp only [List.map_cons, List.map_nil, List.foldl_cons, List.foldl_nil]
      generalize rs.foldl Rotor3.mul r = c at *
      generalize (rs.map realR).foldl Rotor3.mul (realR r) = e at *
      have hk : ((rs.length : ℕ) : ℝ) ≤ 2 ^ 16 := by exact_mod_cast (by omega : rs.length ≤ 2 ^ 16)
      obtain ⟨s1, s2⟩ := chain_step hk (distR_nonneg _ _) i2 i3 q2 (lenR_le_dist (realR c) e)
      have hd : distR (realR (c.mul q)) (e.mul (realR q)) ≤ ((rs.length + 1 : ℕ) : ℝ) / 2 ^ 20 := by
        refine (distR_triangle _ ((realR c).mul (realR q)) _).trans ?_
        rw [distR_mul]
        have := mul_dist c q i1 q1
        push_cast
        linarith
      have hl : |lenR (e.mul (realR q)) - 1| ≤ (((rs.length + 1 : ℕ) : ℝ) + 1) * 9 / 2 ^ 23 := by
        rw [lenR_mul]
        refine s2.trans (le_of_eq ?_)
        push_cast
        ring
      refine ⟨?_, hd, hl⟩
      obtain ⟨n0, n1, n2, n3⟩ := mul_near c q i1 q1
      refine small_of_len n0.isFin n1.isFin n2.isFin n3.isFin ?_
      refine (lenR_le_dist _ (e.mul (realR q))).trans ?_
      have := (abs_le.1 hl).2
      have hk1 : ((rs.length + 1 : ℕ) : ℝ) ≤ 2 ^ 16 := by exact_mod_cast hn
      norm_num at this hd hk1 ⊢
      linarith
  intro c e
  obtain ⟨h1, h2, h3⟩ := main
  refine ⟨h1, h2, ?_⟩
  have a1 := lenR_le_dist (realR (rs.foldl Rotor3.mul r)) ((rs.map realR).foldl Rotor3.mul (realR r))
  have a2 := lenR_le_dist ((rs.map realR).foldl Rotor3.mul (realR r)) (realR (rs.foldl Rotor3.mul r))
  rw [distR_comm] at a2
  obtain ⟨b1, b2⟩ := abs_le.1 h3
  have hk0 : (0 : ℝ) ≤ (rs.length : ℝ) := Nat.cast_nonneg _
  rw [abs_le]
  show _ ≤ lenR (realR (rs.foldl Rotor3.mul r)) - 1 ∧ lenR (realR (rs.foldl Rotor3.mul r)) - 1 ≤ _
  generalize lenR (realR (rs.foldl Rotor3.mul r)) = x at *
  generalize lenR ((rs.map realR).foldl Rotor3.mul (realR r)) = y at *
  generalize distR (realR (rs.foldl Rotor3.mul r)) ((rs.map realR).foldl Rotor3.mul (realR r)) = z at *
  generalize (rs.length : ℝ) = n at *
  norm_num at h2 b1 b2 ⊢
  constructor <;> linarith

/-! ### the hypotheses -/

theorem demo_len : 1 / 2 ^ 40 ≤ lenV (realV demoVector) := by
  have h : (1 : ℚ) ≤ |toRat demoVector.a3| := by decide +kernel
  have h' : (1 : ℝ) ≤ |(toRat demoVector.a3 : ℝ)| := by exact_mod_cast h
  exact le_trans (by norm_num) (h'.trans (comp_le_len (realV demoVector)).2.2)

/-- the hypotheses of `C118_project`, `C118_reflect` and `C118_angle_cos` are met -/
example : SmallV demoVector ∧ 1 / 2 ^ 40 ≤ lenV (realV demoVector) := ⟨demo_small.2, demo_len⟩

/-- the rotor of `C107`, normalised -/
theorem demo_unit : SmallR demoRotor.normalize ∧ |lenR (realR demoRotor.normalize) - 1| ≤ 1 / 2 ^ 20 := by
  have hl : 1 / 2 ^ 40 ≤ lenR (realR demoRotor) := by
    have h : (1 : ℚ) / 4 ≤ |toRat demoRotor.scalar| := by decide +kernel
    have h' : (1 : ℝ) / 4 ≤ |(toRat demoRotor.scalar : ℝ)| := by
      have : (((1 : ℚ) / 4 : ℚ) : ℝ) ≤ ((|toRat demoRotor.scalar| : ℚ) : ℝ) := by exact_mod_cast h
      push_cast at this
      exact this
    refine le_trans (by norm_num) (h'.trans ?_)
    unfold lenR realR
    simp only
    rw [add_assoc, add_assoc]
    exact abs_le_len (by positivity)
  obtain ⟨⟨f0, f1, f2, f3⟩, _, _, _, _, h⟩ := C107_normalize_rotor demoRotor demo_small.1 hl
  refine ⟨small_of_len f0 f1 f2 f3 ?_, h⟩
  have := (abs_le.1 h).2
  norm_num at this ⊢
  linarith

/-- a thousand copies of a normalised rotor meet the hypotheses of `C118_rotor_chain` -/
example : (List.replicate 1000 demoRotor.normalize).length ≤ 2 ^ 16 ∧
    ∀ q ∈ demoRotor.normalize :: List.replicate 1000 demoRotor.normalize, SmallR q ∧ |lenR (realR q) - 1| ≤ 1 / 2 ^ 20 := by
  refine ⟨by rw [List.length_replicate]; norm_num, ?_⟩
  intro q hq
  have : q = demoRotor.normalize := by
    rcases List.mem_cons.1 hq with h | h
    · exact h
    · exact List.eq_of_mem_replicate h
  rw [this]
  exact demo_unit

/-- the lower limit matters: the squared length of a vector of length `2^-80` underflows, and the projection on it is not a number -/
example : (⟨F32.lit 1, 0, 0⟩ : Vector3 F32).project ⟨F32.lit 1 (2 ^ 80), 0, 0⟩ = ⟨.inf false, .nan, .nan⟩ := by decide +kernel

/-- and the upper limit: the squared length of a vector of length `2^64` overflows, and the projection on it is zero -/
example : (⟨F32.lit 1, 0, 0⟩ : Vector3 F32).project ⟨F32.lit (2 ^ 64), 0, 0⟩ = ⟨0, 0, 0⟩ := by decide +kernel

end Kami.GAF32
