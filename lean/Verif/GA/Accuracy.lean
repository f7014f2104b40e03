import Verif.GA.Model
import Verif.Num.F32Near
import Verif.Num.F32Same
/-!
# C107: accuracy of the algebra in f32

Rounding error bounds for the inner and outer product, the norms, `normalize` and `rotate` of `f32` values whose components are at
most `2^60` (and, where the code divides by a norm, whose norm is at least `2^-40`).
-/

set_option autoImplicit false

namespace Kami.GAF32

open Kami Kami.F32 Kami.Simple Kami.DistF32

/-! ### the real numbers behind the floats -/

/-- the exact value of a vector -/
noncomputable def realV (v : Vector3 F32) : Vector3 ℝ := ⟨(toRat v.a1 : ℝ), (toRat v.a2 : ℝ), (toRat v.a3 : ℝ)⟩
/-- the exact value of a bivector -/
noncomputable def realB (b : Bivector3 F32) : Bivector3 ℝ := ⟨(toRat b.b1 : ℝ), (toRat b.b2 : ℝ), (toRat b.b3 : ℝ)⟩
/-- the exact value of a rotor -/
noncomputable def realR (r : Rotor3 F32) : Rotor3 ℝ := ⟨(toRat r.scalar : ℝ), realB r.bivector⟩

/-- finite components of absolute value at most `2^60` -/
def SmallV (v : Vector3 F32) : Prop := SmallNum v.a1 ∧ SmallNum v.a2 ∧ SmallNum v.a3
/-- finite components of absolute value at most `2^60` -/
def SmallB (b : Bivector3 F32) : Prop := SmallNum b.b1 ∧ SmallNum b.b2 ∧ SmallNum b.b3
/-- finite components of absolute value at most `2^60` -/
def SmallR (r : Rotor3 F32) : Prop := SmallNum r.scalar ∧ SmallB r.bivector

/-- length of a vector -/
noncomputable def lenV (v : Vector3 ℝ) : ℝ := Real.sqrt (v.a1 ^ 2 + v.a2 ^ 2 + v.a3 ^ 2)
/-- area of a bivector -/
noncomputable def lenB (b : Bivector3 ℝ) : ℝ := Real.sqrt (b.b1 ^ 2 + b.b2 ^ 2 + b.b3 ^ 2)
/-- length of a rotor as a point of 4-space -/
noncomputable def lenR (r : Rotor3 ℝ) : ℝ := Real.sqrt (r.scalar ^ 2 + r.bivector.b1 ^ 2 + r.bivector.b2 ^ 2 + r.bivector.b3 ^ 2)

/-! ### products -/

theorem prod_near {x y : F32} (hx : SmallNum x) (hy : SmallNum y) :
    Near (x * y) (toReal x * toReal y) |toReal x * toReal y| (u * |toReal x * toReal y| + η) ∧
    |toReal x * toReal y| ≤ 2 ^ 120 := by
  obtain ⟨fx, bx⟩ := small_fin hx
  obtain ⟨fy, by'⟩ := small_fin hy
  have hb : |toReal x * toReal y| ≤ 2 ^ 120 := by
    rw [abs_mul]
    refine (mul_le_mul bx by' (abs_nonneg _) (by norm_num)).trans ?_
    norm_num
  have := (Near.exact fx).mul (Near.exact fy) (by
    rw [add_zero, add_zero, ← abs_mul]
    exact hb.trans (by norm_num))
  refine ⟨this.weaken (by rw [abs_mul]) (le_of_eq ?_), hb⟩
  rw [abs_mul]; ring

theorem η_small : η ≤ 1 := by unfold η; norm_num

/-- three products, added -/
theorem dot_near {x1 x2 x3 y1 y2 y3 : F32} (h1 : SmallNum x1) (h2 : SmallNum x2) (h3 : SmallNum x3) (k1 : SmallNum y1)
    (k2 : SmallNum y2) (k3 : SmallNum y3) :
    Near (x1 * y1 + x2 * y2 + x3 * y3) (toReal x1 * toReal y1 + toReal x2 * toReal y2 + toReal x3 * toReal y3)
      (|toReal x1 * toReal y1| + |toReal x2 * toReal y2| + |toReal x3 * toReal y3|)
      (4 * u * (|toReal x1 * toReal y1| + |toReal x2 * toReal y2| + |toReal x3 * toReal y3|) + 4 * η) := by
  obtain ⟨n1, b1⟩ := prod_near h1 k1
  obtain ⟨n2, b2⟩ := prod_near h2 k2
  obtain ⟨n3, b3⟩ := prod_near h3 k3
  have hη := η_small
  have hη0 := η_pos
  have p1 := abs_nonneg (toReal x1 * toReal y1)
  have p2 := abs_nonneg (toReal x2 * toReal y2)
  have p3 := abs_nonneg (toReal x3 * toReal y3)
  generalize toReal x1 * toReal y1 = P1 at *
  generalize toReal x2 * toReal y2 = P2 at *
  generalize toReal x3 * toReal y3 = P3 at *
  have m1 := n1.add n2 (by unfold u; norm_num at *; linarith)
  have m2 := m1.add n3 (by unfold u; norm_num at *; linarith)
  refine m2.weaken (le_refl _) ?_
  unfold u
  norm_num
  linarith

/-- a difference of two products -/
theorem cross_near {x1 x2 y1 y2 : F32} (h1 : SmallNum x1) (h2 : SmallNum x2) (k1 : SmallNum y1) (k2 : SmallNum y2) :
    Near (x1 * y1 - x2 * y2) (toReal x1 * toReal y1 - toReal x2 * toReal y2)
      (|toReal x1 * toReal y1| + |toReal x2 * toReal y2|)
      (3 * u * (|toReal x1 * toReal y1| + |toReal x2 * toReal y2|) + 4 * η) := by
  obtain ⟨n1, b1⟩ := prod_near h1 k1
  obtain ⟨n2, b2⟩ := prod_near h2 k2
  have hη := η_small
  have hη0 := η_pos
  have p1 := abs_nonneg (toReal x1 * toReal y1)
  have p2 := abs_nonneg (toReal x2 * toReal y2)
  generalize toReal x1 * toReal y1 = P1 at *
  generalize toReal x2 * toReal y2 = P2 at *
  have m1 := n1.sub n2 (by unfold u; norm_num at *; linarith)
  refine m1.weaken (le_refl _) ?_
  unfold u
  norm_num
  linarith

theorem four_η : 4 * η = 1 / 2 ^ 148 := by unfold η; norm_num

/-- **C107, inner product.** The computed inner product of two vectors is finite; its error is at most `2^-22` of the sum of the
absolute products, plus `2^-148` for underflow. -/
theorem C107_dot (v w : Vector3 F32) (hv : SmallV v) (hw : SmallV w) :
    IsFin (v.dot w) ∧ |(toRat (v.dot w) : ℝ) - (realV v).dot (realV w)| ≤
      (|(realV v).a1 * (realV w).a1| + |(realV v).a2 * (realV w).a2| + |(realV v).a3 * (realV w).a3|) / 2 ^ 22 + 1 / 2 ^ 148 := by
  have h := dot_near hv.1 hv.2.1 hv.2.2 hw.1 hw.2.1 hw.2.2
  unfold Vector3.dot realV
  simp only [toRat_toReal]
  refine ⟨h.isFin, h.err.trans (le_of_eq ?_)⟩
  rw [four_η]
  unfold u
  ring

/-- **C107, outer product.** Each component of the computed wedge product of two vectors is finite, with an error of at most
`3 * 2^-24` of the two absolute products, plus `2^-148`. -/
theorem C107_wedge (v w : Vector3 F32) (hv : SmallV v) (hw : SmallV w) :
    IsFin (v.wedge w).b1 ∧ IsFin (v.wedge w).b2 ∧ IsFin (v.wedge w).b3 ∧
    |(realB (v.wedge w)).b1 - ((realV v).wedge (realV w)).b1| ≤
      (|(realV v).a1 * (realV w).a2| + |(realV v).a2 * (realV w).a1|) * 3 / 2 ^ 24 + 1 / 2 ^ 148 ∧
    |(realB (v.wedge w)).b2 - ((realV v).wedge (realV w)).b2| ≤
      (|(realV v).a1 * (realV w).a3| + |(realV v).a3 * (realV w).a1|) * 3 / 2 ^ 24 + 1 / 2 ^ 148 ∧
    |(realB (v.wedge w)).b3 - ((realV v).wedge (realV w)).b3| ≤
      (|(realV v).a2 * (realV w).a3| + |(realV v).a3 * (realV w).a2|) * 3 / 2 ^ 24 + 1 / 2 ^ 148 := by
  obtain ⟨v1, v2, v3⟩ := hv
  obtain ⟨w1, w2, w3⟩ := hw
  have a := cross_near v1 v2 w2 w1
  have b := cross_near v1 v3 w3 w1
  have c := cross_near v2 v3 w3 w2
  have key : ∀ P Q : ℝ, 3 * u * (P + Q) + 4 * η = (P + Q) * 3 / 2 ^ 24 + 1 / 2 ^ 148 := by
    intro P Q; rw [four_η]; unfold u; ring
  unfold Vector3.wedge realV realB
  simp only [toRat_toReal]
  exact ⟨a.isFin, b.isFin, c.isFin, a.err.trans (le_of_eq (key _ _)), b.err.trans (le_of_eq (key _ _)),
    c.err.trans (le_of_eq (key _ _))⟩

/-! ### norms -/

theorem sq_nonneg_f {x : F32} (hx : SmallNum x) : 0 ≤ toReal (x * x) :=
  mul_self_nonneg' (small_fin hx).1 (prod_near hx hx).1.isFin

/-- the squared length of a vector -/
theorem normSq_near {x y z : F32} (hx : SmallNum x) (hy : SmallNum y) (hz : SmallNum z) :
    Near (x * x + y * y + z * z) (toReal x ^ 2 + toReal y ^ 2 + toReal z ^ 2) (toReal x ^ 2 + toReal y ^ 2 + toReal z ^ 2)
      (4 * u * (toReal x ^ 2 + toReal y ^ 2 + toReal z ^ 2) + 4 * η) ∧ 0 ≤ toReal (x * x + y * y + z * z) := by
  have h := dot_near hx hy hz hx hy hz
  have hs : ∀ a : ℝ, |a * a| = a ^ 2 := fun a => by rw [abs_mul_self, sq]
  simp only [hs] at h
  have e : toReal x * toReal x + toReal y * toReal y + toReal z * toReal z = toReal x ^ 2 + toReal y ^ 2 + toReal z ^ 2 := by ring
  rw [e] at h
  refine ⟨h, ?_⟩
  have hη := η_small
  have hη0 := η_pos
  obtain ⟨n1, b1⟩ := prod_near hx hx
  obtain ⟨n2, b2⟩ := prod_near hy hy
  have f12 : IsFin (x * x + y * y) := by
    refine (n1.add n2 ?_).isFin
    unfold u; norm_num at *; linarith
  exact add_nonneg' f12 (prod_near hz hz).1.isFin h.isFin
    (add_nonneg' n1.isFin n2.isFin f12 (sq_nonneg_f hx) (sq_nonneg_f hy)) (sq_nonneg_f hz)

/-- from the squared norm to the norm -/
theorem root_of {s : F32} {D : ℝ} (hD : 0 ≤ D) (h : Near s D D (6 * u * D + 8 * η)) (h0 : 0 ≤ toReal s) :
    IsFin (F32.sqrt s) ∧ |toReal (F32.sqrt s) - Real.sqrt D| ≤ 5 * u * Real.sqrt D + 1 / 2 ^ 72 :=
  ⟨sqrt_isFin h.isFin h0, root_near hD h.err (sqrt_err h.isFin h0)⟩

theorem five_u (d : ℝ) : 5 * u * d + 1 / 2 ^ 72 = d * 5 / 2 ^ 24 + 1 / 2 ^ 72 := by unfold u; ring

/-- **C107, length of a vector.** -/
theorem C107_norm_vector (v : Vector3 F32) (hv : SmallV v) :
    IsFin v.norm ∧ |(toRat v.norm : ℝ) - lenV (realV v)| ≤ lenV (realV v) * 5 / 2 ^ 24 + 1 / 2 ^ 72 := by
  obtain ⟨h, h0⟩ := normSq_near hv.1 hv.2.1 hv.2.2
  have hu := u_pos
  have hη := η_pos
  have hD : 0 ≤ toReal v.a1 ^ 2 + toReal v.a2 ^ 2 + toReal v.a3 ^ 2 := by positivity
  have := root_of hD (h.weaken (le_refl _) (by
    have := mul_nonneg hu.le hD
    linarith)) h0
  unfold lenV realV
  simp only [toRat_toReal]
  rw [← five_u]
  exact this

theorem Same.toReal_eq {x y : F32} (h : Same x y) : toReal x = toReal y := by
  rcases h with rfl | ⟨s, t, rfl, rfl⟩
  · rfl
  · rw [toReal_fin, toReal_fin, mag_zero]; simp

theorem Same.isFin {x y : F32} (h : Same x y) (hy : IsFin y) : IsFin x := by
  rcases h with rfl | ⟨s, t, rfl, rfl⟩
  · exact hy
  · exact ⟨_, _, rfl⟩

theorem Near.of_same {x y : F32} {X M ε : ℝ} (h : Same x y) (hy : Near y X M ε) : Near x X M ε :=
  ⟨Same.isFin h hy.isFin, hy.bound, by rw [Same.toReal_eq h]; exact hy.err⟩

/-- the squared norm of a bivector is computed with extra sign changes -/
theorem bivector_same (b : Bivector3 F32) : Same b.normSquared (b.b1 * b.b1 + b.b2 * b.b2 + b.b3 * b.b3) := by
  show Same (-(-b.b1 * b.b1 + -b.b2 * b.b2 + -b.b3 * b.b3)) _
  simp only [neg_mul']
  have h1 : Same (-(b.b1 * b.b1) + -(b.b2 * b.b2)) (-(b.b1 * b.b1 + b.b2 * b.b2)) := (neg_add' _ _).symm
  have h2 := (h1.add (.refl (-(b.b3 * b.b3)))).trans (neg_add' _ _).symm
  exact h2.neg.trans (.of_eq (neg_neg_eq _))

/-- **C107, area of a bivector.** -/
theorem C107_norm_bivector (b : Bivector3 F32) (hb : SmallB b) :
    IsFin b.norm ∧ |(toRat b.norm : ℝ) - lenB (realB b)| ≤ lenB (realB b) * 5 / 2 ^ 24 + 1 / 2 ^ 72 := by
  obtain ⟨h, h0⟩ := normSq_near hb.1 hb.2.1 hb.2.2
  have hu := u_pos
  have hη := η_pos
  have hD : 0 ≤ toReal b.b1 ^ 2 + toReal b.b2 ^ 2 + toReal b.b3 ^ 2 := by positivity
  have := root_of hD ((Near.of_same (bivector_same b) h).weaken (le_refl _) (by
    have := mul_nonneg hu.le hD
    linarith)) (by rw [Same.toReal_eq (bivector_same b)]; exact h0)
  unfold lenB realB
  simp only [toRat_toReal]
  rw [← five_u]
  exact this

/-- **C107, length of a rotor.** -/
theorem C107_norm_rotor (r : Rotor3 F32) (hr : SmallR r) :
    IsFin r.norm ∧ |(toRat r.norm : ℝ) - lenR (realR r)| ≤ lenR (realR r) * 5 / 2 ^ 24 + 1 / 2 ^ 72 := by
  obtain ⟨hs, h1, h2, h3⟩ := hr
  obtain ⟨h, h0⟩ := normSq_near h1 h2 h3
  have hn := Near.of_same (bivector_same r.bivector) h
  rw [← Same.toReal_eq (bivector_same r.bivector)] at h0
  obtain ⟨n1, b1⟩ := prod_near hs hs
  have z1 := sq_nonneg_f hs
  have hu := u_pos
  have hη := η_pos
  have hη1 := η_small
  rw [abs_mul_self, ← sq] at n1 b1
  have q1 := (prod_near h1 h1).2
  have q2 := (prod_near h2 h2).2
  have q3 := (prod_near h3 h3).2
  rw [abs_mul_self, ← sq] at q1 q2 q3
  have p0 := sq_nonneg (toReal r.scalar)
  have p1 := sq_nonneg (toReal r.bivector.b1)
  have p2 := sq_nonneg (toReal r.bivector.b2)
  have p3 := sq_nonneg (toReal r.bivector.b3)
  have hD : 0 ≤ toReal r.scalar ^ 2 + toReal r.bivector.b1 ^ 2 + toReal r.bivector.b2 ^ 2 + toReal r.bivector.b3 ^ 2 := by positivity
  have m := n1.add hn (by
    generalize toReal r.scalar ^ 2 = P0 at *
    generalize toReal r.bivector.b1 ^ 2 = P1 at *
    generalize toReal r.bivector.b2 ^ 2 = P2 at *
    generalize toReal r.bivector.b3 ^ 2 = P3 at *
    unfold u
    norm_num at b1 q1 q2 q3 ⊢
    linarith)
  have m0 := add_nonneg' n1.isFin hn.isFin m.isFin z1 h0
  have e : toReal r.scalar ^ 2 + (toReal r.bivector.b1 ^ 2 + toReal r.bivector.b2 ^ 2 + toReal r.bivector.b3 ^ 2) =
    toReal r.scalar ^ 2 + toReal r.bivector.b1 ^ 2 + toReal r.bivector.b2 ^ 2 + toReal r.bivector.b3 ^ 2 := by ring
  rw [e] at m
  have := root_of hD (m.weaken (le_refl _) (by
    generalize toReal r.scalar ^ 2 = P0 at *
    generalize toReal r.bivector.b1 ^ 2 = P1 at *
    generalize toReal r.bivector.b2 ^ 2 = P2 at *
    generalize toReal r.bivector.b3 ^ 2 = P3 at *
    unfold u
    norm_num
    linarith)) m0
  unfold lenR realR realB
  simp only [toRat_toReal]
  rw [← five_u]
  exact this

/-! ### normalisation -/

/-- a component divided by a computed norm -/
theorem unit_near {x n : F32} {N : ℝ} (hx : IsFin x) (hX : |toReal x| ≤ N) (hn : IsFin n)
    (he : |toReal n - N| ≤ N * 5 / 2 ^ 24 + 1 / 2 ^ 72) (hN : 1 / 2 ^ 40 ≤ N) :
    Near (x / n) (toReal x / N) 1 (1 / 2 ^ 21) := by
  have hN0 : 0 < N := lt_of_lt_of_le (by positivity) hN
  have he' : |toReal n - N| ≤ N * (11 / 2 ^ 25) := by
    refine he.trans ?_
    norm_num at hN ⊢
    linarith
  have hlo : N * (99 / 100) ≤ toReal n := by
    have := (abs_le.1 he').1
    norm_num at this ⊢
    linarith
  have hn0 : 0 < toReal n := lt_of_lt_of_le (by positivity) hlo
  have hb : |toReal x / N| ≤ 1 := by
    rw [abs_div, abs_of_pos hN0, div_le_one hN0]; exact hX
  have h1 : |toReal x / toReal n - toReal x / N| ≤ 6 / 2 ^ 24 := by
    have e : toReal x / toReal n - toReal x / N = toReal x / N * ((N - toReal n) / toReal n) := by field_simp
    rw [e, abs_mul]
    have h2 : |(N - toReal n) / toReal n| ≤ 6 / 2 ^ 24 := by
      rw [abs_div, abs_of_pos hn0, div_le_iff₀ hn0, abs_sub_comm]
      refine he'.trans ?_
      norm_num at hlo ⊢
      linarith
    calc |toReal x / N| * |(N - toReal n) / toReal n| ≤ 1 * (6 / 2 ^ 24) :=
          mul_le_mul hb h2 (abs_nonneg _) (by norm_num)
      _ = 6 / 2 ^ 24 := one_mul _
  have h3 : |toReal x / toReal n| ≤ 3 / 2 := by
    have := abs_sub_abs_le_abs_sub (toReal x / toReal n) (toReal x / N)
    norm_num at h1 ⊢
    linarith
  have hf : IsFin (x / n) := div_isFin hx hn hn0.ne' (lt_of_le_of_lt h3 (by unfold maxHalf; norm_num))
  have h4 := div_err hx hn hn0.ne' hf
  refine ⟨hf, hb, ?_⟩
  have e : toReal (x / n) - toReal x / N = (toReal (x / n) - toReal x / toReal n) + (toReal x / toReal n - toReal x / N) := by ring
  rw [e]
  refine (abs_add_le _ _).trans ?_
  have h5 : u * |toReal x / toReal n| ≤ u * (3 / 2) := mul_le_mul_of_nonneg_left h3 u_pos.le
  have h6 : u * (3 / 2) + η ≤ 2 / 2 ^ 24 := by unfold u η; norm_num
  norm_num at h1 h6 ⊢
  linarith

/-- a vector near a unit vector has a length near 1 -/
theorem len_near {p1 p2 p3 p4 e1 e2 e3 e4 ε : ℝ} (h1 : |p1 - e1| ≤ ε) (h2 : |p2 - e2| ≤ ε) (h3 : |p3 - e3| ≤ ε)
    (h4 : |p4 - e4| ≤ ε) (he : e1 ^ 2 + e2 ^ 2 + e3 ^ 2 + e4 ^ 2 = 1) :
    |Real.sqrt (p1 ^ 2 + p2 ^ 2 + p3 ^ 2 + p4 ^ 2) - 1| ≤ 2 * ε := by
  have hε0 : 0 ≤ ε := (abs_nonneg _).trans h1
  obtain ⟨d1, rfl⟩ : ∃ d, p1 = e1 + d := ⟨p1 - e1, by ring⟩
  obtain ⟨d2, rfl⟩ : ∃ d, p2 = e2 + d := ⟨p2 - e2, by ring⟩
  obtain ⟨d3, rfl⟩ : ∃ d, p3 = e3 + d := ⟨p3 - e3, by ring⟩
  obtain ⟨d4, rfl⟩ : ∃ d, p4 = e4 + d := ⟨p4 - e4, by ring⟩
  rw [add_sub_cancel_left] at h1 h2 h3 h4
  have s1 : d1 ^ 2 ≤ ε ^ 2 := sq_le_sq' (abs_le.1 h1).1 (abs_le.1 h1).2
  have s2 : d2 ^ 2 ≤ ε ^ 2 := sq_le_sq' (abs_le.1 h2).1 (abs_le.1 h2).2
  have s3 : d3 ^ 2 ≤ ε ^ 2 := sq_le_sq' (abs_le.1 h3).1 (abs_le.1 h3).2
  have s4 : d4 ^ 2 ≤ ε ^ 2 := sq_le_sq' (abs_le.1 h4).1 (abs_le.1 h4).2
  set c := e1 * d1 + e2 * d2 + e3 * d3 + e4 * d4 with hc
  have hcs : c ^ 2 ≤ d1 ^ 2 + d2 ^ 2 + d3 ^ 2 + d4 ^ 2 := by
    have hb : c ^ 2 ≤ (e1 ^ 2 + e2 ^ 2 + e3 ^ 2 + e4 ^ 2) * (d1 ^ 2 + d2 ^ 2 + d3 ^ 2 + d4 ^ 2) := by
      rw [hc]
      linarith [sq_nonneg (e1 * d2 - e2 * d1), sq_nonneg (e1 * d3 - e3 * d1), sq_nonneg (e1 * d4 - e4 * d1),
        sq_nonneg (e2 * d3 - e3 * d2), sq_nonneg (e2 * d4 - e4 * d2), sq_nonneg (e3 * d4 - e4 * d3)]
    rwa [he, one_mul] at hb
  set t := Real.sqrt (d1 ^ 2 + d2 ^ 2 + d3 ^ 2 + d4 ^ 2) with ht
  have ht0 : 0 ≤ t := Real.sqrt_nonneg _
  have ht2 : t ^ 2 = d1 ^ 2 + d2 ^ 2 + d3 ^ 2 + d4 ^ 2 := Real.sq_sqrt (by positivity)
  have hct : |c| ≤ t := abs_le_of_sq_le_sq (by rw [ht2]; exact hcs) ht0
  have htε : t ≤ 2 * ε := by
    rw [ht, Real.sqrt_le_iff]
    exact ⟨by linarith, by linarith⟩
  have es : (e1 + d1) ^ 2 + (e2 + d2) ^ 2 + (e3 + d3) ^ 2 + (e4 + d4) ^ 2 = 1 + 2 * c + t ^ 2 := by
    rw [ht2, ← he, hc]; ring
  rw [es]
  obtain ⟨c1, c2⟩ := abs_le.1 hct
  clear_value c t
  have hup : Real.sqrt (1 + 2 * c + t ^ 2) ≤ 1 + t := by
    rw [Real.sqrt_le_iff]
    exact ⟨by linarith, by linarith⟩
  have hlo : 1 - t ≤ Real.sqrt (1 + 2 * c + t ^ 2) := Real.le_sqrt_of_sq_le (by linarith)
  rw [abs_le]
  constructor <;> linarith

theorem abs_le_len {a b : ℝ} (hb : 0 ≤ b) : |a| ≤ Real.sqrt (a ^ 2 + b) := by
  refine Real.le_sqrt_of_sq_le ?_
  rw [sq_abs]; linarith

/-- **C107, normalize.** For a vector of length at least `2^-40`, each component of the computed `normalize` is within `2^-21` of
the component of the true unit vector, and its length is within `2^-20` of 1. -/
theorem C107_normalize_vector (v : Vector3 F32) (hv : SmallV v) (hl : 1 / 2 ^ 40 ≤ lenV (realV v)) :
    (IsFin v.normalize.a1 ∧ IsFin v.normalize.a2 ∧ IsFin v.normalize.a3) ∧
    |(realV v.normalize).a1 - (realV v).a1 / lenV (realV v)| ≤ 1 / 2 ^ 21 ∧
    |(realV v.normalize).a2 - (realV v).a2 / lenV (realV v)| ≤ 1 / 2 ^ 21 ∧
    |(realV v.normalize).a3 - (realV v).a3 / lenV (realV v)| ≤ 1 / 2 ^ 21 ∧
    |lenV (realV v.normalize) - 1| ≤ 1 / 2 ^ 20 := by
  obtain ⟨fn, en⟩ := C107_norm_vector v hv
  rw [toRat_toReal] at en
  have hl0 : 0 < lenV (realV v) := lt_of_lt_of_le (by positivity) hl
  have e : lenV (realV v) = Real.sqrt (toReal v.a1 ^ 2 + toReal v.a2 ^ 2 + toReal v.a3 ^ 2) := by
    unfold lenV realV; simp only [toRat_toReal]
  have hD : 0 ≤ toReal v.a1 ^ 2 + toReal v.a2 ^ 2 + toReal v.a3 ^ 2 := by positivity
  have eN : lenV (realV v) ^ 2 = toReal v.a1 ^ 2 + toReal v.a2 ^ 2 + toReal v.a3 ^ 2 := by rw [e, Real.sq_sqrt hD]
  have l1 : |toReal v.a1| ≤ lenV (realV v) := by
    rw [e, add_assoc]; exact abs_le_len (by positivity)
  have l2 : |toReal v.a2| ≤ lenV (realV v) := by
    rw [e, add_comm (toReal v.a1 ^ 2), add_assoc]; exact abs_le_len (by positivity)
  have l3 : |toReal v.a3| ≤ lenV (realV v) := by
    rw [e, add_comm]; exact abs_le_len (by positivity)
  generalize lenV (realV v) = N at *
  have n1 := unit_near hv.1.1 l1 fn en hl
  have n2 := unit_near hv.2.1.1 l2 fn en hl
  have n3 := unit_near hv.2.2.1 l3 fn en hl
  have hs : (toReal v.a1 / N) ^ 2 + (toReal v.a2 / N) ^ 2 + (toReal v.a3 / N) ^ 2 + 0 ^ 2 = 1 := by
    rw [div_pow, div_pow, div_pow, ← add_div, ← add_div, ← eN]
    field_simp
    norm_num
  have hlen := len_near n1.err n2.err n3.err (p4 := 0) (e4 := 0) (by norm_num) hs
  unfold lenV realV
  simp only [toRat_toReal]
  refine ⟨⟨n1.isFin, n2.isFin, n3.isFin⟩, n1.err, n2.err, n3.err, ?_⟩
  rw [zero_pow two_ne_zero, add_zero] at hlen
  refine hlen.trans ?_
  norm_num

/-- **C107, normalize.** The same for bivectors. -/
theorem C107_normalize_bivector (b : Bivector3 F32) (hb : SmallB b) (hl : 1 / 2 ^ 40 ≤ lenB (realB b)) :
    (IsFin b.normalize.b1 ∧ IsFin b.normalize.b2 ∧ IsFin b.normalize.b3) ∧
    |(realB b.normalize).b1 - (realB b).b1 / lenB (realB b)| ≤ 1 / 2 ^ 21 ∧
    |(realB b.normalize).b2 - (realB b).b2 / lenB (realB b)| ≤ 1 / 2 ^ 21 ∧
    |(realB b.normalize).b3 - (realB b).b3 / lenB (realB b)| ≤ 1 / 2 ^ 21 ∧
    |lenB (realB b.normalize) - 1| ≤ 1 / 2 ^ 20 := by
  obtain ⟨fn, en⟩ := C107_norm_bivector b hb
  rw [toRat_toReal] at en
  have hl0 : 0 < lenB (realB b) := lt_of_lt_of_le (by positivity) hl
  have e : lenB (realB b) = Real.sqrt (toReal b.b1 ^ 2 + toReal b.b2 ^ 2 + toReal b.b3 ^ 2) := by
    unfold lenB realB; simp only [toRat_toReal]
  have hD : 0 ≤ toReal b.b1 ^ 2 + toReal b.b2 ^ 2 + toReal b.b3 ^ 2 := by positivity
  have eN : lenB (realB b) ^ 2 = toReal b.b1 ^ 2 + toReal b.b2 ^ 2 + toReal b.b3 ^ 2 := by rw [e, Real.sq_sqrt hD]
  have l1 : |toReal b.b1| ≤ lenB (realB b) := by
    rw [e, add_assoc]; exact abs_le_len (by positivity)
  have l2 : |toReal b.b2| ≤ lenB (realB b) := by
    rw [e, add_comm (toReal b.b1 ^ 2), add_assoc]; exact abs_le_len (by positivity)
  have l3 : |toReal b.b3| ≤ lenB (realB b) := by
    rw [e, add_comm]; exact abs_le_len (by positivity)
  generalize lenB (realB b) = N at *
  have n1 := unit_near hb.1.1 l1 fn en hl
  have n2 := unit_near hb.2.1.1 l2 fn en hl
  have n3 := unit_near hb.2.2.1 l3 fn en hl
  have hs : (toReal b.b1 / N) ^ 2 + (toReal b.b2 / N) ^ 2 + (toReal b.b3 / N) ^ 2 + 0 ^ 2 = 1 := by
    rw [div_pow, div_pow, div_pow, ← add_div, ← add_div, ← eN]
    field_simp
    norm_num
  have hlen := len_near n1.err n2.err n3.err (p4 := 0) (e4 := 0) (by norm_num) hs
  unfold lenB realB
  simp only [toRat_toReal]
  refine ⟨⟨n1.isFin, n2.isFin, n3.isFin⟩, n1.err, n2.err, n3.err, ?_⟩
  rw [zero_pow two_ne_zero, add_zero] at hlen
  refine hlen.trans ?_
  norm_num

/-- the four components of a computed unit rotor -/
theorem rotor_unit_near (r : Rotor3 F32) (hr : SmallR r) (hl : 1 / 2 ^ 40 ≤ lenR (realR r)) :
    Near r.normalize.scalar (toReal r.scalar / lenR (realR r)) 1 (1 / 2 ^ 21) ∧
    Near r.normalize.bivector.b1 (toReal r.bivector.b1 / lenR (realR r)) 1 (1 / 2 ^ 21) ∧
    Near r.normalize.bivector.b2 (toReal r.bivector.b2 / lenR (realR r)) 1 (1 / 2 ^ 21) ∧
    Near r.normalize.bivector.b3 (toReal r.bivector.b3 / lenR (realR r)) 1 (1 / 2 ^ 21) ∧
    (toReal r.scalar / lenR (realR r)) ^ 2 + (toReal r.bivector.b1 / lenR (realR r)) ^ 2 +
      (toReal r.bivector.b2 / lenR (realR r)) ^ 2 + (toReal r.bivector.b3 / lenR (realR r)) ^ 2 = 1 := by
  obtain ⟨fn, en⟩ := C107_norm_rotor r hr
  rw [toRat_toReal] at en
  have hl0 : 0 < lenR (realR r) := lt_of_lt_of_le (by positivity) hl
  have e : lenR (realR r) =
      Real.sqrt (toReal r.scalar ^ 2 + toReal r.bivector.b1 ^ 2 + toReal r.bivector.b2 ^ 2 + toReal r.bivector.b3 ^ 2) := by
    unfold lenR realR realB; simp only [toRat_toReal]
  have hD : 0 ≤ toReal r.scalar ^ 2 + toReal r.bivector.b1 ^ 2 + toReal r.bivector.b2 ^ 2 + toReal r.bivector.b3 ^ 2 := by
    positivity
  have eN : lenR (realR r) ^ 2 =
      toReal r.scalar ^ 2 + toReal r.bivector.b1 ^ 2 + toReal r.bivector.b2 ^ 2 + toReal r.bivector.b3 ^ 2 := by
    rw [e, Real.sq_sqrt hD]
  have l0 : |toReal r.scalar| ≤ lenR (realR r) := by
    rw [e, add_assoc, add_assoc]; exact abs_le_len (by positivity)
  have l1 : |toReal r.bivector.b1| ≤ lenR (realR r) := by
    rw [e, add_comm (toReal r.scalar ^ 2), add_assoc, add_assoc]; exact abs_le_len (by positivity)
  have l2 : |toReal r.bivector.b2| ≤ lenR (realR r) := by
    rw [e, add_comm _ (toReal r.bivector.b2 ^ 2), add_assoc]; exact abs_le_len (by positivity)
  have l3 : |toReal r.bivector.b3| ≤ lenR (realR r) := by
    rw [e, add_comm]; exact abs_le_len (by positivity)
  generalize lenR (realR r) = N at *
  refine ⟨unit_near hr.1.1 l0 fn en hl, unit_near hr.2.1.1 l1 fn en hl, unit_near hr.2.2.1.1 l2 fn en hl,
    unit_near hr.2.2.2.1 l3 fn en hl, ?_⟩
  rw [div_pow, div_pow, div_pow, div_pow, ← add_div, ← add_div, ← add_div, ← eN]
  field_simp

/-- **C107, normalize.** The same for rotors. -/
theorem C107_normalize_rotor (r : Rotor3 F32) (hr : SmallR r) (hl : 1 / 2 ^ 40 ≤ lenR (realR r)) :
    (IsFin r.normalize.scalar ∧ IsFin r.normalize.bivector.b1 ∧ IsFin r.normalize.bivector.b2 ∧ IsFin r.normalize.bivector.b3) ∧
    |(realR r.normalize).scalar - (realR r).scalar / lenR (realR r)| ≤ 1 / 2 ^ 21 ∧
    |(realR r.normalize).bivector.b1 - (realR r).bivector.b1 / lenR (realR r)| ≤ 1 / 2 ^ 21 ∧
    |(realR r.normalize).bivector.b2 - (realR r).bivector.b2 / lenR (realR r)| ≤ 1 / 2 ^ 21 ∧
    |(realR r.normalize).bivector.b3 - (realR r).bivector.b3 / lenR (realR r)| ≤ 1 / 2 ^ 21 ∧
    |lenR (realR r.normalize) - 1| ≤ 1 / 2 ^ 20 := by
  obtain ⟨n0, n1, n2, n3, hs⟩ := rotor_unit_near r hr hl
  generalize lenR (realR r) = N at *
  have hlen := len_near n0.err n1.err n2.err n3.err hs
  unfold lenR realR realB
  simp only [toRat_toReal]
  refine ⟨⟨n0.isFin, n1.isFin, n2.isFin, n3.isFin⟩, n0.err, n1.err, n2.err, n3.err, ?_⟩
  refine hlen.trans ?_
  norm_num

/-! ### rotation -/

section
variable {B : ℝ}

theorem rot_term {a x : F32} {A X : ℝ} (h : Near a A 1 (1 / 2 ^ 21)) (h' : Near x X B 0) (hB : B ≤ 2 ^ 60) :
    Near (a * x) (A * X) B (19 / 2 * u * B + η) := by
  have hB0 := h'.nonneg.1
  have := h.mul h' (by norm_num at hB ⊢; linarith)
  refine this.weaken (by rw [one_mul]) ?_
  unfold u
  norm_num
  linarith

theorem rot_sum {x y z : F32} {X Y Z : ℝ} (hx : Near x X B (19 / 2 * u * B + η)) (hy : Near y Y B (19 / 2 * u * B + η))
    (hz : Near z Z B (19 / 2 * u * B + η)) (hB : B ≤ 2 ^ 60) : Near (x + y + z) (X + Y + Z) (3 * B) (34 * u * B + 4 * η) := by
  have hB0 := hx.nonneg.1
  have hη := η_small
  have hη0 := η_pos
  have m1 := hx.add hy (by unfold u; norm_num at hB ⊢; linarith)
  have m2 := m1.add hz (by unfold u; norm_num at hB ⊢; linarith)
  refine m2.weaken (by linarith) ?_
  unfold u
  norm_num
  linarith

theorem rot_term2 {a q : F32} {A Q : ℝ} (h : Near a A 1 (1 / 2 ^ 21)) (h' : Near q Q (3 * B) (34 * u * B + 4 * η)) (hB0 : 0 ≤ B)
    (hB : B ≤ 2 ^ 60) : Near (a * q) (A * Q) (3 * B) (62 * u * B + 6 * η) := by
  have hη := η_small
  have hη0 := η_pos
  have := h.mul h' (by unfold u; norm_num at hB ⊢; linarith)
  refine this.weaken (by rw [one_mul]) ?_
  unfold u
  norm_num
  linarith

theorem rot_sum2 {x y z w : F32} {X Y Z W : ℝ} (hx : Near x X (3 * B) (62 * u * B + 6 * η))
    (hy : Near y Y (3 * B) (62 * u * B + 6 * η)) (hz : Near z Z (3 * B) (62 * u * B + 6 * η))
    (hw : Near w W (3 * B) (62 * u * B + 6 * η)) (hB0 : 0 ≤ B) (hB : B ≤ 2 ^ 60) :
    Near (x + y + z + w) (X + Y + Z + W) (12 * B) (B / 2 ^ 15 + 1 / 2 ^ 145) := by
  have hη := η_small
  have hη0 := η_pos
  have m1 := hx.add hy (by unfold u; norm_num at hB ⊢; linarith)
  have m2 := m1.add hz (by unfold u; norm_num at hB ⊢; linarith)
  have m3 := m2.add hw (by unfold u; norm_num at hB ⊢; linarith)
  refine m3.weaken (by linarith) ?_
  have h32 : (1 : ℝ) / 2 ^ 145 = 32 * η := by unfold η; norm_num
  rw [h32]
  unfold u
  norm_num
  linarith

/-- rotation by an approximate rotor -/
theorem rotate_near (r : Rotor3 F32) (v : Vector3 F32) (R : Rotor3 ℝ) (V : Vector3 ℝ)
    (h0 : Near r.scalar R.scalar 1 (1 / 2 ^ 21)) (h1 : Near r.bivector.b1 R.bivector.b1 1 (1 / 2 ^ 21))
    (h2 : Near r.bivector.b2 R.bivector.b2 1 (1 / 2 ^ 21)) (h3 : Near r.bivector.b3 R.bivector.b3 1 (1 / 2 ^ 21))
    (k1 : Near v.a1 V.a1 B 0) (k2 : Near v.a2 V.a2 B 0) (k3 : Near v.a3 V.a3 B 0) (hB : B ≤ 2 ^ 60) :
    Near (r.rotate v).a1 (R.rotate V).a1 (12 * B) (B / 2 ^ 15 + 1 / 2 ^ 145) ∧
    Near (r.rotate v).a2 (R.rotate V).a2 (12 * B) (B / 2 ^ 15 + 1 / 2 ^ 145) ∧
    Near (r.rotate v).a3 (R.rotate V).a3 (12 * B) (B / 2 ^ 15 + 1 / 2 ^ 145) := by
  obtain ⟨a, b1, b2, b3⟩ := r
  obtain ⟨u1, u2, u3⟩ := v
  obtain ⟨A, B1, B2, B3⟩ := R
  obtain ⟨U1, U2, U3⟩ := V
  simp only at h0 h1 h2 h3 k1 k2 k3
  have hB0 := k1.nonneg.1
  have q1 := rot_sum (rot_term h0 k1 hB) (rot_term h1 k2 hB) (rot_term h2 k3 hB) hB
  have q2 := rot_sum (rot_term h0 k2 hB) (rot_term h1 k1 hB).neg (rot_term h3 k3 hB) hB
  have q3 := rot_sum (rot_term h0 k3 hB) (rot_term h2 k1 hB).neg (rot_term h3 k2 hB).neg hB
  have y := rot_sum (rot_term h1.neg k3 hB) (rot_term h2 k2 hB) (rot_term h3 k1 hB).neg hB
  have t := fun {a q : F32} {A Q : ℝ} (h : Near a A 1 (1 / 2 ^ 21)) (h' : Near q Q (3 * B) (34 * u * B + 4 * η)) =>
    rot_term2 h h' hB0 hB
  have t' : ∀ {a q : F32} {A Q : ℝ}, Near a A 1 (1 / 2 ^ 21) → Near q Q (3 * B) (34 * u * B + 4 * η) →
      Near (q * a) (Q * A) (3 * B) (62 * u * B + 6 * η) := by
    intro a q A Q h h'
    rw [Same.mul_comm, mul_comm Q]; exact t h h'
  have s1 := rot_sum2 (t h0 q1) (t' h1 q2) (t' h2 q3) (t' h3 y).neg hB0 hB
  have s2 := rot_sum2 (t h0 q2) (t' h1 q1).neg (t' h2 y) (t' h3 q3) hB0 hB
  have s3 := rot_sum2 (t h0 q3) (t' h1 y).neg (t' h2 q1).neg (t' h3 q2).neg hB0 hB
  simp only [← sub_eq_add_neg, ← sub_eq_add_neg'] at s1 s2 s3
  exact ⟨s1, s2, s3⟩

end

/-- **C107, rotate.** Take a rotor of length at least `2^-40` and a vector with components of absolute value at most `B`.
Normalising the rotor and rotating the vector by it, both in `f32`, gives the exact rotation by the exact unit
rotor, with an error of at most `B * 2^-15` (and `2^-145` for underflow) in each component. -/
theorem C107_rotate (r : Rotor3 F32) (v : Vector3 F32) (hr : SmallR r) (hl : 1 / 2 ^ 40 ≤ lenR (realR r)) (hv : SmallV v) (B : ℝ)
    (hB : |(realV v).a1| ≤ B ∧ |(realV v).a2| ≤ B ∧ |(realV v).a3| ≤ B) (hB60 : B ≤ 2 ^ 60) :
    let c := realV (r.normalize.rotate v)
    let e := ((realR r).divScalar (lenR (realR r))).rotate (realV v)
    (IsFin (r.normalize.rotate v).a1 ∧ IsFin (r.normalize.rotate v).a2 ∧ IsFin (r.normalize.rotate v).a3) ∧
    |c.a1 - e.a1| ≤ B / 2 ^ 15 + 1 / 2 ^ 145 ∧ |c.a2 - e.a2| ≤ B / 2 ^ 15 + 1 / 2 ^ 145 ∧ |c.a3 - e.a3| ≤ B / 2 ^ 15 + 1 / 2 ^ 145 := by
  obtain ⟨n0, n1, n2, n3, _⟩ := rotor_unit_near r hr hl
  obtain ⟨c1, c2, c3⟩ := hB
  have g : ∀ {x : F32}, SmallNum x → |(toRat x : ℝ)| ≤ B → Near x (toRat x : ℝ) B 0 := by
    intro x hx hb
    rw [toRat_toReal] at hb ⊢
    exact ⟨hx.1, hb, by simp⟩
  rw [← toRat_toReal] at n0 n1 n2 n3
  obtain ⟨s1, s2, s3⟩ := rotate_near r.normalize v ((realR r).divScalar (lenR (realR r))) (realV v) n0 n1 n2 n3 (g hv.1 c1)
    (g hv.2.1 c2) (g hv.2.2 c3) hB60
  have hf := And.intro s1.isFin (And.intro s2.isFin s3.isFin)
  have s1 := s1.err
  have s2 := s2.err
  have s3 := s3.err
  rw [← toRat_toReal] at s1 s2 s3
  exact ⟨hf, s1, s2, s3⟩

/-! ### from_vectors -/

/-- the distance of lengths is at most twice the largest difference of components -/
theorem len_diff {c1 c2 c3 c4 e1 e2 e3 e4 ε : ℝ} (h1 : |c1 - e1| ≤ ε) (h2 : |c2 - e2| ≤ ε) (h3 : |c3 - e3| ≤ ε)
    (h4 : |c4 - e4| ≤ ε) :
    |Real.sqrt (c1 ^ 2 + c2 ^ 2 + c3 ^ 2 + c4 ^ 2) - Real.sqrt (e1 ^ 2 + e2 ^ 2 + e3 ^ 2 + e4 ^ 2)| ≤ 2 * ε := by
  have hε0 : 0 ≤ ε := (abs_nonneg _).trans h1
  have main : ∀ {c1 c2 c3 c4 e1 e2 e3 e4 : ℝ}, |c1 - e1| ≤ ε → |c2 - e2| ≤ ε → |c3 - e3| ≤ ε → |c4 - e4| ≤ ε →
      Real.sqrt (c1 ^ 2 + c2 ^ 2 + c3 ^ 2 + c4 ^ 2) ≤ Real.sqrt (e1 ^ 2 + e2 ^ 2 + e3 ^ 2 + e4 ^ 2) + 2 * ε := by
    intro c1 c2 c3 c4 e1 e2 e3 e4 h1 h2 h3 h4
    obtain ⟨d1, rfl⟩ : ∃ d, c1 = e1 + d := ⟨c1 - e1, by ring⟩
    obtain ⟨d2, rfl⟩ : ∃ d, c2 = e2 + d := ⟨c2 - e2, by ring⟩
    obtain ⟨d3, rfl⟩ : ∃ d, c3 = e3 + d := ⟨c3 - e3, by ring⟩
    obtain ⟨d4, rfl⟩ : ∃ d, c4 = e4 + d := ⟨c4 - e4, by ring⟩
    rw [add_sub_cancel_left] at h1 h2 h3 h4
    have s1 : d1 ^ 2 ≤ ε ^ 2 := sq_le_sq' (abs_le.1 h1).1 (abs_le.1 h1).2
    have s2 : d2 ^ 2 ≤ ε ^ 2 := sq_le_sq' (abs_le.1 h2).1 (abs_le.1 h2).2
    have s3 : d3 ^ 2 ≤ ε ^ 2 := sq_le_sq' (abs_le.1 h3).1 (abs_le.1 h3).2
    have s4 : d4 ^ 2 ≤ ε ^ 2 := sq_le_sq' (abs_le.1 h4).1 (abs_le.1 h4).2
    set E := Real.sqrt (e1 ^ 2 + e2 ^ 2 + e3 ^ 2 + e4 ^ 2) with hE
    have hE0 : 0 ≤ E := Real.sqrt_nonneg _
    have hE2 : E ^ 2 = e1 ^ 2 + e2 ^ 2 + e3 ^ 2 + e4 ^ 2 := Real.sq_sqrt (by positivity)
    set c := e1 * d1 + e2 * d2 + e3 * d3 + e4 * d4 with hc
    have hcs : c ^ 2 ≤ (E * (2 * ε)) ^ 2 := by
      have hb : c ^ 2 ≤ (e1 ^ 2 + e2 ^ 2 + e3 ^ 2 + e4 ^ 2) * (d1 ^ 2 + d2 ^ 2 + d3 ^ 2 + d4 ^ 2) := by
        rw [hc]
        linarith [sq_nonneg (e1 * d2 - e2 * d1), sq_nonneg (e1 * d3 - e3 * d1), sq_nonneg (e1 * d4 - e4 * d1),
          sq_nonneg (e2 * d3 - e3 * d2), sq_nonneg (e2 * d4 - e4 * d2), sq_nonneg (e3 * d4 - e4 * d3)]
      rw [← hE2] at hb
      refine hb.trans ?_
      have : d1 ^ 2 + d2 ^ 2 + d3 ^ 2 + d4 ^ 2 ≤ (2 * ε) ^ 2 := by linarith
      rw [mul_pow]
      exact mul_le_mul_of_nonneg_left this (sq_nonneg E)
    have hce := (abs_le.1 (abs_le_of_sq_le_sq hcs (by positivity))).2
    rw [Real.sqrt_le_iff]
    refine ⟨by linarith, ?_⟩
    have ex : (e1 + d1) ^ 2 + (e2 + d2) ^ 2 + (e3 + d3) ^ 2 + (e4 + d4) ^ 2 =
        E ^ 2 + 2 * c + (d1 ^ 2 + d2 ^ 2 + d3 ^ 2 + d4 ^ 2) := by rw [hE2, hc]; ring
    rw [ex]
    clear_value E c
    linarith
  rw [abs_le]
  have a := main h1 h2 h3 h4
  rw [abs_sub_comm] at h1 h2 h3 h4
  have b := main h1 h2 h3 h4
  constructor <;> linarith

/-- a component of an approximate vector divided by its length -/
theorem unit_diff {c e C E ε : ℝ} (hc : |c - e| ≤ ε) (hl : |C - E| ≤ 2 * ε) (he : |e| ≤ E) (hE : 0 < E) (hC : E / 2 ≤ C) :
    |c / C - e / E| ≤ 6 * ε / E := by
  have hC0 : 0 < C := lt_of_lt_of_le (by positivity) hC
  have hε : 0 ≤ ε := (abs_nonneg _).trans hc
  have ex : c / C - e / E = ((c - e) + e / E * (E - C)) / C := by field_simp; ring
  rw [ex, abs_div, abs_of_pos hC0, div_le_div_iff₀ hC0 hE]
  have h1 : |e / E| ≤ 1 := by rw [abs_div, abs_of_pos hE, div_le_one hE]; exact he
  have h2 : |(c - e) + e / E * (E - C)| ≤ 3 * ε := by
    refine (abs_add_le _ _).trans ?_
    rw [abs_mul, abs_sub_comm E C]
    have : |e / E| * |C - E| ≤ 1 * (2 * ε) := mul_le_mul h1 hl (abs_nonneg _) (by norm_num)
    linarith
  calc |(c - e) + e / E * (E - C)| * E ≤ 3 * ε * (2 * C) :=
        mul_le_mul h2 (by linarith) hE.le (by linarith)
    _ = 6 * ε * C := by ring

/-- the rotor that `from_vectors` normalises, in exact arithmetic: `1 + v·u` and `v ∧ u` -/
noncomputable def halfway (v w : Vector3 ℝ) : Rotor3 ℝ := ⟨1 + w.dot v, w.wedge v⟩

theorem one_near : Near (1 : F32) 1 1 0 := by
  have h : toReal (1 : F32) = 1 := toReal_one
  exact ⟨one_isFin, by norm_num, by rw [h]; simp⟩

/-- **C107, from_vectors.** For vectors with components of absolute value at most 2 for which the rotor `1 + v·u + v∧u` has a length
`L` of at least `2^-8` (for unit vectors `L` is twice the cosine of half the angle between them), each component of the computed
rotor is within `2^-14 / L` of the component of the exact rotor. -/
theorem C107_from_vectors (v w : Vector3 F32) (hv : SmallV v) (hw : SmallV w)
    (bv : |(realV v).a1| ≤ 2 ∧ |(realV v).a2| ≤ 2 ∧ |(realV v).a3| ≤ 2)
    (bw : |(realV w).a1| ≤ 2 ∧ |(realV w).a2| ≤ 2 ∧ |(realV w).a3| ≤ 2)
    (hL : 1 / 2 ^ 8 ≤ lenR (halfway (realV v) (realV w))) :
    let c := realR (Rotor3.fromVectors v w)
    let e := (halfway (realV v) (realV w)).divScalar (lenR (halfway (realV v) (realV w)))
    (IsFin (Rotor3.fromVectors v w).scalar ∧ IsFin (Rotor3.fromVectors v w).bivector.b1 ∧
      IsFin (Rotor3.fromVectors v w).bivector.b2 ∧ IsFin (Rotor3.fromVectors v w).bivector.b3) ∧
    |c.scalar - e.scalar| ≤ 1 / 2 ^ 14 / lenR (halfway (realV v) (realV w)) ∧
    |c.bivector.b1 - e.bivector.b1| ≤ 1 / 2 ^ 14 / lenR (halfway (realV v) (realV w)) ∧
    |c.bivector.b2 - e.bivector.b2| ≤ 1 / 2 ^ 14 / lenR (halfway (realV v) (realV w)) ∧
    |c.bivector.b3 - e.bivector.b3| ≤ 1 / 2 ^ 14 / lenR (halfway (realV v) (realV w)) := by
  intro c e
  obtain ⟨v1, v2, v3⟩ := hv
  obtain ⟨w1, w2, w3⟩ := hw
  obtain ⟨x1, x2, x3⟩ := bv
  obtain ⟨y1, y2, y3⟩ := bw
  have pr : ∀ {x y : ℝ}, |x| ≤ 2 → |y| ≤ 2 → |x * y| ≤ 4 := by
    intro x y hx hy
    rw [abs_mul]
    refine (mul_le_mul hx hy (abs_nonneg _) (by norm_num)).trans (by norm_num)
  have hη := η_small
  have hη0 := η_pos
  have hη2 : η ≤ u := by unfold η u; norm_num
  have d := dot_near w1 w2 w3 v1 v2 v3
  have g1 := cross_near w1 w2 v2 v1
  have g2 := cross_near w1 w3 v3 v1
  have g3 := cross_near w2 w3 v3 v2
  simp only [← toRat_toReal] at d g1 g2 g3
  have hx1 : |(toRat v.a1 : ℝ)| ≤ 2 := x1
  have hx2 : |(toRat v.a2 : ℝ)| ≤ 2 := x2
  have hx3 : |(toRat v.a3 : ℝ)| ≤ 2 := x3
  have hy1 : |(toRat w.a1 : ℝ)| ≤ 2 := y1
  have hy2 : |(toRat w.a2 : ℝ)| ≤ 2 := y2
  have hy3 : |(toRat w.a3 : ℝ)| ≤ 2 := y3
  have u0 := u_pos
  have hsum : |(toRat w.a1 : ℝ) * (toRat v.a1 : ℝ)| + |(toRat w.a2 : ℝ) * (toRat v.a2 : ℝ)| + |(toRat w.a3 : ℝ) * (toRat v.a3 : ℝ)| ≤ 12 := by
    linarith [pr hy1 hx1, pr hy2 hx2, pr hy3 hx3]
  have dd : Near (w.dot v) ((realV w).dot (realV v)) 12 (52 * u) := d.weaken hsum (by
    have := mul_le_mul_of_nonneg_left hsum u0.le
    linarith)
  have ee : ∀ {x : F32} {X P Q : ℝ}, |P| ≤ 4 → |Q| ≤ 4 → Near x X (|P| + |Q|) (3 * u * (|P| + |Q|) + 4 * η) →
      Near x X 8 (66 * u) := by
    intro x X P Q hP hQ h
    refine h.weaken (by linarith) ?_
    have := mul_le_mul_of_nonneg_left (add_le_add hP hQ) u0.le
    linarith
  have G1 := ee (pr hy1 hx2) (pr hy2 hx1) g1
  have G2 := ee (pr hy1 hx3) (pr hy3 hx1) g2
  have G3 := ee (pr hy2 hx3) (pr hy3 hx2) g3
  have G0 : Near (1 + w.dot v) (1 + (realV w).dot (realV v)) 13 (66 * u) := by
    refine (one_near.add dd ?_).weaken (by norm_num) ?_
    · unfold u; norm_num
    · unfold u; norm_num
  set pre : Rotor3 F32 := ⟨1 + w.dot v, w.wedge v⟩ with hpre
  set E := lenR (halfway (realV v) (realV w)) with hE
  have hE0 : 0 < E := lt_of_lt_of_le (by positivity) hL
  have sm : ∀ {x : F32} {X M : ℝ}, M ≤ 20 → Near x X M (66 * u) → SmallNum x := by
    intro x X M hM h
    refine ⟨h.isFin, ?_⟩
    have h1 := h.size
    rw [← toRat_toReal] at h1
    have h2 : M + 66 * u ≤ 2 ^ 60 := by unfold u; norm_num; linarith
    exact_mod_cast h1.trans h2
  have hsm : SmallR pre := ⟨sm (by norm_num) G0, sm (by norm_num) G1, sm (by norm_num) G2, sm (by norm_num) G3⟩
  have e0 := G0.err
  have e1 := G1.err
  have e2 := G2.err
  have e3 := G3.err
  have hlen := len_diff e0 e1 e2 e3
  have hC : lenR (realR pre) = Real.sqrt (toReal pre.scalar ^ 2 + toReal pre.bivector.b1 ^ 2 + toReal pre.bivector.b2 ^ 2 +
      toReal pre.bivector.b3 ^ 2) := by unfold lenR realR realB; simp only [toRat_toReal]
  have hlen' : |lenR (realR pre) - E| ≤ 2 * (66 * u) := by rw [hC]; exact hlen
  have hE19 : E ≤ 19 := by
    rw [hE]
    unfold lenR
    rw [Real.sqrt_le_iff]
    refine ⟨by norm_num, ?_⟩
    have q0 : (halfway (realV v) (realV w)).scalar ^ 2 ≤ 13 ^ 2 := sq_le_sq' (abs_le.1 G0.bound).1 (abs_le.1 G0.bound).2
    have q1 : (halfway (realV v) (realV w)).bivector.b1 ^ 2 ≤ 8 ^ 2 := sq_le_sq' (abs_le.1 G1.bound).1 (abs_le.1 G1.bound).2
    have q2 : (halfway (realV v) (realV w)).bivector.b2 ^ 2 ≤ 8 ^ 2 := sq_le_sq' (abs_le.1 G2.bound).1 (abs_le.1 G2.bound).2
    have q3 : (halfway (realV v) (realV w)).bivector.b3 ^ 2 ≤ 8 ^ 2 := sq_le_sq' (abs_le.1 G3.bound).1 (abs_le.1 G3.bound).2
    linarith
  have hCE : E / 2 ≤ lenR (realR pre) := by
    have := (abs_le.1 hlen').1
    have h66 : 2 * (66 * u) ≤ 1 / 2 ^ 9 := by unfold u; norm_num
    norm_num at hL h66
    linarith
  have hCl : 1 / 2 ^ 40 ≤ lenR (realR pre) := by
    refine le_trans ?_ hCE
    norm_num at hL ⊢
    linarith
  obtain ⟨n0, n1, n2, n3, _⟩ := rotor_unit_near pre hsm hCl
  have b : ∀ {a b c d : ℝ}, |a| ≤ Real.sqrt (a ^ 2 + b ^ 2 + c ^ 2 + d ^ 2) ∧ |b| ≤ Real.sqrt (a ^ 2 + b ^ 2 + c ^ 2 + d ^ 2) ∧
      |c| ≤ Real.sqrt (a ^ 2 + b ^ 2 + c ^ 2 + d ^ 2) ∧ |d| ≤ Real.sqrt (a ^ 2 + b ^ 2 + c ^ 2 + d ^ 2) := by
    intro a b c d
    refine ⟨?_, ?_, ?_, ?_⟩ <;> refine Real.le_sqrt_of_sq_le ?_ <;> rw [sq_abs] <;>
      linarith [sq_nonneg a, sq_nonneg b, sq_nonneg c, sq_nonneg d]
  obtain ⟨l0, l1, l2, l3⟩ := b (a := (halfway (realV v) (realV w)).scalar) (b := (halfway (realV v) (realV w)).bivector.b1)
    (c := (halfway (realV v) (realV w)).bivector.b2) (d := (halfway (realV v) (realV w)).bivector.b3)
  have fin : ∀ {n c X : ℝ}, |n - c / lenR (realR pre)| ≤ 1 / 2 ^ 21 → |c - X| ≤ 66 * u → |X| ≤ E →
      |n - X / E| ≤ 1 / 2 ^ 14 / E := by
    intro n c X h1 h2 h3
    have h4 := unit_diff h2 hlen' h3 hE0 hCE
    have ex : n - X / E = (n - c / lenR (realR pre)) + (c / lenR (realR pre) - X / E) := by ring
    rw [ex]
    refine (abs_add_le _ _).trans ?_
    have h5 : (1 : ℝ) / 2 ^ 21 ≤ 152 * u / E := by
      rw [le_div_iff₀ hE0]
      unfold u
      norm_num
      linarith
    have h6 : 152 * u / E + 6 * (66 * u) / E ≤ 1 / 2 ^ 14 / E := by
      rw [← add_div]
      refine div_le_div_of_nonneg_right ?_ hE0.le
      unfold u
      norm_num
    linarith
  have r0 := fin n0.err e0 l0
  have r1 := fin n1.err e1 l1
  have r2 := fin n2.err e2 l2
  have r3 := fin n3.err e3 l3
  rw [← toRat_toReal] at r0 r1 r2 r3
  exact ⟨⟨n0.isFin, n1.isFin, n2.isFin, n3.isFin⟩, r0, r1, r2, r3⟩

/-! ### the hypotheses -/

/-- a rotor and a vector with components that are not exact -/
def demoRotor : Rotor3 F32 := ⟨F32.lit 1 3, ⟨F32.lit (-1) 10, F32.lit 2, F32.lit 0⟩⟩
/-- see `demoRotor` -/
def demoVector : Vector3 F32 := ⟨F32.lit 1 7, F32.lit 0, F32.lit (-5) 3⟩

theorem demo_small : SmallR demoRotor ∧ SmallV demoVector := by
  refine ⟨⟨⟨⟨_, _, rfl⟩, ?_⟩, ⟨⟨_, _, rfl⟩, ?_⟩, ⟨⟨_, _, rfl⟩, ?_⟩, ⟨⟨_, _, rfl⟩, ?_⟩⟩,
    ⟨⟨_, _, rfl⟩, ?_⟩, ⟨⟨_, _, rfl⟩, ?_⟩, ⟨⟨_, _, rfl⟩, ?_⟩⟩ <;> decide +kernel

/-- all hypotheses of `C107_rotate` are met -/
example : SmallR demoRotor ∧ 1 / 2 ^ 40 ≤ lenR (realR demoRotor) ∧ SmallV demoVector ∧
    |(realV demoVector).a1| ≤ 2 ∧ |(realV demoVector).a2| ≤ 2 ∧ |(realV demoVector).a3| ≤ 2 := by
  refine ⟨demo_small.1, ?_, demo_small.2, ?_, ?_, ?_⟩
  · have h : (1 : ℚ) / 4 ≤ |toRat demoRotor.scalar| := by decide +kernel
    have h' : (1 : ℝ) / 4 ≤ |(toRat demoRotor.scalar : ℝ)| := by
      have : (((1 : ℚ) / 4 : ℚ) : ℝ) ≤ ((|toRat demoRotor.scalar| : ℚ) : ℝ) := by exact_mod_cast h
      push_cast at this
      exact this
    refine le_trans (by norm_num) (h'.trans ?_)
    unfold lenR realR
    simp only
    rw [add_assoc, add_assoc]
    exact abs_le_len (by positivity)
  · have h : |toRat demoVector.a1| ≤ 2 := by decide +kernel
    show |(toRat demoVector.a1 : ℝ)| ≤ 2
    exact_mod_cast h
  · have h : |toRat demoVector.a2| ≤ 2 := by decide +kernel
    show |(toRat demoVector.a2 : ℝ)| ≤ 2
    exact_mod_cast h
  · have h : |toRat demoVector.a3| ≤ 2 := by decide +kernel
    show |(toRat demoVector.a3 : ℝ)| ≤ 2
    exact_mod_cast h

/-- all hypotheses of `C107_from_vectors` are met by two unit vectors at a right angle -/
example : let v : Vector3 F32 := Vector3.unitX
    let w : Vector3 F32 := Vector3.unitY
    SmallV v ∧ SmallV w ∧ (|(realV v).a1| ≤ 2 ∧ |(realV v).a2| ≤ 2 ∧ |(realV v).a3| ≤ 2) ∧
    (|(realV w).a1| ≤ 2 ∧ |(realV w).a2| ≤ 2 ∧ |(realV w).a3| ≤ 2) ∧ 1 / 2 ^ 8 ≤ lenR (halfway (realV v) (realV w)) := by
  have e1 : toRat (1 : F32) = 1 := by decide +kernel
  have e0 : toRat (0 : F32) = 0 := by decide +kernel
  have s1 : SmallNum (1 : F32) := ⟨⟨false, ⟨0x3f800000, by decide⟩, by decide +kernel⟩, by rw [e1]; norm_num⟩
  have s0 : SmallNum (0 : F32) := ⟨⟨false, ⟨0, by decide⟩, rfl⟩, by rw [e0]; norm_num⟩
  refine ⟨⟨s1, s0, s0⟩, ⟨s0, s1, s0⟩, ?_, ?_, ?_⟩
  · simp [realV, Vector3.unitX, e1, e0]
  · simp [realV, Vector3.unitY, e1, e0]
  · have hs : (halfway (realV Vector3.unitX) (realV Vector3.unitY)).scalar = 1 := by
      simp [halfway, realV, Vector3.unitX, Vector3.unitY, Vector3.dot, e1, e0]
    unfold lenR
    rw [hs, add_assoc, add_assoc]
    refine le_trans ?_ (abs_le_len (a := (1 : ℝ)) (by positivity))
    norm_num

/-- the upper limit matters: the norm of a vector of length `2^64` overflows, and `normalize` returns zero -/
example : (⟨F32.lit (2 ^ 64), 0, 0⟩ : Vector3 F32).norm = .inf false ∧
    (⟨F32.lit (2 ^ 64), 0, 0⟩ : Vector3 F32).normalize.a1 = 0 := by decide +kernel

/-- the lower limit matters: the norm of a vector of length `2^-80` underflows to zero, and `normalize` divides by zero -/
example : (⟨F32.lit 1 (2 ^ 80), 0, 0⟩ : Vector3 F32).norm = 0 ∧
    (⟨F32.lit 1 (2 ^ 80), 0, 0⟩ : Vector3 F32).normalize = ⟨.inf false, .nan, .nan⟩ := by decide +kernel

end Kami.GAF32
