import Verif.Num.F32Round
import Verif.Geom.DistF32
import Verif.Geom.UtilsLists
/-!
# C125: where the tolerance is below the spacing of the f32 numbers
-/

set_option autoImplicit false

namespace Kami.Utils

open Kami.F32 Kami.DistF32 Kami.UtilThm Kami.Simple
open scoped Kami

/-! ### specification: coordinates on the grid of step `2^-n` -/

/-- a finite number that is a whole multiple of `2^-n` -/
def Multiple (n : ℕ) (x : F32) : Prop := IsFin x ∧ ∃ z : ℤ, toReal x = z / 2 ^ n

/-- both coordinates are whole multiples of `2^-n` -/
def OnGrid (n : ℕ) (v : Vec2 F32) : Prop := Multiple n v.x ∧ Multiple n v.y

/-! ### comparing with the tolerance -/

theorem mag_gap {m n : ℕ} (h : m < n) : mag m + 2 ^ (m / 2 ^ 23 - 1) ≤ mag n := by
  rw [← mag_succ]
  exact mag_le.2 h

theorem toReal_of_lt_one {y : F32} (hy : IsFin y) (h : 1 < toReal y) : ∃ n : Fin 0x7f800000, y = fin false n ∧ 0x3f800000 < n.val := by
  obtain ⟨s, n, rfl⟩ := hy
  cases s
  · refine ⟨n, rfl, ?_⟩
    rw [← toReal_one, show (OrdScalar.one : F32) = fin false ⟨0x3f800000, by decide⟩ by decide +kernel, toReal_lt_iff] at h
    simpa [val, mag_lt] using h
  · exfalso
    have : toReal (fin true n) ≤ 0 := by
      rw [toReal_fin, if_pos rfl, neg_one_mul, neg_div]
      exact neg_nonpos.2 (by positivity)
    linarith

theorem apart_of_one {x y : F32} (hx : IsFin x) (hy : IsFin y) (h1 : 1 < toReal y) (hne : toReal x ≠ toReal y) :
    1 / 2 ^ 23 ≤ |toReal x - toReal y| := by
  obtain ⟨n, rfl, hn⟩ := toReal_of_lt_one hy h1
  have key : ∀ m k : ℕ, 0x3f800000 ≤ m → m < k → (1 : ℝ) / 2 ^ 23 ≤ (mag k : ℝ) / 2 ^ 149 - (mag m : ℝ) / 2 ^ 149 := by
    intro m k hm hk
    have a := mag_gap hk
    have b : 2 ^ 126 ≤ 2 ^ (m / 2 ^ 23 - 1) := Nat.pow_le_pow_right (by norm_num) (by omega)
    have c : (2 : ℝ) ^ 126 ≤ mag k - mag m := by
      have : mag m + 2 ^ 126 ≤ mag k := by omega
      have : ((mag m + 2 ^ 126 : ℕ) : ℝ) ≤ mag k := by exact_mod_cast this
      push_cast at this
      linarith
    rw [← sub_div, le_div_iff₀ (by positivity)]
    norm_num at c ⊢
    linarith
  have e1 : toReal (fin false n) = (mag n : ℝ) / 2 ^ 149 := by rw [toReal_fin]; simp
  by_cases hx1 : 1 < toReal x
  · obtain ⟨m, rfl, hm⟩ := toReal_of_lt_one hx hx1
    have e2 : toReal (fin false m) = (mag m : ℝ) / 2 ^ 149 := by rw [toReal_fin]; simp
    rw [e1, e2] at hne ⊢
    rcases lt_trichotomy m.val n.val with h | h | h
    · have := key m n hm.le h
      rw [abs_sub_comm, abs_of_nonneg (by linarith [show (0 : ℝ) < 1 / 2 ^ 23 by positivity])]
      exact this
    · exact absurd (by rw [h]) hne
    · have := key n m hn.le h
      rw [abs_of_nonneg (by linarith [show (0 : ℝ) < 1 / 2 ^ 23 by positivity])]
      exact this
  · have h2 := key 0x3f800000 n le_rfl hn
    have e3 : (mag 0x3f800000 : ℝ) / 2 ^ 149 = 1 := by
      rw [← toReal_one, show (OrdScalar.one : F32) = fin false ⟨0x3f800000, by decide⟩ by decide +kernel, toReal_fin]
      simp
    rw [e3] at h2
    rw [e1, abs_sub_comm]
    refine le_trans ?_ (le_abs_self _)
    linarith [not_lt.1 hx1]

/-- above 1 the comparison with the tolerance is a test for equality -/
theorem lt_eps_iff {y : F32} (hy : IsFin y) (h1 : 1 < toReal y) (x : F32) :
    (F32.lt (F32.abs (x - y)) Scalar.epsilon) = F32.eq x y := by
  cases x with
  | nan => rfl
  | inf s =>
    obtain ⟨t, n, rfl⟩ := hy
    rfl
  | fin s n =>
    have hx : IsFin (fin s n) := ⟨_, _, rfl⟩
    rw [Bool.eq_iff_iff, eq_fin hx hy]
    constructor
    · intro h
      by_contra hne
      have hg := apart_of_one hx hy h1 hne
      by_cases hf : IsFin (fin s n - y)
      · obtain ⟨f1, f2⟩ := abs_fin' hf
        rw [lt_fin f1 eps_isFin, f2] at h
        have := (sub_rnd hx hy hf).lower eps_isFin (by rw [toReal_eps, abs_of_pos (by positivity)]; exact hg)
        rw [abs_of_pos (by rw [toReal_eps]; positivity)] at this
        linarith
      · cases hd : fin s n - y with
        | nan => rw [hd] at h; cases h
        | inf t => rw [hd] at h; cases h
        | fin t k => exact hf ⟨_, _, hd⟩
    · intro h
      have hf : IsFin (fin s n - y) := sub_isFin hx hy (by rw [h, sub_self, abs_zero]; unfold maxHalf; positivity)
      obtain ⟨f1, f2⟩ := abs_fin' hf
      have := (sub_rnd hx hy hf).exact_of zero_isFin (by rw [h, toReal_zero, sub_self])
      rw [lt_fin f1 eps_isFin, f2, this, h, sub_self, abs_zero, toReal_eps]
      positivity

theorem abs_sqrt (x : F32) : F32.lt Scalar.epsilon (F32.abs (F32.sqrt x)) = F32.lt Scalar.epsilon (F32.sqrt x) := by
  cases x with
  | nan => rfl
  | inf s => cases s <;> rfl
  | fin s n =>
    unfold F32.sqrt
    simp only
    by_cases hn : n.val = 0
    · rw [if_pos hn]
      obtain rfl : n = ⟨0, by decide⟩ := Fin.ext hn
      cases s <;> decide +kernel
    · rw [if_neg hn]
      cases s
      · simp only [Bool.false_eq_true, if_false]
        unfold pack
        split <;> rfl
      · rfl

/-- **C125, `is_on_line_segment`.** For segments longer than 1 the tolerance plays no part: the answer is `true` exactly if the two computed
distances add up to the computed length and each is above the tolerance. -/
theorem C125_on_segment {a b p : Vec2 F32} (hf : IsFin (distance a b)) (h1 : ((OrdScalar.one : F32) <. distance a b) = true) (f : Bool) :
    isOnLineSegment a b p f = ((distance a p + distance p b =. distance a b) && (Scalar.epsilon <. distance a p) &&
      (Scalar.epsilon <. distance p b)) := by
  have h := (lt_fin one_isFin hf).1 h1
  rw [toReal_one] at h
  unfold isOnLineSegment
  have e1 := lt_eps_iff hf h (distance a p + distance p b)
  have e2 : F32.lt Scalar.epsilon (F32.abs (distance a p)) = F32.lt Scalar.epsilon (distance a p) := abs_sqrt _
  have e3 : F32.lt Scalar.epsilon (F32.abs (distance p b)) = F32.lt Scalar.epsilon (distance p b) := abs_sqrt _
  change (F32.lt (F32.abs _) _ && F32.lt _ (F32.abs _) && F32.lt _ (F32.abs _)) = (F32.eq _ _ && F32.lt _ _ && F32.lt _ _)
  rw [e1, e2, e3]

/-! ### distances of points on the grid -/

theorem pow_float (n : ℕ) (hn : n ≤ 149) : ∃ k, ∃ hk : k < 0x7f800000, toReal (fin false ⟨k, hk⟩) = 1 / 2 ^ n := by
  obtain ⟨k, hk, hm⟩ := exists_mag (149 - n) 1 (by norm_num) (by omega)
  refine ⟨k, hk, ?_⟩
  rw [toReal_fin, if_neg Bool.false_ne_true, one_mul]
  change ((mag k : ℕ) : ℝ) / 2 ^ 149 = _
  rw [hm]
  have : (2 : ℝ) ^ 149 = 2 ^ (149 - n) * 2 ^ n := by rw [← pow_add]; congr 1; omega
  rw [this]
  push_cast
  field_simp

/-- infinite or finite and at least `g` -/
def AtLeast (g : ℝ) (x : F32) : Prop := x = inf false ∨ (IsFin x ∧ g ≤ toReal x)

theorem mul_self_atLeast {d : F32} {n : ℕ} (hn : n ≤ 74) (h : (∃ s, d = inf s) ∨ (IsFin d ∧ 1 / 2 ^ n ≤ |toReal d|)) :
    AtLeast (1 / 2 ^ (2 * n)) (d * d) := by
  rcases h with ⟨s, rfl⟩ | ⟨hd, h⟩
  · left
    cases s <;> rfl
  · by_cases hf : IsFin (d * d)
    · right
      refine ⟨hf, ?_⟩
      obtain ⟨k, hk, e⟩ := pow_float (2 * n) (by omega)
      have h2 : (1 : ℝ) / 2 ^ (2 * n) ≤ |toReal d * toReal d| := by
        rw [abs_mul, mul_comm 2 n, pow_mul, show (1 : ℝ) / (2 ^ n) ^ 2 = 1 / 2 ^ n * (1 / 2 ^ n) by field_simp]
        exact mul_le_mul h h (by positivity) (abs_nonneg _)
      have := (mul_rnd hd hd hf).lower (y := fin false ⟨k, hk⟩) ⟨_, _, rfl⟩ (by rw [e, abs_of_pos (by positivity)]; exact h2)
      rw [e, abs_of_pos (by positivity), abs_of_nonneg (mul_self_nonneg' hd hf)] at this
      exact this
    · left
      obtain ⟨s, m, rfl⟩ := hd
      change F32.mul (fin s m) (fin s m) = _
      change ¬ IsFin (F32.mul (fin s m) (fin s m)) at hf
      unfold F32.mul at hf ⊢
      simp only [Bool.xor_self] at hf ⊢
      unfold F32.round pack at hf ⊢
      split
      · rename_i hlt
        rw [dif_pos hlt] at hf
        exact absurd ⟨_, _, rfl⟩ hf
      · rfl

theorem mul_self_pos' {d : F32} (h : (∃ s, d = inf s) ∨ IsFin d) : AtLeast 0 (d * d) := by
  rcases h with ⟨s, rfl⟩ | hd
  · left
    cases s <;> rfl
  · by_cases hf : IsFin (d * d)
    · exact Or.inr ⟨hf, mul_self_nonneg' hd hf⟩
    · left
      obtain ⟨s, m, rfl⟩ := hd
      change F32.mul (fin s m) (fin s m) = _
      change ¬ IsFin (F32.mul (fin s m) (fin s m)) at hf
      unfold F32.mul at hf ⊢
      simp only [Bool.xor_self] at hf ⊢
      unfold F32.round pack at hf ⊢
      split
      · rename_i hlt
        rw [dif_pos hlt] at hf
        exact absurd ⟨_, _, rfl⟩ hf
      · rfl

theorem add_overflow {x y : F32} (hx : IsFin x) (hy : IsFin y) (h0 : 0 ≤ toReal x + toReal y) (hf : ¬ IsFin (x + y)) : x + y = inf false := by
  obtain ⟨s, m, rfl⟩ := hx
  obtain ⟨t, n, rfl⟩ := hy
  change F32.add (fin s m) (fin t n) = _
  change ¬ IsFin (F32.add (fin s m) (fin t n)) at hf
  have hv : 0 ≤ val s m + val t n := by
    have : toReal (fin s m) + toReal (fin t n) = ((val s m + val t n : ℤ) : ℝ) / 2 ^ 149 := by
      unfold toReal; push_cast; ring
    rw [this] at h0
    have h1 : (0 : ℝ) ≤ ((val s m + val t n : ℤ) : ℝ) := by
      rcases le_or_gt 0 (((val s m + val t n : ℤ) : ℝ)) with h | h
      · exact h
      · exact absurd h0 (not_le.2 (div_neg_of_neg_of_pos h (by positivity)))
    exact_mod_cast h1
  unfold F32.add at hf ⊢
  simp only at hf ⊢
  split
  · rename_i hz
    rw [if_pos hz] at hf
    exact absurd ⟨_, _, rfl⟩ hf
  · rename_i hz
    rw [if_neg hz] at hf
    unfold F32.round pack at hf ⊢
    split
    · rename_i hlt
      rw [dif_pos hlt] at hf
      exact absurd ⟨_, _, rfl⟩ hf
    · rw [decide_eq_false (not_lt.2 hv)]

theorem add_atLeast {x y : F32} {k : Fin 0x7f800000} (hx : AtLeast (toReal (fin false k)) x) (hy : AtLeast 0 y) :
    AtLeast (toReal (fin false k)) (x + y) ∧ AtLeast (toReal (fin false k)) (y + x) := by
  have h0 : 0 ≤ toReal (fin false k) := by rw [toReal_fin]; simp; positivity
  rcases hx with rfl | ⟨fx, hx⟩ <;> rcases hy with rfl | ⟨fy, hy⟩
  · exact ⟨Or.inl rfl, Or.inl rfl⟩
  · obtain ⟨t, n, rfl⟩ := fy
    exact ⟨Or.inl rfl, Or.inl rfl⟩
  · obtain ⟨t, n, rfl⟩ := fx
    exact ⟨Or.inl rfl, Or.inl rfl⟩
  · have aux : ∀ {x y : F32}, IsFin x → IsFin y → 0 ≤ toReal x → 0 ≤ toReal y → toReal (fin false k) ≤ toReal x + toReal y →
        AtLeast (toReal (fin false k)) (x + y) := by
      intro x y fx fy hx hy h
      by_cases hf : IsFin (x + y)
      · right
        refine ⟨hf, ?_⟩
        have := (add_rnd fx fy hf).lower (y := fin false k) ⟨_, _, rfl⟩ (by
          rw [abs_of_nonneg h0]
          exact h.trans (le_abs_self _))
        rwa [abs_of_nonneg h0, abs_of_nonneg (add_nonneg' fx fy hf hx hy)] at this
      · exact Or.inl (add_overflow fx fy (by linarith) hf)
    exact ⟨aux fx fy (by linarith) hy (by linarith), aux fy fx hy (by linarith) (by linarith)⟩

theorem sub_cases {x y : F32} (hx : IsFin x) (hy : IsFin y) : (∃ s, x - y = inf s) ∨ IsFin (x - y) := by
  obtain ⟨s, m, rfl⟩ := hx
  obtain ⟨t, n, rfl⟩ := hy
  change (∃ s', F32.add (fin s m) (fin (!t) n) = inf s') ∨ IsFin (F32.add (fin s m) (fin (!t) n))
  unfold F32.add
  simp only
  split
  · exact Or.inr ⟨_, _, rfl⟩
  · unfold F32.round pack
    split
    · exact Or.inr ⟨_, _, rfl⟩
    · exact Or.inl ⟨_, rfl⟩

theorem sub_grid {x y : F32} {n : ℕ} (hn : n ≤ 74) (hx : Multiple n x) (hy : Multiple n y) (hne : toReal x ≠ toReal y) :
    (∃ s, x - y = inf s) ∨ (IsFin (x - y) ∧ 1 / 2 ^ n ≤ |toReal (x - y)|) := by
  obtain ⟨fx, a, ha⟩ := hx
  obtain ⟨fy, b, hb⟩ := hy
  rcases sub_cases fx fy with h | h
  · exact Or.inl h
  · right
    refine ⟨h, ?_⟩
    obtain ⟨k, hk, e⟩ := pow_float (n) (by omega)
    have hab : a ≠ b := by rintro rfl; exact hne (ha.trans hb.symm)
    have h1 : (1 : ℝ) ≤ |((a - b : ℤ) : ℝ)| := by
      rw [← Int.cast_abs]
      exact_mod_cast Int.one_le_abs (sub_ne_zero.2 hab)
    have h2 : (1 : ℝ) / 2 ^ n ≤ |toReal x - toReal y| := by
      rw [ha, hb, ← sub_div, abs_div, abs_of_pos (show (0 : ℝ) < 2 ^ n by positivity)]
      push_cast at h1
      gcongr
    have := (sub_rnd fx fy h).lower (y := fin false ⟨k, hk⟩) ⟨_, _, rfl⟩ (by rw [e, abs_of_pos (by positivity)]; exact h2)
    rwa [e, abs_of_pos (by positivity)] at this

/-- different points of the grid are computed to be at least one step apart -/
theorem grid_distance {a b : Vec2 F32} {n : ℕ} (hn : n ≤ 74) (ha : OnGrid n a) (hb : OnGrid n b) (hne : rpos a ≠ rpos b) :
    AtLeast (1 / 2 ^ n) (distance a b) := by
  obtain ⟨k, hk, e⟩ := pow_float (2 * n) (by omega)
  have hs : AtLeast (1 / 2 ^ (2 * n)) ((b.x - a.x) * (b.x - a.x) + (b.y - a.y) * (b.y - a.y)) := by
    rw [← e]
    by_cases hx : toReal b.x = toReal a.x
    · have hy : toReal b.y ≠ toReal a.y := by
        intro hy
        exact hne (by rw [rpos_eq, rpos_eq, hx, hy])
      refine (add_atLeast ?_ (mul_self_pos' (sub_cases hb.1.1 ha.1.1))).2
      rw [e]
      exact mul_self_atLeast hn (sub_grid hn hb.2 ha.2 hy)
    · refine (add_atLeast ?_ (mul_self_pos' (sub_cases hb.2.1 ha.2.1))).1
      rw [e]
      exact mul_self_atLeast hn (sub_grid hn hb.1 ha.1 hx)
  change AtLeast _ (F32.sqrt _)
  rcases hs with h | ⟨hf, h⟩
  · left
    change F32.sqrt ((b.x - a.x) * (b.x - a.x) + (b.y - a.y) * (b.y - a.y)) = _
    rw [h]
    rfl
  · right
    have h0 : 0 ≤ toReal ((b.x - a.x) * (b.x - a.x) + (b.y - a.y) * (b.y - a.y)) := le_trans (by positivity) h
    refine ⟨sqrt_isFin hf h0, ?_⟩
    obtain ⟨k, hk, e⟩ := pow_float (n) (by omega)
    have h1 : (1 : ℝ) / 2 ^ n ≤ |Real.sqrt (toReal ((b.x - a.x) * (b.x - a.x) + (b.y - a.y) * (b.y - a.y)))| := by
      rw [abs_of_nonneg (Real.sqrt_nonneg _)]
      refine Real.le_sqrt_of_sq_le ?_
      rw [div_pow, one_pow, ← pow_mul, mul_comm n 2]
      exact h
    have := (sqrt_rnd hf h0).lower (y := fin false ⟨k, hk⟩) ⟨_, _, rfl⟩ (by rw [e, abs_of_pos (by positivity)]; exact h1)
    rw [e, abs_of_pos (by positivity)] at this
    obtain ⟨_, m, _, _, h3⟩ := sqrt_rnd hf h0
    have hpos : 0 < Real.sqrt (toReal ((b.x - a.x) * (b.x - a.x) + (b.y - a.y) * (b.y - a.y))) :=
      Real.sqrt_pos.2 (lt_of_lt_of_le (by positivity) h)
    rwa [abs_of_nonneg (nonneg_of_mul_nonneg_left h3 hpos)] at this

/-- points at the same position are computed to be at distance 0 -/
theorem same_distance {a b : Vec2 F32} (ha : IsFin a.x ∧ IsFin a.y) (hb : IsFin b.x ∧ IsFin b.y) (h : rpos a = rpos b) :
    IsFin (distance a b) ∧ toReal (distance a b) = 0 := by
  rw [rpos_eq, rpos_eq, Prod.mk.injEq] at h
  have hz : ∀ {x y : F32}, IsFin x → IsFin y → toReal x = toReal y → IsFin (x - y) ∧ toReal (x - y) = 0 := by
    intro x y fx fy hxy
    have hf : IsFin (x - y) := sub_isFin fx fy (by rw [hxy, sub_self, abs_zero]; unfold maxHalf; positivity)
    refine ⟨hf, ?_⟩
    rw [(sub_rnd fx fy hf).exact_of zero_isFin (by rw [hxy, toReal_zero, sub_self]), hxy, sub_self]
  obtain ⟨f1, e1⟩ := hz hb.1 ha.1 h.1.symm
  obtain ⟨f2, e2⟩ := hz hb.2 ha.2 h.2.symm
  obtain ⟨f3, e3⟩ := mul_zero' f1 f1 (by rw [e1, zero_mul])
  obtain ⟨f4, e4⟩ := mul_zero' f2 f2 (by rw [e2, zero_mul])
  have f5 : IsFin ((b.x - a.x) * (b.x - a.x) + (b.y - a.y) * (b.y - a.y)) :=
    add_isFin f3 f4 (by rw [e3, e4, add_zero, abs_zero]; unfold maxHalf; positivity)
  have e5 : toReal ((b.x - a.x) * (b.x - a.x) + (b.y - a.y) * (b.y - a.y)) = 0 := by
    rw [(add_rnd f3 f4 f5).exact_of zero_isFin (by rw [e3, e4, toReal_zero, add_zero]), e3, e4, add_zero]
  have f6 := sqrt_isFin f5 e5.ge
  refine ⟨f6, ?_⟩
  change toReal (F32.sqrt ((b.x - a.x) * (b.x - a.x) + (b.y - a.y) * (b.y - a.y))) = 0
  rw [(sqrt_rnd f5 e5.ge).exact_of zero_isFin (by rw [e5, toReal_zero, Real.sqrt_zero]), e5, Real.sqrt_zero]

/-- **C125, `close_to`.** Points with coordinates on the grid of step `2^-22` (whole numbers, for instance, and all numbers of size 2 and
more) are close exactly if they are at the same position. -/
theorem C125_close_to {a b : Vec2 F32} (ha : OnGrid 22 a) (hb : OnGrid 22 b) : closeTo a b = true ↔ rpos a = rpos b := by
  change F32.le (distance a b) Scalar.epsilon = true ↔ _
  constructor
  · intro h
    by_contra hne
    rcases grid_distance (by norm_num) ha hb hne with h' | ⟨hf, h'⟩
    · rw [h'] at h
      revert h
      decide +kernel
    · rw [le_fin hf eps_isFin, toReal_eps] at h
      have : (1 : ℝ) / 2 ^ 22 = 2 * (1 / 2 ^ 23) := by norm_num
      have : (0 : ℝ) < 1 / 2 ^ 23 := by positivity
      linarith
  · intro h
    obtain ⟨hf, h0⟩ := same_distance ⟨ha.1.1, ha.2.1⟩ ⟨hb.1.1, hb.2.1⟩ h
    rw [le_fin hf eps_isFin, toReal_eps, h0]
    positivity

/-- an executable test for multiples of `2^-n` -/
theorem multiple_of {x : F32} {n : ℕ} (hn : n ≤ 149)
    (h : (match x with | .fin _ m => decide (mag m % 2 ^ (149 - n) = 0) | _ => false) = true) : Multiple n x := by
  cases x with
  | nan => cases h
  | inf s => cases h
  | fin s m =>
    refine ⟨⟨_, _, rfl⟩, ?_⟩
    obtain ⟨w, hw⟩ := Nat.dvd_of_mod_eq_zero (of_decide_eq_true h)
    refine ⟨(if s then -1 else 1) * w, ?_⟩
    rw [toReal_fin, hw]
    have : (2 : ℝ) ^ 149 = 2 ^ (149 - n) * 2 ^ n := by rw [← pow_add]; congr 1; omega
    rw [this]
    push_cast
    cases s <;> field_simp

/-- numbers of size `2^k` and more are multiples of `2^(k-23)` -/
theorem multiple_of_large {x : F32} {n : ℕ} (hn : n ≤ 23) (hx : IsFin x) (h : x = F32.lit 0 ∨ (2 : ℝ) ^ (23 - n) ≤ |toReal x|) : Multiple n x := by
  refine ⟨hx, ?_⟩
  rcases h with rfl | h
  · refine ⟨0, ?_⟩
    have : toReal (F32.lit 0) = 0 := toReal_zero
    rw [this]; simp
  obtain ⟨s, m, rfl⟩ := hx
  have hm : (150 - n) * 2 ^ 23 ≤ m.val := by
    by_contra hc
    have h1 : mag m.val < mag ((150 - n) * 2 ^ 23) := mag_lt.2 (by omega)
    have h2 : mag ((150 - n) * 2 ^ 23) = 2 ^ (23 - n) * 2 ^ 149 := by
      unfold mag
      rw [Nat.mul_div_cancel _ (by norm_num)]
      have : (150 - n) * 2 ^ 23 - 2 ^ 23 * (150 - n - 1) = 2 ^ 23 := by
        have : 150 - n = (150 - n - 1) + 1 := by omega
        rw [this, add_mul]; omega
      rw [this, ← pow_add, ← pow_add]
      congr 1
      omega
    rw [toReal_fin, mul_div_assoc, abs_sign, abs_of_nonneg (by positivity), le_div_iff₀ (by positivity)] at h
    rw [h2] at h1
    have h3 : ((mag m.val : ℕ) : ℝ) < ((2 ^ (23 - n) * 2 ^ 149 : ℕ) : ℝ) := by exact_mod_cast h1
    push_cast at h3
    linarith
  have hd : 2 ^ (149 - n) ∣ mag m.val := by
    unfold mag
    refine Dvd.dvd.mul_left (Nat.pow_dvd_pow 2 ?_) _
    have := (Nat.le_div_iff_mul_le (show 0 < 2 ^ 23 by norm_num)).2 hm
    omega
  exact (multiple_of (by omega) (by simpa using Nat.mod_eq_zero_of_dvd hd)).2

/-! ### examples -/

/-- a segment of length 5; its point (1.5, 2) satisfies the sum exactly, the point one step beside it does not -/
example : let a : Vec2 F32 := ⟨F32.lit 0, F32.lit 0⟩
    let b : Vec2 F32 := ⟨F32.lit 3, F32.lit 4⟩
    let p : Vec2 F32 := ⟨F32.lit 3 2, F32.lit 2⟩
    ((OrdScalar.one : F32) <. distance a b) = true ∧ IsFin (distance a b) ∧ isOnLineSegment a b p false = true ∧
    (distance a p + distance p b =. distance a b) = true := by
  refine ⟨by decide +kernel, ⟨false, ⟨0x40a00000, by decide⟩, by decide +kernel⟩, by decide +kernel, by decide +kernel⟩

/-- **C125 is sharp, `is_on_line_segment`.** On the segment from (0, 0) to (0.6, 0.8), whose computed length is exactly 1, the point
(0.078, 0.104) is accepted although the two computed distances add up to less than 1. -/
theorem C125_sharp_segment : let a : Vec2 F32 := ⟨F32.lit 0, F32.lit 0⟩
    let b : Vec2 F32 := ⟨F32.lit 6 10, F32.lit 8 10⟩
    let p : Vec2 F32 := ⟨F32.lit 78 1000, F32.lit 104 1000⟩
    distance a b = F32.lit 1 ∧ isOnLineSegment a b p false = true ∧ (distance a p + distance p b =. distance a b) = false := by
  decide +kernel

/-- the points (2, 0) and (2 + 2^-22, 0) are on the grid and not close -/
example : let a : Vec2 F32 := ⟨F32.lit 2, F32.lit 0⟩
    let b : Vec2 F32 := ⟨F32.lit (2 ^ 23 + 1) (2 ^ 22), F32.lit 0⟩
    OnGrid 22 a ∧ OnGrid 22 b ∧ closeTo a b = false ∧ closeTo a ⟨F32.lit 2, F32.neg (F32.lit 0)⟩ = true := by
  exact ⟨⟨multiple_of (by norm_num) (by decide +kernel), multiple_of (by norm_num) (by decide +kernel)⟩,
    ⟨multiple_of (by norm_num) (by decide +kernel), multiple_of (by norm_num) (by decide +kernel)⟩, by decide +kernel, by decide +kernel⟩

/-- **C125 is sharp, `close_to`.** Different points with coordinates on the grid of step `2^-23` can be close. -/
theorem C125_sharp_close : closeTo (⟨F32.lit 1, F32.lit 0⟩ : Vec2 F32) ⟨F32.lit (2 ^ 23 + 1) (2 ^ 23), F32.lit 0⟩ = true ∧
    closeTo (⟨F32.lit 1, F32.lit 0⟩ : Vec2 F32) ⟨F32.lit (2 ^ 22 + 1) (2 ^ 22), F32.lit 0⟩ = false := by
  decide +kernel

end Kami.Utils
