import Verif.Num.F32Error
import Verif.Num.F32Int
/-!
# Scaling by powers of two

Rounding commutes with multiplication by a power of two as long as nothing is subnormal or overflows.
-/

set_option autoImplicit false

namespace Kami.F32

/-! ### rounding -/

theorem mag_add_binade {m : ℕ} (hm : 2 ^ 23 ≤ m) : mag (m + 2 ^ 23) = 2 * mag m := by
  unfold mag
  have h1 : (m + 2 ^ 23) / 2 ^ 23 - 1 = (m / 2 ^ 23 - 1) + 1 := by omega
  rw [h1, pow_succ 2 (m / 2 ^ 23 - 1)]
  have h2 : m + 2 ^ 23 - 2 ^ 23 * (m / 2 ^ 23 - 1 + 1) = m - 2 ^ 23 * (m / 2 ^ 23 - 1) := by omega
  rw [h2]
  ring

theorem mag_add_binades {m : ℕ} (hm : 2 ^ 23 ≤ m) (k : ℕ) : mag (m + k * 2 ^ 23) = 2 ^ k * mag m := by
  induction k with
  | zero => simp
  | succ k ih =>
    have e : m + (k + 1) * 2 ^ 23 = (m + k * 2 ^ 23) + 2 ^ 23 := by ring
    rw [e, mag_add_binade (by omega), ih, pow_succ]
    ring

theorem RIdx.unique {r : ℝ} {n n' : ℕ} (h : RIdx r n) (h' : RIdx r n') : n = n' := by
  refine le_antisymm ?_ ?_
  · rcases n with _ | m
    · omega
    · exact (h' m).2 ((h m).1 le_rfl)
  · rcases n' with _ | m
    · omega
    · exact (h m).2 ((h' m).1 le_rfl)

theorem RIdx.double {r : ℝ} {n : ℕ} (h : RIdx r n) (hr : 2 ^ 23 ≤ r) : RIdx (2 * r) (n + 2 ^ 23) := by
  have m0 : mag (2 ^ 23 - 1) = 2 ^ 23 - 1 := by decide +kernel
  have m1 : mag (2 ^ 23 - 1 + 1) = 2 ^ 23 := by decide +kernel
  have m2 : mag (2 ^ 24 - 1) = 2 ^ 24 - 1 := by decide +kernel
  have m3 : mag (2 ^ 24) = 2 ^ 24 := by decide +kernel
  have hn : 2 ^ 23 ≤ n := by
    have := (h (2 ^ 23 - 1)).2 (Or.inl (by
      rw [m0, m1]
      have e : ((2 ^ 23 - 1 : ℕ) : ℝ) = 2 ^ 23 - 1 := by norm_num
      rw [e]
      push_cast
      linarith))
    omega
  intro m
  rcases Nat.lt_or_ge m (2 ^ 24) with hm | hm
  · refine iff_of_true (by omega) (Or.inl ?_)
    have h1 : (mag m : ℝ) ≤ mag (2 ^ 24 - 1) := magR_le (by omega)
    have h2 : (mag (m + 1) : ℝ) ≤ mag (2 ^ 24) := magR_le (by omega)
    rw [m2] at h1
    rw [m3] at h2
    have h1' : (mag m : ℝ) ≤ 16777215 := h1.trans (by norm_num)
    have h2' : (mag (m + 1) : ℝ) ≤ 16777216 := h2.trans (by norm_num)
    norm_num at hr
    linarith
  · obtain ⟨m', rfl⟩ : ∃ m', m = m' + 2 ^ 23 := ⟨m - 2 ^ 23, by omega⟩
    have e1 : mag (m' + 2 ^ 23) = 2 * mag m' := mag_add_binade (by omega)
    have e2 : mag (m' + 2 ^ 23 + 1) = 2 * mag (m' + 1) := by
      rw [Nat.add_right_comm]; exact mag_add_binade (by omega)
    have e3 : (m' + 2 ^ 23) % 2 = m' % 2 := by omega
    rw [e1, e2, e3]
    have := h m'
    push_cast
    have a1 : (2 * mag m' + 2 * mag (m' + 1) : ℝ) < 2 * (2 * r) ↔ (mag m' + mag (m' + 1) : ℝ) < 2 * r := by
      constructor <;> intro h <;> linarith
    have a2 : (2 * mag m' + 2 * mag (m' + 1) : ℝ) = 2 * (2 * r) ↔ (mag m' + mag (m' + 1) : ℝ) = 2 * r := by
      constructor <;> intro h <;> linarith
    rw [a1, a2, ← this]

theorem RIdx.scale {r : ℝ} {n : ℕ} (h : RIdx r n) (hr : 2 ^ 23 ≤ r) (k : ℕ) : RIdx (2 ^ k * r) (n + k * 2 ^ 23) := by
  induction k with
  | zero => simpa using h
  | succ k ih =>
    have hk : (2 : ℝ) ^ 23 ≤ 2 ^ k * r := by
      have : (1 : ℝ) ≤ 2 ^ k := one_le_pow₀ (by norm_num)
      nlinarith
    have := ih.double hk
    rw [show n + (k + 1) * 2 ^ 23 = n + k * 2 ^ 23 + 2 ^ 23 by ring, pow_succ]
    rw [show (2 : ℝ) ^ k * 2 * r = 2 * (2 ^ k * r) by ring]
    exact this

theorem RIdx.normal {r : ℝ} {n : ℕ} (h : RIdx r n) (hr : 2 ^ 23 ≤ r) : 2 ^ 23 ≤ n := by
  have m0 : mag (2 ^ 23 - 1) = 2 ^ 23 - 1 := by decide +kernel
  have m1 : mag (2 ^ 23 - 1 + 1) = 2 ^ 23 := by decide +kernel
  have := (h (2 ^ 23 - 1)).2 (Or.inl (by
    rw [m0, m1]
    have e : ((2 ^ 23 - 1 : ℕ) : ℝ) = 2 ^ 23 - 1 := by norm_num
    rw [e]
    push_cast
    linarith))
  omega

theorem RIdx.of_zero {n : ℕ} (h : RIdx 0 n) : n = 0 := by
  rcases n with _ | m
  · rfl
  · rcases (h m).1 le_rfl with h1 | ⟨h1, _⟩
    · have : (0 : ℝ) ≤ mag m := Nat.cast_nonneg _
      have : (0 : ℝ) ≤ mag (m + 1) := Nat.cast_nonneg _
      linarith
    · have a : (0 : ℝ) ≤ mag m := Nat.cast_nonneg _
      have b : (mag m : ℝ) < mag (m + 1) := magR_lt (Nat.lt_succ_self m)
      linarith

/-- rounding `num / den` and `2^k num / den` -/
theorem roundIdx_scale {num den : ℕ} (hd : 0 < den) (h : num = 0 ∨ 2 ^ 23 * den ≤ num) (k : ℕ) :
    mag (roundIdx (num * 2 ^ k) den) = mag (roundIdx num den) * 2 ^ k := by
  have h1 := roundIdx_ridx num den hd
  have h2 := roundIdx_ridx (num * 2 ^ k) den hd
  have hd' : (0 : ℝ) < den := by exact_mod_cast hd
  rcases h with rfl | h
  · simp only [Nat.zero_mul, Nat.cast_zero, zero_div] at h1 h2 ⊢
    rw [h1.of_zero]
    simp
  · have hr : (2 : ℝ) ^ 23 ≤ (num : ℝ) / den := by
      rw [le_div_iff₀ hd']
      exact_mod_cast h
    have e : (((num * 2 ^ k : ℕ) : ℝ) / den) = 2 ^ k * ((num : ℝ) / den) := by
      push_cast
      ring
    rw [e] at h2
    rw [h2.unique (h1.scale hr k), mag_add_binades (h1.normal hr)]
    ring

/-- rounding stays below a bound that is on the grid -/
theorem RIdx.le {r : ℝ} {n : ℕ} (h : RIdx r n) {i e : ℕ} (hi : i ≤ 2 ^ 24) (he : e ≤ 252) (hr : r ≤ (i * 2 ^ e : ℕ)) :
    mag n ≤ i * 2 ^ e := by
  obtain ⟨m, _, hm⟩ := exists_mag e i hi he
  have h1 := h.nearest m
  rw [hm] at h1
  have : (mag n : ℝ) ≤ (i * 2 ^ e : ℕ) := by
    rw [abs_sub_comm r ((i * 2 ^ e : ℕ) : ℝ), abs_of_nonneg (sub_nonneg.2 hr)] at h1
    have := (abs_le.1 h1).1
    linarith
  exact_mod_cast this

/-- rounding a multiple of `2^e` gives a multiple of `2^e` -/
theorem RIdx.dvd {r : ℝ} {n : ℕ} (h : RIdx r n) {j e : ℕ} (he : e ≤ 252) (hr : r = (j * 2 ^ e : ℕ)) : 2 ^ e ∣ mag n := by
  rcases Nat.lt_or_ge (n / 2 ^ 23 - 1) e with hn | hn
  · have hn1 : mag (n + 1) ≤ 2 ^ 24 * 2 ^ e := by
      unfold mag
      have hle : (n + 1) / 2 ^ 23 - 1 ≤ e := by omega
      refine Nat.mul_le_mul (by omega) (Nat.pow_le_pow_right (by norm_num) hle)
    have hj : j ≤ 2 ^ 24 := by
      have hu := h.upper
      have h1 : (mag n : ℝ) ≤ mag (n + 1) := magR_le (Nat.le_succ n)
      have h2 : (mag (n + 1) : ℝ) ≤ (2 ^ 24 * 2 ^ e : ℕ) := by exact_mod_cast hn1
      have h3 : ((j * 2 ^ e : ℕ) : ℝ) ≤ ((2 ^ 24 * 2 ^ e : ℕ) : ℝ) := by rw [← hr]; linarith
      have h4 : j * 2 ^ e ≤ 2 ^ 24 * 2 ^ e := by exact_mod_cast h3
      exact Nat.le_of_mul_le_mul_right h4 (by positivity)
    obtain ⟨m, _, hm⟩ := exists_mag e j hj he
    have h1 := h.nearest m
    rw [hm, hr, sub_self, abs_zero] at h1
    have h2 : ((j * 2 ^ e : ℕ) : ℝ) = mag n := by
      have := abs_nonpos_iff.1 h1
      linarith
    have h3 : j * 2 ^ e = mag n := by exact_mod_cast h2
    rw [← h3]
    exact Dvd.intro_left j rfl
  · unfold mag
    exact (pow_dvd_pow 2 hn).mul_left _

/-! ### numbers -/

/-- a finite number, a multiple of `2^e` of size at most `i 2^f`, in units of `2^-149` -/
def Grid (e i f : ℕ) (x : F32) : Prop := ∃ s m, x = fin s m ∧ 2 ^ e ∣ mag m ∧ mag m ≤ i * 2 ^ f

/-- `y` is `c` times `x` -/
def Times (c : ℤ) (x y : F32) : Prop := ∃ s m t n, x = fin s m ∧ y = fin t n ∧ val t n = c * val s m

theorem val_round {s : Bool} {num den : ℕ} {t : Bool} {n : Fin 0x7f800000} (h : round s num den = fin t n) :
    t = s ∧ n.val = roundIdx num den := by
  unfold round pack at h
  split at h
  · simp only [fin.injEq] at h
    exact ⟨h.1.symm, by rw [← h.2]⟩
  · cases h

theorem fin_of_mag_le {n i f : ℕ} (hi : i ≤ 2 ^ 24) (hf : f ≤ 252) (h : mag n ≤ i * 2 ^ f) : n < 0x7f800000 := by
  have e : mag 0x7f800000 = 2 ^ 24 * 2 ^ 253 := by decide +kernel
  rw [← mag_lt, e]
  refine lt_of_le_of_lt h ?_
  calc i * 2 ^ f ≤ 2 ^ 24 * 2 ^ 252 := Nat.mul_le_mul hi (Nat.pow_le_pow_right (by norm_num) hf)
    _ < 2 ^ 24 * 2 ^ 253 := by norm_num

/-- sum of two finite numbers -/
theorem add_val {s t : Bool} {m n : Fin 0x7f800000} (h : roundIdx (val s m + val t n).natAbs 1 < 0x7f800000) :
    ∃ q k, (fin s m + fin t n : F32) = fin q k ∧ mag k = mag (roundIdx (val s m + val t n).natAbs 1) ∧
      val q k = (val s m + val t n).sign * mag (roundIdx (val s m + val t n).natAbs 1) := by
  show ∃ q k, F32.add (fin s m) (fin t n) = _ ∧ _
  unfold F32.add
  simp only
  generalize val s m + val t n = z at *
  by_cases hz : z = 0
  · subst hz
    refine ⟨_, _, if_pos rfl, ?_, ?_⟩
    · have := (roundIdx_ridx 0 1 (by norm_num))
      rw [Nat.cast_zero, zero_div] at this
      rw [Int.natAbs_zero, this.of_zero]
    · simp [val]
  · rw [if_neg hz]
    unfold round pack
    rw [dif_pos h]
    refine ⟨_, _, rfl, rfl, ?_⟩
    unfold val
    rcases lt_or_gt_of_ne hz with h0 | h0
    · rw [if_pos (by simpa using h0), Int.sign_eq_neg_one_of_neg h0]
      simp
    · rw [if_neg (by simp; omega), Int.sign_eq_one_of_pos h0]
      simp

theorem val_natAbs (s : Bool) (n : ℕ) : (val s n).natAbs = mag n := natAbs_val s n

/-- product of two finite numbers -/
theorem mul_val {s t : Bool} {m n : Fin 0x7f800000} (h : roundIdx (mag m * mag n) (2 ^ 149) < 0x7f800000) :
    ∃ q k, (fin s m * fin t n : F32) = fin q k ∧ mag k = mag (roundIdx (mag m * mag n) (2 ^ 149)) ∧
      val q k = (val s m * val t n).sign * mag (roundIdx (mag m * mag n) (2 ^ 149)) := by
  show ∃ q k, F32.mul (fin s m) (fin t n) = _ ∧ _
  unfold F32.mul round pack
  simp only
  rw [dif_pos h]
  refine ⟨_, _, rfl, rfl, ?_⟩
  by_cases h0 : mag m * mag n = 0
  · have hr := roundIdx_ridx 0 (2 ^ 149) (by norm_num)
    rw [Nat.cast_zero, zero_div] at hr
    simp only [h0]
    rw [hr.of_zero]
    simp [val]
  · have hm : 0 < (mag m : ℤ) := by
      have : mag m ≠ 0 := fun hc => h0 (by rw [hc, Nat.zero_mul])
      omega
    have hn : 0 < (mag n : ℤ) := by
      have : mag n ≠ 0 := fun hc => h0 (by rw [hc, Nat.mul_zero])
      omega
    have hmn := mul_pos hm hn
    unfold val
    have g1 := Int.sign_eq_one_of_pos hm
    have g2 := Int.sign_eq_one_of_pos hn
    cases s <;> cases t <;> simp [g1, g2]

section
variable {e i j f : ℕ} {x x' y y' : F32}

theorem Grid.neg (h : Grid e i f x) : Grid e i f (-x) := by
  obtain ⟨s, m, rfl, h⟩ := h
  exact ⟨!s, m, rfl, h⟩

theorem Times.neg {c : ℤ} (h : Times c x y) : Times c (-x) (-y) := by
  obtain ⟨s, m, t, n, rfl, rfl, h⟩ := h
  refine ⟨!s, m, !t, n, rfl, rfl, ?_⟩
  rw [val_neg, val_neg, h]
  ring

theorem Grid.add (he : e ≤ 252) (hij : i + j ≤ 2 ^ 24) (hf : f ≤ 252) (h : Grid e i f x) (h' : Grid e j f x') :
    Grid e (i + j) f (x + x') := by
  obtain ⟨s, m, rfl, d1, b1⟩ := h
  obtain ⟨t, n, rfl, d2, b2⟩ := h'
  have hr := roundIdx_ridx (val s m + val t n).natAbs 1 (by norm_num)
  rw [Nat.cast_one, div_one] at hr
  have hle : mag (roundIdx (val s m + val t n).natAbs 1) ≤ (i + j) * 2 ^ f := by
    refine hr.le hij hf ?_
    have h1 := Int.natAbs_add_le (val s m) (val t n)
    rw [val_natAbs, val_natAbs] at h1
    have : (val s m + val t n).natAbs ≤ (i + j) * 2 ^ f := by rw [Nat.add_mul]; omega
    exact_mod_cast this
  obtain ⟨q, k, h1, h2, _⟩ := add_val (fin_of_mag_le hij hf hle)
  refine ⟨q, k, h1, ?_, by rw [h2]; exact hle⟩
  rw [h2]
  have dv : ∀ (b : Bool) (l : ℕ), 2 ^ e ∣ mag l → (2 ^ e : ℤ) ∣ val b l := by
    intro b l hl
    rw [← Int.natAbs_dvd_natAbs, val_natAbs]
    simpa [Int.natAbs_pow] using hl
  have hd : 2 ^ e ∣ (val s m + val t n).natAbs := by
    have := Int.natAbs_dvd_natAbs.2 (dvd_add (dv s m d1) (dv t n d2))
    simpa [Int.natAbs_pow] using this
  obtain ⟨l, hl⟩ := hd
  exact hr.dvd he (j := l) (by rw [hl, Nat.mul_comm])

theorem Grid.sub (he : e ≤ 252) (hij : i + j ≤ 2 ^ 24) (hf : f ≤ 252) (h : Grid e i f x) (h' : Grid e j f x') :
    Grid e (i + j) f (x - x') := by
  rw [sub_eq_add_neg']
  exact Grid.add he hij hf h h'.neg

theorem Grid.mul {e' f' ee ff : ℕ} (he : e + e' = ee + 149) (hf : f + f' = ff + 149) (hee : ee ≤ 252) (hff : ff ≤ 252)
    (hij : i * j ≤ 2 ^ 24) (h : Grid e i f x) (h' : Grid e' j f' x') : Grid ee (i * j) ff (x * x') := by
  obtain ⟨s, m, rfl, ⟨a, d1⟩, b1⟩ := h
  obtain ⟨t, n, rfl, ⟨b, d2⟩, b2⟩ := h'
  have hr := roundIdx_ridx (mag m * mag n) (2 ^ 149) (by norm_num)
  have hle : mag (roundIdx (mag m * mag n) (2 ^ 149)) ≤ (i * j) * 2 ^ ff := by
    refine hr.le hij hff ?_
    rw [div_le_iff₀ (by norm_num)]
    have h1 : mag m * mag n ≤ i * j * 2 ^ ff * 2 ^ 149 := by
      calc mag m * mag n ≤ (i * 2 ^ f) * (j * 2 ^ f') := Nat.mul_le_mul b1 b2
        _ = i * j * 2 ^ (f + f') := by rw [pow_add]; ring
        _ = i * j * 2 ^ ff * 2 ^ 149 := by rw [hf, pow_add]; ring
    exact_mod_cast h1
  obtain ⟨q, k, h1, h2, _⟩ := mul_val (s := s) (t := t) (fin_of_mag_le hij hff hle)
  refine ⟨q, k, h1, ?_, by rw [h2]; exact hle⟩
  rw [h2]
  refine hr.dvd hee (j := a * b) ?_
  rw [div_eq_iff (by norm_num)]
  have h1 : mag m * mag n = a * b * 2 ^ ee * 2 ^ 149 := by
    calc mag m * mag n = a * b * 2 ^ (e + e') := by rw [d1, d2, pow_add]; ring
      _ = a * b * 2 ^ ee * 2 ^ 149 := by rw [he, pow_add]; ring
  exact_mod_cast h1

/-- a power of two up to sign -/
def TwoPow (c : ℤ) (k : ℕ) : Prop := c = 2 ^ k ∨ c = -2 ^ k

theorem TwoPow.natAbs {c : ℤ} {k : ℕ} (h : TwoPow c k) : c.natAbs = 2 ^ k := by
  rcases h with rfl | rfl <;> simp [Int.natAbs_pow]

theorem natAbs_scale {c : ℤ} {k : ℕ} (h : TwoPow c k) (z : ℤ) : (c * z).natAbs = z.natAbs * 2 ^ k := by
  rw [Int.natAbs_mul, h.natAbs, Nat.mul_comm]

theorem sign_scale {c : ℤ} {k : ℕ} (h : TwoPow c k) (z : ℤ) (a : ℤ) : (c * z).sign * (a * 2 ^ k) = c * (z.sign * a) := by
  rw [Int.sign_mul]
  rcases h with rfl | rfl
  · rw [Int.sign_eq_one_of_pos (by positivity)]; ring
  · rw [Int.sign_neg, Int.sign_eq_one_of_pos (by positivity)]; ring

theorem Times.add {c : ℤ} {k : ℕ} (hc : TwoPow c k) (he : 23 ≤ e) (h : Times c x y) (h' : Times c x' y') (gx : Grid e i f x)
    (gx' : Grid e j f x') (hf1 : IsFin (x + x')) (hf2 : IsFin (y + y')) : Times c (x + x') (y + y') := by
  obtain ⟨s, m, t, n, rfl, rfl, h⟩ := h
  obtain ⟨s', m', t', n', rfl, rfl, h'⟩ := h'
  have dv : ∀ {i : ℕ} (b : Bool) (l : Fin 0x7f800000), Grid e i f (fin b l) → (2 ^ e : ℤ) ∣ val b l := by
    rintro i b l ⟨_, _, he, hl, _⟩
    cases he
    rw [← Int.natAbs_dvd_natAbs, val_natAbs]
    simpa [Int.natAbs_pow] using hl
  have hd := dvd_add (dv _ _ gx) (dv _ _ gx')
  have key : ∀ (b b' : Bool) (l l' : Fin 0x7f800000), IsFin (fin b l + fin b' l' : F32) →
      roundIdx (val b l + val b' l').natAbs 1 < 0x7f800000 := by
    intro b b' l l' hfin
    by_cases hz : val b l + val b' l' = 0
    · have := (roundIdx_ridx 0 1 (by norm_num))
      rw [Nat.cast_zero, zero_div] at this
      rw [hz, Int.natAbs_zero, this.of_zero]
      norm_num
    · obtain ⟨q, r, hq⟩ := hfin
      have hq' : F32.add (fin b l) (fin b' l') = fin q r := hq
      unfold F32.add at hq'
      simp only at hq'
      rw [if_neg hz] at hq'
      rw [← (val_round hq').2]
      exact r.isLt
  obtain ⟨q, r, e1, _, v1⟩ := add_val (key _ _ _ _ hf1)
  obtain ⟨q', r', e2, _, v2⟩ := add_val (key _ _ _ _ hf2)
  refine ⟨q, r, q', r', e1, e2, ?_⟩
  rw [v1, v2, h, h', ← mul_add]
  generalize val s m + val s' m' = z at hd ⊢
  rw [natAbs_scale hc, roundIdx_scale (by norm_num) ?_ k]
  · push_cast
    exact sign_scale hc z _
  · by_cases hz : z = 0
    · exact Or.inl (by rw [hz]; rfl)
    · right
      have h1 := Int.natAbs_dvd_natAbs.2 hd
      rw [Int.natAbs_pow] at h1
      have h2 := Nat.le_of_dvd (by omega) h1
      have h3 : 2 ^ 23 ≤ 2 ^ e := Nat.pow_le_pow_right (by norm_num) he
      have h4 : 2 ^ 23 ≤ z.natAbs := h3.trans h2
      omega

theorem Times.sub {c : ℤ} {k : ℕ} (hc : TwoPow c k) (he : 23 ≤ e) (h : Times c x y) (h' : Times c x' y') (gx : Grid e i f x)
    (gx' : Grid e j f x') (hf1 : IsFin (x - x')) (hf2 : IsFin (y - y')) : Times c (x - x') (y - y') := by
  rw [sub_eq_add_neg'] at *
  exact Times.add hc he h h'.neg gx gx'.neg hf1 hf2

theorem Times.mul {c d : ℤ} {k l e' f' : ℕ} (hc : TwoPow c k) (hd : TwoPow d l) (he : 172 ≤ e + e') (h : Times c x y)
    (h' : Times d x' y') (gx : Grid e i f x) (gx' : Grid e' j f' x') (hf1 : IsFin (x * x')) (hf2 : IsFin (y * y')) :
    Times (c * d) (x * x') (y * y') := by
  obtain ⟨s, m, t, n, rfl, rfl, h⟩ := h
  obtain ⟨s', m', t', n', rfl, rfl, h'⟩ := h'
  have key : ∀ (b b' : Bool) (l l' : Fin 0x7f800000), IsFin (fin b l * fin b' l' : F32) →
      roundIdx (mag l * mag l') (2 ^ 149) < 0x7f800000 := by
    intro b b' l l' hfin
    obtain ⟨q, r, hq⟩ := hfin
    rw [← (val_round (show round _ _ _ = fin q r from hq)).2]
    exact r.isLt
  obtain ⟨q, r, e1, _, v1⟩ := mul_val (key _ _ _ _ hf1)
  obtain ⟨q', r', e2, _, v2⟩ := mul_val (key _ _ _ _ hf2)
  refine ⟨q, r, q', r', e1, e2, ?_⟩
  have m1 : mag n = mag m * 2 ^ k := by rw [← val_natAbs t, h, natAbs_scale hc, val_natAbs]
  have m2 : mag n' = mag m' * 2 ^ l := by rw [← val_natAbs t', h', natAbs_scale hd, val_natAbs]
  have hcd : TwoPow (c * d) (k + l) := by
    rcases hc with rfl | rfl <;> rcases hd with rfl | rfl
    · left; rw [pow_add]
    · right; rw [pow_add]; ring
    · right; rw [pow_add]; ring
    · left; rw [pow_add]; ring
  have em : mag n * mag n' = mag m * mag m' * 2 ^ (k + l) := by rw [m1, m2, pow_add]; ring
  have ev : val t n * val t' n' = c * d * (val s m * val s' m') := by rw [h, h']; ring
  rw [v1, v2, ev, em, roundIdx_scale (by norm_num) ?_ (k + l)]
  · push_cast
    exact sign_scale hcd _ _
  · by_cases hz : mag m * mag m' = 0
    · exact Or.inl hz
    · right
      obtain ⟨_, _, h1, d1, _⟩ := gx
      obtain ⟨_, _, h2, d2, _⟩ := gx'
      cases h1
      cases h2
      have := Nat.le_of_dvd (Nat.pos_of_ne_zero hz) (mul_dvd_mul d1 d2)
      rw [← pow_add] at this
      have h3 : 2 ^ 172 ≤ 2 ^ (e + e') := Nat.pow_le_pow_right (by norm_num) he
      have h4 : (2 : ℕ) ^ 23 * 2 ^ 149 = 2 ^ 172 := by norm_num
      rw [h4]
      exact h3.trans this

/-! ### factors that are powers of two, in either direction -/

/-- `c` is `2^k` or `-2^k` for an integer `k` -/
def IsTwoPow (c : ℚ) : Prop := ∃ k : ℤ, |c| = 2 ^ k

theorem IsTwoPow.cases {c : ℚ} (h : IsTwoPow c) : ∃ (d : ℤ) (k : ℕ), TwoPow d k ∧ (c = d ∨ c * d = 1) := by
  obtain ⟨k, hk⟩ := h
  obtain ⟨n, rfl | rfl⟩ := Int.eq_nat_or_neg k
  · rw [zpow_natCast] at hk
    rcases abs_eq (by positivity) |>.1 hk with h | h
    · exact ⟨2 ^ n, n, .inl rfl, .inl (by rw [h]; norm_cast)⟩
    · exact ⟨-2 ^ n, n, .inr rfl, .inl (by rw [h]; norm_cast)⟩
  · rw [zpow_neg, zpow_natCast] at hk
    have h2 : (2 : ℚ) ^ n ≠ 0 := by positivity
    rcases abs_eq (by positivity) |>.1 hk with h | h
    · refine ⟨2 ^ n, n, .inl rfl, .inr ?_⟩
      rw [h]; push_cast; exact inv_mul_cancel₀ h2
    · refine ⟨-2 ^ n, n, .inr rfl, .inr ?_⟩
      rw [h]; push_cast; rw [neg_mul_neg]; exact inv_mul_cancel₀ h2

theorem IsTwoPow.mul {c d : ℚ} (hc : IsTwoPow c) (hd : IsTwoPow d) : IsTwoPow (c * d) := by
  obtain ⟨k, hk⟩ := hc
  obtain ⟨l, hl⟩ := hd
  exact ⟨k + l, by rw [abs_mul, hk, hl, zpow_add₀ (by norm_num)]⟩

theorem IsTwoPow.ne_zero {c : ℚ} (hc : IsTwoPow c) : c ≠ 0 := by
  obtain ⟨k, hk⟩ := hc
  intro h
  rw [h, abs_zero] at hk
  have : (0 : ℚ) < 2 ^ k := by positivity
  linarith

theorem Grid.isFin (h : Grid e i f x) : IsFin x := by
  obtain ⟨s, m, rfl, _⟩ := h
  exact ⟨s, m, rfl⟩

theorem times_iff {c : ℤ} (hx : IsFin x) (hy : IsFin y) : Times c x y ↔ toRat y = c * toRat x := by
  obtain ⟨s, m, rfl⟩ := hx
  obtain ⟨t, n, rfl⟩ := hy
  have h1 : toRat (fin t n) = c * toRat (fin s m) ↔ val t n = c * val s m := by
    show (val t n : ℚ) / 2 ^ 149 = c * ((val s m : ℚ) / 2 ^ 149) ↔ _
    rw [← mul_div_assoc, div_left_inj' (by positivity)]
    exact_mod_cast Iff.rfl
  rw [h1]
  constructor
  · rintro ⟨_, _, _, _, h, h', hv⟩
    cases h
    cases h'
    exact hv
  · intro h
    exact ⟨_, _, _, _, rfl, rfl, h⟩

/-- the relation `y = c x` in one of the two directions -/
theorem rel_cases {c : ℚ} {d : ℤ} (hx : IsFin x) (hy : IsFin y) (hd : d ≠ 0) (h : c = d ∨ c * d = 1) :
    toRat y = c * toRat x ↔ (if c = d then Times d x y else Times d y x) := by
  split
  · next hc => rw [times_iff hx hy, hc]
  · next hc =>
    have h1 := h.resolve_left hc
    rw [times_iff hy hx]
    have hd' : (d : ℚ) ≠ 0 := by exact_mod_cast hd
    constructor
    · intro h2
      rw [h2, ← mul_assoc, mul_comm (d : ℚ) c, h1, one_mul]
    · intro h2
      rw [h2, ← mul_assoc, h1, one_mul]

theorem TwoPow.ne_zero {c : ℤ} {k : ℕ} (h : TwoPow c k) : c ≠ 0 := by
  have h1 := h.natAbs
  intro h0
  rw [h0] at h1
  have h2 : 0 < 2 ^ k := by positivity
  rw [Int.natAbs_zero] at h1
  omega

variable {c : ℚ}

theorem rel_add (hc : IsTwoPow c) (he : 23 ≤ e) (he' : e ≤ 252) (hij : i + j ≤ 2 ^ 24) (hf : f ≤ 252) (gx : Grid e i f x)
    (gx' : Grid e j f x') (gy : Grid e i f y) (gy' : Grid e j f y') (h : toRat y = c * toRat x)
    (h' : toRat y' = c * toRat x') : toRat (y + y') = c * toRat (x + x') := by
  obtain ⟨d, k, hd, hcd⟩ := hc.cases
  have f1 := (Grid.add he' hij hf gx gx').isFin
  have f2 := (Grid.add he' hij hf gy gy').isFin
  rw [rel_cases gx.isFin gy.isFin hd.ne_zero hcd] at h
  rw [rel_cases gx'.isFin gy'.isFin hd.ne_zero hcd] at h'
  rw [rel_cases f1 f2 hd.ne_zero hcd]
  split at h
  · next hc => rw [if_pos hc] at h' ⊢; exact Times.add hd he h h' gx gx' f1 f2
  · next hc => rw [if_neg hc] at h' ⊢; exact Times.add hd he h h' gy gy' f2 f1

theorem toRat_neg_fin (x : F32) : toRat (-x) = -toRat x := by
  rcases x with _ | s | ⟨s, n⟩
  · simp [toRat, show (-nan : F32) = nan from rfl]
  · simp [toRat, show (-inf s : F32) = inf (!s) from rfl]
  · show toRat (fin (!s) n) = -toRat (fin s n)
    simp only [toRat, val_neg]
    push_cast
    ring

theorem rel_sub (hc : IsTwoPow c) (he : 23 ≤ e) (he' : e ≤ 252) (hij : i + j ≤ 2 ^ 24) (hf : f ≤ 252) (gx : Grid e i f x)
    (gx' : Grid e j f x') (gy : Grid e i f y) (gy' : Grid e j f y') (h : toRat y = c * toRat x)
    (h' : toRat y' = c * toRat x') : toRat (y - y') = c * toRat (x - x') := by
  rw [sub_eq_add_neg', sub_eq_add_neg']
  refine rel_add hc he he' hij hf gx gx'.neg gy gy'.neg h ?_
  rw [toRat_neg_fin, toRat_neg_fin, h']
  ring

theorem rel_mul {e' f' ee ff : ℕ} (hc : IsTwoPow c) (he : e + e' = ee + 149) (hf : f + f' = ff + 149) (h23 : 23 ≤ ee)
    (hee : ee ≤ 252) (hff : ff ≤ 252) (hij : i * j ≤ 2 ^ 24) (gx : Grid e i f x) (gx' : Grid e' j f' x') (gy : Grid e i f y)
    (gy' : Grid e' j f' y') (h : toRat y = c * toRat x) (h' : toRat y' = c * toRat x') :
    toRat (y * y') = c ^ 2 * toRat (x * x') := by
  obtain ⟨d, k, hd, hcd⟩ := hc.cases
  have f1 := (Grid.mul he hf hee hff hij gx gx').isFin
  have f2 := (Grid.mul he hf hee hff hij gy gy').isFin
  have h1 := (rel_cases gx.isFin gy.isFin hd.ne_zero hcd).1 h
  have h2 := (rel_cases gx'.isFin gy'.isFin hd.ne_zero hcd).1 h'
  by_cases hcc : c = d
  · rw [if_pos hcc] at h1 h2
    have := (times_iff f1 f2).1 (Times.mul hd hd (by omega) h1 h2 gx gx' f1 f2)
    rw [this, hcc]
    push_cast
    ring
  · rw [if_neg hcc] at h1 h2
    have := (times_iff f2 f1).1 (Times.mul hd hd (by omega) h1 h2 gy gy' f2 f1)
    rw [this]
    have h3 := hcd.resolve_left hcc
    push_cast
    have : c ^ 2 * ((d : ℚ) * d * toRat (y * y')) = (c * d) ^ 2 * toRat (y * y') := by ring
    rw [this, h3]
    ring

theorem rel_mul_fixed {w : F32} {e' f' ee ff : ℕ} (hc : IsTwoPow c) (he : e + e' = ee + 149) (hf : f + f' = ff + 149)
    (h23 : 23 ≤ ee) (hee : ee ≤ 252) (hff : ff ≤ 252) (hij : i * j ≤ 2 ^ 24) (gw : Grid e' j f' w) (gx : Grid e i f x)
    (gy : Grid e i f y) (h : toRat y = c * toRat x) : toRat (y * w) = c * toRat (x * w) := by
  obtain ⟨d, k, hd, hcd⟩ := hc.cases
  have f1 := (Grid.mul he hf hee hff hij gx gw).isFin
  have f2 := (Grid.mul he hf hee hff hij gy gw).isFin
  have hw : Times 1 w w := (times_iff gw.isFin gw.isFin).2 (by simp)
  rw [rel_cases gx.isFin gy.isFin hd.ne_zero hcd] at h
  rw [rel_cases f1 f2 hd.ne_zero hcd]
  have key : d * 1 = d := mul_one d
  split at h
  · next hc =>
    rw [if_pos hc, ← key]
    exact Times.mul hd (l := 0) (.inl (by norm_num)) (by omega) h hw gx gw f1 f2
  · next hc =>
    rw [if_neg hc, ← key]
    exact Times.mul hd (l := 0) (.inl (by norm_num)) (by omega) h hw gy gw f2 f1

/-- quotient by a positive number -/
theorem div_val {s : Bool} {m n : Fin 0x7f800000} (hn : n.val ≠ 0) (h : roundIdx (mag m * 2 ^ 149) (mag n) < 0x7f800000) :
    ∃ q k, (fin s m / fin false n : F32) = fin q k ∧ mag k = mag (roundIdx (mag m * 2 ^ 149) (mag n)) ∧
      val q k = (val s m).sign * mag (roundIdx (mag m * 2 ^ 149) (mag n)) := by
  show ∃ q k, F32.div (fin s m) (fin false n) = _ ∧ _
  unfold F32.div round pack
  simp only
  rw [if_neg hn, dif_pos h]
  refine ⟨_, _, rfl, rfl, ?_⟩
  by_cases h0 : mag m = 0
  · have hr := roundIdx_ridx 0 (mag n) (by
      have : 0 < n.val := Nat.pos_of_ne_zero hn
      have := mag_lt.2 this
      omega)
    rw [Nat.cast_zero, zero_div] at hr
    simp only [h0, Nat.zero_mul]
    rw [hr.of_zero]
    simp [val]
  · have hm : 0 < (mag m : ℤ) := by omega
    have g1 := Int.sign_eq_one_of_pos hm
    unfold val
    cases s <;> simp [g1]

theorem rel_div {w : F32} {p : Fin 0x7f800000} (hc : IsTwoPow c) (hw : w = fin false p) (hp : p.val ≠ 0)
    (hpe : mag p ≤ 2 ^ (e + 126)) (gx : Grid e i f x) (gy : Grid e i f y) (hf1 : IsFin (x / w)) (hf2 : IsFin (y / w))
    (h : toRat y = c * toRat x) : toRat (y / w) = c * toRat (x / w) := by
  subst hw
  have hp0 : 0 < mag p := by
    have := mag_lt.2 (Nat.pos_of_ne_zero hp)
    omega
  have key : ∀ {x y : F32} {d : ℤ} {k : ℕ}, TwoPow d k → Grid e i f x → IsFin (x / fin false p) → IsFin (y / fin false p) →
      Times d x y → Times d (x / fin false p) (y / fin false p) := by
    intro x y d k hd gx f1 f2 ht
    obtain ⟨s, m, t, n, rfl, rfl, ht⟩ := ht
    have fin_idx : ∀ (b : Bool) (l : Fin 0x7f800000), IsFin (fin b l / fin false p : F32) →
        roundIdx (mag l * 2 ^ 149) (mag p) < 0x7f800000 := by
      intro b l hfin
      obtain ⟨q, r, hq⟩ := hfin
      have hq' : F32.div (fin b l) (fin false p) = fin q r := hq
      unfold F32.div at hq'
      simp only at hq'
      rw [if_neg hp] at hq'
      rw [← (val_round hq').2]
      exact r.isLt
    obtain ⟨q, r, e1, _, v1⟩ := div_val hp (fin_idx _ _ f1)
    obtain ⟨q', r', e2, _, v2⟩ := div_val hp (fin_idx _ _ f2)
    refine ⟨q, r, q', r', e1, e2, ?_⟩
    have m1 : mag n = mag m * 2 ^ k := by rw [← val_natAbs t, ht, natAbs_scale hd, val_natAbs]
    have em : mag n * 2 ^ 149 = mag m * 2 ^ 149 * 2 ^ k := by rw [m1]; ring
    rw [v1, v2, ht, em, roundIdx_scale hp0 ?_ k]
    · push_cast
      exact sign_scale hd _ _
    · obtain ⟨_, _, h1, d1, _⟩ := gx
      cases h1
      by_cases hz : mag m = 0
      · exact Or.inl (by rw [hz, Nat.zero_mul])
      · right
        have h2 := Nat.le_of_dvd (Nat.pos_of_ne_zero hz) d1
        calc 2 ^ 23 * mag p ≤ 2 ^ 23 * 2 ^ (e + 126) := Nat.mul_le_mul_left _ hpe
          _ = 2 ^ e * 2 ^ 149 := by rw [← pow_add, ← pow_add]; congr 1; omega
          _ ≤ mag m * 2 ^ 149 := Nat.mul_le_mul_right _ h2
  obtain ⟨d, k, hd, hcd⟩ := hc.cases
  rw [rel_cases gx.isFin gy.isFin hd.ne_zero hcd] at h
  rw [rel_cases hf1 hf2 hd.ne_zero hcd]
  split at h
  · next hc => rw [if_pos hc]; exact key hd gx hf1 hf2 h
  · next hc => rw [if_neg hc]; exact key hd gy hf2 hf1 h

/-! ### numbers of moderate size -/

/-- zero, or of size between `2^-39` and `2^50` -/
def Fits (r : ℚ) : Prop := r = 0 ∨ (1 / 2 ^ 39 ≤ |r| ∧ |r| ≤ 2 ^ 50)

theorem abs_toRat (s : Bool) (n : Fin 0x7f800000) : |toRat (fin s n)| = mag n / 2 ^ 149 := by
  show |(val s n : ℚ) / 2 ^ 149| = _
  rw [abs_div, abs_of_pos (show (0 : ℚ) < 2 ^ 149 by positivity), ← Int.cast_abs, Int.abs_eq_natAbs, val_natAbs, Int.cast_natCast]

theorem Fits.grid (hx : IsFin x) (h : Fits (toRat x)) : Grid 87 1 199 x := by
  obtain ⟨s, m, rfl⟩ := hx
  refine ⟨s, m, rfl, ?_⟩
  have h0 := abs_toRat s m
  rcases h with h | ⟨h1, h2⟩
  · rw [h, abs_zero] at h0
    have : (mag m : ℚ) = 0 := by
      rcases div_eq_zero_iff.1 h0.symm with h | h
      · exact h
      · norm_num at h
    have : mag m = 0 := by exact_mod_cast this
    rw [this]
    simp
  · rw [h0, le_div_iff₀ (by positivity)] at h1
    rw [h0, div_le_iff₀ (by positivity)] at h2
    have h1' : 2 ^ 110 ≤ mag m := by
      have : ((2 ^ 110 : ℕ) : ℚ) ≤ mag m := by refine le_trans (le_of_eq ?_) h1; norm_num
      exact_mod_cast this
    have h2' : mag m ≤ 2 ^ 199 := by
      have : (mag m : ℚ) ≤ ((2 ^ 199 : ℕ) : ℚ) := by refine le_trans h2 (le_of_eq ?_); norm_num
      exact_mod_cast this
    refine ⟨?_, by omega⟩
    have hm : mag (88 * 2 ^ 23) = 2 ^ 110 := by decide +kernel
    rw [← hm, mag_le] at h1'
    unfold mag
    exact (pow_dvd_pow 2 (by omega)).mul_left _

/-- multiplying by a power of two is exact -/
theorem mul_two_pow {s : F32} (hs : IsFin s) (hc : IsTwoPow (toRat s)) (hx : IsFin x) (h : Fits (toRat x))
    (h' : Fits (toRat x * toRat s)) : IsFin (x * s) ∧ toRat (x * s) = toRat x * toRat s := by
  obtain ⟨b, p, rfl⟩ := hs
  obtain ⟨a, m, rfl⟩ := hx
  obtain ⟨k, hk⟩ := hc
  -- the index of the product
  have hex : ∃ n : ℕ, mag m * mag p = mag n * 2 ^ 149 ∧ n < 0x7f800000 := by
    have hA := abs_toRat a m
    have hB := abs_toRat b p
    rcases h with h | ⟨h1, h2⟩
    · refine ⟨0, ?_, by norm_num⟩
      rw [h, abs_zero] at hA
      have : (mag m : ℚ) = 0 := by
        rcases div_eq_zero_iff.1 hA.symm with h | h
        · exact h
        · norm_num at h
      have : mag m = 0 := by exact_mod_cast this
      rw [this]
      simp
    · rcases h' with h' | ⟨h1', h2'⟩
      · exfalso
        rcases mul_eq_zero.1 h' with h | h
        · rw [h, abs_zero] at h1; norm_num at h1
        · rw [h, abs_zero] at hk
          have : (0 : ℚ) < 2 ^ k := by positivity
          linarith
      · rw [abs_mul, hk, hA] at h1' h2'
        rw [hA] at h1 h2
        rw [hk] at hB
        have hp : (mag p : ℚ) = 2 ^ 149 * 2 ^ k := by rw [hB]; field_simp
        have h1n : 2 ^ 110 ≤ mag m := by
          rw [le_div_iff₀ (by positivity)] at h1
          have : ((2 ^ 110 : ℕ) : ℚ) ≤ mag m := by refine le_trans (le_of_eq ?_) h1; norm_num
          exact_mod_cast this
        have hm : mag (88 * 2 ^ 23) = 2 ^ 110 := by decide +kernel
        rw [← hm, mag_le] at h1n
        have bound : ∀ n : ℕ, (mag n : ℚ) / 2 ^ 149 ≤ 2 ^ 50 → n < 0x7f800000 := by
          intro n hn
          rw [div_le_iff₀ (by positivity)] at hn
          have : (mag n : ℚ) ≤ ((1 * 2 ^ 199 : ℕ) : ℚ) := by refine le_trans hn (le_of_eq ?_); norm_num
          exact fin_of_mag_le (i := 1) (f := 199) (by norm_num) (by norm_num) (by exact_mod_cast this)
        obtain ⟨l, rfl | rfl⟩ := Int.eq_nat_or_neg k
        · have hn := mag_add_binades (m := m.val) (by omega) l
          refine ⟨m.val + l * 2 ^ 23, ?_, bound _ ?_⟩
          · have : (mag m * mag p : ℚ) = mag (m.val + l * 2 ^ 23) * 2 ^ 149 := by
              rw [hn, hp, zpow_natCast]; push_cast; ring
            exact_mod_cast this
          · rw [hn]; push_cast
            rw [zpow_natCast] at h2'
            refine le_trans (le_of_eq ?_) h2'
            ring
        · have hge : (l + 1) * 2 ^ 23 ≤ m.val := by
            by_contra hlt
            have h3 : mag m < mag ((l + 1) * 2 ^ 23) := mag_lt.2 (by omega)
            have h4 : mag ((l + 1) * 2 ^ 23) = 2 ^ l * 2 ^ 23 := by
              have e : (l + 1) * 2 ^ 23 = 2 ^ 23 + l * 2 ^ 23 := by ring
              rw [e, mag_add_binades le_rfl, show mag (2 ^ 23) = 2 ^ 23 by decide +kernel]
            rw [h4] at h3
            have h5 : (mag m : ℚ) < 2 ^ l * 2 ^ 23 := by exact_mod_cast h3
            rw [zpow_neg, zpow_natCast, div_mul_eq_mul_div, le_div_iff₀ (by positivity), ← div_eq_mul_inv,
              le_div_iff₀ (by positivity)] at h1'
            have h6 : (0 : ℚ) < 2 ^ l := by positivity
            have h7 : (1 / 2 ^ 39 * 2 ^ 149 : ℚ) = 2 ^ 110 := by norm_num
            rw [h7] at h1'
            nlinarith
          have hn := mag_add_binades (m := m.val - l * 2 ^ 23) (by omega) l
          have hsub : m.val - l * 2 ^ 23 + l * 2 ^ 23 = m.val := by omega
          rw [hsub] at hn
          have h6 : (2 : ℚ) ^ l ≠ 0 := by positivity
          have e : (mag m * mag p : ℚ) = mag (m.val - l * 2 ^ 23) * 2 ^ 149 := by
            rw [hn, hp, zpow_neg, zpow_natCast]; push_cast; field_simp
          refine ⟨m.val - l * 2 ^ 23, by exact_mod_cast e, bound _ ?_⟩
          refine le_trans (le_of_eq ?_) h2'
          rw [hn, zpow_neg, zpow_natCast]
          push_cast
          field_simp
  obtain ⟨n, hn, hlt⟩ := hex
  have hidx : roundIdx (mag m * mag p) (2 ^ 149) = n := by rw [hn]; exact roundIdx_exact n _ (by norm_num)
  obtain ⟨q, r, e1, _, v1⟩ := mul_val (s := a) (t := b) (m := m) (n := p) (by rw [hidx]; exact hlt)
  refine ⟨⟨q, r, e1⟩, ?_⟩
  rw [e1]
  show (val q r : ℚ) / 2 ^ 149 = (val a m : ℚ) / 2 ^ 149 * ((val b p : ℚ) / 2 ^ 149)
  rw [v1, hidx]
  have h3 : val a m * val b p = (val a m * val b p).sign * (mag n * 2 ^ 149) := by
    have := Int.sign_mul_natAbs (val a m * val b p)
    rw [Int.natAbs_mul, val_natAbs, val_natAbs, hn] at this
    push_cast at this
    exact this.symm
  have h4 : (val a m : ℚ) * val b p = ((val a m * val b p).sign : ℚ) * (mag n * 2 ^ 149) := by exact_mod_cast h3
  rw [div_mul_div_comm, h4]
  push_cast
  field_simp

end

end Kami.F32
