import Verif.Num.F32Round
/-!
# Finite results, and the box that `a + t * (b - a)` does not leave

Which operands a finite result of an operation must have had; and if `a` and `b` are at most a number whose significand is
even, so is the rounded `a + t * (b - a)` for `t` between 0 and 1.
-/

set_option autoImplicit false

namespace Kami.F32

section
variable {x y : F32}

theorem isFin_of_neg (h : IsFin (-x)) : IsFin x := by
  obtain ⟨s, n, h⟩ := h
  cases x with
  | nan => cases h
  | inf s => cases h
  | fin s n => exact ⟨s, n, rfl⟩

theorem isFin_of_add (h : IsFin (x + y)) : IsFin x ∧ IsFin y := by
  obtain ⟨s, n, h⟩ := h
  change F32.add x y = fin s n at h
  cases x with
  | nan => cases h
  | inf s => cases y with
    | nan => cases h
    | inf t => unfold F32.add at h; simp only at h; split at h <;> cases h
    | fin t m => cases h
  | fin s' n' => cases y with
    | nan => cases h
    | inf t => cases h
    | fin t m => exact ⟨⟨s', n', rfl⟩, ⟨t, m, rfl⟩⟩

theorem isFin_of_sub (h : IsFin (x - y)) : IsFin x ∧ IsFin y :=
  have := isFin_of_add (x := x) (y := -y) h
  ⟨this.1, isFin_of_neg this.2⟩

theorem isFin_of_mul (h : IsFin (x * y)) : IsFin x ∧ IsFin y := by
  obtain ⟨s, n, h⟩ := h
  change F32.mul x y = fin s n at h
  cases x with
  | nan => cases h
  | inf s => cases y with
    | nan => cases h
    | inf t => cases h
    | fin t m => unfold F32.mul at h; simp only at h; split at h <;> cases h
  | fin s' n' => cases y with
    | nan => cases h
    | inf t => unfold F32.mul at h; simp only at h; split at h <;> cases h
    | fin t m => exact ⟨⟨s', n', rfl⟩, ⟨t, m, rfl⟩⟩

theorem isFin_of_div (h : IsFin (x / y)) : IsFin x := by
  obtain ⟨s, n, h⟩ := h
  change F32.div x y = fin s n at h
  cases x with
  | nan => cases h
  | inf s => cases y <;> cases h
  | fin s' n' => exact ⟨s', n', rfl⟩

theorem isFin_of_sqrt (h : IsFin (F32.sqrt x)) : IsFin x := by
  obtain ⟨s, n, h⟩ := h
  cases x with
  | nan => cases h
  | inf s => cases s <;> cases h
  | fin s' n' => exact ⟨s', n', rfl⟩

theorem isFin_of_abs (h : IsFin (F32.abs x)) : IsFin x := by
  obtain ⟨s, n, h⟩ := h
  cases x with
  | nan => cases h
  | inf s => cases h
  | fin s' n' => exact ⟨s', n', rfl⟩

theorem isFin_of_le_le {l h : F32} (hl : IsFin l) (hh : IsFin h) (h1 : F32.le l x = true) (h2 : F32.le x h = true) : IsFin x := by
  obtain ⟨s, m, rfl⟩ := hl
  obtain ⟨t, n, rfl⟩ := hh
  cases x with
  | nan => cases h1
  | inf b => cases b
             · cases h2
             · cases h1
  | fin s' n' => exact ⟨s', n', rfl⟩

/-- a square root or an absolute value below a finite number is finite -/
theorem isFin_of_lt (hx : x ≠ inf true) (hy : IsFin y) (h : F32.lt x y = true) : IsFin x := by
  obtain ⟨s, m, rfl⟩ := hy
  cases x with
  | nan => cases h
  | inf b => cases b
             · cases h
             · exact absurd rfl hx
  | fin s' n' => exact ⟨s', n', rfl⟩

theorem abs_ne_neg_inf : F32.abs x ≠ inf true := by
  cases x <;> intro h <;> cases h

theorem pack_false_ne (n : ℕ) : pack false n ≠ inf true := by
  unfold pack
  split <;> intro h <;> cases h

theorem sqrt_ne_neg_inf : F32.sqrt x ≠ inf true := by
  cases x with
  | nan => intro h; cases h
  | inf s => cases s <;> intro h <;> cases h
  | fin s n =>
    unfold F32.sqrt
    simp only
    split
    · intro h; cases h
    · split
      · intro h; cases h
      · exact pack_false_ne _

end

/-! ### the box -/

/-- a rounded sum stays at most an even grid value if the exact one is at most half a step above it -/
theorem Rnd.le_even {z : ℝ} {x : F32} (h : Rnd z x) {k : ℕ} (hk : k % 2 = 0)
    (hz : 2 * (|z| * 2 ^ 149) ≤ (mag k : ℝ) + mag (k + 1)) : |toReal x| * 2 ^ 149 ≤ mag k := by
  obtain ⟨_, n, h1, h2, _⟩ := h
  rw [h2]
  refine magR_le ?_
  by_contra hn
  rcases (h1 k).1 (by omega) with h | ⟨_, h⟩
  · linarith
  · omega

/-- a rounded product with a factor between 0 and 1 is between 0 and the other factor -/
theorem mul_between {t d : F32} (ht : IsFin t) (hd : IsFin d) (h0 : 0 ≤ toReal t) (h1 : toReal t ≤ 1) :
    IsFin (t * d) ∧ (0 ≤ toReal d → 0 ≤ toReal (t * d) ∧ toReal (t * d) ≤ toReal d) ∧
      (toReal d ≤ 0 → toReal d ≤ toReal (t * d) ∧ toReal (t * d) ≤ 0) := by
  have hle : |toReal t * toReal d| ≤ |toReal d| := by
    rw [abs_mul, abs_of_nonneg h0]
    exact mul_le_of_le_one_left (abs_nonneg _) h1
  have hmax : |toReal d| < maxHalf := by
    obtain ⟨s, n, rfl⟩ := hd
    rw [toReal_fin, mul_div_assoc, abs_sign, abs_of_nonneg (by positivity), div_lt_iff₀ (by positivity)]
    have h1 : mag n ≤ mag 0x7f7fffff := mag_le.2 (by have := n.isLt; omega)
    have h2 : mag 0x7f7fffff < (2 ^ 25 - 1) * 2 ^ 103 * 2 ^ 149 := by decide +kernel
    have h3 : ((mag n : ℕ) : ℝ) < (((2 ^ 25 - 1) * 2 ^ 103 * 2 ^ 149 : ℕ) : ℝ) := by exact_mod_cast lt_of_le_of_lt h1 h2
    refine lt_of_lt_of_eq h3 ?_
    unfold maxHalf
    push_cast
    norm_num
  have hf : IsFin (t * d) := mul_isFin ht hd (lt_of_le_of_lt hle hmax)
  have hr := mul_rnd ht hd hf
  have hup := hr.upper hd hle
  have hs := hr.2
  obtain ⟨_, _, _, hs⟩ := hs
  by_cases hz : toReal t * toReal d = 0
  · have := (mul_zero' ht hd hz).2
    rw [this]
    exact ⟨hf, fun h => ⟨le_refl _, h⟩, fun h => ⟨h, le_refl _⟩⟩
  refine ⟨hf, fun h => ?_, fun h => ?_⟩
  · rw [abs_of_nonneg h] at hup
    have : 0 < toReal t * toReal d := lt_of_le_of_ne (mul_nonneg h0 h) (Ne.symm hz)
    exact ⟨nonneg_of_mul_nonneg_left hs this, (le_abs_self _).trans hup⟩
  · rw [abs_of_nonpos h] at hup
    have : toReal t * toReal d < 0 := lt_of_le_of_ne (mul_nonpos_of_nonneg_of_nonpos h0 h) hz
    refine ⟨by have := neg_abs_le (toReal (t * d)); linarith, ?_⟩
    by_contra hc
    have := mul_neg_of_pos_of_neg (not_le.1 hc) this
    linarith

/-- **the box, one coordinate.** `k` is an even index; the difference `b - a` was rounded by at most half a step above `mag k` -/
theorem lerp_box {a b t : F32} {k : ℕ} (hk : k % 2 = 0) (hk' : k < 0x7f800000) (ht : IsFin t) (h0 : 0 ≤ toReal t)
    (h1 : toReal t ≤ 1) (hd : IsFin (b - a)) (ha : |toReal a| * 2 ^ 149 ≤ mag k) (hb : |toReal b| * 2 ^ 149 ≤ mag k)
    (he : 2 * (|toReal (b - a) - (toReal b - toReal a)| * 2 ^ 149) ≤ (mag (k + 1) : ℝ) - mag k) :
    IsFin (a + t * (b - a)) ∧ |toReal (a + t * (b - a))| * 2 ^ 149 ≤ mag k := by
  obtain ⟨fb, fa⟩ := isFin_of_sub hd
  obtain ⟨hf, hp, hn⟩ := mul_between ht hd h0 h1
  generalize hw : t * (b - a) = w at *
  generalize hδ : b - a = δ at *
  have hg : (mag k : ℝ) ≤ mag (k + 1) := magR_le (by omega)
  have hV : 2 * (|toReal a + toReal w| * 2 ^ 149) ≤ (mag k : ℝ) + mag (k + 1) := by
    have hmul : ∀ x : ℝ, |x| * 2 ^ 149 = |x * 2 ^ 149| := fun x => by rw [abs_mul, abs_of_pos (by positivity : (0 : ℝ) < 2 ^ 149)]
    rw [hmul] at ha hb he ⊢
    have e1 : (toReal a + toReal w) * 2 ^ 149 = toReal a * 2 ^ 149 + toReal w * 2 ^ 149 := by ring
    have e2 : (toReal δ - (toReal b - toReal a)) * 2 ^ 149 =
        toReal δ * 2 ^ 149 - (toReal b * 2 ^ 149 - toReal a * 2 ^ 149) := by ring
    rw [e1]
    rw [e2] at he
    have hp' : 0 ≤ toReal δ → 0 ≤ toReal w * 2 ^ 149 ∧ toReal w * 2 ^ 149 ≤ toReal δ * 2 ^ 149 := fun h =>
      ⟨mul_nonneg (hp h).1 (by positivity), mul_le_mul_of_nonneg_right (hp h).2 (by positivity)⟩
    have hn' : toReal δ ≤ 0 → toReal δ * 2 ^ 149 ≤ toReal w * 2 ^ 149 ∧ toReal w * 2 ^ 149 ≤ 0 := fun h =>
      ⟨mul_le_mul_of_nonneg_right (hn h).1 (by positivity), mul_nonpos_of_nonpos_of_nonneg (hn h).2 (by positivity)⟩
    clear e1 e2 hmul
    have hcases := le_total 0 (toReal δ)
    clear hp hn
    generalize (mag k : ℝ) = M at *
    generalize (mag (k + 1) : ℝ) = N at *
    generalize toReal a * 2 ^ 149 = A at *
    generalize toReal b * 2 ^ 149 = B at *
    generalize toReal w * 2 ^ 149 = W at *
    generalize toReal δ * 2 ^ 149 = D at *
    obtain ⟨a1, a2⟩ := abs_le.1 ha
    obtain ⟨b1, b2⟩ := abs_le.1 hb
    have he' : |D - (B - A)| ≤ (N - M) / 2 := by linarith
    obtain ⟨c1, c2⟩ := abs_le.1 he'
    have : |A + W| ≤ (M + N) / 2 := by
      rw [abs_le]
      rcases hcases with h | h
      · obtain ⟨w1, w2⟩ := hp' h
        constructor <;> linarith
      · obtain ⟨w1, w2⟩ := hn' h
        constructor <;> linarith
    linarith
  have hfin : IsFin (a + w) := by
    refine add_isFin fa hf ?_
    have m1 : (mag k : ℝ) ≤ mag 0x7f7fffff := magR_le (by omega)
    have m2 : (mag (k + 1) : ℝ) ≤ mag 0x7f7fffff := magR_le (by omega)
    have m3 : mag 0x7f7fffff < (2 ^ 25 - 1) * 2 ^ 103 * 2 ^ 149 := by decide +kernel
    have m4 : (mag 0x7f7fffff : ℝ) < maxHalf * 2 ^ 149 := by
      have : ((mag 0x7f7fffff : ℕ) : ℝ) < (((2 ^ 25 - 1) * 2 ^ 103 * 2 ^ 149 : ℕ) : ℝ) := by exact_mod_cast m3
      refine lt_of_lt_of_eq this ?_
      unfold maxHalf
      push_cast
      norm_num
    refine lt_of_mul_lt_mul_right (a := (2 : ℝ) ^ 149) ?_ (by positivity)
    generalize (mag 0x7f7fffff : ℝ) = X at *
    generalize maxHalf * 2 ^ 149 = Y at *
    linarith
  exact ⟨hfin, (add_rnd fa hf hfin).le_even hk hV⟩

/-- powers of two from `2^-126` to `2^127` -/
theorem lerp_pow {a b t : F32} {e : ℕ} (he : e < 254) (ht : IsFin t) (h0 : 0 ≤ toReal t)
    (h1 : toReal t ≤ 1) (hd : IsFin (b - a)) (ha : |toReal a| * 2 ^ 149 ≤ 2 ^ (e + 23)) (hb : |toReal b| * 2 ^ 149 ≤ 2 ^ (e + 23)) :
    IsFin (a + t * (b - a)) ∧ |toReal (a + t * (b - a))| * 2 ^ 149 ≤ 2 ^ (e + 23) := by
  have hM : (mag ((e + 1) * 2 ^ 23) : ℝ) = 2 ^ (e + 23) := by rw [mag_pow]; push_cast; rfl
  rw [← hM] at ha hb ⊢
  refine lerp_box (by omega) (by omega) ht h0 h1 hd ha hb ?_
  obtain ⟨fb, fa⟩ := isFin_of_sub hd
  have hr := (sub_rnd fb fa hd).err_pow e (by
    have h2 : |toReal b - toReal a| * 2 ^ 149 ≤ |toReal b| * 2 ^ 149 + |toReal a| * 2 ^ 149 := by
      rw [← add_mul]
      exact mul_le_mul_of_nonneg_right (abs_sub _ _) (by positivity)
    rw [hM] at ha hb
    have h3 : (2 : ℝ) ^ (e + 24) = 2 ^ (e + 23) + 2 ^ (e + 23) := by ring
    rw [h3]
    linarith)
  rw [mag_succ, Nat.mul_div_cancel _ (by norm_num)]
  push_cast
  linarith

/-- the largest number but one -/
theorem lerp_top {a b t : F32} (ht : IsFin t) (h0 : 0 ≤ toReal t)
    (h1 : toReal t ≤ 1) (hd : IsFin (b - a)) (ha : |toReal a| * 2 ^ 149 ≤ mag 0x7f7ffffe)
    (hb : |toReal b| * 2 ^ 149 ≤ mag 0x7f7ffffe) :
    IsFin (a + t * (b - a)) ∧ |toReal (a + t * (b - a))| * 2 ^ 149 ≤ mag 0x7f7ffffe := by
  refine lerp_box (by norm_num) (by norm_num) ht h0 h1 hd ha hb ?_
  obtain ⟨fb, fa⟩ := isFin_of_sub hd
  have hr := sub_rnd fb fa hd
  have hr' := hr.err_pow 253 (by
    obtain ⟨hfin, n, n1, n2, _⟩ := hr
    have hn : n < 0x7f800000 := by
      obtain ⟨s, m, hm⟩ := hfin
      rw [hm, toReal_fin, mul_div_assoc, abs_sign, abs_of_nonneg (by positivity), div_mul_cancel₀ _ (by positivity)] at n2
      have : mag m = mag n := by exact_mod_cast n2
      rw [← mag_inj.1 this]
      exact m.isLt
    have h3 := n1.upper
    have h4 : (mag n : ℝ) ≤ mag ((253 + 2) * 2 ^ 23) := magR_le (by omega)
    have h5 : (mag (n + 1) : ℝ) ≤ mag ((253 + 2) * 2 ^ 23) := magR_le (by omega)
    have h6 : (mag ((253 + 2) * 2 ^ 23) : ℝ) = 2 ^ (253 + 24) := by
      rw [mag_pow (253 + 1), Nat.cast_pow, Nat.cast_ofNat]
    rw [h6] at h4 h5
    generalize (2 : ℝ) ^ (253 + 24) = X at *
    linarith)
  have e : mag (0x7f7ffffe + 1) = mag 0x7f7ffffe + 2 ^ 253 := mag_succ _
  rw [e, Nat.cast_add, Nat.cast_pow, Nat.cast_ofNat]
  generalize (mag 0x7f7ffffe : ℝ) = X at *
  generalize (2 : ℝ) ^ 253 = Y at *
  linarith

end Kami.F32
