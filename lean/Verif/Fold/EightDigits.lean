import Verif.Fold.EightCheck
/-!
# Decimals with at most eight digits are read as the nearest f32

… with six exceptions, although serde_json rounds up to four times.
-/

set_option autoImplicit false

namespace Kami.FoldFile

open Kami

theorem unit_large : 2 ^ 53 * 10 ^ 61 ≤ F64.unit := by decide +kernel

theorem ofNat_exact {d : ℕ} (hd : d < 2 ^ 53) : F64.ofNat d = d * F64.unit := by
  unfold F64.ofNat F64.unit
  exact F64.rnd_exact _ 1 d 1074 one_pos hd (Nat.mul_one _).symm

theorem unit_split : F64.unit = 2 ^ 150 * 2 ^ 924 := by decide +kernel

theorem unit_eq : F64.unit = 2 ^ 1074 := rfl

attribute [local irreducible] F64.unit

theorem pow10_err (n : ℕ) : |(pow10 n : ℝ) - 10 ^ n * F64.unit| ≤ 10 ^ n * F64.unit / 2 ^ 53 := by
  have hU := unit_large
  have h := F64.rnd_err (10 ^ n * F64.unit) 1 one_pos (by
    rw [Nat.mul_one]
    refine le_trans ?_ (Nat.le_mul_of_pos_left _ (by positivity))
    refine le_trans ?_ hU
    norm_num)
  rw [Nat.cast_one, div_one] at h
  simp only [Nat.cast_mul, Nat.cast_pow, Nat.cast_ofNat] at h
  exact h

/-- the errors of a product or quotient with a rounded factor -/
theorem err_combine {W r y : ℝ} (h1 : |r - W| ≤ W * (3 / 2 / 2 ^ 53)) (h2 : |y - r| ≤ r / 2 ^ 53) (hW : 0 ≤ W) :
    |y - W| ≤ W / 2 ^ 51 := by
  have h3 : r ≤ 2 * W := by
    have := (abs_le.1 h1).2
    norm_num at this ⊢
    linarith
  calc |y - W| = |(y - r) + (r - W)| := by ring_nf
    _ ≤ |y - r| + |r - W| := abs_add_le _ _
    _ ≤ W / 2 ^ 51 := by
      norm_num at h1 h2 ⊢
      linarith

theorem readParts_err {d : ℕ} {e : ℤ} (hd : 0 < d) (hd' : d < 2 ^ 53) (he : -60 ≤ e) :
    |(readParts d e : ℝ) - d * 10 ^ e * F64.unit| ≤ d * 10 ^ e * F64.unit / 2 ^ 51 := by
  have hUn := unit_large
  have hU : (2 ^ 53 * 10 ^ 61 : ℝ) ≤ F64.unit := by exact_mod_cast hUn
  have hU0 : (0 : ℝ) < F64.unit := by linarith [show (0 : ℝ) < 2 ^ 53 * 10 ^ 61 by positivity]
  have hd1 : (1 : ℝ) ≤ d := by exact_mod_cast hd
  unfold readParts
  rw [ofNat_exact hd']
  by_cases h0 : 0 ≤ e
  · rw [if_pos h0]
    obtain ⟨n, rfl⟩ := Int.eq_ofNat_of_zero_le h0
    rw [Int.toNat_natCast, zpow_natCast]
    have hp := pow10_err n
    have hp1 : (1 : ℝ) ≤ 10 ^ n := one_le_pow₀ (by norm_num)
    have hPl : (F64.unit : ℝ) * 10 ^ n / 2 ≤ pow10 n := by
      have := (abs_le.1 hp).1
      have hX : (0 : ℝ) ≤ 10 ^ n * F64.unit := by positivity
      norm_num at this ⊢
      linarith
    have hr := F64.rnd_err (d * F64.unit * pow10 n) F64.unit (by omega) (by
      have : (2 ^ 53 : ℝ) ≤ pow10 n := by
        have h1 : (F64.unit : ℝ) * 1 ≤ F64.unit * 10 ^ n := mul_le_mul_of_nonneg_left hp1 hU0.le
        have h2 : (2 : ℝ) ^ 53 * 2 ≤ F64.unit := le_trans (by norm_num) hU
        linarith
      have hP : 2 ^ 53 ≤ pow10 n := by exact_mod_cast this
      calc 2 ^ 52 * F64.unit ≤ pow10 n * F64.unit := Nat.mul_le_mul_right _ (le_trans (by norm_num) hP)
        _ ≤ pow10 n * (d * F64.unit) := Nat.mul_le_mul_left _ (Nat.le_mul_of_pos_left _ hd)
        _ = _ := Nat.mul_comm _ _)
    simp only [Nat.cast_mul] at hr
    rw [show (d : ℝ) * F64.unit * pow10 n / F64.unit = d * pow10 n by field_simp] at hr
    refine err_combine (r := d * pow10 n) ?_ hr (by positivity)
    rw [show (d : ℝ) * pow10 n - d * 10 ^ n * F64.unit = d * (pow10 n - 10 ^ n * F64.unit) by ring, abs_mul,
      abs_of_pos (by linarith)]
    have := mul_le_mul_of_nonneg_left hp (by linarith : (0 : ℝ) ≤ d)
    have hX : (0 : ℝ) ≤ d * (10 ^ n * F64.unit) := by positivity
    norm_num at this ⊢
    linarith
  · rw [if_neg h0]
    obtain ⟨n, hn⟩ := Int.eq_ofNat_of_zero_le (show 0 ≤ -e by omega)
    obtain rfl : e = -n := by omega
    rw [neg_neg, Int.toNat_natCast, zpow_neg, zpow_natCast]
    have hp := pow10_err n
    have hp1 : (1 : ℝ) ≤ 10 ^ n := one_le_pow₀ (by norm_num)
    have hn60 : (10 : ℝ) ^ n ≤ 10 ^ 60 := pow_le_pow_right₀ (by norm_num) (by omega)
    have hT0 : (0 : ℝ) < 10 ^ n * F64.unit := by positivity
    have hPl : (10 : ℝ) ^ n * F64.unit / 2 ≤ pow10 n := by
      have := (abs_le.1 hp).1
      norm_num at this ⊢
      linarith
    have hPu : (pow10 n : ℝ) ≤ 2 * (10 ^ n * F64.unit) := by
      have := (abs_le.1 hp).2
      norm_num at this ⊢
      linarith
    have hP0 : (0 : ℝ) < pow10 n := by linarith
    have hr := F64.rnd_err (d * F64.unit * F64.unit) (pow10 n) (by exact_mod_cast hP0) (by
      have : (2 ^ 52 * pow10 n : ℝ) ≤ d * F64.unit * F64.unit := by
        calc (2 ^ 52 * pow10 n : ℝ) ≤ 2 ^ 52 * (2 * (10 ^ 60 * F64.unit)) := by
              refine mul_le_mul_of_nonneg_left (hPu.trans ?_) (by positivity)
              refine mul_le_mul_of_nonneg_left ?_ (by norm_num)
              exact mul_le_mul_of_nonneg_right hn60 hU0.le
          _ = (2 ^ 53 * 10 ^ 60) * F64.unit := by ring
          _ ≤ F64.unit * F64.unit := mul_le_mul_of_nonneg_right (le_trans (by norm_num) hU) hU0.le
          _ ≤ d * F64.unit * F64.unit := by
              refine mul_le_mul_of_nonneg_right ?_ hU0.le
              nlinarith
      exact_mod_cast this)
    simp only [Nat.cast_mul] at hr
    refine err_combine (r := d * F64.unit * F64.unit / pow10 n) ?_ hr (by positivity)
    have hT : (0 : ℝ) < 10 ^ n := by positivity
    have e1 : (d : ℝ) * F64.unit * F64.unit / pow10 n - d * ((10 : ℝ) ^ n)⁻¹ * F64.unit =
        d * ((10 : ℝ) ^ n)⁻¹ * F64.unit * ((10 ^ n * F64.unit - pow10 n) / pow10 n) := by
      field_simp
    rw [e1, abs_mul, abs_of_nonneg (by positivity)]
    refine mul_le_mul_of_nonneg_left ?_ (by positivity)
    rw [abs_div, abs_of_pos hP0, div_le_iff₀ hP0, abs_sub_comm]
    refine hp.trans ?_
    have := (abs_le.1 hp).1
    norm_num at this ⊢
    linarith

/-! ### decimals that are the middle of two numbers -/

theorem pow10_exact {n : ℕ} (hn : n ≤ 22) : pow10 n = 10 ^ n * F64.unit := by
  have h5 : 5 ^ n < 2 ^ 53 := lt_of_le_of_lt (Nat.pow_le_pow_right (by norm_num) hn) (by norm_num)
  have e : 10 ^ n * F64.unit = 5 ^ n * 2 ^ (n + 1074) := by
    rw [unit_eq, pow_add, ← mul_assoc, ← mul_pow, show 5 * 2 = 10 from rfl]
  unfold pow10 F64.ofNat
  rw [e]
  exact F64.rnd_exact _ 1 (5 ^ n) (n + 1074) one_pos h5 (Nat.mul_one _).symm

theorem five_pow_dvd {n m j : ℕ} (h : 5 ^ n ∣ m * 2 ^ j) : 5 ^ n ∣ m :=
  Nat.Coprime.dvd_of_dvd_mul_right (Nat.Coprime.pow _ _ (by norm_num)) h

theorem five_bound {n x j : ℕ} (hx : 0 < x) (hx' : x < 5 ^ 23) (h : 5 ^ n ∣ x * 2 ^ j) : n ≤ 22 := by
  have h1 := lt_of_le_of_lt (Nat.le_of_dvd hx (five_pow_dvd h)) hx'
  exact Nat.lt_succ_iff.1 ((Nat.pow_lt_pow_iff_right (by norm_num)).1 h1)

theorem five_dvd_ten (n : ℕ) : 5 ^ n ∣ 10 ^ n := pow_dvd_pow_of_dvd (by norm_num) n

/-- the middle of two `f32` numbers is computed exactly -/
theorem readParts_tie {d m j : ℕ} {e : ℤ} (hd : 0 < d) (hd' : d < 10 ^ 8) (hm : 0 < m) (hm' : m < 2 ^ 25)
    (h : (d : ℝ) * 10 ^ e * 2 ^ 150 = m * 2 ^ j) : readParts d e = m * 2 ^ (j + 924) := by
  have hUn := unit_large
  have hd53 : d < 2 ^ 53 := hd'.trans (by norm_num)
  have hm53 : m < 2 ^ 53 := hm'.trans (by norm_num)
  have hU0 : 0 < F64.unit := by omega
  obtain ⟨K, hK⟩ : ∃ K : ℕ, K = 2 ^ 924 := ⟨_, rfl⟩
  have hUK : F64.unit = 2 ^ 150 * K := by rw [unit_split, hK]
  rw [pow_add, ← hK]
  have hrnd : ∀ num den : ℕ, 0 < den → num = m * (2 ^ j * K) * den → F64.rnd num den = m * (2 ^ j * K) := by
    intro num den h1 h2
    rw [hK, ← pow_add] at h2 ⊢
    exact F64.rnd_exact num den m (j + 924) h1 hm53 h2
  clear hK
  unfold readParts
  rw [ofNat_exact hd53]
  by_cases h0 : 0 ≤ e
  · rw [if_pos h0]
    obtain ⟨n, rfl⟩ := Int.eq_ofNat_of_zero_le h0
    rw [zpow_natCast] at h
    have hN : d * 10 ^ n * 2 ^ 150 = m * 2 ^ j := by exact_mod_cast h
    have hn : n ≤ 22 := by
      refine five_bound hm (hm'.trans (by norm_num)) (j := j) ?_
      rw [← hN]
      exact Dvd.dvd.mul_right (Dvd.dvd.mul_left (five_dvd_ten n) _) _
    rw [Int.toNat_natCast, pow10_exact hn]
    unfold F64.mul
    refine hrnd _ _ hU0 ?_
    calc d * F64.unit * (10 ^ n * F64.unit) = d * 10 ^ n * F64.unit * F64.unit := by ring
      _ = d * 10 ^ n * (2 ^ 150 * K) * F64.unit := by rw [← hUK]
      _ = (d * 10 ^ n * 2 ^ 150) * K * F64.unit := by ring
      _ = m * (2 ^ j * K) * F64.unit := by rw [hN, mul_assoc m]
  · rw [if_neg h0]
    obtain ⟨n, hn⟩ := Int.eq_ofNat_of_zero_le (show 0 ≤ -e by omega)
    obtain rfl : e = -n := by omega
    rw [zpow_neg, zpow_natCast] at h
    have hN : d * 2 ^ 150 = m * 2 ^ j * 10 ^ n := by
      have hT : (10 : ℝ) ^ n ≠ 0 := by positivity
      have : (d : ℝ) * 2 ^ 150 = m * 2 ^ j * 10 ^ n := by
        rw [← h]; field_simp
      exact_mod_cast this
    have hn : n ≤ 22 := by
      refine five_bound hd (hd'.trans (by norm_num)) (j := 150) ?_
      rw [hN]
      exact Dvd.dvd.mul_left (five_dvd_ten n) _
    rw [neg_neg, Int.toNat_natCast, pow10_exact hn]
    unfold F64.div
    refine hrnd _ _ (Nat.mul_pos (by positivity) hU0) ?_
    calc d * F64.unit * F64.unit = d * (2 ^ 150 * K) * F64.unit := by rw [← hUK]
      _ = d * 2 ^ 150 * K * F64.unit := by ring
      _ = m * 2 ^ j * 10 ^ n * K * F64.unit := by rw [hN]
      _ = m * (2 ^ j * K) * (10 ^ n * F64.unit) := by ring

/-! ### the lattice -/

theorem okBasis_sound {e : ℤ} {A B : ℕ} {b : Basis} (hB : 0 < B) (h : okBasis e A B b = true) {d m : ℕ} (h7 : 10 ^ 7 ≤ d)
    (h8 : d < 10 ^ 8) (hm : m % 2 = 1) (hm' : m < 2 ^ 25) (hy : 2 ^ 25 * ((d : ℤ) * A - m * B).natAbs ≤ B) :
    d * A = m * B ∨ okPoint d e = true := by
  obtain ⟨j, u, p, v, q⟩ := b
  simp only [okBasis, Bool.and_eq_true, Bool.or_eq_true, beq_iff_eq, List.all_eq_true, List.mem_range] at h
  obtain ⟨hdet, hall⟩ := h
  obtain ⟨σ, hσ, hσd⟩ : ∃ σ : ℤ, (σ = 1 ∨ σ = -1) ∧ σ * (u * q - v * p) = 1 := by
    rcases hdet with h | h
    · exact ⟨1, .inl rfl, by rw [h]; norm_num⟩
    · exact ⟨-1, .inr rfl, by rw [h]; norm_num⟩
  have hσ1 : σ.natAbs = 1 := by rcases hσ with rfl | rfl <;> rfl
  -- a coefficient is bounded
  have key : ∀ (w r c : ℤ), c * B = σ * ((d : ℤ) * r - (d * A - m * B) * w) →
      c.natAbs ≤ (2 ^ 25 * 10 ^ 8 * r.natAbs + B * w.natAbs) / (2 ^ 25 * B) := by
    intro w r c hc
    rw [Nat.le_div_iff_mul_le (by positivity)]
    have h1 : c.natAbs * B ≤ d * r.natAbs + ((d : ℤ) * A - m * B).natAbs * w.natAbs := by
      have := congrArg Int.natAbs hc
      rw [Int.natAbs_mul, Int.natAbs_mul, hσ1, one_mul, Int.natAbs_natCast] at this
      rw [this]
      refine (Int.natAbs_sub_le _ _).trans ?_
      rw [Int.natAbs_mul, Int.natAbs_mul, Int.natAbs_natCast]
    calc c.natAbs * (2 ^ 25 * B) = 2 ^ 25 * (c.natAbs * B) := by ring
      _ ≤ 2 ^ 25 * (d * r.natAbs + ((d : ℤ) * A - m * B).natAbs * w.natAbs) := Nat.mul_le_mul_left _ h1
      _ = 2 ^ 25 * (d * r.natAbs) + 2 ^ 25 * ((d : ℤ) * A - m * B).natAbs * w.natAbs := by ring
      _ ≤ 2 ^ 25 * (10 ^ 8 * r.natAbs) + B * w.natAbs :=
        Nat.add_le_add (Nat.mul_le_mul_left _ (Nat.mul_le_mul_right _ h8.le)) (Nat.mul_le_mul_right _ hy)
      _ = _ := by ring
  have ka : (-σ * (m * v - d * q)).natAbs ≤
      (2 ^ 25 * 10 ^ 8 * (v * A - q * B : ℤ).natAbs + B * v.natAbs) / (2 ^ 25 * B) := by
    rw [neg_mul, Int.natAbs_neg]
    exact key v (v * A - q * B) (σ * (m * v - d * q)) (by ring)
  have kb := key u (u * A - p * B) (σ * (m * u - d * p)) (by ring)
  generalize (2 ^ 25 * 10 ^ 8 * (v * A - q * B : ℤ).natAbs + B * v.natAbs) / (2 ^ 25 * B) = s at *
  generalize (2 ^ 25 * 10 ^ 8 * (u * A - p * B : ℤ).natAbs + B * u.natAbs) / (2 ^ 25 * B) = t at *
  have h1 : (-σ * (m * v - d * q)) * u + (σ * (m * u - d * p)) * v = (d : ℤ) := by
    calc _ = (σ * (u * q - v * p)) * d := by ring
      _ = d := by rw [hσd, one_mul]
  have h2 : (-σ * (m * v - d * q)) * p + (σ * (m * u - d * p)) * q = (m : ℤ) := by
    calc _ = (σ * (u * q - v * p)) * m := by ring
      _ = m := by rw [hσd, one_mul]
  generalize -σ * (m * v - d * q) = a at *
  generalize σ * (m * u - d * p) = b at *
  have := hall (a + s).toNat (by omega) (b + t).toNat (by omega)
  rw [show (((a + s).toNat : ℕ) : ℤ) - s = a by omega, show (((b + t).toNat : ℕ) : ℤ) - t = b by omega, h1, h2] at this
  simp only [okLattice, Bool.or_eq_true, decide_eq_true_eq, beq_iff_eq, Int.toNat_natCast] at this
  rcases this with ((((((h | h) | h) | h) | h) | h) | h) | h
  · exfalso; norm_num at h7 h; omega
  · exfalso; norm_num at h8 h; omega
  · exfalso; omega
  · exfalso; omega
  · exfalso; norm_num at hm' h; omega
  · exfalso
    have h' : (B : ℤ) < ((2 ^ 25 * ((d : ℤ) * A - m * B).natAbs : ℕ) : ℤ) := by exact_mod_cast h
    omega
  · left; exact_mod_cast h
  · right; exact h

theorem slopeDen_pos (e : ℤ) (j : ℕ) : 0 < slopeDen e j := by unfold slopeDen; positivity

theorem okLine_sound {e : ℤ} {bs : List Basis} {j : ℕ} (h : okLine e bs j = true) {d m : ℕ} (h7 : 10 ^ 7 ≤ d)
    (h8 : d < 10 ^ 8) (hm : m % 2 = 1) (hm' : m < 2 ^ 25) (hj : j ≠ 0 → 2 ^ 24 ≤ m)
    (hy : 2 ^ 25 * ((d : ℤ) * slopeNum e j - m * slopeDen e j).natAbs ≤ slopeDen e j) :
    d * slopeNum e j = m * slopeDen e j ∨ okPoint d e = true := by
  have hB := slopeDen_pos e j
  simp only [okLine, Bool.or_eq_true, decide_eq_true_eq] at h
  generalize slopeNum e j = A at *
  generalize slopeDen e j = B at *
  rcases h with ((h | h) | h) | h
  · left
    have : ((d : ℤ) * A - m * B).natAbs = 0 := by omega
    have : (d : ℤ) * A = m * B := by omega
    exact_mod_cast this
  · exfalso
    have h1 : m * B ≤ 2 ^ 25 * B := Nat.mul_le_mul_right _ hm'.le
    have h2 : 10 ^ 7 * A ≤ d * A := Nat.mul_le_mul_right _ h7
    have e1 : ((d : ℤ) * A) = ((d * A : ℕ) : ℤ) := by push_cast; rfl
    have e2 : ((m : ℤ) * B) = ((m * B : ℕ) : ℤ) := by push_cast; rfl
    rw [e1, e2] at hy
    omega
  · exfalso
    have h2 : d * A ≤ 10 ^ 8 * A := Nat.mul_le_mul_right _ h8.le
    have h1 : (if j = 0 then 1 else 2 ^ 24) * B ≤ m * B := by
      refine Nat.mul_le_mul_right _ ?_
      by_cases hj0 : j = 0
      · rw [if_pos hj0]; omega
      · rw [if_neg hj0]; exact hj hj0
    have h3 : B ≤ (if j = 0 then 1 else 2 ^ 24) * B := Nat.le_mul_of_pos_left _ (by split <;> norm_num)
    have e1 : ((d : ℤ) * A) = ((d * A : ℕ) : ℤ) := by push_cast; rfl
    have e2 : ((m : ℤ) * B) = ((m * B : ℕ) : ℤ) := by push_cast; rfl
    rw [e1, e2] at hy
    omega
  · cases hf : bs.find? fun b => b.j == j with
    | none => rw [hf] at h; cases h
    | some b =>
      rw [hf] at h
      exact okBasis_sound hB h h7 h8 hm hm' hy

end Kami.FoldFile
