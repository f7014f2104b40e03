import Verif.Fold.NumError
import Verif.Fold.FloatRoundtrip
/-!
# How accurately numbers in files are read (C139, C140)
-/

set_option autoImplicit false

namespace Kami.FoldFile

open Kami F32

attribute [local irreducible] F64.unit

/-! ### the digits that are used -/

theorem digitValue_le {c : Char} (h : c.isDigit = true) : digitValue c ≤ 9 := by
  unfold digitValue
  simp only [Char.isDigit, Bool.and_eq_true, decide_eq_true_eq, UInt32.le_iff_toNat_le] at h
  have h2 : c.val.toNat ≤ 57 := h.2
  have : c.toNat = c.val.toNat := rfl
  omega

theorem ofDigitChars_bounds (cs : List Char) (h : ∀ c ∈ cs, c.isDigit = true) : ∀ a : ℕ,
    a * 10 ^ cs.length ≤ Nat.ofDigitChars 10 cs a ∧ Nat.ofDigitChars 10 cs a < (a + 1) * 10 ^ cs.length := by
  induction cs with
  | nil => intro a; simp
  | cons c cs ih =>
    intro a
    rw [Nat.ofDigitChars_cons]
    have hd : digitValue c ≤ 9 := digitValue_le (h c (List.mem_cons_self ..))
    obtain ⟨h1, h2⟩ := ih (fun c hc => h c (List.mem_cons_of_mem _ hc)) (10 * a + digitValue c)
    have e : c.toNat - '0'.toNat = digitValue c := rfl
    rw [e, List.length_cons, pow_succ]
    have h3 : 0 < 10 ^ cs.length := by positivity
    constructor
    · refine le_trans ?_ h1
      calc a * (10 ^ cs.length * 10) = 10 * a * 10 ^ cs.length := by ring
        _ ≤ (10 * a + digitValue c) * 10 ^ cs.length := Nat.mul_le_mul_right _ (by omega)
    · refine lt_of_lt_of_le h2 ?_
      calc (10 * a + digitValue c + 1) * 10 ^ cs.length ≤ (10 * (a + 1)) * 10 ^ cs.length := Nat.mul_le_mul_right _ (by omega)
        _ = _ := by ring

theorem wholeSig_spec (cs : List Char) (h : ∀ c ∈ cs, c.isDigit = true) : ∀ a : ℕ, a < 2 ^ 64 →
    (wholeSig a cs).1 < 2 ^ 64 ∧ (wholeSig a cs).1 * 10 ^ (wholeSig a cs).2 ≤ Nat.ofDigitChars 10 cs a ∧
    Nat.ofDigitChars 10 cs a < ((wholeSig a cs).1 + 1) * 10 ^ (wholeSig a cs).2 ∧
    ((wholeSig a cs).2 = 0 ∨ 2 ^ 64 ≤ 10 * (wholeSig a cs).1 + 9) := by
  induction cs with
  | nil => intro a ha; simpa [wholeSig] using ha
  | cons c cs ih =>
    intro a ha
    have hd : digitValue c ≤ 9 := digitValue_le (h c (List.mem_cons_self ..))
    unfold wholeSig
    by_cases hc : 10 * a + digitValue c < 2 ^ 64
    · rw [if_pos hc]
      exact ih (fun c hc => h c (List.mem_cons_of_mem _ hc)) _ hc
    · rw [if_neg hc]
      obtain ⟨h1, h2⟩ := ofDigitChars_bounds (c :: cs) h a
      rw [List.length_cons] at h1 h2
      exact ⟨ha, h1, h2, .inr (by simp only; omega)⟩

theorem fracSig_spec (cs : List Char) (h : ∀ c ∈ cs, c.isDigit = true) : ∀ a : ℕ, a < 2 ^ 64 →
    (fracSig a cs).1 < 2 ^ 64 ∧ (fracSig a cs).2 ≤ cs.length ∧
    (fracSig a cs).1 * 10 ^ (cs.length - (fracSig a cs).2) ≤ Nat.ofDigitChars 10 cs a ∧
    Nat.ofDigitChars 10 cs a < ((fracSig a cs).1 + 1) * 10 ^ (cs.length - (fracSig a cs).2) ∧
    a * 10 ^ (fracSig a cs).2 ≤ (fracSig a cs).1 ∧ (fracSig a cs).1 < (a + 1) * 10 ^ (fracSig a cs).2 ∧
    ((fracSig a cs).2 = cs.length ∨ 2 ^ 64 ≤ 10 * (fracSig a cs).1 + 9) := by
  induction cs with
  | nil => intro a ha; simpa [fracSig] using ha
  | cons c cs ih =>
    intro a ha
    have hd : digitValue c ≤ 9 := digitValue_le (h c (List.mem_cons_self ..))
    unfold fracSig
    by_cases hc : 10 * a + digitValue c < 2 ^ 64
    · rw [if_pos hc]
      obtain ⟨h1, h2, h3, h4, h5, h6, h7⟩ := ih (fun c hc => h c (List.mem_cons_of_mem _ hc)) _ hc
      simp only [List.length_cons, Nat.add_sub_add_right]
      rw [Nat.ofDigitChars_cons, show c.toNat - '0'.toNat = digitValue c from rfl]
      refine ⟨h1, by omega, h3, h4, ?_, ?_, ?_⟩
      · refine le_trans ?_ h5
        rw [pow_succ]
        calc a * (10 ^ (fracSig (10 * a + digitValue c) cs).2 * 10) = 10 * a * 10 ^ (fracSig (10 * a + digitValue c) cs).2 := by ring
          _ ≤ _ := Nat.mul_le_mul_right _ (by omega)
      · refine lt_of_lt_of_le h6 ?_
        rw [pow_succ]
        calc (10 * a + digitValue c + 1) * 10 ^ (fracSig (10 * a + digitValue c) cs).2
            ≤ (10 * (a + 1)) * 10 ^ (fracSig (10 * a + digitValue c) cs).2 := Nat.mul_le_mul_right _ (by omega)
          _ = _ := by ring
      · rcases h7 with h7 | h7
        · exact .inl (by omega)
        · exact .inr h7
    · rw [if_neg hc]
      obtain ⟨h1, h2⟩ := ofDigitChars_bounds (c :: cs) h a
      exact ⟨ha, Nat.zero_le _, h1, h2, by simp, by simp, .inr (by simp only; omega)⟩

theorem valid_digits {t : NumTok} (ht : t.Valid) : (∀ c ∈ t.whole, c.isDigit = true) ∧ ∀ c ∈ t.frac.tail, c.isDigit = true := by
  obtain ⟨h1, h2, _⟩ := ht
  constructor
  · rcases h1 with h | ⟨h, _⟩
    · rw [h]; simp
    · exact h.2
  · rcases h2 with h | ⟨ds, h, e⟩
    · rw [h]; simp
    · rw [e]; exact h.2

/-- the significand that is computed with, and how many digits it skips -/
def NumTok.usedSig (t : NumTok) : ℕ := (fracSig (wholeSig 0 t.whole).1 t.frac.tail).1
def NumTok.usedExp (t : NumTok) : ℤ := ((wholeSig 0 t.whole).2 : ℤ) - (fracSig (wholeSig 0 t.whole).1 t.frac.tail).2

theorem used_close {t : NumTok} (ht : t.Valid) : t.usedSig < 2 ^ 64 ∧
    |(t.sig : ℝ) / 10 ^ t.frac.tail.length - t.usedSig * 10 ^ t.usedExp| ≤ t.usedSig * 10 ^ t.usedExp / 2 ^ 60 := by
  obtain ⟨hw, hf⟩ := valid_digits ht
  obtain ⟨a1, a2, a3, a4⟩ := wholeSig_spec t.whole hw 0 (by norm_num)
  obtain ⟨b1, b2, b3, b4, b5, b6, b7⟩ := fracSig_spec t.frac.tail hf (wholeSig 0 t.whole).1 a1
  unfold NumTok.usedSig NumTok.usedExp NumTok.sig
  rw [Nat.ofDigitChars_append]
  refine ⟨b1, ?_⟩
  obtain ⟨c1, c2⟩ := ofDigitChars_bounds t.frac.tail hf (Nat.ofDigitChars 10 t.whole 0)
  generalize t.frac.tail.length = L at *
  generalize (wholeSig 0 t.whole).1 = w at *
  generalize (wholeSig 0 t.whole).2 = j at *
  generalize (fracSig w t.frac.tail).1 = S at *
  generalize (fracSig w t.frac.tail).2 = k at *
  have hk : (0 : ℝ) < 10 ^ k := by positivity
  have hj : (0 : ℝ) < 10 ^ j := by positivity
  have hL : (0 : ℝ) < 10 ^ L := by positivity
  have e1 : (10 : ℝ) ^ ((j : ℤ) - k) = 10 ^ j / 10 ^ k := by rw [zpow_sub₀ (by norm_num), zpow_natCast, zpow_natCast]
  rw [e1]
  rcases Nat.eq_zero_or_pos j with rfl | hj0
  · have e2 : Nat.ofDigitChars 10 t.whole 0 = w := by
      rw [pow_zero, Nat.mul_one] at a2 a3
      omega
    rw [e2]
    generalize Nat.ofDigitChars 10 t.frac.tail w = V at *
    obtain ⟨m, rfl⟩ := Nat.exists_eq_add_of_le b2
    rw [Nat.add_sub_cancel_left] at b3 b4
    have hm : (0 : ℝ) < 10 ^ m := by positivity
    have d1 : (S : ℝ) * 10 ^ m ≤ V := by exact_mod_cast b3
    have d2 : (V : ℝ) ≤ (S + 1) * 10 ^ m := by exact_mod_cast b4.le
    have e3 : (V : ℝ) / 10 ^ (k + m) - S * (10 ^ 0 / 10 ^ k) = (V / 10 ^ m - S) / 10 ^ k := by
      rw [pow_add]; field_simp
    rw [e3, abs_of_nonneg (div_nonneg (by rw [sub_nonneg, le_div_iff₀ hm]; exact d1) hk.le), pow_zero, mul_one_div, div_right_comm]
    refine div_le_div_of_nonneg_right ?_ hk.le
    rcases b7 with b7 | b7
    · obtain rfl : m = 0 := by omega
      have : V = S := by
        rw [pow_zero, Nat.mul_one] at b3 b4
        omega
      rw [this]
      simp only [pow_zero, div_one, sub_self]
      positivity
    · have hS : 2 ^ 60 ≤ S := by norm_num at b7 ⊢; omega
      have hS' : (2 : ℝ) ^ 60 ≤ S := by exact_mod_cast hS
      have h1 : (1 : ℝ) ≤ S / 2 ^ 60 := (one_le_div (by positivity)).2 hS'
      have h2 : (V : ℝ) / 10 ^ m ≤ S + 1 := (div_le_iff₀ hm).2 d2
      linarith
  · have hw60 : 2 ^ 60 ≤ w := by
      have := a4.resolve_left (by omega)
      norm_num at this ⊢
      omega
    generalize Nat.ofDigitChars 10 t.whole 0 = W at *
    generalize Nat.ofDigitChars 10 t.frac.tail w = V' at *
    generalize Nat.ofDigitChars 10 t.frac.tail W = V at *
    have f1 : (w : ℝ) * 10 ^ j ≤ W := by exact_mod_cast a2
    have f2 : (W : ℝ) + 1 ≤ (w + 1) * 10 ^ j := by exact_mod_cast a3
    have f3 : (W : ℝ) * 10 ^ L ≤ V := by exact_mod_cast c1
    have f4 : (V : ℝ) ≤ (W + 1) * 10 ^ L := by exact_mod_cast c2.le
    have g1 : (w : ℝ) * 10 ^ j ≤ V / 10 ^ L := by rw [le_div_iff₀ hL]; nlinarith
    have g2 : (V : ℝ) / 10 ^ L ≤ (w + 1) * 10 ^ j := by rw [div_le_iff₀ hL]; nlinarith
    have f5 : (w : ℝ) * 10 ^ k ≤ S := by exact_mod_cast b5
    have f6 : (S : ℝ) ≤ (w + 1) * 10 ^ k := by exact_mod_cast b6.le
    have e3 : (S : ℝ) * (10 ^ j / 10 ^ k) = S / 10 ^ k * 10 ^ j := by ring
    have g3 : (w : ℝ) * 10 ^ j ≤ S / 10 ^ k * 10 ^ j := mul_le_mul_of_nonneg_right ((le_div_iff₀ hk).2 f5) hj.le
    have g4 : (S : ℝ) / 10 ^ k * 10 ^ j ≤ (w + 1) * 10 ^ j := mul_le_mul_of_nonneg_right ((div_le_iff₀ hk).2 f6) hj.le
    rw [e3]
    have hw' : (2 : ℝ) ^ 60 ≤ w := by exact_mod_cast hw60
    have h1 : (10 : ℝ) ^ j ≤ S / 10 ^ k * 10 ^ j / 2 ^ 60 := by
      rw [le_div_iff₀ (by positivity)]
      nlinarith
    generalize (S : ℝ) / 10 ^ k * 10 ^ j = C at *
    generalize (V : ℝ) / 10 ^ L = T at *
    refine le_trans ?_ h1
    rw [abs_le]
    constructor <;> linarith

/-! ### the exponent -/

/-- exponents beyond the range of `i32` -/
theorem withExponent_over (S : ℕ) (start : ℤ) {t : NumTok} (ht : t.Valid) (he : 2147483647 < (expValue t.exp).natAbs) :
    withExponent S start t.exp = if S ≠ 0 ∧ 0 < expValue t.exp then none else some 0 := by
  obtain ⟨_, _, h | ⟨e, sign, ds, _, hsign, hds, h⟩⟩ := ht
  · rw [h] at he
    exact absurd he (by decide)
  rw [h] at he ⊢
  have hhead : ∀ c, ds.head? = some c → c ≠ '+' ∧ c ≠ '-' := by
    intro c hc
    exact digit_ne_sign (hds.2 c (List.mem_of_mem_head? hc))
  rcases hsign with rfl | rfl | rfl
  · rw [List.nil_append, expValue_digits e hds] at *
    have hlex : (lexSign ds).2 = ds := by
      cases ds with
      | nil => rfl
      | cons d ds =>
        have := hhead d rfl
        simp only [lexSign, this.1, this.2, or_self, ↓reduceIte]
    have hm : (ds.head? == some '-') = false := by
      rw [beq_eq_false_iff_ne]
      intro hc
      exact (hhead _ hc).2 rfl
    unfold withExponent
    simp only [hlex, hm]
    rw [if_pos (by omega)]
    have : (0 : ℤ) < (Nat.ofDigitChars 10 ds 0 : ℕ) := by omega
    simp only [this, Bool.not_false, and_true]
  · have hv : expValue (e :: (['+'] ++ ds)) = (Nat.ofDigitChars 10 ds 0 : ℕ) := rfl
    rw [hv] at he ⊢
    unfold withExponent
    simp only [List.cons_append, List.nil_append, lexSign, true_or, ↓reduceIte, List.head?_cons]
    rw [if_pos (by omega)]
    have h1 : (0 : ℤ) < (Nat.ofDigitChars 10 ds 0 : ℕ) := by omega
    have h2 : ((some '+' : Option Char) == some '-') = false := by decide
    simp only [h1, h2, Bool.not_false, and_true]
  · have hv : expValue (e :: (['-'] ++ ds)) = -(Nat.ofDigitChars 10 ds 0 : ℕ) := rfl
    rw [hv] at he ⊢
    unfold withExponent
    simp only [List.cons_append, List.nil_append, lexSign, or_true, ↓reduceIte, List.head?_cons, beq_self_eq_true]
    rw [if_pos (by omega)]
    have h1 : ¬ (0 : ℤ) < -(Nat.ofDigitChars 10 ds 0 : ℕ) := by omega
    simp only [h1, Bool.not_true, and_false, Bool.false_eq_true]

/-- the magnitude of the number that a token stands for -/
theorem abs_value (t : NumTok) : |t.value| = t.sig * 10 ^ t.exponent := by
  unfold NumTok.value
  rw [abs_mul, abs_of_nonneg (by positivity : (0 : ℝ) ≤ (t.sig : ℝ) * 10 ^ t.exponent)]
  cases t.neg <;> simp

theorem abs_value' (t : NumTok) : |t.value| = (t.sig : ℝ) / 10 ^ t.frac.tail.length * 10 ^ expValue t.exp := by
  rw [abs_value]
  unfold NumTok.exponent
  rw [zpow_sub₀ (by norm_num), zpow_natCast]
  ring

/-- **what is computed**: the magnitude in `f64` -/
theorem readF64_spec {t : NumTok} (ht : t.Valid) (hw : t.whole.length ≤ 10 ^ 9) (hf : t.frac.length ≤ 10 ^ 9) :
    (∀ F, t.readF64 = some F → |(F : ℝ) / F64.unit - (|t.value|)| ≤ |t.value| / 2 ^ 50 + 1 / 10 ^ 200) ∧
    (t.readF64 = none → 10 * 10 ^ 307 ≤ |t.value|) ∧ (100 * 10 ^ 307 ≤ |t.value| → t.readF64 = none) := by
  have hU := unitR_pos
  obtain ⟨hS, hclose⟩ := used_close ht
  have hread : t.readF64 = withExponent t.usedSig t.usedExp t.exp := rfl
  have hL : t.frac.tail.length ≤ 1000000000 := by rw [List.length_tail]; norm_num at hf; omega
  by_cases hx : (expValue t.exp).natAbs ≤ 2147483647
  · rw [hread, withExponent_eq _ _ ht hx]
    have hX : (0 : ℝ) < 10 ^ expValue t.exp := by positivity
    have hW : (t.usedSig : ℝ) * 10 ^ (t.usedExp + expValue t.exp) = t.usedSig * 10 ^ t.usedExp * 10 ^ expValue t.exp := by
      rw [zpow_add₀ (by norm_num)]; ring
    have hWv : |(|t.value|) - t.usedSig * 10 ^ (t.usedExp + expValue t.exp)| ≤
        t.usedSig * 10 ^ (t.usedExp + expValue t.exp) / 2 ^ 60 := by
      rw [abs_value', hW, ← sub_mul, abs_mul, abs_of_pos hX, mul_div_right_comm]
      exact mul_le_mul_of_nonneg_right hclose hX.le
    have hW0 : (0 : ℝ) ≤ t.usedSig * 10 ^ (t.usedExp + expValue t.exp) := by positivity
    have hv0 := abs_nonneg t.value
    have hb := abs_le.1 hWv
    refine ⟨fun F hF => ?_, fun hn => ?_, fun hv => ?_⟩
    · have h1 := fromParts_err hS hF
      have h2 : (2 : ℝ) ^ 400 / F64.unit ≤ 1 / 10 ^ 200 := by
        rw [div_le_div_iff₀ hU (by positivity), one_mul]
        have := Nat.cast_le (α := ℝ).2 unit_small.1
        rw [Nat.cast_mul, Nat.cast_pow, Nat.cast_pow, Nat.cast_ofNat, Nat.cast_ofNat] at this
        exact this
      have h3 : |(F : ℝ) / F64.unit - t.usedSig * 10 ^ (t.usedExp + expValue t.exp)| ≤
          5 * (t.usedSig * 10 ^ (t.usedExp + expValue t.exp) / 2 ^ 53) + 1 / 10 ^ 200 := by
        refine le_trans ?_ (add_le_add_right h2 _)
        generalize (2 : ℝ) ^ 400 = K at *
        generalize (t.usedSig : ℝ) * 10 ^ (t.usedExp + expValue t.exp) = W at *
        generalize (F64.unit : ℝ) = U at *
        have e : (F : ℝ) / U - W = (F - W * U) / U := by field_simp
        rw [e, abs_div, abs_of_pos hU, div_le_iff₀ hU]
        refine h1.trans (le_of_eq ?_)
        field_simp
      clear h1 h2 hread hW
      generalize (t.usedSig : ℝ) * 10 ^ (t.usedExp + expValue t.exp) = W at *
      generalize |t.value| = v at *
      generalize (F : ℝ) / F64.unit = f at *
      generalize (1 : ℝ) / 10 ^ 200 = ε at *
      have h4 := abs_le.1 h3
      norm_num at h4 hb
      rw [abs_le]
      norm_num
      constructor <;> linarith
    · have h1 := fromParts_none hn
      have hK : (0 : ℝ) < 10 ^ 307 := by positivity
      generalize (10 : ℝ) ^ 307 = K at *
      generalize (t.usedSig : ℝ) * 10 ^ (t.usedExp + expValue t.exp) = W at *
      norm_num at hb
      linarith
    · refine fromParts_refused hS ?_
      have hK : (0 : ℝ) < 10 ^ 307 := by positivity
      generalize (10 : ℝ) ^ 307 = K at *
      generalize (t.usedSig : ℝ) * 10 ^ (t.usedExp + expValue t.exp) = W at *
      norm_num at hb
      linarith
  · rw [hread, withExponent_over _ _ ht (by omega)]
    have hV := (ofDigitChars_bounds (t.whole ++ t.frac.tail) (fun c hc => by
      rcases List.mem_append.1 hc with h | h
      · exact (valid_digits ht).1 c h
      · exact (valid_digits ht).2 c h) 0).2
    rw [zero_add, one_mul, List.length_append] at hV
    have hVR : (t.sig : ℝ) ≤ 10 ^ (t.whole.length + t.frac.tail.length) := by exact_mod_cast hV.le
    have hsmall : ¬ (t.usedSig ≠ 0 ∧ 0 < expValue t.exp) → |t.value| ≤ 1 / 10 ^ 200 := by
      intro hn
      by_cases h0 : t.usedSig = 0
      · rw [h0, Nat.cast_zero, zero_mul, zero_div, sub_zero] at hclose
        have : (t.sig : ℝ) / 10 ^ t.frac.tail.length = 0 := abs_nonpos_iff.1 hclose
        rw [abs_value', this, zero_mul]
        positivity
      · have hneg : expValue t.exp < 0 := by
          have : ¬ 0 < expValue t.exp := fun h => hn ⟨h0, h⟩
          omega
        have h1 : (t.sig : ℝ) / 10 ^ t.frac.tail.length ≤ 10 ^ t.whole.length := by
          rw [div_le_iff₀ (by positivity), ← pow_add]
          exact hVR
        calc |t.value| = (t.sig : ℝ) / 10 ^ t.frac.tail.length * 10 ^ expValue t.exp := abs_value' t
          _ ≤ 10 ^ t.whole.length * 10 ^ expValue t.exp := mul_le_mul_of_nonneg_right h1 (by positivity)
          _ = 10 ^ ((t.whole.length : ℤ) + expValue t.exp) := by rw [zpow_add₀ (by norm_num), zpow_natCast]
          _ ≤ 10 ^ (-200 : ℤ) := zpow_le_zpow_right₀ (by norm_num) (by norm_num at hw; omega)
          _ = 1 / 10 ^ 200 := by rw [zpow_neg, one_div]; rfl
    by_cases hc : t.usedSig ≠ 0 ∧ 0 < expValue t.exp
    · rw [if_pos hc]
      refine ⟨fun F hF => (by cases hF), fun _ => ?_, fun _ => rfl⟩
      have hsig : (1 : ℝ) ≤ t.sig := by
        have : t.sig ≠ 0 := by
          intro h0
          rw [h0, Nat.cast_zero, zero_div, zero_sub, abs_neg, abs_of_nonneg (by positivity)] at hclose
          have hpos : (0 : ℝ) < t.usedSig * 10 ^ t.usedExp := by
            have : (0 : ℝ) < t.usedSig := Nat.cast_pos.2 (Nat.pos_of_ne_zero hc.1)
            positivity
          generalize (t.usedSig : ℝ) * 10 ^ t.usedExp = C at *
          norm_num at hclose
          linarith
        exact_mod_cast Nat.one_le_iff_ne_zero.2 this
      rw [abs_value]
      calc (10 : ℝ) * 10 ^ 307 = 10 ^ (308 : ℤ) := by rw [← pow_succ']; rfl
        _ ≤ 10 ^ t.exponent := by
            refine zpow_le_zpow_right₀ (by norm_num) ?_
            unfold NumTok.exponent
            omega
        _ ≤ t.sig * 10 ^ t.exponent := le_mul_of_one_le_left (by positivity) hsig
    · rw [if_neg hc]
      have hs := hsmall hc
      refine ⟨fun F hF => ?_, fun hn => (by cases hn), fun hv => ?_⟩
      · cases hF
        rw [Nat.cast_zero, zero_div, zero_sub, abs_neg, abs_abs]
        have : 0 ≤ |t.value| / 2 ^ 50 := by positivity
        linarith
      · exfalso
        have hK : (1 : ℝ) ≤ 10 ^ 307 := one_le_pow₀ (by norm_num)
        have h1 : (1 : ℝ) / 10 ^ 200 ≤ 1 := by
          rw [div_le_one (by positivity)]
          exact one_le_pow₀ (by norm_num)
        generalize (10 : ℝ) ^ 307 = K at *
        linarith

/-! ### C140: every number -/

set_option exponentiation.threshold 1100 in
/-- the conversion of `f64` to `f32`, with a name for the power of two in it -/
theorem toF32_den : ∃ D : ℕ, (∀ s F, F64.toF32 s F = F32.round s F D) ∧ 0 < D ∧ (F64.unit : ℝ) = 2 ^ 149 * D :=
  ⟨2 ^ 925, fun _ _ => rfl, Nat.two_pow_pos 925, unit_cast⟩

theorem toF32_readParts (s : Bool) (d : ℕ) (e : ℤ) : F64.toF32 s (readParts d e) = pack s (readIdx d e) := rfl

attribute [local irreducible] F64.toF32

/-- `f64` to `f32` -/
theorem toF32_rounds (s : Bool) (F : ℕ) : RoundsTo ((if s then -1 else 1) * ((F : ℝ) / F64.unit)) (F64.toF32 s F) := by
  obtain ⟨D, hD, hpos, hU⟩ := toF32_den
  have h := round_rounds s F D hpos
  have hK : (0 : ℝ) < D := Nat.cast_pos.2 hpos
  have e : (F : ℝ) / F64.unit = (F : ℝ) / D / 2 ^ 149 := by
    rw [hU]
    field_simp
  rw [e, hD]
  exact h

/-- whole numbers as literals -/
theorem lit_rounds (z : ℤ) : RoundsTo (z : ℝ) (F32.lit z) := by
  have h := round_rounds (decide (z < 0)) (z.natAbs * 2 ^ 149) 1 one_pos
  have e : (if decide (z < 0) = true then (-1 : ℝ) else 1) * ((z.natAbs * 2 ^ 149 : ℕ) / (1 : ℕ) / 2 ^ 149) = z := by
    rw [Nat.cast_one, div_one, Nat.cast_mul, Nat.cast_pow, Nat.cast_ofNat, mul_div_cancel_right₀ _ (by positivity)]
    rcases lt_or_ge z 0 with hz | hz
    · rw [decide_eq_true hz, if_pos rfl, ← Int.cast_natCast, Int.natCast_natAbs, abs_of_neg hz]
      push_cast
      ring
    · rw [decide_eq_false (not_lt.2 hz), if_neg (by simp), ← Int.cast_natCast, Int.natCast_natAbs, abs_of_nonneg hz, one_mul]
  rw [e] at h
  exact h

/-- the value of an integer token -/
theorem value_int {t : NumTok} (h : t.IsInt) : t.value = t.wholeValue := by
  obtain ⟨h1, h2, _⟩ := h
  unfold NumTok.value NumTok.wholeValue NumTok.sig NumTok.exponent
  rw [h1, h2]
  simp only [List.tail_nil, List.append_nil, expValue, List.length_nil, Nat.cast_zero, sub_zero, zpow_zero, mul_one]
  cases t.neg <;> simp

/-- **C140.** A number in a file (of at most `10^9` digits before and after the point) that is read as `x` differs from a real
number whose nearest `f32` is `x` by at most one part in `2^50` (and `10^-200`).  Numbers below `10^308` are never refused, numbers
from `10^309` on always are. -/
theorem C140_accuracy (t : NumTok) (n : JNum NumTok) (ht : t.Valid) (hn : t.Denotes n) (hw : t.whole.length ≤ 10 ^ 9)
    (hf : t.frac.length ≤ 10 ^ 9) :
    (∀ x, deF32 serdeIO (.num n) = .ok x → ∃ f : ℝ, |f - t.value| ≤ |t.value| / 2 ^ 50 + 1 / 10 ^ 200 ∧ RoundsTo f x) ∧
    ((∃ e, deF32 serdeIO (.num n) = .error e) → 10 ^ 308 ≤ |t.value|) ∧
    (10 ^ 309 ≤ |t.value| → ∃ e, deF32 serdeIO (.num n) = .error e) := by
  cases n with
  | int z =>
    obtain ⟨hi, rfl⟩ := hn
    have hd : deF32 serdeIO (.num (.int t.wholeValue)) = .ok (F32.lit t.wholeValue) := rfl
    rw [hd]
    refine ⟨fun x hx => ?_, fun he => ?_, fun hv => ?_⟩
    · cases hx
      refine ⟨t.value, ?_, ?_⟩
      · rw [sub_self, abs_zero]; positivity
      · rw [value_int hi]; exact lit_rounds _
    · obtain ⟨e, he⟩ := he; cases he
    · exfalso
      rw [value_int hi] at hv
      have h1 : |t.wholeValue| < 2 ^ 64 := by
        obtain ⟨_, _, h3, h4⟩ := hi
        rw [abs_lt]; omega
      have h2 : |(t.wholeValue : ℝ)| < 2 ^ 64 := by exact_mod_cast h1
      have h3 : (10 : ℝ) ^ 25 ≤ 10 ^ 309 := pow_le_pow_right₀ (by norm_num) (by norm_num)
      generalize (10 : ℝ) ^ 309 = K at *
      norm_num at h3 h2
      linarith
  | float d =>
    obtain ⟨_, rfl⟩ := hn
    obtain ⟨h1, h2, h3⟩ := readF64_spec ht hw hf
    have e308 : (10 : ℝ) ^ 308 = 10 * 10 ^ 307 := by rw [← pow_succ']
    have e309 : (10 : ℝ) ^ 309 = 100 * 10 ^ 307 := by rw [show (100 : ℝ) = 10 ^ 2 by norm_num, ← pow_add]
    rw [e308, e309]
    cases hF : d.readF64 with
    | none =>
      have hd : deF32 serdeIO (.num (.float d)) = .error .error := by
        simp only [deF32, serdeIO, NumTok.readF32, hF, Option.map_none]
      rw [hd]
      exact ⟨fun x hx => (by cases hx), fun _ => h2 hF, fun _ => ⟨_, rfl⟩⟩
    | some F =>
      have hd : deF32 serdeIO (.num (.float d)) = .ok (F64.toF32 d.neg F) := by
        simp only [deF32, serdeIO, NumTok.readF32, hF, Option.map_some]
      rw [hd]
      refine ⟨fun x hx => ?_, fun he => ?_, fun hv => ?_⟩
      · cases hx
        refine ⟨_, ?_, toF32_rounds d.neg F⟩
        have hs : d.value = (if d.neg then -1 else 1) * |d.value| := by rw [abs_value]; rfl
        rw [hs, ← mul_sub, abs_sign, abs_sign, abs_abs]
        exact h1 F hF
      · obtain ⟨e, he⟩ := he; cases he
      · rw [h3 hv] at hF; cases hF

/-- **C140, signs.** A number with a point or an exponent is read with its sign, also when it becomes zero or infinite. -/
theorem C140_sign (t : NumTok) (x : F32) (h : deF32 serdeIO (.num (.float t)) = .ok x) :
    (∃ n, x = .fin t.neg n) ∨ x = .inf t.neg := by
  simp only [deF32, serdeIO, NumTok.readF32] at h
  cases hF : t.readF64 with
  | none => rw [hF] at h; cases h
  | some F =>
    rw [hF] at h
    simp only [Option.map_some] at h
    cases h
    unfold F64.toF32 F32.round F32.pack
    split
    · exact .inl ⟨_, rfl⟩
    · exact .inr rfl

/-- **C140, large numbers.** Numbers from `2^128` on that are read at all become infinite without an error; numbers up to the largest
`f32` stay finite. -/
theorem C140_infinite (t : NumTok) (n : JNum NumTok) (ht : t.Valid) (hn : t.Denotes n) (hw : t.whole.length ≤ 10 ^ 9)
    (hf : t.frac.length ≤ 10 ^ 9) (x : F32) (hx : deF32 serdeIO (.num n) = .ok x) :
    (2 ^ 128 ≤ |t.value| → ∃ s, x = .inf s) ∧ (|t.value| ≤ (2 ^ 24 - 1) * 2 ^ 104 → IsFin x) := by
  obtain ⟨f, h1, h2⟩ := (C140_accuracy t n ht hn hw hf).1 x hx
  have hsmall : (1 : ℝ) / 10 ^ 200 ≤ 1 := by
    rw [div_le_one (by positivity)]
    exact one_le_pow₀ (by norm_num)
  generalize (1 : ℝ) / 10 ^ 200 = E at *
  have ha := abs_sub_abs_le_abs_sub t.value f
  have hb := abs_sub_abs_le_abs_sub f t.value
  rw [abs_sub_comm t.value f] at ha
  constructor
  · intro hv
    have hm : maxHalf ≤ |f| := by
      unfold maxHalf
      norm_num at hv h1 ⊢
      linarith
    cases x with
    | nan => exact h2.elim
    | inf s => exact ⟨s, rfl⟩
    | fin s m => exact absurd h2.1 (not_lt.2 hm)
  · intro hv
    have hm : |f| < maxHalf := by
      unfold maxHalf
      norm_num at hv h1 ⊢
      linarith
    rw [abs_lt] at hm
    cases x with
    | nan => exact h2.elim
    | inf s =>
      exfalso
      cases s with
      | false => exact absurd h2 (by simp only [RoundsTo, Bool.false_eq_true, ↓reduceIte, not_le]; exact hm.2)
      | true => exact absurd h2 (by simp only [RoundsTo, ↓reduceIte, not_le]; exact hm.1)
    | fin s m => exact ⟨s, m, rfl⟩

/-! ### C139: short numbers -/

theorem ridx_small {r : ℝ} (h : r < 1 / 2) : RIdx r 0 := by
  intro m
  have h1 : (1 : ℝ) ≤ mag m + mag (m + 1) := by
    have h2 : (mag m : ℝ) < mag (m + 1) := magR_lt (Nat.lt_succ_self m)
    have h3 : mag m < mag (m + 1) := by exact_mod_cast h2
    have : 1 ≤ mag m + mag (m + 1) := by omega
    exact_mod_cast this
  constructor
  · intro h; omega
  · rintro (h | h)
    · linarith
    · linarith [h.1]

/-- very small numbers become zero, very large ones infinite; `f` is what is rounded, `v` what should be -/
theorem extreme_rounds {s : Bool} {F : ℕ} {v : ℝ} (hv0 : 0 ≤ v) (h : |(F : ℝ) / F64.unit - v| ≤ v / 2 ^ 50 + 1 / 10 ^ 200)
    (hv : v < 1 / 10 ^ 46 ∨ 10 ^ 39 ≤ v) : RoundsTo ((if s then -1 else 1) * v) (F64.toF32 s F) := by
  have hU := unitR_pos
  have h0 := toF32_rounds s F
  have hf0 : 0 ≤ (F : ℝ) / F64.unit := by positivity
  have hε : (1 : ℝ) / 10 ^ 200 ≤ 1 / 10 ^ 60 :=
    one_div_le_one_div_of_le (by positivity) (pow_le_pow_right₀ (by norm_num) (by norm_num))
  have hb := abs_le.1 h
  rcases hv with hv | hv
  · have hp : (0 : ℝ) < 2 ^ 149 := by positivity
    have h1 : (F : ℝ) / F64.unit * 2 ^ 149 < 1 / 2 := by
      have : (F : ℝ) / F64.unit < 2 / 10 ^ 46 := by
        generalize (F : ℝ) / F64.unit = f at *
        generalize (1 : ℝ) / 10 ^ 200 = ε at *
        norm_num at hb hε hv ⊢
        linarith
      calc (F : ℝ) / F64.unit * 2 ^ 149 < 2 / 10 ^ 46 * 2 ^ 149 := mul_lt_mul_of_pos_right this hp
        _ < 1 / 2 := by norm_num
    have h2 : v * 2 ^ 149 < 1 / 2 :=
      calc v * 2 ^ 149 < 1 / 10 ^ 46 * 2 ^ 149 := mul_lt_mul_of_pos_right hv hp
        _ < 1 / 2 := by norm_num
    have e : F64.toF32 s F = pack s 0 := by
      obtain ⟨D, hD, hpos, hU'⟩ := toF32_den
      rw [hD]
      unfold F32.round
      congr 1
      have h3 := roundIdx_ridx F D hpos
      have hK : (0 : ℝ) < D := Nat.cast_pos.2 hpos
      have e2 : (F : ℝ) / D = (F : ℝ) / F64.unit * 2 ^ 149 := by
        rw [hU']
        field_simp
      rw [e2] at h3
      exact h3.unique (ridx_small h1)
    rw [e]
    have := pack_rounds (r := v * 2 ^ 149) (by positivity) (ridx_small h2) s
    rw [mul_div_cancel_right₀ _ hp.ne'] at this
    exact this
  · have hm : maxHalf < 10 ^ 39 / 2 := by unfold maxHalf; norm_num
    have h1 : maxHalf < (F : ℝ) / F64.unit := by
      generalize (F : ℝ) / F64.unit = f at *
      generalize (1 : ℝ) / 10 ^ 200 = ε at *
      generalize maxHalf = M at *
      norm_num at hb hε hv hm ⊢
      linarith
    have h2 : maxHalf < v := by
      generalize maxHalf = M at *
      norm_num at hv hm
      linarith
    have hM : 0 < maxHalf := by unfold maxHalf; norm_num
    cases hx : F64.toF32 s F with
    | nan => rw [hx] at h0; exact absurd h0 id
    | fin s' n =>
      rw [hx] at h0
      have := h0.1
      rw [abs_sign, abs_of_nonneg hf0] at this
      linarith
    | inf s' =>
      rw [hx] at h0
      simp only [RoundsTo] at h0 ⊢
      cases s <;> cases s' <;> simp at h0 ⊢ <;> linarith

/-- **C139, short numbers.** A number with at most eight digits below `10^308` is read as the nearest `f32`, unless its digits and its
exponent are among the six pairs of `misread`.  Missing: those six (`C139_counterexample`), and longer numbers, for which C140 gives a
bound only. -/
theorem C139_short_partial (t : NumTok) (n : JNum NumTok) (ht : t.Valid) (hn : t.Denotes n) (hw : t.whole.length ≤ 10 ^ 9)
    (hf : t.frac.length ≤ 10 ^ 9) (h8 : t.sig < 10 ^ 8) (hv : |t.value| < 10 ^ 308) (hm : (t.sig, t.exponent) ∉ misread) :
    ∃ x, deF32 serdeIO (.num n) = .ok x ∧ RoundsTo t.value x := by
  cases n with
  | int z =>
    obtain ⟨hi, rfl⟩ := hn
    refine ⟨_, rfl, ?_⟩
    rw [value_int hi]
    exact lit_rounds _
  | float d =>
    obtain ⟨_, rfl⟩ := hn
    obtain ⟨h1, h2, _⟩ := readF64_spec ht hw hf
    cases hF : d.readF64 with
    | none =>
      have := h2 hF
      rw [← pow_succ'] at this
      exact absurd hv (not_lt.2 this)
    | some F =>
      refine ⟨F64.toF32 d.neg F, by simp only [deF32, serdeIO, NumTok.readF32, hF, Option.map_some], ?_⟩
      have hs : d.value = (if d.neg then -1 else 1) * |d.value| := by rw [abs_value]; rfl
      rw [hs]
      by_cases hx : |d.value| < 1 / 10 ^ 46 ∨ 10 ^ 39 ≤ |d.value|
      · exact extreme_rounds (abs_nonneg _) (h1 F hF) hx
      · obtain ⟨hx1, hx2⟩ := not_or.1 hx
        rw [not_lt] at hx1
        rw [not_le] at hx2
        rw [abs_value] at hx1 hx2
        have hd0 : 0 < d.sig := by
          rcases Nat.eq_zero_or_pos d.sig with h | h
          · rw [h, Nat.cast_zero, zero_mul] at hx1
            norm_num at hx1
          · exact h
        have hdR : (1 : ℝ) ≤ d.sig := by exact_mod_cast hd0
        have h8R : (d.sig : ℝ) < 10 ^ 8 := by exact_mod_cast h8
        have he : -53 ≤ d.exponent := by
          by_contra hlt
          have : (10 : ℝ) ^ d.exponent ≤ 10 ^ (-54 : ℤ) := zpow_le_zpow_right₀ (by norm_num) (by omega)
          have h3 : (d.sig : ℝ) * 10 ^ d.exponent ≤ d.sig * 10 ^ (-54 : ℤ) := mul_le_mul_of_nonneg_left this (by positivity)
          have h4 : (d.sig : ℝ) * 10 ^ (-54 : ℤ) < 10 ^ 8 * 10 ^ (-54 : ℤ) := mul_lt_mul_of_pos_right h8R (by positivity)
          have h5 : (10 : ℝ) ^ 8 * 10 ^ (-54 : ℤ) = 1 / 10 ^ 46 := by norm_num
          exact absurd (lt_of_le_of_lt h3 (h5 ▸ h4)) (not_lt.2 hx1)
        have he' : d.exponent < 39 := by
          by_contra hge
          have h3 : (10 : ℝ) ^ (39 : ℤ) ≤ 10 ^ d.exponent := zpow_le_zpow_right₀ (by norm_num) (by omega)
          have h4 : (10 : ℝ) ^ d.exponent ≤ d.sig * 10 ^ d.exponent := le_mul_of_one_le_left (by positivity) hdR
          have h5 : (10 : ℝ) ^ (39 : ℤ) = 10 ^ 39 := by norm_cast
          linarith
        have hexp : (expValue d.exp).natAbs ≤ 2147483647 := by
          unfold NumTok.exponent at he he'
          have : d.frac.tail.length ≤ 1000000000 := by rw [List.length_tail]; norm_num at hf; omega
          omega
        rw [readF64_eq ht (h8.trans (by norm_num)) hexp,
          fromParts_small hd0 (h8.trans (by norm_num)) (h8.trans (by norm_num)) (by omega) he', Option.some.injEq] at hF
        rw [← hF]
        have e : F64.toF32 d.neg (readParts d.sig d.exponent) = pack d.neg (nearestIdx d.sig d.exponent) := by
          rw [← readIdx_eq hd0 h8 he hx2 hm, toF32_readParts]
        rw [e, abs_value]
        have := pack_rounds (by positivity) (nearestIdx_ridx d.sig d.exponent) d.neg
        rw [mul_div_cancel_right₀ _ (by positivity)] at this
        exact this

theorem misread_facts : ∀ p ∈ misread, 0 < p.1 ∧ p.1 < 10 ^ 8 ∧ -60 ≤ p.2 ∧ p.2 < 39 ∧ p.2 ≠ 0 ∧ readIdx p.1 p.2 ≠ nearestIdx p.1 p.2 ∧
    readIdx p.1 p.2 < 0x7f800000 ∧ readIdx p.1 p.2 ≠ 0 := by decide +kernel

/-- **C139, exactly which short numbers**: the six pairs of `misread` are indeed not read as the nearest `f32`. -/
theorem C139_exact_short (t : NumTok) (n : JNum NumTok) (ht : t.Valid) (hn : t.Denotes n) (hw : t.whole.length ≤ 10 ^ 9)
    (hf : t.frac.length ≤ 10 ^ 9) (h8 : t.sig < 10 ^ 8) (hv : |t.value| < 10 ^ 308) :
    (∃ x, deF32 serdeIO (.num n) = .ok x ∧ RoundsTo t.value x) ↔ (t.sig, t.exponent) ∉ misread := by
  refine ⟨fun hx hm => ?_, C139_short_partial t n ht hn hw hf h8 hv⟩
  obtain ⟨f0, _, f1, f2, f3, f4, f5, f6⟩ := misread_facts _ hm
  simp only at f0 f1 f2 f3 f4 f5 f6
  obtain ⟨x, hx, hr⟩ := hx
  cases n with
  | int z =>
    obtain ⟨⟨h1, h2, _⟩, _⟩ := hn
    refine f3 ?_
    unfold NumTok.exponent
    rw [h1, h2]
    rfl
  | float d =>
    obtain ⟨_, rfl⟩ := hn
    have hexp : (expValue d.exp).natAbs ≤ 2147483647 := by
      unfold NumTok.exponent at f1 f2
      have : d.frac.tail.length ≤ 1000000000 := by rw [List.length_tail]; norm_num at hf; omega
      omega
    have hF : d.readF64 = some (readParts d.sig d.exponent) := by
      rw [readF64_eq ht (h8.trans (by norm_num)) hexp,
        fromParts_small f0 (h8.trans (by norm_num)) (h8.trans (by norm_num)) (by omega) f2]
    have hd : deF32 serdeIO (.num (.float d)) = .ok (F64.toF32 d.neg (readParts d.sig d.exponent)) := by
      simp only [deF32, serdeIO, NumTok.readF32, hF, Option.map_some]
    rw [hd] at hx
    cases hx
    rw [toF32_readParts] at hr
    clear hF hd
    generalize readIdx d.sig d.exponent = N at *
    have hp : pack d.neg N = fin d.neg ⟨N, f5⟩ := by unfold pack; rw [dif_pos f5]
    rw [hp] at hr
    have h1 := (hr.ridx f6).1
    rw [abs_value] at h1
    exact f4 (h1.unique (nearestIdx_ridx d.sig d.exponent))

/-! ### examples -/

/-- `0.1` is short -/
example : ∃ x, deF32 serdeIO (.num (.float ⟨false, ['0'], ['.', '1'], []⟩)) = .ok x ∧ RoundsTo (1 / 10) x := by
  have hs : (⟨false, ['0'], ['.', '1'], []⟩ : NumTok).sig = 1 := by decide +kernel
  have he : (⟨false, ['0'], ['.', '1'], []⟩ : NumTok).exponent = -1 := by decide +kernel
  have hv : (⟨false, ['0'], ['.', '1'], []⟩ : NumTok).value = 1 / 10 := by
    unfold NumTok.value
    rw [hs, he]
    norm_num
  have := C139_short_partial ⟨false, ['0'], ['.', '1'], []⟩ (.float _) ⟨.inl rfl, .inr ⟨['1'], ⟨by simp, by simp⟩, rfl⟩, .inl rfl⟩
    ⟨fun h => absurd h.1 (by decide), rfl⟩ (by simp) (by simp) (by rw [hs]; norm_num)
    (by
      rw [hv, abs_of_pos (by norm_num)]
      exact lt_of_lt_of_le (by norm_num) (one_le_pow₀ (by norm_num)))
    (by rw [hs, he]; decide)
  rw [hv] at this
  exact this

/-- a number of thirty digits meets the hypotheses of C140 -/
example : ∃ t : NumTok, String.ofList t.text = "3.14159265358979323846264338327" ∧ t.Valid ∧ t.Denotes (.float t) ∧
    t.whole.length ≤ 10 ^ 9 ∧ t.frac.length ≤ 10 ^ 9 ∧ 2 ^ 64 ≤ t.sig := by
  refine ⟨⟨false, ['3'], ".14159265358979323846264338327".toList, []⟩, by decide +kernel, ?_, ⟨fun h => absurd h.1 (by decide), rfl⟩,
    by decide, by decide +kernel, by decide +kernel⟩
  exact ⟨.inr ⟨⟨by simp, by simp⟩, by decide⟩, .inr ⟨"14159265358979323846264338327".toList, ⟨by decide, by decide⟩, by decide⟩, .inl rfl⟩

/-- a number as it is written in a file: its `f32` if it is read -/
def readNumber (s : String) : Option F32 :=
  match parseText s with
  | some (.num n) => (deF32 serdeIO (.num n)).toOption
  | _ => none

/-- what is read: short and long numbers, 17 digits, a digit too many, both zeros, overflow to infinity, a number that is refused -/
example : readNumber "0.1" = some (F32.lit 1 10) ∧ readNumber "-2.50e1" = some (F32.lit (-25)) ∧
    readNumber "0.30000000000000004" = some (F32.lit 3 10) ∧
    readNumber "123456789012345678901234567890" = some (F32.lit 123456789012345678901234567890) ∧
    readNumber "-0.0" = some (.fin true ⟨0, by decide⟩) ∧ readNumber "-0" = some (.fin false ⟨0, by decide⟩) ∧
    readNumber "1e39" = some (.inf false) ∧ readNumber "1e-400" = some (F32.lit 0) ∧ readNumber "1e309" = none ∧
    readNumber "0e309" = some (F32.lit 0) := by decide +kernel

/-- **C139 is false**: `9.3137999e-33` is read as a neighbour of the nearest `f32`. -/
theorem C139_counterexample : ∃ (t : NumTok) (x : F32), String.ofList t.text = "9.3137999e-33" ∧ t.Valid ∧
    t.Denotes (.float t) ∧ deF32 serdeIO (.num (.float t)) = .ok x ∧ ¬ RoundsTo t.value x := by
  have hr : NumTok.readF32 ⟨false, ['9'], ".3137999".toList, "e-33".toList⟩ = some (.fin false ⟨172060840, by decide⟩) := by decide +kernel
  refine ⟨⟨false, ['9'], ".3137999".toList, "e-33".toList⟩, .fin false ⟨172060840, by decide⟩, by decide +kernel, ?_, ?_, ?_, ?_⟩
  · refine ⟨.inr ⟨⟨by simp, by simp⟩, by decide⟩, .inr ⟨"3137999".toList, ⟨by decide, ?_⟩, by decide⟩, .inr ⟨'e', ['-'], "33".toList,
      .inl rfl, .inr (.inr rfl), ⟨by decide, ?_⟩, by decide⟩⟩ <;> decide
  · exact ⟨fun h => absurd h.1 (by decide), rfl⟩
  · simp only [deF32, serdeIO, hr]
  · intro h
    have h1 := (h.ridx (by decide)).1
    have hs : (⟨false, ['9'], ".3137999".toList, "e-33".toList⟩ : NumTok).sig = 93137999 := by decide +kernel
    have he : (⟨false, ['9'], ".3137999".toList, "e-33".toList⟩ : NumTok).exponent = -40 := by decide +kernel
    rw [abs_value, hs, he] at h1
    have h2 := h1.unique (nearestIdx_ridx 93137999 (-40))
    exact absurd h2 (by decide +kernel)

/-- **C139 is false**: the same number with a zero more is read differently. -/
theorem C139_counterexample_zero : readNumber "7.038531e-26" ≠ readNumber "7.0385310e-26" ∧
    (readNumber "7.038531e-26").isSome = true ∧ (readNumber "7.0385310e-26").isSome = true := by decide +kernel

end Kami.FoldFile
