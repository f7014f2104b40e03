import Verif.Fold.Numbers
import Verif.Fold.Writer
import Mathlib.Data.Real.Basic
/-!
# The value of a number token

The specification for the conversion of numbers: a token stands for its digits times a power of ten.  If the digits fit a `u64` and
the exponent an `i32`, serde_json computes with exactly these two numbers.
-/

set_option autoImplicit false

namespace Kami.FoldFile

open Kami F32

/-! ### Specification -/

/-- all digits of a token, without the point -/
def NumTok.sig (t : NumTok) : ℕ := Nat.ofDigitChars 10 (t.whole ++ t.frac.tail) 0

/-- the number after `e` -/
def expValue : List Char → ℤ
  | [] => 0
  | _ :: '-' :: ds => -(Nat.ofDigitChars 10 ds 0 : ℕ)
  | _ :: '+' :: ds => (Nat.ofDigitChars 10 ds 0 : ℕ)
  | _ :: ds => (Nat.ofDigitChars 10 ds 0 : ℕ)

/-- the power of ten that belongs to `sig` -/
def NumTok.exponent (t : NumTok) : ℤ := expValue t.exp - t.frac.tail.length

/-- the number that a token stands for -/
noncomputable def NumTok.value (t : NumTok) : ℝ := (if t.neg then -1 else 1) * (t.sig * 10 ^ t.exponent)

/-- `-12.50e+3` -/
example : (⟨true, "12".toList, ".50".toList, "e+3".toList⟩ : NumTok).value = -12500 := by
  have h1 : (⟨true, "12".toList, ".50".toList, "e+3".toList⟩ : NumTok).sig = 1250 := by decide +kernel
  have h2 : (⟨true, "12".toList, ".50".toList, "e+3".toList⟩ : NumTok).exponent = 1 := by decide +kernel
  unfold NumTok.value
  rw [h1, h2]
  norm_num

/-! ### the parts that are computed with -/

theorem ofDigitChars_ge (cs : List Char) : ∀ a : ℕ, a ≤ Nat.ofDigitChars 10 cs a := by
  induction cs with
  | nil => intro a; simp
  | cons c cs ih =>
    intro a
    rw [Nat.ofDigitChars_cons]
    exact le_trans (by omega) (ih _)

theorem wholeSig_eq (cs : List Char) : ∀ a : ℕ, Nat.ofDigitChars 10 cs a < 2 ^ 64 →
    wholeSig a cs = (Nat.ofDigitChars 10 cs a, 0) := by
  induction cs with
  | nil => intro a _; simp [wholeSig]
  | cons c cs ih =>
    intro a h
    rw [Nat.ofDigitChars_cons] at h ⊢
    have := ofDigitChars_ge cs (10 * a + (c.toNat - '0'.toNat))
    unfold wholeSig
    rw [if_pos (show 10 * a + digitValue c < 2 ^ 64 from lt_of_le_of_lt this h)]
    exact ih _ h

theorem fracSig_eq (cs : List Char) : ∀ a : ℕ, Nat.ofDigitChars 10 cs a < 2 ^ 64 →
    fracSig a cs = (Nat.ofDigitChars 10 cs a, cs.length) := by
  induction cs with
  | nil => intro a _; simp [fracSig]
  | cons c cs ih =>
    intro a h
    rw [Nat.ofDigitChars_cons] at h ⊢
    have := ofDigitChars_ge cs (10 * a + (c.toNat - '0'.toNat))
    unfold fracSig
    rw [if_pos (show 10 * a + digitValue c < 2 ^ 64 from lt_of_le_of_lt this h)]
    have e := ih (10 * a + digitValue c) h
    simp only [e, List.length_cons]
    rfl

theorem digit_ne_sign {c : Char} (h : c.isDigit = true) : c ≠ '+' ∧ c ≠ '-' := by
  constructor <;> rintro rfl <;> exact absurd h (by decide)

theorem expValue_digits (e : Char) {ds : List Char} (h : Digits ds) : expValue (e :: ds) = (Nat.ofDigitChars 10 ds 0 : ℕ) := by
  obtain ⟨hne, hd⟩ := h
  cases ds with
  | nil => exact absurd rfl hne
  | cons d ds =>
    have hs := digit_ne_sign (hd d (List.mem_cons_self ..))
    unfold expValue
    split
    · rename_i h; cases h
    · rename_i h; cases h; exact absurd rfl hs.2
    · rename_i h; cases h; exact absurd rfl hs.1
    · rename_i h; cases h; rfl

/-- `Deserializer::parse_exponent` in terms of the value -/
theorem withExponent_eq (sig : ℕ) (start : ℤ) {t : NumTok} (ht : t.Valid) (he : (expValue t.exp).natAbs ≤ 2147483647) :
    withExponent sig start t.exp = f64FromParts sig (start + expValue t.exp) := by
  obtain ⟨_, _, h | ⟨e, sign, ds, _, hsign, hds, h⟩⟩ := ht
  · rw [h]
    show f64FromParts sig start = _
    congr 1
    exact (add_zero start).symm
  rw [h] at he ⊢
  have hhead : ∀ c, ds.head? = some c → c ≠ '+' ∧ c ≠ '-' := by
    intro c hc
    exact digit_ne_sign (hds.2 c (List.mem_of_mem_head? hc))
  rcases hsign with rfl | rfl | rfl
  · rw [List.nil_append, expValue_digits e hds] at *
    have hlex : (lexSign ds).2 = ds := by
      cases ds with
      | nil => rfl
      | cons d ds =>
        have := hhead d rfl
        simp only [lexSign, this.1, this.2, or_self, ↓reduceIte]
    have hm : (ds.head? == some '-') = false := by
      rw [beq_eq_false_iff_ne]
      intro hc
      exact (hhead _ hc).2 rfl
    unfold withExponent
    simp only [hlex, hm]
    rw [if_neg (by omega)]
    rfl
  · have hv : expValue (e :: (['+'] ++ ds)) = (Nat.ofDigitChars 10 ds 0 : ℕ) := rfl
    rw [hv] at he ⊢
    unfold withExponent
    simp only [List.cons_append, List.nil_append, lexSign, true_or, ↓reduceIte, List.head?_cons]
    rw [if_neg (by omega)]
    rfl
  · have hv : expValue (e :: (['-'] ++ ds)) = -(Nat.ofDigitChars 10 ds 0 : ℕ) := rfl
    rw [hv] at he ⊢
    unfold withExponent
    simp only [List.cons_append, List.nil_append, lexSign, or_true, ↓reduceIte, List.head?_cons, beq_self_eq_true]
    rw [if_neg (by omega)]
    rfl

/-- if the digits and the exponent fit -/
theorem readF64_eq {t : NumTok} (ht : t.Valid) (hs : t.sig < 2 ^ 64) (he : (expValue t.exp).natAbs ≤ 2147483647) :
    t.readF64 = f64FromParts t.sig t.exponent := by
  unfold NumTok.sig at *
  rw [Nat.ofDigitChars_append] at hs ⊢
  unfold NumTok.readF64
  rw [wholeSig_eq _ _ (lt_of_le_of_lt (ofDigitChars_ge _ _) hs)]
  simp only
  rw [fracSig_eq _ _ hs, withExponent_eq _ _ ht he]
  congr 1
  unfold NumTok.exponent
  push_cast
  ring

theorem f64FromParts_neg (sig : ℕ) {e : ℤ} (h : e < 0) (h' : -308 ≤ e) :
    f64FromParts sig e = some (F64.div (F64.ofNat sig) (pow10 (-e).toNat)) := by
  unfold f64FromParts
  rw [if_neg (by omega)]
  congr 1
  cases hk : (-e).toNat / 308 with
  | zero => rfl
  | succ n =>
    unfold scaleDown
    rw [if_pos (by omega)]

end Kami.FoldFile
