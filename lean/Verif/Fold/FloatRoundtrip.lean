import Verif.Fold.FloatText
import Verif.Fold.Files
/-!
# Floats in files (C138)
-/

set_option autoImplicit false

namespace Kami.FoldFile

open Kami F32

attribute [local irreducible] F64.unit

/-- within the table, and not too large -/
theorem fromParts_small {d : ℕ} {k : ℤ} (hd : 0 < d) (hd53 : d < 2 ^ 53) (hd9 : d < 10 ^ 9) (hk : -60 ≤ k) (hk' : k < 39) :
    f64FromParts d k = some (readParts d k) := by
  by_cases h0 : 0 ≤ k
  · have hsm : readParts d k < F64.tooLarge := by
      have herr := readParts_err hd hd53 hk
      have hU0 : (0 : ℝ) < F64.unit := Nat.cast_pos.2 (lt_of_lt_of_le (by norm_num) unit_large)
      have a1 : (d : ℝ) ≤ 10 ^ 9 := by exact_mod_cast hd9.le
      have a2 : (10 : ℝ) ^ k ≤ 10 ^ (39 : ℤ) := zpow_le_zpow_right₀ (by norm_num) (by omega)
      have a3 : (d : ℝ) * 10 ^ k ≤ 10 ^ 9 * 10 ^ (39 : ℤ) := mul_le_mul a1 a2 (by positivity) (by positivity)
      have a4 : (d : ℝ) * 10 ^ k * F64.unit ≤ 10 ^ 9 * 10 ^ (39 : ℤ) * F64.unit := mul_le_mul_of_nonneg_right a3 hU0.le
      have a5 := (abs_le.1 herr).2
      have a6 : (2 : ℝ) ^ 200 * F64.unit ≤ 2 ^ 1024 * F64.unit :=
        mul_le_mul_of_nonneg_right (pow_le_pow_right₀ (by norm_num) (by norm_num)) hU0.le
      have a7 : (readParts d k : ℝ) < 2 ^ 1024 * F64.unit := by
        refine lt_of_lt_of_le ?_ a6
        generalize (d : ℝ) * 10 ^ k = x at *
        generalize (F64.unit : ℝ) = U at *
        generalize (readParts d k : ℝ) = Y at *
        norm_num at a4 a5 ⊢
        linarith
      unfold F64.tooLarge
      generalize F64.unit = U at *
      have e3 : ((2 ^ 1024 * U : ℕ) : ℝ) = 2 ^ 1024 * (U : ℝ) := by
        simp only [Nat.cast_mul, Nat.cast_pow, Nat.cast_ofNat]
      rw [← e3] at a7
      exact Nat.cast_lt.1 a7
    unfold f64FromParts
    rw [if_pos h0, if_pos (by omega)]
    have e2 : readParts d k = F64.mul (F64.ofNat d) (pow10 k.toNat) := by unfold readParts; rw [if_pos h0]
    simp only
    rw [← e2, if_neg (not_le.2 hsm)]
  · rw [f64FromParts_neg _ (by omega) (by omega)]
    unfold readParts
    rw [if_neg h0]

set_option exponentiation.threshold 1100 in
/-- the number with index `n` from the digits and the exponent of its text -/
theorem pretty_reads (s : Bool) {n d : ℕ} {k : ℤ} (hn : n < 0x7f800000) (hd : 0 < d) (hd9 : d < 10 ^ 9) (hk : -60 ≤ k) (hk' : k < 39)
    (hr : RIdx ((d : ℝ) * 10 ^ k * 2 ^ 149) n) (hi : readIdx d k = n) :
    (prettyTok s d k).readF32 = some (fin s ⟨n, hn⟩) := by
  have hpack : pack s n = fin s ⟨n, hn⟩ := by unfold pack; rw [dif_pos hn]
  have hd53 : d < 2 ^ 53 := hd9.trans (by norm_num)
  unfold NumTok.readF32
  rw [prettyTok_neg, readF64_pretty s hd hd9 (by omega) (by omega)]
  by_cases c1 : 0 ≤ k ∧ ((Nat.toDigits 10 d).length : ℤ) + k ≤ 13
  · rw [if_pos c1, f64FromParts_neg _ (by norm_num) (by norm_num)]
    obtain ⟨j, rfl⟩ := Int.eq_ofNat_of_zero_le c1.1
    have hlt : d < 10 ^ (Nat.toDigits 10 d).length := (Nat.length_toDigits_le_iff (by norm_num) Nat.length_toDigits_pos).1 le_rfl
    have hb : d * 10 ^ (j + 1) < 10 ^ 14 := by
      calc d * 10 ^ (j + 1) < 10 ^ (Nat.toDigits 10 d).length * 10 ^ (j + 1) := Nat.mul_lt_mul_of_pos_right hlt (by positivity)
        _ = 10 ^ ((Nat.toDigits 10 d).length + (j + 1)) := (pow_add ..).symm
        _ ≤ 10 ^ 14 := Nat.pow_le_pow_right (by norm_num) (by omega)
    have hb' : d * 10 ^ j < 2 ^ 53 := by
      have : d * 10 ^ j ≤ d * 10 ^ (j + 1) := Nat.mul_le_mul_left _ (Nat.pow_le_pow_right (by norm_num) (by omega))
      norm_num at hb ⊢
      omega
    have e : F64.div (F64.ofNat (d * 10 ^ (j + 1))) (pow10 1) = d * 10 ^ j * F64.unit := by
      rw [ofNat_exact (hb.trans (by norm_num)), pow10_exact (by norm_num)]
      unfold F64.div
      have hU0 : 0 < F64.unit := lt_of_lt_of_le (by norm_num) unit_large
      rw [unit_eq] at hU0 ⊢
      refine F64.rnd_exact _ _ (d * 10 ^ j) 1074 (Nat.mul_pos (by norm_num) hU0) hb' ?_
      generalize 2 ^ 1074 = U
      rw [pow_succ]
      ring
    rw [show (-(-1 : ℤ)).toNat = 1 from rfl, Int.toNat_natCast, e, Option.map_some, Option.some.injEq]
    have h1 := roundIdx_ridx (d * 10 ^ j * F64.unit) (2 ^ 925) (Nat.two_pow_pos 925)
    have e2 : ((d * 10 ^ j * F64.unit : ℕ) : ℝ) / ((2 ^ 925 : ℕ) : ℝ) = (d : ℝ) * 10 ^ (j : ℤ) * 2 ^ 149 := by
      have hK : (0 : ℝ) < ((2 ^ 925 : ℕ) : ℝ) := Nat.cast_pos.2 (Nat.two_pow_pos 925)
      rw [Nat.cast_mul, unit_cast]
      generalize (((2 ^ 925 : ℕ) : ℕ) : ℝ) = K at *
      rw [zpow_natCast]
      push_cast
      field_simp
    rw [e2] at h1
    unfold F64.toF32 F32.round
    rw [h1.unique hr, hpack]
  · rw [if_neg c1]
    have e := fromParts_small hd hd53 hd9 hk hk'
    rw [e, Option.map_some, Option.some.injEq]
    unfold readIdx at hi
    unfold F64.toF32 F32.round
    rw [hi, hpack]

/-- **C138.** The text that serde_json writes for a finite `f32` is read back, through `f64` and `f32`, as the same `f32` with
the same sign. -/
theorem C138_roundtrip (x : F32) (t : NumTok) (h : floatTok x = some t) : t.readF32 = some x := by
  cases x with
  | nan => cases h
  | inf s => cases h
  | fin s n =>
    simp only [floatTok, Option.some.injEq] at h
    subst h
    unfold finiteTok
    by_cases h0 : n.val = 0
    · rw [if_pos h0]
      obtain rfl : n = ⟨0, by norm_num⟩ := Fin.ext h0
      cases s <;> decide +kernel
    · rw [if_neg h0]
      obtain ⟨d, k, h1, h2, h3, h4, h5, h6, h7, _⟩ := ryu_parts h0 n.isLt
      rw [h1]
      exact pretty_reads s n.isLt h2 h3 h4 h5 h6 h7

/-- **C138, the text.** Exactly the finite numbers are written as number tokens.  The token is a JSON number with a point or an
exponent; the number it stands for rounds to the given `f32` and has at most nine digits, no number that rounds to the `f32` has
fewer digits, and none with as many digits is nearer to it. -/
theorem C138_written (x : F32) :
    (floatTok x = none ↔ ¬ IsFin x) ∧
    ∀ t, floatTok x = some t → t.Valid ∧ (t.frac ≠ [] ∨ t.exp ≠ []) ∧
      (t.neg = true ↔ ∃ n, x = fin true n) ∧ RoundsTo t.value x ∧
      ∃ M ≤ 9, F32.Digits t.value M ∧
        ∀ w M', RoundsTo w x → F32.Digits w M' → M ≤ M' ∧ (M' = M → |t.value - toReal x| ≤ |w - toReal x|) := by
  constructor
  · cases x with
    | nan => simp [floatTok, IsFin]
    | inf s => simp [floatTok, IsFin]
    | fin s n => simp [floatTok, IsFin]
  · intro t h
    cases x with
    | nan => cases h
    | inf s => cases h
    | fin s n =>
      simp only [floatTok, Option.some.injEq] at h
      subst h
      unfold finiteTok
      by_cases h0 : n.val = 0
      · rw [if_pos h0]
        obtain rfl : n = ⟨0, by norm_num⟩ := Fin.ext h0
        have hv : (⟨s, ['0'], ['.', '0'], []⟩ : NumTok).value = 0 := by
          have h1 : (⟨s, ['0'], ['.', '0'], []⟩ : NumTok).sig = 0 := by cases s <;> decide +kernel
          unfold NumTok.value
          rw [h1]
          simp
        have hd : ∀ M, F32.Digits (0 : ℝ) M := fun M => ⟨0, 0, by positivity, by simp⟩
        rw [hv]
        refine ⟨⟨.inl rfl, .inr ⟨['0'], ⟨by simp, by simp⟩, rfl⟩, .inl rfl⟩, .inl (by simp), ?_, zero_rounds s, 0, by norm_num, hd 0,
          fun w M _ _ => ⟨Nat.zero_le _, fun _ => ?_⟩⟩
        · cases s <;> simp
        · have : toReal (fin s ⟨0, by norm_num⟩) = 0 := by rw [toReal_fin]; simp [mag_zero]
          rw [this, sub_zero, abs_zero]
          exact abs_nonneg _
      · rw [if_neg h0]
        obtain ⟨d, k, h1, h2, h3, h4, h5, h6, h7, M, hM9, hdM, h8⟩ := ryu_parts h0 n.isLt
        rw [h1]
        have hv : (prettyTok s d k).value = (if s then -1 else 1) * ((d : ℝ) * 10 ^ k * 2 ^ 149 / 2 ^ 149) := by
          rw [prettyTok_value, mul_div_cancel_right₀ _ (by positivity)]
        have habs : |(prettyTok s d k).value| = (d : ℝ) * 10 ^ k := by
          rw [prettyTok_value, abs_mul, abs_of_nonneg (by positivity : (0 : ℝ) ≤ (d : ℝ) * 10 ^ k)]
          cases s <;> simp
        obtain ⟨v1, v2⟩ := prettyTok_valid s h2 k
        refine ⟨v1, v2, ?_, ?_, M, hM9, ⟨d, k, hdM, habs⟩, ?_⟩
        · rw [prettyTok_neg]
          cases s <;> simp
        · rw [hv]
          have := pack_rounds (r := (d : ℝ) * 10 ^ k * 2 ^ 149) (by positivity) h6 s
          have hpack : pack s n.val = fin s n := by unfold pack; rw [dif_pos n.isLt]
          rw [hpack] at this
          exact this
        · intro w M' hw hM
          obtain ⟨hi, hsgn⟩ := hw.ridx h0
          obtain ⟨g1, g2⟩ := h8 w M' hM hi
          refine ⟨g1, fun hMM => ?_⟩
          have hp : (0 : ℝ) < 2 ^ 149 := by positivity
          have hsc : ∀ y : ℝ, |(if s then -1 else 1) * y - toReal (fin s n)| = |y * 2 ^ 149 - (mag n : ℝ)| / 2 ^ 149 := by
            intro y
            rw [toReal_fin, mul_div_assoc, ← mul_sub, abs_sign, eq_div_iff hp.ne']
            nth_rewrite 2 [← abs_of_pos hp]
            rw [← abs_mul, sub_mul, div_mul_cancel₀ _ hp.ne']
          rw [hsgn, prettyTok_value, hsc, hsc]
          exact div_le_div_of_nonneg_right (g2 hMM) hp.le

/-! ### files -/

/-- **C138, the assumption of C71 and C135** holds for the model of serde_json's numbers. -/
theorem serdeIO_faithful : serdeIO.Faithful := fun x t h => C138_roundtrip x t h

theorem serdeIO_writes : serdeIO.WritesFloats := fun x t h => by
  obtain ⟨h1, h2, _⟩ := (C138_written x).2 t h
  exact ⟨h1, h2⟩

theorem writable_serde (xs : List F32) : Writable serdeIO xs ↔ ∀ x ∈ xs, IsFin x := by
  unfold Writable
  refine forall₂_congr fun x _ => ?_
  have h := (C138_written x).1
  constructor
  · rintro ⟨d, hd⟩
    by_contra hn
    rw [show serdeIO.enc x = none from h.2 hn] at hd
    cases hd
  · intro hf
    cases hx : serdeIO.enc x with
    | none => exact absurd hf (h.1 hx)
    | some d => exact ⟨d, rfl⟩

/-- **C138, files.** The text that serde_json writes for `x`, put into a file, is loaded by `from_file` as `y` if and only if
all vertex coordinates and edge lengths of `x` are finite and `y` is `x` without the four lost fields (see C71), bit for bit;
otherwise `from_file` panics.  Nothing is assumed about the numbers any more. -/
theorem C138_file (x : Fold) :
    (∀ y, fromFile serdeIO parseText (.ok (writeText (serialize serdeIO x))) = .ok (.ok y) ↔
      (∀ xs ∈ x.vertices_coords, ∀ c ∈ xs, IsFin c) ∧ (∀ c ∈ x.edges_lengths, IsFin c) ∧ y = x.forget) ∧
    ((∃ p, fromFile serdeIO parseText (.ok (writeText (serialize serdeIO x))) = .error p) ↔
      ¬ ((∀ xs ∈ x.vertices_coords, ∀ c ∈ xs, IsFin c) ∧ ∀ c ∈ x.edges_lengths, IsFin c)) := by
  have h := C135_file serdeIO serdeIO_faithful serdeIO_writes x
  simp only [writable_serde] at h
  exact h

/-- **C71 for the numbers of serde_json**: the exact result of a round trip, without an assumption about the numbers.  Missing:
the four lost fields (`C71_counterexample`) and numbers that are not finite. -/
theorem C71_serde_partial (x y : Fold) : deserialize serdeIO (serialize serdeIO x) = .ok y ↔
    (∀ xs ∈ x.vertices_coords, ∀ c ∈ xs, IsFin c) ∧ (∀ c ∈ x.edges_lengths, IsFin c) ∧ y = x.forget := by
  have h := C71_roundtrip_partial serdeIO serdeIO_faithful x y
  simp only [writable_serde] at h
  exact h

/-! ### examples -/

/-- the text of a float in a file -/
def floatString (x : F32) : String := (floatTok x).elim "null" fun t => String.ofList t.text

/-- simple numbers, both thresholds of the notation with an exponent, the smallest and the largest number, ties between
two decimals, numbers without text -/
example : [F32.lit 1 10, F32.lit (-5) 2, F32.lit 16777216, F32.lit 1 1000000, F32.lit 1 10000000, F32.lit 1000000000000,
      F32.lit 100000000000000, F32.lit 8388609 4, F32.lit 8388611 4, .fin false ⟨1, by decide⟩, .fin true ⟨0x7f7fffff, by decide⟩,
      .fin true ⟨0, by decide⟩, .inf false, .nan].map floatString =
    ["0.1", "-2.5", "16777216.0", "0.000001", "1e-7", "1000000000000.0", "1e14", "2097152.2", "2097152.8", "1e-45", "-3.4028235e38",
      "-0.0", "null", "null"] := by decide +kernel

/-- a coordinate 1/10 and a length 1/3 come back from their file, an infinite length does not -/
example (x : Fold) (h1 : x.vertices_coords = [[F32.lit 1 10, F32.lit 0]]) (h2 : x.edges_lengths = [F32.lit 1 3]) :
    fromFile serdeIO parseText (.ok (writeText (serialize serdeIO x))) = .ok (.ok x.forget) := by
  refine ((C138_file x).1 _).2 ⟨?_, ?_, rfl⟩
  · rw [h1]
    intro xs hxs c hc
    simp only [List.mem_singleton] at hxs
    subst hxs
    simp only [List.mem_cons, List.not_mem_nil, or_false] at hc
    rcases hc with rfl | rfl
    · exact ⟨false, ⟨1036831949, by decide⟩, by decide +kernel⟩
    · exact ⟨false, ⟨0, by decide⟩, by decide +kernel⟩
  · rw [h2]
    intro c hc
    simp only [List.mem_singleton] at hc
    subst hc
    exact ⟨false, ⟨1051372203, by decide⟩, by decide +kernel⟩

example (x : Fold) (h : F32.inf false ∈ x.edges_lengths) :
    ∃ p, fromFile serdeIO parseText (.ok (writeText (serialize serdeIO x))) = .error p :=
  (C138_file x).2.2 fun hn => by
    obtain ⟨s, n, e⟩ := hn.2 _ h
    cases e

end Kami.FoldFile
