import Verif.Fold.EightNearest
import Verif.Fold.NumValue
/-!
# serde_json reads back the floats it writes

The text of a finite `f32` has at most nine digits.  With up to eight digits it is read as the nearest number
(`readIdx_eq`; the six exceptions are never written).  With nine digits the decimal is so near the number that the errors of
the `f64` computation do no harm.
-/

set_option autoImplicit false

namespace Kami.FoldFile

open Kami F32

/-! ### the parts of a token -/

theorem expValue_int (c : Char) (z : ℤ) : expValue (c :: intChars z) = z := by
  unfold intChars
  by_cases h : z < 0
  · rw [if_pos h]
    show -((Nat.ofDigitChars 10 (Nat.toDigits 10 z.natAbs) 0 : ℕ) : ℤ) = z
    rw [Nat.ofDigitChars_ten_toDigits]
    omega
  · rw [if_neg h, List.nil_append, expValue_digits c (digits_toDigits _), Nat.ofDigitChars_ten_toDigits]
    omega

/-- the digits and the exponent of what `ryu` writes -/
theorem prettyTok_parts (neg : Bool) {d : ℕ} {k : ℤ} :
    if 0 ≤ k ∧ ((Nat.toDigits 10 d).length : ℤ) + k ≤ 13 then
      (prettyTok neg d k).sig = d * 10 ^ (k.toNat + 1) ∧ (prettyTok neg d k).exponent = -1 ∧ expValue (prettyTok neg d k).exp = 0
    else (prettyTok neg d k).sig = d ∧ (prettyTok neg d k).exponent = k ∧
      (expValue (prettyTok neg d k).exp).natAbs ≤ k.natAbs + (Nat.toDigits 10 d).length := by
  have hv : Nat.ofDigitChars 10 (Nat.toDigits 10 d) 0 = d := Nat.ofDigitChars_ten_toDigits
  have hpos : 0 < (Nat.toDigits 10 d).length := Nat.length_toDigits_pos
  unfold prettyTok NumTok.sig NumTok.exponent
  simp only
  generalize Nat.toDigits 10 d = ds at *
  by_cases c1 : 0 ≤ k ∧ (ds.length : ℤ) + k ≤ 13
  · rw [if_pos c1, if_pos c1]
    refine ⟨?_, rfl, rfl⟩
    simp only [List.tail_cons]
    rw [List.append_assoc, Nat.ofDigitChars_append, hv, ← List.replicate_succ', Nat.ofDigitChars_replicate_zero, Nat.mul_comm]
  rw [if_neg c1, if_neg c1]
  by_cases c2 : 0 < (ds.length : ℤ) + k ∧ (ds.length : ℤ) + k ≤ 13
  · rw [if_pos c2]
    have hk0 : k < 0 := by
      by_contra hc
      exact c1 ⟨by omega, c2.2⟩
    simp only [List.tail_cons, List.take_append_drop, List.length_drop]
    refine ⟨hv, ?_, ?_⟩
    · show (0 : ℤ) - _ = _
      omega
    · show (0 : ℤ).natAbs ≤ _
      omega
  rw [if_neg c2]
  by_cases c3 : -6 < (ds.length : ℤ) + k ∧ (ds.length : ℤ) + k ≤ 0
  · rw [if_pos c3]
    simp only [List.tail_cons, List.length_append, List.length_replicate]
    refine ⟨?_, ?_, ?_⟩
    · rw [Nat.ofDigitChars_append, Nat.ofDigitChars_append, Nat.ofDigitChars_replicate_zero]
      exact hv
    · show (0 : ℤ) - _ = _
      omega
    · show (0 : ℤ).natAbs ≤ _
      omega
  rw [if_neg c3]
  by_cases c4 : ds.length = 1
  · rw [if_pos c4]
    simp only [List.tail_nil, List.append_nil, List.length_nil, expValue_int]
    exact ⟨hv, by omega, by omega⟩
  · rw [if_neg c4]
    simp only [List.tail_cons, List.take_append_drop, List.length_drop, expValue_int]
    exact ⟨hv, by omega, by omega⟩

/-! ### the shape of a token -/

theorem prettyTok_neg (neg : Bool) (d : ℕ) (k : ℤ) : (prettyTok neg d k).neg = neg := by
  unfold prettyTok
  simp only
  split
  · rfl
  split
  · rfl
  split
  · rfl
  split <;> rfl

theorem intChars_sign (z : ℤ) : ∃ sign, (sign = [] ∨ sign = ['+'] ∨ sign = ['-']) ∧
    intChars z = sign ++ Nat.toDigits 10 z.natAbs := by
  unfold intChars
  by_cases h : z < 0
  · exact ⟨['-'], by simp, by rw [if_pos h]⟩
  · exact ⟨[], by simp, by rw [if_neg h]⟩

theorem prettyTok_valid (neg : Bool) {d : ℕ} (hd : 0 < d) (k : ℤ) :
    (prettyTok neg d k).Valid ∧ ((prettyTok neg d k).frac ≠ [] ∨ (prettyTok neg d k).exp ≠ []) := by
  obtain ⟨hne, hdig⟩ := digits_toDigits d
  have hhead : (Nat.toDigits 10 d).head? ≠ some '0' := by
    rcases toDigits_head d with h | h
    · have : Nat.ofDigitChars 10 (Nat.toDigits 10 d) 0 = 0 := by rw [h]; rfl
      rw [Nat.ofDigitChars_ten_toDigits] at this
      omega
    · exact h
  have hexp : ∀ z : ℤ, ∃ e sign ds, (e = 'e' ∨ e = 'E') ∧ (sign = [] ∨ sign = ['+'] ∨ sign = ['-']) ∧ Digits ds ∧
      'e' :: intChars z = e :: (sign ++ ds) := by
    intro z
    obtain ⟨sign, h1, h2⟩ := intChars_sign z
    exact ⟨'e', sign, Nat.toDigits 10 z.natAbs, .inl rfl, h1, digits_toDigits _, by rw [h2]⟩
  have hpos : 0 < (Nat.toDigits 10 d).length := Nat.length_toDigits_pos
  unfold prettyTok
  simp only
  generalize Nat.toDigits 10 d = ds at *
  have htake : ∀ n, 0 < n → Digits (ds.take n) ∧ (ds.take n).head? ≠ some '0' := by
    intro n hn
    cases ds with
    | nil => exact absurd rfl hne
    | cons c cs =>
      obtain ⟨m, rfl⟩ : ∃ m, n = m + 1 := ⟨n - 1, by omega⟩
      exact ⟨⟨by simp, fun x hx => hdig x (List.mem_of_mem_take hx)⟩, by simpa using hhead⟩
  have hdrop : ∀ n, n < ds.length → Digits (ds.drop n) := by
    intro n hn
    refine ⟨?_, fun x hx => hdig x (List.mem_of_mem_drop hx)⟩
    rw [Ne, List.drop_eq_nil_iff]
    omega
  by_cases c1 : 0 ≤ k ∧ (ds.length : ℤ) + k ≤ 13
  · rw [if_pos c1]
    refine ⟨⟨.inr ⟨⟨by simp [hne], ?_⟩, ?_⟩, .inr ⟨['0'], ⟨by simp, by simp⟩, rfl⟩, .inl rfl⟩, .inl (by simp)⟩
    · intro c hc
      rcases List.mem_append.1 hc with h | h
      · exact hdig c h
      · rw [List.eq_of_mem_replicate h]; decide
    · cases ds with
      | nil => exact absurd rfl hne
      | cons c cs => simpa using hhead
  by_cases c2 : 0 < (ds.length : ℤ) + k ∧ (ds.length : ℤ) + k ≤ 13
  · rw [if_neg c1, if_pos c2]
    have hk0 : k < 0 := by
      by_contra hc
      exact c1 ⟨by omega, c2.2⟩
    exact ⟨⟨.inr (htake _ (by omega)), .inr ⟨_, hdrop _ (by omega), rfl⟩, .inl rfl⟩, .inl (by simp)⟩
  by_cases c3 : -6 < (ds.length : ℤ) + k ∧ (ds.length : ℤ) + k ≤ 0
  · rw [if_neg c1, if_neg c2, if_pos c3]
    refine ⟨⟨.inl rfl, .inr ⟨_, ⟨by simp [hne], ?_⟩, rfl⟩, .inl rfl⟩, .inl (by simp)⟩
    intro c hc
    rcases List.mem_append.1 hc with h | h
    · rw [List.eq_of_mem_replicate h]; decide
    · exact hdig c h
  by_cases c4 : ds.length = 1
  · rw [if_neg c1, if_neg c2, if_neg c3, if_pos c4]
    exact ⟨⟨.inr ⟨⟨hne, hdig⟩, hhead⟩, .inl rfl, .inr (hexp _)⟩, .inr (by simp)⟩
  · rw [if_neg c1, if_neg c2, if_neg c3, if_neg c4]
    exact ⟨⟨.inr (htake 1 one_pos), .inr ⟨_, hdrop 1 (by omega), rfl⟩, .inr (hexp _)⟩, .inr (by simp)⟩

theorem prettyTok_value (neg : Bool) (d : ℕ) (k : ℤ) : (prettyTok neg d k).value = (if neg then -1 else 1) * (d * 10 ^ k) := by
  have h := prettyTok_parts neg (d := d) (k := k)
  unfold NumTok.value
  rw [prettyTok_neg]
  congr 1
  by_cases c1 : 0 ≤ k ∧ ((Nat.toDigits 10 d).length : ℤ) + k ≤ 13
  · rw [if_pos c1] at h
    rw [h.1, h.2.1]
    obtain ⟨n, rfl⟩ := Int.eq_ofNat_of_zero_le c1.1
    rw [Int.toNat_natCast, pow_succ, zpow_natCast]
    push_cast
    rw [zpow_neg, zpow_one]
    field_simp
  · rw [if_neg c1] at h
    rw [h.1, h.2.1]

/-- what is computed for the text that `ryu` writes -/
theorem readF64_pretty (neg : Bool) {d : ℕ} {k : ℤ} (h0 : 0 < d) (hd : d < 10 ^ 9) (hk : -1000 ≤ k) (hk' : k ≤ 1000) :
    (prettyTok neg d k).readF64 =
      if 0 ≤ k ∧ ((Nat.toDigits 10 d).length : ℤ) + k ≤ 13 then f64FromParts (d * 10 ^ (k.toNat + 1)) (-1)
      else f64FromParts d k := by
  have hlen : (Nat.toDigits 10 d).length ≤ 9 := (Nat.length_toDigits_le_iff (by norm_num) (by norm_num)).2 hd
  have hpos : 0 < (Nat.toDigits 10 d).length := Nat.length_toDigits_pos
  have hlt : d < 10 ^ (Nat.toDigits 10 d).length := (Nat.length_toDigits_le_iff (by norm_num) hpos).1 le_rfl
  have hvalid := (prettyTok_valid neg h0 k).1
  have h := prettyTok_parts neg (d := d) (k := k)
  by_cases c1 : 0 ≤ k ∧ ((Nat.toDigits 10 d).length : ℤ) + k ≤ 13
  · rw [if_pos c1] at h ⊢
    obtain ⟨h1, h2, h3⟩ := h
    rw [readF64_eq hvalid _ (by rw [h3]; decide), h1, h2]
    rw [h1]
    calc d * 10 ^ (k.toNat + 1) < 10 ^ (Nat.toDigits 10 d).length * 10 ^ (k.toNat + 1) :=
          Nat.mul_lt_mul_of_pos_right hlt (by positivity)
      _ = 10 ^ ((Nat.toDigits 10 d).length + (k.toNat + 1)) := (pow_add ..).symm
      _ ≤ 10 ^ 14 := Nat.pow_le_pow_right (by norm_num) (by omega)
      _ < 2 ^ 64 := by norm_num
  · rw [if_neg c1] at h ⊢
    obtain ⟨h1, h2, h3⟩ := h
    rw [readF64_eq hvalid _ (by omega), h1, h2]
    rw [h1]
    exact hd.trans (by norm_num)

/-! ### trailing zeros -/

theorem stripZeros_spec (fuel : ℕ) : ∀ (c : ℕ) (e : ℤ), 0 < c → c < 10 ^ fuel →
    ∃ d t : ℕ, stripZeros fuel c e = (d, e + t) ∧ c = d * 10 ^ t ∧ d % 10 ≠ 0 := by
  induction fuel with
  | zero => intro c e h1 h2; simp at h2; omega
  | succ fuel ih =>
    intro c e h1 h2
    unfold stripZeros
    by_cases h : c % 10 = 0
    · rw [if_pos h]
      obtain ⟨d, t, h3, h4, h5⟩ := ih (c / 10) (e + 1) (by omega) (by
        rw [pow_succ] at h2
        exact Nat.div_lt_of_lt_mul (by rw [Nat.mul_comm]; exact h2))
      refine ⟨d, t + 1, ?_, ?_, h5⟩
      · rw [h3]; push_cast; simp only [Prod.mk.injEq, true_and]; ring
      · rw [pow_succ, ← mul_assoc, ← h4]; omega
    · rw [if_neg h]
      exact ⟨c, 0, by simp, by simp, h⟩

/-! ### the decimal that is written -/

theorem ryuCandidate_eq (n N : ℕ) : ryuCandidate n N =
    if readsBack n (cut n N) then
      if readsBack n (cut n N + unit n N) then
        match compare (unit n N * 2 ^ 149) (2 * (mag n * 10 ^ 60 - cut n N * 2 ^ 149)) with
        | .lt => some (cut n N + unit n N)
        | .gt => some (cut n N)
        | .eq => if floor60 n / unit n N % 2 = 0 then some (cut n N) else some (cut n N + unit n N)
      else some (cut n N)
    else if readsBack n (cut n N + unit n N) then some (cut n N + unit n N)
    else none := rfl

theorem ryuCandidate_cases {n N c : ℕ} (h : ryuCandidate n N = some c) :
    readsBack n c = true ∧
      ((c = cut n N ∧ (readsBack n (cut n N + unit n N) = true → 2 * (mag n * 10 ^ 60 - cut n N * 2 ^ 149) ≤ unit n N * 2 ^ 149)) ∨
      (c = cut n N + unit n N ∧ (readsBack n (cut n N) = true → unit n N * 2 ^ 149 ≤ 2 * (mag n * 10 ^ 60 - cut n N * 2 ^ 149)))) := by
  rw [ryuCandidate_eq] at h
  by_cases h1 : readsBack n (cut n N) = true
  · by_cases h2 : readsBack n (cut n N + unit n N) = true
    · rw [if_pos h1, if_pos h2] at h
      cases hc : compare (unit n N * 2 ^ 149) (2 * (mag n * 10 ^ 60 - cut n N * 2 ^ 149)) with
      | lt =>
        rw [hc] at h
        simp only [Option.some.injEq] at h
        exact ⟨h ▸ h2, .inr ⟨h.symm, fun _ => (compare_lt_iff_lt.1 hc).le⟩⟩
      | gt =>
        rw [hc] at h
        simp only [Option.some.injEq] at h
        exact ⟨h ▸ h1, .inl ⟨h.symm, fun _ => (compare_gt_iff_gt.1 hc).le⟩⟩
      | eq =>
        rw [hc] at h
        simp only at h
        have he := compare_eq_iff_eq.1 hc
        by_cases h3 : floor60 n / unit n N % 2 = 0
        · rw [if_pos h3, Option.some.injEq] at h
          exact ⟨h ▸ h1, .inl ⟨h.symm, fun _ => he.ge⟩⟩
        · rw [if_neg h3, Option.some.injEq] at h
          exact ⟨h ▸ h2, .inr ⟨h.symm, fun _ => he.le⟩⟩
    · rw [if_pos h1, if_neg h2, Option.some.injEq] at h
      exact ⟨h ▸ h1, .inl ⟨h.symm, fun hc => absurd hc h2⟩⟩
  · by_cases h2 : readsBack n (cut n N + unit n N) = true
    · rw [if_neg h1, if_pos h2, Option.some.injEq] at h
      exact ⟨h ▸ h2, .inr ⟨h.symm, fun hc => absurd hc h1⟩⟩
    · rw [if_neg h1, if_neg h2] at h
      cases h

theorem ryuCandidate_none {n N : ℕ} (h : ryuCandidate n N = none) : candidate n N = none := by
  rw [ryuCandidate_eq] at h
  rw [candidate_eq]
  by_cases h1 : readsBack n (cut n N) = true
  · exfalso
    by_cases h2 : readsBack n (cut n N + unit n N) = true
    · rw [if_pos h1, if_pos h2] at h
      split at h
      · cases h
      · cases h
      · split at h <;> cases h
    · rw [if_pos h1, if_neg h2] at h
      cases h
  · by_cases h2 : readsBack n (cut n N + unit n N) = true
    · rw [if_neg h1, if_pos h2] at h
      cases h
    · rw [if_neg h1, if_neg h2]

/-- the search stops at the first number of digits that works -/
theorem ryuDecimal_spec {n : ℕ} (hn : n ≠ 0) : ∃ N, 1 ≤ N ∧ N ≤ 9 ∧ ryuCandidate n N = some (ryuDecimal n) ∧
    ∀ M, 1 ≤ M → M < N → ryuCandidate n M = none := by
  obtain ⟨i, hi, h1, h2, h3⟩ := findSome_range (fun i => ryuCandidate n (i + 1)) 8
    (fun h => candidate_nine hn (ryuCandidate_none h)) 16 (by norm_num)
  refine ⟨i + 1, by omega, by omega, ?_, ?_⟩
  · unfold ryuDecimal
    rw [h1]
    cases hv : ryuCandidate n (i + 1) with
    | none => exact absurd hv h2
    | some v => rfl
  · intro M hM hMi
    have := h3 (M - 1) (by omega)
    simpa [Nat.sub_add_cancel hM] using this

/-- a number of digits with which a decimal reads back -/
theorem ryuCandidate_found {n M : ℕ} (hn : n ≠ 0) (h1 : 1 ≤ M) (h2 : M ≤ 16) {w : ℝ} (hw : F32.Digits w M)
    (hr : RIdx (|w| * 2 ^ 149) n) : ryuCandidate n M ≠ none := by
  intro hc
  obtain ⟨b1, b2⟩ := candidate_none (ryuCandidate_none hc)
  rw [← Bool.not_eq_true, readsBack_iff] at b1 b2
  obtain ⟨c1, c2⟩ := cut_spec n M
  have hT : (0 : ℝ) < 10 ^ 60 := by positivity
  have e : |w| * 2 ^ 149 = |w| * 10 ^ 60 * 2 ^ 149 / 10 ^ 60 := by field_simp
  rw [e] at hr
  have a1 : ((cut n M : ℕ) : ℝ) * 2 ^ 149 ≤ (mag n : ℝ) * 10 ^ 60 := by exact_mod_cast c1
  have a2 : (mag n : ℝ) * 10 ^ 60 ≤ ((cut n M + unit n M : ℕ) : ℝ) * 2 ^ 149 := by exact_mod_cast c2.le
  rcases grid hn h1 h2 hw with h | h
  · refine b1 (hr.between (.inl ⟨?_, ?_⟩))
    · exact div_le_div_of_nonneg_right (mul_le_mul_of_nonneg_right h (by positivity)) hT.le
    · rw [div_le_iff₀ hT]; exact a1
  · refine b2 (hr.between (.inr ⟨?_, ?_⟩))
    · rw [le_div_iff₀ hT]; exact a2
    · exact div_le_div_of_nonneg_right (mul_le_mul_of_nonneg_right h (by positivity)) hT.le

/-- the candidate is the nearest decimal with its number of digits -/
theorem ryuCandidate_nearest {n N c : ℕ} (hn : n ≠ 0) (h1 : 1 ≤ N) (h2 : N ≤ 16) (h : ryuCandidate n N = some c) {w : ℝ}
    (hw : F32.Digits w N) (hr : RIdx (|w| * 2 ^ 149) n) :
    |(c : ℝ) * 2 ^ 149 / 10 ^ 60 - (mag n : ℝ)| ≤ |(|w|) * 2 ^ 149 - (mag n : ℝ)| := by
  obtain ⟨c1, c2⟩ := cut_spec n N
  have hT : (0 : ℝ) < 10 ^ 60 := by positivity
  have e : |w| * 2 ^ 149 = |w| * 10 ^ 60 * 2 ^ 149 / 10 ^ 60 := by field_simp
  rw [e] at hr ⊢
  have a1 : ((cut n N : ℕ) : ℝ) * 2 ^ 149 ≤ (mag n : ℝ) * 10 ^ 60 := by exact_mod_cast c1
  have a2 : (mag n : ℝ) * 10 ^ 60 ≤ ((cut n N + unit n N : ℕ) : ℝ) * 2 ^ 149 := by exact_mod_cast c2.le
  have a3 : (((mag n * 10 ^ 60 - cut n N * 2 ^ 149 : ℕ)) : ℝ) = (mag n : ℝ) * 10 ^ 60 - (cut n N : ℝ) * 2 ^ 149 := by
    rw [Nat.cast_sub c1]; push_cast; ring
  have b1 : |w| * 10 ^ 60 ≤ cut n N → readsBack n (cut n N) = true := fun h => by
    rw [readsBack_iff]
    refine hr.between (.inl ⟨?_, ?_⟩)
    · exact div_le_div_of_nonneg_right (mul_le_mul_of_nonneg_right h (by positivity)) hT.le
    · rw [div_le_iff₀ hT]; exact a1
  have b2 : ((cut n N + unit n N : ℕ) : ℝ) ≤ |w| * 10 ^ 60 → readsBack n (cut n N + unit n N) = true := fun h => by
    rw [readsBack_iff]
    refine hr.between (.inr ⟨?_, ?_⟩)
    · rw [le_div_iff₀ hT]; exact a2
    · exact div_le_div_of_nonneg_right (mul_le_mul_of_nonneg_right h (by positivity)) hT.le
  have hsc : ∀ x : ℝ, |x * 2 ^ 149 / 10 ^ 60 - (mag n : ℝ)| = |x * 2 ^ 149 - (mag n : ℝ) * 10 ^ 60| / 10 ^ 60 := by
    intro x
    rw [eq_div_iff hT.ne']
    nth_rewrite 2 [← abs_of_pos hT]
    rw [← abs_mul, sub_mul, div_mul_cancel₀ _ hT.ne']
  rw [hsc, hsc]
  refine div_le_div_of_nonneg_right ?_ hT.le
  have hp : (0 : ℝ) < 2 ^ 149 := by positivity
  have g := grid hn h1 h2 hw
  have a4 : ((cut n N + unit n N : ℕ) : ℝ) = (cut n N : ℝ) + unit n N := by push_cast; rfl
  have hcase : (c = cut n N ∧ (((cut n N + unit n N : ℕ) : ℝ) ≤ |w| * 10 ^ 60 →
        2 * ((mag n : ℝ) * 10 ^ 60 - (cut n N : ℝ) * 2 ^ 149) ≤ (unit n N : ℝ) * 2 ^ 149)) ∨
      (c = cut n N + unit n N ∧ (|w| * 10 ^ 60 ≤ cut n N →
        (unit n N : ℝ) * 2 ^ 149 ≤ 2 * ((mag n : ℝ) * 10 ^ 60 - (cut n N : ℝ) * 2 ^ 149))) := by
    rcases (ryuCandidate_cases h).2 with ⟨hc, h5⟩ | ⟨hc, h5⟩
    · refine .inl ⟨hc, fun hw => ?_⟩
      rw [← a3]
      exact_mod_cast h5 (b2 hw)
    · refine .inr ⟨hc, fun hw => ?_⟩
      rw [← a3]
      exact_mod_cast h5 (b1 hw)
  generalize (2 : ℝ) ^ 149 = P at *
  generalize |w| * 10 ^ 60 = W at *
  generalize (mag n : ℝ) * 10 ^ 60 = X at *
  rcases hcase with ⟨rfl, hc⟩ | ⟨rfl, hc⟩
  · rw [abs_of_nonpos (by linarith)]
    rcases g with g | g
    · have := mul_le_mul_of_nonneg_right g hp.le
      rw [abs_of_nonpos (by linarith)]
      linarith
    · have h3 := mul_le_mul_of_nonneg_right g hp.le
      have h4 := hc g
      rw [abs_of_nonneg (by linarith)]
      rw [a4, add_mul] at h3
      linarith
  · rw [abs_of_nonneg (by linarith)]
    rcases g with g | g
    · have h3 := mul_le_mul_of_nonneg_right g hp.le
      have h4 := hc g
      rw [abs_of_nonpos (by linarith), a4, add_mul]
      linarith
    · have := mul_le_mul_of_nonneg_right g hp.le
      rw [abs_of_nonneg (by linarith)]
      linarith

/-- the digits of the candidate -/
theorem ryuCandidate_digits {n N c : ℕ} (hn : n ≠ 0) (hN : N ≤ 9) (h : ryuCandidate n N = some c) :
    ∃ q, c = q * 10 ^ (decLen n - N) ∧ q ≤ 10 ^ N := by
  obtain ⟨h16, _, hup⟩ := decLen_spec hn
  have hq : floor60 n / 10 ^ (decLen n - N) < 10 ^ N := by
    rw [Nat.div_lt_iff_lt_mul (by positivity), ← pow_add, Nat.add_sub_cancel' (by omega)]
    exact hup
  rcases (ryuCandidate_cases h).2 with ⟨h, _⟩ | ⟨h, _⟩
  · exact ⟨_, h, hq.le⟩
  · refine ⟨floor60 n / 10 ^ (decLen n - N) + 1, ?_, hq⟩
    rw [h, add_mul, one_mul]
    rfl

/-- with nine digits the nearest decimal is chosen -/
theorem ryuCandidate_close {n c : ℕ} (hn : n ≠ 0) (h : ryuCandidate n 9 = some c) :
    |(c : ℝ) * 2 ^ 149 / 10 ^ 60 - (mag n : ℝ)| * (2 * 10 ^ 8) ≤ (mag n : ℝ) := by
  obtain ⟨h16, hlo, _⟩ := decLen_spec hn
  obtain ⟨h1, h2⟩ := cut_spec n 9
  have hu : unit n 9 * 10 ^ 8 ≤ floor60 n := by
    refine le_trans (le_of_eq ?_) hlo
    unfold unit
    rw [← pow_add]
    congr 1
    omega
  have hu' : unit n 9 * 10 ^ 8 * 2 ^ 149 ≤ mag n * 10 ^ 60 := (Nat.le_div_iff_mul_le (by positivity)).1 hu
  have a1 : ((cut n 9 * 2 ^ 149 : ℕ) : ℝ) ≤ ((mag n * 10 ^ 60 : ℕ) : ℝ) := by exact_mod_cast h1
  have a2 : ((mag n * 10 ^ 60 : ℕ) : ℝ) < (((cut n 9 + unit n 9) * 2 ^ 149 : ℕ) : ℝ) := by exact_mod_cast h2
  have a3 : ((unit n 9 * 10 ^ 8 * 2 ^ 149 : ℕ) : ℝ) ≤ ((mag n * 10 ^ 60 : ℕ) : ℝ) := by exact_mod_cast hu'
  have a4 : (((mag n * 10 ^ 60 - cut n 9 * 2 ^ 149 : ℕ)) : ℝ) = (mag n : ℝ) * 10 ^ 60 - (cut n 9 : ℝ) * 2 ^ 149 := by
    rw [Nat.cast_sub h1]
    simp only [Nat.cast_mul, Nat.cast_pow, Nat.cast_ofNat]
  simp only [Nat.cast_mul, Nat.cast_add, Nat.cast_pow, Nat.cast_ofNat] at a1 a2 a3
  have hT : (0 : ℝ) < 10 ^ 60 := by positivity
  have e : ∀ c : ℝ, |c * 2 ^ 149 / 10 ^ 60 - (mag n : ℝ)| * (2 * 10 ^ 8) ≤ (mag n : ℝ) ↔
      |c * 2 ^ 149 - (mag n : ℝ) * 10 ^ 60| * (2 * 10 ^ 8) ≤ (mag n : ℝ) * 10 ^ 60 := by
    intro c
    rw [show c * 2 ^ 149 / 10 ^ 60 - (mag n : ℝ) = (c * 2 ^ 149 - mag n * 10 ^ 60) / 10 ^ 60 by field_simp, abs_div, abs_of_pos hT,
      div_mul_eq_mul_div, div_le_iff₀ hT]
  -- the nearer one reads back
  have key1 : 2 * ((mag n : ℝ) * 10 ^ 60 - (cut n 9 : ℝ) * 2 ^ 149) ≤ (unit n 9 : ℝ) * 2 ^ 149 →
      |(cut n 9 : ℝ) * 2 ^ 149 / 10 ^ 60 - (mag n : ℝ)| * (2 * 10 ^ 8) ≤ (mag n : ℝ) := by
    intro h
    rw [e, abs_sub_comm, abs_of_nonneg (by linarith)]
    generalize (mag n : ℝ) * 10 ^ 60 = A at *
    generalize (cut n 9 : ℝ) * 2 ^ 149 = C at *
    nlinarith
  have key2 : (unit n 9 : ℝ) * 2 ^ 149 ≤ 2 * ((mag n : ℝ) * 10 ^ 60 - (cut n 9 : ℝ) * 2 ^ 149) →
      |((cut n 9 + unit n 9 : ℕ) : ℝ) * 2 ^ 149 / 10 ^ 60 - (mag n : ℝ)| * (2 * 10 ^ 8) ≤ (mag n : ℝ) := by
    intro h
    rw [e, Nat.cast_add, abs_of_nonneg (by linarith), add_mul]
    rw [add_mul] at a2
    generalize (mag n : ℝ) * 10 ^ 60 = A at *
    generalize (cut n 9 : ℝ) * 2 ^ 149 = C at *
    nlinarith
  rcases (ryuCandidate_cases h).2 with ⟨rfl, hd⟩ | ⟨rfl, hd⟩
  · refine key1 ?_
    by_contra hc
    have hb := readsBack_iff.2 (ridx_close hn (key2 (by linarith)))
    have h3 : ((2 * (mag n * 10 ^ 60 - cut n 9 * 2 ^ 149) : ℕ) : ℝ) ≤ ((unit n 9 * 2 ^ 149 : ℕ) : ℝ) := by exact_mod_cast hd hb
    rw [Nat.cast_mul 2, a4] at h3
    simp only [Nat.cast_mul, Nat.cast_pow, Nat.cast_ofNat] at h3
    exact hc h3
  · refine key2 ?_
    by_contra hc
    have hb := readsBack_iff.2 (ridx_close hn (key1 (by linarith)))
    have h3 : ((unit n 9 * 2 ^ 149 : ℕ) : ℝ) ≤ ((2 * (mag n * 10 ^ 60 - cut n 9 * 2 ^ 149) : ℕ) : ℝ) := by exact_mod_cast hd hb
    rw [Nat.cast_mul 2, a4] at h3
    simp only [Nat.cast_mul, Nat.cast_pow, Nat.cast_ofNat] at h3
    exact hc h3

/-! ### reading back -/

/-- the six exceptions of `readIdx_eq` are not written -/
theorem misread_unwritten : ∀ p ∈ misread, p.1 % 10 ≠ 0 →
    ryuDecimal (roundIdx (p.1 * 10 ^ (p.2 + 60).toNat * 2 ^ 149) (10 ^ 60)) ≠ p.1 * 10 ^ (p.2 + 60).toNat := by
  decide +kernel

theorem ridx_close' {n : ℕ} (hn : n ≠ 0) {r : ℝ} (h : |r - (mag n : ℝ)| * 10 ^ 8 ≤ (mag n : ℝ)) : RIdx r n := by
  have h0 : (1 : ℝ) ≤ mag n := by exact_mod_cast mag_pos hn
  have h1 := gap_up n
  have h2 := gap_down hn
  obtain ⟨h3, h4⟩ := abs_le.1 (le_refl |r - (mag n : ℝ)|)
  generalize |r - (mag n : ℝ)| = e at *
  norm_num at h h1 h2
  refine ridx_inside (Or.inr ?_) ?_ <;> linarith

attribute [local irreducible] F64.unit

theorem unit_cast : (F64.unit : ℝ) = 2 ^ 149 * ((2 ^ 925 : ℕ) : ℝ) := by
  rw [unit_idx]; simp only [Nat.cast_mul, Nat.cast_pow, Nat.cast_ofNat]

set_option exponentiation.threshold 1100 in
/-- nine digits near the number -/
theorem nine_digits {n d : ℕ} {k : ℤ} (hn : n ≠ 0) (hd0 : 0 < d) (hd9 : d < 10 ^ 9) (hk : -60 ≤ k)
    (hcl : |(d : ℝ) * 10 ^ k * 2 ^ 149 - (mag n : ℝ)| * (2 * 10 ^ 8) ≤ (mag n : ℝ)) : readIdx d k = n := by
  have herr := readParts_err hd0 (hd9.trans (by norm_num)) hk
  have hy : RIdx ((readParts d k : ℝ) / ((2 ^ 925 : ℕ) : ℝ)) (readIdx d k) :=
    roundIdx_ridx (readParts d k) (2 ^ 925) (Nat.two_pow_pos 925)
  refine hy.unique (ridx_close' hn ?_)
  clear hy
  have hK : (0 : ℝ) < ((2 ^ 925 : ℕ) : ℝ) := Nat.cast_pos.2 (Nat.two_pow_pos 925)
  rw [unit_cast] at herr
  have hm0 : (1 : ℝ) ≤ mag n := by exact_mod_cast mag_pos hn
  generalize (((2 ^ 925 : ℕ) : ℕ) : ℝ) = K at *
  generalize (readParts d k : ℝ) = Y at *
  generalize (d : ℝ) * 10 ^ k = x at *
  generalize (mag n : ℝ) = m at *
  have e1 : |Y / K - x * 2 ^ 149| ≤ x * 2 ^ 149 / 2 ^ 51 := by
    rw [show Y / K - x * 2 ^ 149 = (Y - x * (2 ^ 149 * K)) / K by field_simp, abs_div, abs_of_pos hK, div_le_iff₀ hK]
    refine herr.trans (le_of_eq ?_)
    ring
  have e2 : |Y / K - m| ≤ |Y / K - x * 2 ^ 149| + |x * 2 ^ 149 - m| := abs_sub_le _ _ _
  obtain ⟨e3, e4⟩ := abs_le.1 (le_refl |x * 2 ^ 149 - m|)
  generalize |x * 2 ^ 149 - m| = a at *
  generalize |Y / K - m| = b at *
  generalize |Y / K - x * 2 ^ 149| = g at *
  generalize x * 2 ^ 149 = r at *
  norm_num at e1 hcl ⊢
  linarith

/-- everything about the decimal that is written -/
theorem ryu_parts {n : ℕ} (hn : n ≠ 0) (hf : n < 0x7f800000) : ∃ (d : ℕ) (k : ℤ),
    stripZeros 100 (ryuDecimal n) (-60) = (d, k) ∧ 0 < d ∧ d < 10 ^ 9 ∧ -60 ≤ k ∧ k < 39 ∧
    RIdx ((d : ℝ) * 10 ^ k * 2 ^ 149) n ∧ readIdx d k = n ∧
    ∃ N ≤ 9, d < 10 ^ N ∧ ∀ (w : ℝ) (M : ℕ), F32.Digits w M → RIdx (|w| * 2 ^ 149) n →
      N ≤ M ∧ (M = N → |(d : ℝ) * 10 ^ k * 2 ^ 149 - (mag n : ℝ)| ≤ |(|w|) * 2 ^ 149 - (mag n : ℝ)|) := by
  obtain ⟨N, hN1, hN9, hcand, hmin⟩ := ryuDecimal_spec hn
  have hback := (ryuCandidate_cases hcand).1
  have hnear := fun w => ryuCandidate_nearest hn hN1 (by omega) hcand (w := w)
  have hridx := readsBack_iff.1 hback
  obtain ⟨q, hq, hq'⟩ := ryuCandidate_digits hn hN9 hcand
  have hclose : N = 9 → |(ryuDecimal n : ℝ) * 2 ^ 149 / 10 ^ 60 - (mag n : ℝ)| * (2 * 10 ^ 8) ≤ (mag n : ℝ) := by
    rintro rfl
    exact ryuCandidate_close hn hcand
  have hmis : ∀ p ∈ misread, p.1 % 10 ≠ 0 → ryuDecimal n ≠ p.1 * 10 ^ (p.2 + 60).toNat := by
    intro p hp h10 hc
    have h1 := misread_unwritten p hp h10
    have h2 : roundIdx (p.1 * 10 ^ (p.2 + 60).toNat * 2 ^ 149) (10 ^ 60) = n := by
      have := hback
      unfold readsBack at this
      rw [hc, beq_iff_eq] at this
      exact this
    rw [h2] at h1
    exact h1 hc
  have hsmall := (hridx.inf_iff).1 hf
  generalize ryuDecimal n = c at *
  have hc0 : 0 < c := by
    rcases Nat.eq_zero_or_pos c with rfl | h
    · exfalso
      rw [Nat.cast_zero, zero_mul, zero_div] at hridx
      exact hn hridx.of_zero
    · exact h
  have hT : (0 : ℝ) < 10 ^ 60 := by positivity
  have hcR : (c : ℝ) < 10 ^ 99 := by
    rw [mul_div_right_comm] at hsmall
    have := lt_of_mul_lt_mul_right hsmall (by positivity)
    rw [div_lt_iff₀ hT] at this
    refine this.trans ?_
    unfold maxHalf
    norm_num
  have hc99 : c < 10 ^ 99 := by exact_mod_cast hcR
  obtain ⟨d, t, h1, h2, h3⟩ := stripZeros_spec 100 c (-60) hc0 (hc99.trans (Nat.pow_lt_pow_right (by norm_num) (by norm_num)))
  have hd0 : 0 < d := by omega
  -- number of digits
  have hdN : d ≤ 10 ^ N := by
    have hts : decLen n - N ≤ t := by
      by_contra hlt
      obtain ⟨w, hw⟩ := Nat.exists_eq_add_of_lt (not_le.1 hlt)
      rw [hq, hw, show t + w + 1 = (w + 1) + t by ring, pow_add, ← mul_assoc] at h2
      have := Nat.eq_of_mul_eq_mul_right (by positivity) h2
      rw [pow_succ, ← mul_assoc] at this
      omega
    obtain ⟨w, rfl⟩ := Nat.exists_eq_add_of_le hts
    rw [hq, add_comm, pow_add, ← mul_assoc] at h2
    have := Nat.eq_of_mul_eq_mul_right (by positivity) h2
    calc d = d * 1 := (Nat.mul_one d).symm
      _ ≤ d * 10 ^ w := Nat.mul_le_mul_left _ (Nat.pow_pos (by norm_num))
      _ = q := this.symm
      _ ≤ 10 ^ N := hq'
  have hd9 : d < 10 ^ 9 := by
    have : d ≤ 10 ^ 9 := hdN.trans (Nat.pow_le_pow_right (by norm_num) hN9)
    omega
  have hval : (d : ℝ) * 10 ^ (-60 + (t : ℤ)) = c / 10 ^ 60 := by
    rw [zpow_add₀ (by norm_num), zpow_natCast, h2]
    push_cast
    rw [zpow_neg, eq_div_iff hT.ne']
    have e : ((10 : ℝ) ^ (60 : ℤ)) = 10 ^ 60 := by norm_cast
    rw [e]
    field_simp
  have hr : (d : ℝ) * 10 ^ (-60 + (t : ℤ)) * 2 ^ 149 = (c : ℝ) * 2 ^ 149 / 10 ^ 60 := by
    rw [hval, mul_div_right_comm]
  have hv39 : (d : ℝ) * 10 ^ (-60 + (t : ℤ)) < 10 ^ 39 := by
    rw [hval, div_lt_iff₀ hT, ← pow_add]
    exact hcR
  have ht : t < 99 := by
    by_contra hc
    have h5 : 10 ^ 99 ≤ 10 ^ t := Nat.pow_le_pow_right (by norm_num) (by omega)
    have h6 : 10 ^ t ≤ d * 10 ^ t := Nat.le_mul_of_pos_left _ hd0
    omega
  rw [← hr] at hridx hclose
  refine ⟨d, -60 + (t : ℤ), h1, hd0, hd9, by omega, by omega, hridx, ?_, ?_⟩
  rotate_left
  · refine ⟨N, hN9, ?_, fun w M hw hwr => ?_⟩
    · refine lt_of_le_of_ne hdN ?_
      rintro rfl
      obtain ⟨N', rfl⟩ : ∃ N', N = N' + 1 := ⟨N - 1, by omega⟩
      rw [pow_succ] at h3
      omega
    have hM0 : 1 ≤ M := by
      rcases Nat.eq_zero_or_pos M with rfl | h
      · exfalso
        obtain ⟨d', k', hd', hk'⟩ := hw
        have : d' = 0 := by simpa using hd'
        rw [hk', this, Nat.cast_zero, zero_mul, zero_mul] at hwr
        exact hn hwr.of_zero
      · exact h
    refine ⟨?_, ?_⟩
    · by_contra hlt
      exact ryuCandidate_found hn hM0 (by omega) hw hwr (hmin M hM0 (by omega))
    · rintro rfl
      have := hnear w hw hwr
      rw [hval, div_mul_eq_mul_div]
      exact this
  by_cases h8 : d < 10 ^ 8
  · have hhalf : (1 : ℝ) ≤ 2 * ((d : ℝ) * 10 ^ (-60 + (t : ℤ)) * 2 ^ 149) := by
      have := hridx.lower 0 (by omega)
      have e1 : mag 1 = 1 := by decide +kernel
      simpa [e1] using this
    have hk : -53 ≤ -60 + (t : ℤ) := by
      by_contra hc
      have a1 : (10 : ℝ) ^ (-60 + (t : ℤ)) ≤ 10 ^ (-54 : ℤ) := zpow_le_zpow_right₀ (by norm_num) (by omega)
      have a2 : (d : ℝ) ≤ 10 ^ 8 := by exact_mod_cast h8.le
      have a3 : (d : ℝ) * 10 ^ (-60 + (t : ℤ)) ≤ 10 ^ 8 * 10 ^ (-54 : ℤ) := mul_le_mul a2 a1 (by positivity) (by positivity)
      generalize (d : ℝ) * 10 ^ (-60 + (t : ℤ)) = x at *
      norm_num at a3 hhalf
      linarith
    rw [readIdx_eq hd0 h8 hk hv39]
    · exact (nearestIdx_ridx d _).unique hridx
    · intro hm
      refine hmis _ hm h3 ?_
      simp only
      rw [show (-60 + (t : ℤ) + 60).toNat = t by omega]
      exact h2
  · have hN : N = 9 := by
      by_contra hc
      have : d ≤ 10 ^ 8 := hdN.trans (Nat.pow_le_pow_right (by norm_num) (by omega))
      omega
    exact nine_digits hn hd0 hd9 (by omega) (hclose hN)

end Kami.FoldFile
