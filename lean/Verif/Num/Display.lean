import Verif.Num.F32Round
import Mathlib.Data.List.DropRight
/-!
# Printing an f32

Model of `Display` for `f32` (`core::fmt::float`, the shortest digits that read back as the same number, never with an
exponent), which the examples use through `to_string` and `format!` for every SVG attribute
(examples/simple_polygons/src/shared.rs:20-22, 44, 66-68, 82-85).

Decimals are counted in units of `10^-60`, which divide every decimal that is ever tried.
-/

set_option autoImplicit false

namespace Kami.F32

/-- the number with index `n` in units of `10^-60`, rounded down -/
def floor60 (n : Nat) : Nat := mag n * 10 ^ 60 / 2 ^ 149

/-- number of decimal digits of `floor60` -/
def decLen (n : Nat) : Nat := (Nat.toDigits 10 (floor60 n)).length

/-- does `c * 10^-60` read back as the number with index `n`? -/
def readsBack (n c : Nat) : Bool := roundIdx (c * 2 ^ 149) (10 ^ 60) == n

/-- `core::num::flt2dec`, shortest mode, stopped after `N` digits: the digits cut off, or the next decimal, whichever reads
back; if both do, the nearer one -/
def candidate (n N : Nat) : Option Nat :=
  let step := 10 ^ (decLen n - N)
  let lo := floor60 n / step * step
  let hi := lo + step
  if readsBack n lo then
    if readsBack n hi then
      if step * 2 ^ 149 ≤ 2 * (mag n * 10 ^ 60 - lo * 2 ^ 149) then some hi else some lo
    else some lo
  else if readsBack n hi then some hi
  else none

/-- `core::num::flt2dec`, shortest mode: the first number of digits that works -/
def shortest (n : Nat) : Nat := ((List.range 16).findSome? fun i => candidate n (i + 1)).getD 0

/-- the last `k` decimal digits of `n` -/
def lastDigits : (k n : Nat) → List Char
  | 0, _ => []
  | k + 1, n => lastDigits k (n / 10) ++ [Nat.digitChar (n % 10)]

/-- `core::num::flt2dec::digits_to_dec_str`: integer digits, and fraction digits if there are any -/
def decimalChars (c : Nat) : List Char :=
  Nat.toDigits 10 (c / 10 ^ 60) ++
    if c % 10 ^ 60 = 0 then [] else '.' :: (lastDigits 60 (c % 10 ^ 60)).rdropWhile (· == '0')

/-- `impl Display for f32`, with default formatting options.  `signedZero`: Rust 1.53 and later print `-0`, earlier
versions `0`. -/
def display (signedZero : Bool) : F32 → String
  | nan => "NaN"
  | inf s => if s then "-inf" else "inf"
  | fin s n => String.ofList ((if s && (n.val != 0 || signedZero) then ['-'] else []) ++
      if n.val = 0 then ['0'] else decimalChars (shortest n))

/-! ### Specification: the value of a decimal -/

/-- the digits after the point, `scale` being the value of the next one -/
def readFraction (acc scale : ℚ) : List Char → Option ℚ
  | [] => some acc
  | c :: cs => if c.isDigit then readFraction (acc + (c.toNat - 48 : ℕ) * scale) (scale / 10) cs else none

/-- the digits before the point -/
def readWhole (acc : ℚ) : List Char → Option ℚ
  | [] => some acc
  | c :: cs =>
    if c.isDigit then readWhole (10 * acc + (c.toNat - 48 : ℕ)) cs
    else if c = '.' ∧ cs ≠ [] then readFraction acc (1 / 10) cs else none

/-- the value of `-?[0-9]+(.[0-9]+)?` -/
def readDecimal (s : String) : Option ℚ :=
  match s.toList with
  | '-' :: c :: cs => if c.isDigit then (readWhole 0 (c :: cs)).map fun v => -v else none
  | c :: cs => if c.isDigit then readWhole 0 (c :: cs) else none
  | [] => none

example : display true (lit 500) = "500" := by decide +kernel
example : display true (lit (-1) 10) = "-0.1" := by decide +kernel
example : display true (lit 1 3) = "0.33333334" := by decide +kernel
example : display true (ofBits 1) = "0.000000000000000000000000000000000000000000001" := by decide +kernel
example : display true (ofBits 0x7f7fffff) = "340282350000000000000000000000000000000" := by decide +kernel
example : display true (lit 16777216) = "16777216" := by decide +kernel
example : display true (lit 123456789) = "123456790" := by decide +kernel
example : display true (ofBits 0x34000000) = "0.00000011920929" := by decide +kernel

/-! ### Reading back -/

theorem readFraction_append (l l' : List Char) : ∀ acc scale : ℚ, (∀ c ∈ l, c.isDigit = true) →
    readFraction acc scale (l ++ l') =
      readFraction (acc + (Nat.ofDigitChars 10 l 0 : ℕ) * scale * 10 / 10 ^ l.length) (scale / 10 ^ l.length) l' := by
  induction l using List.reverseRecOn generalizing l' with
  | nil => intro acc scale _; simp [Nat.ofDigitChars]
  | append_singleton l c ih =>
    intro acc scale h
    rw [List.append_assoc, ih _ acc scale (fun c hc => h c (by simp [hc]))]
    have hc := h c (by simp)
    simp only [List.cons_append, List.nil_append, readFraction, hc, if_true]
    rw [Nat.ofDigitChars_append]
    have e : (Nat.ofDigitChars 10 [c] (Nat.ofDigitChars 10 l 0) : ℕ) = 10 * Nat.ofDigitChars 10 l 0 + (c.toNat - 48) := by
      simp [Nat.ofDigitChars_cons]
    rw [e]
    simp only [List.length_append, List.length_singleton, pow_succ]
    congr 1
    · push_cast
      field_simp
      ring
    · field_simp

theorem readWhole_append (l l' : List Char) : ∀ acc : ℕ, (∀ c ∈ l, c.isDigit = true) →
    readWhole acc (l ++ l') = readWhole (Nat.ofDigitChars 10 l acc : ℕ) l' := by
  induction l with
  | nil => intro acc _; simp [Nat.ofDigitChars]
  | cons c l ih =>
    intro acc h
    have hc := h c (by simp)
    simp only [List.cons_append, readWhole, hc, if_true]
    have := ih (10 * acc + (c.toNat - 48)) (fun c hc => h c (by simp [hc]))
    push_cast at this ⊢
    rw [this]
    simp [Nat.ofDigitChars_cons]

theorem lastDigits_digits : ∀ k n, (lastDigits k n).length = k ∧ (∀ c ∈ lastDigits k n, c.isDigit = true) ∧
    Nat.ofDigitChars 10 (lastDigits k n) 0 = n % 10 ^ k := by
  intro k
  induction k with
  | zero => intro n; simp [lastDigits, Nat.ofDigitChars, Nat.mod_one]
  | succ k ih =>
    intro n
    obtain ⟨h1, h2, h3⟩ := ih (n / 10)
    have hlt : n % 10 < 10 := Nat.mod_lt _ (by norm_num)
    refine ⟨by simp [lastDigits, h1], ?_, ?_⟩
    · intro c hc
      simp only [lastDigits, List.mem_append, List.mem_singleton] at hc
      rcases hc with hc | rfl
      · exact h2 c hc
      · rw [Nat.isDigit_digitChar]; simpa using hlt
    · simp only [lastDigits]
      rw [Nat.ofDigitChars_append, h3]
      have e : Nat.ofDigitChars 10 [Nat.digitChar (n % 10)] (n / 10 % 10 ^ k) = 10 * (n / 10 % 10 ^ k) + n % 10 := by
        rw [Nat.ofDigitChars_cons]
        simp only [Nat.ofDigitChars, List.foldl_nil]
        congr 1
        generalize n % 10 = d at hlt
        interval_cases d <;> rfl
      rw [e, pow_succ, mul_comm (10 ^ k) 10, Nat.mod_mul]
      omega

theorem rdropWhile_zeros (l : List Char) : ∃ k, l = l.rdropWhile (· == '0') ++ List.replicate k '0' := by
  induction l using List.reverseRecOn with
  | nil => exact ⟨0, rfl⟩
  | append_singleton l c ih =>
    by_cases hc : (c == '0') = true
    · obtain ⟨k, hk⟩ := ih
      refine ⟨k + 1, ?_⟩
      rw [List.rdropWhile_concat, if_pos hc, List.replicate_succ', ← List.append_assoc, ← hk, beq_iff_eq.1 hc]
    · exact ⟨0, by rw [List.rdropWhile_concat, if_neg hc]; simp⟩

/-- the digits printed for `c * 10^-60` have the value `c * 10^-60` -/
theorem readWhole_decimalChars (c : ℕ) : readWhole 0 (decimalChars c) = some ((c : ℚ) / 10 ^ 60) := by
  have hd : ∀ d ∈ Nat.toDigits 10 (c / 10 ^ 60), d.isDigit = true := fun d hd =>
    Nat.isDigit_of_mem_toDigits (by norm_num) (by norm_num) hd
  have h0 := readWhole_append (Nat.toDigits 10 (c / 10 ^ 60))
    (if c % 10 ^ 60 = 0 then [] else '.' :: (lastDigits 60 (c % 10 ^ 60)).rdropWhile (· == '0')) 0 hd
  rw [Nat.cast_zero] at h0
  unfold decimalChars
  rw [h0, Nat.ofDigitChars_ten_toDigits]
  have hsplit : (c : ℚ) = 10 ^ 60 * (c / 10 ^ 60 : ℕ) + (c % 10 ^ 60 : ℕ) := by
    exact_mod_cast (Nat.div_add_mod c (10 ^ 60)).symm
  by_cases hf : c % 10 ^ 60 = 0
  · rw [if_pos hf, readWhole]
    rw [hf, Nat.cast_zero, add_zero] at hsplit
    rw [hsplit, mul_div_cancel_left₀ _ (by positivity)]
  · rw [if_neg hf]
    obtain ⟨hl, hdig, hval⟩ := lastDigits_digits 60 (c % 10 ^ 60)
    rw [Nat.mod_mod] at hval
    generalize lastDigits 60 (c % 10 ^ 60) = D at hl hdig hval ⊢
    obtain ⟨k, hk⟩ := rdropWhile_zeros D
    generalize D.rdropWhile (· == '0') = l at hk ⊢
    subst hk
    rw [Nat.ofDigitChars_append, Nat.ofDigitChars_replicate_zero] at hval
    have hne : l ≠ [] := by
      rintro rfl
      rw [Nat.ofDigitChars_nil, Nat.mul_zero] at hval
      exact hf hval.symm
    rw [readWhole, if_neg (by decide), if_pos ⟨rfl, hne⟩]
    have := readFraction_append l [] (c / 10 ^ 60 : ℕ) (1 / 10) (fun c hc => hdig c (by simp [hc]))
    rw [List.append_nil] at this
    rw [this, readFraction]
    congr 1
    have hlk : l.length + k = 60 := by simpa using hl
    have hv : ((c % 10 ^ 60 : ℕ) : ℚ) = 10 ^ k * (Nat.ofDigitChars 10 l 0 : ℕ) := by rw [← hval]; push_cast; rfl
    have hp : (10 : ℚ) ^ 60 = 10 ^ l.length * 10 ^ k := by rw [← pow_add, hlk]
    rw [hv] at hsplit
    generalize (c / 10 ^ 60 : ℕ) = a at *
    rw [hsplit, hp]
    field_simp

theorem decimalChars_head (c : ℕ) : ∃ d l, decimalChars c = d :: l ∧ d.isDigit = true := by
  cases h : Nat.toDigits 10 (c / 10 ^ 60) with
  | nil => exact absurd h Nat.toDigits_ne_nil
  | cons d l =>
    refine ⟨d, l ++ _, by unfold decimalChars; rw [h]; rfl, ?_⟩
    exact Nat.isDigit_of_mem_toDigits (b := 10) (n := c / 10 ^ 60) (by norm_num) (by norm_num) (by rw [h]; simp)

/-- characters of a printed decimal -/
theorem mem_decimalChars {c : ℕ} {d : Char} (h : d ∈ decimalChars c) : d.isDigit = true ∨ d = '.' := by
  unfold decimalChars at h
  rcases List.mem_append.1 h with h | h
  · exact Or.inl (Nat.isDigit_of_mem_toDigits (by norm_num) (by norm_num) h)
  · by_cases hf : c % 10 ^ 60 = 0
    · rw [if_pos hf] at h; cases h
    · rw [if_neg hf] at h
      rcases List.mem_cons.1 h with h | h
      · exact Or.inr h
      · exact Or.inl ((lastDigits_digits 60 (c % 10 ^ 60)).2.1 d ((List.rdropWhile_prefix _ _).mem h))

/-! ### Nine digits are enough -/

theorem gap_above (n : ℕ) : mag n + 2 ^ (n / 2 ^ 23 - 1) ≤ 2 ^ 24 * 2 ^ (n / 2 ^ 23 - 1) := by
  unfold mag
  have h : n - 2 ^ 23 * (n / 2 ^ 23 - 1) + 1 ≤ 2 ^ 24 := by
    have := Nat.div_add_mod n (2 ^ 23)
    have := Nat.mod_lt n (show 2 ^ 23 > 0 by norm_num)
    omega
  calc _ = (n - 2 ^ 23 * (n / 2 ^ 23 - 1) + 1) * 2 ^ (n / 2 ^ 23 - 1) := by ring
    _ ≤ _ := Nat.mul_le_mul_right _ h

/-- the grid is not finer than `2^-24` of the value, upwards and downwards -/
theorem gap_up (n : ℕ) : (mag n : ℝ) ≤ 2 ^ 24 * ((mag (n + 1) : ℝ) - mag n) := by
  have h := gap_above n
  rw [mag_succ]
  have h' : ((mag n + 2 ^ (n / 2 ^ 23 - 1) : ℕ) : ℝ) ≤ ((2 ^ 24 * 2 ^ (n / 2 ^ 23 - 1) : ℕ) : ℝ) := by exact_mod_cast h
  push_cast at h' ⊢
  have : (0 : ℝ) < 2 ^ (n / 2 ^ 23 - 1) := by positivity
  linarith

theorem gap_down {n : ℕ} (hn : n ≠ 0) : (mag n : ℝ) ≤ 2 ^ 24 * ((mag n : ℝ) - mag (n - 1)) := by
  obtain ⟨k, rfl⟩ : ∃ k, n = k + 1 := ⟨n - 1, by omega⟩
  have h := gap_above k
  rw [Nat.add_sub_cancel, mag_succ]
  have h' : ((mag k + 2 ^ (k / 2 ^ 23 - 1) : ℕ) : ℝ) ≤ ((2 ^ 24 * 2 ^ (k / 2 ^ 23 - 1) : ℕ) : ℝ) := by exact_mod_cast h
  push_cast at h' ⊢
  linarith

theorem readsBack_iff {n c : ℕ} : readsBack n c = true ↔ RIdx ((c : ℝ) * 2 ^ 149 / 10 ^ 60) n := by
  unfold readsBack
  rw [beq_iff_eq]
  have h := roundIdx_ridx (c * 2 ^ 149) (10 ^ 60) (by positivity)
  have e : ((c * 2 ^ 149 : ℕ) : ℝ) / ((10 ^ 60 : ℕ) : ℝ) = (c : ℝ) * 2 ^ 149 / 10 ^ 60 := by
    simp only [Nat.cast_mul, Nat.cast_pow, Nat.cast_ofNat]
  rw [e] at h
  exact ⟨fun hn => hn ▸ h, fun hn => h.unique hn⟩

theorem RIdx.mono {r r' : ℝ} {n n' : ℕ} (h : RIdx r n) (h' : RIdx r' n') (hr : r ≤ r') : n ≤ n' := by
  by_contra hc
  have h1 := (h n').1 (by omega)
  have h2 : n' + 1 ≤ n' := (h' n').2 (by
    rcases h1 with h1 | ⟨h1, h2⟩
    · exact Or.inl (by linarith)
    · rcases hr.lt_or_eq with h3 | h3
      · exact Or.inl (by linarith)
      · exact Or.inr ⟨by rw [h1, h3], h2⟩)
  omega

/-- what reads back is an interval -/
theorem RIdx.between {r r' : ℝ} {n : ℕ} (h : RIdx r n) (hr : (r ≤ r' ∧ r' ≤ mag n) ∨ (mag n ≤ r' ∧ r' ≤ r)) : RIdx r' n := by
  have hm := ridx_mag n
  intro m
  rcases hr with ⟨h1, h2⟩ | ⟨h1, h2⟩
  · constructor
    · intro hmn
      rcases (h m).1 hmn with h3 | ⟨h3, h4⟩
      · exact Or.inl (by linarith)
      · rcases h1.lt_or_eq with h5 | h5
        · exact Or.inl (by linarith)
        · exact Or.inr ⟨by rw [h3, h5], h4⟩
    · intro hc
      refine (hm m).2 ?_
      rcases hc with h3 | ⟨h3, h4⟩
      · exact Or.inl (by linarith)
      · rcases h2.lt_or_eq with h5 | h5
        · exact Or.inl (by linarith)
        · exact Or.inr ⟨by rw [h3, h5], h4⟩
  · constructor
    · intro hmn
      rcases (hm m).1 hmn with h3 | ⟨h3, h4⟩
      · exact Or.inl (by linarith)
      · rcases h1.lt_or_eq with h5 | h5
        · exact Or.inl (by linarith)
        · exact Or.inr ⟨by rw [h3, h5], h4⟩
    · intro hc
      refine (h m).2 ?_
      rcases hc with h3 | ⟨h3, h4⟩
      · exact Or.inl (by linarith)
      · rcases h2.lt_or_eq with h5 | h5
        · exact Or.inl (by linarith)
        · exact Or.inr ⟨by rw [h3, h5], h4⟩

theorem mag_pos {n : ℕ} (hn : n ≠ 0) : 1 ≤ mag n := Nat.one_le_iff_ne_zero.2 (fun h => hn (mag_eq_zero.1 h))

/-- decimals very near a number read back as that number -/
theorem ridx_close {n : ℕ} (hn : n ≠ 0) {r : ℝ} (h : |r - mag n| * (2 * 10 ^ 8) ≤ mag n) : RIdx r n := by
  have h0 : (1 : ℝ) ≤ mag n := by exact_mod_cast mag_pos hn
  have h1 := gap_up n
  have h2 := gap_down hn
  obtain ⟨h3, h4⟩ := abs_le.1 (le_refl |r - (mag n : ℝ)|)
  generalize |r - (mag n : ℝ)| = e at *
  norm_num at h h1 h2
  refine ridx_inside (Or.inr ?_) ?_ <;> linarith

theorem ten_le : (10 : ℕ) ^ 15 * 2 ^ 149 ≤ 10 ^ 60 := by norm_num

theorem decLen_spec {n : ℕ} (hn : n ≠ 0) :
    16 ≤ decLen n ∧ 10 ^ (decLen n - 1) ≤ floor60 n ∧ floor60 n < 10 ^ decLen n := by
  have hq : 10 ^ 15 ≤ floor60 n := by
    unfold floor60
    rw [Nat.le_div_iff_mul_le (by positivity)]
    exact ten_le.trans (Nat.le_mul_of_pos_left _ (mag_pos hn))
  have key : ∀ k, 0 < k → (decLen n ≤ k ↔ floor60 n < 10 ^ k) := fun k hk =>
    Nat.length_toDigits_le_iff (by norm_num) hk
  have h16 : 16 ≤ decLen n := by
    by_contra hc
    have := (key 15 (by norm_num)).1 (by omega)
    omega
  refine ⟨h16, ?_, (key _ (by omega)).1 le_rfl⟩
  by_contra hc
  have := (key (decLen n - 1) (by omega)).2 (by omega)
  omega

/-- the decimal cut off after `N` digits -/
def cut (n N : ℕ) : ℕ := floor60 n / 10 ^ (decLen n - N) * 10 ^ (decLen n - N)

/-- one unit in the `N`-th digit -/
def unit (n N : ℕ) : ℕ := 10 ^ (decLen n - N)

theorem cut_spec (n N : ℕ) : cut n N * 2 ^ 149 ≤ mag n * 10 ^ 60 ∧ mag n * 10 ^ 60 < (cut n N + unit n N) * 2 ^ 149 := by
  have h1 : cut n N ≤ floor60 n := Nat.div_mul_le_self _ _
  have h2 : floor60 n < cut n N + unit n N := by
    have := Nat.lt_div_mul_add (a := floor60 n) (b := 10 ^ (decLen n - N)) (by positivity)
    exact this
  unfold floor60 at h1 h2
  have hB : 0 < 2 ^ 149 := by positivity
  exact ⟨(Nat.le_div_iff_mul_le hB).1 h1, (Nat.div_lt_iff_lt_mul hB).1 h2⟩

theorem candidate_eq (n N : ℕ) : candidate n N =
    if readsBack n (cut n N) then
      if readsBack n (cut n N + unit n N) then
        if unit n N * 2 ^ 149 ≤ 2 * (mag n * 10 ^ 60 - cut n N * 2 ^ 149) then some (cut n N + unit n N) else some (cut n N)
      else some (cut n N)
    else if readsBack n (cut n N + unit n N) then some (cut n N + unit n N)
    else none := rfl

theorem candidate_cases {n N c : ℕ} (h : candidate n N = some c) :
    readsBack n c = true ∧ (c = cut n N ∨ c = cut n N + unit n N) := by
  rw [candidate_eq] at h
  by_cases h1 : readsBack n (cut n N) = true
  · by_cases h2 : readsBack n (cut n N + unit n N) = true
    · by_cases h3 : unit n N * 2 ^ 149 ≤ 2 * (mag n * 10 ^ 60 - cut n N * 2 ^ 149)
      · simp only [h1, h2, h3, ↓reduceIte, Option.some.injEq] at h
        exact ⟨h ▸ h2, Or.inr h.symm⟩
      · simp only [h1, h2, h3, ↓reduceIte, Option.some.injEq] at h
        exact ⟨h ▸ h1, Or.inl h.symm⟩
    · simp only [h1, h2, ↓reduceIte, Option.some.injEq, Bool.false_eq_true] at h
      exact ⟨h ▸ h1, Or.inl h.symm⟩
  · by_cases h2 : readsBack n (cut n N + unit n N) = true
    · simp only [h1, h2, ↓reduceIte, Option.some.injEq, Bool.false_eq_true] at h
      exact ⟨h ▸ h2, Or.inr h.symm⟩
    · simp only [h1, h2, ↓reduceIte, Bool.false_eq_true, reduceCtorEq] at h

theorem candidate_none {n N : ℕ} (h : candidate n N = none) :
    readsBack n (cut n N) = false ∧ readsBack n (cut n N + unit n N) = false := by
  rw [candidate_eq] at h
  by_cases h1 : readsBack n (cut n N) = true
  · by_cases h2 : readsBack n (cut n N + unit n N) = true
    · by_cases h3 : unit n N * 2 ^ 149 ≤ 2 * (mag n * 10 ^ 60 - cut n N * 2 ^ 149) <;>
        simp only [h1, h2, h3, ↓reduceIte, reduceCtorEq] at h
    · simp only [h1, h2, ↓reduceIte, Bool.false_eq_true, reduceCtorEq] at h
  · by_cases h2 : readsBack n (cut n N + unit n N) = true
    · simp only [h1, h2, ↓reduceIte, Bool.false_eq_true, reduceCtorEq] at h
    · exact ⟨by simpa using h1, by simpa using h2⟩

theorem candidate_nine {n : ℕ} (hn : n ≠ 0) : candidate n 9 ≠ none := by
  intro hc
  obtain ⟨c1, c2⟩ := candidate_none hc
  obtain ⟨h16, hlo, _⟩ := decLen_spec hn
  obtain ⟨h1, h2⟩ := cut_spec n 9
  have hu : unit n 9 * 10 ^ 8 ≤ floor60 n := by
    refine le_trans (le_of_eq ?_) hlo
    unfold unit
    rw [← pow_add]
    congr 1
    omega
  have hu' : unit n 9 * 10 ^ 8 * 2 ^ 149 ≤ mag n * 10 ^ 60 := (Nat.le_div_iff_mul_le (by positivity)).1 hu
  have a1 : ((cut n 9 * 2 ^ 149 : ℕ) : ℝ) ≤ ((mag n * 10 ^ 60 : ℕ) : ℝ) := by exact_mod_cast h1
  have a2 : ((mag n * 10 ^ 60 : ℕ) : ℝ) < (((cut n 9 + unit n 9) * 2 ^ 149 : ℕ) : ℝ) := by exact_mod_cast h2
  have a3 : ((unit n 9 * 10 ^ 8 * 2 ^ 149 : ℕ) : ℝ) ≤ ((mag n * 10 ^ 60 : ℕ) : ℝ) := by exact_mod_cast hu'
  simp only [Nat.cast_mul, Nat.cast_add, Nat.cast_pow, Nat.cast_ofNat] at a1 a2 a3
  have hT : (0 : ℝ) < 10 ^ 60 := by positivity
  rw [← Bool.not_eq_true, readsBack_iff] at c1 c2
  have e : ∀ c : ℝ, c * 2 ^ 149 / 10 ^ 60 - mag n = (c * 2 ^ 149 - mag n * 10 ^ 60) / 10 ^ 60 := by
    intro c; field_simp
  have key : ∀ c : ℝ, |c * 2 ^ 149 - (mag n : ℝ) * 10 ^ 60| * (2 * 10 ^ 8) ≤ (mag n : ℝ) * 10 ^ 60 → RIdx (c * 2 ^ 149 / 10 ^ 60) n := by
    intro c hc
    refine ridx_close hn ?_
    rw [e, abs_div, abs_of_pos hT, div_mul_eq_mul_div, div_le_iff₀ hT]
    exact hc
  rcases le_total (2 * ((mag n : ℝ) * 10 ^ 60 - (cut n 9 : ℝ) * 2 ^ 149)) ((unit n 9 : ℝ) * 2 ^ 149) with h | h
  · refine c1 (key _ ?_)
    rw [abs_sub_comm, abs_of_nonneg (by linarith)]
    generalize (mag n : ℝ) * 10 ^ 60 = A at *
    generalize (cut n 9 : ℝ) * 2 ^ 149 = C at *
    nlinarith
  · refine c2 (key _ ?_)
    rw [Nat.cast_add, abs_of_nonneg (by linarith), add_mul]
    rw [add_mul] at a2
    generalize (mag n : ℝ) * 10 ^ 60 = A at *
    generalize (cut n 9 : ℝ) * 2 ^ 149 = C at *
    nlinarith

theorem findSome_range (f : ℕ → Option ℕ) (k : ℕ) (hk : f k ≠ none) : ∀ m, k < m →
    ∃ i ≤ k, (List.range m).findSome? f = f i ∧ f i ≠ none ∧ ∀ j < i, f j = none := by
  induction k using Nat.strong_induction_on with
  | _ k ih =>
    intro m hm
    by_cases h : ∃ j < k, f j ≠ none
    · obtain ⟨j, hj, hfj⟩ := h
      obtain ⟨i, hi, h1, h2, h3⟩ := ih j hj hfj m (by omega)
      exact ⟨i, by omega, h1, h2, h3⟩
    · push Not at h
      refine ⟨k, le_rfl, ?_, hk, h⟩
      obtain ⟨t, rfl⟩ : ∃ t, m = k + (t + 1) := ⟨m - k - 1, by omega⟩
      rw [List.range_add, List.findSome?_append]
      have h1 : (List.range k).findSome? f = none := by
        rw [List.findSome?_eq_none_iff]
        intro x hx
        exact h x (List.mem_range.1 hx)
      rw [h1, List.range_succ_eq_map]
      cases hv : f k with
      | none => exact absurd hv hk
      | some v => simp [hv]

/-- the search stops at the first number of digits that works -/
theorem shortest_spec {n : ℕ} (hn : n ≠ 0) : ∃ N, 1 ≤ N ∧ N ≤ 9 ∧ candidate n N = some (shortest n) ∧
    ∀ M, 1 ≤ M → M < N → candidate n M = none := by
  obtain ⟨i, hi, h1, h2, h3⟩ := findSome_range (fun i => candidate n (i + 1)) 8 (candidate_nine hn) 16 (by norm_num)
  refine ⟨i + 1, by omega, by omega, ?_, ?_⟩
  · unfold shortest
    rw [h1]
    cases hv : candidate n (i + 1) with
    | none => exact absurd hv h2
    | some v => rfl
  · intro M hM hMi
    have := h3 (M - 1) (by omega)
    simpa [Nat.sub_add_cancel hM] using this

/-! ### Shortest and nearest -/

/-- `w` is a decimal with at most `M` significant digits -/
def Digits (w : ℝ) (M : ℕ) : Prop := ∃ (d : ℕ) (k : ℤ), d < 10 ^ M ∧ |w| = d * 10 ^ k

/-- there is no decimal of at most `N` digits strictly between the two candidates -/
theorem grid {n N : ℕ} (hn : n ≠ 0) (h1 : 1 ≤ N) (h2 : N ≤ 16) {w : ℝ} (hw : Digits w N) :
    |w| * 10 ^ 60 ≤ cut n N ∨ (cut n N + unit n N : ℕ) ≤ |w| * 10 ^ 60 := by
  obtain ⟨d, k, hd, hk⟩ := hw
  obtain ⟨h16, hlo, hhi⟩ := decLen_spec hn
  have hv : |w| * 10 ^ 60 = d * (10 : ℝ) ^ (k + 60) := by
    rw [hk, zpow_add₀ (by norm_num), mul_assoc]
    rfl
  have hten : (0 : ℝ) < 10 := by norm_num
  rw [hv]
  rcases le_or_gt ((decLen n - N : ℕ) : ℤ) (k + 60) with hc | hc
  · obtain ⟨j, hj⟩ := Int.le.dest hc
    have hz : (d : ℝ) * (10 : ℝ) ^ (k + 60) = ((d * 10 ^ j * unit n N : ℕ) : ℝ) := by
      rw [← hj, zpow_add₀ hten.ne', zpow_natCast, zpow_natCast]
      unfold unit
      push_cast
      ring
    rw [hz]
    rcases le_or_gt (d * 10 ^ j) (floor60 n / 10 ^ (decLen n - N)) with h | h
    · left
      exact_mod_cast Nat.mul_le_mul_right _ h
    · right
      have : cut n N + unit n N = (floor60 n / 10 ^ (decLen n - N) + 1) * unit n N := by
        unfold cut unit
        ring
      rw [this]
      exact_mod_cast Nat.mul_le_mul_right _ h
  · left
    have hz : (d : ℝ) * (10 : ℝ) ^ (k + 60) ≤ 10 ^ (decLen n - 1) := by
      calc (d : ℝ) * (10 : ℝ) ^ (k + 60) ≤ 10 ^ N * (10 : ℝ) ^ (((decLen n - N : ℕ) : ℤ) - 1) := by
            refine mul_le_mul (by exact_mod_cast hd.le) (zpow_le_zpow_right₀ (by norm_num) (by omega)) (by positivity)
              (by positivity)
        _ = 10 ^ (decLen n - 1) := by
            rw [← zpow_natCast, ← zpow_natCast, ← zpow_add₀ hten.ne']
            congr 1
            omega
    refine hz.trans ?_
    have h3 : 10 ^ (decLen n - 1) ≤ cut n N := by
      unfold cut
      have hp : 10 ^ (decLen n - 1) = 10 ^ (N - 1) * 10 ^ (decLen n - N) := by
        rw [← pow_add]; congr 1; omega
      rw [hp]
      refine Nat.mul_le_mul_right _ ?_
      rw [Nat.le_div_iff_mul_le (by positivity), ← hp]
      exact hlo
    exact_mod_cast h3

/-- rounding to a number that is not zero -/
theorem RoundsTo.ridx {v : ℝ} {s : Bool} {n : Fin 0x7f800000} (h : RoundsTo v (fin s n)) (hn : n.val ≠ 0) :
    RIdx (|v| * 2 ^ 149) n ∧ v = (if s then -1 else 1) * |v| := by
  obtain ⟨hmax, hnear, htie⟩ := h
  have hp : (0 : ℝ) < 2 ^ 149 := by positivity
  have hx : ∀ (k : Fin 0x7f800000), |v - toReal (fin s k)| * 2 ^ 149 = |(if s then -1 else 1) * v * 2 ^ 149 - mag k| := by
    intro k
    rw [toReal_fin, ← abs_of_pos hp, ← abs_mul, sub_mul, mul_div_assoc, mul_assoc, abs_of_pos hp, div_mul_cancel₀ _ hp.ne']
    cases s
    · simp
    · simp only [if_true]
      rw [show v * 2 ^ 149 - -1 * (mag k : ℝ) = -(-1 * v * 2 ^ 149 - mag k) by ring, abs_neg]
  have hcmp : ∀ k : Fin 0x7f800000, |(if s then -1 else 1) * v * 2 ^ 149 - mag n| ≤ |(if s then -1 else 1) * v * 2 ^ 149 - mag k| := by
    intro k
    rw [← hx, ← hx]
    exact mul_le_mul_of_nonneg_right (hnear s k) hp.le
  have heq : ∀ k : Fin 0x7f800000, k ≠ n →
      |(if s then -1 else 1) * v * 2 ^ 149 - mag n| = |(if s then -1 else 1) * v * 2 ^ 149 - mag k| → n.val % 2 = 0 := by
    intro k hk he
    rw [← hx, ← hx] at he
    refine htie s k (mul_right_cancel₀ hp.ne' he) ?_
    intro hc
    rw [toReal_eq_iff] at hc
    apply hk
    have : mag k = mag n := by rw [← natAbs_val s k, hc, natAbs_val]
    exact Fin.ext (mag_inj.1 this)
  have habs : |(if s then (-1 : ℝ) else 1) * v * 2 ^ 149| = |v| * 2 ^ 149 := by
    rw [abs_mul, abs_sign, abs_of_pos hp]
  generalize hr : (if s then (-1 : ℝ) else 1) * v * 2 ^ 149 = r at hcmp heq habs
  have hlow : (mag (n - 1) : ℝ) + mag n ≤ 2 * r ∧ (n.val % 2 ≠ 0 → (mag (n - 1) : ℝ) + mag n < 2 * r) := by
    have hlt : (mag (n.val - 1) : ℝ) < mag n := magR_lt (by omega)
    have h1 := hcmp ⟨n - 1, by omega⟩
    have h2 := heq ⟨n - 1, by omega⟩ (by intro hc; have := congrArg Fin.val hc; simp at this; omega)
    simp only at h1 h2
    have : (mag (n.val - 1) : ℝ) + mag n ≤ 2 * r := by
      by_contra hc
      push Not at hc
      rw [abs_le] at h1
      rcases abs_cases (r - (mag (n.val - 1) : ℝ)) with h3 | h3 <;> rw [h3.1] at h1 <;> linarith [h1.1, h1.2]
    refine ⟨this, fun ho => lt_of_le_of_ne this fun he => ho (h2 ?_)⟩
    rw [abs_sub_comm, abs_of_nonneg (by linarith), abs_of_nonneg (by linarith)]
    linarith
  have hr0 : 0 < r := by
    have : (1 : ℝ) ≤ mag n := by exact_mod_cast mag_pos hn
    have : (0 : ℝ) ≤ mag (n.val - 1) := by positivity
    linarith [hlow.1]
  rw [abs_of_pos hr0] at habs
  have hhigh : 2 * r ≤ (mag n : ℝ) + mag (n + 1) ∧ (n.val % 2 ≠ 0 → 2 * r < (mag n : ℝ) + mag (n + 1)) := by
    have hlt : (mag n.val : ℝ) < mag (n + 1) := magR_lt (by omega)
    by_cases hc : n.val + 1 < 0x7f800000
    · have h1 := hcmp ⟨n + 1, hc⟩
      have h2 := heq ⟨n + 1, hc⟩ (by intro hc; have := congrArg Fin.val hc; simp at this)
      simp only at h1 h2
      have : 2 * r ≤ (mag n : ℝ) + mag (n + 1) := by
        by_contra hc
        push Not at hc
        rw [abs_le] at h1
        rcases abs_cases (r - (mag (n.val + 1) : ℝ)) with h3 | h3 <;> rw [h3.1] at h1 <;> linarith [h1.1, h1.2]
      refine ⟨this, fun ho => lt_of_le_of_ne this fun he => ho (h2 ?_)⟩
      rw [abs_of_nonneg (by linarith), abs_sub_comm, abs_of_nonneg (by linarith)]
      linarith
    · have hn' : n.val = 0x7f7fffff := by omega
      have e1 : (mag n.val : ℝ) + mag (n.val + 1) = 2 * (maxHalf * 2 ^ 149) := by
        rw [hn']
        have a : mag 0x7f7fffff = (2 ^ 24 - 1) * 2 ^ 253 := by decide +kernel
        have b : mag (0x7f7fffff + 1) = 2 ^ 24 * 2 ^ 253 := by decide +kernel
        rw [a, b]
        unfold maxHalf
        push_cast
        norm_num
      have : r < maxHalf * 2 ^ 149 := by rw [habs]; exact mul_lt_mul_of_pos_right hmax hp
      rw [e1]
      exact ⟨by linarith, fun _ => by linarith⟩
  refine ⟨?_, ?_⟩
  · rw [← habs]
    by_cases ho : n.val % 2 = 0
    · exact ridx_even ho (Or.inr hlow.1) hhigh.1
    · exact ridx_inside (Or.inr (hlow.2 ho)) (hhigh.2 ho)
  · have h1 : (if s then (-1 : ℝ) else 1) * v = |v| := mul_right_cancel₀ hp.ne' (hr.trans habs)
    rw [← h1, ← mul_assoc]
    cases s <;> simp

/-! ### C129 -/

theorem readDecimal_chars (neg : Bool) {d : Char} {l : List Char} (hd : d.isDigit = true) :
    readDecimal (String.ofList ((if neg then ['-'] else []) ++ d :: l)) =
      (readWhole 0 (d :: l)).map fun v => (if neg then -1 else 1) * v := by
  unfold readDecimal
  rw [String.toList_ofList]
  cases neg
  · have hne : d ≠ '-' := by rintro rfl; exact absurd hd (by decide)
    simp only [Bool.false_eq_true, if_false, List.nil_append, one_mul, Option.map_id']
    split
    · rename_i h; exact absurd (List.cons.inj h).1 hne
    · rename_i c cs _ h
      obtain ⟨rfl, rfl⟩ := List.cons.inj h
      rw [if_pos hd]
    · rename_i h; cases h
  · simp only [if_true, List.singleton_append, hd, neg_mul, one_mul]

/-- what is printed for a finite number -/
theorem display_fin (z s : Bool) (n : Fin 0x7f800000) : ∃ neg d l, d.isDigit = true ∧
    display z (fin s n) = String.ofList ((if neg then ['-'] else []) ++ d :: l) ∧
    (n.val ≠ 0 → neg = s ∧ d :: l = decimalChars (shortest n)) ∧ (n.val = 0 → neg = (s && z) ∧ d :: l = ['0']) := by
  by_cases hn : n.val = 0
  · refine ⟨s && z, '0', [], by decide, ?_, fun h => absurd hn h, fun _ => ⟨rfl, rfl⟩⟩
    simp [display, hn]
  · obtain ⟨d, l, h, hd⟩ := decimalChars_head (shortest n)
    refine ⟨s, d, l, hd, ?_, fun _ => ⟨rfl, h.symm⟩, fun h => absurd h hn⟩
    simp [display, hn, h]

theorem read_display (z s : Bool) (n : Fin 0x7f800000) : readDecimal (display z (fin s n)) =
    some ((if s then -1 else 1) * (if n.val = 0 then 0 else (shortest n : ℚ) / 10 ^ 60)) := by
  obtain ⟨neg, d, l, hd, h1, h2, h3⟩ := display_fin z s n
  rw [h1, readDecimal_chars neg hd]
  by_cases hn : n.val = 0
  · rw [(h3 hn).2, if_pos hn]
    have : readWhole 0 ['0'] = some 0 := by
      simp [readWhole, show ('0' : Char).isDigit = true by decide]
    rw [this]
    simp
  · rw [(h2 hn).2, (h2 hn).1, readWhole_decimalChars, if_neg hn]
    rfl

theorem shortest_ridx {n : ℕ} (hn : n ≠ 0) : RIdx ((shortest n : ℝ) * 2 ^ 149 / 10 ^ 60) n := by
  obtain ⟨N, _, _, h, _⟩ := shortest_spec hn
  exact readsBack_iff.1 (candidate_cases h).1

theorem shortest_rounds (s : Bool) {n : Fin 0x7f800000} (hn : n.val ≠ 0) :
    RoundsTo ((if s then -1 else 1) * ((shortest n : ℝ) / 10 ^ 60)) (fin s n) := by
  have h := pack_rounds (by positivity) (shortest_ridx hn) s
  rw [show pack s n = fin s n from dif_pos n.2] at h
  convert h using 2
  field_simp

/-- **C129, read back.** The decimal printed for a finite number has that number as the nearest `f32`. -/
theorem C129_read_back (z : Bool) (x : F32) (hx : IsFin x) :
    ∃ v : ℚ, readDecimal (display z x) = some v ∧ RoundsTo v x := by
  obtain ⟨s, n, rfl⟩ := hx
  refine ⟨_, read_display z s n, ?_⟩
  by_cases hn : n.val = 0
  · obtain rfl : n = ⟨0, by decide⟩ := Fin.ext hn
    have := zero_rounds s
    rw [if_pos rfl, mul_zero, Rat.cast_zero]
    exact this
  · have := shortest_rounds s hn
    rw [if_neg hn]
    push_cast
    cases s <;> simpa using this

/-- **C129, shortest.** No decimal that reads back as the number has fewer significant digits than the printed one, and
none with the same number of digits is nearer. -/
theorem C129_shortest (z : Bool) (x : F32) (hx : IsFin x) (h0 : toReal x ≠ 0) :
    ∃ (v : ℚ) (M : ℕ), readDecimal (display z x) = some v ∧ Digits v M ∧ M ≤ 9 ∧
      ∀ w M', RoundsTo w x → Digits w M' → M ≤ M' ∧ (M' = M → |(v : ℝ) - toReal x| ≤ |w - toReal x|) := by
  obtain ⟨s, n, rfl⟩ := hx
  have hn : n.val ≠ 0 := by
    intro hn
    apply h0
    rw [toReal_fin, hn, mag_zero]
    simp
  obtain ⟨N, hN1, hN9, hc, hmin⟩ := shortest_spec hn
  obtain ⟨hback, hcase⟩ := candidate_cases hc
  obtain ⟨h16, hlo, hhi⟩ := decLen_spec hn
  obtain ⟨hcut1, hcut2⟩ := cut_spec n N
  have hp : (0 : ℝ) < 2 ^ 149 := by positivity
  have hT : (0 : ℝ) < 10 ^ 60 := by positivity
  have hA1 : (cut n N : ℝ) * 2 ^ 149 ≤ mag n * 10 ^ 60 := by exact_mod_cast hcut1
  have hA2 : (mag n : ℝ) * 10 ^ 60 < (cut n N + unit n N : ℕ) * 2 ^ 149 := by exact_mod_cast hcut2
  have hval : (((if s then -1 else 1) * (if n.val = 0 then 0 else (shortest n : ℚ) / 10 ^ 60) : ℚ) : ℝ) =
      (if s then -1 else 1) * ((shortest n : ℝ) / 10 ^ 60) := by
    rw [if_neg hn]; push_cast; cases s <;> simp
  -- a decimal that reads back, in units of 10^-60
  have hread : ∀ w, RoundsTo w (fin s n) → RIdx (|w| * 10 ^ 60 * 2 ^ 149 / 10 ^ 60) n ∧
      |w - toReal (fin s n)| * (2 ^ 149 * 10 ^ 60) = |(|w| * 10 ^ 60) * 2 ^ 149 - mag n * 10 ^ 60| := by
    intro w hw
    obtain ⟨h1, h2⟩ := hw.ridx hn
    refine ⟨by convert h1 using 1; field_simp, ?_⟩
    rw [h2, toReal_fin, abs_sign, abs_abs, mul_div_assoc, ← mul_sub, abs_sign, ← abs_of_pos (mul_pos hp hT), ← abs_mul]
    congr 1
    field_simp
  refine ⟨_, N, read_display z s n, ?_, hN9, ?_⟩
  · rw [hval]
    refine (?_ : ∃ (d : ℕ) (k : ℤ), d < 10 ^ N ∧ _)
    rw [abs_sign, abs_of_nonneg (by positivity)]
    have hq : floor60 n / 10 ^ (decLen n - N) < 10 ^ N := by
      rw [Nat.div_lt_iff_lt_mul (by positivity), ← pow_add, show N + (decLen n - N) = decLen n by omega]
      exact hhi
    have hz : ∀ (a e : ℕ), ((a * 10 ^ e : ℕ) : ℝ) / 10 ^ 60 = a * (10 : ℝ) ^ ((e : ℤ) - 60) := by
      intro a e
      rw [zpow_sub₀ (by norm_num), zpow_natCast, ← zpow_natCast (10 : ℝ) 60]
      push_cast
      ring
    rcases hcase with h | h
    · exact ⟨_, _, hq, by rw [h]; exact hz _ _⟩
    · have e : cut n N + unit n N = (floor60 n / 10 ^ (decLen n - N) + 1) * 10 ^ (decLen n - N) := by
        unfold cut unit; ring
      rcases (Nat.succ_le_of_lt hq).lt_or_eq with h3 | h3
      · exact ⟨_, _, h3, by rw [h, e]; exact hz _ _⟩
      · refine ⟨1, ((N + (decLen n - N) : ℕ) : ℤ) - 60, Nat.one_lt_pow (by omega) (by norm_num), ?_⟩
        rw [h, e, show floor60 n / 10 ^ (decLen n - N) + 1 = 10 ^ N from h3, ← pow_add, ← Nat.one_mul (10 ^ (N + (decLen n - N)))]
        exact hz _ _
  · intro w M' hw hd
    obtain ⟨hi, hdist⟩ := hread w hw
    have hM : N ≤ M' := by
      by_contra hlt
      have hM1 : 1 ≤ M' := by
        rcases Nat.eq_zero_or_pos M' with h | h
        · exfalso
          subst h
          obtain ⟨d, k, h1, h2⟩ := hd
          obtain rfl : d = 0 := by simpa using h1
          rw [Nat.cast_zero, zero_mul] at h2
          rw [h2, zero_mul, zero_mul, zero_div] at hi
          have h3 := ridx_mag 0
          rw [mag_zero, Nat.cast_zero] at h3
          exact hn (hi.unique h3)
        · exact h
      obtain ⟨c1, c2⟩ := candidate_none (hmin M' hM1 (by omega))
      rw [← Bool.not_eq_true, readsBack_iff] at c1 c2
      obtain ⟨g1, g2⟩ := cut_spec n M'
      have g1' : (cut n M' : ℝ) * 2 ^ 149 ≤ mag n * 10 ^ 60 := by exact_mod_cast g1
      have g2' : (mag n : ℝ) * 10 ^ 60 < (cut n M' + unit n M' : ℕ) * 2 ^ 149 := by exact_mod_cast g2
      rcases grid hn hM1 (by omega) hd with h | h
      · refine c1 (hi.between (Or.inl ⟨?_, ?_⟩))
        · exact div_le_div_of_nonneg_right (mul_le_mul_of_nonneg_right h hp.le) hT.le
        · rw [div_le_iff₀ hT]; exact g1'
      · refine c2 (hi.between (Or.inr ⟨?_, ?_⟩))
        · rw [le_div_iff₀ hT]; exact g2'.le
        · exact div_le_div_of_nonneg_right (mul_le_mul_of_nonneg_right h hp.le) hT.le
    refine ⟨hM, ?_⟩
    rintro rfl
    rw [hval]
    have hs := (hread _ (shortest_rounds s hn)).2
    rw [abs_sign, abs_of_nonneg (show (0 : ℝ) ≤ (shortest n : ℝ) / 10 ^ 60 by positivity), div_mul_cancel₀ _ hT.ne'] at hs
    refine le_of_mul_le_mul_right ?_ (mul_pos hp hT)
    rw [hs, hdist]
    have hu : (((cut n M' + unit n M' : ℕ) : ℝ)) = cut n M' + unit n M' := by push_cast; rfl
    -- the candidate that is taken is at least as near as any other that reads back
    rcases grid hn hN1 (by omega) hd with h | h
    · have hb : readsBack n (cut n M') = true := readsBack_iff.2 (hi.between (Or.inl ⟨
        div_le_div_of_nonneg_right (mul_le_mul_of_nonneg_right h hp.le) hT.le, by rw [div_le_iff₀ hT]; exact hA1⟩))
      have h' : |w| * 10 ^ 60 * 2 ^ 149 ≤ cut n M' * 2 ^ 149 := mul_le_mul_of_nonneg_right h hp.le
      rw [abs_sub_comm (|w| * 10 ^ 60 * 2 ^ 149), abs_of_nonneg (show (0 : ℝ) ≤ mag n * 10 ^ 60 - |w| * 10 ^ 60 * 2 ^ 149 by linarith)]
      rw [candidate_eq, if_pos hb] at hc
      by_cases h2 : readsBack n (cut n M' + unit n M') = true
      · rw [if_pos h2] at hc
        by_cases h3 : unit n M' * 2 ^ 149 ≤ 2 * (mag n * 10 ^ 60 - cut n M' * 2 ^ 149)
        · rw [if_pos h3] at hc
          rw [← Option.some.inj hc, abs_of_nonneg (by linarith)]
          have h4 : ((unit n M' * 2 ^ 149 : ℕ) : ℝ) ≤ ((2 * (mag n * 10 ^ 60 - cut n M' * 2 ^ 149) : ℕ) : ℝ) := by
            exact_mod_cast h3
          rw [Nat.cast_mul 2, Nat.cast_sub hcut1] at h4
          simp only [Nat.cast_mul, Nat.cast_pow, Nat.cast_ofNat] at h4
          rw [hu, add_mul]
          linarith
        · rw [if_neg h3] at hc
          rw [← Option.some.inj hc, abs_sub_comm, abs_of_nonneg (by linarith)]
          linarith
      · rw [if_neg h2] at hc
        rw [← Option.some.inj hc, abs_sub_comm, abs_of_nonneg (by linarith)]
        linarith
    · have hb : readsBack n (cut n M' + unit n M') = true := readsBack_iff.2 (hi.between (Or.inr ⟨by
        rw [le_div_iff₀ hT]; exact hA2.le, div_le_div_of_nonneg_right (mul_le_mul_of_nonneg_right h hp.le) hT.le⟩))
      have h' : ((cut n M' + unit n M' : ℕ) : ℝ) * 2 ^ 149 ≤ |w| * 10 ^ 60 * 2 ^ 149 := mul_le_mul_of_nonneg_right h hp.le
      rw [abs_of_nonneg (show (0 : ℝ) ≤ |w| * 10 ^ 60 * 2 ^ 149 - mag n * 10 ^ 60 by linarith)]
      rw [candidate_eq, if_pos hb] at hc
      by_cases h2 : readsBack n (cut n M') = true
      · rw [if_pos h2] at hc
        by_cases h3 : unit n M' * 2 ^ 149 ≤ 2 * (mag n * 10 ^ 60 - cut n M' * 2 ^ 149)
        · rw [if_pos h3] at hc
          rw [← Option.some.inj hc, abs_of_nonneg (by linarith)]
          linarith
        · rw [if_neg h3] at hc
          have h4 : ((2 * (mag n * 10 ^ 60 - cut n M' * 2 ^ 149) : ℕ) : ℝ) < ((unit n M' * 2 ^ 149 : ℕ) : ℝ) := by
            exact_mod_cast not_le.1 h3
          rw [Nat.cast_mul 2, Nat.cast_sub hcut1] at h4
          simp only [Nat.cast_mul, Nat.cast_pow, Nat.cast_ofNat] at h4
          rw [← Option.some.inj hc, abs_sub_comm, abs_of_nonneg (by linarith)]
          rw [hu, add_mul] at h'
          linarith
      · rw [if_neg h2, if_pos hb] at hc
        rw [← Option.some.inj hc, abs_of_nonneg (by linarith)]
        linarith

/-- **C129, characters.** A finite number is printed with digits, at most one point between digits, and at most one leading
minus sign; in particular without spaces, commas or an exponent. -/
theorem C129_characters (z : Bool) (x : F32) (hx : IsFin x) :
    ∀ c ∈ (display z x).toList, c.isDigit = true ∨ c = '.' ∨ c = '-' := by
  obtain ⟨s, n, rfl⟩ := hx
  obtain ⟨neg, d, l, hd, h1, h2, h3⟩ := display_fin z s n
  intro c hc
  rw [h1, String.toList_ofList, List.mem_append] at hc
  rcases hc with hc | hc
  · cases neg
    · cases hc
    · exact Or.inr (Or.inr (List.mem_singleton.1 hc))
  · by_cases hn : n.val = 0
    · rw [(h3 hn).2] at hc
      rw [List.mem_singleton.1 hc]
      exact Or.inl (by decide)
    · rw [(h2 hn).2] at hc
      rcases mem_decimalChars hc with h | h
      · exact Or.inl h
      · exact Or.inr (Or.inl h)

/-- no spaces and no commas, also for NaN and the infinities -/
theorem display_separators (z : Bool) (x : F32) : ' ' ∉ (display z x).toList ∧ ',' ∉ (display z x).toList := by
  cases x with
  | nan => simp only [display]; decide
  | inf s => cases s <;> (simp only [display]; decide)
  | fin s n =>
    have h := C129_characters z (fin s n) ⟨s, n, rfl⟩
    constructor <;> intro hc <;> have := h _ hc <;> revert this <;> decide

/-- **C129, different numbers.** Different numbers are printed differently (up to the sign of zero in old versions of
Rust). -/
theorem C129_injective (z : Bool) (x y : F32) :
    display z x = display z y ↔ x = y ∨ (z = false ∧ ∃ s t, x = fin s ⟨0, by decide⟩ ∧ y = fin t ⟨0, by decide⟩) := by
  constructor
  · intro h
    have hnone : ∀ x : F32, readDecimal (display z x) = none ↔ ¬ IsFin x := by
      intro x
      cases x with
      | nan => exact ⟨fun _ ⟨s, n, h⟩ => (by cases h), fun _ => by simp only [display]; decide⟩
      | inf s => exact ⟨fun _ ⟨s, n, h⟩ => (by cases h), fun _ => by cases s <;> (simp only [display]; decide)⟩
      | fin s n =>
        rw [read_display]
        exact ⟨fun h => (by cases h), fun h => absurd ⟨s, n, rfl⟩ h⟩
    by_cases hx : IsFin x
    · have hy : IsFin y := by
        by_contra hc
        exact (hnone x).1 (h ▸ (hnone y).2 hc) hx
      obtain ⟨v, hv, hvx⟩ := C129_read_back z x hx
      obtain ⟨v', hv', hvy⟩ := C129_read_back z y hy
      obtain rfl : v = v' := Option.some.inj (hv.symm.trans (h ▸ hv'))
      obtain ⟨s, n, rfl⟩ := hx
      obtain ⟨t, m, rfl⟩ := hy
      have zero_of : ∀ (s t : Bool) (n m : Fin 0x7f800000), readDecimal (display z (fin s n)) = some v → RoundsTo v (fin t m) →
          n.val = 0 → m.val = 0 := by
        intro s t n m h1 h2 h3
        by_contra hm
        rw [read_display, if_pos h3, mul_zero] at h1
        obtain rfl := Option.some.inj h1
        have h4 := (h2.ridx hm).1
        rw [Rat.cast_zero, abs_zero, zero_mul] at h4
        have h5 := ridx_mag 0
        rw [mag_zero, Nat.cast_zero] at h5
        exact hm (h4.unique h5)
      by_cases hn : n.val = 0
      · have hm := zero_of s t n m hv hvy hn
        obtain rfl : n = ⟨0, by decide⟩ := Fin.ext hn
        obtain rfl : m = ⟨0, by decide⟩ := Fin.ext hm
        cases z
        · exact Or.inr ⟨rfl, s, t, rfl, rfl⟩
        · left
          cases s <;> cases t
          · rfl
          · exact absurd h (by decide)
          · exact absurd h (by decide)
          · rfl
      · have hm : m.val ≠ 0 := fun hm => hn (zero_of t s m n hv' hvx hm)
        obtain ⟨a1, a2⟩ := hvx.ridx hn
        obtain ⟨b1, b2⟩ := hvy.ridx hm
        obtain rfl : n = m := Fin.ext (a1.unique b1)
        have hv0 : 0 < |(v : ℝ)| := by
          rcases (abs_nonneg (v : ℝ)).lt_or_eq with h | h
          · exact h
          · exfalso
            rw [← h, zero_mul] at a1
            have h5 := ridx_mag 0
            rw [mag_zero, Nat.cast_zero] at h5
            exact hn (a1.unique h5)
        left
        cases s <;> cases t
        · rfl
        · simp only [Bool.false_eq_true, if_false, if_true] at a2 b2; linarith
        · simp only [Bool.false_eq_true, if_false, if_true] at a2 b2; linarith
        · rfl
    · have hy : ¬ IsFin y := by
        rw [← hnone, ← h, hnone]; exact hx
      left
      have key : ∀ x : F32, ¬ IsFin x → x = nan ∨ x = inf false ∨ x = inf true := by
        intro x hx
        cases x with
        | nan => exact Or.inl rfl
        | inf s => cases s <;> simp
        | fin s n => exact absurd ⟨s, n, rfl⟩ hx
      rcases key x hx with rfl | rfl | rfl <;> rcases key y hy with rfl | rfl | rfl <;>
        first | rfl | (exfalso; simp only [display] at h; exact absurd h (by decide))
  · rintro (rfl | ⟨rfl, s, t, rfl, rfl⟩)
    · rfl
    · cases s <;> cases t <;> rfl

/-- the index of a whole number -/
theorem exists_whole (a : ℕ) (ha : a ≤ 2 ^ 24) : ∃ n, n < 0x7f800000 ∧ mag n = a * 2 ^ 149 := exists_mag 149 a ha (by norm_num)

theorem whole_decLen {a n : ℕ} (ha : a ≠ 0) (h : mag n = a * 2 ^ 149) :
    floor60 n = a * 10 ^ 60 ∧ decLen n = (Nat.toDigits 10 a).length + 60 := by
  have hf : floor60 n = a * 10 ^ 60 := by
    unfold floor60
    rw [h, mul_right_comm, Nat.mul_div_cancel _ (by positivity)]
  refine ⟨hf, ?_⟩
  have key : ∀ k, 0 < k → (decLen n ≤ k ↔ a * 10 ^ 60 < 10 ^ k) := fun k hk => by
    rw [← hf]; exact Nat.length_toDigits_le_iff (by norm_num) hk
  have hD : 0 < (Nat.toDigits 10 a).length := Nat.length_toDigits_pos
  have hlt : a < 10 ^ (Nat.toDigits 10 a).length := (Nat.length_toDigits_le_iff (by norm_num) hD).1 le_rfl
  have hup : ∀ k, 0 < k → k < (Nat.toDigits 10 a).length → 10 ^ k ≤ a := by
    intro k hk hlt
    by_contra hc
    have := (Nat.length_toDigits_le_iff (b := 10) (n := a) (k := k) (by norm_num) hk).2 (by omega)
    omega
  generalize (Nat.toDigits 10 a).length = D at *
  refine le_antisymm ((key _ (by omega)).2 ?_) ?_
  · rw [pow_add]; exact Nat.mul_lt_mul_of_pos_right hlt (by positivity)
  · by_contra hc
    have h1 := (key (D + 59) (by omega)).1 (by omega)
    rcases Nat.lt_or_ge 1 D with h2 | h2
    · have h3 := hup (D - 1) (by omega) (by omega)
      have h4 : 10 ^ (D + 59) ≤ a * 10 ^ 60 := by
        calc 10 ^ (D + 59) = 10 ^ (D - 1) * 10 ^ 60 := by rw [← pow_add]; congr 1; omega
          _ ≤ _ := Nat.mul_le_mul_right _ h3
      omega
    · obtain rfl : D = 1 := by omega
      have : 1 * 10 ^ 60 ≤ a * 10 ^ 60 := Nat.mul_le_mul_right _ (by omega)
      rw [one_mul] at this
      simp at h1
      omega

theorem whole_shortest {a n : ℕ} (h0 : a ≠ 0) (ha : a < 2 ^ 24) (h : mag n = a * 2 ^ 149) : shortest n = a * 10 ^ 60 := by
  have hn : n ≠ 0 := by
    rintro rfl
    rw [mag_zero] at h
    have := (Nat.mul_eq_zero.1 h.symm).resolve_left h0
    exact absurd this (by positivity)
  obtain ⟨hf, hl⟩ := whole_decLen h0 h
  have hD1 : 0 < (Nat.toDigits 10 a).length := Nat.length_toDigits_pos
  have hD8 : (Nat.toDigits 10 a).length ≤ 8 := (Nat.length_toDigits_le_iff (by norm_num) (by norm_num)).2 (by omega)
  obtain ⟨N, hN1, hN9, hc, hmin⟩ := shortest_spec hn
  obtain ⟨hback, hcase⟩ := candidate_cases hc
  generalize (Nat.toDigits 10 a).length = D at *
  have hT : (0 : ℝ) < 10 ^ 60 := by positivity
  have hp : (0 : ℝ) < 2 ^ 149 := by positivity
  have hreal : ∀ b : ℕ, ((b * 10 ^ 60 : ℕ) : ℝ) * 2 ^ 149 / 10 ^ 60 = (b : ℝ) * 2 ^ 149 := by
    intro b
    rw [Nat.cast_mul, Nat.cast_pow, Nat.cast_ofNat, mul_right_comm, mul_div_cancel_right₀ _ hT.ne']
  have hself : readsBack n (a * 10 ^ 60) = true := by
    rw [readsBack_iff, hreal]
    have : (a : ℝ) * 2 ^ 149 = mag n := by rw [h, Nat.cast_mul, Nat.cast_pow, Nat.cast_ofNat]
    rw [this]
    exact ridx_mag n
  have hND : N ≤ D := by
    by_contra hlt
    have hcut : cut n D = a * 10 ^ 60 := by
      unfold cut
      rw [hf, hl, Nat.add_sub_cancel_left, Nat.mul_div_cancel _ (by positivity)]
    have := (candidate_none (hmin D hD1 (by omega))).1
    rw [hcut, hself] at this
    cases this
  obtain ⟨b, hb⟩ : ∃ b, shortest n = b * 10 ^ 60 := by
    have hu : 10 ^ (decLen n - N) = 10 ^ (D - N) * 10 ^ 60 := by rw [hl, ← pow_add]; congr 1; omega
    rcases hcase with h | h
    · exact ⟨_, by rw [h]; unfold cut; rw [hu, ← mul_assoc]⟩
    · refine ⟨(floor60 n / (10 ^ (D - N) * 10 ^ 60) + 1) * 10 ^ (D - N), ?_⟩
      rw [h]; unfold cut unit; rw [hu]; ring
  rw [hb]
  rw [hb, readsBack_iff, hreal] at hback
  have hgrid : ∀ c : ℕ, c ≤ 2 ^ 24 → ∃ m, mag m = c * 2 ^ 149 ∧ RIdx ((c : ℝ) * 2 ^ 149) m := by
    intro c hc
    obtain ⟨m, _, hm⟩ := exists_whole c hc
    refine ⟨m, hm, ?_⟩
    have := ridx_mag m
    rw [hm, Nat.cast_mul, Nat.cast_pow, Nat.cast_ofNat] at this
    exact this
  rcases lt_trichotomy b a with hlt | rfl | hgt
  · exfalso
    obtain ⟨m, hm, hr⟩ := hgrid (a - 1) (by omega)
    have hle : (b : ℝ) * 2 ^ 149 ≤ ((a - 1 : ℕ) : ℝ) * 2 ^ 149 :=
      mul_le_mul_of_nonneg_right (by exact_mod_cast (by omega : b ≤ a - 1)) hp.le
    have h1 := hback.mono hr hle
    have h2 : mag n ≤ mag m := mag_le.2 h1
    rw [h, hm] at h2
    have := Nat.le_of_mul_le_mul_right h2 (by positivity)
    omega
  · rfl
  · exfalso
    obtain ⟨m, hm, hr⟩ := hgrid (a + 1) (by omega)
    have hle : ((a + 1 : ℕ) : ℝ) * 2 ^ 149 ≤ (b : ℝ) * 2 ^ 149 :=
      mul_le_mul_of_nonneg_right (by exact_mod_cast hgt) hp.le
    have h1 := hr.mono hback hle
    have h2 : mag m ≤ mag n := mag_le.2 h1
    rw [h, hm] at h2
    have := Nat.le_of_mul_le_mul_right h2 (by positivity)
    omega

/-- **C129, whole numbers.** A whole number below `2^24` is printed as that integer, without a point. -/
theorem C129_whole (z : Bool) (k : ℤ) (hk : |k| < 2 ^ 24) : display z (lit k) = toString k := by
  obtain ⟨n, hn, hm⟩ := exists_whole k.natAbs (by zify; exact hk.le)
  have hl : lit k = fin (decide (k < 0)) ⟨n, hn⟩ := by
    unfold lit F32.round pack
    have := roundIdx_exact n 1 Nat.one_pos
    rw [hm, Nat.mul_one] at this
    rw [this, dif_pos hn]
  by_cases h0 : k = 0
  · subst h0
    cases z <;> decide +kernel
  have ha : k.natAbs ≠ 0 := Int.natAbs_ne_zero.2 h0
  have hn0 : n ≠ 0 := by
    rintro rfl
    rw [mag_zero] at hm
    have := (Nat.mul_eq_zero.1 hm.symm).resolve_left ha
    exact absurd this (by positivity)
  have hs := whole_shortest ha (by zify; exact hk) hm
  have hd : decimalChars (shortest n) = Nat.toDigits 10 k.natAbs := by
    unfold decimalChars
    rw [hs, Nat.mul_div_cancel _ (by positivity), Nat.mul_mod_left, if_pos rfl, List.append_nil]
  rw [hl]
  simp only [display, hn0, if_false, hd]
  apply String.toList_injective
  rw [String.toList_ofList]
  cases k with
  | ofNat m =>
    have : ¬ (Int.ofNat m < 0) := by simp
    simp only [this, decide_false, Bool.false_and, Bool.false_eq_true, if_false, List.nil_append]
    show _ = (Nat.repr m).toList
    rw [Nat.toList_repr]
    rfl
  | negSucc m =>
    have : Int.negSucc m < 0 := Int.negSucc_lt_zero m
    have hb : (n != 0) = true := bne_iff_ne.2 hn0
    simp only [this, decide_true, Bool.true_and, hb, Bool.true_or, if_true]
    show _ = ("-" ++ Nat.repr (m + 1)).toList
    rw [String.toList_append, Nat.toList_repr]
    rfl

/-- from `2^24` on this is no longer so for every integer: 16777217 is printed as 16777216 -/
theorem C129_sharp_whole (z : Bool) : display z (lit 16777217) = "16777216" := by cases z <;> decide +kernel

/-- the hypotheses of the theorems at a number with a fraction: 0.1 is printed with one digit, though its value is not a
decimal of one digit -/
example : IsFin (lit 1 10) ∧ toReal (lit 1 10) ≠ 0 ∧ toReal (lit 1 10) ≠ 1 / 10 ∧ display true (lit 1 10) = "0.1" := by
  have h : lit 1 10 = fin false ⟨0x3dcccccd, by decide⟩ := by decide +kernel
  have hm : mag 0x3dcccccd = 13421773 * 2 ^ 122 := by decide +kernel
  refine ⟨⟨_, _, h⟩, ?_, ?_, by decide +kernel⟩ <;>
  · rw [h, toReal_fin, hm]
    norm_num

end Kami.F32
