import Verif.Blade.Model
import Mathlib.Data.Nat.Choose.Sum
import Mathlib.Data.Nat.Factorial.Basic
import Mathlib.Algebra.BigOperators.Intervals
import Mathlib.Algebra.Order.BigOperators.Ring.Finset
import Mathlib.Tactic.NormNum
/-!
# C17-C19: numbers of basis blades

The specification is Mathlib's `Nat.choose` and `2 ^ dim`.
-/

set_option autoImplicit false

namespace Kami.Blade

open Kami Finset

/-- What the multiplication loop computes when overflow is checked. -/
theorem mulLoop_debug (f : Nat → Res Nat) (count i acc v : Nat)
    (h : mulLoop .debug f count i acc = .ok v) :
    ∃ g : Nat → Nat, (∀ j < count, f (i + j) = .ok (g j)) ∧ v = acc * ∏ j ∈ range count, g j := by
  induction count generalizing i acc with
  | zero => simp only [mulLoop, Except.ok.injEq] at h; exact ⟨fun _ => 0, by simp, by simp [h]⟩
  | succ n ih =>
    simp only [mulLoop] at h
    rcases hf : f i with e | x
    · rw [hf] at h; cases h
    · rw [hf] at h
      simp only [bind, Except.bind] at h
      rcases hm : usizeMul .debug acc x with e | y
      · rw [hm] at h; cases h
      · rw [hm] at h
        obtain ⟨g, hg, hv⟩ := ih _ _ h
        have hy : y = acc * x := by
          unfold usizeMul at hm
          split at hm
          · simpa using hm.symm
          · cases hm
        refine ⟨fun j => match j with | 0 => x | j + 1 => g j, ?_, ?_⟩
        · rintro (_ | j) hj
          · exact hf
          · rw [show i + (j + 1) = i + 1 + j by omega]; exact hg j (by omega)
        · rw [prod_range_succ', hv, hy]; ring

/-- With overflow checks on, the loop never produces a number that is not a `usize`. -/
theorem mulLoop_debug_lt (f : Nat → Res Nat) (c i acc num : Nat) (ha : acc < usizeSize)
    (h : mulLoop .debug f c i acc = .ok num) : num < usizeSize := by
  induction c generalizing i acc with
  | zero => simp only [mulLoop, Except.ok.injEq] at h; subst h; exact ha
  | succ c ih =>
    simp only [mulLoop] at h
    rcases hs : f i with e | x
    · rw [hs] at h; cases h
    · rw [hs] at h
      simp only [bind, Except.bind] at h
      rcases hm : usizeMul .debug acc x with e | y
      · rw [hm] at h; cases h
      · rw [hm] at h
        refine ih _ _ ?_ h
        unfold usizeMul at hm
        split at hm
        · simp only [Except.ok.injEq] at hm; omega
        · cases hm

/-- When every factor is positive and the product fits, the loop returns it, in either profile. -/
theorem mulLoop_ok (p : Profile) (f : Nat → Res Nat) (g : Nat → Nat) (count i acc : Nat)
    (hf : ∀ j < count, f (i + j) = .ok (g j)) (hpos : ∀ j < count, 0 < g j)
    (hfit : acc * ∏ j ∈ range count, g j < usizeSize) :
    mulLoop p f count i acc = .ok (acc * ∏ j ∈ range count, g j) := by
  induction count generalizing i acc g with
  | zero => simp [mulLoop]
  | succ n ih =>
    have h0 := hf 0 (by omega)
    rw [Nat.add_zero] at h0
    rw [prod_range_succ'] at hfit ⊢
    have hP : 0 < ∏ j ∈ range n, g (j + 1) := prod_pos fun j hj => hpos _ (by have := mem_range.1 hj; omega)
    have hsmall : acc * g 0 < usizeSize := by
      refine lt_of_le_of_lt ?_ hfit
      calc acc * g 0 = acc * (1 * g 0) := by ring
        _ ≤ acc * ((∏ j ∈ range n, g (j + 1)) * g 0) := by gcongr; exact hP
    simp only [mulLoop, h0, bind, Except.bind, usizeMul, if_pos hsmall]
    rw [ih (fun j => g (j + 1)) (i + 1) (acc * g 0)]
    · congr 1; ring
    · intro j hj
      rw [show i + 1 + j = i + (j + 1) by omega]; exact hf _ (by omega)
    · intro j hj; exact hpos _ (by omega)
    · calc acc * g 0 * ∏ j ∈ range n, g (j + 1) = acc * ((∏ j ∈ range n, g (j + 1)) * g 0) := by ring
        _ < _ := hfit

theorem prod_two_factorial (k : Nat) : (k + 1) * ∏ j ∈ range (k - 1), (2 + j) = (k + 1).factorial := by
  rw [Nat.factorial_succ]
  congr 1
  rcases k with _ | k
  · rfl
  · rw [Nat.add_sub_cancel]
    induction k with
    | zero => rfl
    | succ k ih => rw [prod_range_succ, ih, Nat.factorial_succ (k + 1)]; ring

theorem prod_desc (n k : Nat) (h : 1 ≤ k) :
    n * ∏ j ∈ range (k - 1), (n - (1 + j)) = n.descFactorial k := by
  obtain ⟨k, rfl⟩ : ∃ m, k = m + 1 := ⟨k - 1, by omega⟩
  rw [Nat.add_sub_cancel]
  induction k with
  | zero => simp
  | succ k ih =>
    rw [prod_range_succ, ← mul_assoc, ih (by omega), Nat.descFactorial_succ n (k + 1)]
    rw [show 1 + k = k + 1 by omega, mul_comm]

theorem factorial_debug (k v : Nat) (hk : 1 ≤ k) (h : factorial .debug k = .ok v) : v = k.factorial := by
  obtain ⟨g, hg, hv⟩ := mulLoop_debug _ _ _ _ _ h
  obtain ⟨k, rfl⟩ : ∃ m, k = m + 1 := ⟨k - 1, by omega⟩
  rw [hv, ← prod_two_factorial]
  congr 1
  rw [show k + 1 - 2 = k - 1 by omega] at *
  refine prod_congr rfl fun j hj => ?_
  have := hg j (mem_range.1 hj)
  simpa using this.symm

theorem factorial_ok (p : Profile) (k : Nat) (hk : 1 ≤ k) (h : k.factorial < usizeSize) :
    factorial p k = .ok k.factorial := by
  obtain ⟨k, rfl⟩ : ∃ m, k = m + 1 := ⟨k - 1, by omega⟩
  unfold factorial
  rw [show k + 1 - 2 = k - 1 by omega]
  have := prod_two_factorial k
  rw [mulLoop_ok p _ (fun j => 2 + j) (k - 1) 2 (k + 1) (fun j _ => rfl) (fun j _ => by omega) (by rw [this]; exact h),
    this]

/-- C17: whatever `number_of_basis_blades` returns for `k ≥ 1` with overflow checks on is a binomial coefficient. -/
theorem C17_number_of_basis_blades (n k v : Nat) (hk : 1 ≤ k) (h : numberOfBasisBlades .debug n k = .ok v) :
    v = n.choose k := by
  unfold numberOfBasisBlades binomialCoefficient at h
  rcases h1 : mulLoop .debug (fun i => usizeSub .debug n i) (k - 1) 1 n with e | num
  · rw [h1] at h; cases h
  rcases h2 : factorial .debug k with e | f
  · rw [h1, h2] at h; cases h
  rw [h1, h2] at h
  have hf := factorial_debug k f hk h2
  obtain ⟨g, hg, hv⟩ := mulLoop_debug _ _ _ _ _ h1
  have hnum : num = n.descFactorial k := by
    rw [hv, ← prod_desc n k hk]
    congr 1
    refine prod_congr rfl fun j hj => ?_
    have := hg j (mem_range.1 hj)
    unfold usizeSub at this
    split at this
    · simpa using this.symm
    · cases this
  have hdiv : v = num / f := by
    simp only [bind, Except.bind, usizeDiv] at h
    split at h
    · cases h
    · simpa using h.symm
  rw [hdiv, hnum, hf, Nat.choose_eq_descFactorial_div_factorial]

/-- a call that returns: C(10, 4) = 210 -/
example : numberOfBasisBlades .debug 10 4 = .ok 210 := by decide +kernel

/-- C18, partial: for `1 ≤ k ≤ n` the function returns `n choose k` as soon as the falling factorial fits in `usize`
(in either profile), and with overflow checks on it panics otherwise.  Missing: the case `k = 0`, where the claim is
false (`C18_counterexample`). -/
theorem C18_total_partial (p : Profile) (n k : Nat) (hk : 1 ≤ k) (hkn : k ≤ n)
    (hn : n < usizeSize) :
    (n.descFactorial k < usizeSize → numberOfBasisBlades p n k = .ok (n.choose k)) ∧
    (usizeSize ≤ n.descFactorial k → ∃ e, numberOfBasisBlades .debug n k = .error e) := by
  have hd := prod_desc n k hk
  have hfact : k.factorial ≤ n.descFactorial k := by
    rw [Nat.descFactorial_eq_factorial_mul_choose]
    exact Nat.le_mul_of_pos_right _ (Nat.choose_pos hkn)
  constructor
  · intro hfit
    have h1 : mulLoop p (fun i => usizeSub p n i) (k - 1) 1 n = .ok (n.descFactorial k) := by
      rw [mulLoop_ok p _ (fun j => n - (1 + j)) (k - 1) 1 n _ _ (by rw [hd]; exact hfit), hd]
      · intro j hj; simp only [usizeSub]; rw [if_pos (by omega)]
      · intro j hj; omega
    have h2 := factorial_ok p k hk (lt_of_le_of_lt hfact hfit)
    have h3 : k.factorial ≠ 0 := (Nat.factorial_pos k).ne'
    simp only [numberOfBasisBlades, binomialCoefficient, h1, h2, bind, Except.bind, usizeDiv, if_neg h3]
    rw [Nat.choose_eq_descFactorial_div_factorial]
  · intro hbig
    rcases h : numberOfBasisBlades .debug n k with e | v
    · exact ⟨e, rfl⟩
    · exfalso
      unfold numberOfBasisBlades binomialCoefficient at h
      rcases h1 : mulLoop .debug (fun i => usizeSub .debug n i) (k - 1) 1 n with e | num
      · rw [h1] at h; cases h
      · obtain ⟨g, hg, hv⟩ := mulLoop_debug _ _ _ _ _ h1
        have hnum : num = n.descFactorial k := by
          rw [hv, ← prod_desc n k hk]
          congr 1
          refine prod_congr rfl fun j hj => ?_
          have := hg j (mem_range.1 hj)
          unfold usizeSub at this
          split at this
          · simpa using this.symm
          · cases this
        have hlt := mulLoop_debug_lt _ _ _ _ _ hn h1
        omega

/-- C18 fails at `k = 0`: the call divides by `factorial(0)`, which the code computes as 0, for every `n`, in both
profiles; the number of basis 0-blades is 1. -/
theorem C18_counterexample (p : Profile) (n : Nat) :
    numberOfBasisBlades p n 0 = .error .divideByZero ∧ n.choose 0 = 1 := by
  constructor
  · rfl
  · simp

/-- Beyond `k = n + 1` the subtraction `n - i` underflows with overflow checks on. -/
theorem C18_beyond (n k : Nat) (hk : n + 2 ≤ k) : ∃ e, numberOfBasisBlades .debug n k = .error e := by
  rcases h : numberOfBasisBlades .debug n k with e | v
  · exact ⟨e, rfl⟩
  · exfalso
    unfold numberOfBasisBlades binomialCoefficient at h
    rcases h1 : mulLoop .debug (fun i => usizeSub .debug n i) (k - 1) 1 n with e | num
    · rw [h1] at h; cases h
    · obtain ⟨g, hg, _⟩ := mulLoop_debug _ _ _ _ _ h1
      have := hg n (by omega)
      simp only [usizeSub] at this
      rw [if_neg (by omega)] at this
      cases this

example : 3 ≤ 20 ∧ 1 ≤ 3 ∧ Nat.descFactorial 20 3 < usizeSize := by decide +kernel
example : usizeSize ≤ Nat.descFactorial 30 20 := by decide +kernel

/-! ## C19 -/

/-- C19, partial: for `dim < 64` the result is `2^dim`, in both profiles; for `64 ≤ dim < 2^32` the call panics with
overflow checks on.  Missing: from `2^32` on the claim is false (`C19_counterexample`), because `dim as u32` drops the
high bits. -/
theorem C19_total_partial (p : Profile) (dim : Nat) :
    (dim < 64 → totalNumberOfBasisBlades p dim = .ok (2 ^ dim)) ∧
    (64 ≤ dim → dim < 2 ^ 32 → totalNumberOfBasisBlades .debug dim = .error .arithmeticOverflow) := by
  unfold totalNumberOfBasisBlades usizePow usizeSize
  constructor
  · intro h
    rw [Nat.mod_eq_of_lt (by omega), if_pos (Nat.pow_lt_pow_right (by norm_num) h)]
  · intro h1 h2
    rw [Nat.mod_eq_of_lt h2, if_neg (not_lt.2 (Nat.pow_le_pow_right (by norm_num) h1))]

/-- C19 fails for `dim = 2^32`: the call returns 1. -/
theorem C19_counterexample (p : Profile) : totalNumberOfBasisBlades p (2 ^ 32) = .ok 1 ∧ (1 : Nat) ≠ 2 ^ (2 ^ 32) := by
  constructor
  · cases p <;> rfl
  · have : (1 : Nat) < 2 ^ (2 ^ 32) := Nat.one_lt_two_pow (by norm_num)
    exact this.ne

/-- C19: the total is one scalar plus the numbers of basis k-blades for `1 ≤ k ≤ dim`, for all dimensions in which
these calls do not overflow. -/
theorem C19_sum (p : Profile) (dim : Nat) (h : dim.factorial < usizeSize) :
    ∃ v : Nat → Nat, (∀ k, 1 ≤ k → k ≤ dim → numberOfBasisBlades p dim k = .ok (v k)) ∧
      totalNumberOfBasisBlades p dim = .ok (1 + ∑ k ∈ Icc 1 dim, v k) := by
  have hd : dim < 64 := by
    by_contra hc
    have h1 : (64).factorial ≤ dim.factorial := Nat.factorial_le (by omega)
    have h2 : usizeSize ≤ (64).factorial := by decide +kernel
    omega
  refine ⟨fun k => dim.choose k, fun k h1 h2 => ?_, ?_⟩
  · exact (C18_total_partial p dim k h1 h2 (lt_of_lt_of_le hd (by decide +kernel))).1
      (lt_of_le_of_lt (Nat.le_of_dvd (Nat.factorial_pos _) ⟨_, (Nat.factorial_mul_descFactorial h2).symm.trans (mul_comm _ _)⟩) h)
  · rw [(C19_total_partial p dim).1 hd]
    congr 1
    rw [← Nat.sum_range_choose dim, Finset.range_eq_Ico, Finset.sum_eq_sum_Ico_succ_bot (by omega)]
    simp only [Nat.choose_zero_right]
    rfl

example : (20).factorial < usizeSize := by decide +kernel

end Kami.Blade
