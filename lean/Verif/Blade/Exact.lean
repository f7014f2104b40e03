import Verif.Blade.Theorems
/-!
# The counting functions of `src/math/blade.rs` on all arguments

With overflow checks on: exactly when `number_of_basis_blades` returns, and exactly for which dimensions
`total_number_of_basis_blades` does what it should.
-/

set_option autoImplicit false

namespace Kami.Blade

open Kami
open Finset

theorem mulLoop_snoc (p : Profile) (f : Nat → Res Nat) (count i acc : Nat) :
    mulLoop p f (count + 1) i acc = (mulLoop p f count i acc >>= fun y => f (i + count) >>= fun x => usizeMul p y x) := by
  induction count generalizing i acc with
  | zero =>
    simp only [mulLoop, bind, Except.bind, Nat.add_zero]
    cases f i with
    | error e => rfl
    | ok x =>
      simp only
      cases usizeMul p acc x with
      | error e => rfl
      | ok y => rfl
  | succ n ih =>
    rw [mulLoop]
    conv_rhs => rw [mulLoop]
    simp only [bind, Except.bind]
    cases f i with
    | error e => rfl
    | ok x =>
      simp only
      cases usizeMul p acc x with
      | error e => rfl
      | ok y =>
        simp only
        rw [ih, show i + 1 + n = i + (n + 1) by omega]
        rfl

/-- one factor too many: the product is 0 -/
theorem numerator_zero (p : Profile) (n : Nat) (h : n.factorial < usizeSize) :
    mulLoop p (fun i => usizeSub p n i) n 1 n = .ok 0 := by
  rcases n with _ | n
  · rfl
  · have hd := prod_desc (n + 1) (n + 1) (by omega)
    rw [Nat.descFactorial_self, Nat.add_sub_cancel] at hd
    rw [mulLoop_snoc, mulLoop_ok p _ (fun j => n + 1 - (1 + j)) n 1 (n + 1) _ _ (by rw [hd]; exact h)]
    · simp only [bind, Except.bind, usizeSub, usizeMul]
      rw [if_pos (by omega), show n + 1 - (1 + n) = 0 by omega]
      simp [usizeSize]
    · intro j hj; simp only [usizeSub]; rw [if_pos (by omega)]
    · intro j hj; omega

/-- **C18, exactly** (overflow checks on).  `number_of_basis_blades(n, k)` returns `n choose k` if and only if `1 ≤ k`, and
either `k ≤ n` and the falling factorial of `n` of length `k` fits in `usize`, or `k = n + 1` and `k!` fits; in every other case
it panics. -/
theorem C18_exact (n k : Nat) (hn : n < usizeSize) :
    (numberOfBasisBlades .debug n k = .ok (n.choose k) ↔
      1 ≤ k ∧ ((k ≤ n ∧ n.descFactorial k < usizeSize) ∨ (k = n + 1 ∧ k.factorial < usizeSize))) ∧
    ((∃ e, numberOfBasisBlades .debug n k = .error e) ↔
      ¬ (1 ≤ k ∧ ((k ≤ n ∧ n.descFactorial k < usizeSize) ∨ (k = n + 1 ∧ k.factorial < usizeSize)))) := by
  have key : (1 ≤ k ∧ ((k ≤ n ∧ n.descFactorial k < usizeSize) ∨ (k = n + 1 ∧ k.factorial < usizeSize)) ∧
        numberOfBasisBlades .debug n k = .ok (n.choose k)) ∨
      (¬ (1 ≤ k ∧ ((k ≤ n ∧ n.descFactorial k < usizeSize) ∨ (k = n + 1 ∧ k.factorial < usizeSize))) ∧
        ∃ e, numberOfBasisBlades .debug n k = .error e) := by
    rcases Nat.eq_zero_or_pos k with rfl | hk
    · exact Or.inr ⟨by simp, _, (C18_counterexample .debug n).1⟩
    · by_cases hkn : k ≤ n
      · have := C18_total_partial .debug n k hk hkn hn
        by_cases hfit : n.descFactorial k < usizeSize
        · exact Or.inl ⟨hk, Or.inl ⟨hkn, hfit⟩, this.1 hfit⟩
        · refine Or.inr ⟨?_, this.2 (by omega)⟩
          rintro ⟨_, ⟨_, h⟩ | ⟨h, _⟩⟩
          · exact hfit h
          · omega
      · by_cases hk1 : k = n + 1
        · subst hk1
          by_cases hfit : (n + 1).factorial < usizeSize
          · refine Or.inl ⟨hk, Or.inr ⟨rfl, hfit⟩, ?_⟩
            have h1 := numerator_zero .debug n (lt_of_le_of_lt (Nat.factorial_le (by omega)) hfit)
            have h2 := factorial_ok .debug (n + 1) (by omega) hfit
            have h3 : (n + 1).factorial ≠ 0 := (Nat.factorial_pos _).ne'
            simp only [numberOfBasisBlades, binomialCoefficient, Nat.add_sub_cancel, h1, h2, bind, Except.bind, usizeDiv,
              if_neg h3]
            rw [Nat.zero_div, Nat.choose_succ_self]
          · refine Or.inr ⟨?_, ?_⟩
            · rintro ⟨_, ⟨h, _⟩ | ⟨_, h⟩⟩
              · omega
              · exact hfit h
            · rcases h : numberOfBasisBlades .debug n (n + 1) with e | v
              · exact ⟨e, rfl⟩
              · exfalso
                unfold numberOfBasisBlades binomialCoefficient at h
                rcases h1 : mulLoop .debug (fun i => usizeSub .debug n i) (n + 1 - 1) 1 n with e | num
                · rw [h1] at h; cases h
                · rcases h2 : factorial .debug (n + 1) with e | f
                  · rw [h1, h2] at h; cases h
                  · have h4 := factorial_debug (n + 1) f (by omega) h2
                    by_cases hn1 : n + 1 < usizeSize
                    · have := mulLoop_debug_lt _ _ _ _ _ hn1 h2
                      omega
                    · -- the numerator does not fit
                      have hbig : n.factorial < usizeSize := by
                        rcases n with _ | n
                        · exact absurd (by decide : 0 + 1 < usizeSize) hn1
                        · rw [Nat.add_sub_cancel, mulLoop_snoc] at h1
                          rcases h5 : mulLoop .debug (fun i => usizeSub .debug (n + 1) i) n 1 (n + 1) with e | m
                          · rw [h5] at h1; cases h1
                          · obtain ⟨g, hg, hv⟩ := mulLoop_debug _ _ _ _ _ h5
                            have hm : m = (n + 1).factorial := by
                              rw [hv, ← Nat.descFactorial_self, ← prod_desc (n + 1) (n + 1) (by omega), Nat.add_sub_cancel]
                              congr 1
                              refine prod_congr rfl fun j hj => ?_
                              have := hg j (mem_range.1 hj)
                              unfold usizeSub at this
                              split at this
                              · simpa using this.symm
                              · cases this
                            have := mulLoop_debug_lt _ _ _ _ _ hn h5
                            omega
                      have : n < 64 := by
                        by_contra hc
                        have h6 : (64).factorial ≤ n.factorial := Nat.factorial_le (by omega)
                        have h7 : usizeSize ≤ (64).factorial := by decide +kernel
                        omega
                      have : 65 < usizeSize := by decide +kernel
                      omega
        · refine Or.inr ⟨?_, C18_beyond n k (by omega)⟩
          rintro ⟨_, ⟨h, _⟩ | ⟨h, _⟩⟩ <;> omega
  rcases key with ⟨h1, h2, h3⟩ | ⟨h1, e, h2⟩
  · rw [h3]
    simp [h1, h2]
  · rw [h2]
    constructor
    · simp only [reduceCtorEq, false_iff]; exact h1
    · exact ⟨fun _ => h1, fun _ => ⟨e, rfl⟩⟩

/-- **C19, exactly** (overflow checks on).  `total_number_of_basis_blades(dim)` does what it should - return `2^dim` when that
fits, panic otherwise - if and only if `dim < 2^32` or the 32 low bits of `dim` make a number of at least 64. -/
theorem C19_exact (dim : Nat) :
    ((2 ^ dim < usizeSize → totalNumberOfBasisBlades .debug dim = .ok (2 ^ dim)) ∧
      (usizeSize ≤ 2 ^ dim → ∃ e, totalNumberOfBasisBlades .debug dim = .error e)) ↔ dim < 2 ^ 32 ∨ 64 ≤ dim % 2 ^ 32 := by
  have hsize : usizeSize = 2 ^ 64 := rfl
  have hfit : ∀ d : Nat, 2 ^ d < usizeSize ↔ d < 64 := by
    intro d; rw [hsize]; exact Nat.pow_lt_pow_iff_right (by norm_num)
  have hbig : ∀ d : Nat, usizeSize ≤ 2 ^ d ↔ 64 ≤ d := by
    intro d; rw [← not_lt, hfit]; omega
  rw [hfit, hbig]
  constructor
  · rintro ⟨_, h2⟩
    by_contra hc
    have h3 : 2 ^ (dim % 2 ^ 32) < usizeSize := (hfit _).2 (by omega)
    obtain ⟨e, he⟩ := h2 (by
      have : (64 : Nat) < 2 ^ 32 := by norm_num
      omega)
    unfold totalNumberOfBasisBlades usizePow at he
    rw [if_pos h3] at he
    cases he
  · intro h
    constructor
    · intro hd
      have := (C19_total_partial .debug dim).1 hd
      exact this
    · intro hd
      rcases h with h | h
      · exact ⟨_, (C19_total_partial .debug dim).2 hd h⟩
      · refine ⟨.arithmeticOverflow, ?_⟩
        unfold totalNumberOfBasisBlades usizePow
        rw [if_neg (not_lt.2 ((hbig _).2 h))]

/-- `number_of_basis_blades(19, 20)` returns 0, `number_of_basis_blades(20, 21)` panics although the number is 0 -/
example : numberOfBasisBlades .debug 19 20 = .ok 0 ∧ numberOfBasisBlades .debug 20 21 = .error .arithmeticOverflow := by
  decide +kernel

end Kami.Blade
