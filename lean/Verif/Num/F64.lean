import Verif.Num.F32Round
/-!
# IEEE-754 binary64, as far as serde_json needs it

serde_json computes every number with a point or an exponent as an `f64` and converts it to `f32` afterwards.  The
magnitude of a finite `f64` is kept as a natural number in units of `2^-1074`; the sign is kept elsewhere.
-/

set_option autoImplicit false

namespace Kami.F64

/-- one, in units of `2^-1074` -/
def unit : Nat := 2 ^ 1074

/-- the number nearest to `num / den` (units of `2^-1074`) with 53 significant bits, ties to even; without an upper limit -/
def rnd (num den : Nat) : Nat :=
  let s := Nat.log2 (num / den) - 52
  let m := num / den / 2 ^ s
  match compare (2 * num) ((2 * m + 1) * 2 ^ s * den) with
  | .lt => m * 2 ^ s
  | .gt => (m + 1) * 2 ^ s
  | .eq => if m % 2 = 0 then m * 2 ^ s else (m + 1) * 2 ^ s

/-- the least magnitude that is not finite -/
def tooLarge : Nat := 2 ^ 1024 * unit

def mul (a b : Nat) : Nat := rnd (a * b) unit
def div (a b : Nat) : Nat := rnd (a * unit) b

/-- `u64 as f64`, and the value of a literal without fraction -/
def ofNat (n : Nat) : Nat := rnd (n * unit) 1

/-- `f64 as f32` -/
def toF32 (neg : Bool) (a : Nat) : F32 := F32.round neg a (2 ^ 925)

theorem two_pow_log2_le {q : ℕ} (h : q ≠ 0) : 2 ^ Nat.log2 q ≤ q := Nat.log2_self_le h

theorem lt_two_pow_log2 (q : ℕ) : q < 2 ^ (Nat.log2 q + 1) := Nat.lt_log2_self

/-- the error is at most half a unit in the last place -/
theorem rnd_err_ulp (num den : ℕ) (hd : 0 < den) :
    |(rnd num den : ℝ) - (num : ℝ) / den| ≤ 2 ^ (Nat.log2 (num / den) - 52) / 2 := by
  unfold rnd
  simp only
  generalize Nat.log2 (num / den) - 52 = s
  have hp : 0 < 2 ^ s := by positivity
  have hm1 : num / den / 2 ^ s * 2 ^ s * den ≤ num :=
    (Nat.mul_le_mul_right _ (Nat.div_mul_le_self _ _)).trans (Nat.div_mul_le_self _ _)
  have hm2 : num < (num / den / 2 ^ s + 1) * 2 ^ s * den := by
    rw [Nat.div_div_eq_div_mul, mul_assoc, mul_comm (2 ^ s) den]
    exact Nat.lt_mul_of_div_lt (Nat.lt_succ_self _) (Nat.mul_pos hd hp)
  generalize num / den / 2 ^ s = m at *
  have hdR : (0 : ℝ) < den := by exact_mod_cast hd
  have h1 : (m : ℝ) * 2 ^ s ≤ num / den := by
    rw [le_div_iff₀ hdR]; exact_mod_cast hm1
  have h2 : (num : ℝ) / den ≤ (m + 1) * 2 ^ s := by
    rw [div_le_iff₀ hdR]; exact_mod_cast hm2.le
  have lo : (2 * num ≤ (2 * m + 1) * 2 ^ s * den) → |((m * 2 ^ s : ℕ) : ℝ) - (num : ℝ) / den| ≤ 2 ^ s / 2 := by
    intro h
    have h3 : 2 * ((num : ℝ) / den) ≤ (2 * m + 1) * 2 ^ s := by
      rw [← mul_div_assoc, div_le_iff₀ hdR]; exact_mod_cast h
    push_cast
    rw [abs_sub_comm, abs_of_nonneg (by linarith)]
    linarith
  have hi : ((2 * m + 1) * 2 ^ s * den ≤ 2 * num) → |(((m + 1) * 2 ^ s : ℕ) : ℝ) - (num : ℝ) / den| ≤ 2 ^ s / 2 := by
    intro h
    have h3 : ((2 : ℝ) * m + 1) * 2 ^ s ≤ 2 * ((num : ℝ) / den) := by
      rw [← mul_div_assoc, le_div_iff₀ hdR]; exact_mod_cast h
    push_cast
    rw [abs_of_nonneg (by linarith)]
    linarith
  split
  · rename_i h; exact lo (compare_lt_iff_lt.1 h).le
  · rename_i h; exact hi (compare_gt_iff_gt.1 h).le
  · rename_i h
    have h := compare_eq_iff_eq.1 h
    split
    · exact lo h.le
    · exact hi h.ge

/-- relative error of normal numbers -/
theorem rnd_err (num den : ℕ) (hd : 0 < den) (h : 2 ^ 52 * den ≤ num) :
    |(rnd num den : ℝ) - (num : ℝ) / den| ≤ (num : ℝ) / den / 2 ^ 53 := by
  refine (rnd_err_ulp num den hd).trans ?_
  have hq : 2 ^ 52 ≤ num / den := (Nat.le_div_iff_mul_le hd).2 h
  have hq0 : num / den ≠ 0 := by
    have : 0 < 2 ^ 52 := by norm_num
    omega
  have hl : 52 ≤ Nat.log2 (num / den) := (Nat.le_log2 hq0).2 hq
  have h1 := Nat.log2_self_le hq0
  have hdR : (0 : ℝ) < den := by exact_mod_cast hd
  have h2 : ((2 : ℝ) ^ Nat.log2 (num / den)) ≤ (num : ℝ) / den := by
    rw [le_div_iff₀ hdR]
    exact_mod_cast (Nat.mul_le_mul_right den h1).trans (Nat.div_mul_le_self _ _)
  obtain ⟨k, hk⟩ : ∃ k, Nat.log2 (num / den) = k + 52 := ⟨_, (Nat.sub_add_cancel hl).symm⟩
  rw [hk] at h2 ⊢
  rw [Nat.add_sub_cancel, le_div_iff₀ (by positivity)]
  refine le_trans (le_of_eq ?_) h2
  rw [pow_add]
  ring

/-- numbers with 53 significant bits are not changed -/
theorem rnd_exact (num den m j : ℕ) (hd : 0 < den) (hm : m < 2 ^ 53) (h : num = m * 2 ^ j * den) : rnd num den = m * 2 ^ j := by
  have hq : num / den = m * 2 ^ j := by rw [h, Nat.mul_div_cancel _ hd]
  unfold rnd
  simp only
  rw [hq]
  have hs : Nat.log2 (m * 2 ^ j) - 52 ≤ j := by
    by_cases h0 : m * 2 ^ j = 0
    · rw [h0]; simp
    · have : Nat.log2 (m * 2 ^ j) < 53 + j := by
        rw [Nat.log2_lt h0, pow_add]
        exact Nat.mul_lt_mul_of_pos_right hm (by positivity)
      omega
  generalize Nat.log2 (m * 2 ^ j) - 52 = s at hs
  obtain ⟨t, rfl⟩ := Nat.exists_eq_add_of_le hs
  have hdiv : m * 2 ^ (s + t) / 2 ^ s = m * 2 ^ t := by
    rw [pow_add, mul_left_comm, Nat.mul_div_cancel_left _ (by positivity)]
  rw [hdiv]
  have hlt : compare (2 * num) ((2 * (m * 2 ^ t) + 1) * 2 ^ s * den) = .lt := by
    rw [compare_lt_iff_lt, h]
    have : 0 < 2 ^ s * den := by positivity
    calc 2 * (m * 2 ^ (s + t) * den) = 2 * (m * 2 ^ t) * (2 ^ s * den) := by rw [pow_add]; ring
      _ < 2 * (m * 2 ^ t) * (2 ^ s * den) + 2 ^ s * den := by omega
      _ = _ := by ring
  rw [hlt]
  simp only
  rw [pow_add]
  ring

example : rnd (2 ^ 53 + 1) 1 = 2 ^ 53 ∧ rnd (2 ^ 53 + 3) 1 = 2 ^ 53 + 4 ∧ rnd 7 2 = 4 ∧ rnd 5 2 = 2 := by decide +kernel

/-- one tenth: `0x3fb999999999999a` -/
example : div (ofNat 1) (ofNat 10) * 2 ^ 56 = 0x1999999999999a * unit := by decide +kernel

end Kami.F64
