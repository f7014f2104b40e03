import Verif.Num.F32Laws
import Verif.Num.F32Int
import Mathlib.Analysis.SpecialFunctions.Pow.NNReal
import Mathlib.Tactic.Linarith
import Mathlib.Tactic.Positivity
import Mathlib.Tactic.NormNum
/-!
# The binary32 operations are correctly rounded

`add`, `sub`, `mul`, `div` and `sqrt` of the binary32 model return the number nearest to the exact result, ties to even,
and an infinity exactly from the IEEE-754 overflow threshold on.  From this the usual error bounds follow.
-/

set_option autoImplicit false

namespace Kami.F32

/-- the real value of a finite `f32` (0 for NaN and the infinities) -/
noncomputable def toReal : F32 → ℝ
  | fin s n => (val s n : ℝ) / 2 ^ 149
  | _ => 0

/-- neither NaN nor infinite -/
def IsFin (x : F32) : Prop := ∃ s n, x = fin s n

/-- the IEEE-754 overflow threshold: the middle between the largest finite number and `2^128` -/
noncomputable def maxHalf : ℝ := (2 ^ 25 - 1) * 2 ^ 103

/-- `x` is the result of rounding `r` to nearest, ties to even -/
def RoundsTo (r : ℝ) : F32 → Prop
  | nan => False
  | inf s => if s then r ≤ -maxHalf else maxHalf ≤ r
  | fin s n => |r| < maxHalf ∧
      (∀ t m, |r - toReal (fin s n)| ≤ |r - toReal (fin t m)|) ∧
      (∀ t m, |r - toReal (fin s n)| = |r - toReal (fin t m)| → toReal (fin t m) ≠ toReal (fin s n) → n.val % 2 = 0)

/-- `n` is the index of the grid value nearest to `r` (units of `2^-149`), ties to even -/
def RIdx (r : ℝ) (n : ℕ) : Prop :=
  ∀ m, m + 1 ≤ n ↔ ((mag m : ℝ) + mag (m + 1) < 2 * r ∨ ((mag m : ℝ) + mag (m + 1) = 2 * r ∧ m % 2 = 1))

theorem magR_lt {m n : ℕ} (h : m < n) : (mag m : ℝ) < mag n := by exact_mod_cast mag_lt.2 h
theorem magR_le {m n : ℕ} (h : m ≤ n) : (mag m : ℝ) ≤ mag n := by exact_mod_cast mag_le.2 h

theorem roundIdx_ridx (num den : ℕ) (hd : 0 < den) : RIdx ((num : ℝ) / den) (roundIdx num den) := by
  intro m
  rw [succ_le_roundIdx num den m hd]
  have hd' : (0 : ℝ) < den := by exact_mod_cast hd
  have e1 : (mag m + mag (m + 1)) * den < 2 * num ↔ (mag m : ℝ) + mag (m + 1) < 2 * ((num : ℝ) / den) := by
    rw [← mul_div_assoc, lt_div_iff₀ hd']
    exact_mod_cast Iff.rfl
  have e2 : (mag m + mag (m + 1)) * den = 2 * num ↔ (mag m : ℝ) + mag (m + 1) = 2 * ((num : ℝ) / den) := by
    rw [← mul_div_assoc, eq_div_iff hd'.ne']
    exact_mod_cast Iff.rfl
  rw [e1, e2]

namespace RIdx
variable {r : ℝ} {n : ℕ}

theorem upper (h : RIdx r n) : 2 * r ≤ (mag n : ℝ) + mag (n + 1) := by
  by_contra hc
  have := (h n).2 (Or.inl (by linarith))
  omega

theorem lower (h : RIdx r n) (k : ℕ) (hk : k + 1 ≤ n) : (mag k : ℝ) + mag (k + 1) ≤ 2 * r := by
  rcases (h k).1 hk with h1 | h1
  · exact h1.le
  · exact h1.1.le

theorem nearest (h : RIdx r n) (m : ℕ) : |r - mag n| ≤ |r - mag m| := by
  rcases lt_trichotomy m n with hm | rfl | hm
  · obtain ⟨k, rfl⟩ : ∃ k, n = k + 1 := ⟨n - 1, by omega⟩
    have h1 := h.lower k le_rfl
    have h2 : (mag m : ℝ) ≤ mag k := magR_le (by omega)
    have h3 : (mag k : ℝ) < mag (k + 1) := magR_lt (Nat.lt_succ_self k)
    rw [abs_le]; constructor <;> cases abs_cases (r - mag m) <;> linarith
  · exact le_rfl
  · have h1 := h.upper
    have h2 : (mag (n + 1) : ℝ) ≤ mag m := magR_le (by omega)
    have h3 : (mag n : ℝ) < mag (n + 1) := magR_lt (Nat.lt_succ_self n)
    rw [abs_le]; constructor <;> cases abs_cases (r - mag m) <;> linarith

theorem tie (h : RIdx r n) (m : ℕ) (hm : m ≠ n) (he : |r - mag n| = |r - mag m|) : n % 2 = 0 := by
  have h2r : (mag n : ℝ) + mag m = 2 * r := by
    rcases abs_eq_abs.1 he with h1 | h1
    · exact absurd (mag_inj.1 (by exact_mod_cast (by linarith : (mag m : ℝ) = mag n))) hm
    · linarith
  rcases lt_or_gt_of_ne hm with hlt | hgt
  · obtain ⟨k, rfl⟩ : ∃ k, n = k + 1 := ⟨n - 1, by omega⟩
    rcases (h k).1 le_rfl with h1 | h1
    · have h2 : (mag m : ℝ) ≤ mag k := magR_le (by omega)
      linarith
    · omega
  · have h1 : ¬ n + 1 ≤ n := by omega
    rw [h n, not_or, not_and] at h1
    by_cases hm1 : m = n + 1
    · subst hm1
      have := h1.2 h2r
      omega
    · have h2 : (mag (n + 1) : ℝ) < mag m := magR_lt (by omega)
      exact absurd (by linarith) h1.1

theorem inf_iff (h : RIdx r n) : n < 0x7f800000 ↔ r < maxHalf * 2 ^ 149 := by
  have e1 : (mag 0x7f7fffff : ℝ) + mag (0x7f7fffff + 1) = 2 * (maxHalf * 2 ^ 149) := by
    have a : mag 0x7f7fffff = (2 ^ 24 - 1) * 2 ^ 253 := by decide +kernel
    have b : mag (0x7f7fffff + 1) = 2 ^ 24 * 2 ^ 253 := by decide +kernel
    rw [a, b]
    unfold maxHalf
    push_cast
    norm_num
  have := h 0x7f7fffff
  rw [e1] at this
  have e3 : (0x7f7fffff : ℕ) % 2 = 1 := by norm_num
  constructor
  · intro hn
    by_contra hc
    push Not at hc
    have : 0x7f7fffff + 1 ≤ n := this.2 (by
      rcases hc.lt_or_eq with hc | hc
      · exact Or.inl (by linarith)
      · exact Or.inr ⟨by rw [hc], e3⟩)
    omega
  · intro hr
    by_contra hn
    rcases this.1 (by omega) with h1 | h1
    · linarith
    · linarith [h1.1]

/-- spacing of the grid above a normal number -/
theorem gap_le {k : ℕ} (hk : 2 ^ 23 ≤ k) : 2 ^ 23 * ((mag (k + 1) : ℝ) - mag k) ≤ mag k := by
  have h1 : mag (k + 1) = mag k + 2 ^ (k / 2 ^ 23 - 1) := mag_succ k
  have h2 : 2 ^ 23 * 2 ^ (k / 2 ^ 23 - 1) ≤ mag k := by
    unfold mag
    refine Nat.mul_le_mul_right _ ?_
    have : 1 ≤ k / 2 ^ 23 := (Nat.one_le_div_iff (by norm_num)).2 hk
    have := Nat.div_add_mod k (2 ^ 23)
    have : 2 ^ 23 * (k / 2 ^ 23 - 1) + 2 ^ 23 = 2 ^ 23 * (k / 2 ^ 23) := by
      rw [Nat.mul_sub, Nat.mul_one, Nat.sub_add_cancel]
      exact Nat.le_mul_of_pos_right _ (by omega)
    omega
  rw [h1]
  push_cast
  have h3 : ((2 ^ 23 * 2 ^ (k / 2 ^ 23 - 1) : ℕ) : ℝ) ≤ mag k := by exact_mod_cast h2
  push_cast at h3
  linarith

theorem gap_one {k : ℕ} (hk : k < 2 ^ 24) : (mag (k + 1) : ℝ) - mag k = 1 := by
  have h1 : mag (k + 1) = mag k + 2 ^ (k / 2 ^ 23 - 1) := mag_succ k
  have : k / 2 ^ 23 ≤ 1 := Nat.lt_succ_iff.1 (Nat.div_lt_of_lt_mul (by omega))
  have : k / 2 ^ 23 - 1 = 0 := by omega
  rw [h1, this]
  push_cast
  ring

/-- half a unit in the last place: relative error `2^-24`, or absolute error half the least subnormal -/
theorem err (h : RIdx r n) (hr : 0 ≤ r) : 2 ^ 24 * |r - mag n| ≤ r ∨ (n ≤ 2 ^ 23 ∧ |r - mag n| ≤ 1 / 2) := by
  have hu := h.upper
  by_cases hn : n ≤ 2 ^ 23
  · right
    refine ⟨hn, ?_⟩
    have g1 := gap_one (k := n) (by omega)
    rw [abs_le]
    constructor
    · rcases n with _ | k
      · simp only [mag_zero, Nat.cast_zero]; linarith
      · have := h.lower k le_rfl
        have g2 := gap_one (k := k) (by omega)
        linarith
    · linarith
  · left
    push Not at hn
    obtain ⟨k, rfl⟩ : ∃ k, n = k + 1 := ⟨n - 1, by omega⟩
    have hl := h.lower k le_rfl
    have g1 := gap_le (k := k + 1) (by omega)
    have g2 := gap_le (k := k) (by omega)
    have h3 : (mag k : ℝ) < mag (k + 1) := magR_lt (Nat.lt_succ_self k)
    rcases abs_cases (r - mag (k + 1)) with ⟨he, h5⟩ | ⟨he, h5⟩ <;> rw [he] <;> linarith

end RIdx

theorem toReal_fin (s : Bool) (n : Fin 0x7f800000) :
    toReal (fin s n) = (if s then -1 else 1) * (mag n : ℝ) / 2 ^ 149 := by
  unfold toReal val
  cases s <;> simp

/-- rounding a signed number -/
theorem pack_rounds {r : ℝ} (hr : 0 ≤ r) {n : ℕ} (h : RIdx r n) (s : Bool) :
    RoundsTo ((if s then -1 else 1) * (r / 2 ^ 149)) (pack s n) := by
  have hs : ∀ x : ℝ, |(if s then (-1 : ℝ) else 1) * x| = |x| := by intro x; cases s <;> simp
  have hi := h.inf_iff
  have hp : (0 : ℝ) < 2 ^ 149 := by positivity
  by_cases hn : n < 0x7f800000
  · rw [show pack s n = fin s ⟨n, hn⟩ from dif_pos hn]
    have hlt := hi.1 hn
    -- distance of the rounded value to the signed value with index `m` and sign `t`
    have key : ∀ (t : Bool) (m : ℕ), |(if s then (-1 : ℝ) else 1) * (r / 2 ^ 149) - (if t then -1 else 1) * (mag m : ℝ) / 2 ^ 149|
        = |r - (if s = t then 1 else -1) * (mag m : ℝ)| / 2 ^ 149 := by
      intro t m
      rw [← abs_of_pos hp, ← abs_div, abs_of_pos hp]
      cases s <;> cases t <;> simp
      · congr 1; ring
      · congr 1; ring
      · rw [← abs_neg]; congr 1; ring
      · rw [← abs_neg]; congr 1; ring
    have hb : ∀ (t : Bool) (m : ℕ), s ≠ t → |r - (if s = t then 1 else -1) * (mag m : ℝ)| = r + mag m := by
      intro t m hst
      rw [if_neg hst, abs_of_nonneg] <;> have : (0 : ℝ) ≤ mag m := Nat.cast_nonneg _
      · ring
      · linarith
    refine ⟨?_, ?_, ?_⟩
    · rw [hs, abs_of_nonneg (by positivity), div_lt_iff₀ hp]
      exact hlt
    · intro t m
      rw [toReal_fin, toReal_fin, key, key, if_pos rfl, one_mul]
      refine div_le_div_of_nonneg_right ?_ hp.le
      by_cases hst : s = t
      · rw [if_pos hst, one_mul]; exact h.nearest m
      · rw [hb t m hst]
        have := h.nearest 0
        rw [mag_zero, Nat.cast_zero, sub_zero, abs_of_nonneg hr] at this
        have : (0 : ℝ) ≤ mag m := Nat.cast_nonneg _
        linarith
    · intro t m he hne
      rw [toReal_fin, toReal_fin, key, key, if_pos rfl, one_mul] at he
      have he' := (div_left_inj' hp.ne').1 he
      by_cases hst : s = t
      · rw [if_pos hst, one_mul] at he'
        subst hst
        refine h.tie m ?_ he'
        intro hmn
        exact hne (by rw [toReal_fin, toReal_fin, hmn])
      · rw [hb t m hst] at he'
        have h0 := h.nearest 0
        rw [mag_zero, Nat.cast_zero, sub_zero, abs_of_nonneg hr] at h0
        have hm0 : (0 : ℝ) ≤ mag m := Nat.cast_nonneg _
        by_cases hn0 : n = 0
        · show n % 2 = 0
          omega
        · refine h.tie 0 (Ne.symm hn0) ?_
          rw [mag_zero, Nat.cast_zero, sub_zero, abs_of_nonneg hr]
          linarith
  · rw [show pack s n = inf s from dif_neg hn]
    have hge : maxHalf * 2 ^ 149 ≤ r := not_lt.1 (fun hc => hn (hi.2 hc))
    have : maxHalf ≤ r / 2 ^ 149 := by rwa [le_div_iff₀ hp]
    cases s
    · simpa [RoundsTo] using this
    · simp only [RoundsTo, if_true]
      linarith

theorem round_rounds (s : Bool) (num den : ℕ) (hd : 0 < den) :
    RoundsTo ((if s then -1 else 1) * ((num : ℝ) / den / 2 ^ 149)) (round s num den) :=
  pack_rounds (by positivity) (roundIdx_ridx num den hd) s

theorem zero_rounds (s : Bool) : RoundsTo 0 (fin s ⟨0, by decide⟩) := by
  have := pack_rounds (r := 0) le_rfl (n := 0) (by
    intro m
    have h1 : (0 : ℝ) ≤ mag m := Nat.cast_nonneg _
    have h2 : (mag m : ℝ) < mag (m + 1) := magR_lt (Nat.lt_succ_self m)
    constructor
    · intro h; omega
    · rintro (h | h)
      · linarith
      · linarith [h.1]) s
  simpa [pack] using this

/-- the sum of finite numbers is correctly rounded -/
theorem add_rounds (s t : Bool) (m n : Fin 0x7f800000) :
    RoundsTo (toReal (fin s m) + toReal (fin t n)) (F32.add (fin s m) (fin t n)) := by
  unfold F32.add
  simp only
  split
  · rename_i hz
    have : toReal (fin s m) + toReal (fin t n) = 0 := by
      unfold toReal
      rw [← add_div]
      have : ((val s m : ℝ) + val t n) = 0 := by exact_mod_cast hz
      rw [this, zero_div]
    rw [this]
    exact zero_rounds _
  · rename_i hz
    have h := round_rounds (decide (val s m + val t n < 0)) (val s m + val t n).natAbs 1 one_pos
    have e : (if decide (val s m + val t n < 0) = true then (-1 : ℝ) else 1) * (((val s m + val t n).natAbs : ℝ) / (1 : ℕ) / 2 ^ 149)
        = toReal (fin s m) + toReal (fin t n) := by
      have h1 : (((val s m + val t n).natAbs : ℕ) : ℝ) = |((val s m + val t n : ℤ) : ℝ)| := by
        rw [Nat.cast_natAbs, Int.cast_abs]
      rw [h1]
      unfold toReal
      by_cases hneg : val s m + val t n < 0
      · have : ((val s m + val t n : ℤ) : ℝ) < 0 := by exact_mod_cast hneg
        rw [abs_of_neg this]
        simp only [hneg, decide_true, if_true]
        push_cast
        ring
      · have : (0 : ℝ) ≤ ((val s m + val t n : ℤ) : ℝ) := by exact_mod_cast not_lt.1 hneg
        rw [abs_of_nonneg this]
        simp only [hneg, decide_false]
        push_cast
        simp
        ring
    rwa [e] at h

theorem toReal_neg (x : F32) : toReal (F32.neg x) = -toReal x := by
  cases x with
  | nan => simp [F32.neg, toReal]
  | inf s => simp [F32.neg, toReal]
  | fin s n => simp only [F32.neg, toReal, val_neg]; push_cast; ring

/-- the difference of finite numbers is correctly rounded -/
theorem sub_rounds (s t : Bool) (m n : Fin 0x7f800000) :
    RoundsTo (toReal (fin s m) - toReal (fin t n)) (F32.sub (fin s m) (fin t n)) := by
  have := add_rounds s (!t) m n
  rw [show fin (!t) n = F32.neg (fin t n) from rfl, toReal_neg, ← sub_eq_add_neg] at this
  exact this

theorem sign_xor (s t : Bool) : (if (s ^^ t) then (-1 : ℝ) else 1) = (if s then -1 else 1) * (if t then -1 else 1) := by
  cases s <;> cases t <;> simp

/-- the product of finite numbers is correctly rounded -/
theorem mul_rounds (s t : Bool) (m n : Fin 0x7f800000) :
    RoundsTo (toReal (fin s m) * toReal (fin t n)) (F32.mul (fin s m) (fin t n)) := by
  have h := round_rounds (s ^^ t) (mag m * mag n) (2 ^ 149) (by positivity)
  have e : (if (s ^^ t) then (-1 : ℝ) else 1) * (((mag m * mag n : ℕ) : ℝ) / ((2 ^ 149 : ℕ) : ℝ) / 2 ^ 149)
      = toReal (fin s m) * toReal (fin t n) := by
    rw [sign_xor, toReal_fin, toReal_fin]
    push_cast
    ring
  rw [e] at h
  exact h

/-- the quotient of finite numbers with non-zero divisor is correctly rounded -/
theorem div_rounds (s t : Bool) (m n : Fin 0x7f800000) (hn : n.val ≠ 0) :
    RoundsTo (toReal (fin s m) / toReal (fin t n)) (F32.div (fin s m) (fin t n)) := by
  have hpos : 0 < mag n := Nat.pos_of_ne_zero (fun h => hn (mag_eq_zero.1 h))
  have h := round_rounds (s ^^ t) (mag m * 2 ^ 149) (mag n) hpos
  have hpos' : (mag n : ℝ) ≠ 0 := by exact_mod_cast hpos.ne'
  have e : (if (s ^^ t) then (-1 : ℝ) else 1) * (((mag m * 2 ^ 149 : ℕ) : ℝ) / (mag n : ℝ) / 2 ^ 149)
      = toReal (fin s m) / toReal (fin t n) := by
    rw [sign_xor, toReal_fin, toReal_fin]
    rw [Nat.cast_mul, Nat.cast_pow, Nat.cast_ofNat]
    have hw : (2 : ℝ) ^ 149 ≠ 0 := by positivity
    generalize (2 : ℝ) ^ 149 = w at *
    cases s <;> cases t <;> simp <;> field_simp
  rw [e] at h
  unfold F32.div
  simp only [if_neg hn]
  exact h

/-! ## square root -/

theorem isqrtAux_spec (t : ℕ) : ∀ (k r : ℕ), r * r ≤ t → t < (r + 2 ^ k) * (r + 2 ^ k) →
    isqrtAux t k r * isqrtAux t k r ≤ t ∧ t < (isqrtAux t k r + 1) * (isqrtAux t k r + 1)
  | 0, r, h1, h2 => ⟨h1, by simpa [isqrtAux] using h2⟩
  | k + 1, r, h1, h2 => by
    unfold isqrtAux
    split
    · rename_i h
      refine isqrtAux_spec t k _ h ?_
      rw [show r + 2 ^ k + 2 ^ k = r + 2 ^ (k + 1) by rw [pow_succ]; ring]
      exact h2
    · rename_i h
      exact isqrtAux_spec t k r h1 (by omega)

theorem isqrt_spec (t : ℕ) : isqrt t * isqrt t ≤ t ∧ t < (isqrt t + 1) * (isqrt t + 1) := by
  unfold isqrt
  refine isqrtAux_spec t _ 0 (by simp) ?_
  rw [Nat.zero_add, ← pow_add]
  have h1 : t < 2 ^ (Nat.log2 t + 1) := Nat.lt_log2_self
  refine lt_of_lt_of_le h1 (Nat.pow_le_pow_right (by norm_num) ?_)
  omega

theorem sqrtIdx_ridx (t : ℕ) : RIdx (Real.sqrt t) (sqrtIdx t) := by
  intro m
  have ht : (0 : ℝ) ≤ t := Nat.cast_nonneg _
  obtain ⟨h1, h2⟩ := floorIdx_spec (isqrt t)
  obtain ⟨q1, q2⟩ := isqrt_spec t
  have hlo : (mag (floorIdx (isqrt t)) : ℝ) ≤ Real.sqrt t := by
    refine Real.le_sqrt_of_sq_le ?_
    have : mag (floorIdx (isqrt t)) ^ 2 ≤ t := by
      rw [sq]; exact le_trans (Nat.mul_le_mul h1 h1) q1
    exact_mod_cast this
  have hhi : Real.sqrt t < (mag (floorIdx (isqrt t) + 1) : ℝ) := by
    rw [Real.sqrt_lt' (by exact_mod_cast (lt_of_le_of_lt (Nat.zero_le _) h2))]
    have : t < mag (floorIdx (isqrt t) + 1) ^ 2 := by
      rw [sq]; exact lt_of_lt_of_le q2 (Nat.mul_le_mul h2 h2)
    exact_mod_cast this
  unfold sqrtIdx
  simp only
  generalize floorIdx (isqrt t) = n at *
  have hn : (mag n : ℝ) < mag (n + 1) := magR_lt (Nat.lt_succ_self n)
  have hn0 : (0 : ℝ) ≤ mag n := Nat.cast_nonneg _
  have hsq : 2 * Real.sqrt t = Real.sqrt ((4 * t : ℕ) : ℝ) := by
    push_cast
    rw [Real.sqrt_mul (by norm_num), show (4 : ℝ) = 2 ^ 2 by norm_num, Real.sqrt_sq (by norm_num)]
  have c1 : 4 * t < (mag n + mag (n + 1)) * (mag n + mag (n + 1)) ↔ 2 * Real.sqrt t < (mag n : ℝ) + mag (n + 1) := by
    rw [hsq, Real.sqrt_lt' (by linarith), sq]
    exact_mod_cast Iff.rfl
  have c2 : (mag n + mag (n + 1)) * (mag n + mag (n + 1)) < 4 * t ↔ (mag n : ℝ) + mag (n + 1) < 2 * Real.sqrt t := by
    rw [hsq, Real.lt_sqrt (by linarith), sq]
    exact_mod_cast Iff.rfl
  rcases lt_trichotomy m n with hmn | rfl | hmn
  · have ha : (mag (m + 1) : ℝ) ≤ mag n := magR_le hmn
    have hb : (mag m : ℝ) < mag n := magR_lt hmn
    refine iff_of_true ?_ (Or.inl (by linarith))
    have hr : n ≤ roundTo n (compare (4 * t) ((mag n + mag (n + 1)) * (mag n + mag (n + 1)))) := by
      unfold roundTo; split <;> try split
      all_goals omega
    omega
  · rcases hc : compare (4 * t) ((mag m + mag (m + 1)) * (mag m + mag (m + 1))) with _ | _ | _
    · rw [Nat.compare_eq_lt] at hc
      have := c1.1 hc
      simp only [roundTo]
      refine iff_of_false (by omega) ?_
      rintro (h | h)
      · linarith
      · linarith [h.1]
    · rw [Nat.compare_eq_eq] at hc
      have e1 : ¬ 2 * Real.sqrt t < (mag m : ℝ) + mag (m + 1) := by rw [← c1]; omega
      have e2 : ¬ (mag m : ℝ) + mag (m + 1) < 2 * Real.sqrt t := by rw [← c2]; omega
      simp only [roundTo]
      split
      · refine iff_of_false (by omega) ?_
        rintro (h | h)
        · exact e2 h
        · omega
      · refine iff_of_true le_rfl (Or.inr ⟨by linarith [not_lt.1 e1, not_lt.1 e2], by omega⟩)
    · rw [Nat.compare_eq_gt] at hc
      simp only [roundTo]
      exact iff_of_true le_rfl (Or.inl (c2.1 hc))
  · have ha : (mag (n + 1) : ℝ) ≤ mag m := magR_le hmn
    have hb : (mag m : ℝ) < mag (m + 1) := magR_lt (Nat.lt_succ_self m)
    refine iff_of_false ?_ (by rintro (h | h) <;> [linarith; linarith [h.1]])
    have hr : roundTo n (compare (4 * t) ((mag n + mag (n + 1)) * (mag n + mag (n + 1)))) ≤ n + 1 := by
      unfold roundTo; split <;> try split
      all_goals omega
    omega

/-- the square root of a non-negative finite number is correctly rounded -/
theorem sqrt_rounds (n : Fin 0x7f800000) :
    RoundsTo (Real.sqrt (toReal (fin false n))) (F32.sqrt (fin false n)) := by
  unfold F32.sqrt
  simp only [Bool.false_eq_true, if_false]
  split
  · rename_i h0
    have : n = ⟨0, by decide⟩ := Fin.ext h0
    subst this
    have : toReal (fin false ⟨0, by decide⟩) = 0 := by simp [toReal, val]
    rw [this, Real.sqrt_zero]
    exact zero_rounds false
  · have h := pack_rounds (Real.sqrt_nonneg _) (sqrtIdx_ridx (mag n * 2 ^ 149)) false
    have e : (if false = true then (-1 : ℝ) else 1) * (Real.sqrt ((mag n * 2 ^ 149 : ℕ) : ℝ) / 2 ^ 149)
        = Real.sqrt (toReal (fin false n)) := by
      rw [toReal_fin, Nat.cast_mul, Nat.cast_pow, Nat.cast_ofNat, if_neg Bool.false_ne_true, one_mul, one_mul]
      rw [show (mag n : ℝ) / 2 ^ 149 = (mag n * 2 ^ 149) / (2 ^ 149) ^ 2 by field_simp,
        Real.sqrt_div' _ (by positivity), Real.sqrt_sq (by positivity)]
    rw [e] at h
    exact h

end Kami.F32
