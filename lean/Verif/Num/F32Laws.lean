import Verif.Num.F32
import Mathlib.Tactic.Ring
import Mathlib.Tactic.Linarith
import Mathlib.Algebra.Order.Ring.Int
import Mathlib.Order.Monotone.Basic
/-!
# Laws of the binary32 model

The grid `mag` is strictly increasing, `floorIdx` finds the grid value below, `roundIdx` the nearest one; the order
is the order of the values; addition and multiplication commute; differences are antisymmetric up to the sign of zero.
-/

set_option autoImplicit false

namespace Kami.F32

/-! ## the grid -/

theorem mag_succ (n : Nat) : mag (n + 1) = mag n + 2 ^ (n / 2 ^ 23 - 1) := by
  unfold mag
  rcases Nat.lt_or_ge (n % 2 ^ 23 + 1) (2 ^ 23) with h | h
  · have e : (n + 1) / 2 ^ 23 = n / 2 ^ 23 := by omega
    rw [e]
    have e2 : n + 1 - 2 ^ 23 * (n / 2 ^ 23 - 1) = (n - 2 ^ 23 * (n / 2 ^ 23 - 1)) + 1 := by omega
    rw [e2, Nat.add_mul, Nat.one_mul]
  · have e : (n + 1) / 2 ^ 23 = n / 2 ^ 23 + 1 := by omega
    rw [e]
    rcases Nat.eq_zero_or_pos (n / 2 ^ 23) with hk | hk
    · rw [hk]; simp
    · obtain ⟨k, hk'⟩ : ∃ k, n / 2 ^ 23 = k + 1 := ⟨n / 2 ^ 23 - 1, by omega⟩
      rw [hk']
      have e3 : n + 1 - 2 ^ 23 * (k + 1 + 1 - 1) = 2 ^ 23 := by omega
      have e4 : n - 2 ^ 23 * (k + 1 - 1) = 2 ^ 24 - 1 := by omega
      rw [e3, e4]
      simp only [Nat.add_sub_cancel]
      rw [pow_succ]
      omega

theorem mag_strictMono : StrictMono mag :=
  strictMono_nat_of_lt_succ fun n => by rw [mag_succ]; have := Nat.two_pow_pos (n / 2 ^ 23 - 1); omega

theorem mag_inj {m n : Nat} : mag m = mag n ↔ m = n := mag_strictMono.injective.eq_iff
theorem mag_lt {m n : Nat} : mag m < mag n ↔ m < n := mag_strictMono.lt_iff_lt
theorem mag_le {m n : Nat} : mag m ≤ mag n ↔ m ≤ n := mag_strictMono.le_iff_le
@[simp] theorem mag_zero : mag 0 = 0 := rfl
theorem mag_eq_zero {n : Nat} : mag n = 0 ↔ n = 0 := by
  have := @mag_inj n 0; rwa [mag_zero] at this

/-- `floorIdx q` is the index of the largest grid value not above `q`. -/
theorem floorIdx_spec (q : Nat) : mag (floorIdx q) ≤ q ∧ q < mag (floorIdx q + 1) := by
  suffices h : ∃ r < 2 ^ shift q, mag (floorIdx q) + r = q ∧
      mag (floorIdx q + 1) = mag (floorIdx q) + 2 ^ shift q by
    obtain ⟨r, hr, h1, h2⟩ := h
    omega
  refine ⟨q % 2 ^ shift q, Nat.mod_lt _ (Nat.two_pow_pos _), ?_⟩
  rcases Nat.lt_or_ge (Nat.log2 q) 24 with h | h
  · -- spacing one
    have hs : shift q = 0 := by unfold shift; omega
    have hq : q < 2 ^ 24 := by
      rcases Nat.eq_zero_or_pos q with h0 | h0
      · omega
      · exact lt_of_lt_of_le (Nat.lt_log2_self) (Nat.pow_le_pow_right (by norm_num) (by omega))
    have hf : floorIdx q = q := by unfold floorIdx; rw [hs]; omega
    rw [hf, mag_succ, hs]
    have hd : q / 2 ^ 23 - 1 = 0 := by omega
    rw [hd]
    unfold mag
    rw [hd]
    omega
  · -- normal numbers
    have hq0 : q ≠ 0 := by rintro rfl; simp [Nat.log2] at h
    obtain ⟨s, hs⟩ : ∃ s, Nat.log2 q = s + 23 := ⟨Nat.log2 q - 23, by omega⟩
    have hsh : shift q = s := by unfold shift; omega
    have hlo : 2 ^ (s + 23) ≤ q := by rw [← hs]; exact Nat.log2_self_le hq0
    have hhi : q < 2 ^ (s + 24) := by
      have := @Nat.lt_log2_self q
      rw [hs, show s + 23 + 1 = s + 24 by omega] at this; exact this
    have hdlo : 2 ^ 23 ≤ q / 2 ^ s := by
      apply (Nat.le_div_iff_mul_le (Nat.two_pow_pos s)).2
      rw [pow_add] at hlo
      linarith
    have hdhi : q / 2 ^ s < 2 ^ 24 := by
      apply (Nat.div_lt_iff_lt_mul (Nat.two_pow_pos s)).2
      rw [pow_add] at hhi
      linarith
    have hf : floorIdx q = q / 2 ^ s + 2 ^ 23 * s := by unfold floorIdx; rw [hsh]
    have hdiv : floorIdx q / 2 ^ 23 - 1 = s := by
      rw [hf]
      generalize q / 2 ^ s = d at *
      omega
    have hm : mag (floorIdx q) = q / 2 ^ s * 2 ^ s := by
      unfold mag
      rw [hdiv, hf, Nat.add_sub_cancel]
    rw [mag_succ, hdiv, hsh, hm]
    have := Nat.div_add_mod' q (2 ^ s)
    omega

/-- characterisation of the rounded index by the midpoints of the grid: `m + 1 ≤ roundIdx` iff the number is above
the midpoint of `m` and `m + 1`, or equal to it with `m` odd. -/
theorem succ_le_roundIdx (num den m : Nat) (hd : 0 < den) :
    m + 1 ≤ roundIdx num den ↔
      (mag m + mag (m + 1)) * den < 2 * num ∨ ((mag m + mag (m + 1)) * den = 2 * num ∧ m % 2 = 1) := by
  obtain ⟨h1, h2⟩ := floorIdx_spec (num / den)
  have h1' : mag (floorIdx (num / den)) * den ≤ num := by
    rwa [Nat.le_div_iff_mul_le hd] at h1
  have h2' : num < mag (floorIdx (num / den) + 1) * den := by
    rwa [Nat.div_lt_iff_lt_mul hd] at h2
  unfold roundIdx
  simp only
  generalize floorIdx (num / den) = n at *
  clear h1 h2
  have hn := mag_strictMono (Nat.lt_succ_self n)
  rcases lt_trichotomy m n with hmn | rfl | hmn
  · -- below: always
    have ha : mag (m + 1) ≤ mag n := mag_le.2 hmn
    have hb : mag m < mag n := mag_lt.2 hmn
    have hc : (mag m + mag (m + 1)) * den < 2 * num := by
      calc (mag m + mag (m + 1)) * den < (mag n + mag n) * den :=
            Nat.mul_lt_mul_of_pos_right (by omega) hd
        _ ≤ 2 * num := by rw [Nat.add_mul]; omega
    refine iff_of_true ?_ (Or.inl hc)
    have hr : n ≤ roundTo n (compare (2 * num) ((mag n + mag (n + 1)) * den)) := by
      unfold roundTo; split <;> try split
      all_goals omega
    omega
  · rcases hc : compare (2 * num) ((mag m + mag (m + 1)) * den) with _ | _ | _
    · rw [Nat.compare_eq_lt] at hc
      simp only [roundTo]; omega
    · rw [Nat.compare_eq_eq] at hc
      simp only [roundTo]; split <;> omega
    · rw [Nat.compare_eq_gt] at hc
      simp only [roundTo]; omega
  · have ha : mag (n + 1) ≤ mag m := mag_le.2 hmn
    have hb : mag m < mag (m + 1) := mag_lt.2 (Nat.lt_succ_self m)
    have hc : 2 * num < (mag m + mag (m + 1)) * den := by
      calc 2 * num < 2 * (mag (n + 1) * den) := by omega
        _ = (mag (n + 1) + mag (n + 1)) * den := by ring
        _ ≤ _ := Nat.mul_le_mul_right _ (by omega)
    refine iff_of_false ?_ (by omega)
    have hr : roundTo n (compare (2 * num) ((mag n + mag (n + 1)) * den)) ≤ n + 1 := by
      unfold roundTo; split <;> try split
      all_goals omega
    omega

/-- Rounding is monotone. -/
theorem roundIdx_mono (a b c d : Nat) (hb : 0 < b) (hd : 0 < d) (h : a * d ≤ c * b) :
    roundIdx a b ≤ roundIdx c d := by
  rcases hm : roundIdx a b with _ | m
  · omega
  · have h1 := (succ_le_roundIdx a b m hb).1 (by omega)
    rw [succ_le_roundIdx c d m hd]
    set s := mag m + mag (m + 1)
    rcases Nat.lt_or_ge (s * d) (2 * c) with h3 | h3
    · exact Or.inl h3
    · right
      have e1 : s * d * b ≤ 2 * a * d ∨ s * d * b ≤ 2 * a * d := by
        rcases h1 with h1 | h1
        · left; nlinarith
        · left; nlinarith [h1.1]
      have h4 : s * b * d ≤ 2 * a * d := by
        rcases e1 with e | e <;> nlinarith
      have h5 : 2 * c * b ≤ s * d * b := Nat.mul_le_mul_right b h3
      have h6 : s * d * b = 2 * c * b := by nlinarith
      have h7 : s * d = 2 * c := Nat.eq_of_mul_eq_mul_right hb h6
      have h8 : s * b * d = 2 * a * d := by nlinarith
      have h9 : s * b = 2 * a := Nat.eq_of_mul_eq_mul_right hd h8
      rcases h1 with h1 | h1
      · omega
      · exact ⟨h7, h1.2⟩

/-- Grid values are not changed by rounding. -/
theorem roundIdx_exact (n d : Nat) (hd : 0 < d) : roundIdx (mag n * d) d = n := by
  apply le_antisymm
  · by_contra h
    have h1 := (succ_le_roundIdx (mag n * d) d n hd).1 (by omega)
    have h2 : mag n < mag (n + 1) := mag_lt.2 (Nat.lt_succ_self n)
    have h3 : 2 * (mag n * d) < (mag n + mag (n + 1)) * d := by
      have : (mag n + mag n) * d < (mag n + mag (n + 1)) * d := Nat.mul_lt_mul_of_pos_right (by omega) hd
      nlinarith
    omega
  · rcases n with _ | m
    · omega
    · rw [succ_le_roundIdx _ _ _ hd]
      left
      have h2 : mag m < mag (m + 1) := mag_lt.2 (Nat.lt_succ_self m)
      have : (mag m + mag (m + 1)) * d < (mag (m + 1) + mag (m + 1)) * d := Nat.mul_lt_mul_of_pos_right (by omega) hd
      nlinarith

theorem roundIdx_zero (d : Nat) (hd : 0 < d) : roundIdx 0 d = 0 := by
  have := roundIdx_exact 0 d hd
  simpa using this

/-- The rounded number is nearest: no grid value is closer to `num / den`. -/
theorem roundIdx_nearest (num den m : Nat) (hd : 0 < den) :
    |((mag (roundIdx num den) * den : Nat) : Int) - num| ≤ |((mag m * den : Nat) : Int) - num| := by
  generalize hn : roundIdx num den = n
  push_cast
  rcases lt_trichotomy m n with h | h | h
  · obtain ⟨k, rfl⟩ : ∃ k, n = k + 1 := ⟨n - 1, by omega⟩
    have h1 := (succ_le_roundIdx num den k hd).1 (by omega)
    have h2 : mag m * den ≤ mag k * den := Nat.mul_le_mul_right _ (mag_le.2 (by omega))
    have h3 : (mag k + mag (k + 1)) * den ≤ 2 * num := by omega
    rw [Nat.add_mul] at h3
    have h4 : mag k * den < mag (k+1) * den := Nat.mul_lt_mul_of_pos_right (mag_lt.2 (Nat.lt_succ_self k)) hd
    zify at h2 h3 h4
    rw [abs_le]; constructor <;> cases abs_cases ((mag m : Int) * den - num) <;> linarith
  · rw [h]
  · have h1 : ¬ n + 1 ≤ roundIdx num den := by omega
    rw [succ_le_roundIdx num den n hd] at h1
    have h2 : mag (n + 1) * den ≤ mag m * den := Nat.mul_le_mul_right _ (mag_le.2 (by omega))
    have h3 : 2 * num ≤ (mag n + mag (n + 1)) * den := by omega
    rw [Nat.add_mul] at h3
    have h4 : mag n * den < mag (n+1) * den := Nat.mul_lt_mul_of_pos_right (mag_lt.2 (Nat.lt_succ_self n)) hd
    zify at h2 h3 h4
    rw [abs_le]; constructor <;> cases abs_cases ((mag m : Int) * den - num) <;> linarith

/-! ## order -/

@[simp] theorem val_neg (s : Bool) (n : Nat) : val (!s) n = -val s n := by cases s <;> simp [val]

/-- is a NaN -/
def isNan : F32 → Bool
  | nan => true
  | _ => false

/-- position in the order, for numbers that are not NaN (infinities beyond all finite values) -/
def key : F32 → Int
  | nan => 0
  | inf s => val s 0x7f800000
  | fin s n => val s n

theorem val_lt_inf (s : Bool) (n : Fin 0x7f800000) : val s n < val false 0x7f800000 := by
  have h := mag_lt.2 n.isLt
  have h2 : (mag n : Int) < mag 0x7f800000 := by exact_mod_cast h
  cases s <;> simp only [val] <;> simp <;> omega

theorem inf_lt_val (s : Bool) (n : Fin 0x7f800000) : val true 0x7f800000 < val s n := by
  have := val_lt_inf (!s) n
  rw [val_neg] at this
  have h2 : val true 0x7f800000 = -val false 0x7f800000 := val_neg false _
  omega

theorem lt_iff (a b : F32) : (F32.lt a b = true) ↔ isNan a = false ∧ isNan b = false ∧ key a < key b := by
  have hpos : val true 0x7f800000 < val false 0x7f800000 := by
    have := inf_lt_val false ⟨0, by norm_num⟩
    have := val_lt_inf false ⟨0, by norm_num⟩
    omega
  rcases a with _ | s | ⟨s, m⟩ <;> rcases b with _ | t | ⟨t, n⟩ <;> simp only [F32.lt, isNan, key]
  all_goals try simp
  · cases s <;> cases t <;> simp <;> omega
  · cases s
    · have := val_lt_inf t n; simp; omega
    · have := inf_lt_val t n; simpa using this
  · cases t
    · have := val_lt_inf s m; simpa using this
    · have := inf_lt_val s m; simp; omega

theorem eq_iff (a b : F32) : (F32.eq a b = true) ↔ isNan a = false ∧ isNan b = false ∧ key a = key b := by
  have hpos : val true 0x7f800000 < val false 0x7f800000 := by
    have := inf_lt_val false ⟨0, by norm_num⟩
    have := val_lt_inf false ⟨0, by norm_num⟩
    omega
  rcases a with _ | s | ⟨s, m⟩ <;> rcases b with _ | t | ⟨t, n⟩ <;> simp only [F32.eq, isNan, key]
  all_goals try simp
  · cases s <;> cases t <;> simp <;> omega
  · cases s
    · have := val_lt_inf t n; omega
    · have := inf_lt_val t n; omega
  · cases t
    · have := val_lt_inf s m; omega
    · have := inf_lt_val s m; omega

theorem le_iff (a b : F32) : (F32.le a b = true) ↔ isNan a = false ∧ isNan b = false ∧ key a ≤ key b := by
  unfold F32.le
  rw [Bool.or_eq_true, lt_iff, eq_iff]
  constructor
  · rintro (⟨h1, h2, h3⟩ | ⟨h1, h2, h3⟩) <;> exact ⟨h1, h2, by omega⟩
  · rintro ⟨h1, h2, h3⟩
    rcases lt_or_eq_of_le h3 with h | h
    · exact Or.inl ⟨h1, h2, h⟩
    · exact Or.inr ⟨h1, h2, h⟩

/-! ## commutativity and signs -/

theorem add_comm' (a b : F32) : F32.add a b = F32.add b a := by
  rcases a with _ | s | ⟨s, m⟩ <;> rcases b with _ | t | ⟨t, n⟩ <;> simp only [F32.add]
  · by_cases h : s = t
    · subst h; rfl
    · rw [if_neg h, if_neg (Ne.symm h)]
  · rw [Int.add_comm, Bool.and_comm]

theorem mul_comm' (a b : F32) : F32.mul a b = F32.mul b a := by
  rcases a with _ | s | ⟨s, m⟩ <;> rcases b with _ | t | ⟨t, n⟩ <;> simp only [F32.mul]
  · rw [Bool.xor_comm]
  · rw [Bool.xor_comm]
  · rw [Bool.xor_comm]
  · rw [Bool.xor_comm, Nat.mul_comm]

theorem neg_neg' (a : F32) : F32.neg (F32.neg a) = a := by
  rcases a with _ | s | ⟨s, m⟩ <;> simp [F32.neg]

theorem abs_neg' (a : F32) : F32.abs (F32.neg a) = F32.abs a := by
  rcases a with _ | s | ⟨s, m⟩ <;> simp [F32.neg, F32.abs]

theorem mul_neg_neg (a b : F32) : F32.mul (F32.neg a) (F32.neg b) = F32.mul a b := by
  rcases a with _ | s | ⟨s, m⟩ <;> rcases b with _ | t | ⟨t, n⟩ <;> simp [F32.mul, F32.neg]

theorem abs_pack (s : Bool) (n : Nat) : F32.abs (pack s n) = pack false n := by
  unfold pack; split <;> rfl

theorem neg_pack (s : Bool) (n : Nat) : F32.neg (pack s n) = pack (!s) n := by
  unfold pack; split <;> rfl

/-- `a - b` and `b - a` are negatives of each other, except that both are `+0.0` (or a NaN) when they are zero. -/
theorem sub_swap (a b : F32) : F32.sub a b = F32.neg (F32.sub b a) ∨
    (∃ s t, F32.sub a b = fin s ⟨0, by decide⟩ ∧ F32.sub b a = fin t ⟨0, by decide⟩) := by
  rcases a with _ | s | ⟨s, m⟩ <;> rcases b with _ | t | ⟨t, n⟩ <;>
    simp only [F32.sub, F32.add, F32.neg, Bool.not_not, true_or]
  · left
    cases s <;> cases t <;> rfl
  · have e : val s m + val (!t) n = -(val t n + val (!s) m) := by rw [val_neg, val_neg]; omega
    rw [e]
    generalize val t n + val (!s) m = z
    by_cases hz : z = 0
    · subst hz
      right
      exact ⟨_, _, rfl, rfl⟩
    · left
      rw [if_neg (by omega), if_neg hz, Int.natAbs_neg, round, round]
      change _ = F32.neg (pack _ _)
      rw [neg_pack]
      congr 1
      rcases lt_or_gt_of_ne hz with h | h
      · rw [decide_eq_false (by omega), decide_eq_true h]; rfl
      · rw [decide_eq_true (by omega), decide_eq_false (by omega)]; rfl

theorem abs_sub_comm' (a b : F32) : F32.abs (F32.sub a b) = F32.abs (F32.sub b a) := by
  rcases sub_swap a b with h | ⟨s, t, h1, h2⟩
  · rw [h, abs_neg']
  · rw [h1, h2]; rfl

theorem sq_sub_comm (a b : F32) :
    F32.mul (F32.sub a b) (F32.sub a b) = F32.mul (F32.sub b a) (F32.sub b a) := by
  rcases sub_swap a b with h | ⟨s, t, h1, h2⟩
  · rw [h, mul_neg_neg]
  · rw [h1, h2]; cases s <;> cases t <;> rfl

end Kami.F32
