import Verif.Num.F32Laws
import Mathlib.Tactic.NormNum
import Mathlib.Data.Rat.Cast.Order
/-!
# Exact f32 arithmetic on small multiples of a power of two

`Rep e x z` says that the `f32` `x` is finite with value `z * 2^(e-149)`.  Sums and products of such numbers are computed
without rounding as long as the result is at most `2^24` units.
-/

set_option autoImplicit false

namespace Kami.F32

/-- every integer up to `2^24`, in units of `2^e`, lies on the grid -/
theorem exists_mag (e : Nat) : ∀ m : Nat, m ≤ 2 ^ 24 → e ≤ 252 → ∃ n, n < 0x7f800000 ∧ mag n = m * 2 ^ e := by
  have big : ∀ e m : Nat, 2 ^ 23 ≤ m → m < 2 ^ 24 → e ≤ 253 → ∃ n, n < 0x7f800000 ∧ mag n = m * 2 ^ e := by
    intro e m h1 h2 he
    refine ⟨m + 2 ^ 23 * e, by omega, ?_⟩
    have hd : (m + 2 ^ 23 * e) / 2 ^ 23 - 1 = e := by omega
    unfold mag
    rw [hd, Nat.add_sub_cancel]
  have small : ∀ e m : Nat, m < 2 ^ 24 → e ≤ 253 → ∃ n, n < 0x7f800000 ∧ mag n = m * 2 ^ e := by
    intro e
    induction e with
    | zero =>
      intro m hm _
      refine ⟨m, by omega, ?_⟩
      have hd : m / 2 ^ 23 - 1 = 0 := by omega
      unfold mag
      rw [hd, Nat.mul_zero, Nat.sub_zero]
    | succ e ih =>
      intro m hm he
      by_cases h : m < 2 ^ 23
      · obtain ⟨n, hn, h1⟩ := ih (2 * m) (by omega) (by omega)
        exact ⟨n, hn, by rw [h1, pow_succ]; ring⟩
      · exact big (e + 1) m (by omega) hm he
  intro m hm he
  rcases Nat.lt_or_ge m (2 ^ 24) with h | h
  · exact small e m h (by omega)
  · obtain rfl : m = 2 ^ 24 := by omega
    obtain ⟨n, hn, h1⟩ := big (e + 1) (2 ^ 23) (le_refl _) (by norm_num) (by omega)
    exact ⟨n, hn, by rw [h1, pow_succ]; ring⟩

/-- `x` is finite and its value is `z * 2^(e-149)` -/
def Rep (e : Nat) (x : F32) (z : Int) : Prop := ∃ s n, x = fin s n ∧ val s n = z * 2 ^ e

theorem natAbs_val (s : Bool) (n : Nat) : (val s n).natAbs = mag n := by
  cases s <;> simp [val]

/-- rounding a grid value: nothing happens -/
theorem rep_round (e : Nat) (he : e ≤ 252) (z : Int) (hz : |z| ≤ 2 ^ 24) (s : Bool) (hs : z ≠ 0 → s = decide (z < 0))
    (num den : Nat) (hd : 0 < den) (hnum : num = z.natAbs * 2 ^ e * den) : Rep e (round s num den) z := by
  obtain ⟨n, hn, h1⟩ := exists_mag e z.natAbs (by zify; exact hz) he
  have hr : roundIdx num den = n := by rw [hnum, ← h1, roundIdx_exact n den hd]
  refine ⟨s, ⟨n, hn⟩, ?_, ?_⟩
  · unfold round pack; rw [hr, dif_pos hn]
  · show (if s = true then -(mag n : Int) else (mag n : Int)) = _
    rw [h1]
    push_cast
    by_cases h0 : z = 0
    · subst h0; simp
    · rw [hs h0]
      by_cases hneg : z < 0
      · rw [if_pos (by simpa using hneg), abs_of_neg hneg]; ring
      · rw [if_neg (by simpa using hneg), abs_of_nonneg (by omega)]

theorem Rep.neg {e : Nat} {x : F32} {z : Int} (h : Rep e x z) : Rep e (F32.neg x) (-z) := by
  obtain ⟨s, n, rfl, h⟩ := h
  exact ⟨!s, n, rfl, by rw [val_neg, h]; ring⟩

theorem Rep.add {e : Nat} {x y : F32} {a b : Int} (he : e ≤ 252) (hx : Rep e x a) (hy : Rep e y b)
    (hz : |a + b| ≤ 2 ^ 24) : Rep e (F32.add x y) (a + b) := by
  obtain ⟨s, m, rfl, h1⟩ := hx
  obtain ⟨t, n, rfl, h2⟩ := hy
  have hv : val s m + val t n = (a + b) * 2 ^ e := by rw [h1, h2]; ring
  have h2e : (0 : Int) < 2 ^ e := by positivity
  show Rep e (if val s m + val t n = 0 then fin (s && t) ⟨0, by decide⟩
    else round (decide (val s m + val t n < 0)) (val s m + val t n).natAbs 1) _
  rw [hv]
  by_cases h0 : (a + b) * 2 ^ e = 0
  · rw [if_pos h0]
    refine ⟨_, _, rfl, ?_⟩
    rw [h0]
    show (if (s && t) = true then -(mag 0 : Int) else (mag 0 : Int)) = 0
    simp
  · rw [if_neg h0]
    refine rep_round e he _ hz _ ?_ _ _ Nat.one_pos ?_
    · intro _
      congr 1
      exact propext ⟨fun h => by nlinarith, fun h => by nlinarith⟩
    · rw [Int.natAbs_mul, Nat.mul_one, Int.natAbs_pow]; rfl

theorem Rep.sub {e : Nat} {x y : F32} {a b : Int} (he : e ≤ 252) (hx : Rep e x a) (hy : Rep e y b)
    (hz : |a - b| ≤ 2 ^ 24) : Rep e (F32.sub x y) (a - b) := by
  rw [sub_eq_add_neg] at *
  exact Rep.add he hx hy.neg hz

theorem Rep.mul {e f : Nat} {x y : F32} {a b : Int} (hf : f ≤ 252) (hef : e + e = f + 149) (hx : Rep e x a)
    (hy : Rep e y b) (hz : |a * b| ≤ 2 ^ 24) : Rep f (F32.mul x y) (a * b) := by
  obtain ⟨s, m, rfl, h1⟩ := hx
  obtain ⟨t, n, rfl, h2⟩ := hy
  have m1 : mag m = a.natAbs * 2 ^ e := by rw [← natAbs_val s, h1, Int.natAbs_mul, Int.natAbs_pow]; rfl
  have m2 : mag n = b.natAbs * 2 ^ e := by rw [← natAbs_val t, h2, Int.natAbs_mul, Int.natAbs_pow]; rfl
  have h2e : (0 : Int) < 2 ^ e := by positivity
  have sgn : ∀ (s : Bool) (m : Nat) (a : Int), val s m = a * 2 ^ e → a ≠ 0 → s = decide (a < 0) := by
    intro s m a h ha
    have hm : (0 : Int) ≤ mag m := by positivity
    cases s
    · have h : (mag m : Int) = a * 2 ^ e := h
      symm
      rw [decide_eq_false_iff_not]
      intro hneg
      nlinarith
    · have h : -(mag m : Int) = a * 2 ^ e := h
      symm
      rw [decide_eq_true_iff]
      by_contra hneg
      have : 0 < a := by omega
      nlinarith
  refine rep_round f hf _ hz _ ?_ _ _ (by positivity) ?_
  · intro h0
    have ha : a ≠ 0 := left_ne_zero_of_mul h0
    have hb : b ≠ 0 := right_ne_zero_of_mul h0
    rw [sgn s m a h1 ha, sgn t n b h2 hb]
    rcases lt_or_gt_of_ne ha with h | h <;> rcases lt_or_gt_of_ne hb with h' | h'
    · have := mul_pos_of_neg_of_neg h h'
      simp [h, h', not_lt.2 this.le]
    · have := mul_neg_of_neg_of_pos h h'
      simp [h, not_lt.2 h'.le, this]
    · have := mul_neg_of_pos_of_neg h h'
      simp [h', not_lt.2 h.le, this]
    · have := mul_pos h h'
      simp [not_lt.2 h.le, not_lt.2 h'.le, not_lt.2 this.le]
  · rw [m1, m2, Int.natAbs_mul, show a.natAbs * 2 ^ e * (b.natAbs * 2 ^ e) = a.natAbs * b.natAbs * 2 ^ (e + e) by
      rw [pow_add]; ring, hef, pow_add]
    ring

theorem Rep.lt {e : Nat} {x y : F32} {a b : Int} (hx : Rep e x a) (hy : Rep e y b) :
    F32.lt x y = decide (a < b) := by
  obtain ⟨s, m, rfl, h1⟩ := hx
  obtain ⟨t, n, rfl, h2⟩ := hy
  have h2e : (0 : Int) < 2 ^ e := by positivity
  show decide (val s m < val t n) = _
  rw [h1, h2]
  congr 1
  exact propext (mul_lt_mul_iff_left₀ h2e)

theorem Rep.eq {e : Nat} {x y : F32} {a b : Int} (hx : Rep e x a) (hy : Rep e y b) :
    F32.eq x y = decide (a = b) := by
  obtain ⟨s, m, rfl, h1⟩ := hx
  obtain ⟨t, n, rfl, h2⟩ := hy
  have h2e : (2 : Int) ^ e ≠ 0 := by positivity
  show decide (val s m = val t n) = _
  rw [h1, h2]
  congr 1
  exact propext (mul_left_inj' h2e)

theorem Rep.le {e : Nat} {x y : F32} {a b : Int} (hx : Rep e x a) (hy : Rep e y b) :
    F32.le x y = decide (a ≤ b) := by
  show (F32.lt x y || F32.eq x y) = _
  rw [Rep.lt hx hy, Rep.eq hx hy, Bool.eq_iff_iff]
  simp only [Bool.or_eq_true, decide_eq_true_iff]
  exact le_iff_lt_or_eq.symm

theorem Rep.zero (e : Nat) : Rep e (ofBits 0) 0 := ⟨false, ⟨0, by decide⟩, rfl, by simp [val]⟩

/-- the rational value of a finite `f32` (0 for NaN and the infinities) -/
def toRat : F32 → ℚ
  | fin s n => (val s n : ℚ) / 2 ^ 149
  | _ => 0

theorem Rep.toRat {e : Nat} {x : F32} {z : Int} (h : Rep e x z) : toRat x = (z : ℚ) * (2 ^ e / 2 ^ 149) := by
  obtain ⟨s, n, rfl, h⟩ := h
  show (val s n : ℚ) / 2 ^ 149 = _
  rw [h]
  push_cast
  ring

end Kami.F32
