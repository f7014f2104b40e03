import Verif.Geom.TriArea
/-!
# Directions around a point

A pseudo-angle for directions in the plane over a linearly ordered field, the sign of the cross product in terms of it, and
the interior cone test of `Polygon::in_cone` as a statement on the cyclic order of three directions.
-/

set_option autoImplicit false

namespace Kami.Simple

open Kami Kami.Pred

variable {K : Type} [Field K] [LinearOrder K] [IsStrictOrderedRing K]

/-- pseudo-angle of the vector `(x, y)`: increases with the angle in `(0, 2π]` and has values in `(0, 4]` -/
def pseudo (x y : K) : K :=
  if 0 < y ∨ (y = 0 ∧ x < 0) then 1 - x / (|x| + |y|) else 3 + x / (|x| + |y|)

/-- pseudo-angle of the direction from `v` to `p` -/
def ang (v p : Vec2 K) : K := pseudo (p.x - v.x) (p.y - v.y)

/-- the three numbers are distinct and `y` is met first when going up from `x` and around to `z` -/
def cyc (x y z : K) : Prop := (x < y ∧ y < z) ∨ (y < z ∧ z < x) ∨ (z < x ∧ x < y)

/-- 1 if the proposition holds, else 0 -/
def ind (p : Prop) [Decidable p] : ℤ := if p then 1 else 0

theorem norm1_pos {x y : K} (h : ¬ (x = 0 ∧ y = 0)) : 0 < |x| + |y| := by
  rcases not_and_or.1 h with h | h
  · have := abs_pos.2 h; have := abs_nonneg y; linarith
  · have := abs_pos.2 h; have := abs_nonneg x; linarith

theorem ratio_le {x y : K} (h : ¬ (x = 0 ∧ y = 0)) : x / (|x| + |y|) ≤ 1 ∧ -1 ≤ x / (|x| + |y|) := by
  have hp := norm1_pos h
  rw [div_le_one hp, le_div_iff₀ hp]
  have := abs_nonneg y; have := le_abs_self x; have := neg_abs_le x
  constructor <;> linarith

/-- the upper half plane with the negative x-axis -/
def Up (x y : K) : Prop := 0 < y ∨ (y = 0 ∧ x < 0)

theorem up_neg {x y : K} (h : ¬ (x = 0 ∧ y = 0)) : Up (-x) (-y) ↔ ¬ Up x y := by
  unfold Up
  constructor
  · rintro (h1 | ⟨h1, h2⟩) (h3 | ⟨h3, h4⟩) <;> linarith
  · intro h1
    push Not at h1
    obtain ⟨h1, h2⟩ := h1
    rcases lt_or_eq_of_le h1 with h3 | h3
    · left; linarith
    · right
      have := h2 h3
      refine ⟨by linarith, ?_⟩
      rcases lt_or_eq_of_le this with h4 | h4
      · linarith
      · exact absurd ⟨h4.symm, h3⟩ h

theorem pseudo_up {x y : K} (h : Up x y) : pseudo x y = 1 - x / (|x| + |y|) := if_pos h
theorem pseudo_low {x y : K} (h : ¬ Up x y) : pseudo x y = 3 + x / (|x| + |y|) := if_neg h

theorem pseudo_neg {x y : K} (h0 : ¬ (x = 0 ∧ y = 0)) (h : ¬ Up x y) : pseudo x y = pseudo (-x) (-y) + 2 := by
  rw [pseudo_low h, pseudo_up ((up_neg h0).2 h), abs_neg, abs_neg, neg_div]; ring

theorem pseudo_up_bounds {x y : K} (h : Up x y) : 0 < pseudo x y ∧ pseudo x y ≤ 2 := by
  have h0 : ¬ (x = 0 ∧ y = 0) := by rintro ⟨rfl, rfl⟩; rcases h with h | h <;> simp at h
  rw [pseudo_up h]
  have hr := ratio_le h0
  refine ⟨?_, by linarith⟩
  have hp := norm1_pos h0
  have : x / (|x| + |y|) < 1 := by
    rw [div_lt_one hp]
    rcases h with h | ⟨h1, h2⟩
    · have := abs_pos.2 h.ne'; have := le_abs_self x; linarith
    · have := abs_pos.2 h2.ne; have := abs_nonneg y; linarith
  linarith

theorem pseudo_low_bounds {x y : K} (h0 : ¬ (x = 0 ∧ y = 0)) (h : ¬ Up x y) : 2 < pseudo x y ∧ pseudo x y ≤ 4 := by
  rw [pseudo_neg h0 h]
  have := pseudo_up_bounds ((up_neg h0).2 h)
  constructor <;> linarith

theorem pseudo_up_lt {x y x' y' : K} (h : Up x y) (h' : Up x' y') :
    pseudo x y < pseudo x' y' ↔ 0 < x * y' - x' * y := by
  have h0 : ¬ (x = 0 ∧ y = 0) := by rintro ⟨rfl, rfl⟩; rcases h with h | h <;> simp at h
  have h0' : ¬ (x' = 0 ∧ y' = 0) := by rintro ⟨rfl, rfl⟩; rcases h' with h | h <;> simp at h
  have hp := norm1_pos h0
  have hp' := norm1_pos h0'
  have hy : 0 ≤ y := by rcases h with h | h; exacts [h.le, h.1.ge]
  have hy' : 0 ≤ y' := by rcases h' with h | h; exacts [h.le, h.1.ge]
  rw [pseudo_up h, pseudo_up h']
  have : (1 - x / (|x| + |y|) < 1 - x' / (|x'| + |y'|)) ↔ x' / (|x'| + |y'|) < x / (|x| + |y|) := by
    constructor <;> intro h <;> linarith
  rw [this, div_lt_div_iff₀ hp' hp, abs_of_nonneg hy, abs_of_nonneg hy']
  rcases le_or_gt 0 x with hx | hx <;> rcases le_or_gt 0 x' with hx' | hx'
  · rw [abs_of_nonneg hx, abs_of_nonneg hx']
    constructor <;> intro h <;> nlinarith
  · rw [abs_of_nonneg hx, abs_of_neg hx']
    have hyp : 0 < y := by rcases h with h | h; exacts [h, absurd h.2 (not_lt.2 hx)]
    constructor
    · intro _; nlinarith [mul_nonneg hx hy', mul_pos (neg_pos.2 hx') hyp]
    · intro _; nlinarith [mul_nonneg hx hy', mul_pos (neg_pos.2 hx') hyp, mul_nonneg hx (neg_pos.2 hx').le]
  · rw [abs_of_neg hx, abs_of_nonneg hx']
    constructor
    · intro h; nlinarith [mul_nonneg (neg_pos.2 hx).le hy', mul_nonneg hx' hy, mul_nonneg hx' (neg_pos.2 hx).le]
    · intro h; nlinarith [mul_nonneg (neg_pos.2 hx).le hy', mul_nonneg hx' hy, mul_nonneg hx' (neg_pos.2 hx).le]
  · rw [abs_of_neg hx, abs_of_neg hx']
    constructor <;> intro h <;> nlinarith

/-- the sign of the cross product from the pseudo-angles -/
theorem cross_pos_iff {x y x' y' : K} (h0 : ¬ (x = 0 ∧ y = 0)) (h0' : ¬ (x' = 0 ∧ y' = 0)) :
    0 < x * y' - x' * y ↔ (pseudo x y < pseudo x' y' ∧ pseudo x' y' < pseudo x y + 2) ∨
      pseudo x' y' < pseudo x y - 2 := by
  have hn : ¬ (-x = 0 ∧ -y = 0) := by simpa using h0
  have hn' : ¬ (-x' = 0 ∧ -y' = 0) := by simpa using h0'
  by_cases h : Up x y <;> by_cases h' : Up x' y'
  · have b := pseudo_up_bounds h
    have b' := pseudo_up_bounds h'
    rw [← pseudo_up_lt h h']
    constructor
    · intro h; left; exact ⟨h, by linarith⟩
    · rintro (h | h)
      · exact h.1
      · linarith
  · have b := pseudo_up_bounds h
    have hm := (up_neg h0').2 h'
    have b' := pseudo_up_bounds hm
    rw [pseudo_neg h0' h']
    have e : x * y' - x' * y = (-x') * y - x * (-y') := by ring
    rw [e, ← pseudo_up_lt hm h]
    constructor
    · intro h; left; constructor <;> linarith
    · rintro (h | h) <;> linarith
  · have b' := pseudo_up_bounds h'
    have hm := (up_neg h0).2 h
    have b := pseudo_up_bounds hm
    rw [pseudo_neg h0 h]
    have e : x * y' - x' * y = x' * (-y) - (-x) * y' := by ring
    rw [e, ← pseudo_up_lt h' hm]
    constructor
    · intro h; right; linarith
    · rintro (h | h) <;> linarith
  · have hm := (up_neg h0).2 h
    have b := pseudo_up_bounds hm
    have hm' := (up_neg h0').2 h'
    have b' := pseudo_up_bounds hm'
    rw [pseudo_neg h0 h, pseudo_neg h0' h']
    have e : x * y' - x' * y = (-x) * (-y') - (-x') * (-y) := by ring
    rw [e, ← pseudo_up_lt hm hm']
    constructor
    · intro h; left; constructor <;> linarith
    · rintro (h | h) <;> linarith

/-! ### around a point -/

theorem ne_dir {v p : Vec2 K} (h : p ≠ v) : ¬ (p.x - v.x = 0 ∧ p.y - v.y = 0) := by
  rintro ⟨h1, h2⟩
  exact h (Vec2.ext (sub_eq_zero.1 h1) (sub_eq_zero.1 h2))

theorem ang_bounds {v p : Vec2 K} (h : p ≠ v) : 0 < ang v p ∧ ang v p ≤ 4 := by
  unfold ang
  by_cases hu : Up (p.x - v.x) (p.y - v.y)
  · have := pseudo_up_bounds hu; constructor <;> linarith
  · have := pseudo_low_bounds (ne_dir h) hu; constructor <;> linarith

/-- the direction points up, or exactly to the left -/
theorem ang_le_two {v p : Vec2 K} (h : p ≠ v) : ang v p ≤ 2 ↔ v.y < p.y ∨ (p.y = v.y ∧ p.x < v.x) := by
  have e : Up (p.x - v.x) (p.y - v.y) ↔ v.y < p.y ∨ (p.y = v.y ∧ p.x < v.x) := by
    unfold Up; rw [sub_pos, sub_eq_zero, sub_neg]
  rw [← e]
  unfold ang
  constructor
  · intro h1
    by_contra hc
    have := pseudo_low_bounds (ne_dir h) hc
    linarith
  · intro h1; exact (pseudo_up_bounds h1).2

/-- `q` is strictly to the left of the ray from `v` to `p` -/
theorem area_pos_iff {v p q : Vec2 K} (hp : p ≠ v) (hq : q ≠ v) :
    0 < area2 v p q ↔ (ang v p < ang v q ∧ ang v q < ang v p + 2) ∨ ang v q < ang v p - 2 :=
  cross_pos_iff (ne_dir hp) (ne_dir hq)

theorem area_swap (v p q : Vec2 K) : area2 v q p = -area2 v p q := by simp only [area2_eq]; ring
theorem area_cyc (a b c : Vec2 K) : area2 b c a = area2 a b c := by simp only [area2_eq]; ring
theorem area_flip (a b c : Vec2 K) : area2 b a c = -area2 a b c := by simp only [area2_eq]; ring

theorem area_neg_iff {v p q : Vec2 K} (hp : p ≠ v) (hq : q ≠ v) :
    area2 v p q < 0 ↔ (ang v q < ang v p ∧ ang v p < ang v q + 2) ∨ ang v p < ang v q - 2 := by
  rw [← area_pos_iff hq hp, area_swap v p q, neg_pos]

/-- equal pseudo-angles: the same ray -/
theorem ang_eq_area {v p q : Vec2 K} (hp : p ≠ v) (hq : q ≠ v) (h : ang v p = ang v q) : area2 v p q = 0 := by
  rcases lt_trichotomy (area2 v p q) 0 with h1 | h1 | h1
  · rw [area_neg_iff hp hq, h] at h1
    rcases h1 with h1 | h1 <;> exfalso <;> linarith
  · exact h1
  · rw [area_pos_iff hp hq, h] at h1
    rcases h1 with h1 | h1 <;> exfalso <;> linarith

theorem pseudo_mul {x y t : K} (ht : 0 < t) : pseudo (t * x) (t * y) = pseudo x y := by
  have e : Up (t * x) (t * y) ↔ Up x y := by
    unfold Up
    rw [mul_pos_iff_of_pos_left ht, mul_eq_zero, or_iff_right ht.ne', mul_neg_iff]
    constructor
    · rintro (h | ⟨h1, h2 | h2⟩)
      · exact Or.inl h
      · exact Or.inr ⟨h1, h2.2⟩
      · exact absurd h2.1 (not_lt.2 ht.le)
    · rintro (h | ⟨h1, h2⟩)
      · exact Or.inl h
      · exact Or.inr ⟨h1, Or.inl ⟨ht, h2⟩⟩
  have er : t * x / (|t * x| + |t * y|) = x / (|x| + |y|) := by
    rw [abs_mul, abs_mul, abs_of_pos ht, ← mul_add, mul_div_mul_left _ _ ht.ne']
  by_cases h : Up x y
  · rw [pseudo_up h, pseudo_up (e.2 h), er]
  · rw [pseudo_low h, pseudo_low (fun h' => h (e.1 h')), er]

/-- points of a segment other than its start have the direction of its end -/
theorem ang_onSeg {v p x : Vec2 K} (h : OnSeg v p x) (hx : x ≠ v) : ang v x = ang v p := by
  obtain ⟨t, t0, t1, h1, h2⟩ := h
  have ht : 0 < t := by
    rcases lt_or_eq_of_le t0 with h | h
    · exact h
    · exfalso; apply hx; subst h; exact Vec2.ext (by rw [h1]; ring) (by rw [h2]; ring)
  unfold ang
  rw [show x.x - v.x = t * (p.x - v.x) by rw [h1]; ring, show x.y - v.y = t * (p.y - v.y) by rw [h2]; ring, pseudo_mul ht]

/-- two points in the same direction: one of them is on the segment to the other -/
theorem onSeg_of_ang_eq {v p q : Vec2 K} (hp : p ≠ v) (hq : q ≠ v) (h : ang v p = ang v q) :
    OnSeg v p q ∨ OnSeg v q p := by
  have key : ∀ {p q : Vec2 K}, p ≠ v → q ≠ v → ang v p = ang v q → area2 v p q = 0 → |p.x - v.x| + |p.y - v.y| ≤ |q.x - v.x| + |q.y - v.y| →
      OnSeg v q p := by
    intro p q hp hq h _ hle
    have hP := norm1_pos (ne_dir hp)
    have hQ := norm1_pos (ne_dir hq)
    set P := |p.x - v.x| + |p.y - v.y| with hPd
    set Q := |q.x - v.x| + |q.y - v.y| with hQd
    -- equal halves and equal ratios
    have hup : Up (p.x - v.x) (p.y - v.y) ↔ Up (q.x - v.x) (q.y - v.y) := by
      unfold ang at h
      constructor
      · intro h1; by_contra h2
        have := pseudo_up_bounds h1; have := pseudo_low_bounds (ne_dir hq) h2; linarith
      · intro h1; by_contra h2
        have := pseudo_up_bounds h1; have := pseudo_low_bounds (ne_dir hp) h2; linarith
    have hr : (p.x - v.x) / P = (q.x - v.x) / Q := by
      unfold ang at h
      by_cases hu : Up (p.x - v.x) (p.y - v.y)
      · rw [pseudo_up hu, pseudo_up (hup.1 hu)] at h; linarith
      · rw [pseudo_low hu, pseudo_low (fun h' => hu (hup.2 h'))] at h; linarith
    have hx : p.x - v.x = P / Q * (q.x - v.x) := by
      rw [div_eq_iff hP.ne'] at hr; rw [hr]; ring
    have hPQ : 0 < P / Q := div_pos hP hQ
    have hax : |p.x - v.x| = P / Q * |q.x - v.x| := by rw [hx, abs_mul, abs_of_pos hPQ]
    have hay : |p.y - v.y| = P / Q * |q.y - v.y| := by
      have h1 : P / Q * Q = P := div_mul_cancel₀ _ hQ.ne'
      have : P / Q * |q.x - v.x| + P / Q * |q.y - v.y| = P := by rw [← mul_add, ← hQd, h1]
      linarith
    have hy : p.y - v.y = P / Q * (q.y - v.y) := by
      by_cases hu : Up (p.x - v.x) (p.y - v.y)
      · have h1 : 0 ≤ p.y - v.y := by rcases hu with h | h; exacts [h.le, h.1.ge]
        have h2 : 0 ≤ q.y - v.y := by rcases hup.1 hu with h | h; exacts [h.le, h.1.ge]
        rwa [abs_of_nonneg h1, abs_of_nonneg h2] at hay
      · have hu' : ¬ Up (q.x - v.x) (q.y - v.y) := fun h' => hu (hup.2 h')
        have h1 : p.y - v.y ≤ 0 := by by_contra hc; exact hu (Or.inl (not_le.1 hc))
        have h2 : q.y - v.y ≤ 0 := by by_contra hc; exact hu' (Or.inl (not_le.1 hc))
        rw [abs_of_nonpos h1, abs_of_nonpos h2] at hay
        linarith
    exact ⟨P / Q, hPQ.le, (div_le_one hQ).2 hle, by linarith, by linarith⟩
  have ha := ang_eq_area hp hq h
  rcases le_total (|p.x - v.x| + |p.y - v.y|) (|q.x - v.x| + |q.y - v.y|) with hle | hle
  · exact Or.inr (key hp hq h ha hle)
  · exact Or.inl (key hq hp h.symm (by rw [area_swap, ha, neg_zero]) hle)

/-! ### the cone test -/

/-- The interior cone test of the code is the cyclic order of the three directions: starting at the next vertex `n` and
turning counter-clockwise, `b` comes before the previous vertex `p`. -/
theorem cone_test {v n p b : Vec2 K} (hn : n ≠ v) (hp : p ≠ v) (hb : b ≠ v) (hne : ang v n ≠ ang v p) :
    (if leftOn v n p then left v b p && left b v n else !(leftOn v b n && leftOn b v p)) = true ↔
      cyc (ang v n) (ang v b) (ang v p) := by
  have bn := ang_bounds hn
  have bp := ang_bounds hp
  have bb := ang_bounds hb
  have e1 : area2 b v n = area2 v n b := by simp only [area2_eq]; ring
  have e2 : area2 b v p = area2 v p b := by simp only [area2_eq]; ring
  unfold cyc
  split
  · rename_i hc
    rw [leftOn_iff, ← not_lt, area_neg_iff hn hp] at hc
    rw [Bool.and_eq_true, left_iff, left_iff, e1, area_pos_iff hb hp, area_pos_iff hn hb]
    push Not at hc
    obtain ⟨c1, c2⟩ := hc
    rcases lt_or_gt_of_ne hne with h | h
    · constructor
      · rintro ⟨h1 | h1, h2 | h2⟩
        · exact Or.inl ⟨h2.1, h1.1⟩
        · linarith
        · linarith
        · linarith
      · rintro (h1 | h1 | h1)
        · exact ⟨Or.inl ⟨h1.2, by linarith⟩, Or.inl ⟨h1.1, by linarith⟩⟩
        · linarith
        · linarith
    · have c1' := c1 h
      constructor
      · rintro ⟨h1 | h1, h2 | h2⟩
        · linarith
        · exact Or.inr (Or.inl ⟨h1.1, h⟩)
        · exact Or.inr (Or.inr ⟨h, h2.1⟩)
        · linarith
      · rintro (h1 | h1 | h1)
        · linarith
        · exact ⟨Or.inl ⟨h1.1, by linarith⟩, Or.inr (by linarith)⟩
        · exact ⟨Or.inr (by linarith), Or.inl ⟨h1.2, by linarith⟩⟩
  · rename_i hc
    rw [leftOn_iff, not_le, area_neg_iff hn hp] at hc
    rw [Bool.not_eq_true', Bool.and_eq_false_iff, ← Bool.not_eq_true, ← Bool.not_eq_true, leftOn_iff, leftOn_iff, e2,
      not_le, not_le, area_neg_iff hb hn, area_neg_iff hp hb]
    constructor
    · rintro ((h1 | h1) | (h1 | h1)) <;> rcases hc with h | h <;>
        first
        | (exfalso; linarith)
        | (by_cases h3 : ang v b < ang v p
           · first
             | exact Or.inl ⟨by linarith, by linarith⟩
             | exact Or.inr (Or.inl ⟨by linarith, by linarith⟩)
             | exact Or.inr (Or.inr ⟨by linarith, by linarith⟩)
           · first
             | exact Or.inl ⟨by linarith, by linarith⟩
             | exact Or.inr (Or.inl ⟨by linarith, by linarith⟩)
             | exact Or.inr (Or.inr ⟨by linarith, by linarith⟩))
    · rintro (h1 | h1 | h1) <;> rcases hc with h | h
      · linarith
      · by_cases h3 : ang v b < ang v n + 2
        · exact Or.inl (Or.inl ⟨by linarith, by linarith⟩)
        · exact Or.inr (Or.inl ⟨by linarith, by linarith⟩)
      · by_cases h3 : ang v b < ang v n - 2
        · exact Or.inl (Or.inr (by linarith))
        · exact Or.inr (Or.inl ⟨by linarith, by linarith⟩)
      · linarith
      · by_cases h3 : ang v b < ang v n + 2
        · exact Or.inl (Or.inl ⟨by linarith, by linarith⟩)
        · exact Or.inr (Or.inr (by linarith))
      · linarith

end Kami.Simple
