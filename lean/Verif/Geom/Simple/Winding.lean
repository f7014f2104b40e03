import Verif.Geom.Simple.Angle
/-!
# Winding numbers

The winding number of a closed polyline around a point, counted by the crossings with the horizontal ray to the right; how
it changes along a segment that meets no edge, and around a vertex.
-/

set_option autoImplicit false

namespace Kami.Simple

open Kami Kami.Pred

variable {K : Type} [Field K] [LinearOrder K] [IsStrictOrderedRing K]

/-- crossing of the edge from `p` to `q` with the ray from `x` to the right: 1 upwards, -1 downwards -/
def wind (p q x : Vec2 K) : ℤ :=
  ind (p.y ≤ x.y ∧ x.y < q.y ∧ 0 < area2 p q x) - ind (q.y ≤ x.y ∧ x.y < p.y ∧ area2 p q x < 0)

/-- `p` is right of the segment from `x` to `y`, at a height in between; signed by the direction of the segment -/
def side (x y p : Vec2 K) : ℤ :=
  ind (x.y < p.y ∧ p.y ≤ y.y ∧ area2 x y p < 0) - ind (y.y < p.y ∧ p.y ≤ x.y ∧ area2 y x p < 0)

theorem ind_congr {p q : Prop} [Decidable p] [Decidable q] (h : p ↔ q) : ind p = ind q := by
  unfold ind
  by_cases hp : p
  · rw [if_pos hp, if_pos (h.1 hp)]
  · rw [if_neg hp, if_neg (fun hq => hp (h.2 hq))]

theorem ind_true {p : Prop} [Decidable p] (h : p) : ind p = 1 := if_pos h
theorem ind_false {p : Prop} [Decidable p] (h : ¬ p) : ind p = 0 := if_neg h

theorem wind_swap (p q x : Vec2 K) : wind q p x = -wind p q x := by
  unfold wind
  rw [area_flip p q x, neg_sub]
  congr 1
  · exact ind_congr (by rw [neg_pos])
  · exact ind_congr (by rw [neg_lt_zero])

theorem side_swap (x y p : Vec2 K) : side y x p = -side x y p := by unfold side; rw [neg_sub]

theorem wind_left (p q : Vec2 K) : wind p q p = 0 := by
  have h : area2 p q p = 0 := by rw [area2_eq]; ring
  unfold wind; rw [h, ind_false (by simp), ind_false (by simp)]; rfl

theorem wind_right (p q : Vec2 K) : wind p q q = 0 := by rw [← neg_eq_zero, ← wind_swap, wind_left]

/-- the segments have no point in common -/
def Apart (x y p q : Vec2 K) : Prop := ∀ z, OnSeg x y z → ¬ OnSeg p q z

theorem onSeg_comm {a b p : Vec2 K} (h : OnSeg a b p) : OnSeg b a p := by
  obtain ⟨t, t0, t1, h1, h2⟩ := h
  exact ⟨1 - t, by linarith, by linarith, by rw [h1]; ring, by rw [h2]; ring⟩

theorem onSeg_left (a b : Vec2 K) : OnSeg a b a := ⟨0, le_refl _, zero_le_one, by ring, by ring⟩
theorem onSeg_right (a b : Vec2 K) : OnSeg a b b := ⟨1, zero_le_one, le_refl _, by ring, by ring⟩

theorem onSeg_part {a b p q x : Vec2 K} (hp : OnSeg a b p) (hq : OnSeg a b q) (hx : OnSeg p q x) : OnSeg a b x := by
  obtain ⟨t, t0, t1, h1, h2⟩ := hp
  obtain ⟨u, u0, u1, h3, h4⟩ := hq
  obtain ⟨s, s0, s1, h5, h6⟩ := hx
  have s1' : 0 ≤ 1 - s := by linarith
  refine ⟨(1 - s) * t + s * u, by positivity, ?_, ?_, ?_⟩
  · nlinarith [mul_nonneg s1' (by linarith : 0 ≤ 1 - t), mul_nonneg s0 (by linarith : 0 ≤ 1 - u)]
  · rw [h5, h1, h3]; ring
  · rw [h6, h2, h4]; ring

theorem Apart.symm {x y p q : Vec2 K} (h : Apart x y p q) : Apart p q x y := fun z h1 h2 => h z h2 h1
theorem Apart.swap {x y p q : Vec2 K} (h : Apart x y p q) : Apart y x p q := fun z h1 => h z (onSeg_comm h1)
theorem Apart.swap' {x y p q : Vec2 K} (h : Apart x y p q) : Apart x y q p := fun z h1 h2 => h z h1 (onSeg_comm h2)
theorem Apart.part {x y p q x' y' : Vec2 K} (h : Apart x y p q) (h1 : OnSeg x y x') (h2 : OnSeg x y y') :
    Apart x' y' p q := fun z hz => h z (onSeg_part h1 h2 hz)

theorem onSeg_of_line {p q z : Vec2 K} (h : area2 p q z = 0) (hpq : p.y < q.y) (h1 : p.y ≤ z.y) (h2 : z.y ≤ q.y) :
    OnSeg p q z := by
  have hd : 0 < q.y - p.y := by linarith
  rw [area2_eq] at h
  refine ⟨(z.y - p.y) / (q.y - p.y), div_nonneg (by linarith) hd.le, (div_le_one hd).2 (by linarith), ?_, ?_⟩
  · have : z.x - p.x = (z.y - p.y) / (q.y - p.y) * (q.x - p.x) := by
      rw [div_mul_eq_mul_div, eq_div_iff hd.ne']; linarith
    linarith
  · rw [div_mul_cancel₀ _ hd.ne']; ring

/-- A segment with points on both sides of another, within its range of heights, meets it. -/
theorem meet_of_sides {x y p q z z' : Vec2 K} (hpq : p.y < q.y) (hz : OnSeg x y z) (hz' : OnSeg x y z')
    (h1 : p.y ≤ z.y) (h2 : z.y ≤ q.y) (h1' : p.y ≤ z'.y) (h2' : z'.y ≤ q.y) (ha : 0 ≤ area2 p q z)
    (ha' : area2 p q z' ≤ 0) : ∃ m, OnSeg x y m ∧ OnSeg p q m := by
  rcases eq_or_lt_of_le ha with h0 | h0
  · exact ⟨z, hz, onSeg_of_line h0.symm hpq h1 h2⟩
  · have hd : 0 < area2 p q z - area2 p q z' := by linarith
    set s := area2 p q z / (area2 p q z - area2 p q z') with hs
    have s0 : 0 ≤ s := div_nonneg ha hd.le
    have s1 : s ≤ 1 := (div_le_one hd).2 (by linarith)
    have hsd : s * (area2 p q z - area2 p q z') = area2 p q z := div_mul_cancel₀ _ hd.ne'
    have hon : OnSeg z z' ⟨z.x + s * (z'.x - z.x), z.y + s * (z'.y - z.y)⟩ := ⟨s, s0, s1, rfl, rfl⟩
    refine ⟨_, onSeg_part hz hz' hon, onSeg_of_line ?_ hpq ?_ ?_⟩
    · simp only [area2_eq] at hsd ⊢
      linear_combination (-1) * hsd
    · simp only; nlinarith [mul_nonneg s0 (by linarith : 0 ≤ z'.y - p.y), mul_nonneg (by linarith : 0 ≤ 1 - s) (by linarith : 0 ≤ z.y - p.y)]
    · simp only; nlinarith [mul_nonneg s0 (by linarith : 0 ≤ q.y - z'.y), mul_nonneg (by linarith : 0 ≤ 1 - s) (by linarith : 0 ≤ q.y - z.y)]

/-- the point of the segment from `x` to `y` at height `h` -/
theorem point_at {x y : Vec2 K} {h : K} (hxy : x.y < y.y) (h1 : x.y ≤ h) (h2 : h ≤ y.y) :
    ∃ z, OnSeg x y z ∧ z.y = h ∧ area2 x y z = 0 := by
  have hd : 0 < y.y - x.y := by linarith
  have hon : OnSeg x y ⟨x.x + (h - x.y) / (y.y - x.y) * (y.x - x.x), x.y + (h - x.y) / (y.y - x.y) * (y.y - x.y)⟩ :=
    ⟨(h - x.y) / (y.y - x.y), div_nonneg (by linarith) hd.le, (div_le_one hd).2 (by linarith), rfl, rfl⟩
  refine ⟨_, hon, ?_, area2_of_onSeg hon⟩
  simp only
  rw [div_mul_cancel₀ _ hd.ne']; ring

/-- comparing two points of the same height with a line -/
theorem area_level {p q z z' : Vec2 K} (h : z.y = z'.y) : area2 p q z - area2 p q z' = (z'.x - z.x) * (q.y - p.y) := by
  simp only [area2_eq, h]; ring

theorem wind_side_up {x y p q : Vec2 K} (hap : Apart x y p q) (hpq : p.y ≤ q.y) (hxy : x.y ≤ y.y) :
    wind p q x - wind p q y = side x y q - side x y p := by
  unfold wind side
  rw [ind_false (fun h => by linarith [h.1, h.2.1] : ¬ (q.y ≤ x.y ∧ x.y < p.y ∧ area2 p q x < 0)),
    ind_false (fun h => by linarith [h.1, h.2.1] : ¬ (q.y ≤ y.y ∧ y.y < p.y ∧ area2 p q y < 0)),
    ind_false (fun h => by linarith [h.1, h.2.1] : ¬ (y.y < q.y ∧ q.y ≤ x.y ∧ area2 y x q < 0)),
    ind_false (fun h => by linarith [h.1, h.2.1] : ¬ (y.y < p.y ∧ p.y ≤ x.y ∧ area2 y x p < 0))]
  simp only [sub_zero]
  have no : ∀ {x y p q z z' : Vec2 K}, Apart x y p q → p.y < q.y → OnSeg x y z → OnSeg x y z' → p.y ≤ z.y → z.y ≤ q.y →
      p.y ≤ z'.y → z'.y ≤ q.y → 0 ≤ area2 p q z → area2 p q z' ≤ 0 → False := by
    intro x y p q z z' hap h0 hz hz' h1 h2 h1' h2' ha ha'
    obtain ⟨m, m1, m2⟩ := meet_of_sides h0 hz hz' h1 h2 h1' h2' ha ha'
    exact hap m m1 m2
  by_cases c1 : q.y ≤ x.y
  · rw [ind_false (fun h => by linarith [h.2.1]), ind_false (fun h => by linarith [h.2.1]),
      ind_false (fun h => by linarith [h.1]), ind_false (fun h => by linarith [h.1])]
  by_cases c2 : y.y < p.y
  · rw [ind_false (fun h => by linarith [h.1]), ind_false (fun h => by linarith [h.1]),
      ind_false (fun h => by linarith [h.2.1]), ind_false (fun h => by linarith [h.2.1])]
  rw [not_le] at c1
  rw [not_lt] at c2
  by_cases c3 : p.y ≤ x.y <;> by_cases c4 : q.y ≤ y.y
  · -- the edge passes the height of `x` and ends below `y`
    rw [ind_false (fun h => by linarith [h.2.1] : ¬ (p.y ≤ y.y ∧ y.y < q.y ∧ 0 < area2 p q y)),
      ind_false (fun h => by linarith [h.1] : ¬ (x.y < p.y ∧ p.y ≤ y.y ∧ area2 x y p < 0)), sub_zero, sub_zero]
    have hxy' : x.y < y.y := by linarith
    have hpq' : p.y < q.y := by linarith
    obtain ⟨z, hz, hzy, hz0⟩ := point_at hxy' c1.le c4
    have e1 := area_level (p := x) (q := y) hzy.symm
    have e2 := area_level (p := p) (q := q) hzy
    have e3 : area2 p q q = 0 := by rw [area2_eq]; ring
    rw [hz0, sub_zero] at e1
    rw [e3, sub_zero] at e2
    apply ind_congr
    constructor
    · rintro ⟨_, _, h⟩
      refine ⟨c1, c4, ?_⟩
      rw [e1]
      by_contra hc
      have hle : area2 p q z ≤ 0 := by
        rw [e2]
        have : 0 ≤ z.x - q.x := by
          by_contra h'
          exact hc (mul_neg_of_neg_of_pos (not_le.1 h') (by linarith))
        exact mul_nonpos_of_nonpos_of_nonneg (by linarith) (by linarith)
      exact no hap hpq' (onSeg_left x y) hz c3 c1.le (by linarith) hzy.le h.le hle
    · rintro ⟨_, _, h⟩
      refine ⟨c3, c1, ?_⟩
      by_contra hc
      rw [e1] at h
      have hge : 0 ≤ area2 p q z := by
        rw [e2]
        have : z.x - q.x ≤ 0 := by
          by_contra h'
          exact absurd h (not_lt.2 (mul_nonneg (not_le.1 h').le (by linarith)))
        exact mul_nonneg (by linarith) (by linarith)
      exact no hap hpq' hz (onSeg_left x y) (by linarith) hzy.le c3 c1.le hge (not_lt.1 hc)
  · -- the edge passes both heights
    rw [not_le] at c4
    rw [ind_false (fun h => by linarith [h.2.1] : ¬ (x.y < q.y ∧ q.y ≤ y.y ∧ area2 x y q < 0)),
      ind_false (fun h => by linarith [h.1] : ¬ (x.y < p.y ∧ p.y ≤ y.y ∧ area2 x y p < 0)), sub_zero, sub_eq_zero]
    have hpq' : p.y < q.y := by linarith
    apply ind_congr
    constructor
    · rintro ⟨_, _, h⟩
      refine ⟨c2, c4, ?_⟩
      by_contra hc
      exact no hap hpq' (onSeg_left x y) (onSeg_right x y) c3 c1.le c2 c4.le h.le (not_lt.1 hc)
    · rintro ⟨_, _, h⟩
      refine ⟨c3, c1, ?_⟩
      by_contra hc
      exact no hap hpq' (onSeg_right x y) (onSeg_left x y) c2 c4.le c3 c1.le h.le (not_lt.1 hc)
  · -- the edge is between the heights of `x` and `y`
    rw [not_le] at c3
    rw [ind_false (fun h => by linarith [h.1] : ¬ (p.y ≤ x.y ∧ x.y < q.y ∧ 0 < area2 p q x)),
      ind_false (fun h => by linarith [h.2.1] : ¬ (p.y ≤ y.y ∧ y.y < q.y ∧ 0 < area2 p q y)), sub_zero]
    symm
    rw [sub_eq_zero]
    have hxy' : x.y < y.y := by linarith
    apply ind_congr
    constructor
    · rintro ⟨_, _, h⟩
      refine ⟨c3, c2, ?_⟩
      by_contra hc
      exact no hap.symm hxy' (onSeg_left p q) (onSeg_right p q) c3.le c2 c1.le c4 (not_lt.1 hc) h.le
    · rintro ⟨_, _, h⟩
      refine ⟨c1, c4, ?_⟩
      by_contra hc
      exact no hap.symm hxy' (onSeg_right p q) (onSeg_left p q) c1.le c4 c3.le c2 (not_lt.1 hc) h.le
  · -- the edge starts above `x` and passes the height of `y`
    rw [not_le] at c3 c4
    rw [ind_false (fun h => by linarith [h.1] : ¬ (p.y ≤ x.y ∧ x.y < q.y ∧ 0 < area2 p q x)),
      ind_false (fun h => by linarith [h.2.1] : ¬ (x.y < q.y ∧ q.y ≤ y.y ∧ area2 x y q < 0)), zero_sub, zero_sub, neg_inj]
    have hxy' : x.y < y.y := by linarith
    have hpq' : p.y < q.y := by linarith
    obtain ⟨z, hz, hzy, hz0⟩ := point_at hxy' c3.le c2
    have e1 := area_level (p := x) (q := y) hzy.symm
    have e2 := area_level (p := p) (q := q) hzy
    have e3 : area2 p q p = 0 := by rw [area2_eq]; ring
    rw [hz0, sub_zero] at e1
    rw [e3, sub_zero] at e2
    apply ind_congr
    constructor
    · rintro ⟨_, _, h⟩
      refine ⟨c3, c2, ?_⟩
      rw [e1]
      by_contra hc
      have hle : area2 p q z ≤ 0 := by
        rw [e2]
        have : 0 ≤ z.x - p.x := by
          by_contra h'
          exact hc (mul_neg_of_neg_of_pos (not_le.1 h') (by linarith))
        exact mul_nonpos_of_nonpos_of_nonneg (by linarith) (by linarith)
      exact no hap hpq' (onSeg_right x y) hz c2 c4.le hzy.ge (by linarith) h.le hle
    · rintro ⟨_, _, h⟩
      refine ⟨c2, c4, ?_⟩
      by_contra hc
      rw [e1] at h
      have hge : 0 ≤ area2 p q z := by
        rw [e2]
        have : z.x - p.x ≤ 0 := by
          by_contra h'
          exact absurd h (not_lt.2 (mul_nonneg (not_le.1 h').le (by linarith)))
        exact mul_nonneg (by linarith) (by linarith)
      exact no hap hpq' hz (onSeg_right x y) hzy.ge (by linarith) c2 c4.le hge (not_lt.1 hc)

/-- Along a segment that misses an edge, the crossing count of the edge changes by the difference of the sides of its ends. -/
theorem wind_side {x y p q : Vec2 K} (hap : Apart x y p q) :
    wind p q x - wind p q y = side x y q - side x y p := by
  rcases le_total p.y q.y with h | h <;> rcases le_total x.y y.y with h' | h'
  · exact wind_side_up hap h h'
  · have := wind_side_up hap.swap h h'
    rw [side_swap x y, side_swap x y] at this
    linarith
  · have := wind_side_up hap.swap' h h'
    rw [wind_swap p q, wind_swap p q] at this
    linarith
  · have := wind_side_up hap.swap.swap' h h'
    rw [side_swap x y, side_swap x y, wind_swap p q, wind_swap p q] at this
    linarith

/-- The contribution of an edge that ends at `v`, seen from `x`. -/
theorem wind_corner {v p x : Vec2 K} (hp : p ≠ v) (hx : x ≠ v) (hne : ang v p ≠ ang v x) :
    side x v p + wind p v x = ind (2 < ang v x) - ind (ang v p < ang v x) := by
  have bp := ang_bounds hp
  have bx := ang_bounds hx
  have up := ang_le_two hp
  have ux := ang_le_two hx
  have np := area_pos_iff hx hp
  have nn := area_neg_iff hx hp
  have e1 : area2 x v p = -area2 v x p := by simp only [area2_eq]; ring
  have e2 : area2 p v x = area2 v x p := by simp only [area2_eq]; ring
  have hd := area2_eq v x p
  unfold side wind
  rw [e1, e2]
  rcases lt_trichotomy x.y v.y with h | h | h
  · have hx2 : 2 < ang v x := by
      by_contra hc
      rcases ux.1 (not_lt.1 hc) with h1 | h1 <;> linarith [h1, h1]
    rw [ind_false (fun h' => by linarith [h'.1, h'.2.1] : ¬ (v.y < p.y ∧ p.y ≤ x.y ∧ area2 v x p < 0)),
      ind_false (fun h' => by linarith [h'.1, h'.2.1] : ¬ (v.y ≤ x.y ∧ x.y < p.y ∧ area2 v x p < 0)), ind_true hx2,
      sub_zero, sub_zero]
    by_cases hlt : ang v p < ang v x
    · rw [ind_true hlt]
      have key : ¬ (p.y ≤ v.y ∧ 0 < area2 v x p) := by
        rintro ⟨h1, h2⟩
        rcases np.1 h2 with h3 | h3
        · linarith
        · have : ang v p ≤ 2 := by linarith
          rcases up.1 this with h4 | ⟨h4, h5⟩
          · linarith
          · rw [hd, h4] at h2
            nlinarith
      rw [ind_false (fun h' => key ⟨h'.2.1, by linarith [h'.2.2]⟩), ind_false (fun h' => key ⟨by linarith [h'.1, h'.2.1], h'.2.2⟩)]
      rfl
    · rw [ind_false hlt]
      have hgt : ang v x < ang v p := lt_of_le_of_ne (not_lt.1 hlt) (Ne.symm hne)
      have hpos : 0 < area2 v x p := np.2 (Or.inl ⟨hgt, by linarith⟩)
      have hpl : p.y ≤ v.y := by
        by_contra hc
        have := up.2 (Or.inl (not_le.1 hc)); linarith
      by_cases h3 : x.y < p.y
      · rw [ind_true ⟨h3, hpl, by linarith⟩, ind_false (fun h' => by linarith [h'.1])]; rfl
      · rw [ind_false (fun h' => h3 h'.1), ind_true ⟨not_lt.1 h3, h, hpos⟩]; rfl
  · rw [ind_false (fun h' => by linarith [h'.1, h'.2.1] : ¬ (x.y < p.y ∧ p.y ≤ v.y ∧ -area2 v x p < 0)),
      ind_false (fun h' => by linarith [h'.1, h'.2.1] : ¬ (v.y < p.y ∧ p.y ≤ x.y ∧ area2 v x p < 0)),
      ind_false (fun h' => by linarith [h'.1, h'.2.1] : ¬ (p.y ≤ x.y ∧ x.y < v.y ∧ 0 < area2 v x p))]
    have hxx : x.x ≠ v.x := fun h' => hx (Vec2.ext h' h)
    rw [h, sub_self, mul_zero, sub_zero] at hd
    rcases lt_or_gt_of_ne hxx with h1 | h1
    · have hx2 : ang v x ≤ 2 := ux.2 (Or.inr ⟨h, h1⟩)
      -- the leftmost direction has pseudo-angle exactly 2
      have hxe : ang v x = 2 := by
        unfold ang
        rw [pseudo_up (Or.inr ⟨by rw [h, sub_self], by linarith⟩), h, sub_self, abs_zero, add_zero,
          abs_of_neg (by linarith : x.x - v.x < 0), div_neg, div_self (by linarith : x.x - v.x ≠ 0)]
        norm_num
      rw [ind_false (by linarith : ¬ 2 < ang v x)]
      by_cases hpy : v.y < p.y
      · rw [ind_true ⟨h.ge, by linarith, by rw [hd]; exact mul_neg_of_neg_of_pos (by linarith) (by linarith)⟩,
          ind_true (lt_of_le_of_ne (by rw [hxe]; exact up.2 (Or.inl hpy)) hne)]; rfl
      · rw [ind_false (fun h' => hpy (by linarith [h'.2.1])), ind_false]; · rfl
        intro hc
        have : ang v p ≤ 2 := by linarith
        rcases up.1 this with h4 | ⟨h4, h5⟩
        · exact hpy h4
        · apply hne
          rw [hxe]
          unfold ang
          rw [pseudo_up (Or.inr ⟨by rw [h4, sub_self], by linarith⟩), h4, sub_self, abs_zero, add_zero,
            abs_of_neg (by linarith : p.x - v.x < 0), div_neg, div_self (by linarith : p.x - v.x ≠ 0)]
          norm_num
    · have hnu : ¬ Up (x.x - v.x) (x.y - v.y) := by
        rintro (h2 | h2)
        · rw [h, sub_self] at h2; exact lt_irrefl _ h2
        · linarith [h2.2]
      have hxe : ang v x = 4 := by
        unfold ang
        rw [pseudo_low hnu, h, sub_self, abs_zero, add_zero,
          abs_of_pos (by linarith : 0 < x.x - v.x), div_self (by linarith : x.x - v.x ≠ 0)]
        norm_num
      rw [hxe, ind_true (by norm_num : (2 : K) < 4), ind_true (lt_of_le_of_ne bp.2 (by rw [← hxe]; exact hne)), ind_false]
      · rfl
      · rintro ⟨_, h2, h3⟩
        rw [hd] at h3
        have := mul_pos (by linarith : 0 < x.x - v.x) (by linarith : 0 < p.y - v.y)
        linarith
  · have hx2 : ang v x ≤ 2 := ux.2 (Or.inl h)
    rw [ind_false (fun h' => by linarith [h'.1, h'.2.1] : ¬ (x.y < p.y ∧ p.y ≤ v.y ∧ -area2 v x p < 0)),
      ind_false (fun h' => by linarith [h'.1, h'.2.1] : ¬ (p.y ≤ x.y ∧ x.y < v.y ∧ 0 < area2 v x p)),
      ind_false (by linarith : ¬ 2 < ang v x)]
    by_cases hlt : ang v p < ang v x
    · rw [ind_true hlt]
      have hneg : area2 v x p < 0 := nn.2 (Or.inl ⟨hlt, by linarith⟩)
      have hpy : v.y < p.y := by
        rcases up.1 (by linarith) with h4 | ⟨h4, h5⟩
        · exact h4
        · rw [hd, h4] at hneg
          have := mul_pos (by linarith : 0 < v.x - p.x) (by linarith : 0 < x.y - v.y)
          nlinarith
      by_cases h3 : p.y ≤ x.y
      · rw [ind_true ⟨hpy, h3, hneg⟩, ind_false (fun h' => by linarith [h'.2.1])]; rfl
      · rw [ind_false (fun h' => h3 h'.2.1), ind_true ⟨h.le, not_le.1 h3, hneg⟩]; rfl
    · rw [ind_false hlt]
      have hgt : ang v x < ang v p := lt_of_le_of_ne (not_lt.1 hlt) (Ne.symm hne)
      have key : ¬ (v.y < p.y ∧ area2 v x p < 0) := by
        rintro ⟨h1, h2⟩
        have := up.2 (Or.inl h1)
        rcases nn.1 h2 with h3 | h3 <;> linarith
      rw [ind_false (fun h' => key ⟨h'.1, h'.2.2⟩), ind_false (fun h' => key ⟨by linarith [h'.1, h'.2.1], h'.2.2⟩)]; rfl

end Kami.Simple
