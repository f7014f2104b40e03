import Verif.Num.Lawful
/-!
# Searching and filtering point lists

`find_closest_to`, `close_to` and `unique_points_among` (src/geometry/utils.rs:137-194), for every arithmetic obeying
`LawfulScalar`: both f32 and exact.
-/

set_option autoImplicit false

namespace Kami
namespace UtilThm

open scoped Kami
open Utils

section lawful
variable {F : Type} [Scalar F] [LawfulScalar F]

open LawfulScalar

/-- `a < b ≤ c` style transitivity: nothing below `b` is below `a` once `a < b` fails the other way -/
theorem not_lt_of_lt_of_not_lt {a b q : F} (h : (a <. b) = true) (hq : (q <. b) = false) : (q <. a) = false := by
  rw [← Bool.not_eq_true]; intro hc
  rw [lt_trans q a b hc h] at hq; cases hq

theorem not_le_of_lt_of_not_lt {a b q : F} (h : (a <. b) = true) (hq : (q <. b) = false) : (q ≤. a) = false := by
  rw [← Bool.not_eq_true]; intro hc
  obtain ⟨hn, _, hlt⟩ := (le_iff q a).1 hc
  rcases lt_cotrans a b q h hn with h' | h'
  · rw [h'] at hlt; cases hlt
  · rw [h'] at hq; cases hq

theorem closestLoop_spec (ds : List F) : ∀ (index mi : Nat) (md : F),
    (closestLoop ds index mi md = (mi, md) ∧ ∀ q ∈ ds, (q <. md) = false) ∨
    ∃ k d, closestLoop ds index mi md = (index + k, d) ∧ ds[k]? = some d ∧ (d <. md) = true ∧
      (∀ q ∈ ds, (q <. d) = false) ∧ ∀ j q, j < k → ds[j]? = some q → (q ≤. d) = false := by
  induction ds with
  | nil => intro index mi md; left; exact ⟨rfl, by simp⟩
  | cons x xs ih =>
    intro index mi md
    simp only [closestLoop]
    by_cases hx : (x <. md) = true
    · rw [if_pos hx]
      right
      rcases ih (index + 1) index x with ⟨h1, h2⟩ | ⟨k, d, h1, h2, h3, h4, h5⟩
      · refine ⟨0, x, by rw [h1]; rfl, rfl, hx, ?_, by intro j q hj; omega⟩
        intro q hq
        rcases List.mem_cons.1 hq with rfl | hq
        · exact lt_irrefl _
        · exact h2 q hq
      · refine ⟨k + 1, d, by rw [h1]; congr 1; omega, by simpa using h2, lt_trans _ _ _ h3 hx, ?_, ?_⟩
        · intro q hq
          rcases List.mem_cons.1 hq with rfl | hq
          · exact not_lt_of_lt_of_not_lt h3 (lt_irrefl _)
          · exact h4 q hq
        · intro j q hj hq
          cases j with
          | zero =>
            simp only [List.getElem?_cons_zero, Option.some.injEq] at hq
            subst hq
            exact not_le_of_lt_of_not_lt h3 (lt_irrefl _)
          | succ j => exact h5 j q (by omega) (by simpa using hq)
    · rw [if_neg hx]
      rw [Bool.not_eq_true] at hx
      rcases ih (index + 1) mi md with ⟨h1, h2⟩ | ⟨k, d, h1, h2, h3, h4, h5⟩
      · left
        refine ⟨h1, ?_⟩
        intro q hq
        rcases List.mem_cons.1 hq with rfl | hq
        · exact hx
        · exact h2 q hq
      · right
        refine ⟨k + 1, d, by rw [h1]; congr 1; omega, by simpa using h2, h3, ?_, ?_⟩
        · intro q hq
          rcases List.mem_cons.1 hq with rfl | hq
          · exact not_lt_of_lt_of_not_lt h3 hx
          · exact h4 q hq
        · intro j q hj hq
          cases j with
          | zero =>
            simp only [List.getElem?_cons_zero, Option.some.injEq] at hq
            subst hq
            exact not_le_of_lt_of_not_lt h3 hx
          | succ j => exact h5 j q (by omega) (by simpa using hq)

/-- **C45.** If some point lies at a distance below `f32::MAX`, `find_closest_to` returns the position of a point of the
list and that point's distance; no point is nearer, and every earlier point is strictly farther (points at NaN distance
are passed over).  Otherwise, in particular for the empty list, it returns `(0, f32::MAX)`. -/
theorem C45_closest (t : Vec2 F) (points : List (Vec2 F)) :
    ((∃ p ∈ points, (distance t p <. Scalar.maxValue) = true) →
      ∃ i p, points[i]? = some p ∧ findClosestTo t points = (i, distance t p) ∧
        (distance t p <. Scalar.maxValue) = true ∧ (∀ q ∈ points, (distance t q <. distance t p) = false) ∧
        ∀ j q, j < i → points[j]? = some q → (distance t q ≤. distance t p) = false) ∧
    ((∀ p ∈ points, (distance t p <. Scalar.maxValue) = false) →
      findClosestTo t points = (0, Scalar.maxValue)) := by
  have h := closestLoop_spec (points.map fun p => distance t p) 0 0 (Scalar.maxValue : F)
  have hf : findClosestTo t points = closestLoop (points.map fun p => distance t p) 0 0 Scalar.maxValue := rfl
  rw [hf]
  constructor
  · rintro ⟨p, hp, hlt⟩
    rcases h with ⟨_, h2⟩ | ⟨k, d, h1, h2, h3, h4, h5⟩
    · rw [h2 _ (List.mem_map.2 ⟨p, hp, rfl⟩)] at hlt; cases hlt
    · rw [List.getElem?_map] at h2
      obtain ⟨q, hq, rfl⟩ := Option.map_eq_some_iff.1 h2
      refine ⟨k, q, hq, by rw [h1]; simp, h3, fun r hr => h4 _ (List.mem_map.2 ⟨r, hr, rfl⟩), ?_⟩
      intro j r hj hr
      exact h5 j _ hj (by rw [List.getElem?_map, hr]; rfl)
  · intro hall
    rcases h with ⟨h1, _⟩ | ⟨k, d, h1, h2, h3, h4, h5⟩
    · exact h1
    · rw [List.getElem?_map] at h2
      obtain ⟨q, hq, rfl⟩ := Option.map_eq_some_iff.1 h2
      have := hall q (List.mem_of_getElem? hq)
      rw [this] at h3; cases h3

/-- **C45**, the empty list -/
theorem C45_empty (t : Vec2 F) : findClosestTo t [] = (0, Scalar.maxValue) :=
  (C45_closest t []).2 (by simp)

theorem closeTo_symm (a b : Vec2 F) : closeTo a b = closeTo b a := by
  unfold closeTo; rw [LawfulScalar.dist_comm]

/-- closeness is the negation of being more than `eps` apart, NaN apart -/
theorem closeTo_iff (a b : Vec2 F) : closeTo a b = true ↔ isNum (distance a b) ∧
    (Scalar.epsilon <. distance a b) = false := by
  unfold closeTo
  rw [le_iff]
  have := (lt_num _ _ (eps_lt_max (F := F))).1
  tauto

/-! ### unique_points_among -/

/-- points within one list position of each other -/
def Lonely (ps : List (Vec2 F)) (i : Nat) (a : Vec2 F) : Prop :=
  ∀ j b, ps[j]? = some b → j ≠ i → closeTo a b = false

omit [LawfulScalar F] in
theorem isUnique_iff (i : Nat) (a : Vec2 F) (bs : List (Vec2 F)) : ∀ j0,
    isUnique i a bs j0 = true ↔ ∀ j b, bs[j]? = some b → j0 + j ≠ i → closeTo a b = false := by
  induction bs with
  | nil => intro j0; simp [isUnique]
  | cons b bs ih =>
    intro j0
    simp only [isUnique]
    by_cases hc : (i != j0 && closeTo a b) = true
    · rw [if_pos hc]
      simp only [Bool.and_eq_true, bne_iff_ne, ne_eq] at hc
      constructor
      · intro h; cases h
      · intro h
        have := h 0 b rfl (by omega)
        rw [hc.2] at this; cases this
    · rw [if_neg hc, ih]
      constructor
      · intro h j c hj hne
        cases j with
        | zero =>
          simp only [List.getElem?_cons_zero, Option.some.injEq] at hj
          subst hj
          rw [← Bool.not_eq_true]; intro hcl
          exact hc (by simp only [Bool.and_eq_true, bne_iff_ne, ne_eq]; exact ⟨by omega, hcl⟩)
        | succ j => exact h j c (by simpa using hj) (by omega)
      · intro h j c hj hne
        exact h (j + 1) c (by simpa using hj) (by omega)

omit [LawfulScalar F] in
/-- the outer loop keeps the lonely points, in order -/
theorem uniqueLoop_eq (ps as : List (Vec2 F)) : ∀ i,
    uniqueLoop ps as i = ((as.zipIdx i).filter fun x => isUnique x.2 x.1 ps 0).map Prod.fst := by
  induction as with
  | nil => intro i; rfl
  | cons a as ih =>
    intro i
    simp only [uniqueLoop, List.zipIdx_cons, List.filter_cons]
    by_cases h : isUnique i a ps 0 = true
    · rw [if_pos h, if_pos h, ih]; rfl
    · rw [if_neg h, if_neg h, ih]

omit [LawfulScalar F] in
theorem mem_unique (ps : List (Vec2 F)) (p : Vec2 F) :
    p ∈ uniquePointsAmong ps ↔ ∃ i, ps[i]? = some p ∧ Lonely ps i p := by
  unfold uniquePointsAmong
  rw [uniqueLoop_eq]
  constructor
  · intro h
    obtain ⟨⟨q, i⟩, hx, rfl⟩ := List.mem_map.1 h
    obtain ⟨h1, h2⟩ := List.mem_filter.1 hx
    have h1 := List.mk_mem_zipIdx_iff_getElem?.1 h1
    refine ⟨i, h1, ?_⟩
    intro j b hj hne
    exact (isUnique_iff i q ps 0).1 h2 j b hj (by omega)
  · rintro ⟨i, hi, hl⟩
    refine List.mem_map.2 ⟨(p, i), List.mem_filter.2 ⟨List.mk_mem_zipIdx_iff_getElem?.2 hi, ?_⟩, rfl⟩
    refine (isUnique_iff i p ps 0).2 ?_
    intro j b hj hne
    exact hl j b hj (by omega)

omit [LawfulScalar F] in
/-- **C47, partial.** `unique_points_among` returns a sublist of the input, consisting of exactly those points that have
no close point at another position; its points are pairwise not close.  Missing from the full statement: every input
point has a close point in the result.  That is false (`C47_counterexample`). -/
theorem C47_unique_partial (ps : List (Vec2 F)) :
    (uniquePointsAmong ps).Sublist ps ∧
    (∀ p, p ∈ uniquePointsAmong ps ↔ ∃ i : Nat, ps[i]? = some p ∧ ∀ (j : Nat) b, ps[j]? = some b → j ≠ i → closeTo p b = false) ∧
    (uniquePointsAmong ps).Pairwise (fun a b => closeTo a b = false) := by
  refine ⟨?_, mem_unique ps, ?_⟩
  · unfold uniquePointsAmong
    rw [uniqueLoop_eq]
    have h := (List.filter_sublist (p := fun x : Vec2 F × Nat => isUnique x.2 x.1 ps 0) (l := ps.zipIdx 0)).map Prod.fst
    rwa [List.zipIdx_map_fst] at h
  · unfold uniquePointsAmong
    rw [uniqueLoop_eq, List.pairwise_map]
    have hnd : (ps.zipIdx 0).Pairwise (fun x y => x.2 ≠ y.2) := by
      have h := List.nodup_range' (s := 0) (n := ps.length) (step := 1) (by omega)
      rw [← List.zipIdx_map_snd 0 ps] at h
      exact List.pairwise_map.1 h
    refine (List.Pairwise.and_mem.1 (hnd.filter _)).imp ?_
    rintro ⟨a, i⟩ ⟨b, j⟩ ⟨hx, hy, hne⟩
    obtain ⟨h1, h2⟩ := List.mem_filter.1 hx
    obtain ⟨h3, _⟩ := List.mem_filter.1 hy
    exact (isUnique_iff i a ps 0).1 h2 j b (List.mk_mem_zipIdx_iff_getElem?.1 h3) (by simp only at hne; omega)

omit [LawfulScalar F] in
/-- **C47.** If no two input points at different positions are close, nothing is dropped. -/
theorem C47_nothing_dropped (ps : List (Vec2 F))
    (h : ∀ (i j : Nat) (a b : Vec2 F), ps[i]? = some a → ps[j]? = some b → i ≠ j → closeTo a b = false) :
    uniquePointsAmong ps = ps := by
  unfold uniquePointsAmong
  rw [uniqueLoop_eq, List.filter_eq_self.2, List.zipIdx_map_fst]
  rintro ⟨a, i⟩ hx
  have hi := List.mk_mem_zipIdx_iff_getElem?.1 hx
  exact (isUnique_iff i a ps 0).2 fun j b hj hne => h i j a b hi hj (by omega)

end lawful

theorem nan_left (z e : F32) : F32.le (F32.sqrt (F32.add (F32.mul F32.nan F32.nan) z)) e = false := by
  rcases z with _ | s | ⟨s, n⟩ <;> rcases e with _ | t | ⟨t, m⟩ <;> rfl

theorem nan_right (z e : F32) : F32.le (F32.sqrt (F32.add z (F32.mul F32.nan F32.nan))) e = false := by
  rw [F32.add_comm', nan_left]

/-- **C46.** In f32, `close_to(a, a)` holds exactly for finite `a`, and `close_to` is symmetric for all points, NaN and
infinities included. -/
theorem C46_close (a b : Vec2 F32) :
    closeTo a b = closeTo b a ∧ (closeTo a a = true ↔ (∃ s n, a.x = F32.fin s n) ∧ ∃ s n, a.y = F32.fin s n) := by
  refine ⟨closeTo_symm a b, ?_⟩
  obtain ⟨x, y⟩ := a
  have hd : closeTo (⟨x, y⟩ : Vec2 F32) ⟨x, y⟩ = F32.le (F32.sqrt (F32.add (F32.mul (F32.sub x x) (F32.sub x x))
      (F32.mul (F32.sub y y) (F32.sub y y)))) (F32.ofBits 0x34000000) := rfl
  rw [hd]
  rcases x with _ | s | ⟨s, n⟩
  · have : F32.sub F32.nan F32.nan = F32.nan := rfl
    rw [this]; constructor
    · intro h; rw [nan_left] at h; cases h
    · rintro ⟨⟨_, _, h⟩, _⟩; cases h
  · have : F32.sub (F32.inf s) (F32.inf s) = F32.nan := by cases s <;> rfl
    rw [this]; constructor
    · intro h; rw [nan_left] at h; cases h
    · rintro ⟨⟨_, _, h⟩, _⟩; cases h
  · rw [F32.sub_self_fin]
    rcases y with _ | t | ⟨t, m⟩
    · have : F32.sub F32.nan F32.nan = F32.nan := rfl
      rw [this]; constructor
      · intro h; rw [nan_right] at h; cases h
      · rintro ⟨_, _, _, h⟩; cases h
    · have : F32.sub (F32.inf t) (F32.inf t) = F32.nan := by cases t <;> rfl
      rw [this]; constructor
      · intro h; rw [nan_right] at h; cases h
      · rintro ⟨_, _, _, h⟩; cases h
    · rw [F32.sub_self_fin]; constructor
      · intro _; exact ⟨⟨s, n, rfl⟩, t, m, rfl⟩
      · intro _; decide +kernel

/-- exact arithmetic: `close_to` is `dst ≤ 2⁻²³` -/
theorem C46_close_exact (p q : ℝ × ℝ) : closeTo (pt p) (pt q) = true ↔ dst p q ≤ XReal.epsR := by
  unfold closeTo
  rw [distance_pt]
  simp

/-- **C47, full statement refuted.** A point given twice disappears altogether: nothing in the result is close to it. -/
theorem C47_counterexample : ∃ ps : List (Vec2 F32), ∃ p ∈ ps, ∀ q ∈ uniquePointsAmong ps, closeTo p q = false := by
  refine ⟨[⟨F32.lit 1, F32.lit 1⟩, ⟨F32.lit 1, F32.lit 1⟩, ⟨F32.lit 5, F32.lit 1⟩], ⟨F32.lit 1, F32.lit 1⟩, by simp, ?_⟩
  decide +kernel

/-- in every arithmetic satisfying the laws a duplicated pair with a proper distance is lost -/
theorem C47_duplicates_lost {F : Type} [Scalar F] [LawfulScalar F] (p : Vec2 F) (h : isNum (distance p p)) :
    uniquePointsAmong [p, p] = [] := by
  have hc : closeTo p p = true := (closeTo_iff p p).2 ⟨h, LawfulScalar.dist_self p⟩
  simp [uniquePointsAmong, uniqueLoop, isUnique, hc]

/-! ### instances of the hypotheses -/

example : findClosestTo (F := F32) ⟨F32.lit 0, F32.lit 0⟩
    [⟨F32.lit 3, F32.lit 4⟩, ⟨F32.nan, F32.lit 0⟩, ⟨F32.lit 0, F32.lit 2⟩, ⟨F32.lit 2, F32.lit 0⟩] = (2, F32.lit 2) := by
  decide +kernel

example : ∃ p ∈ [(⟨F32.lit 3, F32.lit 4⟩ : Vec2 F32)], (distance ⟨F32.lit 0, F32.lit 0⟩ p <. Scalar.maxValue) = true := by
  decide +kernel

/-- all points too far away (their distance overflows): the answer is `(0, MAX)` -/
example : findClosestTo (F := F32) ⟨F32.lit 0, F32.lit 0⟩ [⟨F32.lit (10^38), F32.lit (10^38)⟩] = (0, Scalar.maxValue) := by
  decide +kernel

example : uniquePointsAmong (F := F32) [⟨F32.lit 1, F32.lit 1⟩, ⟨F32.lit 2, F32.lit 1⟩, ⟨F32.lit 1, F32.lit 1⟩] =
    [⟨F32.lit 2, F32.lit 1⟩] := by
  decide +kernel

end UtilThm
end Kami
