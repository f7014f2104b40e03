import Verif.Geom.Predicates
import Verif.Num.XReal
import Mathlib.Data.List.Rotate
import Mathlib.Algebra.BigOperators.Group.List.Basic
/-!
# C27-C29: construction, area, transformations
-/

set_option autoImplicit false

namespace Kami.PolyThm

open Kami Kami.Pred

variable {K : Type} [Field K] [LinearOrder K] [IsStrictOrderedRing K]

/-! ### Specification: the shoelace sum over all edges of the closed polygon -/

/-- the term of one edge -/
def crossTerm (p q : Vec2 K) : K := p.x * q.y - q.x * p.y

/-- sum over all edges, including the one from the last vertex to the first -/
def shoelace (l : List (Vec2 K)) : K := (List.zipWith crossTerm l (l.rotate 1)).sum

theorem shoelace_cons (a : Vec2 K) (l : List (Vec2 K)) :
    shoelace (a :: l) = (List.zipWith crossTerm (a :: l) (l ++ [a])).sum := by
  simp [shoelace]

theorem fanSum_eq (a b : Vec2 K) (l : List (Vec2 K)) (s : K) :
    Polygon.fanSum a (b :: l) s =
      s + (List.zipWith crossTerm (a :: b :: l) (b :: l ++ [a])).sum := by
  induction l generalizing b s with
  | nil => simp [Polygon.fanSum, crossTerm]
  | cons c l ih =>
    rw [Polygon.fanSum, ih]
    simp only [List.cons_append, List.zipWith_cons_cons, List.sum_cons, area2_eq, crossTerm]
    ring

theorem areaPoly2_eq (l : List (Vec2 K)) : (Polygon.mk l).areaPoly2 = shoelace l := by
  rcases l with _ | ⟨a, _ | ⟨b, l⟩⟩
  · rfl
  · simp [Polygon.areaPoly2, Polygon.fanSum, shoelace, crossTerm]
  · simp only [Polygon.areaPoly2]
    rw [fanSum_eq, shoelace_cons]
    simp only [List.cons_append, List.zipWith_cons_cons, List.sum_cons, exact_zero]
    ring

theorem shoelace_rotate (l : List (Vec2 K)) (k : Nat) : shoelace (l.rotate k) = shoelace l := by
  unfold shoelace
  rw [List.rotate_rotate, Nat.add_comm, ← List.rotate_rotate, ← List.zipWith_rotate_distrib _ _ _ _ (by simp)]
  exact (List.rotate_perm _ _).sum_eq

theorem zipWith_sum_swap (l m : List (Vec2 K)) :
    (List.zipWith crossTerm l m).sum = -(List.zipWith crossTerm m l).sum := by
  induction l generalizing m with
  | nil => cases m <;> simp
  | cons a l ih =>
    cases m with
    | nil => simp
    | cons b m =>
      simp only [List.zipWith_cons_cons, List.sum_cons]
      rw [ih]; unfold crossTerm; ring

theorem shoelace_reverse (l : List (Vec2 K)) : shoelace l.reverse = -shoelace l := by
  rcases Nat.eq_zero_or_pos l.length with h0 | h0
  · rw [List.length_eq_zero_iff.1 h0]; simp [shoelace]
  rcases Nat.eq_or_lt_of_le h0 with h | h
  · obtain ⟨a, rfl⟩ := List.length_eq_one_iff.1 h.symm
    simp [shoelace, crossTerm]
  have h1 : l.reverse.rotate 1 = (l.rotate (l.length - 1)).reverse := by
    rw [List.rotate_reverse, Nat.mod_eq_of_lt h]
  unfold shoelace
  rw [h1, ← List.reverse_zipWith (by simp), List.sum_reverse, zipWith_sum_swap]
  congr 1
  have h2 := shoelace_rotate l (l.length - 1)
  unfold shoelace at h2
  rw [List.rotate_rotate, Nat.sub_add_cancel h0, List.rotate_length] at h2
  exact h2

/-! ## C27 -/

/-- C27, any arithmetic: construction fails exactly for fewer than three vertices, and otherwise keeps the vertices, in
the given or in the reversed order. -/
theorem C27_new_vertices {F : Type} [OrdScalar F] (vs : List (Vec2 F)) :
    (Polygon.new vs = .error .Degenerate ↔ vs.length < 3) ∧
    (3 ≤ vs.length → ∃ P, Polygon.new vs = .ok P ∧ (P.vertices = vs ∨ P.vertices = vs.reverse)) := by
  unfold Polygon.new
  constructor
  · constructor
    · intro h
      by_contra hc
      rw [if_neg hc] at h
      dsimp only at h
      split at h <;> cases h
    · intro h; rw [if_pos h]
  · intro h
    rw [if_neg (by omega)]
    dsimp only
    split
    · exact ⟨_, rfl, Or.inr rfl⟩
    · exact ⟨_, rfl, Or.inl rfl⟩

/-- C27, exact arithmetic: the stored order is counter-clockwise (non-negative shoelace sum), it is the given one
exactly when that was not clockwise, and building again changes nothing. -/
theorem C27_new_ccw (vs : List (Vec2 K)) (h : 3 ≤ vs.length) :
    ∃ P, Polygon.new vs = .ok P ∧ 0 ≤ shoelace P.vertices ∧
      (0 ≤ shoelace vs → P.vertices = vs) ∧ (shoelace vs < 0 → P.vertices = vs.reverse) ∧
      Polygon.new P.vertices = .ok P := by
  have hnew : ∀ vs : List (Vec2 K), 3 ≤ vs.length →
      Polygon.new vs = if shoelace vs < 0 then .ok ⟨vs.reverse⟩ else .ok ⟨vs⟩ := by
    intro vs h
    unfold Polygon.new
    rw [if_neg (by omega)]
    simp only [areaPoly2_eq, exact_lt, exact_zero, decide_eq_true_eq]
  rw [hnew vs h]
  by_cases hs : shoelace vs < 0
  · rw [if_pos hs]
    have h2 : 0 ≤ shoelace vs.reverse := by rw [shoelace_reverse]; linarith
    refine ⟨_, rfl, h2, fun h => absurd h (by linarith), fun _ => rfl, ?_⟩
    show Polygon.new vs.reverse = _
    rw [hnew _ (by simpa using h), if_neg (by linarith)]
  · rw [if_neg hs]
    refine ⟨_, rfl, not_lt.1 hs, fun _ => rfl, fun h => absurd h hs, ?_⟩
    show Polygon.new vs = _
    rw [hnew _ h, if_neg hs]

example : (3 ≤ [(⟨0, 0⟩ : Vec2 ℚ), ⟨0, 1⟩, ⟨1, 1⟩, ⟨1, 0⟩].length) ∧
    Polygon.new [(⟨0, 0⟩ : Vec2 ℚ), ⟨0, 1⟩, ⟨1, 1⟩, ⟨1, 0⟩] = .ok ⟨[⟨1, 0⟩, ⟨1, 1⟩, ⟨0, 1⟩, ⟨0, 0⟩]⟩ := by
  decide +kernel

/-! ## C28 -/

/-- C28: `area` is half the absolute shoelace sum over all edges. -/
theorem C28_area (l : List (Vec2 K)) : (Polygon.mk l).area = |shoelace l| / 2 := by
  simp only [Polygon.area, areaPoly2_eq, exact_abs, exact_half]; ring

/-- C28: it does not depend on the vertex listed first nor on the orientation. -/
theorem C28_area_invariant (l : List (Vec2 K)) (k : Nat) :
    (Polygon.mk (l.rotate k)).area = (Polygon.mk l).area ∧ (Polygon.mk l.reverse).area = (Polygon.mk l).area := by
  simp only [C28_area, shoelace_rotate, shoelace_reverse, abs_neg, and_self]

/-- C28 at the API: the area of the polygon built from a vertex list is half the absolute shoelace sum of that list. -/
theorem C28_area_of_new (vs : List (Vec2 K)) (P : Polygon K) (h : Polygon.new vs = .ok P) :
    P.area = |shoelace vs| / 2 := by
  have hlen : 3 ≤ vs.length := by
    by_contra hc
    rw [(C27_new_vertices vs).1.2 (by omega)] at h; cases h
  obtain ⟨Q, hQ, hv⟩ := (C27_new_vertices vs).2 hlen
  rw [h] at hQ
  cases hQ
  rcases P with ⟨l⟩
  rw [C28_area]
  rcases hv with hv | hv <;> simp only at hv <;> subst hv
  · rfl
  · rw [shoelace_reverse, abs_neg]

example : (Polygon.mk [(⟨0, 0⟩ : Vec2 ℚ), ⟨3, 0⟩, ⟨3, 2⟩, ⟨1, 2⟩]).area = 5 := by decide +kernel

/-! ## C29 -/

theorem shoelace_scale (l : List (Vec2 K)) (s : K) :
    shoelace (l.map fun v => ⟨v.x * s, v.y * s⟩) = s ^ 2 * shoelace l := by
  unfold shoelace
  rw [← List.map_rotate]
  generalize l.rotate 1 = m
  induction l generalizing m with
  | nil => simp
  | cons a l ih =>
    cases m with
    | nil => simp
    | cons b m =>
      simp only [List.map_cons, List.zipWith_cons_cons, List.sum_cons]
      rw [ih]; unfold crossTerm; ring

theorem zip_translate (l m : List (Vec2 K)) (t : Vec2 K) (h : l.length = m.length) :
    (List.zipWith crossTerm (l.map fun v => ⟨v.x + t.x, v.y + t.y⟩) (m.map fun v => ⟨v.x + t.x, v.y + t.y⟩)).sum =
      (List.zipWith crossTerm l m).sum +
        (t.y * ((l.map Vec2.x).sum - (m.map Vec2.x).sum) + t.x * ((m.map Vec2.y).sum - (l.map Vec2.y).sum)) := by
  induction l generalizing m with
  | nil => cases m <;> simp at h ⊢
  | cons a l ih =>
    cases m with
    | nil => simp at h
    | cons b m =>
      simp only [List.map_cons, List.zipWith_cons_cons, List.sum_cons]
      rw [ih m (by simpa using h)]; unfold crossTerm; ring

theorem shoelace_translate (l : List (Vec2 K)) (t : Vec2 K) :
    shoelace (l.map fun v => ⟨v.x + t.x, v.y + t.y⟩) = shoelace l := by
  unfold shoelace
  rw [← List.map_rotate, zip_translate _ _ _ (by simp)]
  have h1 : ((l.rotate 1).map Vec2.x).sum = (l.map Vec2.x).sum := ((List.rotate_perm l 1).map _).sum_eq
  have h2 : ((l.rotate 1).map Vec2.y).sum = (l.map Vec2.y).sum := ((List.rotate_perm l 1).map _).sum_eq
  rw [h1, h2]; ring

/-- C29: `translate` keeps area and orientation, `uniform_scale(s)` multiplies the area by `s²` and keeps the
orientation for `s ≠ 0` of either sign; both move vertex `i` to where it belongs. -/
theorem C29_area_orientation (P : Polygon K) (t : Vec2 K) (s : K) :
    (P.translate t).area = P.area ∧ shoelace (P.translate t).vertices = shoelace P.vertices ∧
    (P.uniformScale s).area = s ^ 2 * P.area ∧
    (s ≠ 0 → (0 < shoelace (P.uniformScale s).vertices ↔ 0 < shoelace P.vertices)) := by
  rcases P with ⟨l⟩
  simp only [Polygon.translate, Polygon.uniformScale, C28_area, shoelace_translate, shoelace_scale, true_and]
  refine ⟨?_, fun hs => ?_⟩
  · rw [abs_mul, abs_of_nonneg (sq_nonneg s)]; ring
  · have : 0 < s ^ 2 := by positivity
    constructor
    · intro h; exact (mul_pos_iff_of_pos_left this).1 h
    · intro h; exact mul_pos this h

/-- C29, any arithmetic: number and order of the vertices. -/
theorem C29_vertices {F : Type} [OrdScalar F] (P : Polygon F) (t : Vec2 F) (s : F) :
    (P.translate t).vertices.length = P.vertices.length ∧ (P.uniformScale s).vertices.length = P.vertices.length ∧
    ∀ (i : Nat) (v : Vec2 F), P.vertices[i]? = some v →
      (P.translate t).vertices[i]? = some ⟨v.x + t.x, v.y + t.y⟩ ∧
      (P.uniformScale s).vertices[i]? = some ⟨v.x * s, v.y * s⟩ := by
  refine ⟨by simp [Polygon.translate], by simp [Polygon.uniformScale], fun i v h => ?_⟩
  simp [Polygon.translate, Polygon.uniformScale, h]

/-! ### center -/

/-- polygon with real coordinates in the division-aware model -/
def xpoly (l : List (ℝ × ℝ)) : Polygon XReal := ⟨l.map pt⟩

/-- arithmetic mean of the vertices -/
noncomputable def mean (l : List (ℝ × ℝ)) : ℝ × ℝ :=
  ((l.map Prod.fst).sum / l.length, (l.map Prod.snd).sum / l.length)

theorem foldl_center (l : List (ℝ × ℝ)) (a b : ℝ) :
    (l.map pt).foldl (fun (acc v : Vec2 XReal) => (⟨acc.x + v.x, acc.y + v.y⟩ : Vec2 XReal)) ⟨.fin a, .fin b⟩ =
      ⟨.fin (a + (l.map Prod.fst).sum), .fin (b + (l.map Prod.snd).sum)⟩ := by
  induction l generalizing a b with
  | nil => simp
  | cons p l ih =>
    simp only [List.map_cons, List.foldl_cons, pt_x, pt_y, XReal.fin_add, List.sum_cons]
    rw [ih]; simp only [add_assoc]

theorem center_eq (l : List (ℝ × ℝ)) (h : l ≠ []) : (xpoly l).center = pt (mean l) := by
  unfold Polygon.center xpoly
  simp only [XReal.fin_zero, List.length_map, XReal.ofNat_def]
  rw [foldl_center]
  have hn : (l.length : ℝ) ≠ 0 := by
    rw [Nat.cast_ne_zero]; exact fun h0 => h (List.length_eq_zero_iff.1 h0)
  simp only [zero_add, XReal.fin_div _ _ hn]
  rfl

/-- C29: `center` is the mean of the vertices; it is moved by `translate` and scaled by `uniform_scale`. -/
theorem C29_center (l : List (ℝ × ℝ)) (h : l ≠ []) (t : ℝ × ℝ) (s : ℝ) :
    (xpoly l).center = pt (mean l) ∧
    ((xpoly l).translate (pt t)).center = pt ((mean l).1 + t.1, (mean l).2 + t.2) ∧
    ((xpoly l).uniformScale (.fin s)).center = pt ((mean l).1 * s, (mean l).2 * s) := by
  have hn : (l.length : ℝ) ≠ 0 := by
    rw [Nat.cast_ne_zero]; exact fun h0 => h (List.length_eq_zero_iff.1 h0)
  refine ⟨center_eq l h, ?_, ?_⟩
  · have e : (xpoly l).translate (pt t) = xpoly (l.map fun v => (v.1 + t.1, v.2 + t.2)) := by
      simp [xpoly, Polygon.translate, pt, Function.comp_def]
    rw [e, center_eq _ (by simpa using h)]
    congr 1
    have h1 : ∀ l : List (ℝ × ℝ), ((l.map fun v => (v.1 + t.1, v.2 + t.2)).map Prod.fst).sum
        = (l.map Prod.fst).sum + l.length * t.1 := by
      intro l; induction l with
      | nil => simp
      | cons a l ih => simp only [List.map_cons, List.sum_cons, List.length_cons]; rw [ih]; push_cast; ring
    have h2 : ∀ l : List (ℝ × ℝ), ((l.map fun v => (v.1 + t.1, v.2 + t.2)).map Prod.snd).sum
        = (l.map Prod.snd).sum + l.length * t.2 := by
      intro l; induction l with
      | nil => simp
      | cons a l ih => simp only [List.map_cons, List.sum_cons, List.length_cons]; rw [ih]; push_cast; ring
    simp only [mean, h1, h2, List.length_map]
    ext <;> simp only <;> field_simp
  · have e : (xpoly l).uniformScale (.fin s) = xpoly (l.map fun v => (v.1 * s, v.2 * s)) := by
      simp [xpoly, Polygon.uniformScale, pt, Function.comp_def]
    rw [e, center_eq _ (by simpa using h)]
    congr 1
    have h1 : ∀ l : List (ℝ × ℝ), ((l.map fun v => (v.1 * s, v.2 * s)).map Prod.fst).sum
        = (l.map Prod.fst).sum * s := by
      intro l; induction l with
      | nil => simp
      | cons a l ih => simp only [List.map_cons, List.sum_cons]; rw [ih]; ring
    have h2 : ∀ l : List (ℝ × ℝ), ((l.map fun v => (v.1 * s, v.2 * s)).map Prod.snd).sum
        = (l.map Prod.snd).sum * s := by
      intro l; induction l with
      | nil => simp
      | cons a l ih => simp only [List.map_cons, List.sum_cons]; rw [ih]; ring
    simp only [mean, h1, h2, List.length_map]
    ext <;> simp only <;> ring

example : ([(0, 0), (1, 0), (0, 1)] : List (ℝ × ℝ)) ≠ [] := by simp

end Kami.PolyThm
