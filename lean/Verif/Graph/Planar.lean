import Verif.Graph.Queries
import Verif.Geom.UtilsExact2
import Mathlib.Tactic.IntervalCases
/-!
# C60: `add_edge` and planarity, in exact arithmetic

`add_edge` keeps the drawing planar if the new segment is in general position with respect to the tolerance of the
library; three counterexamples show what goes wrong otherwise.
-/

set_option autoImplicit false

namespace Kami.Graph

open Kami
open scoped Kami
open PlanarGraph
open Kami.UtilThm (dst crs dt OnSegR)

variable {T U : Type}

noncomputable section

/-! ## Specification -/

/-- node `i` is at `pos i` -/
def Drawn (g : PlanarGraph XReal T U) (pos : ℕ → ℝ × ℝ) : Prop :=
  ∀ (i : ℕ) (a : Node XReal T), g.nodes[i]? = some a → a.position = pt (pos i)

/-- `i` is an end of `e` -/
def IsEnd (e : Edge U) (i : ℕ) : Prop := i = e.src ∨ i = e.dst

/-- the point `y` is on the closed segment drawn for `e` -/
def OnEdge (pos : ℕ → ℝ × ℝ) (e : Edge U) (y : ℝ × ℝ) : Prop := OnSegR (pos e.src) (pos e.dst) y

/-- Different edges meet only at common end nodes, and no node lies on an edge it is not an end of. -/
structure Planar (g : PlanarGraph XReal T U) (pos : ℕ → ℝ × ℝ) : Prop where
  meet : ∀ (k l : ℕ) (e f : Edge U), g.edges[k]? = some e → g.edges[l]? = some f → k ≠ l →
    ∀ y, OnEdge pos e y → OnEdge pos f y → ∃ i, IsEnd e i ∧ IsEnd f i ∧ y = pos i
  node : ∀ e ∈ g.edges, ∀ i, i < g.nodes.length → OnEdge pos e (pos i) → IsEnd e i

/-- `y` is a point where the segment from node `s` to node `d` meets an edge away from all nodes -/
def Crossing (g : PlanarGraph XReal T U) (pos : ℕ → ℝ × ℝ) (s d : ℕ) (y : ℝ × ℝ) : Prop :=
  OnSegR (pos s) (pos d) y ∧ (∃ e ∈ g.edges, OnEdge pos e y) ∧ ∀ i, i < g.nodes.length → y ≠ pos i

/-- the ends of the edges and of the segment to be added -/
def Segment (g : PlanarGraph XReal T U) (s d : ℕ) (u v : ℕ) : Prop :=
  (u = s ∧ v = d) ∨ ∃ e ∈ g.edges, e.src = u ∧ e.dst = v

/-- the same, with the data of the edge -/
def SegmentWith (g : PlanarGraph XReal T U) (s d : ℕ) (x : U) (u v : ℕ) (c : U) : Prop :=
  (u = s ∧ v = d ∧ c = x) ∨ ∃ e ∈ g.edges, e.src = u ∧ e.dst = v ∧ e.data = c

theorem SegmentWith.segment {g : PlanarGraph XReal T U} {s d : ℕ} {x : U} {u v : ℕ} {c : U} (h : SegmentWith g s d x u v c) :
    Segment g s d u v := by
  rcases h with ⟨h1, h2, _⟩ | ⟨e, he, h1, h2, _⟩
  · exact Or.inl ⟨h1, h2⟩
  · exact Or.inr ⟨e, he, h1, h2⟩

/-- The segment from `s` to `d` is in general position, up to the tolerance of the library: nodes and crossing points
that are not on a segment are outside its tolerance ellipse, and crossing points are farther than epsilon from nodes and
from each other. -/
structure GeneralPosition (g : PlanarGraph XReal T U) (pos : ℕ → ℝ × ℝ) (s d : ℕ) : Prop where
  nodes_clear : ∀ i, i < g.nodes.length → ∀ u v, Segment g s d u v → i ≠ u → i ≠ v →
    dst (pos u) (pos v) + XReal.epsR ≤ dst (pos u) (pos i) + dst (pos i) (pos v)
  cross_clear : ∀ y, Crossing g pos s d y → ∀ u v, Segment g s d u v → ¬ OnSegR (pos u) (pos v) y →
    dst (pos u) (pos v) + XReal.epsR ≤ dst (pos u) y + dst y (pos v)
  cross_far : ∀ y, Crossing g pos s d y → ∀ i, i < g.nodes.length → XReal.epsR < dst y (pos i)
  cross_sep : ∀ y y', Crossing g pos s d y → Crossing g pos s d y' → y ≠ y' → XReal.epsR < dst y y'

/-! ## Segments and distances -/

theorem onSeg_iff (a b p : ℝ × ℝ) : OnSegR a b p ↔ dst a p + dst p b ≤ dst a b := by
  rw [UtilThm.dst_add_le_iff]
  constructor
  · rintro ⟨t, t0, t1, rfl⟩
    unfold crs dt
    simp only
    refine ⟨by ring, ?_⟩
    have : 0 ≤ t * (1 - t) := mul_nonneg t0 (by linarith)
    nlinarith [mul_nonneg this (sq_nonneg (b.1 - a.1)), mul_nonneg this (sq_nonneg (b.2 - a.2))]
  · rintro ⟨h1, h2⟩
    unfold crs at h1
    unfold dt at h2
    set W := (b.1 - a.1) ^ 2 + (b.2 - a.2) ^ 2 with hW
    by_cases hW0 : W = 0
    · have hb1 : b.1 - a.1 = 0 := by nlinarith [sq_nonneg (b.1 - a.1), sq_nonneg (b.2 - a.2)]
      have hb2 : b.2 - a.2 = 0 := by nlinarith [sq_nonneg (b.1 - a.1), sq_nonneg (b.2 - a.2)]
      have e1 : b.1 - p.1 = -(p.1 - a.1) := by linarith
      have e2 : b.2 - p.2 = -(p.2 - a.2) := by linarith
      rw [e1, e2] at h2
      refine ⟨0, le_refl _, zero_le_one, ?_⟩
      ext
      · simp only; nlinarith [sq_nonneg (p.1 - a.1), sq_nonneg (p.2 - a.2)]
      · simp only; nlinarith [sq_nonneg (p.1 - a.1), sq_nonneg (p.2 - a.2)]
    · have hWp : 0 < W := lt_of_le_of_ne (by positivity) (Ne.symm hW0)
      refine ⟨((p.1 - a.1) * (b.1 - a.1) + (p.2 - a.2) * (b.2 - a.2)) / W, ?_, ?_, ?_⟩
      · apply div_nonneg _ hWp.le
        nlinarith [sq_nonneg (p.1 - a.1), sq_nonneg (p.2 - a.2)]
      · rw [div_le_one hWp, hW]
        nlinarith [sq_nonneg (b.1 - p.1), sq_nonneg (b.2 - p.2)]
      · ext
        · simp only
          field_simp
          rw [hW]
          linear_combination (b.2 - a.2) * h1
        · simp only
          field_simp
          rw [hW]
          linear_combination (-(b.1 - a.1)) * h1

theorem onSeg_left (a b : ℝ × ℝ) : OnSegR a b a := ⟨0, le_refl _, zero_le_one, by simp⟩
theorem onSeg_right (a b : ℝ × ℝ) : OnSegR a b b := ⟨1, zero_le_one, le_refl _, by simp⟩

theorem onSeg_symm {a b p : ℝ × ℝ} (h : OnSegR a b p) : OnSegR b a p := by
  rw [onSeg_iff] at h ⊢
  rw [UtilThm.dst_comm b p, UtilThm.dst_comm p a, UtilThm.dst_comm b a]; linarith

/-- a point of `[a, x]` is a point of `[a, b]` if `x` is -/
theorem onSeg_part {a b x y : ℝ × ℝ} (hx : OnSegR a b x) (hy : OnSegR a x y) : OnSegR a b y := by
  rw [onSeg_iff] at *
  have := UtilThm.dst_triangle y x b
  linarith

/-- the two parts of a segment share only the division point -/
theorem onSeg_parts {a b x y : ℝ × ℝ} (hx : OnSegR a b x) (h1 : OnSegR a x y) (h2 : OnSegR b x y) : y = x := by
  rw [onSeg_iff] at *
  have h3 := UtilThm.dst_triangle a y b
  have h4 := UtilThm.dst_nonneg y x
  have e1 := UtilThm.dst_comm b y
  have e2 := UtilThm.dst_comm b x
  exact UtilThm.dst_eq_zero.1 (by linarith)

/-- a part of a part -/
theorem onSeg_sub {A B a b y : ℝ × ℝ} (ha : OnSegR A B a) (hb : OnSegR A B b) (hy : OnSegR a b y) : OnSegR A B y := by
  obtain ⟨s, s0, s1, hs⟩ := ha
  obtain ⟨t, t0, t1, ht⟩ := hb
  obtain ⟨r, r0, r1, hr⟩ := hy
  refine ⟨s + r * (t - s), ?_, ?_, ?_⟩
  · nlinarith [mul_nonneg r0 t0, mul_nonneg (sub_nonneg.2 r1) s0]
  · nlinarith [mul_nonneg r0 (sub_nonneg.2 t1), mul_nonneg (sub_nonneg.2 r1) (sub_nonneg.2 s1)]
  · rw [hr, hs, ht]; ext <;> simp only <;> ring

/-- a point of a segment is on one side of another point of it -/
theorem onSeg_cut {a b x y : ℝ × ℝ} (hx : OnSegR a b x) (hy : OnSegR a b y) : OnSegR a x y ∨ OnSegR b x y := by
  obtain ⟨s, s0, s1, hs⟩ := hx
  obtain ⟨t, t0, t1, ht⟩ := hy
  rcases le_or_gt t s with h | h
  · left
    rcases eq_or_lt_of_le s0 with h0 | h0
    · have : t = 0 := by linarith
      exact ⟨0, le_rfl, zero_le_one, by rw [ht, this]; ext <;> simp⟩
    · refine ⟨t / s, div_nonneg t0 s0, (div_le_one h0).2 h, ?_⟩
      rw [ht, hs]
      ext <;> simp only <;> field_simp <;> ring
  · right
    have h1 : 0 < 1 - s := by linarith
    refine ⟨(1 - t) / (1 - s), div_nonneg (by linarith) h1.le, (div_le_one h1).2 (by linarith), ?_⟩
    rw [ht, hs]
    ext <;> simp only <;> field_simp <;> ring

/-- the far end is not on the near part -/
theorem onSeg_far {a b x : ℝ × ℝ} (hx : OnSegR a b x) (hb : OnSegR a x b) : x = b := by
  have := onSeg_parts hx hb (onSeg_left b x)
  exact this.symm

theorem dst_param (A B : ℝ × ℝ) (s t : ℝ) :
    dst (A.1 + s * (B.1 - A.1), A.2 + s * (B.2 - A.2)) (A.1 + t * (B.1 - A.1), A.2 + t * (B.2 - A.2)) =
      |t - s| * dst A B := by
  unfold dst
  simp only
  rw [← Real.sqrt_sq_eq_abs, ← Real.sqrt_mul (sq_nonneg _)]
  congr 1; ring

/-- one of three points of a segment is between the others -/
theorem onSeg_three {A B a b x : ℝ × ℝ} (ha : OnSegR A B a) (hb : OnSegR A B b) (hx : OnSegR A B x) :
    OnSegR a b x ∨ dst x a + dst a b = dst x b ∨ dst x b + dst b a = dst x a := by
  rw [onSeg_iff]
  obtain ⟨s, _, _, rfl⟩ := ha
  obtain ⟨t, _, _, rfl⟩ := hb
  obtain ⟨r, _, _, rfl⟩ := hx
  simp only [dst_param, ← add_mul]
  have hD := UtilThm.dst_nonneg A B
  rcases le_total s t with h1 | h1 <;> rcases le_total s r with h2 | h2 <;> rcases le_total t r with h3 | h3
  all_goals
    first
    | (left; apply mul_le_mul_of_nonneg_right _ hD
       rw [abs_of_nonneg, abs_of_nonneg, abs_of_nonneg] <;> linarith)
    | (left; apply mul_le_mul_of_nonneg_right _ hD
       rw [abs_of_nonpos, abs_of_nonpos, abs_of_nonpos] <;> linarith)
    | (right; left; congr 1; rw [abs_of_nonneg, abs_of_nonneg, abs_of_nonneg] <;> linarith)
    | (right; left; congr 1; rw [abs_of_nonpos, abs_of_nonpos, abs_of_nonpos] <;> linarith)
    | (right; right; congr 1; rw [abs_of_nonneg, abs_of_nonneg, abs_of_nonneg] <;> linarith)
    | (right; right; congr 1; rw [abs_of_nonpos, abs_of_nonpos, abs_of_nonpos] <;> linarith)

/-- a part `[a, b]` of `[A, B]` passes the test for `p` only if `p` is on it, when `p` is clear of `[A, B]` -/
theorem test_on {A B a b p : ℝ × ℝ} (ha : OnSegR A B a) (hb : OnSegR A B b)
    (hclear : dst A p + dst p B < dst A B + XReal.epsR → OnSegR A B p)
    (ht : dst a p + dst p b < dst a b + XReal.epsR) (h1 : XReal.epsR < dst a p) (h2 : XReal.epsR < dst p b) :
    OnSegR a b p := by
  have key : ∀ {a b : ℝ × ℝ}, dst A a + dst a b + dst b B ≤ dst A B → dst a p + dst p b < dst a b + XReal.epsR →
      dst A p + dst p B < dst A B + XReal.epsR := by
    intro a b hab ht
    have h1 := UtilThm.dst_triangle A a p
    have h2 := UtilThm.dst_triangle p b B
    linarith
  have hell : dst A p + dst p B < dst A B + XReal.epsR := by
    have ht' : dst b p + dst p a < dst b a + XReal.epsR := by
      rw [UtilThm.dst_comm b p, UtilThm.dst_comm p a, UtilThm.dst_comm b a]; linarith
    obtain ⟨s, s0, s1, hs⟩ := ha
    obtain ⟨t, t0, t1, ht1⟩ := hb
    have d1 : ∀ s t : ℝ, 0 ≤ s → s ≤ t → t ≤ 1 →
        dst A (A.1 + s * (B.1 - A.1), A.2 + s * (B.2 - A.2)) +
        dst (A.1 + s * (B.1 - A.1), A.2 + s * (B.2 - A.2)) (A.1 + t * (B.1 - A.1), A.2 + t * (B.2 - A.2)) +
        dst (A.1 + t * (B.1 - A.1), A.2 + t * (B.2 - A.2)) B ≤ dst A B := by
      intro s t h0 h1 h2
      have e0 := dst_param A B 0 s
      have e1 := dst_param A B s t
      have e2 := dst_param A B t 1
      simp only [zero_mul, add_zero, one_mul, add_sub_cancel] at e0 e2
      rw [abs_of_nonneg (by linarith)] at e0 e1 e2
      have e0' : dst A (A.1 + s * (B.1 - A.1), A.2 + s * (B.2 - A.2)) = (s - 0) * dst A B := e0
      have e2' : dst (A.1 + t * (B.1 - A.1), A.2 + t * (B.2 - A.2)) B = (1 - t) * dst A B := e2
      rw [e0', e1, e2']; apply le_of_eq; ring
    rcases le_total s t with h | h
    · exact key (by rw [hs, ht1]; exact d1 s t s0 h t1) ht
    · exact key (by rw [hs, ht1]; exact d1 t s t0 h s1) ht'
  have hp := hclear hell
  have e1 := UtilThm.dst_comm a p
  have e2 := UtilThm.dst_comm p b
  have e3 := UtilThm.dst_comm a b
  have heps := XReal.epsR_pos
  rcases onSeg_three ha hb hp with h | h | h
  · exact h
  · linarith
  · linarith

/-- two collinear segments that share a point other than their ends, along the first one -/
theorem overlap {a b c d y : ℝ × ℝ} (hab : a ≠ b) (h : crs a b c d = 0) (h1 : OnSegR a b y) (h2 : OnSegR c d y)
    (ya : y ≠ a) (yb : y ≠ b) (yc : y ≠ c) (yd : y ≠ d) :
    ∃ γ δ η : ℝ, c = (a.1 + γ * (b.1 - a.1), a.2 + γ * (b.2 - a.2)) ∧ d = (a.1 + δ * (b.1 - a.1), a.2 + δ * (b.2 - a.2)) ∧
      0 < η ∧ η < 1 ∧ ((γ < η ∧ η < δ) ∨ (δ < η ∧ η < γ)) := by
  obtain ⟨η, η0, η1, rfl⟩ := h1
  obtain ⟨σ, σ0, σ1, hy⟩ := h2
  set W := (b.1 - a.1) ^ 2 + (b.2 - a.2) ^ 2 with hW
  have hWp : 0 < W := by
    have := UtilThm.dst_pos hab
    rw [hW, ← UtilThm.dst_sq]; positivity
  set μ := ((b.1 - a.1) * (d.1 - c.1) + (b.2 - a.2) * (d.2 - c.2)) / W with hμ
  unfold crs at h
  have m1 : d.1 - c.1 = μ * (b.1 - a.1) := by
    rw [hμ]; field_simp; rw [hW]; linear_combination (-(b.2 - a.2)) * h
  have m2 : d.2 - c.2 = μ * (b.2 - a.2) := by
    rw [hμ]; field_simp; rw [hW]; linear_combination (b.1 - a.1) * h
  have y1 := congrArg Prod.fst hy
  have y2 := congrArg Prod.snd hy
  simp only at y1 y2
  have hc : c = (a.1 + (η - σ * μ) * (b.1 - a.1), a.2 + (η - σ * μ) * (b.2 - a.2)) := by
    ext
    · simp only; linear_combination (-1) * y1 - σ * m1
    · simp only; linear_combination (-1) * y2 - σ * m2
  have hd : d = (a.1 + (η + (1 - σ) * μ) * (b.1 - a.1), a.2 + (η + (1 - σ) * μ) * (b.2 - a.2)) := by
    ext
    · simp only; linear_combination (-1) * y1 + (1 - σ) * m1
    · simp only; linear_combination (-1) * y2 + (1 - σ) * m2
  have hη0 : 0 < η := lt_of_le_of_ne η0 (by rintro rfl; exact ya (by simp))
  have hη1 : η < 1 := lt_of_le_of_ne η1 (by rintro rfl; exact yb (by simp))
  have hσ0 : 0 < σ := lt_of_le_of_ne σ0 (by rintro rfl; exact yc (by rw [hy]; simp))
  have hσ1 : σ < 1 := lt_of_le_of_ne σ1 (by rintro rfl; exact yd (by rw [hy]; simp))
  have hμ0 : μ ≠ 0 := by
    intro h0
    apply yc
    rw [hc, h0]; simp
  refine ⟨_, _, η, hc, hd, hη0, hη1, ?_⟩
  rcases lt_or_gt_of_ne hμ0 with h | h
  · right
    have := mul_neg_of_pos_of_neg hσ0 h
    have := mul_neg_of_pos_of_neg (sub_pos.2 hσ1) h
    constructor <;> linarith
  · left
    have := mul_pos hσ0 h
    have := mul_pos (sub_pos.2 hσ1) h
    constructor <;> linarith

/-! ## The invariant of the insertion loop -/

/-- what holds while the crossing points in `rest` are still to be inserted -/
structure Inv0 (base : (ℝ × ℝ) → (ℝ × ℝ) → U → Prop) (orig : (ℝ × ℝ) → Prop) (n0 : ℕ) (g : PlanarGraph XReal T U)
    (pos : ℕ → ℝ × ℝ) (rest : (ℝ × ℝ) → Prop) : Prop where
  wf : WF g
  drawn : Drawn g pos
  inj : ∀ i j, i < g.nodes.length → j < g.nodes.length → pos i = pos j → i = j
  piece : ∀ e ∈ g.edges, ∃ A B, base A B e.data ∧ OnSegR A B (pos e.src) ∧ OnSegR A B (pos e.dst)
  meet : ∀ (k l : ℕ) (e f : Edge U), g.edges[k]? = some e → g.edges[l]? = some f → k ≠ l →
    ∀ y, OnEdge pos e y → OnEdge pos f y → (∃ i, IsEnd e i ∧ IsEnd f i ∧ y = pos i) ∨ rest y
  node : ∀ e ∈ g.edges, ∀ i, i < g.nodes.length → OnEdge pos e (pos i) → IsEnd e i
  clearR : ∀ y, rest y → ∀ A B u, base A B u → dst A y + dst y B < dst A B + XReal.epsR → OnSegR A B y
  farR : ∀ y, rest y → ∀ i, i < g.nodes.length → XReal.epsR < dst y (pos i)
  sepR : ∀ y y', rest y → rest y' → y ≠ y' → XReal.epsR < dst y y'
  cover : ∀ A B u, base A B u → ∀ y, OnSegR A B y → ∃ e ∈ g.edges, e.data = u ∧ OnEdge pos e y
  fresh : ∀ i, n0 ≤ i → i < g.nodes.length → orig (pos i)
  found : ∀ y, orig y → rest y ∨ ∃ i, i < g.nodes.length ∧ y = pos i

/-- the same, and the nodes are clear of the segments -/
structure Inv (base : (ℝ × ℝ) → (ℝ × ℝ) → U → Prop) (orig : (ℝ × ℝ) → Prop) (n0 : ℕ) (g : PlanarGraph XReal T U)
    (pos : ℕ → ℝ × ℝ) (rest : (ℝ × ℝ) → Prop) : Prop extends Inv0 base orig n0 g pos rest where
  clearN : ∀ i, i < g.nodes.length → ∀ A B u, base A B u →
    dst A (pos i) + dst (pos i) B < dst A B + XReal.epsR → OnSegR A B (pos i)

theorem IsEnd.lt {g : PlanarGraph XReal T U} (hwf : WF g) {e : Edge U} (he : e ∈ g.edges) {i : ℕ} (h : IsEnd e i) :
    i < g.nodes.length := by
  rcases h with rfl | rfl
  · exact (hwf e he).1
  · exact (hwf e he).2

theorem onTest_iff {g : PlanarGraph XReal T U} {pos : ℕ → ℝ × ℝ} (hd : Drawn g pos) {e : Edge U} {id : ℕ}
    (h1 : e.src < g.nodes.length) (h2 : e.dst < g.nodes.length) (h3 : id < g.nodes.length) :
    onTest g.nodes id e = true ↔ dst (pos e.src) (pos id) + dst (pos id) (pos e.dst) <
      dst (pos e.src) (pos e.dst) + XReal.epsR ∧ XReal.epsR < dst (pos e.src) (pos id) ∧
      XReal.epsR < dst (pos id) (pos e.dst) := by
  unfold onTest
  rw [List.getElem?_eq_getElem h1, List.getElem?_eq_getElem h2, List.getElem?_eq_getElem h3]
  simp only
  rw [hd _ _ (List.getElem?_eq_getElem h1), hd _ _ (List.getElem?_eq_getElem h2),
    hd _ _ (List.getElem?_eq_getElem h3), UtilThm.onSeg_test]

/-- splitting at an existing node changes nothing -/
theorem Inv.split_node {g : PlanarGraph XReal T U} {pos : ℕ → ℝ × ℝ} {base : (ℝ × ℝ) → (ℝ × ℝ) → U → Prop}
    {orig rest : (ℝ × ℝ) → Prop} {n0 : ℕ} (h : Inv base orig n0 g pos rest) {id : ℕ} (hid : id < g.nodes.length) : splitAt g id = g := by
  have hf : ∀ e ∈ g.edges, onTest g.nodes id e = false := by
    intro e he
    rw [← Bool.not_eq_true]; intro ht
    obtain ⟨w1, w2⟩ := h.wf e he
    obtain ⟨t1, t2, t3⟩ := (onTest_iff h.drawn w1 w2 hid).1 ht
    obtain ⟨A, B, hb, p1, p2⟩ := h.piece e he
    have hon := test_on p1 p2 (h.clearN id hid A B _ hb) t1 t2 t3
    have heps := XReal.epsR_pos
    rcases h.node e he id hid hon with rfl | rfl
    · rw [UtilThm.dst_eq_zero.2 rfl] at t2; linarith
    · rw [UtilThm.dst_eq_zero.2 rfl] at t3; linarith
  unfold splitAt
  have h1 : g.edges.filter (onTest g.nodes id) = [] := by
    rw [List.filter_eq_nil_iff]; intro e he; rw [hf e he]; decide
  have h2 : g.edges.map (fun e => if onTest g.nodes id e then nearHalf id e else e) = g.edges := by
    conv_rhs => rw [← List.map_id g.edges]
    apply List.map_congr_left
    intro e he; rw [hf e he]; rfl
  rw [h1, h2]; simp

/-- a point at a node: nothing happens -/
theorem Inv.insert_node [Inhabited T] {g : PlanarGraph XReal T U} {pos : ℕ → ℝ × ℝ}
    {base : (ℝ × ℝ) → (ℝ × ℝ) → U → Prop} {orig rest : (ℝ × ℝ) → Prop} {n0 : ℕ} (h : Inv base orig n0 g pos rest) {i : ℕ}
    (hi : i < g.nodes.length) : insertPt g (pt (pos i)) = g := by
  obtain ⟨n1, n2⟩ := nearest_spec g (pt (pos i))
  have hpos := h.drawn i _ (List.getElem?_eq_getElem hi)
  have hd0 : distance (pt (pos i)) (g.nodes[i]).position = .fin 0 := by
    rw [hpos, UtilThm.distance_pt, UtilThm.dst_eq_zero.2 rfl]
  have hc : ((nearest g (pt (pos i))).2 <. Scalar.epsilon) = true := by
    by_contra hc
    have := n2 (by simpa using hc) _ (List.getElem_mem hi)
    rw [hd0, XReal.eps_def, XReal.fin_lt] at this
    simp [XReal.epsR_pos] at this
  obtain ⟨a, h1, _⟩ := n1 hc
  unfold insertPt
  rw [if_pos hc]
  exact h.split_node (List.getElem?_eq_some_iff.1 h1).1

section Insert
variable {g : PlanarGraph XReal T U} {pos : ℕ → ℝ × ℝ} {base : (ℝ × ℝ) → (ℝ × ℝ) → U → Prop}
  {orig rest : (ℝ × ℝ) → Prop} {n0 : ℕ}

/-- `f` is what the insertion of `x` (as node `n`) makes of `e` -/
def PieceOf (pos : ℕ → ℝ × ℝ) (n : ℕ) (x : ℝ × ℝ) (e f : Edge U) : Prop :=
  (f = e ∧ ¬ OnEdge pos e x) ∨ (OnEdge pos e x ∧ (f = nearHalf n e ∨ f = farHalf n e))

theorem update_lt (pos : ℕ → ℝ × ℝ) (x : ℝ × ℝ) {n i : ℕ} (h : i < n) : Function.update pos n x i = pos i :=
  Function.update_of_ne (Nat.ne_of_lt h) _ _

theorem PieceOf.on {n : ℕ} {x y : ℝ × ℝ} {e f : Edge U} (h : PieceOf pos n x e f) (h1 : e.src < n) (h2 : e.dst < n)
    (hy : OnEdge (Function.update pos n x) f y) : OnEdge pos e y := by
  unfold OnEdge at hy
  rcases h with ⟨rfl, _⟩ | ⟨hx, rfl | rfl⟩
  · rw [update_lt _ _ h1, update_lt _ _ h2] at hy; exact hy
  · simp only [nearHalf, update_lt _ _ h1, Function.update_self] at hy
    exact onSeg_part hx hy
  · simp only [farHalf, update_lt _ _ h2, Function.update_self] at hy
    exact onSeg_symm (onSeg_part (onSeg_symm hx) hy)

theorem PieceOf.isEnd {n i : ℕ} {x : ℝ × ℝ} {e f : Edge U} (h : PieceOf pos n x e f) (h1 : e.src < n) (h2 : e.dst < n)
    (hxs : x ≠ pos e.src) (hxd : x ≠ pos e.dst) (hi : IsEnd e i)
    (hy : OnEdge (Function.update pos n x) f (pos i)) : IsEnd f i := by
  unfold OnEdge at hy
  rcases h with ⟨rfl, _⟩ | ⟨hx, rfl | rfl⟩
  · exact hi
  · simp only [nearHalf, update_lt _ _ h1, Function.update_self] at hy
    rcases hi with rfl | rfl
    · exact Or.inl rfl
    · exact absurd (onSeg_far hx hy) hxd
  · simp only [farHalf, update_lt _ _ h2, Function.update_self] at hy
    rcases hi with rfl | rfl
    · exact absurd (onSeg_far (onSeg_symm hx) hy) hxs
    · exact Or.inl rfl

theorem PieceOf.new_end {n : ℕ} {x : ℝ × ℝ} {e f : Edge U} (h : PieceOf pos n x e f) (h1 : e.src < n) (h2 : e.dst < n)
    (hy : OnEdge (Function.update pos n x) f x) : IsEnd f n := by
  unfold OnEdge at hy
  rcases h with ⟨rfl, hx⟩ | ⟨hx, rfl | rfl⟩
  · rw [update_lt _ _ h1, update_lt _ _ h2] at hy; exact absurd hy hx
  · exact Or.inr rfl
  · exact Or.inr rfl

/-- a crossing point: it becomes a node and splits the edges through it -/
theorem Inv0.insert_cross [Inhabited T] (h : Inv0 base orig n0 g pos rest) {x : ℝ × ℝ} (hx : rest x) (ho : orig x) :
    (insertPt g (pt x)).nodes.length = g.nodes.length + 1 ∧
    Inv0 base orig n0 (insertPt g (pt x)) (Function.update pos g.nodes.length x) (fun y => rest y ∧ y ≠ x) := by
  set n := g.nodes.length with hn
  have heps := XReal.epsR_pos
  -- the point is far from all nodes
  have hc : ((nearest g (pt x)).2 <. Scalar.epsilon) = false := by
    rw [← Bool.not_eq_true]; intro hc
    obtain ⟨a, h1, h2, _⟩ := (nearest_spec g (pt x)).1 hc
    have hlt := (List.getElem?_eq_some_iff.1 h1).1
    rw [h2, h.drawn _ _ h1, UtilThm.distance_pt, XReal.eps_def, XReal.fin_lt] at hc
    have := h.farR x hx _ hlt
    simp only [decide_eq_true_eq] at hc
    linarith
  have hins : insertPt g (pt x) = splitAt (pushNode g (pt x) default) n := by
    unfold insertPt; rw [if_neg (by rw [hc]; decide)]
  rw [hins]
  set g1 := pushNode g (pt x) (default : T) with hg1
  have hg1e : g1.edges = g.edges := rfl
  have hg1n : g1.nodes.length = n + 1 := by simp [hg1, pushNode, hn]
  have hwf1 : WF g1 := h.wf.pushNode _ _
  have hne : ∀ i, i < n → x ≠ pos i := by
    intro i hi hc
    have := h.farR x hx i hi
    rw [← hc, UtilThm.dst_eq_zero.2 rfl] at this; linarith
  have hdrawn1 : Drawn g1 (Function.update pos n x) := by
    intro i a hi
    simp only [hg1, pushNode] at hi
    by_cases hlt : i < n
    · rw [List.getElem?_append_left hlt] at hi
      rw [update_lt _ _ hlt]; exact h.drawn i a hi
    · have := (List.getElem?_eq_some_iff.1 hi).1
      simp only [List.length_append, List.length_singleton] at this
      have : i = n := by omega
      subst this
      rw [Function.update_self]
      simp [hn] at hi
      rw [← hi]
  -- the test is exact
  have htest : ∀ e ∈ g.edges, (onTest g1.nodes n e = true ↔ OnEdge pos e x) := by
    intro e he
    obtain ⟨w1, w2⟩ := h.wf e he
    rw [onTest_iff hdrawn1 (by omega) (by omega) (by omega), update_lt _ _ w1, update_lt _ _ w2, Function.update_self]
    constructor
    · rintro ⟨t1, t2, t3⟩
      obtain ⟨A, B, hb, p1, p2⟩ := h.piece e he
      exact test_on p1 p2 (h.clearR x hx A B _ hb) t1 t2 t3
    · intro hon
      refine ⟨?_, ?_, h.farR x hx _ w2⟩
      · have := (onSeg_iff _ _ _).1 hon
        linarith
      · rw [UtilThm.dst_comm]; exact h.farR x hx _ w1
  -- every edge of the new graph is a piece of an old one
  have hslot : ∀ K f, (splitAt g1 n).edges[K]? = some f → ∃ k e, g.edges[k]? = some e ∧ PieceOf pos n x e f ∧
      ((f = e ∧ ¬ OnEdge pos e x ∧ K = k) ∨ (f = nearHalf n e ∧ K = k) ∨ (f = farHalf n e ∧ ∃ m, K = g1.edges.length + m ∧ (onSlots g1 n)[m]? = some k)) := by
    intro K f hf
    obtain ⟨k, e, hk, hcase⟩ := splitAt_slot hf
    have hmem : e ∈ g.edges := List.mem_of_getElem? hk
    refine ⟨k, e, hk, ?_⟩
    rcases hcase with ⟨ho, rfl, rfl⟩ | ⟨ho, rfl, rfl⟩ | ⟨ho, rfl, hm⟩
    · have hno : ¬ OnEdge pos f x := by rw [← htest f hmem, ho]; decide
      exact ⟨Or.inl ⟨rfl, hno⟩, Or.inl ⟨rfl, hno, rfl⟩⟩
    · exact ⟨Or.inr ⟨(htest e hmem).1 ho, Or.inl rfl⟩, Or.inr (Or.inl ⟨rfl, rfl⟩)⟩
    · exact ⟨Or.inr ⟨(htest e hmem).1 ho, Or.inr rfl⟩, Or.inr (Or.inr ⟨rfl, hm⟩)⟩
  have hlen : (splitAt g1 n).nodes.length = n + 1 := hg1n
  refine ⟨hlen, ?_⟩
  constructor
  · exact hwf1.splitAt n
  · exact hdrawn1
  · intro i j hi hj hij
    rw [hlen] at hi hj
    rcases Nat.lt_succ_iff_lt_or_eq.1 hi with hi | rfl <;> rcases Nat.lt_succ_iff_lt_or_eq.1 hj with hj | rfl
    · rw [update_lt _ _ hi, update_lt _ _ hj] at hij; exact h.inj i j hi hj hij
    · rw [update_lt _ _ hi, Function.update_self] at hij; exact absurd hij.symm (hne i hi)
    · rw [update_lt _ _ hj, Function.update_self] at hij; exact absurd hij (hne j hj)
    · rfl
  · intro f hf
    obtain ⟨K, hK⟩ := List.mem_iff_getElem?.1 hf
    obtain ⟨k, e, hk, hp, _⟩ := hslot K f hK
    have hmem := List.mem_of_getElem? hk
    obtain ⟨w1, w2⟩ := h.wf e hmem
    obtain ⟨A, B, hb, p1, p2⟩ := h.piece e hmem
    have hdat : f.data = e.data := by rcases hp with ⟨rfl, _⟩ | ⟨_, rfl | rfl⟩ <;> rfl
    refine ⟨A, B, by rw [hdat]; exact hb, ?_⟩
    have hxin : OnEdge pos e x → OnSegR A B x := by
      intro hon
      apply h.clearR x hx A B _ hb
      have h1 := (onSeg_iff _ _ _).1 hon
      have q1 := (onSeg_iff _ _ _).1 p1
      have q2 := (onSeg_iff _ _ _).1 p2
      -- x is on a part of AB
      obtain ⟨s, s0, s1, hs⟩ := p1
      obtain ⟨t, t0, t1, ht⟩ := p2
      obtain ⟨r, r0, r1, hr⟩ := hon
      have : OnSegR A B x := by
        refine ⟨s + r * (t - s), ?_, ?_, ?_⟩
        · nlinarith [mul_nonneg r0 t0, mul_nonneg (sub_nonneg.2 r1) s0]
        · nlinarith [mul_nonneg r0 (sub_nonneg.2 t1), mul_nonneg (sub_nonneg.2 r1) (sub_nonneg.2 s1)]
        · rw [hr, hs, ht]; ext <;> simp only <;> ring
      have := (onSeg_iff _ _ _).1 this
      linarith
    rcases hp with ⟨rfl, _⟩ | ⟨hon, rfl | rfl⟩
    · rw [update_lt _ _ w1, update_lt _ _ w2]; exact ⟨p1, p2⟩
    · have u1 : Function.update pos n x e.src = pos e.src := update_lt _ _ w1
      simp only [nearHalf, u1, Function.update_self]; exact ⟨p1, hxin hon⟩
    · have u2 : Function.update pos n x e.dst = pos e.dst := update_lt _ _ w2
      simp only [farHalf, u2, Function.update_self]; exact ⟨p2, hxin hon⟩
  · intro K L f f' hK hL hKL y hy hy'
    obtain ⟨k, e, hk, hp, hc1⟩ := hslot K f hK
    obtain ⟨l, e', hl, hp', hc2⟩ := hslot L f' hL
    have hmem := List.mem_of_getElem? hk
    have hmem' := List.mem_of_getElem? hl
    obtain ⟨w1, w2⟩ := h.wf e hmem
    obtain ⟨w1', w2'⟩ := h.wf e' hmem'
    by_cases hyx : y = x
    · subst hyx
      exact Or.inl ⟨n, hp.new_end w1 w2 hy, hp'.new_end w1' w2' hy', by rw [Function.update_self]⟩
    · have hon := hp.on w1 w2 hy
      have hon' := hp'.on w1' w2' hy'
      by_cases hkl : k = l
      · subst hkl
        rw [hk] at hl
        simp only [Option.some.injEq] at hl
        subst hl
        exfalso
        have hnf : ∀ {f f' : Edge U}, f = nearHalf n e → f' = farHalf n e → OnEdge pos e x →
            OnEdge (Function.update pos n x) f y → OnEdge (Function.update pos n x) f' y → False := by
          rintro f f' rfl rfl hx1 h1 h2
          unfold OnEdge at h1 h2
          have u1 : Function.update pos n x e.src = pos e.src := update_lt _ _ w1
          have u2 : Function.update pos n x e.dst = pos e.dst := update_lt _ _ w2
          simp only [nearHalf, u1, Function.update_self] at h1
          simp only [farHalf, u2, Function.update_self] at h2
          exact hyx (onSeg_parts hx1 h1 h2)
        have honx : ∀ {f : Edge U} {K : ℕ}, (splitAt g1 n).edges[K]? = some f →
            (f = farHalf n e ∧ ∃ m, K = g1.edges.length + m ∧ (onSlots g1 n)[m]? = some k) → OnEdge pos e x := by
          rintro f K _ ⟨_, m, _, hm⟩
          obtain ⟨e1, he1, ho⟩ := mem_onSlots.1 (List.mem_of_getElem? hm)
          rw [hg1e, hk] at he1; cases he1
          exact (htest e hmem).1 ho
        rcases hc1 with ⟨_, hno, rfl⟩ | ⟨hf1, rfl⟩ | hf1
        · rcases hc2 with ⟨_, _, h2⟩ | ⟨_, h2⟩ | hf2
          · exact hKL h2.symm
          · exact hKL h2.symm
          · exact hno (honx hL hf2)
        · rcases hc2 with ⟨_, _, h2⟩ | ⟨_, h2⟩ | hf2
          · exact hKL h2.symm
          · exact hKL h2.symm
          · exact hnf hf1 hf2.1 (honx hL hf2) hy hy'
        · rcases hc2 with ⟨_, hno, _⟩ | ⟨hf2, _⟩ | hf2
          · exact hno (honx hK hf1)
          · exact hnf hf2 hf1.1 (honx hK hf1) hy' hy
          · obtain ⟨_, m, rfl, hm⟩ := hf1
            obtain ⟨_, m', rfl, hm'⟩ := hf2
            apply hKL
            have := (List.getElem?_inj (List.getElem?_eq_some_iff.1 hm).1 (onSlots_nodup g1 n)).1 (hm.trans hm'.symm)
            rw [this]
      · rcases h.meet k l e e' hk hl hkl y hon hon' with ⟨i, i1, i2, rfl⟩ | hr
        · left
          have hi := i1.lt h.wf hmem
          exact ⟨i, hp.isEnd w1 w2 (hne _ w1) (hne _ w2) i1 hy, hp'.isEnd w1' w2' (hne _ w1') (hne _ w2') i2 hy',
            by rw [update_lt _ _ hi]⟩
        · exact Or.inr ⟨hr, hyx⟩
  · intro f hf i hi hy
    obtain ⟨K, hK⟩ := List.mem_iff_getElem?.1 hf
    obtain ⟨k, e, hk, hp, _⟩ := hslot K f hK
    have hmem := List.mem_of_getElem? hk
    obtain ⟨w1, w2⟩ := h.wf e hmem
    rw [hlen] at hi
    rcases Nat.lt_succ_iff_lt_or_eq.1 hi with hi | rfl
    · rw [update_lt _ _ hi] at hy
      exact hp.isEnd w1 w2 (hne _ w1) (hne _ w2) (h.node e hmem i hi (hp.on w1 w2 hy)) hy
    · rw [Function.update_self] at hy
      exact hp.new_end w1 w2 hy
  · exact fun y hy => h.clearR y hy.1
  · intro y hy i hi
    rw [hlen] at hi
    rcases Nat.lt_succ_iff_lt_or_eq.1 hi with hi | rfl
    · rw [update_lt _ _ hi]; exact h.farR y hy.1 i hi
    · rw [Function.update_self]; exact h.sepR y x hy.1 hx hy.2
  · exact fun y y' hy hy' => h.sepR y y' hy.1 hy'.1
  · intro A B u hb y hy
    obtain ⟨e, he, hu, hon⟩ := h.cover A B u hb y hy
    obtain ⟨w1, w2⟩ := h.wf e he
    have u1 : Function.update pos n x e.src = pos e.src := update_lt _ _ w1
    have u2 : Function.update pos n x e.dst = pos e.dst := update_lt _ _ w2
    by_cases hox : OnEdge pos e x
    · have ht := (htest e he).2 hox
      rcases onSeg_cut hox hon with hl | hr
      · refine ⟨nearHalf n e, mem_splitAt.2 ⟨e, he, Or.inr ⟨ht, Or.inl rfl⟩⟩, hu, ?_⟩
        unfold OnEdge
        simp only [nearHalf, u1, Function.update_self]; exact hl
      · refine ⟨farHalf n e, mem_splitAt.2 ⟨e, he, Or.inr ⟨ht, Or.inr rfl⟩⟩, hu, ?_⟩
        unfold OnEdge
        simp only [farHalf, u2, Function.update_self]; exact hr
    · refine ⟨e, mem_splitAt.2 ⟨e, he, Or.inl ⟨?_, rfl⟩⟩, hu, ?_⟩
      · rw [← Bool.not_eq_true, htest e he]; exact hox
      · unfold OnEdge; rw [u1, u2]; exact hon
  · intro i h0 hi
    rw [hlen] at hi
    rcases Nat.lt_succ_iff_lt_or_eq.1 hi with hi | rfl
    · rw [update_lt _ _ hi]; exact h.fresh i h0 hi
    · rw [Function.update_self]; exact ho
  · intro y hy
    by_cases hyx : y = x
    · exact Or.inr ⟨n, by rw [hlen]; omega, by rw [Function.update_self]; exact hyx⟩
    · rcases h.found y hy with h1 | ⟨i, h1, h2⟩
      · exact Or.inl ⟨h1, hyx⟩
      · exact Or.inr ⟨i, by rw [hlen]; omega, by rw [update_lt _ _ h1]; exact h2⟩

theorem Inv.insert_cross [Inhabited T] (h : Inv base orig n0 g pos rest) {x : ℝ × ℝ} (hx : rest x) (ho : orig x) :
    Inv base orig n0 (insertPt g (pt x)) (Function.update pos g.nodes.length x) (fun y => rest y ∧ y ≠ x) := by
  obtain ⟨hlen, h0⟩ := h.toInv0.insert_cross hx ho
  refine { toInv0 := h0, clearN := ?_ }
  intro i hi
  rw [hlen] at hi
  rcases Nat.lt_succ_iff_lt_or_eq.1 hi with hi | rfl
  · rw [update_lt _ _ hi]; exact h.clearN i hi
  · rw [Function.update_self]; exact h.clearR x hx

end Insert

theorem insertPt_length_le [Inhabited T] (g : PlanarGraph XReal T U) (x : Vec2 XReal) :
    g.nodes.length ≤ (insertPt g x).nodes.length := by
  unfold insertPt
  split
  · exact le_refl _
  · simp [splitAt, pushNode]

/-- the whole loop -/
theorem Inv.inserts [Inhabited T] {g g' : PlanarGraph XReal T U} {xs : List (Vec2 XReal)} {cn ce : List Nat}
    (hi : Inserts g xs g' cn ce) {base : (ℝ × ℝ) → (ℝ × ℝ) → U → Prop} {orig : (ℝ × ℝ) → Prop} {n0 : ℕ} :
    ∀ {pos : ℕ → ℝ × ℝ} {rest : (ℝ × ℝ) → Prop},
    Inv base orig n0 g pos rest → (∀ y, rest y → orig y) → (∀ q ∈ xs, ∃ y, q = pt y ∧ (rest y ∨ ∃ i, i < g.nodes.length ∧ y = pos i)) →
    ∃ pos', (∀ i, i < g.nodes.length → pos' i = pos i) ∧ Inv base orig n0 g' pos' (fun y => rest y ∧ pt y ∉ xs) := by
  induction hi with
  | nil g =>
    intro pos rest h _ _
    exact ⟨pos, fun _ _ => rfl, by simpa using h⟩
  | cons g x xs g' cn ce _ ih =>
    intro pos rest h hro hxs
    obtain ⟨y, rfl, hy⟩ := hxs x (List.mem_cons_self ..)
    have hxs' := fun q hq => hxs q (List.mem_cons_of_mem _ hq)
    by_cases hr : rest y
    · have h1 := h.insert_cross hr (hro y hr)
      obtain ⟨pos', p1, p2⟩ := ih h1 (fun z hz => hro z hz.1) (by
        intro q hq
        obtain ⟨z, rfl, hz⟩ := hxs' q hq
        refine ⟨z, rfl, ?_⟩
        have hle := insertPt_length_le g (pt y)
        have hlt : g.nodes.length < (insertPt g (pt y)).nodes.length := by
          by_contra hc
          have e : (insertPt g (pt y)).nodes.length = g.nodes.length := by omega
          unfold insertPt at e
          split at e
          · rename_i hn
            obtain ⟨a, h1, h2, _⟩ := (nearest_spec g (pt y)).1 hn
            have hlt := (List.getElem?_eq_some_iff.1 h1).1
            rw [h2, h.drawn _ _ h1, UtilThm.distance_pt, XReal.eps_def, XReal.fin_lt] at hn
            have := h.farR y hr _ hlt
            simp only [decide_eq_true_eq] at hn
            linarith
          · simp [splitAt, pushNode] at e
        by_cases hzy : z = y
        · subst hzy
          exact Or.inr ⟨g.nodes.length, hlt, by rw [Function.update_self]⟩
        · rcases hz with hz | ⟨i, hi, rfl⟩
          · exact Or.inl ⟨hz, hzy⟩
          · exact Or.inr ⟨i, by omega, by rw [update_lt _ _ hi]⟩)
      refine ⟨pos', ?_, ?_⟩
      · intro i hi
        rw [p1 i (lt_of_lt_of_le hi (insertPt_length_le g _)), update_lt _ _ hi]
      · have : (fun z => (rest z ∧ z ≠ y) ∧ pt z ∉ xs) = (fun z => rest z ∧ pt z ∉ pt y :: xs) := by
          funext z
          simp only [List.mem_cons, not_or, eq_iff_iff]
          have : pt z = pt y ↔ z = y := ⟨fun h => by
            have h1 := congrArg Vec2.x h
            have h2 := congrArg Vec2.y h
            simp only [pt, XReal.fin.injEq] at h1 h2
            exact Prod.ext h1 h2, fun h => by rw [h]⟩
          rw [this]; tauto
        rw [← this]; exact p2
    · rcases hy with hy | ⟨i, hi, rfl⟩
      · exact absurd hy hr
      · rw [h.insert_node hi] at ih
        obtain ⟨pos', p1, p2⟩ := ih h hro hxs'
        refine ⟨pos', p1, ?_⟩
        have : (fun z => rest z ∧ pt z ∉ xs) = (fun z => rest z ∧ pt z ∉ pt (pos i) :: xs) := by
          funext z
          simp only [List.mem_cons, not_or, eq_iff_iff]
          constructor
          · rintro ⟨h1, h2⟩
            refine ⟨h1, ?_, h2⟩
            intro hc
            have h3 := congrArg Vec2.x hc
            have h4 := congrArg Vec2.y hc
            simp only [pt, XReal.fin.injEq] at h3 h4
            rw [Prod.ext h3 h4] at h1
            exact hr h1
          · rintro ⟨h1, _, h2⟩; exact ⟨h1, h2⟩
        rw [← this]; exact p2

/-! ## C60 -/

theorem pt_inj {p q : ℝ × ℝ} (h : pt p = pt q) : p = q := by
  have h1 := congrArg Vec2.x h
  have h2 := congrArg Vec2.y h
  simp only [pt, XReal.fin.injEq] at h1 h2
  exact Prod.ext h1 h2

theorem edgeMeets_pt {g : PlanarGraph XReal T U} {pos : ℕ → ℝ × ℝ} (hd : Drawn g pos) {e f : Edge U}
    (h1 : e.src < g.nodes.length) (h2 : e.dst < g.nodes.length) (h3 : f.src < g.nodes.length)
    (h4 : f.dst < g.nodes.length) : edgeMeets g.nodes e f =
      Utils.calculateLineSegmentIntersection (pt (pos e.src)) (pt (pos e.dst)) (pt (pos f.src)) (pt (pos f.dst)) := by
  unfold edgeMeets
  rw [List.getElem?_eq_getElem h1, List.getElem?_eq_getElem h2, List.getElem?_eq_getElem h3,
    List.getElem?_eq_getElem h4]
  simp only
  rw [hd _ _ (List.getElem?_eq_getElem h1), hd _ _ (List.getElem?_eq_getElem h2),
    hd _ _ (List.getElem?_eq_getElem h3), hd _ _ (List.getElem?_eq_getElem h4)]

/-- at a crossing point the edge and the new segment are not parallel -/
theorem crossing_transversal {g : PlanarGraph XReal T U} {pos : ℕ → ℝ × ℝ} (hwf : WF g)
    (hinj : ∀ i j, i < g.nodes.length → j < g.nodes.length → pos i = pos j → i = j)
    (hloop : ∀ e ∈ g.edges, e.src ≠ e.dst) (hp : Planar g pos) {s d : ℕ} (hs : s < g.nodes.length)
    (hd : d < g.nodes.length) (hnew : ∀ e ∈ g.edges, ¬ ((e.src = s ∧ e.dst = d) ∨ (e.src = d ∧ e.dst = s)))
    (hclear : ∀ i, i < g.nodes.length → OnSegR (pos s) (pos d) (pos i) → i = s ∨ i = d)
    {y : ℝ × ℝ} (hy : OnSegR (pos s) (pos d) y) {e : Edge U} (he : e ∈ g.edges) (hye : OnEdge pos e y)
    (hyn : ∀ i, i < g.nodes.length → y ≠ pos i) : crs (pos e.src) (pos e.dst) (pos s) (pos d) ≠ 0 := by
  intro h0
  obtain ⟨w1, w2⟩ := hwf e he
  have hab : pos e.src ≠ pos e.dst := fun h => hloop e he (hinj _ _ w1 w2 h)
  obtain ⟨γ, δ, η, hc, hd', η0, η1, hcase⟩ :=
    overlap hab h0 hye hy (hyn _ w1) (hyn _ w2) (hyn _ hs) (hyn _ hd)
  set a := pos e.src with ha
  set b := pos e.dst with hb
  -- parameters of nodes are determined by their positions
  have hpar : ∀ {t u : ℝ}, (a.1 + t * (b.1 - a.1), a.2 + t * (b.2 - a.2)) = (a.1 + u * (b.1 - a.1), a.2 + u * (b.2 - a.2)) →
      t = u := by
    intro t u h
    have h1 := congrArg Prod.fst h
    have h2 := congrArg Prod.snd h
    simp only at h1 h2
    by_contra hne
    apply hab
    have e1 : (t - u) * (b.1 - a.1) = 0 := by linarith
    have e2 : (t - u) * (b.2 - a.2) = 0 := by linarith
    have hne' : t - u ≠ 0 := sub_ne_zero.2 hne
    ext
    · have := (mul_eq_zero.1 e1).resolve_left hne'; linarith
    · have := (mul_eq_zero.1 e2).resolve_left hne'; linarith
  have hp0 : a = (a.1 + 0 * (b.1 - a.1), a.2 + 0 * (b.2 - a.2)) := by simp
  have hp1 : b = (a.1 + 1 * (b.1 - a.1), a.2 + 1 * (b.2 - a.2)) := by simp
  -- the lower end of the new segment is at `a`, the upper one at `b`
  have low : ∀ {u v : ℕ} {γ δ : ℝ}, u < g.nodes.length → v < g.nodes.length →
      pos u = (a.1 + γ * (b.1 - a.1), a.2 + γ * (b.2 - a.2)) → pos v = (a.1 + δ * (b.1 - a.1), a.2 + δ * (b.2 - a.2)) →
      (∀ i, i < g.nodes.length → OnSegR (pos u) (pos v) (pos i) → i = u ∨ i = v) → γ < η → η < δ →
      u = e.src ∧ v = e.dst := by
    intro u v γ δ hu hv hγ hδ hcl l1 l2
    constructor
    · rcases le_or_gt 0 γ with h | h
      · have hon : OnEdge pos e (pos u) := ⟨γ, h, by linarith, hγ⟩
        rcases hp.node e he u hu hon with rfl | rfl
        · rfl
        · exact absurd (hpar (hγ.symm.trans hp1)) (by linarith)
      · have hon : OnSegR (pos u) (pos v) (pos e.src) := by
          refine ⟨(0 - γ) / (δ - γ), ?_, ?_, ?_⟩
          · apply div_nonneg <;> linarith
          · rw [div_le_one (by linarith)]; linarith
          · rw [hγ, hδ, ← ha]
            have : δ - γ ≠ 0 := by linarith
            ext
            · simp only; field_simp; ring
            · simp only; field_simp; ring
        rcases hcl _ w1 hon with h' | h'
        · exact h'.symm
        · rw [← h', ← ha] at hδ
          exact absurd (hpar (hp0.symm.trans hδ)) (by linarith)
    · rcases le_or_gt δ 1 with h | h
      · have hon : OnEdge pos e (pos v) := ⟨δ, by linarith, h, hδ⟩
        rcases hp.node e he v hv hon with rfl | rfl
        · exact absurd (hpar (hδ.symm.trans hp0)) (by linarith)
        · rfl
      · have hon : OnSegR (pos u) (pos v) (pos e.dst) := by
          refine ⟨(1 - γ) / (δ - γ), ?_, ?_, ?_⟩
          · apply div_nonneg <;> linarith
          · rw [div_le_one (by linarith)]; linarith
          · rw [hγ, hδ, ← hb]
            have : δ - γ ≠ 0 := by linarith
            ext
            · simp only; field_simp; ring
            · simp only; field_simp; ring
        rcases hcl _ w2 hon with h' | h'
        · rw [← h', ← hb] at hγ
          exact absurd (hpar (hp1.symm.trans hγ)) (by linarith)
        · exact h'.symm
  rcases hcase with ⟨c1, c2⟩ | ⟨c1, c2⟩
  · obtain ⟨h1, h2⟩ := low hs hd hc hd' hclear c1 c2
    exact hnew e he (Or.inl ⟨h1.symm, h2.symm⟩)
  · obtain ⟨h1, h2⟩ := low hd hs hd' hc (fun i hi h => (hclear i hi (onSeg_symm h)).symm) c1 c2
    exact hnew e he (Or.inr ⟨h1.symm, h2.symm⟩)

theorem addEdge_planar [Inhabited T] (g : PlanarGraph XReal T U) (hwf : WF g) (pos : ℕ → ℝ × ℝ) (hdr : Drawn g pos)
    (hinj : ∀ i j, i < g.nodes.length → j < g.nodes.length → pos i = pos j → i = j)
    (hloop : ∀ e ∈ g.edges, e.src ≠ e.dst) (hp : Planar g pos) (s d : ℕ) (x : U) (hgp : GeneralPosition g pos s d)
    (hne : g.hasEdgeBetweenNodes s d = false) (hs : s < g.nodes.length) (hd : d < g.nodes.length)
    {g1 : PlanarGraph XReal T U} {cn ce : List ℕ}
    (hi : Inserts (pushEdge g s d x) (Utils.uniquePointsAmong (meetPoints g ⟨s, d, x, defaultLabel⟩)) g1 cn ce) :
    ∃ pos', (∀ i, i < g.nodes.length → pos' i = pos i) ∧ Planar g1 pos' ∧
      Inv (fun A B c => ∃ u v, SegmentWith g s d x u v c ∧ A = pos u ∧ B = pos v) (Crossing g pos s d)
        g.nodes.length g1 pos' (fun _ => False) := by
  have heps := XReal.epsR_pos
  have hnew : ∀ e ∈ g.edges, ¬ ((e.src = s ∧ e.dst = d) ∨ (e.src = d ∧ e.dst = s)) := by
    intro e he hc
    rw [(hasEdge_iff g s d).2 ⟨e, he, hc⟩] at hne; cases hne
  have hclear : ∀ i, i < g.nodes.length → OnSegR (pos s) (pos d) (pos i) → i = s ∨ i = d := by
    intro i hi hon
    by_contra hc
    push Not at hc
    have := hgp.nodes_clear i hi s d (Or.inl ⟨rfl, rfl⟩) hc.1 hc.2
    have := (onSeg_iff _ _ _).1 hon
    linarith
  -- the invariant holds at the start
  have hinv : Inv (fun A B c => ∃ u v, SegmentWith g s d x u v c ∧ A = pos u ∧ B = pos v) (Crossing g pos s d)
      g.nodes.length (pushEdge g s d x) pos (Crossing g pos s d) := by
    have hpair : ∀ e ∈ g.edges, ∀ y, OnEdge pos e y → OnSegR (pos s) (pos d) y →
        (∃ i, IsEnd e i ∧ (i = s ∨ i = d) ∧ y = pos i) ∨ Crossing g pos s d y := by
      intro e he y hy hy'
      by_cases hex : ∃ i, i < g.nodes.length ∧ y = pos i
      · obtain ⟨i, hi, rfl⟩ := hex
        exact Or.inl ⟨i, hp.node e he i hi hy, hclear i hi hy', rfl⟩
      · exact Or.inr ⟨hy', ⟨e, he, hy⟩, fun i hi hc => hex ⟨i, hi, hc⟩⟩
    refine ⟨⟨?_, ?_, ?_, ?_, ?_, ?_, ?_, ?_, ?_, ?_, ?_, ?_⟩, ?_⟩
    · exact hwf.pushEdge hs hd x
    · exact hdr
    · exact hinj
    · intro e he
      rcases List.mem_append.1 he with he | he
      · exact ⟨_, _, ⟨e.src, e.dst, Or.inr ⟨e, he, rfl, rfl, rfl⟩, rfl, rfl⟩, onSeg_left _ _, onSeg_right _ _⟩
      · rw [List.mem_singleton] at he
        subst he
        exact ⟨_, _, ⟨s, d, Or.inl ⟨rfl, rfl, rfl⟩, rfl, rfl⟩, onSeg_left _ _, onSeg_right _ _⟩
    · intro k l e f hk hl hkl y hy hy'
      simp only [pushEdge] at hk hl
      have hget : ∀ (k : ℕ) e, (g.edges ++ [⟨s, d, x, defaultLabel⟩])[k]? = some e →
          g.edges[k]? = some e ∨ (k = g.edges.length ∧ e = ⟨s, d, x, defaultLabel⟩) := by
        intro k e h
        by_cases hlt : k < g.edges.length
        · rw [List.getElem?_append_left hlt] at h; exact Or.inl h
        · have := (List.getElem?_eq_some_iff.1 h).1
          simp only [List.length_append, List.length_singleton] at this
          have : k = g.edges.length := by omega
          subst this
          simp at h
          exact Or.inr ⟨rfl, h.symm⟩
      rcases hget k e hk with hk | ⟨rfl, rfl⟩ <;> rcases hget l f hl with hl | ⟨rfl, rfl⟩
      · exact Or.inl (hp.meet k l e f hk hl hkl y hy hy')
      · rcases hpair e (List.mem_of_getElem? hk) y hy hy' with ⟨i, h1, h2, h3⟩ | h
        · exact Or.inl ⟨i, h1, h2, h3⟩
        · exact Or.inr h
      · rcases hpair f (List.mem_of_getElem? hl) y hy' hy with ⟨i, h1, h2, h3⟩ | h
        · exact Or.inl ⟨i, h2, h1, h3⟩
        · exact Or.inr h
      · exact absurd rfl hkl
    · intro e he i hi hon
      rcases List.mem_append.1 he with he | he
      · exact hp.node e he i hi hon
      · rw [List.mem_singleton] at he
        subst he
        exact hclear i hi hon
    · rintro y hy A B _ ⟨u, v, huv, rfl, rfl⟩ hlt
      by_contra hc
      have := hgp.cross_clear y hy u v huv.segment hc
      linarith
    · exact hgp.cross_far
    · exact hgp.cross_sep
    · rintro A B c ⟨u, v, ⟨rfl, rfl, rfl⟩ | ⟨e, he, rfl, rfl, rfl⟩, rfl, rfl⟩ y hy
      · exact ⟨⟨u, v, c, defaultLabel⟩, by simp [pushEdge], rfl, hy⟩
      · exact ⟨e, by simp [pushEdge, he], rfl, hy⟩
    · intro i h0 hi
      exact absurd hi (by simp only [pushEdge]; omega)
    · exact fun y hy => Or.inl hy
    · rintro i hi A B _ ⟨u, v, huv, rfl, rfl⟩ hlt
      by_cases h1 : i = u
      · subst h1; exact onSeg_left _ _
      · by_cases h2 : i = v
        · subst h2; exact onSeg_right _ _
        · have := hgp.nodes_clear i hi u v huv.segment h1 h2
          linarith
  -- the points found
  set f : Edge U := ⟨s, d, x, defaultLabel⟩ with hf
  have hmeets : ∀ e ∈ g.edges, ∀ q, edgeMeets g.nodes e f = some q →
      ∃ y, q = pt y ∧ OnEdge pos e y ∧ OnSegR (pos s) (pos d) y := by
    intro e he q hq
    rw [edgeMeets_pt hdr (hwf e he).1 (hwf e he).2 hs hd] at hq
    obtain ⟨y, h1, h2, h3, _⟩ := UtilThm.C39_sound _ _ _ _ _ hq
    exact ⟨y, h1, h2, h3⟩
  have hclass : ∀ e ∈ g.edges, ∀ y, OnEdge pos e y → OnSegR (pos s) (pos d) y →
      Crossing g pos s d y ∨ ∃ i, i < g.nodes.length ∧ y = pos i := by
    intro e he y hy hy'
    by_cases hex : ∃ i, i < g.nodes.length ∧ y = pos i
    · exact Or.inr hex
    · exact Or.inl ⟨hy', ⟨e, he, hy⟩, fun i hi hc => hex ⟨i, hi, hc⟩⟩
  obtain ⟨pos', p1, p2⟩ := hinv.inserts hi (fun _ h => h) (by
    intro q hq
    obtain ⟨i, hi, _⟩ := (UtilThm.mem_unique _ _).1 hq
    obtain ⟨e, he, hm⟩ := List.mem_filterMap.1 (List.mem_of_getElem? hi)
    obtain ⟨y, rfl, h1, h2⟩ := hmeets e he q hm
    exact ⟨y, rfl, hclass e he y h1 h2⟩)
  -- every crossing point is kept
  have hall : ∀ y, Crossing g pos s d y → pt y ∈ Utils.uniquePointsAmong (meetPoints g f) := by
    intro y hy
    obtain ⟨hy1, ⟨e, he, hye⟩, hyn⟩ := hy
    have htr := crossing_transversal hwf hinj hloop hp hs hd hnew hclear hy1 he hye hyn
    have hm : edgeMeets g.nodes e f = some (pt y) := by
      rw [edgeMeets_pt hdr (hwf e he).1 (hwf e he).2 hs hd]
      have hnn : Utils.calculateLineSegmentIntersection (pt (pos e.src)) (pt (pos e.dst)) (pt (pos s)) (pt (pos d)) ≠ none := by
        rw [ne_eq, UtilThm.C40_complete_partial _ _ _ _ htr]
        exact not_not.2 ⟨y, hye, hy1⟩
      obtain ⟨q, hq⟩ := Option.ne_none_iff_exists'.1 hnn
      obtain ⟨z, rfl, _, _, _, hz⟩ := UtilThm.C39_sound _ _ _ _ _ hq
      rw [hz y hye hy1]; exact hq
    obtain ⟨i, hi⟩ : ∃ i : ℕ, (meetPoints g f)[i]? = some (pt y) :=
      List.mem_iff_getElem?.1 (List.mem_filterMap.2 ⟨e, he, hm⟩ : pt y ∈ meetPoints g f)
    refine (UtilThm.mem_unique _ _).2 ⟨i, hi, ?_⟩
    -- no other found point is close
    have hclose : ∀ z, ¬ dst y z ≤ XReal.epsR → Utils.closeTo (pt y) (pt z) = false := by
      intro z hz
      unfold Utils.closeTo
      rw [UtilThm.distance_pt, XReal.eps_def, XReal.fin_le]
      simpa using hz
    have hR : (meetPoints g f).Pairwise (fun b b' => (b = pt y → Utils.closeTo b b' = false) ∧
        (b' = pt y → Utils.closeTo b' b = false)) := by
      unfold meetPoints
      rw [List.pairwise_filterMap, List.pairwise_iff_getElem]
      intro k l hk hl hkl b hb b' hb'
      obtain ⟨z, rfl, z1, z2⟩ := hmeets _ (List.getElem_mem hk) b hb
      obtain ⟨z', rfl, z1', z2'⟩ := hmeets _ (List.getElem_mem hl) b' hb'
      have hcommon : z = z' → ∃ i, i < g.nodes.length ∧ z = pos i := by
        rintro rfl
        obtain ⟨i, i1, _, i3⟩ := hp.meet k l _ _ (List.getElem?_eq_getElem hk) (List.getElem?_eq_getElem hl) (by omega)
          z z1 z1'
        exact ⟨i, i1.lt hwf (List.getElem_mem hk), i3⟩
      have hY : Crossing g pos s d y := ⟨hy1, ⟨e, he, hye⟩, hyn⟩
      constructor
      · intro hb
        have hzy := pt_inj hb
        subst hzy
        apply hclose
        rcases hclass _ (List.getElem_mem hl) z' z1' z2' with hc | ⟨i, hi, rfl⟩
        · by_cases hzz : z = z'
          · obtain ⟨i, hi, hz⟩ := hcommon hzz
            exact absurd hz (hyn i hi)
          · exact not_le.2 (hgp.cross_sep z z' hY hc hzz)
        · exact not_le.2 (hgp.cross_far z hY i hi)
      · intro hb
        have hzy := pt_inj hb
        subst hzy
        apply hclose
        rcases hclass _ (List.getElem_mem hk) z z1 z2 with hc | ⟨i, hi, rfl⟩
        · by_cases hzz : z = z'
          · obtain ⟨i, hi, hz⟩ := hcommon hzz
            exact absurd (hzz ▸ hz) (hyn i hi)
          · exact not_le.2 (hgp.cross_sep z' z hY hc (Ne.symm hzz))
        · exact not_le.2 (hgp.cross_far z' hY i hi)
    intro j b hj hji
    obtain ⟨hil, hi'⟩ := List.getElem?_eq_some_iff.1 hi
    obtain ⟨hjl, hj'⟩ := List.getElem?_eq_some_iff.1 hj
    have hR' := List.pairwise_iff_getElem.1 hR
    rcases Nat.lt_or_gt_of_ne hji with h | h
    · have := (hR' j i hjl hil h).2 hi'
      rw [hi', hj'] at this; exact this
    · have := (hR' i j hil hjl h).1 hi'
      rw [hi', hj'] at this; exact this
  have hrest : (fun y => Crossing g pos s d y ∧ pt y ∉ Utils.uniquePointsAmong (meetPoints g f)) = fun _ => False := by
    funext y
    simp only [eq_iff_iff, iff_false, not_and, not_not]
    exact hall y
  rw [hrest] at p2
  refine ⟨pos', p1, ⟨?_, p2.node⟩, p2⟩
  intro k l e e' hk hl hkl y hy hy'
  rcases p2.meet k l e e' hk hl hkl y hy hy' with h | h
  · exact h
  · exact h.elim

/-- **C60, partial.** In exact arithmetic: let `g` be drawn planarly with distinct node positions and no self-loops, and let
the segment from `s` to `d` be in general position up to the tolerance.  Then `add_edge(s, d)` returns, old nodes keep
their places, node positions stay distinct, and the resulting graph is drawn planarly.  Missing: segments not in general position, for which the claim is
false (`C60_counterexample_node`, `C60_counterexample_concurrent`, `C60_counterexample_overlap`). -/
theorem C60_planar_partial [Inhabited T] (g : PlanarGraph XReal T U) (hwf : WF g) (pos : ℕ → ℝ × ℝ) (hdr : Drawn g pos)
    (hinj : ∀ i j, i < g.nodes.length → j < g.nodes.length → pos i = pos j → i = j)
    (hloop : ∀ e ∈ g.edges, e.src ≠ e.dst) (hp : Planar g pos) (s d : ℕ) (x : U)
    (hgp : GeneralPosition g pos s d) :
    ∃ g' r pos', g.addEdge s d x = .ok (g', r) ∧ (∀ i, i < g.nodes.length → pos' i = pos i) ∧ Drawn g' pos' ∧
      (∀ i j, i < g'.nodes.length → j < g'.nodes.length → pos' i = pos' j → i = j) ∧ Planar g' pos' := by
  rcases addEdge_ok g hwf s d x with ⟨_, h'⟩ | ⟨_, _, h'⟩ | ⟨hne, hs, hd, g1, cn, ce, hi, h'⟩
  · exact ⟨g, _, pos, h', fun _ _ => rfl, hdr, hinj, hp⟩
  · exact ⟨g, _, pos, h', fun _ _ => rfl, hdr, hinj, hp⟩
  suffices hsuf : ∃ pos', (∀ i, i < g.nodes.length → pos' i = pos i) ∧ Drawn g1 pos' ∧
      (∀ i j, i < g1.nodes.length → j < g1.nodes.length → pos' i = pos' j → i = j) ∧ Planar g1 pos' by
    obtain ⟨pos', q⟩ := hsuf
    exact ⟨g1, _, pos', h', q⟩
  obtain ⟨pos', q1, q2, q3⟩ := addEdge_planar g hwf pos hdr hinj hloop hp s d x hgp hne hs hd hi
  exact ⟨pos', q1, q3.drawn, q3.inj, q2⟩

/-- **C83.** Under the same hypotheses, the drawing after a successful `add_edge(s, d)` is the old drawing plus the new segment,
with the data in place: a point is on an edge with data `c` exactly when it was on an edge with data `c` before, or `c` is
the new data and the point is on the segment from `s` to `d`.  The new nodes are exactly the crossing points of the new
segment with old edges, each represented once. -/
theorem C83_drawing [Inhabited T] (g : PlanarGraph XReal T U) (hwf : WF g) (pos : ℕ → ℝ × ℝ) (hdr : Drawn g pos)
    (hinj : ∀ i j, i < g.nodes.length → j < g.nodes.length → pos i = pos j → i = j)
    (hloop : ∀ e ∈ g.edges, e.src ≠ e.dst) (hp : Planar g pos) (s d : ℕ) (x : U) (hgp : GeneralPosition g pos s d)
    (hs : s < g.nodes.length) (hd : d < g.nodes.length)
    (hno : ∀ e ∈ g.edges, ¬ ((e.src = s ∧ e.dst = d) ∨ (e.src = d ∧ e.dst = s))) :
    ∃ g' r pos', g.addEdge s d x = .ok (g', .ok r) ∧ (∀ i, i < g.nodes.length → pos' i = pos i) ∧ Drawn g' pos' ∧
      (∀ i j, i < g'.nodes.length → j < g'.nodes.length → pos' i = pos' j → i = j) ∧
      (∀ y c, (∃ e ∈ g'.edges, e.data = c ∧ OnEdge pos' e y) ↔
        ((∃ e ∈ g.edges, e.data = c ∧ OnEdge pos e y) ∨ (c = x ∧ OnSegR (pos s) (pos d) y))) ∧
      (∀ y, Crossing g pos s d y ↔ ∃ i, g.nodes.length ≤ i ∧ i < g'.nodes.length ∧ y = pos' i) := by
  have hno' : g.hasEdgeBetweenNodes s d = false := by
    rw [← Bool.not_eq_true, hasEdge_iff]
    rintro ⟨e, he, hc⟩
    exact hno e he hc
  rcases addEdge_ok g hwf s d x with ⟨h, _⟩ | ⟨_, h, _⟩ | ⟨_, _, _, g1, cn, ce, hi, h'⟩
  · rw [hno'] at h; cases h
  · exact absurd ⟨hs, hd⟩ h
  obtain ⟨pos', q1, q2, q3⟩ := addEdge_planar g hwf pos hdr hinj hloop hp s d x hgp hno' hs hd hi
  refine ⟨g1, _, pos', h', q1, q3.drawn, q3.inj, ?_, ?_⟩
  · intro y c
    constructor
    · rintro ⟨e, he, rfl, hon⟩
      obtain ⟨A, B, ⟨u, v, hb, rfl, rfl⟩, h1, h2⟩ := q3.piece e he
      have hy := onSeg_sub h1 h2 hon
      rcases hb with ⟨rfl, rfl, hc⟩ | ⟨e0, he0, rfl, rfl, hc⟩
      · exact Or.inr ⟨hc, hy⟩
      · exact Or.inl ⟨e0, he0, hc, hy⟩
    · rintro (⟨e, he, rfl, hon⟩ | ⟨rfl, hon⟩)
      · exact q3.cover _ _ _ ⟨e.src, e.dst, Or.inr ⟨e, he, rfl, rfl, rfl⟩, rfl, rfl⟩ y hon
      · exact q3.cover _ _ _ ⟨s, d, Or.inl ⟨rfl, rfl, rfl⟩, rfl, rfl⟩ y hon
  · intro y
    constructor
    · intro hy
      rcases q3.found y hy with h | ⟨i, h1, h2⟩
      · exact h.elim
      · refine ⟨i, ?_, h1, h2⟩
        by_contra hlt
        exact hy.2.2 i (by omega) (by rw [h2, q1 i (by omega)])
    · rintro ⟨i, h0, h1, rfl⟩
      exact q3.fresh i h0 h1

/-! ### The hypotheses can be met, and are needed -/

/-- the graph with nodes at the given points -/
def atPoints (ps : List (ℝ × ℝ)) (es : List (ℕ × ℕ)) : PlanarGraph XReal Unit Unit :=
  ⟨ps.map fun p => ⟨pt p, (), ""⟩, es.map fun e => ⟨e.1, e.2, (), ""⟩⟩

/-- the positions of the nodes of `atPoints` -/
def posOf (ps : List (ℝ × ℝ)) (i : ℕ) : ℝ × ℝ := (ps[i]?).getD (0, 0)

theorem drawn_atPoints (ps : List (ℝ × ℝ)) (es : List (ℕ × ℕ)) : Drawn (atPoints ps es) (posOf ps) := by
  intro i a ha
  simp only [atPoints, List.getElem?_map, Option.map_eq_some_iff] at ha
  obtain ⟨p, hp, rfl⟩ := ha
  simp [posOf, hp]

/-- if no meet point survives, the edge is just appended -/
theorem addEdge_none [Inhabited T] (g : PlanarGraph XReal T U) (hwf : WF g) (s d : ℕ) (x : U)
    (h1 : g.hasEdgeBetweenNodes s d = false) (h2 : s < g.nodes.length) (h3 : d < g.nodes.length)
    (h : Utils.uniquePointsAmong (meetPoints g ⟨s, d, x, defaultLabel⟩) = []) :
    ∃ r, g.addEdge s d x = .ok (pushEdge g s d x, r) := by
  rcases addEdge_ok g hwf s d x with ⟨h', _⟩ | ⟨_, h', _⟩ | ⟨_, _, _, g1, cn, ce, hi, h'⟩
  · rw [h1] at h'; cases h'
  · exact absurd ⟨h2, h3⟩ h'
  · rw [h] at hi
    cases hi
    exact ⟨_, h'⟩

/-- planarity fails for every drawing of the graph if it fails for one -/
theorem not_planar_of {g : PlanarGraph XReal T U} (hwf : WF g) {pos : ℕ → ℝ × ℝ} (hd : Drawn g pos) (h : ¬ Planar g pos) :
    ∀ pos', Drawn g pos' → ¬ Planar g pos' := by
  intro pos' hd' hp
  have heq : ∀ i, i < g.nodes.length → pos' i = pos i := by
    intro i hi
    exact pt_inj ((hd' i _ (List.getElem?_eq_getElem hi)).symm.trans (hd i _ (List.getElem?_eq_getElem hi)))
  have hon : ∀ e ∈ g.edges, ∀ y, OnEdge pos e y ↔ OnEdge pos' e y := by
    intro e he y
    unfold OnEdge
    rw [heq _ (hwf e he).1, heq _ (hwf e he).2]
  apply h
  constructor
  · intro k l e f hk hl hkl y hy hy'
    have he := List.mem_of_getElem? hk
    have hf := List.mem_of_getElem? hl
    obtain ⟨i, i1, i2, i3⟩ := hp.meet k l e f hk hl hkl y ((hon e he y).1 hy) ((hon f hf y).1 hy')
    exact ⟨i, i1, i2, i3.trans (heq i (i1.lt hwf he))⟩
  · intro e he i hi hy
    refine hp.node e he i hi ?_
    rw [heq i hi]
    exact (hon e he _).1 hy

/-- what a counterexample to C60 is -/
def Breaks (ps : List (ℝ × ℝ)) (es : List (ℕ × ℕ)) (s d : ℕ) : Prop :=
  WF (atPoints ps es) ∧ (∀ e ∈ es, e.1 ≠ e.2) ∧ ps.Nodup ∧ Planar (atPoints ps es) (posOf ps) ∧
    ∃ g' r, (atPoints ps es).addEdge s d () = .ok (g', r) ∧ ∀ pos', Drawn g' pos' → ¬ Planar g' pos'

/-- **C60 is false**: the edge from `(0,0)` to `(4,0)` is added right through the node at `(2,0)`. -/
theorem C60_counterexample_node : Breaks [(0, 0), (4, 0), (2, 0)] [] 0 1 := by
  have hwf : WF (atPoints [(0, 0), (4, 0), (2, 0)] []) := by intro e he; simp [atPoints] at he
  refine ⟨hwf, by simp, by norm_num, ⟨?_, ?_⟩, ?_⟩
  · intro k l e f hk; simp [atPoints] at hk
  · intro e he; simp [atPoints] at he
  · obtain ⟨r, hr⟩ := addEdge_none _ hwf 0 1 () (by simp [atPoints, hasEdgeBetweenNodes])
      (by simp [atPoints]) (by simp [atPoints])
      (by simp [atPoints, meetPoints, Utils.uniquePointsAmong, Utils.uniqueLoop])
    refine ⟨_, r, hr, not_planar_of (hwf.pushEdge (by simp [atPoints]) (by simp [atPoints]) ())
      (pos := posOf [(0, 0), (4, 0), (2, 0)]) (drawn_atPoints [(0, 0), (4, 0), (2, 0)] []) ?_⟩
    intro hp
    have := hp.node ⟨0, 1, (), defaultLabel⟩ (by simp [pushEdge]) 2 (by simp [atPoints, pushEdge])
      ⟨1 / 2, by norm_num, by norm_num, by norm_num [posOf]⟩
    simp [IsEnd] at this

/-- **C60 is false**: `(2,0)` is joined to `(2,2)` and to `(2,-2)`; the edge from `(0,0)` to `(4,0)` meets both edges there,
the duplicate removal drops *both* meet points, and the edge is added through the node. -/
theorem C60_counterexample_concurrent :
    Breaks [(0, 0), (4, 0), (2, 0), (2, 2), (2, -2)] [(2, 3), (2, 4)] 0 1 := by
  set ps : List (ℝ × ℝ) := [(0, 0), (4, 0), (2, 0), (2, 2), (2, -2)] with hps
  have hwf : WF (atPoints ps [(2, 3), (2, 4)]) := by
    intro e he
    simp only [atPoints, hps, List.map_cons, List.map_nil, List.mem_cons, List.not_mem_nil, or_false] at he
    rcases he with rfl | rfl <;> simp [atPoints, hps]
  have hdr : Drawn (atPoints ps [(2, 3), (2, 4)]) (posOf ps) := drawn_atPoints _ _
  have hlen : (atPoints ps [(2, 3), (2, 4)]).nodes.length = 5 := by simp [atPoints, hps]
  have hseg : ∀ b : ℝ, b ≠ 0 → Utils.calculateLineSegmentIntersection (pt (2, 0)) (pt (2, b)) (pt (0, 0)) (pt (4, 0)) =
      some (pt (2, 0)) := by
    intro b hb
    have h1 : OnSegR (2, 0) (2, b) (2, 0) := onSeg_left _ _
    have h2 : OnSegR (0, 0) (4, 0) (2, 0) := ⟨1 / 2, by norm_num, by norm_num, by norm_num⟩
    have hnn : Utils.calculateLineSegmentIntersection (pt (2, 0)) (pt (2, b)) (pt (0, 0)) (pt (4, 0)) ≠ none := by
      rw [ne_eq, UtilThm.C40_complete_partial _ _ _ _ (by simp [crs, hb])]
      exact not_not.2 ⟨_, h1, h2⟩
    obtain ⟨q, hq⟩ := Option.ne_none_iff_exists'.1 hnn
    obtain ⟨z, rfl, _, _, _, hz⟩ := UtilThm.C39_sound _ _ _ _ _ hq
    rw [hq, ← hz _ h1 h2]
  refine ⟨hwf, by simp, by norm_num [hps], ⟨?_, ?_⟩, ?_⟩
  · have hx : ∀ y, OnSegR (2, 0) (2, 2) y → OnSegR (2, 0) (2, -2) y → y = ((2 : ℝ), (0 : ℝ)) := by
      rintro y ⟨t, t0, t1, rfl⟩ ⟨u, u0, u1, hu⟩
      have := congrArg Prod.snd hu
      simp only at this
      have ht : t = 0 := by linarith
      subst ht; norm_num
    intro k l e f hk hl hkl y hy hy'
    have hk' : k < 2 := by simpa [atPoints] using (List.getElem?_eq_some_iff.1 hk).1
    have hl' : l < 2 := by simpa [atPoints] using (List.getElem?_eq_some_iff.1 hl).1
    obtain ⟨rfl, rfl⟩ | ⟨rfl, rfl⟩ : (k = 0 ∧ l = 1) ∨ (k = 1 ∧ l = 0) := by omega
    · simp [atPoints] at hk hl
      subst hk hl
      exact ⟨2, Or.inl rfl, Or.inl rfl, hx y hy hy'⟩
    · simp [atPoints] at hk hl
      subst hk hl
      exact ⟨2, Or.inl rfl, Or.inl rfl, hx y hy' hy⟩
  · intro e he i hi hon
    rw [hlen] at hi
    simp only [atPoints, List.map_cons, List.map_nil, List.mem_cons, List.not_mem_nil, or_false] at he
    rcases he with rfl | rfl <;> obtain ⟨t, t0, t1, ht⟩ := hon <;> interval_cases i <;>
      first
        | exact Or.inl rfl
        | exact Or.inr rfl
        | (exfalso; norm_num [posOf, hps, Prod.ext_iff] at ht <;> linarith)
  · obtain ⟨r, hr⟩ := addEdge_none _ hwf 0 1 () (by simp [atPoints, hasEdgeBetweenNodes])
      (by simp [atPoints, hps]) (by simp [atPoints, hps])
      (by
        have hm : meetPoints (atPoints ps [(2, 3), (2, 4)]) ⟨0, 1, (), defaultLabel⟩ = [pt (2, 0), pt (2, 0)] := by
          have e1 := edgeMeets_pt hdr (e := ⟨2, 3, (), ""⟩) (f := ⟨0, 1, (), defaultLabel⟩)
            (by simp [hlen]) (by simp [hlen]) (by simp [hlen]) (by simp [hlen])
          have e2 := edgeMeets_pt hdr (e := ⟨2, 4, (), ""⟩) (f := ⟨0, 1, (), defaultLabel⟩)
            (by simp [hlen]) (by simp [hlen]) (by simp [hlen]) (by simp [hlen])
          simp only [posOf, hps, List.getElem?_cons_succ, List.getElem?_cons_zero, Option.getD_some] at e1 e2
          rw [hseg 2 (by norm_num)] at e1
          rw [hseg (-2) (by norm_num)] at e2
          unfold meetPoints
          show List.filterMap _ [(⟨2, 3, (), ""⟩ : Edge Unit), ⟨2, 4, (), ""⟩] = _
          simp only [hps, List.filterMap_cons, e1, e2, List.filterMap_nil]
        rw [hm]
        have hc : Utils.closeTo (pt (2, 0)) (pt (2, 0)) = true := by
          unfold Utils.closeTo
          rw [UtilThm.distance_pt, XReal.eps_def, XReal.fin_le]
          simpa [dst] using XReal.epsR_pos.le
        rw [List.eq_nil_iff_forall_not_mem]
        intro q hq
        obtain ⟨i, h1, h2⟩ := (UtilThm.mem_unique _ _).1 hq
        obtain ⟨hil, h1'⟩ := List.getElem?_eq_some_iff.1 h1
        simp only [List.length_cons, List.length_nil] at hil
        interval_cases i
        · have := h2 1 (pt (2, 0)) rfl (by simp)
          simp at h1; rw [← h1, hc] at this; cases this
        · have := h2 0 (pt (2, 0)) rfl (by simp)
          simp at h1; rw [← h1, hc] at this; cases this)
    refine ⟨_, r, hr, not_planar_of (hwf.pushEdge (by simp [hlen]) (by simp [hlen]) ()) (pos := posOf ps) hdr ?_⟩
    intro hp
    have := hp.node ⟨0, 1, (), defaultLabel⟩ (by simp [pushEdge]) 2 (by simp [pushEdge, hlen])
      ⟨1 / 2, by norm_num, by norm_num, by norm_num [posOf, hps]⟩
    simp [IsEnd] at this

/-- **C60 is false**: an edge is added over another one on the same line. -/
theorem C60_counterexample_overlap : Breaks [(0, 0), (3, 0), (1, 0), (2, 0)] [(2, 3)] 0 1 := by
  set ps : List (ℝ × ℝ) := [(0, 0), (3, 0), (1, 0), (2, 0)] with hps
  have hlen : (atPoints ps [(2, 3)]).nodes.length = 4 := by simp [atPoints, hps]
  have hwf : WF (atPoints ps [(2, 3)]) := by
    intro e he
    simp only [atPoints, hps, List.map_cons, List.map_nil, List.mem_cons, List.not_mem_nil, or_false] at he
    subst he; simp [atPoints, hps]
  have hdr : Drawn (atPoints ps [(2, 3)]) (posOf ps) := drawn_atPoints _ _
  refine ⟨hwf, by simp, by norm_num [hps], ⟨?_, ?_⟩, ?_⟩
  · intro k l e f hk hl hkl
    have hk' : k < 1 := by simpa [atPoints] using (List.getElem?_eq_some_iff.1 hk).1
    have hl' : l < 1 := by simpa [atPoints] using (List.getElem?_eq_some_iff.1 hl).1
    omega
  · intro e he i hi hon
    rw [hlen] at hi
    simp only [atPoints, List.map_cons, List.map_nil, List.mem_cons, List.not_mem_nil, or_false] at he
    subst he
    obtain ⟨t, t0, t1, ht⟩ := hon
    interval_cases i <;> first
        | exact Or.inl rfl
        | exact Or.inr rfl
        | (exfalso; norm_num [posOf, hps, Prod.ext_iff] at ht <;> linarith)
  · obtain ⟨r, hr⟩ := addEdge_none _ hwf 0 1 () (by simp [atPoints, hasEdgeBetweenNodes])
      (by simp [hlen]) (by simp [hlen])
      (by
        have e1 := edgeMeets_pt hdr (e := ⟨2, 3, (), ""⟩) (f := ⟨0, 1, (), defaultLabel⟩)
          (by simp [hlen]) (by simp [hlen]) (by simp [hlen]) (by simp [hlen])
        simp only [posOf, hps, List.getElem?_cons_succ, List.getElem?_cons_zero, Option.getD_some] at e1
        rw [UtilThm.seg_parallel_none _ _ _ _ (by norm_num [crs])] at e1
        have hm : meetPoints (atPoints ps [(2, 3)]) ⟨0, 1, (), defaultLabel⟩ = [] := by
          unfold meetPoints
          show List.filterMap _ [(⟨2, 3, (), ""⟩ : Edge Unit)] = _
          simp only [hps, List.filterMap_cons, e1, List.filterMap_nil]
        rw [hm]; rfl)
    refine ⟨_, r, hr, not_planar_of (hwf.pushEdge (by simp [hlen]) (by simp [hlen]) ()) (pos := posOf ps) hdr ?_⟩
    intro hp
    obtain ⟨i, i1, i2, _⟩ := hp.meet 0 1 ⟨2, 3, (), ""⟩ ⟨0, 1, (), defaultLabel⟩ rfl rfl (by simp) (3 / 2, 0)
      ⟨1 / 2, by norm_num, by norm_num, by norm_num [posOf, hps]⟩
      ⟨1 / 2, by norm_num, by norm_num, by norm_num [posOf, hps]⟩
    simp only [IsEnd] at i1 i2
    omega

/-- a crossing that meets all hypotheses of `C60_planar_partial` -/
example : GeneralPosition (atPoints [(0, 0), (2, 0), (1, -1), (1, 1)] [(0, 1)]) (posOf [(0, 0), (2, 0), (1, -1), (1, 1)]) 2 3 ∧
    Planar (atPoints [(0, 0), (2, 0), (1, -1), (1, 1)] [(0, 1)]) (posOf [(0, 0), (2, 0), (1, -1), (1, 1)]) ∧
    Crossing (atPoints [(0, 0), (2, 0), (1, -1), (1, 1)] [(0, 1)]) (posOf [(0, 0), (2, 0), (1, -1), (1, 1)]) 2 3 (1, 0) := by
  set ps : List (ℝ × ℝ) := [(0, 0), (2, 0), (1, -1), (1, 1)] with hps
  have hlen : (atPoints ps [(0, 1)]).nodes.length = 4 := by simp [atPoints, hps]
  have hmem : ∀ e, e ∈ (atPoints ps [(0, 1)]).edges ↔ e = ⟨0, 1, (), ""⟩ := by simp [atPoints]
  have heps : XReal.epsR ≤ 1 / 2 := by unfold XReal.epsR; norm_num
  have hs2 : (5 / 4 : ℝ) ≤ Real.sqrt 2 := by exact Real.le_sqrt_of_sq_le (by norm_num)
  have hs4 : Real.sqrt 4 = 2 := by rw [show (4 : ℝ) = 2 ^ 2 by norm_num, Real.sqrt_sq (by norm_num)]
  have hcr : ∀ y, Crossing (atPoints ps [(0, 1)]) (posOf ps) 2 3 y → y = (1, 0) := by
    rintro y ⟨⟨t, t0, t1, rfl⟩, ⟨e, he, u, u0, u1, hu⟩, _⟩
    rw [hmem] at he
    subst he
    have := congrArg Prod.snd hu
    norm_num [posOf, hps] at this ⊢
    linarith
  refine ⟨⟨?_, ?_, ?_, ?_⟩, ⟨?_, ?_⟩, ?_, ?_, ?_⟩
  · intro i hi u v huv h1 h2
    rw [hlen] at hi
    rcases huv with ⟨rfl, rfl⟩ | ⟨e, he, rfl, rfl⟩
    · interval_cases i
      · norm_num [dst, posOf, hps, hs4]; linarith
      · norm_num [dst, posOf, hps, hs4]; linarith
      · exact absurd rfl h1
      · exact absurd rfl h2
    · rw [hmem] at he
      subst he
      interval_cases i
      · exact absurd rfl h1
      · exact absurd rfl h2
      · norm_num [dst, posOf, hps, hs4]; linarith
      · norm_num [dst, posOf, hps, hs4]; linarith
  · intro y hy u v huv hon
    rw [hcr y hy] at hon
    exfalso
    apply hon
    rcases huv with ⟨rfl, rfl⟩ | ⟨e, he, rfl, rfl⟩
    · exact ⟨1 / 2, by norm_num, by norm_num, by norm_num [posOf, hps]⟩
    · rw [hmem] at he
      subst he
      exact ⟨1 / 2, by norm_num, by norm_num, by norm_num [posOf, hps]⟩
  · intro y hy i hi
    rw [hcr y hy]
    rw [hlen] at hi
    interval_cases i <;> norm_num [dst, posOf, hps] <;> linarith
  · intro y y' hy hy' hne
    exact absurd ((hcr y hy).trans (hcr y' hy').symm) hne
  · intro k l e f hk hl hkl
    have hk' : k < 1 := by simpa [atPoints] using (List.getElem?_eq_some_iff.1 hk).1
    have hl' : l < 1 := by simpa [atPoints] using (List.getElem?_eq_some_iff.1 hl).1
    omega
  · intro e he i hi hon
    rw [hlen] at hi
    rw [hmem] at he
    subst he
    obtain ⟨t, t0, t1, ht⟩ := hon
    interval_cases i <;> first
        | exact Or.inl rfl
        | exact Or.inr rfl
        | (exfalso; norm_num [posOf, hps, Prod.ext_iff] at ht)
  · exact ⟨1 / 2, by norm_num, by norm_num, by norm_num [posOf, hps]⟩
  · exact ⟨⟨0, 1, (), ""⟩, by simp [atPoints], 1 / 2, by norm_num, by norm_num, by norm_num [posOf, hps]⟩
  · intro i hi
    rw [hlen] at hi
    interval_cases i <;> simp [posOf, hps]

end

end Kami.Graph
