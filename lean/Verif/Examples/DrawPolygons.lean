import Verif.Examples.Draw
import Verif.Geom.UtilsExact2
import Verif.Num.F32
/-!
# C96: the drawing of segments and triangles

`draw` of the polygon example draws every segment once and one circle per pair of segments that
`calculate_line_segment_intersection` finds to meet, and the number it prints is the number of these pairs.  In exact
arithmetic these are the pairs of non-parallel segments with a common point.
-/

set_option autoImplicit false

namespace Kami.Draw

open Kami Kami.Svg Kami.UtilThm

variable {F : Type} [Scalar F]

/-! ### Specification -/

/-- the point that the library computes for the segments at positions `i` and `j` -/
def meets (segments : List (Vec2 F × Vec2 F)) (i j : Nat) : Option (Vec2 F) :=
  match segments[i]?, segments[j]? with
  | some s, some t => Utils.calculateLineSegmentIntersection s.1 s.2 t.1 t.2
  | _, _ => none

/-- the pairs of positions for which the library finds an intersection -/
def crossingPairs (segments : List (Vec2 F × Vec2 F)) : Finset (Nat × Nat) :=
  ((Finset.range segments.length) ×ˢ (Finset.range segments.length)).filter
    fun p => p.1 < p.2 ∧ (meets segments p.1 p.2).isSome = true

/-! ### Proofs -/

theorem index_some {α : Type} {l : List α} {i : Nat} (h : i < l.length) : index l i = .ok l[i] := by
  unfold index; rw [List.getElem?_eq_getElem h]

theorem drawCrossings_eq (fmt : F → String) (two : F) (segs : List (Vec2 F × Vec2 F)) (i count j : Nat)
    (hi : i < segs.length) (hj : j + count ≤ segs.length) :
    drawCrossings fmt two segs i count j =
      .ok (((List.range' j count).filterMap (meets segs i)).map (fun x => svgCircle fmt x two "red" ""),
        ((List.range' j count).filterMap (meets segs i)).length) := by
  induction count generalizing j with
  | zero => rfl
  | succ c ih =>
    have hj' : j < segs.length := by omega
    unfold drawCrossings
    rw [ih (j + 1) (by omega), index_some hi, index_some hj', List.range'_succ]
    have hm : meets segs i j = Utils.calculateLineSegmentIntersection segs[i].1 segs[i].2 segs[j].1 segs[j].2 := by
      unfold meets; rw [List.getElem?_eq_getElem hi, List.getElem?_eq_getElem hj']
    simp only [bind, Except.bind, pure, Except.pure]
    cases hc : Utils.calculateLineSegmentIntersection segs[i].1 segs[i].2 segs[j].1 segs[j].2 with
    | none => rw [List.filterMap_cons_none (by rw [hm, hc])]
    | some x => rw [List.filterMap_cons_some (by rw [hm, hc])]; rfl

/-- the points computed for the segment at `i` and later segments -/
def pointsOf (segs : List (Vec2 F × Vec2 F)) (i : Nat) : List (Vec2 F) :=
  (List.range' (i + 1) (segs.length - (i + 1))).filterMap (meets segs i)

/-- what is drawn for the segment at `i` -/
def shapesOf (fmt : F → String) (two : F) (segs : List (Vec2 F × Vec2 F)) (i : Nat) : List Element :=
  match segs[i]? with
  | some s => svgLine fmt s.1 s.2 "green" :: (pointsOf segs i).map fun x => svgCircle fmt x two "red" ""
  | none => []

theorem drawSegments_eq (fmt : F → String) (two : F) (segs : List (Vec2 F × Vec2 F)) (count i : Nat)
    (hi : i + count ≤ segs.length) :
    drawSegments fmt two segs count i =
      .ok ((List.range' i count).flatMap (shapesOf fmt two segs), ((List.range' i count).flatMap (pointsOf segs)).length) := by
  induction count generalizing i with
  | zero => rfl
  | succ c ih =>
    have hi' : i < segs.length := by omega
    unfold drawSegments
    rw [ih (i + 1) (by omega), index_some hi', List.range'_succ, drawCrossings_eq fmt two segs i _ _ hi' (by omega)]
    simp only [bind, Except.bind, pure, Except.pure, List.flatMap_cons, List.length_append]
    congr 1
    unfold shapesOf
    rw [List.getElem?_eq_getElem hi']
    simp [pointsOf]

/-- the list of crossing pairs, in the order of the loops -/
def pairList (segs : List (Vec2 F × Vec2 F)) : List (Nat × Nat) :=
  (List.range' 0 segs.length).flatMap fun i =>
    ((List.range' (i + 1) (segs.length - (i + 1))).filter fun j => (meets segs i j).isSome).map fun j => (i, j)

theorem mem_pairList {segs : List (Vec2 F × Vec2 F)} {p : Nat × Nat} : p ∈ pairList segs ↔ p ∈ crossingPairs segs := by
  obtain ⟨i, j⟩ := p
  unfold pairList crossingPairs
  simp only [List.mem_flatMap, List.mem_map, List.mem_filter, List.mem_range'_1, Finset.mem_filter, Finset.mem_product,
    Finset.mem_range, Prod.mk.injEq]
  constructor
  · rintro ⟨i', hi, j', ⟨hj, hs⟩, rfl, rfl⟩
    exact ⟨⟨by omega, by omega⟩, by omega, hs⟩
  · rintro ⟨⟨h1, h2⟩, h3, h4⟩
    exact ⟨i, by omega, j, ⟨by omega, h4⟩, rfl, rfl⟩

theorem pairList_nodup (segs : List (Vec2 F × Vec2 F)) : (pairList segs).Nodup := by
  unfold pairList
  rw [List.nodup_flatMap]
  constructor
  · intro i _
    exact ((List.nodup_range' ).filter _).map (fun a b h => (Prod.mk.inj h).2)
  · refine List.Nodup.pairwise_of_forall_ne List.nodup_range' ?_
    intro a _ b _ hab x hx hy
    obtain ⟨_, _, rfl⟩ := List.mem_map.1 hx
    obtain ⟨_, _, h⟩ := List.mem_map.1 hy
    exact hab (Prod.mk.inj h).1.symm

theorem pairList_card (segs : List (Vec2 F × Vec2 F)) : (pairList segs).length = (crossingPairs segs).card := by
  rw [← List.toFinset_card_of_nodup (pairList_nodup segs)]
  congr 1
  ext p
  rw [List.mem_toFinset, mem_pairList]

theorem filterMap_length {α β : Type} (f : α → Option β) (l : List α) :
    (l.filterMap f).length = (l.filter fun a => (f a).isSome).length := by
  induction l with
  | nil => rfl
  | cons a l ih => cases h : f a <;> simp [h, ih]

theorem points_length (segs : List (Vec2 F × Vec2 F)) :
    ((List.range' 0 segs.length).flatMap (pointsOf segs)).length = (crossingPairs segs).card := by
  rw [← pairList_card]
  unfold pairList
  simp only [List.length_flatMap, List.length_map]
  congr 1
  apply List.map_congr_left
  intro i _
  unfold pointsOf
  rw [filterMap_length]

/-- **C96, count.** For every list of segments and any arithmetic, the loop ends without a panic and the number it prints is
the number of pairs of positions `i < j` for which the intersection test gives a point. -/
theorem C96_count (fmt : F → String) (two : F) (segs : List (Vec2 F × Vec2 F)) :
    ∃ shapes, drawSegments fmt two segs segs.length 0 = .ok (shapes, (crossingPairs segs).card) ∧
      shapes.length = segs.length + (crossingPairs segs).card := by
  refine ⟨(List.range' 0 segs.length).flatMap (shapesOf fmt two segs), ?_, ?_⟩
  · rw [drawSegments_eq fmt two segs _ _ (by omega), points_length]
  · rw [← points_length]
    have hg : ∀ count i, i + count ≤ segs.length → ((List.range' i count).flatMap (shapesOf fmt two segs)).length =
        count + ((List.range' i count).flatMap (pointsOf segs)).length := by
      intro count
      induction count with
      | zero => intro i _; rfl
      | succ c ih =>
        intro i hi
        rw [List.range'_succ, List.flatMap_cons, List.flatMap_cons, List.length_append, List.length_append, ih (i + 1) (by omega)]
        have : (shapesOf fmt two segs i).length = 1 + (pointsOf segs i).length := by
          unfold shapesOf
          rw [List.getElem?_eq_getElem (by omega : i < segs.length)]
          simp; omega
        omega
    exact hg _ _ (by omega)

/-- **C96, lines.** The lines drawn are the segments, each once and in order. -/
theorem C96_lines (fmt : F → String) (two : F) (segs : List (Vec2 F × Vec2 F)) (shapes : List Element) (n : Nat)
    (h : drawSegments fmt two segs segs.length 0 = .ok (shapes, n)) :
    shapes.filter (fun e => e.tag == "line") = segs.map fun s => svgLine fmt s.1 s.2 "green" := by
  rw [drawSegments_eq fmt two segs _ _ (by omega)] at h
  have h := (Prod.mk.inj (Except.ok.inj h)).1
  subst h
  have hg : ∀ count i, i + count ≤ segs.length →
      ((List.range' i count).flatMap (shapesOf fmt two segs)).filter (fun e => e.tag == "line") =
        ((segs.drop i).take count).map fun s => svgLine fmt s.1 s.2 "green" := by
    intro count
    induction count with
    | zero => intro i _; simp
    | succ c ih =>
      intro i hi
      have hi' : i < segs.length := by omega
      rw [List.range'_succ, List.flatMap_cons, List.filter_append, ih (i + 1) (by omega), List.drop_eq_getElem_cons hi',
        List.take_succ_cons, List.map_cons]
      unfold shapesOf
      rw [List.getElem?_eq_getElem hi']
      have hn : ((pointsOf segs i).map fun x => svgCircle fmt x two "red" "").filter (fun e => e.tag == "line") = [] := by
        rw [List.filter_eq_nil_iff]
        intro e he
        obtain ⟨x, _, rfl⟩ := List.mem_map.1 he
        show ¬ (("circle" : String) == "line") = true
        decide
      simp only
      rw [List.filter_cons_of_pos (by rfl), hn]
      rfl
  have := hg segs.length 0 (by omega)
  rwa [List.drop_zero, List.take_length] at this

/-- **C96, circles.** A circle is drawn at a point exactly when some pair of segments meets there. -/
theorem C96_circles (fmt : F → String) (two : F) (segs : List (Vec2 F × Vec2 F)) (shapes : List Element) (n : Nat)
    (h : drawSegments fmt two segs segs.length 0 = .ok (shapes, n)) (e : Element) :
    (e ∈ shapes ∧ e.tag = "circle") ↔ ∃ i j x, i < j ∧ meets segs i j = some x ∧ e = svgCircle fmt x two "red" "" := by
  rw [drawSegments_eq fmt two segs _ _ (by omega)] at h
  have h := (Prod.mk.inj (Except.ok.inj h)).1
  subst h
  simp only [List.mem_flatMap, List.mem_range'_1]
  constructor
  · rintro ⟨⟨i, hi, he⟩, ht⟩
    have hi' : i < segs.length := by omega
    unfold shapesOf at he
    rw [List.getElem?_eq_getElem hi'] at he
    rcases List.mem_cons.1 he with rfl | he
    · exact absurd (show ("line" : String) = "circle" from ht) (by decide)
    · obtain ⟨x, hx, rfl⟩ := List.mem_map.1 he
      obtain ⟨j, hj, hm⟩ := List.mem_filterMap.1 hx
      rw [List.mem_range'_1] at hj
      exact ⟨i, j, x, by omega, hm, rfl⟩
  · rintro ⟨i, j, x, hij, hm, rfl⟩
    have hl : i < segs.length ∧ j < segs.length := by
      unfold meets at hm
      split at hm
      · rename_i s t e1 e2
        exact ⟨(List.getElem?_eq_some_iff.1 e1).1, (List.getElem?_eq_some_iff.1 e2).1⟩
      · cases hm
    refine ⟨⟨i, by omega, ?_⟩, rfl⟩
    unfold shapesOf
    rw [List.getElem?_eq_getElem hl.1]
    refine List.mem_cons_of_mem _ (List.mem_map.2 ⟨x, ?_, rfl⟩)
    exact List.mem_filterMap.2 ⟨j, by rw [List.mem_range'_1]; omega, hm⟩

/-! ### in exact arithmetic -/

/-- two segments cross: not parallel, and with a common point -/
def Cross (s t : (ℝ × ℝ) × (ℝ × ℝ)) : Prop :=
  (s.2.1 - s.1.1) * (t.2.2 - t.1.2) ≠ (t.2.1 - t.1.1) * (s.2.2 - s.1.2) ∧ ∃ p, OnSegR s.1 s.2 p ∧ OnSegR t.1 t.2 p

/-- segments of real points -/
def xsegs (l : List ((ℝ × ℝ) × (ℝ × ℝ))) : List (Vec2 XReal × Vec2 XReal) := l.map fun s => (pt s.1, pt s.2)

theorem crs_ne_iff (s t : (ℝ × ℝ) × (ℝ × ℝ)) : crs s.1 s.2 t.1 t.2 ≠ 0 ↔
    (s.2.1 - s.1.1) * (t.2.2 - t.1.2) ≠ (t.2.1 - t.1.1) * (s.2.2 - s.1.2) := by
  unfold crs
  constructor
  · intro h e; apply h; linear_combination e
  · intro h e; apply h; linear_combination e

theorem meets_cross (l : List ((ℝ × ℝ) × (ℝ × ℝ))) (i j : Nat) :
    (meets (xsegs l) i j).isSome = true ↔ ∃ s t, l[i]? = some s ∧ l[j]? = some t ∧ Cross s t := by
  unfold meets xsegs
  rw [List.getElem?_map, List.getElem?_map]
  cases h1 : l[i]? with
  | none => simp
  | some s =>
    cases h2 : l[j]? with
    | none => simp
    | some t =>
      simp only [Option.map_some, Option.some.injEq, Option.isSome_iff_exists]
      rw [show (∃ s_1 t_1, s = s_1 ∧ t = t_1 ∧ Cross s_1 t_1) ↔ Cross s t by simp]
      unfold Cross
      rw [← crs_ne_iff]
      constructor
      · rintro ⟨q, hq⟩
        obtain ⟨p, _, hp1, hp2, hc, _⟩ := Kami.UtilThm.C39_sound s.1 s.2 t.1 t.2 q hq
        exact ⟨hc, p, hp1, hp2⟩
      · rintro ⟨hc, hp⟩
        have := C40_complete_partial s.1 s.2 t.1 t.2 hc
        cases hm : Utils.calculateLineSegmentIntersection (pt s.1) (pt s.2) (pt t.1) (pt t.2) with
        | some q => exact ⟨q, rfl⟩
        | none => exact absurd hp (this.1 hm)

/-- **C96, exact.** In exact arithmetic the number printed is the number of pairs of segments that cross. -/
theorem C96_exact (fmt : XReal → String) (two : XReal) (l : List ((ℝ × ℝ) × (ℝ × ℝ))) :
    ∃ (shapes : List Element) (S : Finset (Nat × Nat)), drawSegments fmt two (xsegs l) l.length 0 = .ok (shapes, S.card) ∧
      ∀ i j, (i, j) ∈ S ↔ i < j ∧ ∃ s t, l[i]? = some s ∧ l[j]? = some t ∧ Cross s t := by
  obtain ⟨shapes, h, _⟩ := C96_count fmt two (xsegs l)
  have hlen : (xsegs l).length = l.length := List.length_map ..
  rw [hlen] at h
  refine ⟨shapes, crossingPairs (xsegs l), h, fun i j => ?_⟩
  unfold crossingPairs
  rw [Finset.mem_filter, Finset.mem_product, Finset.mem_range, Finset.mem_range, meets_cross, hlen]
  constructor
  · rintro ⟨_, h1, h2⟩; exact ⟨h1, h2⟩
  · rintro ⟨h1, s, t, hs, ht, hc⟩
    exact ⟨⟨(List.getElem?_eq_some_iff.1 hs).1, (List.getElem?_eq_some_iff.1 ht).1⟩, h1, s, t, hs, ht, hc⟩

/-- three segments, two of which cross the first; in `f32`, evaluated -/
example : ((drawSegments (fun _ => "") (F32.lit 2) [(⟨F32.lit 0, F32.lit 0⟩, ⟨F32.lit 8, F32.lit 0⟩), (⟨F32.lit 2, F32.lit (-1)⟩, ⟨F32.lit 2, F32.lit 1⟩),
    (⟨F32.lit 4, F32.lit (-1)⟩, ⟨F32.lit 5, F32.lit 1⟩)] 3 0).toOption.map Prod.snd) = some 2 := by decide +kernel

/-- the diagonals of a square cross -/
example : Cross ((0, 0), (2, 2)) ((0, 2), (2, 0)) :=
  ⟨by norm_num, (1, 1), ⟨1 / 2, by norm_num, by norm_num, by norm_num⟩, ⟨1 / 2, by norm_num, by norm_num, by norm_num⟩⟩

/-! ### triangles -/

/-- **C96, triangle.** For a triangle whose corners are not on one line, the triangle, its inscribed circle (its distance to
the three side lines is its radius) and three lines from the corners to the centre of the circle are drawn; for a degenerate
one only the triangle. -/
theorem C96_triangle (fmt : XReal → String) (a b c : ℝ × ℝ) :
    (Collinear3 a b c → drawTriangle fmt (pt a) (pt b) (pt c) = [svgPolygon fmt [pt a, pt b, pt c] "none" "black"]) ∧
    (¬ Collinear3 a b c → ∃ (i : ℝ × ℝ) (r : ℝ),
      0 < r ∧ |crs a b a i| / dst a b = r ∧ |crs b c b i| / dst b c = r ∧ |crs c a c i| / dst c a = r ∧
      drawTriangle fmt (pt a) (pt b) (pt c) = [svgPolygon fmt [pt a, pt b, pt c] "none" "black",
        svgCircle fmt (pt i) (.fin r) "none" "blue", svgLine fmt (pt a) (pt i) "red", svgLine fmt (pt b) (pt i) "red",
        svgLine fmt (pt c) (pt i) "red"]) := by
  obtain ⟨h1, h2⟩ := C38_incenter a b c
  constructor
  · intro h
    unfold drawTriangle
    rw [h1.2 h]
  · intro h
    obtain ⟨i, r, hi, hr, _, d1, d2, d3⟩ := h2 h
    refine ⟨i, r, hr, d1, d2, d3, ?_⟩
    unfold drawTriangle
    rw [hi]

/-- **C96, triangles.** The number of elements drawn for a list of triangles: one each, and four more for each with an incenter -/
theorem C96_triangles_count (fmt : F → String) (l : List (Vec2 F × Vec2 F × Vec2 F)) :
    (drawTriangles fmt l).length =
      l.length + 4 * (l.filter fun t => (Utils.calculateTriangleIncenter t.1 t.2.1 t.2.2).isSome).length := by
  induction l with
  | nil => rfl
  | cons t l ih =>
    obtain ⟨a, b, c⟩ := t
    unfold drawTriangles
    rw [List.length_append, ih]
    unfold drawTriangle
    cases h : Utils.calculateTriangleIncenter a b c with
    | none => simp [h]; omega
    | some q => simp [h]; omega

end Kami.Draw
