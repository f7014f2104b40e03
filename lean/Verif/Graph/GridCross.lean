import Verif.Geom.GridCross
import Verif.Graph.SpacingF32
/-!
# C126: two crossing streets on the whole-number grid, and the third that is missed
-/

set_option autoImplicit false

namespace Kami.Graph

open Kami Kami.F32 Kami.Utils Kami.DistF32 Kami.UtilThm
open scoped Kami
open PlanarGraph

variable {T U : Type}

theorem far_nearest (g : PlanarGraph F32 T U) (q : Vec2 F32) (h : ∀ n ∈ g.nodes, Far (distance q n.position)) :
    ((nearest g q).2 <. Scalar.epsilon) = false := by
  have hs := closestLoop_spec (g.nodes.map fun n => distance q n.position) 0 0 (Scalar.maxValue : F32)
  rw [← nearest_eq] at hs
  rcases hs with ⟨h1, _⟩ | ⟨k', d, h1, h2, _⟩
  · rw [h1]
    decide +kernel
  · rw [h1]
    rw [List.getElem?_map, Option.map_eq_some_iff] at h2
    obtain ⟨n', hn', rfl⟩ := h2
    obtain ⟨hf, h⟩ := h n' (List.mem_of_getElem? hn')
    rw [← Bool.not_eq_true]
    intro hc
    have := (lt_fin hf eps_isFin).1 hc
    rw [toReal_eps] at this
    have h2 : (1 / 2 ^ 23 : ℝ) < 1 / 2 := by norm_num
    linarith

/-- drawing the second of two edges that meet at `q`, away from the four end points -/
theorem cross_edges [Inhabited T] (A B C D : Node F32 T) (x y : U) (l : String) (q : Vec2 F32)
    (hm : calculateLineSegmentIntersection A.position B.position C.position D.position = some q)
    (hq : Good A.position B.position C.position D.position q) :
    (⟨[A, B, C, D], [⟨0, 1, x, l⟩]⟩ : PlanarGraph F32 T U).addEdge 2 3 y =
      .ok (⟨[A, B, C, D, ⟨q, default, ""⟩], [⟨0, 4, x, ""⟩, ⟨2, 4, y, ""⟩, ⟨1, 4, x, ""⟩, ⟨3, 4, y, ""⟩]⟩, .ok ([4], [0, 1, 2, 3])) := by
  have hwf : WF (⟨[A, B, C, D], [⟨0, 1, x, l⟩]⟩ : PlanarGraph F32 T U) := by
    intro e he
    simp only [List.mem_singleton] at he
    subst he
    simp
  obtain ⟨h1, h3⟩ := hq
  rcases addEdge_ok _ hwf 2 3 y with ⟨h', _⟩ | ⟨_, h', _⟩ | ⟨_, _, _, g1, cn, ce, hi, h'⟩
  · simp [hasEdgeBetweenNodes] at h'
  · simp at h'
  · have hu : meetPoints (⟨[A, B, C, D], [⟨0, 1, x, l⟩]⟩ : PlanarGraph F32 T U) ⟨2, 3, y, defaultLabel⟩ = [q] := by
      simp [meetPoints, edgeMeets, hm]
    rw [hu] at hi
    have hu2 : uniquePointsAmong [q] = [q] := by
      simp [uniquePointsAmong, uniqueLoop, isUnique]
    rw [hu2] at hi
    have hn := far_nearest (pushEdge (⟨[A, B, C, D], [⟨0, 1, x, l⟩]⟩ : PlanarGraph F32 T U) 2 3 y) q (by
      intro n hn
      apply h3
      simp only [pushEdge, List.mem_cons, List.not_mem_nil, or_false] at hn ⊢
      rcases hn with rfl | rfl | rfl | rfl <;> simp)
    cases hi with
    | cons _ _ _ _ cn ce hi =>
      cases hi
      rw [h']
      obtain ⟨e1, e2⟩ := h1 false
      unfold insertPt insertNodes insertChanged
      simp only [hn]
      simp [splitAt, splitChanged, pushNode, pushEdge, onTest, e1, e2, nearHalf, farHalf, defaultLabel]
      rfl

theorem at_grid {v : Vec2 F32} {x y : ℤ} (h : At v x y) : OnGrid 23 v :=
  ⟨⟨h.1.1, x * 2 ^ 23, by rw [h.1.2]; push_cast; norm_num⟩, ⟨h.2.1, y * 2 ^ 23, by rw [h.2.2]; push_cast; norm_num⟩⟩

theorem at_ne {v w : Vec2 F32} {x y x' y' : ℤ} (h : At v x y) (h' : At w x' y') (hne : x ≠ x' ∨ y ≠ y') : rpos v ≠ rpos w := by
  intro he
  rw [rpos_eq, rpos_eq, h.1.2, h.2.2, h'.1.2, h'.2.2] at he
  simp only [Prod.mk.injEq, Int.cast_inj] at he
  omega

/-- adding a node to a graph without edges -/
theorem node_new (ns : List (Node F32 T)) (pos : Vec2 F32) (data : T) (hg : ∀ n ∈ ns, OnGrid 23 n.position ∧ rpos n.position ≠ rpos pos)
    (hp : OnGrid 23 pos) :
    (⟨ns, []⟩ : PlanarGraph F32 T U).addNode pos data = .ok (⟨ns ++ [⟨pos, data, ""⟩], []⟩, (ns.length, [])) := by
  have hwf : WF (⟨ns, []⟩ : PlanarGraph F32 T U) := by intro e he; cases he
  obtain ⟨g', ch, h, hn⟩ := (C125_add_node _ hwf pos data (fun n h => (hg n h).1) hp).2 (fun n h => (hg n h).2)
  have h2 := addNode_ok _ hwf pos data
  rw [h] at h2
  rw [h]
  unfold addNodeG at h2
  split at h2
  · have : g' = ⟨ns, []⟩ := (Prod.mk.inj (Except.ok.inj h2)).1
    rw [this] at hn
    simp at hn
  · cases h2
    simp [splitAt, splitChanged, pushNode, defaultLabel]

/-- a first edge between two different nodes -/
theorem edge_first [Inhabited T] (ns : List (Node F32 T)) (s d : Nat) (x : U) (hs : s < ns.length) (hd : d < ns.length) :
    (⟨ns, []⟩ : PlanarGraph F32 T U).addEdge s d x = .ok (⟨ns, [⟨s, d, x, ""⟩]⟩, .ok ([], [0])) := by
  have hwf : WF (⟨ns, []⟩ : PlanarGraph F32 T U) := by intro e he; cases he
  exact C85_add_edge_free _ hwf s d x ns[s] ns[d] (List.getElem?_eq_getElem hs) (List.getElem?_eq_getElem hd) (by simp) (by simp)

/-- four nodes, then an edge between the first two and one between the last two -/
def twoStreets [Inhabited T] (a b c d : Vec2 F32) (t : Fin 4 → T) (x y : U) :
    Res (PlanarGraph F32 T U × Except PlanarGraphError (List Nat × List Nat)) := do
  let (g, _) ← (PlanarGraph.new : PlanarGraph F32 T U).addNode a (t 0)
  let (g, _) ← g.addNode b (t 1)
  let (g, _) ← g.addNode c (t 2)
  let (g, _) ← g.addNode d (t 3)
  let (g, _) ← g.addEdge 0 1 x
  g.addEdge 2 3 y

/-- **C126, on the graph.** A horizontal and a vertical street between whole-number points of size at most 1024 that cross are
split at one new node, away from the given ones, whichever is drawn first: the new node has exactly the four pieces. -/
theorem C126_streets [Inhabited T] {a b c d : Vec2 F32} {x0 x1 y z y2 y3 : ℤ} (ha : At a x0 y) (hb : At b x1 y) (hc : At c z y2)
    (hd : At d z y3) (bx0 : |x0| ≤ 1024) (bx1 : |x1| ≤ 1024) (by2 : |y2| ≤ 1024) (by3 : |y3| ≤ 1024) (hz : Btw x0 z x1)
    (hy : Btw y2 y y3) (t : Fin 4 → T) (u v : U) :
    (∃ q, twoStreets a b c d t u v = .ok (⟨[⟨a, t 0, ""⟩, ⟨b, t 1, ""⟩, ⟨c, t 2, ""⟩, ⟨d, t 3, ""⟩, ⟨q, default, ""⟩],
        [⟨0, 4, u, ""⟩, ⟨2, 4, v, ""⟩, ⟨1, 4, u, ""⟩, ⟨3, 4, v, ""⟩]⟩, .ok ([4], [0, 1, 2, 3])) ∧
      IsFin q.x ∧ |toReal q.x - z| ≤ 3 / 2 ^ 14 ∧ Whole q.y y) ∧
    (∃ q, twoStreets c d a b t u v = .ok (⟨[⟨c, t 0, ""⟩, ⟨d, t 1, ""⟩, ⟨a, t 2, ""⟩, ⟨b, t 3, ""⟩, ⟨q, default, ""⟩],
        [⟨0, 4, u, ""⟩, ⟨2, 4, v, ""⟩, ⟨1, 4, u, ""⟩, ⟨3, 4, v, ""⟩]⟩, .ok ([4], [0, 1, 2, 3])) ∧
      Whole q.x z ∧ IsFin q.y ∧ |toReal q.y - y| ≤ 3 / 2 ^ 14) := by
  have key : ∀ {a b c d : Vec2 F32} {i1 i2 j1 j2 k1 k2 l1 l2 : ℤ}, At a i1 i2 → At b j1 j2 → At c k1 k2 → At d l1 l2 →
      (i1 ≠ j1 ∨ i2 ≠ j2) → (i1 ≠ k1 ∨ i2 ≠ k2) → (i1 ≠ l1 ∨ i2 ≠ l2) → (j1 ≠ k1 ∨ j2 ≠ k2) → (j1 ≠ l1 ∨ j2 ≠ l2) →
      (k1 ≠ l1 ∨ k2 ≠ l2) → ∀ q, calculateLineSegmentIntersection a b c d = some q → Good a b c d q →
      twoStreets a b c d t u v = .ok (⟨[⟨a, t 0, ""⟩, ⟨b, t 1, ""⟩, ⟨c, t 2, ""⟩, ⟨d, t 3, ""⟩, ⟨q, default, ""⟩],
        [⟨0, 4, u, ""⟩, ⟨2, 4, v, ""⟩, ⟨1, 4, u, ""⟩, ⟨3, 4, v, ""⟩]⟩, .ok ([4], [0, 1, 2, 3])) := by
    intro a b c d i1 i2 j1 j2 k1 k2 l1 l2 ha hb hc hd n1 n2 n3 n4 n5 n6 q hm hq
    have s1 := node_new (U := U) [] a (t 0) (by simp) (at_grid ha)
    have s2 := node_new (U := U) [⟨a, t 0, ""⟩] b (t 1) (by simpa using ⟨at_grid ha, at_ne ha hb n1⟩) (at_grid hb)
    have s3 := node_new (U := U) [⟨a, t 0, ""⟩, ⟨b, t 1, ""⟩] c (t 2)
      (by simpa using ⟨⟨at_grid ha, at_ne ha hc n2⟩, at_grid hb, at_ne hb hc n4⟩) (at_grid hc)
    have s4 := node_new (U := U) [⟨a, t 0, ""⟩, ⟨b, t 1, ""⟩, ⟨c, t 2, ""⟩] d (t 3)
      (by simpa using ⟨⟨at_grid ha, at_ne ha hd n3⟩, ⟨at_grid hb, at_ne hb hd n5⟩, at_grid hc, at_ne hc hd n6⟩) (at_grid hd)
    have s5 := edge_first [⟨a, t 0, ""⟩, ⟨b, t 1, ""⟩, ⟨c, t 2, ""⟩, ⟨d, t 3, ""⟩] 0 1 u (by simp) (by simp)
    have s6 := cross_edges ⟨a, t 0, ""⟩ ⟨b, t 1, ""⟩ ⟨c, t 2, ""⟩ ⟨d, t 3, ""⟩ u v "" q hm hq
    simp only [List.nil_append, List.cons_append] at s1 s2 s3 s4
    unfold twoStreets PlanarGraph.new
    simp only [s1, s2, s3, s4, s5, s6, bind, Except.bind]
  obtain ⟨⟨q, h1, h2, h3⟩, ⟨q', h1', h2', h3'⟩⟩ := C126_cross ha hb hc hd bx0 bx1 by2 by3 hz hy
  unfold Utils.Btw at hz hy
  refine ⟨⟨q, key ha hb hc hd ?_ ?_ ?_ ?_ ?_ ?_ q h1 h2, h3⟩, ⟨q', key hc hd ha hb ?_ ?_ ?_ ?_ ?_ ?_ q' h1' h2', h3'⟩⟩ <;> omega

/-- a street from (0, 0) to (105, 0) crossed by one from (27, 1) to (27, -1) -/
example : ∃ q, twoStreets (T := Nat) (U := Unit) ⟨F32.lit 0, F32.lit 0⟩ ⟨F32.lit 105, F32.lit 0⟩ ⟨F32.lit 27, F32.lit 1⟩
    ⟨F32.lit 27, F32.lit (-1)⟩ (fun _ => 0) () () = .ok (⟨[⟨⟨F32.lit 0, F32.lit 0⟩, 0, ""⟩, ⟨⟨F32.lit 105, F32.lit 0⟩, 0, ""⟩,
      ⟨⟨F32.lit 27, F32.lit 1⟩, 0, ""⟩, ⟨⟨F32.lit 27, F32.lit (-1)⟩, 0, ""⟩, ⟨q, 0, ""⟩],
      [⟨0, 4, (), ""⟩, ⟨2, 4, (), ""⟩, ⟨1, 4, (), ""⟩, ⟨3, 4, (), ""⟩]⟩, .ok ([4], [0, 1, 2, 3])) := by
  have h : ∀ x y : ℤ, x.natAbs ≤ 2 ^ 24 → y.natAbs ≤ 2 ^ 24 → At ⟨F32.lit x, F32.lit y⟩ x y := fun x y h1 h2 => ⟨whole_lit x h1, whole_lit y h2⟩
  obtain ⟨⟨q, h, _⟩, _⟩ := C126_streets (T := Nat) (U := Unit) (h 0 0 (by norm_num) (by norm_num)) (h 105 0 (by norm_num) (by norm_num))
    (h 27 1 (by norm_num) (by norm_num)) (h 27 (-1) (by norm_num) (by norm_num)) (by norm_num) (by norm_num) (by norm_num) (by norm_num)
    (Or.inl ⟨by norm_num, by norm_num⟩) (Or.inr ⟨by norm_num, by norm_num⟩) (fun _ => 0) () ()
  exact ⟨q, h⟩

/-- a street from (0, 0) to (105, 0) crossed by streets at 27, 63 and 61, drawn in this order -/
def threeStreets : Res (PlanarGraph F32 Nat Unit) := do
  let at' (x y : Int) : Vec2 F32 := ⟨F32.lit x, F32.lit y⟩
  let (g, _) ← (PlanarGraph.new : PlanarGraph F32 Nat Unit).addNode (at' 0 0) 0
  let (g, _) ← g.addNode (at' 105 0) 0
  let (g, _) ← g.addEdge 0 1 ()
  let (g, (i, _)) ← g.addNode (at' 27 1) 0
  let (g, (j, _)) ← g.addNode (at' 27 (-1)) 0
  let (g, _) ← g.addEdge i j ()
  let (g, (i, _)) ← g.addNode (at' 63 1) 0
  let (g, (j, _)) ← g.addNode (at' 63 (-1)) 0
  let (g, _) ← g.addEdge i j ()
  let (g, (i, _)) ← g.addNode (at' 61 1) 0
  let (g, (j, _)) ← g.addNode (at' 61 (-1)) 0
  let (g, _) ← g.addEdge i j ()
  return g

/-- **C126 stops at two.** The third crossing makes a node (number 10) and splits the new street there, but the piece 4-7 of the long
street, whose ends are at 27 and 63 up to rounding, is not split: the long street passes node 10 without a joint. -/
theorem C126_third_street :
    (threeStreets.map fun g => (g.nodes.length, g.edges.map fun e => (e.src, e.dst))) =
      Except.ok (11, [(0, 4), (2, 4), (1, 7), (3, 4), (5, 7), (4, 7), (6, 7), (8, 10), (9, 10)]) ∧
    (threeStreets.map fun g => g.nodes.map fun n => (F32.toRat n.position.x, F32.toRat n.position.y)) =
      Except.ok [(0, 0), (105, 0), (27, 1), (27, -1), (27 + 1 / 2 ^ 19, 0), (63, 1), (63, -1), (63 - 1 / 2 ^ 18, 0), (61, 1), (61, -1),
        (61, 0)] := by
  decide +kernel

end Kami.Graph
