import Verif.Graph.Exact
import Verif.Geom.DistF32
/-!
# Graphs with f32 positions

What the graph operations guarantee about true positions when they run in `f32`, and where they fail.
-/

set_option autoImplicit false

namespace Kami.Graph

open Kami Kami.F32 Kami.UtilThm Kami.Simple Kami.DistF32
open scoped Kami
open PlanarGraph

variable {T U : Type}

/-- **C94.** In every `f32` graph reached by any calls, two different nodes with coordinates up to `2^60` are truly at least
`(1 - 2^-20) * 2^-23` apart, hence at different positions. -/
theorem C94_separated [Inhabited T] (p : Profile) (ops : List (Op F32 T U)) (g : PlanarGraph F32 T U)
    (h : PlanarGraph.run p PlanarGraph.new ops = .ok g) (i j : Nat) (a b : Node F32 T)
    (hi : g.getVertex i = some a) (hj : g.getVertex j = some b) (hij : i ≠ j)
    (ha : SmallPt a.position) (hb : SmallPt b.position) :
    (1 - 1 / 2 ^ 20) / 2 ^ 23 ≤ dst (rpos a.position) (rpos b.position) ∧ rpos a.position ≠ rpos b.position := by
  have h1 := (C90_threshold ha hb).2 (C51_separated p ops g h i j a b hi hj hij)
  refine ⟨h1, fun he => ?_⟩
  rw [dst_eq_zero.2 he] at h1
  norm_num at h1

/-- **C94, add_node.** In `f32` with coordinates up to `2^60`, `add_node` returns an old node truly within
`(1 + 2^-20) * 2^-23` of the requested position, leaving the graph as it was, or appends a node with that position, truly at
least `(1 - 2^-20) * 2^-23` away from all others. -/
theorem C94_add_node (g : PlanarGraph F32 T U) (hwf : WF g) (pos : Vec2 F32) (data : T) (hpos : SmallPt pos)
    (hg : ∀ a ∈ g.nodes, SmallPt a.position) :
    ∃ g' i changed, g.addNode pos data = .ok (g', (i, changed)) ∧
      ((g' = g ∧ changed = [] ∧ ∃ a, g.getVertex i = some a ∧ dst (rpos pos) (rpos a.position) ≤ (1 + 1 / 2 ^ 20) / 2 ^ 23) ∨
       (i = g.nodeCount ∧ g'.nodes = g.nodes ++ [⟨pos, data, ""⟩] ∧
          ∀ b ∈ g.nodes, (1 - 1 / 2 ^ 20) / 2 ^ 23 ≤ dst (rpos pos) (rpos b.position))) := by
  obtain ⟨g', i, changed, h1, h2⟩ := C52_add_node g hwf pos data
  refine ⟨g', i, changed, h1, ?_⟩
  rcases h2 with ⟨h2, h3, a, ha, h4, _⟩ | ⟨h2, h3, h4⟩
  · exact Or.inl ⟨h2, h3, a, ha, (C90_threshold hpos (hg a (List.mem_of_getElem? ha))).1 h4⟩
  · exact Or.inr ⟨h2, h3, fun b hb => (C90_threshold hpos (hg b hb)).2 (h4 b hb)⟩

/-- The line of the edge from `c` to `c'` meets the line of the segment from `a` to `b` clearly outside one of the two. -/
def ClearlyApart (c c' a b : ℝ × ℝ) : Prop :=
  crs c c' a b ≠ 0 ∧ segErr c c' a b ≤ 1 / 4 ∧ ∃ t s,
    c.1 + t * (c'.1 - c.1) = a.1 + s * (b.1 - a.1) ∧ c.2 + t * (c'.2 - c.2) = a.2 + s * (b.2 - a.2) ∧
    (t < -3 * segErr c c' a b ∨ 1 + 3 * segErr c c' a b < t ∨ s < -3 * segErr c c' a b ∨ 1 + 3 * segErr c c' a b < s)

/-- **C94, add_edge.** If every edge of the graph is clearly apart from the new segment, `add_edge` in `f32` appends exactly
the new edge. -/
theorem C94_add_edge_free [Inhabited T] (g : PlanarGraph F32 T U) (hwf : WF g) (s d : Nat) (x : U) (a b : Node F32 T)
    (hg : ∀ a ∈ g.nodes, SmallPt a.position)
    (ha : g.getVertex s = some a) (hb : g.getVertex d = some b)
    (hno : ∀ e ∈ g.edges, ¬ ((e.src = s ∧ e.dst = d) ∨ (e.src = d ∧ e.dst = s)))
    (hfree : ∀ e ∈ g.edges, ∀ c c', g.getVertex e.src = some c → g.getVertex e.dst = some c' →
      ClearlyApart (rpos c.position) (rpos c'.position) (rpos a.position) (rpos b.position)) :
    g.addEdge s d x = .ok (⟨g.nodes, g.edges ++ [⟨s, d, x, ""⟩]⟩, .ok ([], [g.edges.length])) := by
  refine C85_add_edge_free g hwf s d x a b ha hb hno ?_
  intro e he c c' hc hc'
  obtain ⟨h0, h1, t, r, hx, hy, hout⟩ := hfree e he c c' hc hc'
  exact C92_apart (hg c (List.mem_of_getElem? hc)) (hg c' (List.mem_of_getElem? hc')) (hg a (List.mem_of_getElem? ha))
    (hg b (List.mem_of_getElem? hb)) hx hy h0 h1 hout

/-- a graph node at integer coordinates -/
def at32 (x y : Int) : Vec2 F32 := ⟨F32.lit x, F32.lit y⟩

/-- **C94, crossing edges.** Two edges in general position, (3, 4)-(1, 0) and (3, 2)-(1, 4), cross at (7/3, 8/3). After
adding both in `f32` there is an isolated node near the crossing, but neither edge has been split: the drawing is not planar. -/
theorem C94_counterexample_crossing :
    PlanarGraph.run .release (PlanarGraph.new : PlanarGraph F32 Unit Unit)
      [.addNode (at32 3 4) (), .addNode (at32 1 0) (), .addNode (at32 3 2) (), .addNode (at32 1 4) (),
       .addEdge 0 1 (), .addEdge 2 3 ()] =
    .ok ⟨[⟨at32 3 4, (), ""⟩, ⟨at32 1 0, (), ""⟩, ⟨at32 3 2, (), ""⟩, ⟨at32 1 4, (), ""⟩,
          ⟨⟨F32.lit 9786709 4194304, F32.lit 5592405 2097152⟩, (), ""⟩],
         [⟨0, 1, (), ""⟩, ⟨2, 3, (), ""⟩]⟩ ∧
    OnSegR (3, 4) (1, 0) (7 / 3, 8 / 3) ∧ OnSegR (3, 2) (1, 4) (7 / 3, 8 / 3) := by
  refine ⟨by decide +kernel, ⟨1 / 3, by norm_num, by norm_num, by norm_num⟩, ⟨1 / 3, by norm_num, by norm_num, by norm_num⟩⟩

/-- **C94, node on an edge.** A node added in `f32` exactly on an edge need not split it: (1, 2) on the edge from (0, 0) to
(3, 6). -/
theorem C94_counterexample_node :
    PlanarGraph.run .release (PlanarGraph.new : PlanarGraph F32 Unit Unit)
      [.addNode (at32 0 0) (), .addNode (at32 3 6) (), .addEdge 0 1 (), .addNode (at32 1 2) ()] =
    .ok ⟨[⟨at32 0 0, (), ""⟩, ⟨at32 3 6, (), ""⟩, ⟨at32 1 2, (), ""⟩], [⟨0, 1, (), ""⟩]⟩ := by
  decide +kernel

/-! ### instances -/

/-- nodes (0, 0), (1, 0), (5, 1), (5, 2) and an edge between the first two -/
def apart : PlanarGraph F32 Unit Unit :=
  ⟨[⟨at32 0 0, (), ""⟩, ⟨at32 1 0, (), ""⟩, ⟨at32 5 1, (), ""⟩, ⟨at32 5 2, (), ""⟩], [⟨0, 1, (), ""⟩]⟩

theorem apart_small : ∀ a ∈ apart.nodes, SmallPt a.position := by
  intro a ha
  simp only [apart, List.mem_cons, List.not_mem_nil, or_false] at ha
  rcases ha with rfl | rfl | rfl | rfl <;>
    exact ⟨small_of (by decide +kernel) (by decide +kernel), small_of (by decide +kernel) (by decide +kernel)⟩

theorem apart_wf : WF apart := by
  intro e he
  simp only [apart, List.mem_cons, List.not_mem_nil, or_false] at he
  subst he
  decide

theorem apart_run : PlanarGraph.run .release PlanarGraph.new
    [.addNode (at32 0 0) (), .addNode (at32 1 0) (), .addNode (at32 5 1) (), .addNode (at32 5 2) (), .addEdge 0 1 ()] =
    .ok apart := by decide +kernel

example : rpos (at32 0 0) ≠ rpos (at32 5 2) :=
  (C94_separated .release _ apart apart_run 0 3 _ _ rfl rfl (by decide)
    (apart_small ⟨at32 0 0, (), ""⟩ (by simp [apart])) (apart_small ⟨at32 5 2, (), ""⟩ (by simp [apart]))).2

example : ∃ g' i changed, apart.addNode (at32 5 5) () = .ok (g', (i, changed)) ∧ i = 4 := by
  obtain ⟨g', i, c, h, h'⟩ := C94_add_node apart apart_wf (at32 5 5) ()
    ⟨small_of (by decide +kernel) (by decide +kernel), small_of (by decide +kernel) (by decide +kernel)⟩ apart_small
  refine ⟨g', i, c, h, ?_⟩
  have : apart.addNode (at32 5 5) () = .ok (⟨apart.nodes ++ [⟨at32 5 5, (), ""⟩], apart.edges⟩, (4, [])) := by decide +kernel
  rw [this] at h
  cases h
  rfl

example : apart.addEdge 2 3 () = .ok (⟨apart.nodes, apart.edges ++ [⟨2, 3, (), ""⟩]⟩, .ok ([], [1])) := by
  have e : toRat (F32.lit 0) = 0 ∧ toRat (F32.lit 1) = 1 ∧ toRat (F32.lit 5) = 5 ∧ toRat (F32.lit 2) = 2 := by decide +kernel
  refine C94_add_edge_free apart apart_wf 2 3 () ⟨at32 5 1, (), ""⟩ ⟨at32 5 2, (), ""⟩ apart_small rfl rfl ?_ ?_
  · simp [apart]
  · intro f hf c c' hc hc'
    simp only [apart, List.mem_cons, List.not_mem_nil, or_false] at hf
    subst hf
    cases hc
    cases hc'
    simp only [rpos, at32, e]
    refine ⟨by norm_num [crs], by norm_num [segErr, segMass, crs], 5, -1, by norm_num, by norm_num, Or.inr (Or.inl ?_)⟩
    norm_num [segErr, segMass, crs]

end Kami.Graph
