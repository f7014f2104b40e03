import Verif.Examples.Draw
import Verif.Graph.Histories
/-!
# C95: the graph drawing

One circle per node and one line per edge, in order, with the right positions and titles; a panic exactly when an edge has
an invalid node index.
-/

set_option autoImplicit false

namespace Kami.Draw

open Kami Kami.Svg Kami.Graph

variable {F T U : Type}

/-! ### Specification -/

/-- the shape is a green circle of the given radius at the node, with the title `Node i` -/
def IsNodeShape (fmt : F → String) (five : F) (i : Nat) (n : Node F T) (s : Shape) : Prop :=
  s.element.tag = "circle" ∧ s.element.attr "cx" = some (fmt n.position.x) ∧ s.element.attr "cy" = some (fmt n.position.y) ∧
  s.element.attr "r" = some (fmt five) ∧ s.element.attr "fill" = some "green" ∧ s.element.attr "stroke" = some "black" ∧
  s.title = some s!"Node {i}"

/-- the shape is a black line between the two nodes, with a title that names the edge and its node indices -/
def IsEdgeShape (fmt : F → String) (k : Nat) (e : Edge U) (a b : Node F T) (s : Shape) : Prop :=
  s.element.tag = "line" ∧ s.element.attr "x1" = some (fmt a.position.x) ∧ s.element.attr "y1" = some (fmt a.position.y) ∧
  s.element.attr "x2" = some (fmt b.position.x) ∧ s.element.attr "y2" = some (fmt b.position.y) ∧
  s.element.attr "stroke" = some "black" ∧ s.title = some s!"Edge {k} between vertices <{e.src}, {e.dst}>"

/-! ### Proofs -/

theorem drawNodes_spec (fmt : F → String) (five : F) (ns : List (Node F T)) (i : Nat) :
    (drawNodes fmt five ns i).length = ns.length ∧
    ∀ k n, ns[k]? = some n → ∃ s, (drawNodes fmt five ns i)[k]? = some s ∧ IsNodeShape fmt five (i + k) n s := by
  induction ns generalizing i with
  | nil => exact ⟨rfl, fun k n h => by simp at h⟩
  | cons m ns ih =>
    obtain ⟨h1, h2⟩ := ih (i + 1)
    refine ⟨by simp [drawNodes, h1], fun k n h => ?_⟩
    cases k with
    | zero =>
      simp only [List.getElem?_cons_zero, Option.some.injEq] at h
      subst h
      exact ⟨_, rfl, rfl, rfl, rfl, rfl, rfl, rfl, rfl⟩
    | succ k =>
      obtain ⟨s, h3, h4⟩ := h2 k n (by simpa using h)
      refine ⟨s, by simpa [drawNodes] using h3, ?_⟩
      rwa [show i + 1 + k = i + (k + 1) by omega] at h4

theorem drawEdges_ok (fmt : F → String) (g : PlanarGraph F T U) (es : List (Edge U)) (i : Nat)
    (h : ∀ e ∈ es, e.src < g.nodes.length ∧ e.dst < g.nodes.length) :
    ∃ ss, drawEdges fmt g es i = .ok ss ∧ ss.length = es.length ∧
      ∀ k e a b, es[k]? = some e → g.nodes[e.src]? = some a → g.nodes[e.dst]? = some b →
        ∃ s, ss[k]? = some s ∧ IsEdgeShape fmt (i + k) e a b s := by
  induction es generalizing i with
  | nil => exact ⟨[], rfl, rfl, fun k e a b h => by simp at h⟩
  | cons e es ih =>
    obtain ⟨ss, h1, h2, h3⟩ := ih (i + 1) (fun f hf => h f (List.mem_cons_of_mem _ hf))
    obtain ⟨hs, hd⟩ := h e (List.mem_cons_self ..)
    refine ⟨⟨svgLine fmt g.nodes[e.src].position g.nodes[e.dst].position "black",
      some ("Edge " ++ toString i ++ " between vertices <" ++ toString e.src ++ ", " ++ toString e.dst ++ ">")⟩ :: ss,
      ?_, by simp [h2], ?_⟩
    · unfold drawEdges
      rw [h1]
      simp only [PlanarGraph.getVertex, List.getElem?_eq_getElem hs, List.getElem?_eq_getElem hd, PlanarGraph.unwrap]
      rfl
    · intro k f a b hk ha hb
      cases k with
      | zero =>
        simp only [List.getElem?_cons_zero, Option.some.injEq] at hk
        subst hk
        obtain ⟨_, rfl⟩ := List.getElem?_eq_some_iff.1 ha
        obtain ⟨_, rfl⟩ := List.getElem?_eq_some_iff.1 hb
        exact ⟨_, rfl, rfl, rfl, rfl, rfl, rfl, rfl, rfl⟩
      | succ k =>
        obtain ⟨s, h4, h5⟩ := h3 k f a b (by simpa using hk) ha hb
        refine ⟨s, by simpa using h4, ?_⟩
        rwa [show i + 1 + k = i + (k + 1) by omega] at h5

theorem drawEdges_error (fmt : F → String) (g : PlanarGraph F T U) (es : List (Edge U)) (i : Nat)
    (h : ∃ e ∈ es, ¬ (e.src < g.nodes.length ∧ e.dst < g.nodes.length)) :
    drawEdges fmt g es i = .error .unwrapFailed := by
  induction es generalizing i with
  | nil => obtain ⟨e, he, _⟩ := h; cases he
  | cons e es ih =>
    unfold drawEdges
    by_cases hs : e.src < g.nodes.length
    · by_cases hd : e.dst < g.nodes.length
      · rw [ih (i + 1) (by
          obtain ⟨f, hf, hn⟩ := h
          rcases List.mem_cons.1 hf with rfl | hf
          · exact absurd ⟨hs, hd⟩ hn
          · exact ⟨f, hf, hn⟩)]
        simp only [PlanarGraph.getVertex, List.getElem?_eq_getElem hs, List.getElem?_eq_getElem hd, PlanarGraph.unwrap]
        rfl
      · simp only [PlanarGraph.getVertex, List.getElem?_eq_getElem hs, List.getElem?_eq_none (Nat.not_lt.1 hd),
          PlanarGraph.unwrap]
        rfl
    · simp only [PlanarGraph.getVertex, List.getElem?_eq_none (Nat.not_lt.1 hs), PlanarGraph.unwrap]
      rfl

/-- **C95, shapes.** On a graph whose edges have valid node indices, `draw_graph` draws one circle per node and then one line
per edge, in order, at the positions of the nodes and with the right titles, and nothing else. -/
theorem C95_shapes (fmt : F → String) (five : F) (g : PlanarGraph F T U)
    (hwf : ∀ e ∈ g.edges, e.src < g.nodes.length ∧ e.dst < g.nodes.length) :
    ∃ shapes, drawGraph fmt five g = .ok shapes ∧ shapes.length = g.nodes.length + g.edges.length ∧
      (∀ i n, g.nodes[i]? = some n → ∃ s, shapes[i]? = some s ∧ IsNodeShape fmt five i n s) ∧
      ∀ k e a b, g.edges[k]? = some e → g.nodes[e.src]? = some a → g.nodes[e.dst]? = some b →
        ∃ s, shapes[g.nodes.length + k]? = some s ∧ IsEdgeShape fmt k e a b s := by
  obtain ⟨h1, h2⟩ := drawNodes_spec fmt five g.nodes 0
  obtain ⟨ss, h3, h4, h5⟩ := drawEdges_ok fmt g g.edges 0 hwf
  refine ⟨drawNodes fmt five g.nodes 0 ++ ss, ?_, by simp [h1, h4], ?_, ?_⟩
  · unfold drawGraph; rw [h3]; rfl
  · intro i n hn
    obtain ⟨s, e1, e2⟩ := h2 i n hn
    rw [Nat.zero_add] at e2
    have hi : i < (drawNodes fmt five g.nodes 0).length := (List.getElem?_eq_some_iff.1 e1).1
    exact ⟨s, by rw [List.getElem?_append_left hi]; exact e1, e2⟩
  · intro k e a b he ha hb
    obtain ⟨s, e1, e2⟩ := h5 k e a b he ha hb
    rw [Nat.zero_add] at e2
    refine ⟨s, ?_, e2⟩
    rw [List.getElem?_append_right (by omega), h1, Nat.add_sub_cancel_left]
    exact e1

/-- **C95, panic.** `draw_graph` panics exactly when some edge has an invalid node index. -/
theorem C95_panic (fmt : F → String) (five : F) (g : PlanarGraph F T U) :
    (∃ e, drawGraph fmt five g = .error e) ↔
      ∃ e ∈ g.edges, g.getVertex e.src = none ∨ g.getVertex e.dst = none := by
  have key : ∀ e : Edge U, (g.getVertex e.src = none ∨ g.getVertex e.dst = none) ↔
      ¬ (e.src < g.nodes.length ∧ e.dst < g.nodes.length) := by
    intro e
    unfold PlanarGraph.getVertex
    rw [List.getElem?_eq_none_iff, List.getElem?_eq_none_iff]
    omega
  simp only [key]
  constructor
  · rintro ⟨err, h⟩
    by_contra hc
    push Not at hc
    obtain ⟨ss, h1, _⟩ := C95_shapes fmt five g hc
    rw [h1] at h; cases h
  · intro h
    refine ⟨.unwrapFailed, ?_⟩
    unfold drawGraph
    rw [drawEdges_error fmt g g.edges 0 h]
    rfl

/-- **C95, histories.** Every graph built by the library with overflow checks on can be drawn. -/
theorem C95_history [Scalar F] [Inhabited T] (fmt : F → String) (five : F) (ops : List (PlanarGraph.Op F T U))
    (g : PlanarGraph F T U) (h : PlanarGraph.run .debug PlanarGraph.new ops = .ok g) :
    ∃ shapes, drawGraph fmt five g = .ok shapes ∧ shapes.length = g.nodeCount + g.edgeCount := by
  obtain ⟨ss, h1, h2, _⟩ := C95_shapes fmt five g (reachable_wf h)
  exact ⟨ss, h1, h2⟩

/-- **C95, counterexample in release.** A self-loop followed by a removal gives a graph that cannot be drawn. -/
theorem C95_counterexample_release : ∃ (ops : List (PlanarGraph.Op F32 Unit Unit)) (g : PlanarGraph F32 Unit Unit),
    PlanarGraph.run .release PlanarGraph.new ops = .ok g ∧
    ∀ (fmt : F32 → String) (five : F32), drawGraph fmt five g = .error .unwrapFailed := by
  refine ⟨_, _, C49_counterexample, fun fmt five => ?_⟩
  unfold drawGraph
  rw [drawEdges_error fmt _ _ 0 ⟨_, List.mem_cons_self .., by decide⟩]
  rfl

/-- a point of two integer literals -/
def lit2 (x y : Int) : Vec2 F32 := ⟨F32.lit x, F32.lit y⟩

/-- **C95, example program.** The program of the example ends, in debug and in release, with an edge between (150, 50) and
(150, 100) and nothing else. -/
theorem C95_demo (p : Profile) (fmt : F32 → String) (five : F32) : drawDemo p fmt five lit2 =
    .ok ("Graph has 1 edges and 2 nodes",
      [⟨svgCircle fmt (lit2 150 50) five "green" "black", some "Node 0"⟩,
       ⟨svgCircle fmt (lit2 150 100) five "green" "black", some "Node 1"⟩,
       ⟨svgLine fmt (lit2 150 50) (lit2 150 100) "black", some "Edge 0 between vertices <0, 1>"⟩]) := by
  have hg : PlanarGraph.run p (PlanarGraph.new : PlanarGraph F32 Unit Unit) (demoOps lit2) =
      .ok ⟨[⟨lit2 150 50, (), ""⟩, ⟨lit2 150 100, (), ""⟩], [⟨0, 1, (), ""⟩]⟩ := by
    cases p <;> decide +kernel
  unfold drawDemo
  rw [hg]
  rfl

/-- a graph with a crossing, drawn with five circles and four lines -/
example : ∃ (g : PlanarGraph F32 Unit Unit) (shapes : List Shape), PlanarGraph.run .debug PlanarGraph.new ((demoOps lit2).take 6) = .ok g ∧
    drawGraph (fun _ => "") (F32.lit 5) g = .ok shapes ∧ shapes.length = 9 := by
  have hg : PlanarGraph.run .debug (PlanarGraph.new : PlanarGraph F32 Unit Unit) ((demoOps lit2).take 6) =
      .ok ⟨[⟨lit2 100 100, (), ""⟩, ⟨lit2 200 100, (), ""⟩, ⟨lit2 150 50, (), ""⟩, ⟨lit2 150 150, (), ""⟩,
        ⟨lit2 150 100, (), ""⟩], [⟨0, 4, (), ""⟩, ⟨2, 4, (), ""⟩, ⟨1, 4, (), ""⟩, ⟨3, 4, (), ""⟩]⟩ := by
    decide +kernel
  obtain ⟨ss, h1, h2⟩ := C95_history (fun _ => "") (F32.lit 5) _ _ hg
  exact ⟨_, ss, hg, h1, h2⟩

end Kami.Draw
