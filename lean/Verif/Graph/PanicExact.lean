import Verif.Graph.ValidExact
import Verif.Graph.Queries
/-!
# When `add_node` and `add_edge` panic

Both methods (src/graph/planar_graph.rs:180-239) read the end points of all edges by index.  They panic exactly when they come
to read an edge with an index outside the node list.
-/

set_option autoImplicit false

namespace Kami.Graph

open Kami
open PlanarGraph

variable {F T U : Type} [Scalar F]

theorem index_reads {α : Type} {v : List α} {i : Nat} {a : α} (h : index v i = .ok a) : i < v.length := by
  unfold index at h
  cases hv : v[i]? with
  | none => rw [hv] at h; cases h
  | some b => exact (List.getElem?_eq_some_iff.1 hv).1

theorem splitLoop_reads {nodes : List (Node F T)} {id : Nat} (es : List (Edge U)) : ∀ i out,
    splitLoop nodes id es i = .ok out → ∀ e ∈ es, e.src < nodes.length ∧ e.dst < nodes.length := by
  induction es with
  | nil => intro i out _ e he; cases he
  | cons e es ih =>
    intro i out h
    simp only [splitLoop, bind, Except.bind] at h
    cases h1 : index nodes e.src with
    | error x => rw [h1] at h; cases h
    | ok a =>
      cases h2 : index nodes e.dst with
      | error x => rw [h1, h2] at h; cases h
      | ok b =>
        cases h3 : index nodes id with
        | error x => rw [h1, h2, h3] at h; cases h
        | ok c =>
          cases h4 : splitLoop nodes id es (i + 1) with
          | error x => rw [h1, h2, h3] at h; simp only [h4] at h; cases h
          | ok rest =>
            intro f hf
            rcases List.mem_cons.1 hf with rfl | hf
            · exact ⟨index_reads h1, index_reads h2⟩
            · exact ih (i + 1) rest h4 f hf

theorem intersectionLoop_reads {g : PlanarGraph F T U} {id : Nat} (es : List (Edge U)) : ∀ i out,
    intersectionLoop g id es i = .ok out → ∀ k e, es[k]? = some e → i + k ≠ id →
      e.src < g.nodes.length ∧ e.dst < g.nodes.length := by
  induction es with
  | nil => intro i out _ k e he; simp at he
  | cons e es ih =>
    intro i out h k f hk hne
    unfold intersectionLoop at h
    by_cases hi : id = i
    · rw [if_neg (by simpa using hi)] at h
      cases k with
      | zero => omega
      | succ k => exact ih (i + 1) out h k f (by simpa using hk) (by omega)
    · rw [if_pos (by simpa using hi)] at h
      simp only [bind, Except.bind] at h
      cases h1 : index g.nodes e.src with
      | error x => rw [h1] at h; cases h
      | ok a =>
        cases h2 : index g.nodes e.dst with
        | error x => rw [h1, h2] at h; cases h
        | ok b =>
          cases k with
          | zero =>
            simp only [List.getElem?_cons_zero, Option.some.injEq] at hk
            subst hk
            exact ⟨index_reads h1, index_reads h2⟩
          | succ k =>
            simp only [h1, h2] at h
            cases h3 : index g.edges id with
            | error x => simp only [h3] at h; cases h
            | ok t =>
              simp only [h3] at h
              cases h4 : index g.nodes t.src with
              | error x => simp only [h4] at h; cases h
              | ok c =>
                simp only [h4] at h
                cases h5 : index g.nodes t.dst with
                | error x => simp only [h5] at h; cases h
                | ok d =>
                  simp only [h5] at h
                  cases h6 : intersectionLoop g id es (i + 1) with
                  | error x => simp only [h6] at h; cases h
                  | ok rest => exact ih (i + 1) rest h6 k f (by simpa using hk) (by omega)

/-- **C50, exact condition for `add_node`.** On any graph, `add_node` panics if and only if no node is nearer than epsilon to the
new position and some edge has an end beyond the node list, even after the new node is appended. -/
theorem C50_exact_add_node [LawfulScalar F] (g : PlanarGraph F T U) (pos : Vec2 F) (data : T) :
    (∃ x, g.addNode pos data = .error x) ↔
      (∀ n ∈ g.nodes, (distance pos n.position <. Scalar.epsilon) = false) ∧
      ∃ e ∈ g.edges, g.nodes.length < e.src ∨ g.nodes.length < e.dst := by
  have hspec := nearest_spec g pos
  unfold nearest at hspec
  unfold addNode
  by_cases hc : ((Utils.findClosestTo pos g.gatherNodePositions).2 <. Scalar.epsilon) = true
  · simp only [hc, if_true]
    constructor
    · rintro ⟨x, h⟩; cases h
    · rintro ⟨h, _⟩
      obtain ⟨a, h1, h2, _⟩ := hspec.1 hc
      rw [h2, h a (List.mem_of_getElem? h1)] at hc
      cases hc
  · have hc' : ((Utils.findClosestTo pos g.gatherNodePositions).2 <. Scalar.epsilon) = false := by simpa using hc
    have hfar := hspec.2 hc'
    simp only [hc', Bool.false_eq_true, if_false, splitEdgesAtNode, nodeCount, List.length_append, List.length_singleton,
      Nat.add_sub_cancel, List.getElem?_concat_length, bind, Except.bind]
    rw [and_iff_right hfar]
    cases hs : splitLoop (g.nodes ++ [⟨pos, data, defaultLabel⟩]) g.nodes.length g.edges 0 with
    | ok out =>
      have hv := splitLoop_reads g.edges 0 out hs
      constructor
      · rintro ⟨x, h⟩; cases h
      · rintro ⟨e, he, hbad⟩
        have := hv e he
        simp only [List.length_append, List.length_singleton] at this
        omega
    | error x =>
      refine ⟨fun _ => ?_, fun _ => ⟨x, rfl⟩⟩
      by_contra hno
      have hok := splitLoop_eq (g.nodes ++ [(⟨pos, data, defaultLabel⟩ : Node F T)]) g.nodes.length (by simp) g.edges 0 (by
        intro e he
        simp only [List.length_append, List.length_singleton]
        by_contra hb
        exact hno ⟨e, he, by omega⟩)
      rw [hok] at hs
      cases hs

/-- **C50, exact condition for `add_edge`.** On any graph, `add_edge` panics if and only if both nodes exist, no edge joins them yet
and some edge has an index outside the node list. -/
theorem C50_exact_add_edge [Inhabited T] (g : PlanarGraph F T U) (s d : Nat) (data : U) :
    (∃ x, g.addEdge s d data = .error x) ↔
      s < g.nodes.length ∧ d < g.nodes.length ∧ (∀ e ∈ g.edges, ¬ ((e.src = s ∧ e.dst = d) ∨ (e.src = d ∧ e.dst = s))) ∧
      ∃ e ∈ g.edges, g.nodes.length ≤ e.src ∨ g.nodes.length ≤ e.dst := by
  constructor
  · rintro ⟨x, h⟩
    have hbad : ∃ e ∈ g.edges, g.nodes.length ≤ e.src ∨ g.nodes.length ≤ e.dst := by
      by_contra hno
      obtain ⟨g', r, h', _⟩ := (C50_no_panic g (by
        intro e he
        by_contra hb
        exact hno ⟨e, he, by omega⟩)).2 s d data
      rw [h'] at h; cases h
    unfold addEdge at h
    by_cases hj : g.hasEdgeBetweenNodes s d = true
    · rw [hj] at h; cases h
    · rw [if_pos (by simpa using hj)] at h
      unfold getVertex at h
      cases hs : g.nodes[s]? with
      | none => rw [hs] at h; cases h
      | some a =>
        cases hd : g.nodes[d]? with
        | none => rw [hs, hd] at h; cases h
        | some b =>
          refine ⟨(List.getElem?_eq_some_iff.1 hs).1, (List.getElem?_eq_some_iff.1 hd).1, ?_, hbad⟩
          intro e he hc
          apply hj
          unfold hasEdgeBetweenNodes
          rw [List.any_eq_true]
          refine ⟨e, he, ?_⟩
          rcases hc with ⟨rfl, rfl⟩ | ⟨rfl, rfl⟩ <;> simp
  · rintro ⟨hs, hd, hno, e, he, hbad⟩
    cases h : g.addEdge s d data with
    | error x => exact ⟨x, rfl⟩
    | ok r =>
      exfalso
      unfold addEdge at h
      have hj : g.hasEdgeBetweenNodes s d = false := by
        rw [← Bool.not_eq_true]
        intro hc
        unfold hasEdgeBetweenNodes at hc
        obtain ⟨f, hf, hfe⟩ := List.any_eq_true.1 hc
        simp only [Bool.or_eq_true, beq_iff_eq, Prod.mk.injEq] at hfe
        exact hno f hf (by rcases hfe with ⟨x, y⟩ | ⟨x, y⟩ <;> omega)
      unfold getVertex at h
      rw [hj, List.getElem?_eq_getElem hs, List.getElem?_eq_getElem hd] at h
      simp only [Bool.not_false, if_true, splitEdgesAlongEdge, bind, Except.bind, edgeCount, List.length_append,
        List.length_singleton, Nat.add_sub_cancel] at h
      cases hi : intersectionLoop (⟨g.nodes, g.edges ++ [⟨s, d, data, defaultLabel⟩]⟩ : PlanarGraph F T U) g.edges.length
          (g.edges ++ [⟨s, d, data, defaultLabel⟩]) 0 with
      | error x => rw [hi] at h; cases h
      | ok xs =>
        obtain ⟨k, hk⟩ := List.mem_iff_getElem?.1 he
        have hkl := (List.getElem?_eq_some_iff.1 hk).1
        have := intersectionLoop_reads _ 0 xs hi k e (by rw [List.getElem?_append_left hkl]; exact hk) (by omega)
        simp only at this
        omega

/-- a graph with an index outside the node list on which the calls panic, and two on which they do not -/
example : (∃ e ∈ [(⟨5, 0, (), ""⟩ : Edge Unit)], 2 ≤ e.src ∨ 2 ≤ e.dst) ∧
    ((⟨[⟨⟨F32.lit 0, F32.lit 0⟩, (), ""⟩, ⟨⟨F32.lit 4, F32.lit 0⟩, (), ""⟩], [⟨5, 0, (), ""⟩]⟩ :
      PlanarGraph F32 Unit Unit).addEdge 0 1 ()).isOk = false ∧
    ((⟨[⟨⟨F32.lit 0, F32.lit 0⟩, (), ""⟩, ⟨⟨F32.lit 4, F32.lit 0⟩, (), ""⟩], [⟨5, 0, (), ""⟩]⟩ :
      PlanarGraph F32 Unit Unit).addNode ⟨F32.lit 4, F32.lit 0⟩ ()).isOk = true ∧
    ((⟨[⟨⟨F32.lit 0, F32.lit 0⟩, (), ""⟩, ⟨⟨F32.lit 4, F32.lit 0⟩, (), ""⟩], [⟨2, 0, (), ""⟩]⟩ :
      PlanarGraph F32 Unit Unit).addNode ⟨F32.lit 1, F32.lit 1⟩ ()).isOk = true := by
  decide +kernel

end Kami.Graph
