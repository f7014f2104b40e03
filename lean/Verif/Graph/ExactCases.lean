import Verif.Graph.Queries
/-!
# C68, C70: the conditions of the partial theorems are exact

`C68_twice_partial` and `C70_add_node_partial` give conditions under which the claims hold.  Here the converses: without
the condition the claim fails every time, not just in the counterexample.
-/

set_option autoImplicit false

namespace Kami.Graph

open Kami
open scoped Kami
open PlanarGraph

variable {F T U : Type} [Scalar F]

/-- **C68, exactly.** After `add_edge(s, d)`, a second `add_edge(s, d)` leaves the graph as it is if and only if one of the
two indices does not belong to a node, or the first call left an edge joining the two nodes. -/
theorem C68_exact [Inhabited T] (g : PlanarGraph F T U) (hwf : WF g) (s d : Nat) (x y : U) (g' g'' : PlanarGraph F T U)
    (r r' : Except PlanarGraphError (List Nat × List Nat)) (h : g.addEdge s d x = .ok (g', r))
    (h' : g'.addEdge s d y = .ok (g'', r')) :
    g'' = g' ↔ g'.getVertex s = none ∨ g'.getVertex d = none ∨
      ∃ e ∈ g'.edges, (e.src = s ∧ e.dst = d) ∨ (e.src = d ∧ e.dst = s) := by
  have hwf' := addEdge_wf hwf h
  constructor
  · rintro rfl
    rcases addEdge_ok g'' hwf' s d y with ⟨hb, _⟩ | ⟨_, hv, _⟩ | ⟨_, _, _, g1, cn, ce, hi, h1⟩
    · right; right
      exact (hasEdge_iff g'' s d).1 hb
    · simp only [PlanarGraph.getVertex, List.getElem?_eq_none_iff]
      omega
    · exfalso
      rw [h'] at h1
      simp only [Except.ok.injEq, Prod.mk.injEq] at h1
      obtain ⟨rfl, _⟩ := h1
      have := (inserts_changed hi).1
      simp [pushEdge] at this
  · intro hc
    by_cases hj : ∃ e ∈ g'.edges, (e.src = s ∧ e.dst = d) ∨ (e.src = d ∧ e.dst = s)
    · have := ((C68_twice_partial g hwf s d x y g' r h).2.1 hj).1
      rw [h'] at this
      exact congrArg Prod.fst (Except.ok.inj this)
    · rcases addEdge_ok g' hwf' s d y with ⟨_, h1⟩ | ⟨_, _, h1⟩ | ⟨_, hs, hd, _⟩
      · rw [h'] at h1; exact congrArg Prod.fst (Except.ok.inj h1)
      · rw [h'] at h1; exact congrArg Prod.fst (Except.ok.inj h1)
      · exfalso
        rcases hc with hc | hc | hc
        · simp only [PlanarGraph.getVertex, List.getElem?_eq_none_iff] at hc; omega
        · simp only [PlanarGraph.getVertex, List.getElem?_eq_none_iff] at hc; omega
        · exact hj hc

/-- where the far half of a split edge is put -/
theorem farHalf_slot {g : PlanarGraph F T U} {id k : Nat} {e : Edge U} (he : g.edges[k]? = some e)
    (ho : onTest g.nodes id e = true) :
    ∃ m, (onSlots g id)[m]? = some k ∧ (splitAt g id).edges[g.edges.length + m]? = some (farHalf id e) := by
  obtain ⟨m, hm⟩ := List.getElem?_of_mem (mem_onSlots.2 ⟨e, he, ho⟩)
  exact ⟨m, hm, by rw [splitAt_get_new, hm]; simp [he]⟩

/-- **C70, exactly (add_node).** On a graph without self-loops and parallel edges, an `add_node` that creates a node leads to
parallel edges if and only if the new point passes the test of two edges with a common end. -/
theorem C70_add_node_exact (g : PlanarGraph F T U) (hwf : WF g) (hl : ∀ e ∈ g.edges, e.src ≠ e.dst)
    (hn : NoParallel g) (pos : Vec2 F) (data : T) (g' : PlanarGraph F T U) (r : Nat × List Nat)
    (h : g.addNode pos data = .ok (g', r)) (hnew : g'.nodes.length ≠ g.nodes.length) :
    NoParallel g' ↔
      ∀ (k l : Nat) (e f : Edge U) (a b c d : Node F T), g.edges[k]? = some e → g.edges[l]? = some f → k ≠ l →
        g.getVertex e.src = some a → g.getVertex e.dst = some b → g.getVertex f.src = some c → g.getVertex f.dst = some d →
        Utils.isOnLineSegment a.position b.position pos false = true →
        Utils.isOnLineSegment c.position d.position pos false = true →
        e.src ≠ f.src ∧ e.src ≠ f.dst ∧ e.dst ≠ f.src ∧ e.dst ≠ f.dst := by
  refine ⟨?_, C70_add_node_partial g hwf hl hn pos data g' r h⟩
  rw [addNode_ok g hwf] at h
  simp only [Except.ok.injEq, Prod.mk.injEq] at h
  obtain ⟨h, _⟩ := h
  subst h
  unfold addNodeG at hnew ⊢
  by_cases hnear : ((nearest g pos).2 <. Scalar.epsilon) = true
  · rw [if_pos hnear] at hnew; exact absurd rfl hnew
  rw [if_neg hnear]
  intro hp k l e f a b c d he hf hkl ha hb hc hd h1 h2
  have hon : ∀ {e : Edge U} {a b : Node F T}, g.getVertex e.src = some a → g.getVertex e.dst = some b →
      Utils.isOnLineSegment a.position b.position pos false = true →
      onTest (pushNode g pos data).nodes g.nodes.length e = true := by
    intro e a b ha hb ho
    have l1 := (List.getElem?_eq_some_iff.1 ha).1
    have l2 := (List.getElem?_eq_some_iff.1 hb).1
    unfold onTest
    simp only [pushNode]
    rw [List.getElem?_append_left l1, List.getElem?_append_left l2]
    simp only [PlanarGraph.getVertex] at ha hb
    rw [ha, hb]
    simp only [List.getElem?_concat_length]
    exact ho
  have oe := hon ha hb h1
  have of := hon hc hd h2
  have ne := splitAt_get_old (g := pushNode g pos data) (id := g.nodes.length) he
  have nf := splitAt_get_old (g := pushNode g pos data) (id := g.nodes.length) hf
  rw [if_pos oe] at ne
  rw [if_pos of] at nf
  obtain ⟨m, hm, fe⟩ := farHalf_slot (g := pushNode g pos data) (id := g.nodes.length) he oe
  obtain ⟨m', hm', ff⟩ := farHalf_slot (g := pushNode g pos data) (id := g.nodes.length) hf of
  have lk := (List.getElem?_eq_some_iff.1 he).1
  have ll := (List.getElem?_eq_some_iff.1 hf).1
  have elen : (pushNode g pos data).edges.length = g.edges.length := rfl
  refine ⟨?_, ?_, ?_, ?_⟩ <;> intro heq
  · exact hp _ _ _ _ ne nf hkl (Or.inl ⟨heq.symm, rfl⟩)
  · exact hp _ _ _ _ ne ff (by omega) (Or.inl ⟨heq.symm, rfl⟩)
  · exact hp _ _ _ _ fe nf (by omega) (Or.inl ⟨heq.symm, rfl⟩)
  · refine hp _ _ _ _ fe ff ?_ (Or.inl ⟨heq.symm, rfl⟩)
    intro hmm
    have : m = m' := by omega
    subst this
    rw [hm] at hm'
    exact hkl (Option.some.inj hm')

/-- The hypotheses of `C70_add_node_exact` are met with both answers: on the path (0,0)-(2,0), (0,0)-(0,2) a node in the
middle of the first edge makes no parallel edges; on (0,0)-(4,0), (0,0)-(2,0) a node at (1,0) does. -/
example : let n := fun x y => (⟨⟨F32.lit x, F32.lit y⟩, (), ""⟩ : Node F32 Unit)
    let g : PlanarGraph F32 Unit Unit := ⟨[n 0 0, n 2 0, n 0 2], [⟨0, 1, (), ""⟩, ⟨0, 2, (), ""⟩]⟩
    let b : PlanarGraph F32 Unit Unit := ⟨[n 0 0, n 4 0, n 2 0], [⟨0, 1, (), ""⟩, ⟨0, 2, (), ""⟩]⟩
    (g.addNode ⟨F32.lit 1, F32.lit 0⟩ ()).map (fun r => (r.1.nodes.length, r.1.edges)) =
      .ok (4, [⟨0, 3, (), ""⟩, ⟨0, 2, (), ""⟩, ⟨1, 3, (), ""⟩]) ∧
    (b.addNode ⟨F32.lit 1, F32.lit 0⟩ ()).map (fun r => (r.1.nodes.length, r.1.edges)) =
      .ok (4, [⟨0, 3, (), ""⟩, ⟨0, 3, (), ""⟩, ⟨1, 3, (), ""⟩, ⟨2, 3, (), ""⟩]) := by
  decide +kernel

end Kami.Graph
