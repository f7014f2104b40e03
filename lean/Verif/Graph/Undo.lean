import Verif.Graph.Exact
/-!
# C109: removing the edge that was just added

`add_edge` followed by `remove_edge` of the edge it appended.
-/

set_option autoImplicit false

namespace Kami.Graph

open Kami
open scoped Kami
open PlanarGraph

variable {F T U : Type}

/-- some edge ends at node `i` -/
def Touched (g : PlanarGraph F T U) (i : Nat) : Prop := ∃ e ∈ g.edges, e.src = i ∨ e.dst = i

variable [Scalar F] [Inhabited T]

omit [Scalar F] [Inhabited T] in
theorem append_get {g : PlanarGraph F T U} {f e : Edge U} {j : Nat} (h : (g.edges ++ [f])[j]? = some e) :
    (j < g.edges.length ∧ g.edges[j]? = some e) ∨ (j = g.edges.length ∧ e = f) := by
  rcases Nat.lt_or_ge j g.edges.length with hj | hj
  · rw [List.getElem?_append_left hj] at h
    exact Or.inl ⟨hj, h⟩
  · rw [List.getElem?_append_right hj] at h
    rcases Nat.eq_zero_or_pos (j - g.edges.length) with h0 | h0
    · rw [h0] at h
      cases h
      exact Or.inr ⟨by omega, rfl⟩
    · rw [List.getElem?_eq_none (by simp only [List.length_singleton]; omega)] at h
      cases h

omit [Scalar F] [Inhabited T] in
theorem onlyEdge_append (g : PlanarGraph F T U) (f : Edge U) (i : Nat) (hi : f.src = i ∨ f.dst = i) :
    OnlyEdgeAt (⟨g.nodes, g.edges ++ [f]⟩ : PlanarGraph F T U) g.edges.length i ↔ ¬ Touched g i := by
  constructor
  · rintro ⟨_, h⟩ ⟨e, he, hei⟩
    obtain ⟨j, hj⟩ := List.mem_iff_getElem?.1 he
    have hlt := (List.getElem?_eq_some_iff.1 hj).1
    have := h j e (by simp only; rw [List.getElem?_append_left hlt]; exact hj) hei
    omega
  · intro h
    refine ⟨⟨f, by simp, hi⟩, fun j e he hei => ?_⟩
    rcases append_get he with ⟨_, h1⟩ | ⟨h1, _⟩
    · exact absurd ⟨e, List.mem_of_getElem? h1, hei⟩ h
    · exact h1

/-- **C109, exactly.** Suppose nothing is in the way of the new edge `s`-`d` (`C85`).  Removing the edge that `add_edge`
appended panics if both ends had edges before.  Otherwise all edges of the old graph are there again, but each end without
an edge is deleted.  Missing: the graph is never restored (`C109_counterexample`). -/
theorem C109_undo_partial (p : Profile) (g : PlanarGraph F T U) (hwf : WF g) (s d : Nat) (x : U) (a b : Node F T) (hsd : s ≠ d)
    (ha : g.getVertex s = some a) (hb : g.getVertex d = some b)
    (hno : ∀ e ∈ g.edges, ¬ ((e.src = s ∧ e.dst = d) ∨ (e.src = d ∧ e.dst = s)))
    (hfree : ∀ e ∈ g.edges, ∀ c c', g.getVertex e.src = some c → g.getVertex e.dst = some c' →
      Utils.calculateLineSegmentIntersection c.position c'.position a.position b.position = none) :
    ∃ g', g.addEdge s d x = .ok (g', .ok ([], [g.edges.length])) ∧
      (Touched g s ∧ Touched g d → ∃ e, g'.removeEdge p g.edges.length = .error e) ∧
      (¬ (Touched g s ∧ Touched g d) → ∃ g'' r keep ekeep, g'.removeEdge p g.edges.length = .ok (g'', r) ∧
        Renumbered g g'' keep ekeep ∧ keep.Pairwise (· < ·) ∧
        (∀ i, i ∈ keep ↔ i < g.nodes.length ∧ ((i = s ∨ i = d) → Touched g i)) ∧
        (∀ j, j ∈ ekeep ↔ j < g.edges.length)) := by
  refine ⟨_, C85_add_edge_free g hwf s d x a b ha hb hno hfree, ?_⟩
  have hs := (List.getElem?_eq_some_iff.1 ha).1
  have hd := (List.getElem?_eq_some_iff.1 hb).1
  have hwf' : WF (⟨g.nodes, g.edges ++ [⟨s, d, x, ""⟩]⟩ : PlanarGraph F T U) := by
    intro e he
    rcases List.mem_append.1 he with he | he
    · exact hwf e he
    · rw [List.mem_singleton] at he
      subst he
      exact ⟨hs, hd⟩
  have hlast : (g.edges ++ [(⟨s, d, x, ""⟩ : Edge U)])[g.edges.length]? = some ⟨s, d, x, ""⟩ := by simp
  have hos := onlyEdge_append g (⟨s, d, x, ""⟩ : Edge U) s (Or.inl rfl)
  have hod := onlyEdge_append g (⟨s, d, x, ""⟩ : Edge U) d (Or.inr rfl)
  have hpan := C61_panics_iff_partial p (⟨g.nodes, g.edges ++ [⟨s, d, x, ""⟩]⟩ : PlanarGraph F T U) hwf' g.edges.length
  constructor
  · rintro ⟨ts, td⟩
    exact hpan.2 ⟨_, hlast, Or.inl ⟨by simp, by rw [hos]; exact not_not.2 ts, by rw [hod]; exact not_not.2 td⟩⟩
  · intro hn
    have hne : ¬ ∃ e, (⟨g.nodes, g.edges ++ [⟨s, d, x, ""⟩]⟩ : PlanarGraph F T U).removeEdge p g.edges.length = .error e := by
      rw [hpan]
      rintro ⟨e, he, hc⟩
      have he' : e = ⟨s, d, x, ""⟩ := by
        simp only at he
        rw [hlast] at he
        cases he; rfl
      subst he'
      rcases hc with ⟨_, h1, h2⟩ | ⟨_, h1, h2, _⟩
      · rw [hos, not_not] at h1
        rw [hod, not_not] at h2
        exact hn ⟨h1, h2⟩
      · simp only at h1 h2
        exact hsd (h1.trans h2.symm)
    cases hr : (⟨g.nodes, g.edges ++ [⟨s, d, x, ""⟩]⟩ : PlanarGraph F T U).removeEdge p g.edges.length with
    | error e => exact absurd ⟨e, hr⟩ hne
    | ok gr =>
      obtain ⟨g'', r⟩ := gr
      obtain ⟨keep, ekeep, c1, c2, c3, c4⟩ := C62_remove_edge_partial p _ hwf' g.edges.length _ hlast
        (fun h => absurd h hsd) g'' r hr
      have hje : ∀ j, j ∈ ekeep ↔ j < g.edges.length := by
        intro j
        rw [c4]
        simp only [List.length_append, List.length_singleton]
        omega
      refine ⟨g'', r, keep, ekeep, rfl, ⟨c1.nodup, c1.enodup, c1.node_count, c1.edge_count, c1.nodes, ?_⟩, c2, ?_, hje⟩
      · intro k j hk
        obtain ⟨e, e', h1, h2⟩ := c1.edges k j hk
        refine ⟨e, e', ?_, h2⟩
        have := (hje j).1 (List.mem_of_getElem? hk)
        simp only at h1
        rwa [List.getElem?_append_left this] at h1
      · intro i
        rw [c3]
        simp only
        refine and_congr_right fun _ => ?_
        constructor
        · intro h hi
          by_contra ht
          refine h ⟨hi.imp Eq.symm Eq.symm, ?_⟩
          exact (onlyEdge_append g (⟨s, d, x, ""⟩ : Edge U) i (hi.imp Eq.symm Eq.symm)).2 ht
        · rintro h ⟨hi, ho⟩
          exact (onlyEdge_append g (⟨s, d, x, ""⟩ : Edge U) i hi).1 ho (h (hi.imp Eq.symm Eq.symm))

/-- **C109 is false, for every graph**: whenever nothing is in the way of the new edge, removing it again does not give the
old graph back. -/
theorem C109_counterexample (p : Profile) (g : PlanarGraph F T U) (hwf : WF g) (s d : Nat) (x : U) (a b : Node F T) (hsd : s ≠ d)
    (ha : g.getVertex s = some a) (hb : g.getVertex d = some b)
    (hno : ∀ e ∈ g.edges, ¬ ((e.src = s ∧ e.dst = d) ∨ (e.src = d ∧ e.dst = s)))
    (hfree : ∀ e ∈ g.edges, ∀ c c', g.getVertex e.src = some c → g.getVertex e.dst = some c' →
      Utils.calculateLineSegmentIntersection c.position c'.position a.position b.position = none) :
    ∃ g', g.addEdge s d x = .ok (g', .ok ([], [g.edges.length])) ∧
      ∀ r, g'.removeEdge p g.edges.length ≠ .ok (g, r) := by
  obtain ⟨g', h1, h2, h3⟩ := C109_undo_partial p g hwf s d x a b hsd ha hb hno hfree
  refine ⟨g', h1, fun r hr => ?_⟩
  have hs := (List.getElem?_eq_some_iff.1 ha).1
  have hd := (List.getElem?_eq_some_iff.1 hb).1
  by_cases ht : Touched g s ∧ Touched g d
  · obtain ⟨e, he⟩ := h2 ht
    rw [he] at hr
    cases hr
  · obtain ⟨g'', r', keep, ekeep, k1, k2, _, k4, _⟩ := h3 ht
    rw [k1] at hr
    cases hr
    have hlen := k2.node_count
    have hsub : keep ⊆ List.range g.nodes.length := fun i hi => List.mem_range.2 ((k4 i).1 hi).1
    have hperm : keep.Perm (List.range g.nodes.length) :=
      (List.subperm_of_subset k2.nodup hsub).perm_of_length_le (by rw [List.length_range]; omega)
    apply ht
    exact ⟨((k4 s).1 (hperm.mem_iff.2 (List.mem_range.2 hs))).2 (Or.inl rfl),
      ((k4 d).1 (hperm.mem_iff.2 (List.mem_range.2 hd))).2 (Or.inr rfl)⟩

/-! ### instances -/

/-- the edge joining two separate edges cannot be taken back -/
example : (⟨[⟨⟨F32.lit 0, F32.lit 0⟩, (), ""⟩, ⟨⟨F32.lit 4, F32.lit 0⟩, (), ""⟩, ⟨⟨F32.lit 4, F32.lit 3⟩, (), ""⟩, ⟨⟨F32.lit 0, F32.lit 3⟩, (), ""⟩],
      [⟨0, 1, 7, ""⟩, ⟨2, 3, 8, ""⟩]⟩ : PlanarGraph F32 Unit Nat).addEdge 1 2 9 =
      .ok (⟨[⟨⟨F32.lit 0, F32.lit 0⟩, (), ""⟩, ⟨⟨F32.lit 4, F32.lit 0⟩, (), ""⟩, ⟨⟨F32.lit 4, F32.lit 3⟩, (), ""⟩, ⟨⟨F32.lit 0, F32.lit 3⟩, (), ""⟩],
        [⟨0, 1, 7, ""⟩, ⟨2, 3, 8, ""⟩, ⟨1, 2, 9, ""⟩]⟩, .ok ([], [2])) ∧
    (⟨[⟨⟨F32.lit 0, F32.lit 0⟩, (), ""⟩, ⟨⟨F32.lit 4, F32.lit 0⟩, (), ""⟩, ⟨⟨F32.lit 4, F32.lit 3⟩, (), ""⟩, ⟨⟨F32.lit 0, F32.lit 3⟩, (), ""⟩],
      [⟨0, 1, 7, ""⟩, ⟨2, 3, 8, ""⟩, ⟨1, 2, 9, ""⟩]⟩ : PlanarGraph F32 Unit Nat).removeEdge .release 2 = .error .indexOutOfBounds :=
  ⟨by decide +kernel, by decide +kernel⟩

/-- taking back an edge to a lone node takes the node as well -/
example : (⟨[⟨⟨F32.lit 0, F32.lit 0⟩, 1, ""⟩, ⟨⟨F32.lit 4, F32.lit 0⟩, 2, ""⟩, ⟨⟨F32.lit 4, F32.lit 3⟩, 3, ""⟩], [⟨0, 2, 7, ""⟩]⟩ : PlanarGraph F32 Nat Nat).addEdge 1 2 9 =
      .ok (⟨[⟨⟨F32.lit 0, F32.lit 0⟩, 1, ""⟩, ⟨⟨F32.lit 4, F32.lit 0⟩, 2, ""⟩, ⟨⟨F32.lit 4, F32.lit 3⟩, 3, ""⟩], [⟨0, 2, 7, ""⟩, ⟨1, 2, 9, ""⟩]⟩, .ok ([], [1])) ∧
    (⟨[⟨⟨F32.lit 0, F32.lit 0⟩, 1, ""⟩, ⟨⟨F32.lit 4, F32.lit 0⟩, 2, ""⟩, ⟨⟨F32.lit 4, F32.lit 3⟩, 3, ""⟩], [⟨0, 2, 7, ""⟩, ⟨1, 2, 9, ""⟩]⟩ : PlanarGraph F32 Nat Nat).removeEdge
      .release 1 = .ok (⟨[⟨⟨F32.lit 0, F32.lit 0⟩, 1, ""⟩, ⟨⟨F32.lit 4, F32.lit 3⟩, 3, ""⟩], [⟨0, 1, 7, ""⟩]⟩, ([1, 2], [1])) :=
  ⟨by decide +kernel, by decide +kernel⟩

end Kami.Graph
