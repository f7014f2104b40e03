import Verif.Graph.LoopExact
/-!
# What `remove_node` and `remove_edge` report and what they leave out

The lists returned by `remove_edge` and `remove_node` (src/graph/planar_graph.rs:369-408, 412-484) and the changes of edges they do
not mention, also for a node whose only edge is a self-loop, where the new indices are wrong (`C62_counterexample`).
-/

set_option autoImplicit false

namespace Kami.Graph

open Kami
open PlanarGraph

variable {F T U : Type}

/-- **C65, exact form for `remove_node` of any node** (on graphs whose edges have ends).  As in `C65_exact_remove_node`, without
the condition that the only edge is no self-loop: there the ends behind the node get wrong numbers, and those that are not
reported are the same ones. -/
theorem C65_exact_remove_any_node (p : Profile) (g : PlanarGraph F T U) (hwf : WF g) (id : Nat) (hid : id < g.nodes.length)
    (g' : PlanarGraph F T U) (cn ce : List Nat) (h : g.removeNode p id = .ok (g', (cn, ce))) :
    (∀ i, i ∈ cn ↔ i < g.nodes.length ∧ ∃ r ≤ i, Deleted g id r) ∧
    (∀ j, j ∈ ce ↔ j < g.edges.length ∧ ∃ k ≤ j, ∃ e, g.edges[k]? = some e ∧ (e.src = id ∨ e.dst = id)) ∧
    (∀ j e, j ∉ ce → g.edges[j]? = some e →
      (g'.edges[j]? = some e ↔ ∀ r, Deleted g id r → e.src ≤ r ∧ e.dst ≤ r)) := by
  by_cases hl : LoopOnly g id
  swap
  · refine C65_exact_remove_node p g hwf id hid ?_ g' cn ce h
    intro j e h1 h2 h3 h4
    exact hl ((loopOnly_iff g id).2 ⟨j, e, h1, h2, h3, h4⟩)
  obtain ⟨j0, e0, he0, hs0, hd0, hon⟩ := (loopOnly_iff g id).1 hl
  have hmk := loopOnly_marked hid hl
  have hr : ∃ remapped, remapLoop p (id :: strays g id g.edges) g.nodes.length 0 = .ok remapped := by
    by_cases hc : id = 0 ∧ 2 ≤ g.nodes.length
    · cases p with
      | debug => rw [remap_loop_err hl hc.1 hc.2] at h; cases h
      | release => exact remapLoop_release _ _ _
    · exact ⟨_, remap_loop hid hl hc⟩
  obtain ⟨l, hr⟩ := hr
  have hdel : ∀ r, Deleted g id r ↔ r = id := by
    intro r
    constructor
    · rintro (rfl | ⟨n1, j, f, hf, hjoin, _⟩)
      · rfl
      · have : j = j0 := hon.2 j f hf (by tauto)
        subst this
        rw [he0] at hf; cases hf
        rcases hjoin with ⟨a, b⟩ | ⟨a, b⟩ <;> omega
    · exact Or.inl
  have hslot : ∀ k, k ∈ slotsAt g id ↔ ∃ e, g.edges[k]? = some e ∧ (e.src = id ∨ e.dst = id) := by
    intro b
    unfold slotsAt
    rw [mem_slots]
    simp only [includes_iff]
  have hj0 : ∀ k, k ∈ slotsAt g id ↔ k = j0 := by
    intro k
    rw [hslot]
    constructor
    · rintro ⟨f, h1, h2⟩; exact hon.2 k f h1 h2
    · rintro rfl; exact ⟨e0, he0, Or.inl hs0⟩
  have hjl0 := (List.getElem?_eq_some_iff.1 he0).1
  rcases removeNode_eq (p := p) hid hr with ⟨_, h'⟩ | ⟨hd, m, me, m1, m2, m3, m4, h'⟩
  · rw [h] at h'; cases h'
  · rw [h] at h'
    simp only [Except.ok.injEq, Prod.mk.injEq] at h'
    obtain ⟨rfl, rfl, rfl⟩ := h'
    rw [hmk] at m1 m2 hr ⊢
    have hme := (hj0 me).1 m3
    subst hme
    have hm : m = id := by simpa using m1
    subst hm
    refine ⟨fun i => ?_, fun j => ?_, fun j f hj hf => ?_⟩
    · simp only [hdel]
      rw [List.mem_range'_1]
      constructor
      · rintro ⟨a, b⟩; exact ⟨by omega, m, a, rfl⟩
      · rintro ⟨a, r, b, rfl⟩; omega
    · simp only [← hslot, hj0]
      rw [List.mem_range'_1]
      constructor
      · rintro ⟨a, b⟩; exact ⟨by omega, me, a, rfl⟩
      · rintro ⟨a, r, b, rfl⟩; omega
    · have hjl := (List.getElem?_eq_some_iff.1 hf).1
      rw [List.mem_range'_1] at hj
      have hjm : j < me := by omega
      have hne : f.src ≠ m ∧ f.dst ≠ m :=
        ⟨fun hc => by have := hon.2 j f hf (Or.inl hc); omega, fun hc => by have := hon.2 j f hf (Or.inr hc); omega⟩
      obtain ⟨w1, w2⟩ := hwf f (List.mem_of_getElem? hf)
      have key : ∀ i, i < g.nodes.length → i ≠ m → (remapIndex l i = i ↔ i ≤ m) := by
        intro i hi hne
        rcases loop_remap hr hi hne with ⟨a1, a2⟩ | ⟨a1, a3, a2⟩ | ⟨a1, a3, a2⟩
        · rw [a2]; omega
        · rw [a2]; omega
        · rw [a2]; unfold usizeSize; omega
      have hget : (afterRemoval g [m, m] (slotsAt g m) l).edges[j]? =
          some { f with src := remapIndex l f.src, dst := remapIndex l f.dst } := by
        simp only [afterRemoval, List.getElem?_map, eraseMarked_get0]
        rw [survivors_get_below m4 hjm hjl, Option.bind_some, hf]
        rfl
      rw [hget]
      simp only [hdel, forall_eq]
      have k1 := key f.src w1 hne.1
      have k2 := key f.dst w2 hne.2
      rw [← k1, ← k2]
      constructor
      · intro hq
        have hq' := Option.some.inj hq
        exact ⟨congrArg Edge.src hq', congrArg Edge.dst hq'⟩
      · rintro ⟨a, b⟩
        rw [a, b]

/-- node 1 with a self-loop in slot 1 as its only edge: the edge 2-3 in slot 0 becomes 0-1 and is not reported -/
example : (⟨[⟨⟨(0 : ℚ), 0⟩, 10, ""⟩, ⟨⟨1, 0⟩, 11, ""⟩, ⟨⟨2, 0⟩, 12, ""⟩, ⟨⟨3, 0⟩, 13, ""⟩],
      [⟨2, 3, 0, ""⟩, ⟨1, 1, 1, ""⟩]⟩ : PlanarGraph ℚ Nat Nat).removeNode .debug 1 =
    .ok (⟨[⟨⟨0, 0⟩, 10, ""⟩, ⟨⟨2, 0⟩, 12, ""⟩, ⟨⟨3, 0⟩, 13, ""⟩], [⟨0, 1, 0, ""⟩]⟩, ([1, 2, 3], [1])) := rfl

/-- Node `r` is an end of the edge `e` in slot `id` that no other edge touches. -/
def LooseEnd (g : PlanarGraph F T U) (id : Nat) (e : Edge U) (r : Nat) : Prop :=
  (e.src = r ∨ e.dst = r) ∧ OnlyEdgeAt g id r

/-- **C65, exact form for `remove_edge`** (on graphs whose edges have ends).  The reported nodes are the slots from the first loose end of the edge on.  The reported edges are all slots from the
removed one on if the edge has a loose end, otherwise the removed slot and the last one.  The edge in a slot that is not
reported is unchanged if and only if no loose end stands in front of one of its ends - otherwise the change of its ends goes
unreported.  So nothing goes unreported if both ends of the removed edge have other edges. -/
theorem C65_exact_remove_edge (p : Profile) (g : PlanarGraph F T U) (hwf : WF g) (id : Nat) (e : Edge U)
    (he : g.edges[id]? = some e)
    (g' : PlanarGraph F T U) (cn ce : List Nat) (h : g.removeEdge p id = .ok (g', (cn, ce))) :
    (∀ i, i ∈ cn ↔ i < g.nodes.length ∧ ∃ r ≤ i, LooseEnd g id e r) ∧
    (∀ j, j ∈ ce ↔ j < g.edges.length ∧ id ≤ j ∧ ((∃ r, LooseEnd g id e r) ∨ j = id ∨ j + 1 = g.edges.length)) ∧
    (∀ j f, j ∉ ce → g.edges[j]? = some f →
      (g'.edges[j]? = some f ↔ ∀ r, LooseEnd g id e r → f.src ≤ r ∧ f.dst ≤ r)) := by
  have hm := List.mem_of_getElem? he
  have hidl := (List.getElem?_eq_some_iff.1 he).1
  obtain ⟨h1, h2⟩ := hwf e hm
  rw [removeEdge_eq hwf he (ne_nil_of_get he)] at h
  have main : ∀ a b, ((e.src = a ∧ e.dst = b) ∨ (e.src = b ∧ e.dst = a)) → a < g.nodes.length → deg g a = 1 →
      g.removeNode p a = .ok (g', (cn, ce)) →
      (∀ i, i ∈ cn ↔ i < g.nodes.length ∧ ∃ r ≤ i, LooseEnd g id e r) ∧
      (∀ j, j ∈ ce ↔ j < g.edges.length ∧ id ≤ j ∧ ((∃ r, LooseEnd g id e r) ∨ j = id ∨ j + 1 = g.edges.length)) ∧
      (∀ j f, j ∉ ce → g.edges[j]? = some f →
        (g'.edges[j]? = some f ↔ ∀ r, LooseEnd g id e r → f.src ≤ r ∧ f.dst ≤ r)) := by
    intro a b hab ha hd hr
    have hon : OnlyEdgeAt g id a := (onlyEdge_of_deg he (by tauto)).1 hd
    obtain ⟨c1, c2, c3⟩ := C65_exact_remove_any_node p g hwf a ha g' cn ce hr
    have hdel : ∀ r, Deleted g a r ↔ LooseEnd g id e r := by
      intro r
      constructor
      · rintro (rfl | ⟨n1, j, f, hf, hjoin, hj⟩)
        · exact ⟨by tauto, hon⟩
        · have : j = id := hon.2 j f hf (by tauto)
          subst this
          rw [he] at hf; cases hf
          exact ⟨by tauto, hj⟩
      · rintro ⟨hor, hr⟩
        by_cases hra : r = a
        · exact Or.inl hra
        · exact Or.inr ⟨hra, id, e, he, by rcases hab with ⟨x, y⟩ | ⟨x, y⟩ <;> omega, hr⟩
    have hslot : ∀ k, (∃ f, g.edges[k]? = some f ∧ (f.src = a ∨ f.dst = a)) ↔ k = id := by
      intro k
      constructor
      · rintro ⟨f, hf, hfa⟩; exact hon.2 k f hf hfa
      · rintro rfl; exact ⟨e, he, by tauto⟩
    simp only [hdel] at c1 c3
    simp only [hslot] at c2
    refine ⟨c1, fun j => ?_, c3⟩
    rw [c2]
    constructor
    · rintro ⟨a1, k, a2, rfl⟩; exact ⟨a1, a2, Or.inl ⟨a, (hdel a).1 (Or.inl rfl)⟩⟩
    · rintro ⟨a1, a2, _⟩; exact ⟨a1, id, a2, rfl⟩
  split at h
  · rename_i hd; exact main e.src e.dst (Or.inl ⟨rfl, rfl⟩) h1 hd h
  · rename_i hd
    split at h
    · rename_i hd2; exact main e.dst e.src (Or.inr ⟨rfl, rfl⟩) h2 hd2 h
    · rename_i hd2
      have hno : ∀ r, ¬ LooseEnd g id e r := by
        rintro r ⟨hor, hon⟩
        have := (onlyEdge_of_deg he hor).2 hon
        rcases hor with rfl | rfl
        · exact hd this
        · exact hd2 this
      split at h
      · rename_i hlast
        simp only [Except.ok.injEq, Prod.mk.injEq] at h
        obtain ⟨rfl, rfl, rfl⟩ := h
        have hne : g.edges ≠ [] := ne_nil_of_get he
        refine ⟨fun i => ?_, fun j => ?_, fun j f hj hf => ?_⟩
        · simp [hno]
        · simp only [hno, exists_const, false_or, List.mem_cons, List.not_mem_nil, or_false]
          omega
        · have hjl := (List.getElem?_eq_some_iff.1 hf).1
          simp only [List.mem_cons, List.not_mem_nil, or_false, not_or] at hj
          simp only
          rw [swap_get hne hlast, List.getElem?_set_ne (by omega), List.getElem?_range (by omega), Option.bind_some, hf]
          exact ⟨fun _ r hr => absurd hr (hno r), fun _ => rfl⟩
      · cases h

/-- edge 1 ends at the pendant node 1: the edge 2-3 in slot 0 is renumbered without being reported -/
example : (⟨[⟨⟨(0 : ℚ), 0⟩, 10, ""⟩, ⟨⟨1, 0⟩, 11, ""⟩, ⟨⟨2, 0⟩, 12, ""⟩, ⟨⟨3, 0⟩, 13, ""⟩],
      [⟨2, 3, 0, ""⟩, ⟨1, 2, 1, ""⟩, ⟨3, 0, 2, ""⟩]⟩ : PlanarGraph ℚ Nat Nat).removeEdge .debug 1 =
    .ok (⟨[⟨⟨0, 0⟩, 10, ""⟩, ⟨⟨2, 0⟩, 12, ""⟩, ⟨⟨3, 0⟩, 13, ""⟩],
      [⟨1, 2, 0, ""⟩, ⟨2, 0, 2, ""⟩]⟩, ([1, 2, 3], [1, 2])) := rfl

end Kami.Graph
