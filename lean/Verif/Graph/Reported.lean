import Verif.Graph.Remove
/-!
# What `remove_node` reports and what it leaves out

The lists returned by `remove_node` (src/graph/planar_graph.rs:412-484) and the changes of edges they do not mention: exactly
the renumbered ends of the edges in front of the first removed edge.
-/

set_option autoImplicit false

namespace Kami.Graph

open Kami
open PlanarGraph

variable {F T U : Type}

/-- Node `i` is deleted by `remove_node(id)`: it is `id` or a neighbour of `id` without another edge. -/
def Deleted (g : PlanarGraph F T U) (id i : Nat) : Prop := i = id ∨ StrayNeighbour g id i

theorem sorted_get_ge {l : List Nat} (hs : l.Pairwise (· < ·)) : ∀ k i : Nat, l[k]? = some i → k ≤ i := by
  intro k
  induction k with
  | zero => intros; omega
  | succ k ih =>
    intro i hi
    obtain ⟨h1, h2⟩ := List.getElem?_eq_some_iff.1 hi
    have h3 := ih _ (List.getElem?_eq_getElem (by omega : k < l.length))
    have h4 := List.pairwise_iff_getElem.1 hs k (k + 1) (by omega) h1 (by omega)
    omega

/-- In an increasing list the element `i` is in position `i` if and only if all smaller numbers are in the list. -/
theorem sorted_get_self {l : List Nat} (hs : l.Pairwise (· < ·)) {k i : Nat} (hk : l[k]? = some i) :
    k = i ↔ ∀ r < i, r ∈ l := by
  constructor
  · rintro rfl r hr
    obtain ⟨h1, h2⟩ := List.getElem?_eq_some_iff.1 hk
    -- walking down from position `k`
    have down : ∀ d, (hd : d ≤ k) → l[k - d]'(by omega) ≤ k - d := by
      intro d
      induction d with
      | zero => intro _; simp [h2]
      | succ d ih =>
        intro hd
        have h3 := ih (by omega)
        have h4 := List.pairwise_iff_getElem.1 hs (k - (d + 1)) (k - d) (by omega) (by omega) (by omega)
        omega
    have h5 := down (k - r) (by omega)
    have h6 := sorted_get_ge hs (k - (k - r)) _ (List.getElem?_eq_getElem (by omega))
    have h7 : l[k - (k - r)]'(by omega) = r := by omega
    rw [← h7]
    exact List.getElem_mem _
  · intro h
    -- every element up to `i` is in its own position
    have key : ∀ r ≤ i, ∀ m, l[m]? = some r → m = r := by
      intro r
      induction r using Nat.strong_induction_on with
      | _ r ih =>
        intro hr m hm
        have h1 := sorted_get_ge hs m r hm
        by_contra hc
        obtain ⟨m', hm'⟩ := List.mem_iff_getElem?.1 (h m (by omega))
        have h2 := ih m (by omega) (by omega) m' hm'
        subst h2
        rw [hm] at hm'
        cases hm'
        exact hc rfl
    exact key i (Nat.le_refl _) k hk

/-- **C65, exact form for `remove_node`** (on graphs whose edges have ends, for a node whose only edge is not a self-loop).
The reported nodes are the slots from the first deleted node on; the reported edges are the slots from the first edge at `id`
on; and the edge in a slot that is not reported is unchanged if and only if no deleted node stands in front of one of its
ends - otherwise the change of its ends goes unreported. -/
theorem C65_exact_remove_node (p : Profile) (g : PlanarGraph F T U) (hwf : WF g) (id : Nat) (hid : id < g.nodes.length)
    (hl : ∀ j e, g.edges[j]? = some e → e.src = id → e.dst = id → ¬ OnlyEdgeAt g j id)
    (g' : PlanarGraph F T U) (cn ce : List Nat) (h : g.removeNode p id = .ok (g', (cn, ce))) :
    (∀ i, i ∈ cn ↔ i < g.nodes.length ∧ ∃ r ≤ i, Deleted g id r) ∧
    (∀ j, j ∈ ce ↔ j < g.edges.length ∧ ∃ k ≤ j, ∃ e, g.edges[k]? = some e ∧ (e.src = id ∨ e.dst = id)) ∧
    (∀ j e, j ∉ ce → g.edges[j]? = some e →
      (g'.edges[j]? = some e ↔ ∀ r, Deleted g id r → e.src ≤ r ∧ e.dst ≤ r)) := by
  have hl' : ¬ LoopOnly g id := by
    rw [loopOnly_iff]; rintro ⟨j, e, h1, h2, h3, h4⟩; exact hl j e h1 h2 h3 h4
  have hdel : ∀ b, b ∈ id :: strays g id g.edges ↔ Deleted g id b := by
    intro b
    by_cases hb : b = id
    · subst hb; exact ⟨fun _ => Or.inl rfl, fun _ => List.mem_cons_self⟩
    · rw [List.mem_cons, stray_iff hwf hb]; rfl
  have hslot : ∀ b, b ∈ slotsAt g id ↔ ∃ e, g.edges[b]? = some e ∧ (e.src = id ∨ e.dst = id) := by
    intro b
    unfold slotsAt
    rw [mem_slots]
    simp only [includes_iff]
  obtain ⟨hcn, hce⟩ : (∀ i, i ∈ cn ↔ i < g.nodes.length ∧ ∃ r ≤ i, Deleted g id r) ∧
      (∀ j, j ∈ ce ↔ j < g.edges.length ∧ ∃ k ≤ j, ∃ e, g.edges[k]? = some e ∧ (e.src = id ∨ e.dst = id)) := by
    rcases removeNode_eq (p := p) hid (remap_ok hl') with ⟨_, h'⟩ | ⟨hd, m, me, m1, m2, m3, m4, h'⟩
    · rw [h] at h'; cases h'
    · rw [h] at h'
      simp only [Except.ok.injEq, Prod.mk.injEq] at h'
      obtain ⟨_, rfl, rfl⟩ := h'
      constructor
      · intro i
        rw [List.mem_range'_1]
        constructor
        · rintro ⟨a, b⟩; exact ⟨by omega, m, a, (hdel m).1 m1⟩
        · rintro ⟨a, r, b, c⟩
          have := m2 r ((hdel r).2 c)
          omega
      · intro i
        rw [List.mem_range'_1]
        constructor
        · rintro ⟨a, b⟩; exact ⟨by omega, me, a, (hslot me).1 m3⟩
        · rintro ⟨a, r, b, c⟩
          have := m4 r ((hslot r).2 c)
          omega
  refine ⟨hcn, hce, ?_⟩
  intro j e hj he
  obtain ⟨keep, ekeep, c1, c2, c3, c4, c5⟩ := C64_remove_node p g hwf id hid hl g' _ h
  have hjl := (List.getElem?_eq_some_iff.1 he).1
  have hbelow : ∀ k ≤ j, k ∈ ekeep := by
    intro k hk
    rw [c5]
    refine ⟨g.edges[k], List.getElem?_eq_getElem (by omega), ?_⟩
    by_contra hc
    exact hj ((hce j).2 ⟨hjl, k, hk, _, List.getElem?_eq_getElem (by omega), by tauto⟩)
  obtain ⟨k, hk⟩ := List.mem_iff_getElem?.1 (hbelow j (Nat.le_refl _))
  obtain rfl : k = j := (sorted_get_self c3 hk).2 fun r hr => hbelow r (by omega)
  obtain ⟨f, e', hf, he', d1, d2, d3, d4⟩ := c1.edges k k hk
  rw [he] at hf
  cases hf
  have keepOf : ∀ i, i < g.nodes.length → (∀ {q : Nat}, keep[q]? = some i → (q = i ↔ ∀ r, Deleted g id r → i ≤ r)) := by
    intro i hi q hq
    rw [sorted_get_self c2 hq]
    constructor
    · intro hr r hd
      by_contra hc
      have := (c4 r).1 (hr r (by omega))
      rcases hd with rfl | hd
      · exact this.2.1 rfl
      · exact this.2.2 hd
    · intro hr r hlt
      rw [c4]
      refine ⟨by omega, ?_, ?_⟩
      · rintro rfl; have := hr r (Or.inl rfl); omega
      · intro hd; have := hr r (Or.inr hd); omega
  obtain ⟨w1, w2⟩ := hwf e (List.mem_of_getElem? he)
  have k1 := keepOf e.src w1 d3
  have k2 := keepOf e.dst w2 d4
  rw [he']
  constructor
  · intro hq r hr
    cases hq
    exact ⟨k1.1 rfl r hr, k2.1 rfl r hr⟩
  · intro hq
    have a1 := k1.2 fun r hr => (hq r hr).1
    have a2 := k2.2 fun r hr => (hq r hr).2
    congr 1
    cases e
    cases e'
    simp only at *
    subst a1 a2 d1 d2
    rfl

/-- node 1 with its edge in slot 2: edge 0 has both ends in front and stays, edge 1 is renumbered without being reported -/
example : (⟨[⟨⟨(0 : ℚ), 0⟩, 10, ""⟩, ⟨⟨1, 0⟩, 11, ""⟩, ⟨⟨2, 0⟩, 12, ""⟩, ⟨⟨3, 0⟩, 13, ""⟩],
      [⟨0, 0, 0, ""⟩, ⟨2, 3, 1, ""⟩, ⟨1, 2, 2, ""⟩]⟩ : PlanarGraph ℚ Nat Nat).removeNode .debug 1 =
    .ok (⟨[⟨⟨0, 0⟩, 10, ""⟩, ⟨⟨2, 0⟩, 12, ""⟩, ⟨⟨3, 0⟩, 13, ""⟩],
      [⟨0, 0, 0, ""⟩, ⟨1, 2, 1, ""⟩]⟩, ([1, 2, 3], [2])) := rfl

end Kami.Graph
