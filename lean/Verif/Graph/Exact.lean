import Verif.Graph.Remove
import Verif.Graph.Queries
/-!
# Exact effects

`add_node` when it creates a node, `add_edge` when nothing is in the way, and the index lists reported by removal.
-/

set_option autoImplicit false

namespace Kami.Graph

open Kami
open scoped Kami
open PlanarGraph

variable {F T U : Type}

section
variable [Scalar F]

/-- the library's on-segment test for `pos` and the edge from node `i` to node `j` -/
def Hits (g : PlanarGraph F T U) (pos : Vec2 F) (i j : Nat) : Prop :=
  ∃ a b, g.getVertex i = some a ∧ g.getVertex j = some b ∧ Utils.isOnLineSegment a.position b.position pos false = true

theorem hits_iff {g : PlanarGraph F T U} (hwf : WF g) (pos : Vec2 F) (data : T) {e : Edge U} (he : e ∈ g.edges) :
    onTest (pushNode g pos data).nodes g.nodes.length e = true ↔ Hits g pos e.src e.dst := by
  obtain ⟨h1, h2⟩ := hwf e he
  unfold onTest Hits getVertex
  simp only [pushNode]
  rw [List.getElem?_append_left h1, List.getElem?_append_left h2, List.getElem?_append_right le_rfl,
    List.getElem?_eq_getElem h1, List.getElem?_eq_getElem h2]
  simp

/-- **C84.** When `add_node` creates a node, the result is exactly this: the node is appended; an edge that fails the
on-segment test for the new position stays as it is in its slot; an edge `a → b` that passes the test is replaced in its slot by
`a → new` and `b → new` is appended, with the same data; the appended halves are in the order of the slots of their edges,
and there are no other edges.  The reported edges are the slots of the split edges in order, followed by the new slots. -/
theorem C84_add_node (g : PlanarGraph F T U) (hwf : WF g) (pos : Vec2 F) (data : T) (g' : PlanarGraph F T U) (i : Nat)
    (changed : List Nat) (h : g.addNode pos data = .ok (g', (i, changed))) (hne : g' ≠ g) :
    i = g.nodes.length ∧ g'.nodes = g.nodes ++ [⟨pos, data, ""⟩] ∧
    ∃ slots : List Nat, slots.Pairwise (· < ·) ∧
      (∀ k, k ∈ slots ↔ ∃ e, g.edges[k]? = some e ∧ Hits g pos e.src e.dst) ∧
      (∀ (k : Nat) (e : Edge U), g.edges[k]? = some e → k ∉ slots → g'.edges[k]? = some e) ∧
      (∀ (m k : Nat) (e : Edge U), slots[m]? = some k → g.edges[k]? = some e →
        g'.edges[k]? = some ⟨e.src, i, e.data, ""⟩ ∧ g'.edges[g.edges.length + m]? = some ⟨e.dst, i, e.data, ""⟩) ∧
      g'.edges.length = g.edges.length + slots.length ∧
      changed = slots ++ List.range' g.edges.length slots.length := by
  rw [addNode_ok g hwf] at h
  unfold addNodeG at h
  split at h
  · cases h; exact absurd rfl hne
  · simp only [Except.ok.injEq, Prod.mk.injEq] at h
    obtain ⟨rfl, rfl, rfl⟩ := h
    refine ⟨rfl, rfl, onSlots (pushNode g pos data) g.nodes.length, ?_, ?_, ?_, ?_, ?_, ?_⟩
    · unfold onSlots
      have h1 : ((pushNode g pos data).edges.zipIdx.map Prod.snd).Pairwise (· < ·) := by
        rw [List.zipIdx_map_snd]; exact List.pairwise_lt_range'
      exact h1.sublist (List.filter_sublist.map _)
    · intro k
      rw [mem_onSlots]
      constructor
      · rintro ⟨e, he, ht⟩
        exact ⟨e, he, (hits_iff hwf pos data (List.mem_of_getElem? he)).1 ht⟩
      · rintro ⟨e, he, ht⟩
        exact ⟨e, he, (hits_iff hwf pos data (List.mem_of_getElem? he)).2 ht⟩
    · intro k e he hk
      rw [splitAt_get_old (g := pushNode g pos data) he, if_neg]
      intro ht
      exact hk (mem_onSlots.2 ⟨e, he, ht⟩)
    · intro m k e hm he
      obtain ⟨e', he', ht⟩ := mem_onSlots.1 (List.mem_of_getElem? hm)
      have : e' = e := Option.some.inj (he'.symm.trans he)
      subst this
      constructor
      · rw [splitAt_get_old (g := pushNode g pos data) he, if_pos ht]; rfl
      · have := splitAt_get_new (pushNode g pos data) g.nodes.length m
        rw [hm] at this
        simp only [pushNode] at this ⊢
        rw [this]
        simp [he, farHalf, defaultLabel]
    · rw [splitAt_length]; rfl
    · rw [splitChanged_eq]; rfl

/-- **C85.** If the new segment meets no edge (the library's segment intersection finds nothing), `add_edge` appends the edge,
reports its slot and changes nothing else. -/
theorem C85_add_edge_free [Inhabited T] (g : PlanarGraph F T U) (hwf : WF g) (s d : Nat) (x : U) (a b : Node F T)
    (ha : g.getVertex s = some a) (hb : g.getVertex d = some b) (hno : ∀ e ∈ g.edges, ¬ ((e.src = s ∧ e.dst = d) ∨ (e.src = d ∧ e.dst = s)))
    (hfree : ∀ e ∈ g.edges, ∀ c c', g.getVertex e.src = some c → g.getVertex e.dst = some c' →
      Utils.calculateLineSegmentIntersection c.position c'.position a.position b.position = none) :
    g.addEdge s d x = .ok (⟨g.nodes, g.edges ++ [⟨s, d, x, ""⟩]⟩, .ok ([], [g.edges.length])) := by
  have hs := (List.getElem?_eq_some_iff.1 ha).1
  have hd := (List.getElem?_eq_some_iff.1 hb).1
  have hno' : g.hasEdgeBetweenNodes s d = false := by
    rw [← Bool.not_eq_true, hasEdge_iff]
    rintro ⟨e, he, hc⟩
    exact hno e he hc
  have hm : meetPoints g ⟨s, d, x, defaultLabel⟩ = [] := by
    unfold meetPoints
    rw [List.filterMap_eq_nil_iff]
    intro e he
    obtain ⟨h1, h2⟩ := hwf e he
    unfold getVertex at ha hb
    unfold edgeMeets
    rw [List.getElem?_eq_getElem h1, List.getElem?_eq_getElem h2]
    simp only [ha, hb]
    exact hfree e he _ _ (List.getElem?_eq_getElem h1) (List.getElem?_eq_getElem h2)
  rcases addEdge_ok g hwf s d x with ⟨h', _⟩ | ⟨_, h', _⟩ | ⟨_, _, _, g1, cn, ce, hi, h'⟩
  · rw [hno'] at h'; cases h'
  · exact absurd ⟨hs, hd⟩ h'
  · rw [hm] at hi
    have : Utils.uniquePointsAmong ([] : List (Vec2 F)) = [] := by
      simp [Utils.uniquePointsAmong, Utils.uniqueLoop]
    rw [this] at hi
    cases hi
    rw [h']
    simp [pushEdge, defaultLabel]

end

/-! ### reported indices of removal -/

/-- **C86 (remove_node).** On success the reported lists are exactly the old indices from the smallest removed one on: nodes from
the smallest of `id` and the removed neighbours, edges from the first slot that touched `id`.  For an index that is no node,
nothing is reported and nothing changes. -/
theorem C86_remove_node (p : Profile) (g : PlanarGraph F T U) (hwf : WF g) (id : Nat) (g' : PlanarGraph F T U)
    (cn ce : List Nat) (h : g.removeNode p id = .ok (g', (cn, ce))) :
    (g.nodes.length ≤ id ∧ g' = g ∧ cn = [] ∧ ce = []) ∨
    ∃ m me, (m = id ∨ StrayNeighbour g id m) ∧ m ≤ id ∧ (∀ i, StrayNeighbour g id i → m ≤ i) ∧
      (∃ e, g.edges[me]? = some e ∧ (e.src = id ∨ e.dst = id)) ∧
      (∀ (k : Nat) e, g.edges[k]? = some e → (e.src = id ∨ e.dst = id) → me ≤ k) ∧
      cn = List.range' m (g.nodes.length - m) ∧ ce = List.range' me (g.edges.length - me) := by
  by_cases hid : id < g.nodes.length
  swap
  · rw [removeNode_none (by omega)] at h
    cases h
    exact Or.inl ⟨by omega, rfl, rfl, rfl⟩
  right
  have hr : ∃ remapped, remapLoop p (id :: strays g id g.edges) g.nodes.length 0 = .ok remapped := by
    by_cases hl : LoopOnly g id
    · by_cases hn : id = 0 ∧ 2 ≤ g.nodes.length
      · cases p with
        | debug => rw [remap_loop_err hl hn.1 hn.2] at h; cases h
        | release => exact remapLoop_release _ _ _
      · exact ⟨_, remap_loop hid hl hn⟩
    · exact ⟨_, remap_ok hl⟩
  obtain ⟨remapped, hr⟩ := hr
  rcases removeNode_eq hid hr with ⟨_, h'⟩ | ⟨hd, m, me, m1, m2, m3, m4, h'⟩
  · rw [h] at h'; cases h'
  · rw [h] at h'
    simp only [Except.ok.injEq, Prod.mk.injEq] at h'
    obtain ⟨_, rfl, rfl⟩ := h'
    refine ⟨m, me, ?_, m2 id (List.mem_cons_self ..), ?_, ?_, ?_, rfl, rfl⟩
    · by_cases hm : m = id
      · exact Or.inl hm
      · exact Or.inr ((stray_iff hwf hm).1 ((List.mem_cons.1 m1).resolve_left hm))
    · intro i hi
      exact m2 i (List.mem_cons_of_mem _ ((stray_iff hwf hi.1).2 hi))
    · obtain ⟨e, h4, h5⟩ := mem_slots.1 m3
      exact ⟨e, h4, includes_iff.1 h5⟩
    · intro k e hk hi
      exact m4 k (mem_slots.2 ⟨e, hk, includes_iff.2 hi⟩)

/-- **C86 (remove_edge).** When both ends of the edge have other edges and the call returns, the last edge moves into the slot;
the two slots are reported and no node.  Otherwise the call is the removal of an end that has no other edge (of `src` if both
have none). -/
theorem C86_remove_edge (p : Profile) (g : PlanarGraph F T U) (hwf : WF g) (id : Nat) (e : Edge U)
    (he : g.edges[id]? = some e) :
    (OnlyEdgeAt g id e.src → g.removeEdge p id = g.removeNode p e.src) ∧
    (¬ OnlyEdgeAt g id e.src → OnlyEdgeAt g id e.dst → g.removeEdge p id = g.removeNode p e.dst) ∧
    (¬ OnlyEdgeAt g id e.src → ¬ OnlyEdgeAt g id e.dst → ∀ g' cn ce, g.removeEdge p id = .ok (g', (cn, ce)) →
      g'.nodes = g.nodes ∧ g'.edges.length + 1 = g.edges.length ∧ cn = [] ∧ ce = [id, g.edges.length - 1] ∧
      ∀ k, k < g'.edges.length → g'.edges[k]? = if k = id then g.edges[g.edges.length - 1]? else g.edges[k]?) := by
  have hs := onlyEdge_of_deg he (Or.inl rfl)
  have hd := onlyEdge_of_deg he (Or.inr rfl)
  rw [removeEdge_eq hwf he (ne_nil_of_get he), ← hs, ← hd]
  refine ⟨fun h => if_pos h, fun h1 h2 => by rw [if_neg h1, if_pos h2], ?_⟩
  intro h1 h2 g' cn ce h
  rw [if_neg h1, if_neg h2] at h
  split at h
  · rename_i hlast
    have hne := ne_nil_of_get he
    simp only [Except.ok.injEq, Prod.mk.injEq] at h
    obtain ⟨rfl, rfl, rfl⟩ := h
    refine ⟨rfl, by simp; omega, rfl, rfl, ?_⟩
    intro k hk
    simp only [List.length_set, List.length_dropLast] at hk
    simp only
    by_cases hki : k = id
    · subst hki
      rw [if_pos rfl, List.getElem?_set_self (by simp; omega), List.getLast_eq_getElem hne,
        List.getElem?_eq_getElem (by omega)]
    · rw [if_neg hki, List.getElem?_set_ne (Ne.symm hki), List.getElem?_dropLast, if_pos (by omega)]
  · cases h

/-! ### instances -/

/-- a new node on two of three edges -/
example : (⟨[⟨⟨F32.lit 0, F32.lit 0⟩, (), ""⟩, ⟨⟨F32.lit 4, F32.lit 0⟩, (), ""⟩, ⟨⟨F32.lit 2, F32.lit 2⟩, (), ""⟩,
      ⟨⟨F32.lit 2, F32.lit (-2)⟩, (), ""⟩], [⟨0, 1, 7, "a"⟩, ⟨0, 2, 8, "b"⟩, ⟨3, 2, 9, "c"⟩]⟩ :
      PlanarGraph F32 Unit Nat).addNode ⟨F32.lit 2, F32.lit 0⟩ () =
    .ok (⟨[⟨⟨F32.lit 0, F32.lit 0⟩, (), ""⟩, ⟨⟨F32.lit 4, F32.lit 0⟩, (), ""⟩, ⟨⟨F32.lit 2, F32.lit 2⟩, (), ""⟩,
      ⟨⟨F32.lit 2, F32.lit (-2)⟩, (), ""⟩, ⟨⟨F32.lit 2, F32.lit 0⟩, (), ""⟩],
      [⟨0, 4, 7, ""⟩, ⟨0, 2, 8, "b"⟩, ⟨3, 4, 9, ""⟩, ⟨1, 4, 7, ""⟩, ⟨2, 4, 9, ""⟩]⟩, (4, [0, 2, 3, 4])) := by
  decide +kernel

/-- two edges that do not meet -/
example : (⟨[⟨⟨F32.lit 0, F32.lit 0⟩, (), ""⟩, ⟨⟨F32.lit 4, F32.lit 0⟩, (), ""⟩, ⟨⟨F32.lit 0, F32.lit 1⟩, (), ""⟩,
      ⟨⟨F32.lit 4, F32.lit 2⟩, (), ""⟩], [⟨0, 1, 7, ""⟩]⟩ : PlanarGraph F32 Unit Nat).addEdge 2 3 8 =
    .ok (⟨[⟨⟨F32.lit 0, F32.lit 0⟩, (), ""⟩, ⟨⟨F32.lit 4, F32.lit 0⟩, (), ""⟩, ⟨⟨F32.lit 0, F32.lit 1⟩, (), ""⟩,
      ⟨⟨F32.lit 4, F32.lit 2⟩, (), ""⟩], [⟨0, 1, 7, ""⟩, ⟨2, 3, 8, ""⟩]⟩, .ok ([], [1])) := by
  decide +kernel

/-- removing node 1 of a path removes its neighbour 2 as well; nodes from 1 and edges from 0 are reported -/
example : (⟨[⟨⟨F32.lit 0, F32.lit 0⟩, (), ""⟩, ⟨⟨F32.lit 4, F32.lit 0⟩, (), ""⟩, ⟨⟨F32.lit 2, F32.lit 2⟩, (), ""⟩,
      ⟨⟨F32.lit 2, F32.lit (-2)⟩, (), ""⟩], [⟨1, 0, 7, "a"⟩, ⟨0, 3, 8, "b"⟩, ⟨1, 2, 9, "c"⟩]⟩ :
      PlanarGraph F32 Unit Nat).removeNode .debug 1 =
    .ok (⟨[⟨⟨F32.lit 0, F32.lit 0⟩, (), ""⟩, ⟨⟨F32.lit 2, F32.lit (-2)⟩, (), ""⟩], [⟨0, 1, 8, "b"⟩]⟩,
      ([1, 2, 3], [0, 1, 2])) := by
  decide +kernel

/-- removing an edge of a triangle: the last edge moves into the slot -/
example : (⟨[⟨⟨F32.lit 0, F32.lit 0⟩, (), ""⟩, ⟨⟨F32.lit 4, F32.lit 0⟩, (), ""⟩, ⟨⟨F32.lit 2, F32.lit 2⟩, (), ""⟩],
      [⟨0, 1, 7, "a"⟩, ⟨1, 2, 8, "b"⟩, ⟨2, 0, 9, "c"⟩]⟩ : PlanarGraph F32 Unit Nat).removeEdge .debug 0 =
    .ok (⟨[⟨⟨F32.lit 0, F32.lit 0⟩, (), ""⟩, ⟨⟨F32.lit 4, F32.lit 0⟩, (), ""⟩, ⟨⟨F32.lit 2, F32.lit 2⟩, (), ""⟩],
      [⟨2, 0, 9, "c"⟩, ⟨1, 2, 8, "b"⟩]⟩, ([], [0, 2])) := by
  decide +kernel

end Kami.Graph
