import Verif.Graph.RemoveBasic
/-!
# What removal does

`remove_node` and `remove_edge` (src/graph/planar_graph.rs:369-515): when they panic, and what the graph is afterwards.
The specification (`Renumbered`, `StrayNeighbour`, `OnlyEdgeAt`) speaks about slots of the node and edge arrays only.
-/

set_option autoImplicit false

namespace Kami.Graph

open Kami
open PlanarGraph

variable {F T U : Type}

/-! ## Specification -/

/-- The edge in slot `j` is the only edge touching node `i`. -/
def OnlyEdgeAt (g : PlanarGraph F T U) (j i : Nat) : Prop :=
  (∃ e, g.edges[j]? = some e ∧ (e.src = i ∨ e.dst = i)) ∧
  ∀ j' e', g.edges[j']? = some e' → (e'.src = i ∨ e'.dst = i) → j' = j

/-- `i` is a neighbour of `id` whose only edge is the one to `id`. -/
def StrayNeighbour (g : PlanarGraph F T U) (id i : Nat) : Prop :=
  i ≠ id ∧ ∃ j e, g.edges[j]? = some e ∧ ((e.src = id ∧ e.dst = i) ∨ (e.src = i ∧ e.dst = id)) ∧ OnlyEdgeAt g j i

/-- `g'` consists of the nodes of `g` in the slots `keep` and of the edges of `g` in the slots `ekeep`, in these orders;
every surviving edge carries the same data and joins the same nodes under their new numbers. -/
structure Renumbered (g g' : PlanarGraph F T U) (keep ekeep : List Nat) : Prop where
  nodup : keep.Nodup
  enodup : ekeep.Nodup
  node_count : g'.nodes.length = keep.length
  edge_count : g'.edges.length = ekeep.length
  nodes : ∀ k i : Nat, keep[k]? = some i → i < g.nodes.length ∧ g'.nodes[k]? = g.nodes[i]?
  edges : ∀ k j : Nat, ekeep[k]? = some j → ∃ e e', g.edges[j]? = some e ∧ g'.edges[k]? = some e' ∧
    e'.data = e.data ∧ e'.label = e.label ∧ keep[e'.src]? = some e.src ∧ keep[e'.dst]? = some e.dst

/-! ## Degrees and slots -/

theorem slots_length (es : List (Edge U)) (i : Nat) :
    (((es.zipIdx 0).filter fun x => x.1.includes i).map Prod.snd).length = (es.filter fun e => e.includes i).length := by
  have h : ((es.zipIdx 0).filter fun x => x.1.includes i).map Prod.fst = es.filter fun e => e.includes i := by
    rw [← List.zipIdx_map_fst 0 es, List.filter_map]
    simp [Function.comp_def]
  rw [← h]; simp

theorem slots_nodup (es : List (Edge U)) (i : Nat) : (((es.zipIdx 0).filter fun x => x.1.includes i).map Prod.snd).Nodup := by
  have h1 : ((es.zipIdx 0).map Prod.snd).Nodup := by
    rw [List.zipIdx_map_snd]; exact List.nodup_range'
  exact h1.sublist (List.filter_sublist.map _)

theorem deg_eq_one_iff (g : PlanarGraph F T U) (i : Nat) : deg g i = 1 ↔ ∃ j, OnlyEdgeAt g j i := by
  unfold deg
  rw [← slots_length]
  constructor
  · intro h
    obtain ⟨j, hj⟩ := List.length_eq_one_iff.1 h
    refine ⟨j, ?_, ?_⟩
    · obtain ⟨e, h1, h2⟩ := mem_slots.1 (show j ∈ _ by rw [hj]; simp)
      exact ⟨e, h1, includes_iff.1 h2⟩
    · intro j' e' h1 h2
      have := mem_slots.2 ⟨e', h1, includes_iff.2 h2⟩
      rw [hj] at this
      exact List.mem_singleton.1 this
  · rintro ⟨j, ⟨e, h1, h2⟩, h3⟩
    have hm : j ∈ ((g.edges.zipIdx 0).filter fun x => x.1.includes i).map Prod.snd := mem_slots.2 ⟨e, h1, includes_iff.2 h2⟩
    rw [List.length_eq_one_iff]
    refine ⟨j, List.perm_singleton.1 ((List.perm_ext_iff_of_nodup (slots_nodup _ _) (List.nodup_singleton j)).2 ?_)⟩
    intro a
    constructor
    · intro ha
      obtain ⟨e', h4, h5⟩ := mem_slots.1 ha
      exact List.mem_singleton.2 (h3 a e' h4 (includes_iff.1 h5))
    · intro ha
      rw [List.mem_singleton.1 ha]; exact hm

theorem deg_pos_iff (g : PlanarGraph F T U) (i : Nat) : deg g i ≠ 0 ↔ ∃ e ∈ g.edges, e.includes i = true := by
  unfold deg
  rw [Ne, List.length_eq_zero_iff, List.filter_eq_nil_iff]
  push Not
  rfl

theorem loopOnly_iff (g : PlanarGraph F T U) (id : Nat) : LoopOnly g id ↔
    ∃ j e, g.edges[j]? = some e ∧ e.src = id ∧ e.dst = id ∧ OnlyEdgeAt g j id := by
  constructor
  · rintro ⟨e, h1, h2, h3⟩
    have hd : deg g id = 1 := by unfold deg; rw [h1]; rfl
    obtain ⟨j, hj⟩ := (deg_eq_one_iff g id).1 hd
    obtain ⟨f, hf, hf2⟩ := hj.1
    have : f ∈ g.edges.filter fun e => e.includes id :=
      List.mem_filter.2 ⟨List.mem_of_getElem? hf, includes_iff.2 hf2⟩
    rw [h1] at this
    have := List.mem_singleton.1 this
    subst this
    exact ⟨j, f, hf, h2, h3, hj⟩
  · rintro ⟨j, e, h1, h2, h3, h4⟩
    obtain ⟨x, hx⟩ := List.length_eq_one_iff.1 ((deg_eq_one_iff g id).2 ⟨j, h4⟩)
    have : e ∈ g.edges.filter fun e => e.includes id :=
      List.mem_filter.2 ⟨List.mem_of_getElem? h1, includes_iff.2 (Or.inl h2)⟩
    rw [hx] at this
    have := List.mem_singleton.1 this
    subst this
    exact ⟨e, hx, h2, h3⟩

theorem stray_iff {g : PlanarGraph F T U} (hwf : WF g) {id i : Nat} (hne : i ≠ id) :
    i ∈ strays g id g.edges ↔ StrayNeighbour g id i := by
  rw [mem_strays]
  constructor
  · rintro ⟨e, h1, h2, h3, h4, h5⟩
    obtain ⟨j, hj⟩ := (deg_eq_one_iff g i).1 h5
    obtain ⟨f, hf, hf2⟩ := hj.1
    obtain ⟨k, hk⟩ := List.mem_iff_getElem?.1 h1
    have hk' := hj.2 k e hk (by rw [← includes_iff, ← h3]; exact other_includes)
    subst hk'
    refine ⟨hne, k, e, hk, ?_, hj⟩
    rw [includes_iff] at h2
    unfold other at h3
    split at h3
    · rename_i hs; exact Or.inl ⟨by simpa using hs, h3⟩
    · rename_i hs
      have hs : e.src ≠ id := by simpa using hs
      exact Or.inr ⟨h3, h2.resolve_left hs⟩
  · rintro ⟨_, j, e, h1, h2, h3⟩
    have hm := List.mem_of_getElem? h1
    have hv := hwf e hm
    refine ⟨e, hm, ?_, ?_, ?_, (deg_eq_one_iff g i).2 ⟨j, h3⟩⟩
    · rw [includes_iff]; tauto
    · unfold other
      rcases h2 with ⟨h, h'⟩ | ⟨h, h'⟩
      · simp [h, h']
      · rw [if_neg (by rw [h]; simpa using hne)]; exact h
    · rcases h2 with ⟨h, h'⟩ | ⟨h, h'⟩ <;> omega

/-! ## remove_node -/

/-- the graph left by a removal of the marked nodes and edges, given a renumbering -/
def afterRemoval (g : PlanarGraph F T U) (marked slots : List Nat) (remapped : List (Nat × Nat)) : PlanarGraph F T U :=
  ⟨eraseMarked marked g.nodes 0, (eraseMarked slots g.edges 0).map fun e =>
    { e with src := remapIndex remapped e.src, dst := remapIndex remapped e.dst }⟩

/-- slots of the edges at `id` -/
def slotsAt (g : PlanarGraph F T U) (id : Nat) : List Nat :=
  ((g.edges.zipIdx 0).filter fun x => x.1.includes id).map Prod.snd

theorem removeNode_none {p : Profile} {g : PlanarGraph F T U} {id : Nat} (hid : g.nodes.length ≤ id) :
    g.removeNode p id = .ok (g, ([], [])) := by
  unfold removeNode; rw [List.getElem?_eq_none hid]

theorem slotsAt_nil {g : PlanarGraph F T U} {id : Nat} (hd : deg g id = 0) : slotsAt g id = [] := by
  unfold slotsAt deg at *
  rw [← slots_length, List.length_eq_zero_iff] at hd
  exact hd

/-- all the ways of `remove_node`, given the outcome of the renumbering loop -/
theorem removeNode_eq {p : Profile} {g : PlanarGraph F T U} {id : Nat} (hid : id < g.nodes.length)
    {remapped : List (Nat × Nat)}
    (hr : remapLoop p (id :: strays g id g.edges) g.nodes.length 0 = .ok remapped) :
    (deg g id = 0 ∧ g.removeNode p id = .error .unwrapFailed) ∨
    (deg g id ≠ 0 ∧ ∃ m me, m ∈ id :: strays g id g.edges ∧ (∀ b ∈ id :: strays g id g.edges, m ≤ b) ∧
      me ∈ slotsAt g id ∧ (∀ b ∈ slotsAt g id, me ≤ b) ∧
      g.removeNode p id = .ok (afterRemoval g (id :: strays g id g.edges) (slotsAt g id) remapped,
        (List.range' m (g.nodes.length - m), List.range' me (g.edges.length - me)))) := by
  obtain ⟨m, hm, hm2, hm3⟩ := minUnwrap_cons id (strays g id g.edges)
  by_cases hd : deg g id = 0
  · left
    refine ⟨hd, ?_⟩
    have hs := slotsAt_nil hd
    unfold slotsAt at hs
    unfold removeNode removeEdgesIncidentToNode
    rw [List.getElem?_eq_getElem hid, incidentLoop_eq]
    simp only [hr, hm, hs, bind, Except.bind]
    rfl
  · right
    refine ⟨hd, m, ?_⟩
    have hne : slotsAt g id ≠ [] := by
      unfold slotsAt deg at *
      rw [← slots_length, List.length_eq_zero_iff] at hd
      exact hd
    obtain ⟨a, l, hal⟩ := List.exists_cons_of_ne_nil hne
    obtain ⟨me, he, he2, he3⟩ := minUnwrap_cons a l
    rw [← hal] at he he2 he3
    refine ⟨me, hm2, hm3, he2, he3, ?_⟩
    unfold slotsAt at he
    unfold removeNode removeEdgesIncidentToNode
    rw [List.getElem?_eq_getElem hid, incidentLoop_eq]
    simp only [hr, hm, he, bind, Except.bind, pure, Except.pure]
    rfl

theorem remap_ok {p : Profile} {g : PlanarGraph F T U} {id : Nat} (hl : ¬ LoopOnly g id) :
    remapLoop p (id :: strays g id g.edges) g.nodes.length 0 =
      .ok (((List.range' 0 g.nodes.length).filter fun j => !(id :: strays g id g.edges).contains j).map
        fun j => (j, j - back (id :: strays g id g.edges) j)) :=
  remapLoop_ok p _ _ 0 fun j _ _ _ => back_le (marked_nodup hl) j

/-- the loop-only case: the node is marked twice -/
theorem back_pair (id j : Nat) : back [id, id] j = if id < j then 2 else 0 := by
  unfold back
  by_cases h : id < j <;> simp [h]

theorem remap_loop {p : Profile} {g : PlanarGraph F T U} {id : Nat} (hid : id < g.nodes.length) (hl : LoopOnly g id)
    (hn : ¬ (id = 0 ∧ 2 ≤ g.nodes.length)) :
    remapLoop p (id :: strays g id g.edges) g.nodes.length 0 =
      .ok (((List.range' 0 g.nodes.length).filter fun j => !(id :: strays g id g.edges).contains j).map
        fun j => (j, j - back (id :: strays g id g.edges) j)) := by
  refine remapLoop_ok p _ _ 0 ?_
  intro j _ h1 h2
  rw [loopOnly_marked hid hl] at h2 ⊢
  rw [back_pair]
  split <;> omega

theorem remap_loop_err {g : PlanarGraph F T U} {id : Nat} (hl : LoopOnly g id) (h0 : id = 0) (hn : 2 ≤ g.nodes.length) :
    g.removeNode .debug id = .error .arithmeticOverflow := by
  have hid : id < g.nodes.length := by omega
  have hr := remapLoop_err (id :: strays g id g.edges) g.nodes.length 0 ⟨1, by omega, by omega, by
    rw [loopOnly_marked hid hl, h0]; simp, by rw [loopOnly_marked hid hl, back_pair]; simp [h0]⟩
  unfold removeNode removeEdgesIncidentToNode
  rw [List.getElem?_eq_getElem hid, incidentLoop_eq]
  simp only [hr, bind, Except.bind]

theorem LoopOnly.deg {g : PlanarGraph F T U} {id : Nat} (hl : LoopOnly g id) : Graph.deg g id ≠ 0 := by
  obtain ⟨e, h, _⟩ := hl
  unfold Graph.deg; rw [h]; simp

/-- **C63, exactly when it panics.** `remove_node(id)` panics if and only if `id` is a node that no edge touches, or, with
overflow checks, `id` is node 0 of a graph with at least two nodes and its only edge is a self-loop.  (The full claim,
that it never panics, is false: `C63_counterexample`.) -/
theorem C63_panics_iff_partial (p : Profile) (g : PlanarGraph F T U) (id : Nat) :
    (∃ e, g.removeNode p id = .error e) ↔ id < g.nodes.length ∧
      ((∀ e ∈ g.edges, e.src ≠ id ∧ e.dst ≠ id) ∨
        (p = .debug ∧ id = 0 ∧ 2 ≤ g.nodes.length ∧
          ∃ j e, g.edges[j]? = some e ∧ e.src = id ∧ e.dst = id ∧ OnlyEdgeAt g j id)) := by
  have hiso : (∀ e ∈ g.edges, e.src ≠ id ∧ e.dst ≠ id) ↔ deg g id = 0 := by
    have := deg_pos_iff g id
    rw [← not_iff_not, show (¬ deg g id = 0) ↔ deg g id ≠ 0 from Iff.rfl, this]
    push Not
    refine exists_congr fun e => and_congr_right fun _ => ?_
    rw [includes_iff]; tauto
  rw [hiso, ← loopOnly_iff]
  by_cases hid : id < g.nodes.length
  · simp only [hid, true_and]
    by_cases hl : LoopOnly g id
    · have hd := hl.deg
      by_cases hn : id = 0 ∧ 2 ≤ g.nodes.length
      · cases p with
        | debug =>
          rw [remap_loop_err hl hn.1 hn.2]
          exact ⟨fun _ => Or.inr ⟨rfl, hn.1, hn.2, hl⟩, fun _ => ⟨_, rfl⟩⟩
        | release =>
          obtain ⟨l, hr⟩ := remapLoop_release (id :: strays g id g.edges) g.nodes.length 0
          rcases removeNode_eq hid hr with ⟨h, _⟩ | ⟨_, m, me, _, _, _, _, h⟩
          · exact absurd h hd
          · rw [h]; simp [hd]
      · rcases removeNode_eq (p := p) hid (remap_loop hid hl hn) with ⟨h, _⟩ | ⟨_, m, me, _, _, _, _, h⟩
        · exact absurd h hd
        · rw [h]; simp [hd]; tauto
    · rcases removeNode_eq (p := p) hid (remap_ok hl) with ⟨h, h'⟩ | ⟨hd, m, me, _, _, _, _, h⟩
      · rw [h']; simp [h]
      · rw [h]; simp [hd, hl]
  · rw [removeNode_none (by omega)]
    simp [hid]

/-- **C63 is false**: removing an isolated node panics. -/
theorem C63_counterexample : (⟨[⟨⟨(0 : ℚ), 0⟩, (), ""⟩], []⟩ : PlanarGraph ℚ Unit Unit).removeNode .release 0 =
    .error .unwrapFailed := rfl

theorem survivors_get_below {n m : Nat} {marked : List Nat} (h : ∀ b ∈ marked, m ≤ b) {k : Nat} (hk : k < m) (hn : k < n) :
    (survivors n marked)[k]? = some k := by
  unfold survivors
  have hr : List.range n = List.range (k + 1) ++ List.range' (k + 1) (n - (k + 1)) := by
    rw [List.range_eq_range', List.range_eq_range']
    have h := List.range'_append (s := 0) (m := k + 1) (n := n - (k + 1)) (step := 1)
    rw [show k + 1 + (n - (k + 1)) = n by omega] at h
    rw [← h]; simp
  have hf : (List.range (k + 1)).filter (fun j => !marked.contains j) = List.range (k + 1) := by
    rw [List.filter_eq_self]
    intro a ha
    rw [List.mem_range] at ha
    simp only [Bool.not_eq_true', List.contains_eq_mem, decide_eq_false_iff_not]
    intro hc
    have := h a hc
    omega
  rw [hr, List.filter_append, hf, List.getElem?_append_left (by simp)]
  simp

theorem afterRemoval_renumbered {g : PlanarGraph F T U} (hwf : WF g) {id : Nat} (hl : ¬ LoopOnly g id) :
    Renumbered g (afterRemoval g (id :: strays g id g.edges) (slotsAt g id)
      (((List.range' 0 g.nodes.length).filter fun j => !(id :: strays g id g.edges).contains j).map
        fun j => (j, j - back (id :: strays g id g.edges) j)))
      (survivors g.nodes.length (id :: strays g id g.edges)) (survivors g.edges.length (slotsAt g id)) where
  nodup := (survivors_sorted _ _).imp fun h => Nat.ne_of_lt h
  enodup := (survivors_sorted _ _).imp fun h => Nat.ne_of_lt h
  node_count := eraseMarked_length0 _ _
  edge_count := by simp only [afterRemoval, List.length_map]; exact eraseMarked_length0 _ _
  nodes k i h := by
    refine ⟨(mem_survivors.1 (List.mem_of_getElem? h)).1, ?_⟩
    simp only [afterRemoval]
    rw [eraseMarked_get0, h]; rfl
  edges k j h := by
    obtain ⟨h1, h2⟩ := mem_survivors.1 (List.mem_of_getElem? h)
    refine ⟨g.edges[j], { g.edges[j] with
        src := remapIndex (((List.range' 0 g.nodes.length).filter fun j => !(id :: strays g id g.edges).contains j).map
          fun j => (j, j - back (id :: strays g id g.edges) j)) g.edges[j].src
        dst := remapIndex (((List.range' 0 g.nodes.length).filter fun j => !(id :: strays g id g.edges).contains j).map
          fun j => (j, j - back (id :: strays g id g.edges) j)) g.edges[j].dst }, List.getElem?_eq_getElem h1, ?_, rfl, rfl,
      ?_, ?_⟩
    · simp only [afterRemoval, List.getElem?_map, eraseMarked_get0, h, Option.bind_some, List.getElem?_eq_getElem h1,
        Option.map_some]
    all_goals
      have hm : g.edges[j] ∈ g.edges := List.getElem_mem h1
      have hni : g.edges[j].includes id = false := by
        rw [← Bool.not_eq_true]; intro hc
        exact h2 (mem_slots.2 ⟨_, List.getElem?_eq_getElem h1, hc⟩)
    · have hs : g.edges[j].src ∈ survivors g.nodes.length (id :: strays g id g.edges) :=
        mem_survivors.2 ⟨(hwf _ hm).1, not_stray_of_edge hm hni (includes_iff.2 (Or.inl rfl))⟩
      simp only
      rw [remapIndex_eq _ _ _ hs]
      exact survivors_get (marked_nodup hl) hs
    · have hs : g.edges[j].dst ∈ survivors g.nodes.length (id :: strays g id g.edges) :=
        mem_survivors.2 ⟨(hwf _ hm).2, not_stray_of_edge hm hni (includes_iff.2 (Or.inr rfl))⟩
      simp only
      rw [remapIndex_eq _ _ _ hs]
      exact survivors_get (marked_nodup hl) hs

/-- **C64.** If `remove_node(id)` returns and the only edge at `id` is not a self-loop (in particular on loop-free graphs),
the surviving nodes are the others except the neighbours of `id` without another edge, in the old order; the surviving
edges are those that did not touch `id`, in the old order, with the same data, joining the same nodes. -/
theorem C64_remove_node (p : Profile) (g : PlanarGraph F T U) (hwf : WF g) (id : Nat) (hid : id < g.nodes.length)
    (hl : ∀ j e, g.edges[j]? = some e → e.src = id → e.dst = id → ¬ OnlyEdgeAt g j id)
    (g' : PlanarGraph F T U) (r : List Nat × List Nat) (h : g.removeNode p id = .ok (g', r)) :
    ∃ keep ekeep : List Nat, Renumbered g g' keep ekeep ∧ keep.Pairwise (· < ·) ∧ ekeep.Pairwise (· < ·) ∧
      (∀ i, i ∈ keep ↔ i < g.nodes.length ∧ i ≠ id ∧ ¬ StrayNeighbour g id i) ∧
      (∀ j, j ∈ ekeep ↔ ∃ e, g.edges[j]? = some e ∧ e.src ≠ id ∧ e.dst ≠ id) := by
  have hl' : ¬ LoopOnly g id := by
    rw [loopOnly_iff]; rintro ⟨j, e, h1, h2, h3, h4⟩; exact hl j e h1 h2 h3 h4
  rcases removeNode_eq (p := p) hid (remap_ok hl') with ⟨_, h'⟩ | ⟨hd, m, me, _, _, _, _, h'⟩
  · rw [h] at h'; cases h'
  · rw [h] at h'
    simp only [Except.ok.injEq, Prod.mk.injEq] at h'
    obtain ⟨rfl, _⟩ := h'
    refine ⟨_, _, afterRemoval_renumbered hwf hl', survivors_sorted _ _, survivors_sorted _ _, ?_, ?_⟩
    · intro i
      rw [mem_survivors, List.mem_cons, not_or]
      constructor
      · rintro ⟨h1, h2, h3⟩; exact ⟨h1, h2, fun hc => h3 ((stray_iff hwf h2).2 hc)⟩
      · rintro ⟨h1, h2, h3⟩; exact ⟨h1, h2, fun hc => h3 ((stray_iff hwf h2).1 hc)⟩
    · intro j
      rw [mem_survivors, slotsAt, mem_slots]
      constructor
      · rintro ⟨h1, h2⟩
        refine ⟨g.edges[j], List.getElem?_eq_getElem h1, ?_⟩
        have : ¬ (g.edges[j].includes id = true) := fun hc => h2 ⟨_, List.getElem?_eq_getElem h1, hc⟩
        rw [includes_iff] at this
        tauto
      · rintro ⟨e, h1, h2, h3⟩
        refine ⟨(List.getElem?_eq_some_iff.1 h1).1, ?_⟩
        rintro ⟨e', h4, h5⟩
        rw [h1] at h4
        cases h4
        rw [includes_iff] at h5
        tauto

/-! ## remove_edge -/

theorem removeEdge_none {p : Profile} {g : PlanarGraph F T U} {id : Nat} (hid : g.edges.length ≤ id) :
    g.removeEdge p id = .ok (g, ([], [])) := by
  unfold removeEdge; rw [List.getElem?_eq_none hid]

theorem deg_pos_of_mem {g : PlanarGraph F T U} {e : Edge U} (he : e ∈ g.edges) :
    deg g e.src ≠ 0 ∧ deg g e.dst ≠ 0 :=
  ⟨(deg_pos_iff g _).2 ⟨e, he, includes_iff.2 (Or.inl rfl)⟩, (deg_pos_iff g _).2 ⟨e, he, includes_iff.2 (Or.inr rfl)⟩⟩

theorem deg_le (g : PlanarGraph F T U) (i : Nat) : deg g i ≤ g.edges.length := List.length_filter_le ..

theorem ne_nil_of_get {es : List (Edge U)} {id : Nat} {e : Edge U} (he : es[id]? = some e) : es ≠ [] := by
  rintro rfl; cases he

theorem removeEdge_eq {p : Profile} {g : PlanarGraph F T U} (hwf : WF g) {id : Nat} {e : Edge U}
    (he : g.edges[id]? = some e) (hne : g.edges ≠ []) : g.removeEdge p id =
      if deg g e.src = 1 then g.removeNode p e.src
      else if deg g e.dst = 1 then g.removeNode p e.dst
      else if id + 1 < g.edges.length then
        .ok (⟨g.nodes, g.edges.dropLast.set id (g.edges.getLast hne)⟩,
          ([], [id, g.edges.length - 1]))
      else .error .indexOutOfBounds := by
  have hm := List.mem_of_getElem? he
  have hlt := (List.getElem?_eq_some_iff.1 he).1
  obtain ⟨h1, h2⟩ := hwf e hm
  have hp := (deg_pos_of_mem hm).1
  unfold removeEdge
  rw [he]
  simp only [numberIncident_eq, h1, h2, if_true, unwrap, bind, Except.bind, pure, Except.pure]
  split
  · rfl
  · rename_i hna
    split
    · rfl
    · have := deg_le g e.src
      have := List.length_pos_iff.2 hne
      have h2 : g.edgeCount > 1 := by unfold edgeCount; omega
      rw [if_pos h2, List.getLast?_eq_some_getLast hne]
      simp only [assign, List.length_dropLast, edgeCount]
      by_cases hl : id + 1 < g.edges.length
      · rw [if_pos (show id < g.edges.length - 1 by omega)]
        simp only [if_pos hl]
      · rw [if_neg (show ¬ id < g.edges.length - 1 by omega)]
        simp only [if_neg hl]

/-- `remove_edge` with the test `self.edge_count() > 1` of src/graph/planar_graph.rs:395 left out, as the comment at lines 393-394
suggests -/
def removeEdgeDirect (p : Profile) (g : PlanarGraph F T U) (id : Nat) : Res (PlanarGraph F T U × (List Nat × List Nat)) :=
  match g.edges[id]? with
  | some edge => do
    let na ← unwrap (g.numberOfEdgesIncidentTo edge.src)
    if na = 1 then g.removeNode p edge.src
    else
      let nb ← unwrap (g.numberOfEdgesIncidentTo edge.dst)
      if nb = 1 then g.removeNode p edge.dst
      else do
        let last ← unwrap g.edges.getLast?
        let edges ← assign g.edges.dropLast id last
        return (⟨g.nodes, edges⟩, ([], [id, g.edgeCount - 1]))
  | none => .ok (g, ([], []))

/-- **C61, the redundant test.** For every graph and index `remove_edge` does the same without the test whether there is more than
one edge: the question in the comment is answered with yes. -/
theorem C61_redundant_test (p : Profile) (g : PlanarGraph F T U) (id : Nat) :
    g.removeEdge p id = removeEdgeDirect p g id := by
  unfold removeEdge removeEdgeDirect
  cases he : g.edges[id]? with
  | none => rfl
  | some e =>
    have hp := (deg_pos_of_mem (List.mem_of_getElem? he)).1
    have hle := deg_le g e.src
    simp only [numberIncident_eq, bind, Except.bind, pure, Except.pure]
    by_cases h1 : e.src < g.nodes.length
    · simp only [h1, if_true, unwrap]
      by_cases hd : deg g e.src = 1
      · simp only [hd, if_true]
      · have hc : g.edgeCount > 1 := by unfold edgeCount; omega
        simp only [hd, if_false, hc, if_true]
    · simp only [h1, if_false, unwrap]

theorem onlyEdge_of_deg {g : PlanarGraph F T U} {j i : Nat} {e : Edge U} (he : g.edges[j]? = some e)
    (hi : e.src = i ∨ e.dst = i) : deg g i = 1 ↔ OnlyEdgeAt g j i := by
  rw [deg_eq_one_iff]
  constructor
  · rintro ⟨k, hk⟩
    rw [hk.2 j e he hi]; exact hk
  · intro h; exact ⟨j, h⟩

/-- **C61, exactly when it panics.** `remove_edge(id)` panics if and only if `id` is the last slot and both ends of its
edge have another edge, or, with overflow checks, the edge is the only edge at node 0, joins it to itself and there are
other nodes.  (The full claim, that it never panics, is false: `C61_counterexample`.) -/
theorem C61_panics_iff_partial (p : Profile) (g : PlanarGraph F T U) (hwf : WF g) (id : Nat) :
    (∃ e, g.removeEdge p id = .error e) ↔ ∃ e, g.edges[id]? = some e ∧
      ((id + 1 = g.edges.length ∧ ¬ OnlyEdgeAt g id e.src ∧ ¬ OnlyEdgeAt g id e.dst) ∨
        (p = .debug ∧ e.src = 0 ∧ e.dst = 0 ∧ OnlyEdgeAt g id 0 ∧ 2 ≤ g.nodes.length)) := by
  by_cases hlt : id < g.edges.length
  · have he := List.getElem?_eq_getElem hlt
    generalize g.edges[id] = e at he
    have hm := List.mem_of_getElem? he
    obtain ⟨h1, h2⟩ := hwf e hm
    rw [removeEdge_eq hwf he (ne_nil_of_get he)]
    have hex : ∀ P : Edge U → Prop, (∃ e, g.edges[id]? = some e ∧ P e) ↔ P e := by
      intro P; rw [he]; simp
    rw [hex, ← onlyEdge_of_deg he (Or.inl rfl), ← onlyEdge_of_deg he (Or.inr rfl)]
    have hloop : ∀ i, (e.src = i ∨ e.dst = i) → (∃ j e, g.edges[j]? = some e ∧ e.src = i ∧ e.dst = i ∧ OnlyEdgeAt g j i) →
        e.src = i ∧ e.dst = i := by
      rintro i hi ⟨j, f, hf, h3, h4, h5⟩
      have := h5.2 id e he hi
      subst this
      rw [he] at hf; cases hf
      exact ⟨h3, h4⟩
    have hdeg : ∀ i, (e.src = i ∨ e.dst = i) → ¬ ∀ f ∈ g.edges, f.src ≠ i ∧ f.dst ≠ i := by
      intro i hi hc
      have := hc e hm
      tauto
    split
    · rename_i hd
      rw [C63_panics_iff_partial]
      constructor
      · rintro ⟨_, h | ⟨h3, h4, h5, h6⟩⟩
        · exact absurd h (hdeg _ (Or.inl rfl))
        · have h7 := hloop _ (Or.inl rfl) h6
          exact Or.inr ⟨h3, h4, by rw [h7.2, h4], by rw [← h4]; exact (onlyEdge_of_deg he (Or.inl rfl)).1 hd, h5⟩
      · rintro (⟨_, h, _⟩ | ⟨h3, h4, h5, h6, h7⟩)
        · exact absurd hd h
        · exact ⟨h1, Or.inr ⟨h3, h4, h7, id, e, he, rfl, by rw [h5, h4], by rw [h4]; exact h6⟩⟩
    · rename_i hd
      split
      · rename_i hd2
        rw [C63_panics_iff_partial]
        constructor
        · rintro ⟨_, h | ⟨h3, h4, h5, h6⟩⟩
          · exact absurd h (hdeg _ (Or.inr rfl))
          · have h7 := hloop _ (Or.inr rfl) h6
            rw [h7.1] at hd
            exact absurd hd2 hd
        · rintro (⟨_, _, h⟩ | ⟨h3, h4, h5, h6, h7⟩)
          · exact absurd hd2 h
          · rw [h4] at hd; rw [h5] at hd2; exact absurd hd2 hd
      · rename_i hd2
        split
        · constructor
          · rintro ⟨_, h⟩; cases h
          · rintro (⟨h, _, _⟩ | ⟨h3, h4, h5, h6, h7⟩)
            · omega
            · exact absurd ((onlyEdge_of_deg he (Or.inl rfl)).2 (by rw [h4]; exact h6)) hd
        · refine ⟨fun _ => Or.inl ⟨by omega, hd, hd2⟩, fun _ => ⟨_, rfl⟩⟩
  · rw [removeEdge_none (by omega), List.getElem?_eq_none (by omega)]
    simp

/-- **C61 is false**: in a triangle, removing the edge in the last slot panics. -/
theorem C61_counterexample : (⟨[⟨⟨(0 : ℚ), 0⟩, (), ""⟩, ⟨⟨1, 0⟩, (), ""⟩, ⟨⟨0, 1⟩, (), ""⟩],
    [⟨0, 1, (), ""⟩, ⟨1, 2, (), ""⟩, ⟨2, 0, (), ""⟩]⟩ : PlanarGraph ℚ Unit Unit).removeEdge .release 2 =
    .error .indexOutOfBounds := rfl

/-- slots after a swap-remove -/
theorem swap_get {α : Type} {l : List α} (hne : l ≠ []) {id : Nat} (hid : id + 1 < l.length) (k : Nat) :
    (l.dropLast.set id (l.getLast hne))[k]? =
      (((List.range (l.length - 1)).set id (l.length - 1))[k]?).bind fun j => l[j]? := by
  by_cases hk : k < l.length - 1
  · rw [List.getElem?_eq_getElem (by simpa using hk), List.getElem?_eq_getElem (by simpa using hk), List.getElem_set,
      List.getElem_set, Option.bind_some]
    split
    · rw [List.getElem?_eq_getElem (by omega), List.getLast_eq_getElem]
    · rw [List.getElem_dropLast, List.getElem_range, List.getElem?_eq_getElem]
  · rw [List.getElem?_eq_none (by simpa using hk), List.getElem?_eq_none (by simpa using hk)]
    rfl

theorem swap_nodup {n id : Nat} : ((List.range n).set id n).Nodup := by
  rw [List.nodup_iff_getElem?_ne_getElem?]
  intro i j hij hj
  have hj : j < n := by simpa using hj
  rw [List.getElem?_eq_getElem (by simp; omega), List.getElem?_eq_getElem (by simpa using hj), List.getElem_set,
    List.getElem_set, List.getElem_range, List.getElem_range]
  simp only [ne_eq, Option.some.injEq]
  split <;> split <;> omega

theorem mem_swap {n id j : Nat} (hid : id < n) : j ∈ (List.range n).set id n ↔ j < n + 1 ∧ j ≠ id := by
  rw [List.mem_iff_getElem?]
  constructor
  · rintro ⟨k, hk⟩
    obtain ⟨h1, h2⟩ := List.getElem?_eq_some_iff.1 hk
    rw [List.getElem_set, List.getElem_range] at h2
    have : k < n := by simpa using h1
    split at h2 <;> omega
  · rintro ⟨h1, h2⟩
    by_cases hj : j = n
    · refine ⟨id, ?_⟩
      rw [List.getElem?_set_self (by simpa using hid), hj]
    · refine ⟨j, ?_⟩
      rw [List.getElem?_set_ne (by omega), List.getElem?_range (by omega)]

/-- **C62, partial.** If `remove_edge(id)` returns and the edge is not a self-loop that is the only edge at its node, the
remaining edges are the edges in the other slots, with the same data and joining the same nodes, and the removed nodes
are exactly those ends of the edge that no other edge touches.  Missing: self-loops that are the only edge at their node;
there the statement is false (`C62_counterexample`). -/
theorem C62_remove_edge_partial (p : Profile) (g : PlanarGraph F T U) (hwf : WF g) (id : Nat) (e : Edge U)
    (he : g.edges[id]? = some e) (hl : e.src = e.dst → ¬ OnlyEdgeAt g id e.src)
    (g' : PlanarGraph F T U) (r : List Nat × List Nat) (h : g.removeEdge p id = .ok (g', r)) :
    ∃ keep ekeep : List Nat, Renumbered g g' keep ekeep ∧ keep.Pairwise (· < ·) ∧
      (∀ i, i ∈ keep ↔ i < g.nodes.length ∧ ¬ ((e.src = i ∨ e.dst = i) ∧ OnlyEdgeAt g id i)) ∧
      (∀ j, j ∈ ekeep ↔ j < g.edges.length ∧ j ≠ id) := by
  have hm := List.mem_of_getElem? he
  obtain ⟨h1, h2⟩ := hwf e hm
  rw [removeEdge_eq hwf he (ne_nil_of_get he)] at h
  -- removing the end `a` of the edge, whose only edge it is, `b` being the other end
  have main : ∀ a b, ((e.src = a ∧ e.dst = b) ∨ (e.src = b ∧ e.dst = a)) → a < g.nodes.length → deg g a = 1 →
      g.removeNode p a = .ok (g', r) →
      ∃ keep ekeep : List Nat, Renumbered g g' keep ekeep ∧ keep.Pairwise (· < ·) ∧
        (∀ i, i ∈ keep ↔ i < g.nodes.length ∧ ¬ ((e.src = i ∨ e.dst = i) ∧ OnlyEdgeAt g id i)) ∧
        (∀ j, j ∈ ekeep ↔ j < g.edges.length ∧ j ≠ id) := by
    intro a b hab ha hd hr
    have hon : OnlyEdgeAt g id a := (onlyEdge_of_deg he (by tauto)).1 hd
    have hne : a ≠ b := by
      rintro rfl
      have hs : e.src = a ∧ e.dst = a := by tauto
      exact hl (by rw [hs.1, hs.2]) (by rw [hs.1]; exact hon)
    obtain ⟨keep, ekeep, c1, c2, _, c4, c5⟩ := C64_remove_node p g hwf a ha (by
      intro j f hf hs hds _
      have := hon.2 j f hf (Or.inl hs)
      subst this
      rw [he] at hf; cases hf
      rcases hab with ⟨x, y⟩ | ⟨x, y⟩ <;> omega) g' r hr
    refine ⟨keep, ekeep, c1, c2, ?_, ?_⟩
    · intro i
      rw [c4]
      refine and_congr_right fun hi => ?_
      constructor
      · rintro ⟨n1, n2⟩ ⟨hi2, hi3⟩
        exact n2 ⟨n1, id, e, he, by rcases hab with ⟨x, y⟩ | ⟨x, y⟩ <;> omega, hi3⟩
      · intro hn
        refine ⟨?_, ?_⟩
        · rintro rfl; exact hn ⟨by tauto, hon⟩
        · rintro ⟨n1, j, f, hf, hjoin, hj⟩
          have : j = id := hon.2 j f hf (by tauto)
          subst this
          rw [he] at hf; cases hf
          exact hn ⟨by tauto, hj⟩
    · intro j
      rw [c5]
      constructor
      · rintro ⟨f, hf, n1, n2⟩
        refine ⟨(List.getElem?_eq_some_iff.1 hf).1, ?_⟩
        rintro rfl
        rw [he] at hf; cases hf
        rcases hab with ⟨x, y⟩ | ⟨x, y⟩ <;> omega
      · rintro ⟨n1, n2⟩
        refine ⟨g.edges[j], List.getElem?_eq_getElem n1, ?_, ?_⟩
        · intro hc; exact n2 (hon.2 j _ (List.getElem?_eq_getElem n1) (Or.inl hc))
        · intro hc; exact n2 (hon.2 j _ (List.getElem?_eq_getElem n1) (Or.inr hc))
  split at h
  · rename_i hd; exact main e.src e.dst (Or.inl ⟨rfl, rfl⟩) h1 hd h
  · rename_i hd
    split at h
    · rename_i hd2; exact main e.dst e.src (Or.inr ⟨rfl, rfl⟩) h2 hd2 h
    · rename_i hd2
      split at h
      · rename_i hlast
        simp only [Except.ok.injEq, Prod.mk.injEq] at h
        obtain ⟨rfl, _⟩ := h
        have hne : g.edges ≠ [] := by intro h; rw [h] at he; cases he
        refine ⟨List.range g.nodes.length, (List.range (g.edges.length - 1)).set id (g.edges.length - 1), ?_,
          List.pairwise_lt_range, ?_, ?_⟩
        · refine ⟨List.nodup_range, swap_nodup, by simp, by simp, ?_, ?_⟩
          · intro k i hk
            obtain ⟨k1, k2⟩ := List.getElem?_eq_some_iff.1 hk
            rw [List.getElem_range] at k2
            subst k2
            exact ⟨by simpa using k1, rfl⟩
          · intro k j hk
            have hj := (mem_swap (by omega)).1 (List.mem_of_getElem? hk)
            have hjl : j < g.edges.length := by omega
            refine ⟨g.edges[j], g.edges[j], List.getElem?_eq_getElem hjl, ?_, rfl, rfl, ?_, ?_⟩
            · simp only
              rw [swap_get hne hlast, hk, Option.bind_some, List.getElem?_eq_getElem hjl]
            · rw [List.getElem?_range (hwf _ (List.getElem_mem hjl)).1]
            · rw [List.getElem?_range (hwf _ (List.getElem_mem hjl)).2]
        · intro i
          rw [List.mem_range]
          constructor
          · intro hi
            refine ⟨hi, ?_⟩
            rintro ⟨hor, hon⟩
            have := (onlyEdge_of_deg he hor).2 hon
            rcases hor with rfl | rfl
            · exact hd this
            · exact hd2 this
          · exact fun h => h.1
        · intro j
          rw [mem_swap (by omega)]
          omega
      · cases h

/-- **C62 is false for self-loops**: nodes 0..3, a loop at 1 and an edge from 2 to 3.  Removing the loop deletes node 1
but renumbers by two, so that the edge 2-3 now joins the nodes formerly numbered 0 and 2. -/
theorem C62_counterexample :
    (⟨[⟨⟨(0 : ℚ), 0⟩, (), ""⟩, ⟨⟨1, 0⟩, (), ""⟩, ⟨⟨2, 0⟩, (), ""⟩, ⟨⟨3, 0⟩, (), ""⟩],
      [⟨1, 1, (), ""⟩, ⟨2, 3, (), ""⟩]⟩ : PlanarGraph ℚ Unit Unit).removeEdge .debug 0 =
    .ok (⟨[⟨⟨(0 : ℚ), 0⟩, (), ""⟩, ⟨⟨2, 0⟩, (), ""⟩, ⟨⟨3, 0⟩, (), ""⟩], [⟨0, 1, (), ""⟩]⟩, ([1, 2, 3], [0, 1])) := rfl

/-! ## C65: reported indices -/

/-- **C65, partial (remove_node).** Every node index whose node changed is reported.  An edge slot that is not reported
holds an edge before and after, with the same data and label (and joining the same nodes in the cases of `C64_remove_node`),
but its indices may have been renumbered without being reported (`C65_counterexample`). -/
theorem C65_remove_node_partial (p : Profile) (g : PlanarGraph F T U) (id : Nat)
    (g' : PlanarGraph F T U) (cn ce : List Nat) (h : g.removeNode p id = .ok (g', (cn, ce))) :
    (∀ i, g'.nodes[i]? ≠ g.nodes[i]? → i ∈ cn) ∧
    (∀ j e, j ∉ ce → g.edges[j]? = some e → ∃ e', g'.edges[j]? = some e' ∧ e'.data = e.data ∧ e'.label = e.label) ∧
    (∀ j, j ∉ ce → g.edges[j]? = none → g'.edges[j]? = none) := by
  by_cases hid : id < g.nodes.length
  swap
  · rw [removeNode_none (by omega)] at h
    cases h
    exact ⟨fun i hi => absurd rfl hi, fun j e _ he => ⟨e, he, rfl, rfl⟩, fun j _ he => he⟩
  have hr : ∃ remapped, remapLoop p (id :: strays g id g.edges) g.nodes.length 0 = .ok remapped := by
    by_cases hl : LoopOnly g id
    · by_cases hn : id = 0 ∧ 2 ≤ g.nodes.length
      · cases p with
        | debug => rw [remap_loop_err hl hn.1 hn.2] at h; cases h
        | release => exact remapLoop_release _ _ _
      · exact ⟨_, remap_loop hid hl hn⟩
    · exact ⟨_, remap_ok hl⟩
  obtain ⟨remapped, hr⟩ := hr
  rcases removeNode_eq hid hr with ⟨_, h'⟩ | ⟨hd, m, me, m1, m2, m3, m4, h'⟩
  · rw [h] at h'; cases h'
  · rw [h] at h'
    simp only [Except.ok.injEq, Prod.mk.injEq] at h'
    obtain ⟨rfl, rfl, rfl⟩ := h'
    have hmn : m < g.nodes.length := by
      rcases List.mem_cons.1 m1 with rfl | hm
      · exact hid
      · obtain ⟨e, _, _, _, h4, _⟩ := mem_strays.1 hm; exact h4
    have hmem : me < g.edges.length := by
      obtain ⟨e, h4, _⟩ := mem_slots.1 m3
      exact (List.getElem?_eq_some_iff.1 h4).1
    refine ⟨?_, ?_, ?_⟩
    · intro i hi
      rw [List.mem_range'_1]
      by_contra hc
      apply hi
      simp only [afterRemoval]
      rw [eraseMarked_get0]
      by_cases him : i < m
      · rw [survivors_get_below m2 him (by omega)]; rfl
      · have h5 : g.nodes.length ≤ i := by omega
        have h6 := List.length_filter_le (fun j => !(id :: strays g id g.edges).contains j) (List.range g.nodes.length)
        rw [List.length_range] at h6
        rw [List.getElem?_eq_none h5, List.getElem?_eq_none (by unfold survivors; omega)]
        rfl
    · intro j e hj he
      have hjl := (List.getElem?_eq_some_iff.1 he).1
      rw [List.mem_range'_1] at hj
      have hjm : j < me := by omega
      refine ⟨{ e with src := remapIndex remapped e.src, dst := remapIndex remapped e.dst }, ?_, rfl, rfl⟩
      · simp only [afterRemoval, List.getElem?_map, eraseMarked_get0]
        rw [survivors_get_below m4 hjm hjl, Option.bind_some, he]
        rfl
    · intro j _ he
      have h5 := List.getElem?_eq_none_iff.1 he
      have h6 := List.length_filter_le (fun j => !(slotsAt g id).contains j) (List.range g.edges.length)
      rw [List.length_range] at h6
      simp only [afterRemoval, List.getElem?_map, eraseMarked_get0]
      rw [List.getElem?_eq_none (by unfold survivors; omega)]
      rfl

/-- **C65, partial (remove_edge).** The same for `remove_edge`. -/
theorem C65_remove_edge_partial (p : Profile) (g : PlanarGraph F T U) (hwf : WF g) (id : Nat)
    (g' : PlanarGraph F T U) (cn ce : List Nat) (h : g.removeEdge p id = .ok (g', (cn, ce))) :
    (∀ i, g'.nodes[i]? ≠ g.nodes[i]? → i ∈ cn) ∧
    (∀ j e, j ∉ ce → g.edges[j]? = some e → ∃ e', g'.edges[j]? = some e' ∧ e'.data = e.data ∧ e'.label = e.label) ∧
    (∀ j, j ∉ ce → g.edges[j]? = none → g'.edges[j]? = none) := by
  by_cases hid : id < g.edges.length
  swap
  · rw [removeEdge_none (by omega)] at h
    cases h
    exact ⟨fun i hi => absurd rfl hi, fun j e _ he => ⟨e, he, rfl, rfl⟩, fun j _ he => he⟩
  have he := List.getElem?_eq_getElem hid
  generalize g.edges[id] = e at he
  rw [removeEdge_eq hwf he (ne_nil_of_get he)] at h
  split at h
  · exact C65_remove_node_partial p g _ g' cn ce h
  · split at h
    · exact C65_remove_node_partial p g _ g' cn ce h
    · split at h
      · rename_i hlast
        simp only [Except.ok.injEq, Prod.mk.injEq] at h
        obtain ⟨rfl, rfl, rfl⟩ := h
        have hne : g.edges ≠ [] := by intro h; rw [h] at he; cases he
        refine ⟨fun i hi => absurd rfl hi, ?_, ?_⟩
        · intro j f hj hf
          have hjl := (List.getElem?_eq_some_iff.1 hf).1
          simp only [List.mem_cons, List.not_mem_nil, or_false, not_or] at hj
          refine ⟨f, ?_, rfl, rfl⟩
          simp only
          rw [swap_get hne hlast, List.getElem?_set_ne (by omega), List.getElem?_range (by omega), Option.bind_some, hf]
        · intro j _ hf
          have := List.getElem?_eq_none_iff.1 hf
          simp only
          rw [List.getElem?_eq_none (by simp; omega)]
      · cases h

/-- **C65 is false**: removing node 0 renumbers the ends of the edge in slot 0, which is not reported (only slot 1 is). -/
theorem C65_counterexample :
    (⟨[⟨⟨(0 : ℚ), 0⟩, (), ""⟩, ⟨⟨1, 0⟩, (), ""⟩, ⟨⟨2, 0⟩, (), ""⟩],
      [⟨1, 2, (), ""⟩, ⟨0, 1, (), ""⟩]⟩ : PlanarGraph ℚ Unit Unit).removeNode .debug 0 =
    .ok (⟨[⟨⟨(1 : ℚ), 0⟩, (), ""⟩, ⟨⟨2, 0⟩, (), ""⟩], [⟨0, 1, (), ""⟩]⟩, ([0, 1, 2], [1])) := rfl

/-! ## instances of the hypotheses -/

/-- a path 0-1-2-3 with a pendant 4 at 2: removing node 2 also removes the strays 3 and 4 -/
example : (⟨[⟨⟨(0 : ℚ), 0⟩, 10, ""⟩, ⟨⟨1, 0⟩, 11, ""⟩, ⟨⟨2, 0⟩, 12, ""⟩, ⟨⟨3, 0⟩, 13, ""⟩, ⟨⟨4, 0⟩, 14, ""⟩],
      [⟨2, 3, 0, ""⟩, ⟨0, 1, 1, ""⟩, ⟨1, 2, 2, ""⟩, ⟨4, 2, 3, ""⟩]⟩ : PlanarGraph ℚ Nat Nat).removeNode .debug 2 =
    .ok (⟨[⟨⟨0, 0⟩, 10, ""⟩, ⟨⟨1, 0⟩, 11, ""⟩], [⟨0, 1, 1, ""⟩]⟩, ([2, 3, 4], [0, 1, 2, 3])) := rfl

/-- swap-removal in a triangle with a tail: slot 0 is overwritten by the last edge -/
example : (⟨[⟨⟨(0 : ℚ), 0⟩, 10, ""⟩, ⟨⟨1, 0⟩, 11, ""⟩, ⟨⟨2, 1⟩, 12, ""⟩, ⟨⟨3, 0⟩, 13, ""⟩],
      [⟨0, 1, 0, ""⟩, ⟨1, 2, 1, ""⟩, ⟨2, 0, 2, ""⟩, ⟨2, 3, 3, ""⟩]⟩ : PlanarGraph ℚ Nat Nat).removeEdge .debug 0 =
    .ok (⟨[⟨⟨0, 0⟩, 10, ""⟩, ⟨⟨1, 0⟩, 11, ""⟩, ⟨⟨2, 1⟩, 12, ""⟩, ⟨⟨3, 0⟩, 13, ""⟩],
      [⟨2, 3, 3, ""⟩, ⟨1, 2, 1, ""⟩, ⟨2, 0, 2, ""⟩]⟩, ([], [0, 3])) := rfl

end Kami.Graph
