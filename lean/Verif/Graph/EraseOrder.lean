import Verif.Graph.Queries
/-!
# C147: the order in which nodes and edges are erased does not matter

`remove_node` and `remove_edge` (src/graph/planar_graph.rs:369-516) delete more than they are asked for, renumber the nodes and
move the last edge into a free slot.  What a series of such calls leaves is nevertheless determined by what was asked for.
-/

set_option autoImplicit false

namespace Kami.Graph

open Kami
open scoped Kami
open PlanarGraph

variable {F T U : Type}

/-! ## Specification -/

/-- what a call is asked to erase: a node, or the edge with certain data -/
inductive Target (F T U : Type)
  | node (a : Node F T)
  | edge (x : U)

/-- `h'` is the graph after calls of `remove_node` and `remove_edge` on `h` that erase the targets one after the other, each call
with the index that its target has at that time; no call panics. -/
inductive Erased (p : Profile) : PlanarGraph F T U → List (Target F T U) → PlanarGraph F T U → Prop
  | done (h : PlanarGraph F T U) : Erased p h [] h
  | node {h h1 h' : PlanarGraph F T U} {ts : List (Target F T U)} (k : Nat) (a : Node F T) (r : List Nat × List Nat) :
      h.getVertex k = some a → h.removeNode p k = .ok (h1, r) → Erased p h1 ts h' → Erased p h (.node a :: ts) h'
  | edge {h h1 h' : PlanarGraph F T U} {ts : List (Target F T U)} (k : Nat) (e : Edge U) (r : List Nat × List Nat) :
      h.getEdge k = some e → h.removeEdge p k = .ok (h1, r) → Erased p h1 ts h' → Erased p h (.edge e.data :: ts) h'

/-- an edge with this data and label goes from node `a` to node `b` -/
def Link (g : PlanarGraph F T U) (x : U) (l : String) (a b : Node F T) : Prop :=
  ∃ e ∈ g.edges, e.data = x ∧ e.label = l ∧ g.nodes[e.src]? = some a ∧ g.nodes[e.dst]? = some b

/-- some edge has an end at node `a` -/
def HasLink (g : PlanarGraph F T U) (a : Node F T) : Prop := ∃ x l b, Link g x l a b ∨ Link g x l b a

/-- a simple graph with valid indices whose nodes and edges can be told apart -/
structure Distinct (g : PlanarGraph F T U) : Prop where
  wf : WF g
  loops : LoopFree g
  simple : NoParallel g
  nodes : g.nodes.Nodup
  edges : (g.edges.map Edge.data).Nodup

/-! ## One call -/

theorem nodup_index {α : Type} {l : List α} (h : l.Nodup) {i j : Nat} {a : α} (hi : l[i]? = some a) (hj : l[j]? = some a) : i = j := by
  obtain ⟨h1, e1⟩ := List.getElem?_eq_some_iff.1 hi
  obtain ⟨h2, e2⟩ := List.getElem?_eq_some_iff.1 hj
  exact (List.Nodup.getElem_inj_iff h).1 (e1.trans e2.symm)

theorem Distinct.edge {g : PlanarGraph F T U} (h : Distinct g) {i j : Nat} {e f : Edge U} (hi : g.edges[i]? = some e)
    (hj : g.edges[j]? = some f) (hd : e.data = f.data) : i = j :=
  nodup_index h.edges (a := e.data) (by rw [List.getElem?_map, hi]; rfl) (by rw [List.getElem?_map, hj, hd]; rfl)

theorem linked_iff {g : PlanarGraph F T U} (hd : Distinct g) {i : Nat} {a : Node F T} (hi : g.nodes[i]? = some a) :
    HasLink g a ↔ ∃ e ∈ g.edges, e.src = i ∨ e.dst = i := by
  constructor
  · rintro ⟨x, l, b, ⟨e, he, _, _, h1, h2⟩ | ⟨e, he, _, _, h1, h2⟩⟩
    · exact ⟨e, he, Or.inl (nodup_index hd.nodes h1 hi)⟩
    · exact ⟨e, he, Or.inr (nodup_index hd.nodes h2 hi)⟩
  · rintro ⟨e, he, h⟩
    obtain ⟨w1, w2⟩ := hd.wf e he
    rcases h with rfl | rfl
    · exact ⟨e.data, e.label, g.nodes[e.dst], Or.inl ⟨e, he, rfl, rfl, hi, List.getElem?_eq_getElem w2⟩⟩
    · exact ⟨e.data, e.label, g.nodes[e.src], Or.inr ⟨e, he, rfl, rfl, List.getElem?_eq_getElem w1, hi⟩⟩

theorem Renumbered.mem_nodes {g g' : PlanarGraph F T U} {keep ekeep : List Nat} (h : Renumbered g g' keep ekeep) (a : Node F T) :
    a ∈ g'.nodes ↔ ∃ i ∈ keep, g.nodes[i]? = some a := by
  constructor
  · intro ha
    obtain ⟨k, hk⟩ := List.mem_iff_getElem?.1 ha
    have hlt := (List.getElem?_eq_some_iff.1 hk).1
    rw [h.node_count] at hlt
    obtain ⟨_, h2⟩ := h.nodes k _ (List.getElem?_eq_getElem hlt)
    exact ⟨keep[k], List.getElem_mem hlt, by rw [← h2, hk]⟩
  · rintro ⟨i, hi, ha⟩
    obtain ⟨k, hk⟩ := List.mem_iff_getElem?.1 hi
    obtain ⟨_, h2⟩ := h.nodes k i hk
    exact List.mem_of_getElem? (h2.trans ha)

theorem Renumbered.link {g g' : PlanarGraph F T U} {keep ekeep : List Nat} (h : Renumbered g g' keep ekeep) (x : U) (l : String)
    (a b : Node F T) : Link g' x l a b ↔ ∃ j ∈ ekeep, ∃ e, g.edges[j]? = some e ∧ e.data = x ∧ e.label = l ∧
      g.nodes[e.src]? = some a ∧ g.nodes[e.dst]? = some b := by
  constructor
  · rintro ⟨e', he', h1, h2, h3, h4⟩
    obtain ⟨k, hk⟩ := List.mem_iff_getElem?.1 he'
    have hlt := (List.getElem?_eq_some_iff.1 hk).1
    rw [h.edge_count] at hlt
    obtain ⟨e, e1, i1, i2, i3, i4, i5, i6⟩ := h.edges k _ (List.getElem?_eq_getElem hlt)
    rw [hk] at i2
    cases i2
    refine ⟨ekeep[k], List.getElem_mem hlt, e, i1, i3 ▸ h1, i4 ▸ h2, ?_, ?_⟩
    · rw [← (h.nodes _ _ i5).2, h3]
    · rw [← (h.nodes _ _ i6).2, h4]
  · rintro ⟨j, hj, e, h0, h1, h2, h3, h4⟩
    obtain ⟨k, hk⟩ := List.mem_iff_getElem?.1 hj
    obtain ⟨e0, e1, i1, i2, i3, i4, i5, i6⟩ := h.edges k _ hk
    rw [h0] at i1
    cases i1
    refine ⟨e1, List.mem_of_getElem? i2, i3.trans h1, i4.trans h2, ?_, ?_⟩
    · rw [(h.nodes _ _ i5).2, h3]
    · rw [(h.nodes _ _ i6).2, h4]

/-- with the nodes in their old order -/
theorem Renumbered.sublist {g g' : PlanarGraph F T U} {keep ekeep : List Nat} (h : Renumbered g g' keep ekeep)
    (hk : keep.Pairwise (· < ·)) : g'.nodes.Sublist g.nodes := by
  rw [List.sublist_iff_exists_fin_orderEmbedding_get_eq]
  have hlt : ∀ k : Fin g'.nodes.length, k.1 < keep.length := fun k => h.node_count ▸ k.2
  have hb : ∀ k : Fin g'.nodes.length, keep[k.1]'(hlt k) < g.nodes.length := fun k =>
    (h.nodes k.1 _ (List.getElem?_eq_getElem (hlt k))).1
  refine ⟨OrderEmbedding.ofStrictMono (fun k => ⟨keep[k.1]'(hlt k), hb k⟩) ?_, ?_⟩
  · intro i j hij
    exact (List.pairwise_iff_getElem.1 hk) i.1 j.1 (hlt i) (hlt j) hij
  · intro k
    have := (h.nodes k.1 _ (List.getElem?_eq_getElem (hlt k))).2
    rw [List.getElem?_eq_getElem k.2, List.getElem?_eq_getElem (hb k)] at this
    exact Option.some.inj this

theorem Renumbered.distinct {g g' : PlanarGraph F T U} {keep ekeep : List Nat} (h : Renumbered g g' keep ekeep)
    (hk : keep.Pairwise (· < ·)) (hd : Distinct g) : Distinct g' := by
  refine ⟨h.wf, h.loopFree hd.loops, h.noParallel hd.simple, hd.nodes.sublist (h.sublist hk), ?_⟩
  rw [List.nodup_iff_injective_getElem]
  intro i j hij
  have hi : i.1 < ekeep.length := by rw [← h.edge_count]; simpa using i.2
  have hj : j.1 < ekeep.length := by rw [← h.edge_count]; simpa using j.2
  obtain ⟨e0, e1, i1, i2, i3, _⟩ := h.edges i.1 _ (List.getElem?_eq_getElem hi)
  obtain ⟨f0, f1, j1, j2, j3, _⟩ := h.edges j.1 _ (List.getElem?_eq_getElem hj)
  have e2 := (List.getElem?_eq_some_iff.1 i2).2
  have f2 := (List.getElem?_eq_some_iff.1 j2).2
  simp only [List.getElem_map] at hij
  rw [e2, f2, i3, j3] at hij
  have := hd.edge i1 j1 hij
  exact Fin.ext ((List.Nodup.getElem_inj_iff h.enodup).1 this)

/-- what `g'` has of `g` after the targets `ts` have been erased -/
structure Leaves (g : PlanarGraph F T U) (ts : List (Target F T U)) (g' : PlanarGraph F T U) : Prop where
  order : g'.nodes.Sublist g.nodes
  nodes : ∀ a, a ∈ g'.nodes ↔ a ∈ g.nodes ∧ .node a ∉ ts ∧ (HasLink g a → HasLink g' a)
  links : ∀ x l a b, Link g' x l a b ↔ Link g x l a b ∧ .edge x ∉ ts ∧ .node a ∉ ts ∧ .node b ∉ ts

theorem Leaves.linked {g g' : PlanarGraph F T U} {ts : List (Target F T U)} (h : Leaves g ts g') {a : Node F T} (hl : HasLink g' a) :
    HasLink g a := by
  obtain ⟨x, l, b, hl | hl⟩ := hl
  · exact ⟨x, l, b, Or.inl ((h.links _ _ _ _).1 hl).1⟩
  · exact ⟨x, l, b, Or.inr ((h.links _ _ _ _).1 hl).1⟩

theorem Leaves.cons {g g1 g' : PlanarGraph F T U} {t : Target F T U} {ts : List (Target F T U)} (h : Leaves g [t] g1)
    (h' : Leaves g1 ts g') : Leaves g (t :: ts) g' := by
  refine ⟨h'.order.trans h.order, ?_, ?_⟩
  · intro a
    have h1 := @Leaves.linked _ _ _ _ _ _ h a
    have h2 := @Leaves.linked _ _ _ _ _ _ h' a
    rw [h'.nodes, h.nodes]
    simp only [List.mem_cons, List.not_mem_nil, or_false]
    tauto
  · intro x l a b
    rw [h'.links, h.links]
    simp only [List.mem_cons, List.not_mem_nil, or_false]
    tauto

/-- the nodes that one call leaves: all but the target, unless their only edge goes -/
theorem leaves_of {g g1 : PlanarGraph F T U} (hd : Distinct g) {keep ekeep : List Nat} (hr : Renumbered g g1 keep ekeep) {i : Nat}
    {a : Node F T} (hi : g.nodes[i]? = some a) :
    HasLink g1 a ↔ ∃ j ∈ ekeep, ∃ e, g.edges[j]? = some e ∧ (e.src = i ∨ e.dst = i) := by
  constructor
  · rintro ⟨x, l, b, hx | hx⟩
    · obtain ⟨j, hj, e, h0, _, _, h3, _⟩ := (hr.link _ _ _ _).1 hx
      exact ⟨j, hj, e, h0, Or.inl (nodup_index hd.nodes h3 hi)⟩
    · obtain ⟨j, hj, e, h0, _, _, _, h4⟩ := (hr.link _ _ _ _).1 hx
      exact ⟨j, hj, e, h0, Or.inr (nodup_index hd.nodes h4 hi)⟩
  · rintro ⟨j, hj, e, h0, h1⟩
    obtain ⟨w1, w2⟩ := hd.wf e (List.mem_of_getElem? h0)
    have hl := (hr.link e.data e.label g.nodes[e.src] g.nodes[e.dst]).2
      ⟨j, hj, e, h0, rfl, rfl, List.getElem?_eq_getElem w1, List.getElem?_eq_getElem w2⟩
    rcases h1 with rfl | rfl
    · rw [List.getElem?_eq_getElem w1] at hi
      cases hi
      exact ⟨_, _, _, Or.inl hl⟩
    · rw [List.getElem?_eq_getElem w2] at hi
      cases hi
      exact ⟨_, _, _, Or.inr hl⟩

theorem leaves_node {p : Profile} {g g1 : PlanarGraph F T U} (hd : Distinct g) {k : Nat} {c : Node F T} {r : List Nat × List Nat}
    (hk : g.getVertex k = some c) (h : g.removeNode p k = .ok (g1, r)) : Leaves g [.node c] g1 ∧ Distinct g1 := by
  have hk : g.nodes[k]? = some c := hk
  have hlt := (List.getElem?_eq_some_iff.1 hk).1
  obtain ⟨keep, ekeep, hr, hp, _, hkeep, hek⟩ := C64_remove_node p g hd.wf k hlt
    (fun j e h1 h2 h3 _ => hd.loops e (List.mem_of_getElem? h1) (by rw [h2, h3])) g1 r h
  refine ⟨⟨hr.sublist hp, ?_, ?_⟩, hr.distinct hp hd⟩
  · intro a
    rw [hr.mem_nodes]
    simp only [List.mem_singleton, Target.node.injEq]
    have key : ∀ i, g.nodes[i]? = some a → (¬ StrayNeighbour g k i ∧ i ≠ k ↔ a ≠ c ∧ (HasLink g a → HasLink g1 a)) := by
      intro i hi
      rw [linked_iff hd hi, leaves_of hd hr hi]
      constructor
      · rintro ⟨h1, h2⟩
        refine ⟨by rintro rfl; exact h2 (nodup_index hd.nodes hi hk), ?_⟩
        rintro ⟨e, he, hei⟩
        obtain ⟨j, hj⟩ := List.mem_iff_getElem?.1 he
        by_contra hno
        have hall : ∀ (m : Nat) (f : Edge U), g.edges[m]? = some f → (f.src = i ∨ f.dst = i) →
            (f.src = k ∧ f.dst = i) ∨ (f.src = i ∧ f.dst = k) := by
          intro m f hm hfi
          by_contra hc
          refine hno ⟨m, (hek m).2 ⟨f, hm, ?_, ?_⟩, f, hm, hfi⟩
          · intro hc1; rcases hfi with hfi | hfi
            · exact h2 (hfi.symm.trans hc1)
            · exact hc (Or.inl ⟨hc1, hfi⟩)
          · intro hc1; rcases hfi with hfi | hfi
            · exact hc (Or.inr ⟨hfi, hc1⟩)
            · exact h2 (hfi.symm.trans hc1)
        refine h1 ⟨h2, j, e, hj, hall j e hj hei, ⟨e, hj, hei⟩, ?_⟩
        intro m f hm hfi
        by_contra hne
        refine hd.simple m j f e hm hj hne ?_
        rcases hall m f hm hfi with ⟨a1, a2⟩ | ⟨a1, a2⟩ <;> rcases hall j e hj hei with ⟨b1, b2⟩ | ⟨b1, b2⟩
        · exact Or.inl ⟨b1.trans a1.symm, b2.trans a2.symm⟩
        · exact Or.inr ⟨b1.trans a2.symm, b2.trans a1.symm⟩
        · exact Or.inr ⟨b1.trans a2.symm, b2.trans a1.symm⟩
        · exact Or.inl ⟨b1.trans a1.symm, b2.trans a2.symm⟩
      · rintro ⟨h1, h2⟩
        refine ⟨?_, by rintro rfl; rw [hi] at hk; exact h1 (Option.some.inj hk)⟩
        rintro ⟨_, j, e, hj, he, hon⟩
        have hin : e.src = i ∨ e.dst = i := by rcases he with he | he; exacts [Or.inr he.2, Or.inl he.1]
        obtain ⟨j', hj', f, hf, hfi⟩ := h2 ⟨e, List.mem_of_getElem? hj, hin⟩
        have := hon.2 j' f hf hfi
        subst this
        obtain ⟨e', i0, i1, i2⟩ := (hek j').1 hj'
        rw [hj] at i0
        cases i0
        rcases he with he | he
        · exact i1 he.1
        · exact i2 he.2
    constructor
    · rintro ⟨i, hi, ha⟩
      obtain ⟨_, i2, i3⟩ := (hkeep i).1 hi
      obtain ⟨k1, k2⟩ := (key i ha).1 ⟨i3, i2⟩
      exact ⟨List.mem_of_getElem? ha, k1, k2⟩
    · rintro ⟨ha, hne, hlk⟩
      obtain ⟨i, hi⟩ := List.mem_iff_getElem?.1 ha
      obtain ⟨k1, k2⟩ := (key i hi).2 ⟨hne, hlk⟩
      exact ⟨i, (hkeep i).2 ⟨(List.getElem?_eq_some_iff.1 hi).1, k2, k1⟩, hi⟩
  · intro x l a b
    rw [hr.link]
    simp only [List.mem_singleton, Target.node.injEq, reduceCtorEq, not_false_eq_true, true_and]
    constructor
    · rintro ⟨j, hj, e, h0, h1, h2, h3, h4⟩
      obtain ⟨e', i0, i1, i2⟩ := (hek j).1 hj
      rw [h0] at i0
      cases i0
      refine ⟨⟨e, List.mem_of_getElem? h0, h1, h2, h3, h4⟩, ?_, ?_⟩
      · rintro rfl; exact i1 (nodup_index hd.nodes h3 hk)
      · rintro rfl; exact i2 (nodup_index hd.nodes h4 hk)
    · rintro ⟨⟨e, he, h1, h2, h3, h4⟩, ha, hb⟩
      obtain ⟨j, hj⟩ := List.mem_iff_getElem?.1 he
      refine ⟨j, (hek j).2 ⟨e, hj, ?_, ?_⟩, e, hj, h1, h2, h3, h4⟩
      · rintro rfl; rw [h3] at hk; exact ha (Option.some.inj hk)
      · rintro rfl; rw [h4] at hk; exact hb (Option.some.inj hk)

theorem leaves_edge {p : Profile} {g g1 : PlanarGraph F T U} (hd : Distinct g) {k : Nat} {c : Edge U} {r : List Nat × List Nat}
    (hk : g.getEdge k = some c) (h : g.removeEdge p k = .ok (g1, r)) : Leaves g [.edge c.data] g1 ∧ Distinct g1 := by
  have hk : g.edges[k]? = some c := hk
  obtain ⟨keep, ekeep, hr, hp, hkeep, hek⟩ := C62_remove_edge_partial p g hd.wf k c hk
    (fun hc => absurd hc (hd.loops c (List.mem_of_getElem? hk))) g1 r h
  refine ⟨⟨hr.sublist hp, ?_, ?_⟩, hr.distinct hp hd⟩
  · intro a
    rw [hr.mem_nodes]
    simp only [List.mem_singleton, reduceCtorEq, not_false_eq_true, true_and]
    have key : ∀ i, g.nodes[i]? = some a →
        (¬ ((c.src = i ∨ c.dst = i) ∧ OnlyEdgeAt g k i) ↔ (HasLink g a → HasLink g1 a)) := by
      intro i hi
      rw [linked_iff hd hi, leaves_of hd hr hi]
      constructor
      · intro h1
        rintro ⟨e, he, hei⟩
        obtain ⟨j, hj⟩ := List.mem_iff_getElem?.1 he
        by_contra hno
        have hall : ∀ (m : Nat) (f : Edge U), g.edges[m]? = some f → (f.src = i ∨ f.dst = i) → m = k := by
          intro m f hm hfi
          by_contra hc
          exact hno ⟨m, (hek m).2 ⟨(List.getElem?_eq_some_iff.1 hm).1, hc⟩, f, hm, hfi⟩
        have := hall j e hj hei
        subst this
        rw [hk] at hj
        cases hj
        exact h1 ⟨hei, ⟨c, hk, hei⟩, hall⟩
      · rintro h1 ⟨h2, h3⟩
        obtain ⟨j, hj, e, h4, h5⟩ := h1 ⟨c, List.mem_of_getElem? hk, h2⟩
        exact ((hek j).1 hj).2 (h3.2 j e h4 h5)
    constructor
    · rintro ⟨i, hi, ha⟩
      exact ⟨List.mem_of_getElem? ha, (key i ha).1 ((hkeep i).1 hi).2⟩
    · rintro ⟨ha, hlk⟩
      obtain ⟨i, hi⟩ := List.mem_iff_getElem?.1 ha
      exact ⟨i, (hkeep i).2 ⟨(List.getElem?_eq_some_iff.1 hi).1, (key i hi).2 hlk⟩, hi⟩
  · intro x l a b
    rw [hr.link]
    simp only [List.mem_singleton, Target.edge.injEq, reduceCtorEq, not_false_eq_true, and_true]
    constructor
    · rintro ⟨j, hj, e, h0, h1, h2, h3, h4⟩
      refine ⟨⟨e, List.mem_of_getElem? h0, h1, h2, h3, h4⟩, ?_⟩
      rintro rfl
      exact ((hek j).1 hj).2 (hd.edge h0 hk h1)
    · rintro ⟨⟨e, he, h1, h2, h3, h4⟩, hx⟩
      obtain ⟨j, hj⟩ := List.mem_iff_getElem?.1 he
      refine ⟨j, (hek j).2 ⟨(List.getElem?_eq_some_iff.1 hj).1, ?_⟩, e, hj, h1, h2, h3, h4⟩
      rintro rfl
      rw [hj] at hk
      cases hk
      exact hx h1.symm

/-! ## Any number of calls -/

theorem erased_leaves {p : Profile} {g g' : PlanarGraph F T U} {ts : List (Target F T U)} (h : Erased p g ts g') (hd : Distinct g) :
    Leaves g ts g' ∧ Distinct g' := by
  induction h with
  | done h => exact ⟨⟨List.Sublist.refl _, by simp, by simp⟩, hd⟩
  | node k a r h1 h2 _ ih =>
    obtain ⟨i1, i2⟩ := leaves_node hd h1 h2
    exact ⟨i1.cons (ih i2).1, (ih i2).2⟩
  | edge k e r h1 h2 _ ih =>
    obtain ⟨i1, i2⟩ := leaves_edge hd h1 h2
    exact ⟨i1.cons (ih i2).1, (ih i2).2⟩

/-- **C147.** A simple graph whose nodes and edges can be told apart.  After any calls of `remove_node` and `remove_edge` that do not
panic, debug or release, the edges left are exactly those that were not erased and of whose ends none was erased, with the same
data and labels between the same nodes; the nodes left are exactly those that were not erased and either had no edge in the first place or
still have one, in the old order. -/
theorem C147_left (p : Profile) (g g' : PlanarGraph F T U) (hd : Distinct g) (ts : List (Target F T U)) (h : Erased p g ts g') :
    g'.nodes.Sublist g.nodes ∧
    (∀ a, a ∈ g'.nodes ↔ a ∈ g.nodes ∧ .node a ∉ ts ∧ (HasLink g a → ∃ x l b, (Link g x l a b ∨ Link g x l b a) ∧
      .edge x ∉ ts ∧ .node b ∉ ts)) ∧
    (∀ x l a b, Link g' x l a b ↔ Link g x l a b ∧ .edge x ∉ ts ∧ .node a ∉ ts ∧ .node b ∉ ts) := by
  obtain ⟨h1, h2⟩ := erased_leaves h hd
  refine ⟨h1.order, ?_, h1.links⟩
  intro a
  rw [h1.nodes]
  refine and_congr_right fun _ => and_congr_right fun hn => imp_congr_right fun _ => ?_
  unfold HasLink
  refine exists_congr fun x => exists_congr fun l => exists_congr fun b => ?_
  rw [h1.links, h1.links]
  tauto

theorem sublist_eq {α : Type} : ∀ {l l1 l2 : List α}, l.Nodup → l1.Sublist l → l2.Sublist l → (∀ a, a ∈ l1 ↔ a ∈ l2) → l1 = l2 := by
  classical
  intro l l1 l2 hn h1 h2 hm
  have key : ∀ {m : List α}, m.Sublist l → m = l.filter (· ∈ m) := by
    intro m hs
    refine (List.Sublist.eq_of_length_le ?_ ?_)
    · have := hs.filter (· ∈ m)
      rwa [List.filter_eq_self.2 (by simp)] at this
    · refine ((hn.filter _).subperm ?_).length_le
      intro a ha
      simpa using (List.mem_filter.1 ha).2
  rw [key h1, key h2]
  simp only [hm]

/-- **C147, order.** If two series of removals, in debug or release, ask for the same nodes and edges in different orders and neither panics,
they leave the same nodes with the same numbers and the same edges, at most in different slots. -/
theorem C147_order (p p' : Profile) (g g1 g2 : PlanarGraph F T U) (hd : Distinct g) (ts ts' : List (Target F T U))
    (h : Erased p g ts g1) (h' : Erased p' g ts' g2) (hts : ∀ t, t ∈ ts ↔ t ∈ ts') :
    g1.nodes = g2.nodes ∧ g1.edges.Perm g2.edges := by
  obtain ⟨a1, a2, a3⟩ := C147_left p g g1 hd ts h
  obtain ⟨b1, b2, b3⟩ := C147_left p' g g2 hd ts' h'
  have d1 := (erased_leaves h hd).2
  have d2 := (erased_leaves h' hd).2
  have hn : g1.nodes = g2.nodes := by
    refine sublist_eq hd.nodes a1 b1 ?_
    intro a
    rw [a2, b2]
    simp only [hts]
  refine ⟨hn, ?_⟩
  rw [List.perm_ext_iff_of_nodup (List.Nodup.of_map _ d1.edges) (List.Nodup.of_map _ d2.edges)]
  have hlink : ∀ x l a b, Link g1 x l a b ↔ Link g2 x l a b := by
    intro x l a b
    rw [a3, b3]
    simp only [hts]
  have one : ∀ {u v : PlanarGraph F T U}, Distinct u → Distinct v → u.nodes = v.nodes →
      (∀ x l a b, Link u x l a b → Link v x l a b) → ∀ e ∈ u.edges, e ∈ v.edges := by
    intro u v hu hv huv hl e he
    obtain ⟨w1, w2⟩ := hu.wf e he
    obtain ⟨f, hf, i1, i2, i3, i4⟩ := hl e.data e.label u.nodes[e.src] u.nodes[e.dst]
      ⟨e, he, rfl, rfl, List.getElem?_eq_getElem w1, List.getElem?_eq_getElem w2⟩
    rw [← huv] at i3 i4
    have j1 := nodup_index hu.nodes i3 (List.getElem?_eq_getElem w1)
    have j2 := nodup_index hu.nodes i4 (List.getElem?_eq_getElem w2)
    have : f = e := by
      cases f; cases e; simp only at i1 i2 j1 j2; subst i1; subst i2; subst j1; subst j2; rfl
    rwa [← this]
  intro e
  exact ⟨one d1 d2 hn (fun x l a b => (hlink x l a b).1) e, one d2 d1 hn.symm (fun x l a b => (hlink x l a b).2) e⟩

/-! ## Cases -/

/-- a path of five nodes -/
def pathGraph : PlanarGraph ℚ Unit Nat :=
  ⟨[⟨⟨0, 0⟩, (), ""⟩, ⟨⟨1, 0⟩, (), ""⟩, ⟨⟨2, 0⟩, (), ""⟩, ⟨⟨3, 0⟩, (), ""⟩, ⟨⟨4, 0⟩, (), ""⟩],
    [⟨0, 1, 10, ""⟩, ⟨1, 2, 11, ""⟩, ⟨2, 3, 12, ""⟩, ⟨3, 4, 13, ""⟩]⟩

theorem pathGraph_distinct : Distinct pathGraph := by
  refine ⟨?_, ?_, ?_, ?_, ?_⟩
  · unfold WF pathGraph; decide
  · unfold LoopFree pathGraph; decide
  · intro k l e f hk hl hne hj
    rcases k with _ | _ | _ | _ | k <;> rcases l with _ | _ | _ | _ | l <;>
      first | exact absurd rfl hne | (cases hk; done) | (cases hl; done) | (cases hk; cases hl; simp [Joins] at hj)
  · simp [pathGraph]
  · simp [pathGraph]

/-- the second node and then the third edge: the first and the third node go as well, and what is left has two nodes -/
example : Erased .debug pathGraph [.node ⟨⟨1, 0⟩, (), ""⟩, .edge 12] ⟨[⟨⟨3, 0⟩, (), ""⟩, ⟨⟨4, 0⟩, (), ""⟩], [⟨0, 1, 13, ""⟩]⟩ :=
  .node (h1 := ⟨[⟨⟨2, 0⟩, (), ""⟩, ⟨⟨3, 0⟩, (), ""⟩, ⟨⟨4, 0⟩, (), ""⟩], [⟨0, 1, 12, ""⟩, ⟨1, 2, 13, ""⟩]⟩)
    1 _ ([0, 1, 2, 3, 4], [0, 1, 2, 3]) rfl rfl (.edge 0 ⟨0, 1, 12, ""⟩ ([0, 1, 2], [0, 1]) rfl rfl (.done _))

/-- the other order -/
example : Erased .release pathGraph [.edge 12, .node ⟨⟨1, 0⟩, (), ""⟩] ⟨[⟨⟨3, 0⟩, (), ""⟩, ⟨⟨4, 0⟩, (), ""⟩], [⟨0, 1, 13, ""⟩]⟩ :=
  .edge (h1 := ⟨pathGraph.nodes, [⟨0, 1, 10, ""⟩, ⟨1, 2, 11, ""⟩, ⟨3, 4, 13, ""⟩]⟩)
    2 ⟨2, 3, 12, ""⟩ ([], [2, 3]) rfl rfl (.node 1 _ ([0, 1, 2, 3, 4], [0, 1, 2]) rfl rfl (.done _))

/-- two edges between the first two nodes, one to the third -/
def doubleGraph : PlanarGraph ℚ Unit Nat :=
  ⟨[⟨⟨0, 0⟩, (), ""⟩, ⟨⟨1, 0⟩, (), ""⟩, ⟨⟨2, 0⟩, (), ""⟩], [⟨0, 1, 10, ""⟩, ⟨0, 1, 11, ""⟩, ⟨0, 2, 12, ""⟩]⟩

/-- **C147 needs that no two edges join the same nodes.**  A node that loses two edges in one call is not taken for a stray one: with
`doubleGraph`, erasing the second and then the third node leaves nothing, erasing the third and then the second leaves the first
node. -/
theorem C147_sharp_double (p : Profile) :
    Erased p doubleGraph [.node ⟨⟨1, 0⟩, (), ""⟩, .node ⟨⟨2, 0⟩, (), ""⟩] ⟨[], []⟩ ∧
    Erased p doubleGraph [.node ⟨⟨2, 0⟩, (), ""⟩, .node ⟨⟨1, 0⟩, (), ""⟩] ⟨[⟨⟨0, 0⟩, (), ""⟩], []⟩ := by
  constructor
  · exact .node (h1 := ⟨[⟨⟨0, 0⟩, (), ""⟩, ⟨⟨2, 0⟩, (), ""⟩], [⟨0, 1, 12, ""⟩]⟩) 1 _ ([1, 2], [0, 1, 2]) rfl (by cases p <;> rfl)
      (.node 1 _ ([0, 1], [0]) rfl (by cases p <;> rfl) (.done _))
  · exact .node (h1 := ⟨[⟨⟨0, 0⟩, (), ""⟩, ⟨⟨1, 0⟩, (), ""⟩], [⟨0, 1, 10, ""⟩, ⟨0, 1, 11, ""⟩]⟩) 2 _ ([2], [2]) rfl (by cases p <;> rfl)
      (.node 1 _ ([1], [0, 1]) rfl (by cases p <;> rfl) (.done _))

/-- **C147, panics.** Whether a series of removals panics does depend on the order: in a triangle the edges in the first and the last slot
can be erased in this order, but erasing the last one first panics. -/
theorem C147_sharp_panic (p : Profile) (a b c : Node ℚ Unit) :
    Erased p ⟨[a, b, c], [⟨0, 1, 10, ""⟩, ⟨1, 2, 11, ""⟩, ⟨2, 0, 12, ""⟩]⟩ [.edge 10, .edge 12] ⟨[b, c], [⟨0, 1, 11, ""⟩]⟩ ∧
    (⟨[a, b, c], [⟨0, 1, 10, ""⟩, ⟨1, 2, 11, ""⟩, ⟨2, 0, 12, ""⟩]⟩ : PlanarGraph ℚ Unit ℕ).removeEdge p 2 = .error .indexOutOfBounds := by
  refine ⟨?_, by cases p <;> rfl⟩
  exact .edge (h1 := ⟨[a, b, c], [⟨2, 0, 12, ""⟩, ⟨1, 2, 11, ""⟩]⟩) 0 ⟨0, 1, 10, ""⟩ ([], [0, 2]) rfl (by cases p <;> rfl)
    (.edge 0 ⟨2, 0, 12, ""⟩ ([0, 1, 2], [0, 1]) rfl (by cases p <;> rfl) (.done _))

end Kami.Graph
