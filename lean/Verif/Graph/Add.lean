import Verif.Graph.Basic
import Mathlib.Logic.Relation
/-!
# What adding does

`add_node` and `add_edge` (src/graph/planar_graph.rs:180-366) for any arithmetic: no panics, stable numbering, data
inheritance, connectivity, reported indices.
-/

set_option autoImplicit false

namespace Kami.Graph

open Kami
open scoped Kami
open PlanarGraph

variable {F T U : Type}

/-! ## Specification -/

/-- edge `e` joins nodes `i` and `j` -/
def Joins (e : Edge U) (i j : Nat) : Prop := (e.src = i ∧ e.dst = j) ∨ (e.src = j ∧ e.dst = i)

/-- some edge joins `i` and `j` -/
def Adj (g : PlanarGraph F T U) (i j : Nat) : Prop := ∃ e ∈ g.edges, Joins e i j

/-- a path joins `i` and `j` -/
def Conn (g : PlanarGraph F T U) : Nat → Nat → Prop := Relation.ReflTransGen (Adj g)

/-- `i` and `j` are joined by a path consisting of edges in slots `k` with `P k` -/
def PathIn (g : PlanarGraph F T U) (P : Nat → Prop) : Nat → Nat → Prop :=
  Relation.ReflTransGen fun i j => ∃ k e, P k ∧ g.edges[k]? = some e ∧ Joins e i j

/-- `origin` sends the edge slots of `g'` to the slots of `g` they come from: old slots to themselves, with the same data,
and the pieces of an old edge form a path between its ends. -/
structure Refines (g g' : PlanarGraph F T U) (origin : Nat → Nat) : Prop where
  old : ∀ k, k < g.edges.length → origin k = k ∧ k < g'.edges.length
  data : ∀ k e', g'.edges[k]? = some e' → ∃ e, g.edges[origin k]? = some e ∧ e'.data = e.data
  path : ∀ k e, g.edges[k]? = some e → PathIn g' (fun k' => origin k' = k) e.src e.dst

theorem rtg_mono {r q : Nat → Nat → Prop} (h : ∀ a b, r a b → q a b) {i j : Nat} (hc : Relation.ReflTransGen r i j) :
    Relation.ReflTransGen q i j := by
  induction hc with
  | refl => exact .refl
  | tail _ hb ih => exact ih.tail (h _ _ hb)

theorem rtg_symm {r : Nat → Nat → Prop} (h : ∀ a b, r a b → r b a) {i j : Nat} (hc : Relation.ReflTransGen r i j) :
    Relation.ReflTransGen r j i := by
  induction hc with
  | refl => exact .refl
  | tail _ hb ih => exact ih.head (h _ _ hb)

theorem Joins.symm {e : Edge U} {i j : Nat} (h : Joins e i j) : Joins e j i := Or.symm h

theorem PathIn.symm {g : PlanarGraph F T U} {P : Nat → Prop} {i j : Nat} (h : PathIn g P i j) : PathIn g P j i := by
  refine rtg_symm ?_ h
  rintro a b ⟨k, e, h1, h2, h3⟩
  exact ⟨k, e, h1, h2, h3.symm⟩

theorem PathIn.conn {g : PlanarGraph F T U} {P : Nat → Prop} {i j : Nat} (h : PathIn g P i j) : Conn g i j := by
  refine rtg_mono ?_ h
  rintro a b ⟨k, e, _, h2, h3⟩
  exact ⟨e, List.mem_of_getElem? h2, h3⟩

theorem Conn.symm {g : PlanarGraph F T U} {i j : Nat} (h : Conn g i j) : Conn g j i := by
  refine rtg_symm ?_ h
  rintro a b ⟨e, h1, h2⟩
  exact ⟨e, h1, h2.symm⟩

theorem Refines.refl (g : PlanarGraph F T U) : Refines g g fun k => k where
  old _ hk := ⟨rfl, hk⟩
  data _ e' h := ⟨e', h, rfl⟩
  path k e h := Relation.ReflTransGen.single ⟨k, e, rfl, h, Or.inl ⟨rfl, rfl⟩⟩

theorem Refines.trans {g g1 g2 : PlanarGraph F T U} {o1 o2 : Nat → Nat} (h1 : Refines g g1 o1) (h2 : Refines g1 g2 o2) :
    Refines g g2 (fun k => o1 (o2 k)) where
  old k hk := by
    obtain ⟨a, b⟩ := h1.old k hk
    obtain ⟨c, d⟩ := h2.old k b
    exact ⟨by rw [c, a], d⟩
  data k e' h := by
    obtain ⟨e1, a, b⟩ := h2.data k e' h
    obtain ⟨e, c, d⟩ := h1.data _ e1 a
    exact ⟨e, c, b.trans d⟩
  path k e h := by
    have hp := h1.path k e h
    unfold PathIn at hp ⊢
    refine Relation.ReflTransGen.trans_induction_on
      (motive := fun {i j} _ => Relation.ReflTransGen (fun i j => ∃ k' e, o1 (o2 k') = k ∧ g2.edges[k']? = some e ∧ Joins e i j) i j)
      hp ?_ ?_ ?_
    · intro i; exact .refl
    · rintro i j ⟨k1, e1, a, b, c⟩
      have hq : PathIn g2 (fun k' => o1 (o2 k') = k) e1.src e1.dst := by
        refine rtg_mono ?_ (h2.path k1 e1 b)
        rintro x y ⟨k2, e2, p, q, r⟩
        exact ⟨k2, e2, by simp only at p ⊢; rw [p, a], q, r⟩
      rcases c with ⟨rfl, rfl⟩ | ⟨rfl, rfl⟩
      · exact hq
      · exact hq.symm
    · intro i j l _ _ x y; exact x.trans y

theorem Refines.conn {g g' : PlanarGraph F T U} {o : Nat → Nat} (h : Refines g g' o) {i j : Nat} (hc : Conn g i j) :
    Conn g' i j := by
  unfold Conn at hc ⊢
  refine Relation.ReflTransGen.trans_induction_on
    (motive := fun {i j} _ => Relation.ReflTransGen (Adj g') i j) hc ?_ ?_ ?_
  · intro i; exact .refl
  · rintro i j ⟨e, a, b⟩
    obtain ⟨k, hk⟩ := List.mem_iff_getElem?.1 a
    have hp : Conn g' e.src e.dst := (h.path k e hk).conn
    rcases b with ⟨rfl, rfl⟩ | ⟨rfl, rfl⟩
    · exact hp
    · exact hp.symm
  · intro i j l _ _ x y; exact x.trans y

section
variable [Scalar F]

/-- slots of the edges that get split at `id` -/
def onSlots (g : PlanarGraph F T U) (id : Nat) : List Nat :=
  ((g.edges.zipIdx).filter (fun x => onTest g.nodes id x.1)).map Prod.snd

theorem onSlots_edges (g : PlanarGraph F T U) (id : Nat) :
    ((g.edges.zipIdx).filter (fun x => onTest g.nodes id x.1)).map Prod.fst = g.edges.filter (onTest g.nodes id) := by
  conv_rhs => rw [← List.zipIdx_map_fst 0 g.edges]
  rw [List.filter_map]
  rfl

theorem onSlots_length (g : PlanarGraph F T U) (id : Nat) :
    (onSlots g id).length = (g.edges.filter (onTest g.nodes id)).length := by
  rw [← onSlots_edges]; simp [onSlots]

theorem mem_onSlots {g : PlanarGraph F T U} {id k : Nat} :
    k ∈ onSlots g id ↔ ∃ e, g.edges[k]? = some e ∧ onTest g.nodes id e = true := by
  simp only [onSlots, List.mem_map, List.mem_filter]
  constructor
  · rintro ⟨⟨e, j⟩, ⟨h1, h2⟩, rfl⟩; exact ⟨e, List.mk_mem_zipIdx_iff_getElem?.1 h1, h2⟩
  · rintro ⟨e, h1, h2⟩; exact ⟨(e, k), ⟨List.mk_mem_zipIdx_iff_getElem?.2 h1, h2⟩, rfl⟩

theorem onSlots_nodup (g : PlanarGraph F T U) (id : Nat) : (onSlots g id).Nodup := by
  have h1 : ((g.edges.zipIdx).map Prod.snd).Nodup := by
    rw [List.zipIdx_map_snd]; exact List.nodup_range'
  exact h1.sublist (List.filter_sublist.map _)

theorem splitChanged_eq (g : PlanarGraph F T U) (id : Nat) :
    splitChanged g id = onSlots g id ++ List.range' g.edges.length (onSlots g id).length := by
  unfold splitChanged
  rw [onSlots_length]; rfl

/-- old slots after a split -/
theorem splitAt_get_old {g : PlanarGraph F T U} {id k : Nat} {e : Edge U} (h : g.edges[k]? = some e) :
    (splitAt g id).edges[k]? = some (if onTest g.nodes id e then nearHalf id e else e) := by
  have hk := (List.getElem?_eq_some_iff.1 h).1
  simp only [splitAt]
  rw [List.getElem?_append_left (by simpa using hk), List.getElem?_map, h]
  rfl

/-- appended slots after a split: the `m`-th one holds the far half of the edge in the `m`-th split slot -/
theorem splitAt_get_new (g : PlanarGraph F T U) (id m : Nat) :
    (splitAt g id).edges[g.edges.length + m]? =
      ((onSlots g id)[m]?).bind fun k => (g.edges[k]?).map (farHalf id) := by
  simp only [splitAt]
  rw [List.getElem?_append_right (by simp), List.length_map, Nat.add_sub_cancel_left, List.getElem?_map,
    ← onSlots_edges, onSlots, List.getElem?_map, List.getElem?_map]
  cases h : (List.filter (fun x => onTest g.nodes id x.1) g.edges.zipIdx)[m]? with
  | none => rfl
  | some x =>
    obtain ⟨e, k⟩ := x
    have hm := List.mem_of_getElem? h
    have := List.mk_mem_zipIdx_iff_getElem?.1 (List.mem_filter.1 hm).1
    simp [this]

theorem splitAt_length (g : PlanarGraph F T U) (id : Nat) :
    (splitAt g id).edges.length = g.edges.length + (onSlots g id).length := by
  rw [onSlots_length]; simp [splitAt]

/-- origin of the slots of a split graph -/
def splitOrigin (g : PlanarGraph F T U) (id : Nat) (k : Nat) : Nat :=
  if k < g.edges.length then k else ((onSlots g id)[k - g.edges.length]?).getD k

theorem splitAt_refines (g : PlanarGraph F T U) (id : Nat) : Refines g (splitAt g id) (splitOrigin g id) where
  old k hk := ⟨by simp [splitOrigin, hk], by rw [splitAt_length]; omega⟩
  data k e' h := by
    by_cases hk : k < g.edges.length
    · rw [show splitOrigin g id k = k by simp [splitOrigin, hk]]
      refine ⟨g.edges[k], List.getElem?_eq_getElem hk, ?_⟩
      rw [splitAt_get_old (List.getElem?_eq_getElem hk)] at h
      simp only [Option.some.injEq] at h
      rw [← h]
      split <;> rfl
    · obtain ⟨m, rfl⟩ := Nat.exists_eq_add_of_le (Nat.le_of_not_lt hk)
      rw [splitAt_get_new] at h
      obtain ⟨j, hj, he⟩ := Option.bind_eq_some_iff.1 h
      obtain ⟨e, he2, rfl⟩ := Option.map_eq_some_iff.1 he
      refine ⟨e, ?_, rfl⟩
      simp only [splitOrigin, hk, if_false, Nat.add_sub_cancel_left, hj, Option.getD_some, he2]
  path k e h := by
    have hk := (List.getElem?_eq_some_iff.1 h).1
    have hold := splitAt_get_old (id := id) h
    by_cases ho : onTest g.nodes id e = true
    · rw [if_pos ho] at hold
      have hs := mem_onSlots.2 ⟨e, h, ho⟩
      obtain ⟨m, hm⟩ := List.mem_iff_getElem?.1 hs
      have hnew := splitAt_get_new g id m
      rw [hm, Option.bind_some, h, Option.map_some] at hnew
      refine Relation.ReflTransGen.trans (b := id)
        (Relation.ReflTransGen.single ⟨k, _, by simp [splitOrigin, hk], hold, Or.inl ⟨rfl, rfl⟩⟩)
        (Relation.ReflTransGen.single ⟨_, _, ?_, hnew, Or.inr ⟨rfl, rfl⟩⟩)
      simp only [splitOrigin, Nat.not_lt.2 (Nat.le_add_right _ _), if_false, Nat.add_sub_cancel_left, hm,
        Option.getD_some]
    · rw [if_neg ho] at hold
      exact Relation.ReflTransGen.single ⟨k, e, by simp [splitOrigin, hk], hold, Or.inl ⟨rfl, rfl⟩⟩

omit [Scalar F] in
theorem Refines.of_edges_eq {g g1 g' : PlanarGraph F T U} {o : Nat → Nat} (h : Refines g1 g' o) (he : g.edges = g1.edges) :
    Refines g g' o where
  old k hk := h.old k (by rw [← he]; exact hk)
  data k e' hk := by rw [he]; exact h.data k e' hk
  path k e hk := h.path k e (by rw [← he]; exact hk)

theorem insertPt_refines [Inhabited T] (g : PlanarGraph F T U) (x : Vec2 F) : ∃ o, Refines g (insertPt g x) o := by
  unfold insertPt
  split
  · exact ⟨_, splitAt_refines g _⟩
  · exact ⟨_, (splitAt_refines (pushNode g x default) _).of_edges_eq rfl⟩

theorem inserts_refines [Inhabited T] {g g' : PlanarGraph F T U} {xs : List (Vec2 F)} {cn ce : List Nat}
    (h : Inserts g xs g' cn ce) : ∃ o, Refines g g' o := by
  induction h with
  | nil g => exact ⟨_, .refl g⟩
  | cons g x xs g' cn ce _ ih =>
    obtain ⟨o1, h1⟩ := insertPt_refines g x
    obtain ⟨o2, h2⟩ := ih
    exact ⟨_, h1.trans h2⟩

theorem insertPt_nodes [Inhabited T] (g : PlanarGraph F T U) (x : Vec2 F) :
    ∃ l, (insertPt g x).nodes = g.nodes ++ l ∧ (insertNodes g x) = List.range' g.nodes.length l.length := by
  unfold insertPt insertNodes
  split
  · exact ⟨[], by simp [splitAt]⟩
  · exact ⟨[_], rfl, rfl⟩

theorem inserts_nodes [Inhabited T] {g g' : PlanarGraph F T U} {xs : List (Vec2 F)} {cn ce : List Nat}
    (h : Inserts g xs g' cn ce) : ∃ l, g'.nodes = g.nodes ++ l ∧ cn = List.range' g.nodes.length l.length := by
  induction h with
  | nil g => exact ⟨[], by simp⟩
  | cons g x xs g' cn ce _ ih =>
    obtain ⟨l1, h1, h2⟩ := insertPt_nodes g x
    obtain ⟨l2, h3, h4⟩ := ih
    refine ⟨l1 ++ l2, by rw [h3, h1, List.append_assoc], ?_⟩
    rw [h2, h4, h1, List.length_append, List.length_append]
    simp

theorem inserts_wf [Inhabited T] {g g' : PlanarGraph F T U} {xs : List (Vec2 F)} {cn ce : List Nat}
    (h : Inserts g xs g' cn ce) : WF g → WF g' := by
  induction h with
  | nil g => exact fun h => h
  | cons g x xs g' cn ce _ ih => exact fun h => ih (h.insertPt x)

/-! ## C50, C53, C54, C55, C56 -/

/-- **C50.** On every graph whose edges refer to existing nodes (see `C49` and `C50_history_partial` for the histories that lead there), `add_node` and
`add_edge` return, and the resulting graph is of this kind again. -/
theorem C50_no_panic [Inhabited T] (g : PlanarGraph F T U) (hwf : WF g) :
    (∀ pos data, ∃ g' r, g.addNode pos data = .ok (g', r) ∧ WF g') ∧
    (∀ s d x, ∃ g' r, g.addEdge s d x = .ok (g', r) ∧ WF g') := by
  refine ⟨fun pos data => ⟨_, _, addNode_ok g hwf pos data, hwf.addNodeG pos data⟩, fun s d x => ?_⟩
  rcases addEdge_ok g hwf s d x with ⟨_, h⟩ | ⟨_, _, h⟩ | ⟨_, hs, hd, g', cn, ce, hi, h⟩
  · exact ⟨_, _, h, hwf⟩
  · exact ⟨_, _, h, hwf⟩
  · exact ⟨_, _, h, inserts_wf hi (hwf.pushEdge hs hd x)⟩

theorem addNode_nodes {g g' : PlanarGraph F T U} (hwf : WF g) {x : Vec2 F} {data : T} {r : Nat × List Nat}
    (h : g.addNode x data = .ok (g', r)) : ∃ l, g'.nodes = g.nodes ++ l := by
  rw [addNode_ok g hwf] at h
  simp only [Except.ok.injEq, Prod.mk.injEq] at h
  rw [← h.1]
  unfold addNodeG
  split
  · exact ⟨[], by simp⟩
  · exact ⟨_, rfl⟩

/-- **C53.** `add_node` and `add_edge` keep every existing node (position, data, label) at its index. -/
theorem C53_nodes_stable [Inhabited T] (g : PlanarGraph F T U) (hwf : WF g) (g' : PlanarGraph F T U) (i : Nat)
    (node : Node F T) (hi : g.getVertex i = some node) :
    (∀ pos data r, g.addNode pos data = .ok (g', r) → g'.getVertex i = some node) ∧
    (∀ s d x r, g.addEdge s d x = .ok (g', r) → g'.getVertex i = some node) := by
  have key : ∀ l, g'.nodes = g.nodes ++ l → g'.getVertex i = some node := by
    intro l hl
    unfold getVertex at *
    rw [hl, List.getElem?_append_left (List.getElem?_eq_some_iff.1 hi).1, hi]
  refine ⟨fun pos data r h => ?_, fun s d x r h => ?_⟩
  · obtain ⟨l, hl⟩ := addNode_nodes hwf h
    exact key l hl
  · rcases addEdge_ok g hwf s d x with ⟨_, h'⟩ | ⟨_, _, h'⟩ | ⟨_, _, _, g1, cn, ce, hi', h'⟩
    · rw [h] at h'; cases h'; exact hi
    · rw [h] at h'; cases h'; exact hi
    · rw [h] at h'
      simp only [Except.ok.injEq, Prod.mk.injEq] at h'
      obtain ⟨rfl, _⟩ := h'
      obtain ⟨l, hl, _⟩ := inserts_nodes hi'
      exact key l hl

theorem addNode_refines {g g' : PlanarGraph F T U} (hwf : WF g) {x : Vec2 F} {data : T} {r : Nat × List Nat}
    (h : g.addNode x data = .ok (g', r)) : ∃ o, Refines g g' o := by
  rw [addNode_ok g hwf] at h
  simp only [Except.ok.injEq, Prod.mk.injEq] at h
  rw [← h.1]
  unfold addNodeG
  split
  · exact ⟨_, .refl g⟩
  · exact ⟨_, (splitAt_refines (pushNode g x data) _).of_edges_eq rfl⟩

/-- `add_edge` refines either the old graph or the old graph with the new edge appended -/
theorem addEdge_refines [Inhabited T] {g g' : PlanarGraph F T U} (hwf : WF g) {s d : Nat} {x : U}
    {r : Except PlanarGraphError (List Nat × List Nat)} (h : g.addEdge s d x = .ok (g', r)) :
    g' = g ∨ ∃ o, Refines (pushEdge g s d x) g' o := by
  rcases addEdge_ok g hwf s d x with ⟨_, h'⟩ | ⟨_, _, h'⟩ | ⟨_, _, _, g1, cn, ce, hi, h'⟩
  · rw [h] at h'; cases h'; exact Or.inl rfl
  · rw [h] at h'; cases h'; exact Or.inl rfl
  · rw [h] at h'
    simp only [Except.ok.injEq, Prod.mk.injEq] at h'
    obtain ⟨rfl, _⟩ := h'
    exact Or.inr (inserts_refines hi)

omit [Scalar F] in
theorem hasEdge_iff (g : PlanarGraph F T U) (s d : Nat) : g.hasEdgeBetweenNodes s d = true ↔ Adj g s d := by
  unfold hasEdgeBetweenNodes Adj Joins
  rw [List.any_eq_true]
  refine exists_congr fun e => and_congr_right fun _ => ?_
  simp only [Bool.or_eq_true, beq_iff_eq, Prod.mk.injEq]
  constructor
  · rintro (⟨h1, h2⟩ | ⟨h1, h2⟩)
    · exact Or.inl ⟨h1.symm, h2.symm⟩
    · exact Or.inr ⟨h1.symm, h2.symm⟩
  · rintro (⟨h1, h2⟩ | ⟨h1, h2⟩)
    · exact Or.inl ⟨h1.symm, h2.symm⟩
    · exact Or.inr ⟨h1.symm, h2.symm⟩

/-- **C54.** Nodes joined by a path stay joined after `add_node` and `add_edge`; after `add_edge(s, d)` returned `Ok`, the
nodes `s` and `d` are joined by a path. -/
theorem C54_connected [Inhabited T] (g : PlanarGraph F T U) (hwf : WF g) (g' : PlanarGraph F T U) :
    (∀ pos data r, g.addNode pos data = .ok (g', r) → ∀ i j, Conn g i j → Conn g' i j) ∧
    (∀ s d x r, g.addEdge s d x = .ok (g', r) → ∀ i j, Conn g i j → Conn g' i j) ∧
    (∀ s d x l, g.addEdge s d x = .ok (g', .ok l) → Conn g' s d) := by
  refine ⟨fun pos data r h i j hc => ?_, fun s d x r h i j hc => ?_, fun s d x l h => ?_⟩
  · obtain ⟨o, ho⟩ := addNode_refines hwf h
    exact ho.conn hc
  · rcases addEdge_refines hwf h with rfl | ⟨o, ho⟩
    · exact hc
    · refine ho.conn (rtg_mono ?_ hc)
      rintro a b ⟨e, h1, h2⟩
      exact ⟨e, List.mem_append_left _ h1, h2⟩
  · rcases addEdge_ok g hwf s d x with ⟨hb, h'⟩ | ⟨_, _, h'⟩ | ⟨_, _, _, g1, cn, ce, hi, h'⟩
    · rw [h] at h'; cases h'
      exact Relation.ReflTransGen.single ((hasEdge_iff g s d).1 hb)
    · rw [h] at h'; cases h'
    · rw [h] at h'
      simp only [Except.ok.injEq, Prod.mk.injEq] at h'
      obtain ⟨rfl, _⟩ := h'
      obtain ⟨o, ho⟩ := inserts_refines hi
      exact ho.conn (Relation.ReflTransGen.single ⟨⟨s, d, x, defaultLabel⟩, by simp [pushEdge], Or.inl ⟨rfl, rfl⟩⟩)

/-- **C55.** `add_edge(s, d)`: with an `s`-`d` edge present (in either direction) it returns `Ok` with empty lists and leaves
the graph unchanged; it returns `Err` exactly if there is none and `s` or `d` is not a node, and then the graph is
unchanged and the error is `NoSuchVertex`. -/
theorem C55_rejects [Inhabited T] (g : PlanarGraph F T U) (hwf : WF g) (s d : Nat) (x : U) :
    ((∃ e ∈ g.edges, (e.src = s ∧ e.dst = d) ∨ (e.src = d ∧ e.dst = s)) → g.addEdge s d x = .ok (g, .ok ([], []))) ∧
    ((∃ g' err, g.addEdge s d x = .ok (g', .error err)) ↔
      (¬ ∃ e ∈ g.edges, (e.src = s ∧ e.dst = d) ∨ (e.src = d ∧ e.dst = s)) ∧
        (g.getVertex s = none ∨ g.getVertex d = none)) ∧
    (∀ g' err, g.addEdge s d x = .ok (g', .error err) → g' = g ∧ err = .NoSuchVertex) := by
  have hiff : g.hasEdgeBetweenNodes s d = true ↔ ∃ e ∈ g.edges, (e.src = s ∧ e.dst = d) ∨ (e.src = d ∧ e.dst = s) :=
    hasEdge_iff g s d
  have hv : (g.getVertex s = none ∨ g.getVertex d = none) ↔ ¬ (s < g.nodes.length ∧ d < g.nodes.length) := by
    unfold getVertex
    rw [List.getElem?_eq_none_iff, List.getElem?_eq_none_iff]
    omega
  rw [← hiff, hv]
  rcases addEdge_ok g hwf s d x with ⟨h1, h'⟩ | ⟨h1, h2, h'⟩ | ⟨h1, h2, h3, g1, cn, ce, hi, h'⟩
  · rw [h', h1]; simp
  · rw [h', h1]; simp; omega
  · rw [h', h1]; simp; omega

/-- **C56.** After `add_node` every edge slot has an origin slot with the same data (old slots are their own origin) and the
pieces of every old edge form a path between its ends.  After `add_edge` the same holds relative to the old graph or
to the old graph with the new edge appended. -/
theorem C56_inherit [Inhabited T] (g : PlanarGraph F T U) (hwf : WF g) (g' : PlanarGraph F T U) :
    (∀ pos data r, g.addNode pos data = .ok (g', r) → ∃ origin, Refines g g' origin) ∧
    (∀ s d x r, g.addEdge s d x = .ok (g', r) →
      g' = g ∨ ∃ origin, Refines ⟨g.nodes, g.edges ++ [⟨s, d, x, ""⟩]⟩ g' origin) :=
  ⟨fun _ _ _ h => addNode_refines hwf h, fun _ _ _ _ h => addEdge_refines hwf h⟩

/-! ## C57, C58: reported indices -/

/-- **C57.** The list returned by `add_node` has no repetitions and consists exactly of the edge slots whose content differs
from before (new slots included). -/
theorem C57_changed_edges (g : PlanarGraph F T U) (hwf : WF g) (pos : Vec2 F) (data : T) (g' : PlanarGraph F T U)
    (i : Nat) (changed : List Nat) (h : g.addNode pos data = .ok (g', (i, changed))) :
    changed.Nodup ∧ ∀ k, k ∈ changed ↔ g'.edges[k]? ≠ g.edges[k]? := by
  rw [addNode_ok g hwf] at h
  unfold addNodeG at h
  split at h
  · cases h; exact ⟨List.nodup_nil, by simp⟩
  · simp only [Except.ok.injEq, Prod.mk.injEq] at h
    obtain ⟨rfl, rfl, rfl⟩ := h
    rw [splitChanged_eq]
    constructor
    · rw [List.nodup_append]
      refine ⟨onSlots_nodup _ _, List.nodup_range', ?_⟩
      intro a ha b hb
      obtain ⟨e, he, _⟩ := mem_onSlots.1 ha
      have := (List.getElem?_eq_some_iff.1 he).1
      rw [List.mem_range'_1] at hb
      omega
    · intro k
      rw [List.mem_append, List.mem_range'_1]
      by_cases hk : k < g.edges.length
      · have he := List.getElem?_eq_getElem hk
        have hsp := splitAt_get_old (g := pushNode g pos data) (id := g.nodes.length) he
        rw [hsp, he, mem_onSlots]
        have hlen : (pushNode g pos data).edges.length = g.edges.length := rfl
        constructor
        · rintro (⟨e, h1, h2⟩ | h)
          · have : e = g.edges[k] := by
              have h1 : g.edges[k]? = some e := h1
              rw [he] at h1; cases h1; rfl
            subst this
            rw [if_pos h2]
            intro hc
            simp only [Option.some.injEq] at hc
            have := (hwf _ (List.getElem_mem hk)).2
            rw [← hc] at this
            simp [nearHalf] at this
          · omega
        · intro hne
          left
          refine ⟨_, he, ?_⟩
          by_contra hc
          rw [if_neg hc] at hne
          exact hne rfl
      · obtain ⟨m, rfl⟩ := Nat.exists_eq_add_of_le (Nat.le_of_not_lt hk)
        rw [List.getElem?_eq_none (l := g.edges) (by omega)]
        have hl := splitAt_length (pushNode g pos data) g.nodes.length
        have hlen : (pushNode g pos data).edges.length = g.edges.length := rfl
        rw [Ne, List.getElem?_eq_none_iff, hl, hlen]
        constructor
        · rintro (h | h)
          · obtain ⟨e, h1, _⟩ := mem_onSlots.1 h
            have := (List.getElem?_eq_some_iff.1 h1).1
            omega
          · omega
        · intro h; right; omega

theorem splitChanged_spec (g : PlanarGraph F T U) (id : Nat) :
    (∀ k ∈ splitChanged g id, k < (splitAt g id).edges.length) ∧
    (∀ k, (splitAt g id).edges[k]? ≠ g.edges[k]? → k ∈ splitChanged g id) := by
  rw [splitChanged_eq]
  constructor
  · intro k hk
    rw [splitAt_length]
    rcases List.mem_append.1 hk with h | h
    · obtain ⟨e, h1, _⟩ := mem_onSlots.1 h
      have := (List.getElem?_eq_some_iff.1 h1).1
      omega
    · rw [List.mem_range'_1] at h; omega
  · intro k hne
    rw [List.mem_append, List.mem_range'_1, mem_onSlots]
    by_cases hk : k < g.edges.length
    · left
      have he := List.getElem?_eq_getElem hk
      refine ⟨_, he, ?_⟩
      by_contra hc
      rw [splitAt_get_old he, if_neg hc, he] at hne
      exact hne rfl
    · right
      by_contra hc
      apply hne
      rw [List.getElem?_eq_none (by rw [splitAt_length]; omega), List.getElem?_eq_none (by omega)]

theorem inserts_changed [Inhabited T] {g g' : PlanarGraph F T U} {xs : List (Vec2 F)} {cn ce : List Nat}
    (h : Inserts g xs g' cn ce) : g.edges.length ≤ g'.edges.length ∧ (∀ k ∈ ce, k < g'.edges.length) ∧
      (∀ k, g'.edges[k]? ≠ g.edges[k]? → k ∈ ce) := by
  induction h with
  | nil g => exact ⟨Nat.le_refl _, by simp, fun k h => absurd rfl h⟩
  | cons g x xs g' cn ce _ ih =>
    obtain ⟨i1, i2, i3⟩ := ih
    have hone : g.edges.length ≤ (insertPt g x).edges.length ∧
        (∀ k ∈ insertChanged g x, k < (insertPt g x).edges.length) ∧
        (∀ k, (insertPt g x).edges[k]? ≠ g.edges[k]? → k ∈ insertChanged g x) := by
      unfold insertPt insertChanged
      split
      · exact ⟨by rw [splitAt_length]; omega, splitChanged_spec g _⟩
      · have h := splitChanged_spec (pushNode g x default) g.nodes.length
        exact ⟨by rw [splitAt_length]; exact Nat.le_add_right g.edges.length _, h⟩
    refine ⟨by omega, ?_, ?_⟩
    · intro k hk
      rcases List.mem_append.1 hk with h | h
      · have := hone.2.1 k h; omega
      · exact i2 k h
    · intro k hne
      rw [List.mem_append]
      by_cases h : (insertPt g x).edges[k]? = g.edges[k]?
      · right; exact i3 k (by rw [h]; exact hne)
      · left; exact hone.2.2 k h

/-- **C58, partial.** When `add_edge` returns `Ok (nodes, edges)`: `nodes` lists the indices of the created nodes in order;
every index in `edges` is valid; every edge slot other than the one of the new edge whose content differs from before
is in `edges`.  If the graph changed, the slot of the new edge is in `edges` or still holds exactly the requested edge.
Missing: that the slot of the new edge is always reported; it is not (`C58_counterexample`). -/
theorem C58_changed_partial [Inhabited T] (g : PlanarGraph F T U) (hwf : WF g) (s d : Nat) (x : U)
    (g' : PlanarGraph F T U) (cn ce : List Nat) (h : g.addEdge s d x = .ok (g', .ok (cn, ce))) :
    cn = List.range' g.nodes.length (g'.nodes.length - g.nodes.length) ∧
    (∀ k ∈ ce, k < g'.edges.length) ∧
    (∀ k, k ≠ g.edges.length → g'.edges[k]? ≠ g.edges[k]? → k ∈ ce) ∧
    (g' = g ∨ g.edges.length ∈ ce ∨ g'.edges[g.edges.length]? = some ⟨s, d, x, ""⟩) := by
  rcases addEdge_ok g hwf s d x with ⟨_, h'⟩ | ⟨_, _, h'⟩ | ⟨_, _, _, g1, cn1, ce1, hi, h'⟩
  · rw [h] at h'; cases h'
    exact ⟨by simp, by simp, fun k _ h => absurd rfl h, Or.inl rfl⟩
  · rw [h] at h'; cases h'
  · rw [h] at h'
    simp only [Except.ok.injEq, Prod.mk.injEq] at h'
    obtain ⟨rfl, rfl, rfl⟩ := h'
    obtain ⟨l, hl, hcn⟩ := inserts_nodes hi
    obtain ⟨i1, i2, i3⟩ := inserts_changed hi
    have hlen : (pushEdge g s d x).edges.length = g.edges.length + 1 := by simp [pushEdge]
    have hpush : ∀ k, k ≠ g.edges.length → (pushEdge g s d x).edges[k]? = g.edges[k]? := by
      intro k hk
      simp only [pushEdge]
      by_cases hlt : k < g.edges.length
      · rw [List.getElem?_append_left hlt]
      · rw [List.getElem?_eq_none (by simp; omega), List.getElem?_eq_none (by omega)]
    have hnew : (pushEdge g s d x).edges[g.edges.length]? = some ⟨s, d, x, ""⟩ := by
      simp [pushEdge, defaultLabel]
    refine ⟨?_, ?_, ?_, Or.inr ?_⟩
    · rw [hcn, hl]; simp [pushEdge]
    · intro k hk
      split at hk
      · rw [List.mem_singleton] at hk; omega
      · exact i2 k hk
    · intro k hk hne
      have hmem := i3 k (by rw [hpush k hk]; exact hne)
      split
      · rename_i hemp
        rw [List.isEmpty_iff.1 hemp] at hmem; cases hmem
      · exact hmem
    · by_cases hc : g'.edges[g.edges.length]? = (pushEdge g s d x).edges[g.edges.length]?
      · right; rw [hc, hnew]
      · left
        have hmem := i3 _ hc
        split
        · rename_i hemp
          rw [List.isEmpty_iff.1 hemp] at hmem; cases hmem
        · exact hmem

/-- the new nodes are at a sublist of the inserted points -/
theorem inserts_positions [Inhabited T] {g g' : PlanarGraph F T U} {xs : List (Vec2 F)} {cn ce : List Nat}
    (h : Inserts g xs g' cn ce) : ∃ l : List (Node F T), g'.nodes = g.nodes ++ l ∧ (l.map Node.position).Sublist xs := by
  induction h with
  | nil g => exact ⟨[], by simp, List.Sublist.refl _⟩
  | cons g x xs g' cn ce _ ih =>
    obtain ⟨l, h1, h2⟩ := ih
    unfold insertPt at h1
    split at h1
    · exact ⟨l, h1, h2.cons x⟩
    · refine ⟨⟨x, default, defaultLabel⟩ :: l, ?_, ?_⟩
      · rw [h1]; simp [splitAt, pushNode]
      · exact h2.cons_cons x

/-- where the segment from `a` to `b` crosses the drawn edge `e`, as computed by `calculate_line_segment_intersection`
(src/geometry/utils.rs:66) -/
def crossOf (g : PlanarGraph F T U) (a b : Vec2 F) (e : Edge U) : Option (Vec2 F) :=
  (g.getVertex e.src).bind fun p => (g.getVertex e.dst).bind fun q =>
    Utils.calculateLineSegmentIntersection p.position q.position a b

/-- **C58, order of the new nodes.** `add_edge` numbers the nodes it creates in the order of the slots of the edges they were
found on: their positions are a sublist of the list of crossings of the new segment with the edges, slot by slot. -/
theorem C58_order_partial [Inhabited T] (g : PlanarGraph F T U) (hwf : WF g) (s d : Nat) (x : U) (a b : Node F T)
    (ha : g.getVertex s = some a) (hb : g.getVertex d = some b) (g' : PlanarGraph F T U) (cn ce : List Nat)
    (h : g.addEdge s d x = .ok (g', .ok (cn, ce))) :
    g'.nodes.take g.nodes.length = g.nodes ∧
    ((g'.nodes.drop g.nodes.length).map Node.position).Sublist (g.edges.filterMap (crossOf g a.position b.position)) := by
  rcases addEdge_ok g hwf s d x with ⟨_, h'⟩ | ⟨_, _, h'⟩ | ⟨_, _, _, g1, cn1, ce1, hi, h'⟩
  · rw [h] at h'; cases h'
    simp
  · rw [h] at h'; cases h'
  · rw [h] at h'
    simp only [Except.ok.injEq, Prod.mk.injEq] at h'
    obtain ⟨rfl, rfl, rfl⟩ := h'
    obtain ⟨l, h1, h2⟩ := inserts_positions hi
    have h1' : g'.nodes = g.nodes ++ l := h1
    rw [h1']
    refine ⟨by simp, ?_⟩
    rw [List.drop_left]
    have hm : meetPoints g ⟨s, d, x, defaultLabel⟩ = g.edges.filterMap (crossOf g a.position b.position) := ?_
    · rw [← hm]
      exact h2.trans (UtilThm.C47_unique_partial _).1
    unfold meetPoints
    apply List.filterMap_congr
    intro e _
    unfold getVertex at ha hb
    unfold edgeMeets crossOf getVertex
    rw [ha, hb]
    cases g.nodes[e.src]? <;> cases g.nodes[e.dst]? <;> rfl

end

/-- the order is that of the slots, not that along the new segment: slot 0 is at x = 3, slot 1 at x = 1 -/
example : (match (⟨[⟨⟨F32.lit 3, F32.lit (-1)⟩, (), ""⟩, ⟨⟨F32.lit 3, F32.lit 1⟩, (), ""⟩, ⟨⟨F32.lit 1, F32.lit (-1)⟩, (), ""⟩,
        ⟨⟨F32.lit 1, F32.lit 1⟩, (), ""⟩, ⟨⟨F32.lit 0, F32.lit 0⟩, (), ""⟩, ⟨⟨F32.lit 4, F32.lit 0⟩, (), ""⟩],
        [⟨0, 1, 7, ""⟩, ⟨2, 3, 8, ""⟩]⟩ : PlanarGraph F32 Unit Nat).addEdge 4 5 9 with
    | .ok (g', .ok (cn, _)) => decide (cn = [6, 7] ∧ (g'.nodes.drop 6).map Node.position =
        [⟨F32.lit 3, F32.lit 0⟩, ⟨F32.lit 1, F32.lit 0⟩])
    | _ => false) = true := by
  decide +kernel

/-- **C58 is false**: nodes A = (0,0), B = (4,0), C = (2,0), D = (2,2) and the edge AB, which passes through C because
`add_edge` does not split a new edge at existing nodes.  Adding CD splits AB and creates CD in slot 1, but the reported
slots are 0 and 2. -/
theorem C58_counterexample :
    (⟨[⟨⟨F32.lit 0, F32.lit 0⟩, (), ""⟩, ⟨⟨F32.lit 4, F32.lit 0⟩, (), ""⟩, ⟨⟨F32.lit 2, F32.lit 0⟩, (), ""⟩,
        ⟨⟨F32.lit 2, F32.lit 2⟩, (), ""⟩], [⟨0, 1, 7, ""⟩]⟩ : PlanarGraph F32 Unit Nat).addEdge 2 3 8 =
    .ok (⟨[⟨⟨F32.lit 0, F32.lit 0⟩, (), ""⟩, ⟨⟨F32.lit 4, F32.lit 0⟩, (), ""⟩, ⟨⟨F32.lit 2, F32.lit 0⟩, (), ""⟩,
        ⟨⟨F32.lit 2, F32.lit 2⟩, (), ""⟩], [⟨0, 2, 7, ""⟩, ⟨2, 3, 8, ""⟩, ⟨1, 2, 7, ""⟩]⟩, .ok ([], [0, 2])) := by
  decide +kernel

/-- the graph of the counterexample is reachable -/
example : (PlanarGraph.run .debug (PlanarGraph.new : PlanarGraph F32 Unit Nat)
    [.addNode ⟨F32.lit 0, F32.lit 0⟩ (), .addNode ⟨F32.lit 4, F32.lit 0⟩ (), .addNode ⟨F32.lit 2, F32.lit 0⟩ (),
      .addNode ⟨F32.lit 2, F32.lit 2⟩ (), .addEdge 0 1 7]) =
    .ok ⟨[⟨⟨F32.lit 0, F32.lit 0⟩, (), ""⟩, ⟨⟨F32.lit 4, F32.lit 0⟩, (), ""⟩, ⟨⟨F32.lit 2, F32.lit 0⟩, (), ""⟩,
        ⟨⟨F32.lit 2, F32.lit 2⟩, (), ""⟩], [⟨0, 1, 7, ""⟩]⟩ := by
  decide +kernel

/-- a crossing: both edges are split at the new node 4, and the four pieces are reported -/
example : (PlanarGraph.addEdge (⟨[⟨⟨F32.lit 0, F32.lit 0⟩, 0, ""⟩, ⟨⟨F32.lit 4, F32.lit 0⟩, 1, ""⟩, ⟨⟨F32.lit 2, F32.lit (-2)⟩, 2, ""⟩,
        ⟨⟨F32.lit 2, F32.lit 2⟩, 3, ""⟩], [⟨0, 1, 7, ""⟩]⟩ : PlanarGraph F32 Nat Nat) 2 3 8) =
    .ok (⟨[⟨⟨F32.lit 0, F32.lit 0⟩, 0, ""⟩, ⟨⟨F32.lit 4, F32.lit 0⟩, 1, ""⟩, ⟨⟨F32.lit 2, F32.lit (-2)⟩, 2, ""⟩,
        ⟨⟨F32.lit 2, F32.lit 2⟩, 3, ""⟩, ⟨⟨F32.lit 2, F32.lit 0⟩, 0, ""⟩],
        [⟨0, 4, 7, ""⟩, ⟨2, 4, 8, ""⟩, ⟨1, 4, 7, ""⟩, ⟨3, 4, 8, ""⟩]⟩, .ok ([4], [0, 1, 2, 3])) := by
  decide +kernel

end Kami.Graph
