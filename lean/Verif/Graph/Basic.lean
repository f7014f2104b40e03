import Verif.Graph.Model
import Verif.Geom.UtilsLists
/-!
# The adding operations as pure functions

On graphs whose edges refer to existing nodes (`WF`) the methods of the model never panic and equal the total functions
below.  Everything here holds for any arithmetic.
-/

set_option autoImplicit false

namespace Kami.Graph

open Kami
open scoped Kami
open PlanarGraph

variable {F T U : Type}

/-- both ends of every edge are nodes -/
def WF (g : PlanarGraph F T U) : Prop := ∀ e ∈ g.edges, e.src < g.nodes.length ∧ e.dst < g.nodes.length

/-- the on-segment test for an edge and a node, `false` if something is missing -/
def onTest [Scalar F] (nodes : List (Node F T)) (id : Nat) (e : Edge U) : Bool :=
  match nodes[e.src]?, nodes[e.dst]?, nodes[id]? with
  | some a, some b, some p => Utils.isOnLineSegment a.position b.position p.position false
  | _, _, _ => false

/-- the half that stays in the slot of the split edge -/
def nearHalf (id : Nat) (e : Edge U) : Edge U := ⟨e.src, id, e.data, defaultLabel⟩
/-- the half that is appended -/
def farHalf (id : Nat) (e : Edge U) : Edge U := ⟨e.dst, id, e.data, defaultLabel⟩

section
variable [Scalar F]

theorem splitLoop_eq (nodes : List (Node F T)) (id : Nat) (hid : id < nodes.length) (es : List (Edge U)) :
    ∀ i, (∀ e ∈ es, e.src < nodes.length ∧ e.dst < nodes.length) →
    splitLoop nodes id es i = .ok ⟨es.map (fun e => if onTest nodes id e then nearHalf id e else e),
      (es.filter (onTest nodes id)).map (farHalf id),
      ((es.zipIdx i).filter (fun x => onTest nodes id x.1)).map Prod.snd⟩ := by
  induction es with
  | nil => intro i _; rfl
  | cons e es ih =>
    intro i h
    obtain ⟨h1, h2⟩ := h e (List.mem_cons_self ..)
    have ih := ih (i + 1) (fun e he => h e (List.mem_cons_of_mem _ he))
    simp only [splitLoop, index_of_lt _ _ h1, index_of_lt _ _ h2, index_of_lt _ _ hid, ih, bind, Except.bind, pure,
      Except.pure, List.map_cons, List.zipIdx_cons, List.filter_cons]
    have ho : onTest nodes id e = Utils.isOnLineSegment nodes[e.src].position nodes[e.dst].position
        nodes[id].position false := by
      simp [onTest, h1, h2, hid]
    rw [← ho]
    by_cases hc : onTest nodes id e = true
    · simp [hc, nearHalf, farHalf]
    · simp [hc]

omit [Scalar F] in
theorem pushEdges_eq (xs : List (Edge U)) : ∀ edges changed,
    pushEdges xs edges changed = (edges ++ xs, changed ++ List.range' edges.length xs.length) := by
  induction xs with
  | nil => intro edges changed; simp [pushEdges]
  | cons x xs ih =>
    intro edges changed
    simp only [pushEdges, ih]
    simp [List.range'_succ]

/-- the graph after `split_edges_at_node` -/
def splitAt (g : PlanarGraph F T U) (id : Nat) : PlanarGraph F T U :=
  ⟨g.nodes, g.edges.map (fun e => if onTest g.nodes id e then nearHalf id e else e) ++
    (g.edges.filter (onTest g.nodes id)).map (farHalf id)⟩

/-- the edge slots reported by `split_edges_at_node` -/
def splitChanged (g : PlanarGraph F T U) (id : Nat) : List Nat :=
  ((g.edges.zipIdx).filter (fun x => onTest g.nodes id x.1)).map Prod.snd ++
    List.range' g.edges.length (g.edges.filter (onTest g.nodes id)).length

theorem onTest_id {nodes : List (Node F T)} {id : Nat} {e : Edge U} (h : onTest nodes id e = true) :
    e.src < nodes.length ∧ e.dst < nodes.length ∧ id < nodes.length := by
  unfold onTest at h
  split at h
  · rename_i h1 h2 h3
    exact ⟨(List.getElem?_eq_some_iff.1 h1).1, (List.getElem?_eq_some_iff.1 h2).1, (List.getElem?_eq_some_iff.1 h3).1⟩
  · cases h

theorem splitEdgesAtNode_ok (g : PlanarGraph F T U) (hwf : WF g) (id : Nat) :
    g.splitEdgesAtNode id = .ok (splitAt g id, splitChanged g id) := by
  unfold splitEdgesAtNode
  by_cases hid : id < g.nodes.length
  · rw [List.getElem?_eq_getElem hid]
    simp only [splitLoop_eq g.nodes id hid g.edges 0 hwf, bind, Except.bind, pure, Except.pure, pushEdges_eq, splitAt,
      splitChanged, List.length_map]
  · rw [List.getElem?_eq_none (by omega)]
    have hf : ∀ e : Edge U, onTest g.nodes id e = false := by
      intro e
      rw [← Bool.not_eq_true]; intro hc
      exact hid (onTest_id hc).2.2
    have hff : g.edges.filter (onTest g.nodes id) = [] := by
      rw [List.filter_eq_nil_iff]; intro e _; rw [hf]; decide
    simp [splitAt, splitChanged, hf, hff]

/-- the graph with one more node -/
def pushNode (g : PlanarGraph F T U) (pos : Vec2 F) (data : T) : PlanarGraph F T U :=
  ⟨g.nodes ++ [⟨pos, data, defaultLabel⟩], g.edges⟩

/-- the graph with one more edge -/
def pushEdge (g : PlanarGraph F T U) (s d : Nat) (x : U) : PlanarGraph F T U :=
  ⟨g.nodes, g.edges ++ [⟨s, d, x, defaultLabel⟩]⟩

/-- nearest node and its distance -/
def nearest (g : PlanarGraph F T U) (x : Vec2 F) : Nat × F := Utils.findClosestTo x g.gatherNodePositions

omit [Scalar F] in
theorem WF.pushNode {g : PlanarGraph F T U} (h : WF g) (pos : Vec2 F) (data : T) : WF (pushNode g pos data) := by
  intro e he
  have := h e he
  simp only [Graph.pushNode, List.length_append, List.length_singleton]
  omega

omit [Scalar F] in
theorem WF.pushEdge {g : PlanarGraph F T U} (h : WF g) {s d : Nat} (hs : s < g.nodes.length) (hd : d < g.nodes.length)
    (x : U) : WF (pushEdge g s d x) := by
  intro e he
  simp only [Graph.pushEdge, List.mem_append, List.mem_singleton] at he
  rcases he with he | rfl
  · exact h e he
  · exact ⟨hs, hd⟩

theorem mem_splitAt {g : PlanarGraph F T U} {id : Nat} {e' : Edge U} : e' ∈ (splitAt g id).edges ↔
    ∃ e ∈ g.edges, (onTest g.nodes id e = false ∧ e' = e) ∨
      (onTest g.nodes id e = true ∧ (e' = nearHalf id e ∨ e' = farHalf id e)) := by
  simp only [splitAt, List.mem_append, List.mem_map, List.mem_filter]
  constructor
  · rintro (⟨e, he, rfl⟩ | ⟨e, ⟨he, ho⟩, rfl⟩)
    · refine ⟨e, he, ?_⟩
      by_cases hc : onTest g.nodes id e = true
      · right; rw [if_pos hc]; exact ⟨hc, Or.inl rfl⟩
      · left; rw [if_neg hc]; exact ⟨by simpa using hc, rfl⟩
    · exact ⟨e, he, Or.inr ⟨ho, Or.inr rfl⟩⟩
  · rintro ⟨e, he, ⟨ho, rfl⟩ | ⟨ho, rfl | rfl⟩⟩
    · exact Or.inl ⟨e', he, by simp [ho]⟩
    · exact Or.inl ⟨e, he, by simp [ho]⟩
    · exact Or.inr ⟨e, ⟨he, ho⟩, rfl⟩

theorem WF.splitAt {g : PlanarGraph F T U} (h : WF g) (id : Nat) : WF (splitAt g id) := by
  intro e' he'
  obtain ⟨e, he, ⟨_, rfl⟩ | ⟨ho, rfl | rfl⟩⟩ := mem_splitAt.1 he'
  · exact h _ he
  · exact ⟨(onTest_id ho).1, (onTest_id ho).2.2⟩
  · exact ⟨(onTest_id ho).2.1, (onTest_id ho).2.2⟩

/-- the graph after `add_node` -/
def addNodeG (g : PlanarGraph F T U) (x : Vec2 F) (data : T) : PlanarGraph F T U :=
  if (nearest g x).2 <. Scalar.epsilon then g else splitAt (pushNode g x data) g.nodes.length

theorem addNode_ok (g : PlanarGraph F T U) (hwf : WF g) (x : Vec2 F) (data : T) :
    g.addNode x data = .ok (addNodeG g x data,
      if (nearest g x).2 <. Scalar.epsilon then ((nearest g x).1, [])
      else (g.nodes.length, splitChanged (pushNode g x data) g.nodes.length)) := by
  unfold addNode addNodeG nearest
  simp only
  split
  · rfl
  · have h := splitEdgesAtNode_ok (pushNode g x data) (hwf.pushNode x data) g.nodes.length
    simp only [pushNode] at h
    simp only [nodeCount, List.length_append, List.length_singleton, Nat.add_sub_cancel, h, bind, Except.bind, pure,
      Except.pure, pushNode]
    simp [splitAt]

/-- the graph after one round of the second loop of `split_edges_along_edge` -/
def insertPt [Inhabited T] (g : PlanarGraph F T U) (x : Vec2 F) : PlanarGraph F T U :=
  if (nearest g x).2 <. Scalar.epsilon then splitAt g (nearest g x).1
  else splitAt (pushNode g x default) g.nodes.length

theorem WF.insertPt [Inhabited T] {g : PlanarGraph F T U} (h : WF g) (x : Vec2 F) : WF (insertPt g x) := by
  unfold Graph.insertPt
  split
  · exact h.splitAt _
  · exact (h.pushNode _ _).splitAt _

theorem WF.addNodeG {g : PlanarGraph F T U} (h : WF g) (x : Vec2 F) (data : T) : WF (addNodeG g x data) := by
  unfold Graph.addNodeG
  split
  · exact h
  · exact (h.pushNode _ _).splitAt _

/-- nodes created in one round -/
def insertNodes (g : PlanarGraph F T U) (x : Vec2 F) : List Nat :=
  if (nearest g x).2 <. Scalar.epsilon then [] else [g.nodes.length]

/-- edges reported in one round -/
def insertChanged [Inhabited T] (g : PlanarGraph F T U) (x : Vec2 F) : List Nat :=
  if (nearest g x).2 <. Scalar.epsilon then splitChanged g (nearest g x).1
  else splitChanged (pushNode g x default) g.nodes.length

theorem splitAtIntersection_ok [Inhabited T] (g : PlanarGraph F T U) (hwf : WF g) (cn ce : List Nat) (x : Vec2 F) :
    g.splitAtIntersection cn ce x = .ok (insertPt g x, (cn ++ insertNodes g x, ce ++ insertChanged g x)) := by
  unfold splitAtIntersection insertPt insertNodes insertChanged
  have h1 := splitEdgesAtNode_ok g hwf (nearest g x).1
  have h2 := addNode_ok g hwf x default
  unfold addNodeG at h2
  simp only
  by_cases hc : ((nearest g x).2 <. Scalar.epsilon) = true
  · rw [if_pos hc, if_pos hc, if_pos hc]
    rw [nearest] at hc h1
    rw [if_pos hc, h1]
    simp [bind, Except.bind, pure, Except.pure, nearest]
  · rw [if_neg hc, if_neg hc, if_neg hc]
    rw [if_neg hc, if_neg hc] at h2
    rw [nearest] at hc
    rw [if_neg hc, h2]
    simp [bind, Except.bind, pure, Except.pure]

/-- inserting points one after the other, with the lists of created nodes and reported edges -/
inductive Inserts [Inhabited T] : PlanarGraph F T U → List (Vec2 F) → PlanarGraph F T U → List Nat → List Nat → Prop
  | nil (g : PlanarGraph F T U) : Inserts g [] g [] []
  | cons (g : PlanarGraph F T U) (x : Vec2 F) (xs : List (Vec2 F)) (g' : PlanarGraph F T U) (cn ce : List Nat) :
      Inserts (insertPt g x) xs g' cn ce → Inserts g (x :: xs) g' (insertNodes g x ++ cn) (insertChanged g x ++ ce)

theorem splitAtIntersections_ok [Inhabited T] (xs : List (Vec2 F)) : ∀ (g : PlanarGraph F T U), WF g →
    ∃ g' cn' ce', Inserts g xs g' cn' ce' ∧ ∀ cn ce, splitAtIntersections xs g cn ce = .ok (g', (cn ++ cn', ce ++ ce')) := by
  induction xs with
  | nil => intro g _; exact ⟨g, [], [], .nil g, fun cn ce => by simp [splitAtIntersections]⟩
  | cons x xs ih =>
    intro g hwf
    obtain ⟨g', cn', ce', h1, h2⟩ := ih (insertPt g x) (hwf.insertPt x)
    refine ⟨g', _, _, .cons g x xs g' cn' ce' h1, ?_⟩
    intro cn ce
    simp only [splitAtIntersections, splitAtIntersection_ok g hwf, bind, Except.bind, h2, List.append_assoc]

/-- where edge `e` meets the segment `c d` -/
def edgeMeets (nodes : List (Node F T)) (e f : Edge U) : Option (Vec2 F) :=
  match nodes[e.src]?, nodes[e.dst]?, nodes[f.src]?, nodes[f.dst]? with
  | some a, some b, some c, some d =>
    Utils.calculateLineSegmentIntersection a.position b.position c.position d.position
  | _, _, _, _ => none

/-- the points found by the first loop of `split_edges_along_edge` -/
def meetPoints (g : PlanarGraph F T U) (f : Edge U) : List (Vec2 F) :=
  g.edges.filterMap fun e => edgeMeets g.nodes e f

theorem intersectionLoop_ok (g : PlanarGraph F T U) (f : Edge U) (hwf : WF (⟨g.nodes, g.edges ++ [f]⟩ : PlanarGraph F T U))
    (es : List (Edge U)) : ∀ i, i + es.length = g.edges.length → (∀ e ∈ es, e ∈ g.edges) →
    intersectionLoop (⟨g.nodes, g.edges ++ [f]⟩ : PlanarGraph F T U) g.edges.length (es ++ [f]) i =
      .ok (es.filterMap fun e => edgeMeets g.nodes e f) := by
  induction es with
  | nil =>
    intro i hi _
    simp only [List.length_nil, Nat.add_zero] at hi
    subst hi
    simp [intersectionLoop]
  | cons e es ih =>
    intro i hi hmem
    simp only [List.length_cons] at hi
    have hne : g.edges.length ≠ i := by omega
    have ih := ih (i + 1) (by omega) (fun e he => hmem e (List.mem_cons_of_mem _ he))
    obtain ⟨h1, h2⟩ := hwf e (List.mem_append_left _ (hmem e (List.mem_cons_self ..)))
    obtain ⟨h3, h4⟩ := hwf f (by simp)
    simp only at h1 h2 h3 h4
    have hf : index (g.edges ++ [f]) g.edges.length = .ok f := by
      rw [index_eq_ok]; simp
    have hm : edgeMeets g.nodes e f = Utils.calculateLineSegmentIntersection g.nodes[e.src].position
        g.nodes[e.dst].position g.nodes[f.src].position g.nodes[f.dst].position := by
      simp [edgeMeets, h1, h2, h3, h4]
    simp only [List.cons_append, intersectionLoop, if_pos hne, index_of_lt _ _ h1, index_of_lt _ _ h2, hf,
      index_of_lt _ _ h3, index_of_lt _ _ h4, bind, Except.bind, ih, pure, Except.pure, List.filterMap_cons]
    rw [← hm]
    cases edgeMeets g.nodes e f <;> rfl

/-- `add_edge` on a well-formed graph: it returns, in one of three ways -/
theorem addEdge_ok [Inhabited T] (g : PlanarGraph F T U) (hwf : WF g) (s d : Nat) (x : U) :
    (g.hasEdgeBetweenNodes s d = true ∧ g.addEdge s d x = .ok (g, .ok ([], []))) ∨
    (g.hasEdgeBetweenNodes s d = false ∧ ¬ (s < g.nodes.length ∧ d < g.nodes.length) ∧
      g.addEdge s d x = .ok (g, .error .NoSuchVertex)) ∨
    (g.hasEdgeBetweenNodes s d = false ∧ s < g.nodes.length ∧ d < g.nodes.length ∧
      ∃ g' cn ce, Inserts (pushEdge g s d x) (Utils.uniquePointsAmong (meetPoints g ⟨s, d, x, defaultLabel⟩)) g' cn ce ∧
        g.addEdge s d x = .ok (g', .ok (cn, if ce.isEmpty then [g'.edges.length - 1] else ce))) := by
  unfold addEdge
  cases hb : g.hasEdgeBetweenNodes s d with
  | true => left; exact ⟨rfl, rfl⟩
  | false =>
    right
    by_cases hv : s < g.nodes.length ∧ d < g.nodes.length
    · right
      refine ⟨rfl, hv.1, hv.2, ?_⟩
      obtain ⟨g', cn, ce, h1, h2⟩ := splitAtIntersections_ok
        (Utils.uniquePointsAmong (meetPoints g ⟨s, d, x, defaultLabel⟩)) (pushEdge g s d x) (hwf.pushEdge hv.1 hv.2 x)
      refine ⟨g', cn, ce, h1, ?_⟩
      have hl := intersectionLoop_ok g ⟨s, d, x, defaultLabel⟩ (hwf.pushEdge hv.1 hv.2 x) g.edges 0 (by omega)
        (fun e he => he)
      have h2 := h2 [] []
      simp only [pushEdge] at h2
      simp only [getVertex, List.getElem?_eq_getElem hv.1, List.getElem?_eq_getElem hv.2, splitEdgesAlongEdge, edgeCount,
        List.length_append, List.length_singleton, Nat.add_sub_cancel, hl, bind, Except.bind, pure, Except.pure,
        Bool.not_false, if_true]
      unfold meetPoints at h2
      rw [h2]
      simp only [List.nil_append]
      cases ce <;> rfl
    · left
      refine ⟨rfl, hv, ?_⟩
      simp only [getVertex, Bool.not_false, if_true]
      rcases Decidable.not_and_iff_or_not.1 hv with h | h
      · rw [List.getElem?_eq_none (l := g.nodes) (i := s) (by omega)]
      · rw [List.getElem?_eq_none (l := g.nodes) (i := d) (by omega)]
        cases g.nodes[s]? <;> rfl

end

end Kami.Graph
