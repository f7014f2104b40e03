import Verif.Graph.Histories
/-!
# Separation of nodes, add_node's result, query methods, idempotence, parallel edges
-/

set_option autoImplicit false

namespace Kami.Graph

open Kami
open scoped Kami
open PlanarGraph

variable {F T U : Type}

/-! ## C51, C52 -/

/-- no two different nodes are closer than epsilon -/
def Separated [Scalar F] (g : PlanarGraph F T U) : Prop :=
  ∀ (i j : Nat) (a b : Node F T), g.nodes[i]? = some a → g.nodes[j]? = some b → i ≠ j →
    (distance a.position b.position <. Scalar.epsilon) = false

section
variable [Scalar F] [LawfulScalar F]

open LawfulScalar in
/-- the nearest node decides whether any node is closer than epsilon -/
theorem nearest_spec (g : PlanarGraph F T U) (x : Vec2 F) :
    (((nearest g x).2 <. Scalar.epsilon) = true → ∃ a, g.nodes[(nearest g x).1]? = some a ∧
      (nearest g x).2 = distance x a.position ∧ ((nearest g x).2 <. Scalar.maxValue) = true ∧
      ∀ b ∈ g.nodes, (distance x b.position <. (nearest g x).2) = false) ∧
    (((nearest g x).2 <. Scalar.epsilon) = false → ∀ b ∈ g.nodes, (distance x b.position <. Scalar.epsilon) = false) := by
  obtain ⟨c1, c2⟩ := UtilThm.C45_closest x g.gatherNodePositions
  by_cases hex : ∃ p ∈ g.gatherNodePositions, (distance x p <. Scalar.maxValue) = true
  · obtain ⟨i, p, h1, h2, h3, h4, _⟩ := c1 hex
    have hn : nearest g x = (i, distance x p) := h2
    rw [hn]
    simp only [gatherNodePositions, List.getElem?_map, Option.map_eq_some_iff] at h1
    obtain ⟨a, ha, rfl⟩ := h1
    have hall : ∀ b ∈ g.nodes, (distance x b.position <. distance x a.position) = false :=
      fun b hb => h4 _ (List.mem_map.2 ⟨b, hb, rfl⟩)
    refine ⟨fun _ => ⟨a, ha, rfl, h3, hall⟩, ?_⟩
    intro he b hb
    simp only at he
    rw [← Bool.not_eq_true]; intro hc
    rcases lt_cotrans _ _ _ hc (lt_num _ _ h3).1 with h | h
    · rw [hall b hb] at h; cases h
    · rw [he] at h; cases h
  · have hall : ∀ p ∈ g.gatherNodePositions, (distance x p <. Scalar.maxValue) = false := by
      intro p hp
      rw [← Bool.not_eq_true]; intro hc; exact hex ⟨p, hp, hc⟩
    have hn : nearest g x = (0, Scalar.maxValue) := c2 hall
    rw [hn]
    simp only
    constructor
    · intro h
      have := lt_trans _ _ _ h (eps_lt_max (F := F))
      rw [LawfulScalar.lt_irrefl] at this; cases this
    · intro _ b hb
      rw [← Bool.not_eq_true]; intro hc
      have := lt_trans _ _ _ hc (eps_lt_max (F := F))
      rw [hall _ (List.mem_map.2 ⟨b, hb, rfl⟩)] at this; cases this

theorem Separated.pushNode {g : PlanarGraph F T U} (h : Separated g) {x : Vec2 F} {data : T}
    (hx : ((nearest g x).2 <. Scalar.epsilon) = false) : Separated (pushNode g x data) := by
  have hfar := (nearest_spec g x).2 hx
  intro i j a b hi hj hne
  simp only [Graph.pushNode] at hi hj
  have hget : ∀ (i : Nat) a, (g.nodes ++ [⟨x, data, defaultLabel⟩])[i]? = some a →
      g.nodes[i]? = some a ∨ (i = g.nodes.length ∧ a = ⟨x, data, defaultLabel⟩) := by
    intro i a h
    by_cases hi : i < g.nodes.length
    · rw [List.getElem?_append_left hi] at h; exact Or.inl h
    · have := (List.getElem?_eq_some_iff.1 h).1
      simp only [List.length_append, List.length_singleton] at this
      have : i = g.nodes.length := by omega
      subst this
      simp at h
      exact Or.inr ⟨rfl, h.symm⟩
  rcases hget i a hi with hi | ⟨rfl, rfl⟩ <;> rcases hget j b hj with hj | ⟨rfl, rfl⟩
  · exact h i j a b hi hj hne
  · rw [LawfulScalar.dist_comm]; exact hfar a (List.mem_of_getElem? hi)
  · exact hfar b (List.mem_of_getElem? hj)
  · exact absurd rfl hne

omit [LawfulScalar F] in
theorem separated_of_nodes {g g' : PlanarGraph F T U} (h : Separated g) (hn : g'.nodes = g.nodes) : Separated g' := by
  intro i j a b hi hj
  rw [hn] at hi hj
  exact h i j a b hi hj

theorem separated_addNodeG {g : PlanarGraph F T U} (h : Separated g) (x : Vec2 F) (data : T) :
    Separated (addNodeG g x data) := by
  unfold addNodeG
  split
  · exact h
  · rename_i hx
    exact separated_of_nodes (h.pushNode (by simpa using hx)) rfl

theorem separated_inserts [Inhabited T] {g g' : PlanarGraph F T U} {xs : List (Vec2 F)} {cn ce : List Nat}
    (h : Inserts g xs g' cn ce) : Separated g → Separated g' := by
  induction h with
  | nil g => exact fun h => h
  | cons g x xs g' cn ce _ ih =>
    intro h
    apply ih
    unfold insertPt
    split
    · exact separated_of_nodes h rfl
    · rename_i hx
      exact separated_of_nodes (h.pushNode (by simpa using hx)) rfl

omit [LawfulScalar F] in
theorem separated_erase {g g' : PlanarGraph F T U} (h : Separated g) (marked : List Nat)
    (hn : g'.nodes = eraseMarked marked g.nodes 0) : Separated g' := by
  intro i j a b hi hj hne
  rw [hn, eraseMarked_get0] at hi hj
  obtain ⟨i', hi1, hi2⟩ := Option.bind_eq_some_iff.1 hi
  obtain ⟨j', hj1, hj2⟩ := Option.bind_eq_some_iff.1 hj
  refine h i' j' a b hi2 hj2 ?_
  rintro rfl
  have hnd : (survivors g.nodes.length marked).Nodup := (survivors_sorted _ _).imp fun h => Nat.ne_of_lt h
  exact hne ((List.getElem?_inj (List.getElem?_eq_some_iff.1 hi1).1 hnd).1 (hi1.trans hj1.symm))

end

/-- `remove_node` only erases nodes -/
theorem removeNode_nodes {p : Profile} {g g' : PlanarGraph F T U} {id : Nat} {r : List Nat × List Nat}
    (h : g.removeNode p id = .ok (g', r)) : ∃ marked, g'.nodes = eraseMarked marked g.nodes 0 := by
  unfold removeNode at h
  split at h
  · simp only [bind, Except.bind] at h
    repeat' split at h
    all_goals first | (cases h; done) | (cases h; exact ⟨_, rfl⟩)
  · cases h
    refine ⟨[], ?_⟩
    apply List.ext_getElem?
    intro k
    rw [eraseMarked_get0]
    by_cases hk : k < g.nodes.length
    · rw [survivors_get_below (m := g.nodes.length) (by simp) hk hk]; rfl
    · rw [List.getElem?_eq_none (by omega), List.getElem?_eq_none (by
        have := List.length_filter_le (fun j => !([] : List Nat).contains j) (List.range g.nodes.length)
        rw [List.length_range] at this
        unfold survivors; omega)]
      rfl


theorem removeEdge_nodes {p : Profile} {g g' : PlanarGraph F T U} {id : Nat} {r : List Nat × List Nat}
    (h : g.removeEdge p id = .ok (g', r)) : g'.nodes = g.nodes ∨ ∃ marked, g'.nodes = eraseMarked marked g.nodes 0 := by
  unfold removeEdge at h
  split at h
  · simp only [bind, Except.bind] at h
    split at h
    · cases h
    split at h
    · exact Or.inr (removeNode_nodes h)
    split at h
    · cases h
    split at h
    · exact Or.inr (removeNode_nodes h)
    split at h
    · split at h
      · cases h
      split at h
      · cases h
      cases h; exact Or.inl rfl
    · cases h; exact Or.inl rfl
  · cases h; exact Or.inl rfl

section
variable [Scalar F]

theorem splitEdgesAtNode_nodes {g g' : PlanarGraph F T U} {id : Nat} {r : List Nat}
    (h : g.splitEdgesAtNode id = .ok (g', r)) : g'.nodes = g.nodes := by
  unfold splitEdgesAtNode at h
  split at h
  · simp only [bind, Except.bind] at h
    split at h
    · cases h
    · cases h; rfl
  · cases h; rfl

variable [LawfulScalar F]

theorem addNode_separated {g g' : PlanarGraph F T U} (hs : Separated g) {x : Vec2 F} {data : T} {r : Nat × List Nat}
    (h : g.addNode x data = .ok (g', r)) : Separated g' := by
  unfold addNode at h
  simp only at h
  split at h
  · cases h; exact hs
  · rename_i hx
    simp only [bind, Except.bind] at h
    split at h
    · cases h
    · rename_i v hv
      cases h
      exact separated_of_nodes (hs.pushNode (x := x) (data := data) (by unfold nearest; simpa using hx)) (splitEdgesAtNode_nodes hv)

theorem splitAtIntersections_separated [Inhabited T] (xs : List (Vec2 F)) :
    ∀ (g g' : PlanarGraph F T U) (cn ce : List Nat) (r : List Nat × List Nat), Separated g →
      splitAtIntersections xs g cn ce = .ok (g', r) → Separated g' := by
  induction xs with
  | nil => intro g g' cn ce r hs h; cases h; exact hs
  | cons x xs ih =>
    intro g g' cn ce r hs h
    simp only [splitAtIntersections, bind, Except.bind] at h
    split at h
    · cases h
    · rename_i v hv
      refine ih v.1 g' _ _ r ?_ h
      unfold splitAtIntersection at hv
      simp only at hv
      split at hv
      · simp only [bind, Except.bind] at hv
        split at hv
        · cases hv
        · rename_i w hw
          cases hv
          exact separated_of_nodes hs (splitEdgesAtNode_nodes hw)
      · simp only [bind, Except.bind] at hv
        split at hv
        · cases hv
        · rename_i w hw
          cases hv
          exact addNode_separated hs hw

theorem addEdge_separated [Inhabited T] {g g' : PlanarGraph F T U} (hs : Separated g) {s d : Nat} {x : U}
    {r : Except PlanarGraphError (List Nat × List Nat)} (h : g.addEdge s d x = .ok (g', r)) : Separated g' := by
  unfold addEdge at h
  split at h
  · split at h
    · unfold splitEdgesAlongEdge at h
      simp only [bind, Except.bind] at h
      split at h
      · cases h
      · rename_i v hv
        cases h
        split at hv
        · cases hv
        · have hs' : Separated (⟨g.nodes, g.edges ++ [⟨s, d, x, defaultLabel⟩]⟩ : PlanarGraph F T U) :=
            separated_of_nodes hs rfl
          exact splitAtIntersections_separated _ _ v.1 _ _ v.2 hs' hv
    · cases h; exact hs
  · cases h; exact hs

/-- **C51.** In every graph reached by any sequence of calls, debug or release, f32 or exact, the distance of two different
nodes is never smaller than epsilon. -/
theorem C51_separated [Inhabited T] (p : Profile) (ops : List (Op F T U)) (g : PlanarGraph F T U)
    (h : PlanarGraph.run p PlanarGraph.new ops = .ok g) (i j : Nat) (a b : Node F T)
    (hi : g.getVertex i = some a) (hj : g.getVertex j = some b) (hij : i ≠ j) :
    (distance a.position b.position <. Scalar.epsilon) = false := by
  have : Separated g := by
    refine run_induction p Separated (fun _ => True) ?_ ops _ _ (by intro i j a b hi; cases hi) (fun _ _ => trivial) h
    intro g g' op hg _ hs
    rcases step_ok hs with ⟨_, _, _, _, h⟩ | ⟨_, _, _, _, _, h⟩ | ⟨_, _, _, h⟩ | ⟨_, _, _, h⟩
    · exact addNode_separated hg h
    · exact addEdge_separated hg h
    · rcases removeEdge_nodes h with h | ⟨m, h⟩
      · exact separated_of_nodes hg h
      · exact separated_erase hg m h
    · obtain ⟨m, h⟩ := removeNode_nodes h
      exact separated_erase hg m h
  exact this i j a b hi hj hij

/-- **C52.** `add_node` returns an existing index whose node is closer than epsilon, leaving the graph untouched, or, if no
node is that close, the fresh index of a node with exactly the given position and data. -/
theorem C52_add_node (g : PlanarGraph F T U) (hwf : WF g) (pos : Vec2 F) (data : T) :
    ∃ g' i changed, g.addNode pos data = .ok (g', (i, changed)) ∧
      ((g' = g ∧ changed = [] ∧ ∃ a, g.getVertex i = some a ∧ (distance pos a.position <. Scalar.epsilon) = true ∧
          ∀ b ∈ g.nodes, (distance pos b.position <. distance pos a.position) = false) ∨
       (i = g.nodeCount ∧ g'.nodes = g.nodes ++ [⟨pos, data, ""⟩] ∧
          ∀ b ∈ g.nodes, (distance pos b.position <. Scalar.epsilon) = false)) := by
  obtain ⟨n1, n2⟩ := nearest_spec g pos
  have h0 := addNode_ok g hwf pos data
  unfold addNodeG at h0
  by_cases hc : ((nearest g pos).2 <. Scalar.epsilon) = true
  · rw [if_pos hc, if_pos hc] at h0
    refine ⟨_, _, _, h0, ?_⟩
    left
    obtain ⟨a, h1, h2, _, h4⟩ := n1 hc
    rw [h2] at hc h4
    exact ⟨rfl, rfl, a, h1, hc, h4⟩
  · rw [if_neg hc, if_neg hc] at h0
    refine ⟨_, _, _, h0, ?_⟩
    right
    exact ⟨rfl, rfl, n2 (by simpa using hc)⟩

/-- **C52, second half.** Adding a position again (one that is close to itself, which in f32 means finite, see `C46_close`)
returns the same index, reports nothing and leaves the graph untouched, whatever the data. -/
theorem C52_twice (g : PlanarGraph F T U) (hwf : WF g) (pos : Vec2 F) (hpos : Utils.closeTo pos pos = true) (data data' : T)
    (g' : PlanarGraph F T U) (i : Nat) (changed : List Nat) (h : g.addNode pos data = .ok (g', (i, changed))) :
    g'.addNode pos data' = .ok (g', (i, [])) := by
  have hwf' : WF g' := by
    rw [addNode_ok g hwf] at h
    simp only [Except.ok.injEq, Prod.mk.injEq] at h
    rw [← h.1]; exact hwf.addNodeG pos data
  rw [addNode_ok g hwf] at h
  rw [addNode_ok g' hwf']
  unfold addNodeG at h ⊢
  by_cases hc : ((nearest g pos).2 <. Scalar.epsilon) = true
  · rw [if_pos hc, if_pos hc] at h
    cases h
    rw [if_pos hc, if_pos hc]
  · rw [if_neg hc, if_neg hc] at h
    simp only [Except.ok.injEq, Prod.mk.injEq] at h
    obtain ⟨hg, hi, _⟩ := h
    have hn : g'.nodes = g.nodes ++ [⟨pos, data, defaultLabel⟩] := by rw [← hg]; rfl
    have hd : (distance pos pos <. Scalar.epsilon) = true :=
      LawfulScalar.dist_self_lt _ ((UtilThm.closeTo_iff pos pos).1 hpos).1
    obtain ⟨n1, n2⟩ := nearest_spec g' pos
    have hc' : ((nearest g' pos).2 <. Scalar.epsilon) = true := by
      by_contra hf
      have := n2 (by simpa using hf) ⟨pos, data, defaultLabel⟩ (by rw [hn]; simp)
      rw [hd] at this; cases this
    rw [if_pos hc', if_pos hc']
    obtain ⟨a, h1, h2, _, _⟩ := n1 hc'
    rw [h2] at hc'
    have hidx : (nearest g' pos).1 = i := by
      by_contra hne
      have hlt := (List.getElem?_eq_some_iff.1 h1).1
      rw [hn, List.length_append, List.length_singleton] at hlt
      have hlt' : (nearest g' pos).1 < g.nodes.length := by omega
      rw [hn, List.getElem?_append_left hlt'] at h1
      have := (nearest_spec g pos).2 (by simpa using hc) a (List.mem_of_getElem? h1)
      rw [this] at hc'; cases hc'
    rw [hidx]

end

/-- **C52, f32.** Any finite f32 position may be added twice. -/
theorem C52_twice_f32 (g : PlanarGraph F32 T U) (hwf : WF g) (pos : Vec2 F32)
    (hx : ∃ s n, pos.x = F32.fin s n) (hy : ∃ s n, pos.y = F32.fin s n) (data data' : T)
    (g' : PlanarGraph F32 T U) (i : Nat) (changed : List Nat) (h : g.addNode pos data = .ok (g', (i, changed))) :
    g'.addNode pos data' = .ok (g', (i, [])) :=
  C52_twice g hwf pos ((UtilThm.C46_close pos pos).2.2 ⟨hx, hy⟩) data data' g' i changed h

/-- a NaN position is never found again: every call creates a node -/
example : (PlanarGraph.run .debug (PlanarGraph.new : PlanarGraph F32 Unit Unit)
    [.addNode ⟨F32.nan, F32.lit 0⟩ (), .addNode ⟨F32.nan, F32.lit 0⟩ ()]) =
    .ok ⟨[⟨⟨F32.nan, F32.lit 0⟩, (), ""⟩, ⟨⟨F32.nan, F32.lit 0⟩, (), ""⟩], []⟩ := by decide +kernel

/-- a history for C51, C52 and C59: the third and fourth calls find node 0 again, the last one splits the edge -/
example : (PlanarGraph.run .debug (PlanarGraph.new : PlanarGraph F32 Nat Unit)
    [.addNode ⟨F32.lit 0, F32.lit 0⟩ 1, .addNode ⟨F32.lit 4, F32.lit 0⟩ 2, .addNode ⟨F32.lit 0, F32.lit 0⟩ 3,
      .addNode ⟨F32.lit 1 100000000, F32.lit 0⟩ 4, .addEdge 0 1 (), .addNode ⟨F32.lit 1, F32.lit 0⟩ 5]) =
    .ok ⟨[⟨⟨F32.lit 0, F32.lit 0⟩, 1, ""⟩, ⟨⟨F32.lit 4, F32.lit 0⟩, 2, ""⟩, ⟨⟨F32.lit 1, F32.lit 0⟩, 5, ""⟩],
      [⟨0, 2, (), ""⟩, ⟨1, 2, (), ""⟩]⟩ := by decide +kernel

/-! ## C59 -/

section
variable [Scalar F] [LawfulScalar F]

/-- **C59.** After `add_node` created a node (the index is the old number of nodes), no edge passes the on-segment test for
it. -/
theorem C59_not_inside (g : PlanarGraph F T U) (hwf : WF g) (pos : Vec2 F) (data : T) (g' : PlanarGraph F T U)
    (changed : List Nat) (h : g.addNode pos data = .ok (g', (g.nodeCount, changed))) (e : Edge U) (he : e ∈ g'.edges)
    (a b : Node F T) (ha : g'.getVertex e.src = some a) (hb : g'.getVertex e.dst = some b) (flag : Bool) :
    Utils.isOnLineSegment a.position b.position pos flag = false := by
  rw [addNode_ok g hwf] at h
  unfold addNodeG at h
  split at h
  · rename_i hc
    exfalso
    obtain ⟨a, h1, _⟩ := (nearest_spec g pos).1 hc
    simp only [Except.ok.injEq, Prod.mk.injEq] at h
    have := (List.getElem?_eq_some_iff.1 h1).1
    rw [h.2.1] at this
    exact Nat.lt_irrefl _ this
  · simp only [Except.ok.injEq, Prod.mk.injEq] at h
    obtain ⟨rfl, _⟩ := h
    have hp : (Graph.splitAt (pushNode g pos data) g.nodes.length).nodes[g.nodes.length]? =
        some ⟨pos, data, defaultLabel⟩ := by
      show (g.nodes ++ [_])[g.nodes.length]? = _
      simp
    have hnodes : (Graph.splitAt (pushNode g pos data) g.nodes.length).nodes = (pushNode g pos data).nodes := rfl
    have key : onTest (pushNode g pos data).nodes g.nodes.length e = false := by
      obtain ⟨e0, he0, ⟨h1, rfl⟩ | ⟨ho, rfl | rfl⟩⟩ := mem_splitAt.1 he
      · exact h1
      · rw [← Bool.not_eq_true]; intro hc; exact (onTest_ne hc).2 rfl
      · rw [← Bool.not_eq_true]; intro hc; exact (onTest_ne hc).2 rfl
    unfold onTest at key
    unfold getVertex at ha hb
    rw [hnodes] at ha hb hp
    rw [ha, hb, hp] at key
    exact key

end

/-- **C59, exact arithmetic.** No edge contains the created node at more than epsilon from both of its ends. -/
theorem C59_exact (g : PlanarGraph XReal T U) (hwf : WF g) (p : ℝ × ℝ) (data : T) (g' : PlanarGraph XReal T U)
    (changed : List Nat) (h : g.addNode (pt p) data = .ok (g', (g.nodeCount, changed))) (e : Edge U) (he : e ∈ g'.edges)
    (a b : ℝ × ℝ) (na nb : Node XReal T) (ha : g'.getVertex e.src = some na) (hb : g'.getVertex e.dst = some nb)
    (hna : na.position = pt a) (hnb : nb.position = pt b) (hon : UtilThm.OnSegR a b p) :
    UtilThm.dst a p ≤ XReal.epsR ∨ UtilThm.dst p b ≤ XReal.epsR := by
  by_contra hc
  push Not at hc
  have h1 := C59_not_inside g hwf (pt p) data g' changed h e he na nb ha hb true
  rw [hna, hnb, (UtilThm.C44_on_segment_partial a b p true).1 hon hc.1 hc.2] at h1
  cases h1

/-! ## C66, C67: queries -/

/-- **C66, partial.** For indices other than 0 the tests agree with the getters.  Missing: index 0, for which both tests
always answer no (`C66_counterexample`). -/
theorem C66_has_index_partial (g : PlanarGraph F T U) (i : Nat) (hi : i ≠ 0) :
    (g.hasNodeAtIndex i = true ↔ ∃ n, g.getVertex i = some n) ∧
    (g.hasEdgeAtIndex i = true ↔ ∃ e, g.getEdge i = some e) := by
  have key : ∀ {α : Type} (l : List α), (decide (i > 0) && decide (i < l.length)) = true ↔ ∃ x, l[i]? = some x := by
    intro α l
    simp only [Bool.and_eq_true, decide_eq_true_eq]
    constructor
    · exact fun h => ⟨_, List.getElem?_eq_getElem h.2⟩
    · rintro ⟨x, hx⟩; exact ⟨by omega, (List.getElem?_eq_some_iff.1 hx).1⟩
  exact ⟨key g.nodes, key g.edges⟩

/-- **C66 is false at index 0**, in every graph with a node (an edge). -/
theorem C66_counterexample (g : PlanarGraph F T U) :
    g.hasNodeAtIndex 0 = false ∧ g.hasEdgeAtIndex 0 = false ∧
    (g.nodes ≠ [] → ∃ n, g.getVertex 0 = some n) ∧ (g.edges ≠ [] → ∃ e, g.getEdge 0 = some e) := by
  refine ⟨rfl, rfl, fun h => ?_, fun h => ?_⟩
  · exact ⟨_, List.getElem?_eq_getElem (List.length_pos_iff.2 h)⟩
  · exact ⟨_, List.getElem?_eq_getElem (List.length_pos_iff.2 h)⟩

/-- **C67.** `number_of_edges_incident_to(i)` is `Some` exactly for existing nodes; it then counts the edge slots whose edge
starts or ends at `i`. -/
theorem C67_incident (g : PlanarGraph F T U) (i : Nat) :
    ((∃ n, g.numberOfEdgesIncidentTo i = some n) ↔ i < g.nodeCount) ∧
    ∀ n, g.numberOfEdgesIncidentTo i = some n →
      n = ((Finset.range g.edgeCount).filter fun k => ∃ e, g.getEdge k = some e ∧ (e.src = i ∨ e.dst = i)).card := by
  classical
  constructor
  · unfold numberOfEdgesIncidentTo getVertex nodeCount
    constructor
    · rintro ⟨n, h⟩
      by_contra hc
      rw [List.getElem?_eq_none (by omega)] at h; cases h
    · intro h; rw [List.getElem?_eq_getElem h]; exact ⟨_, rfl⟩
  · intro n h
    unfold numberOfEdgesIncidentTo at h
    split at h
    · simp only [Option.some.injEq] at h
      rw [← h]
      unfold edgeCount getEdge
      have key : ∀ l : List (Edge U), (l.filter fun e => e.includes i).length =
          ((Finset.range l.length).filter fun k => ∃ e, l[k]? = some e ∧ (e.src = i ∨ e.dst = i)).card := by
        intro l
        induction l using List.reverseRecOn with
        | nil => rfl
        | append_singleton l e ih =>
          rw [List.filter_append, List.length_append, ih, List.length_append, List.length_singleton,
            Finset.range_add_one, Finset.filter_insert]
          have hsame : ((Finset.range l.length).filter fun k => ∃ e', (l ++ [e])[k]? = some e' ∧ (e'.src = i ∨ e'.dst = i)) =
              ((Finset.range l.length).filter fun k => ∃ e', l[k]? = some e' ∧ (e'.src = i ∨ e'.dst = i)) := by
            apply Finset.filter_congr
            intro k hk
            rw [List.getElem?_append_left (Finset.mem_range.1 hk)]
          have hlast : (∃ e', (l ++ [e])[l.length]? = some e' ∧ (e'.src = i ∨ e'.dst = i)) ↔ e.includes i = true := by
            rw [includes_iff]; simp
          rw [hsame]
          by_cases hi : e.includes i = true
          · rw [if_pos (hlast.2 hi), Finset.card_insert_of_notMem (by simp)]
            simp [hi]
          · rw [if_neg (fun h => hi (hlast.1 h))]
            simp [hi]
      exact key g.edges
    · cases h

/-- **C67, handshake.** Summed over all nodes, the incidence counts and the number of self-loops are twice the number of
edges. -/
theorem C67_handshake (g : PlanarGraph F T U) (hwf : WF g) :
    ((List.range g.nodeCount).map fun i => (g.numberOfEdgesIncidentTo i).getD 0).sum +
      (g.edges.filter fun e => decide (e.src = e.dst)).length = 2 * g.edgeCount := by
  have h1 : ((List.range g.nodeCount).map fun i => (g.numberOfEdgesIncidentTo i).getD 0) =
      (List.range g.nodes.length).map fun i => (g.edges.filter fun e => e.includes i).length := by
    apply List.map_congr_left
    intro i hi
    unfold numberOfEdgesIncidentTo getVertex
    rw [List.getElem?_eq_getElem (List.mem_range.1 hi)]
    rfl
  rw [h1]
  have hwf' : ∀ e ∈ g.edges, e.src < g.nodes.length ∧ e.dst < g.nodes.length := hwf
  unfold edgeCount
  generalize g.edges = es at hwf'
  generalize g.nodes.length = n at hwf'
  induction es with
  | nil => simp
  | cons e es ih =>
    obtain ⟨hs, hd⟩ := hwf' e (List.mem_cons_self ..)
    have ih := ih (fun e' he' => hwf' e' (List.mem_cons_of_mem _ he'))
    have hsum : ((List.range n).map fun i => ((e :: es).filter fun e => e.includes i).length).sum =
        ((List.range n).map fun i => (es.filter fun e => e.includes i).length).sum +
        ((List.range n).map fun i => if e.includes i = true then 1 else 0).sum := by
      rw [← List.sum_map_add]
      congr 1
      apply List.map_congr_left
      intro i _
      rw [List.filter_cons]
      split <;> simp
    have hone : ∀ m, ((List.range m).map fun i => if e.includes i = true then 1 else 0).sum =
        (if e.src < m then 1 else 0) + (if e.dst < m ∧ e.dst ≠ e.src then 1 else 0) := by
      intro m
      induction m with
      | zero => simp
      | succ m ihm =>
        rw [List.range_succ, List.map_append, List.sum_append, ihm]
        simp only [List.map_cons, List.map_nil, List.sum_cons, List.sum_nil, includes_iff]
        split_ifs <;> omega
    rw [hsum, hone n, List.filter_cons]
    by_cases hl : e.src = e.dst
    · simp only [hl, decide_true, if_true, List.length_cons, hd, ne_eq, not_true_eq_false, and_false, if_false]
      omega
    · simp only [hl, decide_false, hs, hd, if_true, Ne.symm hl, ne_eq, not_false_eq_true, and_self, List.length_cons,
        Bool.false_eq_true, if_false]
      omega

/-- a loop and two ordinary edges: the counts are 2, 2, 1 and `5 + 1 = 2 * 3` -/
example : let g : PlanarGraph ℚ Unit Unit := ⟨[⟨⟨0, 0⟩, (), ""⟩, ⟨⟨1, 0⟩, (), ""⟩, ⟨⟨0, 1⟩, (), ""⟩],
      [⟨0, 0, (), ""⟩, ⟨0, 1, (), ""⟩, ⟨1, 2, (), ""⟩]⟩
    (List.range 3).map g.numberOfEdgesIncidentTo = [some 2, some 2, some 1] ∧ 2 + 2 + 1 + 1 = 2 * 3 := by decide

/-! ## C68: calling add_edge twice -/

section
variable [Scalar F] [Inhabited T]

/-- **C68, partial.** The second `add_edge(s, d)` leaves the graph untouched if the first one failed, or left an edge joining
`s` and `d` directly; the latter is so in particular when the new edge met no other edge.  Missing: the case that the
first call split the new edge, where the claim is false (`C68_counterexample`). -/
theorem C68_twice_partial (g : PlanarGraph F T U) (hwf : WF g) (s d : Nat) (x y : U) (g' : PlanarGraph F T U)
    (r : Except PlanarGraphError (List Nat × List Nat)) (h : g.addEdge s d x = .ok (g', r)) :
    ((∃ err, r = .error err) → g' = g ∧ g'.addEdge s d y = .ok (g', r)) ∧
    ((∃ e ∈ g'.edges, (e.src = s ∧ e.dst = d) ∨ (e.src = d ∧ e.dst = s)) →
      g'.addEdge s d y = .ok (g', .ok ([], [])) ∧ g'.addEdge d s y = .ok (g', .ok ([], []))) ∧
    ((∀ e ∈ g.edges, ∀ a b c c' : Node F T, g.getVertex e.src = some a → g.getVertex e.dst = some b →
        g.getVertex s = some c → g.getVertex d = some c' →
        Utils.calculateLineSegmentIntersection a.position b.position c.position c'.position = none) →
      (∀ err, r ≠ .error err) → ∃ e ∈ g'.edges, (e.src = s ∧ e.dst = d) ∨ (e.src = d ∧ e.dst = s)) := by
  have hwf' := addEdge_wf hwf h
  refine ⟨?_, ?_, ?_⟩
  · rintro ⟨err, rfl⟩
    rcases addEdge_ok g hwf s d x with ⟨_, h'⟩ | ⟨hb, hv, h'⟩ | ⟨_, _, _, g1, cn, ce, _, h'⟩
    · rw [h] at h'; cases h'
    · rw [h] at h'; cases h'
      refine ⟨rfl, ?_⟩
      rcases addEdge_ok g hwf s d y with ⟨h1, _⟩ | ⟨_, _, h1⟩ | ⟨_, h1, h2, _⟩
      · rw [hb] at h1; cases h1
      · exact h1
      · exact absurd ⟨h1, h2⟩ hv
    · rw [h] at h'; cases h'
  · intro he
    refine ⟨(C55_rejects g' hwf' s d y).1 he, (C55_rejects g' hwf' d s y).1 ?_⟩
    obtain ⟨e, he, hj⟩ := he
    exact ⟨e, he, hj.symm⟩
  · intro hm hr
    rcases addEdge_ok g hwf s d x with ⟨hb, h'⟩ | ⟨_, _, h'⟩ | ⟨_, hs, hd, g1, cn, ce, hi, h'⟩
    · rw [h] at h'; cases h'
      exact (hasEdge_iff g s d).1 hb
    · rw [h] at h'; cases h'; exact absurd rfl (hr _)
    · rw [h] at h'
      simp only [Except.ok.injEq, Prod.mk.injEq] at h'
      obtain ⟨rfl, _⟩ := h'
      have hnil : meetPoints g ⟨s, d, x, defaultLabel⟩ = [] := by
        unfold meetPoints
        rw [List.filterMap_eq_nil_iff]
        intro e he
        unfold edgeMeets
        split
        · rename_i a b c c' h1 h2 h3 h4
          exact hm e he a b c c' h1 h2 h3 h4
        · rfl
      rw [hnil] at hi
      cases hi
      exact ⟨⟨s, d, x, defaultLabel⟩, by simp [pushEdge], Or.inl ⟨rfl, rfl⟩⟩

end

/-- **C68 is false**: the square with corners 0..3 and its diagonals 0-2 and 1-3.  The first `add_edge(1, 3)` is split
at the centre; the second one adds the unsplit edge 1-3, which passes through the node at the centre. -/
theorem C68_counterexample :
    let ops : List (Op F32 Unit Unit) := [.addNode ⟨F32.lit 0, F32.lit 0⟩ (), .addNode ⟨F32.lit 4, F32.lit 0⟩ (),
      .addNode ⟨F32.lit 4, F32.lit 4⟩ (), .addNode ⟨F32.lit 0, F32.lit 4⟩ (), .addEdge 0 2 (), .addEdge 1 3 ()]
    let nodes : List (Node F32 Unit) := [⟨⟨F32.lit 0, F32.lit 0⟩, (), ""⟩, ⟨⟨F32.lit 4, F32.lit 0⟩, (), ""⟩,
      ⟨⟨F32.lit 4, F32.lit 4⟩, (), ""⟩, ⟨⟨F32.lit 0, F32.lit 4⟩, (), ""⟩, ⟨⟨F32.lit 2, F32.lit 2⟩, (), ""⟩]
    PlanarGraph.run .debug PlanarGraph.new ops =
      .ok ⟨nodes, [⟨0, 4, (), ""⟩, ⟨1, 4, (), ""⟩, ⟨2, 4, (), ""⟩, ⟨3, 4, (), ""⟩]⟩ ∧
    PlanarGraph.run .debug PlanarGraph.new (ops ++ [.addEdge 1 3 ()]) =
      .ok ⟨nodes, [⟨0, 4, (), ""⟩, ⟨1, 4, (), ""⟩, ⟨2, 4, (), ""⟩, ⟨3, 4, (), ""⟩, ⟨1, 3, (), ""⟩]⟩ := by
  decide +kernel

/-! ## C70: parallel edges -/

/-- two different edge slots never join the same pair of nodes -/
def NoParallel (g : PlanarGraph F T U) : Prop :=
  ∀ (k l : Nat) (e f : Edge U), g.edges[k]? = some e → g.edges[l]? = some f → k ≠ l → ¬ Joins f e.src e.dst

theorem Renumbered.noParallel {g g' : PlanarGraph F T U} {keep ekeep : List Nat} (h : Renumbered g g' keep ekeep)
    (hp : NoParallel g) : NoParallel g' := by
  intro k l e f hk hl hne hj
  have hlt := (List.getElem?_eq_some_iff.1 hk).1
  have hlt' := (List.getElem?_eq_some_iff.1 hl).1
  rw [h.edge_count] at hlt hlt'
  obtain ⟨e0, e1, he0, he1, _, _, hs, hd⟩ := h.edges k _ (List.getElem?_eq_getElem hlt)
  obtain ⟨f0, f1, hf0, hf1, _, _, hs', hd'⟩ := h.edges l _ (List.getElem?_eq_getElem hlt')
  rw [hk] at he1; cases he1
  rw [hl] at hf1; cases hf1
  refine hp _ _ e0 f0 he0 hf0 ?_ ?_
  · intro heq
    exact hne ((List.getElem_inj h.enodup).1 heq)
  · rcases hj with ⟨h1, h2⟩ | ⟨h1, h2⟩
    · left
      rw [h1, hs] at hs'; rw [h2, hd] at hd'
      simp only [Option.some.injEq] at hs' hd'
      exact ⟨hs'.symm, hd'.symm⟩
    · right
      rw [h1, hd] at hs'; rw [h2, hs] at hd'
      simp only [Option.some.injEq] at hs' hd'
      exact ⟨hs'.symm, hd'.symm⟩

/-- **C70, partial (removal).** On graphs without self-loops removal creates no parallel edges. -/
theorem C70_remove_partial (p : Profile) (g : PlanarGraph F T U) (hwf : WF g) (hl : ∀ e ∈ g.edges, e.src ≠ e.dst)
    (hn : NoParallel g) (g' : PlanarGraph F T U) (id : Nat) (r : List Nat × List Nat)
    (h : g.removeNode p id = .ok (g', r) ∨ g.removeEdge p id = .ok (g', r)) : NoParallel g' := by
  have : g' = g ∨ ∃ keep ekeep, Renumbered g g' keep ekeep := by
    rcases h with h | h
    · exact removeNode_renumbered hwf hl h
    · exact removeEdge_renumbered hwf hl h
  rcases this with rfl | ⟨_, _, hr⟩
  · exact hn
  · exact hr.noParallel hn

section
variable [Scalar F]

/-- every slot after a split comes from a slot before -/
theorem splitAt_slot {g : PlanarGraph F T U} {id K : Nat} {e' : Edge U} (h : (splitAt g id).edges[K]? = some e') :
    ∃ k e, g.edges[k]? = some e ∧ ((onTest g.nodes id e = false ∧ e' = e ∧ K = k) ∨
      (onTest g.nodes id e = true ∧ e' = nearHalf id e ∧ K = k) ∨
      (onTest g.nodes id e = true ∧ e' = farHalf id e ∧ ∃ m, K = g.edges.length + m ∧ (onSlots g id)[m]? = some k)) := by
  by_cases hK : K < g.edges.length
  · refine ⟨K, g.edges[K], List.getElem?_eq_getElem hK, ?_⟩
    rw [splitAt_get_old (List.getElem?_eq_getElem hK)] at h
    simp only [Option.some.injEq] at h
    by_cases ho : onTest g.nodes id g.edges[K] = true
    · rw [if_pos ho] at h; exact Or.inr (Or.inl ⟨ho, h.symm, rfl⟩)
    · rw [if_neg ho] at h; exact Or.inl ⟨by simpa using ho, h.symm, rfl⟩
  · obtain ⟨m, rfl⟩ : ∃ m, K = g.edges.length + m := ⟨K - g.edges.length, by omega⟩
    rw [splitAt_get_new] at h
    obtain ⟨k, hk, h⟩ := Option.bind_eq_some_iff.1 h
    obtain ⟨e, he, rfl⟩ := Option.map_eq_some_iff.1 h
    obtain ⟨e1, he1, ho⟩ := mem_onSlots.1 (List.mem_of_getElem? hk)
    rw [he] at he1; cases he1
    exact ⟨k, e, he, Or.inr (Or.inr ⟨ho, rfl, m, rfl, hk⟩)⟩

/-- **C70, partial (add_node).** On a graph without self-loops and parallel edges, a created node leads to parallel edges
only if it lies on two edges with a common end.  Missing: that case, where the claim is false (`C70_counterexample`). -/
theorem C70_add_node_partial (g : PlanarGraph F T U) (hwf : WF g) (hl : ∀ e ∈ g.edges, e.src ≠ e.dst)
    (hn : NoParallel g) (pos : Vec2 F) (data : T) (g' : PlanarGraph F T U) (r : Nat × List Nat)
    (h : g.addNode pos data = .ok (g', r))
    (hpos : ∀ (k l : Nat) (e f : Edge U) (a b c d : Node F T), g.edges[k]? = some e → g.edges[l]? = some f → k ≠ l →
      g.getVertex e.src = some a → g.getVertex e.dst = some b → g.getVertex f.src = some c → g.getVertex f.dst = some d →
      Utils.isOnLineSegment a.position b.position pos false = true →
      Utils.isOnLineSegment c.position d.position pos false = true →
      e.src ≠ f.src ∧ e.src ≠ f.dst ∧ e.dst ≠ f.src ∧ e.dst ≠ f.dst) : NoParallel g' := by
  rw [addNode_ok g hwf] at h
  simp only [Except.ok.injEq, Prod.mk.injEq] at h
  obtain ⟨h, _⟩ := h
  subst h
  unfold addNodeG
  split
  · exact hn
  have hon : ∀ {k : Nat} {e : Edge U}, g.edges[k]? = some e → onTest (pushNode g pos data).nodes g.nodes.length e = true →
      ∃ a b, g.getVertex e.src = some a ∧ g.getVertex e.dst = some b ∧
        Utils.isOnLineSegment a.position b.position pos false = true := by
    intro k e he ho
    obtain ⟨h1, h2⟩ := hwf e (List.mem_of_getElem? he)
    unfold onTest at ho
    simp only [pushNode] at ho
    rw [List.getElem?_append_left h1, List.getElem?_append_left h2, List.getElem?_eq_getElem h1,
      List.getElem?_eq_getElem h2] at ho
    simp only [List.getElem?_concat_length] at ho
    exact ⟨_, _, List.getElem?_eq_getElem h1, List.getElem?_eq_getElem h2, ho⟩
  have hdisj : ∀ {k l : Nat} {e f : Edge U}, g.edges[k]? = some e → g.edges[l]? = some f → k ≠ l →
      onTest (pushNode g pos data).nodes g.nodes.length e = true →
      onTest (pushNode g pos data).nodes g.nodes.length f = true →
      e.src ≠ f.src ∧ e.src ≠ f.dst ∧ e.dst ≠ f.src ∧ e.dst ≠ f.dst := by
    intro k l e f he hf hne h1 h2
    obtain ⟨a, b, ha, hb, hab⟩ := hon he h1
    obtain ⟨c, d, hc, hd, hcd⟩ := hon hf h2
    exact hpos k l e f a b c d he hf hne ha hb hc hd hab hcd
  have hbound : ∀ {k : Nat} {e : Edge U}, g.edges[k]? = some e → e.src ≠ g.nodes.length ∧ e.dst ≠ g.nodes.length := by
    intro k e he
    obtain ⟨h1, h2⟩ := hwf e (List.mem_of_getElem? he)
    omega
  intro K L e' f' hK hL hne hj
  obtain ⟨k, e, he, hcase⟩ := splitAt_slot hK
  obtain ⟨l, f, hf, hcase'⟩ := splitAt_slot hL
  have he : g.edges[k]? = some e := he
  have hf : g.edges[l]? = some f := hf
  have be := hbound he
  have bf := hbound hf
  have le := hl e (List.mem_of_getElem? he)
  by_cases hkl : k = l
  · subst hkl
    rw [he] at hf; cases hf
    rcases hcase with ⟨o, rfl, rfl⟩ | ⟨o, rfl, rfl⟩ | ⟨o, rfl, m, rfl, hm⟩ <;>
      rcases hcase' with ⟨o', rfl, rfl⟩ | ⟨o', rfl, rfl⟩ | ⟨o', rfl, m', rfl, hm'⟩
    · exact hne rfl
    · rw [o] at o'; cases o'
    · rw [o] at o'; cases o'
    · rw [o] at o'; cases o'
    · exact hne rfl
    · simp only [Joins, nearHalf, farHalf] at hj; omega
    · rw [o] at o'; cases o'
    · simp only [Joins, nearHalf, farHalf] at hj; omega
    · have := (List.getElem?_inj (List.getElem?_eq_some_iff.1 hm).1 (onSlots_nodup _ _)).1 (hm.trans hm'.symm)
      exact hne (by rw [this])
  · rcases hcase with ⟨o, rfl, rfl⟩ | ⟨o, rfl, rfl⟩ | ⟨o, rfl, m, rfl, hm⟩ <;>
      rcases hcase' with ⟨o', rfl, rfl⟩ | ⟨o', rfl, rfl⟩ | ⟨o', rfl, m', rfl, hm'⟩
    · exact hn _ _ _ _ he hf hkl hj
    all_goals
      first
        | (have hd := hdisj he hf hkl o o'
           simp only [Joins, nearHalf, farHalf] at hj; omega)
        | (simp only [Joins, nearHalf, farHalf] at hj; omega)

/-- **C70, partial (add_edge).** An `add_edge` whose edge meets no other edge creates no parallel edges. -/
theorem C70_add_edge_partial [Inhabited T] (g : PlanarGraph F T U) (hwf : WF g) (hn : NoParallel g) (s d : Nat) (x : U)
    (g' : PlanarGraph F T U) (r : Except PlanarGraphError (List Nat × List Nat)) (h : g.addEdge s d x = .ok (g', r))
    (hm : ∀ e ∈ g.edges, ∀ a b c c' : Node F T, g.getVertex e.src = some a → g.getVertex e.dst = some b →
        g.getVertex s = some c → g.getVertex d = some c' →
        Utils.calculateLineSegmentIntersection a.position b.position c.position c'.position = none) : NoParallel g' := by
  rcases addEdge_ok g hwf s d x with ⟨hb, h'⟩ | ⟨_, _, h'⟩ | ⟨hb, hs, hd, g1, cn, ce, hi, h'⟩
  · rw [h] at h'; cases h'; exact hn
  · rw [h] at h'; cases h'; exact hn
  · rw [h] at h'
    simp only [Except.ok.injEq, Prod.mk.injEq] at h'
    obtain ⟨rfl, _⟩ := h'
    have hnil : meetPoints g ⟨s, d, x, defaultLabel⟩ = [] := by
      unfold meetPoints
      rw [List.filterMap_eq_nil_iff]
      intro e he
      unfold edgeMeets
      split
      · rename_i a b c c' h1 h2 h3 h4
        exact hm e he a b c c' h1 h2 h3 h4
      · rfl
    rw [hnil] at hi
    cases hi
    have hna : ¬ Adj g s d := by rw [← hasEdge_iff, hb]; simp
    have hget : ∀ (k : Nat) e, (pushEdge g s d x).edges[k]? = some e →
        g.edges[k]? = some e ∨ (k = g.edges.length ∧ e = ⟨s, d, x, defaultLabel⟩) := by
      intro k e h
      simp only [pushEdge] at h
      by_cases hk : k < g.edges.length
      · rw [List.getElem?_append_left hk] at h; exact Or.inl h
      · have := (List.getElem?_eq_some_iff.1 h).1
        simp only [List.length_append, List.length_singleton] at this
        have : k = g.edges.length := by omega
        subst this
        simp at h
        exact Or.inr ⟨rfl, h.symm⟩
    intro k l e f hk hl hne hj
    rcases hget k e hk with hk | ⟨rfl, rfl⟩ <;> rcases hget l f hl with hl | ⟨rfl, rfl⟩
    · exact hn k l e f hk hl hne hj
    · refine hna ⟨e, List.mem_of_getElem? hk, ?_⟩
      simp only [Joins] at hj ⊢
      omega
    · exact hna ⟨f, List.mem_of_getElem? hl, hj⟩
    · exact hne rfl

end

/-- **C70 is false**: `A = (0,0)`, `B = (4,0)`, `C = (2,0)` with edges AB and AC; adding a node at `(1,0)` splits both and
joins it to A twice. -/
theorem C70_counterexample : (PlanarGraph.run .debug (PlanarGraph.new : PlanarGraph F32 Unit Unit)
    [.addNode ⟨F32.lit 0, F32.lit 0⟩ (), .addNode ⟨F32.lit 4, F32.lit 0⟩ (), .addNode ⟨F32.lit 2, F32.lit 0⟩ (),
      .addEdge 0 1 (), .addEdge 0 2 (), .addNode ⟨F32.lit 1, F32.lit 0⟩ ()]) =
    .ok ⟨[⟨⟨F32.lit 0, F32.lit 0⟩, (), ""⟩, ⟨⟨F32.lit 4, F32.lit 0⟩, (), ""⟩, ⟨⟨F32.lit 2, F32.lit 0⟩, (), ""⟩,
        ⟨⟨F32.lit 1, F32.lit 0⟩, (), ""⟩],
      [⟨0, 3, (), ""⟩, ⟨0, 3, (), ""⟩, ⟨1, 3, (), ""⟩, ⟨2, 3, (), ""⟩]⟩ := by
  decide +kernel

end Kami.Graph
