import Verif.Graph.Exact
/-!
# C145: numbers of nodes and edges after one call, and the lengths of the reports

For any scalar, so for `f32` as well as for exact arithmetic, and for every graph whose edges refer to existing nodes.
-/

set_option autoImplicit false

namespace Kami.Graph

open Kami
open scoped Kami
open PlanarGraph

variable {F T U : Type}

section
variable [Scalar F]

theorem split_sizes (g : PlanarGraph F T U) (id : Nat) : g.edges.length ≤ (splitAt g id).edges.length ∧
    (splitAt g id).edges.length ≤ 2 * g.edges.length ∧
    (splitChanged g id).length + 2 * g.edges.length = 2 * (splitAt g id).edges.length := by
  have h : (onSlots g id).length ≤ g.edges.length := by
    rw [onSlots_length]; exact List.length_filter_le _ _
  rw [splitAt_length, splitChanged_eq, List.length_append, List.length_range']
  omega

theorem insertPt_sizes [Inhabited T] (g : PlanarGraph F T U) (x : Vec2 F) :
    g.edges.length ≤ (insertPt g x).edges.length ∧ (insertPt g x).edges.length ≤ 2 * g.edges.length ∧
    (insertChanged g x).length + 2 * g.edges.length = 2 * (insertPt g x).edges.length := by
  unfold insertPt insertChanged
  split
  · exact split_sizes g _
  · exact split_sizes (pushNode g x default) _

theorem inserts_sizes [Inhabited T] {g g' : PlanarGraph F T U} {xs : List (Vec2 F)} {cn ce : List Nat} (h : Inserts g xs g' cn ce) :
    cn.length ≤ xs.length ∧ g.edges.length ≤ g'.edges.length ∧ g'.edges.length ≤ g.edges.length * 2 ^ xs.length ∧
    ce.length + 2 * g.edges.length = 2 * g'.edges.length := by
  induction h with
  | nil g => simp
  | cons g x xs g' cn ce _ ih =>
    obtain ⟨i1, i2, i3, i4⟩ := ih
    obtain ⟨j1, j2, j3⟩ := insertPt_sizes g x
    have hn : (insertNodes g x).length ≤ 1 := by unfold insertNodes; split <;> simp
    simp only [List.length_append, List.length_cons, pow_succ]
    refine ⟨by omega, by omega, ?_, by omega⟩
    calc g'.edges.length ≤ (insertPt g x).edges.length * 2 ^ xs.length := i3
      _ ≤ (2 * g.edges.length) * 2 ^ xs.length := Nat.mul_le_mul_right _ j2
      _ = g.edges.length * (2 ^ xs.length * 2) := by ring

/-- **C145, add_node.** `add_node` creates at most one node; every edge it splits becomes two, and it reports two indices for each of
them.  If it creates no node it changes nothing. -/
theorem C145_add_node (g : PlanarGraph F T U) (hwf : WF g) (pos : Vec2 F) (data : T) (g' : PlanarGraph F T U) (i : Nat)
    (changed : List Nat) (h : g.addNode pos data = .ok (g', (i, changed))) :
    (g' = g ∧ changed = [] ∨ g'.nodeCount = g.nodeCount + 1) ∧ g.edgeCount ≤ g'.edgeCount ∧ g'.edgeCount ≤ 2 * g.edgeCount ∧
    changed.length = 2 * (g'.edgeCount - g.edgeCount) := by
  rw [addNode_ok g hwf] at h
  unfold addNodeG at h
  unfold nodeCount edgeCount
  split at h
  · cases h
    refine ⟨Or.inl ⟨rfl, rfl⟩, Nat.le_refl _, by omega, by simp⟩
  · simp only [Except.ok.injEq, Prod.mk.injEq] at h
    obtain ⟨rfl, rfl, rfl⟩ := h
    obtain ⟨h1, h2, h3⟩ := split_sizes (pushNode g pos data) g.nodes.length
    have e : (pushNode g pos data).edges.length = g.edges.length := rfl
    rw [e] at h1 h2 h3
    refine ⟨Or.inr (by simp [splitAt, pushNode]), h1, h2, by omega⟩

/-- **C145, add_edge.** Let `k` be the number of drawn edges on which a crossing with the requested segment is computed.  If
`add_edge` succeeds it creates at most `k` nodes and reports exactly these.  If an edge joined the two nodes already, in either
direction, nothing changes.  Otherwise the number of edges
grows by 1 for the new edge and 1 for every splitting, and two indices are reported for every splitting, or only that of the new
edge if there was none.  In `k` rounds of splitting the number of edges at most doubles `k` times. -/
theorem C145_add_edge [Inhabited T] (g : PlanarGraph F T U) (hwf : WF g) (s d : Nat) (x : U) (a b : Node F T)
    (ha : g.getVertex s = some a) (hb : g.getVertex d = some b) (g' : PlanarGraph F T U) (cn ce : List Nat)
    (h : g.addEdge s d x = .ok (g', .ok (cn, ce))) :
    let k := (g.edges.filterMap (crossOf g a.position b.position)).length
    k ≤ g.edgeCount ∧ g'.nodeCount = g.nodeCount + cn.length ∧ cn.length ≤ k ∧
    (((∃ e ∈ g.edges, (e.src = s ∧ e.dst = d) ∨ (e.src = d ∧ e.dst = s)) ∧ g' = g ∧ cn = [] ∧ ce = []) ∨
      ((¬ ∃ e ∈ g.edges, (e.src = s ∧ e.dst = d) ∨ (e.src = d ∧ e.dst = s)) ∧
        ((g'.edgeCount = g.edgeCount + 1 ∧ ce = [g.edgeCount]) ∨
          (g.edgeCount + 1 < g'.edgeCount ∧ g'.edgeCount ≤ (g.edgeCount + 1) * 2 ^ k ∧
            ce.length = 2 * (g'.edgeCount - g.edgeCount - 1))))) := by
  intro k
  have hk : k ≤ g.edgeCount := List.length_filterMap_le _ _
  refine ⟨hk, ?_⟩
  have hpos := (C58_order_partial g hwf s d x a b ha hb g' cn ce h).2
  have hcn := (C58_changed_partial g hwf s d x g' cn ce h).1
  have htake := (C58_order_partial g hwf s d x a b ha hb g' cn ce h).1
  have hlen : g.nodes.length ≤ g'.nodes.length := by
    have := congrArg List.length htake
    rw [List.length_take] at this
    omega
  have hc : cn.length = g'.nodes.length - g.nodes.length := by rw [hcn, List.length_range']
  have hck := hpos.length_le
  rw [List.length_map, List.length_drop] at hck
  unfold nodeCount edgeCount
  refine ⟨by omega, hc ▸ hck, ?_⟩
  rcases addEdge_ok g hwf s d x with ⟨hb', h'⟩ | ⟨_, _, h'⟩ | ⟨hb', _, _, g1, cn1, ce1, hi, h'⟩
  · rw [h] at h'; cases h'
    exact Or.inl ⟨(hasEdge_iff g s d).1 hb', rfl, rfl, rfl⟩
  · rw [h] at h'; cases h'
  · rw [h] at h'
    simp only [Except.ok.injEq, Prod.mk.injEq] at h'
    obtain ⟨rfl, rfl, rfl⟩ := h'
    have hno : ¬ Adj g s d := by rw [← hasEdge_iff, hb']; exact Bool.false_ne_true
    refine Or.inr ⟨hno, ?_⟩
    obtain ⟨i1, i2, i3, i4⟩ := inserts_sizes hi
    have hp : (pushEdge g s d x).edges.length = g.edges.length + 1 := by simp [pushEdge]
    rw [hp] at i2 i3 i4
    have hm : meetPoints g ⟨s, d, x, defaultLabel⟩ = g.edges.filterMap (crossOf g a.position b.position) := by
      unfold meetPoints
      apply List.filterMap_congr
      intro e _
      unfold getVertex at ha hb
      unfold edgeMeets crossOf getVertex
      rw [ha, hb]
      cases g.nodes[e.src]? <;> cases g.nodes[e.dst]? <;> rfl
    have hu : (Utils.uniquePointsAmong (meetPoints g ⟨s, d, x, defaultLabel⟩)).length ≤ k := by
      rw [hm]; exact (UtilThm.C47_unique_partial _).1.length_le
    cases ce1 with
    | nil =>
      left
      simp only [List.length_nil] at i4
      refine ⟨by omega, ?_⟩
      show [g'.edges.length - 1] = _
      rw [show g'.edges.length - 1 = g.edges.length by omega]
    | cons c cs =>
      right
      simp only [List.length_cons] at i4
      refine ⟨by omega, i3.trans (Nat.mul_le_mul_left _ (Nat.pow_le_pow_right (by decide) hu)), ?_⟩
      show (c :: cs).length = _
      rw [List.length_cons]
      omega

end

/-- members of a list of distinct slots that are removed -/
theorem filter_out (n : Nat) (m : List Nat) (hm : m.Nodup) (hlt : ∀ j ∈ m, j < n) :
    (survivors n m).length + m.length = n := by
  have h1 : ((List.range n).filter fun j => m.contains j).length = m.length := by
    apply List.Perm.length_eq
    rw [List.perm_ext_iff_of_nodup (List.nodup_range.sublist List.filter_sublist) hm]
    intro j
    simp only [List.mem_filter, List.mem_range, List.contains_iff_mem]
    exact ⟨fun h => h.2, fun h => ⟨hlt j h, h⟩⟩
  have h2 := List.length_eq_length_filter_add (l := List.range n) (fun j => m.contains j)
  rw [List.length_range] at h2
  unfold survivors
  omega

theorem filter_out_le (n : Nat) (m : List Nat) : n ≤ (survivors n m).length + m.length := by
  have h1 : ((List.range n).filter fun j => m.contains j).length ≤ m.length := by
    apply List.Subperm.length_le
    apply List.subperm_of_subset (List.nodup_range.sublist List.filter_sublist)
    intro j hj
    simpa using (List.mem_filter.1 hj).2
  have h2 := List.length_eq_length_filter_add (l := List.range n) (fun j => m.contains j)
  rw [List.length_range] at h2
  unfold survivors
  omega

theorem filter_out_lt (n i : Nat) (m : List Nat) (hi : i < n) (hm : i ∈ m) : (survivors n m).length < n := by
  have h2 := List.length_eq_length_filter_add (l := List.range n) (fun j => m.contains j)
  have h3 : 0 < ((List.range n).filter fun j => m.contains j).length :=
    List.length_pos_of_mem (List.mem_filter.2 ⟨List.mem_range.2 hi, by simpa using hm⟩)
  rw [List.length_range] at h2
  unfold survivors
  omega

/-- **C145, remove_node.** If `remove_node` of an existing node returns, exactly its edges are gone (at least one), and between one
node and one more than the number of its edges. -/
theorem C145_remove_node (p : Profile) (g : PlanarGraph F T U) (id n : Nat)
    (hn : g.numberOfEdgesIncidentTo id = some n) (g' : PlanarGraph F T U) (r : List Nat × List Nat)
    (h : g.removeNode p id = .ok (g', r)) :
    0 < n ∧ g'.edgeCount + n = g.edgeCount ∧ g'.nodeCount < g.nodeCount ∧ g.nodeCount ≤ g'.nodeCount + 1 + n := by
  have hid : id < g.nodes.length := by
    by_contra hc
    unfold numberOfEdgesIncidentTo getVertex at hn
    rw [List.getElem?_eq_none (by omega)] at hn
    cases hn
  have hd : deg g id = n := by
    unfold numberOfEdgesIncidentTo getVertex at hn
    rw [List.getElem?_eq_getElem hid] at hn
    exact Option.some.inj hn
  have hr : ∃ remapped, remapLoop p (id :: strays g id g.edges) g.nodes.length 0 = .ok remapped := by
    by_cases hl : LoopOnly g id
    · by_cases hn : id = 0 ∧ 2 ≤ g.nodes.length
      · cases p with
        | debug => rw [remap_loop_err hl hn.1 hn.2] at h; cases h
        | release => exact remapLoop_release _ _ _
      · exact ⟨_, remap_loop hid hl hn⟩
    · exact ⟨_, remap_ok hl⟩
  obtain ⟨remapped, hr⟩ := hr
  rcases removeNode_eq hid hr with ⟨_, h'⟩ | ⟨hd0, m, me, m1, m2, m3, m4, h'⟩
  · rw [h] at h'; cases h'
  · rw [h] at h'
    simp only [Except.ok.injEq, Prod.mk.injEq] at h'
    obtain ⟨rfl, _⟩ := h'
    unfold nodeCount edgeCount afterRemoval
    simp only [List.length_map, eraseMarked_length0]
    have hs : (slotsAt g id).length = n := by rw [← hd]; exact slots_length _ _
    have he := filter_out g.edges.length (slotsAt g id) (slots_nodup _ _) (by
      intro j hj
      obtain ⟨e, h1, _⟩ := mem_slots.1 hj
      exact (List.getElem?_eq_some_iff.1 h1).1)
    have hst : (strays g id g.edges).length ≤ n := by
      rw [← hd]
      unfold strays deg
      exact (List.length_filter_le _ _).trans (by rw [List.length_map])
    have hv := filter_out_le g.nodes.length (id :: strays g id g.edges)
    have hv' := filter_out_lt g.nodes.length id (id :: strays g id g.edges) hid (List.mem_cons_self ..)
    rw [List.length_cons] at hv
    refine ⟨by omega, by omega, hv', by omega⟩

/-- **C145, remove_edge.** If `remove_edge` of an existing edge returns, one edge less is there, and at most two nodes less. -/
theorem C145_remove_edge (p : Profile) (g : PlanarGraph F T U) (hwf : WF g) (id : Nat) (e : Edge U) (he : g.getEdge id = some e)
    (g' : PlanarGraph F T U) (r : List Nat × List Nat) (h : g.removeEdge p id = .ok (g', r)) :
    g'.edgeCount + 1 = g.edgeCount ∧ g'.nodeCount ≤ g.nodeCount ∧ g.nodeCount ≤ g'.nodeCount + 2 := by
  have hm := List.mem_of_getElem? he
  obtain ⟨h1, h2⟩ := hwf e hm
  have hx := C86_remove_edge p g hwf id e he
  have one : ∀ a, a < g.nodes.length → OnlyEdgeAt g id a → g.removeNode p a = .ok (g', r) →
      g'.edgeCount + 1 = g.edgeCount ∧ g'.nodeCount ≤ g.nodeCount ∧ g.nodeCount ≤ g'.nodeCount + 2 := by
    intro a ha ho hr
    have hd : deg g a = 1 := (deg_eq_one_iff g a).2 ⟨id, ho⟩
    have hn : g.numberOfEdgesIncidentTo a = some 1 := by
      unfold numberOfEdgesIncidentTo getVertex
      rw [List.getElem?_eq_getElem ha]
      exact congrArg some hd
    obtain ⟨_, i1, i2, i3⟩ := C145_remove_node p g a 1 hn g' r hr
    exact ⟨i1, by omega, by omega⟩
  by_cases ho : OnlyEdgeAt g id e.src
  · exact one _ h1 ho (hx.1 ho ▸ h)
  · by_cases ho' : OnlyEdgeAt g id e.dst
    · exact one _ h2 ho' (hx.2.1 ho ho' ▸ h)
    · obtain ⟨a, b, _⟩ := hx.2.2 ho ho' g' r.1 r.2 h
      unfold nodeCount edgeCount
      rw [a]
      exact ⟨b, Nat.le_refl _, by omega⟩

/-- **C145, sharp.** One crossing, at a node that lies on the edge already drawn: both edges are split, so the number of edges is
doubled, and no node is created. -/
theorem C145_sharp :
    (⟨[⟨⟨F32.lit (-1), F32.lit 0⟩, (), ""⟩, ⟨⟨F32.lit 1, F32.lit 0⟩, (), ""⟩, ⟨⟨F32.lit 0, F32.lit (-1)⟩, (), ""⟩,
        ⟨⟨F32.lit 0, F32.lit 1⟩, (), ""⟩, ⟨⟨F32.lit 0, F32.lit 0⟩, (), ""⟩], [⟨0, 1, 7, ""⟩]⟩ : PlanarGraph F32 Unit Nat).addEdge 2 3 8 =
    .ok (⟨[⟨⟨F32.lit (-1), F32.lit 0⟩, (), ""⟩, ⟨⟨F32.lit 1, F32.lit 0⟩, (), ""⟩, ⟨⟨F32.lit 0, F32.lit (-1)⟩, (), ""⟩,
        ⟨⟨F32.lit 0, F32.lit 1⟩, (), ""⟩, ⟨⟨F32.lit 0, F32.lit 0⟩, (), ""⟩],
        [⟨0, 4, 7, ""⟩, ⟨2, 4, 8, ""⟩, ⟨1, 4, 7, ""⟩, ⟨3, 4, 8, ""⟩]⟩, .ok ([], [0, 1, 2, 3])) := by
  decide +kernel

/-- a star of three edges, each with a stray end: removing its centre removes all four nodes and all three edges -/
example :
    let g : PlanarGraph F32 Unit Nat := ⟨[⟨⟨F32.lit 0, F32.lit 0⟩, (), ""⟩, ⟨⟨F32.lit 1, F32.lit 0⟩, (), ""⟩,
      ⟨⟨F32.lit 0, F32.lit 1⟩, (), ""⟩, ⟨⟨F32.lit (-1), F32.lit 0⟩, (), ""⟩], [⟨0, 1, 7, ""⟩, ⟨2, 0, 8, ""⟩, ⟨0, 3, 9, ""⟩]⟩
    g.numberOfEdgesIncidentTo 0 = some 3 ∧ (g.removeNode .debug 0).map (fun x => (x.1.nodes.length, x.1.edges.length)) = .ok (0, 0) := by
  decide +kernel

end Kami.Graph
