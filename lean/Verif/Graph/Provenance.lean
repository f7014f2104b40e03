import Verif.Graph.Walks
/-!
# C112: where nodes and edges come from, in histories with removals

Every edge is a piece of the segment of a request: it is obtained from it by repeatedly cutting at points that pass
`is_on_line_segment`.  Every node was asked for, or is the computed crossing of a requested segment with such a piece.
-/

set_option autoImplicit false

namespace Kami.Graph

open Kami
open scoped Kami
open PlanarGraph

variable {F T U : Type}

/-! ### specification -/

section
variable [Scalar F]

/-- the pair `P`, `Q` arises from `A`, `B` by cutting `m` times at a point that passes the on-segment test, each time keeping
one of the two halves; all these points satisfy `S` -/
inductive Piece (S : Vec2 F → Prop) (A B : Vec2 F) : Nat → Vec2 F → Vec2 F → Prop
  | whole : S A → S B → Piece S A B 0 A B
  | near (m : Nat) (P Q X : Vec2 F) : Piece S A B m P Q → S X → Utils.isOnLineSegment P Q X false = true →
      Piece S A B (m + 1) P X
  | far (m : Nat) (P Q X : Vec2 F) : Piece S A B m P Q → S X → Utils.isOnLineSegment P Q X false = true →
      Piece S A B (m + 1) Q X

variable [Inhabited T]

/-- the calls of `add_edge` that find two nodes not joined by an edge: positions of the nodes at that time, and the data -/
def asked (p : Profile) : PlanarGraph F T U → List (Op F T U) → List (Vec2 F × Vec2 F × U)
  | _, [] => []
  | g, op :: ops =>
    (match op with
     | .addEdge s d x =>
       match g.nodes[s]?, g.nodes[d]? with
       | some a, some b =>
         if ∀ e ∈ g.edges, ¬ ((e.src = s ∧ e.dst = d) ∨ (e.src = d ∧ e.dst = s)) then [(a.position, b.position, x)] else []
       | _, _ => []
     | _ => []) ++
    match g.step p op with
    | .ok g' => asked p g' ops
    | .error _ => []

/-- number of edge indices reported as changed by the calls of `add_node` and `add_edge` -/
def reported (p : Profile) : PlanarGraph F T U → List (Op F T U) → Nat
  | _, [] => 0
  | g, op :: ops =>
    (match op with
     | .addNode x t => match g.addNode x t with
       | .ok (_, (_, changed)) => changed.length
       | .error _ => 0
     | .addEdge s d x => match g.addEdge s d x with
       | .ok (_, .ok (_, changed)) => changed.length
       | _ => 0
     | _ => 0) +
    match g.step p op with
    | .ok g' => reported p g' ops
    | .error _ => 0

/-- some graph on the way has a node at `X` -/
def Ever (p : Profile) (ops : List (Op F T U)) (X : Vec2 F) : Prop :=
  ∃ k g, PlanarGraph.run p PlanarGraph.new (ops.take k) = .ok g ∧ ∃ a ∈ g.nodes, a.position = X

/-- the edge is a piece of a request of the list, cut at most `k / 2` times -/
def FromRequest (S : Vec2 F → Prop) (R : List (Vec2 F × Vec2 F × U)) (k : Nat) (n : List (Node F T)) (e : Edge U) : Prop :=
  e.label = "" ∧ ∃ a b A B m, n[e.src]? = some a ∧ n[e.dst]? = some b ∧ (A, B, e.data) ∈ R ∧ 2 * m ≤ k ∧
    Piece S A B m a.position b.position

/-- the node was added by a call of the list, or has default data and is the computed crossing of a piece of a request with a
request -/
def NodeFrom (S : Vec2 F → Prop) (N : List (Op F T U)) (R : List (Vec2 F × Vec2 F × U)) (k : Nat) (a : Node F T) : Prop :=
  a.label = "" ∧ (Op.addNode a.position a.data ∈ N ∨
  a.data = default ∧ ∃ A B x A' B' x' m P Q, (A, B, x) ∈ R ∧ (A', B', x') ∈ R ∧ 2 * m ≤ k ∧ Piece S A B m P Q ∧
    Utils.calculateLineSegmentIntersection P Q A' B' = some a.position)

/-! ### one call -/

variable {S : Vec2 F → Prop} {R : List (Vec2 F × Vec2 F × U)} {N : List (Op F T U)}

omit [Inhabited T] in
theorem FromRequest.mono {R' : List (Vec2 F × Vec2 F × U)} {k k' : Nat} {n : List (Node F T)} {e : Edge U}
    (h : FromRequest S R k n e) (hR : ∀ r ∈ R, r ∈ R') (hk : k ≤ k') (l : List (Node F T)) : FromRequest S R' k' (n ++ l) e := by
  obtain ⟨h0, a, b, A, B, m, h1, h2, h3, h4, h5⟩ := h
  refine ⟨h0, a, b, A, B, m, ?_, ?_, hR _ h3, h4.trans hk, h5⟩
  · rw [List.getElem?_append_left (List.getElem?_eq_some_iff.1 h1).1, h1]
  · rw [List.getElem?_append_left (List.getElem?_eq_some_iff.1 h2).1, h2]

theorem NodeFrom.mono {R' : List (Vec2 F × Vec2 F × U)} {N' : List (Op F T U)} {k k' : Nat} {a : Node F T}
    (h : NodeFrom S N R k a) (hN : ∀ o ∈ N, o ∈ N') (hR : ∀ r ∈ R, r ∈ R') (hk : k ≤ k') : NodeFrom S N' R' k' a := by
  obtain ⟨h0, h | ⟨h1, A, B, x, A', B', x', m, P, Q, h2, h3, h4, h5, h6⟩⟩ := h
  · exact ⟨h0, Or.inl (hN _ h)⟩
  · exact ⟨h0, Or.inr ⟨h1, A, B, x, A', B', x', m, P, Q, hR _ h2, hR _ h3, h4.trans hk, h5, h6⟩⟩

omit [Inhabited T] in
theorem splitChanged_two {g : PlanarGraph F T U} {id : Nat} {e : Edge U} (he : e ∈ g.edges) (ho : onTest g.nodes id e = true) :
    2 ≤ (splitChanged g id).length := by
  have h1 := onSlots_length g id
  have h2 : 0 < (g.edges.filter (onTest g.nodes id)).length :=
    List.length_pos_of_mem (List.mem_filter.2 ⟨he, ho⟩)
  unfold onSlots at h1
  unfold splitChanged
  rw [List.length_append, h1, List.length_range']
  omega

omit [Inhabited T] in
theorem fromRequest_splitAt {g : PlanarGraph F T U} {k : Nat} (h : ∀ e ∈ g.edges, FromRequest S R k g.nodes e)
    (hS : ∀ a ∈ g.nodes, S a.position) (id : Nat) :
    ∀ e ∈ (splitAt g id).edges, FromRequest S R (k + (splitChanged g id).length) (splitAt g id).nodes e := by
  intro e' he'
  obtain ⟨e, he, ⟨_, rfl⟩ | ⟨ho, h'⟩⟩ := mem_splitAt.1 he'
  · have := (h _ he).mono (R' := R) (k' := k + (splitChanged g id).length) (fun _ h => h) (by omega) []
    rw [List.append_nil] at this
    exact this
  · have h2 := splitChanged_two he ho
    obtain ⟨_, a, b, A, B, m, h3, h4, h5, h6, h7⟩ := h e he
    have hon := ho
    unfold onTest at ho
    rw [h3, h4] at ho
    have hid := List.getElem?_eq_getElem (onTest_id hon).2.2
    generalize g.nodes[id]'(onTest_id hon).2.2 = q at hid
    rw [hid] at ho
    simp only at ho
    have hq := hS q (List.mem_of_getElem? hid)
    rcases h' with rfl | rfl
    · exact ⟨rfl, a, q, A, B, m + 1, h3, hid, h5, by omega, .near m _ _ _ h7 hq ho⟩
    · exact ⟨rfl, b, q, A, B, m + 1, h4, hid, h5, by omega, .far m _ _ _ h7 hq ho⟩

omit [Inhabited T] in
theorem fromRequest_pushNode {g : PlanarGraph F T U} {k : Nat} (h : ∀ e ∈ g.edges, FromRequest S R k g.nodes e) (x : Vec2 F)
    (t : T) : ∀ e ∈ (pushNode g x t).edges, FromRequest S R k (pushNode g x t).nodes e :=
  fun e he => (h e he).mono (fun _ h => h) (le_refl _) _

theorem fromRequest_inserts {g g' : PlanarGraph F T U} {xs : List (Vec2 F)} {cn ce : List Nat} (hi : Inserts g xs g' cn ce) :
    ∀ k, (∀ e ∈ g.edges, FromRequest S R k g.nodes e) → (∀ a ∈ g'.nodes, S a.position) →
    ∀ e ∈ g'.edges, FromRequest S R (k + ce.length) g'.nodes e := by
  induction hi with
  | nil g => intro k h _; exact h
  | cons g x xs g' cn ce hi ih =>
    intro k h hS
    obtain ⟨l, hl, _⟩ := inserts_nodes hi
    have hS1 : ∀ a ∈ (insertPt g x).nodes, S a.position := fun a ha => hS a (hl ▸ List.mem_append_left _ ha)
    have := ih (k + (insertChanged g x).length) ?_ hS
    · rw [List.length_append, ← Nat.add_assoc]
      exact this
    unfold insertPt at hS1 ⊢
    unfold insertChanged
    split
    · rename_i hn
      rw [if_pos hn] at hS1
      exact fromRequest_splitAt h hS1 _
    · rename_i hn
      rw [if_neg hn] at hS1
      exact fromRequest_splitAt (fromRequest_pushNode h x default) hS1 _

theorem inserts_fresh {g g' : PlanarGraph F T U} {xs : List (Vec2 F)} {cn ce : List Nat} (h : Inserts g xs g' cn ce) :
    ∃ l, g'.nodes = g.nodes ++ l ∧ ∀ a ∈ l, a.data = default ∧ a.label = "" := by
  induction h with
  | nil g => exact ⟨[], by simp⟩
  | cons g x xs g' cn ce _ ih =>
    obtain ⟨l, h1, h2⟩ := ih
    unfold insertPt at h1
    split at h1
    · exact ⟨l, h1, h2⟩
    · refine ⟨⟨x, default, defaultLabel⟩ :: l, ?_, ?_⟩
      · rw [h1]; simp [splitAt, pushNode]
      · intro a ha
        rcases List.mem_cons.1 ha with rfl | ha
        · exact ⟨rfl, rfl⟩
        · exact h2 a ha

omit [Inhabited T] in
theorem fromRequest_renumbered {g g' : PlanarGraph F T U} {k : Nat} {keep ekeep : List Nat} (hr : Renumbered g g' keep ekeep)
    (h : ∀ e ∈ g.edges, FromRequest S R k g.nodes e) : ∀ e ∈ g'.edges, FromRequest S R k g'.nodes e := by
  intro e he
  obtain ⟨i, hi⟩ := List.mem_iff_getElem?.1 he
  have hlt := (List.getElem?_eq_some_iff.1 hi).1
  rw [hr.edge_count] at hlt
  obtain ⟨e0, e1, h1, h2, h3, h6, h4, h5⟩ := hr.edges i _ (List.getElem?_eq_getElem hlt)
  rw [hi] at h2
  cases h2
  obtain ⟨k0, a, b, A, B, m, k1, k2, k3, k4, k5⟩ := h e0 (List.mem_of_getElem? h1)
  exact ⟨h6.trans k0, a, b, A, B, m, by rw [(hr.nodes _ _ h4).2, k1], by rw [(hr.nodes _ _ h5).2, k2], by rw [h3]; exact k3, k4, k5⟩

omit [Scalar F] [Inhabited T] in
theorem renumbered_mem {g g' : PlanarGraph F T U} {keep ekeep : List Nat} (hr : Renumbered g g' keep ekeep) {a : Node F T}
    (ha : a ∈ g'.nodes) : a ∈ g.nodes := by
  obtain ⟨i, hi⟩ := List.mem_iff_getElem?.1 ha
  have hlt := (List.getElem?_eq_some_iff.1 hi).1
  rw [hr.node_count] at hlt
  have h := (hr.nodes i _ (List.getElem?_eq_getElem hlt)).2
  rw [hi] at h
  exact List.mem_of_getElem? h.symm

/-! ### histories -/

/-- the invariant -/
structure Traced (S : Vec2 F → Prop) (N : List (Op F T U)) (R : List (Vec2 F × Vec2 F × U)) (k : Nat)
    (g : PlanarGraph F T U) : Prop where
  wf : WF g
  loopFree : LoopFree g
  edges : ∀ e ∈ g.edges, FromRequest S R k g.nodes e
  nodes : ∀ a ∈ g.nodes, NodeFrom S N R k a

variable [LawfulScalar F]

theorem traced_step {p : Profile} {g g' : PlanarGraph F T U} {k : Nat} {op : Op F T U} (h : Traced S N R k g)
    (hop : NoLoopRequest op) (hs : g.step p op = .ok g') (hS : ∀ a ∈ g'.nodes, S a.position) :
    Traced S (N ++ [op]) (R ++ asked p g [op]) (k + reported p g [op]) g' := by
  have hN : ∀ o ∈ N, o ∈ N ++ [op] := fun o ho => List.mem_append_left _ ho
  have hR : ∀ r ∈ R, r ∈ R ++ asked p g [op] := fun o ho => List.mem_append_left _ ho
  have same : ∀ k', k ≤ k' → Traced S (N ++ [op]) (R ++ asked p g [op]) k' g := fun k' hk =>
    ⟨h.wf, h.loopFree, fun e he => by simpa using (h.edges e he).mono hR hk [], fun a ha => (h.nodes a ha).mono hN hR hk⟩
  rcases step_ok hs with ⟨x, t, r, rfl, h1⟩ | ⟨s, d, x, r, rfl, h1⟩ | ⟨i, r, rfl, h1⟩ | ⟨i, r, rfl, h1⟩
  · have hw := addNode_wf h.wf h1
    have hl := addNode_loopFree h.wf h.loopFree h1
    have ha : asked p g [Op.addNode x t] = [] := by simp [asked, hs]
    have hrep : reported p g [Op.addNode x t] = r.2.length := by simp [reported, hs, h1]
    rw [addNode_ok g h.wf] at h1
    simp only [Except.ok.injEq, Prod.mk.injEq] at h1
    obtain ⟨h1, h2⟩ := h1
    unfold addNodeG at h1
    by_cases hn : ((nearest g x).2 <. Scalar.epsilon) = true
    · rw [if_pos hn] at h1
      subst h1
      exact same _ (by omega)
    · rw [if_neg hn] at h1 h2
      refine ⟨hw, hl, ?_, ?_⟩
      · rw [hrep, ← h2, ← h1, ha, List.append_nil]
        rw [← h1] at hS
        exact fromRequest_splitAt (fromRequest_pushNode h.edges x t) hS _
      · intro a hmem
        rw [← h1] at hmem
        simp only [splitAt, pushNode, List.mem_append, List.mem_singleton] at hmem
        rcases hmem with hmem | rfl
        · exact (h.nodes a hmem).mono hN hR (by omega)
        · exact ⟨rfl, Or.inl (by simp)⟩
  · have hw := addEdge_wf h.wf h1
    have hl := addEdge_loopFree h.wf h.loopFree hop h1
    rcases addEdge_ok g h.wf s d x with ⟨hb, h'⟩ | ⟨_, hv, h'⟩ | ⟨hb, hs', hd', g1, cn, ce, hi, h'⟩
    · rw [h1] at h'
      cases h'
      exact same _ (by omega)
    · rw [h1] at h'
      cases h'
      exact same _ (by omega)
    · have h1' := h1
      rw [h1] at h'
      simp only [Except.ok.injEq, Prod.mk.injEq] at h'
      obtain ⟨rfl, hrr⟩ := h'
      have hga := List.getElem?_eq_getElem hs'
      have hgb := List.getElem?_eq_getElem hd'
      generalize g.nodes[s] = a at hga
      generalize g.nodes[d] = b at hgb
      have hask : asked p g [Op.addEdge s d x] = [(a.position, b.position, x)] := by
        have hno : ∀ e ∈ g.edges, ¬ ((e.src = s ∧ e.dst = d) ∨ (e.src = d ∧ e.dst = s)) := by
          intro e he hj
          have : g.hasEdgeBetweenNodes s d = true := by
            rw [hasEdge_iff]
            exact ⟨e, he, hj⟩
          rw [this] at hb
          cases hb
        simp only [asked, hga, hgb, hs]
        rw [if_pos hno]
        rfl
      have hrep : ce.length ≤ reported p g [Op.addEdge s d x] := by
        simp only [reported, hs, h1, hrr]
        split
        · cases ce with
          | nil => simp
          | cons c cs => rename_i hc; simp at hc
        · simp
      have ho : ∀ c ∈ g.nodes, c ∈ g'.nodes := by
        obtain ⟨l, hl1, _⟩ := inserts_nodes hi
        exact fun c hc => hl1 ▸ List.mem_append_left _ hc
      refine ⟨hw, hl, ?_, ?_⟩
      · have := fromRequest_inserts (R := R ++ asked p g [Op.addEdge s d x]) hi k ?_ hS
        · intro e he
          simpa using (this e he).mono (fun _ h => h) (Nat.add_le_add_left hrep k) []
        · intro e he
          simp only [pushEdge, List.mem_append, List.mem_singleton] at he
          rcases he with he | rfl
          · simpa [pushEdge] using (h.edges e he).mono hR (le_refl k) []
          · exact ⟨rfl, a, b, a.position, b.position, 0, hga, hgb, by rw [hask]; simp, by omega,
              .whole (hS _ (ho a (List.mem_of_getElem? hga))) (hS _ (ho b (List.mem_of_getElem? hgb)))⟩
      · intro c hc
        obtain ⟨l, hl1, hl2⟩ := inserts_fresh hi
        have hl1' : g'.nodes = g.nodes ++ l := hl1
        rw [hl1', List.mem_append] at hc
        rcases hc with hc | hc
        · exact (h.nodes c hc).mono hN hR (by omega)
        · refine ⟨(hl2 c hc).2, Or.inr ⟨(hl2 c hc).1, ?_⟩⟩
          have ho := (C58_order_partial g h.wf s d x a b hga hgb g' cn _ (by rw [h1, hrr])).2
          rw [hl1', List.drop_left] at ho
          obtain ⟨e, he, hx⟩ := List.mem_filterMap.1 (ho.subset (List.mem_map_of_mem hc))
          obtain ⟨_, P, Q, A, B, m, k1, k2, k3, k4, k5⟩ := h.edges e he
          simp only [crossOf, getVertex, k1, k2, Option.bind_some] at hx
          exact ⟨A, B, e.data, a.position, b.position, x, m, P.position, Q.position, hR _ k3, by rw [hask]; simp,
            by omega, k5, hx⟩
  · rcases removeEdge_renumbered h.wf h.loopFree h1 with rfl | ⟨keep, ekeep, hr⟩
    · exact same _ (by omega)
    · refine ⟨hr.wf, hr.loopFree h.loopFree, ?_, fun a ha => (h.nodes a (renumbered_mem hr ha)).mono hN hR (by omega)⟩
      intro e he
      simpa using (fromRequest_renumbered hr h.edges e he).mono hR (by omega) []
  · rcases removeNode_renumbered h.wf h.loopFree h1 with rfl | ⟨keep, ekeep, hr⟩
    · exact same _ (by omega)
    · refine ⟨hr.wf, hr.loopFree h.loopFree, ?_, fun a ha => (h.nodes a (renumbered_mem hr ha)).mono hN hR (by omega)⟩
      intro e he
      simpa using (fromRequest_renumbered hr h.edges e he).mono hR (by omega) []

omit [LawfulScalar F] in
theorem asked_cons {p : Profile} {g g' : PlanarGraph F T U} {op : Op F T U} (hs : g.step p op = .ok g') (ops : List (Op F T U)) :
    asked p g (op :: ops) = asked p g [op] ++ asked p g' ops := by
  simp [asked, hs]

omit [LawfulScalar F] in
theorem reported_cons {p : Profile} {g g' : PlanarGraph F T U} {op : Op F T U} (hs : g.step p op = .ok g')
    (ops : List (Op F T U)) : reported p g (op :: ops) = reported p g [op] + reported p g' ops := by
  simp [reported, hs]

theorem traced_run (p : Profile) (ops : List (Op F T U)) : ∀ {g g' : PlanarGraph F T U} {N : List (Op F T U)}
    {R : List (Vec2 F × Vec2 F × U)} {k : Nat}, Traced S N R k g → (∀ op ∈ ops, NoLoopRequest op) →
    (∀ i g1, g.run p (ops.take i) = .ok g1 → ∀ a ∈ g1.nodes, S a.position) → g.run p ops = .ok g' →
    Traced S (N ++ ops) (R ++ asked p g ops) (k + reported p g ops) g' := by
  induction ops with
  | nil => intro g g' N R k h _ _ hr; cases hr; simpa [asked, reported] using h
  | cons op ops ih =>
    intro g g' N R k h hl hS hr
    have hr0 := hr
    simp only [PlanarGraph.run] at hr
    cases hs : g.step p op with
    | error e => rw [hs] at hr; cases hr
    | ok g1 =>
      rw [hs] at hr
      have h1 := traced_step h (hl op (List.mem_cons_self ..)) hs (hS 1 g1 (by simp [PlanarGraph.run, hs, bind, Except.bind]))
      have := ih h1 (fun o ho => hl o (List.mem_cons_of_mem _ ho)) (fun i g2 h2 => hS (i + 1) g2 (by
        simp only [List.take_succ_cons, PlanarGraph.run, hs]; exact h2)) hr
      rw [asked_cons hs, reported_cons hs]
      simpa [List.append_assoc, Nat.add_assoc] using this

/-- **C112.** After any sequence of calls of the four methods that did not panic and never asked for a self-loop, debug or
release, in any lawful arithmetic and so in `f32`:
* every edge has an empty label and carries the data of an accepted request, and its two ends arise from the positions the two requested nodes had at
  that time by cutting at positions of nodes that passed the on-segment test; the number of cuts is at most half the number of
  edge indices reported so far;
* every node has an empty label, and it has position and data of some call of `add_node`, or it has default data and is the computed crossing of such a
  piece of a request with a requested segment. -/
theorem C112_provenance (p : Profile) (ops : List (Op F T U)) (g : PlanarGraph F T U)
    (hops : ∀ op ∈ ops, ∀ s d x, op = Op.addEdge s d x → s ≠ d) (h : PlanarGraph.run p PlanarGraph.new ops = .ok g) :
    (∀ e ∈ g.edges, FromRequest (Ever p ops) (asked p PlanarGraph.new ops) (reported p PlanarGraph.new ops) g.nodes e) ∧
    ∀ a ∈ g.nodes, NodeFrom (Ever p ops) ops (asked p PlanarGraph.new ops) (reported p PlanarGraph.new ops) a := by
  have h0 : Traced (Ever p ops) [] [] 0 (PlanarGraph.new : PlanarGraph F T U) := by
    refine ⟨wf_new, ?_, ?_, ?_⟩ <;> intro e he <;> cases he
  have := traced_run p ops h0 (fun op ho => by
    cases op with
    | addEdge s d x => exact hops _ ho s d x rfl
    | _ => trivial) (fun i g1 h1 a ha => ⟨i, g1, h1, a, ha, rfl⟩) h
  simp only [List.nil_append, Nat.zero_add] at this
  exact ⟨this.edges, this.nodes⟩

end

end Kami.Graph
