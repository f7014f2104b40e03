import Verif.Graph.Histories
/-!
# C110: the graph is made of walks, one for each accepted request

Every call of `add_edge` that puts in an edge owns a walk between its two nodes; later calls only refine the walks.  This holds
for any arithmetic, hence for the real `f32` program, whatever the tests for intersection and incidence answer.
-/

set_option autoImplicit false

namespace Kami.Graph

open Kami
open scoped Kami
open PlanarGraph

variable {F T U : Type}

/-! ### specification -/

/-- the edges of the list lead from node `u` to node `w`, each traversed in either direction -/
def Walk : Nat → Nat → List (Edge U) → Prop
  | u, w, [] => u = w
  | u, w, e :: es => (e.src = u ∧ Walk e.dst w es) ∨ (e.dst = u ∧ Walk e.src w es)

/-- the call only adds -/
def IsAdd : Op F T U → Prop
  | .addNode _ _ => True
  | .addEdge _ _ _ => True
  | _ => False

/-- the calls of `add_edge` that find two nodes not joined by an edge, with their data -/
def accepted [Scalar F] [Inhabited T] (p : Profile) : PlanarGraph F T U → List (Op F T U) → List (Nat × Nat × U)
  | _, [] => []
  | g, op :: ops =>
    (match op with
     | .addEdge s d x =>
       if s < g.nodes.length ∧ d < g.nodes.length ∧
          ∀ e ∈ g.edges, ¬ ((e.src = s ∧ e.dst = d) ∨ (e.src = d ∧ e.dst = s)) then [(s, d, x)] else []
     | _ => []) ++
    match g.step p op with
    | .ok g' => accepted p g' ops
    | .error _ => []

/-- The edges of the graph are shared out among the requests: every request gets a walk between its nodes. `Q` is whatever
else is known about the request and its walk. -/
def Shared (Q : List (Node F T) → Nat × Nat × U → List (Edge U) → Prop) (g : PlanarGraph F T U)
    (reqs : List (Nat × Nat × U)) : Prop :=
  ∃ walks : List (List (Edge U)), walks.flatten.Perm g.edges ∧
    List.Forall₂ (fun r w => Walk r.1 r.2.1 w ∧ Q g.nodes r w) reqs walks

theorem forall₂_left {α β : Type} {R : α → β → Prop} {l : List α} {l' : List β} (h : List.Forall₂ R l l') {b : β}
    (hb : b ∈ l') : ∃ a ∈ l, R a b := by
  induction h with
  | nil => cases hb
  | @cons a b' l l' h1 _ ih =>
    rcases List.mem_cons.1 hb with rfl | hb
    · exact ⟨a, List.mem_cons_self .., h1⟩
    · obtain ⟨c, hc, h⟩ := ih hb
      exact ⟨c, List.mem_cons_of_mem _ hc, h⟩

/-! ### one split -/

section
variable [Scalar F]

/-- what becomes of an edge when it is tested against node `id` -/
def pieces (nodes : List (Node F T)) (id : Nat) (e : Edge U) : List (Edge U) :=
  if onTest nodes id e then [nearHalf id e, farHalf id e] else [e]

theorem splitAt_perm (g : PlanarGraph F T U) (id : Nat) :
    (splitAt g id).edges.Perm (g.edges.flatMap (pieces g.nodes id)) := by
  unfold splitAt
  simp only
  induction g.edges with
  | nil => simp
  | cons e es ih =>
    rw [List.map_cons, List.flatMap_cons, List.filter_cons]
    by_cases h : onTest g.nodes id e = true
    · rw [if_pos h, if_pos h, List.map_cons]
      simp only [pieces, if_pos h, List.cons_append, List.nil_append]
      refine List.Perm.cons _ ?_
      exact (List.perm_middle).trans (List.Perm.cons _ ih)
    · rw [if_neg h, if_neg h]
      simp only [pieces, if_neg h, List.cons_append, List.nil_append]
      exact List.Perm.cons _ ih

theorem walk_split (nodes : List (Node F T)) (id : Nat) (w : List (Edge U)) :
    ∀ u v, Walk u v w → ∃ w', Walk u v w' ∧ w'.Perm (w.flatMap (pieces nodes id)) := by
  induction w with
  | nil => intro u v h; exact ⟨[], h, by simp⟩
  | cons e es ih =>
    intro u v h
    rw [List.flatMap_cons]
    unfold pieces
    rcases h with ⟨h1, h2⟩ | ⟨h1, h2⟩ <;> obtain ⟨w', k1, k2⟩ := ih _ _ h2
    · by_cases hc : onTest nodes id e = true
      · rw [if_pos hc]
        refine ⟨nearHalf id e :: farHalf id e :: w', Or.inl ⟨h1, Or.inr ⟨rfl, k1⟩⟩, ?_⟩
        exact (k2.cons _).cons _
      · rw [if_neg hc]
        exact ⟨e :: w', Or.inl ⟨h1, k1⟩, k2.cons _⟩
    · by_cases hc : onTest nodes id e = true
      · rw [if_pos hc]
        refine ⟨farHalf id e :: nearHalf id e :: w', Or.inl ⟨h1, Or.inr ⟨rfl, k1⟩⟩, ?_⟩
        exact (List.Perm.swap _ _ _).trans ((k2.cons _).cons _)
      · rw [if_neg hc]
        exact ⟨e :: w', Or.inr ⟨h1, k1⟩, k2.cons _⟩

/-! ### keeping `Q` -/

/-- `Q` survives what the operations do, on node lists satisfying `C` -/
structure Keeps (C : List (Node F T) → Prop) (Q : List (Node F T) → Nat × Nat × U → List (Edge U) → Prop) : Prop where
  /-- `C` passes to initial segments -/
  pre : ∀ n l, C (n ++ l) → C n
  perm : ∀ n r w w', w'.Perm w → Q n r w → Q n r w'
  split : ∀ n r w id, C n → Q n r w → Q n r (w.flatMap (pieces n id))
  append : ∀ n l r w, C (n ++ l) → Q n r w → Q (n ++ l) r w
  new : ∀ n s d x, C n → s < n.length → d < n.length → Q n (s, d, x) [⟨s, d, x, ""⟩]

variable {C : List (Node F T) → Prop} {Q : List (Node F T) → Nat × Nat × U → List (Edge U) → Prop}

theorem Shared.splitAt (hk : Keeps C Q) {g : PlanarGraph F T U} {reqs : List (Nat × Nat × U)} (h : Shared Q g reqs)
    (hc : C g.nodes) (id : Nat) : Shared Q (splitAt g id) reqs := by
  obtain ⟨ws, h1, h2⟩ := h
  have key : ∀ (reqs : List (Nat × Nat × U)) (ws : List (List (Edge U))),
      List.Forall₂ (fun r w => Walk r.1 r.2.1 w ∧ Q g.nodes r w) reqs ws →
      ∃ ws' : List (List (Edge U)), ws'.flatten.Perm (ws.flatten.flatMap (pieces g.nodes id)) ∧
        List.Forall₂ (fun r w => Walk r.1 r.2.1 w ∧ Q g.nodes r w) reqs ws' := by
    intro reqs ws h
    induction h with
    | nil => exact ⟨[], by simp, .nil⟩
    | @cons r w reqs ws hrw _ ih =>
      obtain ⟨ws', k1, k2⟩ := ih
      obtain ⟨w', k3, k4⟩ := walk_split g.nodes id w _ _ hrw.1
      refine ⟨w' :: ws', ?_, .cons ⟨k3, hk.perm _ _ _ _ k4 (hk.split _ _ _ id hc hrw.2)⟩ k2⟩
      rw [List.flatten_cons, List.flatten_cons, List.flatMap_append]
      exact k4.append k1
  obtain ⟨ws', k1, k2⟩ := key reqs ws h2
  exact ⟨ws', k1.trans ((h1.flatMap_right _).trans (splitAt_perm g id).symm), k2⟩

theorem Shared.pushNode (hk : Keeps C Q) {g : PlanarGraph F T U} {reqs : List (Nat × Nat × U)} (h : Shared Q g reqs)
    (x : Vec2 F) (t : T) (hc : C (pushNode g x t).nodes) : Shared Q (pushNode g x t) reqs := by
  obtain ⟨ws, h1, h2⟩ := h
  exact ⟨ws, h1, h2.imp fun r w h => ⟨h.1, hk.append _ _ _ _ hc h.2⟩⟩

theorem Shared.pushEdge (hk : Keeps C Q) {g : PlanarGraph F T U} {reqs : List (Nat × Nat × U)} (h : Shared Q g reqs)
    (hc : C g.nodes) {s d : Nat} (hs : s < g.nodes.length) (hd : d < g.nodes.length) (x : U) :
    Shared Q (pushEdge g s d x) (reqs ++ [(s, d, x)]) := by
  obtain ⟨ws, h1, h2⟩ := h
  refine ⟨ws ++ [[⟨s, d, x, ""⟩]], ?_, ?_⟩
  · rw [List.flatten_append]
    exact h1.append (List.Perm.refl _)
  · refine List.rel_append h2 (.cons ⟨Or.inl ⟨rfl, rfl⟩, hk.new _ _ _ _ hc hs hd⟩ .nil)

variable [Inhabited T]

theorem Shared.inserts (hk : Keeps C Q) {reqs : List (Nat × Nat × U)} {g g' : PlanarGraph F T U} {xs : List (Vec2 F)}
    {cn ce : List Nat} (hi : Inserts g xs g' cn ce) : Shared Q g reqs → C g'.nodes → Shared Q g' reqs := by
  induction hi with
  | nil g => intro h _; exact h
  | cons g x xs g' cn ce hi ih =>
    intro h hc
    obtain ⟨l, hl, _⟩ := inserts_nodes hi
    refine ih ?_ hc
    have hc1 : C (insertPt g x).nodes := hk.pre _ l (hl ▸ hc)
    unfold insertPt at hc1 ⊢
    split
    · rename_i hn
      rw [if_pos hn] at hc1
      exact h.splitAt hk hc1 _
    · rename_i hn
      rw [if_neg hn] at hc1
      exact (h.pushNode hk x default hc1).splitAt hk hc1 _

omit [Inhabited T] in
theorem Shared.addNode (hk : Keeps C Q) {reqs : List (Nat × Nat × U)} {g g' : PlanarGraph F T U} (hwf : WF g)
    (h : Shared Q g reqs) {x : Vec2 F} {t : T} {r : Nat × List Nat} (ha : g.addNode x t = .ok (g', r)) (hc : C g'.nodes) :
    Shared Q g' reqs := by
  rw [addNode_ok g hwf] at ha
  cases ha
  unfold addNodeG at hc ⊢
  split
  · exact h
  · rename_i hn
    rw [if_neg hn] at hc
    exact (h.pushNode hk x t hc).splitAt hk hc _

theorem Shared.addEdge (hk : Keeps C Q) {reqs : List (Nat × Nat × U)} {g g' : PlanarGraph F T U} (hwf : WF g)
    (h : Shared Q g reqs) {s d : Nat} {x : U} {r : Except PlanarGraphError (List Nat × List Nat)}
    (ha : g.addEdge s d x = .ok (g', r)) (hc : C g'.nodes) :
    Shared Q g' (reqs ++ if s < g.nodes.length ∧ d < g.nodes.length ∧
          ∀ e ∈ g.edges, ¬ ((e.src = s ∧ e.dst = d) ∨ (e.src = d ∧ e.dst = s)) then [(s, d, x)] else []) := by
  have hedge : g.hasEdgeBetweenNodes s d = true ↔ ∃ e ∈ g.edges, (e.src = s ∧ e.dst = d) ∨ (e.src = d ∧ e.dst = s) := by
    rw [hasEdge_iff]
    rfl
  rcases addEdge_ok g hwf s d x with ⟨hb, h'⟩ | ⟨_, hv, h'⟩ | ⟨hb, hs, hd, g1, cn, ce, hi, h'⟩
  · rw [ha] at h'
    cases h'
    obtain ⟨e, he, hj⟩ := hedge.1 hb
    rw [if_neg (fun hc => hc.2.2 e he hj), List.append_nil]
    exact h
  · rw [ha] at h'
    cases h'
    rw [if_neg (fun hc => hv ⟨hc.1, hc.2.1⟩), List.append_nil]
    exact h
  · rw [ha] at h'
    simp only [Except.ok.injEq, Prod.mk.injEq] at h'
    obtain ⟨rfl, _⟩ := h'
    rw [if_pos ⟨hs, hd, fun e he hj => by rw [hedge.2 ⟨e, he, hj⟩] at hb; cases hb⟩]
    obtain ⟨l, hl, _⟩ := inserts_nodes hi
    exact Shared.inserts hk hi (h.pushEdge hk (hk.pre g.nodes l (hl ▸ hc)) hs hd x) hc

theorem step_add {p : Profile} {g g' : PlanarGraph F T U} (hwf : WF g) {op : Op F T U} (ha : IsAdd op)
    (h : g.step p op = .ok g') : WF g' ∧ ∃ l, g'.nodes = g.nodes ++ l := by
  rcases step_ok h with ⟨pos, data, r, rfl, h1⟩ | ⟨s, d, x, r, rfl, h1⟩ | ⟨i, r, rfl, h1⟩ | ⟨i, r, rfl, h1⟩ <;> clear h
  · rename' h1 => h
    exact ⟨addNode_wf hwf h, addNode_nodes hwf h⟩
  · rename' h1 => h
    refine ⟨addEdge_wf hwf h, ?_⟩
    rcases addEdge_ok g hwf s d x with ⟨_, h'⟩ | ⟨_, _, h'⟩ | ⟨_, _, _, g1, cn, ce, hi, h'⟩ <;> rw [h] at h'
    · cases h'; exact ⟨[], by simp⟩
    · cases h'; exact ⟨[], by simp⟩
    · simp only [Except.ok.injEq, Prod.mk.injEq] at h'
      obtain ⟨rfl, _⟩ := h'
      obtain ⟨l, hl, _⟩ := inserts_nodes hi
      exact ⟨l, hl⟩
  · exact absurd ha (by simp [IsAdd])
  · exact absurd ha (by simp [IsAdd])

theorem run_nodes {p : Profile} (ops : List (Op F T U)) : ∀ {g g' : PlanarGraph F T U}, WF g → (∀ op ∈ ops, IsAdd op) →
    g.run p ops = .ok g' → ∃ l, g'.nodes = g.nodes ++ l := by
  induction ops with
  | nil => intro g g' _ _ h; cases h; exact ⟨[], by simp⟩
  | cons op ops ih =>
    intro g g' hwf ha h
    simp only [PlanarGraph.run] at h
    cases hs : g.step p op with
    | error e => rw [hs] at h; cases h
    | ok g1 =>
      rw [hs] at h
      obtain ⟨w1, l1, e1⟩ := step_add hwf (ha op (List.mem_cons_self ..)) hs
      obtain ⟨l, e⟩ := ih w1 (fun o ho => ha o (List.mem_cons_of_mem _ ho)) h
      exact ⟨l1 ++ l, by rw [e, e1, List.append_assoc]⟩

/-- adding never panics -/
theorem run_add_ok (p : Profile) (ops : List (Op F T U)) : ∀ g : PlanarGraph F T U, WF g → (∀ op ∈ ops, IsAdd op) →
    ∃ g', g.run p ops = .ok g' ∧ WF g' := by
  induction ops with
  | nil => intro g h _; exact ⟨g, rfl, h⟩
  | cons op ops ih =>
    intro g hwf ha
    have hop := ha op (List.mem_cons_self ..)
    have : ∃ g1, g.step p op = .ok g1 := by
      cases op with
      | addNode pos t =>
        obtain ⟨g1, r, h1, _⟩ := (C50_no_panic g hwf).1 pos t
        exact ⟨g1, by simp [step, h1, bind, Except.bind, pure, Except.pure]⟩
      | addEdge s d x =>
        obtain ⟨g1, r, h1, _⟩ := (C50_no_panic g hwf).2 s d x
        exact ⟨g1, by simp [step, h1, bind, Except.bind, pure, Except.pure]⟩
      | removeEdge i => exact absurd hop (by simp [IsAdd])
      | removeNode i => exact absurd hop (by simp [IsAdd])
    obtain ⟨g1, h1⟩ := this
    obtain ⟨g', h2, h3⟩ := ih g1 (step_add hwf hop h1).1 (fun o ho => ha o (List.mem_cons_of_mem _ ho))
    exact ⟨g', by simp only [PlanarGraph.run, h1]; exact h2, h3⟩

theorem Shared.run (hk : Keeps C Q) (p : Profile) (ops : List (Op F T U)) : ∀ {g g' : PlanarGraph F T U}
    {reqs : List (Nat × Nat × U)}, WF g → Shared Q g reqs → (∀ op ∈ ops, IsAdd op) → g.run p ops = .ok g' → C g'.nodes →
    Shared Q g' (reqs ++ accepted p g ops) := by
  induction ops with
  | nil => intro g g' reqs _ h _ hr _; cases hr; simpa [accepted] using h
  | cons op ops ih =>
    intro g g' reqs hwf h ha hr hc
    simp only [PlanarGraph.run] at hr
    have hop := ha op (List.mem_cons_self ..)
    have hops := fun o ho => ha o (List.mem_cons_of_mem _ ho)
    cases hs : g.step p op with
    | error e => rw [hs] at hr; cases hr
    | ok g1 =>
      rw [hs] at hr
      obtain ⟨w1, _⟩ := step_add hwf hop hs
      obtain ⟨l, e⟩ := run_nodes ops w1 hops hr
      have hc1 : C g1.nodes := hk.pre _ l (e ▸ hc)
      simp only [accepted, hs]
      rw [← List.append_assoc]
      refine ih w1 ?_ hops hr hc
      rcases step_ok hs with ⟨pos, data, r, rfl, h1⟩ | ⟨s, d, x, r, rfl, h1⟩ | ⟨i, r, rfl, h1⟩ | ⟨i, r, rfl, h1⟩
      · rw [List.append_nil]
        exact h.addNode hk hwf h1 hc1
      · exact h.addEdge hk hwf h1 hc1
      · exact absurd hop (by simp [IsAdd])
      · exact absurd hop (by simp [IsAdd])

/-- **C110.** Any sequence of `add_node` and `add_edge` from the empty graph runs without panic, in any arithmetic, and the
edges of the final graph are shared out among the accepted calls of `add_edge`: each owns a walk of at least one edge between
its two nodes, and all edges of the walk carry its data. -/
theorem C110_walks (p : Profile) (ops : List (Op F T U)) (ha : ∀ op ∈ ops, IsAdd op) :
    ∃ g, PlanarGraph.run p PlanarGraph.new ops = .ok g ∧
      ∃ walks : List (List (Edge U)), walks.flatten.Perm g.edges ∧
        List.Forall₂ (fun r w => Walk r.1 r.2.1 w ∧ w ≠ [] ∧ ∀ e ∈ w, e.data = r.2.2)
          (accepted p PlanarGraph.new ops) walks := by
  obtain ⟨g, hg, _⟩ := run_add_ok p ops PlanarGraph.new wf_new ha
  refine ⟨g, hg, ?_⟩
  have hk : Keeps (F := F) (T := T) (fun _ => True)
      (fun _ (r : Nat × Nat × U) w => w ≠ [] ∧ ∀ e ∈ w, e.data = r.2.2) := by
    refine ⟨fun _ _ _ => trivial, fun n r w w' hp h => ⟨?_, fun e he => h.2 e (hp.mem_iff.1 he)⟩, ?_, fun _ _ _ _ _ h => h, ?_⟩
    · intro hw
      subst hw
      exact h.1 hp.symm.eq_nil
    · rintro n r w id _ ⟨h1, h2⟩
      constructor
      · obtain ⟨e, es, rfl⟩ := List.exists_cons_of_ne_nil h1
        rw [List.flatMap_cons]
        unfold pieces
        split <;> simp
      · intro e he
        obtain ⟨f, hf, hef⟩ := List.mem_flatMap.1 he
        rw [← h2 f hf]
        unfold pieces at hef
        split at hef
        · simp only [List.mem_cons, List.not_mem_nil, or_false] at hef
          rcases hef with rfl | rfl <;> rfl
        · simp only [List.mem_cons, List.not_mem_nil, or_false] at hef
          rw [hef]
    · intro n s d x _ _ _
      simp
  have h0 : Shared (F := F) (T := T) (fun _ (r : Nat × Nat × U) w => w ≠ [] ∧ ∀ e ∈ w, e.data = r.2.2)
      PlanarGraph.new [] := ⟨[], by simp [PlanarGraph.new], .nil⟩
  have := Shared.run hk p ops wf_new h0 ha hg trivial
  rw [List.nil_append] at this
  exact this

/-- **C110, counting.** There are at least as many edges as accepted requests, and every edge carries the data of one of
them. -/
theorem C110_count (p : Profile) (ops : List (Op F T U)) (ha : ∀ op ∈ ops, IsAdd op) (g : PlanarGraph F T U)
    (hg : PlanarGraph.run p PlanarGraph.new ops = .ok g) :
    (accepted p (PlanarGraph.new : PlanarGraph F T U) ops).length ≤ g.edges.length ∧
    ∀ e ∈ g.edges, ∃ r ∈ accepted p (PlanarGraph.new : PlanarGraph F T U) ops, e.data = r.2.2 := by
  obtain ⟨g', h1, ws, h2, h3⟩ := C110_walks p ops ha
  rw [hg] at h1
  cases h1
  constructor
  · rw [← h2.length_eq, h3.length_eq]
    have : ∀ w ∈ ws, w ≠ [] := by
      intro w hw
      obtain ⟨r, _, h⟩ := forall₂_left h3 hw
      exact h.2.1
    clear h2 h3
    induction ws with
    | nil => simp
    | cons w ws ih =>
      have hw := List.length_pos_iff.2 (this w (List.mem_cons_self ..))
      have := ih (fun v hv => this v (List.mem_cons_of_mem _ hv))
      rw [List.flatten_cons, List.length_append, List.length_cons]
      omega
  · intro e he
    obtain ⟨w, hw, hew⟩ := List.mem_flatten.1 (h2.mem_iff.2 he)
    obtain ⟨r, hr, h⟩ := forall₂_left h3 hw
    exact ⟨r, hr, h.2.2 e hew⟩

end

/-! ### instances -/

/-- two crossing edges, a third edge, a request between joined nodes and one for an unknown node: three accepted, five edges -/
example : let ops : List (Op F32 Unit Nat) :=
    [.addNode ⟨F32.lit 0, F32.lit 0⟩ (), .addNode ⟨F32.lit 4, F32.lit 4⟩ (), .addNode ⟨F32.lit 0, F32.lit 4⟩ (),
     .addNode ⟨F32.lit 4, F32.lit 0⟩ (), .addEdge 0 1 7, .addEdge 2 3 8, .addEdge 3 4 9, .addEdge 0 9 1, .addEdge 0 3 5]
    accepted .release PlanarGraph.new ops = [(0, 1, 7), (2, 3, 8), (0, 3, 5)] ∧
    (PlanarGraph.run .release PlanarGraph.new ops).map (fun g => g.edges) =
      .ok [⟨0, 4, 7, ""⟩, ⟨2, 4, 8, ""⟩, ⟨1, 4, 7, ""⟩, ⟨3, 4, 8, ""⟩, ⟨0, 3, 5, ""⟩] ∧
    Walk 0 1 [(⟨0, 4, 7, ""⟩ : Edge Nat), ⟨1, 4, 7, ""⟩] := by
  refine ⟨by decide +kernel, by decide +kernel, ?_⟩
  simp [Walk]

end Kami.Graph
