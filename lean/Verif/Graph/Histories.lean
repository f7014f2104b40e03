import Verif.Graph.Add
import Verif.Graph.Remove
import Verif.Geom.UtilsExact2
/-!
# Graphs reached by sequences of calls

Invariants of all graphs reachable from `PlanarGraph::new()` through the public methods, and the query methods.
-/

set_option autoImplicit false

namespace Kami.Graph

open Kami
open scoped Kami
open PlanarGraph

variable {F T U : Type}

/-! ## Removal preserves well-formedness -/

theorem Renumbered.wf {g g' : PlanarGraph F T U} {keep ekeep : List Nat} (h : Renumbered g g' keep ekeep) : WF g' := by
  intro e he
  obtain ⟨k, hk⟩ := List.mem_iff_getElem?.1 he
  have hlt := (List.getElem?_eq_some_iff.1 hk).1
  rw [h.edge_count] at hlt
  obtain ⟨e0, e1, _, h1, _, _, h2, h3⟩ := h.edges k _ (List.getElem?_eq_getElem hlt)
  rw [hk] at h1
  cases h1
  rw [h.node_count]
  exact ⟨(List.getElem?_eq_some_iff.1 h2).1, (List.getElem?_eq_some_iff.1 h3).1⟩

theorem survivors_pair_length {n id : Nat} (hid : id < n) : (survivors n [id, id]).length = n - 1 := by
  have h := filter_add_filter_not (fun i => [id, id].contains i) (List.range n)
  have h1 : ((List.range n).filter fun i => [id, id].contains i).length = 1 := by
    have hp : ((List.range n).filter fun i => [id, id].contains i).Perm [id] := by
      rw [List.perm_ext_iff_of_nodup (List.nodup_range.filter _) (List.nodup_singleton id)]
      intro a
      simp only [List.mem_filter, List.mem_range, List.contains_iff_mem, List.mem_cons, List.not_mem_nil, or_false,
        or_self]
      constructor
      · exact fun h => h.2
      · rintro rfl; exact ⟨hid, rfl⟩
    rw [hp.length_eq]; rfl
  rw [h1, List.length_range] at h
  unfold survivors
  omega

/-- with overflow checks, `remove_node` keeps all indices valid, self-loops or not -/
theorem removeNode_wf_debug {g g' : PlanarGraph F T U} (hwf : WF g) {id : Nat} {r : List Nat × List Nat}
    (h : g.removeNode .debug id = .ok (g', r)) : WF g' := by
  by_cases hid : id < g.nodes.length
  swap
  · rw [removeNode_none (by omega)] at h; cases h; exact hwf
  by_cases hl : LoopOnly g id
  · by_cases hn : id = 0 ∧ 2 ≤ g.nodes.length
    · rw [remap_loop_err hl hn.1 hn.2] at h; cases h
    · rcases removeNode_eq hid (remap_loop hid hl hn) with ⟨_, h'⟩ | ⟨_, m, me, _, _, _, _, h'⟩
      · rw [h] at h'; cases h'
      · rw [h] at h'
        simp only [Except.ok.injEq, Prod.mk.injEq] at h'
        obtain ⟨rfl, _⟩ := h'
        rw [loopOnly_marked hid hl]
        intro e he
        simp only [afterRemoval, List.mem_map] at he
        obtain ⟨f, hf, rfl⟩ := he
        obtain ⟨j, hj, hjm⟩ := mem_eraseMarked hf
        have hv := hwf f (List.mem_of_getElem? hj)
        have hni : ¬ (f.src = id ∨ f.dst = id) := by
          intro hc; exact hjm (mem_slots.2 ⟨f, hj, includes_iff.2 hc⟩)
        have hlen : (afterRemoval g [id, id] (slotsAt g id) (((List.range' 0 g.nodes.length).filter
            fun j => !([id, id] : List Nat).contains j).map fun j => (j, j - back [id, id] j))).nodes.length =
            g.nodes.length - 1 := by
          simp only [afterRemoval]
          rw [eraseMarked_length0, survivors_pair_length hid]
        rw [hlen]
        simp only
        rw [remapIndex_eq _ _ _ (mem_survivors.2 ⟨hv.1, by simp; tauto⟩),
          remapIndex_eq _ _ _ (mem_survivors.2 ⟨hv.2, by simp; tauto⟩), back_pair, back_pair]
        constructor <;> split <;> omega
  · obtain ⟨keep, ekeep, hr, _⟩ := C64_remove_node .debug g hwf id hid (by
      intro j e h1 h2 h3 h4; exact hl ((loopOnly_iff g id).2 ⟨j, e, h1, h2, h3, h4⟩)) g' r h
    exact hr.wf

theorem removeEdge_wf_debug {g g' : PlanarGraph F T U} (hwf : WF g) {id : Nat} {r : List Nat × List Nat}
    (h : g.removeEdge .debug id = .ok (g', r)) : WF g' := by
  by_cases hid : id < g.edges.length
  swap
  · rw [removeEdge_none (by omega)] at h; cases h; exact hwf
  have he := List.getElem?_eq_getElem hid
  generalize g.edges[id] = e at he
  rw [removeEdge_eq hwf he (ne_nil_of_get he)] at h
  split at h
  · exact removeNode_wf_debug hwf h
  · split at h
    · exact removeNode_wf_debug hwf h
    · split at h
      · cases h
        intro f hf
        rcases List.mem_or_eq_of_mem_set hf with hf | rfl
        · exact hwf f (List.dropLast_subset _ hf)
        · exact hwf _ (List.getLast_mem _)
      · cases h

/-! ## Histories -/

section
variable [Scalar F] [Inhabited T]

/-- an invariant of the steps is an invariant of the runs -/
theorem run_induction (p : Profile) (I : PlanarGraph F T U → Prop) (P : Op F T U → Prop)
    (hstep : ∀ g g' op, I g → P op → g.step p op = .ok g' → I g') (ops : List (Op F T U)) :
    ∀ g g', I g → (∀ op ∈ ops, P op) → g.run p ops = .ok g' → I g' := by
  induction ops with
  | nil => intro g g' hg _ h; cases h; exact hg
  | cons op ops ih =>
    intro g g' hg hP h
    simp only [PlanarGraph.run] at h
    cases hs : g.step p op with
    | error e => rw [hs] at h; cases h
    | ok g1 =>
      rw [hs] at h
      exact ih g1 g' (hstep g g1 op hg (hP op (List.mem_cons_self ..)) hs)
        (fun o ho => hP o (List.mem_cons_of_mem _ ho)) h

theorem step_ok {p : Profile} {g g' : PlanarGraph F T U} {op : Op F T U} (h : g.step p op = .ok g') :
    (∃ pos data r, op = .addNode pos data ∧ g.addNode pos data = .ok (g', r)) ∨
    (∃ s d x r, op = .addEdge s d x ∧ g.addEdge s d x = .ok (g', r)) ∨
    (∃ i r, op = .removeEdge i ∧ g.removeEdge p i = .ok (g', r)) ∨
    (∃ i r, op = .removeNode i ∧ g.removeNode p i = .ok (g', r)) := by
  cases op with
  | addNode pos data =>
    left
    simp only [step, bind, Except.bind, pure, Except.pure] at h
    cases hr : g.addNode pos data with
    | error e => rw [hr] at h; cases h
    | ok r => rw [hr] at h; cases h; exact ⟨pos, data, r.2, rfl, hr⟩
  | addEdge s d x =>
    right; left
    simp only [step, bind, Except.bind, pure, Except.pure] at h
    cases hr : g.addEdge s d x with
    | error e => rw [hr] at h; cases h
    | ok r => rw [hr] at h; cases h; exact ⟨s, d, x, r.2, rfl, hr⟩
  | removeEdge i =>
    right; right; left
    simp only [step, bind, Except.bind, pure, Except.pure] at h
    cases hr : g.removeEdge p i with
    | error e => rw [hr] at h; cases h
    | ok r => rw [hr] at h; cases h; exact ⟨i, r.2, rfl, hr⟩
  | removeNode i =>
    right; right; right
    simp only [step, bind, Except.bind, pure, Except.pure] at h
    cases hr : g.removeNode p i with
    | error e => rw [hr] at h; cases h
    | ok r => rw [hr] at h; cases h; exact ⟨i, r.2, rfl, hr⟩

theorem addNode_wf {g g' : PlanarGraph F T U} (hwf : WF g) {pos : Vec2 F} {data : T} {r : Nat × List Nat}
    (h : g.addNode pos data = .ok (g', r)) : WF g' := by
  obtain ⟨g1, r1, h1, h2⟩ := (C50_no_panic g hwf).1 pos data
  rw [h] at h1; cases h1; exact h2

theorem addEdge_wf {g g' : PlanarGraph F T U} (hwf : WF g) {s d : Nat} {x : U}
    {r : Except PlanarGraphError (List Nat × List Nat)} (h : g.addEdge s d x = .ok (g', r)) : WF g' := by
  obtain ⟨g1, r1, h1, h2⟩ := (C50_no_panic g hwf).2 s d x
  rw [h] at h1; cases h1; exact h2

omit [Scalar F] [Inhabited T] in
theorem wf_new : WF (PlanarGraph.new : PlanarGraph F T U) := by intro e he; cases he

/-- **C49, partial (overflow checks on).** After any sequence of calls that did not panic, in any arithmetic, both node
indices of every edge are valid.  Missing: the release profile with self-loops, where it is false
(`C49_counterexample`); without self-loops it holds in release as well (`C49_valid_release_partial`). -/
theorem C49_valid_partial (ops : List (Op F T U)) (g : PlanarGraph F T U)
    (h : PlanarGraph.run .debug PlanarGraph.new ops = .ok g) :
    ∀ e ∈ g.edges, (∃ n, g.getVertex e.src = some n) ∧ ∃ n, g.getVertex e.dst = some n := by
  have hwf : WF g := by
    refine run_induction .debug WF (fun _ => True) ?_ ops _ _ wf_new (fun _ _ => trivial) h
    intro g g' op hg _ hs
    rcases step_ok hs with ⟨_, _, _, _, h⟩ | ⟨_, _, _, _, _, h⟩ | ⟨_, _, _, h⟩ | ⟨_, _, _, h⟩
    · exact addNode_wf hg h
    · exact addEdge_wf hg h
    · exact removeEdge_wf_debug hg h
    · exact removeNode_wf_debug hg h
  intro e he
  obtain ⟨h1, h2⟩ := hwf e he
  exact ⟨⟨_, List.getElem?_eq_getElem h1⟩, ⟨_, List.getElem?_eq_getElem h2⟩⟩

/-- reachable graphs in debug builds are well formed -/
theorem reachable_wf {ops : List (Op F T U)} {g : PlanarGraph F T U}
    (h : PlanarGraph.run .debug PlanarGraph.new ops = .ok g) : WF g := by
  intro e he
  obtain ⟨⟨n, h1⟩, ⟨m, h2⟩⟩ := C49_valid_partial ops g h e he
  exact ⟨(List.getElem?_eq_some_iff.1 h1).1, (List.getElem?_eq_some_iff.1 h2).1⟩

end

/-! ## C69: self-loops -/

/-- no edge joins a node to itself -/
def LoopFree (g : PlanarGraph F T U) : Prop := ∀ e ∈ g.edges, e.src ≠ e.dst

theorem Renumbered.loopFree {g g' : PlanarGraph F T U} {keep ekeep : List Nat} (h : Renumbered g g' keep ekeep)
    (hl : LoopFree g) : LoopFree g' := by
  intro e he heq
  obtain ⟨k, hk⟩ := List.mem_iff_getElem?.1 he
  have hlt := (List.getElem?_eq_some_iff.1 hk).1
  rw [h.edge_count] at hlt
  obtain ⟨e0, e1, h0, h1, _, _, h2, h3⟩ := h.edges k _ (List.getElem?_eq_getElem hlt)
  rw [hk] at h1
  cases h1
  rw [heq, h3] at h2
  simp only [Option.some.injEq] at h2
  exact hl e0 (List.mem_of_getElem? h0) h2.symm

theorem removeNode_renumbered {p : Profile} {g g' : PlanarGraph F T U} (hwf : WF g) (hl : LoopFree g) {id : Nat}
    {r : List Nat × List Nat} (h : g.removeNode p id = .ok (g', r)) :
    g' = g ∨ ∃ keep ekeep, Renumbered g g' keep ekeep := by
  by_cases hid : id < g.nodes.length
  · right
    obtain ⟨keep, ekeep, hr, _⟩ := C64_remove_node p g hwf id hid (by
      intro j e h1 h2 h3 _; exact hl e (List.mem_of_getElem? h1) (by rw [h2, h3])) g' r h
    exact ⟨keep, ekeep, hr⟩
  · rw [removeNode_none (by omega)] at h; cases h; exact Or.inl rfl

theorem removeEdge_renumbered {p : Profile} {g g' : PlanarGraph F T U} (hwf : WF g) (hl : LoopFree g) {id : Nat}
    {r : List Nat × List Nat} (h : g.removeEdge p id = .ok (g', r)) :
    g' = g ∨ ∃ keep ekeep, Renumbered g g' keep ekeep := by
  by_cases hid : id < g.edges.length
  · right
    obtain ⟨keep, ekeep, hr, _⟩ := C62_remove_edge_partial p g hwf id _ (List.getElem?_eq_getElem hid)
      (fun hc => absurd hc (hl _ (List.getElem_mem hid))) g' r h
    exact ⟨keep, ekeep, hr⟩
  · rw [removeEdge_none (by omega)] at h; cases h; exact Or.inl rfl

section
variable [Scalar F] [LawfulScalar F]

/-- an edge is never split at one of its own ends -/
theorem onTest_ne {nodes : List (Node F T)} {id : Nat} {e : Edge U} (h : onTest nodes id e = true) :
    e.src ≠ id ∧ e.dst ≠ id := by
  unfold onTest at h
  split at h
  · rename_i a b p h1 h2 h3
    unfold Utils.isOnLineSegment at h
    simp only [Bool.and_eq_true] at h
    obtain ⟨⟨_, ha⟩, hb⟩ := h
    rw [LawfulScalar.abs_dist] at ha hb
    constructor
    · rintro rfl
      rw [h3] at h1; cases h1
      rw [LawfulScalar.dist_self] at ha; cases ha
    · rintro rfl
      rw [h3] at h2; cases h2
      rw [LawfulScalar.dist_self] at hb; cases hb
  · cases h

theorem LoopFree.splitAt {g : PlanarGraph F T U} (h : LoopFree g) (id : Nat) : LoopFree (splitAt g id) := by
  intro e' he'
  obtain ⟨e, he, ⟨_, rfl⟩ | ⟨ho, rfl | rfl⟩⟩ := mem_splitAt.1 he'
  · exact h _ he
  · exact (onTest_ne ho).1
  · exact (onTest_ne ho).2

theorem addNode_loopFree {g g' : PlanarGraph F T U} (hwf : WF g) (hl : LoopFree g) {pos : Vec2 F} {data : T}
    {r : Nat × List Nat} (h : g.addNode pos data = .ok (g', r)) : LoopFree g' := by
  rw [addNode_ok g hwf] at h
  simp only [Except.ok.injEq, Prod.mk.injEq] at h
  rw [← h.1]
  unfold addNodeG
  split
  · exact hl
  · exact LoopFree.splitAt (g := pushNode g pos data) hl _

theorem inserts_loopFree [Inhabited T] {g g' : PlanarGraph F T U} {xs : List (Vec2 F)} {cn ce : List Nat}
    (h : Inserts g xs g' cn ce) : LoopFree g → LoopFree g' := by
  induction h with
  | nil g => exact fun h => h
  | cons g x xs g' cn ce _ ih =>
    intro h
    apply ih
    unfold insertPt
    split
    · exact h.splitAt _
    · exact LoopFree.splitAt (g := pushNode g x default) h _

theorem addEdge_loopFree [Inhabited T] {g g' : PlanarGraph F T U} (hwf : WF g) (hl : LoopFree g) {s d : Nat} (hsd : s ≠ d)
    {x : U} {r : Except PlanarGraphError (List Nat × List Nat)} (h : g.addEdge s d x = .ok (g', r)) : LoopFree g' := by
  rcases addEdge_ok g hwf s d x with ⟨_, h'⟩ | ⟨_, _, h'⟩ | ⟨_, _, _, g1, cn, ce, hi, h'⟩
  · rw [h] at h'; cases h'; exact hl
  · rw [h] at h'; cases h'; exact hl
  · rw [h] at h'
    simp only [Except.ok.injEq, Prod.mk.injEq] at h'
    obtain ⟨rfl, _⟩ := h'
    refine inserts_loopFree hi ?_
    intro e he
    simp only [pushEdge, List.mem_append, List.mem_singleton] at he
    rcases he with he | rfl
    · exact hl e he
    · exact hsd

/-- no call asks for a self-loop -/
def NoLoopRequest : Op F T U → Prop
  | .addEdge s d _ => s ≠ d
  | _ => True

theorem wf_loopFree_run [Inhabited T] (p : Profile) {ops : List (Op F T U)} {g : PlanarGraph F T U}
    (hops : ∀ op ∈ ops, NoLoopRequest op) (h : PlanarGraph.run p PlanarGraph.new ops = .ok g) : WF g ∧ LoopFree g := by
  refine run_induction p (fun g => WF g ∧ LoopFree g) NoLoopRequest ?_ ops _ _
    ⟨wf_new, by intro e he; cases he⟩ hops h
  rintro g g' op ⟨hg, hl⟩ hP hs
  rcases step_ok hs with ⟨_, _, _, _, h⟩ | ⟨_, _, _, _, rfl, h⟩ | ⟨_, _, _, h⟩ | ⟨_, _, _, h⟩
  · exact ⟨addNode_wf hg h, addNode_loopFree hg hl h⟩
  · exact ⟨addEdge_wf hg h, addEdge_loopFree hg hl hP h⟩
  · rcases removeEdge_renumbered hg hl h with rfl | ⟨_, _, hr⟩
    · exact ⟨hg, hl⟩
    · exact ⟨hr.wf, hr.loopFree hl⟩
  · rcases removeNode_renumbered hg hl h with rfl | ⟨_, _, hr⟩
    · exact ⟨hg, hl⟩
    · exact ⟨hr.wf, hr.loopFree hl⟩

/-- **C69.** In every history that never calls `add_edge(s, s)`, debug or release, f32 or exact, no edge joins a node to
itself. -/
theorem C69_no_loops [Inhabited T] (p : Profile) (ops : List (Op F T U)) (g : PlanarGraph F T U)
    (hops : ∀ op ∈ ops, ∀ s d x, op = Op.addEdge s d x → s ≠ d)
    (h : PlanarGraph.run p PlanarGraph.new ops = .ok g) : ∀ e ∈ g.edges, e.src ≠ e.dst :=
  (wf_loopFree_run p (fun op ho => by
    cases op with
    | addEdge s d x => exact hops _ ho s d x rfl
    | _ => trivial) h).2

/-- **C49, partial (release).** Histories that never call `add_edge(s, s)` keep all indices valid in both profiles, in f32
and exact arithmetic. -/
theorem C49_valid_release_partial [Inhabited T] (p : Profile) (ops : List (Op F T U)) (g : PlanarGraph F T U)
    (hops : ∀ op ∈ ops, ∀ s d x, op = Op.addEdge s d x → s ≠ d)
    (h : PlanarGraph.run p PlanarGraph.new ops = .ok g) :
    ∀ e ∈ g.edges, (∃ n, g.getVertex e.src = some n) ∧ ∃ n, g.getVertex e.dst = some n := by
  have hwf := (wf_loopFree_run p (fun op ho => by
    cases op with
    | addEdge s d x => exact hops _ ho s d x rfl
    | _ => trivial) h).1
  intro e he
  obtain ⟨h1, h2⟩ := hwf e he
  exact ⟨⟨_, List.getElem?_eq_getElem h1⟩, ⟨_, List.getElem?_eq_getElem h2⟩⟩

/-- **C50, partial.** After every history that ran without a panic in a debug build, and after every history that never
called `add_edge(s, s)` in either build, `add_node` with any position and `add_edge` with any indices return. Missing: release
histories with a self-loop, where it is false (`C50_counterexample`). -/
theorem C50_history_partial [Inhabited T] (p : Profile) (ops : List (Op F T U)) (g : PlanarGraph F T U)
    (h : PlanarGraph.run p PlanarGraph.new ops = .ok g)
    (hops : p = .debug ∨ ∀ op ∈ ops, ∀ s d x, op = Op.addEdge s d x → s ≠ d) :
    (∀ pos data, ∃ r, g.addNode pos data = .ok r) ∧ ∀ s d x, ∃ r, g.addEdge s d x = .ok r := by
  have hwf : WF g := by
    rcases hops with rfl | hops
    · exact reachable_wf h
    · exact (wf_loopFree_run p (fun op ho => by
        cases op with
        | addEdge s d x => exact hops _ ho s d x rfl
        | _ => trivial) h).1
  obtain ⟨h1, h2⟩ := C50_no_panic g hwf
  exact ⟨fun pos data => let ⟨g', r, h, _⟩ := h1 pos data; ⟨_, h⟩, fun s d x => let ⟨g', r, h, _⟩ := h2 s d x; ⟨_, h⟩⟩

end

/-- **C49 is false in release builds**: removing node 0, whose only edge is a self-loop, wraps the index of node 1 around to
`2^64 - 1`. -/
theorem C49_counterexample : (PlanarGraph.run .release (PlanarGraph.new : PlanarGraph F32 Unit Unit)
    [.addNode ⟨F32.lit 0, F32.lit 0⟩ (), .addNode ⟨F32.lit 4, F32.lit 0⟩ (), .addNode ⟨F32.lit 4, F32.lit 4⟩ (),
      .addEdge 0 0 (), .addEdge 1 2 (), .removeNode 0]) =
    .ok ⟨[⟨⟨F32.lit 4, F32.lit 0⟩, (), ""⟩, ⟨⟨F32.lit 4, F32.lit 4⟩, (), ""⟩], [⟨2 ^ 64 - 1, 0, (), ""⟩]⟩ := by
  decide +kernel

/-- **C50 is false in release builds**: after the history of `C49_counterexample`, adding a node anywhere near, or an edge
between the two remaining nodes, reads node `2^64 - 1` and panics. -/
theorem C50_counterexample : ∃ g : PlanarGraph F32 Unit Unit, PlanarGraph.run .release PlanarGraph.new
    [.addNode ⟨F32.lit 0, F32.lit 0⟩ (), .addNode ⟨F32.lit 4, F32.lit 0⟩ (), .addNode ⟨F32.lit 4, F32.lit 4⟩ (),
      .addEdge 0 0 (), .addEdge 1 2 (), .removeNode 0] = .ok g ∧
    (∃ e, g.addNode ⟨F32.lit 1, F32.lit 1⟩ () = .error e) ∧ ∃ e, g.addEdge 0 1 () = .error e := by
  refine ⟨_, C49_counterexample, ?_, ?_⟩
  · exact ⟨_, rfl⟩
  · exact ⟨_, rfl⟩

/-- a history with additions, a crossing and removals that ends with valid indices -/
example : (PlanarGraph.run .debug (PlanarGraph.new : PlanarGraph F32 Unit Unit)
    [.addNode ⟨F32.lit 0, F32.lit 0⟩ (), .addNode ⟨F32.lit 4, F32.lit 0⟩ (), .addNode ⟨F32.lit 2, F32.lit (-2)⟩ (),
      .addNode ⟨F32.lit 2, F32.lit 2⟩ (), .addEdge 0 1 (), .addEdge 2 3 (), .removeNode 2, .removeEdge 2]) =
    .ok ⟨[⟨⟨F32.lit 0, F32.lit 0⟩, (), ""⟩, ⟨⟨F32.lit 4, F32.lit 0⟩, (), ""⟩, ⟨⟨F32.lit 2, F32.lit 0⟩, (), ""⟩],
      [⟨0, 2, (), ""⟩, ⟨1, 2, (), ""⟩]⟩ := by
  decide +kernel

end Kami.Graph
