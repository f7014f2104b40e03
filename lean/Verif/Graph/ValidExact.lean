import Verif.Graph.LoopExact
import Verif.Graph.Histories
/-!
# Which calls leave invalid indices behind

In a release build `remove_node` and `remove_edge` can leave an edge with an index outside the node list (`C49_counterexample`).
This happens for one kind of call only: the removal of node 0 when its only edge is a self-loop and some edge has an end at
node 1, whose index then becomes `1 - 2`.
-/

set_option autoImplicit false

namespace Kami.Graph

open Kami
open PlanarGraph

variable {F T U : Type}

/-- slot `j` holds a self-loop at node 0, no other edge touches node 0, and some edge has an end at node 1 -/
def WrapsAt (g : PlanarGraph F T U) (j : Nat) : Prop :=
  (∃ e, g.edges[j]? = some e ∧ e.src = 0 ∧ e.dst = 0 ∧ OnlyEdgeAt g j 0) ∧ ∃ f ∈ g.edges, f.src = 1 ∨ f.dst = 1

/-- the calls that wrap an index -/
def WrapsCall (g : PlanarGraph F T U) : Op F T U → Prop
  | .removeNode i => i = 0 ∧ ∃ j, WrapsAt g j
  | .removeEdge j => WrapsAt g j
  | _ => False

/-- removing the node `v` whose only edge is a self-loop: the indices stay valid unless one wraps -/
theorem loop_valid_iff {p : Profile} {g : PlanarGraph F T U} (hwf : WF g) (hn : g.nodes.length ≤ usizeSize) {v j : Nat}
    {e : Edge U} (he : g.edges[j]? = some e) (hs : e.src = v) (hd : e.dst = v) (hon : OnlyEdgeAt g j v)
    {g' : PlanarGraph F T U} {r : List Nat × List Nat} (h : g.removeNode p v = .ok (g', r)) :
    WF g' ↔ ¬ (v = 0 ∧ ∃ f ∈ g.edges, f.src = 1 ∨ f.dst = 1) := by
  have hl : LoopOnly g v := (loopOnly_iff g v).2 ⟨j, e, he, hs, hd, hon⟩
  have hv : v < g.nodes.length := by have := (hwf e (List.mem_of_getElem? he)).1; omega
  have hmk := loopOnly_marked hv hl
  have hr : ∃ remapped, remapLoop p (v :: strays g v g.edges) g.nodes.length 0 = .ok remapped := by
    by_cases hc : v = 0 ∧ 2 ≤ g.nodes.length
    · cases p with
      | debug => rw [remap_loop_err hl hc.1 hc.2] at h; cases h
      | release => exact remapLoop_release _ _ _
    · exact ⟨_, remap_loop hv hl hc⟩
  obtain ⟨l, hr⟩ := hr
  have hg : g' = afterRemoval g [v, v] (slotsAt g v) l := by
    rcases removeNode_eq hv hr with ⟨h0, _⟩ | ⟨_, m, me, _, _, _, _, h'⟩
    · exact absurd h0 hl.deg
    · rw [h] at h'
      simp only [Except.ok.injEq, Prod.mk.injEq] at h'
      rw [h'.1, hmk]
  rw [hmk] at hr
  have hslot : ∀ k, k ∈ slotsAt g v ↔ k = j := by
    intro k
    unfold slotsAt
    rw [mem_slots]
    constructor
    · rintro ⟨f, h1, h2⟩; exact hon.2 k f h1 (includes_iff.1 h2)
    · rintro rfl; exact ⟨e, he, includes_iff.2 (Or.inl hs)⟩
  have hsur : ∀ k, k ∈ survivors g.edges.length (slotsAt g v) ↔ k < g.edges.length ∧ k ≠ j := by
    intro k; rw [mem_survivors, hslot]
  have hlen : g'.nodes.length + 1 = g.nodes.length := by
    rw [hg]
    simp only [afterRemoval]
    rw [eraseMarked_length0]
    have hs := survivors_sorted g.nodes.length [v, v]
    have hm : ∀ i, i ∈ survivors g.nodes.length [v, v] ↔ i ∈ (Finset.range g.nodes.length).erase v := by
      intro i; rw [mem_survivors]; simp [and_comm]
    have hcard := List.toFinset_card_of_nodup (hs.imp fun h => Nat.ne_of_lt h : (survivors g.nodes.length [v, v]).Nodup)
    have hfin : (survivors g.nodes.length [v, v]).toFinset = (Finset.range g.nodes.length).erase v := by
      ext i; rw [List.mem_toFinset]; exact hm i
    rw [hfin, Finset.card_erase_of_mem (by simpa using hv), Finset.card_range] at hcard
    omega
  -- the edges of the result are the others, with remapped ends
  have hget : ∀ k : Nat, g'.edges[k]? = ((survivors g.edges.length (slotsAt g v))[k]?.bind fun q => g.edges[q]?).map fun f =>
      { f with src := remapIndex l f.src, dst := remapIndex l f.dst } := by
    intro k
    rw [hg]
    simp only [afterRemoval, List.getElem?_map, eraseMarked_get0]
  constructor
  · rintro hw ⟨rfl, f, hf, hf1⟩
    obtain ⟨q, hq⟩ := List.mem_iff_getElem?.1 hf
    have hqj : q ≠ j := by
      rintro rfl
      rw [he] at hq; cases hq; omega
    have hql := (List.getElem?_eq_some_iff.1 hq).1
    obtain ⟨k, hk⟩ := List.mem_iff_getElem?.1 ((hsur q).2 ⟨hql, hqj⟩)
    have hgk := hget k
    rw [hk, Option.bind_some, hq, Option.map_some] at hgk
    have hv' := hw _ (List.mem_of_getElem? hgk)
    simp only at hv'
    have hb := hwf f hf
    have hone : remapIndex l 1 = usizeSize - 1 := by
      rcases loop_remap hr (i := 1) (by omega) (by omega) with ⟨a1, _⟩ | ⟨_, a3, _⟩ | ⟨_, _, a2⟩
      · omega
      · omega
      · exact a2
    rcases hf1 with hf1 | hf1
    · rw [hf1, hone] at hv'; omega
    · rw [hf1, hone] at hv'; omega
  · intro hno f' hf'
    obtain ⟨k, hk⟩ := List.mem_iff_getElem?.1 hf'
    rw [hget] at hk
    cases hq : (survivors g.edges.length (slotsAt g v))[k]? with
    | none => rw [hq] at hk; cases hk
    | some q =>
      have hqs := (hsur q).1 (List.mem_of_getElem? hq)
      rw [hq, Option.bind_some, List.getElem?_eq_getElem hqs.1, Option.map_some, Option.some.injEq] at hk
      have hmem := List.getElem_mem hqs.1
      have hb := hwf _ hmem
      have hne : g.edges[q].src ≠ v ∧ g.edges[q].dst ≠ v :=
        ⟨fun hc => hqs.2 (hon.2 q _ (List.getElem?_eq_getElem hqs.1) (Or.inl hc)),
          fun hc => hqs.2 (hon.2 q _ (List.getElem?_eq_getElem hqs.1) (Or.inr hc))⟩
      rw [← hk]
      simp only
      constructor
      · rcases loop_remap hr hb.1 hne.1 with ⟨a1, a2⟩ | ⟨a1, a3, a2⟩ | ⟨a1, a3, _⟩
        · rw [a2]; omega
        · rw [a2]; omega
        · exact absurd ⟨a1, _, hmem, Or.inl a3⟩ hno
      · rcases loop_remap hr hb.2 hne.2 with ⟨a1, a2⟩ | ⟨a1, a3, a2⟩ | ⟨a1, a3, _⟩
        · rw [a2]; omega
        · rw [a2]; omega
        · exact absurd ⟨a1, _, hmem, Or.inr a3⟩ hno

theorem removeNode_valid_iff {p : Profile} {g : PlanarGraph F T U} (hwf : WF g) (hn : g.nodes.length ≤ usizeSize) {v : Nat}
    {g' : PlanarGraph F T U} {r : List Nat × List Nat} (h : g.removeNode p v = .ok (g', r)) :
    WF g' ↔ ¬ (v = 0 ∧ ∃ j, WrapsAt g j) := by
  by_cases hv : v < g.nodes.length
  · by_cases hc : ∃ j e, g.edges[j]? = some e ∧ e.src = v ∧ e.dst = v ∧ OnlyEdgeAt g j v
    · obtain ⟨j, e, h1, h2, h3, h4⟩ := hc
      rw [loop_valid_iff hwf hn h1 h2 h3 h4 h]
      refine not_congr (and_congr_right ?_)
      rintro rfl
      exact ⟨fun hf => ⟨j, ⟨e, h1, h2, h3, h4⟩, hf⟩, fun ⟨_, _, hf⟩ => hf⟩
    · constructor
      · rintro _ ⟨rfl, j, ⟨e, he⟩, _⟩; exact hc ⟨j, e, he⟩
      · intro _
        obtain ⟨keep, ekeep, c1, _⟩ := (C64_exact p g hwf hn v hv g' r h).2 fun x => hc x.1
        exact c1.wf
  · have : g' = g := by
      unfold removeNode at h
      rw [List.getElem?_eq_none (by omega)] at h
      cases h; rfl
    subst this
    refine ⟨?_, fun _ => hwf⟩
    rintro _ ⟨rfl, j, ⟨e, he, h0, _⟩, _⟩
    have := (hwf e (List.mem_of_getElem? he)).1
    omega

theorem removeEdge_valid_iff {p : Profile} {g : PlanarGraph F T U} (hwf : WF g) (hn : g.nodes.length ≤ usizeSize) {id : Nat}
    {g' : PlanarGraph F T U} {r : List Nat × List Nat} (h : g.removeEdge p id = .ok (g', r)) :
    WF g' ↔ ¬ WrapsAt g id := by
  cases he : g.edges[id]? with
  | none =>
    have : g' = g := by
      unfold removeEdge at h
      rw [he] at h
      cases h; rfl
    subst this
    refine ⟨?_, fun _ => hwf⟩
    rintro _ ⟨⟨e, h1, _⟩, _⟩
    rw [he] at h1; cases h1
  | some e =>
    by_cases hc : e.src = e.dst ∧ OnlyEdgeAt g id e.src
    · obtain ⟨h1, h2⟩ := hc
      have hrem : g.removeNode p e.src = .ok (g', r) := by
        rw [removeEdge_eq hwf he (ne_nil_of_get he), if_pos ((onlyEdge_of_deg he (Or.inl rfl)).2 h2)] at h
        exact h
      rw [loop_valid_iff hwf hn he rfl h1.symm h2 hrem]
      refine not_congr ⟨?_, ?_⟩
      · rintro ⟨h0, hf⟩
        exact ⟨⟨e, he, h0, by omega, by rw [← h0]; exact h2⟩, hf⟩
      · rintro ⟨⟨e', he', h0, _⟩, hf⟩
        rw [he] at he'; cases he'
        exact ⟨h0, hf⟩
    · constructor
      · rintro _ ⟨⟨e', he', h0, h0', h3⟩, _⟩
        rw [he] at he'; cases he'
        exact hc ⟨by omega, by rw [h0]; exact h3⟩
      · intro _
        obtain ⟨keep, ekeep, c1, _⟩ := (C62_exact p g hwf hn id e he g' r h).2 fun x => hc ⟨x.1, x.2.1⟩
        exact c1.wf

section
variable [Scalar F] [Inhabited T]

/-- **C49, exact condition for one call.** A call that returns leaves both node indices of every edge valid, if they were, unless it
is a removal that wraps an index: of node 0, or of its edge, where that edge is a self-loop and the only edge at node 0 and some
edge has an end at node 1.  (With overflow checks such a call panics.) -/
theorem C49_exact_call (p : Profile) (g : PlanarGraph F T U) (op : Op F T U) (g' : PlanarGraph F T U)
    (hn : g.nodes.length ≤ usizeSize) (hg : ∀ e ∈ g.edges, e.src < g.nodes.length ∧ e.dst < g.nodes.length)
    (h : g.step p op = .ok g') :
    (∀ e ∈ g'.edges, e.src < g'.nodes.length ∧ e.dst < g'.nodes.length) ↔ ¬ WrapsCall g op := by
  rcases step_ok h with ⟨_, _, _, rfl, h1⟩ | ⟨_, _, _, _, rfl, h1⟩ | ⟨_, _, rfl, h1⟩ | ⟨_, _, rfl, h1⟩
  · exact ⟨fun _ hc => hc, fun _ => addNode_wf hg h1⟩
  · exact ⟨fun _ hc => hc, fun _ => addEdge_wf hg h1⟩
  · exact removeEdge_valid_iff hg hn h1
  · exact removeNode_valid_iff hg hn h1

theorem run_append {p : Profile} : ∀ (xs ys : List (Op F T U)) (g : PlanarGraph F T U),
    g.run p (xs ++ ys) = (g.run p xs).bind fun g' => g'.run p ys := by
  intro xs
  induction xs with
  | nil => intro ys g; rfl
  | cons x xs ih =>
    intro ys g
    simp only [List.cons_append, PlanarGraph.run, bind, Except.bind]
    cases g.step p x with
    | error e => rfl
    | ok g1 => exact ih ys g1

/-- **C49, exact condition.** Consider a sequence of calls on an empty graph, in either build, with never more than `2^64` nodes.
The indices stay valid all the time if and only if no call is made that wraps an index. -/
theorem C49_exact (p : Profile) (ops : List (Op F T U))
    (hsize : ∀ k (g : PlanarGraph F T U), PlanarGraph.run p PlanarGraph.new (ops.take k) = .ok g → g.nodes.length ≤ usizeSize) :
    (∀ k (g : PlanarGraph F T U), PlanarGraph.run p PlanarGraph.new (ops.take k) = .ok g →
      ∀ e ∈ g.edges, (∃ n, g.getVertex e.src = some n) ∧ ∃ n, g.getVertex e.dst = some n) ↔
    ∀ k op (g g' : PlanarGraph F T U), PlanarGraph.run p PlanarGraph.new (ops.take k) = .ok g → ops[k]? = some op →
      g.step p op = .ok g' → ¬ WrapsCall g op := by
  have hv : ∀ g : PlanarGraph F T U, (∀ e ∈ g.edges, (∃ n, g.getVertex e.src = some n) ∧ ∃ n, g.getVertex e.dst = some n) ↔
      ∀ e ∈ g.edges, e.src < g.nodes.length ∧ e.dst < g.nodes.length := by
    intro g
    refine forall₂_congr fun e _ => and_congr ?_ ?_
    · exact ⟨fun ⟨_, h⟩ => (List.getElem?_eq_some_iff.1 h).1, fun h => ⟨_, List.getElem?_eq_getElem h⟩⟩
    · exact ⟨fun ⟨_, h⟩ => (List.getElem?_eq_some_iff.1 h).1, fun h => ⟨_, List.getElem?_eq_getElem h⟩⟩
  have hsucc : ∀ k op, ops[k]? = some op → ∀ g : PlanarGraph F T U,
      PlanarGraph.run p PlanarGraph.new (ops.take k) = .ok g →
      PlanarGraph.run p PlanarGraph.new (ops.take (k + 1)) = g.step p op := by
    intro k op hop g hg
    rw [List.take_add_one, hop, run_append, hg]
    simp only [Option.toList_some, Except.bind, PlanarGraph.run, bind]
    cases g.step p op <;> rfl
  simp only [hv]
  constructor
  · intro h k op g g' hg hop hs
    refine (C49_exact_call p g op g' (hsize k g hg) (h k g hg) hs).1 ?_
    exact h (k + 1) g' ((hsucc k op hop g hg).trans hs)
  · intro h k
    induction k with
    | zero =>
      intro g hg
      cases hg
      exact wf_new
    | succ k ih =>
      intro g' hg'
      cases hop : ops[k]? with
      | none =>
        rw [List.take_add_one, hop, Option.toList_none, List.append_nil] at hg'
        exact ih g' hg'
      | some op =>
        cases hg : PlanarGraph.run p PlanarGraph.new (ops.take k) with
        | error e =>
          rw [List.take_add_one, run_append, hg] at hg'
          cases hg'
        | ok g =>
          rw [hsucc k op hop g hg] at hg'
          exact (C49_exact_call p g op g' (hsize k g hg) (ih g hg) hg').2 (h k op g g' hg hop hg')

/-- **C50, with self-loops, in either build.** After a sequence of calls without one that wraps an index, `add_node` and `add_edge`
return for all arguments, self-loops or not. -/
theorem C50_history_wraps (p : Profile) (ops : List (Op F T U)) (g : PlanarGraph F T U)
    (hsize : ∀ k (g : PlanarGraph F T U), PlanarGraph.run p PlanarGraph.new (ops.take k) = .ok g → g.nodes.length ≤ usizeSize)
    (hops : ∀ k op (g g' : PlanarGraph F T U), PlanarGraph.run p PlanarGraph.new (ops.take k) = .ok g → ops[k]? = some op →
      g.step p op = .ok g' → ¬ WrapsCall g op)
    (h : PlanarGraph.run p PlanarGraph.new ops = .ok g) :
    (∀ pos data, ∃ r, g.addNode pos data = .ok r) ∧ ∀ s d x, ∃ r, g.addEdge s d x = .ok r := by
  have hwf : WF g := by
    intro e he
    obtain ⟨⟨_, h1⟩, _, h2⟩ := (C49_exact p ops hsize).2 hops ops.length g (by rw [List.take_length]; exact h) e he
    exact ⟨(List.getElem?_eq_some_iff.1 h1).1, (List.getElem?_eq_some_iff.1 h2).1⟩
  obtain ⟨h1, h2⟩ := C50_no_panic g hwf
  exact ⟨fun pos data => let ⟨g', r, h, _⟩ := h1 pos data; ⟨_, h⟩, fun s d x => let ⟨g', r, h, _⟩ := h2 s d x; ⟨_, h⟩⟩

end

/-- the removal of `C49_counterexample` wraps an index -/
example : WrapsCall (⟨[⟨⟨(0 : ℚ), 0⟩, (), ""⟩, ⟨⟨4, 0⟩, (), ""⟩, ⟨⟨4, 4⟩, (), ""⟩], [⟨0, 0, (), ""⟩, ⟨1, 2, (), ""⟩]⟩ :
    PlanarGraph ℚ Unit Unit) (.removeNode 0) := by
  refine ⟨rfl, 0, ⟨_, rfl, rfl, rfl, ?_⟩, ⟨1, 2, (), ""⟩, by simp, Or.inl rfl⟩
  refine ⟨by simp, ?_⟩
  intro k f hk hf
  match k with
  | 0 => rfl
  | 1 => cases hk; simp at hf
  | k + 2 => cases hk

end Kami.Graph
