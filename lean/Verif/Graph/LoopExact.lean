import Verif.Graph.Reported
/-!
# Removing a node whose only edge is a self-loop

`remove_node` (src/graph/planar_graph.rs:412-484) marks such a node twice (once for itself, once as its own neighbour without
another edge) and moves the indices behind it by two.  The result is right exactly when no edge has an end behind the node.
-/

set_option autoImplicit false

namespace Kami.Graph

open Kami
open PlanarGraph

variable {F T U : Type}

/-- what the renumbering table says, when it could be built -/
theorem remapLoop_lookup {p : Profile} {marked : List Nat} : ∀ (count i : Nat) (l : List (Nat × Nat)),
    remapLoop p marked count i = .ok l → ∀ j, i ≤ j → j < i + count → j ∉ marked →
      ∃ j', usizeSub p j (back marked j) = .ok j' ∧ l.lookup j = some j' := by
  intro count
  induction count with
  | zero => intro i l _ j h1 h2; omega
  | succ count ih =>
    intro i l h j h1 h2 hj
    unfold remapLoop at h
    by_cases hi : i ∈ marked
    · rw [if_neg (by simpa using hi)] at h
      have : j ≠ i := by rintro rfl; exact hj hi
      exact ih (i + 1) l h j (by omega) (by omega) hj
    · rw [if_pos (by simpa using hi)] at h
      have hb : (marked.filter fun entry => decide (entry < i)).length = back marked i := rfl
      simp only [hb, bind, Except.bind] at h
      cases h3 : usizeSub p i (back marked i) with
      | error x => rw [h3] at h; cases h
      | ok i' =>
        rw [h3] at h
        simp only at h
        cases h4 : remapLoop p marked count (i + 1) with
        | error x => rw [h4] at h; cases h
        | ok rest =>
          rw [h4] at h
          simp only [pure, Except.pure, Except.ok.injEq] at h
          subst h
          by_cases hji : j = i
          · subst hji
            exact ⟨i', h3, by simp [List.lookup]⟩
          · obtain ⟨j', h5, h6⟩ := ih (i + 1) rest h4 j (by omega) (by omega) hj
            refine ⟨j', h5, ?_⟩
            rw [List.lookup, beq_false_of_ne hji]
            exact h6

/-- the new index of a node `i` after `remove_node(v)` for a node `v` whose only edge is a self-loop -/
theorem loop_remap {p : Profile} {v n : Nat} {l : List (Nat × Nat)} (h : remapLoop p [v, v] n 0 = .ok l) {i : Nat}
    (hi : i < n) (hne : i ≠ v) :
    (i < v ∧ remapIndex l i = i) ∨ (v < i ∧ 2 ≤ i ∧ remapIndex l i = i - 2) ∨
      (v = 0 ∧ i = 1 ∧ remapIndex l i = usizeSize - 1) := by
  obtain ⟨j', h1, h2⟩ := remapLoop_lookup n 0 l h i (by omega) (by omega) (by simp [hne])
  have h3 : remapIndex l i = j' := by unfold remapIndex; rw [h2]
  rw [h3]
  rw [back_pair] at h1
  unfold usizeSub at h1
  by_cases hv : v < i
  · rw [if_pos hv] at h1
    by_cases h2i : 2 ≤ i
    · rw [if_pos h2i] at h1
      cases h1
      exact Or.inr (Or.inl ⟨hv, h2i, rfl⟩)
    · rw [if_neg h2i] at h1
      cases p with
      | debug => cases h1
      | release =>
        have : i = 1 := by omega
        subst this
        cases h1
        exact Or.inr (Or.inr ⟨by omega, rfl, by omega⟩)
  · rw [if_neg hv, if_pos (by omega)] at h1
    cases h1
    exact Or.inl ⟨by omega, by omega⟩

/-- the positions in an increasing list of all numbers below `n` except `v` -/
theorem sorted_but_one {l : List Nat} (hs : l.Pairwise (· < ·)) {n v : Nat} (hm : ∀ i, i ∈ l ↔ i < n ∧ i ≠ v) {k i : Nat}
    (hk : l[k]? = some i) (hv : v < i) : k + 1 = i := by
  -- every element behind `v` is in the position before it
  have hlow : ∀ r < v, ∀ m, l[m]? = some r → m = r := by
    intro r hr m hmr
    refine (sorted_get_self hs hmr).2 fun q hq => (hm q).2 ⟨?_, by omega⟩
    have := ((hm r).1 (List.mem_of_getElem? hmr)).1
    omega
  have key : ∀ d i : Nat, i = v + 1 + d → ∀ m, l[m]? = some i → m + 1 = i := by
    intro d
    induction d using Nat.strong_induction_on with
    | _ d ih =>
      intro i hid m hmi
      have hin := ((hm i).1 (List.mem_of_getElem? hmi)).1
      obtain ⟨hml, hme⟩ := List.getElem?_eq_some_iff.1 hmi
      have hge := sorted_get_ge hs m i hmi
      have hne : m ≠ i := by
        intro hc
        have := ((hm v).1 ((sorted_get_self hs hmi).1 hc v (by omega))).2
        exact this rfl
      by_contra hc
      -- the number `m` or `m + 1` would be in two positions
      by_cases h1 : m < v
      · obtain ⟨q, hq⟩ := List.mem_iff_getElem?.1 ((hm m).2 ⟨by omega, by omega⟩)
        have := hlow m h1 q hq
        subst this
        rw [hmi] at hq
        cases hq
        exact hne rfl
      · obtain ⟨q, hq⟩ := List.mem_iff_getElem?.1 ((hm (m + 1)).2 ⟨by omega, by omega⟩)
        have h2 := ih (m - v) (by omega) (m + 1) (by omega) q hq
        have : q = m := by omega
        subst this
        rw [hmi] at hq
        cases hq
        exact hc rfl
  exact key (i - (v + 1)) i (by omega) k hk

/-- The result of removing a node `v` whose only edge is the self-loop in slot `j` is right if and only if no edge has an end
behind `v`. -/
theorem loop_right_iff {p : Profile} {g : PlanarGraph F T U} (hwf : WF g) (hn : g.nodes.length ≤ usizeSize) {v j : Nat}
    {e : Edge U} (he : g.edges[j]? = some e) (hs : e.src = v) (hd : e.dst = v) (hon : OnlyEdgeAt g j v)
    {g' : PlanarGraph F T U} {r : List Nat × List Nat} (h : g.removeNode p v = .ok (g', r)) :
    ((∃ keep ekeep : List Nat, Renumbered g g' keep ekeep ∧ keep.Pairwise (· < ·) ∧
        (∀ i, i ∈ keep ↔ i < g.nodes.length ∧ i ≠ v) ∧ (∀ k, k ∈ ekeep ↔ k < g.edges.length ∧ k ≠ j)) →
      ∀ f ∈ g.edges, f.src ≤ v ∧ f.dst ≤ v) ∧
    ((∀ f ∈ g.edges, f.src ≤ v ∧ f.dst ≤ v) →
      ∃ keep ekeep : List Nat, Renumbered g g' keep ekeep ∧ keep.Pairwise (· < ·) ∧ ekeep.Pairwise (· < ·) ∧
        (∀ i, i ∈ keep ↔ i < g.nodes.length ∧ i ≠ v) ∧ (∀ k, k ∈ ekeep ↔ k < g.edges.length ∧ k ≠ j)) := by
  have hl : LoopOnly g v := (loopOnly_iff g v).2 ⟨j, e, he, hs, hd, hon⟩
  have hv : v < g.nodes.length := by have := (hwf e (List.mem_of_getElem? he)).1; omega
  have hmk := loopOnly_marked hv hl
  have hr : ∃ remapped, remapLoop p (v :: strays g v g.edges) g.nodes.length 0 = .ok remapped := by
    by_cases hc : v = 0 ∧ 2 ≤ g.nodes.length
    · cases p with
      | debug => rw [remap_loop_err hl hc.1 hc.2] at h; cases h
      | release => exact remapLoop_release _ _ _
    · exact ⟨_, remap_loop hv hl hc⟩
  obtain ⟨l, hr⟩ := hr
  have hg : g' = afterRemoval g [v, v] (slotsAt g v) l := by
    rcases removeNode_eq hv hr with ⟨h0, _⟩ | ⟨_, m, me, _, _, _, _, h'⟩
    · exact absurd h0 hl.deg
    · rw [h] at h'
      simp only [Except.ok.injEq, Prod.mk.injEq] at h'
      rw [h'.1, hmk]
  rw [hmk] at hr
  have hslot : ∀ k, k ∈ slotsAt g v ↔ k = j := by
    intro k
    unfold slotsAt
    rw [mem_slots]
    constructor
    · rintro ⟨f, h1, h2⟩; exact hon.2 k f h1 (includes_iff.1 h2)
    · rintro rfl; exact ⟨e, he, includes_iff.2 (Or.inl hs)⟩
  -- the ends of the other edges
  have hother : ∀ k f, g.edges[k]? = some f → k ≠ j → (f.src < g.nodes.length ∧ f.src ≠ v) ∧ (f.dst < g.nodes.length ∧ f.dst ≠ v) := by
    intro k f hf hk
    have := hwf f (List.mem_of_getElem? hf)
    refine ⟨⟨this.1, fun hc => hk (hon.2 k f hf (Or.inl hc))⟩, this.2, fun hc => hk (hon.2 k f hf (Or.inr hc))⟩
  have hget : ∀ k : Nat, g'.edges[k]? = ((survivors g.edges.length (slotsAt g v))[k]?.bind fun q => g.edges[q]?).map fun f =>
      { f with src := remapIndex l f.src, dst := remapIndex l f.dst } := by
    intro k
    rw [hg]
    simp only [afterRemoval, List.getElem?_map, eraseMarked_get0]
  have hsur : ∀ k, k ∈ survivors g.edges.length (slotsAt g v) ↔ k < g.edges.length ∧ k ≠ j := by
    intro k; rw [mem_survivors, hslot]
  constructor
  · rintro ⟨keep, ekeep, c1, c2, c3, c4⟩
    by_contra hc
    push Not at hc
    -- the largest end of all
    obtain ⟨f0, hf0, hf0'⟩ := hc
    have hM : ∃ M, v < M ∧ (∃ f ∈ g.edges, f.src = M ∨ f.dst = M) ∧ ∀ f ∈ g.edges, f.src ≤ M ∧ f.dst ≤ M := by
      have hex : ∃ d, (∃ f ∈ g.edges, f.src = g.nodes.length - d ∨ f.dst = g.nodes.length - d) := by
        refine ⟨g.nodes.length - f0.src, f0, hf0, Or.inl ?_⟩
        have := (hwf f0 hf0).1; omega
      classical
      obtain ⟨f, hf, hfe⟩ := Nat.find_spec hex
      have hmin : ∀ f' ∈ g.edges, f'.src ≤ g.nodes.length - Nat.find hex ∧ f'.dst ≤ g.nodes.length - Nat.find hex := by
        intro f' hf'
        have hw := hwf f' hf'
        constructor
        · by_contra hc
          exact Nat.find_min hex (m := g.nodes.length - f'.src) (by omega) ⟨f', hf', Or.inl (by omega)⟩
        · by_contra hc
          exact Nat.find_min hex (m := g.nodes.length - f'.dst) (by omega) ⟨f', hf', Or.inr (by omega)⟩
      refine ⟨g.nodes.length - Nat.find hex, ?_, ⟨f, hf, hfe⟩, hmin⟩
      have := hmin f0 hf0
      by_cases h1 : f0.src ≤ v
      · have := hf0' h1; omega
      · omega
    obtain ⟨M, hvM, ⟨f, hf, hfM⟩, hmax⟩ := hM
    have hMn : M < g.nodes.length := by have := hwf f hf; omega
    obtain ⟨q, hq⟩ := List.mem_iff_getElem?.1 hf
    have hqj : q ≠ j := by
      rintro rfl
      rw [he] at hq; cases hq; omega
    have hql := (List.getElem?_eq_some_iff.1 hq).1
    obtain ⟨k, hk⟩ := List.mem_iff_getElem?.1 ((c4 q).2 ⟨hql, hqj⟩)
    obtain ⟨f', f'', d1, d2, _, _, d5, d6⟩ := c1.edges k q hk
    rw [hq] at d1; cases d1
    -- no end of the result is `M - 1`
    have hno : f''.src + 1 ≠ M ∧ f''.dst + 1 ≠ M := by
      rw [hget] at d2
      cases d3 : (survivors g.edges.length (slotsAt g v))[k]? with
      | none => rw [d3] at d2; cases d2
      | some q' =>
        have hq' := (hsur q').1 (List.mem_of_getElem? d3)
        rw [d3, Option.bind_some, List.getElem?_eq_getElem hq'.1, Option.map_some, Option.some.injEq] at d2
        have ho := hother q' _ (List.getElem?_eq_getElem hq'.1) hq'.2
        have hm := hmax _ (List.getElem_mem hq'.1)
        rw [← d2]
        simp only
        constructor
        · rcases loop_remap hr ho.1.1 ho.1.2 with ⟨a1, a2⟩ | ⟨a1, a3, a2⟩ | ⟨a1, a3, a2⟩ <;> rw [a2] <;> omega
        · rcases loop_remap hr ho.2.1 ho.2.2 with ⟨a1, a2⟩ | ⟨a1, a3, a2⟩ | ⟨a1, a3, a2⟩ <;> rw [a2] <;> omega
    rcases hfM with hfM | hfM
    · rw [hfM] at d5; exact hno.1 (sorted_but_one c2 c3 d5 hvM)
    · rw [hfM] at d6; exact hno.2 (sorted_but_one c2 c3 d6 hvM)
  · intro hle
    have hsn : ∀ i, i ∈ survivors g.nodes.length [v, v] ↔ i < g.nodes.length ∧ i ≠ v := by
      intro i; rw [mem_survivors]; simp
    refine ⟨survivors g.nodes.length [v, v], survivors g.edges.length (slotsAt g v), ?_, survivors_sorted _ _,
      survivors_sorted _ _, hsn, hsur⟩
    refine ⟨(survivors_sorted _ _).imp fun h => Nat.ne_of_lt h, (survivors_sorted _ _).imp fun h => Nat.ne_of_lt h, ?_, ?_,
      ?_, ?_⟩
    · rw [hg]; exact eraseMarked_length0 _ _
    · rw [hg]; simp only [afterRemoval, List.length_map]; exact eraseMarked_length0 _ _
    · intro k i hk
      refine ⟨((hsn i).1 (List.mem_of_getElem? hk)).1, ?_⟩
      rw [hg]
      simp only [afterRemoval]
      rw [eraseMarked_get0, hk]; rfl
    · intro k q hk
      have hq := (hsur q).1 (List.mem_of_getElem? hk)
      have ho := hother q _ (List.getElem?_eq_getElem hq.1) hq.2
      have hm := hle _ (List.getElem_mem hq.1)
      refine ⟨g.edges[q], { g.edges[q] with src := remapIndex l g.edges[q].src, dst := remapIndex l g.edges[q].dst },
        List.getElem?_eq_getElem hq.1, ?_, rfl, rfl, ?_, ?_⟩
      · rw [hget, hk, Option.bind_some, List.getElem?_eq_getElem hq.1]; rfl
      · simp only
        rcases loop_remap hr ho.1.1 ho.1.2 with ⟨a1, a2⟩ | ⟨a1, a3, a2⟩ | ⟨a1, a3, a2⟩
        · rw [a2]; exact survivors_get_below (m := v) (by simp) a1 ho.1.1
        · omega
        · omega
      · simp only
        rcases loop_remap hr ho.2.1 ho.2.2 with ⟨a1, a2⟩ | ⟨a1, a3, a2⟩ | ⟨a1, a3, a2⟩
        · rw [a2]; exact survivors_get_below (m := v) (by simp) a1 ho.2.1
        · omega
        · omega

/-- **C62, exact condition.** If `remove_edge(id)` returns, the remaining edges are the others with their data and their ends, and
the removed nodes are exactly the ends of the edge that no other edge touches, if and only if it is not the case that the edge is
a self-loop, the only edge at its node, and some edge has an end behind that node. -/
theorem C62_exact (p : Profile) (g : PlanarGraph F T U) (hwf : WF g) (hn : g.nodes.length ≤ usizeSize) (id : Nat) (e : Edge U)
    (he : g.edges[id]? = some e) (g' : PlanarGraph F T U) (r : List Nat × List Nat) (h : g.removeEdge p id = .ok (g', r)) :
    (∃ keep ekeep : List Nat, Renumbered g g' keep ekeep ∧ keep.Pairwise (· < ·) ∧
      (∀ i, i ∈ keep ↔ i < g.nodes.length ∧ ¬ ((e.src = i ∨ e.dst = i) ∧ OnlyEdgeAt g id i)) ∧
      (∀ j, j ∈ ekeep ↔ j < g.edges.length ∧ j ≠ id)) ↔
    ¬ (e.src = e.dst ∧ OnlyEdgeAt g id e.src ∧ ∃ f ∈ g.edges, e.src < f.src ∨ e.src < f.dst) := by
  by_cases hc : e.src = e.dst ∧ OnlyEdgeAt g id e.src
  · obtain ⟨h1, h2⟩ := hc
    have hrem : g.removeNode p e.src = .ok (g', r) := by
      rw [removeEdge_eq hwf he (ne_nil_of_get he), if_pos ((onlyEdge_of_deg he (Or.inl rfl)).2 h2)] at h
      exact h
    obtain ⟨a, b⟩ := loop_right_iff hwf hn he rfl h1.symm h2 hrem
    have hmem : ∀ i, (i < g.nodes.length ∧ ¬ ((e.src = i ∨ e.dst = i) ∧ OnlyEdgeAt g id i)) ↔ i < g.nodes.length ∧ i ≠ e.src := by
      intro i
      refine and_congr_right fun _ => ?_
      constructor
      · rintro x rfl; exact x ⟨Or.inl rfl, h2⟩
      · rintro x ⟨y, _⟩; rcases y with y | y <;> omega
    simp only [hmem]
    constructor
    · rintro x ⟨_, _, f, hf, hf2⟩
      have := a x f hf
      omega
    · intro x
      obtain ⟨keep, ekeep, c1, c2, _, c4, c5⟩ := b (by
        intro f hf
        by_contra hcc
        exact x ⟨h1, h2, f, hf, by omega⟩)
      exact ⟨keep, ekeep, c1, c2, c4, c5⟩
  · constructor
    · rintro _ ⟨x, y, _⟩; exact hc ⟨x, y⟩
    · intro _
      exact C62_remove_edge_partial p g hwf id e he (fun x y => hc ⟨x, y⟩) g' r h

/-- **C64, exact condition.** If `remove_node(id)` returns, its result is as `C64_remove_node` says if and only if it is not the
case that the only edge at `id` is a self-loop and some edge has an end behind `id`. -/
theorem C64_exact (p : Profile) (g : PlanarGraph F T U) (hwf : WF g) (hn : g.nodes.length ≤ usizeSize) (id : Nat)
    (hid : id < g.nodes.length) (g' : PlanarGraph F T U) (r : List Nat × List Nat) (h : g.removeNode p id = .ok (g', r)) :
    (∃ keep ekeep : List Nat, Renumbered g g' keep ekeep ∧ keep.Pairwise (· < ·) ∧ ekeep.Pairwise (· < ·) ∧
      (∀ i, i ∈ keep ↔ i < g.nodes.length ∧ i ≠ id ∧ ¬ StrayNeighbour g id i) ∧
      (∀ j, j ∈ ekeep ↔ ∃ e, g.edges[j]? = some e ∧ e.src ≠ id ∧ e.dst ≠ id)) ↔
    ¬ ((∃ j e, g.edges[j]? = some e ∧ e.src = id ∧ e.dst = id ∧ OnlyEdgeAt g j id) ∧
      ∃ f ∈ g.edges, id < f.src ∨ id < f.dst) := by
  by_cases hc : ∃ j e, g.edges[j]? = some e ∧ e.src = id ∧ e.dst = id ∧ OnlyEdgeAt g j id
  · obtain ⟨j, e, he, h1, h2, h3⟩ := hc
    obtain ⟨a, b⟩ := loop_right_iff hwf hn he h1 h2 h3 h
    have hmem : ∀ i, (i < g.nodes.length ∧ i ≠ id ∧ ¬ StrayNeighbour g id i) ↔ i < g.nodes.length ∧ i ≠ id := by
      intro i
      refine and_congr_right fun _ => ⟨fun x => x.1, fun x => ⟨x, ?_⟩⟩
      rintro ⟨_, k, f, hf, hfe, _⟩
      have := h3.2 k f hf (by tauto)
      subst this
      rw [he] at hf; cases hf
      rcases hfe with ⟨y, z⟩ | ⟨y, z⟩ <;> omega
    have hedge : ∀ k, (∃ f, g.edges[k]? = some f ∧ f.src ≠ id ∧ f.dst ≠ id) ↔ k < g.edges.length ∧ k ≠ j := by
      intro k
      constructor
      · rintro ⟨f, hf, x, y⟩
        refine ⟨(List.getElem?_eq_some_iff.1 hf).1, ?_⟩
        rintro rfl
        rw [he] at hf; cases hf
        exact x h1
      · rintro ⟨x, y⟩
        refine ⟨g.edges[k], List.getElem?_eq_getElem x, ?_, ?_⟩
        · exact fun z => y (h3.2 k _ (List.getElem?_eq_getElem x) (Or.inl z))
        · exact fun z => y (h3.2 k _ (List.getElem?_eq_getElem x) (Or.inr z))
    simp only [hmem, hedge]
    constructor
    · rintro ⟨keep, ekeep, c1, c2, _, c4, c5⟩ ⟨_, f, hf, hf2⟩
      have := a ⟨keep, ekeep, c1, c2, c4, c5⟩ f hf
      omega
    · intro x
      exact b (by
        intro f hf
        by_contra hcc
        exact x ⟨⟨j, e, he, h1, h2, h3⟩, f, hf, by omega⟩)
  · constructor
    · rintro _ ⟨x, _⟩; exact hc x
    · intro _
      exact C64_remove_node p g hwf id hid (fun j e x y z w => hc ⟨j, e, x, y, z, w⟩) g' r h

/-- a loop at the last node is removed correctly, and the loop of `C62_counterexample` is not -/
example : (⟨[⟨⟨(0 : ℚ), 0⟩, (), ""⟩, ⟨⟨1, 0⟩, (), ""⟩, ⟨⟨2, 0⟩, (), ""⟩], [⟨2, 2, (), ""⟩, ⟨0, 1, (), ""⟩]⟩ :
      PlanarGraph ℚ Unit Unit).removeEdge .debug 0 =
    .ok (⟨[⟨⟨(0 : ℚ), 0⟩, (), ""⟩, ⟨⟨1, 0⟩, (), ""⟩], [⟨0, 1, (), ""⟩]⟩, ([2], [0, 1])) := rfl

end Kami.Graph
