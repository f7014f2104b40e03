import Verif.Graph.Histories
/-!
# C148: clearing a drawing

`remove_edge` (src/graph/planar_graph.rs:369-409) panics for the last slot in many cases (C61) and `remove_node`
(src/graph/planar_graph.rs:412-491) for nodes without edges (C63).  Erasing always the edge in slot 0 is safe and leaves just the nodes
that no call of these two methods can remove.
-/

set_option autoImplicit false

namespace Kami.Graph

open Kami
open scoped Kami
open PlanarGraph

variable {F T U : Type}

/-- node `i` of `g` has no edge -/
def Bare (g : PlanarGraph F T U) (i : Nat) : Prop := ∀ e ∈ g.edges, e.src ≠ i ∧ e.dst ≠ i

/-- removing the edge in slot 0 of a graph without self-loops -/
theorem first_edge (p : Profile) {g : PlanarGraph F T U} (hwf : WF g) (hl : LoopFree g) (hne : 0 < g.edges.length) :
    ∃ g1 r keep ekeep, g.removeEdge p 0 = .ok (g1, r) ∧ Renumbered g g1 keep ekeep ∧ keep.Pairwise (· < ·) ∧
      (∀ i, i ∈ keep ↔ i < g.nodes.length ∧ ¬ ((g.edges[0].src = i ∨ g.edges[0].dst = i) ∧ OnlyEdgeAt g 0 i)) ∧
      (∀ j, j ∈ ekeep ↔ j < g.edges.length ∧ j ≠ 0) := by
  have h0 : g.edges[0]? = some g.edges[0] := List.getElem?_eq_getElem hne
  have hloop : g.edges[0].src ≠ g.edges[0].dst := hl _ (List.getElem_mem hne)
  cases hr : g.removeEdge p 0 with
  | error e =>
    obtain ⟨e, he, h⟩ := (C61_panics_iff_partial p g hwf 0).1 ⟨e, hr⟩
    rw [h0] at he
    cases he
    exfalso
    rcases h with ⟨h1, h2, _⟩ | ⟨_, h1, h2, _⟩
    · refine h2 ⟨⟨_, h0, Or.inl rfl⟩, ?_⟩
      intro j e hj _
      have := (List.getElem?_eq_some_iff.1 hj).1
      omega
    · exact hloop (h1.trans h2.symm)
  | ok res =>
    obtain ⟨g1, r⟩ := res
    obtain ⟨keep, ekeep, h1, h2, h3, h4⟩ := C62_remove_edge_partial p g hwf 0 _ h0 (fun hc => absurd hc hloop) g1 r hr
    exact ⟨g1, r, keep, ekeep, rfl, h1, h2, h3, h4⟩

/-- the nodes without edges stay the same -/
theorem first_bare {g g1 : PlanarGraph F T U} (hne : 0 < g.edges.length) {keep ekeep : List Nat}
    (hr : Renumbered g g1 keep ekeep)
    (hk : ∀ i, i ∈ keep ↔ i < g.nodes.length ∧ ¬ ((g.edges[0].src = i ∨ g.edges[0].dst = i) ∧ OnlyEdgeAt g 0 i))
    (he : ∀ j, j ∈ ekeep ↔ j < g.edges.length ∧ j ≠ 0) {k i : Nat} (hki : keep[k]? = some i) : Bare g1 k ↔ Bare g i := by
  have h0 : g.edges[0]? = some g.edges[0] := List.getElem?_eq_getElem hne
  constructor
  · intro hb e heg
    by_contra hc
    have hei : e.src = i ∨ e.dst = i := by
      by_contra hc'; exact hc ⟨fun h => hc' (Or.inl h), fun h => hc' (Or.inr h)⟩
    have key : ∀ (j : Nat) (f : Edge U), g.edges[j]? = some f → (f.src = i ∨ f.dst = i) → j = 0 := by
      intro j f hj hfi
      by_contra hj0
      obtain ⟨m, hm⟩ := List.mem_iff_getElem?.1 ((he j).2 ⟨(List.getElem?_eq_some_iff.1 hj).1, hj0⟩)
      obtain ⟨e0, e1, i1, i2, _, _, i5, i6⟩ := hr.edges m j hm
      rw [hj] at i1
      cases i1
      have inj : ∀ a b : Nat, keep[a]? = some b → b = i → a = k := by
        rintro a b h1 rfl
        obtain ⟨u1, u2⟩ := List.getElem?_eq_some_iff.1 h1
        obtain ⟨v1, v2⟩ := List.getElem?_eq_some_iff.1 hki
        exact (List.Nodup.getElem_inj_iff hr.nodup).1 (u2.trans v2.symm)
      obtain ⟨b1, b2⟩ := hb e1 (List.mem_of_getElem? i2)
      rcases hfi with h | h
      · exact b1 (inj _ _ i5 h)
      · exact b2 (inj _ _ i6 h)
    obtain ⟨j, hj⟩ := List.mem_iff_getElem?.1 heg
    have := key j e hj hei
    subst this
    have hee := hj
    rw [h0] at hee
    cases hee
    exact ((hk i).1 (List.mem_of_getElem? hki)).2 ⟨hei, ⟨_, h0, hei⟩, key⟩
  · intro hb e1 he1
    obtain ⟨m, hm⟩ := List.mem_iff_getElem?.1 he1
    have hlt := (List.getElem?_eq_some_iff.1 hm).1
    rw [hr.edge_count] at hlt
    obtain ⟨e0, e2, i1, i2, _, _, i5, i6⟩ := hr.edges m _ (List.getElem?_eq_getElem hlt)
    rw [hm] at i2
    cases i2
    obtain ⟨b1, b2⟩ := hb e0 (List.mem_of_getElem? i1)
    constructor
    · rintro rfl; rw [hki] at i5; exact b1 (Option.some.inj i5).symm
    · rintro rfl; rw [hki] at i6; exact b2 (Option.some.inj i6).symm

variable [Scalar F] [Inhabited T]

/-- **C148.** On a graph with valid indices and without self-loops, calling `remove_edge(0)` as often as there are edges never
panics, debug or release.  It leaves no edges, and of the nodes exactly those that had no edge, in the old order. -/
theorem C148_clear (p : Profile) (g : PlanarGraph F T U) (hwf : WF g) (hl : LoopFree g) :
    ∃ h, g.run p (List.replicate g.edgeCount (Op.removeEdge 0)) = .ok h ∧ h.edges = [] ∧
      ∃ keep : List Nat, keep.Pairwise (· < ·) ∧ (∀ i, i ∈ keep ↔ i < g.nodeCount ∧ ∀ e ∈ g.edges, e.src ≠ i ∧ e.dst ≠ i) ∧
        h.nodeCount = keep.length ∧ ∀ k i, keep[k]? = some i → h.getVertex k = g.getVertex i := by
  unfold edgeCount nodeCount
  generalize hn : g.edges.length = n
  induction n generalizing g with
  | zero =>
    have hnil : g.edges = [] := List.length_eq_zero_iff.1 hn
    refine ⟨g, rfl, hnil, List.range g.nodes.length, List.pairwise_lt_range, ?_, by simp, ?_⟩
    · intro i; simp [hnil]
    · intro k i hk
      obtain ⟨h1, h2⟩ := List.getElem?_eq_some_iff.1 hk
      simp only [List.getElem_range] at h2
      rw [h2]
  | succ n ih =>
    have hne : 0 < g.edges.length := by omega
    obtain ⟨g1, r, keep, ekeep, h1, hr, hinc, hk, he⟩ := first_edge p hwf hl hne
    have hlen : g1.edges.length = n := by
      rw [hr.edge_count]
      have hp : ekeep.Perm ((List.range g.edges.length).filter (· ≠ 0)) := by
        rw [List.perm_ext_iff_of_nodup hr.enodup (List.nodup_range.filter _)]
        intro j
        rw [he]
        simp
      have hq : (List.range g.edges.length).filter (· ≠ 0) = List.range' 1 n := by
        rw [hn, List.range_eq_range', List.range'_succ, List.filter_cons_of_neg (by simp), List.filter_eq_self]
        intro j hj
        have := List.mem_range'_1.1 hj
        simp only [ne_eq, decide_eq_true_eq]
        omega
      rw [hp.length_eq, hq, List.length_range']
    obtain ⟨h, i1, i2, kp, i3, i4, i5, i6⟩ := ih g1 hr.wf (hr.loopFree hl) hlen
    have hf : ∀ k ∈ kp, keep[k]? = some (keep.getD k 0) := by
      intro k hkp
      have := ((i4 k).1 hkp).1
      rw [hr.node_count] at this
      rw [List.getD_eq_getElem?_getD, List.getElem?_eq_getElem this]
      rfl
    refine ⟨h, ?_, i2, kp.map (keep.getD · 0), ?_, ?_, by rw [i5, List.length_map], ?_⟩
    · rw [List.replicate_succ]
      show (g.step p (Op.removeEdge 0) >>= fun x => run p x (List.replicate n (Op.removeEdge 0))) = _
      have hs : g.step p (Op.removeEdge 0) = .ok g1 := by
        show (g.removeEdge p 0 >>= fun x => pure x.1) = _
        rw [h1]; rfl
      rw [hs]
      exact i1
    · rw [List.pairwise_map]
      refine i3.imp_of_mem ?_
      intro a b ha hb hab
      obtain ⟨u1, u2⟩ := List.getElem?_eq_some_iff.1 (hf a ha)
      obtain ⟨v1, v2⟩ := List.getElem?_eq_some_iff.1 (hf b hb)
      rw [← u2, ← v2]
      exact List.pairwise_iff_getElem.1 hinc a b u1 v1 hab
    · intro i
      rw [List.mem_map]
      constructor
      · rintro ⟨k, hkp, rfl⟩
        exact ⟨(hr.nodes k _ (hf k hkp)).1, (first_bare hne hr hk he (hf k hkp)).1 ((i4 k).1 hkp).2⟩
      · rintro ⟨hi, hb⟩
        have hik : i ∈ keep := by
          refine (hk i).2 ⟨hi, ?_⟩
          rintro ⟨hc, _⟩
          obtain ⟨b1, b2⟩ := hb _ (List.getElem_mem hne)
          rcases hc with hc | hc
          · exact b1 hc
          · exact b2 hc
        obtain ⟨k, hkk⟩ := List.mem_iff_getElem?.1 hik
        have hkp : k ∈ kp := (i4 k).2 ⟨hr.node_count ▸ (List.getElem?_eq_some_iff.1 hkk).1, (first_bare hne hr hk he hkk).2 hb⟩
        refine ⟨k, hkp, ?_⟩
        have := hf k hkp
        rw [hkk] at this
        exact (Option.some.inj this).symm
    · intro k i hki
      rw [List.getElem?_map, Option.map_eq_some_iff] at hki
      obtain ⟨m, hm, rfl⟩ := hki
      rw [i6 k m hm]
      exact (hr.nodes m _ (hf m (List.mem_of_getElem? hm))).2

/-- **C148, what stays.** A node without edges survives every series of removals that does not panic, on graphs without self-loops. -/
theorem C148_bare_stays (p : Profile) (ops : List (Op F T U)) (hops : ∀ op ∈ ops, (∃ j, op = .removeEdge j) ∨ ∃ j, op = .removeNode j)
    (g h : PlanarGraph F T U) (hwf : WF g) (hl : LoopFree g) (hrun : g.run p ops = .ok h) (i : Nat) (a : Node F T)
    (ha : g.getVertex i = some a) (hb : ∀ e ∈ g.edges, e.src ≠ i ∧ e.dst ≠ i) : a ∈ h.nodes := by
  induction ops generalizing g i with
  | nil => cases hrun; exact List.mem_of_getElem? ha
  | cons op ops ih =>
    have hlt : i < g.nodes.length := (List.getElem?_eq_some_iff.1 ha).1
    have hrun : (g.step p op >>= fun x => run p x ops) = .ok h := hrun
    cases hs : g.step p op with
    | error e => rw [hs] at hrun; cases hrun
    | ok g1 =>
      rw [hs] at hrun
      have hrest : run p g1 ops = .ok h := hrun
      have main : g1 = g ∨ ∃ keep ekeep, Renumbered g g1 keep ekeep ∧ i ∈ keep := by
        rcases hops op (List.mem_cons_self ..) with ⟨j, rfl⟩ | ⟨j, rfl⟩
        · have hs : (g.removeEdge p j >>= fun x => pure x.1) = (.ok g1 : Res _) := hs
          cases hre : g.removeEdge p j with
          | error e => rw [hre] at hs; cases hs
          | ok res =>
            obtain ⟨g2, r⟩ := res
            rw [hre] at hs
            cases hs
            by_cases hj : j < g.edges.length
            · right
              obtain ⟨keep, ekeep, h1, _, h3, _⟩ := C62_remove_edge_partial p g hwf j _ (List.getElem?_eq_getElem hj)
                (fun hc => absurd hc (hl _ (List.getElem_mem hj))) g2 r hre
              refine ⟨keep, ekeep, h1, (h3 i).2 ⟨hlt, ?_⟩⟩
              rintro ⟨hc, _⟩
              obtain ⟨b1, b2⟩ := hb _ (List.getElem_mem hj)
              rcases hc with hc | hc
              · exact b1 hc
              · exact b2 hc
            · rw [removeEdge_none (by omega)] at hre; cases hre; exact Or.inl rfl
        · have hs : (g.removeNode p j >>= fun x => pure x.1) = (.ok g1 : Res _) := hs
          cases hre : g.removeNode p j with
          | error e => rw [hre] at hs; cases hs
          | ok res =>
            obtain ⟨g2, r⟩ := res
            rw [hre] at hs
            cases hs
            by_cases hj : j < g.nodes.length
            · right
              obtain ⟨keep, ekeep, h1, _, _, h3, _⟩ := C64_remove_node p g hwf j hj
                (fun m e h1 h2 h3 _ => hl e (List.mem_of_getElem? h1) (by rw [h2, h3])) g2 r hre
              refine ⟨keep, ekeep, h1, (h3 i).2 ⟨hlt, ?_, ?_⟩⟩
              · rintro rfl
                have := (C63_panics_iff_partial p g i).2 ⟨hlt, Or.inl hb⟩
                obtain ⟨e, he⟩ := this
                rw [hre] at he; cases he
              · rintro ⟨_, m, e, hm, hc, _⟩
                obtain ⟨b1, b2⟩ := hb e (List.mem_of_getElem? hm)
                rcases hc with hc | hc
                · exact b2 hc.2
                · exact b1 hc.1
            · rw [removeNode_none (by omega)] at hre; cases hre; exact Or.inl rfl
      rcases main with rfl | ⟨keep, ekeep, hr, hi⟩
      · exact ih (fun o ho => hops o (List.mem_cons_of_mem _ ho)) g1 hwf hl hrest i ha hb
      · obtain ⟨k, hk⟩ := List.mem_iff_getElem?.1 hi
        refine ih (fun o ho => hops o (List.mem_cons_of_mem _ ho)) g1 hr.wf (hr.loopFree hl) hrest k ?_ ?_
        · exact (hr.nodes k i hk).2.trans ha
        · intro e1 he1
          obtain ⟨m, hm⟩ := List.mem_iff_getElem?.1 he1
          have hlt1 := (List.getElem?_eq_some_iff.1 hm).1
          rw [hr.edge_count] at hlt1
          obtain ⟨e0, e2, i1, i2, _, _, i5, i6⟩ := hr.edges m _ (List.getElem?_eq_getElem hlt1)
          rw [hm] at i2
          cases i2
          obtain ⟨b1, b2⟩ := hb e0 (List.mem_of_getElem? i1)
          constructor
          · rintro rfl; rw [hk] at i5; exact b1 (Option.some.inj i5).symm
          · rintro rfl; rw [hk] at i6; exact b2 (Option.some.inj i6).symm

/-- a triangle and a node apart: three calls leave that node -/
example : (⟨[⟨⟨F32.lit 0, F32.lit 0⟩, (), ""⟩, ⟨⟨F32.lit 9, F32.lit 9⟩, (), ""⟩, ⟨⟨F32.lit 1, F32.lit 0⟩, (), ""⟩,
      ⟨⟨F32.lit 0, F32.lit 1⟩, (), ""⟩], [⟨0, 2, 10, ""⟩, ⟨2, 3, 11, ""⟩, ⟨3, 0, 12, ""⟩]⟩ : PlanarGraph F32 Unit Nat).run .debug
    (List.replicate 3 (Op.removeEdge 0)) = .ok ⟨[⟨⟨F32.lit 9, F32.lit 9⟩, (), ""⟩], []⟩ := rfl

omit [Scalar F] [Inhabited T] in
/-- **C148 needs the first slot**: in a triangle, erasing the edge in the last slot panics in both build profiles. -/
theorem C148_sharp_last (p : Profile) (a b c : Node F T) (x : U) :
    ∃ e, (⟨[a, b, c], [⟨0, 1, x, ""⟩, ⟨1, 2, x, ""⟩, ⟨2, 0, x, ""⟩]⟩ : PlanarGraph F T U).removeEdge p 2 = .error e :=
  ⟨.indexOutOfBounds, by cases p <;> rfl⟩

end Kami.Graph
