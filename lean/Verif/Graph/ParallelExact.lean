import Verif.Graph.ExactCases
import Verif.Graph.ReportedAdd
import Verif.Graph.Histories
/-!
# When `add_edge` creates parallel edges

`add_edge` (src/graph/planar_graph.rs:204-239) appends the edge and then splits edges at one node after the other.  Parallel
edges arise if and only if at some of these splittings the node lies on two edges with a common end, or on an edge one of whose
ends is joined to the node already.
-/

set_option autoImplicit false

namespace Kami.Graph

open Kami
open scoped Kami
open PlanarGraph

variable {F T U : Type} [Scalar F]

/-- node `w` passes the on-segment test of the edge `e` -/
def Through (g : PlanarGraph F T U) (w : Nat) (e : Edge U) : Prop :=
  ∃ a b c, g.getVertex e.src = some a ∧ g.getVertex e.dst = some b ∧ g.getVertex w = some c ∧
    Utils.isOnLineSegment a.position b.position c.position false = true

/-- node `w` lies on an edge that has the end `u`, and a second edge joins `u` and `w` or has the end `u` and the node `w` on it -/
def Clash (g : PlanarGraph F T U) (w : Nat) : Prop :=
  ∃ (k l : Nat) (e f : Edge U) (u : Nat), g.edges[k]? = some e ∧ g.edges[l]? = some f ∧ k ≠ l ∧ Through g w e ∧
    (e.src = u ∨ e.dst = u) ∧
    ((Through g w f ∧ (f.src = u ∨ f.dst = u)) ∨ (f.src = u ∧ f.dst = w) ∨ (f.src = w ∧ f.dst = u))

/-- `g'` arises from `g` by splitting edges at one node after the other; each of these nodes is there already or is appended for
the purpose.  The list has the graph before every splitting (with the node) and the node. -/
inductive Splittings : PlanarGraph F T U → List (PlanarGraph F T U × Nat) → PlanarGraph F T U → Prop
  | done (g : PlanarGraph F T U) : Splittings g [] g
  | split (g h : PlanarGraph F T U) (w : Nat) (h' : PlanarGraph F T U) (r : List Nat) (rest : List (PlanarGraph F T U × Nat))
      (g' : PlanarGraph F T U) (hh : h = g ∨ ∃ n, h = ⟨g.nodes ++ [n], g.edges⟩) (hs : h.splitEdgesAtNode w = .ok (h', r))
      (hr : Splittings h' rest g') : Splittings g ((h, w) :: rest) g'

theorem through_iff (g : PlanarGraph F T U) (w : Nat) (e : Edge U) : Through g w e ↔ onTest g.nodes w e = true := by
  unfold Through onTest getVertex
  constructor
  · rintro ⟨a, b, c, h1, h2, h3, h4⟩
    rw [h1, h2, h3]; exact h4
  · intro h
    cases h1 : g.nodes[e.src]? with
    | none => rw [h1] at h; cases h
    | some a =>
      cases h2 : g.nodes[e.dst]? with
      | none => rw [h1, h2] at h; cases h
      | some b =>
        cases h3 : g.nodes[w]? with
        | none => rw [h1, h2, h3] at h; cases h
        | some c => rw [h1, h2, h3] at h; exact ⟨a, b, c, rfl, rfl, rfl, h⟩

/-- a split edge leaves an edge from each of its ends to the node -/
theorem half_slot {g : PlanarGraph F T U} {w k u : Nat} {e : Edge U} (he : g.edges[k]? = some e)
    (ho : onTest g.nodes w e = true) (hu : e.src = u ∨ e.dst = u) :
    ∃ K e', (splitAt g w).edges[K]? = some e' ∧ e'.src = u ∧ e'.dst = w ∧
      (K = k ∨ ∃ m, K = g.edges.length + m ∧ (onSlots g w)[m]? = some k) := by
  rcases hu with rfl | rfl
  · refine ⟨k, nearHalf w e, ?_, rfl, rfl, Or.inl rfl⟩
    rw [splitAt_get_old he, if_pos ho]
  · obtain ⟨m, hm, h⟩ := farHalf_slot he ho
    exact ⟨_, farHalf w e, h, rfl, rfl, Or.inr ⟨m, rfl, hm⟩⟩

/-- the slots of the halves of different edges are different -/
theorem half_ne {g : PlanarGraph F T U} {w k l K L : Nat} (hkl : k ≠ l) (hk : k < g.edges.length) (hl : l < g.edges.length)
    (h : K = k ∨ ∃ m, K = g.edges.length + m ∧ (onSlots g w)[m]? = some k)
    (h' : L = l ∨ ∃ m, L = g.edges.length + m ∧ (onSlots g w)[m]? = some l) : K ≠ L := by
  rcases h with rfl | ⟨m, rfl, hm⟩ <;> rcases h' with rfl | ⟨m', rfl, hm'⟩
  · exact hkl
  · omega
  · omega
  · intro hc
    have : m = m' := by omega
    subst this
    rw [hm] at hm'
    exact hkl (Option.some.inj hm')

section
variable [LawfulScalar F]

/-- the test does not depend on the direction of the edge -/
theorem onTest_joins (hadd : ∀ a b : F, a + b = b + a) {nodes : List (Node F T)} {w : Nat} {e f : Edge U}
    (hj : Joins f e.src e.dst) : onTest nodes w f = onTest nodes w e := by
  rcases hj with ⟨h1, h2⟩ | ⟨h1, h2⟩
  · unfold onTest; rw [h1, h2]
  · unfold onTest
    rw [h1, h2]
    cases nodes[e.src]? with
    | none => cases nodes[e.dst]? <;> rfl
    | some a =>
      cases nodes[e.dst]? with
      | none => rfl
      | some b =>
        cases nodes[w]? with
        | none => rfl
        | some c =>
          simp only
          unfold Utils.isOnLineSegment
          simp only
          rw [LawfulScalar.dist_comm b.position a.position, LawfulScalar.dist_comm b.position c.position,
            LawfulScalar.dist_comm c.position a.position, hadd (distance c.position b.position), Bool.and_right_comm]

/-- parallel edges stay parallel -/
theorem splitAt_parallel (hadd : ∀ a b : F, a + b = b + a) {g : PlanarGraph F T U} {w : Nat} (h : NoParallel (splitAt g w)) :
    NoParallel g := by
  intro k l e f he hf hkl hj
  have hk := (List.getElem?_eq_some_iff.1 he).1
  have hl := (List.getElem?_eq_some_iff.1 hf).1
  have hsame := onTest_joins (nodes := g.nodes) (w := w) hadd hj
  by_cases oe : onTest g.nodes w e = true
  · obtain ⟨K, e', h1, h2, h3, h4⟩ := half_slot he oe (Or.inl rfl)
    obtain ⟨L, f', h5, h6, h7, h8⟩ := half_slot (u := e.src) hf (hsame.trans oe) (by
      rcases hj with ⟨x, y⟩ | ⟨x, y⟩
      · exact Or.inl x
      · exact Or.inr y)
    exact h K L e' f' h1 h5 (half_ne hkl hk hl h4 h8) (Or.inl ⟨by rw [h6, h2], by rw [h7, h3]⟩)
  · have ne := splitAt_get_old (id := w) he
    have nf := splitAt_get_old (id := w) hf
    rw [if_neg oe] at ne
    rw [if_neg (by rw [hsame]; exact oe)] at nf
    exact h k l e f ne nf hkl hj

omit [LawfulScalar F] in
/-- one splitting -/
theorem splitAt_noParallel_iff {g : PlanarGraph F T U} (hl : LoopFree g) (hn : NoParallel g) (w : Nat) :
    NoParallel (splitAt g w) ↔ ¬ Clash g w := by
  constructor
  · rintro hp ⟨k, l, e, f, u, he, hf, hkl, hth, hu, hcase⟩
    have hk := (List.getElem?_eq_some_iff.1 he).1
    have hl := (List.getElem?_eq_some_iff.1 hf).1
    obtain ⟨K, e', h1, h2, h3, h4⟩ := half_slot he ((through_iff g w e).1 hth) hu
    by_cases of : onTest g.nodes w f = true
    · have hfu : f.src = u ∨ f.dst = u := by
        rcases hcase with ⟨_, x⟩ | ⟨x, _⟩ | ⟨_, x⟩
        · exact x
        · exact Or.inl x
        · exact Or.inr x
      obtain ⟨L, f', h5, h6, h7, h8⟩ := half_slot hf of hfu
      exact hp K L e' f' h1 h5 (half_ne hkl hk hl h4 h8) (Or.inl ⟨by rw [h6, h2], by rw [h7, h3]⟩)
    · have nf := splitAt_get_old (id := w) hf
      rw [if_neg of] at nf
      refine hp K l e' f h1 nf (half_ne hkl hk hl h4 (Or.inl rfl)) ?_
      rw [h2, h3]
      rcases hcase with ⟨x, _⟩ | x | x
      · exact absurd ((through_iff g w f).1 x) of
      · exact Or.inl x
      · exact Or.inr x
  · intro hno K L e' f' hK hL hne hj
    obtain ⟨k, e, he, hcase⟩ := splitAt_slot hK
    obtain ⟨l, f, hf, hcase'⟩ := splitAt_slot hL
    have le := hl e (List.mem_of_getElem? he)
    by_cases hkl : k = l
    · subst hkl
      rw [he] at hf; cases hf
      rcases hcase with ⟨o, rfl, rfl⟩ | ⟨o, rfl, rfl⟩ | ⟨o, rfl, m, rfl, hm⟩ <;>
        rcases hcase' with ⟨o', rfl, rfl⟩ | ⟨o', rfl, rfl⟩ | ⟨o', rfl, m', rfl, hm'⟩
      · exact hne rfl
      · rw [o] at o'; cases o'
      · rw [o] at o'; cases o'
      · rw [o] at o'; cases o'
      · exact hne rfl
      · simp only [Joins, nearHalf, farHalf] at hj; omega
      · rw [o] at o'; cases o'
      · simp only [Joins, nearHalf, farHalf] at hj; omega
      · have := (List.getElem?_inj (List.getElem?_eq_some_iff.1 hm).1 (onSlots_nodup _ _)).1 (hm.trans hm'.symm)
        exact hne (by rw [this])
    · -- a half of `e` with the end `u`, and what is left of `f`
      have key : ∀ {k l : Nat} {e f f' : Edge U} {u : Nat}, k ≠ l → g.edges[k]? = some e → g.edges[l]? = some f →
          onTest g.nodes w e = true → (e.src = u ∨ e.dst = u) → Joins f' u w →
          ((onTest g.nodes w f = false ∧ f' = f) ∨
            (onTest g.nodes w f = true ∧ (f' = nearHalf w f ∨ f' = farHalf w f))) → False := by
        intro k l e f f' u hkl he hf oe hu hj hc
        refine hno ⟨k, l, e, f, u, he, hf, hkl, (through_iff g w e).2 oe, hu, ?_⟩
        rcases hc with ⟨_, rfl⟩ | ⟨of, rfl | rfl⟩
        · exact Or.inr hj
        · refine Or.inl ⟨(through_iff g w f).2 of, Or.inl ?_⟩
          simp only [Joins, nearHalf] at hj; omega
        · refine Or.inl ⟨(through_iff g w f).2 of, Or.inr ?_⟩
          simp only [Joins, farHalf] at hj; omega
      have hj' : Joins e' f'.src f'.dst := by
        rcases hj with ⟨x, y⟩ | ⟨x, y⟩
        · exact Or.inl ⟨x.symm, y.symm⟩
        · exact Or.inr ⟨y.symm, x.symm⟩
      have hf'' : (onTest g.nodes w f = false ∧ f' = f) ∨
          (onTest g.nodes w f = true ∧ (f' = nearHalf w f ∨ f' = farHalf w f)) := by
        rcases hcase' with ⟨o, x, _⟩ | ⟨o, x, _⟩ | ⟨o, x, _⟩
        · exact Or.inl ⟨o, x⟩
        · exact Or.inr ⟨o, Or.inl x⟩
        · exact Or.inr ⟨o, Or.inr x⟩
      rcases hcase with ⟨o, rfl, rfl⟩ | ⟨o, rfl, rfl⟩ | ⟨o, rfl, m, rfl, hm⟩
      · rcases hcase' with ⟨o', rfl, rfl⟩ | ⟨o', rfl, rfl⟩ | ⟨o', rfl, m', rfl, hm'⟩
        · exact hn _ _ _ _ he hf hne hj
        · exact key (Ne.symm hkl) hf he o' (Or.inl rfl) hj' (Or.inl ⟨o, rfl⟩)
        · exact key (Ne.symm hkl) hf he o' (Or.inr rfl) hj' (Or.inl ⟨o, rfl⟩)
      · exact key hkl he hf o (Or.inl rfl) hj hf''
      · exact key hkl he hf o (Or.inr rfl) hj hf''

omit [LawfulScalar F] in
theorem inserts_splittings [Inhabited T] {g g' : PlanarGraph F T U} {xs : List (Vec2 F)} {cn ce : List Nat}
    (h : Inserts g xs g' cn ce) : WF g → ∃ steps, Splittings g steps g' ∧ (∀ p ∈ steps, WF p.1) := by
  induction h with
  | nil g => exact fun _ => ⟨[], .done g, by simp⟩
  | cons g x xs g' cn ce _ ih =>
    intro hwf
    obtain ⟨steps, h1, h2⟩ := ih (hwf.insertPt x)
    obtain ⟨g1, id, h3, h4, _⟩ := insert_cases g x
    have hw1 : WF g1 := by
      rcases h3 with rfl | rfl
      · exact hwf
      · exact hwf.pushNode _ _
    refine ⟨(g1, id) :: steps, .split g g1 id (splitAt g1 id) _ steps g' ?_ (splitEdgesAtNode_ok g1 hw1 id) ?_, ?_⟩
    · rcases h3 with rfl | rfl
      · exact Or.inl rfl
      · exact Or.inr ⟨_, rfl⟩
    · rw [← h4]; exact h1
    · intro p hp
      rcases List.mem_cons.1 hp with rfl | hp
      · exact hw1
      · exact h2 p hp

theorem splittings_parallel (hadd : ∀ a b : F, a + b = b + a) {g g' : PlanarGraph F T U}
    {steps : List (PlanarGraph F T U × Nat)} (h : Splittings g steps g') : (∀ p ∈ steps, WF p.1) → LoopFree g →
    (NoParallel g → (NoParallel g' ↔ ∀ p ∈ steps, ¬ Clash p.1 p.2)) ∧ (NoParallel g' → NoParallel g) := by
  induction h with
  | done g => exact fun _ _ => ⟨fun hn => ⟨fun _ p hp => by (cases hp), fun _ => hn⟩, fun h => h⟩
  | split g h w h' r rest g' hh hs hr ih =>
    intro hwf hl
    have hwh : WF h := hwf _ (List.mem_cons_self ..)
    rw [splitEdgesAtNode_ok h hwh] at hs
    have hh' : h' = splitAt h w := (congrArg Prod.fst (Except.ok.inj hs)).symm
    subst hh'
    have hedges : h.edges = g.edges := by rcases hh with rfl | ⟨n, rfl⟩ <;> rfl
    have hlh : LoopFree h := by unfold LoopFree; rw [hedges]; exact hl
    have hnh : NoParallel h ↔ NoParallel g := by unfold NoParallel; rw [hedges]
    obtain ⟨i1, i2⟩ := ih (fun p hp => hwf p (List.mem_cons_of_mem _ hp)) (hlh.splitAt w)
    refine ⟨?_, fun hp => hnh.1 (splitAt_parallel hadd (i2 hp))⟩
    intro hn
    have hone := splitAt_noParallel_iff hlh (hnh.2 hn) w
    constructor
    · intro hp p hpm
      have h1 := i2 hp
      rcases List.mem_cons.1 hpm with rfl | hpm
      · exact hone.1 h1
      · exact (i1 h1).1 hp p hpm
    · intro hno
      exact (i1 (hone.2 (hno _ (List.mem_cons_self ..)))).2 fun p hp => hno p (List.mem_cons_of_mem _ hp)

/-- **C70, exactly (add_edge).** Take a graph without self-loops and parallel edges and an `add_edge` for two different nodes that
are not joined.  It appends the edge and splits at one node after the other (`Splittings`); the result has parallel edges if and
only if at some of these splittings the node lies on an edge with an end `u` and a second edge joins `u` to the node or has the
end `u` and the node on it.  Addition has to be commutative, as in `f32` and in exact arithmetic. -/
theorem C70_add_edge_exact (hadd : ∀ a b : F, a + b = b + a) [Inhabited T] (g : PlanarGraph F T U) (hwf : WF g)
    (hl : ∀ e ∈ g.edges, e.src ≠ e.dst) (hn : NoParallel g) (s d : Nat) (hs : s < g.nodes.length) (hd : d < g.nodes.length)
    (hsd : s ≠ d) (hno : ∀ e ∈ g.edges, ¬ ((e.src = s ∧ e.dst = d) ∨ (e.src = d ∧ e.dst = s))) (x : U) (g' : PlanarGraph F T U)
    (r : Except PlanarGraphError (List Nat × List Nat)) (h : g.addEdge s d x = .ok (g', r)) :
    ∃ steps, Splittings ⟨g.nodes, g.edges ++ [⟨s, d, x, ""⟩]⟩ steps g' ∧
      (NoParallel g' ↔ ∀ p ∈ steps, ¬ Clash p.1 p.2) := by
  rcases addEdge_ok g hwf s d x with ⟨hb, _⟩ | ⟨_, hv, _⟩ | ⟨_, _, _, g1, cn, ce, hi, h1⟩
  · obtain ⟨e, he, hj⟩ := (hasEdge_iff g s d).1 hb
    exact absurd hj (hno e he)
  · exact absurd ⟨hs, hd⟩ hv
  · rw [h1] at h
    simp only [Except.ok.injEq, Prod.mk.injEq] at h
    obtain ⟨rfl, _⟩ := h
    have hwf' : WF (pushEdge g s d x) := by
      intro e he
      rcases List.mem_append.1 he with he | he
      · exact hwf e he
      · rw [List.mem_singleton.1 he]; exact ⟨hs, hd⟩
    obtain ⟨steps, h2, h3⟩ := inserts_splittings hi hwf'
    refine ⟨steps, h2, (splittings_parallel hadd h2 h3 ?_).1 ?_⟩
    · intro e he
      rcases List.mem_append.1 he with he | he
      · exact hl e he
      · rw [List.mem_singleton.1 he]; exact hsd
    · intro k l e f he hf hkl hj
      simp only [pushEdge] at he hf
      have hlast : ∀ (m : Nat) (e : Edge U), (g.edges ++ [(⟨s, d, x, defaultLabel⟩ : Edge U)])[m]? = some e →
          g.edges[m]? = some e ∨ (m = g.edges.length ∧ e = ⟨s, d, x, defaultLabel⟩) := by
        intro m e hm
        by_cases hmm : m < g.edges.length
        · rw [List.getElem?_append_left hmm] at hm; exact Or.inl hm
        · right
          have := (List.getElem?_eq_some_iff.1 hm).1
          simp only [List.length_append, List.length_singleton] at this
          have hm' : m = g.edges.length := by omega
          subst hm'
          simp at hm
          exact ⟨rfl, hm.symm⟩
      rcases hlast k e he with he | ⟨rfl, rfl⟩ <;> rcases hlast l f hf with hf | ⟨rfl, rfl⟩
      · exact hn k l e f he hf hkl hj
      · refine hno e (List.mem_of_getElem? he) ?_
        simp only [Joins] at hj; omega
      · exact hno f (List.mem_of_getElem? hf) hj
      · exact hkl rfl

end

/-- the addition is commutative in both arithmetics -/
example : (∀ a b : F32, a + b = b + a) ∧ (∀ a b : XReal, a + b = b + a) := by
  refine ⟨F32.add_comm', ?_⟩
  intro a b
  change XReal.add a b = XReal.add b a
  cases a <;> cases b <;> simp only [XReal.add]
  · rename_i s t; by_cases h : s = t <;> simp [h, eq_comm]
  · rename_i s t; rw [_root_.add_comm]

/-- Both answers occur.  On (0,0)-(1,0)-(4,0) with (1,0)-(1,1), the edge from (0,0) to (2,0) is split at the node (1,0), which is
joined to (0,0) already; a plain crossing makes no parallel edges. -/
example :
    let n := fun x y => (⟨⟨F32.lit x, F32.lit y⟩, (), ""⟩ : Node F32 Unit)
    let g : PlanarGraph F32 Unit Unit := ⟨[n 0 0, n 4 0, n 2 0, n 1 0, n 1 1], [⟨0, 3, (), ""⟩, ⟨1, 3, (), ""⟩, ⟨3, 4, (), ""⟩]⟩
    let b : PlanarGraph F32 Unit Unit := ⟨[n 0 0, n 4 0, n 2 (-2), n 2 2], [⟨0, 1, (), ""⟩]⟩
    (g.addEdge 0 2 ()).map (fun r => (r.1.nodes.length, r.1.edges)) =
      .ok (5, [⟨0, 3, (), ""⟩, ⟨1, 3, (), ""⟩, ⟨3, 4, (), ""⟩, ⟨0, 3, (), ""⟩, ⟨2, 3, (), ""⟩]) ∧
    (b.addEdge 2 3 ()).map (fun r => (r.1.nodes.length, r.1.edges)) =
      .ok (5, [⟨0, 4, (), ""⟩, ⟨2, 4, (), ""⟩, ⟨1, 4, (), ""⟩, ⟨3, 4, (), ""⟩]) := by
  decide +kernel

end Kami.Graph
