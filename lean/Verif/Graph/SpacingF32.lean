import Verif.Geom.SpacingF32
import Verif.Geom.UtilsF32
import Verif.Graph.Exact
/-!
# C125: `add_node` on a grid that is not finer than the tolerance
-/

set_option autoImplicit false

namespace Kami.Graph

open Kami Kami.F32 Kami.Utils Kami.DistF32 Kami.UtilThm
open scoped Kami
open PlanarGraph

variable {T U : Type}

theorem nearest_eq (g : PlanarGraph F32 T U) (x : Vec2 F32) :
    nearest g x = closestLoop (g.nodes.map fun n => distance x n.position) 0 0 Scalar.maxValue := by
  unfold nearest findClosestTo gatherNodePositions
  simp [List.map_map, Function.comp_def]

theorem grid_not_lt {a b : Vec2 F32} (ha : OnGrid 23 a) (hb : OnGrid 23 b) (hne : rpos a ≠ rpos b) :
    (distance a b <. Scalar.epsilon) = false ∧ ∀ d : F32, IsFin d → toReal d = 0 → (d <. distance a b) = true := by
  rcases grid_distance (by norm_num) ha hb hne with h | ⟨hf, h⟩
  · rw [h]
    refine ⟨by decide +kernel, ?_⟩
    rintro d ⟨s, n, rfl⟩ _
    rfl
  · refine ⟨?_, fun d fd hd => ?_⟩
    · rw [← Bool.not_eq_true]
      intro hc
      have := (lt_fin hf eps_isFin).1 hc
      rw [toReal_eps] at this
      linarith
    · refine (lt_fin fd hf).2 ?_
      rw [hd]
      exact lt_of_lt_of_le (by positivity) h

/-- **C125, `add_node`.** With all coordinates on the grid of step `2^-23` (whole numbers, for instance, and all numbers of size 1 and more)
`add_node` reuses a node exactly if one is at the given position, and then the first such node; otherwise it appends one. -/
theorem C125_add_node (g : PlanarGraph F32 T U) (hwf : WF g) (pos : Vec2 F32) (data : T) (hg : ∀ n ∈ g.nodes, OnGrid 23 n.position)
    (hp : OnGrid 23 pos) :
    (∀ k n, g.getVertex k = some n → rpos n.position = rpos pos →
      (∀ j m, j < k → g.getVertex j = some m → rpos m.position ≠ rpos pos) → g.addNode pos data = .ok (g, (k, []))) ∧
    ((∀ n ∈ g.nodes, rpos n.position ≠ rpos pos) →
      ∃ g' changed, g.addNode pos data = .ok (g', (g.nodes.length, changed)) ∧ g'.nodes = g.nodes ++ [⟨pos, data, ""⟩]) := by
  have hfin : ∀ {v : Vec2 F32}, OnGrid 23 v → IsFin v.x ∧ IsFin v.y := fun h => ⟨h.1.1, h.2.1⟩
  rw [addNode_ok g hwf]
  have hs := closestLoop_spec (g.nodes.map fun n => distance pos n.position) 0 0 (Scalar.maxValue : F32)
  rw [← nearest_eq] at hs
  constructor
  · intro k n hk hpos hfirst
    have hn : n ∈ g.nodes := List.mem_of_getElem? hk
    obtain ⟨f0, e0⟩ := same_distance (hfin hp) (hfin (hg n hn)) hpos.symm
    have hmax : (distance pos n.position <. (Scalar.maxValue : F32)) = true := by
      refine (lt_fin f0 ⟨false, ⟨0x7f7fffff, by decide⟩, by decide +kernel⟩).2 ?_
      rw [e0, show (Scalar.maxValue : F32) = fin false ⟨0x7f7fffff, by decide⟩ by decide +kernel, toReal_fin, if_neg Bool.false_ne_true,
        one_mul]
      have : (mag 0 : ℝ) < mag 0x7f7fffff := magR_lt (by norm_num)
      have h0 : (mag 0 : ℝ) = 0 := by rw [mag_zero]; simp
      exact div_pos (by rw [← h0]; exact this) (by positivity)
    have hmem : distance pos n.position ∈ g.nodes.map fun n => distance pos n.position := List.mem_map_of_mem hn
    rcases hs with ⟨_, h2⟩ | ⟨k', d, h1, h2, h3, h4, h5⟩
    · rw [h2 _ hmem] at hmax
      cases hmax
    · rw [List.getElem?_map, Option.map_eq_some_iff] at h2
      obtain ⟨n', hn', rfl⟩ := h2
      have hsame : rpos n'.position = rpos pos := by
        by_contra hne
        have := (grid_not_lt hp (hg n' (List.mem_of_getElem? hn')) (Ne.symm hne)).2 _ f0 e0
        rw [h4 _ hmem] at this
        cases this
      obtain ⟨f1, e1⟩ := same_distance (hfin hp) (hfin (hg n' (List.mem_of_getElem? hn'))) hsame.symm
      have hkk : k' = k := by
        rcases lt_trichotomy k' k with h | h | h
        · exact absurd hsame (hfirst k' n' h hn')
        · exact h
        · have hk2 : (g.nodes.map fun n => distance pos n.position)[k]? = some (distance pos n.position) := by
            rw [List.getElem?_map]
            rw [show g.nodes[k]? = some n from hk]
            rfl
          have := h5 k _ h hk2
          rw [show (distance pos n.position ≤. distance pos n'.position) = true from (le_fin f0 f1).2 (by rw [e0, e1])] at this
          cases this
      have heps : ((nearest g pos).2 <. Scalar.epsilon) = true := by
        rw [h1]
        refine (lt_fin f1 eps_isFin).2 ?_
        rw [e1, toReal_eps]
        positivity
      unfold addNodeG
      rw [if_pos heps, if_pos heps, h1, hkk, Nat.zero_add]
  · intro hno
    have heps : ((nearest g pos).2 <. Scalar.epsilon) = false := by
      rcases hs with ⟨h1, _⟩ | ⟨k', d, h1, h2, _⟩
      · rw [h1]
        decide +kernel
      · rw [h1]
        rw [List.getElem?_map, Option.map_eq_some_iff] at h2
        obtain ⟨n', hn', rfl⟩ := h2
        have hm := List.mem_of_getElem? hn'
        exact (grid_not_lt hp (hg n' hm) (Ne.symm (hno n' hm))).1
    unfold addNodeG
    rw [heps]
    exact ⟨_, _, rfl, rfl⟩

/-- points one step apart at 1 are different nodes, and (1, -0) is the node at (1, 0) -/
example : (do
    let (g, (i, _)) ← (PlanarGraph.new : PlanarGraph F32 Nat Unit).addNode ⟨F32.lit 1, F32.lit 0⟩ 0
    let (g, (j, _)) ← g.addNode ⟨F32.lit (2 ^ 23 + 1) (2 ^ 23), F32.lit 0⟩ 1
    let (g, (k, _)) ← g.addNode ⟨F32.lit 1, F32.neg (F32.lit 0)⟩ 2
    return (i, j, k, g.nodes.length)) = Except.ok (ε := Panic) (0, 1, 0, 2) ∧
    OnGrid 23 ⟨F32.lit 1, F32.lit 0⟩ ∧ OnGrid 23 ⟨F32.lit (2 ^ 23 + 1) (2 ^ 23), F32.lit 0⟩ ∧
    OnGrid 23 ⟨F32.lit 1, F32.neg (F32.lit 0)⟩ := by
  exact ⟨by decide +kernel, ⟨multiple_of (by norm_num) (by decide +kernel), multiple_of (by norm_num) (by decide +kernel)⟩,
    ⟨multiple_of (by norm_num) (by decide +kernel), multiple_of (by norm_num) (by decide +kernel)⟩,
    ⟨multiple_of (by norm_num) (by decide +kernel), multiple_of (by norm_num) (by decide +kernel)⟩⟩

/-- **C125 is sharp, `add_node`.** On the grid of step `2^-24` two points at different positions become one node. -/
theorem C125_sharp_node : (do
    let (g, _) ← (PlanarGraph.new : PlanarGraph F32 Nat Unit).addNode ⟨F32.lit 1, F32.lit 0⟩ 0
    let (g, (i, _)) ← g.addNode ⟨F32.lit (2 ^ 24 - 1) (2 ^ 24), F32.lit 0⟩ 1
    return (i, g.nodes.length)) = Except.ok (ε := Panic) (0, 1) := by
  decide +kernel

end Kami.Graph
