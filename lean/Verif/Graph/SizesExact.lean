import Verif.Graph.Sizes
import Verif.Graph.Count
/-!
# C145: the whole drawing has quadratic size

In exact arithmetic and general position `m` requested segments give at most `m (m - 1) / 2` crossings.
-/

set_option autoImplicit false

namespace Kami.Graph

open Kami
open scoped Kami
open PlanarGraph UtilThm

variable {T U : Type}

/-- the segment between two points of a segment belongs to it -/
theorem onSeg_segment {a b y z : ℝ × ℝ} (hy : OnSegR a b y) (hz : OnSegR a b z) (t : ℝ) (h0 : 0 ≤ t) (h1 : t ≤ 1) :
    OnSegR a b (y.1 + t * (z.1 - y.1), y.2 + t * (z.2 - y.2)) := by
  obtain ⟨r, r0, r1, rfl⟩ := hy
  obtain ⟨s, s0, s1, rfl⟩ := hz
  refine ⟨r + t * (s - r), by nlinarith, by nlinarith, ?_⟩
  ext
  · simp only; ring
  · simp only; ring

/-- two requested segments cross in at most one point -/
theorem cross_once {P : List (ℝ × ℝ)} {S : List (Stroke U)} (hfin : {y | Meet P S y}.Finite) {s s' : Stroke U} (hs : s ∈ S)
    (hs' : s' ∈ S) (hne : s ≠ s') {y z : ℝ × ℝ} (y1 : s.On y) (y2 : s'.On y) (z1 : s.On z) (z2 : s'.On z) : y = z := by
  by_contra hyz
  let f : ℝ → ℝ × ℝ := fun t => (y.1 + t * (z.1 - y.1), y.2 + t * (z.2 - y.2))
  have hinj : Function.Injective f := by
    intro t u h
    have h1 : y.1 + t * (z.1 - y.1) = y.1 + u * (z.1 - y.1) := congrArg Prod.fst h
    have h2 : y.2 + t * (z.2 - y.2) = y.2 + u * (z.2 - y.2) := congrArg Prod.snd h
    by_contra htu
    have e1 : z.1 = y.1 := by
      have : (t - u) * (z.1 - y.1) = 0 := by linear_combination h1
      rcases mul_eq_zero.1 this with h | h
      · exact absurd (sub_eq_zero.1 h) htu
      · linarith
    have e2 : z.2 = y.2 := by
      have : (t - u) * (z.2 - y.2) = 0 := by linear_combination h2
      rcases mul_eq_zero.1 this with h | h
      · exact absurd (sub_eq_zero.1 h) htu
      · linarith
    exact hyz (Prod.ext e1.symm e2.symm)
  have hsub : f '' Set.Icc 0 1 ⊆ {y | Meet P S y} ∪ {y | y ∈ P} := by
    rintro _ ⟨t, ⟨t0, t1⟩, rfl⟩
    by_cases hp : f t ∈ P
    · exact Or.inr hp
    · exact Or.inl ⟨hp, s, hs, s', hs', hne, onSeg_segment y1 z1 t t0 t1, onSeg_segment y2 z2 t t0 t1⟩
  have hf : (f '' Set.Icc 0 1).Finite := (hfin.union P.finite_toSet).subset hsub
  exact (Set.Icc_infinite (by norm_num : (0 : ℝ) < 1)) (hf.of_finite_image hinj.injOn)

/-- there are at most as many crossings as pairs of segments -/
theorem meet_card {P : List (ℝ × ℝ)} {S : List (Stroke U)} (hfin : {y | Meet P S y}.Finite) :
    {y | Meet P S y}.ncard ≤ S.length.choose 2 := by
  classical
  have hw : ∀ y, Meet P S y → ∃ i j : ℕ, i < j ∧ ∃ s s', S[i]? = some s ∧ S[j]? = some s' ∧ s ≠ s' ∧ s.On y ∧ s'.On y := by
    rintro y ⟨_, s, hs, s', hs', hne, o1, o2⟩
    obtain ⟨i, hi⟩ := List.mem_iff_getElem?.1 hs
    obtain ⟨j, hj⟩ := List.mem_iff_getElem?.1 hs'
    rcases Nat.lt_trichotomy i j with h | h | h
    · exact ⟨i, j, h, s, s', hi, hj, hne, o1, o2⟩
    · subst h
      rw [hi] at hj; exact absurd (Option.some.inj hj) hne
    · exact ⟨j, i, h, s', s, hj, hi, hne.symm, o2, o1⟩
  choose! i j hij hq using hw
  have hc : ((Finset.range S.length).powersetCard 2).card = S.length.choose 2 := by
    rw [Finset.card_powersetCard, Finset.card_range]
  rw [← hc, ← Set.ncard_coe_finset]
  refine Set.ncard_le_ncard_of_injOn (fun y => ({i y, j y} : Finset ℕ)) ?_ ?_ (Finset.finite_toSet _)
  · intro y hy
    obtain ⟨s, s', hi, hj, _⟩ := hq y hy
    have h1 := (List.getElem?_eq_some_iff.1 hi).1
    have h2 := (List.getElem?_eq_some_iff.1 hj).1
    rw [Finset.mem_coe, Finset.mem_powersetCard]
    refine ⟨?_, Finset.card_pair (hij y hy).ne⟩
    intro k hk
    rw [Finset.mem_insert, Finset.mem_singleton] at hk
    rw [Finset.mem_range]
    rcases hk with rfl | rfl <;> assumption
  · intro y hy z hz h
    have hy' : Meet P S y := hy
    have hz' : Meet P S z := hz
    have h : ({i y, j y} : Finset ℕ) = {i z, j z} := h
    have a1 : i y ∈ ({i z, j z} : Finset ℕ) := h ▸ Finset.mem_insert_self _ _
    have a2 : j y ∈ ({i z, j z} : Finset ℕ) := h ▸ Finset.mem_insert_of_mem (Finset.mem_singleton_self _)
    have a3 : i z ∈ ({i y, j y} : Finset ℕ) := h ▸ Finset.mem_insert_self _ _
    rw [Finset.mem_insert, Finset.mem_singleton] at a1 a2 a3
    have b1 := hij y hy'
    have b2 := hij z hz'
    have ei : i y = i z := by omega
    have ej : j y = j z := by omega
    obtain ⟨s, s', hi, hj, hne, o1, o2⟩ := hq y hy'
    obtain ⟨t, t', ki, kj, _, q1, q2⟩ := hq z hz'
    rw [← ei, hi] at ki
    rw [← ej, hj] at kj
    cases ki
    cases kj
    exact cross_once hfin (List.mem_of_getElem? hi) (List.mem_of_getElem? hj) hne o1 o2 q1 q2

/-- **C145, whole drawings.** In exact arithmetic, `n` requested points and `m` requested segments in general position give a graph
of at most `n + m (m - 1) / 2` nodes and at most `m ^ 2` edges. -/
theorem C145_quadratic [Inhabited T] (rs : List (Req T U)) (hv : Valid 0 rs) (hA : Apart (points rs) (strokes [] rs))
    (g : PlanarGraph XReal T U) (ids : List ℕ) (h : client PlanarGraph.new [] rs = .ok (g, ids)) :
    g.nodeCount ≤ (points rs).length + (strokes [] rs).length * ((strokes [] rs).length - 1) / 2 ∧
    g.edgeCount ≤ (strokes [] rs).length ^ 2 := by
  obtain ⟨hf, h1, h2⟩ := C104_counts rs hv hA g ids h
  have hm := meet_card hf
  have hc := Nat.choose_two_right (strokes [] rs).length
  rw [hc] at hm
  refine ⟨by omega, ?_⟩
  have he : (strokes [] rs).length + 2 * ((strokes [] rs).length * ((strokes [] rs).length - 1) / 2) = (strokes [] rs).length ^ 2 := by
    rw [Nat.two_mul_div_two_of_even (Nat.even_mul_pred_self _)]
    cases (strokes [] rs).length with
    | zero => rfl
    | succ k => rw [Nat.add_sub_cancel]; ring
  omega

/-- both bounds are reached by two crossing segments: 4 points, 5 nodes, 4 edges -/
example : (points crossReq).length = 4 ∧ (strokes [] crossReq).length = 2 ∧
    ∃ g ids, client PlanarGraph.new [] crossReq = .ok (g, ids) ∧
      g.nodeCount = (points crossReq).length + (strokes [] crossReq).length * ((strokes [] crossReq).length - 1) / 2 ∧
      g.edgeCount = (strokes [] crossReq).length ^ 2 := by
  have e1 : (points crossReq).length = 4 := by simp [crossReq, points, wanted]
  have e2 : (strokes [] crossReq).length = 2 := by simp [crossReq, strokes]
  refine ⟨e1, e2, ?_⟩
  obtain ⟨g, ids, h, _⟩ := C102_arrangement crossReq (by simp [crossReq, Valid]) cross_apart
  obtain ⟨_, h1, h2⟩ := C104_counts crossReq (by simp [crossReq, Valid]) cross_apart g ids h
  rw [cross_meet, Set.ncard_singleton] at h1 h2
  refine ⟨g, ids, h, ?_, ?_⟩
  · rw [h1, e1, e2]
  · rw [h2, e2]; rfl

end Kami.Graph
