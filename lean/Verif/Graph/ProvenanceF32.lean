import Verif.Graph.Provenance
import Verif.Graph.WalksF32
/-!
# C113: the f32 drawing stays near the requests, in histories with removals
-/

set_option autoImplicit false

namespace Kami.Graph

open Kami Kami.F32 Kami.UtilThm Kami.Simple Kami.DistF32
open scoped Kami
open PlanarGraph

variable {T U : Type}

section
variable {F : Type} [Scalar F]

theorem Piece.ends {S : Vec2 F → Prop} {A B : Vec2 F} {m : Nat} {P Q : Vec2 F} (h : Piece S A B m P Q) :
    (S A ∧ S B) ∧ S P ∧ S Q := by
  induction h with
  | whole h1 h2 => exact ⟨⟨h1, h2⟩, h1, h2⟩
  | near m P Q X _ hX _ ih => exact ⟨ih.1, ih.2.1, hX⟩
  | far m P Q X _ hX _ ih => exact ⟨ih.1, ih.2.2, hX⟩

/-- the way from the start of the request over the two ends of a piece to its end is hardly longer than the request -/
theorem piece_detour {S good : Vec2 F → Prop} {pos : Vec2 F → ℝ × ℝ} {σ κ : ℝ} (hσ : 0 ≤ σ) (hκ : 0 ≤ κ)
    (htest : ∀ a b p, good a → good b → good p → Utils.isOnLineSegment a b p false = true →
      dst (pos a) (pos p) + dst (pos p) (pos b) ≤ (1 + σ) * dst (pos a) (pos b) + κ)
    (hS : ∀ X, S X → good X) {A B : Vec2 F} {m : Nat} {P Q : Vec2 F} (h : Piece S A B m P Q) :
    dst (pos A) (pos P) + dst (pos P) (pos Q) + dst (pos Q) (pos B) ≤ lenBound σ κ (dst (pos A) (pos B)) m ∨
    dst (pos A) (pos Q) + dst (pos Q) (pos P) + dst (pos P) (pos B) ≤ lenBound σ κ (dst (pos A) (pos B)) m := by
  induction h with
  | whole h1 h2 =>
    left
    have e : ∀ a : ℝ × ℝ, dst a a = 0 := fun a => by simp [dst]
    rw [e, e]
    simp [lenBound]
  | near m P Q X h hX ho ih =>
    have ht := htest P Q X (hS _ h.ends.2.1) (hS _ h.ends.2.2) (hS _ hX) ho
    have hL := dst_nonneg (pos A) (pos B)
    have n1 := dst_nonneg (pos A) (pos P)
    have n2 := dst_nonneg (pos Q) (pos B)
    have n3 := dst_nonneg (pos A) (pos Q)
    have n4 := dst_nonneg (pos P) (pos B)
    have m1 := mul_nonneg hσ n1
    have m2 := mul_nonneg hσ n2
    have m3 := mul_nonneg hσ n3
    have m4 := mul_nonneg hσ n4
    rcases ih with ih | ih
    · left
      have hs := lenBound_step hσ hκ hL (k := 1) one_ne_zero ih
      have t := dst_triangle (pos X) (pos Q) (pos B)
      push_cast at hs
      linarith
    · right
      have hs := lenBound_step hσ hκ hL (k := 1) one_ne_zero ih
      have t := dst_triangle (pos A) (pos Q) (pos X)
      rw [dst_comm (pos Q) (pos P)] at hs
      rw [dst_comm (pos X) (pos P)]
      rw [dst_comm (pos Q) (pos X)] at t
      push_cast at hs
      linarith
  | far m P Q X h hX ho ih =>
    have ht := htest P Q X (hS _ h.ends.2.1) (hS _ h.ends.2.2) (hS _ hX) ho
    have hL := dst_nonneg (pos A) (pos B)
    have n1 := dst_nonneg (pos A) (pos P)
    have n2 := dst_nonneg (pos Q) (pos B)
    have n3 := dst_nonneg (pos A) (pos Q)
    have n4 := dst_nonneg (pos P) (pos B)
    have m1 := mul_nonneg hσ n1
    have m2 := mul_nonneg hσ n2
    have m3 := mul_nonneg hσ n3
    have m4 := mul_nonneg hσ n4
    rcases ih with ih | ih
    · right
      have hs := lenBound_step hσ hκ hL (k := 1) one_ne_zero ih
      have t := dst_triangle (pos A) (pos P) (pos X)
      push_cast at hs
      linarith
    · left
      have hs := lenBound_step hσ hκ hL (k := 1) one_ne_zero ih
      have t := dst_triangle (pos X) (pos P) (pos B)
      rw [dst_comm (pos Q) (pos P)] at hs
      rw [dst_comm (pos Q) (pos X)]
      rw [dst_comm (pos X) (pos P)] at t
      push_cast at hs
      linarith

end

/-- a point of the way is between its ends -/
theorem detour_point {a b p q z : ℝ × ℝ} {L : ℝ} (hz : OnSegR p q z)
    (h : dst a p + dst p q + dst q b ≤ L ∨ dst a q + dst q p + dst p b ≤ L) : dst a z + dst z b ≤ L := by
  have hb := dst_between hz
  rcases h with h | h
  · have t1 := dst_triangle a p z
    have t2 := dst_triangle z q b
    linarith
  · have t1 := dst_triangle a q z
    have t2 := dst_triangle z p b
    rw [dst_comm q z] at t1
    rw [dst_comm z p] at t2
    rw [dst_comm q p] at h
    linarith

/-! ### coordinates -/

section
variable [Inhabited T]

/-- the call is a call of `add_edge` -/
def IsAddEdge : Op F32 T U → Bool
  | .addEdge _ _ _ => true
  | _ => false

/-- bound for the coordinates after `n` calls of `add_edge`, if all points asked for have coordinates up to `B` -/
noncomputable def coordBound (B : ℝ) (n : ℕ) : ℝ := (1 + 1 / 2 ^ 21) ^ n * (B + n * (1 / 2 ^ 149))

theorem coordBound_eq (B : ℝ) (n : ℕ) : coordBound B n = lenBound (1 / 2 ^ 21) (1 / 2 ^ 149) B n := rfl

/-- a node with finite coordinates of size at most `C` -/
def Within (C : ℝ) (v : Vec2 F32) : Prop :=
  (IsFin v.x ∧ |(toRat v.x : ℝ)| ≤ C) ∧ (IsFin v.y ∧ |(toRat v.y : ℝ)| ≤ C)

theorem Within.small {C : ℝ} {v : Vec2 F32} (h : Within C v) (hC : C ≤ 2 ^ 60) : SmallPt v := by
  have : ∀ x : F32, IsFin x → |(toRat x : ℝ)| ≤ C → SmallNum x := by
    intro x h1 h2
    refine ⟨h1, ?_⟩
    exact_mod_cast h2.trans hC
  exact ⟨this _ h.1.1 h.1.2, this _ h.2.1 h.2.2⟩

theorem Within.mono {C C' : ℝ} {v : Vec2 F32} (h : Within C v) (hC : C ≤ C') : Within C' v :=
  ⟨⟨h.1.1, h.1.2.trans hC⟩, ⟨h.2.1, h.2.2.trans hC⟩⟩

/-- one crossing -/
theorem within_cross {C : ℝ} (hC : C ≤ 2 ^ 60) {P Q A B q : Vec2 F32} (hP : Within C P) (hQ : Within C Q)
    (h : Utils.calculateLineSegmentIntersection P Q A B = some q) : Within ((1 + 1 / 2 ^ 21) * C + 1 / 2 ^ 149) q := by
  obtain ⟨f1, f2, y, ⟨t, t0, t1, rfl⟩, e1, e2⟩ := C92_near_first (hP.small hC) (hQ.small hC) ⟨hP.1.2, hP.2.2, hQ.1.2, hQ.2.2⟩ h
  have conv : ∀ a b : ℝ, |a| ≤ C → |b| ≤ C → |a + t * (b - a)| ≤ C := by
    intro a b ha hb
    rw [abs_le] at *
    constructor <;> nlinarith
  have hx := conv _ _ hP.1.2 hQ.1.2
  have hy := conv _ _ hP.2.2 hQ.2.2
  refine ⟨⟨f1, ?_⟩, ⟨f2, ?_⟩⟩
  · have := abs_sub_abs_le_abs_sub (rpos q).1 (toRat P.x + t * (toRat Q.x - toRat P.x) : ℝ)
    simp only [rpos, toRat_toReal] at *
    linarith
  · have := abs_sub_abs_le_abs_sub (rpos q).2 (toRat P.y + t * (toRat Q.y - toRat P.y) : ℝ)
    simp only [rpos, toRat_toReal] at *
    linarith

theorem within_step {p : Profile} {g g' : PlanarGraph F32 T U} {op : Op F32 T U} {C : ℝ} (hC : C ≤ 2 ^ 60) (h0 : 0 ≤ C)
    (hwf : WF g) (hl : LoopFree g) (h : ∀ a ∈ g.nodes, Within C a.position)
    (hop : ∀ x t, op = .addNode x t → Within C x) (hs : g.step p op = .ok g') :
    ∀ a ∈ g'.nodes, Within (if IsAddEdge op then (1 + 1 / 2 ^ 21) * C + 1 / 2 ^ 149 else C) a.position := by
  have up : C ≤ (1 + 1 / 2 ^ 21) * C + 1 / 2 ^ 149 := by
    have : 0 ≤ 1 / 2 ^ 21 * C := by positivity
    have : (0 : ℝ) ≤ 1 / 2 ^ 149 := by positivity
    linarith
  rcases step_ok hs with ⟨x, t, r, rfl, h1⟩ | ⟨s, d, x, r, rfl, h1⟩ | ⟨i, r, rfl, h1⟩ | ⟨i, r, rfl, h1⟩
  · simp only [IsAddEdge, Bool.false_eq_true, if_false]
    intro a ha
    rw [addNode_ok g hwf] at h1
    simp only [Except.ok.injEq, Prod.mk.injEq] at h1
    rw [← h1.1] at ha
    unfold addNodeG at ha
    split at ha
    · exact h a ha
    · simp only [splitAt, pushNode, List.mem_append, List.mem_singleton] at ha
      rcases ha with ha | rfl
      · exact h a ha
      · exact hop x t rfl
  · simp only [IsAddEdge, if_true]
    rcases addEdge_ok g hwf s d x with ⟨hb, h'⟩ | ⟨_, hv, h'⟩ | ⟨hb, hs', hd', g1, cn, ce, hi, h'⟩
    · rw [h1] at h'
      cases h'
      exact fun a ha => (h a ha).mono up
    · rw [h1] at h'
      cases h'
      exact fun a ha => (h a ha).mono up
    · have ho := C58_order_partial g hwf s d x _ _ (List.getElem?_eq_getElem hs') (List.getElem?_eq_getElem hd') g1 cn _ h'
      rw [h1] at h'
      simp only [Except.ok.injEq, Prod.mk.injEq] at h'
      obtain ⟨rfl, _⟩ := h'
      intro a ha
      rw [← List.take_append_drop g.nodes.length g'.nodes, List.mem_append] at ha
      rcases ha with ha | ha
      · rw [ho.1] at ha
        exact (h a ha).mono up
      · obtain ⟨e, he, hx⟩ := List.mem_filterMap.1 (ho.2.subset (List.mem_map_of_mem ha))
        unfold crossOf at hx
        simp only [Option.bind_eq_some_iff] at hx
        obtain ⟨c, hc, c', hc', hq⟩ := hx
        exact within_cross hC (h c (List.mem_of_getElem? hc)) (h c' (List.mem_of_getElem? hc')) hq
  · simp only [IsAddEdge, Bool.false_eq_true, if_false]
    rcases removeEdge_renumbered hwf hl h1 with rfl | ⟨keep, ekeep, hr⟩
    · exact h
    · exact fun a ha => h a (renumbered_mem hr ha)
  · simp only [IsAddEdge, Bool.false_eq_true, if_false]
    rcases removeNode_renumbered hwf hl h1 with rfl | ⟨keep, ekeep, hr⟩
    · exact h
    · exact fun a ha => h a (renumbered_mem hr ha)

theorem coordBound_mono {B : ℝ} (hB : 0 ≤ B) {m n : ℕ} (h : m ≤ n) : coordBound B m ≤ coordBound B n :=
  lenBound_mono (by norm_num) (by norm_num) hB h

theorem coordBound_succ {B : ℝ} (hB : 0 ≤ B) (n : ℕ) :
    (1 + 1 / 2 ^ 21) * coordBound B n + 1 / 2 ^ 149 ≤ coordBound B (n + 1) := by
  have := lenBound_step (σ := 1 / 2 ^ 21) (κ := 1 / 2 ^ 149) (by norm_num) (by norm_num) hB (k := 1) one_ne_zero
    (le_refl (lenBound (1 / 2 ^ 21) (1 / 2 ^ 149) B n))
  rw [Nat.cast_one, one_mul] at this
  exact this

theorem within_run (p : Profile) {B : ℝ} (hB : 0 ≤ B) (ops : List (Op F32 T U)) : ∀ {g g' : PlanarGraph F32 T U} (n : ℕ),
    coordBound B (n + (ops.filter IsAddEdge).length) ≤ 2 ^ 60 → WF g → LoopFree g →
    (∀ a ∈ g.nodes, Within (coordBound B n) a.position) → (∀ op ∈ ops, NoLoopRequest op) →
    (∀ x t, Op.addNode x t ∈ ops → Within B x) → g.run p ops = .ok g' →
    ∀ a ∈ g'.nodes, Within (coordBound B (n + (ops.filter IsAddEdge).length)) a.position := by
  induction ops with
  | nil => intro g g' n _ _ _ h _ _ hr; cases hr; simpa using h
  | cons op ops ih =>
    intro g g' n hC hwf hl h hops hadd hr
    simp only [PlanarGraph.run] at hr
    cases hs : g.step p op with
    | error e => rw [hs] at hr; cases hr
    | ok g1 =>
      rw [hs] at hr
      have hb0 : B ≤ coordBound B n := le_lenBound (by norm_num) (by norm_num) hB n
      have h1 := within_step (p := p) ((coordBound_mono hB (by omega)).trans hC) (hB.trans hb0) hwf hl h
        (fun x t e => (hadd x t (e ▸ List.mem_cons_self ..)).mono hb0) hs
      obtain ⟨w1, l1⟩ : WF g1 ∧ LoopFree g1 := by
        have hP := hops op (List.mem_cons_self ..)
        rcases step_ok hs with ⟨_, _, _, _, h⟩ | ⟨_, _, _, _, rfl, h⟩ | ⟨_, _, _, h⟩ | ⟨_, _, _, h⟩
        · exact ⟨addNode_wf hwf h, addNode_loopFree hwf hl h⟩
        · exact ⟨addEdge_wf hwf h, addEdge_loopFree hwf hl hP h⟩
        · rcases removeEdge_renumbered hwf hl h with rfl | ⟨_, _, hr⟩
          · exact ⟨hwf, hl⟩
          · exact ⟨hr.wf, hr.loopFree hl⟩
        · rcases removeNode_renumbered hwf hl h with rfl | ⟨_, _, hr⟩
          · exact ⟨hwf, hl⟩
          · exact ⟨hr.wf, hr.loopFree hl⟩
      have hops' := fun o (ho : o ∈ ops) => hops o (List.mem_cons_of_mem _ ho)
      have hadd' := fun x t (ho : Op.addNode x t ∈ ops) => hadd x t (List.mem_cons_of_mem _ ho)
      rw [List.filter_cons] at hC ⊢
      cases ho : IsAddEdge op with
      | true =>
        rw [ho] at h1 hC
        simp only [if_true, List.length_cons] at h1 hC ⊢
        have := ih (n + 1) (by rw [Nat.add_right_comm]; exact hC) w1 l1
          (fun a ha => (h1 a ha).mono (coordBound_succ hB n)) hops' hadd' hr
        rw [Nat.add_right_comm] at this
        exact this
      | false =>
        rw [ho] at h1 hC
        simp only [Bool.false_eq_true, if_false] at h1 hC ⊢
        exact ih n hC w1 l1 h1 hops' hadd' hr

/-- **C113, coordinates.** Take any sequence of calls in `f32` with `n` calls of `add_edge`, none for a self-loop, whose calls of
`add_node` ask for finite coordinates of size at most `B`. All nodes that exist at any time, the crossings included, have finite
coordinates of size at most `(1 + 2^-21)^n (B + n 2^-149)`, as long as this is at most `2^60`. -/
theorem C113_coordinates (p : Profile) (ops : List (Op F32 T U)) (hops : ∀ op ∈ ops, ∀ s d x, op = Op.addEdge s d x → s ≠ d)
    {B : ℝ} (hB : 0 ≤ B)
    (hadd : ∀ x t, Op.addNode x t ∈ ops → (IsFin x.x ∧ |(toRat x.x : ℝ)| ≤ B) ∧ (IsFin x.y ∧ |(toRat x.y : ℝ)| ≤ B))
    (hC : coordBound B (ops.filter IsAddEdge).length ≤ 2 ^ 60) (k : ℕ) (g : PlanarGraph F32 T U)
    (h : PlanarGraph.run p PlanarGraph.new (ops.take k) = .ok g) :
    ∀ a ∈ g.nodes,
      (IsFin a.position.x ∧ |(toRat a.position.x : ℝ)| ≤ coordBound B (ops.filter IsAddEdge).length) ∧
      (IsFin a.position.y ∧ |(toRat a.position.y : ℝ)| ≤ coordBound B (ops.filter IsAddEdge).length) := by
  have hle : 0 + ((ops.take k).filter IsAddEdge).length ≤ (ops.filter IsAddEdge).length := by
    rw [Nat.zero_add]
    exact ((List.take_sublist k ops).filter _).length_le
  have hm := coordBound_mono hB hle
  intro a ha
  refine Within.mono ?_ hm
  refine within_run p hB (ops.take k) 0 (hm.trans hC) wf_new (by intro e he; cases he) (by intro e he; cases he) ?_
    (fun x t ho => hadd x t (List.mem_of_mem_take ho)) h a ha
  intro op ho
  cases op with
  | addEdge s d x => exact hops _ (List.mem_of_mem_take ho) s d x rfl
  | _ => trivial

/-- **C113, moderate sizes.** With up to `2^20` calls of `add_edge` and coordinates up to `B ≤ 2^58` the condition holds, and
all coordinates stay below `2 B + 2^-128`. -/
theorem C113_few {B : ℝ} (hB : 0 ≤ B) (hB' : B ≤ 2 ^ 58) {n : ℕ} (hn : n ≤ 2 ^ 20) :
    coordBound B n ≤ 2 * B + 1 / 2 ^ 128 ∧ coordBound B n ≤ 2 ^ 60 := by
  have hn' : (n : ℝ) ≤ 2 ^ 20 := by exact_mod_cast hn
  have h1 : (1 + 1 / 2 ^ 21 : ℝ) ^ n ≤ 2 := by
    have : (1 + 1 / 2 ^ 21 : ℝ) ^ n ≤ (1 + 1 / 2 ^ 21 : ℝ) ^ (2 ^ 20) := pow_le_pow_right₀ (by norm_num) hn
    refine this.trans ?_
    have h2 : (1 + 1 / 2 ^ 21 : ℝ) ^ (2 ^ 20) ≤ Real.exp (1 / 2 ^ 21) ^ (2 ^ 20) := by
      refine pow_le_pow_left₀ (by norm_num) ?_ _
      rw [add_comm]
      exact Real.add_one_le_exp _
    refine h2.trans ?_
    rw [← Real.exp_nat_mul]
    have e : ((2 ^ 20 : ℕ) : ℝ) * (1 / 2 ^ 21) = 1 / 2 := by norm_num
    rw [e]
    have h3 : Real.exp (1 / 2) * Real.exp (-(1 / 2)) = 1 := by rw [← Real.exp_add]; norm_num
    have h4 := Real.add_one_le_exp (-(1 / 2))
    have h5 := Real.exp_pos (1 / 2)
    nlinarith
  have h2 : (n : ℝ) * (1 / 2 ^ 149) ≤ 1 / 2 ^ 129 := by
    calc (n : ℝ) * (1 / 2 ^ 149) ≤ 2 ^ 20 * (1 / 2 ^ 149) := mul_le_mul_of_nonneg_right hn' (by positivity)
      _ = 1 / 2 ^ 129 := by norm_num
  have h3 : coordBound B n ≤ 2 * (B + 1 / 2 ^ 129) := by
    unfold coordBound
    exact mul_le_mul h1 (by linarith) (by positivity) (by norm_num)
  have h4 : (2 : ℝ) * (1 / 2 ^ 129) = 1 / 2 ^ 128 := by norm_num
  have h5 : (1 : ℝ) / 2 ^ 128 ≤ 1 := by norm_num
  constructor
  · linarith
  · norm_num at hB'
    norm_num
    linarith

/-- bound for the way over a point of an edge between the ends of a request, at distance `L` of each other -/
noncomputable def wayBound (L : ℝ) (m : ℕ) : ℝ := (1 + 1 / 2 ^ 18) ^ m * (L + m * (1 / 2 ^ 21))

theorem near_request {S : Vec2 F32 → Prop} (hS : ∀ X, S X → SmallPt X) {A B P Q : Vec2 F32} {m k : ℕ} (h : Piece S A B m P Q)
    (hm : 2 * m ≤ k) {z : ℝ × ℝ} (hz : OnSegR (rpos P) (rpos Q) z) :
    dst (rpos A) z + dst z (rpos B) ≤ wayBound (dst (rpos A) (rpos B)) (k / 2) := by
  have := piece_detour (pos := rpos) (σ := 1 / 2 ^ 18) (κ := 1 / 2 ^ 21) (by norm_num) (by norm_num)
    (fun _ _ _ ha hb hp => (C93_on_segment ha hb hp false).1) hS h
  refine (detour_point hz this).trans ?_
  exact lenBound_mono (by norm_num) (by norm_num) (dst_nonneg _ _) (by omega)

/-- **C113, edges.** Take such a sequence of calls in `f32`, removals included. For every edge of the graph it leads to there is
an accepted request with its data, such that every point of the drawn edge is so close to the requested segment that the way
over it between the ends of the segment is at most `(1 + 2^-18)^m (L + m 2^-21)` long, where `L` is the true length of the
segment and `m` half the number of edge indices reported so far. -/
theorem C113_edges (p : Profile) (ops : List (Op F32 T U)) (hops : ∀ op ∈ ops, ∀ s d x, op = Op.addEdge s d x → s ≠ d)
    {B : ℝ} (hB : 0 ≤ B)
    (hadd : ∀ x t, Op.addNode x t ∈ ops → (IsFin x.x ∧ |(toRat x.x : ℝ)| ≤ B) ∧ (IsFin x.y ∧ |(toRat x.y : ℝ)| ≤ B))
    (hC : coordBound B (ops.filter IsAddEdge).length ≤ 2 ^ 60) (g : PlanarGraph F32 T U)
    (h : PlanarGraph.run p PlanarGraph.new ops = .ok g) :
    ∀ e ∈ g.edges, ∃ r ∈ asked p PlanarGraph.new ops, e.data = r.2.2 ∧
      ∀ z, OnSegR (trueAt g e.src) (trueAt g e.dst) z →
        let L := dst (rpos r.1) (rpos r.2.1)
        let S := wayBound L (reported p PlanarGraph.new ops / 2)
        dst (rpos r.1) z + dst z (rpos r.2.1) ≤ S ∧ ∃ y, OnSegR (rpos r.1) (rpos r.2.1) y ∧ dst z y ^ 2 ≤ S ^ 2 - L ^ 2 := by
  intro e he
  have hS : ∀ X, Ever p ops X → SmallPt X := by
    rintro X ⟨k, g1, h1, a, ha, rfl⟩
    exact Within.small (C113_coordinates p ops hops hB hadd hC k g1 h1 a ha) hC
  obtain ⟨_, a, b, A, B, m, h1, h2, h3, h4, h5⟩ := (C112_provenance p ops g hops h).1 e he
  refine ⟨_, h3, rfl, ?_⟩
  intro z hz
  have ea : trueAt g e.src = rpos a.position := by unfold trueAt locN; rw [h1]
  have eb : trueAt g e.dst = rpos b.position := by unfold trueAt locN; rw [h2]
  rw [ea, eb] at hz
  have hn := near_request hS h5 h4 hz
  obtain ⟨y, y1, y2⟩ := near_segment hn
  exact ⟨hn, y, y1, by linarith⟩

/-- **C113, nodes.** Every node of that graph has position and data of some call of `add_node`, or it has default data and is
almost as close to some accepted request as the edges are. -/
theorem C113_nodes (p : Profile) (ops : List (Op F32 T U)) (hops : ∀ op ∈ ops, ∀ s d x, op = Op.addEdge s d x → s ≠ d)
    {B : ℝ} (hB : 0 ≤ B)
    (hadd : ∀ x t, Op.addNode x t ∈ ops → (IsFin x.x ∧ |(toRat x.x : ℝ)| ≤ B) ∧ (IsFin x.y ∧ |(toRat x.y : ℝ)| ≤ B))
    (hC : coordBound B (ops.filter IsAddEdge).length ≤ 2 ^ 60) (g : PlanarGraph F32 T U)
    (h : PlanarGraph.run p PlanarGraph.new ops = .ok g) :
    ∀ a ∈ g.nodes, Op.addNode a.position a.data ∈ ops ∨ (a.data = default ∧
      ∃ r ∈ asked p PlanarGraph.new ops,
        dst (rpos r.1) (rpos a.position) + dst (rpos a.position) (rpos r.2.1) ≤
          wayBound (dst (rpos r.1) (rpos r.2.1)) (reported p PlanarGraph.new ops / 2) +
            (coordBound B (ops.filter IsAddEdge).length / 2 ^ 19 + 1 / 2 ^ 147)) := by
  intro a ha
  have hW : ∀ X, Ever p ops X → Within (coordBound B (ops.filter IsAddEdge).length) X := by
    rintro X ⟨k, g1, h1, a, ha, rfl⟩
    exact C113_coordinates p ops hops hB hadd hC k g1 h1 a ha
  obtain ⟨_, h1 | ⟨h1, A, A2, x, A', B', x', m, P, Q, h2, h3, h4, h5, h6⟩⟩ := (C112_provenance p ops g hops h).2 a ha
  · exact Or.inl h1
  refine Or.inr ⟨h1, _, h2, ?_⟩
  have hP := hW _ h5.ends.2.1
  have hQ := hW _ h5.ends.2.2
  obtain ⟨_, _, y, hy, hx1, hx2⟩ := C92_near_first (hP.small hC) (hQ.small hC) ⟨hP.1.2, hP.2.2, hQ.1.2, hQ.2.2⟩ h6
  have hn := near_request (fun X hX => (hW X hX).small hC) h5 h4 hy
  generalize coordBound B (ops.filter IsAddEdge).length = C at *
  have hd : dst (rpos a.position) y ≤ C / 2 ^ 20 + 1 / 2 ^ 148 := by
    have : dst (rpos a.position) y ≤ |(rpos a.position).1 - y.1| + |(rpos a.position).2 - y.2| := by
      unfold dst
      rw [Real.sqrt_le_left (by positivity)]
      have e1 := sq_abs ((rpos a.position).1 - y.1)
      have e2 := sq_abs ((rpos a.position).2 - y.2)
      nlinarith [abs_nonneg ((rpos a.position).1 - y.1), abs_nonneg ((rpos a.position).2 - y.2),
        mul_nonneg (abs_nonneg ((rpos a.position).1 - y.1)) (abs_nonneg ((rpos a.position).2 - y.2))]
    refine this.trans ((add_le_add hx1 hx2).trans (le_of_eq ?_))
    rw [show (2 : ℝ) ^ 21 = 2 * 2 ^ 20 by norm_num, show (2 : ℝ) ^ 149 = 2 * 2 ^ 148 by norm_num]
    field_simp
    norm_num
    ring
  have t1 := dst_triangle (rpos A) y (rpos a.position)
  have t2 := dst_triangle (rpos a.position) y (rpos A2)
  rw [dst_comm y (rpos a.position)] at t1
  have e2 : C / 2 ^ 20 + 1 / 2 ^ 148 + (C / 2 ^ 20 + 1 / 2 ^ 148) = C / 2 ^ 19 + 1 / 2 ^ 147 := by
    rw [show (2 : ℝ) ^ 20 = 2 * 2 ^ 19 by norm_num, show (2 : ℝ) ^ 148 = 2 * 2 ^ 147 by norm_num]
    field_simp
    norm_num
    ring
  simp only
  linarith

/-! ### exact arithmetic -/

/-- **C113, exact arithmetic.** If all nodes that exist at any time have finite positions, the way is at most `m ε` longer than
the segment. -/
theorem C113_exact (p : Profile) (ops : List (Op XReal T U)) (hops : ∀ op ∈ ops, ∀ s d x, op = Op.addEdge s d x → s ≠ d)
    (g : PlanarGraph XReal T U) (h : PlanarGraph.run p PlanarGraph.new ops = .ok g)
    (hfin : ∀ k g', PlanarGraph.run p PlanarGraph.new (ops.take k) = .ok g' → ∀ a ∈ g'.nodes, ∃ x, a.position = pt x) :
    ∀ e ∈ g.edges, ∃ A B, (pt A, pt B, e.data) ∈ asked p PlanarGraph.new ops ∧
      ∀ z, OnSegR (place g e.src) (place g e.dst) z →
        dst A z + dst z B ≤ dst A B + (reported p PlanarGraph.new ops / 2 : ℕ) * XReal.epsR := by
  intro e he
  have hS : ∀ X, Ever p ops X → ∃ x, X = pt x := by
    rintro X ⟨k, g1, h1, a, ha, rfl⟩
    exact hfin k g1 h1 a ha
  obtain ⟨_, a, b, A, B, m, h1, h2, h3, h4, h5⟩ := (C112_provenance p ops g hops h).1 e he
  obtain ⟨A, rfl⟩ := hS _ h5.ends.1.1
  obtain ⟨B, rfl⟩ := hS _ h5.ends.1.2
  refine ⟨A, B, h3, ?_⟩
  intro z hz
  have := piece_detour (good := fun v => ∃ x, v = pt x) (pos := fun v : Vec2 XReal => (realOf v.x, realOf v.y)) (σ := 0)
    (κ := XReal.epsR) (le_refl _) XReal.epsR_pos.le (by
      rintro _ _ _ ⟨a, rfl⟩ ⟨b, rfl⟩ ⟨q, rfl⟩ h
      have := (C44_on_segment_partial a b q false).2.2 h
      simp only [pt, realOf, add_zero, one_mul]
      exact this.le) hS h5
  have ea : place g e.src = (realOf a.position.x, realOf a.position.y) := by unfold place; rw [h1]
  have eb : place g e.dst = (realOf b.position.x, realOf b.position.y) := by unfold place; rw [h2]
  rw [ea, eb] at hz
  have hn := detour_point hz this
  simp only [lenBound, add_zero, one_pow, one_mul, pt, realOf] at hn
  refine hn.trans ?_
  have hm : (m : ℝ) ≤ (reported p (PlanarGraph.new : PlanarGraph XReal T U) ops / 2 : ℕ) := by
    exact_mod_cast (show m ≤ reported p (PlanarGraph.new : PlanarGraph XReal T U) ops / 2 by omega)
  have := mul_le_mul_of_nonneg_right hm XReal.epsR_pos.le
  linarith

end

/-! ### instances -/

/-- two crossing edges, then one piece is removed together with its loose end, and the way is asked for once more -/
def cutOps : List (Op F32 Unit Nat) :=
  [.addNode (at32 0 0) (), .addNode (at32 4 4) (), .addNode (at32 0 4) (), .addNode (at32 4 0) (), .addEdge 0 1 7, .addEdge 2 3 8,
   .removeEdge 0, .addNode (at32 1 1) (), .addEdge 4 3 9]

/-- the hypotheses hold: nine calls, three accepted requests, six indices reported; the graph has lost node 0 -/
example : (∀ op ∈ cutOps, ∀ s d x, op = Op.addEdge s d x → s ≠ d) ∧
    (∀ x t, Op.addNode x t ∈ cutOps → (IsFin x.x ∧ |(toRat x.x : ℝ)| ≤ 4) ∧ (IsFin x.y ∧ |(toRat x.y : ℝ)| ≤ 4)) ∧
    coordBound 4 (cutOps.filter IsAddEdge).length ≤ 2 ^ 60 ∧
    PlanarGraph.run .release PlanarGraph.new cutOps = .ok ⟨[⟨at32 4 4, (), ""⟩, ⟨at32 0 4, (), ""⟩, ⟨at32 4 0, (), ""⟩,
      ⟨at32 2 2, (), ""⟩, ⟨at32 1 1, (), ""⟩], [⟨1, 3, 8, ""⟩, ⟨0, 3, 7, ""⟩, ⟨2, 3, 8, ""⟩, ⟨4, 3, 9, ""⟩]⟩ ∧
    asked .release PlanarGraph.new cutOps = [(at32 0 0, at32 4 4, 7), (at32 0 4, at32 4 0, 8), (at32 1 1, at32 2 2, 9)] ∧
    reported .release PlanarGraph.new cutOps = 6 := by
  refine ⟨?_, ?_, (C113_few (by norm_num) (by norm_num) (by decide)).2, by decide +kernel, by decide +kernel, by decide +kernel⟩
  · intro op ho s d x he
    subst he
    simp only [cutOps, List.mem_cons, List.not_mem_nil, or_false, reduceCtorEq, Op.addEdge.injEq, false_or] at ho
    omega
  · intro x t ho
    simp only [cutOps, List.mem_cons, List.not_mem_nil, or_false, reduceCtorEq, Op.addNode.injEq, false_or, and_true] at ho
    have hw : ∀ i j : Int, SmallNum (F32.lit i) → SmallNum (F32.lit j) → |toRat (F32.lit i)| ≤ 4 → |toRat (F32.lit j)| ≤ 4 →
        Within 4 (at32 i j) := fun i j h1 h2 h3 h4 => ⟨⟨h1.1, by exact_mod_cast h3⟩, ⟨h2.1, by exact_mod_cast h4⟩⟩
    rcases ho with rfl | rfl | rfl | rfl | rfl <;>
      exact hw _ _ (small_of (by decide +kernel) (by decide +kernel)) (small_of (by decide +kernel) (by decide +kernel))
        (by decide +kernel) (by decide +kernel)

/-- the second edge of that graph, from node 0 to node 3, is the far half of the first request (C112) -/
example : Piece (fun X => X ∈ [at32 0 0, at32 4 4, at32 2 2]) (at32 0 0) (at32 4 4) 1 (at32 4 4) (at32 2 2) :=
  .far 0 _ _ _ (.whole (by simp) (by simp)) (by simp) (by decide +kernel)

end Kami.Graph
