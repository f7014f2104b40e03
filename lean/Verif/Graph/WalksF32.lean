import Verif.Graph.WalksLength
import Verif.Graph.F32
import Verif.Graph.PlanarHistory
/-!
# C111: the f32 drawing follows the requested segments
-/

set_option autoImplicit false

namespace Kami.Graph

open Kami Kami.F32 Kami.UtilThm Kami.Simple Kami.DistF32
open scoped Kami
open PlanarGraph

variable {T U : Type}

/-! ### specification -/

/-- true position of node `i` of an `f32` graph -/
noncomputable def trueAt (g : PlanarGraph F32 T U) (i : Nat) : ℝ × ℝ := locN rpos g.nodes i

/-- `S` bounds how far the drawing of the edges is from the segment from `a` to `b`: every point of an edge is within
`sqrt (S² - |ab|²)` of a point of the segment, and every point of the segment within half of that of a point of an edge. -/
def Follows (f : Nat → ℝ × ℝ) (a b : ℝ × ℝ) (S : ℝ) (w : List (Edge U)) : Prop :=
  (∀ e ∈ w, ∀ z, OnSegR (f e.src) (f e.dst) z → ∃ y, OnSegR a b y ∧ dst z y ^ 2 ≤ S ^ 2 - dst a b ^ 2) ∧
  (∀ y, OnSegR a b y → ∃ e ∈ w, ∃ z, OnSegR (f e.src) (f e.dst) z ∧ 4 * dst z y ^ 2 ≤ S ^ 2 - dst a b ^ 2)

theorem follows_of {f : Nat → ℝ × ℝ} {u v : Nat} {w : List (Edge U)} (hw : Walk u v w) (hne : w ≠ []) {S : ℝ}
    (h : drawn f w ≤ S) : Follows f (f u) (f v) S w := by
  constructor
  · intro e he z hz
    obtain ⟨y, h1, h2⟩ := near_segment ((walk_through f w u v hw e he z hz).trans h)
    exact ⟨y, h1, by linarith⟩
  · intro y hy
    obtain ⟨e, he, z, hz, h1⟩ := near_walk f hw hne hy
    have := pow_le_pow_left₀ (drawn_nonneg f w) h 2
    exact ⟨e, he, z, hz, by linarith⟩

theorem keeps32 : Keeps (fun n : List (Node F32 T) => ∀ a ∈ n, SmallPt a.position)
    (ShortWalk (U := U) rpos (1 / 2 ^ 18) (1 / 2 ^ 21)) :=
  keeps_short (by norm_num) (by norm_num) fun _ _ _ ha hb hp => (C93_on_segment ha hb hp false).1

variable [Inhabited T]

/-- **C111.** Take any sequence of `add_node` and `add_edge` in `f32` such that all nodes of the final graph have coordinates
up to `2^60`.  The edges of the final graph are shared out among the accepted requests.  Each owns a walk between its nodes
whose edges carry its data; if it has `m + 1` edges its true length is at most `(1 + 2^-18)^m (L + m 2^-21)`, where `L` is
the true distance of the two nodes, and its drawing follows the segment between them accordingly. -/
theorem C111_drawing (p : Profile) (ops : List (Op F32 T U)) (ha : ∀ op ∈ ops, IsAdd op) (g : PlanarGraph F32 T U)
    (hg : PlanarGraph.run p PlanarGraph.new ops = .ok g) (hs : ∀ a ∈ g.nodes, SmallPt a.position) :
    ∃ walks : List (List (Edge U)), walks.flatten.Perm g.edges ∧
      List.Forall₂ (fun r w => Walk r.1 r.2.1 w ∧ w ≠ [] ∧ (∀ e ∈ w, e.data = r.2.2) ∧
        let L := dst (trueAt g r.1) (trueAt g r.2.1)
        let S := (1 + 1 / 2 ^ 18) ^ (w.length - 1) * (L + (w.length - 1 : ℕ) * (1 / 2 ^ 21))
        drawn (trueAt g) w ≤ S ∧ Follows (trueAt g) (trueAt g r.1) (trueAt g r.2.1) S w)
        (accepted p PlanarGraph.new ops) walks := by
  have h0 : Shared (U := U) (ShortWalk rpos (1 / 2 ^ 18) (1 / 2 ^ 21)) (PlanarGraph.new : PlanarGraph F32 T U) [] :=
    ⟨[], by simp [PlanarGraph.new], .nil⟩
  have := Shared.run keeps32 p ops wf_new h0 ha hg hs
  rw [List.nil_append] at this
  obtain ⟨ws, h1, h2⟩ := this
  refine ⟨ws, h1, h2.imp ?_⟩
  rintro r w ⟨hw, _, ⟨h3, h4⟩, h5⟩
  exact ⟨hw, h3, h4, h5, follows_of hw h3 h5⟩

omit [Inhabited T] in
theorem addNode_edges {F : Type} [Scalar F] {g g' : PlanarGraph F T U} (hwf : WF g) {x : Vec2 F} {t : T} {r : Nat × List Nat}
    (h : g.addNode x t = .ok (g', r)) : g.edges.length ≤ g'.edges.length := by
  rw [addNode_ok g hwf] at h
  cases h
  unfold addNodeG
  split
  · exact le_refl _
  · simp [splitAt, pushNode]

/-- where an `f32` node may be: at one of the requested points, or near the segment of one of the requests -/
def Accounted (pts : List (Vec2 F32)) (B : ℝ) (f : Nat → ℝ × ℝ) (reqs : List (Nat × Nat × U)) (m : ℕ) (v : Vec2 F32) : Prop :=
  v ∈ pts ∨ ∃ r ∈ reqs, dst (f r.1) (rpos v) + dst (rpos v) (f r.2.1) ≤
    (1 + 1 / 2 ^ 18) ^ m * (dst (f r.1) (f r.2.1) + m * (1 / 2 ^ 21)) + (B / 2 ^ 19 + 1 / 2 ^ 147)

theorem forall₂_right {α β : Type} {R : α → β → Prop} {l : List α} {l' : List β} (h : List.Forall₂ R l l') {a : α}
    (ha : a ∈ l) : ∃ b ∈ l', R a b := by
  obtain ⟨b, hb, h⟩ := forall₂_left h.flip ha
  exact ⟨b, hb, h⟩

omit [Inhabited T] in
theorem Accounted.mono {pts : List (Vec2 F32)} {B : ℝ} {g g' : PlanarGraph F32 T U} {reqs more : List (Nat × Nat × U)}
    (hsh : Shared (ShortWalk rpos (1 / 2 ^ 18) (1 / 2 ^ 21)) g reqs) {l : List (Node F32 T)} (hn : g'.nodes = g.nodes ++ l)
    (he : g.edges.length ≤ g'.edges.length) {v : Vec2 F32}
    (h : Accounted pts B (trueAt g) reqs (g.edges.length - 1) v) :
    Accounted pts B (trueAt g') (reqs ++ more) (g'.edges.length - 1) v := by
  rcases h with h | ⟨r, hr, h⟩
  · exact Or.inl h
  · refine Or.inr ⟨r, List.mem_append_left _ hr, ?_⟩
    obtain ⟨ws, _, h2⟩ := hsh
    obtain ⟨w, _, _, ⟨v1, v2, _⟩, _⟩ := forall₂_right h2 hr
    have e1 : trueAt g' r.1 = trueAt g r.1 := by unfold trueAt; rw [hn]; exact locN_append _ _ v1
    have e2 : trueAt g' r.2.1 = trueAt g r.2.1 := by unfold trueAt; rw [hn]; exact locN_append _ _ v2
    rw [e1, e2]
    refine h.trans ?_
    have := lenBound_mono (σ := 1 / 2 ^ 18) (κ := 1 / 2 ^ 21) (by norm_num) (by norm_num)
      (dst_nonneg (trueAt g r.1) (trueAt g r.2.1)) (Nat.sub_le_sub_right he 1)
    unfold lenBound at this
    linarith

omit [Inhabited T] in
/-- a crossing of an edge of the graph is near a request -/
theorem accounted_cross {pts : List (Vec2 F32)} {B : ℝ} {g : PlanarGraph F32 T U} {reqs : List (Nat × Nat × U)}
    (hsh : Shared (ShortWalk rpos (1 / 2 ^ 18) (1 / 2 ^ 21)) g reqs) (hs : ∀ a ∈ g.nodes, SmallPt a.position)
    (hB : ∀ a ∈ g.nodes, |(toRat a.position.x : ℝ)| ≤ B ∧ |(toRat a.position.y : ℝ)| ≤ B) {e : Edge U} (he : e ∈ g.edges)
    {a b v : Vec2 F32} (hv : crossOf g a b e = some v) : Accounted pts B (trueAt g) reqs (g.edges.length - 1) v := by
  obtain ⟨ws, h1, h2⟩ := hsh
  obtain ⟨w, hw, hew⟩ := List.mem_flatten.1 (h1.mem_iff.2 he)
  obtain ⟨r, hr, hwk, ⟨v1, v2, v3⟩, ⟨_, _⟩, hlen⟩ := forall₂_left h2 hw
  refine Or.inr ⟨r, hr, ?_⟩
  unfold crossOf at hv
  simp only [Option.bind_eq_some_iff] at hv
  obtain ⟨c, hc, c', hc', hq⟩ := hv
  have mc := List.mem_of_getElem? hc
  have mc' := List.mem_of_getElem? hc'
  obtain ⟨_, _, y, hy, hx1, hx2⟩ := C92_near_first (hs c mc) (hs c' mc') ⟨(hB c mc).1, (hB c mc).2, (hB c' mc').1, (hB c' mc').2⟩ hq
  have ec : trueAt g e.src = rpos c.position := by unfold trueAt locN; rw [show g.nodes[e.src]? = some c from hc]
  have ec' : trueAt g e.dst = rpos c'.position := by unfold trueAt locN; rw [show g.nodes[e.dst]? = some c' from hc']
  rw [← ec, ← ec'] at hy
  have hth := walk_through (trueAt g) w _ _ hwk e hew y hy
  have hmono := lenBound_mono (σ := 1 / 2 ^ 18) (κ := 1 / 2 ^ 21) (by norm_num) (by norm_num)
      (dst_nonneg (trueAt g r.1) (trueAt g r.2.1)) (m := w.length - 1) (n := g.edges.length - 1) (by
        have : w.length ≤ ws.flatten.length := by
          rw [List.length_flatten]
          exact List.le_sum_of_mem (List.mem_map_of_mem hw)
        rw [h1.length_eq] at this
        omega)
  have hd : dst (rpos v) y ≤ B / 2 ^ 20 + 1 / 2 ^ 148 := by
    have : dst (rpos v) y ≤ |(rpos v).1 - y.1| + |(rpos v).2 - y.2| := by
      unfold dst
      rw [Real.sqrt_le_left (by positivity)]
      have e1 := sq_abs ((rpos v).1 - y.1)
      have e2 := sq_abs ((rpos v).2 - y.2)
      nlinarith [abs_nonneg ((rpos v).1 - y.1), abs_nonneg ((rpos v).2 - y.2),
        mul_nonneg (abs_nonneg ((rpos v).1 - y.1)) (abs_nonneg ((rpos v).2 - y.2))]
    refine this.trans ((add_le_add hx1 hx2).trans ?_)
    have e1 : B / 2 ^ 21 + 1 / 2 ^ 149 + (B / 2 ^ 21 + 1 / 2 ^ 149) = B / 2 ^ 20 + 1 / 2 ^ 148 := by
      rw [show (2 : ℝ) ^ 21 = 2 * 2 ^ 20 by norm_num, show (2 : ℝ) ^ 149 = 2 * 2 ^ 148 by norm_num]
      field_simp
      norm_num
      ring
    exact e1.le
  have t1 := dst_triangle (trueAt g r.1) y (rpos v)
  have t2 := dst_triangle (rpos v) y (trueAt g r.2.1)
  rw [dst_comm y (rpos v)] at t1
  have hlen' : drawn (trueAt g) w ≤ lenBound (1 / 2 ^ 18) (1 / 2 ^ 21) (dst (trueAt g r.1) (trueAt g r.2.1)) (w.length - 1) := hlen
  have e2 : B / 2 ^ 20 + 1 / 2 ^ 148 + (B / 2 ^ 20 + 1 / 2 ^ 148) = B / 2 ^ 19 + 1 / 2 ^ 147 := by
    rw [show (2 : ℝ) ^ 20 = 2 * 2 ^ 19 by norm_num, show (2 : ℝ) ^ 148 = 2 * 2 ^ 147 by norm_num]
    field_simp
    norm_num
    ring
  unfold lenBound at hmono hlen'
  linarith

/-- the position asked for by a call of `add_node` -/
def askedPoint {F : Type} : Op F T U → Option (Vec2 F)
  | .addNode pos _ => some pos
  | _ => none

theorem accounted_run (p : Profile) (pts : List (Vec2 F32)) (B : ℝ) (ops : List (Op F32 T U)) :
    ∀ {g g' : PlanarGraph F32 T U} {reqs : List (Nat × Nat × U)}, WF g →
    Shared (ShortWalk rpos (1 / 2 ^ 18) (1 / 2 ^ 21)) g reqs →
    (∀ a ∈ g.nodes, Accounted pts B (trueAt g) reqs (g.edges.length - 1) a.position) →
    (∀ op ∈ ops, IsAdd op) → (∀ v ∈ ops.filterMap askedPoint, v ∈ pts) → g.run p ops = .ok g' →
    (∀ a ∈ g'.nodes, SmallPt a.position) →
    (∀ a ∈ g'.nodes, |(toRat a.position.x : ℝ)| ≤ B ∧ |(toRat a.position.y : ℝ)| ≤ B) →
    ∀ a ∈ g'.nodes, Accounted pts B (trueAt g') (reqs ++ accepted p g ops) (g'.edges.length - 1) a.position := by
  induction ops with
  | nil =>
    intro g g' reqs _ _ h _ _ hr _ _
    cases hr
    simpa [accepted] using h
  | cons op ops ih =>
    intro g g' reqs hwf hsh hacc ha hpts hr hs hB
    simp only [PlanarGraph.run] at hr
    have hop := ha op (List.mem_cons_self ..)
    have hops := fun o ho => ha o (List.mem_cons_of_mem _ ho)
    cases hst : g.step p op with
    | error e => rw [hst] at hr; cases hr
    | ok g1 =>
      rw [hst] at hr
      obtain ⟨w1, l1, e1⟩ := step_add hwf hop hst
      obtain ⟨l, e⟩ := run_nodes ops w1 hops hr
      have hs1 : ∀ a ∈ g1.nodes, SmallPt a.position := fun a h => hs a (by rw [e]; exact List.mem_append_left _ h)
      have hs0 : ∀ a ∈ g.nodes, SmallPt a.position := fun a h => hs1 a (by rw [e1]; exact List.mem_append_left _ h)
      have hB0 : ∀ a ∈ g.nodes, |(toRat a.position.x : ℝ)| ≤ B ∧ |(toRat a.position.y : ℝ)| ≤ B := fun a h =>
        hB a (by rw [e, e1]; exact List.mem_append_left _ (List.mem_append_left _ h))
      have hpts' : ∀ v ∈ ops.filterMap askedPoint, v ∈ pts := by
        intro v hv
        apply hpts
        rw [List.filterMap_cons]
        split
        · exact hv
        · exact List.mem_cons_of_mem _ hv
      simp only [accepted, hst]
      rw [← List.append_assoc]
      rcases step_ok hst with ⟨pos, data, r, rfl, h1⟩ | ⟨s, d, x, r, rfl, h1⟩ | ⟨i, r, rfl, h1⟩ | ⟨i, r, rfl, h1⟩
      · rw [List.append_nil]
        refine ih w1 (hsh.addNode keeps32 hwf h1 hs1) ?_ hops hpts' hr hs hB
        have hle := addNode_edges hwf h1
        intro a hm
        have old : ∀ b ∈ g.nodes, Accounted pts B (trueAt g1) reqs (g1.edges.length - 1) b.position := by
          intro b hb
          have := Accounted.mono (more := []) hsh e1 hle (hacc b hb)
          rwa [List.append_nil] at this
        obtain ⟨g2, i, ch, k1, k2⟩ := C52_add_node g hwf pos data
        rw [h1] at k1
        cases k1
        rcases k2 with ⟨rfl, _⟩ | ⟨_, k3, _⟩
        · exact old a hm
        · rw [k3] at hm
          rcases List.mem_append.1 hm with hm | hm
          · exact old a hm
          · rw [List.mem_singleton] at hm
            subst hm
            exact Or.inl (hpts _ (by simp [askedPoint]))
      · refine ih w1 (hsh.addEdge keeps32 hwf h1 hs1) ?_ hops hpts' hr hs hB
        rcases addEdge_ok g hwf s d x with ⟨_, h'⟩ | ⟨_, _, h'⟩ | ⟨_, vs, vd, g2, cn, ce, hi, h'⟩ <;> rw [h1] at h'
        · cases h'
          intro a hm
          exact Accounted.mono hsh (l := []) (by simp) (le_refl _) (hacc a hm)
        · cases h'
          intro a hm
          exact Accounted.mono hsh (l := []) (by simp) (le_refl _) (hacc a hm)
        · simp only [Except.ok.injEq, Prod.mk.injEq] at h'
          obtain ⟨rfl, rfl⟩ := h'
          have hle : g.edges.length ≤ g1.edges.length := by
            have := (inserts_changed hi).1
            simp only [pushEdge, List.length_append, List.length_singleton] at this
            omega
          obtain ⟨k1, k2⟩ := C58_order_partial g hwf s d x _ _ (List.getElem?_eq_getElem vs) (List.getElem?_eq_getElem vd) g1 _ _ h1
          intro a hm
          rw [← List.take_append_drop g.nodes.length g1.nodes, k1] at hm
          rcases List.mem_append.1 hm with hm | hm
          · exact Accounted.mono hsh e1 hle (hacc a hm)
          · obtain ⟨f, hf, hfa⟩ := List.mem_filterMap.1 (k2.subset (List.mem_map_of_mem hm))
            exact Accounted.mono hsh e1 hle (accounted_cross hsh hs0 hB0 hf hfa)
      · exact absurd hop (by simp [IsAdd])
      · exact absurd hop (by simp [IsAdd])

/-- **C111, nodes.** Let `B` bound the coordinates of the nodes and `m + 1` be the number of edges (or more).  Every node is
exactly at a point asked for with `add_node`, or the detour through it between the two nodes of some accepted request is
at most `(1 + 2^-18)^m (L + m 2^-21) + B/2^19 + 2^-147`, where `L` is their true distance. -/
theorem C111_nodes (p : Profile) (ops : List (Op F32 T U)) (ha : ∀ op ∈ ops, IsAdd op) (g : PlanarGraph F32 T U)
    (hg : PlanarGraph.run p PlanarGraph.new ops = .ok g) (hs : ∀ a ∈ g.nodes, SmallPt a.position) (B : ℝ)
    (hB : ∀ a ∈ g.nodes, |(toRat a.position.x : ℝ)| ≤ B ∧ |(toRat a.position.y : ℝ)| ≤ B) :
    ∀ a ∈ g.nodes, (∃ t, Op.addNode a.position t ∈ ops) ∨
      ∃ r ∈ accepted p PlanarGraph.new ops,
        dst (trueAt g r.1) (rpos a.position) + dst (rpos a.position) (trueAt g r.2.1) ≤
          (1 + 1 / 2 ^ 18) ^ (g.edges.length - 1) *
            (dst (trueAt g r.1) (trueAt g r.2.1) + (g.edges.length - 1 : ℕ) * (1 / 2 ^ 21)) + (B / 2 ^ 19 + 1 / 2 ^ 147) := by
  intro a hm
  have h0 : Shared (U := U) (ShortWalk rpos (1 / 2 ^ 18) (1 / 2 ^ 21)) (PlanarGraph.new : PlanarGraph F32 T U) [] :=
    ⟨[], by simp [PlanarGraph.new], .nil⟩
  have := accounted_run p (ops.filterMap askedPoint) B ops wf_new h0 (by simp [PlanarGraph.new]) ha (fun v h => h) hg hs hB a hm
  rw [List.nil_append] at this
  rcases this with h | h
  · left
    obtain ⟨op, ho, h⟩ := List.mem_filterMap.1 h
    cases op with
    | addNode pos t =>
      simp only [askedPoint, Option.some.injEq] at h
      exact ⟨t, h ▸ ho⟩
    | addEdge s d x => simp [askedPoint] at h
    | removeEdge i => simp [askedPoint] at h
    | removeNode i => simp [askedPoint] at h
  · exact Or.inr h

/-- **C111, few splits.** With at most 17 edges in the walk: every point of it is within `L/64 + 1/256` of the segment between
its ends, and every point of the segment is within half of that of the walk. -/
theorem C111_few (f : Nat → ℝ × ℝ) (a b : ℝ × ℝ) (w : List (Edge U)) (hw : w.length ≤ 17)
    (h : Follows f a b ((1 + 1 / 2 ^ 18) ^ (w.length - 1) * (dst a b + (w.length - 1 : ℕ) * (1 / 2 ^ 21))) w) :
    (∀ e ∈ w, ∀ z, OnSegR (f e.src) (f e.dst) z → ∃ y, OnSegR a b y ∧ dst z y ≤ dst a b / 64 + 1 / 256) ∧
    (∀ y, OnSegR a b y → ∃ e ∈ w, ∃ z, OnSegR (f e.src) (f e.dst) z ∧ 2 * dst z y ≤ dst a b / 64 + 1 / 256) := by
  have hL := dst_nonneg a b
  have hm : w.length - 1 ≤ 16 := by omega
  have hmono := lenBound_mono (σ := 1 / 2 ^ 18) (κ := 1 / 2 ^ 21) (by norm_num) (by norm_num) hL hm
  have h0 := le_lenBound (σ := 1 / 2 ^ 18) (κ := 1 / 2 ^ 21) (by norm_num) (by norm_num) hL (w.length - 1)
  unfold lenBound at hmono h0
  set S := (1 + 1 / 2 ^ 18) ^ (w.length - 1) * (dst a b + (w.length - 1 : ℕ) * (1 / 2 ^ 21)) with hS
  have hb : S ^ 2 - dst a b ^ 2 ≤ (dst a b / 64 + 1 / 256) ^ 2 := by
    have h1 : S ≤ (1 + 1 / 2 ^ 13) * (dst a b + 1 / 2 ^ 17) := by
      refine hmono.trans ?_
      have e1 : ((1 : ℝ) + 1 / 2 ^ 18) ^ 16 ≤ 1 + 1 / 2 ^ 13 := by norm_num
      have e2 : dst a b + (16 : ℕ) * (1 / 2 ^ 21) = dst a b + 1 / 2 ^ 17 := by norm_num
      rw [e2]
      exact mul_le_mul_of_nonneg_right e1 (by positivity)
    have h2 := pow_le_pow_left₀ (hL.trans h0) h1 2
    generalize dst a b = L at *
    nlinarith [mul_nonneg hL hL]
  constructor
  · intro e he z hz
    obtain ⟨y, h1, h2⟩ := h.1 e he z hz
    exact ⟨y, h1, abs_le_of_sq_le_sq' (h2.trans hb) (by positivity) |>.2⟩
  · intro y hy
    obtain ⟨e, he, z, hz, h1⟩ := h.2 y hy
    refine ⟨e, he, z, hz, abs_le_of_sq_le_sq' ?_ (by positivity) |>.2⟩
    rw [mul_pow]
    norm_num
    linarith

/-! ### exact arithmetic -/

/-- **C111, exact arithmetic.** If all nodes of the final graph have finite positions, the walk of a request with `m + 1` edges
is at most `L + m ε` long, and its drawing follows the segment accordingly. -/
theorem C111_exact (p : Profile) (ops : List (Op XReal T U)) (ha : ∀ op ∈ ops, IsAdd op) (g : PlanarGraph XReal T U)
    (hg : PlanarGraph.run p PlanarGraph.new ops = .ok g) (hs : ∀ a ∈ g.nodes, ∃ x, a.position = pt x) :
    ∃ walks : List (List (Edge U)), walks.flatten.Perm g.edges ∧
      List.Forall₂ (fun r w => Walk r.1 r.2.1 w ∧ w ≠ [] ∧ (∀ e ∈ w, e.data = r.2.2) ∧
        let S := dst (place g r.1) (place g r.2.1) + (w.length - 1 : ℕ) * XReal.epsR
        drawn (place g) w ≤ S ∧ Follows (place g) (place g r.1) (place g r.2.1) S w)
        (accepted p PlanarGraph.new ops) walks := by
  have hk : Keeps (fun n : List (Node XReal T) => ∀ a ∈ n, ∃ x, a.position = pt x)
      (ShortWalk (U := U) (fun v : Vec2 XReal => (realOf v.x, realOf v.y)) 0 XReal.epsR) := by
    refine keeps_short (good := fun v => ∃ x, v = pt x) (le_refl _) XReal.epsR_pos.le ?_
    rintro _ _ _ ⟨a, rfl⟩ ⟨b, rfl⟩ ⟨q, rfl⟩ h
    have := (C44_on_segment_partial a b q false).2.2 h
    simp only [pt, realOf, add_zero, one_mul]
    exact this.le
  have h0 : Shared (U := U) (ShortWalk (fun v : Vec2 XReal => (realOf v.x, realOf v.y)) 0 XReal.epsR)
      (PlanarGraph.new : PlanarGraph XReal T U) [] := ⟨[], by simp [PlanarGraph.new], .nil⟩
  have := Shared.run hk p ops wf_new h0 ha hg hs
  rw [List.nil_append] at this
  obtain ⟨ws, h1, h2⟩ := this
  refine ⟨ws, h1, h2.imp ?_⟩
  rintro r w ⟨hw, _, ⟨h3, h4⟩, h5⟩
  have hp : place g = locN (fun v : Vec2 XReal => (realOf v.x, realOf v.y)) g.nodes := by
    funext i
    unfold place locN
    cases g.nodes[i]? <;> rfl
  simp only [lenBound, add_zero, one_pow, one_mul] at h5
  rw [hp]
  exact ⟨hw, h3, h4, h5, follows_of hw h3 h5⟩

/-! ### instances -/

/-- two crossing edges -/
def crossOps : List (Op F32 Unit Nat) :=
  [.addNode (at32 0 0) (), .addNode (at32 4 4) (), .addNode (at32 0 4) (), .addNode (at32 4 0) (), .addEdge 0 1 7, .addEdge 2 3 8]

/-- the hypotheses of C111 hold for two crossing edges; the crossing is a node that was not asked for -/
example : ∃ g, PlanarGraph.run .release PlanarGraph.new crossOps = .ok g ∧ (∀ op ∈ crossOps, IsAdd op) ∧
    (∀ a ∈ g.nodes, SmallPt a.position) ∧ g.nodes.length = 5 ∧ accepted .release PlanarGraph.new crossOps = [(0, 1, 7), (2, 3, 8)] := by
  refine ⟨⟨[⟨at32 0 0, (), ""⟩, ⟨at32 4 4, (), ""⟩, ⟨at32 0 4, (), ""⟩, ⟨at32 4 0, (), ""⟩, ⟨at32 2 2, (), ""⟩],
    [⟨0, 4, 7, ""⟩, ⟨2, 4, 8, ""⟩, ⟨1, 4, 7, ""⟩, ⟨3, 4, 8, ""⟩]⟩, by decide +kernel, ?_, ?_, rfl, by decide +kernel⟩
  · intro op ho
    simp only [crossOps, List.mem_cons, List.not_mem_nil, or_false] at ho
    rcases ho with rfl | rfl | rfl | rfl | rfl | rfl <;> trivial
  · intro a ha
    simp only [List.mem_cons, List.not_mem_nil, or_false] at ha
    rcases ha with rfl | rfl | rfl | rfl | rfl <;>
      exact ⟨small_of (by decide +kernel) (by decide +kernel), small_of (by decide +kernel) (by decide +kernel)⟩

end Kami.Graph
