import Verif.Graph.MarginPlanar
import Verif.Graph.Count
/-!
# C121: the order of requests in f32, and the size of the f32 graph

With the margins of C116 the f32 graph is the exact graph up to rounded crossings.  So the facts about exact arrangements (C103, C104)
hold for the f32 graph.
-/

set_option autoImplicit false

namespace Kami.Graph

open Kami Kami.F32 Kami.UtilThm Kami.DistF32 PlanarGraph
open scoped Kami

section
variable {T U : Type}

/-- the f32 graph `h'` is `h` with the nodes renumbered by `σ`: nodes keep data and label, nodes at the points `P` keep their position, the
others move by at most `d`; edges keep their ends (in some direction) and their data -/
structure SameWithin (P : List (ℝ × ℝ)) (d : ℝ) (σ : ℕ → ℕ) (h h' : PlanarGraph F32 T U) : Prop where
  count : h'.nodes.length = h.nodes.length
  inj : ∀ i j, i < h.nodes.length → j < h.nodes.length → σ i = σ j → i = j
  node : ∀ i b, h.getVertex i = some b → ∃ b', h'.getVertex (σ i) = some b' ∧ b'.data = b.data ∧ b'.label = b.label ∧
    dst (rpos b.position) (rpos b'.position) ≤ d ∧ (rpos b.position ∈ P → rpos b'.position = rpos b.position)
  edge : ∀ i j c, i < h.nodes.length → j < h.nodes.length →
    ((∃ e ∈ h.edges, e.data = c ∧ ((e.src = i ∧ e.dst = j) ∨ (e.src = j ∧ e.dst = i))) ↔
      ∃ e ∈ h'.edges, e.data = c ∧ ((e.src = σ i ∧ e.dst = σ j) ∨ (e.src = σ j ∧ e.dst = σ i)))
  edges : h'.edges.length = h.edges.length

theorem Fine.apart {cs : List (Call F32 T U)} {B θ μ : ℝ} (hv : Valid 0 (cs.map Call.req))
    (hm : Margins (points (cs.map Call.req)) (strokes [] (cs.map Call.req)) B θ μ)
    (hf : Fine B θ μ (strokes [] (cs.map Call.req)).length) :
    Setting (points (cs.map Call.req)) (strokes [] (cs.map Call.req)) B θ μ (posBound B θ (strokes [] (cs.map Call.req)).length) := by
  apply hf.setting hm
  intro s hs
  have := strokes_ends (ps := []) hv s hs
  simpa using this

/-- a node of the f32 graph is at a requested point exactly when the node of the exact graph is -/
theorem mirror_point [Inhabited T] {cs : List (Call F32 T U)} {B θ μ : ℝ} (hv : Valid 0 (cs.map Call.req))
    (hm : Margins (points (cs.map Call.req)) (strokes [] (cs.map Call.req)) B θ μ)
    (hf : Fine B θ μ (strokes [] (cs.map Call.req)).length) {g : PlanarGraph XReal T U} {h : PlanarGraph F32 T U} {ids : List ℕ}
    (h3 : client PlanarGraph.new [] (cs.map Call.req) = .ok (g, ids))
    (h4 : Mirrors (points (cs.map Call.req)) (posBound B θ (strokes [] (cs.map Call.req)).length) g h) {i : ℕ} {b : Node F32 T}
    (hb : h.nodes[i]? = some b) : rpos b.position ∈ points (cs.map Call.req) ↔ place g i ∈ points (cs.map Call.req) := by
  have st := Fine.apart hv hm hf
  have hi' : i < g.nodes.length := by rw [← h4.len]; exact (List.getElem?_eq_some_iff.1 hb).1
  obtain ⟨_, p2, p3⟩ := h4.position i b hb
  constructor
  · intro hin
    by_contra hc
    have hmt : Meet (points (cs.map Call.req)) (strokes [] (cs.map Call.req)) (place g i) := by
      obtain ⟨g1, ids1, k1, _, _, kn, _, _⟩ := C102_arrangement _ hv st.apart
      rw [h3] at k1
      cases k1
      exact ((kn _).1 ⟨i, hi', rfl⟩).resolve_left hc
    have h64 := st.hδ
    have h0 : place g i ≠ rpos b.position := fun hc' => hc (hc' ▸ hin)
    have := st.margins.sep _ _ (Or.inr hmt) (Or.inl hin) h0
    rw [dst_comm] at this
    have := st.δ0
    have hμ := st.hμ
    norm_num at hμ
    linarith
  · intro hin
    rw [p3 hin]; exact hin

/-- **C121.** Two sequences of f32 calls that ask for the same points with the same data and for the same segments with the same data,
in different orders and segments in either direction, and that both keep the margins of C116, produce the same graph up to the
numbering of nodes, the order and direction of edges, and the rounding of crossings. -/
theorem C121_order [Inhabited T] (cs cs' : List (Call F32 T U)) (B θ μ : ℝ) (hfin : ∀ c ∈ cs, c.Finite) (hfin' : ∀ c ∈ cs', c.Finite)
    (hv : Valid 0 (cs.map Call.req)) (hv' : Valid 0 (cs'.map Call.req))
    (hm : Margins (points (cs.map Call.req)) (strokes [] (cs.map Call.req)) B θ μ)
    (hm' : Margins (points (cs'.map Call.req)) (strokes [] (cs'.map Call.req)) B θ μ)
    (hf : Fine B θ μ (strokes [] (cs.map Call.req)).length) (hf' : Fine B θ μ (strokes [] (cs'.map Call.req)).length)
    (hP : (wanted (cs.map Call.req)).Perm (wanted (cs'.map Call.req)))
    (hS : ∀ a b c, Asked (strokes [] (cs.map Call.req)) a b c ↔ Asked (strokes [] (cs'.map Call.req)) a b c) :
    ∃ h h' ids ids' l l' σ, session PlanarGraph.new [] cs = .ok (h, ids, l) ∧ session PlanarGraph.new [] cs' = .ok (h', ids', l') ∧
      SameWithin (points (cs.map Call.req))
        (posBound B θ (strokes [] (cs.map Call.req)).length + posBound B θ (strokes [] (cs'.map Call.req)).length) σ h h' := by
  obtain ⟨g, h, ids, l, _, h2, h3, h4⟩ := C116_session cs B θ μ hfin hv hm hf
  obtain ⟨g', h', ids', l', _, h2', h3', h4'⟩ := C116_session cs' B θ μ hfin' hv' hm' hf'
  have st := Fine.apart hv hm hf
  obtain ⟨k, k', i1, i1', σ, e1, e2, hs⟩ := C103_order _ _ hv hv' st.apart (Fine.apart hv' hm' hf').apart hP hS
  rw [h3] at e1
  rw [h3'] at e2
  cases e1
  cases e2
  refine ⟨h, h', ids, ids', l, l', σ, h2, h2', ?_, ?_, ?_, ?_, ?_⟩
  · rw [h4.len, h4'.len]; exact hs.count
  · rw [h4.len]; exact hs.inj
  · intro i b hb
    have hi : i < h.nodes.length := (List.getElem?_eq_some_iff.1 hb).1
    have hi' : i < g.nodes.length := by rw [← h4.len]; exact hi
    have hn := hs.node i hi'
    have ha : g.nodes[i]? = some g.nodes[i] := List.getElem?_eq_getElem hi'
    unfold getVertex at hn
    rw [ha] at hn
    have hj : σ i < g'.nodes.length := (List.getElem?_eq_some_iff.1 hn).1
    have hj' : σ i < h'.nodes.length := by rw [h4'.len]; exact hj
    have hb' := List.getElem?_eq_getElem hj'
    obtain ⟨d1, d2⟩ := h4.data i _ b ha hb
    obtain ⟨d1', d2'⟩ := h4'.data (σ i) _ _ hn hb'
    obtain ⟨_, p2, p3⟩ := h4.position i b hb
    obtain ⟨_, p2', p3'⟩ := h4'.position (σ i) _ hb'
    have hpl : place g' (σ i) = place g i := by
      unfold place; rw [hn, ha]
    rw [hpl] at p2' p3'
    refine ⟨_, hb', d1'.trans d1.symm, d2'.trans d2.symm, ?_, ?_⟩
    · refine (dst_triangle _ (place g i) _).trans ?_
      rw [dst_comm (place g i)]
      linarith
    · intro hin
      have hpp : ∀ x, x ∈ points (cs.map Call.req) ↔ x ∈ points (cs'.map Call.req) := fun x => (hP.map Prod.fst).mem_iff
      have hgi := (mirror_point hv hm hf h3 h4 hb).1 hin
      rw [p3 hgi, p3' ((hpp _).1 hgi)]
  · intro i j c hi hj
    rw [h4.len] at hi hj
    have := hs.edge i j c hi hj
    unfold Linked at this
    rw [h4.edges, h4'.edges]
    exact this
  · rw [h4.edges, h4'.edges]; exact hs.edges

/-- **C121, size.** With the margins of C116 the f32 graph has one node per requested point and one per crossing, and one edge per
requested segment and two more per crossing; a requested point has as many edges as segments end there, every other node has 4. -/
theorem C121_size [Inhabited T] (cs : List (Call F32 T U)) (B θ μ : ℝ) (hfin : ∀ c ∈ cs, c.Finite) (hv : Valid 0 (cs.map Call.req))
    (hm : Margins (points (cs.map Call.req)) (strokes [] (cs.map Call.req)) B θ μ)
    (hf : Fine B θ μ (strokes [] (cs.map Call.req)).length) :
    ∃ h ids l, session PlanarGraph.new [] cs = .ok (h, ids, l) ∧
      {y | Meet (points (cs.map Call.req)) (strokes [] (cs.map Call.req)) y}.Finite ∧
      h.nodeCount = (points (cs.map Call.req)).length + {y | Meet (points (cs.map Call.req)) (strokes [] (cs.map Call.req)) y}.ncard ∧
      h.edgeCount = (strokes [] (cs.map Call.req)).length +
        2 * {y | Meet (points (cs.map Call.req)) (strokes [] (cs.map Call.req)) y}.ncard ∧
      ∀ i b, h.getVertex i = some b → h.numberOfEdgesIncidentTo i = some 4 ∧ rpos b.position ∉ points (cs.map Call.req) ∨
        rpos b.position ∈ points (cs.map Call.req) ∧ h.numberOfEdgesIncidentTo i =
          some {s | s ∈ strokes [] (cs.map Call.req) ∧ (s.a = rpos b.position ∨ s.b = rpos b.position)}.ncard := by
  obtain ⟨g, h, ids, l, _, h2, h3, h4⟩ := C116_session cs B θ μ hfin hv hm hf
  have st := Fine.apart hv hm hf
  obtain ⟨c1, c2, c3⟩ := C104_counts _ hv st.apart g ids h3
  refine ⟨h, ids, l, h2, c1, ?_, ?_, ?_⟩
  · unfold nodeCount at c2 ⊢; rw [h4.len]; exact c2
  · unfold edgeCount at c3 ⊢; rw [h4.edges]; exact c3
  · intro i b hb
    have hi : i < g.nodes.length := by rw [← h4.len]; exact (List.getElem?_eq_some_iff.1 hb).1
    obtain ⟨d1, d2⟩ := C104_degree _ hv st.apart g ids h3 i hi
    have hm2 := mirror_point hv hm hf h3 h4 hb
    have he : h.numberOfEdgesIncidentTo i = g.numberOfEdgesIncidentTo i := by
      have ha : g.getVertex i = some g.nodes[i] := List.getElem?_eq_getElem hi
      unfold numberOfEdgesIncidentTo
      rw [hb, ha, h4.edges]
    rw [he]
    by_cases hin : place g i ∈ points (cs.map Call.req)
    · right
      refine ⟨hm2.2 hin, ?_⟩
      rw [(h4.position i b hb).2.2 hin]
      exact d2 hin
    · left
      exact ⟨d1 hin, fun hc => hin (hm2.1 hc)⟩

/-! ### An instance: rounding depends on the order -/

/-- two crossing segments -/
def slantCall : List (Call F32 ℕ ℕ) :=
  [.point ⟨F32.lit 0, F32.lit 0⟩ 1, .point ⟨F32.lit 2 8192, F32.lit 1 8192⟩ 2, .point ⟨F32.lit 0, F32.lit 1 8192⟩ 3, .point ⟨F32.lit 1 8192, F32.lit 0⟩ 4, .seg 0 1 10, .seg 2 3 20]

/-- the same in another order, one segment in the other direction -/
def slantCall' : List (Call F32 ℕ ℕ) :=
  [.point ⟨F32.lit 0, F32.lit 1 8192⟩ 3, .point ⟨F32.lit 1 8192, F32.lit 0⟩ 4, .point ⟨F32.lit 2 8192, F32.lit 1 8192⟩ 2, .point ⟨F32.lit 0, F32.lit 0⟩ 1, .seg 0 1 20, .seg 2 3 10]

theorem slant_req : slantCall.map Call.req = [(.point (0, 0) 1 : Req ℕ ℕ), .point (2 / 8192, 1 / 8192) 2, .point (0, 1 / 8192) 3, .point (1 / 8192, 0) 4, .seg 0 1 10, .seg 2 3 20] := by
  have ea : rpos ⟨F32.lit 0, F32.lit 0⟩ = (0, 0) := by
    rw [rpos_lit (x := 0) (y := 0) (by decide +kernel) (by decide +kernel)]; simp
  have eb : rpos ⟨F32.lit 2 8192, F32.lit 1 8192⟩ = (2 / 8192, 1 / 8192) := by
    rw [rpos_lit (x := 2 / 8192) (y := 1 / 8192) (by decide +kernel) (by decide +kernel)]; simp
  have ec : rpos ⟨F32.lit 0, F32.lit 1 8192⟩ = (0, 1 / 8192) := by
    rw [rpos_lit (x := 0) (y := 1 / 8192) (by decide +kernel) (by decide +kernel)]; simp
  have ed : rpos ⟨F32.lit 1 8192, F32.lit 0⟩ = (1 / 8192, 0) := by
    rw [rpos_lit (x := 1 / 8192) (y := 0) (by decide +kernel) (by decide +kernel)]; simp
  simp only [slantCall, List.map_cons, List.map_nil, Call.req, ea, eb, ec, ed]

theorem slant_margins : Valid 0 (slantCall.map Call.req) ∧
    Margins (points (slantCall.map Call.req)) (strokes [] (slantCall.map Call.req)) (1 / 2 ^ 12) (1 / 2) (1 / 2 ^ 16) ∧
    Fine (1 / 2 ^ 12) (1 / 2) (1 / 2 ^ 16) (strokes [] (slantCall.map Call.req)).length := by
  rw [slant_req]
  refine ⟨by simp [Valid], ?_, ?_⟩
  · have hP : points [(.point (0, 0) 1 : Req ℕ ℕ), .point (2 / 8192, 1 / 8192) 2, .point (0, 1 / 8192) 3, .point (1 / 8192, 0) 4, .seg 0 1 10, .seg 2 3 20] = [(0, 0), (2 / 8192, 1 / 8192), (0, 1 / 8192), (1 / 8192, 0)] := rfl
    have hS : strokes [] [(.point (0, 0) 1 : Req ℕ ℕ), .point (2 / 8192, 1 / 8192) 2, .point (0, 1 / 8192) 3, .point (1 / 8192, 0) 4, .seg 0 1 10, .seg 2 3 20] = [⟨(0, 0), (2 / 8192, 1 / 8192), 10⟩, ⟨(0, 1 / 8192), (1 / 8192, 0), 20⟩] := rfl
    rw [hP, hS]
    refine margins_two (y := (2 / 3 / 8192, 1 / 3 / 8192)) ?_ (by norm_num) (by norm_num) ?_ ⟨1 / 3, by norm_num, by norm_num, by norm_num⟩
      ⟨2 / 3, by norm_num, by norm_num, by norm_num⟩ ?_ ?_ ?_ ?_ ?_
    · intro x hx
      simp only [List.mem_cons, List.not_mem_nil, or_false] at hx
      rcases hx with rfl | rfl | rfl | rfl <;> constructor <;> norm_num [abs_div]
    · simp only [List.pairwise_cons, List.mem_cons, List.not_mem_nil, or_false, forall_eq_or_imp, forall_eq, false_imp_iff, implies_true,
        List.Pairwise.nil, and_true, le_dst_iff (show (0 : ℝ) ≤ 1 / 2 ^ 16 by norm_num)]
      norm_num
    all_goals first
      | (apply mul_dst_le; unfold crs; norm_num)
      | (apply mul_dst2_le; unfold crs; norm_num)
  · constructor <;> norm_num [strokes]

theorem slant'_req : slantCall'.map Call.req = [(.point (0, 1 / 8192) 3 : Req ℕ ℕ), .point (1 / 8192, 0) 4, .point (2 / 8192, 1 / 8192) 2, .point (0, 0) 1, .seg 0 1 20, .seg 2 3 10] := by
  have ea : rpos ⟨F32.lit 0, F32.lit 0⟩ = (0, 0) := by
    rw [rpos_lit (x := 0) (y := 0) (by decide +kernel) (by decide +kernel)]; simp
  have eb : rpos ⟨F32.lit 2 8192, F32.lit 1 8192⟩ = (2 / 8192, 1 / 8192) := by
    rw [rpos_lit (x := 2 / 8192) (y := 1 / 8192) (by decide +kernel) (by decide +kernel)]; simp
  have ec : rpos ⟨F32.lit 0, F32.lit 1 8192⟩ = (0, 1 / 8192) := by
    rw [rpos_lit (x := 0) (y := 1 / 8192) (by decide +kernel) (by decide +kernel)]; simp
  have ed : rpos ⟨F32.lit 1 8192, F32.lit 0⟩ = (1 / 8192, 0) := by
    rw [rpos_lit (x := 1 / 8192) (y := 0) (by decide +kernel) (by decide +kernel)]; simp
  simp only [slantCall', List.map_cons, List.map_nil, Call.req, ea, eb, ec, ed]

theorem slant'_margins : Valid 0 (slantCall'.map Call.req) ∧
    Margins (points (slantCall'.map Call.req)) (strokes [] (slantCall'.map Call.req)) (1 / 2 ^ 12) (1 / 2) (1 / 2 ^ 16) ∧
    Fine (1 / 2 ^ 12) (1 / 2) (1 / 2 ^ 16) (strokes [] (slantCall'.map Call.req)).length := by
  rw [slant'_req]
  refine ⟨by simp [Valid], ?_, ?_⟩
  · have hP : points [(.point (0, 1 / 8192) 3 : Req ℕ ℕ), .point (1 / 8192, 0) 4, .point (2 / 8192, 1 / 8192) 2, .point (0, 0) 1, .seg 0 1 20, .seg 2 3 10] = [(0, 1 / 8192), (1 / 8192, 0), (2 / 8192, 1 / 8192), (0, 0)] := rfl
    have hS : strokes [] [(.point (0, 1 / 8192) 3 : Req ℕ ℕ), .point (1 / 8192, 0) 4, .point (2 / 8192, 1 / 8192) 2, .point (0, 0) 1, .seg 0 1 20, .seg 2 3 10] = [⟨(0, 1 / 8192), (1 / 8192, 0), 20⟩, ⟨(2 / 8192, 1 / 8192), (0, 0), 10⟩] := rfl
    rw [hP, hS]
    refine margins_two (y := (2 / 3 / 8192, 1 / 3 / 8192)) ?_ (by norm_num) (by norm_num) ?_ ⟨2 / 3, by norm_num, by norm_num, by norm_num⟩
      ⟨2 / 3, by norm_num, by norm_num, by norm_num⟩ ?_ ?_ ?_ ?_ ?_
    · intro x hx
      simp only [List.mem_cons, List.not_mem_nil, or_false] at hx
      rcases hx with rfl | rfl | rfl | rfl <;> constructor <;> norm_num [abs_div]
    · simp only [List.pairwise_cons, List.mem_cons, List.not_mem_nil, or_false, forall_eq_or_imp, forall_eq, false_imp_iff, implies_true,
        List.Pairwise.nil, and_true, le_dst_iff (show (0 : ℝ) ≤ 1 / 2 ^ 16 by norm_num)]
      norm_num
    all_goals first
      | (apply mul_dst_le; unfold crs; norm_num)
      | (apply mul_dst2_le; unfold crs; norm_num)
  · constructor <;> norm_num [strokes]

theorem slant_finite : (∀ c ∈ slantCall, c.Finite) ∧ ∀ c ∈ slantCall', c.Finite := by
  have f0 : IsFin (F32.lit 0) := ⟨_, _, rfl⟩
  have f1 : IsFin (F32.lit 1 8192) := ⟨_, _, rfl⟩
  have f2 : IsFin (F32.lit 2 8192) := ⟨_, _, rfl⟩
  constructor
  · simp [slantCall, Call.Finite, f0, f1, f2]
  · simp [slantCall', Call.Finite, f0, f1, f2]

/-- both orders give the same graph up to the place of the crossing -/
example : ∃ h h' ids ids' l l' σ, session PlanarGraph.new [] slantCall = .ok (h, ids, l) ∧
    session PlanarGraph.new [] slantCall' = .ok (h', ids', l') ∧
    SameWithin (points (slantCall.map Call.req)) (posBound (1 / 2 ^ 12) (1 / 2) (strokes [] (slantCall.map Call.req)).length +
      posBound (1 / 2 ^ 12) (1 / 2) (strokes [] (slantCall'.map Call.req)).length) σ h h' := by
  refine C121_order slantCall slantCall' _ _ _ slant_finite.1 slant_finite.2 slant_margins.1 slant'_margins.1 slant_margins.2.1
    slant'_margins.2.1 slant_margins.2.2 slant'_margins.2.2 ?_ ?_
  · rw [slant_req, slant'_req]
    have h1 : wanted [(.point (0, 0) 1 : Req ℕ ℕ), .point (2 / 8192, 1 / 8192) 2, .point (0, 1 / 8192) 3, .point (1 / 8192, 0) 4, .seg 0 1 10, .seg 2 3 20] = [((0, 0), 1), ((2 / 8192, 1 / 8192), 2)] ++ [((0, 1 / 8192), 3), ((1 / 8192, 0), 4)] := rfl
    have h2 : wanted [(.point (0, 1 / 8192) 3 : Req ℕ ℕ), .point (1 / 8192, 0) 4, .point (2 / 8192, 1 / 8192) 2, .point (0, 0) 1, .seg 0 1 20, .seg 2 3 10] = [((0, 1 / 8192), 3), ((1 / 8192, 0), 4)] ++ [((2 / 8192, 1 / 8192), 2), ((0, 0), 1)] := rfl
    rw [h1, h2]
    exact List.perm_append_comm.trans (List.Perm.append (List.Perm.refl _) (List.Perm.swap _ _ _))
  · rw [slant_req, slant'_req]
    have h1 : strokes [] [(.point (0, 0) 1 : Req ℕ ℕ), .point (2 / 8192, 1 / 8192) 2, .point (0, 1 / 8192) 3, .point (1 / 8192, 0) 4, .seg 0 1 10, .seg 2 3 20] = [⟨(0, 0), (2 / 8192, 1 / 8192), 10⟩, ⟨(0, 1 / 8192), (1 / 8192, 0), 20⟩] := rfl
    have h2 : strokes [] [(.point (0, 1 / 8192) 3 : Req ℕ ℕ), .point (1 / 8192, 0) 4, .point (2 / 8192, 1 / 8192) 2, .point (0, 0) 1, .seg 0 1 20, .seg 2 3 10] = [⟨(0, 1 / 8192), (1 / 8192, 0), 20⟩, ⟨(2 / 8192, 1 / 8192), (0, 0), 10⟩] := rfl
    rw [h1, h2]
    intro a b c
    unfold Asked
    simp only [List.mem_cons, List.not_mem_nil, or_false, exists_eq_or_imp, exists_eq_left]
    tauto

/-- **C121, the positions do differ.** The crossing is rounded differently in the two orders. -/
theorem C121_rounding :
    ((session PlanarGraph.new [] slantCall).map fun r => r.1.nodes[4]?.map fun b => (toRat b.position.x, toRat b.position.y)) =
      .ok (some (11184811 / 2 ^ 37, 11184811 / 2 ^ 38)) ∧
    ((session PlanarGraph.new [] slantCall').map fun r => r.1.nodes[4]?.map fun b => (toRat b.position.x, toRat b.position.y)) =
      .ok (some (11184811 / 2 ^ 37, 11184810 / 2 ^ 38)) := by
  constructor <;> decide +kernel

/-- the crossing segments have 5 nodes and 4 edges -/
example : ∃ h ids l, session PlanarGraph.new [] slantCall = .ok (h, ids, l) ∧ h.numberOfEdgesIncidentTo 4 = some 4 ∧
    h.numberOfEdgesIncidentTo 0 = some 1 := by
  obtain ⟨h, ids, l, h1, _⟩ := C121_size slantCall _ _ _ slant_finite.1 slant_margins.1 slant_margins.2.1 slant_margins.2.2
  have h2 : ((session PlanarGraph.new [] slantCall).map fun r => (r.1.numberOfEdgesIncidentTo 4, r.1.numberOfEdgesIncidentTo 0)) =
      .ok (some 4, some 1) := by decide +kernel
  rw [h1] at h2
  simp only [Except.map, Except.ok.injEq, Prod.mk.injEq] at h2
  exact ⟨h, ids, l, h1, h2.1, h2.2⟩

end
end Kami.Graph
