import Verif.Graph.MarginEdge
/-!
# C116: the subdivision in f32

A client that asks for points and segments, as in C102, in f32 and in exact arithmetic.  With margins between the points, the crossings
and the segments both get the same answers, and the f32 graph is the exact one with slightly displaced crossings.
-/

set_option autoImplicit false

namespace Kami.Graph

open Kami Kami.F32 Kami.Simple Kami.DistF32 Kami.Margin
open scoped Kami
open PlanarGraph
open Kami.UtilThm (dst crs dt OnSegR dst_nonneg dst_comm dst_triangle dst_eq_zero)

variable {T U : Type}

/-! ## Specification -/

/-- a call of a client: a point with data, or a segment between the `i`-th and the `j`-th requested point with data -/
inductive Call (F T U : Type)
  | point (x : Vec2 F) (t : T)
  | seg (i j : ℕ) (c : U)

/-- what `add_node` (src/graph/planar_graph.rs:180) and `add_edge` (src/graph/planar_graph.rs:204) return: the index of the node and the
indices of the changed edges, or the indices of the new nodes and of the changed edges -/
inductive Reply
  | node (id : ℕ) (edges : List ℕ)
  | edge (nodes edges : List ℕ)
  deriving DecidableEq

/-- A client of the library: it calls `add_node` (src/graph/planar_graph.rs:180) for a point and keeps the returned index, and
`add_edge(..).unwrap()` (src/graph/planar_graph.rs:204) with the indices it got for a segment.  The result is the graph, the kept indices
and all the replies. -/
def session {F : Type} [Scalar F] [Inhabited T] :
    PlanarGraph F T U → List ℕ → List (Call F T U) → Res (PlanarGraph F T U × List ℕ × List Reply)
  | g, ids, [] => .ok (g, ids, [])
  | g, ids, .point x t :: cs => do
    let (g', r) ← g.addNode x t
    let (g'', ids', l) ← session g' (ids ++ [r.1]) cs
    return (g'', ids', .node r.1 r.2 :: l)
  | g, ids, .seg i j c :: cs =>
    match ids[i]?, ids[j]? with
    | some a, some b => do
      let (g', r) ← g.addEdge a b c
      match r with
      | .ok r => do
        let (g'', ids', l) ← session g' ids cs
        return (g'', ids', .edge r.1 r.2 :: l)
      | .error _ => .error .unwrapFailed
    | _, _ => .error .indexOutOfBounds

noncomputable section

/-- the same call with the coordinates as real numbers -/
def Call.exact : Call F32 T U → Call XReal T U
  | .point x t => .point (pt (rpos x)) t
  | .seg i j c => .seg i j c

/-- the call as a request of C102 -/
def Call.req : Call F32 T U → Req T U
  | .point x t => .point (rpos x) t
  | .seg i j c => .seg i j c

/-- the coordinates are numbers -/
def Call.Finite : Call F32 T U → Prop
  | .point x _ => IsFin x.x ∧ IsFin x.y
  | .seg _ _ _ => True

/-- the f32 graph `h` is the exact graph `g` up to the positions of the crossings: the same edges in the same order; as many nodes, with
the same data and labels; nodes at the points `P` are in place, the others not farther than `d` from their place -/
structure Mirrors (P : List (ℝ × ℝ)) (d : ℝ) (g : PlanarGraph XReal T U) (h : PlanarGraph F32 T U) : Prop where
  edges : h.edges = g.edges
  len : h.nodes.length = g.nodes.length
  data : ∀ (i : ℕ) a b, g.nodes[i]? = some a → h.nodes[i]? = some b → b.data = a.data ∧ b.label = a.label
  position : ∀ (i : ℕ) b, h.nodes[i]? = some b → (IsFin b.position.x ∧ IsFin b.position.y) ∧ dst (rpos b.position) (place g i) ≤ d ∧
    (place g i ∈ P → rpos b.position = place g i)

/-! ## One call -/

section
variable {P : List (ℝ × ℝ)} {S S0 : List (Stroke U)} {B θ μ κ κ' δ : ℝ} {g : PlanarGraph XReal T U} {h : PlanarGraph F32 T U}
  {s0 : Stroke U} {a b : ℕ} {P0 : List ((ℝ × ℝ) × T)} {ids : List ℕ}

theorem Shadow.wf (hh : Shadow P S0 κ δ g h) (hw : WF g) : WF h := by
  intro e he
  rw [hh.edges] at he
  rw [hh.len]
  exact hw e he

/-- the exact graph of some requests: planar, nodes at points of `P` or at crossings of the segments `S0`, edges on segments of `S0` -/
structure Scene (P : List (ℝ × ℝ)) (S0 : List (Stroke U)) (g : PlanarGraph XReal T U) : Prop where
  plane : Plane g
  nodes : ∀ i, i < g.nodes.length → place g i ∈ P ∨ Meet P S0 (place g i)
  piece : ∀ e ∈ g.edges, ∃ s ∈ S0, e.data = s.c ∧ s.On (place g e.src) ∧ s.On (place g e.dst)

theorem Stage.scene [Inhabited T] (st : Stage P P0 S0 g ids) (hP : ∀ x ∈ P0.map Prod.fst, x ∈ P) : Scene P S0 g :=
  ⟨st.plane, fun _ hi => (st.node_cases hi).imp (hP _) id, st.piece⟩

theorem Scene.good (st : Scene P S0 g) (hS : ∀ s ∈ S0, s ∈ S) {i : ℕ} (hi : i < g.nodes.length) : place g i ∈ P ∨ Meet P S (place g i) :=
  (st.nodes i hi).imp id fun h => h.mono hS

theorem Scene.fit (st : Scene P S0 g) (hS : ∀ s ∈ S0, s ∈ S) : Fit P S S0 g := by
  refine ⟨st.plane.wf, st.plane.finite, st.plane.inj, fun i hi => st.good hS hi, st.plane.noloop, ?_⟩
  intro e he
  obtain ⟨s, hm, _, h1, h2⟩ := st.piece e he
  exact ⟨s, hm, h1, h2⟩

theorem Scene.thin (st : Scene P S0 g) : g.edges.Pairwise (Thin g) := by
  rw [List.pairwise_iff_getElem]
  intro i j hi hj hij y h1 h2
  obtain ⟨k, k1, _, rfl⟩ := st.plane.planar.meet i j _ _ (List.getElem?_eq_getElem hi) (List.getElem?_eq_getElem hj) (by omega) y h1 h2
  obtain ⟨w1, w2⟩ := st.plane.wf _ (List.getElem_mem hi)
  rcases k1 with rfl | rfl
  · exact ⟨_, w1, rfl⟩
  · exact ⟨_, w2, rfl⟩

/-- the new segment does not disturb the old nodes -/
theorem Shadow.more (hh : Shadow P S0 κ δ g h) (hs : Setting P S B θ μ δ) (hw : NewSeg P S S0 θ μ g s0 a b) (hk' : Dev θ μ κ')
    (hle : κ ≤ κ') : Shadow P (S0 ++ [s0]) κ' δ g h := by
  refine ⟨hh.edges, hh.len, ?_⟩
  intro i x y hx hy
  have hi := (List.getElem?_eq_some_iff.1 hx).1
  have hn := hh.node i x y hx hy
  refine ⟨hn.data, hn.label, hn.fin, hn.near, hn.exact', ?_⟩
  intro s hm ho
  have hd := dst_nonneg s.a s.b
  rcases List.mem_append.1 hm with hm | hm
  · exact (hn.dev s hm ho).trans (mul_le_mul_of_nonneg_right hle hd)
  · rw [List.mem_singleton] at hm
    subst hm
    obtain ⟨ea, eb⟩ := hs.stroke_ends s hw.mem
    have hp : place g i ∈ P := by
      rcases hw.node_on hs hi ho with h1 | h1 <;> rw [h1]
      · exact ea
      · exact eb
    rw [hn.exact' hp, crs_self_on ho, abs_zero]
    exact mul_nonneg hk'.κ0 hd

theorem Fit.pushEdge (hf : Fit P S S0 g) (hw : NewSeg P S S0 θ μ g s0 a b) (c : U) : Fit P S (S0 ++ [s0]) (pushEdge g a b c) := by
  refine ⟨hf.wf.pushEdge hw.ha hw.hb _, hf.drawn, hf.inj, hf.vertex, ?_, ?_⟩
  · intro e he
    rcases List.mem_append.1 he with he | he
    · exact hf.noloop e he
    · rw [List.mem_singleton] at he
      subst he
      intro hc
      simp only at hc
      apply hw.ne
      rw [← hw.pa, ← hw.pb, hc]
  · intro e he
    rcases List.mem_append.1 he with he | he
    · obtain ⟨s, hm, h1⟩ := hf.piece e he
      exact ⟨s, List.mem_append_left _ hm, h1⟩
    · rw [List.mem_singleton] at he
      subst he
      refine ⟨s0, by simp, ?_, ?_⟩
      · change OnSegR _ _ (place g a)
        rw [hw.pa]; exact onSeg_left _ _
      · change OnSegR _ _ (place g b)
        rw [hw.pb]; exact onSeg_right _ _

theorem Fit.clean_pushEdge (hf : Fit P S S0 g) (hc : Clean g) (hs : Setting P S B θ μ δ) (hw : NewSeg P S S0 θ μ g s0 a b) (c : U) :
    Clean (Graph.pushEdge g a b c) := by
  intro e he i hi ho
  rcases List.mem_append.1 he with he | he
  · exact hc e he i hi ho
  · rw [List.mem_singleton] at he
    subst he
    change OnSegR (place g a) (place g b) (place g i) at ho
    rw [hw.pa, hw.pb] at ho
    rcases hw.node_on hs hi ho with h1 | h1
    · exact Or.inl (hf.inj _ _ hi hw.ha (h1.trans hw.pa.symm))
    · exact Or.inr (hf.inj _ _ hi hw.hb (h1.trans hw.pb.symm))

theorem hasEdge_eq {F G : Type} [Scalar F] [Scalar G] {g : PlanarGraph F T U} {h : PlanarGraph G T U} (he : h.edges = g.edges) (i j : ℕ) :
    h.hasEdgeBetweenNodes i j = g.hasEdgeBetweenNodes i j := by
  unfold hasEdgeBetweenNodes
  rw [he]

/-- **a segment** -/
theorem Shadow.seg [Inhabited T] (hh : Shadow P S0 κ δ g h) (st : Scene P S0 g) (hs : Setting P S B θ μ δ) (hk : Dev θ μ κ) (hk' : Dev θ μ κ') (hg : Grow B θ κ κ' δ) (hw : NewSeg P S S0 θ μ g s0 a b) {c : U}
    {g' : PlanarGraph XReal T U} {r : List ℕ × List ℕ} (hok : g.addEdge a b c = .ok (g', .ok r)) :
    ∃ h', h.addEdge a b c = .ok (h', .ok r) ∧ Shadow P (S0 ++ [s0]) κ' δ g' h' := by
  have hf := st.fit hw.sub
  have hc : Clean g := st.plane.planar.node
  have hub : 0 ≤ u * B := mul_nonneg u_pos.le hs.B0.le
  have hle : κ ≤ κ' := by linarith [hg.old]
  have hm := hh.more hs hw hk' hle
  rcases addEdge_ok g hf.wf a b c with ⟨h1, h2⟩ | ⟨_, h2, _⟩ | ⟨h1, h2, h3, g1, cn, ce, hi, h4⟩
  · rw [h2] at hok
    cases hok
    refine ⟨h, ?_, hm⟩
    rcases addEdge_ok h (hh.wf hf.wf) a b c with ⟨_, k2⟩ | ⟨k1, _⟩ | ⟨k1, _⟩
    · exact k2
    · rw [hasEdge_eq hh.edges, h1] at k1; cases k1
    · rw [hasEdge_eq hh.edges, h1] at k1; cases k1
  · exact absurd ⟨hw.ha, hw.hb⟩ h2
  · rcases addEdge_ok h (hh.wf hf.wf) a b c with ⟨k1, _⟩ | ⟨_, k2, _⟩ | ⟨_, _, _, h1', cn', ce', hi', k4⟩
    · rw [hasEdge_eq hh.edges, h1] at k1; cases k1
    · rw [hh.len] at k2; exact absurd ⟨hw.ha, hw.hb⟩ k2
    · rw [h4] at hok
      cases hok
      obtain ⟨ys, t1, t2, t3⟩ := track_unique (f := ⟨a, b, c, defaultLabel⟩) hs hw.mem hh.edges
        (fun e he => hh.classify hf hc hs hk hw hg he c) st.thin
      have hS : ∀ s ∈ S0 ++ [s0], s ∈ S := by
        intro s hsm
        rcases List.mem_append.1 hsm with hsm | hsm
        · exact hw.sub s hsm
        · rw [List.mem_singleton] at hsm
          rw [hsm]; exact hw.mem
      have hsh : Shadow P (S0 ++ [s0]) κ' δ (Graph.pushEdge g a b c) (Graph.pushEdge h a b c) :=
        ⟨by simp only [Graph.pushEdge, hm.edges], hm.len, hm.node⟩
      have hE : ∀ X ∈ [s0.a, s0.b], ∃ i, i < (Graph.pushEdge g a b c).nodes.length ∧ place (Graph.pushEdge g a b c) i = X := by
        intro X hX
        simp only [List.mem_cons, List.not_mem_nil, or_false] at hX
        rcases hX with rfl | rfl
        · exact ⟨a, hw.ha, hw.pa⟩
        · exact ⟨b, hw.hb, hw.pb⟩
      obtain ⟨q1, rfl, rfl⟩ := t1.inserts hs hk' hS (hf.pushEdge hw c) (hf.clean_pushEdge hc hs hw c) hsh hE t2 t3 hi hi'
      refine ⟨h1', ?_, q1⟩
      rw [k4, q1.edges]

/-- **a point** -/
theorem Shadow.point [Inhabited T] (hh : Shadow P S0 κ δ g h) (st : Scene P S0 g)
    (hS : ∀ s ∈ S0, s ∈ S) (hs : Setting P S B θ μ δ) (hk : Dev θ μ κ) {q : Vec2 F32} (hq : IsFin q.x ∧ IsFin q.y) (hx : rpos q ∈ P)
    (hn : ∀ i, i < g.nodes.length → place g i ≠ rpos q) {t : T} {g' : PlanarGraph XReal T U} {r : ℕ × List ℕ} (hok : g.addNode (pt (rpos q)) t = .ok (g', r)) :
    ∃ h', h.addNode q t = .ok (h', r) ∧ Shadow P S0 κ δ g' h' := by
  have hf := st.fit hS
  have n1 := hf.not_near hs (Or.inl hx) hn
  have n2 := hh.not_near hf hs (Or.inl hx) hn hq (by rw [dst_eq_zero.2 rfl]; exact hs.δ0)
  have o1 := addNode_ok g hf.wf (pt (rpos q)) t
  have o2 := addNode_ok h (hh.wf hf.wf) q t
  unfold addNodeG at o1 o2
  rw [n1] at o1
  rw [n2] at o2
  simp only [Bool.false_eq_true, if_false] at o1 o2
  rw [o1] at hok
  cases hok
  have hsh : Shadow P S0 κ δ (pushNode g (pt (rpos q)) t) (pushNode h q t) := by
    refine hh.push ⟨rfl, rfl, hq, ?_, fun _ => rfl, ?_⟩
    · change dst (rpos q) (rpos q) ≤ δ
      rw [dst_eq_zero.2 rfl]; exact hs.δ0
    · intro s _ ho
      change |crs s.a s.b s.a (rpos q)| ≤ _
      rw [crs_self_on ho, abs_zero]
      exact mul_nonneg hk.κ0 (dst_nonneg _ _)
  have hfp := hf.push (Or.inl hx) hn t
  have hlt : g.nodes.length < (pushNode g (pt (rpos q)) t).nodes.length := by simp [pushNode]
  refine ⟨_, ?_, hsh.split hfp hs hk hS hlt⟩
  rw [o2, hh.len, (hsh.split_eq hfp hs hk hS hlt).2]

end

/-! ## Numbers -/

theorem Fine.setting {P : List (ℝ × ℝ)} {S : List (Stroke U)} {B θ μ : ℝ} {N : ℕ} (hm : Margins P S B θ μ) (hf : Fine B θ μ N)
    (he : ∀ s ∈ S, s.a ∈ P ∧ s.b ∈ P) : Setting P S B θ μ (posBound B θ N) := by
  have hμ0 : 0 < μ := lt_of_lt_of_le (by positivity) hf.hμ
  have hB0 : 0 < B := lt_of_lt_of_le hμ0 hf.hB
  have hN : (0 : ℝ) ≤ N := Nat.cast_nonneg N
  have hNB : 0 ≤ N * B := mul_nonneg hN hB0.le
  have hd := hf.dist
  have hθ := hf.θ0
  refine ⟨hm, he, hf.θ0, hf.θ1, hf.hB, hf.hμ, ?_, ?_, ?_, ?_, ?_⟩
  · have := hf.sq
    unfold u
    linarith
  · have := hf.angle
    linarith
  · unfold posBound
    have := u_pos
    positivity
  · unfold posBound
    rw [← mul_div_assoc, div_le_iff₀ hθ]
    unfold u
    linarith
  · unfold u
    linarith

theorem Fine.dev {B θ μ : ℝ} {N : ℕ} (hf : Fine B θ μ N) {k : ℕ} (hk : k ≤ N) : Dev θ μ (devBound B k) := by
  have hμ0 : 0 < μ := lt_of_lt_of_le (by positivity) hf.hμ
  have hB0 : 0 < B := lt_of_lt_of_le hμ0 hf.hB
  have hkN : (k : ℝ) ≤ N := by exact_mod_cast hk
  have hk0 : (0 : ℝ) ≤ k := Nat.cast_nonneg k
  have hkB : k * B ≤ N * B := mul_le_mul_of_nonneg_right hkN hB0.le
  have hd := hf.dist
  have ha := hf.angle
  have h1 := hf.θ1
  have hkB0 : 0 ≤ k * B := mul_nonneg hk0 hB0.le
  refine ⟨?_, ?_, ?_⟩ <;> unfold devBound u
  · positivity
  · linarith
  · linarith

theorem Fine.grow {B θ μ : ℝ} {N : ℕ} (hf : Fine B θ μ N) {k : ℕ} (hk : k < N) :
    Grow B θ (devBound B k) (devBound B (k + 1)) (posBound B θ N) := by
  have hμ0 : 0 < μ := lt_of_lt_of_le (by positivity) hf.hμ
  have hB0 : 0 < B := lt_of_lt_of_le hμ0 hf.hB
  have hub : 0 < u * B := mul_pos u_pos hB0
  have hkN : (k : ℝ) ≤ N := by exact_mod_cast hk.le
  have hk0 : (0 : ℝ) ≤ k := Nat.cast_nonneg k
  have hkB : k * (u * B) ≤ N * (u * B) := mul_le_mul_of_nonneg_right hkN hub.le
  have hkB0 : 0 ≤ k * (u * B) := mul_nonneg hk0 hub.le
  refine ⟨?_, ?_, ?_⟩ <;> unfold devBound
  · push_cast; linarith
  · push_cast; linarith
  · unfold posBound
    rw [mul_div_cancel₀ _ hf.θ0.ne']
    linarith

/-- margins are more than the tolerance needs -/
theorem Setting.apart {P : List (ℝ × ℝ)} {S : List (Stroke U)} {B θ μ δ : ℝ} (hs : Setting P S B θ μ δ) : Apart P S := by
  have heps := XReal.epsR_pos
  have h16 := hs.eps_lt
  have hμ0 := hs.μ0
  have far : ∀ x y, (x ∈ P ∨ Meet P S x) → (y ∈ P ∨ Meet P S y) → x ≠ y → XReal.epsR < dst x y := by
    intro x y hx hy hne
    have := hs.margins.sep x y hx hy hne
    linarith
  have clr : ∀ x, (x ∈ P ∨ Meet P S x) → ∀ s ∈ S, ¬ s.On x → dst s.a s.b + XReal.epsR ≤ dst s.a x + dst x s.b := by
    intro x hx s hm hn
    obtain ⟨e1, e2⟩ := hs.stroke_ends s hm
    exact hs.eps_ellipse (hs.margins.box _ e1) (hs.margins.box _ e2) (fun z hz => hs.margins.off x hx s hm hn z hz)
  refine ⟨?_, ?_, hs.margins.once, fun y hy s hm hn => clr y (Or.inr hy) s hm hn, ?_, ?_, hs.margins.cross_two⟩
  · refine List.Pairwise.imp_of_mem ?_ hs.margins.nodup
    intro x y hx hy hne
    exact far x y (Or.inl hx) (Or.inl hy) hne
  · intro x hx s hm h1 h2
    refine clr x (Or.inl hx) s hm ?_
    intro ho
    rcases hs.margins.ends x hx s hm ho with rfl | rfl
    · exact h1 rfl
    · exact h2 rfl
  · intro y hy x hx
    refine far y x (Or.inr hy) (Or.inl hx) ?_
    rintro rfl
    exact hy.1 hx
  · intro y y' hy hy' hne
    exact far y y' (Or.inr hy) (Or.inr hy') hne

/-! ## All calls -/

theorem strokes_ends {rs : List (Req T U)} : ∀ {ps : List (ℝ × ℝ)}, Valid ps.length rs → ∀ s ∈ strokes ps rs,
    s.a ∈ ps ++ points rs ∧ s.b ∈ ps ++ points rs := by
  induction rs with
  | nil => intro ps _ s hs; cases hs
  | cons r rs ih =>
    intro ps hv s hs
    cases r with
    | point x t =>
      have h1 := ih (ps := ps ++ [x]) (by simpa [Valid] using hv) s hs
      simpa [points, wanted] using h1
    | seg i j c =>
      obtain ⟨hi, hj, _, hv⟩ := hv
      rcases List.mem_cons.1 hs with rfl | hs
      · have key : ∀ k, k < ps.length → ps.getD k (0, 0) ∈ ps := by
          intro k hk
          rw [List.getD_eq_getElem?_getD, List.getElem?_eq_getElem hk]; exact List.getElem_mem hk
        exact ⟨List.mem_append_left _ (key i hi), List.mem_append_left _ (key j hj)⟩
      · exact ih hv s hs

theorem session_stage [Inhabited T] {P : List (ℝ × ℝ)} {S : List (Stroke U)} {B θ μ : ℝ} {N : ℕ} (hm : Margins P S B θ μ)
    (hf : Fine B θ μ N) (he : ∀ s ∈ S, s.a ∈ P ∧ s.b ∈ P) (hN : S.length ≤ N) (cs : List (Call F32 T U)) :
    ∀ (P0 : List ((ℝ × ℝ) × T)) (S0 : List (Stroke U)) (g : PlanarGraph XReal T U) (h : PlanarGraph F32 T U) (ids : List ℕ),
      Stage P P0 S0 g ids → Shadow P S0 (devBound B S0.length) (posBound B θ N) g h → (∀ c ∈ cs, c.Finite) →
      Valid P0.length (cs.map Call.req) → P = P0.map Prod.fst ++ points (cs.map Call.req) →
      S = S0 ++ strokes (P0.map Prod.fst) (cs.map Call.req) →
      ∃ g' h' ids' l, session g ids (cs.map Call.exact) = .ok (g', ids', l) ∧ session h ids cs = .ok (h', ids', l) ∧
        client g ids (cs.map Call.req) = .ok (g', ids') ∧ Shadow P S (devBound B S.length) (posBound B θ N) g' h' := by
  have hs := hf.setting hm he
  have hA := hs.apart
  induction cs with
  | nil =>
    intro P0 S0 g h ids st hh _ _ hP hS
    simp only [List.map_nil, strokes, List.append_nil] at hS
    subst hS
    exact ⟨g, h, ids, [], rfl, rfl, rfl, hh⟩
  | cons r cs ih =>
    intro P0 S0 g h ids st hh hfin hv hP hS
    have hP' : ∀ x ∈ P0.map Prod.fst, x ∈ P := fun x hx => by rw [hP]; exact List.mem_append_left _ hx
    have hS' : ∀ s ∈ S0, s ∈ S := fun s hs => by rw [hS]; exact List.mem_append_left _ hs
    have hfin' : ∀ c ∈ cs, c.Finite := fun c hc => hfin c (List.mem_cons_of_mem _ hc)
    have hr := hfin r (List.mem_cons_self ..)
    have hlen : S0.length ≤ N := by
      have := congrArg List.length hS
      rw [List.length_append] at this
      omega
    cases r with
    | point x t =>
      have hxP : rpos x ∈ P := by rw [hP]; simp [points, wanted, Call.req]
      have hnew : rpos x ∉ P0.map Prod.fst := by
        intro hc
        have h1 := hm.nodup
        rw [hP, List.nodup_append] at h1
        exact h1.2.2 _ hc _ (by simp [points, wanted, Call.req]) rfl
      obtain ⟨g', r, h1, _, h2⟩ := st.point hA hP' hS' (t := t) hxP hnew
      have hn : ∀ i, i < g.nodes.length → place g i ≠ rpos x := by
        intro i hi hc
        rcases st.node_cases hi with h1 | h1
        · rw [hc] at h1; exact hnew h1
        · rw [hc] at h1; exact h1.1 hxP
      obtain ⟨h', k1, k2⟩ := hh.point (st.scene hP') hS' hs (hf.dev hlen) hr hxP hn h1
      obtain ⟨g2, hh2, ids2, l, a1, a2, a3, a4⟩ := ih _ _ _ _ _ h2 k2 hfin'
        (by simp only [List.map_cons, Call.req, Valid] at hv; simpa using hv)
        (by rw [hP]; simp [points, wanted, Call.req]) (by rw [hS]; simp [strokes, Call.req])
      refine ⟨g2, hh2, ids2, .node r.1 r.2 :: l, ?_, ?_, ?_, a4⟩
      · simp only [List.map_cons, Call.exact, session, h1, a1, bind, Except.bind, pure, Except.pure]
      · simp only [session, k1, a2, bind, Except.bind, pure, Except.pure]
      · simp only [List.map_cons, Call.req, client, h1, bind, Except.bind]
        exact a3
    | seg i j c =>
      obtain ⟨hi, hj, hij, hv'⟩ := hv
      have gi : P0[i]? = some P0[i] := List.getElem?_eq_getElem hi
      have gj : P0[j]? = some P0[j] := List.getElem?_eq_getElem hj
      have di : (P0.map Prod.fst).getD i (0, 0) = P0[i].1 := by
        rw [List.getD_eq_getElem?_getD, List.getElem?_map, gi]; rfl
      have dj : (P0.map Prod.fst).getD j (0, 0) = P0[j].1 := by
        rw [List.getD_eq_getElem?_getD, List.getElem?_map, gj]; rfl
      simp only [List.map_cons, Call.req, strokes, di, dj] at hS
      have hne : P0[i].1 ≠ P0[j].1 := by
        have h2 : (P0.map Prod.fst).Nodup := by
          have h1 := hm.nodup
          rw [hP, List.nodup_append] at h1
          exact h1.1
        intro hc
        apply hij
        have h3 : (P0.map Prod.fst)[i]? = (P0.map Prod.fst)[j]? := by
          rw [List.getElem?_map, List.getElem?_map, gi, gj]; simp [hc]
        exact (List.getElem?_inj (by simpa using hi) h2).1 h3
      have hmem : (⟨P0[i].1, P0[j].1, c⟩ : Stroke U) ∈ S := by rw [hS]; simp
      have honce : ∀ s ∈ S0, ¬ (s.a = P0[i].1 ∧ s.b = P0[j].1) ∧ ¬ (s.a = P0[j].1 ∧ s.b = P0[i].1) := by
        intro s hs
        have h1 := hm.once
        rw [hS, List.pairwise_append] at h1
        exact h1.2.2 s hs ⟨P0[i].1, P0[j].1, c⟩ (by simp)
      obtain ⟨a, b, g', r, h1, h2, h3, _, h4⟩ := st.seg hA hP' (s0 := ⟨P0[i].1, P0[j].1, c⟩) (i := i) (j := j)
        (t := P0[i].2) (t' := P0[j].2) hS' hmem gi gj hne honce
      obtain ⟨a', ha1, ha2⟩ := st.ids_at i _ _ gi
      obtain ⟨b', hb1, hb2⟩ := st.ids_at j _ _ gj
      rw [h1] at ha1; cases ha1
      rw [h2] at hb1; cases hb1
      have hw : NewSeg P S S0 θ μ g ⟨P0[i].1, P0[j].1, c⟩ a b := by
        refine ⟨hmem, fun hc => (honce _ hc).1 ⟨rfl, rfl⟩, hS', ?_, ?_, (List.getElem?_eq_some_iff.1 ha2).1,
          (List.getElem?_eq_some_iff.1 hb2).1, place_get ha2, place_get hb2, hne⟩
        · intro s hs
          have h1 := hm.angle
          rw [hS, List.pairwise_append] at h1
          exact h1.2.2 s hs _ (by simp)
        · intro k hk
          exact (st.node_cases hk).imp (hP' _) id
      have hlt : S0.length < N := by
        have := congrArg List.length hS
        rw [List.length_append, List.length_cons] at this
        omega
      obtain ⟨h', k1, k2⟩ := hh.seg (st.scene hP') hs (hf.dev hlen) (hf.dev hlt) (hf.grow hlt) hw h3
      have k2' : Shadow P (S0 ++ [⟨P0[i].1, P0[j].1, c⟩]) (devBound B (S0 ++ [(⟨P0[i].1, P0[j].1, c⟩ : Stroke U)]).length)
          (posBound B θ N) g' h' := by
        rw [List.length_append, List.length_singleton]; exact k2
      obtain ⟨g2, hh2, ids2, l, a1, a2, a3, a4⟩ := ih _ _ _ _ _ h4 k2' hfin' hv' (by rw [hP]; simp [points, wanted, Call.req])
        (by rw [hS]; simp)
      refine ⟨g2, hh2, ids2, .edge r.1 r.2 :: l, ?_, ?_, ?_, a4⟩
      · simp only [List.map_cons, Call.exact, session, h1, h2, h3, a1, bind, Except.bind, pure, Except.pure]
      · simp only [session, h1, h2, k1, a2, bind, Except.bind, pure, Except.pure]
      · simp only [List.map_cons, Call.req, client, h1, h2, h3, bind, Except.bind]
        exact a3

/-- **C116.** For all calls with finite coordinates whose points, crossings and segments keep the margins: the f32 client and the exact
client get the same indices and the same replies, without panics and errors; the f32 graph has the edges of the exact graph, and its
nodes are the nodes of the exact graph, the requested ones in place, the others not farther than `posBound` from their place. -/
theorem C116_session [Inhabited T] (cs : List (Call F32 T U)) (B θ μ : ℝ) (hfin : ∀ c ∈ cs, c.Finite) (hv : Valid 0 (cs.map Call.req))
    (hm : Margins (points (cs.map Call.req)) (strokes [] (cs.map Call.req)) B θ μ)
    (hf : Fine B θ μ (strokes [] (cs.map Call.req)).length) :
    ∃ g h ids l, session PlanarGraph.new [] (cs.map Call.exact) = .ok (g, ids, l) ∧ session PlanarGraph.new [] cs = .ok (h, ids, l) ∧
      client PlanarGraph.new [] (cs.map Call.req) = .ok (g, ids) ∧
      Mirrors (points (cs.map Call.req)) (posBound B θ (strokes [] (cs.map Call.req)).length) g h := by
  have he : ∀ s ∈ strokes [] (cs.map Call.req), s.a ∈ points (cs.map Call.req) ∧ s.b ∈ points (cs.map Call.req) := by
    intro s hs
    have := strokes_ends (ps := []) hv s hs
    simpa using this
  obtain ⟨g, h, ids, l, h1, h2, h3, h4⟩ := session_stage hm hf he (le_refl _) cs [] [] PlanarGraph.new PlanarGraph.new [] (Stage.new _)
    ⟨rfl, rfl, fun i a b ha => by cases ha⟩ hfin hv rfl rfl
  refine ⟨g, h, ids, l, h1, h2, h3, h4.edges, h4.len, ?_, ?_⟩
  · intro i a b ha hb
    exact ⟨(h4.node i a b ha hb).data, (h4.node i a b ha hb).label⟩
  · intro i b hb
    have hi := (List.getElem?_eq_some_iff.1 hb).1
    rw [h4.len] at hi
    have hn := h4.node i _ b (List.getElem?_eq_getElem hi) hb
    exact ⟨hn.fin, hn.near, hn.exact'⟩

/-- **C116, the arrangement.** Under the same hypotheses the f32 graph is the arrangement of the requested segments: there are true
places of its nodes, different for different nodes, and these are exactly the requested points and the crossings; the f32 positions
are not farther than `posBound` from them; the indices kept by the client are those of nodes at the requested positions with the
requested data; two nodes are joined by an edge with data `c` if and only if they are on a requested segment with data `c` and no other
node is between them. -/
theorem C116_arrangement [Inhabited T] (cs : List (Call F32 T U)) (B θ μ : ℝ) (hfin : ∀ c ∈ cs, c.Finite)
    (hv : Valid 0 (cs.map Call.req)) (hm : Margins (points (cs.map Call.req)) (strokes [] (cs.map Call.req)) B θ μ)
    (hf : Fine B θ μ (strokes [] (cs.map Call.req)).length) :
    ∃ (h : PlanarGraph F32 T U) (ids : List ℕ) (l : List Reply) (pos : ℕ → ℝ × ℝ), session PlanarGraph.new [] cs = .ok (h, ids, l) ∧
      (∀ i j, i < h.nodes.length → j < h.nodes.length → pos i = pos j → i = j) ∧
      (∀ y, (∃ i, i < h.nodes.length ∧ pos i = y) ↔
        y ∈ points (cs.map Call.req) ∨ Meet (points (cs.map Call.req)) (strokes [] (cs.map Call.req)) y) ∧
      (∀ (i : ℕ) b, h.nodes[i]? = some b → (IsFin b.position.x ∧ IsFin b.position.y) ∧
        dst (rpos b.position) (pos i) ≤ posBound B θ (strokes [] (cs.map Call.req)).length) ∧
      (∀ (k : ℕ) x t, (wanted (cs.map Call.req))[k]? = some (x, t) →
        ∃ i b, ids[k]? = some i ∧ h.nodes[i]? = some b ∧ rpos b.position = x ∧ b.data = t ∧ b.label = "") ∧
      ∀ i j, i < h.nodes.length → j < h.nodes.length → ∀ c : U,
        (∃ e ∈ h.edges, e.data = c ∧ ((e.src = i ∧ e.dst = j) ∨ (e.src = j ∧ e.dst = i))) ↔
          i ≠ j ∧ (∃ s ∈ strokes [] (cs.map Call.req), s.c = c ∧ s.On (pos i) ∧ s.On (pos j)) ∧
            ∀ k, k < h.nodes.length → OnSegR (pos i) (pos j) (pos k) → k = i ∨ k = j := by
  obtain ⟨g, h, ids, l, _, h2, h3, hfo⟩ := C116_session cs B θ μ hfin hv hm hf
  have he : ∀ s ∈ strokes [] (cs.map Call.req), s.a ∈ points (cs.map Call.req) ∧ s.b ∈ points (cs.map Call.req) := by
    intro s hs
    have := strokes_ends (ps := []) hv s hs
    simpa using this
  have hA := (hf.setting hm he).apart
  obtain ⟨g1, ids1, k1, kp, kw, kn, _, _⟩ := C102_arrangement _ hv hA
  rw [h3] at k1
  cases k1
  have hE := C102_edges _ hv hA g ids h3
  refine ⟨h, ids, l, place g, h2, ?_, ?_, ?_, ?_, ?_⟩
  · rw [hfo.len]; exact kp.inj
  · rw [hfo.len]; exact kn
  · intro i b hb
    obtain ⟨q1, q2, _⟩ := hfo.position i b hb
    exact ⟨q1, q2⟩
  · intro k x t hk
    obtain ⟨i, hi, hn⟩ := kw k x t hk
    have hlt := (List.getElem?_eq_some_iff.1 hn).1
    have hlt' : i < h.nodes.length := by rw [hfo.len]; exact hlt
    have hb := List.getElem?_eq_getElem hlt'
    have hx : x ∈ points (cs.map Call.req) := List.mem_map.2 ⟨_, List.mem_of_getElem? hk, rfl⟩
    have hpl : place g i = x := place_get hn
    obtain ⟨_, _, q3⟩ := hfo.position i _ hb
    obtain ⟨d1, d2⟩ := hfo.data i _ _ hn hb
    exact ⟨i, _, hi, hb, by rw [q3 (by rw [hpl]; exact hx), hpl], d1, d2⟩
  · rw [hfo.len, hfo.edges]
    exact hE

/-! ### The hypotheses can be met, and the size matters -/

theorem far_of_crs {a b x z : ℝ × ℝ} {m : ℝ} (hab : a ≠ b) (h : m * dst a b ≤ |crs a b a x|) (hz : OnSegR a b z) : m ≤ dst x z := by
  have h1 := abs_crs_le a b z x
  have h2 : crs a b z x = crs a b a x := by
    have := crs_self_on hz
    rw [crs_sub a b a z x, this, sub_zero]
  rw [h2, mul_comm (dst a b), dst_comm z x] at h1
  have h3 : 0 < dst a b := lt_of_le_of_ne (dst_nonneg _ _) (fun hc => hab (dst_eq_zero.1 hc.symm))
  exact le_of_mul_le_mul_right (h.trans h1) h3

/-- two segments `ab` and `cd` that cross in `y` -/
theorem margins_two {a b c d y : ℝ × ℝ} {v w : U} {B θ μ : ℝ} (hbox : ∀ x ∈ [a, b, c, d], |x.1| ≤ B ∧ |x.2| ≤ B) (hμ : 0 < μ)
    (hθ : 0 < θ) (hsep : [a, b, c, d, y].Pairwise fun x z => μ ≤ dst x z) (ya : OnSegR a b y) (yc : OnSegR c d y)
    (h1 : μ * dst a b ≤ |crs a b a c|) (h2 : μ * dst a b ≤ |crs a b a d|) (h3 : μ * dst c d ≤ |crs c d c a|)
    (h4 : μ * dst c d ≤ |crs c d c b|) (h5 : θ * (dst a b * dst c d) ≤ |crs a b c d|) :
    Margins [a, b, c, d] [(⟨a, b, v⟩ : Stroke U), ⟨c, d, w⟩] B θ μ := by
  have hne : ∀ {x z : ℝ × ℝ}, μ ≤ dst x z → x ≠ z := by
    rintro x z h rfl
    rw [dst_eq_zero.2 rfl] at h
    linarith
  have hsymm : Std.Symm (fun x z : ℝ × ℝ => μ ≤ dst x z) := ⟨fun x z h => by rw [dst_comm]; exact h⟩
  have hs : ∀ x ∈ [a, b, c, d, y], ∀ z ∈ [a, b, c, d, y], x ≠ z → μ ≤ dst x z := fun x hx z hz hxz => hsep.forall hx hz hxz
  have hnd : [a, b, c, d, y].Nodup := hsep.imp (fun h => hne h)
  simp only [List.nodup_cons, List.mem_cons, List.not_mem_nil, or_false, not_or, List.nodup_nil, not_false_eq_true, and_true] at hnd
  obtain ⟨⟨nab, nac, nad, nay⟩, ⟨nbc, nbd, nby⟩, ⟨ncd, ncy⟩, ndy⟩ := hnd
  have pab : 0 < dst a b := lt_of_lt_of_le hμ (hs a (by simp) b (by simp) nab)
  have pcd : 0 < dst c d := lt_of_lt_of_le hμ (hs c (by simp) d (by simp) ncd)
  have hcr : crs a b c d ≠ 0 := by
    intro hc
    rw [hc, abs_zero] at h5
    have : 0 < θ * (dst a b * dst c d) := by positivity
    linarith
  have uniq : ∀ z, OnSegR a b z → OnSegR c d z → z = y := by
    intro z za zc
    have e1 : crs a b y z = 0 := by rw [crs_sub a b a y z, crs_self_on za, crs_self_on ya, sub_zero]
    have e2 : crs c d y z = 0 := by rw [crs_sub c d c y z, crs_self_on zc, crs_self_on yc, sub_zero]
    have h := oblique a b c d y z
    rw [e1, e2, abs_zero, zero_mul, zero_mul, add_zero] at h
    have h6 : 0 < |crs a b c d| := abs_pos.2 hcr
    have h7 : dst y z = 0 := le_antisymm (by nlinarith [dst_nonneg y z]) (dst_nonneg _ _)
    exact (dst_eq_zero.1 h7).symm
  have hM : ∀ z, Meet [a, b, c, d] [(⟨a, b, v⟩ : Stroke U), ⟨c, d, w⟩] z → z = y := by
    rintro z ⟨_, s, m1, s', m2, hss, o1, o2⟩
    simp only [List.mem_cons, List.not_mem_nil, or_false] at m1 m2
    rcases m1 with rfl | rfl <;> rcases m2 with rfl | rfl
    · exact absurd rfl hss
    · exact uniq z o1 o2
    · exact uniq z o2 o1
    · exact absurd rfl hss
  have hV : ∀ z, (z ∈ [a, b, c, d] ∨ Meet [a, b, c, d] [(⟨a, b, v⟩ : Stroke U), ⟨c, d, w⟩] z) → z ∈ [a, b, c, d, y] := by
    rintro z (hz | hz)
    · simp only [List.mem_cons, List.not_mem_nil, or_false] at hz ⊢
      tauto
    · rw [hM z hz]; simp
  have f1 : ∀ z, OnSegR a b z → μ ≤ dst c z := fun z hz => far_of_crs nab h1 hz
  have f2 : ∀ z, OnSegR a b z → μ ≤ dst d z := fun z hz => far_of_crs nab h2 hz
  have f3 : ∀ z, OnSegR c d z → μ ≤ dst a z := fun z hz => far_of_crs ncd h3 hz
  have f4 : ∀ z, OnSegR c d z → μ ≤ dst b z := fun z hz => far_of_crs ncd h4 hz
  have not_on : ∀ {x z : ℝ × ℝ}, μ ≤ dst x z → x = z → False := fun h e => hne h e
  refine ⟨hbox, ?_, fun x z hx hz h => hs x (hV x hx) z (hV z hz) h, ?_, ?_, ?_, ?_, ?_⟩
  · simp [nab, nac, nad, nbc, nbd, ncd]
  · intro x hx s m hn z hz
    have hx := hV x hx
    simp only [List.mem_cons, List.not_mem_nil, or_false] at hx m
    rcases m with rfl | rfl
    · rcases hx with rfl | rfl | rfl | rfl | rfl
      · exact absurd (onSeg_left _ _) hn
      · exact absurd (onSeg_right _ _) hn
      · exact f1 z hz
      · exact f2 z hz
      · exact absurd ya hn
    · rcases hx with rfl | rfl | rfl | rfl | rfl
      · exact f3 z hz
      · exact f4 z hz
      · exact absurd (onSeg_left _ _) hn
      · exact absurd (onSeg_right _ _) hn
      · exact absurd yc hn
  · intro x hx s m ho
    simp only [List.mem_cons, List.not_mem_nil, or_false] at hx m
    rcases m with rfl | rfl
    · rcases hx with rfl | rfl | rfl | rfl
      · exact Or.inl rfl
      · exact Or.inr rfl
      · exact (not_on (f1 _ ho) rfl).elim
      · exact (not_on (f2 _ ho) rfl).elim
    · rcases hx with rfl | rfl | rfl | rfl
      · exact (not_on (f3 _ ho) rfl).elim
      · exact (not_on (f4 _ ho) rfl).elim
      · exact Or.inl rfl
      · exact Or.inr rfl
  · simp [nac, nad]
  · intro z _ s m s' m' s'' m'' _ _ _
    simp only [List.mem_cons, List.not_mem_nil, or_false] at m m' m''
    rcases m with rfl | rfl <;> rcases m' with rfl | rfl <;> rcases m'' with rfl | rfl <;> simp
  · simp only [List.pairwise_cons, List.mem_cons, List.not_mem_nil, or_false, forall_eq, false_imp_iff, implies_true, List.Pairwise.nil,
      and_true]
    exact Or.inl h5

/-- two crossing segments of length 2^-12 -/
def crossCall : List (Call F32 ℕ ℕ) :=
  [.point ⟨F32.lit 0, F32.lit 0⟩ 1, .point ⟨F32.lit 2 8192, F32.lit 0⟩ 2, .seg 0 1 10, .point ⟨F32.lit 1 8192, F32.lit (-1) 8192⟩ 3,
    .point ⟨F32.lit 1 8192, F32.lit 1 8192⟩ 4, .seg 2 3 20]

theorem rpos_lit {v : Vec2 F32} {x y : ℚ} (hx : toRat v.x = x) (hy : toRat v.y = y) : rpos v = ((x : ℝ), (y : ℝ)) := by
  unfold rpos; rw [hx, hy]

theorem cross_req : crossCall.map Call.req = [.point (0, 0) 1, .point (2 / 8192, 0) 2, .seg 0 1 10, .point (1 / 8192, -1 / 8192) 3,
    .point (1 / 8192, 1 / 8192) 4, .seg 2 3 20] := by
  have e0 : rpos ⟨F32.lit 0, F32.lit 0⟩ = (0, 0) := by
    rw [rpos_lit (x := 0) (y := 0) (by decide +kernel) (by decide +kernel)]; simp
  have e1 : rpos ⟨F32.lit 2 8192, F32.lit 0⟩ = (2 / 8192, 0) := by
    rw [rpos_lit (x := 2 / 8192) (y := 0) (by decide +kernel) (by decide +kernel)]; simp
  have e2 : rpos ⟨F32.lit 1 8192, F32.lit (-1) 8192⟩ = (1 / 8192, -1 / 8192) := by
    rw [rpos_lit (x := 1 / 8192) (y := -1 / 8192) (by decide +kernel) (by decide +kernel)]; simp
  have e3 : rpos ⟨F32.lit 1 8192, F32.lit 1 8192⟩ = (1 / 8192, 1 / 8192) := by
    rw [rpos_lit (x := 1 / 8192) (y := 1 / 8192) (by decide +kernel) (by decide +kernel)]; simp
  simp only [crossCall, List.map_cons, List.map_nil, Call.req, e0, e1, e2, e3]

theorem le_dst_iff {a b : ℝ × ℝ} {m : ℝ} (hm : 0 ≤ m) : m ≤ dst a b ↔ m ^ 2 ≤ (a.1 - b.1) ^ 2 + (a.2 - b.2) ^ 2 := by
  unfold UtilThm.dst
  rw [Real.le_sqrt hm, show (b.1 - a.1) ^ 2 + (b.2 - a.2) ^ 2 = (a.1 - b.1) ^ 2 + (a.2 - b.2) ^ 2 by ring]
  positivity

theorem mul_dst_le {a b : ℝ × ℝ} {m k : ℝ} (h : m ^ 2 * ((a.1 - b.1) ^ 2 + (a.2 - b.2) ^ 2) ≤ k ^ 2) : m * dst a b ≤ |k| := by
  refine (le_abs_self _).trans (sq_le_sq.1 ?_)
  rw [mul_pow]
  have : dst a b ^ 2 = (a.1 - b.1) ^ 2 + (a.2 - b.2) ^ 2 := by
    unfold UtilThm.dst
    rw [Real.sq_sqrt (by positivity)]; ring
  rw [this]; exact h

theorem mul_dst2_le {a b c d : ℝ × ℝ} {m k : ℝ}
    (h : m ^ 2 * (((a.1 - b.1) ^ 2 + (a.2 - b.2) ^ 2) * ((c.1 - d.1) ^ 2 + (c.2 - d.2) ^ 2)) ≤ k ^ 2) : m * (dst a b * dst c d) ≤ |k| := by
  refine (le_abs_self _).trans (sq_le_sq.1 ?_)
  rw [mul_pow, mul_pow]
  have e : ∀ a b : ℝ × ℝ, dst a b ^ 2 = (a.1 - b.1) ^ 2 + (a.2 - b.2) ^ 2 := by
    intro a b
    unfold UtilThm.dst
    rw [Real.sq_sqrt (by positivity)]; ring
  rw [e, e]; exact h

/-- the hypotheses of `C116_session` for the crossing segments -/
theorem cross_margins : Margins (points (crossCall.map Call.req)) (strokes [] (crossCall.map Call.req)) (1 / 2 ^ 12) (1 / 2) (1 / 2 ^ 16) ∧
    Fine (1 / 2 ^ 12) (1 / 2) (1 / 2 ^ 16) (strokes [] (crossCall.map Call.req)).length := by
  rw [cross_req]
  constructor
  · have hP : points [(.point (0, 0) 1 : Req ℕ ℕ), .point (2 / 8192, 0) 2, .seg 0 1 10, .point (1 / 8192, -1 / 8192) 3,
      .point (1 / 8192, 1 / 8192) 4, .seg 2 3 20] = [(0, 0), (2 / 8192, 0), (1 / 8192, -1 / 8192), (1 / 8192, 1 / 8192)] := rfl
    have hS : strokes [] [(.point (0, 0) 1 : Req ℕ ℕ), .point (2 / 8192, 0) 2, .seg 0 1 10, .point (1 / 8192, -1 / 8192) 3,
      .point (1 / 8192, 1 / 8192) 4, .seg 2 3 20] = [⟨(0, 0), (2 / 8192, 0), 10⟩, ⟨(1 / 8192, -1 / 8192), (1 / 8192, 1 / 8192), 20⟩] := rfl
    rw [hP, hS]
    refine margins_two (y := (1 / 8192, 0)) ?_ (by norm_num) (by norm_num) ?_ ⟨1 / 2, by norm_num, by norm_num, by norm_num⟩
      ⟨1 / 2, by norm_num, by norm_num, by norm_num⟩ ?_ ?_ ?_ ?_ ?_
    · intro x hx
      simp only [List.mem_cons, List.not_mem_nil, or_false] at hx
      rcases hx with rfl | rfl | rfl | rfl <;> constructor <;> norm_num [abs_div]
    · simp only [List.pairwise_cons, List.mem_cons, List.not_mem_nil, or_false, forall_eq_or_imp, forall_eq, false_imp_iff, implies_true,
        List.Pairwise.nil, and_true, le_dst_iff (show (0 : ℝ) ≤ 1 / 2 ^ 16 by norm_num)]
      norm_num
    all_goals first
      | (apply mul_dst_le; unfold crs; norm_num)
      | (apply mul_dst2_le; unfold crs; norm_num)
  · constructor <;> norm_num [strokes]

theorem cross_calls : (∀ c ∈ crossCall, c.Finite) ∧ Valid 0 (crossCall.map Call.req) := by
  constructor
  · intro c hc
    simp only [crossCall, List.mem_cons, List.not_mem_nil, or_false] at hc
    rcases hc with rfl | rfl | rfl | rfl | rfl | rfl <;>
      first
        | trivial
        | exact ⟨(small_of (by decide +kernel) (by decide +kernel)).1, (small_of (by decide +kernel) (by decide +kernel)).1⟩
  · rw [cross_req]; simp [Valid]

/-- the f32 client gets four edges and the node at the crossing -/
example : (session PlanarGraph.new [] crossCall).map (fun r => (r.1.nodes.length, r.1.edges.map fun e => (e.src, e.dst, e.data), r.2)) =
    .ok (5, [(0, 4, 10), (2, 4, 20), (1, 4, 10), (3, 4, 20)], [0, 1, 2, 3],
      [.node 0 [], .node 1 [], .edge [] [0], .node 2 [], .node 3 [], .edge [4] [0, 1, 2, 3]]) := by
  decide +kernel

/-- two crossing segments with coordinates up to 4 -/
def bigCall : List (Call F32 Unit Unit) :=
  [.point ⟨F32.lit 3, F32.lit 4⟩ (), .point ⟨F32.lit 1, F32.lit 0⟩ (), .point ⟨F32.lit 3, F32.lit 2⟩ (),
    .point ⟨F32.lit 1, F32.lit 4⟩ (), .seg 0 1 (), .seg 2 3 ()]

theorem big_req : bigCall.map Call.req = [.point (3, 4) (), .point (1, 0) (), .point (3, 2) (), .point (1, 4) (), .seg 0 1 (),
    .seg 2 3 ()] := by
  have e0 : rpos ⟨F32.lit 3, F32.lit 4⟩ = (3, 4) := by
    rw [rpos_lit (x := 3) (y := 4) (by decide +kernel) (by decide +kernel)]; simp
  have e1 : rpos ⟨F32.lit 1, F32.lit 0⟩ = (1, 0) := by
    rw [rpos_lit (x := 1) (y := 0) (by decide +kernel) (by decide +kernel)]; simp
  have e2 : rpos ⟨F32.lit 3, F32.lit 2⟩ = (3, 2) := by
    rw [rpos_lit (x := 3) (y := 2) (by decide +kernel) (by decide +kernel)]; simp
  have e3 : rpos ⟨F32.lit 1, F32.lit 4⟩ = (1, 4) := by
    rw [rpos_lit (x := 1) (y := 4) (by decide +kernel) (by decide +kernel)]; simp
  simp only [bigCall, List.map_cons, List.map_nil, Call.req, e0, e1, e2, e3]

/-- **C116 needs small coordinates.** Two segments with coordinates up to 4 that keep margins of 1/4 and enclose an angle with a sine
of more than 1/2: all hypotheses but the bound on the coordinates are met, but the f32 client gets two edges, none of them split at
the crossing, and an isolated node. -/
theorem C116_counterexample_size :
    (Valid 0 (bigCall.map Call.req) ∧
      Margins (points (bigCall.map Call.req)) (strokes [] (bigCall.map Call.req)) 4 (1 / 2) (1 / 4) ∧
      (4 : ℝ) ≤ 2 ^ 21 * (1 / 4) ^ 2 ∧ ((16 : ℝ) + 2) * 4 ≤ 2 ^ 14 * (1 / 2 * (1 / 4))) ∧
    (session PlanarGraph.new [] bigCall).map (fun r => (r.1.nodes.length, r.1.edges.map fun e => (e.src, e.dst), r.2)) =
      .ok (5, [(0, 1), (2, 3)], [0, 1, 2, 3],
        [.node 0 [], .node 1 [], .node 2 [], .node 3 [], .edge [] [0], .edge [4] [1]]) := by
  refine ⟨⟨?_, ?_, by norm_num, by norm_num⟩, by decide +kernel⟩
  · rw [big_req]; simp [Valid]
  · rw [big_req]
    have hP : points [(.point (3, 4) () : Req Unit Unit), .point (1, 0) (), .point (3, 2) (), .point (1, 4) (), .seg 0 1 (),
      .seg 2 3 ()] = [(3, 4), (1, 0), (3, 2), (1, 4)] := rfl
    have hS : strokes [] [(.point (3, 4) () : Req Unit Unit), .point (1, 0) (), .point (3, 2) (), .point (1, 4) (), .seg 0 1 (),
      .seg 2 3 ()] = [⟨(3, 4), (1, 0), ()⟩, ⟨(3, 2), (1, 4), ()⟩] := rfl
    rw [hP, hS]
    refine margins_two (y := (7 / 3, 8 / 3)) ?_ (by norm_num) (by norm_num) ?_ ⟨1 / 3, by norm_num, by norm_num, by norm_num⟩
      ⟨1 / 3, by norm_num, by norm_num, by norm_num⟩ ?_ ?_ ?_ ?_ ?_
    · intro x hx
      simp only [List.mem_cons, List.not_mem_nil, or_false] at hx
      rcases hx with rfl | rfl | rfl | rfl <;> constructor <;> norm_num
    · simp only [List.pairwise_cons, List.mem_cons, List.not_mem_nil, or_false, forall_eq_or_imp, forall_eq, false_imp_iff, implies_true,
        List.Pairwise.nil, and_true, le_dst_iff (show (0 : ℝ) ≤ 1 / 4 by norm_num)]
      norm_num
    all_goals first
      | (apply mul_dst_le; unfold crs; norm_num)
      | (apply mul_dst2_le; unfold crs; norm_num)

end
end Kami.Graph
