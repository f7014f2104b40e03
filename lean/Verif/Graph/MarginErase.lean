import Verif.Graph.MarginPlanar
/-!
# C124: drawing and erasing in f32

All four mutating calls, in any order, in f32 and in exact arithmetic.  With the margins of C116 between all points and segments that are
ever drawn both get the same answers, panic alike, and the f32 graph stays a planar drawing.
-/

set_option autoImplicit false

namespace Kami.Graph

open Kami Kami.F32 Kami.Simple Kami.DistF32 Kami.Margin
open scoped Kami
open PlanarGraph
open Kami.UtilThm (dst crs dt OnSegR dst_nonneg dst_comm dst_triangle dst_eq_zero)

variable {T U : Type}

/-! ## Specification -/

/-- what the four mutating methods return (src/graph/planar_graph.rs:180, 204-209, 369, 412) -/
inductive Answer
  | node (id : ℕ) (edges : List ℕ)
  | edge (r : Except PlanarGraphError (List ℕ × List ℕ))
  | removed (nodes edges : List ℕ)

/-- one call of a mutating method, with its answer -/
def respond {F : Type} [Scalar F] [Inhabited T] (p : Profile) (g : PlanarGraph F T U) : Op F T U → Res (PlanarGraph F T U × Answer)
  | .addNode x t => do
    let (g', r) ← g.addNode x t
    return (g', .node r.1 r.2)
  | .addEdge s d c => do
    let (g', r) ← g.addEdge s d c
    return (g', .edge r)
  | .removeEdge i => do
    let (g', r) ← g.removeEdge p i
    return (g', .removed r.1 r.2)
  | .removeNode i => do
    let (g', r) ← g.removeNode p i
    return (g', .removed r.1 r.2)

/-- some calls, with their answers -/
def history {F : Type} [Scalar F] [Inhabited T] (p : Profile) :
    PlanarGraph F T U → List (Op F T U) → Res (PlanarGraph F T U × List Answer)
  | g, [] => .ok (g, [])
  | g, op :: ops => do
    let (g', a) ← respond p g op
    let (g'', l) ← history p g' ops
    return (g'', a :: l)

noncomputable section

/-- the same call with the coordinates as real numbers -/
def exactOp : Op F32 T U → Op XReal T U
  | .addNode x t => .addNode (pt (rpos x)) t
  | .addEdge s d c => .addEdge s d c
  | .removeEdge i => .removeEdge i
  | .removeNode i => .removeNode i

/-- points have numbers as coordinates and are among `P`; no segment from a node to itself is asked for -/
def Sober (P : List (ℝ × ℝ)) : Op F32 T U → Prop
  | .addNode x _ => (IsFin x.x ∧ IsFin x.y) ∧ rpos x ∈ P
  | .addEdge s d _ => s ≠ d
  | .removeEdge _ => True
  | .removeNode _ => True

/-- the segment drawn by a call: between the positions of two nodes that are not joined yet -/
def drawnNow (h : PlanarGraph F32 T U) : Op F32 T U → List (Stroke U)
  | .addEdge s d c =>
    if s < h.nodes.length ∧ d < h.nodes.length ∧ h.hasEdgeBetweenNodes s d = false then [⟨spot h s, spot h d, c⟩] else []
  | _ => []

/-- all segments ever drawn by some calls -/
def drawing [Inhabited T] (p : Profile) : PlanarGraph F32 T U → List (Op F32 T U) → List (Stroke U)
  | _, [] => []
  | h, op :: ops => drawnNow h op ++
    match h.step p op with
    | .ok h' => drawing p h' ops
    | .error _ => []

/-! ## Calls and answers -/

theorem step_respond {F : Type} [Scalar F] [Inhabited T] (p : Profile) (g : PlanarGraph F T U) (op : Op F T U) :
    g.step p op = (respond p g op).map Prod.fst := by
  cases op <;> simp only [step, respond, bind, Except.bind, pure, Except.pure, Except.map]
  · cases g.addNode _ _ <;> rfl
  · cases g.addEdge _ _ _ <;> rfl
  · cases g.removeEdge p _ <;> rfl
  · cases g.removeNode p _ <;> rfl

/-- the graph of a history is the one of `run` -/
theorem history_run {F : Type} [Scalar F] [Inhabited T] (p : Profile) (ops : List (Op F T U)) : ∀ g : PlanarGraph F T U,
    g.run p ops = (history p g ops).map Prod.fst := by
  induction ops with
  | nil => intro g; rfl
  | cons op ops ih =>
    intro g
    simp only [run, history, bind, Except.bind, step_respond]
    cases respond p g op with
    | error e => rfl
    | ok r =>
      simp only [Except.map, ih]
      cases history p r.1 ops <;> rfl

/-! ## Removals do not look at positions -/

section
variable {F G : Type}

/-- two graphs with the same edges and as many nodes -/
structure Twins (g : PlanarGraph F T U) (h : PlanarGraph G T U) : Prop where
  edges : h.edges = g.edges
  len : h.nodes.length = g.nodes.length

/-- the same nodes of `g` and `h` are left in `g'` and `h'` -/
structure Left (g : PlanarGraph F T U) (h : PlanarGraph G T U) (g' : PlanarGraph F T U) (h' : PlanarGraph G T U) : Prop where
  twins : Twins g' h'
  nodes : ∀ k, k < g'.nodes.length → ∃ i, i < g.nodes.length ∧ g'.nodes[k]? = g.nodes[i]? ∧ h'.nodes[k]? = h.nodes[i]?

theorem Twins.left {g : PlanarGraph F T U} {h : PlanarGraph G T U} (t : Twins g h) : Left g h g h :=
  ⟨t, fun k hk => ⟨k, hk, rfl, rfl⟩⟩

theorem Twins.number {g : PlanarGraph F T U} {h : PlanarGraph G T U} (t : Twins g h) (i : ℕ) :
    h.numberOfEdgesIncidentTo i = g.numberOfEdgesIncidentTo i := by
  rw [numberIncident_eq, numberIncident_eq]
  unfold deg
  rw [t.edges, t.len]

theorem Twins.incident {g : PlanarGraph F T U} {h : PlanarGraph G T U} (t : Twins g h) (id : ℕ) :
    h.removeEdgesIncidentToNode id = g.removeEdgesIncidentToNode id := by
  unfold removeEdgesIncidentToNode
  rw [incidentLoop_eq, incidentLoop_eq, t.edges]
  unfold strays deg
  rw [t.edges, t.len]

theorem Twins.removeNode {g : PlanarGraph F T U} {h : PlanarGraph G T U} (t : Twins g h) (p : Profile) (id : ℕ) :
    (∃ e, g.removeNode p id = .error e ∧ h.removeNode p id = .error e) ∨
    ∃ g' h' r, g.removeNode p id = .ok (g', r) ∧ h.removeNode p id = .ok (h', r) ∧ Left g h g' h' := by
  by_cases hid : id < g.nodes.length
  · have hid' : id < h.nodes.length := by rw [t.len]; exact hid
    unfold PlanarGraph.removeNode
    rw [List.getElem?_eq_getElem hid, List.getElem?_eq_getElem hid', t.incident, t.len, t.edges]
    simp only [bind, Except.bind, pure, Except.pure, nodeCount, edgeCount, t.len, t.edges]
    cases h1 : remapLoop p (id :: (g.removeEdgesIncidentToNode id).1) g.nodes.length 0 with
    | error e => exact Or.inl ⟨e, rfl, rfl⟩
    | ok remapped =>
      simp only
      cases h2 : minUnwrap (id :: (g.removeEdgesIncidentToNode id).1) with
      | error e => exact Or.inl ⟨e, rfl, rfl⟩
      | ok m =>
        simp only
        cases h3 : minUnwrap (g.removeEdgesIncidentToNode id).2 with
        | error e => exact Or.inl ⟨e, rfl, rfl⟩
        | ok me =>
          simp only
          refine Or.inr ⟨_, _, _, rfl, rfl, ⟨rfl, ?_⟩, ?_⟩
          · simp only [eraseMarked_length0, t.len]
          · intro k hk
            simp only [eraseMarked_length0] at hk
            have hk' := List.getElem?_eq_getElem hk
            refine ⟨_, (mem_survivors.1 (List.mem_of_getElem? hk')).1, ?_, ?_⟩
            · simp only [eraseMarked_get0, hk', Option.bind_some]
            · simp only [eraseMarked_get0, t.len, hk', Option.bind_some]
  · rw [removeNode_none (not_lt.1 hid), removeNode_none (by rw [t.len]; exact not_lt.1 hid)]
    exact Or.inr ⟨g, h, _, rfl, rfl, t.left⟩

theorem Twins.removeEdge {g : PlanarGraph F T U} {h : PlanarGraph G T U} (t : Twins g h) (p : Profile) (id : ℕ) :
    (∃ e, g.removeEdge p id = .error e ∧ h.removeEdge p id = .error e) ∨
    ∃ g' h' r, g.removeEdge p id = .ok (g', r) ∧ h.removeEdge p id = .ok (h', r) ∧ Left g h g' h' := by
  unfold PlanarGraph.removeEdge
  rw [t.edges]
  cases he : g.edges[id]? with
  | none => exact Or.inr ⟨g, h, _, rfl, rfl, t.left⟩
  | some e =>
    simp only [t.number, bind, Except.bind, pure, Except.pure, edgeCount, t.edges]
    cases h1 : unwrap (g.numberOfEdgesIncidentTo e.src) with
    | error e => exact Or.inl ⟨e, rfl, rfl⟩
    | ok na =>
      by_cases c1 : na = 1
      · simp only [c1, ↓reduceIte]
        exact t.removeNode p _
      · simp only [c1, ↓reduceIte]
        cases h2 : unwrap (g.numberOfEdgesIncidentTo e.dst) with
        | error e => exact Or.inl ⟨e, rfl, rfl⟩
        | ok nb =>
          by_cases c2 : nb = 1
          · simp only [c2, ↓reduceIte]
            exact t.removeNode p _
          · by_cases c3 : g.edges.length > 1
            · simp only [c2, c3, ↓reduceIte]
              cases h3 : unwrap g.edges.getLast? with
              | error e => exact Or.inl ⟨e, rfl, rfl⟩
              | ok l =>
                simp only
                cases h4 : assign g.edges.dropLast id l with
                | error e => exact Or.inl ⟨e, rfl, rfl⟩
                | ok es => exact Or.inr ⟨⟨g.nodes, es⟩, ⟨h.nodes, es⟩, _, rfl, rfl, ⟨rfl, t.len⟩, fun k hk => ⟨k, hk, rfl, rfl⟩⟩
            · simp only [c2, c3, ↓reduceIte]
              exact Or.inr ⟨_, _, _, rfl, rfl, t.left⟩

end

/-! ## The exact graph and its shadow under a call -/

section
variable {P : List (ℝ × ℝ)} {S S0 : List (Stroke U)} {B θ μ κ κ' δ : ℝ} {g g' : PlanarGraph XReal T U} {h h' : PlanarGraph F32 T U}
  {s0 : Stroke U} {a b : ℕ}

theorem Shadow.twins (hh : Shadow P S0 κ δ g h) : Twins g h := ⟨hh.edges, hh.len⟩

theorem Shadow.left (hh : Shadow P S0 κ δ g h) (hl : Left g h g' h') : Shadow P S0 κ δ g' h' := by
  refine ⟨hl.twins.edges, hl.twins.len, ?_⟩
  intro k x y hx hy
  obtain ⟨i, _, h1, h2⟩ := hl.nodes k (List.getElem?_eq_some_iff.1 hx).1
  have e : place g' k = place g i := by unfold place; rw [h1]
  rw [e]
  exact hh.node i x y (by rw [← h1]; exact hx) (by rw [← h2]; exact hy)

theorem Renumbered.scene {keep ekeep : List ℕ} (hr : Renumbered g g' keep ekeep) (st : Scene P S0 g) : Scene P S0 g' := by
  refine ⟨hr.plane st.plane, ?_, ?_⟩
  · intro k hk
    rw [hr.node_count] at hk
    have hk' := List.getElem?_eq_getElem hk
    rw [hr.place hk']
    exact st.nodes _ (hr.nodes k _ hk').1
  · intro e' he'
    obtain ⟨k, hk⟩ := List.mem_iff_getElem?.1 he'
    obtain ⟨j, e, _, he, hd, h1, h2⟩ := hr.slot hk
    obtain ⟨s, hs, hc, o1, o2⟩ := st.piece e (List.mem_of_getElem? he)
    exact ⟨s, hs, by rw [hd, hc], by rw [hr.place h1]; exact o1, by rw [hr.place h2]; exact o2⟩

theorem Scene.removeNode (st : Scene P S0 g) {p : Profile} {id : ℕ} {r : List ℕ × List ℕ} (hok : g.removeNode p id = .ok (g', r)) :
    Scene P S0 g' := by
  rcases removeNode_renumbered st.plane.wf st.plane.noloop hok with rfl | ⟨keep, ekeep, hr⟩
  · exact st
  · exact hr.scene st

theorem Scene.removeEdge (st : Scene P S0 g) {p : Profile} {id : ℕ} {r : List ℕ × List ℕ} (hok : g.removeEdge p id = .ok (g', r)) :
    Scene P S0 g' := by
  rcases removeEdge_renumbered st.plane.wf st.plane.noloop hok with rfl | ⟨keep, ekeep, hr⟩
  · exact st
  · exact hr.scene st

/-- vertices that are not on an edge are outside its tolerance -/
theorem Scene.off (st : Scene P S0 g) (hA : Apart P S) (hS : ∀ s ∈ S0, s ∈ S) {x : ℝ × ℝ} (hx : x ∈ P ∨ Meet P S x) {e : Edge U}
    (he : e ∈ g.edges) (hn : ¬ OnEdge (place g) e x) (n1 : x ≠ place g e.src) (n2 : x ≠ place g e.dst) :
    dst (place g e.src) (place g e.dst) + XReal.epsR ≤ dst (place g e.src) x + dst x (place g e.dst) := by
  obtain ⟨s, hs, _, p1, p2⟩ := st.piece e he
  obtain ⟨w1, w2⟩ := st.plane.wf e he
  by_cases hon : s.On x
  · exact outside_part p1 p2 hon hn (hA.sep hx (st.good hS w1) n1) (hA.sep hx (st.good hS w2) n2)
  · by_contra hc
    push Not at hc
    have h1 := ellipse_part p1 p2 hc
    have h2 := hA.off hx (hS s hs) hon
    linarith

/-- a point request in the exact graph -/
theorem Scene.point (st : Scene P S0 g) (hA : Apart P S) (hS : ∀ s ∈ S0, s ∈ S) {x : ℝ × ℝ} (hx : x ∈ P)
    (hn : ∀ i, i < g.nodes.length → place g i ≠ x) (t : T) :
    ∃ g' r, g.addNode (pt x) t = .ok (g', r) ∧ Scene P S0 g' := by
  have hclear : ClearPoint g x := by
    constructor
    · intro i hi
      exact hA.sep (Or.inl hx) (st.good hS hi) (fun hc => hn i hi hc.symm)
    · intro e he hne
      obtain ⟨w1, w2⟩ := st.plane.wf e he
      exact st.off hA hS (Or.inl hx) he hne (fun hc => hn _ w1 hc.symm) (fun hc => hn _ w2 hc.symm)
  obtain ⟨hnodes, hinv⟩ := addNodeG_clear st.plane hclear t
  have hok := addNode_ok g st.plane.wf (pt x) t
  have hpl : Plane (addNodeG g (pt x) t) := addNode_plane st.plane ⟨x, rfl, Or.inr hclear⟩ hok
  refine ⟨_, _, hok, hpl, ?_, ?_⟩
  · intro i hi
    rw [hnodes, List.length_append, List.length_singleton] at hi
    by_cases hlt : i < g.nodes.length
    · have e : place (addNodeG g (pt x) t) i = place g i := by
        unfold place; rw [hnodes, List.getElem?_append_left hlt]
      rw [e]
      exact st.nodes i hlt
    · have : i = g.nodes.length := by omega
      subst this
      left
      have e : (addNodeG g (pt x) t).nodes[g.nodes.length]? = some ⟨pt x, t, ""⟩ := by rw [hnodes]; simp
      rw [place_get e]
      exact hx
  · intro e he
    obtain ⟨A, B, ⟨f, hf, rfl, rfl, hd⟩, p1, p2⟩ := hinv.piece e he
    obtain ⟨s, hs, hc, s1, s2⟩ := st.piece f hf
    obtain ⟨w1, w2⟩ := hinv.wf e he
    refine ⟨s, hs, by rw [← hd, hc], ?_, ?_⟩
    · rw [place_of_drawn hinv.drawn w1]; exact onSeg_sub s1 s2 p1
    · rw [place_of_drawn hinv.drawn w2]; exact onSeg_sub s1 s2 p2

/-- a segment request in the exact graph -/
theorem Scene.seg [Inhabited T] (st : Scene P S0 g) (hA : Apart P S) (hS : ∀ s ∈ S0, s ∈ S) (hs0 : s0 ∈ S) (hnew : s0 ∉ S0)
    (ha : a < g.nodes.length) (hb : b < g.nodes.length) (pa : place g a = s0.a) (pb : place g b = s0.b) (hneq : a ≠ b)
    (hno : g.hasEdgeBetweenNodes a b = false) :
    ∃ g' r, g.addEdge a b s0.c = .ok (g', .ok r) ∧ Scene P (S0 ++ [s0]) g' := by
  have hcross : ∀ y, Crossing g (place g) a b y → Meet P S y ∧ Meet P (S0 ++ [s0]) y := by
    rintro y ⟨h1, ⟨e, he, h2⟩, h3⟩
    rw [pa, pb] at h1
    obtain ⟨s, hs, _, p1, p2⟩ := st.piece e he
    have hys : s.On y := onSeg_sub p1 p2 h2
    have hyP : y ∉ P := by
      intro hc
      rcases hA.end_of hc hs0 h1 with rfl | rfl
      · exact h3 a ha pa.symm
      · exact h3 b hb pb.symm
    have hne : s ≠ s0 := by rintro rfl; exact hnew hs
    exact ⟨⟨hyP, s, hS s hs, s0, hs0, hne, hys, h1⟩,
      ⟨hyP, s, List.mem_append_left _ hs, s0, by simp, hne, hys, h1⟩⟩
  have hgp : GeneralPosition g (place g) a b := by
    constructor
    · intro k hk u v huv n1 n2
      have hgood := st.good hS hk
      rcases huv with ⟨rfl, rfl⟩ | ⟨e, he, rfl, rfl⟩
      · rw [pa, pb]
        refine hA.off hgood hs0 ?_
        intro hon
        rcases st.nodes k hk with h1 | h1
        · rcases hA.end_of h1 hs0 hon with h2 | h2
          · exact n1 (st.plane.inj _ _ hk ha (h2.trans pa.symm))
          · exact n2 (st.plane.inj _ _ hk hb (h2.trans pb.symm))
        · obtain ⟨_, s, hs, s', hs', hne, o1, o2⟩ := id h1
          rcases hA.cross_two _ (h1.mono hS) s (hS s hs) s' (hS s' hs') s0 hs0 o1 o2 hon with h2 | h2 | h2
          · exact hne h2
          · rw [h2] at hs; exact hnew hs
          · rw [h2] at hs'; exact hnew hs'
      · obtain ⟨w1, w2⟩ := st.plane.wf e he
        refine st.off hA hS hgood he ?_ ?_ ?_
        · intro hon
          rcases st.plane.planar.node e he k hk hon with h1 | h1
          · exact n1 h1
          · exact n2 h1
        · intro hc; exact n1 (st.plane.inj _ _ hk w1 hc)
        · intro hc; exact n2 (st.plane.inj _ _ hk w2 hc)
    · intro y hy u v huv hon
      have hm := (hcross y hy).1
      rcases huv with ⟨rfl, rfl⟩ | ⟨e, he, rfl, rfl⟩
      · rw [pa, pb] at hon ⊢
        exact hA.off (Or.inr hm) hs0 hon
      · obtain ⟨w1, w2⟩ := st.plane.wf e he
        exact st.off hA hS (Or.inr hm) he hon (hy.2.2 _ w1) (hy.2.2 _ w2)
    · intro y hy k hk
      exact hA.sep (Or.inr (hcross y hy).1) (st.good hS hk) (hy.2.2 k hk)
    · intro y y' hy hy' hne
      exact hA.cross_sep y y' (hcross y hy).1 (hcross y' hy').1 hne
  rcases addEdge_ok g st.plane.wf a b s0.c with ⟨h', _⟩ | ⟨_, h', _⟩ | ⟨_, _, _, g1, cn, ce, hins, hok⟩
  · rw [hno] at h'; cases h'
  · exact absurd ⟨ha, hb⟩ h'
  obtain ⟨pos', _, _, q3⟩ := addEdge_planar g st.plane.wf (place g) st.plane.finite st.plane.inj st.plane.noloop st.plane.planar a b
    s0.c hgp hno ha hb hins
  obtain ⟨l, hl, _⟩ := inserts_default hins
  have hl' : g1.nodes = g.nodes ++ l := hl
  have hpl : Plane g1 := addEdge_plane st.plane ⟨hneq, fun _ _ _ => hgp⟩ hok
  refine ⟨g1, _, hok, hpl, ?_, ?_⟩
  · intro k hk
    by_cases hlt : k < g.nodes.length
    · have e : place g1 k = place g k := by
        unfold place; rw [hl', List.getElem?_append_left hlt]
      rw [e]
      exact (st.nodes k hlt).imp id fun h => h.mono fun s hs => List.mem_append_left _ hs
    · right
      rw [place_of_drawn q3.drawn hk]
      exact (hcross _ (q3.fresh k (by omega) hk)).2
  · intro e he
    obtain ⟨w1, w2⟩ := q3.wf e he
    rw [place_of_drawn q3.drawn w1, place_of_drawn q3.drawn w2]
    obtain ⟨A, B, ⟨u, v, huv, rfl, rfl⟩, p1, p2⟩ := q3.piece e he
    rcases huv with ⟨rfl, rfl, hc⟩ | ⟨f, hf, rfl, rfl, hc⟩
    · rw [pa, pb] at p1 p2
      exact ⟨s0, by simp, hc, p1, p2⟩
    · obtain ⟨s, hs, hc', s1, s2⟩ := st.piece f hf
      exact ⟨s, List.mem_append_left _ hs, by rw [← hc, hc'], onSeg_sub s1 s2 p1, onSeg_sub s1 s2 p2⟩

/-- a request for a point where a node is -/
theorem Shadow.again (hh : Shadow P S0 κ δ g h) (st : Scene P S0 g) (hS : ∀ s ∈ S0, s ∈ S) (hs : Setting P S B θ μ δ) {i : ℕ}
    (hi : i < g.nodes.length) {q : Vec2 F32} (hq : IsFin q.x ∧ IsFin q.y) (hx : rpos q ∈ P) (hp : place g i = rpos q) (t : T) :
    g.addNode (pt (rpos q)) t = .ok (g, (i, [])) ∧ h.addNode q t = .ok (h, (i, [])) := by
  have hf := st.fit hS
  obtain ⟨n1, n2⟩ := hf.near hs hi
  obtain ⟨m1, m2⟩ := hh.near hf hs hi (by rw [hp]; exact hx) hq (by rw [hp, dst_eq_zero.2 rfl]; exact u_pos.le)
  rw [hp] at n1 n2
  have o1 := addNode_ok g hf.wf (pt (rpos q)) t
  have o2 := addNode_ok h (hh.wf hf.wf) q t
  unfold addNodeG at o1 o2
  rw [if_pos n1, if_pos n1, n2] at o1
  rw [if_pos m1, if_pos m1, m2] at o2
  exact ⟨o1, o2⟩

theorem Shadow.spot_near (hh : Shadow P S0 κ δ g h) {i : ℕ} (hi : i < g.nodes.length) :
    dst (spot h i) (place g i) ≤ δ ∧ (place g i ∈ P → spot h i = place g i) := by
  obtain ⟨b, hb, hn⟩ := hh.get hi
  unfold spot
  rw [hb]
  exact ⟨hn.near, hn.exact'⟩

/-- a node that is drawn at one of the points `P` is there -/
theorem Shadow.spot_place (hh : Shadow P S0 κ δ g h) (st : Scene P S0 g) (hS : ∀ s ∈ S0, s ∈ S) (hs : Setting P S B θ μ δ) {i : ℕ}
    (hi : i < g.nodes.length) (hx : spot h i ∈ P) : place g i = spot h i := by
  by_contra hc
  have h1 := hs.margins.sep _ _ (Or.inl hx) (st.good hS hi) (fun h => hc h.symm)
  have h2 := (hh.spot_near hi).1
  have h3 := hs.hδ
  have h4 := hs.δ0
  have h5 := hs.μ0
  linarith

theorem Shadow.mirrors (hh : Shadow P S0 κ δ g h) : Mirrors P δ g h := by
  refine ⟨hh.edges, hh.len, ?_, ?_⟩
  · intro i a b ha hb
    exact ⟨(hh.node i a b ha hb).data, (hh.node i a b ha hb).label⟩
  · intro i b hb
    have hi := (List.getElem?_eq_some_iff.1 hb).1
    rw [hh.len] at hi
    have hn := hh.node i _ b (List.getElem?_eq_getElem hi) hb
    exact ⟨hn.fin, hn.near, hn.exact'⟩

end

/-! ## All calls -/

/-- one call: both panic, or both answer alike -/
theorem respond_both [Inhabited T] {P : List (ℝ × ℝ)} {S S0 rest : List (Stroke U)} {B θ μ : ℝ} {N : ℕ} (hm : Margins P S B θ μ)
    (hf : Fine B θ μ N) (he : ∀ s ∈ S, s.a ∈ P ∧ s.b ∈ P) (hN : S.length ≤ N) {g : PlanarGraph XReal T U} {h : PlanarGraph F32 T U}
    (p : Profile) (op : Op F32 T U) (hop : Sober P op) (st : Scene P S0 g) (hh : Shadow P S0 (devBound B S0.length) (posBound B θ N) g h)
    (hS : S = S0 ++ (drawnNow h op ++ rest)) :
    (∃ e, respond p g (exactOp op) = .error e ∧ respond p h op = .error e) ∨
    ∃ g' h' r, respond p g (exactOp op) = .ok (g', r) ∧ respond p h op = .ok (h', r) ∧ Scene P (S0 ++ drawnNow h op) g' ∧
      Shadow P (S0 ++ drawnNow h op) (devBound B (S0 ++ drawnNow h op).length) (posBound B θ N) g' h' := by
  have hs := hf.setting hm he
  have hA := hs.apart
  have hS' : ∀ s ∈ S0, s ∈ S := fun s hs => by rw [hS]; exact List.mem_append_left _ hs
  have hlen : S0.length ≤ N := by
    have := congrArg List.length hS
    rw [List.length_append] at this
    omega
  cases op with
  | addNode q t =>
    obtain ⟨hq, hx⟩ := hop
    right
    simp only [drawnNow, List.append_nil]
    by_cases hex : ∃ i, i < g.nodes.length ∧ place g i = rpos q
    · obtain ⟨i, hi, hp⟩ := hex
      obtain ⟨h1, h2⟩ := hh.again st hS' hs hi hq hx hp t
      exact ⟨g, h, .node i [], by simp only [respond, exactOp, h1, bind, Except.bind, pure, Except.pure],
        by simp only [respond, h2, bind, Except.bind, pure, Except.pure], st, hh⟩
    · have hn : ∀ i, i < g.nodes.length → place g i ≠ rpos q := fun i hi hc => hex ⟨i, hi, hc⟩
      obtain ⟨g', r, h1, st'⟩ := st.point hA hS' hx hn t
      obtain ⟨h', k1, k2⟩ := hh.point st hS' hs (hf.dev hlen) hq hx hn h1
      exact ⟨g', h', .node r.1 r.2, by simp only [respond, exactOp, h1, bind, Except.bind, pure, Except.pure],
        by simp only [respond, k1, bind, Except.bind, pure, Except.pure], st', k2⟩
  | addEdge s d c =>
    right
    change s ≠ d at hop
    by_cases hcond : s < h.nodes.length ∧ d < h.nodes.length ∧ h.hasEdgeBetweenNodes s d = false
    · have hnow : drawnNow h (.addEdge s d c) = [⟨spot h s, spot h d, c⟩] := by simp only [drawnNow]; rw [if_pos hcond]
      rw [hnow] at hS ⊢
      obtain ⟨hsl, hdl, hno⟩ := hcond
      rw [hh.len] at hsl hdl
      have hmem : (⟨spot h s, spot h d, c⟩ : Stroke U) ∈ S := by rw [hS]; simp
      obtain ⟨e1, e2⟩ := he _ hmem
      have pa := hh.spot_place st hS' hs hsl e1
      have pb := hh.spot_place st hS' hs hdl e2
      have honce : ∀ s1 ∈ S0, ¬ (s1.a = spot h s ∧ s1.b = spot h d) := by
        intro s1 hs1
        have h1 := hm.once
        rw [hS, List.pairwise_append] at h1
        exact (h1.2.2 s1 hs1 ⟨spot h s, spot h d, c⟩ (by simp)).1
      have hnew : (⟨spot h s, spot h d, c⟩ : Stroke U) ∉ S0 := fun hc => honce _ hc ⟨rfl, rfl⟩
      have hne : spot h s ≠ spot h d := by
        intro hc
        rw [← pa, ← pb] at hc
        exact hop (st.plane.inj _ _ hsl hdl hc)
      obtain ⟨g', r, h1, st'⟩ := st.seg hA hS' (s0 := ⟨spot h s, spot h d, c⟩) hmem hnew hsl hdl pa pb hop
        (by rw [← hasEdge_eq hh.edges]; exact hno)
      have hw : NewSeg P S S0 θ μ g ⟨spot h s, spot h d, c⟩ s d := by
        refine ⟨hmem, hnew, hS', ?_, st.nodes, hsl, hdl, pa, pb, hne⟩
        intro s1 hs1
        have h1 := hm.angle
        rw [hS, List.pairwise_append] at h1
        exact h1.2.2 s1 hs1 _ (by simp)
      have hlt : S0.length < N := by
        have := congrArg List.length hS
        rw [List.length_append, List.length_append, List.length_singleton] at this
        omega
      obtain ⟨h', k1, k2⟩ := hh.seg st hs (hf.dev hlen) (hf.dev hlt) (hf.grow hlt) hw h1
      refine ⟨g', h', .edge (.ok r), by simp only [respond, exactOp, h1, bind, Except.bind, pure, Except.pure],
        by simp only [respond, k1, bind, Except.bind, pure, Except.pure], st', ?_⟩
      rw [List.length_append, List.length_singleton]
      exact k2
    · have hnow : drawnNow h (.addEdge s d c) = [] := by simp only [drawnNow]; rw [if_neg hcond]
      rw [hnow, List.append_nil]
      rcases addEdge_ok h (hh.wf st.plane.wf) s d c with ⟨k1, k2⟩ | ⟨k1, k2, k3⟩ | ⟨k1, k2, k3, _⟩
      · rcases addEdge_ok g st.plane.wf s d c with ⟨_, h2⟩ | ⟨h1, _⟩ | ⟨h1, _⟩
        · exact ⟨g, h, .edge (.ok ([], [])), by simp only [respond, exactOp, h2, bind, Except.bind, pure, Except.pure],
            by simp only [respond, k2, bind, Except.bind, pure, Except.pure], st, hh⟩
        · rw [hasEdge_eq hh.edges, h1] at k1; cases k1
        · rw [hasEdge_eq hh.edges, h1] at k1; cases k1
      · rcases addEdge_ok g st.plane.wf s d c with ⟨h1, _⟩ | ⟨_, _, h2⟩ | ⟨_, h1, h2, _⟩
        · rw [hasEdge_eq hh.edges, h1] at k1; cases k1
        · exact ⟨g, h, .edge (.error .NoSuchVertex), by simp only [respond, exactOp, h2, bind, Except.bind, pure, Except.pure],
            by simp only [respond, k3, bind, Except.bind, pure, Except.pure], st, hh⟩
        · rw [hh.len] at k2
          exact absurd ⟨h1, h2⟩ k2
      · exact absurd ⟨k2, k3, k1⟩ hcond
  | removeEdge i =>
    simp only [drawnNow, List.append_nil]
    rcases hh.twins.removeEdge p i with ⟨e, h1, h2⟩ | ⟨g', h', r, h1, h2, hl⟩
    · left
      exact ⟨e, by simp only [respond, exactOp, h1, bind, Except.bind], by simp only [respond, h2, bind, Except.bind]⟩
    · right
      exact ⟨g', h', .removed r.1 r.2, by simp only [respond, exactOp, h1, bind, Except.bind, pure, Except.pure],
        by simp only [respond, h2, bind, Except.bind, pure, Except.pure], st.removeEdge h1, hh.left hl⟩
  | removeNode i =>
    simp only [drawnNow, List.append_nil]
    rcases hh.twins.removeNode p i with ⟨e, h1, h2⟩ | ⟨g', h', r, h1, h2, hl⟩
    · left
      exact ⟨e, by simp only [respond, exactOp, h1, bind, Except.bind], by simp only [respond, h2, bind, Except.bind]⟩
    · right
      exact ⟨g', h', .removed r.1 r.2, by simp only [respond, exactOp, h1, bind, Except.bind, pure, Except.pure],
        by simp only [respond, h2, bind, Except.bind, pure, Except.pure], st.removeNode h1, hh.left hl⟩

theorem history_both [Inhabited T] {P : List (ℝ × ℝ)} {S : List (Stroke U)} {B θ μ : ℝ} {N : ℕ} (hm : Margins P S B θ μ)
    (hf : Fine B θ μ N) (he : ∀ s ∈ S, s.a ∈ P ∧ s.b ∈ P) (hN : S.length ≤ N) (p : Profile) (ops : List (Op F32 T U)) :
    ∀ (S0 : List (Stroke U)) (g : PlanarGraph XReal T U) (h : PlanarGraph F32 T U), (∀ op ∈ ops, Sober P op) → Scene P S0 g →
      Shadow P S0 (devBound B S0.length) (posBound B θ N) g h → S = S0 ++ drawing p h ops →
      (∃ e, history p g (ops.map exactOp) = .error e ∧ history p h ops = .error e) ∨
      ∃ g' h' l, history p g (ops.map exactOp) = .ok (g', l) ∧ history p h ops = .ok (h', l) ∧ Scene P S g' ∧
        Shadow P S (devBound B S.length) (posBound B θ N) g' h' := by
  induction ops with
  | nil =>
    intro S0 g h _ st hh hS
    simp only [drawing, List.append_nil] at hS
    subst hS
    exact Or.inr ⟨g, h, [], rfl, rfl, st, hh⟩
  | cons op ops ih =>
    intro S0 g h hops st hh hS
    simp only [drawing] at hS
    rcases respond_both hm hf he hN p op (hops op (List.mem_cons_self ..)) st hh hS with ⟨e, h1, h2⟩ | ⟨g', h', r, h1, h2, st', hh'⟩
    · exact Or.inl ⟨e, by simp only [List.map_cons, history, h1, bind, Except.bind], by simp only [history, h2, bind, Except.bind]⟩
    · have hstep : h.step p op = .ok h' := by rw [step_respond, h2]; rfl
      rw [hstep, ← List.append_assoc] at hS
      rcases ih _ g' h' (fun op ho => hops op (List.mem_cons_of_mem _ ho)) st' hh' hS with ⟨e, k1, k2⟩ | ⟨g2, h2', l, k1, k2, k3⟩
      · exact Or.inl ⟨e, by simp only [List.map_cons, history, h1, k1, bind, Except.bind], by simp only [history, h2, k2, bind, Except.bind]⟩
      · exact Or.inr ⟨g2, h2', r :: l, by simp only [List.map_cons, history, h1, k1, bind, Except.bind, pure, Except.pure],
          by simp only [history, h2, k2, bind, Except.bind, pure, Except.pure], k3⟩

/-- **C124.** Any calls of `add_node`, `add_edge`, `remove_edge` and `remove_node` on an empty graph, in any order and with any indices,
such that points are among `P`, no segment from a node to itself is asked for, and the segments ever drawn have their ends in `P` and keep
the margins of C116, whether or not they have been erased in between.  Then the f32 calls and the exact calls panic alike, or they get
the same answers; in this case the f32 graph has the edges of the exact graph and its nodes up to `posBound`, nodes at points of `P` being
in place; every edge is a part of a drawn segment and carries its data; and the f32 graph is a planar drawing. -/
theorem C124_history [Inhabited T] (p : Profile) (ops : List (Op F32 T U)) (P : List (ℝ × ℝ)) (B θ μ : ℝ) (hops : ∀ op ∈ ops, Sober P op)
    (he : ∀ s ∈ drawing p PlanarGraph.new ops, s.a ∈ P ∧ s.b ∈ P) (hm : Margins P (drawing p PlanarGraph.new ops) B θ μ)
    (hf : Fine B θ μ (drawing p PlanarGraph.new ops).length) :
    (∃ e, history p PlanarGraph.new (ops.map exactOp) = .error e ∧ history p PlanarGraph.new ops = .error e) ∨
    ∃ g h l, history p PlanarGraph.new (ops.map exactOp) = .ok (g, l) ∧ history p PlanarGraph.new ops = .ok (h, l) ∧
      Mirrors P (posBound B θ (drawing p PlanarGraph.new ops).length) g h ∧
      (∀ e ∈ h.edges, ∃ s ∈ drawing p PlanarGraph.new ops, e.data = s.c ∧ s.On (place g e.src) ∧ s.On (place g e.dst)) ∧
      DrawnPlanar h := by
  have st : Scene P [] (PlanarGraph.new : PlanarGraph XReal T U) :=
    ⟨plane_new, fun i hi => absurd hi (by simp [PlanarGraph.new]), fun e he => by cases he⟩
  rcases history_both hm hf he (le_refl _) p ops [] PlanarGraph.new PlanarGraph.new hops st ⟨rfl, rfl, fun i a b ha => by cases ha⟩ rfl with
    h1 | ⟨g, h, l, h1, h2, h3, h4⟩
  · exact Or.inl h1
  · refine Or.inr ⟨g, h, l, h1, h2, h4.mirrors, ?_, h4.mirrors.planar (hf.setting hm he) h3⟩
    rw [h4.edges]
    exact h3.piece

/-! ## Erasing alone -/

theorem Renumbered.spot {h h' : PlanarGraph F32 T U} {keep ekeep : List ℕ} (hr : Renumbered h h' keep ekeep) {k i : ℕ}
    (hk : keep[k]? = some i) : Graph.spot h' k = Graph.spot h i := by
  unfold Graph.spot
  rw [(hr.nodes k i hk).2]

theorem Renumbered.drawnPlanar {h h' : PlanarGraph F32 T U} {keep ekeep : List ℕ} (hr : Renumbered h h' keep ekeep) (hp : DrawnPlanar h) :
    DrawnPlanar h' := by
  have hlt : ∀ k, k < h'.nodes.length → ∃ i, keep[k]? = some i ∧ i < h.nodes.length := by
    intro k hk
    rw [hr.node_count] at hk
    have := List.getElem?_eq_getElem hk
    exact ⟨_, this, (hr.nodes k _ this).1⟩
  have slot : ∀ (k : ℕ) (e' : Edge U), h'.edges[k]? = some e' → ∃ j e, ekeep[k]? = some j ∧ h.edges[j]? = some e ∧
      keep[e'.src]? = some e.src ∧ keep[e'.dst]? = some e.dst := by
    intro k e' he
    have hk := (List.getElem?_eq_some_iff.1 he).1
    rw [hr.edge_count] at hk
    have hj := List.getElem?_eq_getElem hk
    obtain ⟨e, e1, h1, h2, _, _, h4, h5⟩ := hr.edges k _ hj
    rw [he] at h2
    cases h2
    exact ⟨_, e, hj, h1, h4, h5⟩
  refine ⟨?_, ?_, ?_⟩
  · intro k l hk hl heq
    obtain ⟨i, hi, hi'⟩ := hlt k hk
    obtain ⟨j, hj, hj'⟩ := hlt l hl
    rw [hr.spot hi, hr.spot hj] at heq
    have := hp.inj i j hi' hj' heq
    subst this
    exact nodup_get hr.nodup hi hj
  · intro k l e' f' hk hl hkl y hy hy'
    obtain ⟨a, e, ha, he, s1, s2⟩ := slot k e' hk
    obtain ⟨b, f, hb, hf, t1, t2⟩ := slot l f' hl
    have hab : a ≠ b := by
      rintro rfl
      exact hkl (nodup_get hr.enodup ha hb)
    rw [hr.spot s1, hr.spot s2] at hy
    rw [hr.spot t1, hr.spot t2] at hy'
    obtain ⟨i, i1, i2, i3⟩ := hp.meet a b e f he hf hab y hy hy'
    obtain ⟨m, m1, m2⟩ : ∃ m, keep[m]? = some i ∧ (m = e'.src ∨ m = e'.dst) := by
      rcases i1 with rfl | rfl
      · exact ⟨_, s1, Or.inl rfl⟩
      · exact ⟨_, s2, Or.inr rfl⟩
    refine ⟨m, m2, ?_, by rw [hr.spot m1]; exact i3⟩
    rcases i2 with rfl | rfl
    · exact Or.inl (nodup_get hr.nodup m1 t1)
    · exact Or.inr (nodup_get hr.nodup m1 t2)
  · intro e' he' k hk ho
    obtain ⟨n, hn⟩ := List.mem_iff_getElem?.1 he'
    obtain ⟨_, e, _, he, s1, s2⟩ := slot n e' hn
    obtain ⟨i, hi, hi'⟩ := hlt k hk
    rw [hr.spot s1, hr.spot s2, hr.spot hi] at ho
    rcases hp.node e (List.mem_of_getElem? he) i hi' ho with rfl | rfl
    · exact Or.inl (nodup_get hr.nodup hi s1)
    · exact Or.inr (nodup_get hr.nodup hi s2)

/-- **C124, erasing alone.** A planar f32 drawing without self-loops stays one when edges and nodes are removed, with any coordinates and
without margins. -/
theorem C124_erase [Inhabited T] (p : Profile) (ops : List (Op F32 T U))
    (hops : ∀ op ∈ ops, (∃ i, op = .removeEdge i) ∨ ∃ i, op = .removeNode i) :
    ∀ (h h' : PlanarGraph F32 T U), WF h → LoopFree h → DrawnPlanar h → h.run p ops = .ok h' → DrawnPlanar h' := by
  induction ops with
  | nil => intro h h' _ _ hd hr; cases hr; exact hd
  | cons op ops ih =>
    intro h h' hw hl hd hr
    simp only [run, bind, Except.bind] at hr
    have hops' := fun op ho => hops op (List.mem_cons_of_mem _ ho)
    have key : ∀ h1 : PlanarGraph F32 T U, (h1 = h ∨ ∃ keep ekeep, Renumbered h h1 keep ekeep) → WF h1 ∧ LoopFree h1 ∧ DrawnPlanar h1 := by
      rintro h1 (rfl | ⟨keep, ekeep, hr⟩)
      · exact ⟨hw, hl, hd⟩
      · exact ⟨hr.wf, hr.loopFree hl, hr.drawnPlanar hd⟩
    rcases hops op (List.mem_cons_self ..) with ⟨i, rfl⟩ | ⟨i, rfl⟩
    · simp only [step, bind, Except.bind, pure, Except.pure] at hr
      cases hok : h.removeEdge p i with
      | error e => rw [hok] at hr; cases hr
      | ok r =>
        rw [hok] at hr
        obtain ⟨k1, k2, k3⟩ := key r.1 (removeEdge_renumbered hw hl (r := r.2) hok)
        exact ih hops' _ _ k1 k2 k3 hr
    · simp only [step, bind, Except.bind, pure, Except.pure] at hr
      cases hok : h.removeNode p i with
      | error e => rw [hok] at hr; cases hr
      | ok r =>
        rw [hok] at hr
        obtain ⟨k1, k2, k3⟩ := key r.1 (removeNode_renumbered hw hl (r := r.2) hok)
        exact ih hops' _ _ k1 k2 k3 hr

/-! ## The hypotheses can be met; drawing an erased segment again -/

/-- the segments of `drawing`, with their f32 coordinates -/
def drawingF [Inhabited T] (p : Profile) : PlanarGraph F32 T U → List (Op F32 T U) → List (Vec2 F32 × Vec2 F32 × U)
  | _, [] => []
  | h, op :: ops =>
    (match op with
    | .addEdge s d c =>
      match h.nodes[s]?, h.nodes[d]?, h.hasEdgeBetweenNodes s d with
      | some a, some b, false => [(a.position, b.position, c)]
      | _, _, _ => []
    | _ => []) ++
    match h.step p op with
    | .ok h' => drawingF p h' ops
    | .error _ => []

theorem drawing_eq [Inhabited T] (p : Profile) (ops : List (Op F32 T U)) : ∀ h : PlanarGraph F32 T U,
    drawing p h ops = (drawingF p h ops).map fun x => ⟨rpos x.1, rpos x.2.1, x.2.2⟩ := by
  induction ops with
  | nil => intro h; rfl
  | cons op ops ih =>
    intro h
    simp only [drawing, drawingF, List.map_append]
    congr 1
    · cases op with
      | addEdge s d c =>
        simp only [drawnNow]
        by_cases hs : s < h.nodes.length
        · by_cases hd : d < h.nodes.length
          · rw [List.getElem?_eq_getElem hs, List.getElem?_eq_getElem hd]
            cases h.hasEdgeBetweenNodes s d
            · rw [if_pos ⟨hs, hd, rfl⟩]
              simp [spot, hs, hd]
            · rw [if_neg (by simp)]
              rfl
          · rw [if_neg (fun hc => hd hc.2.1), List.getElem?_eq_none (not_lt.1 hd)]
            cases h.nodes[s]? <;> rfl
        · rw [if_neg (fun hc => hs hc.1), List.getElem?_eq_none (not_lt.1 hs)]
          rfl
      | _ => rfl
    · cases h.step p op with
      | error e => rfl
      | ok h' => exact ih h'

/-- the segments of `crossCall`; then one half of the first segment is erased with its end, and a node is put there again -/
def eraseOps : List (Op F32 ℕ ℕ) :=
  [.addNode ⟨F32.lit 0, F32.lit 0⟩ 1, .addNode ⟨F32.lit 2 8192, F32.lit 0⟩ 2, .addEdge 0 1 10,
    .addNode ⟨F32.lit 1 8192, F32.lit (-1) 8192⟩ 3, .addNode ⟨F32.lit 1 8192, F32.lit 1 8192⟩ 4, .addEdge 2 3 20,
    .removeEdge 0, .addNode ⟨F32.lit 0, F32.lit 0⟩ 5, .addEdge 3 7 0]

theorem erase_drawing (p : Profile) : drawing p PlanarGraph.new eraseOps =
    [⟨(0, 0), (2 / 8192, 0), 10⟩, ⟨(1 / 8192, -1 / 8192), (1 / 8192, 1 / 8192), 20⟩] := by
  have h : drawingF p PlanarGraph.new eraseOps = [(⟨F32.lit 0, F32.lit 0⟩, ⟨F32.lit 2 8192, F32.lit 0⟩, 10),
      (⟨F32.lit 1 8192, F32.lit (-1) 8192⟩, ⟨F32.lit 1 8192, F32.lit 1 8192⟩, 20)] := by
    cases p <;> decide +kernel
  have e0 : rpos ⟨F32.lit 0, F32.lit 0⟩ = (0, 0) := by
    rw [rpos_lit (x := 0) (y := 0) (by decide +kernel) (by decide +kernel)]; simp
  have e1 : rpos ⟨F32.lit 2 8192, F32.lit 0⟩ = (2 / 8192, 0) := by
    rw [rpos_lit (x := 2 / 8192) (y := 0) (by decide +kernel) (by decide +kernel)]; simp
  have e2 : rpos ⟨F32.lit 1 8192, F32.lit (-1) 8192⟩ = (1 / 8192, -1 / 8192) := by
    rw [rpos_lit (x := 1 / 8192) (y := -1 / 8192) (by decide +kernel) (by decide +kernel)]; simp
  have e3 : rpos ⟨F32.lit 1 8192, F32.lit 1 8192⟩ = (1 / 8192, 1 / 8192) := by
    rw [rpos_lit (x := 1 / 8192) (y := 1 / 8192) (by decide +kernel) (by decide +kernel)]; simp
  rw [drawing_eq, h]
  simp only [List.map_cons, List.map_nil, e0, e1, e2, e3]

/-- the hypotheses of `C124_history` for `eraseOps` -/
theorem erase_margins (p : Profile) :
    (∀ op ∈ eraseOps, Sober [(0, 0), (2 / 8192, 0), (1 / 8192, -1 / 8192), (1 / 8192, 1 / 8192)] op) ∧
    (∀ s ∈ drawing p PlanarGraph.new eraseOps, s.a ∈ [((0 : ℝ), (0 : ℝ)), (2 / 8192, 0), (1 / 8192, -1 / 8192), (1 / 8192, 1 / 8192)] ∧
      s.b ∈ [((0 : ℝ), (0 : ℝ)), (2 / 8192, 0), (1 / 8192, -1 / 8192), (1 / 8192, 1 / 8192)]) ∧
    Margins [(0, 0), (2 / 8192, 0), (1 / 8192, -1 / 8192), (1 / 8192, 1 / 8192)] (drawing p PlanarGraph.new eraseOps) (1 / 2 ^ 12) (1 / 2)
      (1 / 2 ^ 16) ∧
    Fine (1 / 2 ^ 12) (1 / 2) (1 / 2 ^ 16) (drawing p PlanarGraph.new eraseOps).length := by
  obtain ⟨m1, m2⟩ := cross_margins
  rw [cross_req] at m1 m2
  rw [erase_drawing]
  refine ⟨?_, ?_, m1, m2⟩
  · have key : ∀ v : Vec2 F32, ∀ x y : ℚ, toRat v.x = x → toRat v.y = y → (∀ z ∈ [v.x, v.y], IsFin z) →
        ((x : ℝ), (y : ℝ)) ∈ [((0 : ℝ), (0 : ℝ)), (2 / 8192, 0), (1 / 8192, -1 / 8192), (1 / 8192, 1 / 8192)] →
        (IsFin v.x ∧ IsFin v.y) ∧ rpos v ∈ [((0 : ℝ), (0 : ℝ)), (2 / 8192, 0), (1 / 8192, -1 / 8192), (1 / 8192, 1 / 8192)] := by
      intro v x y hx hy hfin hmem
      rw [rpos_lit hx hy]
      exact ⟨⟨hfin _ (by simp), hfin _ (by simp)⟩, hmem⟩
    intro op hop
    simp only [eraseOps, List.mem_cons, List.not_mem_nil, or_false] at hop
    have fin : ∀ z ∈ [F32.lit 0, F32.lit 2 8192, F32.lit 1 8192, F32.lit (-1) 8192], IsFin z := by
      intro z hz
      simp only [List.mem_cons, List.not_mem_nil, or_false] at hz
      rcases hz with rfl | rfl | rfl | rfl <;> exact (small_of (by decide +kernel) (by decide +kernel)).1
    rcases hop with rfl | rfl | rfl | rfl | rfl | rfl | rfl | rfl | rfl
    · refine key _ 0 0 (by decide +kernel) (by decide +kernel) (fun z hz => fin z ?_) (by simp)
      simp only [List.mem_cons, List.not_mem_nil, or_false] at hz ⊢; tauto
    · refine key _ (2 / 8192) 0 (by decide +kernel) (by decide +kernel) (fun z hz => fin z ?_) (by simp)
      simp only [List.mem_cons, List.not_mem_nil, or_false] at hz ⊢; tauto
    · change (0 : ℕ) ≠ 1; decide
    · refine key _ (1 / 8192) (-1 / 8192) (by decide +kernel) (by decide +kernel) (fun z hz => fin z ?_) (by simp)
      simp only [List.mem_cons, List.not_mem_nil, or_false] at hz ⊢; tauto
    · refine key _ (1 / 8192) (1 / 8192) (by decide +kernel) (by decide +kernel) (fun z hz => fin z ?_) (by simp)
      simp only [List.mem_cons, List.not_mem_nil, or_false] at hz ⊢; tauto
    · change (2 : ℕ) ≠ 3; decide
    · trivial
    · refine key _ 0 0 (by decide +kernel) (by decide +kernel) (fun z hz => fin z ?_) (by simp)
      simp only [List.mem_cons, List.not_mem_nil, or_false] at hz ⊢; tauto
    · change (3 : ℕ) ≠ 7; decide
  · intro s hs
    simp only [List.mem_cons, List.not_mem_nil, or_false] at hs
    rcases hs with rfl | rfl <;> simp

/-- what the f32 calls of `eraseOps` leave: the edge of the half that is erased is gone, the crossing is still there -/
example (p : Profile) : (history p PlanarGraph.new eraseOps).map (fun r => (r.1.nodes.map (·.data), r.1.edges.map fun e => (e.src, e.dst, e.data))) =
    .ok ([2, 3, 4, 0, 5], [(1, 3, 20), (0, 3, 10), (2, 3, 20)]) := by
  cases p <;> decide +kernel

example (p : Profile) : ∃ g h l, history p PlanarGraph.new (eraseOps.map exactOp) = .ok (g, l) ∧ history p PlanarGraph.new eraseOps = .ok (h, l) ∧
    DrawnPlanar h := by
  obtain ⟨h1, h2, h3, h4⟩ := erase_margins p
  rcases C124_history p eraseOps _ _ _ _ h1 h2 h3 h4 with ⟨e, _, k⟩ | ⟨g, h, l, k1, k2, _, _, k3⟩
  · exfalso
    have : (history p PlanarGraph.new eraseOps).toBool = true := by cases p <;> decide +kernel
    rw [k] at this
    cases this
  · exact ⟨g, h, l, k1, k2, k3⟩

/-- the segments of `crossCall`; then the first segment is erased with its ends and drawn again -/
def redrawOps : List (Op F32 ℕ ℕ) :=
  [.addNode ⟨F32.lit 0, F32.lit 0⟩ 1, .addNode ⟨F32.lit 2 8192, F32.lit 0⟩ 2, .addEdge 0 1 10,
    .addNode ⟨F32.lit 1 8192, F32.lit (-1) 8192⟩ 3, .addNode ⟨F32.lit 1 8192, F32.lit 1 8192⟩ 4, .addEdge 2 3 20,
    .removeNode 0, .removeNode 0, .addNode ⟨F32.lit 0, F32.lit 0⟩ 1, .addNode ⟨F32.lit 2 8192, F32.lit 0⟩ 2, .addEdge 3 4 10]

/-- **C124 needs that no segment is drawn twice.** When one of two crossing segments is erased and drawn again, it runs through the node
that the first crossing has left, and is not split there: the two halves of the other segment give the same intersection, and
`unique_points_among` drops both. -/
theorem C124_redraw (p : Profile) : ∃ h l, history p PlanarGraph.new redrawOps = .ok (h, l) ∧
    h.edges.map (fun e => (e.src, e.dst, e.data)) = [(0, 2, 20), (1, 2, 20), (3, 4, 10)] ∧
    OnSegR (spot h 3) (spot h 4) (spot h 2) ∧ ¬ DrawnPlanar h := by
  have hnodes : (history p PlanarGraph.new redrawOps).map (fun r => (r.1.nodes.map (·.position), r.1.edges.map fun e => (e.src, e.dst, e.data))) =
      .ok ([⟨F32.lit 1 8192, F32.lit (-1) 8192⟩, ⟨F32.lit 1 8192, F32.lit 1 8192⟩, ⟨F32.lit 1 8192, F32.lit 0⟩, ⟨F32.lit 0, F32.lit 0⟩,
        ⟨F32.lit 2 8192, F32.lit 0⟩], [(0, 2, 20), (1, 2, 20), (3, 4, 10)]) := by
    cases p <;> decide +kernel
  cases hr : history p PlanarGraph.new redrawOps with
  | error e => rw [hr] at hnodes; cases hnodes
  | ok r =>
    obtain ⟨h, l⟩ := r
    rw [hr] at hnodes
    simp only [Except.map, Except.ok.injEq, Prod.mk.injEq] at hnodes
    obtain ⟨hn, he⟩ := hnodes
    have sp : ∀ i v, (h.nodes.map (·.position))[i]? = some v → spot h i = rpos v := by
      intro i v hv
      rw [List.getElem?_map] at hv
      unfold spot
      cases hi : h.nodes[i]? with
      | none => rw [hi] at hv; cases hv
      | some b => rw [hi] at hv; cases hv; rfl
    have e2 : spot h 2 = (1 / 8192, 0) := by
      rw [sp 2 ⟨F32.lit 1 8192, F32.lit 0⟩ (by rw [hn]; rfl), rpos_lit (x := 1 / 8192) (y := 0) (by decide +kernel) (by decide +kernel)]
      simp
    have e3 : spot h 3 = (0, 0) := by
      rw [sp 3 ⟨F32.lit 0, F32.lit 0⟩ (by rw [hn]; rfl), rpos_lit (x := 0) (y := 0) (by decide +kernel) (by decide +kernel)]
      simp
    have e4 : spot h 4 = (2 / 8192, 0) := by
      rw [sp 4 ⟨F32.lit 2 8192, F32.lit 0⟩ (by rw [hn]; rfl), rpos_lit (x := 2 / 8192) (y := 0) (by decide +kernel) (by decide +kernel)]
      simp
    have hon : OnSegR (spot h 3) (spot h 4) (spot h 2) := by
      rw [e2, e3, e4]
      exact ⟨1 / 2, by norm_num, by norm_num, by norm_num⟩
    refine ⟨h, l, rfl, he, hon, fun hp => ?_⟩
    have hlen : h.nodes.length = 5 := by
      have := congrArg List.length hn
      simpa using this
    have hmem : ((3, 4, 10) : ℕ × ℕ × ℕ) ∈ h.edges.map (fun e => (e.src, e.dst, e.data)) := by rw [he]; simp
    obtain ⟨e, hem, hee⟩ := List.mem_map.1 hmem
    simp only [Prod.mk.injEq] at hee
    obtain ⟨q1, q2, _⟩ := hee
    have := hp.node e hem 2 (by rw [hlen]; norm_num) (by rw [q1, q2]; exact hon)
    rw [q1, q2] at this
    omega

end
end Kami.Graph
