import Verif.Graph.PlanarSession
/-!
# C152: the graph of a planar drawing, without general position

When the requests avoid the failures of C151, the graph is the arrangement of the requested segments: its edges join
neighbouring points of the segments.
-/

set_option autoImplicit false

namespace Kami.Graph

open Kami
open scoped Kami
open PlanarGraph
open Kami.UtilThm (dst crs dt OnSegR)

variable {T U : Type}

noncomputable section

/-! ## Specification -/

/-- `x` and `y` are neighbours on the segment: different points or crossings on it with none between them -/
def Neighbours (P : List (ℝ × ℝ)) (S : List (Stroke U)) (s : Stroke U) (x y : ℝ × ℝ) : Prop :=
  x ≠ y ∧ s.On x ∧ s.On y ∧ Spot P S x ∧ Spot P S y ∧ ∀ z, Spot P S z → OnSegR x y z → z = x ∨ z = y

/-- the segments with the points and crossings on them, except for the first end of each segment -/
def stops (P : List (ℝ × ℝ)) (S : List (Stroke U)) : Set (Stroke U × (ℝ × ℝ)) :=
  {w | w.1 ∈ S ∧ Spot P S w.2 ∧ w.1.On w.2 ∧ w.2 ≠ w.1.a}

/-! ## Proofs -/

section Proofs
variable [Inhabited T] {S0 : List (Stroke U)} {P0 : List ((ℝ × ℝ) × T)} {g : PlanarGraph XReal T U} {ids : List ℕ}

/-- the nodes are the points and crossings -/
theorem Sketch.node_iff (h : Sketch P0 S0 g ids) (hov : NoOverlap S0) (y : ℝ × ℝ) : NodeAt g y ↔ Spot (P0.map Prod.fst) S0 y := by
  constructor
  · rintro ⟨i, hi, rfl⟩
    exact h.spot (fun _ hx => hx) (fun _ hs => hs) hi
  · rintro (hy | hy)
    · obtain ⟨⟨x, t⟩, hm, rfl⟩ := List.mem_map.1 hy
      obtain ⟨k, hk⟩ := List.mem_iff_getElem?.1 hm
      obtain ⟨i, _, h1, h2⟩ := h.ids_at k x t hk
      exact ⟨i, h1, h2.symm⟩
    · exact h.met hov y hy

/-- the edge below a node on a segment -/
theorem Sketch.edge_below (h : Sketch P0 S0 g ids) (hov : NoOverlap S0) (hd : ∀ s ∈ S0, s.a ≠ s.b) (hpl : Planar g (place g))
    {s : Stroke U} (hs : s ∈ S0) {t : ℝ} (t0 : 0 < t) (t1 : t ≤ 1) (hn : NodeAt g (s.at t)) :
    ∃ (k : ℕ) (e : Edge U) (p : ℝ), g.edges[k]? = some e ∧ s.On (place g e.src) ∧ s.On (place g e.dst) ∧ Span g s e p t := by
  obtain ⟨p, q, hp0, hpt, htq, _, hgap⟩ := gap g (hd s hs) t t0 (show t < t + 1 by linarith)
  obtain ⟨k, e, hk, hon, e1, e2⟩ := h.edge_in hov hd hs (Stroke.on_at (s := s) (r := p) (by linarith) (by linarith))
  have he := List.mem_of_getElem? hk
  obtain ⟨p', q', hsp⟩ := span_of (hd s hs) e1 e2 (h.ne_ends hd he)
  have hr := (hsp.on p).1 hon
  have nq : NodeAt g (s.at q') := by
    rcases hsp.ends with ⟨_, c⟩ | ⟨c, _⟩
    · rw [← c]; exact ⟨_, (h.wf e he).2, rfl⟩
    · rw [← c]; exact ⟨_, (h.wf e he).1, rfl⟩
  have hq : t ≤ q' := by
    by_contra hlt
    push Not at hlt
    exact absurd (hgap q' (by linarith) (by linarith) nq) (by linarith)
  -- the node is not inside the edge
  obtain ⟨i, hi, hit⟩ := hn
  have hend := hpl.node e he i hi (by rw [← hit]; exact (hsp.on t).2 ⟨by linarith, hq⟩)
  have : t = q' := by
    have hcase : s.at t = s.at p' ∨ s.at t = s.at q' := by
      rcases hend with rfl | rfl <;> rcases hsp.ends with ⟨c1, c2⟩ | ⟨c1, c2⟩
      · exact Or.inl (hit.trans c1)
      · exact Or.inr (hit.trans c1)
      · exact Or.inr (hit.trans c2)
      · exact Or.inl (hit.trans c2)
    rcases hcase with c | c
    · have := Stroke.at_inj (hd s hs) c
      linarith
    · exact Stroke.at_inj (hd s hs) c
  subst this
  exact ⟨k, e, p', hk, e1, e2, hsp⟩

/-- the ends of an edge along a segment are neighbours -/
theorem Sketch.span_neighbours (h : Sketch P0 S0 g ids) (hov : NoOverlap S0) (hd : ∀ s ∈ S0, s.a ≠ s.b) (hpl : Planar g (place g))
    {e : Edge U} (he : e ∈ g.edges) {s : Stroke U} (e1 : s.On (place g e.src)) (e2 : s.On (place g e.dst)) :
    Neighbours (P0.map Prod.fst) S0 s (place g e.src) (place g e.dst) := by
  refine ⟨h.ne_ends hd he, e1, e2, (h.node_iff hov _).1 ⟨_, (h.wf e he).1, rfl⟩, (h.node_iff hov _).1 ⟨_, (h.wf e he).2, rfl⟩, ?_⟩
  intro z hz hon
  obtain ⟨i, hi, rfl⟩ := (h.node_iff hov z).2 hz
  rcases hpl.node e he i hi hon with rfl | rfl
  · exact Or.inl rfl
  · exact Or.inr rfl

/-- neighbours are joined -/
theorem Sketch.neighbours_edge (h : Sketch P0 S0 g ids) (hov : NoOverlap S0) (hd : ∀ s ∈ S0, s.a ≠ s.b) (hpl : Planar g (place g))
    {s : Stroke U} (hs : s ∈ S0) {x y : ℝ × ℝ} (hn : Neighbours (P0.map Prod.fst) S0 s x y) :
    ∃ (k : ℕ) (e : Edge U), g.edges[k]? = some e ∧ s.On (place g e.src) ∧ s.On (place g e.dst) ∧
      ((place g e.src = x ∧ place g e.dst = y) ∨ (place g e.src = y ∧ place g e.dst = x)) := by
  obtain ⟨hne, ⟨t, t0, t1, hx⟩, ⟨u, u0, u1, hy⟩, nx, ny, hb⟩ := hn
  have hx : x = s.at t := hx
  have hy : y = s.at u := hy
  -- the upper one of the two
  have key : ∀ t u : ℝ, 0 ≤ t → u ≤ 1 → t < u → NodeAt g (s.at t) → NodeAt g (s.at u) →
      (∀ z, Spot (P0.map Prod.fst) S0 z → OnSegR (s.at t) (s.at u) z → z = s.at t ∨ z = s.at u) →
      ∃ (k : ℕ) (e : Edge U), g.edges[k]? = some e ∧ s.On (place g e.src) ∧ s.On (place g e.dst) ∧
        ((place g e.src = s.at t ∧ place g e.dst = s.at u) ∨ (place g e.src = s.at u ∧ place g e.dst = s.at t)) := by
    intro t u t0 u1 htu nt nu hb
    obtain ⟨k, e, p, hk, e1, e2, hsp⟩ := h.edge_below hov hd hpl hs (by linarith) u1 nu
    have he := List.mem_of_getElem? hk
    have hpt : p = t := by
      rcases lt_trichotomy p t with hlt | heq | hlt
      · exfalso
        obtain ⟨i, hi, hit⟩ := nt
        have hend := hpl.node e he i hi (by rw [← hit]; exact (hsp.on t).2 ⟨hlt.le, htu.le⟩)
        have hcase : s.at t = s.at p ∨ s.at t = s.at u := by
          rcases hend with rfl | rfl <;> rcases hsp.ends with ⟨c1, c2⟩ | ⟨c1, c2⟩
          · exact Or.inl (hit.trans c1)
          · exact Or.inr (hit.trans c1)
          · exact Or.inr (hit.trans c2)
          · exact Or.inl (hit.trans c2)
        rcases hcase with c | c
        · have := Stroke.at_inj (hd s hs) c; linarith
        · have := Stroke.at_inj (hd s hs) c; linarith
      · exact heq
      · exfalso
        have np : NodeAt g (s.at p) := by
          rcases hsp.ends with ⟨c, _⟩ | ⟨_, c⟩
          · rw [← c]; exact ⟨_, (h.wf e he).1, rfl⟩
          · rw [← c]; exact ⟨_, (h.wf e he).2, rfl⟩
        have hlt' := hsp.lt
        rcases hb _ ((h.node_iff hov _).1 np) ((onSeg_at (hd s hs) htu).2 ⟨hlt.le, hlt'.le⟩) with c | c
        · have := Stroke.at_inj (hd s hs) c; linarith
        · have := Stroke.at_inj (hd s hs) c; linarith
    subst hpt
    exact ⟨k, e, hk, e1, e2, hsp.ends⟩
  have mx := (h.node_iff hov x).2 nx
  have my := (h.node_iff hov y).2 ny
  subst hx
  subst hy
  rcases lt_trichotomy t u with hlt | rfl | hlt
  · exact key t u t0 u1 hlt mx my hb
  · exact absurd rfl hne
  · obtain ⟨k, e, hk, e1, e2, hc⟩ := key u t u0 t1 hlt my mx fun z hz ho => (hb z hz (onSeg_symm ho)).symm
    exact ⟨k, e, hk, e1, e2, hc.symm⟩

/-- no two edges join the same points -/
theorem Sketch.no_double (h : Sketch P0 S0 g ids) (hov : NoOverlap S0) (hd : ∀ s ∈ S0, s.a ≠ s.b) {k l : ℕ} {e f : Edge U} :
    g.edges[k]? = some e → g.edges[l]? = some f → ((e.src = f.src ∧ e.dst = f.dst) ∨ (e.src = f.dst ∧ e.dst = f.src)) → k = l := by
  intro hk hl hc
  by_contra hkl
  have he := List.mem_of_getElem? hk
  have hne := h.ne_ends hd he
  obtain ⟨s, hs, _, p1, p2⟩ := h.piece e he
  obtain ⟨p, q, sp⟩ := span_of (hd s hs) p1 p2 hne
  have q1 : s.On (place g f.src) ∧ s.On (place g f.dst) := by
    rcases hc with ⟨c1, c2⟩ | ⟨c1, c2⟩
    · rw [← c1, ← c2]; exact ⟨p1, p2⟩
    · rw [← c1, ← c2]; exact ⟨p2, p1⟩
  have sp' : Span g s f p q := by
    refine ⟨sp.lt, sp.p0, sp.q1, ?_, ?_⟩
    · intro r
      rw [← sp.on r]
      unfold OnEdge
      rcases hc with ⟨c1, c2⟩ | ⟨c1, c2⟩
      · rw [c1, c2]
      · rw [c1, c2]; exact ⟨onSeg_symm, onSeg_symm⟩
    · rcases hc with ⟨c1, c2⟩ | ⟨c1, c2⟩
      · rw [← c1, ← c2]; exact sp.ends
      · rw [← c1, ← c2]; exact sp.ends.symm.imp And.symm And.symm
  exact hkl (h.no_share hov (hd s hs) hk hl sp sp' (by simpa using sp.lt))

end Proofs

/-! ## C152 -/

/-- **C152.** In exact arithmetic, for requests as in C151 without the failures described there: the graph is the arrangement of the
requested segments.  Its nodes are the requested points and the crossings; two points are joined by an edge with data `c` exactly
when they are neighbours on a requested segment with data `c`; no two edges join the same points. -/
theorem C152_arrangement [Inhabited T] (rs : List (Req T U)) (hv : Known 0 rs) (hA : Spread (points rs) (strokes [] rs))
    (hd : ∀ s ∈ strokes [] rs, s.a ≠ s.b) (hov : NoOverlap (strokes [] rs))
    (hok : ∀ y, phase rs y ≠ .skewered ∧ phase rs y ≠ .broken) :
    ∃ g ids, client PlanarGraph.new [] rs = .ok (g, ids) ∧ Planar g (place g) ∧
      (∀ y, (∃ i, i < g.nodes.length ∧ y = place g i) ↔ Spot (points rs) (strokes [] rs) y) ∧
      (∀ x y c, (∃ e ∈ g.edges, e.data = c ∧ ((place g e.src = x ∧ place g e.dst = y) ∨ (place g e.src = y ∧ place g e.dst = x))) ↔
        ∃ s ∈ strokes [] rs, s.c = c ∧ Neighbours (points rs) (strokes [] rs) s x y) ∧
      ∀ (k l : ℕ) (e f : Edge U), g.edges[k]? = some e → g.edges[l]? = some f →
        ((e.src = f.src ∧ e.dst = f.dst) ∨ (e.src = f.dst ∧ e.dst = f.src)) → k = l := by
  obtain ⟨g, ids, h1, h2⟩ := client_sketch hA rs [] [] _ _ Sketch.new hv rfl rfl
  have h : Sketch (wanted rs) (strokes [] rs) g ids := by simpa using h2
  obtain ⟨g', ids', h1', hpl, _⟩ := C151_planar rs hv hA hd hov
  rw [h1] at h1'
  cases h1'
  have hpl := hpl.2 hok
  refine ⟨g, ids, h1, hpl, h.node_iff hov, ?_, fun k l e f => h.no_double hov hd⟩
  · intro x y c
    constructor
    · rintro ⟨e, he, rfl, hc⟩
      obtain ⟨s, hs, hdat, p1, p2⟩ := h.piece e he
      have hn := h.span_neighbours hov hd hpl he p1 p2
      refine ⟨s, hs, hdat.symm, ?_⟩
      rcases hc with ⟨rfl, rfl⟩ | ⟨rfl, rfl⟩
      · exact hn
      · obtain ⟨a1, a2, a3, a4, a5, a6⟩ := hn
        exact ⟨a1.symm, a3, a2, a5, a4, fun z hz ho => (a6 z hz (onSeg_symm ho)).symm⟩
    · rintro ⟨s, hs, rfl, hn⟩
      obtain ⟨k, e, hk, e1, e2, hc⟩ := h.neighbours_edge hov hd hpl hs hn
      have he := List.mem_of_getElem? hk
      refine ⟨e, he, ?_, hc⟩
      obtain ⟨s', hs', hdat, p1, p2⟩ := h.piece e he
      have : s' = s := by
        by_contra hne
        exact clash hov hd hs' hs hne (h.ne_ends hd he) p1 e1 p2 e2
      rw [hdat, this]

/-- **C152, counts.** The graph has one node for every requested point and crossing, and one edge for every segment and every point or
crossing on it other than its first end: a segment with `n` of them on it is divided into `n - 1` edges. -/
theorem C152_counts [Inhabited T] (rs : List (Req T U)) (hv : Known 0 rs) (hA : Spread (points rs) (strokes [] rs))
    (hd : ∀ s ∈ strokes [] rs, s.a ≠ s.b) (hov : NoOverlap (strokes [] rs))
    (hok : ∀ y, phase rs y ≠ .skewered ∧ phase rs y ≠ .broken) (g : PlanarGraph XReal T U) (ids : List ℕ)
    (hc : client PlanarGraph.new [] rs = .ok (g, ids)) :
    {y | Spot (points rs) (strokes [] rs) y}.Finite ∧ g.nodeCount = {y | Spot (points rs) (strokes [] rs) y}.ncard ∧
      (stops (points rs) (strokes [] rs)).Finite ∧ g.edgeCount = (stops (points rs) (strokes [] rs)).ncard := by
  obtain ⟨g', ids', h1, h2⟩ := client_sketch hA rs [] [] _ _ Sketch.new hv rfl rfl
  rw [hc] at h1
  cases h1
  have h : Sketch (wanted rs) (strokes [] rs) g ids := by simpa using h2
  obtain ⟨g', ids', h1', hpl, _⟩ := C151_planar rs hv hA hd hov
  rw [hc] at h1'
  cases h1'
  have hpl := hpl.2 hok
  have hnodes : {y | Spot (points rs) (strokes [] rs) y} = Set.range fun i : Fin g.nodes.length => place g i := by
    ext y
    rw [Set.mem_ofPred_eq, show Spot (points rs) (strokes [] rs) y ↔ NodeAt g y from (h.node_iff hov y).symm]
    constructor
    · rintro ⟨i, hi, rfl⟩; exact ⟨⟨i, hi⟩, rfl⟩
    · rintro ⟨i, rfl⟩; exact ⟨i, i.2, rfl⟩
  -- the segment of an edge and the upper end of the edge on it
  have hpart : ∀ k : Fin g.edges.length, ∃ w : Stroke U × (ℝ × ℝ), ∃ p q, w.1 ∈ strokes [] rs ∧ Span g w.1 g.edges[k] p q ∧ w.2 = w.1.at q := by
    intro k
    have he : g.edges[k] ∈ g.edges := List.getElem_mem k.2
    obtain ⟨s, hs, _, p1, p2⟩ := h.piece _ he
    obtain ⟨p, q, sp⟩ := span_of (hd s hs) p1 p2 (h.ne_ends hd he)
    exact ⟨(s, s.at q), p, q, hs, sp, rfl⟩
  choose F hF using hpart
  have hspan : ∀ {e : Edge U} {s : Stroke U} {p q : ℝ}, Span g s e p q → s.On (place g e.src) ∧ s.On (place g e.dst) := by
    intro e s p q sp
    have := sp.lt
    have a1 : s.On (s.at p) := Stroke.on_at sp.p0 (by have := sp.q1; linarith)
    have a2 : s.On (s.at q) := Stroke.on_at (by have := sp.p0; linarith) sp.q1
    rcases sp.ends with ⟨c1, c2⟩ | ⟨c1, c2⟩ <;> rw [c1, c2]
    · exact ⟨a1, a2⟩
    · exact ⟨a2, a1⟩
  have hFinj : Function.Injective F := by
    intro k l hkl
    obtain ⟨p, q, hs, sp, hw⟩ := hF k
    obtain ⟨p', q', hs', sp', hw'⟩ := hF l
    rw [← hkl] at sp' hw'
    have hq : q = q' := Stroke.at_inj (hd _ hs) (hw.symm.trans hw')
    subst hq
    have := h.no_share hov (hd _ hs) (List.getElem?_eq_getElem k.2) (List.getElem?_eq_getElem l.2) sp sp'
      (by rw [min_self]; exact max_lt sp.lt sp'.lt)
    exact Fin.ext this
  have hstops : stops (points rs) (strokes [] rs) = Set.range F := by
    ext ⟨s, y⟩
    constructor
    · rintro ⟨hs, hsp, ⟨t, t0, t1, hy⟩, hne⟩
      have hy : y = s.at t := hy
      subst hy
      have t0' : 0 < t := lt_of_le_of_ne t0 (by rintro rfl; exact hne s.at_zero)
      obtain ⟨k, e, p, hk, e1, e2, sp⟩ := h.edge_below hov hd hpl hs t0' t1 ((h.node_iff hov _).2 hsp)
      obtain ⟨hkl, hke⟩ := List.getElem?_eq_some_iff.1 hk
      refine ⟨⟨k, hkl⟩, ?_⟩
      obtain ⟨p', q', hs', sp', hw⟩ := hF ⟨k, hkl⟩
      have hke' : g.edges[(⟨k, hkl⟩ : Fin g.edges.length)] = e := hke
      rw [hke'] at sp'
      have hss : (F ⟨k, hkl⟩).1 = s := by
        by_contra hne'
        obtain ⟨b1, b2⟩ := hspan sp'
        exact clash hov hd hs' hs hne' (h.ne_ends hd (List.mem_of_getElem? hk)) b1 e1 b2 e2
      rw [hss] at sp' hw
      have hq : q' = t := by
        have c1 := (sp'.on t).1 ((sp.on t).2 ⟨sp.lt.le, le_refl _⟩)
        have c2 := (sp.on q').1 ((sp'.on q').2 ⟨sp'.lt.le, le_refl _⟩)
        linarith
      rw [hq] at hw
      exact Prod.ext hss hw
    · rintro ⟨k, hk⟩
      obtain ⟨p, q, hs, sp, hw⟩ := hF k
      rw [hk] at hs sp hw
      simp only at hs sp hw
      have := sp.lt
      have := sp.p0
      have he : g.edges[k] ∈ g.edges := List.getElem_mem k.2
      refine ⟨hs, (h.node_iff hov _).1 ?_, ?_, ?_⟩
      · simp only
        rw [hw]
        rcases sp.ends with ⟨_, c⟩ | ⟨c, _⟩
        · exact ⟨_, (h.wf _ he).2, c.symm⟩
        · exact ⟨_, (h.wf _ he).1, c.symm⟩
      · simp only
        rw [hw]; exact Stroke.on_at (by linarith) sp.q1
      · simp only
        rw [hw, ← s.at_zero]
        intro hc
        have := Stroke.at_inj (hd s hs) hc
        linarith
  refine ⟨?_, ?_, ?_, ?_⟩
  · rw [hnodes]; exact Set.finite_range _
  · rw [hnodes, ← Set.image_univ, Set.ncard_image_of_injective _ (fun i j hij => Fin.ext (h.inj i j i.2 j.2 hij)), Set.ncard_univ]
    simp [nodeCount]
  · rw [hstops]; exact Set.finite_range _
  · rw [hstops, ← Set.image_univ, Set.ncard_image_of_injective _ hFinj, Set.ncard_univ]
    simp [edgeCount]

/-- **C152, order.** Two lists of requests without the failures of C151 for the same points and segments, in any order and number, give
the same arrangement: nodes at the same places, and edges between the same places with the same data. -/
theorem C152_order [Inhabited T] {T' : Type} [Inhabited T'] (rs : List (Req T U)) (rs' : List (Req T' U)) (hv : Known 0 rs)
    (hv' : Known 0 rs') (hA : Spread (points rs) (strokes [] rs)) (hd : ∀ s ∈ strokes [] rs, s.a ≠ s.b)
    (hov : NoOverlap (strokes [] rs)) (hov' : NoOverlap (strokes [] rs')) (hok : ∀ y, phase rs y ≠ .skewered ∧ phase rs y ≠ .broken)
    (hok' : ∀ y, phase rs' y ≠ .skewered ∧ phase rs' y ≠ .broken) (hP : ∀ x, x ∈ points rs ↔ x ∈ points rs')
    (hS : ∀ s, s ∈ strokes [] rs ↔ s ∈ strokes [] rs') :
    ∃ g ids g' ids', client PlanarGraph.new [] rs = .ok (g, ids) ∧ client PlanarGraph.new [] rs' = .ok (g', ids') ∧
      g.nodeCount = g'.nodeCount ∧ g.edgeCount = g'.edgeCount ∧
      (∀ y, (∃ i, i < g.nodes.length ∧ y = place g i) ↔ ∃ i, i < g'.nodes.length ∧ y = place g' i) ∧
      ∀ x y c,
        (∃ e ∈ g.edges, e.data = c ∧ ((place g e.src = x ∧ place g e.dst = y) ∨ (place g e.src = y ∧ place g e.dst = x))) ↔
        ∃ e ∈ g'.edges, e.data = c ∧ ((place g' e.src = x ∧ place g' e.dst = y) ∨ (place g' e.src = y ∧ place g' e.dst = x)) := by
  have hsp : ∀ y, Spot (points rs) (strokes [] rs) y ↔ Spot (points rs') (strokes [] rs') y := by
    intro y
    exact or_congr (hP y) ⟨fun h => h.mono fun s => (hS s).1, fun h => h.mono fun s => (hS s).2⟩
  have hA' : Spread (points rs') (strokes [] rs') :=
    ⟨fun x y hx hy => hA.sep x y ((hsp x).2 hx) ((hsp y).2 hy), fun x hx s hs => hA.clear x ((hsp x).2 hx) s ((hS s).2 hs)⟩
  have hd' : ∀ s ∈ strokes [] rs', s.a ≠ s.b := fun s hs => hd s ((hS s).2 hs)
  obtain ⟨g, ids, h1, _, h2, h3, _⟩ := C152_arrangement rs hv hA hd hov hok
  obtain ⟨g', ids', h1', _, h2', h3', _⟩ := C152_arrangement rs' hv' hA' hd' hov' hok'
  obtain ⟨_, c1, _, c2⟩ := C152_counts rs hv hA hd hov hok g ids h1
  obtain ⟨_, c1', _, c2'⟩ := C152_counts rs' hv' hA' hd' hov' hok' g' ids' h1'
  refine ⟨g, ids, g', ids', h1, h1', ?_, ?_, fun y => by rw [h2, h2', hsp], ?_⟩
  · rw [c1, c1']
    congr 1
    ext y
    exact hsp y
  · rw [c2, c2']
    congr 1
    ext w
    exact and_congr (hS w.1) (and_congr (hsp w.2) Iff.rfl)
  · intro x y c
    rw [h3, h3']
    refine exists_congr fun s => and_congr (hS s) (and_congr Iff.rfl ?_)
    unfold Neighbours
    simp only [hsp]

/-- the requests of `centreReq`: two segments through a requested point, four edges -/
example : ∃ g ids, client PlanarGraph.new [] centreReq = .ok (g, ids) ∧ ∃ e ∈ g.edges, e.data = 10 ∧
    ((place g e.src = (0, 0) ∧ place g e.dst = (1, 0)) ∨ (place g e.src = (1, 0) ∧ place g e.dst = (0, 0))) := by
  obtain ⟨g, ids, h, _, _, h1, _⟩ := C152_arrangement centreReq (by simp [centreReq, Known]) centre_spread
    (by rw [centre_strokes]; norm_num) (by rw [centre_strokes]; norm_num [NoOverlap, crs]) centre_phase
  refine ⟨g, ids, h, (h1 _ _ _).2 ⟨⟨(0, 0), (2, 0), 10⟩, by rw [centre_strokes]; simp, rfl, by simp, onSeg_left _ _, centre_on.1, ?_, ?_, ?_⟩⟩
  · exact Or.inl (by simp [centreReq, points, wanted])
  · exact Or.inl (by simp [centreReq, points, wanted])
  · have hin : ∀ z, Spot (points centreReq) (strokes [] centreReq) z →
        z ∈ ([(0, 0), (2, 0), (1, -1), (1, 1), (1, 0)] : List (ℝ × ℝ)) := by
      rintro z (hz | ⟨s, hs, s', hs', hne, ⟨t, _, _, rfl⟩, ⟨u, _, _, hu⟩⟩)
      · exact hz
      · rw [centre_strokes] at hs hs'
        have g1 := congrArg Prod.fst hu
        have g2 := congrArg Prod.snd hu
        have key : (s.a.1 + t * (s.b.1 - s.a.1), s.a.2 + t * (s.b.2 - s.a.2)) = ((1, 0) : ℝ × ℝ) := by
          simp only [List.mem_cons, List.not_mem_nil, or_false] at hs hs'
          rcases hs with rfl | rfl <;> rcases hs' with rfl | rfl <;>
            first
            | (exfalso; apply hne; norm_num [crs]; done)
            | (norm_num at g1 g2 ⊢; linarith)
        rw [key]
        simp
    intro z hz ho
    have := hin z hz
    obtain ⟨t, t0, t1, rfl⟩ := ho
    simp only [List.mem_cons, List.not_mem_nil, or_false, Prod.mk.injEq] at this ⊢
    norm_num at this ⊢
    rcases this with h | h | h
    · exact Or.inl h
    · linarith
    · exact Or.inr h

end

end Kami.Graph
