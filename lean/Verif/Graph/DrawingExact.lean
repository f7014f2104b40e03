import Verif.Graph.PlanarExact
/-!
# C83 without general position

`add_edge` (src/graph/planar_graph.rs:204-366) leaves a drawing that is not planar in many cases (C60).  The set of points drawn is right
nevertheless: the new segment may pass through nodes, several edges may meet in one point of it, edges may run along it, and the old
drawing need not be planar.
-/

set_option autoImplicit false

namespace Kami.Graph

open Kami
open scoped Kami
open PlanarGraph
open Kami.UtilThm (dst crs dt OnSegR)

variable {T U : Type}

noncomputable section

/-- the nodes created are at points inserted and have default data -/
theorem inserts_new {F : Type} [Scalar F] [Inhabited T] {g g' : PlanarGraph F T U} {xs : List (Vec2 F)} {cn ce : List Nat}
    (h : Inserts g xs g' cn ce) : ∃ l, g'.nodes = g.nodes ++ l ∧ ∀ a ∈ l, a.position ∈ xs ∧ a.data = default ∧ a.label = "" := by
  induction h with
  | nil g => exact ⟨[], by simp⟩
  | cons g x xs g' cn ce _ ih =>
    obtain ⟨l, h1, h2⟩ := ih
    unfold insertPt at h1
    by_cases hc : ((nearest g x).2 <. Scalar.epsilon) = true
    · rw [if_pos hc] at h1
      refine ⟨l, h1, fun a ha => ⟨List.mem_cons_of_mem _ (h2 a ha).1, (h2 a ha).2⟩⟩
    · rw [if_neg hc] at h1
      have h1 : g'.nodes = (g.nodes ++ [⟨x, default, defaultLabel⟩]) ++ l := h1
      refine ⟨⟨x, default, defaultLabel⟩ :: l, by rw [h1, List.append_assoc]; rfl, ?_⟩
      intro a ha
      rcases List.mem_cons.1 ha with rfl | ha
      · exact ⟨List.mem_cons_self .., rfl, rfl⟩
      · exact ⟨List.mem_cons_of_mem _ (h2 a ha).1, (h2 a ha).2⟩

theorem pushEdge_get {g : PlanarGraph XReal T U} {s d : ℕ} {x : U} {k : ℕ} {e : Edge U} (h : (pushEdge g s d x).edges[k]? = some e) :
    (g.edges[k]? = some e ∧ k < g.edges.length) ∨ (k = g.edges.length ∧ e = ⟨s, d, x, defaultLabel⟩) := by
  simp only [pushEdge] at h
  by_cases hk : k < g.edges.length
  · rw [List.getElem?_append_left hk] at h; exact Or.inl ⟨h, hk⟩
  · have := (List.getElem?_eq_some_iff.1 h).1
    simp only [List.length_append, List.length_singleton] at this
    have : k = g.edges.length := by omega
    subst this
    simp at h
    exact Or.inr ⟨rfl, h.symm⟩

/-- what `add_edge` of a new edge does: all edges, with the new one, are cut at the points found -/
theorem addEdge_cut [Inhabited T] {g : PlanarGraph XReal T U} (hwf : WF g) {pos : ℕ → ℝ × ℝ} (hdr : Drawn g pos)
    (hinj : ∀ i j, i < g.nodes.length → j < g.nodes.length → pos i = pos j → i = j) {s d : ℕ} (x : U)
    (hs : s < g.nodes.length) (hd : d < g.nodes.length)
    (hno : ∀ e ∈ g.edges, ¬ ((e.src = s ∧ e.dst = d) ∨ (e.src = d ∧ e.dst = s))) (hc : ClearCuts g pos s d) {R : ℝ × ℝ → Prop}
    (hR : ∀ y, Crossing g pos s d y → R y) (hRn : ∀ i, i < g.nodes.length → R (pos i))
    (hRm : ∀ (k l : ℕ) (e f : Edge U), g.edges[k]? = some e → g.edges[l]? = some f → k ≠ l → ∀ y, OnEdge pos e y → OnEdge pos f y → R y) :
    ∃ g1 r pos' org l, g.addEdge s d x = .ok (g1, .ok r) ∧ g1.nodes = g.nodes ++ l ∧
      (∀ a ∈ l, a.position ∈ Utils.uniquePointsAmong (meetPoints g ⟨s, d, x, defaultLabel⟩) ∧ a.data = default ∧ a.label = "") ∧
      CutUp (pushEdge g s d x).edges pos g.nodes.length (fun y => ∃ e ∈ g.edges, Cuts pos s d e y) R
        (fun y => pt y ∈ Utils.uniquePointsAmong (meetPoints g ⟨s, d, x, defaultLabel⟩)) g1 pos' org := by
  have hno' : g.hasEdgeBetweenNodes s d = false := by
    rw [← Bool.not_eq_true, hasEdge_iff]
    rintro ⟨e, he, hc⟩
    exact hno e he hc
  rcases addEdge_ok g hwf s d x with ⟨h, _⟩ | ⟨_, h, _⟩ | ⟨_, _, _, g1, cn, ce, hi, h'⟩
  · rw [hno'] at h; cases h
  · exact absurd ⟨hs, hd⟩ h
  have h0 : CutUp (pushEdge g s d x).edges pos g.nodes.length (fun y => ∃ e ∈ g.edges, Cuts pos s d e y) R
      (fun _ => False) (pushEdge g s d x) pos id := by
    refine ⟨hwf.pushEdge hs hd x, hdr, hinj, le_refl _, fun _ _ => rfl, ?_, ?_,
      fun _ _ i hi _ => Or.inr ⟨hRn i hi, id⟩, fun k b hb y hy => ⟨k, b, hb, rfl, hy⟩, fun _ h => h.elim, ?_, ?_⟩
    · intro K f hf
      refine ⟨f, hf, ?_⟩
      rintro i (rfl | rfl)
      · exact ⟨onSeg_left _ _, Or.inl rfl⟩
      · exact ⟨onSeg_right _ _, Or.inr (Or.inl rfl)⟩
    · intro k l e f he hf hkl y hy hy'
      refine Or.inr ⟨?_, id⟩
      have hnew : ∀ e ∈ g.edges, OnEdge pos e y → OnSegR (pos s) (pos d) y → R y := by
        intro e he h1 h2
        by_cases hn : ∃ i, i < g.nodes.length ∧ y = pos i
        · obtain ⟨i, hi, rfl⟩ := hn
          exact hRn i hi
        · exact hR y ⟨h2, ⟨e, he, h1⟩, fun i hi hc => hn ⟨i, hi, hc⟩⟩
      rcases pushEdge_get he with ⟨h1, _⟩ | ⟨rfl, rfl⟩ <;> rcases pushEdge_get hf with ⟨h2, _⟩ | ⟨rfl, rfl⟩
      · exact hRm k l e f h1 h2 hkl y hy hy'
      · exact hnew e (List.mem_of_getElem? h1) hy hy'
      · exact hnew f (List.mem_of_getElem? h2) hy' hy
      · exact absurd rfl hkl
    · rintro y ⟨e, he, hcut⟩ i hi hne
      exact hc.far e he y hcut i hi hne
    · intro K f b hf hb
      rw [id, hf] at hb
      cases hb
      rfl
  obtain ⟨pos', org, h1⟩ := CutUp.added hwf hdr hc hs hd hR h0 hi
  obtain ⟨l, hl1, hl2⟩ := inserts_new hi
  have hl1 : g1.nodes = g.nodes ++ l := hl1
  exact ⟨g1, _, pos', org, l, h', hl1, hl2, h1⟩

/-- **C83, exactly** (exact arithmetic, points of intersection clear up to the tolerance; any drawing with distinct positions, planar
or not, and any segment).  `add_edge(s, d)` of an edge that is not there yet returns `Ok`, old nodes stay as they are, and a point is
on an edge with data `c` exactly when it was on an edge with data `c` before, or `c` is the new data and the point is on the
segment from `s` to `d`.  The new nodes have default data and are exactly at the points, no nodes yet, where the segment cuts
exactly one edge that is not parallel to it. -/
theorem C83_exact [Inhabited T] (g : PlanarGraph XReal T U) (hwf : WF g) (pos : ℕ → ℝ × ℝ) (hdr : Drawn g pos)
    (hinj : ∀ i j, i < g.nodes.length → j < g.nodes.length → pos i = pos j → i = j) (s d : ℕ) (x : U)
    (hs : s < g.nodes.length) (hd : d < g.nodes.length)
    (hno : ∀ e ∈ g.edges, ¬ ((e.src = s ∧ e.dst = d) ∨ (e.src = d ∧ e.dst = s))) (hc : ClearCuts g pos s d) :
    ∃ g' r pos', g.addEdge s d x = .ok (g', .ok r) ∧ g'.nodes.take g.nodes.length = g.nodes ∧
      (∀ i, i < g.nodes.length → pos' i = pos i) ∧ Drawn g' pos' ∧
      (∀ i j, i < g'.nodes.length → j < g'.nodes.length → pos' i = pos' j → i = j) ∧
      (∀ y c, (∃ e ∈ g'.edges, e.data = c ∧ OnEdge pos' e y) ↔
        ((∃ e ∈ g.edges, e.data = c ∧ OnEdge pos e y) ∨ (c = x ∧ OnSegR (pos s) (pos d) y))) ∧
      (∀ y, (∃ i, g.nodes.length ≤ i ∧ i < g'.nodes.length ∧ y = pos' i) ↔
        (∃! k : ℕ, ∃ e : Edge U, g.edges[k]? = some e ∧ Cuts pos s d e y) ∧ ∀ i, i < g.nodes.length → y ≠ pos i) ∧
      (∀ i a, g.nodes.length ≤ i → g'.nodes[i]? = some a → a.data = default ∧ a.label = "") := by
  obtain ⟨g1, r, pos', org, l, h', hl1, hl2, h1⟩ := addEdge_cut hwf hdr hinj x hs hd hno hc (R := fun _ => True)
    (fun _ _ => trivial) (fun _ _ => trivial) (fun _ _ _ _ _ _ _ _ _ _ => trivial)
  have hnew : ∀ i a, g.nodes.length ≤ i → g1.nodes[i]? = some a → a ∈ l := by
    intro i a hi' ha
    rw [hl1, List.getElem?_append_right hi'] at ha
    exact List.mem_of_getElem? ha
  refine ⟨g1, r, pos', h', by rw [hl1, List.take_left], h1.old, h1.drawn, h1.inj, ?_, ?_, ?_⟩
  · intro y c
    constructor
    · rintro ⟨f, hf, rfl, hy⟩
      obtain ⟨K, hK⟩ := List.mem_iff_getElem?.1 hf
      obtain ⟨b, hb, _⟩ := h1.origin K f hK
      have hyb := h1.on_base hK hb hy
      have hdat := h1.data K f b hK hb
      rcases List.mem_append.1 (List.mem_of_getElem? hb) with hm | hm
      · exact Or.inl ⟨b, hm, hdat.symm, hyb⟩
      · rw [List.mem_singleton] at hm
        subst hm
        exact Or.inr ⟨hdat, hyb⟩
    · rintro (⟨e, he, rfl, hy⟩ | ⟨rfl, hy⟩)
      · obtain ⟨k, hk⟩ := List.mem_iff_getElem?.1 he
        have hkl := (List.getElem?_eq_some_iff.1 hk).1
        have hb : (pushEdge g s d x).edges[k]? = some e := by
          simp only [pushEdge]; rw [List.getElem?_append_left hkl]; exact hk
        obtain ⟨K, f, hf, hK, hyf⟩ := h1.cover k e hb y hy
        exact ⟨f, List.mem_of_getElem? hf, h1.data K f e hf (by rw [hK]; exact hb), hyf⟩
      · have hb : (pushEdge g s d c).edges[g.edges.length]? = some ⟨s, d, c, defaultLabel⟩ := by simp [pushEdge]
        obtain ⟨K, f, hf, hK, hyf⟩ := h1.cover _ _ hb y hy
        exact ⟨f, List.mem_of_getElem? hf, h1.data K f _ hf (by rw [hK]; exact hb), hyf⟩
  · intro y
    have hfi := found_iff hwf hdr hs hd x hc y
    have hone : (∃! k : ℕ, ∃ e : Edge U, g.edges[k]? = some e ∧ Cuts pos s d e y) ↔
        ∃ (k : ℕ) (e : Edge U), g.edges[k]? = some e ∧ Cuts pos s d e y ∧
          ∀ (k' : ℕ) (e' : Edge U), g.edges[k']? = some e' → Cuts pos s d e' y → k' = k := by
      constructor
      · rintro ⟨k, ⟨e, h2, h3⟩, h4⟩
        exact ⟨k, e, h2, h3, fun k' e' h5 h6 => h4 k' ⟨e', h5, h6⟩⟩
      · rintro ⟨k, e, h2, h3, h4⟩
        exact ⟨k, ⟨e, h2, h3⟩, fun k' ⟨e', h5, h6⟩ => h4 k' e' h5 h6⟩
    rw [hone, ← hfi]
    constructor
    · rintro ⟨i, hi1, hi2, rfl⟩
      have ha := List.getElem?_eq_getElem hi2
      have hm := (hl2 _ (hnew i _ hi1 ha)).1
      rw [h1.drawn i _ ha] at hm
      refine ⟨hm, ?_⟩
      intro j hj hc'
      rw [← h1.old j hj] at hc'
      have := h1.inj i j hi2 (lt_of_lt_of_le hj h1.size) hc'
      omega
    · rintro ⟨hm, hn⟩
      obtain ⟨i, hi1, rfl⟩ := h1.xnode y hm
      refine ⟨i, ?_, hi1, rfl⟩
      by_contra hlt
      exact hn i (by omega) (h1.old i (by omega))
  · intro i a hi' ha
    exact (hl2 a (hnew i a hi' ha)).2

/-- a segment through the point where two edges cross already: the hypotheses of `C83_exact` hold, and no node is created -/
example : ∃ g' r, (atPoints [(0, 0), (4, 0), (2, -2), (2, 2), (1, -1), (3, 1)] [(2, 3), (4, 5)]).addEdge 0 1 () = .ok (g', .ok r) ∧
    g'.nodes.length = 6 := by
  set ps : List (ℝ × ℝ) := [(0, 0), (4, 0), (2, -2), (2, 2), (1, -1), (3, 1)] with hps
  have hlen : (atPoints ps [(2, 3), (4, 5)]).nodes.length = 6 := by simp [atPoints, hps]
  have hedges : (atPoints ps [(2, 3), (4, 5)]).edges = [⟨2, 3, (), ""⟩, ⟨4, 5, (), ""⟩] := by simp [atPoints]
  have hmem : ∀ e, e ∈ (atPoints ps [(2, 3), (4, 5)]).edges ↔ e = ⟨2, 3, (), ""⟩ ∨ e = ⟨4, 5, (), ""⟩ := by simp [atPoints]
  have heps : XReal.epsR ≤ 1 / 2 := by unfold XReal.epsR; norm_num
  have hs4 : Real.sqrt 4 = 2 := by rw [show (4 : ℝ) = 2 ^ 2 by norm_num, Real.sqrt_sq (by norm_num)]
  have hs2 : 1 ≤ Real.sqrt 2 := Real.one_le_sqrt.2 (by norm_num)
  have hcut : ∀ e ∈ (atPoints ps [(2, 3), (4, 5)]).edges, ∀ y, Cuts (posOf ps) 0 1 e y → y = (2, 0) := by
    rintro e he y ⟨_, ⟨u, u0, u1, hu⟩, ⟨t, t0, t1, rfl⟩⟩
    rw [hmem] at he
    have h1 := congrArg Prod.fst hu
    have h2 := congrArg Prod.snd hu
    rcases he with rfl | rfl <;> norm_num [posOf, hps] at h1 h2 ⊢ <;> linarith
  have hon1 : OnSegR (posOf ps 2) (posOf ps 3) (2, 0) := ⟨1 / 2, by norm_num, by norm_num, by norm_num [posOf, hps]⟩
  have hon2 : OnSegR (posOf ps 4) (posOf ps 5) (2, 0) := ⟨1 / 2, by norm_num, by norm_num, by norm_num [posOf, hps]⟩
  have honS : OnSegR (posOf ps 0) (posOf ps 1) (2, 0) := ⟨1 / 2, by norm_num, by norm_num, by norm_num [posOf, hps]⟩
  obtain ⟨g', r, pos', h1, h2, _, _, _, _, h6, _⟩ := C83_exact (atPoints ps [(2, 3), (4, 5)])
    (by intro e he; rw [hmem] at he; rcases he with rfl | rfl <;> simp [hlen]) (posOf ps) (drawn_atPoints _ _)
    (by
      intro i j hi hj hij
      rw [hlen] at hi hj
      interval_cases i <;> interval_cases j <;> first | rfl | (exfalso; norm_num [posOf, hps] at hij))
    0 1 () (by simp [hlen]) (by simp [hlen]) (by intro e he; rw [hmem] at he; rcases he with rfl | rfl <;> simp)
    (by
      refine ⟨?_, ?_, ?_⟩
      · intro e he y hy i hi hne
        have hyc := hcut e he y hy
        subst hyc
        rw [hlen] at hi
        interval_cases i <;> (norm_num [dst, posOf, hps, hs4]; linarith)
      · intro e he e' he' y y' hy hy' hne
        exact absurd ((hcut e he y hy).trans (hcut e' he' y' hy').symm) hne
      · intro e he y hy u v huv hno
        have hyc := hcut e he y hy
        subst hyc
        rcases huv with ⟨rfl, rfl⟩ | ⟨e', he', rfl, rfl⟩
        · exact absurd honS hno
        · rw [hmem] at he'
          rcases he' with rfl | rfl
          · exact absurd hon1 hno
          · exact absurd hon2 hno)
  refine ⟨g', r, h1, ?_⟩
  have hge := congrArg List.length h2
  rw [List.length_take, hlen] at hge
  by_contra hne
  obtain ⟨⟨k, ⟨e, he, hcute⟩, huniq⟩, _⟩ := (h6 (pos' 6)).1 ⟨6, by rw [hlen], by omega, rfl⟩
  have hy := hcut e (List.mem_of_getElem? he) _ hcute
  rw [hy] at huniq
  have u0 := huniq 0 ⟨⟨2, 3, (), ""⟩, by rw [hedges]; rfl, by norm_num [crs, posOf, hps], hon1, honS⟩
  have u1 := huniq 1 ⟨⟨4, 5, (), ""⟩, by rw [hedges]; rfl, by norm_num [crs, posOf, hps], hon2, honS⟩
  omega

end

end Kami.Graph
