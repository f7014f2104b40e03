import Verif.Graph.Whole
import Verif.Graph.Count
/-!
# C154: degrees without general position

The number `number_of_edges_incident_to` reports for every node of a drawing: one for every segment that ends there and two for
every segment that is divided there.
-/

set_option autoImplicit false

namespace Kami.Graph

open Kami
open scoped Kami
open PlanarGraph
open Kami.UtilThm (dst crs dt OnSegR)

variable {T U : Type}

noncomputable section

/-! ## Specification -/

/-- the segments that end in the point -/
def endingAt (S : List (Stroke U)) (y : ℝ × ℝ) : Set (Stroke U) := {s | s ∈ S ∧ (y = s.a ∨ y = s.b)}

/-- the segments that are divided in the point -/
def dividedAt (rs : List (Req T U)) (y : ℝ × ℝ) : Set (Stroke U) := {s | s ∈ strokes [] rs ∧ s.Within y ∧ Divides rs s y}

/-! ## Proofs -/

section Static
variable [Inhabited T] {S0 : List (Stroke U)} {P0 : List ((ℝ × ℝ) × T)} {g : PlanarGraph XReal T U} {ids : List ℕ}

/-- the edge above a point that divides the segment -/
theorem Sketch.edge_over (h : Sketch P0 S0 g ids) (hov : NoOverlap S0) (hd : ∀ s ∈ S0, s.a ≠ s.b) {s : Stroke U} (hs : s ∈ S0) {t : ℝ}
    (t0 : 0 ≤ t) (t1 : t < 1) (hn : ¬ InsideOf g s (s.at t)) :
    ∃ (k : ℕ) (e : Edge U) (q : ℝ), g.edges[k]? = some e ∧ s.On (place g e.src) ∧ s.On (place g e.dst) ∧ Span g s e t q := by
  obtain ⟨p, q, _, hpt, htq, hq1, hgap⟩ := gap g (hd s hs) t (show t - 1 < t by linarith) t1
  obtain ⟨k, e, hk, hon, e1, e2⟩ := h.edge_in hov hd hs (Stroke.on_at (s := s) (r := q) (by linarith) (by linarith))
  have he := List.mem_of_getElem? hk
  obtain ⟨p', q', hsp⟩ := span_of (hd s hs) e1 e2 (h.ne_ends hd he)
  have hr := (hsp.on q).1 hon
  have np : NodeAt g (s.at p') := by
    rcases hsp.ends with ⟨c, _⟩ | ⟨_, c⟩
    · rw [← c]; exact ⟨_, (h.wf e he).1, rfl⟩
    · rw [← c]; exact ⟨_, (h.wf e he).2, rfl⟩
  have hp : p' ≤ t := by
    by_contra hlt
    push Not at hlt
    exact absurd (hgap p' (by linarith) (by linarith) np) (by linarith)
  have : t = p' := by
    by_contra hne
    exact hn (hsp.insideOf (hd s hs) he (lt_of_le_of_ne hp (Ne.symm hne)) (by linarith))
  subst this
  exact ⟨k, e, q', hk, e1, e2, hsp⟩

omit [Inhabited T] in
theorem Span.on_ends {s : Stroke U} {e : Edge U} {p q : ℝ} (sp : Span g s e p q) : s.On (place g e.src) ∧ s.On (place g e.dst) := by
  have := sp.lt
  have a1 : s.On (s.at p) := Stroke.on_at sp.p0 (by have := sp.q1; linarith)
  have a2 : s.On (s.at q) := Stroke.on_at (by have := sp.p0; linarith) sp.q1
  rcases sp.ends with ⟨c1, c2⟩ | ⟨c1, c2⟩ <;> rw [c1, c2]
  · exact ⟨a1, a2⟩
  · exact ⟨a2, a1⟩

/-- the slots of the edges that end in `y` from below (`true`) or from above on their segments -/
def sideSlots (S0 : List (Stroke U)) (g : PlanarGraph XReal T U) (y : ℝ × ℝ) (up : Bool) : Set ℕ :=
  {k | ∃ (e : Edge U) (s : Stroke U) (p q : ℝ), g.edges[k]? = some e ∧ s ∈ S0 ∧ Span g s e p q ∧ y = s.at (if up then q else p)}

/-- the segment and the end of an edge are unique -/
theorem Sketch.span_unique (h : Sketch P0 S0 g ids) (hov : NoOverlap S0) (hd : ∀ s ∈ S0, s.a ≠ s.b) {e : Edge U} (he : e ∈ g.edges)
    {s s' : Stroke U} (hs : s ∈ S0) (hs' : s' ∈ S0) {p q p' q' : ℝ} (sp : Span g s e p q) (sp' : Span g s' e p' q') :
    s = s' ∧ p = p' ∧ q = q' := by
  have : s = s' := by
    by_contra hne
    exact clash hov hd hs hs' hne (h.ne_ends hd he) sp.on_ends.1 sp'.on_ends.1 sp.on_ends.2 sp'.on_ends.2
  subst this
  have l1 := sp.lt
  have l2 := sp'.lt
  have c1 := (sp'.on p).1 ((sp.on p).2 ⟨le_refl _, l1.le⟩)
  have c2 := (sp'.on q).1 ((sp.on q).2 ⟨l1.le, le_refl _⟩)
  have c3 := (sp.on p').1 ((sp'.on p').2 ⟨le_refl _, l2.le⟩)
  have c4 := (sp.on q').1 ((sp'.on q').2 ⟨l2.le, le_refl _⟩)
  exact ⟨rfl, by linarith, by linarith⟩

/-- one edge on each side for every segment the point divides -/
theorem Sketch.slots_card (h : Sketch P0 S0 g ids) (hov : NoOverlap S0) (hd : ∀ s ∈ S0, s.a ≠ s.b) (y : ℝ × ℝ) (up : Bool) :
    (sideSlots S0 g y up).ncard = {s | s ∈ S0 ∧ s.On y ∧ ¬ InsideOf g s y ∧ y ≠ (if up then s.a else s.b)}.ncard := by
  have hex : ∀ s, s ∈ {s | s ∈ S0 ∧ s.On y ∧ ¬ InsideOf g s y ∧ y ≠ (if up then s.a else s.b)} →
      ∃ (k : ℕ) (e : Edge U) (p q : ℝ), g.edges[k]? = some e ∧ Span g s e p q ∧ y = s.at (if up then q else p) := by
    rintro s ⟨hs, ⟨t, t0, t1, hy⟩, hn, hne⟩
    have hy : y = s.at t := hy
    subst hy
    cases up with
    | true =>
      obtain ⟨k, e, p, hk, _, _, sp⟩ := h.edge_under hov hd hs (lt_of_le_of_ne t0 (by rintro rfl; exact hne s.at_zero)) t1 hn
      exact ⟨k, e, p, t, hk, sp, rfl⟩
    | false =>
      obtain ⟨k, e, q, hk, _, _, sp⟩ := h.edge_over hov hd hs t0 (lt_of_le_of_ne t1 (by rintro rfl; exact hne s.at_one)) hn
      exact ⟨k, e, t, q, hk, sp, rfl⟩
  symm
  refine Set.ncard_congr (fun s hs => (hex s hs).choose) ?_ ?_ ?_
  · intro s hs
    obtain ⟨e, p, q, hk, sp, hy⟩ := (hex s hs).choose_spec
    exact ⟨e, s, p, q, hk, hs.1, sp, hy⟩
  · intro s s' hs hs' hkk
    obtain ⟨e, p, q, hk, sp, hy⟩ := (hex s hs).choose_spec
    obtain ⟨e', p', q', hk', sp', hy'⟩ := (hex s' hs').choose_spec
    rw [← hkk, hk] at hk'
    cases hk'
    exact (h.span_unique hov hd (List.mem_of_getElem? hk) hs.1 hs'.1 sp sp').1
  · rintro k ⟨e, s, p, q, hk, hs, sp, hy⟩
    have he := List.mem_of_getElem? hk
    have hl := sp.lt
    have h0 := sp.p0
    have h1 := sp.q1
    obtain ⟨i1, i2⟩ := h.end_split hov (hd s hs) he sp
    have hm : s ∈ {s | s ∈ S0 ∧ s.On y ∧ ¬ InsideOf g s y ∧ y ≠ (if up then s.a else s.b)} := by
      subst hy
      cases up with
      | true =>
        refine ⟨hs, Stroke.on_at (by simp; linarith) (by simpa using h1), i2, ?_⟩
        simp only [if_true]
        rw [← s.at_zero]
        intro hc
        have := Stroke.at_inj (hd s hs) hc
        linarith
      | false =>
        refine ⟨hs, Stroke.on_at (by simpa using h0) (by simp; linarith), i1, ?_⟩
        simp only [Bool.false_eq_true, if_false]
        rw [← s.at_one]
        intro hc
        have := Stroke.at_inj (hd s hs) hc
        linarith
    refine ⟨s, hm, ?_⟩
    obtain ⟨e', p', q', hk', sp', hy'⟩ := (hex s hm).choose_spec
    have hl' := sp'.lt
    have heq := Stroke.at_inj (hd s hs) (hy.symm.trans hy')
    refine h.no_share hov (hd s hs) hk' hk sp' sp ?_
    cases up with
    | true =>
      simp only [if_true] at heq
      rw [heq, min_self]
      exact max_lt hl' (heq ▸ hl)
    | false =>
      simp only [Bool.false_eq_true, if_false] at heq
      rw [heq, max_self]
      exact lt_min hl' (heq ▸ hl)

/-- the edges of a node -/
theorem Sketch.degree_sides (h : Sketch P0 S0 g ids) (hov : NoOverlap S0) (hd : ∀ s ∈ S0, s.a ≠ s.b) {i : ℕ} (hi : i < g.nodes.length) :
    g.numberOfEdgesIncidentTo i = some ((sideSlots S0 g (place g i) true).ncard + (sideSlots S0 g (place g i) false).ncard) := by
  classical
  have hsub : ∀ up, sideSlots S0 g (place g i) up ⊆ (Finset.range g.edges.length : Finset ℕ) := by
    rintro up k ⟨e, _, _, _, hk, _⟩
    simpa using (List.getElem?_eq_some_iff.1 hk).1
  have hfin : ∀ up, (sideSlots S0 g (place g i) up).Finite := fun up => (Finset.finite_toSet _).subset (hsub up)
  have hdis : Disjoint (sideSlots S0 g (place g i) true) (sideSlots S0 g (place g i) false) := by
    rw [Set.disjoint_left]
    rintro k ⟨e, s, p, q, hk, hs, sp, hy⟩ ⟨e', s', p', q', hk', hs', sp', hy'⟩
    rw [hk] at hk'
    cases hk'
    obtain ⟨rfl, rfl, rfl⟩ := h.span_unique hov hd (List.mem_of_getElem? hk) hs hs' sp sp'
    have heq := Stroke.at_inj (hd s hs) (hy.symm.trans hy')
    have hl := sp.lt
    simp only [if_true, Bool.false_eq_true, if_false] at heq
    linarith
  have hun : sideSlots S0 g (place g i) true ∪ sideSlots S0 g (place g i) false = (slotsOf g.edges fun e => e.includes i : Finset ℕ) := by
    ext k
    rw [Finset.mem_coe, mem_slotsOf]
    constructor
    · rintro (⟨e, s, p, q, hk, hs, sp, hy⟩ | ⟨e, s, p, q, hk, hs, sp, hy⟩)
      all_goals
        have he := List.mem_of_getElem? hk
        refine ⟨e, hk, ?_⟩
        simp only [if_true, Bool.false_eq_true, if_false] at hy
        have : i = e.src ∨ i = e.dst := by
          rcases sp.ends with ⟨c1, c2⟩ | ⟨c1, c2⟩
          all_goals first
            | exact Or.inl (h.inj _ _ hi (h.wf e he).1 (hy.trans c1.symm))
            | exact Or.inr (h.inj _ _ hi (h.wf e he).2 (hy.trans c2.symm))
        rcases this with rfl | rfl <;> simp [Edge.includes]
    · rintro ⟨e, hk, hinc⟩
      have he := List.mem_of_getElem? hk
      obtain ⟨s, hs, _, p1, p2⟩ := h.piece e he
      obtain ⟨p, q, sp⟩ := span_of (hd s hs) p1 p2 (h.ne_ends hd he)
      simp only [Edge.includes, Bool.or_eq_true, beq_iff_eq] at hinc
      have : place g i = s.at q ∨ place g i = s.at p := by
        rcases hinc with rfl | rfl <;> rcases sp.ends with ⟨c1, c2⟩ | ⟨c1, c2⟩
        · exact Or.inr c1
        · exact Or.inl c1
        · exact Or.inl c2
        · exact Or.inr c2
      rcases this with hy | hy
      · exact Or.inl ⟨e, s, p, q, hk, hs, sp, hy⟩
      · exact Or.inr ⟨e, s, p, q, hk, hs, sp, hy⟩
  rw [← Set.ncard_union_eq hdis (hfin _) (hfin _), hun, Set.ncard_coe_finset]
  unfold numberOfEdgesIncidentTo getVertex
  rw [List.getElem?_eq_getElem hi, card_slotsOf]

end Static

/-! ## C154 -/

/-- **C154.** In exact arithmetic, for requests as in C153: `number_of_edges_incident_to` gives for every node the number of requested
segments that end there plus twice the number of segments that are divided there. -/
theorem C154_degree [Inhabited T] (rs : List (Req T U)) (hv : Known 0 rs) (hA : Spread (points rs) (strokes [] rs))
    (hd : ∀ s ∈ strokes [] rs, s.a ≠ s.b) (hov : NoOverlap (strokes [] rs)) (g : PlanarGraph XReal T U) (ids : List ℕ)
    (hc : client PlanarGraph.new [] rs = .ok (g, ids)) (i : ℕ) (hi : i < g.nodes.length) :
    g.numberOfEdgesIncidentTo i =
      some ((endingAt (strokes [] rs) (place g i)).ncard + 2 * (dividedAt rs (place g i)).ncard) := by
  classical
  obtain ⟨g', ids', h1, h2⟩ := client_sketch hA rs [] [] _ _ Sketch.new hv rfl rfl
  rw [hc] at h1
  cases h1
  have h : Sketch (wanted rs) (strokes [] rs) g ids := by simpa using h2
  have hdv := fun {s : Stroke U} (hs : s ∈ strokes [] rs) (y : ℝ × ℝ) => divides_iff rs hv hA hd hov hc h hs y
  rw [h.degree_sides hov hd hi, h.slots_card hov hd, h.slots_card hov hd]
  generalize hy : place g i = y
  have hnode : NodeAt g y := ⟨i, hi, hy.symm⟩
  have hSfin : ∀ Q : Stroke U → Prop, {s | s ∈ strokes [] rs ∧ Q s}.Finite :=
    fun Q => (List.finite_toSet (strokes [] rs)).subset fun s hs => hs.1
  -- each side: the segments with an end there and the divided ones
  have hside : ∀ up : Bool, {s | s ∈ strokes [] rs ∧ s.On y ∧ ¬ InsideOf g s y ∧ y ≠ (if up then s.a else s.b)} =
      {s | s ∈ strokes [] rs ∧ y = (if up then s.b else s.a)} ∪ dividedAt rs y := by
    intro up
    ext s
    constructor
    · rintro ⟨hs, ho, hn, hne⟩
      by_cases hend : y = (if up then s.b else s.a)
      · exact Or.inl ⟨hs, hend⟩
      · refine Or.inr ⟨hs, ⟨ho, ?_, ?_⟩, (hdv hs y).2 ⟨hnode, ho, hn⟩⟩
        · cases up <;> simp_all
        · cases up <;> simp_all
    · rintro (⟨hs, hend⟩ | ⟨hs, hw, hdiv⟩)
      · have ho : s.On y := by
          cases up
          · simp only [Bool.false_eq_true, if_false] at hend; rw [hend]; exact onSeg_left _ _
          · simp only [if_true] at hend; rw [hend]; exact onSeg_right _ _
        refine ⟨hs, ho, fun hin => ?_, ?_⟩
        · cases up
          · exact hin.within.2.1 hend
          · exact hin.within.2.2 hend
        · have := hd s hs
          cases up
          · simp only [Bool.false_eq_true, if_false] at hend ⊢; rw [hend]; exact this
          · simp only [if_true] at hend ⊢; rw [hend]; exact this.symm
      · refine ⟨hs, hw.1, ((hdv hs y).1 hdiv).2.2, ?_⟩
        cases up
        · exact hw.2.2
        · exact hw.2.1
  have hWfin : (dividedAt rs y).Finite := hSfin _
  have hcard : ∀ up : Bool, ({s | s ∈ strokes [] rs ∧ y = (if up then s.b else s.a)} ∪ dividedAt rs y).ncard =
      {s | s ∈ strokes [] rs ∧ y = (if up then s.b else s.a)}.ncard + (dividedAt rs y).ncard := by
    intro up
    refine Set.ncard_union_eq ?_ (hSfin _) hWfin
    rw [Set.disjoint_left]
    rintro s ⟨_, hend⟩ ⟨_, hw, _⟩
    cases up
    · exact hw.2.1 hend
    · exact hw.2.2 hend
  have hends : (endingAt (strokes [] rs) y).ncard =
      {s | s ∈ strokes [] rs ∧ y = (if true then s.b else s.a)}.ncard + {s | s ∈ strokes [] rs ∧ y = (if false then s.b else s.a)}.ncard := by
    rw [← Set.ncard_union_eq ?_ (hSfin _) (hSfin _)]
    · congr 1
      ext s
      simp only [endingAt, Set.mem_union, Set.mem_ofPred_eq, if_true, Bool.false_eq_true, if_false]
      tauto
    · rw [Set.disjoint_left]
      rintro s ⟨hs, h1⟩ ⟨_, h2⟩
      simp only [if_true, Bool.false_eq_true, if_false] at h1 h2
      exact hd s hs (h2.symm.trans h1)
  rw [hside, hside, hcard, hcard, hends]
  congr 1
  ring

/-- **C154, planar drawings.** Without the failures of C151 every segment through a node counts: once if it ends there, twice if it
passes. -/
theorem C154_planar [Inhabited T] (rs : List (Req T U)) (hv : Known 0 rs) (hA : Spread (points rs) (strokes [] rs))
    (hd : ∀ s ∈ strokes [] rs, s.a ≠ s.b) (hov : NoOverlap (strokes [] rs))
    (hok : ∀ y, phase rs y ≠ .skewered ∧ phase rs y ≠ .broken) (g : PlanarGraph XReal T U) (ids : List ℕ)
    (hc : client PlanarGraph.new [] rs = .ok (g, ids)) (i : ℕ) (hi : i < g.nodes.length) :
    g.numberOfEdgesIncidentTo i =
      some ((endingAt (strokes [] rs) (place g i)).ncard + 2 * {s | s ∈ strokes [] rs ∧ s.Within (place g i)}.ncard) := by
  obtain ⟨g', ids', h1, h2⟩ := client_sketch hA rs [] [] _ _ Sketch.new hv rfl rfl
  rw [hc] at h1
  cases h1
  have h : Sketch (wanted rs) (strokes [] rs) g ids := by simpa using h2
  obtain ⟨g', ids', h1', hpl, _⟩ := C151_planar rs hv hA hd hov
  rw [hc] at h1'
  cases h1'
  have hpl := hpl.2 hok
  rw [C154_degree rs hv hA hd hov g ids hc i hi]
  congr 4
  ext s
  constructor
  · rintro ⟨hs, hw, _⟩; exact ⟨hs, hw⟩
  · rintro ⟨hs, hw⟩
    refine ⟨hs, hw, (divides_iff rs hv hA hd hov hc h hs _).2 ⟨⟨i, hi, rfl⟩, hw.1, ?_⟩⟩
    rintro ⟨e, he, _, _, hon, n1, n2⟩
    rcases hpl.node e he i hi hon with rfl | rfl
    · exact n1 rfl
    · exact n2 rfl

/-- **C154, points left on a segment.** A node that was requested and then passed by its only segment has no edges at all. -/
theorem C154_skewered [Inhabited T] (rs : List (Req T U)) (hv : Known 0 rs) (hA : Spread (points rs) (strokes [] rs))
    (hd : ∀ s ∈ strokes [] rs, s.a ≠ s.b) (hov : NoOverlap (strokes [] rs)) (g : PlanarGraph XReal T U) (ids : List ℕ)
    (hc : client PlanarGraph.new [] rs = .ok (g, ids)) (i : ℕ) (hi : i < g.nodes.length) (hp : phase rs (place g i) = .skewered) :
    g.numberOfEdgesIncidentTo i = some 0 := by
  have hf : Fits (strokes [] rs) g (place g i) (phase rs (place g i)) := by
    refine client_fits hA hov hd _ rs [] [] _ _ .empty Sketch.new ⟨?_, ?_⟩ hv rfl rfl g ids hc
    · rintro ⟨i, hi, _⟩; simp [PlanarGraph.new] at hi
    · intro s hs; cases hs
  rw [hp] at hf
  obtain ⟨_, _, s, hs, hw, honly⟩ := hf
  rw [C154_degree rs hv hA hd hov g ids hc i hi]
  have e1 : endingAt (strokes [] rs) (place g i) = ∅ := by
    refine Set.eq_empty_iff_forall_notMem.2 ?_
    rintro s' ⟨hs', he⟩
    have ho : s'.On (place g i) := by
      rcases he with he | he <;> rw [he]
      · exact onSeg_left _ _
      · exact onSeg_right _ _
    have := honly s' hs' ho
    subst this
    exact he.elim hw.2.1 hw.2.2
  have e2 : dividedAt rs (place g i) = ∅ := by
    refine Set.eq_empty_iff_forall_notMem.2 ?_
    rintro s' ⟨_, hw', _, _, hdiv⟩
    rcases hdiv with he | he | he
    · exact hw'.2.1 he
    · exact hw'.2.2 he
    · exact he (Or.inl hp)
  rw [e1, e2]
  simp

/-- two segments crossing in a requested point: four edges there -/
example : ∃ g ids i, client PlanarGraph.new [] centreReq = .ok (g, ids) ∧ i < g.nodes.length ∧ place g i = (1, 0) ∧
    g.numberOfEdgesIncidentTo i = some 4 := by
  have hv : Known 0 centreReq := by simp [centreReq, Known]
  have hd : ∀ s ∈ strokes [] centreReq, s.a ≠ s.b := by rw [centre_strokes]; norm_num
  have hov : NoOverlap (strokes [] centreReq) := by rw [centre_strokes]; norm_num [NoOverlap, crs]
  obtain ⟨g, ids, h, _, hn, _⟩ := C152_arrangement centreReq hv centre_spread hd hov centre_phase
  obtain ⟨i, hi, hy⟩ := (hn (1, 0)).2 (Or.inl (by simp [centreReq, points, wanted]))
  refine ⟨g, ids, i, h, hi, hy.symm, ?_⟩
  rw [C154_planar centreReq hv centre_spread hd hov centre_phase g ids h i hi, ← hy, centre_strokes]
  have e1 : endingAt [(⟨(0, 0), (2, 0), 10⟩ : Stroke ℕ), ⟨(1, -1), (1, 1), 20⟩] (1, 0) = ∅ := by
    refine Set.eq_empty_iff_forall_notMem.2 ?_
    rintro s ⟨hs, he⟩
    simp only [List.mem_cons, List.not_mem_nil, or_false] at hs
    rcases hs with rfl | rfl <;> norm_num at he
  have e2 : {s | s ∈ [(⟨(0, 0), (2, 0), 10⟩ : Stroke ℕ), ⟨(1, -1), (1, 1), 20⟩] ∧ s.Within (1, 0)} =
      {(⟨(0, 0), (2, 0), 10⟩ : Stroke ℕ), ⟨(1, -1), (1, 1), 20⟩} := by
    ext s
    simp only [Set.mem_ofPred_eq, List.mem_cons, List.not_mem_nil, or_false, Set.mem_insert_iff, Set.mem_singleton_iff]
    refine ⟨fun h => h.1, fun h => ⟨h, ?_⟩⟩
    rcases h with rfl | rfl
    · exact ⟨centre_on.1, by norm_num, by norm_num⟩
    · exact ⟨centre_on.2, by norm_num, by norm_num⟩
  rw [e1, e2, Set.ncard_pair (by simp)]
  simp

end

end Kami.Graph
