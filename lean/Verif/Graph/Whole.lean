import Verif.Graph.Divided
/-!
# C153: the graph of any requests, without general position

C152 describes the graph when nothing of C151 fails.  Here the failures are allowed: a segment keeps an edge through a point where it
was not divided, and these points are known.
-/

set_option autoImplicit false

namespace Kami.Graph

open Kami
open scoped Kami
open PlanarGraph
open Kami.UtilThm (dst crs dt OnSegR)

variable {T U : Type}

noncomputable section

/-! ## Specification -/

/-- the segment is requested when the point inside it is already `joined` or `broken` -/
def Late (rs : List (Req T U)) (y : ℝ × ℝ) (s : Stroke U) : Prop :=
  ∃ l i j c l', rs = l ++ .seg i j c :: l' ∧ s = ⟨(points l).getD i (0, 0), (points l).getD j (0, 0), c⟩ ∧ s.Within y ∧
    (phase l y = .joined ∨ phase l y = .broken)

/-- the point or crossing divides the segment: it is an end, or it is neither `skewered` in the end nor is the segment late for it -/
def Divides (rs : List (Req T U)) (s : Stroke U) (y : ℝ × ℝ) : Prop :=
  Spot (points rs) (strokes [] rs) y ∧ s.On y ∧ (y = s.a ∨ y = s.b ∨ ¬ (phase rs y = .skewered ∨ Late rs y s))

/-- the segments with the points that divide them, except for the first end of each segment -/
def cutStops (rs : List (Req T U)) : Set (Stroke U × (ℝ × ℝ)) :=
  {w | w.1 ∈ strokes [] rs ∧ Divides rs w.1 w.2 ∧ w.2 ≠ w.1.a}

/-! ## Edges of one segment through a point -/

/-- `y` is inside an edge along the segment -/
def InsideOf (g : PlanarGraph XReal T U) (s : Stroke U) (y : ℝ × ℝ) : Prop :=
  ∃ e ∈ g.edges, s.On (place g e.src) ∧ s.On (place g e.dst) ∧ OnEdge (place g) e y ∧ y ≠ place g e.src ∧ y ≠ place g e.dst

section Steps
variable [Inhabited T] {P : List (ℝ × ℝ)} {S S0 : List (Stroke U)} {P0 : List ((ℝ × ℝ) × T)} {g g1 : PlanarGraph XReal T U}
  {ids : List ℕ} {s0 : Stroke U}

omit [Inhabited T] in
theorem InsideOf.inside {s : Stroke U} {y : ℝ × ℝ} (h : InsideOf g s y) : Inside g y := by
  obtain ⟨e, he, _, _, q⟩ := h
  exact ⟨e, he, q⟩

omit [Inhabited T] in
theorem InsideOf.within {s : Stroke U} {y : ℝ × ℝ} (h : InsideOf g s y) : s.Within y := by
  obtain ⟨e, he, p1, p2, hon, n1, n2⟩ := h
  exact ⟨onSeg_sub p1 p2 hon, inner_part p1 p2 hon n1 n2⟩

omit [Inhabited T] in
/-- an edge with a point inside it is not a loop -/
theorem ends_ne {A B y : ℝ × ℝ} (hon : OnSegR A B y) (h : y ≠ A) : A ≠ B := by
  rintro rfl
  obtain ⟨t, _, _, ht⟩ := hon
  apply h
  rw [ht]; ext <;> simp

omit [Inhabited T] in
/-- what remains inside the edges of a segment after cutting -/
theorem CutUp.insideOf_iff {bs : List (Edge U)} {p0 pos : ℕ → ℝ × ℝ} {n0 : ℕ} {M X : ℝ × ℝ → Prop} {org : ℕ → ℕ}
    (h : CutUp bs p0 n0 M (fun _ => True) X g pos org) (hov : NoOverlap S0) (hd : ∀ s ∈ S0, s.a ≠ s.b)
    (hbs : ∀ b ∈ bs, ∃ s ∈ S0, s.On (p0 b.src) ∧ s.On (p0 b.dst)) {s : Stroke U} (hs : s ∈ S0) (y : ℝ × ℝ) :
    InsideOf g s y ↔
      (∃ b ∈ bs, s.On (p0 b.src) ∧ s.On (p0 b.dst) ∧ OnSegR (p0 b.src) (p0 b.dst) y ∧ y ≠ p0 b.src ∧ y ≠ p0 b.dst) ∧ ¬ X y := by
  constructor
  · rintro ⟨f, hf, f1, f2, hon, n1, n2⟩
    have hnX : ¬ X y := ((h.inside_iff y).1 ⟨f, hf, hon, n1, n2⟩).2
    obtain ⟨K, hK⟩ := List.mem_iff_getElem?.1 hf
    obtain ⟨b, hb, hends⟩ := h.origin K f hK
    obtain ⟨w1, w2⟩ := h.wf f hf
    rw [onEdge_place h.wf h.drawn hf] at hon
    rw [place_of_drawn h.drawn w1] at n1 f1
    rw [place_of_drawn h.drawn w2] at n2 f2
    obtain ⟨s', hs', b1, b2⟩ := hbs b (List.mem_of_getElem? hb)
    have e1 := (hends _ (Or.inl rfl)).1
    have e2 := (hends _ (Or.inr rfl)).1
    have : s' = s := by
      by_contra hne
      exact clash hov hd hs' hs hne (ends_ne hon n1) (onSeg_sub b1 b2 e1) f1 (onSeg_sub b1 b2 e2) f2
    subst this
    exact ⟨⟨b, List.mem_of_getElem? hb, b1, b2, h.on_base hK hb hon, inner_part e1 e2 hon n1 n2⟩, hnX⟩
  · rintro ⟨⟨b, hb, b1, b2, hon, n1, n2⟩, hX⟩
    obtain ⟨k, hk⟩ := List.mem_iff_getElem?.1 hb
    obtain ⟨K, f, hf, hK, hyf⟩ := h.cover k b hk y hon
    obtain ⟨b', hb', hends⟩ := h.origin K f hf
    rw [hK, hk] at hb'
    cases hb'
    have hfm := List.mem_of_getElem? hf
    obtain ⟨w1, w2⟩ := h.wf f hfm
    obtain ⟨e1, c1⟩ := hends _ (Or.inl rfl)
    obtain ⟨e2, c2⟩ := hends _ (Or.inr rfl)
    refine ⟨f, hfm, ?_, ?_, (onEdge_place h.wf h.drawn hfm y).2 hyf, ?_, ?_⟩
    · rw [place_of_drawn h.drawn w1]; exact onSeg_sub b1 b2 e1
    · rw [place_of_drawn h.drawn w2]; exact onSeg_sub b1 b2 e2
    · rw [place_of_drawn h.drawn w1]
      rintro rfl
      exact c1.elim n1 fun c => c.elim n2 hX
    · rw [place_of_drawn h.drawn w2]
      rintro rfl
      exact c2.elim n1 fun c => c.elim n2 hX

/-- after a point request, at a point that was a node already -/
theorem Sketch.point_of (h : Sketch P0 S0 g ids) (hA : Spread P S) (hP : ∀ x ∈ P0.map Prod.fst, x ∈ P)
    (hS : ∀ s ∈ S0, s ∈ S) (hov : NoOverlap S0) (hd : ∀ s ∈ S0, s.a ≠ s.b) {x : ℝ × ℝ} {t : T} (hx : x ∈ P) {r : ℕ × List ℕ}
    (hok : g.addNode (pt x) t = .ok (g1, r)) {y : ℝ × ℝ} (hy : NodeAt g y) {s : Stroke U} (hs : s ∈ S0) :
    InsideOf g1 s y ↔ InsideOf g s y := by
  have heps := XReal.epsR_pos
  by_cases hex : ∃ i, i < g.nodes.length ∧ place g i = x
  · obtain ⟨i, hi, hpi⟩ := hex
    have hnear := near_of_close h.drawn (x := x) hi (by rw [hpi, UtilThm.dst_eq_zero.2 rfl]; exact heps)
    have hok' := addNode_ok g h.wf (pt x) t
    have he : addNodeG g (pt x) t = g := by unfold addNodeG; rw [if_pos hnear]
    rw [he, hok] at hok'
    cases hok'
    exact Iff.rfl
  · have hne : ∀ i, i < g.nodes.length → x ≠ place g i := fun i hi hc => hex ⟨i, hi, hc.symm⟩
    have hclear : ClearPoint g x :=
      ⟨fun i hi => hA.sep _ _ (Or.inl hx) (h.spot hP hS hi) (hne i hi), h.off hA hP hS (Or.inl hx)⟩
    obtain ⟨r', pos', org, hok', hn, hcut⟩ := addNode_cut h.wf h.drawn h.inj hclear t (R := fun _ => True) trivial
      (fun _ _ => trivial) (fun _ _ _ _ _ _ _ _ _ _ => trivial)
    rw [hok] at hok'
    cases hok'
    rw [hcut.insideOf_iff hov hd (fun b hb => by obtain ⟨s, hs, _, q⟩ := h.piece b hb; exact ⟨s, hs, q⟩) hs y]
    constructor
    · rintro ⟨q, _⟩; exact q
    · intro q
      refine ⟨q, ?_⟩
      rintro (hc | rfl)
      · exact hc
      · obtain ⟨i, hi, hc⟩ := hy
        exact hne i hi hc

/-- after a segment request -/
theorem Sketch.seg_of (h : Sketch P0 S0 g ids) (hA : Spread P S) (hP : ∀ x ∈ P0.map Prod.fst, x ∈ P)
    (hS : ∀ s ∈ S0, s ∈ S) (hs0 : s0 ∈ S) {a b : ℕ} (ha : a < g.nodes.length) (hb : b < g.nodes.length) (pa : place g a = s0.a)
    (pb : place g b = s0.b) (hov : NoOverlap (S0 ++ [s0])) (hd : ∀ s ∈ S0 ++ [s0], s.a ≠ s.b) {r : List ℕ × List ℕ}
    (hok : g.addEdge a b s0.c = .ok (g1, .ok r)) (y : ℝ × ℝ) {s : Stroke U} (hs : s ∈ S0 ++ [s0]) :
    InsideOf g1 s y ↔ (InsideOf g s y ∨ (s = s0 ∧ s0.Within y)) ∧ ¬ CutOnce g a b y := by
  obtain ⟨_, pos', org, hcut⟩ := h.seg_cut hA hP hS hs0 ha hb pa pb hov hd hok
  have hnew : ∀ e ∈ (pushEdge g a b s0.c).edges, e ∈ g.edges ∨ e = ⟨a, b, s0.c, defaultLabel⟩ := by
    intro e he
    rcases List.mem_append.1 he with he | he
    · exact Or.inl he
    · exact Or.inr (List.mem_singleton.1 he)
  rw [hcut.insideOf_iff hov hd ?_ hs y]
  · refine and_congr_left fun _ => ?_
    constructor
    · rintro ⟨e, he, e1, e2, hon, n1, n2⟩
      rcases hnew e he with he | rfl
      · exact Or.inl ⟨e, he, e1, e2, hon, n1, n2⟩
      · simp only [pa, pb] at e1 e2 hon n1 n2
        refine Or.inr ⟨?_, hon, n1, n2⟩
        by_contra hne
        exact clash hov hd hs (by simp) hne (hd s0 (by simp)) e1 (onSeg_left _ _) e2 (onSeg_right _ _)
    · rintro (⟨e, he, q⟩ | ⟨rfl, hon, n1, n2⟩)
      · exact ⟨e, List.mem_append_left _ he, q⟩
      · refine ⟨⟨a, b, s.c, defaultLabel⟩, by simp [pushEdge], ?_⟩
        simp only [pa, pb]
        exact ⟨onSeg_left _ _, onSeg_right _ _, hon, n1, n2⟩
  · intro e he
    rcases hnew e he with he | rfl
    · obtain ⟨s, hs, _, q⟩ := h.piece e he
      exact ⟨s, List.mem_append_left _ hs, q⟩
    · simp only [pa, pb]
      exact ⟨s0, by simp, onSeg_left _ _, onSeg_right _ _⟩

end Steps

/-! ## Late segments -/

open Classical in
/-- the late segments, in the order of the requests -/
def lates (y : ℝ × ℝ) : List (ℝ × ℝ) → Phase → List (Req T U) → List (Stroke U)
  | _, _, [] => []
  | ps, p, .point x _ :: rs => lates y (ps ++ [x]) ((if x = y then [Touch.point] else []).foldl Phase.next p) rs
  | ps, p, .seg i j c :: rs =>
    (if (⟨ps.getD i (0, 0), ps.getD j (0, 0), c⟩ : Stroke U).Within y ∧ (p = .joined ∨ p = .broken)
      then [⟨ps.getD i (0, 0), ps.getD j (0, 0), c⟩] else []) ++
    lates y ps ((if y = ps.getD i (0, 0) ∨ y = ps.getD j (0, 0) then [Touch.ending]
      else if OnSegR (ps.getD i (0, 0)) (ps.getD j (0, 0)) y then [Touch.inside] else []).foldl Phase.next p) rs

theorem mem_lates (y : ℝ × ℝ) (s : Stroke U) (rs : List (Req T U)) : ∀ (ps : List (ℝ × ℝ)) (p : Phase), s ∈ lates y ps p rs ↔
    ∃ l i j c l', rs = l ++ .seg i j c :: l' ∧ s = ⟨(ps ++ points l).getD i (0, 0), (ps ++ points l).getD j (0, 0), c⟩ ∧ s.Within y ∧
      ((touches y ps l).foldl Phase.next p = .joined ∨ (touches y ps l).foldl Phase.next p = .broken) := by
  induction rs with
  | nil =>
    intro ps p
    simp only [lates, List.not_mem_nil, false_iff]
    rintro ⟨l, i, j, c, l', h, _⟩
    simp at h
  | cons r rs ih =>
    intro ps p
    cases r with
    | point x t =>
      simp only [lates, ih]
      constructor
      · rintro ⟨l, i, j, c, l', rfl, hs, hw, hp⟩
        refine ⟨.point x t :: l, i, j, c, l', rfl, ?_, hw, ?_⟩
        · rw [hs]; simp [points, wanted]
        · simp only [touches, List.foldl_append]; exact hp
      · rintro ⟨l, i, j, c, l', hrs, hs, hw, hp⟩
        cases l with
        | nil => simp at hrs
        | cons r l =>
          rw [List.cons_append, List.cons.injEq] at hrs
          obtain ⟨rfl, rfl⟩ := hrs
          refine ⟨l, i, j, c, l', rfl, ?_, hw, ?_⟩
          · rw [hs]; simp [points, wanted]
          · simp only [touches, List.foldl_append] at hp; exact hp
    | seg i j c =>
      simp only [lates, List.mem_append, ih]
      constructor
      · rintro (h | ⟨l, i', j', c', l', rfl, hs, hw, hp⟩)
        · split at h
          · rename_i hc
            rw [List.mem_singleton] at h
            subst h
            exact ⟨[], i, j, c, rs, rfl, by simp [points, wanted], hc.1, by simpa [touches] using hc.2⟩
          · cases h
        · refine ⟨.seg i j c :: l, i', j', c', l', rfl, ?_, hw, ?_⟩
          · rw [hs]; simp [points, wanted]
          · simp only [touches, List.foldl_append]; exact hp
      · rintro ⟨l, i', j', c', l', hrs, hs, hw, hp⟩
        cases l with
        | nil =>
          simp only [List.nil_append, List.cons.injEq, Req.seg.injEq] at hrs
          obtain ⟨⟨rfl, rfl, rfl⟩, rfl⟩ := hrs
          simp only [points, wanted, List.map_nil, List.append_nil] at hs
          refine Or.inl ?_
          rw [if_pos]
          · rw [hs]; simp
          · rw [← hs]; exact ⟨hw, by simpa [touches] using hp⟩
        | cons r l =>
          rw [List.cons_append, List.cons.injEq] at hrs
          obtain ⟨rfl, rfl⟩ := hrs
          refine Or.inr ⟨l, i', j', c', l', rfl, ?_, hw, ?_⟩
          · rw [hs]; simp [points, wanted]
          · simp only [touches, List.foldl_append] at hp; exact hp

theorem late_iff (rs : List (Req T U)) (y : ℝ × ℝ) (s : Stroke U) : Late rs y s ↔ s ∈ lates y [] .empty rs := by
  rw [mem_lates]
  simp only [Late, phase, List.nil_append]

/-- at a broken point the undivided segments are the late ones `L` -/
def Undivided (S0 : List (Stroke U)) (g : PlanarGraph XReal T U) (y : ℝ × ℝ) (p : Phase) (L : List (Stroke U)) : Prop :=
  (p = .broken → ∀ s ∈ S0, s.Within y → (InsideOf g s y ↔ s ∈ L)) ∧ (p ≠ .broken → L = [])

theorem next_broken {p : Phase} {t : Touch} (h : p.next t = .broken) : p = .broken ∨ (p = .joined ∧ t = .inside) := by
  cases p <;> cases t <;> simp [Phase.next] at h ⊢

theorem client_keeps [Inhabited T] {P : List (ℝ × ℝ)} {S : List (Stroke U)} (hA : Spread P S) (hov : NoOverlap S) (hd : ∀ s ∈ S, s.a ≠ s.b)
    (y : ℝ × ℝ) (rs : List (Req T U)) :
    ∀ (P0 : List ((ℝ × ℝ) × T)) (S0 : List (Stroke U)) (g : PlanarGraph XReal T U) (ids : List ℕ) (p : Phase) (L : List (Stroke U)),
      Sketch P0 S0 g ids → Fits S0 g y p → Undivided S0 g y p L → Known P0.length rs → P = P0.map Prod.fst ++ points rs →
      S = S0 ++ strokes (P0.map Prod.fst) rs → ∀ g' ids', client g ids rs = .ok (g', ids') →
      Undivided S g' y ((touches y (P0.map Prod.fst) rs).foldl Phase.next p) (L ++ lates y (P0.map Prod.fst) p rs) := by
  induction rs with
  | nil =>
    intro P0 S0 g ids p L h hf hk _ hP hS g' ids' hc
    simp only [strokes, List.append_nil] at hS
    subst hS
    cases hc
    simpa [lates, touches] using hk
  | cons r rs ih =>
    intro P0 S0 g ids p L h hf hk hv hP hS g' ids' hc
    have hP' : ∀ x ∈ P0.map Prod.fst, x ∈ P := fun x hx => by rw [hP]; exact List.mem_append_left _ hx
    have hS' : ∀ s ∈ S0, s ∈ S := fun s hs => by rw [hS]; exact List.mem_append_left _ hs
    cases r with
    | point x t =>
      have hxP : x ∈ P := by rw [hP]; simp [points, wanted]
      obtain ⟨g2, r, h1, h2⟩ := h.point hA hP' hS' (t := t) hxP
      obtain ⟨q1, q2⟩ := h.point_facts hA hP' hS' hxP h1 y
      have hf' := fits_point q1 q2 hf
      have hov0 : NoOverlap S0 := by
        unfold NoOverlap at hov ⊢
        rw [hS, List.pairwise_append] at hov
        exact hov.1
      have hd0 : ∀ s ∈ S0, s.a ≠ s.b := fun s hs => hd s (hS' s hs)
      have hback : ∀ w : List Touch, (w = [.point] ∨ w = []) → w.foldl Phase.next p = .broken → p = .broken := by
        rintro w (rfl | rfl) hw
        · rcases next_broken hw with hw | ⟨_, hw⟩
          · exact hw
          · cases hw
        · exact hw
      have hk' : Undivided S0 g2 y ((if x = y then [Touch.point] else []).foldl Phase.next p) L := by
        have hcase : (if x = y then [Touch.point] else []) = [Touch.point] ∨ (if x = y then [Touch.point] else []) = [] := by
          by_cases hxy : x = y
          · exact Or.inl (if_pos hxy)
          · exact Or.inr (if_neg hxy)
        constructor
        · intro hb s hs hw
          have hpb := hback _ hcase hb
          rw [← hk.1 hpb s hs hw]
          subst hpb
          exact h.point_of hA hP' hS' hov0 hd0 hxP h1 hf.1 hs
        · intro hnb
          refine hk.2 fun hpb => hnb ?_
          subst hpb
          rcases hcase with e | e <;> rw [e] <;> rfl
      simp only [client, h1, bind, Except.bind] at hc
      have := ih _ _ _ _ _ L h2 hf' hk' (by simp only [Known] at hv; simpa using hv) (by rw [hP]; simp [points, wanted])
        (by rw [hS]; simp [strokes]) g' ids' hc
      simp only [touches, List.foldl_append, lates]
      simpa using this
    | seg i j c =>
      obtain ⟨hi, hj, hv'⟩ := hv
      have gi : P0[i]? = some P0[i] := List.getElem?_eq_getElem hi
      have gj : P0[j]? = some P0[j] := List.getElem?_eq_getElem hj
      have di : (P0.map Prod.fst).getD i (0, 0) = P0[i].1 := by
        rw [List.getD_eq_getElem?_getD, List.getElem?_map, gi]; rfl
      have dj : (P0.map Prod.fst).getD j (0, 0) = P0[j].1 := by
        rw [List.getD_eq_getElem?_getD, List.getElem?_map, gj]; rfl
      simp only [strokes, di, dj] at hS
      have hs0 : (⟨P0[i].1, P0[j].1, c⟩ : Stroke U) ∈ S := by rw [hS]; simp
      obtain ⟨a, b, g2, r, h1, h2, h3, h4⟩ := h.seg hA hP' (s0 := ⟨P0[i].1, P0[j].1, c⟩) (i := i) (j := j)
        (t := P0[i].2) (t' := P0[j].2) hS' hs0 gi gj
      obtain ⟨a', e1, ha, pa⟩ := h.ids_at i _ P0[i].2 gi
      obtain ⟨b', e2, hb, pb⟩ := h.ids_at j _ P0[j].2 gj
      rw [h1] at e1; cases e1
      rw [h2] at e2; cases e2
      have hS2 : S = (S0 ++ [⟨P0[i].1, P0[j].1, c⟩]) ++ strokes (P0.map Prod.fst) rs := by rw [hS]; simp
      have hov' : NoOverlap (S0 ++ [(⟨P0[i].1, P0[j].1, c⟩ : Stroke U)]) := by
        unfold NoOverlap at hov ⊢
        rw [hS2, List.pairwise_append] at hov
        exact hov.1
      have hd' : ∀ s ∈ S0 ++ [(⟨P0[i].1, P0[j].1, c⟩ : Stroke U)], s.a ≠ s.b :=
        fun s hs => hd s (by rw [hS2]; exact List.mem_append_left _ hs)
      obtain ⟨q1, q2⟩ := h.seg_facts hA hP' hS' hs0 ha hb pa pb hov' hd' h3 y
      have hf' := h.fits_seg ha hb pa pb hov' hd' q1 q2 hf
      have hof := fun s (hs : s ∈ S0 ++ [(⟨P0[i].1, P0[j].1, c⟩ : Stroke U)]) => h.seg_of hA hP' hS' hs0 ha hb pa pb hov' hd' h3 y hs
      have hnew := stroke_new hov' (hd' _ (by simp))
      simp only [client, h1, h2, h3, bind, Except.bind] at hc
      simp only [touches, List.foldl_append, lates]
      rw [di, dj, ← List.append_assoc]
      refine ih _ _ _ _ _ _ h4 hf' ?_ hv' (by rw [hP]; simp [points, wanted]) hS2 g' ids' hc
      generalize hs0' : (⟨P0[i].1, P0[j].1, c⟩ : Stroke U) = s0 at *
      -- the request at `y`
      have hsplit : ∀ s ∈ S0 ++ [s0], s ∈ S0 ∨ s = s0 := fun s hs => by simpa using hs
      by_cases hend : y = s0.a ∨ y = s0.b
      · rw [if_pos hend] at hf' ⊢
        have hnw : ¬ s0.Within y := fun hw => hend.elim hw.2.1 hw.2.2
        rw [if_neg (fun h => hnw h.1), List.append_nil]
        simp only [List.foldl_cons, List.foldl_nil] at hf' ⊢
        constructor
        · intro hbr s hs hw
          have hpb : p = .broken := by
            rcases next_broken hbr with h | ⟨_, h⟩
            · exact h
            · cases h
          rw [hbr] at hf'
          have hnc := (q2.1 hf'.2.1).2
          rcases hsplit s hs with hs' | rfl
          · rw [hof s hs, ← hk.1 hpb s hs' hw]
            exact ⟨fun hh => hh.1.elim id fun hh => absurd hh.2 hnw, fun hh => ⟨Or.inl hh, hnc⟩⟩
          · exact absurd hw hnw
        · intro hnb
          exact hk.2 fun hpb => hnb (by rw [hpb]; rfl)
      rw [if_neg hend] at hf' ⊢
      push Not at hend
      by_cases hon : OnSegR s0.a s0.b y
      · rw [if_pos hon] at hf' ⊢
        have hw0 : s0.Within y := ⟨hon, hend.1, hend.2⟩
        simp only [List.foldl_cons, List.foldl_nil] at hf' ⊢
        by_cases hpp : p = .joined ∨ p = .broken
        · rw [if_pos ⟨hw0, hpp⟩]
          have hbr : p.next .inside = .broken := by rcases hpp with rfl | rfl <;> rfl
          refine ⟨fun _ s hs hw => ?_, fun hnb => absurd hbr hnb⟩
          rw [hbr] at hf'
          have hnc := (q2.1 hf'.2.1).2
          rw [hof s hs, List.mem_append, List.mem_singleton]
          rcases hsplit s hs with hs' | rfl
          · have hne : s ≠ s0 := by rintro rfl; exact hnew hs'
            have : InsideOf g s y ↔ s ∈ L := by
              rcases hpp with rfl | rfl
              · rw [hk.2 (by simp)]
                simp only [List.not_mem_nil, iff_false]
                exact fun hh => hf.2.1 hh.inside
              · exact hk.1 rfl s hs' hw
            rw [this]
            simp [hne, hnc]
          · simp [hw0, hnc]
        · rw [if_neg (fun h => hpp h.2), List.append_nil]
          have hnb : p.next .inside ≠ .broken := by
            intro h
            rcases next_broken h with h | ⟨h, _⟩
            · exact hpp (Or.inr h)
            · exact hpp (Or.inl h)
          exact ⟨fun h => absurd h hnb, fun _ => hk.2 fun h => hpp (Or.inr h)⟩
      · rw [if_neg hon] at hf' ⊢
        have hnw : ¬ s0.Within y := fun hw => hon hw.1
        rw [if_neg (fun h => hnw h.1), List.append_nil]
        simp only [List.foldl_nil] at hf' ⊢
        refine ⟨fun hbr s hs hw => ?_, hk.2⟩
        rw [hbr] at hf'
        have hnc := (q2.1 hf'.2.1).2
        rcases hsplit s hs with hs' | rfl
        · rw [hof s hs, ← hk.1 hbr s hs' hw]
          exact ⟨fun hh => hh.1.elim id fun hh => absurd hh.2 hnw, fun hh => ⟨Or.inl hh, hnc⟩⟩
        · exact absurd hw hnw

/-- the points that divide a segment -/
theorem divides_iff [Inhabited T] (rs : List (Req T U)) (hv : Known 0 rs) (hA : Spread (points rs) (strokes [] rs))
    (hd : ∀ s ∈ strokes [] rs, s.a ≠ s.b) (hov : NoOverlap (strokes [] rs)) {g : PlanarGraph XReal T U} {ids : List ℕ}
    (h1 : client PlanarGraph.new [] rs = .ok (g, ids)) (h : Sketch (wanted rs) (strokes [] rs) g ids) {s : Stroke U}
    (hs : s ∈ strokes [] rs) (y : ℝ × ℝ) : Divides rs s y ↔ NodeAt g y ∧ s.On y ∧ ¬ InsideOf g s y := by
  have hf : Fits (strokes [] rs) g y (phase rs y) := by
    refine client_fits hA hov hd y rs [] [] _ _ .empty Sketch.new ⟨?_, ?_⟩ hv rfl rfl g ids h1
    · rintro ⟨i, hi, _⟩; simp [PlanarGraph.new] at hi
    · intro s hs; cases hs
  have hk : Undivided (strokes [] rs) g y (phase rs y) (lates y [] .empty rs) := by
    have := client_keeps hA hov hd y rs [] [] _ _ .empty [] Sketch.new ⟨?_, ?_⟩ ⟨?_, ?_⟩ hv rfl rfl g ids h1
    · rw [List.nil_append] at this
      exact this
    · rintro ⟨i, hi, _⟩; simp [PlanarGraph.new] at hi
    · intro s hs; cases hs
    · intro h; cases h
    · intro _; rfl
  unfold Divides
  rw [show Spot (points rs) (strokes [] rs) y ↔ NodeAt g y from (h.node_iff hov y).symm]
  refine and_congr_right fun hn => and_congr_right fun hon => ?_
  by_cases hend : y = s.a ∨ y = s.b
  · refine iff_of_true (by tauto) fun hi => ?_
    exact hend.elim hi.within.2.1 hi.within.2.2
  · push Not at hend
    have hw : s.Within y := ⟨hon, hend.1, hend.2⟩
    suffices hq : InsideOf g s y ↔ phase rs y = .skewered ∨ Late rs y s by
      rw [hq]; simp [hend.1, hend.2]
    rw [late_iff]
    have hnl := hk.2
    have hbr := hk.1
    cases hp : phase rs y <;> rw [hp] at hf hnl hbr <;> simp only [Fits] at hf
    · exact absurd hon (hf.2 s hs)
    · exact absurd hon (hf.2 s hs)
    · exact absurd hn hf.1
    · obtain ⟨_, s', _, _, he, honly⟩ := hf
      have := honly s hs hon
      subst this
      exact absurd he (by simp [hend.1, hend.2])
    · obtain ⟨_, ⟨e, he, hone, n1, n2⟩, s', _, _, honly⟩ := hf
      obtain ⟨s2, hs2, _, p1, p2⟩ := h.piece e he
      refine iff_of_true ⟨e, he, ?_, ?_, hone, n1, n2⟩ (Or.inl rfl)
      · rw [honly s hs hon, ← honly s2 hs2 (onSeg_sub p1 p2 hone)]; exact p1
      · rw [honly s hs hon, ← honly s2 hs2 (onSeg_sub p1 p2 hone)]; exact p2
    · rw [hnl (by simp)]
      exact iff_of_false (fun hi => hf.2.1 hi.inside) (by simp)
    · rw [hbr rfl s hs hw]
      simp

section Static
variable [Inhabited T] {S0 : List (Stroke U)} {P0 : List ((ℝ × ℝ) × T)} {g : PlanarGraph XReal T U} {ids : List ℕ}

omit [Inhabited T] in
/-- inside a span -/
theorem Span.insideOf {s : Stroke U} {e : Edge U} {p q r : ℝ} (hs : s.a ≠ s.b) (sp : Span g s e p q) (he : e ∈ g.edges) (h1 : p < r)
    (h2 : r < q) : InsideOf g s (s.at r) := by
  have a1 : s.On (s.at p) := Stroke.on_at sp.p0 (by have := sp.q1; linarith)
  have a2 : s.On (s.at q) := Stroke.on_at (by have := sp.p0; linarith) sp.q1
  have n1 : s.at r ≠ s.at p := fun hc => by have := Stroke.at_inj hs hc; linarith
  have n2 : s.at r ≠ s.at q := fun hc => by have := Stroke.at_inj hs hc; linarith
  refine ⟨e, he, ?_⟩
  rw [show OnEdge (place g) e (s.at r) ↔ True from iff_true_intro ((sp.on r).2 ⟨h1.le, h2.le⟩)]
  rcases sp.ends with ⟨c1, c2⟩ | ⟨c1, c2⟩ <;> rw [c1, c2]
  · exact ⟨a1, a2, trivial, n1, n2⟩
  · exact ⟨a2, a1, trivial, n2, n1⟩

/-- the ends of an edge along a segment are not inside another edge along it -/
theorem Sketch.end_split (h : Sketch P0 S0 g ids) (hov : NoOverlap S0) {s : Stroke U} (hs : s.a ≠ s.b)
    {e : Edge U} (he : e ∈ g.edges) {p q : ℝ} (sp : Span g s e p q) : ¬ InsideOf g s (s.at p) ∧ ¬ InsideOf g s (s.at q) := by
  have key : ∀ r, (r = p ∨ r = q) → ¬ InsideOf g s (s.at r) := by
    rintro r hr ⟨f, hf, f1, f2, hon, n1, n2⟩
    obtain ⟨p', q', sp'⟩ := span_of hs f1 f2 (ends_ne hon n1)
    obtain ⟨r1, r2⟩ := (sp'.on r).1 hon
    have r1' : p' < r := lt_of_le_of_ne r1 (by
      rintro rfl
      rcases sp'.ends with ⟨c, _⟩ | ⟨_, c⟩
      · exact n1 c.symm
      · exact n2 c.symm)
    have r2' : r < q' := lt_of_le_of_ne r2 (by
      rintro rfl
      rcases sp'.ends with ⟨_, c⟩ | ⟨c, _⟩
      · exact n2 c.symm
      · exact n1 c.symm)
    obtain ⟨k, hk⟩ := List.mem_iff_getElem?.1 he
    obtain ⟨l, hl⟩ := List.mem_iff_getElem?.1 hf
    have hlt := sp.lt
    have hkl : k = l := h.no_share hov hs hk hl sp sp' (by
      rcases hr with rfl | rfl
      · exact max_lt (lt_min hlt r2') (lt_min (by linarith) (by linarith))
      · exact max_lt (lt_min hlt (by linarith)) (lt_min (by linarith) (by linarith)))
    subst hkl
    rw [hk] at hl
    cases hl
    have g1 := (sp.on p').1 ((sp'.on p').2 ⟨le_refl _, sp'.lt.le⟩)
    have g2 := (sp.on q').1 ((sp'.on q').2 ⟨sp'.lt.le, le_refl _⟩)
    rcases hr with rfl | rfl <;> linarith
  exact ⟨key p (Or.inl rfl), key q (Or.inr rfl)⟩

/-- the edge below a point that divides the segment -/
theorem Sketch.edge_under (h : Sketch P0 S0 g ids) (hov : NoOverlap S0) (hd : ∀ s ∈ S0, s.a ≠ s.b) {s : Stroke U} (hs : s ∈ S0) {t : ℝ}
    (t0 : 0 < t) (t1 : t ≤ 1) (hn : ¬ InsideOf g s (s.at t)) :
    ∃ (k : ℕ) (e : Edge U) (p : ℝ), g.edges[k]? = some e ∧ s.On (place g e.src) ∧ s.On (place g e.dst) ∧ Span g s e p t := by
  obtain ⟨p, q, hp0, hpt, htq, _, hgap⟩ := gap g (hd s hs) t t0 (show t < t + 1 by linarith)
  obtain ⟨k, e, hk, hon, e1, e2⟩ := h.edge_in hov hd hs (Stroke.on_at (s := s) (r := p) (by linarith) (by linarith))
  have he := List.mem_of_getElem? hk
  obtain ⟨p', q', hsp⟩ := span_of (hd s hs) e1 e2 (h.ne_ends hd he)
  have hr := (hsp.on p).1 hon
  have nq : NodeAt g (s.at q') := by
    rcases hsp.ends with ⟨_, c⟩ | ⟨c, _⟩
    · rw [← c]; exact ⟨_, (h.wf e he).2, rfl⟩
    · rw [← c]; exact ⟨_, (h.wf e he).1, rfl⟩
  have hq : t ≤ q' := by
    by_contra hlt
    push Not at hlt
    exact absurd (hgap q' (by linarith) (by linarith) nq) (by linarith)
  have : t = q' := by
    by_contra hne
    exact hn (hsp.insideOf (hd s hs) he (by linarith) (lt_of_le_of_ne hq hne))
  subst this
  exact ⟨k, e, p', hk, e1, e2, hsp⟩

end Static

/-! ## C153 -/

/-- **C153.** In exact arithmetic, for all requests whose points and crossings are clear up to the tolerance, whose segments are not
points, and whose parallel segments meet only in their ends - planar or not: the nodes are the requested points and the crossings, and
two points are joined by an edge with data `c` exactly when they are neighbours among the points that divide a requested segment with
data `c`.  A point or crossing inside a segment divides it, except when it is the only segment through the point, which was requested
first, or when everything at the point had been divided before the segment was requested.  No two edges join the same points. -/
theorem C153_graph [Inhabited T] (rs : List (Req T U)) (hv : Known 0 rs) (hA : Spread (points rs) (strokes [] rs))
    (hd : ∀ s ∈ strokes [] rs, s.a ≠ s.b) (hov : NoOverlap (strokes [] rs)) :
    ∃ g ids, client PlanarGraph.new [] rs = .ok (g, ids) ∧
      (∀ y, (∃ i, i < g.nodes.length ∧ y = place g i) ↔ Spot (points rs) (strokes [] rs) y) ∧
      (∀ x y c, (∃ e ∈ g.edges, e.data = c ∧ ((place g e.src = x ∧ place g e.dst = y) ∨ (place g e.src = y ∧ place g e.dst = x))) ↔
        ∃ s ∈ strokes [] rs, s.c = c ∧ x ≠ y ∧ Divides rs s x ∧ Divides rs s y ∧
          ∀ z, Divides rs s z → OnSegR x y z → z = x ∨ z = y) ∧
      ∀ (k l : ℕ) (e f : Edge U), g.edges[k]? = some e → g.edges[l]? = some f →
        ((e.src = f.src ∧ e.dst = f.dst) ∨ (e.src = f.dst ∧ e.dst = f.src)) → k = l := by
  obtain ⟨g, ids, h1, h2⟩ := client_sketch hA rs [] [] _ _ Sketch.new hv rfl rfl
  have h : Sketch (wanted rs) (strokes [] rs) g ids := by simpa using h2
  have hdv := fun {s : Stroke U} (hs : s ∈ strokes [] rs) (y : ℝ × ℝ) => divides_iff rs hv hA hd hov h1 h hs y
  refine ⟨g, ids, h1, h.node_iff hov, ?_, fun k l e f => h.no_double hov hd⟩
  intro x y c
  constructor
  · rintro ⟨e, he, rfl, hc⟩
    obtain ⟨s, hs, hdat, p1, p2⟩ := h.piece e he
    have hds := hd s hs
    obtain ⟨p, q, sp⟩ := span_of hds p1 p2 (h.ne_ends hd he)
    obtain ⟨i1, i2⟩ := h.end_split hov hds he sp
    have hends : Divides rs s (place g e.src) ∧ Divides rs s (place g e.dst) := by
      rw [hdv hs, hdv hs]
      refine ⟨⟨⟨_, (h.wf e he).1, rfl⟩, p1, ?_⟩, ⟨⟨_, (h.wf e he).2, rfl⟩, p2, ?_⟩⟩
      · rcases sp.ends with ⟨c, _⟩ | ⟨c, _⟩ <;> rw [c] <;> assumption
      · rcases sp.ends with ⟨_, c⟩ | ⟨_, c⟩ <;> rw [c] <;> assumption
    have hbet : ∀ z, Divides rs s z → OnSegR (place g e.src) (place g e.dst) z → z = place g e.src ∨ z = place g e.dst := by
      intro z hz ho
      by_contra hne
      push Not at hne
      exact ((hdv hs z).1 hz).2.2 ⟨e, he, p1, p2, ho, hne.1, hne.2⟩
    have hne := h.ne_ends hd he
    refine ⟨s, hs, hdat.symm, ?_⟩
    rcases hc with ⟨rfl, rfl⟩ | ⟨rfl, rfl⟩
    · exact ⟨hne, hends.1, hends.2, hbet⟩
    · exact ⟨hne.symm, hends.2, hends.1, fun z hz ho => (hbet z hz (onSeg_symm ho)).symm⟩
  · rintro ⟨s, hs, rfl, hne, hx, hy, hb⟩
    have hds := hd s hs
    -- the upper one of the two
    have key : ∀ t u : ℝ, 0 ≤ t → u ≤ 1 → t < u → Divides rs s (s.at t) → Divides rs s (s.at u) →
        (∀ z, Divides rs s z → OnSegR (s.at t) (s.at u) z → z = s.at t ∨ z = s.at u) →
        ∃ e ∈ g.edges, e.data = s.c ∧
          ((place g e.src = s.at t ∧ place g e.dst = s.at u) ∨ (place g e.src = s.at u ∧ place g e.dst = s.at t)) := by
      intro t u t0 u1 htu nt nu hb
      obtain ⟨k, e, p, hk, e1, e2, hsp⟩ := h.edge_under hov hd hs (by linarith) u1 ((hdv hs _).1 nu).2.2
      have he := List.mem_of_getElem? hk
      have hpt : p = t := by
        rcases lt_trichotomy p t with hlt | heq | hlt
        · exact absurd (hsp.insideOf hds he hlt htu) ((hdv hs _).1 nt).2.2
        · exact heq
        · exfalso
          have hpd : Divides rs s (s.at p) := by
            rw [hdv hs]
            refine ⟨?_, Stroke.on_at hsp.p0 (by have := hsp.lt; linarith), (h.end_split hov hds he hsp).1⟩
            rcases hsp.ends with ⟨c, _⟩ | ⟨_, c⟩
            · rw [← c]; exact ⟨_, (h.wf e he).1, rfl⟩
            · rw [← c]; exact ⟨_, (h.wf e he).2, rfl⟩
          have hlt' := hsp.lt
          rcases hb _ hpd ((onSeg_at hds htu).2 ⟨hlt.le, hlt'.le⟩) with c | c
          · have := Stroke.at_inj hds c; linarith
          · have := Stroke.at_inj hds c; linarith
      subst hpt
      refine ⟨e, he, ?_, hsp.ends⟩
      obtain ⟨s', hs', hdat, p1, p2⟩ := h.piece e he
      have : s' = s := by
        by_contra hne
        exact clash hov hd hs' hs hne (h.ne_ends hd he) p1 e1 p2 e2
      rw [hdat, this]
    obtain ⟨t, t0, t1, ht⟩ := hx.2.1
    obtain ⟨u, u0, u1, hu⟩ := hy.2.1
    have ht : x = s.at t := ht
    have hu : y = s.at u := hu
    subst ht
    subst hu
    rcases lt_trichotomy t u with hlt | rfl | hlt
    · exact key t u t0 u1 hlt hx hy hb
    · exact absurd rfl hne
    · obtain ⟨e, he, hdat, hc⟩ := key u t u0 t1 hlt hy hx fun z hz ho => (hb z hz (onSeg_symm ho)).symm
      exact ⟨e, he, hdat, hc.symm⟩

/-- **C153, counts.** The graph has one node for every requested point and crossing, and one edge for every segment and every point
that divides it, other than its first end. -/
theorem C153_counts [Inhabited T] (rs : List (Req T U)) (hv : Known 0 rs) (hA : Spread (points rs) (strokes [] rs))
    (hd : ∀ s ∈ strokes [] rs, s.a ≠ s.b) (hov : NoOverlap (strokes [] rs))
    (g : PlanarGraph XReal T U) (ids : List ℕ)
    (hc : client PlanarGraph.new [] rs = .ok (g, ids)) :
    {y | Spot (points rs) (strokes [] rs) y}.Finite ∧ g.nodeCount = {y | Spot (points rs) (strokes [] rs) y}.ncard ∧
      (cutStops rs).Finite ∧ g.edgeCount = (cutStops rs).ncard := by
  obtain ⟨g', ids', h1, h2⟩ := client_sketch hA rs [] [] _ _ Sketch.new hv rfl rfl
  rw [hc] at h1
  cases h1
  have h : Sketch (wanted rs) (strokes [] rs) g ids := by simpa using h2
  have hdv := fun {s : Stroke U} (hs : s ∈ strokes [] rs) (y : ℝ × ℝ) => divides_iff rs hv hA hd hov hc h hs y
  have hnodes : {y | Spot (points rs) (strokes [] rs) y} = Set.range fun i : Fin g.nodes.length => place g i := by
    ext y
    rw [Set.mem_ofPred_eq, show Spot (points rs) (strokes [] rs) y ↔ NodeAt g y from (h.node_iff hov y).symm]
    constructor
    · rintro ⟨i, hi, rfl⟩; exact ⟨⟨i, hi⟩, rfl⟩
    · rintro ⟨i, rfl⟩; exact ⟨i, i.2, rfl⟩
  -- the segment of an edge and the upper end of the edge on it
  have hpart : ∀ k : Fin g.edges.length, ∃ w : Stroke U × (ℝ × ℝ), ∃ p q, w.1 ∈ strokes [] rs ∧ Span g w.1 g.edges[k] p q ∧ w.2 = w.1.at q := by
    intro k
    have he : g.edges[k] ∈ g.edges := List.getElem_mem k.2
    obtain ⟨s, hs, _, p1, p2⟩ := h.piece _ he
    obtain ⟨p, q, sp⟩ := span_of (hd s hs) p1 p2 (h.ne_ends hd he)
    exact ⟨(s, s.at q), p, q, hs, sp, rfl⟩
  choose F hF using hpart
  have hspan : ∀ {e : Edge U} {s : Stroke U} {p q : ℝ}, Span g s e p q → s.On (place g e.src) ∧ s.On (place g e.dst) := by
    intro e s p q sp
    have := sp.lt
    have a1 : s.On (s.at p) := Stroke.on_at sp.p0 (by have := sp.q1; linarith)
    have a2 : s.On (s.at q) := Stroke.on_at (by have := sp.p0; linarith) sp.q1
    rcases sp.ends with ⟨c1, c2⟩ | ⟨c1, c2⟩ <;> rw [c1, c2]
    · exact ⟨a1, a2⟩
    · exact ⟨a2, a1⟩
  have hFinj : Function.Injective F := by
    intro k l hkl
    obtain ⟨p, q, hs, sp, hw⟩ := hF k
    obtain ⟨p', q', hs', sp', hw'⟩ := hF l
    rw [← hkl] at sp' hw'
    have hq : q = q' := Stroke.at_inj (hd _ hs) (hw.symm.trans hw')
    subst hq
    have := h.no_share hov (hd _ hs) (List.getElem?_eq_getElem k.2) (List.getElem?_eq_getElem l.2) sp sp'
      (by rw [min_self]; exact max_lt sp.lt sp'.lt)
    exact Fin.ext this
  have hstops : cutStops rs = Set.range F := by
    ext ⟨s, y⟩
    constructor
    · rintro ⟨hs, hsp, hne⟩
      obtain ⟨t, t0, t1, hy⟩ := hsp.2.1
      have hy : y = s.at t := hy
      subst hy
      have t0' : 0 < t := lt_of_le_of_ne t0 (by rintro rfl; exact hne s.at_zero)
      obtain ⟨k, e, p, hk, e1, e2, sp⟩ := h.edge_under hov hd hs t0' t1 ((hdv hs _).1 hsp).2.2
      obtain ⟨hkl, hke⟩ := List.getElem?_eq_some_iff.1 hk
      refine ⟨⟨k, hkl⟩, ?_⟩
      obtain ⟨p', q', hs', sp', hw⟩ := hF ⟨k, hkl⟩
      have hke' : g.edges[(⟨k, hkl⟩ : Fin g.edges.length)] = e := hke
      rw [hke'] at sp'
      have hss : (F ⟨k, hkl⟩).1 = s := by
        by_contra hne'
        obtain ⟨b1, b2⟩ := hspan sp'
        exact clash hov hd hs' hs hne' (h.ne_ends hd (List.mem_of_getElem? hk)) b1 e1 b2 e2
      rw [hss] at sp' hw
      have hq : q' = t := by
        have c1 := (sp'.on t).1 ((sp.on t).2 ⟨sp.lt.le, le_refl _⟩)
        have c2 := (sp.on q').1 ((sp'.on q').2 ⟨sp'.lt.le, le_refl _⟩)
        linarith
      rw [hq] at hw
      exact Prod.ext hss hw
    · rintro ⟨k, hk⟩
      obtain ⟨p, q, hs, sp, hw⟩ := hF k
      rw [hk] at hs sp hw
      simp only at hs sp hw
      have := sp.lt
      have := sp.p0
      have he : g.edges[k] ∈ g.edges := List.getElem_mem k.2
      refine ⟨hs, (hdv hs _).2 ⟨?_, ?_, ?_⟩, ?_⟩
      · simp only
        rw [hw]
        rcases sp.ends with ⟨_, c⟩ | ⟨c, _⟩
        · exact ⟨_, (h.wf _ he).2, c.symm⟩
        · exact ⟨_, (h.wf _ he).1, c.symm⟩
      · simp only
        rw [hw]; exact Stroke.on_at (by linarith) sp.q1
      · simp only
        rw [hw]; exact (h.end_split hov (hd s hs) he sp).2
      · simp only
        rw [hw, ← s.at_zero]
        intro hc
        have := Stroke.at_inj (hd s hs) hc
        linarith
  refine ⟨?_, ?_, ?_, ?_⟩
  · rw [hnodes]; exact Set.finite_range _
  · rw [hnodes, ← Set.image_univ, Set.ncard_image_of_injective _ (fun i j hij => Fin.ext (h.inj i j i.2 j.2 hij)), Set.ncard_univ]
    simp [nodeCount]
  · rw [hstops]; exact Set.finite_range _
  · rw [hstops, ← Set.image_univ, Set.ncard_image_of_injective _ hFinj, Set.ncard_univ]
    simp [edgeCount]

/-- three segments through (1, 0): the third one stays a single edge -/
example : ∃ g ids, client PlanarGraph.new [] starReq.dropLast = .ok (g, ids) ∧ ∃ e ∈ g.edges, e.data = 30 ∧
    ((place g e.src = (0, -1) ∧ place g e.dst = (2, 1)) ∨ (place g e.src = (2, 1) ∧ place g e.dst = (0, -1))) := by
  have hS : strokes [] starReq.dropLast = [⟨(0, 0), (2, 0), 10⟩, ⟨(1, -1), (1, 1), 20⟩, ⟨(0, -1), (2, 1), 30⟩] := rfl
  have hsub : ∀ s ∈ strokes [] starReq.dropLast, s ∈ strokes [] starReq := fun s hs => List.mem_of_mem_dropLast hs
  obtain ⟨g, ids, h, _, h1, _⟩ := C153_graph starReq.dropLast (by simp [starReq, Known])
    (star_spread.mono (fun x hx => hx) hsub) (by rw [hS]; norm_num) (by rw [hS]; norm_num [NoOverlap, crs])
  refine ⟨g, ids, h, (h1 _ _ _).2 ⟨⟨(0, -1), (2, 1), 30⟩, by rw [hS]; simp, rfl, by norm_num, ?_, ?_, ?_⟩⟩
  · exact ⟨Or.inl (by simp [starReq, points, wanted]), onSeg_left _ _, Or.inl rfl⟩
  · exact ⟨Or.inl (by simp [starReq, points, wanted]), onSeg_right _ _, Or.inr (Or.inl rfl)⟩
  · rintro z ⟨hz, ho, hdiv⟩ _
    rcases hdiv with rfl | rfl | hn
    · exact Or.inl rfl
    · exact Or.inr rfl
    · -- the only other candidate is (1, 0)
      by_cases hz1 : z = (1, 0)
      · exfalso
        subst hz1
        apply hn
        have o1 : OnSegR ((0, 0) : ℝ × ℝ) (2, 0) (1, 0) := ⟨1 / 2, by norm_num, by norm_num, by norm_num⟩
        have o2 : OnSegR ((1, -1) : ℝ × ℝ) (1, 1) (1, 0) := ⟨1 / 2, by norm_num, by norm_num, by norm_num⟩
        refine Or.inr ⟨starReq.dropLast.dropLast, 4, 5, 30, [], rfl, rfl, ⟨ho, by norm_num, by norm_num⟩, Or.inl ?_⟩
        simp [phase, starReq, touches, o1, o2, Phase.next]
      · have hsp := star_spots z (hz.elim Or.inl fun hz => Or.inr (hz.mono hsub))
        simp only [List.mem_cons, List.not_mem_nil, or_false] at hsp
        obtain ⟨t, t0, t1, ht⟩ := ho
        have g1 := congrArg Prod.fst ht
        have g2 := congrArg Prod.snd ht
        rcases hsp with rfl | rfl | rfl | rfl | rfl | rfl | rfl
        · norm_num at g1 g2; linarith
        · norm_num at g1 g2; linarith
        · norm_num at g1 g2; linarith
        · norm_num at g1 g2; linarith
        · exact Or.inl rfl
        · exact Or.inr rfl
        · exact absurd rfl hz1

end

end Kami.Graph
