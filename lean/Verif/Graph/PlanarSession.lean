import Verif.Graph.Degenerate
/-!
# C151: which requests give a planar drawing

For requests as in C149 where parallel segments meet only in their ends, the drawing is planar or not according to what happens at
every single point: a small automaton reads the requests that concern the point.
-/

set_option autoImplicit false

namespace Kami.Graph

open Kami
open scoped Kami
open PlanarGraph
open Kami.UtilThm (dst crs dt OnSegR)

variable {T U : Type}

noncomputable section

/-! ## Specification -/

/-- what a request means for a point: the point is requested, is inside a segment, or is an end of one -/
inductive Touch
  | point
  | inside
  | ending

open Classical in
/-- the requests that concern the point `y`, when the points `ps` have been requested before -/
def touches (y : ℝ × ℝ) : List (ℝ × ℝ) → List (Req T U) → List Touch
  | _, [] => []
  | ps, .point x _ :: rs => (if x = y then [.point] else []) ++ touches y (ps ++ [x]) rs
  | ps, .seg i j _ :: rs =>
    (if y = ps.getD i (0, 0) ∨ y = ps.getD j (0, 0) then [.ending]
      else if OnSegR (ps.getD i (0, 0)) (ps.getD j (0, 0)) y then [.inside] else []) ++ touches y ps rs

/-- the state of a point: `empty`, nothing there; `bare`, requested, on no segment; `passed`, inside one segment, not requested;
`tip`, the end of one segment; `skewered`, requested and then passed by one segment, which is not divided; `joined`, all edges end
there; `broken`, passed by a segment after it was joined -/
inductive Phase
  | empty
  | bare
  | passed
  | tip
  | skewered
  | joined
  | broken
deriving DecidableEq

/-- the next state -/
def Phase.next : Phase → Touch → Phase
  | .empty, .point => .bare
  | .empty, _ => .passed
  | .bare, .point => .bare
  | .bare, .inside => .skewered
  | .bare, .ending => .tip
  | .passed, _ => .joined
  | .tip, .point => .tip
  | .tip, _ => .joined
  | .skewered, .point => .skewered
  | .skewered, _ => .joined
  | .joined, .inside => .broken
  | .joined, _ => .joined
  | .broken, _ => .broken

/-- the state of `y` after the requests -/
def phase (rs : List (Req T U)) (y : ℝ × ℝ) : Phase := (touches y [] rs).foldl Phase.next .empty

/-- not the request of the point itself -/
def Touch.isSegment : Touch → Bool
  | .point => false
  | .inside => true
  | .ending => true

/-! ## Strokes as intervals -/

/-- there is a node at `y` -/
def NodeAt (g : PlanarGraph XReal T U) (y : ℝ × ℝ) : Prop := ∃ i, i < g.nodes.length ∧ y = place g i

/-- `y` is inside an edge -/
def Inside (g : PlanarGraph XReal T U) (y : ℝ × ℝ) : Prop :=
  ∃ e ∈ g.edges, OnEdge (place g) e y ∧ y ≠ place g e.src ∧ y ≠ place g e.dst

/-- `y` is inside the segment -/
def Stroke.Within (s : Stroke U) (y : ℝ × ℝ) : Prop := s.On y ∧ y ≠ s.a ∧ y ≠ s.b

/-- the point of the segment with parameter `r` -/
def Stroke.at (s : Stroke U) (r : ℝ) : ℝ × ℝ := (s.a.1 + r * (s.b.1 - s.a.1), s.a.2 + r * (s.b.2 - s.a.2))

theorem Stroke.at_inj {s : Stroke U} (h : s.a ≠ s.b) {r r' : ℝ} (he : s.at r = s.at r') : r = r' := param_inj h he

theorem Stroke.at_zero (s : Stroke U) : s.at 0 = s.a := by unfold Stroke.at; ext <;> simp

theorem Stroke.at_one (s : Stroke U) : s.at 1 = s.b := by unfold Stroke.at; ext <;> simp

theorem Stroke.on_at {s : Stroke U} {r : ℝ} (h0 : 0 ≤ r) (h1 : r ≤ 1) : s.On (s.at r) := ⟨r, h0, h1, rfl⟩

/-- between two points of a segment -/
theorem onSeg_at {s : Stroke U} (hs : s.a ≠ s.b) {p q r : ℝ} (hpq : p < q) : OnSegR (s.at p) (s.at q) (s.at r) ↔ p ≤ r ∧ r ≤ q := by
  constructor
  · rintro ⟨t, t0, t1, ht⟩
    have : s.at r = s.at (p + t * (q - p)) := by
      rw [ht]; unfold Stroke.at; ext <;> simp <;> ring
    have := Stroke.at_inj hs this
    subst this
    constructor <;> nlinarith
  · rintro ⟨h1, h2⟩
    have := onSeg_between s.a s.b h1 h2
    exact this

/-- an edge along a segment is an interval of parameters -/
structure Span (g : PlanarGraph XReal T U) (s : Stroke U) (e : Edge U) (p q : ℝ) : Prop where
  lt : p < q
  p0 : 0 ≤ p
  q1 : q ≤ 1
  on : ∀ r, OnEdge (place g) e (s.at r) ↔ p ≤ r ∧ r ≤ q
  ends : (place g e.src = s.at p ∧ place g e.dst = s.at q) ∨ (place g e.src = s.at q ∧ place g e.dst = s.at p)

theorem span_of {g : PlanarGraph XReal T U} {s : Stroke U} (hs : s.a ≠ s.b) {e : Edge U} (h1 : s.On (place g e.src))
    (h2 : s.On (place g e.dst)) (hne : place g e.src ≠ place g e.dst) : ∃ p q, Span g s e p q := by
  obtain ⟨t, t0, t1, ht⟩ := h1
  obtain ⟨u, u0, u1, hu⟩ := h2
  have ht : place g e.src = s.at t := ht
  have hu : place g e.dst = s.at u := hu
  rcases lt_trichotomy t u with h | rfl | h
  · refine ⟨t, u, h, t0, u1, fun r => ?_, Or.inl ⟨ht, hu⟩⟩
    unfold OnEdge; rw [ht, hu]; exact onSeg_at hs h
  · exact absurd (ht.trans hu.symm) hne
  · refine ⟨u, t, h, u0, t1, fun r => ?_, Or.inr ⟨ht, hu⟩⟩
    unfold OnEdge; rw [ht, hu]
    rw [← onSeg_at hs h]
    exact ⟨onSeg_symm, onSeg_symm⟩

/-- near a parameter there are no nodes with other parameters -/
theorem gap (g : PlanarGraph XReal T U) {s : Stroke U} (hs : s.a ≠ s.b) (t : ℝ) {lo hi : ℝ} (hlo : lo < t) (hhi : t < hi) :
    ∃ p q, lo < p ∧ p < t ∧ t < q ∧ q < hi ∧ ∀ r, p ≤ r → r ≤ q → NodeAt g (s.at r) → r = t := by
  suffices key : ∀ n, ∃ p q, lo < p ∧ p < t ∧ t < q ∧ q < hi ∧ ∀ r, p ≤ r → r ≤ q → (∃ i, i < n ∧ s.at r = place g i) → r = t by
    exact key g.nodes.length
  intro n
  induction n with
  | zero => exact ⟨(lo + t) / 2, (t + hi) / 2, by linarith, by linarith, by linarith, by linarith, fun r _ _ ⟨i, hi, _⟩ => by omega⟩
  | succ n ih =>
    obtain ⟨p, q, h1, h2, h3, h4, h5⟩ := ih
    by_cases hn : ∃ r, s.at r = place g n ∧ r ≠ t
    · obtain ⟨r0, hr0, hne⟩ := hn
      rcases lt_or_gt_of_ne hne with hlt | hlt
      · refine ⟨max p ((r0 + t) / 2), q, lt_max_of_lt_left h1, max_lt h2 (by linarith), h3, h4, ?_⟩
        rintro r hr hrq ⟨i, hi, he⟩
        have hp := le_trans (le_max_left _ _) hr
        have hm := le_trans (le_max_right _ _) hr
        by_cases hin : i = n
        · subst hin
          have := Stroke.at_inj hs (he.trans hr0.symm)
          subst this
          linarith
        · exact h5 r hp hrq ⟨i, by omega, he⟩
      · refine ⟨p, min q ((r0 + t) / 2), h1, h2, lt_min h3 (by linarith), lt_of_le_of_lt (min_le_left _ _) h4, ?_⟩
        rintro r hr hrq ⟨i, hi, he⟩
        have hq := le_trans hrq (min_le_left _ _)
        have hm := le_trans hrq (min_le_right _ _)
        by_cases hin : i = n
        · subst hin
          have := Stroke.at_inj hs (he.trans hr0.symm)
          subst this
          linarith
        · exact h5 r hr hq ⟨i, by omega, he⟩
    · push Not at hn
      refine ⟨p, q, h1, h2, h3, h4, ?_⟩
      rintro r hr hrq ⟨i, hi, he⟩
      by_cases hin : i = n
      · subst hin; exact hn r he
      · exact h5 r hr hrq ⟨i, by omega, he⟩

/-! ## Edges through a point -/

section Static
variable [Inhabited T] {S0 : List (Stroke U)} {P0 : List ((ℝ × ℝ) × T)} {g : PlanarGraph XReal T U} {ids : List ℕ}

omit [Inhabited T] in
/-- different segments share at most one point -/
theorem clash (hov : NoOverlap S0) (hd : ∀ s ∈ S0, s.a ≠ s.b) {s s' : Stroke U} (hs : s ∈ S0) (hs' : s' ∈ S0) (hne : s ≠ s')
    {y z : ℝ × ℝ} (hyz : y ≠ z) (o1 : s.On y) (o2 : s'.On y) (o3 : s.On z) (o4 : s'.On z) : False := by
  have hpar : crs s.a s.b s'.a s'.b = 0 :=
    crs_trans hyz (crs_inside o1 o3) (crs_inside o2 o4)
  have hpar' : crs s'.a s'.b s.a s.b = 0 := crs_trans hyz (crs_inside o2 o4) (crs_inside o1 o3)
  have hall : ∀ w, s.On w → s'.On w → w = s.a ∨ w = s.b ∨ w = s'.a ∨ w = s'.b := by
    unfold NoOverlap at hov
    intro w w1 w2
    have hsym : ∀ l : List (Stroke U), l.Pairwise (fun s s' => crs s.a s.b s'.a s'.b = 0 → ∀ y, s.On y → s'.On y →
        y = s.a ∨ y = s.b ∨ y = s'.a ∨ y = s'.b) → s ∈ l → s' ∈ l → w = s.a ∨ w = s.b ∨ w = s'.a ∨ w = s'.b := by
      intro l
      induction l with
      | nil => intro _ h; cases h
      | cons c l ih =>
        intro hp m1 m2
        rw [List.pairwise_cons] at hp
        rcases List.mem_cons.1 m1 with rfl | m3 <;> rcases List.mem_cons.1 m2 with e | m4
        · exact absurd e.symm hne
        · exact hp.1 s' m4 hpar w w1 w2
        · subst e
          rcases hp.1 s m3 hpar' w w2 w1 with h | h | h | h
          · exact Or.inr (Or.inr (Or.inl h))
          · exact Or.inr (Or.inr (Or.inr h))
          · exact Or.inl h
          · exact Or.inr (Or.inl h)
        · exact ih hp.2 m3 m4
    exact hsym S0 hov hs hs'
  -- five points between `y` and `z`
  obtain ⟨t, t0, t1, rfl⟩ := id o1
  obtain ⟨u, u0, u1, rfl⟩ := id o3
  set f : ℝ → ℝ × ℝ := fun l => s.at (t + l * (u - t)) with hf
  have htu : t ≠ u := by rintro rfl; exact hyz rfl
  have hinj : ∀ l l', f l = f l' → l = l' := by
    intro l l' h
    have := Stroke.at_inj (hd s hs) h
    have h2 : (l - l') * (u - t) = 0 := by linarith
    rcases mul_eq_zero.1 h2 with h2 | h2
    · linarith
    · exact absurd (by linarith) htu
  have hon : ∀ l, 0 ≤ l → l ≤ 1 → f l = s.a ∨ f l = s.b ∨ f l = s'.a ∨ f l = s'.b := by
    intro l l0 l1
    have hb : OnSegR (s.at t) (s.at u) (f l) := ⟨l, l0, l1, by simp only [hf, Stroke.at]; ext <;> simp <;> ring⟩
    exact hall _ (onSeg_sub o1 o3 hb) (onSeg_sub o2 o4 hb)
  have hmem : ∀ l, 0 ≤ l → l ≤ 1 → f l ∈ ({s.a, s.b, s'.a, s'.b} : Finset (ℝ × ℝ)) := by
    intro l l0 l1
    simpa using hon l l0 l1
  have hcard := Finset.card_le_card_of_injOn (s := Finset.range 5) (t := ({s.a, s.b, s'.a, s'.b} : Finset (ℝ × ℝ)))
    (fun n => f ((n : ℝ) / 4)) (fun n hn => hmem _ (by positivity) (by
      have : n < 5 := by simpa using hn
      have : (n : ℝ) ≤ 4 := by exact_mod_cast (by omega : n ≤ 4)
      linarith)) (fun n _ m _ h => by
      have := hinj _ _ h
      have h2 : (n : ℝ) = m := by linarith
      exact_mod_cast h2)
  have h4 : ({s.a, s.b, s'.a, s'.b} : Finset (ℝ × ℝ)).card ≤ 4 := Finset.card_le_four
  rw [Finset.card_range] at hcard
  omega

omit [Inhabited T] in
/-- a segment is not parallel to a segment through a point inside it -/
theorem passing_cross (hov : NoOverlap S0) (hd : ∀ s ∈ S0, s.a ≠ s.b) {s s' : Stroke U} (hs : s ∈ S0) (hs' : s' ∈ S0) (hne : s ≠ s')
    {y : ℝ × ℝ} (hw : s.Within y) (ho : s'.On y) : crs s.a s.b s'.a s'.b ≠ 0 := by
  intro h0
  obtain ⟨⟨t, t0, t1, hy⟩, n1, n2⟩ := id hw
  have hy : y = s.at t := hy
  have t0' : 0 < t := lt_of_le_of_ne t0 (by rintro rfl; exact n1 (hy.trans s.at_zero))
  have t1' : t < 1 := lt_of_le_of_ne t1 (by rintro rfl; exact n2 (hy.trans s.at_one))
  -- an end of `s'` other than `y`
  obtain ⟨w, hw', hwy⟩ : ∃ w, s'.On w ∧ w ≠ y := by
    by_cases h : s'.a = y
    · exact ⟨s'.b, onSeg_right _ _, fun hc => hd s' hs' (h.trans hc.symm)⟩
    · exact ⟨s'.a, onSeg_left _ _, h⟩
  -- it is on the line of `s`
  have hpar : crs y w s.a s.b = 0 := by
    obtain ⟨a1, _, _, e1⟩ := ho
    obtain ⟨a2, _, _, e2⟩ := hw'
    have : crs y w s.a s.b = (a1 - a2) * crs s.a s.b s'.a s'.b := by
      rw [e1, e2]; unfold crs; ring
    rw [this, h0, mul_zero]
  obtain ⟨v, hv⟩ : ∃ v, w = s.at v := by
    have hD := hd s hs
    unfold crs at hpar
    rw [hy] at hpar
    unfold Stroke.at at hpar ⊢
    simp only at hpar
    by_cases hx : s.b.1 - s.a.1 = 0
    · have hyn : s.b.2 - s.a.2 ≠ 0 := by
        intro h
        exact hD (by ext <;> linarith)
      refine ⟨(w.2 - s.a.2) / (s.b.2 - s.a.2), ?_⟩
      rw [hx] at hpar ⊢
      ext
      · have := mul_eq_zero.1 (show (w.1 - s.a.1) * (s.b.2 - s.a.2) = 0 by linarith)
        rcases this with h | h
        · simp only [mul_zero, add_zero]; linarith
        · exact absurd h hyn
      · simp only; rw [div_mul_cancel₀ _ hyn]; ring
    · refine ⟨(w.1 - s.a.1) / (s.b.1 - s.a.1), ?_⟩
      ext
      · simp only; rw [div_mul_cancel₀ _ hx]; ring
      · simp only
        have h1 : (w.1 - s.a.1) * (s.b.2 - s.a.2) = (s.b.1 - s.a.1) * (w.2 - s.a.2) := by linarith
        rw [div_mul_eq_mul_div, h1, mul_div_assoc, mul_div_cancel₀ _ hx]; ring
  have hvt : v ≠ t := by rintro rfl; exact hwy (hv.trans hy.symm)
  -- a point near `y` on both
  obtain ⟨l, l0, l1, r0, r1⟩ : ∃ l : ℝ, 0 < l ∧ l ≤ 1 ∧ 0 ≤ t + l * (v - t) ∧ t + l * (v - t) ≤ 1 := by
    have hpos : 0 < |v - t| + 1 := by positivity
    refine ⟨min t (1 - t) / (|v - t| + 1), by apply div_pos (lt_min t0' (by linarith)) hpos, ?_, ?_, ?_⟩
    · rw [div_le_one hpos]
      have := min_le_left t (1 - t)
      have := abs_nonneg (v - t)
      linarith
    all_goals
      have hm : |min t (1 - t) / (|v - t| + 1) * (v - t)| ≤ min t (1 - t) := by
        rw [abs_mul, abs_div, abs_of_pos hpos, abs_of_pos (lt_min t0' (by linarith)), div_mul_eq_mul_div, div_le_iff₀ hpos]
        have := lt_min t0' (show 0 < 1 - t by linarith)
        nlinarith [abs_nonneg (v - t)]
      have h1 := (abs_le.1 hm).1
      have h2 := (abs_le.1 hm).2
      have := min_le_left t (1 - t)
      have := min_le_right t (1 - t)
      linarith
  have hz : OnSegR y w (s.at (t + l * (v - t))) := ⟨l, l0.le, l1, by rw [hy, hv]; simp only [Stroke.at]; ext <;> simp <;> ring⟩
  refine clash hov hd hs hs' hne (y := y) (z := s.at (t + l * (v - t))) ?_ hw.1 ho (Stroke.on_at r0 r1) (onSeg_sub ho hw' hz)
  intro hc
  rw [hy] at hc
  have := Stroke.at_inj (hd s hs) hc
  have h2 : l * (v - t) = 0 := by linarith
  rcases mul_eq_zero.1 h2 with h2 | h2
  · linarith
  · exact hvt (by linarith)

/-- an edge through a point of a segment, as a part of the segment -/
theorem Sketch.edge_in (h : Sketch P0 S0 g ids) (hov : NoOverlap S0) (hd : ∀ s ∈ S0, s.a ≠ s.b) {s : Stroke U} (hs : s ∈ S0) {y : ℝ × ℝ}
    (hy : s.On y) : ∃ (k : ℕ) (e : Edge U), g.edges[k]? = some e ∧ OnEdge (place g) e y ∧ s.On (place g e.src) ∧ s.On (place g e.dst) := by
  obtain ⟨s', hs', o1, o2, hco⟩ := h.cover s hs
  have : s = s' := by
    by_contra hne
    exact clash hov hd hs hs' hne (hd s hs) (onSeg_left _ _) o1 (onSeg_right _ _) o2
  subst this
  obtain ⟨e, he, _, p1, p2, hon⟩ := hco y hy
  obtain ⟨k, hk⟩ := List.mem_iff_getElem?.1 he
  exact ⟨k, e, hk, hon, p1, p2⟩

theorem Sketch.ne_ends (h : Sketch P0 S0 g ids) (hd : ∀ s ∈ S0, s.a ≠ s.b) {e : Edge U} (he : e ∈ g.edges) :
    place g e.src ≠ place g e.dst :=
  fun hc => h.noloop hd e he (h.inj _ _ (h.wf e he).1 (h.wf e he).2 hc)

/-- edges along a segment do not overlap -/
theorem Sketch.no_share (h : Sketch P0 S0 g ids) (hov : NoOverlap S0) {s : Stroke U} (hs : s.a ≠ s.b) {k l : ℕ} {e f : Edge U}
    (hk : g.edges[k]? = some e) (hl : g.edges[l]? = some f) {p q p' q' : ℝ} (h1 : Span g s e p q) (h2 : Span g s f p' q')
    (hlt : max p p' < min q q') : k = l := by
  by_contra hne
  obtain ⟨a, b, _, ha, hb, _, hab⟩ := gap g hs ((max p p' + min q q') / 2) (lo := max p p') (hi := min q q') (by linarith) (by linarith)
  obtain ⟨c, c1, c2⟩ : ∃ c, (max p p' + min q q') / 2 < c ∧ c < min b (min q q') :=
    exists_between (lt_min hb (by linarith))
  have m1 := le_max_left p p'
  have m2 := le_max_right p p'
  have m3 := min_le_left q q'
  have m4 := min_le_right q q'
  have m5 := min_le_left b (min q q')
  have m6 := min_le_right b (min q q')
  have hn := h.tidy hov k l e f hk hl hne (s.at c) ((h1.on c).2 ⟨by linarith, by linarith⟩) ((h2.on c).2 ⟨by linarith, by linarith⟩)
  have := hab c (by linarith) (by linarith) hn
  linarith

omit [Inhabited T] in
theorem crs_flip {a b c d : ℝ × ℝ} (h : crs a b c d ≠ 0) : crs c d a b ≠ 0 := by
  intro h0
  apply h
  have : crs a b c d = - crs c d a b := by unfold crs; ring
  rw [this, h0, neg_zero]

/-- the new segment from node `a` to node `b` cuts exactly one edge in `y` -/
def CutOnce (g : PlanarGraph XReal T U) (a b : ℕ) (y : ℝ × ℝ) : Prop :=
  ∃ (k : ℕ) (e : Edge U), g.edges[k]? = some e ∧ Cuts (place g) a b e y ∧
    ∀ (k' : ℕ) (e' : Edge U), g.edges[k']? = some e' → Cuts (place g) a b e' y → k' = k

section CutOnce
variable {a b : ℕ} {s0 : Stroke U} {y : ℝ × ℝ}

theorem Sketch.found_none (h : Sketch P0 S0 g ids) (hn : ∀ s ∈ S0, ¬ s.On y) : ¬ CutOnce g a b y := by
  rintro ⟨k, e, he, hc, _⟩
  obtain ⟨s, hs, _, p1, p2⟩ := h.piece e (List.mem_of_getElem? he)
  exact hn s hs (onSeg_sub p1 p2 hc.2.1)

theorem Sketch.cut_of (h : Sketch P0 S0 g ids) (hd : ∀ s ∈ S0, s.a ≠ s.b) (pa : place g a = s0.a) (pb : place g b = s0.b)
    (hy : s0.On y) {s : Stroke U} (hne : crs s.a s.b s0.a s0.b ≠ 0) {k : ℕ} {e : Edge U} (hk : g.edges[k]? = some e)
    (hon : OnEdge (place g) e y) (p1 : s.On (place g e.src)) (p2 : s.On (place g e.dst)) : Cuts (place g) a b e y := by
  refine ⟨?_, hon, by rw [pa, pb]; exact hy⟩
  rw [pa, pb]
  exact fun h0 => hne (crs_whole p1 p2 (h.ne_ends hd (List.mem_of_getElem? hk)) h0)

theorem Sketch.found_two (h : Sketch P0 S0 g ids) (hov : NoOverlap S0) (hd : ∀ s ∈ S0, s.a ≠ s.b) (pa : place g a = s0.a)
    (pb : place g b = s0.b) (hy : s0.On y) {s1 s2 : Stroke U} (h1 : s1 ∈ S0) (h2 : s2 ∈ S0) (hne : s1 ≠ s2) (o1 : s1.On y) (o2 : s2.On y)
    (c1 : crs s1.a s1.b s0.a s0.b ≠ 0) (c2 : crs s2.a s2.b s0.a s0.b ≠ 0) : ¬ CutOnce g a b y := by
  rintro ⟨k, _, _, _, huniq⟩
  obtain ⟨k1, e1, hk1, q1, p1, r1⟩ := h.edge_in hov hd h1 o1
  obtain ⟨k2, e2, hk2, q2, p2, r2⟩ := h.edge_in hov hd h2 o2
  have u1 := huniq k1 e1 hk1 (h.cut_of hd pa pb hy c1 hk1 q1 p1 r1)
  have u2 := huniq k2 e2 hk2 (h.cut_of hd pa pb hy c2 hk2 q2 p2 r2)
  subst u1
  subst u2
  rw [hk1] at hk2
  cases hk2
  exact clash hov hd h1 h2 hne (h.ne_ends hd (List.mem_of_getElem? hk1)) p1 p2 r1 r2

omit [Inhabited T] in
theorem within_at {s : Stroke U} (hw : s.Within y) : ∃ t, 0 < t ∧ t < 1 ∧ y = s.at t := by
  obtain ⟨⟨t, t0, t1, hy⟩, n1, n2⟩ := hw
  have hy : y = s.at t := hy
  exact ⟨t, lt_of_le_of_ne t0 (by rintro rfl; exact n1 (hy.trans s.at_zero)),
    lt_of_le_of_ne t1 (by rintro rfl; exact n2 (hy.trans s.at_one)), hy⟩

theorem Sketch.found_split (h : Sketch P0 S0 g ids) (hov : NoOverlap S0) (hd : ∀ s ∈ S0, s.a ≠ s.b) (pa : place g a = s0.a)
    (pb : place g b = s0.b) (hy : s0.On y) {s : Stroke U} (hs : s ∈ S0) (hw : s.Within y) (hc : crs s.a s.b s0.a s0.b ≠ 0)
    (hin : ¬ Inside g y) : ¬ CutOnce g a b y := by
  rintro ⟨k, _, _, _, huniq⟩
  obtain ⟨t, t0, t1, hyt⟩ := within_at hw
  obtain ⟨p, q, hp0, hpt, htq, hq1, hgap⟩ := gap g (hd s hs) t t0 t1
  have hnode : ∀ e ∈ g.edges, NodeAt g (place g e.src) ∧ NodeAt g (place g e.dst) :=
    fun e he => ⟨⟨_, (h.wf e he).1, rfl⟩, ⟨_, (h.wf e he).2, rfl⟩⟩
  -- an edge on each side
  have side : ∀ r, p ≤ r → r ≤ q → r ≠ t → ∃ (k : ℕ) (e : Edge U) (p' q' : ℝ), g.edges[k]? = some e ∧ Span g s e p' q' ∧
      OnEdge (place g) e y ∧ s.On (place g e.src) ∧ s.On (place g e.dst) ∧ (p' ≤ r ∧ r ≤ q') ∧ (p' = t ∨ q' = t) := by
    intro r hr hr' hrt
    obtain ⟨k, e, hk, hon, e1, e2⟩ := h.edge_in hov hd hs (Stroke.on_at (s := s) (r := r) (by linarith) (by linarith))
    have he := List.mem_of_getElem? hk
    obtain ⟨p', q', hsp⟩ := span_of (hd s hs) e1 e2 (h.ne_ends hd he)
    have hr2 := (hsp.on r).1 hon
    have np : NodeAt g (s.at p') := by
      rcases hsp.ends with ⟨c, _⟩ | ⟨_, c⟩
      · rw [← c]; exact (hnode e he).1
      · rw [← c]; exact (hnode e he).2
    have nq : NodeAt g (s.at q') := by
      rcases hsp.ends with ⟨_, c⟩ | ⟨c, _⟩
      · rw [← c]; exact (hnode e he).2
      · rw [← c]; exact (hnode e he).1
    have hpt' : p' ≤ t ∧ t ≤ q' := by
      constructor
      · by_contra hlt
        push Not at hlt
        exact absurd (hgap p' (by linarith) (by linarith) np) (by linarith)
      · by_contra hlt
        push Not at hlt
        exact absurd (hgap q' (by linarith) (by linarith) nq) (by linarith)
    have hony : OnEdge (place g) e y := by rw [hyt]; exact (hsp.on t).2 hpt'
    refine ⟨k, e, p', q', hk, hsp, hony, e1, e2, hr2, ?_⟩
    by_contra hno
    push Not at hno
    refine hin ⟨e, he, hony, ?_, ?_⟩
    · intro hc'
      rw [hyt] at hc'
      rcases hsp.ends with ⟨c, _⟩ | ⟨c, _⟩
      · exact hno.1 (Stroke.at_inj (hd s hs) (hc'.trans c)).symm
      · exact hno.2 (Stroke.at_inj (hd s hs) (hc'.trans c)).symm
    · intro hc'
      rw [hyt] at hc'
      rcases hsp.ends with ⟨_, c⟩ | ⟨_, c⟩
      · exact hno.2 (Stroke.at_inj (hd s hs) (hc'.trans c)).symm
      · exact hno.1 (Stroke.at_inj (hd s hs) (hc'.trans c)).symm
  obtain ⟨k1, e1, p1, q1, hk1, sp1, on1, a1, b1, r1, _⟩ := side p (le_refl _) (by linarith) (by linarith)
  obtain ⟨k2, e2, p2, q2, hk2, sp2, on2, a2, b2, r2, t2⟩ := side q (by linarith) (le_refl _) (by linarith)
  have u1 := huniq k1 e1 hk1 (h.cut_of hd pa pb hy hc hk1 on1 a1 b1)
  have u2 := huniq k2 e2 hk2 (h.cut_of hd pa pb hy hc hk2 on2 a2 b2)
  subst u1
  subst u2
  rw [hk1] at hk2
  cases hk2
  have c1 := (sp2.on p).1 ((sp1.on p).2 r1)
  rcases t2 with rfl | rfl <;> linarith

theorem Sketch.found_one (h : Sketch P0 S0 g ids) (hov : NoOverlap S0) (hd : ∀ s ∈ S0, s.a ≠ s.b) (pa : place g a = s0.a)
    (pb : place g b = s0.b) (hy : s0.On y) {s : Stroke U} (hs : s ∈ S0) (ho : s.On y) (hc : crs s.a s.b s0.a s0.b ≠ 0)
    (honly : ∀ s' ∈ S0, s'.On y → s' = s) (hcase : ¬ NodeAt g y ∨ Inside g y ∨ y = s.a ∨ y = s.b) : CutOnce g a b y := by
  -- all edges through `y` are parts of `s`
  have hpart : ∀ (k : ℕ) (e : Edge U), g.edges[k]? = some e → OnEdge (place g) e y →
      s.On (place g e.src) ∧ s.On (place g e.dst) ∧ ∃ p q, Span g s e p q := by
    intro k e hk hon
    have he := List.mem_of_getElem? hk
    obtain ⟨s', hs', _, p1, p2⟩ := h.piece e he
    have := honly s' hs' (onSeg_sub p1 p2 hon)
    subst this
    exact ⟨p1, p2, span_of (hd s' hs) p1 p2 (h.ne_ends hd he)⟩
  obtain ⟨t, t0, t1, hyt⟩ := id ho
  have hyt : y = s.at t := hyt
  have huniq : ∀ (k l : ℕ) (e f : Edge U), g.edges[k]? = some e → g.edges[l]? = some f → OnEdge (place g) e y →
      OnEdge (place g) f y → k = l := by
    rcases hcase with hn | ⟨e0, he0, on0, n1, n2⟩ | he
    · intro k l e f hk hl o1 o2
      by_contra hkl
      exact hn (h.tidy hov k l e f hk hl hkl y o1 o2)
    · obtain ⟨k0, hk0⟩ := List.mem_iff_getElem?.1 he0
      obtain ⟨_, _, p0, q0, sp0⟩ := hpart k0 e0 hk0 on0
      have m0 := (sp0.on t).1 (hyt ▸ on0)
      have hp : p0 ≠ t := by
        rintro rfl
        rcases sp0.ends with ⟨c, _⟩ | ⟨_, c⟩
        · exact n1 (hyt.trans c.symm)
        · exact n2 (hyt.trans c.symm)
      have hq : q0 ≠ t := by
        rintro rfl
        rcases sp0.ends with ⟨_, c⟩ | ⟨c, _⟩
        · exact n2 (hyt.trans c.symm)
        · exact n1 (hyt.trans c.symm)
      have hp' := lt_of_le_of_ne m0.1 hp
      have hq' := lt_of_le_of_ne m0.2 hq.symm
      have key : ∀ (k : ℕ) (e : Edge U), g.edges[k]? = some e → OnEdge (place g) e y → k = k0 := by
        intro k e hk hon
        obtain ⟨_, _, p, q, sp⟩ := hpart k e hk hon
        have m := (sp.on t).1 (hyt ▸ hon)
        refine h.no_share hov (hd s hs) hk hk0 sp sp0 ?_
        rw [max_lt_iff, lt_min_iff, lt_min_iff]
        exact ⟨⟨sp.lt, by linarith⟩, by linarith, by linarith⟩
      intro k l e f hk hl o1 o2
      rw [key k e hk o1, key l f hl o2]
    · intro k l e f hk hl o1 o2
      obtain ⟨_, _, p, q, sp⟩ := hpart k e hk o1
      obtain ⟨_, _, p', q', sp'⟩ := hpart l f hl o2
      have m := (sp.on t).1 (hyt ▸ o1)
      have m' := (sp'.on t).1 (hyt ▸ o2)
      refine h.no_share hov (hd s hs) hk hl sp sp' ?_
      have := sp.lt
      have := sp'.lt
      have := sp.p0
      have := sp'.p0
      have := sp.q1
      have := sp'.q1
      rw [max_lt_iff, lt_min_iff, lt_min_iff]
      rcases he with he | he
      · have : t = 0 := Stroke.at_inj (hd s hs) (hyt.symm.trans (he.trans s.at_zero.symm))
        subst this
        exact ⟨⟨sp.lt, by linarith⟩, by linarith, sp'.lt⟩
      · have : t = 1 := Stroke.at_inj (hd s hs) (hyt.symm.trans (he.trans s.at_one.symm))
        subst this
        exact ⟨⟨sp.lt, by linarith⟩, by linarith, sp'.lt⟩
  obtain ⟨k, e, hk, hon, p1, p2⟩ := h.edge_in hov hd hs ho
  exact ⟨k, e, hk, h.cut_of hd pa pb hy hc hk hon p1 p2, fun k' e' hk' hc' => huniq k' k e' e hk' hk hc'.2.1 hon⟩

end CutOnce

omit [Inhabited T] in
/-- at most two parallel segments through a point -/
theorem three_par (hov : NoOverlap S0) (hd : ∀ s ∈ S0, s.a ≠ s.b) {s0 s1 s2 : Stroke U} (h0 : s0 ∈ S0) (h1 : s1 ∈ S0) (h2 : s2 ∈ S0)
    (n01 : s1 ≠ s0) (n02 : s2 ≠ s0) (n12 : s1 ≠ s2) {y : ℝ × ℝ} (o0 : s0.On y) (o1 : s1.On y) (o2 : s2.On y)
    (c1 : crs s1.a s1.b s0.a s0.b = 0) (c2 : crs s2.a s2.b s0.a s0.b = 0) : False := by
  -- an end other than `y`, and the segment from `y` to it
  have hend : ∀ s ∈ S0, s.On y → ∃ w, s.On w ∧ w ≠ y := by
    intro s hs _
    by_cases h : s.a = y
    · exact ⟨s.b, onSeg_right _ _, fun hc => hd s hs (h.trans hc.symm)⟩
    · exact ⟨s.a, onSeg_left _ _, h⟩
  obtain ⟨w0, m0, d0⟩ := hend s0 h0 o0
  obtain ⟨w1, m1, d1⟩ := hend s1 h1 o1
  obtain ⟨w2, m2, d2⟩ := hend s2 h2 o2
  have hpar : ∀ s : Stroke U, crs s.a s.b s0.a s0.b = 0 → ∀ w, s.On y → s.On w → crs y w y w0 = 0 := by
    intro s hc w p q
    obtain ⟨a1, _, _, e1⟩ := p
    obtain ⟨a2, _, _, e2⟩ := q
    obtain ⟨b1, _, _, f1⟩ := o0
    obtain ⟨b2, _, _, f2⟩ := m0
    have : crs y w y w0 = (a2 - a1) * (b2 - b1) * crs s.a s.b s0.a s0.b := by
      have g1 : w.1 - y.1 = (a2 - a1) * (s.b.1 - s.a.1) := by rw [e2, e1]; simp only; ring
      have g2 : w.2 - y.2 = (a2 - a1) * (s.b.2 - s.a.2) := by rw [e2, e1]; simp only; ring
      have g3 : w0.1 - y.1 = (b2 - b1) * (s0.b.1 - s0.a.1) := by rw [f2, f1]; simp only; ring
      have g4 : w0.2 - y.2 = (b2 - b1) * (s0.b.2 - s0.a.2) := by rw [f2, f1]; simp only; ring
      unfold crs
      rw [g1, g2, g3, g4]; ring
    rw [this, hc, mul_zero]
  have hline : ∀ w, crs y w y w0 = 0 → ∃ c : ℝ, w = (y.1 + c * (w0.1 - y.1), y.2 + c * (w0.2 - y.2)) := by
    intro w hc
    unfold crs at hc
    by_cases hx : w0.1 - y.1 = 0
    · have hyn : w0.2 - y.2 ≠ 0 := fun h => d0 (by ext <;> linarith)
      refine ⟨(w.2 - y.2) / (w0.2 - y.2), ?_⟩
      rw [hx] at hc ⊢
      ext
      · rcases mul_eq_zero.1 (show (w.1 - y.1) * (w0.2 - y.2) = 0 by linarith) with h | h
        · simp only [mul_zero, add_zero]; linarith
        · exact absurd h hyn
      · simp only; rw [div_mul_cancel₀ _ hyn]; ring
    · refine ⟨(w.1 - y.1) / (w0.1 - y.1), ?_⟩
      ext
      · simp only; rw [div_mul_cancel₀ _ hx]; ring
      · simp only
        have h1 : (w.1 - y.1) * (w0.2 - y.2) = (w0.1 - y.1) * (w.2 - y.2) := by linarith
        rw [div_mul_eq_mul_div, h1, mul_div_assoc, mul_div_cancel₀ _ hx]; ring
  obtain ⟨r1, hr1⟩ := hline w1 (hpar s1 c1 w1 o1 m1)
  obtain ⟨r2, hr2⟩ := hline w2 (hpar s2 c2 w2 o2 m2)
  have z1 : r1 ≠ 0 := by rintro rfl; apply d1; rw [hr1]; ext <;> simp
  have z2 : r2 ≠ 0 := by rintro rfl; apply d2; rw [hr2]; ext <;> simp
  -- two on the same side share a point
  have hray : ∀ s ∈ S0, ∀ s' ∈ S0, s ≠ s' → s.On y → s'.On y → ∀ w w', s.On w → s'.On w' → ∀ u v : ℝ,
      w = (y.1 + u * (w0.1 - y.1), y.2 + u * (w0.2 - y.2)) → w' = (y.1 + v * (w0.1 - y.1), y.2 + v * (w0.2 - y.2)) →
      v / u ≤ 1 → 0 < v / u → False := by
    intro s hs s' hs' hne q q' w w' mw mw' u v hu hv hle hpos
    have hu0 : u ≠ 0 := by rintro rfl; simp at hpos
    have hv0 : v ≠ 0 := by rintro rfl; simp at hpos
    have hb : OnSegR y w w' := by
      refine ⟨v / u, hpos.le, hle, ?_⟩
      rw [hv, hu]
      ext <;> simp only <;> field_simp <;> ring
    refine clash hov hd hs hs' hne (y := y) (z := w') ?_ q q' (onSeg_sub q mw hb) mw'
    intro hc
    have e1 : v * (w0.1 - y.1) = 0 := by have := congrArg Prod.fst (hc.trans hv); simp only at this; linarith
    have e2 : v * (w0.2 - y.2) = 0 := by have := congrArg Prod.snd (hc.trans hv); simp only at this; linarith
    have f1 := (mul_eq_zero.1 e1).resolve_left hv0
    have f2 := (mul_eq_zero.1 e2).resolve_left hv0
    exact d0 (by ext <;> linarith)
  have hboth : ∀ s ∈ S0, ∀ s' ∈ S0, s ≠ s' → s.On y → s'.On y → ∀ w w', s.On w → s'.On w' → ∀ u v : ℝ,
      w = (y.1 + u * (w0.1 - y.1), y.2 + u * (w0.2 - y.2)) → w' = (y.1 + v * (w0.1 - y.1), y.2 + v * (w0.2 - y.2)) → 0 < u * v → False := by
    intro s hs s' hs' hne q q' w w' mw mw' u v hu hv hpos
    have hu0 : u ≠ 0 := by rintro rfl; simp at hpos
    have hv0 : v ≠ 0 := by rintro rfl; simp at hpos
    have p1 : 0 < v / u := by
      have : v / u = u * v / (u * u) := by field_simp
      rw [this]; exact div_pos hpos (mul_self_pos.2 hu0)
    have p2 : 0 < u / v := by
      have : u / v = u * v / (v * v) := by field_simp
      rw [this]; exact div_pos hpos (mul_self_pos.2 hv0)
    by_cases hle : v / u ≤ 1
    · exact hray s hs s' hs' hne q q' w w' mw mw' u v hu hv hle p1
    · refine hray s' hs' s hs hne.symm q' q w' w mw' mw v u hv hu ?_ p2
      push Not at hle
      have : u / v = (v / u)⁻¹ := by rw [inv_div]
      rw [this]
      exact inv_le_one_of_one_le₀ hle.le
  have e0 : w0 = (y.1 + 1 * (w0.1 - y.1), y.2 + 1 * (w0.2 - y.2)) := by ext <;> simp
  rcases lt_or_gt_of_ne z1 with q1 | q1
  · rcases lt_or_gt_of_ne z2 with q2 | q2
    · exact hboth s1 h1 s2 h2 n12 o1 o2 w1 w2 m1 m2 r1 r2 hr1 hr2 (by nlinarith)
    · exact hboth s2 h2 s0 h0 n02 o2 o0 w2 w0 m2 m0 r2 1 hr2 e0 (by linarith)
  · exact hboth s1 h1 s0 h0 n01 o1 o0 w1 w0 m1 m0 r1 1 hr1 e0 (by linarith)

end Static

/-! ## Steps -/

section Steps
variable [Inhabited T] {P : List (ℝ × ℝ)} {S S0 : List (Stroke U)} {P0 : List ((ℝ × ℝ) × T)} {g g1 : PlanarGraph XReal T U}
  {ids : List ℕ} {s0 : Stroke U}

omit [Inhabited T] in
/-- an inner point of a part is an inner point of the whole -/
theorem inner_part {A B a b y : ℝ × ℝ} (ha : OnSegR A B a) (hb : OnSegR A B b) (hy : OnSegR a b y) (h1 : y ≠ a) (h2 : y ≠ b) :
    y ≠ A ∧ y ≠ B := by
  obtain ⟨t, t0, t1, ht⟩ := ha
  obtain ⟨u, u0, u1, hu⟩ := hb
  obtain ⟨r, r0, r1, hr⟩ := hy
  have r0' : 0 < r := lt_of_le_of_ne r0 (by rintro rfl; apply h1; rw [hr]; ext <;> simp)
  have r1' : r < 1 := lt_of_le_of_ne r1 (by rintro rfl; apply h2; rw [hr]; ext <;> simp)
  by_cases hAB : A = B
  · exfalso
    subst hAB
    apply h1
    rw [hr, ht, hu]; ext <;> simp
  have hy : y = (A.1 + (t + r * (u - t)) * (B.1 - A.1), A.2 + (t + r * (u - t)) * (B.2 - A.2)) := by
    rw [hr, ht, hu]; ext <;> simp only <;> ring
  constructor
  · intro hc
    have : t + r * (u - t) = 0 := param_inj hAB (hy.symm.trans (hc.trans (by ext <;> simp)))
    have ht0 : t = 0 := by nlinarith
    apply h1
    rw [hc, ht, ht0]; ext <;> simp
  · intro hc
    have : t + r * (u - t) = 1 := param_inj hAB (hy.symm.trans (hc.trans (by ext <;> simp)))
    have ht0 : t = 1 := by nlinarith
    apply h1
    rw [hc, ht, ht0]; ext <;> simp

omit [Inhabited T] in
/-- what remains inside an edge after cutting -/
theorem CutUp.inside_iff {bs : List (Edge U)} {p0 pos : ℕ → ℝ × ℝ} {n0 : ℕ} {M X : ℝ × ℝ → Prop} {org : ℕ → ℕ}
    (h : CutUp bs p0 n0 M (fun _ => True) X g pos org) (y : ℝ × ℝ) :
    Inside g y ↔ (∃ b ∈ bs, OnSegR (p0 b.src) (p0 b.dst) y ∧ y ≠ p0 b.src ∧ y ≠ p0 b.dst) ∧ ¬ X y := by
  constructor
  · rintro ⟨f, hf, hon, n1, n2⟩
    obtain ⟨K, hK⟩ := List.mem_iff_getElem?.1 hf
    obtain ⟨b, hb, hends⟩ := h.origin K f hK
    obtain ⟨w1, w2⟩ := h.wf f hf
    rw [onEdge_place h.wf h.drawn hf] at hon
    rw [place_of_drawn h.drawn w1] at n1
    rw [place_of_drawn h.drawn w2] at n2
    refine ⟨⟨b, List.mem_of_getElem? hb, h.on_base hK hb hon,
      inner_part (hends _ (Or.inl rfl)).1 (hends _ (Or.inr rfl)).1 hon n1 n2⟩, ?_⟩
    intro hX
    obtain ⟨i, hi, rfl⟩ := h.xnode y hX
    rcases h.node f hf i hi hon with (rfl | rfl) | ⟨_, hn⟩
    · exact n1 rfl
    · exact n2 rfl
    · exact hn hX
  · rintro ⟨⟨b, hb, hon, n1, n2⟩, hX⟩
    obtain ⟨k, hk⟩ := List.mem_iff_getElem?.1 hb
    exact h.inside hk hon n1 n2 hX

/-- nodes and insides after a point request -/
theorem Sketch.point_facts (h : Sketch P0 S0 g ids) (hA : Spread P S) (hP : ∀ x ∈ P0.map Prod.fst, x ∈ P)
    (hS : ∀ s ∈ S0, s ∈ S) {x : ℝ × ℝ} {t : T} (hx : x ∈ P) {r : ℕ × List ℕ} (hok : g.addNode (pt x) t = .ok (g1, r)) (y : ℝ × ℝ) :
    (NodeAt g1 y ↔ NodeAt g y ∨ y = x) ∧ (Inside g1 y ↔ Inside g y ∧ (y = x → NodeAt g y)) := by
  have heps := XReal.epsR_pos
  by_cases hex : ∃ i, i < g.nodes.length ∧ place g i = x
  · obtain ⟨i, hi, hpi⟩ := hex
    have hnear := near_of_close h.drawn (x := x) hi (by rw [hpi, UtilThm.dst_eq_zero.2 rfl]; exact heps)
    have hok' := addNode_ok g h.wf (pt x) t
    have he : addNodeG g (pt x) t = g := by unfold addNodeG; rw [if_pos hnear]
    rw [he, hok] at hok'
    cases hok'
    have hn : y = x → NodeAt g y := by rintro rfl; exact ⟨i, hi, hpi.symm⟩
    exact ⟨⟨Or.inl, fun h => h.elim id hn⟩, ⟨fun h => ⟨h, hn⟩, fun h => h.1⟩⟩
  · have hne : ∀ i, i < g.nodes.length → x ≠ place g i := fun i hi hc => hex ⟨i, hi, hc.symm⟩
    have hclear : ClearPoint g x :=
      ⟨fun i hi => hA.sep _ _ (Or.inl hx) (h.spot hP hS hi) (hne i hi), h.off hA hP hS (Or.inl hx)⟩
    obtain ⟨r', pos', org, hok', hn, hcut⟩ := addNode_cut h.wf h.drawn h.inj hclear t (R := fun _ => True) trivial
      (fun _ _ => trivial) (fun _ _ _ _ _ _ _ _ _ _ => trivial)
    rw [hok] at hok'
    cases hok'
    generalize addNodeG g (pt x) t = g' at *
    have hlen : g'.nodes.length = g.nodes.length + 1 := by rw [hn]; simp
    have hpos : ∀ i, i < g.nodes.length → place g' i = place g i := by
      intro i hi; unfold place; rw [hn, List.getElem?_append_left hi]
    have hlast : g'.nodes[g.nodes.length]? = some ⟨pt x, t, ""⟩ := by rw [hn]; simp
    have hnx : ¬ NodeAt g x := fun ⟨i, hi, hc⟩ => hne i hi hc
    refine ⟨?_, ?_⟩
    · constructor
      · rintro ⟨i, hi, rfl⟩
        by_cases hlt : i < g.nodes.length
        · exact Or.inl ⟨i, hlt, hpos i hlt⟩
        · have : i = g.nodes.length := by omega
          subst this
          exact Or.inr (place_get hlast)
      · rintro (⟨i, hi, rfl⟩ | rfl)
        · exact ⟨i, by omega, (hpos i hi).symm⟩
        · exact ⟨g.nodes.length, by omega, (place_get hlast).symm⟩
    · rw [hcut.inside_iff y]
      constructor
      · rintro ⟨hb, hX⟩
        exact ⟨hb, fun hc => absurd (Or.inr hc) hX⟩
      · rintro ⟨hb, hX⟩
        refine ⟨hb, ?_⟩
        rintro (hc | rfl)
        · exact hc
        · exact hnx (hX rfl)

omit [Inhabited T] in
/-- the new segment is not among the others -/
theorem stroke_new (hov : NoOverlap (S0 ++ [s0])) (hd : s0.a ≠ s0.b) : s0 ∉ S0 := by
  intro hm
  unfold NoOverlap at hov
  rw [List.pairwise_append] at hov
  have hon : s0.On (s0.at (1 / 2)) := Stroke.on_at (by norm_num) (by norm_num)
  have ha : s0.at (1 / 2) ≠ s0.a := by
    rw [← s0.at_zero]; intro hc; have := Stroke.at_inj hd hc; norm_num at this
  have hb : s0.at (1 / 2) ≠ s0.b := by
    rw [← s0.at_one]; intro hc; have := Stroke.at_inj hd hc; norm_num at this
  rcases hov.2.2 s0 hm s0 (by simp) (by unfold crs; ring) _ hon hon with h | h | h | h
  · exact ha h
  · exact hb h
  · exact ha h
  · exact hb h

/-- what a segment request does: the edges are cut in the points where the new segment cuts one edge -/
theorem Sketch.seg_cut (h : Sketch P0 S0 g ids) (hA : Spread P S) (hP : ∀ x ∈ P0.map Prod.fst, x ∈ P)
    (hS : ∀ s ∈ S0, s ∈ S) (hs0 : s0 ∈ S) {a b : ℕ} (ha : a < g.nodes.length) (hb : b < g.nodes.length) (pa : place g a = s0.a)
    (pb : place g b = s0.b) (hov : NoOverlap (S0 ++ [s0])) (hd : ∀ s ∈ S0 ++ [s0], s.a ≠ s.b) {r : List ℕ × List ℕ}
    (hok : g.addEdge a b s0.c = .ok (g1, .ok r)) :
    (∀ y, NodeAt g1 y ↔ NodeAt g y ∨ CutOnce g a b y) ∧ ∃ pos' org, CutUp (pushEdge g a b s0.c).edges (place g) g.nodes.length
      (fun y => ∃ e ∈ g.edges, Cuts (place g) a b e y) (fun _ => True) (CutOnce g a b) g1 pos' org := by
  have hd0 : s0.a ≠ s0.b := hd s0 (by simp)
  have hnew := stroke_new hov hd0
  have hno : ∀ e ∈ g.edges, ¬ ((e.src = a ∧ e.dst = b) ∨ (e.src = b ∧ e.dst = a)) := by
    intro e he hc
    obtain ⟨s, hs, _, p1, p2⟩ := h.piece e he
    have hss : s ≠ s0 := by rintro rfl; exact hnew hs
    rcases hc with ⟨c1, c2⟩ | ⟨c1, c2⟩
    · rw [c1, pa] at p1; rw [c2, pb] at p2
      exact clash hov hd (List.mem_append_left _ hs) (by simp) hss hd0 p1 (onSeg_left _ _) p2 (onSeg_right _ _)
    · rw [c1, pb] at p1; rw [c2, pa] at p2
      exact clash hov hd (List.mem_append_left _ hs) (by simp) hss hd0 p2 (onSeg_left _ _) p1 (onSeg_right _ _)
  have hcross : ∀ e ∈ g.edges, ∀ y, Cuts (place g) a b e y → Spot P S y := by
    rintro e he y ⟨h1, h2, h3⟩
    rw [pa, pb] at h1 h3
    obtain ⟨s, hs, _, p1, p2⟩ := h.piece e he
    exact Or.inr ⟨s, hS s hs, s0, hs0, crs_part p1 p2 h1, onSeg_sub p1 p2 h2, h3⟩
  have hc : ClearCuts g (place g) a b := by
    refine ⟨?_, ?_, ?_⟩
    · intro e he y hy k hk hne
      exact hA.sep _ _ (hcross e he y hy) (h.spot hP hS hk) hne
    · intro e he e' he' y y' hy hy' hne
      exact hA.sep _ _ (hcross e he y hy) (hcross e' he' y' hy') hne
    · intro e he y hy u v huv hoff
      rcases huv with ⟨rfl, rfl⟩ | ⟨f, hf, rfl, rfl⟩
      · exact absurd hy.2.2 hoff
      · exact h.off hA hP hS (hcross e he y hy) f hf hoff
  obtain ⟨g2, r', pos', org, l, hok', hl, hdef, hcut⟩ := addEdge_cut h.wf h.drawn h.inj s0.c ha hb hno hc (R := fun _ => True)
    (fun _ _ => trivial) (fun _ _ => trivial) (fun _ _ _ _ _ _ _ _ _ _ => trivial)
  rw [hok] at hok'
  cases hok'
  have hX : ∀ y, pt y ∈ Utils.uniquePointsAmong (meetPoints g ⟨a, b, s0.c, defaultLabel⟩) ↔ CutOnce g a b y :=
    fun y => found_iff h.wf h.drawn ha hb s0.c hc y
  have hlen : g.nodes.length ≤ g1.nodes.length := by rw [hl]; simp
  have hpos : ∀ k, k < g.nodes.length → place g1 k = place g k := by
    intro k hk; unfold place; rw [hl, List.getElem?_append_left hk]
  refine ⟨fun y => ?_, pos', org, ?_⟩
  · constructor
    · rintro ⟨i, hi, rfl⟩
      by_cases hlt : i < g.nodes.length
      · exact Or.inl ⟨i, hlt, hpos i hlt⟩
      · obtain ⟨n, hk⟩ : ∃ n, g1.nodes[i]? = some n := ⟨_, List.getElem?_eq_getElem hi⟩
        have hk' := hk
        rw [hl, List.getElem?_append_right (by omega)] at hk'
        obtain ⟨m1, _⟩ := hdef _ (List.mem_of_getElem? hk')
        rw [hcut.drawn.place i _ hk] at m1
        exact Or.inr ((hX _).1 m1)
    · rintro (⟨i, hi, rfl⟩ | hf)
      · exact ⟨i, by omega, (hpos i hi).symm⟩
      · obtain ⟨i, hi, q⟩ := hcut.xnode y ((hX y).2 hf)
        exact ⟨i, hi, by rw [place_of_drawn hcut.drawn hi]; exact q⟩
  · rw [show CutOnce g a b = fun y => pt y ∈ Utils.uniquePointsAmong (meetPoints g ⟨a, b, s0.c, defaultLabel⟩) from
      funext fun y => (propext (hX y)).symm]
    exact hcut

/-- nodes and insides after a segment request -/
theorem Sketch.seg_facts (h : Sketch P0 S0 g ids) (hA : Spread P S) (hP : ∀ x ∈ P0.map Prod.fst, x ∈ P)
    (hS : ∀ s ∈ S0, s ∈ S) (hs0 : s0 ∈ S) {a b : ℕ} (ha : a < g.nodes.length) (hb : b < g.nodes.length) (pa : place g a = s0.a)
    (pb : place g b = s0.b) (hov : NoOverlap (S0 ++ [s0])) (hd : ∀ s ∈ S0 ++ [s0], s.a ≠ s.b) {r : List ℕ × List ℕ}
    (hok : g.addEdge a b s0.c = .ok (g1, .ok r)) (y : ℝ × ℝ) :
    (NodeAt g1 y ↔ NodeAt g y ∨ CutOnce g a b y) ∧ (Inside g1 y ↔ (Inside g y ∨ s0.Within y) ∧ ¬ CutOnce g a b y) := by
  obtain ⟨h1, pos', org, hcut⟩ := h.seg_cut hA hP hS hs0 ha hb pa pb hov hd hok
  refine ⟨h1 y, ?_⟩
  rw [hcut.inside_iff y]
  refine and_congr_left fun _ => ?_
  constructor
  · rintro ⟨e, he, hon, n1, n2⟩
    rcases List.mem_append.1 he with he | he
    · exact Or.inl ⟨e, he, hon, n1, n2⟩
    · rw [List.mem_singleton] at he
      subst he
      simp only [pa, pb] at hon n1 n2
      exact Or.inr ⟨hon, n1, n2⟩
  · rintro (⟨e, he, hon, n1, n2⟩ | ⟨hon, n1, n2⟩)
    · exact ⟨e, List.mem_append_left _ he, hon, n1, n2⟩
    · refine ⟨⟨a, b, s0.c, defaultLabel⟩, by simp [pushEdge], ?_⟩
      simp only [pa, pb]
      exact ⟨hon, n1, n2⟩

/-- what the graph looks like at a point in each state -/
def Fits (S0 : List (Stroke U)) (g : PlanarGraph XReal T U) (y : ℝ × ℝ) : Phase → Prop
  | .empty => ¬ NodeAt g y ∧ ∀ s ∈ S0, ¬ s.On y
  | .bare => NodeAt g y ∧ ∀ s ∈ S0, ¬ s.On y
  | .passed => ¬ NodeAt g y ∧ ∃ s ∈ S0, s.Within y ∧ ∀ s' ∈ S0, s'.On y → s' = s
  | .tip => NodeAt g y ∧ ∃ s ∈ S0, s.On y ∧ (y = s.a ∨ y = s.b) ∧ ∀ s' ∈ S0, s'.On y → s' = s
  | .skewered => NodeAt g y ∧ Inside g y ∧ ∃ s ∈ S0, s.Within y ∧ ∀ s' ∈ S0, s'.On y → s' = s
  | .joined => NodeAt g y ∧ ¬ Inside g y ∧ ((∃ s ∈ S0, s.Within y) ∨ ∃ s ∈ S0, ∃ s' ∈ S0, s ≠ s' ∧ s.On y ∧ s'.On y)
  | .broken => NodeAt g y ∧ Inside g y ∧ ((∃ s ∈ S0, ∃ s' ∈ S0, s ≠ s' ∧ s.Within y ∧ s'.Within y) ∨
      ∃ s1 ∈ S0, ∃ s2 ∈ S0, ∃ s3 ∈ S0, s1 ≠ s2 ∧ s1 ≠ s3 ∧ s2 ≠ s3 ∧ s1.On y ∧ s2.On y ∧ s3.Within y)

theorem Sketch.inside_within (h : Sketch P0 S0 g ids) {y : ℝ × ℝ} (hi : Inside g y) : ∃ s ∈ S0, s.Within y := by
  obtain ⟨e, he, hon, n1, n2⟩ := hi
  obtain ⟨s, hs, _, p1, p2⟩ := h.piece e he
  exact ⟨s, hs, onSeg_sub p1 p2 hon, inner_part p1 p2 hon n1 n2⟩

omit [Inhabited T] in
open Classical in
/-- the states after a point request -/
theorem fits_point {y x : ℝ × ℝ} (hn : NodeAt g1 y ↔ NodeAt g y ∨ y = x)
    (hi : Inside g1 y ↔ Inside g y ∧ (y = x → NodeAt g y)) {p : Phase} (hf : Fits S0 g y p) :
    Fits S0 g1 y ((if x = y then [Touch.point] else []).foldl Phase.next p) := by
  by_cases hxy : x = y
  · subst hxy
    rw [if_pos rfl]
    simp only [List.foldl_cons, List.foldl_nil]
    have hn1 : NodeAt g1 x := hn.2 (Or.inr rfl)
    have hi1 : Inside g1 x ↔ Inside g x ∧ NodeAt g x := by rw [hi]; simp
    cases p <;> simp only [Phase.next, Fits] at hf ⊢
    · exact ⟨hn1, hf.2⟩
    · exact ⟨hn1, hf.2⟩
    · obtain ⟨hno, s, hs, hw, _⟩ := hf
      exact ⟨hn1, fun hc => hno (hi1.1 hc).2, Or.inl ⟨s, hs, hw⟩⟩
    · exact ⟨hn1, hf.2⟩
    · exact ⟨hn1, hi1.2 ⟨hf.2.1, hf.1⟩, hf.2.2⟩
    · exact ⟨hn1, fun hc => hf.2.1 (hi1.1 hc).1, hf.2.2⟩
    · exact ⟨hn1, hi1.2 ⟨hf.2.1, hf.1⟩, hf.2.2⟩
  · have hxy' : ¬ y = x := fun h => hxy h.symm
    rw [if_neg hxy]
    simp only [hxy', or_false, false_imp_iff, and_true] at hn hi
    simp only [List.foldl_nil]
    cases p <;> simp only [Fits, hn, hi] at hf ⊢ <;> exact hf

open Classical in
/-- the states after a segment request -/
theorem Sketch.fits_seg (h : Sketch P0 S0 g ids) {a b : ℕ} (ha : a < g.nodes.length) (hb : b < g.nodes.length) (pa : place g a = s0.a)
    (pb : place g b = s0.b) (hov : NoOverlap (S0 ++ [s0])) (hd : ∀ s ∈ S0 ++ [s0], s.a ≠ s.b) {y : ℝ × ℝ}
    (hn : NodeAt g1 y ↔ NodeAt g y ∨ CutOnce g a b y)
    (hi : Inside g1 y ↔ (Inside g y ∨ s0.Within y) ∧ ¬ CutOnce g a b y) {p : Phase} (hf : Fits S0 g y p) :
    Fits (S0 ++ [s0]) g1 y ((if y = s0.a ∨ y = s0.b then [Touch.ending]
      else if OnSegR s0.a s0.b y then [Touch.inside] else []).foldl Phase.next p) := by
  have hd' : ∀ s ∈ S0, s.a ≠ s.b := fun s hs => hd s (List.mem_append_left _ hs)
  have hd0 : s0.a ≠ s0.b := hd s0 (by simp)
  have hov' : NoOverlap S0 := by unfold NoOverlap at hov ⊢; rw [List.pairwise_append] at hov; exact hov.1
  have hnew := stroke_new hov hd0
  have hsub : ∀ s ∈ S0, s ∈ S0 ++ [s0] := fun s hs => List.mem_append_left _ hs
  have hm0 : s0 ∈ S0 ++ [s0] := by simp
  have hne : ∀ s ∈ S0, s ≠ s0 := by rintro s hs rfl; exact hnew hs
  have hsplit : ∀ {Q : Stroke U → Prop}, (∀ s ∈ S0, Q s) → Q s0 → ∀ s ∈ S0 ++ [s0], Q s := by
    intro Q q1 q2 s hs
    rcases List.mem_append.1 hs with hs | hs
    · exact q1 s hs
    · rw [List.mem_singleton] at hs; subst hs; exact q2
  by_cases hend : y = s0.a ∨ y = s0.b
  · -- an end of the new segment
    rw [if_pos hend]
    have hon : s0.On y := by rcases hend with rfl | rfl; exact onSeg_left _ _; exact onSeg_right _ _
    have hnw : ¬ s0.Within y := fun hw => hend.elim hw.2.1 hw.2.2
    have hnode : NodeAt g y := by
      rcases hend with rfl | rfl
      · exact ⟨a, ha, pa.symm⟩
      · exact ⟨b, hb, pb.symm⟩
    have hn1 : NodeAt g1 y := hn.2 (Or.inl hnode)
    have hcr : ∀ s ∈ S0, s.Within y → crs s.a s.b s0.a s0.b ≠ 0 :=
      fun s hs hw => passing_cross hov hd (hsub s hs) hm0 (hne s hs) hw hon
    simp only [List.foldl_cons, List.foldl_nil]
    cases p <;> simp only [Phase.next, Fits] at hf ⊢
    · exact absurd hnode hf.1
    · exact ⟨hn1, s0, hm0, hon, hend, hsplit (fun s hs ho => absurd ho (hf.2 s hs)) fun _ => rfl⟩
    · exact absurd hnode hf.1
    · obtain ⟨_, s, hs, ho, he, honly⟩ := hf
      refine ⟨hn1, ?_, Or.inr ⟨s, hsub s hs, s0, hm0, hne s hs, ho, hon⟩⟩
      intro hin
      rcases (hi.1 hin).1 with hin | hw
      · obtain ⟨s', hs', hw⟩ := h.inside_within hin
        have := honly s' hs' hw.1
        subst this
        exact he.elim hw.2.1 hw.2.2
      · exact hnw hw
    · obtain ⟨_, hin, s, hs, hw, honly⟩ := hf
      refine ⟨hn1, fun hin' => (hi.1 hin').2 ?_, Or.inl ⟨s, hsub s hs, hw⟩⟩
      exact h.found_one hov' hd' pa pb hon hs hw.1 (hcr s hs hw) honly (Or.inr (Or.inl hin))
    · obtain ⟨_, hin, hst⟩ := hf
      refine ⟨hn1, fun hin' => (hi.1 hin').1.elim hin hnw, ?_⟩
      rcases hst with ⟨s, hs, hw⟩ | ⟨s, hs, s', hs', q⟩
      · exact Or.inl ⟨s, hsub s hs, hw⟩
      · exact Or.inr ⟨s, hsub s hs, s', hsub s' hs', q⟩
    · obtain ⟨_, hin, hst⟩ := hf
      refine ⟨hn1, hi.2 ⟨Or.inl hin, ?_⟩, ?_⟩
      · rcases hst with ⟨s, hs, s', hs', q, w, w'⟩ | ⟨s1, h1, s2, h2, s3, h3, n12, n13, n23, o1, o2, w⟩
        · exact h.found_two hov' hd' pa pb hon hs hs' q w.1 w'.1 (hcr s hs w) (hcr s' hs' w')
        · by_cases c1 : crs s1.a s1.b s0.a s0.b = 0
          · by_cases c2 : crs s2.a s2.b s0.a s0.b = 0
            · exact (three_par hov hd hm0 (hsub s1 h1) (hsub s2 h2) (hne s1 h1) (hne s2 h2) n12 hon o1 o2 c1 c2).elim
            · exact h.found_two hov' hd' pa pb hon h2 h3 n23 o2 w.1 c2 (hcr s3 h3 w)
          · exact h.found_two hov' hd' pa pb hon h1 h3 n13 o1 w.1 c1 (hcr s3 h3 w)
      · rcases hst with ⟨s, hs, s', hs', q⟩ | ⟨s1, h1, s2, h2, s3, h3, q⟩
        · exact Or.inl ⟨s, hsub s hs, s', hsub s' hs', q⟩
        · exact Or.inr ⟨s1, hsub s1 h1, s2, hsub s2 h2, s3, hsub s3 h3, q⟩
  rw [if_neg hend]
  push Not at hend
  by_cases hon : OnSegR s0.a s0.b y
  · -- inside the new segment
    rw [if_pos hon]
    have hon : s0.On y := hon
    have hw0 : s0.Within y := ⟨hon, hend.1, hend.2⟩
    have hcr : ∀ s ∈ S0, s.On y → crs s.a s.b s0.a s0.b ≠ 0 :=
      fun s hs ho => crs_flip (passing_cross hov hd hm0 (hsub s hs) (hne s hs).symm hw0 ho)
    simp only [List.foldl_cons, List.foldl_nil]
    cases p <;> simp only [Phase.next, Fits] at hf ⊢
    · exact ⟨fun hc => (hn.1 hc).elim hf.1 (h.found_none hf.2), s0, hm0, hw0, hsplit (fun s hs ho => absurd ho (hf.2 s hs)) fun _ => rfl⟩
    · exact ⟨hn.2 (Or.inl hf.1), hi.2 ⟨Or.inr hw0, h.found_none hf.2⟩, s0, hm0, hw0,
        hsplit (fun s hs ho => absurd ho (hf.2 s hs)) fun _ => rfl⟩
    · obtain ⟨hno, s, hs, hw, honly⟩ := hf
      have hfd := h.found_one hov' hd' pa pb hon hs hw.1 (hcr s hs hw.1) honly (Or.inl hno)
      exact ⟨hn.2 (Or.inr hfd), fun hin => (hi.1 hin).2 hfd, Or.inl ⟨s0, hm0, hw0⟩⟩
    · obtain ⟨hno, s, hs, ho, he, honly⟩ := hf
      have hfd := h.found_one hov' hd' pa pb hon hs ho (hcr s hs ho) honly (Or.inr (Or.inr he))
      exact ⟨hn.2 (Or.inr hfd), fun hin => (hi.1 hin).2 hfd, Or.inl ⟨s0, hm0, hw0⟩⟩
    · obtain ⟨_, hin, s, hs, hw, honly⟩ := hf
      have hfd := h.found_one hov' hd' pa pb hon hs hw.1 (hcr s hs hw.1) honly (Or.inr (Or.inl hin))
      exact ⟨hn.2 (Or.inr hfd), fun hin => (hi.1 hin).2 hfd, Or.inl ⟨s0, hm0, hw0⟩⟩
    · obtain ⟨hno, hin, hst⟩ := hf
      rcases hst with ⟨s, hs, hw⟩ | ⟨s, hs, s', hs', q, o, o'⟩
      · exact ⟨hn.2 (Or.inl hno), hi.2 ⟨Or.inr hw0, h.found_split hov' hd' pa pb hon hs hw (hcr s hs hw.1) hin⟩,
          Or.inl ⟨s, hsub s hs, s0, hm0, hne s hs, hw, hw0⟩⟩
      · exact ⟨hn.2 (Or.inl hno), hi.2 ⟨Or.inr hw0, h.found_two hov' hd' pa pb hon hs hs' q o o' (hcr s hs o) (hcr s' hs' o')⟩,
          Or.inr ⟨s, hsub s hs, s', hsub s' hs', s0, hm0, q, hne s hs, hne s' hs', o, o', hw0⟩⟩
    · obtain ⟨hno, hin, hst⟩ := hf
      rcases hst with ⟨s, hs, s', hs', q, w, w'⟩ | ⟨s1, h1, s2, h2, s3, h3, n12, n13, n23, o1, o2, w⟩
      · exact ⟨hn.2 (Or.inl hno), hi.2 ⟨Or.inl hin, h.found_two hov' hd' pa pb hon hs hs' q w.1 w'.1 (hcr s hs w.1) (hcr s' hs' w'.1)⟩,
          Or.inl ⟨s, hsub s hs, s', hsub s' hs', q, w, w'⟩⟩
      · exact ⟨hn.2 (Or.inl hno), hi.2 ⟨Or.inl hin, h.found_two hov' hd' pa pb hon h1 h2 n12 o1 o2 (hcr s1 h1 o1) (hcr s2 h2 o2)⟩,
          Or.inr ⟨s1, hsub s1 h1, s2, hsub s2 h2, s3, hsub s3 h3, n12, n13, n23, o1, o2, w⟩⟩
  · -- not on the new segment
    rw [if_neg hon]
    have hon : ¬ s0.On y := hon
    have hfd : ¬ CutOnce g a b y := by
      rintro ⟨k, e, _, hc, _⟩
      have := hc.2.2
      rw [pa, pb] at this
      exact hon this
    have hn' : NodeAt g1 y ↔ NodeAt g y := by rw [hn]; simp [hfd]
    have hi' : Inside g1 y ↔ Inside g y := by
      rw [hi]; simp only [hfd, not_false_eq_true, and_true]
      exact ⟨fun h => h.elim id fun hw => absurd hw.1 hon, Or.inl⟩
    simp only [List.foldl_nil]
    cases p <;> simp only [Fits, hn', hi'] at hf ⊢
    · exact ⟨hf.1, hsplit hf.2 hon⟩
    · exact ⟨hf.1, hsplit hf.2 hon⟩
    · obtain ⟨q, s, hs, hw, honly⟩ := hf
      exact ⟨q, s, hsub s hs, hw, hsplit honly fun h => absurd h hon⟩
    · obtain ⟨q, s, hs, hw, he, honly⟩ := hf
      exact ⟨q, s, hsub s hs, hw, he, hsplit honly fun h => absurd h hon⟩
    · obtain ⟨q, q', s, hs, hw, honly⟩ := hf
      exact ⟨q, q', s, hsub s hs, hw, hsplit honly fun h => absurd h hon⟩
    · obtain ⟨q, q', hst⟩ := hf
      refine ⟨q, q', ?_⟩
      rcases hst with ⟨s, hs, hw⟩ | ⟨s, hs, s', hs', q⟩
      · exact Or.inl ⟨s, hsub s hs, hw⟩
      · exact Or.inr ⟨s, hsub s hs, s', hsub s' hs', q⟩
    · obtain ⟨q, q', hst⟩ := hf
      refine ⟨q, q', ?_⟩
      rcases hst with ⟨s, hs, s', hs', q⟩ | ⟨s1, h1, s2, h2, s3, h3, q⟩
      · exact Or.inl ⟨s, hsub s hs, s', hsub s' hs', q⟩
      · exact Or.inr ⟨s1, hsub s1 h1, s2, hsub s2 h2, s3, hsub s3 h3, q⟩

end Steps

theorem client_fits [Inhabited T] {P : List (ℝ × ℝ)} {S : List (Stroke U)} (hA : Spread P S) (hov : NoOverlap S) (hd : ∀ s ∈ S, s.a ≠ s.b)
    (y : ℝ × ℝ) (rs : List (Req T U)) :
    ∀ (P0 : List ((ℝ × ℝ) × T)) (S0 : List (Stroke U)) (g : PlanarGraph XReal T U) (ids : List ℕ) (p : Phase), Sketch P0 S0 g ids →
      Fits S0 g y p → Known P0.length rs → P = P0.map Prod.fst ++ points rs → S = S0 ++ strokes (P0.map Prod.fst) rs →
      ∀ g' ids', client g ids rs = .ok (g', ids') → Fits S g' y ((touches y (P0.map Prod.fst) rs).foldl Phase.next p) := by
  induction rs with
  | nil =>
    intro P0 S0 g ids p h hf _ hP hS g' ids' hc
    simp only [strokes, List.append_nil] at hS
    subst hS
    cases hc
    exact hf
  | cons r rs ih =>
    intro P0 S0 g ids p h hf hv hP hS g' ids' hc
    have hP' : ∀ x ∈ P0.map Prod.fst, x ∈ P := fun x hx => by rw [hP]; exact List.mem_append_left _ hx
    have hS' : ∀ s ∈ S0, s ∈ S := fun s hs => by rw [hS]; exact List.mem_append_left _ hs
    cases r with
    | point x t =>
      have hxP : x ∈ P := by rw [hP]; simp [points, wanted]
      obtain ⟨g2, r, h1, h2⟩ := h.point hA hP' hS' (t := t) hxP
      obtain ⟨q1, q2⟩ := h.point_facts hA hP' hS' hxP h1 y
      have hf' := fits_point q1 q2 hf
      simp only [client, h1, bind, Except.bind] at hc
      have := ih _ _ _ _ _ h2 hf' (by simp only [Known] at hv; simpa using hv) (by rw [hP]; simp [points, wanted])
        (by rw [hS]; simp [strokes]) g' ids' hc
      simp only [touches, List.foldl_append]
      simpa using this
    | seg i j c =>
      obtain ⟨hi, hj, hv'⟩ := hv
      have gi : P0[i]? = some P0[i] := List.getElem?_eq_getElem hi
      have gj : P0[j]? = some P0[j] := List.getElem?_eq_getElem hj
      have di : (P0.map Prod.fst).getD i (0, 0) = P0[i].1 := by
        rw [List.getD_eq_getElem?_getD, List.getElem?_map, gi]; rfl
      have dj : (P0.map Prod.fst).getD j (0, 0) = P0[j].1 := by
        rw [List.getD_eq_getElem?_getD, List.getElem?_map, gj]; rfl
      simp only [strokes, di, dj] at hS
      have hs0 : (⟨P0[i].1, P0[j].1, c⟩ : Stroke U) ∈ S := by rw [hS]; simp
      obtain ⟨a, b, g2, r, h1, h2, h3, h4⟩ := h.seg hA hP' (s0 := ⟨P0[i].1, P0[j].1, c⟩) (i := i) (j := j)
        (t := P0[i].2) (t' := P0[j].2) hS' hs0 gi gj
      obtain ⟨a', e1, ha, pa⟩ := h.ids_at i _ P0[i].2 gi
      obtain ⟨b', e2, hb, pb⟩ := h.ids_at j _ P0[j].2 gj
      rw [h1] at e1; cases e1
      rw [h2] at e2; cases e2
      have hS2 : S = (S0 ++ [⟨P0[i].1, P0[j].1, c⟩]) ++ strokes (P0.map Prod.fst) rs := by rw [hS]; simp
      have hov' : NoOverlap (S0 ++ [(⟨P0[i].1, P0[j].1, c⟩ : Stroke U)]) := by
        unfold NoOverlap at hov ⊢
        rw [hS2, List.pairwise_append] at hov
        exact hov.1
      have hd' : ∀ s ∈ S0 ++ [(⟨P0[i].1, P0[j].1, c⟩ : Stroke U)], s.a ≠ s.b :=
        fun s hs => hd s (by rw [hS2]; exact List.mem_append_left _ hs)
      obtain ⟨q1, q2⟩ := h.seg_facts hA hP' hS' hs0 ha hb pa pb hov' hd' h3 y
      have hf' := h.fits_seg ha hb pa pb hov' hd' q1 q2 hf
      simp only [client, h1, h2, h3, bind, Except.bind] at hc
      have := ih _ _ _ _ _ h4 hf' hv' (by rw [hP]; simp [points, wanted]) hS2 g' ids' hc
      simp only [touches, List.foldl_append]
      rw [di, dj]
      exact this

/-! ## C151 -/

/-- **C151.** In exact arithmetic, for every list of requests whose points and crossings are clear up to the tolerance, whose segments
are not points, and whose parallel segments meet only in their ends: the client gets a graph, and it is planar - different edges meet
only in common end nodes and no node is on an edge it is not an end of - exactly when no point ends up `skewered` or `broken`.
So the points where it fails are exactly those that are requested before the only segment through them, which passes them,
and those passed by a segment after everything there had been divided. -/
theorem C151_planar [Inhabited T] (rs : List (Req T U)) (hv : Known 0 rs) (hA : Spread (points rs) (strokes [] rs))
    (hd : ∀ s ∈ strokes [] rs, s.a ≠ s.b) (hov : NoOverlap (strokes [] rs)) :
    ∃ g ids, client PlanarGraph.new [] rs = .ok (g, ids) ∧
      (Planar g (place g) ↔ ∀ y, phase rs y ≠ .skewered ∧ phase rs y ≠ .broken) ∧
      ∀ y, (phase rs y = .skewered ∨ phase rs y = .broken) ↔
        ∃ i e, i < g.nodes.length ∧ e ∈ g.edges ∧ y = place g i ∧ OnEdge (place g) e y ∧ ¬ IsEnd e i := by
  obtain ⟨g, ids, h1, h2⟩ := client_sketch hA rs [] [] _ _ Sketch.new hv rfl rfl
  have h : Sketch (wanted rs) (strokes [] rs) g ids := by simpa using h2
  have hfit : ∀ y, Fits (strokes [] rs) g y (phase rs y) := by
    intro y
    refine client_fits hA hov hd y rs [] [] _ _ .empty Sketch.new ⟨?_, ?_⟩ hv rfl rfl g ids h1
    · rintro ⟨i, hi, _⟩; simp [PlanarGraph.new] at hi
    · intro s hs; cases hs
  have hbad : ∀ y, (phase rs y = .skewered ∨ phase rs y = .broken) ↔ NodeAt g y ∧ Inside g y := by
    intro y
    have hf := hfit y
    have hnone : (∀ s ∈ strokes [] rs, ¬ s.On y) → ¬ Inside g y := by
      intro hn hi
      obtain ⟨s, hs, hw⟩ := h.inside_within hi
      exact hn s hs hw.1
    cases hp : phase rs y <;> rw [hp] at hf <;> simp only [Fits] at hf <;> simp only [reduceCtorEq, or_self, or_true, true_or, false_iff, true_iff]
    · exact fun hc => hf.1 hc.1
    · exact fun hc => hnone hf.2 hc.2
    · exact fun hc => hf.1 hc.1
    · rintro ⟨_, hc⟩
      obtain ⟨_, s, hs, _, he, honly⟩ := hf
      obtain ⟨s', hs', hw⟩ := h.inside_within hc
      have := honly s' hs' hw.1
      subst this
      exact he.elim hw.2.1 hw.2.2
    · exact ⟨hf.1, hf.2.1⟩
    · exact fun hc => hf.2.1 hc.2
    · exact ⟨hf.1, hf.2.1⟩
  have hbad' : ∀ y, (phase rs y = .skewered ∨ phase rs y = .broken) ↔
      ∃ i e, i < g.nodes.length ∧ e ∈ g.edges ∧ y = place g i ∧ OnEdge (place g) e y ∧ ¬ IsEnd e i := by
    intro y
    rw [hbad y]
    constructor
    · rintro ⟨⟨i, hi, rfl⟩, e, he, hon, n1, n2⟩
      refine ⟨i, e, hi, he, rfl, hon, ?_⟩
      rintro (rfl | rfl)
      · exact n1 rfl
      · exact n2 rfl
    · rintro ⟨i, e, hi, he, rfl, hon, hn⟩
      refine ⟨⟨i, hi, rfl⟩, e, he, hon, ?_, ?_⟩
      · intro hc; exact hn (Or.inl (h.inj _ _ hi (h.wf e he).1 hc))
      · intro hc; exact hn (Or.inr (h.inj _ _ hi (h.wf e he).2 hc))
  refine ⟨g, ids, h1, ?_, hbad'⟩
  constructor
  · intro hpl y
    rw [← not_or, hbad' y]
    rintro ⟨i, e, hi, he, rfl, hon, hn⟩
    exact hn (hpl.node e he i hi hon)
  · intro hall
    have hnode : ∀ e ∈ g.edges, ∀ i, i < g.nodes.length → OnEdge (place g) e (place g i) → IsEnd e i := by
      intro e he i hi hon
      by_contra hn
      have := (hbad' (place g i)).2 ⟨i, e, hi, he, rfl, hon, hn⟩
      exact this.elim (hall _).1 (hall _).2
    refine ⟨?_, hnode⟩
    intro k l e f hk hl hkl y o1 o2
    obtain ⟨i, hi, rfl⟩ := h.tidy hov k l e f hk hl hkl y o1 o2
    exact ⟨i, hnode e (List.mem_of_getElem? hk) i hi o1, hnode f (List.mem_of_getElem? hl) i hi o2, rfl⟩

/-! ## Reading the states -/

theorem phase_count (w : List Touch) :
    (w.countP Touch.isSegment = 0 → w.foldl Phase.next .empty = .empty ∨ w.foldl Phase.next .empty = .bare) ∧
    (2 ≤ w.countP Touch.isSegment → w.foldl Phase.next .empty = .joined ∨ w.foldl Phase.next .empty = .broken) ∧
    (w.countP Touch.isSegment = 1 → w.foldl Phase.next .empty ∈ [Phase.passed, .tip, .skewered, .joined]) := by
  induction w using List.reverseRecOn with
  | nil => simp
  | append_singleton w t ih =>
    obtain ⟨h0, h2, h1⟩ := ih
    rw [List.foldl_append, List.countP_append]
    simp only [List.foldl_cons, List.foldl_nil]
    generalize w.foldl Phase.next .empty = p at *
    generalize w.countP Touch.isSegment = n at *
    have hn : n = 0 ∨ n = 1 ∨ 2 ≤ n := by omega
    rcases hn with rfl | rfl | hn
    · rcases h0 rfl with rfl | rfl <;> cases t <;> simp [Phase.next, Touch.isSegment]
    · have := h1 rfl
      simp only [List.mem_cons, List.not_mem_nil, or_false] at this
      rcases this with rfl | rfl | rfl | rfl <;> cases t <;> simp [Phase.next, Touch.isSegment]
    · rcases h2 hn with rfl | rfl <;> cases t <;> simp [Phase.next, Touch.isSegment] <;> omega

/-- the requests that lead to each state -/
def Word (w : List Touch) : Phase → Prop
  | .empty => w = []
  | .bare => ∃ n, w = List.replicate (n + 1) .point
  | .passed => ∃ t, t ≠ .point ∧ w = [t]
  | .tip => True
  | .skewered => ∃ n m, w = List.replicate (n + 1) .point ++ .inside :: List.replicate m .point
  | .joined => 2 ≤ w.countP Touch.isSegment ∨ ∃ t n, t ≠ .point ∧ w = t :: List.replicate (n + 1) .point
  | .broken => (∃ u v, w = u ++ .inside :: v ∧ 2 ≤ u.countP Touch.isSegment) ∨
      ∃ t n v, t ≠ .point ∧ w = t :: List.replicate (n + 1) .point ++ .inside :: v

theorem word_phase (w : List Touch) : Word w (w.foldl Phase.next .empty) := by
  induction w using List.reverseRecOn with
  | nil => rfl
  | append_singleton w t ih =>
    have hc := phase_count w
    rw [List.foldl_append]
    simp only [List.foldl_cons, List.foldl_nil]
    generalize w.foldl Phase.next .empty = p at *
    have hge : p ≠ .empty → p ≠ .bare → 1 ≤ w.countP Touch.isSegment := by
      intro h1 h2
      by_contra h
      exact (hc.1 (by omega)).elim h1 h2
    have hin : (w ++ [Touch.inside]).countP Touch.isSegment = w.countP Touch.isSegment + 1 := by
      rw [List.countP_append]; rfl
    have hen : (w ++ [Touch.ending]).countP Touch.isSegment = w.countP Touch.isSegment + 1 := by
      rw [List.countP_append]; rfl
    have hi2 : p ≠ .empty → p ≠ .bare → 2 ≤ (w ++ [Touch.inside]).countP Touch.isSegment :=
      fun h1 h2 => by have := hge h1 h2; omega
    have he2 : p ≠ .empty → p ≠ .bare → 2 ≤ (w ++ [Touch.ending]).countP Touch.isSegment :=
      fun h1 h2 => by have := hge h1 h2; omega
    cases p <;> cases t <;> simp only [Phase.next, Word] at ih ⊢
    · exact ⟨0, by rw [ih]; rfl⟩
    · exact ⟨.inside, by simp, by rw [ih]; rfl⟩
    · exact ⟨.ending, by simp, by rw [ih]; rfl⟩
    · obtain ⟨n, rfl⟩ := ih
      exact ⟨n + 1, by rw [List.replicate_succ' (n := n + 1)]⟩
    · obtain ⟨n, rfl⟩ := ih
      exact ⟨n, 0, by simp⟩
    · obtain ⟨t, ht, rfl⟩ := ih
      exact Or.inr ⟨t, 0, ht, rfl⟩
    · exact Or.inl (hi2 (by simp) (by simp))
    · exact Or.inl (he2 (by simp) (by simp))
    · exact Or.inl (hi2 (by simp) (by simp))
    · exact Or.inl (he2 (by simp) (by simp))
    · obtain ⟨n, m, rfl⟩ := ih
      exact ⟨n, m + 1, by rw [List.replicate_succ' (n := m)]; simp⟩
    · exact Or.inl (hi2 (by simp) (by simp))
    · exact Or.inl (he2 (by simp) (by simp))
    · rcases ih with h | ⟨t, n, ht, rfl⟩
      · exact Or.inl (by rw [List.countP_append]; omega)
      · exact Or.inr ⟨t, n + 1, ht, by rw [List.replicate_succ' (n := n + 1)]; simp⟩
    · rcases ih with h | ⟨t, n, ht, rfl⟩
      · exact Or.inl ⟨w, [], rfl, h⟩
      · exact Or.inr ⟨t, n, [], ht, rfl⟩
    · exact Or.inl (he2 (by simp) (by simp))
    all_goals
      rcases ih with ⟨u, v, rfl, h⟩ | ⟨t, n, v, ht, rfl⟩
      · exact Or.inl ⟨u, v ++ [_], List.append_assoc .., h⟩
      · exact Or.inr ⟨t, n, v ++ [_], ht, List.append_assoc ..⟩

theorem fold_broken (w : List Touch) : w.foldl Phase.next .broken = .broken := by
  induction w with
  | nil => rfl
  | cons t w ih => cases t <;> exact ih

theorem fold_points {p : Phase} (h : p.next .point = p) (n : ℕ) : (List.replicate n Touch.point).foldl Phase.next p = p := by
  induction n with
  | zero => rfl
  | succ n ih => rw [List.replicate_succ, List.foldl_cons, h, ih]

/-- an end of a segment is requested before -/
theorem touches_head (y : ℝ × ℝ) (rs : List (Req T U)) : ∀ ps : List (ℝ × ℝ), y ∉ ps → Known ps.length rs → ∀ w, touches y ps rs ≠ .ending :: w := by
  induction rs with
  | nil => intro ps _ _ w h; cases h
  | cons r rs ih =>
    intro ps hy hv w h
    have hget : ∀ i, i < ps.length → y ≠ ps.getD i (0, 0) := by
      rintro i hi rfl
      rw [List.getD_eq_getElem?_getD, List.getElem?_eq_getElem hi] at hy
      exact hy (List.getElem_mem hi)
    cases r with
    | point x t =>
      simp only [touches] at h
      by_cases hx : x = y
      · rw [if_pos hx] at h; simp at h
      · rw [if_neg hx, List.nil_append] at h
        refine ih (ps ++ [x]) ?_ (by simpa [Known] using hv) w h
        rw [List.mem_append, List.mem_singleton]
        rintro (h | rfl)
        · exact hy h
        · exact hx rfl
    | seg i j c =>
      obtain ⟨hi, hj, hv⟩ := hv
      simp only [touches] at h
      rw [if_neg (by rintro (h | h); exact hget i hi h; exact hget j hj h)] at h
      by_cases ho : OnSegR (ps.getD i (0, 0)) (ps.getD j (0, 0)) y
      · rw [if_pos ho] at h; simp at h
      · rw [if_neg ho, List.nil_append] at h
        exact ih ps hy hv w h

/-- **C151, the points that fail.** A point ends up `skewered` exactly when it is requested, then passed by one segment, and no other
segment concerns it; it ends up `broken` exactly when a segment passes it that is at least the third to concern it, or the
second one, where the first passes it too and the point is requested only between the two. -/
theorem C151_words (rs : List (Req T U)) (hv : Known 0 rs) (y : ℝ × ℝ) :
    (phase rs y = .skewered ↔ ∃ n m, touches y [] rs = List.replicate (n + 1) .point ++ .inside :: List.replicate m .point) ∧
    (phase rs y = .broken ↔
      (∃ u v, touches y [] rs = u ++ .inside :: v ∧ 2 ≤ u.countP Touch.isSegment) ∨
      ∃ n v, touches y [] rs = .inside :: List.replicate (n + 1) .point ++ .inside :: v) := by
  have hw := word_phase (touches y [] rs)
  have hh := touches_head y rs [] (by simp) hv
  unfold phase
  generalize touches y [] rs = w at *
  constructor
  · constructor
    · intro h
      rw [h] at hw
      exact hw
    · rintro ⟨n, m, rfl⟩
      rw [List.foldl_append, List.replicate_succ, List.foldl_cons, List.foldl_cons]
      rw [show Phase.next .empty .point = .bare from rfl, fold_points (p := .bare) rfl,
        show Phase.next .bare .inside = .skewered from rfl, fold_points (p := .skewered) rfl]
  · constructor
    · intro h
      rw [h] at hw
      rcases hw with hw | ⟨t, n, v, ht, rfl⟩
      · exact Or.inl hw
      · cases t
        · exact absurd rfl ht
        · exact Or.inr ⟨n, v, rfl⟩
        · exact absurd rfl (hh _)
    · rintro (⟨u, v, rfl, hu⟩ | ⟨n, v, rfl⟩)
      · rw [List.foldl_append, List.foldl_cons]
        rcases (phase_count u).2.1 hu with h | h <;> rw [h] <;> exact fold_broken v
      · rw [List.foldl_append, List.foldl_cons, List.replicate_succ, List.foldl_cons, List.foldl_cons]
        rw [show Phase.next .empty .inside = .passed from rfl, show Phase.next .passed .point = .joined from rfl,
          fold_points (p := .joined) rfl]
        exact fold_broken v

/-! ## Examples -/

/-- the requests of `starReq` without the last: three segments through (1, 0) -/
theorem star_touches : touches (1, 0) [] starReq.dropLast = [.inside, .inside, .inside] := by
  have h1 : OnSegR ((0, 0) : ℝ × ℝ) (2, 0) (1, 0) := ⟨1 / 2, by norm_num, by norm_num, by norm_num⟩
  have h2 : OnSegR ((1, -1) : ℝ × ℝ) (1, 1) (1, 0) := ⟨1 / 2, by norm_num, by norm_num, by norm_num⟩
  have h3 : OnSegR ((0, -1) : ℝ × ℝ) (2, 1) (1, 0) := ⟨1 / 2, by norm_num, by norm_num, by norm_num⟩
  simp [starReq, touches, h1, h2, h3]

/-- the third segment breaks the crossing -/
example : ∃ g ids, client PlanarGraph.new [] starReq.dropLast = .ok (g, ids) ∧ ¬ Planar g (place g) := by
  have hS : strokes [] starReq.dropLast = [⟨(0, 0), (2, 0), 10⟩, ⟨(1, -1), (1, 1), 20⟩, ⟨(0, -1), (2, 1), 30⟩] := rfl
  obtain ⟨g, ids, h, h1, _⟩ := C151_planar starReq.dropLast (by simp [starReq, Known])
    (star_spread.mono (fun x hx => hx) (fun s hs => List.mem_of_mem_dropLast hs)) (by rw [hS]; norm_num) (by rw [hS]; norm_num [NoOverlap, crs])
  refine ⟨g, ids, h, fun hp => (h1.1 hp (1, 0)).2 ?_⟩
  unfold phase
  rw [star_touches]
  rfl

/-- two segments through a requested point, which is requested first -/
def centreReq : List (Req ℕ ℕ) :=
  [.point (0, 0) 1, .point (2, 0) 2, .point (1, -1) 3, .point (1, 1) 4, .point (1, 0) 5, .seg 0 1 10, .seg 2 3 20]

theorem centre_strokes : strokes [] centreReq = [⟨(0, 0), (2, 0), 10⟩, ⟨(1, -1), (1, 1), 20⟩] := rfl

theorem centre_on : OnSegR ((0, 0) : ℝ × ℝ) (2, 0) (1, 0) ∧ OnSegR ((1, -1) : ℝ × ℝ) (1, 1) (1, 0) :=
  ⟨⟨1 / 2, by norm_num, by norm_num, by norm_num⟩, ⟨1 / 2, by norm_num, by norm_num, by norm_num⟩⟩

theorem centre_spread : Spread (points centreReq) (strokes [] centreReq) := by
  have hS' : strokes [] starReq = [⟨(0, 0), (2, 0), 10⟩, ⟨(1, -1), (1, 1), 20⟩, ⟨(0, -1), (2, 1), 30⟩, ⟨(2, 0), (0, 0), 10⟩] := rfl
  obtain ⟨h1, h2⟩ := centre_on
  have hsub : ∀ s ∈ strokes [] centreReq, s ∈ strokes [] starReq := by rw [centre_strokes, hS']; simp
  have hsp : ∀ x, Spot (points centreReq) (strokes [] centreReq) x → Spot (points starReq) (strokes [] starReq) x := by
    rintro x (hx | hx)
    · have hP : points centreReq = [(0, 0), (2, 0), (1, -1), (1, 1), (1, 0)] := rfl
      have hP' : points starReq = [(0, 0), (2, 0), (1, -1), (1, 1), (0, -1), (2, 1)] := rfl
      rw [hP] at hx
      simp only [List.mem_cons, List.not_mem_nil, or_false] at hx
      rcases hx with rfl | rfl | rfl | rfl | rfl
      · exact Or.inl (by rw [hP']; simp)
      · exact Or.inl (by rw [hP']; simp)
      · exact Or.inl (by rw [hP']; simp)
      · exact Or.inl (by rw [hP']; simp)
      · exact Or.inr ⟨⟨(0, 0), (2, 0), 10⟩, by rw [hS']; simp, ⟨(1, -1), (1, 1), 20⟩, by rw [hS']; simp, by norm_num [crs], h1, h2⟩
    · exact Or.inr (hx.mono hsub)
  exact ⟨fun x y hx hy => star_spread.sep x y (hsp x hx) (hsp y hy), fun x hx s hs => star_spread.clear x (hsp x hx) s (hsub s hs)⟩

theorem centre_phase (y : ℝ × ℝ) : phase centreReq y ≠ .skewered ∧ phase centreReq y ≠ .broken := by
  obtain ⟨h1, h2⟩ := centre_on
  by_cases hy : y = (1, 0)
  · subst hy
    simp [phase, centreReq, touches, h1, h2, Phase.next]
  · simp only [phase, centreReq, touches, List.getD_cons_zero, List.getD_cons_succ, List.cons_append, List.nil_append, eq_comm (b := y), hy, if_false]
    by_cases q1 : y = (0, 0)
    · subst q1; simp; split_ifs <;> simp [Phase.next]
    by_cases q2 : y = (2, 0)
    · subst q2; simp; split_ifs <;> simp [Phase.next]
    by_cases q3 : y = (1, -1)
    · subst q3; simp; split_ifs <;> simp [Phase.next]
    by_cases q4 : y = (1, 1)
    · subst q4; simp; split_ifs <;> simp [Phase.next]
    simp only [q1, q2, q3, q4, or_self, if_false]
    split_ifs <;> simp [Phase.next]

/-- both segments are divided: the drawing is planar, though (1, 0) is requested and inside two segments -/
example : ∃ g ids, client PlanarGraph.new [] centreReq = .ok (g, ids) ∧ Planar g (place g) := by
  obtain ⟨g, ids, h, hp, _⟩ := C151_planar centreReq (by simp [centreReq, Known]) centre_spread
    (by rw [centre_strokes]; norm_num) (by rw [centre_strokes]; norm_num [NoOverlap, crs])
  exact ⟨g, ids, h, hp.2 centre_phase⟩

end

/-- **C151, the order matters** (f32).  Two segments crossing in (1, 0) and a request for this point: with the point before or after the
two segments the drawing has 5 nodes and 4 edges, with the point between them the second segment stays whole and there are 3 edges. -/
theorem C151_sharp :
    (PlanarGraph.run .debug (PlanarGraph.new : PlanarGraph F32 Unit ℕ)
      [.addNode ⟨F32.lit 0, F32.lit 0⟩ (), .addNode ⟨F32.lit 2, F32.lit 0⟩ (), .addNode ⟨F32.lit 1, F32.lit (-1)⟩ (),
        .addNode ⟨F32.lit 1, F32.lit 1⟩ (), .addNode ⟨F32.lit 1, F32.lit 0⟩ (), .addEdge 0 1 10, .addEdge 2 3 20]).map
      (fun g => (g.nodes.length, g.edges.length)) = .ok (5, 4) ∧
    (PlanarGraph.run .debug (PlanarGraph.new : PlanarGraph F32 Unit ℕ)
      [.addNode ⟨F32.lit 0, F32.lit 0⟩ (), .addNode ⟨F32.lit 2, F32.lit 0⟩ (), .addNode ⟨F32.lit 1, F32.lit (-1)⟩ (),
        .addNode ⟨F32.lit 1, F32.lit 1⟩ (), .addEdge 0 1 10, .addEdge 2 3 20, .addNode ⟨F32.lit 1, F32.lit 0⟩ ()]).map
      (fun g => (g.nodes.length, g.edges.length)) = .ok (5, 4) ∧
    (PlanarGraph.run .debug (PlanarGraph.new : PlanarGraph F32 Unit ℕ)
      [.addNode ⟨F32.lit 0, F32.lit 0⟩ (), .addNode ⟨F32.lit 2, F32.lit 0⟩ (), .addNode ⟨F32.lit 1, F32.lit (-1)⟩ (),
        .addNode ⟨F32.lit 1, F32.lit 1⟩ (), .addEdge 0 1 10, .addNode ⟨F32.lit 1, F32.lit 0⟩ (), .addEdge 2 3 20]).map
      (fun g => (g.nodes.length, g.edges.length)) = .ok (5, 3) := by
  decide +kernel

end Kami.Graph
