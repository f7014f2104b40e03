import Verif.Graph.Recipe
/-!
# C156: which drawings can be drawn at all

C155 requests the ends first, then the segments, then the other points.  Here: when any list of requests gives a planar drawing, so does
this order, with the segments in the same order, and the drawing is the same.  So a drawing can be drawn if and only if its segments
have an order in which each is, at every point it passes, one of the first two segments through the point.
-/

set_option autoImplicit false

namespace Kami.Graph

open Kami
open scoped Kami
open PlanarGraph
open Kami.UtilThm (dst crs dt OnSegR)

variable {T U : Type}

/-! ## Specification -/

section Spec

/-- every segment is, at every point it passes, one of the first two segments through the point -/
def FirstTwo (S : List (Stroke U)) : Prop := ∀ y l s l', S = l ++ s :: l' → s.Within y → through l y ≤ 1

/-- the client gets a graph for the requests and it is a planar drawing -/
def DrawsPlanar [Inhabited T] (rs : List (Req T U)) : Prop :=
  ∃ g ids, client PlanarGraph.new [] rs = .ok (g, ids) ∧ Planar g (place g)

end Spec

noncomputable section

/-! ## Any requests -/

theorem touches_segments (y : ℝ × ℝ) (rs : List (Req T U)) : ∀ ps,
    (touches y ps rs).filter Touch.isSegment = (strokes ps rs).flatMap (strokeTouch y) := by
  induction rs with
  | nil => intro _; rfl
  | cons r rs ih =>
    intro ps
    cases r with
    | point x t =>
      simp only [touches, strokes, List.filter_append, ih]
      split <;> simp [Touch.isSegment]
    | seg i j c =>
      simp only [touches, strokes, List.filter_append, List.flatMap_cons, ih]
      congr 1
      unfold strokeTouch
      simp only
      split
      · rfl
      · split <;> rfl

/-- the number of segments that may still pass -/
def Phase.room : Phase → ℕ
  | .empty => 2
  | .bare => 2
  | .passed => 1
  | .tip => 1
  | .skewered => 1
  | .joined => 0
  | .broken => 0

theorem not_mem_drop_mono {α : Type} {a : α} {l : List α} {m n : ℕ} (h : a ∉ l.drop m) (hmn : m ≤ n) : a ∉ l.drop n :=
  fun hm => h ((List.drop_sublist_drop_left l hmn).subset hm)

theorem unbroken_room (w : List Touch) : ∀ p : Phase, w.foldl Phase.next p ≠ .broken →
    Touch.inside ∉ (w.filter Touch.isSegment).drop p.room := by
  induction w with
  | nil => intro p _; simp
  | cons t w ih =>
    intro p h
    rw [List.foldl_cons] at h
    have hk := ih _ h
    have hnb : p.next t ≠ .broken := by
      intro hb
      rw [hb, fold_broken] at h
      exact h rfl
    cases t
    · rw [List.filter_cons_of_neg (by simp [Touch.isSegment])]
      refine not_mem_drop_mono hk ?_
      cases p <;> simp [Phase.next, Phase.room]
    · rw [List.filter_cons_of_pos (by simp [Touch.isSegment])]
      cases p <;> simp_all [Phase.next, Phase.room]
    · rw [List.filter_cons_of_pos (by simp [Touch.isSegment])]
      cases p <;> simp_all [Phase.next, Phase.room]

theorem fine_firstTwo (rs : List (Req T U)) (h : ∀ y, phase rs y ≠ .broken) : FirstTwo (strokes [] rs) := by
  intro y l s l' he hw
  have h1 := unbroken_room (touches y [] rs) .empty (h y)
  rw [touches_segments] at h1
  by_contra hc
  exact h1 ((inside_drop y _ 2).2 ⟨l, s, l', he, hw, by omega⟩)

theorem known_ends {rs : List (Req T U)} : ∀ {ps : List (ℝ × ℝ)}, Known ps.length rs → ∀ s ∈ strokes ps rs,
    s.a ∈ ps ++ points rs ∧ s.b ∈ ps ++ points rs := by
  induction rs with
  | nil => intro ps _ s hs; cases hs
  | cons r rs ih =>
    intro ps hv s hs
    cases r with
    | point x t =>
      have h1 := ih (ps := ps ++ [x]) (by simpa [Known] using hv) s hs
      simpa [points, wanted] using h1
    | seg i j c =>
      obtain ⟨hi, hj, hv⟩ := hv
      rcases List.mem_cons.1 hs with rfl | hs
      · have key : ∀ k, k < ps.length → ps.getD k (0, 0) ∈ ps := by
          intro k hk
          rw [List.getD_eq_getElem?_getD, List.getElem?_eq_getElem hk]; exact List.getElem_mem hk
        exact ⟨List.mem_append_left _ (key i hi), List.mem_append_left _ (key j hj)⟩
      · exact ih hv s hs

/-- the points of the new order are those of the old one -/
theorem redraw_points (t : T) (rs : List (Req T U)) (hv : Known 0 rs) (x : ℝ × ℝ) :
    x ∈ points rs ↔ x ∈ points (drawReqs t (strokes [] rs) (points rs)) := by
  rw [draw_points, List.mem_append]
  refine ⟨Or.inr, ?_⟩
  rintro (h | h)
  · obtain ⟨s, hs, he⟩ := mem_endsOf.1 h
    have := known_ends (ps := []) hv s hs
    rw [List.nil_append] at this
    rcases he with rfl | rfl
    exacts [this.1, this.2]
  · exact h

theorem Spread.congr {P P' : List (ℝ × ℝ)} {S S' : List (Stroke U)} (hA : Spread P S) (hP : ∀ x, x ∈ P ↔ x ∈ P')
    (hS : ∀ s, s ∈ S ↔ s ∈ S') : Spread P' S' := by
  have hsp : ∀ y, Spot P S y ↔ Spot P' S' y := by
    intro y
    exact or_congr (hP y) ⟨fun h => h.mono fun s => (hS s).1, fun h => h.mono fun s => (hS s).2⟩
  exact ⟨fun x y hx hy => hA.sep x y ((hsp x).2 hx) ((hsp y).2 hy), fun x hx s hs => hA.clear x ((hsp x).2 hx) s ((hS s).2 hs)⟩

theorem NoOverlap.perm {S S' : List (Stroke U)} (h : NoOverlap S) (hp : S.Perm S') : NoOverlap S' := by
  refine (hp.pairwise_iff ?_).1 h
  intro s s' h hc y h1 h2
  have := h (by unfold crs at hc ⊢; linarith) y h2 h1
  tauto

theorem mem_endsOf_perm {S S' : List (Stroke U)} (hp : S.Perm S') (y : ℝ × ℝ) : y ∈ endsOf S ↔ y ∈ endsOf S' := by
  simp only [mem_endsOf, hp.mem_iff]

theorem through_perm {S S' : List (Stroke U)} (hp : S.Perm S') (y : ℝ × ℝ) : through S y = through S' y :=
  (hp.filter _).length_eq

theorem through_append (S S' : List (Stroke U)) (y : ℝ × ℝ) : through (S ++ S') y = through S y + through S' y := by
  unfold through
  rw [List.filter_append, List.length_append]

theorem passing_perm {S S' : List (Stroke U)} (hp : S.Perm S') (y : ℝ × ℝ) : passing S y = passing S' y :=
  (hp.filter _).length_eq

/-- every order of the segments is right exactly when every point that a segment passes is on at most two segments -/
theorem firstTwo_all (S : List (Stroke U)) :
    (∀ S' : List (Stroke U), S'.Perm S → FirstTwo S') ↔ ∀ y, (∃ s ∈ S, s.Within y) → through S y ≤ 2 := by
  constructor
  · rintro h y ⟨s, hs, hw⟩
    obtain ⟨l, l', rfl⟩ := List.append_of_mem hs
    have hp : ((l ++ l') ++ [s]).Perm (l ++ s :: l') := by
      rw [List.append_assoc]
      exact (List.perm_append_singleton s l').append_left l
    have h1 := h _ hp y (l ++ l') s [] rfl hw
    rw [← through_perm hp, through_append, through_cons_on hw.1]
    have : through ([] : List (Stroke U)) y = 0 := rfl
    omega
  · intro h S' hp y l s l' he hw
    have hs : s ∈ S := hp.mem_iff.1 (by rw [he]; simp)
    have h1 := h y ⟨s, hs, hw⟩
    rw [← through_perm hp, he, through_append, through_cons_on hw.1] at h1
    omega

/-! ## C156 -/

/-- **C156, the order of the segments.** Whatever is requested, in whatever order: in a planar drawing every segment is, at every point
it passes, one of the first two segments through the point. -/
theorem C156_order [Inhabited T] (rs : List (Req T U)) (hv : Known 0 rs) (hA : Spread (points rs) (strokes [] rs))
    (hd : ∀ s ∈ strokes [] rs, s.a ≠ s.b) (hov : NoOverlap (strokes [] rs)) (h : DrawsPlanar rs) :
    FirstTwo (strokes [] rs) := by
  obtain ⟨g, ids, h1, hp⟩ := h
  obtain ⟨g', ids', h1', h2, _⟩ := C151_planar rs hv hA hd hov
  rw [h1] at h1'
  cases h1'
  exact fine_firstTwo rs fun y => (h2.1 hp y).2

/-- **C156.** In exact arithmetic, with points and crossings clear up to the tolerance, segments that are not points and that meet in
their ends if they are parallel: if some requests give a planar drawing, then so does requesting the ends first, then the
segments in the same order, then all points; and the drawing is the same: nodes at the same places, edges between the same
places with the same data. -/
theorem C156_best [Inhabited T] (t : T) (rs : List (Req T U)) (hv : Known 0 rs) (hA : Spread (points rs) (strokes [] rs))
    (hd : ∀ s ∈ strokes [] rs, s.a ≠ s.b) (hov : NoOverlap (strokes [] rs)) (h : DrawsPlanar rs) :
    DrawsPlanar (drawReqs t (strokes [] rs) (points rs)) ∧
    ∃ g ids g' ids', client PlanarGraph.new [] rs = .ok (g, ids) ∧
      client PlanarGraph.new [] (drawReqs t (strokes [] rs) (points rs)) = .ok (g', ids') ∧
      g.nodeCount = g'.nodeCount ∧ g.edgeCount = g'.edgeCount ∧
      (∀ y, (∃ i, i < g.nodes.length ∧ y = place g i) ↔ ∃ i, i < g'.nodes.length ∧ y = place g' i) ∧
      ∀ x y c,
        (∃ e ∈ g.edges, e.data = c ∧ ((place g e.src = x ∧ place g e.dst = y) ∨ (place g e.src = y ∧ place g e.dst = x))) ↔
        ∃ e ∈ g'.edges, e.data = c ∧ ((place g' e.src = x ∧ place g' e.dst = y) ∨ (place g' e.src = y ∧ place g' e.dst = x)) := by
  have hf := C156_order rs hv hA hd hov h
  have hP := redraw_points t rs hv
  have hfine : ∀ y, phase (drawReqs t (strokes [] rs) (points rs)) y ≠ .skewered ∧
      phase (drawReqs t (strokes [] rs) (points rs)) y ≠ .broken :=
    fun y => (draw_fine_iff t _ _ y).2 (hf y)
  obtain ⟨g, ids, h1, hp⟩ := h
  obtain ⟨g0, ids0, h10, h2, _⟩ := C151_planar rs hv hA hd hov
  rw [h1] at h10
  cases h10
  constructor
  · obtain ⟨g', ids', e, hpl, _⟩ := C152_arrangement _ (draw_known t (strokes [] rs) (points rs))
      (by rw [draw_strokes]; exact hA.congr hP fun _ => Iff.rfl) (by rw [draw_strokes]; exact hd) (by rw [draw_strokes]; exact hov) hfine
    exact ⟨g', ids', e, hpl⟩
  · exact C152_order rs (drawReqs t (strokes [] rs) (points rs)) hv (draw_known t _ _) hA hd hov (by rw [draw_strokes]; exact hov)
      (h2.1 hp) hfine hP (fun s => by rw [draw_strokes])

/-- **C156, the drawings that can be drawn.** Some requests for exactly these segments, with their data, and for exactly their ends and
these other points give a planar drawing if and only if the segments have an order in which each is, at every point it passes, one of
the first two segments through the point. -/
theorem C156_exact [Inhabited T] (S : List (Stroke U)) (B : List (ℝ × ℝ)) (hA : Spread (endsOf S ++ B) S)
    (hd : ∀ s ∈ S, s.a ≠ s.b) (hov : NoOverlap S) :
    (∃ rs : List (Req T U), Known 0 rs ∧ (strokes [] rs).Perm S ∧ (∀ x, x ∈ points rs ↔ x ∈ endsOf S ++ B) ∧ DrawsPlanar rs) ↔
      ∃ S' : List (Stroke U), S'.Perm S ∧ FirstTwo S' := by
  constructor
  · rintro ⟨rs, hv, hp, hP, h⟩
    exact ⟨_, hp, C156_order rs hv (hA.congr (fun x => (hP x).symm) fun s => hp.mem_iff.symm)
      (fun s hs => hd s (hp.mem_iff.1 hs)) (hov.perm hp.symm) h⟩
  · rintro ⟨S', hp, hf⟩
    have hP : ∀ x, x ∈ endsOf S ++ B ↔ x ∈ endsOf S' ++ B := by
      intro x
      rw [List.mem_append, List.mem_append, mem_endsOf_perm hp]
    obtain ⟨g, ids, h1, h2⟩ := C155_exact (default : T) S' B (hA.congr hP fun s => hp.mem_iff.symm)
      (fun s hs => hd s (hp.mem_iff.1 hs)) (hov.perm hp.symm)
    exact ⟨drawReqs default S' B, draw_known _ _ _, by rw [draw_strokes]; exact hp,
      fun x => by rw [draw_points]; exact (hP x).symm, g, ids, h1, h2.2 hf⟩

/-- **C156, every order.** With the ends requested first, the drawing is planar for every order of the segments if and only if every
point that a segment passes is on at most two segments. -/
theorem C156_every_order [Inhabited T] (t : T) (S : List (Stroke U)) (B : List (ℝ × ℝ)) (hA : Spread (endsOf S ++ B) S)
    (hd : ∀ s ∈ S, s.a ≠ s.b) (hov : NoOverlap S) :
    (∀ S' : List (Stroke U), S'.Perm S → DrawsPlanar (drawReqs t S' B)) ↔ ∀ y, (∃ s ∈ S, s.Within y) → through S y ≤ 2 := by
  rw [← firstTwo_all]
  refine forall_congr' fun S' => forall_congr' fun hp => ?_
  have hP : ∀ x, x ∈ endsOf S ++ B ↔ x ∈ endsOf S' ++ B := by
    intro x
    rw [List.mem_append, List.mem_append, mem_endsOf_perm hp]
  obtain ⟨g, ids, h1, h2⟩ := C155_exact t S' B (hA.congr hP fun s => hp.mem_iff.symm)
    (fun s hs => hd s (hp.mem_iff.1 hs)) (hov.perm hp.symm)
  refine ⟨?_, fun hf => ⟨g, ids, h1, h2.2 hf⟩⟩
  rintro ⟨g', ids', h1', hpl⟩
  rw [h1] at h1'
  cases h1'
  exact h2.1 hpl

/-- **C156, sorted segments.** If at most two segments pass through any point and there is a number for every segment, smaller for a
segment that passes an end than for the segment that ends there (like the depth of a crease in a design), then the segments
can be drawn: sorted by these numbers. -/
theorem C156_sorted [Inhabited T] (t : T) (S : List (Stroke U)) (B : List (ℝ × ℝ)) (hA : Spread (endsOf S ++ B) S)
    (hd : ∀ s ∈ S, s.a ≠ s.b) (hov : NoOverlap S) (htwo : ∀ y, passing S y ≤ 2) (depth : Stroke U → ℕ)
    (hdepth : ∀ s ∈ S, ∀ s' ∈ S, s.Within s'.a ∨ s.Within s'.b → depth s < depth s') :
    ∀ S' : List (Stroke U), S'.Perm S → S'.Pairwise (fun s s' => depth s ≤ depth s') → DrawsPlanar (drawReqs t S' B) := by
  intro S' hp hsort
  have hP : ∀ x, x ∈ endsOf S ++ B ↔ x ∈ endsOf S' ++ B := by
    intro x
    rw [List.mem_append, List.mem_append, mem_endsOf_perm hp]
  obtain ⟨g, ids, h1, h2, _⟩ := C155_draw t S' B (hA.congr hP fun s => hp.mem_iff.symm)
    (fun s hs => hd s (hp.mem_iff.1 hs)) (hov.perm hp.symm)
    (hsort.imp_of_mem fun {s s'} hs hs' hle =>
      ⟨fun hw => absurd (hdepth s' (hp.mem_iff.1 hs') s (hp.mem_iff.1 hs) (Or.inl hw)) (by omega),
        fun hw => absurd (hdepth s' (hp.mem_iff.1 hs') s (hp.mem_iff.1 hs) (Or.inr hw)) (by omega)⟩)
    (fun y => by rw [passing_perm hp]; exact htwo y)
  exact ⟨g, ids, h1, h2⟩

/-- three segments through (1, 0) -/
def starStrokes : List (Stroke ℕ) := [⟨(0, 0), (2, 0), 10⟩, ⟨(1, -1), (1, 1), 20⟩, ⟨(0, -1), (2, 1), 30⟩]

theorem starStrokes_spread : Spread (endsOf starStrokes ++ []) starStrokes :=
  (star_spread.mono (P := points starReq) (fun _ hx => hx) (fun _ hs => List.mem_of_mem_dropLast hs) :
    Spread (points starReq) (strokes [] starReq.dropLast))

/-- no requests draw three segments through a point -/
example : ¬ ∃ rs : List (Req ℕ ℕ), Known 0 rs ∧ (strokes [] rs).Perm starStrokes ∧
    (∀ x, x ∈ points rs ↔ x ∈ endsOf starStrokes ++ []) ∧ DrawsPlanar rs := by
  rw [C156_exact starStrokes [] starStrokes_spread (by norm_num [starStrokes]) (by norm_num [starStrokes, NoOverlap, crs])]
  rintro ⟨S', hp, hf⟩
  have hw : ∀ s ∈ S', s.Within ((1, 0) : ℝ × ℝ) := by
    intro s hs
    have := hp.mem_iff.1 hs
    simp only [starStrokes, List.mem_cons, List.not_mem_nil, or_false] at this
    rcases this with rfl | rfl | rfl <;>
      exact ⟨⟨1 / 2, by norm_num, by norm_num, by norm_num⟩, by norm_num, by norm_num⟩
  obtain ⟨a, b, c, rfl⟩ := List.length_eq_three.1 (hp.length_eq.trans rfl)
  have h := hf (1, 0) [a, b] c [] rfl (hw c (by simp))
  rw [through_cons_on (hw a (by simp)).1, through_cons_on (hw b (by simp)).1] at h
  omega

/-- three segments of which two end on the third can be drawn -/
example : ∃ rs : List (Req Unit ℕ), Known 0 rs ∧ (strokes [] rs).Perm teeStrokes ∧
    (∀ x, x ∈ points rs ↔ x ∈ endsOf teeStrokes ++ []) ∧ DrawsPlanar rs :=
  ⟨drawReqs () teeStrokes [], draw_known _ _ _, by rw [draw_strokes], fun x => by rw [draw_points], tee_planar⟩

/-- and in that order the long segment is among the first two -/
example : FirstTwo teeStrokes := by
  have h := C156_order _ (draw_known _ _ _) (by rw [draw_points, draw_strokes]; exact tee_spread) (by rw [draw_strokes]; simp [teeStrokes])
    (by rw [draw_strokes]; exact tee_overlap) tee_planar
  rwa [draw_strokes] at h

/-- two segments whose crossing is requested before them: the same drawing when it is requested after them -/
example : DrawsPlanar (drawReqs 0 (strokes [] centreReq) (points centreReq)) := by
  obtain ⟨g, ids, h, hp, _⟩ := C151_planar centreReq (by simp [centreReq, Known]) centre_spread
    (by rw [centre_strokes]; norm_num) (by rw [centre_strokes]; norm_num [NoOverlap, crs])
  exact (C156_best 0 centreReq (by simp [centreReq, Known]) centre_spread (by rw [centre_strokes]; norm_num)
    (by rw [centre_strokes]; norm_num [NoOverlap, crs]) ⟨g, ids, h, hp.2 centre_phase⟩).1

/-- the tee is drawn from the long segment on: depth 0 for it, depth 1 for the segments that end on it -/
example : DrawsPlanar (drawReqs () teeStrokes []) := by
  refine C156_sorted () teeStrokes [] tee_spread (by simp [teeStrokes]) tee_overlap tee_two (fun s => if s.c = 10 then 0 else 1) ?_
    teeStrokes (List.Perm.refl _) (by simp [teeStrokes])
  have hlong : ¬ (⟨(0, 0), (2, 0), 10⟩ : Stroke ℕ).Within (1, 1) ∧ ¬ (⟨(0, 0), (2, 0), 10⟩ : Stroke ℕ).Within (1, -1) := by
    constructor <;>
    · rintro ⟨⟨t, _, _, h⟩, _⟩
      have := congrArg Prod.snd h
      norm_num at this
  intro s hs s' hs' hw
  simp only [teeStrokes, List.mem_cons, List.not_mem_nil, or_false] at hs hs'
  rcases hs with rfl | rfl | rfl
  · rcases hs' with rfl | rfl | rfl
    · rcases hw with hw | hw
      exacts [absurd rfl hw.2.1, absurd rfl hw.2.2]
    · norm_num
    · norm_num
  · exfalso
    rcases hs' with rfl | rfl | rfl <;> rcases hw with hw | hw <;> first | exact hw.2.1 rfl | exact hw.2.2 rfl | (have := tee_up _ hw; norm_num at this)
  · exfalso
    rcases hs' with rfl | rfl | rfl <;> rcases hw with hw | hw <;> first | exact hw.2.1 rfl | exact hw.2.2 rfl | (have := tee_down _ hw; norm_num at this)

/-- two segments, and points on them: every order is right -/
example (S' : List (Stroke ℕ)) (hS' : S'.Perm (strokes [] centreReq)) : DrawsPlanar (drawReqs 0 S' (points centreReq)) := by
  refine (C156_every_order 0 (strokes [] centreReq) (points centreReq) ?_ (by rw [centre_strokes]; norm_num)
    (by rw [centre_strokes]; norm_num [NoOverlap, crs])).2 ?_ S' hS'
  · have hP := redraw_points 0 centreReq (by simp [centreReq, Known])
    rw [draw_points] at hP
    exact centre_spread.congr hP fun _ => Iff.rfl
  · intro y _
    exact (List.length_filter_le _ _).trans (by simp [centre_strokes])

end

end Kami.Graph
