import Verif.Graph.Arrangement
import Verif.Graph.DrawingExact
/-!
# C149: what a sequence of requests draws, without general position

C102 needs general position: no segment through a requested point, no three segments through a point, no segment along another.
Crease patterns are full of these.  The graph is not the arrangement of the segments then (C60), but the set of points drawn is
right as long as the points and crossings are clear up to the tolerance.
-/

set_option autoImplicit false

namespace Kami.Graph

open Kami
open scoped Kami
open PlanarGraph
open Kami.UtilThm (dst crs dt OnSegR)

variable {T U : Type}

noncomputable section

/-! ## Specification -/

/-- segments refer to points requested before (`n` counts the points) -/
def Known : ℕ → List (Req T U) → Prop
  | _, [] => True
  | n, .point _ _ :: rs => Known (n + 1) rs
  | n, .seg i j _ :: rs => i < n ∧ j < n ∧ Known n rs

/-- two segments that are not parallel meet in `y` -/
def CrossAt (S : List (Stroke U)) (y : ℝ × ℝ) : Prop :=
  ∃ s ∈ S, ∃ s' ∈ S, crs s.a s.b s'.a s'.b ≠ 0 ∧ s.On y ∧ s'.On y

/-- the requested points and the points where segments cross -/
def Spot (P : List (ℝ × ℝ)) (S : List (Stroke U)) (y : ℝ × ℝ) : Prop := y ∈ P ∨ CrossAt S y

/-- Points and crossings are clear up to the tolerance: farther than epsilon from each other if they are different, and outside the
tolerance ellipse of every segment they are not on.  A segment may pass through points and crossings, run along other
segments, be requested twice, or be a point. -/
structure Spread (P : List (ℝ × ℝ)) (S : List (Stroke U)) : Prop where
  sep : ∀ x y, Spot P S x → Spot P S y → x ≠ y → XReal.epsR < dst x y
  clear : ∀ x, Spot P S x → ∀ s ∈ S, ¬ s.On x → dst s.a s.b + XReal.epsR ≤ dst s.a x + dst x s.b

/-- parallel segments meet only in their ends -/
def NoOverlap (S : List (Stroke U)) : Prop :=
  S.Pairwise fun s s' => crs s.a s.b s'.a s'.b = 0 → ∀ y, s.On y → s'.On y → y = s.a ∨ y = s.b ∨ y = s'.a ∨ y = s'.b

/-- `y` is inside a segment requested after two other segments through `y`, the three in different directions -/
def Pierced (S : List (Stroke U)) (y : ℝ × ℝ) : Prop :=
  ∃ l s l', S = l ++ s :: l' ∧ s.On y ∧ y ≠ s.a ∧ y ≠ s.b ∧ ∃ s1 ∈ l, ∃ s2 ∈ l, s1.On y ∧ s2.On y ∧
    crs s1.a s1.b s2.a s2.b ≠ 0 ∧ crs s1.a s1.b s.a s.b ≠ 0 ∧ crs s2.a s2.b s.a s.b ≠ 0

/-- the first request for the point `x` comes with `t` -/
def FirstFor (P : List ((ℝ × ℝ) × T)) (x : ℝ × ℝ) (t : T) : Prop :=
  ∃ l l', P = l ++ (x, t) :: l' ∧ ∀ p ∈ l, p.1 ≠ x

/-! ## Steps -/

theorem crs_part {A B a b c d : ℝ × ℝ} (ha : OnSegR A B a) (hb : OnSegR A B b) (h : crs a b c d ≠ 0) : crs A B c d ≠ 0 := by
  obtain ⟨t, _, _, rfl⟩ := ha
  obtain ⟨u, _, _, rfl⟩ := hb
  intro h0
  apply h
  have : crs (A.1 + t * (B.1 - A.1), A.2 + t * (B.2 - A.2)) (A.1 + u * (B.1 - A.1), A.2 + u * (B.2 - A.2)) c d =
      (u - t) * crs A B c d := by
    unfold crs; ring
  rw [this, h0, mul_zero]

theorem crs_inside {A B a b : ℝ × ℝ} (ha : OnSegR A B a) (hb : OnSegR A B b) : crs A B a b = 0 := by
  obtain ⟨t, _, _, rfl⟩ := ha
  obtain ⟨u, _, _, rfl⟩ := hb
  unfold crs; ring

/-- a part that is not a point has the direction of the segment -/
theorem crs_whole {A B a b c d : ℝ × ℝ} (ha : OnSegR A B a) (hb : OnSegR A B b) (hne : a ≠ b) (h : crs a b c d = 0) :
    crs A B c d = 0 := by
  obtain ⟨t, _, _, rfl⟩ := ha
  obtain ⟨u, _, _, rfl⟩ := hb
  have : crs (A.1 + t * (B.1 - A.1), A.2 + t * (B.2 - A.2)) (A.1 + u * (B.1 - A.1), A.2 + u * (B.2 - A.2)) c d =
      (u - t) * crs A B c d := by
    unfold crs; ring
  rw [this] at h
  rcases mul_eq_zero.1 h with h | h
  · exact absurd (by rw [sub_eq_zero.1 h]) hne
  · exact h

/-- parts of a segment are parallel -/
theorem crs_both {A B a b c d : ℝ × ℝ} (ha : OnSegR A B a) (hb : OnSegR A B b) (hc : OnSegR A B c) (hd : OnSegR A B d) :
    crs a b c d = 0 := by
  obtain ⟨t, _, _, rfl⟩ := ha
  obtain ⟨u, _, _, rfl⟩ := hb
  obtain ⟨v, _, _, rfl⟩ := hc
  obtain ⟨w, _, _, rfl⟩ := hd
  unfold crs; ring

/-- segments parallel to a third are parallel -/
theorem crs_trans {A B a b c d : ℝ × ℝ} (hne : c ≠ d) (h1 : crs A B c d = 0) (h2 : crs a b c d = 0) : crs A B a b = 0 := by
  unfold crs at *
  by_contra h
  apply hne
  have e1 : (d.1 - c.1) * ((B.1 - A.1) * (b.2 - a.2) - (b.1 - a.1) * (B.2 - A.2)) = 0 := by
    linear_combination (b.1 - a.1) * h1 - (B.1 - A.1) * h2
  have e2 : (d.2 - c.2) * ((B.1 - A.1) * (b.2 - a.2) - (b.1 - a.1) * (B.2 - A.2)) = 0 := by
    linear_combination (b.2 - a.2) * h1 - (B.2 - A.2) * h2
  have f1 := (mul_eq_zero.1 e1).resolve_right h
  have f2 := (mul_eq_zero.1 e2).resolve_right h
  ext <;> linarith

/-- away from the cuts, the inside of an edge stays inside an edge -/
theorem CutUp.inside {bs : List (Edge U)} {p0 pos : ℕ → ℝ × ℝ} {n0 : ℕ} {M R X : ℝ × ℝ → Prop} {g : PlanarGraph XReal T U} {org : ℕ → ℕ}
    (h : CutUp bs p0 n0 M R X g pos org) {k : ℕ} {b : Edge U} (hb : bs[k]? = some b) {y : ℝ × ℝ} (hy : OnSegR (p0 b.src) (p0 b.dst) y)
    (h1 : y ≠ p0 b.src) (h2 : y ≠ p0 b.dst) (hX : ¬ X y) : ∃ f ∈ g.edges, OnEdge (place g) f y ∧ y ≠ place g f.src ∧ y ≠ place g f.dst := by
  obtain ⟨K, f, hf, hK, hyf⟩ := h.cover k b hb y hy
  obtain ⟨b', hb', hends⟩ := h.origin K f hf
  rw [hK, hb] at hb'
  cases hb'
  have hm := List.mem_of_getElem? hf
  have key : ∀ i, IsEnd f i → y ≠ pos i := by
    rintro i hi rfl
    rcases (hends i hi).2 with q | q | q
    · exact h1 q
    · exact h2 q
    · exact hX q
  refine ⟨f, hm, (onEdge_place h.wf h.drawn hm y).2 hyf, ?_, ?_⟩
  · rw [place_of_drawn h.drawn (h.wf f hm).1]; exact key _ (Or.inl rfl)
  · rw [place_of_drawn h.drawn (h.wf f hm).2]; exact key _ (Or.inr rfl)

theorem FirstFor.mem {P : List ((ℝ × ℝ) × T)} {x : ℝ × ℝ} {t : T} (h : FirstFor P x t) : x ∈ P.map Prod.fst := by
  obtain ⟨l, l', rfl, _⟩ := h
  simp

theorem FirstFor.append {P : List ((ℝ × ℝ) × T)} {x : ℝ × ℝ} {t : T} (h : FirstFor P x t) (Q : List ((ℝ × ℝ) × T)) :
    FirstFor (P ++ Q) x t := by
  obtain ⟨l, l', rfl, h⟩ := h
  exact ⟨l, l' ++ Q, by simp, h⟩

theorem CrossAt.mono {S S' : List (Stroke U)} {y : ℝ × ℝ} (h : CrossAt S y) (hs : ∀ s ∈ S, s ∈ S') : CrossAt S' y := by
  obtain ⟨s, h1, s', h2, h3⟩ := h
  exact ⟨s, hs s h1, s', hs s' h2, h3⟩

/-- what `add_node` of a clear point does: the node is appended, and the edges are cut at it -/
theorem addNode_cut {g : PlanarGraph XReal T U} (hwf : WF g) (hdr : Drawn g (place g))
    (hinj : ∀ i j, i < g.nodes.length → j < g.nodes.length → place g i = place g j → i = j) {x : ℝ × ℝ} (hx : ClearPoint g x)
    (t : T) {R : ℝ × ℝ → Prop} (hRx : R x) (hRn : ∀ i, i < g.nodes.length → R (place g i))
    (hRm : ∀ (k l : ℕ) (e f : Edge U), g.edges[k]? = some e → g.edges[l]? = some f → k ≠ l →
      ∀ y, OnEdge (place g) e y → OnEdge (place g) f y → R y) :
    ∃ r pos' org, g.addNode (pt x) t = .ok (addNodeG g (pt x) t, (g.nodes.length, r)) ∧
      (addNodeG g (pt x) t).nodes = g.nodes ++ [⟨pt x, t, ""⟩] ∧
      CutUp g.edges (place g) g.nodes.length (fun y => y = x) R (fun y => False ∨ y = x)
        (addNodeG g (pt x) t) pos' org := by
  have heps := XReal.epsR_pos
  have hn := not_near_of_far hdr hx.1
  have hok := addNode_ok g hwf (pt x) t
  rw [if_neg (by rw [hn]; decide)] at hok
  have he : addNodeG g (pt x) t = splitAt (pushNode g (pt x) t) g.nodes.length := by
    unfold addNodeG; rw [if_neg (by rw [hn]; decide)]
  have hne : ∀ i, i < g.nodes.length → x ≠ place g i := by
    intro i hi hc
    have := hx.1 i hi
    rw [← hc, UtilThm.dst_eq_zero.2 rfl] at this
    linarith
  have h0 : CutUp g.edges (place g) g.nodes.length (fun y => y = x) R (fun _ => False) g (place g) id := by
    refine ⟨hwf, hdr, hinj, le_refl _, fun _ _ => rfl, ?_, fun k l e f he hf hkl y h1 h2 => Or.inr ⟨hRm k l e f he hf hkl y h1 h2, id⟩,
      fun _ _ i hi _ => Or.inr ⟨hRn i hi, id⟩, fun k b hb y hy => ⟨k, b, hb, rfl, hy⟩, fun _ h => h.elim, ?_, ?_⟩
    · intro K f hf
      refine ⟨f, hf, ?_⟩
      rintro i (rfl | rfl)
      · exact ⟨onSeg_left _ _, Or.inl rfl⟩
      · exact ⟨onSeg_right _ _, Or.inr (Or.inl rfl)⟩
    · rintro y rfl i hi _
      exact hx.1 i hi
    · intro K f b hf hb
      rw [id, hf] at hb
      cases hb
      rfl
  have h1 := h0.push (x := x) hRx (fun y hy hc => absurd hy hc) hne t
  have hlen : (pushNode g (pt x) t).nodes.length = g.nodes.length + 1 := by simp [pushNode]
  have hup : Function.update (place g) g.nodes.length x g.nodes.length = x := Function.update_self ..
  have h2 := h1.split (i := g.nodes.length) (by omega) hup (by
    rw [hup]
    intro b hb hlt
    by_contra hc
    have := hx.2 b hb hc
    linarith)
  rw [hup, ← he] at h2
  exact ⟨_, _, _, hok, by rw [he]; rfl, h2⟩

/-- the graph after the points `P0` and the segments `S0` -/
structure Sketch [Inhabited T] (P0 : List ((ℝ × ℝ) × T)) (S0 : List (Stroke U)) (g : PlanarGraph XReal T U)
    (ids : List ℕ) : Prop where
  wf : WF g
  drawn : Drawn g (place g)
  inj : ∀ i j, i < g.nodes.length → j < g.nodes.length → place g i = place g j → i = j
  ids_length : ids.length = P0.length
  ids_at : ∀ (k : ℕ) (x : ℝ × ℝ) (t : T), P0[k]? = some (x, t) → ∃ i, ids[k]? = some i ∧ i < g.nodes.length ∧ place g i = x
  nodes : ∀ i a, g.nodes[i]? = some a → a.label = "" ∧
    (FirstFor P0 (place g i) a.data ∨ (CrossAt S0 (place g i) ∧ a.data = default))
  piece : ∀ e ∈ g.edges, ∃ s ∈ S0, e.data = s.c ∧ s.On (place g e.src) ∧ s.On (place g e.dst)
  cover : ∀ s ∈ S0, ∃ s' ∈ S0, s'.On s.a ∧ s'.On s.b ∧ ∀ y, s.On y → ∃ e ∈ g.edges, e.data = s'.c ∧
    s'.On (place g e.src) ∧ s'.On (place g e.dst) ∧ OnEdge (place g) e y
  ends : ∀ s ∈ S0, s.a ∈ P0.map Prod.fst ∧ s.b ∈ P0.map Prod.fst
  met : NoOverlap S0 → ∀ y, CrossAt S0 y → ∃ i, i < g.nodes.length ∧ y = place g i
  tidy : NoOverlap S0 → ∀ (k l : ℕ) (e f : Edge U), g.edges[k]? = some e → g.edges[l]? = some f → k ≠ l →
    ∀ y, OnEdge (place g) e y → OnEdge (place g) f y → ∃ i, i < g.nodes.length ∧ y = place g i
  noloop : (∀ s ∈ S0, s.a ≠ s.b) → LoopFree g
  stuck : NoOverlap S0 → (∀ s ∈ S0, s.a ≠ s.b) → ∀ y, Pierced S0 y →
    ∃ e ∈ g.edges, OnEdge (place g) e y ∧ y ≠ place g e.src ∧ y ≠ place g e.dst

theorem Pierced.cross {S : List (Stroke U)} {y : ℝ × ℝ} (h : Pierced S y) : CrossAt S y := by
  obtain ⟨l, s, l', rfl, _, _, _, s1, h1, s2, h2, o1, o2, hne, _⟩ := h
  exact ⟨s1, List.mem_append_left _ h1, s2, List.mem_append_left _ h2, hne, o1, o2⟩

section Steps
variable [Inhabited T] {P : List (ℝ × ℝ)} {S S0 : List (Stroke U)} {P0 : List ((ℝ × ℝ) × T)} {g : PlanarGraph XReal T U}
  {ids : List ℕ}

theorem Sketch.spot (h : Sketch P0 S0 g ids) (hP : ∀ x ∈ P0.map Prod.fst, x ∈ P) (hS : ∀ s ∈ S0, s ∈ S) {i : ℕ}
    (hi : i < g.nodes.length) : Spot P S (place g i) := by
  rcases (h.nodes i _ (List.getElem?_eq_getElem hi)).2 with h1 | ⟨h1, _⟩
  · exact Or.inl (hP _ h1.mem)
  · exact Or.inr (h1.mono hS)

/-- points and crossings that are not on an edge are outside its tolerance ellipse -/
theorem Sketch.off (h : Sketch P0 S0 g ids) (hA : Spread P S) (hP : ∀ x ∈ P0.map Prod.fst, x ∈ P) (hS : ∀ s ∈ S0, s ∈ S)
    {x : ℝ × ℝ} (hx : Spot P S x) : ∀ e ∈ g.edges, ¬ OnEdge (place g) e x →
      dst (place g e.src) (place g e.dst) + XReal.epsR ≤ dst (place g e.src) x + dst x (place g e.dst) := by
  intro e he hn
  obtain ⟨s, hs, _, p1, p2⟩ := h.piece e he
  obtain ⟨w1, w2⟩ := h.wf e he
  by_cases hon : s.On x
  · refine outside_part p1 p2 hon hn (hA.sep _ _ hx (h.spot hP hS w1) ?_) (hA.sep _ _ hx (h.spot hP hS w2) ?_)
    · rintro rfl; exact hn (onSeg_left _ _)
    · rintro rfl; exact hn (onSeg_right _ _)
  · by_contra hc
    push Not at hc
    have h1 := ellipse_part p1 p2 hc
    have h2 := hA.clear x hx s (hS s hs) hon
    linarith

/-- through every point of a requested segment there is an edge in its direction -/
theorem Sketch.edge_of (h : Sketch P0 S0 g ids) (hd : ∀ s ∈ S0, s.a ≠ s.b) {s : Stroke U} (hs : s ∈ S0) {y : ℝ × ℝ} (hy : s.On y) :
    ∃ (k : ℕ) (e : Edge U), g.edges[k]? = some e ∧ OnEdge (place g) e y ∧
      crs (place g e.src) (place g e.dst) s.a s.b = 0 ∧
      ∀ c d, crs s.a s.b c d ≠ 0 → crs (place g e.src) (place g e.dst) c d ≠ 0 := by
  obtain ⟨s', hs', o1, o2, hco⟩ := h.cover s hs
  obtain ⟨e, he, _, p1, p2, hon⟩ := hco y hy
  obtain ⟨k, hk⟩ := List.mem_iff_getElem?.1 he
  obtain ⟨w1, w2⟩ := h.wf e he
  refine ⟨k, e, hk, hon, crs_both p1 p2 o1 o2, ?_⟩
  intro c d hne h0
  exact crs_part o1 o2 hne (crs_whole p1 p2 (fun hc => h.noloop hd e he (h.inj _ _ w1 w2 hc)) h0)

/-- a point on two requested segments in different directions is cut from more than one edge -/
theorem Sketch.two_cuts (h : Sketch P0 S0 g ids) (hd : ∀ s ∈ S0, s.a ≠ s.b) {s1 s2 : Stroke U} (h1 : s1 ∈ S0) (h2 : s2 ∈ S0) {y : ℝ × ℝ}
    (o1 : s1.On y) (o2 : s2.On y) {a b : ℕ} {A B : ℝ × ℝ} (pa : place g a = A) (pb : place g b = B) (hy : OnSegR A B y)
    (hne : crs s1.a s1.b s2.a s2.b ≠ 0) (hn1 : crs s1.a s1.b A B ≠ 0)
    (hn2 : crs s2.a s2.b A B ≠ 0) : ¬ ∃ (k : ℕ) (e : Edge U), g.edges[k]? = some e ∧ Cuts (place g) a b e y ∧
        ∀ (k' : ℕ) (e' : Edge U), g.edges[k']? = some e' → Cuts (place g) a b e' y → k' = k := by
  rintro ⟨k, _, _, _, huniq⟩
  obtain ⟨k1, e1, hk1, q1, _, r1⟩ := h.edge_of hd h1 o1
  obtain ⟨k2, e2, hk2, q2, z2, r2⟩ := h.edge_of hd h2 o2
  have c1 := huniq k1 e1 hk1 ⟨by rw [pa, pb]; exact r1 _ _ hn1, q1, by rw [pa, pb]; exact hy⟩
  have c2 := huniq k2 e2 hk2 ⟨by rw [pa, pb]; exact r2 _ _ hn2, q2, by rw [pa, pb]; exact hy⟩
  subst c1
  subst c2
  rw [hk1] at hk2
  cases hk2
  exact r1 _ _ hne z2

/-- a point request -/
theorem Sketch.point (h : Sketch P0 S0 g ids) (hA : Spread P S) (hP : ∀ x ∈ P0.map Prod.fst, x ∈ P)
    (hS : ∀ s ∈ S0, s ∈ S) {x : ℝ × ℝ} {t : T} (hx : x ∈ P) :
    ∃ g' r, g.addNode (pt x) t = .ok (g', r) ∧ Sketch (P0 ++ [(x, t)]) S0 g' (ids ++ [r.1]) := by
  have heps := XReal.epsR_pos
  have hends : ∀ s ∈ S0, s.a ∈ (P0 ++ [(x, t)]).map Prod.fst ∧ s.b ∈ (P0 ++ [(x, t)]).map Prod.fst := by
    intro s hs
    obtain ⟨q1, q2⟩ := h.ends s hs
    rw [List.map_append]
    exact ⟨List.mem_append_left _ q1, List.mem_append_left _ q2⟩
  have happ : ∀ {g' : PlanarGraph XReal T U} {n : ℕ}, (∀ i, i < g.nodes.length → i < g'.nodes.length ∧ place g' i = place g i) →
      n < g'.nodes.length → place g' n = x → ∀ (k : ℕ) (x' : ℝ × ℝ) (t' : T), (P0 ++ [(x, t)])[k]? = some (x', t') →
        ∃ i, (ids ++ [n])[k]? = some i ∧ i < g'.nodes.length ∧ place g' i = x' := by
    intro g' n hpos hn hp k x' t' hk
    by_cases hlt : k < P0.length
    · rw [List.getElem?_append_left hlt] at hk
      obtain ⟨i, h1, h2, h3⟩ := h.ids_at k x' t' hk
      exact ⟨i, by rw [List.getElem?_append_left (by rw [h.ids_length]; exact hlt)]; exact h1, (hpos i h2).1, by rw [(hpos i h2).2]; exact h3⟩
    · have hk' := (List.getElem?_eq_some_iff.1 hk).1
      simp only [List.length_append, List.length_singleton] at hk'
      have : k = P0.length := by omega
      subst this
      simp at hk
      obtain ⟨rfl, rfl⟩ := hk
      exact ⟨n, by rw [← h.ids_length]; simp, hn, hp⟩
  by_cases hex : ∃ i, i < g.nodes.length ∧ place g i = x
  · -- there is a node already
    obtain ⟨i, hi, hpi⟩ := hex
    have hnear := near_of_close h.drawn (x := x) hi (by rw [hpi, UtilThm.dst_eq_zero.2 rfl]; exact heps)
    have hok := addNode_ok g h.wf (pt x) t
    rw [if_pos hnear] at hok
    have he : addNodeG g (pt x) t = g := by unfold addNodeG; rw [if_pos hnear]
    rw [he] at hok
    obtain ⟨a, h1, h2, _⟩ := (nearest_spec g (pt x)).1 hnear
    have hlt := (List.getElem?_eq_some_iff.1 h1).1
    have hpl : place g (nearest g (pt x)).1 = x := by
      by_contra hc
      have h3 := hA.sep _ _ (Or.inl hx) (h.spot hP hS hlt) (Ne.symm hc)
      rw [h2, h.drawn _ _ h1, UtilThm.distance_pt, XReal.eps_def, XReal.fin_lt] at hnear
      simp only [decide_eq_true_eq] at hnear
      linarith
    refine ⟨g, _, hok, h.wf, h.drawn, h.inj, by simp [h.ids_length], happ (fun i hi => ⟨hi, rfl⟩) hlt hpl, ?_, h.piece, h.cover, hends, h.met, h.tidy, h.noloop, h.stuck⟩
    intro i a ha
    obtain ⟨q1, q2⟩ := h.nodes i a ha
    exact ⟨q1, q2.imp_left fun hq => hq.append _⟩
  · have hne : ∀ i, i < g.nodes.length → x ≠ place g i := fun i hi hc => hex ⟨i, hi, hc.symm⟩
    have hclear : ClearPoint g x :=
      ⟨fun i hi => hA.sep _ _ (Or.inl hx) (h.spot hP hS hi) (hne i hi), h.off hA hP hS (Or.inl hx)⟩
    obtain ⟨r, pos', org, hok, hn, hcut⟩ := addNode_cut h.wf h.drawn h.inj hclear t
      (R := fun y => NoOverlap S0 → (∃ i, i < g.nodes.length ∧ y = place g i) ∨ y = x) (fun _ => Or.inr rfl)
      (fun i hi _ => Or.inl ⟨i, hi, rfl⟩) (fun k l e f he hf hkl y h1 h2 hov => Or.inl (h.tidy hov k l e f he hf hkl y h1 h2))
    refine ⟨_, _, hok, ?_⟩
    generalize addNodeG g (pt x) t = g' at *
    have hlen : g'.nodes.length = g.nodes.length + 1 := by rw [hn]; simp
    have hget : ∀ i, i < g.nodes.length → g'.nodes[i]? = g.nodes[i]? := by
      intro i hi; rw [hn, List.getElem?_append_left hi]
    have hpos : ∀ i, i < g.nodes.length → place g' i = place g i := by
      intro i hi; unfold place; rw [hget i hi]
    have hlast : g'.nodes[g.nodes.length]? = some ⟨pt x, t, ""⟩ := by rw [hn]; simp
    refine ⟨hcut.wf, hcut.drawn.place, ?_, by simp [h.ids_length], happ (fun i hi => ⟨by omega, hpos i hi⟩) (by omega) (place_get hlast),
      ?_, ?_, ?_, hends, ?_, ?_, fun hd => addNode_loopFree h.wf (h.noloop hd) hok, ?_⟩
    · intro i j hi hj hij
      rw [place_of_drawn hcut.drawn hi, place_of_drawn hcut.drawn hj] at hij
      exact hcut.inj i j hi hj hij
    · intro i a ha
      by_cases hlt : i < g.nodes.length
      · rw [hget i hlt] at ha
        rw [hpos i hlt]
        obtain ⟨q1, q2⟩ := h.nodes i a ha
        exact ⟨q1, q2.imp_left fun hq => hq.append _⟩
      · have := (List.getElem?_eq_some_iff.1 ha).1
        have : i = g.nodes.length := by omega
        subst this
        rw [place_get hlast]
        rw [hlast] at ha
        cases ha
        refine ⟨rfl, Or.inl ⟨P0, [], rfl, ?_⟩⟩
        rintro ⟨x', t'⟩ hm rfl
        obtain ⟨k, hk⟩ := List.mem_iff_getElem?.1 hm
        obtain ⟨i, _, hi, hp⟩ := h.ids_at k _ _ hk
        exact hne i hi hp.symm
    · intro f hf
      obtain ⟨K, hK⟩ := List.mem_iff_getElem?.1 hf
      obtain ⟨b, hb, hends⟩ := hcut.origin K f hK
      obtain ⟨w1, w2⟩ := hcut.wf f hf
      obtain ⟨s, hs, hc, s1, s2⟩ := h.piece b (List.mem_of_getElem? hb)
      refine ⟨s, hs, by rw [hcut.data K f b hK hb, hc], ?_, ?_⟩
      · rw [place_of_drawn hcut.drawn w1]; exact onSeg_sub s1 s2 (hends _ (Or.inl rfl)).1
      · rw [place_of_drawn hcut.drawn w2]; exact onSeg_sub s1 s2 (hends _ (Or.inr rfl)).1
    · intro s hs
      obtain ⟨s', hs', o1, o2, hcov⟩ := h.cover s hs
      refine ⟨s', hs', o1, o2, ?_⟩
      intro y hy
      obtain ⟨e, he, hd, p1, p2, hon⟩ := hcov y hy
      obtain ⟨k, hk⟩ := List.mem_iff_getElem?.1 he
      obtain ⟨K, f, hf, hK, hyf⟩ := hcut.cover k e hk y hon
      have hfm := List.mem_of_getElem? hf
      obtain ⟨b, hb, hbe⟩ := hcut.origin K f hf
      rw [hK, hk] at hb
      cases hb
      obtain ⟨w1, w2⟩ := hcut.wf f hfm
      refine ⟨f, hfm, by rw [hcut.data K f e hf (by rw [hK]; exact hk), hd], ?_, ?_, (onEdge_place hcut.wf hcut.drawn hfm y).2 hyf⟩
      · rw [place_of_drawn hcut.drawn w1]; exact onSeg_sub p1 p2 (hbe _ (Or.inl rfl)).1
      · rw [place_of_drawn hcut.drawn w2]; exact onSeg_sub p1 p2 (hbe _ (Or.inr rfl)).1
    · intro hov y hy
      obtain ⟨i, h1, h2⟩ := h.met hov y hy
      exact ⟨i, by omega, by rw [hpos i h1]; exact h2⟩
    · intro hov k l e f he hf hkl y hy hy'
      have he' := List.mem_of_getElem? he
      have hf' := List.mem_of_getElem? hf
      rw [onEdge_place hcut.wf hcut.drawn he'] at hy
      rw [onEdge_place hcut.wf hcut.drawn hf'] at hy'
      rcases hcut.meet k l e f he hf hkl y hy hy' with ⟨i, h1, _, rfl⟩ | ⟨h1, _⟩
      · have hi : i < g'.nodes.length := by
          rcases h1 with rfl | rfl
          · exact (hcut.wf e he').1
          · exact (hcut.wf e he').2
        exact ⟨i, hi, (place_of_drawn hcut.drawn hi).symm⟩
      · rcases h1 hov with ⟨i, hi, rfl⟩ | rfl
        · exact ⟨i, by omega, (hpos i hi).symm⟩
        · exact ⟨g.nodes.length, by omega, (place_get hlast).symm⟩
    · intro hov hd y hy
      obtain ⟨e, he, q1, q2, q3⟩ := h.stuck hov hd y hy
      obtain ⟨k, hk⟩ := List.mem_iff_getElem?.1 he
      obtain ⟨i, hi, hyi⟩ := h.met hov y hy.cross
      refine hcut.inside hk q1 q2 q3 ?_
      rintro (hc | rfl)
      · exact hc
      · exact hne i hi hyi

/-- a segment request -/
theorem Sketch.seg (h : Sketch P0 S0 g ids) (hA : Spread P S) (hP : ∀ x ∈ P0.map Prod.fst, x ∈ P)
    {s0 : Stroke U} {i j : ℕ} {t t' : T} (hS : ∀ s ∈ S0, s ∈ S) (hs0 : s0 ∈ S) (hi : P0[i]? = some (s0.a, t))
    (hj : P0[j]? = some (s0.b, t')) :
    ∃ a b g' r, ids[i]? = some a ∧ ids[j]? = some b ∧ g.addEdge a b s0.c = .ok (g', .ok r) ∧ Sketch P0 (S0 ++ [s0]) g' ids := by
  obtain ⟨a, hia, ha, pa⟩ := h.ids_at i _ _ hi
  obtain ⟨b, hjb, hb, pb⟩ := h.ids_at j _ _ hj
  have hsub : ∀ s ∈ S0, s ∈ S0 ++ [s0] := fun s hs => List.mem_append_left _ hs
  have hends0 : ∀ s ∈ S0 ++ [s0], s.a ∈ P0.map Prod.fst ∧ s.b ∈ P0.map Prod.fst := by
    intro s hs
    rcases List.mem_append.1 hs with hs | hs
    · exact h.ends s hs
    · rw [List.mem_singleton] at hs; subst hs
      exact ⟨List.mem_map.2 ⟨_, List.mem_of_getElem? hi, rfl⟩, List.mem_map.2 ⟨_, List.mem_of_getElem? hj, rfl⟩⟩
  have hnode : ∀ x ∈ P0.map Prod.fst, ∃ i, i < g.nodes.length ∧ x = place g i := by
    intro x hx
    obtain ⟨⟨x, t⟩, hm, rfl⟩ := List.mem_map.1 hx
    obtain ⟨k, hk⟩ := List.mem_iff_getElem?.1 hm
    obtain ⟨i, _, h1, h2⟩ := h.ids_at k x t hk
    exact ⟨i, h1, h2.symm⟩
  have hov0 : NoOverlap (S0 ++ [s0]) → NoOverlap S0 ∧ ∀ s ∈ S0, crs s.a s.b s0.a s0.b = 0 → ∀ y, s.On y → s0.On y →
      ∃ i, i < g.nodes.length ∧ y = place g i := by
    intro hov
    unfold NoOverlap at hov
    rw [List.pairwise_append] at hov
    refine ⟨hov.1, ?_⟩
    intro s hs h0 y h1 h2
    rcases hov.2.2 s hs s0 (by simp) h0 y h1 h2 with rfl | rfl | rfl | rfl
    · exact hnode _ (hends0 s (hsub s hs)).1
    · exact hnode _ (hends0 s (hsub s hs)).2
    · exact hnode _ (hends0 s0 (by simp)).1
    · exact hnode _ (hends0 s0 (by simp)).2
  have hcases : ∀ y, CrossAt (S0 ++ [s0]) y → CrossAt S0 y ∨ (s0.On y ∧ ∃ s ∈ S0, s.On y) := by
    rintro y ⟨s, hs, s', hs', hne, o1, o2⟩
    rcases List.mem_append.1 hs with q1 | q1 <;> rcases List.mem_append.1 hs' with q2 | q2
    · exact Or.inl ⟨s, q1, s', q2, hne, o1, o2⟩
    · rw [List.mem_singleton] at q2; subst q2; exact Or.inr ⟨o2, s, q1, o1⟩
    · rw [List.mem_singleton] at q1; subst q1; exact Or.inr ⟨o1, s', q2, o2⟩
    · rw [List.mem_singleton] at q1 q2; subst q1; subst q2
      exact absurd (by unfold crs; ring) hne
  have hpierce : ∀ y, Pierced (S0 ++ [s0]) y → Pierced S0 y ∨ (s0.On y ∧ y ≠ s0.a ∧ y ≠ s0.b ∧ ∃ s1 ∈ S0, ∃ s2 ∈ S0, s1.On y ∧ s2.On y ∧
      crs s1.a s1.b s2.a s2.b ≠ 0 ∧ crs s1.a s1.b s0.a s0.b ≠ 0 ∧ crs s2.a s2.b s0.a s0.b ≠ 0) := by
    rintro y ⟨l, s, l', hl, q⟩
    rcases List.eq_nil_or_concat l' with rfl | ⟨l2, z, rfl⟩
    · obtain ⟨rfl, hz⟩ := List.append_inj' hl rfl
      cases hz
      exact Or.inr q
    · rw [List.concat_eq_append, ← List.cons_append, ← List.append_assoc] at hl
      obtain ⟨rfl, _⟩ := List.append_inj' hl rfl
      exact Or.inl ⟨l, s, l2, rfl, q⟩
  by_cases hno : ∀ e ∈ g.edges, ¬ ((e.src = a ∧ e.dst = b) ∨ (e.src = b ∧ e.dst = a))
  rotate_left
  · -- there is an edge between the nodes already
    push Not at hno
    obtain ⟨f, hf, hends⟩ := hno
    have hyes : g.hasEdgeBetweenNodes a b = true := (hasEdge_iff ..).2 ⟨f, hf, hends⟩
    rcases addEdge_ok g h.wf a b s0.c with ⟨_, hok⟩ | ⟨h', _⟩ | ⟨h', _⟩
    rotate_left
    · rw [hyes] at h'; cases h'
    · rw [hyes] at h'; cases h'
    refine ⟨a, b, g, _, hia, hjb, hok, h.wf, h.drawn, h.inj, h.ids_length, h.ids_at, ?_, ?_, ?_, hends0, ?_,
      fun hov => h.tidy (hov0 hov).1, fun hd => h.noloop fun s hs => hd s (hsub s hs), ?_⟩
    · intro k n hk
      obtain ⟨q1, q2⟩ := h.nodes k n hk
      exact ⟨q1, q2.imp_right (And.imp_left fun hc => hc.mono hsub)⟩
    · intro e he
      obtain ⟨s, hs, q⟩ := h.piece e he
      exact ⟨s, hsub s hs, q⟩
    · intro s hs
      rcases List.mem_append.1 hs with hs | hs
      · obtain ⟨s', hs', q⟩ := h.cover s hs
        exact ⟨s', hsub s' hs', q⟩
      · rw [List.mem_singleton] at hs
        subst hs
        obtain ⟨s', hs', hc, p1, p2⟩ := h.piece f hf
        rcases hends with ⟨c1, c2⟩ | ⟨c1, c2⟩
        · rw [c1, pa] at p1; rw [c2, pb] at p2
          refine ⟨s', hsub s' hs', p1, p2, fun y hy => ⟨f, hf, hc, by rw [c1, pa]; exact p1, by rw [c2, pb]; exact p2, ?_⟩⟩
          unfold OnEdge; rw [c1, c2, pa, pb]; exact hy
        · rw [c1, pb] at p1; rw [c2, pa] at p2
          refine ⟨s', hsub s' hs', p2, p1, fun y hy => ⟨f, hf, hc, by rw [c1, pb]; exact p1, by rw [c2, pa]; exact p2, ?_⟩⟩
          unfold OnEdge; rw [c1, c2, pa, pb]; exact onSeg_symm hy
    · intro hov y hy
      rcases hcases y hy with hy | ⟨hy, _⟩
      · exact h.met (hov0 hov).1 y hy
      · obtain ⟨s', hs', _, p1, p2⟩ := h.piece f hf
        have hon : OnEdge (place g) f y := by
          rcases hends with ⟨c1, c2⟩ | ⟨c1, c2⟩
          · unfold OnEdge; rw [c1, c2, pa, pb]; exact hy
          · unfold OnEdge; rw [c1, c2, pa, pb]; exact onSeg_symm hy
        refine (hov0 hov).2 s' hs' ?_ y (onSeg_sub p1 p2 hon) hy
        rcases hends with ⟨c1, c2⟩ | ⟨c1, c2⟩
        · rw [c1, pa] at p1; rw [c2, pb] at p2
          exact crs_inside p1 p2
        · rw [c1, pb] at p1; rw [c2, pa] at p2
          exact crs_inside p2 p1
    · intro hov hd y hy
      rcases hpierce y hy with hy | ⟨o, n1, n2, _⟩
      · exact h.stuck (hov0 hov).1 (fun s hs => hd s (hsub s hs)) y hy
      · refine ⟨f, hf, ?_⟩
        unfold OnEdge
        rcases hends with ⟨c1, c2⟩ | ⟨c1, c2⟩
        · rw [c1, c2, pa, pb]; exact ⟨o, n1, n2⟩
        · rw [c1, c2, pa, pb]; exact ⟨onSeg_symm o, n2, n1⟩
  -- cuts are crossings
  have hcross : ∀ e ∈ g.edges, ∀ y, Cuts (place g) a b e y → CrossAt (S0 ++ [s0]) y ∧ Spot P S y := by
    rintro e he y ⟨h1, h2, h3⟩
    rw [pa, pb] at h1 h3
    obtain ⟨s, hs, _, p1, p2⟩ := h.piece e he
    have hne := crs_part p1 p2 h1
    have hys : s.On y := onSeg_sub p1 p2 h2
    exact ⟨⟨s, hsub s hs, s0, by simp, hne, hys, h3⟩, Or.inr ⟨s, hS s hs, s0, hs0, hne, hys, h3⟩⟩
  have hc : ClearCuts g (place g) a b := by
    refine ⟨?_, ?_, ?_⟩
    · intro e he y hy k hk hne
      exact hA.sep _ _ (hcross e he y hy).2 (h.spot hP hS hk) hne
    · intro e he e' he' y y' hy hy' hne
      exact hA.sep _ _ (hcross e he y hy).2 (hcross e' he' y' hy').2 hne
    · intro e he y hy u v huv hoff
      rcases huv with ⟨rfl, rfl⟩ | ⟨f, hf, rfl, rfl⟩
      · exact absurd hy.2.2 hoff
      · exact h.off hA hP hS (hcross e he y hy).2 f hf hoff
  obtain ⟨g1, r, pos', org, l, hok, hl, hdef, hcut⟩ := addEdge_cut h.wf h.drawn h.inj s0.c ha hb hno hc
    (R := fun y => NoOverlap (S0 ++ [s0]) → (∃ i, i < g.nodes.length ∧ y = place g i) ∨ Crossing g (place g) a b y)
    (fun y hy _ => Or.inr hy) (fun i hi _ => Or.inl ⟨i, hi, rfl⟩)
    (fun k l e f he hf hkl y h1 h2 hov => Or.inl (h.tidy (hov0 hov).1 k l e f he hf hkl y h1 h2))
  refine ⟨a, b, g1, r, hia, hjb, hok, ?_⟩
  have hlen : g.nodes.length ≤ g1.nodes.length := by rw [hl]; simp
  have hget : ∀ k, k < g.nodes.length → g1.nodes[k]? = g.nodes[k]? := by
    intro k hk; rw [hl, List.getElem?_append_left hk]
  have hpos : ∀ k, k < g.nodes.length → place g1 k = place g k := by
    intro k hk; unfold place; rw [hget k hk]
  -- without overlaps, all crossings are found
  have hfound : NoOverlap (S0 ++ [s0]) → ∀ y, Crossing g (place g) a b y →
      pt y ∈ Utils.uniquePointsAmong (meetPoints g ⟨a, b, s0.c, defaultLabel⟩) := by
    rintro hov y ⟨h1, ⟨e, he, h2⟩, h3⟩
    obtain ⟨k, hk⟩ := List.mem_iff_getElem?.1 he
    refine (found_iff h.wf h.drawn ha hb s0.c hc y).2 ⟨k, e, hk, ⟨?_, h2, h1⟩, ?_⟩
    · intro h0
      obtain ⟨s, hs, _, p1, p2⟩ := h.piece e he
      obtain ⟨w1, w2⟩ := h.wf e he
      have hne : place g e.src ≠ place g e.dst := by
        intro hc'
        unfold OnEdge at h2
        rw [← hc'] at h2
        obtain ⟨t, _, _, ht⟩ := h2
        exact h3 e.src w1 (by rw [ht]; ext <;> simp)
      rw [pa, pb] at h0 h1
      obtain ⟨i, hi, q⟩ := (hov0 hov).2 s hs (crs_whole p1 p2 hne h0) y (onSeg_sub p1 p2 h2) h1
      exact h3 i hi q
    · intro k' e' hk' hcu
      by_contra hkk
      obtain ⟨i, hi, q⟩ := h.tidy (hov0 hov).1 k' k e' e hk' hk hkk y hcu.2.1 h2
      exact h3 i hi q
  have hfnode : NoOverlap (S0 ++ [s0]) → ∀ y, Crossing g (place g) a b y → ∃ i, i < g1.nodes.length ∧ y = place g1 i := by
    intro hov y hy
    obtain ⟨i, h1, h2⟩ := hcut.xnode y (hfound hov y hy)
    exact ⟨i, h1, by rw [place_of_drawn hcut.drawn h1]; exact h2⟩
  refine ⟨hcut.wf, hcut.drawn.place, ?_, h.ids_length, ?_, ?_, ?_, ?_, hends0, ?_, ?_,
    fun hd => addEdge_loopFree h.wf (h.noloop fun s hs => hd s (hsub s hs)) (fun hc => hd s0 (by simp) (by rw [← pa, ← pb, hc])) hok, ?_⟩
  · intro i j hi hj hij
    rw [place_of_drawn hcut.drawn hi, place_of_drawn hcut.drawn hj] at hij
    exact hcut.inj i j hi hj hij
  · intro k x t hk
    obtain ⟨m, h1, h2, h3⟩ := h.ids_at k x t hk
    exact ⟨m, h1, by omega, by rw [hpos m h2]; exact h3⟩
  · intro k n hk
    by_cases hlt : k < g.nodes.length
    · rw [hget k hlt] at hk
      rw [hpos k hlt]
      obtain ⟨q1, q2⟩ := h.nodes k n hk
      exact ⟨q1, q2.imp_right (And.imp_left fun hc => hc.mono hsub)⟩
    · have hk' := hk
      rw [hl, List.getElem?_append_right (by omega)] at hk'
      obtain ⟨m1, m2, m3⟩ := hdef n (List.mem_of_getElem? hk')
      refine ⟨m3, Or.inr ⟨?_, m2⟩⟩
      rw [hcut.drawn.place k n hk] at m1
      obtain ⟨K, e, he, hcu, _⟩ := (found_iff h.wf h.drawn ha hb s0.c hc _).1 m1
      exact (hcross e (List.mem_of_getElem? he) _ hcu).1
  · intro f hf
    obtain ⟨K, hK⟩ := List.mem_iff_getElem?.1 hf
    obtain ⟨b', hb', hends⟩ := hcut.origin K f hK
    obtain ⟨w1, w2⟩ := hcut.wf f hf
    rw [place_of_drawn hcut.drawn w1, place_of_drawn hcut.drawn w2]
    have e1 := (hends _ (Or.inl rfl)).1
    have e2 := (hends _ (Or.inr rfl)).1
    have hdat := hcut.data K f b' hK hb'
    rcases List.mem_append.1 (List.mem_of_getElem? hb') with hm | hm
    · obtain ⟨s, hs, hc', s1, s2⟩ := h.piece b' hm
      exact ⟨s, hsub s hs, by rw [hdat, hc'], onSeg_sub s1 s2 e1, onSeg_sub s1 s2 e2⟩
    · rw [List.mem_singleton] at hm
      subst hm
      rw [pa, pb] at e1 e2
      exact ⟨s0, by simp, hdat, e1, e2⟩
  · have hcov : ∀ (k : ℕ) (b' : Edge U), (pushEdge g a b s0.c).edges[k]? = some b' → ∀ y, OnEdge (place g) b' y →
        ∃ e ∈ g1.edges, e.data = b'.data ∧ OnEdge (place g) b' (place g1 e.src) ∧ OnEdge (place g) b' (place g1 e.dst) ∧
          OnEdge (place g1) e y := by
      intro k b' hk y hy
      obtain ⟨K, f, hf, hK, hyf⟩ := hcut.cover k b' hk y hy
      have hfm := List.mem_of_getElem? hf
      obtain ⟨b2, hb2, hbe⟩ := hcut.origin K f hf
      rw [hK, hk] at hb2
      cases hb2
      obtain ⟨w1, w2⟩ := hcut.wf f hfm
      refine ⟨f, hfm, hcut.data K f b' hf (by rw [hK]; exact hk), ?_, ?_, (onEdge_place hcut.wf hcut.drawn hfm y).2 hyf⟩
      · rw [place_of_drawn hcut.drawn w1]; exact (hbe _ (Or.inl rfl)).1
      · rw [place_of_drawn hcut.drawn w2]; exact (hbe _ (Or.inr rfl)).1
    intro s hs
    rcases List.mem_append.1 hs with hs | hs
    · obtain ⟨s', hs', o1, o2, hco⟩ := h.cover s hs
      refine ⟨s', hsub s' hs', o1, o2, ?_⟩
      intro y hy
      obtain ⟨e, he, hd, p1, p2, hon⟩ := hco y hy
      obtain ⟨k, hk⟩ := List.mem_iff_getElem?.1 he
      have hkl := (List.getElem?_eq_some_iff.1 hk).1
      obtain ⟨f, q1, q2, z1, z2, q3⟩ := hcov k e (by simp only [pushEdge]; rw [List.getElem?_append_left hkl]; exact hk) y hon
      exact ⟨f, q1, by rw [q2, hd], onSeg_sub p1 p2 z1, onSeg_sub p1 p2 z2, q3⟩
    · rw [List.mem_singleton] at hs
      subst hs
      refine ⟨s, by simp, onSeg_left _ _, onSeg_right _ _, ?_⟩
      intro y hy
      have hq := hcov g.edges.length ⟨a, b, s.c, defaultLabel⟩ (by simp [pushEdge]) y (by unfold OnEdge; rw [pa, pb]; exact hy)
      unfold OnEdge at hq
      simp only [pa, pb] at hq
      exact hq
  · intro hov y hy
    by_cases hex : ∃ i, i < g.nodes.length ∧ y = place g i
    · obtain ⟨i, h1, h2⟩ := hex
      exact ⟨i, by omega, by rw [hpos i h1]; exact h2⟩
    rcases hcases y hy with hy | ⟨hy, s, hs, hy'⟩
    · exact absurd (h.met (hov0 hov).1 y hy) hex
    · obtain ⟨_, _, _, _, hco⟩ := h.cover s hs
      obtain ⟨e, he, _, _, _, hon⟩ := hco y hy'
      exact hfnode hov y ⟨by rw [pa, pb]; exact hy, ⟨e, he, hon⟩, fun i hi hc => hex ⟨i, hi, hc⟩⟩
  · intro hov k l e f he hf hkl y hy hy'
    have he' := List.mem_of_getElem? he
    have hf' := List.mem_of_getElem? hf
    rw [onEdge_place hcut.wf hcut.drawn he'] at hy
    rw [onEdge_place hcut.wf hcut.drawn hf'] at hy'
    rcases hcut.meet k l e f he hf hkl y hy hy' with ⟨i, h1, _, rfl⟩ | ⟨h1, _⟩
    · have hi : i < g1.nodes.length := by
        rcases h1 with rfl | rfl
        · exact (hcut.wf e he').1
        · exact (hcut.wf e he').2
      exact ⟨i, hi, (place_of_drawn hcut.drawn hi).symm⟩
    · rcases h1 hov with ⟨i, hi, rfl⟩ | h1
      · exact ⟨i, by omega, (hpos i hi).symm⟩
      · exact hfnode hov y h1
  · intro hov hd y hy
    have hd0 : ∀ s ∈ S0, s.a ≠ s.b := fun s hs => hd s (hsub s hs)
    have hdab : s0.a ≠ s0.b := hd s0 (by simp)
    -- two segments through the point exclude a cut there
    have hX : ∀ s1 ∈ S0, ∀ s2 ∈ S0, s1.On y → s2.On y → crs s1.a s1.b s2.a s2.b ≠ 0 → crs s1.a s1.b s0.a s0.b ≠ 0 →
        crs s2.a s2.b s0.a s0.b ≠ 0 → ¬ pt y ∈ Utils.uniquePointsAmong (meetPoints g ⟨a, b, s0.c, defaultLabel⟩) := by
      intro s1 h1 s2 h2 o1 o2 hne hn1 hn2 hm
      have hf := (found_iff h.wf h.drawn ha hb s0.c hc y).1 hm
      obtain ⟨_, _, _, hcu, _⟩ := id hf
      have hy := hcu.2.2
      rw [pa, pb] at hy
      exact h.two_cuts hd0 h1 h2 o1 o2 pa pb hy hne hn1 hn2 hf
    rcases hpierce y hy with hy | ⟨o, n1, n2, s1, h1, s2, h2, o1, o2, hne, hn1, hn2⟩
    · obtain ⟨e, he, q1, q2, q3⟩ := h.stuck (hov0 hov).1 hd0 y hy
      obtain ⟨k, hk⟩ := List.mem_iff_getElem?.1 he
      have hkl := (List.getElem?_eq_some_iff.1 hk).1
      refine hcut.inside (k := k) (b := e) (by simp only [pushEdge]; rw [List.getElem?_append_left hkl]; exact hk) q1 q2 q3 ?_
      obtain ⟨l, s, l', rfl, o, _, _, s1, h1, s2, h2, o1, o2, hne, hn1, hn2⟩ := hy
      have m : s ∈ l ++ s :: l' := by simp
      have m1 : s1 ∈ l ++ s :: l' := List.mem_append_left _ h1
      have m2 : s2 ∈ l ++ s :: l' := List.mem_append_left _ h2
      by_cases z1 : crs s1.a s1.b s0.a s0.b = 0
      · exact hX s2 m2 s m o2 o hn2 (fun z => hne (crs_trans hdab z1 z)) (fun z => hn1 (crs_trans hdab z1 z))
      · by_cases z2 : crs s2.a s2.b s0.a s0.b = 0
        · exact hX s1 m1 s m o1 o hn1 z1 (fun z => hn2 (crs_trans hdab z2 z))
        · exact hX s1 m1 s2 m2 o1 o2 hne z1 z2
    · exact hcut.inside (k := g.edges.length) (b := ⟨a, b, s0.c, defaultLabel⟩) (by simp [pushEdge]) (by rw [pa, pb]; exact o)
        (by rw [pa]; exact n1) (by rw [pb]; exact n2) (hX s1 h1 s2 h2 o1 o2 hne hn1 hn2)

end Steps

theorem client_sketch [Inhabited T] {P : List (ℝ × ℝ)} {S : List (Stroke U)} (hA : Spread P S) (rs : List (Req T U)) :
    ∀ (P0 : List ((ℝ × ℝ) × T)) (S0 : List (Stroke U)) (g : PlanarGraph XReal T U) (ids : List ℕ), Sketch P0 S0 g ids →
      Known P0.length rs → P = P0.map Prod.fst ++ points rs → S = S0 ++ strokes (P0.map Prod.fst) rs →
      ∃ g' ids', client g ids rs = .ok (g', ids') ∧ Sketch (P0 ++ wanted rs) S g' ids' := by
  induction rs with
  | nil =>
    intro P0 S0 g ids h _ hP hS
    simp only [strokes, List.append_nil] at hS
    subst hS
    exact ⟨g, ids, rfl, by simpa [wanted] using h⟩
  | cons r rs ih =>
    intro P0 S0 g ids h hv hP hS
    have hP' : ∀ x ∈ P0.map Prod.fst, x ∈ P := fun x hx => by rw [hP]; exact List.mem_append_left _ hx
    have hS' : ∀ s ∈ S0, s ∈ S := fun s hs => by rw [hS]; exact List.mem_append_left _ hs
    cases r with
    | point x t =>
      have hxP : x ∈ P := by rw [hP]; simp [points, wanted]
      obtain ⟨g', r, h1, h2⟩ := h.point hA hP' hS' (t := t) hxP
      obtain ⟨g2, ids2, h3, h4⟩ := ih _ _ _ _ h2 (by simp only [Known] at hv; simpa using hv) (by rw [hP]; simp [points, wanted])
        (by rw [hS]; simp [strokes])
      refine ⟨g2, ids2, ?_, by simpa [wanted] using h4⟩
      simp only [client, h1, bind, Except.bind]
      exact h3
    | seg i j c =>
      obtain ⟨hi, hj, hv'⟩ := hv
      have gi : P0[i]? = some P0[i] := List.getElem?_eq_getElem hi
      have gj : P0[j]? = some P0[j] := List.getElem?_eq_getElem hj
      have di : (P0.map Prod.fst).getD i (0, 0) = P0[i].1 := by
        rw [List.getD_eq_getElem?_getD, List.getElem?_map, gi]; rfl
      have dj : (P0.map Prod.fst).getD j (0, 0) = P0[j].1 := by
        rw [List.getD_eq_getElem?_getD, List.getElem?_map, gj]; rfl
      simp only [strokes, di, dj] at hS
      obtain ⟨a, b, g', r, h1, h2, h3, h4⟩ := h.seg hA hP' (s0 := ⟨P0[i].1, P0[j].1, c⟩) (i := i) (j := j)
        (t := P0[i].2) (t' := P0[j].2) hS' (by rw [hS]; simp) gi gj
      obtain ⟨g2, ids2, h5, h6⟩ := ih _ _ _ _ h4 hv' (by rw [hP]; simp [points, wanted]) (by rw [hS]; simp)
      refine ⟨g2, ids2, ?_, by simpa [wanted] using h6⟩
      simp only [client, h1, h2, h3, bind, Except.bind]
      exact h5

theorem Sketch.new [Inhabited T] : Sketch [] [] (PlanarGraph.new : PlanarGraph XReal T U) [] := by
  refine ⟨plane_new.wf, plane_new.finite, plane_new.inj, rfl, ?_, ?_, ?_, ?_, ?_, ?_, ?_, ?_, ?_⟩
  · intro k x t hk; cases hk
  · intro i a hi; cases hi
  · intro e he; cases he
  · intro s hs; cases hs
  · intro s hs; cases hs
  · rintro _ y ⟨s, hs, _⟩; cases hs
  · intro _ k l e f he; cases he
  · intro _ e he; cases he
  · rintro _ _ y hy
    obtain ⟨s, hs, _⟩ := hy.cross
    cases hs

/-! ## C149 -/

/-- **C149.** In exact arithmetic, for every list of requests whose points and crossings are clear up to the tolerance: no call panics
or returns an error; every requested point is a node, at the index the client got; different nodes are at different places, and every
node is at a requested point, with the data of the first request for that point, or at a crossing, with default data; every edge is a part
of a requested segment and has its data; and a point is on an edge exactly when it is on a requested segment.  If a segment
is not part of a segment with other data, its points are on edges with its data.  If parallel segments meet only in their ends, the
nodes are exactly at the requested points and the crossings, and different edges meet only in nodes. -/
theorem C149_drawn [Inhabited T] (rs : List (Req T U)) (hv : Known 0 rs) (hA : Spread (points rs) (strokes [] rs)) :
    ∃ g ids, client PlanarGraph.new [] rs = .ok (g, ids) ∧ Drawn g (place g) ∧
      (∀ i j, i < g.nodes.length → j < g.nodes.length → place g i = place g j → i = j) ∧
      (∀ (k : ℕ) x, (points rs)[k]? = some x → ∃ i, ids[k]? = some i ∧ i < g.nodes.length ∧ place g i = x) ∧
      (∀ i a, g.getVertex i = some a → a.label = "" ∧
        (FirstFor (wanted rs) (place g i) a.data ∨ (CrossAt (strokes [] rs) (place g i) ∧ a.data = default))) ∧
      (∀ e ∈ g.edges, ∃ s ∈ strokes [] rs, e.data = s.c ∧ ∀ y, OnEdge (place g) e y → s.On y) ∧
      (∀ y, (∃ e ∈ g.edges, OnEdge (place g) e y) ↔ ∃ s ∈ strokes [] rs, s.On y) ∧
      (∀ s ∈ strokes [] rs, (∀ s' ∈ strokes [] rs, s'.On s.a → s'.On s.b → s'.c = s.c) →
        ∀ y, s.On y → ∃ e ∈ g.edges, e.data = s.c ∧ OnEdge (place g) e y) ∧
      (NoOverlap (strokes [] rs) →
        (∀ y, (∃ i, i < g.nodes.length ∧ y = place g i) ↔ Spot (points rs) (strokes [] rs) y) ∧
        ∀ (k l : ℕ) (e f : Edge U), g.edges[k]? = some e → g.edges[l]? = some f → k ≠ l →
          ∀ y, OnEdge (place g) e y → OnEdge (place g) f y → ∃ i, i < g.nodes.length ∧ y = place g i) := by
  obtain ⟨g, ids, h1, h2⟩ := client_sketch hA rs [] [] _ _ Sketch.new hv rfl rfl
  have h : Sketch (wanted rs) (strokes [] rs) g ids := by simpa using h2
  refine ⟨g, ids, h1, h.drawn, h.inj, ?_, h.nodes, ?_, ?_, ?_, ?_⟩
  · intro k x hk
    unfold points at hk
    rw [List.getElem?_map] at hk
    cases hw : (wanted rs)[k]? with
    | none => rw [hw] at hk; cases hk
    | some p =>
      rw [hw] at hk
      cases hk
      exact h.ids_at k _ p.2 hw
  · intro e he
    obtain ⟨s, hs, hc, p1, p2⟩ := h.piece e he
    exact ⟨s, hs, hc, fun y hy => onSeg_sub p1 p2 hy⟩
  · intro y
    constructor
    · rintro ⟨e, he, hon⟩
      obtain ⟨s, hs, _, p1, p2⟩ := h.piece e he
      exact ⟨s, hs, onSeg_sub p1 p2 hon⟩
    · rintro ⟨s, hs, hon⟩
      obtain ⟨s', _, _, _, hco⟩ := h.cover s hs
      obtain ⟨e, he, _, _, _, hy⟩ := hco y hon
      exact ⟨e, he, hy⟩
  · intro s hs hall y hy
    obtain ⟨s', hs', o1, o2, hco⟩ := h.cover s hs
    obtain ⟨e, he, hd, _, _, hy'⟩ := hco y hy
    exact ⟨e, he, by rw [hd, hall s' hs' o1 o2], hy'⟩
  · intro hov
    refine ⟨?_, h.tidy hov⟩
    intro y
    constructor
    · rintro ⟨i, hi, rfl⟩
      exact h.spot (P := points rs) (fun _ hx => hx) (fun _ hs => hs) hi
    · rintro (hy | hy)
      · obtain ⟨⟨x, t⟩, hm, rfl⟩ := List.mem_map.1 hy
        obtain ⟨k, hk⟩ := List.mem_iff_getElem?.1 hm
        obtain ⟨i, _, h1, h2⟩ := h.ids_at k x t hk
        exact ⟨i, h1, h2.symm⟩
      · exact h.met hov y hy

/-- **C149, order.** The order of the requests, the points requested besides the ends, and the data do not matter for the set of points
drawn: two lists of requests with the same segments, up to direction, draw the same points. -/
theorem C149_order [Inhabited T] {T' U' : Type} [Inhabited T'] (rs : List (Req T U)) (rs' : List (Req T' U')) (hv : Known 0 rs)
    (hv' : Known 0 rs') (hA : Spread (points rs) (strokes [] rs)) (hA' : Spread (points rs') (strokes [] rs'))
    (h1 : ∀ s ∈ strokes [] rs, ∃ s' ∈ strokes [] rs', (s'.a = s.a ∧ s'.b = s.b) ∨ (s'.a = s.b ∧ s'.b = s.a))
    (h2 : ∀ s' ∈ strokes [] rs', ∃ s ∈ strokes [] rs, (s'.a = s.a ∧ s'.b = s.b) ∨ (s'.a = s.b ∧ s'.b = s.a)) :
    ∃ g ids g' ids', client PlanarGraph.new [] rs = .ok (g, ids) ∧ client PlanarGraph.new [] rs' = .ok (g', ids') ∧
      ∀ y, (∃ e ∈ g.edges, OnEdge (place g) e y) ↔ ∃ e ∈ g'.edges, OnEdge (place g') e y := by
  obtain ⟨g, ids, hg, _, _, _, _, _, hd, _⟩ := C149_drawn rs hv hA
  obtain ⟨g', ids', hg', _, _, _, _, _, hd', _⟩ := C149_drawn rs' hv' hA'
  refine ⟨g, ids, g', ids', hg, hg', fun y => ?_⟩
  rw [hd, hd']
  constructor
  · rintro ⟨s, hs, hy⟩
    obtain ⟨s', hs', ⟨e1, e2⟩ | ⟨e1, e2⟩⟩ := h1 s hs
    · exact ⟨s', hs', by unfold Stroke.On; rw [e1, e2]; exact hy⟩
    · exact ⟨s', hs', by unfold Stroke.On; rw [e1, e2]; exact onSeg_symm hy⟩
  · rintro ⟨s', hs', hy⟩
    obtain ⟨s, hs, ⟨e1, e2⟩ | ⟨e1, e2⟩⟩ := h2 s' hs'
    · exact ⟨s, hs, by unfold Stroke.On at hy ⊢; rw [e1, e2] at hy; exact hy⟩
    · exact ⟨s, hs, by unfold Stroke.On at hy ⊢; rw [e1, e2] at hy; exact onSeg_symm hy⟩

/-! ## C150 -/

/-- **C150.** In exact arithmetic, for every list of requests as in C149 where parallel segments meet only in their ends and no segment is
a point: if a segment passes through a point `y` that two segments requested before contain, the three in different directions, then
the result is not planar: `y` is a node inside an edge. -/
theorem C150_pierced [Inhabited T] (rs : List (Req T U)) (hv : Known 0 rs) (hA : Spread (points rs) (strokes [] rs))
    (hov : NoOverlap (strokes [] rs)) (hd : ∀ s ∈ strokes [] rs, s.a ≠ s.b) (y : ℝ × ℝ) (hy : Pierced (strokes [] rs) y) :
    ∃ g ids, client PlanarGraph.new [] rs = .ok (g, ids) ∧ ¬ Planar g (place g) ∧
      ∃ i e, i < g.nodes.length ∧ place g i = y ∧ e ∈ g.edges ∧ OnEdge (place g) e y ∧ y ≠ place g e.src ∧ y ≠ place g e.dst := by
  obtain ⟨g, ids, h1, h2⟩ := client_sketch hA rs [] [] _ _ Sketch.new hv rfl rfl
  have h : Sketch (wanted rs) (strokes [] rs) g ids := by simpa using h2
  obtain ⟨i, hi, rfl⟩ := h.met hov y hy.cross
  obtain ⟨e, he, q1, q2, q3⟩ := h.stuck hov hd _ hy
  refine ⟨g, ids, h1, ?_, i, e, hi, rfl, he, q1, q2, q3⟩
  intro hp
  rcases hp.node e he i hi q1 with rfl | rfl
  · exact q2 rfl
  · exact q3 rfl

theorem pierced_at {S : List (Stroke U)} {y : ℝ × ℝ} {k k1 k2 : ℕ} {s s1 s2 : Stroke U} (hk : S[k]? = some s) (hk1 : S[k1]? = some s1)
    (hk2 : S[k2]? = some s2) (l1 : k1 < k) (l2 : k2 < k) (o : s.On y) (na : y ≠ s.a) (nb : y ≠ s.b) (o1 : s1.On y) (o2 : s2.On y)
    (h12 : crs s1.a s1.b s2.a s2.b ≠ 0) (h1 : crs s1.a s1.b s.a s.b ≠ 0) (h2 : crs s2.a s2.b s.a s.b ≠ 0) : Pierced S y := by
  obtain ⟨hlt, rfl⟩ := List.getElem?_eq_some_iff.1 hk
  refine ⟨S.take k, S[k], S.drop (k + 1), ?_, o, na, nb, s1, ?_, s2, ?_, o1, o2, h12, h1, h2⟩
  · rw [← List.drop_eq_getElem_cons hlt, List.take_append_drop]
  · exact List.mem_of_getElem? (i := k1) (by rw [List.getElem?_take, if_pos l1]; exact hk1)
  · exact List.mem_of_getElem? (i := k2) (by rw [List.getElem?_take, if_pos l2]; exact hk2)

/-- **C150, three segments through a point.** Three segments in different directions that cross in a point inside all of them never
become a planar drawing, whatever the order of the requests. -/
theorem C150_three [Inhabited T] (rs : List (Req T U)) (hv : Known 0 rs) (hA : Spread (points rs) (strokes [] rs))
    (hov : NoOverlap (strokes [] rs)) (hd : ∀ s ∈ strokes [] rs, s.a ≠ s.b) (y : ℝ × ℝ) (s1 s2 s3 : Stroke U)
    (m1 : s1 ∈ strokes [] rs) (m2 : s2 ∈ strokes [] rs) (m3 : s3 ∈ strokes [] rs)
    (h12 : crs s1.a s1.b s2.a s2.b ≠ 0) (h13 : crs s1.a s1.b s3.a s3.b ≠ 0) (h23 : crs s2.a s2.b s3.a s3.b ≠ 0)
    (o : ∀ s ∈ [s1, s2, s3], s.On y ∧ y ≠ s.a ∧ y ≠ s.b) :
    ∃ g ids, client PlanarGraph.new [] rs = .ok (g, ids) ∧ ¬ Planar g (place g) := by
  suffices hp : Pierced (strokes [] rs) y by
    obtain ⟨g, ids, h1, h2, _⟩ := C150_pierced rs hv hA hov hd y hp
    exact ⟨g, ids, h1, h2⟩
  obtain ⟨k1, g1⟩ := List.mem_iff_getElem?.1 m1
  obtain ⟨k2, g2⟩ := List.mem_iff_getElem?.1 m2
  obtain ⟨k3, g3⟩ := List.mem_iff_getElem?.1 m3
  obtain ⟨a1, b1, c1⟩ := o s1 (by simp)
  obtain ⟨a2, b2, c2⟩ := o s2 (by simp)
  obtain ⟨a3, b3, c3⟩ := o s3 (by simp)
  have hself : ∀ p q : ℝ × ℝ, crs p q p q = 0 := by intro p q; unfold crs; ring
  have hsw : ∀ {p q r s : ℝ × ℝ}, crs p q r s ≠ 0 → crs r s p q ≠ 0 := by
    intro p q r s h h0
    apply h
    unfold crs at *
    linarith
  have n12 : k1 ≠ k2 := by rintro rfl; rw [g1] at g2; cases g2; exact h12 (hself _ _)
  have n13 : k1 ≠ k3 := by rintro rfl; rw [g1] at g3; cases g3; exact h13 (hself _ _)
  have n23 : k2 ≠ k3 := by rintro rfl; rw [g2] at g3; cases g3; exact h23 (hself _ _)
  rcases lt_or_gt_of_ne n12 with l12 | l12 <;> rcases lt_or_gt_of_ne n13 with l13 | l13 <;> rcases lt_or_gt_of_ne n23 with l23 | l23 <;>
    first
    | exact pierced_at g3 g1 g2 (by omega) (by omega) a3 b3 c3 a1 a2 h12 h13 h23
    | exact pierced_at g2 g1 g3 (by omega) (by omega) a2 b2 c2 a1 a3 h13 h12 (hsw h23)
    | exact pierced_at g1 g2 g3 (by omega) (by omega) a1 b1 c1 a2 a3 h23 (hsw h12) (hsw h13)

/-! ## A concrete case -/

/-- three segments through (1, 0), one of them requested twice -/
def starReq : List (Req ℕ ℕ) :=
  [.point (0, 0) 1, .point (2, 0) 2, .point (1, -1) 3, .point (1, 1) 4, .point (0, -1) 5, .point (2, 1) 6,
    .seg 0 1 10, .seg 2 3 20, .seg 4 5 30, .seg 1 0 10]

theorem star_spots (y : ℝ × ℝ) (hy : Spot (points starReq) (strokes [] starReq) y) :
    y ∈ ([(0, 0), (2, 0), (1, -1), (1, 1), (0, -1), (2, 1), (1, 0)] : List (ℝ × ℝ)) := by
  have hS : strokes [] starReq = [⟨(0, 0), (2, 0), 10⟩, ⟨(1, -1), (1, 1), 20⟩, ⟨(0, -1), (2, 1), 30⟩, ⟨(2, 0), (0, 0), 10⟩] := rfl
  rcases hy with hy | ⟨s, hs, s', hs', hne, ⟨t, _, _, rfl⟩, ⟨u, _, _, hu⟩⟩
  · have hP : points starReq = [(0, 0), (2, 0), (1, -1), (1, 1), (0, -1), (2, 1)] := rfl
    rw [hP] at hy
    exact List.mem_append_left [(1, 0)] hy
  · rw [hS] at hs hs'
    have key : (s.a.1 + t * (s.b.1 - s.a.1), s.a.2 + t * (s.b.2 - s.a.2)) = ((1, 0) : ℝ × ℝ) := by
      have g1 := congrArg Prod.fst hu
      have g2 := congrArg Prod.snd hu
      simp only [List.mem_cons, List.not_mem_nil, or_false] at hs hs'
      rcases hs with rfl | rfl | rfl | rfl <;> rcases hs' with rfl | rfl | rfl | rfl <;>
        first
        | (exfalso; apply hne; norm_num [crs]; done)
        | (norm_num at g1 g2 ⊢; (try constructor) <;> linarith)
    rw [key]
    simp

/-- the hypotheses of `C149_drawn` hold -/
theorem star_spread : Spread (points starReq) (strokes [] starReq) := by
  have heps : XReal.epsR ≤ 1 / 10 := by unfold XReal.epsR; norm_num
  have hs4 : Real.sqrt 4 = 2 := by rw [show (4 : ℝ) = 2 ^ 2 by norm_num, Real.sqrt_sq (by norm_num)]
  have hs1 : Real.sqrt 1 = 1 := Real.sqrt_one
  have hs2 : 1.41 ≤ Real.sqrt 2 := Real.le_sqrt_of_sq_le (by norm_num)
  have hs5 : 2.2 ≤ Real.sqrt 5 := Real.le_sqrt_of_sq_le (by norm_num)
  have hs8 : 2.82 ≤ Real.sqrt 8 := Real.le_sqrt_of_sq_le (by norm_num)
  have hs8' : Real.sqrt 8 ≤ 2.83 := Real.sqrt_le_iff.2 ⟨by norm_num, by norm_num⟩
  constructor
  · intro x y hx hy hne
    have h1 := star_spots x hx
    have h2 := star_spots y hy
    simp only [List.mem_cons, List.not_mem_nil, or_false] at h1 h2
    rcases h1 with rfl | rfl | rfl | rfl | rfl | rfl | rfl <;> rcases h2 with rfl | rfl | rfl | rfl | rfl | rfl | rfl <;>
      first
      | exact absurd rfl hne
      | (norm_num [dst, hs4]; linarith)
  · intro x hx s hs hno
    have h1 := star_spots x hx
    have hS : strokes [] starReq = [⟨(0, 0), (2, 0), 10⟩, ⟨(1, -1), (1, 1), 20⟩, ⟨(0, -1), (2, 1), 30⟩, ⟨(2, 0), (0, 0), 10⟩] := rfl
    rw [hS] at hs
    simp only [List.mem_cons, List.not_mem_nil, or_false] at h1 hs
    rcases hs with rfl | rfl | rfl | rfl <;> rcases h1 with rfl | rfl | rfl | rfl | rfl | rfl | rfl <;>
      first
      | exact absurd (onSeg_left _ _) hno
      | exact absurd (onSeg_right _ _) hno
      | (exfalso; apply hno; refine ⟨1 / 2, ?_, ?_, ?_⟩ <;> norm_num; done)
      | (norm_num [dst, hs4]; norm_num at hs2 hs5 hs8 hs8'; linarith)

/-- the three segments are drawn, though the crossing is one of three segments and one segment is requested twice -/
example : ∃ g ids, client PlanarGraph.new [] starReq = .ok (g, ids) ∧
    ∀ y, (∃ e ∈ g.edges, OnEdge (place g) e y) ↔ ∃ s ∈ strokes [] starReq, s.On y := by
  obtain ⟨g, ids, h, _, _, _, _, _, h1, _⟩ := C149_drawn starReq (by simp [starReq, Known]) star_spread
  exact ⟨g, ids, h, h1⟩

theorem Spread.mono {P P' : List (ℝ × ℝ)} {S S' : List (Stroke U)} (h : Spread P S) (hP : ∀ x ∈ P', x ∈ P) (hS : ∀ s ∈ S', s ∈ S) :
    Spread P' S' := by
  have hsp : ∀ x, Spot P' S' x → Spot P S x := fun x hx => hx.imp (hP x) (fun hc => hc.mono hS)
  exact ⟨fun x y hx hy => h.sep x y (hsp x hx) (hsp y hy), fun x hx s hs => h.clear x (hsp x hx) s (hS s hs)⟩

/-- three segments through a point, none twice: the crossing is a node, and edges meet in nodes only -/
example : ∃ g ids, client PlanarGraph.new [] starReq.dropLast = .ok (g, ids) ∧ (∃ i, i < g.nodes.length ∧ (1, 0) = place g i) := by
  have hS : strokes [] starReq.dropLast = [⟨(0, 0), (2, 0), 10⟩, ⟨(1, -1), (1, 1), 20⟩, ⟨(0, -1), (2, 1), 30⟩] := rfl
  obtain ⟨g, ids, h, _, _, _, _, _, _, _, h1⟩ := C149_drawn starReq.dropLast (by simp [starReq, Known])
    (star_spread.mono (fun x hx => hx) (fun s hs => List.mem_of_mem_dropLast hs))
  refine ⟨g, ids, h, ((h1 ?_).1 (1, 0)).2 (Or.inr ⟨⟨(0, 0), (2, 0), 10⟩, by rw [hS]; simp, ⟨(1, -1), (1, 1), 20⟩, by rw [hS]; simp, ?_, ?_, ?_⟩)⟩
  · rw [hS]; norm_num [NoOverlap, crs]
  · norm_num [crs]
  · exact ⟨1 / 2, by norm_num, by norm_num, by norm_num⟩
  · exact ⟨1 / 2, by norm_num, by norm_num, by norm_num⟩

/-- the hypotheses of `C150_three` hold for the three segments -/
example : ∃ g ids, client PlanarGraph.new [] starReq.dropLast = .ok (g, ids) ∧ ¬ Planar g (place g) := by
  have hS : strokes [] starReq.dropLast = [⟨(0, 0), (2, 0), 10⟩, ⟨(1, -1), (1, 1), 20⟩, ⟨(0, -1), (2, 1), 30⟩] := rfl
  refine C150_three starReq.dropLast (by simp [starReq, Known])
    (star_spread.mono (fun x hx => hx) (fun s hs => List.mem_of_mem_dropLast hs)) (by rw [hS]; norm_num [NoOverlap, crs])
    (by rw [hS]; norm_num) (1, 0) ⟨(0, 0), (2, 0), 10⟩ ⟨(1, -1), (1, 1), 20⟩ ⟨(0, -1), (2, 1), 30⟩ (by rw [hS]; simp) (by rw [hS]; simp)
    (by rw [hS]; simp) (by norm_num [crs]) (by norm_num [crs]) (by norm_num [crs]) ?_
  intro s hs
  simp only [List.mem_cons, List.not_mem_nil, or_false] at hs
  rcases hs with rfl | rfl | rfl <;> refine ⟨⟨1 / 2, by norm_num, by norm_num, by norm_num⟩, ?_, ?_⟩ <;> norm_num

end

/-- **C149, what overlaps cost** (f32).  The segment from (1, 0) to (3, 0) lies in the one from (0, 0) to (4, 0); the segment from (2, -1)
to (2, 1) crosses both in (2, 0), which does not become a node.  Without the second segment it does.  And a segment requested
twice with different data keeps the first. -/
theorem C149_sharp :
    (PlanarGraph.run .debug (PlanarGraph.new : PlanarGraph F32 Unit ℕ)
      [.addNode ⟨F32.lit 0, F32.lit 0⟩ (), .addNode ⟨F32.lit 4, F32.lit 0⟩ (), .addNode ⟨F32.lit 1, F32.lit 0⟩ (),
        .addNode ⟨F32.lit 3, F32.lit 0⟩ (), .addNode ⟨F32.lit 2, F32.lit (-1)⟩ (), .addNode ⟨F32.lit 2, F32.lit 1⟩ (),
        .addEdge 0 1 10, .addEdge 2 3 20, .addEdge 4 5 30]).map (fun g => (g.nodes.length, g.edges.length)) = .ok (6, 3) ∧
    (PlanarGraph.run .debug (PlanarGraph.new : PlanarGraph F32 Unit ℕ)
      [.addNode ⟨F32.lit 0, F32.lit 0⟩ (), .addNode ⟨F32.lit 4, F32.lit 0⟩ (), .addNode ⟨F32.lit 1, F32.lit 0⟩ (),
        .addNode ⟨F32.lit 3, F32.lit 0⟩ (), .addNode ⟨F32.lit 2, F32.lit (-1)⟩ (), .addNode ⟨F32.lit 2, F32.lit 1⟩ (),
        .addEdge 0 1 10, .addEdge 4 5 30]).map (fun g => (g.nodes.length, g.edges.length)) = .ok (7, 4) ∧
    (PlanarGraph.run .debug (PlanarGraph.new : PlanarGraph F32 Unit ℕ)
      [.addNode ⟨F32.lit 0, F32.lit 0⟩ (), .addNode ⟨F32.lit 4, F32.lit 0⟩ (),
        .addEdge 0 1 10, .addEdge 1 0 20]).map (fun g => g.edges.map (·.data)) = .ok [10] := by
  decide +kernel

/-- **C150 in f32, and what it needs.** The third segment through (1, 0), from (0, -1) to (2, 1), stays one edge past the node 6 in its
middle.  If it ends at that node instead, coming from both sides, all edges end there. -/
theorem C150_sharp :
    (PlanarGraph.run .debug (PlanarGraph.new : PlanarGraph F32 Unit Unit)
      [.addNode ⟨F32.lit 0, F32.lit 0⟩ (), .addNode ⟨F32.lit 2, F32.lit 0⟩ (), .addNode ⟨F32.lit 1, F32.lit (-1)⟩ (),
        .addNode ⟨F32.lit 1, F32.lit 1⟩ (), .addNode ⟨F32.lit 0, F32.lit (-1)⟩ (), .addNode ⟨F32.lit 2, F32.lit 1⟩ (),
        .addEdge 0 1 (), .addEdge 2 3 (), .addEdge 4 5 ()]).map (fun g => (g.nodes.length, g.edges.map fun e => (e.src, e.dst))) =
      .ok (7, [(0, 6), (2, 6), (1, 6), (3, 6), (4, 5)]) ∧
    (PlanarGraph.run .debug (PlanarGraph.new : PlanarGraph F32 Unit Unit)
      [.addNode ⟨F32.lit 0, F32.lit 0⟩ (), .addNode ⟨F32.lit 2, F32.lit 0⟩ (), .addNode ⟨F32.lit 1, F32.lit (-1)⟩ (),
        .addNode ⟨F32.lit 1, F32.lit 1⟩ (), .addNode ⟨F32.lit 0, F32.lit (-1)⟩ (), .addNode ⟨F32.lit 2, F32.lit 1⟩ (),
        .addEdge 0 1 (), .addEdge 2 3 (), .addEdge 4 6 (), .addEdge 6 5 ()]).map
        (fun g => (g.nodes.length, g.edges.map fun e => (e.src, e.dst))) =
      .ok (7, [(0, 6), (2, 6), (1, 6), (3, 6), (4, 6), (6, 5)]) := by
  decide +kernel

end Kami.Graph
