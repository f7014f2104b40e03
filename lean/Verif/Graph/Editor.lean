import Verif.Graph.PlaneGrid
import Verif.Graph.Queries
/-!
# C133: drawing and erasing on a small whole-number grid

A drawing program that addresses points and segments by their coordinates looks up the indices in the graph and calls
`add_node`, `add_edge`, `remove_edge` and `remove_node`.  The reference knows no indices and no graph: a picture is a set of
points and a set of segments.
-/

set_option autoImplicit false

namespace Kami.Graph

open Kami Kami.F32 Kami.Utils Kami.DistF32 Kami.UtilThm
open scoped Kami
open PlanarGraph

variable {T U : Type}

/-! ## The program -/

/-- what the user does -/
inductive Edit (T U : Type) where
  /-- mark a point -/
  | point (x : Vec2 F32) (t : T)
  /-- draw a segment between two marked points -/
  | draw (x y : Vec2 F32) (c : U)
  /-- erase the segment between two points -/
  | erase (x y : Vec2 F32)
  /-- erase a point with its segments -/
  | clear (x : Vec2 F32)

/-- the index of the node at a position -/
def locate (g : PlanarGraph F32 T U) (x : Vec2 F32) : Option ℕ :=
  g.nodes.findIdx? fun n => (n.position.x =. x.x) && (n.position.y =. x.y)

/-- the index of the edge between two positions -/
def locateEdge (g : PlanarGraph F32 T U) (x y : Vec2 F32) : Option ℕ :=
  match locate g x, locate g y with
  | some i, some j => g.edges.findIdx? fun e => (e.src == i && e.dst == j) || (e.src == j && e.dst == i)
  | _, _ => none

/-- the call made for an edit; none if the point or the segment is not there -/
def perform [Inhabited T] (p : Profile) (g : PlanarGraph F32 T U) : Edit T U → Res (PlanarGraph F32 T U)
  | .point x t => (g.addNode x t).map (·.1)
  | .draw x y c =>
    match locate g x, locate g y with
    | some i, some j => (g.addEdge i j c).map (·.1)
    | _, _ => .ok g
  | .erase x y =>
    match locateEdge g x y with
    | some k => (g.removeEdge p k).map (·.1)
    | none => .ok g
  | .clear x =>
    match locate g x with
    | some i => (g.removeNode p i).map (·.1)
    | none => .ok g

/-- the edits one after the other -/
def edit [Inhabited T] (p : Profile) : PlanarGraph F32 T U → List (Edit T U) → Res (PlanarGraph F32 T U)
  | g, [] => .ok g
  | g, e :: es => do
    let g' ← perform p g e
    edit p g' es

/-! ## Specification -/

/-- marked points with their data, and segments with their data -/
@[ext] structure Picture (T U : Type) where
  points : Set ((ℝ × ℝ) × T)
  segs : Set (Stroke U)

/-- the segment has the ends `x` and `y` -/
def Stroke.Between (s : Stroke U) (x y : ℝ × ℝ) : Prop := (s.a = x ∧ s.b = y) ∨ (s.a = y ∧ s.b = x)
/-- the segment ends at `x` -/
def Stroke.Touches (s : Stroke U) (x : ℝ × ℝ) : Prop := s.a = x ∨ s.b = x

/-- There is a point at `x`. -/
def Picture.Has (P : Picture T U) (x : ℝ × ℝ) : Prop := ∃ t, (x, t) ∈ P.points

/-- the empty picture -/
def Picture.blank : Picture T U := ⟨∅, ∅⟩

/-- Taking away the segments with `R`: a point goes along if a segment that ended there was taken away and none is left there. -/
def Picture.without (P : Picture T U) (R : Stroke U → Prop) : Picture T U where
  points := {q | q ∈ P.points ∧ ((∃ s ∈ P.segs, R s ∧ s.Touches q.1) → ∃ s ∈ P.segs, ¬ R s ∧ s.Touches q.1)}
  segs := {s | s ∈ P.segs ∧ ¬ R s}

/-- the picture after an edit -/
def Picture.after (P : Picture T U) : Edit T U → Picture T U
  | .point x t => ⟨{q | q ∈ P.points ∨ (q = (rpos x, t) ∧ ¬ P.Has (rpos x))}, P.segs⟩
  | .draw x y c => ⟨P.points, {s | s ∈ P.segs ∨
      (s = ⟨rpos x, rpos y, c⟩ ∧ P.Has (rpos x) ∧ P.Has (rpos y) ∧ ∀ s ∈ P.segs, ¬ s.Between (rpos x) (rpos y))}⟩
  | .erase x y => P.without fun s => s.Between (rpos x) (rpos y)
  | .clear x => ⟨{q | q ∈ (P.without fun s => s.Touches (rpos x)).points ∧ q.1 ≠ rpos x},
      (P.without fun s => s.Touches (rpos x)).segs⟩

/-- the picture after several edits -/
def Picture.afterAll (P : Picture T U) : List (Edit T U) → Picture T U
  | [] => P
  | e :: es => (P.after e).afterAll es

/-- Segments have different ends and contain no further points, and meet only in common ends. -/
structure Picture.IsPlane (P : Picture T U) : Prop where
  proper : ∀ s ∈ P.segs, s.a ≠ s.b
  free : ∀ s ∈ P.segs, ∀ x, P.Has x → s.On x → s.Touches x
  apart : ∀ s ∈ P.segs, ∀ s' ∈ P.segs, s.Between s'.a s'.b ∨ ∀ y, s.On y → s'.On y → s.Touches y ∧ s'.Touches y

/-- the picture is plane after every edit -/
def StaysPlane (P : Picture T U) : List (Edit T U) → Prop
  | [] => True
  | e :: es => (P.after e).IsPlane ∧ StaysPlane (P.after e) es

/-- the positions that occur in the edits -/
def editSpots : List (Edit T U) → List (Vec2 F32)
  | [] => []
  | .point x _ :: es => x :: editSpots es
  | .draw x y _ :: es => x :: y :: editSpots es
  | .erase x y :: es => x :: y :: editSpots es
  | .clear x :: es => x :: editSpots es

/-- `s` is the segment of the edge `e` -/
def StrokeOf (g : PlanarGraph F32 T U) (e : Edge U) (s : Stroke U) : Prop :=
  ∃ a b, g.nodes[e.src]? = some a ∧ g.nodes[e.dst]? = some b ∧ s = ⟨rpos a.position, rpos b.position, e.data⟩

/-- what the graph shows -/
def picture (g : PlanarGraph F32 T U) : Picture T U :=
  ⟨{q | ∃ n ∈ g.nodes, q = (rpos n.position, n.data)}, {s | ∃ e ∈ g.edges, StrokeOf g e s}⟩

/-! ## Looking up -/

/-- a graph on the sheet that shows the picture -/
structure Shows (vs : List (Vec2 F32)) (g : PlanarGraph F32 T U) (P : Picture T U) : Prop where
  plain : Plain g
  single : NoParallel g
  pic : picture g = P
  spots : ∀ n ∈ g.nodes, n.position ∈ vs

variable {vs : List (Vec2 F32)} {g : PlanarGraph F32 T U} {P : Picture T U}

theorem locate_some (hsh : OnSheet vs) (hn : ∀ n ∈ g.nodes, n.position ∈ vs) {x : Vec2 F32} (hx : x ∈ vs) {i : ℕ} (h : locate g x = some i) :
    ∃ n, g.nodes[i]? = some n ∧ rpos n.position = rpos x := by
  obtain ⟨hi, h1, _⟩ := List.findIdx?_eq_some_iff_getElem.1 h
  exact ⟨_, List.getElem?_eq_getElem hi, (same_place (hsh.grid (hn _ (List.getElem_mem hi))) (hsh.grid hx)).1 h1⟩

theorem locate_none (hsh : OnSheet vs) (hn : ∀ n ∈ g.nodes, n.position ∈ vs) {x : Vec2 F32} (hx : x ∈ vs) (h : locate g x = none) :
    ∀ n ∈ g.nodes, rpos n.position ≠ rpos x := by
  intro n hm hc
  have := List.findIdx?_eq_none_iff.1 h n hm
  rw [(same_place (hsh.grid (hn n hm)) (hsh.grid hx)).2 hc] at this
  cases this

theorem has_iff (hp : picture g = P) (x : ℝ × ℝ) : P.Has x ↔ ∃ n ∈ g.nodes, rpos n.position = x := by
  subst hp
  constructor
  · rintro ⟨t, n, hn, h⟩
    exact ⟨n, hn, (Prod.mk.inj h).1.symm⟩
  · rintro ⟨n, hn, h⟩
    exact ⟨n.data, n, hn, by rw [h]⟩

theorem strokeOf_exists (hg : Plain g) {e : Edge U} (he : e ∈ g.edges) : ∃ s, StrokeOf g e s := by
  obtain ⟨h1, h2⟩ := hg.wf e he
  exact ⟨_, _, _, List.getElem?_eq_getElem h1, List.getElem?_eq_getElem h2, rfl⟩

theorem touches_iff (hg : Plain g) {e : Edge U} {s : Stroke U} (hs : StrokeOf g e s) {i : ℕ} {n : Node F32 T} (hi : g.nodes[i]? = some n) :
    s.Touches (rpos n.position) ↔ e.src = i ∨ e.dst = i := by
  obtain ⟨a, b, ha, hb, rfl⟩ := hs
  unfold Stroke.Touches
  refine or_congr ⟨fun h => hg.inj _ _ _ _ ha hi h, ?_⟩ ⟨fun h => hg.inj _ _ _ _ hb hi h, ?_⟩
  · rintro rfl; rw [ha] at hi; cases hi; rfl
  · rintro rfl; rw [hb] at hi; cases hi; rfl

theorem between_iff' (hg : Plain g) {e : Edge U} {s : Stroke U} (hs : StrokeOf g e s) {i j : ℕ} {n m : Node F32 T}
    (hi : g.nodes[i]? = some n) (hj : g.nodes[j]? = some m) :
    s.Between (rpos n.position) (rpos m.position) ↔ (e.src = i ∧ e.dst = j) ∨ (e.src = j ∧ e.dst = i) := by
  obtain ⟨a, b, ha, hb, rfl⟩ := hs
  have k : ∀ {u v : ℕ} {c d : Node F32 T}, g.nodes[u]? = some c → g.nodes[v]? = some d → (rpos c.position = rpos d.position ↔ u = v) := by
    intro u v c d hu hv
    refine ⟨fun h => hg.inj _ _ _ _ hu hv h, ?_⟩
    rintro rfl; rw [hu] at hv; cases hv; rfl
  unfold Stroke.Between
  simp only
  rw [k ha hi, k hb hj, k ha hj, k hb hi]

/-! ## Drawing -/

theorem point_step [Inhabited T] (p : Profile) (hsh : OnSheet vs) (h : Shows vs g P) (x : Vec2 F32) (t : T) (hx : x ∈ vs)
    (hP : (P.after (.point x t)).IsPlane) :
    ∃ g', perform p g (.point x t) = .ok g' ∧ Shows vs g' (P.after (.point x t)) := by
  have hxg := hsh.grid hx
  by_cases hc : ∃ n ∈ g.nodes, rpos n.position = rpos x
  · obtain ⟨n, hn, heq⟩ := hc
    obtain ⟨k, hk⟩ := List.mem_iff_getElem?.1 hn
    refine ⟨g, by simp only [perform, (h.plain.taken hxg hk heq).1 t]; rfl, ⟨h.plain, h.single, ?_, h.spots⟩⟩
    have hh : P.Has (rpos x) := (has_iff h.pic _).2 ⟨n, hn, heq⟩
    rw [h.pic]
    ext q
    · simp [Picture.after, hh]
    · simp [Picture.after]
  · have hnew : ∀ n ∈ g.nodes, rpos n.position ≠ rpos x := fun n hn h => hc ⟨n, hn, h⟩
    have hnh : ¬ P.Has (rpos x) := fun hh => hc ((has_iff h.pic _).1 hh)
    obtain ⟨ha, hpl⟩ := C127_add_node h.plain x t (hsh.mono (by
      intro w hw
      rw [List.mem_cons, List.mem_map] at hw
      rcases hw with rfl | ⟨n, hn, rfl⟩
      · exact hx
      · exact h.spots n hn)) hnew (by
      intro e he a b e1 e2 hon
      have hs : (⟨rpos a.position, rpos b.position, e.data⟩ : Stroke U) ∈ P.segs := by
        rw [← h.pic]; exact ⟨e, he, a, b, e1, e2, rfl⟩
      rcases hP.free _ hs (rpos x) ⟨t, Or.inr ⟨rfl, hnh⟩⟩ hon with h1 | h1
      · exact hnew a (List.mem_of_getElem? e1) h1
      · exact hnew b (List.mem_of_getElem? e2) h1)
    refine ⟨_, by simp only [perform, ha]; rfl, ⟨hpl, h.single, ?_, ?_⟩⟩
    · have hpic := h.pic
      subst hpic
      ext q
      · simp only [picture, Picture.after, Set.mem_ofPred_eq, List.mem_append, List.mem_singleton]
        constructor
        · rintro ⟨n, hn | rfl, rfl⟩
          · exact Or.inl ⟨n, hn, rfl⟩
          · exact Or.inr ⟨rfl, hnh⟩
        · rintro (⟨n, hn, rfl⟩ | ⟨rfl, _⟩)
          · exact ⟨n, Or.inl hn, rfl⟩
          · exact ⟨_, Or.inr rfl, rfl⟩
      · simp only [picture, Picture.after, Set.mem_ofPred_eq]
        refine exists_congr fun e => and_congr_right fun he => ?_
        obtain ⟨h1, h2⟩ := h.plain.wf e he
        unfold StrokeOf
        simp only [List.getElem?_append_left h1, List.getElem?_append_left h2]
    · intro n hn
      rw [List.mem_append, List.mem_singleton] at hn
      rcases hn with hn | rfl
      · exact h.spots n hn
      · exact hx

theorem draw_step [Inhabited T] (p : Profile) (hsh : OnSheet vs) (h : Shows vs g P) (x y : Vec2 F32) (c : U) (hx : x ∈ vs) (hy : y ∈ vs)
    (hP : (P.after (.draw x y c)).IsPlane) :
    ∃ g', perform p g (.draw x y c) = .ok g' ∧ Shows vs g' (P.after (.draw x y c)) := by
  have same : (∀ s : Stroke U, s ∈ (P.after (.draw x y c)).segs → s ∈ P.segs) → Shows vs g (P.after (.draw x y c)) := by
    intro hs
    refine ⟨h.plain, h.single, ?_, h.spots⟩
    rw [h.pic]
    ext q
    · exact Iff.rfl
    · exact ⟨fun h => Or.inl h, hs q⟩
  simp only [perform]
  cases hi : locate g x with
  | none =>
    refine ⟨g, rfl, same ?_⟩
    rintro s (hs | ⟨_, hh, _⟩)
    · exact hs
    · obtain ⟨n, hn, he⟩ := (has_iff h.pic _).1 hh
      exact absurd he (locate_none hsh h.spots hx hi n hn)
  | some i =>
    cases hj : locate g y with
    | none =>
      refine ⟨g, rfl, same ?_⟩
      rintro s (hs | ⟨_, _, hh, _⟩)
      · exact hs
      · obtain ⟨n, hn, he⟩ := (has_iff h.pic _).1 hh
        exact absurd he (locate_none hsh h.spots hy hj n hn)
    | some j =>
      obtain ⟨a, ha, ea⟩ := locate_some hsh h.spots hx hi
      obtain ⟨b, hb, eb⟩ := locate_some hsh h.spots hy hj
      have hhx : P.Has (rpos x) := (has_iff h.pic _).2 ⟨a, List.mem_of_getElem? ha, ea⟩
      have hhy : P.Has (rpos y) := (has_iff h.pic _).2 ⟨b, List.mem_of_getElem? hb, eb⟩
      have hbt : ∀ e ∈ g.edges, ∀ s, StrokeOf g e s → (s.Between (rpos x) (rpos y) ↔ (e.src = i ∧ e.dst = j) ∨ (e.src = j ∧ e.dst = i)) := by
        intro e _ s hs
        rw [← ea, ← eb]
        exact between_iff' h.plain hs ha hb
      by_cases hc : ∃ e ∈ g.edges, (e.src = i ∧ e.dst = j) ∨ (e.src = j ∧ e.dst = i)
      · have had : g.addEdge i j c = .ok (g, .ok ([], [])) := by
          have : g.hasEdgeBetweenNodes i j = true := (hasEdge_iff g i j).2 hc
          unfold addEdge
          rw [this]
          rfl
        refine ⟨g, by simp only [had]; rfl, same ?_⟩
        rintro s (hs | ⟨_, _, _, hno⟩)
        · exact hs
        · obtain ⟨e, he, hj'⟩ := hc
          obtain ⟨s', hs'⟩ := strokeOf_exists h.plain he
          exact absurd ((hbt e he s' hs').2 hj') (hno s' (by rw [← h.pic]; exact ⟨e, he, hs'⟩))
      · have hno : ∀ s ∈ P.segs, ¬ s.Between (rpos x) (rpos y) := by
          rw [← h.pic]
          rintro s ⟨e, he, hs⟩ hb'
          exact hc ⟨e, he, (hbt e he s hs).1 hb'⟩
        have hs0 : (⟨rpos x, rpos y, c⟩ : Stroke U) ∈ (P.after (.draw x y c)).segs := Or.inr ⟨rfl, hhx, hhy, hno⟩
        have hij : i ≠ j := by
          rintro rfl
          rw [ha] at hb; cases hb
          exact hP.proper _ hs0 (ea.symm.trans eb)
        obtain ⟨_, k2⟩ := C127_add_edge h.plain i j c a b ha hb hij (by
            intro n hn hon
            rw [ea, eb] at hon
            have := hP.free _ hs0 (rpos n.position) ((has_iff h.pic _).2 ⟨n, hn, rfl⟩) hon
            rw [ea, eb]
            rcases this with h1 | h1
            · exact Or.inl h1.symm
            · exact Or.inr h1.symm) (by
            intro e he
            refine Or.inr fun a' b' f1 f2 z o1 o2 => ?_
            have hs : (⟨rpos a'.position, rpos b'.position, e.data⟩ : Stroke U) ∈ P.segs := by
              rw [← h.pic]; exact ⟨e, he, a', b', f1, f2, rfl⟩
            rw [ea, eb] at o2 ⊢
            rcases hP.apart _ (Or.inl hs) _ hs0 with h1 | h1
            · exact absurd h1 (hno _ hs)
            · obtain ⟨t1, t2⟩ := h1 z o1 o2
              exact ⟨t1.imp Eq.symm Eq.symm, t2.imp Eq.symm Eq.symm⟩)
        obtain ⟨had, hpl⟩ := k2 (fun e he hj' => hc ⟨e, he, hj'⟩)
        refine ⟨_, by simp only [had]; rfl, ⟨hpl, ?_, ?_, h.spots⟩⟩
        · intro k l e f hk hl hkl hjn
          simp only [List.getElem?_append] at hk hl
          split at hk <;> split at hl
          · exact h.single k l e f hk hl hkl hjn
          · rename_i h1 h2
            have hl' := List.mem_of_getElem? hl
            rw [List.mem_singleton] at hl'
            subst hl'
            exact hc ⟨e, List.mem_of_getElem? hk, by simp only [Joins] at hjn; omega⟩
          · rename_i h1 h2
            have hk' := List.mem_of_getElem? hk
            rw [List.mem_singleton] at hk'
            subst hk'
            exact hc ⟨f, List.mem_of_getElem? hl, hjn⟩
          · rename_i h1 h2
            have l1 := (List.getElem?_eq_some_iff.1 hk).1
            have l2 := (List.getElem?_eq_some_iff.1 hl).1
            simp only [List.length_singleton] at l1 l2
            omega
        · have hpic := h.pic
          subst hpic
          ext q
          · exact Iff.rfl
          · simp only [picture, Set.mem_ofPred_eq, List.mem_append, List.mem_singleton]
            constructor
            · rintro ⟨e, he | rfl, hs⟩
              · exact Or.inl ⟨e, he, hs⟩
              · obtain ⟨a', b', f1, f2, rfl⟩ := hs
                simp only at f1 f2
                rw [ha] at f1; rw [hb] at f2
                cases f1; cases f2
                rw [ea, eb]
                exact hs0
            · rintro (⟨e, he, hs⟩ | ⟨rfl, _⟩)
              · exact ⟨e, Or.inl he, hs⟩
              · exact ⟨_, Or.inr rfl, a, b, ha, hb, by rw [ea, eb]⟩

/-! ## Erasing -/

theorem Renumbered.keep_of {g' : PlanarGraph F32 T U} {keep ekeep : List ℕ} (hr : Renumbered g g' keep ekeep) {k : ℕ} {n : Node F32 T}
    (h : g'.nodes[k]? = some n) : ∃ i, keep[k]? = some i ∧ g.nodes[i]? = some n := by
  have hlt := (List.getElem?_eq_some_iff.1 h).1
  rw [hr.node_count] at hlt
  refine ⟨_, List.getElem?_eq_getElem hlt, ?_⟩
  rw [← (hr.nodes k _ (List.getElem?_eq_getElem hlt)).2, h]

theorem Renumbered.points {g' : PlanarGraph F32 T U} {keep ekeep : List ℕ} (hr : Renumbered g g' keep ekeep) (n : Node F32 T) :
    n ∈ g'.nodes ↔ ∃ i ∈ keep, g.nodes[i]? = some n := by
  constructor
  · intro hn
    obtain ⟨k, hk⟩ := List.mem_iff_getElem?.1 hn
    obtain ⟨i, h1, h2⟩ := hr.keep_of hk
    exact ⟨i, List.mem_of_getElem? h1, h2⟩
  · rintro ⟨i, hi, h⟩
    obtain ⟨k, hk⟩ := List.mem_iff_getElem?.1 hi
    have := (hr.nodes k i hk).2
    rw [h] at this
    exact List.mem_of_getElem? this

theorem Renumbered.segs {g' : PlanarGraph F32 T U} {keep ekeep : List ℕ} (hr : Renumbered g g' keep ekeep) (s : Stroke U) :
    s ∈ (picture g').segs ↔ ∃ j ∈ ekeep, ∃ e, g.edges[j]? = some e ∧ StrokeOf g e s := by
  have key : ∀ e e' : Edge U, e'.data = e.data → keep[e'.src]? = some e.src → keep[e'.dst]? = some e.dst →
      (StrokeOf g' e' s ↔ StrokeOf g e s) := by
    intro e e' h1 h2 h3
    unfold StrokeOf
    rw [(hr.nodes _ _ h2).2, (hr.nodes _ _ h3).2, h1]
  constructor
  · rintro ⟨e', he', hs⟩
    obtain ⟨k, hk⟩ := List.mem_iff_getElem?.1 he'
    have hlt := (List.getElem?_eq_some_iff.1 hk).1
    rw [hr.edge_count] at hlt
    obtain ⟨e, e1, h1, h2, h3, _, h4, h5⟩ := hr.edges k _ (List.getElem?_eq_getElem hlt)
    rw [hk] at h2; cases h2
    exact ⟨_, List.getElem_mem hlt, e, h1, (key e e' h3 h4 h5).1 hs⟩
  · rintro ⟨j, hj, e, he, hs⟩
    obtain ⟨k, hk⟩ := List.mem_iff_getElem?.1 hj
    obtain ⟨e1, e', h1, h2, h3, _, h4, h5⟩ := hr.edges k j hk
    rw [he] at h1; cases h1
    exact ⟨e', List.mem_of_getElem? h2, (key e e' h3 h4 h5).2 hs⟩

/-- erasing keeps a graph plain -/
theorem Renumbered.shows {g' : PlanarGraph F32 T U} {keep ekeep : List ℕ} (hr : Renumbered g g' keep ekeep) (h : Shows vs g P) :
    Shows vs g' (picture g') := by
  have hn : ∀ n ∈ g'.nodes, n ∈ g.nodes := fun n hn => by
    obtain ⟨i, _, h⟩ := (hr.points n).1 hn
    exact List.mem_of_getElem? h
  refine ⟨⟨hr.wf, h.plain.sheet.mono ?_, ?_, hr.loopFree h.plain.noloop, ?_⟩, hr.noParallel h.single, rfl, fun n hm => h.spots n (hn n hm)⟩
  · intro w hw
    obtain ⟨n, hm, rfl⟩ := List.mem_map.1 hw
    exact List.mem_map_of_mem (hn n hm)
  · intro i j a b ha hb hab
    obtain ⟨i', hi', ha'⟩ := hr.keep_of ha
    obtain ⟨j', hj', hb'⟩ := hr.keep_of hb
    have := h.plain.inj _ _ _ _ ha' hb' hab
    subst this
    exact (List.getElem?_inj (List.getElem?_eq_some_iff.1 hi').1 hr.nodup).1 (hi'.trans hj'.symm)
  · intro e he a b ha hb n hm hon
    have hs : (⟨rpos a.position, rpos b.position, e.data⟩ : Stroke U) ∈ (picture g').segs := ⟨e, he, a, b, ha, hb, rfl⟩
    obtain ⟨_, _, e0, he0, a0, b0, ha0, hb0, heq⟩ := (hr.segs _).1 hs
    simp only [Stroke.mk.injEq] at heq
    obtain ⟨h1, h2, _⟩ := heq
    rw [h1, h2] at hon ⊢
    exact h.plain.free e0 (List.mem_of_getElem? he0) a0 b0 ha0 hb0 n (hn n hm) hon

theorem seg_mem (h : Shows vs g P) {s : Stroke U} : s ∈ P.segs ↔ ∃ (j : ℕ) (e : Edge U), g.edges[j]? = some e ∧ StrokeOf g e s := by
  rw [← h.pic]
  constructor
  · rintro ⟨e, he, hs⟩
    obtain ⟨j, hj⟩ := List.mem_iff_getElem?.1 he
    exact ⟨j, e, hj, hs⟩
  · rintro ⟨j, e, he, hs⟩
    exact ⟨e, List.mem_of_getElem? he, hs⟩

theorem point_mem (h : Shows vs g P) {q : (ℝ × ℝ) × T} : q ∈ P.points ↔ ∃ (i : ℕ) (n : Node F32 T), g.nodes[i]? = some n ∧ q = (rpos n.position, n.data) := by
  rw [← h.pic]
  constructor
  · rintro ⟨n, hn, hq⟩
    obtain ⟨i, hi⟩ := List.mem_iff_getElem?.1 hn
    exact ⟨i, n, hi, hq⟩
  · rintro ⟨i, n, hi, hq⟩
    exact ⟨n, List.mem_of_getElem? hi, hq⟩

/-- slots of segments at a node -/
theorem touching (h : Shows vs g P) {i : ℕ} {n : Node F32 T} (hi : g.nodes[i]? = some n) (R : Stroke U → Prop) (Q : ℕ → Edge U → Prop)
    (hRQ : ∀ j e s, g.edges[j]? = some e → StrokeOf g e s → (R s ↔ Q j e)) :
    (∃ s ∈ P.segs, R s ∧ s.Touches (rpos n.position)) ↔ ∃ j e, g.edges[j]? = some e ∧ Q j e ∧ (e.src = i ∨ e.dst = i) := by
  constructor
  · rintro ⟨s, hs, hR, ht⟩
    obtain ⟨j, e, he, hso⟩ := (seg_mem h).1 hs
    exact ⟨j, e, he, (hRQ j e s he hso).1 hR, (touches_iff h.plain hso hi).1 ht⟩
  · rintro ⟨j, e, he, hQ, ht⟩
    obtain ⟨s, hso⟩ := strokeOf_exists h.plain (List.mem_of_getElem? he)
    exact ⟨s, (seg_mem h).2 ⟨j, e, he, hso⟩, (hRQ j e s he hso).2 hQ, (touches_iff h.plain hso hi).2 ht⟩

/-- the common part of both kinds of erasing -/
theorem without_step {g' : PlanarGraph F32 T U} {keep ekeep : List ℕ} (hr : Renumbered g g' keep ekeep) (h : Shows vs g P)
    (R : Stroke U → Prop) (Q : ℕ → Edge U → Prop) (hRQ : ∀ j e s, g.edges[j]? = some e → StrokeOf g e s → (R s ↔ Q j e))
    (he : ∀ j, j ∈ ekeep ↔ ∃ e, g.edges[j]? = some e ∧ ¬ Q j e) :
    (picture g').segs = (P.without R).segs ∧
    ((∀ i, i < g.nodes.length → (i ∈ keep ↔ ((∃ j e, g.edges[j]? = some e ∧ Q j e ∧ (e.src = i ∨ e.dst = i)) →
        ∃ j e, g.edges[j]? = some e ∧ ¬ Q j e ∧ (e.src = i ∨ e.dst = i)))) →
      (picture g').points = (P.without R).points) := by
  constructor
  · ext s
    rw [hr.segs]
    constructor
    · rintro ⟨j, hj, e, hje, hs⟩
      obtain ⟨e1, h1, h2⟩ := (he j).1 hj
      rw [hje] at h1; cases h1
      exact ⟨(seg_mem h).2 ⟨j, e, hje, hs⟩, fun hR => h2 ((hRQ j e s hje hs).1 hR)⟩
    · rintro ⟨hs, hR⟩
      obtain ⟨j, e, hje, hso⟩ := (seg_mem h).1 hs
      exact ⟨j, (he j).2 ⟨e, hje, fun hQ => hR ((hRQ j e s hje hso).2 hQ)⟩, e, hje, hso⟩
  · intro hk
    ext q
    have hstep : ∀ (i : ℕ) (n : Node F32 T), g.nodes[i]? = some n → (i ∈ keep ↔
        ((∃ s ∈ P.segs, R s ∧ s.Touches (rpos n.position)) → ∃ s ∈ P.segs, ¬ R s ∧ s.Touches (rpos n.position))) := by
      intro i n hi
      rw [hk i (List.getElem?_eq_some_iff.1 hi).1, touching h hi R Q hRQ,
        touching h hi (fun s => ¬ R s) (fun j e => ¬ Q j e) (fun j e s h1 h2 => not_congr (hRQ j e s h1 h2))]
    constructor
    · rintro ⟨n, hn, rfl⟩
      obtain ⟨i, hi, hin⟩ := (hr.points n).1 hn
      exact ⟨(point_mem h).2 ⟨i, n, hin, rfl⟩, (hstep i n hin).1 hi⟩
    · rintro ⟨hq, hc⟩
      obtain ⟨i, n, hin, rfl⟩ := (point_mem h).1 hq
      exact ⟨n, (hr.points n).2 ⟨i, (hstep i n hin).2 hc, hin⟩, rfl⟩

/-- nothing happens if nothing is to be erased -/
theorem without_none (P : Picture T U) (R : Stroke U → Prop) (h : ∀ s ∈ P.segs, ¬ R s) : P.without R = P := by
  ext q
  · exact ⟨fun hq => hq.1, fun hq => ⟨hq, fun ⟨s, hs, hR, _⟩ => absurd hR (h s hs)⟩⟩
  · exact ⟨fun hq => hq.1, fun hq => ⟨hq, h q hq⟩⟩

theorem locateEdge_some (hsh : OnSheet vs) (h : Shows vs g P) {x y : Vec2 F32} (hx : x ∈ vs) (hy : y ∈ vs) {k : ℕ}
    (hk : locateEdge g x y = some k) : ∃ i j a b e, g.nodes[i]? = some a ∧ g.nodes[j]? = some b ∧ rpos a.position = rpos x ∧
      rpos b.position = rpos y ∧ g.edges[k]? = some e ∧ ((e.src = i ∧ e.dst = j) ∨ (e.src = j ∧ e.dst = i)) := by
  unfold locateEdge at hk
  cases hi : locate g x with
  | none => rw [hi] at hk; cases hk
  | some i =>
    cases hj : locate g y with
    | none => rw [hi, hj] at hk; cases hk
    | some j =>
      rw [hi, hj] at hk
      obtain ⟨a, ha, ea⟩ := locate_some hsh h.spots hx hi
      obtain ⟨b, hb, eb⟩ := locate_some hsh h.spots hy hj
      obtain ⟨hlt, h1, _⟩ := List.findIdx?_eq_some_iff_getElem.1 hk
      refine ⟨i, j, a, b, _, ha, hb, ea, eb, List.getElem?_eq_getElem hlt, ?_⟩
      simpa using h1

theorem locateEdge_none (hsh : OnSheet vs) (h : Shows vs g P) {x y : Vec2 F32} (hx : x ∈ vs) (hy : y ∈ vs)
    (hk : locateEdge g x y = none) : ∀ s ∈ P.segs, ¬ s.Between (rpos x) (rpos y) := by
  intro s hs hb'
  obtain ⟨k, e, he, hso⟩ := (seg_mem h).1 hs
  obtain ⟨a, b, ha, hb, rfl⟩ := id hso
  have hhx : ∃ n ∈ g.nodes, rpos n.position = rpos x := by
    rcases hb' with ⟨h1, _⟩ | ⟨_, h1⟩
    · exact ⟨a, List.mem_of_getElem? ha, h1⟩
    · exact ⟨b, List.mem_of_getElem? hb, h1⟩
  have hhy : ∃ n ∈ g.nodes, rpos n.position = rpos y := by
    rcases hb' with ⟨_, h1⟩ | ⟨h1, _⟩
    · exact ⟨b, List.mem_of_getElem? hb, h1⟩
    · exact ⟨a, List.mem_of_getElem? ha, h1⟩
  unfold locateEdge at hk
  cases hi : locate g x with
  | none =>
    obtain ⟨n, hn, he'⟩ := hhx
    exact locate_none hsh h.spots hx hi n hn he'
  | some i =>
    cases hj : locate g y with
    | none =>
      obtain ⟨n, hn, he'⟩ := hhy
      exact locate_none hsh h.spots hy hj n hn he'
    | some j =>
      rw [hi, hj] at hk
      obtain ⟨a', ha', ea⟩ := locate_some hsh h.spots hx hi
      obtain ⟨b', hb'', eb⟩ := locate_some hsh h.spots hy hj
      rw [← ea, ← eb] at hb'
      have := (between_iff' h.plain hso ha' hb'').1 hb'
      have hf := List.findIdx?_eq_none_iff.1 hk e (List.mem_of_getElem? he)
      revert hf
      simp only [Bool.or_eq_false_iff, Bool.and_eq_false_iff, beq_eq_false_iff_ne]
      omega

theorem erase_step [Inhabited T] (p : Profile) (hsh : OnSheet vs) (h : Shows vs g P) (x y : Vec2 F32) (hx : x ∈ vs) (hy : y ∈ vs)
    (g' : PlanarGraph F32 T U) (hp : perform p g (.erase x y) = .ok g') : Shows vs g' (P.after (.erase x y)) := by
  simp only [perform] at hp
  cases hk : locateEdge g x y with
  | none =>
    rw [hk] at hp
    cases hp
    have := without_none P _ (locateEdge_none hsh h hx hy hk)
    exact ⟨h.plain, h.single, by rw [h.pic]; exact this.symm, h.spots⟩
  | some k =>
    rw [hk] at hp
    obtain ⟨i, j, a, b, e, ha, hb, ea, eb, he, hj⟩ := locateEdge_some hsh h hx hy hk
    cases hrm : g.removeEdge p k with
    | error err => simp only [hrm] at hp; cases hp
    | ok r =>
      obtain ⟨g1, r⟩ := r
      simp only [hrm] at hp
      cases hp
      have hne : e.src ≠ e.dst := h.plain.noloop e (List.mem_of_getElem? he)
      obtain ⟨keep, ekeep, hr, _, hkeep, hek⟩ := C62_remove_edge_partial p g h.plain.wf k e he (fun hc => absurd hc hne) g1 r hrm
      have hQ : ∀ (j' : ℕ) (e' : Edge U) s, g.edges[j']? = some e' → StrokeOf g e' s → (s.Between (rpos x) (rpos y) ↔ j' = k) := by
        intro j' e' s h1 h2
        rw [← ea, ← eb, between_iff' h.plain h2 ha hb]
        constructor
        · intro hc
          by_contra hjk
          exact h.single j' k e' e h1 he hjk (by simp only [Joins]; omega)
        · rintro rfl
          rw [he] at h1; cases h1
          exact hj
      obtain ⟨s1, s2⟩ := without_step hr h (fun s => s.Between (rpos x) (rpos y)) (fun j' _ => j' = k) hQ (by
        intro j'
        rw [hek]
        constructor
        · rintro ⟨h1, h2⟩
          exact ⟨_, List.getElem?_eq_getElem h1, h2⟩
        · rintro ⟨e', h1, h2⟩
          exact ⟨(List.getElem?_eq_some_iff.1 h1).1, h2⟩)
      have s2 := s2 (by
        intro m hm
        rw [hkeep]
        constructor
        · rintro ⟨_, hno⟩ ⟨j', e', h1, rfl, h3⟩
          rw [he] at h1; cases h1
          by_contra hall
          apply hno
          refine ⟨h3, ⟨e, he, h3⟩, fun j2 e2 h4 h5 => ?_⟩
          by_contra h6
          exact hall ⟨j2, e2, h4, h6, h5⟩
        · intro himp
          refine ⟨hm, ?_⟩
          rintro ⟨h3, _, honly⟩
          obtain ⟨j2, e2, h4, h5, h6⟩ := himp ⟨k, e, he, rfl, h3⟩
          exact h5 (honly j2 e2 h4 h6))
      have := hr.shows h
      exact ⟨this.plain, this.single, Picture.ext s2 s1, this.spots⟩

theorem clear_step [Inhabited T] (p : Profile) (hsh : OnSheet vs) (h : Shows vs g P) (x : Vec2 F32) (hx : x ∈ vs)
    (g' : PlanarGraph F32 T U) (hp : perform p g (.clear x) = .ok g') : Shows vs g' (P.after (.clear x)) := by
  simp only [perform] at hp
  cases hk : locate g x with
  | none =>
    rw [hk] at hp
    cases hp
    have hno := locate_none hsh h.spots hx hk
    have hw : P.without (fun s => s.Touches (rpos x)) = P := by
      apply without_none
      intro s hs ht
      obtain ⟨k, e, he, a, b, ha, hb, rfl⟩ := (seg_mem h).1 hs
      rcases ht with h1 | h1
      · exact hno a (List.mem_of_getElem? ha) h1
      · exact hno b (List.mem_of_getElem? hb) h1
    refine ⟨h.plain, h.single, ?_, h.spots⟩
    rw [h.pic]
    unfold Picture.after
    simp only [hw]
    ext q
    · constructor
      · intro hq
        refine ⟨hq, ?_⟩
        obtain ⟨i, n, hi, rfl⟩ := (point_mem h).1 hq
        exact hno n (List.mem_of_getElem? hi)
      · exact fun hq => hq.1
    · exact Iff.rfl
  | some id =>
    rw [hk] at hp
    obtain ⟨a, ha, ea⟩ := locate_some hsh h.spots hx hk
    have hid := (List.getElem?_eq_some_iff.1 ha).1
    cases hrm : g.removeNode p id with
    | error err => simp only [hrm] at hp; cases hp
    | ok r =>
      obtain ⟨g1, r⟩ := r
      simp only [hrm] at hp
      cases hp
      obtain ⟨keep, ekeep, hr, _, _, hkeep, hek⟩ := C64_remove_node p g h.plain.wf id hid (by
        intro j e h1 h2 h3 _
        exact h.plain.noloop e (List.mem_of_getElem? h1) (h2.trans h3.symm)) g1 r hrm
      have hdeg : ∃ e ∈ g.edges, e.src = id ∨ e.dst = id := by
        by_contra hc
        push Not at hc
        obtain ⟨err, herr⟩ := (C63_panics_iff_partial p g id).2 ⟨hid, Or.inl hc⟩
        rw [hrm] at herr; cases herr
      have hQ : ∀ (j' : ℕ) (e' : Edge U) s, g.edges[j']? = some e' → StrokeOf g e' s → (s.Touches (rpos x) ↔ (e'.src = id ∨ e'.dst = id)) := by
        intro j' e' s h1 h2
        rw [← ea]
        exact touches_iff h.plain h2 ha
      obtain ⟨s1, s2⟩ := without_step hr h (fun s => s.Touches (rpos x)) (fun _ e' => e'.src = id ∨ e'.dst = id) hQ (by
        intro j'
        rw [hek]
        refine exists_congr fun e' => and_congr_right fun _ => ?_
        tauto)
      have s2 := s2 (by
        intro m hm
        rw [hkeep]
        constructor
        · rintro ⟨_, hne, hno⟩ ⟨j', e', h1, h2, h3⟩
          by_contra hall
          apply hno
          refine ⟨hne, j', e', h1, by omega, ⟨e', h1, h3⟩, fun j2 e2 h4 h5 => ?_⟩
          by_contra h6
          have h7 : e2.src = id ∨ e2.dst = id := by
            by_contra h8
            exact hall ⟨j2, e2, h4, h8, h5⟩
          exact h.single j' j2 e' e2 h1 h4 (fun hc => h6 hc.symm) (by simp only [Joins]; omega)
        · intro himp
          refine ⟨hm, ?_, ?_⟩
          · rintro rfl
            obtain ⟨e, he, ht⟩ := hdeg
            obtain ⟨j', hj'⟩ := List.mem_iff_getElem?.1 he
            obtain ⟨_, e2, _, h5, h6⟩ := himp ⟨j', e, hj', ht, ht⟩
            exact h5 h6
          · rintro ⟨hne, j', e', h1, h2, _, honly⟩
            obtain ⟨j2, e2, h4, h5, h6⟩ := himp ⟨j', e', h1, by omega, by omega⟩
            have := honly j2 e2 h4 h6
            subst this
            rw [h1] at h4; cases h4
            omega)
      have hsx := hr.shows h
      refine ⟨hsx.plain, hsx.single, ?_, hsx.spots⟩
      refine Picture.ext ?_ s1
      rw [s2]
      ext q
      constructor
      · intro hq
        refine ⟨hq, fun hqx => ?_⟩
        have hq' := hq
        rw [← s2] at hq'
        obtain ⟨n, hn, rfl⟩ := hq'
        obtain ⟨m, hm, hmn⟩ := (hr.points n).1 hn
        have : m = id := h.plain.inj _ _ _ _ hmn ha (by rw [ea]; exact hqx)
        exact ((hkeep m).1 hm).2.1 this
      · exact fun hq => hq.1

/-! ## Theorems -/

/-- **C133, one edit.** On a graph that shows a picture: marking and drawing never panic; whatever the edit, if it does not panic the
graph shows the picture after the edit, provided that picture is plane. -/
theorem C133_step [Inhabited T] (p : Profile) (hsh : OnSheet vs) (h : Shows vs g P) (e : Edit T U) (hv : ∀ v ∈ editSpots [e], v ∈ vs)
    (hP : (P.after e).IsPlane) :
    (∀ g', perform p g e = .ok g' → Shows vs g' (P.after e)) ∧
    ((∃ err, perform p g e = .error err) → (∃ x y, e = .erase x y) ∨ ∃ x, e = .clear x) := by
  cases e with
  | point x t =>
    obtain ⟨g1, h1, h2⟩ := point_step p hsh h x t (hv x (by simp [editSpots])) hP
    rw [h1]
    exact ⟨fun g' hg => by cases hg; exact h2, fun ⟨_, hc⟩ => by cases hc⟩
  | draw x y c =>
    obtain ⟨g1, h1, h2⟩ := draw_step p hsh h x y c (hv x (by simp [editSpots])) (hv y (by simp [editSpots])) hP
    rw [h1]
    exact ⟨fun g' hg => by cases hg; exact h2, fun ⟨_, hc⟩ => by cases hc⟩
  | erase x y =>
    exact ⟨erase_step p hsh h x y (hv x (by simp [editSpots])) (hv y (by simp [editSpots])), fun _ => Or.inl ⟨x, y, rfl⟩⟩
  | clear x => exact ⟨clear_step p hsh h x (hv x (by simp [editSpots])), fun _ => Or.inr ⟨x, rfl⟩⟩

/-- **C133, panics.** Erasing a point panics exactly if the point is marked and no segment ends there; erasing a segment panics only if
it is there and further segments end at both of its ends. -/
theorem C133_panics [Inhabited T] (p : Profile) (hsh : OnSheet vs) (h : Shows vs g P) (x y : Vec2 F32) (hx : x ∈ vs) (hy : y ∈ vs) :
    ((∃ err, perform p g (.clear x) = .error err) ↔ P.Has (rpos x) ∧ ∀ s ∈ P.segs, ¬ s.Touches (rpos x)) ∧
    ((∃ err, perform p g (.erase x y) = .error err) → (∃ s ∈ P.segs, s.Between (rpos x) (rpos y)) ∧
      (∃ s ∈ P.segs, ¬ s.Between (rpos x) (rpos y) ∧ s.Touches (rpos x)) ∧
      ∃ s ∈ P.segs, ¬ s.Between (rpos x) (rpos y) ∧ s.Touches (rpos y)) := by
  constructor
  · simp only [perform]
    cases hk : locate g x with
    | none =>
      constructor
      · rintro ⟨_, hc⟩; cases hc
      · rintro ⟨hh, _⟩
        obtain ⟨n, hn, he⟩ := (has_iff h.pic _).1 hh
        exact absurd he (locate_none hsh h.spots hx hk n hn)
    | some id =>
      obtain ⟨a, ha, ea⟩ := locate_some hsh h.spots hx hk
      have hid := (List.getElem?_eq_some_iff.1 ha).1
      have hiff : (∃ err, (g.removeNode p id).map (·.1) = .error err) ↔ ∃ err, g.removeNode p id = .error err := by
        cases g.removeNode p id <;> simp [Except.map]
      simp only
      rw [hiff, C63_panics_iff_partial]
      have hnl : ¬ (p = .debug ∧ id = 0 ∧ 2 ≤ g.nodes.length ∧
          ∃ j e, g.edges[j]? = some e ∧ e.src = id ∧ e.dst = id ∧ OnlyEdgeAt g j id) := by
        rintro ⟨_, _, _, j, e, h1, h2, h3, _⟩
        exact h.plain.noloop e (List.mem_of_getElem? h1) (h2.trans h3.symm)
      simp only [hnl, or_false, hid, true_and]
      have hh : P.Has (rpos x) := (has_iff h.pic _).2 ⟨a, List.mem_of_getElem? ha, ea⟩
      simp only [hh, true_and]
      constructor
      · intro hno s hs ht
        obtain ⟨j, e, he, hso⟩ := (seg_mem h).1 hs
        rw [← ea, touches_iff h.plain hso ha] at ht
        have := hno e (List.mem_of_getElem? he)
        omega
      · intro hno e he
        obtain ⟨s, hso⟩ := strokeOf_exists h.plain he
        obtain ⟨j, hj⟩ := List.mem_iff_getElem?.1 he
        have := hno s ((seg_mem h).2 ⟨j, e, hj, hso⟩)
        rw [← ea, touches_iff h.plain hso ha] at this
        omega
  · simp only [perform]
    cases hk : locateEdge g x y with
    | none => rintro ⟨_, hc⟩; cases hc
    | some k =>
      obtain ⟨i, j, a, b, e, ha, hb, ea, eb, he, hj⟩ := locateEdge_some hsh h hx hy hk
      have hiff : (∃ err, (g.removeEdge p k).map (·.1) = .error err) ↔ ∃ err, g.removeEdge p k = .error err := by
        cases g.removeEdge p k <;> simp [Except.map]
      simp only
      rw [hiff, C61_panics_iff_partial p g h.plain.wf]
      rintro ⟨e', he', hc⟩
      rw [he] at he'; cases he'
      have hne : e.src ≠ e.dst := h.plain.noloop e (List.mem_of_getElem? he)
      rcases hc with ⟨_, n1, n2⟩ | ⟨_, h1, h2, _⟩
      swap
      · exact absurd (h1.trans h2.symm) hne
      have other : ∀ (m : ℕ) (n : Node F32 T) z, g.nodes[m]? = some n → rpos n.position = z → (e.src = m ∨ e.dst = m) →
          ¬ OnlyEdgeAt g k m → ∃ s ∈ P.segs, ¬ s.Between (rpos x) (rpos y) ∧ s.Touches z := by
        rintro m n z hm rfl ht hno
        by_contra hall
        apply hno
        refine ⟨⟨e, he, ht⟩, fun j2 e2 h4 h5 => ?_⟩
        by_contra h6
        obtain ⟨s, hso⟩ := strokeOf_exists h.plain (List.mem_of_getElem? h4)
        refine hall ⟨s, (seg_mem h).2 ⟨j2, e2, h4, hso⟩, ?_, (touches_iff h.plain hso hm).2 h5⟩
        rw [← ea, ← eb, between_iff' h.plain hso ha hb]
        intro h7
        exact h.single j2 k e2 e h4 he h6 (by simp only [Joins]; omega)
      obtain ⟨s, hso⟩ := strokeOf_exists h.plain (List.mem_of_getElem? he)
      refine ⟨⟨s, (seg_mem h).2 ⟨k, e, he, hso⟩, ?_⟩, ?_, ?_⟩
      · rw [← ea, ← eb, between_iff' h.plain hso ha hb]; exact hj
      · refine other i a _ ha ea (by omega) ?_
        rcases hj with ⟨r1, r2⟩ | ⟨r1, r2⟩
        · rw [← r1]; exact n1
        · rw [← r2]; exact n2
      · refine other j b _ hb eb (by omega) ?_
        rcases hj with ⟨r1, r2⟩ | ⟨r1, r2⟩
        · rw [← r2]; exact n2
        · rw [← r1]; exact n1

theorem edit_shows [Inhabited T] (p : Profile) (hsh : OnSheet vs) (es : List (Edit T U)) :
    ∀ (g : PlanarGraph F32 T U) (P : Picture T U), Shows vs g P → (∀ v ∈ editSpots es, v ∈ vs) → StaysPlane P es →
      ∀ g', edit p g es = .ok g' → Shows vs g' (P.afterAll es) := by
  induction es with
  | nil => intro g P h _ _ g' hg; cases hg; exact h
  | cons e es ih =>
    intro g P h hv hP g' hg
    have hv1 : ∀ v ∈ editSpots [e], v ∈ vs := fun v hm => hv v (by cases e <;> simp [editSpots] at hm ⊢ <;> tauto)
    have hv2 : ∀ v ∈ editSpots es, v ∈ vs := fun v hm => hv v (by cases e <;> simp [editSpots, hm])
    unfold edit at hg
    cases hp : perform p g e with
    | error err => rw [hp] at hg; cases hg
    | ok g1 =>
      rw [hp] at hg
      exact ih g1 _ ((C133_step p hsh h e hv1 hP.1).1 g1 hp) hv2 hP.2 g' hg

theorem shows_new : Shows vs (PlanarGraph.new : PlanarGraph F32 T U) Picture.blank := by
  refine ⟨⟨?_, ⟨?_, ?_⟩, ?_, ?_, ?_⟩, ?_, ?_, ?_⟩ <;>
    simp [PlanarGraph.new, WF, NoParallel, picture, Picture.blank]

/-- **C133.** For all edits with whole coordinates (of a size of at most `2^22`) in a square of side 40 that keep the picture plane, in
both build profiles: if no call panics, the f32 graph shows exactly the picture that the edits describe, with one node for each point and
one edge for each segment. -/
theorem C133_session [Inhabited T] (p : Profile) (es : List (Edit T U)) (hsh : OnSheet (editSpots es))
    (hP : StaysPlane Picture.blank es) (g : PlanarGraph F32 T U) (h : edit p PlanarGraph.new es = .ok g) :
    picture g = Picture.blank.afterAll es ∧
    (∀ (i j : ℕ) a b, g.nodes[i]? = some a → g.nodes[j]? = some b → rpos a.position = rpos b.position → i = j) ∧
    (∀ (k l : ℕ) e f s s', g.edges[k]? = some e → g.edges[l]? = some f → StrokeOf g e s → StrokeOf g f s' → s.Between s'.a s'.b → k = l) := by
  have hs := edit_shows p hsh es PlanarGraph.new _ shows_new (fun _ h => h) hP g h
  refine ⟨hs.pic, hs.plain.inj, ?_⟩
  intro k l e f s s' hk hl h1 h2 hb
  by_contra hkl
  obtain ⟨a, b, ha, hb', rfl⟩ := h2
  have := (between_iff' hs.plain h1 ha hb').1 hb
  exact hs.single k l e f hk hl hkl (by simp only [Joins]; omega)

/-- **C133, order and detours do not matter.** Two sessions of edits that describe the same picture leave graphs that show the same,
whatever was drawn and erased in between. -/
theorem C133_same_picture [Inhabited T] (p p' : Profile) (es es' : List (Edit T U)) (hsh : OnSheet (editSpots es))
    (hsh' : OnSheet (editSpots es')) (hP : StaysPlane Picture.blank es) (hP' : StaysPlane Picture.blank es')
    (heq : (Picture.blank : Picture T U).afterAll es = Picture.blank.afterAll es') (g g' : PlanarGraph F32 T U)
    (h : edit p PlanarGraph.new es = .ok g) (h' : edit p' PlanarGraph.new es' = .ok g') : picture g = picture g' := by
  rw [(C133_session p es hsh hP g h).1, (C133_session p' es' hsh' hP' g' h').1, heq]

/-! ## Examples -/

/-- A picture is plane if it is part of a plane picture. -/
theorem Picture.IsPlane.mono {P Q : Picture T U} (h : Q.IsPlane) (hp : P.points ⊆ Q.points) (hs : P.segs ⊆ Q.segs) : P.IsPlane :=
  ⟨fun s h1 => h.proper s (hs h1), fun s h1 x ⟨t, ht⟩ => h.free s (hs h1) x ⟨t, hp ht⟩,
    fun s h1 s' h2 => h.apart s (hs h1) s' (hs h2)⟩

/-- what an edit adds -/
def Edit.In (Q : Picture T U) : Edit T U → Prop
  | .point x t => (rpos x, t) ∈ Q.points
  | .draw x y c => (⟨rpos x, rpos y, c⟩ : Stroke U) ∈ Q.segs
  | _ => True

/-- **C133, a sufficient condition.** The picture stays plane if all that is ever drawn is one plane picture. -/
theorem C133_stays_plane {Q : Picture T U} (hQ : Q.IsPlane) (es : List (Edit T U)) : ∀ P : Picture T U, P.points ⊆ Q.points → P.segs ⊆ Q.segs →
    (∀ e ∈ es, e.In Q) → StaysPlane P es := by
  induction es with
  | nil => intros; trivial
  | cons e es ih =>
    intro P hp hs he
    have hin := he e (List.mem_cons_self ..)
    have hsub : (P.after e).points ⊆ Q.points ∧ (P.after e).segs ⊆ Q.segs := by
      cases e with
      | point x t =>
        refine ⟨?_, hs⟩
        rintro q (hq | ⟨rfl, _⟩)
        · exact hp hq
        · exact hin
      | draw x y c =>
        refine ⟨hp, ?_⟩
        rintro q (hq | ⟨rfl, _⟩)
        · exact hs hq
        · exact hin
      | erase x y => exact ⟨fun q hq => hp hq.1, fun q hq => hs hq.1⟩
      | clear x => exact ⟨fun q hq => hp hq.1.1, fun q hq => hs hq.1⟩
    exact ⟨hQ.mono hsub.1 hsub.2, ih _ hsub.1 hsub.2 fun e h => he e (List.mem_cons_of_mem _ h)⟩

/-- a triangle is drawn, a side and a corner are erased, and the corner is marked again -/
def sketch : List (Edit ℕ ℕ) :=
  [.point (pos 0 0) 1, .point (pos 37 11) 2, .draw (pos 0 0) (pos 37 11) 10, .point (pos 12 40) 3, .draw (pos 12 40) (pos 37 11) 20,
    .draw (pos 0 0) (pos 12 40) 30, .erase (pos 37 11) (pos 0 0), .clear (pos 12 40), .point (pos 12 40) 3]

/-- all that `sketch` draws -/
def triangle : Picture ℕ ℕ :=
  ⟨{((0, 0), 1), ((37, 11), 2), ((12, 40), 3)}, {⟨(0, 0), (37, 11), 10⟩, ⟨(12, 40), (37, 11), 20⟩, ⟨(0, 0), (12, 40), 30⟩}⟩

theorem triangle_plane : triangle.IsPlane := by
  refine ⟨?_, ?_, ?_⟩
  · rintro s (rfl | rfl | rfl) <;> norm_num
  · rintro s (rfl | rfl | rfl) x ⟨t, (h | h | h)⟩ <;> obtain ⟨rfl, _⟩ := Prod.mk.inj h <;>
      first
        | (intro _; left; rfl)
        | (intro _; right; rfl)
        | (rintro ⟨t, t0, t1, ht⟩; exfalso; simp only [Prod.mk.injEq] at ht; obtain ⟨h1, h2⟩ := ht; linarith)
  · have ends : ∀ {a b c d : ℝ × ℝ} {w w' : ℕ}, (∀ t u : ℝ, 0 ≤ t → t ≤ 1 → 0 ≤ u → u ≤ 1 → a.1 + t * (b.1 - a.1) = c.1 + u * (d.1 - c.1) →
        a.2 + t * (b.2 - a.2) = c.2 + u * (d.2 - c.2) → (t = 0 ∨ t = 1) ∧ (u = 0 ∨ u = 1)) →
        (⟨a, b, w⟩ : Stroke ℕ).Between c d ∨ ∀ y, (⟨a, b, w⟩ : Stroke ℕ).On y → (⟨c, d, w'⟩ : Stroke ℕ).On y →
          (⟨a, b, w⟩ : Stroke ℕ).Touches y ∧ (⟨c, d, w'⟩ : Stroke ℕ).Touches y := by
      intro a b c d w w' h
      right
      rintro y ⟨t, t0, t1, rfl⟩ ⟨u, u0, u1, hu⟩
      obtain ⟨h1, h2⟩ := Prod.mk.inj hu
      obtain ⟨ht, hu'⟩ := h t u t0 t1 u0 u1 h1 h2
      constructor
      · rcases ht with rfl | rfl
        · left; ext <;> simp
        · right; ext <;> simp
      · rw [hu]
        rcases hu' with rfl | rfl
        · left; ext <;> simp
        · right; ext <;> simp
    rintro s (rfl | rfl | rfl) s' (rfl | rfl | rfl) <;>
      first
        | exact Or.inl (Or.inl ⟨rfl, rfl⟩)
        | (apply ends
           intro t u t0 t1 u0 u1 h1 h2
           norm_num at h1 h2
           first
             | (exfalso; linarith)
             | exact ⟨Or.inl (by linarith), Or.inl (by linarith)⟩
             | exact ⟨Or.inl (by linarith), Or.inr (by linarith)⟩
             | exact ⟨Or.inr (by linarith), Or.inl (by linarith)⟩
             | exact ⟨Or.inr (by linarith), Or.inr (by linarith)⟩)

theorem sketch_ok : OnSheet (editSpots sketch) ∧ StaysPlane Picture.blank sketch := by
  have e0 : At (pos 0 0) 0 0 := pos_at (by norm_num) (by norm_num)
  have e1 : At (pos 37 11) 37 11 := pos_at (by norm_num) (by norm_num)
  have e2 : At (pos 12 40) 12 40 := pos_at (by norm_num) (by norm_num)
  have r0 : rpos (pos 0 0) = (0, 0) := by rw [rpos_at e0]; norm_num
  have r1 : rpos (pos 37 11) = (37, 11) := by rw [rpos_at e1]; norm_num
  have r2 : rpos (pos 12 40) = (12, 40) := by rw [rpos_at e2]; norm_num
  have hmem : ∀ v ∈ editSpots sketch, v = pos 0 0 ∨ v = pos 37 11 ∨ v = pos 12 40 := by
    intro v hv
    simp only [sketch, editSpots, List.mem_cons, List.not_mem_nil, or_false] at hv
    tauto
  refine ⟨⟨?_, ?_⟩, C133_stays_plane triangle_plane _ _ (Set.empty_subset _) (Set.empty_subset _) ?_⟩
  · intro v hv
    rcases hmem v hv with rfl | rfl | rfl
    exacts [⟨_, _, e0, by norm_num, by norm_num⟩, ⟨_, _, e1, by norm_num, by norm_num⟩, ⟨_, _, e2, by norm_num, by norm_num⟩]
  · intro v hv w hw
    rcases hmem v hv with rfl | rfl | rfl <;> rcases hmem w hw with rfl | rfl | rfl <;>
      simp only [r0, r1, r2] <;> norm_num [abs_le]
  · intro e he
    simp only [sketch, List.mem_cons, List.not_mem_nil, or_false] at he
    rcases he with rfl | rfl | rfl | rfl | rfl | rfl | rfl | rfl | rfl <;> simp [Edit.In, triangle, r0, r1, r2]

/-- The hypotheses of `C133_session` are met by `sketch`, in both profiles: one node is left. -/
example (p : Profile) : OnSheet (editSpots sketch) ∧ StaysPlane Picture.blank sketch ∧
    edit p PlanarGraph.new sketch = .ok ⟨[⟨pos 12 40, 3, ""⟩], []⟩ := by
  refine ⟨sketch_ok.1, sketch_ok.2, ?_⟩
  cases p <;> decide +kernel

/-- the same without erasing the corner -/
example (p : Profile) : edit p PlanarGraph.new (sketch.take 7) =
    .ok ⟨[⟨pos 0 0, 1, ""⟩, ⟨pos 37 11, 2, ""⟩, ⟨pos 12 40, 3, ""⟩], [⟨0, 2, 30, ""⟩, ⟨2, 1, 20, ""⟩]⟩ := by
  cases p <;> decide +kernel

/-- **C133, a panic that happens.** The side drawn last cannot be erased first, whatever its place in the picture. -/
theorem C133_sharp_panic (p : Profile) : edit p PlanarGraph.new (sketch.take 6 ++ [.erase (pos 0 0) (pos 12 40)]) = .error .indexOutOfBounds := by
  cases p <;> decide +kernel

end Kami.Graph
