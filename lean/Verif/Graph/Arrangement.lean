import Verif.Graph.PlanarHistory
import Verif.Graph.Exact
/-!
# C102, C103: the subdivision built by a sequence of requests, in exact arithmetic

A client asks for points and for segments between points it asked for before, using the indices `add_node` returned.  If
the requests are in general position with respect to the tolerance, the graph is the arrangement of the segments: the
nodes are the requested points and the crossings, the edges are the pieces of the segments between consecutive nodes.
The order of the requests does not matter.
-/

set_option autoImplicit false

namespace Kami.Graph

open Kami
open scoped Kami
open PlanarGraph
open Kami.UtilThm (dst crs dt OnSegR)

variable {T U : Type}

noncomputable section

/-! ## Specification -/

/-- a request of a client: a point with data, or a segment between the `i`-th and the `j`-th requested point with data -/
inductive Req (T U : Type)
  | point (x : ℝ × ℝ) (t : T)
  | seg (i j : ℕ) (c : U)

/-- A client of the library: it calls `add_node` (src/graph/planar_graph.rs:180) for a point and keeps the returned index, and
`add_edge(..).unwrap()` (src/graph/planar_graph.rs:204) with the indices it got for a segment. -/
def client [Inhabited T] : PlanarGraph XReal T U → List ℕ → List (Req T U) → Res (PlanarGraph XReal T U × List ℕ)
  | g, ids, [] => .ok (g, ids)
  | g, ids, .point x t :: rs => do
    let (g', r) ← g.addNode (pt x) t
    client g' (ids ++ [r.1]) rs
  | g, ids, .seg i j c :: rs =>
    match ids[i]?, ids[j]? with
    | some a, some b => do
      let (g', r) ← g.addEdge a b c
      match r with
      | .ok _ => client g' ids rs
      | .error _ => .error .unwrapFailed
    | _, _ => .error .indexOutOfBounds

/-- a segment with data -/
structure Stroke (U : Type) where
  a : ℝ × ℝ
  b : ℝ × ℝ
  c : U

/-- the point is on the closed segment -/
def Stroke.On (s : Stroke U) (y : ℝ × ℝ) : Prop := OnSegR s.a s.b y

/-- the requested points with their data -/
def wanted : List (Req T U) → List ((ℝ × ℝ) × T)
  | [] => []
  | .point x t :: rs => (x, t) :: wanted rs
  | .seg _ _ _ :: rs => wanted rs

/-- the requested points -/
def points (rs : List (Req T U)) : List (ℝ × ℝ) := (wanted rs).map Prod.fst

/-- the requested segments, when the points `ps` have been requested before -/
def strokes : List (ℝ × ℝ) → List (Req T U) → List (Stroke U)
  | _, [] => []
  | ps, .point x _ :: rs => strokes (ps ++ [x]) rs
  | ps, .seg i j c :: rs => ⟨ps.getD i (0, 0), ps.getD j (0, 0), c⟩ :: strokes ps rs

/-- segments refer to two different points requested before (`n` counts the points) -/
def Valid : ℕ → List (Req T U) → Prop
  | _, [] => True
  | n, .point _ _ :: rs => Valid (n + 1) rs
  | n, .seg i j _ :: rs => i < n ∧ j < n ∧ i ≠ j ∧ Valid n rs

/-- `y` is a crossing: on two different segments, and not a requested point -/
def Meet (P : List (ℝ × ℝ)) (S : List (Stroke U)) (y : ℝ × ℝ) : Prop :=
  y ∉ P ∧ ∃ s ∈ S, ∃ s' ∈ S, s ≠ s' ∧ s.On y ∧ s'.On y

/-- The requests are in general position with respect to the tolerance: points and crossings are farther than epsilon from
each other and, unless they are on it, outside the tolerance ellipse of every segment; a segment contains no requested
points other than its ends; no three segments cross in a point; no segment is requested twice. -/
structure Apart (P : List (ℝ × ℝ)) (S : List (Stroke U)) : Prop where
  points : P.Pairwise fun x y => XReal.epsR < dst x y
  clear : ∀ x ∈ P, ∀ s ∈ S, x ≠ s.a → x ≠ s.b → dst s.a s.b + XReal.epsR ≤ dst s.a x + dst x s.b
  once : S.Pairwise fun s s' => ¬ (s.a = s'.a ∧ s.b = s'.b) ∧ ¬ (s.a = s'.b ∧ s.b = s'.a)
  cross_clear : ∀ y, Meet P S y → ∀ s ∈ S, ¬ s.On y → dst s.a s.b + XReal.epsR ≤ dst s.a y + dst y s.b
  cross_far : ∀ y, Meet P S y → ∀ x ∈ P, XReal.epsR < dst y x
  cross_sep : ∀ y y', Meet P S y → Meet P S y' → y ≠ y' → XReal.epsR < dst y y'
  cross_two : ∀ y, Meet P S y → ∀ s ∈ S, ∀ s' ∈ S, ∀ s'' ∈ S, s.On y → s'.On y → s''.On y → s = s' ∨ s = s'' ∨ s' = s''

/-! ## Geometry -/

/-- the tolerance ellipse of a part of a segment is inside the one of the segment -/
theorem ellipse_part {A B a b p : ℝ × ℝ} {δ : ℝ} (ha : OnSegR A B a) (hb : OnSegR A B b)
    (ht : dst a p + dst p b < dst a b + δ) : dst A p + dst p B < dst A B + δ := by
  have key : ∀ {a b : ℝ × ℝ}, dst A a + dst a b + dst b B ≤ dst A B → dst a p + dst p b < dst a b + δ →
      dst A p + dst p B < dst A B + δ := by
    intro a b hab ht
    have h1 := UtilThm.dst_triangle A a p
    have h2 := UtilThm.dst_triangle p b B
    linarith
  rcases onSeg_cut hb ha with h | h
  · -- a is between A and b
    rw [onSeg_iff] at h hb
    exact key (by linarith) ht
  · -- a is between B and b
    have h' := (onSeg_iff _ _ _).1 h
    have hb' := (onSeg_iff _ _ _).1 hb
    refine key (a := b) (b := a) ?_ ?_
    · rw [UtilThm.dst_comm b a, UtilThm.dst_comm a B]
      rw [UtilThm.dst_comm B b] at h'
      linarith
    · rw [UtilThm.dst_comm b p, UtilThm.dst_comm p a, UtilThm.dst_comm b a]; linarith

/-- a point of a segment outside a part of it is outside the tolerance ellipse of the part if it is not close to its ends -/
theorem outside_part {A B a b p : ℝ × ℝ} (ha : OnSegR A B a) (hb : OnSegR A B b) (hp : OnSegR A B p)
    (hn : ¬ OnSegR a b p) (h1 : XReal.epsR < dst p a) (h2 : XReal.epsR < dst p b) :
    dst a b + XReal.epsR ≤ dst a p + dst p b := by
  have heps := XReal.epsR_pos
  have e1 := UtilThm.dst_comm a p
  have e2 := UtilThm.dst_comm a b
  rcases onSeg_three ha hb hp with h | h | h
  · exact absurd h hn
  · linarith
  · linarith

theorem Meet.mono {P : List (ℝ × ℝ)} {S S' : List (Stroke U)} {y : ℝ × ℝ} (h : Meet P S y) (hs : ∀ s ∈ S, s ∈ S') :
    Meet P S' y := by
  obtain ⟨h1, s, hs1, s', hs2, h2⟩ := h
  exact ⟨h1, s, hs s hs1, s', hs s' hs2, h2⟩

/-! ## The state after some of the requests -/

/-- the graph after the points `P0` and the segments `S0`, when the points are `P` in the end -/
structure Stage [Inhabited T] (P : List (ℝ × ℝ)) (P0 : List ((ℝ × ℝ) × T)) (S0 : List (Stroke U)) (g : PlanarGraph XReal T U)
    (ids : List ℕ) : Prop where
  plane : Plane g
  ids_length : ids.length = P0.length
  ids_at : ∀ (k : ℕ) (x : ℝ × ℝ) (t : T), P0[k]? = some (x, t) → ∃ i, ids[k]? = some i ∧ g.nodes[i]? = some ⟨pt x, t, ""⟩
  nodes : ∀ i a, g.nodes[i]? = some a → (∃ k : ℕ, ids[k]? = some i) ∨ (Meet P S0 (place g i) ∧ a.data = default ∧ a.label = "")
  met : ∀ y, Meet P S0 y → ∃ i, i < g.nodes.length ∧ place g i = y
  ends : ∀ s ∈ S0, s.a ∈ P0.map Prod.fst ∧ s.b ∈ P0.map Prod.fst
  piece : ∀ e ∈ g.edges, ∃ s ∈ S0, e.data = s.c ∧ s.On (place g e.src) ∧ s.On (place g e.dst)
  cover : ∀ s ∈ S0, ∀ y, s.On y → ∃ e ∈ g.edges, e.data = s.c ∧ OnEdge (place g) e y

section Steps
variable [Inhabited T] {P : List (ℝ × ℝ)} {S S0 : List (Stroke U)} {P0 : List ((ℝ × ℝ) × T)} {g : PlanarGraph XReal T U}
  {ids : List ℕ}

omit [Inhabited T] in
theorem place_get {i : ℕ} {x : ℝ × ℝ} {t : T} (h : g.nodes[i]? = some ⟨pt x, t, ""⟩) : place g i = x := by
  unfold place; rw [h]; simp [pt, realOf]

/-- a node is at a point requested so far, or at a crossing -/
theorem Stage.node_cases (h : Stage P P0 S0 g ids) {i : ℕ} (hi : i < g.nodes.length) :
    place g i ∈ P0.map Prod.fst ∨ Meet P S0 (place g i) := by
  rcases h.nodes i _ (List.getElem?_eq_getElem hi) with ⟨k, hk⟩ | ⟨h1, _⟩
  · left
    have hlt := (List.getElem?_eq_some_iff.1 hk).1
    rw [h.ids_length] at hlt
    obtain ⟨j, hj, hn⟩ := h.ids_at k _ _ (List.getElem?_eq_getElem hlt)
    rw [hk] at hj
    cases hj
    rw [place_get hn]
    exact List.mem_map.2 ⟨_, List.getElem_mem hlt, rfl⟩
  · exact Or.inr h1

theorem Stage.node_of (h : Stage P P0 S0 g ids) {x : ℝ × ℝ} (hx : x ∈ P0.map Prod.fst) :
    ∃ i, i < g.nodes.length ∧ place g i = x := by
  obtain ⟨⟨x, t⟩, hm, rfl⟩ := List.mem_map.1 hx
  obtain ⟨k, hk⟩ := List.mem_iff_getElem?.1 hm
  obtain ⟨i, _, hn⟩ := h.ids_at k x t hk
  exact ⟨i, (List.getElem?_eq_some_iff.1 hn).1, place_get hn⟩

/-- the tolerance around a segment does not reach points and crossings that are not on it -/
theorem Apart.off (hA : Apart P S) {x : ℝ × ℝ} (hx : x ∈ P ∨ Meet P S x) {s : Stroke U} (hs : s ∈ S) (hn : ¬ s.On x) :
    dst s.a s.b + XReal.epsR ≤ dst s.a x + dst x s.b := by
  rcases hx with hx | hx
  · refine hA.clear x hx s hs ?_ ?_
    · rintro rfl; exact hn (onSeg_left _ _)
    · rintro rfl; exact hn (onSeg_right _ _)
  · exact hA.cross_clear x hx s hs hn

/-- points and crossings are apart -/
theorem Apart.sep (hA : Apart P S) {x y : ℝ × ℝ} (hx : x ∈ P ∨ Meet P S x) (hy : y ∈ P ∨ Meet P S y) (hne : x ≠ y) :
    XReal.epsR < dst x y := by
  rcases hx with hx | hx <;> rcases hy with hy | hy
  · have hsym : Std.Symm (fun x y : ℝ × ℝ => XReal.epsR < dst x y) := ⟨fun a b h => by rw [UtilThm.dst_comm]; exact h⟩
    exact hA.points.forall hx hy hne
  · rw [UtilThm.dst_comm]; exact hA.cross_far y hy x hx
  · exact hA.cross_far x hx y hy
  · exact hA.cross_sep x y hx hy hne

theorem Apart.end_of (hA : Apart P S) {x : ℝ × ℝ} (hx : x ∈ P) {s : Stroke U} (hs : s ∈ S) (hon : s.On x) :
    x = s.a ∨ x = s.b := by
  by_contra hc
  push Not at hc
  have h1 := hA.clear x hx s hs hc.1 hc.2
  have h2 := (onSeg_iff _ _ _).1 hon
  have := XReal.epsR_pos
  linarith

theorem Stage.good (h : Stage P P0 S0 g ids) (hP : ∀ x ∈ P0.map Prod.fst, x ∈ P) (hS : ∀ s ∈ S0, s ∈ S) {i : ℕ}
    (hi : i < g.nodes.length) : place g i ∈ P ∨ Meet P S (place g i) := by
  rcases h.node_cases hi with h1 | h1
  · exact Or.inl (hP _ h1)
  · exact Or.inr (h1.mono hS)

/-- a point request -/
theorem Stage.point (h : Stage P P0 S0 g ids) (hA : Apart P S) (hP : ∀ x ∈ P0.map Prod.fst, x ∈ P)
    (hS : ∀ s ∈ S0, s ∈ S) {x : ℝ × ℝ} {t : T} (hx : x ∈ P) (hnew : x ∉ P0.map Prod.fst) :
    ∃ g' r, g.addNode (pt x) t = .ok (g', r) ∧ GoodRequest g (.addNode (pt x) t) ∧ Stage P (P0 ++ [(x, t)]) S0 g' (ids ++ [r.1]) := by
  have heps := XReal.epsR_pos
  have hne : ∀ i, i < g.nodes.length → x ≠ place g i := by
    intro i hi hc
    rcases h.node_cases hi with h1 | h1
    · rw [← hc] at h1; exact hnew h1
    · rw [← hc] at h1; exact h1.1 hx
  have hclear : ClearPoint g x := by
    constructor
    · intro i hi
      exact hA.sep (Or.inl hx) (h.good hP hS hi) (hne i hi)
    · intro e he _
      obtain ⟨s, hs, _, h1, h2⟩ := h.piece e he
      by_contra hc
      push Not at hc
      have h3 := ellipse_part h1 h2 hc
      obtain ⟨q1, q2⟩ := h.ends s hs
      have h4 := hA.clear x hx s (hS s hs) (by rintro rfl; exact hnew q1) (by rintro rfl; exact hnew q2)
      linarith
  obtain ⟨hn, hinv⟩ := addNodeG_clear h.plane hclear t
  have hfar := not_near_of_far h.plane.finite hclear.1
  have hok := addNode_ok g h.plane.wf (pt x) t
  rw [if_neg (by rw [hfar]; decide)] at hok
  have hpl : Plane (addNodeG g (pt x) t) :=
    addNode_plane h.plane ⟨x, rfl, Or.inr hclear⟩ hok
  refine ⟨_, _, hok, ⟨x, rfl, Or.inr hclear⟩, ?_⟩
  generalize addNodeG g (pt x) t = g' at *
  have hlen : g'.nodes.length = g.nodes.length + 1 := by rw [hn]; simp
  have hget : ∀ i, i < g.nodes.length → g'.nodes[i]? = g.nodes[i]? := by
    intro i hi; rw [hn, List.getElem?_append_left hi]
  have hpos : ∀ i, i < g.nodes.length → place g' i = place g i := by
    intro i hi; unfold place; rw [hget i hi]
  have hlast : g'.nodes[g.nodes.length]? = some ⟨pt x, t, ""⟩ := by rw [hn]; simp
  have hidlt : ∀ (k : ℕ) i, ids[k]? = some i → (ids ++ [g.nodes.length])[k]? = some i := by
    intro k i hk
    rw [List.getElem?_append_left (List.getElem?_eq_some_iff.1 hk).1]; exact hk
  have hidlast : (ids ++ [g.nodes.length])[P0.length]? = some g.nodes.length := by
    rw [← h.ids_length]; simp
  refine ⟨hpl, by simp [h.ids_length], ?_, ?_, ?_, ?_, ?_, ?_⟩
  · intro k x' t' hk
    by_cases hlt : k < P0.length
    · rw [List.getElem?_append_left hlt] at hk
      obtain ⟨i, h1, h2⟩ := h.ids_at k x' t' hk
      exact ⟨i, hidlt k i h1, by rw [hget i (List.getElem?_eq_some_iff.1 h2).1]; exact h2⟩
    · have hk' := (List.getElem?_eq_some_iff.1 hk).1
      simp only [List.length_append, List.length_singleton] at hk'
      have : k = P0.length := by omega
      subst this
      simp at hk
      obtain ⟨rfl, rfl⟩ := hk
      exact ⟨_, hidlast, hlast⟩
  · intro i a ha
    by_cases hlt : i < g.nodes.length
    · rw [hget i hlt] at ha
      rcases h.nodes i a ha with ⟨k, hk⟩ | h1
      · exact Or.inl ⟨k, hidlt k i hk⟩
      · right; rw [hpos i hlt]; exact h1
    · have := (List.getElem?_eq_some_iff.1 ha).1
      have : i = g.nodes.length := by omega
      subst this
      exact Or.inl ⟨_, hidlast⟩
  · intro y hy
    obtain ⟨i, h1, h2⟩ := h.met y hy
    exact ⟨i, by omega, by rw [hpos i h1]; exact h2⟩
  · intro s hs
    obtain ⟨q1, q2⟩ := h.ends s hs
    rw [List.map_append]
    exact ⟨List.mem_append_left _ q1, List.mem_append_left _ q2⟩
  · intro e he
    obtain ⟨A, B, ⟨f, hf, rfl, rfl, hd⟩, p1, p2⟩ := hinv.piece e he
    obtain ⟨s, hs, hc, s1, s2⟩ := h.piece f hf
    obtain ⟨w1, w2⟩ := hinv.wf e he
    refine ⟨s, hs, by rw [← hd, hc], ?_, ?_⟩
    · rw [place_of_drawn hinv.drawn w1]; exact onSeg_sub s1 s2 p1
    · rw [place_of_drawn hinv.drawn w2]; exact onSeg_sub s1 s2 p2
  · intro s hs y hy
    obtain ⟨f, hf, hd, hon⟩ := h.cover s hs y hy
    obtain ⟨e, he, hd', hon'⟩ := hinv.cover _ _ _ ⟨f, hf, rfl, rfl, rfl⟩ y hon
    exact ⟨e, he, by rw [hd', hd], (onEdge_place hinv.wf hinv.drawn he y).2 hon'⟩

omit [Inhabited T] in
/-- nodes created by `add_edge` carry default data -/
theorem inserts_default [Inhabited T] {g g' : PlanarGraph XReal T U} {xs : List (Vec2 XReal)} {cn ce : List Nat}
    (h : Inserts g xs g' cn ce) : ∃ l, g'.nodes = g.nodes ++ l ∧ ∀ a ∈ l, a.data = default ∧ a.label = "" := by
  induction h with
  | nil g => exact ⟨[], by simp, by simp⟩
  | cons g x xs g' cn ce _ ih =>
    obtain ⟨l, h1, h2⟩ := ih
    have : ∃ l', (insertPt g x).nodes = g.nodes ++ l' ∧ ∀ a ∈ l', a.data = default ∧ a.label = "" := by
      unfold insertPt
      split
      · exact ⟨[], by simp [splitAt], by simp⟩
      · refine ⟨[⟨x, default, ""⟩], by simp [splitAt, pushNode, defaultLabel], by simp⟩
    obtain ⟨l', h3, h4⟩ := this
    refine ⟨l' ++ l, by rw [h1, h3, List.append_assoc], ?_⟩
    intro a ha
    rcases List.mem_append.1 ha with ha | ha
    · exact h4 a ha
    · exact h2 a ha

/-- a segment request -/
theorem Stage.seg (h : Stage P P0 S0 g ids) (hA : Apart P S) (hP : ∀ x ∈ P0.map Prod.fst, x ∈ P)
    {s0 : Stroke U} {i j : ℕ} {t t' : T} (hS : ∀ s ∈ S0, s ∈ S) (hs0 : s0 ∈ S) (hi : P0[i]? = some (s0.a, t))
    (hj : P0[j]? = some (s0.b, t')) (hab : s0.a ≠ s0.b)
    (honce : ∀ s ∈ S0, ¬ (s.a = s0.a ∧ s.b = s0.b) ∧ ¬ (s.a = s0.b ∧ s.b = s0.a)) :
    ∃ a b g' r, ids[i]? = some a ∧ ids[j]? = some b ∧ g.addEdge a b s0.c = .ok (g', .ok r) ∧
      GoodRequest g (.addEdge a b s0.c) ∧ Stage P P0 (S0 ++ [s0]) g' ids := by
  have heps := XReal.epsR_pos
  obtain ⟨a, hia, hna⟩ := h.ids_at i _ _ hi
  obtain ⟨b, hjb, hnb⟩ := h.ids_at j _ _ hj
  have ha := (List.getElem?_eq_some_iff.1 hna).1
  have hb := (List.getElem?_eq_some_iff.1 hnb).1
  have pa : place g a = s0.a := place_get hna
  have pb : place g b = s0.b := place_get hnb
  have haP0 : s0.a ∈ P0.map Prod.fst := List.mem_map.2 ⟨_, List.mem_of_getElem? hi, rfl⟩
  have hbP0 : s0.b ∈ P0.map Prod.fst := List.mem_map.2 ⟨_, List.mem_of_getElem? hj, rfl⟩
  have hneq : a ≠ b := by rintro rfl; exact hab (pa.symm.trans pb)
  have hs0' : s0 ∉ S0 := fun hc => (honce s0 hc).1 ⟨rfl, rfl⟩
  -- no edge between the ends yet
  have hno : ∀ e ∈ g.edges, ¬ ((e.src = a ∧ e.dst = b) ∨ (e.src = b ∧ e.dst = a)) := by
    intro e he hc
    obtain ⟨s, hs, _, h1, h2⟩ := h.piece e he
    have hh : s.On s0.a ∧ s.On s0.b := by
      rcases hc with ⟨c1, c2⟩ | ⟨c1, c2⟩
      · rw [c1, pa] at h1; rw [c2, pb] at h2; exact ⟨h1, h2⟩
      · rw [c1, pb] at h1; rw [c2, pa] at h2; exact ⟨h2, h1⟩
    have q1 := hA.end_of (hP _ haP0) (hS s hs) hh.1
    have q2 := hA.end_of (hP _ hbP0) (hS s hs) hh.2
    rcases q1 with q1 | q1 <;> rcases q2 with q2 | q2
    · exact hab (q1.trans q2.symm)
    · exact (honce s hs).1 ⟨q1.symm, q2.symm⟩
    · exact (honce s hs).2 ⟨q2.symm, q1.symm⟩
    · exact hab (q1.trans q2.symm)
  -- crossings of the new segment with the graph
  have hcross : ∀ y, Crossing g (place g) a b y → Meet P S y ∧ Meet P (S0 ++ [s0]) y := by
    rintro y ⟨h1, ⟨e, he, h2⟩, h3⟩
    rw [pa, pb] at h1
    obtain ⟨s, hs, _, p1, p2⟩ := h.piece e he
    have hys : s.On y := onSeg_sub p1 p2 h2
    have hyP : y ∉ P := by
      intro hc
      rcases hA.end_of hc hs0 h1 with rfl | rfl
      · exact h3 a ha pa.symm
      · exact h3 b hb pb.symm
    have hne : s ≠ s0 := by rintro rfl; exact hs0' hs
    exact ⟨⟨hyP, s, hS s hs, s0, hs0, hne, hys, h1⟩,
      ⟨hyP, s, List.mem_append_left _ hs, s0, by simp, hne, hys, h1⟩⟩
  have hoff : ∀ {x : ℝ × ℝ}, (x ∈ P ∨ Meet P S x) → ∀ e ∈ g.edges, ¬ OnEdge (place g) e x → x ≠ place g e.src →
      x ≠ place g e.dst → dst (place g e.src) (place g e.dst) + XReal.epsR ≤
        dst (place g e.src) x + dst x (place g e.dst) := by
    intro x hx e he hn n1 n2
    obtain ⟨s, hs, _, p1, p2⟩ := h.piece e he
    obtain ⟨w1, w2⟩ := h.plane.wf e he
    by_cases hon : s.On x
    · exact outside_part p1 p2 hon hn (hA.sep hx (h.good hP hS w1) n1) (hA.sep hx (h.good hP hS w2) n2)
    · by_contra hc
      push Not at hc
      have h1 := ellipse_part p1 p2 hc
      have h2 := hA.off hx (hS s hs) hon
      linarith
  -- the new segment is in general position
  have hgp : GeneralPosition g (place g) a b := by
    constructor
    · intro k hk u v huv n1 n2
      have hgood := h.good hP hS hk
      rcases huv with ⟨rfl, rfl⟩ | ⟨e, he, rfl, rfl⟩
      · rw [pa, pb]
        refine hA.off hgood hs0 ?_
        intro hon
        rcases h.node_cases hk with h1 | h1
        · rcases hA.end_of (hP _ h1) hs0 hon with h2 | h2
          · exact n1 (h.plane.inj _ _ hk ha (h2.trans pa.symm))
          · exact n2 (h.plane.inj _ _ hk hb (h2.trans pb.symm))
        · obtain ⟨_, s, hs, s', hs', hne, o1, o2⟩ := id h1
          rcases hA.cross_two _ (h1.mono hS) s (hS s hs) s' (hS s' hs') s0 hs0 o1 o2 hon with h2 | h2 | h2
          · exact hne h2
          · rw [h2] at hs; exact hs0' hs
          · rw [h2] at hs'; exact hs0' hs'
      · obtain ⟨w1, w2⟩ := h.plane.wf e he
        refine hoff hgood e he ?_ ?_ ?_
        · intro hon
          rcases h.plane.planar.node e he k hk hon with h1 | h1
          · exact n1 h1
          · exact n2 h1
        · intro hc; exact n1 (h.plane.inj _ _ hk w1 hc)
        · intro hc; exact n2 (h.plane.inj _ _ hk w2 hc)
    · intro y hy u v huv hon
      have hm := (hcross y hy).1
      rcases huv with ⟨rfl, rfl⟩ | ⟨e, he, rfl, rfl⟩
      · rw [pa, pb] at hon ⊢
        exact hA.off (Or.inr hm) hs0 hon
      · obtain ⟨w1, w2⟩ := h.plane.wf e he
        exact hoff (Or.inr hm) e he hon (hy.2.2 _ w1) (hy.2.2 _ w2)
    · intro y hy k hk
      exact hA.sep (Or.inr (hcross y hy).1) (h.good hP hS hk) (hy.2.2 k hk)
    · intro y y' hy hy' hne
      exact hA.cross_sep y y' (hcross y hy).1 (hcross y' hy').1 hne
  have hno' : g.hasEdgeBetweenNodes a b = false := by
    rw [← Bool.not_eq_true, hasEdge_iff]
    rintro ⟨e, he, hc⟩
    exact hno e he hc
  rcases addEdge_ok g h.plane.wf a b s0.c with ⟨h', _⟩ | ⟨_, h', _⟩ | ⟨_, _, _, g1, cn, ce, hins, hok⟩
  · rw [hno'] at h'; cases h'
  · exact absurd ⟨ha, hb⟩ h'
  obtain ⟨pos', q1, _, q3⟩ := addEdge_planar g h.plane.wf (place g) h.plane.finite h.plane.inj h.plane.noloop h.plane.planar a b
    s0.c hgp hno' ha hb hins
  obtain ⟨l, hl, hdef⟩ := inserts_default hins
  have hl' : g1.nodes = g.nodes ++ l := hl
  have hpl : Plane g1 := addEdge_plane h.plane ⟨hneq, fun _ _ _ => hgp⟩ hok
  refine ⟨a, b, g1, _, hia, hjb, hok, ⟨hneq, fun _ _ _ => hgp⟩, ?_⟩
  have hlen : g.nodes.length ≤ g1.nodes.length := by rw [hl']; simp
  have hget : ∀ k, k < g.nodes.length → g1.nodes[k]? = g.nodes[k]? := by
    intro k hk; rw [hl', List.getElem?_append_left hk]
  have hpos : ∀ k, k < g.nodes.length → place g1 k = place g k := by
    intro k hk; unfold place; rw [hget k hk]
  refine ⟨hpl, h.ids_length, ?_, ?_, ?_, ?_, ?_, ?_⟩
  · intro k x t hk
    obtain ⟨m, h1, h2⟩ := h.ids_at k x t hk
    exact ⟨m, h1, by rw [hget m (List.getElem?_eq_some_iff.1 h2).1]; exact h2⟩
  · intro k n hk
    by_cases hlt : k < g.nodes.length
    · rw [hget k hlt] at hk
      rcases h.nodes k n hk with h1 | ⟨h1, h2⟩
      · exact Or.inl h1
      · right; rw [hpos k hlt]; exact ⟨h1.mono (fun s hs => List.mem_append_left _ hs), h2⟩
    · right
      have hk1 := (List.getElem?_eq_some_iff.1 hk).1
      refine ⟨?_, ?_⟩
      · rw [place_of_drawn q3.drawn hk1]
        exact (hcross _ (q3.fresh k (by omega) hk1)).2
      · rw [hl', List.getElem?_append_right (by omega)] at hk
        exact hdef n (List.mem_of_getElem? hk)
  · rintro y ⟨hyP, s, hs, s', hs', hne, o1, o2⟩
    have hold : ∀ s ∈ S0, s.On y → s0.On y → ∃ i, i < g1.nodes.length ∧ place g1 i = y := by
      intro s hs o1 o2
      by_cases hex : ∃ i, i < g.nodes.length ∧ y = place g i
      · obtain ⟨i, h1, h2⟩ := hex
        exact ⟨i, by omega, by rw [hpos i h1, h2]⟩
      · obtain ⟨e, he, _, hon⟩ := h.cover s hs y o1
        have hc : Crossing g (place g) a b y := by
          refine ⟨by rw [pa, pb]; exact o2, ⟨e, he, hon⟩, fun i hi hc => hex ⟨i, hi, hc⟩⟩
        rcases q3.found y hc with h1 | ⟨i, h1, h2⟩
        · exact h1.elim
        · exact ⟨i, h1, by rw [place_of_drawn q3.drawn h1, h2]⟩
    rcases List.mem_append.1 hs with h1 | h1 <;> rcases List.mem_append.1 hs' with h2 | h2 <;> clear hs hs' <;>
      rename' h1 => hs, h2 => hs'
    · obtain ⟨i, h1, h2⟩ := h.met y ⟨hyP, s, hs, s', hs', hne, o1, o2⟩
      exact ⟨i, by omega, by rw [hpos i h1]; exact h2⟩
    · rw [List.mem_singleton] at hs'; subst hs'
      exact hold s hs o1 o2
    · rw [List.mem_singleton] at hs; subst hs
      exact hold s' hs' o2 o1
    · rw [List.mem_singleton] at hs hs'
      exact absurd (hs.trans hs'.symm) hne
  · intro s hs
    rcases List.mem_append.1 hs with hs | hs
    · exact h.ends s hs
    · rw [List.mem_singleton] at hs; subst hs
      exact ⟨haP0, hbP0⟩
  · intro e he
    obtain ⟨w1, w2⟩ := q3.wf e he
    rw [place_of_drawn q3.drawn w1, place_of_drawn q3.drawn w2]
    obtain ⟨A, B, ⟨u, v, huv, rfl, rfl⟩, p1, p2⟩ := q3.piece e he
    rcases huv with ⟨rfl, rfl, hc⟩ | ⟨f, hf, rfl, rfl, hc⟩
    · rw [pa, pb] at p1 p2
      exact ⟨s0, by simp, hc, p1, p2⟩
    · obtain ⟨s, hs, hc', s1, s2⟩ := h.piece f hf
      exact ⟨s, List.mem_append_left _ hs, by rw [← hc, hc'], onSeg_sub s1 s2 p1, onSeg_sub s1 s2 p2⟩
  · intro s hs y hy
    rcases List.mem_append.1 hs with hs | hs
    · obtain ⟨f, hf, hd, hon⟩ := h.cover s hs y hy
      obtain ⟨e, he, hd', hon'⟩ := q3.cover _ _ _ ⟨f.src, f.dst, Or.inr ⟨f, hf, rfl, rfl, rfl⟩, rfl, rfl⟩ y hon
      exact ⟨e, he, by rw [hd', hd], (onEdge_place q3.wf q3.drawn he y).2 hon'⟩
    · rw [List.mem_singleton] at hs; subst hs
      obtain ⟨e, he, hd', hon'⟩ := q3.cover _ _ _ ⟨a, b, Or.inl ⟨rfl, rfl, rfl⟩, rfl, rfl⟩ y (by rw [pa, pb]; exact hy)
      exact ⟨e, he, hd', (onEdge_place q3.wf q3.drawn he y).2 hon'⟩

end Steps

theorem Stage.new [Inhabited T] (P : List (ℝ × ℝ)) : Stage P [] [] (PlanarGraph.new : PlanarGraph XReal T U) [] := by
  refine ⟨plane_new, rfl, ?_, ?_, ?_, ?_, ?_, ?_⟩
  · intro k x t hk; cases hk
  · intro i a hi; cases hi
  · rintro y ⟨_, s, hs, _⟩; cases hs
  · intro s hs; cases hs
  · intro e he; cases he
  · intro s hs; cases hs

theorem client_stage [Inhabited T] {P : List (ℝ × ℝ)} {S : List (Stroke U)} (hA : Apart P S) (rs : List (Req T U)) :
    ∀ (P0 : List ((ℝ × ℝ) × T)) (S0 : List (Stroke U)) (g : PlanarGraph XReal T U) (ids : List ℕ), Stage P P0 S0 g ids →
      Valid P0.length rs → P = P0.map Prod.fst ++ points rs → S = S0 ++ strokes (P0.map Prod.fst) rs →
      ∃ g' ids', client g ids rs = .ok (g', ids') ∧ Stage P (P0 ++ wanted rs) S g' ids' ∧
        ∃ ops, ∀ p, GoodHistory p g ops ∧ g.run p ops = .ok g' := by
  induction rs with
  | nil =>
    intro P0 S0 g ids h _ hP hS
    simp only [strokes, List.append_nil] at hS
    subst hS
    exact ⟨g, ids, rfl, by simpa [wanted] using h, [], fun _ => ⟨trivial, rfl⟩⟩
  | cons r rs ih =>
    intro P0 S0 g ids h hv hP hS
    have hP' : ∀ x ∈ P0.map Prod.fst, x ∈ P := fun x hx => by rw [hP]; exact List.mem_append_left _ hx
    have hS' : ∀ s ∈ S0, s ∈ S := fun s hs => by rw [hS]; exact List.mem_append_left _ hs
    cases r with
    | point x t =>
      have hxP : x ∈ P := by rw [hP]; simp [points, wanted]
      have hnew : x ∉ P0.map Prod.fst := by
        intro hc
        have h1 := hA.points
        rw [hP, List.pairwise_append] at h1
        have h2 := h1.2.2 x hc x (by simp [points, wanted])
        rw [UtilThm.dst_eq_zero.2 rfl] at h2
        have := XReal.epsR_pos
        linarith
      obtain ⟨g', r, h1, hq, h2⟩ := h.point hA hP' hS' (t := t) hxP hnew
      obtain ⟨g2, ids2, h3, h4, ops, hops⟩ := ih _ _ _ _ h2 (by simp only [Valid] at hv; simpa using hv) (by rw [hP]; simp [points, wanted])
        (by rw [hS]; simp [strokes])
      have hst : ∀ p, g.step p (.addNode (pt x) t) = .ok g' := by
        intro p; simp only [step, h1, bind, Except.bind, pure, Except.pure]
      refine ⟨g2, ids2, ?_, by simpa [wanted] using h4, .addNode (pt x) t :: ops, fun p => ⟨⟨hq, ?_⟩, ?_⟩⟩
      rotate_left
      · intro g1 hg1; rw [hst] at hg1; cases hg1; exact (hops p).1
      · simp only [run, hst, bind, Except.bind]; exact (hops p).2
      simp only [client, h1, bind, Except.bind]
      exact h3
    | seg i j c =>
      obtain ⟨hi, hj, hij, hv'⟩ := hv
      have gi : P0[i]? = some P0[i] := List.getElem?_eq_getElem hi
      have gj : P0[j]? = some P0[j] := List.getElem?_eq_getElem hj
      have di : (P0.map Prod.fst).getD i (0, 0) = P0[i].1 := by
        rw [List.getD_eq_getElem?_getD, List.getElem?_map, gi]; rfl
      have dj : (P0.map Prod.fst).getD j (0, 0) = P0[j].1 := by
        rw [List.getD_eq_getElem?_getD, List.getElem?_map, gj]; rfl
      simp only [strokes, di, dj] at hS
      have hne : P0[i].1 ≠ P0[j].1 := by
        have h1 := hA.points
        rw [hP, List.pairwise_append] at h1
        have h2 : (P0.map Prod.fst).Nodup := by
          refine h1.1.imp ?_
          rintro a b hab rfl
          rw [UtilThm.dst_eq_zero.2 rfl] at hab
          have := XReal.epsR_pos
          linarith
        intro hc
        apply hij
        have h3 : (P0.map Prod.fst)[i]? = (P0.map Prod.fst)[j]? := by
          rw [List.getElem?_map, List.getElem?_map, gi, gj]; simp [hc]
        exact (List.getElem?_inj (by simpa using hi) h2).1 h3
      obtain ⟨a, b, g', r, h1, h2, h3, hq, h4⟩ := h.seg hA hP' (s0 := ⟨P0[i].1, P0[j].1, c⟩) (i := i) (j := j)
        (t := P0[i].2) (t' := P0[j].2) hS' (by rw [hS]; simp) gi gj hne (by
          intro s hs
          have h1 := hA.once
          rw [hS, List.pairwise_append] at h1
          exact h1.2.2 s hs _ (by simp))
      obtain ⟨g2, ids2, h5, h6, ops, hops⟩ := ih _ _ _ _ h4 hv' (by rw [hP]; simp [points, wanted]) (by rw [hS]; simp)
      have hst : ∀ p, g.step p (.addEdge a b c) = .ok g' := by
        intro p; simp only [step, h3, bind, Except.bind, pure, Except.pure]
      refine ⟨g2, ids2, ?_, by simpa [wanted] using h6, .addEdge a b c :: ops, fun p => ⟨⟨hq, ?_⟩, ?_⟩⟩
      rotate_left
      · intro g1 hg1; rw [hst] at hg1; cases hg1; exact (hops p).1
      · simp only [run, hst, bind, Except.bind]; exact (hops p).2
      simp only [client, h1, h2, h3, bind, Except.bind]
      exact h5

theorem client_end [Inhabited T] (rs : List (Req T U)) (hv : Valid 0 rs) (hA : Apart (points rs) (strokes [] rs)) :
    ∃ g ids, client PlanarGraph.new [] rs = .ok (g, ids) ∧ Stage (points rs) (wanted rs) (strokes [] rs) g ids := by
  obtain ⟨g, ids, h1, h2, _⟩ := client_stage hA rs [] [] _ _ (Stage.new _) hv rfl rfl
  exact ⟨g, ids, h1, by simpa using h2⟩

/-- **C101, histories of clients.** Requests in general position make a history in general position: the hypotheses of
`C101_history` can be met by every such client. -/
theorem C101_client [Inhabited T] (rs : List (Req T U)) (hv : Valid 0 rs) (hA : Apart (points rs) (strokes [] rs)) :
    ∃ g ids ops, client PlanarGraph.new [] rs = .ok (g, ids) ∧
      ∀ p, GoodHistory p PlanarGraph.new ops ∧ PlanarGraph.run p PlanarGraph.new ops = .ok g := by
  obtain ⟨g, ids, h1, _, ops, h2⟩ := client_stage hA rs [] [] _ _ (Stage.new _) hv rfl rfl
  exact ⟨g, ids, ops, h1, h2⟩

/-! ## C102 -/

/-- there is an edge with data `c` between the nodes `i` and `j` -/
def Linked (g : PlanarGraph XReal T U) (i j : ℕ) (c : U) : Prop :=
  ∃ e ∈ g.edges, e.data = c ∧ ((e.src = i ∧ e.dst = j) ∨ (e.src = j ∧ e.dst = i))

/-- **C102.** In exact arithmetic, for every list of requests in general position: no call panics or returns an error; every
requested point is a node with its data, at the index the client got; the nodes are exactly the requested points and the
crossings, one node each, and those at crossings carry default data; a point is on an edge with data `c` exactly when it is
on a requested segment with data `c`; the drawing is planar. -/
theorem C102_arrangement [Inhabited T] (rs : List (Req T U)) (hv : Valid 0 rs) (hA : Apart (points rs) (strokes [] rs)) :
    ∃ g ids, client PlanarGraph.new [] rs = .ok (g, ids) ∧ Plane g ∧
      (∀ (k : ℕ) x t, (wanted rs)[k]? = some (x, t) → ∃ i, ids[k]? = some i ∧ g.getVertex i = some ⟨pt x, t, ""⟩) ∧
      (∀ y, (∃ i, i < g.nodes.length ∧ place g i = y) ↔ y ∈ points rs ∨ Meet (points rs) (strokes [] rs) y) ∧
      (∀ i a, g.getVertex i = some a → place g i ∉ points rs → a.data = default ∧ a.label = "") ∧
      (∀ y c, (∃ e ∈ g.edges, e.data = c ∧ OnEdge (place g) e y) ↔ ∃ s ∈ strokes [] rs, s.c = c ∧ s.On y) := by
  obtain ⟨g, ids, h1, h⟩ := client_end rs hv hA
  refine ⟨g, ids, h1, h.plane, h.ids_at, ?_, ?_, ?_⟩
  · intro y
    constructor
    · rintro ⟨i, hi, rfl⟩; exact h.node_cases hi
    · rintro (hy | hy)
      · exact h.node_of hy
      · exact h.met y hy
  · intro i a ha hn
    rcases h.nodes i a ha with ⟨k, hk⟩ | ⟨_, h2⟩
    · exfalso
      apply hn
      have hlt := (List.getElem?_eq_some_iff.1 hk).1
      rw [h.ids_length] at hlt
      obtain ⟨j, hj, hn⟩ := h.ids_at k _ _ (List.getElem?_eq_getElem hlt)
      rw [hk] at hj
      cases hj
      rw [place_get hn]
      exact List.mem_map.2 ⟨_, List.getElem_mem hlt, rfl⟩
    · exact h2
  · intro y c
    constructor
    · rintro ⟨e, he, rfl, hon⟩
      obtain ⟨s, hs, hc, p1, p2⟩ := h.piece e he
      exact ⟨s, hs, hc.symm, onSeg_sub p1 p2 hon⟩
    · rintro ⟨s, hs, rfl, hon⟩
      exact h.cover s hs y hon

theorem onSeg_between (A B : ℝ × ℝ) {s r t : ℝ} (h1 : s ≤ r) (h2 : r ≤ t) :
    OnSegR (A.1 + s * (B.1 - A.1), A.2 + s * (B.2 - A.2)) (A.1 + t * (B.1 - A.1), A.2 + t * (B.2 - A.2))
      (A.1 + r * (B.1 - A.1), A.2 + r * (B.2 - A.2)) := by
  rw [onSeg_iff, dst_param, dst_param, dst_param, abs_of_nonneg (by linarith), abs_of_nonneg (by linarith),
    abs_of_nonneg (by linarith)]
  apply le_of_eq; ring

theorem param_inj {A B : ℝ × ℝ} (hAB : A ≠ B) {t u : ℝ}
    (h : (A.1 + t * (B.1 - A.1), A.2 + t * (B.2 - A.2)) = (A.1 + u * (B.1 - A.1), A.2 + u * (B.2 - A.2))) : t = u := by
  have h1 := congrArg Prod.fst h
  have h2 := congrArg Prod.snd h
  simp only at h1 h2
  by_contra hne
  apply hAB
  have e1 : (t - u) * (B.1 - A.1) = 0 := by linarith
  have e2 : (t - u) * (B.2 - A.2) = 0 := by linarith
  have hne' : t - u ≠ 0 := sub_ne_zero.2 hne
  ext
  · have := (mul_eq_zero.1 e1).resolve_left hne'; linarith
  · have := (mul_eq_zero.1 e2).resolve_left hne'; linarith

/-- consecutive nodes on a segment are joined -/
theorem Stage.link [Inhabited T] {P0 : List ((ℝ × ℝ) × T)} {S : List (Stroke U)} {g : PlanarGraph XReal T U} {ids : List ℕ}
    (h : Stage (P0.map Prod.fst) P0 S g ids) {i j : ℕ} (hi : i < g.nodes.length) (hj : j < g.nodes.length) (hij : i ≠ j)
    {s : Stroke U} (hs : s ∈ S) (oi : s.On (place g i)) (oj : s.On (place g j))
    (hcons : ∀ k, k < g.nodes.length → OnSegR (place g i) (place g j) (place g k) → k = i ∨ k = j) :
    Linked g i j s.c := by
  -- in the order of the parameter
  suffices key : ∀ i j, i < g.nodes.length → j < g.nodes.length → i ≠ j → ∀ ti tj : ℝ, ti ≤ tj → 0 ≤ ti → tj ≤ 1 →
      place g i = (s.a.1 + ti * (s.b.1 - s.a.1), s.a.2 + ti * (s.b.2 - s.a.2)) →
      place g j = (s.a.1 + tj * (s.b.1 - s.a.1), s.a.2 + tj * (s.b.2 - s.a.2)) →
      (∀ k, k < g.nodes.length → OnSegR (place g i) (place g j) (place g k) → k = i ∨ k = j) → Linked g i j s.c by
    obtain ⟨ti, ti0, ti1, hti⟩ := id oi
    obtain ⟨tj, tj0, tj1, htj⟩ := id oj
    rcases le_total ti tj with hle | hle
    · exact key i j hi hj hij ti tj hle ti0 tj1 hti htj hcons
    · obtain ⟨e, he, hc, hk⟩ := key j i hj hi (Ne.symm hij) tj ti hle tj0 ti1 htj hti
        (fun k hk hon => (hcons k hk (onSeg_symm hon)).symm)
      exact ⟨e, he, hc, hk.symm⟩
  clear hcons oi oj hi hj hij i j
  intro i j hi hj hij ti tj hle ti0 tj1 hti htj hcons
  have hlt : ti < tj := by
    rcases eq_or_lt_of_le hle with rfl | hlt
    · exact absurd (h.plane.inj i j hi hj (hti.trans htj.symm)) hij
    · exact hlt
  have hab : s.a ≠ s.b := by
    intro hc
    apply hij
    apply h.plane.inj i j hi hj
    rw [hti, htj, ← hc]; simp
  set tm := (ti + tj) / 2 with htm
  have m1 : ti < tm := by rw [htm]; linarith
  have m2 : tm < tj := by rw [htm]; linarith
  set m : ℝ × ℝ := (s.a.1 + tm * (s.b.1 - s.a.1), s.a.2 + tm * (s.b.2 - s.a.2)) with hm
  have om : s.On m := ⟨tm, by linarith, by linarith, rfl⟩
  have mnode : ∀ k, k < g.nodes.length → place g k ≠ m := by
    intro k hk hc
    have : OnSegR (place g i) (place g j) (place g k) := by
      rw [hc, hti, htj]; exact onSeg_between _ _ m1.le m2.le
    rcases hcons k hk this with rfl | rfl
    · exact absurd (param_inj hab (hti.symm.trans hc)) (by linarith)
    · exact absurd (param_inj hab (htj.symm.trans hc)) (by linarith)
  obtain ⟨e, he, hd, hon⟩ := h.cover s hs m om
  obtain ⟨s', hs', _, p1, p2⟩ := h.piece e he
  have hss : s' = s := by
    by_contra hne
    have om' : s'.On m := onSeg_sub p1 p2 hon
    by_cases hmP : m ∈ P0.map Prod.fst
    · obtain ⟨k, hk, hk'⟩ := h.node_of hmP
      exact mnode k hk hk'
    · obtain ⟨k, hk, hk'⟩ := h.met m ⟨hmP, s', hs', s, hs, hne, om', om⟩
      exact mnode k hk hk'
  subst hss
  obtain ⟨w1, w2⟩ := h.plane.wf e he
  refine ⟨e, he, hd, ?_⟩
  obtain ⟨tu, _, _, htu⟩ := p1
  obtain ⟨tv, _, _, htv⟩ := p2
  -- the lower end is at most `i`, the upper end at least `j`
  have low : ∀ u tu, u < g.nodes.length →
      place g u = (s'.a.1 + tu * (s'.b.1 - s'.a.1), s'.a.2 + tu * (s'.b.2 - s'.a.2)) → tu ≤ tm → tu ≤ ti := by
    intro u tu hu htu hle
    by_contra hc
    push Not at hc
    have : OnSegR (place g i) (place g j) (place g u) := by
      rw [htu, hti, htj]; exact onSeg_between _ _ hc.le (by linarith)
    rcases hcons u hu this with rfl | rfl
    · exact absurd (param_inj hab (hti.symm.trans htu)) (by linarith)
    · exact absurd (param_inj hab (htj.symm.trans htu)) (by linarith)
  have high : ∀ u tu, u < g.nodes.length →
      place g u = (s'.a.1 + tu * (s'.b.1 - s'.a.1), s'.a.2 + tu * (s'.b.2 - s'.a.2)) → tm ≤ tu → tj ≤ tu := by
    intro u tu hu htu hle
    by_contra hc
    push Not at hc
    have : OnSegR (place g i) (place g j) (place g u) := by
      rw [htu, hti, htj]; exact onSeg_between _ _ (by linarith) hc.le
    rcases hcons u hu this with rfl | rfl
    · exact absurd (param_inj hab (hti.symm.trans htu)) (by linarith)
    · exact absurd (param_inj hab (htj.symm.trans htu)) (by linarith)
  have hends : OnEdge (place g) e (place g i) ∧ OnEdge (place g) e (place g j) := by
    obtain ⟨r, r0, r1, hr⟩ := id hon
    have hpar : tm = tu + r * (tv - tu) := by
      apply param_inj hab
      rw [← hm, hr, htu, htv]
      ext <;> simp only <;> ring
    unfold OnEdge
    rcases le_total tu tv with hle | hle
    · have q1 : tu ≤ tm := by rw [hpar]; nlinarith
      have q2 : tm ≤ tv := by rw [hpar]; nlinarith
      have q3 := low _ _ w1 htu q1
      have q4 := high _ _ w2 htv q2
      rw [htu, htv, hti, htj]
      exact ⟨onSeg_between _ _ q3 (by linarith), onSeg_between _ _ (by linarith) q4⟩
    · have q1 : tv ≤ tm := by rw [hpar]; nlinarith
      have q2 : tm ≤ tu := by rw [hpar]; nlinarith
      have q3 := low _ _ w2 htv q1
      have q4 := high _ _ w1 htu q2
      rw [htu, htv, hti, htj]
      exact ⟨onSeg_symm (onSeg_between _ _ q3 (by linarith)), onSeg_symm (onSeg_between _ _ (by linarith) q4)⟩
  rcases h.plane.planar.node e he i hi hends.1 with h1 | h1 <;> rcases h.plane.planar.node e he j hj hends.2 with h2 | h2
  · exact absurd (h1.trans h2.symm) hij
  · exact Or.inl ⟨h1.symm, h2.symm⟩
  · exact Or.inr ⟨h2.symm, h1.symm⟩
  · exact absurd (h1.trans h2.symm) hij

theorem Stage.linked_iff [Inhabited T] {P0 : List ((ℝ × ℝ) × T)} {S : List (Stroke U)} {g : PlanarGraph XReal T U}
    {ids : List ℕ} (h : Stage (P0.map Prod.fst) P0 S g ids) {i j : ℕ} (hi : i < g.nodes.length) (hj : j < g.nodes.length)
    (c : U) : Linked g i j c ↔ i ≠ j ∧ (∃ s ∈ S, s.c = c ∧ s.On (place g i) ∧ s.On (place g j)) ∧
      ∀ k, k < g.nodes.length → OnSegR (place g i) (place g j) (place g k) → k = i ∨ k = j := by
  constructor
  · rintro ⟨e, he, rfl, hk⟩
    obtain ⟨s, hs, hc, p1, p2⟩ := h.piece e he
    have hl := h.plane.noloop e he
    rcases hk with ⟨rfl, rfl⟩ | ⟨rfl, rfl⟩
    · exact ⟨hl, ⟨s, hs, hc.symm, p1, p2⟩, fun k hk hon => h.plane.planar.node e he k hk hon⟩
    · exact ⟨Ne.symm hl, ⟨s, hs, hc.symm, p2, p1⟩, fun k hk hon =>
        (h.plane.planar.node e he k hk (onSeg_symm hon)).symm⟩
  · rintro ⟨hij, ⟨s, hs, rfl, oi, oj⟩, hcons⟩
    exact h.link hi hj hij hs oi oj hcons

/-- **C102, edges.** The edges are exactly the pieces of the requested segments: two nodes are joined by an edge with data `c`
if and only if they are on a requested segment with data `c` and no other node is between them. -/
theorem C102_edges [Inhabited T] (rs : List (Req T U)) (hv : Valid 0 rs) (hA : Apart (points rs) (strokes [] rs))
    (g : PlanarGraph XReal T U) (ids : List ℕ) (h : client PlanarGraph.new [] rs = .ok (g, ids)) (i j : ℕ)
    (hi : i < g.nodes.length) (hj : j < g.nodes.length) (c : U) :
    Linked g i j c ↔ i ≠ j ∧ (∃ s ∈ strokes [] rs, s.c = c ∧ s.On (place g i) ∧ s.On (place g j)) ∧
      ∀ k, k < g.nodes.length → OnSegR (place g i) (place g j) (place g k) → k = i ∨ k = j := by
  obtain ⟨g1, ids1, h1, h2⟩ := client_end rs hv hA
  rw [h] at h1
  cases h1
  exact h2.linked_iff hi hj c

/-- **C102, no parallel edges.** In a graph drawn in the plane, different slots hold edges between different pairs of nodes. -/
theorem C102_simple (g : PlanarGraph XReal T U) (hg : Plane g) (k l : ℕ) (e f : Edge U) (hk : g.edges[k]? = some e)
    (hl : g.edges[l]? = some f)
    (h : (e.src = f.src ∧ e.dst = f.dst) ∨ (e.src = f.dst ∧ e.dst = f.src)) : k = l := by
  by_contra hkl
  have he := List.mem_of_getElem? hk
  obtain ⟨w1, w2⟩ := hg.wf e he
  set A := place g e.src with hA
  set B := place g e.dst with hB
  have hAB : A ≠ B := fun hc => hg.noloop e he (hg.inj _ _ w1 w2 hc)
  have on1 : OnEdge (place g) e (A.1 + 1 / 2 * (B.1 - A.1), A.2 + 1 / 2 * (B.2 - A.2)) :=
    ⟨1 / 2, by norm_num, by norm_num, rfl⟩
  have on2 : OnEdge (place g) f (A.1 + 1 / 2 * (B.1 - A.1), A.2 + 1 / 2 * (B.2 - A.2)) := by
    rcases h with ⟨h1, h2⟩ | ⟨h1, h2⟩
    · unfold OnEdge; rw [← h1, ← h2]; exact on1
    · unfold OnEdge; rw [← h1, ← h2]; exact onSeg_symm on1
  obtain ⟨i, hi, _, heq⟩ := hg.planar.meet k l e f hk hl hkl _ on1 on2
  rcases hi with rfl | rfl
  · have h0 : A = (A.1 + 0 * (B.1 - A.1), A.2 + 0 * (B.2 - A.2)) := by simp
    have := param_inj hAB (heq.trans h0)
    norm_num at this
  · have h0 : B = (A.1 + 1 * (B.1 - A.1), A.2 + 1 * (B.2 - A.2)) := by simp
    have := param_inj hAB (heq.trans h0)
    norm_num at this

/-! ## C103: the order of the requests -/

/-- `g'` is `g` with the nodes renumbered by `σ`; nodes keep position, data and label, edges keep their ends (in some
direction) and their data -/
structure SameUpTo (σ : ℕ → ℕ) (g g' : PlanarGraph XReal T U) : Prop where
  count : g'.nodes.length = g.nodes.length
  inj : ∀ i j, i < g.nodes.length → j < g.nodes.length → σ i = σ j → i = j
  node : ∀ i, i < g.nodes.length → g'.getVertex (σ i) = g.getVertex i
  edge : ∀ i j c, i < g.nodes.length → j < g.nodes.length → (Linked g i j c ↔ Linked g' (σ i) (σ j) c)
  edges : g'.edges.length = g.edges.length

/-- a segment with data `c` between `a` and `b` was requested, in either direction -/
def Asked (S : List (Stroke U)) (a b : ℝ × ℝ) (c : U) : Prop :=
  ∃ s ∈ S, s.c = c ∧ ((s.a = a ∧ s.b = b) ∨ (s.a = b ∧ s.b = a))

theorem asked_on {S S' : List (Stroke U)} (h : ∀ a b c, Asked S a b c → Asked S' a b c) {s : Stroke U} (hs : s ∈ S) :
    ∃ s' ∈ S', s'.c = s.c ∧ ((s'.a = s.a ∧ s'.b = s.b) ∨ (s'.a = s.b ∧ s'.b = s.a)) ∧ ∀ y, s.On y → s'.On y := by
  obtain ⟨s', hs', hc, h'⟩ := h s.a s.b s.c ⟨s, hs, rfl, Or.inl ⟨rfl, rfl⟩⟩
  refine ⟨s', hs', hc, h', fun y hy => ?_⟩
  unfold Stroke.On at *
  rcases h' with ⟨h1, h2⟩ | ⟨h1, h2⟩
  · rw [h1, h2]; exact hy
  · rw [h1, h2]; exact onSeg_symm hy

theorem meet_of_asked {P P' : List (ℝ × ℝ)} {S S' : List (Stroke U)} (hA : Apart P S) (hP : ∀ x, x ∈ P' → x ∈ P)
    (h : ∀ a b c, Asked S a b c → Asked S' a b c) {y : ℝ × ℝ} (hy : Meet P S y) : Meet P' S' y := by
  obtain ⟨h0, s, hs, t, ht, hne, o1, o2⟩ := hy
  obtain ⟨s', hs', _, e1, f1⟩ := asked_on h hs
  obtain ⟨t', ht', _, e2, f2⟩ := asked_on h ht
  refine ⟨fun hc => h0 (hP y hc), s', hs', t', ht', ?_, f1 y o1, f2 y o2⟩
  rintro rfl
  have hsym : Std.Symm (fun s s' : Stroke U => ¬ (s.a = s'.a ∧ s.b = s'.b) ∧ ¬ (s.a = s'.b ∧ s.b = s'.a)) :=
    ⟨fun a b h => ⟨fun hc => h.1 ⟨hc.1.symm, hc.2.symm⟩, fun hc => h.2 ⟨hc.2.symm, hc.1.symm⟩⟩⟩
  obtain ⟨n1, n2⟩ := hA.once.forall hs ht hne
  rcases e1 with ⟨a1, a2⟩ | ⟨a1, a2⟩ <;> rcases e2 with ⟨b1, b2⟩ | ⟨b1, b2⟩
  · exact n1 ⟨a1.symm.trans b1, a2.symm.trans b2⟩
  · exact n2 ⟨a1.symm.trans b1, a2.symm.trans b2⟩
  · exact n2 ⟨a2.symm.trans b2, a1.symm.trans b1⟩
  · exact n1 ⟨a2.symm.trans b2, a1.symm.trans b1⟩

/-- every node of `g` is in `g'` -/
theorem Stage.sub [Inhabited T] {P0 P0' : List ((ℝ × ℝ) × T)} {S S' : List (Stroke U)} {g g' : PlanarGraph XReal T U}
    {ids ids' : List ℕ} (h : Stage (P0.map Prod.fst) P0 S g ids) (h' : Stage (P0'.map Prod.fst) P0' S' g' ids')
    (hA : Apart (P0.map Prod.fst) S) (hP : P0.Perm P0') (hS : ∀ a b c, Asked S a b c → Asked S' a b c) {i : ℕ}
    (hi : i < g.nodes.length) : ∃ j, j < g'.nodes.length ∧ g'.getVertex j = g.getVertex i := by
  have hget := List.getElem?_eq_getElem hi
  rcases h.nodes i _ hget with ⟨k, hk⟩ | ⟨hm, hd, hl⟩
  · have hlt := (List.getElem?_eq_some_iff.1 hk).1
    rw [h.ids_length] at hlt
    obtain ⟨j, hj, hn⟩ := h.ids_at k _ _ (List.getElem?_eq_getElem hlt)
    rw [hk] at hj
    cases hj
    obtain ⟨k', hk'⟩ := List.mem_iff_getElem?.1 (hP.mem_iff.1 (List.getElem_mem hlt))
    obtain ⟨j, _, hj⟩ := h'.ids_at k' _ _ hk'
    exact ⟨j, (List.getElem?_eq_some_iff.1 hj).1, by unfold getVertex; rw [hj, hn]⟩
  · have hm' := meet_of_asked (P' := P0'.map Prod.fst) hA (fun x hx => (hP.map Prod.fst).mem_iff.2 hx) hS hm
    obtain ⟨j, hj, hp⟩ := h'.met _ hm'
    refine ⟨j, hj, ?_⟩
    have hget' := List.getElem?_eq_getElem hj
    unfold getVertex
    rw [hget, hget']
    rcases h'.nodes j _ hget' with ⟨k, hk⟩ | ⟨_, hd', hl'⟩
    · exfalso
      apply hm'.1
      have hlt := (List.getElem?_eq_some_iff.1 hk).1
      rw [h'.ids_length] at hlt
      obtain ⟨j', hj', hn⟩ := h'.ids_at k _ _ (List.getElem?_eq_getElem hlt)
      rw [hk] at hj'
      cases hj'
      rw [← hp, place_get hn]
      exact List.mem_map.2 ⟨_, List.getElem_mem hlt, rfl⟩
    · have e1 := h.plane.finite i _ hget
      have e2 := h'.plane.finite j _ hget'
      rw [hp] at e2
      generalize g.nodes[i] = a at *
      generalize g'.nodes[j] = b at *
      cases a; cases b
      simp only at e1 e2 hd hl hd' hl'
      rw [e1, e2, hd, hl, hd', hl']

theorem linked_move [Inhabited T] {P0 P0' : List ((ℝ × ℝ) × T)} {S S' : List (Stroke U)} {g g' : PlanarGraph XReal T U}
    {ids ids' : List ℕ} (h : Stage (P0.map Prod.fst) P0 S g ids) (h' : Stage (P0'.map Prod.fst) P0' S' g' ids')
    (hA' : Apart (P0'.map Prod.fst) S') (hP : P0.Perm P0') (hS : ∀ a b c, Asked S a b c ↔ Asked S' a b c) {i j i' j' : ℕ}
    (hi : i < g.nodes.length) (hj : j < g.nodes.length) (hi' : i' < g'.nodes.length) (hj' : j' < g'.nodes.length)
    (ei : g'.getVertex i' = g.getVertex i) (ej : g'.getVertex j' = g.getVertex j) {c : U} (hl : Linked g i j c) :
    Linked g' i' j' c := by
  have hpl : ∀ {a b}, g'.getVertex b = g.getVertex a → place g' b = place g a := by
    intro a b hab
    unfold getVertex at hab
    unfold place; rw [hab]
  obtain ⟨hij, ⟨s, hs, rfl, o1, o2⟩, hcons⟩ := (h.linked_iff hi hj c).1 hl
  rw [h'.linked_iff hi' hj', hpl ei, hpl ej]
  obtain ⟨s', hs', hc, _, hon⟩ := asked_on (fun a b c => (hS a b c).1) hs
  refine ⟨?_, ⟨s', hs', hc, hon _ o1, hon _ o2⟩, ?_⟩
  · rintro rfl
    exact hij (h.plane.inj i j hi hj ((hpl ei).symm.trans (hpl ej)))
  · intro k hk hk'
    obtain ⟨m, hm, em⟩ := h'.sub h hA' hP.symm (fun a b c => (hS a b c).2) hk
    have pm := hpl em.symm
    rw [pm] at hk'
    rcases hcons m hm hk' with rfl | rfl
    · exact Or.inl (h'.plane.inj k i' hk hi' (pm.trans (hpl ei).symm))
    · exact Or.inr (h'.plane.inj k j' hk hj' (pm.trans (hpl ej).symm))

theorem edges_le [Inhabited T] {P0 P0' : List ((ℝ × ℝ) × T)} {S S' : List (Stroke U)} {g g' : PlanarGraph XReal T U}
    {ids ids' : List ℕ} (h : Stage (P0.map Prod.fst) P0 S g ids) (h' : Stage (P0'.map Prod.fst) P0' S' g' ids')
    (hA : Apart (P0.map Prod.fst) S) (hA' : Apart (P0'.map Prod.fst) S') (hP : P0.Perm P0')
    (hS : ∀ a b c, Asked S a b c ↔ Asked S' a b c) : g.edges.length ≤ g'.edges.length := by
  have hsub : ∀ i, i < g.nodes.length → ∃ j, j < g'.nodes.length ∧ g'.getVertex j = g.getVertex i :=
    fun i hi => h.sub h' hA hP (fun a b c => (hS a b c).1) hi
  have hpl : ∀ {a b}, g'.getVertex b = g.getVertex a → place g' b = place g a := by
    intro a b hab
    unfold getVertex at hab
    unfold place; rw [hab]
  have hex : ∀ k : Fin g.edges.length, ∃ k' : Fin g'.edges.length,
      (place g' (g'.edges[k']).src = place g (g.edges[k]).src ∧ place g' (g'.edges[k']).dst = place g (g.edges[k]).dst) ∨
      (place g' (g'.edges[k']).src = place g (g.edges[k]).dst ∧ place g' (g'.edges[k']).dst = place g (g.edges[k]).src) := by
    intro k
    have hm : g.edges[k] ∈ g.edges := List.getElem_mem k.2
    obtain ⟨w1, w2⟩ := h.plane.wf _ hm
    obtain ⟨i', hi', ei⟩ := hsub _ w1
    obtain ⟨j', hj', ej⟩ := hsub _ w2
    obtain ⟨f, hf, _, hk⟩ := linked_move h h' hA' hP hS w1 w2 hi' hj' ei ej ⟨_, hm, rfl, Or.inl ⟨rfl, rfl⟩⟩
    obtain ⟨k', hk', rfl⟩ := List.mem_iff_getElem.1 hf
    refine ⟨⟨k', hk'⟩, ?_⟩
    rcases hk with ⟨h1, h2⟩ | ⟨h1, h2⟩
    · left
      simp only [Fin.getElem_fin, h1, h2]
      exact ⟨hpl ei, hpl ej⟩
    · right
      simp only [Fin.getElem_fin, h1, h2]
      exact ⟨hpl ej, hpl ei⟩
  choose φ hφ using hex
  have hinj : Function.Injective φ := by
    intro k l hkl
    have h1 := hφ k
    have h2 := hφ l
    rw [← hkl] at h2
    obtain ⟨w1, w2⟩ := h.plane.wf (g.edges[k]) (List.getElem_mem k.2)
    obtain ⟨v1, v2⟩ := h.plane.wf (g.edges[l]) (List.getElem_mem l.2)
    apply Fin.ext
    refine C102_simple g h.plane k l (g.edges[k]) (g.edges[l]) (List.getElem?_eq_getElem k.2) (List.getElem?_eq_getElem l.2) ?_
    rcases h1 with ⟨a1, a2⟩ | ⟨a1, a2⟩ <;> rcases h2 with ⟨b1, b2⟩ | ⟨b1, b2⟩
    · exact Or.inl ⟨h.plane.inj _ _ w1 v1 (a1.symm.trans b1), h.plane.inj _ _ w2 v2 (a2.symm.trans b2)⟩
    · exact Or.inr ⟨h.plane.inj _ _ w1 v2 (a1.symm.trans b1), h.plane.inj _ _ w2 v1 (a2.symm.trans b2)⟩
    · exact Or.inr ⟨h.plane.inj _ _ w1 v2 (a2.symm.trans b2), h.plane.inj _ _ w2 v1 (a1.symm.trans b1)⟩
    · exact Or.inl ⟨h.plane.inj _ _ w1 v1 (a2.symm.trans b2), h.plane.inj _ _ w2 v2 (a1.symm.trans b1)⟩
  simpa using Fintype.card_le_of_injective φ hinj

theorem nodes_le [Inhabited T] {P0 P0' : List ((ℝ × ℝ) × T)} {S S' : List (Stroke U)} {g g' : PlanarGraph XReal T U}
    {ids ids' : List ℕ} (h : Stage (P0.map Prod.fst) P0 S g ids) (h' : Stage (P0'.map Prod.fst) P0' S' g' ids')
    (hA : Apart (P0.map Prod.fst) S) (hP : P0.Perm P0') (hS : ∀ a b c, Asked S a b c → Asked S' a b c) :
    g.nodes.length ≤ g'.nodes.length := by
  have hex : ∀ i : Fin g.nodes.length, ∃ j : Fin g'.nodes.length, g'.getVertex j = g.getVertex i := by
    intro i
    obtain ⟨j, hj, h1⟩ := h.sub h' hA hP hS i.2
    exact ⟨⟨j, hj⟩, h1⟩
  choose φ hφ using hex
  have hinj : Function.Injective φ := by
    intro k l hkl
    apply Fin.ext
    apply h.plane.inj _ _ k.2 l.2
    have e := (hφ k).symm.trans ((congrArg (fun z : Fin g'.nodes.length => g'.getVertex z) hkl).trans (hφ l))
    unfold getVertex at e
    unfold place; rw [e]
  simpa using Fintype.card_le_of_injective φ hinj

/-- **C103.** In exact arithmetic: two lists of requests in general position that ask for the same points with the same data
and for the same segments with the same data (in any order, and segments in any direction) produce the same graph up to
the numbering of nodes, the order of edges and the direction of edges. -/
theorem C103_order [Inhabited T] (rs rs' : List (Req T U)) (hv : Valid 0 rs) (hv' : Valid 0 rs')
    (hA : Apart (points rs) (strokes [] rs)) (hA' : Apart (points rs') (strokes [] rs'))
    (hP : (wanted rs).Perm (wanted rs')) (hS : ∀ a b c, Asked (strokes [] rs) a b c ↔ Asked (strokes [] rs') a b c) :
    ∃ g g' ids ids' σ, client PlanarGraph.new [] rs = .ok (g, ids) ∧ client PlanarGraph.new [] rs' = .ok (g', ids') ∧
      SameUpTo σ g g' := by
  obtain ⟨g, ids, h1, h⟩ := client_end rs hv hA
  obtain ⟨g', ids', h1', h'⟩ := client_end rs' hv' hA'
  have hsub : ∀ i, ∃ j, i < g.nodes.length → j < g'.nodes.length ∧ g'.getVertex j = g.getVertex i := by
    intro i
    by_cases hi : i < g.nodes.length
    · obtain ⟨j, hj⟩ := h.sub h' hA hP (fun a b c => (hS a b c).1) hi
      exact ⟨j, fun _ => hj⟩
    · exact ⟨0, fun hc => absurd hc hi⟩
  choose σ hσ using hsub
  refine ⟨g, g', ids, ids', σ, h1, h1', ?_, ?_, ?_, ?_, ?_⟩
  · exact le_antisymm (nodes_le h' h hA' hP.symm fun a b c => (hS a b c).2) (nodes_le h h' hA hP fun a b c => (hS a b c).1)
  · intro i j hi hj hij
    apply h.plane.inj i j hi hj
    have e : g.getVertex i = g.getVertex j := by rw [← (hσ i hi).2, ← (hσ j hj).2, hij]
    unfold getVertex at e
    unfold place; rw [e]
  · intro i hi; exact (hσ i hi).2
  · intro i j c hi hj
    obtain ⟨i1, i2⟩ := hσ i hi
    obtain ⟨j1, j2⟩ := hσ j hj
    exact ⟨linked_move h h' hA' hP hS hi hj i1 j1 i2 j2,
      linked_move h' h hA hP.symm (fun a b c => (hS a b c).symm) i1 j1 hi hj i2.symm j2.symm⟩
  · exact le_antisymm (edges_le h' h hA' hA hP.symm fun a b c => (hS a b c).symm) (edges_le h h' hA hA' hP hS)

theorem Apart.perm {P P' : List (ℝ × ℝ)} {S S' : List (Stroke U)} (hA : Apart P S) (hP : P.Perm P') (hS : S.Perm S') :
    Apart P' S' := by
  have hM : ∀ y, Meet P' S' y → Meet P S y := by
    rintro y ⟨h0, s, hs, s', hs', h⟩
    exact ⟨fun hc => h0 (hP.mem_iff.1 hc), s, hS.mem_iff.2 hs, s', hS.mem_iff.2 hs', h⟩
  refine ⟨?_, ?_, ?_, ?_, ?_, ?_, ?_⟩
  · exact hP.pairwise hA.points fun h => by rw [UtilThm.dst_comm]; exact h
  · exact fun x hx s hs => hA.clear x (hP.mem_iff.2 hx) s (hS.mem_iff.2 hs)
  · exact hS.pairwise hA.once fun h => ⟨fun hc => h.1 ⟨hc.1.symm, hc.2.symm⟩, fun hc => h.2 ⟨hc.2.symm, hc.1.symm⟩⟩
  · exact fun y hy s hs => hA.cross_clear y (hM y hy) s (hS.mem_iff.2 hs)
  · exact fun y hy x hx => hA.cross_far y (hM y hy) x (hP.mem_iff.2 hx)
  · exact fun y y' hy hy' => hA.cross_sep y y' (hM y hy) (hM y' hy')
  · exact fun y hy s hs s' hs' s'' hs'' => hA.cross_two y (hM y hy) s (hS.mem_iff.2 hs) s' (hS.mem_iff.2 hs') s''
      (hS.mem_iff.2 hs'')

/-- **C103, reordering.** If one list of requests is in general position and another one asks for the same points and segments
in another order, both produce the same graph up to numbering. -/
theorem C103_reorder [Inhabited T] (rs rs' : List (Req T U)) (hv : Valid 0 rs) (hv' : Valid 0 rs')
    (hA : Apart (points rs) (strokes [] rs)) (hP : (wanted rs).Perm (wanted rs'))
    (hS : (strokes [] rs).Perm (strokes [] rs')) :
    ∃ g g' ids ids' σ, client PlanarGraph.new [] rs = .ok (g, ids) ∧ client PlanarGraph.new [] rs' = .ok (g', ids') ∧
      SameUpTo σ g g' := by
  refine C103_order rs rs' hv hv' hA (hA.perm (hP.map _) hS) hP fun a b c => ?_
  constructor
  · rintro ⟨s, hs, h⟩; exact ⟨s, hS.mem_iff.1 hs, h⟩
  · rintro ⟨s, hs, h⟩; exact ⟨s, hS.mem_iff.2 hs, h⟩

/-! ### The hypotheses can be met -/

/-- two crossing segments -/
def crossReq : List (Req ℕ ℕ) :=
  [.point (0, 0) 1, .point (2, 0) 2, .seg 0 1 10, .point (1, -1) 3, .point (1, 1) 4, .seg 2 3 20]

/-- the same in another order -/
def crossReq' : List (Req ℕ ℕ) :=
  [.point (1, 1) 4, .point (1, -1) 3, .seg 1 0 20, .point (0, 0) 1, .point (2, 0) 2, .seg 2 3 10]

theorem cross_apart : Apart (points crossReq) (strokes [] crossReq) := by
  have hP : points crossReq = [(0, 0), (2, 0), (1, -1), (1, 1)] := rfl
  have hS : strokes [] crossReq = [⟨(0, 0), (2, 0), 10⟩, ⟨(1, -1), (1, 1), 20⟩] := rfl
  rw [hP, hS]
  have heps : XReal.epsR ≤ 1 / 2 := by unfold XReal.epsR; norm_num
  have hs2 : (5 / 4 : ℝ) ≤ Real.sqrt 2 := by exact Real.le_sqrt_of_sq_le (by norm_num)
  have hs4 : Real.sqrt 4 = 2 := by rw [show (4 : ℝ) = 2 ^ 2 by norm_num, Real.sqrt_sq (by norm_num)]
  have hM : ∀ y, Meet [((0 : ℝ), (0 : ℝ)), (2, 0), (1, -1), (1, 1)]
      [(⟨(0, 0), (2, 0), 10⟩ : Stroke ℕ), ⟨(1, -1), (1, 1), 20⟩] y → y = (1, 0) := by
    rintro y ⟨_, s, hs, s', hs', hne, o1, o2⟩
    have key : ∀ y, OnSegR (0, 0) (2, 0) y → OnSegR (1, -1) (1, 1) y → y = ((1 : ℝ), (0 : ℝ)) := by
      rintro y ⟨t, _, _, ht⟩ ⟨u, _, _, hu⟩
      have h1 := congrArg Prod.snd ht
      have h2 := congrArg Prod.fst hu
      simp at h1 h2
      exact Prod.ext h2 h1
    simp only [List.mem_cons, List.not_mem_nil, or_false] at hs hs'
    rcases hs with rfl | rfl <;> rcases hs' with rfl | rfl
    · exact absurd rfl hne
    · exact key y o1 o2
    · exact key y o2 o1
    · exact absurd rfl hne
  refine ⟨?_, ?_, ?_, ?_, ?_, ?_, ?_⟩
  · simp only [List.pairwise_cons, List.mem_cons, List.not_mem_nil, or_false, forall_eq_or_imp, forall_eq, dst]
    norm_num [hs4]
    have h1 : XReal.epsR < √2 := by linarith
    have h2 : XReal.epsR < 2 := by linarith
    simp only [h1, h2, and_self]
  · intro x hx s hs h1 h2
    simp only [List.mem_cons, List.not_mem_nil, or_false] at hx hs
    rcases hs with rfl | rfl <;> rcases hx with rfl | rfl | rfl | rfl <;>
      first
        | exact absurd rfl h1
        | exact absurd rfl h2
        | (norm_num [dst, hs4]; linarith)
  · norm_num
  · intro y hy s hs hn
    exfalso
    apply hn
    rw [hM y hy]
    simp only [List.mem_cons, List.not_mem_nil, or_false] at hs
    rcases hs with rfl | rfl
    · exact ⟨1 / 2, by norm_num, by norm_num, by norm_num⟩
    · exact ⟨1 / 2, by norm_num, by norm_num, by norm_num⟩
  · intro y hy x hx
    rw [hM y hy]
    simp only [List.mem_cons, List.not_mem_nil, or_false] at hx
    rcases hx with rfl | rfl | rfl | rfl <;> norm_num [dst] <;> linarith
  · intro y y' hy hy' hne
    exact absurd ((hM y hy).trans (hM y' hy').symm) hne
  · intro y hy s hs s' hs' s'' hs'' _ _ _
    simp only [List.mem_cons, List.not_mem_nil, or_false] at hs hs' hs''
    rcases hs with rfl | rfl <;> rcases hs' with rfl | rfl <;> rcases hs'' with rfl | rfl <;> simp

example : Valid 0 crossReq ∧ Valid 0 crossReq' ∧ (wanted crossReq).Perm (wanted crossReq') ∧
    (strokes [] crossReq).Perm (strokes [] crossReq') := by
  refine ⟨by simp [crossReq, Valid], by simp [crossReq', Valid], ?_, ?_⟩
  · have h1 : wanted crossReq = [((0, 0), 1), ((2, 0), 2)] ++ [((1, -1), 3), ((1, 1), 4)] := rfl
    have h2 : wanted crossReq' = [((1, 1), 4), ((1, -1), 3)] ++ [((0, 0), 1), ((2, 0), 2)] := rfl
    rw [h1, h2]
    exact List.perm_append_comm.trans (List.Perm.append (List.Perm.swap _ _ _) (List.Perm.refl _))
  · exact List.Perm.swap _ _ _

/-- the crossing becomes a node -/
example : ∃ g ids, client PlanarGraph.new [] crossReq = .ok (g, ids) ∧ ∃ i, i < g.nodes.length ∧ place g i = (1, 0) := by
  obtain ⟨g, ids, h, _, _, h1, _⟩ := C102_arrangement crossReq (by simp [crossReq, Valid]) cross_apart
  refine ⟨g, ids, h, (h1 (1, 0)).2 (Or.inr ⟨?_, ⟨(0, 0), (2, 0), 10⟩, ?_, ⟨(1, -1), (1, 1), 20⟩, ?_, ?_, ?_, ?_⟩)⟩
  · have hP : points crossReq = [(0, 0), (2, 0), (1, -1), (1, 1)] := rfl
    rw [hP]; norm_num
  · exact List.mem_cons_self ..
  · exact List.mem_cons_of_mem _ (List.mem_cons_self ..)
  · simp
  · exact ⟨1 / 2, by norm_num, by norm_num, by norm_num⟩
  · exact ⟨1 / 2, by norm_num, by norm_num, by norm_num⟩

end

/-- **C103 needs general position**: the point (2, 0) on the segment from (0, 0) to (4, 0).  Requested after the segment it
splits it; requested before the segment it stays inside the edge. -/
theorem C103_counterexample :
    (PlanarGraph.run .debug (PlanarGraph.new : PlanarGraph F32 Unit Unit)
      [.addNode ⟨F32.lit 0, F32.lit 0⟩ (), .addNode ⟨F32.lit 4, F32.lit 0⟩ (), .addEdge 0 1 (),
        .addNode ⟨F32.lit 2, F32.lit 0⟩ ()]).map (fun g => g.edges.length) = .ok 2 ∧
    (PlanarGraph.run .debug (PlanarGraph.new : PlanarGraph F32 Unit Unit)
      [.addNode ⟨F32.lit 0, F32.lit 0⟩ (), .addNode ⟨F32.lit 4, F32.lit 0⟩ (), .addNode ⟨F32.lit 2, F32.lit 0⟩ (),
        .addEdge 0 1 ()]).map (fun g => g.edges.length) = .ok 1 := by
  decide +kernel

end Kami.Graph
