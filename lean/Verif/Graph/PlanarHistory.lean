import Verif.Graph.Planar
import Verif.Graph.Histories
/-!
# C101: planarity over whole histories, in exact arithmetic

Every mutating call keeps the drawing planar if its request is in general position with respect to the tolerance; removals
always do.
-/

set_option autoImplicit false

namespace Kami.Graph

open Kami
open scoped Kami
open PlanarGraph
open Kami.UtilThm (dst crs dt OnSegR)

variable {T U : Type}

noncomputable section

/-! ## Specification -/

/-- the value of a finite number -/
def realOf : XReal → ℝ
  | .fin r => r
  | _ => 0

/-- where node `i` is -/
def place (g : PlanarGraph XReal T U) (i : ℕ) : ℝ × ℝ :=
  match g.nodes[i]? with
  | some a => (realOf a.position.x, realOf a.position.y)
  | none => (0, 0)

/-- a graph drawn in the plane: indices are valid, there are no self-loops, node positions are finite and distinct,
and the drawing is planar -/
structure Plane (g : PlanarGraph XReal T U) : Prop where
  wf : ∀ e ∈ g.edges, e.src < g.nodes.length ∧ e.dst < g.nodes.length
  noloop : ∀ e ∈ g.edges, e.src ≠ e.dst
  finite : Drawn g (place g)
  inj : ∀ i j, i < g.nodes.length → j < g.nodes.length → place g i = place g j → i = j
  planar : Planar g (place g)

/-- `x` is farther than epsilon from all nodes and, for every edge, either exactly on it or outside its tolerance
ellipse -/
def ClearPoint (g : PlanarGraph XReal T U) (x : ℝ × ℝ) : Prop :=
  (∀ i, i < g.nodes.length → XReal.epsR < dst x (place g i)) ∧
  ∀ e ∈ g.edges, ¬ OnEdge (place g) e x →
    dst (place g e.src) (place g e.dst) + XReal.epsR ≤ dst (place g e.src) x + dst x (place g e.dst)

/-- The request is in general position.  A new node is closer than epsilon to a node, or clear.  An edge joins different
nodes and, if it can be added at all, its segment is in general position.  Removals are unrestricted. -/
def GoodRequest (g : PlanarGraph XReal T U) : Op XReal T U → Prop
  | .addNode q _ => ∃ x, q = pt x ∧ ((∃ i, i < g.nodes.length ∧ dst x (place g i) < XReal.epsR) ∨ ClearPoint g x)
  | .addEdge s d _ => s ≠ d ∧ (s < g.nodes.length → d < g.nodes.length →
      (∀ e ∈ g.edges, ¬ ((e.src = s ∧ e.dst = d) ∨ (e.src = d ∧ e.dst = s))) → GeneralPosition g (place g) s d)
  | .removeEdge _ => True
  | .removeNode _ => True

/-- every request of the history is in general position when it is made -/
def GoodHistory [Inhabited T] (p : Profile) : PlanarGraph XReal T U → List (Op XReal T U) → Prop
  | _, [] => True
  | g, op :: ops => GoodRequest g op ∧ ∀ g', g.step p op = .ok g' → GoodHistory p g' ops

/-! ## Positions -/

theorem place_of_drawn {g : PlanarGraph XReal T U} {pos : ℕ → ℝ × ℝ} (h : Drawn g pos) {i : ℕ} (hi : i < g.nodes.length) :
    place g i = pos i := by
  unfold place
  rw [List.getElem?_eq_getElem hi]
  simp only
  rw [h i _ (List.getElem?_eq_getElem hi)]
  simp [pt, realOf]

theorem Drawn.place {g : PlanarGraph XReal T U} {pos : ℕ → ℝ × ℝ} (h : Drawn g pos) : Drawn g (place g) := by
  intro i a ha
  rw [place_of_drawn h (List.getElem?_eq_some_iff.1 ha).1]
  exact h i a ha

theorem planar_place {g : PlanarGraph XReal T U} (hwf : WF g) {pos : ℕ → ℝ × ℝ} (hd : Drawn g pos) (h : Planar g pos) :
    Planar g (place g) := by
  by_contra hc
  exact not_planar_of hwf hd.place hc pos hd h

theorem Plane.of {g : PlanarGraph XReal T U} (hwf : WF g) (hl : LoopFree g) {pos : ℕ → ℝ × ℝ} (hd : Drawn g pos)
    (hinj : ∀ i j, i < g.nodes.length → j < g.nodes.length → pos i = pos j → i = j) (hp : Planar g pos) : Plane g where
  wf := hwf
  noloop := hl
  finite := hd.place
  inj := by
    intro i j hi hj h
    rw [place_of_drawn hd hi, place_of_drawn hd hj] at h
    exact hinj i j hi hj h
  planar := planar_place hwf hd hp

theorem onEdge_place {g : PlanarGraph XReal T U} (hwf : WF g) {pos : ℕ → ℝ × ℝ} (hd : Drawn g pos) {e : Edge U}
    (he : e ∈ g.edges) (y : ℝ × ℝ) : OnEdge (place g) e y ↔ OnEdge pos e y := by
  unfold OnEdge
  rw [place_of_drawn hd (hwf e he).1, place_of_drawn hd (hwf e he).2]

/-! ## `add_node` -/

theorem near_of_close {g : PlanarGraph XReal T U} (hd : Drawn g (place g)) {x : ℝ × ℝ} {i : ℕ} (hi : i < g.nodes.length)
    (h : dst x (place g i) < XReal.epsR) : ((nearest g (pt x)).2 <. Scalar.epsilon) = true := by
  by_contra hc
  have := (nearest_spec g (pt x)).2 (by simpa using hc) _ (List.getElem_mem hi)
  rw [hd i _ (List.getElem?_eq_getElem hi), UtilThm.distance_pt, XReal.eps_def, XReal.fin_lt] at this
  simp only [decide_eq_false_iff_not, not_lt] at this
  linarith

theorem not_near_of_far {g : PlanarGraph XReal T U} (hd : Drawn g (place g)) {x : ℝ × ℝ}
    (h : ∀ i, i < g.nodes.length → XReal.epsR < dst x (place g i)) :
    ((nearest g (pt x)).2 <. Scalar.epsilon) = false := by
  rw [← Bool.not_eq_true]; intro hc
  obtain ⟨a, h1, h2, _⟩ := (nearest_spec g (pt x)).1 hc
  have hlt := (List.getElem?_eq_some_iff.1 h1).1
  rw [h2, hd _ _ h1, UtilThm.distance_pt, XReal.eps_def, XReal.fin_lt] at hc
  have := h _ hlt
  simp only [decide_eq_true_eq] at hc
  linarith

/-- what the insertion of a clear point does -/
theorem addNodeG_clear {g : PlanarGraph XReal T U} (hg : Plane g) {x : ℝ × ℝ} (hx : ClearPoint g x) (t : T) :
    (addNodeG g (pt x) t).nodes = g.nodes ++ [⟨pt x, t, ""⟩] ∧
    Inv0 (fun A B c => ∃ e ∈ g.edges, A = place g e.src ∧ B = place g e.dst ∧ e.data = c) (fun y => y = x)
      g.nodes.length (addNodeG g (pt x) t) (Function.update (place g) g.nodes.length x) (fun _ => False) := by
  let _ : Inhabited T := ⟨t⟩
  have hn := not_near_of_far hg.finite hx.1
  have e1 : addNodeG g (pt x) t = insertPt g (pt x) := by
    unfold addNodeG insertPt
    rw [if_neg (by rw [hn]; decide), if_neg (by rw [hn]; decide)]
    rfl
  have h0 : Inv0 (fun A B c => ∃ e ∈ g.edges, A = place g e.src ∧ B = place g e.dst ∧ e.data = c) (fun y => y = x)
      g.nodes.length g (place g) (fun y => y = x) := by
    refine ⟨hg.wf, hg.finite, hg.inj, ?_, ?_, hg.planar.node, ?_, ?_, ?_, ?_, ?_, ?_⟩
    · intro e he
      exact ⟨_, _, ⟨e, he, rfl, rfl, rfl⟩, onSeg_left _ _, onSeg_right _ _⟩
    · intro k l e f hk hl hkl y hy hy'
      exact Or.inl (hg.planar.meet k l e f hk hl hkl y hy hy')
    · rintro y rfl A B _ ⟨e, he, rfl, rfl, rfl⟩ hlt
      by_contra hc
      have := hx.2 e he hc
      linarith
    · rintro y rfl i hi; exact hx.1 i hi
    · rintro y y' rfl rfl h; exact absurd rfl h
    · rintro A B _ ⟨e, he, rfl, rfl, rfl⟩ y hy
      exact ⟨e, he, rfl, hy⟩
    · intro i h1 h2; omega
    · intro y hy; exact Or.inl hy
  obtain ⟨_, h1⟩ := h0.insert_cross (x := x) rfl rfl
  rw [← e1] at h1
  refine ⟨?_, ?_⟩
  · unfold addNodeG
    rw [if_neg (by rw [hn]; decide)]
    rfl
  · have : (fun y => y = x ∧ y ≠ x) = fun _ : ℝ × ℝ => False := by
      funext y; simp
    rw [this] at h1
    exact h1

theorem Inv0.planar {base : (ℝ × ℝ) → (ℝ × ℝ) → U → Prop} {orig : (ℝ × ℝ) → Prop} {n0 : ℕ} {g : PlanarGraph XReal T U}
    {pos : ℕ → ℝ × ℝ} (h : Inv0 base orig n0 g pos (fun _ => False)) : Planar g pos := by
  refine ⟨?_, h.node⟩
  intro k l e f hk hl hkl y hy hy'
  rcases h.meet k l e f hk hl hkl y hy hy' with h | h
  · exact h
  · exact h.elim

theorem addNode_plane {g g' : PlanarGraph XReal T U} (hg : Plane g) {q : Vec2 XReal} {t : T} {r : ℕ × List ℕ}
    (hq : GoodRequest g (.addNode q t)) (h : g.addNode q t = .ok (g', r)) : Plane g' := by
  have hl := addNode_loopFree hg.wf hg.noloop h
  obtain ⟨x, rfl, hx⟩ := hq
  rw [addNode_ok g hg.wf] at h
  simp only [Except.ok.injEq, Prod.mk.injEq] at h
  obtain ⟨rfl, _⟩ := h
  rcases hx with ⟨i, hi, hd⟩ | hx
  · have := near_of_close hg.finite hi hd
    unfold addNodeG
    rw [if_pos this]
    exact hg
  · obtain ⟨_, h1⟩ := addNodeG_clear hg hx t
    exact Plane.of (WF.addNodeG hg.wf _ _) hl h1.drawn h1.inj h1.planar

/-! ## `add_edge` -/

theorem addEdge_plane [Inhabited T] {g g' : PlanarGraph XReal T U} (hg : Plane g) {s d : ℕ} {x : U}
    {r : Except PlanarGraphError (List ℕ × List ℕ)}
    (hq : GoodRequest g (.addEdge s d x)) (h : g.addEdge s d x = .ok (g', r)) : Plane g' := by
  have hl := addEdge_loopFree hg.wf hg.noloop hq.1 h
  have hw := addEdge_wf hg.wf h
  rcases addEdge_ok g hg.wf s d x with ⟨_, h'⟩ | ⟨_, _, h'⟩ | ⟨hne, hs, hd, g1, cn, ce, hi, h'⟩
  · rw [h] at h'; cases h'; exact hg
  · rw [h] at h'; cases h'; exact hg
  · have hno : ∀ e ∈ g.edges, ¬ ((e.src = s ∧ e.dst = d) ∨ (e.src = d ∧ e.dst = s)) := by
      intro e he hc
      rw [(hasEdge_iff g s d).2 ⟨e, he, hc⟩] at hne; cases hne
    obtain ⟨g2, r2, pos', q1, _, q3, q4, q5⟩ := C60_planar_partial g hg.wf (place g) hg.finite hg.inj hg.noloop hg.planar s d x
      (hq.2 hs hd hno)
    rw [h] at q1
    simp only [Except.ok.injEq, Prod.mk.injEq] at q1
    obtain ⟨rfl, _⟩ := q1
    exact Plane.of hw hl q3 q4 q5

/-! ## Removal -/

theorem Renumbered.place {g g' : PlanarGraph XReal T U} {keep ekeep : List ℕ} (h : Renumbered g g' keep ekeep) {k i : ℕ}
    (hk : keep[k]? = some i) : Graph.place g' k = Graph.place g i := by
  unfold Graph.place
  rw [(h.nodes k i hk).2]

theorem Renumbered.slot {g g' : PlanarGraph XReal T U} {keep ekeep : List ℕ} (h : Renumbered g g' keep ekeep) {k : ℕ}
    {e' : Edge U} (he : g'.edges[k]? = some e') : ∃ j e, ekeep[k]? = some j ∧ g.edges[j]? = some e ∧ e'.data = e.data ∧
      keep[e'.src]? = some e.src ∧ keep[e'.dst]? = some e.dst := by
  have hlt := (List.getElem?_eq_some_iff.1 he).1
  rw [h.edge_count] at hlt
  have hj := List.getElem?_eq_getElem hlt
  obtain ⟨e, e1, h1, h2, h3, _, h4, h5⟩ := h.edges k _ hj
  rw [he] at h2
  cases h2
  exact ⟨_, e, hj, h1, h3, h4, h5⟩

theorem nodup_get {l : List ℕ} (h : l.Nodup) {a b i : ℕ} (ha : l[a]? = some i) (hb : l[b]? = some i) : a = b :=
  (List.getElem?_inj (List.getElem?_eq_some_iff.1 ha).1 h).1 (ha.trans hb.symm)

theorem Renumbered.plane {g g' : PlanarGraph XReal T U} {keep ekeep : List ℕ} (h : Renumbered g g' keep ekeep)
    (hg : Plane g) : Plane g' := by
  have hlt : ∀ k, k < g'.nodes.length → ∃ i, keep[k]? = some i ∧ i < g.nodes.length := by
    intro k hk
    rw [h.node_count] at hk
    have := List.getElem?_eq_getElem hk
    exact ⟨_, this, (h.nodes k _ this).1⟩
  have hon : ∀ {e e' : Edge U} {y : ℝ × ℝ}, keep[e'.src]? = some e.src → keep[e'.dst]? = some e.dst →
      OnEdge (Graph.place g') e' y → OnEdge (Graph.place g) e y := by
    intro e e' y h1 h2 hy
    unfold OnEdge at hy ⊢
    rw [h.place h1, h.place h2] at hy
    exact hy
  refine ⟨h.wf, h.loopFree hg.noloop, ?_, ?_, ?_, ?_⟩
  · intro k a ha
    obtain ⟨i, hi, _⟩ := hlt k (List.getElem?_eq_some_iff.1 ha).1
    rw [h.place hi]
    rw [(h.nodes k i hi).2] at ha
    exact hg.finite i a ha
  · intro k l hk hl heq
    obtain ⟨i, hi, hi'⟩ := hlt k hk
    obtain ⟨j, hj, hj'⟩ := hlt l hl
    rw [h.place hi, h.place hj] at heq
    have := hg.inj i j hi' hj' heq
    subst this
    exact nodup_get h.nodup hi hj
  · intro k l e' f' hk hl hkl y hy hy'
    obtain ⟨a, e, ha, he, _, s1, s2⟩ := h.slot hk
    obtain ⟨b, f, hb, hf, _, t1, t2⟩ := h.slot hl
    have hab : a ≠ b := by
      rintro rfl
      exact hkl (nodup_get h.enodup ha hb)
    obtain ⟨i, i1, i2, i3⟩ := hg.planar.meet a b e f he hf hab y (hon s1 s2 hy) (hon t1 t2 hy')
    obtain ⟨m, m1, m2⟩ : ∃ m, keep[m]? = some i ∧ IsEnd e' m := by
      rcases i1 with rfl | rfl
      · exact ⟨_, s1, Or.inl rfl⟩
      · exact ⟨_, s2, Or.inr rfl⟩
    refine ⟨m, m2, ?_, by rw [h.place m1]; exact i3⟩
    rcases i2 with rfl | rfl
    · exact Or.inl (nodup_get h.nodup m1 t1)
    · exact Or.inr (nodup_get h.nodup m1 t2)
  · intro e' he' k hk hy
    obtain ⟨K, hK⟩ := List.mem_iff_getElem?.1 he'
    obtain ⟨a, e, ha, he, _, s1, s2⟩ := h.slot hK
    obtain ⟨i, hi, hi'⟩ := hlt k hk
    have hy' := hon s1 s2 hy
    rw [h.place hi] at hy'
    rcases hg.planar.node e (List.mem_of_getElem? he) i hi' hy' with rfl | rfl
    · exact Or.inl (nodup_get h.nodup hi s1)
    · exact Or.inr (nodup_get h.nodup hi s2)

/-! ## C101 -/

/-- **C101, one call.** In exact arithmetic, in both build profiles: a mutating call whose request is in general position
takes a graph drawn in the plane (valid indices, no self-loops, distinct finite positions, planar) to such a graph.
Removals need no hypothesis. -/
theorem C101_step [Inhabited T] (p : Profile) (g g' : PlanarGraph XReal T U) (op : Op XReal T U) (hg : Plane g)
    (hq : GoodRequest g op) (hs : g.step p op = .ok g') : Plane g' := by
  rcases step_ok hs with ⟨_, _, _, rfl, h⟩ | ⟨_, _, _, _, rfl, h⟩ | ⟨_, _, _, h⟩ | ⟨_, _, _, h⟩
  · exact addNode_plane hg hq h
  · exact addEdge_plane hg hq h
  · rcases removeEdge_renumbered hg.wf hg.noloop h with rfl | ⟨_, _, hr⟩
    · exact hg
    · exact hr.plane hg
  · rcases removeNode_renumbered hg.wf hg.noloop h with rfl | ⟨_, _, hr⟩
    · exact hg
    · exact hr.plane hg

theorem plane_new : Plane (PlanarGraph.new : PlanarGraph XReal T U) := by
  refine ⟨?_, ?_, ?_, ?_, ?_, ?_⟩
  · intro e he; cases he
  · intro e he; cases he
  · intro i a ha; cases ha
  · intro i j hi; cases hi
  · intro k l e f hk; cases hk
  · intro e he; cases he

/-- **C101.** In exact arithmetic, in both build profiles: after every history of additions and removals that starts with the
empty graph, does not panic, and whose additions are in general position when they are made, the graph is drawn in
the plane: different edges meet only at common end nodes, no node lies on an edge it is not an end of, positions are
distinct and indices valid. -/
theorem C101_history [Inhabited T] (p : Profile) (ops : List (Op XReal T U)) (g : PlanarGraph XReal T U)
    (hgood : GoodHistory p PlanarGraph.new ops) (h : PlanarGraph.run p PlanarGraph.new ops = .ok g) : Plane g := by
  suffices hs : ∀ (ops : List (Op XReal T U)) (g0 g : PlanarGraph XReal T U), Plane g0 → GoodHistory p g0 ops →
      g0.run p ops = .ok g → Plane g from hs ops _ _ plane_new hgood h
  intro ops
  induction ops with
  | nil => intro g0 g h0 _ h; cases h; exact h0
  | cons op ops ih =>
    intro g0 g h0 hgood h
    simp only [PlanarGraph.run] at h
    cases hs : g0.step p op with
    | error e => rw [hs] at h; cases h
    | ok g1 =>
      rw [hs] at h
      exact ih g1 g (C101_step p g0 g1 op h0 hgood.1 hs) (hgood.2 g1 hs) h

end

end Kami.Graph
