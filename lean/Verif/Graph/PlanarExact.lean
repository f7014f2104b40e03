import Verif.Graph.Planar
/-!
# C60: exactly when `add_edge` keeps the drawing planar

The points where the new segment meets the old edges transversally are inserted one after the other, except that a point found
twice is dropped (`unique_points_among`).  So every node on the new segment must be found exactly once, and edges along the new
segment are not found at all.
-/

set_option autoImplicit false

namespace Kami.Graph

open Kami
open scoped Kami
open PlanarGraph
open Kami.UtilThm (dst crs dt OnSegR)

variable {T U : Type}

noncomputable section

/-! ## Specification -/

/-- the segment from node `s` to node `d` and the edge `e`, not parallel to it, have the point `y` in common -/
def Cuts (pos : ℕ → ℝ × ℝ) (s d : ℕ) (e : Edge U) (y : ℝ × ℝ) : Prop :=
  crs (pos e.src) (pos e.dst) (pos s) (pos d) ≠ 0 ∧ OnEdge pos e y ∧ OnSegR (pos s) (pos d) y

/-- The points where the segment from `s` to `d` cuts edges are clear up to the tolerance of the library: they are farther than
epsilon from each other and from the nodes that are not at the same place, and outside the tolerance ellipses of the segments
they are not on.  Nothing is said about nodes that are not on the edges cut, nor about edges along the segment. -/
structure ClearCuts (g : PlanarGraph XReal T U) (pos : ℕ → ℝ × ℝ) (s d : ℕ) : Prop where
  far : ∀ e ∈ g.edges, ∀ y, Cuts pos s d e y → ∀ i, i < g.nodes.length → y ≠ pos i → XReal.epsR < dst y (pos i)
  sep : ∀ e ∈ g.edges, ∀ e' ∈ g.edges, ∀ y y', Cuts pos s d e y → Cuts pos s d e' y' → y ≠ y' → XReal.epsR < dst y y'
  clear : ∀ e ∈ g.edges, ∀ y, Cuts pos s d e y → ∀ u v, Segment g s d u v → ¬ OnSegR (pos u) (pos v) y →
    dst (pos u) (pos v) + XReal.epsR ≤ dst (pos u) y + dst y (pos v)

/-! ## Splitting at a node -/

/-- `f` is what splitting at node `i` makes of `e` -/
def Part (pos : ℕ → ℝ × ℝ) (i : ℕ) (e f : Edge U) : Prop :=
  (f = e ∧ (OnEdge pos e (pos i) → IsEnd e i)) ∨ (OnEdge pos e (pos i) ∧ (f = nearHalf i e ∨ f = farHalf i e))

theorem Part.on {pos : ℕ → ℝ × ℝ} {i : ℕ} {e f : Edge U} (h : Part pos i e f) {y : ℝ × ℝ} (hy : OnEdge pos f y) : OnEdge pos e y := by
  unfold OnEdge at hy
  rcases h with ⟨rfl, _⟩ | ⟨hx, rfl | rfl⟩
  · exact hy
  · exact onSeg_part hx hy
  · exact onSeg_symm (onSeg_part (onSeg_symm hx) hy)

theorem Part.here {pos : ℕ → ℝ × ℝ} {i : ℕ} {e f : Edge U} (h : Part pos i e f) (hy : OnEdge pos f (pos i)) : IsEnd f i := by
  rcases h with ⟨rfl, hx⟩ | ⟨hx, rfl | rfl⟩
  · exact hx hy
  · exact Or.inr rfl
  · exact Or.inr rfl

theorem Part.isEnd {pos : ℕ → ℝ × ℝ} {i j : ℕ} {e f : Edge U} (h : Part pos i e f) (hj : IsEnd e j) (hne : pos j ≠ pos i)
    (hy : OnEdge pos f (pos j)) : IsEnd f j := by
  unfold OnEdge at hy
  rcases h with ⟨rfl, _⟩ | ⟨hx, rfl | rfl⟩
  · exact hj
  · simp only [nearHalf] at hy
    rcases hj with rfl | rfl
    · exact Or.inl rfl
    · exact absurd (onSeg_far hx hy).symm hne
  · simp only [farHalf] at hy
    rcases hj with rfl | rfl
    · exact absurd (onSeg_far (onSeg_symm hx) hy).symm hne
    · exact Or.inl rfl

/-- the edges `bs` (with the nodes at `p0`) have been cut at the points `X`; `R` are the conflicts at the start, those not in
`X` are still there -/
structure CutUp (bs : List (Edge U)) (p0 : ℕ → ℝ × ℝ) (n0 : ℕ) (M R : ℝ × ℝ → Prop) (X : ℝ × ℝ → Prop)
    (g : PlanarGraph XReal T U) (pos : ℕ → ℝ × ℝ) (org : ℕ → ℕ) : Prop where
  wf : WF g
  drawn : Drawn g pos
  inj : ∀ i j, i < g.nodes.length → j < g.nodes.length → pos i = pos j → i = j
  size : n0 ≤ g.nodes.length
  old : ∀ i, i < n0 → pos i = p0 i
  origin : ∀ (K : ℕ) (f : Edge U), g.edges[K]? = some f → ∃ b, bs[org K]? = some b ∧
    (∀ i, IsEnd f i → OnSegR (p0 b.src) (p0 b.dst) (pos i) ∧ (pos i = p0 b.src ∨ pos i = p0 b.dst ∨ X (pos i)))
  meet : ∀ (k l : ℕ) (e f : Edge U), g.edges[k]? = some e → g.edges[l]? = some f → k ≠ l →
    ∀ y, OnEdge pos e y → OnEdge pos f y → (∃ i, IsEnd e i ∧ IsEnd f i ∧ y = pos i) ∨ (R y ∧ ¬ X y)
  node : ∀ e ∈ g.edges, ∀ i, i < g.nodes.length → OnEdge pos e (pos i) → IsEnd e i ∨ (R (pos i) ∧ ¬ X (pos i))
  cover : ∀ (k : ℕ) (b : Edge U), bs[k]? = some b → ∀ y, OnSegR (p0 b.src) (p0 b.dst) y →
    ∃ (K : ℕ) (f : Edge U), g.edges[K]? = some f ∧ org K = k ∧ OnEdge pos f y
  xnode : ∀ y, X y → ∃ i, i < g.nodes.length ∧ y = pos i
  far : ∀ y, M y → ∀ i, i < g.nodes.length → y ≠ pos i → XReal.epsR < dst y (pos i)
  data : ∀ (K : ℕ) (f b : Edge U), g.edges[K]? = some f → bs[org K]? = some b → f.data = b.data

section Steps
variable {bs : List (Edge U)} {p0 pos : ℕ → ℝ × ℝ} {n0 : ℕ} {M R X : ℝ × ℝ → Prop} {g : PlanarGraph XReal T U} {org : ℕ → ℕ}

/-- the end of an edge is on the segment the edge comes from, hence so is the whole edge -/
theorem CutUp.on_base (h : CutUp bs p0 n0 M R X g pos org) {K : ℕ} {f : Edge U} (hf : g.edges[K]? = some f) {b : Edge U}
    (hb : bs[org K]? = some b) {y : ℝ × ℝ} (hy : OnEdge pos f y) : OnSegR (p0 b.src) (p0 b.dst) y := by
  obtain ⟨b', hb', hends⟩ := h.origin K f hf
  rw [hb] at hb'
  cases hb'
  exact onSeg_sub (hends _ (Or.inl rfl)).1 (hends _ (Or.inr rfl)).1 hy

/-- splitting at the node `i` -/
theorem CutUp.split (h : CutUp bs p0 n0 M R X g pos org) {i : ℕ} (hi : i < g.nodes.length) (hM : M (pos i))
    (hclear : ∀ b ∈ bs, dst (p0 b.src) (pos i) + dst (pos i) (p0 b.dst) < dst (p0 b.src) (p0 b.dst) + XReal.epsR →
      OnSegR (p0 b.src) (p0 b.dst) (pos i)) :
    CutUp bs p0 n0 M R (fun y => X y ∨ y = pos i) (splitAt g i) pos (fun K => org (splitOrigin g i K)) := by
  have heps := XReal.epsR_pos
  -- the test is exact
  have htest : ∀ (k : ℕ) (e : Edge U), g.edges[k]? = some e → (onTest g.nodes i e = true ↔ OnEdge pos e (pos i) ∧ ¬ IsEnd e i) := by
    intro k e he
    have hm := List.mem_of_getElem? he
    obtain ⟨w1, w2⟩ := h.wf e hm
    rw [onTest_iff h.drawn w1 w2 hi]
    constructor
    · rintro ⟨t1, t2, t3⟩
      obtain ⟨b, hb, hends⟩ := h.origin k e he
      refine ⟨test_on (hends _ (Or.inl rfl)).1 (hends _ (Or.inr rfl)).1 (hclear b (List.mem_of_getElem? hb)) t1 t2 t3, ?_⟩
      rintro (rfl | rfl)
      · rw [UtilThm.dst_eq_zero.2 rfl] at t2; linarith
      · rw [UtilThm.dst_eq_zero.2 rfl] at t3; linarith
    · rintro ⟨hon, hne⟩
      have f1 := h.far _ hM _ w1 (fun hc => hne (Or.inl (h.inj _ _ hi w1 hc)))
      have f2 := h.far _ hM _ w2 (fun hc => hne (Or.inr (h.inj _ _ hi w2 hc)))
      refine ⟨?_, by rw [UtilThm.dst_comm]; exact f1, f2⟩
      have := (onSeg_iff _ _ _).1 hon
      linarith
  -- every edge of the new graph is a part of an old one
  have hslot : ∀ (K : ℕ) (f : Edge U), (splitAt g i).edges[K]? = some f → ∃ e, g.edges[splitOrigin g i K]? = some e ∧ Part pos i e f ∧
      ((f = e ∧ K = splitOrigin g i K ∧ onTest g.nodes i e = false) ∨
       (f = nearHalf i e ∧ K = splitOrigin g i K ∧ onTest g.nodes i e = true) ∨
       (f = farHalf i e ∧ onTest g.nodes i e = true ∧ ∃ m, K = g.edges.length + m ∧ (onSlots g i)[m]? = some (splitOrigin g i K))) := by
    intro K f hf
    obtain ⟨k, e, hk, hcase⟩ := splitAt_slot hf
    have hkl := (List.getElem?_eq_some_iff.1 hk).1
    have hko : splitOrigin g i K = k := by
      rcases hcase with ⟨_, _, rfl⟩ | ⟨_, _, rfl⟩ | ⟨_, _, m, rfl, hm⟩
      · simp [splitOrigin, hkl]
      · simp [splitOrigin, hkl]
      · simp only [splitOrigin, Nat.not_lt.2 (Nat.le_add_right _ _), if_false, Nat.add_sub_cancel_left, hm, Option.getD_some]
    rw [hko]
    refine ⟨e, hk, ?_, ?_⟩
    · rcases hcase with ⟨ho, rfl, _⟩ | ⟨ho, rfl, _⟩ | ⟨ho, rfl, _⟩
      · refine Or.inl ⟨rfl, fun hon => ?_⟩
        by_contra hc
        rw [(htest k f hk).2 ⟨hon, hc⟩] at ho
        cases ho
      · exact Or.inr ⟨((htest k e hk).1 ho).1, Or.inl rfl⟩
      · exact Or.inr ⟨((htest k e hk).1 ho).1, Or.inr rfl⟩
    · rcases hcase with ⟨ho, rfl, rfl⟩ | ⟨ho, rfl, rfl⟩ | ⟨ho, rfl, hm⟩
      · exact Or.inl ⟨rfl, rfl, ho⟩
      · exact Or.inr (Or.inl ⟨rfl, rfl, ho⟩)
      · exact Or.inr (Or.inr ⟨rfl, ho, hm⟩)
  refine ⟨h.wf.splitAt i, h.drawn, h.inj, h.size, h.old, ?_, ?_, ?_, ?_, ?_, h.far, ?_⟩
  · intro K f hf
    obtain ⟨e, he, hp, _⟩ := hslot K f hf
    obtain ⟨b, hb, hends⟩ := h.origin _ e he
    refine ⟨b, hb, ?_⟩
    have hold : ∀ j, IsEnd e j → OnSegR (p0 b.src) (p0 b.dst) (pos j) ∧
        (pos j = p0 b.src ∨ pos j = p0 b.dst ∨ X (pos j) ∨ pos j = pos i) := by
      intro j hj
      obtain ⟨a1, a2⟩ := hends j hj
      exact ⟨a1, by tauto⟩
    have hnew : OnEdge pos e (pos i) → OnSegR (p0 b.src) (p0 b.dst) (pos i) ∧
        (pos i = p0 b.src ∨ pos i = p0 b.dst ∨ X (pos i) ∨ pos i = pos i) :=
      fun hon => ⟨h.on_base he hb hon, Or.inr (Or.inr (Or.inr rfl))⟩
    intro j hj
    rcases hp with ⟨rfl, _⟩ | ⟨hon, rfl | rfl⟩
    · exact hold j hj
    · rcases hj with rfl | rfl
      · exact hold e.src (Or.inl rfl)
      · exact hnew hon
    · rcases hj with rfl | rfl
      · exact hold e.dst (Or.inr rfl)
      · exact hnew hon
  · intro K L f f' hK hL hKL y hy hy'
    obtain ⟨e, he, hp, hc1⟩ := hslot K f hK
    obtain ⟨e', he', hp', hc2⟩ := hslot L f' hL
    by_cases hyx : y = pos i
    · subst hyx
      exact Or.inl ⟨i, hp.here hy, hp'.here hy', rfl⟩
    · have hon := hp.on hy
      have hon' := hp'.on hy'
      by_cases hkl : splitOrigin g i K = splitOrigin g i L
      · exfalso
        rw [← hkl, he] at he'
        cases he'
        have hnf : ∀ {f f' : Edge U}, f = nearHalf i e → f' = farHalf i e → onTest g.nodes i e = true →
            OnEdge pos f y → OnEdge pos f' y → False := by
          rintro f f' rfl rfl ho h1 h2
          exact hyx (onSeg_parts ((htest _ e he).1 ho).1 h1 h2)
        rcases hc1 with ⟨_, q1, o1⟩ | ⟨hf1, q1, o1⟩ | ⟨hf1, o1, m1, q1, r1⟩
        · rcases hc2 with ⟨_, q2, _⟩ | ⟨_, q2, _⟩ | ⟨_, o2, _⟩
          · omega
          · omega
          · rw [o1] at o2; cases o2
        · rcases hc2 with ⟨_, q2, _⟩ | ⟨_, q2, _⟩ | ⟨hf2, o2, _⟩
          · omega
          · omega
          · exact hnf hf1 hf2 o1 hy hy'
        · rcases hc2 with ⟨_, q2, o2⟩ | ⟨hf2, q2, _⟩ | ⟨_, _, m2, q2, r2⟩
          · rw [o1] at o2; cases o2
          · exact hnf hf2 hf1 o1 hy' hy
          · rw [← hkl] at r2
            have := (List.getElem?_inj (List.getElem?_eq_some_iff.1 r1).1 (onSlots_nodup g i)).1 (r1.trans r2.symm)
            omega
      · rcases h.meet _ _ e e' he he' hkl y hon hon' with ⟨j, j1, j2, rfl⟩ | ⟨hr, hx⟩
        · exact Or.inl ⟨j, hp.isEnd j1 hyx hy, hp'.isEnd j2 hyx hy', rfl⟩
        · exact Or.inr ⟨hr, by tauto⟩
  · intro f hf j hj hy
    obtain ⟨K, hK⟩ := List.mem_iff_getElem?.1 hf
    obtain ⟨e, he, hp, _⟩ := hslot K f hK
    by_cases hji : pos j = pos i
    · rw [hji] at hy
      have := h.inj j i hj hi hji
      subst this
      exact Or.inl (hp.here hy)
    · rcases h.node e (List.mem_of_getElem? he) j hj (hp.on hy) with h1 | ⟨h1, h2⟩
      · exact Or.inl (hp.isEnd h1 hji hy)
      · exact Or.inr ⟨h1, by tauto⟩
  · intro k b hb y hy
    obtain ⟨K, f, hf, hK, hon⟩ := h.cover k b hb y hy
    have hKl := (List.getElem?_eq_some_iff.1 hf).1
    have hold := splitAt_get_old (id := i) hf
    have hKo : splitOrigin g i K = K := by simp [splitOrigin, hKl]
    by_cases ho : onTest g.nodes i f = true
    · rw [if_pos ho] at hold
      rcases onSeg_cut ((htest K f hf).1 ho).1 hon with hl | hr
      · exact ⟨K, _, hold, by rw [hKo]; exact hK, hl⟩
      · obtain ⟨m, hm⟩ := List.mem_iff_getElem?.1 (mem_onSlots.2 ⟨f, hf, ho⟩)
        have hnew := splitAt_get_new g i m
        rw [hm, Option.bind_some, hf, Option.map_some] at hnew
        refine ⟨_, _, hnew, ?_, hr⟩
        have : splitOrigin g i (g.edges.length + m) = K := by
          simp only [splitOrigin, Nat.not_lt.2 (Nat.le_add_right _ _), if_false, Nat.add_sub_cancel_left, hm, Option.getD_some]
        rw [this]; exact hK
    · rw [if_neg ho] at hold
      exact ⟨K, _, hold, by rw [hKo]; exact hK, hon⟩
  · rintro y (hy | rfl)
    · exact h.xnode y hy
    · exact ⟨i, hi, rfl⟩
  · intro K f b hf hb
    obtain ⟨e, he, hp, _⟩ := hslot K f hf
    rw [← h.data _ e b he hb]
    rcases hp with ⟨rfl, _⟩ | ⟨_, rfl | rfl⟩ <;> rfl

/-- a new node at a conflict -/
theorem CutUp.push (h : CutUp bs p0 n0 M R X g pos org) {x : ℝ × ℝ} (hR : R x)
    (hsep : ∀ y, M y → y ≠ x → XReal.epsR < dst y x) (hx : ∀ i, i < g.nodes.length → x ≠ pos i) (t : T) :
    CutUp bs p0 n0 M R X (pushNode g (pt x) t) (Function.update pos g.nodes.length x) org := by
  set n := g.nodes.length with hn
  have hlen : (pushNode g (pt x) t).nodes.length = n + 1 := by simp [pushNode, hn]
  have hup : ∀ i, i < n → Function.update pos n x i = pos i := fun i hi => update_lt _ _ hi
  have hon : ∀ e ∈ g.edges, ∀ y, OnEdge (Function.update pos n x) e y ↔ OnEdge pos e y := by
    intro e he y
    obtain ⟨w1, w2⟩ := h.wf e he
    unfold OnEdge
    rw [hup _ w1, hup _ w2]
  have hXx : ¬ X x := by
    intro hc
    obtain ⟨i, hi, hxi⟩ := h.xnode x hc
    exact hx i hi hxi
  refine ⟨h.wf.pushNode _ _, ?_, ?_, by rw [hlen]; have := h.size; omega, ?_, ?_, ?_, ?_, ?_, ?_, ?_, h.data⟩
  · intro i a hi
    simp only [pushNode] at hi
    by_cases hlt : i < n
    · rw [List.getElem?_append_left hlt] at hi
      rw [hup _ hlt]; exact h.drawn i a hi
    · have := (List.getElem?_eq_some_iff.1 hi).1
      simp only [List.length_append, List.length_singleton] at this
      have : i = n := by omega
      subst this
      rw [Function.update_self]
      simp [hn] at hi
      rw [← hi]
  · intro i j hi hj hij
    rw [hlen] at hi hj
    rcases Nat.lt_succ_iff_lt_or_eq.1 hi with hi | rfl <;> rcases Nat.lt_succ_iff_lt_or_eq.1 hj with hj | rfl
    · rw [hup _ hi, hup _ hj] at hij; exact h.inj i j hi hj hij
    · rw [hup _ hi, Function.update_self] at hij; exact absurd hij.symm (hx i hi)
    · rw [hup _ hj, Function.update_self] at hij; exact absurd hij (hx j hj)
    · rfl
  · intro i hi
    rw [hup i (by have := h.size; omega)]; exact h.old i hi
  · intro K f hf
    obtain ⟨b, hb, hends⟩ := h.origin K f hf
    refine ⟨b, hb, fun i hi => ?_⟩
    rw [hup i (hi.lt h.wf (List.mem_of_getElem? hf))]
    exact hends i hi
  · intro k l e f hk hl hkl y hy hy'
    have he := List.mem_of_getElem? hk
    rcases h.meet k l e f hk hl hkl y ((hon e he y).1 hy) ((hon f (List.mem_of_getElem? hl) y).1 hy') with ⟨i, i1, i2, i3⟩ | hr
    · exact Or.inl ⟨i, i1, i2, by rw [hup i (i1.lt h.wf he)]; exact i3⟩
    · exact Or.inr hr
  · intro e he i hi hy
    rw [hlen] at hi
    rcases Nat.lt_succ_iff_lt_or_eq.1 hi with hi | rfl
    · rw [hup i hi] at hy ⊢
      exact h.node e he i hi ((hon e he _).1 hy)
    · rw [Function.update_self]
      exact Or.inr ⟨hR, hXx⟩
  · intro k b hb y hy
    obtain ⟨K, f, hf, hK, hy'⟩ := h.cover k b hb y hy
    exact ⟨K, f, hf, hK, (hon f (List.mem_of_getElem? hf) y).2 hy'⟩
  · intro y hy
    obtain ⟨i, hi, rfl⟩ := h.xnode y hy
    exact ⟨i, by rw [hlen]; omega, by rw [hup i hi]⟩
  · intro y hy i hi hne
    rw [hlen] at hi
    rcases Nat.lt_succ_iff_lt_or_eq.1 hi with hi | rfl
    · rw [hup i hi] at hne ⊢; exact h.far y hy i hi hne
    · rw [Function.update_self] at hne ⊢; exact hsep y hy hne

/-- inserting one of the points found -/
theorem CutUp.insert [Inhabited T] (h : CutUp bs p0 n0 M R X g pos org) {x : ℝ × ℝ} (hM : M x)
    (hR : (∀ i, i < n0 → x ≠ p0 i) → R x) (hsep : ∀ y, M y → y ≠ x → XReal.epsR < dst y x)
    (hclear : ∀ b ∈ bs, dst (p0 b.src) x + dst x (p0 b.dst) < dst (p0 b.src) (p0 b.dst) + XReal.epsR →
      OnSegR (p0 b.src) (p0 b.dst) x) :
    ∃ pos' org', CutUp bs p0 n0 M R (fun y => X y ∨ y = x) (insertPt g (pt x)) pos' org' := by
  have heps := XReal.epsR_pos
  obtain ⟨n1, n2⟩ := nearest_spec g (pt x)
  by_cases hc : ((nearest g (pt x)).2 <. Scalar.epsilon) = true
  · -- the nearest node is at the point
    obtain ⟨a, h1, h2, _⟩ := n1 hc
    have hlt := (List.getElem?_eq_some_iff.1 h1).1
    have hx : x = pos (nearest g (pt x)).1 := by
      by_contra hne
      have hf := h.far x hM _ hlt hne
      rw [h2, h.drawn _ _ h1, UtilThm.distance_pt, XReal.eps_def, XReal.fin_lt] at hc
      simp only [decide_eq_true_eq] at hc
      linarith
    have hins : insertPt g (pt x) = splitAt g (nearest g (pt x)).1 := by unfold insertPt; rw [if_pos hc]
    rw [hins]
    generalize (nearest g (pt x)).1 = i at hx hlt
    subst hx
    exact ⟨_, _, h.split hlt hM hclear⟩
  · have hx : ∀ i, i < g.nodes.length → x ≠ pos i := by
      rintro i hi rfl
      have := n2 (by simpa using hc) _ (List.getElem_mem hi)
      rw [h.drawn i _ (List.getElem?_eq_getElem hi), UtilThm.distance_pt, UtilThm.dst_eq_zero.2 rfl, XReal.eps_def, XReal.fin_lt] at this
      simp [XReal.epsR_pos] at this
    have hins : insertPt g (pt x) = splitAt (pushNode g (pt x) default) g.nodes.length := by unfold insertPt; rw [if_neg hc]
    rw [hins]
    have h1 := h.push (hR fun i hi => by
      rw [← h.old i hi]; exact hx i (lt_of_lt_of_le hi h.size)) hsep hx (default : T)
    have hself : Function.update pos g.nodes.length x g.nodes.length = x := Function.update_self ..
    have h2 := h1.split (i := g.nodes.length) (by simp [pushNode]) (by rw [hself]; exact hM) (by rw [hself]; exact hclear)
    rw [hself] at h2
    exact ⟨_, _, h2⟩

/-- the whole loop -/
theorem CutUp.inserts [Inhabited T] {g g' : PlanarGraph XReal T U} {xs : List (Vec2 XReal)} {cn ce : List Nat}
    (hi : Inserts g xs g' cn ce) : ∀ {X : ℝ × ℝ → Prop} {pos : ℕ → ℝ × ℝ} {org : ℕ → ℕ}, CutUp bs p0 n0 M R X g pos org →
    (∀ q ∈ xs, ∃ x, q = pt x ∧ M x) → (∀ x, M x → (∀ i, i < n0 → x ≠ p0 i) → R x) →
    (∀ x y, M x → M y → y ≠ x → XReal.epsR < dst y x) →
    (∀ x, M x → ∀ b ∈ bs, dst (p0 b.src) x + dst x (p0 b.dst) < dst (p0 b.src) (p0 b.dst) + XReal.epsR →
      OnSegR (p0 b.src) (p0 b.dst) x) →
    ∃ pos' org', CutUp bs p0 n0 M R (fun y => X y ∨ pt y ∈ xs) g' pos' org' := by
  induction hi with
  | nil g => intro X pos org h _ _ _ _; exact ⟨pos, org, by simpa using h⟩
  | cons g x xs g' cn ce _ ih =>
    intro X pos org h hxs hR hsep hclear
    obtain ⟨y, rfl, hy⟩ := hxs x (List.mem_cons_self ..)
    obtain ⟨pos1, org1, h1⟩ := h.insert hy (hR y hy) (fun z hz => hsep y z hy hz) (hclear y hy)
    obtain ⟨pos2, org2, h2⟩ := ih h1 (fun q hq => hxs q (List.mem_cons_of_mem _ hq)) hR hsep hclear
    refine ⟨pos2, org2, ?_⟩
    have : (fun z => (X z ∨ z = y) ∨ pt z ∈ xs) = (fun z => X z ∨ pt z ∈ pt y :: xs) := by
      funext z
      simp only [List.mem_cons, eq_iff_iff]
      have : pt z = pt y ↔ z = y := ⟨pt_inj, fun h => by rw [h]⟩
      rw [this]; tauto
    rw [← this]
    exact h2

end Steps

/-! ## The points found -/

theorem edgeMeets_iff {g : PlanarGraph XReal T U} {pos : ℕ → ℝ × ℝ} (hwf : WF g) (hdr : Drawn g pos) {s d : ℕ}
    (hs : s < g.nodes.length) (hd : d < g.nodes.length) (x : U) {e : Edge U} (he : e ∈ g.edges) (q : Vec2 XReal) :
    edgeMeets g.nodes e ⟨s, d, x, defaultLabel⟩ = some q ↔ ∃ y, q = pt y ∧ Cuts pos s d e y := by
  obtain ⟨w1, w2⟩ := hwf e he
  rw [edgeMeets_pt hdr w1 w2 hs hd]
  constructor
  · intro h
    obtain ⟨y, h1, h2, h3, h4, _⟩ := UtilThm.C39_sound _ _ _ _ _ h
    exact ⟨y, h1, h4, h2, h3⟩
  · rintro ⟨y, rfl, h1, h2, h3⟩
    have hnn : Utils.calculateLineSegmentIntersection (pt (pos e.src)) (pt (pos e.dst)) (pt (pos s)) (pt (pos d)) ≠ none := by
      rw [ne_eq, UtilThm.C40_complete_partial _ _ _ _ h1]
      exact not_not.2 ⟨y, h2, h3⟩
    obtain ⟨q, hq⟩ := Option.ne_none_iff_exists'.1 hnn
    obtain ⟨z, rfl, _, _, _, hz⟩ := UtilThm.C39_sound _ _ _ _ _ hq
    rw [hz y h2 h3]; exact hq

/-- an element of a list such that all others satisfy `P`, as a decomposition of the list -/
theorem single_iff {α : Type} (l : List α) (a : α) (P : α → Prop) :
    (∃ i : ℕ, l[i]? = some a ∧ ∀ (j : ℕ) b, l[j]? = some b → j ≠ i → P b) ↔
      ∃ l1 l2, l = l1 ++ a :: l2 ∧ (∀ b ∈ l1, P b) ∧ ∀ b ∈ l2, P b := by
  constructor
  · rintro ⟨i, hi, h⟩
    obtain ⟨hil, rfl⟩ := List.getElem?_eq_some_iff.1 hi
    refine ⟨l.take i, l.drop (i + 1), ?_, ?_, ?_⟩
    · rw [List.getElem_cons_drop, List.take_append_drop]
    · intro b hb
      obtain ⟨j, hj⟩ := List.mem_iff_getElem?.1 hb
      have hjl := (List.getElem?_eq_some_iff.1 hj).1
      rw [List.length_take] at hjl
      rw [List.getElem?_take_of_lt (by omega)] at hj
      exact h j b hj (by omega)
    · intro b hb
      obtain ⟨j, hj⟩ := List.mem_iff_getElem?.1 hb
      rw [List.getElem?_drop] at hj
      exact h _ b hj (by omega)
  · rintro ⟨l1, l2, rfl, h1, h2⟩
    refine ⟨l1.length, by simp, ?_⟩
    intro j b hj hne
    rcases Nat.lt_or_gt_of_ne hne with hlt | hgt
    · rw [List.getElem?_append_left hlt] at hj
      exact h1 b (List.mem_of_getElem? hj)
    · rw [List.getElem?_append_right (by omega)] at hj
      obtain ⟨m, hm⟩ : ∃ m, j - l1.length = m + 1 := ⟨j - l1.length - 1, by omega⟩
      rw [hm, List.getElem?_cons_succ] at hj
      exact h2 b (List.mem_of_getElem? hj)

/-- the same for the values of a partial function -/
theorem single_filterMap {α β : Type} (l : List α) (f : α → Option β) (b : β) (P : β → Prop) :
    (∃ i : ℕ, (l.filterMap f)[i]? = some b ∧ ∀ (j : ℕ) c, (l.filterMap f)[j]? = some c → j ≠ i → P c) ↔
      ∃ (k : ℕ) (a : α), l[k]? = some a ∧ f a = some b ∧ ∀ (k' : ℕ) a' c, l[k']? = some a' → f a' = some c → k' ≠ k → P c := by
  rw [single_iff]
  constructor
  · rintro ⟨m1, m2, h, h1, h2⟩
    obtain ⟨l1, l2, rfl, e1, e2⟩ := List.filterMap_eq_append_iff.1 h
    obtain ⟨l3, a, l4, rfl, e3, e4, e5⟩ := List.filterMap_eq_cons_iff.1 e2
    have hs : ∃ i : ℕ, (l1 ++ (l3 ++ a :: l4))[i]? = some a ∧
        ∀ (j : ℕ) a', (l1 ++ (l3 ++ a :: l4))[j]? = some a' → j ≠ i → ∀ c, f a' = some c → P c := by
      rw [single_iff]
      refine ⟨l1 ++ l3, l4, by simp, ?_, ?_⟩
      · intro a' ha' c hc
        rcases List.mem_append.1 ha' with ha' | ha'
        · exact h1 c (by rw [← e1]; exact List.mem_filterMap.2 ⟨a', ha', hc⟩)
        · rw [e3 a' ha'] at hc; cases hc
      · intro a' ha' c hc
        exact h2 c (by rw [← e5]; exact List.mem_filterMap.2 ⟨a', ha', hc⟩)
    obtain ⟨k, hk, hall⟩ := hs
    exact ⟨k, a, hk, e4, fun k' a' c h1 h2 h3 => hall k' a' h1 h3 c h2⟩
  · rintro ⟨k, a, hk, hb, hall⟩
    obtain ⟨l1, l2, rfl, h1, h2⟩ := (single_iff l a fun a' => ∀ c, f a' = some c → P c).1
      ⟨k, hk, fun j a' h1 h2 c h3 => hall j a' c h1 h3 h2⟩
    refine ⟨l1.filterMap f, l2.filterMap f, ?_, ?_, ?_⟩
    · rw [List.filterMap_append, List.filterMap_cons_some hb]
    · intro c hc
      obtain ⟨a', ha', hc'⟩ := List.mem_filterMap.1 hc
      exact h1 a' ha' c hc'
    · intro c hc
      obtain ⟨a', ha', hc'⟩ := List.mem_filterMap.1 hc
      exact h2 a' ha' c hc'

/-- a point is inserted if and only if exactly one edge is cut there -/
theorem found_iff {g : PlanarGraph XReal T U} {pos : ℕ → ℝ × ℝ} (hwf : WF g) (hdr : Drawn g pos) {s d : ℕ}
    (hs : s < g.nodes.length) (hd : d < g.nodes.length) (x : U) (hc : ClearCuts g pos s d) (y : ℝ × ℝ) :
    pt y ∈ Utils.uniquePointsAmong (meetPoints g ⟨s, d, x, defaultLabel⟩) ↔
      ∃ (k : ℕ) (e : Edge U), g.edges[k]? = some e ∧ Cuts pos s d e y ∧
        ∀ (k' : ℕ) (e' : Edge U), g.edges[k']? = some e' → Cuts pos s d e' y → k' = k := by
  rw [UtilThm.mem_unique]
  unfold UtilThm.Lonely meetPoints
  have heps := XReal.epsR_pos
  rw [single_filterMap g.edges (fun e => edgeMeets g.nodes e ⟨s, d, x, defaultLabel⟩) (pt y)
    (fun b => Utils.closeTo (pt y) b = false)]
  have hclose : ∀ z, Utils.closeTo (pt y) (pt z) = false ↔ XReal.epsR < dst y z := by
    intro z
    unfold Utils.closeTo
    rw [UtilThm.distance_pt, XReal.eps_def, XReal.fin_le]
    simp
  constructor
  · rintro ⟨k, e, he, hm, hall⟩
    obtain ⟨z, hz, hcut⟩ := (edgeMeets_iff hwf hdr hs hd x (List.mem_of_getElem? he) _).1 hm
    rw [← pt_inj hz] at hcut
    refine ⟨k, e, he, hcut, ?_⟩
    intro k' e' he' hcut'
    by_contra hne
    have := hall k' e' (pt y) he' ((edgeMeets_iff hwf hdr hs hd x (List.mem_of_getElem? he') _).2 ⟨y, rfl, hcut'⟩) hne
    rw [hclose, UtilThm.dst_eq_zero.2 rfl] at this
    linarith
  · rintro ⟨k, e, he, hcut, hall⟩
    refine ⟨k, e, he, (edgeMeets_iff hwf hdr hs hd x (List.mem_of_getElem? he) _).2 ⟨y, rfl, hcut⟩, ?_⟩
    intro k' e' c he' hm hne
    obtain ⟨z, rfl, hcut'⟩ := (edgeMeets_iff hwf hdr hs hd x (List.mem_of_getElem? he') _).1 hm
    rw [hclose]
    refine hc.sep e (List.mem_of_getElem? he) e' (List.mem_of_getElem? he') y z hcut hcut' ?_
    rintro rfl
    exact hne (hall k' e' he' hcut')

/-! ## C60 -/

/-- the loop over the points found, with any kind of conflicts -/
theorem CutUp.added [Inhabited T] {g : PlanarGraph XReal T U} (hwf : WF g) {pos : ℕ → ℝ × ℝ} (hdr : Drawn g pos) {s d : ℕ} {x : U}
    (hc : ClearCuts g pos s d) (hs : s < g.nodes.length) (hd : d < g.nodes.length) {R : ℝ × ℝ → Prop}
    (hR : ∀ y, Crossing g pos s d y → R y)
    (h0 : CutUp (pushEdge g s d x).edges pos g.nodes.length (fun y => ∃ e ∈ g.edges, Cuts pos s d e y) R
      (fun _ => False) (pushEdge g s d x) pos id) {g1 : PlanarGraph XReal T U} {cn ce : List ℕ}
    (hi : Inserts (pushEdge g s d x) (Utils.uniquePointsAmong (meetPoints g ⟨s, d, x, defaultLabel⟩)) g1 cn ce) :
    ∃ pos' org, CutUp (pushEdge g s d x).edges pos g.nodes.length (fun y => ∃ e ∈ g.edges, Cuts pos s d e y) R
      (fun y => pt y ∈ Utils.uniquePointsAmong (meetPoints g ⟨s, d, x, defaultLabel⟩)) g1 pos' org := by
  obtain ⟨pos', org, h1⟩ := h0.inserts hi
    (by
      intro q hq
      obtain ⟨i, hi, _⟩ := (UtilThm.mem_unique _ _).1 hq
      obtain ⟨e, he, hm⟩ := List.mem_filterMap.1 (List.mem_of_getElem? hi)
      obtain ⟨y, rfl, hy⟩ := (edgeMeets_iff hwf hdr hs hd x he q).1 hm
      exact ⟨y, rfl, e, he, hy⟩)
    (by
      rintro y ⟨e, he, hcut⟩ hn
      exact hR y ⟨hcut.2.2, ⟨e, he, hcut.2.1⟩, hn⟩)
    (by
      rintro y z ⟨e, he, h1⟩ ⟨e', he', h2⟩ hne
      exact hc.sep e' he' e he z y h2 h1 hne)
    (by
      rintro y ⟨e, he, hcut⟩ b hb hlt
      by_contra hno
      have : dst (pos b.src) (pos b.dst) + XReal.epsR ≤ dst (pos b.src) y + dst y (pos b.dst) := by
        rcases List.mem_append.1 hb with hb | hb
        · exact hc.clear e he y hcut b.src b.dst (Or.inr ⟨b, hb, rfl, rfl⟩) hno
        · rw [List.mem_singleton] at hb
          subst hb
          exact hc.clear e he y hcut s d (Or.inl ⟨rfl, rfl⟩) hno
      linarith)
  simp only [false_or] at h1
  exact ⟨pos', org, h1⟩

/-- a conflict: a point of the new segment on an edge but at no node, or at a node that is not an end of the segment -/
def Conflict (g : PlanarGraph XReal T U) (pos : ℕ → ℝ × ℝ) (s d : ℕ) (y : ℝ × ℝ) : Prop :=
  Crossing g pos s d y ∨ (OnSegR (pos s) (pos d) y ∧ ∃ i, i < g.nodes.length ∧ i ≠ s ∧ i ≠ d ∧ y = pos i)

/-- the drawing stays planar if and only if all conflicts are among the points inserted -/
theorem planar_iff_conflicts [Inhabited T] (g : PlanarGraph XReal T U) (hwf : WF g) (pos : ℕ → ℝ × ℝ) (hdr : Drawn g pos)
    (hinj : ∀ i j, i < g.nodes.length → j < g.nodes.length → pos i = pos j → i = j) (hp : Planar g pos) (s d : ℕ) (x : U)
    (hc : ClearCuts g pos s d) (hs : s < g.nodes.length) (hd : d < g.nodes.length)
    {g1 : PlanarGraph XReal T U} {cn ce : List ℕ}
    (hi : Inserts (pushEdge g s d x) (Utils.uniquePointsAmong (meetPoints g ⟨s, d, x, defaultLabel⟩)) g1 cn ce) :
    (∃ pos', Drawn g1 pos' ∧ Planar g1 pos') ↔
      ∀ y, Conflict g pos s d y → pt y ∈ Utils.uniquePointsAmong (meetPoints g ⟨s, d, x, defaultLabel⟩) := by
  have hget : ∀ (k : ℕ) e, (g.edges ++ [⟨s, d, x, defaultLabel⟩])[k]? = some e →
      g.edges[k]? = some e ∨ (k = g.edges.length ∧ e = ⟨s, d, x, defaultLabel⟩) := by
    intro k e h
    by_cases hlt : k < g.edges.length
    · rw [List.getElem?_append_left hlt] at h; exact Or.inl h
    · have := (List.getElem?_eq_some_iff.1 h).1
      simp only [List.length_append, List.length_singleton] at this
      have : k = g.edges.length := by omega
      subst this
      simp at h
      exact Or.inr ⟨rfl, h.symm⟩
  have hpair : ∀ e ∈ g.edges, ∀ y, OnEdge pos e y → OnSegR (pos s) (pos d) y →
      (∃ i, IsEnd e i ∧ (i = s ∨ i = d) ∧ y = pos i) ∨ Conflict g pos s d y := by
    intro e he y hy hy'
    by_cases hex : ∃ i, i < g.nodes.length ∧ y = pos i
    · obtain ⟨i, hi, rfl⟩ := hex
      by_cases hsd : i = s ∨ i = d
      · exact Or.inl ⟨i, hp.node e he i hi hy, hsd, rfl⟩
      · exact Or.inr (Or.inr ⟨hy', i, hi, by tauto, by tauto, rfl⟩)
    · exact Or.inr (Or.inl ⟨hy', ⟨e, he, hy⟩, fun i hi hc => hex ⟨i, hi, hc⟩⟩)
  have h0 : CutUp (pushEdge g s d x).edges pos g.nodes.length (fun y => ∃ e ∈ g.edges, Cuts pos s d e y) (Conflict g pos s d)
      (fun _ => False) (pushEdge g s d x) pos id := by
    refine ⟨hwf.pushEdge hs hd x, hdr, hinj, le_refl _, fun _ _ => rfl, ?_, ?_, ?_, ?_, fun _ h => h.elim, ?_, ?_⟩
    · intro K f hf
      refine ⟨f, hf, ?_⟩
      rintro i (rfl | rfl)
      · exact ⟨onSeg_left _ _, Or.inl rfl⟩
      · exact ⟨onSeg_right _ _, Or.inr (Or.inl rfl)⟩
    · intro k l e f hk hl hkl y hy hy'
      rcases hget k e hk with hk | ⟨rfl, rfl⟩ <;> rcases hget l f hl with hl | ⟨rfl, rfl⟩
      · exact Or.inl (hp.meet k l e f hk hl hkl y hy hy')
      · rcases hpair e (List.mem_of_getElem? hk) y hy hy' with ⟨i, h1, h2, h3⟩ | h
        · exact Or.inl ⟨i, h1, h2, h3⟩
        · exact Or.inr ⟨h, id⟩
      · rcases hpair f (List.mem_of_getElem? hl) y hy' hy with ⟨i, h1, h2, h3⟩ | h
        · exact Or.inl ⟨i, h2, h1, h3⟩
        · exact Or.inr ⟨h, id⟩
      · exact absurd rfl hkl
    · intro e he i hi hon
      rcases List.mem_append.1 he with he | he
      · exact Or.inl (hp.node e he i hi hon)
      · rw [List.mem_singleton] at he
        subst he
        by_cases hsd : i = s ∨ i = d
        · exact Or.inl hsd
        · exact Or.inr ⟨Or.inr ⟨hon, i, hi, by tauto, by tauto, rfl⟩, id⟩
    · intro k b hb y hy
      exact ⟨k, b, hb, rfl, hy⟩
    · rintro y ⟨e, he, hcut⟩ i hi hne
      exact hc.far e he y hcut i hi hne
    · intro K f b hf hb
      rw [id, hf] at hb
      cases hb
      rfl
  obtain ⟨pos', org, h1⟩ := CutUp.added hwf hdr hc hs hd (fun y => Or.inl) h0 hi
  have hplan : Planar g1 pos' ↔
      ∀ y, Conflict g pos s d y → pt y ∈ Utils.uniquePointsAmong (meetPoints g ⟨s, d, x, defaultLabel⟩) := by
    constructor
    · intro hpl y hy
      by_contra hno
      have hlast : (pushEdge g s d x).edges[g.edges.length]? = some ⟨s, d, x, defaultLabel⟩ := by simp [pushEdge]
      -- an edge from the new segment covers the point; none of its ends is there
      have hend : ∀ (K : ℕ) (f : Edge U), g1.edges[K]? = some f → org K = g.edges.length → ∀ i, IsEnd f i → y = pos' i →
          y = pos s ∨ y = pos d := by
        rintro K f hf hK i hi rfl
        obtain ⟨b, hb, hends⟩ := h1.origin K f hf
        rw [hK, hlast] at hb
        cases hb
        rcases (hends i hi).2 with h | h | h
        · exact Or.inl h
        · exact Or.inr h
        · exact absurd h hno
      rcases hy with ⟨hy1, ⟨e, he, hye⟩, hyn⟩ | ⟨hy1, i, hil, his, hid, rfl⟩
      · obtain ⟨K, f, hf, hK, hyf⟩ := h1.cover _ _ hlast y hy1
        obtain ⟨k, hk⟩ := List.mem_iff_getElem?.1 he
        have hkl := (List.getElem?_eq_some_iff.1 hk).1
        obtain ⟨L, f', hf', hL, hyf'⟩ := h1.cover k e (by
          simp only [pushEdge]; rw [List.getElem?_append_left hkl]; exact hk) y hye
        obtain ⟨i, i1, _, i3⟩ := hpl.meet K L f f' hf hf' (by rintro rfl; omega) y hyf hyf'
        rcases hend K f hf hK i i1 i3 with h | h
        · exact hyn s hs h
        · exact hyn d hd h
      · obtain ⟨K, f, hf, hK, hyf⟩ := h1.cover _ _ hlast (pos i) hy1
        have hold := h1.old i hil
        have hii := hpl.node f (List.mem_of_getElem? hf) i (lt_of_lt_of_le hil h1.size) (by rw [hold]; exact hyf)
        rcases hend K f hf hK i hii hold.symm with h | h
        · exact his (hinj _ _ hil hs h)
        · exact hid (hinj _ _ hil hd h)
    · intro hall
      constructor
      · intro k l e f hk hl hkl y hy hy'
        rcases h1.meet k l e f hk hl hkl y hy hy' with h | ⟨h, hn⟩
        · exact h
        · exact absurd (hall y h) hn
      · intro e he i hi hon
        rcases h1.node e he i hi hon with h | ⟨h, hn⟩
        · exact h
        · exact absurd (hall _ h) hn
  rw [← hplan]
  constructor
  · rintro ⟨pos2, d2, p2⟩
    by_contra hno
    exact not_planar_of h1.wf h1.drawn hno pos2 d2 p2
  · exact fun h => ⟨pos', h1.drawn, h⟩

/-- **C60, exact condition** (exact arithmetic, points of intersection clear up to the tolerance).  `add_edge(s, d)` of an edge
that is not there yet returns `Ok`, and the resulting graph can be drawn planarly if and only if every node on the segment, other than
`s` and `d`, is the end of exactly one edge that is not parallel to the segment, and no edge runs along the segment. -/
theorem C60_exact [Inhabited T] (g : PlanarGraph XReal T U) (hwf : WF g) (pos : ℕ → ℝ × ℝ) (hdr : Drawn g pos)
    (hinj : ∀ i j, i < g.nodes.length → j < g.nodes.length → pos i = pos j → i = j) (hp : Planar g pos) (s d : ℕ) (x : U)
    (hs : s < g.nodes.length) (hd : d < g.nodes.length)
    (hno : ∀ e ∈ g.edges, ¬ ((e.src = s ∧ e.dst = d) ∨ (e.src = d ∧ e.dst = s))) (hc : ClearCuts g pos s d) :
    ∃ g' r, g.addEdge s d x = .ok (g', .ok r) ∧ ((∃ pos', Drawn g' pos' ∧ Planar g' pos') ↔
      (∀ i, i < g.nodes.length → i ≠ s → i ≠ d → OnSegR (pos s) (pos d) (pos i) →
        ∃! k : ℕ, ∃ e : Edge U, g.edges[k]? = some e ∧ IsEnd e i ∧ crs (pos e.src) (pos e.dst) (pos s) (pos d) ≠ 0) ∧
      (∀ e ∈ g.edges, crs (pos e.src) (pos e.dst) (pos s) (pos d) = 0 →
        ∀ y, OnEdge pos e y → OnSegR (pos s) (pos d) y → ∃ i, i < g.nodes.length ∧ y = pos i)) := by
  have hno' : g.hasEdgeBetweenNodes s d = false := by
    rw [← Bool.not_eq_true, hasEdge_iff]
    rintro ⟨e, he, hc⟩
    exact hno e he hc
  rcases addEdge_ok g hwf s d x with ⟨h, _⟩ | ⟨_, h, _⟩ | ⟨_, _, _, g1, cn, ce, hi, h'⟩
  · rw [hno'] at h; cases h
  · exact absurd ⟨hs, hd⟩ h
  refine ⟨g1, _, h', ?_⟩
  rw [planar_iff_conflicts g hwf pos hdr hinj hp s d x hc hs hd hi]
  simp only [found_iff hwf hdr hs hd x hc]
  constructor
  · intro h
    refine ⟨?_, ?_⟩
    · intro i hil his hid hon
      obtain ⟨k, e, he, hcut, hall⟩ := h (pos i) (Or.inr ⟨hon, i, hil, his, hid, rfl⟩)
      refine ⟨k, ⟨e, he, hp.node e (List.mem_of_getElem? he) i hil hcut.2.1, hcut.1⟩, ?_⟩
      rintro k' ⟨e', he', hi', hcr⟩
      refine hall k' e' he' ⟨hcr, ?_, hon⟩
      rcases hi' with rfl | rfl
      · exact onSeg_left _ _
      · exact onSeg_right _ _
    · intro e he hcr y hye hys
      by_contra hn
      have hyn : ∀ i, i < g.nodes.length → y ≠ pos i := fun i hi hy => hn ⟨i, hi, hy⟩
      obtain ⟨k, e', he', hcut, _⟩ := h y (Or.inl ⟨hys, ⟨e, he, hye⟩, hyn⟩)
      obtain ⟨l, hl⟩ := List.mem_iff_getElem?.1 he
      by_cases hkl : k = l
      · subst hkl
        rw [hl] at he'
        cases he'
        exact hcut.1 hcr
      · obtain ⟨i, i1, _, i3⟩ := hp.meet k l e' e he' hl hkl y hcut.2.1 hye
        exact hyn i (i1.lt hwf (List.mem_of_getElem? he')) i3
  · rintro ⟨h1, h2⟩ y (⟨hys, ⟨e, he, hye⟩, hyn⟩ | ⟨hys, i, hil, his, hid, rfl⟩)
    · obtain ⟨k, hk⟩ := List.mem_iff_getElem?.1 he
      refine ⟨k, e, hk, ⟨?_, hye, hys⟩, ?_⟩
      · intro hcr
        obtain ⟨i, hi, hy⟩ := h2 e he hcr y hye hys
        exact hyn i hi hy
      · intro k' e' he' hcut
        by_contra hne
        obtain ⟨i, i1, _, i3⟩ := hp.meet k' k e' e he' hk hne y hcut.2.1 hye
        exact hyn i (i1.lt hwf (List.mem_of_getElem? he')) i3
    · obtain ⟨k, ⟨e, he, hi', hcr⟩, hall⟩ := h1 i hil his hid hys
      have hon : OnEdge pos e (pos i) := by
        rcases hi' with rfl | rfl
        · exact onSeg_left _ _
        · exact onSeg_right _ _
      refine ⟨k, e, he, ⟨hcr, hon, hys⟩, ?_⟩
      intro k' e' he' hcut
      exact hall k' ⟨e', he', hp.node e' (List.mem_of_getElem? he') i hil hcut.2.1, hcut.1⟩

/-- a segment through the end of one edge: the hypotheses and the condition of `C60_exact` hold -/
example : ∃ g' r, (atPoints [(0, 0), (4, 0), (2, 0), (2, 2)] [(2, 3)]).addEdge 0 1 () = .ok (g', .ok r) ∧
    ∃ pos', Drawn g' pos' ∧ Planar g' pos' := by
  set ps : List (ℝ × ℝ) := [(0, 0), (4, 0), (2, 0), (2, 2)] with hps
  have hlen : (atPoints ps [(2, 3)]).nodes.length = 4 := by simp [atPoints, hps]
  have hedges : (atPoints ps [(2, 3)]).edges = [⟨2, 3, (), ""⟩] := by simp [atPoints]
  have hmem : ∀ e, e ∈ (atPoints ps [(2, 3)]).edges ↔ e = ⟨2, 3, (), ""⟩ := by simp [atPoints]
  have heps : XReal.epsR ≤ 1 / 2 := by unfold XReal.epsR; norm_num
  have hs4 : Real.sqrt 4 = 2 := by rw [show (4 : ℝ) = 2 ^ 2 by norm_num, Real.sqrt_sq (by norm_num)]
  have hcut : ∀ e ∈ (atPoints ps [(2, 3)]).edges, ∀ y, Cuts (posOf ps) 0 1 e y → y = (2, 0) := by
    rintro e he y ⟨_, ⟨u, u0, u1, hu⟩, ⟨t, t0, t1, rfl⟩⟩
    rw [hmem] at he
    subst he
    have := congrArg Prod.fst hu
    norm_num [posOf, hps] at this ⊢
    linarith
  have honE : OnSegR (posOf ps 2) (posOf ps 3) (2, 0) := ⟨0, by norm_num, by norm_num, by norm_num [posOf, hps]⟩
  have honS : OnSegR (posOf ps 0) (posOf ps 1) (2, 0) := ⟨1 / 2, by norm_num, by norm_num, by norm_num [posOf, hps]⟩
  obtain ⟨g', r, h1, h2⟩ := C60_exact (atPoints ps [(2, 3)])
    (by intro e he; rw [hmem] at he; subst he; simp [hlen]) (posOf ps) (drawn_atPoints _ _)
    (by
      intro i j hi hj hij
      rw [hlen] at hi hj
      interval_cases i <;> interval_cases j <;> first | rfl | (exfalso; norm_num [posOf, hps] at hij))
    (by
      constructor
      · intro k l e f hk hl hkl
        have hk' : k < 1 := by simpa [atPoints] using (List.getElem?_eq_some_iff.1 hk).1
        have hl' : l < 1 := by simpa [atPoints] using (List.getElem?_eq_some_iff.1 hl).1
        omega
      · intro e he i hi hon
        rw [hlen] at hi
        rw [hmem] at he
        subst he
        obtain ⟨t, t0, t1, ht⟩ := hon
        interval_cases i <;> first
            | exact Or.inl rfl
            | exact Or.inr rfl
            | (exfalso; norm_num [posOf, hps, Prod.ext_iff] at ht))
    0 1 () (by simp [hlen]) (by simp [hlen]) (by intro e he; rw [hmem] at he; subst he; simp)
    (by
      refine ⟨?_, ?_, ?_⟩
      · intro e he y hy i hi hne
        have hyc := hcut e he y hy
        subst hyc
        rw [hlen] at hi
        interval_cases i <;> first
          | (exfalso; apply hne; norm_num [posOf, hps]; done)
          | (norm_num [dst, posOf, hps, hs4]; linarith)
      · intro e he e' he' y y' hy hy' hne
        exact absurd ((hcut e he y hy).trans (hcut e' he' y' hy').symm) hne
      · intro e he y hy u v huv hno
        have hyc := hcut e he y hy
        subst hyc
        rcases huv with ⟨rfl, rfl⟩ | ⟨e', he', rfl, rfl⟩
        · exact absurd honS hno
        · rw [hmem] at he'
          subst he'
          exact absurd honE hno)
  refine ⟨g', r, h1, h2.2 ⟨?_, ?_⟩⟩
  · intro i hi h0 h1 hon
    rw [hlen] at hi
    obtain rfl : i = 2 := by
      obtain ⟨t, t0, t1, ht⟩ := hon
      interval_cases i <;> first
        | rfl
        | exact absurd rfl h0
        | exact absurd rfl h1
        | (exfalso; norm_num [posOf, hps, Prod.ext_iff] at ht)
    refine ⟨0, ⟨⟨2, 3, (), ""⟩, by rw [hedges]; rfl, Or.inl rfl, by norm_num [crs, posOf, hps]⟩, ?_⟩
    rintro k ⟨e, he, _⟩
    have := (List.getElem?_eq_some_iff.1 he).1
    rw [hedges] at this
    simpa using this
  · intro e he hcr
    rw [hmem] at he
    subst he
    norm_num [crs, posOf, hps] at hcr

end
end Kami.Graph
