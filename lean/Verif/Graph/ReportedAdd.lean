import Verif.Graph.Add
/-!
# When `add_edge` reports the slot of the new edge

`add_edge` (src/graph/planar_graph.rs:342-366) reports the edges that the crossings split, and the new edge only when there are
none.  With exact arithmetic the slot of the new edge is reported if and only if nothing was split or the new edge was.
-/

set_option autoImplicit false

namespace Kami.Graph

open Kami
open scoped Kami
open PlanarGraph

variable {F T U : Type}

section
variable [Scalar F]

/-- A split that happened made the edge shorter. -/
def SplitShorter (F : Type) [Scalar F] : Prop :=
  ∀ a b p : Vec2 F, ∀ f : Bool, Utils.isOnLineSegment a b p f = true → (distance a p <. distance a b) = true

/-- The edge in slot `n` starts in node `s` and is shorter than `t`. -/
def Shorter (g : PlanarGraph F T U) (n s : Nat) (t : F) : Prop :=
  ∃ f a b, g.edges[n]? = some f ∧ f.src = s ∧ g.nodes[s]? = some a ∧ g.nodes[f.dst]? = some b ∧
    (distance a.position b.position <. t) = true

theorem splitAt_newSlot (g : PlanarGraph F T U) (id n : Nat) (f : Edge U) (hf : g.edges[n]? = some f) :
    (splitAt g id).edges[n]? = some (if onTest g.nodes id f then nearHalf id f else f) := by
  have h1 := (List.getElem?_eq_some_iff.1 hf).1
  unfold splitAt
  simp only
  rw [List.getElem?_append_left (by simpa using h1), List.getElem?_map, hf]
  rfl

theorem splitAt_shorter [LawfulScalar F] (hsh : SplitShorter F) {g : PlanarGraph F T U} (id : Nat) {n s : Nat} {t : F}
    (h : Shorter g n s t) : Shorter (splitAt g id) n s t := by
  obtain ⟨f, a, b, h1, h2, h3, h4, h5⟩ := h
  by_cases ho : onTest g.nodes id f = true
  · refine ⟨nearHalf id f, a, ?_⟩
    have hv := onTest_id ho
    refine ⟨g.nodes[id]'hv.2.2, ?_, h2, h3, List.getElem?_eq_getElem hv.2.2, ?_⟩
    · rw [splitAt_newSlot g id n f h1, if_pos ho]
    · unfold onTest at ho
      rw [h2, h3, h4, List.getElem?_eq_getElem hv.2.2] at ho
      exact LawfulScalar.lt_trans _ _ _ (hsh _ _ _ _ ho) h5
  · refine ⟨f, a, b, ?_, h2, h3, h4, h5⟩
    rw [splitAt_newSlot g id n f h1, if_neg ho]

/-- after a split of the edge from `s` to `d` itself -/
theorem splitAt_shorter_first (hsh : SplitShorter F) {g : PlanarGraph F T U} {id n : Nat} {f : Edge U} {a b : Node F T}
    (h1 : g.edges[n]? = some f) (h3 : g.nodes[f.src]? = some a) (h4 : g.nodes[f.dst]? = some b)
    (ho : onTest g.nodes id f = true) : Shorter (splitAt g id) n f.src (distance a.position b.position) := by
  have hv := onTest_id ho
  refine ⟨nearHalf id f, a, g.nodes[id]'hv.2.2, ?_, rfl, h3, List.getElem?_eq_getElem hv.2.2, ?_⟩
  · rw [splitAt_newSlot g id n f h1, if_pos ho]
  · unfold onTest at ho
    rw [h3, h4, List.getElem?_eq_getElem hv.2.2] at ho
    exact hsh _ _ _ _ ho

theorem shorter_pushNode {g : PlanarGraph F T U} (x : Vec2 F) (y : T) {n s : Nat} {t : F} (h : Shorter g n s t) :
    Shorter (pushNode g x y) n s t := by
  obtain ⟨f, a, b, h1, h2, h3, h4, h5⟩ := h
  refine ⟨f, a, b, h1, h2, ?_, ?_, h5⟩
  · unfold pushNode; simp only; rw [List.getElem?_append_left (List.getElem?_eq_some_iff.1 h3).1]; exact h3
  · unfold pushNode; simp only; rw [List.getElem?_append_left (List.getElem?_eq_some_iff.1 h4).1]; exact h4

theorem mem_splitChanged {g : PlanarGraph F T U} {id n : Nat} {f : Edge U} (hf : g.edges[n]? = some f)
    (h : n ∈ splitChanged g id) : onTest g.nodes id f = true := by
  have hl := (List.getElem?_eq_some_iff.1 hf).1
  unfold splitChanged at h
  rcases List.mem_append.1 h with h | h
  · obtain ⟨⟨e, k⟩, h1, h2⟩ := List.mem_map.1 h
    obtain ⟨h3, h4⟩ := List.mem_filter.1 h1
    simp only at h2 h4
    subst h2
    have := List.mem_zipIdx_iff_getElem?.1 h3
    simp only at this
    rw [hf] at this
    cases this
    exact h4
  · rw [List.mem_range'_1] at h; omega

/-- one step: the graph in which `insert` splits, and the node at which it does -/
theorem insert_cases [Inhabited T] (g : PlanarGraph F T U) (x : Vec2 F) : ∃ g1 id, (g1 = g ∨ g1 = pushNode g x default) ∧
    insertPt g x = splitAt g1 id ∧ insertChanged g x = splitChanged g1 id := by
  unfold insertPt insertChanged
  by_cases hc : ((nearest g x).2 <. Scalar.epsilon) = true
  · rw [if_pos hc, if_pos hc]; exact ⟨g, _, Or.inl rfl, rfl, rfl⟩
  · rw [if_neg hc, if_neg hc]; exact ⟨_, _, Or.inr rfl, rfl, rfl⟩

theorem inserts_shorter [LawfulScalar F] [Inhabited T] (hsh : SplitShorter F) {g g' : PlanarGraph F T U} {xs : List (Vec2 F)}
    {cn ce : List Nat} (h : Inserts g xs g' cn ce) {n s : Nat} {t : F} (hs : Shorter g n s t) : Shorter g' n s t := by
  induction h with
  | nil g => exact hs
  | cons g x xs g' cn ce _ ih =>
    obtain ⟨g1, id, h1, h2, _⟩ := insert_cases g x
    refine ih ?_
    rw [h2]
    refine splitAt_shorter hsh id ?_
    rcases h1 with rfl | rfl
    · exact hs
    · exact shorter_pushNode x _ hs

/-- if the slot of an edge is among the reported ones, the edge has become shorter -/
theorem inserts_reported [LawfulScalar F] [Inhabited T] (hsh : SplitShorter F) {g g' : PlanarGraph F T U} {xs : List (Vec2 F)}
    {cn ce : List Nat} (h : Inserts g xs g' cn ce) {n : Nat} {f : Edge U} {a b : Node F T} (hf : g.edges[n]? = some f)
    (ha : g.nodes[f.src]? = some a) (hb : g.nodes[f.dst]? = some b) (hn : n ∈ ce) :
    Shorter g' n f.src (distance a.position b.position) := by
  induction h with
  | nil g => cases hn
  | cons g x xs g' cn ce hi ih =>
    obtain ⟨g1, id, h1, h2, h3⟩ := insert_cases g x
    have hf1 : g1.edges[n]? = some f ∧ g1.nodes[f.src]? = some a ∧ g1.nodes[f.dst]? = some b := by
      rcases h1 with rfl | rfl
      · exact ⟨hf, ha, hb⟩
      · refine ⟨hf, ?_, ?_⟩
        · unfold pushNode; simp only; rw [List.getElem?_append_left (List.getElem?_eq_some_iff.1 ha).1]; exact ha
        · unfold pushNode; simp only; rw [List.getElem?_append_left (List.getElem?_eq_some_iff.1 hb).1]; exact hb
    by_cases ho : onTest g1.nodes id f = true
    · refine inserts_shorter hsh hi ?_
      rw [h2]
      exact splitAt_shorter_first hsh hf1.1 hf1.2.1 hf1.2.2 ho
    · have hne : n ∈ ce := by
        rcases List.mem_append.1 hn with h | h
        · rw [h3] at h
          exact absurd (mem_splitChanged hf1.1 h) ho
        · exact h
      refine ih ?_ ?_ ?_ hne
      · rw [h2, splitAt_newSlot g1 id n f hf1.1, if_neg ho]
      · rw [h2]; exact hf1.2.1
      · rw [h2]; exact hf1.2.2

/-- nothing is reported if and only if no edge is added -/
theorem inserts_nothing [Inhabited T] {g g' : PlanarGraph F T U} {xs : List (Vec2 F)} {cn ce : List Nat}
    (h : Inserts g xs g' cn ce) : ce = [] ↔ g'.edges.length = g.edges.length := by
  induction h with
  | nil g => simp
  | cons g x xs g' cn ce hi ih =>
    obtain ⟨g1, id, h1, h2, h3⟩ := insert_cases g x
    have hl : g1.edges.length = g.edges.length := by rcases h1 with rfl | rfl <;> rfl
    have hm := (inserts_changed hi).1
    have hs := splitAt_length g1 id
    have h4 : splitChanged g1 id = [] ↔ (onSlots g1 id).length = 0 := by
      rw [splitChanged_eq]
      simp
    rw [List.append_eq_nil_iff, h3, h4, ih, h2]
    rw [h2] at hm
    omega

/-- the slot of the new edge, for any arithmetic in which splitting makes edges shorter -/
theorem reported_iff [LawfulScalar F] [Inhabited T] (hsh : SplitShorter F) (g : PlanarGraph F T U) (hwf : WF g) (s d : Nat) (x : U)
    (g' : PlanarGraph F T U) (cn ce : List Nat) (h : g.addEdge s d x = .ok (g', .ok (cn, ce))) :
    g.edges.length ∈ ce ↔ g' ≠ g ∧
      (g'.edges.length = g.edges.length + 1 ∨ g'.edges[g.edges.length]? ≠ some ⟨s, d, x, ""⟩) := by
  rcases addEdge_ok g hwf s d x with ⟨_, h'⟩ | ⟨_, _, h'⟩ | ⟨_, hs, hd, g1, cn1, ce1, hi, h'⟩
  · rw [h] at h'; cases h'
    simp
  · rw [h] at h'; cases h'
  · rw [h] at h'
    simp only [Except.ok.injEq, Prod.mk.injEq] at h'
    obtain ⟨rfl, rfl, rfl⟩ := h'
    have hlen : (pushEdge g s d x).edges.length = g.edges.length + 1 := by simp [pushEdge]
    have hnew : (pushEdge g s d x).edges[g.edges.length]? = some ⟨s, d, x, ""⟩ := by
      simp [pushEdge, defaultLabel]
    obtain ⟨i1, i2, i3⟩ := inserts_changed hi
    have hne : g' ≠ g := by rintro rfl; omega
    have hno := inserts_nothing hi
    rw [hlen] at hno
    simp only [hne, ne_eq, not_false_eq_true, true_and]
    by_cases hemp : ce1 = []
    · subst hemp
      have := hno.1 rfl
      simp [this]
    · have hl : ¬ g'.edges.length = g.edges.length + 1 := fun hc => hemp (hno.2 hc)
      rw [if_neg (by simpa using hemp)]
      constructor
      · intro hm
        right
        obtain ⟨f, a, b, c1, c2, c3, c4, c5⟩ := inserts_reported hsh hi hnew (a := g.nodes[s]) (b := g.nodes[d])
          (List.getElem?_eq_getElem hs) (List.getElem?_eq_getElem hd) hm
        rw [c1]
        intro hc
        cases hc
        obtain ⟨l, hl1, _⟩ := inserts_nodes hi
        have hl1 : g'.nodes = g.nodes ++ l := hl1
        simp only at c3 c4 c5
        rw [hl1, List.getElem?_append_left hs, List.getElem?_eq_getElem hs] at c3
        rw [hl1, List.getElem?_append_left hd, List.getElem?_eq_getElem hd] at c4
        cases c3; cases c4
        rw [LawfulScalar.lt_irrefl] at c5
        cases c5
      · rintro (hc | hc)
        · exact absurd hc hl
        · exact i3 _ (by rw [hnew]; exact hc)

end

theorem xreal_splitShorter : SplitShorter XReal := by
  intro a b p f h
  unfold Utils.isOnLineSegment at h
  simp only [Bool.and_eq_true] at h
  obtain ⟨⟨h1, _⟩, h2⟩ := h
  rw [LawfulScalar.abs_dist] at h2
  generalize distance a p = u at *
  generalize distance p b = v at *
  generalize distance a b = w at *
  change XReal.lt (XReal.abs (XReal.sub (XReal.add u v) w)) (XReal.fin XReal.epsR) = true at h1
  change XReal.lt (XReal.fin XReal.epsR) v = true at h2
  change XReal.lt u w = true
  rcases u with _ | u | u <;> rcases v with _ | v | v <;> rcases w with _ | w | w
  all_goals try cases u
  all_goals try cases v
  all_goals try cases w
  all_goals simp [XReal.add, XReal.sub, XReal.neg, XReal.abs, XReal.lt] at h1 h2 ⊢
  all_goals
    have := (abs_lt.1 h1).2
    linarith

/-- **C58, exactly** (exact arithmetic).  When `add_edge` returns `Ok`, the slot of the new edge is reported if and only if the
graph changed and either no edge at all was split (one edge more than before) or the new edge was (its slot no longer holds the
requested edge).  So it goes unreported exactly when the new edge stayed whole and an older edge was split, as in
`C58_counterexample`. -/
theorem C58_exact [Inhabited T] (g : PlanarGraph XReal T U) (hwf : WF g) (s d : Nat) (x : U)
    (g' : PlanarGraph XReal T U) (cn ce : List Nat) (h : g.addEdge s d x = .ok (g', .ok (cn, ce))) :
    g.edges.length ∈ ce ↔ g' ≠ g ∧
      (g'.edges.length = g.edges.length + 1 ∨ g'.edges[g.edges.length]? ≠ some ⟨s, d, x, ""⟩) :=
  reported_iff xreal_splitShorter g hwf s d x g' cn ce h

/-- nothing is split: the new edge is reported -/
example : (⟨[⟨⟨XReal.fin 0, XReal.fin 0⟩, (), ""⟩, ⟨⟨XReal.fin 4, XReal.fin 0⟩, (), ""⟩], []⟩ :
      PlanarGraph XReal Unit Nat).addEdge 0 1 7 =
    .ok (⟨[⟨⟨XReal.fin 0, XReal.fin 0⟩, (), ""⟩, ⟨⟨XReal.fin 4, XReal.fin 0⟩, (), ""⟩], [⟨0, 1, 7, ""⟩]⟩, .ok ([], [0])) := rfl

end Kami.Graph
