import Verif.Graph.Basic
import Mathlib.Data.List.Nodup
import Mathlib.Data.List.NodupEquivFin
import Mathlib.Data.List.Perm.Subperm
/-!
# The removing operations

Lemmas about the loops of `remove_node` (src/graph/planar_graph.rs:412-515).  No arithmetic is involved.
-/

set_option autoImplicit false

namespace Kami.Graph

open Kami
open PlanarGraph

variable {F T U : Type}

/-- number of edge slots touching node `i` -/
def deg (g : PlanarGraph F T U) (i : Nat) : Nat := (g.edges.filter fun e => e.includes i).length

/-- the only edge at `id` joins it to itself -/
def LoopOnly (g : PlanarGraph F T U) (id : Nat) : Prop :=
  ∃ e : Edge U, g.edges.filter (fun e => e.includes id) = [e] ∧ e.src = id ∧ e.dst = id

theorem includes_iff {e : Edge U} {i : Nat} : e.includes i = true ↔ e.src = i ∨ e.dst = i := by
  simp [Edge.includes]

/-- the other end -/
def other (id : Nat) (e : Edge U) : Nat := if e.src == id then e.dst else e.src

theorem numberIncident_eq (g : PlanarGraph F T U) (i : Nat) :
    g.numberOfEdgesIncidentTo i = if i < g.nodes.length then some (deg g i) else none := by
  unfold numberOfEdgesIncidentTo getVertex deg
  by_cases h : i < g.nodes.length
  · rw [List.getElem?_eq_getElem h, if_pos h]
  · rw [List.getElem?_eq_none (by omega), if_neg h]

/-- nodes to be deleted with `id` -/
def strays (g : PlanarGraph F T U) (id : Nat) (es : List (Edge U)) : List Nat :=
  ((es.filter fun e => e.includes id).map (other id)).filter fun i => decide (i < g.nodes.length ∧ deg g i = 1)

theorem incidentLoop_eq (g : PlanarGraph F T U) (id : Nat) (es : List (Edge U)) : ∀ i,
    g.incidentLoop id es i = (strays g id es, ((es.zipIdx i).filter fun x => x.1.includes id).map Prod.snd) := by
  induction es with
  | nil => intro i; rfl
  | cons e es ih =>
    intro i
    have hs : (g.numberOfEdgesIncidentTo (other id e) = some 1) ↔ (other id e < g.nodes.length ∧ deg g (other id e) = 1) := by
      rw [numberIncident_eq]
      split <;> simp_all
    have ho : (if (e.src == id) = true then e.dst else e.src) = other id e := rfl
    simp only [incidentLoop, ih, List.zipIdx_cons, List.filter_cons, strays]
    by_cases hc : e.includes id = true
    · simp only [hc, if_true, List.map_cons, List.filter_cons, ho]
      by_cases hn : g.numberOfEdgesIncidentTo (other id e) = some 1
      · have := hs.1 hn
        simp [hn, this]
      · have := fun h => hn (hs.2 h)
        simp only [hn, if_false]
        rw [if_neg (by simpa using this)]
    · simp [hc]

/-- old indices of the surviving positions -/
def survivors (n : Nat) (marked : List Nat) : List Nat := (List.range n).filter fun j => !marked.contains j

theorem mem_survivors {n : Nat} {marked : List Nat} {i : Nat} : i ∈ survivors n marked ↔ i < n ∧ i ∉ marked := by
  simp [survivors]

theorem survivors_sorted (n : Nat) (marked : List Nat) : (survivors n marked).Pairwise (· < ·) :=
  List.Pairwise.filter _ List.pairwise_lt_range

theorem eraseMarked_get {α : Type} (marked : List Nat) (l : List α) : ∀ (i k : Nat),
    (eraseMarked marked l i)[k]? =
      (((List.range' i l.length).filter fun j => !marked.contains j)[k]?).bind fun j => l[j - i]? := by
  induction l with
  | nil => intro i k; simp [eraseMarked]
  | cons x xs ih =>
    intro i k
    simp only [eraseMarked, List.length_cons, List.range'_succ, List.filter_cons]
    have hshift : ∀ o : Option Nat, (∀ j, o = some j → i + 1 ≤ j) →
        (o.bind fun j => xs[j - (i + 1)]?) = o.bind fun j => (x :: xs)[j - i]? := by
      intro o ho
      cases o with
      | none => rfl
      | some j =>
        have := ho j rfl
        simp only [Option.bind_some]
        rw [show j - i = (j - (i + 1)) + 1 by omega, List.getElem?_cons_succ]
    have hge : ∀ (k j : Nat), ((List.range' (i + 1) xs.length).filter fun j => !marked.contains j)[k]? = some j → i + 1 ≤ j := by
      intro k j h
      have := List.mem_of_getElem? h
      simp only [List.mem_filter, List.mem_range'_1] at this
      omega
    by_cases hc : (!marked.contains i) = true
    · rw [if_pos hc, if_pos hc]
      cases k with
      | zero => simp
      | succ k =>
        rw [List.getElem?_cons_succ, List.getElem?_cons_succ, ih]
        exact hshift _ (hge k)
    · rw [if_neg hc, if_neg hc, ih]
      exact hshift _ (hge k)

theorem eraseMarked_get0 {α : Type} (marked : List Nat) (l : List α) (k : Nat) :
    (eraseMarked marked l 0)[k]? = ((survivors l.length marked)[k]?).bind fun j => l[j]? := by
  rw [eraseMarked_get]
  simp [survivors, List.range_eq_range']

theorem eraseMarked_length {α : Type} (marked : List Nat) (l : List α) : ∀ i,
    (eraseMarked marked l i).length = ((List.range' i l.length).filter fun j => !marked.contains j).length := by
  induction l with
  | nil => intro i; simp [eraseMarked]
  | cons x xs ih =>
    intro i
    simp only [eraseMarked, List.length_cons, List.range'_succ, List.filter_cons]
    split <;> simp [ih]

theorem eraseMarked_length0 {α : Type} (marked : List Nat) (l : List α) :
    (eraseMarked marked l 0).length = (survivors l.length marked).length := by
  rw [eraseMarked_length]; simp [survivors, List.range_eq_range']

theorem mem_eraseMarked {α : Type} {marked : List Nat} {l : List α} {x : α} (h : x ∈ eraseMarked marked l 0) :
    ∃ j, l[j]? = some x ∧ j ∉ marked := by
  obtain ⟨k, hk⟩ := List.mem_iff_getElem?.1 h
  rw [eraseMarked_get0] at hk
  obtain ⟨j, hj, hx⟩ := Option.bind_eq_some_iff.1 hk
  exact ⟨j, hx, (mem_survivors.1 (List.mem_of_getElem? hj)).2⟩

/-! ### renumbering -/

/-- how many marked entries are smaller -/
def back (marked : List Nat) (j : Nat) : Nat := (marked.filter fun e => decide (e < j)).length

theorem remapLoop_ok (p : Profile) (marked : List Nat) (count : Nat) : ∀ i,
    (∀ j, i ≤ j → j < i + count → j ∉ marked → back marked j ≤ j) →
    remapLoop p marked count i =
      .ok (((List.range' i count).filter fun j => !marked.contains j).map fun j => (j, j - back marked j)) := by
  induction count with
  | zero => intro i _; rfl
  | succ c ih =>
    intro i h
    have ih := ih (i + 1) (fun j h1 h2 h3 => h j (by omega) (by omega) h3)
    simp only [remapLoop, List.range'_succ, List.filter_cons]
    by_cases hc : marked.contains i = true
    · simp only [hc, Bool.not_true, Bool.false_eq_true, if_false, ih]
    · have hb := h i (by omega) (by omega) (by simpa using hc)
      simp only [Bool.not_eq_true] at hc
      simp only [hc, Bool.not_false, if_true, usizeSub]
      unfold back at hb
      rw [if_pos hb]
      simp [bind, Except.bind, ih, pure, Except.pure, back]

theorem remapLoop_err (marked : List Nat) (count : Nat) : ∀ i,
    (∃ j, i ≤ j ∧ j < i + count ∧ j ∉ marked ∧ j < back marked j) →
    remapLoop .debug marked count i = .error .arithmeticOverflow := by
  induction count with
  | zero => rintro i ⟨j, h1, h2, _⟩; omega
  | succ c ih =>
    rintro i ⟨j, h1, h2, h3, h4⟩
    simp only [remapLoop]
    by_cases hij : i = j
    · subst hij
      have hc : marked.contains i = false := by simpa using h3
      simp only [hc, Bool.not_false, if_true, usizeSub]
      unfold back at h4
      rw [if_neg (by omega)]
      rfl
    · have ih := ih (i + 1) ⟨j, by omega, by omega, h3, h4⟩
      split
      · simp only [usizeSub]
        split
        · simp [bind, Except.bind, ih]
        · rfl
      · exact ih

theorem remapLoop_release (marked : List Nat) (count : Nat) : ∀ i, ∃ l, remapLoop .release marked count i = .ok l := by
  induction count with
  | zero => intro i; exact ⟨_, rfl⟩
  | succ c ih =>
    intro i
    obtain ⟨l, hl⟩ := ih (i + 1)
    simp only [remapLoop]
    split
    · simp only [usizeSub]
      split
      · exact ⟨_, by simp [bind, Except.bind, hl, pure, Except.pure]; rfl⟩
      · exact ⟨_, by simp [bind, Except.bind, hl, pure, Except.pure]; rfl⟩
    · exact ⟨l, hl⟩

theorem lookup_map (l : List Nat) (f : Nat → Nat) (j : Nat) :
    (l.map fun j => (j, f j)).lookup j = if j ∈ l then some (f j) else none := by
  induction l with
  | nil => rfl
  | cons a l ih =>
    simp only [List.map_cons, List.lookup_cons]
    by_cases h : j = a
    · subst h; simp
    · rw [show (j == a) = false by simpa using h, ih]
      simp [h]

theorem remapIndex_eq (n : Nat) (marked : List Nat) (j : Nat) (hj : j ∈ survivors n marked) :
    remapIndex (((List.range' 0 n).filter fun j => !marked.contains j).map fun j => (j, j - back marked j)) j =
      j - back marked j := by
  unfold remapIndex
  rw [lookup_map, if_pos (by simpa [survivors, List.range_eq_range'] using hj)]

theorem back_eq {marked : List Nat} (hnd : marked.Nodup) (j : Nat) :
    back marked j = ((List.range j).filter fun i => marked.contains i).length := by
  unfold back
  refine List.Perm.length_eq ((List.perm_ext_iff_of_nodup (hnd.filter _) (List.nodup_range.filter _)).2 ?_)
  intro a
  simp only [List.mem_filter, List.mem_range, List.contains_iff_mem, decide_eq_true_eq]
  tauto

theorem filter_add_filter_not {α : Type} (p : α → Bool) (l : List α) :
    (l.filter p).length + (l.filter fun x => !p x).length = l.length := by
  induction l with
  | nil => rfl
  | cons a l ih =>
    simp only [List.filter_cons]
    cases p a <;> simp <;> omega

theorem back_le {marked : List Nat} (hnd : marked.Nodup) (j : Nat) : back marked j ≤ j := by
  rw [back_eq hnd]
  calc _ ≤ (List.range j).length := List.length_filter_le ..
    _ = j := List.length_range

/-- the renumbered index points to the survivor -/
theorem survivors_get {n : Nat} {marked : List Nat} (hnd : marked.Nodup) {j : Nat} (hj : j ∈ survivors n marked) :
    (survivors n marked)[j - back marked j]? = some j := by
  obtain ⟨h1, h2⟩ := mem_survivors.1 hj
  have hr : List.range n = List.range j ++ j :: List.range' (j + 1) (n - j - 1) := by
    rw [List.range_eq_range', List.range_eq_range']
    have h := List.range'_append (s := 0) (m := j) (n := n - j) (step := 1)
    rw [show j + (n - j) = n by omega] at h
    rw [← h, show n - j = (n - j - 1) + 1 by omega, List.range'_succ]
    simp
  have hl : ((List.range j).filter fun i => !marked.contains i).length = j - back marked j := by
    have := filter_add_filter_not (fun i => marked.contains i) (List.range j)
    rw [List.length_range, ← back_eq hnd] at this
    omega
  unfold survivors
  rw [hr, List.filter_append, List.filter_cons, if_pos (by simpa using h2), ← hl]
  simp

theorem minUnwrap_cons (a : Nat) (l : List Nat) : ∃ m, minUnwrap (a :: l) = .ok m ∧ m ∈ a :: l ∧ ∀ b ∈ a :: l, m ≤ b := by
  have hne : (a :: l).min? ≠ none := by rw [Ne, List.min?_eq_none_iff]; simp
  obtain ⟨m, hm⟩ := Option.ne_none_iff_exists'.1 hne
  refine ⟨m, by unfold minUnwrap; rw [hm], List.min?_mem hm, ?_⟩
  intro b hb
  exact (List.min?_eq_some_iff.1 hm).2 b hb

/-! ### the marked nodes -/

theorem mem_strays {g : PlanarGraph F T U} {id i : Nat} : i ∈ strays g id g.edges ↔
    ∃ e ∈ g.edges, e.includes id = true ∧ other id e = i ∧ i < g.nodes.length ∧ deg g i = 1 := by
  simp only [strays, List.mem_filter, List.mem_map, decide_eq_true_eq]
  constructor
  · rintro ⟨⟨e, ⟨h1, h2⟩, rfl⟩, h3, h4⟩; exact ⟨e, h1, h2, rfl, h3, h4⟩
  · rintro ⟨e, h1, h2, rfl, h3, h4⟩; exact ⟨⟨e, ⟨h1, h2⟩, rfl⟩, h3, h4⟩

theorem other_includes {id : Nat} {e : Edge U} : e.includes (other id e) = true := by
  rw [includes_iff]; unfold other; split <;> simp

theorem strays_nodup (g : PlanarGraph F T U) (id : Nat) : (strays g id g.edges).Nodup := by
  unfold strays List.Nodup
  rw [List.pairwise_filter, List.pairwise_map, List.pairwise_iff_forall_sublist]
  intro a b hab h1 h2 heq
  simp only [decide_eq_true_eq] at h1 h2
  have hsub : [a, b].Sublist g.edges := hab.trans List.filter_sublist
  have h3 : [a, b].filter (fun e => e.includes (other id a)) = [a, b] := by
    have ha : a.includes (other id a) = true := other_includes
    have hb : b.includes (other id a) = true := by rw [heq]; exact other_includes
    simp [ha, hb]
  have h4 := (hsub.filter (fun e => e.includes (other id a))).length_le
  rw [h3] at h4
  have := h1.2
  unfold deg at this
  rw [this] at h4
  simp at h4

theorem id_mem_strays {g : PlanarGraph F T U} {id : Nat} (h : id ∈ strays g id g.edges) : LoopOnly g id := by
  obtain ⟨e, h1, h2, h3, h4, h5⟩ := mem_strays.1 h
  obtain ⟨e', he'⟩ := List.length_eq_one_iff.1 h5
  have : e ∈ g.edges.filter fun e => e.includes id := List.mem_filter.2 ⟨h1, h2⟩
  rw [he'] at this
  have := List.mem_singleton.1 this
  subst this
  refine ⟨e, he', ?_⟩
  unfold other at h3
  rw [includes_iff] at h2
  split at h3
  · rename_i hs
    exact ⟨by simpa using hs, h3⟩
  · rename_i hs
    exact absurd (by simpa using h3) hs

theorem marked_nodup {g : PlanarGraph F T U} {id : Nat} (h : ¬ LoopOnly g id) : (id :: strays g id g.edges).Nodup :=
  List.nodup_cons.2 ⟨fun hc => h (id_mem_strays hc), strays_nodup g id⟩

theorem loopOnly_marked {g : PlanarGraph F T U} {id : Nat} (hid : id < g.nodes.length) (h : LoopOnly g id) :
    strays g id g.edges = [id] := by
  obtain ⟨e, h1, h2, h3⟩ := h
  have ho : other id e = id := by unfold other; simp [h2, h3]
  have hd : deg g id = 1 := by unfold deg; rw [h1]; rfl
  unfold strays
  rw [h1]
  simp [ho, hid, hd]

/-- slots of the edges at `id` -/
theorem mem_slots {es : List (Edge U)} {id j : Nat} :
    j ∈ ((es.zipIdx 0).filter fun x => x.1.includes id).map Prod.snd ↔ ∃ e, es[j]? = some e ∧ e.includes id = true := by
  simp only [List.mem_map, List.mem_filter]
  constructor
  · rintro ⟨⟨e, k⟩, ⟨h1, h2⟩, rfl⟩
    exact ⟨e, List.mk_mem_zipIdx_iff_getElem?.1 h1, h2⟩
  · rintro ⟨e, h1, h2⟩
    exact ⟨(e, j), ⟨List.mk_mem_zipIdx_iff_getElem?.2 h1, h2⟩, rfl⟩

/-- an edge that does not touch `id` touches no stray neighbour of `id` either -/
theorem not_stray_of_edge {g : PlanarGraph F T U} {id : Nat} {e : Edge U} (he : e ∈ g.edges)
    (hid : e.includes id = false) {i : Nat} (hi : e.includes i = true) : i ∉ id :: strays g id g.edges := by
  intro hc
  rcases List.mem_cons.1 hc with rfl | hc
  · rw [hi] at hid; cases hid
  · obtain ⟨f, h1, h2, h3, h4, h5⟩ := mem_strays.1 hc
    obtain ⟨x, hx⟩ := List.length_eq_one_iff.1 h5
    have m1 : e ∈ g.edges.filter fun e => e.includes i := List.mem_filter.2 ⟨he, hi⟩
    have m2 : f ∈ g.edges.filter fun e => e.includes i := List.mem_filter.2 ⟨h1, by rw [← h3]; exact other_includes⟩
    rw [hx] at m1 m2
    have := (List.mem_singleton.1 m1).trans (List.mem_singleton.1 m2).symm
    subst this
    rw [h2] at hid; cases hid

end Kami.Graph
