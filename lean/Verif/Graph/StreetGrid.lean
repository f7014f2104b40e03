import Verif.Geom.StreetGrid
import Verif.Graph.PlaneGrid
import Verif.Graph.MarginErase
/-!
# C128: street maps on a small whole-number grid are exact in f32

If the requested points have whole coordinates within a square of side 12 and only horizontal and vertical segments are drawn, then adding
and removing nodes and edges in f32, in any order, does exactly what it does in exact arithmetic.  Streets may cross, touch, overlap and
be drawn again.
-/

set_option autoImplicit false

namespace Kami.Graph

open Kami Kami.F32 Kami.Utils Kami.DistF32 Kami.UtilThm Kami.Simple
open scoped Kami
open PlanarGraph

variable {T U : Type}

/-! ## Specification -/

/-- the coordinates are whole numbers, from `X` to `X + 12` and from `Y` to `Y + 12` -/
def InBox (X Y : ℤ) (v : Vec2 F32) : Prop := ∃ x y : ℤ, At v x y ∧ (X ≤ x ∧ x ≤ X + 12) ∧ (Y ≤ y ∧ y ≤ Y + 12)

/-- new points are in the box and no segment from a node to itself is asked for -/
def TownCall (X Y : ℤ) : Op F32 T U → Prop
  | .addNode x _ => InBox X Y x
  | .addEdge s d _ => s ≠ d
  | .removeEdge _ => True
  | .removeNode _ => True

noncomputable section

/-- the graph with its coordinates as real numbers -/
def exactG (h : PlanarGraph F32 T U) : PlanarGraph XReal T U :=
  ⟨h.nodes.map fun n => ⟨pt (rpos n.position), n.data, n.label⟩, h.edges⟩

/-! ## Towns -/

/-- different nodes in the box, joined by streets -/
structure Town (X Y : ℤ) (h : PlanarGraph F32 T U) : Prop where
  wf : WF h
  box : ∀ n ∈ h.nodes, InBox X Y n.position
  inj : ∀ (i j : ℕ) a b, h.nodes[i]? = some a → h.nodes[j]? = some b → rpos a.position = rpos b.position → i = j
  noloop : LoopFree h
  street : ∀ e ∈ h.edges, ∀ a b, h.nodes[e.src]? = some a → h.nodes[e.dst]? = some b → Straight (rpos a.position) (rpos b.position)

variable {X Y : ℤ} {h h' : PlanarGraph F32 T U}

theorem exact_get (h : PlanarGraph F32 T U) (i : ℕ) :
    (exactG h).nodes[i]? = (h.nodes[i]?).map fun n => ⟨pt (rpos n.position), n.data, n.label⟩ := by
  simp [exactG]

theorem exact_wf (hw : WF h) : WF (exactG h) := by
  intro e he
  have := hw e he
  simpa [exactG] using this

/-- the on-segment test is exact -/
theorem Town.on (ht : Town X Y h) (id : ℕ) {e : Edge U} (he : e ∈ h.edges) :
    onTest (exactG h).nodes id e = onTest h.nodes id e ∧
    (onTest h.nodes id e = true → ∀ a b p, h.nodes[e.src]? = some a → h.nodes[e.dst]? = some b → h.nodes[id]? = some p →
      OnSegR (rpos a.position) (rpos b.position) (rpos p.position)) := by
  obtain ⟨w1, w2⟩ := ht.wf e he
  have ha := List.getElem?_eq_getElem w1
  have hb := List.getElem?_eq_getElem w2
  unfold onTest
  simp only [exact_get, ha, hb, Option.map_some]
  cases hp : h.nodes[id]? with
  | none => exact ⟨rfl, fun h => by cases h⟩
  | some p =>
    simp only [Option.map_some]
    obtain ⟨x, y, A, bx, by'⟩ := ht.box _ (List.mem_of_getElem? ha)
    obtain ⟨x', y', B, bx', by''⟩ := ht.box _ (List.mem_of_getElem? hb)
    obtain ⟨i, j, P, bi, bj⟩ := ht.box _ (List.mem_of_getElem? hp)
    have hne : rpos h.nodes[e.src].position ≠ rpos h.nodes[e.dst].position := fun hc => ht.noloop e he (ht.inj _ _ _ _ ha hb hc)
    obtain ⟨h1, h2⟩ := C128_on A B P ((straight_at A B).1 (ht.street e he _ _ ha hb)) (abs_le.2 (by omega)) (abs_le.2 (by omega))
      (abs_le.2 (by omega)) (abs_le.2 (by omega)) hne false
    refine ⟨Bool.eq_iff_iff.2 (h2.trans h1.symm), ?_⟩
    intro hon a b q ea eb eq
    cases ea
    cases eb
    cases eq
    exact (h1.1 hon).1

theorem filter_zip_congr {α : Type} {l : List α} {f g : α → Bool} (h : ∀ e ∈ l, f e = g e) (k : ℕ) :
    ((l.zipIdx k).filter fun x => f x.1) = (l.zipIdx k).filter fun x => g x.1 :=
  List.filter_congr fun _ hx => h _ (List.fst_mem_of_mem_zipIdx hx)

theorem Town.split_exact (ht : Town X Y h) (id : ℕ) :
    splitAt (exactG h) id = exactG (splitAt h id) ∧ splitChanged (exactG h) id = splitChanged h id := by
  have hon : ∀ e ∈ h.edges, onTest (exactG h).nodes id e = onTest h.nodes id e := fun e he => (ht.on id he).1
  unfold splitAt splitChanged
  have e1 : (exactG h).edges = h.edges := rfl
  rw [e1, List.filter_congr hon, filter_zip_congr hon 0]
  refine ⟨?_, rfl⟩
  unfold exactG
  simp only
  congr 2
  refine List.map_congr_left fun e he => ?_
  have := hon e he
  unfold exactG at this
  simp only at this
  rw [this]

theorem straight_part {a b p : ℝ × ℝ} (hs : Straight a b) (ho : OnSegR a b p) : Straight a p ∧ Straight b p := by
  obtain ⟨t, _, _, rfl⟩ := ho
  unfold Straight at *
  rcases hs with hs | hs
  · exact ⟨Or.inl (by simp [hs]), Or.inl (by simp [hs])⟩
  · exact ⟨Or.inr (by simp [hs]), Or.inr (by simp [hs])⟩

theorem Town.split (ht : Town X Y h) (id : ℕ) : Town X Y (splitAt h id) := by
  refine ⟨ht.wf.splitAt id, ht.box, ht.inj, ht.noloop.splitAt id, ?_⟩
  intro e' he' a b ha hb
  change h.nodes[e'.src]? = some a at ha
  change h.nodes[e'.dst]? = some b at hb
  obtain ⟨e, he, ⟨_, rfl⟩ | ⟨ho, h1⟩⟩ := mem_splitAt.1 he'
  · exact ht.street _ he a b ha hb
  · obtain ⟨w1, w2⟩ := ht.wf e he
    have hx := List.getElem?_eq_getElem w1
    have hy := List.getElem?_eq_getElem w2
    rcases h1 with rfl | rfl
    · have hon := (ht.on id he).2 ho _ _ b hx hy hb
      have := (straight_part (ht.street e he _ _ hx hy) hon).1
      change h.nodes[e.src]? = some a at ha
      rw [hx] at ha
      cases ha
      exact this
    · have hon := (ht.on id he).2 ho _ _ b hx hy hb
      have := (straight_part (ht.street e he _ _ hx hy) hon).2
      change h.nodes[e.dst]? = some a at ha
      rw [hy] at ha
      cases ha
      exact this

/-! ## The nearest node -/

theorem near_iff32 {v w : Vec2 F32} (hv : InBox X Y v) (hw : InBox X Y w) : (distance v w <. Scalar.epsilon) = true ↔ rpos w = rpos v := by
  obtain ⟨x, y, A, bx, by'⟩ := hv
  obtain ⟨x', y', B, bx', by''⟩ := hw
  constructor
  · intro hlt
    by_contra hne
    rw [(grid_not_lt (whole_grid A) (whole_grid B) (fun hc => hne hc.symm)).1] at hlt
    cases hlt
  · intro heq
    obtain ⟨hf, he⟩ := dist_whole A B (abs_le.2 (by omega)) (abs_le.2 (by omega))
    rw [dst_eq_zero.2 heq.symm, sub_zero, mul_zero] at he
    refine (lt_fin hf eps_isFin).2 ?_
    rw [toReal_eps, abs_eq_zero.1 (le_antisymm he (abs_nonneg _))]
    positivity

theorem near_iffX {v w : Vec2 F32} (hv : InBox X Y v) (hw : InBox X Y w) :
    (distance (pt (rpos v)) (pt (rpos w)) <. Scalar.epsilon) = true ↔ rpos w = rpos v := by
  obtain ⟨x, y, A, _⟩ := hv
  obtain ⟨x', y', B, _⟩ := hw
  rw [distance_pt, XReal.eps_def, XReal.fin_lt, decide_eq_true_eq]
  constructor
  · intro hlt
    by_contra hne
    have := dst_whole_ge A B (fun hc => hne hc.symm)
    have := eps_lt_one
    linarith
  · intro heq
    rw [dst_eq_zero.2 heq.symm]
    exact XReal.epsR_pos

/-- both find the node at the place, or none -/
theorem Town.nearest (ht : Town X Y h) {q : Vec2 F32} (hq : InBox X Y q) :
    (((Graph.nearest (exactG h) (pt (rpos q))).2 <. Scalar.epsilon) = true ∧ ((Graph.nearest h q).2 <. Scalar.epsilon) = true ∧
      (Graph.nearest (exactG h) (pt (rpos q))).1 = (Graph.nearest h q).1) ∨
    (((Graph.nearest (exactG h) (pt (rpos q))).2 <. Scalar.epsilon) = false ∧ ((Graph.nearest h q).2 <. Scalar.epsilon) = false ∧
      ∀ n ∈ h.nodes, rpos n.position ≠ rpos q) := by
  obtain ⟨s1, s2⟩ := nearest_spec h q
  obtain ⟨t1, t2⟩ := nearest_spec (exactG h) (pt (rpos q))
  by_cases hex : ∃ n ∈ h.nodes, rpos n.position = rpos q
  · obtain ⟨n, hn, hr⟩ := hex
    left
    have c1 : ((Graph.nearest h q).2 <. Scalar.epsilon) = true := by
      by_contra hc
      have := s2 (by simpa using hc) n hn
      rw [(near_iff32 hq (ht.box n hn)).2 hr] at this
      cases this
    have c2 : ((Graph.nearest (exactG h) (pt (rpos q))).2 <. Scalar.epsilon) = true := by
      by_contra hc
      have := t2 (by simpa using hc) ⟨pt (rpos n.position), n.data, n.label⟩ (List.mem_map_of_mem hn)
      simp only at this
      rw [(near_iffX hq (ht.box n hn)).2 hr] at this
      cases this
    obtain ⟨a, a1, a2, _⟩ := s1 c1
    obtain ⟨b, b1, b2, _⟩ := t1 c2
    refine ⟨c2, c1, ?_⟩
    rw [exact_get] at b1
    obtain ⟨b', b3, rfl⟩ := Option.map_eq_some_iff.1 b1
    refine ht.inj _ _ _ _ b3 a1 ?_
    rw [a2] at c1
    rw [b2] at c2
    rw [(near_iff32 hq (ht.box a (List.mem_of_getElem? a1))).1 c1, (near_iffX hq (ht.box b' (List.mem_of_getElem? b3))).1 c2]
  · right
    have hno : ∀ n ∈ h.nodes, rpos n.position ≠ rpos q := fun n hn hc => hex ⟨n, hn, hc⟩
    refine ⟨?_, ?_, hno⟩
    · rw [← Bool.not_eq_true]
      intro c2
      obtain ⟨b, b1, b2, _⟩ := t1 c2
      rw [exact_get] at b1
      obtain ⟨b', b3, rfl⟩ := Option.map_eq_some_iff.1 b1
      rw [b2] at c2
      exact hno b' (List.mem_of_getElem? b3) ((near_iffX hq (ht.box b' (List.mem_of_getElem? b3))).1 c2)
    · rw [← Bool.not_eq_true]
      intro c1
      obtain ⟨a, a1, a2, _⟩ := s1 c1
      rw [a2] at c1
      exact hno a (List.mem_of_getElem? a1) ((near_iff32 hq (ht.box a (List.mem_of_getElem? a1))).1 c1)

/-! ## New nodes -/

theorem exact_pushNode (h : PlanarGraph F32 T U) (q : Vec2 F32) (t : T) :
    pushNode (exactG h) (pt (rpos q)) t = exactG (pushNode h q t) := by
  simp [pushNode, exactG]

theorem exact_length (h : PlanarGraph F32 T U) : (exactG h).nodes.length = h.nodes.length := by simp [exactG]

theorem Town.push (ht : Town X Y h) {q : Vec2 F32} (hq : InBox X Y q) (hnew : ∀ n ∈ h.nodes, rpos n.position ≠ rpos q) (t : T) :
    Town X Y (pushNode h q t) := by
  have old : ∀ {i : ℕ} {a : Node F32 T}, i < h.nodes.length → (h.nodes ++ [(⟨q, t, defaultLabel⟩ : Node F32 T)])[i]? = some a →
      h.nodes[i]? = some a := by
    intro i a hi h
    rwa [List.getElem?_append_left hi] at h
  refine ⟨ht.wf.pushNode q t, ?_, ?_, ht.noloop, ?_⟩
  · intro n hn
    simp only [pushNode, List.mem_append, List.mem_singleton] at hn
    rcases hn with hn | rfl
    · exact ht.box n hn
    · exact hq
  · intro i j a b hi hj hab
    simp only [pushNode] at hi hj
    have li := (List.getElem?_eq_some_iff.1 hi).1
    have lj := (List.getElem?_eq_some_iff.1 hj).1
    simp only [List.length_append, List.length_singleton] at li lj
    rcases Nat.lt_or_ge i h.nodes.length with h1 | h1 <;> rcases Nat.lt_or_ge j h.nodes.length with h2 | h2
    · exact ht.inj i j a b (old h1 hi) (old h2 hj) hab
    · obtain rfl : j = h.nodes.length := by omega
      rw [List.getElem?_concat_length] at hj
      cases hj
      exact absurd hab (hnew a (List.mem_of_getElem? (old h1 hi)))
    · obtain rfl : i = h.nodes.length := by omega
      rw [List.getElem?_concat_length] at hi
      cases hi
      exact absurd hab.symm (hnew b (List.mem_of_getElem? (old h2 hj)))
    · omega
  · intro e he a b ha hb
    obtain ⟨w1, w2⟩ := ht.wf e he
    exact ht.street e he a b (old w1 ha) (old w2 hb)

theorem Town.addNode (ht : Town X Y h) {q : Vec2 F32} (hq : InBox X Y q) (t : T) :
    ∃ h' r, h.addNode q t = .ok (h', r) ∧ (exactG h).addNode (pt (rpos q)) t = .ok (exactG h', r) ∧ Town X Y h' := by
  have o1 := addNode_ok h ht.wf q t
  have o2 := addNode_ok (exactG h) (exact_wf ht.wf) (pt (rpos q)) t
  rcases ht.nearest hq with ⟨n1, n2, n3⟩ | ⟨n1, n2, n3⟩
  · unfold addNodeG at o1 o2
    rw [if_pos n2, if_pos n2] at o1
    rw [if_pos n1, if_pos n1, n3] at o2
    exact ⟨h, _, o1, o2, ht⟩
  · unfold addNodeG at o1 o2
    have n1' : ¬ ((Graph.nearest (exactG h) (pt (rpos q))).2 <. Scalar.epsilon) = true := by rw [n1]; exact Bool.false_ne_true
    have n2' : ¬ ((Graph.nearest h q).2 <. Scalar.epsilon) = true := by rw [n2]; exact Bool.false_ne_true
    rw [if_neg n2', if_neg n2'] at o1
    rw [if_neg n1', if_neg n1', exact_pushNode, exact_length] at o2
    have hp := ht.push hq n3 t
    obtain ⟨e1, e2⟩ := hp.split_exact h.nodes.length
    rw [e1, e2] at o2
    exact ⟨_, _, o1, o2, hp.split _⟩

/-! ## New edges -/

theorem Town.insert [Inhabited T] (ht : Town X Y h) {q : Vec2 F32} (hq : InBox X Y q) :
    insertPt (exactG h) (pt (rpos q)) = exactG (insertPt h q) ∧ insertNodes (exactG h) (pt (rpos q)) = insertNodes h q ∧
    insertChanged (exactG h) (pt (rpos q)) = insertChanged h q ∧ Town X Y (insertPt h q) := by
  unfold insertPt insertNodes insertChanged
  rcases ht.nearest hq with ⟨n1, n2, n3⟩ | ⟨n1, n2, n3⟩
  · obtain ⟨e1, e2⟩ := ht.split_exact (Graph.nearest h q).1
    rw [if_pos n1, if_pos n1, if_pos n1, if_pos n2, if_pos n2, if_pos n2, n3, e1, e2]
    exact ⟨rfl, rfl, rfl, ht.split _⟩
  · have n1' : ¬ ((Graph.nearest (exactG h) (pt (rpos q))).2 <. Scalar.epsilon) = true := by rw [n1]; exact Bool.false_ne_true
    have n2' : ¬ ((Graph.nearest h q).2 <. Scalar.epsilon) = true := by rw [n2]; exact Bool.false_ne_true
    have hp := ht.push hq n3 (default : T)
    obtain ⟨e1, e2⟩ := hp.split_exact h.nodes.length
    rw [if_neg n1', if_neg n1', if_neg n1', if_neg n2', if_neg n2', if_neg n2', exact_pushNode, exact_length, e1, e2]
    exact ⟨rfl, rfl, rfl, hp.split _⟩

theorem Town.inserts [Inhabited T] {qs : List (Vec2 F32)} {cn ce : List ℕ} (hi : Inserts h qs h' cn ce) :
    Town X Y h → (∀ q ∈ qs, InBox X Y q) → Inserts (exactG h) (qs.map fun q => pt (rpos q)) (exactG h') cn ce ∧ Town X Y h' := by
  induction hi with
  | nil g => exact fun ht _ => ⟨.nil _, ht⟩
  | cons g x xs g' cn ce _ ih =>
    intro ht hq
    obtain ⟨e1, e2, e3, ht'⟩ := ht.insert (hq x (List.mem_cons_self ..))
    obtain ⟨i1, i2⟩ := ih ht' (fun q hq' => hq q (List.mem_cons_of_mem _ hq'))
    refine ⟨?_, i2⟩
    rw [List.map_cons, ← e2, ← e3]
    exact .cons _ _ _ _ _ _ (by rw [e1]; exact i1)

theorem Inserts.det {F : Type} [Scalar F] [Inhabited T] {g g1 g2 : PlanarGraph F T U} {xs : List (Vec2 F)} {cn1 ce1 cn2 ce2 : List ℕ}
    (h1 : Inserts g xs g1 cn1 ce1) : Inserts g xs g2 cn2 ce2 → g1 = g2 ∧ cn1 = cn2 ∧ ce1 = ce2 := by
  induction h1 generalizing g2 cn2 ce2 with
  | nil g => intro h2; cases h2; exact ⟨rfl, rfl, rfl⟩
  | cons g x xs g' cn ce _ ih =>
    intro h2
    cases h2 with
    | cons _ _ _ _ cn' ce' hi =>
      obtain ⟨rfl, rfl, rfl⟩ := ih hi
      exact ⟨rfl, rfl, rfl⟩

theorem segR_box {a b p : ℝ × ℝ} (h : OnSegR a b p) {x0 x1 y0 y1 : ℝ} (ha : (x0 ≤ a.1 ∧ a.1 ≤ x1) ∧ (y0 ≤ a.2 ∧ a.2 ≤ y1))
    (hb : (x0 ≤ b.1 ∧ b.1 ≤ x1) ∧ (y0 ≤ b.2 ∧ b.2 ≤ y1)) : (x0 ≤ p.1 ∧ p.1 ≤ x1) ∧ (y0 ≤ p.2 ∧ p.2 ≤ y1) := by
  obtain ⟨t, t0, t1, rfl⟩ := h
  obtain ⟨⟨a1, a2⟩, a3, a4⟩ := ha
  obtain ⟨⟨b1, b2⟩, b3, b4⟩ := hb
  have t1' : 0 ≤ 1 - t := by linarith
  refine ⟨⟨?_, ?_⟩, ?_, ?_⟩ <;> simp only <;> nlinarith

/-- the points where a new street meets the edges are found exactly -/
theorem Town.meet (ht : Town X Y h) (bX : |X| ≤ 2 ^ 21) (bY : |Y| ≤ 2 ^ 21) {f : Edge U} (p q : Node F32 T)
    (hp : h.nodes[f.src]? = some p) (hq : h.nodes[f.dst]? = some q) (hs : Straight (rpos p.position) (rpos q.position)) :
    meetPoints (exactG h) f = (meetPoints h f).map (fun v => pt (rpos v)) ∧ ∀ v ∈ meetPoints h f, InBox X Y v := by
  have key : ∀ e ∈ h.edges, edgeMeets (exactG h).nodes e f = (edgeMeets h.nodes e f).map (fun v => pt (rpos v)) ∧
      ∀ v, edgeMeets h.nodes e f = some v → InBox X Y v := by
    intro e he
    obtain ⟨w1, w2⟩ := ht.wf e he
    have ha := List.getElem?_eq_getElem w1
    have hb := List.getElem?_eq_getElem w2
    unfold edgeMeets
    simp only [exact_get, ha, hb, hp, hq, Option.map_some]
    obtain ⟨x0, y0, A, a1, a2⟩ := ht.box _ (List.mem_of_getElem? ha)
    obtain ⟨x1, y1, B, b1, b2⟩ := ht.box _ (List.mem_of_getElem? hb)
    obtain ⟨x2, y2, C, c1, c2⟩ := ht.box _ (List.mem_of_getElem? hp)
    obtain ⟨x3, y3, D, d1, d2⟩ := ht.box _ (List.mem_of_getElem? hq)
    have hs1 := (straight_at A B).1 (ht.street e he _ _ ha hb)
    have hs2 := (straight_at C D).1 hs
    rw [abs_le] at bX bY
    obtain ⟨m1, m2⟩ := C128_meet A B C D (abs_le.2 (by omega)) (abs_le.2 (by omega)) (abs_le.2 (by omega)) (abs_le.2 (by omega))
      (abs_le.2 (by omega)) (abs_le.2 (by omega)) (abs_le.2 (by omega)) (abs_le.2 (by omega)) (street_whole A B C D hs1 hs2)
    refine ⟨m1, ?_⟩
    intro v hv
    obtain ⟨⟨i, j, hA⟩, hon⟩ := m2 v hv
    rw [rpos_at A, rpos_at B, rpos_at hA] at hon
    have cst : ∀ {z w : ℤ}, z ≤ w → (z : ℝ) ≤ w := fun h => by exact_mod_cast h
    have := segR_box hon (x0 := ((X : ℤ) : ℝ)) (x1 := ((X + 12 : ℤ) : ℝ)) (y0 := ((Y : ℤ) : ℝ)) (y1 := ((Y + 12 : ℤ) : ℝ))
      ⟨⟨cst a1.1, cst a1.2⟩, cst a2.1, cst a2.2⟩ ⟨⟨cst b1.1, cst b1.2⟩, cst b2.1, cst b2.2⟩
    obtain ⟨⟨i1, i2⟩, i3, i4⟩ := this
    simp only at i1 i2 i3 i4
    exact ⟨i, j, hA, ⟨by exact_mod_cast i1, by exact_mod_cast i2⟩, by exact_mod_cast i3, by exact_mod_cast i4⟩
  unfold meetPoints
  have e1 : (exactG h).edges = h.edges := rfl
  rw [e1]
  generalize h.edges = es at key
  constructor
  · induction es with
    | nil => rfl
    | cons e es ih =>
      have := (key e (List.mem_cons_self ..)).1
      rw [List.filterMap_cons, List.filterMap_cons, this, ih (fun e he => key e (List.mem_cons_of_mem _ he))]
      cases edgeMeets h.nodes e f <;> rfl
  · intro v hv
    obtain ⟨e, he, hv⟩ := List.mem_filterMap.1 hv
    exact (key e he).2 v hv

/-- points of the box are close if they are equal, in f32 and exactly -/
theorem close_box {v w : Vec2 F32} (hv : InBox X Y v) (hw : InBox X Y w) : closeTo (pt (rpos v)) (pt (rpos w)) = closeTo v w := by
  obtain ⟨x, y, A, bx, by'⟩ := hv
  obtain ⟨x', y', B, bx', by''⟩ := hw
  have g : ∀ {v : Vec2 F32} {x y : ℤ}, At v x y → OnGrid 22 v := fun {v x y} h =>
    ⟨⟨h.1.1, x * 2 ^ 22, by rw [h.1.2]; push_cast; norm_num⟩, ⟨h.2.1, y * 2 ^ 22, by rw [h.2.2]; push_cast; norm_num⟩⟩
  refine Bool.eq_iff_iff.2 (Iff.trans ?_ (C125_close_to (g A) (g B)).symm)
  rw [C46_close_exact]
  constructor
  · intro hle
    by_contra hne
    have := dst_whole_ge A B hne
    have := eps_lt_one
    linarith
  · intro heq
    rw [dst_eq_zero.2 heq]
    exact XReal.epsR_pos.le

theorem unique_box {vs : List (Vec2 F32)} (hv : ∀ v ∈ vs, InBox X Y v) :
    uniquePointsAmong (vs.map fun v => pt (rpos v)) = (uniquePointsAmong vs).map fun v => pt (rpos v) := by
  unfold uniquePointsAmong
  rw [uniqueLoop_eq, uniqueLoop_eq, List.zipIdx_map, List.filter_map, List.map_map, List.map_map]
  have : List.filter ((fun x : Vec2 XReal × ℕ => isUnique x.2 x.1 (vs.map fun v => pt (rpos v)) 0) ∘ Prod.map (fun v => pt (rpos v)) id) (vs.zipIdx 0) =
      List.filter (fun x : Vec2 F32 × ℕ => isUnique x.2 x.1 vs 0) (vs.zipIdx 0) := by
    refine List.filter_congr fun x hx => Bool.eq_iff_iff.2 ?_
    have hx1 := hv _ (List.fst_mem_of_mem_zipIdx hx)
    simp only [Function.comp, Prod.map, id]
    rw [isUnique_iff, isUnique_iff]
    constructor
    · intro hu j b hj hne
      rw [← close_box hx1 (hv b (List.mem_of_getElem? hj))]
      exact hu j _ (by rw [List.getElem?_map, hj]; rfl) hne
    · intro hu j b hj hne
      rw [List.getElem?_map] at hj
      obtain ⟨b', hb', rfl⟩ := Option.map_eq_some_iff.1 hj
      rw [close_box hx1 (hv b' (List.mem_of_getElem? hb'))]
      exact hu j b' hb' hne
  rw [this]
  rfl

theorem Town.addEdge [Inhabited T] (ht : Town X Y h) (bX : |X| ≤ 2 ^ 21) (bY : |Y| ≤ 2 ^ 21) {s d : ℕ} (hsd : s ≠ d) (c : U)
    (hs : s < h.nodes.length → d < h.nodes.length → h.hasEdgeBetweenNodes s d = false → Straight (spot h s) (spot h d)) :
    ∃ h' r, h.addEdge s d c = .ok (h', r) ∧ (exactG h).addEdge s d c = .ok (exactG h', r) ∧ Town X Y h' := by
  have hE : (exactG h).hasEdgeBetweenNodes s d = h.hasEdgeBetweenNodes s d := hasEdge_eq (h := exactG h) (g := h) rfl s d
  have hl := exact_length h
  rcases addEdge_ok h ht.wf s d c with ⟨k1, k2⟩ | ⟨k1, k2, k3⟩ | ⟨k1, k2, k3, h', cn, ce, hi, k4⟩ <;>
    rcases addEdge_ok (exactG h) (exact_wf ht.wf) s d c with ⟨l1, l2⟩ | ⟨l1, l2, l3⟩ | ⟨l1, l2, l3, g', cn', ce', hi', l4⟩ <;>
    rw [hE, k1] at l1 <;> cases l1
  · exact ⟨h, _, k2, l2, ht⟩
  · exact ⟨h, _, k3, l3, ht⟩
  · rw [hl] at l2 l3
    exact absurd ⟨l2, l3⟩ k2
  · rw [hl] at l2
    exact absurd ⟨k2, k3⟩ l2
  · have gs := List.getElem?_eq_getElem k2
    have gd := List.getElem?_eq_getElem k3
    have hst : Straight (rpos h.nodes[s].position) (rpos h.nodes[d].position) := by
      have := hs k2 k3 k1
      unfold spot at this
      rw [gs, gd] at this
      exact this
    have hp : Town X Y (pushEdge h s d c) := by
      refine ⟨ht.wf.pushEdge k2 k3 c, ht.box, ht.inj, ?_, ?_⟩
      · intro e he
        simp only [pushEdge, List.mem_append, List.mem_singleton] at he
        rcases he with he | rfl
        · exact ht.noloop e he
        · exact hsd
      · intro e he a b ha hb
        simp only [pushEdge, List.mem_append, List.mem_singleton] at he
        rcases he with he | rfl
        · exact ht.street e he a b ha hb
        · change h.nodes[s]? = some a at ha
          change h.nodes[d]? = some b at hb
          rw [gs] at ha
          rw [gd] at hb
          cases ha
          cases hb
          exact hst
    obtain ⟨m1, m2⟩ := ht.meet bX bY (f := ⟨s, d, c, defaultLabel⟩) _ _ gs gd hst
    rw [m1, unique_box m2] at hi'
    obtain ⟨i1, i2⟩ := Town.inserts hi hp (fun q hq => m2 q ((C47_unique_partial _).1.subset hq))
    have hpe : pushEdge (exactG h) s d c = exactG (pushEdge h s d c) := rfl
    rw [hpe] at hi'
    obtain ⟨rfl, rfl, rfl⟩ := Inserts.det i1 hi'
    exact ⟨h', _, k4, l4, i2⟩

/-! ## Removals -/

theorem Town.renumbered (ht : Town X Y h) {keep ekeep : List ℕ} (hr : Renumbered h h' keep ekeep) : Town X Y h' := by
  have slot : ∀ (k : ℕ) (n : Node F32 T), h'.nodes[k]? = some n → ∃ i, keep[k]? = some i ∧ h.nodes[i]? = some n := by
    intro k n hk
    have hlt := (List.getElem?_eq_some_iff.1 hk).1
    rw [hr.node_count] at hlt
    have hg := List.getElem?_eq_getElem hlt
    refine ⟨_, hg, ?_⟩
    rw [← (hr.nodes k _ hg).2]
    exact hk
  refine ⟨hr.wf, ?_, ?_, hr.loopFree ht.noloop, ?_⟩
  · intro n hn
    obtain ⟨k, hk⟩ := List.mem_iff_getElem?.1 hn
    obtain ⟨i, _, hi⟩ := slot k n hk
    exact ht.box n (List.mem_of_getElem? hi)
  · intro i j a b hi hj hab
    obtain ⟨i', h1, h2⟩ := slot i a hi
    obtain ⟨j', h3, h4⟩ := slot j b hj
    have := ht.inj i' j' a b h2 h4 hab
    subst this
    exact nodup_get hr.nodup h1 h3
  · intro e' he' a b ha hb
    obtain ⟨k, hk⟩ := List.mem_iff_getElem?.1 he'
    have hlt := (List.getElem?_eq_some_iff.1 hk).1
    rw [hr.edge_count] at hlt
    obtain ⟨e, e1, h1, h2, _, _, h4, h5⟩ := hr.edges k _ (List.getElem?_eq_getElem hlt)
    rw [hk] at h2
    cases h2
    obtain ⟨i, i1, i2⟩ := slot _ a ha
    obtain ⟨j, j1, j2⟩ := slot _ b hb
    rw [h4] at i1
    rw [h5] at j1
    cases i1
    cases j1
    exact ht.street e (List.mem_of_getElem? h1) a b i2 j2

theorem exact_twins (h : PlanarGraph F32 T U) : Twins h (exactG h) := ⟨rfl, exact_length h⟩

theorem Left.exact {g' : PlanarGraph XReal T U} (hl : Left h (exactG h) h' g') : g' = exactG h' := by
  have h1 : g'.nodes = (exactG h').nodes := by
    apply List.ext_getElem?
    intro k
    rcases Nat.lt_or_ge k h'.nodes.length with hk | hk
    · obtain ⟨i, _, h1, h2⟩ := hl.nodes k hk
      rw [h2, exact_get, exact_get, h1]
    · rw [List.getElem?_eq_none (by rw [hl.twins.len]; exact hk), List.getElem?_eq_none (by rw [exact_length]; exact hk)]
  have h2 : g'.edges = (exactG h').edges := hl.twins.edges
  cases g'
  simp only at h1 h2
  rw [h1, h2]

/-! ## All calls -/

/-- one call -/
theorem Town.respond [Inhabited T] (ht : Town X Y h) (bX : |X| ≤ 2 ^ 21) (bY : |Y| ≤ 2 ^ 21) (p : Profile) (op : Op F32 T U) (hop : TownCall X Y op)
    (hs : ∀ s ∈ drawnNow h op, Straight s.a s.b) :
    (∃ e, Graph.respond p (exactG h) (exactOp op) = .error e ∧ Graph.respond p h op = .error e) ∨
    ∃ h' r, Graph.respond p (exactG h) (exactOp op) = .ok (exactG h', r) ∧ Graph.respond p h op = .ok (h', r) ∧ Town X Y h' := by
  cases op with
  | addNode q t =>
    right
    obtain ⟨h', r, h1, h2, h3⟩ := ht.addNode hop t
    exact ⟨h', .node r.1 r.2, by simp only [Graph.respond, exactOp, h2, bind, Except.bind, pure, Except.pure],
      by simp only [Graph.respond, h1, bind, Except.bind, pure, Except.pure], h3⟩
  | addEdge s d c =>
    right
    obtain ⟨h', r, h1, h2, h3⟩ := ht.addEdge bX bY hop c (fun k1 k2 k3 => by
      refine hs ⟨spot h s, spot h d, c⟩ ?_
      simp only [drawnNow]
      rw [if_pos ⟨k1, k2, k3⟩]
      exact List.mem_singleton.2 rfl)
    exact ⟨h', .edge r, by simp only [Graph.respond, exactOp, h2, bind, Except.bind, pure, Except.pure],
      by simp only [Graph.respond, h1, bind, Except.bind, pure, Except.pure], h3⟩
  | removeEdge i =>
    rcases (exact_twins h).removeEdge p i with ⟨e, h1, h2⟩ | ⟨h', g', r, h1, h2, hl⟩
    · left
      exact ⟨e, by simp only [Graph.respond, exactOp, h2, bind, Except.bind], by simp only [Graph.respond, h1, bind, Except.bind]⟩
    · right
      rw [hl.exact] at h2
      refine ⟨h', .removed r.1 r.2, by simp only [Graph.respond, exactOp, h2, bind, Except.bind, pure, Except.pure],
        by simp only [Graph.respond, h1, bind, Except.bind, pure, Except.pure], ?_⟩
      rcases removeEdge_renumbered ht.wf ht.noloop h1 with rfl | ⟨keep, ekeep, hr⟩
      · exact ht
      · exact ht.renumbered hr
  | removeNode i =>
    rcases (exact_twins h).removeNode p i with ⟨e, h1, h2⟩ | ⟨h', g', r, h1, h2, hl⟩
    · left
      exact ⟨e, by simp only [Graph.respond, exactOp, h2, bind, Except.bind], by simp only [Graph.respond, h1, bind, Except.bind]⟩
    · right
      rw [hl.exact] at h2
      refine ⟨h', .removed r.1 r.2, by simp only [Graph.respond, exactOp, h2, bind, Except.bind, pure, Except.pure],
        by simp only [Graph.respond, h1, bind, Except.bind, pure, Except.pure], ?_⟩
      rcases removeNode_renumbered ht.wf ht.noloop h1 with rfl | ⟨keep, ekeep, hr⟩
      · exact ht
      · exact ht.renumbered hr

theorem Town.history [Inhabited T] (bX : |X| ≤ 2 ^ 21) (bY : |Y| ≤ 2 ^ 21) (p : Profile) (ops : List (Op F32 T U)) :
    ∀ h : PlanarGraph F32 T U, Town X Y h → (∀ op ∈ ops, TownCall X Y op) → (∀ s ∈ drawing p h ops, Straight s.a s.b) →
      Graph.history p (exactG h) (ops.map exactOp) = (Graph.history p h ops).map fun r => (exactG r.1, r.2) := by
  induction ops with
  | nil => intro h _ _ _; rfl
  | cons op ops ih =>
    intro h ht hops hs
    simp only [drawing] at hs
    rcases ht.respond bX bY p op (hops op (List.mem_cons_self ..)) (fun s hs' => hs s (List.mem_append_left _ hs')) with
      ⟨e, h1, h2⟩ | ⟨h', r, h1, h2, ht'⟩
    · simp only [List.map_cons, Graph.history, h1, h2, bind, Except.bind]
      rfl
    · have hstep : h.step p op = .ok h' := by rw [step_respond, h2]; rfl
      rw [hstep] at hs
      have := ih h' ht' (fun op ho => hops op (List.mem_cons_of_mem _ ho)) (fun s hs' => hs s (List.mem_append_right _ hs'))
      simp only [List.map_cons, Graph.history, h1, h2, bind, Except.bind, this]
      cases Graph.history p h' ops <;> rfl

/-- **C128.** Any calls of `add_node`, `add_edge`, `remove_edge` and `remove_node` on an empty graph, in any order and with any indices,
such that new points have whole coordinates in a square of side 12 and the segments drawn are horizontal or vertical and join different
nodes.  Then the f32 calls do exactly what the calls in exact arithmetic do: they panic alike or get the same answers, and the nodes of
the f32 graph are exactly where the nodes of the exact graph are. -/
theorem C128_history [Inhabited T] (p : Profile) (ops : List (Op F32 T U)) (X Y : ℤ) (bX : |X| ≤ 2 ^ 21) (bY : |Y| ≤ 2 ^ 21)
    (hops : ∀ op ∈ ops, TownCall X Y op) (hs : ∀ s ∈ drawing p PlanarGraph.new ops, s.a.1 = s.b.1 ∨ s.a.2 = s.b.2) :
    history p PlanarGraph.new (ops.map exactOp) = (history p PlanarGraph.new ops).map fun r => (exactG r.1, r.2) :=
  Town.history bX bY p ops PlanarGraph.new
    ⟨wf_new, (fun n hn => by cases hn), (fun i j a b ha => by simp [PlanarGraph.new] at ha), (fun e he => by cases he), (fun e he => by cases he)⟩ hops hs

end

/-! ## Examples -/

/-- two streets that cross, a node on one of them, a piece removed and drawn again over the longer way, a street over another one -/
def townOps : List (Op F32 ℕ ℕ) :=
  [.addNode (pos 0 3) 1, .addNode (pos 12 3) 2, .addEdge 0 1 10, .addNode (pos 5 0) 3, .addNode (pos 5 12) 4, .addEdge 2 3 20,
    .addNode (pos 9 3) 5, .removeEdge 0, .addNode (pos 0 3) 6, .addEdge 5 0 30, .addEdge 7 8 0, .removeNode 9]

/-- the hypotheses of `C128_history` -/
theorem town_walk (p : Profile) : (∀ op ∈ townOps, TownCall 0 0 op) ∧
    ∀ s ∈ drawing p PlanarGraph.new townOps, s.a.1 = s.b.1 ∨ s.a.2 = s.b.2 := by
  have at' : ∀ x y : ℤ, 0 ≤ x → x ≤ 12 → 0 ≤ y → y ≤ 12 → InBox 0 0 (pos x y) := fun x y h1 h2 h3 h4 =>
    ⟨x, y, pos_at (by omega) (by omega), by omega, by omega⟩
  constructor
  · intro op hop
    simp only [townOps, List.mem_cons, List.not_mem_nil, or_false] at hop
    rcases hop with rfl | rfl | rfl | rfl | rfl | rfl | rfl | rfl | rfl | rfl | rfl | rfl
    · exact at' _ _ (by norm_num) (by norm_num) (by norm_num) (by norm_num)
    · exact at' _ _ (by norm_num) (by norm_num) (by norm_num) (by norm_num)
    · change (0 : ℕ) ≠ 1; decide
    · exact at' _ _ (by norm_num) (by norm_num) (by norm_num) (by norm_num)
    · exact at' _ _ (by norm_num) (by norm_num) (by norm_num) (by norm_num)
    · change (2 : ℕ) ≠ 3; decide
    · exact at' _ _ (by norm_num) (by norm_num) (by norm_num) (by norm_num)
    · trivial
    · exact at' _ _ (by norm_num) (by norm_num) (by norm_num) (by norm_num)
    · change (5 : ℕ) ≠ 0; decide
    · change (7 : ℕ) ≠ 8; decide
    · trivial
  · have hd : drawingF p PlanarGraph.new townOps = [(pos 0 3, pos 12 3, 10), (pos 5 0, pos 5 12, 20), (pos 0 3, pos 12 3, 30)] := by
      cases p <;> decide +kernel
    intro s hs
    rw [drawing_eq, hd] at hs
    simp only [List.map_cons, List.map_nil, List.mem_cons, List.not_mem_nil, or_false] at hs
    have e : ∀ x y : ℤ, x.natAbs ≤ 2 ^ 24 → y.natAbs ≤ 2 ^ 24 → rpos (pos x y) = ((x : ℝ), (y : ℝ)) := fun x y h1 h2 => rpos_at (pos_at h1 h2)
    rcases hs with rfl | rfl | rfl
    · right
      simp only [e 0 3 (by norm_num) (by norm_num), e 12 3 (by norm_num) (by norm_num)]
    · left
      simp only [e 5 0 (by norm_num) (by norm_num), e 5 12 (by norm_num) (by norm_num)]
    · right
      simp only [e 0 3 (by norm_num) (by norm_num), e 12 3 (by norm_num) (by norm_num)]

/-- what `townOps` leave in f32 -/
theorem town_left (p : Profile) : (history p PlanarGraph.new townOps).map (fun r => (r.1.nodes.map (·.position), r.1.edges.map fun e => (e.src, e.dst, e.data))) =
    .ok ([pos 12 3, pos 5 0, pos 5 12, pos 5 3, pos 9 3, pos 0 3], [(1, 3, 20), (0, 4, 10), (2, 3, 20), (3, 4, 10), (5, 0, 30)]) := by
  cases p <;> decide +kernel

/-- **C128, used.** What `townOps` leave in exact arithmetic, read off from f32.  The street drawn last passes two nodes and lies over
two edges: the point where it meets two edges at once is dropped. -/
theorem C128_redraw_exact (p : Profile) : ∃ g l, history p PlanarGraph.new (townOps.map exactOp) = .ok (g, l) ∧
    g.nodes.map (·.position) = [pt (12, 3), pt (5, 0), pt (5, 12), pt (5, 3), pt (9, 3), pt (0, 3)] ∧
    g.edges.map (fun e => (e.src, e.dst, e.data)) = [(1, 3, 20), (0, 4, 10), (2, 3, 20), (3, 4, 10), (5, 0, 30)] := by
  rw [C128_history p townOps 0 0 (by norm_num) (by norm_num) (town_walk p).1 (town_walk p).2]
  have hl := town_left p
  cases hr : history p PlanarGraph.new townOps with
  | error e => rw [hr] at hl; cases hl
  | ok r =>
    obtain ⟨h, l⟩ := r
    rw [hr] at hl
    simp only [Except.map, Except.ok.injEq, Prod.mk.injEq] at hl
    have e : ∀ x y : ℤ, x.natAbs ≤ 2 ^ 24 → y.natAbs ≤ 2 ^ 24 → pt (rpos (pos x y)) = pt ((x : ℝ), (y : ℝ)) := fun x y h1 h2 => by
      rw [rpos_at (pos_at h1 h2)]
    refine ⟨exactG h, l, rfl, ?_, hl.2⟩
    have : (exactG h).nodes.map (·.position) = (h.nodes.map (·.position)).map fun v => pt (rpos v) := by
      simp [exactG, Function.comp_def]
    rw [this, hl.1]
    simp only [List.map_cons, List.map_nil, e 12 3 (by norm_num) (by norm_num), e 5 0 (by norm_num) (by norm_num), e 5 12 (by norm_num) (by norm_num),
      e 5 3 (by norm_num) (by norm_num), e 9 3 (by norm_num) (by norm_num), e 0 3 (by norm_num) (by norm_num)]
    norm_num

/-- **C128 is sharp for the directions.** A node put on a diagonal does not split it. -/
theorem C128_sharp_split (p : Profile) : (history p (PlanarGraph.new : PlanarGraph F32 ℕ ℕ)
    [.addNode (pos 0 0) 1, .addNode (pos 7 7) 2, .addEdge 0 1 10, .addNode (pos 1 1) 3]).map (fun r => r.1.edges.map fun e => (e.src, e.dst, e.data)) =
    .ok [(0, 1, 10)] := by
  cases p <;> decide +kernel

end Kami.Graph
