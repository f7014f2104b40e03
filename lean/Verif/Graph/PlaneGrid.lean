import Verif.Geom.PlaneGrid
import Verif.Graph.SpacingF32
import Verif.Graph.MarginF32
/-!
# C127: a plane drawing on a small whole-number grid is kept as it is

If the requested points have whole coordinates within a square of side 40 and the requested segments meet only in common ends, the f32
graph is the plain list of the requested points and segments: nothing is split, nothing is added, nothing is lost.
-/

set_option autoImplicit false

namespace Kami.Graph

open Kami Kami.F32 Kami.Utils Kami.DistF32 Kami.UtilThm
open scoped Kami
open PlanarGraph

variable {T U : Type}

/-! ## Specification -/

/-- the coordinates are whole, of a size of at most `2^22`, and within a square of side 40 -/
def OnSheet (vs : List (Vec2 F32)) : Prop :=
  (∀ v ∈ vs, ∃ x y : ℤ, At v x y ∧ |x| ≤ 2 ^ 22 ∧ |y| ≤ 2 ^ 22) ∧
  ∀ v ∈ vs, ∀ w ∈ vs, |(rpos v).1 - (rpos w).1| ≤ 40 ∧ |(rpos v).2 - (rpos w).2| ≤ 40

/-- the positions asked for -/
def spots : List (Call F32 T U) → List (Vec2 F32)
  | [] => []
  | .point x _ :: cs => x :: spots cs
  | .seg _ _ _ :: cs => spots cs

/-- the segments `s` and `s'` have the same ends -/
def SameEnds (s s' : Stroke U) : Prop := (s.a = s'.a ∧ s.b = s'.b) ∨ (s.a = s'.b ∧ s.b = s'.a)

/-- a plane drawing: segments have different ends and contain no further points; segments that are not the same meet only in common ends -/
structure PlaneDrawing (P : List (ℝ × ℝ)) (S : List (Stroke U)) : Prop where
  proper : ∀ s ∈ S, s.a ≠ s.b
  free : ∀ s ∈ S, ∀ x ∈ P, s.On x → x = s.a ∨ x = s.b
  apart : ∀ s ∈ S, ∀ s' ∈ S, SameEnds s s' ∨ ∀ y, s.On y → s'.On y → (y = s.a ∨ y = s.b) ∧ (y = s'.a ∨ y = s'.b)

/-- A reference that does no geometry: a point with coordinates equal to those of an earlier one gets its number, other points the next
number; a segment between numbers that are joined is ignored, other segments are appended. -/
def collect : PlanarGraph F32 T U → List ℕ → List (Call F32 T U) → PlanarGraph F32 T U × List ℕ × List Reply
  | g, ids, [] => (g, ids, [])
  | g, ids, .point x t :: cs =>
    match g.nodes.findIdx? fun n => (n.position.x =. x.x) && (n.position.y =. x.y) with
    | some i =>
      let r := collect g (ids ++ [i]) cs
      (r.1, r.2.1, .node i [] :: r.2.2)
    | none =>
      let r := collect ⟨g.nodes ++ [⟨x, t, ""⟩], g.edges⟩ (ids ++ [g.nodes.length]) cs
      (r.1, r.2.1, .node g.nodes.length [] :: r.2.2)
  | g, ids, .seg i j c :: cs =>
    let a := ids.getD i 0
    let b := ids.getD j 0
    if g.edges.any fun e => (e.src == a && e.dst == b) || (e.src == b && e.dst == a) then
      let r := collect g ids cs
      (r.1, r.2.1, .edge [] [] :: r.2.2)
    else
      let r := collect ⟨g.nodes, g.edges ++ [⟨a, b, c, ""⟩]⟩ ids cs
      (r.1, r.2.1, .edge [] [g.edges.length] :: r.2.2)

/-! ## One call -/

/-- a graph on the sheet whose edges contain no nodes but their ends -/
structure Plain (g : PlanarGraph F32 T U) : Prop where
  wf : WF g
  sheet : OnSheet (g.nodes.map fun n => n.position)
  inj : ∀ (i j : ℕ) a b, g.nodes[i]? = some a → g.nodes[j]? = some b → rpos a.position = rpos b.position → i = j
  noloop : ∀ e ∈ g.edges, e.src ≠ e.dst
  free : ∀ e ∈ g.edges, ∀ a b, g.nodes[e.src]? = some a → g.nodes[e.dst]? = some b → ∀ n ∈ g.nodes,
    OnSegR (rpos a.position) (rpos b.position) (rpos n.position) → rpos n.position = rpos a.position ∨ rpos n.position = rpos b.position

theorem OnSheet.pair {vs : List (Vec2 F32)} (h : OnSheet vs) {v w : Vec2 F32} (hv : v ∈ vs) (hw : w ∈ vs) {x y x' y' : ℤ} (h1 : At v x y)
    (h2 : At w x' y') : |x - x'| ≤ 40 ∧ |y - y'| ≤ 40 := by
  have := h.2 v hv w hw
  rw [rpos_at h1, rpos_at h2] at this
  simp only at this
  exact ⟨by exact_mod_cast this.1, by exact_mod_cast this.2⟩

theorem OnSheet.mono {vs ws : List (Vec2 F32)} (h : OnSheet vs) (hs : ∀ w ∈ ws, w ∈ vs) : OnSheet ws :=
  ⟨fun v hv => h.1 v (hs v hv), fun v hv w hw => h.2 v (hs v hv) w (hs w hw)⟩

theorem whole_grid {v : Vec2 F32} {x y : ℤ} (h : At v x y) : OnGrid 23 v :=
  ⟨⟨h.1.1, x * 2 ^ 23, by rw [h.1.2]; push_cast; norm_num⟩, ⟨h.2.1, y * 2 ^ 23, by rw [h.2.2]; push_cast; norm_num⟩⟩

theorem OnSheet.grid {vs : List (Vec2 F32)} (h : OnSheet vs) {v : Vec2 F32} (hv : v ∈ vs) : OnGrid 23 v := by
  obtain ⟨x, y, h, _⟩ := h.1 v hv
  exact whole_grid h

/-- no edge passes a node -/
theorem Plain.off {g : PlanarGraph F32 T U} (hg : Plain g) (id : ℕ) (e : Edge U) (he : e ∈ g.edges) : onTest g.nodes id e = false := by
  unfold onTest
  split
  · rename_i a b p h1 h2 h3
    have ma := List.mem_of_getElem? h1
    have mb := List.mem_of_getElem? h2
    have mp := List.mem_of_getElem? h3
    have pa : a.position ∈ g.nodes.map fun n => n.position := List.mem_map_of_mem ma
    have pb : b.position ∈ g.nodes.map fun n => n.position := List.mem_map_of_mem mb
    have pp : p.position ∈ g.nodes.map fun n => n.position := List.mem_map_of_mem mp
    obtain ⟨x, y, ha, _⟩ := hg.sheet.1 _ pa
    obtain ⟨x', y', hb, _⟩ := hg.sheet.1 _ pb
    obtain ⟨i, j, hp, _⟩ := hg.sheet.1 _ pp
    obtain ⟨k1, k2⟩ := hg.sheet.pair pb pa hb ha
    obtain ⟨k3, k4⟩ := hg.sheet.pair pp pa hp ha
    exact C127_off ha hb hp k1 k2 (k3.trans (by norm_num)) (k4.trans (by norm_num))
      (fun h => hg.noloop e he (hg.inj _ _ _ _ h1 h2 h)) (hg.free e he a b h1 h2 p mp) false
  · rfl

theorem split_none {g : PlanarGraph F32 T U} {id : ℕ} (h : ∀ e ∈ g.edges, onTest g.nodes id e = false) :
    splitAt g id = g ∧ splitChanged g id = [] := by
  have hf : g.edges.filter (onTest g.nodes id) = [] := by
    rw [List.filter_eq_nil_iff]
    intro e he
    rw [h e he]
    simp
  have hz : (g.edges.zipIdx).filter (fun x => onTest g.nodes id x.1) = [] := by
    rw [List.filter_eq_nil_iff]
    rintro ⟨e, k⟩ he
    rw [h e (List.fst_mem_of_mem_zipIdx he)]
    simp
  unfold splitAt splitChanged
  rw [hf, hz]
  constructor
  · have : g.edges.map (fun e => if onTest g.nodes id e then nearHalf id e else e) = g.edges := by
      conv_rhs => rw [← List.map_id g.edges]
      exact List.map_congr_left fun e he => by rw [h e he]; rfl
    rw [this]
    simp
  · rfl

/-- a position that is taken -/
theorem Plain.taken {g : PlanarGraph F32 T U} (hg : Plain g) {pos : Vec2 F32} (hp : OnGrid 23 pos) {k : ℕ} {n : Node F32 T}
    (hk : g.nodes[k]? = some n) (h : rpos n.position = rpos pos) :
    (∀ data, g.addNode pos data = .ok (g, (k, []))) ∧ ((nearest g pos).2 <. Scalar.epsilon) = true ∧ (nearest g pos).1 = k := by
  have hgrid : ∀ n ∈ g.nodes, OnGrid 23 n.position := fun n hn => hg.sheet.grid (List.mem_map_of_mem hn)
  have h1 : ∀ data, g.addNode pos data = .ok (g, (k, [])) := fun data =>
    (C125_add_node g hg.wf pos data hgrid hp).1 k n hk h (fun j m hj hm hc => absurd (hg.inj j k m n hm hk (hc.trans h.symm)) (by omega))
  refine ⟨h1, ?_⟩
  have h2 := addNode_ok g hg.wf pos n.data
  rw [h1] at h2
  by_cases hc : ((nearest g pos).2 <. Scalar.epsilon) = true
  · rw [if_pos hc] at h2
    refine ⟨hc, ?_⟩
    have := (Prod.mk.inj (Except.ok.inj h2)).2
    exact (Prod.mk.inj this).1.symm
  · have h3 := (Prod.mk.inj (Except.ok.inj h2)).1
    unfold addNodeG at h3
    rw [if_neg hc] at h3
    have := congrArg (fun g : PlanarGraph F32 T U => g.nodes.length) h3
    simp [splitAt, pushNode] at this

/-- **C127, `add_node`.** At a free position off the edges, the node is appended and nothing else changes. -/
theorem C127_add_node {g : PlanarGraph F32 T U} (hg : Plain g) (pos : Vec2 F32) (data : T)
    (hs : OnSheet (pos :: g.nodes.map fun n => n.position)) (hnew : ∀ n ∈ g.nodes, rpos n.position ≠ rpos pos)
    (hoff : ∀ e ∈ g.edges, ∀ a b, g.nodes[e.src]? = some a → g.nodes[e.dst]? = some b →
      ¬ OnSegR (rpos a.position) (rpos b.position) (rpos pos)) :
    g.addNode pos data = .ok (⟨g.nodes ++ [⟨pos, data, ""⟩], g.edges⟩, (g.nodes.length, [])) ∧
      Plain (⟨g.nodes ++ [⟨pos, data, ""⟩], g.edges⟩ : PlanarGraph F32 T U) := by
  have hP : Plain (pushNode g pos data) := by
    have old : ∀ {i : ℕ} {a : Node F32 T}, i < g.nodes.length → (g.nodes ++ [(⟨pos, data, defaultLabel⟩ : Node F32 T)])[i]? = some a →
        g.nodes[i]? = some a := by
      intro i a hi h
      rwa [List.getElem?_append_left hi] at h
    refine ⟨hg.wf.pushNode pos data, ?_, ?_, hg.noloop, ?_⟩
    · refine hs.mono ?_
      intro w hw
      simp only [pushNode, List.map_append, List.map_cons, List.map_nil, List.mem_append, List.mem_singleton] at hw
      rw [List.mem_cons]
      exact hw.symm
    · intro i j a b hi hj hab
      simp only [pushNode] at hi hj
      have li := (List.getElem?_eq_some_iff.1 hi).1
      have lj := (List.getElem?_eq_some_iff.1 hj).1
      simp only [List.length_append, List.length_singleton] at li lj
      rcases Nat.lt_or_ge i g.nodes.length with h1 | h1 <;> rcases Nat.lt_or_ge j g.nodes.length with h2 | h2
      · exact hg.inj i j a b (old h1 hi) (old h2 hj) hab
      · obtain rfl : j = g.nodes.length := by omega
        rw [List.getElem?_concat_length] at hj
        cases hj
        exact absurd hab (hnew a (List.mem_of_getElem? (old h1 hi)))
      · obtain rfl : i = g.nodes.length := by omega
        rw [List.getElem?_concat_length] at hi
        cases hi
        exact absurd hab.symm (hnew b (List.mem_of_getElem? (old h2 hj)))
      · omega
    · intro e he a b ha hb n hn hon
      obtain ⟨w1, w2⟩ := hg.wf e he
      have ha := old w1 ha
      have hb := old w2 hb
      simp only [pushNode, List.mem_append, List.mem_singleton] at hn
      rcases hn with hn | rfl
      · exact hg.free e he a b ha hb n hn hon
      · exact absurd hon (hoff e he a b ha hb)
  refine ⟨?_, hP⟩
  have hgrid : ∀ n ∈ g.nodes, OnGrid 23 n.position := fun n hn => hs.grid (List.mem_cons_of_mem _ (List.mem_map_of_mem hn))
  obtain ⟨g', ch, h1, h2⟩ := (C125_add_node g hg.wf pos data hgrid (hs.grid (List.mem_cons_self ..))).2 hnew
  have h3 := addNode_ok g hg.wf pos data
  obtain ⟨e1, e2⟩ := split_none (g := pushNode g pos data) (id := g.nodes.length) (fun e he => hP.off _ e he)
  by_cases hc : ((nearest g pos).2 <. Scalar.epsilon) = true
  · rw [h1] at h3
    have := (Prod.mk.inj (Except.ok.inj h3)).1
    unfold addNodeG at this
    rw [if_pos hc] at this
    rw [this] at h2
    simp at h2
  · rw [h3]
    unfold addNodeG
    rw [if_neg hc, if_neg hc, e1, e2]
    rfl

/-- **C127, `add_edge`.** A segment between two nodes that contains no others and meets the edges only in common ends is appended and
nothing else changes, unless the two are joined already; then nothing changes at all. -/
theorem C127_add_edge [Inhabited T] {g : PlanarGraph F32 T U} (hg : Plain g) (s d : ℕ) (x : U) (p q : Node F32 T)
    (hs : g.nodes[s]? = some p) (hd : g.nodes[d]? = some q) (hsd : s ≠ d)
    (hfree : ∀ n ∈ g.nodes, OnSegR (rpos p.position) (rpos q.position) (rpos n.position) →
      rpos n.position = rpos p.position ∨ rpos n.position = rpos q.position)
    (hmeet : ∀ e ∈ g.edges, ((e.src = s ∧ e.dst = d) ∨ (e.src = d ∧ e.dst = s)) ∨
      ∀ a b, g.nodes[e.src]? = some a → g.nodes[e.dst]? = some b → ∀ y, OnSegR (rpos a.position) (rpos b.position) y →
        OnSegR (rpos p.position) (rpos q.position) y →
        (y = rpos a.position ∨ y = rpos b.position) ∧ (y = rpos p.position ∨ y = rpos q.position)) :
    ((∃ e ∈ g.edges, (e.src = s ∧ e.dst = d) ∨ (e.src = d ∧ e.dst = s)) → g.addEdge s d x = .ok (g, .ok ([], []))) ∧
    ((∀ e ∈ g.edges, ¬ ((e.src = s ∧ e.dst = d) ∨ (e.src = d ∧ e.dst = s))) →
      g.addEdge s d x = .ok (⟨g.nodes, g.edges ++ [⟨s, d, x, ""⟩]⟩, .ok ([], [g.edges.length])) ∧
      Plain (⟨g.nodes, g.edges ++ [⟨s, d, x, ""⟩]⟩ : PlanarGraph F32 T U)) := by
  have ls := (List.getElem?_eq_some_iff.1 hs).1
  have ld := (List.getElem?_eq_some_iff.1 hd).1
  constructor
  · rintro ⟨e, he, hc⟩
    have : g.hasEdgeBetweenNodes s d = true := by
      rw [hasEdge_iff]
      exact ⟨e, he, hc⟩
    unfold addEdge
    rw [this]
    rfl
  · intro hno
    have hP : Plain (pushEdge g s d x) := by
      refine ⟨hg.wf.pushEdge ls ld x, hg.sheet, hg.inj, ?_, ?_⟩
      · intro e he
        simp only [pushEdge, List.mem_append, List.mem_singleton] at he
        rcases he with he | rfl
        · exact hg.noloop e he
        · exact hsd
      · intro e he a b ha hb
        simp only [pushEdge, List.mem_append, List.mem_singleton] at he
        rcases he with he | rfl
        · exact hg.free e he a b ha hb
        · change g.nodes[s]? = some a at ha
          change g.nodes[d]? = some b at hb
          rw [hs] at ha
          rw [hd] at hb
          cases ha
          cases hb
          exact hfree
    refine ⟨?_, hP⟩
    have memP : ∀ {k : ℕ} {n : Node F32 T}, g.nodes[k]? = some n → n.position ∈ g.nodes.map fun n => n.position :=
      fun h => List.mem_map_of_mem (List.mem_of_getElem? h)
    -- every point found is at one of the two nodes
    have hpts : ∀ z ∈ uniquePointsAmong (meetPoints g ⟨s, d, x, defaultLabel⟩), OnGrid 23 z ∧ ∃ (k : ℕ) (n : Node F32 T), g.nodes[k]? = some n ∧
        rpos n.position = rpos z := by
      intro z hz
      have hz := (C47_unique_partial _).1.subset hz
      unfold meetPoints at hz
      rw [List.mem_filterMap] at hz
      obtain ⟨e, he, hm⟩ := hz
      unfold edgeMeets at hm
      simp only [hs, hd] at hm
      obtain ⟨w1, w2⟩ := hg.wf e he
      have ha := List.getElem?_eq_getElem w1
      have hb := List.getElem?_eq_getElem w2
      simp only [ha, hb] at hm
      obtain ⟨x0, y0, A0, bx0, by0⟩ := hg.sheet.1 _ (memP ha)
      obtain ⟨x1, y1, A1, bx1, by1⟩ := hg.sheet.1 _ (memP hb)
      obtain ⟨x2, y2, A2, _⟩ := hg.sheet.1 _ (memP hs)
      obtain ⟨x3, y3, A3, _⟩ := hg.sheet.1 _ (memP hd)
      obtain ⟨k1, k2⟩ := hg.sheet.pair (memP hb) (memP ha) A1 A0
      obtain ⟨k3, k4⟩ := hg.sheet.pair (memP hd) (memP hs) A3 A2
      obtain ⟨k5, k6⟩ := hg.sheet.pair (memP ha) (memP hs) A0 A2
      have h40 : (40 : ℤ) ≤ 1024 := by norm_num
      obtain ⟨y, o1, o2, q1, q2⟩ := touch_grid A0 A1 A2 A3 (k1.trans h40) (k2.trans h40) (k3.trans h40) (k4.trans h40) (k5.trans h40)
        (k6.trans h40) bx0 by0 bx1 by1 hm
      have hne : rpos g.nodes[e.src].position ≠ rpos g.nodes[e.dst].position := fun h => hg.noloop e he (hg.inj _ _ _ _ ha hb h)
      rcases ((hmeet e he).resolve_left (hno e he) _ _ ha hb y o1 o2).1 with hy | hy
      · have hA := q1 hne hy
        exact ⟨whole_grid hA, e.src, _, ha, by rw [rpos_at hA, rpos_at A0]⟩
      · have hA := q2 hne hy
        exact ⟨whole_grid hA, e.dst, _, hb, by rw [rpos_at hA, rpos_at A1]⟩
    have hins : ∀ (zs : List (Vec2 F32)), (∀ z ∈ zs, OnGrid 23 z ∧ ∃ (k : ℕ) (n : Node F32 T), g.nodes[k]? = some n ∧ rpos n.position = rpos z) →
        ∀ g' cn ce, Inserts (pushEdge g s d x) zs g' cn ce → g' = pushEdge g s d x ∧ cn = [] ∧ ce = [] := by
      intro zs
      induction zs with
      | nil =>
        intro _ g' cn ce h
        cases h
        exact ⟨rfl, rfl, rfl⟩
      | cons z zs ih =>
        intro hz g' cn ce h
        obtain ⟨gz, k, n, hk, hn⟩ := hz z (List.mem_cons_self ..)
        obtain ⟨_, t1, t2⟩ := hP.taken gz (k := k) hk hn
        obtain ⟨e1, e2⟩ := split_none (g := pushEdge g s d x) (id := (nearest (pushEdge g s d x) z).1) (fun e he => hP.off _ e he)
        cases h with
        | cons _ _ _ _ cn ce hi =>
          have i1 : insertPt (pushEdge g s d x) z = pushEdge g s d x := by
            unfold insertPt
            rw [if_pos t1, e1]
          have i2 : insertNodes (pushEdge g s d x) z = [] := by
            unfold insertNodes
            rw [if_pos t1]
          have i3 : insertChanged (pushEdge g s d x) z = [] := by
            unfold insertChanged
            rw [if_pos t1, e2]
          rw [i1] at hi
          obtain ⟨r1, r2, r3⟩ := ih (fun z hz' => hz z (List.mem_cons_of_mem _ hz')) _ _ _ hi
          exact ⟨r1, by rw [i2, r2]; rfl, by rw [i3, r3]; rfl⟩
    have hno' : g.hasEdgeBetweenNodes s d = false := by
      rw [← Bool.not_eq_true, hasEdge_iff]
      rintro ⟨e, he, hc⟩
      exact hno e he hc
    rcases addEdge_ok g hg.wf s d x with ⟨h', _⟩ | ⟨_, h', _⟩ | ⟨_, _, _, g1, cn, ce, hi, h'⟩
    · rw [hno'] at h'; cases h'
    · exact absurd ⟨ls, ld⟩ h'
    · obtain ⟨rfl, rfl, rfl⟩ := hins _ hpts _ _ _ hi
      rw [h']
      simp [pushEdge, defaultLabel]

/-! ## All calls -/

theorem same_place {v w : Vec2 F32} (hv : OnGrid 23 v) (hw : OnGrid 23 w) :
    ((v.x =. w.x) && (v.y =. w.y)) = true ↔ rpos v = rpos w := by
  rw [Bool.and_eq_true, Prod.ext_iff, rpos_eq, rpos_eq]
  exact and_congr (eq_fin hv.1.1 hw.1.1) (eq_fin hv.2.1 hw.2.1)

theorem session_plain [Inhabited T] {vs : List (Vec2 F32)} {S : List (Stroke U)} (hsh : OnSheet vs) (hD : PlaneDrawing (vs.map rpos) S)
    (cs : List (Call F32 T U)) :
    ∀ (g : PlanarGraph F32 T U) (ids : List ℕ) (ps : List (ℝ × ℝ)), Plain g → (∀ n ∈ g.nodes, n.position ∈ vs) → ids.length = ps.length →
      (∀ (k a : ℕ), ids[k]? = some a → ∃ n, g.nodes[a]? = some n ∧ ps[k]? = some (rpos n.position)) →
      (∀ e ∈ g.edges, ∃ s ∈ S, ∃ a b, g.nodes[e.src]? = some a ∧ g.nodes[e.dst]? = some b ∧ rpos a.position = s.a ∧
        rpos b.position = s.b) →
      (∀ v ∈ spots cs, v ∈ vs) → Valid ps.length (cs.map Call.req) → (∀ s ∈ strokes ps (cs.map Call.req), s ∈ S) →
      session g ids cs = .ok (collect g ids cs) := by
  induction cs with
  | nil => intros; rfl
  | cons r cs ih =>
    intro g ids ps hg hn hl hid hed hv hval hst
    cases r with
    | point x t =>
      have hx : x ∈ vs := hv x (by simp [spots])
      have hxg := hsh.grid hx
      have ng : ∀ n ∈ g.nodes, OnGrid 23 n.position := fun n h => hsh.grid (hn n h)
      have hv' : ∀ v ∈ spots cs, v ∈ vs := fun v h => hv v (by simp [spots, h])
      have hval' : ∀ y, Valid (ps ++ [y]).length (cs.map Call.req) := by
        intro y
        simp only [List.map_cons, Call.req, Valid] at hval
        simpa using hval
      have hst' : ∀ s ∈ strokes (ps ++ [rpos x]) (cs.map Call.req), s ∈ S := fun s h => hst s (by simpa [Call.req, strokes] using h)
      cases hf : g.nodes.findIdx? fun n => (n.position.x =. x.x) && (n.position.y =. x.y) with
      | some i =>
        obtain ⟨hi, h1, _⟩ := List.findIdx?_eq_some_iff_getElem.1 hf
        have gi := List.getElem?_eq_getElem hi
        have heq := (same_place (ng _ (List.getElem_mem hi)) hxg).1 h1
        have ha := (hg.taken hxg gi heq).1 t
        have := ih g (ids ++ [i]) (ps ++ [rpos x]) hg hn (by simp [hl]) ?_ hed hv' (hval' _) hst'
        · simp only [session, ha, this, collect, hf, bind, Except.bind, pure, Except.pure]
        · intro k a hk
          rcases Nat.lt_or_ge k ids.length with h | h
          · rw [List.getElem?_append_left h] at hk
            rw [List.getElem?_append_left (by omega)]
            exact hid k a hk
          · have lk := (List.getElem?_eq_some_iff.1 hk).1
            rw [List.length_append, List.length_singleton] at lk
            obtain rfl : k = ids.length := by omega
            rw [List.getElem?_concat_length] at hk
            cases hk
            refine ⟨_, gi, ?_⟩
            rw [hl, List.getElem?_concat_length, heq]
      | none =>
        rw [List.findIdx?_eq_none_iff] at hf
        have hnew : ∀ n ∈ g.nodes, rpos n.position ≠ rpos x := by
          intro n h hc
          have := (same_place (ng n h) hxg).2 hc
          rw [hf n h] at this
          cases this
        obtain ⟨ha, hP⟩ := C127_add_node hg x t (hsh.mono (by
          intro w hw
          rw [List.mem_cons, List.mem_map] at hw
          rcases hw with rfl | ⟨n, h, rfl⟩
          · exact hx
          · exact hn n h)) hnew (by
          intro e he a b e1 e2 hon
          obtain ⟨s, hs, a', b', e3, e4, e5, e6⟩ := hed e he
          rw [e1] at e3
          rw [e2] at e4
          cases e3
          cases e4
          rw [e5, e6] at hon
          rcases hD.free s hs _ (List.mem_map_of_mem hx) hon with h | h
          · exact hnew a (List.mem_of_getElem? e1) (by rw [e5, h])
          · exact hnew b (List.mem_of_getElem? e2) (by rw [e6, h]))
        have up : ∀ {k : ℕ} {n : Node F32 T}, g.nodes[k]? = some n → (g.nodes ++ [(⟨x, t, ""⟩ : Node F32 T)])[k]? = some n := by
          intro k n h
          rwa [List.getElem?_append_left (List.getElem?_eq_some_iff.1 h).1]
        have := ih ⟨g.nodes ++ [⟨x, t, ""⟩], g.edges⟩ (ids ++ [g.nodes.length]) (ps ++ [rpos x]) hP ?_ (by simp [hl]) ?_ ?_ hv' (hval' _) hst'
        · have hf' : (g.nodes.findIdx? fun n => (n.position.x =. x.x) && (n.position.y =. x.y)) = none := by
            rw [List.findIdx?_eq_none_iff]; exact hf
          simp only [session, ha, this, collect, hf', bind, Except.bind, pure, Except.pure]
        · intro n h
          rw [List.mem_append, List.mem_singleton] at h
          rcases h with h | rfl
          · exact hn n h
          · exact hx
        · intro k a hk
          rcases Nat.lt_or_ge k ids.length with h | h
          · rw [List.getElem?_append_left h] at hk
            obtain ⟨n, h1, h2⟩ := hid k a hk
            refine ⟨n, up h1, ?_⟩
            rwa [List.getElem?_append_left (by omega)]
          · have lk := (List.getElem?_eq_some_iff.1 hk).1
            rw [List.length_append, List.length_singleton] at lk
            obtain rfl : k = ids.length := by omega
            rw [List.getElem?_concat_length] at hk
            cases hk
            refine ⟨_, List.getElem?_concat_length, ?_⟩
            rw [hl, List.getElem?_concat_length]
        · intro e he
          obtain ⟨s, hs, a, b, e3, e4, e5, e6⟩ := hed e he
          exact ⟨s, hs, a, b, up e3, up e4, e5, e6⟩
    | seg i j c =>
      obtain ⟨hi, hj, _, hval'⟩ := hval
      have gi := List.getElem?_eq_getElem (show i < ids.length by omega)
      have gj := List.getElem?_eq_getElem (show j < ids.length by omega)
      obtain ⟨p, p1, p2⟩ := hid _ _ gi
      obtain ⟨q, q1, q2⟩ := hid _ _ gj
      have hs0 : (⟨rpos p.position, rpos q.position, c⟩ : Stroke U) ∈ S := by
        apply hst
        simp only [List.map_cons, Call.req, strokes, List.getD_eq_getElem?_getD, p2, q2, Option.getD_some]
        exact List.mem_cons_self ..
      have hst' : ∀ s ∈ strokes ps (cs.map Call.req), s ∈ S := fun s h => hst s (by
        simp only [List.map_cons, Call.req, strokes]
        exact List.mem_cons_of_mem _ h)
      have hv' : ∀ v ∈ spots cs, v ∈ vs := fun v h => hv v (by simpa [spots] using h)
      have hab : ids[i] ≠ ids[j] := by
        intro h
        rw [h, q1] at p1
        cases p1
        exact hD.proper _ hs0 rfl
      have di : ids.getD i 0 = ids[i] := by rw [List.getD_eq_getElem?_getD, gi]; rfl
      have dj : ids.getD j 0 = ids[j] := by rw [List.getD_eq_getElem?_getD, gj]; rfl
      obtain ⟨k1, k2⟩ := C127_add_edge hg ids[i] ids[j] c p q p1 q1 hab
        (fun n h hon => hD.free _ hs0 _ (List.mem_map_of_mem (hn n h)) hon) (by
          intro e he
          obtain ⟨s, hs, a, b, e3, e4, e5, e6⟩ := hed e he
          rcases hD.apart s hs _ hs0 with (⟨h1, h2⟩ | ⟨h1, h2⟩) | h
          · exact Or.inl (Or.inl ⟨hg.inj _ _ _ _ e3 p1 (e5.trans h1), hg.inj _ _ _ _ e4 q1 (e6.trans h2)⟩)
          · exact Or.inl (Or.inr ⟨hg.inj _ _ _ _ e3 q1 (e5.trans h1), hg.inj _ _ _ _ e4 p1 (e6.trans h2)⟩)
          · refine Or.inr fun a' b' f1 f2 y o1 o2 => ?_
            rw [e3] at f1
            rw [e4] at f2
            cases f1
            cases f2
            rw [e5, e6] at o1 ⊢
            exact h y o1 o2)
      have hany : (g.edges.any fun e => (e.src == ids[i] && e.dst == ids[j]) || (e.src == ids[j] && e.dst == ids[i])) = true ↔
          ∃ e ∈ g.edges, (e.src = ids[i] ∧ e.dst = ids[j]) ∨ (e.src = ids[j] ∧ e.dst = ids[i]) := by
        simp
      by_cases hc : (g.edges.any fun e => (e.src == ids[i] && e.dst == ids[j]) || (e.src == ids[j] && e.dst == ids[i])) = true
      · have ha := k1 (hany.1 hc)
        have := ih g ids ps hg hn hl hid hed hv' hval' hst'
        simp only [session, gi, gj, ha, this, collect, di, dj, hc, ↓reduceIte, bind, Except.bind, pure, Except.pure]
      · obtain ⟨ha, hP⟩ := k2 (fun e he h => hc (hany.2 ⟨e, he, h⟩))
        have := ih ⟨g.nodes, g.edges ++ [⟨ids[i], ids[j], c, ""⟩]⟩ ids ps hP hn hl hid ?_ hv' hval' hst'
        · simp only [session, gi, gj, ha, this, collect, di, dj, hc, Bool.false_eq_true, ↓reduceIte, bind, Except.bind, pure, Except.pure]
        · intro e he
          rw [List.mem_append, List.mem_singleton] at he
          rcases he with he | rfl
          · exact hed e he
          · exact ⟨_, hs0, p, q, p1, q1, rfl, rfl⟩

/-- **C127.** For all calls with whole coordinates (of a size of at most `2^22`) in a square of side 40 that ask for a plane drawing, in any
order: the f32 client never panics, and the graph, the indices and the replies are those of the reference that does no geometry. -/
theorem C127_session [Inhabited T] (cs : List (Call F32 T U)) (hsh : OnSheet (spots cs)) (hv : Valid 0 (cs.map Call.req))
    (hD : PlaneDrawing ((spots cs).map rpos) (strokes [] (cs.map Call.req))) :
    session PlanarGraph.new [] cs = .ok (collect PlanarGraph.new [] cs) := by
  refine session_plain hsh hD cs PlanarGraph.new [] [] ⟨?_, ⟨?_, ?_⟩, ?_, ?_, ?_⟩ ?_ rfl ?_ ?_ (fun _ h => h) hv (fun _ h => h) <;>
    simp [PlanarGraph.new, WF]

/-- the points `(x, y)`, as f32 -/
def pos (x y : ℤ) : Vec2 F32 := ⟨F32.lit x, F32.lit y⟩

theorem pos_at {x y : ℤ} (hx : x.natAbs ≤ 2 ^ 24) (hy : y.natAbs ≤ 2 ^ 24) : At (pos x y) x y := ⟨whole_lit x hx, whole_lit y hy⟩

/-- a triangle with a diagonal, drawn with a repeated point and a repeated segment -/
def kite : List (Call F32 ℕ ℕ) :=
  [.point (pos 0 0) 1, .point (pos 37 11) 2, .seg 0 1 10, .point (pos 12 40) 3, .point (pos 37 11) 9, .seg 3 2 20, .seg 1 0 90,
    .point (pos 20 17) 4, .seg 4 0 30, .seg 2 0 40]

theorem kite_drawing : OnSheet (spots kite) ∧ Valid 0 (kite.map Call.req) ∧
    PlaneDrawing ((spots kite).map rpos) (strokes [] (kite.map Call.req)) := by
  have e0 : At (pos 0 0) 0 0 := pos_at (by norm_num) (by norm_num)
  have e1 : At (pos 37 11) 37 11 := pos_at (by norm_num) (by norm_num)
  have e2 : At (pos 12 40) 12 40 := pos_at (by norm_num) (by norm_num)
  have e3 : At (pos 20 17) 20 17 := pos_at (by norm_num) (by norm_num)
  have r0 : rpos (pos 0 0) = (0, 0) := by rw [rpos_at e0]; norm_num
  have r1 : rpos (pos 37 11) = (37, 11) := by rw [rpos_at e1]; norm_num
  have r2 : rpos (pos 12 40) = (12, 40) := by rw [rpos_at e2]; norm_num
  have r3 : rpos (pos 20 17) = (20, 17) := by rw [rpos_at e3]; norm_num
  refine ⟨⟨?_, ?_⟩, ?_, ?_, ?_, ?_⟩
  · intro v hv
    simp only [kite, spots, List.mem_cons, List.not_mem_nil, or_false] at hv
    rcases hv with rfl | rfl | rfl | rfl | rfl
    exacts [⟨_, _, e0, by norm_num, by norm_num⟩, ⟨_, _, e1, by norm_num, by norm_num⟩, ⟨_, _, e2, by norm_num, by norm_num⟩,
      ⟨_, _, e1, by norm_num, by norm_num⟩, ⟨_, _, e3, by norm_num, by norm_num⟩]
  · intro v hv w hw
    simp only [kite, spots, List.mem_cons, List.not_mem_nil, or_false] at hv hw
    rcases hv with rfl | rfl | rfl | rfl | rfl <;> rcases hw with rfl | rfl | rfl | rfl | rfl <;>
      simp only [r0, r1, r2, r3] <;> norm_num [abs_le]
  · simp [kite, Call.req, Valid]
  · intro s hs
    simp only [kite, List.map_cons, List.map_nil, Call.req, strokes, r0, r1, r2, r3, List.nil_append, List.cons_append, List.mem_cons,
      List.not_mem_nil, or_false, List.getD_cons_zero, List.getD_cons_succ] at hs
    rcases hs with rfl | rfl | rfl | rfl | rfl <;> norm_num
  · intro s hs x hx
    simp only [kite, List.map_cons, List.map_nil, Call.req, strokes, r0, r1, r2, r3, List.nil_append, List.cons_append, List.mem_cons,
      List.not_mem_nil, or_false, List.getD_cons_zero, List.getD_cons_succ] at hs
    simp only [kite, spots, List.map_cons, List.map_nil, r0, r1, r2, r3, List.mem_cons, List.not_mem_nil, or_false] at hx
    rcases hs with rfl | rfl | rfl | rfl | rfl <;> rcases hx with rfl | rfl | rfl | rfl | rfl <;>
      first
        | (intro _; left; rfl)
        | (intro _; right; rfl)
        | (rintro ⟨t, t0, t1, ht⟩; exfalso; simp only [Prod.mk.injEq] at ht; obtain ⟨h1, h2⟩ := ht; linarith)
  · intro s hs s' hs'
    simp only [kite, List.map_cons, List.map_nil, Call.req, strokes, r0, r1, r2, r3, List.nil_append, List.cons_append, List.mem_cons,
      List.not_mem_nil, or_false, List.getD_cons_zero, List.getD_cons_succ] at hs hs'
    have ends : ∀ {a b c d : ℝ × ℝ} {w w' : ℕ}, (∀ t u : ℝ, 0 ≤ t → t ≤ 1 → 0 ≤ u → u ≤ 1 → a.1 + t * (b.1 - a.1) = c.1 + u * (d.1 - c.1) →
        a.2 + t * (b.2 - a.2) = c.2 + u * (d.2 - c.2) → (t = 0 ∨ t = 1) ∧ (u = 0 ∨ u = 1)) →
        SameEnds (⟨a, b, w⟩ : Stroke ℕ) ⟨c, d, w'⟩ ∨ ∀ y, (⟨a, b, w⟩ : Stroke ℕ).On y → (⟨c, d, w'⟩ : Stroke ℕ).On y →
          (y = a ∨ y = b) ∧ (y = c ∨ y = d) := by
      intro a b c d w w' h
      right
      rintro y ⟨t, t0, t1, rfl⟩ ⟨u, u0, u1, hu⟩
      obtain ⟨h1, h2⟩ := Prod.mk.inj hu
      obtain ⟨ht, hu'⟩ := h t u t0 t1 u0 u1 h1 h2
      constructor
      · rcases ht with rfl | rfl
        · left; ext <;> simp
        · right; ext <;> simp
      · rw [hu]
        rcases hu' with rfl | rfl
        · left; ext <;> simp
        · right; ext <;> simp
    rcases hs with rfl | rfl | rfl | rfl | rfl <;> rcases hs' with rfl | rfl | rfl | rfl | rfl <;>
      first
        | exact Or.inl (Or.inl ⟨rfl, rfl⟩)
        | exact Or.inl (Or.inr ⟨rfl, rfl⟩)
        | (apply ends
           intro t u t0 t1 u0 u1 h1 h2
           norm_num at h1 h2
           first
             | (exfalso; linarith)
             | exact ⟨Or.inl (by linarith), Or.inl (by linarith)⟩
             | exact ⟨Or.inl (by linarith), Or.inr (by linarith)⟩
             | exact ⟨Or.inr (by linarith), Or.inl (by linarith)⟩
             | exact ⟨Or.inr (by linarith), Or.inr (by linarith)⟩)

/-- the four points and the four segments -/
example : session PlanarGraph.new [] kite = .ok (⟨[⟨pos 0 0, 1, ""⟩, ⟨pos 37 11, 2, ""⟩, ⟨pos 12 40, 3, ""⟩, ⟨pos 20 17, 4, ""⟩],
    [⟨0, 1, 10, ""⟩, ⟨1, 2, 20, ""⟩, ⟨3, 0, 30, ""⟩, ⟨2, 0, 40, ""⟩]⟩, [0, 1, 2, 1, 3], [.node 0 [], .node 1 [], .edge [] [0], .node 2 [],
    .node 1 [], .edge [] [1], .edge [] [], .node 3 [], .edge [] [2], .edge [] [3]]) := by
  rw [C127_session kite kite_drawing.1 kite_drawing.2.1 kite_drawing.2.2]
  decide +kernel

/-- **C127 is close to sharp.** At a distance of 49: the point (15, 16) is not on the segment from (0, 0) to (46, 49), but `add_node` splits
the segment there. -/
theorem C127_sharp : (session PlanarGraph.new []
    ([.point (pos 0 0) (), .point (pos 46 49) (), .seg 0 1 (), .point (pos 15 16) ()] : List (Call F32 Unit Unit))).map
      (fun r => (r.1.edges.map fun e => (e.src, e.dst), r.2.2)) =
    .ok ([(0, 2), (1, 2)], [.node 0 [], .node 1 [], .edge [] [0], .node 2 [0, 1]]) ∧ (15 * 49 - 16 * 46 : ℤ) ≠ 0 := by
  decide +kernel

end Kami.Graph
