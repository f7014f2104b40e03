import Verif.Num.F32Box
import Verif.Graph.Histories
import Verif.Geom.UtilsLists
/-!
# C142: non-finite coordinates in `f32`, and the box that the drawing does not leave

A `NaN` or infinite coordinate never takes part in a split, a drawing that lies in a square of side `2^(k+1)` about the origin
stays in it, and only coordinates equal to `f32::MAX` can give a new node at infinity.
-/

set_option autoImplicit false

namespace Kami.Graph

open Kami Kami.F32
open scoped Kami
open PlanarGraph

/-- both coordinates are finite numbers -/
def FinPt (v : Vec2 F32) : Prop := IsFin v.x ∧ IsFin v.y

/-- no coordinate is a `NaN` -/
def NanFree (v : Vec2 F32) : Prop := v.x ≠ F32.nan ∧ v.y ≠ F32.nan

/-- both coordinates are finite and at most `B` in size -/
def InSquare (B : ℝ) (v : Vec2 F32) : Prop := (IsFin v.x ∧ |toReal v.x| ≤ B) ∧ (IsFin v.y ∧ |toReal v.y| ≤ B)

theorem one_fin : IsFin (ofBits 0x3f800000) ∧ toReal (ofBits 0x3f800000) = 1 := by
  refine ⟨⟨false, ⟨0x3f800000, by decide⟩, rfl⟩, ?_⟩
  show toReal (fin false ⟨0x3f800000, by decide⟩) = 1
  rw [toReal_fin]
  have : mag 0x3f800000 = 2 ^ 149 := by decide +kernel
  simp only [this]
  rw [Nat.cast_pow, Nat.cast_ofNat]
  simp

/-! ### the functions of utils.rs -/

theorem distance_fin {a b : Vec2 F32} (h : IsFin (distance a b)) : FinPt a ∧ FinPt b := by
  have h1 := isFin_of_add (isFin_of_sqrt h)
  have h2 := isFin_of_sub (isFin_of_mul h1.1).1
  have h3 := isFin_of_sub (isFin_of_mul h1.2).1
  exact ⟨⟨h2.2, h3.2⟩, ⟨h2.1, h3.1⟩⟩

theorem distance_lt {a b : Vec2 F32} {y : F32} (hy : IsFin y) (h : F32.lt (distance a b) y = true) : FinPt a ∧ FinPt b :=
  distance_fin (isFin_of_lt sqrt_ne_neg_inf hy h)

theorem onSegment_fin {a b p : Vec2 F32} {i : Bool} (h : Utils.isOnLineSegment a b p i = true) : FinPt a ∧ FinPt b ∧ FinPt p := by
  unfold Utils.isOnLineSegment at h
  simp only [Bool.and_eq_true] at h
  have h1 := isFin_of_lt abs_ne_neg_inf (y := ofBits 0x34000000) ⟨_, _, rfl⟩ h.1.1
  have h2 := isFin_of_sub (isFin_of_abs h1)
  have h3 := distance_fin h2.2
  have h4 := distance_fin (isFin_of_add h2.1).1
  exact ⟨h3.1, h3.2, h4.2⟩

theorem cross_fin {a b c d q : Vec2 F32} (h : Utils.calculateLineSegmentIntersection a b c d = some q) :
    (FinPt a ∧ FinPt b ∧ FinPt c ∧ FinPt d) ∧ ∃ t, IsFin t ∧ 0 ≤ toReal t ∧ toReal t ≤ 1 ∧ IsFin (b.x - a.x) ∧
      IsFin (b.y - a.y) ∧ q = ⟨a.x + t * (b.x - a.x), a.y + t * (b.y - a.y)⟩ := by
  unfold Utils.calculateLineSegmentIntersection at h
  simp only at h
  split at h
  · rename_i hc
    simp only [Bool.and_eq_true] at hc
    obtain ⟨⟨⟨s0, s1⟩, t0⟩, t1⟩ := hc
    have hs := isFin_of_le_le zero_isFin one_fin.1 s0 s1
    have ht := isFin_of_le_le zero_isFin one_fin.1 t0 t1
    have hs1 := isFin_of_add (isFin_of_div hs)
    have ht1 := isFin_of_sub (isFin_of_div ht)
    have m1 := isFin_of_mul hs1.1
    have m2 := isFin_of_mul hs1.2
    have m3 := isFin_of_mul ht1.1
    have m4 := isFin_of_mul ht1.2
    have dy0 := isFin_of_neg m1.1
    have ab1 := isFin_of_sub dy0
    have ab2 := isFin_of_sub m2.1
    have cd1 := isFin_of_sub m3.1
    have cd2 := isFin_of_sub m4.1
    refine ⟨⟨⟨ab2.2, ab1.2⟩, ⟨ab2.1, ab1.1⟩, ⟨cd1.2, cd2.2⟩, ⟨cd1.1, cd2.1⟩⟩, _, ht, ?_, ?_, m2.1, dy0, (Option.some.inj h).symm⟩
    · have := (le_fin zero_isFin ht).1 t0
      rw [toReal_zero] at this
      exact this
    · have := (le_fin ht one_fin.1).1 t1
      rw [one_fin.2] at this
      exact this
  · cases h

theorem add_ne_nan {x y : F32} (hx : IsFin x) (hy : IsFin y) : x + y ≠ F32.nan := by
  obtain ⟨s, m, rfl⟩ := hx
  obtain ⟨t, n, rfl⟩ := hy
  change F32.add _ _ ≠ _
  unfold F32.add
  simp only
  split
  · intro h; cases h
  · unfold F32.round pack
    split <;> intro h <;> cases h

theorem cross_nanFree {a b c d q : Vec2 F32} (h : Utils.calculateLineSegmentIntersection a b c d = some q) : NanFree q := by
  obtain ⟨⟨ha, _⟩, t, ht, t0, t1, dx, dy, rfl⟩ := cross_fin h
  exact ⟨add_ne_nan ha.1 (mul_between ht dx t0 t1).1, add_ne_nan ha.2 (mul_between ht dy t0 t1).1⟩

theorem box_pow {k : ℤ} (h1 : -126 ≤ k) (h2 : k ≤ 127) :
    ∃ e : ℕ, e < 254 ∧ ∀ x : ℝ, x ≤ 2 ^ k ↔ x * 2 ^ 149 ≤ 2 ^ (e + 23) := by
  refine ⟨(k + 126).toNat, by omega, fun x => ?_⟩
  have : (2 : ℝ) ^ ((k + 126).toNat + 23) = 2 ^ k * 2 ^ 149 := by
    rw [← zpow_natCast, ← zpow_natCast, ← zpow_add₀ (by norm_num)]
    congr 1
    push_cast
    omega
  rw [this, mul_le_mul_iff_left₀ (by positivity)]

theorem cross_box {a b c d q : Vec2 F32} {k : ℤ} (h1 : -126 ≤ k) (h2 : k ≤ 127) (ha : InSquare (2 ^ k) a) (hb : InSquare (2 ^ k) b)
    (h : Utils.calculateLineSegmentIntersection a b c d = some q) : InSquare (2 ^ k) q := by
  obtain ⟨_, t, ht, t0, t1, dx, dy, rfl⟩ := cross_fin h
  obtain ⟨e, he, hx⟩ := box_pow h1 h2
  unfold InSquare at *
  simp only [hx] at *
  exact ⟨lerp_pow he ht t0 t1 dx ha.1.2 hb.1.2, lerp_pow he ht t0 t1 dy ha.2.2 hb.2.2⟩

/-- the largest `f32` but one -/
theorem mag_top : ((mag 0x7f7ffffe : ℕ) : ℝ) = (2 ^ 24 - 2) * 2 ^ 104 * 2 ^ 149 := by
  have : mag 0x7f7ffffe = (2 ^ 24 - 2) * 2 ^ 104 * 2 ^ 149 := by decide +kernel
  rw [this]
  push_cast
  norm_num

theorem cross_top {a b c d q : Vec2 F32} (ha : InSquare ((2 ^ 24 - 2) * 2 ^ 104) a) (hb : InSquare ((2 ^ 24 - 2) * 2 ^ 104) b)
    (h : Utils.calculateLineSegmentIntersection a b c d = some q) : InSquare ((2 ^ 24 - 2) * 2 ^ 104) q := by
  obtain ⟨_, t, ht, t0, t1, dx, dy, rfl⟩ := cross_fin h
  have hx : ∀ x : ℝ, x ≤ (2 ^ 24 - 2) * 2 ^ 104 ↔ x * 2 ^ 149 ≤ mag 0x7f7ffffe := fun x => by
    rw [mag_top, mul_le_mul_iff_left₀ (by positivity)]
  unfold InSquare at *
  simp only [hx] at *
  exact ⟨lerp_top ht t0 t1 dx ha.1.2 hb.1.2, lerp_top ht t0 t1 dy ha.2.2 hb.2.2⟩

/-! ### sets of positions closed under crossings -/

section
variable {F T U : Type}

theorem eraseMarked_mem {α : Type} (m : List Nat) (xs : List α) : ∀ (i : Nat) {x : α}, x ∈ eraseMarked m xs i → x ∈ xs := by
  induction xs with
  | nil => intro i x h; exact h
  | cons y ys ih =>
    intro i x h
    unfold eraseMarked at h
    split at h
    · rcases List.mem_cons.1 h with rfl | h
      · exact List.mem_cons_self ..
      · exact List.mem_cons_of_mem _ (ih _ h)
    · exact List.mem_cons_of_mem _ (ih _ h)

theorem removeNode_sub {p : Profile} {g g' : PlanarGraph F T U} {i : Nat} {r : List Nat × List Nat}
    (h : g.removeNode p i = .ok (g', r)) : ∀ a ∈ g'.nodes, a ∈ g.nodes := by
  unfold removeNode at h
  split at h
  · simp only [bind, Except.bind, pure, Except.pure] at h
    split at h
    · cases h
    split at h
    · cases h
    split at h
    · cases h
    cases h
    exact fun a ha => eraseMarked_mem _ _ _ ha
  · cases h
    exact fun a ha => ha

theorem removeEdge_sub {p : Profile} {g g' : PlanarGraph F T U} {i : Nat} {r : List Nat × List Nat}
    (h : g.removeEdge p i = .ok (g', r)) : ∀ a ∈ g'.nodes, a ∈ g.nodes := by
  unfold removeEdge at h
  split at h
  · simp only [bind, Except.bind, pure, Except.pure] at h
    split at h
    · cases h
    split at h
    · exact removeNode_sub h
    split at h
    · cases h
    split at h
    · exact removeNode_sub h
    split at h
    · split at h
      · cases h
      split at h
      · cases h
      cases h
      exact fun a ha => ha
    · cases h
      exact fun a ha => ha
  · cases h
    exact fun a ha => ha

variable [Scalar F] {P : Vec2 F → Prop}

theorem splitEdgesAtNode_nodes {g g' : PlanarGraph F T U} {id : Nat} {l : List Nat} (h : g.splitEdgesAtNode id = .ok (g', l)) :
    g'.nodes = g.nodes := by
  unfold splitEdgesAtNode at h
  split at h
  · simp only [bind, Except.bind, pure, Except.pure] at h
    split at h
    · cases h
    · cases h; rfl
  · cases h; rfl

theorem addNode_closed {g g' : PlanarGraph F T U} {x : Vec2 F} {t : T} {r : Nat × List Nat}
    (h : g.addNode x t = .ok (g', r)) (hg : ∀ a ∈ g.nodes, P a.position) (hx : P x) : ∀ a ∈ g'.nodes, P a.position := by
  unfold addNode at h
  simp only at h
  split at h
  · cases h; exact hg
  · simp only [bind, Except.bind, pure, Except.pure] at h
    split at h
    · cases h
    · rename_i v hv
      cases h
      have := splitEdgesAtNode_nodes (g' := v.1) (l := v.2) hv
      rw [this]
      intro a ha
      rcases List.mem_append.1 ha with ha | ha
      · exact hg a ha
      · rw [List.mem_singleton.1 ha]
        exact hx

theorem index_mem {α : Type} {xs : List α} {i : Nat} {x : α} (h : index xs i = .ok x) : x ∈ xs :=
  List.mem_of_getElem? (index_eq_ok.1 h)

theorem intersectionLoop_closed {g : PlanarGraph F T U} {id : Nat} (hg : ∀ a ∈ g.nodes, P a.position)
    (hP : ∀ a b c d q, P a → P b → P c → P d → Utils.calculateLineSegmentIntersection a b c d = some q → P q)
    (es : List (Edge U)) : ∀ i xs, g.intersectionLoop id es i = .ok xs → ∀ x ∈ xs, P x := by
  induction es with
  | nil => intro i xs h; cases h; exact fun x hx => by cases hx
  | cons e es ih =>
    intro i xs h
    unfold intersectionLoop at h
    split at h
    · simp only [bind, Except.bind, pure, Except.pure] at h
      split at h
      · cases h
      rename_i a ha
      split at h
      · cases h
      rename_i b hb
      split at h
      · cases h
      split at h
      · cases h
      rename_i c hc
      split at h
      · cases h
      rename_i d hd
      split at h
      · cases h
      rename_i rest hrest
      split at h
      · rename_i q hq
        cases h
        intro x hx
        rcases List.mem_cons.1 hx with rfl | hx
        · exact hP _ _ _ _ _ (hg _ (index_mem ha)) (hg _ (index_mem hb)) (hg _ (index_mem hc)) (hg _ (index_mem hd)) hq
        · exact ih _ _ hrest x hx
      · cases h
        exact ih _ _ hrest
    · exact ih _ _ h

theorem splitAtIntersections_closed [Inhabited T] (xs : List (Vec2 F)) : ∀ {g g' : PlanarGraph F T U} {cn ce : List Nat}
    {r : List Nat × List Nat}, splitAtIntersections xs g cn ce = .ok (g', r) → (∀ a ∈ g.nodes, P a.position) →
    (∀ x ∈ xs, P x) → ∀ a ∈ g'.nodes, P a.position := by
  induction xs with
  | nil => intro g g' cn ce r h hg _; cases h; exact hg
  | cons x xs ih =>
    intro g g' cn ce r h hg hx
    simp only [splitAtIntersections, bind, Except.bind] at h
    split at h
    · cases h
    rename_i v hv
    refine ih h ?_ (fun y hy => hx y (List.mem_cons_of_mem _ hy))
    unfold splitAtIntersection at hv
    simp only [bind, Except.bind, pure, Except.pure] at hv
    split at hv
    · split at hv
      · cases hv
      rename_i w hw
      cases hv
      have := splitEdgesAtNode_nodes (g' := w.1) (l := w.2) hw
      simp only [this]
      exact hg
    · split at hv
      · cases hv
      rename_i w hw
      cases hv
      exact addNode_closed (g' := w.1) (r := w.2) hw hg (hx x (List.mem_cons_self ..))

theorem uniqueLoop_mem (ps as : List (Vec2 F)) : ∀ i x, x ∈ Utils.uniqueLoop ps as i → x ∈ as := by
  induction as with
  | nil => intro i x h; exact h
  | cons a as ih =>
    intro i x h
    unfold Utils.uniqueLoop at h
    split at h
    · rcases List.mem_cons.1 h with rfl | h
      · exact List.mem_cons_self ..
      · exact List.mem_cons_of_mem _ (ih _ _ h)
    · exact List.mem_cons_of_mem _ (ih _ _ h)

theorem addEdge_closed [Inhabited T] {g g' : PlanarGraph F T U} {s d : Nat} {x : U} {r : Except PlanarGraphError (List Nat × List Nat)}
    (h : g.addEdge s d x = .ok (g', r)) (hg : ∀ a ∈ g.nodes, P a.position)
    (hP : ∀ a b c d q, P a → P b → P c → P d → Utils.calculateLineSegmentIntersection a b c d = some q → P q) :
    ∀ a ∈ g'.nodes, P a.position := by
  unfold addEdge at h
  split at h
  · split at h
    · simp only [bind, Except.bind, pure, Except.pure] at h
      split at h
      · cases h
      rename_i v hv
      cases h
      unfold splitEdgesAlongEdge at hv
      simp only [bind, Except.bind] at hv
      split at hv
      · cases hv
      rename_i xs hxs
      refine splitAtIntersections_closed _ (g' := v.1) (r := v.2) hv hg ?_
      intro y hy
      exact intersectionLoop_closed (P := P)
        (g := ⟨g.nodes, g.edges ++ [⟨s, d, x, defaultLabel⟩]⟩) hg hP _ _ _ hxs y (uniqueLoop_mem _ _ _ _ hy)
    · cases h; exact hg
  · cases h; exact hg

/-- a set of positions closed under computed crossings is not left by any history -/
theorem run_closed [Inhabited T] (p : Profile)
    (hP : ∀ a b c d q, P a → P b → P c → P d → Utils.calculateLineSegmentIntersection a b c d = some q → P q)
    (ops : List (Op F T U)) : ∀ {g g' : PlanarGraph F T U}, (∀ x t, Op.addNode x t ∈ ops → P x) →
    (∀ a ∈ g.nodes, P a.position) → g.run p ops = .ok g' → ∀ a ∈ g'.nodes, P a.position := by
  induction ops with
  | nil => intro g g' _ hg h; cases h; exact hg
  | cons op ops ih =>
    intro g g' hx hg h
    simp only [PlanarGraph.run] at h
    cases hs : g.step p op with
    | error e => rw [hs] at h; cases h
    | ok g1 =>
      rw [hs] at h
      refine ih (fun x t ho => hx x t (List.mem_cons_of_mem _ ho)) ?_ h
      rcases step_ok hs with ⟨x, t, r, rfl, h1⟩ | ⟨s, d, x, r, rfl, h1⟩ | ⟨i, r, rfl, h1⟩ | ⟨i, r, rfl, h1⟩
      · exact addNode_closed h1 hg (hx x t (List.mem_cons_self ..))
      · exact addEdge_closed h1 hg hP
      · exact fun a ha => hg a (removeEdge_sub h1 a ha)
      · exact fun a ha => hg a (removeNode_sub h1 a ha)

end

/-! ### the claims -/

variable {T U : Type}

theorem closestLoop_none (ds : List F32) (h : ∀ d ∈ ds, F32.lt d (ofBits 0x7f7fffff) = false) :
    ∀ i, Utils.closestLoop ds i 0 (ofBits 0x7f7fffff) = (0, ofBits 0x7f7fffff) := by
  induction ds with
  | nil => intro i; rfl
  | cons d ds ih =>
    intro i
    have h1 : (d <. ofBits 0x7f7fffff) = false := h d (List.mem_cons_self ..)
    simp only [Utils.closestLoop, h1, Bool.false_eq_true, if_false]
    exact ih (fun d hd => h d (List.mem_cons_of_mem _ hd)) _

theorem nearest_none (g : PlanarGraph F32 T U) {x : Vec2 F32} (hx : ¬ FinPt x) : ((nearest g x).2 <. Scalar.epsilon) = false := by
  have : nearest g x = (0, ofBits 0x7f7fffff) := by
    unfold nearest Utils.findClosestTo
    refine closestLoop_none _ ?_ 0
    intro d hd
    obtain ⟨v, _, rfl⟩ := List.mem_map.1 hd
    rw [← Bool.not_eq_true]
    exact fun h => hx (distance_lt ⟨_, _, rfl⟩ h).1
  rw [this]
  decide +kernel

/-- **C142, computed points.** In `f32`, whenever `calculate_line_segment_intersection` returns a point, all eight coordinates it
was given are finite and the point is free of `NaN`; whenever `is_on_line_segment` says yes, all six coordinates are finite. -/
theorem C142_tests :
    (∀ a b c d q : Vec2 F32, Utils.calculateLineSegmentIntersection a b c d = some q →
      (FinPt a ∧ FinPt b ∧ FinPt c ∧ FinPt d) ∧ NanFree q) ∧
    ∀ (a b p : Vec2 F32) (i : Bool), Utils.isOnLineSegment a b p i = true → FinPt a ∧ FinPt b ∧ FinPt p :=
  ⟨fun _ _ _ _ _ h => ⟨(cross_fin h).1, cross_nanFree h⟩, fun _ _ _ _ h => onSegment_fin h⟩

/-- **C142, nodes.** Adding a node with a `NaN` or an infinite coordinate appends this node and changes nothing else: it is never
merged, not even with a node at the same position, and splits nothing. -/
theorem C142_node (g : PlanarGraph F32 T U) (hwf : WF g) (x : Vec2 F32) (hx : ¬ FinPt x) (t : T) :
    g.addNode x t = .ok (⟨g.nodes ++ [⟨x, t, ""⟩], g.edges⟩, (g.nodes.length, [])) := by
  rw [addNode_ok g hwf]
  unfold addNodeG
  rw [if_neg (by rw [nearest_none g hx]; decide), if_neg (by rw [nearest_none g hx]; decide)]
  have hf : ∀ e : Edge U, onTest (pushNode g x t).nodes g.nodes.length e = false := by
    intro e
    rw [← Bool.not_eq_true]
    unfold onTest
    intro h
    split at h
    · rename_i a b p _ _ hp
      have : p.position = x := by
        simp only [pushNode, List.getElem?_concat_length, Option.some.injEq] at hp
        rw [← hp]
      rw [← this] at hx
      exact hx (onSegment_fin h).2.2
    · cases h
  have hff : (onTest (pushNode g x t).nodes g.nodes.length : Edge U → Bool) = fun _ => false := funext hf
  unfold splitAt splitChanged
  rw [hff]
  simp [pushNode, defaultLabel]

/-- **C142, requested edges.** Asking for an edge between two nodes of which one has a `NaN` or an infinite coordinate appends
exactly this edge (unless the two nodes are joined already) and reports its slot; nothing is split and no node is created. -/
theorem C142_edge [Inhabited T] (g : PlanarGraph F32 T U) (hwf : WF g) (s d : Nat) (x : U) (a b : Node F32 T)
    (ha : g.nodes[s]? = some a) (hb : g.nodes[d]? = some b) (h : ¬ FinPt a.position ∨ ¬ FinPt b.position)
    (hnew : ∀ e ∈ g.edges, ¬ ((e.src = s ∧ e.dst = d) ∨ (e.src = d ∧ e.dst = s))) :
    g.addEdge s d x = .ok (⟨g.nodes, g.edges ++ [⟨s, d, x, ""⟩]⟩, .ok ([], [g.edges.length])) := by
  rcases addEdge_ok g hwf s d x with ⟨hb', h'⟩ | ⟨_, hv, h'⟩ | ⟨hb', hs', hd', g1, cn, ce, hi, h'⟩
  · exfalso
    unfold hasEdgeBetweenNodes at hb'
    obtain ⟨e, he, h2⟩ := List.any_eq_true.1 hb'
    simp only [Bool.or_eq_true, beq_iff_eq, Prod.mk.injEq] at h2
    refine hnew e he ?_
    rcases h2 with ⟨h2, h3⟩ | ⟨h2, h3⟩
    · exact Or.inl ⟨h2.symm, h3.symm⟩
    · exact Or.inr ⟨h2.symm, h3.symm⟩
  · exact absurd ⟨(List.getElem?_eq_some_iff.1 ha).1, (List.getElem?_eq_some_iff.1 hb).1⟩ hv
  · have hm : meetPoints g ⟨s, d, x, defaultLabel⟩ = [] := by
      unfold meetPoints
      rw [List.filterMap_eq_nil_iff]
      intro e he
      unfold edgeMeets
      split
      · rename_i a' b' c' d' _ _ hc hd
        rw [ha] at hc
        rw [hb] at hd
        cases hc
        cases hd
        cases hq : Utils.calculateLineSegmentIntersection a'.position b'.position a.position b.position with
        | none => rfl
        | some q =>
          have := (cross_fin hq).1
          rcases h with h | h
          · exact absurd this.2.2.1 h
          · exact absurd this.2.2.2 h
      · rfl
    rw [hm] at hi
    simp only [Utils.uniquePointsAmong, Utils.uniqueLoop] at hi
    cases hi
    rw [h']
    simp [pushEdge, defaultLabel]

theorem slot_splitAt {g : PlanarGraph F32 T U} {i : Nat} {e : Edge U} (he : g.edges[i]? = some e) {a b : Node F32 T}
    (ha : g.nodes[e.src]? = some a) (hb : g.nodes[e.dst]? = some b) (h : ¬ FinPt a.position ∨ ¬ FinPt b.position) (id : Nat) :
    (splitAt g id).edges[i]? = some e := by
  have ho : onTest g.nodes id e = false := by
    rw [← Bool.not_eq_true]
    unfold onTest
    rw [ha, hb]
    intro h2
    split at h2
    · rename_i a' b' p h3 h4 _
      cases h3
      cases h4
      have := onSegment_fin h2
      rcases h with h | h
      · exact h this.1
      · exact h this.2.1
    · cases h2
  have hi := (List.getElem?_eq_some_iff.1 he).1
  simp only [splitAt]
  rw [List.getElem?_append_left (by simpa using hi), List.getElem?_map, he]
  simp [ho]

theorem slot_pushNode {g : PlanarGraph F32 T U} {v : Nat} {a : Node F32 T} (ha : g.nodes[v]? = some a) (x : Vec2 F32) (t : T) :
    (pushNode g x t).nodes[v]? = some a := by
  simp only [pushNode]
  rw [List.getElem?_append_left (List.getElem?_eq_some_iff.1 ha).1, ha]

theorem slot_inserts [Inhabited T] {g g' : PlanarGraph F32 T U} {xs : List (Vec2 F32)} {cn ce : List Nat}
    (hi : Inserts g xs g' cn ce) : ∀ {i : Nat} {e : Edge U} {a b : Node F32 T}, g.edges[i]? = some e → g.nodes[e.src]? = some a →
    g.nodes[e.dst]? = some b → ¬ FinPt a.position ∨ ¬ FinPt b.position → g'.edges[i]? = some e := by
  induction hi with
  | nil g => intro i e a b he _ _ _; exact he
  | cons g x xs g' cn ce hi ih =>
    intro i e a b he ha hb h
    refine ih (a := a) (b := b) ?_ ?_ ?_ h
    all_goals unfold insertPt; split
    · exact slot_splitAt he ha hb h _
    · exact slot_splitAt (g := pushNode g x default) he (slot_pushNode ha _ _) (slot_pushNode hb _ _) h _
    · exact ha
    · exact slot_pushNode ha _ _
    · exact hb
    · exact slot_pushNode hb _ _

/-- **C142, edges that are there.** An edge with an end at a `NaN` or infinite position keeps its slot and both its ends, whatever
node or edge is added. -/
theorem C142_kept [Inhabited T] (g : PlanarGraph F32 T U) (hwf : WF g) (i : Nat) (e : Edge U) (a b : Node F32 T)
    (he : g.edges[i]? = some e) (ha : g.nodes[e.src]? = some a) (hb : g.nodes[e.dst]? = some b)
    (h : ¬ FinPt a.position ∨ ¬ FinPt b.position) :
    (∀ x t g' r, g.addNode x t = .ok (g', r) → g'.edges[i]? = some e) ∧
    ∀ s d x g' r, g.addEdge s d x = .ok (g', r) → g'.edges[i]? = some e := by
  constructor
  · intro x t g' r h1
    rw [addNode_ok g hwf] at h1
    simp only [Except.ok.injEq, Prod.mk.injEq] at h1
    rw [← h1.1]
    unfold addNodeG
    split
    · exact he
    · exact slot_splitAt (g := pushNode g x t) he (slot_pushNode ha _ _) (slot_pushNode hb _ _) h _
  · intro s d x g' r h1
    rcases addEdge_ok g hwf s d x with ⟨_, h'⟩ | ⟨_, _, h'⟩ | ⟨_, _, _, g1, cn, ce, hi, h'⟩
    · rw [h1] at h'; cases h'; exact he
    · rw [h1] at h'; cases h'; exact he
    · rw [h1] at h'
      simp only [Except.ok.injEq, Prod.mk.injEq] at h'
      obtain ⟨rfl, _⟩ := h'
      refine slot_inserts hi (a := a) (b := b) ?_ ha hb h
      simp only [pushEdge]
      rw [List.getElem?_append_left (List.getElem?_eq_some_iff.1 he).1, he]

/-- **C142, the box.** Take any history in `f32`, with removals and with any requests, debug or release. If all positions given
to `add_node` are finite with coordinates of size at most `2^k`, where `-126 ≤ k ≤ 127`, then all nodes at the end are, the
computed crossings included: rounding never carries a node out of the square. -/
theorem C142_box [Inhabited T] (p : Profile) (k : ℤ) (h1 : -126 ≤ k) (h2 : k ≤ 127) (ops : List (Op F32 T U))
    (hadd : ∀ x t, Op.addNode x t ∈ ops → InSquare (2 ^ k) x) (g : PlanarGraph F32 T U)
    (h : PlanarGraph.run p PlanarGraph.new ops = .ok g) : ∀ a ∈ g.nodes, InSquare (2 ^ k) a.position :=
  run_closed p (fun _ _ _ _ _ ha hb _ _ hq => cross_box h1 h2 ha hb hq) ops hadd (by intro a ha; cases ha) h

/-- **C142, finite drawings.** If all coordinates given to `add_node` are finite and smaller in size than `f32::MAX`, which is
`(2^24 - 1) 2^104`, then all nodes of the graph are finite and at most the number before `f32::MAX`. -/
theorem C142_finite [Inhabited T] (p : Profile) (ops : List (Op F32 T U))
    (hadd : ∀ x t, Op.addNode x t ∈ ops → InSquare ((2 ^ 24 - 2) * 2 ^ 104) x) (g : PlanarGraph F32 T U)
    (h : PlanarGraph.run p PlanarGraph.new ops = .ok g) : ∀ a ∈ g.nodes, InSquare ((2 ^ 24 - 2) * 2 ^ 104) a.position :=
  run_closed p (fun _ _ _ _ _ ha hb _ _ hq => cross_top ha hb hq) ops hadd (by intro a ha; cases ha) h

/-- **C142, no `NaN`.** If no position given to `add_node` has a `NaN` coordinate, infinite ones allowed, no node ever has. -/
theorem C142_no_nan [Inhabited T] (p : Profile) (ops : List (Op F32 T U))
    (hadd : ∀ x t, Op.addNode x t ∈ ops → NanFree x) (g : PlanarGraph F32 T U)
    (h : PlanarGraph.run p PlanarGraph.new ops = .ok g) : ∀ a ∈ g.nodes, NanFree a.position :=
  run_closed p (fun _ _ _ _ _ _ _ _ _ hq => cross_nanFree hq) ops hadd (by intro a ha; cases ha) h

/-- four nodes and two edges between them -/
def finTwoEdges (a b c d : Vec2 F32) : List (Op F32 Unit Unit) :=
  [.addNode a (), .addNode b (), .addNode c (), .addNode d (), .addEdge 0 1 (), .addEdge 2 3 ()]

/-- **C142, the bound is needed.** With one coordinate equal to `f32::MAX` a finite drawing of two crossing edges gets a node at
infinity. -/
theorem C142_sharp_max :
    (do return (← PlanarGraph.run .release PlanarGraph.new (finTwoEdges ⟨ofBits 0x73c00000, ofBits 0⟩ ⟨ofBits 0x7f7fffff, ofBits 0⟩
        ⟨ofBits 0x7f7fffff, lit (-1) 4⟩ ⟨ofBits 0x7f7fffff, lit 1 4⟩)).gatherNodePositions.drop 4 : Res (List (Vec2 F32))) =
      .ok [⟨inf false, ofBits 0⟩] := by
  decide +kernel

/-- **C142, only powers of two.** The square of the largest coordinate itself can be left: the crossing at the end `16777214` of
an edge from `-16777213` is put at `16777215`. -/
theorem C142_sharp_square :
    (do return (← PlanarGraph.run .release PlanarGraph.new (finTwoEdges ⟨lit (-16777213), ofBits 0⟩ ⟨lit 16777214, ofBits 0⟩
        ⟨lit 16777214, lit (-1)⟩ ⟨lit 16777214, lit 1⟩)).gatherNodePositions.drop 4 : Res (List (Vec2 F32))) =
      .ok [⟨lit 16777215, ofBits 0⟩] := by
  decide +kernel

/-! ### examples -/

/-- the numbers up to the bit pattern `k` are at most the number with the pattern `k` -/
theorem size_le (s : Bool) (n : Fin 0x7f800000) {k : ℕ} (h : n.val ≤ k) : |toReal (fin s n)| ≤ (mag k : ℝ) / 2 ^ 149 := by
  rw [toReal_fin, mul_div_assoc, abs_sign, abs_of_nonneg (by positivity), div_le_div_iff_of_pos_right (by positivity)]
  exact magR_le h

theorem inSquare_one (s t : Bool) {m n : Fin 0x7f800000} (hm : m.val ≤ 0x3f800000) (hn : n.val ≤ 0x3f800000) :
    InSquare (2 ^ (0 : ℤ)) ⟨fin s m, fin t n⟩ := by
  have e : ((mag 0x3f800000 : ℕ) : ℝ) / 2 ^ 149 = 2 ^ (0 : ℤ) := by
    have : mag 0x3f800000 = 2 ^ 149 := by decide +kernel
    rw [this, Nat.cast_pow, Nat.cast_ofNat, zpow_zero, div_self (by positivity)]
  rw [← e]
  exact ⟨⟨⟨_, _, rfl⟩, size_le s m hm⟩, ⟨⟨_, _, rfl⟩, size_le t n hn⟩⟩

theorem inSquare_top (s t : Bool) {m n : Fin 0x7f800000} (hm : m.val ≤ 0x7f7ffffe) (hn : n.val ≤ 0x7f7ffffe) :
    InSquare ((2 ^ 24 - 2) * 2 ^ 104) ⟨fin s m, fin t n⟩ := by
  have e : ((mag 0x7f7ffffe : ℕ) : ℝ) / 2 ^ 149 = (2 ^ 24 - 2) * 2 ^ 104 := by
    rw [mag_top, mul_div_assoc, div_self (by positivity), mul_one]
  rw [← e]
  exact ⟨⟨⟨_, _, rfl⟩, size_le s m hm⟩, ⟨⟨_, _, rfl⟩, size_le t n hn⟩⟩

/-- the diagonals of the square with corners `±1`, the second turned a little; their crossing is computed -/
def twoDiagonals : List (Op F32 Unit Unit) :=
  finTwoEdges ⟨lit (-1), lit (-1)⟩ ⟨lit 1, lit 1⟩ ⟨lit (-1), lit 1 3⟩ ⟨lit 1, lit (-1) 5⟩

example : (do return ((← PlanarGraph.run .debug PlanarGraph.new twoDiagonals).gatherNodePositions.drop 4) : Res (List (Vec2 F32))) =
    .ok [⟨ofBits 1029149760, ofBits 1029149760⟩] := by decide +kernel

example (g : PlanarGraph F32 Unit Unit) (h : PlanarGraph.run .debug PlanarGraph.new twoDiagonals = .ok g) :
    ∀ a ∈ g.nodes, InSquare (2 ^ (0 : ℤ)) a.position := by
  refine C142_box .debug 0 (by norm_num) (by norm_num) twoDiagonals ?_ g h
  intro x t hx
  simp only [twoDiagonals, finTwoEdges, List.mem_cons, Op.addNode.injEq, reduceCtorEq, List.not_mem_nil, or_false, and_true] at hx
  rcases hx with rfl | rfl | rfl | rfl
  all_goals exact inSquare_one _ _ (by decide +kernel) (by decide +kernel)

/-- the first edge ends at the number before `f32::MAX`, on the second edge, which is split there -/
def farCross : List (Op F32 Unit Unit) :=
  finTwoEdges ⟨ofBits 0x73c00000, ofBits 0⟩ ⟨ofBits 0x7f7ffffe, ofBits 0⟩ ⟨ofBits 0x7f7ffffe, lit (-1) 4⟩ ⟨ofBits 0x7f7ffffe, lit 1 4⟩

example : (do return ((← PlanarGraph.run .debug PlanarGraph.new farCross).edges.map fun e => (e.src, e.dst)) : Res (List (Nat × Nat))) =
    .ok [(0, 1), (2, 1), (3, 1)] := by decide +kernel

example (g : PlanarGraph F32 Unit Unit) (h : PlanarGraph.run .debug PlanarGraph.new farCross = .ok g) :
    ∀ a ∈ g.nodes, InSquare ((2 ^ 24 - 2) * 2 ^ 104) a.position := by
  refine C142_finite .debug farCross ?_ g h
  intro x t hx
  simp only [farCross, finTwoEdges, List.mem_cons, Op.addNode.injEq, reduceCtorEq, List.not_mem_nil, or_false, and_true] at hx
  rcases hx with rfl | rfl | rfl | rfl
  all_goals exact inSquare_top _ _ (by decide +kernel) (by decide +kernel)

/-- a finite edge, a node at infinity, and an edge to a node with a `NaN` -/
def nonFinite : PlanarGraph F32 Unit Unit :=
  ⟨[⟨⟨inf false, lit 0⟩, (), ""⟩, ⟨⟨lit (-1), lit 0⟩, (), ""⟩, ⟨⟨lit 1, lit 0⟩, (), ""⟩, ⟨⟨lit 0, lit 1⟩, (), ""⟩,
    ⟨⟨lit 0, F32.nan⟩, (), ""⟩],
    [⟨1, 2, (), ""⟩, ⟨3, 4, (), ""⟩]⟩

theorem nonFinite_wf : WF nonFinite := by
  intro e he
  simp only [nonFinite, List.mem_cons, List.not_mem_nil, or_false] at he
  rcases he with rfl | rfl <;> decide

theorem inf_not_fin (s : Bool) (y : F32) : ¬ FinPt ⟨inf s, y⟩ := fun h => by obtain ⟨⟨_, _, h⟩, _⟩ := h; cases h

theorem nan_not_fin (x : F32) : ¬ FinPt ⟨x, F32.nan⟩ := fun h => by obtain ⟨_, ⟨_, _, h⟩⟩ := h; cases h

example : nonFinite.addNode ⟨inf false, lit 0⟩ () = .ok (⟨nonFinite.nodes ++ [⟨⟨inf false, lit 0⟩, (), ""⟩], nonFinite.edges⟩, (5, [])) :=
  C142_node nonFinite nonFinite_wf _ (inf_not_fin _ _) ()

example : nonFinite.addEdge 1 0 () = .ok (⟨nonFinite.nodes, nonFinite.edges ++ [⟨1, 0, (), ""⟩]⟩, .ok ([], [2])) :=
  C142_edge nonFinite nonFinite_wf 1 0 () ⟨⟨lit (-1), lit 0⟩, (), ""⟩ ⟨⟨inf false, lit 0⟩, (), ""⟩ rfl rfl (Or.inr (inf_not_fin _ _)) (by
    intro e he
    simp only [nonFinite, List.mem_cons, List.not_mem_nil, or_false] at he
    rcases he with rfl | rfl <;> decide)

example (g' : PlanarGraph F32 Unit Unit) (r : Nat × List Nat) (h : nonFinite.addNode ⟨lit 0, lit 0⟩ () = .ok (g', r)) :
    g'.edges[1]? = some ⟨3, 4, (), ""⟩ :=
  (C142_kept nonFinite nonFinite_wf 1 ⟨3, 4, (), ""⟩ ⟨⟨lit 0, lit 1⟩, (), ""⟩ ⟨⟨lit 0, F32.nan⟩, (), ""⟩ rfl rfl rfl
    (Or.inr (nan_not_fin _))).1 _ _ _ _ h

/-- the same call does split the finite edge -/
example : (do return ((← nonFinite.addNode ⟨lit 0, lit 0⟩ ()).1.edges.map fun e => (e.src, e.dst)) : Res (List (Nat × Nat))) =
    .ok [(1, 5), (3, 4), (2, 5)] := by decide +kernel

/-- an infinite node does not turn crossings into `NaN`s -/
example (g : PlanarGraph F32 Unit Unit)
    (h : PlanarGraph.run .debug PlanarGraph.new (twoDiagonals ++ [.addNode ⟨inf true, inf false⟩ (), .addEdge 5 1 ()]) = .ok g) :
    ∀ a ∈ g.nodes, NanFree a.position := by
  refine C142_no_nan .debug _ ?_ g h
  intro x t hx
  simp only [twoDiagonals, finTwoEdges, List.cons_append, List.nil_append, List.mem_cons, Op.addNode.injEq, reduceCtorEq,
    List.not_mem_nil, or_false, false_or, and_true] at hx
  unfold NanFree
  rcases hx with rfl | rfl | rfl | rfl | rfl
  all_goals decide +kernel

end Kami.Graph
