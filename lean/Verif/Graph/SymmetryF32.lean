import Verif.Num.F32Same
import Verif.Num.F32Box
import Verif.Graph.Isometry
/-!
# C143: the symmetries of the square in `f32`

Exchanging the coordinates and changing the sign of a coordinate commutes with the graph code without any rounding error.
-/

set_option autoImplicit false

namespace Kami.Graph

open Kami Kami.F32
open scoped Kami
open PlanarGraph

/-- one of the eight symmetries of the square about the origin: exchange the coordinates if `swap`, then change the sign of the
first coordinate if `nx` and of the second if `ny` -/
def squareMap (swap nx ny : Bool) (v : Vec2 F32) : Vec2 F32 :=
  let w : Vec2 F32 := if swap then ⟨v.y, v.x⟩ else v
  ⟨if nx then -w.x else w.x, if ny then -w.y else w.y⟩

/-- `w` is the image of `v`, up to the signs of coordinates that are zero -/
def Mirror (swap nx ny : Bool) (v w : Vec2 F32) : Prop :=
  Same (squareMap swap nx ny v).x w.x ∧ Same (squareMap swap nx ny v).y w.y

/-! ### numbers that agree up to a given sign -/

/-- `b` is `a`, or `-a` when `ε` is set, up to the sign of zero -/
def Sg (ε : Bool) (a b : F32) : Prop := Same (if ε then -a else a) b

namespace Sg

variable {ε δ : Bool} {a b a' b' : F32}

theorem neg (h : Sg ε a a') : Sg ε (-a) (-a') := by
  cases ε
  · exact Same.neg h
  · exact Same.neg h

theorem neg' (h : Sg ε a a') : Sg (!ε) (-a) a' := by
  cases ε
  · show Same (- -a) a'
    rw [neg_neg_eq]; exact h
  · exact h

theorem negr (h : Sg ε a a') : Sg (!ε) a (-a') := by
  have := h.neg.neg'
  rwa [neg_neg_eq] at this

theorem add (h : Sg ε a a') (h' : Sg ε b b') : Sg ε (a + b) (a' + b') := by
  cases ε
  · exact Same.add h h'
  · exact (neg_add' a b).trans (Same.add h h')

theorem sub (h : Sg ε a a') (h' : Sg ε b b') : Sg ε (a - b) (a' - b') := h.add h'.neg

theorem mul (h : Sg ε a a') (h' : Sg δ b b') : Sg (ε ^^ δ) (a * b) (a' * b') := by
  have hm := Same.mul h h'
  cases ε <;> cases δ <;> simp only [Bool.false_eq_true, if_false, if_true, neg_mul', mul_neg', neg_neg_eq] at hm <;> exact hm

theorem swap_sub (h : Sg ε a a') (h' : Sg ε b b') : Sg (!ε) (a - b) (b' - a') := by
  cases ε
  · exact (neg_sub' a b).trans (Same.sub h' h)
  · have h1 := (neg_sub' b a).symm.trans ((neg_sub_neg' b a).trans (Same.sub h' h))
    exact h1

theorem of_same (h : Sg ε a a') {c : F32} (hc : Same a' c) : Sg ε a c := Same.trans h hc

end Sg

theorem same_lt {a a' b b' : F32} (h : Same a a') (h' : Same b b') : F32.lt a b = F32.lt a' b' := by
  have h1 : F32.lt a b = F32.lt a' b := by
    rcases h with rfl | ⟨s, t, rfl, rfl⟩
    · rfl
    · cases b <;> simp only [F32.lt, Same.val_zero]
  rw [h1]
  rcases h' with rfl | ⟨s, t, rfl, rfl⟩
  · rfl
  · cases a' <;> simp only [F32.lt, Same.val_zero]

theorem same_eq {a a' b b' : F32} (h : Same a a') (h' : Same b b') : F32.eq a b = F32.eq a' b' := by
  have h1 : F32.eq a b = F32.eq a' b := by
    rcases h with rfl | ⟨s, t, rfl, rfl⟩
    · rfl
    · cases b <;> simp only [F32.eq, Same.val_zero]
  rw [h1]
  rcases h' with rfl | ⟨s, t, rfl, rfl⟩
  · rfl
  · cases a' <;> simp only [F32.eq, Same.val_zero]

theorem same_le {a a' b b' : F32} (h : Same a a') (h' : Same b b') : F32.le a b = F32.le a' b' := by
  unfold F32.le
  rw [same_lt h h', same_eq h h']

/-- the test `0 <= q <= 1` -/
def unit (q : F32) : Bool := F32.le (ofBits 0) q && F32.le q (ofBits 0x3f800000)

theorem unit_same {a a' : F32} (h : Same a a') : unit a = unit a' := by
  unfold unit
  rw [same_le (.refl _) h, same_le h (.refl _)]

theorem div_zero_unit (a : F32) (s : Bool) : unit (a / fin s ⟨0, by decide⟩) = false := by
  change unit (F32.div a _) = false
  rcases a with _ | t | ⟨t, n⟩
  · rfl
  · cases s <;> cases t <;> decide +kernel
  · unfold F32.div
    simp only [if_true]
    split
    · rfl
    · cases s <;> cases t <;> decide +kernel

/-- two quotients that have the same numerator and denominator up to one common sign, or both a zero denominator -/
theorem div_sg {ε : Bool} {a a' b b' : F32} (h : Sg ε a a') (h' : Sg ε b b') :
    Same (a / b) (a' / b') ∨ ∀ u u', unit (u / b) = false ∧ unit (u' / b') = false := by
  have key : Same (if ε then -b else b) b' := h'
  rcases key with rfl | ⟨s, t, h1, rfl⟩
  · left
    have h1 : Same ((if ε then -a else a) / if ε then -b else b) (a' / if ε then -b else b) := Same.div h _
    refine Same.trans ?_ h1
    cases ε
    · exact .refl _
    · refine .inl ?_
      show a / b = -a / -b
      have e : -a / -b = a / b := by
        rcases a with _ | s | ⟨s, m⟩ <;> rcases b with _ | t | ⟨t, n⟩ <;> try rfl
        · show inf (!s ^^ !t) = inf (s ^^ t); simp
        · show fin (!s ^^ !t) _ = fin (s ^^ t) _; simp
        · show (if n.val = 0 then (if m.val = 0 then nan else inf (!s ^^ !t)) else F32.round (!s ^^ !t) _ _) =
            if n.val = 0 then (if m.val = 0 then nan else inf (s ^^ t)) else F32.round (s ^^ t) _ _
          simp
      exact e.symm
  · right
    intro u u'
    refine ⟨?_, div_zero_unit _ _⟩
    have hb : b = fin (ε ^^ s) ⟨0, by decide⟩ := by
      cases ε
      · simpa using h1
      · have h1 : -b = fin s ⟨0, by decide⟩ := h1
        rw [← neg_neg_eq b, h1]
        cases s <;> rfl
    rw [hb]
    exact div_zero_unit _ _

/-! ### the functions of utils.rs -/

/-- the three quantities computed by `calculate_line_segment_intersection` -/
def crossDen (a b c d : Vec2 F32) : F32 := -(d.x - c.x) * (b.y - a.y) + (b.x - a.x) * (d.y - c.y)
/-- numerator of `s` -/
def crossS (a b c : Vec2 F32) : F32 := -(b.y - a.y) * (a.x - c.x) + (b.x - a.x) * (a.y - c.y)
/-- numerator of `t` -/
def crossT (a c d : Vec2 F32) : F32 := (d.x - c.x) * (a.y - c.y) - (d.y - c.y) * (a.x - c.x)

theorem cross_unfold (a b c d : Vec2 F32) : Utils.calculateLineSegmentIntersection a b c d =
    if unit (crossS a b c / crossDen a b c d) && unit (crossT a c d / crossDen a b c d) then
      some ⟨a.x + crossT a c d / crossDen a b c d * (b.x - a.x), a.y + crossT a c d / crossDen a b c d * (b.y - a.y)⟩
    else none := by
  unfold unit
  rw [← Bool.and_assoc]
  rfl

/-- corresponding coordinates -/
theorem Mirror.coords {w nx ny : Bool} {v v' : Vec2 F32} (h : Mirror w nx ny v v') :
    if w then Sg nx v.y v'.x ∧ Sg ny v.x v'.y else Sg nx v.x v'.x ∧ Sg ny v.y v'.y := by
  cases w <;> exact h

theorem mirror_cross {w nx ny : Bool} {a a' b b' c c' d d' : Vec2 F32} (ha : Mirror w nx ny a a') (hb : Mirror w nx ny b b')
    (hc : Mirror w nx ny c c') (hd : Mirror w nx ny d d') :
    OptRel (Mirror w nx ny) (Utils.calculateLineSegmentIntersection a b c d) (Utils.calculateLineSegmentIntersection a' b' c' d') := by
  rw [cross_unfold, cross_unfold]
  have pa := ha.coords
  have pb := hb.coords
  have pc := hc.coords
  have pd := hd.coords
  -- numerators and denominator agree up to a common sign
  have hdst : ∃ ε, Sg ε (crossDen a b c d) (crossDen a' b' c' d') ∧ Sg ε (crossS a b c) (crossS a' b' c') ∧
      Sg ε (crossT a c d) (crossT a' c' d') := by
    unfold crossDen crossS crossT
    cases w
    · simp only [Bool.false_eq_true, if_false] at pa pb pc pd
      obtain ⟨ax, ay⟩ := pa
      obtain ⟨bx, by'⟩ := pb
      obtain ⟨cx, cy⟩ := pc
      obtain ⟨dx, dy⟩ := pd
      refine ⟨nx ^^ ny, ?_, ?_, ?_⟩
      · exact ((dx.sub cx).neg.mul (by'.sub ay)).add ((bx.sub ax).mul (dy.sub cy))
      · have h1 := ((by'.sub ay).neg.mul (ax.sub cx))
        rw [Bool.xor_comm] at h1
        exact h1.add ((bx.sub ax).mul (ay.sub cy))
      · have h1 := ((dy.sub cy).mul (ax.sub cx))
        rw [Bool.xor_comm] at h1
        exact ((dx.sub cx).mul (ay.sub cy)).sub h1
    · simp only [if_true] at pa pb pc pd
      obtain ⟨ax, ay⟩ := pa
      obtain ⟨bx, by'⟩ := pb
      obtain ⟨cx, cy⟩ := pc
      obtain ⟨dx, dy⟩ := pd
      refine ⟨!(nx ^^ ny), ?_, ?_, ?_⟩
      · have h1 := ((bx.sub ax).mul (dy.sub cy)).neg'
        have h2 := ((dx.sub cx).mul (by'.sub ay)).negr
        have h3 := h1.add (b := (b.x - a.x) * (d.y - c.y)) (b' := -((d'.x - c'.x) * (b'.y - a'.y)))
          (by rw [Same.mul_comm]; exact h2)
        rw [neg_mul', neg_mul', Same.mul_comm (d.x - c.x), Same.add_comm (-((d'.x - c'.x) * (b'.y - a'.y)))]
        exact h3
      · have h1 := ((bx.sub ax).mul (ay.sub cy)).neg'
        have h2 := ((ax.sub cx).mul (by'.sub ay)).negr
        have h3 := h1.add (b := (b.x - a.x) * (a.y - c.y)) (b' := -((a'.x - c'.x) * (b'.y - a'.y)))
          (by rw [Same.mul_comm]; exact h2)
        rw [neg_mul', neg_mul', Same.mul_comm (b'.y - a'.y), Same.add_comm (-((a'.x - c'.x) * (b'.y - a'.y)))]
        exact h3
      · have h1 := ((dy.sub cy).mul (ax.sub cx))
        rw [Bool.xor_comm] at h1
        exact h1.swap_sub ((dx.sub cx).mul (ay.sub cy))
  obtain ⟨ε, hD, hS, hT⟩ := hdst
  rcases div_sg hT hD with ht | hz
  · rcases div_sg hS hD with hs | hz
    · rw [unit_same ht, unit_same hs]
      split
      · generalize crossT a c d / crossDen a b c d = t at ht ⊢
        generalize crossT a' c' d' / crossDen a' b' c' d' = t' at ht ⊢
        have ht : Sg false t t' := ht
        cases w
        · simp only [Bool.false_eq_true, if_false] at pa pb
          have h1 := pa.1.add ((Bool.false_xor nx) ▸ ht.mul (pb.1.sub pa.1))
          have h2 := pa.2.add ((Bool.false_xor ny) ▸ ht.mul (pb.2.sub pa.2))
          exact ⟨h1, h2⟩
        · simp only [if_true] at pa pb
          have h1 := pa.1.add ((Bool.false_xor nx) ▸ ht.mul (pb.1.sub pa.1))
          have h2 := pa.2.add ((Bool.false_xor ny) ▸ ht.mul (pb.2.sub pa.2))
          exact ⟨h1, h2⟩
      · trivial
    · rw [(hz _ 0).1, (hz 0 _).2]; trivial
  · rw [(hz (crossS a b c) 0).1, (hz 0 (crossS a' b' c')).2]; trivial

theorem sg_sq {ε : Bool} {a a' : F32} (h : Sg ε a a') : a * a = a' * a' := by
  have key : Same (if ε then -a else a) a' := h
  rcases key with rfl | ⟨s, t, h1, rfl⟩
  · cases ε
    · rfl
    · show a * a = -a * -a
      rw [neg_mul', mul_neg', neg_neg_eq]
  · have ha : a = fin (ε ^^ s) ⟨0, by decide⟩ := by
      cases ε
      · simpa using h1
      · have h1 : -a = fin s ⟨0, by decide⟩ := h1
        rw [← neg_neg_eq a, h1]
        cases s <;> rfl
    rw [ha]
    generalize (ε ^^ s) = r
    cases r <;> cases t <;> decide +kernel

theorem mirror_dist {w nx ny : Bool} {a a' b b' : Vec2 F32} (ha : Mirror w nx ny a a') (hb : Mirror w nx ny b b') :
    distance a b = distance a' b' := by
  have pa := ha.coords
  have pb := hb.coords
  change F32.sqrt ((b.x - a.x) * (b.x - a.x) + (b.y - a.y) * (b.y - a.y)) =
    F32.sqrt ((b'.x - a'.x) * (b'.x - a'.x) + (b'.y - a'.y) * (b'.y - a'.y))
  cases w
  · simp only [Bool.false_eq_true, if_false] at pa pb
    rw [sg_sq (pb.1.sub pa.1), sg_sq (pb.2.sub pa.2)]
  · simp only [if_true] at pa pb
    rw [← sg_sq (pb.1.sub pa.1), ← sg_sq (pb.2.sub pa.2), Same.add_comm]

theorem mirror_preserves (w nx ny : Bool) : Preserves (Mirror w nx ny) := ⟨mirror_dist, mirror_cross⟩

theorem mirror_self (w nx ny : Bool) (v : Vec2 F32) : Mirror w nx ny v (squareMap w nx ny v) := ⟨.refl _, .refl _⟩

/-! ### C143 -/

section
variable {T U : Type}

/-- **C143, histories.** Let all positions of a history be moved by one of the eight symmetries of the square.  The history
panics exactly when the original does, in the same way, and otherwise gives the same edges and the moved nodes, with the same
numbers, data and labels.  The positions are those of the original, moved without any rounding error: only the sign of a
coordinate that is zero is left open.  Any `f32` values, finite or not. -/
theorem C143_history [Inhabited T] (p : Profile) (swap nx ny : Bool) (ops : List (Op F32 T U)) :
    (∀ q, run p new ops = .error q ↔ run p new (ops.map (moveOp (squareMap swap nx ny))) = .error q) ∧
    ∀ g, run p new ops = .ok g → ∃ g', run p new (ops.map (moveOp (squareMap swap nx ny))) = .ok g' ∧ g'.edges = g.edges ∧
      g'.nodes.length = g.nodes.length ∧ ∀ (i : Nat) (a : Node F32 T), g.nodes[i]? = some a → ∃ a' : Node F32 T, g'.nodes[i]? = some a' ∧ a'.data = a.data ∧
        a'.label = a.label ∧ Mirror swap nx ny a.position a'.position :=
  run_move (mirror_preserves swap nx ny) p _ ops fun _ _ _ => mirror_self _ _ _ _

/-- **C143, reports.** On graphs that are mirror images of each other, `add_node` at mirrored positions, `add_edge`, `remove_edge`
and `remove_node` return the same reports and leave graphs that are again mirror images, or panic in the same way. -/
theorem C143_calls [Inhabited T] (p : Profile) (swap nx ny : Bool) (g g' : PlanarGraph F32 T U)
    (h : GraphRel (Mirror swap nx ny) g g') :
    (∀ x x' t, Mirror swap nx ny x x' → ResRel (OutRel (Mirror swap nx ny)) (g.addNode x t) (g'.addNode x' t)) ∧
    (∀ s d u, ResRel (OutRel (Mirror swap nx ny)) (g.addEdge s d u) (g'.addEdge s d u)) ∧
    (∀ i, ResRel (OutRel (Mirror swap nx ny)) (g.removeEdge p i) (g'.removeEdge p i)) ∧
    ∀ i, ResRel (OutRel (Mirror swap nx ny)) (g.removeNode p i) (g'.removeNode p i) :=
  ⟨fun _ _ t hx => addNode_rel (mirror_preserves _ _ _) h hx t, fun s d u => addEdge_rel (mirror_preserves _ _ _) h s d u,
    fun i => removeEdge_rel h i, fun i => removeNode_rel h i⟩

/-- **C143, tests.** Distances are equal bit for bit, so are the answers of `is_on_line_segment`, and crossings correspond. -/
theorem C143_tests (swap nx ny : Bool) (a b c d : Vec2 F32) (f : Bool) :
    distance (squareMap swap nx ny a) (squareMap swap nx ny b) = distance a b ∧
    Utils.isOnLineSegment (squareMap swap nx ny a) (squareMap swap nx ny b) (squareMap swap nx ny c) f =
      Utils.isOnLineSegment a b c f ∧
    OptRel (Mirror swap nx ny) (Utils.calculateLineSegmentIntersection a b c d)
      (Utils.calculateLineSegmentIntersection (squareMap swap nx ny a) (squareMap swap nx ny b) (squareMap swap nx ny c)
        (squareMap swap nx ny d)) :=
  have m := mirror_self swap nx ny
  ⟨(mirror_dist (m a) (m b)).symm, ((mirror_preserves swap nx ny).onSegment (m a) (m b) (m c)).symm,
    mirror_cross (m a) (m b) (m c) (m d)⟩

end

/-- **C143, exact arithmetic.** Without rounding the same holds for every map of the plane that keeps distances: translations,
rotations about any centre, reflections in any line. -/
theorem C143_isometry {T U : Type} [Inhabited T] (p : Profile) (φ : ℝ × ℝ → ℝ × ℝ)
    (hφ : ∀ x y, UtilThm.dst (φ x) (φ y) = UtilThm.dst x y) (f : Vec2 XReal → Vec2 XReal) (hf : ∀ x, f (pt x) = pt (φ x))
    (ops : List (Op XReal T U)) (hops : ∀ v t, Op.addNode v t ∈ ops → ∃ x, v = pt x) :
    (∀ q, run p new ops = .error q ↔ run p new (ops.map (moveOp f)) = .error q) ∧
    ∀ g, run p new ops = .ok g → ∃ g', run p new (ops.map (moveOp f)) = .ok g' ∧ g'.edges = g.edges ∧
      g'.nodes.length = g.nodes.length ∧ ∀ (i : Nat) (a : Node XReal T), g.nodes[i]? = some a → ∃ a' : Node XReal T, g'.nodes[i]? = some a' ∧ a'.data = a.data ∧
        a'.label = a.label ∧ ∃ x, a.position = pt x ∧ a'.position = pt (φ x) :=
  run_move (IsIsometry.preserves (φ := φ) hφ) p f ops fun v t h => by
    obtain ⟨x, rfl⟩ := hops v t h
    exact ⟨x, rfl, hf x⟩

/-- the rotation by the angle with cosine 3/5 and sine 4/5, followed by a translation -/
example : let φ : ℝ × ℝ → ℝ × ℝ := fun x => (3 / 5 * x.1 - 4 / 5 * x.2 + 7, 4 / 5 * x.1 + 3 / 5 * x.2 - 1)
    let f : Vec2 XReal → Vec2 XReal := fun v => ⟨.fin (3 / 5) * v.x - .fin (4 / 5) * v.y + .fin 7, .fin (4 / 5) * v.x + .fin (3 / 5) * v.y - .fin 1⟩
    (∀ x y, UtilThm.dst (φ x) (φ y) = UtilThm.dst x y) ∧ ∀ x, f (pt x) = pt (φ x) := by
  refine ⟨fun x y => ?_, fun x => ?_⟩
  · unfold UtilThm.dst
    congr 1
    ring
  · simp [pt]

/-! ### the order of the segments -/

/-- **C143, order.** Whether `calculate_line_segment_intersection` finds a crossing does not depend on which segment is given
first, for any `f32` values. -/
theorem C143_order (a b c d : Vec2 F32) :
    (Utils.calculateLineSegmentIntersection a b c d).isSome = (Utils.calculateLineSegmentIntersection c d a b).isSome := by
  rw [cross_unfold, cross_unfold]
  have r : ∀ x : F32, Sg false x x := fun x => .refl x
  have hD : Sg true (crossDen a b c d) (crossDen c d a b) := by
    unfold crossDen
    have h1 := ((r (d.x - c.x)).mul (r (b.y - a.y))).neg'
    have h2 := ((r (b.x - a.x)).mul (r (d.y - c.y))).negr
    have h3 := h1.add h2
    rw [neg_mul', neg_mul', Same.add_comm (-((b.x - a.x) * (d.y - c.y)))]
    exact h3
  have sw : ∀ x y : F32, Sg true (x - y) (y - x) := fun x y => (r x).swap_sub (r y)
  have hT : ∀ a c d : Vec2 F32, Sg true (crossT a c d) (crossS c d a) := by
    intro a c d
    unfold crossT crossS
    have h1 := (r (d.x - c.x)).mul (sw a.y c.y)
    have h2 := ((r (d.y - c.y)).mul (sw a.x c.x)).neg
    have h3 := h1.add h2
    rw [neg_mul', Same.add_comm (-((d.y - c.y) * (c.x - a.x)))]
    exact h3
  have hS : Sg true (crossS a b c) (crossT c a b) := by
    unfold crossT crossS
    have h1 := ((r (b.y - a.y)).mul (sw a.x c.x)).neg
    have h2 := (r (b.x - a.x)).mul (sw a.y c.y)
    have h3 := h1.add h2
    rw [neg_mul']
    have e : (b.x - a.x) * (c.y - a.y) - (b.y - a.y) * (c.x - a.x) = -((b.y - a.y) * (c.x - a.x)) + (b.x - a.x) * (c.y - a.y) :=
      Same.add_comm _ _
    rw [e]
    exact h3
  have hc : (unit (crossS a b c / crossDen a b c d) && unit (crossT a c d / crossDen a b c d)) =
      (unit (crossS c d a / crossDen c d a b) && unit (crossT c a b / crossDen c d a b)) := by
    rcases div_sg (hT a c d) hD with ht | hz
    · rcases div_sg hS hD with hs | hz
      · rw [unit_same ht, unit_same hs, Bool.and_comm]
      · rw [(hz (crossS a b c) 0).1, (hz 0 (crossS c d a)).2]; rfl
    · rw [(hz (crossS a b c) 0).1, (hz 0 (crossS c d a)).2]; rfl
  rw [hc]
  split <;> rfl

/-- **C143, ends.** `is_on_line_segment` does not depend on the order of the two ends. -/
theorem C143_ends (a b p : Vec2 F32) (f : Bool) : Utils.isOnLineSegment a b p f = Utils.isOnLineSegment b a p f := by
  unfold Utils.isOnLineSegment
  have c := LawfulScalar.dist_comm (F := F32)
  have e : (distance a p + distance p b : F32) = distance b p + distance p a := by
    rw [c a p, c p b, Same.add_comm]
  simp only
  rw [c b a, e, c b p, c p a, Bool.and_assoc, Bool.and_assoc, Bool.and_comm (_ <. OrdScalar.abs (distance p b))]

/-! ### what does not hold -/

/-- the two orders of the segments `(3,0)-(0,2)` and `(-2,-1)-(1,2)` give different points -/
theorem C143_sharp_order : ∃ a b c d : Vec2 F32, (Utils.calculateLineSegmentIntersection a b c d).isSome ∧
    Utils.calculateLineSegmentIntersection a b c d ≠ Utils.calculateLineSegmentIntersection c d a b :=
  ⟨⟨lit 3 1, lit 0 1⟩, ⟨lit 0 1, lit 2 1⟩, ⟨lit (-2) 1, lit (-1) 1⟩, ⟨lit 1 1, lit 2 1⟩, by decide +kernel⟩

/-- exchanging the ends of one segment can make the difference between a crossing and none -/
theorem C143_sharp_ends : ∃ a b c d : Vec2 F32, (Utils.calculateLineSegmentIntersection a b c d).isSome ∧
    Utils.calculateLineSegmentIntersection b a c d = none :=
  ⟨⟨ofBits 0x3f800000, ofBits 0x40000000⟩, ⟨ofBits 0xc1200000, ofBits 0x41000000⟩, ⟨ofBits 0, ofBits 0xbdcccccd⟩,
    ⟨ofBits 0x3f7e4c52, ofBits 0x40003b69⟩, by decide +kernel⟩

/-- translations are not among the symmetries in `f32`: two nodes become one when the drawing is moved by 4 -/
theorem C143_sharp_translate :
    (run .release (PlanarGraph.new : PlanarGraph F32 Unit Unit) [.addNode ⟨lit 0 1, lit 0 1⟩ (), .addNode ⟨lit 1 (2 ^ 22), lit 0 1⟩ ()]).map
      (fun g => g.nodeCount) = .ok 2 ∧
    (run .release (PlanarGraph.new : PlanarGraph F32 Unit Unit) (([.addNode ⟨lit 0 1, lit 0 1⟩ (),
      .addNode ⟨lit 1 (2 ^ 22), lit 0 1⟩ ()] : List (Op F32 Unit Unit)).map (moveOp fun v => ⟨v.x + lit 4 1, v.y⟩))).map
      (fun g => g.nodeCount) = .ok 1 := by decide +kernel

/-- a cross drawn with two edges, and its image under a quarter turn: five nodes and four edges both times, and the crossing is
the image of the crossing -/
example :
    let ops : List (Op F32 Unit Unit) := [.addNode ⟨lit 3 1, lit 0 1⟩ (), .addNode ⟨lit 0 1, lit 2 1⟩ (), .addNode ⟨lit (-2) 1, lit (-1) 1⟩ (),
      .addNode ⟨lit 1 1, lit 2 1⟩ (), .addEdge 0 1 (), .addEdge 2 3 ()]
    ∃ g g' a a', run .release PlanarGraph.new ops = .ok g ∧ run .release PlanarGraph.new (ops.map (moveOp (squareMap true true false))) = .ok g' ∧
      g.edges.length = 4 ∧ g'.edges = g.edges ∧ g.nodes[4]? = some a ∧ g'.nodes[4]? = some a' ∧
      a'.position = ⟨-a.position.y, a.position.x⟩ :=
  ⟨_, _, _, _, rfl, rfl, by decide +kernel, by decide +kernel, rfl, rfl, by decide +kernel⟩

end Kami.Graph
