import Verif.Graph.SymmetryF32
import Verif.Geom.Simple.Affine
/-!
# C144 in `f32`: the polygon code under the symmetries of the square

Exchanging coordinates and changing their signs involves no rounding.  The orientation tests and `area` follow these maps bit for
bit; `triangulate` follows the half turn.  `between` decides collinear cases by one coordinate only and follows the maps that do
not exchange the coordinates.
-/

set_option autoImplicit false

namespace Kami.PolySym

open Kami Kami.F32 Kami.Polygon Kami.Transfer Kami.Graph
open scoped Kami

/-- does the map keep the orientation? -/
def turns (swap nx ny : Bool) : Bool := swap ^^ nx ^^ ny

theorem lt_neg_neg (a b : F32) : F32.lt (-a) (-b) = F32.lt b a := by
  have hv : ∀ (s : Bool) n, val (!s) n = - val s n := by intro s n; cases s <;> simp [val]
  show F32.lt (F32.neg a) (F32.neg b) = _
  rcases a with _ | s | ⟨s, m⟩ <;> rcases b with _ | t | ⟨t, n⟩ <;> simp only [F32.neg, F32.lt]
  · cases s <;> cases t <;> rfl
  · simp
  · rw [hv, hv, decide_eq_decide]; omega

theorem eq_neg_neg (a b : F32) : F32.eq (-a) (-b) = F32.eq a b := by
  have hv : ∀ (s : Bool) n, val (!s) n = - val s n := by intro s n; cases s <;> simp [val]
  show F32.eq (F32.neg a) (F32.neg b) = _
  rcases a with _ | s | ⟨s, m⟩ <;> rcases b with _ | t | ⟨t, n⟩ <;> simp only [F32.neg, F32.eq]
  · cases s <;> cases t <;> rfl
  · rw [hv, hv, decide_eq_decide]; omega

theorem eq_comm' (a b : F32) : F32.eq a b = F32.eq b a := by
  rcases a with _ | s | ⟨s, m⟩ <;> rcases b with _ | t | ⟨t, n⟩ <;> simp only [F32.eq]
  · cases s <;> cases t <;> rfl
  · rw [decide_eq_decide]; exact ⟨Eq.symm, Eq.symm⟩

theorem le_neg_neg (a b : F32) : F32.le (-a) (-b) = F32.le b a := by
  unfold F32.le
  rw [lt_neg_neg, eq_neg_neg, eq_comm' b a]

/-- `area2` of the images is `area2`, with the sign changed when the map is a reflection, up to the sign of zero -/
theorem sg_area2 (swap nx ny : Bool) (a b c : Vec2 F32) :
    Sg (turns swap nx ny) (area2 a b c) (area2 (squareMap swap nx ny a) (squareMap swap nx ny b) (squareMap swap nx ny c)) := by
  have pa := (mirror_self swap nx ny a).coords
  have pb := (mirror_self swap nx ny b).coords
  have pc := (mirror_self swap nx ny c).coords
  generalize squareMap swap nx ny a = a' at *
  generalize squareMap swap nx ny b = b' at *
  generalize squareMap swap nx ny c = c' at *
  unfold area2
  cases swap
  · simp only [Bool.false_eq_true, if_false] at pa pb pc
    have h := ((pb.1.sub pa.1).mul (pc.2.sub pa.2)).sub ((pc.1.sub pa.1).mul (pb.2.sub pa.2))
    simpa only [turns, Bool.false_xor] using h
  · simp only [if_true] at pa pb pc
    have h := ((pc.1.sub pa.1).mul (pb.2.sub pa.2)).swap_sub ((pb.1.sub pa.1).mul (pc.2.sub pa.2))
    rw [Same.mul_comm (c.y - a.y), Same.mul_comm (b.y - a.y)] at h
    simpa only [turns, Bool.true_xor, Bool.not_bne] using h

/-- the sign of a number, as the tests see it -/
theorem sg_pos {ε : Bool} {x y : F32} (h : Sg ε x y) :
    F32.lt (ofBits 0) y = (if ε then F32.lt x (ofBits 0) else F32.lt (ofBits 0) x) ∧
    F32.lt y (ofBits 0) = (if ε then F32.lt (ofBits 0) x else F32.lt x (ofBits 0)) ∧
    F32.eq y (ofBits 0) = F32.eq x (ofBits 0) ∧
    F32.le (ofBits 0) y = (if ε then F32.le x (ofBits 0) else F32.le (ofBits 0) x) := by
  have hz : Same (-(ofBits 0)) (ofBits 0) := .inr ⟨true, false, rfl, rfl⟩
  have hr : Same (ofBits 0) (ofBits 0) := .refl _
  cases ε
  · have h : Same x y := h
    exact ⟨(same_lt hr h).symm, (same_lt h hr).symm, (same_eq h hr).symm, (same_le hr h).symm⟩
  · have h : Same (-x) y := h
    refine ⟨?_, ?_, ?_, ?_⟩
    · rw [← same_lt hz h, lt_neg_neg]; rfl
    · rw [← same_lt h hz, lt_neg_neg]; rfl
    · rw [← same_eq h hz, eq_neg_neg]
    · rw [← same_le hz h, le_neg_neg]; rfl

theorem sg_swap (a b c : Vec2 F32) : Sg true (area2 a b c) (area2 a c b) := neg_sub' _ _

/-- **C144, tests in `f32`.** The rotations of the square keep the orientation tests bit for bit, for all `f32` coordinates. -/
theorem C144_tests_f32 (swap nx ny : Bool) (hr : turns swap nx ny = false) (a b c : Vec2 F32) :
    let σ := squareMap swap nx ny
    left (σ a) (σ b) (σ c) = left a b c ∧ leftOn (σ a) (σ b) (σ c) = leftOn a b c ∧
    collinear (σ a) (σ b) (σ c) = collinear a b c := by
  have h := sg_area2 swap nx ny a b c
  rw [hr] at h
  exact ⟨(sg_pos h).1, (sg_pos h).2.2.2, (sg_pos h).2.2.1⟩

/-- **C144, mirror images in `f32`.** The reflections of the square exchange left and right. -/
theorem C144_tests_mirror_f32 (swap nx ny : Bool) (hr : turns swap nx ny = true) (a b c : Vec2 F32) :
    let σ := squareMap swap nx ny
    left (σ a) (σ b) (σ c) = left a c b ∧ leftOn (σ a) (σ b) (σ c) = leftOn a c b ∧
    collinear (σ a) (σ b) (σ c) = collinear a b c := by
  have h := sg_area2 swap nx ny a b c
  rw [hr] at h
  have h' := sg_swap a b c
  exact ⟨(sg_pos h).1.trans (sg_pos h').1.symm, (sg_pos h).2.2.2.trans (sg_pos h').2.2.2.symm, (sg_pos h).2.2.1⟩

theorem sg_collinear (swap nx ny : Bool) (a b c : Vec2 F32) :
    collinear (squareMap swap nx ny a) (squareMap swap nx ny b) (squareMap swap nx ny c) = collinear a b c :=
  (sg_pos (sg_area2 swap nx ny a b c)).2.2.1

/-- the order of three numbers, when all their signs are changed or none -/
theorem range_neg (ε : Bool) (a b c : F32) :
    let f := fun x : F32 => if ε then -x else x
    ((F32.le (f a) (f c) && F32.le (f c) (f b)) || (F32.le (f c) (f a) && F32.le (f b) (f c))) =
      ((F32.le a c && F32.le c b) || (F32.le c a && F32.le b c)) := by
  cases ε
  · rfl
  · simp only [if_true, le_neg_neg]
    rw [Bool.or_comm]

/-- **C144, between in `f32`.** `between` is kept by changes of sign of either coordinate. -/
theorem C144_between_f32 (nx ny : Bool) (a b c : Vec2 F32) :
    between (squareMap false nx ny a) (squareMap false nx ny b) (squareMap false nx ny c) = between a b c := by
  unfold between
  rw [sg_collinear]
  have hx := range_neg nx a.x b.x c.x
  have hy := range_neg ny a.y b.y c.y
  have he : F32.eq (if nx then -a.x else a.x) (if nx then -b.x else b.x) = F32.eq a.x b.x := by
    cases nx
    · rfl
    · exact eq_neg_neg _ _
  show (if _ then _ else if (!F32.eq (if nx then -a.x else a.x) (if nx then -b.x else b.x)) = true then _ else _) = _
  rw [he]
  show (if _ then _ else if _ then
      ((F32.le (if nx then -a.x else a.x) (if nx then -c.x else c.x) && F32.le (if nx then -c.x else c.x) (if nx then -b.x else b.x)) ||
        (F32.le (if nx then -c.x else c.x) (if nx then -a.x else a.x) && F32.le (if nx then -b.x else b.x) (if nx then -c.x else c.x)))
    else ((F32.le (if ny then -a.y else a.y) (if ny then -c.y else c.y) && F32.le (if ny then -c.y else c.y) (if ny then -b.y else b.y)) ||
        (F32.le (if ny then -c.y else c.y) (if ny then -a.y else a.y) && F32.le (if ny then -b.y else b.y) (if ny then -c.y else c.y)))) = _
  rw [hx, hy]
  rfl

/-- **C144, sharp.** `between` is not kept by a quarter turn: the products of `area2` underflow, so the three points count as
collinear, and only the coordinate `x` is compared. -/
theorem C144_sharp_quarter : ∃ a b c : Vec2 F32, between a b c = true ∧
    between (squareMap true true false a) (squareMap true true false b) (squareMap true true false c) = false :=
  ⟨⟨lit 0, lit 0⟩, ⟨lit 1 (2 ^ 149), lit 1 2⟩, ⟨lit 0, lit (-1) 4⟩, by decide +kernel⟩

/-- the half turn `(x, y) ↦ (-x, -y)` -/
def halfTurn (v : Vec2 F32) : Vec2 F32 := ⟨-v.x, -v.y⟩

theorem half_agrees : Agrees (fun _ => True) halfTurn := by
  have ht := fun a b c => C144_tests_f32 false true true rfl a b c
  refine ⟨fun a b c _ _ _ => (ht a b c).1, fun a b c _ _ _ => (ht a b c).2.1, fun a b c _ _ _ => (ht a b c).2.2, ?_,
    fun a b c _ _ _ => C144_between_f32 true true a b c⟩
  intro a b c _ _ _
  have h : Sg false (area2 a b c) (area2 (halfTurn a) (halfTurn b) (halfTurn c)) := sg_area2 false true true a b c
  have h0 : Sg false (ofBits 0) (ofBits 0) := Same.refl _
  exact (sg_pos (h0.add h)).2.1

/-- **C144, triangulate in `f32`.** For all polygons of `f32` points, finite or not: `triangulate` ends on the polygon turned by a
half turn exactly when it ends on the polygon, with the turned triangles in the same order, or with the same panic. -/
theorem C144_triangulate_f32 (P : Polygon F32) (out : Res (List (Polygon F32))) :
    Triangulates (Polygon.mk (P.vertices.map halfTurn)) out ↔
      ∃ out', Triangulates P out' ∧ out = out'.map (List.map fun T => ⟨T.vertices.map halfTurn⟩) :=
  triangulates_map half_agrees P (fun _ _ => trivial) out

/-- **C144, diagonal in `f32`.** -/
theorem C144_diagonal_f32 (P : Polygon F32) (i j : Nat) :
    (Polygon.mk (P.vertices.map halfTurn)).diagonal i j = P.diagonal i j :=
  diagonal_map half_agrees P (fun _ _ => trivial) i j

theorem sg_fan (swap nx ny : Bool) (a : Vec2 F32) (l : List (Vec2 F32)) (s s' : F32) (h : Sg (turns swap nx ny) s s') :
    Sg (turns swap nx ny) (fanSum a l s) (fanSum (squareMap swap nx ny a) (l.map (squareMap swap nx ny)) s') := by
  induction l generalizing s s' with
  | nil => exact h
  | cons b l ih =>
    cases l with
    | nil => exact h
    | cons c l => exact ih _ _ (h.add (sg_area2 swap nx ny a b c))

theorem sg_areaPoly (swap nx ny : Bool) (l : List (Vec2 F32)) :
    Sg (turns swap nx ny) (Polygon.mk l).areaPoly2 (Polygon.mk (l.map (squareMap swap nx ny))).areaPoly2 := by
  have h0 : Sg (turns swap nx ny) (OrdScalar.zero : F32) OrdScalar.zero := by
    cases turns swap nx ny
    · exact Same.refl _
    · exact .inr ⟨true, false, rfl, rfl⟩
  cases l with
  | nil => exact h0
  | cons a l => exact sg_fan swap nx ny a l _ _ h0

/-- **C144, area in `f32`.** All eight symmetries of the square keep `area` bit for bit. -/
theorem C144_area_f32 (swap nx ny : Bool) (P : Polygon F32) :
    (Polygon.mk (P.vertices.map (squareMap swap nx ny))).area = P.area := by
  have h := sg_areaPoly swap nx ny P.vertices
  have habs : ∀ (ε : Bool) (x y : F32), Sg ε x y → F32.abs y = F32.abs x := by
    intro ε x y h
    have hn : F32.abs (-x) = F32.abs x := by cases x <;> rfl
    have hs : Same x y ∨ Same (-x) y := by cases ε; exacts [.inl h, .inr h]
    rcases hs with (h | ⟨s, t, h1, h2⟩) | (h | ⟨s, t, h1, h2⟩)
    · rw [h]
    · rw [h1, h2]; rfl
    · rw [← h, hn]
    · rw [← hn, h1, h2]; rfl
  show F32.mul (F32.abs _) _ = F32.mul (F32.abs _) _
  rw [habs _ _ _ h]

theorem sg_lt_asymm {a b : F32} (h : F32.lt a b = true) : F32.lt b a = false := by
  rcases a with _ | s | ⟨s, m⟩ <;> rcases b with _ | t | ⟨t, n⟩ <;> simp only [F32.lt] at h ⊢
  all_goals first
    | (cases h; done)
    | (cases s <;> cases t <;> simp_all; done)
    | (simp only [decide_eq_true_eq, decide_eq_false_iff_not] at h ⊢; omega)

/-- **C144, new in `f32`.** `Polygon::new` of a turned list is the turned polygon; of a mirrored list whose computed area is a number
other than 0, the mirrored polygon listed backwards. -/
theorem C144_new_f32 (swap nx ny : Bool) (vs : List (Vec2 F32)) :
    let σ := squareMap swap nx ny
    (turns swap nx ny = false → Polygon.new (vs.map σ) = (Polygon.new vs).map fun P => ⟨P.vertices.map σ⟩) ∧
    (turns swap nx ny = true →
      ((Polygon.mk vs).areaPoly2 <. OrdScalar.zero) = true ∨ (OrdScalar.zero <. (Polygon.mk vs).areaPoly2) = true →
      Polygon.new (vs.map σ) = (Polygon.new vs).map fun P => ⟨(P.vertices.map σ).reverse⟩) := by
  intro σ
  have h := sg_areaPoly swap nx ny vs
  unfold Polygon.new
  rw [List.length_map]
  by_cases hl : vs.length < 3
  · rw [if_pos hl, if_pos hl]
    exact ⟨fun _ => rfl, fun _ _ => rfl⟩
  · rw [if_neg hl, if_neg hl]
    have e1 : ((Polygon.mk (vs.map σ)).areaPoly2 <. OrdScalar.zero) =
      if turns swap nx ny then F32.lt (ofBits 0) (Polygon.mk vs).areaPoly2 else F32.lt (Polygon.mk vs).areaPoly2 (ofBits 0) :=
      (sg_pos h).2.1
    simp only [e1]
    constructor
    · intro hr
      rw [hr]
      show (if F32.lt (Polygon.mk vs).areaPoly2 (ofBits 0) = true then _ else _) =
        Except.map _ (if F32.lt (Polygon.mk vs).areaPoly2 (ofBits 0) = true then _ else _)
      split
      · rw [← List.map_reverse]; rfl
      · rfl
    · intro hr hne
      rw [hr]
      show (if F32.lt (ofBits 0) (Polygon.mk vs).areaPoly2 = true then _ else _) =
        Except.map _ (if F32.lt (Polygon.mk vs).areaPoly2 (ofBits 0) = true then _ else _)
      change F32.lt (Polygon.mk vs).areaPoly2 (ofBits 0) = true ∨ F32.lt (ofBits 0) (Polygon.mk vs).areaPoly2 = true at hne
      by_cases hp : F32.lt (Polygon.mk vs).areaPoly2 (ofBits 0) = true
      · have hq : ¬ F32.lt (ofBits 0) (Polygon.mk vs).areaPoly2 = true := by
          intro hq
          generalize (Polygon.mk vs).areaPoly2 = x at hp hq
          have := sg_lt_asymm hp
          rw [hq] at this; cases this
        rw [if_pos hp, if_neg hq]
        show _ = Except.ok (Polygon.mk ((vs.reverse.map σ).reverse))
        rw [List.map_reverse, List.reverse_reverse]
      · rw [if_neg hp, if_pos (hne.resolve_left hp)]; rfl

/-- the dart turned by a half turn triangulates, into two triangles -/
example : ∃ ts, Triangulates (⟨Simple.dart32.map halfTurn⟩ : Polygon F32) (.ok ts) ∧ ts.length = 2 := by
  obtain ⟨ts, h, hl⟩ := Simple.C98_counterexample_f32.1
  exact ⟨_, (C144_triangulate_f32 _ _).2 ⟨_, h, rfl⟩, by simpa using hl⟩

/-- a mirrored square is stored backwards -/
example : Polygon.new ([⟨lit 0, lit 0⟩, ⟨lit 1, lit 0⟩, ⟨lit 1, lit 1⟩].map (squareMap true false false)) =
    .ok ⟨[⟨lit 1, lit 1⟩, ⟨lit 0, lit 1⟩, ⟨lit 0, lit 0⟩]⟩ ∧ turns true false false = true := by decide +kernel

end Kami.PolySym
