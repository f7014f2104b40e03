import Verif.Geom.Simple.Transform
import Verif.Num.F32Scale
import Verif.Geom.DistF32
/-!
# C114: scaling by a power of two in f32

`uniform_scale` by `2^k` or `-2^k` is exact, and everything `polygon.rs` computes from the scaled polygon is what it computes
from the polygon, scaled: areas and the centre to the last bit, the orientation test, diagonals and triangles.
-/

set_option autoImplicit false

namespace Kami.Simple

open Kami Kami.Polygon Kami.Transfer Kami.F32 Kami.DistF32
open scoped Kami

/-! ### specification -/

/-- the coordinates of the point are finite, and before and after multiplication by `c` they are zero or of size between
`2^-39` and `2^50` -/
def FitsPt (c : ℚ) (v : Vec2 F32) : Prop :=
  (IsFin v.x ∧ Fits (toRat v.x) ∧ Fits (toRat v.x * c)) ∧ (IsFin v.y ∧ Fits (toRat v.y) ∧ Fits (toRat v.y * c))

/-! ### proofs -/

theorem lt_rat {x y : F32} (hx : IsFin x) (hy : IsFin y) : F32.lt x y = decide (toRat x < toRat y) := by
  rw [Bool.eq_iff_iff, lt_fin hx hy, decide_eq_true_iff, ← toRat_toReal, ← toRat_toReal]
  exact Rat.cast_lt

theorem le_rat {x y : F32} (hx : IsFin x) (hy : IsFin y) : F32.le x y = decide (toRat x ≤ toRat y) := by
  rw [Bool.eq_iff_iff, le_fin hx hy, decide_eq_true_iff, ← toRat_toReal, ← toRat_toReal]
  exact Rat.cast_le

theorem eq_rat {x y : F32} (hx : IsFin x) (hy : IsFin y) : F32.eq x y = decide (toRat x = toRat y) := by
  rw [Bool.eq_iff_iff, eq_fin hx hy, decide_eq_true_iff, ← toRat_toReal, ← toRat_toReal]
  exact Rat.cast_inj

theorem toRat_zero32 : toRat (ofBits 0) = 0 := by decide +kernel

/-- a point and its multiple -/
structure Pair (c : ℚ) (v w : Vec2 F32) : Prop where
  gx : Grid 87 1 199 v.x
  gy : Grid 87 1 199 v.y
  hx : Grid 87 1 199 w.x
  hy : Grid 87 1 199 w.y
  ex : toRat w.x = c * toRat v.x
  ey : toRat w.y = c * toRat v.y

/-- the scaled point -/
def scalePt (s : F32) (v : Vec2 F32) : Vec2 F32 := ⟨v.x * s, v.y * s⟩

theorem FitsPt.pair {s : F32} (hs : IsFin s) (hc : IsTwoPow (toRat s)) {v : Vec2 F32} (h : FitsPt (toRat s) v) :
    Pair (toRat s) v (scalePt s v) := by
  obtain ⟨⟨a1, a2, a3⟩, ⟨b1, b2, b3⟩⟩ := h
  obtain ⟨c1, c2⟩ := mul_two_pow hs hc a1 a2 a3
  obtain ⟨d1, d2⟩ := mul_two_pow hs hc b1 b2 b3
  refine ⟨Fits.grid a1 a2, Fits.grid b1 b2, Fits.grid c1 (c2 ▸ a3), Fits.grid d1 (d2 ▸ b3), ?_, ?_⟩
  · show toRat (v.x * s) = _
    rw [c2, mul_comm]
  · show toRat (v.y * s) = _
    rw [d2, mul_comm]

section
variable {c : ℚ} {v₁ v₂ v₃ w₁ w₂ w₃ : Vec2 F32}

theorem Pair.area2 (hc : IsTwoPow c) (p₁ : Pair c v₁ w₁) (p₂ : Pair c v₂ w₂) (p₃ : Pair c v₃ w₃) :
    Grid 25 8 249 (area2 v₁ v₂ v₃) ∧ Grid 25 8 249 (area2 w₁ w₂ w₃) ∧
    toRat (area2 w₁ w₂ w₃) = c ^ 2 * toRat (area2 v₁ v₂ v₃) := by
  unfold Kami.area2
  have sg : ∀ {x y : F32}, Grid 87 1 199 x → Grid 87 1 199 y → Grid 87 (1 + 1) 199 (x - y) := fun h h' =>
    Grid.sub (by norm_num) (by norm_num) (by norm_num) h h'
  have sr : ∀ {x y x' y' : F32}, Grid 87 1 199 x → Grid 87 1 199 y → Grid 87 1 199 x' → Grid 87 1 199 y' →
      toRat y = c * toRat x → toRat y' = c * toRat x' → toRat (y - y') = c * toRat (x - x') := fun h1 h2 h3 h4 h5 h6 =>
    rel_sub hc (by norm_num) (by norm_num) (by norm_num) (by norm_num) h1 h3 h2 h4 h5 h6
  have mg : ∀ {x y : F32}, Grid 87 (1 + 1) 199 x → Grid 87 (1 + 1) 199 y → Grid 25 ((1 + 1) * (1 + 1)) 249 (x * y) :=
    fun h h' => Grid.mul (by norm_num) (by norm_num) (by norm_num) (by norm_num) (by norm_num) h h'
  have mr : ∀ {x y x' y' : F32}, Grid 87 (1 + 1) 199 x → Grid 87 (1 + 1) 199 y → Grid 87 (1 + 1) 199 x' →
      Grid 87 (1 + 1) 199 y' → toRat y = c * toRat x → toRat y' = c * toRat x' → toRat (y * y') = c ^ 2 * toRat (x * x') :=
    fun h1 h2 h3 h4 h5 h6 =>
      rel_mul hc (ee := 25) (ff := 249) (by norm_num) (by norm_num) (by norm_num) (by norm_num) (by norm_num) (by norm_num)
        h1 h3 h2 h4 h5 h6
  have hc2 : IsTwoPow (c ^ 2) := by rw [sq]; exact hc.mul hc
  have a1 := mg (sg p₂.gx p₁.gx) (sg p₃.gy p₁.gy)
  have a2 := mg (sg p₃.gx p₁.gx) (sg p₂.gy p₁.gy)
  have b1 := mg (sg p₂.hx p₁.hx) (sg p₃.hy p₁.hy)
  have b2 := mg (sg p₃.hx p₁.hx) (sg p₂.hy p₁.hy)
  have k1 := Grid.sub (by norm_num) (by norm_num) (by norm_num) a1 a2
  have k2 := Grid.sub (by norm_num) (by norm_num) (by norm_num) b1 b2
  have e8 : (1 + 1) * (1 + 1) + (1 + 1) * (1 + 1) = 8 := rfl
  rw [e8] at k1 k2
  refine ⟨k1, k2, rel_sub hc2 (by norm_num) (by norm_num) (by norm_num) (by norm_num) a1 a2 b1 b2 ?_ ?_⟩
  · exact mr (sg p₂.gx p₁.gx) (sg p₂.hx p₁.hx) (sg p₃.gy p₁.gy) (sg p₃.hy p₁.hy)
      (sr p₂.gx p₂.hx p₁.gx p₁.hx p₂.ex p₁.ex) (sr p₃.gy p₃.hy p₁.gy p₁.hy p₃.ey p₁.ey)
  · exact mr (sg p₃.gx p₁.gx) (sg p₃.hx p₁.hx) (sg p₂.gy p₁.gy) (sg p₂.hy p₁.hy)
      (sr p₃.gx p₃.hx p₁.gx p₁.hx p₃.ex p₁.ex) (sr p₂.gy p₂.hy p₁.gy p₁.hy p₂.ey p₁.ey)

theorem sq_pos_of {c : ℚ} (hc : IsTwoPow c) : 0 < c ^ 2 := by
  have := hc.ne_zero
  positivity

theorem grid_zero (e i f : ℕ) : Grid e i f (ofBits 0) := ⟨false, ⟨0, by decide⟩, rfl, by
  show 2 ^ e ∣ mag 0
  simp [mag], by
  show mag 0 ≤ _
  simp [mag]⟩

theorem scale_agrees {s : F32} (hs : IsFin s) (hc : IsTwoPow (toRat s)) : Agrees (FitsPt (toRat s)) (scalePt s) := by
  have h2 := sq_pos_of hc
  have key : ∀ a b d, FitsPt (toRat s) a → FitsPt (toRat s) b → FitsPt (toRat s) d →
      IsFin (area2 a b d) ∧ IsFin (area2 (scalePt s a) (scalePt s b) (scalePt s d)) ∧
      toRat (area2 (scalePt s a) (scalePt s b) (scalePt s d)) = toRat s ^ 2 * toRat (area2 a b d) := by
    intro a b d ha hb hd
    obtain ⟨g1, g2, g3⟩ := Pair.area2 hc (ha.pair hs hc) (hb.pair hs hc) (hd.pair hs hc)
    exact ⟨g1.isFin, g2.isFin, g3⟩
  have hcol : ∀ a b d, FitsPt (toRat s) a → FitsPt (toRat s) b → FitsPt (toRat s) d →
      Kami.collinear (scalePt s a) (scalePt s b) (scalePt s d) = Kami.collinear a b d := by
    intro a b d ha hb hd
    obtain ⟨f1, f2, he⟩ := key a b d ha hb hd
    show F32.eq _ (ofBits 0) = F32.eq _ (ofBits 0)
    rw [eq_rat f1 zero_isFin, eq_rat f2 zero_isFin, he, toRat_zero32, decide_eq_decide, mul_eq_zero, or_iff_right h2.ne']
  refine ⟨?_, ?_, hcol, ?_, ?_⟩
  · intro a b d ha hb hd
    obtain ⟨f1, f2, he⟩ := key a b d ha hb hd
    show F32.lt (ofBits 0) _ = F32.lt (ofBits 0) _
    rw [lt_rat zero_isFin f1, lt_rat zero_isFin f2, he, toRat_zero32, decide_eq_decide, mul_pos_iff_of_pos_left h2]
  · intro a b d ha hb hd
    obtain ⟨f1, f2, he⟩ := key a b d ha hb hd
    show F32.le (ofBits 0) _ = F32.le (ofBits 0) _
    rw [le_rat zero_isFin f1, le_rat zero_isFin f2, he, toRat_zero32, decide_eq_decide, mul_nonneg_iff_of_pos_left h2]
  · intro a b d ha hb hd
    obtain ⟨g1, g2, g3⟩ := Pair.area2 hc (ha.pair hs hc) (hb.pair hs hc) (hd.pair hs hc)
    have hc2 : IsTwoPow (toRat s ^ 2) := by rw [sq]; exact hc.mul hc
    have f1 := (Grid.add (by norm_num) (by norm_num) (by norm_num) (grid_zero 25 0 249) g1).isFin
    have f2 := (Grid.add (by norm_num) (by norm_num) (by norm_num) (grid_zero 25 0 249) g2).isFin
    have he := rel_add hc2 (by norm_num) (by norm_num) (by norm_num) (by norm_num) (grid_zero 25 0 249) g1
      (grid_zero 25 0 249) g2 (by rw [toRat_zero32, mul_zero]) g3
    show F32.lt (ofBits 0 + _) (ofBits 0) = F32.lt (ofBits 0 + _) (ofBits 0)
    rw [lt_rat f1 zero_isFin, lt_rat f2 zero_isFin, he, toRat_zero32, decide_eq_decide]
    constructor
    · intro h; by_contra hn; push Not at hn; have := mul_nonneg h2.le hn; linarith
    · intro h; exact mul_neg_of_pos_of_neg h2 h
  · intro a b d ha hb hd
    have pa := ha.pair hs hc
    have pb := hb.pair hs hc
    have pd := hd.pair hs hc
    unfold Kami.between
    rw [hcol a b d ha hb hd]
    show (if _ then _ else if !(F32.eq (scalePt s a).x (scalePt s b).x) then
        ((F32.le (scalePt s a).x (scalePt s d).x) && (F32.le (scalePt s d).x (scalePt s b).x)) ||
          ((F32.le (scalePt s d).x (scalePt s a).x) && (F32.le (scalePt s b).x (scalePt s d).x))
      else ((F32.le (scalePt s a).y (scalePt s d).y) && (F32.le (scalePt s d).y (scalePt s b).y)) ||
          ((F32.le (scalePt s d).y (scalePt s a).y) && (F32.le (scalePt s b).y (scalePt s d).y))) =
      (if _ then _ else if !(F32.eq a.x b.x) then
        ((F32.le a.x d.x) && (F32.le d.x b.x)) || ((F32.le d.x a.x) && (F32.le b.x d.x))
      else ((F32.le a.y d.y) && (F32.le d.y b.y)) || ((F32.le d.y a.y) && (F32.le b.y d.y)))
    rw [eq_rat pa.hx.isFin pb.hx.isFin, le_rat pa.hx.isFin pd.hx.isFin, le_rat pd.hx.isFin pb.hx.isFin,
      le_rat pd.hx.isFin pa.hx.isFin, le_rat pb.hx.isFin pd.hx.isFin,
      le_rat pa.hy.isFin pd.hy.isFin, le_rat pd.hy.isFin pb.hy.isFin,
      le_rat pd.hy.isFin pa.hy.isFin, le_rat pb.hy.isFin pd.hy.isFin,
      eq_rat pa.gx.isFin pb.gx.isFin, le_rat pa.gx.isFin pd.gx.isFin, le_rat pd.gx.isFin pb.gx.isFin,
      le_rat pd.gx.isFin pa.gx.isFin, le_rat pb.gx.isFin pd.gx.isFin,
      le_rat pa.gy.isFin pd.gy.isFin, le_rat pd.gy.isFin pb.gy.isFin,
      le_rat pd.gy.isFin pa.gy.isFin, le_rat pb.gy.isFin pd.gy.isFin,
      pa.ex, pb.ex, pd.ex, pa.ey, pb.ey, pd.ey]
    have e : (toRat s * toRat a.x = toRat s * toRat b.x) ↔ (toRat a.x = toRat b.x) := mul_right_inj' hc.ne_zero
    simp only [e]
    rcases lt_or_gt_of_ne hc.ne_zero with h | h
    · simp only [mul_le_mul_left_of_neg h]
      congr 2
      · rw [Bool.and_comm (decide (toRat d.x ≤ toRat a.x)), Bool.and_comm (decide (toRat a.x ≤ toRat d.x)), Bool.or_comm]
      · rw [Bool.and_comm (decide (toRat d.y ≤ toRat a.y)), Bool.and_comm (decide (toRat a.y ≤ toRat d.y)), Bool.or_comm]
    · simp only [mul_le_mul_iff_right₀ h]

end

theorem scale_mapP (P : Polygon F32) (s : F32) : P.uniformScale s = mapP (scalePt s) P := rfl

/-- **C114, coordinates.** Multiplying a coordinate by the power of two is exact. -/
theorem C114_exact (s : F32) (hs : IsFin s) (hc : IsTwoPow (toRat s)) (P : Polygon F32)
    (hP : ∀ v ∈ P.vertices, FitsPt (toRat s) v) :
    (P.uniformScale s).vertices.map (real ℚ) = P.vertices.map fun v => ⟨toRat v.x * toRat s, toRat v.y * toRat s⟩ := by
  show (P.vertices.map (scalePt s)).map (real ℚ) = _
  rw [List.map_map]
  refine List.map_congr_left fun v hv => ?_
  have p := (hP v hv).pair hs hc
  show (⟨((toRat (scalePt s v).x : ℚ) : ℚ), ((toRat (scalePt s v).y : ℚ) : ℚ)⟩ : Vec2 ℚ) = _
  rw [p.ex, p.ey, mul_comm, mul_comm (toRat s)]

/-- **C114, area2.** The area function of three scaled points is the square of the factor times that of the points, without any
rounding error of its own. -/
theorem C114_area2 (s : F32) (hs : IsFin s) (hc : IsTwoPow (toRat s)) (a b d : Vec2 F32) (ha : FitsPt (toRat s) a)
    (hb : FitsPt (toRat s) b) (hd : FitsPt (toRat s) d) :
    toRat (area2 (scalePt s a) (scalePt s b) (scalePt s d)) = toRat s ^ 2 * toRat (area2 a b d) :=
  (Pair.area2 hc (ha.pair hs hc) (hb.pair hs hc) (hd.pair hs hc)).2.2

/-- **C114, diagonals.** -/
theorem C114_diagonal (s : F32) (hs : IsFin s) (hc : IsTwoPow (toRat s)) (P : Polygon F32)
    (hP : ∀ v ∈ P.vertices, FitsPt (toRat s) v) (i j : Nat) : (P.uniformScale s).diagonal i j = P.diagonal i j := by
  rw [scale_mapP]
  exact diagonal_map (scale_agrees hs hc) P hP i j

/-- **C114, triangles.** `triangulate` ends on the scaled polygon exactly when it ends on the polygon, with the scaled
triangles in the same order. -/
theorem C114_triangulate (s : F32) (hs : IsFin s) (hc : IsTwoPow (toRat s)) (P : Polygon F32)
    (hP : ∀ v ∈ P.vertices, FitsPt (toRat s) v) (out : Res (List (Polygon F32))) :
    Triangulates (P.uniformScale s) out ↔ ∃ out', Triangulates P out' ∧ out = out'.map (List.map fun T => T.uniformScale s) := by
  simp only [scale_mapP]
  exact triangulates_map (scale_agrees hs hc) P hP out

/-! ### sums over the vertices -/

theorem fan_scale {c : ℚ} (hc : IsTwoPow c) (s : F32) {a : Vec2 F32} (pa : Pair c a (scalePt s a)) : ∀ (l : List (Vec2 F32)),
    (∀ v ∈ l, Pair c v (scalePt s v)) → ∀ (n : ℕ) (x y : F32), 8 * (n + l.length) ≤ 2 ^ 24 → Grid 25 (8 * n) 249 x →
    Grid 25 (8 * n) 249 y → toRat y = c ^ 2 * toRat x →
    Grid 25 (8 * (n + l.length)) 249 (fanSum a l x) ∧
    Grid 25 (8 * (n + l.length)) 249 (fanSum (scalePt s a) (l.map (scalePt s)) y) ∧
    toRat (fanSum (scalePt s a) (l.map (scalePt s)) y) = c ^ 2 * toRat (fanSum a l x)
  | [], _, n, x, y, _, gx, gy, h => ⟨gx, gy, h⟩
  | [b], _, n, x, y, hn, gx, gy, h => by
    simp only [List.length_cons, List.length_nil] at hn ⊢
    have wk : ∀ {z : F32}, Grid 25 (8 * n) 249 z → Grid 25 (8 * (n + (0 + 1))) 249 z := by
      rintro z ⟨t, m, rfl, h1, h2⟩
      exact ⟨t, m, rfl, h1, h2.trans (Nat.mul_le_mul_right _ (by omega))⟩
    exact ⟨wk gx, wk gy, h⟩
  | b :: d :: l, hl, n, x, y, hn, gx, gy, h => by
    simp only [List.length_cons] at hn
    obtain ⟨g1, g2, g3⟩ := Pair.area2 hc pa (hl b (by simp)) (hl d (by simp))
    have hc2 : IsTwoPow (c ^ 2) := by rw [sq]; exact hc.mul hc
    have e : 8 * n + 8 = 8 * (n + 1) := by ring
    have k1 := Grid.add (by norm_num) (by omega) (by norm_num) gx g1
    have k2 := Grid.add (by norm_num) (by omega) (by norm_num) gy g2
    have k3 := rel_add hc2 (by norm_num) (by norm_num) (by omega) (by norm_num) gx g1 gy g2 h g3
    rw [e] at k1 k2
    have := fan_scale hc s pa (d :: l) (fun v hv => hl v (List.mem_cons_of_mem _ hv)) (n + 1) _ _
      (by simp only [List.length_cons]; omega) k1 k2 k3
    simp only [List.length_cons] at this ⊢
    rw [show n + (l.length + 1 + 1) = n + 1 + (l.length + 1) by ring]
    exact this

theorem areaPoly2_scale {s : F32} (hs : IsFin s) (hc : IsTwoPow (toRat s)) (P : Polygon F32) (hn : P.vertices.length ≤ 2 ^ 20)
    (hP : ∀ v ∈ P.vertices, FitsPt (toRat s) v) :
    Grid 25 (2 ^ 23) 249 P.areaPoly2 ∧ Grid 25 (2 ^ 23) 249 (P.uniformScale s).areaPoly2 ∧
    toRat (P.uniformScale s).areaPoly2 = toRat s ^ 2 * toRat P.areaPoly2 := by
  obtain ⟨l⟩ := P
  rcases l with _ | ⟨a, l⟩
  · refine ⟨grid_zero _ _ _, grid_zero _ _ _, ?_⟩
    show toRat (ofBits 0) = _ * toRat (ofBits 0)
    rw [toRat_zero32, mul_zero]
  · have hp : ∀ v ∈ a :: l, Pair (toRat s) v (scalePt s v) := fun v hv => (hP v hv).pair hs hc
    simp only [List.length_cons] at hn
    obtain ⟨h1, h2, h3⟩ := fan_scale hc s (hp a (by simp)) l (fun v hv => hp v (by simp [hv])) 0 (ofBits 0) (ofBits 0)
      (by omega) (grid_zero _ _ _) (grid_zero _ _ _) (by rw [toRat_zero32, mul_zero])
    have wk : ∀ {z : F32}, Grid 25 (8 * (0 + l.length)) 249 z → Grid 25 (2 ^ 23) 249 z := by
      rintro z ⟨t, m, rfl, h1, h2⟩
      exact ⟨t, m, rfl, h1, h2.trans (Nat.mul_le_mul_right _ (by omega))⟩
    exact ⟨wk h1, wk h2, h3⟩

/-- **C114, new.** The constructor turns the scaled vertices around exactly when it turns the vertices around. -/
theorem C114_new (s : F32) (hs : IsFin s) (hc : IsTwoPow (toRat s)) (l : List (Vec2 F32)) (hn : l.length ≤ 2 ^ 20)
    (hl : ∀ v ∈ l, FitsPt (toRat s) v) :
    Polygon.new (l.map (scalePt s)) = (Polygon.new l).map fun P => P.uniformScale s := by
  obtain ⟨g1, g2, g3⟩ := areaPoly2_scale hs hc ⟨l⟩ hn hl
  have h2 := sq_pos_of hc
  have hlt : F32.lt (areaPoly2 ⟨l.map (scalePt s)⟩) (ofBits 0) = F32.lt (areaPoly2 ⟨l⟩) (ofBits 0) := by
    have g2' : IsFin (areaPoly2 ⟨l.map (scalePt s)⟩) := g2.isFin
    have g3' : toRat (areaPoly2 ⟨l.map (scalePt s)⟩) = toRat s ^ 2 * toRat (areaPoly2 ⟨l⟩) := g3
    rw [lt_rat g1.isFin zero_isFin, lt_rat g2' zero_isFin, g3', toRat_zero32, decide_eq_decide]
    constructor
    · intro h; by_contra hn; push Not at hn; have := mul_nonneg h2.le hn; linarith
    · intro h; exact mul_neg_of_pos_of_neg h2 h
  unfold Polygon.new
  rw [List.length_map]
  split
  · rfl
  · show (if F32.lt (areaPoly2 ⟨l.map (scalePt s)⟩) (ofBits 0) = true then _ else _) = 
      Except.map _ (if F32.lt (areaPoly2 ⟨l⟩) (ofBits 0) = true then _ else _)
    rw [hlt]
    split
    · show Except.ok (⟨(l.map (scalePt s)).reverse⟩ : Polygon F32) = Except.ok ⟨l.reverse.map (scalePt s)⟩
      rw [List.map_reverse]
    · rfl

theorem abs_grid {e i f : ℕ} {x : F32} (h : Grid e i f x) : Grid e i f (F32.abs x) := by
  obtain ⟨s, m, rfl, h⟩ := h
  exact ⟨false, m, rfl, h⟩

theorem toRat_abs {x : F32} (h : IsFin x) : toRat (F32.abs x) = |toRat x| := by
  obtain ⟨s, m, rfl⟩ := h
  rw [abs_toRat]
  show (val false m : ℚ) / 2 ^ 149 = _
  simp [val]

/-- **C114, area.** -/
theorem C114_area (s : F32) (hs : IsFin s) (hc : IsTwoPow (toRat s)) (P : Polygon F32) (hn : P.vertices.length ≤ 2 ^ 20)
    (hP : ∀ v ∈ P.vertices, FitsPt (toRat s) v) :
    IsFin P.area ∧ IsFin (P.uniformScale s).area ∧ toRat (P.uniformScale s).area = toRat s ^ 2 * toRat P.area := by
  obtain ⟨g1, g2, g3⟩ := areaPoly2_scale hs hc P hn hP
  have hc2 : IsTwoPow (toRat s ^ 2) := by rw [sq]; exact hc.mul hc
  have hh : Grid 148 1 148 (ofBits 0x3f000000) := ⟨false, ⟨0x3f000000, by decide⟩, rfl, by
    show 2 ^ 148 ∣ mag 0x3f000000
    decide +kernel, by
    show mag 0x3f000000 ≤ _
    decide +kernel⟩
  have k1 := Grid.mul (ee := 24) (ff := 248) (by norm_num) (by norm_num) (by norm_num) (by norm_num) (by norm_num) (abs_grid g1) hh
  have k2 := Grid.mul (ee := 24) (ff := 248) (by norm_num) (by norm_num) (by norm_num) (by norm_num) (by norm_num) (abs_grid g2) hh
  refine ⟨k1.isFin, k2.isFin, ?_⟩
  refine rel_mul_fixed hc2 (ee := 24) (ff := 248) (by norm_num) (by norm_num) (by norm_num) (by norm_num) (by norm_num) (by norm_num)
    hh (abs_grid g1) (abs_grid g2) ?_
  show toRat (F32.abs (P.uniformScale s).areaPoly2) = toRat s ^ 2 * toRat (F32.abs P.areaPoly2)
  rw [toRat_abs g1.isFin, toRat_abs g2.isFin, g3, abs_mul, abs_of_pos (sq_pos_of hc)]

/-! ### the centre -/

/-- `usize as f32` of a small positive number -/
theorem ofNatF_small {n : ℕ} (hn : n ≤ 2 ^ 24) : ∃ p : Fin 0x7f800000, ofNatF n = fin false p ∧ mag p = n * 2 ^ 149 := by
  obtain ⟨p, hp, hm⟩ := exists_mag 149 n hn (by norm_num)
  refine ⟨⟨p, hp⟩, ?_, hm⟩
  unfold ofNatF F32.round pack
  have e : roundIdx (n * 2 ^ 149) 1 = p := by
    have := roundIdx_exact p 1 (by norm_num)
    rwa [hm, Nat.mul_one] at this
  rw [e, dif_pos hp]

/-- the sum of the first coordinates or of the second coordinates, as `center` computes it -/
theorem center_sums {c : ℚ} (hc : IsTwoPow c) (s : F32) : ∀ (l : List (Vec2 F32)), (∀ v ∈ l, Pair c v (scalePt s v)) →
    ∀ (n : ℕ) (a b : Vec2 F32), n + l.length ≤ 2 ^ 24 → Grid 87 n 199 a.x → Grid 87 n 199 a.y → Grid 87 n 199 b.x →
    Grid 87 n 199 b.y → toRat b.x = c * toRat a.x → toRat b.y = c * toRat a.y →
    let S := l.foldl (fun (acc v : Vec2 F32) => (⟨acc.x + v.x, acc.y + v.y⟩ : Vec2 F32)) a
    let T := (l.map (scalePt s)).foldl (fun (acc v : Vec2 F32) => (⟨acc.x + v.x, acc.y + v.y⟩ : Vec2 F32)) b
    Grid 87 (n + l.length) 199 S.x ∧ Grid 87 (n + l.length) 199 S.y ∧ Grid 87 (n + l.length) 199 T.x ∧
    Grid 87 (n + l.length) 199 T.y ∧ toRat T.x = c * toRat S.x ∧ toRat T.y = c * toRat S.y
  | [], _, n, a, b, _, h1, h2, h3, h4, h5, h6 => ⟨h1, h2, h3, h4, h5, h6⟩
  | v :: l, hl, n, a, b, hn, h1, h2, h3, h4, h5, h6 => by
    simp only [List.length_cons] at hn ⊢
    have p := hl v (by simp)
    have ad : ∀ {x y : F32}, Grid 87 n 199 x → Grid 87 1 199 y → Grid 87 (n + 1) 199 (x + y) := fun g g' =>
      Grid.add (by norm_num) (by omega) (by norm_num) g g'
    have rl : ∀ {x y x' y' : F32}, Grid 87 n 199 x → Grid 87 n 199 y → Grid 87 1 199 x' → Grid 87 1 199 y' →
        toRat y = c * toRat x → toRat y' = c * toRat x' → toRat (y + y') = c * toRat (x + x') := fun g1 g2 g3 g4 g5 g6 =>
      rel_add hc (by norm_num) (by norm_num) (by omega) (by norm_num) g1 g3 g2 g4 g5 g6
    have := center_sums hc s l (fun w hw => hl w (by simp [hw])) (n + 1) ⟨a.x + v.x, a.y + v.y⟩
      ⟨b.x + (scalePt s v).x, b.y + (scalePt s v).y⟩ (by omega) (ad h1 p.gx) (ad h2 p.gy) (ad h3 p.hx) (ad h4 p.hy)
      (rl h1 h3 p.gx p.hx h5 p.ex) (rl h2 h4 p.gy p.hy h6 p.ey)
    rw [show n + (l.length + 1) = n + 1 + l.length by ring]
    exact this

/-- **C114, centre.** -/
theorem C114_center (s : F32) (hs : IsFin s) (hc : IsTwoPow (toRat s)) (P : Polygon F32) (h0 : P.vertices ≠ [])
    (hn : P.vertices.length ≤ 2 ^ 24) (hP : ∀ v ∈ P.vertices, FitsPt (toRat s) v) :
    toRat (P.uniformScale s).center.x = toRat s * toRat P.center.x ∧
    toRat (P.uniformScale s).center.y = toRat s * toRat P.center.y := by
  obtain ⟨g1, g2, g3, g4, g5, g6⟩ := center_sums hc s P.vertices (fun v hv => (hP v hv).pair hs hc) 0 ⟨ofBits 0, ofBits 0⟩
    ⟨ofBits 0, ofBits 0⟩ (by omega) (grid_zero _ _ _) (grid_zero _ _ _) (grid_zero _ _ _) (grid_zero _ _ _)
    (by rw [toRat_zero32, mul_zero]) (by rw [toRat_zero32, mul_zero])
  have hlen : 0 < P.vertices.length := List.length_pos_iff.2 h0
  obtain ⟨p, hp, hm⟩ := ofNatF_small hn
  have hpp : p.val ≠ 0 := by
    intro h
    rw [h] at hm
    have : mag 0 = 0 := by simp [mag]
    rw [this] at hm
    have := Nat.mul_pos hlen (show 0 < 2 ^ 149 by norm_num)
    omega
  have hpe : mag p ≤ 2 ^ (87 + 126) := by
    rw [hm]
    calc P.vertices.length * 2 ^ 149 ≤ 2 ^ 24 * 2 ^ 149 := Nat.mul_le_mul_right _ hn
      _ ≤ 2 ^ (87 + 126) := by norm_num
  have fd : ∀ {x : F32}, Grid 87 (0 + P.vertices.length) 199 x → IsFin (x / ofNatF P.vertices.length) := by
    rintro x ⟨t, m, rfl, _, hb⟩
    rw [hp]
    have hmr : (mag m : ℝ) ≤ P.vertices.length * 2 ^ 199 := by rw [Nat.zero_add] at hb; exact_mod_cast hb
    have e2 : toReal (fin false p) = P.vertices.length := by
      show ((val false p : ℤ) : ℝ) / 2 ^ 149 = _
      rw [show val false p = (mag p : ℤ) by simp [val], hm]
      push_cast
      field_simp
      norm_num
    have e1 : |toReal (fin t m)| = mag m / 2 ^ 149 := by
      show |((val t m : ℤ) : ℝ) / 2 ^ 149| = _
      rw [abs_div, abs_of_pos (show (0 : ℝ) < 2 ^ 149 by positivity), ← Int.cast_abs, Int.abs_eq_natAbs, val_natAbs,
        Int.cast_natCast]
    have hl' : (0 : ℝ) < P.vertices.length := by exact_mod_cast hlen
    refine div_isFin ⟨_, _, rfl⟩ ⟨_, _, rfl⟩ (by rw [e2]; exact hl'.ne') ?_
    rw [abs_div, e1, e2, abs_of_pos hl', div_div, div_lt_iff₀ (by positivity)]
    refine lt_of_le_of_lt hmr ?_
    unfold maxHalf
    nlinarith
  have hs' : (P.uniformScale s).vertices.length = P.vertices.length := List.length_map _
  constructor
  · show toRat (_ / ofNatF (P.uniformScale s).vertices.length) = _ * toRat (_ / ofNatF P.vertices.length)
    rw [hs']
    exact rel_div hc hp hpp hpe g1 g3 (fd g1) (fd g3) g5
  · show toRat (_ / ofNatF (P.uniformScale s).vertices.length) = _ * toRat (_ / ofNatF P.vertices.length)
    rw [hs']
    exact rel_div hc hp hpp hpe g2 g4 (fd g2) (fd g4) g6

/-- three points on a line, for f32 as well -/
def onLine : List (Vec2 F32) := [⟨F32.lit 1, F32.lit 1⟩, ⟨F32.lit 2, F32.lit 3⟩, ⟨F32.lit 3, F32.lit 5⟩]

/-- **C114, other factors.** For the factor 0.1 none of this holds: `area_poly2` of these three points on a line is zero, that
of the scaled points is negative, and the constructor turns the scaled points around but not the points. -/
theorem C114_other_factors :
    toRat (areaPoly2 ⟨onLine⟩) = 0 ∧ Polygon.new onLine = .ok ⟨onLine⟩ ∧
    toRat (areaPoly2 ((⟨onLine⟩ : Polygon F32).uniformScale (F32.lit 1 10))) < 0 ∧
    Polygon.new (onLine.map (scalePt (F32.lit 1 10))) = .ok ⟨(onLine.map (scalePt (F32.lit 1 10))).reverse⟩ := by
  decide +kernel

/-- a clockwise quadrilateral with coordinates that are not on a small grid; the factor below is `-2^-7` -/
def thirds : List (Vec2 F32) := [⟨F32.lit 1 3, F32.lit 2 7⟩, ⟨F32.lit 100 3, F32.lit (-1) 9⟩, ⟨F32.lit 5 11, F32.lit 0⟩,
  ⟨F32.lit 1 10, F32.lit 1000 13⟩]

theorem thirds_fit : ∀ v ∈ thirds, FitsPt (toRat (F32.lit (-1) 128)) v := by
  have hf : ∀ v ∈ thirds, IsFin v.x ∧ IsFin v.y := by
    intro v hv
    simp only [thirds, List.mem_cons, List.not_mem_nil, or_false] at hv
    rcases hv with rfl | rfl | rfl | rfl <;> exact ⟨⟨_, _, rfl⟩, ⟨_, _, rfl⟩⟩
  have hb : ∀ v ∈ thirds, (Fits (toRat v.x) ∧ Fits (toRat v.x * toRat (F32.lit (-1) 128))) ∧
      (Fits (toRat v.y) ∧ Fits (toRat v.y * toRat (F32.lit (-1) 128))) := by
    unfold Fits
    decide +kernel
  exact fun v hv => ⟨⟨(hf v hv).1, (hb v hv).1⟩, ⟨(hf v hv).2, (hb v hv).2⟩⟩

theorem factor_fits : IsFin (F32.lit (-1) 128) ∧ IsTwoPow (toRat (F32.lit (-1) 128)) := by
  refine ⟨⟨true, _, rfl⟩, -7, ?_⟩
  have : toRat (F32.lit (-1) 128) = -1 / 128 := by decide +kernel
  rw [this]
  norm_num [abs_div]

example : ∃ P, Polygon.new thirds = .ok P ∧
    Polygon.new (thirds.map (scalePt (F32.lit (-1) 128))) = .ok (P.uniformScale (F32.lit (-1) 128)) := by
  rw [C114_new _ factor_fits.1 factor_fits.2 thirds (by decide) thirds_fit]
  exact ⟨⟨thirds.reverse⟩, by decide +kernel, by rw [show Polygon.new thirds = .ok ⟨thirds.reverse⟩ by decide +kernel]; rfl⟩

end Kami.Simple
