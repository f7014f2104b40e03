import Verif.Examples.Draw
import Verif.Geom.Simple.Check
import Verif.Geom.Simple.Transform
import Verif.Num.F32Error
/-!
# C97: the polygon of the example

The hard-coded polygon is simple; scaled and moved in `f32` it is exactly the scaled and moved polygon, `triangulate` ends
on it and the 16 triangles drawn tile it.  The fill colours of the triangles of any polygon are different.
-/

set_option autoImplicit false

namespace Kami.Draw

open Kami Kami.Svg Kami.Simple Kami.Polygon Kami.PolyThm

/-- the vertices of the polygon as it is drawn: ten times the coordinates in the program, plus 250, written out independently of
`demoCoords` -/
def demoExact : List (Vec2 ℚ) :=
  [⟨250, 250⟩, ⟨350, 320⟩, ⟨370, 280⟩, ⟨450, 330⟩, ⟨380, 420⟩, ⟨350, 370⟩, ⟨370, 390⟩, ⟨390, 340⟩, ⟨330, 350⟩,
    ⟨310, 390⟩, ⟨350, 400⟩, ⟨320, 430⟩, ⟨250, 410⟩, ⟨260, 380⟩, ⟨280, 400⟩, ⟨300, 330⟩, ⟨230, 340⟩, ⟨300, 300⟩]

/-- the same in `f32` -/
def demo32 : List (Vec2 F32) := demoCoords.map fun p => ⟨F32.lit (10 * p.1 + 250), F32.lit (10 * p.2 + 250)⟩

theorem demo_eq : demoPolygon F32.lit = .ok ⟨demo32⟩ := by decide +kernel

theorem demo_real : demo32.map (real ℚ) = demoExact := by decide +kernel

theorem demo_simple : SimplePolygon demoExact := simple_of_check (by decide +kernel)

theorem lit_rep {z : Int} (hz : |z| ≤ 2 ^ 24) : F32.Rep 149 (F32.lit z) z :=
  F32.rep_round 149 (by decide) z hz _ (fun _ => rfl) _ 1 (by decide) (by rw [Nat.mul_one])

theorem lit_grid {z : Int} (hz : |z| ≤ 2 ^ 24) : GridNum 0 (F32.lit z) := by
  have h := lit_rep hz
  refine ⟨?_, z, hz, ?_⟩
  · obtain ⟨s, n, h1, _⟩ := h
    exact ⟨s, n, h1⟩
  · rw [h.toRat, div_self (by positivity)]; simp

theorem demo_grid : GridBox 0 demo32 := by
  refine ⟨by norm_num, by norm_num, ?_, by decide +kernel⟩
  intro v hv
  obtain ⟨p, hp, rfl⟩ := List.mem_map.1 hv
  have : |10 * p.1 + 250| ≤ 2 ^ 24 ∧ |10 * p.2 + 250| ≤ 2 ^ 24 := by
    revert p
    decide
  exact ⟨lit_grid this.1, lit_grid this.2⟩

/-- **C97, triangulation.** The polygon of the example is simple; the program computes its vertices without rounding error,
`triangulate` ends on it, and the sixteen triangles tile it exactly. -/
theorem C97_triangulate : SimplePolygon demoExact ∧
    ∃ P ts, demoPolygon F32.lit = .ok P ∧ P.vertices.map (real ℚ) = demoExact ∧ Triangulates P (.ok ts) ∧ ts.length = 16 ∧
      Tiles demoExact (ts.map fun T => T.vertices.map (real ℚ)) := by
  refine ⟨demo_simple, ⟨demo32⟩, ?_⟩
  obtain ⟨ts, h1, h2⟩ := C82_triangulate (K := ℚ) ⟨demo32⟩ demo_grid (by rw [demo_real]; exact demo_simple)
    (by rw [demo_real]; decide +kernel)
  rw [show (⟨demo32⟩ : Polygon F32).vertices.map (real ℚ) = demoExact from demo_real] at h2
  refine ⟨ts, demo_eq, demo_real, h1, ?_, h2⟩
  simpa [demoExact] using h2.1

/-- the shapes of the fills: one polygon per triangle, with its vertices and its own hue -/
theorem drawFills_eq {F : Type} [Div F] [Mul F] (fmt : F → String) (ofNat : Nat → F) (len : Nat) (ts : List (Polygon F)) (i : Nat) :
    (drawFills fmt ofNat len ts i).length = ts.length ∧
    ∀ k T, ts[k]? = some T → ∃ e, (drawFills fmt ofNat len ts i)[k]? = some e ∧ e.tag = "polygon" ∧
      e.attr "points" = some (pointsAttr fmt T.vertices) ∧
      e.attr "fill" = some s!"hsl({fmt (hue ofNat (i + k) len)}, 100%, 50%)" ∧ e.attr "stroke" = some "none" := by
  induction ts generalizing i with
  | nil => exact ⟨rfl, fun k T h => by simp at h⟩
  | cons S ts ih =>
    obtain ⟨h1, h2⟩ := ih (i + 1)
    refine ⟨by simp [drawFills, h1], fun k T h => ?_⟩
    cases k with
    | zero =>
      simp only [List.getElem?_cons_zero, Option.some.injEq] at h
      subst h
      exact ⟨_, rfl, rfl, rfl, rfl, rfl⟩
    | succ k =>
      obtain ⟨e, h3, h4⟩ := h2 k T (by simpa using h)
      refine ⟨e, by simpa [drawFills] using h3, ?_⟩
      rwa [show i + 1 + k = i + (k + 1) by omega] at h4

/-- **C97, fills.** One polygon is filled per triangle of the triangulation, in order, with the vertices of the triangle. -/
theorem C97_fills {F : Type} [Div F] [Mul F] (fmt : F → String) (ofNat : Nat → F) (ts : List (Polygon F)) :
    (drawFills fmt ofNat ts.length ts 0).length = ts.length ∧
    ∀ k T, ts[k]? = some T → ∃ e, (drawFills fmt ofNat ts.length ts 0)[k]? = some e ∧ e.tag = "polygon" ∧
      e.attr "points" = some (String.intercalate " " (T.vertices.map fun p => fmt p.x ++ "," ++ fmt p.y)) ∧
      e.attr "fill" = some s!"hsl({fmt (ofNat k / ofNat ts.length * ofNat 360)}, 100%, 50%)" ∧
      e.attr "stroke" = some "none" := by
  obtain ⟨h1, h2⟩ := drawFills_eq fmt ofNat ts.length ts 0
  refine ⟨h1, fun k T h => ?_⟩
  obtain ⟨e, h3, h4, h5, h6⟩ := h2 k T h
  refine ⟨e, h3, h4, ?_, by simpa [hue] using h6⟩
  rw [h5]
  exact C75_points fmt T.vertices "" ""

/-! ### the hues -/

open F32

theorem lit_toReal {n : Nat} (hn : n ≤ 2 ^ 24) : IsFin (F32.lit n) ∧ toReal (F32.lit n) = n := by
  have h := lit_rep (z := n) (by rw [abs_of_nonneg (by positivity)]; exact_mod_cast hn)
  obtain ⟨s, m, h1, h2⟩ := h
  refine ⟨⟨s, m, h1⟩, ?_⟩
  rw [h1]
  show (val s m : ℝ) / 2 ^ 149 = n
  rw [h2, div_eq_iff (by positivity)]
  norm_cast

theorem rounds_nonneg {r : ℝ} (h0 : 0 ≤ r) {x : F32} (hr : RoundsTo r x) (hf : IsFin x) : 0 ≤ toReal x := by
  obtain ⟨s, m, rfl⟩ := hf
  obtain ⟨_, h1, _⟩ := hr
  have := h1 false ⟨0, by decide⟩
  rw [show toReal (fin false ⟨0, by decide⟩) = 0 from toReal_zero, sub_zero, abs_of_nonneg h0] at this
  by_contra hneg
  push Not at hneg
  rw [abs_of_nonneg (by linarith)] at this
  linarith

theorem quot_bounds {i n : Nat} (hi : i < n) {x y : F32} (f1 : IsFin x) (v1 : toReal x = i) (f2 : IsFin y)
    (v2 : toReal y = n) : IsFin (x / y) ∧ 0 ≤ toReal (x / y) ∧
    |toReal (x / y) - (i : ℝ) / n| ≤ 1 / 2 ^ 24 * ((i : ℝ) / n) + 1 / 2 ^ 150 := by
  have hn0 : (0 : ℝ) < n := by exact_mod_cast (by omega : 0 < n)
  have hr : RoundsTo ((i : ℝ) / n) (x / y) := by
    obtain ⟨s, m, e1⟩ := f1
    obtain ⟨t, k, e2⟩ := f2
    rw [← v1, ← v2, e1, e2]
    refine div_rounds s t m k ?_
    intro h0
    rw [e2, toReal_fin, h0, mag_zero] at v2
    rw [← v2] at hn0
    simp at hn0
  have hle : (i : ℝ) / n ≤ 1 := by rw [div_le_one hn0]; exact_mod_cast hi.le
  have h0 : 0 ≤ (i : ℝ) / n := by positivity
  have hf : IsFin (x / y) := hr.isFin (by
    rw [abs_of_nonneg h0]; unfold maxHalf
    refine lt_of_le_of_lt hle ?_
    norm_num)
  refine ⟨hf, rounds_nonneg h0 hr hf, ?_⟩
  have := div_err f1 f2 (by rw [v2]; exact hn0.ne') hf
  rw [v1, v2, abs_of_nonneg h0] at this
  unfold u η at this
  exact this

theorem hue_core {ρ : ℝ} (hle : ρ ≤ 1) {q z : F32} (f : IsFin q) (h0 : 0 ≤ toReal q)
    (he : |toReal q - ρ| ≤ 1 / 2 ^ 24 * ρ + 1 / 2 ^ 150) (f3 : IsFin z) (v3 : toReal z = 360) :
    IsFin (q * z) ∧ 0 ≤ toReal (q * z) ∧ |toReal (q * z) - 360 * ρ| ≤ 1442 / 2 ^ 24 := by
  have hη : (1 : ℝ) / 2 ^ 150 ≤ 1 / 2 ^ 24 := one_div_le_one_div_of_le (by positivity) (by norm_num)
  have hu : (1 : ℝ) / 2 ^ 24 * ρ ≤ 1 / 2 ^ 24 := by
    have : (0 : ℝ) < 1 / 2 ^ 24 := by positivity
    nlinarith
  have hd : (2 : ℝ) / 2 ^ 24 = 1 / 2 ^ 24 + 1 / 2 ^ 24 := by ring
  have he' : |toReal q - ρ| ≤ 2 / 2 ^ 24 := by linarith
  have hq1 : toReal q ≤ 2 := by
    have := (abs_le.1 he').2
    norm_num at this
    linarith
  have hprod : |toReal q * toReal z| < maxHalf := by
    rw [v3, abs_of_nonneg (by positivity)]
    unfold maxHalf
    refine lt_of_le_of_lt (mul_le_mul_of_nonneg_right hq1 (by norm_num)) ?_
    norm_num
  have hf2 : IsFin (q * z) := mul_isFin f f3 hprod
  have hm := mul_err f f3 hf2
  have hr : RoundsTo (toReal q * 360) (q * z) := by
    obtain ⟨s, m, e1⟩ := f
    obtain ⟨t, k, e2⟩ := f3
    have := mul_rounds s t m k
    rw [← e1, ← e2, v3] at this
    exact this
  refine ⟨hf2, rounds_nonneg (mul_nonneg h0 (by norm_num)) hr hf2, ?_⟩
  rw [v3, abs_of_nonneg (mul_nonneg h0 (by norm_num) : (0 : ℝ) ≤ toReal q * 360)] at hm
  unfold u η at hm
  have hm' : |toReal (q * z) - toReal q * 360| ≤ 722 / 2 ^ 24 := by
    have e1 : (1 : ℝ) / 2 ^ 24 * (toReal q * 360) ≤ 720 / 2 ^ 24 := by
      have : (720 : ℝ) / 2 ^ 24 = 1 / 2 ^ 24 * (2 * 360) := by ring
      rw [this]
      exact mul_le_mul_of_nonneg_left (by linarith) (by positivity)
    have e2 : (722 : ℝ) / 2 ^ 24 = 720 / 2 ^ 24 + 2 / 2 ^ 24 := by ring
    have e3 : (1 : ℝ) / 2 ^ 24 ≤ 2 / 2 ^ 24 := by
      have : (0 : ℝ) < 1 / 2 ^ 24 := by positivity
      linarith
    linarith
  have e : toReal (q * z) - 360 * ρ = (toReal (q * z) - toReal q * 360) + 360 * (toReal q - ρ) := by ring
  rw [e]
  refine (abs_add_le _ _).trans ?_
  rw [abs_mul, abs_of_pos (by norm_num : (0 : ℝ) < 360)]
  have e4 : (1442 : ℝ) / 2 ^ 24 = 722 / 2 ^ 24 + 360 * (2 / 2 ^ 24) := by ring
  rw [e4]
  linarith

theorem hue_bounds' {i n : Nat} (hi : i < n) {x y z : F32} (hx : IsFin x ∧ toReal x = i) (hy : IsFin y ∧ toReal y = n)
    (hz : IsFin z ∧ toReal z = (360 : Nat)) :
    0 ≤ toReal (x / y * z) ∧ |toReal (x / y * z) - 360 * ((i : ℝ) / n)| ≤ 1442 / 2 ^ 24 := by
  have hn0 : (0 : ℝ) < n := by exact_mod_cast (by omega : 0 < n)
  have hle : (i : ℝ) / n ≤ 1 := by rw [div_le_one hn0]; exact_mod_cast hi.le
  obtain ⟨f, h0, he⟩ := quot_bounds hi hx.1 hx.2 hy.1 hy.2
  exact (hue_core hle f h0 he hz.1 (by rw [hz.2]; norm_num)).2

theorem hue_bounds {i n : Nat} (hi : i < n) (hn : n ≤ 2 ^ 20) :
    0 ≤ toReal (hue (fun m : Nat => F32.lit m) i n) ∧
    |toReal (hue (fun m : Nat => F32.lit m) i n) - 360 * ((i : ℝ) / n)| ≤ 1442 / 2 ^ 24 := by
  have key : ∀ f : Nat → F32, (∀ m, m ≤ 2 ^ 20 → IsFin (f m) ∧ toReal (f m) = m) →
      0 ≤ toReal (hue f i n) ∧ |toReal (hue f i n) - 360 * ((i : ℝ) / n)| ≤ 1442 / 2 ^ 24 :=
    fun f hf => hue_bounds' hi (hf i (by omega)) (hf n hn) (hf 360 (by norm_num))
  exact key _ fun m hm => lit_toReal (by omega)

/-- **C97, hues.** For up to 2^20 triangles, all hues are between 0 and 360, and a later triangle has a greater hue: no two
triangles get the same colour. -/
theorem C97_hues {n : Nat} (hn : n ≤ 2 ^ 20) :
    (∀ i, i < n → 0 ≤ toReal (hue (fun m : Nat => F32.lit m) i n) ∧ toReal (hue (fun m : Nat => F32.lit m) i n) < 360) ∧
    ∀ i j, i < j → j < n →
      toReal (hue (fun m : Nat => F32.lit m) i n) < toReal (hue (fun m : Nat => F32.lit m) j n) := by
  have gap : ∀ i j : Nat, i < j → j ≤ n → 360 * ((i : ℝ) / n) + 360 / 2 ^ 20 ≤ 360 * ((j : ℝ) / n) := by
    intro i j hij hj
    have hn0 : (0 : ℝ) < n := by exact_mod_cast (by omega : 0 < n)
    have hn' : (n : ℝ) ≤ 2 ^ 20 := by exact_mod_cast hn
    have h1 : (i : ℝ) + 1 ≤ j := by exact_mod_cast hij
    have h2 : (1 : ℝ) / 2 ^ 20 ≤ 1 / n := one_div_le_one_div_of_le hn0 hn'
    have h3 : ((i : ℝ) + 1) / n ≤ j / n := div_le_div_of_nonneg_right h1 hn0.le
    rw [add_div] at h3
    have h4 : (360 : ℝ) / 2 ^ 20 = 360 * (1 / 2 ^ 20) := by ring
    rw [h4]
    linarith
  constructor
  · intro i hi
    obtain ⟨h0, he⟩ := hue_bounds hi hn
    refine ⟨h0, ?_⟩
    have := gap i n hi le_rfl
    have hn0 : (n : ℝ) ≠ 0 := by exact_mod_cast (by omega : n ≠ 0)
    rw [div_self hn0] at this
    have h2 := (abs_le.1 he).2
    norm_num at this h2 ⊢
    linarith
  · intro i j hij hj
    have h1 := (abs_le.1 (hue_bounds (hij.trans hj) hn).2).2
    have h2 := (abs_le.1 (hue_bounds hj hn).2).1
    have := gap i j hij hj.le
    norm_num at this h1 h2 ⊢
    linarith

/-- the hues of the example are the multiples of 22.5 -/
example : (List.range 16).map (fun i => hue (fun m : Nat => F32.lit m) i 16) =
    (List.range 16).map fun i => F32.lit (45 * i) 2 := by decide +kernel

end Kami.Draw
