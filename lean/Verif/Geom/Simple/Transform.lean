import Verif.Geom.Simple.GridF32
/-!
# C98: `triangulate` after `translate` and `uniform_scale`

In exact arithmetic moving or scaling a polygon does not change what `diagonal` and `triangulate` do: the triangles are the
moved or scaled triangles.  In `f32` this fails as soon as rounding merges vertices.
-/

set_option autoImplicit false
set_option linter.unusedSectionVars false
set_option linter.dupNamespace false

namespace Kami.Simple

open Kami Kami.Pred Kami.PolyThm Kami.Polygon Kami.Transfer

variable {K : Type} [Field K] [LinearOrder K] [IsStrictOrderedRing K]

/-- the map `v ↦ s v + t` -/
def simil (s : K) (t v : Vec2 K) : Vec2 K := ⟨v.x * s + t.x, v.y * s + t.y⟩

theorem simil_area2 (s : K) (t a b c : Vec2 K) : area2 (simil s t a) (simil s t b) (simil s t c) = s ^ 2 * area2 a b c := by
  simp only [area2_eq, simil]; ring

theorem simil_injective {s : K} (hs : s ≠ 0) (t : Vec2 K) : Function.Injective (simil s t) := by
  intro v w h
  have hx := congrArg Vec2.x h
  have hy := congrArg Vec2.y h
  simp only [simil, add_left_inj] at hx hy
  exact Vec2.ext (mul_right_cancel₀ hs hx) (mul_right_cancel₀ hs hy)

theorem simil_agrees {s : K} (hs : s ≠ 0) (t : Vec2 K) : Agrees (fun _ => True) (simil s t) := by
  have h2 : 0 < s ^ 2 := by positivity
  have hc : ∀ a b c : Vec2 K, area2 (simil s t a) (simil s t b) (simil s t c) = 0 ↔ area2 a b c = 0 := by
    intro a b c; rw [simil_area2, mul_eq_zero, or_iff_right h2.ne']
  refine ⟨?_, ?_, ?_, ?_, ?_⟩
  · intro a b c _ _ _
    rw [Bool.eq_iff_iff, left_iff, left_iff, simil_area2, mul_pos_iff_of_pos_left h2]
  · intro a b c _ _ _
    rw [Bool.eq_iff_iff, leftOn_iff, leftOn_iff, simil_area2, mul_nonneg_iff_of_pos_left h2]
  · intro a b c _ _ _
    rw [Bool.eq_iff_iff, collinear_iff, collinear_iff, hc]
  · intro a b c _ _ _
    rw [simil_area2]
    show decide ((0 : K) + s ^ 2 * area2 a b c < 0) = decide ((0 : K) + area2 a b c < 0)
    rw [decide_eq_decide, zero_add, zero_add]
    constructor
    · intro h; by_contra hn; push Not at hn; have := mul_nonneg h2.le hn; linarith
    · intro h; exact mul_neg_of_pos_of_neg h2 h
  · intro a b c _ _ _
    rw [Bool.eq_iff_iff, between_iff, between_iff, hc]
    have e : ∀ x y u : K, x * s + u ≠ y * s + u ↔ x ≠ y := fun x y u => by
      rw [ne_eq, add_left_inj, mul_left_inj' hs]
    have e' : ∀ x y u : K, x * s + u = y * s + u ↔ x = y := fun x y u => by
      rw [add_left_inj, mul_left_inj' hs]
    simp only [simil, e, e', add_le_add_iff_right]
    rcases lt_or_gt_of_ne hs with h | h
    · simp only [mul_le_mul_right_of_neg h]
      tauto
    · simp only [mul_le_mul_iff_left₀ h]

theorem scale_simil (P : Polygon K) (s : K) : P.uniformScale s = mapP (simil s ⟨0, 0⟩) P := by
  simp [uniformScale, mapP, simil]

theorem translate_simil (P : Polygon K) (t : Vec2 K) : P.translate t = mapP (simil 1 t) P := by
  simp [translate, mapP, simil]

/-- **C98, scale.** For every polygon and every `s ≠ 0`: `triangulate` ends on the scaled polygon exactly when it ends on the
polygon, and the triangles are the scaled triangles, in the same order. -/
theorem C98_scale (P : Polygon K) {s : K} (hs : s ≠ 0) (out : Res (List (Polygon K))) :
    Triangulates (P.uniformScale s) out ↔ ∃ out', Triangulates P out' ∧ out = out'.map (List.map fun T => T.uniformScale s) := by
  simp only [scale_simil]
  exact triangulates_map (simil_agrees hs ⟨0, 0⟩) P (fun _ _ => trivial) out

/-- **C98, translate.** -/
theorem C98_translate (P : Polygon K) (t : Vec2 K) (out : Res (List (Polygon K))) :
    Triangulates (P.translate t) out ↔ ∃ out', Triangulates P out' ∧ out = out'.map (List.map fun T => T.translate t) := by
  simp only [translate_simil]
  exact triangulates_map (simil_agrees one_ne_zero t) P (fun _ _ => trivial) out

/-- **C98, diagonal.** -/
theorem C98_diagonal (P : Polygon K) {s : K} (hs : s ≠ 0) (t : Vec2 K) (i j : Nat) :
    (P.uniformScale s).diagonal i j = P.diagonal i j ∧ (P.translate t).diagonal i j = P.diagonal i j := by
  rw [scale_simil, translate_simil]
  exact ⟨diagonal_map (simil_agrees hs _) P (fun _ _ => trivial) i j,
    diagonal_map (simil_agrees one_ne_zero t) P (fun _ _ => trivial) i j⟩

theorem simil_onSeg {s : K} (hs : s ≠ 0) (t a b p : Vec2 K) : OnSeg (simil s t a) (simil s t b) (simil s t p) ↔ OnSeg a b p := by
  constructor
  · rintro ⟨r, h0, h1, hx, hy⟩
    simp only [simil] at hx hy
    exact ⟨r, h0, h1, mul_right_cancel₀ hs (by linear_combination hx), mul_right_cancel₀ hs (by linear_combination hy)⟩
  · rintro ⟨r, h0, h1, hx, hy⟩
    refine ⟨r, h0, h1, ?_, ?_⟩
    · simp only [simil]; rw [hx]; ring
    · simp only [simil]; rw [hy]; ring

theorem simil_surj {s : K} (hs : s ≠ 0) (t p : Vec2 K) : ∃ q, simil s t q = p :=
  ⟨⟨(p.x - t.x) / s, (p.y - t.y) / s⟩, by simp only [simil]; ext <;> simp [div_mul_cancel₀ _ hs]⟩

theorem simple_simil {s : K} (hs : s ≠ 0) (t : Vec2 K) (l : List (Vec2 K)) :
    SimplePolygon (l.map (simil s t)) ↔ SimplePolygon l := by
  unfold SimplePolygon
  rw [List.length_map, List.nodup_map_iff (simil_injective hs t)]
  refine and_congr_right fun _ => and_congr_right fun _ => ?_
  have hinj := simil_injective hs t
  constructor
  · intro h i j a b c d p hij hi hi' hj hj' h1 h2
    have := h i j (simil s t a) (simil s t b) (simil s t c) (simil s t d) (simil s t p) hij (by simp [hi]) (by simp [hi'])
      (by simp [hj]) (by simp [hj']) ((simil_onSeg hs ..).2 h1) ((simil_onSeg hs ..).2 h2)
    simpa only [hinj.eq_iff] using this
  · intro h i j a b c d p hij hi hi' hj hj' h1 h2
    rw [List.getElem?_map, Option.map_eq_some_iff] at hi hi' hj hj'
    obtain ⟨a, ha, rfl⟩ := hi
    obtain ⟨b, hb, rfl⟩ := hi'
    obtain ⟨c, hc, rfl⟩ := hj
    obtain ⟨d, hd, rfl⟩ := hj'
    obtain ⟨p, rfl⟩ := simil_surj hs t p
    have := h i j a b c d p hij ha hb hc hd ((simil_onSeg hs ..).1 h1) ((simil_onSeg hs ..).1 h2)
    simpa only [hinj.eq_iff] using this

/-- **C98, simple.** The scaled and the moved polygon are simple exactly when the polygon is. -/
theorem C98_simple (P : Polygon K) {s : K} (hs : s ≠ 0) (t : Vec2 K) :
    (SimplePolygon (P.uniformScale s).vertices ↔ SimplePolygon P.vertices) ∧
    (SimplePolygon (P.translate t).vertices ↔ SimplePolygon P.vertices) := by
  rw [scale_simil, translate_simil]
  exact ⟨simple_simil hs _ _, simple_simil one_ne_zero t _⟩

/-- the dart, moved and turned by a half turn (scale by -2), still triangulates -/
example : ∃ ts, Triangulates ((⟨dart⟩ : Polygon ℚ).uniformScale (-2)) (.ok ts) := by
  obtain ⟨ts, h⟩ := C35_terminates_ccw ⟨dart⟩ dart_simple (by decide +kernel)
  exact ⟨_, (C98_scale _ (by norm_num) _).2 ⟨_, h, rfl⟩⟩

/-- **C98, counterexample in `f32`.** The dart triangulates, but moved by (2^26, 0) it has no ear and `triangulate` runs
forever; scaled by 2^-149, likewise. -/
theorem C98_counterexample_f32 :
    (∃ ts, Triangulates (⟨dart32⟩ : Polygon F32) (.ok ts) ∧ ts.length = 2) ∧
    (∀ out, ¬ Triangulates ((⟨dart32⟩ : Polygon F32).translate ⟨F32.lit (2 ^ 26), F32.lit 0⟩) out) ∧
    (∀ out, ¬ Triangulates ((⟨dart32⟩ : Polygon F32).uniformScale (F32.lit 1 (2 ^ 149))) out) := by
  refine ⟨?_, fun out => Kami.Tri.no_ear_diverges _ (by decide) (by decide +kernel) out,
    fun out => Kami.Tri.no_ear_diverges _ (by decide) (by decide +kernel) out⟩
  obtain ⟨ts, h, h2, _⟩ := C82_triangulate (K := ℚ) ⟨dart32⟩ dart32_grid
    (by show SimplePolygon (dart32.map _); rw [dart32_real]; exact dart_simple)
    (by show 0 ≤ shoelace (dart32.map _); rw [dart32_real]; decide +kernel)
  exact ⟨ts, h, by simpa [dart32] using h2⟩

end Kami.Simple
