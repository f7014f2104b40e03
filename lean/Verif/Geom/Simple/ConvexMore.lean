import Verif.Geom.Simple.Convex
import Verif.Geom.Simple.FilterF32
import Verif.Geom.Regular
import Verif.Geom.Transfer
/-!
# C99: convex polygons in `f32`, regular polygons, flat polygons
-/

set_option autoImplicit false
set_option linter.unusedSectionVars false
set_option linter.dupNamespace false

namespace Kami.Simple

open Kami Kami.Pred Kami.PolyThm Kami.Polygon Kami.Transfer Kami.F32
open scoped Kami

variable {K : Type} [Field K] [LinearOrder K] [IsStrictOrderedRing K]

/-! ### other arithmetics -/

theorem fanOk_of_agrees {F : Type} [OrdScalar F] {S : Vec2 F → Prop} {φ : Vec2 F → Vec2 K} (hA : Agrees S φ)
    {m : List (Vec2 F)} {z : Vec2 F} (hS : ∀ v ∈ m ++ [z], S v) (h : ConvexPolygon ((m ++ [z]).map φ)) : FanOk m z := by
  rw [List.map_append, List.map_singleton] at h
  refine ⟨?_, ?_⟩
  · intro t ht h3 i j hi hj
    have hSt : ∀ v ∈ t ++ [z], S v := by
      intro v hv
      refine hS v ?_
      rcases List.mem_append.1 hv with hv | hv
      · exact List.mem_append_left _ (ht.mem hv)
      · exact List.mem_append_right _ hv
    rw [← diagonal_map hA ⟨t ++ [z]⟩ hSt]
    have := (convex_fanOk h).diag (t.map φ) (ht.map φ) (by simpa using h3) i j (by simpa using hi) (by simpa using hj)
    simpa [mapP] using this
  · intro a b hab
    have hpos := convex_tri (convex_iff.1 h).2 (show [φ a, φ b] <:+: m.map φ from hab.map φ)
    have ha : S a := hS a (List.mem_append_left _ (hab.mem (by simp)))
    have hb : S b := hS b (List.mem_append_left _ (hab.mem (by simp)))
    have hz : S z := hS z (by simp)
    rw [Transfer.newUnwrap_three, if_neg]
    rw [← hA.neg z a b hz ha hb]
    simp only [Bool.not_eq_true]
    rw [show ((OrdScalar.zero + area2 (φ z) (φ a) (φ b)) <. OrdScalar.zero) = decide ((0:K) + area2 (φ z) (φ a) (φ b) < 0) from rfl]
    simp [hpos.le]

theorem fan_of_agrees {F : Type} [OrdScalar F] {S : Vec2 F → Prop} {φ : Vec2 F → Vec2 K} (hA : Agrees S φ)
    (P : Polygon F) (hS : ∀ v ∈ P.vertices, S v) (h : ConvexPolygon (P.vertices.map φ)) (m : List (Vec2 F)) (z : Vec2 F)
    (hv : P.vertices = m ++ [z]) : ∃ ts, Triangulates P (.ok ts) ∧ ts.map Polygon.vertices = fan z m := by
  have h3 := h.1
  rw [hv] at h h3 hS
  exact (fanOk_of_agrees hA hS h).run (by simp at h3; omega) hv

/-- **C99, `f32` on a grid.** On a grid (C82) the `f32` run of `triangulate` on a convex polygon returns the same fan. -/
theorem C99_fan_grid {k : ℤ} (P : Polygon F32) (hg : GridBox k P.vertices) (h : ConvexPolygon (P.vertices.map (real K)))
    (m : List (Vec2 F32)) (z : Vec2 F32) (hv : P.vertices = m ++ [z]) :
    ∃ ts, Triangulates P (.ok ts) ∧ ts.map Polygon.vertices = fan z m :=
  fan_of_agrees (grid_agrees hg) P (fun _ h => h) h m z hv

/-- **C99, `f32` in clear position.** In clear position (C88) the `f32` run of `triangulate` on a convex polygon returns the same
fan. -/
theorem C99_fan_clear (P : Polygon F32) (hc : ClearPosition P.vertices) (h : ConvexPolygon (P.vertices.map (real ℝ)))
    (m : List (Vec2 F32)) (z : Vec2 F32) (hv : P.vertices = m ++ [z]) :
    ∃ ts, Triangulates P (.ok ts) ∧ ts.map Polygon.vertices = fan z m :=
  fan_of_agrees (clear_agrees hc) P (fun _ h => h) h m z hv

/-! ### regular polygons -/

/-- real points as points of the ideal arithmetic with infinities and NaN -/
def emb (v : Vec2 ℝ) : Vec2 XReal := ⟨.fin v.x, .fin v.y⟩

theorem emb_agrees : Agrees (fun _ => True) emb := by
  have ha : ∀ a b c, area2 (emb a) (emb b) (emb c) = .fin (area2 a b c) := by
    intro a b c; simp [area2, emb]
  refine .of_order ?_ ?_ ?_ ?_ ?_ ?_ ?_
  · intro a b c _ _ _
    unfold left; rw [ha]; rfl
  · intro a b c _ _ _
    unfold leftOn; rw [ha, XReal.fin_zero, XReal.fin_le]; rfl
  · intro a b c _ _ _
    unfold collinear; rw [ha]; rfl
  · intro a b c _ _ _
    rw [ha]; rfl
  · intro a b _ _; rfl
  · intro a b _ _; exact XReal.fin_le _ _
  · intro a b _ _; exact XReal.fin_le _ _

theorem emb_rv (p : ℝ × ℝ) : emb (rv p) = pt p := rfl

theorem circle_area (r : ℝ) (c : ℝ × ℝ) (x y z : ℝ) :
    area2 (rv (c.1 + r * Real.cos (2 * x), c.2 + r * Real.sin (2 * x))) (rv (c.1 + r * Real.cos (2 * y), c.2 + r * Real.sin (2 * y)))
      (rv (c.1 + r * Real.cos (2 * z), c.2 + r * Real.sin (2 * z))) =
      4 * r ^ 2 * (Real.sin (y - x) * Real.sin (z - y) * Real.sin (z - x)) := by
  simp only [area2_eq, rv, Real.sin_sub, Real.sin_two_mul, Real.cos_two_mul]
  have hx := Real.sin_sq_add_cos_sq x
  have hy := Real.sin_sq_add_cos_sq y
  have hz := Real.sin_sq_add_cos_sq z
  generalize Real.sin x = sx at *
  generalize Real.cos x = cx at *
  generalize Real.sin y = sy at *
  generalize Real.cos y = cy at *
  generalize Real.sin z = sz at *
  generalize Real.cos z = cz at *
  have ex : sx ^ 2 = 1 - cx ^ 2 := by linarith
  have ey : sy ^ 2 = 1 - cy ^ 2 := by linarith
  have ez : sz ^ 2 = 1 - cz ^ 2 := by linarith
  ring_nf
  simp only [ex, ey, ez]
  ring

/-- regular polygons are convex -/
theorem regular_convex (n : Nat) (hn : 3 ≤ n) (r : ℝ) (hr : r ≠ 0) (c : ℝ × ℝ) :
    ConvexPolygon (((List.range n).map (regVertex n r c)).map rv) := by
  refine convex_iff.2 ⟨by simpa using hn, ?_⟩
  intro i j k hij hjk hk
  have hk : k < n := by simpa using hk
  have hn0 : (0 : ℝ) < n := by positivity
  simp only [List.getElem_map, List.getElem_range, regVertex]
  have e : ∀ i : ℕ, 2 * Real.pi * (i : ℝ) / n = 2 * (Real.pi * (i : ℝ) / n) := by intro i; ring
  simp only [e, circle_area]
  have hs : ∀ i j : ℕ, i < j → j < n → 0 < Real.sin (Real.pi * (j : ℝ) / n - Real.pi * (i : ℝ) / n) := by
    intro i j hij hj
    have h1 : (i : ℝ) < j := by exact_mod_cast hij
    have h2 : (j : ℝ) < n := by exact_mod_cast hj
    have h3 : (0 : ℝ) ≤ i := by positivity
    have hp := Real.pi_pos
    have e : Real.pi * (j : ℝ) / n - Real.pi * (i : ℝ) / n = Real.pi * (j - i) / n := by ring
    rw [e]
    apply Real.sin_pos_of_pos_of_lt_pi
    · exact div_pos (mul_pos hp (by linarith)) hn0
    · rw [div_lt_iff₀ hn0]
      exact mul_lt_mul_of_pos_left (by linarith) hp
  have h1 := hs i j hij (by omega)
  have h2 := hs j k hjk hk
  have h3 := hs i k (by omega) hk
  positivity

theorem regular_eq (n : Nat) (hn : 3 ≤ n) (r : ℝ) (c : ℝ × ℝ) :
    Polygon.regular n (.fin r) (pt c) = .ok (xpoly ((List.range n).map (regVertex n r c))) := by
  obtain ⟨l, hl, hlen, hget, _⟩ := C30_regular n hn r c
  rw [hl]
  congr 2
  apply List.ext_getElem?
  intro i
  by_cases hi : i < n
  · rw [hget i hi]; simp [hi, regVertex]
  · rw [List.getElem?_eq_none (by omega), List.getElem?_eq_none (by simpa using hi)]

/-- **C99, regular polygons.** For every number of sides from 3 on, every radius other than 0 (also negative) and every centre,
`Polygon::regular` followed by `triangulate` ends, without a panic, with the fan around the last vertex. -/
theorem C99_regular (n : Nat) (hn : 3 ≤ n) (r : ℝ) (hr : r ≠ 0) (c : ℝ × ℝ) :
    ∃ P ts, Polygon.regular n (.fin r) (pt c) = .ok P ∧ Triangulates P (.ok ts) ∧ ts.map Polygon.vertices =
      fan (pt (c.1 + r * Real.cos (2 * Real.pi * ↑(n - 1) / n), c.2 + r * Real.sin (2 * Real.pi * ↑(n - 1) / n)))
        ((List.range (n - 1)).map fun i : ℕ =>
          pt (c.1 + r * Real.cos (2 * Real.pi * i / n), c.2 + r * Real.sin (2 * Real.pi * i / n))) := by
  refine ⟨xpoly ((List.range n).map (regVertex n r c)), ?_⟩
  have hreg := regular_eq n hn r c
  set Q : Polygon ℝ := ⟨((List.range n).map (regVertex n r c)).map rv⟩ with hQ
  have hmap : xpoly ((List.range n).map (regVertex n r c)) = mapP emb Q := by
    simp [xpoly, mapP, hQ, emb_rv, Function.comp_def]
  obtain ⟨m, rfl⟩ : ∃ m, n = m + 1 := ⟨n - 1, by omega⟩
  obtain ⟨ts, ht, hts⟩ := C99_fan Q (regular_convex _ hn r hr c) (((List.range m).map (regVertex (m + 1) r c)).map rv)
    (rv (regVertex (m + 1) r c m)) (by simp [hQ, List.range_succ])
  refine ⟨ts.map (mapP emb), hreg, ?_, ?_⟩
  · rw [hmap, triangulates_map emb_agrees Q (fun _ _ => trivial)]
    exact ⟨_, ht, rfl⟩
  · have hfan : ∀ (z : Vec2 ℝ) (m : List (Vec2 ℝ)), (fan z m).map (List.map emb) = fan (emb z) (m.map emb) := by
      intro z m
      induction m with
      | nil => rfl
      | cons a m ih =>
        match m with
        | [] => rfl
        | [b] => rfl
        | b :: d :: m => simp only [fan, List.map_cons] at ih ⊢; rw [ih]; rfl
    have : (ts.map (mapP emb)).map Polygon.vertices = (ts.map Polygon.vertices).map (List.map emb) := by
      simp [mapP, Function.comp_def]
    rw [this, hts, hfan]
    simp [emb_rv, Function.comp_def, regVertex]

/-! ### flat polygons -/

/-- **C99, flat polygons.** A polygon of at least four vertices, all on one line, is never triangulated: the loop runs forever. -/
theorem C99_flat (P : Polygon K) (h4 : 3 < P.vertices.length)
    (hflat : ∀ a ∈ P.vertices, ∀ b ∈ P.vertices, ∀ c ∈ P.vertices, (b.x - a.x) * (c.y - a.y) - (c.x - a.x) * (b.y - a.y) = 0)
    (out : Res (List (Polygon K))) : ¬ Triangulates P out := by
  have h0 : ∀ a ∈ P.vertices, ∀ b ∈ P.vertices, ∀ c ∈ P.vertices, area2 a b c = 0 := by
    intro a ha b hb c hc; rw [area2_eq]; exact hflat a ha b hb c hc
  have hcone : ∀ i j, i < P.vertices.length → j < P.vertices.length → P.inCone i j = .ok false := by
    intro i j hi hj
    unfold inCone
    rw [index_of_lt _ _ hi, index_of_lt _ _ hj, Tri.getNeighborIndices_ok P i (by omega)]
    simp only [bind, Except.bind]
    rw [index_of_lt _ _ (Tri.prv_lt hi), index_of_lt _ _ (Tri.nxt_lt hi)]
    have hl : ∀ a ∈ P.vertices, ∀ b ∈ P.vertices, ∀ c ∈ P.vertices, left a b c = false := by
      intro a ha b hb c hc
      unfold left
      rw [h0 a ha b hb c hc]
      exact decide_eq_false (lt_irrefl _)
    have hlo : ∀ a ∈ P.vertices, ∀ b ∈ P.vertices, ∀ c ∈ P.vertices, leftOn a b c = true := by
      intro a ha b hb c hc
      unfold leftOn
      rw [h0 a ha b hb c hc]
      exact decide_eq_true (le_refl _)
    simp [hl, hlo, pure, Except.pure]
  have hd : ∀ i j, i < P.vertices.length → j < P.vertices.length → P.diagonal i j = .ok false := by
    intro i j hi hj
    obtain ⟨b, hb⟩ := Tri.diagonal_ok P i j hi hj
    unfold diagonal at hb ⊢
    rw [hcone i j hi hj] at hb ⊢
    by_cases hij : i = j
    · simp [hij, pure, Except.pure]
    · cases hh : P.hitsEdge i j P.vertices.length 0 with
      | error e => rw [hh, if_neg hij] at hb; cases hb
      | ok f => cases f <;> simp [hij, pure, Except.pure, bind, Except.bind]
  have hf : ∀ count i, i + count ≤ P.vertices.length → P.earFlags count i = .ok (List.replicate count false) := by
    intro count
    induction count with
    | zero => intro i _; rfl
    | succ c ih =>
      intro i hi
      unfold earFlags
      rw [Tri.getNeighborIndices_ok P i (by omega)]
      simp only [bind, Except.bind]
      rw [hd _ _ (Tri.prv_lt (by omega)) (Tri.nxt_lt (by omega)), ih (i + 1) (by omega)]
      rfl
  exact Tri.no_ear_diverges P h4 (hf _ 0 (by omega)) out

/-- **C99, radius 0.** A regular polygon with radius 0 and at least four sides is built without a panic, but `triangulate` never
ends on it. -/
theorem C99_regular_zero (n : Nat) (hn : 4 ≤ n) (c : ℝ × ℝ) :
    ∃ P, Polygon.regular n (.fin 0) (pt c) = .ok P ∧ ∀ out, ¬ Triangulates P out := by
  refine ⟨_, regular_eq n (by omega) 0 c, ?_⟩
  intro out hout
  have hmap : xpoly ((List.range n).map (regVertex n 0 c)) = mapP emb ⟨((List.range n).map (regVertex n 0 c)).map rv⟩ := by
    simp [xpoly, mapP, emb_rv, Function.comp_def]
  rw [hmap, triangulates_map emb_agrees _ (fun _ _ => trivial)] at hout
  obtain ⟨out', ht, _⟩ := hout
  refine C99_flat _ (by simp; omega) ?_ out' ht
  have : ∀ a ∈ ((List.range n).map (regVertex n 0 c)).map rv, a = rv c := by
    intro a ha
    simp only [List.mem_map] at ha
    obtain ⟨_, ⟨i, _, rfl⟩, rfl⟩ := ha
    simp [regVertex]
  intro a ha b hb d hd
  rw [this a ha, this b hb, this d hd]
  ring

example : ∃ P ts, Polygon.regular 17 (.fin (-2)) (pt (1, 5)) = .ok P ∧ Triangulates P (.ok ts) := by
  obtain ⟨P, ts, h1, h2, _⟩ := C99_regular 17 (by norm_num) (-2) (by norm_num) (1, 5)
  exact ⟨P, ts, h1, h2⟩

/-- the pentagon in `f32` -/
def pentagon32 : List (Vec2 F32) :=
  [⟨F32.lit 0, F32.lit 0⟩, ⟨F32.lit 4, F32.lit 0⟩, ⟨F32.lit 5, F32.lit 3⟩, ⟨F32.lit 2, F32.lit 5⟩, ⟨F32.lit (-1), F32.lit 3⟩]

theorem pentagon32_real : pentagon32.map (real ℚ) = pentagon := by decide +kernel

theorem pentagon32_grid : GridBox 0 pentagon32 := by
  refine ⟨by norm_num, by norm_num, ?_, ?_⟩
  · intro v hv
    simp only [pentagon32, List.mem_cons, List.not_mem_nil, or_false] at hv
    rcases hv with rfl | rfl | rfl | rfl | rfl
    · exact ⟨⟨⟨_, _, rfl⟩, 0, by decide, by decide +kernel⟩, ⟨⟨_, _, rfl⟩, 0, by decide, by decide +kernel⟩⟩
    · exact ⟨⟨⟨_, _, rfl⟩, 4, by decide, by decide +kernel⟩, ⟨⟨_, _, rfl⟩, 0, by decide, by decide +kernel⟩⟩
    · exact ⟨⟨⟨_, _, rfl⟩, 5, by decide, by decide +kernel⟩, ⟨⟨_, _, rfl⟩, 3, by decide, by decide +kernel⟩⟩
    · exact ⟨⟨⟨_, _, rfl⟩, 2, by decide, by decide +kernel⟩, ⟨⟨_, _, rfl⟩, 5, by decide, by decide +kernel⟩⟩
    · exact ⟨⟨⟨_, _, rfl⟩, -1, by decide, by decide +kernel⟩, ⟨⟨_, _, rfl⟩, 3, by decide, by decide +kernel⟩⟩
  · decide +kernel

example : ∃ ts, Triangulates (⟨pentagon32⟩ : Polygon F32) (.ok ts) ∧ ts.length = 3 := by
  obtain ⟨ts, h, he⟩ := C99_fan_grid (K := ℚ) ⟨pentagon32⟩ pentagon32_grid
    (by show ConvexPolygon (pentagon32.map (real ℚ)); rw [pentagon32_real]; exact pentagon_convex) _ _
    (show pentagon32 = [⟨F32.lit 0, F32.lit 0⟩, ⟨F32.lit 4, F32.lit 0⟩, ⟨F32.lit 5, F32.lit 3⟩, ⟨F32.lit 2, F32.lit 5⟩] ++
      [⟨F32.lit (-1), F32.lit 3⟩] from rfl)
  refine ⟨ts, h, ?_⟩
  have := congrArg List.length he
  simpa [fan] using this

theorem pentagon32_clear : ClearPosition pentagon32 := by
  constructor
  · intro v hv
    simp only [pentagon32, List.mem_cons, List.not_mem_nil, or_false] at hv
    rcases hv with rfl | rfl | rfl | rfl | rfl <;>
      exact ⟨⟨⟨_, _, rfl⟩, by decide +kernel⟩, ⟨⟨_, _, rfl⟩, by decide +kernel⟩⟩
  · intro a ha b hb c hc hab hbc hac
    have hq : ∀ a ∈ pentagon32, ∀ b ∈ pentagon32, ∀ c ∈ pentagon32, a ≠ b → b ≠ c → a ≠ c →
        Margin (real ℚ a) (real ℚ b) (real ℚ c) := by unfold Margin; decide +kernel
    exact margin_rat (hq a ha b hb c hc (fun h => hab (by rw [h])) (fun h => hbc (by rw [h])) (fun h => hac (by rw [h])))

end Kami.Simple
