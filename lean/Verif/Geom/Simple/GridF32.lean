import Verif.Num.F32Int
import Verif.Geom.Transfer
import Verif.Geom.TriArea
import Verif.Geom.Simple.Tiling
import Verif.Geom.Simple.DiagSpec
/-!
# C82: f32 triangulation of polygons with grid coordinates

When the coordinates are multiples of a power of two and the polygon spans at most 4096 units in each direction (for
instance: integer pixel coordinates), every predicate of `polygon.rs` is evaluated without a wrong answer in `f32`, and the
theorems about exact arithmetic hold of the `f32` program.
-/

set_option autoImplicit false
set_option linter.unusedSectionVars false
set_option linter.dupNamespace false

namespace Kami.Simple

open Kami Kami.Pred Kami.PolyThm Kami.Polygon Kami.Transfer Kami.F32
open scoped Kami

variable {K : Type} [Field K] [LinearOrder K] [IsStrictOrderedRing K]

/-! ### specification -/

/-- the exact position of a point with finite coordinates -/
def real (K : Type) [Field K] (v : Vec2 F32) : Vec2 K := ⟨(toRat v.x : K), (toRat v.y : K)⟩

/-- `x` is a finite number, and a multiple of `2^k` by at most `2^24` -/
def GridNum (k : ℤ) (x : F32) : Prop :=
  (∃ s n, x = F32.fin s n) ∧ ∃ z : ℤ, |z| ≤ 2 ^ 24 ∧ toRat x = z * 2 ^ k

/-- all coordinates are multiples of `2^k`, and the points span at most 4096 of these units in each direction -/
def GridBox (k : ℤ) (l : List (Vec2 F32)) : Prop :=
  -74 ≤ k ∧ k ≤ 51 ∧ (∀ v ∈ l, GridNum k v.x ∧ GridNum k v.y) ∧
  ∀ v ∈ l, ∀ w ∈ l, |toRat v.x - toRat w.x| ≤ 4096 * 2 ^ k ∧ |toRat v.y - toRat w.y| ≤ 4096 * 2 ^ k

theorem GridBox.mono {k : ℤ} {l m : List (Vec2 F32)} (h : GridBox k l) (hm : ∀ v ∈ m, v ∈ l) : GridBox k m :=
  ⟨h.1, h.2.1, fun v hv => h.2.2.1 v (hm v hv), fun v hv w hw => h.2.2.2 v (hm v hv) w (hm w hw)⟩

/-! ### the predicates -/

theorem det_bound {u v p q W : ℤ} (hu : |u| ≤ W) (hv : |v| ≤ W) (huv : |u - v| ≤ W) (hp : |p| ≤ W) (hq : |q| ≤ W)
    (hpq : |p - q| ≤ W) : |u * q - v * p| ≤ W * W := by
  rw [abs_le] at *
  have hW : 0 ≤ W := by omega
  rcases le_total 0 u with a | a <;> rcases le_total 0 v with b | b <;> rcases le_total 0 p with c | c <;>
    rcases le_total 0 q with d | d <;> constructor <;> nlinarith

theorem GridBox.rep {k : ℤ} {l : List (Vec2 F32)} (h : GridBox k l) : ∃ e f : ℕ, e ≤ 252 ∧ f ≤ 252 ∧ e + e = f + 149 ∧
    ((2 : ℚ) ^ e / 2 ^ 149 = 2 ^ k) ∧
    ∃ X Y : Vec2 F32 → ℤ, ∀ v ∈ l, Rep e v.x (X v) ∧ Rep e v.y (Y v) ∧ |X v| ≤ 2 ^ 24 ∧ |Y v| ≤ 2 ^ 24 ∧
      ∀ w ∈ l, |X v - X w| ≤ 4096 ∧ |Y v - Y w| ≤ 4096 := by
  obtain ⟨k1, k2, hg, hb⟩ := h
  obtain ⟨e, he⟩ : ∃ e : ℕ, (e : ℤ) = k + 149 := ⟨(k + 149).toNat, by omega⟩
  have hu : (2 : ℚ) ^ e / 2 ^ 149 = 2 ^ k := by
    rw [show k = (e : ℤ) - 149 by omega, zpow_sub₀ (by norm_num)]
    norm_num
  have hk0 : (0 : ℚ) < 2 ^ k := by positivity
  have conv : ∀ x : F32, ∀ z : ℤ, (∃ s n, x = F32.fin s n) → toRat x = z * 2 ^ k → Rep e x z := by
    rintro x z ⟨s, n, rfl⟩ hz
    refine ⟨s, n, rfl, ?_⟩
    have hz : (val s n : ℚ) / 2 ^ 149 = z * 2 ^ k := hz
    rw [← hu, div_eq_iff (by norm_num)] at hz
    have : (val s n : ℚ) = ((z * 2 ^ e : ℤ) : ℚ) := by
      rw [hz]; push_cast; rw [mul_assoc, div_mul_cancel₀ _ (by norm_num)]
    exact_mod_cast this
  refine ⟨e, 2 * e - 149, by omega, by omega, by omega, hu, ?_⟩
  classical
  refine ⟨fun v => if h : ∃ z : ℤ, |z| ≤ 2 ^ 24 ∧ toRat v.x = z * 2 ^ k then h.choose else 0,
    fun v => if h : ∃ z : ℤ, |z| ≤ 2 ^ 24 ∧ toRat v.y = z * 2 ^ k then h.choose else 0, ?_⟩
  have hx : ∀ v ∈ l, Rep e v.x (if h : ∃ z : ℤ, |z| ≤ 2 ^ 24 ∧ toRat v.x = z * 2 ^ k then h.choose else 0) ∧
      |(if h : ∃ z : ℤ, |z| ≤ 2 ^ 24 ∧ toRat v.x = z * 2 ^ k then h.choose else 0)| ≤ 2 ^ 24 ∧
      toRat v.x = (if h : ∃ z : ℤ, |z| ≤ 2 ^ 24 ∧ toRat v.x = z * 2 ^ k then h.choose else 0 : ℤ) * 2 ^ k := by
    intro v hv
    obtain ⟨⟨hf, hz⟩, _⟩ := hg v hv
    rw [dif_pos hz]
    exact ⟨conv _ _ hf hz.choose_spec.2, hz.choose_spec⟩
  have hy : ∀ v ∈ l, Rep e v.y (if h : ∃ z : ℤ, |z| ≤ 2 ^ 24 ∧ toRat v.y = z * 2 ^ k then h.choose else 0) ∧
      |(if h : ∃ z : ℤ, |z| ≤ 2 ^ 24 ∧ toRat v.y = z * 2 ^ k then h.choose else 0)| ≤ 2 ^ 24 ∧
      toRat v.y = (if h : ∃ z : ℤ, |z| ≤ 2 ^ 24 ∧ toRat v.y = z * 2 ^ k then h.choose else 0 : ℤ) * 2 ^ k := by
    intro v hv
    obtain ⟨_, ⟨hf, hz⟩⟩ := hg v hv
    rw [dif_pos hz]
    exact ⟨conv _ _ hf hz.choose_spec.2, hz.choose_spec⟩
  intro v hv
  refine ⟨(hx v hv).1, (hy v hv).1, (hx v hv).2.1, (hy v hv).2.1, ?_⟩
  intro w hw
  obtain ⟨b1, b2⟩ := hb v hv w hw
  have sc : ∀ a b : ℤ, |(a : ℚ) * 2 ^ k - b * 2 ^ k| ≤ 4096 * 2 ^ k → |a - b| ≤ 4096 := by
    intro a b h
    rw [← sub_mul, abs_mul, abs_of_pos hk0] at h
    have := le_of_mul_le_mul_right h hk0
    exact_mod_cast this
  rw [(hx v hv).2.2, (hx w hw).2.2] at b1
  rw [(hy v hv).2.2, (hy w hw).2.2] at b2
  exact ⟨sc _ _ b1, sc _ _ b2⟩

/-- the `f32` orientation is the exact one -/
theorem area2_rep {k : ℤ} {l : List (Vec2 F32)} (h : GridBox k l) : ∃ f : ℕ, f ≤ 252 ∧ (2 : ℚ) ^ f / 2 ^ 149 = 2 ^ (2 * k) ∧
    (∀ a ∈ l, ∀ b ∈ l, ∀ c ∈ l, ∃ A : ℤ, |A| ≤ 2 ^ 24 ∧ Rep f (area2 a b c) A ∧
      area2 (real K a) (real K b) (real K c) = ((A * 2 ^ (2 * k) : ℚ) : K)) ∧
    ∀ a ∈ l, ∀ b ∈ l, ∃ e : ℕ, ∃ z w z' w' : ℤ, Rep e a.x z ∧ Rep e b.x w ∧ Rep e a.y z' ∧ Rep e b.y w' ∧
      (real K a).x = ((z * 2 ^ k : ℚ) : K) ∧ (real K b).x = ((w * 2 ^ k : ℚ) : K) ∧
      (real K a).y = ((z' * 2 ^ k : ℚ) : K) ∧ (real K b).y = ((w' * 2 ^ k : ℚ) : K) := by
  obtain ⟨e, f, he, hf, hef, hu, X, Y, hXY⟩ := h.rep
  have hk0 : (0 : ℚ) < 2 ^ k := by positivity
  have hu2 : (2 : ℚ) ^ f / 2 ^ 149 = 2 ^ (2 * k) := by
    rw [two_mul, zpow_add₀ (by norm_num), ← hu]
    have : (2 : ℚ) ^ e * 2 ^ e = 2 ^ f * 2 ^ 149 := by rw [← pow_add, hef, pow_add]
    rw [div_mul_div_comm, this, mul_div_mul_right _ _ (by norm_num)]
  have hrx : ∀ v ∈ l, (real K v).x = ((X v * 2 ^ k : ℚ) : K) ∧ (real K v).y = ((Y v * 2 ^ k : ℚ) : K) := by
    intro v hv
    obtain ⟨h1, h2, _⟩ := hXY v hv
    constructor
    · show ((toRat v.x : ℚ) : K) = _
      rw [Rep.toRat h1, hu]
    · show ((toRat v.y : ℚ) : K) = _
      rw [Rep.toRat h2, hu]
  refine ⟨f, hf, hu2, ?_, ?_⟩
  · intro a ha b hb c hc
    obtain ⟨ax, ay, ax', ay', ad⟩ := hXY a ha
    obtain ⟨bx, by', bx', by'', bd⟩ := hXY b hb
    obtain ⟨cx, cy, cx', cy', cd⟩ := hXY c hc
    have hdx1 : |X b - X a| ≤ 4096 := (bd a ha).1
    have hdx2 : |X c - X a| ≤ 4096 := (cd a ha).1
    have hdx3 : |X b - X c| ≤ 4096 := (bd c hc).1
    have hdy1 : |Y b - Y a| ≤ 4096 := (bd a ha).2
    have hdy2 : |Y c - Y a| ≤ 4096 := (cd a ha).2
    have hdy3 : |Y b - Y c| ≤ 4096 := (bd c hc).2
    have small : ∀ z : ℤ, |z| ≤ 4096 → |z| ≤ 2 ^ 24 := fun z hz => by norm_num; omega
    have prod : ∀ z w : ℤ, |z| ≤ 4096 → |w| ≤ 4096 → |z * w| ≤ 2 ^ 24 := by
      intro z w hz hw
      rw [abs_mul]
      calc |z| * |w| ≤ 4096 * 4096 := mul_le_mul hz hw (abs_nonneg _) (by norm_num)
        _ = 2 ^ 24 := by norm_num
    have hdet : |(X b - X a) * (Y c - Y a) - (X c - X a) * (Y b - Y a)| ≤ 2 ^ 24 := by
      have := det_bound (u := X b - X a) (v := X c - X a) (p := Y b - Y a) (q := Y c - Y a) hdx1 hdx2
        (by rwa [sub_sub_sub_cancel_right]) hdy1 hdy2 (by rwa [sub_sub_sub_cancel_right])
      norm_num at this ⊢
      exact this
    refine ⟨(X b - X a) * (Y c - Y a) - (X c - X a) * (Y b - Y a), hdet, ?_, ?_⟩
    · exact Rep.sub hf
        (Rep.mul hf hef (Rep.sub he bx ax (small _ hdx1)) (Rep.sub he cy ay (small _ hdy2)) (prod _ _ hdx1 hdy2))
        (Rep.mul hf hef (Rep.sub he cx ax (small _ hdx2)) (Rep.sub he by' ay (small _ hdy1)) (prod _ _ hdx2 hdy1)) hdet
    · rw [area2_eq, (hrx a ha).1, (hrx a ha).2, (hrx b hb).1, (hrx b hb).2, (hrx c hc).1, (hrx c hc).2, two_mul,
        zpow_add₀ (by norm_num)]
      push_cast
      ring
  · intro a ha b hb
    exact ⟨e, X a, X b, Y a, Y b, (hXY a ha).1, (hXY b hb).1, (hXY a ha).2.1, (hXY b hb).2.1, (hrx a ha).1, (hrx b hb).1,
      (hrx a ha).2, (hrx b hb).2⟩

theorem scale_lt {u : ℚ} (hu : 0 < u) (a b : ℤ) : (((a * u : ℚ) : K) < ((b * u : ℚ) : K)) ↔ a < b := by
  rw [Rat.cast_lt, mul_lt_mul_iff_left₀ hu, Int.cast_lt]

theorem scale_le {u : ℚ} (hu : 0 < u) (a b : ℤ) : (((a * u : ℚ) : K) ≤ ((b * u : ℚ) : K)) ↔ a ≤ b := by
  rw [Rat.cast_le, mul_le_mul_iff_left₀ hu, Int.cast_le]

theorem scale_eq {u : ℚ} (hu : 0 < u) (a b : ℤ) : (((a * u : ℚ) : K) = ((b * u : ℚ) : K)) ↔ a = b := by
  rw [Rat.cast_inj, mul_left_inj' hu.ne', Int.cast_inj]

/-- on a grid box, `f32` answers every question of `polygon.rs` as exact arithmetic does -/
theorem grid_agrees {k : ℤ} {l : List (Vec2 F32)} (h : GridBox k l) : Agrees (fun v => v ∈ l) (real K) := by
  obtain ⟨f, hf, hu2, hA, hC⟩ := area2_rep (K := K) h
  have hk0 : (0 : ℚ) < 2 ^ k := by positivity
  have hk2 : (0 : ℚ) < 2 ^ (2 * k) := by positivity
  have z0 : (0 : K) = (((0 : ℤ) * 2 ^ (2 * k) : ℚ) : K) := by simp
  refine .of_order ?_ ?_ ?_ ?_ ?_ ?_ ?_
  · intro a b c ha hb hc
    obtain ⟨A, _, hr, hv⟩ := hA a ha b hb c hc
    show decide (0 < area2 (real K a) (real K b) (real K c)) = F32.lt (ofBits 0) (area2 a b c)
    rw [Rep.lt (Rep.zero f) hr, hv, z0]
    congr 1
    exact propext (scale_lt hk2 _ _)
  · intro a b c ha hb hc
    obtain ⟨A, _, hr, hv⟩ := hA a ha b hb c hc
    show decide (0 ≤ area2 (real K a) (real K b) (real K c)) = F32.le (ofBits 0) (area2 a b c)
    rw [Rep.le (Rep.zero f) hr, hv, z0]
    congr 1
    exact propext (scale_le hk2 _ _)
  · intro a b c ha hb hc
    obtain ⟨A, _, hr, hv⟩ := hA a ha b hb c hc
    show decide (area2 (real K a) (real K b) (real K c) = 0) = F32.eq (area2 a b c) (ofBits 0)
    rw [Rep.eq hr (Rep.zero f), hv, z0]
    congr 1
    exact propext (scale_eq hk2 _ _)
  · intro a b c ha hb hc
    obtain ⟨A, hA24, hr, hv⟩ := hA a ha b hb c hc
    show decide (0 + area2 (real K a) (real K b) (real K c) < 0) = F32.lt (F32.add (ofBits 0) (area2 a b c)) (ofBits 0)
    rw [Rep.lt (Rep.add hf (Rep.zero f) hr (by rwa [zero_add])) (Rep.zero f), zero_add, zero_add, hv, z0]
    congr 1
    exact propext (scale_lt hk2 _ _)
  · intro a b ha hb
    obtain ⟨e, z, w, z', w', r1, r2, r3, r4, v1, v2, v3, v4⟩ := hC a ha b hb
    show decide ((real K a).x = (real K b).x) = F32.eq a.x b.x
    rw [Rep.eq r1 r2, v1, v2]
    congr 1
    exact propext (scale_eq hk0 _ _)
  · intro a b ha hb
    obtain ⟨e, z, w, z', w', r1, r2, r3, r4, v1, v2, v3, v4⟩ := hC a ha b hb
    show decide ((real K a).x ≤ (real K b).x) = F32.le a.x b.x
    rw [Rep.le r1 r2, v1, v2]
    congr 1
    exact propext (scale_le hk0 _ _)
  · intro a b ha hb
    obtain ⟨e, z, w, z', w', r1, r2, r3, r4, v1, v2, v3, v4⟩ := hC a ha b hb
    show decide ((real K a).y ≤ (real K b).y) = F32.le a.y b.y
    rw [Rep.le r3 r4, v3, v4]
    congr 1
    exact propext (scale_le hk0 _ _)

/-! ### the theorems -/

/-- **C82, predicates.** On a grid box the `f32` predicates give the exact answers. -/
theorem C82_predicates {k : ℤ} {l : List (Vec2 F32)} (h : GridBox k l) {a b c d : Vec2 F32} (ha : a ∈ l) (hb : b ∈ l)
    (hc : c ∈ l) (hd : d ∈ l) :
    left a b c = left (real K a) (real K b) (real K c) ∧ leftOn a b c = leftOn (real K a) (real K b) (real K c) ∧
    collinear a b c = collinear (real K a) (real K b) (real K c) ∧
    between a b c = between (real K a) (real K b) (real K c) ∧
    intersectProp a b c d = intersectProp (real K a) (real K b) (real K c) (real K d) ∧
    intersect a b c d = intersect (real K a) (real K b) (real K c) (real K d) := by
  have hA := grid_agrees (K := K) h
  exact ⟨(hA.left _ _ _ ha hb hc).symm, (hA.leftOn _ _ _ ha hb hc).symm, (hA.collinear _ _ _ ha hb hc).symm,
    (hA.between _ _ _ ha hb hc).symm, (hA.intersectProp ha hb hc hd).symm, (hA.intersect ha hb hc hd).symm⟩

/-- **C82, diagonal.** On a grid box the `f32` diagonal test of a counter-clockwise simple polygon is true exactly for
inner diagonals. -/
theorem C82_diagonal {k : ℤ} (P : Polygon F32) (h : GridBox k P.vertices) (hs : SimplePolygon (P.vertices.map (real K)))
    (hc : 0 ≤ shoelace (P.vertices.map (real K))) (i j : Nat) (hi : i < P.vertices.length) (hj : j < P.vertices.length) :
    P.diagonal i j = .ok true ↔ i ≠ j ∧ ∀ x, OnSeg (real K P.vertices[i]) (real K P.vertices[j]) x →
      x ≠ real K P.vertices[i] → x ≠ real K P.vertices[j] → Inside (P.vertices.map (real K)) x := by
  rw [← diagonal_map (grid_agrees (K := K) h) P (fun _ hv => hv)]
  have := C77_diagonal_iff (mapP (real K) P) hs hc i j (by simpa [mapP] using hi) (by simpa [mapP] using hj)
  simpa [mapP] using this

/-- what a successful triangulation of the vertex list `l` must satisfy, in exact geometry -/
def Tiles (l : List (Vec2 K)) (ts : List (List (Vec2 K))) : Prop :=
  ts.length = l.length - 2 ∧ (∀ t ∈ ts, t.length = 3 ∧ 0 < shoelace t) ∧
  (∀ x, Region l x ↔ ∃ t ∈ ts, InTriangle t x) ∧
  ts.Pairwise fun s t => ∀ x, ¬ (InTriangleInterior s x ∧ InTriangle t x) ∧ ¬ (InTriangle s x ∧ InTriangleInterior t x)

theorem triangulate_of_agrees (P : Polygon F32) (hA : Agrees (fun v => v ∈ P.vertices) (real K))
    (hs' : Simple (P.vertices.map (real K))) (hc : 0 ≤ shoelace (P.vertices.map (real K))) :
    ∃ ts, Triangulates P (.ok ts) ∧
      Tiles (P.vertices.map (real K)) (ts.map fun T => T.vertices.map (real K)) := by
  obtain ⟨ts, ht, hD⟩ := dissect_run (mapP (real K) P) hs' (((cn_shoelace hs').1).2 hc)
  obtain ⟨t1, t2⟩ := dissect_tiles hD
  obtain ⟨hcount, hthree, _⟩ := Kami.Tri.C33_triangles (mapP (real K) P) hs'.three ts ht
  obtain ⟨out, ho, he⟩ := (triangulates_map hA P (fun _ hv => hv) _).1 ht
  cases out with
  | error e => cases he
  | ok ts' =>
    have he : ts = ts'.map (mapP (real K)) := Except.ok.inj he
    subst he
    have hmap : (ts'.map (mapP (real K))).map Polygon.vertices = ts'.map fun T => T.vertices.map (real K) := by
      rw [List.map_map]; rfl
    refine ⟨ts', ho, ?_, ?_, ?_, ?_⟩
    · simpa [mapP] using hcount
    · intro t ht'
      rw [← hmap] at ht'
      refine ⟨?_, hD.pos t ht'⟩
      obtain ⟨T, hT, rfl⟩ := List.mem_map.1 ht'
      exact hthree T hT
    · rw [← hmap]; exact t1
    · rw [← hmap]; exact t2

theorem triangulate_core {k : ℤ} (P : Polygon F32) (h : GridBox k P.vertices) (hs' : Simple (P.vertices.map (real K)))
    (hc : 0 ≤ shoelace (P.vertices.map (real K))) :
    ∃ ts, Triangulates P (.ok ts) ∧
      Tiles (P.vertices.map (real K)) (ts.map fun T => T.vertices.map (real K)) :=
  triangulate_of_agrees P (grid_agrees h) hs' hc

/-- **C82, triangulate.** `triangulate` in `f32` terminates on every counter-clockwise simple polygon with grid coordinates
(with any number of vertices), and its triangles tile the polygon exactly. -/
theorem C82_triangulate {k : ℤ} (P : Polygon F32) (h : GridBox k P.vertices) (hs : SimplePolygon (P.vertices.map (real K)))
    (hc : 0 ≤ shoelace (P.vertices.map (real K))) :
    ∃ ts, Triangulates P (.ok ts) ∧
      Tiles (P.vertices.map (real K)) (ts.map fun T => T.vertices.map (real K)) := by
  exact triangulate_core P h (simple_of_spec hs) hc

/-! ### the constructor -/

theorem fanSum_rep {k : ℤ} {l : List (Vec2 F32)} (h : GridBox k l) : ∃ f : ℕ, ∀ (a : Vec2 F32), a ∈ l →
    ∀ (m : List (Vec2 F32)), (∀ v ∈ m, v ∈ l) → ∀ (s : F32) (σ : ℤ), Rep f s σ →
    (∀ n, |fanSum (real K a) ((m.take n).map (real K)) ((σ * 2 ^ (2 * k) : ℚ) : K)| ≤ ((2 ^ 24 * 2 ^ (2 * k) : ℚ) : K)) →
    ∃ τ : ℤ, Rep f (fanSum a m s) τ ∧
      fanSum (real K a) (m.map (real K)) ((σ * 2 ^ (2 * k) : ℚ) : K) = ((τ * 2 ^ (2 * k) : ℚ) : K) := by
  obtain ⟨f, hf, hu2, hA, hC⟩ := area2_rep (K := K) h
  have hk2 : (0 : ℚ) < 2 ^ (2 * k) := by positivity
  refine ⟨f, ?_⟩
  intro a ha m
  induction m with
  | nil => intro _ s σ hs _; exact ⟨σ, hs, rfl⟩
  | cons b m ih =>
    intro hm s σ hs hbound
    cases m with
    | nil => exact ⟨σ, hs, rfl⟩
    | cons c m =>
      obtain ⟨A, _, hr, hv⟩ := hA a ha b (hm b (by simp)) c (hm c (by simp))
      have hstep : ((σ * 2 ^ (2 * k) : ℚ) : K) + area2 (real K a) (real K b) (real K c) =
          (((σ + A : ℤ) * 2 ^ (2 * k) : ℚ) : K) := by
        rw [hv]; push_cast; ring
      have hsum : |σ + A| ≤ 2 ^ 24 := by
        have h2 := hbound 2
        have e2 : fanSum (real K a) (((b :: c :: m).take 2).map (real K)) ((σ * 2 ^ (2 * k) : ℚ) : K) =
            (((σ + A : ℤ) * 2 ^ (2 * k) : ℚ) : K) := by
          rw [← hstep]; rfl
        rw [e2, ← Rat.cast_abs, Rat.cast_le, abs_mul, abs_of_pos hk2, mul_le_mul_iff_left₀ hk2] at h2
        exact_mod_cast h2
      obtain ⟨τ, h1, h2⟩ := ih (fun v hv => hm v (List.mem_cons_of_mem _ hv)) (s + area2 a b c) (σ + A)
        (Rep.add hf hs hr hsum) (by
          intro n
          cases n with
          | zero =>
            have := hbound 2
            have e2 : fanSum (real K a) (((b :: c :: m).take 2).map (real K)) ((σ * 2 ^ (2 * k) : ℚ) : K) =
                fanSum (real K a) (((c :: m).take 0).map (real K)) (((σ + A : ℤ) * 2 ^ (2 * k) : ℚ) : K) := by
              rw [← hstep]; rfl
            rwa [e2] at this
          | succ n =>
            have := hbound (n + 2)
            have e2 : fanSum (real K a) (((b :: c :: m).take (n + 2)).map (real K)) ((σ * 2 ^ (2 * k) : ℚ) : K) =
                fanSum (real K a) (((c :: m).take (n + 1)).map (real K)) (((σ + A : ℤ) * 2 ^ (2 * k) : ℚ) : K) := by
              rw [← hstep]; rfl
            rwa [e2] at this)
      refine ⟨τ, h1, ?_⟩
      rw [← h2, ← hstep]
      rfl

theorem areaPoly2_exact {l : List (Vec2 K)} (h : l ≠ []) : (⟨l⟩ : Polygon K).areaPoly2 = shoelace l := by
  cases l with
  | nil => exact absurd rfl h
  | cons a l =>
    cases l with
    | nil => simp [areaPoly2, fanSum, shoelace, crossTerm]
    | cons b l =>
      show fanSum a (b :: l) 0 = _
      rw [fanSum_eq, shoelace_cons, zero_add]

/-- every initial part of the polygon, closed up, has a signed area of at most `2^23` units (so that the running sum of
`area_poly2` fits into the mantissa) -/
def SmallPrefixes (k : ℤ) (l : List (Vec2 K)) : Prop := ∀ n, |shoelace (l.take n)| ≤ 2 ^ 24 * 2 ^ (2 * k)

theorem new_sign {k : ℤ} {l : List (Vec2 F32)} (h : GridBox k l) (hp : SmallPrefixes k (l.map (real K))) (hl : l ≠ []) :
    ((⟨l⟩ : Polygon F32).areaPoly2 <. OrdScalar.zero) = decide (shoelace (l.map (real K)) < 0) := by
  obtain ⟨f, hf⟩ := fanSum_rep (K := K) h
  have hk2 : (0 : ℚ) < 2 ^ (2 * k) := by positivity
  cases l with
  | nil => exact absurd rfl hl
  | cons a m =>
    have hex : ∀ m' : List (Vec2 F32), fanSum (real K a) (m'.map (real K)) (((0 : ℤ) * 2 ^ (2 * k) : ℚ) : K) =
        shoelace ((a :: m').map (real K)) := by
      intro m'
      rw [← areaPoly2_exact (by simp)]
      simp [areaPoly2]
    obtain ⟨τ, h1, h2⟩ := hf a (by simp) m (fun v hv => List.mem_cons_of_mem _ hv) (ofBits 0) 0 (Rep.zero f) (by
      intro n
      rw [hex]
      have := hp (n + 1)
      rw [← List.map_take, List.take_succ_cons] at this
      push_cast
      exact this)
    rw [hex] at h2
    show F32.lt (fanSum a m (ofBits 0)) (ofBits 0) = _
    rw [Rep.lt h1 (Rep.zero f), h2]
    congr 1
    have := scale_lt (K := K) hk2 τ 0
    rw [← this]
    simp

/-- **C82.** For every simple polygon with grid coordinates whose initial parts have small area, in either direction,
`Polygon::new` in `f32` succeeds with a counter-clockwise polygon, and `triangulate` terminates with triangles that tile the
given polygon exactly. -/
theorem C82_new_triangulate {k : ℤ} (l : List (Vec2 F32)) (h : GridBox k l) (hs : SimplePolygon (l.map (real K)))
    (hp : SmallPrefixes k (l.map (real K))) :
    ∃ P ts, Polygon.new l = .ok P ∧ (P.vertices = l ∨ P.vertices = l.reverse) ∧ 0 < shoelace (P.vertices.map (real K)) ∧
      Triangulates P (.ok ts) ∧ Tiles (l.map (real K)) (ts.map fun T => T.vertices.map (real K)) := by
  have hs' := simple_of_spec hs
  have h3 : 3 ≤ l.length := by simpa using hs'.three
  have hne : l ≠ [] := by rintro rfl; simp at h3
  have hsgn := new_sign h hp hne
  have hnew : Polygon.new l = if (⟨l⟩ : Polygon F32).areaPoly2 <. OrdScalar.zero then .ok ⟨l.reverse⟩ else .ok ⟨l⟩ := by
    unfold Polygon.new
    rw [if_neg (by omega)]
  rcases lt_or_ge (shoelace (l.map (real K))) 0 with hlt | hge
  · have hrev : (l.reverse).map (real K) = (l.map (real K)).reverse := List.map_reverse
    have hpos : 0 < shoelace (l.reverse.map (real K)) := by rw [hrev, shoelace_reverse]; linarith
    obtain ⟨ts, h1, h2, h3, h4, h5⟩ := triangulate_core (K := K) ⟨l.reverse⟩ (h.mono (fun v hv => by simpa using hv))
      (by rw [hrev]; exact hs'.reverse) hpos.le
    refine ⟨⟨l.reverse⟩, ts, ?_, Or.inr rfl, hpos, h1, ?_, h3, ?_, h5⟩
    · rw [hnew, hsgn, if_pos (by simpa using hlt)]
    · simpa using h2
    · intro x
      rw [← h4 x]
      show _ ↔ Region (l.reverse.map (real K)) x
      rw [hrev, region_reverse]
  · obtain ⟨ts, h1, h2⟩ := triangulate_core (K := K) ⟨l⟩ h hs' hge
    exact ⟨⟨l⟩, ts, by rw [hnew, hsgn, if_neg (by simpa using hge)], Or.inl rfl,
      lt_of_le_of_ne hge (Ne.symm (cn_shoelace hs').2), h1, h2⟩

/-! ### a polygon to which the theorems apply -/

/-- the concave quadrilateral `dart`, in `f32` -/
def dart32 : List (Vec2 F32) :=
  [⟨F32.lit 0, F32.lit 0⟩, ⟨F32.lit 4, F32.lit 0⟩, ⟨F32.lit 1, F32.lit 1⟩, ⟨F32.lit 0, F32.lit 4⟩]

theorem dart32_real : dart32.map (real ℚ) = dart := by decide +kernel

theorem dart32_grid : GridBox 0 dart32 := by
  refine ⟨by norm_num, by norm_num, ?_, ?_⟩
  · intro v hv
    simp only [dart32, List.mem_cons, List.not_mem_nil, or_false] at hv
    rcases hv with rfl | rfl | rfl | rfl
    · exact ⟨⟨⟨_, _, rfl⟩, 0, by decide, by decide +kernel⟩, ⟨⟨_, _, rfl⟩, 0, by decide, by decide +kernel⟩⟩
    · exact ⟨⟨⟨_, _, rfl⟩, 4, by decide, by decide +kernel⟩, ⟨⟨_, _, rfl⟩, 0, by decide, by decide +kernel⟩⟩
    · exact ⟨⟨⟨_, _, rfl⟩, 1, by decide, by decide +kernel⟩, ⟨⟨_, _, rfl⟩, 1, by decide, by decide +kernel⟩⟩
    · exact ⟨⟨⟨_, _, rfl⟩, 0, by decide, by decide +kernel⟩, ⟨⟨_, _, rfl⟩, 4, by decide, by decide +kernel⟩⟩
  · decide +kernel

example : ∃ P ts, Polygon.new dart32 = .ok P ∧ Triangulates P (.ok ts) ∧ ts.length = 2 := by
  obtain ⟨P, ts, h1, _, _, h2, h3, _⟩ := C82_new_triangulate (K := ℚ) dart32 dart32_grid
    (by rw [dart32_real]; exact dart_simple) (by
      rw [dart32_real]
      intro n
      have : n = 0 ∨ n = 1 ∨ n = 2 ∨ n = 3 ∨ dart.take n = dart := by
        by_cases h : n < 4
        · omega
        · exact Or.inr (Or.inr (Or.inr (Or.inr (List.take_of_length_le (by simp [dart]; omega)))))
      rcases this with rfl | rfl | rfl | rfl | h
      · decide +kernel
      · decide +kernel
      · decide +kernel
      · decide +kernel
      · rw [h]; decide +kernel)
  refine ⟨P, ts, h1, h2, ?_⟩
  simpa [dart32] using h3

/-! ### outside the grid box -/

/-- a convex quadrilateral with integer coordinates that `f32` represents exactly -/
def sliver : List (Vec2 ℚ) := [⟨53368, 33135⟩, ⟨136423, 84702⟩, ⟨7884, 4895⟩, ⟨0, 0⟩]

/-- the same quadrilateral in `f32` -/
def sliver32 : List (Vec2 F32) :=
  [⟨F32.lit 53368, F32.lit 33135⟩, ⟨F32.lit 136423, F32.lit 84702⟩, ⟨F32.lit 7884, F32.lit 4895⟩, ⟨F32.lit 0, F32.lit 0⟩]

theorem sliver32_real : sliver32.map (real ℚ) = sliver := by decide +kernel

theorem sliver_simple : SimplePolygon sliver := by
  refine ⟨by decide, by decide +kernel, ?_⟩
  intro i j a b c d p hij hi hi' hj hj' h1 h2
  have hil : i < 4 := (List.getElem?_eq_some_iff.1 hi).1
  have hjl : j < 4 := (List.getElem?_eq_some_iff.1 hj).1
  obtain ⟨px, py⟩ := p
  obtain ⟨t, t0, t1, tx, ty⟩ := h1
  obtain ⟨s, s0, s1, sx, sy⟩ := h2
  have hn : sliver.length = 4 := rfl
  rw [hn] at hi' hj' ⊢
  interval_cases i <;> interval_cases j <;> first
    | exact absurd rfl hij
    | (simp only [sliver, List.getElem?_cons_zero, List.getElem?_cons_succ, Nat.reduceAdd, Nat.reduceMod, Option.some.injEq] at hi hi' hj hj'
       subst hi hi' hj hj'
       simp only at tx ty sx sy
       first
        | exact Or.inl ⟨by rw [Vec2.mk.injEq]; constructor <;> linarith, by decide⟩
        | exact Or.inr ⟨by rw [Vec2.mk.injEq]; constructor <;> linarith, by decide⟩
        | (exfalso; linarith))

/-- **C82, the hypothesis on the span cannot be dropped.**  On this convex counter-clockwise quadrilateral, whose coordinates
are integers below `2^18`, `Polygon::new` succeeds in `f32` and `triangulate` never returns, whereas it does in exact
arithmetic. -/
theorem C82_counterexample_wide : sliver32.map (real ℚ) = sliver ∧ SimplePolygon sliver ∧ 0 < shoelace sliver ∧
    Polygon.new sliver32 = .ok ⟨sliver32⟩ ∧ (∀ out, ¬ Triangulates (⟨sliver32⟩ : Polygon F32) out) ∧
    ∃ ts, Triangulates (⟨sliver⟩ : Polygon ℚ) (.ok ts) :=
  ⟨sliver32_real, sliver_simple, by decide +kernel, by decide +kernel,
    fun out => Kami.Tri.no_ear_diverges _ (by decide) (by decide +kernel) out,
    C35_terminates_ccw ⟨sliver⟩ sliver_simple (by decide +kernel)⟩

end Kami.Simple
