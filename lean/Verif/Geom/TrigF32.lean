import Verif.GA.Accuracy
import Verif.Geom.Regular
import Verif.Geom.CenterF32
import Verif.Geom.Simple.AreaF32
import Mathlib.Analysis.Real.Pi.Bounds
import Mathlib.Analysis.SpecialFunctions.Trigonometric.Bounds
/-!
# C119: the functions that use sine and cosine, in f32

IEEE-754 does not say what `sin` and `cos` return.  The theorems hold for every implementation whose results are within `2^-22` of
the true value for arguments up to 8 (`GoodTrig`); the rest of the computation is that of `f32`.
-/

set_option autoImplicit false

namespace Kami.TrigF32

open Kami Kami.F32 Kami.Simple Kami.DistF32 Kami.GAF32 Kami.PolyThm Kami.Pred Kami.Transfer
open scoped Kami

/-- `f32` with some implementation of the trigonometric functions; `pi` is `std::f32::consts::PI`, `two` the literal `2.0` -/
@[reducible] def trig (sin cos acos : F32 → F32) : TrigScalar F32 where
  toScalar := inferInstance
  sin := sin
  cos := cos
  acos := acos
  pi := ofBits 0x40490fdb
  two := ofBits 0x40000000

/-- sine and cosine are within `2^-22` of the true value for arguments up to 8 -/
structure GoodTrig (sin cos : F32 → F32) : Prop where
  sin : ∀ x, IsFin x → |toReal x| ≤ 8 → IsFin (sin x) ∧ |toReal (sin x) - Real.sin (toReal x)| ≤ 1 / 2 ^ 22
  cos : ∀ x, IsFin x → |toReal x| ≤ 8 → IsFin (cos x) ∧ |toReal (cos x) - Real.cos (toReal x)| ≤ 1 / 2 ^ 22

/-! ### constants -/

theorem two_real : IsFin (ofBits 0x40000000) ∧ toReal (ofBits 0x40000000) = 2 := by
  have h : toRat (ofBits 0x40000000) = 2 := by decide +kernel
  refine ⟨⟨_, _, rfl⟩, ?_⟩
  rw [← toRat_toReal, h]; norm_num

theorem pi_near : Near (ofBits 0x40490fdb) Real.pi (63 / 20) (2 * u) := by
  have h : toRat (ofBits 0x40490fdb) = 13176795 / 2 ^ 22 := by decide +kernel
  have h1 := Real.pi_gt_d20
  have h2 := Real.pi_lt_d20
  norm_num at h1 h2
  refine ⟨⟨_, _, rfl⟩, ?_, ?_⟩
  · rw [abs_of_pos Real.pi_pos]
    norm_num
    linarith
  · rw [← toRat_toReal, h, abs_le]
    unfold u
    push_cast
    norm_num
    constructor <;> linarith

theorem two_pi_near : Near (ofBits 0x40000000 * ofBits 0x40490fdb) (2 * Real.pi) (63 / 10) (11 * u) := by
  obtain ⟨f2, e2⟩ := two_real
  have n2 : Near (ofBits 0x40000000) 2 2 0 := ⟨f2, by norm_num, by rw [e2]; simp⟩
  refine (n2.mul pi_near (by unfold u; norm_num)).weaken (by norm_num) ?_
  unfold u η
  norm_num

/-! ### sine and cosine of nearly the right angle -/

variable {sin cos acos : F32 → F32}

theorem GoodTrig.near_cos (h : GoodTrig sin cos) {x : F32} {X ε : ℝ} (hx : Near x X 8 ε) (h8 : |toReal x| ≤ 8) :
    Near (cos x) (Real.cos X) 1 (4 * u + ε) := by
  obtain ⟨hf, he⟩ := h.cos x hx.isFin h8
  refine ⟨hf, Real.abs_cos_le_one X, ?_⟩
  have e : toReal (cos x) - Real.cos X = (toReal (cos x) - Real.cos (toReal x)) + (Real.cos (toReal x) - Real.cos X) := by ring
  rw [e]
  refine (abs_add_le _ _).trans (add_le_add ?_ ((Real.abs_cos_sub_cos_le _ _).trans hx.err))
  refine he.trans (le_of_eq ?_)
  unfold u; norm_num

theorem GoodTrig.near_sin (h : GoodTrig sin cos) {x : F32} {X ε : ℝ} (hx : Near x X 8 ε) (h8 : |toReal x| ≤ 8) :
    Near (sin x) (Real.sin X) 1 (4 * u + ε) := by
  obtain ⟨hf, he⟩ := h.sin x hx.isFin h8
  refine ⟨hf, Real.abs_sin_le_one X, ?_⟩
  have e : toReal (sin x) - Real.sin X = (toReal (sin x) - Real.sin (toReal x)) + (Real.sin (toReal x) - Real.sin X) := by ring
  rw [e]
  refine (abs_add_le _ _).trans (add_le_add ?_ ((Real.abs_sin_sub_sin_le _ _).trans hx.err))
  refine he.trans (le_of_eq ?_)
  unfold u; norm_num

/-! ### rotors from an angle and a plane -/

/-- **C119, from_angle_plane.** For an angle of at most 14 and a plane with components up to 1.1 (a bivector returned by `normalize`
has them), the computed rotor is `cos(angle/2) - sin(angle/2) plane` up to `2^-20` in the scalar and `2^-19` in the bivector. -/
theorem C119_from_angle_plane (h : GoodTrig sin cos) (a : F32) (b : Bivector3 F32) (ha : IsFin a) (ha14 : |(toRat a : ℝ)| ≤ 14)
    (hb : SmallB b) (b1 : |(realB b).b1| ≤ 11 / 10) (b2 : |(realB b).b2| ≤ 11 / 10) (b3 : |(realB b).b3| ≤ 11 / 10) :
    let q := @Rotor3.fromAnglePlane F32 (trig sin cos acos) a b
    let c := realR q
    (IsFin q.scalar ∧ IsFin q.bivector.b1 ∧ IsFin q.bivector.b2 ∧ IsFin q.bivector.b3) ∧
    |c.scalar - Real.cos ((toRat a : ℝ) / 2)| ≤ 1 / 2 ^ 20 ∧
    |c.bivector.b1 - -Real.sin ((toRat a : ℝ) / 2) * (realB b).b1| ≤ 1 / 2 ^ 19 ∧
    |c.bivector.b2 - -Real.sin ((toRat a : ℝ) / 2) * (realB b).b2| ≤ 1 / 2 ^ 19 ∧
    |c.bivector.b3 - -Real.sin ((toRat a : ℝ) / 2) * (realB b).b3| ≤ 1 / 2 ^ 19 := by
  intro q c
  obtain ⟨f2, e2⟩ := two_real
  have n2 : Near (ofBits 0x40000000) 2 2 0 := ⟨f2, by norm_num, by rw [e2]; simp⟩
  have na : Near a (toRat a : ℝ) 14 0 := ⟨ha, ha14, by rw [toRat_toReal]; simp⟩
  have nh : Near (a / ofBits 0x40000000) ((toRat a : ℝ) / 2) 8 (8 * u) := by
    have := na.div n2 (Q := 7) (e := 0) (d := 0) (by norm_num) (by norm_num) (by norm_num) (by norm_num) (by norm_num) (by norm_num)
    refine this.weaken (by norm_num) ?_
    unfold u η
    norm_num
  have h8 : |toReal (a / ofBits 0x40000000)| ≤ 8 := by
    have := na.div n2 (Q := 7) (e := 0) (d := 0) (by norm_num) (by norm_num) (by norm_num) (by norm_num) (by norm_num) (by norm_num)
    refine this.size.trans ?_
    unfold u η
    norm_num
  have hc := h.near_cos nh h8
  have hs := (h.near_sin nh h8).neg
  have pr : ∀ {x : F32}, SmallNum x → |(toRat x : ℝ)| ≤ 11 / 10 → IsFin (x * -sin (a / ofBits 0x40000000)) ∧
      |(toRat (x * -sin (a / ofBits 0x40000000)) : ℝ) - -Real.sin ((toRat a : ℝ) / 2) * (toRat x : ℝ)| ≤ 1 / 2 ^ 19 := by
    intro x hx hX
    have nx : Near x (toRat x : ℝ) (11 / 10) 0 := ⟨hx.1, hX, by rw [toRat_toReal]; simp⟩
    have hm := nx.mul hs (by unfold u; norm_num)
    have := hm.err
    rw [← toRat_toReal, mul_comm (toRat x : ℝ)] at this
    refine ⟨hm.isFin, ?_⟩
    refine this.trans ?_
    unfold u η
    norm_num
  have e0 := hc.err
  rw [← toRat_toReal] at e0
  refine ⟨⟨hc.isFin, (pr hb.1 b1).1, (pr hb.2.1 b2).1, (pr hb.2.2 b3).1⟩, ?_, (pr hb.1 b1).2, (pr hb.2.1 b2).2, (pr hb.2.2 b3).2⟩
  refine e0.trans ?_
  unfold u
  norm_num

/-! ### regular polygons -/

/-- the vertex computed by the code -/
def vertex (sin cos : F32 → F32) (n : ℕ) (r : F32) (c : Vec2 F32) (i : ℕ) : Vec2 F32 :=
  ⟨c.x + r * cos (ofBits 0x40000000 * ofBits 0x40490fdb * (ofNatF i / ofNatF n)),
   c.y + r * sin (ofBits 0x40000000 * ofBits 0x40490fdb * (ofNatF i / ofNatF n))⟩

theorem regular_eq (n : ℕ) (r : F32) (c : Vec2 F32) :
    @Polygon.regular F32 (trig sin cos acos) n r c = Polygon.newUnwrap ((List.range n).map (vertex sin cos n r c)) := rfl

theorem angle_near {i n : ℕ} (hi : i < n) (hn : n ≤ 2 ^ 24) :
    Near (ofBits 0x40000000 * ofBits 0x40490fdb * (ofNatF i / ofNatF n)) (2 * Real.pi * i / n) 8 (24 * u) ∧
    |toReal (ofBits 0x40000000 * ofBits 0x40490fdb * (ofNatF i / ofNatF n))| ≤ 8 := by
  obtain ⟨fi, ei⟩ := ofNatF_real (show i ≤ 2 ^ 24 by omega)
  obtain ⟨fn, en⟩ := ofNatF_real hn
  have hn0 : (0 : ℝ) < n := by exact_mod_cast (by omega : 0 < n)
  have hin : (i : ℝ) ≤ n := by exact_mod_cast hi.le
  have ni : Near (ofNatF i) i n 0 := ⟨fi, by rw [abs_of_nonneg (Nat.cast_nonneg _)]; exact hin, by rw [ei]; simp⟩
  have nn : Near (ofNatF n) n n 0 := ⟨fn, by rw [abs_of_pos hn0], by rw [en]; simp⟩
  have q := ni.div nn (Q := 1) (e := 0) (d := 0) hn0 (by simp) (by simp) (by simp) (by norm_num) (by norm_num)
  have q' : Near (ofNatF i / ofNatF n) ((i : ℝ) / n) 1 (2 * u) := q.weaken (le_refl _) (by unfold u η; norm_num)
  have m := two_pi_near.mul q' (by unfold u; norm_num)
  have m' : Near (ofBits 0x40000000 * ofBits 0x40490fdb * (ofNatF i / ofNatF n)) (2 * Real.pi * (i / n)) (63 / 10) (31 * u) :=
    m.weaken (by norm_num) (by unfold u η; norm_num)
  have e : 2 * Real.pi * (i / n) = 2 * Real.pi * i / n := by ring
  refine ⟨?_, ?_⟩
  · have q2 : Near (ofNatF i / ofNatF n) ((i : ℝ) / n) 1 (33 / 32 * u) := q.weaken (le_refl _) (by unfold u η; norm_num)
    have m2 := two_pi_near.mul q2 (by unfold u; norm_num)
    rw [← e]
    refine m2.weaken (by norm_num) ?_
    unfold u η
    norm_num
  · refine m'.size.trans ?_
    unfold u
    norm_num

/-- a coordinate of a vertex -/
theorem coord_near {c r t : F32} {T : ℝ} (hc : SmallNum c) (hr : SmallNum r) (ht : Near t T 1 (28 * u)) :
    Near (c + r * t) ((toRat c : ℝ) + (toRat r : ℝ) * T) (|(toRat c : ℝ)| + |(toRat r : ℝ)|)
      (|(toRat r : ℝ)| / 2 ^ 19 + |(toRat c : ℝ)| / 2 ^ 24 + 1 / 2 ^ 149) := by
  have bc := (small_fin hc).2
  have br := (small_fin hr).2
  rw [← toRat_toReal] at bc br
  have nc : Near c (toRat c : ℝ) |(toRat c : ℝ)| 0 := ⟨hc.1, le_refl _, by rw [toRat_toReal]; simp⟩
  have nr : Near r (toRat r : ℝ) |(toRat r : ℝ)| 0 := ⟨hr.1, le_refl _, by rw [toRat_toReal]; simp⟩
  have c0 := abs_nonneg (toRat c : ℝ)
  have r0 := abs_nonneg (toRat r : ℝ)
  generalize |(toRat c : ℝ)| = C at *
  generalize |(toRat r : ℝ)| = R at *
  have p := nr.mul ht (by unfold u; norm_num at br ⊢; linarith)
  have p' : Near (r * t) ((toRat r : ℝ) * T) R (30 * u * R + η) := p.weaken (by linarith) (by unfold u; norm_num; linarith)
  have s := nc.add p' (by unfold u η; norm_num at br bc ⊢; linarith)
  refine s.weaken (le_refl _) ?_
  unfold u η
  norm_num
  linarith

theorem vertex_near (h : GoodTrig sin cos) {i n : ℕ} (hi : i < n) (hn : n ≤ 2 ^ 24) {r : F32} {c : Vec2 F32} (hr : SmallNum r)
    (hc : SmallPt c) :
    Near (vertex sin cos n r c i).x ((toRat c.x : ℝ) + (toRat r : ℝ) * Real.cos (2 * Real.pi * i / n))
      (|(toRat c.x : ℝ)| + |(toRat r : ℝ)|) (|(toRat r : ℝ)| / 2 ^ 19 + |(toRat c.x : ℝ)| / 2 ^ 24 + 1 / 2 ^ 149) ∧
    Near (vertex sin cos n r c i).y ((toRat c.y : ℝ) + (toRat r : ℝ) * Real.sin (2 * Real.pi * i / n))
      (|(toRat c.y : ℝ)| + |(toRat r : ℝ)|) (|(toRat r : ℝ)| / 2 ^ 19 + |(toRat c.y : ℝ)| / 2 ^ 24 + 1 / 2 ^ 149) := by
  obtain ⟨na, h8⟩ := angle_near hi hn
  have e : 4 * u + 24 * u = 28 * u := by ring
  have nc := h.near_cos na h8
  have ns := h.near_sin na h8
  rw [e] at nc ns
  exact ⟨coord_near hc.1 hr nc, coord_near hc.2 hr ns⟩

/-- **C119, regular.** For 3 to `2^24` sides, `regular` returns a polygon of the points computed for the angles `2 π i / n`, in this or
in the opposite order.  Their coordinates are finite and within `2^-19` of the circumradius, `2^-24` of the coordinate of
the centre and `2^-149` of the true ones. -/
theorem C119_regular (h : GoodTrig sin cos) (n : ℕ) (h3 : 3 ≤ n) (hn : n ≤ 2 ^ 24) (r : F32) (c : Vec2 F32) (hr : SmallNum r)
    (hc : SmallPt c) :
    ∃ vs : List (Vec2 F32), vs.length = n ∧
      (@Polygon.regular F32 (trig sin cos acos) n r c = .ok ⟨vs⟩ ∨
        @Polygon.regular F32 (trig sin cos acos) n r c = .ok ⟨vs.reverse⟩) ∧
      ∀ i (hi : i < vs.length), IsFin vs[i].x ∧ IsFin vs[i].y ∧
        |(toRat vs[i].x : ℝ) - ((toRat c.x : ℝ) + (toRat r : ℝ) * Real.cos (2 * Real.pi * i / n))| ≤
          |(toRat r : ℝ)| / 2 ^ 19 + |(toRat c.x : ℝ)| / 2 ^ 24 + 1 / 2 ^ 149 ∧
        |(toRat vs[i].y : ℝ) - ((toRat c.y : ℝ) + (toRat r : ℝ) * Real.sin (2 * Real.pi * i / n))| ≤
          |(toRat r : ℝ)| / 2 ^ 19 + |(toRat c.y : ℝ)| / 2 ^ 24 + 1 / 2 ^ 149 := by
  refine ⟨(List.range n).map (vertex sin cos n r c), by simp, ?_, ?_⟩
  · rw [regular_eq]
    unfold Polygon.newUnwrap Polygon.new
    rw [if_neg (by simp; omega)]
    by_cases hneg : ((⟨(List.range n).map (vertex sin cos n r c)⟩ : Polygon F32).areaPoly2 <. OrdScalar.zero) = true
    · right; simp only [hneg, if_true]
    · left; simp only [hneg]; rfl
  · intro i hi
    have hi' : i < n := by simpa using hi
    obtain ⟨nx, ny⟩ := vertex_near h hi' hn hr hc
    have ex := nx.err
    have ey := ny.err
    rw [← toRat_toReal] at ex ey
    simp only [List.getElem_map, List.getElem_range]
    exact ⟨nx.isFin, ny.isFin, ex, ey⟩

/-! ### orientation of regular polygons -/

/-- the shoelace sum over a range -/
theorem shoelace_sum (n : ℕ) (f : ℕ → Vec2 ℝ) :
    shoelace ((List.range n).map f) = ((List.range n).map fun i => crossTerm (f i) (f ((i + 1) % n))).sum := by
  unfold shoelace
  congr 1
  apply List.ext_getElem
  · simp
  · intro i h1 h2
    simp [List.getElem_rotate]

theorem sum_diff_le (l : List ℕ) (f g : ℕ → ℝ) (k : ℝ) (h : ∀ i ∈ l, |f i - g i| ≤ k) :
    |(l.map f).sum - (l.map g).sum| ≤ l.length * k := by
  induction l with
  | nil => simp
  | cons a l ih =>
    have h1 := h a (by simp)
    have h2 := ih fun i hi => h i (List.mem_cons_of_mem _ hi)
    simp only [List.map_cons, List.sum_cons, List.length_cons]
    have e : f a + (l.map f).sum - (g a + (l.map g).sum) = (f a - g a) + ((l.map f).sum - (l.map g).sum) := by ring
    rw [e]
    refine (abs_add_le _ _).trans ?_
    push_cast
    linarith

theorem cross_diff {p q e f : Vec2 ℝ} {ρ δ : ℝ} (h1 : |p.x - e.x| ≤ δ) (h2 : |p.y - e.y| ≤ δ) (h3 : |q.x - f.x| ≤ δ)
    (h4 : |q.y - f.y| ≤ δ) (b1 : |e.x| ≤ ρ) (b2 : |e.y| ≤ ρ) (b3 : |f.x| ≤ ρ) (b4 : |f.y| ≤ ρ) :
    |crossTerm p q - crossTerm e f| ≤ 4 * ρ * δ + 2 * δ ^ 2 := by
  have hρ : 0 ≤ ρ := (abs_nonneg _).trans b1
  have pr : ∀ {a b c d : ℝ}, |a - c| ≤ δ → |b - d| ≤ δ → |c| ≤ ρ → |d| ≤ ρ → |a * b - c * d| ≤ 2 * ρ * δ + δ ^ 2 := by
    intro a b c d ha hb hc hd
    have e : a * b - c * d = (a - c) * d + c * (b - d) + (a - c) * (b - d) := by ring
    rw [e]
    refine (abs_add_le _ _).trans ?_
    have t1 := abs_add_le ((a - c) * d) (c * (b - d))
    rw [abs_mul, abs_mul] at t1
    have hδ : 0 ≤ δ := (abs_nonneg _).trans ha
    have m1 : |a - c| * |d| ≤ δ * ρ := mul_le_mul ha hd (abs_nonneg _) hδ
    have m2 : |c| * |b - d| ≤ ρ * δ := mul_le_mul hc hb (abs_nonneg _) hρ
    have m3 : |(a - c) * (b - d)| ≤ δ * δ := by rw [abs_mul]; exact mul_le_mul ha hb (abs_nonneg _) hδ
    linarith
  unfold crossTerm
  have e : p.x * q.y - q.x * p.y - (e.x * f.y - f.x * e.y) = (p.x * q.y - e.x * f.y) - (q.x * p.y - f.x * e.y) := by ring
  rw [e]
  refine (abs_sub _ _).trans ?_
  linarith [pr h1 h4 b1 b4, pr h3 h2 b3 b2]

theorem zip_sum_le (g : Vec2 ℝ → Vec2 ℝ → ℝ) (k : ℝ) (hk : 0 ≤ k) : ∀ (l m : List (Vec2 ℝ)),
    (∀ p ∈ l, ∀ q ∈ m, g p q ≤ k) → (List.zipWith g l m).sum ≤ l.length * k
  | [], m, _ => by simp
  | a :: l, [], _ => by
    simp only [List.zipWith_nil_right, List.sum_nil]
    positivity
  | a :: l, b :: m, h => by
    simp only [List.zipWith_cons_cons, List.sum_cons, List.length_cons]
    have := zip_sum_le g k hk l m fun p hp q hq => h p (List.mem_cons_of_mem _ hp) q (List.mem_cons_of_mem _ hq)
    have := h a (by simp) b (by simp)
    push_cast
    linarith

/-- the mass of points in a box around `c` -/
theorem mass_le (l : List (Vec2 ℝ)) (c : Vec2 ℝ) (B : ℝ) (h : ∀ p ∈ l, |p.x - c.x| ≤ B ∧ |p.y - c.y| ≤ B) :
    mass l ≤ l.length * (8 * B ^ 2) := by
  cases l with
  | nil => simp [mass]
  | cons a l =>
    have hB : 0 ≤ B := (abs_nonneg _).trans (h a (by simp)).1
    unfold mass
    have hz := zip_sum_le (fun b c => |prodP a b c| + |prodQ a b c|) (8 * B ^ 2) (by positivity) l l.tail (by
      intro p hp q hq
      have d : ∀ {x y z : ℝ}, |x - z| ≤ B → |y - z| ≤ B → |x - y| ≤ 2 * B := by
        intro x y z hx hy
        have e : x - y = (x - z) - (y - z) := by ring
        rw [e]
        refine (abs_sub _ _).trans ?_
        linarith
      obtain ⟨a1, a2⟩ := h a (by simp)
      obtain ⟨p1, p2⟩ := h p (List.mem_cons_of_mem _ hp)
      obtain ⟨q1, q2⟩ := h q (List.mem_cons_of_mem _ (List.mem_of_mem_tail hq))
      have m : ∀ {x y : ℝ}, |x| ≤ 2 * B → |y| ≤ 2 * B → |x * y| ≤ 4 * B ^ 2 := by
        intro x y hx hy
        rw [abs_mul]
        refine (mul_le_mul hx hy (abs_nonneg _) (by linarith)).trans (le_of_eq (by ring))
      have t1 : |prodP a p q| ≤ 4 * B ^ 2 := m (d p1 a1) (d q2 a2)
      have t2 : |prodQ a p q| ≤ 4 * B ^ 2 := m (d q1 a1) (d p2 a2)
      show |prodP a p q| + |prodQ a p q| ≤ 8 * B ^ 2
      linarith)
    refine hz.trans ?_
    refine mul_le_mul_of_nonneg_right ?_ (by positivity)
    simp

theorem sin_lower {n : ℕ} (h3 : 3 ≤ n) : 5 / 2 ≤ (n : ℝ) * Real.sin (2 * Real.pi / n) := by
  rcases Nat.eq_or_lt_of_le h3 with h | h
  · rw [← h]
    have e : Real.sin (2 * Real.pi / (3 : ℕ)) = Real.sqrt 3 / 2 := by
      rw [← Real.sin_pi_div_three, ← Real.sin_pi_sub (Real.pi / 3)]
      congr 1
      push_cast
      ring
    rw [e]
    have : (17 / 10 : ℝ) ≤ Real.sqrt 3 := Real.le_sqrt_of_sq_le (by norm_num)
    push_cast
    linarith
  · have hn4 : (4 : ℝ) ≤ n := by exact_mod_cast h
    have hn0 : (0 : ℝ) < n := by linarith
    have hp := Real.pi_pos
    have := Real.mul_le_sin (x := 2 * Real.pi / n) (by positivity) (by
      rw [div_le_div_iff₀ hn0 (by norm_num)]
      nlinarith)
    have e : 2 / Real.pi * (2 * Real.pi / n) = 4 / n := by field_simp; ring
    rw [e, div_le_iff₀ hn0] at this
    linarith

/-- the arithmetic of the orientation check -/
theorem orient_arith {n ρ δ M S s : ℝ} (hn3 : 3 ≤ n) (hn : n ≤ 1024) (hρ : 1 / 2 ^ 40 ≤ ρ) (hδ0 : 0 ≤ δ) (hδ : δ ≤ ρ / 2 ^ 17)
    (hM : M ≤ n * (8 * (ρ + δ) ^ 2)) (hS : |S - n * (ρ ^ 2 * s)| ≤ n * (4 * ρ * δ + 2 * δ ^ 2)) (hs : 5 / 2 ≤ n * s) :
    (2 * n + 6) / 2 ^ 24 * M + 4 * n / 2 ^ 150 < S := by
  have hρ0 : 0 < ρ := lt_of_lt_of_le (by positivity) hρ
  have hρ2 : (1 / 2 ^ 40) ^ 2 ≤ ρ ^ 2 := pow_le_pow_left₀ (by positivity) hρ 2
  have hρδ : ρ * δ ≤ ρ ^ 2 / 2 ^ 17 := by
    have := mul_le_mul_of_nonneg_left hδ hρ0.le
    refine this.trans (le_of_eq (by ring))
  have hδδ : δ ^ 2 ≤ ρ ^ 2 / 2 ^ 34 := by
    have := pow_le_pow_left₀ hδ0 hδ 2
    refine this.trans (le_of_eq (by ring))
  have h1 : 8 * (ρ + δ) ^ 2 ≤ 81 / 10 * ρ ^ 2 := by
    have e : 8 * (ρ + δ) ^ 2 = 8 * ρ ^ 2 + 16 * (ρ * δ) + 8 * δ ^ 2 := by ring
    rw [e]
    have := sq_nonneg ρ
    norm_num at hρδ hδδ ⊢
    linarith
  have hM2 : M ≤ 1024 * (81 / 10 * ρ ^ 2) := hM.trans (mul_le_mul hn h1 (by positivity) (by norm_num))
  have h2 : 4 * ρ * δ + 2 * δ ^ 2 ≤ ρ ^ 2 * (5 / 2 ^ 17) := by
    have := sq_nonneg ρ
    norm_num at hρδ hδδ ⊢
    linarith
  have h3 : n * (4 * ρ * δ + 2 * δ ^ 2) ≤ 1024 * (ρ ^ 2 * (5 / 2 ^ 17)) := mul_le_mul hn h2 (by positivity) (by norm_num)
  have h4 : 5 / 2 * ρ ^ 2 ≤ n * (ρ ^ 2 * s) := by
    have e : n * (ρ ^ 2 * s) = n * s * ρ ^ 2 := by ring
    rw [e]
    exact mul_le_mul_of_nonneg_right hs (sq_nonneg ρ)
  have h5 : (2 * n + 6) / 2 ^ 24 * M ≤ 2054 / 2 ^ 24 * (1024 * (81 / 10 * ρ ^ 2)) := by
    have h50 : (2 * n + 6) / 2 ^ 24 ≤ 2054 / 2 ^ 24 := by
      refine div_le_div_of_nonneg_right ?_ (by norm_num)
      linarith
    have h51 : 0 ≤ (2 * n + 6) / 2 ^ 24 := by
      refine div_nonneg ?_ (by norm_num)
      linarith
    exact (mul_le_mul_of_nonneg_left hM2 h51).trans (mul_le_mul_of_nonneg_right h50 (by positivity))
  have h6 := (abs_le.1 hS).1
  have h7 : 4 * n / 2 ^ 150 ≤ 1 / 2 ^ 100 := by
    norm_num
    linarith
  norm_num at h3 h5 h7 hρ2 ⊢
  linarith

/-- **C119, order of the vertices.** For 3 to 1024 sides, a circumradius between `2^-40` and `2^30` and a centre whose coordinates are at
most 32 times the circumradius, the orientation check of `Polygon::new` keeps the order of the vertices. -/
theorem C119_regular_order (h : GoodTrig sin cos) (n : ℕ) (h3 : 3 ≤ n) (hn : n ≤ 1024) (r : F32) (c : Vec2 F32) (hr : SmallNum r)
    (hc : SmallPt c) (r1 : 1 / 2 ^ 40 ≤ |(toRat r : ℝ)|) (r2 : |(toRat r : ℝ)| ≤ 2 ^ 30) (cx : |(toRat c.x : ℝ)| ≤ 32 * |(toRat r : ℝ)|)
    (cy : |(toRat c.y : ℝ)| ≤ 32 * |(toRat r : ℝ)|) :
    ∃ vs : List (Vec2 F32), vs.length = n ∧ @Polygon.regular F32 (trig sin cos acos) n r c = .ok ⟨vs⟩ ∧
      ∀ i (hi : i < vs.length), IsFin vs[i].x ∧ IsFin vs[i].y ∧
        |(toRat vs[i].x : ℝ) - ((toRat c.x : ℝ) + (toRat r : ℝ) * Real.cos (2 * Real.pi * i / n))| ≤ |(toRat r : ℝ)| / 2 ^ 17 ∧
        |(toRat vs[i].y : ℝ) - ((toRat c.y : ℝ) + (toRat r : ℝ) * Real.sin (2 * Real.pi * i / n))| ≤ |(toRat r : ℝ)| / 2 ^ 17 := by
  have hn24 : n ≤ 2 ^ 24 := by omega
  set ρ := |(toRat r : ℝ)| with hρ
  have hδx : ∀ {C : ℝ}, C ≤ 32 * ρ → ρ / 2 ^ 19 + C / 2 ^ 24 + 1 / 2 ^ 149 ≤ ρ / 2 ^ 17 := by
    intro C hC
    norm_num at r1 ⊢
    linarith
  have near : ∀ i, i < n →
      Near (vertex sin cos n r c i).x ((toRat c.x : ℝ) + (toRat r : ℝ) * Real.cos (2 * Real.pi * i / n)) (33 * ρ) (ρ / 2 ^ 17) ∧
      Near (vertex sin cos n r c i).y ((toRat c.y : ℝ) + (toRat r : ℝ) * Real.sin (2 * Real.pi * i / n)) (33 * ρ) (ρ / 2 ^ 17) := by
    intro i hi
    obtain ⟨nx, ny⟩ := vertex_near h hi hn24 hr hc
    exact ⟨nx.weaken (by linarith) (hδx cx), ny.weaken (by linarith) (hδx cy)⟩
  have hρ0 : 0 < ρ := lt_of_lt_of_le (by positivity) r1
  have hmod : ∀ v ∈ (List.range n).map (vertex sin cos n r c), ModeratePt v := by
    intro v hv
    obtain ⟨i, hi, rfl⟩ := List.mem_map.1 hv
    obtain ⟨nx, ny⟩ := near i (List.mem_range.1 hi)
    have b : ∀ {x : F32} {X : ℝ}, Near x X (33 * ρ) (ρ / 2 ^ 17) → IsFin x ∧ |toRat x| ≤ 2 ^ 40 := by
      intro x X hx
      refine ⟨hx.isFin, ?_⟩
      have hs := hx.size
      rw [← toRat_toReal] at hs
      have h1 : |(toRat x : ℝ)| ≤ 2 ^ 40 := by
        norm_num at hs r2 ⊢
        linarith
      exact_mod_cast h1
    exact ⟨b nx, b ny⟩
  have hlen : ((List.range n).map (vertex sin cos n r c)).length = n := by simp
  -- the exact polygon and the computed one, seen from the centre
  set C : Vec2 ℝ := real ℝ c with hC
  let e : ℕ → Vec2 ℝ := fun i => ⟨(toRat r : ℝ) * Real.cos (2 * Real.pi * i / n), (toRat r : ℝ) * Real.sin (2 * Real.pi * i / n)⟩
  let g : ℕ → Vec2 ℝ := fun i => ⟨(toRat (vertex sin cos n r c i).x : ℝ) - C.x, (toRat (vertex sin cos n r c i).y : ℝ) - C.y⟩
  have ge : ∀ i, i < n → |(g i).x - (e i).x| ≤ ρ / 2 ^ 17 ∧ |(g i).y - (e i).y| ≤ ρ / 2 ^ 17 := by
    intro i hi
    obtain ⟨nx, ny⟩ := near i hi
    have ex := nx.err
    have ey := ny.err
    rw [← toRat_toReal] at ex ey
    have q1 : (g i).x - (e i).x = (toRat (vertex sin cos n r c i).x : ℝ) - ((toRat c.x : ℝ) + (toRat r : ℝ) * Real.cos (2 * Real.pi * i / n)) := by
      show (toRat (vertex sin cos n r c i).x : ℝ) - (toRat c.x : ℝ) - (toRat r : ℝ) * Real.cos (2 * Real.pi * i / n) = _
      ring
    have q2 : (g i).y - (e i).y = (toRat (vertex sin cos n r c i).y : ℝ) - ((toRat c.y : ℝ) + (toRat r : ℝ) * Real.sin (2 * Real.pi * i / n)) := by
      show (toRat (vertex sin cos n r c i).y : ℝ) - (toRat c.y : ℝ) - (toRat r : ℝ) * Real.sin (2 * Real.pi * i / n) = _
      ring
    rw [q1, q2]
    exact ⟨ex, ey⟩
  have eb : ∀ i, |(e i).x| ≤ ρ ∧ |(e i).y| ≤ ρ := by
    intro i
    constructor
    · show |(toRat r : ℝ) * Real.cos _| ≤ ρ
      rw [abs_mul]
      exact mul_le_of_le_one_right (abs_nonneg _) (Real.abs_cos_le_one _)
    · show |(toRat r : ℝ) * Real.sin _| ≤ ρ
      rw [abs_mul]
      exact mul_le_of_le_one_right (abs_nonneg _) (Real.abs_sin_le_one _)
  have hreal : ((List.range n).map (vertex sin cos n r c)).map (real ℝ) =
      ((List.range n).map g).map fun v => ⟨v.x + C.x, v.y + C.y⟩ := by
    rw [List.map_map, List.map_map]
    apply List.map_congr_left
    intro i _
    show real ℝ (vertex sin cos n r c i) = ⟨(toRat (vertex sin cos n r c i).x : ℝ) - C.x + C.x,
      (toRat (vertex sin cos n r c i).y : ℝ) - C.y + C.y⟩
    rw [sub_add_cancel, sub_add_cancel]
    rfl
  have hS : |shoelace (((List.range n).map (vertex sin cos n r c)).map (real ℝ)) - n * (ρ ^ 2 * Real.sin (2 * Real.pi / n))| ≤
      n * (4 * ρ * (ρ / 2 ^ 17) + 2 * (ρ / 2 ^ 17) ^ 2) := by
    rw [hreal, shoelace_translate]
    have hex := regular_shoelace n h3 (toRat r : ℝ) (0, 0)
    have hmap : ((List.range n).map (regVertex n (toRat r : ℝ) (0, 0))).map rv = (List.range n).map e := by
      rw [List.map_map]
      apply List.map_congr_left
      intro i _
      show rv (regVertex n (toRat r : ℝ) (0, 0) i) = e i
      simp [rv, regVertex, e]
    rw [hmap, ← sq_abs (toRat r : ℝ)] at hex
    rw [← hex, shoelace_sum, shoelace_sum]
    have := sum_diff_le (List.range n) (fun i => crossTerm (g i) (g ((i + 1) % n))) (fun i => crossTerm (e i) (e ((i + 1) % n)))
      (4 * ρ * (ρ / 2 ^ 17) + 2 * (ρ / 2 ^ 17) ^ 2) (by
        intro i hi
        have hi := List.mem_range.1 hi
        have hj : (i + 1) % n < n := Nat.mod_lt _ (by omega)
        obtain ⟨a1, a2⟩ := ge i hi
        obtain ⟨a3, a4⟩ := ge _ hj
        obtain ⟨b1, b2⟩ := eb i
        obtain ⟨b3, b4⟩ := eb ((i + 1) % n)
        exact cross_diff a1 a2 a3 a4 b1 b2 b3 b4)
    rwa [List.length_range] at this
  have hM : mass (((List.range n).map (vertex sin cos n r c)).map (real ℝ)) ≤ n * (8 * (ρ + ρ / 2 ^ 17) ^ 2) := by
    have := mass_le (((List.range n).map (vertex sin cos n r c)).map (real ℝ)) C (ρ + ρ / 2 ^ 17) (by
      intro p hp
      rw [List.map_map] at hp
      obtain ⟨i, hi, rfl⟩ := List.mem_map.1 hp
      obtain ⟨a1, a2⟩ := ge i (List.mem_range.1 hi)
      obtain ⟨b1, b2⟩ := eb i
      have t : ∀ {x y a b : ℝ}, |x - y| ≤ b → |y| ≤ a → |x| ≤ a + b := by
        intro x y a b h1 h2
        have := abs_sub_abs_le_abs_sub x y
        linarith
      exact ⟨t a1 b1, t a2 b2⟩)
    simpa using this
  have hn3 : (3 : ℝ) ≤ n := by exact_mod_cast h3
  have hn' : (n : ℝ) ≤ 1024 := by exact_mod_cast hn
  have key := orient_arith hn3 hn' r1 (by positivity) (le_refl _) hM hS (sin_lower h3)
  have hpos : 0 < shoelace (((List.range n).map (vertex sin cos n r c)).map (real ℝ)) := by
    refine lt_of_le_of_lt ?_ key
    have : 0 ≤ mass (((List.range n).map (vertex sin cos n r c)).map (real ℝ)) := by
      cases (((List.range n).map (vertex sin cos n r c)).map (real ℝ)) with
      | nil => simp [mass]
      | cons a l => exact mass_nonneg a l
    positivity
  have hnew := C89_new ((List.range n).map (vertex sin cos n r c)) hmod (by rw [hlen]; exact h3) (by rw [hlen]; omega) (by
    rw [hlen, abs_of_pos hpos]
    exact key)
  refine ⟨(List.range n).map (vertex sin cos n r c), hlen, ?_, ?_⟩
  · rw [regular_eq]
    unfold Polygon.newUnwrap
    rcases hnew with ⟨_, h1⟩ | ⟨h1, _⟩
    · rw [h1]
    · exact absurd h1 (not_lt.2 hpos.le)
  · intro i hi
    have hi' : i < n := by simpa using hi
    obtain ⟨nx, ny⟩ := near i hi'
    have ex := nx.err
    have ey := ny.err
    rw [← toRat_toReal] at ex ey
    simp only [List.getElem_map, List.getElem_range]
    exact ⟨nx.isFin, ny.isFin, ex, ey⟩

/-! ### the hypotheses -/

/-- every real number between -1 and 1 is within `2^-22` of a float -/
theorem float_near {x : ℝ} (hx : |x| ≤ 1) : ∃ y : F32, IsFin y ∧ |toReal y - x| ≤ 1 / 2 ^ 22 := by
  have h1 := Int.floor_le (x * 2 ^ 22)
  have h2 := Int.lt_floor_add_one (x * 2 ^ 22)
  obtain ⟨x1, x2⟩ := abs_le.1 hx
  set z : ℤ := ⌊x * 2 ^ 22⌋ with hz
  have z1 : (-(2 ^ 23) : ℤ) ≤ z := by
    have : (-(2 ^ 23) : ℝ) ≤ (z : ℝ) := by norm_num at *; linarith
    exact_mod_cast this
  have z2 : z ≤ (2 ^ 23 : ℤ) := by
    have : (z : ℝ) ≤ (2 ^ 23 : ℝ) := by norm_num at *; linarith
    exact_mod_cast this
  have hr := rep_round 127 (by norm_num) z (by rw [abs_le]; constructor <;> omega) (decide (z < 0)) (fun _ => rfl)
    (z.natAbs * 2 ^ 127) 1 (by norm_num) (by rw [Nat.mul_one])
  have hv := hr.toRat
  refine ⟨F32.round (decide (z < 0)) (z.natAbs * 2 ^ 127) 1, ?_, ?_⟩
  · obtain ⟨s, n, h, _⟩ := hr
    exact ⟨s, n, h⟩
  · rw [← toRat_toReal, hv, abs_le]
    push_cast
    norm_num at h1 h2 ⊢
    constructor <;> linarith

/-- there are implementations meeting the assumption -/
theorem good_trig_exists : ∃ sin cos : F32 → F32, GoodTrig sin cos := by
  choose s hs using fun x : F32 => float_near (Real.abs_sin_le_one (toReal x))
  choose c hc using fun x : F32 => float_near (Real.abs_cos_le_one (toReal x))
  exact ⟨s, c, ⟨fun x _ _ => hs x, fun x _ _ => hc x⟩⟩

/-- the hypotheses of `C119_regular_order`, with 8 sides, circumradius 3 and centre (10, 4): the result is a polygon of 8 vertices -/
example : ∃ sin cos : F32 → F32, GoodTrig sin cos ∧ ∃ vs : List (Vec2 F32), vs.length = 8 ∧
    @Polygon.regular F32 (trig sin cos id) 8 (F32.lit 3) ⟨F32.lit 10, F32.lit 4⟩ = .ok ⟨vs⟩ := by
  obtain ⟨sin, cos, h⟩ := good_trig_exists
  have v3 : toRat (F32.lit 3) = 3 := by decide +kernel
  have v10 : toRat (F32.lit 10) = 10 := by decide +kernel
  have v4 : toRat (F32.lit 4) = 4 := by decide +kernel
  have b3 : SmallNum (F32.lit 3) := ⟨⟨_, _, rfl⟩, by rw [v3]; norm_num⟩
  have b10 : SmallNum (F32.lit 10) := ⟨⟨_, _, rfl⟩, by rw [v10]; norm_num⟩
  have b4 : SmallNum (F32.lit 4) := ⟨⟨_, _, rfl⟩, by rw [v4]; norm_num⟩
  obtain ⟨vs, h1, h2, _⟩ := C119_regular_order (acos := id) h 8 (by norm_num) (by norm_num) (F32.lit 3) ⟨F32.lit 10, F32.lit 4⟩ b3
    ⟨b10, b4⟩ (by rw [v3]; norm_num) (by rw [v3]; norm_num) (by rw [v3, v10]; norm_num) (by rw [v3, v4]; norm_num)
  exact ⟨sin, cos, h, vs, h1, h2⟩

end Kami.TrigF32
