import Verif.Geom.Simple.ScaleF32
/-!
# C115: accuracy of `center`, `translate` and `uniform_scale` in f32
-/

set_option autoImplicit false

namespace Kami.Simple

open Kami Kami.Polygon Kami.F32 Kami.DistF32
open scoped Kami

/-! ### specification -/

/-- finite and at most `B` in absolute value -/
def Upto (B : ℝ) (x : F32) : Prop := IsFin x ∧ |toReal x| ≤ B

/-- arithmetic mean -/
noncomputable def mean (l : List ℝ) : ℝ := l.sum / l.length

/-! ### proofs -/

/-- one running sum -/
theorem running_sum {B : ℝ} (hB : B ≤ 2 ^ 60) : ∀ (l : List F32), (∀ x ∈ l, Upto B x) → ∀ (n : ℕ) (a : F32) (A : ℝ),
    n + l.length ≤ 2 ^ 24 → IsFin a → |A| ≤ n * B → |toReal a - A| ≤ u * B * n ^ 2 →
    IsFin (l.foldl (· + ·) a) ∧ |A + (l.map toReal).sum| ≤ ((n + l.length : ℕ) : ℝ) * B ∧
    |toReal (l.foldl (· + ·) a) - (A + (l.map toReal).sum)| ≤ u * B * ((n + l.length : ℕ) : ℝ) ^ 2
  | [], _, n, a, A, _, ha, hA, he => by simpa using ⟨ha, hA, he⟩
  | x :: l, hl, n, a, A, hn, ha, hA, he => by
    simp only [List.length_cons] at hn
    obtain ⟨hx, hxB⟩ := hl x (by simp)
    have hB0 : 0 ≤ B := (abs_nonneg _).trans hxB
    have hu := u_pos
    have hnr : (n : ℝ) + 1 ≤ 2 ^ 24 := by exact_mod_cast (by omega : n + 1 ≤ 2 ^ 24)
    have hn0 : (0 : ℝ) ≤ n := Nat.cast_nonneg n
    have hun : u * n ^ 2 ≤ n := by
      have : u * n ≤ 1 := by unfold u; norm_num at hnr ⊢; linarith
      nlinarith
    have hs : |toReal a + toReal x| ≤ (n + 1) * B + u * B * n ^ 2 := by
      have h1 := abs_add_le (toReal a) (toReal x)
      have h2 := abs_sub_abs_le_abs_sub (toReal a) A
      linarith
    have hs' : |toReal a + toReal x| ≤ (2 * n + 1) * B := by nlinarith
    have hf : IsFin (a + x) := add_isFin ha hx (by
      refine lt_of_le_of_lt hs' ?_
      have : (2 * (n : ℝ) + 1) * B ≤ 2 ^ 25 * 2 ^ 60 := mul_le_mul (by linarith) hB hB0 (by norm_num)
      refine lt_of_le_of_lt this ?_
      unfold maxHalf
      norm_num)
    have hadd := add_err ha hx hf
    have he' : |toReal (a + x) - (A + toReal x)| ≤ u * B * ((n + 1 : ℕ) : ℝ) ^ 2 := by
      have e : toReal (a + x) - (A + toReal x) = (toReal (a + x) - (toReal a + toReal x)) + (toReal a - A) := by ring
      rw [e]
      refine (abs_add_le _ _).trans ?_
      have h1 : u * |toReal a + toReal x| ≤ u * ((2 * n + 1) * B) := mul_le_mul_of_nonneg_left hs' hu.le
      push_cast
      nlinarith
    have hA' : |A + toReal x| ≤ ((n + 1 : ℕ) : ℝ) * B := by
      refine (abs_add_le _ _).trans ?_
      push_cast
      linarith
    have := running_sum hB l (fun y hy => hl y (by simp [hy])) (n + 1) (a + x) (A + toReal x) (by omega) hf hA' he'
    simp only [List.foldl_cons, List.map_cons, List.sum_cons, List.length_cons]
    rw [show n + (l.length + 1) = n + 1 + l.length by ring, ← add_assoc A]
    exact this

theorem fold_components (l : List (Vec2 F32)) (a : Vec2 F32) :
    l.foldl (fun (acc v : Vec2 F32) => (⟨acc.x + v.x, acc.y + v.y⟩ : Vec2 F32)) a =
      ⟨(l.map Vec2.x).foldl (· + ·) a.x, (l.map Vec2.y).foldl (· + ·) a.y⟩ := by
  induction l generalizing a with
  | nil => rfl
  | cons v l ih => rw [List.foldl_cons, ih]; rfl

theorem ofNatF_real {n : ℕ} (hn : n ≤ 2 ^ 24) : IsFin (ofNatF n) ∧ toReal (ofNatF n) = n := by
  obtain ⟨p, hp, hm⟩ := ofNatF_small hn
  rw [hp]
  refine ⟨⟨_, _, rfl⟩, ?_⟩
  show ((val false p : ℤ) : ℝ) / 2 ^ 149 = _
  rw [show val false p = (mag p : ℤ) by simp [val], hm]
  push_cast
  field_simp
  norm_num

theorem mean_err {B : ℝ} (hB : B ≤ 2 ^ 60) (l : List F32) (hl : ∀ x ∈ l, Upto B x) (h0 : l ≠ []) (hn : l.length ≤ 2 ^ 24) :
    IsFin (l.foldl (· + ·) (ofBits 0) / ofNatF l.length) ∧
    |toReal (l.foldl (· + ·) (ofBits 0) / ofNatF l.length) - mean (l.map toReal)| ≤ (l.length + 2) / 2 ^ 24 * B + 1 / 2 ^ 150 := by
  have z : toReal (ofBits 0) = 0 := by rw [← toRat_toReal, toRat_zero32]; simp
  obtain ⟨hf, hA, he⟩ := running_sum hB l hl 0 (ofBits 0) 0 (by omega) zero_isFin (by simp) (by rw [z]; simp)
  rw [zero_add, Nat.zero_add] at he hA
  obtain ⟨hnf, hnr⟩ := ofNatF_real hn
  have hlen : 0 < l.length := List.length_pos_iff.2 h0
  have hN : (1 : ℝ) ≤ l.length := by exact_mod_cast hlen
  have hN0 : (0 : ℝ) < l.length := by linarith
  have hN24 : (l.length : ℝ) ≤ 2 ^ 24 := by exact_mod_cast hn
  obtain ⟨x, hx⟩ := List.exists_mem_of_ne_nil l h0
  have hB0 : 0 ≤ B := (abs_nonneg _).trans (hl x hx).2
  have hu := u_pos
  unfold mean
  rw [List.length_map]
  generalize l.foldl (· + ·) (ofBits 0) = S at *
  generalize (l.map toReal).sum = Z at *
  generalize (l.length : ℝ) = N at *
  have hdiv : |toReal S / N - Z / N| ≤ u * B * N := by
    rw [← sub_div, abs_div, abs_of_pos hN0, div_le_iff₀ hN0]
    linarith [he, (by ring : u * B * N * N = u * B * N ^ 2)]
  have hmean : |Z / N| ≤ B := by
    rw [abs_div, abs_of_pos hN0, div_le_iff₀ hN0]
    linarith
  have huN : u * N ≤ 1 := by unfold u; norm_num at hN24 ⊢; linarith
  have hq : |toReal S / N| ≤ 2 * B := by
    have := abs_sub_abs_le_abs_sub (toReal S / N) (Z / N)
    have h3 : u * B * N ≤ B := by nlinarith
    linarith
  have hqf : IsFin (S / ofNatF l.length) := div_isFin hf hnf (by rw [hnr]; exact hN0.ne') (by
    rw [hnr]
    refine lt_of_le_of_lt hq ?_
    unfold maxHalf
    norm_num at hB ⊢
    linarith)
  refine ⟨hqf, ?_⟩
  have hd := div_err hf hnf (by rw [hnr]; exact hN0.ne') hqf
  rw [hnr] at hd
  have e : toReal (S / ofNatF l.length) - Z / N = (toReal (S / ofNatF l.length) - toReal S / N) + (toReal S / N - Z / N) := by
    ring
  rw [e]
  refine (abs_add_le _ _).trans ?_
  have h1 : u * |toReal S / N| ≤ u * (2 * B) := mul_le_mul_of_nonneg_left hq hu.le
  have h2 : (N + 2) / 2 ^ 24 * B = u * B * N + u * (2 * B) := by unfold u; ring
  have h3 : η = 1 / 2 ^ 150 := by unfold η; norm_num
  rw [h2, ← h3]
  linarith

/-- **C115, centre.** For 1 to `2^24` vertices with coordinates up to `B ≤ 2^60`, the centre is finite and each coordinate is
within `(n + 2) 2^-24 B` (and half the least subnormal number) of the mean of the coordinates. -/
theorem C115_center {B : ℝ} (hB : B ≤ 2 ^ 60) (P : Polygon F32) (h0 : P.vertices ≠ []) (hn : P.vertices.length ≤ 2 ^ 24)
    (hP : ∀ v ∈ P.vertices, Upto B v.x ∧ Upto B v.y) :
    (IsFin P.center.x ∧ |toReal P.center.x - mean (P.vertices.map fun v => toReal v.x)| ≤
      (P.vertices.length + 2) / 2 ^ 24 * B + 1 / 2 ^ 150) ∧
    (IsFin P.center.y ∧ |toReal P.center.y - mean (P.vertices.map fun v => toReal v.y)| ≤
      (P.vertices.length + 2) / 2 ^ 24 * B + 1 / 2 ^ 150) := by
  have e : P.center = ⟨(P.vertices.map Vec2.x).foldl (· + ·) (ofBits 0) / ofNatF P.vertices.length,
      (P.vertices.map Vec2.y).foldl (· + ·) (ofBits 0) / ofNatF P.vertices.length⟩ := by
    have := fold_components P.vertices ⟨ofBits 0, ofBits 0⟩
    show (⟨(P.vertices.foldl (fun (acc v : Vec2 F32) => (⟨acc.x + v.x, acc.y + v.y⟩ : Vec2 F32)) ⟨ofBits 0, ofBits 0⟩).x / _,
      (P.vertices.foldl (fun (acc v : Vec2 F32) => (⟨acc.x + v.x, acc.y + v.y⟩ : Vec2 F32)) ⟨ofBits 0, ofBits 0⟩).y / _⟩ :
      Vec2 F32) = _
    rw [this]
    rfl
  rw [e]
  have h1 := mean_err hB (P.vertices.map Vec2.x) (by
    intro x hx
    obtain ⟨v, hv, rfl⟩ := List.mem_map.1 hx
    exact (hP v hv).1) (by simpa using h0) (by simpa using hn)
  have h2 := mean_err hB (P.vertices.map Vec2.y) (by
    intro x hx
    obtain ⟨v, hv, rfl⟩ := List.mem_map.1 hx
    exact (hP v hv).2) (by simpa using h0) (by simpa using hn)
  rw [List.length_map, List.map_map] at h1 h2
  exact ⟨h1, h2⟩

/-- **C115, moving and scaling.** Every coordinate is off by at most `2^-24` of its exact value; scaling adds at most half the
least subnormal number. -/
theorem C115_move (P : Polygon F32) (t : Vec2 F32) (s : F32) (i : Nat) (v : Vec2 F32) (hv : P.vertices[i]? = some v) :
    (∃ w, (P.translate t).vertices[i]? = some w ∧
      (IsFin v.x → IsFin t.x → IsFin w.x → |toReal w.x - (toReal v.x + toReal t.x)| ≤ |toReal v.x + toReal t.x| / 2 ^ 24) ∧
      (IsFin v.y → IsFin t.y → IsFin w.y → |toReal w.y - (toReal v.y + toReal t.y)| ≤ |toReal v.y + toReal t.y| / 2 ^ 24)) ∧
    (∃ w, (P.uniformScale s).vertices[i]? = some w ∧
      (IsFin v.x → IsFin s → IsFin w.x → |toReal w.x - toReal v.x * toReal s| ≤ |toReal v.x * toReal s| / 2 ^ 24 + 1 / 2 ^ 150) ∧
      (IsFin v.y → IsFin s → IsFin w.y → |toReal w.y - toReal v.y * toReal s| ≤ |toReal v.y * toReal s| / 2 ^ 24 + 1 / 2 ^ 150)) := by
  have hu : ∀ r : ℝ, u * r = r / 2 ^ 24 := fun r => by unfold u; ring
  refine ⟨⟨⟨v.x + t.x, v.y + t.y⟩, by simp [translate, hv], ?_, ?_⟩, ⟨⟨v.x * s, v.y * s⟩, by simp [uniformScale, hv], ?_, ?_⟩⟩
  · intro h1 h2 h3
    rw [← hu]
    exact add_err h1 h2 h3
  · intro h1 h2 h3
    rw [← hu]
    exact add_err h1 h2 h3
  · intro h1 h2 h3
    rw [← hu]
    exact mul_err h1 h2 h3
  · intro h1 h2 h3
    rw [← hu]
    exact mul_err h1 h2 h3

/-- a flat triangle of positive area -/
def flat : List (Vec2 F32) := [⟨F32.lit 1 2, F32.lit 9000000357627869 (10 ^ 16)⟩, ⟨F32.lit 0, F32.lit 9 10⟩, ⟨F32.lit 1, F32.lit 9 10⟩]

/-- **C115, outside.** The bound cannot be replaced by "the centre lies in the polygon": the centre of this triangle of positive
area lies strictly below its three vertices. -/
theorem C115_outside : Polygon.new flat = .ok ⟨flat⟩ ∧ 0 < toRat (areaPoly2 ⟨flat⟩) ∧
    ∀ v ∈ flat, toRat (center ⟨flat⟩).y < toRat v.y := by
  decide +kernel

/-- a triangle -/
example : let P : Polygon F32 := ⟨[⟨F32.lit 0, F32.lit 0⟩, ⟨F32.lit 1, F32.lit 0⟩, ⟨F32.lit 0, F32.lit 1⟩]⟩
    IsFin P.center.x ∧ |toReal P.center.x - 1 / 3| ≤ 5 / 2 ^ 24 + 1 / 2 ^ 150 := by
  have h0 : toRat (F32.lit 0) = 0 := by decide +kernel
  have h1 : toRat (F32.lit 1) = 1 := by decide +kernel
  have r0 : toReal (F32.lit 0) = 0 := by rw [← toRat_toReal, h0]; simp
  have r1 : toReal (F32.lit 1) = 1 := by rw [← toRat_toReal, h1]; simp
  have u0 : Upto 1 (F32.lit 0) := ⟨⟨_, _, rfl⟩, by rw [r0]; simp⟩
  have u1 : Upto 1 (F32.lit 1) := ⟨⟨_, _, rfl⟩, by rw [r1]; simp⟩
  have := (C115_center (B := 1) (by norm_num) ⟨[⟨F32.lit 0, F32.lit 0⟩, ⟨F32.lit 1, F32.lit 0⟩, ⟨F32.lit 0, F32.lit 1⟩]⟩
    (by simp) (by simp) (by
      intro v hv
      simp only [List.mem_cons, List.not_mem_nil, or_false] at hv
      rcases hv with rfl | rfl | rfl
      · exact ⟨u0, u0⟩
      · exact ⟨u1, u0⟩
      · exact ⟨u0, u1⟩)).1
  simp only [List.map_cons, List.map_nil, mean, List.sum_cons, List.sum_nil, List.length_cons, List.length_nil, r0, r1] at this
  norm_num at this ⊢
  exact this

end Kami.Simple
