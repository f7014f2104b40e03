import Verif.Geom.Simple.FilterF32
/-!
# Area and orientation of polygons in f32

A running error bound for `area_poly2`, and what follows for `area()` and `Polygon::new`.
-/

set_option autoImplicit false
set_option linter.unusedSectionVars false
set_option linter.dupNamespace false

namespace Kami.Simple

open Kami Kami.Pred Kami.PolyThm Kami.Polygon Kami.Transfer Kami.F32
open scoped Kami

/-! ### specification -/

/-- a point whose coordinates are finite and at most `2^40` in absolute value -/
def ModeratePt (v : Vec2 F32) : Prop :=
  (IsFin v.x ∧ |toRat v.x| ≤ 2 ^ 40) ∧ (IsFin v.y ∧ |toRat v.y| ≤ 2 ^ 40)

/-- the sum of the absolute values of all products that enter the fan of triangles at the first vertex -/
def mass {K : Type} [Field K] [LinearOrder K] : List (Vec2 K) → K
  | [] => 0
  | a :: l => (List.zipWith (fun b c => |prodP a b c| + |prodQ a b c|) l l.tail).sum

/-- the possible rounding error of `area_poly2` on `n` vertices -/
noncomputable def areaError (n : ℕ) (M : ℝ) : ℝ := (2 * n + 6) / 2 ^ 24 * M + 4 * n / 2 ^ 150

/-! ### error analysis -/

theorem ModeratePt.small {v : Vec2 F32} (h : ModeratePt v) : SmallPt v :=
  ⟨⟨h.1.1, h.1.2.trans (by norm_num)⟩, ⟨h.2.1, h.2.2.trans (by norm_num)⟩⟩

theorem mass_cons {K : Type} [Field K] [LinearOrder K] (a b c : Vec2 K) (l : List (Vec2 K)) :
    mass (a :: b :: c :: l) = |prodP a b c| + |prodQ a b c| + mass (a :: c :: l) := by
  simp [mass]

theorem mass_nonneg (a : Vec2 ℝ) : ∀ l : List (Vec2 ℝ), 0 ≤ mass (a :: l)
  | [] => by simp [mass]
  | [b] => by simp [mass]
  | b :: c :: l => by
    rw [mass_cons]
    have := mass_nonneg a (c :: l)
    have := abs_nonneg (prodP a b c)
    have := abs_nonneg (prodQ a b c)
    linarith

/-- one term of the sum -/
theorem term_err {a b c : Vec2 F32} (ha : ModeratePt a) (hb : ModeratePt b) (hc : ModeratePt c) :
    IsFin (area2 a b c) ∧ |toReal (area2 a b c) - area2 (real ℝ a) (real ℝ b) (real ℝ c)| ≤
      6 * u * (|prodP (real ℝ a) (real ℝ b) (real ℝ c)| + |prodQ (real ℝ a) (real ℝ b) (real ℝ c)|) + 3 * η ∧
    |prodP (real ℝ a) (real ℝ b) (real ℝ c)| + |prodQ (real ℝ a) (real ℝ b) (real ℝ c)| ≤ 2 ^ 83 := by
  obtain ⟨hf, p, q, _, _, hp, hq, hs⟩ := area2_f32 ha.small hb.small hc.small
  refine ⟨hf, ?_, ?_⟩
  · rw [exact_area2]
    generalize prodP (real ℝ a) (real ℝ b) (real ℝ c) = P at *
    generalize prodQ (real ℝ a) (real ℝ b) (real ℝ c) = Q at *
    have hP := abs_nonneg P
    have hQ := abs_nonneg Q
    have h1 : |(p - q) - (P - Q)| ≤ 4 * u * (|P| + |Q|) + 2 * η := by
      have e : (p - q) - (P - Q) = (p - P) - (q - Q) := by ring
      rw [e]
      refine (abs_sub _ _).trans ?_
      linarith
    have h2 : |p - q| ≤ |P| + |Q| + (4 * u * (|P| + |Q|) + 2 * η) := by
      have := abs_sub_abs_le_abs_sub (p - q) (P - Q)
      have := abs_sub P Q
      linarith
    have h3 : |toReal (area2 a b c) - (P - Q)| ≤ |toReal (area2 a b c) - (p - q)| + |(p - q) - (P - Q)| := by
      have := abs_add_le (toReal (area2 a b c) - (p - q)) ((p - q) - (P - Q))
      simpa using this
    have h4 : u * |p - q| ≤ u * (|P| + |Q| + (4 * u * (|P| + |Q|) + 2 * η)) := mul_le_mul_of_nonneg_left h2 u_pos.le
    have h5 : u * (|P| + |Q| + (4 * u * (|P| + |Q|) + 2 * η)) + (4 * u * (|P| + |Q|) + 2 * η) ≤ 6 * u * (|P| + |Q|) + 3 * η := by
      have e1 : u * (|P| + |Q| + (4 * u * (|P| + |Q|) + 2 * η)) = (u + 4 * u ^ 2) * (|P| + |Q|) + 2 * u * η := by ring
      have e2 : u + 4 * u ^ 2 ≤ 2 * u := by unfold u; norm_num
      have e3 : 2 * u * η ≤ 1 * η := mul_le_mul_of_nonneg_right (by unfold u; norm_num) η_pos.le
      have e4 : (u + 4 * u ^ 2) * (|P| + |Q|) ≤ 2 * u * (|P| + |Q|) := mul_le_mul_of_nonneg_right e2 (by linarith)
      linarith
    linarith
  · have hb1 : ∀ {x y : F32}, |toRat x| ≤ 2 ^ 40 → |toRat y| ≤ 2 ^ 40 → |(toRat x : ℝ) - toRat y| ≤ 2 ^ 41 := by
      intro x y hx hy
      have hx' : |(toRat x : ℝ)| ≤ 2 ^ 40 := by exact_mod_cast hx
      have hy' : |(toRat y : ℝ)| ≤ 2 ^ 40 := by exact_mod_cast hy
      refine (abs_sub _ _).trans ?_
      have : (2 : ℝ) ^ 41 = 2 ^ 40 + 2 ^ 40 := by norm_num
      linarith
    have hm : ∀ {x y z w : F32}, |toRat x| ≤ 2 ^ 40 → |toRat y| ≤ 2 ^ 40 → |toRat z| ≤ 2 ^ 40 → |toRat w| ≤ 2 ^ 40 →
        |((toRat x : ℝ) - toRat y) * ((toRat z : ℝ) - toRat w)| ≤ 2 ^ 82 := by
      intro x y z w h1 h2 h3 h4
      rw [abs_mul]
      refine (mul_le_mul (hb1 h1 h2) (hb1 h3 h4) (abs_nonneg _) (by norm_num)).trans ?_
      norm_num
    have e : (2 : ℝ) ^ 83 = 2 ^ 82 + 2 ^ 82 := by norm_num
    rw [e]
    exact add_le_add (hm hb.1.2 ha.1.2 hc.2.2 ha.2.2) (hm hc.1.2 ha.1.2 hb.2.2 ha.2.2)

theorem fan_err {a : Vec2 F32} (ha : ModeratePt a) : ∀ (m : List (Vec2 F32)), (∀ v ∈ m, ModeratePt v) →
    ∀ (k : ℕ) (s : F32) (σ M : ℝ), IsFin s → |toReal s - σ| ≤ (6 + 2 * k) * u * M + 4 * k * η → |σ| ≤ M → M ≤ k * 2 ^ 83 →
    k + m.length ≤ 2 ^ 20 →
    IsFin (fanSum a m s) ∧
    |toReal (fanSum a m s) - fanSum (real ℝ a) (m.map (real ℝ)) σ| ≤
      (6 + 2 * ((k + m.length : ℕ) : ℝ)) * u * (M + mass (real ℝ a :: m.map (real ℝ))) + 4 * ((k + m.length : ℕ) : ℝ) * η ∧
    |fanSum (real ℝ a) (m.map (real ℝ)) σ| ≤ M + mass (real ℝ a :: m.map (real ℝ)) ∧
    M + mass (real ℝ a :: m.map (real ℝ)) ≤ ((k + m.length : ℕ) : ℝ) * 2 ^ 83
  | [], _, k, s, σ, M, hs, he, hσ, hM, _ => by
    simp only [fanSum, List.map_nil, mass, List.length_nil, Nat.add_zero]
    simp only [List.tail_nil, List.zipWith_nil_left, List.sum_nil, add_zero]
    exact ⟨hs, he, hσ, hM⟩
  | [b], _, k, s, σ, M, hs, he, hσ, hM, _ => by
    simp only [fanSum, List.map_cons, List.map_nil, mass, List.length_cons, List.length_nil]
    simp only [List.tail_cons, List.zipWith_nil_right, List.sum_nil, add_zero, zero_add]
    have hM0 : 0 ≤ M := (abs_nonneg _).trans hσ
    have hu := u_pos
    have hη := η_pos
    push_cast
    refine ⟨hs, he.trans ?_, hσ, hM.trans ?_⟩
    · have : 0 ≤ u * M := by positivity
      nlinarith
    · linarith [show (0 : ℝ) ≤ 2 ^ 83 by positivity]
  | b :: c :: m, hm, k, s, σ, M, hs, he, hσ, hM, hk => by
    obtain ⟨hf, ht, hb⟩ := term_err ha (hm b (by simp)) (hm c (by simp))
    simp only [List.length_cons] at hk
    have hM0 : 0 ≤ M := (abs_nonneg _).trans hσ
    have hu := u_pos
    have hη := η_pos
    rw [List.map_cons, List.map_cons, mass_cons]
    set mm := |prodP (real ℝ a) (real ℝ b) (real ℝ c)| + |prodQ (real ℝ a) (real ℝ b) (real ℝ c)| with hmm
    have hmm0 : 0 ≤ mm := by positivity
    set t := area2 (real ℝ a) (real ℝ b) (real ℝ c) with htdef
    have htm : |t| ≤ mm := by
      rw [htdef, exact_area2]
      exact abs_sub _ _
    have hk' : (k : ℝ) + 1 ≤ 2 ^ 20 := by
      have : k + 1 ≤ 2 ^ 20 := by omega
      exact_mod_cast this
    have hk0 : (0 : ℝ) ≤ k := Nat.cast_nonneg _
    -- error before rounding the sum
    have hE : |(toReal s + toReal (area2 a b c)) - (σ + t)| ≤ (6 + 2 * k) * u * (M + mm) + (4 * k + 3) * η := by
      have e : (toReal s + toReal (area2 a b c)) - (σ + t) = (toReal s - σ) + (toReal (area2 a b c) - t) := by ring
      rw [e]
      refine (abs_add_le _ _).trans ?_
      have : 6 * u * mm ≤ (6 + 2 * k) * u * mm := by
        have : 0 ≤ k * u * mm := by positivity
        nlinarith
      nlinarith
    have hku : (6 + 2 * k) * u ≤ 1 := by
      unfold u
      rw [mul_one_div, div_le_one (by positivity)]
      have : (2 : ℝ) ^ 20 * 2 + 6 ≤ 2 ^ 24 := by norm_num
      linarith
    have hku' : (4 * k + 3) * u ≤ 1 := by
      unfold u
      rw [mul_one_div, div_le_one (by positivity)]
      have : (2 : ℝ) ^ 20 * 4 + 3 ≤ 2 ^ 24 := by norm_num
      linarith
    have hη1 : (4 * k + 3) * η ≤ 1 := by
      unfold η
      rw [mul_one_div, div_le_one (by positivity)]
      have : (2 : ℝ) ^ 20 * 4 + 3 ≤ 2 ^ 150 := by norm_num
      linarith
    have hst : |σ + t| ≤ M + mm := (abs_add_le _ _).trans (add_le_add hσ htm)
    have hMm : M + mm ≤ (k + 1) * 2 ^ 83 := by linarith
    have hS : |toReal s + toReal (area2 a b c)| ≤ (M + mm) + ((6 + 2 * k) * u * (M + mm) + (4 * k + 3) * η) := by
      have := abs_sub_abs_le_abs_sub (toReal s + toReal (area2 a b c)) (σ + t)
      linarith
    have hS' : |toReal s + toReal (area2 a b c)| < maxHalf := by
      have h1 : (6 + 2 * k) * u * (M + mm) ≤ 1 * (M + mm) := mul_le_mul_of_nonneg_right hku (by linarith)
      have h2 : M + mm ≤ 2 ^ 20 * 2 ^ 83 := hMm.trans (mul_le_mul_of_nonneg_right hk' (by positivity))
      have h3 : (2 : ℝ) ^ 20 * 2 ^ 83 + 2 ^ 20 * 2 ^ 83 + 1 < maxHalf := by unfold maxHalf; norm_num
      linarith
    have hf2 : IsFin (s + area2 a b c) := add_isFin hs hf hS'
    have hr := add_err hs hf hf2
    have hstep : |toReal (s + area2 a b c) - (σ + t)| ≤ (6 + 2 * ((k + 1 : ℕ) : ℝ)) * u * (M + mm) + 4 * ((k + 1 : ℕ) : ℝ) * η := by
      have h1 : |toReal (s + area2 a b c) - (σ + t)| ≤ |toReal (s + area2 a b c) - (toReal s + toReal (area2 a b c))| +
          |(toReal s + toReal (area2 a b c)) - (σ + t)| := by
        have := abs_add_le (toReal (s + area2 a b c) - (toReal s + toReal (area2 a b c)))
          ((toReal s + toReal (area2 a b c)) - (σ + t))
        simpa using this
      have h2 : u * |toReal s + toReal (area2 a b c)| ≤
          u * ((M + mm) + ((6 + 2 * k) * u * (M + mm) + (4 * k + 3) * η)) := mul_le_mul_of_nonneg_left hS hu.le
      have h3 : u * ((M + mm) + ((6 + 2 * k) * u * (M + mm) + (4 * k + 3) * η)) ≤ 2 * u * (M + mm) + η := by
        have a1 : (6 + 2 * k) * u * (u * (M + mm)) ≤ 1 * (u * (M + mm)) :=
          mul_le_mul_of_nonneg_right hku (by positivity)
        have a2 : (4 * k + 3) * u * η ≤ 1 * η := mul_le_mul_of_nonneg_right hku' hη.le
        nlinarith
      push_cast
      nlinarith
    obtain ⟨g1, g2, g3, g4⟩ := fan_err ha (c :: m) (fun v hv => hm v (List.mem_cons_of_mem _ hv)) (k + 1)
      (s + area2 a b c) (σ + t) (M + mm) hf2 hstep hst (by push_cast; exact hMm) (by simp only [List.length_cons]; omega)
    have e1 : fanSum a (b :: c :: m) s = fanSum a (c :: m) (s + area2 a b c) := rfl
    have e2 : fanSum (real ℝ a) (real ℝ b :: real ℝ c :: m.map (real ℝ)) σ =
        fanSum (real ℝ a) ((c :: m).map (real ℝ)) (σ + t) := rfl
    have e3 : k + (b :: c :: m).length = k + 1 + (c :: m).length := by simp only [List.length_cons]; omega
    rw [e1, e2, e3, ← add_assoc M mm]
    exact ⟨g1, g2, g3, g4⟩

/-- the running sum over a polygon -/
theorem areaPoly2_err (l : List (Vec2 F32)) (hl : ∀ v ∈ l, ModeratePt v) (hn : l.length ≤ 2 ^ 20) (hne : l ≠ []) :
    IsFin (⟨l⟩ : Polygon F32).areaPoly2 ∧
    |toReal (⟨l⟩ : Polygon F32).areaPoly2 - shoelace (l.map (real ℝ))| ≤ areaError l.length (mass (l.map (real ℝ))) ∧
    |shoelace (l.map (real ℝ))| ≤ mass (l.map (real ℝ)) ∧ mass (l.map (real ℝ)) ≤ 2 ^ 103 := by
  cases l with
  | nil => exact absurd rfl hne
  | cons a m =>
    simp only [List.length_cons] at hn
    obtain ⟨h1, h2, h3, h4⟩ := fan_err (hl a (by simp)) m (fun v hv => hl v (List.mem_cons_of_mem _ hv)) 0 (ofBits 0) 0 0
      zero_isFin (by rw [toReal_zero]; simp) (by simp) (by simp) (by omega)
    have e : fanSum (real ℝ a) (m.map (real ℝ)) 0 = shoelace ((a :: m).map (real ℝ)) := by
      rw [← areaPoly2_exact (by simp)]; rfl
    rw [e] at h2 h3
    simp only [zero_add] at h2 h3 h4
    have hmm := mass_nonneg (real ℝ a) (m.map (real ℝ))
    have hu := u_pos
    have hη := η_pos
    refine ⟨h1, ?_, h3, ?_⟩
    · show |toReal (fanSum a m (ofBits 0)) - shoelace ((a :: m).map (real ℝ))| ≤ _
      refine h2.trans ?_
      unfold areaError
      rw [List.map_cons, List.length_cons]
      push_cast
      have e1 : (6 + 2 * (m.length : ℝ)) * u * mass (real ℝ a :: m.map (real ℝ)) =
          (2 * (m.length : ℝ) + 6) / 2 ^ 24 * mass (real ℝ a :: m.map (real ℝ)) := by unfold u; ring
      have e2 : 4 * (m.length : ℝ) * η = 4 * m.length / 2 ^ 150 := by unfold η; ring
      rw [e1, e2]
      refine add_le_add (mul_le_mul_of_nonneg_right ?_ hmm) ?_
      · refine div_le_div_of_nonneg_right ?_ (by positivity); linarith
      · refine div_le_div_of_nonneg_right ?_ (by positivity); linarith
    · refine h4.trans ?_
      have : (m.length : ℝ) ≤ 2 ^ 20 := by
        have : m.length ≤ 2 ^ 20 := by omega
        exact_mod_cast this
      calc (m.length : ℝ) * 2 ^ 83 ≤ 2 ^ 20 * 2 ^ 83 := mul_le_mul_of_nonneg_right this (by positivity)
        _ = 2 ^ 103 := by norm_num

/-! ### the theorems -/

/-- **C89.** For up to `2^20` vertices with coordinates up to `2^40`, the area computed in `f32` is a finite number within
`areaError` of the exact area. -/
theorem C89_area (P : Polygon F32) (hl : ∀ v ∈ P.vertices, ModeratePt v) (h3 : 3 ≤ P.vertices.length)
    (hn : P.vertices.length ≤ 2 ^ 20) :
    IsFin P.area ∧ |(toRat P.area : ℝ) - |shoelace (P.vertices.map (real ℝ))| / 2| ≤
      areaError P.vertices.length (mass (P.vertices.map (real ℝ))) := by
  obtain ⟨l⟩ := P
  have hne : l ≠ [] := by rintro rfl; simp at h3
  obtain ⟨h1, h2, h4, h5⟩ := areaPoly2_err l hl hn hne
  simp only at h3 hn ⊢
  rw [toRat_toReal]
  have hM0 : 0 ≤ mass (l.map (real ℝ)) := (abs_nonneg _).trans h4
  set M := mass (l.map (real ℝ)) with hM
  set S := shoelace (l.map (real ℝ)) with hS
  show IsFin (F32.abs (⟨l⟩ : Polygon F32).areaPoly2 * ofBits 0x3f000000) ∧
    |toReal (F32.abs (⟨l⟩ : Polygon F32).areaPoly2 * ofBits 0x3f000000) - _| ≤ _
  generalize (⟨l⟩ : Polygon F32).areaPoly2 = x at *
  have hhalf : toReal (ofBits 0x3f000000) = 1 / 2 := by
    rw [← toRat_toReal]
    have : toRat (ofBits 0x3f000000) = 1 / 2 := by decide +kernel
    rw [this]; norm_num
  have hhf : IsFin (ofBits 0x3f000000) := ⟨false, ⟨0x3f000000, by decide⟩, by decide +kernel⟩
  have habs : toReal (F32.abs x) = |toReal x| := by
    obtain ⟨s, n, rfl⟩ := h1
    show toReal (fin false n) = _
    rw [toReal_fin, toReal_fin, mul_div_assoc, mul_div_assoc, abs_sign, abs_of_nonneg (by positivity)]
    simp
  have hfa : IsFin (F32.abs x) := by
    obtain ⟨s, n, rfl⟩ := h1
    exact ⟨false, n, rfl⟩
  have hb : |toReal x| ≤ M + areaError l.length M := by
    have := abs_sub_abs_le_abs_sub (toReal x) S
    linarith
  have hnR : (l.length : ℝ) ≤ 2 ^ 20 := by exact_mod_cast hn
  have hn3 : (3 : ℝ) ≤ l.length := by exact_mod_cast h3
  have hE : areaError l.length M ≤ M + 1 := by
    unfold areaError
    have a1 : (2 * (l.length : ℝ) + 6) / 2 ^ 24 ≤ 1 := by
      rw [div_le_one (by positivity)]
      have : (2 : ℝ) ^ 20 * 2 + 6 ≤ 2 ^ 24 := by norm_num
      linarith
    have a2 : 4 * (l.length : ℝ) / 2 ^ 150 ≤ 1 := by
      rw [div_le_one (by positivity)]
      have : (2 : ℝ) ^ 20 * 4 ≤ 2 ^ 150 := by norm_num
      linarith
    nlinarith
  have hprod : |toReal (F32.abs x) * toReal (ofBits 0x3f000000)| = |toReal x| / 2 := by
    rw [habs, hhalf, abs_mul, abs_abs]; norm_num; ring
  have hf2 : IsFin (F32.abs x * ofBits 0x3f000000) := by
    refine mul_isFin hfa hhf ?_
    rw [hprod]
    have : (2 : ℝ) ^ 103 + 2 ^ 103 + 1 < maxHalf := by unfold maxHalf; norm_num
    have := abs_nonneg (toReal x)
    linarith
  refine ⟨hf2, ?_⟩
  have he := mul_err hfa hhf hf2
  rw [hprod] at he
  have e0 : toReal (F32.abs x) * toReal (ofBits 0x3f000000) = |toReal x| / 2 := by rw [habs, hhalf]; ring
  rw [e0] at he
  have hd : |(|toReal x| / 2 - |S| / 2)| ≤ areaError l.length M / 2 := by
    rw [← sub_div, abs_div, abs_of_pos (by norm_num : (0 : ℝ) < 2)]
    exact div_le_div_of_nonneg_right ((abs_abs_sub_abs_le _ _).trans h2) (by norm_num)
  have ht := abs_add_le (toReal (F32.abs x * ofBits 0x3f000000) - |toReal x| / 2) (|toReal x| / 2 - |S| / 2)
  rw [sub_add_sub_cancel] at ht
  -- the last rounding is absorbed by the other half of the bound
  have hfin : u * (|toReal x| / 2) + η ≤ areaError l.length M / 2 := by
    have hu := u_pos
    have hη := η_pos
    have a1 : u * (|toReal x| / 2) ≤ u * ((M + areaError l.length M) / 2) :=
      mul_le_mul_of_nonneg_left (by linarith) hu.le
    have a2 : areaError l.length M = (2 * (l.length : ℝ) + 6) * (u * M) + 4 * l.length * η := by
      unfold areaError u η; ring
    have a3 : u ≤ 1 / 2 ^ 3 := by unfold u; norm_num
    have a4 : 0 ≤ u * M := by positivity
    have a5 : 0 ≤ areaError l.length M := by rw [a2]; positivity
    have a6 : u * areaError l.length M ≤ 1 / 2 ^ 3 * areaError l.length M := mul_le_mul_of_nonneg_right a3 a5
    have a7 : (12 : ℝ) * (u * M) ≤ (2 * (l.length : ℝ) + 6) * (u * M) := mul_le_mul_of_nonneg_right (by linarith) a4
    have a8 : (12 : ℝ) * η ≤ 4 * l.length * η := mul_le_mul_of_nonneg_right (by linarith) hη.le
    nlinarith
  linarith

/-- **C89, orientation.** If the exact signed area exceeds the possible error, `Polygon::new` in `f32` keeps counter-clockwise
vertex lists and reverses clockwise ones. -/
theorem C89_new (l : List (Vec2 F32)) (hl : ∀ v ∈ l, ModeratePt v) (h3 : 3 ≤ l.length) (hn : l.length ≤ 2 ^ 20)
    (hm : areaError l.length (mass (l.map (real ℝ))) < |shoelace (l.map (real ℝ))|) :
    (0 < shoelace (l.map (real ℝ)) ∧ Polygon.new l = .ok ⟨l⟩) ∨
    (shoelace (l.map (real ℝ)) < 0 ∧ Polygon.new l = .ok ⟨l.reverse⟩) := by
  have hne : l ≠ [] := by rintro rfl; simp at h3
  obtain ⟨h1, h2, h4, h5⟩ := areaPoly2_err l hl hn hne
  have hnew : Polygon.new l = if (⟨l⟩ : Polygon F32).areaPoly2 <. OrdScalar.zero then .ok ⟨l.reverse⟩ else .ok ⟨l⟩ := by
    unfold Polygon.new
    rw [if_neg (by omega)]
  have hlt : ((⟨l⟩ : Polygon F32).areaPoly2 <. OrdScalar.zero) = true ↔ toReal (⟨l⟩ : Polygon F32).areaPoly2 < 0 := by
    show F32.lt (⟨l⟩ : Polygon F32).areaPoly2 (ofBits 0) = true ↔ _
    rw [lt_fin h1 zero_isFin, toReal_zero]
  obtain ⟨b1, b2⟩ := abs_le.1 h2
  rcases lt_or_ge 0 (shoelace (l.map (real ℝ))) with hpos | hneg
  · rw [abs_of_pos hpos] at hm
    refine Or.inl ⟨hpos, ?_⟩
    rw [hnew, if_neg]
    rw [hlt]; linarith
  · rw [abs_of_nonpos hneg] at hm
    have hE : 0 ≤ areaError l.length (mass (l.map (real ℝ))) := (abs_nonneg _).trans h2
    refine Or.inr ⟨by linarith, ?_⟩
    rw [hnew, if_pos]
    rw [hlt]; linarith

/-- **C88.** The whole pipeline in `f32`: for a simple polygon in clear position, listed in either direction, whose area
exceeds the possible error, `Polygon::new` makes it counter-clockwise and `triangulate` terminates with triangles that tile it. -/
theorem C88_new_triangulate (l : List (Vec2 F32)) (hl : ∀ v ∈ l, ModeratePt v) (hn : l.length ≤ 2 ^ 20)
    (h : ClearPosition l) (hs : SimplePolygon (l.map (real ℝ)))
    (hm : areaError l.length (mass (l.map (real ℝ))) < |shoelace (l.map (real ℝ))|) :
    ∃ P ts, Polygon.new l = .ok P ∧ (P.vertices = l ∨ P.vertices = l.reverse) ∧ 0 < shoelace (P.vertices.map (real ℝ)) ∧
      Triangulates P (.ok ts) ∧ Tiles (l.map (real ℝ)) (ts.map fun T => T.vertices.map (real ℝ)) := by
  have hs' := simple_of_spec hs
  have h3 : 3 ≤ l.length := by simpa using hs'.three
  rcases C89_new l hl h3 hn hm with ⟨hpos, hnew⟩ | ⟨hneg, hnew⟩
  · obtain ⟨ts, h1, h2⟩ := triangulate_of_agrees (K := ℝ) ⟨l⟩ (clear_agrees h) hs' hpos.le
    exact ⟨⟨l⟩, ts, hnew, Or.inl rfl, hpos, h1, h2⟩
  · have hrev : (l.reverse).map (real ℝ) = (l.map (real ℝ)).reverse := List.map_reverse
    have hpos : 0 < shoelace (l.reverse.map (real ℝ)) := by rw [hrev, shoelace_reverse]; linarith
    have hcl : ClearPosition l.reverse :=
      ⟨fun v hv => h.1 v (by simpa using hv), fun a ha b hb c hc => h.2 a (by simpa using ha) b (by simpa using hb) c (by simpa using hc)⟩
    obtain ⟨ts, h1, h2, h3, h4, h5⟩ := triangulate_of_agrees (K := ℝ) ⟨l.reverse⟩ (clear_agrees hcl)
      (by rw [hrev]; exact hs'.reverse) hpos.le
    refine ⟨⟨l.reverse⟩, ts, hnew, Or.inr rfl, hpos, h1, ?_, h3, ?_, h5⟩
    · simpa using h2
    · intro x
      rw [← h4 x]
      show _ ↔ Region (l.reverse.map (real ℝ)) x
      rw [hrev, region_reverse]

/-! ### an instance -/

theorem dartOff_moderate : ∀ v ∈ dartOff, ModeratePt v := by
  intro v hv
  simp only [dartOff, List.mem_cons, List.not_mem_nil, or_false] at hv
  rcases hv with rfl | rfl | rfl | rfl <;>
    exact ⟨⟨⟨_, _, rfl⟩, by decide +kernel⟩, ⟨⟨_, _, rfl⟩, by decide +kernel⟩⟩

example : ∃ P ts, Polygon.new dartOff = .ok P ∧ Triangulates P (.ok ts) ∧ ts.length = 2 := by
  obtain ⟨P, ts, h1, _, _, h2, h3, _⟩ := C88_new_triangulate dartOff dartOff_moderate (by decide) dartOff_clear dartOff_simple (by
    rw [dartOff_real]
    norm_num [shoelace, crossTerm, mass, prodP, prodQ, areaError, dartOff])
  exact ⟨P, ts, h1, h2, by simpa [dartOff] using h3⟩

end Kami.Simple
