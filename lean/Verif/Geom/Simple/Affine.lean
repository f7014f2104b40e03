import Verif.Geom.Simple.Transform
/-!
# C144: the polygon code under affine maps

In exact arithmetic any affine map that keeps the orientation (rotations, stretches, shears, translations) commutes with
`diagonal` and `triangulate`, as long as no vertex is listed twice.  With a repeated vertex a quarter turn already changes the
result, because `between` compares only one coordinate when both end points of the segment coincide.
-/

set_option autoImplicit false
set_option linter.unusedSectionVars false
set_option linter.dupNamespace false

namespace Kami.Simple

open Kami Kami.Pred Kami.PolyThm Kami.Polygon Kami.Transfer

variable {K : Type} [Field K] [LinearOrder K] [IsStrictOrderedRing K]

/-- an affine map of the plane: `(x, y) ↦ (p x + q y + u, r x + s y + w)` -/
structure AffineMap2 (K : Type) where
  p : K
  q : K
  r : K
  s : K
  u : K
  w : K

namespace AffineMap2

/-- the image of a point -/
def ap (A : AffineMap2 K) (v : Vec2 K) : Vec2 K := ⟨A.p * v.x + A.q * v.y + A.u, A.r * v.x + A.s * v.y + A.w⟩

/-- the determinant: positive when the map keeps the orientation, 0 when it is not invertible -/
def det (A : AffineMap2 K) : K := A.p * A.s - A.q * A.r

end AffineMap2

open AffineMap2

variable (A : AffineMap2 K)

theorem affine_area2 (a b c : Vec2 K) : area2 (A.ap a) (A.ap b) (A.ap c) = A.det * area2 a b c := by
  simp only [area2_eq, ap, det]; ring

variable {A}

theorem affine_injective (hD : A.det ≠ 0) : Function.Injective A.ap := by
  intro v w h
  have hx := congrArg Vec2.x h
  have hy := congrArg Vec2.y h
  simp only [ap] at hx hy
  simp only [det] at hD
  refine Vec2.ext (mul_left_cancel₀ hD ?_) (mul_left_cancel₀ hD ?_)
  · linear_combination A.s * hx - A.q * hy
  · linear_combination A.p * hy - A.r * hx

theorem affine_surjective (hD : A.det ≠ 0) : Function.Surjective A.ap := by
  intro v
  refine ⟨⟨(A.s * (v.x - A.u) - A.q * (v.y - A.w)) / A.det, (A.p * (v.y - A.w) - A.r * (v.x - A.u)) / A.det⟩, ?_⟩
  ext
  · show A.p * (_ / A.det) + A.q * (_ / A.det) + A.u = v.x
    rw [mul_div_assoc', mul_div_assoc', ← add_div, div_add' _ _ _ hD, div_eq_iff hD]
    simp only [det]; ring
  · show A.r * (_ / A.det) + A.s * (_ / A.det) + A.w = v.y
    rw [mul_div_assoc', mul_div_assoc', ← add_div, div_add' _ _ _ hD, div_eq_iff hD]
    simp only [det]; ring

theorem affine_onSeg (hD : A.det ≠ 0) (a b v : Vec2 K) : OnSeg (A.ap a) (A.ap b) (A.ap v) ↔ OnSeg a b v := by
  constructor
  · rintro ⟨t, h0, h1, hx, hy⟩
    simp only [ap] at hx hy
    simp only [det] at hD
    refine ⟨t, h0, h1, mul_left_cancel₀ hD ?_, mul_left_cancel₀ hD ?_⟩
    · linear_combination A.s * hx - A.q * hy
    · linear_combination A.p * hy - A.r * hx
  · rintro ⟨t, h0, h1, hx, hy⟩
    refine ⟨t, h0, h1, ?_, ?_⟩
    · simp only [ap]; rw [hx, hy]; ring
    · simp only [ap]; rw [hx, hy]; ring

/-- **C144, tests.** An affine map of positive determinant keeps the orientation tests; `between` is kept for segments of positive
length. -/
theorem C144_tests (hD : 0 < A.det) (a b c : Vec2 K) :
    left (A.ap a) (A.ap b) (A.ap c) = left a b c ∧ leftOn (A.ap a) (A.ap b) (A.ap c) = leftOn a b c ∧
    collinear (A.ap a) (A.ap b) (A.ap c) = collinear a b c ∧
    (a ≠ b → between (A.ap a) (A.ap b) (A.ap c) = between a b c) := by
  refine ⟨?_, ?_, ?_, fun hab => ?_⟩
  · rw [Bool.eq_iff_iff, left_iff, left_iff, affine_area2, mul_pos_iff_of_pos_left hD]
  · rw [Bool.eq_iff_iff, leftOn_iff, leftOn_iff, affine_area2, mul_nonneg_iff_of_pos_left hD]
  · rw [Bool.eq_iff_iff, collinear_iff, collinear_iff, affine_area2, mul_eq_zero, or_iff_right hD.ne']
  · rw [Bool.eq_iff_iff, C24_between_partial _ _ _ hab,
      C24_between_partial _ _ _ (fun h => hab (affine_injective hD.ne' h)), affine_onSeg hD.ne']

/-- **C144, mirror images.** An affine map of negative determinant exchanges left and right. -/
theorem C144_tests_mirror (hD : A.det < 0) (a b c : Vec2 K) :
    left (A.ap a) (A.ap b) (A.ap c) = left a c b ∧ leftOn (A.ap a) (A.ap b) (A.ap c) = leftOn a c b ∧
    collinear (A.ap a) (A.ap b) (A.ap c) = collinear a b c ∧
    (a ≠ b → between (A.ap a) (A.ap b) (A.ap c) = between a b c) := by
  have hs : area2 a c b = - area2 a b c := by simp only [area2_eq]; ring
  refine ⟨?_, ?_, ?_, fun hab => ?_⟩
  · rw [Bool.eq_iff_iff, left_iff, left_iff, affine_area2, hs]
    constructor
    · intro h; by_contra hn; nlinarith
    · intro h; exact mul_pos_of_neg_of_neg hD (by linarith)
  · rw [Bool.eq_iff_iff, leftOn_iff, leftOn_iff, affine_area2, hs]
    constructor
    · intro h; by_contra hn; nlinarith
    · intro h; exact mul_nonneg_of_nonpos_of_nonpos hD.le (by linarith)
  · rw [Bool.eq_iff_iff, collinear_iff, collinear_iff, affine_area2, mul_eq_zero, or_iff_right hD.ne]
  · rw [Bool.eq_iff_iff, C24_between_partial _ _ _ hab,
      C24_between_partial _ _ _ (fun h => hab (affine_injective hD.ne h)), affine_onSeg hD.ne]

theorem affine_intersect (hD : 0 < A.det) {a b c d : Vec2 K} (hab : a ≠ b) (hcd : c ≠ d) :
    intersect (A.ap a) (A.ap b) (A.ap c) (A.ap d) = intersect a b c d := by
  have hl := fun a b c => (C144_tests hD a b c).1
  have hc := fun a b c => (C144_tests hD a b c).2.2.1
  have hb := fun a b c => (C144_tests hD a b c).2.2.2
  unfold intersect intersectProp
  simp only [hl, hc, hb a b _ hab, hb c d _ hcd]

/-- the orientation tests alone make `in_cone` agree -/
theorem affine_inCone (hD : 0 < A.det) (P : Polygon K) (a o : Nat) : (mapP A.ap P).inCone a o = P.inCone a o := by
  have hl := fun a b c => (C144_tests hD a b c).1
  have ho := fun a b c => (C144_tests hD a b c).2.1
  unfold inCone
  rw [neighbors_map]
  show (index (P.vertices.map A.ap) a >>= _) = _
  rw [index_map]
  cases index P.vertices a with
  | error e => rfl
  | ok va =>
    show (index (P.vertices.map A.ap) o >>= _) = (index P.vertices o >>= _)
    rw [index_map]
    cases index P.vertices o with
    | error e => rfl
    | ok vb =>
      cases P.getNeighborIndices a with
      | error e => rfl
      | ok pn =>
        obtain ⟨p, n⟩ := pn
        show (index (P.vertices.map A.ap) p >>= _) = (index P.vertices p >>= _)
        rw [index_map]
        cases index P.vertices p with
        | error e => rfl
        | ok v0 =>
          show (index (P.vertices.map A.ap) n >>= _) = (index P.vertices n >>= _)
          rw [index_map]
          cases index P.vertices n with
          | error e => rfl
          | ok v1 =>
            show (if leftOn (A.ap va) (A.ap v1) (A.ap v0) = true then
                Except.ok (left (A.ap va) (A.ap vb) (A.ap v0) && left (A.ap vb) (A.ap va) (A.ap v1))
              else Except.ok !(leftOn (A.ap va) (A.ap vb) (A.ap v1) && leftOn (A.ap vb) (A.ap va) (A.ap v0))) = _
            simp only [hl, ho]
            rfl

theorem nodup_ne {α : Type} {l : List α} (hn : l.Nodup) {i j : Nat} {a b : α} (hi : index l i = .ok a) (hj : index l j = .ok b)
    (hij : i ≠ j) : a ≠ b := by
  rintro rfl
  have hi := index_eq_ok.1 hi
  have hj := index_eq_ok.1 hj
  have hil : i < l.length := (List.getElem?_eq_some_iff.1 hi).1
  exact hij ((List.getElem?_inj hil hn).1 (hi.trans hj.symm))

theorem affine_hitsEdge (hD : 0 < A.det) (P : Polygon K) (hn : P.vertices.Nodup) {i j : Nat} (hij : i ≠ j) (count k : Nat) :
    (mapP A.ap P).hitsEdge i j count k = P.hitsEdge i j count k := by
  induction count generalizing k with
  | zero => rfl
  | succ c ih =>
    unfold hitsEdge
    rw [ih]
    have hlen : (mapP A.ap P).vertices.length = P.vertices.length := List.length_map ..
    simp only [hlen]
    split
    · rename_i hk
      show (index (P.vertices.map A.ap) i >>= _) = _
      rw [index_map]
      cases e1 : index P.vertices i with
      | error e => rfl
      | ok va =>
        show (index (P.vertices.map A.ap) j >>= _) = (index P.vertices j >>= _)
        rw [index_map]
        cases e2 : index P.vertices j with
        | error e => rfl
        | ok vb =>
          show (index (P.vertices.map A.ap) k >>= _) = (index P.vertices k >>= _)
          rw [index_map]
          cases e3 : index P.vertices k with
          | error e => rfl
          | ok vc =>
            show (index (P.vertices.map A.ap) ((k + 1) % P.vertices.length) >>= _) =
              (index P.vertices ((k + 1) % P.vertices.length) >>= _)
            rw [index_map]
            cases e4 : index P.vertices ((k + 1) % P.vertices.length) with
            | error e => rfl
            | ok vd =>
              have h1 := (List.getElem?_eq_some_iff.1 (index_eq_ok.1 e1)).1
              have h2 := (List.getElem?_eq_some_iff.1 (index_eq_ok.1 e2)).1
              have h3 := (List.getElem?_eq_some_iff.1 (index_eq_ok.1 e3)).1
              have hkk : k ≠ (k + 1) % P.vertices.length := by
                rcases Nat.lt_or_ge (k + 1) P.vertices.length with h | h
                · rw [Nat.mod_eq_of_lt h]; omega
                · rw [show k + 1 = P.vertices.length by omega, Nat.mod_self]; omega
              have := affine_intersect hD (nodup_ne hn e1 e2 hij) (nodup_ne hn e3 e4 hkk)
              simp only [Except.map, bind, Except.bind]
              rw [this]
    · rfl

/-- **C144, diagonal.** For every polygon that lists no vertex twice, an affine map of positive determinant keeps its diagonals,
and the panics for bad indices. -/
theorem C144_diagonal (hD : 0 < A.det) (P : Polygon K) (hn : P.vertices.Nodup) (i j : Nat) :
    (Polygon.mk (P.vertices.map A.ap)).diagonal i j = P.diagonal i j := by
  show (mapP A.ap P).diagonal i j = P.diagonal i j
  unfold diagonal
  rw [affine_inCone hD, affine_inCone hD]
  have hlen : (mapP A.ap P).vertices.length = P.vertices.length := List.length_map ..
  by_cases hij : i = j
  · rw [if_pos hij, if_pos hij]
  · rw [if_neg hij, if_neg hij, hlen, affine_hitsEdge hD P hn hij]

theorem affine_respects (hD : 0 < A.det) : Respects (F := K) (G := K) List.Nodup A.ap := by
  refine ⟨fun P hn i j => C144_diagonal hD P hn i j, fun l _ a _ b _ c _ => ?_, fun l hn i => hn.eraseIdx i⟩
  rw [newUnwrap_three, newUnwrap_three]
  have hn : ((OrdScalar.zero + area2 (A.ap a) (A.ap b) (A.ap c)) <. (OrdScalar.zero : K)) =
      ((OrdScalar.zero + area2 a b c) <. (OrdScalar.zero : K)) := by
    rw [affine_area2]
    show decide ((0 : K) + A.det * area2 a b c < 0) = decide ((0 : K) + area2 a b c < 0)
    rw [decide_eq_decide, zero_add, zero_add]
    constructor
    · intro h; by_contra hn; push Not at hn; have := mul_nonneg hD.le hn; linarith
    · intro h; exact mul_neg_of_pos_of_neg hD h
  rw [hn]
  split <;> rfl

/-- **C144, triangulate.** For every polygon that lists no vertex twice, and every affine map of positive determinant:
`triangulate` ends on the image exactly when it ends on the polygon, with the images of the triangles, in the same order. -/
theorem C144_triangulate (hD : 0 < A.det) (P : Polygon K) (hn : P.vertices.Nodup) (out : Res (List (Polygon K))) :
    Triangulates (Polygon.mk (P.vertices.map A.ap)) out ↔
      ∃ out', Triangulates P out' ∧ out = out'.map (List.map fun T => ⟨T.vertices.map A.ap⟩) :=
  triangulates_resp (affine_respects hD) P hn out

theorem affine_zip (l m : List (Vec2 K)) (h : l.length = m.length) :
    (List.zipWith crossTerm (l.map A.ap) (m.map A.ap)).sum =
      A.det * (List.zipWith crossTerm l m).sum +
        ((A.p * A.w - A.r * A.u) * ((l.map Vec2.x).sum - (m.map Vec2.x).sum) +
          (A.q * A.w - A.s * A.u) * ((l.map Vec2.y).sum - (m.map Vec2.y).sum)) := by
  induction l generalizing m with
  | nil => cases m <;> simp at h ⊢
  | cons a l ih =>
    cases m with
    | nil => simp at h
    | cons b m =>
      simp only [List.map_cons, List.zipWith_cons_cons, List.sum_cons]
      rw [ih m (by simpa using h)]; unfold crossTerm; simp only [ap, det]; ring

theorem affine_shoelace (l : List (Vec2 K)) : shoelace (l.map A.ap) = A.det * shoelace l := by
  unfold shoelace
  rw [← List.map_rotate, affine_zip _ _ (by simp)]
  have hp := List.rotate_perm l 1
  rw [(hp.map Vec2.x).sum_eq, (hp.map Vec2.y).sum_eq]
  ring

/-- **C144, area.** Every affine map, invertible or not, multiplies `area` by the absolute value of its determinant. -/
theorem C144_area (A : AffineMap2 K) (P : Polygon K) : (Polygon.mk (P.vertices.map A.ap)).area = |A.det| * P.area := by
  obtain ⟨l⟩ := P
  rw [C28_area, C28_area, affine_shoelace, abs_mul]; ring

theorem affine_new (vs : List (Vec2 K)) (h : 3 ≤ vs.length) :
    Polygon.new vs = if shoelace vs < 0 then .ok ⟨vs.reverse⟩ else .ok ⟨vs⟩ := by
  unfold Polygon.new
  rw [if_neg (by omega)]
  simp only [areaPoly2_eq, exact_lt, exact_zero, decide_eq_true_eq]

/-- **C144, new.** `Polygon::new` of the image is the image of the polygon when the determinant is positive, and the image listed
backwards when it is negative and the vertices do not have area 0; the error for short lists is the same. -/
theorem C144_new (vs : List (Vec2 K)) :
    (0 < A.det → Polygon.new (vs.map A.ap) = (Polygon.new vs).map fun P => ⟨P.vertices.map A.ap⟩) ∧
    (A.det < 0 → shoelace vs ≠ 0 →
      Polygon.new (vs.map A.ap) = (Polygon.new vs).map fun P => ⟨(P.vertices.map A.ap).reverse⟩) := by
  by_cases hl : 3 ≤ vs.length
  · rw [affine_new vs hl, affine_new _ (by simpa using hl), affine_shoelace]
    constructor
    · intro hD
      by_cases h : shoelace vs < 0
      · rw [if_pos h, if_pos (mul_neg_of_pos_of_neg hD h), ← List.map_reverse]; rfl
      · rw [if_neg h, if_neg (not_lt.2 (mul_nonneg hD.le (not_lt.1 h)))]; rfl
    · intro hD h0
      by_cases h : shoelace vs < 0
      · rw [if_pos h, if_neg (not_lt.2 (mul_nonneg_of_nonpos_of_nonpos hD.le h.le))]
        show _ = Except.ok (Polygon.mk ((vs.reverse.map A.ap).reverse))
        rw [List.map_reverse, List.reverse_reverse]
      · have : 0 < shoelace vs := lt_of_le_of_ne (not_lt.1 h) (Ne.symm h0)
        rw [if_neg h, if_pos (mul_neg_of_neg_of_pos hD this)]; rfl
  · have e1 := (C27_new_vertices vs).1.2 (by omega)
    have e2 := (C27_new_vertices (vs.map A.ap)).1.2 (by rw [List.length_map]; omega)
    rw [e1, e2]
    exact ⟨fun _ => rfl, fun _ _ => rfl⟩

/-- **C144, simple.** An invertible affine map keeps simple polygons simple, and all others not simple. -/
theorem C144_simple (hD : A.det ≠ 0) (l : List (Vec2 K)) : SimplePolygon (l.map A.ap) ↔ SimplePolygon l := by
  unfold SimplePolygon
  rw [List.length_map, List.nodup_map_iff (affine_injective hD)]
  refine and_congr_right fun _ => and_congr_right fun _ => ?_
  have hinj := affine_injective hD
  constructor
  · intro h i j a b c d p hij hi hi' hj hj' h1 h2
    have := h i j (A.ap a) (A.ap b) (A.ap c) (A.ap d) (A.ap p) hij (by simp [hi]) (by simp [hi'])
      (by simp [hj]) (by simp [hj']) ((affine_onSeg hD ..).2 h1) ((affine_onSeg hD ..).2 h2)
    simpa only [hinj.eq_iff] using this
  · intro h i j a b c d p hij hi hi' hj hj' h1 h2
    rw [List.getElem?_map, Option.map_eq_some_iff] at hi hi' hj hj'
    obtain ⟨a, ha, rfl⟩ := hi
    obtain ⟨b, hb, rfl⟩ := hi'
    obtain ⟨c, hc, rfl⟩ := hj
    obtain ⟨d, hd, rfl⟩ := hj'
    obtain ⟨p, rfl⟩ := affine_surjective hD p
    have := h i j a b c d p hij ha hb hc hd ((affine_onSeg hD ..).1 h1) ((affine_onSeg hD ..).1 h2)
    simpa only [hinj.eq_iff] using this

/-- the quarter turn to the left -/
def quarterTurn : AffineMap2 ℚ := ⟨0, -1, 1, 0, 0, 0⟩

/-- **C144, sharp.** A vertex listed twice breaks it: `(0, 2)` and `(3, -1)` are joined by a diagonal of the turned polygon but not of
the polygon itself, where the edge from `(2, 2)` to `(2, 2)` counts as hit by everything at its height. -/
theorem C144_sharp_repeated : 0 < quarterTurn.det ∧
    (⟨[⟨0, 0⟩, ⟨3, -1⟩, ⟨2, 2⟩, ⟨2, 2⟩, ⟨0, 2⟩]⟩ : Polygon ℚ).diagonal 1 4 = .ok false ∧
    (⟨[⟨0, 0⟩, ⟨3, -1⟩, ⟨2, 2⟩, ⟨2, 2⟩, ⟨0, 2⟩].map quarterTurn.ap⟩ : Polygon ℚ).diagonal 1 4 = .ok true := by
  decide +kernel

/-- **C144, sharp.** Without area the order of a mirrored list is kept, not reversed. -/
theorem C144_sharp_flat : (⟨1, 0, 0, -1, 0, 0⟩ : AffineMap2 ℚ).det < 0 ∧
    Polygon.new ([⟨0, 0⟩, ⟨1, 0⟩, ⟨2, 0⟩].map (⟨1, 0, 0, -1, 0, 0⟩ : AffineMap2 ℚ).ap) = .ok ⟨[⟨0, 0⟩, ⟨1, 0⟩, ⟨2, 0⟩]⟩ := by
  decide +kernel

/-- a shear with a stretch, of determinant 6 -/
def shear : AffineMap2 ℚ := ⟨2, 1, 0, 3, 5, -7⟩

/-- the sheared dart still triangulates, and its area is six times that of the dart -/
example : (∃ ts, Triangulates (⟨dart.map shear.ap⟩ : Polygon ℚ) (.ok ts)) ∧
    (⟨dart.map shear.ap⟩ : Polygon ℚ).area = 6 * (⟨dart⟩ : Polygon ℚ).area := by
  have hd : shear.det = 6 := by norm_num [shear, AffineMap2.det]
  constructor
  · obtain ⟨ts, h⟩ := C35_terminates_ccw ⟨dart⟩ dart_simple (by decide +kernel)
    exact ⟨_, (C144_triangulate (by rw [hd]; norm_num) ⟨dart⟩ dart_simple.2.1 _).2 ⟨_, h, rfl⟩⟩
  · have := C144_area shear ⟨dart⟩
    rw [hd] at this
    simpa using this

/-- a list whose shoelace sum is not 0 and a mirror image -/
example : (⟨1, 0, 0, -1, 0, 0⟩ : AffineMap2 ℚ).det < 0 ∧ shoelace dart ≠ (0 : ℚ) := by
  constructor
  · norm_num [AffineMap2.det]
  · decide +kernel

end Kami.Simple
