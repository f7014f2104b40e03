import Verif.Geom.Triangulate
/-!
# C31: diagonals
-/

set_option autoImplicit false

namespace Kami.Tri

open Kami Kami.Polygon Kami.Pred

section Free
variable {F : Type} [OrdScalar F]

/-- edge `k` of the polygon (from vertex `k` to vertex `k + 1 mod n`) touches neither vertex `i` nor vertex `j` -/
def Apart (n i j k : Nat) : Prop := k ≠ i ∧ (k + 1) % n ≠ i ∧ k ≠ j ∧ (k + 1) % n ≠ j

/-- exact description of the loop of `diagonal`, any arithmetic -/
theorem hitsEdge_iff (P : Polygon F) (i j : Nat) (hi : i < P.vertices.length) (hj : j < P.vertices.length)
    (count k : Nat) (hk : k + count ≤ P.vertices.length) :
    P.hitsEdge i j count k = .ok true ↔
      ∃ (m : Nat) (c d : Vec2 F), k ≤ m ∧ m < k + count ∧ Apart P.vertices.length i j m ∧
        P.vertices[m]? = some c ∧ P.vertices[(m + 1) % P.vertices.length]? = some d ∧
        intersect P.vertices[i] P.vertices[j] c d = true := by
  induction count generalizing k with
  | zero =>
    constructor
    · intro h; cases h
    · rintro ⟨m, c, d, h1, h2, _⟩; omega
  | succ n ih =>
    have hkk : k < P.vertices.length := by omega
    have hk1 : (k + 1) % P.vertices.length < P.vertices.length := Nat.mod_lt _ (by omega)
    have ih' := ih (k + 1) (by omega)
    have hrest : ∀ h : ¬ (Apart P.vertices.length i j k ∧
        intersect P.vertices[i] P.vertices[j] P.vertices[k] P.vertices[(k + 1) % P.vertices.length] = true),
        (∃ (m : Nat) (c d : Vec2 F), k ≤ m ∧ m < k + (n + 1) ∧ Apart P.vertices.length i j m ∧
        P.vertices[m]? = some c ∧ P.vertices[(m + 1) % P.vertices.length]? = some d ∧
        intersect P.vertices[i] P.vertices[j] c d = true) ↔
        (∃ (m : Nat) (c d : Vec2 F), k + 1 ≤ m ∧ m < k + 1 + n ∧ Apart P.vertices.length i j m ∧
        P.vertices[m]? = some c ∧ P.vertices[(m + 1) % P.vertices.length]? = some d ∧
        intersect P.vertices[i] P.vertices[j] c d = true) := by
      intro h
      constructor
      · rintro ⟨m, c, d, h1, h2, h3, h4, h5, h6⟩
        rcases Nat.eq_or_lt_of_le h1 with he | he
        · subst he
          rw [List.getElem?_eq_getElem hkk] at h4
          rw [List.getElem?_eq_getElem hk1] at h5
          cases h4; cases h5
          exact absurd ⟨h3, h6⟩ h
        · exact ⟨m, c, d, he, by omega, h3, h4, h5, h6⟩
      · rintro ⟨m, c, d, h1, h2, h3⟩
        exact ⟨m, c, d, by omega, by omega, h3⟩
    unfold hitsEdge
    simp only [index_of_lt _ _ hi, index_of_lt _ _ hj, index_of_lt _ _ hkk,
      index_of_lt _ _ hk1, bind, Except.bind, pure, Except.pure]
    split
    · rename_i hap
      split
      · rename_i hint
        simp only [true_iff]
        exact ⟨k, _, _, le_rfl, by omega, hap, List.getElem?_eq_getElem hkk, List.getElem?_eq_getElem hk1, hint⟩
      · rename_i hint
        rw [ih', hrest (fun h => hint h.2)]
    · rename_i hap
      rw [ih', hrest (fun h => hap h.1)]

/-- the interior cone test, any arithmetic -/
theorem inCone_eq (P : Polygon F) (a o : Nat) (ha : a < P.vertices.length) (ho : o < P.vertices.length) :
    P.inCone a o = .ok (
      let p := P.vertices[a]
      let q := P.vertices[o]
      let p0 := P.vertices[prv P.vertices.length a]'(prv_lt ha)
      let p1 := P.vertices[nxt P.vertices.length a]'(nxt_lt ha)
      if leftOn p p1 p0 then left p q p0 && left q p p1 else !(leftOn p q p1 && leftOn q p p0)) := by
  unfold inCone
  rw [getNeighborIndices_ok P a (by omega)]
  simp only [index_of_lt _ _ ha, index_of_lt _ _ ho, index_of_lt _ _ (prv_lt ha), index_of_lt _ _ (nxt_lt ha), bind,
    Except.bind, pure, Except.pure]
  split <;> rfl

theorem diagonal_iff (P : Polygon F) (i j : Nat) (hi : i < P.vertices.length) (hj : j < P.vertices.length) :
    P.diagonal i j = .ok true ↔ i ≠ j ∧ P.hitsEdge i j P.vertices.length 0 ≠ .ok true ∧ P.inCone i j = .ok true ∧
      P.inCone j i = .ok true := by
  unfold diagonal
  obtain ⟨b, hb⟩ := hitsEdge_ok P i j hi hj P.vertices.length 0 (by omega)
  obtain ⟨c, hc⟩ := inCone_ok P i j hi hj
  obtain ⟨d, hd⟩ := inCone_ok P j i hj hi
  simp only [hb, hc, hd, bind, Except.bind, pure, Except.pure]
  by_cases hij : i = j
  · simp [hij]
  · cases b <;> cases c <;> cases d <;> simp [hij]

end Free

variable {K : Type} [Field K] [LinearOrder K] [IsStrictOrderedRing K]

theorem intersect_swap (a b c d : Vec2 K) : intersect a b c d = intersect b a c d := by
  have hs : ∀ p q r : Vec2 K, area2 q p r = -area2 p q r := by intro p q r; simp only [area2_eq]; ring
  have hb : ∀ p q r : Vec2 K, between p q r = between q p r := by
    intro p q r
    rw [Bool.eq_iff_iff, between_iff, between_iff, hs p q r, neg_eq_zero]
    constructor
    · rintro ⟨h1, h2, h3⟩
      exact ⟨h1, fun h => by have := h2 (Ne.symm h); tauto, fun h => by have := h3 h.symm; tauto⟩
    · rintro ⟨h1, h2, h3⟩
      exact ⟨h1, fun h => by have := h2 (Ne.symm h); tauto, fun h => by have := h3 h.symm; tauto⟩
  unfold intersect
  rw [(C25_symmetric a b c d).2.1, hb a b c, hb a b d]
  cases between c d a <;> cases between c d b <;> simp

/-- C31: a diagonal has no point in common with any edge that does not touch its end points. -/
theorem C31_diagonal_sound (P : Polygon K) (i j : Nat) (hi : i < P.vertices.length) (hj : j < P.vertices.length)
    (h : P.diagonal i j = .ok true) (k : Nat) (hk : k < P.vertices.length)
    (hap : k ≠ i ∧ (k + 1) % P.vertices.length ≠ i ∧ k ≠ j ∧ (k + 1) % P.vertices.length ≠ j) (c d p : Vec2 K)
    (hc : P.vertices[k]? = some c) (hd : P.vertices[(k + 1) % P.vertices.length]? = some d)
    (hp : OnSeg P.vertices[i] P.vertices[j] p) : ¬ OnSeg c d p := by
  intro hp2
  obtain ⟨_, h2, _⟩ := (diagonal_iff P i j hi hj).1 h
  apply h2
  rw [hitsEdge_iff P i j hi hj _ _ (by omega)]
  exact ⟨k, c, d, by omega, by omega, hap, hc, hd, C26_complete _ _ _ _ ⟨p, hp, hp2⟩⟩

/-- C31: `diagonal` is symmetric. -/
theorem C31_symmetric (P : Polygon K) (i j : Nat) (hi : i < P.vertices.length) (hj : j < P.vertices.length) :
    P.diagonal i j = P.diagonal j i := by
  have key : ∀ i j, i < P.vertices.length → j < P.vertices.length → P.diagonal i j = .ok true →
      P.diagonal j i = .ok true := by
    intro i j hi hj h
    rw [diagonal_iff P i j hi hj] at h
    rw [diagonal_iff P j i hj hi]
    obtain ⟨h1, h2, h3, h4⟩ := h
    refine ⟨h1.symm, fun h => h2 ?_, h4, h3⟩
    rw [hitsEdge_iff P j i hj hi _ _ (by omega)] at h
    rw [hitsEdge_iff P i j hi hj _ _ (by omega)]
    obtain ⟨m, c, d, a1, a2, ⟨b1, b2, b3, b4⟩, a4, a5, a6⟩ := h
    exact ⟨m, c, d, a1, a2, ⟨b3, b4, b1, b2⟩, a4, a5, by rw [intersect_swap]; exact a6⟩
  obtain ⟨b, hb⟩ := diagonal_ok P i j hi hj
  obtain ⟨c, hc⟩ := diagonal_ok P j i hj hi
  rcases b with _ | _
  · rcases c with _ | _
    · rw [hb, hc]
    · rw [key j i hj hi hc] at hb; cases hb
  · have h2 := key i j hi hj hb
    rw [hb, h2]

/-- C31: neither a vertex with itself nor two neighbouring vertices form a diagonal. -/
theorem C31_neighbors (P : Polygon K) (i : Nat) (hi : i < P.vertices.length) :
    P.diagonal i i = .ok false ∧
    P.diagonal i ((i + 1) % P.vertices.length) = .ok false ∧
    P.diagonal i ((i + P.vertices.length - 1) % P.vertices.length) = .ok false := by
  refine ⟨by simp [diagonal, pure, Except.pure], ?_, ?_⟩
  · rw [← nxt_eq_mod hi]
    obtain ⟨b, hb⟩ := diagonal_ok P i _ hi (nxt_lt hi)
    rcases b with _ | _
    · exact hb
    · exfalso
      have h := ((diagonal_iff P i _ hi (nxt_lt hi)).1 hb).2.2.1
      rw [inCone_eq P i _ hi (nxt_lt hi)] at h
      simp only [Except.ok.injEq] at h
      generalize P.vertices[i] = a at h
      generalize P.vertices[nxt P.vertices.length i]'(nxt_lt hi) = b at h
      generalize P.vertices[prv P.vertices.length i]'(prv_lt hi) = c at h
      split at h
      · rw [Bool.and_eq_true, left_iff, left_iff] at h
        have := h.2
        simp only [area2_eq] at this
        nlinarith
      · rename_i hr
        rw [leftOn_iff] at hr
        rw [Bool.not_eq_true', Bool.and_eq_false_iff] at h
        rcases h with h | h
        · rw [← Bool.not_eq_true, leftOn_iff] at h
          apply h; simp only [area2_eq]; nlinarith
        · rw [← Bool.not_eq_true, leftOn_iff] at h
          apply h; simp only [area2_eq] at hr ⊢; nlinarith
  · rw [← prv_eq_mod hi]
    obtain ⟨b, hb⟩ := diagonal_ok P i _ hi (prv_lt hi)
    rcases b with _ | _
    · exact hb
    · exfalso
      have h := ((diagonal_iff P i _ hi (prv_lt hi)).1 hb).2.2.1
      rw [inCone_eq P i _ hi (prv_lt hi)] at h
      simp only [Except.ok.injEq] at h
      generalize P.vertices[i] = a at h
      generalize P.vertices[nxt P.vertices.length i]'(nxt_lt hi) = b at h
      generalize P.vertices[prv P.vertices.length i]'(prv_lt hi) = c at h
      split at h
      · rw [Bool.and_eq_true, left_iff, left_iff] at h
        have := h.1
        simp only [area2_eq] at this
        nlinarith
      · rename_i hr
        rw [leftOn_iff] at hr
        rw [Bool.not_eq_true', Bool.and_eq_false_iff] at h
        rcases h with h | h
        · rw [← Bool.not_eq_true, leftOn_iff] at h
          apply h; simp only [area2_eq] at hr ⊢; nlinarith
        · rw [← Bool.not_eq_true, leftOn_iff] at h
          apply h; simp only [area2_eq]; nlinarith

/-- the direction from `a` to `b` lies strictly inside the angle at `a` swept counter-clockwise from `a1` to `a0`: for an
angle below 180° it is a positive combination of the two sides; for one above, it is no non-negative combination of them;
for 180° it is to the left of `a1` -/
def InsideAngle (a a1 a0 b : Vec2 K) : Prop :=
  (0 < orient a a1 a0 → ∃ s t : K, 0 < s ∧ 0 < t ∧ b.x - a.x = s * (a1.x - a.x) + t * (a0.x - a.x) ∧
    b.y - a.y = s * (a1.y - a.y) + t * (a0.y - a.y)) ∧
  (orient a a1 a0 < 0 → ¬ ∃ s t : K, 0 ≤ s ∧ 0 ≤ t ∧ b.x - a.x = s * (a1.x - a.x) + t * (a0.x - a.x) ∧
    b.y - a.y = s * (a1.y - a.y) + t * (a0.y - a.y)) ∧
  (orient a a1 a0 = 0 → 0 < orient a a1 b ∧ 0 < orient a0 a b)

theorem insideAngle_of_test (a a1 a0 b : Vec2 K)
    (h : (if leftOn a a1 a0 then left a b a0 && left b a a1 else !(leftOn a b a1 && leftOn b a a0)) = true) :
    InsideAngle a a1 a0 b := by
  unfold InsideAngle
  simp only [← area2_orient]
  split at h
  · rename_i hc
    rw [leftOn_iff] at hc
    rw [Bool.and_eq_true, left_iff, left_iff] at h
    obtain ⟨h1, h2⟩ := h
    simp only [area2_eq] at hc h1 h2 ⊢
    refine ⟨fun h0 => ?_, fun h0 => absurd hc (not_le.2 h0), fun h0 => ⟨by nlinarith, by nlinarith⟩⟩
    set D := (a1.x - a.x) * (a0.y - a.y) - (a0.x - a.x) * (a1.y - a.y) with hD
    refine ⟨((b.x - a.x) * (a0.y - a.y) - (a0.x - a.x) * (b.y - a.y)) / D,
      ((a1.x - a.x) * (b.y - a.y) - (b.x - a.x) * (a1.y - a.y)) / D, div_pos h1 h0, div_pos (by nlinarith) h0, ?_, ?_⟩
    · rw [div_mul_eq_mul_div, div_mul_eq_mul_div, ← add_div, eq_div_iff (ne_of_gt h0), hD]; ring
    · rw [div_mul_eq_mul_div, div_mul_eq_mul_div, ← add_div, eq_div_iff (ne_of_gt h0), hD]; ring
  · rename_i hc
    rw [leftOn_iff] at hc
    rw [Bool.not_eq_true', Bool.and_eq_false_iff, ← Bool.not_eq_true, ← Bool.not_eq_true, leftOn_iff, leftOn_iff] at h
    simp only [area2_eq] at hc h ⊢
    refine ⟨fun h0 => absurd h0.le hc, fun h0 => ?_, fun h0 => absurd h0.ge hc⟩
    rintro ⟨s, t, hs, ht, hx, hy⟩
    rcases h with h | h <;> apply h
    · rw [hx, hy]
      have : 0 ≤ t * -((a1.x - a.x) * (a0.y - a.y) - (a0.x - a.x) * (a1.y - a.y)) := mul_nonneg ht (by linarith)
      nlinarith
    · have e : (a.x - b.x) * (a0.y - b.y) - (a0.x - b.x) * (a.y - b.y) =
          -((b.x - a.x) * (a0.y - a.y) - (a0.x - a.x) * (b.y - a.y)) := by ring
      rw [e, hx, hy]
      have : 0 ≤ s * -((a1.x - a.x) * (a0.y - a.y) - (a0.x - a.x) * (a1.y - a.y)) := mul_nonneg hs (by linarith)
      nlinarith

/-- C31: at both of its ends a diagonal leaves strictly into the interior angle of the polygon. -/
theorem C31_interior_angle (P : Polygon K) (i j : Nat) (hi : i < P.vertices.length) (hj : j < P.vertices.length)
    (h : P.diagonal i j = .ok true) (p p0 p1 q q0 q1 : Vec2 K)
    (hp : P.vertices[i]? = some p) (hp1 : P.vertices[(i + 1) % P.vertices.length]? = some p1)
    (hp0 : P.vertices[(i + P.vertices.length - 1) % P.vertices.length]? = some p0)
    (hq : P.vertices[j]? = some q) (hq1 : P.vertices[(j + 1) % P.vertices.length]? = some q1)
    (hq0 : P.vertices[(j + P.vertices.length - 1) % P.vertices.length]? = some q0) :
    InsideAngle p p1 p0 q ∧ InsideAngle q q1 q0 p := by
  obtain ⟨_, _, h1, h2⟩ := (diagonal_iff P i j hi hj).1 h
  rw [inCone_eq P _ _ hi hj] at h1
  rw [inCone_eq P _ _ hj hi] at h2
  rw [← nxt_eq_mod hi, List.getElem?_eq_getElem (nxt_lt hi)] at hp1
  rw [← prv_eq_mod hi, List.getElem?_eq_getElem (prv_lt hi)] at hp0
  rw [← nxt_eq_mod hj, List.getElem?_eq_getElem (nxt_lt hj)] at hq1
  rw [← prv_eq_mod hj, List.getElem?_eq_getElem (prv_lt hj)] at hq0
  rw [List.getElem?_eq_getElem hi] at hp
  rw [List.getElem?_eq_getElem hj] at hq
  cases hp; cases hp1; cases hp0; cases hq; cases hq1; cases hq0
  simp only [Except.ok.injEq] at h1 h2
  exact ⟨insideAngle_of_test _ _ _ _ h1, insideAngle_of_test _ _ _ _ h2⟩

/-- a notched quadrilateral: the diagonal from the reflex vertex is one, the outer one is not -/
example : (Polygon.mk [(⟨0, 0⟩ : Vec2 ℚ), ⟨4, 0⟩, ⟨1, 1⟩, ⟨0, 4⟩]).diagonal 0 2 = .ok true ∧
    (Polygon.mk [(⟨0, 0⟩ : Vec2 ℚ), ⟨4, 0⟩, ⟨1, 1⟩, ⟨0, 4⟩]).diagonal 1 3 = .ok false := by decide +kernel

end Kami.Tri
