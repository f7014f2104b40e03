import Verif.Geom.Simple.Loop
/-!
# The triangles of `triangulate` tile the polygon
-/

set_option autoImplicit false
set_option linter.unusedSectionVars false
set_option linter.dupNamespace false

namespace Kami.Simple

open Kami Kami.Pred Kami.PolyThm Kami.Polygon

variable {K : Type} [Field K] [LinearOrder K] [IsStrictOrderedRing K]

/-! ### one triangle -/

/-- strictly inside the counter-clockwise triangle -/
def Str (a u b x : Vec2 K) : Prop := 0 < area2 a u x ∧ 0 < area2 u b x ∧ 0 < area2 b a x

/-- on the boundary -/
def OnB (l : List (Vec2 K)) (x : Vec2 K) : Prop := ∃ e ∈ ring l, OnSeg e.1 e.2 x

/-- in the closed region, by the winding number -/
def In (l : List (Vec2 K)) (x : Vec2 K) : Prop := OnB l x ∨ W (ring l) x ≠ 0

theorem W_tri (a u b x : Vec2 K) : W (ring [a, u, b]) x = wind a u x + wind u b x + wind b a x := by
  show W [(a, u), (u, b), (b, a)] x = _
  simp [W]; ring

theorem onB_tri {a u b x : Vec2 K} : OnB [a, u, b] x ↔ OnSeg a u x ∨ OnSeg u b x ∨ OnSeg b a x := by
  show (∃ e ∈ [(a, u), (u, b), (b, a)], OnSeg e.1 e.2 x) ↔ _
  simp

theorem tri_strict {a u b x : Vec2 K} (h : Str a u b x) : W (ring [a, u, b]) x = 1 := by
  obtain ⟨h1, h2, h3⟩ := h
  have key : area2 u b x * (a.y - x.y) + area2 b a x * (u.y - x.y) + area2 a u x * (b.y - x.y) = 0 := by
    simp only [area2_eq]; ring
  have hD : area2 a u x + area2 u b x + area2 b a x = area2 a u b := area_sum a u b x
  have hDy : a.y = u.y → u.y = b.y → area2 a u b = 0 := fun e1 e2 => by simp only [area2_eq, e1, e2]; ring
  rw [W_tri]
  unfold wind
  rw [ind_false (fun h => by linarith [h.2.2] : ¬ (u.y ≤ x.y ∧ x.y < a.y ∧ area2 a u x < 0)),
    ind_false (fun h => by linarith [h.2.2] : ¬ (b.y ≤ x.y ∧ x.y < u.y ∧ area2 u b x < 0)),
    ind_false (fun h => by linarith [h.2.2] : ¬ (a.y ≤ x.y ∧ x.y < b.y ∧ area2 b a x < 0)),
    ind_congr (show (a.y ≤ x.y ∧ x.y < u.y ∧ 0 < area2 a u x) ↔ (a.y ≤ x.y ∧ x.y < u.y) by tauto),
    ind_congr (show (u.y ≤ x.y ∧ x.y < b.y ∧ 0 < area2 u b x) ↔ (u.y ≤ x.y ∧ x.y < b.y) by tauto),
    ind_congr (show (b.y ≤ x.y ∧ x.y < a.y ∧ 0 < area2 b a x) ↔ (b.y ≤ x.y ∧ x.y < a.y) by tauto)]
  by_cases c1 : a.y ≤ x.y <;> by_cases c2 : u.y ≤ x.y <;> by_cases c3 : b.y ≤ x.y
  · exfalso
    have k1 := mul_nonneg h2.le (sub_nonneg.2 c1)
    have k2 := mul_nonneg h3.le (sub_nonneg.2 c2)
    have k3 := mul_nonneg h1.le (sub_nonneg.2 c3)
    have e1 : area2 u b x * (x.y - a.y) = 0 := by linarith
    have e2 : area2 b a x * (x.y - u.y) = 0 := by linarith
    have e3 : area2 a u x * (x.y - b.y) = 0 := by linarith
    have e1 := (mul_eq_zero.1 e1).resolve_left h2.ne'
    have e2 := (mul_eq_zero.1 e2).resolve_left h3.ne'
    have e3 := (mul_eq_zero.1 e3).resolve_left h1.ne'
    have := hDy (by linarith) (by linarith)
    linarith
  all_goals try (simp [ind, not_lt.2, *]; done)
  exfalso
  have k1 := mul_pos h2 (sub_pos.2 (not_le.1 c1))
  have k2 := mul_pos h3 (sub_pos.2 (not_le.1 c2))
  have k3 := mul_pos h1 (sub_pos.2 (not_le.1 c3))
  linarith

theorem far_above {a u b x : Vec2 K} (h1 : a.y ≤ x.y) (h2 : u.y ≤ x.y) (h3 : b.y ≤ x.y) : W (ring [a, u, b]) x = 0 := by
  rw [W_tri]
  unfold wind
  rw [ind_false, ind_false, ind_false, ind_false, ind_false, ind_false]
  · rfl
  all_goals (rintro ⟨c1, c2, _⟩; linarith)

theorem far_below {a u b x : Vec2 K} (h1 : x.y < a.y) (h2 : x.y < u.y) (h3 : x.y < b.y) : W (ring [a, u, b]) x = 0 := by
  rw [W_tri]
  unfold wind
  rw [ind_false, ind_false, ind_false, ind_false, ind_false, ind_false]
  · rfl
  all_goals (rintro ⟨c1, c2, _⟩; linarith)

theorem tri_outside_edge {a u b x : Vec2 K} (hD : 0 < area2 a u b) (h : area2 a u x < 0) : W (ring [a, u, b]) x = 0 := by
  by_cases hy : u.y = a.y
  · have e1 : area2 a u x = (u.x - a.x) * (x.y - a.y) := by simp only [area2_eq, hy]; ring
    have e2 : area2 a u b = (u.x - a.x) * (b.y - a.y) := by simp only [area2_eq, hy]; ring
    rw [e1] at h; rw [e2] at hD
    rcases lt_trichotomy (u.x - a.x) 0 with hx | hx | hx
    · have k1 : b.y - a.y < 0 := by
        by_contra hc; have := mul_nonpos_of_nonpos_of_nonneg hx.le (not_lt.1 hc); linarith
      have k2 : 0 < x.y - a.y := by
        by_contra hc; have := mul_nonneg_of_nonpos_of_nonpos hx.le (not_lt.1 hc); linarith
      exact far_above (by linarith) (by linarith) (by linarith)
    · rw [hx, zero_mul] at h; exact absurd h (lt_irrefl _)
    · have k1 : 0 < b.y - a.y := by
        by_contra hc; have := mul_nonpos_of_nonneg_of_nonpos hx.le (not_lt.1 hc); linarith
      have k2 : x.y - a.y < 0 := by
        by_contra hc; have := mul_nonneg hx.le (not_lt.1 hc); linarith
      exact far_below (by linarith) (by linarith) (by linarith)
  · obtain ⟨M, m1, m2, m3⟩ : ∃ M, a.y ≤ M ∧ u.y ≤ M ∧ b.y ≤ M :=
      ⟨max a.y (max u.y b.y), le_max_left _ _, (le_max_left _ _).trans (le_max_right _ _), (le_max_right _ _).trans (le_max_right _ _)⟩
    have hne : u.y - a.y ≠ 0 := sub_ne_zero.2 hy
    set s := (M - x.y) / (u.y - a.y) with hs
    have hs' : s * (u.y - a.y) = M - x.y := div_mul_cancel₀ _ hne
    set y : Vec2 K := ⟨x.x + s * (u.x - a.x), x.y + s * (u.y - a.y)⟩ with hydef
    have hyy : y.y = M := by show x.y + s * (u.y - a.y) = M; rw [hs']; ring
    have hay : area2 a u y = area2 a u x := by simp only [hydef, area2_eq]; ring
    rw [W_ring_const (y := y), far_above (by rw [hyy]; exact m1) (by rw [hyy]; exact m2) (by rw [hyy]; exact m3)]
    intro e he z hz hz'
    obtain ⟨t, t0, t1, tx, ty⟩ := hz
    have k1 := area_along a u tx ty
    rw [hay] at k1
    obtain ⟨r, r0, r1, rx, ry⟩ := hz'
    have k2 := area_along a u rx ry
    have ea : area2 a u a = 0 := by simp only [area2_eq]; ring
    have eu : area2 a u u = 0 := by simp only [area2_eq]; ring
    have he' : e ∈ [(a, u), (u, b), (b, a)] := he
    have k3 : 0 ≤ area2 a u z := by
      rw [k2]
      simp only [List.mem_cons, List.not_mem_nil, or_false] at he'
      rcases he' with rfl | rfl | rfl
      · simp only [ea, eu]; simp
      · simp only [eu]; rw [mul_zero, zero_add]; exact mul_nonneg r0 hD.le
      · simp only [ea]; rw [mul_zero, add_zero]; exact mul_nonneg (by linarith) hD.le
    linarith

theorem W_tri_rot (a u b x : Vec2 K) : W (ring [a, u, b]) x = W (ring [u, b, a]) x := by rw [W_tri, W_tri]; ring

theorem tri_outside {a u b x : Vec2 K} (hD : 0 < area2 a u b) (h : ¬ InT a u b x) : W (ring [a, u, b]) x = 0 := by
  unfold InT at h
  have c1 : area2 u b a = area2 a u b := by simp only [area2_eq]; ring
  have c2 : area2 b a u = area2 a u b := by simp only [area2_eq]; ring
  by_cases h1 : 0 ≤ area2 a u x
  · by_cases h2 : 0 ≤ area2 u b x
    · have h3 : area2 b a x < 0 := not_le.1 fun h3 => h ⟨h1, h2, h3⟩
      rw [W_tri_rot, W_tri_rot]; exact tri_outside_edge (by rw [c2]; exact hD) h3
    · rw [W_tri_rot]; exact tri_outside_edge (by rw [c1]; exact hD) (not_le.1 h2)
  · exact tri_outside_edge hD (not_le.1 h1)

theorem tri_cases {a u b x : Vec2 K} (hD : 0 < area2 a u b) (h : InT a u b x) : Str a u b x ∨ OnB [a, u, b] x := by
  obtain ⟨h1, h2, h3⟩ := h
  have c1 : area2 u b a = area2 a u b := by simp only [area2_eq]; ring
  have c2 : area2 b a u = area2 a u b := by simp only [area2_eq]; ring
  rw [onB_tri]
  rcases h1.eq_or_lt with e1 | e1
  · exact Or.inr (Or.inl (onSeg_edge hD e1.symm h2 h3))
  rcases h2.eq_or_lt with e2 | e2
  · exact Or.inr (Or.inr (Or.inl (onSeg_edge (c1 ▸ hD) e2.symm h3 h1)))
  rcases h3.eq_or_lt with e3 | e3
  · exact Or.inr (Or.inr (Or.inr (onSeg_edge (c2 ▸ hD) e3.symm h1 h2)))
  exact Or.inl ⟨e1, e2, e3⟩

theorem inT_of_onSeg {a u b x : Vec2 K} (hD : 0 < area2 a u b) (h : OnSeg a u x) : InT a u b x ∧ ¬ Str a u b x := by
  obtain ⟨t, t0, t1, tx, ty⟩ := h
  have e1 : area2 a u x = 0 := by rw [area_along a u tx ty]; simp only [area2_eq]; ring
  have e2 : area2 u b x = (1 - t) * area2 a u b := by rw [area_along u b tx ty]; simp only [area2_eq]; ring
  have e3 : area2 b a x = t * area2 a u b := by rw [area_along b a tx ty]; simp only [area2_eq]; ring
  refine ⟨⟨e1.ge, ?_, ?_⟩, fun h => ?_⟩
  · rw [e2]; exact mul_nonneg (by linarith) hD.le
  · rw [e3]; exact mul_nonneg t0 hD.le
  · have := h.1; rw [e1] at this; exact lt_irrefl _ this

theorem onB_inT {a u b x : Vec2 K} (hD : 0 < area2 a u b) (h : OnB [a, u, b] x) : InT a u b x ∧ ¬ Str a u b x := by
  have c1 : area2 u b a = area2 a u b := by simp only [area2_eq]; ring
  have c2 : area2 b a u = area2 a u b := by simp only [area2_eq]; ring
  rcases onB_tri.1 h with h | h | h
  · exact inT_of_onSeg hD h
  · obtain ⟨⟨h1, h2, h3⟩, h4⟩ := inT_of_onSeg (c1 ▸ hD : 0 < area2 u b a) h
    exact ⟨⟨h3, h1, h2⟩, fun ⟨s1, s2, s3⟩ => h4 ⟨s2, s3, s1⟩⟩
  · obtain ⟨⟨h1, h2, h3⟩, h4⟩ := inT_of_onSeg (c2 ▸ hD : 0 < area2 b a u) h
    exact ⟨⟨h2, h3, h1⟩, fun ⟨s1, s2, s3⟩ => h4 ⟨s3, s1, s2⟩⟩

theorem in_tri {a u b x : Vec2 K} (hD : 0 < area2 a u b) : In [a, u, b] x ↔ InT a u b x := by
  constructor
  · rintro (h | h)
    · exact (onB_inT hD h).1
    · by_contra hc; exact h (tri_outside hD hc)
  · intro h
    rcases tri_cases hD h with h | h
    · right; rw [tri_strict h]; exact one_ne_zero
    · exact Or.inl h

/-! ### cutting off an ear -/

theorem OnB.rotate {l l' : List (Vec2 K)} (h : l ~r l') {x : Vec2 K} : OnB l x ↔ OnB l' x := by
  constructor
  · rintro ⟨e, he, hx⟩; exact ⟨e, (ring_isRotated h).mem_iff.1 he, hx⟩
  · rintro ⟨e, he, hx⟩; exact ⟨e, (ring_isRotated h).mem_iff.2 he, hx⟩

theorem In.rotate {l l' : List (Vec2 K)} (h : l ~r l') {x : Vec2 K} : In l x ↔ In l' x := by
  unfold In; rw [OnB.rotate h, W_perm (ring_isRotated h)]

theorem ring_whole (a u b : Vec2 K) (B : List (Vec2 K)) :
    ring (a :: [u] ++ b :: B) = (a, u) :: (u, b) :: pairs (b :: B ++ [a]) := by rw [ring_split]; rfl

theorem ring_rest (a b : Vec2 K) (B : List (Vec2 K)) : ring (b :: B ++ [a]) = pairs (b :: B ++ [a]) ++ [(a, b)] := ring_part b a B

theorem W_ear (a u b : Vec2 K) (B : List (Vec2 K)) (x : Vec2 K) :
    W (ring (a :: [u] ++ b :: B)) x = W (ring [a, u, b]) x + W (ring (b :: B ++ [a])) x := by
  rw [ring_whole, ring_rest, W_cons, W_cons, W_append, W_tri, W_cons, W_nil, wind_swap a b]; ring

section Ear
variable {a u b : Vec2 K} {B : List (Vec2 K)} (h : Simple (a :: [u] ++ b :: B)) (h1 : cn (a :: [u] ++ b :: B) = 1)
  (hd : IsDiag (a :: [u] ++ b :: B) a b)
include h h1 hd

/-- points strictly inside the ear are not on the boundary of the rest -/
theorem ear_off {x : Vec2 K} (hx : Str a u b x) : ¬ OnB (b :: B ++ [a]) x := by
  rintro ⟨e, he, hon⟩
  rw [ring_rest, List.mem_append, List.mem_singleton] at he
  have hD := ear_area h h1 hd
  have nota : x ≠ a := by
    rintro rfl; exact (onB_inT hD (onB_tri.2 (Or.inl (onSeg_left _ _)))).2 hx
  have notb : x ≠ b := by
    rintro rfl; exact (onB_inT hD (onB_tri.2 (Or.inr (Or.inl (onSeg_right _ _))))).2 hx
  rcases he with he | rfl
  · have := chain_outside (A := [u]) h h1 hd e he x hon nota notb
    have h2 := tri_strict hx
    rw [show a :: [u] ++ [b] = [a, u, b] from rfl, h2] at this
    exact one_ne_zero this
  · exact (onB_inT hD (onB_tri.2 (Or.inr (Or.inr (onSeg_comm hon))))).2 hx

/-- points of the two edges of the ear, other than the ends, are outside the rest -/
theorem ear_edges_out {x : Vec2 K} (hx : OnSeg a u x ∨ OnSeg u b x) (hxa : x ≠ a) (hxb : x ≠ b) :
    W (ring (b :: B ++ [a])) x = 0 ∧ ¬ OnB (b :: B ++ [a]) x := by
  have hr := rot_split a b [u] B
  have h' := h.rotate hr
  have h1' : cn (b :: B ++ a :: [u]) = 1 := by rw [← cn_rotate h hr, h1]
  have hd' := (hd.rotate hr).symm
  have hmem : ∃ e ∈ pairs (a :: [u] ++ [b]), OnSeg e.1 e.2 x := by
    rcases hx with hx | hx
    · exact ⟨(a, u), by simp [pairs], hx⟩
    · exact ⟨(u, b), by simp [pairs], hx⟩
  obtain ⟨e, he, hon⟩ := hmem
  refine ⟨chain_outside h' h1' hd' e he x hon hxb hxa, ?_⟩
  rintro ⟨e', he', hon'⟩
  rw [ring_rest, List.mem_append, List.mem_singleton] at he'
  have hew : e ∈ ring (a :: [u] ++ b :: B) := by rw [ring_split]; exact List.mem_append_left _ he
  rcases he' with he' | rfl
  · have he'w : e' ∈ ring (a :: [u] ++ b :: B) := by rw [ring_split]; exact List.mem_append_right _ he'
    have hu : u ∉ b :: B ++ [a] := by
      have := h.nodup
      simp at this ⊢
      grind
    have hne : e ≠ e' := by
      rintro rfl
      have hm := mem_pairs he'
      simp only [List.cons_append, List.nil_append, pairs, List.mem_cons, List.not_mem_nil, or_false] at he
      rcases he with rfl | rfl
      · exact hu hm.2
      · exact hu hm.1
    have hx4 : x = e.1 ∨ x = e.2 := by
      rcases h.meet e hew e' he'w hne x hon hon' with h2 | h2
      · exact Or.inr h2.1
      · exact Or.inl h2.1
    have hx5 : x ∈ b :: B ++ [a] := by
      rcases h.meet e hew e' he'w hne x hon hon' with h2 | h2
      · rw [h2.2]; exact (mem_pairs he').1
      · rw [h2.2]; exact (mem_pairs he').2
    simp only [List.cons_append, List.nil_append, pairs, List.mem_cons, List.not_mem_nil, or_false] at he
    have hxu : x = u := by
      rcases he with rfl | rfl
      · exact hx4.resolve_left hxa
      · exact hx4.resolve_right hxb
    rw [hxu] at hx5
    exact hu hx5
  · rcases (hd.clear e hew x hon' hon).1 with h2 | h2
    · exact hxa h2
    · exact hxb h2

/-- points strictly inside the ear are outside the rest -/
theorem ear_out {x : Vec2 K} (hx : Str a u b x) : W (ring (b :: B ++ [a])) x = 0 := by
  have hnd := h.nodup
  have hua : u ≠ a := fun e => by subst e; simp at hnd
  have hub : u ≠ b := fun e => by subst e; simp at hnd
  obtain ⟨hu0, huB⟩ := ear_edges_out h h1 hd (Or.inl (onSeg_right a u)) hua hub
  rw [← hu0]
  apply W_ring_const
  intro e he z hz hz'
  obtain ⟨t, t0, t1, tx, ty⟩ := hz
  rcases t1.eq_or_lt with rfl | t1
  · apply huB
    have : z = u := Vec2.ext (by rw [tx]; ring) (by rw [ty]; ring)
    subst this; exact ⟨e, he, hz'⟩
  · have hD := ear_area h h1 hd
    obtain ⟨s1, s2, s3⟩ := hx
    refine ear_off h h1 hd (x := z) ⟨?_, ?_, ?_⟩ ⟨e, he, hz'⟩
    · rw [area_along _ _ tx ty, show area2 a u u = 0 by simp only [area2_eq]; ring, mul_zero, add_zero]
      exact mul_pos (by linarith) s1
    · rw [area_along _ _ tx ty, show area2 u b u = 0 by simp only [area2_eq]; ring, mul_zero, add_zero]
      exact mul_pos (by linarith) s2
    · rw [area_along _ _ tx ty, show area2 b a u = area2 a u b by simp only [area2_eq]; ring]
      exact add_pos_of_pos_of_nonneg (mul_pos (by linarith) s3) (mul_nonneg t0 hD.le)

theorem on_diag {x : Vec2 K} (hx : OnSeg a b x) : In (a :: [u] ++ b :: B) x := by
  by_cases ha : x = a
  · left; exact ⟨(a, u), by rw [ring_whole]; simp, by rw [ha]; exact onSeg_left _ _⟩
  by_cases hb : x = b
  · left; exact ⟨(u, b), by rw [ring_whole]; simp, by rw [hb]; exact onSeg_right _ _⟩
  right
  rw [hd.inside h h1 hx ha hb]; exact one_ne_zero

/-- the region is the union of the ear and the rest -/
theorem in_ear {x : Vec2 K} : In (a :: [u] ++ b :: B) x ↔ In [a, u, b] x ∨ In (b :: B ++ [a]) x := by
  have hD := ear_area h h1 hd
  have bt : OnB [a, u, b] x → In (a :: [u] ++ b :: B) x := by
    intro hb
    rcases onB_tri.1 hb with hb | hb | hb
    · exact Or.inl ⟨(a, u), by rw [ring_whole]; simp, hb⟩
    · exact Or.inl ⟨(u, b), by rw [ring_whole]; simp, hb⟩
    · exact on_diag h h1 hd (onSeg_comm hb)
  constructor
  · rintro (⟨e, he, hon⟩ | hw)
    · rw [ring_whole] at he
      rcases List.mem_cons.1 he with rfl | he
      · exact Or.inl (Or.inl (onB_tri.2 (Or.inl hon)))
      rcases List.mem_cons.1 he with rfl | he
      · exact Or.inl (Or.inl (onB_tri.2 (Or.inr (Or.inl hon))))
      · exact Or.inr (Or.inl ⟨e, by rw [ring_rest]; exact List.mem_append_left _ he, hon⟩)
    · rw [W_ear] at hw
      by_cases hT : W (ring [a, u, b]) x = 0
      · rw [hT, zero_add] at hw; exact Or.inr (Or.inr hw)
      · exact Or.inl (Or.inr hT)
  · rintro (hT | hR)
    · rcases tri_cases hD ((in_tri hD).1 hT) with hs | hb
      · right; rw [W_ear, tri_strict hs, ear_out h h1 hd hs]; decide
      · exact bt hb
    · rcases hR with ⟨e, he, hon⟩ | hw
      · rw [ring_rest, List.mem_append, List.mem_singleton] at he
        rcases he with he | rfl
        · exact Or.inl ⟨e, by rw [ring_split]; exact List.mem_append_right _ he, hon⟩
        · exact on_diag h h1 hd hon
      · by_cases hT : InT a u b x
        · rcases tri_cases hD hT with hs | hb
          · exact absurd (ear_out h h1 hd hs) hw
          · exact bt hb
        · right; rw [W_ear, tri_outside hD hT, zero_add]; exact hw

end Ear

/-! ### the whole dissection -/

/-- the region is the union of the triangles -/
theorem Dissect.cover {l : List (Vec2 K)} {ts : List (List (Vec2 K))} (h : Dissect l ts) (x : Vec2 K) :
    In l x ↔ ∃ t ∈ ts, In t x := by
  induction h with
  | last l h hs hc => simp
  | cut l l' ts a u b B hs hc hr hd hr' _ ih =>
    have c : cn (a :: [u] ++ b :: B) = 1 := by rw [← cn_rotate hs hr, hc]
    rw [In.rotate hr, in_ear (hs.rotate hr) c hd, ← In.rotate hr', ih]
    simp

/-- strictly inside a counter-clockwise triangle given as a list -/
def StrL (t : List (Vec2 K)) (x : Vec2 K) : Prop := ∃ a u b, t = [a, u, b] ∧ Str a u b x

theorem tri_of_length {l : List (Vec2 K)} (h : l.length = 3) : ∃ a u b, l = [a, u, b] := List.length_eq_three.1 h

theorem strL_in {t : List (Vec2 K)} {x : Vec2 K} (h : StrL t x) : In t x ∧ W (ring t) x = 1 := by
  obtain ⟨a, u, b, rfl, hs⟩ := h
  exact ⟨Or.inr (by rw [tri_strict hs]; exact one_ne_zero), tri_strict hs⟩

/-- points strictly inside one of the triangles are not on the boundary of the polygon -/
theorem Dissect.off {l : List (Vec2 K)} {ts : List (List (Vec2 K))} (h : Dissect l ts) {t : List (Vec2 K)} (ht : t ∈ ts)
    {x : Vec2 K} (hx : StrL t x) : ¬ OnB l x := by
  induction h with
  | last l h hs hc =>
    rw [List.mem_singleton] at ht; subst ht
    obtain ⟨a, u, b, rfl, hx⟩ := hx
    exact fun hB => (onB_inT (area_of_cn hs hc) hB).2 hx
  | cut l l' ts a u b B hs hc hr hd hr' hD ih =>
    have c : cn (a :: [u] ++ b :: B) = 1 := by rw [← cn_rotate hs hr, hc]
    have s := hs.rotate hr
    rw [OnB.rotate hr]
    rintro ⟨e, he, hon⟩
    have edge : e ∈ pairs (b :: B ++ [a]) ∨ OnSeg a u x ∨ OnSeg u b x := by
      rw [ring_whole] at he
      rcases List.mem_cons.1 he with rfl | he
      · exact Or.inr (Or.inl hon)
      rcases List.mem_cons.1 he with rfl | he
      · exact Or.inr (Or.inr hon)
      · exact Or.inl he
    rcases List.mem_cons.1 ht with rfl | ht
    · obtain ⟨a', u', b', e1, hx⟩ := hx
      simp only [List.cons.injEq, and_true] at e1
      obtain ⟨rfl, rfl, rfl⟩ := e1
      rcases edge with he | he
      · exact ear_off s c hd hx ⟨e, by rw [ring_rest]; exact List.mem_append_left _ he, hon⟩
      · exact (onB_inT (ear_area s c hd) (onB_tri.2 (by tauto))).2 hx
    · have off := ih ht
      rw [OnB.rotate hr'] at off
      rcases edge with he | he
      · exact off ⟨e, by rw [ring_rest]; exact List.mem_append_left _ he, hon⟩
      · have hin : In l' x := (hD.cover x).2 ⟨t, ht, (strL_in hx).1⟩
        rw [In.rotate hr'] at hin
        have hw := hin.resolve_left off
        have hab : (a, b) ∈ ring (b :: B ++ [a]) := by rw [ring_rest]; simp
        exact hw (ear_edges_out s c hd he
          (fun e => off ⟨(a, b), hab, by rw [e]; exact onSeg_left _ _⟩)
          (fun e => off ⟨(a, b), hab, by rw [e]; exact onSeg_right _ _⟩)).1

/-- no point strictly inside one of the triangles lies in another one -/
theorem Dissect.apart {l : List (Vec2 K)} {ts : List (List (Vec2 K))} (h : Dissect l ts) :
    ts.Pairwise fun s t => ∀ x, ¬ (StrL s x ∧ In t x) ∧ ¬ (In s x ∧ StrL t x) := by
  induction h with
  | last l h hs hc => simp
  | cut l l' ts a u b B hs hc hr hd hr' hD ih =>
    have c : cn (a :: [u] ++ b :: B) = 1 := by rw [← cn_rotate hs hr, hc]
    have s := hs.rotate hr
    refine List.Pairwise.cons ?_ ih
    intro t ht x
    have strict : StrL [a, u, b] x → ¬ In t x := by
      rintro ⟨a', u', b', e1, hx⟩ hin
      simp only [List.cons.injEq, and_true] at e1
      obtain ⟨rfl, rfl, rfl⟩ := e1
      have hin : In l' x := (hD.cover x).2 ⟨t, ht, hin⟩
      rw [In.rotate hr'] at hin
      rcases hin with hin | hin
      · exact ear_off s c hd hx hin
      · exact hin (ear_out s c hd hx)
    refine ⟨fun hc => strict hc.1 hc.2, ?_⟩
    rintro ⟨h1, h2⟩
    rcases tri_cases (ear_area s c hd) ((in_tri (ear_area s c hd)).1 h1) with hs1 | hb
    · exact strict ⟨a, u, b, rfl, hs1⟩ (strL_in h2).1
    · have o1 := hD.off ht h2
      have o2 := (Dissect.cut l l' ts a u b B hs hc hr hd hr' hD).off (List.mem_cons_of_mem _ ht) h2
      rw [OnB.rotate hr'] at o1
      rw [OnB.rotate hr] at o2
      rcases onB_tri.1 hb with hb | hb | hb
      · exact o2 ⟨(a, u), by rw [ring_whole]; simp, hb⟩
      · exact o2 ⟨(u, b), by rw [ring_whole]; simp, hb⟩
      · exact o1 ⟨(a, b), by rw [ring_rest]; simp, onSeg_comm hb⟩

/-- the winding number of a counter-clockwise simple polygon is 0 or 1 off its boundary -/
theorem Dissect.wind_cases {l : List (Vec2 K)} {ts : List (List (Vec2 K))} (h : Dissect l ts) {x : Vec2 K} (hx : ¬ OnB l x) :
    W (ring l) x = 0 ∨ W (ring l) x = 1 := by
  induction h with
  | last l h hs hc =>
    obtain ⟨a, u, b, rfl⟩ := tri_of_length h
    by_cases hT : InT a u b x
    · rcases tri_cases (area_of_cn hs hc) hT with h | h
      · exact Or.inr (tri_strict h)
      · exact absurd h hx
    · exact Or.inl (tri_outside (area_of_cn hs hc) hT)
  | cut l l' ts a u b B hs hc hr hd hr' hD ih =>
    have c : cn (a :: [u] ++ b :: B) = 1 := by rw [← cn_rotate hs hr, hc]
    have s := hs.rotate hr
    rw [OnB.rotate hr] at hx
    rw [W_perm (ring_isRotated hr)]
    have na : OnSeg a b x → W (ring (a :: [u] ++ b :: B)) x = 1 := fun hab =>
      hd.inside s c hab
        (fun e => hx ⟨(a, u), by rw [ring_whole]; simp, by rw [e]; exact onSeg_left _ _⟩)
        (fun e => hx ⟨(u, b), by rw [ring_whole]; simp, by rw [e]; exact onSeg_right _ _⟩)
    by_cases hab : OnSeg a b x
    · exact Or.inr (na hab)
    by_cases hT : InT a u b x
    · rcases tri_cases (ear_area s c hd) hT with h | h
      · right; rw [W_ear, tri_strict h, ear_out s c hd h]; rfl
      · rcases onB_tri.1 h with h | h | h
        · exact absurd ⟨(a, u), by rw [ring_whole]; simp, h⟩ hx
        · exact absurd ⟨(u, b), by rw [ring_whole]; simp, h⟩ hx
        · exact absurd (onSeg_comm h) hab
    · rw [W_ear, tri_outside (ear_area s c hd) hT, zero_add, ← W_perm (ring_isRotated hr')]
      apply ih
      rw [OnB.rotate hr']
      rintro ⟨e, he, hon⟩
      rw [ring_rest, List.mem_append, List.mem_singleton] at he
      rcases he with he | rfl
      · exact hx ⟨e, by rw [ring_split]; exact List.mem_append_right _ he, hon⟩
      · exact hab hon

/-! ### Specification: points of a polygon by the even-odd rule, points of a triangle by convex combination -/

/-- the edges of a closed polygon -/
def edges (l : List (Vec2 K)) : List (Vec2 K × Vec2 K) := l.zip (l.rotate 1)

/-- the horizontal ray from `x` to the right crosses the segment from `a` to `b` (of which the lower end is counted) -/
def CrossRight (x a b : Vec2 K) : Prop :=
  (a.y ≤ x.y ∧ x.y < b.y ∨ b.y ≤ x.y ∧ x.y < a.y) ∧ x.x < a.x + (x.y - a.y) / (b.y - a.y) * (b.x - a.x)

instance (x a b : Vec2 K) : Decidable (CrossRight x a b) := by unfold CrossRight; infer_instance

/-- in the closed region of a polygon: on an edge, or with an odd number of crossings -/
def Region (l : List (Vec2 K)) (x : Vec2 K) : Prop :=
  (∃ e ∈ edges l, OnSeg e.1 e.2 x) ∨ Odd ((edges l).countP fun e => decide (CrossRight x e.1 e.2))

/-- a convex combination of the three corners -/
def InTriangle (t : List (Vec2 K)) (x : Vec2 K) : Prop :=
  ∃ a b c, t = [a, b, c] ∧ ∃ α β γ : K, 0 ≤ α ∧ 0 ≤ β ∧ 0 ≤ γ ∧ α + β + γ = 1 ∧
    x.x = α * a.x + β * b.x + γ * c.x ∧ x.y = α * a.y + β * b.y + γ * c.y

/-- a convex combination of the three corners with positive weights -/
def InTriangleInterior (t : List (Vec2 K)) (x : Vec2 K) : Prop :=
  ∃ a b c, t = [a, b, c] ∧ ∃ α β γ : K, 0 < α ∧ 0 < β ∧ 0 < γ ∧ α + β + γ = 1 ∧
    x.x = α * a.x + β * b.x + γ * c.x ∧ x.y = α * a.y + β * b.y + γ * c.y

/-! ### the specification and the winding number -/

theorem pairs_zip (a c : Vec2 K) (l : List (Vec2 K)) : pairs (a :: l ++ [c]) = (a :: l).zip (l ++ [c]) := by
  induction l generalizing a with
  | nil => rfl
  | cons b l ih => show (a, b) :: pairs (b :: l ++ [c]) = _; rw [ih]; rfl

theorem edges_eq (l : List (Vec2 K)) : edges l = ring l := by
  cases l with
  | nil => rfl
  | cons a l => unfold edges; rw [List.rotate_cons_succ, List.rotate_zero, ← pairs_zip]; rfl

theorem crossRight_iff (x a b : Vec2 K) : CrossRight x a b ↔
    (a.y ≤ x.y ∧ x.y < b.y ∧ 0 < area2 a b x) ∨ (b.y ≤ x.y ∧ x.y < a.y ∧ area2 a b x < 0) := by
  unfold CrossRight
  have key : b.y - a.y ≠ 0 → area2 a b x = (a.x + (x.y - a.y) / (b.y - a.y) * (b.x - a.x) - x.x) * (b.y - a.y) := by
    intro h; simp only [area2_eq]; field_simp; ring
  constructor
  · rintro ⟨⟨h1, h2⟩ | ⟨h1, h2⟩, h3⟩
    · left
      refine ⟨h1, h2, ?_⟩
      rw [key (by linarith)]
      exact mul_pos (by linarith) (by linarith)
    · right
      refine ⟨h1, h2, ?_⟩
      rw [key (by linarith)]
      exact mul_neg_of_pos_of_neg (by linarith) (by linarith)
  · rintro (⟨h1, h2, h3⟩ | ⟨h1, h2, h3⟩)
    · refine ⟨Or.inl ⟨h1, h2⟩, ?_⟩
      rw [key (by linarith)] at h3
      by_contra hc
      have := mul_nonneg (sub_nonneg.2 (not_lt.1 hc)) (by linarith : 0 ≤ b.y - a.y)
      linarith
    · refine ⟨Or.inr ⟨h1, h2⟩, ?_⟩
      rw [key (by linarith)] at h3
      by_contra hc
      have := mul_nonneg (sub_nonneg.2 (not_lt.1 hc)) (by linarith : 0 ≤ a.y - b.y)
      linarith

theorem wind_parity (x a b : Vec2 K) : ∃ k : ℤ, wind a b x = (if CrossRight x a b then 1 else 0) + 2 * k := by
  have hi := crossRight_iff x a b
  unfold wind ind
  by_cases h1 : a.y ≤ x.y ∧ x.y < b.y ∧ 0 < area2 a b x
  · have h2 : ¬ (b.y ≤ x.y ∧ x.y < a.y ∧ area2 a b x < 0) := fun h => by linarith [h.2.2, h1.2.2]
    rw [if_pos h1, if_neg h2, if_pos (hi.2 (Or.inl h1))]
    exact ⟨0, by norm_num⟩
  · by_cases h2 : b.y ≤ x.y ∧ x.y < a.y ∧ area2 a b x < 0
    · rw [if_neg h1, if_pos h2, if_pos (hi.2 (Or.inr h2))]
      exact ⟨-1, by norm_num⟩
    · rw [if_neg h1, if_neg h2, if_neg (fun h => (hi.1 h).elim h1 h2)]
      exact ⟨0, by norm_num⟩

theorem W_parity (x : Vec2 K) (es : List (Vec2 K × Vec2 K)) :
    ∃ k : ℤ, W es x = (es.countP fun e => decide (CrossRight x e.1 e.2) : ℕ) + 2 * k := by
  induction es with
  | nil => exact ⟨0, rfl⟩
  | cons e es ih =>
    obtain ⟨k, hk⟩ := ih
    obtain ⟨j, hj⟩ := wind_parity x e.1 e.2
    refine ⟨k + j, ?_⟩
    rw [W_cons, hk, hj, List.countP_cons]
    by_cases hc : CrossRight x e.1 e.2
    · simp only [hc, decide_true, if_true]; push_cast; ring
    · simp only [hc, decide_false, if_false]; push_cast; ring_nf

theorem region_W (l : List (Vec2 K)) (x : Vec2 K) : Region l x ↔ OnB l x ∨ Odd (W (ring l) x) := by
  unfold Region OnB
  rw [edges_eq]
  obtain ⟨k, hk⟩ := W_parity x (ring l)
  rw [hk]
  have : Odd (((ring l).countP fun e => decide (CrossRight x e.1 e.2) : ℕ) + 2 * k : ℤ) ↔
      Odd ((ring l).countP fun e => decide (CrossRight x e.1 e.2)) := by
    rw [Int.odd_add]
    simp
  rw [this]

theorem region_reverse (l : List (Vec2 K)) (x : Vec2 K) : Region l.reverse x ↔ Region l x := by
  rw [region_W, region_W]
  rcases l with _ | ⟨v, S⟩
  · rfl
  · rw [W_perm (ring_isRotated (reverse_rot v S)), OnB.rotate (reverse_rot v S)]
    unfold OnB
    rw [ring_reverse, W_perm (List.reverse_perm _), W_swap, odd_neg]
    apply or_congr _ Iff.rfl
    constructor
    · rintro ⟨e, he, hon⟩
      simp only [List.mem_reverse, List.mem_map] at he
      obtain ⟨e', he', rfl⟩ := he
      exact ⟨e', he', onSeg_comm hon⟩
    · rintro ⟨e, he, hon⟩
      exact ⟨e.swap, by simp only [List.mem_reverse, List.mem_map]; exact ⟨e, he, rfl⟩, onSeg_comm hon⟩

theorem weights (a u b x : Vec2 K) (hD : 0 < area2 a u b) :
    area2 u b x / area2 a u b + area2 b a x / area2 a u b + area2 a u x / area2 a u b = 1 ∧
    x.x = area2 u b x / area2 a u b * a.x + area2 b a x / area2 a u b * u.x + area2 a u x / area2 a u b * b.x ∧
    x.y = area2 u b x / area2 a u b * a.y + area2 b a x / area2 a u b * u.y + area2 a u x / area2 a u b * b.y := by
  have hs := area_sum a u b x
  have hne := hD.ne'
  refine ⟨?_, ?_, ?_⟩
  · rw [← add_div, ← add_div, div_eq_one_iff_eq hne]; linarith
  · have : area2 a u b * x.x = area2 u b x * a.x + area2 b a x * u.x + area2 a u x * b.x := by
      simp only [area2_eq]; ring
    field_simp; linarith
  · have : area2 a u b * x.y = area2 u b x * a.y + area2 b a x * u.y + area2 a u x * b.y := by
      simp only [area2_eq]; ring
    field_simp; linarith

theorem areas_of_weights {a u b x : Vec2 K} {α β γ : K} (h : α + β + γ = 1) (hx : x.x = α * a.x + β * u.x + γ * b.x)
    (hy : x.y = α * a.y + β * u.y + γ * b.y) :
    area2 a u x = γ * area2 a u b ∧ area2 u b x = α * area2 a u b ∧ area2 b a x = β * area2 a u b := by
  obtain rfl : α = 1 - β - γ := by linarith
  refine ⟨?_, ?_, ?_⟩ <;> simp only [area2_eq, hx, hy] <;> ring

theorem inTriangle_iff {a u b x : Vec2 K} (hD : 0 < area2 a u b) : InTriangle [a, u, b] x ↔ InT a u b x := by
  constructor
  · rintro ⟨a', u', b', e, α, β, γ, h1, h2, h3, hs, hx, hy⟩
    simp only [List.cons.injEq, and_true] at e
    obtain ⟨rfl, rfl, rfl⟩ := e
    obtain ⟨k1, k2, k3⟩ := areas_of_weights hs hx hy
    exact ⟨k1 ▸ mul_nonneg h3 hD.le, k2 ▸ mul_nonneg h1 hD.le, k3 ▸ mul_nonneg h2 hD.le⟩
  · rintro ⟨h1, h2, h3⟩
    obtain ⟨w1, w2, w3⟩ := weights a u b x hD
    exact ⟨a, u, b, rfl, _, _, _, div_nonneg h2 hD.le, div_nonneg h3 hD.le, div_nonneg h1 hD.le, w1, w2, w3⟩

theorem interior_iff {a u b x : Vec2 K} (hD : 0 < area2 a u b) : InTriangleInterior [a, u, b] x ↔ Str a u b x := by
  constructor
  · rintro ⟨a', u', b', e, α, β, γ, h1, h2, h3, hs, hx, hy⟩
    simp only [List.cons.injEq, and_true] at e
    obtain ⟨rfl, rfl, rfl⟩ := e
    obtain ⟨k1, k2, k3⟩ := areas_of_weights hs hx hy
    exact ⟨k1 ▸ mul_pos h3 hD, k2 ▸ mul_pos h1 hD, k3 ▸ mul_pos h2 hD⟩
  · rintro ⟨h1, h2, h3⟩
    obtain ⟨w1, w2, w3⟩ := weights a u b x hD
    exact ⟨a, u, b, rfl, _, _, _, div_pos h2 hD, div_pos h3 hD, div_pos h1 hD, w1, w2, w3⟩

theorem Dissect.three {l : List (Vec2 K)} {ts : List (List (Vec2 K))} (h : Dissect l ts) : ∀ t ∈ ts, t.length = 3 := by
  induction h with
  | last l h hs hc => simpa using h
  | cut l l' ts a u b B hs hc hr hd hr' hD ih =>
    intro t ht
    rcases List.mem_cons.1 ht with rfl | ht
    · rfl
    · exact ih t ht

theorem dissect_tiles {l : List (Vec2 K)} {ts : List (List (Vec2 K))} (h : Dissect l ts) :
    (∀ x, Region l x ↔ ∃ t ∈ ts, InTriangle t x) ∧
    ts.Pairwise fun s t => ∀ x, ¬ (InTriangleInterior s x ∧ InTriangle t x) ∧ ¬ (InTriangle s x ∧ InTriangleInterior t x) := by
  have tri : ∀ t ∈ ts, ∃ a u b, t = [a, u, b] ∧ 0 < area2 a u b := by
    intro t ht
    obtain ⟨a, u, b, rfl⟩ := tri_of_length (h.three t ht)
    have := h.pos _ ht
    rw [shoelace_tri] at this
    exact ⟨a, u, b, rfl, this⟩
  have hin : ∀ t ∈ ts, ∀ x, InTriangle t x ↔ In t x := by
    intro t ht x
    obtain ⟨a, u, b, rfl, hD⟩ := tri t ht
    rw [inTriangle_iff hD, in_tri hD]
  have hst : ∀ t ∈ ts, ∀ x, InTriangleInterior t x ↔ StrL t x := by
    intro t ht x
    obtain ⟨a, u, b, rfl, hD⟩ := tri t ht
    rw [interior_iff hD]
    constructor
    · intro h; exact ⟨a, u, b, rfl, h⟩
    · rintro ⟨a', u', b', e, h⟩
      simp only [List.cons.injEq, and_true] at e
      obtain ⟨rfl, rfl, rfl⟩ := e
      exact h
  constructor
  · intro x
    rw [region_W]
    have : (OnB l x ∨ Odd (W (ring l) x)) ↔ In l x := by
      unfold In
      by_cases hB : OnB l x
      · simp [hB]
      · rcases h.wind_cases hB with hw | hw <;> simp [hB, hw]
    rw [this, h.cover x]
    constructor
    · rintro ⟨t, ht, hx⟩; exact ⟨t, ht, (hin t ht x).2 hx⟩
    · rintro ⟨t, ht, hx⟩; exact ⟨t, ht, (hin t ht x).1 hx⟩
  · refine h.apart.imp_of_mem ?_
    intro s t hs ht hap x
    rw [hst s hs, hst t ht, hin s hs, hin t ht]
    exact hap x

/-- C76: the triangles returned for a simple polygon tile it.  Their union is exactly the closed region bounded by the polygon
(on an edge, or inside by the even-odd rule), and no inner point of one triangle belongs to another. -/
theorem C76_tiles (vs : List (Vec2 K)) (h : SimplePolygon vs) :
    ∃ P ts, Polygon.new vs = .ok P ∧ Triangulates P (.ok ts) ∧
      (∀ x, Region vs x ↔ ∃ T ∈ ts, InTriangle T.vertices x) ∧
      ts.Pairwise fun S T => ∀ x, ¬ (InTriangleInterior S.vertices x ∧ InTriangle T.vertices x) ∧
        ¬ (InTriangle S.vertices x ∧ InTriangleInterior T.vertices x) := by
  have hs := simple_of_spec h
  obtain ⟨P, hP, hpos, hfw, hbw, _⟩ := C27_new_ccw vs hs.three
  have hsP : Simple P.vertices ∧ ∀ x, Region vs x ↔ Region P.vertices x := by
    rcases lt_or_ge (shoelace vs) 0 with hlt | hge
    · rw [hbw hlt]; exact ⟨hs.reverse, fun x => (region_reverse vs x).symm⟩
    · rw [hfw hge]; exact ⟨hs, fun x => Iff.rfl⟩
  obtain ⟨ts, ht, hD⟩ := dissect_run P hsP.1 (((cn_shoelace hsP.1).1).2 hpos)
  obtain ⟨t1, t2⟩ := dissect_tiles hD
  refine ⟨P, ts, hP, ht, ?_, ?_⟩
  · intro x
    rw [hsP.2 x, t1 x]
    simp
  · exact List.pairwise_map.1 t2

/-- a point inside the concave quadrilateral `dart`, and one in its notch -/
example : Region dart ⟨1/2, 1/2⟩ ∧ ¬ Odd ((edges dart).countP fun e => decide (CrossRight ⟨3, 3⟩ e.1 e.2)) := by
  constructor
  · right; decide +kernel
  · decide +kernel

example : ∃ P ts, Polygon.new dart = .ok P ∧ Triangulates P (.ok ts) ∧ ∃ T ∈ ts, InTriangle T.vertices ⟨1/2, 1/2⟩ := by
  obtain ⟨P, ts, h1, h2, h3, _⟩ := C76_tiles dart dart_simple
  exact ⟨P, ts, h1, h2, (h3 _).1 (Or.inr (by decide +kernel))⟩

end Kami.Simple
