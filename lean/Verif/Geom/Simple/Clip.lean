import Verif.Geom.Simple.Ear
/-!
# Orientation, reversal, and cutting off an ear
-/

set_option autoImplicit false
set_option linter.unusedSectionVars false
set_option linter.dupNamespace false

namespace Kami.Simple

open Kami Kami.Pred Kami.PolyThm

variable {K : Type} [Field K] [LinearOrder K] [IsStrictOrderedRing K]

/-! ### the shoelace sum -/

theorem shoelace_ring (l : List (Vec2 K)) : shoelace l = ((ring l).map fun e => crossTerm e.1 e.2).sum := by
  cases l with
  | nil => rfl
  | cons a l =>
    rw [shoelace_cons]
    show _ = ((pairs (a :: l ++ [a])).map fun e => crossTerm e.1 e.2).sum
    have key : ∀ (l : List (Vec2 K)) (b c : Vec2 K), (List.zipWith crossTerm (b :: l) (l ++ [c])).sum =
        ((pairs (b :: l ++ [c])).map fun e => crossTerm e.1 e.2).sum := by
      intro l
      induction l with
      | nil => intro b c; simp [pairs]
      | cons d l ih =>
        intro b c
        simp only [List.cons_append, List.zipWith_cons_cons, List.sum_cons, pairs, List.map_cons]
        rw [← List.cons_append, ← ih d c]
    exact key l a a

theorem crossTerm_swap (a b : Vec2 K) : crossTerm b a = -crossTerm a b := by unfold crossTerm; ring

theorem shoelace_split (a b : Vec2 K) (A B : List (Vec2 K)) :
    shoelace (a :: A ++ b :: B) = shoelace (a :: A ++ [b]) + shoelace (b :: B ++ [a]) := by
  rw [shoelace_ring, shoelace_ring, shoelace_ring, ring_split, ring_part, ring_part]
  simp only [List.map_append, List.sum_append, List.map_cons, List.map_nil, List.sum_cons, List.sum_nil]
  rw [crossTerm_swap a b]; ring

theorem shoelace_tri (a b c : Vec2 K) : shoelace [a, b, c] = area2 a b c := by
  simp [shoelace_cons, crossTerm, area2_eq]; ring

theorem shoelace_isRotated {l l' : List (Vec2 K)} (h : l ~r l') : shoelace l = shoelace l' := by
  obtain ⟨k, rfl⟩ := h; exact (shoelace_rotate l k).symm

theorem area_of_cn {a b c : Vec2 K} (h : Simple [a, b, c]) (h1 : cn [a, b, c] = 1) : 0 < area2 a b c := by
  obtain ⟨v, S, n, p, hS, hn, hp, hD⟩ := h.top_area h1
  have hl := hS.perm.length_eq
  rcases S with _ | ⟨n', _ | ⟨p', _ | _⟩⟩
  · simp at hl
  · simp at hl
  · simp at hn hp
    subst hn hp
    rw [← shoelace_tri, shoelace_isRotated hS, shoelace_tri]; exact hD
  · simp at hl

/-- the shoelace sum of a counter-clockwise simple polygon is positive -/
theorem shoelace_pos {l : List (Vec2 K)} (h : Simple l) (h1 : cn l = 1) : 0 < shoelace l := by
  obtain ⟨N, hN⟩ : ∃ N, l.length ≤ N := ⟨_, le_rfl⟩
  induction N generalizing l with
  | zero => have := h.three; omega
  | succ N ih =>
    by_cases h4 : 4 ≤ l.length
    · obtain ⟨p, q, hd⟩ := exists_diag h h1 h4
      obtain ⟨A, B, hr⟩ := exists_split hd.left hd.right hd.ne
      have h' := h.rotate hr
      obtain ⟨hA, hB, s1, s2, hcn⟩ := (hd.rotate hr).split h'
      obtain ⟨c1, c2⟩ := hcn (by rw [← cn_rotate h hr, h1])
      have hl := hr.perm.length_eq
      have lA := List.length_pos_of_ne_nil hA
      have lB := List.length_pos_of_ne_nil hB
      simp at hl
      rw [shoelace_isRotated hr, shoelace_split]
      exact add_pos (ih s1 c1 (by simp; omega)) (ih s2 c2 (by simp; omega))
    · have h3 := h.three
      rcases l with _ | ⟨a, _ | ⟨b, _ | ⟨c, _ | _⟩⟩⟩
      · simp at h3
      · simp at h3
      · simp at h3
      · rw [shoelace_tri]; exact area_of_cn h h1
      · simp at h4

/-! ### reversal -/

theorem pairs_reverse {α : Type} (l : List α) : pairs l.reverse = ((pairs l).map Prod.swap).reverse := by
  induction l with
  | nil => rfl
  | cons a l ih =>
    cases l with
    | nil => rfl
    | cons b l =>
      rw [List.reverse_cons, pairs_concat (p := b) (by simp), ih]
      simp [pairs]

theorem ring_reverse {α : Type} (v : α) (S : List α) : ring (v :: S.reverse) = ((ring (v :: S)).map Prod.swap).reverse := by
  show pairs (v :: S.reverse ++ [v]) = ((pairs (v :: S ++ [v])).map Prod.swap).reverse
  rw [← pairs_reverse]; simp

theorem reverse_rot {α : Type} (v : α) (S : List α) : (v :: S).reverse ~r v :: S.reverse := by
  rw [List.reverse_cons]; exact List.isRotated_append

theorem Simple.reverse {l : List (Vec2 K)} (h : Simple l) : Simple l.reverse := by
  rcases l with _ | ⟨v, S⟩
  · exact h
  · have key : Simple (v :: S.reverse) := by
      refine ⟨by simpa using h.three, ?_, ?_⟩
      · have := h.nodup
        simpa using this
      · intro e he e' he' hne x hx hx'
        rw [ring_reverse, List.mem_reverse, List.mem_map] at he he'
        obtain ⟨f, hf, rfl⟩ := he
        obtain ⟨f', hf', rfl⟩ := he'
        have hne' : f ≠ f' := by rintro rfl; exact hne rfl
        rcases h.meet f hf f' hf' hne' x (onSeg_comm hx) (onSeg_comm hx') with h3 | h3
        · exact Or.inr h3
        · exact Or.inl h3
    exact key.rotate (reverse_rot v S).symm

theorem W_swap (es : List (Vec2 K × Vec2 K)) (x : Vec2 K) : W (es.map Prod.swap) x = -W es x := by
  induction es with
  | nil => rfl
  | cons e es ih =>
    rw [List.map_cons, W_cons, W_cons, ih]
    show wind e.2 e.1 x + _ = _
    rw [wind_swap]; ring

theorem cn_reverse {l : List (Vec2 K)} (h : Simple l) : cn l.reverse = 1 - cn l := by
  rcases l with _ | ⟨v, S⟩
  · exact absurd h.three (by simp)
  · rw [cn_rotate h.reverse (reverse_rot v S)]
    obtain ⟨n, p, hn, hp, _, _, _, hang⟩ := h.at_vertex
    rw [cn_cons hn hp, cn_cons (n := p) (p := n) (by simpa using hp) (by simpa using hn), ring_reverse,
      W_perm (List.reverse_perm _), W_swap]
    have := ind_lt_add hang
    linarith

/-- a simple polygon is counter-clockwise exactly if its shoelace sum is not negative, and the sum is never zero -/
theorem cn_shoelace {l : List (Vec2 K)} (h : Simple l) : (cn l = 1 ↔ 0 ≤ shoelace l) ∧ shoelace l ≠ 0 := by
  rcases cn_cases h with h0 | h1
  · have hr : cn l.reverse = 1 := by rw [cn_reverse h, h0]; rfl
    have hs := shoelace_pos h.reverse hr
    rw [shoelace_reverse] at hs
    refine ⟨⟨fun h => by omega, fun h => by linarith⟩, by linarith⟩
  · have := shoelace_pos h h1
    exact ⟨⟨fun _ => this.le, fun _ => h1⟩, this.ne'⟩

/-! ### cutting off an ear -/

theorem exists_edge_at {l : List (Vec2 K)} (h : Simple l) {u : Vec2 K} (hu : u ∈ l) : ∃ n, (u, n) ∈ ring l := by
  obtain ⟨S, hS⟩ := exists_rotation hu
  obtain ⟨n, p, hn, hp, _⟩ := (h.rotate hS).at_vertex
  exact ⟨n, by rw [(ring_isRotated hS).mem_iff, ring_cons hn hp]; simp⟩

theorem pairs_edge {α : Type} {S : List α} {u : α} (a : α) (h : u ∈ S) : ∃ n, (u, n) ∈ pairs (S ++ [a]) := by
  induction S with
  | nil => cases h
  | cons b S ih =>
    cases S with
    | nil =>
      simp only [List.mem_singleton] at h
      subst h
      exact ⟨a, by simp [pairs]⟩
    | cons c S =>
      rcases List.mem_cons.1 h with rfl | h
      · exact ⟨c, by simp [pairs]⟩
      · obtain ⟨n, hn⟩ := ih h
        exact ⟨n, by simp only [List.cons_append, pairs, List.mem_cons]; exact Or.inr (by simpa using hn)⟩

theorem ear_area {a u b : Vec2 K} {B : List (Vec2 K)} (h : Simple (a :: [u] ++ b :: B)) (h1 : cn (a :: [u] ++ b :: B) = 1)
    (hd : IsDiag (a :: [u] ++ b :: B) a b) : 0 < area2 a u b := by
  obtain ⟨_, _, s1, _, hcn⟩ := hd.split h
  exact area_of_cn s1 (hcn h1).1

/-- the triangle of an ear contains no other vertex -/
theorem ear_empty {a u b : Vec2 K} {B : List (Vec2 K)} (h : Simple (a :: [u] ++ b :: B)) (h1 : cn (a :: [u] ++ b :: B) = 1)
    (hd : IsDiag (a :: [u] ++ b :: B) a b) {r : Vec2 K} (hr : r ∈ B) : ¬ InT u b a r := by
  intro hT
  obtain ⟨_, hB, s1, _, hcn⟩ := hd.split h
  have c1 := (hcn h1).1
  have hD := ear_area h h1 hd
  have hD1 : 0 < area2 u b a := by rw [area_cyc]; exact hD
  have hD2 : 0 < area2 b a u := by rw [area_cyc]; exact hD1
  have hnd := h.nodup
  simp only [List.cons_append, List.nil_append, List.nodup_cons, List.mem_cons, not_or] at hnd
  obtain ⟨⟨hau, hab, haB⟩, ⟨hub, huB⟩, hbB, _⟩ := hnd
  have hra : r ≠ a := by rintro rfl; exact haB hr
  have hrb : r ≠ b := by rintro rfl; exact hbB hr
  have hru : r ≠ u := by rintro rfl; exact huB hr
  have hrP : r ∈ a :: [u] ++ b :: B := by simp [hr]
  have m1 : (u, b) ∈ ring (a :: [u] ++ b :: B) := by
    rw [ring_split]; simp [pairs]
  have m2 : (a, u) ∈ ring (a :: [u] ++ b :: B) := by
    rw [ring_split]; simp [pairs]
  have f1 : 0 < area2 u b r := by
    refine lt_of_le_of_ne hT.1 fun h0 => ?_
    rcases h.vertex_on_edge hrP m1 (onSeg_edge hD1 h0.symm hT.2.1 hT.2.2) with h3 | h3
    · exact hru h3
    · exact hrb h3
  have f2 : 0 < area2 b a r := by
    refine lt_of_le_of_ne hT.2.1 fun h0 => ?_
    obtain ⟨n, hn⟩ := exists_edge_at h hrP
    rcases (hd.clear _ hn r (onSeg_comm (onSeg_edge hD2 h0.symm hT.2.2 hT.1)) (onSeg_left _ _)).1 with h3 | h3
    · exact hra h3
    · exact hrb h3
  have f3 : 0 < area2 a u r := by
    refine lt_of_le_of_ne hT.2.2 fun h0 => ?_
    rcases h.vertex_on_edge hrP m2 (onSeg_edge hD h0.symm hT.1 hT.2.1) with h3 | h3
    · exact hra h3
    · exact hru h3
  obtain ⟨n, hn⟩ := pairs_edge (S := b :: B) a (List.mem_cons_of_mem _ hr)
  have w0 := chain_outside h h1 hd _ hn r (onSeg_left _ _) hra hrb
  have hrot : (a :: [u] ++ [b]) ~r (u :: [b, a]) := ⟨1, rfl⟩
  have hcy : cyc (ang u b) (ang u r) (ang u a) :=
    cyc_of_areas (Ne.symm hub) hau hru hD1 f1 (by rw [← area_cyc] at f3; exact f3)
  have hne1 : ang u b ≠ ang u r := by intro h; rw [h] at hcy; exact not_cyc_left hcy
  have hne2 : ang u r ≠ ang u a := by intro h; rw [h] at hcy; exact not_cyc_right hcy
  have s1' : Simple (u :: [b, a]) := s1.rotate hrot
  obtain ⟨_, _, q1, q2, _, _, _, hne3⟩ := s1'.at_vertex
  simp at q1 q2
  subst q1 q2
  have hvis : ∀ e ∈ pairs [b, a], Apart r u e.1 e.2 := by
    intro e he z hz hz'
    simp only [pairs, List.mem_singleton] at he
    subst he
    obtain ⟨s, s0, s1, z1, z2⟩ := hz
    have h3 := area_along b a z1 z2
    have h4 := area2_of_onSeg hz'
    simp only at h4
    rw [h4] at h3
    rcases eq_or_lt_of_le s0 with h5 | h5
    · rw [← h5] at h3; linarith
    · have := mul_pos h5 hD2
      have := mul_nonneg (sub_nonneg.2 s1) f2.le
      linarith
  have hW := W_vertex (v := u) (S := [b, a]) (n := b) (p := a) (x := r) rfl rfl (Ne.symm hub) hau hru hvis hne1 hne2.symm
  have hC := cn_cons (v := u) (S := [b, a]) (n := b) (p := a) rfl rfl
  rw [← cn_rotate s1 hrot, c1] at hC
  rw [W_perm (ring_isRotated hrot), hW] at w0
  have i1 := ind_cyc hne1 hne2 hne3
  have i2 := ind_lt_add hne2
  rw [ind_true hcy] at i1
  omega

/-- A diagonal that does not end at the tip of an ear stays a diagonal when the ear is cut off. -/
theorem IsDiag.clip {a u b : Vec2 K} {B : List (Vec2 K)} (h : Simple (a :: [u] ++ b :: B)) (h1 : cn (a :: [u] ++ b :: B) = 1)
    (hd : IsDiag (a :: [u] ++ b :: B) a b) {p q : Vec2 K} (hp : p ∈ b :: B ++ [a]) (hq : q ∈ b :: B ++ [a])
    (hpq : IsDiag (a :: [u] ++ b :: B) p q) (hne1 : ¬ (p = a ∧ q = b)) (hne2 : ¬ (p = b ∧ q = a)) :
    IsDiag (b :: B ++ [a]) p q := by
  obtain ⟨_, hB, s1, s2, hcn⟩ := hd.split h
  have hD := ear_area h h1 hd
  have hD1 : 0 < area2 u b a := by rw [area_cyc]; exact hD
  have hD2 : 0 < area2 b a u := by rw [area_cyc]; exact hD1
  have sub2 : ∀ e ∈ pairs (b :: B ++ [a]), e ∈ ring (a :: [u] ++ b :: B) := fun e he => by
    rw [ring_split]; exact List.mem_append_right _ he
  have m1 : (u, b) ∈ ring (a :: [u] ++ b :: B) := by
    rw [ring_split]; simp [pairs]
  have m2 : (a, u) ∈ ring (a :: [u] ++ b :: B) := by
    rw [ring_split]; simp [pairs]
  have ha0 : area2 b a a = 0 := by simp only [area2_eq]; ring
  have hb0 : area2 b a b = 0 := by simp only [area2_eq]; ring
  have hT : ∀ z, z ∈ b :: B ++ [a] → InT u b a z → z = a ∨ z = b := by
    intro z hz hzT
    simp only [List.cons_append, List.mem_cons, List.mem_append, List.not_mem_nil, or_false] at hz
    rcases hz with hz | hz | hz
    · exact Or.inr hz
    · exact absurd hzT (ear_empty h h1 hd hz)
    · exact Or.inl hz
  have hclear : Clear (ring (b :: B ++ [a])) p q := by
    intro e he x hx hx'
    rw [ring_part, List.mem_append, List.mem_singleton] at he
    rcases he with he | rfl
    · exact hpq.clear e (sub2 e he) x hx hx'
    · simp only at hx' ⊢
      have via1 : x = p ∨ x = q → x = a ∨ x = b := by
        intro h3
        have hxP : x ∈ a :: [u] ++ b :: B := by
          rcases h3 with rfl | rfl
          · exact hpq.left
          · exact hpq.right
        obtain ⟨n, hn⟩ := exists_edge_at h hxP
        exact (hd.clear _ hn x hx' (onSeg_left _ _)).1
      have via2 : x = a ∨ x = b → x = p ∨ x = q := by
        intro h3
        have hxP : x ∈ a :: [u] ++ b :: B := by
          rcases h3 with rfl | rfl <;> simp
        obtain ⟨n, hn⟩ := exists_edge_at h hxP
        exact (hpq.clear _ hn x hx (onSeg_left _ _)).1
      by_cases h3 : x = p ∨ x = q
      · exact ⟨h3, via1 h3⟩
      · exfalso
        have h4 : ¬ (x = a ∨ x = b) := fun h => h3 (via2 h)
        obtain ⟨t, t0, t1, hx1, hx2⟩ := id hx'
        have t0' : 0 < t := by
          refine lt_of_le_of_ne t0 fun h5 => h4 (Or.inl ?_)
          rw [← h5] at hx1 hx2
          exact Vec2.ext (by linear_combination hx1) (by linear_combination hx2)
        have t1' : t < 1 := by
          refine lt_of_le_of_ne t1 fun h5 => h4 (Or.inr ?_)
          rw [h5] at hx1 hx2
          exact Vec2.ext (by linear_combination hx1) (by linear_combination hx2)
        have f0 : 0 < area2 u b x := by
          rw [area_along u b hx1 hx2, show area2 u b b = 0 by simp only [area2_eq]; ring, mul_zero, add_zero]
          exact mul_pos (by linarith) hD1
        have g0 : 0 < area2 a u x := by
          rw [area_along a u hx1 hx2, show area2 a u a = 0 by simp only [area2_eq]; ring, mul_zero, zero_add]
          exact mul_pos t0' hD
        have hx0 : area2 b a x = 0 := by
          rw [area_along b a hx1 hx2, ha0, hb0]; ring
        have fin : ∀ c d, ((c = p ∧ d = q) ∨ (c = q ∧ d = p)) → OnSeg c d x → 0 ≤ area2 b a d → InT u b a d := by
          intro c d hcd hcdx hd0
          by_contra hdT
          obtain ⟨z, hz, hz'⟩ := exit_triangle hD1 f0 g0 hx0.ge hd0 hdT
          have hzcd : OnSeg c d z := onSeg_part hcdx (onSeg_right _ _) hz
          have hzpq : OnSeg p q z := by
            rcases hcd with ⟨rfl, rfl⟩ | ⟨rfl, rfl⟩
            · exact hzcd
            · exact onSeg_comm hzcd
          have hcorner : (z = p ∨ z = q) ∧ (z = u ∨ z = a ∨ z = b) := by
            rcases hz' with hz' | hz'
            · obtain ⟨k1, k2⟩ := hpq.clear _ m1 z hzpq hz'
              exact ⟨k1, k2.imp id Or.inr⟩
            · obtain ⟨k1, k2⟩ := hpq.clear _ m2 z hzpq hz'
              exact ⟨k1, k2.symm.imp id Or.inl⟩
          have hzcd' : z = c ∨ z = d := by
            rcases hcd with ⟨rfl, rfl⟩ | ⟨rfl, rfl⟩
            · exact hcorner.1
            · exact hcorner.1.symm
          rcases hzcd' with rfl | rfl
          · have := onSeg_antisymm (onSeg_comm hcdx) (onSeg_comm hz)
            rcases hcd with ⟨rfl, rfl⟩ | ⟨rfl, rfl⟩
            · exact h3 (Or.inl this)
            · exact h3 (Or.inr this)
          · apply hdT
            rcases hcorner.2 with rfl | rfl | rfl
            · refine ⟨?_, hD2.le, ?_⟩ <;> · simp only [area2_eq]; ring_nf; exact le_rfl
            · refine ⟨hD1.le, ha0.ge, ?_⟩
              simp only [area2_eq]; ring_nf; exact le_rfl
            · refine ⟨?_, hb0.ge, hD.le⟩
              simp only [area2_eq]; ring_nf; exact le_rfl
        have k1 := fin p q (Or.inl ⟨rfl, rfl⟩) hx
        have k2 := fin q p (Or.inr ⟨rfl, rfl⟩) (onSeg_comm hx)
        obtain ⟨s, s0, s1, hs1, hs2⟩ := id hx
        have hs3 := area_along b a hs1 hs2
        rw [hx0] at hs3
        have z2 : area2 b a q ≤ 0 := by
          by_contra hc
          push Not at hc
          rcases hT _ hq (k1 hc.le) with h3 | h3
          · rw [h3, ha0] at hc; exact lt_irrefl _ hc
          · rw [h3, hb0] at hc; exact lt_irrefl _ hc
        have z1 : area2 b a p ≤ 0 := by
          by_contra hc
          push Not at hc
          rcases hT _ hp (k2 hc.le) with h3 | h3
          · rw [h3, ha0] at hc; exact lt_irrefl _ hc
          · rw [h3, hb0] at hc; exact lt_irrefl _ hc
        have p1 : 0 ≤ (1 - s) * -area2 b a p := mul_nonneg (by linarith) (by linarith)
        have p2 : 0 ≤ s * -area2 b a q := mul_nonneg s0 (by linarith)
        have p1' : (1 - s) * area2 b a p = 0 := by linarith
        have p2' : s * area2 b a q = 0 := by linarith
        have q1 : area2 b a p = 0 := by
          rcases mul_eq_zero.1 p1' with h5 | h5
          · exfalso
            have hs : s = 1 := by linarith
            rw [hs] at hs1 hs2
            exact h3 (Or.inr (Vec2.ext (by linear_combination hs1) (by linear_combination hs2)))
          · exact h5
        have q2 : area2 b a q = 0 := by
          rcases mul_eq_zero.1 p2' with h5 | h5
          · exfalso
            rw [h5] at hs1 hs2
            exact h3 (Or.inl (Vec2.ext (by linear_combination hs1) (by linear_combination hs2)))
          · exact h5
        rcases hT _ hp (k2 q1.ge) with e1 | e1 <;> rcases hT _ hq (k1 q2.ge) with e2 | e2
        · exact hpq.ne (e1.trans e2.symm)
        · exact hne1 ⟨e1, e2⟩
        · exact hne2 ⟨e1, e2⟩
        · exact hpq.ne (e1.trans e2.symm)
  have cone_of : ∀ r s, r ≠ a → r ≠ b → Cone (a :: [u] ++ b :: B) r s → Cone (b :: B ++ [a]) r s := by
    intro r s hra hrb hc n m hn hm
    rw [ring_part, List.mem_append, List.mem_singleton] at hn hm
    refine hc n m ?_ ?_
    · rcases hn with hn | hn
      · exact sub2 _ hn
      · exact absurd (Prod.mk.inj hn).1 hra
    · rcases hm with hm | hm
      · exact sub2 _ hm
      · exact absurd (Prod.mk.inj hm).2 hrb
  by_cases hpB : p = a ∨ p = b
  · have hqB : q ≠ a ∧ q ≠ b := by
      constructor
      · rintro rfl
        rcases hpB with rfl | rfl
        · exact hpq.ne rfl
        · exact hne2 ⟨rfl, rfl⟩
      · rintro rfl
        rcases hpB with rfl | rfl
        · exact hne1 ⟨rfl, rfl⟩
        · exact hpq.ne rfl
    exact (isDiag_of s2 hq hp hpq.ne.symm hclear.symm (cone_of q p hqB.1 hqB.2 hpq.cone')).symm
  · push Not at hpB
    exact isDiag_of s2 hp hq hpq.ne hclear (cone_of p q hpB.1 hpB.2 hpq.cone)

end Kami.Simple
