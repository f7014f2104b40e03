import Verif.Geom.Simple.Split
/-!
# Every counter-clockwise simple polygon with more than three vertices has an ear
-/

set_option autoImplicit false
set_option linter.unusedSectionVars false
set_option linter.dupNamespace false

namespace Kami.Simple

open Kami Kami.Pred

variable {K : Type} [Field K] [LinearOrder K] [IsStrictOrderedRing K]

/-! ### triangles -/

/-- in the closed triangle -/
def InT (v a b z : Vec2 K) : Prop := 0 ≤ area2 v a z ∧ 0 ≤ area2 a b z ∧ 0 ≤ area2 b v z

theorem area_sum (v a b z : Vec2 K) : area2 v a z + area2 a b z + area2 b v z = area2 v a b := by
  simp only [area2_eq]; ring

theorem area_along (p q : Vec2 K) {x d z : Vec2 K} {s : K} (h1 : z.x = x.x + s * (d.x - x.x)) (h2 : z.y = x.y + s * (d.y - x.y)) :
    area2 p q z = (1 - s) * area2 p q x + s * area2 p q d := by
  simp only [area2_eq, h1, h2]; ring

theorem onSeg_edge {v a b z : Vec2 K} (hD : 0 < area2 v a b) (h0 : area2 v a z = 0) (h1 : 0 ≤ area2 a b z)
    (h2 : 0 ≤ area2 b v z) : OnSeg v a z := by
  have hs := area_sum v a b z
  have ht : area2 b v z / area2 v a b * area2 v a b = area2 b v z := div_mul_cancel₀ _ hD.ne'
  refine ⟨area2 b v z / area2 v a b, div_nonneg h2 hD.le, (div_le_one hD).2 (by linarith), ?_, ?_⟩
  · apply mul_left_cancel₀ hD.ne'
    have : area2 v a b * (z.x - v.x) = area2 b v z * (a.x - v.x) + area2 v a z * (b.x - v.x) := by
      simp only [area2_eq]; ring
    rw [h0] at this
    linear_combination this + (-(a.x - v.x)) * ht
  · apply mul_left_cancel₀ hD.ne'
    have : area2 v a b * (z.y - v.y) = area2 b v z * (a.y - v.y) + area2 v a z * (b.y - v.y) := by
      simp only [area2_eq]; ring
    rw [h0] at this
    linear_combination this + (-(a.y - v.y)) * ht

theorem zero_at {f0 f1 : K} (h0 : 0 < f0) (h1 : f1 < 0) : ∃ s, 0 < s ∧ s < 1 ∧ (1 - s) * f0 + s * f1 = 0 := by
  have hd : 0 < f0 - f1 := by linarith
  refine ⟨f0 / (f0 - f1), div_pos h0 hd, (div_lt_one hd).2 (by linarith), ?_⟩
  have : f0 / (f0 - f1) * (f0 - f1) = f0 := div_mul_cancel₀ _ hd.ne'
  linear_combination -this

/-- A segment that starts inside the triangle and leaves it without leaving it through `a`–`b` goes through `v`–`a` or
`b`–`v`. -/
theorem exit_triangle {v a b x d : Vec2 K} (hD : 0 < area2 v a b) (f0 : 0 < area2 v a x) (g0 : 0 < area2 b v x)
    (h0 : 0 ≤ area2 a b x) (h1 : 0 ≤ area2 a b d) (hd : ¬ InT v a b d) :
    ∃ z, OnSeg x d z ∧ (OnSeg v a z ∨ OnSeg b v z) := by
  have hD' : 0 < area2 b v a := by rw [area_cyc, area_cyc] ; exact hD
  have key : ∀ s, 0 < s → s < 1 → ∃ z, OnSeg x d z ∧ ∀ p q, area2 p q z = (1 - s) * area2 p q x + s * area2 p q d :=
    fun s s0 s1 => ⟨⟨x.x + s * (d.x - x.x), x.y + s * (d.y - x.y)⟩, ⟨s, s0.le, s1.le, rfl, rfl⟩, fun p q => area_along p q rfl rfl⟩
  have viaF : ∀ s, 0 < s → s < 1 → (1 - s) * area2 v a x + s * area2 v a d = 0 → 0 ≤ (1 - s) * area2 b v x + s * area2 b v d →
      ∃ z, OnSeg x d z ∧ (OnSeg v a z ∨ OnSeg b v z) := by
    intro s s0 s1 e1 e2
    obtain ⟨z, hz, hl⟩ := key s s0 s1
    refine ⟨z, hz, Or.inl (onSeg_edge (b := b) hD ?_ ?_ ?_)⟩
    · rw [hl, e1]
    · rw [hl]; exact add_nonneg (mul_nonneg (by linarith) h0) (mul_nonneg s0.le h1)
    · rw [hl]; exact e2
  have viaG : ∀ s, 0 < s → s < 1 → (1 - s) * area2 b v x + s * area2 b v d = 0 → 0 ≤ (1 - s) * area2 v a x + s * area2 v a d →
      ∃ z, OnSeg x d z ∧ (OnSeg v a z ∨ OnSeg b v z) := by
    intro s s0 s1 e1 e2
    obtain ⟨z, hz, hl⟩ := key s s0 s1
    refine ⟨z, hz, Or.inr (onSeg_edge (b := a) hD' ?_ ?_ ?_)⟩
    · rw [hl, e1]
    · rw [hl]; exact e2
    · rw [hl]; exact add_nonneg (mul_nonneg (by linarith) h0) (mul_nonneg s0.le h1)
  by_cases hf : area2 v a d < 0
  · obtain ⟨s, s0, s1, hs⟩ := zero_at f0 hf
    by_cases hg : 0 ≤ (1 - s) * area2 b v x + s * area2 b v d
    · exact viaF s s0 s1 hs hg
    · have hg1 : area2 b v d < 0 := by
        by_contra hc
        exact hg (add_nonneg (mul_nonneg (by linarith) g0.le) (mul_nonneg s0.le (not_lt.1 hc)))
      obtain ⟨r, r0, r1, hr⟩ := zero_at g0 hg1
      refine viaG r r0 r1 hr ?_
      have hrs : r < s := by
        by_contra hc
        push Not at hc
        apply hg
        have : (1 - s) * area2 b v x + s * area2 b v d = (r - s) * (area2 b v x - area2 b v d) := by
          linear_combination hr
        rw [this]
        exact mul_nonneg (by linarith) (by linarith)
      have : (1 - r) * area2 v a x + r * area2 v a d = (s - r) * (area2 v a x - area2 v a d) := by
        linear_combination hs
      rw [this]
      exact mul_nonneg (by linarith) (by linarith)
  · have hg1 : area2 b v d < 0 := by
      by_contra hc
      exact hd ⟨not_lt.1 hf, h1, not_lt.1 hc⟩
    obtain ⟨r, r0, r1, hr⟩ := zero_at g0 hg1
    exact viaG r r0 r1 hr (add_nonneg (mul_nonneg (by linarith) f0.le) (mul_nonneg r0.le (not_lt.1 hf)))

/-- an edge away from the vertex `v` cannot leave the triangle at `v` -/
theorem exit_contra {v a b : Vec2 K} {S : List (Vec2 K)} (h : Simple (v :: S)) (ha : S.head? = some a) (hb : S.getLast? = some b)
    (hD : 0 < area2 v a b) {e : Vec2 K × Vec2 K} (he : e ∈ pairs S) {c d x : Vec2 K} (hcd : e = (c, d) ∨ e = (d, c))
    (hx : OnSeg c d x) (hxc : x ≠ c) (f0 : 0 < area2 v a x) (g0 : 0 < area2 b v x) (h0 : 0 ≤ area2 a b x)
    (h1 : 0 ≤ area2 a b d) (hd : ¬ InT v a b d) : False := by
  obtain ⟨z, hz, hz'⟩ := exit_triangle hD f0 g0 h0 h1 hd
  have hr := ring_cons (v := v) ha hb
  have hvS := (List.nodup_cons.1 h.nodup).1
  have hme : e ∈ ring (v :: S) := by rw [hr]; simp [he]
  have hm := mem_pairs he
  have hzcd : OnSeg c d z := onSeg_part hx (onSeg_right _ _) hz
  have hze : OnSeg e.1 e.2 z := by
    rcases hcd with rfl | rfl
    · exact hzcd
    · exact onSeg_comm hzcd
  have hcorner : (z = a ∨ z = b) ∧ (z = e.1 ∨ z = e.2) := by
    rcases hz' with hz' | hz'
    · have m1 : (v, a) ∈ ring (v :: S) := by rw [hr]; simp
      have hne : ((v, a) : Vec2 K × Vec2 K) ≠ e := by rintro rfl; exact hvS hm.1
      rcases h.meet _ m1 _ hme hne z hz' hze with h3 | h3
      · exact ⟨Or.inl h3.1, Or.inl h3.2⟩
      · exact absurd (by rw [show v = e.2 from h3.1.symm.trans h3.2]; exact hm.2) hvS
    · have m1 : (b, v) ∈ ring (v :: S) := by rw [hr]; simp
      have hne : ((b, v) : Vec2 K × Vec2 K) ≠ e := by rintro rfl; exact hvS hm.2
      rcases h.meet _ m1 _ hme hne z hz' hze with h3 | h3
      · exact absurd (by rw [show v = e.1 from h3.1.symm.trans h3.2]; exact hm.1) hvS
      · exact ⟨Or.inr h3.1, Or.inr h3.2⟩
  have hzcd' : z = c ∨ z = d := by
    rcases hcd with rfl | rfl
    · exact hcorner.2
    · exact hcorner.2.symm
  rcases hzcd' with rfl | rfl
  · exact hxc (onSeg_antisymm (onSeg_comm hx) (onSeg_comm hz))
  · apply hd
    rcases hcorner.1 with rfl | rfl
    · refine ⟨by simp [area2_eq], by simp [area2_eq], ?_⟩
      rw [area_cyc, area_cyc]; exact hD.le
    · refine ⟨hD.le, ?_, ?_⟩
      · simp only [area2_eq]; ring_nf; exact le_rfl
      · simp only [area2_eq]; ring_nf; exact le_rfl

theorem exists_max {α : Type} (f : α → K) (P : α → Prop) (l : List α) (h : ∃ q ∈ l, P q) :
    ∃ q ∈ l, P q ∧ ∀ u ∈ l, P u → f u ≤ f q := by
  induction l with
  | nil => obtain ⟨q, hq, _⟩ := h; cases hq
  | cons a l ih =>
    by_cases hl : ∃ q ∈ l, P q
    · obtain ⟨q, hq, hP, hmax⟩ := ih hl
      by_cases hc : P a ∧ f q < f a
      · refine ⟨a, by simp, hc.1, fun u hu hPu => ?_⟩
        rcases List.mem_cons.1 hu with rfl | hu
        · exact le_rfl
        · exact (hmax u hu hPu).trans hc.2.le
      · refine ⟨q, List.mem_cons_of_mem _ hq, hP, fun u hu hPu => ?_⟩
        rcases List.mem_cons.1 hu with rfl | hu
        · exact not_lt.1 fun h => hc ⟨hPu, h⟩
        · exact hmax u hu hPu
    · obtain ⟨q, hq, hP⟩ := h
      rcases List.mem_cons.1 hq with rfl | hq
      · refine ⟨q, by simp, hP, fun u hu hPu => ?_⟩
        rcases List.mem_cons.1 hu with rfl | hu
        · exact le_rfl
        · exact absurd ⟨u, hu, hPu⟩ hl
      · exact absurd ⟨q, hq, hP⟩ hl

/-- a direction strictly inside a turn of less than half a circle -/
theorem areas_of_cyc {a b v n : Vec2 K} (hb : b ≠ a) (hv : v ≠ a) (hn : n ≠ a) (hD : 0 < area2 a b v)
    (hc : cyc (ang a b) (ang a n) (ang a v)) : 0 < area2 a b n ∧ 0 < area2 a n v := by
  rw [area_pos_iff hb hv] at hD
  rw [area_pos_iff hb hn, area_pos_iff hn hv]
  obtain ⟨b0, b1⟩ := ang_bounds hb
  obtain ⟨v0, v1⟩ := ang_bounds hv
  obtain ⟨n0, n1⟩ := ang_bounds hn
  rcases hD with ⟨h1, h2⟩ | h1 <;> rcases hc with ⟨h3, h4⟩ | ⟨h3, h4⟩ | ⟨h3, h4⟩ <;> constructor <;>
  first
    | exact Or.inl ⟨by linarith, by linarith⟩
    | exact Or.inr (by linarith)

theorem cyc_of_areas {a b v n : Vec2 K} (hb : b ≠ a) (hv : v ≠ a) (hn : n ≠ a) (hD : 0 < area2 a b v)
    (h1 : 0 < area2 a b n) (h2 : 0 < area2 a n v) : cyc (ang a b) (ang a n) (ang a v) := by
  rw [area_pos_iff hb hv] at hD
  rw [area_pos_iff hb hn] at h1
  rw [area_pos_iff hn hv] at h2
  obtain ⟨b0, b1⟩ := ang_bounds hb
  obtain ⟨v0, v1⟩ := ang_bounds hv
  obtain ⟨n0, n1⟩ := ang_bounds hn
  unfold cyc
  rcases hD with ⟨h3, h4⟩ | h3 <;> rcases h1 with ⟨h5, h6⟩ | h5 <;> rcases h2 with ⟨h7, h8⟩ | h7 <;>
  first
    | exact Or.inl ⟨by linarith, by linarith⟩
    | exact Or.inr (Or.inl ⟨by linarith, by linarith⟩)
    | exact Or.inr (Or.inr ⟨by linarith, by linarith⟩)

theorem cyc_or {x y z : K} (h1 : x ≠ y) (h2 : y ≠ z) (h3 : x ≠ z) : cyc x y z ∨ cyc y x z := by
  unfold cyc
  rcases lt_or_gt_of_ne h1 with a | a <;> rcases lt_or_gt_of_ne h2 with b | b <;> rcases lt_or_gt_of_ne h3 with c | c <;> tauto

/-- Case of a vertex inside the triangle at the top vertex. -/
theorem diag_inner {v a b : Vec2 K} {S : List (Vec2 K)} (h : Simple (v :: S)) (ha : S.head? = some a) (hb : S.getLast? = some b)
    (hD : 0 < area2 v a b) (hq : ∃ q ∈ S, (q ≠ a ∧ q ≠ b) ∧ InT v a b q) : ∃ p q, IsDiag (v :: S) p q := by
  obtain ⟨q, hqS, ⟨⟨hqa, hqb⟩, hT⟩, hmax⟩ := exists_max (fun q => area2 a b q) (fun q => (q ≠ a ∧ q ≠ b) ∧ InT v a b q) S hq
  have hr := ring_cons (v := v) ha hb
  have hvS := (List.nodup_cons.1 h.nodup).1
  have hqv : q ≠ v := by rintro rfl; exact hvS hqS
  have hav : a ≠ v := by rintro rfl; exact hvS (List.mem_of_head? ha)
  have hbv : b ≠ v := by rintro rfl; exact hvS (List.mem_of_getLast? hb)
  have m1 : (v, a) ∈ ring (v :: S) := by rw [hr]; simp
  have m2 : (b, v) ∈ ring (v :: S) := by rw [hr]; simp
  have hqm : q ∈ v :: S := List.mem_cons_of_mem _ hqS
  have hD' : 0 < area2 b v a := by rw [area_cyc, area_cyc]; exact hD
  have f0 : 0 < area2 v a q := by
    rcases eq_or_lt_of_le hT.1 with h0 | h0
    · exfalso
      rcases h.vertex_on_edge hqm m1 (onSeg_edge hD h0.symm hT.2.1 hT.2.2) with h3 | h3
      · exact hqv h3
      · exact hqa h3
    · exact h0
  have g0 : 0 < area2 b v q := by
    rcases eq_or_lt_of_le hT.2.2 with h0 | h0
    · exfalso
      rcases h.vertex_on_edge hqm m2 (onSeg_edge hD' h0.symm hT.1 hT.2.1) with h3 | h3
      · exact hqb h3
      · exact hqv h3
    · exact h0
  have hsum := area_sum v a b q
  have av : area2 v a v = 0 := by simp only [area2_eq]; ring
  have bv : area2 b v v = 0 := by simp only [area2_eq]; ring
  have abv : area2 a b v = area2 v a b := (area_cyc _ _ _)
  refine ⟨v, q, isDiag_of h (by simp) hqm hqv.symm ?_ ?_⟩
  · intro e he x hx hx'
    obtain ⟨t, t0, t1, hx1, hx2⟩ := hx
    have fx := area_along v a hx1 hx2
    have gx := area_along b v hx1 hx2
    have hx3 := area_along a b hx1 hx2
    rw [av, mul_zero, zero_add] at fx
    rw [bv, mul_zero, zero_add] at gx
    have hxv0 : t = 0 → x = v := by
      intro ht; rw [ht] at hx1 hx2
      exact Vec2.ext (by linear_combination hx1) (by linear_combination hx2)
    have he0 := he
    rw [hr] at he
    simp only [List.mem_cons, List.mem_append, List.not_mem_nil, or_false] at he
    rcases he with rfl | he | rfl
    · have : t = 0 := by
        have h0 := area2_of_onSeg hx'
        simp only at h0
        rw [fx] at h0
        exact (mul_eq_zero.1 h0).resolve_right f0.ne'
      have := hxv0 this
      exact ⟨Or.inl this, Or.inl this⟩
    · have hm := mem_pairs he
      by_cases hxq : x = q
      · exact ⟨Or.inr hxq, h.vertex_on_edge (by rw [hxq]; exact hqm) he0 hx'⟩
      · exfalso
        have t0' : 0 < t := by
          rcases eq_or_lt_of_le t0 with h0 | h0
          · exfalso
            have hxv := hxv0 h0.symm
            rcases h.vertex_on_edge (u := x) (by rw [hxv]; simp) he0 hx' with h3 | h3
            · exact hvS (by rw [← hxv, h3]; exact hm.1)
            · exact hvS (by rw [← hxv, h3]; exact hm.2)
          · exact h0
        have t1' : t < 1 := by
          rcases eq_or_lt_of_le t1 with h0 | h0
          · exfalso
            rw [h0] at hx1 hx2
            exact hxq (Vec2.ext (by linear_combination hx1) (by linear_combination hx2))
          · exact h0
        have fx0 : 0 < area2 v a x := by rw [fx]; positivity
        have gx0 : 0 < area2 b v x := by rw [gx]; positivity
        have hxq' : area2 a b q < area2 a b x := by
          rw [hx3, abv]
          have : 0 < (1 - t) * (area2 v a b - area2 a b q) := mul_pos (by linarith) (by linarith)
          linarith
        have hx0 : 0 < area2 a b x := lt_of_le_of_lt hT.2.1 hxq'
        -- an end of the edge at least as high as `x`
        have fin : ∀ c d, (e = (c, d) ∨ e = (d, c)) → OnSeg c d x → area2 a b x ≤ area2 a b d → False := by
          intro c d hcd hcdx hle
          have hdS : d ∈ S := by rcases hcd with h3 | h3 <;> rw [h3] at hm <;> first | exact hm.2 | exact hm.1
          have hcS : c ∈ S := by rcases hcd with h3 | h3 <;> rw [h3] at hm <;> first | exact hm.2 | exact hm.1
          have hdT : ¬ InT v a b d := by
            intro hdT
            by_cases hda : d = a
            · rw [hda] at hle
              have : area2 a b a = 0 := by simp only [area2_eq]; ring
              linarith
            · by_cases hdb : d = b
              · rw [hdb] at hle
                have : area2 a b b = 0 := by simp only [area2_eq]; ring
                linarith
              · have := hmax d hdS ⟨⟨hda, hdb⟩, hdT⟩
                linarith
          by_cases hxc : x = c
          · -- then `x` is a vertex in the triangle above `q`
            have h4 : x ≠ a := by
              rintro rfl
              have : area2 x b x = 0 := by simp only [area2_eq]; ring
              linarith
            have h5 : x ≠ b := by
              rintro rfl
              have : area2 a x x = 0 := by simp only [area2_eq]; ring
              linarith
            have := hmax x (by rw [hxc]; exact hcS) ⟨⟨h4, h5⟩, ⟨fx0.le, hx0.le, gx0.le⟩⟩
            linarith
          · exact exit_contra h ha hb hD he hcd hcdx hxc fx0 gx0 hx0.le (by linarith) hdT
        obtain ⟨s, s0, s1, hs1, hs2⟩ := id hx'
        have hs3 := area_along a b hs1 hs2
        by_cases hle : area2 a b x ≤ area2 a b e.2
        · exact fin e.1 e.2 (Or.inl rfl) hx' hle
        · refine fin e.2 e.1 (Or.inr rfl) (onSeg_comm hx') ?_
          push Not at hle
          by_contra hc
          push Not at hc
          have k1 : 0 ≤ (1 - s) * (area2 a b x - area2 a b e.1) := mul_nonneg (by linarith) (by linarith)
          have k2 : 0 ≤ s * (area2 a b x - area2 a b e.2) := mul_nonneg s0 (by linarith)
          have k3 : (1 - s) * (area2 a b x - area2 a b e.1) + s * (area2 a b x - area2 a b e.2) = 0 := by
            linear_combination hs3
          rcases eq_or_lt_of_le s0 with h0 | h0
          · rw [← h0] at k3; linarith
          · have := mul_pos h0 (sub_pos.2 hle); linarith
    · have : t = 0 := by
        have h0 := area2_of_onSeg hx'
        simp only at h0
        rw [gx] at h0
        exact (mul_eq_zero.1 h0).resolve_right g0.ne'
      have := hxv0 this
      exact ⟨Or.inl this, Or.inr this⟩
  · rw [cone_cons h.nodup ha hb]
    refine cyc_of_areas hav hbv hqv hD f0 ?_
    rw [area_cyc]; exact g0

/-- Case without a vertex inside the triangle at the top vertex. -/
theorem diag_outer {v a b : Vec2 K} {M : List (Vec2 K)} (h : Simple (v :: a :: (M ++ [b]))) (hM : M ≠ [])
    (hD : 0 < area2 v a b) (hq : ∀ q ∈ M, ¬ InT v a b q) : IsDiag (v :: a :: (M ++ [b])) a b := by
  have ha : (a :: (M ++ [b])).head? = some a := rfl
  have hb : (a :: (M ++ [b])).getLast? = some b := by rw [← List.cons_append]; exact List.getLast?_concat
  have hr := ring_cons (v := v) ha hb
  have hnd := h.nodup
  simp only [List.nodup_cons, List.mem_cons, List.mem_append, List.not_mem_nil, or_false, not_or] at hnd
  obtain ⟨⟨hva, hvM, hvb⟩, ⟨haM, hab⟩, hnM⟩ := hnd
  have hbM : b ∉ M := fun hb => (List.nodup_append.1 hnM).2.2 b hb b (by simp) rfl
  have hD' : 0 < area2 b v a := by rw [area_cyc, area_cyc]; exact hD
  have aa : area2 v a a = 0 := by simp only [area2_eq]; ring
  have bb : area2 b v b = 0 := by simp only [area2_eq]; ring
  have ha0 : area2 a b a = 0 := by simp only [area2_eq]; ring
  have hb0 : area2 a b b = 0 := by simp only [area2_eq]; ring
  have hclear : Clear (ring (v :: a :: (M ++ [b]))) a b := by
    intro e he x hx hx'
    obtain ⟨t, t0, t1, hx1, hx2⟩ := hx
    have fx := area_along v a hx1 hx2
    have gx := area_along b v hx1 hx2
    have hx3 := area_along a b hx1 hx2
    rw [aa, mul_zero, zero_add] at fx
    rw [bb, mul_zero, add_zero] at gx
    rw [ha0, hb0, mul_zero, mul_zero, add_zero] at hx3
    have hxa0 : t = 0 → x = a := by
      intro ht; rw [ht] at hx1 hx2
      exact Vec2.ext (by linear_combination hx1) (by linear_combination hx2)
    have hxb0 : t = 1 → x = b := by
      intro ht; rw [ht] at hx1 hx2
      exact Vec2.ext (by linear_combination hx1) (by linear_combination hx2)
    have he0 := he
    rw [hr] at he
    simp only [List.mem_cons, List.mem_append, List.not_mem_nil, or_false] at he
    rcases he with rfl | he | rfl
    · have : t = 0 := by
        have h0 := area2_of_onSeg hx'
        simp only at h0
        rw [fx] at h0
        exact (mul_eq_zero.1 h0).resolve_right hD.ne'
      have := hxa0 this
      exact ⟨Or.inl this, Or.inr this⟩
    · have hm := mem_pairs he
      by_cases hxab : x = a ∨ x = b
      · refine ⟨hxab, h.vertex_on_edge ?_ he0 hx'⟩
        rcases hxab with rfl | rfl <;> simp
      · exfalso
        push Not at hxab
        have t0' : 0 < t := lt_of_le_of_ne t0 fun h => hxab.1 (hxa0 h.symm)
        have t1' : t < 1 := lt_of_le_of_ne t1 fun h => hxab.2 (hxb0 h)
        have fx0 : 0 < area2 v a x := by rw [fx]; positivity
        have gx0 : 0 < area2 b v x := by rw [gx]; exact mul_pos (by linarith) hD'
        have hT : ∀ u, u ∈ a :: (M ++ [b]) → InT v a b u → u = a ∨ u = b := by
          intro u hu huT
          simp only [List.mem_cons, List.mem_append, List.not_mem_nil, or_false] at hu
          rcases hu with hu | hu | hu
          · exact Or.inl hu
          · exact absurd huT (hq u hu)
          · exact Or.inr hu
        have hxT : InT v a b x := ⟨fx0.le, hx3.ge, gx0.le⟩
        have fin : ∀ c d, c ∈ a :: (M ++ [b]) → (e = (c, d) ∨ e = (d, c)) → OnSeg c d x → 0 ≤ area2 a b d → InT v a b d := by
          intro c d hc hcd hcdx hd0
          by_contra hdT
          refine exit_contra h ha hb hD he hcd hcdx ?_ fx0 gx0 hx3.ge hd0 hdT
          rintro rfl
          rcases hT x hc hxT with h3 | h3
          · exact hxab.1 h3
          · exact hxab.2 h3
        have k1 := fin e.1 e.2 hm.1 (Or.inl rfl) hx'
        have k2 := fin e.2 e.1 hm.2 (Or.inr rfl) (onSeg_comm hx')
        obtain ⟨s, s0, s1, hs1, hs2⟩ := id hx'
        have hs3 := area_along a b hs1 hs2
        rw [hx3] at hs3
        have z2 : area2 a b e.2 ≤ 0 := by
          by_contra hc
          push Not at hc
          rcases hT _ hm.2 (k1 hc.le) with h3 | h3
          · rw [h3, ha0] at hc; exact lt_irrefl _ hc
          · rw [h3, hb0] at hc; exact lt_irrefl _ hc
        have z1 : area2 a b e.1 ≤ 0 := by
          by_contra hc
          push Not at hc
          rcases hT _ hm.1 (k2 hc.le) with h3 | h3
          · rw [h3, ha0] at hc; exact lt_irrefl _ hc
          · rw [h3, hb0] at hc; exact lt_irrefl _ hc
        have p1 : 0 ≤ (1 - s) * -area2 a b e.1 := mul_nonneg (by linarith) (by linarith)
        have p2 : 0 ≤ s * -area2 a b e.2 := mul_nonneg s0 (by linarith)
        have p1' : (1 - s) * area2 a b e.1 = 0 := by linarith
        have p2' : s * area2 a b e.2 = 0 := by linarith
        have endx : ∀ u, u ∈ a :: (M ++ [b]) → x = u → False := by
          rintro u hu rfl
          rcases hT x hu hxT with h3 | h3
          · exact hxab.1 h3
          · exact hxab.2 h3
        have q1 : area2 a b e.1 = 0 := by
          rcases mul_eq_zero.1 p1' with h3 | h3
          · exfalso
            have hs : s = 1 := by linarith
            rw [hs] at hs1 hs2
            exact endx e.2 hm.2 (Vec2.ext (by linear_combination hs1) (by linear_combination hs2))
          · exact h3
        have q2 : area2 a b e.2 = 0 := by
          rcases mul_eq_zero.1 p2' with h3 | h3
          · exfalso
            rw [h3] at hs1 hs2
            exact endx e.1 hm.1 (Vec2.ext (by linear_combination hs1) (by linear_combination hs2))
          · exact h3
        have e1 := hT _ hm.1 (k2 q1.ge)
        have e2 := hT _ hm.2 (k1 q2.ge)
        have hne := h.edge_ne he0
        obtain ⟨m0, hm0⟩ := exists_head hM
        rcases e1 with e1 | e1
        · rcases e2 with e2 | e2
          · exact hne (e1.trans e2.symm)
          · rw [pairs_cons (head_concat b hm0)] at he
            rcases List.mem_cons.1 he with he | he
            · rw [he] at e2
              exact hbM (by rw [← show m0 = b from e2]; exact List.mem_of_head? hm0)
            · have := (mem_pairs he).1
              rw [e1, List.mem_append, List.mem_singleton] at this
              rcases this with h3 | h3
              · exact haM h3
              · exact hab h3
        · have he' : e ∈ pairs ((a :: M) ++ [b]) := he
          have := mem_pairs_init he'
          rw [e1] at this
          rcases List.mem_cons.1 this with h3 | h3
          · exact hab h3.symm
          · exact hbM h3
    · have : t = 1 := by
        have h0 := area2_of_onSeg hx'
        simp only at h0
        rw [gx] at h0
        have := (mul_eq_zero.1 h0).resolve_right hD'.ne'
        linarith
      have := hxb0 this
      exact ⟨Or.inr this, Or.inl this⟩
  refine isDiag_of h (by simp) (by simp) hab hclear ?_
  have hrot : (v :: a :: (M ++ [b])) ~r (a :: M ++ b :: [v]) := ⟨1, by simp⟩
  have h' := h.rotate hrot
  have hs' : ∀ e ∈ ring (a :: M ++ b :: [v]), e ∈ ring (v :: a :: (M ++ [b])) := fun e he => (ring_isRotated hrot).mem_iff.2 he
  have hs : ∀ e ∈ ring (v :: a :: (M ++ [b])), e ∈ ring (a :: M ++ b :: [v]) := fun e he => (ring_isRotated hrot).mem_iff.1 he
  obtain ⟨n, hn⟩ := exists_head hM
  obtain ⟨_, d1, d2, d3⟩ := cn_split h' hM (by simp) (hclear.mono hs') hn (p := v) rfl
  have hnM' := List.mem_of_head? hn
  have hna : n ≠ a := by rintro rfl; exact haM hnM'
  have hnb : n ≠ b := by rintro rfl; exact hbM hnM'
  have hnext : (v :: a :: (M ++ [b])).Nodup := h.nodup
  have hcone : cyc (ang a n) (ang a b) (ang a v) := by
    rcases cyc_or d1 d2 d3 with h3 | h3
    · exact h3
    · exfalso
      have hDa : 0 < area2 a b v := by rw [area_cyc]; exact hD
      obtain ⟨k1, k2⟩ := areas_of_cyc (Ne.symm hab) hva hna hDa h3
      have k2' : 0 < area2 v a n := by rw [← area_cyc]; exact k2
      have hg : area2 b v n < 0 := by
        by_contra hc
        push Not at hc
        exact hq n hnM' ⟨k2'.le, k1.le, hc⟩
      obtain ⟨s, s0, s1, hs1⟩ := zero_at hD' hg
      have hz : OnSeg a n ⟨a.x + s * (n.x - a.x), a.y + s * (n.y - a.y)⟩ := ⟨s, s0.le, s1.le, rfl, rfl⟩
      have z1 := area_along (x := a) (d := n) (z := ⟨a.x + s * (n.x - a.x), a.y + s * (n.y - a.y)⟩) b v rfl rfl
      have z2 := area_along (x := a) (d := n) (z := ⟨a.x + s * (n.x - a.x), a.y + s * (n.y - a.y)⟩) v a rfl rfl
      have z3 := area_along (x := a) (d := n) (z := ⟨a.x + s * (n.x - a.x), a.y + s * (n.y - a.y)⟩) a b rfl rfl
      generalize (⟨a.x + s * (n.x - a.x), a.y + s * (n.y - a.y)⟩ : Vec2 K) = z at hz z1 z2 z3
      rw [hs1] at z1
      rw [aa, mul_zero, zero_add] at z2
      rw [ha0, mul_zero, zero_add] at z3
      have hz' : OnSeg b v z := onSeg_edge hD' z1 (by rw [z2]; positivity) (by rw [z3]; positivity)
      have m1 : (a, n) ∈ ring (v :: a :: (M ++ [b])) := by
        rw [hr, pairs_cons (head_concat b hn)]; simp
      have m2 : (b, v) ∈ ring (v :: a :: (M ++ [b])) := by rw [hr]; simp
      have hne : ((a, n) : Vec2 K × Vec2 K) ≠ (b, v) := fun h => hab (Prod.mk.inj h).1
      rcases h.meet _ m1 _ m2 hne z hz hz' with h4 | h4
      · exact hnb (h4.1.symm.trans h4.2)
      · exact hva (h4.2.symm.trans h4.1)
  refine Cone.mono ?_ hs
  exact (cone_cons (S := M ++ b :: [v]) h'.nodup (head_append _ hn) (last_append M (by rfl))).2 hcone

theorem area_top {v n p : Vec2 K} (hn : n.y < v.y ∨ (n.y = v.y ∧ v.x < n.x)) (hp : p.y < v.y ∨ (p.y = v.y ∧ v.x < p.x))
    (h : ang v n < ang v p) : 0 < area2 v n p := by
  have key : ∀ u : Vec2 K, (u.y < v.y ∨ (u.y = v.y ∧ v.x < u.x)) → u ≠ v ∧ 2 < ang v u := by
    intro u hu
    have hne : u ≠ v := by
      rintro rfl
      rcases hu with h | h
      · exact lt_irrefl _ h
      · exact lt_irrefl _ h.2
    refine ⟨hne, not_le.1 ?_⟩
    rw [ang_le_two hne]
    rintro (h1 | h1) <;> rcases hu with h2 | h2
    · exact lt_irrefl _ (h1.trans h2)
    · rw [h2.1] at h1; exact lt_irrefl _ h1
    · rw [h1.1] at h2; exact lt_irrefl _ h2
    · exact lt_irrefl _ (h1.2.trans h2.2)
  obtain ⟨hnv, n2⟩ := key n hn
  obtain ⟨hpv, p2⟩ := key p hp
  rw [area_pos_iff hnv hpv]
  obtain ⟨_, p4⟩ := ang_bounds hpv
  exact Or.inl ⟨h, by linarith⟩

/-- the turn at the top vertex of a counter-clockwise simple polygon -/
theorem Simple.top_area {l : List (Vec2 K)} (h : Simple l) (h1 : cn l = 1) : ∃ v S n p, l ~r v :: S ∧ S.head? = some n ∧
    S.getLast? = some p ∧ 0 < area2 v n p := by
  obtain ⟨v, S, hS, hlow, hc⟩ := h.top
  obtain ⟨n, p, hn, hp, _⟩ := (h.rotate hS).at_vertex
  refine ⟨v, S, n, p, hS, hn, hp, area_top (hlow n (List.mem_of_head? hn)) (hlow p (List.mem_of_getLast? hp)) ?_⟩
  by_contra hlt
  rw [hc n p hn hp, ind_false hlt] at h1
  omega

/-- Every counter-clockwise simple polygon with more than three vertices has a diagonal. -/
theorem exists_diag {l : List (Vec2 K)} (h : Simple l) (h1 : cn l = 1) (h4 : 4 ≤ l.length) : ∃ p q, IsDiag l p q := by
  obtain ⟨v, S, a, b, hS, ha, hb, hD⟩ := h.top_area h1
  have h' := h.rotate hS
  suffices ∃ p q, IsDiag (v :: S) p q by
    obtain ⟨p, q, hd⟩ := this
    exact ⟨p, q, hd.rotate hS.symm⟩
  by_cases hq : ∃ q ∈ S, (q ≠ a ∧ q ≠ b) ∧ InT v a b q
  · exact diag_inner h' ha hb hD hq
  · have hlen : 3 ≤ S.length := by
      have := hS.perm.length_eq
      simp at this; omega
    obtain ⟨T, rfl⟩ := List.getLast?_eq_some_iff.1 hb
    rcases T with _ | ⟨a', M⟩
    · simp at hlen
    · simp only [List.cons_append, List.head?_cons, Option.some.injEq] at ha
      subst ha
      have hM : M ≠ [] := by rintro rfl; simp at hlen
      refine ⟨a', b, diag_outer h' hM hD ?_⟩
      intro q hqM hqT
      have hnd := h'.nodup
      simp only [List.cons_append, List.nodup_cons, List.mem_cons, List.mem_append, List.not_mem_nil, or_false, not_or] at hnd
      obtain ⟨_, ⟨haM, _⟩, hnM⟩ := hnd
      refine hq ⟨q, by simp [hqM], ⟨?_, ?_⟩, hqT⟩
      · rintro rfl; exact haM hqM
      · rintro rfl; exact (List.nodup_append.1 hnM).2.2 q hqM q (by simp) rfl

/-- Every counter-clockwise simple polygon with more than three vertices has an ear away from its first and last vertex
in the list. -/
theorem exists_ear {l : List (Vec2 K)} (h : Simple l) (h1 : cn l = 1) (h4 : 4 ≤ l.length) :
    ∃ X p u q Y, l = X ++ p :: u :: q :: Y ∧ IsDiag l p q := by
  obtain ⟨N, hN⟩ : ∃ N, l.length ≤ N := ⟨_, le_rfl⟩
  induction N generalizing l with
  | zero => omega
  | succ N ih =>
    obtain ⟨X, p, A, q, Y, rfl, hd⟩ : ∃ X p A q Y, l = X ++ (p :: A ++ q :: Y) ∧ IsDiag l p q := by
      obtain ⟨p, q, hd⟩ := exists_diag h h1 h4
      obtain ⟨X, R, rfl⟩ := List.append_of_mem hd.left
      rcases List.mem_append.1 hd.right with hq | hq
      · obtain ⟨X1, A, rfl⟩ := List.append_of_mem hq
        exact ⟨X1, q, A, p, R, by simp, hd.symm⟩
      · rcases List.mem_cons.1 hq with hq | hq
        · exact absurd hq.symm hd.ne
        · obtain ⟨A, Y, rfl⟩ := List.append_of_mem hq
          exact ⟨X, p, A, q, Y, by simp, hd⟩
    have hrot : (X ++ (p :: A ++ q :: Y)) ~r (p :: A ++ q :: (Y ++ X)) := by
      have : p :: A ++ q :: (Y ++ X) = (p :: A ++ q :: Y) ++ X := by simp
      rw [this]; exact List.isRotated_append
    have h' := h.rotate hrot
    have hd' := hd.rotate hrot
    have h1' : cn (p :: A ++ q :: (Y ++ X)) = 1 := by rw [← cn_rotate h hrot, h1]
    obtain ⟨hA, hB, s1, _, hcn⟩ := hd'.split h'
    rcases A with _ | ⟨u, _ | ⟨u', A⟩⟩
    · exact absurd rfl hA
    · exact ⟨X, p, u, q, Y, by simp, hd⟩
    · have hlt : (p :: (u :: u' :: A) ++ [q]).length ≤ N := by
        have := List.length_pos_of_ne_nil hB
        simp at hN this ⊢; omega
      obtain ⟨X', p', w, q', Y', he, hd2⟩ := ih s1 (hcn h1').1 (by simp) hlt
      refine ⟨X ++ X', p', w, q', Y' ++ Y, ?_, (IsDiag.lift h' h1' hd' hd2).rotate hrot.symm⟩
      calc X ++ (p :: (u :: u' :: A) ++ q :: Y) = X ++ ((p :: (u :: u' :: A) ++ [q]) ++ Y) := by simp
        _ = X ++ ((X' ++ p' :: w :: q' :: Y') ++ Y) := by rw [he]
        _ = _ := by simp

end Kami.Simple
