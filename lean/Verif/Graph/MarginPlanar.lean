import Verif.Graph.MarginF32
/-!
# C117: the f32 drawing is planar

With the margins of C116, the f32 graph, drawn with straight segments between its f32 positions, is a planar drawing.
-/

set_option autoImplicit false

namespace Kami.Graph

open Kami Kami.F32 Kami.Simple Kami.DistF32 Kami.Margin
open scoped Kami
open PlanarGraph
open Kami.UtilThm (dst crs dt OnSegR dst_nonneg dst_comm dst_triangle dst_eq_zero)

variable {T U : Type}

noncomputable section

/-! ## Specification -/

/-- the position of a node of an f32 graph as a point of the plane -/
def spot (h : PlanarGraph F32 T U) (i : ℕ) : ℝ × ℝ :=
  match h.nodes[i]? with
  | some b => rpos b.position
  | none => (0, 0)

/-- The f32 graph is drawn in the plane without crossings: different nodes are at different places, different edges have only common end
nodes in common, and an edge contains no nodes other than its ends. -/
structure DrawnPlanar (h : PlanarGraph F32 T U) : Prop where
  inj : ∀ i j, i < h.nodes.length → j < h.nodes.length → spot h i = spot h j → i = j
  meet : ∀ (k l : ℕ) (e f : Edge U), h.edges[k]? = some e → h.edges[l]? = some f → k ≠ l →
    ∀ y, OnSegR (spot h e.src) (spot h e.dst) y → OnSegR (spot h f.src) (spot h f.dst) y →
      ∃ i, (i = e.src ∨ i = e.dst) ∧ (i = f.src ∨ i = f.dst) ∧ y = spot h i
  node : ∀ e ∈ h.edges, ∀ i, i < h.nodes.length → OnSegR (spot h e.src) (spot h e.dst) (spot h i) → i = e.src ∨ i = e.dst

/-! ## Disjoint pieces are apart -/

/-- parts of one segment -/
theorem apart_line {A C a b c d z w : ℝ × ℝ} {m : ℝ} (ha : OnSegR A C a) (hb : OnSegR A C b) (hc : OnSegR A C c) (hd : OnSegR A C d)
    (hno : ∀ y, OnSegR a b y → ¬ OnSegR c d y) (h1 : m ≤ dst a c) (h2 : m ≤ dst a d) (h3 : m ≤ dst b c) (h4 : m ≤ dst b d)
    (hz : OnSegR a b z) (hw : OnSegR c d w) : m ≤ dst z w := by
  obtain ⟨ta, _, _, rfl⟩ := onSeg_at'.1 ha
  obtain ⟨tb, _, _, rfl⟩ := onSeg_at'.1 hb
  obtain ⟨tc, _, _, rfl⟩ := onSeg_at'.1 hc
  obtain ⟨td, _, _, rfl⟩ := onSeg_at'.1 hd
  obtain ⟨x, x0, x1, rfl⟩ := onSeg_at'.1 hz
  obtain ⟨y, y0, y1, rfl⟩ := onSeg_at'.1 hw
  have hd : ∀ t r, dst (at' A C t) (at' A C r) = |t - r| * dst A C := by
    intro t r
    rw [dst_scale (at' A C t) (at' A C r) (C.1 - A.1, C.2 - A.2) (r - t) (by simp only [at']; ring) (by simp only [at']; ring), abs_sub_comm]
    rfl
  have hin : ∀ t r k, at' (at' A C t) (at' A C r) k = at' A C (t + k * (r - t)) := by
    intro t r k
    unfold at'
    ext <;> simp only <;> ring
  rw [hin, hin, hd]
  rw [hd] at h1 h2 h3 h4
  have hL := dst_nonneg A C
  -- the parameters
  set p := ta + x * (tb - ta) with hp
  set q := tc + y * (td - tc) with hq
  have between : ∀ t r k : ℝ, 0 ≤ k → k ≤ 1 → min t r ≤ t + k * (r - t) ∧ t + k * (r - t) ≤ max t r := by
    intro t r k k0 k1
    rcases le_total t r with h | h
    · rw [min_eq_left h, max_eq_right h]
      constructor <;> nlinarith
    · rw [min_eq_right h, max_eq_left h]
      constructor <;> nlinarith
  obtain ⟨p1, p2⟩ := between ta tb x x0 x1
  obtain ⟨q1, q2⟩ := between tc td y y0 y1
  have onb : ∀ t r k : ℝ, min t r ≤ k → k ≤ max t r → OnSegR (at' A C t) (at' A C r) (at' A C k) := by
    intro t r k k1 k2
    rcases le_total t r with h | h
    · rw [min_eq_left h] at k1; rw [max_eq_right h] at k2
      exact onSeg_between A C k1 k2
    · rw [min_eq_right h] at k1; rw [max_eq_left h] at k2
      exact onSeg_symm (onSeg_between A C k1 k2)
  have hsplit : max ta tb < min tc td ∨ max tc td < min ta tb := by
    by_contra hc
    push Not at hc
    obtain ⟨c1, c2⟩ := hc
    have m1 : min ta tb ≤ max ta tb := (min_le_left _ _).trans (le_max_left _ _)
    have m2 : min tc td ≤ max tc td := (min_le_left _ _).trans (le_max_left _ _)
    refine hno (at' A C (max (min ta tb) (min tc td))) (onb _ _ _ (le_max_left _ _) ?_) (onb _ _ _ (le_max_right _ _) ?_)
    · exact max_le m1 c1
    · exact max_le c2 m2
  have key : ∀ t r, (t = ta ∨ t = tb) → (r = tc ∨ r = td) → m ≤ |t - r| * dst A C := by
    rintro t r (rfl | rfl) (rfl | rfl)
    · exact h1
    · exact h2
    · exact h3
    · exact h4
  have fin : ∀ t r, (t = ta ∨ t = tb) → (r = tc ∨ r = td) → |t - r| ≤ |p - q| → m ≤ |p - q| * dst A C :=
    fun t r ht hr hle => (key t r ht hr).trans (mul_le_mul_of_nonneg_right hle hL)
  rcases hsplit with h | h
  · refine fin (max ta tb) (min tc td) (max_choice ta tb) (min_choice tc td) ?_
    rw [abs_of_nonpos (by linarith), abs_of_nonpos (by linarith)]
    linarith
  · refine fin (min ta tb) (max tc td) (min_choice ta tb) (max_choice tc td) ?_
    rw [abs_of_nonneg (by linarith), abs_of_nonneg (by linarith)]
    linarith

theorem Beside.far {s s' : Stroke U} {m : ℝ} (hb : Beside m s s') (hne : s.a ≠ s.b) {z w : ℝ × ℝ} (hz : s'.On z) (hw : s.On w) :
    m ≤ dst z w := by
  refine far_of_crs hne ?_ hw
  obtain ⟨t, t0, t1, rfl⟩ := onSeg_at'.1 hz
  rw [crs_at']
  rcases hb with ⟨h1, h2⟩ | ⟨h1, h2⟩
  · refine le_trans ?_ (le_abs_self _)
    nlinarith
  · refine le_trans ?_ (neg_le_abs _)
    nlinarith

section
variable {P : List (ℝ × ℝ)} {S : List (Stroke U)} {B θ μ δ : ℝ} {g : PlanarGraph XReal T U} {h : PlanarGraph F32 T U}

theorem stroke_ne {a b : ℝ × ℝ} (hab : a ≠ b) {s : Stroke U} (ha : s.On a) (hb : s.On b) :
    s.a ≠ s.b := by
  intro hc
  apply hab
  have key : ∀ x, s.On x → x = s.a := by
    rintro x ⟨t, _, _, hx⟩
    rw [← hc] at hx
    rw [hx]
    ext <;> simp
  rw [key a ha, key b hb]

/-- two disjoint pieces of segments are at least `μ` apart -/
theorem Setting.apart_pieces (hs : Setting P S B θ μ δ) {s s' : Stroke U} (hm : s ∈ S) (hm' : s' ∈ S) {a b c d : ℝ × ℝ}
    (va : a ∈ P ∨ Meet P S a) (vb : b ∈ P ∨ Meet P S b) (vc : c ∈ P ∨ Meet P S c) (vd : d ∈ P ∨ Meet P S d)
    (oa : s.On a) (ob : s.On b) (oc : s'.On c) (od : s'.On d) (hab : a ≠ b) (hcd : c ≠ d)
    (hno : ∀ z, OnSegR a b z → ¬ OnSegR c d z) {z w : ℝ × ℝ} (hz : OnSegR a b z) (hw : OnSegR c d w) : μ ≤ dst z w := by
  have na : ¬ OnSegR c d a := hno a (onSeg_left _ _)
  have nb : ¬ OnSegR c d b := hno b (onSeg_right _ _)
  have nc : ¬ OnSegR a b c := fun h => hno c h (onSeg_left _ _)
  have nd : ¬ OnSegR a b d := fun h => hno d h (onSeg_right _ _)
  by_cases hD : crs a b c d = 0
  · by_cases hss : s = s'
    · subst hss
      have ne : ∀ {x y : ℝ × ℝ}, OnSegR a b x → OnSegR c d y → x ≠ y := by
        rintro x y h1 h2 rfl
        exact hno x h1 h2
      exact apart_line oa ob oc od hno (hs.margins.sep _ _ va vc (ne (onSeg_left _ _) (onSeg_left _ _)))
        (hs.margins.sep _ _ va vd (ne (onSeg_left _ _) (onSeg_right _ _)))
        (hs.margins.sep _ _ vb vc (ne (onSeg_right _ _) (onSeg_left _ _)))
        (hs.margins.sep _ _ vb vd (ne (onSeg_right _ _) (onSeg_right _ _))) hz hw
    · have e1 := stroke_ne hab oa ob
      have e2 := stroke_ne hcd oc od
      have oz := onSeg_sub oa ob hz
      have ow := onSeg_sub oc od hw
      have hcr : crs s.a s.b s'.a s'.b = 0 := by
        obtain ⟨t, _, _, ht⟩ := onSeg_at'.1 oa
        obtain ⟨t', _, _, ht'⟩ := onSeg_at'.1 ob
        obtain ⟨r, _, _, hr⟩ := onSeg_at'.1 oc
        obtain ⟨r', _, _, hr'⟩ := onSeg_at'.1 od
        have e : crs a b c d = (t' - t) * (r' - r) * crs s.a s.b s'.a s'.b := by
          rw [ht, ht', hr, hr']; unfold crs at'; ring
        rw [e] at hD
        rcases mul_eq_zero.1 hD with h1 | h1
        · exfalso
          rcases mul_eq_zero.1 h1 with h2 | h2
          · apply hab; rw [ht, ht', sub_eq_zero.1 h2]
          · apply hcd; rw [hr, hr', sub_eq_zero.1 h2]
        · exact h1
      have pos : ∀ s : Stroke U, s.a ≠ s.b → 0 < dst s.a s.b := fun s hne =>
        lt_of_le_of_ne (dst_nonneg _ _) (fun hc => hne (dst_eq_zero.1 hc.symm))
      have hθ := hs.θ0
      obtain ⟨i, hi, rfl⟩ := List.getElem_of_mem hm
      obtain ⟨j, hj, rfl⟩ := List.getElem_of_mem hm'
      have hA := List.pairwise_iff_getElem.1 hs.margins.angle
      rcases Nat.lt_trichotomy i j with hij | hij | hij
      · rcases hA i j hi hj hij with h1 | h1
        · rw [hcr, abs_zero] at h1
          have := mul_pos hθ (mul_pos (pos _ e1) (pos _ e2))
          linarith
        · exact h1.far e2 oz ow
      · subst hij; exact absurd rfl hss
      · rcases hA j i hj hi hij with h1 | h1
        · rw [crs_swap S[i].a S[i].b S[j].a S[j].b, hcr, neg_zero, abs_zero] at h1
          have := mul_pos hθ (mul_pos (pos _ e2) (pos _ e1))
          linarith
        · rw [dst_comm z w]
          exact h1.far e1 ow oz
  · exact apart_of_ends hD hno (fun z hz => hs.far_piece hm' vc vd va oc od na hz) (fun z hz => hs.far_piece hm' vc vd vb oc od nb hz)
      (fun z hz => hs.far_piece hm va vb vc oa ob nc hz) (fun z hz => hs.far_piece hm va vb vd oa ob nd hz) hz hw

/-- a point of the displaced segment is near the segment -/
theorem near_part {a b a' b' z : ℝ × ℝ} (ha : dst a' a ≤ δ) (hb : dst b' b ≤ δ) (hz : OnSegR a' b' z) :
    ∃ w, OnSegR a b w ∧ dst z w ≤ δ := by
  obtain ⟨t, t0, t1, rfl⟩ := onSeg_at'.1 hz
  exact ⟨at' a b t, ⟨t, t0, t1, rfl⟩, dst_at'_le ha hb t0 t1⟩

/-- two segments from one point have another point in common only if one contains the end of the other -/
theorem share_end {a b c y : ℝ × ℝ} (h1 : OnSegR a b y) (h2 : OnSegR a c y) (hy : y ≠ a) : OnSegR a b c ∨ OnSegR a c b := by
  obtain ⟨t, t0, t1, rfl⟩ := h1
  obtain ⟨r, r0, r1, hr⟩ := h2
  have e1 := congrArg Prod.fst hr
  have e2 := congrArg Prod.snd hr
  simp only at e1 e2
  have ht : t ≠ 0 := by
    rintro rfl
    apply hy
    ext <;> simp
  have hr0 : r ≠ 0 := by
    rintro rfl
    apply hy
    ext
    · simp only; linarith
    · simp only; linarith
  have t0' : 0 < t := lt_of_le_of_ne t0 (Ne.symm ht)
  have r0' : 0 < r := lt_of_le_of_ne r0 (Ne.symm hr0)
  rcases le_total t r with h | h
  · left
    refine ⟨t / r, by positivity, (div_le_one r0').2 h, ?_⟩
    ext
    · simp only; field_simp; linarith
    · simp only; field_simp; linarith
  · right
    refine ⟨r / t, by positivity, (div_le_one t0').2 h, ?_⟩
    ext
    · simp only; field_simp; linarith
    · simp only; field_simp; linarith

theorem Mirrors.planar (hf : Mirrors P δ g h) (hs : Setting P S B θ μ δ) (st : Scene P S g) : DrawnPlanar h := by
  have hμ := hs.μ0
  have hδ := hs.hδ
  have hδ0 := hs.δ0
  have near : ∀ i, i < g.nodes.length → dst (spot h i) (place g i) ≤ δ := by
    intro i hi
    have hi' : i < h.nodes.length := by rw [hf.len]; exact hi
    obtain ⟨_, h1, _⟩ := hf.position i _ (List.getElem?_eq_getElem hi')
    unfold spot
    rw [List.getElem?_eq_getElem hi']
    exact h1
  have vert : ∀ i, i < g.nodes.length → place g i ∈ P ∨ Meet P S (place g i) := st.nodes
  have hnode : ∀ e ∈ g.edges, ∀ i, i < g.nodes.length → OnSegR (spot h e.src) (spot h e.dst) (spot h i) → i = e.src ∨ i = e.dst := by
    intro e he i hi ho
    by_contra hc
    obtain ⟨w1, w2⟩ := st.plane.wf e he
    obtain ⟨s, hm, _, o1, o2⟩ := st.piece e he
    obtain ⟨w, hw, hd⟩ := near_part (near _ w1) (near _ w2) ho
    have hn : ¬ OnSegR (place g e.src) (place g e.dst) (place g i) := fun h => hc (st.plane.planar.node e he i hi h)
    have := hs.far_piece hm (vert _ w1) (vert _ w2) (vert _ hi) o1 o2 hn hw
    have t := dst_triangle (place g i) (spot h i) w
    rw [dst_comm (place g i) (spot h i)] at t
    have := near i hi
    linarith
  refine ⟨?_, ?_, ?_⟩
  · intro i j hi hj hij
    rw [hf.len] at hi hj
    by_contra hc
    have h1 := hs.margins.sep _ _ (vert i hi) (vert j hj) (fun h => hc (st.plane.inj i j hi hj h))
    have t := dst_triangle (place g i) (spot h i) (place g j)
    rw [dst_comm (place g i) (spot h i)] at t
    have n1 := near i hi
    have n2 := near j hj
    rw [← hij] at n2
    linarith
  · rw [hf.edges]
    intro k l e f hk hl hkl y he hfy
    have me := List.mem_of_getElem? hk
    have mf := List.mem_of_getElem? hl
    obtain ⟨w1, w2⟩ := st.plane.wf e me
    obtain ⟨v1, v2⟩ := st.plane.wf f mf
    have nle := st.plane.noloop e me
    have nlf := st.plane.noloop f mf
    have simple := C102_simple g st.plane k l e f hk hl
    -- a common end `i`, with the other ends `j` and `m`
    have shared : ∀ i j m, j ≠ m → (e.src = i ∧ e.dst = j ∨ e.src = j ∧ e.dst = i) → (f.src = i ∧ f.dst = m ∨ f.src = m ∧ f.dst = i) →
        y = spot h i := by
      intro i j m hjm h1 h2
      by_contra hy
      have ij : i ≠ j := by rintro rfl; rcases h1 with ⟨rfl, h1⟩ | ⟨rfl, h1⟩ <;> exact nle h1.symm
      have im : i ≠ m := by rintro rfl; rcases h2 with ⟨rfl, h2⟩ | ⟨rfl, h2⟩ <;> exact nlf h2.symm
      have ye : OnSegR (spot h i) (spot h j) y := by
        rcases h1 with ⟨rfl, rfl⟩ | ⟨rfl, rfl⟩
        · exact he
        · exact onSeg_symm he
      have yf : OnSegR (spot h i) (spot h m) y := by
        rcases h2 with ⟨rfl, rfl⟩ | ⟨rfl, rfl⟩
        · exact hfy
        · exact onSeg_symm hfy
      rcases share_end ye yf hy with h3 | h3
      · have : m = e.src ∨ m = e.dst := by
          refine hnode e me m (by rcases h2 with ⟨_, rfl⟩ | ⟨rfl, _⟩ <;> assumption) ?_
          rcases h1 with ⟨rfl, rfl⟩ | ⟨rfl, rfl⟩
          · exact h3
          · exact onSeg_symm h3
        rcases h1 with ⟨rfl, rfl⟩ | ⟨rfl, rfl⟩ <;> rcases this with rfl | rfl
        · exact im rfl
        · exact hjm rfl
        · exact hjm rfl
        · exact im rfl
      · have : j = f.src ∨ j = f.dst := by
          refine hnode f mf j (by rcases h1 with ⟨_, rfl⟩ | ⟨rfl, _⟩ <;> assumption) ?_
          rcases h2 with ⟨rfl, rfl⟩ | ⟨rfl, rfl⟩
          · exact h3
          · exact onSeg_symm h3
        rcases h2 with ⟨rfl, rfl⟩ | ⟨rfl, rfl⟩ <;> rcases this with rfl | rfl
        · exact ij rfl
        · exact hjm rfl
        · exact hjm rfl
        · exact ij rfl
    by_cases c1 : e.src = f.src
    · exact ⟨e.src, Or.inl rfl, Or.inl c1, shared e.src e.dst f.dst (fun hc => hkl (simple (Or.inl ⟨c1, hc⟩))) (Or.inl ⟨rfl, rfl⟩)
        (Or.inl ⟨c1.symm, rfl⟩)⟩
    by_cases c2 : e.src = f.dst
    · exact ⟨e.src, Or.inl rfl, Or.inr c2, shared e.src e.dst f.src (fun hc => hkl (simple (Or.inr ⟨c2, hc⟩))) (Or.inl ⟨rfl, rfl⟩)
        (Or.inr ⟨rfl, c2.symm⟩)⟩
    by_cases c3 : e.dst = f.src
    · exact ⟨e.dst, Or.inr rfl, Or.inl c3, shared e.dst e.src f.dst (fun hc => hkl (simple (Or.inr ⟨hc, c3⟩))) (Or.inr ⟨rfl, rfl⟩)
        (Or.inl ⟨c3.symm, rfl⟩)⟩
    by_cases c4 : e.dst = f.dst
    · exact ⟨e.dst, Or.inr rfl, Or.inr c4, shared e.dst e.src f.src (fun hc => hkl (simple (Or.inl ⟨hc, c4⟩))) (Or.inr ⟨rfl, rfl⟩)
        (Or.inr ⟨rfl, c4.symm⟩)⟩
    exfalso
    have hno : ∀ z, OnSegR (place g e.src) (place g e.dst) z → ¬ OnSegR (place g f.src) (place g f.dst) z := by
      intro z z1 z2
      obtain ⟨i, i1, i2, _⟩ := st.plane.planar.meet k l e f hk hl hkl z z1 z2
      rcases i1 with rfl | rfl <;> rcases i2 with i2 | i2
      · exact c1 i2
      · exact c2 i2
      · exact c3 i2
      · exact c4 i2
    obtain ⟨s, hm, _, o1, o2⟩ := st.piece e me
    obtain ⟨s', hm', _, o3, o4⟩ := st.piece f mf
    obtain ⟨z, hz, dz⟩ := near_part (near _ w1) (near _ w2) he
    obtain ⟨w, hw, dw⟩ := near_part (near _ v1) (near _ v2) hfy
    have := hs.apart_pieces hm hm' (vert _ w1) (vert _ w2) (vert _ v1) (vert _ v2) o1 o2 o3 o4
      (fun hc => nle (st.plane.inj _ _ w1 w2 hc)) (fun hc => nlf (st.plane.inj _ _ v1 v2 hc)) hno hz hw
    have t := dst_triangle z y w
    rw [dst_comm z y] at t
    linarith
  · rw [hf.edges, hf.len]
    exact hnode

end

/-- **C117.** With the margins of C116 the f32 graph, drawn with its f32 positions, is a planar drawing. -/
theorem C117_planar [Inhabited T] (cs : List (Call F32 T U)) (B θ μ : ℝ) (hfin : ∀ c ∈ cs, c.Finite) (hv : Valid 0 (cs.map Call.req))
    (hm : Margins (points (cs.map Call.req)) (strokes [] (cs.map Call.req)) B θ μ)
    (hf : Fine B θ μ (strokes [] (cs.map Call.req)).length) :
    ∃ h ids l, session PlanarGraph.new [] cs = .ok (h, ids, l) ∧ DrawnPlanar h := by
  obtain ⟨g, h, ids, l, _, h2, h3, h4⟩ := C116_session cs B θ μ hfin hv hm hf
  have he : ∀ s ∈ strokes [] (cs.map Call.req), s.a ∈ points (cs.map Call.req) ∧ s.b ∈ points (cs.map Call.req) := by
    intro s hs
    have := strokes_ends (ps := []) hv s hs
    simpa using this
  have hs := hf.setting hm he
  obtain ⟨g1, ids1, k1, st⟩ := client_end _ hv hs.apart
  rw [h3] at k1
  cases k1
  exact ⟨h, ids, l, h2, h4.planar hs (st.scene fun _ h => h)⟩

/-- the crossing segments of `crossCall` -/
example : ∃ h ids l, session PlanarGraph.new [] crossCall = .ok (h, ids, l) ∧ DrawnPlanar h :=
  C117_planar crossCall _ _ _ cross_calls.1 cross_calls.2 cross_margins.1 cross_margins.2

end
end Kami.Graph
