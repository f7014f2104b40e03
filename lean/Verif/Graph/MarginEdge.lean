import Verif.Graph.MarginStep
/-!
# A drawing with margins: one more segment

The crossings of a new segment with the old edges, in the exact graph and in the f32 graph.
-/

set_option autoImplicit false

namespace Kami.Graph

open Kami Kami.F32 Kami.Simple Kami.DistF32 Kami.Margin
open scoped Kami
open PlanarGraph
open Kami.UtilThm (dst crs dt OnSegR dst_nonneg dst_comm dst_triangle dst_eq_zero)

variable {T U : Type}

noncomputable section

variable {P : List (ℝ × ℝ)} {S S0 : List (Stroke U)} {B θ μ κ κ' δ : ℝ} {g : PlanarGraph XReal T U} {h : PlanarGraph F32 T U}
  {s0 : Stroke U} {a b : ℕ}

/-- the new segment `s0` joins the nodes `a` and `b` -/
structure NewSeg (P : List (ℝ × ℝ)) (S S0 : List (Stroke U)) (θ μ : ℝ) (g : PlanarGraph XReal T U) (s0 : Stroke U) (a b : ℕ) : Prop where
  mem : s0 ∈ S
  new : s0 ∉ S0
  sub : ∀ s ∈ S0, s ∈ S
  angle : ∀ s ∈ S0, θ * (dst s.a s.b * dst s0.a s0.b) ≤ |crs s.a s.b s0.a s0.b| ∨ Beside μ s0 s
  nodes : ∀ i, i < g.nodes.length → place g i ∈ P ∨ Meet P S0 (place g i)
  ha : a < g.nodes.length
  hb : b < g.nodes.length
  pa : place g a = s0.a
  pb : place g b = s0.b
  ne : s0.a ≠ s0.b

/-- nodes on the new segment are its ends -/
theorem NewSeg.node_on (hw : NewSeg P S S0 θ μ g s0 a b) (hs : Setting P S B θ μ δ) {i : ℕ} (hi : i < g.nodes.length)
    (ho : s0.On (place g i)) : place g i = s0.a ∨ place g i = s0.b := by
  rcases hw.nodes i hi with h1 | h1
  · exact hs.margins.ends _ h1 s0 hw.mem ho
  · exfalso
    obtain ⟨_, s, hm, s', hm', hne, o1, o2⟩ := id h1
    rcases hs.margins.cross_two _ (h1.mono hw.sub) s (hw.sub s hm) s' (hw.sub s' hm') s0 hw.mem o1 o2 ho with h2 | h2 | h2
    · exact hne h2
    · rw [h2] at hm; exact hw.new hm
    · rw [h2] at hm'; exact hw.new hm'

/-- the numbers that go with one more segment -/
structure Grow (B θ κ κ' δ : ℝ) : Prop where
  old : κ + 15 * (u * B) ≤ κ'
  new : 102 * (u * B) ≤ κ'
  pos : κ + 117 * (u * B) ≤ θ * δ

/-- what is found for an old edge -/
inductive Outcome (P : List (ℝ × ℝ)) (S S0 : List (Stroke U)) (κ' δ : ℝ) (g : PlanarGraph XReal T U) (h : PlanarGraph F32 T U) (s0 : Stroke U)
    (e f : Edge U) : Prop
  | none : edgeMeets g.nodes e f = none → edgeMeets h.nodes e f = none → Outcome P S S0 κ' δ g h s0 e f
  | shared (X : ℝ × ℝ) : X ∈ [s0.a, s0.b] → (∀ x, edgeMeets g.nodes e f = some x → x = pt X) →
      (∀ q, edgeMeets h.nodes e f = some q → (IsFin q.x ∧ IsFin q.y) ∧ dst (rpos q) X ≤ u) → Outcome P S S0 κ' δ g h s0 e f
  | cross (y : ℝ × ℝ) (q : Vec2 F32) : OnEdge (place g) e y → (∀ i, i < g.nodes.length → place g i ≠ y) →
      edgeMeets g.nodes e f = some (pt y) → edgeMeets h.nodes e f = some q → Found P S (S0 ++ [s0]) κ' δ y q →
      Outcome P S S0 κ' δ g h s0 e f

theorem Setting.dst_ge (hs : Setting P S B θ μ δ) {x y x' y' : ℝ × ℝ} (h : μ ≤ dst x y) (hx : dst x' x ≤ δ) (hy : dst y' y ≤ δ) :
    1 / 2 ^ 20 ≤ dst x' y' := by
  have t1 := dst_triangle x x' y
  have t2 := dst_triangle x' y' y
  rw [dst_comm x x'] at t1
  have := hs.hδ
  have := hs.δ0
  have := hs.hμ
  have e : (1 : ℝ) / 2 ^ 20 = 1 / 2 ^ 19 / 2 := by norm_num
  linarith

theorem Shadow.classify (hh : Shadow P S0 κ δ g h) (hf : Fit P S S0 g) (hc : Clean g) (hs : Setting P S B θ μ δ) (hk : Dev θ μ κ)
    (hw : NewSeg P S S0 θ μ g s0 a b) (hg : Grow B θ κ κ' δ) {e : Edge U} (he : e ∈ g.edges) (x : U) :
    Outcome P S S0 κ' δ g h s0 e ⟨a, b, x, defaultLabel⟩ := by
  obtain ⟨w1, w2⟩ := hf.wf e he
  obtain ⟨s, hm, o1, o2⟩ := hf.piece e he
  obtain ⟨na, ga, sa⟩ := hh.get w1
  obtain ⟨nb, gb, sb⟩ := hh.get w2
  obtain ⟨nc, gc, sc⟩ := hh.get hw.ha
  obtain ⟨nd, gd, sd⟩ := hh.get hw.hb
  have va := hf.vertex _ w1
  have vb := hf.vertex _ w2
  have vc := hf.vertex _ hw.ha
  have vd := hf.vertex _ hw.hb
  obtain ⟨ea, eb⟩ := hs.stroke_ends s0 hw.mem
  have xc : rpos nc.position = s0.a := by rw [← hw.pa]; exact sc.exact' (by rw [hw.pa]; exact ea)
  have xd : rpos nd.position = s0.b := by rw [← hw.pb]; exact sd.exact' (by rw [hw.pb]; exact eb)
  have hz := hs.sizes hk
  have hμ0 := hs.μ0
  have lab : μ ≤ dst (place g e.src) (place g e.dst) :=
    hs.margins.sep _ _ va vb (fun hq => hf.noloop e he (hf.inj _ _ w1 w2 hq))
  have lcd : μ ≤ dst s0.a s0.b := hs.margins.sep _ _ (Or.inl ea) (Or.inl eb) hw.ne
  have quad : Quad B na.position nb.position nc.position nd.position := by
    refine ⟨⟨sa.small hs va, sb.small hs vb, sc.small hs vc, sd.small hs vd⟩, ?_, hs.hμ.trans hs.hB, hs.dst_ge lab sa.near sb.near, ?_⟩
    · intro v hv
      simp only [List.mem_cons, List.not_mem_nil, or_false] at hv
      rcases hv with rfl | rfl | rfl | rfl
      · exact sa.box hs va
      · exact sb.box hs vb
      · exact sc.box hs vc
      · exact sd.box hs vd
    · rw [xc, xd]
      have := hs.hμ
      have e : (1 : ℝ) / 2 ^ 20 ≤ 1 / 2 ^ 19 := by norm_num
      linarith
  have pc : Piece B μ κ δ s.a s.b (place g e.src) (place g e.dst) na.position nb.position nc.position nd.position :=
    ⟨quad, o1, o2, sa.near, sb.near, sa.dev s hm o1, sb.dev s hm o2, lab⟩
  have hgm : edgeMeets g.nodes e ⟨a, b, x, defaultLabel⟩ =
      Utils.calculateLineSegmentIntersection (pt (place g e.src)) (pt (place g e.dst)) (pt s0.a) (pt s0.b) := by
    rw [edgeMeets_pt hf.drawn w1 w2 hw.ha hw.hb, hw.pa, hw.pb]
  have hhm : edgeMeets h.nodes e ⟨a, b, x, defaultLabel⟩ =
      Utils.calculateLineSegmentIntersection na.position nb.position nc.position nd.position := by
    unfold edgeMeets
    simp only [ga, gb, gc, gd]
  have none_of : (∀ z, OnEdge (place g) e z → ¬ s0.On z) → edgeMeets g.nodes e ⟨a, b, x, defaultLabel⟩ = none := by
    intro hno
    rw [hgm, Option.eq_none_iff_forall_ne_some]
    intro q hq
    obtain ⟨p, _, p1, p2, _⟩ := UtilThm.C39_sound _ _ _ _ _ hq
    exact hno p p1 p2
  rcases hw.angle s hm with hθ | hbes
  · -- transversal
    have hθ' : θ * (dst s.a s.b * dst (rpos nc.position) (rpos nd.position)) ≤ |crs s.a s.b (rpos nc.position) (rpos nd.position)| := by
      rw [xc, xd]; exact hθ
    have hcrs : crs (place g e.src) (place g e.dst) s0.a s0.b ≠ 0 := by
      have hpos : 0 < |crs s.a s.b s0.a s0.b| := by
        refine lt_of_lt_of_le ?_ hθ
        exact mul_pos hs.θ0 (mul_pos (pc.stroke_pos hz) (lt_of_lt_of_le hμ0 lcd))
      obtain ⟨t, _, _, ht⟩ := o1
      obtain ⟨r, _, _, hr⟩ := o2
      have hrt : r - t ≠ 0 := by
        intro hrt
        have : r = t := by linarith
        rw [ht, hr, this, dst_eq_zero.2 rfl] at lab
        linarith
      have e1 : crs (place g e.src) (place g e.dst) s0.a s0.b = (r - t) * crs s.a s.b s0.a s0.b := by
        rw [ht, hr]; unfold UtilThm.crs; ring
      rw [e1]
      exact mul_ne_zero hrt (abs_pos.1 hpos)
    by_cases hex : ∃ y, OnEdge (place g) e y ∧ s0.On y
    · obtain ⟨y, y1, y2⟩ := hex
      have huniq : ∀ z, edgeMeets g.nodes e ⟨a, b, x, defaultLabel⟩ = some z → z = pt y := by
        intro z hz
        rw [hgm] at hz
        obtain ⟨p, rfl, p1, p2, _, p3⟩ := UtilThm.C39_sound _ _ _ _ _ hz
        rw [p3 y y1 y2]
      by_cases hyP : y ∈ P
      · -- a common requested point
        have hye : y = s0.a ∨ y = s0.b := hs.margins.ends y hyP s0 hw.mem y2
        have hnode : ∃ i, i < g.nodes.length ∧ place g i = y := by
          rcases hye with rfl | rfl
          · exact ⟨a, hw.ha, hw.pa⟩
          · exact ⟨b, hw.hb, hw.pb⟩
        obtain ⟨i, hi, rfl⟩ := hnode
        refine .shared (place g i) (by simpa using hye) huniq ?_
        intro q hq
        rw [hhm] at hq
        have h1 : place g i = rpos na.position ∨ place g i = rpos nb.position := by
          rcases hc e he i hi y1 with rfl | rfl
          · left; rw [sa.exact' hyP]
          · right; rw [sb.exact' hyP]
        obtain ⟨q1, q2⟩ := pc.shared hz hθ' h1 (by rw [xc, xd]; exact hye) hq
        refine ⟨q1, ?_⟩
        have h2 : θ * dst (rpos q) (place g i) ≤ θ * u := by
          refine q2.trans ?_
          have := mul_le_mul_of_nonneg_left hs.hθ u_pos.le
          have := mul_pos u_pos hs.B0
          linarith
        exact le_of_mul_le_mul_left h2 hs.θ0
      · -- a crossing
        have hys : s.On y := onSeg_sub o1 o2 y1
        have hne : s ≠ s0 := by rintro rfl; exact hw.new hm
        have hmeet : Meet P S y := ⟨hyP, s, hw.sub s hm, s0, hw.mem, hne, hys, y2⟩
        have hyn : ∀ i, i < g.nodes.length → place g i ≠ y := by
          rintro i hi rfl
          rcases hw.node_on hs hi y2 with h1 | h1
          · exact hyP (by rw [h1]; exact ea)
          · exact hyP (by rw [h1]; exact eb)
        have sep : ∀ i, i < g.nodes.length → μ ≤ dst (place g i) y := fun i hi =>
          hs.margins.sep _ _ (hf.vertex i hi) (Or.inr hmeet) (hyn i hi)
        obtain ⟨q, hq, q1, q2, q3, q4⟩ := pc.crossing hz hθ' y1 (by rw [xc, xd]; exact y2) (sep _ w1) (sep _ w2)
          (by rw [xc, ← hw.pa]; exact sep _ hw.ha) (by rw [xd, ← hw.pb]; exact sep _ hw.hb)
        refine .cross y q y1 hyn ?_ (by rw [hhm]; exact hq) ⟨hmeet, q1, ?_, ?_⟩
        · have hnn : edgeMeets g.nodes e ⟨a, b, x, defaultLabel⟩ ≠ none := by
            rw [hgm, ne_eq, UtilThm.C40_complete_partial _ _ _ _ hcrs]
            exact not_not.2 ⟨y, y1, y2⟩
          obtain ⟨z, hz⟩ := Option.ne_none_iff_exists'.1 hnn
          rw [hz, huniq z hz]
        · exact le_of_mul_le_mul_left (q4.trans hg.pos) hs.θ0
        · intro t ht hty
          rw [xc, xd] at q2
          rcases List.mem_append.1 ht with ht | ht
          · rcases hs.margins.cross_two y hmeet t (hw.sub t ht) s (hw.sub s hm) s0 hw.mem hty hys y2 with h1 | h1 | h1
            · subst h1
              exact q3.trans (mul_le_mul_of_nonneg_right hg.old (dst_nonneg _ _))
            · rw [h1] at ht; exact absurd ht hw.new
            · exact absurd h1 hne
          · rw [List.mem_singleton] at ht
            subst ht
            exact q2.trans (mul_le_mul_of_nonneg_right hg.new (dst_nonneg _ _))
    · -- disjoint
      have hno : ∀ z, OnEdge (place g) e z → ¬ s0.On z := fun z h1 h2 => hex ⟨z, h1, h2⟩
      refine .none (none_of hno) ?_
      rw [hhm]
      refine pc.disjoint hz hθ' ?_
      rw [xc, xd]
      intro z w hz hw'
      have hS := hw.sub s hm
      refine apart_of_ends hcrs hno (fun z hz => ?_) (fun z hz => ?_) (fun z hz => ?_) (fun z hz => ?_) hz hw'
      · exact hs.margins.off _ va s0 hw.mem (hno _ (onSeg_left _ _)) z hz
      · exact hs.margins.off _ vb s0 hw.mem (hno _ (onSeg_right _ _)) z hz
      · exact hs.far_piece hS va vb (Or.inl ea) o1 o2 (fun hc => hno _ hc (onSeg_left _ _)) hz
      · exact hs.far_piece hS va vb (Or.inl eb) o1 o2 (fun hc => hno _ hc (onSeg_right _ _)) hz
  · -- on one side
    obtain ⟨σ, hσ, hside⟩ : ∃ σ : ℝ, |σ| = 1 ∧ ∀ z, OnSegR s.a s.b z → μ * dst s0.a s0.b ≤ σ * crs s0.a s0.b s0.a z := by
      rcases hbes with ⟨h1, h2⟩ | ⟨h1, h2⟩
      · refine ⟨1, by simp, ?_⟩
        rintro z ⟨t, t0, t1, rfl⟩
        have := crs_at' s0.a s0.b s0.a s.a s.b t
        unfold at' at this
        rw [this, one_mul]
        nlinarith
      · refine ⟨-1, by simp, ?_⟩
        rintro z ⟨t, t0, t1, rfl⟩
        have := crs_at' s0.a s0.b s0.a s.a s.b t
        unfold at' at this
        rw [this]
        nlinarith
    refine .none (none_of ?_) ?_
    · intro z hz1 hz2
      have h1 := hside z (onSeg_sub o1 o2 hz1)
      rw [crs_self_on hz2, mul_zero] at h1
      have := mul_pos hμ0 (lt_of_lt_of_le hμ0 lcd)
      linarith
    · rw [hhm]
      exact pc.beside hz hσ (by rw [xc, xd]; exact hside)

/-! ### The lists of crossings -/

theorem Outcome.exact' (hs : Setting P S B θ μ δ) (hm : s0 ∈ S) {e f : Edge U} (ho : Outcome P S S0 κ' δ g h s0 e f) {p : Vec2 XReal}
    (hp : edgeMeets g.nodes e f = some p) : ∃ z, p = pt z ∧ (z ∈ P ∨ (Meet P S z ∧ OnEdge (place g) e z ∧ ∀ i, i < g.nodes.length → place g i ≠ z)) := by
  obtain ⟨ea, eb⟩ := hs.stroke_ends s0 hm
  rcases ho with ⟨h1, _⟩ | ⟨X, hX, h1, _⟩ | ⟨y, q, h1, h2, h3, _, h5⟩
  · rw [h1] at hp; cases hp
  · refine ⟨X, h1 p hp, Or.inl ?_⟩
    simp only [List.mem_cons, List.not_mem_nil, or_false] at hX
    rcases hX with rfl | rfl
    · exact ea
    · exact eb
  · rw [h3] at hp; cases hp
    exact ⟨y, rfl, Or.inr ⟨h5.meet, h1, h2⟩⟩

theorem Outcome.f32 (hs : Setting P S B θ μ δ) (hm : s0 ∈ S) {e f : Edge U} (ho : Outcome P S S0 κ' δ g h s0 e f) {p : Vec2 F32}
    (hp : edgeMeets h.nodes e f = some p) : ∃ z, (IsFin p.x ∧ IsFin p.y) ∧ 32 * dst (rpos p) z ≤ μ ∧
      (z ∈ P ∨ (Meet P S z ∧ OnEdge (place g) e z ∧ ∀ i, i < g.nodes.length → place g i ≠ z)) := by
  obtain ⟨ea, eb⟩ := hs.stroke_ends s0 hm
  rcases ho with ⟨_, h1⟩ | ⟨X, hX, _, h1⟩ | ⟨y, q, h1, h2, _, h4, h5⟩
  · rw [h1] at hp; cases hp
  · obtain ⟨h2, h3⟩ := h1 p hp
    refine ⟨X, h2, ?_, Or.inl ?_⟩
    · have := hs.hμ
      have : 32 * u ≤ 1 / 2 ^ 19 := by unfold u; norm_num
      linarith
    · simp only [List.mem_cons, List.not_mem_nil, or_false] at hX
      rcases hX with rfl | rfl
      · exact ea
      · exact eb
  · rw [h4] at hp; cases hp
    refine ⟨y, h5.fin, ?_, Or.inr ⟨h5.meet, h1, h2⟩⟩
    have := hs.hδ
    have := hs.δ0
    have := h5.near
    linarith

theorem Setting.close_f32 (hs : Setting P S B θ μ δ) {y z : ℝ × ℝ} (hy : y ∈ P ∨ Meet P S y) (hz : z ∈ P ∨ Meet P S z) (hne : y ≠ z)
    {p q : Vec2 F32} (fp : IsFin p.x ∧ IsFin p.y) (fq : IsFin q.x ∧ IsFin q.y) (np : 32 * dst (rpos p) y ≤ μ)
    (nq : 32 * dst (rpos q) z ≤ μ) : Utils.closeTo p q = false := by
  have hμ0 := hs.μ0
  have sp := hs.small fp (hs.near_box hy (le_refl (dst (rpos p) y)) (by linarith [dst_nonneg (rpos p) y]))
  have sq := hs.small fq (hs.near_box hz (le_refl (dst (rpos q) z)) (by linarith [dst_nonneg (rpos q) z]))
  rw [← Bool.not_eq_true]
  intro hc
  have h1 := (UtilsF32.C108_close sp sq).1 hc
  have h2 := hs.margins.sep y z hy hz hne
  have t1 := dst_triangle y (rpos p) z
  have t2 := dst_triangle (rpos p) (rpos q) z
  have e1 := dst_comm y (rpos p)
  have := hs.hμ
  have h3 : ((1 : ℝ) + 1 / 2 ^ 20) / 2 ^ 23 < 1 / 2 ^ 19 / 2 := by norm_num
  linarith

theorem Setting.close_exact (hs : Setting P S B θ μ δ) {y z : ℝ × ℝ} (hy : y ∈ P ∨ Meet P S y) (hz : z ∈ P ∨ Meet P S z) (hne : y ≠ z) :
    Utils.closeTo (pt y) (pt z) = false := by
  have h2 := hs.margins.sep y z hy hz hne
  have := hs.eps_lt
  have := XReal.epsR_pos
  unfold Utils.closeTo
  rw [UtilThm.distance_pt, XReal.eps_def, XReal.fin_le]
  simp only [decide_eq_false_iff_not, not_le]
  linarith

/-- for a symmetric statement about different places of a list -/
theorem pairwise_places {α : Type} {R : α → α → Prop} {l : List α} (hl : l.Pairwise fun x y => R x y ∧ R y x) {i j : ℕ} {x y : α}
    (hi : l[i]? = some x) (hj : l[j]? = some y) (hij : j ≠ i) : R x y := by
  obtain ⟨hil, rfl⟩ := List.getElem?_eq_some_iff.1 hi
  obtain ⟨hjl, rfl⟩ := List.getElem?_eq_some_iff.1 hj
  have h := List.pairwise_iff_getElem.1 hl
  rcases Nat.lt_or_gt_of_ne hij with hlt | hlt
  · exact (h j i hjl hil hlt).2
  · exact (h i j hil hjl hlt).1

/-- different edges have only nodes in common -/
def Thin (g : PlanarGraph XReal T U) (e f : Edge U) : Prop :=
  ∀ y, OnEdge (place g) e y → OnEdge (place g) f y → ∃ i, i < g.nodes.length ∧ place g i = y

theorem track_exists {f : Edge U} (hs : Setting P S B θ μ δ) (hm : s0 ∈ S) (he : h.edges = g.edges)
    (hout : ∀ e ∈ g.edges, Outcome P S S0 κ' δ g h s0 e f) (hthin : g.edges.Pairwise (Thin g)) :
    ∃ ys, Track P [s0.a, s0.b] S (S0 ++ [s0]) κ' δ (meetPoints g f) (meetPoints h f) ys ∧
      (∀ y ∈ ys, ∀ i, i < g.nodes.length → place g i ≠ y) ∧ ys.Nodup := by
  obtain ⟨ea, eb⟩ := hs.stroke_ends s0 hm
  unfold meetPoints
  rw [he]
  suffices key : ∀ es : List (Edge U), (∀ e ∈ es, e ∈ g.edges) → es.Pairwise (Thin g) →
      ∃ ys, Track P [s0.a, s0.b] S (S0 ++ [s0]) κ' δ (es.filterMap fun e => edgeMeets g.nodes e f)
        (es.filterMap fun e => edgeMeets h.nodes e f) ys ∧
        (∀ y ∈ ys, (∀ i, i < g.nodes.length → place g i ≠ y) ∧ ∃ e ∈ es, OnEdge (place g) e y) ∧ ys.Nodup by
    obtain ⟨ys, h1, h2, h3⟩ := key g.edges (fun _ h => h) hthin
    exact ⟨ys, h1, fun y hy => (h2 y hy).1, h3⟩
  intro es
  induction es with
  | nil => intro _ _; exact ⟨[], .nil, by simp, List.nodup_nil⟩
  | cons e es ih =>
    intro hsub hpw
    obtain ⟨hp1, hp2⟩ := List.pairwise_cons.1 hpw
    obtain ⟨ys, h1, h2, h3⟩ := ih (fun e he => hsub e (List.mem_cons_of_mem _ he)) hp2
    have h2' : ∀ y ∈ ys, (∀ i, i < g.nodes.length → place g i ≠ y) ∧ ∃ e' ∈ e :: es, OnEdge (place g) e' y := by
      intro y hy
      obtain ⟨k1, e', k2, k3⟩ := h2 y hy
      exact ⟨k1, e', List.mem_cons_of_mem _ k2, k3⟩
    rw [List.filterMap_cons, List.filterMap_cons]
    rcases hout e (hsub e (List.mem_cons_self ..)) with ⟨o1, o2⟩ | ⟨X, hX, o1, o2⟩ | ⟨y, q, o1, o2, o3, o4, o5⟩
    · rw [o1, o2]
      exact ⟨ys, h1, h2', h3⟩
    · have hXP : X ∈ P := by
        simp only [List.mem_cons, List.not_mem_nil, or_false] at hX
        rcases hX with rfl | rfl
        · exact ea
        · exact eb
      refine ⟨ys, ?_, h2', h3⟩
      cases hq : edgeMeets h.nodes e f with
      | none =>
        simp only
        cases hx : edgeMeets g.nodes e f with
        | none => exact h1
        | some p =>
          simp only
          rw [o1 p hx]
          exact .left X _ _ _ hX h1
      | some q =>
        simp only
        obtain ⟨q1, q2⟩ := o2 q hq
        refine .right q _ _ _ ⟨q1, X, hX, hXP, q2⟩ ?_
        cases hx : edgeMeets g.nodes e f with
        | none => exact h1
        | some p =>
          simp only
          rw [o1 p hx]
          exact .left X _ _ _ hX h1
    · rw [o3, o4]
      simp only
      refine ⟨y :: ys, .both y q _ _ _ o5 h1, ?_, ?_⟩
      · intro z hz
        rcases List.mem_cons.1 hz with rfl | hz
        · exact ⟨o2, e, List.mem_cons_self .., o1⟩
        · exact h2' z hz
      · refine List.nodup_cons.2 ⟨?_, h3⟩
        intro hc
        obtain ⟨_, e', k2, k3⟩ := h2 y hc
        obtain ⟨i, hi, hp⟩ := hp1 e' k2 y o1 k3
        exact o2 i hi hp

theorem track_unique {f : Edge U} (hs : Setting P S B θ μ δ) (hm : s0 ∈ S) (he : h.edges = g.edges)
    (hout : ∀ e ∈ g.edges, Outcome P S S0 κ' δ g h s0 e f) (hthin : g.edges.Pairwise (Thin g)) :
    ∃ ys, Track P [s0.a, s0.b] S (S0 ++ [s0]) κ' δ (Utils.uniquePointsAmong (meetPoints g f)) (Utils.uniquePointsAmong (meetPoints h f)) ys ∧
      (∀ y ∈ ys, ∀ i, i < g.nodes.length → place g i ≠ y) ∧ ys.Nodup := by
  obtain ⟨ys, h1, h2, h3⟩ := track_exists hs hm he hout hthin
  refine ⟨ys, ?_, h2, h3⟩
  have hthin' : ∀ {e e' : Edge U}, Thin g e e' → ∀ {z z' : ℝ × ℝ}, Meet P S z →
      (Meet P S z → OnEdge (place g) e z ∧ ∀ i, i < g.nodes.length → place g i ≠ z) →
      (z' ∈ P ∨ (Meet P S z' ∧ OnEdge (place g) e' z' ∧ ∀ i, i < g.nodes.length → place g i ≠ z')) → z ≠ z' := by
    rintro e e' ht z z' hz k1 k2 rfl
    rcases k2 with k2 | ⟨_, k2, _⟩
    · exact hz.1 k2
    · obtain ⟨i, hi, hp⟩ := ht z (k1 hz).1 k2
      exact (k1 hz).2 i hi hp
  have tsymm : ∀ {e e' : Edge U}, Thin g e e' → Thin g e' e := fun ht y y1 y2 => ht y y2 y1
  have vert : ∀ {e : Edge U} {z : ℝ × ℝ}, (z ∈ P ∨ (Meet P S z ∧ OnEdge (place g) e z ∧ ∀ i, i < g.nodes.length → place g i ≠ z)) →
      (z ∈ P ∨ Meet P S z) := fun h => h.imp id And.left
  have hp : (meetPoints g f).Pairwise fun p p' => (∀ y, p = pt y → Meet P S y → Utils.closeTo p p' = false) ∧
      ∀ y, p' = pt y → Meet P S y → Utils.closeTo p' p = false := by
    unfold meetPoints
    rw [List.pairwise_filterMap]
    refine (List.pairwise_iff_forall_sublist.2 ?_)
    intro e e' hsub p hp p' hp'
    have me : e ∈ g.edges := hsub.subset (by simp)
    have me' : e' ∈ g.edges := hsub.subset (by simp)
    have ht : Thin g e e' := by
      have := hthin.sublist hsub
      simpa using this
    obtain ⟨z, rfl, hz⟩ := (hout e me).exact' hs hm hp
    obtain ⟨z', rfl, hz'⟩ := (hout e' me').exact' hs hm hp'
    constructor
    · intro y hy hmt
      have := pt_inj hy
      subst this
      exact hs.close_exact (Or.inr hmt) (vert hz') (hthin' ht hmt (fun hmt => (hz.resolve_left hmt.1).2) hz')
    · intro y hy hmt
      have := pt_inj hy
      subst this
      exact hs.close_exact (Or.inr hmt) (vert hz) (hthin' (tsymm ht) hmt (fun hmt => (hz'.resolve_left hmt.1).2) hz)
  have hq : (meetPoints h f).Pairwise fun p p' => (∀ y, Found P S (S0 ++ [s0]) κ' δ y p → Utils.closeTo p p' = false) ∧
      ∀ y, Found P S (S0 ++ [s0]) κ' δ y p' → Utils.closeTo p' p = false := by
    have same : ∀ {z y : ℝ × ℝ} {p : Vec2 F32}, (z ∈ P ∨ Meet P S z) → 32 * dst (rpos p) z ≤ μ → Found P S (S0 ++ [s0]) κ' δ y p → z = y := by
      intro z y p hz hd hfo
      by_contra hne
      have k1 := hs.margins.sep z y hz (Or.inr hfo.meet) hne
      have k2 := dst_triangle z (rpos p) y
      rw [dst_comm z (rpos p)] at k2
      have := hfo.near
      have := hs.hδ
      have := hs.μ0
      linarith
    unfold meetPoints
    rw [he, List.pairwise_filterMap]
    refine (List.pairwise_iff_forall_sublist.2 ?_)
    intro e e' hsub p hp p' hp'
    have me : e ∈ g.edges := hsub.subset (by simp)
    have me' : e' ∈ g.edges := hsub.subset (by simp)
    have ht : Thin g e e' := by
      have := hthin.sublist hsub
      simpa using this
    obtain ⟨z, fp, np, hz⟩ := (hout e me).f32 hs hm hp
    obtain ⟨z', fp', np', hz'⟩ := (hout e' me').f32 hs hm hp'
    constructor
    · intro y hfo
      have := same (vert hz) np hfo
      subst this
      exact hs.close_f32 (vert hz) (vert hz') (hthin' ht hfo.meet (fun hmt => (hz.resolve_left hmt.1).2) hz') fp fp' np np'
    · intro y hfo
      have := same (vert hz') np' hfo
      subst this
      exact hs.close_f32 (vert hz') (vert hz) (hthin' (tsymm ht) hfo.meet (fun hmt => (hz'.resolve_left hmt.1).2) hz) fp' fp np' np
  unfold Utils.uniquePointsAmong
  refine h1.unique ?_ ?_ 0 0 (fun k => by rw [Nat.zero_add]) (fun k => by rw [Nat.zero_add])
  · intro i y hi hmt j p hj hij
    exact pairwise_places hp hi hj hij y rfl hmt
  · intro i y q hi hfo j p hj hij
    exact pairwise_places hq hi hj hij y hfo

end
end Kami.Graph
