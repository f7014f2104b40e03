import Verif.Graph.Arrangement
import Verif.Geom.MarginOn
/-!
# A drawing with margins: the f32 graph beside the exact graph

`Fit` describes the exact graph while a segment is added, `Shadow` the f32 graph with the same edges whose nodes are close to
the exact ones.  The tests of the adding operations have the same outcome in both graphs.
-/

set_option autoImplicit false

namespace Kami.Graph

open Kami Kami.F32 Kami.Simple Kami.DistF32 Kami.Margin
open scoped Kami
open PlanarGraph
open Kami.UtilThm (dst crs dt OnSegR dst_nonneg dst_comm dst_triangle dst_eq_zero)
open Kami.UtilsF32 (dst_le_coord abs_fst_le)

variable {T U : Type}

noncomputable section

/-! ## Specification -/

/-- the segment `s'` is on one side of the line through `s`, at least `m` away from it -/
def Beside (m : ℝ) (s s' : Stroke U) : Prop :=
  (m * dst s.a s.b ≤ crs s.a s.b s.a s'.a ∧ m * dst s.a s.b ≤ crs s.a s.b s.a s'.b) ∨
  (m * dst s.a s.b ≤ - crs s.a s.b s.a s'.a ∧ m * dst s.a s.b ≤ - crs s.a s.b s.a s'.b)

/-- The requested points `P` and segments `S` are in general position with margins: coordinates are at most `B`; points and crossings
are at least `μ` apart from each other and from the segments they are not on; a segment contains no requested points
other than its ends; no three segments cross in a point; no segment is requested twice; two segments enclose an angle with a
sine of at least `θ`, or the earlier one lies on one side of the line of the later one, `μ` away from it. -/
structure Margins (P : List (ℝ × ℝ)) (S : List (Stroke U)) (B θ μ : ℝ) : Prop where
  box : ∀ x ∈ P, |x.1| ≤ B ∧ |x.2| ≤ B
  nodup : P.Nodup
  sep : ∀ x y, (x ∈ P ∨ Meet P S x) → (y ∈ P ∨ Meet P S y) → x ≠ y → μ ≤ dst x y
  off : ∀ x, (x ∈ P ∨ Meet P S x) → ∀ s ∈ S, ¬ s.On x → ∀ z, s.On z → μ ≤ dst x z
  ends : ∀ x ∈ P, ∀ s ∈ S, s.On x → x = s.a ∨ x = s.b
  once : S.Pairwise fun s s' => ¬ (s.a = s'.a ∧ s.b = s'.b) ∧ ¬ (s.a = s'.b ∧ s.b = s'.a)
  cross_two : ∀ y, Meet P S y → ∀ s ∈ S, ∀ s' ∈ S, ∀ s'' ∈ S, s.On y → s'.On y → s''.On y → s = s' ∨ s = s'' ∨ s' = s''
  angle : S.Pairwise fun s s' => θ * (dst s.a s.b * dst s'.a s'.b) ≤ |crs s.a s.b s'.a s'.b| ∨ Beside μ s' s

/-- The margins are large enough for `N` segments in f32. -/
structure Fine (B θ μ : ℝ) (N : ℕ) : Prop where
  θ0 : 0 < θ
  θ1 : θ ≤ 1
  hB : μ ≤ B
  hμ : 1 / 2 ^ 19 ≤ μ
  sq : B ≤ 2 ^ 21 * μ ^ 2
  angle : (1024 + 4 * N) * B ≤ θ
  dist : (16 + N) * B ≤ 2 ^ 14 * (θ * μ)

/-- how far a node may be from the lines of its segments after `k` segments -/
def devBound (B : ℝ) (k : ℕ) : ℝ := (128 + 16 * k) * (u * B)

/-- how far a node may be from its true position, for `N` segments -/
def posBound (B θ : ℝ) (N : ℕ) : ℝ := (256 + 16 * N) * (u * B) / θ

/-! ## The exact graph and its shadow -/

/-- a drawing with margins, and room for an error `δ` of the positions -/
structure Setting (P : List (ℝ × ℝ)) (S : List (Stroke U)) (B θ μ δ : ℝ) : Prop where
  margins : Margins P S B θ μ
  stroke_ends : ∀ s ∈ S, s.a ∈ P ∧ s.b ∈ P
  θ0 : 0 < θ
  θ1 : θ ≤ 1
  hB : μ ≤ B
  hμ : 1 / 2 ^ 19 ≤ μ
  sq : 8 * (u * B) ≤ μ ^ 2
  hθ : 1024 * B ≤ θ
  δ0 : 0 ≤ δ
  hδ : 64 * δ ≤ μ
  hν : 2 ^ 14 * (u * B) ≤ θ * μ

/-- the deviation `κ` is small enough -/
structure Dev (θ μ κ : ℝ) : Prop where
  κ0 : 0 ≤ κ
  hκ : 64 * κ ≤ θ * μ
  hu : κ ≤ 4 * u

/-- the exact graph: nodes at points and crossings, edges on segments of `S1` -/
structure Fit (P : List (ℝ × ℝ)) (S S1 : List (Stroke U)) (g : PlanarGraph XReal T U) : Prop where
  wf : WF g
  drawn : Drawn g (place g)
  inj : ∀ i j, i < g.nodes.length → j < g.nodes.length → place g i = place g j → i = j
  vertex : ∀ i, i < g.nodes.length → place g i ∈ P ∨ Meet P S (place g i)
  noloop : ∀ e ∈ g.edges, e.src ≠ e.dst
  piece : ∀ e ∈ g.edges, ∃ s ∈ S1, s.On (place g e.src) ∧ s.On (place g e.dst)

/-- no node is inside an edge -/
def Clean (g : PlanarGraph XReal T U) : Prop :=
  ∀ e ∈ g.edges, ∀ i, i < g.nodes.length → OnEdge (place g) e (place g i) → IsEnd e i

/-- the f32 node `b` belongs to the exact node `a` at `x` -/
structure NodeShadow (P : List (ℝ × ℝ)) (S1 : List (Stroke U)) (κ δ : ℝ) (x : ℝ × ℝ) (a : Node XReal T) (b : Node F32 T) : Prop where
  data : b.data = a.data
  label : b.label = a.label
  fin : IsFin b.position.x ∧ IsFin b.position.y
  near : dst (rpos b.position) x ≤ δ
  exact' : x ∈ P → rpos b.position = x
  dev : ∀ s ∈ S1, s.On x → |crs s.a s.b s.a (rpos b.position)| ≤ κ * dst s.a s.b

/-- the f32 graph beside the exact graph -/
structure Shadow (P : List (ℝ × ℝ)) (S1 : List (Stroke U)) (κ δ : ℝ) (g : PlanarGraph XReal T U) (h : PlanarGraph F32 T U) : Prop where
  edges : h.edges = g.edges
  len : h.nodes.length = g.nodes.length
  node : ∀ i a b, g.nodes[i]? = some a → h.nodes[i]? = some b → NodeShadow P S1 κ δ (place g i) a b

section
variable {P : List (ℝ × ℝ)} {S S1 : List (Stroke U)} {B θ μ κ δ : ℝ} {g : PlanarGraph XReal T U} {h : PlanarGraph F32 T U}

theorem Setting.sizes (hs : Setting P S B θ μ δ) (hk : Dev θ μ κ) : Sizes B θ μ κ δ where
  B0 := lt_of_lt_of_le (lt_of_lt_of_le (by positivity) hs.hμ) hs.hB
  θ0 := hs.θ0
  θ1 := hs.θ1
  μ0 := lt_of_lt_of_le (by positivity) hs.hμ
  κ0 := hk.κ0
  δ0 := hs.δ0
  hδ := hs.hδ
  hκ := hk.hκ
  hν := hs.hν

theorem Setting.μ0 (hs : Setting P S B θ μ δ) : 0 < μ := lt_of_lt_of_le (by positivity) hs.hμ
theorem Setting.B0 (hs : Setting P S B θ μ δ) : 0 < B := lt_of_lt_of_le hs.μ0 hs.hB

theorem onSeg_box {a b x : ℝ × ℝ} {B : ℝ} (ha : |a.1| ≤ B ∧ |a.2| ≤ B) (hb : |b.1| ≤ B ∧ |b.2| ≤ B) (hx : OnSegR a b x) :
    |x.1| ≤ B ∧ |x.2| ≤ B := by
  obtain ⟨t, t0, t1, rfl⟩ := hx
  simp only [abs_le] at *
  obtain ⟨⟨a1, a2⟩, a3, a4⟩ := ha
  obtain ⟨⟨b1, b2⟩, b3, b4⟩ := hb
  refine ⟨⟨?_, ?_⟩, ?_, ?_⟩ <;> nlinarith

theorem Setting.vertex_box (hs : Setting P S B θ μ δ) {x : ℝ × ℝ} (hx : x ∈ P ∨ Meet P S x) : |x.1| ≤ B ∧ |x.2| ≤ B := by
  rcases hx with hx | ⟨_, s, hm, _, _, _, ho, _⟩
  · exact hs.margins.box x hx
  · exact onSeg_box (hs.margins.box _ (hs.stroke_ends s hm).1) (hs.margins.box _ (hs.stroke_ends s hm).2) ho

theorem abs_snd_le (a b : ℝ × ℝ) : |a.2 - b.2| ≤ dst a b := by
  unfold UtilThm.dst
  rw [← Real.sqrt_sq_eq_abs]
  apply Real.sqrt_le_sqrt
  nlinarith [sq_nonneg (a.1 - b.1)]

theorem abs_fst_le' (a b : ℝ × ℝ) : |a.1 - b.1| ≤ dst a b := by
  unfold UtilThm.dst
  rw [← Real.sqrt_sq_eq_abs]
  apply Real.sqrt_le_sqrt
  nlinarith [sq_nonneg (a.2 - b.2)]

/-- a finite point near a vertex has small coordinates -/
theorem Setting.near_box (hs : Setting P S B θ μ δ) {x : ℝ × ℝ} (hx : x ∈ P ∨ Meet P S x) {y : ℝ × ℝ} {m : ℝ} (hy : dst y x ≤ m)
    (hm : 8 * m ≤ μ) : |y.1| ≤ 9 / 8 * B ∧ |y.2| ≤ 9 / 8 * B := by
  obtain ⟨h1, h2⟩ := hs.vertex_box hx
  have k1 := abs_fst_le' y x
  have k2 := abs_snd_le y x
  have := hs.hB
  have := hs.B0
  constructor
  · have := abs_sub_abs_le_abs_sub y.1 x.1
    linarith
  · have := abs_sub_abs_le_abs_sub y.2 x.2
    linarith

theorem small_of_box {v : Vec2 F32} (hf : IsFin v.x ∧ IsFin v.y) (hb : |(rpos v).1| ≤ 1 ∧ |(rpos v).2| ≤ 1) : SmallPt v := by
  have k : ∀ x : F32, IsFin x → |(toRat x : ℝ)| ≤ 1 → SmallNum x := by
    intro x hx h1
    refine ⟨hx, ?_⟩
    have : |toRat x| ≤ (1 : ℚ) := by exact_mod_cast h1
    exact this.trans (by norm_num)
  exact ⟨k _ hf.1 hb.1, k _ hf.2 hb.2⟩

theorem Setting.small (hs : Setting P S B θ μ δ) {v : Vec2 F32} (hf : IsFin v.x ∧ IsFin v.y)
    (hb : |(rpos v).1| ≤ 9 / 8 * B ∧ |(rpos v).2| ≤ 9 / 8 * B) : SmallPt v := by
  have h1 := hs.hθ
  have h2 := hs.θ1
  have h3 := hs.B0
  exact small_of_box hf ⟨by linarith [hb.1], by linarith [hb.2]⟩

theorem NodeShadow.box {x : ℝ × ℝ} {a : Node XReal T} {b : Node F32 T} (hn : NodeShadow P S1 κ δ x a b) (hs : Setting P S B θ μ δ)
    (hx : x ∈ P ∨ Meet P S x) : |(rpos b.position).1| ≤ 9 / 8 * B ∧ |(rpos b.position).2| ≤ 9 / 8 * B :=
  hs.near_box hx hn.near (by linarith [hs.hδ, hs.δ0])

theorem NodeShadow.small {x : ℝ × ℝ} {a : Node XReal T} {b : Node F32 T} (hn : NodeShadow P S1 κ δ x a b) (hs : Setting P S B θ μ δ)
    (hx : x ∈ P ∨ Meet P S x) : SmallPt b.position :=
  hs.small hn.fin (hn.box hs hx)

/-! ### Points and pieces -/

/-- a vertex that is not on a piece of a segment is away from the piece -/
theorem Setting.far_piece (hs : Setting P S B θ μ δ) {s : Stroke U} (hm : s ∈ S) {a b x : ℝ × ℝ}
    (ha : a ∈ P ∨ Meet P S a) (hb : b ∈ P ∨ Meet P S b) (hx : x ∈ P ∨ Meet P S x) (oa : s.On a) (ob : s.On b) (hn : ¬ OnSegR a b x)
    {z : ℝ × ℝ} (hz : OnSegR a b z) : μ ≤ dst x z := by
  by_cases ho : s.On x
  · have na : x ≠ a := by rintro rfl; exact hn (onSeg_left _ _)
    have nb : x ≠ b := by rintro rfl; exact hn (onSeg_right _ _)
    have fa := hs.margins.sep x a hx ha na
    have fb := hs.margins.sep x b hx hb nb
    have hz' := (onSeg_iff _ _ _).1 hz
    rcases onSeg_three oa ob ho with h | h | h
    · exact absurd h hn
    all_goals
      have t1 := dst_triangle x z a
      have t2 := dst_triangle x z b
      have t3 := dst_triangle a x b
      have e1 := dst_comm x a
      have e2 := dst_comm x b
      have e3 := dst_comm a z
      have e4 := dst_comm a b
      linarith
  · exact hs.margins.off x hx s hm ho z (onSeg_sub oa ob hz)

theorem Setting.eps_ellipse (hs : Setting P S B θ μ δ) {a b p : ℝ × ℝ} (ha : |a.1| ≤ B ∧ |a.2| ≤ B) (hb : |b.1| ≤ B ∧ |b.2| ≤ B)
    (h : ∀ z, OnSegR a b z → μ ≤ dst p z) : dst a b + XReal.epsR ≤ dst a p + dst p b := by
  have h1 := far_ellipse hs.μ0.le h
  have h2 := dst_le_coord ha hb
  have h3 := hs.sq
  have h4 := hs.hμ
  have hu := u_pos
  have e : XReal.epsR = 2 * u := by unfold XReal.epsR u; norm_num
  rw [e]
  apply le_of_sq_le_sq _ (add_nonneg (dst_nonneg _ _) (dst_nonneg _ _))
  refine le_trans ?_ h1
  have h5 : u * dst a b ≤ u * (3 * B) := mul_le_mul_of_nonneg_left h2 hu.le
  have h6 : u ^ 2 ≤ μ ^ 2 := pow_le_pow_left₀ hu.le (le_trans (by unfold u; norm_num) h4) 2
  have h7 : u ^ 2 ≤ μ ^ 2 / 1024 := by
    have h6 : u ≤ μ / 32 := by
      have : u ≤ 1 / 2 ^ 19 / 32 := by unfold u; norm_num
      linarith
    have := pow_le_pow_left₀ hu.le h6 2
    have e : (μ / 32) ^ 2 = μ ^ 2 / 1024 := by ring
    linarith
  nlinarith

theorem Setting.eps_lt (hs : Setting P S B θ μ δ) : 16 * XReal.epsR ≤ μ := by
  have := hs.hμ
  have e : 16 * XReal.epsR = 1 / 2 ^ 19 := by unfold XReal.epsR; norm_num
  linarith

/-- **the test in the exact graph** -/
theorem Fit.test (hf : Fit P S S1 g) (hs : Setting P S B θ μ δ) (hS : ∀ s ∈ S1, s ∈ S) {e : Edge U} (he : e ∈ g.edges) {i : ℕ}
    (hi : i < g.nodes.length) : onTest g.nodes i e = true ↔ OnEdge (place g) e (place g i) ∧ ¬ IsEnd e i := by
  obtain ⟨w1, w2⟩ := hf.wf e he
  obtain ⟨s, hm, o1, o2⟩ := hf.piece e he
  have heps := XReal.epsR_pos
  have h16 := hs.eps_lt
  rw [onTest_iff hf.drawn w1 w2 hi]
  constructor
  · rintro ⟨t1, t2, t3⟩
    refine ⟨?_, ?_⟩
    · by_contra hc
      have := hs.eps_ellipse (hs.vertex_box (hf.vertex _ w1)) (hs.vertex_box (hf.vertex _ w2))
        (fun z hz => hs.far_piece (hS s hm) (hf.vertex _ w1) (hf.vertex _ w2) (hf.vertex _ hi) o1 o2 hc hz)
      linarith
    · rintro (rfl | rfl)
      · rw [dst_eq_zero.2 rfl] at t2; linarith
      · rw [dst_eq_zero.2 rfl] at t3; linarith
  · rintro ⟨h1, h2⟩
    have h3 := (onSeg_iff _ _ _).1 h1
    refine ⟨by linarith, ?_, ?_⟩
    · have := hs.margins.sep _ _ (hf.vertex _ w1) (hf.vertex _ hi) (fun hc => h2 (Or.inl (hf.inj _ _ hi w1 hc.symm)))
      linarith
    · have := hs.margins.sep _ _ (hf.vertex _ hi) (hf.vertex _ w2) (fun hc => h2 (Or.inr (hf.inj _ _ hi w2 hc)))
      linarith

theorem Shadow.get (hh : Shadow P S1 κ δ g h) {i : ℕ} (hi : i < g.nodes.length) :
    ∃ b, h.nodes[i]? = some b ∧ NodeShadow P S1 κ δ (place g i) g.nodes[i] b := by
  have hi' : i < h.nodes.length := by rw [hh.len]; exact hi
  exact ⟨_, List.getElem?_eq_getElem hi', hh.node i _ _ (List.getElem?_eq_getElem hi) (List.getElem?_eq_getElem hi')⟩

/-- **the test in the f32 graph** -/
theorem Shadow.test (hh : Shadow P S1 κ δ g h) (hf : Fit P S S1 g) (hs : Setting P S B θ μ δ) (hk : Dev θ μ κ) (hS : ∀ s ∈ S1, s ∈ S)
    {e : Edge U} (he : e ∈ g.edges) {i : ℕ} (hi : i < g.nodes.length) :
    onTest h.nodes i e = true ↔ OnEdge (place g) e (place g i) ∧ ¬ IsEnd e i := by
  obtain ⟨w1, w2⟩ := hf.wf e he
  obtain ⟨s, hm, o1, o2⟩ := hf.piece e he
  obtain ⟨a, ga, na⟩ := hh.get w1
  obtain ⟨b, gb, nb⟩ := hh.get w2
  obtain ⟨p, gp, np⟩ := hh.get hi
  have sa := na.small hs (hf.vertex _ w1)
  have sb := nb.small hs (hf.vertex _ w2)
  have sp := np.small hs (hf.vertex _ hi)
  have d4 := dst_le_coord (na.box hs (hf.vertex _ w1)) (nb.box hs (hf.vertex _ w2))
  have hB0 := hs.B0
  have d256 : dst (rpos a.position) (rpos b.position) ≤ 1 / 256 := by
    have := hs.hθ
    have := hs.θ1
    linarith
  have d4' : dst (rpos a.position) (rpos b.position) ≤ 4 * B := by linarith
  have hz := hs.sizes hk
  unfold onTest
  rw [ga, gb, gp]
  simp only
  constructor
  · intro ht
    refine ⟨?_, ?_⟩
    · by_contra hc
      have := on_false hz hs.hμ hs.sq sa sb sp d256 d4' na.near nb.near np.near
        (fun z hz => hs.far_piece (hS s hm) (hf.vertex _ w1) (hf.vertex _ w2) (hf.vertex _ hi) o1 o2 hc hz)
      rw [this] at ht; cases ht
    · intro hc
      have : Utils.isOnLineSegment a.position b.position p.position false = false := by
        refine on_end sa sb ?_
        rcases hc with rfl | rfl
        · left; rw [ga] at gp; cases gp; rfl
        · right; rw [gb] at gp; cases gp; rfl
      rw [this] at ht; cases ht
  · rintro ⟨h1, h2⟩
    have osp := onSeg_sub o1 o2 h1
    exact on_true hz hk.hu hs.hμ sa sb sp d256 h1
      (hs.margins.sep _ _ (hf.vertex _ w1) (hf.vertex _ hi) (fun hc => h2 (Or.inl (hf.inj _ _ hi w1 hc.symm))))
      (hs.margins.sep _ _ (hf.vertex _ hi) (hf.vertex _ w2) (fun hc => h2 (Or.inr (hf.inj _ _ hi w2 hc))))
      na.near nb.near np.near (dev_part o1 o2 (na.dev s hm o1)) (dev_part o1 o2 (nb.dev s hm o2)) (dev_part o1 o2 (np.dev s hm osp))

/-! ### Splitting -/

/-- both graphs are split alike -/
theorem Shadow.split_eq (hh : Shadow P S1 κ δ g h) (hf : Fit P S S1 g) (hs : Setting P S B θ μ δ) (hk : Dev θ μ κ)
    (hS : ∀ s ∈ S1, s ∈ S) {i : ℕ} (hi : i < g.nodes.length) :
    (splitAt h i).edges = (splitAt g i).edges ∧ splitChanged h i = splitChanged g i := by
  have ht : ∀ e ∈ g.edges, onTest h.nodes i e = onTest g.nodes i e := by
    intro e he
    rw [Bool.eq_iff_iff, hh.test hf hs hk hS he hi, hf.test hs hS he hi]
  have hfil : g.edges.filter (onTest h.nodes i) = g.edges.filter (onTest g.nodes i) := List.filter_congr ht
  have hzip : (g.edges.zipIdx).filter (fun x => onTest h.nodes i x.1) = (g.edges.zipIdx).filter (fun x => onTest g.nodes i x.1) := by
    apply List.filter_congr
    rintro ⟨e, j⟩ hm
    exact ht e (List.mem_of_getElem? (List.mk_mem_zipIdx_iff_getElem?.1 hm))
  unfold splitAt splitChanged
  simp only [hh.edges]
  rw [hfil, hzip]
  refine ⟨?_, rfl⟩
  congr 1
  apply List.map_congr_left
  intro e he
  rw [ht e he]

theorem Shadow.split (hh : Shadow P S1 κ δ g h) (hf : Fit P S S1 g) (hs : Setting P S B θ μ δ) (hk : Dev θ μ κ)
    (hS : ∀ s ∈ S1, s ∈ S) {i : ℕ} (hi : i < g.nodes.length) : Shadow P S1 κ δ (splitAt g i) (splitAt h i) :=
  ⟨(hh.split_eq hf hs hk hS hi).1, hh.len, hh.node⟩

theorem Fit.split (hf : Fit P S S1 g) (hs : Setting P S B θ μ δ) (hS : ∀ s ∈ S1, s ∈ S) {i : ℕ} (hi : i < g.nodes.length) :
    Fit P S S1 (splitAt g i) := by
  have hp : place (splitAt g i) = place g := rfl
  refine ⟨hf.wf.splitAt i, hf.drawn, hf.inj, hf.vertex, ?_, ?_⟩
  · intro e' he'
    obtain ⟨e, he, ⟨_, rfl⟩ | ⟨ho, h1⟩⟩ := mem_splitAt.1 he'
    · exact hf.noloop _ he
    · have h2 := ((hf.test hs hS he hi).1 ho).2
      rcases h1 with rfl | rfl
      · exact fun hc => h2 (Or.inl hc.symm)
      · exact fun hc => h2 (Or.inr hc.symm)
  · intro e' he'
    rw [hp]
    obtain ⟨e, he, ⟨_, rfl⟩ | ⟨ho, h1⟩⟩ := mem_splitAt.1 he'
    · exact hf.piece _ he
    · have h2 := ((hf.test hs hS he hi).1 ho).1
      obtain ⟨s, hm, o1, o2⟩ := hf.piece e he
      have h3 : s.On (place g i) := onSeg_sub o1 o2 h2
      rcases h1 with rfl | rfl
      · exact ⟨s, hm, o1, h3⟩
      · exact ⟨s, hm, o2, h3⟩

/-- splitting at a node that is in no edge does nothing -/
theorem splitAt_none {F : Type} [Scalar F] {g : PlanarGraph F T U} {i : ℕ} (hf : ∀ e ∈ g.edges, onTest g.nodes i e = false) :
    splitAt g i = g ∧ splitChanged g i = [] := by
  have h1 : g.edges.filter (onTest g.nodes i) = [] := by
    rw [List.filter_eq_nil_iff]; intro e he; rw [hf e he]; decide
  have h2 : g.edges.map (fun e => if onTest g.nodes i e then nearHalf i e else e) = g.edges := by
    conv_rhs => rw [← List.map_id g.edges]
    apply List.map_congr_left
    intro e he; rw [hf e he]; rfl
  have h3 : (g.edges.zipIdx).filter (fun x => onTest g.nodes i x.1) = [] := by
    rw [List.filter_eq_nil_iff]
    rintro ⟨e, j⟩ hm
    rw [hf e (List.mem_of_getElem? (List.mk_mem_zipIdx_iff_getElem?.1 hm))]; decide
  unfold splitAt splitChanged
  rw [h1, h2, h3]; simp

theorem Fit.split_clean (hf : Fit P S S1 g) (hs : Setting P S B θ μ δ) (hS : ∀ s ∈ S1, s ∈ S) (hc : Clean g) {i : ℕ}
    (hi : i < g.nodes.length) : splitAt g i = g ∧ splitChanged g i = [] := by
  apply splitAt_none
  intro e he
  rw [← Bool.not_eq_true, hf.test hs hS he hi]
  rintro ⟨h1, h2⟩
  exact h2 (hc e he i hi h1)

theorem Shadow.split_clean (hh : Shadow P S1 κ δ g h) (hf : Fit P S S1 g) (hs : Setting P S B θ μ δ) (hk : Dev θ μ κ)
    (hS : ∀ s ∈ S1, s ∈ S) (hc : Clean g) {i : ℕ} (hi : i < g.nodes.length) : splitAt h i = h ∧ splitChanged h i = [] := by
  apply splitAt_none
  intro e he
  rw [hh.edges] at he
  rw [← Bool.not_eq_true, hh.test hf hs hk hS he hi]
  rintro ⟨h1, h2⟩
  exact h2 (hc e he i hi h1)

/-! ### Nearest nodes -/

/-- in the exact graph -/
theorem Fit.not_near (hf : Fit P S S1 g) (hs : Setting P S B θ μ δ) {x : ℝ × ℝ} (hx : x ∈ P ∨ Meet P S x)
    (hn : ∀ i, i < g.nodes.length → place g i ≠ x) : ((nearest g (pt x)).2 <. Scalar.epsilon) = false := by
  apply not_near_of_far hf.drawn
  intro i hi
  have := hs.margins.sep x _ hx (hf.vertex i hi) (fun hc => hn i hi hc.symm)
  have := hs.eps_lt
  have := XReal.epsR_pos
  linarith

theorem Fit.near (hf : Fit P S S1 g) (hs : Setting P S B θ μ δ) {i : ℕ} (hi : i < g.nodes.length) :
    ((nearest g (pt (place g i))).2 <. Scalar.epsilon) = true ∧ (nearest g (pt (place g i))).1 = i := by
  have heps := XReal.epsR_pos
  have h1 : ((nearest g (pt (place g i))).2 <. Scalar.epsilon) = true :=
    near_of_close hf.drawn hi (by rw [dst_eq_zero.2 rfl]; exact heps)
  refine ⟨h1, ?_⟩
  obtain ⟨a, h2, h3, _⟩ := (nearest_spec g (pt (place g i))).1 h1
  have hlt := (List.getElem?_eq_some_iff.1 h2).1
  rw [h3, hf.drawn _ _ h2, UtilThm.distance_pt, XReal.eps_def, XReal.fin_lt] at h1
  simp only [decide_eq_true_eq] at h1
  by_contra hne
  have := hs.margins.sep _ _ (hf.vertex i hi) (hf.vertex _ hlt) (fun hc => hne (hf.inj _ _ hlt hi hc.symm))
  have := hs.eps_lt
  linarith

theorem dist_lt_eps {a b : Vec2 F32} (ha : SmallPt a) (hb : SmallPt b) :
    ((distance a b <. Scalar.epsilon) = true → dst (rpos a) (rpos b) ≤ 4 * u) ∧
    (dst (rpos a) (rpos b) ≤ u → (distance a b <. Scalar.epsilon) = true) := by
  obtain ⟨hf, h0, h⟩ := C90_distance ha hb
  rw [toRat_toReal] at h h0
  have hlt : (distance a b <. Scalar.epsilon) = true ↔ toReal (distance a b) < 1 / 2 ^ 23 := by
    rw [← toReal_eps]; exact lt_fin hf eps_isFin
  have hd := dst_nonneg (rpos a) (rpos b)
  obtain ⟨h1, h2⟩ := abs_le.1 h
  refine ⟨fun hb => ?_, fun hb => ?_⟩
  · rw [hlt] at hb
    unfold u
    norm_num at *
    linarith
  · rw [hlt]
    unfold u at hb
    norm_num at *
    linarith

/-- in the f32 graph -/
theorem Shadow.not_near (hh : Shadow P S1 κ δ g h) (hf : Fit P S S1 g) (hs : Setting P S B θ μ δ) {x : ℝ × ℝ}
    (hx : x ∈ P ∨ Meet P S x) (hn : ∀ i, i < g.nodes.length → place g i ≠ x) {q : Vec2 F32} (hq : IsFin q.x ∧ IsFin q.y)
    (hqx : dst (rpos q) x ≤ δ) : ((nearest h q).2 <. Scalar.epsilon) = false := by
  rw [← Bool.not_eq_true]; intro hc
  obtain ⟨b, h1, h2, _⟩ := (nearest_spec h q).1 hc
  have hlt := (List.getElem?_eq_some_iff.1 h1).1
  rw [hh.len] at hlt
  obtain ⟨b', h3, hb⟩ := hh.get hlt
  rw [h1] at h3
  cases h3
  have sq := hs.small hq (hs.near_box hx hqx (by linarith [hs.hδ, hs.δ0]))
  rw [h2] at hc
  have h4 := (dist_lt_eps sq (hb.small hs (hf.vertex _ hlt))).1 hc
  have h5 := hs.margins.sep x _ hx (hf.vertex _ hlt) (fun hc => hn _ hlt hc.symm)
  have t1 := dst_triangle x (rpos q) (place g (nearest h q).1)
  have t2 := dst_triangle (rpos q) (rpos b.position) (place g (nearest h q).1)
  have e1 := dst_comm x (rpos q)
  have := hb.near
  have := hs.hδ
  have h6 : 4 * u < 1 / 2 ^ 19 / 2 := by unfold u; norm_num
  have := hs.hμ
  linarith

theorem Shadow.near (hh : Shadow P S1 κ δ g h) (hf : Fit P S S1 g) (hs : Setting P S B θ μ δ) {i : ℕ} (hi : i < g.nodes.length)
    (hP : place g i ∈ P) {q : Vec2 F32} (hq : IsFin q.x ∧ IsFin q.y) (hqx : dst (rpos q) (place g i) ≤ u) :
    ((nearest h q).2 <. Scalar.epsilon) = true ∧ (nearest h q).1 = i := by
  have hu8 : 8 * u ≤ μ := by
    have := hs.hμ
    have : 8 * u ≤ 1 / 2 ^ 19 := by unfold u; norm_num
    linarith
  have sq := hs.small hq (hs.near_box (hf.vertex i hi) hqx hu8)
  obtain ⟨a, ga, na⟩ := hh.get hi
  have sa := na.small hs (hf.vertex i hi)
  have h1 : ((nearest h q).2 <. Scalar.epsilon) = true := by
    by_contra hc
    have := (nearest_spec h q).2 (by simpa using hc) a (List.mem_of_getElem? ga)
    rw [(dist_lt_eps sq sa).2 (by rw [na.exact' hP]; exact hqx)] at this
    cases this
  refine ⟨h1, ?_⟩
  obtain ⟨b, h2, h3, _⟩ := (nearest_spec h q).1 h1
  have hlt := (List.getElem?_eq_some_iff.1 h2).1
  rw [hh.len] at hlt
  obtain ⟨b', h4, hb⟩ := hh.get hlt
  rw [h2] at h4
  cases h4
  rw [h3] at h1
  have h5 := (dist_lt_eps sq (hb.small hs (hf.vertex _ hlt))).1 h1
  by_contra hne
  have h6 := hs.margins.sep _ _ (hf.vertex i hi) (hf.vertex _ hlt) (fun hc => hne (hf.inj _ _ hlt hi hc.symm))
  have t1 := dst_triangle (place g i) (rpos q) (place g (nearest h q).1)
  have t2 := dst_triangle (rpos q) (rpos b.position) (place g (nearest h q).1)
  have e1 := dst_comm (place g i) (rpos q)
  have := hb.near
  have := hs.hδ
  have h6 : 5 * u < 1 / 2 ^ 19 / 2 := by unfold u; norm_num
  have := hs.hμ
  linarith

/-! ### Inserting a node -/

theorem place_push (g : PlanarGraph XReal T U) (x : ℝ × ℝ) (t : T) :
    (∀ i, i < g.nodes.length → place (pushNode g (pt x) t) i = place g i) ∧ place (pushNode g (pt x) t) g.nodes.length = x := by
  constructor
  · intro i hi
    unfold place pushNode
    rw [List.getElem?_append_left hi]
  · unfold place pushNode
    simp [pt, realOf]

theorem Fit.push (hf : Fit P S S1 g) {x : ℝ × ℝ} (hx : x ∈ P ∨ Meet P S x) (hn : ∀ i, i < g.nodes.length → place g i ≠ x) (t : T) :
    Fit P S S1 (pushNode g (pt x) t) := by
  obtain ⟨p1, p2⟩ := place_push g x t
  have hlen : (pushNode g (pt x) t).nodes.length = g.nodes.length + 1 := by simp [pushNode]
  have cases' : ∀ i, i < (pushNode g (pt x) t).nodes.length → i < g.nodes.length ∨ i = g.nodes.length := by
    intro i hi; omega
  refine ⟨hf.wf.pushNode _ _, ?_, ?_, ?_, hf.noloop, ?_⟩
  · intro i a ha
    rcases cases' i (List.getElem?_eq_some_iff.1 ha).1 with hi | rfl
    · rw [p1 i hi]
      unfold pushNode at ha
      rw [List.getElem?_append_left hi] at ha
      exact hf.drawn i a ha
    · rw [p2]
      simp [pushNode] at ha
      rw [← ha]
  · intro i j hi hj he
    rcases cases' i hi with hi | rfl <;> rcases cases' j hj with hj | rfl
    · rw [p1 i hi, p1 j hj] at he; exact hf.inj i j hi hj he
    · rw [p1 i hi, p2] at he; exact absurd he (hn i hi)
    · rw [p1 j hj, p2] at he; exact absurd he.symm (hn j hj)
    · rfl
  · intro i hi
    rcases cases' i hi with hi | rfl
    · rw [p1 i hi]; exact hf.vertex i hi
    · rw [p2]; exact hx
  · intro e he
    obtain ⟨w1, w2⟩ := hf.wf e he
    rw [p1 _ w1, p1 _ w2]
    exact hf.piece e he

theorem Shadow.push (hh : Shadow P S1 κ δ g h) {x : ℝ × ℝ} {q : Vec2 F32} {t : T}
    (hn : NodeShadow P S1 κ δ x (⟨pt x, t, ""⟩ : Node XReal T) (⟨q, t, ""⟩ : Node F32 T)) :
    Shadow P S1 κ δ (pushNode g (pt x) t) (pushNode h q t) := by
  obtain ⟨p1, p2⟩ := place_push g x t
  refine ⟨hh.edges, by simp [pushNode, hh.len], ?_⟩
  intro i a b ha hb
  have hi := (List.getElem?_eq_some_iff.1 ha).1
  have hlen : (pushNode g (pt x) t).nodes.length = g.nodes.length + 1 := by simp [pushNode]
  by_cases hlt : i < g.nodes.length
  · rw [p1 i hlt]
    unfold pushNode at ha hb
    rw [List.getElem?_append_left hlt] at ha
    rw [List.getElem?_append_left (by rw [hh.len]; exact hlt)] at hb
    exact hh.node i a b ha hb
  · have : i = g.nodes.length := by omega
    subst this
    rw [p2]
    simp only [pushNode, List.getElem?_concat_length, Option.some.injEq] at ha
    rw [← hh.len] at hb
    simp only [pushNode, List.getElem?_concat_length, Option.some.injEq] at hb
    subst ha hb
    exact hn

/-- after the insertion of a node there, the new node is in no edge -/
theorem Fit.clean_push (hf : Fit P S S1 g) (hs : Setting P S B θ μ δ) (hS : ∀ s ∈ S1, s ∈ S) (hc : Clean g) {x : ℝ × ℝ}
    (hx : x ∈ P ∨ Meet P S x) (hn : ∀ i, i < g.nodes.length → place g i ≠ x) (t : T) :
    Clean (splitAt (pushNode g (pt x) t) g.nodes.length) := by
  obtain ⟨p1, p2⟩ := place_push g x t
  have hf' := hf.push hx hn t
  have hlen : (pushNode g (pt x) t).nodes.length = g.nodes.length + 1 := by simp [pushNode]
  have hid : g.nodes.length < (pushNode g (pt x) t).nodes.length := by omega
  have hp : place (splitAt (pushNode g (pt x) t) g.nodes.length) = place (pushNode g (pt x) t) := rfl
  intro e' he' i hi hon
  rw [hp] at hon
  replace hi : i < g.nodes.length + 1 := by rw [← hlen]; exact hi
  obtain ⟨e, he, hcase⟩ := mem_splitAt.1 he'
  obtain ⟨w1, w2⟩ := hf.wf e he
  have old : ∀ {i}, i < g.nodes.length → OnEdge (place (pushNode g (pt x) t)) e (place (pushNode g (pt x) t) i) → IsEnd e i := by
    intro i hi hon
    apply hc e he i hi
    unfold OnEdge at *
    rw [p1 _ w1, p1 _ w2, p1 i hi] at hon
    exact hon
  rcases hcase with ⟨ho, rfl⟩ | ⟨ho, h1⟩
  · rcases Nat.lt_succ_iff_lt_or_eq.1 hi with hi | rfl
    · exact old hi hon
    · by_contra hne
      rw [(hf'.test hs hS he hid).2 ⟨hon, hne⟩] at ho
      cases ho
  · obtain ⟨h2, h3⟩ := (hf'.test hs hS he hid).1 ho
    rcases Nat.lt_succ_iff_lt_or_eq.1 hi with hi' | rfl
    · have hne : place (pushNode g (pt x) t) i ≠ place (pushNode g (pt x) t) g.nodes.length := by
        rw [p1 i hi', p2]; exact hn i hi'
      have key : ∀ {a b : ℕ}, OnSegR (place (pushNode g (pt x) t) a) (place (pushNode g (pt x) t) b) (place (pushNode g (pt x) t) g.nodes.length) →
          OnSegR (place (pushNode g (pt x) t) a) (place (pushNode g (pt x) t) g.nodes.length) (place (pushNode g (pt x) t) i) → i = b → False := by
        rintro a b k1 k2 rfl
        exact hne (onSeg_far k1 k2).symm
      rcases h1 with rfl | rfl
      · have hon' : OnEdge (place (pushNode g (pt x) t)) e (place (pushNode g (pt x) t) i) := onSeg_part h2 hon
        rcases old hi' hon' with h4 | h4
        · exact Or.inl h4
        · exact (key h2 hon h4).elim
      · have hon' : OnEdge (place (pushNode g (pt x) t)) e (place (pushNode g (pt x) t) i) := onSeg_symm (onSeg_part (onSeg_symm h2) hon)
        rcases old hi' hon' with h4 | h4
        · exact (key (onSeg_symm h2) hon h4).elim
        · exact Or.inl h4
    · rcases h1 with rfl | rfl
      · exact Or.inr rfl
      · exact Or.inr rfl

/-! ### Inserting the crossings -/

/-- the f32 point `q` found for the crossing `y` -/
structure Found (P : List (ℝ × ℝ)) (S S1 : List (Stroke U)) (κ δ : ℝ) (y : ℝ × ℝ) (q : Vec2 F32) : Prop where
  meet : Meet P S y
  fin : IsFin q.x ∧ IsFin q.y
  near : dst (rpos q) y ≤ δ
  dev : ∀ s ∈ S1, s.On y → |crs s.a s.b s.a (rpos q)| ≤ κ * dst s.a s.b

/-- the f32 point `q` found next to a requested point -/
def AtPoint (P E : List (ℝ × ℝ)) (q : Vec2 F32) : Prop := (IsFin q.x ∧ IsFin q.y) ∧ ∃ X ∈ E, X ∈ P ∧ dst (rpos q) X ≤ u

/-- the points found in both graphs: crossings in both at the same places, points next to requested points in any of them; `ys` lists
the crossings -/
inductive Track (P E : List (ℝ × ℝ)) (S S1 : List (Stroke U)) (κ δ : ℝ) : List (Vec2 XReal) → List (Vec2 F32) → List (ℝ × ℝ) → Prop
  | nil : Track P E S S1 κ δ [] [] []
  | left (X : ℝ × ℝ) (xs : List (Vec2 XReal)) (qs : List (Vec2 F32)) (ys : List (ℝ × ℝ)) :
      X ∈ E → Track P E S S1 κ δ xs qs ys → Track P E S S1 κ δ (pt X :: xs) qs ys
  | right (q : Vec2 F32) (xs : List (Vec2 XReal)) (qs : List (Vec2 F32)) (ys : List (ℝ × ℝ)) :
      AtPoint P E q → Track P E S S1 κ δ xs qs ys → Track P E S S1 κ δ xs (q :: qs) ys
  | both (y : ℝ × ℝ) (q : Vec2 F32) (xs : List (Vec2 XReal)) (qs : List (Vec2 F32)) (ys : List (ℝ × ℝ)) :
      Found P S S1 κ δ y q → Track P E S S1 κ δ xs qs ys → Track P E S S1 κ δ (pt y :: xs) (q :: qs) (y :: ys)

theorem Track.inserts [Inhabited T] {E : List (ℝ × ℝ)} {xs : List (Vec2 XReal)} {qs : List (Vec2 F32)} {ys : List (ℝ × ℝ)}
    (ht : Track P E S S1 κ δ xs qs ys) (hs : Setting P S B θ μ δ) (hk : Dev θ μ κ) (hS : ∀ s ∈ S1, s ∈ S) :
    ∀ {g : PlanarGraph XReal T U} {h : PlanarGraph F32 T U}, Fit P S S1 g → Clean g → Shadow P S1 κ δ g h →
      (∀ X ∈ E, ∃ i, i < g.nodes.length ∧ place g i = X) → (∀ y ∈ ys, ∀ i, i < g.nodes.length → place g i ≠ y) → ys.Nodup →
      ∀ {g' : PlanarGraph XReal T U} {cn ce : List ℕ}, Inserts g xs g' cn ce →
      ∀ {h' : PlanarGraph F32 T U} {cn' ce' : List ℕ}, Inserts h qs h' cn' ce' → Shadow P S1 κ δ g' h' ∧ cn' = cn ∧ ce' = ce := by
  induction ht with
  | nil =>
    intro g h hf hc hh hE hy hn g' cn ce hi h' cn' ce' hi'
    cases hi
    cases hi'
    exact ⟨hh, rfl, rfl⟩
  | left X xs qs ys hX _ ih =>
    intro g h hf hc hh hE hy hn g' cn ce hi h' cn' ce' hi'
    cases hi with
    | cons _ _ _ _ cn ce hi =>
      obtain ⟨i, hlt, rfl⟩ := hE X hX
      obtain ⟨n1, n2⟩ := hf.near hs hlt
      obtain ⟨c1, c2⟩ := hf.split_clean hs hS hc hlt
      have e1 : insertPt g (pt (place g i)) = g := by
        unfold insertPt; rw [if_pos n1, n2, c1]
      have e2 : insertNodes g (pt (place g i)) = [] := by unfold insertNodes; rw [if_pos n1]
      have e3 : insertChanged g (pt (place g i)) = [] := by unfold insertChanged; rw [if_pos n1, n2, c2]
      rw [e1] at hi
      rw [e2, e3]
      exact ih hf hc hh hE hy hn hi hi'
  | right q xs qs ys hq _ ih =>
    intro g h hf hc hh hE hy hn g' cn ce hi h' cn' ce' hi'
    cases hi' with
    | cons _ _ _ _ cn' ce' hi' =>
      obtain ⟨fq, X, hX, hP, hd⟩ := hq
      obtain ⟨i, hlt, rfl⟩ := hE X hX
      obtain ⟨n1, n2⟩ := hh.near hf hs hlt hP fq hd
      obtain ⟨c1, c2⟩ := hh.split_clean hf hs hk hS hc hlt
      have e1 : insertPt h q = h := by
        unfold insertPt; rw [if_pos n1, n2, c1]
      have e2 : insertNodes h q = [] := by unfold insertNodes; rw [if_pos n1]
      have e3 : insertChanged h q = [] := by unfold insertChanged; rw [if_pos n1, n2, c2]
      rw [e1] at hi'
      rw [e2, e3]
      exact ih hf hc hh hE hy hn hi hi'
  | both y q xs qs ys hq _ ih =>
    intro g h hf hc hh hE hy hn g' cn ce hi h' cn' ce' hi'
    have hyn := hy y (by simp)
    have n1 := hf.not_near hs (Or.inr hq.meet) hyn
    have n2 := hh.not_near hf hs (Or.inr hq.meet) hyn hq.fin hq.near
    have hsh : NodeShadow P S1 κ δ y (⟨pt y, default, ""⟩ : Node XReal T) (⟨q, default, ""⟩ : Node F32 T) :=
      ⟨rfl, rfl, hq.fin, hq.near, fun hc => absurd hc hq.meet.1, hq.dev⟩
    have hlen : (pushNode g (pt y) (default : T)).nodes.length = g.nodes.length + 1 := by simp [pushNode]
    have hid : g.nodes.length < (pushNode g (pt y) (default : T)).nodes.length := by omega
    obtain ⟨p1, p2⟩ := place_push g y (default : T)
    have hf1 := hf.push (Or.inr hq.meet) hyn (default : T)
    have hh1 := hh.push hsh
    obtain ⟨_, s2⟩ := hh1.split_eq hf1 hs hk hS hid
    have hh2 := hh1.split hf1 hs hk hS hid
    have hf2 := hf1.split hs hS hid
    have hc2 := hf.clean_push hs hS hc (Or.inr hq.meet) hyn (default : T)
    have e1 : insertPt g (pt y) = splitAt (pushNode g (pt y) default) g.nodes.length := by
      unfold insertPt; rw [if_neg (by rw [n1]; decide)]
    have e2 : insertNodes g (pt y) = [g.nodes.length] := by unfold insertNodes; rw [if_neg (by rw [n1]; decide)]
    have e3 : insertChanged g (pt y) = splitChanged (pushNode g (pt y) default) g.nodes.length := by
      unfold insertChanged; rw [if_neg (by rw [n1]; decide)]
    have e1' : insertPt h q = splitAt (pushNode h q default) g.nodes.length := by
      unfold insertPt; rw [if_neg (by rw [n2]; decide), hh.len]
    have e2' : insertNodes h q = [g.nodes.length] := by unfold insertNodes; rw [if_neg (by rw [n2]; decide), hh.len]
    have e3' : insertChanged h q = splitChanged (pushNode h q default) g.nodes.length := by
      unfold insertChanged; rw [if_neg (by rw [n2]; decide), hh.len]
    cases hi with
    | cons _ _ _ _ cn ce hi =>
      cases hi' with
      | cons _ _ _ _ cn' ce' hi' =>
        rw [e1] at hi
        rw [e1'] at hi'
        rw [e2, e3, e2', e3', s2]
        have hE' : ∀ X ∈ E, ∃ i, i < (splitAt (pushNode g (pt y) (default : T)) g.nodes.length).nodes.length ∧
            place (splitAt (pushNode g (pt y) (default : T)) g.nodes.length) i = X := by
          intro X hX
          obtain ⟨i, h1, h2⟩ := hE X hX
          exact ⟨i, by show i < (pushNode g (pt y) (default : T)).nodes.length; omega, (p1 i h1).trans h2⟩
        have hy' : ∀ z ∈ ys, ∀ i, i < (splitAt (pushNode g (pt y) (default : T)) g.nodes.length).nodes.length →
            place (splitAt (pushNode g (pt y) (default : T)) g.nodes.length) i ≠ z := by
          intro z hz i hi
          replace hi : i < g.nodes.length + 1 := by rw [← hlen]; exact hi
          show place (pushNode g (pt y) (default : T)) i ≠ z
          rcases Nat.lt_succ_iff_lt_or_eq.1 hi with hi | rfl
          · rw [p1 i hi]; exact hy z (List.mem_cons_of_mem _ hz) i hi
          · rw [p2]; rintro rfl; exact (List.nodup_cons.1 hn).1 hz
        obtain ⟨r1, r2, r3⟩ := ih hf2 hc2 hh2 hE' hy' (List.nodup_cons.1 hn).2 hi hi'
        exact ⟨r1, by rw [r2], by rw [r3]⟩

/-! ### Points without close neighbours -/

theorem Track.unique {E : List (ℝ × ℝ)} {ps as : List (Vec2 XReal)} {qs bs : List (Vec2 F32)} {ys : List (ℝ × ℝ)}
    (ht : Track P E S S1 κ δ as bs ys)
    (hp : ∀ (i : ℕ) y, ps[i]? = some (pt y) → Meet P S y → ∀ (j : ℕ) x, ps[j]? = some x → j ≠ i → Utils.closeTo (pt y) x = false)
    (hq : ∀ (i : ℕ) y q, qs[i]? = some q → Found P S S1 κ δ y q → ∀ (j : ℕ) x, qs[j]? = some x → j ≠ i → Utils.closeTo q x = false) :
    ∀ i j, (∀ k, as[k]? = ps[i + k]?) → (∀ k, bs[k]? = qs[j + k]?) →
      Track P E S S1 κ δ (Utils.uniqueLoop ps as i) (Utils.uniqueLoop qs bs j) ys := by
  induction ht with
  | nil => intro i j _ _; exact .nil
  | left X xs qs' ys hX _ ih =>
    intro i j h1 h2
    have ih := ih (i + 1) j (fun k => by have := h1 (k + 1); rw [List.getElem?_cons_succ] at this; rw [this]; congr 1; omega) h2
    simp only [Utils.uniqueLoop]
    split
    · exact .left X _ _ _ hX ih
    · exact ih
  | right q xs qs' ys hq' _ ih =>
    intro i j h1 h2
    have ih := ih i (j + 1) h1 (fun k => by have := h2 (k + 1); rw [List.getElem?_cons_succ] at this; rw [this]; congr 1; omega)
    simp only [Utils.uniqueLoop]
    split
    · exact .right q _ _ _ hq' ih
    · exact ih
  | both y q xs qs' ys hq' _ ih =>
    intro i j h1 h2
    have ih := ih (i + 1) (j + 1) (fun k => by have := h1 (k + 1); rw [List.getElem?_cons_succ] at this; rw [this]; congr 1; omega)
      (fun k => by have := h2 (k + 1); rw [List.getElem?_cons_succ] at this; rw [this]; congr 1; omega)
    have g1 : ps[i]? = some (pt y) := (h1 0).symm
    have g2 : qs[j]? = some q := (h2 0).symm
    simp only [Utils.uniqueLoop]
    rw [if_pos, if_pos]
    · exact .both y q _ _ _ hq' ih
    · rw [UtilThm.isUnique_iff]
      intro k b hk hne
      exact hq j y q g2 hq' k b hk (by omega)
    · rw [UtilThm.isUnique_iff]
      intro k b hk hne
      exact hp i y g1 hq'.meet k b hk (by omega)

end
end
end Kami.Graph
