import Verif.Graph.StreetGrid
import Verif.Graph.Drawable
/-!
# C157: the f32 graph of a street map

On a small whole-number grid the f32 calls for horizontal and vertical segments do what the exact calls do (C128), and all tolerances are
kept by themselves.  So the theorems C149 to C156 about drawings without general position hold for f32 street maps, without any
condition on distances.
-/

set_option autoImplicit false

namespace Kami.Graph

open Kami Kami.F32 Kami.Utils Kami.DistF32 Kami.UtilThm Kami.Simple
open scoped Kami
open PlanarGraph

variable {T U : Type}

/-! ## Specification -/

/-- the calls of a street map: points with whole coordinates in a square of side 12, segments between points asked for before, horizontal
or vertical and not points -/
structure StreetMap (X Y : ℤ) (cs : List (Call F32 T U)) : Prop where
  known : Known 0 (cs.map Call.req)
  box : ∀ v ∈ spots cs, InBox X Y v
  street : ∀ s ∈ strokes [] (cs.map Call.req), s.a ≠ s.b ∧ (s.a.1 = s.b.1 ∨ s.a.2 = s.b.2)

/-- whole coordinates in the square -/
def WholeIn (X Y : ℤ) (y : ℝ × ℝ) : Prop := ∃ i j : ℤ, y = ((i : ℝ), (j : ℝ)) ∧ (X ≤ i ∧ i ≤ X + 12) ∧ (Y ≤ j ∧ j ≤ Y + 12)

noncomputable section

variable {X Y : ℤ}

/-! ## The tolerances -/

theorem points_spots (cs : List (Call F32 T U)) : points (cs.map Call.req) = (spots cs).map rpos := by
  induction cs with
  | nil => rfl
  | cons c cs ih =>
    cases c
    · simpa [spots, Call.req, points, wanted] using ih
    · simpa [spots, Call.req, points, wanted] using ih

theorem WholeIn.of_box {v : Vec2 F32} (h : InBox X Y v) : WholeIn X Y (rpos v) := by
  obtain ⟨x, y, hA, hx, hy⟩ := h
  exact ⟨x, y, rpos_at hA, hx, hy⟩

theorem WholeIn.lift (bX : |X| ≤ 2 ^ 21) (bY : |Y| ≤ 2 ^ 21) {y : ℝ × ℝ} (h : WholeIn X Y y) :
    ∃ (v : Vec2 F32) (i j : ℤ), At v i j ∧ rpos v = y ∧ (X ≤ i ∧ i ≤ X + 12) ∧ (Y ≤ j ∧ j ≤ Y + 12) := by
  obtain ⟨i, j, rfl, hi, hj⟩ := h
  rw [abs_le] at bX bY
  have hA := pos_at (x := i) (y := j) (by omega) (by omega)
  exact ⟨pos i j, i, j, hA, rpos_at hA, hi, hj⟩

theorem on_fst {a b y : ℝ × ℝ} (h : a.1 = b.1) (ho : OnSegR a b y) : y.1 = a.1 := by
  obtain ⟨t, _, _, rfl⟩ := ho
  simp [h]

theorem on_snd {a b y : ℝ × ℝ} (h : a.2 = b.2) (ho : OnSegR a b y) : y.2 = a.2 := by
  obtain ⟨t, _, _, rfl⟩ := ho
  simp [h]

/-- crossings of streets are whole -/
theorem streets_spot {P : List (ℝ × ℝ)} {S : List (Stroke U)} (hP : ∀ x ∈ P, WholeIn X Y x)
    (hends : ∀ s ∈ S, s.a ∈ P ∧ s.b ∈ P) (hst : ∀ s ∈ S, s.a ≠ s.b ∧ (s.a.1 = s.b.1 ∨ s.a.2 = s.b.2)) {y : ℝ × ℝ} (hy : Spot P S y) :
    WholeIn X Y y := by
  rcases hy with hy | ⟨s, hs, s', hs', hne, o, o'⟩
  · exact hP y hy
  · obtain ⟨i, j, e, hi, hj⟩ := hP _ (hends s hs).1
    obtain ⟨i', j', e', hi', hj'⟩ := hP _ (hends s' hs').1
    rcases (hst s hs).2 with h | h <;> rcases (hst s' hs').2 with h' | h'
    · exact absurd (by unfold crs; rw [h, h']; ring) hne
    · refine ⟨i, j', ?_, hi, hj'⟩
      ext
      · rw [on_fst h o, e]
      · rw [on_snd h' o', e']
    · refine ⟨i', j, ?_, hi', hj⟩
      ext
      · rw [on_fst h' o', e']
      · rw [on_snd h o, e]
    · exact absurd (by unfold crs; rw [h, h']; ring) hne

/-- street maps are clear up to the tolerance -/
theorem streets_spread (bX : |X| ≤ 2 ^ 21) (bY : |Y| ≤ 2 ^ 21) {P : List (ℝ × ℝ)} {S : List (Stroke U)}
    (hP : ∀ x ∈ P, WholeIn X Y x) (hends : ∀ s ∈ S, s.a ∈ P ∧ s.b ∈ P)
    (hst : ∀ s ∈ S, s.a ≠ s.b ∧ (s.a.1 = s.b.1 ∨ s.a.2 = s.b.2)) : Spread P S := by
  have e1 := eps_lt_one
  constructor
  · intro x y hx hy hne
    obtain ⟨v, i, j, hv, rfl, _⟩ := (streets_spot hP hends hst hx).lift bX bY
    obtain ⟨w, i', j', hw, rfl, _⟩ := (streets_spot hP hends hst hy).lift bX bY
    exact lt_of_lt_of_le e1 (dst_whole_ge hv hw hne)
  · intro x hx s hs hno
    obtain ⟨p, i, j, hp, ep, bi, bj⟩ := (streets_spot hP hends hst hx).lift bX bY
    obtain ⟨a, ia, ja, ha, ea, bia, bja⟩ := (hP _ (hends s hs).1).lift bX bY
    obtain ⟨b, ib, jb, hb, eb, bib, bjb⟩ := (hP _ (hends s hs).2).lift bX bY
    obtain ⟨hne, hstr⟩ := hst s hs
    have hstr : Straight (rpos a) (rpos b) := by rw [ea, eb]; exact hstr
    obtain ⟨_, h2⟩ := C128_on ha hb hp ((straight_at ha hb).1 hstr) (abs_le.2 (by omega)) (abs_le.2 (by omega))
      (abs_le.2 (by omega)) (abs_le.2 (by omega)) (by rw [ea, eb]; exact hne) false
    rw [onSeg_test] at h2
    have n1 : rpos a ≠ rpos p := by
      intro hc
      rw [ea, ep] at hc
      exact hno (hc ▸ onSeg_left _ _)
    have n2 : rpos p ≠ rpos b := by
      intro hc
      rw [eb, ep] at hc
      exact hno (hc ▸ onSeg_right _ _)
    have d1 := dst_whole_ge ha hp n1
    have d2 := dst_whole_ge hp hb n2
    rw [ea, ep] at d1
    rw [eb, ep] at d2
    rw [ea, eb, ep] at h2
    by_contra hc
    push Not at hc
    exact hno (h2.1 ⟨hc, by linarith, by linarith⟩).1

/-! ## The session -/

theorem place_exactG (h : PlanarGraph F32 T U) (i : ℕ) : place (exactG h) i = spot h i := by
  unfold place spot
  rw [exact_get]
  cases h.nodes[i]? <;> rfl

theorem town_session [Inhabited T] (bX : |X| ≤ 2 ^ 21) (bY : |Y| ≤ 2 ^ 21) {P : List (ℝ × ℝ)} {S : List (Stroke U)} (hA : Spread P S)
    (hst : ∀ s ∈ S, s.a ≠ s.b ∧ (s.a.1 = s.b.1 ∨ s.a.2 = s.b.2)) (cs : List (Call F32 T U)) :
    ∀ (P0 : List ((ℝ × ℝ) × T)) (S0 : List (Stroke U)) (h : PlanarGraph F32 T U) (ids : List ℕ), Sketch P0 S0 (exactG h) ids →
      Town X Y h → (∀ v ∈ spots cs, InBox X Y v) → Known P0.length (cs.map Call.req) → P = P0.map Prod.fst ++ points (cs.map Call.req) →
      S = S0 ++ strokes (P0.map Prod.fst) (cs.map Call.req) →
      ∃ h' ids' l, session h ids cs = .ok (h', ids', l) ∧ client (exactG h) ids (cs.map Call.req) = .ok (exactG h', ids') := by
  induction cs with
  | nil => intro P0 S0 h ids _ _ _ _ _ _; exact ⟨h, ids, [], rfl, rfl⟩
  | cons c cs ih =>
    intro P0 S0 h ids hk ht hbox hv hP hS
    have hP' : ∀ x ∈ P0.map Prod.fst, x ∈ P := fun x hx => by rw [hP]; exact List.mem_append_left _ hx
    have hS' : ∀ s ∈ S0, s ∈ S := fun s hs => by rw [hS]; exact List.mem_append_left _ hs
    cases c with
    | point x t =>
      have hxP : rpos x ∈ P := by rw [hP]; simp [points, wanted, Call.req]
      obtain ⟨g', r, h1, h2⟩ := hk.point hA hP' hS' (t := t) hxP
      obtain ⟨h', r', k1, k2, k3⟩ := ht.addNode (hbox x (by simp [spots])) t
      rw [h1] at k2
      cases k2
      obtain ⟨h'', ids', l, m1, m2⟩ := ih _ _ _ _ h2 k3 (fun v hv => hbox v (by simp [spots, hv]))
        (by simp only [List.map_cons, Call.req, Known] at hv; simpa using hv)
        (by rw [hP]; simp [points, wanted, Call.req]) (by rw [hS]; simp [strokes, Call.req])
      refine ⟨h'', ids', .node r.1 r.2 :: l, ?_, ?_⟩
      · simp only [session, k1, m1, bind, Except.bind, pure, Except.pure]
      · simp only [List.map_cons, Call.req, client, h1, bind, Except.bind]
        exact m2
    | seg i j c =>
      obtain ⟨hi, hj, hv'⟩ := hv
      have gi : P0[i]? = some P0[i] := List.getElem?_eq_getElem hi
      have gj : P0[j]? = some P0[j] := List.getElem?_eq_getElem hj
      have di : (P0.map Prod.fst).getD i (0, 0) = P0[i].1 := by
        rw [List.getD_eq_getElem?_getD, List.getElem?_map, gi]; rfl
      have dj : (P0.map Prod.fst).getD j (0, 0) = P0[j].1 := by
        rw [List.getD_eq_getElem?_getD, List.getElem?_map, gj]; rfl
      simp only [List.map_cons, Call.req, strokes, di, dj] at hS
      have hs0 : (⟨P0[i].1, P0[j].1, c⟩ : Stroke U) ∈ S := by rw [hS]; simp
      obtain ⟨a, b, g', r, h1, h2, h3, h4⟩ := hk.seg hA hP' (s0 := ⟨P0[i].1, P0[j].1, c⟩) (i := i) (j := j)
        (t := P0[i].2) (t' := P0[j].2) hS' hs0 gi gj
      obtain ⟨a', ea, _, pa⟩ := hk.ids_at i _ _ gi
      obtain ⟨b', eb, _, pb⟩ := hk.ids_at j _ _ gj
      rw [h1] at ea
      cases ea
      rw [h2] at eb
      cases eb
      rw [place_exactG] at pa pb
      change spot h a = P0[i].1 at pa
      change spot h b = P0[j].1 at pb
      obtain ⟨q1, q2⟩ := hst _ hs0
      obtain ⟨h', r', k1, k2, k3⟩ := ht.addEdge bX bY (s := a) (d := b) (fun hab => q1 (by
          simp only
          rw [← pa, ← pb, hab])) c (fun _ _ _ => by rw [pa, pb]; exact q2)
      rw [h3] at k2
      cases k2
      obtain ⟨h'', ids', l, m1, m2⟩ := ih _ _ _ _ h4 k3 (fun v hv => hbox v (by simpa [spots] using hv)) hv'
        (by rw [hP]; simp [points, wanted, Call.req]) (by rw [hS]; simp)
      refine ⟨h'', ids', .edge r.1 r.2 :: l, ?_, ?_⟩
      · simp only [session, h1, h2, k1, m1, bind, Except.bind, pure, Except.pure]
      · simp only [List.map_cons, Call.req, client, h1, h2, h3, bind, Except.bind]
        exact m2

theorem exact_planar {h : PlanarGraph F32 T U} (hinj : ∀ i j, i < h.nodes.length → j < h.nodes.length → spot h i = spot h j → i = j) :
    DrawnPlanar h ↔ Planar (exactG h) (place (exactG h)) := by
  have hpl : place (exactG h) = spot h := funext (place_exactG h)
  have hlen := exact_length h
  rw [hpl]
  constructor
  · intro hd
    refine ⟨fun k l e f he hf hkl y h1 h2 => ?_, fun e he i hi ho => ?_⟩
    · obtain ⟨i, a1, a2, a3⟩ := hd.meet k l e f he hf hkl y h1 h2
      exact ⟨i, by unfold IsEnd; tauto, by unfold IsEnd; tauto, a3⟩
    · have := hd.node e he i (by omega) ho
      unfold IsEnd; tauto
  · intro hp
    refine ⟨hinj, fun k l e f he hf hkl y h1 h2 => ?_, fun e he i hi ho => ?_⟩
    · obtain ⟨i, a1, a2, a3⟩ := hp.meet k l e f he hf hkl y h1 h2
      unfold IsEnd at a1 a2
      exact ⟨i, by tauto, by tauto, a3⟩
    · have := hp.node e he i (by omega) ho
      unfold IsEnd at this
      tauto

theorem StreetMap.spread (bX : |X| ≤ 2 ^ 21) (bY : |Y| ≤ 2 ^ 21) {cs : List (Call F32 T U)} (hm : StreetMap X Y cs) :
    Spread (points (cs.map Call.req)) (strokes [] (cs.map Call.req)) := by
  refine streets_spread bX bY ?_ ?_ hm.street
  · intro x hx
    rw [points_spots] at hx
    obtain ⟨v, hv, rfl⟩ := List.mem_map.1 hx
    exact WholeIn.of_box (hm.box v hv)
  · intro s hs
    have := known_ends (ps := []) hm.known s hs
    simpa using this

theorem town_new : Town X Y (PlanarGraph.new : PlanarGraph F32 T U) :=
  ⟨wf_new, (fun n hn => by cases hn), (fun i j a b ha => by simp [PlanarGraph.new] at ha), (fun e he => by cases he), (fun e he => by cases he)⟩

theorem StreetMap.runs [Inhabited T] (bX : |X| ≤ 2 ^ 21) (bY : |Y| ≤ 2 ^ 21) {cs : List (Call F32 T U)} (hm : StreetMap X Y cs) :
    ∃ h ids l, session PlanarGraph.new [] cs = .ok (h, ids, l) ∧ client PlanarGraph.new [] (cs.map Call.req) = .ok (exactG h, ids) :=
  town_session bX bY (hm.spread bX bY) hm.street cs [] [] PlanarGraph.new [] Sketch.new town_new hm.box hm.known rfl rfl

/-! ## Which orders of streets -/

theorem on_vertical {a b y : ℝ × ℝ} (h : a.1 = b.1) :
    OnSegR a b y ↔ y.1 = a.1 ∧ ((a.2 ≤ y.2 ∧ y.2 ≤ b.2) ∨ (b.2 ≤ y.2 ∧ y.2 ≤ a.2)) := by
  constructor
  · intro ho
    refine ⟨on_fst h ho, ?_⟩
    obtain ⟨t, t0, t1, rfl⟩ := ho
    simp only
    rcases le_total a.2 b.2 with hab | hab
    · left; constructor <;> nlinarith
    · right; constructor <;> nlinarith
  · rintro ⟨h1, h2⟩
    by_cases hab : a.2 = b.2
    · have : y = a := by
        ext
        · exact h1
        · rcases h2 with h2 | h2 <;> linarith [h2.1, h2.2]
      rw [this]; exact onSeg_left _ _
    · have hd : b.2 - a.2 ≠ 0 := fun hc => hab (by linarith)
      refine ⟨(y.2 - a.2) / (b.2 - a.2), ?_, ?_, ?_⟩
      · rcases h2 with h2 | h2
        · exact div_nonneg (by linarith) (by linarith)
        · exact div_nonneg_of_nonpos (by linarith) (by linarith)
      · rcases h2 with h2 | h2
        · have : 0 < b.2 - a.2 := lt_of_le_of_ne (by linarith) (Ne.symm hd)
          rw [div_le_one this]; linarith
        · have : b.2 - a.2 < 0 := lt_of_le_of_ne (by linarith) hd
          rw [div_le_one_of_neg this]; linarith
      · ext
        · simp [h1, h]
        · simp only; field_simp; ring

/-- a vertical segment that passes a point and another one through it have a second point in common -/
theorem vertical_second {a b c d y : ℝ × ℝ} (h : a.1 = b.1) (h' : c.1 = d.1) (hcd : c ≠ d) (ho : OnSegR a b y) (ya : y ≠ a) (yb : y ≠ b)
    (ho' : OnSegR c d y) : ∃ z, y ≠ z ∧ OnSegR a b z ∧ OnSegR c d z := by
  have e1 := (on_vertical h).1 ho
  have e2 := (on_vertical h').1 ho'
  have ya' : y.2 ≠ a.2 := fun hc => ya (Prod.ext e1.1 hc)
  have yb' : y.2 ≠ b.2 := fun hc => yb (Prod.ext (e1.1.trans h) hc)
  have cd' : c.2 ≠ d.2 := fun hc => hcd (Prod.ext h' hc)
  have key : ∃ w : ℝ, w ≠ y.2 ∧ ((a.2 ≤ w ∧ w ≤ b.2) ∨ (b.2 ≤ w ∧ w ≤ a.2)) ∧ ((c.2 ≤ w ∧ w ≤ d.2) ∨ (d.2 ≤ w ∧ w ≤ c.2)) := by
    have hlo : min a.2 b.2 < y.2 := by
      rcases e1.2 with q | q
      · exact lt_of_le_of_lt (min_le_left _ _) (lt_of_le_of_ne q.1 (Ne.symm ya'))
      · exact lt_of_le_of_lt (min_le_right _ _) (lt_of_le_of_ne q.1 (Ne.symm yb'))
    have hhi : y.2 < max a.2 b.2 := by
      rcases e1.2 with q | q
      · exact lt_of_lt_of_le (lt_of_le_of_ne q.2 yb') (le_max_right _ _)
      · exact lt_of_lt_of_le (lt_of_le_of_ne q.2 ya') (le_max_left _ _)
    have hc0 : min c.2 d.2 ≤ y.2 ∧ y.2 ≤ max c.2 d.2 := by
      rcases e2.2 with q | q
      · exact ⟨(min_le_left _ _).trans q.1, q.2.trans (le_max_right _ _)⟩
      · exact ⟨(min_le_right _ _).trans q.1, q.2.trans (le_max_left _ _)⟩
    have conv : ∀ p q w : ℝ, min p q ≤ w → w ≤ max p q → (p ≤ w ∧ w ≤ q) ∨ (q ≤ w ∧ w ≤ p) := by
      intro p q w h1 h2
      rcases le_total p q with hpq | hpq
      · rw [min_eq_left hpq] at h1; rw [max_eq_right hpq] at h2; exact Or.inl ⟨h1, h2⟩
      · rw [min_eq_right hpq] at h1; rw [max_eq_left hpq] at h2; exact Or.inr ⟨h1, h2⟩
    have hlt : min c.2 d.2 < max c.2 d.2 := min_lt_max.2 cd'
    rcases lt_or_eq_of_le hc0.1 with q | q
    · refine ⟨max (min a.2 b.2) (min c.2 d.2), (max_lt hlo q).ne, conv _ _ _ (le_max_left _ _) ?_, conv _ _ _ (le_max_right _ _) ?_⟩
      · exact (max_lt hlo q).le.trans hhi.le
      · exact (max_lt hlo q).le.trans hc0.2
    · have q' : y.2 < max c.2 d.2 := by rw [← q]; exact hlt
      refine ⟨min (max a.2 b.2) (max c.2 d.2), (lt_min hhi q').ne', conv _ _ _ ?_ (min_le_left _ _), conv _ _ _ ?_ (min_le_right _ _)⟩
      · exact hlo.le.trans (lt_min hhi q').le
      · exact hc0.1.trans (lt_min hhi q').le
  obtain ⟨w, w1, w2, w3⟩ := key
  exact ⟨(y.1, w), fun hc => w1 (congrArg Prod.snd hc).symm, (on_vertical h).2 ⟨e1.1, w2⟩, (on_vertical h').2 ⟨e2.1, w3⟩⟩

/-- mirrored in the diagonal -/
theorem on_swap {a b y : ℝ × ℝ} : OnSegR a.swap b.swap y.swap ↔ OnSegR a b y := by
  constructor
  · rintro ⟨t, t0, t1, h⟩
    refine ⟨t, t0, t1, ?_⟩
    have h1 := congrArg Prod.fst h
    have h2 := congrArg Prod.snd h
    exact Prod.ext h2 h1
  · rintro ⟨t, t0, t1, rfl⟩
    exact ⟨t, t0, t1, rfl⟩

theorem horizontal_second {a b c d y : ℝ × ℝ} (h : a.2 = b.2) (h' : c.2 = d.2) (hcd : c ≠ d) (ho : OnSegR a b y) (ya : y ≠ a) (yb : y ≠ b)
    (ho' : OnSegR c d y) : ∃ z, y ≠ z ∧ OnSegR a b z ∧ OnSegR c d z := by
  have sw : ∀ {p q : ℝ × ℝ}, p ≠ q → p.swap ≠ q.swap := fun hne hc => hne (Prod.swap_injective hc)
  obtain ⟨z, z1, z2, z3⟩ := vertical_second (a := a.swap) (b := b.swap) (c := c.swap) (d := d.swap) (y := y.swap) h h' (sw hcd)
    (on_swap.2 ho) (sw ya) (sw yb) (on_swap.2 ho')
  refine ⟨z.swap, fun hc => z1 (by rw [hc, Prod.swap_swap]), ?_, ?_⟩
  · rw [← on_swap, Prod.swap_swap]; exact z2
  · rw [← on_swap, Prod.swap_swap]; exact z3

section Orders
variable {S : List (Stroke U)}

/-- a street that passes a point is perpendicular to all others through it -/
theorem street_across (hov : NoOverlap S) (hst : ∀ s ∈ S, s.a ≠ s.b ∧ (s.a.1 = s.b.1 ∨ s.a.2 = s.b.2)) {s s' : Stroke U}
    (hs : s ∈ S) (hs' : s' ∈ S) (hne : s ≠ s') {y : ℝ × ℝ} (hw : s.Within y) (ho : s'.On y) :
    (s.a.1 = s.b.1 ∧ s'.a.2 = s'.b.2) ∨ (s.a.2 = s.b.2 ∧ s'.a.1 = s'.b.1) := by
  have hd : ∀ s ∈ S, s.a ≠ s.b := fun s hs => (hst s hs).1
  rcases (hst s hs).2 with h | h <;> rcases (hst s' hs').2 with h' | h'
  · obtain ⟨z, z1, z2, z3⟩ := vertical_second h h' (hd s' hs') hw.1 hw.2.1 hw.2.2 ho
    exact (clash hov hd hs hs' hne z1 hw.1 ho z2 z3).elim
  · exact Or.inl ⟨h, h'⟩
  · exact Or.inr ⟨h, h'⟩
  · obtain ⟨z, z1, z2, z3⟩ := horizontal_second h h' (hd s' hs') hw.1 hw.2.1 hw.2.2 ho
    exact (clash hov hd hs hs' hne z1 hw.1 ho z2 z3).elim

theorem street_nodup (hov : NoOverlap S) (hd : ∀ s ∈ S, s.a ≠ s.b) : S.Nodup := by
  refine List.Pairwise.imp_of_mem ?_ hov
  rintro s s' hs _ h rfl
  have hon : s.On (s.at (1 / 2)) := Stroke.on_at (by norm_num) (by norm_num)
  have ha : s.at (1 / 2) ≠ s.a := by
    rw [← s.at_zero]; intro hc; have := Stroke.at_inj (hd s hs) hc; norm_num at this
  have hb : s.at (1 / 2) ≠ s.b := by
    rw [← s.at_one]; intro hc; have := Stroke.at_inj (hd s hs) hc; norm_num at this
  rcases h (by unfold crs; ring) _ hon hon with h | h | h | h
  · exact ha h
  · exact hb h
  · exact ha h
  · exact hb h

theorem through_le_one {l : List (Stroke U)} (hn : l.Nodup) {y : ℝ × ℝ} :
    through l y ≤ 1 ↔ ∀ u ∈ l, ∀ v ∈ l, u.On y → v.On y → u = v := by
  classical
  unfold through
  have hm : ∀ u, u ∈ l.filter (fun s => decide (s.On y)) ↔ u ∈ l ∧ u.On y := fun u => by simp [List.mem_filter]
  have hnf := hn.filter (fun s => decide (s.On y))
  constructor
  · intro h u hu v hv ou ov
    have h1 := (hm u).2 ⟨hu, ou⟩
    have h2 := (hm v).2 ⟨hv, ov⟩
    rcases hF : l.filter (fun s => decide (s.On y)) with _ | ⟨a, _ | ⟨b, t⟩⟩
    · rw [hF] at h1; cases h1
    · rw [hF] at h1 h2
      rw [List.mem_singleton.1 h1, List.mem_singleton.1 h2]
    · have h : (l.filter (fun s => decide (s.On y))).length ≤ 1 := by convert h
      rw [hF] at h
      simp at h
  · intro h
    by_contra hc
    have hc : ¬ (l.filter (fun s => decide (s.On y))).length ≤ 1 := by convert hc
    rcases hF : l.filter (fun s => decide (s.On y)) with _ | ⟨a, _ | ⟨b, t⟩⟩
    · rw [hF] at hc; simp at hc
    · rw [hF] at hc; simp at hc
    · have ha := (hm a).1 (by rw [hF]; simp)
      have hb := (hm b).1 (by rw [hF]; simp)
      have := h a ha.1 b hb.1 ha.2 hb.2
      rw [hF, List.nodup_cons] at hnf
      exact hnf.1 (by rw [this]; simp)

/-- the orders of streets that are drawn right: no street passes the common end of two earlier ones -/
theorem firstTwo_streets (hov : NoOverlap S) (hst : ∀ s ∈ S, s.a ≠ s.b ∧ (s.a.1 = s.b.1 ∨ s.a.2 = s.b.2)) :
    FirstTwo S ↔ ∀ y l s l', S = l ++ s :: l' → s.Within y → ∀ u ∈ l, ∀ v ∈ l, (y = u.a ∨ y = u.b) → (y = v.a ∨ y = v.b) → u = v := by
  have hd : ∀ s ∈ S, s.a ≠ s.b := fun s hs => (hst s hs).1
  have hnd := street_nodup hov hd
  have endOn : ∀ {u : Stroke U} {y : ℝ × ℝ}, (y = u.a ∨ y = u.b) → u.On y := by
    rintro u y (rfl | rfl)
    · exact onSeg_left _ _
    · exact onSeg_right _ _
  have hnl : ∀ {l : List (Stroke U)} {s : Stroke U} {l' : List (Stroke U)}, S = l ++ s :: l' → l.Nodup := by
    intro l s l' he
    rw [he] at hnd
    exact (List.nodup_append.1 hnd).1
  constructor
  · intro hf y l s l' he hw u hu v hv eu ev
    exact (through_le_one (hnl he)).1 (hf y l s l' he hw) u hu v hv (endOn eu) (endOn ev)
  · intro hf y l s l' he hw
    rw [through_le_one (hnl he)]
    intro u hu v hv ou ov
    have hsl : s ∉ l := by
      rw [he] at hnd
      intro hm
      exact (List.nodup_append.1 hnd).2.2 s hm s (by simp) rfl
    have hsS : s ∈ S := by rw [he]; simp
    have hlS : ∀ u ∈ l, u ∈ S := fun u hu => by rw [he]; simp [hu]
    by_contra huv
    have au := street_across hov hst hsS (hlS u hu) (fun hc => hsl (hc ▸ hu)) hw ou
    have av := street_across hov hst hsS (hlS v hv) (fun hc => hsl (hc ▸ hv)) hw ov
    have flat : ∀ {w : Stroke U}, w ∈ S → ¬ (w.a.1 = w.b.1 ∧ w.a.2 = w.b.2) := fun hw hc => hd _ hw (Prod.ext hc.1 hc.2)
    -- `u` and `v` are parallel, so neither passes the point
    have stop : ∀ {u v : Stroke U}, u ∈ l → v ∈ l → u ≠ v → u.On y → v.On y →
        ((s.a.1 = s.b.1 ∧ u.a.2 = u.b.2) ∨ (s.a.2 = s.b.2 ∧ u.a.1 = u.b.1)) →
        ((s.a.1 = s.b.1 ∧ v.a.2 = v.b.2) ∨ (s.a.2 = s.b.2 ∧ v.a.1 = v.b.1)) → y = u.a ∨ y = u.b := by
      intro u v hu hv huv ou ov au av
      by_contra hc
      push Not at hc
      have hc' := street_across hov hst (hlS u hu) (hlS v hv) huv ⟨ou, hc.1, hc.2⟩ ov
      rcases hc' with ⟨c1, c2⟩ | ⟨c1, c2⟩
      · rcases au with ⟨_, q⟩ | ⟨q1, _⟩
        · exact flat (hlS u hu) ⟨c1, q⟩
        · rcases av with ⟨q2, _⟩ | ⟨_, q2⟩
          · exact flat hsS ⟨q2, q1⟩
          · exact flat (hlS v hv) ⟨q2, c2⟩
      · rcases au with ⟨q1, _⟩ | ⟨_, q⟩
        · rcases av with ⟨_, q2⟩ | ⟨q2, _⟩
          · exact flat (hlS v hv) ⟨c2, q2⟩
          · exact flat hsS ⟨q1, q2⟩
        · exact flat (hlS u hu) ⟨q, c1⟩
    exact huv (hf y l s l' he hw u hu v hv (stop hu hv huv ou ov au av) (stop hv hu (Ne.symm huv) ov ou av au))

end Orders

/-! ## C157 -/

/-- **C157, what is drawn.** A street map in f32, streets crossing, touching, overlapping or drawn twice: the calls do not panic, the nodes
are at different places, each requested point is exactly at the node returned for it, every other node is exactly at a crossing of
streets, the edges cover exactly the streets, and every edge has the data of a street it lies on. -/
theorem C157_drawn [Inhabited T] (bX : |X| ≤ 2 ^ 21) (bY : |Y| ≤ 2 ^ 21) (cs : List (Call F32 T U)) (hm : StreetMap X Y cs) :
    ∃ h ids l, session PlanarGraph.new [] cs = .ok (h, ids, l) ∧
      (∀ i j, i < h.nodes.length → j < h.nodes.length → spot h i = spot h j → i = j) ∧
      (∀ (k : ℕ) v, (spots cs)[k]? = some v → ∃ i, ids[k]? = some i ∧ i < h.nodes.length ∧ spot h i = rpos v) ∧
      (∀ i, i < h.nodes.length → (∃ v ∈ spots cs, spot h i = rpos v) ∨ CrossAt (strokes [] (cs.map Call.req)) (spot h i)) ∧
      (∀ e ∈ h.edges, ∃ s ∈ strokes [] (cs.map Call.req), e.data = s.c ∧ ∀ y, OnSegR (spot h e.src) (spot h e.dst) y → s.On y) ∧
      ∀ y, (∃ e ∈ h.edges, OnSegR (spot h e.src) (spot h e.dst) y) ↔ ∃ s ∈ strokes [] (cs.map Call.req), s.On y := by
  obtain ⟨h, ids, l, h1, h2⟩ := hm.runs bX bY
  obtain ⟨g, ids', k1, _, k3, k4, k5, k6, k7, _⟩ := C149_drawn _ hm.known (hm.spread bX bY)
  rw [h2] at k1
  cases k1
  have hlen := exact_length h
  rw [hlen] at k3 k4
  have hpl : place (exactG h) = spot h := funext (place_exactG h)
  rw [hpl] at k3 k4 k5 k6 k7
  refine ⟨h, ids, l, h1, k3, ?_, ?_, k6, k7⟩
  · intro k v hk
    refine k4 k (rpos v) ?_
    rw [points_spots, List.getElem?_map, hk]
    rfl
  · intro i hi
    have hg : (exactG h).getVertex i = some ((exactG h).nodes[i]'(by omega)) := List.getElem?_eq_getElem (by omega)
    rcases (k5 i _ hg).2 with hf | ⟨hc, _⟩
    · left
      have hmem : spot h i ∈ points (cs.map Call.req) := hf.mem
      rw [points_spots] at hmem
      obtain ⟨v, hv, e⟩ := List.mem_map.1 hmem
      exact ⟨v, hv, e.symm⟩
    · exact Or.inr hc

/-- **C157, planar.** If parallel streets meet only in their ends, the f32 graph is a planar drawing exactly when no point ends up
`skewered` or `broken` (C151). -/
theorem C157_planar [Inhabited T] (bX : |X| ≤ 2 ^ 21) (bY : |Y| ≤ 2 ^ 21) (cs : List (Call F32 T U)) (hm : StreetMap X Y cs)
    (hov : NoOverlap (strokes [] (cs.map Call.req))) :
    ∃ h ids l, session PlanarGraph.new [] cs = .ok (h, ids, l) ∧
      (DrawnPlanar h ↔ ∀ y, phase (cs.map Call.req) y ≠ .skewered ∧ phase (cs.map Call.req) y ≠ .broken) := by
  obtain ⟨h, ids, l, h1, h2⟩ := hm.runs bX bY
  obtain ⟨h', ids', l', h1', hinj, _⟩ := C157_drawn bX bY cs hm
  rw [h1] at h1'
  cases h1'
  obtain ⟨g, ids', k1, k2, _⟩ := C151_planar _ hm.known (hm.spread bX bY) (fun s hs => (hm.street s hs).1) hov
  rw [h2] at k1
  cases k1
  exact ⟨h, ids, l, h1, (exact_planar hinj).trans k2⟩

/-- **C157, the arrangement.** And then it is the arrangement of the streets: the nodes are exactly at the requested points and the
crossings, the edges join neighbours on a street, with its data, and no two edges join the same nodes. -/
theorem C157_arrangement [Inhabited T] (bX : |X| ≤ 2 ^ 21) (bY : |Y| ≤ 2 ^ 21) (cs : List (Call F32 T U)) (hm : StreetMap X Y cs)
    (hov : NoOverlap (strokes [] (cs.map Call.req)))
    (hok : ∀ y, phase (cs.map Call.req) y ≠ .skewered ∧ phase (cs.map Call.req) y ≠ .broken) :
    ∃ h ids l, session PlanarGraph.new [] cs = .ok (h, ids, l) ∧ DrawnPlanar h ∧
      (∀ y, (∃ i, i < h.nodes.length ∧ y = spot h i) ↔ Spot ((spots cs).map rpos) (strokes [] (cs.map Call.req)) y) ∧
      (∀ x y c, (∃ e ∈ h.edges, e.data = c ∧ ((spot h e.src = x ∧ spot h e.dst = y) ∨ (spot h e.src = y ∧ spot h e.dst = x))) ↔
        ∃ s ∈ strokes [] (cs.map Call.req), s.c = c ∧ Neighbours ((spots cs).map rpos) (strokes [] (cs.map Call.req)) s x y) ∧
      ∀ (k l : ℕ) (e f : Edge U), h.edges[k]? = some e → h.edges[l]? = some f →
        ((e.src = f.src ∧ e.dst = f.dst) ∨ (e.src = f.dst ∧ e.dst = f.src)) → k = l := by
  obtain ⟨h, ids, l, h1, h2⟩ := hm.runs bX bY
  obtain ⟨h', ids', l', h1', hpl⟩ := C157_planar bX bY cs hm hov
  rw [h1] at h1'
  cases h1'
  obtain ⟨g, ids', k1, _, k3, k4, k5⟩ := C152_arrangement _ hm.known (hm.spread bX bY) (fun s hs => (hm.street s hs).1) hov hok
  rw [h2] at k1
  cases k1
  have hp : place (exactG h) = spot h := funext (place_exactG h)
  rw [hp, exact_length] at k3
  rw [hp] at k4
  rw [points_spots] at k3 k4
  exact ⟨h, ids, l, h1, hpl.2 hok, k3, k4, k5⟩

/-- **C157, the order of the streets.** If the f32 graph is a planar drawing, then every street is, at every point it passes, one of the
first two streets through the point; and when the ends are requested first, then the streets, then other points, this is enough. -/
theorem C157_order [Inhabited T] (bX : |X| ≤ 2 ^ 21) (bY : |Y| ≤ 2 ^ 21) (cs : List (Call F32 T U)) (hm : StreetMap X Y cs)
    (hov : NoOverlap (strokes [] (cs.map Call.req))) :
    ∃ h ids l, session PlanarGraph.new [] cs = .ok (h, ids, l) ∧ (DrawnPlanar h → FirstTwo (strokes [] (cs.map Call.req))) ∧
      ∀ t S B, cs.map Call.req = drawReqs t S B → FirstTwo S → DrawnPlanar h := by
  obtain ⟨h, ids, l, h1, h2⟩ := C157_planar bX bY cs hm hov
  refine ⟨h, ids, l, h1, fun hd => fine_firstTwo _ fun y => (h2.1 hd y).2, fun t S B he hf => h2.2 fun y => ?_⟩
  rw [he]
  exact (draw_fine_iff t S B y).2 (hf y)

/-- **C157, the orders that work.** With the ends requested first, then the streets, then other points, the f32 graph is a planar drawing
exactly when no street passes the common end of two streets drawn before it. -/
theorem C157_streets [Inhabited T] (bX : |X| ≤ 2 ^ 21) (bY : |Y| ≤ 2 ^ 21) (cs : List (Call F32 T U)) (hm : StreetMap X Y cs)
    (hov : NoOverlap (strokes [] (cs.map Call.req))) (t : T) (S : List (Stroke U)) (B : List (ℝ × ℝ))
    (he : cs.map Call.req = drawReqs t S B) :
    ∃ h ids l, session PlanarGraph.new [] cs = .ok (h, ids, l) ∧
      (DrawnPlanar h ↔ ∀ y l s l', S = l ++ s :: l' → s.Within y →
        ∀ u ∈ l, ∀ v ∈ l, (y = u.a ∨ y = u.b) → (y = v.a ∨ y = v.b) → u = v) := by
  obtain ⟨h, ids, l, h1, h2, h3⟩ := C157_order bX bY cs hm hov
  have hst := hm.street
  rw [he, draw_strokes] at hov hst h2
  rw [← firstTwo_streets hov hst]
  exact ⟨h, ids, l, h1, h2, h3 t S B he⟩

/-- **C157, the counts.** A planar street map has as many nodes as there are points and crossings, and as many edges as there are pairs of
a street and a point or crossing on it other than its first end. -/
theorem C157_counts [Inhabited T] (bX : |X| ≤ 2 ^ 21) (bY : |Y| ≤ 2 ^ 21) (cs : List (Call F32 T U)) (hm : StreetMap X Y cs)
    (hov : NoOverlap (strokes [] (cs.map Call.req)))
    (hok : ∀ y, phase (cs.map Call.req) y ≠ .skewered ∧ phase (cs.map Call.req) y ≠ .broken) :
    ∃ h ids l, session PlanarGraph.new [] cs = .ok (h, ids, l) ∧
      h.nodeCount = {y | Spot ((spots cs).map rpos) (strokes [] (cs.map Call.req)) y}.ncard ∧
      h.edgeCount = {w : Stroke U × (ℝ × ℝ) | w.1 ∈ strokes [] (cs.map Call.req) ∧
        Spot ((spots cs).map rpos) (strokes [] (cs.map Call.req)) w.2 ∧ w.1.On w.2 ∧ w.2 ≠ w.1.a}.ncard := by
  obtain ⟨h, ids, l, h1, h2⟩ := hm.runs bX bY
  obtain ⟨_, c1, _, c2⟩ := C152_counts _ hm.known (hm.spread bX bY) (fun s hs => (hm.street s hs).1) hov hok _ _ h2
  rw [points_spots] at c1 c2
  refine ⟨h, ids, l, h1, ?_, c2⟩
  rw [← c1]
  exact (exact_length h).symm

/-- **C157, the same map.** Two lists of calls for the same points and streets, both without failures, in any order and number: the f32
graphs have nodes at exactly the same places and edges between the same places with the same data. -/
theorem C157_same [Inhabited T] (bX : |X| ≤ 2 ^ 21) (bY : |Y| ≤ 2 ^ 21) (cs cs' : List (Call F32 T U)) (hm : StreetMap X Y cs)
    (hm' : StreetMap X Y cs') (hov : NoOverlap (strokes [] (cs.map Call.req))) (hov' : NoOverlap (strokes [] (cs'.map Call.req)))
    (hok : ∀ y, phase (cs.map Call.req) y ≠ .skewered ∧ phase (cs.map Call.req) y ≠ .broken)
    (hok' : ∀ y, phase (cs'.map Call.req) y ≠ .skewered ∧ phase (cs'.map Call.req) y ≠ .broken)
    (hP : ∀ x, x ∈ (spots cs).map rpos ↔ x ∈ (spots cs').map rpos)
    (hS : ∀ s, s ∈ strokes [] (cs.map Call.req) ↔ s ∈ strokes [] (cs'.map Call.req)) :
    ∃ h ids l h' ids' l', session PlanarGraph.new [] cs = .ok (h, ids, l) ∧ session PlanarGraph.new [] cs' = .ok (h', ids', l') ∧
      h.nodeCount = h'.nodeCount ∧ h.edgeCount = h'.edgeCount ∧
      (∀ y, (∃ i, i < h.nodes.length ∧ y = spot h i) ↔ ∃ i, i < h'.nodes.length ∧ y = spot h' i) ∧
      ∀ x y c,
        (∃ e ∈ h.edges, e.data = c ∧ ((spot h e.src = x ∧ spot h e.dst = y) ∨ (spot h e.src = y ∧ spot h e.dst = x))) ↔
        ∃ e ∈ h'.edges, e.data = c ∧ ((spot h' e.src = x ∧ spot h' e.dst = y) ∨ (spot h' e.src = y ∧ spot h' e.dst = x)) := by
  obtain ⟨h, ids, l, h1, h2⟩ := hm.runs bX bY
  obtain ⟨h', ids', l', h1', h2'⟩ := hm'.runs bX bY
  obtain ⟨g, i, g', i', k1, k1', k2, k3, k4, k5⟩ := C152_order (cs.map Call.req) (cs'.map Call.req) hm.known hm'.known (hm.spread bX bY)
    (fun s hs => (hm.street s hs).1) hov hov' hok hok' (by rw [points_spots, points_spots]; exact hP) hS
  rw [h2] at k1
  rw [h2'] at k1'
  cases k1
  cases k1'
  have hp : place (exactG h) = spot h := funext (place_exactG h)
  have hp' : place (exactG h') = spot h' := funext (place_exactG h')
  rw [hp, hp', exact_length, exact_length] at k4
  rw [hp, hp'] at k5
  exact ⟨h, ids, l, h', ids', l', h1, h1', (exact_length h).symm.trans (k2.trans (exact_length h')), k3, k4, k5⟩

/-! ## Example -/

/-- three streets: two that cross in (4, 5) and one that ends on the first in (8, 5) -/
def crossroads : List (Call F32 Unit ℕ) :=
  [.point (pos 0 5) (), .point (pos 12 5) (), .point (pos 4 0) (), .point (pos 4 12) (), .point (pos 8 5) (), .point (pos 8 12) (),
    .seg 0 1 10, .seg 2 3 20, .seg 4 5 30]

/-- the streets -/
def crossroadStreets : List (Stroke ℕ) := [⟨(0, 5), (12, 5), 10⟩, ⟨(4, 0), (4, 12), 20⟩, ⟨(8, 5), (8, 12), 30⟩]

theorem crossroads_req : crossroads.map Call.req = drawReqs () crossroadStreets [] := by
  have e : ∀ x y : ℤ, x.natAbs ≤ 2 ^ 24 → y.natAbs ≤ 2 ^ 24 → rpos (pos x y) = ((x : ℝ), (y : ℝ)) := fun x y h1 h2 => rpos_at (pos_at h1 h2)
  simp only [crossroads, List.map_cons, List.map_nil, Call.req, drawReqs, endReqs, segReqs, endsOf, crossroadStreets, List.cons_append,
    List.nil_append]
  rw [e 0 5 (by norm_num) (by norm_num), e 12 5 (by norm_num) (by norm_num), e 4 0 (by norm_num) (by norm_num),
    e 4 12 (by norm_num) (by norm_num), e 8 5 (by norm_num) (by norm_num), e 8 12 (by norm_num) (by norm_num)]
  norm_num

theorem crossroads_map : StreetMap 0 0 crossroads := by
  have at' : ∀ x y : ℤ, 0 ≤ x → x ≤ 12 → 0 ≤ y → y ≤ 12 → InBox 0 0 (pos x y) := fun x y h1 h2 h3 h4 =>
    ⟨x, y, pos_at (by omega) (by omega), by omega, by omega⟩
  refine ⟨by rw [crossroads_req]; exact draw_known _ _ _, ?_, ?_⟩
  · intro v hv
    simp only [crossroads, spots, List.mem_cons, List.not_mem_nil, or_false] at hv
    rcases hv with rfl | rfl | rfl | rfl | rfl | rfl <;> exact at' _ _ (by norm_num) (by norm_num) (by norm_num) (by norm_num)
  · rw [crossroads_req, draw_strokes]
    intro s hs
    simp only [crossroadStreets, List.mem_cons, List.not_mem_nil, or_false] at hs
    rcases hs with rfl | rfl | rfl <;> norm_num

theorem crossroads_overlap : NoOverlap (strokes [] (crossroads.map Call.req)) := by
  rw [crossroads_req, draw_strokes]
  simp only [NoOverlap, crossroadStreets, List.pairwise_cons, List.mem_cons, List.not_mem_nil, or_false, forall_eq_or_imp, forall_eq,
    List.Pairwise.nil, and_true, false_imp_iff, implies_true]
  refine ⟨⟨by norm_num [crs], by norm_num [crs]⟩, ?_⟩
  intro _ y h1 h2
  have g1 := on_fst (a := ((4 : ℝ), (0 : ℝ))) (b := (4, 12)) rfl h1
  have g2 := on_fst (a := ((8 : ℝ), (5 : ℝ))) (b := (8, 12)) rfl h2
  rw [g1] at g2
  norm_num at g2

/-- at most two of the streets meet in a point -/
theorem crossroads_two (y : ℝ × ℝ) : through crossroadStreets y ≤ 2 := by
  by_cases h4 : (⟨(4, 0), (4, 12), 20⟩ : Stroke ℕ).On y
  · have h8 : ¬ (⟨(8, 5), (8, 12), 30⟩ : Stroke ℕ).On y := by
      intro h8
      have g1 := on_fst (a := ((4 : ℝ), (0 : ℝ))) (b := (4, 12)) rfl h4
      have g2 := on_fst (a := ((8 : ℝ), (5 : ℝ))) (b := (8, 12)) rfl h8
      rw [g1] at g2
      norm_num at g2
    by_cases h0 : (⟨(0, 5), (12, 5), 10⟩ : Stroke ℕ).On y <;> simp [through, crossroadStreets, h0, h4, h8]
  · by_cases h0 : (⟨(0, 5), (12, 5), 10⟩ : Stroke ℕ).On y <;> by_cases h8 : (⟨(8, 5), (8, 12), 30⟩ : Stroke ℕ).On y <;>
      simp [through, crossroadStreets, h0, h4, h8]

theorem crossroads_firstTwo : FirstTwo crossroadStreets :=
  (firstTwo_all crossroadStreets).2 (fun y _ => crossroads_two y) _ (List.Perm.refl _)

/-- in f32 the three streets become a planar drawing -/
example : ∃ h ids l, session PlanarGraph.new [] crossroads = .ok (h, ids, l) ∧ DrawnPlanar h := by
  obtain ⟨h, ids, l, h1, _, h2⟩ := C157_order (by norm_num) (by norm_num) crossroads crossroads_map crossroads_overlap
  exact ⟨h, ids, l, h1, h2 () crossroadStreets [] crossroads_req crossroads_firstTwo⟩

theorem crossroads_fine (y : ℝ × ℝ) : phase (crossroads.map Call.req) y ≠ .skewered ∧ phase (crossroads.map Call.req) y ≠ .broken := by
  obtain ⟨h, ids, l, h1, _, h2⟩ := C157_order (by norm_num) (by norm_num) crossroads crossroads_map crossroads_overlap
  obtain ⟨h', ids', l', h1', h2'⟩ := C157_planar (by norm_num) (by norm_num) crossroads crossroads_map crossroads_overlap
  have hd := h2 () crossroadStreets [] crossroads_req crossroads_firstTwo
  rw [h1] at h1'
  cases h1'
  exact h2'.1 hd y

/-- the graph has seven nodes and six edges, so the map has seven points and crossings, and six pairs of a street and one of them -/
example : {y | Spot ((spots crossroads).map rpos) (strokes [] (crossroads.map Call.req)) y}.ncard = 7 ∧
    {w : Stroke ℕ × (ℝ × ℝ) | w.1 ∈ strokes [] (crossroads.map Call.req) ∧
      Spot ((spots crossroads).map rpos) (strokes [] (crossroads.map Call.req)) w.2 ∧ w.1.On w.2 ∧ w.2 ≠ w.1.a}.ncard = 6 := by
  obtain ⟨h, ids, l, h1, h2, h3⟩ := C157_counts (by norm_num) (by norm_num) crossroads crossroads_map crossroads_overlap crossroads_fine
  have e : (session PlanarGraph.new [] crossroads).map (fun r => (r.1.nodeCount, r.1.edgeCount)) = .ok (7, 6) := by decide +kernel
  rw [h1] at e
  rw [← h2, ← h3]
  exact ⟨congrArg Prod.fst (Except.ok.inj e), congrArg Prod.snd (Except.ok.inj e)⟩

/-- the same streets, drawn in the opposite order -/
def crossroadsBack : List (Call F32 Unit ℕ) :=
  [.point (pos 8 5) (), .point (pos 8 12) (), .point (pos 4 0) (), .point (pos 4 12) (), .point (pos 0 5) (), .point (pos 12 5) (),
    .seg 0 1 30, .seg 2 3 20, .seg 4 5 10]

theorem crossroadsBack_req : crossroadsBack.map Call.req = drawReqs () crossroadStreets.reverse [] := by
  have e : ∀ x y : ℤ, x.natAbs ≤ 2 ^ 24 → y.natAbs ≤ 2 ^ 24 → rpos (pos x y) = ((x : ℝ), (y : ℝ)) := fun x y h1 h2 => rpos_at (pos_at h1 h2)
  simp only [crossroadsBack, List.map_cons, List.map_nil, Call.req, drawReqs, endReqs, segReqs, endsOf, crossroadStreets, List.cons_append,
    List.nil_append, List.reverse_cons, List.reverse_nil]
  rw [e 0 5 (by norm_num) (by norm_num), e 12 5 (by norm_num) (by norm_num), e 4 0 (by norm_num) (by norm_num),
    e 4 12 (by norm_num) (by norm_num), e 8 5 (by norm_num) (by norm_num), e 8 12 (by norm_num) (by norm_num)]
  norm_num

/-- both orders give the same map -/
example : ∃ h ids l h' ids' l', session PlanarGraph.new [] crossroads = .ok (h, ids, l) ∧
    session PlanarGraph.new [] crossroadsBack = .ok (h', ids', l') ∧ h.nodeCount = h'.nodeCount ∧ h.edgeCount = h'.edgeCount ∧
      ∀ y, (∃ i, i < h.nodes.length ∧ y = spot h i) ↔ ∃ i, i < h'.nodes.length ∧ y = spot h' i := by
  have hS : ∀ s, s ∈ strokes [] (crossroads.map Call.req) ↔ s ∈ strokes [] (crossroadsBack.map Call.req) := by
    intro s
    rw [crossroads_req, crossroadsBack_req, draw_strokes, draw_strokes, List.mem_reverse]
  have hP : ∀ v, v ∈ spots crossroads ↔ v ∈ spots crossroadsBack := by
    intro v
    simp only [crossroads, crossroadsBack, spots, List.mem_cons, List.not_mem_nil, or_false]
    tauto
  have hm : StreetMap 0 0 crossroadsBack :=
    ⟨by rw [crossroadsBack_req]; exact draw_known _ _ _, fun v hv => crossroads_map.2 v ((hP v).2 hv),
      fun s hs => crossroads_map.3 s ((hS s).2 hs)⟩
  have hov : NoOverlap (strokes [] (crossroadsBack.map Call.req)) := by
    have h := crossroads_overlap
    rw [crossroads_req, draw_strokes] at h
    rw [crossroadsBack_req, draw_strokes]
    exact h.perm (List.reverse_perm _).symm
  have hok : ∀ y, phase (crossroadsBack.map Call.req) y ≠ .skewered ∧ phase (crossroadsBack.map Call.req) y ≠ .broken := by
    intro y
    rw [crossroadsBack_req]
    exact (draw_fine_iff _ _ _ y).2 ((firstTwo_all crossroadStreets).2 (fun y _ => crossroads_two y) _ (List.reverse_perm _) y)
  obtain ⟨h, ids, l, h', ids', l', k1, k2, k3, k4, k5, _⟩ := C157_same (by norm_num) (by norm_num) crossroads crossroadsBack
    crossroads_map hm crossroads_overlap hov crossroads_fine hok
    (fun x => by simp only [List.mem_map, hP]) hS
  exact ⟨h, ids, l, h', ids', l', k1, k2, k3, k4, k5⟩

/-- no two of the streets have a common end -/
example : ∃ h ids l, session PlanarGraph.new [] crossroads = .ok (h, ids, l) ∧ DrawnPlanar h := by
  obtain ⟨h, ids, l, h1, h2⟩ := C157_streets (by norm_num) (by norm_num) crossroads crossroads_map crossroads_overlap () crossroadStreets []
    crossroads_req
  refine ⟨h, ids, l, h1, h2.2 ?_⟩
  intro y l s l' he _ u hu v hv eu ev
  have hu' : u ∈ crossroadStreets := by rw [he]; simp [hu]
  have hv' : v ∈ crossroadStreets := by rw [he]; simp [hv]
  simp only [crossroadStreets, List.mem_cons, List.not_mem_nil, or_false] at hu' hv'
  rcases hu' with rfl | rfl | rfl <;> rcases hv' with rfl | rfl | rfl <;>
    first
    | rfl
    | (exfalso; rcases eu with rfl | rfl <;> rcases ev with ev | ev <;> norm_num at ev)

end

/-- **C157, a street drawn last stays whole** (f32).  Two streets that end in (6, 5) and a third that passes there: drawn first it is
divided, drawn last it is not. -/
theorem C157_sharp :
    (session (PlanarGraph.new : PlanarGraph F32 Unit ℕ) [] [.point (pos 0 5) (), .point (pos 12 5) (), .point (pos 6 5) (),
      .point (pos 6 0) (), .point (pos 6 12) (), .seg 0 1 10, .seg 2 3 20, .seg 2 4 30]).map (fun r => r.1.edges.length) = .ok 4 ∧
    (session (PlanarGraph.new : PlanarGraph F32 Unit ℕ) [] [.point (pos 0 5) (), .point (pos 12 5) (), .point (pos 6 5) (),
      .point (pos 6 0) (), .point (pos 6 12) (), .seg 2 3 20, .seg 2 4 30, .seg 0 1 10]).map (fun r => r.1.edges.length) = .ok 3 := by
  decide +kernel

end Kami.Graph
