import Verif.Geom.Simple.Check
import Verif.Geom.Simple.Loop
/-!
# C99: convex polygons

A convex polygon is simple, all its diagonals are found by `diagonal`, and `triangulate` returns the fan around its last
vertex.
-/

set_option autoImplicit false
set_option linter.unusedSectionVars false
set_option linter.dupNamespace false

namespace Kami.Simple

open Kami Kami.Pred Kami.PolyThm Kami.Polygon
open Kami.Tri (prv nxt prv_lt nxt_lt prv_eq_mod nxt_eq_mod Inv)

variable {K : Type} [Field K] [LinearOrder K] [IsStrictOrderedRing K]

/-! ### Specification -/

/-- A strictly convex polygon, counter-clockwise: every other vertex is strictly to the left of every edge. -/
def ConvexPolygon (l : List (Vec2 K)) : Prop :=
  3 ≤ l.length ∧ ∀ (i j : Nat) (a b c : Vec2 K), l[i]? = some a → l[(i + 1) % l.length]? = some b → l[j]? = some c →
    j ≠ i → j ≠ (i + 1) % l.length → 0 < (b.x - a.x) * (c.y - a.y) - (c.x - a.x) * (b.y - a.y)

/-- The triangles with common corner `z` over the edges of the open polyline `m`, the way `triangulate` lists them: the common
corner comes first, except in the last triangle. -/
def fan {V : Type} (z : V) : List V → List (List V)
  | [] => []
  | [_] => []
  | [a, b] => [[a, b, z]]
  | a :: b :: c :: m => [z, a, b] :: fan z (b :: c :: m)

/-! ### Three vertices in order turn left -/

/-- every three vertices, in the order of the list, turn left -/
def Turning (l : List (Vec2 K)) : Prop :=
  ∀ (i j k : Nat) (hij : i < j) (hjk : j < k) (hk : k < l.length), 0 < area2 l[i] l[j] l[k]

theorem Turning.tail {a : Vec2 K} {l : List (Vec2 K)} (h : Turning (a :: l)) : Turning l := by
  intro i j k hij hjk hk
  exact h (i + 1) (j + 1) (k + 1) (by omega) (by omega) (by simpa using hk)

theorem Turning.inside {l : List (Vec2 K)} (h : Turning l) {i j k : Nat} (hik : i < k) (hkj : k < j) (hj : j < l.length) :
    area2 l[i] l[j] l[k] < 0 := by
  rw [area_swap, neg_lt_zero]; exact h i k j hik hkj hj

theorem Turning.outside {l : List (Vec2 K)} (h : Turning l) {i j k : Nat} (hij : i < j) (hj : j < l.length) (hk : k < l.length)
    (ho : k < i ∨ j < k) : 0 < area2 l[i] l[j] l[k] := by
  rcases ho with ho | ho
  · rw [area_cyc]; exact h k i j ho hij hj
  · exact h i j k hij ho hk

theorem succ_mod {n i : Nat} (h : i < n) : (i + 1) % n = if i + 1 = n then 0 else i + 1 := by
  split
  · rename_i h1; rw [h1, Nat.mod_self]
  · exact Nat.mod_eq_of_lt (by omega)

theorem convex_iff {l : List (Vec2 K)} : ConvexPolygon l ↔ 3 ≤ l.length ∧ Turning l := by
  constructor
  · rintro ⟨h3, h⟩
    refine ⟨h3, ?_⟩
    have h' : ∀ (i j : Nat) (hi : i + 1 < l.length) (hj : j < l.length), j ≠ i → j ≠ i + 1 → 0 < area2 l[i] l[i + 1] l[j] := by
      intro i j hi hj n1 n2
      have hm := Nat.mod_eq_of_lt hi
      rw [area2_eq]
      exact h i j _ _ _ (List.getElem?_eq_getElem _) (by rw [hm]; exact List.getElem?_eq_getElem hi)
        (List.getElem?_eq_getElem hj) n1 (by omega)
    intro i j k hij hjk
    induction k with
    | zero => omega
    | succ k ih =>
      intro hk
      rcases Nat.lt_or_ge j k with hjk' | hjk'
      · have h1 := ih hjk' (by omega)
        have h2 : 0 < area2 l[i] l[k] l[k + 1] := by
          rw [← area_cyc]; exact h' k i hk (by omega) (by omega) (by omega)
        rcases Nat.lt_or_ge (i + 1) j with hij' | hij'
        · have g1 := h' i j (by omega) (by omega) (by omega) (by omega)
          have g2 := h' i k (by omega) (by omega) (by omega) (by omega)
          have g3 := h' i (k + 1) (by omega) (by omega) (by omega) (by omega)
          have key : area2 l[i] l[i + 1] l[k] * area2 l[i] l[j] l[k + 1] =
              area2 l[i] l[i + 1] l[j] * area2 l[i] l[k] l[k + 1] + area2 l[i] l[i + 1] l[k + 1] * area2 l[i] l[j] l[k] := by
            simp only [area2_eq]; ring
          have : 0 < area2 l[i] l[i + 1] l[k] * area2 l[i] l[j] l[k + 1] := by rw [key]; positivity
          exact (mul_pos_iff_of_pos_left g2).1 this
        · have : j = i + 1 := by omega
          subst this
          exact h' i (k + 1) (by omega) hk (by omega) (by omega)
      · have : j = k := by omega
        subst this
        rw [← area_cyc]; exact h' j i hk (by omega) (by omega) (by omega)
  · rintro ⟨h3, h⟩
    refine ⟨h3, ?_⟩
    intro i j a b c hi hi' hj n1 n2
    rw [← area2_eq]
    obtain ⟨hil, rfl⟩ := List.getElem?_eq_some_iff.1 hi
    obtain ⟨hil', rfl⟩ := List.getElem?_eq_some_iff.1 hi'
    obtain ⟨hjl, rfl⟩ := List.getElem?_eq_some_iff.1 hj
    have hm := succ_mod hil
    by_cases hn : i + 1 = l.length
    · rw [if_pos hn] at hm
      simp only [hm]
      rw [← area_cyc]
      exact h 0 j i (by omega) (by omega) hil
    · rw [if_neg hn] at hm
      simp only [hm]
      exact h.outside (by omega) _ hjl (by omega)

theorem Turning.nodup {l : List (Vec2 K)} (h3 : 3 ≤ l.length) (h : Turning l) : l.Nodup := by
  rw [List.nodup_iff_getElem?_ne_getElem?]
  intro i j hij hj he
  rw [List.getElem?_eq_getElem hj, List.getElem?_eq_getElem (by omega), Option.some.injEq] at he
  obtain ⟨k, hk, k1, k2⟩ : ∃ k, k < l.length ∧ k ≠ i ∧ k ≠ j := by
    by_cases a : i = 0
    · by_cases b : j = 1
      · exact ⟨2, by omega, by omega, by omega⟩
      · exact ⟨1, by omega, by omega, by omega⟩
    · exact ⟨0, by omega, by omega, by omega⟩
  have h0 : area2 l[i] l[j] l[k] = 0 := by rw [he, area2_eq]; ring
  by_cases hin : i < k ∧ k < j
  · exact absurd h0 (h.inside hin.1 hin.2 hj).ne
  · exact absurd h0 (h.outside hij hj hk (by omega)).ne'

/-- **C99, simple.** A convex polygon is simple. -/
theorem convex_simple {l : List (Vec2 K)} (h : ConvexPolygon l) : SimplePolygon l := by
  obtain ⟨h3, hT⟩ := convex_iff.1 h
  refine ⟨h3, hT.nodup h3, ?_⟩
  intro i j a b c d p hij hi hi' hj hj' h1 h2
  have hil := (List.getElem?_eq_some_iff.1 hi).1
  have hjl := (List.getElem?_eq_some_iff.1 hj).1
  have mi := succ_mod hil
  have mj := succ_mod hjl
  have hpos : ∀ (k : Nat) (v : Vec2 K), l[k]? = some v → k ≠ i → k ≠ (i + 1) % l.length → 0 < area2 a b v := by
    intro k v hv n1 n2
    rw [area2_eq]; exact h.2 i k a b v hi hi' hv n1 n2
  have hpos' : ∀ (k : Nat) (v : Vec2 K), l[k]? = some v → k ≠ j → k ≠ (j + 1) % l.length → 0 < area2 c d v := by
    intro k v hv n1 n2
    rw [area2_eq]; exact h.2 j k c d v hj hj' hv n1 n2
  by_cases hA : (i + 1) % l.length = j
  · left
    refine ⟨?_, hA⟩
    have hcb : c = b := by rw [hA, hj] at hi'; exact Option.some.inj hi'
    subst hcb
    exact corner_point (hpos _ d hj' (by split at mi <;> split at mj <;> omega) (by split at mi <;> split at mj <;> omega)).ne' h1 h2
  · by_cases hB : (j + 1) % l.length = i
    · right
      refine ⟨?_, hB⟩
      have hda : d = a := by rw [hB, hi] at hj'; exact (Option.some.inj hj').symm
      subst hda
      exact corner_point (hpos' _ b hi' (by split at mi <;> split at mj <;> omega) (by split at mi <;> split at mj <;> omega)).ne' h2 h1
    · exfalso
      have g1 := hpos j c hj (Ne.symm hij) (Ne.symm hA)
      have g2 := hpos _ d hj' hB (by split at mi <;> split at mj <;> omega)
      obtain ⟨t, _, _, tx, ty⟩ := h1
      obtain ⟨s, s0, s1, sx, sy⟩ := h2
      have e0 : area2 a b p = 0 := by rw [area2_eq, tx, ty]; ring
      have e1 : area2 a b p = (1 - s) * area2 a b c + s * area2 a b d := by simp only [area2_eq]; rw [sx, sy]; ring
      rcases eq_or_lt_of_le s0 with hs | hs
      · rw [← hs] at e1; linarith
      · have := mul_pos hs g2
        have := mul_nonneg (by linarith : (0:K) ≤ 1 - s) g1.le
        linarith

theorem fanSum_le (a : Vec2 K) (m : List (Vec2 K)) (s : K)
    (h : ∀ (i : Nat) (hi : i + 1 < m.length), 0 ≤ area2 a m[i] m[i + 1]) : s ≤ fanSum a m s := by
  induction m generalizing s with
  | nil => exact le_refl _
  | cons b m ih =>
    cases m with
    | nil => exact le_refl _
    | cons c m =>
      have h0 : 0 ≤ area2 a b c := h 0 (by simp)
      have := ih (s + area2 a b c) (fun i hi => h (i + 1) (by simpa using hi))
      unfold fanSum
      exact le_trans (by linarith) this

theorem convex_shoelace {l : List (Vec2 K)} (h : ConvexPolygon l) : 0 < shoelace l := by
  have hs := simple_of_spec (convex_simple h)
  obtain ⟨h3, hT⟩ := convex_iff.1 h
  refine lt_of_le_of_ne ?_ (Ne.symm (cn_shoelace hs).2)
  rw [← areaPoly2_eq]
  cases l with
  | nil => simp at h3
  | cons a m =>
    refine fanSum_le a m 0 fun i hi => ?_
    exact (hT 0 (i + 1) (i + 2) (by omega) (by omega) (by simp only [List.length_cons]; omega)).le

/-! ### diagonals -/

theorem convex_isDiag {l : List (Vec2 K)} (h : ConvexPolygon l) {i j : Nat} (hij : i < j) (hj : j < l.length) (n1 : i + 1 ≠ j)
    (n2 : ¬ (i = 0 ∧ j + 1 = l.length)) : IsDiag l l[i] l[j] := by
  have hs := simple_of_spec (convex_simple h)
  have hnd := hs.nodup
  obtain ⟨h3, hT⟩ := convex_iff.1 h
  have hi : i < l.length := by omega
  have hne0 : ∀ (k : Nat) (hk : k < l.length), k ≠ i → k ≠ j → area2 l[i] l[j] l[k] ≠ 0 := by
    intro k hk k1 k2
    by_cases hin : i < k ∧ k < j
    · exact (hT.inside hin.1 hin.2 hj).ne
    · exact (hT.outside hij hj hk (by omega)).ne'
  have hnei : l[i] ≠ l[j] := by rw [Ne, get_inj hnd]; omega
  refine isDiag_of hs (List.getElem_mem _) (List.getElem_mem _) hnei ?_ ?_
  · intro e he x hx hx'
    obtain ⟨k, k1, k2⟩ := mem_ring_iff.1 he
    obtain ⟨hk, k1⟩ := List.getElem?_eq_some_iff.1 k1
    obtain ⟨hk', k2⟩ := List.getElem?_eq_some_iff.1 k2
    have hm := succ_mod hk
    rw [← k1, ← k2] at hx' ⊢
    -- at `l[i]`, at `l[j]`
    have ci : ∀ (m : Nat) (hm : m < l.length), m ≠ i → m ≠ j → OnSeg l[i] l[m] x → x = l[i] := by
      intro m hm m1 m2 hon
      refine corner_point ?_ (onSeg_comm hx) hon
      rw [area_flip, neg_ne_zero]; exact hne0 m hm m1 m2
    have cj : ∀ (m : Nat) (hm : m < l.length), m ≠ i → m ≠ j → OnSeg l[j] l[m] x → x = l[j] := by
      intro m hm m1 m2 hon
      exact corner_point (hne0 m hm m1 m2) hx hon
    generalize hk2 : (k + 1) % l.length = k' at *
    by_cases a1 : k = i
    · subst a1
      have := ci k' hk' (by split at hm <;> omega) (by split at hm <;> omega) hx'
      exact ⟨Or.inl this, Or.inl this⟩
    by_cases a2 : k = j
    · subst a2
      have := cj k' hk' (by split at hm <;> omega) (by split at hm <;> omega) hx'
      exact ⟨Or.inr this, Or.inl this⟩
    by_cases a3 : k' = i
    · subst a3
      have := ci k hk a1 a2 (onSeg_comm hx')
      exact ⟨Or.inl this, Or.inr this⟩
    by_cases a4 : k' = j
    · subst a4
      have := cj k hk a1 a2 (onSeg_comm hx')
      exact ⟨Or.inr this, Or.inr this⟩
    exfalso
    obtain ⟨t, _, _, tx, ty⟩ := hx
    obtain ⟨s, s0, s1, sx, sy⟩ := hx'
    have e0 : area2 l[i] l[j] x = 0 := by rw [area2_eq, tx, ty]; ring
    have e1 : area2 l[i] l[j] x = (1 - s) * area2 l[i] l[j] l[k] + s * area2 l[i] l[j] l[k'] := by
      simp only [area2_eq]; rw [sx, sy]; ring
    by_cases hin : i < k ∧ k < j
    · have g1 := hT.inside hin.1 hin.2 hj
      have g2 := hT.inside (show i < k' by split at hm <;> omega) (show k' < j by split at hm <;> omega) hj
      rcases eq_or_lt_of_le s0 with hs | hs
      · rw [← hs] at e1; linarith
      · have := mul_neg_of_pos_of_neg hs g2
        have := mul_nonpos_of_nonneg_of_nonpos (by linarith : (0:K) ≤ 1 - s) g1.le
        linarith
    · have g1 := hT.outside hij hj hk (by omega)
      have g2 := hT.outside hij hj hk' (by split at hm <;> omega)
      rcases eq_or_lt_of_le s0 with hs | hs
      · rw [← hs] at e1; linarith
      · have := mul_pos hs g2
        have := mul_nonneg (by linarith : (0:K) ≤ 1 - s) g1.le
        linarith
  · intro n m hn hm
    rw [ring_nxt_unique hnd hi hn, ring_prv_unique hnd hi hm]
    have en : nxt l.length i = i + 1 := by unfold nxt; split <;> omega
    simp only [en]
    have hp := prv_lt hi
    have hpv : (i = 0 ∧ prv l.length i = l.length - 1) ∨ (0 < i ∧ prv l.length i + 1 = i) := by
      unfold prv; split <;> omega
    refine cyc_of_areas ?_ ?_ ?_ ?_ ?_ ?_
    · rw [Ne, get_inj hnd]; omega
    · rw [Ne, get_inj hnd]; omega
    · rw [Ne, get_inj hnd]; omega
    · exact hT.outside (by omega) _ _ (by omega)
    · exact hT.outside (by omega) _ _ (by omega)
    · exact hT.outside hij hj _ (by omega)

/-- **C99, diagonals.** In a convex polygon `diagonal(i, j)` is true for any two vertices that are not neighbours, and false
for neighbours and for `i = j`. -/
theorem C99_diagonal (P : Polygon K) (h : ConvexPolygon P.vertices) (i j : Nat) (hi : i < P.vertices.length)
    (hj : j < P.vertices.length) :
    P.diagonal i j = .ok (decide (i ≠ j ∧ (i + 1) % P.vertices.length ≠ j ∧ (j + 1) % P.vertices.length ≠ i)) := by
  have hs := simple_of_spec (convex_simple h)
  have mi := succ_mod hi
  have mj := succ_mod hj
  have key : P.diagonal i j = .ok true ↔ (i ≠ j ∧ (i + 1) % P.vertices.length ≠ j ∧ (j + 1) % P.vertices.length ≠ i) := by
    rw [diagonal_simple hs hi hj]
    constructor
    · intro hd
      refine ⟨fun he => hd.ne (by subst he; rfl), fun he => ?_, fun he => ?_⟩
      · have m1 := ring_nxt hi
        have m2 := ring_prv hi
        simp only [nxt_eq_mod hi, he] at m1
        exact not_cyc_left (hd.cone _ _ m1 m2)
      · have m1 := ring_nxt hj
        have m2 := ring_prv hj
        simp only [nxt_eq_mod hj, he] at m1
        exact not_cyc_left (hd.cone' _ _ m1 m2)
    · rintro ⟨h1, h2, h3⟩
      rcases Nat.lt_or_ge i j with hlt | hge
      · exact convex_isDiag h hlt hj (by split at mi <;> omega) (by split at mj <;> omega)
      · exact (convex_isDiag h (show j < i by omega) hi (by split at mj <;> omega) (by split at mi <;> omega)).symm
  obtain ⟨b, hb⟩ := Tri.diagonal_ok P i j hi hj
  rw [hb] at key ⊢
  rw [Except.ok.injEq] at key
  rw [Except.ok.injEq, Bool.eq_iff_iff, decide_eq_true_eq]
  exact key

/-! ### the fan -/

/-- what the run needs to know: the diagonals of the polygon and of what is left after cutting, and that the triangles are kept
as they are -/
structure FanOk {F : Type} [OrdScalar F] (m : List (Vec2 F)) (z : Vec2 F) : Prop where
  diag : ∀ t, t <:+ m → 3 ≤ t.length → ∀ i j, i < (t ++ [z]).length → j < (t ++ [z]).length →
    (⟨t ++ [z]⟩ : Polygon F).diagonal i j =
      .ok (decide (i ≠ j ∧ (i + 1) % (t ++ [z]).length ≠ j ∧ (j + 1) % (t ++ [z]).length ≠ i))
  tri : ∀ a b, [a, b] <:+: m → newUnwrap [z, a, b] = .ok ⟨[z, a, b]⟩

theorem FanOk.tail {F : Type} [OrdScalar F] {m : List (Vec2 F)} {a z : Vec2 F} (h : FanOk (a :: m) z) : FanOk m z :=
  ⟨fun t ht => h.diag t (ht.trans (List.suffix_cons a m)), fun x y hxy => h.tri x y (hxy.trans (List.suffix_cons a m).isInfix)⟩

theorem fan_run {F : Type} [OrdScalar F] (m : List (Vec2 F)) (z : Vec2 F) (hm : 2 ≤ m.length) (st : TriState F)
    (hv : st.copy.vertices = m ++ [z]) (hT : FanOk m z) (hlen : st.isEar.length = m.length + 1) (hf : 3 ≤ m.length → ∀ f ∈ st.isEar, f = true) :
    ∃ fin, WhileRuns st (.ok fin) ∧
      (fin.triangles ++ [fin.copy]).map Polygon.vertices = st.triangles.map Polygon.vertices ++ fan z m := by
  induction m generalizing st with
  | nil => simp at hm
  | cons a m ih =>
    match m, hm with
    | [b], _ =>
      refine ⟨st, WhileRuns.done st (by rw [hv]; simp), ?_⟩
      simp [hv, fan]
    | b :: c :: m, _ =>
      have hn : st.copy.vertices.length = m.length + 4 := by rw [hv]; simp
      have h4 : 3 < st.copy.vertices.length := by omega
      have h0 : 0 < st.copy.vertices.length := by omega
      have hinv : Inv st := ⟨by omega, by rw [hlen, hn]; simp⟩
      have hf := hf (by simp)
      have hT' : FanOk (b :: c :: m) z := hT.tail
      obtain ⟨T, d1, d3, hTT, hd1, hd3, heq⟩ := clipEar_eq st 0 hinv h4 h0
      have e1 : prv st.copy.vertices.length 0 = m.length + 3 := by rw [hn]; unfold prv; simp
      have e3 : nxt st.copy.vertices.length 0 = 1 := by rw [hn]; unfold nxt; simp
      have e0 : prv st.copy.vertices.length (m.length + 3) = m.length + 2 := by rw [hn]; unfold prv; simp
      have e4 : nxt st.copy.vertices.length 1 = 2 := by rw [hn]; unfold nxt; simp
      have hTv : T.vertices = [z, a, b] := by
        have := hT.tri a b ⟨[], c :: m, rfl⟩
        have he : newUnwrap [z, a, b] = .ok T := by
          rw [← hTT]
          congr 1
          simp only [e1, e3]
          simp only [hv]
          simp
        rw [this] at he
        cases he; rfl
      have her : st.copy.vertices.eraseIdx 0 = b :: c :: m ++ [z] := by rw [hv]; rfl
      have hb : whileBody st = .ok ⟨⟨st.copy.vertices.eraseIdx 0⟩,
        ((st.isEar.eraseIdx 0).set (shiftDown 0 (prv st.copy.vertices.length 0)) d1).set
          (shiftDown 0 (nxt st.copy.vertices.length 0)) d3,
        st.triangles ++ [T]⟩ := by
        have hix : index st.isEar 0 = .ok true := by
          rw [index_of_lt _ _ (by omega : 0 < st.isEar.length)]
          rw [hf _ (List.getElem_mem _)]
        have hfe : ∀ k, forEar st (k + 1) 0 = clipEar st 0 := by
          intro k
          unfold forEar
          rw [hix]
          rfl
        rw [← heq, ← hfe (m.length + 3), ← hn]
        rfl
      have hflags : 3 ≤ (b :: c :: m).length → ∀ f ∈ ((st.isEar.eraseIdx 0).set (shiftDown 0 (prv st.copy.vertices.length 0)) d1).set
          (shiftDown 0 (nxt st.copy.vertices.length 0)) d3, f = true := by
        intro h3 f hmem
        have h3 : 1 ≤ m.length := by simpa using h3
        rw [her, e1, e3, e0] at hd1
        rw [her, e1, e3, e4] at hd3
        rw [hT'.diag _ (List.suffix_refl _) (by simpa using h3) _ _ (by simp [shiftDown]) (by simp [shiftDown]), Except.ok.injEq] at hd1 hd3
        rcases List.mem_or_eq_of_mem_set hmem with hmem | rfl
        · rcases List.mem_or_eq_of_mem_set hmem with hmem | rfl
          · exact hf f (List.mem_of_mem_eraseIdx hmem)
          · rw [← hd1, decide_eq_true_eq]
            have hl : (b :: c :: m ++ [z]).length = m.length + 3 := by simp
            simp only [hl, shiftDown]
            refine ⟨by simp, ?_, ?_⟩
            · rw [Nat.mod_eq_of_lt (by simp)]; simp
            · rw [Nat.mod_eq_of_lt (by simp)]; rw [if_pos (by omega), if_pos (by omega)]; omega
        · rw [← hd3, decide_eq_true_eq]
          have hl : (b :: c :: m ++ [z]).length = m.length + 3 := by simp
          simp only [hl, shiftDown]
          refine ⟨by simp, ?_, ?_⟩
          · rw [if_pos (by omega), show m.length + 3 - 1 + 1 = m.length + 3 by omega, Nat.mod_self]; simp
          · rw [Nat.mod_eq_of_lt (by simp)]; rw [if_pos (by omega), if_pos (by omega)]; omega
      obtain ⟨fin, hw, hfin⟩ := ih (by simp) ⟨⟨st.copy.vertices.eraseIdx 0⟩,
        ((st.isEar.eraseIdx 0).set (shiftDown 0 (prv st.copy.vertices.length 0)) d1).set
          (shiftDown 0 (nxt st.copy.vertices.length 0)) d3,
        st.triangles ++ [T]⟩ her hT' (by
          rw [List.length_set, List.length_set, List.length_eraseIdx_of_lt (by omega), hlen]; simp) hflags
      refine ⟨fin, WhileRuns.next st _ _ h4 hb hw, ?_⟩
      rw [hfin]
      simp [hTv, fan]

theorem FanOk.run {F : Type} [OrdScalar F] {P : Polygon F} {m : List (Vec2 F)} {z : Vec2 F} (hm : 2 ≤ m.length)
    (hv : P.vertices = m ++ [z]) (h : FanOk m z) : ∃ ts, Triangulates P (.ok ts) ∧ ts.map Polygon.vertices = fan z m := by
  have hl : P.vertices.length = m.length + 1 := by rw [hv]; simp
  by_cases hn : P.vertices.length = 3
  · refine ⟨[P], Triangulates.triangle hn, ?_⟩
    match m, (show m.length = 2 by omega) with
    | [a, b], _ => simp [hv, fan]
  · obtain ⟨fl, hfl, hlen⟩ := Tri.earFlags_ok P P.vertices.length 0 (by omega)
    have hall : ∀ f ∈ fl, f = true := by
      intro f hf
      obtain ⟨k, hk, hkf⟩ := List.mem_iff_getElem.1 hf
      obtain ⟨b, hb, hd⟩ := earFlags_get P (by omega) _ _ _ hfl k (by omega)
      have hk' : k < P.vertices.length := by omega
      have hdiag := h.diag m (List.suffix_refl _) (by omega) (prv P.vertices.length k) (nxt P.vertices.length k)
        (by rw [← hv]; exact prv_lt hk') (by rw [← hv]; exact nxt_lt hk')
      rw [← hv] at hdiag
      rw [Nat.zero_add, show P = ⟨P.vertices⟩ from rfl, hdiag, Except.ok.injEq] at hd
      rw [List.getElem?_eq_getElem hk, Option.some.injEq, hkf] at hb
      rw [hb, ← hd, decide_eq_true_eq, succ_mod (prv_lt hk'), succ_mod (nxt_lt hk')]
      unfold prv nxt
      refine ⟨?_, ?_, ?_⟩ <;> (repeat' split) <;> omega
    have hi : triInit P = .ok ⟨P, fl, []⟩ := by
      unfold triInit
      simp only [hfl, bind, Except.bind, pure, Except.pure]
    obtain ⟨fin, hw, hfin⟩ := fan_run m z hm ⟨P, fl, []⟩ hv h (by simp only; omega) (fun _ => hall)
    exact ⟨_, Triangulates.ok _ fin hn hi hw, by simpa using hfin⟩

theorem Turning.suffix {l t : List (Vec2 K)} (h : Turning l) (ht : t <:+ l) : Turning t := by
  induction l with
  | nil => rw [List.suffix_nil.1 ht]; exact h
  | cons a l ih =>
    rcases List.suffix_cons_iff.1 ht with rfl | ht
    · exact h
    · exact ih h.tail ht

theorem infix_get {α : Type} {m : List α} {a b : α} (h : [a, b] <:+: m) : ∃ k, ∃ hk : k + 1 < m.length, m[k] = a ∧ m[k + 1] = b := by
  obtain ⟨s, t, rfl⟩ := h
  exact ⟨s.length, by simp, by simp, by simp⟩

theorem convex_tri {m : List (Vec2 K)} {z a b : Vec2 K} (hT : Turning (m ++ [z])) (h : [a, b] <:+: m) : 0 < area2 z a b := by
  obtain ⟨k, hk, h1, h2⟩ := infix_get h
  have := hT k (k + 1) m.length (by omega) hk (by simp)
  rw [← area_cyc]
  rw [List.getElem_append_left (by omega), List.getElem_append_left hk, h1, h2] at this
  simpa using this

theorem convex_part {m t : List (Vec2 K)} {z : Vec2 K} (h : ConvexPolygon (m ++ [z])) (ht : t <:+ m) (h2 : 2 ≤ t.length) :
    ConvexPolygon (t ++ [z]) := by
  obtain ⟨s, rfl⟩ := ht
  refine convex_iff.2 ⟨by simp; omega, (convex_iff.1 h).2.suffix ⟨s, by simp⟩⟩

theorem convex_fanOk {m : List (Vec2 K)} {z : Vec2 K} (h : ConvexPolygon (m ++ [z])) : FanOk m z := by
  refine ⟨?_, ?_⟩
  · intro t ht h3 i j hi hj
    exact C99_diagonal ⟨t ++ [z]⟩ (convex_part h ht (by omega)) i j hi hj
  · intro a b hab
    have hpos := convex_tri (convex_iff.1 h).2 hab
    obtain ⟨T, hT, _⟩ := Tri.newUnwrap_three z a b
    rw [hT]
    congr 1
    exact congrArg Polygon.mk (new_ccw hpos hT)

/-- **C99, triangulate.** `triangulate` of a convex polygon with vertices `m`, `z` (in this order) returns the triangles between
`z` and the edges of `m`, in order. -/
theorem C99_fan (P : Polygon K) (h : ConvexPolygon P.vertices) (m : List (Vec2 K)) (z : Vec2 K) (hv : P.vertices = m ++ [z]) :
    ∃ ts, Triangulates P (.ok ts) ∧ ts.map Polygon.vertices = fan z m := by
  have h3 := h.1
  rw [hv] at h h3
  exact (convex_fanOk h).run (by simp at h3; omega) hv

/-- **C99, construction.** A convex polygon is simple and has positive area; `Polygon::new` keeps its vertices, and turns them
around when they are given clockwise. -/
theorem C99_simple (l : List (Vec2 K)) (h : ConvexPolygon l) :
    SimplePolygon l ∧ 0 < shoelace l ∧ Polygon.new l = .ok ⟨l⟩ ∧ Polygon.new l.reverse = .ok ⟨l⟩ := by
  have hpos := convex_shoelace h
  refine ⟨convex_simple h, hpos, ?_, ?_⟩
  · obtain ⟨P, hP, _, hk, _⟩ := C27_new_ccw l h.1
    rw [hP, ← hk hpos.le]
  · obtain ⟨P, hP, _, _, hk, _⟩ := C27_new_ccw l.reverse (by rw [List.length_reverse]; exact h.1)
    have : shoelace l.reverse < 0 := by rw [shoelace_reverse]; linarith
    have hk := hk this
    rw [List.reverse_reverse] at hk
    rw [hP, ← hk]

/-- a pentagon -/
def pentagon : List (Vec2 ℚ) := [⟨0, 0⟩, ⟨4, 0⟩, ⟨5, 3⟩, ⟨2, 5⟩, ⟨-1, 3⟩]

theorem pentagon_convex : ConvexPolygon pentagon := by
  rw [convex_iff]
  refine ⟨by decide, ?_⟩
  intro i j k hij hjk hk
  have hk : k < 5 := hk
  interval_cases k <;> interval_cases j <;> interval_cases i <;> simp [pentagon, area2_eq] <;> norm_num

example : ∃ ts, Triangulates ⟨pentagon⟩ (.ok ts) ∧ ts.map Polygon.vertices =
    [[⟨-1, 3⟩, ⟨0, 0⟩, ⟨4, 0⟩], [⟨-1, 3⟩, ⟨4, 0⟩, ⟨5, 3⟩], [⟨5, 3⟩, ⟨2, 5⟩, ⟨-1, 3⟩]] :=
  C99_fan ⟨pentagon⟩ pentagon_convex [⟨0, 0⟩, ⟨4, 0⟩, ⟨5, 3⟩, ⟨2, 5⟩] ⟨-1, 3⟩ rfl

end Kami.Simple
