import Verif.Geom.Simple.Clip
/-!
# C35: `triangulate` terminates on every simple polygon
-/

set_option autoImplicit false
set_option linter.unusedSectionVars false
set_option linter.dupNamespace false

namespace Kami.Simple

open Kami Kami.Pred Kami.PolyThm Kami.Polygon
open Kami.Tri (prv nxt prv_lt nxt_lt prv_eq_mod nxt_eq_mod Inv Cut)

variable {K : Type} [Field K] [LinearOrder K] [IsStrictOrderedRing K]

/-! ### Specification: simple polygons, by index -/

/-- A simple polygon, in terms of positions: at least three vertices, no two equal, and two different edges have a point
in common only if one ends where the other begins, and then only that point. -/
def SimplePolygon (l : List (Vec2 K)) : Prop :=
  3 ≤ l.length ∧ l.Nodup ∧
  ∀ (i j : Nat) (a b c d p : Vec2 K), i ≠ j → l[i]? = some a → l[(i + 1) % l.length]? = some b →
    l[j]? = some c → l[(j + 1) % l.length]? = some d → OnSeg a b p → OnSeg c d p →
    (p = b ∧ (i + 1) % l.length = j) ∨ (p = a ∧ (j + 1) % l.length = i)

theorem mem_pairs_iff {α : Type} {S : List α} {e : α × α} :
    e ∈ pairs S ↔ ∃ i : Nat, S[i]? = some e.1 ∧ S[i + 1]? = some e.2 := by
  induction S with
  | nil => simp [pairs]
  | cons a S ih =>
    cases S with
    | nil => simp [pairs]
    | cons b S =>
      rw [pairs, List.mem_cons, ih]
      constructor
      · rintro (rfl | ⟨i, h1, h2⟩)
        · exact ⟨0, rfl, rfl⟩
        · exact ⟨i + 1, h1, h2⟩
      · rintro ⟨i, h1, h2⟩
        cases i with
        | zero =>
          left
          simp at h1 h2
          exact Prod.ext h1.symm h2.symm
        | succ i => right; exact ⟨i, h1, h2⟩

theorem mem_ring_iff {α : Type} {l : List α} {e : α × α} :
    e ∈ ring l ↔ ∃ i : Nat, l[i]? = some e.1 ∧ l[(i + 1) % l.length]? = some e.2 := by
  cases l with
  | nil => simp [ring]
  | cons a l =>
    show e ∈ pairs (a :: l ++ [a]) ↔ _
    rw [mem_pairs_iff]
    have h0 : ∀ i : Nat, i < (a :: l).length → (a :: l ++ [a])[i]? = (a :: l)[i]? := fun i hi => List.getElem?_append_left hi
    have h1 : (a :: l ++ [a])[(a :: l).length]? = some a := by
      rw [List.getElem?_append_right le_rfl]; simp
    constructor
    · rintro ⟨i, h2, h3⟩
      have hi : i + 1 < (a :: l ++ [a]).length := (List.getElem?_eq_some_iff.1 h3).1
      simp only [List.length_append, List.length_singleton] at hi
      refine ⟨i, by rw [← h0 i (by omega)]; exact h2, ?_⟩
      by_cases hlt : i + 1 < (a :: l).length
      · rw [Nat.mod_eq_of_lt hlt, ← h0 _ hlt]; exact h3
      · have he : i + 1 = (a :: l).length := by omega
        rw [he, h1] at h3
        rw [he, Nat.mod_self]; exact h3
    · rintro ⟨i, h2, h3⟩
      have hi : i < (a :: l).length := (List.getElem?_eq_some_iff.1 h2).1
      refine ⟨i, by rw [h0 i hi]; exact h2, ?_⟩
      by_cases hlt : i + 1 < (a :: l).length
      · rw [Nat.mod_eq_of_lt hlt] at h3; rw [h0 _ hlt]; exact h3
      · have he : i + 1 = (a :: l).length := by omega
        rw [he, Nat.mod_self] at h3
        rw [he, h1]; exact h3

theorem simple_of_spec {l : List (Vec2 K)} (h : SimplePolygon l) : Simple l := by
  obtain ⟨h3, hnd, hm⟩ := h
  refine ⟨h3, hnd, ?_⟩
  intro e he e' he' hne x hx hx'
  obtain ⟨i, i1, i2⟩ := mem_ring_iff.1 he
  obtain ⟨j, j1, j2⟩ := mem_ring_iff.1 he'
  have hij : i ≠ j := by
    rintro rfl
    rw [i1] at j1; rw [i2] at j2
    exact hne (Prod.ext (Option.some.inj j1) (Option.some.inj j2))
  rcases hm i j _ _ _ _ x hij i1 i2 j1 j2 hx hx' with ⟨h4, h5⟩ | ⟨h4, h5⟩
  · left
    refine ⟨h4, ?_⟩
    rw [h5, j1] at i2
    rw [h4]; exact (Option.some.inj i2).symm
  · right
    refine ⟨h4, ?_⟩
    rw [h5, i1] at j2
    rw [h4]; exact Option.some.inj j2

/-! ### the tests of the program -/

section Link
variable {P : Polygon K}

theorem get_inj {l : List (Vec2 K)} (h : l.Nodup) {i j : Nat} (hi : i < l.length) (hj : j < l.length) :
    l[i] = l[j] ↔ i = j := h.getElem_inj_iff

theorem ring_nxt {l : List (Vec2 K)} {i : Nat} (hi : i < l.length) : (l[i], l[nxt l.length i]'(nxt_lt hi)) ∈ ring l := by
  rw [mem_ring_iff]
  refine ⟨i, List.getElem?_eq_getElem hi, ?_⟩
  rw [← nxt_eq_mod hi]
  exact List.getElem?_eq_getElem _

theorem nxt_prv {n i : Nat} (h : i < n) : nxt n (prv n i) = i := by
  unfold nxt prv; split <;> split <;> omega

theorem prv_nxt {n i : Nat} (_h : i < n) : prv n (nxt n i) = i := by
  unfold nxt prv; split <;> split <;> omega

theorem ring_prv {l : List (Vec2 K)} {i : Nat} (hi : i < l.length) : (l[prv l.length i]'(prv_lt hi), l[i]) ∈ ring l := by
  rw [mem_ring_iff]
  refine ⟨prv l.length i, List.getElem?_eq_getElem _, ?_⟩
  rw [← nxt_eq_mod (prv_lt hi), nxt_prv hi]
  exact List.getElem?_eq_getElem _

theorem ring_nxt_unique {l : List (Vec2 K)} (h : l.Nodup) {i : Nat} (hi : i < l.length) {n : Vec2 K} (hn : (l[i], n) ∈ ring l) :
    n = l[nxt l.length i]'(nxt_lt hi) := by
  obtain ⟨k, k1, k2⟩ := mem_ring_iff.1 hn
  obtain ⟨hk, k1⟩ := List.getElem?_eq_some_iff.1 k1
  have hki : k = i := (get_inj h hk hi).1 k1
  subst hki
  rw [← nxt_eq_mod hk, List.getElem?_eq_getElem (nxt_lt hk)] at k2
  exact (Option.some.inj k2).symm

theorem ring_prv_unique {l : List (Vec2 K)} (h : l.Nodup) {i : Nat} (hi : i < l.length) {m : Vec2 K} (hm : (m, l[i]) ∈ ring l) :
    m = l[prv l.length i]'(prv_lt hi) := by
  obtain ⟨k, k1, k2⟩ := mem_ring_iff.1 hm
  obtain ⟨hk, k1⟩ := List.getElem?_eq_some_iff.1 k1
  rw [← nxt_eq_mod hk] at k2
  obtain ⟨_, k2⟩ := List.getElem?_eq_some_iff.1 k2
  have hki : nxt l.length k = i := (get_inj h (nxt_lt hk) hi).1 k2
  subst hki
  simp only [prv_nxt hk]
  exact k1.symm

/-- what the cone test of the program says about a simple polygon -/
theorem inCone_iff (hs : Simple P.vertices) {i j : Nat} (hi : i < P.vertices.length) (hj : j < P.vertices.length) (hij : i ≠ j) :
    P.inCone i j = .ok true ↔ Cone P.vertices P.vertices[i] P.vertices[j] := by
  have hnd := hs.nodup
  have h3 := hs.three
  have n1 : P.vertices[nxt P.vertices.length i]'(nxt_lt hi) ≠ P.vertices[i] := by
    rw [Ne, get_inj hnd]; unfold nxt; split <;> omega
  have n2 : P.vertices[prv P.vertices.length i]'(prv_lt hi) ≠ P.vertices[i] := by
    rw [Ne, get_inj hnd]; unfold prv; split <;> omega
  have n3 : P.vertices[j] ≠ P.vertices[i] := by
    rw [Ne, get_inj hnd]; omega
  have hang : ang P.vertices[i] (P.vertices[nxt P.vertices.length i]'(nxt_lt hi)) ≠
      ang P.vertices[i] (P.vertices[prv P.vertices.length i]'(prv_lt hi)) := by
    obtain ⟨S, hS⟩ := exists_rotation (List.getElem_mem hi)
    have hs' := hs.rotate hS
    obtain ⟨n, p, hn, hp, _, _, _, h5⟩ := hs'.at_vertex
    have e1 := ring_out hs'.nodup hn hp ((ring_isRotated hS).mem_iff.1 (ring_nxt hi))
    have e2 := ring_in hs'.nodup hn hp ((ring_isRotated hS).mem_iff.1 (ring_prv hi))
    rw [e1, e2]; exact h5
  have key := cone_test n1 n2 n3 hang
  rw [Tri.inCone_eq P i j hi hj]
  simp only [Except.ok.injEq]
  rw [key]
  constructor
  · intro h n m hn hm
    rw [ring_nxt_unique hnd hi hn, ring_prv_unique hnd hi hm]
    exact h
  · intro h
    exact h _ _ (ring_nxt hi) (ring_prv hi)

/-- what `diagonal` says about a simple polygon -/
theorem diagonal_simple (hs : Simple P.vertices) {i j : Nat} (hi : i < P.vertices.length) (hj : j < P.vertices.length) :
    P.diagonal i j = .ok true ↔ IsDiag P.vertices P.vertices[i] P.vertices[j] := by
  have hnd := hs.nodup
  rw [Tri.diagonal_iff P i j hi hj]
  constructor
  · rintro ⟨hij, hhit, hc1, hc2⟩
    rw [inCone_iff hs hi hj hij] at hc1
    rw [inCone_iff hs hj hi hij.symm] at hc2
    have hne : P.vertices[i] ≠ P.vertices[j] := by rw [Ne, get_inj hnd]; exact hij
    refine ⟨List.getElem_mem _, List.getElem_mem _, hne, ?_, hc1, hc2⟩
    intro e he x hx hx'
    -- the four kinds of edges at the ends
    have hend : ∀ u v : Vec2 K, u ≠ v → Cone P.vertices u v → OnSeg u v x → (u = e.1 ∨ u = e.2) → u ∈ P.vertices → x = u := by
      intro u v huv hcone hon hue hu
      by_contra hxu
      have hax : ang u x = ang u v := ang_onSeg hon hxu
      obtain ⟨S, hS⟩ := exists_rotation hu
      have hs' := hs.rotate hS
      obtain ⟨n, p, hn, hp, _⟩ := hs'.at_vertex
      have m1 : (u, n) ∈ ring P.vertices := by rw [(ring_isRotated hS).mem_iff, ring_cons hn hp]; simp
      have m2 : (p, u) ∈ ring P.vertices := by rw [(ring_isRotated hS).mem_iff, ring_cons hn hp]; simp
      have hcy := hcone n p m1 m2
      have he' := (ring_isRotated hS).mem_iff.1 he
      rcases hue with hue | hue
      · have : e.2 = n := ring_out hs'.nodup hn hp (by
          rw [show (u, e.2) = e from Prod.ext hue rfl]; exact he')
        rw [this, ← hue] at hx'
        have : ang u x = ang u n := ang_onSeg hx' hxu
        rw [← hax, this] at hcy
        exact not_cyc_left hcy
      · have : e.1 = p := ring_in hs'.nodup hn hp (by
          rw [show (e.1, u) = e from Prod.ext rfl hue]; exact he')
        rw [this, ← hue] at hx'
        have : ang u x = ang u p := ang_onSeg (onSeg_comm hx') hxu
        rw [← hax, this] at hcy
        exact not_cyc_right hcy
    by_cases h1 : P.vertices[i] = e.1 ∨ P.vertices[i] = e.2
    · have := hend _ _ hne hc1 hx h1 (List.getElem_mem _)
      rw [this]
      exact ⟨Or.inl rfl, h1⟩
    · by_cases h2 : P.vertices[j] = e.1 ∨ P.vertices[j] = e.2
      · have := hend _ _ hne.symm hc2 (onSeg_comm hx) h2 (List.getElem_mem _)
        rw [this]
        exact ⟨Or.inr rfl, h2⟩
      · exfalso
        apply hhit
        rw [Tri.hitsEdge_iff P i j hi hj _ _ (by omega)]
        obtain ⟨k, k1, k2⟩ := mem_ring_iff.1 he
        obtain ⟨hk, k1'⟩ := List.getElem?_eq_some_iff.1 k1
        obtain ⟨hk2, k2'⟩ := List.getElem?_eq_some_iff.1 k2
        refine ⟨k, e.1, e.2, by omega, by omega, ⟨?_, ?_, ?_, ?_⟩, k1, k2, C26_complete _ _ _ _ ⟨x, hx, hx'⟩⟩
        · rintro rfl; exact h1 (Or.inl k1')
        · intro h; simp only [h] at k2'; exact h1 (Or.inr k2')
        · rintro rfl; exact h2 (Or.inl k1')
        · intro h; simp only [h] at k2'; exact h2 (Or.inr k2')
  · intro hd
    have hij : i ≠ j := by
      rintro rfl; exact hd.ne rfl
    refine ⟨hij, ?_, (inCone_iff hs hi hj hij).2 hd.cone, (inCone_iff hs hj hi hij.symm).2 hd.cone'⟩
    intro hhit
    rw [Tri.hitsEdge_iff P i j hi hj _ _ (by omega)] at hhit
    obtain ⟨m, c, d, _, hm, ⟨a1, a2, a3, a4⟩, hc, hd', hint⟩ := hhit
    have he : (c, d) ∈ ring P.vertices := mem_ring_iff.2 ⟨m, hc, hd'⟩
    rw [C26_intersect_partial _ _ _ _ hd.ne (hs.edge_ne he)] at hint
    obtain ⟨p, hp, hp'⟩ := hint
    obtain ⟨q1, q2⟩ := hd.clear _ he p hp hp'
    obtain ⟨hm1, hc⟩ := List.getElem?_eq_some_iff.1 hc
    obtain ⟨hm2, hd'⟩ := List.getElem?_eq_some_iff.1 hd'
    simp only at q2
    rcases q1 with q1 | q1 <;> rcases q2 with q2 | q2
    · exact a1 ((get_inj hnd hm1 hi).1 (by rw [hc, ← q2, q1]))
    · exact a2 ((get_inj hnd hm2 hi).1 (by rw [hd', ← q2, q1]))
    · exact a3 ((get_inj hnd hm1 hj).1 (by rw [hc, ← q2, q1]))
    · exact a4 ((get_inj hnd hm2 hj).1 (by rw [hd', ← q2, q1]))

end Link

end Kami.Simple
