import Verif.Geom.Simple.Tiling
/-!
# What `diagonal` means on simple polygons
-/

set_option autoImplicit false
set_option linter.unusedSectionVars false
set_option linter.dupNamespace false

namespace Kami.Simple

open Kami Kami.Pred Kami.PolyThm Kami.Polygon

variable {K : Type} [Field K] [LinearOrder K] [IsStrictOrderedRing K]

theorem odd_crossings (l : List (Vec2 K)) (x : Vec2 K) :
    Odd ((edges l).countP fun e => decide (CrossRight x e.1 e.2)) ↔ Odd (W (ring l) x) := by
  obtain ⟨k, hk⟩ := W_parity x (ring l)
  rw [edges_eq, hk, Int.odd_add]
  simp

/-- strictly inside a polygon: on no edge, and with an odd number of crossings -/
def Inside (l : List (Vec2 K)) (x : Vec2 K) : Prop :=
  (∀ e ∈ edges l, ¬ OnSeg e.1 e.2 x) ∧ Odd ((edges l).countP fun e => decide (CrossRight x e.1 e.2))

theorem cone_of_inside {l : List (Vec2 K)} (h : Simple l) (h1 : cn l = 1) {p q : Vec2 K} (hp : p ∈ l) (hne : p ≠ q)
    (hin : ∀ x, OnSeg p q x → x ≠ p → x ≠ q → Inside l x) : Cone l p q := by
  obtain ⟨S, hr⟩ := exists_rotation hp
  have h' := h.rotate hr
  obtain ⟨n, m, hn, hm, hnp, hmp, _, hang⟩ := h'.at_vertex
  have hoff : ∀ z, OnSeg p q z → z ≠ p → z ≠ q → ∀ e ∈ ring (p :: S), ¬ OnSeg e.1 e.2 z := by
    intro z hz zp zq e he
    apply (hin z hz zp zq).1 e
    rw [edges_eq]; exact (ring_isRotated hr).mem_iff.2 he
  -- the middle of the segment
  obtain ⟨x, hx, hxp, hxq⟩ : ∃ x, OnSeg p q x ∧ x ≠ p ∧ x ≠ q := by
    refine ⟨⟨p.x + 1 / 2 * (q.x - p.x), p.y + 1 / 2 * (q.y - p.y)⟩, ⟨1 / 2, by norm_num, by norm_num, rfl, rfl⟩, ?_, ?_⟩
    · intro e; apply hne
      have e1 : p.x + 1 / 2 * (q.x - p.x) = p.x := congrArg Vec2.x e
      have e2 : p.y + 1 / 2 * (q.y - p.y) = p.y := congrArg Vec2.y e
      exact Vec2.ext (by linarith) (by linarith)
    · intro e; apply hne
      have e1 : p.x + 1 / 2 * (q.x - p.x) = q.x := congrArg Vec2.x e
      have e2 : p.y + 1 / 2 * (q.y - p.y) = q.y := congrArg Vec2.y e
      exact Vec2.ext (by linarith) (by linarith)
  have hangx : ang p x = ang p q := ang_onSeg hx hxp
  have dir : ∀ w, w ∈ S → w ≠ p → (∃ e ∈ ring (p :: S), ∀ z, OnSeg p w z → OnSeg e.1 e.2 z) → ang p w ≠ ang p x := by
    rintro w _ hwp ⟨e, he, hon⟩ heq
    rcases (onSeg_of_ang_eq hwp hxp heq).symm with h2 | h2
    · -- `w` lies between `p` and `x`
      apply hoff w (onSeg_part (onSeg_left _ _) hx h2) hwp _ e he (hon w (onSeg_right _ _))
      rintro rfl
      exact hxq (onSeg_antisymm hx h2)
    · exact hoff x hx hxp hxq e he (hon x h2)
  have hne1 : ang p n ≠ ang p x := by
    apply dir n (List.mem_of_mem_head? hn) hnp
    exact ⟨(p, n), by rw [ring_cons hn hm]; simp, fun z hz => hz⟩
  have hne2 : ang p m ≠ ang p x := by
    apply dir m (List.mem_of_mem_getLast? hm) hmp
    exact ⟨(m, p), by rw [ring_cons hn hm]; simp, fun z hz => onSeg_comm hz⟩
  have hvis : ∀ e ∈ pairs S, Apart x p e.1 e.2 := by
    intro e he z hz hz'
    have hme : e ∈ ring (p :: S) := by rw [ring_cons hn hm]; simp [he]
    have hzq : OnSeg p q z := onSeg_part hx (onSeg_left _ _) hz
    have hzp : z = p := by
      by_contra hzp
      refine hoff z hzq hzp ?_ e hme hz'
      rintro rfl
      exact hxq (onSeg_antisymm hx (onSeg_comm hz))
    subst hzp
    apply (List.nodup_cons.1 h'.nodup).1
    rcases h'.vertex_on_edge (List.mem_cons_self ..) hme hz' with k | k
    · rw [k]; exact (mem_pairs he).1
    · rw [k]; exact (mem_pairs he).2
  have hW := W_vertex hn hm hnp hmp hxp hvis hne1 hne2
  have hodd := (hin x hx hxp hxq).2
  rw [odd_crossings, W_perm (ring_isRotated hr), hW] at hodd
  have hC := cn_cons (v := p) hn hm
  rw [← cn_rotate h hr, h1] at hC
  rw [hangx] at hne1 hne2 hodd
  have i1 := ind_cyc hne1 hne2.symm hang
  have i2 := ind_lt_add hne2.symm
  intro n' m' hn' hm'
  rw [ring_out h'.nodup hn hm ((ring_isRotated hr).mem_iff.1 hn'), ring_in h'.nodup hn hm ((ring_isRotated hr).mem_iff.1 hm')]
  by_contra hcy
  rw [ind_false hcy] at i1
  have : W (ring (p :: S)) p + ind (ang p n < ang p q) - ind (ang p m < ang p q) = 0 := by linarith
  rw [this] at hodd
  exact absurd hodd (by decide)

/-- C77: on a counter-clockwise simple polygon, `diagonal(i, j)` is true exactly when the segment between the two vertices
is an inner diagonal: the vertices differ and every other point of the segment lies strictly inside the polygon (on no
edge, and with an odd number of edges crossed by the horizontal ray to the right). -/
theorem C77_diagonal_iff (P : Polygon K) (h : SimplePolygon P.vertices) (hc : 0 ≤ shoelace P.vertices) (i j : Nat)
    (hi : i < P.vertices.length) (hj : j < P.vertices.length) :
    P.diagonal i j = .ok true ↔ i ≠ j ∧
      ∀ x, OnSeg P.vertices[i] P.vertices[j] x → x ≠ P.vertices[i] → x ≠ P.vertices[j] → Inside P.vertices x := by
  have hs := simple_of_spec h
  have h1 := ((cn_shoelace hs).1).2 hc
  rw [diagonal_simple hs hi hj]
  constructor
  · intro hd
    refine ⟨fun e => hd.ne (by subst e; rfl), ?_⟩
    intro x hx xp xq
    refine ⟨?_, ?_⟩
    · intro e he hon
      rw [edges_eq] at he
      rcases (hd.clear e he x hx hon).1 with k | k
      · exact xp k
      · exact xq k
    · rw [odd_crossings, hd.inside hs h1 hx xp xq]; decide
  · rintro ⟨hij, hin⟩
    have hne : P.vertices[i] ≠ P.vertices[j] := fun e => hij ((List.Nodup.getElem_inj_iff hs.nodup).1 e)
    have mi : P.vertices[i] ∈ P.vertices := List.getElem_mem hi
    have mj : P.vertices[j] ∈ P.vertices := List.getElem_mem hj
    refine ⟨mi, mj, hne, ?_, cone_of_inside hs h1 mi hne hin, cone_of_inside hs h1 mj hne.symm ?_⟩
    · intro e he x hx hon
      have hv : x = P.vertices[i] ∨ x = P.vertices[j] := by
        by_contra hcon
        push Not at hcon
        exact (hin x hx hcon.1 hcon.2).1 e (by rw [edges_eq]; exact he) hon
      refine ⟨hv, ?_⟩
      rcases hv with rfl | rfl
      · exact hs.vertex_on_edge mi he hon
      · exact hs.vertex_on_edge mj he hon
    · intro x hx xp xq
      exact hin x (onSeg_comm hx) xq xp

/-- on the concave quadrilateral `dart` one of the two candidate segments is a diagonal, the other is not -/
example : SimplePolygon (Polygon.mk dart).vertices ∧ 0 ≤ shoelace dart ∧ (Polygon.mk dart).diagonal 0 2 = .ok true ∧
    (Polygon.mk dart).diagonal 1 3 = .ok false :=
  ⟨dart_simple, by decide +kernel, by decide +kernel, by decide +kernel⟩

end Kami.Simple
