import Verif.Geom.Simple.Terminate
/-!
# A sufficient test for simplicity

Used to show that given polygons satisfy the hypotheses of the theorems about `triangulate`.
-/

set_option autoImplicit false
set_option linter.unusedSectionVars false
set_option linter.dupNamespace false

namespace Kami.Simple

open Kami Kami.Pred Kami.PolyThm Kami.Polygon

variable {K : Type} [Field K] [LinearOrder K] [IsStrictOrderedRing K]

/-- edges `ab` and `cd` at positions `i` and `j` of `n`: consecutive edges are not on one line, other edges do not meet -/
def edgesApart (n i j : Nat) (a b c d : Vec2 K) : Bool :=
  decide (i = j) || decide ((j + 1) % n = i) ||
    if (i + 1) % n = j then !collinear a b d else !intersect a b c d

/-- all pairs of edges -/
def simpleCheck (l : List (Vec2 K)) : Bool :=
  decide (3 ≤ l.length) && decide l.Nodup &&
    (List.range l.length).all fun i => (List.range l.length).all fun j =>
      match l[i]?, l[(i + 1) % l.length]?, l[j]?, l[(j + 1) % l.length]? with
      | some a, some b, some c, some d => edgesApart l.length i j a b c d
      | _, _, _, _ => false

theorem corner_point {a b d p : Vec2 K} (h : area2 a b d ≠ 0) (h1 : OnSeg a b p) (h2 : OnSeg b d p) : p = b := by
  obtain ⟨t, _, _, tx, ty⟩ := h1
  obtain ⟨s, _, _, sx, sy⟩ := h2
  have hs : s * area2 a b d = 0 := by
    rw [area2_eq]
    rw [tx] at sx; rw [ty] at sy
    linear_combination (-(b.x - a.x)) * sy + (b.y - a.y) * sx
  have hs : s = 0 := (mul_eq_zero.1 hs).resolve_right h
  subst hs
  exact Vec2.ext (by rw [sx]; ring) (by rw [sy]; ring)

theorem simple_of_check {l : List (Vec2 K)} (h : simpleCheck l = true) : SimplePolygon l := by
  unfold simpleCheck at h
  simp only [Bool.and_eq_true, decide_eq_true_eq, List.all_eq_true, List.mem_range] at h
  obtain ⟨⟨h3, hn⟩, hp⟩ := h
  refine ⟨h3, hn, ?_⟩
  intro i j a b c d p hij hi hi' hj hj' h1 h2
  have hil := (List.getElem?_eq_some_iff.1 hi).1
  have hjl := (List.getElem?_eq_some_iff.1 hj).1
  have e1 := hp i hil j hjl
  have e2 := hp j hjl i hil
  rw [hi, hi', hj, hj'] at e1 e2
  simp only [edgesApart, Bool.or_eq_true, decide_eq_true_eq] at e1 e2
  by_cases hA : (i + 1) % l.length = j
  · left
    refine ⟨?_, hA⟩
    have hcb : c = b := by rw [hA, hj] at hi'; exact Option.some.inj hi'
    subst hcb
    have hB : (j + 1) % l.length ≠ i := by
      intro hB
      have : (i + 2) % l.length = i := by
        rw [← hA] at hB
        rwa [Nat.mod_add_mod] at hB
      by_cases hw : i + 2 < l.length
      · rw [Nat.mod_eq_of_lt hw] at this; omega
      · rw [Nat.mod_eq_sub_mod (by omega), Nat.mod_eq_of_lt (by omega)] at this; omega
    rcases e1 with (e1 | e1) | e1
    · exact absurd e1 hij
    · exact absurd e1 hB
    · rw [if_pos hA] at e1
      have : area2 a c d ≠ 0 := by
        intro h0
        rw [(collinear_iff a c d).2 h0] at e1
        exact absurd e1 (by decide)
      exact corner_point this h1 h2
  · by_cases hB : (j + 1) % l.length = i
    · right
      refine ⟨?_, hB⟩
      have hda : d = a := by rw [hB, hi] at hj'; exact (Option.some.inj hj').symm
      subst hda
      rcases e2 with (e2 | e2) | e2
      · exact absurd e2.symm hij
      · exact absurd e2 hA
      · rw [if_pos hB] at e2
        have : area2 c d b ≠ 0 := by
          intro h0
          rw [(collinear_iff c d b).2 h0] at e2
          exact absurd e2 (by decide)
        exact corner_point this h2 h1
    · rcases e1 with (e1 | e1) | e1
      · exact absurd e1 hij
      · exact absurd e1 hB
      · rw [if_neg hA, C26_complete a b c d ⟨p, h1, h2⟩] at e1
        exact absurd e1 (by decide)

end Kami.Simple
