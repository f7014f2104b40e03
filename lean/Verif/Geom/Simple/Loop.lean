import Verif.Geom.Simple.Terminate
import Mathlib.Tactic.IntervalCases
import Mathlib.Tactic.Linarith
/-!
# C35: `triangulate` terminates on every simple polygon (the loop)
-/

set_option autoImplicit false
set_option linter.unusedSectionVars false
set_option linter.dupNamespace false

namespace Kami.Simple

open Kami Kami.Pred Kami.PolyThm Kami.Polygon
open Kami.Tri (prv nxt prv_lt nxt_lt prv_eq_mod nxt_eq_mod Inv Cut getNeighborIndices_ok newUnwrap_three diagonal_ok
  forEar_ok cut_rotate earFlags_ok)

variable {K : Type} [Field K] [LinearOrder K] [IsStrictOrderedRing K]

/-! ### the loop, step by step -/

/-- the state after clipping, in full -/
theorem clipEar_eq {F : Type} [OrdScalar F] (st : TriState F) (v2 : Nat) (hinv : Inv st) (h4 : 3 < st.copy.vertices.length)
    (hv : v2 < st.copy.vertices.length) :
    ∃ T d1 d3, newUnwrap [st.copy.vertices[prv st.copy.vertices.length v2]'(prv_lt hv), st.copy.vertices[v2],
        st.copy.vertices[nxt st.copy.vertices.length v2]'(nxt_lt hv)] = .ok T ∧
      (Polygon.mk (st.copy.vertices.eraseIdx v2)).diagonal
        (shiftDown v2 (prv st.copy.vertices.length (prv st.copy.vertices.length v2)))
        (shiftDown v2 (nxt st.copy.vertices.length v2)) = .ok d1 ∧
      (Polygon.mk (st.copy.vertices.eraseIdx v2)).diagonal
        (shiftDown v2 (prv st.copy.vertices.length v2))
        (shiftDown v2 (nxt st.copy.vertices.length (nxt st.copy.vertices.length v2))) = .ok d3 ∧
      clipEar st v2 = .ok ⟨⟨st.copy.vertices.eraseIdx v2⟩,
        ((st.isEar.eraseIdx v2).set (shiftDown v2 (prv st.copy.vertices.length v2)) d1).set
          (shiftDown v2 (nxt st.copy.vertices.length v2)) d3,
        st.triangles ++ [T]⟩ := by
  obtain ⟨_, hlen⟩ := hinv
  set n := st.copy.vertices.length with hn
  have hgn : ∀ i, st.copy.getNeighborIndices i = .ok (prv n i, nxt n i) := fun i =>
    getNeighborIndices_ok st.copy i (by omega)
  have h1 := prv_lt hv
  have h3 := nxt_lt hv
  have h0 := prv_lt h1
  have h4' := nxt_lt h3
  have hne1 : prv n v2 ≠ v2 := by unfold prv; split <;> omega
  have hne3 : nxt n v2 ≠ v2 := by unfold nxt; split <;> omega
  have hne0 : prv n (prv n v2) ≠ v2 := by unfold prv; split <;> split <;> omega
  have hne4 : nxt n (nxt n v2) ≠ v2 := by unfold nxt; split <;> split <;> omega
  have hsh : ∀ v, v < n → v ≠ v2 → shiftDown v2 v < n - 1 := by
    intro v h hne; unfold shiftDown; split <;> omega
  have helen : (st.copy.vertices.eraseIdx v2).length = n - 1 := by
    rw [List.length_eraseIdx_of_lt hv]
  obtain ⟨T, hT, _⟩ := newUnwrap_three (st.copy.vertices[prv n v2]'h1) (st.copy.vertices[v2]'hv)
    (st.copy.vertices[nxt n v2]'h3)
  obtain ⟨d1, hd1⟩ := diagonal_ok (⟨st.copy.vertices.eraseIdx v2⟩ : Polygon F) (shiftDown v2 (prv n (prv n v2)))
    (shiftDown v2 (nxt n v2)) (by simp only [helen]; exact hsh _ h0 hne0) (by simp only [helen]; exact hsh _ h3 hne3)
  obtain ⟨d3, hd3⟩ := diagonal_ok (⟨st.copy.vertices.eraseIdx v2⟩ : Polygon F) (shiftDown v2 (prv n v2))
    (shiftDown v2 (nxt n (nxt n v2))) (by simp only [helen]; exact hsh _ h1 hne1)
    (by simp only [helen]; exact hsh _ h4' hne4)
  have hel : (st.isEar.eraseIdx v2).length = n - 1 := by
    rw [List.length_eraseIdx_of_lt (by omega), hlen]
  have ha1 : shiftDown v2 (prv n v2) < (st.isEar.eraseIdx v2).length := by rw [hel]; exact hsh _ h1 hne1
  have ha3 : shiftDown v2 (nxt n v2) < ((st.isEar.eraseIdx v2).set (shiftDown v2 (prv n v2)) d1).length := by
    rw [List.length_set, hel]; exact hsh _ h3 hne3
  refine ⟨T, d1, d3, hT, hd1, hd3, ?_⟩
  unfold clipEar
  simp only [hgn, index_of_lt _ _ h1, index_of_lt _ _ hv, index_of_lt _ _ h3,
    index_of_lt _ _ (show v2 < st.isEar.length by omega), hT, hd1, hd3, assign, if_pos ha1, if_pos ha3, bind,
    Except.bind, pure, Except.pure]
  rfl

theorem erase_get {α : Type} (l : List α) {v i : Nat} (h : i ≠ v) : (l.eraseIdx v)[shiftDown v i]? = l[i]? := by
  rw [List.getElem?_eraseIdx]
  unfold shiftDown
  split
  · rw [if_neg (by omega), Nat.sub_add_cancel (by omega)]
  · rw [if_pos (by omega)]

theorem shiftDown_inj {v i j : Nat} (hi : i ≠ v) (hj : j ≠ v) (h : shiftDown v i = shiftDown v j) : i = j := by
  unfold shiftDown at h; split at h <;> split at h <;> omega

theorem shiftDown_surj (v k : Nat) : ∃ i, i ≠ v ∧ shiftDown v i = k ∧ (k < v → i = k) ∧ (v ≤ k → i = k + 1) := by
  by_cases h : k < v
  · exact ⟨k, by omega, by unfold shiftDown; rw [if_neg (by omega)], fun _ => rfl, fun h' => by omega⟩
  · exact ⟨k + 1, by omega, by unfold shiftDown; rw [if_pos (by omega)]; omega, fun h' => absurd h' h, fun _ => rfl⟩

theorem prv_shift {n v i : Nat} (h2 : 3 < n) (hv : v < n) (h : prv n i ≠ v) :
    prv (n - 1) (shiftDown v i) = shiftDown v (prv n i) := by
  unfold prv shiftDown at *; split <;> split at h <;> (try split) <;> (try split) <;> omega

theorem nxt_shift {n v i : Nat} (h2 : 3 < n) (hi : i < n) (hv : v < n) (hne : i ≠ v) (h : nxt n i ≠ v) :
    nxt (n - 1) (shiftDown v i) = shiftDown v (nxt n i) := by
  unfold nxt shiftDown at *; split <;> split at h <;> (try split) <;> (try split) <;> omega

theorem prv_shift' {n v i : Nat} (h2 : 3 < n) (hv : v < n) (h : prv n i = v) :
    prv (n - 1) (shiftDown v i) = shiftDown v (prv n v) := by
  subst h
  unfold prv shiftDown at *; split <;> (try split) <;> (try split) <;> (try split) <;> omega

theorem nxt_shift' {n v i : Nat} (h2 : 3 < n) (hi : i < n) (hv : v < n) (h : nxt n i = v) :
    nxt (n - 1) (shiftDown v i) = shiftDown v (nxt n v) := by
  unfold nxt at h
  split at h
  · subst h; unfold nxt shiftDown; split_ifs <;> omega
  · subst h; unfold nxt shiftDown; split_ifs <;> omega

theorem prv_nxt' {n v : Nat} (_h : v < n) : prv n (nxt n v) = v := by
  unfold prv nxt; by_cases h1 : v = n - 1
  · rw [if_pos h1, if_pos rfl]; omega
  · rw [if_neg h1, if_neg (by omega)]; omega
theorem nxt_prv' {n v : Nat} (h : v < n) : nxt n (prv n v) = v := by
  unfold prv nxt; by_cases h1 : v = 0
  · rw [if_pos h1, if_pos rfl]; omega
  · rw [if_neg h1, if_neg (by omega)]; omega

/-- the loop invariant: a counter-clockwise simple polygon, and (as long as it has more than three vertices) a flag is set
exactly at the ears -/
structure Good (st : TriState K) : Prop where
  inv : Inv st
  simple : Simple st.copy.vertices
  ccw : cn st.copy.vertices = 1
  flags : 4 ≤ st.copy.vertices.length → ∀ (i : Nat) (p q : Vec2 K), i < st.copy.vertices.length →
    st.copy.vertices[prv st.copy.vertices.length i]? = some p → st.copy.vertices[nxt st.copy.vertices.length i]? = some q →
    (st.isEar[i]? = some true ↔ IsDiag st.copy.vertices p q)

theorem diagonal_simple' {P : Polygon K} (hs : Simple P.vertices) {i j : Nat} {p q : Vec2 K} (hi : P.vertices[i]? = some p)
    (hj : P.vertices[j]? = some q) : P.diagonal i j = .ok true ↔ IsDiag P.vertices p q := by
  obtain ⟨h1, rfl⟩ := List.getElem?_eq_some_iff.1 hi
  obtain ⟨h2, rfl⟩ := List.getElem?_eq_some_iff.1 hj
  exact diagonal_simple hs h1 h2

/-- the pieces cut off, one ear after the other -/
inductive Dissect : List (Vec2 K) → List (List (Vec2 K)) → Prop
  | last (l) (h : l.length = 3) (hs : Simple l) (hc : cn l = 1) : Dissect l [l]
  | cut (l l' ts) (a u b : Vec2 K) (B : List (Vec2 K)) (hs : Simple l) (hc : cn l = 1) (hr : l ~r (a :: [u] ++ b :: B))
      (hd : IsDiag (a :: [u] ++ b :: B) a b) (hr' : l' ~r (b :: B ++ [a])) (hd : Dissect l' ts) : Dissect l ([a, u, b] :: ts)

theorem new_ccw {a u b : Vec2 K} (h : 0 < area2 a u b) {T : Polygon K} (hT : newUnwrap [a, u, b] = .ok T) :
    T.vertices = [a, u, b] := by
  obtain ⟨P, hP, _, hk, _⟩ := C27_new_ccw [a, u, b] (by simp)
  unfold newUnwrap at hT
  rw [hP] at hT
  cases hT
  exact hk (by rw [shoelace_tri]; exact h.le)

theorem good_step (st : TriState K) (hg : Good st) (h4 : 3 < st.copy.vertices.length) :
    ∃ st' T a u b B, whileBody st = .ok st' ∧ Good st' ∧ st'.copy.vertices.length + 1 = st.copy.vertices.length ∧
      st'.triangles = st.triangles ++ [T] ∧ T.vertices = [a, u, b] ∧ st.copy.vertices ~r (a :: [u] ++ b :: B) ∧
      IsDiag (a :: [u] ++ b :: B) a b ∧ st'.copy.vertices ~r (b :: B ++ [a]) := by
  obtain ⟨hinv, hs, hc, hflags⟩ := hg
  have hflags := hflags h4
  have hnd := hs.nodup
  -- some flag is set
  obtain ⟨X, p, w, q, Y, hl, hdiag⟩ := exists_ear hs hc h4
  have hlen : st.copy.vertices.length = X.length + (3 + Y.length) := by rw [hl]; simp; omega
  have hset : st.isEar[X.length + 1]? = some true := by
    rw [hflags (X.length + 1) p q (by omega) ?_ ?_]
    · exact hdiag
    · rw [show prv st.copy.vertices.length (X.length + 1) = X.length by unfold prv; rw [if_neg (by omega)]; omega, hl]
      simp
    · rw [show nxt st.copy.vertices.length (X.length + 1) = X.length + 2 by unfold nxt; rw [if_neg (by omega)], hl,
        List.getElem?_append_right (by omega), Nat.add_sub_cancel_left]
      rfl
  rcases forEar_ok st hinv st.copy.vertices.length 0 (by omega) with ⟨v, _, hv, hve, _, hclip⟩ | ⟨hno, _⟩
  swap
  · rw [hno _ (by omega) (by omega)] at hset; cases hset
  obtain ⟨T, d1, d3, hT, hd1, hd3, heq⟩ := clipEar_eq st v hinv h4 hv
  have hcut : Cut st.copy.vertices [st.copy.vertices[prv st.copy.vertices.length v]'(prv_lt hv), st.copy.vertices[v],
      st.copy.vertices[nxt st.copy.vertices.length v]'(nxt_lt hv)] (st.copy.vertices.eraseIdx v) := by
    refine ⟨v, _, _, _, ?_, ?_, ?_, rfl, rfl⟩
    · rw [← prv_eq_mod hv, List.getElem?_eq_getElem (prv_lt hv)]
    · rw [List.getElem?_eq_getElem hv]
    · rw [← nxt_eq_mod hv, List.getElem?_eq_getElem (nxt_lt hv)]
  obtain ⟨a, u, b, B, k, k', ht, hk, hk'⟩ := cut_rotate hcut (by omega)
  simp only [List.cons.injEq, and_true] at ht
  obtain ⟨ha, hu, hb⟩ := ht
  have hr : st.copy.vertices ~r (a :: [u] ++ b :: B) := ⟨k, hk⟩
  have hr' : (st.copy.vertices.eraseIdx v) ~r (b :: B ++ [a]) :=
    (show (st.copy.vertices.eraseIdx v) ~r (a :: b :: B) from ⟨k', hk'⟩).trans
      (show (b :: B ++ [a]) ~r (a :: b :: B) from List.isRotated_append).symm
  have hs1 := hs.rotate hr
  have hc1 : cn (a :: [u] ++ b :: B) = 1 := by rw [← cn_rotate hs hr, hc]
  have ha' : st.copy.vertices[prv st.copy.vertices.length v]? = some a := by
    rw [List.getElem?_eq_getElem (prv_lt hv), ha]
  have hb' : st.copy.vertices[nxt st.copy.vertices.length v]? = some b := by
    rw [List.getElem?_eq_getElem (nxt_lt hv), hb]
  have hd0 : IsDiag st.copy.vertices a b := (hflags v a b hv ha' hb').1 hve
  have hd : IsDiag (a :: [u] ++ b :: B) a b := hd0.rotate hr
  obtain ⟨_, _, _, s2, hcn⟩ := hd.split hs1
  have c2 := (hcn hc1).2
  have hs' : Simple (st.copy.vertices.eraseIdx v) := s2.rotate hr'.symm
  have hc' : cn (st.copy.vertices.eraseIdx v) = 1 := by rw [cn_rotate hs' hr', c2]
  have hlen' : (st.copy.vertices.eraseIdx v).length = st.copy.vertices.length - 1 := List.length_eraseIdx_of_lt hv
  rw [ha, hu, hb] at hT
  refine ⟨⟨⟨st.copy.vertices.eraseIdx v⟩, ((st.isEar.eraseIdx v).set (shiftDown v (prv st.copy.vertices.length v)) d1).set
          (shiftDown v (nxt st.copy.vertices.length v)) d3, st.triangles ++ [T]⟩, T, a, u, b, B, ?_, ⟨⟨?_, ?_⟩, hs', hc', ?_⟩, ?_, rfl, ?_, hr, hd, hr'⟩
  · unfold whileBody; rw [hclip, heq]
  · show 3 ≤ (st.copy.vertices.eraseIdx v).length
    omega
  · show (((st.isEar.eraseIdx v).set _ d1).set _ d3).length = (st.copy.vertices.eraseIdx v).length
    rw [List.length_set, List.length_set, hlen', List.length_eraseIdx_of_lt (by rw [hinv.2]; exact hv), hinv.2]
  · -- the flags of the shorter polygon
    show 4 ≤ (st.copy.vertices.eraseIdx v).length → ∀ (i : Nat) (p q : Vec2 K), i < (st.copy.vertices.eraseIdx v).length →
      (st.copy.vertices.eraseIdx v)[prv (st.copy.vertices.eraseIdx v).length i]? = some p →
      (st.copy.vertices.eraseIdx v)[nxt (st.copy.vertices.eraseIdx v).length i]? = some q →
      ((((st.isEar.eraseIdx v).set (shiftDown v (prv st.copy.vertices.length v)) d1).set
          (shiftDown v (nxt st.copy.vertices.length v)) d3)[i]? = some true ↔ IsDiag (st.copy.vertices.eraseIdx v) p q)
    rw [hlen']
    clear hcut ha hu hb hdiag hset hl
    generalize hn : st.copy.vertices.length = n at *
    intro h5 i' p q hi' hp hq
    obtain ⟨i, hiv, rfl, hlow, hhigh⟩ := shiftDown_surj v i'
    have hin : i < n := by
      by_cases hlt : shiftDown v i < v
      · have := hlow hlt; omega
      · have := hhigh (by omega); omega
    have hnv : nxt n v ≠ v := by unfold nxt; split <;> omega
    have hpv : prv n v ≠ v := by unfold prv; split <;> omega
    have hel : (st.isEar.eraseIdx v).length = n - 1 := by
      rw [List.length_eraseIdx_of_lt (by rw [hinv.2, hn]; exact hv), hinv.2, hn]
    rw [List.getElem?_set, List.getElem?_set, List.length_set, hel]
    by_cases h3 : i = nxt n v
    · -- the vertex after the ear
      subst h3
      have hnn : nxt n (nxt n v) ≠ v := by unfold nxt; split_ifs <;> omega
      rw [prv_shift' h4 hv (prv_nxt' hv)] at hp
      rw [nxt_shift h4 hin hv hiv hnn] at hq
      rw [if_pos rfl, if_pos hi', ← diagonal_simple' (P := ⟨st.copy.vertices.eraseIdx v⟩) hs' hp hq, hd3]
      simp
    · rw [if_neg (fun h => h3 (shiftDown_inj hnv hiv h).symm)]
      by_cases h1 : i = prv n v
      · subst h1
        have hpp : prv n (prv n v) ≠ v := by unfold prv; split_ifs <;> omega
        rw [prv_shift h4 hv hpp] at hp
        rw [nxt_shift' h4 hin hv (nxt_prv' hv)] at hq
        rw [if_pos rfl, if_pos hi', ← diagonal_simple' (P := ⟨st.copy.vertices.eraseIdx v⟩) hs' hp hq, hd1]
        simp
      · have hpi : prv n i ≠ v := fun h => h3 (by rw [← h, nxt_prv' hin])
        have hni : nxt n i ≠ v := fun h => h1 (by rw [← h, prv_nxt' hin])
        rw [if_neg (fun h => h1 (shiftDown_inj hpv hiv h).symm), erase_get _ hiv]
        rw [prv_shift h4 hv hpi, erase_get _ hpi] at hp
        rw [nxt_shift h4 hin hv hiv hni, erase_get _ hni] at hq
        rw [hflags i p q hin hp hq]
        have hpm : p ∈ st.copy.vertices.eraseIdx v := List.mem_of_getElem? (by rw [erase_get _ hpi]; exact hp)
        have hqm : q ∈ st.copy.vertices.eraseIdx v := List.mem_of_getElem? (by rw [erase_get _ hni]; exact hq)
        have hinj : ∀ {j k : Nat} {x : Vec2 K}, st.copy.vertices[j]? = some x → st.copy.vertices[k]? = some x → j = k := by
          intro j k x hj hk
          have hjl : j < st.copy.vertices.length := (List.getElem?_eq_some_iff.1 hj).1
          exact (List.getElem?_inj hjl hnd).1 (hj.trans hk.symm)
        constructor
        · intro hpq
          refine (IsDiag.clip hs1 hc1 hd (hr'.mem_iff.1 hpm) (hr'.mem_iff.1 hqm) (hpq.rotate hr) ?_ ?_).rotate hr'.symm
          · rintro ⟨rfl, rfl⟩
            have := hinj hp ha'
            have := hinj hq hb'
            unfold prv nxt at *; split_ifs at * <;> omega
          · rintro ⟨rfl, rfl⟩
            have := hinj hp hb'
            have := hinj hq ha'
            unfold prv nxt at *; split_ifs at * <;> omega
        · intro hpq
          have hrs : (a :: [u] ++ b :: B) ~r (b :: B ++ a :: [u]) := rot_split a b [u] B
          have hs2 := hs1.rotate hrs
          have hc2 : cn (b :: B ++ a :: [u]) = 1 := by rw [← cn_rotate hs1 hrs, hc1]
          exact (IsDiag.lift hs2 hc2 (hd.rotate hrs).symm (hpq.rotate hr')).rotate (hr.trans hrs).symm
  · show (st.copy.vertices.eraseIdx v).length + 1 = _
    omega
  · exact new_ccw (ear_area hs1 hc1 hd) hT

/-! ### the whole run -/

theorem good_run (N : Nat) (st : TriState K) (hg : Good st) (hN : st.copy.vertices.length ≤ N) :
    ∃ fin new, WhileRuns st (.ok fin) ∧ fin.triangles = st.triangles ++ new ∧
      Dissect st.copy.vertices ((new ++ [fin.copy]).map Polygon.vertices) := by
  induction N generalizing st with
  | zero => have := hg.inv.1; omega
  | succ N ih =>
    by_cases h4 : 3 < st.copy.vertices.length
    · obtain ⟨st', T, a, u, b, B, hb, hg', hlen, ht, hT, hr, hd, hr'⟩ := good_step st hg h4
      obtain ⟨fin, new, hw, hn, hD⟩ := ih st' hg' (by omega)
      refine ⟨fin, T :: new, WhileRuns.next st st' _ h4 hb hw, by rw [hn, ht]; simp, ?_⟩
      rw [List.cons_append, List.map_cons, hT]
      exact Dissect.cut _ _ _ a u b B hg.simple hg.ccw hr hd hr' hD
    · exact ⟨st, [], WhileRuns.done st h4, by simp, Dissect.last _ (by have := hg.inv.1; omega) hg.simple hg.ccw⟩

theorem earFlags_get {F : Type} [OrdScalar F] (P : Polygon F) (hn : 0 < P.vertices.length) (count i : Nat) (fl : List Bool) (h : P.earFlags count i = .ok fl) :
    ∀ k, k < count → ∃ b, fl[k]? = some b ∧
      P.diagonal (prv P.vertices.length (i + k)) (nxt P.vertices.length (i + k)) = .ok b := by
  induction count generalizing i fl with
  | zero => intro k hk; omega
  | succ c ih =>
    unfold earFlags at h
    rw [getNeighborIndices_ok P i hn] at h
    simp only [bind, Except.bind, pure, Except.pure] at h
    cases hd : P.diagonal (prv P.vertices.length i) (nxt P.vertices.length i) with
    | error e => rw [hd] at h; cases h
    | ok d =>
      rw [hd] at h
      cases hr : P.earFlags c (i + 1) with
      | error e => simp only [hr] at h; cases h
      | ok rest =>
        simp only [hr] at h; cases h
        intro k hk
        cases k with
        | zero => exact ⟨d, rfl, hd⟩
        | succ k =>
          obtain ⟨b, hb, hb'⟩ := ih (i + 1) rest hr k (by omega)
          exact ⟨b, by simpa using hb, by rw [show i + (k + 1) = i + 1 + k by omega]; exact hb'⟩

theorem good_init (P : Polygon K) (hs : Simple P.vertices) (hc : cn P.vertices = 1) :
    ∃ st, triInit P = .ok st ∧ Good st ∧ st.copy = P ∧ st.triangles = [] := by
  have h3 := hs.three
  obtain ⟨l, hl, hlen⟩ := earFlags_ok P P.vertices.length 0 (by omega)
  refine ⟨⟨P, l, []⟩, ?_, ⟨⟨h3, hlen⟩, hs, hc, ?_⟩, rfl, rfl⟩
  · unfold triInit
    simp only [hl, bind, Except.bind, pure, Except.pure]
  · intro _ i p q hi hp hq
    obtain ⟨b, hb, hd⟩ := earFlags_get P (by omega) _ _ _ hl i hi
    rw [Nat.zero_add] at hd
    show l[i]? = some true ↔ _
    rw [← diagonal_simple' hs hp hq, hb, hd]
    simp

theorem dissect_run (P : Polygon K) (hs : Simple P.vertices) (hc : cn P.vertices = 1) :
    ∃ ts, Triangulates P (.ok ts) ∧ Dissect P.vertices (ts.map Polygon.vertices) := by
  by_cases h3 : P.vertices.length = 3
  · exact ⟨[P], Triangulates.triangle h3, Dissect.last _ h3 hs hc⟩
  · obtain ⟨st, hi, hg, hcp, ht⟩ := good_init P hs hc
    obtain ⟨fin, new, hw, hn, hD⟩ := good_run _ st hg le_rfl
    refine ⟨_, Triangulates.ok st fin h3 hi hw, ?_⟩
    rw [hn, ht, List.nil_append, ← hcp]; exact hD

theorem Dissect.pos {l : List (Vec2 K)} {ts : List (List (Vec2 K))} (h : Dissect l ts) : ∀ t ∈ ts, 0 < shoelace t := by
  induction h with
  | last l h hs hc => intro t ht; rw [List.mem_singleton] at ht; subst ht; exact shoelace_pos hs hc
  | cut l l' ts a u b B hs hc hr hd hr' _ ih =>
    intro t ht
    rcases List.mem_cons.1 ht with rfl | ht
    · rw [shoelace_tri]
      exact ear_area (hs.rotate hr) (by rw [← cn_rotate hs hr, hc]) hd
    · exact ih t ht

theorem Dissect.sum {l : List (Vec2 K)} {ts : List (List (Vec2 K))} (h : Dissect l ts) : shoelace l = (ts.map shoelace).sum := by
  induction h with
  | last l h hs hc => simp
  | cut l l' ts a u b B hs hc hr hd hr' _ ih =>
    rw [List.map_cons, List.sum_cons, ← ih, shoelace_isRotated hr, shoelace_isRotated hr', shoelace_split]
    rfl

/-- C35: `triangulate` returns on every simple polygon.  `Polygon::new` accepts every simple polygon (in either direction),
and the run of `triangulate` on the polygon it makes is finite, does not panic, and yields `n - 2` triangles, all of them
counter-clockwise with positive area, whose areas add up to the area of the polygon. -/
theorem C35_terminates (vs : List (Vec2 K)) (h : SimplePolygon vs) :
    ∃ P ts, Polygon.new vs = .ok P ∧ Triangulates P (.ok ts) ∧ ts.length = vs.length - 2 ∧
      (∀ T ∈ ts, T.vertices.length = 3 ∧ 0 < shoelace T.vertices) ∧ (ts.map Polygon.area).sum = P.area := by
  have hs := simple_of_spec h
  obtain ⟨P, hP, hpos, hfw, hbw, _⟩ := C27_new_ccw vs hs.three
  have hsP : Simple P.vertices ∧ P.vertices.length = vs.length := by
    rcases lt_or_ge (shoelace vs) 0 with hlt | hge
    · rw [hbw hlt]; exact ⟨hs.reverse, List.length_reverse⟩
    · rw [hfw hge]; exact ⟨hs, rfl⟩
  have hc := ((cn_shoelace hsP.1).1).2 hpos
  obtain ⟨ts, ht, hD⟩ := dissect_run P hsP.1 hc
  have h3 := hsP.1.three
  obtain ⟨hcount, hthree, _⟩ := Kami.Tri.C33_triangles P h3 ts ht
  have hpT : ∀ T ∈ ts, 0 < shoelace T.vertices := fun T hT => hD.pos _ (List.mem_map_of_mem hT)
  refine ⟨P, ts, hP, ht, by rw [hcount, hsP.2], fun T hT => ⟨hthree T hT, hpT T hT⟩, ?_⟩
  have hsum := hD.sum
  have area_eq : ∀ Q : Polygon K, Q.area = |shoelace Q.vertices| / 2 := fun Q => C28_area Q.vertices
  rw [area_eq, hsum, List.map_map, abs_of_nonneg]
  · clear hcount hthree ht hD hsum
    rename_i hmem; clear hmem
    induction ts with
    | nil => simp
    | cons T ts ih =>
      rw [List.map_cons, List.map_cons, List.sum_cons, List.sum_cons, ih fun T h => hpT T (List.mem_cons_of_mem _ h), area_eq,
        abs_of_pos (hpT T (List.mem_cons_self ..))]
      simp only [Function.comp_apply]
      ring
  · apply List.sum_nonneg
    intro x hx
    obtain ⟨T, hT, rfl⟩ := List.mem_map.1 hx
    exact (hpT T hT).le

/-- the same for a polygon value whose vertices already run counter-clockwise -/
theorem C35_terminates_ccw (P : Polygon K) (h : SimplePolygon P.vertices) (hc : 0 ≤ shoelace P.vertices) :
    ∃ ts, Triangulates P (.ok ts) := by
  have hs := simple_of_spec h
  obtain ⟨ts, ht, _⟩ := dissect_run P hs (((cn_shoelace hs).1).2 hc)
  exact ⟨ts, ht⟩

/-- a concave quadrilateral that meets the hypothesis -/
def dart : List (Vec2 ℚ) := [⟨0, 0⟩, ⟨4, 0⟩, ⟨1, 1⟩, ⟨0, 4⟩]

theorem dart_simple : SimplePolygon dart := by
  refine ⟨by decide, by decide +kernel, ?_⟩
  intro i j a b c d p hij hi hi' hj hj' h1 h2
  have hil : i < 4 := (List.getElem?_eq_some_iff.1 hi).1
  have hjl : j < 4 := (List.getElem?_eq_some_iff.1 hj).1
  obtain ⟨px, py⟩ := p
  obtain ⟨t, t0, t1, tx, ty⟩ := h1
  obtain ⟨s, s0, s1, sx, sy⟩ := h2
  have hn : dart.length = 4 := rfl
  rw [hn] at hi' hj' ⊢
  interval_cases i <;> interval_cases j <;> first
    | exact absurd rfl hij
    | (simp only [dart, List.getElem?_cons_zero, List.getElem?_cons_succ, Nat.reduceAdd, Nat.reduceMod, Option.some.injEq] at hi hi' hj hj'
       subst hi hi' hj hj'
       simp only at tx ty sx sy
       first
        | exact Or.inl ⟨by rw [Vec2.mk.injEq]; constructor <;> linarith, by decide⟩
        | exact Or.inr ⟨by rw [Vec2.mk.injEq]; constructor <;> linarith, by decide⟩
        | (exfalso; linarith))

example : ∃ P ts, Polygon.new dart = .ok P ∧ Triangulates P (.ok ts) ∧ ts.length = 2 := by
  obtain ⟨P, ts, h1, h2, h3, _⟩ := C35_terminates dart dart_simple
  exact ⟨P, ts, h1, h2, h3⟩

end Kami.Simple
