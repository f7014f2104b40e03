import Verif.Geom.PolygonBasics
/-!
# C32-C34: triangulation, for any arithmetic

No law of the scalar operations is used in C32 and C33: the results hold for f32 with NaN and rounding.
-/

set_option autoImplicit false

namespace Kami.Tri

open Kami Kami.Polygon

section Free
variable {F : Type} [OrdScalar F]

/-! ### neighbours -/

/-- cyclic predecessor -/
def prv (n i : Nat) : Nat := if i = 0 then n - 1 else i - 1
/-- cyclic successor -/
def nxt (n i : Nat) : Nat := if i = n - 1 then 0 else i + 1

omit [OrdScalar F] in
theorem getNeighborIndices_ok (P : Polygon F) (i : Nat) (h : 1 ≤ P.vertices.length) :
    P.getNeighborIndices i = .ok (prv P.vertices.length i, nxt P.vertices.length i) := by
  unfold getNeighborIndices usizeSub prv nxt
  rw [if_pos h]
  by_cases hi : i = 0
  · simp [hi, bind, Except.bind, pure, Except.pure]
  · simp [hi, bind, Except.bind, pure, Except.pure]

theorem prv_lt {n i : Nat} (h : i < n) : prv n i < n := by unfold prv; split <;> omega
theorem nxt_lt {n i : Nat} (h : i < n) : nxt n i < n := by unfold nxt; split <;> omega

/-! ### C80: `are_neighbors` -/

omit [OrdScalar F] in
/-- **C80.** For a polygon with `n ≥ 2` vertices and two vertex indices, `are_neighbors(i, j)` holds exactly when one
index follows the other in the cyclic order. -/
theorem C80_iff (P : Polygon F) (i j : Nat) (hn : 2 ≤ P.vertices.length) (hi : i < P.vertices.length)
    (hj : j < P.vertices.length) :
    P.areNeighbors i j = .ok (decide ((i + 1) % P.vertices.length = j ∨ (j + 1) % P.vertices.length = i)) := by
  have hmod : ∀ k, k < P.vertices.length →
      (k + 1) % P.vertices.length = if k = P.vertices.length - 1 then 0 else k + 1 := by
    intro k hk
    split
    · next h => rw [h, show P.vertices.length - 1 + 1 = P.vertices.length by omega, Nat.mod_self]
    · exact Nat.mod_eq_of_lt (by omega)
  unfold areNeighbors
  rw [getNeighborIndices_ok P i (by omega)]
  show Except.ok _ = _
  congr 1
  rw [Bool.eq_iff_iff]
  simp only [Bool.or_eq_true, beq_iff_eq, decide_eq_true_iff, hmod i hi, hmod j hj, prv, nxt]
  split_ifs <;> omega

omit [OrdScalar F] in
/-- **C80, symmetry.** `are_neighbors` is symmetric, and no vertex is its own neighbour. -/
theorem C80_symm (P : Polygon F) (i j : Nat) (hn : 2 ≤ P.vertices.length) (hi : i < P.vertices.length)
    (hj : j < P.vertices.length) :
    P.areNeighbors i j = P.areNeighbors j i ∧ P.areNeighbors i i = .ok false := by
  rw [C80_iff P i j hn hi hj, C80_iff P j i hn hj hi, C80_iff P i i hn hi hi]
  refine ⟨by congr 2; exact propext or_comm, ?_⟩
  congr 1
  rw [decide_eq_false_iff_not, or_self]
  intro h
  by_cases h2 : i + 1 < P.vertices.length
  · rw [Nat.mod_eq_of_lt h2] at h; omega
  · rw [show i + 1 = P.vertices.length by omega, Nat.mod_self] at h; omega

omit [OrdScalar F] in
/-- **C80, empty polygon.** On an empty vertex list the index arithmetic underflows: a panic, in debug builds. -/
theorem C80_empty (P : Polygon F) (i j : Nat) (hn : P.vertices = []) :
    P.areNeighbors i j = .error .arithmeticOverflow := by
  unfold areNeighbors getNeighborIndices usizeSub
  by_cases hi : i = 0 <;> simp [hn, hi, bind, Except.bind]

example : (⟨[⟨0, 0⟩, ⟨1, 0⟩, ⟨1, 1⟩, ⟨0, 1⟩]⟩ : Polygon Nat).areNeighbors 0 3 = .ok true ∧
    (⟨[⟨0, 0⟩, ⟨1, 0⟩, ⟨1, 1⟩, ⟨0, 1⟩]⟩ : Polygon Nat).areNeighbors 0 2 = .ok false := by decide

/-! ### the predicates never panic on indices in range -/

theorem inCone_ok (P : Polygon F) (a o : Nat) (ha : a < P.vertices.length) (ho : o < P.vertices.length) :
    ∃ b, P.inCone a o = .ok b := by
  unfold inCone
  rw [getNeighborIndices_ok P a (by omega)]
  simp only [index_of_lt _ _ ha, index_of_lt _ _ ho, index_of_lt _ _ (prv_lt ha), index_of_lt _ _ (nxt_lt ha), bind,
    Except.bind, pure, Except.pure]
  split <;> exact ⟨_, rfl⟩

theorem hitsEdge_ok (P : Polygon F) (i j : Nat) (hi : i < P.vertices.length) (hj : j < P.vertices.length)
    (count k : Nat) (hk : k + count ≤ P.vertices.length) : ∃ b, P.hitsEdge i j count k = .ok b := by
  induction count generalizing k with
  | zero => exact ⟨_, rfl⟩
  | succ c ih =>
    unfold hitsEdge
    have hk1 : (k + 1) % P.vertices.length < P.vertices.length := Nat.mod_lt _ (by omega)
    simp only [index_of_lt _ _ hi, index_of_lt _ _ hj, index_of_lt _ _ (by omega : k < P.vertices.length),
      index_of_lt _ _ hk1, bind, Except.bind, pure, Except.pure]
    split
    · split
      · exact ⟨_, rfl⟩
      · exact ih (k + 1) (by omega)
    · exact ih (k + 1) (by omega)

theorem diagonal_ok (P : Polygon F) (i j : Nat) (hi : i < P.vertices.length) (hj : j < P.vertices.length) :
    ∃ b, P.diagonal i j = .ok b := by
  unfold diagonal
  obtain ⟨b, hb⟩ := hitsEdge_ok P i j hi hj P.vertices.length 0 (by omega)
  obtain ⟨c, hc⟩ := inCone_ok P i j hi hj
  obtain ⟨d, hd⟩ := inCone_ok P j i hj hi
  simp only [hb, hc, hd, bind, Except.bind, pure, Except.pure]
  split
  · exact ⟨_, rfl⟩
  · cases b <;> cases c <;> exact ⟨_, rfl⟩

theorem earFlags_ok (P : Polygon F) (count i : Nat) (h : i + count ≤ P.vertices.length) :
    ∃ l, P.earFlags count i = .ok l ∧ l.length = count := by
  induction count generalizing i with
  | zero => exact ⟨_, rfl, rfl⟩
  | succ c ih =>
    unfold earFlags
    rw [getNeighborIndices_ok P i (by omega)]
    obtain ⟨d, hd⟩ := diagonal_ok P _ _ (prv_lt (by omega : i < P.vertices.length))
      (nxt_lt (by omega : i < P.vertices.length))
    obtain ⟨l, hl, hlen⟩ := ih (i + 1) (by omega)
    simp only [hd, hl, bind, Except.bind, pure, Except.pure]
    exact ⟨_, rfl, by simp [hlen]⟩

/-! ### Specification: cutting off the triangle of three consecutive vertices -/

/-- `Cut l t l'`: `l'` is the cyclic vertex list `l` without the vertex at some position `i`, and `t` is that vertex
between its two neighbours -/
def Cut {α : Type} (l : List α) (t : List α) (l' : List α) : Prop :=
  ∃ (i : Nat) (a b c : α), l[(i + l.length - 1) % l.length]? = some a ∧ l[i]? = some b ∧ l[(i + 1) % l.length]? = some c ∧
    t = [a, b, c] ∧ l' = l.eraseIdx i

/-- `Decomp l ts`: the triangles `ts` are obtained from `l` by repeated cuts until three vertices remain -/
inductive Decomp {α : Type} : List α → List (List α) → Prop
  | last (l) (h : l.length = 3) : Decomp l [l]
  | cut (l t l' ts) (h : 3 < l.length) (hc : Cut l t l') (hd : Decomp l' ts) : Decomp l (t :: ts)

theorem prv_eq_mod {n i : Nat} (h : i < n) : prv n i = (i + n - 1) % n := by
  unfold prv
  split
  · rename_i h0; subst h0; rw [Nat.mod_eq_of_lt (by omega)]; omega
  · rw [show i + n - 1 = (i - 1) + n by omega, Nat.add_mod_right, Nat.mod_eq_of_lt (by omega)]

theorem nxt_eq_mod {n i : Nat} (h : i < n) : nxt n i = (i + 1) % n := by
  unfold nxt
  split
  · rename_i h0; subst h0; rw [show n - 1 + 1 = n by omega, Nat.mod_self]
  · rw [Nat.mod_eq_of_lt (by omega)]

/-! ### one clipping step -/

/-- invariant of the loop -/
def Inv (st : TriState F) : Prop := 3 ≤ st.copy.vertices.length ∧ st.isEar.length = st.copy.vertices.length

theorem newUnwrap_three (p q r : Vec2 F) :
    ∃ T, newUnwrap [p, q, r] = .ok T ∧ (T.vertices = [p, q, r] ∨ T.vertices = [r, q, p]) := by
  obtain ⟨T, hT, hv⟩ := (PolyThm.C27_new_vertices [p, q, r]).2 (by simp)
  refine ⟨T, ?_, by simpa using hv⟩
  unfold newUnwrap; rw [hT]

theorem clipEar_ok (st : TriState F) (v2 : Nat) (hinv : Inv st) (h4 : 3 < st.copy.vertices.length)
    (hv : v2 < st.copy.vertices.length) :
    ∃ st' T t, clipEar st v2 = .ok st' ∧ Inv st' ∧ st'.copy.vertices = st.copy.vertices.eraseIdx v2 ∧
      st'.triangles = st.triangles ++ [T] ∧ Cut st.copy.vertices t st'.copy.vertices ∧
      (T.vertices = t ∨ T.vertices = t.reverse) := by
  obtain ⟨_, hlen⟩ := hinv
  set n := st.copy.vertices.length with hn
  have hgn : ∀ i, st.copy.getNeighborIndices i = .ok (prv n i, nxt n i) := fun i =>
    getNeighborIndices_ok st.copy i (by omega)
  have h1 := prv_lt hv
  have h3 := nxt_lt hv
  have h0 := prv_lt h1
  have h4' := nxt_lt h3
  have hne1 : prv n v2 ≠ v2 := by unfold prv; split <;> omega
  have hne3 : nxt n v2 ≠ v2 := by unfold nxt; split <;> omega
  have hne0 : prv n (prv n v2) ≠ v2 := by unfold prv; split <;> split <;> omega
  have hne4 : nxt n (nxt n v2) ≠ v2 := by unfold nxt; split <;> split <;> omega
  have hsh : ∀ v, v < n → v ≠ v2 → shiftDown v2 v < n - 1 := by
    intro v h hne; unfold shiftDown; split <;> omega
  have helen : (st.copy.vertices.eraseIdx v2).length = n - 1 := by
    rw [List.length_eraseIdx_of_lt hv]
  obtain ⟨T, hT, hTv⟩ := newUnwrap_three (st.copy.vertices[prv n v2]'h1) (st.copy.vertices[v2]'hv)
    (st.copy.vertices[nxt n v2]'h3)
  obtain ⟨d1, hd1⟩ := diagonal_ok (⟨st.copy.vertices.eraseIdx v2⟩ : Polygon F) (shiftDown v2 (prv n (prv n v2)))
    (shiftDown v2 (nxt n v2)) (by simp only [helen]; exact hsh _ h0 hne0) (by simp only [helen]; exact hsh _ h3 hne3)
  obtain ⟨d3, hd3⟩ := diagonal_ok (⟨st.copy.vertices.eraseIdx v2⟩ : Polygon F) (shiftDown v2 (prv n v2))
    (shiftDown v2 (nxt n (nxt n v2))) (by simp only [helen]; exact hsh _ h1 hne1)
    (by simp only [helen]; exact hsh _ h4' hne4)
  have hel : (st.isEar.eraseIdx v2).length = n - 1 := by
    rw [List.length_eraseIdx_of_lt (by omega), hlen]
  have ha1 : shiftDown v2 (prv n v2) < (st.isEar.eraseIdx v2).length := by rw [hel]; exact hsh _ h1 hne1
  have ha3 : shiftDown v2 (nxt n v2) < ((st.isEar.eraseIdx v2).set (shiftDown v2 (prv n v2)) d1).length := by
    rw [List.length_set, hel]; exact hsh _ h3 hne3
  refine ⟨⟨⟨st.copy.vertices.eraseIdx v2⟩,
      ((st.isEar.eraseIdx v2).set (shiftDown v2 (prv n v2)) d1).set (shiftDown v2 (nxt n v2)) d3,
      st.triangles ++ [T]⟩, T, [st.copy.vertices[prv n v2]'h1, st.copy.vertices[v2]'hv, st.copy.vertices[nxt n v2]'h3],
      ?_, ?_, rfl, rfl, ?_, ?_⟩
  · unfold clipEar
    simp only [hgn, index_of_lt _ _ h1, index_of_lt _ _ hv, index_of_lt _ _ h3,
      index_of_lt _ _ (show v2 < st.isEar.length by omega), hT, hd1, hd3, assign, if_pos ha1, if_pos ha3, bind,
      Except.bind, pure, Except.pure]
  · constructor
    · show 3 ≤ (st.copy.vertices.eraseIdx v2).length
      omega
    · show (((st.isEar.eraseIdx v2).set _ d1).set _ d3).length = (st.copy.vertices.eraseIdx v2).length
      rw [List.length_set, List.length_set, hel, helen]
  · refine ⟨v2, _, _, _, ?_, ?_, ?_, rfl, rfl⟩
    · rw [← hn, ← prv_eq_mod hv, List.getElem?_eq_getElem h1]
    · rw [List.getElem?_eq_getElem hv]
    · rw [← hn, ← nxt_eq_mod hv, List.getElem?_eq_getElem h3]
  · simpa using hTv

/-- one pass of the `for` loop either clips the first flagged ear or changes nothing -/
theorem forEar_ok (st : TriState F) (hinv : Inv st) (count v2 : Nat)
    (hk : v2 + count = st.copy.vertices.length) :
    (∃ v, v2 ≤ v ∧ v < st.copy.vertices.length ∧ st.isEar[v]? = some true ∧
      (∀ u, v2 ≤ u → u < v → st.isEar[u]? = some false) ∧ forEar st count v2 = clipEar st v) ∨
    ((∀ u, v2 ≤ u → u < st.copy.vertices.length → st.isEar[u]? = some false) ∧ forEar st count v2 = .ok st) := by
  induction count generalizing v2 with
  | zero => right; exact ⟨fun u h1 h2 => by omega, rfl⟩
  | succ c ih =>
    have hv : v2 < st.isEar.length := by rw [hinv.2]; omega
    unfold forEar
    simp only [index_of_lt _ _ hv, bind, Except.bind]
    rcases he : st.isEar[v2]'hv with _ | _
    · simp only [Bool.false_eq_true, if_false]
      have hf : st.isEar[v2]? = some false := by rw [List.getElem?_eq_getElem hv, he]
      rcases ih (v2 + 1) (by omega) with ⟨v, h1, h2, h3, h4, h5⟩ | ⟨h1, h2⟩
      · left
        refine ⟨v, by omega, h2, h3, fun u hu1 hu2 => ?_, h5⟩
        rcases Nat.eq_or_lt_of_le hu1 with h | h
        · rw [← h]; exact hf
        · exact h4 u h hu2
      · right
        refine ⟨fun u hu1 hu2 => ?_, h2⟩
        rcases Nat.eq_or_lt_of_le hu1 with h | h
        · rw [← h]; exact hf
        · exact h1 u h hu2
    · left
      refine ⟨v2, le_rfl, by omega, by rw [List.getElem?_eq_getElem hv, he], fun u h1 h2 => by omega, ?_⟩
      simp

/-- one iteration of the `while` loop: either a cut, or nothing happens (and then nothing ever will) -/
theorem whileBody_ok (st : TriState F) (hinv : Inv st) (h4 : 3 < st.copy.vertices.length) :
    (∃ st' T t, whileBody st = .ok st' ∧ Inv st' ∧ st'.copy.vertices.length + 1 = st.copy.vertices.length ∧
      st'.triangles = st.triangles ++ [T] ∧ Cut st.copy.vertices t st'.copy.vertices ∧
      (T.vertices = t ∨ T.vertices = t.reverse)) ∨
    (whileBody st = .ok st ∧ ∀ u, u < st.copy.vertices.length → st.isEar[u]? = some false) := by
  rcases forEar_ok st hinv st.copy.vertices.length 0 (by omega) with ⟨v, _, hv, _, _, h5⟩ | ⟨h1, h2⟩
  · left
    obtain ⟨st', T, t, h, hi, he, ht, hc, hT⟩ := clipEar_ok st v hinv h4 hv
    refine ⟨st', T, t, ?_, hi, ?_, ht, hc, hT⟩
    · unfold whileBody; rw [h5, h]
    · rw [he, List.length_eraseIdx_of_lt hv]; omega
  · right
    exact ⟨h2, fun u hu => h1 u (by omega) hu⟩

theorem whileRuns_spec (st : TriState F) (out : Res (TriState F)) (h : WhileRuns st out) (hinv : Inv st) :
    ∃ (fin : TriState F) (new : List (Polygon F)), out = .ok fin ∧ fin.copy.vertices.length = 3 ∧
      fin.triangles = st.triangles ++ new ∧
      ∃ ts, Decomp st.copy.vertices (ts ++ [fin.copy.vertices]) ∧
        List.Forall₂ (fun T t => T.vertices = t ∨ T.vertices = t.reverse) new ts := by
  induction h with
  | done st h =>
    refine ⟨st, [], rfl, ?_, by simp, [], ?_, List.Forall₂.nil⟩
    · have := hinv.1; omega
    · have := hinv.1; exact Decomp.last _ (by omega)
  | panic st e h hb =>
    rcases whileBody_ok st hinv h with ⟨st', T, t, h1, _⟩ | ⟨h1, _⟩
    · rw [hb] at h1; cases h1
    · rw [hb] at h1; cases h1
  | next st st' out h hb hr ih =>
    rcases whileBody_ok st hinv h with ⟨st'', T, t, h1, hi, hl, ht, hc, hT⟩ | ⟨h1, _⟩
    · rw [hb] at h1
      cases h1
      obtain ⟨fin, new, ho, h3, hn, ts, hd, hf⟩ := ih hi
      refine ⟨fin, T :: new, ho, h3, by rw [hn, ht]; simp, t :: ts, ?_, List.Forall₂.cons hT hf⟩
      exact Decomp.cut _ t _ _ h hc hd
    · rw [hb] at h1
      cases h1
      exact ih hinv

theorem triInit_ok (P : Polygon F) (h : 3 ≤ P.vertices.length) :
    ∃ st, triInit P = .ok st ∧ Inv st ∧ st.copy = P ∧ st.triangles = [] := by
  obtain ⟨l, hl, hlen⟩ := earFlags_ok P P.vertices.length 0 (by omega)
  unfold triInit
  simp only [hl, bind, Except.bind, pure, Except.pure]
  exact ⟨_, rfl, ⟨h, hlen⟩, rfl, rfl⟩

/-- C32: `triangulate` never panics, on any polygon with at least three vertices (all that `Polygon::new` lets
through), in any arithmetic: whatever it ends with is a list of triangles. -/
theorem C32_no_panic (P : Polygon F) (h : 3 ≤ P.vertices.length) (out : Res (List (Polygon F)))
    (ht : Triangulates P out) : ∃ ts, out = .ok ts := by
  obtain ⟨st, hst, hinv, hc, htr⟩ := triInit_ok P h
  cases ht with
  | triangle h => exact ⟨_, rfl⟩
  | initPanic e h hi => rw [hst] at hi; cases hi
  | loopPanic st' e h hi hr =>
    rw [hst] at hi; cases hi
    obtain ⟨fin, _, ho, _⟩ := whileRuns_spec st _ hr hinv
    cases ho
  | ok st' fin h hi hr => exact ⟨_, rfl⟩

/-- C33: if `triangulate` ends, its triangles are those of a decomposition of the vertex list by repeated cuts of three
consecutive vertices, each with the orientation possibly reversed. -/
theorem C33_decomposition (P : Polygon F) (h : 3 ≤ P.vertices.length) (ts : List (Polygon F))
    (ht : Triangulates P (.ok ts)) :
    ∃ ls, Decomp P.vertices ls ∧ List.Forall₂ (fun T t => T.vertices = t ∨ T.vertices = t.reverse) ts ls := by
  obtain ⟨st, hst, hinv, hc, htr⟩ := triInit_ok P h
  cases ht with
  | triangle h =>
    exact ⟨[P.vertices], Decomp.last _ h, List.Forall₂.cons (Or.inl rfl) List.Forall₂.nil⟩
  | ok st' fin h hi hr =>
    rw [hst] at hi; cases hi
    obtain ⟨fin', new, ho, h3, hn, ls, hd, hf⟩ := whileRuns_spec st _ hr hinv
    cases ho
    refine ⟨ls ++ [fin.copy.vertices], by rw [← hc]; exact hd, ?_⟩
    rw [hn, htr, List.nil_append]
    exact List.rel_append hf (List.Forall₂.cons (Or.inl rfl) List.Forall₂.nil)

end Free

/-! ### consequences of the specification -/

section Decomp
variable {α : Type}

theorem Cut.length {l t l' : List α} (h : Cut l t l') : t.length = 3 ∧ l'.length + 1 = l.length := by
  obtain ⟨i, a, b, c, ha, hb, hc, rfl, rfl⟩ := h
  have : i < l.length := by
    by_contra hcon
    rw [List.getElem?_eq_none (by omega)] at hb; cases hb
  rw [List.length_eraseIdx_of_lt this]
  exact ⟨rfl, by omega⟩

theorem Decomp.count {l : List α} {ts : List (List α)} (h : Decomp l ts) :
    ts.length + 2 = l.length ∧ ∀ t ∈ ts, t.length = 3 := by
  induction h with
  | last l h => simp [h]
  | cut l t l' ts h hc hd ih =>
    obtain ⟨h1, h2⟩ := hc.length
    refine ⟨by simp; omega, ?_⟩
    intro u hu
    rcases List.mem_cons.1 hu with rfl | hu
    · exact h1
    · exact ih.2 u hu

theorem Cut.mem {l t l' : List α} (h : Cut l t l') : (∀ x ∈ t, x ∈ l) ∧ (∀ x ∈ l', x ∈ l) ∧ ∀ x ∈ l, x ∈ t ∨ x ∈ l' := by
  obtain ⟨i, a, b, c, ha, hb, hc, rfl, rfl⟩ := h
  refine ⟨?_, ?_, ?_⟩
  · intro x hx
    simp only [List.mem_cons, List.not_mem_nil, or_false] at hx
    rcases hx with rfl | rfl | rfl
    · exact List.mem_of_getElem? ha
    · exact List.mem_of_getElem? hb
    · exact List.mem_of_getElem? hc
  · intro x hx; exact List.mem_of_mem_eraseIdx hx
  · intro x hx
    obtain ⟨k, hk, rfl⟩ := List.getElem_of_mem hx
    by_cases hki : k = i
    · subst hki
      left
      rw [List.getElem?_eq_getElem hk] at hb
      cases hb; simp
    · right
      rw [List.mem_eraseIdx_iff_getElem]
      exact ⟨k, hk, hki, rfl⟩

theorem Decomp.mem {l : List α} {ts : List (List α)} (h : Decomp l ts) : ∀ x, x ∈ l ↔ ∃ t ∈ ts, x ∈ t := by
  induction h with
  | last l h => simp
  | cut l t l' ts h hc hd ih =>
    obtain ⟨h1, h2, h3⟩ := hc.mem
    intro x
    constructor
    · intro hx
      rcases h3 x hx with h | h
      · exact ⟨t, by simp, h⟩
      · obtain ⟨u, hu, hxu⟩ := (ih x).1 h
        exact ⟨u, List.mem_cons_of_mem _ hu, hxu⟩
    · rintro ⟨u, hu, hxu⟩
      rcases List.mem_cons.1 hu with rfl | hu
      · exact h1 x hxu
      · exact h2 x ((ih x).2 ⟨u, hu, hxu⟩)

end Decomp

section Free2
variable {F : Type} [OrdScalar F]

/-- C33: exactly `n - 2` triangles of three vertices each; their corners are exactly the polygon's vertices. -/
theorem C33_triangles (P : Polygon F) (h : 3 ≤ P.vertices.length) (ts : List (Polygon F))
    (ht : Triangulates P (.ok ts)) :
    ts.length = P.vertices.length - 2 ∧ (∀ T ∈ ts, T.vertices.length = 3) ∧
    ∀ v, v ∈ P.vertices ↔ ∃ T ∈ ts, v ∈ T.vertices := by
  obtain ⟨ls, hd, hf⟩ := C33_decomposition P h ts ht
  obtain ⟨hcount, hthree⟩ := hd.count
  have hlen := hf.length_eq
  refine ⟨by omega, ?_, ?_⟩
  · intro T hT
    obtain ⟨i, hi, rfl⟩ := List.getElem_of_mem hT
    have := (List.forall₂_iff_get.1 hf).2 i hi (by omega)
    simp only [List.get_eq_getElem] at this
    have h3 := hthree _ (List.getElem_mem (by omega : i < ls.length))
    rcases this with h | h <;> rw [h]
    · exact h3
    · rw [List.length_reverse]; exact h3
  · intro v
    rw [hd.mem v]
    constructor
    · rintro ⟨t, ht, hv⟩
      obtain ⟨i, hi, rfl⟩ := List.getElem_of_mem ht
      refine ⟨ts[i]'(by omega), List.getElem_mem _, ?_⟩
      have := (List.forall₂_iff_get.1 hf).2 i (by omega) hi
      simp only [List.get_eq_getElem] at this
      rcases this with h | h <;> rw [h]
      · exact hv
      · rw [List.mem_reverse]; exact hv
    · rintro ⟨T, hT, hv⟩
      obtain ⟨i, hi, rfl⟩ := List.getElem_of_mem hT
      refine ⟨ls[i]'(by omega), List.getElem_mem _, ?_⟩
      have := (List.forall₂_iff_get.1 hf).2 i hi (by omega)
      simp only [List.get_eq_getElem] at this
      rcases this with h | h <;> rw [h] at hv
      · exact hv
      · rw [List.mem_reverse] at hv; exact hv

end Free2

end Kami.Tri
