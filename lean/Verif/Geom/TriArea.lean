import Verif.Geom.Diagonal
/-!
# C34, C35: area of the triangles, runs of the loop
-/

set_option autoImplicit false

namespace Kami.Tri

open Kami Kami.Polygon Kami.Pred Kami.PolyThm

/-! ### runs -/

section Free
variable {F : Type} [OrdScalar F]

/-- bounded execution of the loop, used to build concrete runs -/
def runFuel : Nat → TriState F → Option (Res (TriState F))
  | 0, _ => none
  | fuel + 1, st =>
    if st.copy.vertices.length > 3 then
      match whileBody st with
      | .error e => some (.error e)
      | .ok st' => runFuel fuel st'
    else some (.ok st)

theorem runFuel_sound (fuel : Nat) (st : TriState F) (out : Res (TriState F)) (h : runFuel fuel st = some out) :
    WhileRuns st out := by
  induction fuel generalizing st with
  | zero => cases h
  | succ f ih =>
    unfold runFuel at h
    split at h
    · rename_i hlen
      split at h
      · rename_i e he
        cases h
        exact .panic st e hlen he
      · rename_i st' he
        exact .next st st' out hlen he (ih st' h)
    · rename_i hlen
      cases h
      exact .done st hlen

/-- bounded execution of `triangulate` -/
def triFuel (fuel : Nat) (P : Polygon F) : Option (Res (List (Polygon F))) :=
  if P.vertices.length = 3 then some (.ok [P])
  else match triInit P with
    | .error e => some (.error e)
    | .ok st =>
      match runFuel fuel st with
      | none => none
      | some (.error e) => some (.error e)
      | some (.ok fin) => some (.ok (fin.triangles ++ [fin.copy]))

theorem triFuel_sound (fuel : Nat) (P : Polygon F) (out : Res (List (Polygon F))) (h : triFuel fuel P = some out) :
    Triangulates P out := by
  unfold triFuel at h
  split at h
  · rename_i h3; cases h; exact .triangle h3
  · rename_i h3
    split at h
    · rename_i e he; cases h; exact .initPanic e h3 he
    · rename_i st he
      split at h
      · cases h
      · rename_i e hr; cases h; exact .loopPanic st e h3 he (runFuel_sound _ _ _ hr)
      · rename_i fin hr; cases h; exact .ok st fin h3 he (runFuel_sound _ _ _ hr)

/-- the loop ends in at most one way -/
theorem whileRuns_det (st : TriState F) (o1 o2 : Res (TriState F)) (h1 : WhileRuns st o1) (h2 : WhileRuns st o2) :
    o1 = o2 := by
  induction h1 with
  | done st h =>
    cases h2 with
    | done => rfl
    | panic _ _ h' => exact absurd h' h
    | next _ _ _ h' => exact absurd h' h
  | panic st e h hb =>
    cases h2 with
    | done _ h' => exact absurd h h'
    | panic _ _ _ hb' => rw [hb] at hb'; cases hb'; rfl
    | next _ _ _ _ hb' => rw [hb] at hb'; cases hb'
  | next st st' out h hb hr ih =>
    cases h2 with
    | done _ h' => exact absurd h h'
    | panic _ _ _ hb' => rw [hb] at hb'; cases hb'
    | next _ _ _ _ hb' hr' => rw [hb] at hb'; cases hb'; exact ih hr'

/-- `triangulate` ends in at most one way. -/
theorem triangulates_det (P : Polygon F) (o1 o2 : Res (List (Polygon F))) (h1 : Triangulates P o1)
    (h2 : Triangulates P o2) : o1 = o2 := by
  cases h1 with
  | triangle h =>
    cases h2 with
    | triangle => rfl
    | initPanic _ h' => exact absurd h h'
    | loopPanic _ _ h' => exact absurd h h'
    | ok _ _ h' => exact absurd h h'
  | initPanic e h hi =>
    cases h2 with
    | triangle h' => exact absurd h' h
    | initPanic _ _ hi' => rw [hi] at hi'; cases hi'; rfl
    | loopPanic _ _ _ hi' => rw [hi] at hi'; cases hi'
    | ok _ _ _ hi' => rw [hi] at hi'; cases hi'
  | loopPanic st e h hi hr =>
    cases h2 with
    | triangle h' => exact absurd h' h
    | initPanic _ _ hi' => rw [hi] at hi'; cases hi'
    | loopPanic _ _ _ hi' hr' =>
      rw [hi] at hi'; cases hi'
      have := whileRuns_det _ _ _ hr hr'
      cases this; rfl
    | ok _ _ _ hi' hr' =>
      rw [hi] at hi'; cases hi'
      have := whileRuns_det _ _ _ hr hr'
      cases this
  | ok st fin h hi hr =>
    cases h2 with
    | triangle h' => exact absurd h' h
    | initPanic _ _ hi' => rw [hi] at hi'; cases hi'
    | loopPanic _ _ _ hi' hr' =>
      rw [hi] at hi'; cases hi'
      have := whileRuns_det _ _ _ hr hr'
      cases this
    | ok _ _ _ hi' hr' =>
      rw [hi] at hi'; cases hi'
      have := whileRuns_det _ _ _ hr hr'
      cases this; rfl

theorem whileRuns_stuck (st : TriState F) (h : st.copy.vertices.length > 3) (hb : whileBody st = .ok st)
    (out : Res (TriState F)) : ¬ WhileRuns st out := by
  intro hr
  have key : ∀ (s : TriState F) (o : Res (TriState F)), WhileRuns s o → s = st → False := by
    intro s o hr
    induction hr with
    | done s h' => intro e; subst e; exact h' h
    | panic s e _ hb' => intro e; subst e; rw [hb] at hb'; cases hb'
    | next s s' out _ hb' _ ih => intro e; subst e; rw [hb] at hb'; cases hb'; exact ih rfl
  exact key st out hr rfl

/-- a polygon with more than three vertices on which no ear is flagged at the start is never triangulated: the loop
runs forever -/
theorem no_ear_diverges (P : Polygon F) (h : 3 < P.vertices.length)
    (hf : P.earFlags P.vertices.length 0 = .ok (List.replicate P.vertices.length false))
    (out : Res (List (Polygon F))) : ¬ Triangulates P out := by
  have hinit : triInit P = .ok ⟨P, List.replicate P.vertices.length false, []⟩ := by
    unfold triInit; rw [hf]; rfl
  have hinv : Inv (⟨P, List.replicate P.vertices.length false, []⟩ : TriState F) := ⟨h.le, by simp⟩
  have hb : whileBody (⟨P, List.replicate P.vertices.length false, []⟩ : TriState F) =
      .ok ⟨P, List.replicate P.vertices.length false, []⟩ := by
    rcases forEar_ok (⟨P, List.replicate P.vertices.length false, []⟩ : TriState F) hinv P.vertices.length 0 (by simp) with
      ⟨v, _, hv, ht, _⟩ | ⟨_, h2⟩
    · simp only [List.getElem?_replicate] at ht
      split at ht <;> simp at ht
    · exact h2
  have hs := whileRuns_stuck _ (by exact h) hb
  intro ht
  cases ht with
  | triangle h' => omega
  | initPanic e _ hi => rw [hinit] at hi; cases hi
  | loopPanic st e _ hi hr => rw [hinit] at hi; cases hi; exact hs _ hr
  | ok st fin _ hi hr => rw [hinit] at hi; cases hi; exact hs _ hr

end Free

/-- a concave pentagon is triangulated: the hypotheses of C33 and C34 are met -/
example : Triangulates (Polygon.mk [(⟨0, 0⟩ : Vec2 ℚ), ⟨4, 0⟩, ⟨4, 4⟩, ⟨2, 1⟩, ⟨0, 4⟩])
    (.ok [⟨[⟨4, 0⟩, ⟨4, 4⟩, ⟨2, 1⟩]⟩, ⟨[⟨0, 0⟩, ⟨4, 0⟩, ⟨2, 1⟩]⟩, ⟨[⟨0, 0⟩, ⟨2, 1⟩, ⟨0, 4⟩]⟩]) := by
  apply triFuel_sound 5
  decide +kernel

/-- the same in f32 -/
example : ∃ ts : List (Polygon F32), Triangulates
    (Polygon.mk [⟨F32.lit 0, F32.lit 0⟩, ⟨F32.lit 4, F32.lit 0⟩, ⟨F32.lit 4, F32.lit 4⟩,
      ⟨F32.lit 2, F32.lit 1⟩, ⟨F32.lit 0, F32.lit 4⟩]) (.ok ts) ∧ ts.length = 3 := by
  have h : (match triFuel 5 (Polygon.mk [⟨F32.lit 0, F32.lit 0⟩, ⟨F32.lit 4, F32.lit 0⟩,
      ⟨F32.lit 4, F32.lit 4⟩, ⟨F32.lit 2, F32.lit 1⟩, ⟨F32.lit 0, F32.lit 4⟩]) with
    | some (.ok ts) => ts.length == 3
    | _ => false) = true := by decide +kernel
  split at h
  · rename_i ts hts
    exact ⟨ts, triFuel_sound 5 _ _ hts, by simpa using h⟩
  · cases h

/-! ## C34 -/

theorem cut_rotate {α : Type} {l t l' : List α} (h : Cut l t l') (h3 : 3 ≤ l.length) :
    ∃ (a b c : α) (rest : List α) (k k' : Nat), t = [a, b, c] ∧ l.rotate k = a :: b :: c :: rest ∧
      l'.rotate k' = a :: c :: rest := by
  obtain ⟨i, a, b, c, ha, hb, hc, rfl, rfl⟩ := h
  have hi : i < l.length := by
    by_contra hcon
    rw [List.getElem?_eq_none (by omega)] at hb; cases hb
  rw [← prv_eq_mod hi] at ha
  rw [← nxt_eq_mod hi] at hc
  refine ⟨a, b, c, ?_⟩
  by_cases h0 : i = 0
  · subst h0
    rcases l with _ | ⟨x, l⟩
    · simp at hi
    rcases List.eq_nil_or_concat l with rfl | ⟨m, y, rfl⟩
    · simp at h3
    rcases m with _ | ⟨z, m⟩
    · simp at h3
    simp [prv] at ha
    simp at hb
    simp [nxt] at hc
    subst ha hb hc
    refine ⟨m, (x :: z :: m).length, (z :: m).length, rfl, ?_, ?_⟩
    · have : x :: ((z :: m).concat y) = (x :: z :: m) ++ [y] := by simp
      rw [this, List.rotate_append_length_eq]; rfl
    · have : (x :: ((z :: m).concat y)).eraseIdx 0 = (z :: m) ++ [y] := by simp
      rw [this, List.rotate_append_length_eq]; rfl
  · by_cases hl : i = l.length - 1
    · rcases l with _ | ⟨x, l⟩
      · simp at hi
      rcases List.eq_nil_or_concat l with rfl | ⟨m, y, rfl⟩
      · simp at h3
      rcases List.eq_nil_or_concat m with rfl | ⟨m, z, rfl⟩
      · simp at h3
      simp at hl
      subst hl
      simp [prv] at ha
      simp at hb
      simp [nxt] at hc
      subst ha hb hc
      refine ⟨m, (x :: m).length, (x :: m).length, rfl, ?_, ?_⟩
      · have : x :: ((m.concat z).concat y) = (x :: m) ++ [z, y] := by simp
        rw [this, List.rotate_append_length_eq]; rfl
      · have : (x :: ((m.concat z).concat y)).eraseIdx (m.length + 1 + 1) = (x :: m) ++ [z] := by
          simp [List.eraseIdx_append_of_length_le]
        rw [this, List.rotate_append_length_eq]; rfl
    · simp only [prv, if_neg h0] at ha
      simp only [nxt, if_neg hl] at hc
      have h1 : i - 1 < l.length := by omega
      have h2 : i + 1 < l.length := by omega
      rw [List.getElem?_eq_getElem h1] at ha
      rw [List.getElem?_eq_getElem hi] at hb
      rw [List.getElem?_eq_getElem h2] at hc
      cases ha; cases hb; cases hc
      have hd : l = l.take (i - 1) ++ l[i - 1] :: l[i] :: l[i + 1] :: l.drop (i + 2) := by
        conv_lhs => rw [← List.take_append_drop (i - 1) l]
        congr 1
        rw [List.drop_eq_getElem_cons h1]
        congr 1
        rw [show i - 1 + 1 = i by omega, List.drop_eq_getElem_cons hi]
        congr 1
        rw [List.drop_eq_getElem_cons h2]
      have hlen : (l.take (i - 1)).length = i - 1 := by rw [List.length_take]; omega
      refine ⟨l.drop (i + 2) ++ l.take (i - 1), (l.take (i - 1)).length, (l.take (i - 1)).length, rfl, ?_, ?_⟩
      · conv_lhs => enter [1]; rw [hd]
        rw [List.rotate_append_length_eq]; rfl
      · have : l.eraseIdx i = l.take (i - 1) ++ l[i - 1] :: l[i + 1] :: l.drop (i + 2) := by
          conv_lhs => enter [1]; rw [hd]
          rw [List.eraseIdx_append_of_length_le (by omega), hlen, show i - (i - 1) = 1 by omega]
          rfl
        conv_lhs => enter [1]; rw [this]
        rw [List.rotate_append_length_eq]; rfl

variable {K : Type} [Field K] [LinearOrder K] [IsStrictOrderedRing K]

theorem shoelace_cut {l t l' : List (Vec2 K)} (h : Cut l t l') (h3 : 3 ≤ l.length) :
    shoelace l = shoelace t + shoelace l' := by
  obtain ⟨a, b, c, rest, k, k', rfl, h1, h2⟩ := cut_rotate h h3
  rw [← shoelace_rotate l k, ← shoelace_rotate l' k', h1, h2, shoelace_cons, shoelace_cons, shoelace_cons]
  simp only [List.cons_append, List.nil_append, List.zipWith_cons_cons, List.sum_cons, List.zipWith_nil_left,
    List.sum_nil, crossTerm]
  ring

theorem shoelace_decomp {l : List (Vec2 K)} {ts : List (List (Vec2 K))} (h : Decomp l ts) :
    shoelace l = (ts.map shoelace).sum := by
  induction h with
  | last l h => simp
  | cut l t l' ts h hc hd ih => rw [shoelace_cut hc (by omega), ih]; simp

/-- C34: the triangles returned are, up to orientation, the triangles of a decomposition whose signed areas add up to the
signed area of the polygon; the areas reported for them add up to at least the polygon's area, and to exactly that area
when no cut triangle is clockwise. -/
theorem C34_area (P : Polygon K) (h : 3 ≤ P.vertices.length) (ts : List (Polygon K)) (ht : Triangulates P (.ok ts)) :
    ∃ ls, Decomp P.vertices ls ∧ List.Forall₂ (fun T t => T.vertices = t ∨ T.vertices = t.reverse) ts ls ∧
      shoelace P.vertices = (ls.map shoelace).sum ∧
      P.area ≤ (ts.map Polygon.area).sum ∧
      ((∀ t ∈ ls, 0 ≤ shoelace t) → (ts.map Polygon.area).sum = P.area) := by
  obtain ⟨ls, hd, hf⟩ := C33_decomposition P h ts ht
  have hsum := shoelace_decomp hd
  have harea : (ts.map Polygon.area).sum = (ls.map fun t => |shoelace t| / 2).sum := by
    clear hd hsum ht
    induction hf with
    | nil => rfl
    | cons hT _ ih =>
      rw [List.map_cons, List.map_cons, List.sum_cons, List.sum_cons, ih]
      congr 1
      rename_i T t _ _ _
      rcases T with ⟨l⟩
      rw [C28_area]
      rcases hT with h | h <;> simp only at h <;> rw [h]
      rw [shoelace_reverse, abs_neg]
  refine ⟨ls, hd, hf, hsum, ?_, ?_⟩
  · rcases P with ⟨l⟩
    rw [harea, C28_area, hsum]
    clear hd hsum harea hf
    induction ls with
    | nil => simp
    | cons t ls ih =>
      simp only [List.map_cons, List.sum_cons]
      have := abs_add_le (shoelace t) (ls.map shoelace).sum
      linarith
  · intro hpos
    rcases P with ⟨l⟩
    rw [harea, C28_area, hsum]
    have h0 : 0 ≤ (ls.map shoelace).sum := by
      apply List.sum_nonneg
      intro x hx
      obtain ⟨t, ht, rfl⟩ := List.mem_map.1 hx
      exact hpos t ht
    rw [abs_of_nonneg h0]
    clear hd hsum harea hf h0
    induction ls with
    | nil => simp
    | cons t ls ih =>
      simp only [List.map_cons, List.sum_cons]
      rw [ih (fun t ht => hpos t (List.mem_cons_of_mem _ ht)), abs_of_nonneg (hpos t (by simp))]
      ring

/-! ## C35: what happens without simplicity -/

/-- C35 needs simplicity: on four collinear points `triangulate` runs forever. -/
theorem C35_diverges_collinear (out : Res (List (Polygon ℚ))) :
    ¬ Triangulates (Polygon.mk [(⟨0, 0⟩ : Vec2 ℚ), ⟨1, 0⟩, ⟨2, 0⟩, ⟨3, 0⟩]) out :=
  no_ear_diverges _ (by decide) (by decide +kernel) out

end Kami.Tri
