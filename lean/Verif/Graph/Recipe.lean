import Verif.Graph.Divided
/-!
# C155: how to draw so that nothing fails

C151 describes which orders of requests give a planar drawing.  Here is an order that always does when at most two segments pass
through a point: ends first, then the segments, passing ones before those that end on them, then the other points.
-/

set_option autoImplicit false

namespace Kami.Graph

open Kami
open scoped Kami
open PlanarGraph
open Kami.UtilThm (dst crs dt OnSegR)

variable {T U : Type}

/-! ## Specification -/

section Spec

/-- the ends of the segments -/
def endsOf : List (Stroke U) → List (ℝ × ℝ)
  | [] => []
  | s :: S => s.a :: s.b :: endsOf S

/-- requests for the ends of the segments -/
def endReqs (t : T) (S : List (Stroke U)) : List (Req T U) := (endsOf S).map fun x => .point x t

/-- requests for the segments, when the ends are the requested points from number `n` on -/
def segReqs : ℕ → List (Stroke U) → List (Req T U)
  | _, [] => []
  | n, s :: S => .seg n (n + 1) s.c :: segReqs (n + 2) S

/-- the ends of the segments, then the segments, then other points -/
def drawReqs (t : T) (S : List (Stroke U)) (B : List (ℝ × ℝ)) : List (Req T U) :=
  endReqs t S ++ segReqs 0 S ++ B.map fun x => .point x t

open Classical in
/-- the number of segments that pass a point -/
noncomputable def passing (S : List (Stroke U)) (y : ℝ × ℝ) : ℕ := (S.filter fun s => s.Within y).length

open Classical in
/-- the number of segments through a point -/
noncomputable def through (S : List (Stroke U)) (y : ℝ × ℝ) : ℕ := (S.filter fun s => s.On y).length

end Spec

noncomputable section

/-! ## The requests -/

theorem wanted_append (l l' : List (Req T U)) : wanted (l ++ l') = wanted l ++ wanted l' := by
  induction l with
  | nil => rfl
  | cons r l ih => cases r <;> simp [wanted, ih]

theorem points_append' (l l' : List (Req T U)) : points (l ++ l') = points l ++ points l' := by
  simp [points, wanted_append]

theorem points_points (t : T) (B : List (ℝ × ℝ)) : points (B.map fun x => (.point x t : Req T U)) = B := by
  induction B with
  | nil => rfl
  | cons x B ih => simpa [points, wanted] using ih

theorem points_segs (S : List (Stroke U)) : ∀ n, points (segReqs n S : List (Req T U)) = [] := by
  induction S with
  | nil => intro _; rfl
  | cons s S ih => intro n; simpa [segReqs, points, wanted] using ih (n + 2)

theorem strokes_append' (l l' : List (Req T U)) : ∀ ps, strokes ps (l ++ l') = strokes ps l ++ strokes (ps ++ points l) l' := by
  induction l with
  | nil => intro ps; simp [strokes, points, wanted]
  | cons r l ih => intro ps; cases r <;> simp [strokes, ih, points, wanted]

theorem strokes_points (t : T) (B : List (ℝ × ℝ)) : ∀ ps, strokes ps (B.map fun x => (.point x t : Req T U)) = [] := by
  induction B with
  | nil => intro _; rfl
  | cons x B ih => intro ps; simpa [strokes] using ih (ps ++ [x])

theorem getD_at (l l' : List (ℝ × ℝ)) (x : ℝ × ℝ) : (l ++ x :: l').getD l.length (0, 0) = x := by
  rw [List.getD_eq_getElem?_getD, List.getElem?_append_right (le_refl _)]
  simp

theorem getD_next (l l' : List (ℝ × ℝ)) (x y : ℝ × ℝ) : (l ++ x :: y :: l').getD (l.length + 1) (0, 0) = y := by
  simp

theorem strokes_segs (S : List (Stroke U)) : ∀ pre, strokes (pre ++ endsOf S) (segReqs pre.length S : List (Req T U)) = S := by
  induction S with
  | nil => intro _; rfl
  | cons s S ih =>
    intro pre
    have := ih (pre ++ [s.a, s.b])
    simp only [segReqs, strokes, endsOf, getD_at, getD_next]
    simp only [List.append_assoc, List.cons_append, List.nil_append, List.length_append, List.length_cons, List.length_nil] at this
    rw [this]

theorem draw_points (t : T) (S : List (Stroke U)) (B : List (ℝ × ℝ)) : points (drawReqs t S B) = endsOf S ++ B := by
  unfold drawReqs endReqs
  rw [points_append', points_append', points_points, points_points, points_segs, List.append_nil]

theorem draw_strokes (t : T) (S : List (Stroke U)) (B : List (ℝ × ℝ)) : strokes [] (drawReqs t S B) = S := by
  unfold drawReqs endReqs
  rw [strokes_append', strokes_append', strokes_points, strokes_points, points_points]
  have := strokes_segs (T := T) S []
  simpa using this

theorem known_append (l l' : List (Req T U)) : ∀ n, Known n (l ++ l') ↔ Known n l ∧ Known (n + (points l).length) l' := by
  induction l with
  | nil => intro n; simp [Known, points, wanted]
  | cons r l ih =>
    intro n
    cases r
    · simp only [List.cons_append, Known, ih, points, wanted, List.map_cons, List.length_cons]
      rw [show n + 1 + (List.map Prod.fst (wanted l)).length = n + ((List.map Prod.fst (wanted l)).length + 1) by omega]
    · simp only [List.cons_append, Known, ih, points, wanted]
      tauto

theorem known_points (t : T) (B : List (ℝ × ℝ)) : ∀ n, Known n (B.map fun x => (.point x t : Req T U)) := by
  induction B with
  | nil => intro _; trivial
  | cons x B ih => intro n; exact ih (n + 1)

theorem known_segs (S : List (Stroke U)) : ∀ n m, n + (endsOf S).length ≤ m → Known m (segReqs n S : List (Req T U)) := by
  induction S with
  | nil => intro _ _ _; trivial
  | cons s S ih =>
    intro n m h
    simp only [endsOf, List.length_cons] at h
    exact ⟨by omega, by omega, ih (n + 2) m (by omega)⟩

theorem draw_known (t : T) (S : List (Stroke U)) (B : List (ℝ × ℝ)) : Known 0 (drawReqs t S B) := by
  unfold drawReqs endReqs
  rw [known_append, known_append]
  refine ⟨⟨known_points t _ 0, known_segs S 0 _ ?_⟩, known_points t _ _⟩
  rw [points_points]

/-! ## The states -/

open Classical in
/-- what a segment means for a point -/
def strokeTouch (y : ℝ × ℝ) (s : Stroke U) : List Touch :=
  if y = s.a ∨ y = s.b then [.ending] else if OnSegR s.a s.b y then [.inside] else []

theorem touches_append (y : ℝ × ℝ) (l l' : List (Req T U)) : ∀ ps, touches y ps (l ++ l') = touches y ps l ++ touches y (ps ++ points l) l' := by
  induction l with
  | nil => intro ps; simp [touches, points, wanted]
  | cons r l ih => intro ps; cases r <;> simp [touches, ih, points, wanted]

theorem touches_points (y : ℝ × ℝ) (t : T) (B : List (ℝ × ℝ)) : ∀ ps,
    (∀ w ∈ touches y ps (B.map fun x => (.point x t : Req T U)), w = .point) ∧
      (touches y ps (B.map fun x => (.point x t : Req T U)) ≠ [] → y ∈ B) := by
  induction B with
  | nil => intro _; simp [touches]
  | cons x B ih =>
    intro ps
    obtain ⟨h1, h2⟩ := ih (ps ++ [x])
    simp only [List.map_cons, touches]
    by_cases hxy : x = y
    · rw [if_pos hxy]
      refine ⟨fun w hw => ?_, fun _ => by simp [hxy]⟩
      rcases List.mem_append.1 hw with hw | hw
      · exact List.mem_singleton.1 hw
      · exact h1 w hw
    · rw [if_neg hxy, List.nil_append]
      exact ⟨h1, fun h => List.mem_cons_of_mem _ (h2 h)⟩

theorem touches_segs (y : ℝ × ℝ) (S : List (Stroke U)) : ∀ pre,
    touches y (pre ++ endsOf S) (segReqs pre.length S : List (Req T U)) = S.flatMap (strokeTouch y) := by
  induction S with
  | nil => intro _; rfl
  | cons s S ih =>
    intro pre
    have := ih (pre ++ [s.a, s.b])
    simp only [segReqs, touches, endsOf, getD_at, getD_next, List.flatMap_cons]
    simp only [List.append_assoc, List.cons_append, List.nil_append, List.length_append, List.length_cons, List.length_nil] at this
    rw [this, getD_at, getD_next]
    rfl

/-- passing segments come first -/
theorem passing_first (y : ℝ × ℝ) (S : List (Stroke U)) (hord : S.Pairwise fun s s' => ¬ s'.Within s.a ∧ ¬ s'.Within s.b) :
    ∃ m, S.flatMap (strokeTouch y) = List.replicate (passing S y) .inside ++ List.replicate m .ending ∧ (y ∈ endsOf S → 0 < m) := by
  induction S with
  | nil => exact ⟨0, by simp [passing], by simp [endsOf]⟩
  | cons s S ih =>
    rw [List.pairwise_cons] at hord
    obtain ⟨m, h1, h2⟩ := ih hord.2
    rw [List.flatMap_cons, h1]
    by_cases hend : y = s.a ∨ y = s.b
    · have h0 : passing S y = 0 := by
        unfold passing
        rw [List.length_eq_zero_iff, List.filter_eq_nil_iff]
        intro s' hs' hw
        have hw : s'.Within y := by simpa using hw
        rcases hend with rfl | rfl
        · exact (hord.1 s' hs').1 hw
        · exact (hord.1 s' hs').2 hw
      have h0' : passing (s :: S) y = 0 := by
        have hn : ¬ s.Within y := fun hw => hend.elim hw.2.1 hw.2.2
        unfold passing at h0 ⊢
        rw [List.filter_cons_of_neg (by simpa using hn)]
        exact h0
      refine ⟨m + 1, ?_, fun _ => by omega⟩
      rw [h0, h0']
      simp [strokeTouch, hend, List.replicate_succ]
    · have hmem : y ∈ endsOf (s :: S) → y ∈ endsOf S := by
        intro h
        simp only [endsOf, List.mem_cons] at h
        tauto
      by_cases hon : OnSegR s.a s.b y
      · have hw : s.Within y := ⟨hon, fun h => hend (Or.inl h), fun h => hend (Or.inr h)⟩
        have hp : passing (s :: S) y = passing S y + 1 := by
          unfold passing
          rw [List.filter_cons_of_pos (by simpa using hw), List.length_cons]
        refine ⟨m, ?_, fun h => h2 (hmem h)⟩
        rw [hp]
        simp [strokeTouch, hend, hon, List.replicate_succ]
      · have hw : ¬ s.Within y := fun h => hon h.1
        have hp : passing (s :: S) y = passing S y := by
          unfold passing
          rw [List.filter_cons_of_neg (by simpa using hw)]
        refine ⟨m, ?_, fun h => h2 (hmem h)⟩
        rw [hp]
        simp [strokeTouch, hend, hon]

/-- nothing has failed at the point -/
def Phase.Fine (p : Phase) : Prop := p ≠ .skewered ∧ p ≠ .broken

theorem fine_point {p : Phase} (h : p.Fine) : (p.next .point).Fine := by
  cases p <;> simp_all [Phase.Fine, Phase.next]

theorem fine_ending {p : Phase} (h : p.Fine ∨ p = .skewered) : (p.next .ending).Fine := by
  cases p <;> simp_all [Phase.Fine, Phase.next]

theorem fine_points (w : List Touch) (hw : ∀ t ∈ w, t = .point) : ∀ p : Phase, p.Fine → (w.foldl Phase.next p).Fine := by
  induction w with
  | nil => intro p h; exact h
  | cons t w ih =>
    intro p h
    have := hw t (by simp)
    subst this
    exact ih (fun t ht => hw t (by simp [ht])) _ (fine_point h)

theorem fine_endings (m : ℕ) : ∀ p : Phase, (p.Fine ∨ (p = .skewered ∧ 0 < m)) → ((List.replicate m Touch.ending).foldl Phase.next p).Fine := by
  induction m with
  | zero => rintro p (h | ⟨_, h⟩); exacts [h, by omega]
  | succ m ih =>
    intro p h
    rw [List.replicate_succ, List.foldl_cons]
    exact ih _ (Or.inl (fine_ending (h.imp id And.left)))

theorem first_points (w : List Touch) (hw : ∀ t ∈ w, t = .point) :
    w.foldl Phase.next .empty = .empty ∨ (w.foldl Phase.next .empty = .bare ∧ w ≠ []) := by
  cases w with
  | nil => exact Or.inl rfl
  | cons t w =>
    refine Or.inr ⟨?_, by simp⟩
    have := hw t (by simp)
    subst this
    have hb : ∀ w : List Touch, (∀ t ∈ w, t = .point) → w.foldl Phase.next .bare = .bare := by
      intro w
      induction w with
      | nil => intro _; rfl
      | cons t w ih =>
        intro hw
        have := hw t (by simp)
        subst this
        exact ih fun t ht => hw t (by simp [ht])
    exact hb w fun t ht => hw t (by simp [ht])

/-- no point fails -/
theorem draw_fine (t : T) (S : List (Stroke U)) (B : List (ℝ × ℝ))
    (hord : S.Pairwise fun s s' => ¬ s'.Within s.a ∧ ¬ s'.Within s.b) (htwo : ∀ y, passing S y ≤ 2) (y : ℝ × ℝ) :
    phase (drawReqs t S B) y ≠ .skewered ∧ phase (drawReqs t S B) y ≠ .broken := by
  change (phase (drawReqs t S B) y).Fine
  unfold phase drawReqs endReqs
  rw [touches_append, touches_append, List.foldl_append, List.foldl_append, points_points]
  obtain ⟨m, h1, h2⟩ := passing_first y S hord
  have hseg := touches_segs (T := T) y S []
  simp only [List.nil_append, List.length_nil] at hseg
  simp only [List.nil_append]
  rw [hseg, h1, List.foldl_append]
  obtain ⟨a1, a2⟩ := touches_points (T := T) (U := U) y t (endsOf S) []
  refine fine_points _ (touches_points y t B _).1 _ (fine_endings m _ ?_)
  have hk := htwo y
  generalize passing S y = k at hk
  generalize touches y [] ((endsOf S).map fun x => (.point x t : Req T U)) = w at a1 a2
  rcases first_points w a1 with h | ⟨h, hne⟩
  · rw [h]
    rcases k with _ | _ | _ | k
    · exact Or.inl ⟨by decide, by decide⟩
    · exact Or.inl ⟨by decide, by decide⟩
    · exact Or.inl ⟨by decide, by decide⟩
    · omega
  · rw [h]
    rcases k with _ | _ | _ | k
    · exact Or.inl ⟨by decide, by decide⟩
    · exact Or.inr ⟨rfl, h2 (a2 hne)⟩
    · exact Or.inl ⟨by decide, by decide⟩
    · omega

/-! ## All orders of the segments -/

theorem through_cons_on {y : ℝ × ℝ} {s : Stroke U} {S : List (Stroke U)} (h : s.On y) : through (s :: S) y = through S y + 1 := by
  unfold through
  rw [List.filter_cons_of_pos (by simpa using h), List.length_cons]

theorem through_cons_off {y : ℝ × ℝ} {s : Stroke U} {S : List (Stroke U)} (h : ¬ s.On y) : through (s :: S) y = through S y := by
  unfold through
  rw [List.filter_cons_of_neg (by simpa using h)]

theorem strokeTouch_off {y : ℝ × ℝ} {s : Stroke U} (h : ¬ s.On y) : strokeTouch y s = [] := by
  have h1 : ¬ (y = s.a ∨ y = s.b) := by
    rintro (rfl | rfl)
    · exact h (onSeg_left _ _)
    · exact h (onSeg_right _ _)
  unfold strokeTouch
  rw [if_neg h1, if_neg (show ¬ OnSegR s.a s.b y from h)]

theorem strokeTouch_on {y : ℝ × ℝ} {s : Stroke U} (h : s.On y) :
    (strokeTouch y s = [.inside] ∧ s.Within y) ∨ (strokeTouch y s = [.ending] ∧ (y = s.a ∨ y = s.b)) := by
  unfold strokeTouch
  by_cases h1 : y = s.a ∨ y = s.b
  · rw [if_pos h1]; exact Or.inr ⟨rfl, h1⟩
  · rw [if_neg h1, if_pos (show OnSegR s.a s.b y from h)]
    exact Or.inl ⟨rfl, h, fun hc => h1 (Or.inl hc), fun hc => h1 (Or.inr hc)⟩

/-- a segment passes the point after `n` others through it -/
theorem inside_drop (y : ℝ × ℝ) (S : List (Stroke U)) : ∀ n, Touch.inside ∈ (S.flatMap (strokeTouch y)).drop n ↔
    ∃ l s l', S = l ++ s :: l' ∧ s.Within y ∧ n ≤ through l y := by
  induction S with
  | nil =>
    intro n
    simp
  | cons s S ih =>
    intro n
    rw [List.flatMap_cons]
    by_cases hon : s.On y
    · cases n with
      | zero =>
        rw [List.drop_zero, List.mem_append]
        have ih0 := ih 0
        rw [List.drop_zero] at ih0
        rw [ih0]
        constructor
        · rintro (h | ⟨l, s', l', rfl, hw, _⟩)
          · rcases strokeTouch_on hon with ⟨_, hw⟩ | ⟨e, _⟩
            · exact ⟨[], s, S, rfl, hw, Nat.zero_le _⟩
            · rw [e] at h; simp at h
          · exact ⟨s :: l, s', l', rfl, hw, Nat.zero_le _⟩
        · rintro ⟨l, s', l', he, hw, _⟩
          cases l with
          | nil =>
            rw [List.nil_append, List.cons.injEq] at he
            obtain ⟨rfl, rfl⟩ := he
            rcases strokeTouch_on hon with ⟨e, _⟩ | ⟨_, e⟩
            · left; rw [e]; simp
            · exact absurd hw fun hw => e.elim hw.2.1 hw.2.2
          | cons c l =>
            rw [List.cons_append, List.cons.injEq] at he
            exact Or.inr ⟨l, s', l', he.2, hw, Nat.zero_le _⟩
      | succ n =>
        have hlen : (strokeTouch y s ++ S.flatMap (strokeTouch y)).drop (n + 1) = (S.flatMap (strokeTouch y)).drop n := by
          rcases strokeTouch_on hon with ⟨e, _⟩ | ⟨e, _⟩ <;> rw [e] <;> rfl
        rw [hlen, ih n]
        constructor
        · rintro ⟨l, s', l', rfl, hw, hn⟩
          exact ⟨s :: l, s', l', rfl, hw, by rw [through_cons_on hon]; omega⟩
        · rintro ⟨l, s', l', he, hw, hn⟩
          cases l with
          | nil => simp [through] at hn
          | cons c l =>
            rw [List.cons_append, List.cons.injEq] at he
            obtain ⟨rfl, rfl⟩ := he
            rw [through_cons_on hon] at hn
            exact ⟨l, s', l', rfl, hw, by omega⟩
    · rw [strokeTouch_off hon, List.nil_append, ih n]
      constructor
      · rintro ⟨l, s', l', rfl, hw, hn⟩
        exact ⟨s :: l, s', l', rfl, hw, by rw [through_cons_off hon]; exact hn⟩
      · rintro ⟨l, s', l', he, hw, hn⟩
        cases l with
        | nil =>
          rw [List.nil_append, List.cons.injEq] at he
          obtain ⟨rfl, rfl⟩ := he
          exact absurd hw.1 hon
        | cons c l =>
          rw [List.cons_append, List.cons.injEq] at he
          obtain ⟨rfl, rfl⟩ := he
          rw [through_cons_off hon] at hn
          exact ⟨l, s', l', rfl, hw, hn⟩

open Classical in
/-- from `joined` on -/
theorem fold_joined (w : List Touch) : w.foldl Phase.next .joined = if Touch.inside ∈ w then .broken else .joined := by
  induction w with
  | nil => rfl
  | cons t w ih =>
    cases t
    · simpa [Phase.next] using ih
    · simp [Phase.next, fold_broken]
    · simpa [Phase.next] using ih

/-- the failures before the last points -/
theorem fold_segs (p : Phase) (hp : p = .empty ∨ p = .bare) (w : List Touch) (hw : Touch.point ∉ w) (hend : p = .bare → Touch.ending ∈ w) :
    (w.foldl Phase.next p).Fine ↔ Touch.inside ∉ w.drop 2 := by
  rcases w with _ | ⟨a, _ | ⟨b, w⟩⟩
  · rcases hp with rfl | rfl
    · simp [Phase.Fine]
    · simp [Phase.Fine]
  · simp only [List.foldl_cons, List.foldl_nil, List.drop_succ_cons, List.drop_nil, List.not_mem_nil, not_false_eq_true, iff_true]
    rcases hp with rfl | rfl
    · cases a <;> simp [Phase.Fine, Phase.next]
    · have := hend rfl
      simp only [List.mem_singleton] at this
      subst this
      simp [Phase.Fine, Phase.next]
  · have hj : (p.next a).next b = .joined := by
      rcases hp with rfl | rfl <;> cases a <;> cases b <;> simp_all [Phase.next]
    simp only [List.foldl_cons, hj, fold_joined, List.drop_succ_cons, List.drop_zero]
    by_cases h : Touch.inside ∈ w
    · simp [h, Phase.Fine]
    · simp [h, Phase.Fine]

theorem fine_points_iff (w : List Touch) (hw : ∀ t ∈ w, t = .point) : ∀ p : Phase, (w.foldl Phase.next p).Fine ↔ p.Fine := by
  induction w with
  | nil => intro p; rfl
  | cons t w ih =>
    intro p
    have := hw t (by simp)
    subst this
    rw [List.foldl_cons, ih fun t ht => hw t (by simp [ht])]
    cases p <;> simp [Phase.Fine, Phase.next]

theorem mem_endsOf {S : List (Stroke U)} {y : ℝ × ℝ} : y ∈ endsOf S ↔ ∃ s ∈ S, y = s.a ∨ y = s.b := by
  induction S with
  | nil => simp [endsOf]
  | cons s S ih => simp [endsOf, ih, or_assoc]

/-- the points that do not fail -/
theorem draw_fine_iff (t : T) (S : List (Stroke U)) (B : List (ℝ × ℝ)) (y : ℝ × ℝ) :
    (phase (drawReqs t S B) y).Fine ↔ ∀ l s l', S = l ++ s :: l' → s.Within y → through l y ≤ 1 := by
  unfold phase drawReqs endReqs
  rw [touches_append, touches_append, List.foldl_append, List.foldl_append, points_points]
  have hseg := touches_segs (T := T) y S []
  simp only [List.nil_append, List.length_nil] at hseg
  simp only [List.nil_append]
  rw [hseg, fine_points_iff _ (touches_points y t B _).1]
  obtain ⟨a1, a2⟩ := touches_points (T := T) (U := U) y t (endsOf S) []
  have hin := inside_drop y S 2
  have hnp : Touch.point ∉ S.flatMap (strokeTouch y) := by
    intro h
    obtain ⟨s, _, h⟩ := List.mem_flatMap.1 h
    unfold strokeTouch at h
    split at h
    · simp at h
    · split at h <;> simp at h
  have hen : y ∈ endsOf S → Touch.ending ∈ S.flatMap (strokeTouch y) := by
    intro h
    obtain ⟨s, hs, he⟩ := mem_endsOf.1 h
    exact List.mem_flatMap.2 ⟨s, hs, by unfold strokeTouch; rw [if_pos he]; simp⟩
  have hfold : ((S.flatMap (strokeTouch y)).foldl Phase.next
      ((touches y [] ((endsOf S).map fun x => (.point x t : Req T U))).foldl Phase.next .empty)).Fine ↔
      Touch.inside ∉ (S.flatMap (strokeTouch y)).drop 2 := by
    rcases first_points _ a1 with h | ⟨h, hne⟩
    · rw [h]; exact fold_segs _ (Or.inl rfl) _ hnp (by simp)
    · rw [h]; exact fold_segs _ (Or.inr rfl) _ hnp fun _ => hen (a2 hne)
  rw [hfold, hin]
  push Not
  constructor
  · intro h l s l' he hw
    have := h l s l' he hw
    omega
  · intro h l s l' he hw
    have := h l s l' he hw
    omega

/-! ## C155 -/

/-- **C155.** In exact arithmetic, for segments that are not points, meet in their ends if they are parallel, and of which at most two
pass through any point, with points and crossings clear up to the tolerance: requesting the ends first, then the segments in an order
where no segment passes an end of an earlier one, then any other points, gives a planar drawing, the arrangement of the segments. -/
theorem C155_draw [Inhabited T] (t : T) (S : List (Stroke U)) (B : List (ℝ × ℝ)) (hA : Spread (endsOf S ++ B) S)
    (hd : ∀ s ∈ S, s.a ≠ s.b) (hov : NoOverlap S) (hord : S.Pairwise fun s s' => ¬ s'.Within s.a ∧ ¬ s'.Within s.b)
    (htwo : ∀ y, passing S y ≤ 2) :
    ∃ g ids, client PlanarGraph.new [] (drawReqs t S B) = .ok (g, ids) ∧ Planar g (place g) ∧
      (∀ y, (∃ i, i < g.nodes.length ∧ y = place g i) ↔ Spot (endsOf S ++ B) S y) ∧
      ∀ x y c, (∃ e ∈ g.edges, e.data = c ∧ ((place g e.src = x ∧ place g e.dst = y) ∨ (place g e.src = y ∧ place g e.dst = x))) ↔
        ∃ s ∈ S, s.c = c ∧ Neighbours (endsOf S ++ B) S s x y := by
  have h := C152_arrangement (drawReqs t S B) (draw_known t S B) (by rw [draw_points, draw_strokes]; exact hA)
    (by rw [draw_strokes]; exact hd) (by rw [draw_strokes]; exact hov) (draw_fine t S B hord htwo)
  rw [draw_points, draw_strokes] at h
  obtain ⟨g, ids, h1, h2, h3, h4, _⟩ := h
  exact ⟨g, ids, h1, h2, h3, h4⟩

/-- **C155, all orders.** When the ends are requested first, then the segments in any order, then other points, the drawing is planar
exactly when every segment is, at every point it passes, one of the first two segments through the point. -/
theorem C155_exact [Inhabited T] (t : T) (S : List (Stroke U)) (B : List (ℝ × ℝ)) (hA : Spread (endsOf S ++ B) S)
    (hd : ∀ s ∈ S, s.a ≠ s.b) (hov : NoOverlap S) :
    ∃ g ids, client PlanarGraph.new [] (drawReqs t S B) = .ok (g, ids) ∧
      (Planar g (place g) ↔ ∀ y l s l', S = l ++ s :: l' → s.Within y → through l y ≤ 1) := by
  obtain ⟨g, ids, h1, h2, _⟩ := C151_planar (drawReqs t S B) (draw_known t S B) (by rw [draw_points, draw_strokes]; exact hA)
    (by rw [draw_strokes]; exact hd) (by rw [draw_strokes]; exact hov)
  exact ⟨g, ids, h1, h2.trans (forall_congr' fun y => draw_fine_iff t S B y)⟩

/-- a segment from (0, 0) to (2, 0) and two that end on it in (1, 0) -/
def teeStrokes : List (Stroke ℕ) := [⟨(0, 0), (2, 0), 10⟩, ⟨(1, 0), (1, 1), 20⟩, ⟨(1, 0), (1, -1), 30⟩]

theorem tee_spots (y : ℝ × ℝ) (hy : Spot (endsOf teeStrokes ++ []) teeStrokes y) :
    y ∈ ([(0, 0), (2, 0), (1, 0), (1, 1), (1, -1)] : List (ℝ × ℝ)) := by
  rcases hy with hy | ⟨s, hs, s', hs', hne, ⟨t, _, _, rfl⟩, ⟨u, _, _, hu⟩⟩
  · simp only [teeStrokes, endsOf, List.append_nil, List.mem_cons, List.not_mem_nil, or_false] at hy ⊢
    tauto
  · have key : (s.a.1 + t * (s.b.1 - s.a.1), s.a.2 + t * (s.b.2 - s.a.2)) = ((1, 0) : ℝ × ℝ) := by
      have g1 := congrArg Prod.fst hu
      have g2 := congrArg Prod.snd hu
      simp only [teeStrokes, List.mem_cons, List.not_mem_nil, or_false] at hs hs'
      rcases hs with rfl | rfl | rfl <;> rcases hs' with rfl | rfl | rfl <;>
        first
        | (exfalso; apply hne; norm_num [crs]; done)
        | (norm_num at g1 g2 ⊢; linarith)
    rw [key]
    simp

theorem tee_spread : Spread (endsOf teeStrokes ++ []) teeStrokes := by
  have heps : XReal.epsR ≤ 1 / 10 := by unfold XReal.epsR; norm_num
  have hs4 : Real.sqrt 4 = 2 := by rw [show (4 : ℝ) = 2 ^ 2 by norm_num, Real.sqrt_sq (by norm_num)]
  have hs2 : 1.41 ≤ Real.sqrt 2 := Real.le_sqrt_of_sq_le (by norm_num)
  have hs5 : 2.2 ≤ Real.sqrt 5 := Real.le_sqrt_of_sq_le (by norm_num)
  constructor
  · intro x y hx hy hne
    have h1 := tee_spots x hx
    have h2 := tee_spots y hy
    simp only [List.mem_cons, List.not_mem_nil, or_false] at h1 h2
    rcases h1 with rfl | rfl | rfl | rfl | rfl <;> rcases h2 with rfl | rfl | rfl | rfl | rfl <;>
      first
      | exact absurd rfl hne
      | (norm_num [dst, hs4]; linarith)
  · intro x hx s hs hno
    have h1 := tee_spots x hx
    simp only [teeStrokes, List.mem_cons, List.not_mem_nil, or_false] at h1 hs
    rcases hs with rfl | rfl | rfl <;> rcases h1 with rfl | rfl | rfl | rfl | rfl <;>
      first
      | exact absurd (onSeg_left _ _) hno
      | exact absurd (onSeg_right _ _) hno
      | (exfalso; apply hno; refine ⟨1 / 2, ?_, ?_, ?_⟩ <;> norm_num; done)
      | (norm_num [dst, hs4]; norm_num at hs2 hs5; linarith)

theorem tee_overlap : NoOverlap teeStrokes := by
  simp only [NoOverlap, teeStrokes, List.pairwise_cons, List.mem_cons, List.not_mem_nil, or_false, forall_eq_or_imp, forall_eq,
    List.Pairwise.nil, and_true, false_imp_iff, implies_true]
  refine ⟨⟨by norm_num [crs], by norm_num [crs]⟩, ?_⟩
  rintro - y ⟨t, t0, t1, rfl⟩ ⟨u, u0, u1, hu⟩
  have g2 := congrArg Prod.snd hu
  norm_num at g2
  have : t = 0 := by linarith
  subst this
  left; ext <;> simp

theorem tee_up : ∀ y, (⟨(1, 0), (1, 1), 20⟩ : Stroke ℕ).Within y → y.1 = 1 ∧ 0 < y.2 := by
  rintro y ⟨⟨t, t0, _, rfl⟩, n1, _⟩
  refine ⟨by simp, ?_⟩
  rcases lt_or_eq_of_le t0 with h | rfl
  · simpa using h
  · exact absurd (by simp) n1

theorem tee_down : ∀ y, (⟨(1, 0), (1, -1), 30⟩ : Stroke ℕ).Within y → y.1 = 1 ∧ y.2 < 0 := by
  rintro y ⟨⟨t, t0, _, rfl⟩, n1, _⟩
  refine ⟨by simp, ?_⟩
  rcases lt_or_eq_of_le t0 with h | rfl
  · simpa using h
  · exact absurd (by simp) n1

theorem tee_two : ∀ y, passing teeStrokes y ≤ 2 := by
  intro y
  unfold passing teeStrokes
  by_cases h2 : (⟨(1, 0), (1, 1), 20⟩ : Stroke ℕ).Within y
  · have h3 : ¬ (⟨(1, 0), (1, -1), 30⟩ : Stroke ℕ).Within y := fun h => by
      have := (tee_up y h2).2; have := (tee_down y h).2; linarith
    by_cases h1 : (⟨(0, 0), (2, 0), 10⟩ : Stroke ℕ).Within y <;> simp [h1, h2, h3]
  · by_cases h1 : (⟨(0, 0), (2, 0), 10⟩ : Stroke ℕ).Within y <;> by_cases h3 : (⟨(1, 0), (1, -1), 30⟩ : Stroke ℕ).Within y <;>
      simp [h1, h2, h3]

/-- the long segment first: a planar drawing -/
theorem tee_planar : ∃ g ids, client PlanarGraph.new [] (drawReqs () teeStrokes []) = .ok (g, ids) ∧ Planar g (place g) := by
  have hord : teeStrokes.Pairwise fun s s' => ¬ s'.Within s.a ∧ ¬ s'.Within s.b := by
    simp only [teeStrokes, List.pairwise_cons, List.mem_cons, List.not_mem_nil, or_false, forall_eq_or_imp, forall_eq,
      List.Pairwise.nil, and_true, false_imp_iff, implies_true]
    refine ⟨⟨⟨fun h => ?_, fun h => ?_⟩, ⟨fun h => ?_, fun h => ?_⟩⟩, ⟨fun h => ?_, fun h => ?_⟩⟩
    · have := tee_up _ h; norm_num at this
    · have := tee_up _ h; norm_num at this
    · have := tee_down _ h; norm_num at this
    · have := tee_down _ h; norm_num at this
    · have := tee_down _ h; norm_num at this
    · have := tee_down _ h; norm_num at this
  obtain ⟨g, ids, h, hp, _⟩ := C155_draw () teeStrokes [] tee_spread (by simp [teeStrokes]) tee_overlap hord tee_two
  exact ⟨g, ids, h, hp⟩

end

/-- **C155, the order matters** (f32).  A segment from (0, 0) to (2, 0) and two segments that end on it in (1, 0), from above and from
below: requested first, the long segment is divided; requested last, it is not. -/
theorem C155_sharp :
    (PlanarGraph.run .debug (PlanarGraph.new : PlanarGraph F32 Unit ℕ)
      [.addNode ⟨F32.lit 0, F32.lit 0⟩ (), .addNode ⟨F32.lit 2, F32.lit 0⟩ (), .addNode ⟨F32.lit 1, F32.lit 0⟩ (),
        .addNode ⟨F32.lit 1, F32.lit 1⟩ (), .addNode ⟨F32.lit 1, F32.lit (-1)⟩ (), .addEdge 0 1 10, .addEdge 2 3 20,
        .addEdge 2 4 30]).map (fun g => g.edges.length) = .ok 4 ∧
    (PlanarGraph.run .debug (PlanarGraph.new : PlanarGraph F32 Unit ℕ)
      [.addNode ⟨F32.lit 0, F32.lit 0⟩ (), .addNode ⟨F32.lit 2, F32.lit 0⟩ (), .addNode ⟨F32.lit 1, F32.lit 0⟩ (),
        .addNode ⟨F32.lit 1, F32.lit 1⟩ (), .addNode ⟨F32.lit 1, F32.lit (-1)⟩ (), .addEdge 2 3 20, .addEdge 2 4 30,
        .addEdge 0 1 10]).map (fun g => g.edges.length) = .ok 3 := by
  decide +kernel

end Kami.Graph
