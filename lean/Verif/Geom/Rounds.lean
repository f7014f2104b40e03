import Verif.Geom.TriArea
/-!
# C105: how many rounds `triangulate` takes, in any arithmetic

Every round of the `while` loop removes one vertex or changes nothing.  Hence the loop ends after exactly `n - 3` rounds, or
gets stuck before in a state without a flagged ear and runs forever.  There is no third way.
-/

set_option autoImplicit false

namespace Kami.Tri

open Kami Polygon
open scoped Kami

variable {F : Type} [OrdScalar F]

/-- the state after (at most) `k` rounds of `while copy.vertices.len() > 3` (src/geometry/polygon.rs:283) -/
def rounds : Nat → TriState F → Res (TriState F)
  | 0, st => .ok st
  | k + 1, st => if st.copy.vertices.length > 3 then (whileBody st).bind (rounds k) else .ok st

/-- no ear is flagged -/
def NoEar (st : TriState F) : Prop := ∀ u, u < st.copy.vertices.length → st.isEar[u]? = some false

theorem rounds_stuck (st : TriState F) (hb : whileBody st = .ok st) : ∀ m, rounds m st = .ok st
  | 0 => rfl
  | m + 1 => by
    unfold rounds
    split
    · rw [hb]; exact rounds_stuck st hb m
    · rfl

/-- the two ways a run can go, from any state of the loop -/
theorem rounds_cases (n : Nat) : ∀ st : TriState F, Inv st → st.copy.vertices.length = n + 3 →
    (∃ fin, (∀ k, k ≤ n → ∃ s, rounds k st = .ok s ∧ s.copy.vertices.length = n + 3 - k ∧
        s.triangles.length = st.triangles.length + k) ∧ (∀ m, n ≤ m → rounds m st = .ok fin) ∧ WhileRuns st (.ok fin)) ∨
    (∃ k s, k < n ∧ (∀ j, j ≤ k → ∃ t, rounds j st = .ok t ∧ t.copy.vertices.length = n + 3 - j) ∧ NoEar s ∧
      (∀ m, k ≤ m → rounds m st = .ok s) ∧ ∀ out, ¬ WhileRuns st out) := by
  induction n with
  | zero =>
    intro st _ hl
    left
    have h3 : ¬ st.copy.vertices.length > 3 := by omega
    have hr : ∀ m, rounds m st = .ok st := by
      intro m
      cases m with
      | zero => rfl
      | succ m => unfold rounds; rw [if_neg h3]
    refine ⟨st, ?_, fun m _ => hr m, .done st h3⟩
    intro k hk
    exact ⟨st, hr k, by omega, by omega⟩
  | succ n ih =>
    intro st hinv hl
    have h4 : st.copy.vertices.length > 3 := by omega
    rcases whileBody_ok st hinv h4 with ⟨st', T, t, hb, hi, hlen, ht, _⟩ | ⟨hb, hno⟩
    · have hr : ∀ m, rounds (m + 1) st = rounds m st' := by
        intro m; rw [rounds, if_pos h4, hb]; rfl
      have htl : st'.triangles.length = st.triangles.length + 1 := by rw [ht]; simp
      rcases ih st' hi (by omega) with ⟨fin, q1, q2, q3⟩ | ⟨k, s, q1, q2, q3, q4, q5⟩
      · left
        refine ⟨fin, ?_, ?_, .next st st' _ h4 hb q3⟩
        · intro k hk
          cases k with
          | zero => exact ⟨st, rfl, by omega, by omega⟩
          | succ k =>
            obtain ⟨s, s1, s2, s3⟩ := q1 k (by omega)
            exact ⟨s, by rw [hr, s1], by omega, by omega⟩
        · intro m hm
          obtain ⟨m, rfl⟩ : ∃ m', m = m' + 1 := ⟨m - 1, by omega⟩
          rw [hr]; exact q2 m (by omega)
      · right
        refine ⟨k + 1, s, by omega, ?_, q3, ?_, ?_⟩
        · intro j hj
          cases j with
          | zero => exact ⟨st, rfl, by omega⟩
          | succ j =>
            obtain ⟨t, t1, t2⟩ := q2 j (by omega)
            exact ⟨t, by rw [hr, t1], by omega⟩
        · intro m hm
          obtain ⟨m, rfl⟩ : ∃ m', m = m' + 1 := ⟨m - 1, by omega⟩
          rw [hr]; exact q4 m (by omega)
        · intro out hw
          cases hw with
          | done _ h => omega
          | panic _ e _ hb' => rw [hb] at hb'; cases hb'
          | next _ st2 _ _ hb' hw' => rw [hb] at hb'; cases hb'; exact q5 _ hw'
    · right
      refine ⟨0, st, by omega, ?_, hno, fun m _ => rounds_stuck st hb m, whileRuns_stuck st h4 hb⟩
      intro j hj
      have : j = 0 := by omega
      subst this
      exact ⟨st, rfl, by omega⟩

/-- **C105.** In any arithmetic, for every polygon with `n` vertices, `n` at least 4, `triangulate` builds its initial state
without a panic, and then either
* runs exactly `n - 3` rounds, each of which cuts off one triangle, and returns `n - 2` triangles; or
* after fewer than `n - 3` rounds, each of which removed one vertex, reaches a state in which no ear is flagged; every further
  round leaves this state as it is, and the call never returns. -/
theorem C105_rounds (P : Polygon F) (h : 4 ≤ P.vertices.length) :
    ∃ st, triInit P = .ok st ∧
    ((∃ fin, (∀ k, k ≤ P.vertices.length - 3 → ∃ s, rounds k st = .ok s ∧ s.copy.vertices.length = P.vertices.length - k ∧
          s.triangles.length = k) ∧
        (∀ m, P.vertices.length - 3 ≤ m → rounds m st = .ok fin) ∧
        Triangulates P (.ok (fin.triangles ++ [fin.copy]))) ∨
      (∃ k s, k < P.vertices.length - 3 ∧
        (∀ j, j ≤ k → ∃ t, rounds j st = .ok t ∧ t.copy.vertices.length = P.vertices.length - j) ∧
        NoEar s ∧ (∀ m, k ≤ m → rounds m st = .ok s) ∧ ∀ out, ¬ Triangulates P out)) := by
  obtain ⟨st, hst, hinv, hc, htr⟩ := triInit_ok P (by omega)
  obtain ⟨n, hn⟩ : ∃ n, P.vertices.length = n + 3 := ⟨P.vertices.length - 3, by omega⟩
  have hn' : P.vertices.length - 3 = n := by omega
  refine ⟨st, hst, ?_⟩
  rw [hn']
  rcases rounds_cases n st hinv (by rw [hc, hn]) with ⟨fin, q1, q2, q3⟩ | ⟨k, s, q1, q2, q3, q4, q5⟩
  · left
    refine ⟨fin, ?_, q2, .ok st fin (by omega) hst q3⟩
    intro k hk
    obtain ⟨s, s1, s2, s3⟩ := q1 k hk
    exact ⟨s, s1, by omega, by rw [s3, htr]; simp⟩
  · right
    refine ⟨k, s, q1, ?_, q3, q4, ?_⟩
    · intro j hj
      obtain ⟨t, t1, t2⟩ := q2 j hj
      exact ⟨t, t1, by omega⟩
    · intro out ht
      cases ht with
      | triangle h' => omega
      | initPanic e _ hi => rw [hst] at hi; cases hi
      | loopPanic st e _ hi hr => rw [hst] at hi; cases hi; exact q5 _ hr
      | ok st fin _ hi hr => rw [hst] at hi; cases hi; exact q5 _ hr

/-- **C105, determinism.** A call has at most one outcome. -/
theorem C105_deterministic (P : Polygon F) (out out' : Res (List (Polygon F)))
    (h1 : Triangulates P out) (h2 : Triangulates P out') : out = out' := by
  have hw : ∀ {st : TriState F} {o o' : Res (TriState F)}, WhileRuns st o → WhileRuns st o' → o = o' := by
    intro st o o' w
    induction w with
    | done st h =>
      intro w'
      cases w' with
      | done => rfl
      | panic _ _ h' _ => exact absurd h' h
      | next _ _ _ h' _ _ => exact absurd h' h
    | panic st e h hb =>
      intro w'
      cases w' with
      | done _ h' => exact absurd h h'
      | panic _ _ _ hb' => rw [hb] at hb'; cases hb'; rfl
      | next _ _ _ _ hb' _ => rw [hb] at hb'; cases hb'
    | next st st' out h hb _ ih =>
      intro w'
      cases w' with
      | done _ h' => exact absurd h h'
      | panic _ _ _ hb' => rw [hb] at hb'; cases hb'
      | next _ _ _ _ hb' hr => rw [hb] at hb'; cases hb'; exact ih hr
  cases h1 with
  | triangle e1 =>
    cases h2 with
    | triangle => rfl
    | initPanic _ e2 => exact absurd e1 e2
    | loopPanic _ _ e2 => exact absurd e1 e2
    | ok _ _ e2 => exact absurd e1 e2
  | initPanic e e1 hi =>
    cases h2 with
    | triangle e2 => exact absurd e2 e1
    | initPanic _ _ hi' => rw [hi] at hi'; cases hi'; rfl
    | loopPanic _ _ _ hi' => rw [hi] at hi'; cases hi'
    | ok _ _ _ hi' => rw [hi] at hi'; cases hi'
  | loopPanic st e e1 hi hr =>
    cases h2 with
    | triangle e2 => exact absurd e2 e1
    | initPanic _ _ hi' => rw [hi] at hi'; cases hi'
    | loopPanic _ _ _ hi' hr' => rw [hi] at hi'; cases hi'; cases hw hr hr'; rfl
    | ok _ _ _ hi' hr' => rw [hi] at hi'; cases hi'; cases hw hr hr'
  | ok st fin e1 hi hr =>
    cases h2 with
    | triangle e2 => exact absurd e2 e1
    | initPanic _ _ hi' => rw [hi] at hi'; cases hi'
    | loopPanic _ _ _ hi' hr' => rw [hi] at hi'; cases hi'; cases hw hr hr'
    | ok _ _ _ hi' hr' => rw [hi] at hi'; cases hi'; cases hw hr hr'; rfl

/-- the first way: the concave pentagon of TriArea.lean goes through two rounds -/
example : ((triInit (Polygon.mk [(⟨0, 0⟩ : Vec2 ℚ), ⟨4, 0⟩, ⟨4, 4⟩, ⟨2, 1⟩, ⟨0, 4⟩])).bind (rounds 2)).map
    (fun s => (s.triangles.length, s.copy.vertices)) = .ok (2, [⟨0, 0⟩, ⟨2, 1⟩, ⟨0, 4⟩]) := by
  decide +kernel

/-- the second way: four points on a line are stuck at once, and stay so after a thousand rounds -/
example : ((triInit (Polygon.mk [(⟨0, 0⟩ : Vec2 ℚ), ⟨1, 0⟩, ⟨2, 0⟩, ⟨3, 0⟩])).bind (rounds 1000)).map
    (fun s => (s.triangles.length, s.isEar, s.copy.vertices.length)) = .ok (0, [false, false, false, false], 4) := by
  decide +kernel

end Kami.Tri
