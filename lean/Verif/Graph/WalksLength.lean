import Verif.Graph.Walks
/-!
# How long the walks of C110 are

If a point passes the on-segment test only when the detour through it is at most a factor `1 + σ` and an amount `κ` longer than
the segment, then a walk of `m + 1` edges is at most `(1 + σ)^m (L + m κ)` long, where `L` is the distance of its ends.
A walk that short stays close to the straight segment, and every point of the segment is close to the walk.
-/

set_option autoImplicit false

namespace Kami.Graph

open Kami Kami.UtilThm
open scoped Kami
open PlanarGraph

variable {F T U : Type}

/-- true position of node `i`, given the true position of a point -/
def locN (pos : Vec2 F → ℝ × ℝ) (n : List (Node F T)) (i : Nat) : ℝ × ℝ :=
  match n[i]? with
  | some a => pos a.position
  | none => (0, 0)

/-- length of the drawing of some edges -/
noncomputable def drawn (at' : Nat → ℝ × ℝ) (w : List (Edge U)) : ℝ := (w.map fun e => dst (at' e.src) (at' e.dst)).sum

/-- bound for the length of a walk split `m` times between points at distance `L` -/
noncomputable def lenBound (σ κ L : ℝ) (m : ℕ) : ℝ := (1 + σ) ^ m * (L + m * κ)

theorem lenBound_mono {σ κ L : ℝ} (hσ : 0 ≤ σ) (hκ : 0 ≤ κ) (hL : 0 ≤ L) {m n : ℕ} (h : m ≤ n) :
    lenBound σ κ L m ≤ lenBound σ κ L n := by
  unfold lenBound
  have h1 : (1 + σ) ^ m ≤ (1 + σ) ^ n := pow_le_pow_right₀ (by linarith) h
  have h2 : (m : ℝ) * κ ≤ n * κ := mul_le_mul_of_nonneg_right (by exact_mod_cast h) hκ
  have h3 : 0 ≤ (m : ℝ) * κ := by positivity
  exact mul_le_mul h1 (by linarith) (by linarith) (by positivity)

theorem le_lenBound {σ κ L : ℝ} (hσ : 0 ≤ σ) (hκ : 0 ≤ κ) (hL : 0 ≤ L) (m : ℕ) : L ≤ lenBound σ κ L m := by
  have := lenBound_mono hσ hκ hL (Nat.zero_le m)
  simpa [lenBound] using this

theorem lenBound_step {σ κ L x : ℝ} (hσ : 0 ≤ σ) (hκ : 0 ≤ κ) (hL : 0 ≤ L) {m k : ℕ} (hk : k ≠ 0)
    (hx : x ≤ lenBound σ κ L m) : (1 + σ) * x + k * κ ≤ lenBound σ κ L (m + k) := by
  unfold lenBound at *
  have hP : 1 ≤ (1 + σ) ^ m := one_le_pow₀ (by linarith)
  have hK : 1 + σ ≤ (1 + σ) ^ k := by
    calc 1 + σ = (1 + σ) ^ 1 := (pow_one _).symm
      _ ≤ (1 + σ) ^ k := pow_le_pow_right₀ (by linarith) (Nat.one_le_iff_ne_zero.2 hk)
  have hY : 0 ≤ L + m * κ := by positivity
  have hkk : 0 ≤ (k : ℝ) * κ := by positivity
  have e : (1 + σ) ^ (m + k) * (L + ((m + k : ℕ) : ℝ) * κ) =
      (1 + σ) ^ k * ((1 + σ) ^ m * (L + m * κ)) + (1 + σ) ^ (m + k) * (k * κ) := by
    rw [pow_add]; push_cast; ring
  rw [e]
  have h1 : (1 + σ) * x ≤ (1 + σ) ^ k * ((1 + σ) ^ m * (L + m * κ)) := by
    refine (mul_le_mul_of_nonneg_left hx (by linarith)).trans ?_
    exact mul_le_mul_of_nonneg_right hK (by positivity)
  have h2 : (1 : ℝ) * (k * κ) ≤ (1 + σ) ^ (m + k) * (k * κ) :=
    mul_le_mul_of_nonneg_right (one_le_pow₀ (by linarith)) hkk
  linarith

theorem drawn_nonneg (f : Nat → ℝ × ℝ) (w : List (Edge U)) : 0 ≤ drawn f w := by
  unfold drawn
  apply List.sum_nonneg
  intro x hx
  obtain ⟨e, _, rfl⟩ := List.mem_map.1 hx
  exact dst_nonneg _ _

theorem drawn_cons (f : Nat → ℝ × ℝ) (e : Edge U) (w : List (Edge U)) :
    drawn f (e :: w) = dst (f e.src) (f e.dst) + drawn f w := by
  simp [drawn]

theorem drawn_append (f : Nat → ℝ × ℝ) (v w : List (Edge U)) : drawn f (v ++ w) = drawn f v + drawn f w := by
  simp [drawn]

theorem drawn_perm (f : Nat → ℝ × ℝ) {v w : List (Edge U)} (h : v.Perm w) : drawn f v = drawn f w :=
  (h.map _).sum_eq

theorem locN_append {pos : Vec2 F → ℝ × ℝ} (n l : List (Node F T)) {i : Nat} (h : i < n.length) :
    locN pos (n ++ l) i = locN pos n i := by
  unfold locN
  rw [List.getElem?_append_left h]

theorem drawn_congr {f f' : Nat → ℝ × ℝ} {w : List (Edge U)}
    (h : ∀ e ∈ w, f e.src = f' e.src ∧ f e.dst = f' e.dst) : drawn f w = drawn f' w := by
  unfold drawn
  congr 1
  apply List.map_congr_left
  intro e he
  rw [(h e he).1, (h e he).2]

section
variable [Scalar F]

/-- splitting the edges of a walk at one node -/
theorem drawn_pieces {pos : Vec2 F → ℝ × ℝ} {good : Vec2 F → Prop} {σ κ : ℝ}
    (htest : ∀ a b p, good a → good b → good p → Utils.isOnLineSegment a b p false = true →
      dst (pos a) (pos p) + dst (pos p) (pos b) ≤ (1 + σ) * dst (pos a) (pos b) + κ)
    (n : List (Node F T)) (hn : ∀ a ∈ n, good a.position) (id : Nat) (w : List (Edge U)) :
    ∃ (k : ℕ) (S : ℝ), (w.flatMap (pieces n id)).length = w.length + k ∧ 0 ≤ S ∧ S ≤ drawn (locN pos n) w ∧ (k = 0 → S = 0) ∧
      drawn (locN pos n) (w.flatMap (pieces n id)) ≤ drawn (locN pos n) w + σ * S + k * κ := by
  induction w with
  | nil => exact ⟨0, 0, by simp, le_refl _, by simp [drawn], fun _ => rfl, by simp [drawn]⟩
  | cons e w ih =>
    obtain ⟨k, S, h1, h2, h3, h4, h5⟩ := ih
    rw [List.flatMap_cons, drawn_append, drawn_cons]
    have hl := dst_nonneg (locN pos n e.src) (locN pos n e.dst)
    by_cases hc : onTest n id e = true
    · refine ⟨k + 1, dst (locN pos n e.src) (locN pos n e.dst) + S, ?_, by linarith, by linarith, by omega, ?_⟩
      · rw [List.length_append, h1]
        simp only [pieces, if_pos hc, List.length_cons, List.length_nil]
        omega
      · have hp : dst (locN pos n e.src) (locN pos n id) + dst (locN pos n id) (locN pos n e.dst) ≤
            (1 + σ) * dst (locN pos n e.src) (locN pos n e.dst) + κ := by
          unfold onTest at hc
          split at hc
          · rename_i a b q ha hb hq
            simp only [locN, ha, hb, hq]
            exact htest _ _ _ (hn _ (List.mem_of_getElem? ha)) (hn _ (List.mem_of_getElem? hb))
              (hn _ (List.mem_of_getElem? hq)) hc
          · cases hc
        have hpp : drawn (locN pos n) (pieces n id e) =
            dst (locN pos n e.src) (locN pos n id) + dst (locN pos n id) (locN pos n e.dst) := by
          simp only [pieces, if_pos hc, drawn, List.map_cons, List.map_nil, List.sum_cons, List.sum_nil, nearHalf, farHalf]
          rw [dst_comm (locN pos n e.dst)]
          ring
        rw [hpp]
        push_cast
        linarith
    · refine ⟨k, S, ?_, h2, by linarith, h4, ?_⟩
      · rw [List.length_append, h1]
        simp only [pieces, if_neg hc, List.length_cons, List.length_nil]
        omega
      · have hpp : drawn (locN pos n) (pieces n id e) = dst (locN pos n e.src) (locN pos n e.dst) := by
          simp [pieces, if_neg hc, drawn]
        rw [hpp]
        linarith

/-- what is kept about a request and its walk -/
def ShortWalk (pos : Vec2 F → ℝ × ℝ) (σ κ : ℝ) (n : List (Node F T)) (r : Nat × Nat × U) (w : List (Edge U)) : Prop :=
  (r.1 < n.length ∧ r.2.1 < n.length ∧ ∀ e ∈ w, e.src < n.length ∧ e.dst < n.length) ∧
  (w ≠ [] ∧ ∀ e ∈ w, e.data = r.2.2) ∧
  drawn (locN pos n) w ≤ lenBound σ κ (dst (locN pos n r.1) (locN pos n r.2.1)) (w.length - 1)

theorem keeps_short {pos : Vec2 F → ℝ × ℝ} {good : Vec2 F → Prop} {σ κ : ℝ} (hσ : 0 ≤ σ) (hκ : 0 ≤ κ)
    (htest : ∀ a b p, good a → good b → good p → Utils.isOnLineSegment a b p false = true →
      dst (pos a) (pos p) + dst (pos p) (pos b) ≤ (1 + σ) * dst (pos a) (pos b) + κ) :
    Keeps (fun n : List (Node F T) => ∀ a ∈ n, good a.position) (ShortWalk (U := U) pos σ κ) := by
  refine ⟨fun n l h a ha => h a (List.mem_append_left _ ha), ?_, ?_, ?_, ?_⟩
  · rintro n r w w' hp ⟨⟨h1, h2, h3⟩, ⟨h4, h5⟩, h6⟩
    refine ⟨⟨h1, h2, fun e he => h3 e (hp.mem_iff.1 he)⟩, ⟨?_, fun e he => h5 e (hp.mem_iff.1 he)⟩, ?_⟩
    · intro hw
      subst hw
      exact h4 hp.symm.eq_nil
    · rw [drawn_perm _ hp, hp.length_eq]
      exact h6
  · rintro n r w id hn ⟨⟨h1, h2, h3⟩, ⟨h4, h5⟩, h6⟩
    have hpos := List.length_pos_iff.2 h4
    obtain ⟨k, S, k1, k2, k3, k4, k5⟩ := drawn_pieces htest n hn id w
    refine ⟨⟨h1, h2, ?_⟩, ⟨?_, ?_⟩, ?_⟩
    · intro e he
      obtain ⟨f, hf, hef⟩ := List.mem_flatMap.1 he
      unfold pieces at hef
      split at hef
      · rename_i hc
        have := onTest_id hc
        simp only [List.mem_cons, List.not_mem_nil, or_false] at hef
        rcases hef with rfl | rfl
        · exact ⟨this.1, this.2.2⟩
        · exact ⟨this.2.1, this.2.2⟩
      · simp only [List.mem_cons, List.not_mem_nil, or_false] at hef
        subst hef
        exact h3 _ hf
    · intro hw
      rw [hw] at k1
      simp only [List.length_nil] at k1
      omega
    · intro e he
      obtain ⟨f, hf, hef⟩ := List.mem_flatMap.1 he
      rw [← h5 f hf]
      unfold pieces at hef
      split at hef
      · simp only [List.mem_cons, List.not_mem_nil, or_false] at hef
        rcases hef with rfl | rfl <;> rfl
      · simp only [List.mem_cons, List.not_mem_nil, or_false] at hef
        rw [hef]
    · rw [k1]
      by_cases hk : k = 0
      · have hS := k4 hk
        rw [hk] at k5 ⊢
        rw [hS] at k5
        refine le_trans k5 ?_
        simpa using h6
      · have e : w.length + k - 1 = w.length - 1 + k := by omega
        rw [e]
        refine le_trans k5 (le_trans ?_ (lenBound_step hσ hκ (dst_nonneg _ _) hk h6))
        have := mul_le_mul_of_nonneg_left k3 hσ
        linarith
  · rintro n l r w _ ⟨⟨h1, h2, h3⟩, h4, h6⟩
    refine ⟨⟨?_, ?_, fun e he => ?_⟩, h4, ?_⟩
    · rw [List.length_append]; omega
    · rw [List.length_append]; omega
    · have := h3 e he
      rw [List.length_append]; omega
    · rw [locN_append n l h1, locN_append n l h2, drawn_congr (f' := locN pos n)
        (fun e he => ⟨locN_append n l (h3 e he).1, locN_append n l (h3 e he).2⟩)]
      exact h6
  · intro n s d x _ hs hd
    refine ⟨⟨hs, hd, ?_⟩, ⟨by simp, by simp⟩, ?_⟩
    · intro e he
      rw [List.mem_singleton] at he
      subst he
      exact ⟨hs, hd⟩
    · simp [drawn, lenBound]

end

/-! ### short walks are close to the segment -/

theorem walk_length (f : Nat → ℝ × ℝ) (w : List (Edge U)) : ∀ u v, Walk u v w → dst (f u) (f v) ≤ drawn f w := by
  induction w with
  | nil =>
    intro u v h
    have h : u = v := h
    subst h
    rw [dst_eq_zero.2 rfl]
    exact drawn_nonneg _ _
  | cons e w ih =>
    intro u v h
    rw [drawn_cons]
    rcases h with ⟨rfl, h⟩ | ⟨rfl, h⟩
    · have := ih _ _ h
      have := dst_triangle (f e.src) (f e.dst) (f v)
      linarith
    · have := ih _ _ h
      have := dst_triangle (f e.dst) (f e.src) (f v)
      rw [dst_comm (f e.dst) (f e.src)] at this
      linarith

/-- between the ends: the detour through a point of a segment is the segment -/
theorem dst_between {a b z : ℝ × ℝ} (h : OnSegR a b z) : dst a z + dst z b = dst a b := by
  refine le_antisymm ?_ (dst_triangle a z b)
  rw [dst_add_le_iff]
  obtain ⟨t, t0, t1, rfl⟩ := h
  unfold crs dt
  simp only
  refine ⟨by ring, ?_⟩
  have : 0 ≤ t * (1 - t) := mul_nonneg t0 (by linarith)
  nlinarith [mul_nonneg this (sq_nonneg (b.1 - a.1)), mul_nonneg this (sq_nonneg (b.2 - a.2))]

theorem walk_through (f : Nat → ℝ × ℝ) (w : List (Edge U)) : ∀ u v, Walk u v w → ∀ e ∈ w, ∀ z, OnSegR (f e.src) (f e.dst) z →
    dst (f u) z + dst z (f v) ≤ drawn f w := by
  induction w with
  | nil => intro u v _ e he; cases he
  | cons e w ih =>
    intro u v h e' he' z hz
    rw [drawn_cons]
    rcases List.mem_cons.1 he' with rfl | hw
    · have hb := dst_between hz
      rcases h with ⟨rfl, h⟩ | ⟨rfl, h⟩
      · have := walk_length f w _ _ h
        have := dst_triangle z (f e'.dst) (f v)
        linarith
      · have := walk_length f w _ _ h
        have := dst_triangle z (f e'.src) (f v)
        rw [dst_comm (f e'.dst) z, dst_comm z (f e'.src)] at *
        linarith
    · rcases h with ⟨rfl, h⟩ | ⟨rfl, h⟩
      · have := ih _ _ h e' hw z hz
        have := dst_triangle (f e.src) (f e.dst) z
        linarith
      · have := ih _ _ h e' hw z hz
        have := dst_triangle (f e.dst) (f e.src) z
        rw [dst_comm (f e.dst) (f e.src)] at this
        linarith

/-- height over the segment of a point at foot `t` -/
theorem height_le {a b z : ℝ × ℝ} {S t : ℝ} (h : dst a z + dst z b ≤ S)
    (ht : (z.1 - a.1) * (b.1 - a.1) + (z.2 - a.2) * (b.2 - a.2) = t * dst a b ^ 2) :
    4 * dst z (a.1 + t * (b.1 - a.1), a.2 + t * (b.2 - a.2)) ^ 2 + dst a b ^ 2 ≤ S ^ 2 := by
  have n1 := dst_nonneg a z
  have n2 := dst_nonneg z b
  have s1 := dst_sq a z
  have s2 := dst_sq z b
  have s3 := dst_sq a b
  have s4 := dst_sq z (a.1 + t * (b.1 - a.1), a.2 + t * (b.2 - a.2))
  simp only at s4
  set H := dst z (a.1 + t * (b.1 - a.1), a.2 + t * (b.2 - a.2)) ^ 2 with hH
  have hH0 : 0 ≤ H := sq_nonneg _
  set L := dst a b with hL
  set p := dst a z
  set q := dst z b
  have e1 : p ^ 2 = H + (t * L) ^ 2 := by
    rw [s1, s4, mul_pow]
    have : t ^ 2 * L ^ 2 = t * (t * L ^ 2) := by ring
    rw [this, ← ht]
    have h2 : t * ((z.1 - a.1) * (b.1 - a.1) + (z.2 - a.2) * (b.2 - a.2)) = t * (t * ((b.1 - a.1) ^ 2 + (b.2 - a.2) ^ 2)) := by
      rw [ht, s3]
    nlinarith [h2]
  have e2 : q ^ 2 = H + ((1 - t) * L) ^ 2 := by
    have : q ^ 2 = p ^ 2 - 2 * ((z.1 - a.1) * (b.1 - a.1) + (z.2 - a.2) * (b.2 - a.2)) + L ^ 2 := by
      rw [s1, s2, s3]; ring
    rw [this, ht, e1]; ring
  have hc : H + t * L * ((1 - t) * L) ≤ p * q := by
    refine abs_le_of_sq_le_sq' ?_ (mul_nonneg n1 n2) |>.2
    rw [mul_pow, e1, e2]
    nlinarith [mul_nonneg hH0 (sq_nonneg (t * L - (1 - t) * L))]
  have : (p + q) ^ 2 ≤ S ^ 2 := pow_le_pow_left₀ (by linarith) h 2
  nlinarith

/-- a point with a short detour is close to the segment -/
theorem near_segment {a b z : ℝ × ℝ} {S : ℝ} (h : dst a z + dst z b ≤ S) :
    ∃ y, OnSegR a b y ∧ dst z y ^ 2 + dst a b ^ 2 ≤ S ^ 2 := by
  have n1 := dst_nonneg a z
  have n2 := dst_nonneg z b
  have s1 := dst_sq a z
  have s2 := dst_sq z b
  have s3 := dst_sq a b
  set φ := (z.1 - a.1) * (b.1 - a.1) + (z.2 - a.2) * (b.2 - a.2) with hφ
  have eq : dst z b ^ 2 = dst a z ^ 2 - 2 * φ + dst a b ^ 2 := by rw [s1, s2, s3, hφ]; ring
  have hS : ∀ x, 0 ≤ x → x ≤ S → x ^ 2 ≤ S ^ 2 := fun x h0 h1 => pow_le_pow_left₀ h0 h1 2
  rcases le_or_gt φ 0 with h0 | h0
  · refine ⟨a, ⟨0, le_refl _, by norm_num, by simp⟩, ?_⟩
    rw [dst_comm z a]
    have := hS (dst z b) n2 (by linarith)
    linarith
  · rcases le_or_gt (dst a b ^ 2) φ with h1 | h1
    · refine ⟨b, ⟨1, by norm_num, le_refl _, by simp⟩, ?_⟩
      have := hS (dst a z) n1 (by linarith)
      linarith
    · have hL : 0 < dst a b ^ 2 := by linarith
      refine ⟨_, ⟨φ / dst a b ^ 2, by positivity, (div_le_one hL).2 h1.le, rfl⟩, ?_⟩
      have := height_le (t := φ / dst a b ^ 2) h (by rw [div_mul_cancel₀ _ hL.ne'])
      have := sq_nonneg (dst z (a.1 + φ / dst a b ^ 2 * (b.1 - a.1), a.2 + φ / dst a b ^ 2 * (b.2 - a.2)))
      linarith

/-- a walk meets every line separating its ends -/
theorem walk_crosses (f : Nat → ℝ × ℝ) (α β : ℝ) (w : List (Edge U)) : ∀ u v c, w ≠ [] → Walk u v w →
    α * (f u).1 + β * (f u).2 ≤ c → c ≤ α * (f v).1 + β * (f v).2 →
    ∃ e ∈ w, ∃ z, OnSegR (f e.src) (f e.dst) z ∧ α * z.1 + β * z.2 = c := by
  -- an edge whose ends are on different sides
  have base : ∀ p q : ℝ × ℝ, ∀ c, α * p.1 + β * p.2 ≤ c → c ≤ α * q.1 + β * q.2 → ∃ z, OnSegR p q z ∧ α * z.1 + β * z.2 = c := by
    intro p q c h1 h2
    rcases eq_or_lt_of_le (h1.trans h2) with h | h
    · exact ⟨p, ⟨0, le_refl _, by norm_num, by simp⟩, by linarith⟩
    · set x := α * p.1 + β * p.2
      set y := α * q.1 + β * q.2
      have hxy : 0 < y - x := by linarith
      refine ⟨_, ⟨(c - x) / (y - x), div_nonneg (by linarith) hxy.le, (div_le_one hxy).2 (by linarith), rfl⟩, ?_⟩
      simp only
      have : α * (p.1 + (c - x) / (y - x) * (q.1 - p.1)) + β * (p.2 + (c - x) / (y - x) * (q.2 - p.2)) =
          x + (c - x) / (y - x) * (y - x) := by ring
      rw [this, div_mul_cancel₀ _ hxy.ne']
      ring
  induction w with
  | nil => intro u v c h; exact absurd rfl h
  | cons e w ih =>
    intro u v c _ h h1 h2
    have step : ∀ u', Walk u' v w → (c ≤ α * (f u').1 + β * (f u').2 → ∃ z, OnSegR (f e.src) (f e.dst) z ∧ α * z.1 + β * z.2 = c) →
        ∃ e' ∈ e :: w, ∃ z, OnSegR (f e'.src) (f e'.dst) z ∧ α * z.1 + β * z.2 = c := by
      intro u' hw hz
      by_cases hc : c ≤ α * (f u').1 + β * (f u').2
      · exact ⟨e, List.mem_cons_self .., hz hc⟩
      · by_cases hn : w = []
        · subst hn
          have hw : u' = v := hw
          subst hw
          exact absurd h2 hc
        · obtain ⟨e', he', z, hz⟩ := ih u' v c hn hw (by linarith) h2
          exact ⟨e', List.mem_cons_of_mem _ he', z, hz⟩
    rcases h with ⟨rfl, h⟩ | ⟨rfl, h⟩
    · exact step _ h (base _ _ c h1)
    · refine step _ h (fun hc => ?_)
      obtain ⟨z, ⟨t, t0, t1, hz⟩, hz'⟩ := base _ _ c h1 hc
      refine ⟨z, ⟨1 - t, by linarith, by linarith, ?_⟩, hz'⟩
      rw [hz]
      ext <;> simp <;> ring

/-- every point of the segment is close to the walk -/
theorem near_walk (f : Nat → ℝ × ℝ) {w : List (Edge U)} {u v : Nat} (hw : Walk u v w) (hne : w ≠ []) {y : ℝ × ℝ}
    (hy : OnSegR (f u) (f v) y) : ∃ e ∈ w, ∃ z, OnSegR (f e.src) (f e.dst) z ∧
      4 * dst z y ^ 2 + dst (f u) (f v) ^ 2 ≤ drawn f w ^ 2 := by
  obtain ⟨t, t0, t1, rfl⟩ := hy
  set a := f u with ha
  set b := f v with hb
  have s3 := dst_sq a b
  have hL : 0 ≤ dst a b ^ 2 := sq_nonneg _
  obtain ⟨e, he, z, hz, hc⟩ := walk_crosses f (b.1 - a.1) (b.2 - a.2) w u v
    ((b.1 - a.1) * a.1 + (b.2 - a.2) * a.2 + t * dst a b ^ 2) hne hw
    (by rw [← ha]; have := mul_nonneg t0 hL; linarith)
    (by
      rw [← hb]
      have := mul_le_mul_of_nonneg_right t1 hL
      rw [one_mul] at this
      have e : (b.1 - a.1) * b.1 + (b.2 - a.2) * b.2 = (b.1 - a.1) * a.1 + (b.2 - a.2) * a.2 + dst a b ^ 2 := by
        rw [s3]; ring
      linarith)
  exact ⟨e, he, z, hz, height_le (walk_through f w u v hw e he z hz) (by linarith)⟩

end Kami.Graph
