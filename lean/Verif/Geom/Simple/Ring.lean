import Verif.Geom.Simple.Winding
import Mathlib.Data.List.Rotate
/-!
# Closed polylines

The edges of a closed polyline, simple polygons, and the number that tells counter-clockwise from clockwise ones.
-/

set_option autoImplicit false
set_option linter.dupNamespace false
set_option linter.unusedSectionVars false

namespace Kami.Simple

open Kami Kami.Pred

section Lists
variable {α : Type}

/-- the consecutive pairs of a list: the edges of an open polyline -/
def pairs : List α → List (α × α)
  | a :: b :: l => (a, b) :: pairs (b :: l)
  | _ => []

/-- the edges of a closed polyline -/
def ring : List α → List (α × α)
  | [] => []
  | a :: l => pairs (a :: l ++ [a])

theorem pairs_append (S : List α) (x : α) (T : List α) : pairs (S ++ x :: T) = pairs (S ++ [x]) ++ pairs (x :: T) := by
  induction S with
  | nil => simp [pairs]
  | cons a S ih =>
    cases S with
    | nil => simp [pairs]
    | cons b S => simpa [pairs] using ih

theorem pairs_cons {v n : α} {S : List α} (h : S.head? = some n) : pairs (v :: S) = (v, n) :: pairs S := by
  cases S with
  | nil => cases h
  | cons a S => simp only [List.head?_cons, Option.some.injEq] at h; subst h; rfl

theorem pairs_concat {v p : α} {S : List α} (h : S.getLast? = some p) : pairs (S ++ [v]) = pairs S ++ [(p, v)] := by
  obtain ⟨T, rfl⟩ := List.getLast?_eq_some_iff.1 h
  rw [List.append_assoc, List.singleton_append, pairs_append]
  rfl

theorem mem_pairs {S : List α} {e : α × α} (h : e ∈ pairs S) : e.1 ∈ S ∧ e.2 ∈ S := by
  induction S with
  | nil => cases h
  | cons a S ih =>
    cases S with
    | nil => cases h
    | cons b S =>
      simp only [pairs, List.mem_cons] at h
      rcases h with rfl | h
      · simp
      · obtain ⟨h1, h2⟩ := ih h
        exact ⟨List.mem_cons_of_mem _ h1, List.mem_cons_of_mem _ h2⟩

theorem mem_pairs_tail {a : α} {S : List α} {e : α × α} (h : e ∈ pairs (a :: S)) : e.2 ∈ S := by
  induction S generalizing a with
  | nil => cases h
  | cons b S ih =>
    simp only [pairs, List.mem_cons] at h
    rcases h with rfl | h
    · simp
    · exact List.mem_cons_of_mem _ (ih h)

theorem mem_pairs_init {a : α} {S : List α} {e : α × α} (h : e ∈ pairs (S ++ [a])) : e.1 ∈ S := by
  induction S with
  | nil => cases h
  | cons b S ih =>
    cases S with
    | nil => simp only [List.cons_append, List.nil_append, pairs, List.mem_singleton] at h; subst h; simp
    | cons c S =>
      simp only [List.cons_append, pairs, List.mem_cons] at h
      rcases h with rfl | h
      · simp
      · exact List.mem_cons_of_mem _ (ih (by simpa using h))

theorem ring_cons {v n p : α} {S : List α} (hn : S.head? = some n) (hp : S.getLast? = some p) :
    ring (v :: S) = (v, n) :: (pairs S ++ [(p, v)]) := by
  show pairs (v :: (S ++ [v])) = _
  rw [pairs_cons (n := n) (by cases S with | nil => cases hn | cons a S => simpa using hn), pairs_concat hp]

theorem ring_split (a b : α) (A B : List α) :
    ring (a :: A ++ b :: B) = pairs (a :: A ++ [b]) ++ pairs (b :: B ++ [a]) := by
  show pairs (a :: (A ++ b :: B) ++ [a]) = _
  have := pairs_append (a :: A) b (B ++ [a])
  simpa using this

theorem ring_rotate (a : α) (l : List α) : (ring (l ++ [a])).Perm (ring (a :: l)) := by
  cases l with
  | nil => exact List.Perm.refl _
  | cons b m =>
    have h1 := ring_split b a m []
    have h2 := ring_split a b [] m
    rw [h1]
    show List.Perm _ (ring ([a] ++ b :: m))
    rw [h2]
    exact List.perm_append_comm

theorem ring_isRotated {l l' : List α} (h : l ~r l') : (ring l).Perm (ring l') := by
  obtain ⟨n, rfl⟩ := h
  induction n generalizing l with
  | zero => simp
  | succ n ih =>
    cases l with
    | nil => simp
    | cons a l => rw [List.rotate_cons_succ]; exact (ring_rotate a l).symm.trans ih

theorem mem_ring {l : List α} {e : α × α} (h : e ∈ ring l) : e.1 ∈ l ∧ e.2 ∈ l := by
  cases l with
  | nil => cases h
  | cons a l =>
    obtain ⟨h1, h2⟩ := mem_pairs h
    simp only [List.cons_append, List.mem_cons, List.mem_append, List.not_mem_nil, or_false] at h1 h2 ⊢
    tauto

theorem exists_rotation {l : List α} {u : α} (h : u ∈ l) : ∃ S, l ~r u :: S := by
  obtain ⟨s, t, rfl⟩ := List.append_of_mem h
  exact ⟨t ++ s, List.isRotated_append⟩

theorem exists_head {S : List α} (h : S ≠ []) : ∃ n, S.head? = some n := by
  cases S with
  | nil => exact absurd rfl h
  | cons a S => exact ⟨a, rfl⟩

theorem exists_last {S : List α} (h : S ≠ []) : ∃ n, S.getLast? = some n :=
  ⟨S.getLast h, List.getLast?_eq_some_getLast h⟩

/-- the neighbours in a closed polyline without repeated vertices -/
theorem ring_out {v n p n' : α} {S : List α} (hd : (v :: S).Nodup) (hn : S.head? = some n) (hp : S.getLast? = some p)
    (h : (v, n') ∈ ring (v :: S)) : n' = n := by
  rw [ring_cons hn hp] at h
  have hv := (List.nodup_cons.1 hd).1
  simp only [List.mem_cons, List.mem_append, List.not_mem_nil, or_false, Prod.mk.injEq, true_and] at h
  rcases h with h | h | h
  · exact h
  · exact absurd (mem_pairs h).1 hv
  · exact absurd (h.1 ▸ List.mem_of_getLast? hp) hv

theorem ring_in {v n p p' : α} {S : List α} (hd : (v :: S).Nodup) (hn : S.head? = some n) (hp : S.getLast? = some p)
    (h : (p', v) ∈ ring (v :: S)) : p' = p := by
  rw [ring_cons hn hp] at h
  have hv := (List.nodup_cons.1 hd).1
  simp only [List.mem_cons, List.mem_append, List.not_mem_nil, or_false, Prod.mk.injEq, and_true] at h
  rcases h with h | h | h
  · exact absurd (h.2 ▸ List.mem_of_head? hn) hv
  · exact absurd (mem_pairs h).2 hv
  · exact h

end Lists

variable {K : Type} [Field K] [LinearOrder K] [IsStrictOrderedRing K]

/-- sum of the crossings of the edges -/
def W (es : List (Vec2 K × Vec2 K)) (x : Vec2 K) : ℤ := (es.map fun e => wind e.1 e.2 x).sum

theorem W_nil (x : Vec2 K) : W [] x = 0 := rfl
theorem W_cons (e : Vec2 K × Vec2 K) (es : List (Vec2 K × Vec2 K)) (x : Vec2 K) : W (e :: es) x = wind e.1 e.2 x + W es x := by
  simp [W]
theorem W_append (es es' : List (Vec2 K × Vec2 K)) (x : Vec2 K) : W (es ++ es') x = W es x + W es' x := by simp [W]
theorem W_perm {es es' : List (Vec2 K × Vec2 K)} (h : es.Perm es') (x : Vec2 K) : W es x = W es' x :=
  (h.map _).sum_eq

theorem telescope {x y : Vec2 K} (S : List (Vec2 K)) : ∀ {n p : Vec2 K}, S.head? = some n → S.getLast? = some p →
    (∀ e ∈ pairs S, Apart x y e.1 e.2) → W (pairs S) x - W (pairs S) y = side x y p - side x y n := by
  induction S with
  | nil => intro n p h; cases h
  | cons a S ih =>
    intro n p hn hp hap
    simp only [List.head?_cons, Option.some.injEq] at hn
    subst hn
    cases S with
    | nil => simp at hp; subst hp; simp [pairs, W_nil]
    | cons b S =>
      have h1 := wind_side (hap (a, b) (by simp [pairs]))
      have h2 := ih (n := b) (p := p) rfl (by simpa using hp) (fun e he => hap e (by simp [pairs, he]))
      have e1 : ∀ z, W (pairs (a :: b :: S)) z = wind a b z + W (pairs (b :: S)) z := fun z => by
        rw [pairs, W_cons]
      rw [e1, e1]
      linarith

/-- the winding number is constant along a segment that misses all edges -/
theorem W_ring_const {x y : Vec2 K} {l : List (Vec2 K)} (h : ∀ e ∈ ring l, Apart x y e.1 e.2) : W (ring l) x = W (ring l) y := by
  cases l with
  | nil => rfl
  | cons a l =>
    have := telescope (x := x) (y := y) (a :: l ++ [a]) (n := a) (p := a) rfl List.getLast?_concat h
    rw [sub_self, sub_eq_zero] at this
    exact this

/-- the winding number seen from a vertex -/
theorem W_vertex {v n p x : Vec2 K} {S : List (Vec2 K)} (hn : S.head? = some n) (hp : S.getLast? = some p)
    (hnv : n ≠ v) (hpv : p ≠ v) (hxv : x ≠ v) (h : ∀ e ∈ pairs S, Apart x v e.1 e.2) (hxn : ang v n ≠ ang v x)
    (hxp : ang v p ≠ ang v x) :
    W (ring (v :: S)) x = W (ring (v :: S)) v + ind (ang v n < ang v x) - ind (ang v p < ang v x) := by
  have h1 := telescope S hn hp h
  have h2 := wind_corner hpv hxv hxp
  have h3 := wind_corner hnv hxv hxn
  rw [wind_swap v n x] at h3
  rw [ring_cons hn hp]
  simp only [W_cons, W_append, W_nil, wind_left, wind_right, add_zero, zero_add]
  linarith

/-! ### simple polygons -/

/-- A simple polygon: at least three different vertices, and different edges meet only where one ends and the other
begins. -/
structure Simple (l : List (Vec2 K)) : Prop where
  three : 3 ≤ l.length
  nodup : l.Nodup
  meet : ∀ e ∈ ring l, ∀ e' ∈ ring l, e ≠ e' → ∀ x, OnSeg e.1 e.2 x → OnSeg e'.1 e'.2 x →
    (x = e.2 ∧ x = e'.1) ∨ (x = e.1 ∧ x = e'.2)

theorem Simple.rotate {l l' : List (Vec2 K)} (h : Simple l) (hr : l ~r l') : Simple l' := by
  have hp := ring_isRotated hr
  refine ⟨by rw [← hr.perm.length_eq]; exact h.three, hr.perm.nodup_iff.1 h.nodup, ?_⟩
  intro e he e' he'
  exact h.meet e (hp.mem_iff.2 he) e' (hp.mem_iff.2 he')

/-- a simple polygon seen from its first vertex -/
theorem Simple.at_vertex {v : Vec2 K} {S : List (Vec2 K)} (h : Simple (v :: S)) :
    ∃ n p, S.head? = some n ∧ S.getLast? = some p ∧ n ≠ v ∧ p ≠ v ∧ n ≠ p ∧ ang v n ≠ ang v p := by
  have h3 := h.three
  have hv := (List.nodup_cons.1 h.nodup)
  have hS : S ≠ [] := by rintro rfl; simp at h3
  obtain ⟨n, hn⟩ := exists_head hS
  obtain ⟨p, hp⟩ := exists_last hS
  have hnv : n ≠ v := by rintro rfl; exact hv.1 (List.mem_of_head? hn)
  have hpv : p ≠ v := by rintro rfl; exact hv.1 (List.mem_of_getLast? hp)
  have hnp : n ≠ p := by
    rintro rfl
    cases S with
    | nil => exact hS rfl
    | cons a S =>
      simp only [List.head?_cons, Option.some.injEq] at hn
      subst hn
      have hS' : S ≠ [] := by rintro rfl; simp at h3
      rw [List.getLast?_cons, List.getLast?_eq_some_getLast hS'] at hp
      simp at hp
      have := (List.nodup_cons.1 hv.2).1
      apply this
      rw [← hp]; exact List.getLast_mem hS'
  refine ⟨n, p, hn, hp, hnv, hpv, hnp, ?_⟩
  intro hang
  have hr := ring_cons (v := v) hn hp
  have m1 : (v, n) ∈ ring (v :: S) := by rw [hr]; simp
  have m2 : (p, v) ∈ ring (v :: S) := by rw [hr]; simp
  have hne : ((v, n) : Vec2 K × Vec2 K) ≠ (p, v) := fun h => hnv (Prod.mk.inj h).2
  rcases onSeg_of_ang_eq hnv hpv hang with ho | ho
  · rcases h.meet _ m1 _ m2 hne p ho (onSeg_left _ _) with h1 | h1
    · exact hnp h1.1.symm
    · exact hpv h1.1
  · rcases h.meet _ m1 _ m2 hne n (onSeg_right _ _) (onSeg_comm ho) with h1 | h1
    · exact hnp h1.2
    · exact hnv h1.1

/-- a vertex on an edge is an end of it -/
theorem Simple.vertex_on_edge {l : List (Vec2 K)} (h : Simple l) {u : Vec2 K} (hu : u ∈ l) {e : Vec2 K × Vec2 K}
    (he : e ∈ ring l) (hon : OnSeg e.1 e.2 u) : u = e.1 ∨ u = e.2 := by
  obtain ⟨S, hS⟩ := exists_rotation hu
  obtain ⟨n, p, hn, hp, hnv, _⟩ := (h.rotate hS).at_vertex
  have m : (u, n) ∈ ring l := by rw [(ring_isRotated hS).mem_iff, ring_cons hn hp]; simp
  by_cases heq : e = (u, n)
  · left; rw [heq]
  · rcases h.meet _ he _ m heq u hon (onSeg_left _ _) with h1 | h1
    · exact Or.inr h1.1
    · exact Or.inl h1.1

theorem Simple.edge_ne {l : List (Vec2 K)} (h : Simple l) {e : Vec2 K × Vec2 K} (he : e ∈ ring l) : e.1 ≠ e.2 := by
  obtain ⟨S, hS⟩ := exists_rotation (mem_ring he).1
  obtain ⟨n, p, hn, hp, hnv, _⟩ := (h.rotate hS).at_vertex
  have := ring_out (h.rotate hS).nodup hn hp (n' := e.2) (by rw [← (ring_isRotated hS).mem_iff]; exact he)
  rw [this]; exact hnv.symm

/-! ### orientation -/

/-- orientation number: the winding number of the first vertex (which does not count the two edges at it), plus 1 if the
direction to the next vertex comes before that to the last one; 1 for counter-clockwise simple polygons, 0 for clockwise
ones -/
def cn : List (Vec2 K) → ℤ
  | [] => 0
  | v :: S => W (ring (v :: S)) v + ind (ang v (S.headD v) < ang v (S.getLastD v))

theorem cn_cons {v n p : Vec2 K} {S : List (Vec2 K)} (hn : S.head? = some n) (hp : S.getLast? = some p) :
    cn (v :: S) = W (ring (v :: S)) v + ind (ang v n < ang v p) := by
  have h1 : S.headD v = n := by cases S with | nil => cases hn | cons a S => simpa using hn
  have h2 : S.getLastD v = p := by rw [List.getLastD_eq_getLast?, hp]; rfl
  show W (ring (v :: S)) v + ind (ang v (S.headD v) < ang v (S.getLastD v)) = _
  rw [h1, h2]

theorem ang_opposite {a b : Vec2 K} (h : a ≠ b) : ind (2 < ang b a) + ind (2 < ang a b) = 1 := by
  have h1 := ang_le_two h
  have h2 := ang_le_two h.symm
  by_cases c : ang b a ≤ 2
  · have c2 : ¬ ang a b ≤ 2 := by
      rw [h2]
      rcases h1.1 c with h3 | h3 <;> rintro (h4 | h4) <;> linarith [h3, h4]
    rw [ind_false (not_lt.2 c), ind_true (not_le.1 c2)]; rfl
  · have c2 : ang a b ≤ 2 := by
      rw [h2]
      rw [h1] at c
      push Not at c
      rcases lt_or_eq_of_le c.1 with h3 | h3
      · exact Or.inl h3
      · refine Or.inr ⟨h3.symm, lt_of_le_of_ne (c.2 h3) ?_⟩
        intro hx; exact h (Vec2.ext hx.symm h3)
    rw [ind_true (not_le.1 c), ind_false (not_lt.2 c2)]; rfl

/-- two indicator values of a strict comparison of different numbers -/
theorem ind_lt_add {x y : K} (h : x ≠ y) : ind (x < y) + ind (y < x) = 1 := by
  rcases lt_or_gt_of_ne h with h1 | h1
  · rw [ind_true h1, ind_false (not_lt.2 h1.le)]; rfl
  · rw [ind_false (not_lt.2 h1.le), ind_true h1]; rfl

/-- the orientation number does not depend on the vertex -/
theorem cn_step {a b : Vec2 K} {S : List (Vec2 K)} (h : Simple (a :: b :: S)) : cn (a :: b :: S) = cn (b :: S ++ [a]) := by
  have hS : S ≠ [] := by rintro rfl; have := h.three; simp at this
  obtain ⟨m, hm⟩ := exists_head hS
  obtain ⟨z, hz⟩ := exists_last hS
  have hl : (b :: S).getLast? = some z := by rw [List.getLast?_cons, hz]; rfl
  have hh : (S ++ [a]).head? = some m := by cases S with | nil => exact absurd rfl hS | cons c S => simpa using hm
  have h' : Simple (b :: (S ++ [a])) := h.rotate ⟨1, by simp⟩
  obtain ⟨_, _, q1, q2, hba, hza, hbz, hab⟩ := h.at_vertex
  rw [List.head?_cons, Option.some.injEq] at q1
  rw [hl, Option.some.injEq] at q2
  subst q1 q2
  obtain ⟨_, _, q1, q2, hmb, hab', hma, hba'⟩ := h'.at_vertex
  rw [hh, Option.some.injEq] at q1
  rw [show (S ++ [a]).getLast? = some a by simp, Option.some.injEq] at q2
  subst q1 q2
  have hr : W (ring (b :: (S ++ [a]))) b = W (ring (a :: b :: S)) b := W_perm (ring_rotate a (b :: S)) b
  rw [cn_cons (v := a) (n := b) rfl hl, List.cons_append, cn_cons hh List.getLast?_concat, hr, ring_cons (v := a) (n := b) rfl hl,
    pairs_cons hm]
  simp only [W_cons, W_append, W_nil, wind_left, wind_right, List.cons_append]
  have hap : ∀ e ∈ pairs S, Apart a b e.1 e.2 := by
    intro e he x hx hx'
    have hnd := h.nodup
    simp only [List.nodup_cons, List.mem_cons, not_or] at hnd
    have hmem : e ∈ ring (a :: b :: S) := by
      rw [ring_cons (v := a) (n := b) rfl hl, pairs_cons hm]; simp [he]
    have hmem' : (a, b) ∈ ring (a :: b :: S) := by rw [ring_cons (v := a) (n := b) rfl hl]; simp
    have hE := mem_pairs he
    have hne : ((a, b) : Vec2 K × Vec2 K) ≠ e := by rintro rfl; exact hnd.2.1 hE.2
    rcases h.meet _ hmem' _ hmem hne x hx hx' with h1 | h1
    · exact hnd.2.1 (by rw [show b = e.1 from h1.1.symm.trans h1.2]; exact hE.1)
    · exact hnd.1.2 (by rw [show a = e.2 from h1.1.symm.trans h1.2]; exact hE.2)
  have h1 := telescope S hm hz hap
  have h2 := wind_corner hmb hab' hba'
  have h3 := wind_corner hza hba (Ne.symm hab)
  have h4 := ang_opposite hba
  have h5 := ind_lt_add hab
  rw [wind_swap b m a] at h2
  rw [side_swap a b] at h3
  linarith

theorem cn_rotate {l l' : List (Vec2 K)} (h : Simple l) (hr : l ~r l') : cn l = cn l' := by
  obtain ⟨n, rfl⟩ := hr
  induction n generalizing l with
  | zero => simp
  | succ n ih =>
    rcases l with _ | ⟨a, _ | ⟨b, S⟩⟩
    · simp
    · simp
    · rw [List.rotate_cons_succ, cn_step h]
      exact ih (h.rotate ⟨1, by simp⟩)

/-- the highest vertex -/
theorem exists_top (l : List (Vec2 K)) (h : l ≠ []) : ∃ v ∈ l, ∀ u ∈ l, u.y < v.y ∨ (u.y = v.y ∧ v.x ≤ u.x) := by
  induction l with
  | nil => exact absurd rfl h
  | cons a l ih =>
    by_cases hl : l = []
    · subst hl
      exact ⟨a, by simp, fun u hu => by simp at hu; subst hu; exact Or.inr ⟨rfl, le_rfl⟩⟩
    · obtain ⟨v, hv, hmax⟩ := ih hl
      by_cases hc : a.y < v.y ∨ (a.y = v.y ∧ v.x ≤ a.x)
      · refine ⟨v, List.mem_cons_of_mem _ hv, fun u hu => ?_⟩
        rcases List.mem_cons.1 hu with rfl | hu
        · exact hc
        · exact hmax u hu
      · refine ⟨a, by simp, fun u hu => ?_⟩
        push Not at hc
        obtain ⟨c1, c2⟩ := hc
        rcases List.mem_cons.1 hu with rfl | hu
        · exact Or.inr ⟨rfl, le_rfl⟩
        · rcases lt_or_eq_of_le c1 with c3 | c3
          · rcases hmax u hu with h1 | h1
            · exact Or.inl (by linarith)
            · exact Or.inl (by linarith [h1.1])
          · have := c2 c3.symm
            rcases hmax u hu with h1 | h1
            · exact Or.inl (by linarith)
            · exact Or.inr ⟨by linarith [h1.1], by linarith [h1.2]⟩

theorem W_top {v : Vec2 K} (es : List (Vec2 K × Vec2 K)) (h : ∀ e ∈ es, e.1.y ≤ v.y ∧ e.2.y ≤ v.y) : W es v = 0 := by
  induction es with
  | nil => rfl
  | cons e es ih =>
    rw [W_cons, ih (fun e he => h e (List.mem_cons_of_mem _ he)), add_zero]
    obtain ⟨h1, h2⟩ := h e (by simp)
    unfold wind
    rw [ind_false (fun h => by linarith [h.2.1]), ind_false (fun h => by linarith [h.2.1])]
    rfl

/-- every simple polygon has a vertex that is highest, and leftmost among the highest; seen from there the orientation
number is decided by the two neighbours -/
theorem Simple.top {l : List (Vec2 K)} (h : Simple l) : ∃ v S, l ~r v :: S ∧
    (∀ u ∈ S, u.y < v.y ∨ (u.y = v.y ∧ v.x < u.x)) ∧
    ∀ n p, S.head? = some n → S.getLast? = some p → cn l = ind (ang v n < ang v p) := by
  have hne : l ≠ [] := by rintro rfl; have := h.three; simp at this
  obtain ⟨v, hv, hmax⟩ := exists_top l hne
  obtain ⟨S, hS⟩ := exists_rotation hv
  have hsub : ∀ u, u ∈ v :: S → u ∈ l := fun u hu => hS.perm.mem_iff.2 hu
  refine ⟨v, S, hS, ?_, ?_⟩
  · intro u hu
    rcases hmax u (hsub u (List.mem_cons_of_mem _ hu)) with h1 | ⟨h1, h2⟩
    · exact Or.inl h1
    · refine Or.inr ⟨h1, lt_of_le_of_ne h2 ?_⟩
      intro hx
      have := (List.nodup_cons.1 (h.rotate hS).nodup).1
      rw [← Vec2.ext hx.symm h1] at this
      exact this hu
  · intro n p hn hp
    rw [cn_rotate h hS, cn_cons hn hp, W_top, zero_add]
    intro e he
    have := mem_ring he
    have key : ∀ u, u ∈ v :: S → u.y ≤ v.y := fun u hu => by
      rcases hmax u (hsub u hu) with h1 | h1
      · exact h1.le
      · exact h1.1.le
    exact ⟨key _ this.1, key _ this.2⟩

theorem cn_cases {l : List (Vec2 K)} (h : Simple l) : cn l = 0 ∨ cn l = 1 := by
  obtain ⟨v, S, hS, _, hc⟩ := h.top
  obtain ⟨n, p, hn, hp, _⟩ := (h.rotate hS).at_vertex
  rw [hc n p hn hp]
  by_cases hlt : ang v n < ang v p
  · right; exact ind_true hlt
  · left; exact ind_false hlt

end Kami.Simple
