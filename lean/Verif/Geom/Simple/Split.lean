import Verif.Geom.Simple.Ring
/-!
# Cutting a simple polygon along a diagonal

A diagonal cuts a counter-clockwise simple polygon into two counter-clockwise simple polygons, and a diagonal of a part
is a diagonal of the whole.
-/

set_option autoImplicit false
set_option linter.dupNamespace false
set_option linter.unusedSectionVars false

namespace Kami.Simple

open Kami Kami.Pred

variable {K : Type} [Field K] [LinearOrder K] [IsStrictOrderedRing K]

/-- the segment `p`–`q` meets the edges only where an end of one is an end of the other -/
def Clear (es : List (Vec2 K × Vec2 K)) (p q : Vec2 K) : Prop :=
  ∀ e ∈ es, ∀ x, OnSeg p q x → OnSeg e.1 e.2 x → (x = p ∨ x = q) ∧ (x = e.1 ∨ x = e.2)

/-- seen from the vertex `p`, the direction to `q` lies strictly inside the angle that turns counter-clockwise from the
next vertex to the previous one -/
def Cone (l : List (Vec2 K)) (p q : Vec2 K) : Prop :=
  ∀ n m, (p, n) ∈ ring l → (m, p) ∈ ring l → cyc (ang p n) (ang p q) (ang p m)

/-- an inner diagonal -/
structure IsDiag (l : List (Vec2 K)) (p q : Vec2 K) : Prop where
  left : p ∈ l
  right : q ∈ l
  ne : p ≠ q
  clear : Clear (ring l) p q
  cone : Cone l p q
  cone' : Cone l q p

theorem Clear.symm {es : List (Vec2 K × Vec2 K)} {p q : Vec2 K} (h : Clear es p q) : Clear es q p := by
  intro e he x hx hx'
  obtain ⟨h1, h2⟩ := h e he x (onSeg_comm hx) hx'
  exact ⟨h1.symm, h2⟩

theorem Clear.mono {es es' : List (Vec2 K × Vec2 K)} {p q : Vec2 K} (h : Clear es p q) (hs : ∀ e ∈ es', e ∈ es) : Clear es' p q :=
  fun e he => h e (hs e he)

theorem Cone.mono {l l' : List (Vec2 K)} {p q : Vec2 K} (h : Cone l p q) (hs : ∀ e ∈ ring l', e ∈ ring l) : Cone l' p q :=
  fun n m hn hm => h n m (hs _ hn) (hs _ hm)

theorem IsDiag.symm {l : List (Vec2 K)} {p q : Vec2 K} (h : IsDiag l p q) : IsDiag l q p :=
  ⟨h.right, h.left, h.ne.symm, h.clear.symm, h.cone', h.cone⟩

theorem IsDiag.rotate {l l' : List (Vec2 K)} {p q : Vec2 K} (h : IsDiag l p q) (hr : l ~r l') : IsDiag l' p q := by
  have hs : ∀ e ∈ ring l', e ∈ ring l := fun e he => (ring_isRotated hr).mem_iff.2 he
  exact ⟨hr.perm.mem_iff.1 h.left, hr.perm.mem_iff.1 h.right, h.ne, h.clear.mono hs, h.cone.mono hs, h.cone'.mono hs⟩

theorem cone_cons {v n p q : Vec2 K} {S : List (Vec2 K)} (hd : (v :: S).Nodup) (hn : S.head? = some n) (hp : S.getLast? = some p) :
    Cone (v :: S) v q ↔ cyc (ang v n) (ang v q) (ang v p) := by
  constructor
  · intro h
    apply h
    · rw [ring_cons hn hp]; simp
    · rw [ring_cons hn hp]; simp
  · intro h n' p' hn' hp'
    rw [ring_out hd hn hp hn', ring_in hd hn hp hp']
    exact h

instance (x y z : K) : Decidable (cyc x y z) := by unfold cyc; infer_instance

theorem ind_cyc {x y z : K} (h1 : x ≠ y) (h2 : y ≠ z) (h3 : x ≠ z) : ind (x < y) + ind (y < z) - ind (x < z) = ind (cyc x y z) := by
  rcases lt_or_gt_of_ne h1 with a | a <;> rcases lt_or_gt_of_ne h2 with b | b <;> rcases lt_or_gt_of_ne h3 with c | c
  · rw [ind_true a, ind_true b, ind_true c, ind_true (show cyc x y z from Or.inl ⟨a, b⟩)]; rfl
  · linarith
  · rw [ind_true a, ind_false (not_lt.2 b.le), ind_true c, ind_false (p := cyc x y z)]; · rfl
    rintro (h | h | h) <;> linarith [h.1, h.2]
  · rw [ind_true a, ind_false (not_lt.2 b.le), ind_false (not_lt.2 c.le), ind_true (show cyc x y z from Or.inr (Or.inr ⟨c, a⟩))]; rfl
  · rw [ind_false (not_lt.2 a.le), ind_true b, ind_true c, ind_false (p := cyc x y z)]; · rfl
    rintro (h | h | h) <;> linarith [h.1, h.2]
  · rw [ind_false (not_lt.2 a.le), ind_true b, ind_false (not_lt.2 c.le), ind_true (show cyc x y z from Or.inr (Or.inl ⟨b, c⟩))]; rfl
  · linarith
  · rw [ind_false (not_lt.2 a.le), ind_false (not_lt.2 b.le), ind_false (not_lt.2 c.le), ind_false (p := cyc x y z)]; · rfl
    rintro (h | h | h) <;> linarith [h.1, h.2]

theorem rot_split (a b : Vec2 K) (A B : List (Vec2 K)) : (a :: A ++ b :: B) ~r (b :: B ++ a :: A) := List.isRotated_append

theorem ring_part (a b : Vec2 K) (A : List (Vec2 K)) : ring (a :: A ++ [b]) = pairs (a :: A ++ [b]) ++ [(b, a)] := by
  show pairs (a :: (A ++ [b]) ++ [a]) = _
  rw [pairs_concat (S := a :: (A ++ [b])) (p := b) (by rw [← List.cons_append]; exact List.getLast?_concat)]
  rfl

theorem head_concat {α : Type} {A : List α} {n : α} (b : α) (h : A.head? = some n) : (A ++ [b]).head? = some n := by
  cases A with
  | nil => cases h
  | cons a A => simpa using h

theorem head_append {α : Type} {A : List α} {n : α} (B : List α) (h : A.head? = some n) : (A ++ B).head? = some n := by
  cases A with
  | nil => cases h
  | cons a A => simpa using h

theorem last_append {α : Type} {B : List α} {p : α} (A : List α) (h : B.getLast? = some p) : (A ++ B).getLast? = some p := by
  rw [List.getLast?_append, h]; rfl

theorem last_cons {α : Type} {B : List α} {p : α} (b : α) (h : B.getLast? = some p) : (b :: B).getLast? = some p :=
  last_append [b] h

/-- the part of a simple polygon on one side of a clear segment is simple -/
theorem Simple.part {a b : Vec2 K} {A B : List (Vec2 K)} (h : Simple (a :: A ++ b :: B)) (hA : A ≠ [])
    (hc : Clear (ring (a :: A ++ b :: B)) a b) : Simple (a :: A ++ [b]) := by
  have hnd := h.nodup
  have hnd' : (a :: A ++ [b]).Nodup := by
    refine hnd.sublist ?_
    exact List.Sublist.append_left (List.cons_sublist_cons.2 (List.nil_sublist _)) _
  have hlen : 3 ≤ (a :: A ++ [b]).length := by
    have := List.length_pos_of_ne_nil hA
    simp; omega
  have key : ∀ e ∈ pairs (a :: A ++ [b]), ∀ x, OnSeg e.1 e.2 x → OnSeg b a x → (x = e.2 ∧ x = b) ∨ (x = e.1 ∧ x = a) := by
    intro e he x hx hx'
    obtain ⟨h1, h2⟩ := hc e (by rw [ring_split]; exact List.mem_append_left _ he) x (onSeg_comm hx') hx
    have m1 : e.2 ∈ A ++ [b] := mem_pairs_tail he
    have m2 : e.1 ∈ a :: A := mem_pairs_init he
    have n1 : a ∉ A ++ [b] := (List.nodup_cons.1 hnd').1
    have n2 : b ∉ a :: A := fun hb => (List.nodup_append.1 hnd').2.2 b hb b (by simp) rfl
    rcases h1 with rfl | rfl
    · rcases h2 with h2 | h2
      · exact Or.inr ⟨h2, rfl⟩
      · exact absurd (h2 ▸ m1) n1
    · rcases h2 with h2 | h2
      · exact absurd (h2 ▸ m2) n2
      · exact Or.inl ⟨h2, rfl⟩
  have hsub : ∀ e ∈ pairs (a :: A ++ [b]), e ∈ ring (a :: A ++ b :: B) := fun e he => by
    rw [ring_split]; exact List.mem_append_left _ he
  refine ⟨hlen, hnd', ?_⟩
  intro e he e' he' hne x hx hx'
  rw [ring_part, List.mem_append, List.mem_singleton] at he he'
  rcases he with he | rfl <;> rcases he' with he' | rfl
  · exact h.meet e (hsub e he) e' (hsub e' he') hne x hx hx'
  · exact key e he x hx hx'
  · rcases key e' he' x hx' hx with h1 | h1
    · exact Or.inr ⟨h1.2, h1.1⟩
    · exact Or.inl ⟨h1.2, h1.1⟩
  · exact absurd rfl hne

theorem clear_rot {a b : Vec2 K} {A B : List (Vec2 K)} (hc : Clear (ring (a :: A ++ b :: B)) a b) :
    Clear (ring (b :: B ++ a :: A)) b a :=
  (hc.mono fun _ he => (ring_isRotated (rot_split a b A B)).mem_iff.2 he).symm

/-- the orientation numbers of the two parts -/
theorem cn_split {a b : Vec2 K} {A B : List (Vec2 K)} (h : Simple (a :: A ++ b :: B)) (hA : A ≠ []) (hB : B ≠ [])
    (hc : Clear (ring (a :: A ++ b :: B)) a b) {n p : Vec2 K} (hn : A.head? = some n) (hp : B.getLast? = some p) :
    cn (a :: A ++ [b]) + cn (b :: B ++ [a]) = cn (a :: A ++ b :: B) + ind (cyc (ang a n) (ang a b) (ang a p)) ∧
    ang a n ≠ ang a b ∧ ang a b ≠ ang a p ∧ ang a n ≠ ang a p := by
  have s1 := h.part hA hc
  have s2 := (h.rotate (rot_split a b A B)).part hB (clear_rot hc)
  have r2 : (b :: B ++ [a]) ~r (a :: b :: B) := List.isRotated_append
  have s2' : Simple (a :: b :: B) := s2.rotate r2
  rw [List.cons_append] at s1 h
  obtain ⟨_, _, q1, q2, _, _, _, d1⟩ := s1.at_vertex
  rw [head_concat b hn, Option.some.injEq] at q1
  rw [List.getLast?_concat, Option.some.injEq] at q2
  subst q1 q2
  obtain ⟨_, _, q1, q2, _, _, _, d2⟩ := s2'.at_vertex
  rw [List.head?_cons, Option.some.injEq] at q1
  rw [last_cons b hp, Option.some.injEq] at q2
  subst q1 q2
  obtain ⟨_, _, q1, q2, _, _, _, d3⟩ := h.at_vertex
  rw [head_append _ hn, Option.some.injEq] at q1
  rw [last_append A (last_cons _ hp), Option.some.injEq] at q2
  subst q1 q2
  refine ⟨?_, d1, d2, d3⟩
  rw [← ind_cyc d1 d2 d3, cn_rotate s2 r2, cn_cons (v := a) (S := b :: B) rfl (last_cons b hp)]
  have e1 := cn_cons (v := a) (head_concat b hn) List.getLast?_concat
  have e2 := cn_cons (v := a) (head_append (b :: B) hn) (last_append A (last_cons b hp))
  have w1 : W (ring (a :: A ++ [b])) a = W (pairs (a :: A ++ [b])) a := by
    rw [ring_part, W_append, W_cons, W_nil, wind_right]; simp
  have w2 : W (ring (a :: b :: B)) a = W (pairs (b :: B ++ [a])) a := by
    rw [← W_perm (ring_isRotated r2), ring_part, W_append, W_cons, W_nil, wind_left]; simp
  have w3 : W (ring (a :: A ++ b :: B)) a = W (pairs (a :: A ++ [b])) a + W (pairs (b :: B ++ [a])) a := by
    rw [ring_split, W_append]
  simp only [List.cons_append] at e1 e2 w1 w2 w3 ⊢
  linarith

theorem ind_inj {p q : Prop} [Decidable p] [Decidable q] (h : ind p = ind q) : p ↔ q := by
  by_cases hp : p <;> by_cases hq : q
  · exact iff_of_true hp hq
  · rw [ind_true hp, ind_false hq] at h; omega
  · rw [ind_false hp, ind_true hq] at h; omega
  · exact iff_of_false hp hq

/-- a clear segment that starts into the polygon at one end also does so at the other -/
theorem cone_symm {a b : Vec2 K} {A B : List (Vec2 K)} (h : Simple (a :: A ++ b :: B)) (hA : A ≠ []) (hB : B ≠ [])
    (hc : Clear (ring (a :: A ++ b :: B)) a b) :
    Cone (a :: A ++ b :: B) a b ↔ Cone (a :: A ++ b :: B) b a := by
  have hr := rot_split a b A B
  have h' := h.rotate hr
  obtain ⟨n, hn⟩ := exists_head hA
  obtain ⟨p, hp⟩ := exists_last hB
  obtain ⟨n', hn'⟩ := exists_head hB
  obtain ⟨p', hp'⟩ := exists_last hA
  have e1 := (cn_split h hA hB hc hn hp).1
  have e2 := (cn_split h' hB hA (clear_rot hc) hn' hp').1
  rw [cn_rotate h hr] at e1
  have e3 : ind (cyc (ang a n) (ang a b) (ang a p)) = ind (cyc (ang b n') (ang b a) (ang b p')) := by linarith
  have i1 : Cone (a :: A ++ b :: B) a b ↔ cyc (ang a n) (ang a b) (ang a p) :=
    cone_cons (S := A ++ b :: B) h.nodup (head_append _ hn) (last_append A (last_cons _ hp))
  have i2 : Cone (b :: B ++ a :: A) b a ↔ cyc (ang b n') (ang b a) (ang b p') :=
    cone_cons (S := B ++ a :: A) h'.nodup (head_append _ hn') (last_append B (last_cons _ hp'))
  rw [i1, ind_inj e3, ← i2]
  exact ⟨fun h => h.mono fun e he => (ring_isRotated hr).mem_iff.1 he, fun h => h.mono fun e he => (ring_isRotated hr).mem_iff.2 he⟩

theorem not_cyc_left {x z : K} : ¬ cyc x x z := by
  rintro (h | h | h) <;> linarith [h.1, h.2]

theorem not_cyc_right {x z : K} : ¬ cyc x z z := by
  rintro (h | h | h) <;> linarith [h.1, h.2]

/-- two vertices divide the polygon into two chains -/
theorem exists_split {l : List (Vec2 K)} {p q : Vec2 K} (hp : p ∈ l) (hq : q ∈ l) (hne : p ≠ q) :
    ∃ A B, l ~r (p :: A ++ q :: B) := by
  obtain ⟨S, hS⟩ := exists_rotation hp
  have hq' : q ∈ S := by
    have := hS.perm.mem_iff.1 hq
    rcases List.mem_cons.1 this with h | h
    · exact absurd h.symm hne
    · exact h
  obtain ⟨A, B, rfl⟩ := List.append_of_mem hq'
  exact ⟨A, B, hS⟩

theorem cone_ne_nil {a b : Vec2 K} {A B : List (Vec2 K)} (hc : Cone (a :: A ++ b :: B) a b) : A ≠ [] ∧ B ≠ [] := by
  constructor
  · rintro rfl
    obtain ⟨z, hz⟩ := exists_last (S := b :: B) (by simp)
    have hr := ring_cons (v := a) (S := b :: B) (n := b) rfl hz
    refine not_cyc_left (hc b z ?_ ?_) <;> (rw [List.cons_append, List.nil_append, hr]; simp)
  · rintro rfl
    obtain ⟨z, hz⟩ := exists_head (S := A ++ [b]) (by simp)
    have hr := ring_cons (v := a) (S := A ++ [b]) hz List.getLast?_concat
    refine not_cyc_right (hc z b ?_ ?_) <;> (rw [List.cons_append, hr]; simp)

/-- one cone is enough -/
theorem isDiag_of {l : List (Vec2 K)} {p q : Vec2 K} (h : Simple l) (hp : p ∈ l) (hq : q ∈ l) (hne : p ≠ q)
    (hc : Clear (ring l) p q) (hcone : Cone l p q) : IsDiag l p q := by
  obtain ⟨A, B, hr⟩ := exists_split hp hq hne
  have hs : ∀ e ∈ ring l, e ∈ ring (p :: A ++ q :: B) := fun e he => (ring_isRotated hr).mem_iff.1 he
  have hs' : ∀ e ∈ ring (p :: A ++ q :: B), e ∈ ring l := fun e he => (ring_isRotated hr).mem_iff.2 he
  obtain ⟨hA, hB⟩ := cone_ne_nil (hcone.mono hs')
  exact ⟨hp, hq, hne, hc, hcone, ((cone_symm (h.rotate hr) hA hB (hc.mono hs')).1 (hcone.mono hs')).mono hs⟩

/-- A diagonal cuts a simple polygon into two simple polygons; both are counter-clockwise if the polygon is. -/
theorem IsDiag.split {a b : Vec2 K} {A B : List (Vec2 K)} (h : Simple (a :: A ++ b :: B)) (hd : IsDiag (a :: A ++ b :: B) a b) :
    A ≠ [] ∧ B ≠ [] ∧ Simple (a :: A ++ [b]) ∧ Simple (b :: B ++ [a]) ∧
    (cn (a :: A ++ b :: B) = 1 → cn (a :: A ++ [b]) = 1 ∧ cn (b :: B ++ [a]) = 1) := by
  obtain ⟨hA, hB⟩ := cone_ne_nil hd.cone
  have s1 := h.part hA hd.clear
  have s2 := (h.rotate (rot_split a b A B)).part hB (clear_rot hd.clear)
  refine ⟨hA, hB, s1, s2, ?_⟩
  intro h1
  obtain ⟨n, hn⟩ := exists_head hA
  obtain ⟨p, hp⟩ := exists_last hB
  have e := (cn_split h hA hB hd.clear hn hp).1
  have hcy : cyc (ang a n) (ang a b) (ang a p) :=
    (cone_cons (S := A ++ b :: B) h.nodup (head_append _ hn) (last_append A (last_cons _ hp))).1 hd.cone
  rw [ind_true hcy, h1] at e
  rcases cn_cases s1 with c1 | c1 <;> rcases cn_cases s2 with c2 | c2 <;> omega

/-! ### the other chain lies outside a part -/

theorem chain_const (f : Vec2 K → ℤ) {a : Vec2 K} (B : List (Vec2 K)) :
    ∀ {u : Vec2 K}, a ∉ B → B.head? = some u →
    (∀ e ∈ pairs (B ++ [a]), ∀ x, OnSeg e.1 e.2 x → x ≠ a → f x = f e.1) →
    ∀ e ∈ pairs (B ++ [a]), ∀ x, OnSeg e.1 e.2 x → x ≠ a → f x = f u := by
  induction B with
  | nil => intro u _ h; cases h
  | cons b B ih =>
    intro u ha hu hf e he x hx hxa
    simp only [List.head?_cons, Option.some.injEq] at hu
    subst hu
    cases B with
    | nil =>
      simp only [List.cons_append, List.nil_append, pairs, List.mem_singleton] at he
      have := hf e (by simpa [pairs] using he) x hx hxa
      rw [this, he]
    | cons c B =>
      have hpairs : pairs (b :: c :: B ++ [a]) = (b, c) :: pairs (c :: B ++ [a]) := rfl
      rw [hpairs] at he hf
      have hca : c ≠ a := by rintro rfl; simp at ha
      rcases List.mem_cons.1 he with rfl | he
      · exact hf _ (by simp) x hx hxa
      · rw [ih (u := c) (fun h => ha (List.mem_cons_of_mem _ h)) rfl
          (fun e he => hf e (List.mem_cons_of_mem _ he)) e he x hx hxa]
        exact hf (b, c) (by simp) c (onSeg_right _ _) hca

/-- the end of a part of a segment that reaches the end of the segment is that end -/
theorem onSeg_antisymm {p q x : Vec2 K} (h1 : OnSeg p q x) (h2 : OnSeg p x q) : x = q := by
  obtain ⟨s, s0, s1, sx, sy⟩ := h1
  obtain ⟨t, t0, t1, tx, ty⟩ := h2
  have e1 : (1 - t * s) * (q.x - p.x) = 0 := by rw [sx] at tx; linear_combination tx
  have e2 : (1 - t * s) * (q.y - p.y) = 0 := by rw [sy] at ty; linear_combination ty
  rcases mul_eq_zero.1 e1 with h | h
  · have hs : s = 1 := by nlinarith [mul_nonneg t0 s0, mul_nonneg (sub_nonneg.2 t1) s0]
    rw [hs] at sx sy
    exact Vec2.ext (by linear_combination sx) (by linear_combination sy)
  · rcases mul_eq_zero.1 e2 with h' | h'
    · have hs : s = 1 := by nlinarith [mul_nonneg t0 s0, mul_nonneg (sub_nonneg.2 t1) s0]
      rw [hs] at sx sy
      exact Vec2.ext (by linear_combination sx) (by linear_combination sy)
    · exact Vec2.ext (by rw [sx, h]; linear_combination -h) (by rw [sy, h']; linear_combination -h')

/-- points of the other chain, away from the diagonal, have winding number 0 with respect to a part -/
theorem chain_outside {a b : Vec2 K} {A B : List (Vec2 K)} (h : Simple (a :: A ++ b :: B)) (h1 : cn (a :: A ++ b :: B) = 1)
    (hd : IsDiag (a :: A ++ b :: B) a b) : ∀ e ∈ pairs (b :: B ++ [a]), ∀ x, OnSeg e.1 e.2 x → x ≠ a → x ≠ b →
      W (ring (a :: A ++ [b])) x = 0 := by
  obtain ⟨hA, hB, s1, s2, hcn⟩ := hd.split h
  have c1 := (hcn h1).1
  have hr := rot_split a b A B
  have h' := h.rotate hr
  obtain ⟨n', hn'⟩ := exists_head hB
  obtain ⟨m, hm⟩ := exists_last hA
  have hnd := h.nodup
  have hndB : (b :: B ++ [a]).Nodup := s2.nodup
  have hdisj : ∀ z, z ∈ a :: A → z ∈ b :: B → False := fun z z1 z2 => (List.nodup_append.1 hnd).2.2 z z1 z z2 rfl
  have hbB : b ∉ B := (List.nodup_cons.1 (List.nodup_append.1 hnd).2.1).1
  have haA : a ∉ A := (List.nodup_cons.1 (List.nodup_append.1 hnd).1).1
  have sub1 : ∀ e ∈ pairs (a :: A ++ [b]), e ∈ ring (a :: A ++ b :: B) := fun e he => by
    rw [ring_split]; exact List.mem_append_left _ he
  have sub2 : ∀ e ∈ pairs (b :: B ++ [a]), e ∈ ring (a :: A ++ b :: B) := fun e he => by
    rw [ring_split]; exact List.mem_append_right _ he
  -- points of the first edge
  have first : ∀ x, OnSeg b n' x → x ≠ b → W (ring (a :: A ++ [b])) x = 0 := by
    intro x hx hxb
    have r1 : (a :: A ++ [b]) ~r (b :: a :: A) := List.isRotated_append
    have s1' : Simple (b :: a :: A) := s1.rotate r1
    have hmem : (b, n') ∈ pairs (b :: B ++ [a]) := by
      rw [List.cons_append, pairs_cons (head_concat a hn')]; simp
    have hang : ang b x = ang b n' := ang_onSeg hx hxb
    obtain ⟨_, _, q1, q2, hab, hmb, _, d1⟩ := s1'.at_vertex
    rw [List.head?_cons, Option.some.injEq] at q1
    rw [last_cons a hm, Option.some.injEq] at q2
    subst q1 q2
    have s2' : Simple (b :: (B ++ [a])) := s2
    obtain ⟨_, _, q1, q2, hnb, _, _, d2⟩ := s2'.at_vertex
    rw [head_concat a hn', Option.some.injEq] at q1
    rw [List.getLast?_concat, Option.some.injEq] at q2
    subst q1 q2
    have h'' : Simple (b :: (B ++ a :: A)) := h'
    obtain ⟨_, _, q1, q2, _, _, _, d3⟩ := h''.at_vertex
    rw [head_append _ hn', Option.some.injEq] at q1
    rw [last_append B (last_cons a hm), Option.some.injEq] at q2
    subst q1 q2
    have hcone : cyc (ang b n') (ang b a) (ang b m) := by
      have := (cone_cons (S := B ++ a :: A) h'.nodup (head_append _ hn') (last_append B (last_cons _ hm))).1
        (hd.cone'.mono fun e he => (ring_isRotated hr).mem_iff.2 he)
      exact this
    have hvis : ∀ e ∈ pairs (a :: A), Apart x b e.1 e.2 := by
      intro e he z hz hz'
      have hme := mem_pairs he
      have he' : e ∈ pairs (a :: A ++ [b]) := by rw [pairs_concat (last_cons a hm)]; exact List.mem_append_left _ he
      have hne : ((b, n') : Vec2 K × Vec2 K) ≠ e := by rintro rfl; exact hdisj b hme.1 (by simp)
      have hz2 : OnSeg b n' z := onSeg_part hx (onSeg_left _ _) hz
      rcases h.meet _ (sub2 _ hmem) _ (sub1 _ he') hne z hz2 hz' with h3 | h3
      · exact hdisj z (h3.2 ▸ hme.1) (by rw [show z = n' from h3.1]; exact List.mem_cons_of_mem _ (List.mem_of_head? hn'))
      · exact hdisj z (h3.2 ▸ hme.2) (by rw [show z = b from h3.1]; simp)
    have hW := W_vertex (v := b) (S := a :: A) (n := a) (x := x) rfl (last_cons a hm) hab hmb hxb hvis (by rw [hang]; exact d2.symm)
      (by rw [hang]; exact d3.symm)
    have hC := cn_cons (v := b) (S := a :: A) (n := a) rfl (last_cons a hm)
    rw [← cn_rotate s1 r1, c1] at hC
    rw [W_perm (ring_isRotated r1), hW, hang]
    have i1 := ind_cyc d2 d1 d3
    have i2 := ind_lt_add d2
    have i3 := ind_lt_add d3
    rw [ind_true hcone] at i1
    linarith
  have rest : ∀ e ∈ pairs (B ++ [a]), ∀ x, OnSeg e.1 e.2 x → x ≠ a →
      W (ring (a :: A ++ [b])) x = W (ring (a :: A ++ [b])) e.1 := by
    intro e he x hx hxa
    have m1 : e.1 ∈ B := mem_pairs_init he
    have m2 := (mem_pairs he).2
    have he2 : e ∈ pairs (b :: B ++ [a]) := by
      rw [List.cons_append, pairs_cons (head_concat a hn')]; exact List.mem_cons_of_mem _ he
    apply W_ring_const
    intro e' he' z hz hz'
    have hz2 : OnSeg e.1 e.2 z := onSeg_part hx (onSeg_left _ _) hz
    have hza : z ≠ a := by
      rintro rfl
      have hmem2 := mem_pairs he
      -- `z` is a vertex on `e`, so it is its end
      rcases h.vertex_on_edge (u := z) (by simp) (sub2 e he2) hz2 with h3 | h3
      · exact hdisj z (by simp) (by rw [h3]; exact List.mem_cons_of_mem _ m1)
      · refine hxa ?_
        rw [h3] at hz ⊢
        exact onSeg_antisymm hx (onSeg_comm hz)
    rw [ring_part, List.mem_append, List.mem_singleton] at he'
    rcases he' with he' | rfl
    · have n1 : e'.1 ∈ a :: A := mem_pairs_init he'
      have n2 : e'.2 ∈ A ++ [b] := mem_pairs_tail he'
      have hne : e ≠ e' := by rintro rfl; exact hdisj _ n1 (List.mem_cons_of_mem _ m1)
      rcases h.meet _ (sub2 _ he2) _ (sub1 _ he') hne z hz2 hz' with h3 | h3
      · rcases List.mem_append.1 m2 with m2 | m2
        · exact hdisj z (h3.2 ▸ n1) (h3.1 ▸ List.mem_cons_of_mem _ m2)
        · rw [List.mem_singleton] at m2; exact hza (h3.1.trans m2)
      · rcases List.mem_append.1 n2 with n2 | n2
        · exact hdisj z (h3.2 ▸ List.mem_cons_of_mem _ n2) (h3.1 ▸ List.mem_cons_of_mem _ m1)
        · rw [List.mem_singleton] at n2
          exact hbB (by rw [← n2, ← h3.2, h3.1]; exact m1)
    · obtain ⟨k1, k2⟩ := hd.clear e (sub2 _ he2) z (onSeg_comm hz') hz2
      rcases k1 with k1 | k1
      · exact hza k1
      · rcases k2 with k2 | k2
        · exact hbB (by rw [← k1, k2]; exact m1)
        · rcases List.mem_append.1 m2 with m2 | m2
          · exact hbB (by rw [← k1, k2]; exact m2)
          · rw [List.mem_singleton] at m2; exact hza (k2.trans m2)
  have haB : a ∉ B := fun hb => hdisj a (by simp) (List.mem_cons_of_mem _ hb)
  have hall := chain_const (W (ring (a :: A ++ [b]))) B haB hn' rest
  have hn0 : W (ring (a :: A ++ [b])) n' = 0 :=
    first n' (onSeg_right _ _) (by rintro rfl; exact hbB (List.mem_of_head? hn'))
  intro e he x hx hxa hxb
  rw [List.cons_append, pairs_cons (head_concat a hn')] at he
  rcases List.mem_cons.1 he with rfl | he
  · exact first x hx hxb
  · rw [hall e he x hx hxa, hn0]

/-- inner points of a diagonal have winding number 1 -/
theorem IsDiag.inside {l : List (Vec2 K)} (h : Simple l) (h1 : cn l = 1) {p q x : Vec2 K} (hd : IsDiag l p q) (hx : OnSeg p q x)
    (hxp : x ≠ p) (hxq : x ≠ q) : W (ring l) x = 1 := by
  obtain ⟨S, hr⟩ := exists_rotation hd.left
  have h' := h.rotate hr
  have hd' := hd.rotate hr
  obtain ⟨n, m, hn, hm, hnp, hmp, _, hang⟩ := h'.at_vertex
  have hcy := (cone_cons h'.nodup hn hm).1 hd'.cone
  have hangx : ang p x = ang p q := ang_onSeg hx hxp
  have hne1 : ang p n ≠ ang p q := by intro h; rw [h] at hcy; exact not_cyc_left hcy
  have hne2 : ang p q ≠ ang p m := by intro h; rw [h] at hcy; exact not_cyc_right hcy
  have hC := cn_cons (v := p) hn hm
  rw [← cn_rotate h hr, h1] at hC
  have hvis : ∀ e ∈ pairs S, Apart x p e.1 e.2 := by
    intro e he z hz hz'
    have hme : e ∈ ring (p :: S) := by rw [ring_cons hn hm]; simp [he]
    obtain ⟨k1, k2⟩ := hd'.clear e hme z (onSeg_part hx (onSeg_left _ _) hz) hz'
    rcases k1 with k1 | k1
    · apply (List.nodup_cons.1 h'.nodup).1
      rcases k2 with k2 | k2
      · rw [← k1, k2]; exact (mem_pairs he).1
      · rw [← k1, k2]; exact (mem_pairs he).2
    · rw [k1] at hz
      exact hxq (onSeg_antisymm hx (onSeg_comm hz))
  rw [W_perm (ring_isRotated hr), W_vertex hn hm hnp hmp hxp hvis (by rw [hangx]; exact hne1) (by rw [hangx]; exact hne2.symm), hangx]
  have i1 := ind_cyc hne1 hne2 hang
  have i2 := ind_lt_add hne2
  rw [ind_true hcy] at i1
  linarith

theorem cyc_trans {x y z w : K} (h1 : cyc x y z) (h2 : cyc x z w) : cyc x y w := by
  unfold cyc at *
  rcases h1 with ⟨a, b⟩ | ⟨a, b⟩ | ⟨a, b⟩ <;> rcases h2 with ⟨c, d⟩ | ⟨c, d⟩ | ⟨c, d⟩ <;>
  first
    | exact Or.inl ⟨by linarith, by linarith⟩
    | exact Or.inr (Or.inl ⟨by linarith, by linarith⟩)
    | exact Or.inr (Or.inr ⟨by linarith, by linarith⟩)

theorem cyc_trans' {x y z w : K} (h1 : cyc x y z) (h2 : cyc w x z) : cyc w y z := by
  unfold cyc at *
  rcases h1 with ⟨a, b⟩ | ⟨a, b⟩ | ⟨a, b⟩ <;> rcases h2 with ⟨c, d⟩ | ⟨c, d⟩ | ⟨c, d⟩ <;>
  first
    | exact Or.inl ⟨by linarith, by linarith⟩
    | exact Or.inr (Or.inl ⟨by linarith, by linarith⟩)
    | exact Or.inr (Or.inr ⟨by linarith, by linarith⟩)

/-- A diagonal of a part is a diagonal of the whole polygon. -/
theorem IsDiag.lift {a b : Vec2 K} {A B : List (Vec2 K)} (h : Simple (a :: A ++ b :: B)) (h1 : cn (a :: A ++ b :: B) = 1)
    (hd : IsDiag (a :: A ++ b :: B) a b) {p q : Vec2 K} (hpq : IsDiag (a :: A ++ [b]) p q) : IsDiag (a :: A ++ b :: B) p q := by
  obtain ⟨hA, hB, s1, s2, hcn⟩ := hd.split h
  have c1 := (hcn h1).1
  have hnd := h.nodup
  have hdisj : ∀ z, z ∈ a :: A → z ∈ b :: B → False := fun z z1 z2 => (List.nodup_append.1 hnd).2.2 z z1 z z2 rfl
  have hsub : ∀ z, z ∈ a :: A ++ [b] → z ∈ a :: A ++ b :: B := by
    intro z hz
    rcases List.mem_append.1 hz with hz | hz
    · exact List.mem_append_left _ hz
    · rw [List.mem_singleton] at hz; subst hz; simp
  have sub2 : ∀ e ∈ pairs (b :: B ++ [a]), e ∈ ring (a :: A ++ b :: B) := fun e he => by
    rw [ring_split]; exact List.mem_append_right _ he
  have hba : (b, a) ∈ ring (a :: A ++ [b]) := by rw [ring_part]; simp
  -- a vertex of the part on an edge of the other chain is `a` or `b`
  have hvert : ∀ z, z ∈ a :: A ++ [b] → ∀ e ∈ pairs (b :: B ++ [a]), OnSeg e.1 e.2 z → z = a ∨ z = b := by
    intro z hz e he hon
    have hm := mem_pairs he
    have hz' : z ∈ b :: B ++ [a] := by
      rcases h.vertex_on_edge (hsub z hz) (sub2 e he) hon with h3 | h3
      · rw [h3]; exact hm.1
      · rw [h3]; exact hm.2
    rcases List.mem_append.1 hz' with hz' | hz'
    · rcases List.mem_append.1 hz with hz | hz
      · exact absurd hz' (fun h => hdisj z hz h)
      · exact Or.inr (List.mem_singleton.1 hz)
    · exact Or.inl (List.mem_singleton.1 hz')
  have hclear : Clear (ring (a :: A ++ b :: B)) p q := by
    intro e he x hx hx'
    have he0 := he
    rw [ring_split] at he
    rcases List.mem_append.1 he with he | he
    · exact hpq.clear e (by rw [ring_part]; exact List.mem_append_left _ he) x hx hx'
    · by_cases hxab : x = a ∨ x = b
      · have hon : OnSeg b a x := by
          rcases hxab with rfl | rfl
          · exact onSeg_right _ _
          · exact onSeg_left _ _
        refine ⟨(hpq.clear _ hba x hx hon).1, h.vertex_on_edge ?_ he0 hx'⟩
        rcases hxab with rfl | rfl <;> simp
      · exfalso
        have hxp : x ≠ p := by
          rintro rfl; exact hxab (hvert x hpq.left e he hx')
        have hxq : x ≠ q := by
          rintro rfl; exact hxab (hvert x hpq.right e he hx')
        have w0 := chain_outside h h1 hd e he x hx' (fun h => hxab (Or.inl h)) (fun h => hxab (Or.inr h))
        have w1 := hpq.inside s1 c1 hx hxp hxq
        omega
  refine isDiag_of h (hsub p hpq.left) (hsub q hpq.right) hpq.ne hclear ?_
  intro n m hn hm
  rw [ring_split, List.mem_append] at hn hm
  have hsame : ∀ e ∈ pairs (a :: A ++ [b]), e ∈ ring (a :: A ++ [b]) := fun e he => by
    rw [ring_part]; exact List.mem_append_left _ he
  -- the three places where `p` can be
  by_cases hpa : p = a
  · subst hpa
    obtain ⟨n0, hn0⟩ := exists_head hA
    obtain ⟨m0, hm0⟩ := exists_last hB
    have k1 : (p, n0) ∈ ring (p :: A ++ [b]) := by
      apply hsame
      rw [List.cons_append, pairs_cons (head_concat b hn0)]; simp
    have c := hpq.cone n0 b k1 hba
    have hn' : n = n0 := by
      refine ring_out (S := A ++ b :: B) (p := m0) h.nodup (head_append _ hn0) (last_append A (last_cons b hm0)) ?_
      show (p, n) ∈ ring (p :: A ++ b :: B)
      rw [ring_split, List.mem_append]; exact hn
    subst hn'
    refine cyc_trans c (hd.cone n m ?_ ?_)
    · rw [ring_split, List.mem_append]; exact hn
    · rw [ring_split, List.mem_append]; exact hm
  · by_cases hpb : p = b
    · subst hpb
      obtain ⟨n0, hn0⟩ := exists_head hB
      obtain ⟨m0, hm0⟩ := exists_last hA
      have k1 : (m0, p) ∈ ring (a :: A ++ [p]) := by
        apply hsame
        rw [pairs_concat (last_cons a hm0)]; simp
      have c := hpq.cone a m0 hba k1
      have hm' : m = m0 := by
        refine ring_in (v := p) (S := B ++ a :: A) (n := n0) (h.rotate (rot_split a p A B)).nodup (head_append _ hn0)
          (last_append B (last_cons a hm0)) ?_
        show (m, p) ∈ ring (p :: B ++ a :: A)
        rw [← (ring_isRotated (rot_split a p A B)).mem_iff, ring_split, List.mem_append]; exact hm
      subst hm'
      refine cyc_trans' c (hd.cone' n m ?_ ?_)
      · rw [ring_split, List.mem_append]; exact hn
      · rw [ring_split, List.mem_append]; exact hm
    · have hpA : p ∈ a :: A := by
        rcases List.mem_append.1 hpq.left with h3 | h3
        · exact h3
        · exact absurd (List.mem_singleton.1 h3) hpb
      refine hpq.cone n m ?_ ?_
      · rcases hn with hn | hn
        · exact hsame _ hn
        · exact absurd (mem_pairs_init hn) (fun h => hdisj p hpA h)
      · rcases hm with hm | hm
        · exact hsame _ hm
        · rcases List.mem_append.1 (mem_pairs_tail hm) with h3 | h3
          · exact absurd (List.mem_cons_of_mem _ h3) (fun h => hdisj p hpA h)
          · exact absurd (List.mem_singleton.1 h3) hpa

end Kami.Simple
