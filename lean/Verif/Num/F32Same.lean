import Verif.Num.F32Laws
/-!
# Equality of f32 numbers up to the sign of zero

The operations respect this relation, with two exceptions that the algebra types never reach except through division by zero:
`1/x` and `sqrt` see the sign of zero.
-/

set_option autoImplicit false

namespace Kami.F32

/-- equal bit patterns (all NaNs are one), or two zeros of any signs -/
def Same (a b : F32) : Prop := a = b ∨ ∃ s t, a = fin s ⟨0, by decide⟩ ∧ b = fin t ⟨0, by decide⟩

namespace Same

theorem refl (a : F32) : Same a a := .inl rfl
theorem of_eq {a b : F32} (h : a = b) : Same a b := .inl h
theorem symm {a b : F32} (h : Same a b) : Same b a := by
  rcases h with h | ⟨s, t, h1, h2⟩
  · exact .inl h.symm
  · exact .inr ⟨t, s, h2, h1⟩
theorem trans {a b c : F32} (h : Same a b) (h' : Same b c) : Same a c := by
  rcases h with rfl | ⟨s, t, rfl, rfl⟩
  · exact h'
  · rcases h' with rfl | ⟨s', t', h1, rfl⟩
    · exact .inr ⟨_, _, rfl, rfl⟩
    · exact .inr ⟨_, _, rfl, rfl⟩

/-- numbers that are the same compare equal, unless they are NaN -/
theorem eq_true {a b : F32} (h : Same a b) (ha : isNan a = false) : F32.eq a b = true := by
  rcases h with rfl | ⟨s, t, rfl, rfl⟩
  · rw [eq_iff]; exact ⟨ha, ha, rfl⟩
  · cases s <;> cases t <;> decide +kernel

theorem val_zero (s : Bool) : val s 0 = 0 := by cases s <;> decide +kernel

theorem neg {a b : F32} (h : Same a b) : Same (-a) (-b) := by
  rcases h with rfl | ⟨s, t, rfl, rfl⟩
  · exact refl _
  · exact .inr ⟨_, _, rfl, rfl⟩

theorem add_left (s t : Bool) (b : F32) : Same (fin s ⟨0, by decide⟩ + b) (fin t ⟨0, by decide⟩ + b) := by
  show Same (F32.add _ _) (F32.add _ _)
  rcases b with _ | r | ⟨r, n⟩
  · exact refl _
  · exact refl _
  · simp only [F32.add, val_zero]
    split
    · exact .inr ⟨_, _, rfl, rfl⟩
    · exact refl _

theorem add_comm (a b : F32) : a + b = b + a := add_comm' a b
theorem mul_comm (a b : F32) : a * b = b * a := mul_comm' a b

theorem add {a b a' b' : F32} (h : Same a a') (h' : Same b b') : Same (a + b) (a' + b') := by
  have h1 : Same (a + b) (a' + b) := by
    rcases h with rfl | ⟨s, t, rfl, rfl⟩
    · exact refl _
    · exact add_left s t b
  refine h1.trans ?_
  rcases h' with rfl | ⟨s, t, rfl, rfl⟩
  · exact refl _
  · rw [add_comm a', add_comm a']; exact add_left s t a'

theorem sub {a b a' b' : F32} (h : Same a a') (h' : Same b b') : Same (a - b) (a' - b') :=
  h.add h'.neg

theorem pack_zero (s : Bool) : pack s 0 = fin s ⟨0, by decide⟩ := rfl
theorem mag_zero : mag 0 = 0 := by decide +kernel

theorem mul_left (s t : Bool) (b : F32) : Same (fin s ⟨0, by decide⟩ * b) (fin t ⟨0, by decide⟩ * b) := by
  show Same (F32.mul _ _) (F32.mul _ _)
  rcases b with _ | r | ⟨r, n⟩
  · exact refl _
  · exact refl _
  · simp only [F32.mul, F32.round, mag_zero, Nat.zero_mul, roundIdx_zero _ (by positivity : 0 < 2 ^ 149), pack_zero]
    exact .inr ⟨_, _, rfl, rfl⟩

theorem mul {a b a' b' : F32} (h : Same a a') (h' : Same b b') : Same (a * b) (a' * b') := by
  have h1 : Same (a * b) (a' * b) := by
    rcases h with rfl | ⟨s, t, rfl, rfl⟩
    · exact refl _
    · exact mul_left s t b
  refine h1.trans ?_
  rcases h' with rfl | ⟨s, t, rfl, rfl⟩
  · exact refl _
  · rw [mul_comm a', mul_comm a']; exact mul_left s t a'

/-- division by the same number (zeros of different sign would give infinities of different sign) -/
theorem div {a a' : F32} (h : Same a a') (b : F32) : Same (a / b) (a' / b) := by
  rcases h with rfl | ⟨s, t, rfl, rfl⟩
  · exact refl _
  · show Same (F32.div _ _) (F32.div _ _)
    rcases b with _ | r | ⟨r, n⟩
    · exact refl _
    · exact .inr ⟨_, _, rfl, rfl⟩
    · simp only [F32.div]
      split
      · exact refl _
      · rename_i hn
        have : 0 < mag n.val := Nat.pos_of_ne_zero fun h => hn (mag_eq_zero.1 h)
        simp only [F32.round, mag_zero, Nat.zero_mul, roundIdx_zero _ this, pack_zero]
        exact .inr ⟨_, _, rfl, rfl⟩

end Same

/-! ## signs -/

theorem neg_mul' (a b : F32) : -a * b = -(a * b) := by
  show F32.mul (F32.neg a) b = F32.neg (F32.mul a b)
  rcases a with _ | s | ⟨s, m⟩ <;> rcases b with _ | t | ⟨t, n⟩
  · rfl
  · rfl
  · rfl
  · rfl
  · show inf (!s ^^ t) = inf (!(s ^^ t))
    rw [Bool.not_xor]
  · show (if n.val = 0 then nan else inf (!s ^^ t)) = F32.neg (if n.val = 0 then nan else inf (s ^^ t))
    rw [Bool.not_xor, apply_ite F32.neg]; rfl
  · rfl
  · show (if m.val = 0 then nan else inf (!s ^^ t)) = F32.neg (if m.val = 0 then nan else inf (s ^^ t))
    rw [Bool.not_xor, apply_ite F32.neg]; rfl
  · have h : ∀ k, pack (!s ^^ t) k = F32.neg (pack (s ^^ t) k) := fun k => by rw [neg_pack, Bool.not_xor]
    exact h _

theorem mul_neg' (a b : F32) : a * -b = -(a * b) := by
  rw [Same.mul_comm, neg_mul', Same.mul_comm]

theorem neg_div' (a b : F32) : -a / b = -(a / b) := by
  show F32.div (F32.neg a) b = F32.neg (F32.div a b)
  rcases a with _ | s | ⟨s, m⟩ <;> rcases b with _ | t | ⟨t, n⟩
  · rfl
  · rfl
  · rfl
  · rfl
  · rfl
  · show inf (!s ^^ t) = inf (!(s ^^ t))
    rw [Bool.not_xor]
  · rfl
  · show fin (!s ^^ t) _ = fin (!(s ^^ t)) _
    rw [Bool.not_xor]
  · have h : ∀ k, pack (!s ^^ t) k = F32.neg (pack (s ^^ t) k) := fun k => by rw [neg_pack, Bool.not_xor]
    show (if n.val = 0 then (if m.val = 0 then nan else inf (!s ^^ t)) else pack (!s ^^ t) _) =
      F32.neg (if n.val = 0 then (if m.val = 0 then nan else inf (s ^^ t)) else pack (s ^^ t) _)
    rw [Bool.not_xor, apply_ite F32.neg, apply_ite F32.neg, ← h, Bool.not_xor]; rfl

theorem neg_neg_eq (a : F32) : - -a = a := neg_neg' a

theorem neg_sub' (a b : F32) : Same (-(a - b)) (b - a) := by
  rcases sub_swap b a with h | ⟨s, t, h1, h2⟩
  · exact .inl h.symm
  · right
    refine ⟨!t, s, ?_, h1⟩
    show F32.neg (F32.sub a b) = _
    rw [h2]; rfl

theorem neg_add' (a b : F32) : Same (-(a + b)) (-a + -b) := by
  have h := neg_sub' a (-b)
  have e : a - -b = a + b := by show a + - -b = _; rw [neg_neg_eq]
  rw [e] at h
  refine h.trans (.inl ?_)
  show -b + -a = _
  exact Same.add_comm _ _

theorem neg_sub_neg' (a b : F32) : Same (-(a - b)) (-a - -b) := by
  have h := neg_add' a (-b)
  exact h

/-! ## one and zero -/

theorem mul_one' (a : F32) : a * (1 : F32) = a := by
  show F32.mul a (ofBits 0x3f800000) = a
  have e : ofBits 0x3f800000 = fin false ⟨0x3f800000, by decide⟩ := by decide +kernel
  rw [e]
  rcases a with _ | s | ⟨s, m⟩
  · rfl
  · simp [F32.mul]
  · simp only [F32.mul, Bool.xor_false]
    have hm : mag 0x3f800000 = 2 ^ 149 := by decide +kernel
    rw [F32.round, hm, roundIdx_exact _ _ (by positivity)]
    rw [pack, dif_pos m.isLt]

theorem one_mul' (a : F32) : (1 : F32) * a = a := by rw [Same.mul_comm, mul_one']

theorem zero_mul_fin (s : Bool) (n : Fin 0x7f800000) : Same ((0 : F32) * fin s n) (0 : F32) :=
  ((Same.mul_left false s (fin s n)).trans (by
    show Same (F32.mul _ _) _
    simp only [F32.mul, F32.round, Same.mag_zero, Nat.zero_mul, roundIdx_zero _ (by positivity : 0 < 2 ^ 149), Same.pack_zero]
    exact .inr ⟨_, _, rfl, rfl⟩))

theorem add_zero_same (a : F32) : Same (a + (0 : F32)) a := by
  show Same (F32.add a (ofBits 0)) a
  have e : ofBits 0 = fin false ⟨0, by decide⟩ := by decide +kernel
  rw [e]
  rcases a with _ | s | ⟨s, m⟩
  · exact .refl _
  · exact .refl _
  · simp only [F32.add, Same.val_zero, Int.add_zero]
    split
    · rename_i h
      have : mag m.val = 0 := by unfold val at h; split at h <;> omega
      have hm : m = ⟨0, by decide⟩ := Fin.ext (mag_eq_zero.1 this)
      rw [hm]
      exact .inr ⟨_, _, rfl, rfl⟩
    · rename_i hv
      left
      have hab : (val s m).natAbs = mag m.val * 1 := by unfold val; split <;> simp
      rw [F32.round, hab, roundIdx_exact _ _ Nat.one_pos, pack, dif_pos m.isLt]
      congr 1
      unfold val at hv ⊢
      cases s <;> simp at hv ⊢
      omega

end Kami.F32
