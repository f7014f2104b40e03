import Verif.Geom.UtilsModel
import Verif.Geom.UtilsExact
import Verif.Num.Approx
/-!
# Order laws shared by f32 and exact arithmetic

`LawfulScalar` lists the few facts about comparison and distance that the graph and search code relies on.  They hold for
the binary32 model and for exact arithmetic with special values (instances below), so a theorem under
`[LawfulScalar F]` is a theorem about both.
-/

set_option autoImplicit false

namespace Kami

open scoped Kami

/-- not a NaN -/
def isNum {F : Type} [OrdScalar F] (a : F) : Prop := (a ≤. a) = true

/-- comparison and distance laws -/
class LawfulScalar (F : Type) [Scalar F] : Prop where
  lt_num : ∀ a b : F, (a <. b) = true → isNum a ∧ isNum b
  lt_irrefl : ∀ a : F, (a <. a) = false
  lt_trans : ∀ a b c : F, (a <. b) = true → (b <. c) = true → (a <. c) = true
  lt_cotrans : ∀ a b c : F, (a <. b) = true → isNum c → (a <. c) = true ∨ (c <. b) = true
  le_iff : ∀ a b : F, (a ≤. b) = true ↔ isNum a ∧ isNum b ∧ (b <. a) = false
  eps_lt_max : ((Scalar.epsilon : F) <. Scalar.maxValue) = true
  dist_comm : ∀ a b : Vec2 F, distance a b = distance b a
  dist_self : ∀ a : Vec2 F, (Scalar.epsilon <. distance a a) = false
  dist_self_lt : ∀ a : Vec2 F, isNum (distance a a) → (distance a a <. Scalar.epsilon) = true
  abs_dist : ∀ a b : Vec2 F, (Scalar.epsilon <. OrdScalar.abs (distance a b)) = (Scalar.epsilon <. distance a b)

/-! ### f32 -/

namespace F32

theorem isNum_iff (a : F32) : isNum a ↔ isNan a = false := by
  unfold isNum
  change F32.le a a = true ↔ _
  rw [le_iff]; simp

theorem sub_self' (a : F32) : F32.sub a a = fin false ⟨0, by decide⟩ ∨ F32.sub a a = nan := by
  rcases a with _ | s | ⟨s, n⟩
  · right; rfl
  · right; cases s <;> rfl
  · left; exact sub_self_fin s n

theorem dist_self_cases (a : Vec2 F32) : distance a a = fin false ⟨0, by decide⟩ ∨ distance a a = nan := by
  have h : distance a a = F32.sqrt (F32.add (F32.mul (F32.sub a.x a.x) (F32.sub a.x a.x))
      (F32.mul (F32.sub a.y a.y) (F32.sub a.y a.y))) := rfl
  rw [h]
  rcases sub_self' a.x with hx | hx <;> rcases sub_self' a.y with hy | hy <;> rw [hx, hy]
  · left; decide
  · right; decide
  · right; decide
  · right; decide

theorem sqrt_cases (x : F32) : F32.sqrt x = nan ∨ (∃ s, F32.sqrt x = fin s ⟨0, by decide⟩) ∨
    (∃ n, F32.sqrt x = pack false n) := by
  rcases x with _ | s | ⟨s, n⟩
  · left; rfl
  · cases s
    · right; right; exact ⟨0x7f800000, by rfl⟩
    · left; rfl
  · unfold F32.sqrt
    simp only
    split
    · rename_i h
      right; left
      exact ⟨s, by congr 1; exact Fin.ext h⟩
    · split
      · left; rfl
      · right; right; exact ⟨_, rfl⟩

theorem key_abs_sqrt (x : F32) : key (F32.abs (F32.sqrt x)) = key (F32.sqrt x) ∧
    isNan (F32.abs (F32.sqrt x)) = isNan (F32.sqrt x) := by
  rcases sqrt_cases x with h | ⟨s, h⟩ | ⟨n, h⟩ <;> rw [h]
  · exact ⟨rfl, rfl⟩
  · cases s <;> exact ⟨rfl, rfl⟩
  · rw [abs_pack]; exact ⟨rfl, rfl⟩

instance : LawfulScalar F32 where
  lt_num a b h := by
    have := (F32.lt_iff a b).1 h
    exact ⟨(isNum_iff a).2 this.1, (isNum_iff b).2 this.2.1⟩
  lt_irrefl a := by
    rw [← Bool.not_eq_true]; intro h
    have := (F32.lt_iff a a).1 h
    omega
  lt_trans a b c h1 h2 := by
    have h1 := (F32.lt_iff a b).1 h1
    have h2 := (F32.lt_iff b c).1 h2
    exact (F32.lt_iff a c).2 ⟨h1.1, h2.2.1, by omega⟩
  lt_cotrans a b c h hc := by
    have h1 := (F32.lt_iff a b).1 h
    have hc := (isNum_iff c).1 hc
    by_cases hk : key a < key c
    · exact Or.inl ((F32.lt_iff a c).2 ⟨h1.1, hc, hk⟩)
    · exact Or.inr ((F32.lt_iff c b).2 ⟨hc, h1.2.1, by omega⟩)
  le_iff a b := by
    change F32.le a b = true ↔ _ ∧ _ ∧ F32.lt b a = false
    rw [F32.le_iff, isNum_iff, isNum_iff, ← Bool.not_eq_true (F32.lt b a), F32.lt_iff]
    constructor
    · rintro ⟨h1, h2, h3⟩; exact ⟨h1, h2, fun h => by omega⟩
    · rintro ⟨h1, h2, h3⟩
      refine ⟨h1, h2, ?_⟩
      by_contra hc
      exact h3 ⟨h2, h1, by omega⟩
  eps_lt_max := by decide +kernel
  dist_comm a b := by
    change F32.sqrt (F32.add (F32.mul (F32.sub b.x a.x) (F32.sub b.x a.x))
        (F32.mul (F32.sub b.y a.y) (F32.sub b.y a.y))) = F32.sqrt (F32.add (F32.mul (F32.sub a.x b.x) (F32.sub a.x b.x))
        (F32.mul (F32.sub a.y b.y) (F32.sub a.y b.y)))
    rw [sq_sub_comm a.x b.x, sq_sub_comm a.y b.y]
  dist_self a := by
    rcases dist_self_cases a with h | h <;> rw [h]
    · decide +kernel
    · decide +kernel
  dist_self_lt a hn := by
    rcases dist_self_cases a with h | h
    · rw [h]; decide +kernel
    · rw [h, isNum_iff] at hn; cases hn
  abs_dist a b := by
    have h : ∀ x y z : F32, key y = key z → isNan y = isNan z → F32.lt x y = F32.lt x z := by
      intro x y z h1 h2
      rw [Bool.eq_iff_iff, F32.lt_iff, F32.lt_iff, h1, h2]
    exact h _ _ _ (key_abs_sqrt _).1 (key_abs_sqrt _).2

end F32

/-! ### exact arithmetic -/

namespace XReal

theorem isNum_iff (a : XReal) : isNum a ↔ a ≠ nan := by
  unfold isNum
  rcases a with _ | s | r
  · simp
  · cases s <;> simp [OrdScalar.le, le, lt, eq]
  · simp

theorem dist_cases (a b : Vec2 XReal) :
    (∃ p q : ℝ × ℝ, a = pt p ∧ b = pt q) ∨ distance a b = .nan ∨ distance a b = .inf false := by
  obtain ⟨ax, ay⟩ := a
  obtain ⟨bx, bY⟩ := b
  by_cases h : ∃ p q r s : ℝ, ax = .fin p ∧ ay = .fin q ∧ bx = .fin r ∧ bY = .fin s
  · obtain ⟨p, q, r, s, rfl, rfl, rfl, rfl⟩ := h
    exact Or.inl ⟨(p, q), (r, s), rfl, rfl⟩
  · right
    have hsub : ∀ x y : XReal, (∃ r : ℝ, x - y = .fin r ∧ ∃ s t : ℝ, x = .fin s ∧ y = .fin t) ∨ x - y = .nan ∨
        ∃ s, x - y = .inf s := by
      intro x y
      rcases x with _ | s | r <;> rcases y with _ | t | u
      · right; left; rfl
      · right; left; rfl
      · right; left; rfl
      · right; left; rfl
      · right
        cases s <;> cases t
        · left; rfl
        · right; exact ⟨_, rfl⟩
        · right; exact ⟨_, rfl⟩
        · left; rfl
      · right; right; exact ⟨_, rfl⟩
      · right; left; rfl
      · right; right; exact ⟨_, rfl⟩
      · left; exact ⟨r - u, by simp, _, _, rfl, rfl⟩
    have hsq : ∀ x : XReal, (∃ s, x = .inf s) → x * x = .inf false := by
      rintro x ⟨s, rfl⟩; cases s <;> rfl
    change (XReal.sqrt (XReal.add ((bx - ax) * (bx - ax)) ((bY - ay) * (bY - ay))) = _) ∨
      (XReal.sqrt (XReal.add ((bx - ax) * (bx - ax)) ((bY - ay) * (bY - ay))) = _)
    rcases hsub bx ax with ⟨r, h1, s, t, h2, h3⟩ | h1 | ⟨s, h1⟩
    · rcases hsub bY ay with ⟨r', h1', s', t', h2', h3'⟩ | h1' | ⟨s', h1'⟩
      · exact absurd ⟨t, t', s, s', h3, h3', h2, h2'⟩ h
      · left; rw [h1, h1']; rfl
      · right; rw [hsq _ ⟨s', h1'⟩, h1]; rfl
    · left; rw [h1]; rfl
    · rcases hsub bY ay with ⟨r', h1', s', t', h2', h3'⟩ | h1' | ⟨s', h1'⟩
      · right; rw [hsq _ ⟨s, h1⟩, h1']; rfl
      · left; rw [hsq _ ⟨s, h1⟩, h1']; rfl
      · right; rw [hsq _ ⟨s, h1⟩, hsq _ ⟨s', h1'⟩]; rfl

theorem sub_sq_comm (x y : XReal) : (x - y) * (x - y) = (y - x) * (y - x) := by
  rcases x with _ | s | r <;> rcases y with _ | t | u
  · rfl
  · rfl
  · rfl
  · rfl
  · cases s <;> cases t <;> rfl
  · cases s <;> rfl
  · rfl
  · cases t <;> rfl
  · simp only [fin_sub, fin_mul, fin.injEq]; ring

theorem dist_self_cases (a : Vec2 XReal) : distance a a = .fin 0 ∨ distance a a = .nan := by
  rcases dist_cases a a with ⟨p, q, rfl, h⟩ | h | h
  · rw [pt_inj] at h
    subst h
    left
    rw [UtilThm.distance_pt, UtilThm.dst_eq_zero.2 rfl]
  · exact Or.inr h
  · exfalso
    have hself : ∀ x : XReal, x - x = .fin 0 ∨ x - x = .nan := by
      intro x
      rcases x with _ | s | r
      · right; rfl
      · right; cases s <;> rfl
      · left; simp
    change XReal.sqrt (XReal.add ((a.x - a.x) * (a.x - a.x)) ((a.y - a.y) * (a.y - a.y))) = _ at h
    rcases hself a.x with h1 | h1 <;> rcases hself a.y with h2 | h2 <;> rw [h1, h2] at h
    · simp only [fin_mul] at h
      change XReal.sqrt (.fin _) = _ at h
      unfold XReal.sqrt at h
      simp at h
    · cases h
    · cases h
    · cases h

noncomputable instance : LawfulScalar XReal where
  lt_num a b h := by
    rw [isNum_iff, isNum_iff]
    constructor
    · rintro rfl; simp at h
    · rintro rfl; simp at h
  lt_irrefl a := by
    rcases a with _ | s | r
    · simp
    · cases s <;> rfl
    · simp
  lt_trans a b c h1 h2 := by
    rcases a with _ | s | r <;> rcases b with _ | t | u <;> rcases c with _ | v | w <;>
      simp only [OrdScalar.lt, lt, Bool.and_eq_true, Bool.not_eq_true', decide_eq_true_eq, Bool.false_eq_true] at h1 h2 ⊢
    all_goals first | simp_all | linarith
  lt_cotrans a b c h hc := by
    rw [isNum_iff] at hc
    rcases a with _ | s | r <;> rcases b with _ | t | u <;> rcases c with _ | v | w <;>
      simp only [OrdScalar.lt, lt, Bool.and_eq_true, Bool.not_eq_true', decide_eq_true_eq, Bool.false_eq_true, ne_eq,
        not_true_eq_false] at h hc ⊢
    all_goals first
      | exact lt_or_ge _ _ |>.imp_right (fun h' => lt_of_le_of_lt h' h)
      | (cases v <;> simp_all)
      | simp_all
  le_iff a b := by
    rw [isNum_iff, isNum_iff]
    rcases a with _ | s | r <;> rcases b with _ | t | u
    · simp
    · simp
    · simp
    · simp
    · cases s <;> cases t <;> simp [OrdScalar.le, OrdScalar.lt, le, lt, eq]
    · simp
    · simp
    · simp
    · simp
  eps_lt_max := by simp [eps_lt_max]
  dist_comm a b := by
    change XReal.sqrt (XReal.add ((b.x - a.x) * (b.x - a.x)) ((b.y - a.y) * (b.y - a.y))) =
      XReal.sqrt (XReal.add ((a.x - b.x) * (a.x - b.x)) ((a.y - b.y) * (a.y - b.y)))
    rw [sub_sq_comm a.x, sub_sq_comm a.y]
  dist_self a := by
    rcases dist_self_cases a with h | h
    · rw [h]; simp [epsR_pos.le]
    · rw [h]; simp
  dist_self_lt a hn := by
    rcases dist_self_cases a with h | h
    · rw [h]; simp [epsR_pos]
    · rw [h, isNum_iff] at hn; exact absurd rfl hn
  abs_dist a b := by
    rcases dist_cases a b with ⟨p, q, rfl, rfl⟩ | h | h
    · rw [UtilThm.distance_pt]
      simp [abs_of_nonneg (UtilThm.dst_nonneg p q)]
    · rw [h]; rfl
    · rw [h]; rfl

end XReal

end Kami
