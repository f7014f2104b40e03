import Verif.Num.F32Laws
/-!
# The comparisons of `approx` 0.3.2 for `f32`

Library code (the crate is not vendored in /repo; written from its published source, version pinned by Cargo.lock).
-/

set_option autoImplicit false

namespace Kami.F32

/-- `f32::is_infinite` -/
def isInfinite : F32 → Bool
  | inf _ => true
  | _ => false

/-- `f32::signum`: NaN for NaN, otherwise `1.0` or `-1.0` according to the sign bit -/
def signum : F32 → F32
  | nan => nan
  | inf s => if s then ofBits 0xbf800000 else ofBits 0x3f800000
  | fin s _ => if s then ofBits 0xbf800000 else ofBits 0x3f800000

/-- the bit pattern read as an `i32` -/
def bitsI32 (a : F32) : Int := if a.toBits < 2 ^ 31 then (a.toBits : Int) else (a.toBits : Int) - 2 ^ 32

/-- `n as i32` for a `u32` `n` -/
def u32AsI32 (n : Nat) : Int := if n % 2 ^ 32 < 2 ^ 31 then ((n % 2 ^ 32 : Nat) : Int) else ((n % 2 ^ 32 : Nat) : Int) - 2 ^ 32

/-- `AbsDiffEq for f32` -/
def absDiffEq (epsilon a b : F32) : Bool := F32.le (F32.abs (F32.sub a b)) epsilon

/-- `RelativeEq for f32` -/
def relativeEq (epsilon maxRelative a b : F32) : Bool :=
  if F32.eq a b then true
  else if isInfinite a || isInfinite b then false
  else
    let absDiff := F32.abs (F32.sub a b)
    if F32.le absDiff epsilon then true
    else
      let absSelf := F32.abs a
      let absOther := F32.abs b
      let largest := if F32.lt absSelf absOther then absOther else absSelf
      F32.le absDiff (F32.mul largest maxRelative)

/-- `UlpsEq for f32` (the signs agree when the bit patterns are subtracted, so the `i32` difference cannot overflow) -/
def ulpsEq (epsilon : F32) (maxUlps : Nat) (a b : F32) : Bool :=
  if absDiffEq epsilon a b then true
  else if !F32.eq (signum a) (signum b) then false
  else decide (|bitsI32 a - bitsI32 b| ≤ u32AsI32 maxUlps)

theorem absDiffEq_symm (e a b : F32) : absDiffEq e a b = absDiffEq e b a := by
  unfold absDiffEq; rw [abs_sub_comm']

theorem eq_symm (a b : F32) : F32.eq a b = F32.eq b a := by
  rw [Bool.eq_iff_iff, eq_iff, eq_iff]; tauto

theorem ulpsEq_symm (e : F32) (u : Nat) (a b : F32) : ulpsEq e u a b = ulpsEq e u b a := by
  unfold ulpsEq
  rw [absDiffEq_symm, eq_symm (signum a), _root_.abs_sub_comm (bitsI32 a)]

theorem key_abs (a : F32) : key (F32.abs a) = |key a| := by
  rcases a with _ | s | ⟨s, m⟩
  · rfl
  · cases s <;> simp [F32.abs, key, val]
  · cases s <;> simp [F32.abs, key, val]

/-- two non-NaN numbers with the same non-zero key, or both absolute values, are the same bit pattern -/
theorem abs_eq_of_key {a b : F32} (ha : isNan a = false) (hb : isNan b = false)
    (h : key (F32.abs a) = key (F32.abs b)) : F32.abs a = F32.abs b := by
  have hlt : ∀ n : Fin 0x7f800000, (mag n : Int) < mag 0x7f800000 := fun n => by exact_mod_cast mag_lt.2 n.isLt
  rcases a with _ | s | ⟨s, m⟩ <;> rcases b with _ | t | ⟨t, n⟩ <;> simp [F32.abs, key, val, isNan] at *
  · have := hlt n; omega
  · have := hlt m; omega
  · exact Fin.ext (mag_inj.1 h)

theorem relativeEq_symm (e r a b : F32) : relativeEq e r a b = relativeEq e r b a := by
  unfold relativeEq
  rw [eq_symm, abs_sub_comm', Bool.or_comm]
  by_cases hn : isNan a = true ∨ isNan b = true
  · -- a NaN operand makes every comparison of the difference false
    have hsub : F32.sub b a = nan := by
      rcases hn with h | h
      · rcases a with _ | s | ⟨s, m⟩ <;> simp [isNan] at h
        rcases b with _ | t | ⟨t, n⟩ <;> rfl
      · rcases b with _ | s | ⟨s, m⟩ <;> simp [isNan] at h
        rfl
    have hle : ∀ c, F32.le (F32.abs nan) c = false := by
      intro c
      rw [Bool.eq_false_iff, ne_eq, le_iff]
      simp [F32.abs, isNan]
    simp only [hsub, hle]
  · simp only [not_or, Bool.not_eq_true] at hn
    have hab : isNan (F32.abs a) = false ∧ isNan (F32.abs b) = false := by
      constructor
      · rcases a with _ | s | ⟨s, m⟩ <;> simp_all [isNan, F32.abs]
      · rcases b with _ | s | ⟨s, m⟩ <;> simp_all [isNan, F32.abs]
    have : (if F32.lt (F32.abs a) (F32.abs b) then F32.abs b else F32.abs a)
        = (if F32.lt (F32.abs b) (F32.abs a) then F32.abs a else F32.abs b) := by
      rcases lt_trichotomy (key (F32.abs a)) (key (F32.abs b)) with h | h | h
      · rw [if_pos ((lt_iff _ _).2 ⟨hab.1, hab.2, h⟩), if_neg]
        rw [lt_iff]; omega
      · rw [if_neg (by rw [lt_iff]; omega), if_neg (by rw [lt_iff]; omega)]
        exact abs_eq_of_key hn.1 hn.2 h
      · rw [if_neg (by rw [lt_iff]; omega), if_pos ((lt_iff _ _).2 ⟨hab.2, hab.1, h⟩)]
    simp only [this]

/-- `x - x` is `+0.0` for finite `x` -/
theorem sub_self_fin (s : Bool) (n : Fin 0x7f800000) : F32.sub (fin s n) (fin s n) = fin false ⟨0, by decide⟩ := by
  simp only [F32.sub, F32.neg, F32.add, val_neg, Int.add_right_neg, if_true]
  cases s <;> rfl

theorem absDiffEq_refl (e a : F32) (ha : ∃ s n, a = fin s n) (he : F32.le (ofBits 0) e = true) :
    absDiffEq e a a = true := by
  obtain ⟨s, n, rfl⟩ := ha
  unfold absDiffEq
  rw [sub_self_fin]
  exact he

theorem relativeEq_refl (e r a : F32) (ha : isNan a = false) : relativeEq e r a a = true := by
  unfold relativeEq
  rw [if_pos ((eq_iff a a).2 ⟨ha, ha, rfl⟩)]

theorem ulpsEq_refl (e : F32) (u : Nat) (a : F32) (ha : isNan a = false) (hu : u < 2 ^ 31) :
    ulpsEq e u a a = true := by
  unfold ulpsEq
  split
  · rfl
  · have hs : F32.eq (signum a) (signum a) = true := by
      rcases a with _ | s | ⟨s, m⟩
      · simp [isNan] at ha
      · cases s <;> rfl
      · cases s <;> rfl
    have hu' : u32AsI32 u = u := by
      unfold u32AsI32
      rw [Nat.mod_eq_of_lt (by omega), if_pos hu]
    simp [hs, hu']

end Kami.F32
