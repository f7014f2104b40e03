/-!
# Panics and build profiles

Rust panics are explicit values of the model.  `Res α` is the result of a call that may panic.
-/

namespace Kami

/-- Reasons for which the modelled code panics. -/
inductive Panic
  /-- `v[i]` with `i ≥ v.len()` -/
  | indexOutOfBounds
  /-- `None.unwrap()` / `Err(_).unwrap()` / `.expect(..)` -/
  | unwrapFailed
  /-- integer overflow or underflow with overflow checks on -/
  | arithmeticOverflow
  /-- integer division by zero -/
  | divideByZero
  deriving DecidableEq, Repr

/-- Result of a call that may panic. -/
abbrev Res (α : Type) := Except Panic α

/-- Rust build profile: integer overflow panics (`debug`, overflow checks on) or wraps modulo
`2^64` (`release`, overflow checks off). -/
inductive Profile
  | debug
  | release
  deriving DecidableEq, Repr

/-- `2^64`, the number of values of `usize` on a 64-bit target. -/
def usizeSize : Nat := 2 ^ 64

/-- `a - b` on `usize`. -/
def usizeSub (p : Profile) (a b : Nat) : Res Nat :=
  if b ≤ a then .ok (a - b)
  else match p with
    | .debug => .error .arithmeticOverflow
    | .release => .ok (usizeSize + a - b)

/-- `a * b` on `usize`. -/
def usizeMul (p : Profile) (a b : Nat) : Res Nat :=
  if a * b < usizeSize then .ok (a * b)
  else match p with
    | .debug => .error .arithmeticOverflow
    | .release => .ok (a * b % usizeSize)

/-- `a / b` on `usize`. -/
def usizeDiv (a b : Nat) : Res Nat :=
  if b = 0 then .error .divideByZero else .ok (a / b)

/-- `v[i]`: indexing a `Vec`, panicking when out of range. -/
def index {α : Type} (v : List α) (i : Nat) : Res α :=
  match v[i]? with
  | some a => .ok a
  | none => .error .indexOutOfBounds

/-- `v[i] = a`: assigning to a slot of a `Vec`, panicking when out of range. -/
def assign {α : Type} (v : List α) (i : Nat) (a : α) : Res (List α) :=
  if i < v.length then .ok (v.set i a) else .error .indexOutOfBounds

@[simp] theorem index_of_lt {α : Type} (v : List α) (i : Nat) (h : i < v.length) :
    index v i = .ok v[i] := by
  simp [index, h]

theorem index_of_ge {α : Type} (v : List α) (i : Nat) (h : v.length ≤ i) :
    index v i = .error .indexOutOfBounds := by
  simp [index, h]

theorem index_eq_ok {α : Type} {v : List α} {i : Nat} {a : α} :
    index v i = .ok a ↔ v[i]? = some a := by
  unfold index
  split <;> simp_all

end Kami
