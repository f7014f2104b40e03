import Mathlib.Algebra.Order.Field.Basic
/-!
# Scalars

The geometry and graph code computes in `f32`.  The model is polymorphic in the scalar type; the two
classes below list the operations the code uses.  They contain **no laws**, so a theorem about an
arbitrary instance holds for every arithmetic, in particular for `f32` with rounding, NaN and infinities.
-/

namespace Kami

/-- The scalar operations of code that neither divides nor takes square roots
(`src/geometry/polygon.rs` predicates, area, triangulation). Comparisons are `Bool`-valued, as in Rust;
nothing forces them to be total or transitive (NaN). -/
class OrdScalar (F : Type u) extends Add F, Sub F, Mul F, Neg F where
  /-- literal `0.0` -/
  zero : F
  /-- literal `1.0` -/
  one : F
  /-- literal `0.5` -/
  half : F
  /-- `f32::abs` -/
  abs : F → F
  /-- `<` (and, with swapped arguments, `>`) -/
  lt : F → F → Bool
  /-- `<=` (and, with swapped arguments, `>=`) -/
  le : F → F → Bool
  /-- `==` -/
  eq : F → F → Bool

@[inherit_doc] scoped infix:50 " <. " => OrdScalar.lt
@[inherit_doc] scoped infix:50 " ≤. " => OrdScalar.le
@[inherit_doc] scoped infix:50 " =. " => OrdScalar.eq

/-- Additionally: division, square root, and the constants of `f32` used by the code. -/
class Scalar (F : Type u) extends OrdScalar F, Div F where
  /-- `f32::sqrt` -/
  sqrt : F → F
  /-- `nalgebra_glm::epsilon()`, i.e. `f32::EPSILON = 2^-23` -/
  epsilon : F
  /-- `std::f32::MAX` -/
  maxValue : F
  /-- `n as f32` for an unsigned integer `n` -/
  ofNat : Nat → F

/-- Additionally: the trigonometric functions (no f32 instance: IEEE-754 does not determine them). -/
class TrigScalar (F : Type u) extends Scalar F where
  sin : F → F
  cos : F → F
  acos : F → F
  /-- `std::f32::consts::PI` -/
  pi : F
  /-- literal `2.0` -/
  two : F

/-- A 2D point, `nalgebra_glm::Vec2`. -/
@[ext] structure Vec2 (F : Type u) where
  x : F
  y : F
  deriving DecidableEq, Repr

/-- Exact arithmetic in a linearly ordered field: the reference semantics of `OrdScalar` code. -/
instance exactOrdScalar (K : Type u) [Field K] [LinearOrder K] [IsStrictOrderedRing K] :
    OrdScalar K where
  zero := 0
  one := 1
  half := 1 / 2
  abs a := |a|
  lt a b := decide (a < b)
  le a b := decide (a ≤ b)
  eq a b := decide (a = b)

section Exact
variable {K : Type u} [Field K] [LinearOrder K] [IsStrictOrderedRing K]
@[simp] theorem exact_zero : (OrdScalar.zero : K) = 0 := rfl
@[simp] theorem exact_one : (OrdScalar.one : K) = 1 := rfl
@[simp] theorem exact_half : (OrdScalar.half : K) = 1 / 2 := rfl
@[simp] theorem exact_abs (a : K) : OrdScalar.abs a = |a| := rfl
@[simp] theorem exact_lt (a b : K) : (a <. b) = decide (a < b) := rfl
@[simp] theorem exact_le (a b : K) : (a ≤. b) = decide (a ≤ b) := rfl
@[simp] theorem exact_eq (a b : K) : (a =. b) = decide (a = b) := rfl
end Exact

end Kami
