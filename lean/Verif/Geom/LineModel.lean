import Verif.GA.Model
/-!
# Model of `src/geometry/line.rs`

The source fixes the scalar to `f32`; the model is polymorphic, with the component comparison
`ulps_eq(.., f32::EPSILON, 4)` as a parameter (`F32.ulpsEq Scalar.epsilon 4` for f32).
`struct LineSegment {}` (line.rs:47) has no operations.
-/

set_option autoImplicit false

namespace Kami

/-- src/geometry/line.rs:8-11 -/
structure Line (T : Type) where
  point : Vector3 T
  direction : Vector3 T

namespace Line
variable {T : Type}

/-- src/geometry/line.rs:15-20 -/
def new (point direction : Vector3 T) : Line T := ⟨point, direction⟩

/-- src/geometry/line.rs:29-32; `cmp` is the comparison of components -/
def contains [Sub T] [Mul T] [Zero T] (cmp : T → T → Bool) (self : Line T) (x : Vector3 T) : Bool :=
  let bivector := (x.sub self.point).wedge self.direction
  bivector.approxEq cmp Bivector3.zero

/-- src/geometry/line.rs:34-44: the locals `a` and `b` are unused, the result is always `None` -/
def intersect (_self _rhs : Line T) : Option (Vector3 T) := none

end Line
end Kami
