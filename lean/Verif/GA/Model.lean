import Verif.Num.Scalar
/-!
# Model of `src/math`: vectors, bivectors, trivectors and rotors of 3-space

The Rust types are generic over a scalar `T` with operator bounds; so are the definitions here.
Operator overloads become named functions (`u * v` on vectors is `Vector3.mul`, `u * s` with a scalar is
`Vector3.scale`, ...).  `num_traits::Zero`/`One` are Lean's `Zero`/`One`; functions whose Rust bound is
`T: Float` and which need `sqrt` or division ask for `Scalar T`.
`*Assign` operators, which mutate `self`, return the new value, one statement per component as in the source.
-/

namespace Kami

/-- src/math/vector.rs:11-21 -/
@[ext] structure Vector3 (T : Type u) where
  a1 : T
  a2 : T
  a3 : T
  deriving DecidableEq, Repr

/-- src/math/bivector.rs:14-24 (components of e₁₂, e₁₃, e₂₃) -/
@[ext] structure Bivector3 (T : Type u) where
  b1 : T
  b2 : T
  b3 : T
  deriving DecidableEq, Repr

/-- src/math/trivector.rs:15-19 -/
@[ext] structure Trivector3 (T : Type u) where
  t1 : T
  deriving DecidableEq, Repr

/-- src/math/rotor.rs:18-22 -/
@[ext] structure Rotor3 (T : Type u) where
  scalar : T
  bivector : Bivector3 T
  deriving DecidableEq, Repr

variable {T : Type u}

/-! ## Bivectors -/
namespace Bivector3

/-- src/math/bivector.rs:38-40 -/
def unitXY [One T] [Zero T] : Bivector3 T := ⟨1, 0, 0⟩
/-- src/math/bivector.rs:43-45 -/
def unitXZ [One T] [Zero T] : Bivector3 T := ⟨0, 1, 0⟩
/-- src/math/bivector.rs:48-50 -/
def unitYZ [One T] [Zero T] : Bivector3 T := ⟨0, 0, 1⟩

/-- src/math/bivector.rs:66-68 -/
def dot [Add T] [Mul T] [Neg T] (self rhs : Bivector3 T) : T :=
  -(self.b1 * rhs.b1 + self.b2 * rhs.b2 + self.b3 * rhs.b3)

/-- src/math/bivector.rs:78-84 -/
def wedge [Mul T] [Sub T] (self rhs : Bivector3 T) : Bivector3 T :=
  ⟨self.b3 * rhs.b2 - self.b2 * rhs.b3,
   self.b1 * rhs.b3 - self.b3 * rhs.b1,
   self.b2 * rhs.b1 - self.b1 * rhs.b2⟩

/-- src/math/bivector.rs:108-110 -/
def wedgeVector [Add T] [Mul T] [Sub T] (self : Bivector3 T) (rhs : Vector3 T) : Trivector3 T :=
  ⟨self.b3 * rhs.a1 - self.b2 * rhs.a2 + self.b1 * rhs.a3⟩

/-- src/math/bivector.rs:155-157 -/
def add [Add T] (self rhs : Bivector3 T) : Bivector3 T :=
  ⟨self.b1 + rhs.b1, self.b2 + rhs.b2, self.b3 + rhs.b3⟩

/-- src/math/bivector.rs:166-170 -/
def addAssign [Add T] (self rhs : Bivector3 T) : Bivector3 T := Id.run do
  let mut self := self
  self := { self with b1 := self.b1 + rhs.b1 }
  self := { self with b2 := self.b2 + rhs.b2 }
  self := { self with b3 := self.b3 + rhs.b3 }
  return self

/-- src/math/bivector.rs:181-183 -/
def divScalar [Div T] (self : Bivector3 T) (rhs : T) : Bivector3 T :=
  ⟨self.b1 / rhs, self.b2 / rhs, self.b3 / rhs⟩

/-- src/math/bivector.rs:192-196 -/
def divAssign [Div T] (self : Bivector3 T) (rhs : T) : Bivector3 T := Id.run do
  let mut self := self
  self := { self with b1 := self.b1 / rhs }
  self := { self with b2 := self.b2 / rhs }
  self := { self with b3 := self.b3 / rhs }
  return self

/-- src/math/bivector.rs:208-220 -/
def mul [Add T] [Mul T] [Neg T] [Sub T] (self rhs : Bivector3 T) : Rotor3 T :=
  ⟨-(self.b1 * rhs.b1 + self.b2 * rhs.b2 + self.b3 * rhs.b3),
   ⟨self.b3 * rhs.b2 - self.b2 * rhs.b3,
    self.b1 * rhs.b3 - self.b3 * rhs.b1,
    self.b2 * rhs.b1 - self.b1 * rhs.b2⟩⟩

/-- src/math/bivector.rs:231-233 -/
def scale [Mul T] (self : Bivector3 T) (rhs : T) : Bivector3 T :=
  ⟨self.b1 * rhs, self.b2 * rhs, self.b3 * rhs⟩

/-- src/math/bivector.rs:242-246 -/
def mulAssign [Mul T] (self : Bivector3 T) (rhs : T) : Bivector3 T := Id.run do
  let mut self := self
  self := { self with b1 := self.b1 * rhs }
  self := { self with b2 := self.b2 * rhs }
  self := { self with b3 := self.b3 * rhs }
  return self

/-- src/math/bivector.rs:259-261 -/
def neg [Neg T] (self : Bivector3 T) : Bivector3 T := ⟨-self.b1, -self.b2, -self.b3⟩

/-- src/math/bivector.rs:273-275 -/
def sub [Sub T] (self rhs : Bivector3 T) : Bivector3 T :=
  ⟨self.b1 - rhs.b1, self.b2 - rhs.b2, self.b3 - rhs.b3⟩

/-- src/math/bivector.rs:284-288 -/
def subAssign [Sub T] (self rhs : Bivector3 T) : Bivector3 T := Id.run do
  let mut self := self
  self := { self with b1 := self.b1 - rhs.b1 }
  self := { self with b2 := self.b2 - rhs.b2 }
  self := { self with b3 := self.b3 - rhs.b3 }
  return self

/-- src/math/bivector.rs:297-299 -/
def zero [Zero T] : Bivector3 T := ⟨0, 0, 0⟩

/-- src/math/bivector.rs:302-304; `isZ` is `T::is_zero` -/
def isZero (isZ : T → Bool) (self : Bivector3 T) : Bool :=
  isZ self.b1 && isZ self.b2 && isZ self.b3

/-- src/math/bivector.rs:128-130 -/
def normSquared [Add T] [Mul T] [Neg T] (self : Bivector3 T) : T := dot (neg self) self

/-- src/math/bivector.rs:121-123 -/
def norm [Scalar T] (self : Bivector3 T) : T := Scalar.sqrt self.normSquared

/-- src/math/bivector.rs:135-137 -/
def normalize [Scalar T] (self : Bivector3 T) : Bivector3 T := self.divScalar self.norm

/-- src/math/bivector.rs:141-143 -/
def inverse [Add T] [Mul T] [Neg T] [Div T] (self : Bivector3 T) : Bivector3 T :=
  (neg self).divScalar self.normSquared

end Bivector3

/-! ## Trivectors -/
namespace Trivector3

/-- src/math/trivector.rs:32-34 -/
def unitXYZ [One T] : Trivector3 T := ⟨1⟩

/-- src/math/trivector.rs:49-51 -/
def dot [Mul T] [Neg T] (self rhs : Trivector3 T) : T := -self.t1 * rhs.t1

/-- src/math/trivector.rs:63-65 -/
def wedge [Zero T] (_self _rhs : Trivector3 T) : T := 0

/-- src/math/trivector.rs:110-114 -/
def add [Add T] (self rhs : Trivector3 T) : Trivector3 T := ⟨self.t1 + rhs.t1⟩

/-- src/math/trivector.rs:123-125 -/
def addAssign [Add T] (self rhs : Trivector3 T) : Trivector3 T := Id.run do
  let mut self := self
  self := { self with t1 := self.t1 + rhs.t1 }
  return self

/-- src/math/trivector.rs:136-138 -/
def divScalar [Div T] (self : Trivector3 T) (rhs : T) : Trivector3 T := ⟨self.t1 / rhs⟩

/-- src/math/trivector.rs:147-149 -/
def divAssign [Div T] (self : Trivector3 T) (rhs : T) : Trivector3 T := Id.run do
  let mut self := self
  self := { self with t1 := self.t1 / rhs }
  return self

/-- src/math/trivector.rs:161-163 -/
def mul [Mul T] [Neg T] (self rhs : Trivector3 T) : T := -self.t1 * rhs.t1

/-- src/math/trivector.rs:172-174 (there is no `Mul<T>` for trivectors, only the compound assignment) -/
def mulAssign [Mul T] (self : Trivector3 T) (rhs : T) : Trivector3 T := Id.run do
  let mut self := self
  self := { self with t1 := self.t1 * rhs }
  return self

/-- src/math/trivector.rs:186-188 -/
def neg [Neg T] (self : Trivector3 T) : Trivector3 T := ⟨-self.t1⟩

/-- src/math/trivector.rs:200-202 -/
def sub [Sub T] (self rhs : Trivector3 T) : Trivector3 T := ⟨self.t1 - rhs.t1⟩

/-- src/math/trivector.rs:211-213 -/
def subAssign [Sub T] (self rhs : Trivector3 T) : Trivector3 T := Id.run do
  let mut self := self
  self := { self with t1 := self.t1 - rhs.t1 }
  return self

/-- src/math/trivector.rs:219-221 -/
def zero [Zero T] : Trivector3 T := ⟨0⟩

/-- src/math/trivector.rs:224-226 -/
def isZero (isZ : T → Bool) (self : Trivector3 T) : Bool := isZ self.t1

/-- src/math/trivector.rs:83-85 -/
def normSquared [Mul T] [Neg T] (self : Trivector3 T) : T := dot (neg self) self

/-- src/math/trivector.rs:76-78 -/
def norm [Scalar T] (self : Trivector3 T) : T := Scalar.sqrt self.normSquared

/-- src/math/trivector.rs:90-92 -/
def normalize [Scalar T] (self : Trivector3 T) : Trivector3 T := self.divScalar self.norm

/-- src/math/trivector.rs:97-99 -/
def inverse [Mul T] [Neg T] [Div T] (self : Trivector3 T) : Trivector3 T :=
  (neg self).divScalar self.normSquared

end Trivector3

/-! ## Rotors -/
namespace Rotor3

/-- src/math/rotor.rs:32-37 -/
def identity [One T] [Zero T] : Rotor3 T := ⟨1, Bivector3.zero⟩

/-- src/math/rotor.rs:118-120 -/
def dot [Add T] [Mul T] [Neg T] (self rhs : Rotor3 T) : T :=
  self.scalar * rhs.scalar + self.bivector.dot rhs.bivector

/-- src/math/rotor.rs:159-161 -/
def inverse [Neg T] (self : Rotor3 T) : Rotor3 T := ⟨self.scalar, self.bivector.neg⟩

/-- src/math/rotor.rs:139-141 -/
def normSquared [Add T] [Mul T] [Neg T] (self : Rotor3 T) : T := self.inverse.dot self

/-- src/math/rotor.rs:132-134 -/
def norm [Scalar T] (self : Rotor3 T) : T := Scalar.sqrt self.normSquared

/-- src/math/rotor.rs:241-243 -/
def divScalar [Div T] (self : Rotor3 T) (rhs : T) : Rotor3 T :=
  ⟨self.scalar / rhs, self.bivector.divScalar rhs⟩

/-- src/math/rotor.rs:145-147 -/
def normalize [Scalar T] (self : Rotor3 T) : Rotor3 T := self.divScalar self.norm

/-- src/math/rotor.rs:169-204 -/
def rotate [Add T] [Mul T] [Neg T] [Sub T] (self : Rotor3 T) (u : Vector3 T) : Vector3 T :=
  let a := self.scalar
  let b1 := self.bivector.b1
  let b2 := self.bivector.b2
  let b3 := self.bivector.b3
  let u1 := u.a1
  let u2 := u.a2
  let u3 := u.a3
  let q : Vector3 T :=
    ⟨a * u1 + b1 * u2 + b2 * u3,
     a * u2 - b1 * u1 + b3 * u3,
     a * u3 - b2 * u1 - b3 * u2⟩
  let q123 := -b1 * u3 + b2 * u2 - b3 * u1
  let q1 := q.a1
  let q2 := q.a2
  let q3 := q.a3
  let y := q123
  ⟨a * q1 + q2 * b1 + q3 * b2 - y * b3,
   a * q2 - q1 * b1 + y * b2 + q3 * b3,
   a * q3 - y * b1 - q1 * b2 - q2 * b3⟩

/-- src/math/rotor.rs:216-218 -/
def add [Add T] (self rhs : Rotor3 T) : Rotor3 T :=
  ⟨self.scalar + rhs.scalar, self.bivector.add rhs.bivector⟩

/-- src/math/rotor.rs:227-230 -/
def addAssign [Add T] (self rhs : Rotor3 T) : Rotor3 T := Id.run do
  let mut self := self
  self := { self with scalar := self.scalar + rhs.scalar }
  self := { self with bivector := self.bivector.addAssign rhs.bivector }
  return self

/-- src/math/rotor.rs:252-255 -/
def divAssign [Div T] (self : Rotor3 T) (rhs : T) : Rotor3 T := Id.run do
  let mut self := self
  self := { self with scalar := self.scalar / rhs }
  self := { self with bivector := self.bivector.divAssign rhs }
  return self

/-- src/math/rotor.rs:269-291 -/
def mul [Add T] [Mul T] [Sub T] (self rhs : Rotor3 T) : Rotor3 T :=
  ⟨self.scalar * rhs.scalar
      - self.bivector.b1 * rhs.bivector.b1
      - self.bivector.b2 * rhs.bivector.b2
      - self.bivector.b3 * rhs.bivector.b3,
   ⟨self.scalar * rhs.bivector.b1 + rhs.scalar * self.bivector.b1
      - self.bivector.b2 * rhs.bivector.b3
      + self.bivector.b3 * rhs.bivector.b2,
    self.scalar * rhs.bivector.b2
      + rhs.scalar * self.bivector.b2
      + self.bivector.b1 * rhs.bivector.b3
      - self.bivector.b3 * rhs.bivector.b1,
    self.scalar * rhs.bivector.b3 + rhs.scalar * self.bivector.b3
      - self.bivector.b1 * rhs.bivector.b2
      + self.bivector.b2 * rhs.bivector.b1⟩⟩

/-- src/math/rotor.rs:302-304 -/
def scale [Mul T] (self : Rotor3 T) (rhs : T) : Rotor3 T :=
  ⟨self.scalar * rhs, self.bivector.scale rhs⟩

/-- src/math/rotor.rs:313-316 -/
def mulAssign [Mul T] (self : Rotor3 T) (rhs : T) : Rotor3 T := Id.run do
  let mut self := self
  self := { self with scalar := self.scalar * rhs }
  self := { self with bivector := self.bivector.mulAssign rhs }
  return self

/-- src/math/rotor.rs:328-340 -/
def mulVector [Add T] [Mul T] [Sub T] (self : Rotor3 T) (rhs : Vector3 T) : Vector3 T × Trivector3 T :=
  (⟨self.scalar * rhs.a1 + self.bivector.b1 * rhs.a2 + self.bivector.b2 * rhs.a3,
    self.scalar * rhs.a2 - self.bivector.b1 * rhs.a1 + self.bivector.b3 * rhs.a3,
    self.scalar * rhs.a3 - self.bivector.b2 * rhs.a1 - self.bivector.b3 * rhs.a2⟩,
   ⟨self.bivector.b1 * rhs.a3 - self.bivector.b2 * rhs.a2 + self.bivector.b3 * rhs.a1⟩)

/-- src/math/rotor.rs:353-355 -/
def neg [Neg T] (self : Rotor3 T) : Rotor3 T := ⟨-self.scalar, self.bivector.neg⟩

/-- src/math/rotor.rs:367-369 -/
def sub [Sub T] (self rhs : Rotor3 T) : Rotor3 T :=
  ⟨self.scalar - rhs.scalar, self.bivector.sub rhs.bivector⟩

/-- src/math/rotor.rs:378-381 -/
def subAssign [Sub T] (self rhs : Rotor3 T) : Rotor3 T := Id.run do
  let mut self := self
  self := { self with scalar := self.scalar - rhs.scalar }
  self := { self with bivector := self.bivector.subAssign rhs.bivector }
  return self

end Rotor3

/-! ## Vectors -/
namespace Vector3

/-- src/math/vector.rs:35-37 -/
def unitX [One T] [Zero T] : Vector3 T := ⟨1, 0, 0⟩
/-- src/math/vector.rs:40-42 -/
def unitY [One T] [Zero T] : Vector3 T := ⟨0, 1, 0⟩
/-- src/math/vector.rs:45-47 -/
def unitZ [One T] [Zero T] : Vector3 T := ⟨0, 0, 1⟩

/-- src/math/vector.rs:61-63 -/
def dot [Add T] [Mul T] (self rhs : Vector3 T) : T :=
  self.a1 * rhs.a1 + self.a2 * rhs.a2 + self.a3 * rhs.a3

/-- src/math/vector.rs:89-95 -/
def wedge [Mul T] [Sub T] (self rhs : Vector3 T) : Bivector3 T :=
  ⟨self.a1 * rhs.a2 - self.a2 * rhs.a1,
   self.a1 * rhs.a3 - self.a3 * rhs.a1,
   self.a2 * rhs.a3 - self.a3 * rhs.a2⟩

/-- src/math/vector.rs:112-114 -/
def normSquared [Add T] [Mul T] (self : Vector3 T) : T := self.dot self

/-- src/math/vector.rs:106-108 -/
def norm [Scalar T] (self : Vector3 T) : T := Scalar.sqrt self.normSquared

/-- src/math/vector.rs:185-187 -/
def add [Add T] (self rhs : Vector3 T) : Vector3 T :=
  ⟨self.a1 + rhs.a1, self.a2 + rhs.a2, self.a3 + rhs.a3⟩

/-- src/math/vector.rs:196-200 -/
def addAssign [Add T] (self rhs : Vector3 T) : Vector3 T := Id.run do
  let mut self := self
  self := { self with a1 := self.a1 + rhs.a1 }
  self := { self with a2 := self.a2 + rhs.a2 }
  self := { self with a3 := self.a3 + rhs.a3 }
  return self

/-- src/math/vector.rs:211-213 -/
def divScalar [Div T] (self : Vector3 T) (rhs : T) : Vector3 T :=
  ⟨self.a1 / rhs, self.a2 / rhs, self.a3 / rhs⟩

/-- src/math/vector.rs:222-226 -/
def divAssign [Div T] (self : Vector3 T) (rhs : T) : Vector3 T := Id.run do
  let mut self := self
  self := { self with a1 := self.a1 / rhs }
  self := { self with a2 := self.a2 / rhs }
  self := { self with a3 := self.a3 / rhs }
  return self

/-- src/math/vector.rs:237-239 -/
def mul [Add T] [Mul T] [Sub T] (self rhs : Vector3 T) : Rotor3 T :=
  ⟨self.dot rhs, self.wedge rhs⟩

/-- src/math/vector.rs:250-252 -/
def scale [Mul T] (self : Vector3 T) (rhs : T) : Vector3 T :=
  ⟨self.a1 * rhs, self.a2 * rhs, self.a3 * rhs⟩

/-- src/math/vector.rs:261-265 -/
def mulAssign [Mul T] (self : Vector3 T) (rhs : T) : Vector3 T := Id.run do
  let mut self := self
  self := { self with a1 := self.a1 * rhs }
  self := { self with a2 := self.a2 * rhs }
  self := { self with a3 := self.a3 * rhs }
  return self

/-- src/math/vector.rs:278-290 -/
def mulBivector [Add T] [Mul T] [Neg T] [Sub T] (self : Vector3 T) (rhs : Bivector3 T) :
    Vector3 T × Trivector3 T :=
  (⟨-self.a2 * rhs.b1 - self.a3 * rhs.b2,
    self.a1 * rhs.b1 - self.a3 * rhs.b3,
    self.a1 * rhs.b2 + self.a2 * rhs.b3⟩,
   ⟨self.a1 * rhs.b3 - self.a2 * rhs.b2 + self.a3 * rhs.b1⟩)

/-- src/math/vector.rs:301-303 -/
def neg [Neg T] (self : Vector3 T) : Vector3 T := ⟨-self.a1, -self.a2, -self.a3⟩

/-- src/math/vector.rs:314-316 -/
def sub [Sub T] (self rhs : Vector3 T) : Vector3 T :=
  ⟨self.a1 - rhs.a1, self.a2 - rhs.a2, self.a3 - rhs.a3⟩

/-- src/math/vector.rs:325-329 -/
def subAssign [Sub T] (self rhs : Vector3 T) : Vector3 T := Id.run do
  let mut self := self
  self := { self with a1 := self.a1 - rhs.a1 }
  self := { self with a2 := self.a2 - rhs.a2 }
  self := { self with a3 := self.a3 - rhs.a3 }
  return self

/-- src/math/vector.rs:338-340 -/
def zero [Zero T] : Vector3 T := ⟨0, 0, 0⟩

/-- src/math/vector.rs:343-345; `isZ` is `T::is_zero` -/
def isZero (isZ : T → Bool) (self : Vector3 T) : Bool :=
  isZ self.a1 && isZ self.a2 && isZ self.a3

/-- src/math/vector.rs:119-121 -/
def normalize [Scalar T] (self : Vector3 T) : Vector3 T := self.divScalar self.norm

/-- src/math/vector.rs:125-127 -/
def inverse [Add T] [Mul T] [Div T] (self : Vector3 T) : Vector3 T := self.divScalar self.normSquared

/-- src/math/vector.rs:137-141, up to the final `acos`: the cosine that is passed to it -/
def angleCos [Scalar T] (self rhs : Vector3 T) : T :=
  let uNorm := self.normalize
  let vNorm := rhs.normalize
  uNorm.dot vNorm

/-- src/math/vector.rs:137-141 -/
def angle [TrigScalar T] (self rhs : Vector3 T) : T := TrigScalar.acos (self.angleCos rhs)

/-- src/math/vector.rs:151-155 -/
def project [Add T] [Mul T] [Div T] (self rhs : Vector3 T) : Vector3 T :=
  rhs.inverse.scale (self.dot rhs)

/-- src/math/vector.rs:164-174, with the discarded trivector part -/
def reflectParts [Add T] [Mul T] [Sub T] [Div T] (self rhs : Vector3 T) : Vector3 T × Trivector3 T :=
  let rotor := rhs.inverse.mul self
  rotor.mulVector rhs

/-- src/math/vector.rs:164-174 -/
def reflect [Add T] [Mul T] [Sub T] [Div T] (self rhs : Vector3 T) : Vector3 T :=
  (self.reflectParts rhs).1

end Vector3

/-! ## Rotor constructors -/
namespace Rotor3

/-- src/math/rotor.rs:57-77 -/
def fromVectors [Scalar T] [One T] (u v : Vector3 T) : Rotor3 T :=
  let scalar := 1 + v.dot u
  let bivector := v.wedge u
  normalize ⟨scalar, bivector⟩

/-- src/math/rotor.rs:87-91 -/
def fromAnglePlane [TrigScalar T] (angleRadians : T) (plane : Bivector3 T) : Rotor3 T :=
  let sin := TrigScalar.sin (angleRadians / TrigScalar.two)
  let cos := TrigScalar.cos (angleRadians / TrigScalar.two)
  ⟨cos, plane.scale (-sin)⟩

/-- src/math/rotor.rs:94-96 -/
def fromXYRotation [TrigScalar T] [One T] [Zero T] (angleRadians : T) : Rotor3 T :=
  fromAnglePlane angleRadians Bivector3.unitXY

/-- src/math/rotor.rs:99-101 -/
def fromXZRotation [TrigScalar T] [One T] [Zero T] (angleRadians : T) : Rotor3 T :=
  fromAnglePlane angleRadians Bivector3.unitXZ

/-- src/math/rotor.rs:104-106 -/
def fromYZRotation [TrigScalar T] [One T] [Zero T] (angleRadians : T) : Rotor3 T :=
  fromAnglePlane angleRadians Bivector3.unitYZ

end Rotor3

/-! ## Approximate comparison (`approx` 0.3.2)

`AbsDiffEq`, `RelativeEq` and `UlpsEq` of the algebra types all combine the comparison of the components with
`&&`; `cmp` stands for the comparison of the component type with its tolerances already supplied. -/

/-- src/math/vector.rs:358-362, 373-377, 388-392 -/
def Vector3.approxEq (cmp : T → T → Bool) (self other : Vector3 T) : Bool :=
  cmp self.a1 other.a1 && cmp self.a2 other.a2 && cmp self.a3 other.a3

/-- src/math/bivector.rs:317-321, 332-336, 347-351 -/
def Bivector3.approxEq (cmp : T → T → Bool) (self other : Bivector3 T) : Bool :=
  cmp self.b1 other.b1 && cmp self.b2 other.b2 && cmp self.b3 other.b3

/-- src/math/trivector.rs:239-241, 252-254, 265-267 -/
def Trivector3.approxEq (cmp : T → T → Bool) (self other : Trivector3 T) : Bool :=
  cmp self.t1 other.t1

/-- src/math/rotor.rs:394-397, 408-411, 422-425 -/
def Rotor3.approxEq (cmp : T → T → Bool) (self other : Rotor3 T) : Bool :=
  cmp self.scalar other.scalar && Bivector3.approxEq cmp self.bivector other.bivector

end Kami
