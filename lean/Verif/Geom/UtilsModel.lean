import Verif.Base.Panic
import Verif.Num.Scalar
/-!
# Model of `src/geometry/utils.rs`
-/

namespace Kami

open scoped Kami

variable {F : Type}

/-- `a + b` on `Vec2` (nalgebra, component-wise) -/
def Vec2.add [Add F] (a b : Vec2 F) : Vec2 F := ⟨a.x + b.x, a.y + b.y⟩
/-- `a - b` on `Vec2` (nalgebra, component-wise) -/
def Vec2.sub [Sub F] (a b : Vec2 F) : Vec2 F := ⟨a.x - b.x, a.y - b.y⟩
/-- `a * s` on `Vec2` (nalgebra, component-wise) -/
def Vec2.scale [Mul F] (a : Vec2 F) (s : F) : Vec2 F := ⟨a.x * s, a.y * s⟩
/-- `a.dot(b)` (nalgebra) -/
def Vec2.dot [Add F] [Mul F] (a b : Vec2 F) : F := a.x * b.x + a.y * b.y

variable [Scalar F]

/-- `a.norm()` (nalgebra) -/
def Vec2.norm (a : Vec2 F) : F := Scalar.sqrt (a.dot a)
/-- `a.normalize()` (nalgebra: every component divided by the norm) -/
def Vec2.normalize (a : Vec2 F) : Vec2 F := ⟨a.x / a.norm, a.y / a.norm⟩

/-- `nalgebra_glm::distance(a, b)`, the norm of `b - a` -/
def distance (a b : Vec2 F) : F := (b.sub a).norm

/-- `nalgebra_glm::normalize_dot(x, y)` -/
def normalizeDot (x y : Vec2 F) : F := x.normalize.dot y.normalize

namespace Utils

/-- src/geometry/utils.rs:5-18 -/
def parallel (a b c d : Vec2 F) : Bool :=
  let dirAb := b.sub a
  let dirCd := d.sub c
  let absDot := OrdScalar.abs (normalizeDot dirAb dirCd)
  OrdScalar.abs (absDot - OrdScalar.one) <. Scalar.epsilon

/-- src/geometry/utils.rs:21-33 -/
def isDegenerateTriangle (a b c : Vec2 F) : Bool :=
  let sideA := distance b c
  let sideB := distance a c
  let sideC := distance a b
  (sideA + sideB ≤. sideC) || (sideA + sideC ≤. sideB) || (sideB + sideC ≤. sideA)

/-- src/geometry/utils.rs:37-63 -/
def calculateTriangleIncenter (a b c : Vec2 F) : Option (Vec2 F × F) :=
  if isDegenerateTriangle a b c then none
  else
    let sideA := distance b c
    let sideB := distance a c
    let sideC := distance a b
    let invP := OrdScalar.one / (sideA + sideB + sideC)
    let incenter : Vec2 F :=
      ⟨(sideA * a.x + sideB * b.x + sideC * c.x) * invP,
       (sideA * a.y + sideB * b.y + sideC * c.y) * invP⟩
    let p := (sideA + sideB + sideC) * OrdScalar.half
    let area := Scalar.sqrt (p * (p - sideA) * (p - sideB) * (p - sideC))
    let inradius := area / p
    some (incenter, inradius)

/-- src/geometry/utils.rs:66-81 -/
def calculateLineSegmentIntersection (a b c d : Vec2 F) : Option (Vec2 F) :=
  let deltaX0 := b.x - a.x
  let deltaY0 := b.y - a.y
  let deltaX1 := d.x - c.x
  let deltaY1 := d.y - c.y
  let denom := -deltaX1 * deltaY0 + deltaX0 * deltaY1
  let s := (-deltaY0 * (a.x - c.x) + deltaX0 * (a.y - c.y)) / denom
  let t := (deltaX1 * (a.y - c.y) - deltaY1 * (a.x - c.x)) / denom
  if (OrdScalar.zero ≤. s) && (s ≤. OrdScalar.one) && (OrdScalar.zero ≤. t) && (t ≤. OrdScalar.one) then
    some ⟨a.x + t * deltaX0, a.y + t * deltaY0⟩
  else none

/-- src/geometry/utils.rs:85-91.  Simplification: `powf(2.0)` is modelled as a product. -/
def calculatePerpendicularPoint (a b p : Vec2 F) : Vec2 F :=
  let numer := (b.y - a.y) * (p.x - a.x) - (b.x - a.x) * (p.y - a.y)
  let denom := (b.y - a.y) * (b.y - a.y) + (b.x - a.x) * (b.x - a.x)
  let k := numer / denom
  ⟨p.x - k * (b.y - a.y), p.y + k * (b.x - a.x)⟩

/-- src/geometry/utils.rs:94-96 -/
def calculateMidpoint (a b : Vec2 F) : Vec2 F := (a.add b).scale OrdScalar.half

/-- src/geometry/utils.rs:101-118 -/
def calculatePerpendicularBisector (a b : Vec2 F) (offset : F) : Vec2 F × Vec2 F :=
  let midpoint := calculateMidpoint a b
  let slope := (b.y - a.y) / (b.x - a.x)
  let slopePerpendicular := -OrdScalar.one / slope
  let intercept := midpoint.y - slopePerpendicular * midpoint.x
  let offsetPoint := midpoint.add ⟨offset, OrdScalar.zero⟩
  let second : Vec2 F := ⟨offsetPoint.x, offsetPoint.x * slopePerpendicular + intercept⟩
  (midpoint, second)

/-- src/geometry/utils.rs:121-133 (the last parameter is not used by the code) -/
def isOnLineSegment (a b p : Vec2 F) (_includeEndpoints : Bool) : Bool :=
  let ab := distance a b
  let ap := distance a p
  let pb := distance p b
  (OrdScalar.abs ((ap + pb) - ab) <. Scalar.epsilon)
    && (Scalar.epsilon <. OrdScalar.abs ap)
    && (Scalar.epsilon <. OrdScalar.abs pb)

/-- the loop of `find_closest_to` (src/geometry/utils.rs:148-153) over the distances from `index` on -/
def closestLoop : List F → (index minIndex : Nat) → (minDistance : F) → Nat × F
  | [], _, minIndex, minDistance => (minIndex, minDistance)
  | d :: ds, index, minIndex, minDistance =>
    if d <. minDistance then closestLoop ds (index + 1) index d
    else closestLoop ds (index + 1) minIndex minDistance

/-- src/geometry/utils.rs:137-155 -/
def findClosestTo (t : Vec2 F) (points : List (Vec2 F)) : Nat × F :=
  let distances := points.map fun p => distance t p
  closestLoop distances 0 0 Scalar.maxValue

/-- src/geometry/utils.rs:167-169 -/
def closeTo (a b : Vec2 F) : Bool := distance a b ≤. Scalar.epsilon

/-- the inner loop of `unique_points_among` (src/geometry/utils.rs:181-186) from `j` on -/
def isUnique (i : Nat) (a : Vec2 F) : List (Vec2 F) → (j : Nat) → Bool
  | [], _ => true
  | b :: bs, j => if i != j && closeTo a b then false else isUnique i a bs (j + 1)

/-- the outer loop of `unique_points_among` (src/geometry/utils.rs:175-191) from `i` on -/
def uniqueLoop (ps : List (Vec2 F)) : List (Vec2 F) → (i : Nat) → List (Vec2 F)
  | [], _ => []
  | a :: as, i => if isUnique i a ps 0 then a :: uniqueLoop ps as (i + 1) else uniqueLoop ps as (i + 1)

/-- src/geometry/utils.rs:172-194 -/
def uniquePointsAmong (ps : List (Vec2 F)) : List (Vec2 F) := uniqueLoop ps ps 0

/-- src/geometry/utils.rs:199-217 -/
def calculateLineIntersection (a b c d : Vec2 F) : Option (Vec2 F) :=
  let determinant := (d.y - c.y) * (b.x - a.x) - (d.x - c.x) * (b.y - a.y)
  if Scalar.epsilon <. OrdScalar.abs determinant then
    let uA := ((d.x - c.x) * (a.y - c.y) - (d.y - c.y) * (a.x - c.x)) / determinant
    let uB := ((b.x - a.x) * (a.y - c.y) - (b.y - a.y) * (a.x - c.x)) / determinant
    if !(((OrdScalar.zero ≤. uA) && (uA ≤. OrdScalar.one)) &&
        ((OrdScalar.zero ≤. uB) && (uB ≤. OrdScalar.one))) then none
    else
      let x := a.x + uA * (b.x - a.x)
      let y := a.y + uA * (b.y - a.y)
      some ⟨x, y⟩
  else none

end Utils
end Kami
