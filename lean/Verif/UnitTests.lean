import Verif.GA.Model
import Verif.Num.Approx
import Verif.Geom.LineModel
import Verif.Geom.UtilsModel
import Verif.Geom.PolygonModel
import Verif.Graph.Model
import Mathlib.Data.Rat.Defs
import Mathlib.Algebra.Order.Ring.Rat
import Mathlib.Algebra.Order.Field.Rat
/-!
# The unit tests of the repository, replayed on the model

These are tests of the model, not proofs of properties: the assertions of the `#[test]` functions of /repo, evaluated on the
model.  They check that the model computes what its authors expect the code to compute.

The tests of the algebra types do not name the number type, so Rust takes f64 (except where `::<f32>` is given).  They are
replayed in f32, with `ulps_eq` and its defaults as in the assertions, and without rounding (in ℚ) when no square root is
involved.  Left out: assertions about `acos`, `sin` and `cos`, and tests that only print.
-/

set_option autoImplicit false

namespace Kami.UnitTests

open Kami Kami.Graph

/-- `assert_ulps_eq!` with its defaults: `epsilon = f32::EPSILON`, `max_ulps = 4` -/
def ulps (a b : F32) : Bool := F32.ulpsEq Scalar.epsilon 4 a b

/-- an integer literal in f32 -/
abbrev l (z : Int) : F32 := F32.lit z

/-! ## src/math/vector.rs:395-548 -/

def u : Vector3 F32 := ⟨l 0, l 1, l 2⟩
def v : Vector3 F32 := ⟨l 3, l 4, l 5⟩
def uq : Vector3 ℚ := ⟨0, 1, 2⟩
def vq : Vector3 ℚ := ⟨3, 4, 5⟩

/-- src/math/vector.rs:400-422 -/
example : ulps (u.dot v) (l 14) ∧ ulps (u.dot v) (((u.mul v).add (v.mul u)).scale (F32.lit 1 2)).scalar ∧
    (((u.mul v).add (v.mul u)).scale (F32.lit 1 2)).bivector.approxEq ulps .zero := by decide +kernel

example : uq.dot vq = 14 ∧ ((uq.mul vq).add (vq.mul uq)).scale (1 / 2) = ⟨14, ⟨0, 0, 0⟩⟩ := by decide +kernel

/-- src/math/vector.rs:425-468 -/
example : (u.wedge u).approxEq ulps .zero ∧
    ((⟨l 1, l 0, l 0⟩ : Vector3 F32).wedge ⟨l 0, l 1, l 0⟩).approxEq ulps ⟨l 1, l 0, l 0⟩ ∧
    ((⟨l 0, l 1, l 0⟩ : Vector3 F32).wedge ⟨l 1, l 0, l 0⟩).approxEq ulps ⟨l (-1), l 0, l 0⟩ ∧
    ulps (l 0) (((u.mul v).sub (v.mul u)).scale (F32.lit 1 2)).scalar ∧
    (u.wedge v).approxEq ulps (((u.mul v).sub (v.mul u)).scale (F32.lit 1 2)).bivector := by decide +kernel

example : uq.wedge uq = ⟨0, 0, 0⟩ ∧ ((⟨1, 0, 0⟩ : Vector3 ℚ).wedge ⟨0, 1, 0⟩) = ⟨1, 0, 0⟩ ∧
    ((uq.mul vq).sub (vq.mul uq)).scale (1 / 2) = ⟨0, uq.wedge vq⟩ := by decide +kernel

/-- src/math/vector.rs:471-481 -/
example : let w : Vector3 F32 := ⟨l 1, l 2, l 3⟩
    ulps (w.inverse.mul w).scalar (l 1) ∧ (w.inverse.mul w).bivector.approxEq ulps .zero := by decide +kernel

example : (Vector3.inverse (⟨1, 2, 3⟩ : Vector3 ℚ)).mul ⟨1, 2, 3⟩ = ⟨1, ⟨0, 0, 0⟩⟩ := by decide +kernel

/-- src/math/vector.rs:484-491, the argument of `acos`, in the form `7 √10 / 25` -/
example : ulps (u.angleCos v) (l 7 * Scalar.sqrt (l 10) / l 25) := by decide +kernel

/-- src/math/vector.rs:494-501 -/
example : ((⟨l 1, l 1, l 0⟩ : Vector3 F32).project ⟨l 2, l 0, l 0⟩).approxEq ulps ⟨l 1, l 0, l 0⟩ := by decide +kernel

example : (⟨1, 1, 0⟩ : Vector3 ℚ).project ⟨2, 0, 0⟩ = ⟨1, 0, 0⟩ := by decide +kernel

/-- src/math/vector.rs:504-527 -/
example : (u.reflect v).approxEq (F32.ulpsEq Scalar.epsilon 6)
      ((v.normalize.scale (l 2 * u.dot v.normalize)).sub u) ∧
    (u.reflect v).approxEq ulps ⟨F32.lit 42 25, F32.lit 31 25, F32.lit 4 5⟩ := by decide +kernel

example : uq.reflect vq = ⟨42 / 25, 31 / 25, 4 / 5⟩ := by decide +kernel

/-- src/math/vector.rs:530-547 -/
example : (u.add v).approxEq ulps ⟨l 3, l 5, l 7⟩ ∧ (u.sub v).approxEq ulps ⟨l (-3), l (-3), l (-3)⟩ := by decide +kernel

/-! ## src/math/bivector.rs:354-468 -/

/-- src/math/bivector.rs:359-373 -/
example : ulps (Bivector3.unitXY.dot Bivector3.unitXZ) (l 0) ∧ ulps (Bivector3.unitXY.dot Bivector3.unitXY) (l (-1)) := by
  decide +kernel

/-- src/math/bivector.rs:376-411; `powf(2.0)` as a product -/
example : ulps (Bivector3.norm Bivector3.unitXY) (l 1) ∧ ulps (Bivector3.norm Bivector3.unitXZ) (l 1) ∧
    ulps (Bivector3.norm Bivector3.unitYZ) (l 1) ∧
    ulps (u.wedge v).normSquared (u.normSquared * v.normSquared - u.dot v * u.dot v) ∧
    ulps (u.wedge v).normSquared ((v.wedge u).dot (u.wedge v)) ∧
    ulps (u.wedge v).normSquared ((v.wedge u).mul (u.wedge v)).scalar := by decide +kernel

/-- src/math/bivector.rs:414-424 -/
example : ulps (u.wedge v).normalize.norm (l 1) ∧ ulps (v.wedge u).normalize.norm (l 1) := by decide +kernel

/-- src/math/bivector.rs:427-441 -/
example : let b := u.wedge v
    ulps (b.inverse.mul b).scalar (l 1) ∧ (b.inverse.mul b).bivector.approxEq ulps .zero ∧
    ulps (b.mul b.inverse).scalar (l 1) ∧ (b.mul b.inverse).bivector.approxEq ulps .zero := by decide +kernel

example : let b := uq.wedge vq
    b.inverse.mul b = ⟨1, ⟨0, 0, 0⟩⟩ ∧ b.mul b.inverse = ⟨1, ⟨0, 0, 0⟩⟩ := by decide +kernel

/-- src/math/bivector.rs:444-466 -/
example : let r0 := u.wedge v
    let r1 := (⟨l 6, l 7, l 8⟩ : Vector3 F32).wedge ⟨l 9, l 10, l 11⟩
    (r0.mul r1).approxEq ulps ⟨r0.dot r1, r0.wedge r1⟩ := by decide +kernel

/-! ## src/math/trivector.rs:271-325 -/

/-- src/math/trivector.rs:276-285 -/
example : ulps (((⟨l 1, l 0, l 0⟩ : Vector3 F32).wedge ⟨l 0, l 2, l 0⟩).wedgeVector ⟨l 0, l 0, l 3⟩).norm (l 6) := by decide +kernel

/-- src/math/trivector.rs:288-300 -/
example : (Trivector3.normalize ⟨l 10⟩).approxEq ulps Trivector3.unitXYZ ∧
    (Trivector3.normalize ⟨l (-10)⟩).approxEq ulps (Trivector3.neg Trivector3.unitXYZ) := by decide +kernel

/-- src/math/trivector.rs:303-313 -/
example : let t : Trivector3 F32 := ⟨l 10⟩
    ulps (t.inverse.mul t) (l 1) ∧ ulps (t.mul t.inverse) (l 1) := by decide +kernel

/-- src/math/trivector.rs:316-323 -/
example : ulps ((⟨l 10⟩ : Trivector3 F32).mul ⟨l 20⟩) (l (-200)) := by decide +kernel

/-! ## src/math/rotor.rs:428-531 -/

/-- src/math/rotor.rs:433-441 -/
example : ((Rotor3.identity : Rotor3 F32).rotate Vector3.unitX).approxEq ulps Vector3.unitX := by decide +kernel

/-- src/math/rotor.rs:444-459 -/
example : let r := Rotor3.fromVectors u v
    (r.mul r.inverse).approxEq ulps ⟨l 1, .zero⟩ ∧ (r.inverse.mul r).approxEq ulps ⟨l 1, .zero⟩ := by decide +kernel

/-- src/math/rotor.rs:462-491, the part without `sin` and `cos` -/
example : let s := l 1 / Scalar.sqrt (l 2)
    let r := Rotor3.fromVectors (⟨l 1, l 0, l 0⟩ : Vector3 F32) ⟨l 0, l 1, l 0⟩
    (r.rotate ⟨l 1, l 0, l 0⟩).approxEq ulps ⟨l 0, l 1, l 0⟩ ∧
    (r.rotate ⟨s, s, l 0⟩).approxEq ulps ⟨-s, s, l 0⟩ := by decide +kernel

/-! ## src/geometry/line.rs:50-78 -/

/-- src/geometry/line.rs:54-77 -/
example : let p : Vector3 F32 := ⟨l 1, l 1, l 0⟩
    let d : Vector3 F32 := ⟨l 1, l 2, l 0⟩
    (Line.new p d).contains ulps (p.add d) = true ∧ (Line.new p d).contains ulps (p.sub (d.scale (l 2))) = true ∧
    (Line.new p d).contains ulps ⟨l (-1), l 1, l 0⟩ = false := by decide +kernel

/-! ## src/geometry/utils.rs:219-251 -/

/-- src/geometry/utils.rs:224-250 -/
example : (Utils.calculateTriangleIncenter (⟨l 0, l 0⟩ : Vec2 F32) ⟨l 14, l 0⟩ ⟨l 5, l 12⟩).map Prod.fst = some ⟨l 6, l 4⟩ ∧
    Utils.calculateTriangleIncenter (⟨l 0, l 0⟩ : Vec2 F32) ⟨l 14, l 0⟩ ⟨l 18, l 0⟩ = none ∧
    Utils.parallel (⟨l 0, l 0⟩ : Vec2 F32) ⟨l 5, l 0⟩ ⟨l 0, l 0⟩ ⟨l (-5), l 0⟩ = true ∧
    Utils.parallel (⟨l 0, l 0⟩ : Vec2 F32) ⟨l 5, l 0⟩ ⟨l (-5), l 0⟩ ⟨l 0, l 0⟩ = true := by decide +kernel

/-! ## src/geometry/polygon.rs:346-435 -/

/-- src/geometry/polygon.rs:351-383 -/
example : (match Polygon.new [(⟨l 0, l 0⟩ : Vec2 F32), ⟨l 5, l 0⟩, ⟨l 0, l 5⟩] with
    | .ok P => ulps (F32.lit 25 2) P.area
    | .error _ => false) = true := by decide +kernel

example : let h := F32.lit 1 2
    between (⟨l 0, l 0⟩ : Vec2 F32) ⟨l 0, l 1⟩ ⟨l 0, h⟩ ∧ left (⟨l 0, l 0⟩ : Vec2 F32) ⟨l 0, l 1⟩ ⟨l (-1), l 0⟩ ∧
    ¬ left (⟨l 0, l 0⟩ : Vec2 F32) ⟨l 0, l 1⟩ ⟨l 1, l 0⟩ ∧
    between (⟨l 0, l 0⟩ : Vec2 F32) ⟨l 1, l 1⟩ ⟨h, h⟩ ∧ left (⟨l 0, l 0⟩ : Vec2 F32) ⟨l 1, l 1⟩ ⟨l 0, l 1⟩ ∧
    ¬ left (⟨l 0, l 0⟩ : Vec2 F32) ⟨l 1, l 1⟩ ⟨l 1, l 0⟩ := by decide +kernel

/-- the polygon of src/geometry/polygon.rs:397-416 -/
def book : List (Vec2 F32) := [(0, 0), (10, 7), (12, 3), (20, 8), (13, 17), (10, 12), (12, 14), (14, 9), (8, 10), (6, 14),
  (10, 15), (7, 18), (0, 16), (1, 13), (3, 15), (5, 8), (-2, 9), (5, 5)].map fun p => ⟨F32.lit p.1, F32.lit p.2⟩

/-- the `while` loop of `triangulate`, at most `n` rounds -/
def runLoop : Nat → Polygon.TriState F32 → Res (Polygon.TriState F32)
  | 0, st => .ok st
  | n + 1, st => if st.copy.vertices.length > 3 then do runLoop n (← Polygon.whileBody st) else .ok st

/-- src/geometry/polygon.rs:418-433 (the values are only printed there): the ears, and 16 triangles after 15 rounds -/
example : (⟨book⟩ : Polygon F32).earFlags 18 0 = .ok [true, false, true, false, false, true, false, false, false, false,
    true, true, false, true, false, false, true, false] := by decide +kernel

example : (match (Polygon.triInit ⟨book⟩) >>= runLoop 15 with
    | .ok st => st.triangles.length + 1 == 16 && st.copy.vertices.length == 3
    | .error _ => false) = true := by decide +kernel

/-! ## src/graph/planar_graph.rs:518-534 -/

/-- src/graph/planar_graph.rs:523-533 (the edges are only printed there): the two edges cross and are split at a fifth node -/
example : (do
    let g : PlanarGraph F32 Unit Unit := .new
    let (g, _) ← g.addNode ⟨l 100, l 100⟩ ()
    let (g, _) ← g.addNode ⟨l 200, l 100⟩ ()
    let (g, _) ← g.addNode ⟨l 150, l 50⟩ ()
    let (g, _) ← g.addNode ⟨l 150, l 150⟩ ()
    let (g, _) ← g.addEdge 0 1 ()
    let (g, _) ← g.addEdge 2 3 ()
    return (g.nodes.map (fun n => n.position), g.edges.map fun e => (e.src, e.dst))) =
  Except.ok (ε := Panic) ([⟨l 100, l 100⟩, ⟨l 200, l 100⟩, ⟨l 150, l 50⟩, ⟨l 150, l 150⟩, ⟨l 150, l 100⟩],
    [(0, 4), (2, 4), (1, 4), (3, 4)]) := by decide +kernel

end Kami.UnitTests
