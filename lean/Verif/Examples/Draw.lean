import Verif.Examples.Svg
import Verif.Geom.UtilsModel
import Verif.Geom.PolygonModel
import Verif.Graph.Model
/-!
# The drawing functions of the examples

Model of `draw_graph` and `draw` of `examples/simple_graph/src/lib.rs` and of `draw` of
`examples/simple_polygons/src/lib.rs`.  What is appended to the `svg` element is returned as a list, in order; a panic gives
an error.  Calls into the browser are assumed to succeed, click handlers are left out, random inputs are arguments, and the
literal radii `5.0` and `2.0` are arguments because the scalar classes have no such literals.
`examples/simple_graph/src/lib.rs:85` calls `edge.get_indices()`, which the library at this commit does not have; it is read
as the pair of node indices of the edge.
-/

set_option autoImplicit false

namespace Kami.Draw

open Kami Kami.Svg Kami.Graph
open scoped Kami

variable {F T U : Type}

/-- a child of the `svg` element: the element and the text of its `title` child, if it has one -/
structure Shape where
  element : Element
  title : Option String
  deriving DecidableEq, Repr

/-- examples/simple_graph/src/lib.rs:43-81 (`svg_title`: examples/simple_graph/src/shared.rs:28-33), from node `i` on -/
def drawNodes (fmt : F → String) (five : F) : List (Node F T) → (i : Nat) → List Shape
  | [], _ => []
  | node :: rest, i =>
    ⟨svgCircle fmt node.position five "green" "black", some ("Node " ++ toString i)⟩ :: drawNodes fmt five rest (i + 1)

/-- examples/simple_graph/src/lib.rs:83-101, from edge `index` on -/
def drawEdges (fmt : F → String) (graph : PlanarGraph F T U) : List (Edge U) → (index : Nat) → Res (List Shape)
  | [], _ => .ok []
  | edge :: rest, index => do
    let srcVertex ← PlanarGraph.unwrap (graph.getVertex edge.src)
    let dstVertex ← PlanarGraph.unwrap (graph.getVertex edge.dst)
    let shape : Shape := ⟨svgLine fmt srcVertex.position dstVertex.position "black",
      some ("Edge " ++ toString index ++ " between vertices <" ++ toString edge.src ++ ", " ++ toString edge.dst ++ ">")⟩
    let shapes ← drawEdges fmt graph rest (index + 1)
    return shape :: shapes

/-- examples/simple_graph/src/lib.rs:38-104 -/
def drawGraph (fmt : F → String) (five : F) (graph : PlanarGraph F T U) : Res (List Shape) := do
  let edges ← drawEdges fmt graph graph.edges 0
  return drawNodes fmt five graph.nodes 0 ++ edges

/-- examples/simple_graph/src/lib.rs:113-124: the calls that build the graph; `pt` makes a point of two literals -/
def demoOps (pt : Int → Int → Vec2 F) : List (PlanarGraph.Op F Unit Unit) :=
  [.addNode (pt 100 100) (), .addNode (pt 200 100) (), .addNode (pt 150 50) (), .addNode (pt 150 150) (),
    .addEdge 0 1 (), .addEdge 2 3 (), .removeNode 0, .removeEdge 1, .removeNode 1]

/-- examples/simple_graph/src/lib.rs:106-144: the text of the first paragraph and the shapes -/
def drawDemo [Scalar F] (p : Profile) (fmt : F → String) (five : F) (pt : Int → Int → Vec2 F) :
    Res (String × List Shape) := do
  let graph ← PlanarGraph.run p PlanarGraph.new (demoOps pt)
  let text := "Graph has " ++ toString graph.edgeCount ++ " edges and " ++ toString graph.nodeCount ++ " nodes"
  let shapes ← drawGraph fmt five graph
  return (text, shapes)

section
variable [Scalar F]

/-- one step of the loop of examples/simple_polygons/src/lib.rs:60-80 -/
def drawTriangle (fmt : F → String) (a b c : Vec2 F) : List Element :=
  svgPolygon fmt [a, b, c] "none" "black" ::
    match Utils.calculateTriangleIncenter a b c with
    | some (incenter, inradius) =>
      [svgCircle fmt incenter inradius "none" "blue", svgLine fmt a incenter "red", svgLine fmt b incenter "red",
        svgLine fmt c incenter "red"]
    | none => []

/-- examples/simple_polygons/src/lib.rs:60-80 -/
def drawTriangles (fmt : F → String) : List (Vec2 F × Vec2 F × Vec2 F) → List Element
  | [] => []
  | (a, b, c) :: rest => drawTriangle fmt a b c ++ drawTriangles fmt rest

/-- the inner loop of examples/simple_polygons/src/lib.rs:100-113 from `j` on, `count` steps left: the circles and the number
of intersections found -/
def drawCrossings (fmt : F → String) (two : F) (segments : List (Vec2 F × Vec2 F)) (i : Nat) :
    (count j : Nat) → Res (List Element × Nat)
  | 0, _ => .ok ([], 0)
  | count + 1, j => do
    let si ← index segments i
    let sj ← index segments j
    let (shapes, n) ← drawCrossings fmt two segments i count (j + 1)
    match Utils.calculateLineSegmentIntersection si.1 si.2 sj.1 sj.2 with
    | some intersection => return (svgCircle fmt intersection two "red" "" :: shapes, n + 1)
    | none => return (shapes, n)

/-- the outer loop of examples/simple_polygons/src/lib.rs:93-114 from `i` on, `count` steps left -/
def drawSegments (fmt : F → String) (two : F) (segments : List (Vec2 F × Vec2 F)) :
    (count i : Nat) → Res (List Element × Nat)
  | 0, _ => .ok ([], 0)
  | count + 1, i => do
    let si ← index segments i
    let (circles, n) ← drawCrossings fmt two segments i (segments.length - (i + 1)) (i + 1)
    let (rest, m) ← drawSegments fmt two segments count (i + 1)
    return (svgLine fmt si.1 si.2 "green" :: circles ++ rest, n + m)

end

/-- examples/simple_polygons/src/lib.rs:155: `(index as f32 / triangles.len() as f32) * 360.0`; `ofNat` is `as f32` -/
def hue [Div F] [Mul F] (ofNat : Nat → F) (index len : Nat) : F := ofNat index / ofNat len * ofNat 360

/-- examples/simple_polygons/src/lib.rs:151-160, from triangle `index` on -/
def drawFills [Div F] [Mul F] (fmt : F → String) (ofNat : Nat → F) (len : Nat) : List (Polygon F) → (index : Nat) → List Element
  | [], _ => []
  | triangle :: rest, index =>
    svgPolygon fmt triangle.vertices ("hsl(" ++ fmt (hue ofNat index len) ++ ", 100%, 50%)") "none" ::
      drawFills fmt ofNat len rest (index + 1)

/-- the vertices of examples/simple_polygons/src/lib.rs:121-140 -/
def demoCoords : List (Int × Int) :=
  [(0, 0), (10, 7), (12, 3), (20, 8), (13, 17), (10, 12), (12, 14), (14, 9), (8, 10), (6, 14), (10, 15), (7, 18), (0, 16),
    (1, 13), (3, 15), (5, 8), (-2, 9), (5, 5)]

/-- examples/simple_polygons/src/lib.rs:121-144: the polygon after scaling and moving; `lit` makes a number of a literal -/
def demoPolygon [OrdScalar F] (lit : Int → F) : Res (Polygon F) := do
  let polygon ← Polygon.newUnwrap (demoCoords.map fun p => ⟨lit p.1, lit p.2⟩)
  let polygon := polygon.uniformScale (lit 10)
  return polygon.translate ⟨lit 250, lit 250⟩

end Kami.Draw
