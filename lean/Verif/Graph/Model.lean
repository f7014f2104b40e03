import Verif.Geom.UtilsModel
/-!
# Model of `src/graph/planar_graph.rs`

`F` is the scalar, `T` the node data, `U` the edge data.  A method taking `&mut self` returns the new graph
together with its result.  `println!` is dropped.  Where the Rust code can panic, the model returns `Res`.
-/

namespace Kami.Graph

open Kami
open scoped Kami



/-- src/graph/planar_graph.rs:14-24 -/
structure Node (F : Type) (T : Type) where
  position : Vec2 F
  data : T
  label : String
  deriving DecidableEq, Repr

/-- src/graph/planar_graph.rs:40-53 -/
structure Edge (U : Type) where
  src : Nat
  dst : Nat
  data : U
  label : String
  deriving DecidableEq, Repr

/-- src/graph/planar_graph.rs:77-79 -/
def Edge.includes {U : Type} (e : Edge U) (id : Nat) : Bool := e.src == id || e.dst == id

/-- src/graph/planar_graph.rs:82-85 -/
inductive PlanarGraphError
  | NoSuchVertex
  | NoSuchEdge
  deriving DecidableEq, Repr

/-- src/graph/planar_graph.rs:88-95 -/
structure PlanarGraph (F : Type) (T : Type) (U : Type) where
  nodes : List (Node F T)
  edges : List (Edge U)
  deriving DecidableEq, Repr

/-- src/graph/planar_graph.rs:12 -/
def defaultLabel : String := ""

variable {F : Type} {T : Type} {U : Type}

namespace PlanarGraph

/-- src/graph/planar_graph.rs:102-107 -/
def new : PlanarGraph F T U := ⟨[], []⟩

/-- src/graph/planar_graph.rs:110-112 -/
def nodeCount (g : PlanarGraph F T U) : Nat := g.nodes.length

/-- src/graph/planar_graph.rs:115-117 -/
def edgeCount (g : PlanarGraph F T U) : Nat := g.edges.length

/-- src/graph/planar_graph.rs:130-132 -/
def getVertex (g : PlanarGraph F T U) (id : Nat) : Option (Node F T) := g.nodes[id]?

/-- src/graph/planar_graph.rs:135-137 -/
def getEdge (g : PlanarGraph F T U) (id : Nat) : Option (Edge U) := g.edges[id]?

/-- src/graph/planar_graph.rs:139-141 -/
def hasNodeAtIndex (g : PlanarGraph F T U) (id : Nat) : Bool :=
  decide (id > 0) && decide (id < g.nodes.length)

/-- src/graph/planar_graph.rs:143-145 -/
def hasEdgeAtIndex (g : PlanarGraph F T U) (id : Nat) : Bool :=
  decide (id > 0) && decide (id < g.edges.length)

/-- src/graph/planar_graph.rs:148-156 -/
def hasEdgeBetweenNodes (g : PlanarGraph F T U) (a b : Nat) : Bool :=
  g.edges.any fun e => (a, b) == (e.src, e.dst) || (b, a) == (e.src, e.dst)

/-- src/graph/planar_graph.rs:160-165 -/
def numberOfEdgesIncidentTo (g : PlanarGraph F T U) (id : Nat) : Option Nat :=
  match g.getVertex id with
  | some _ => some (g.edges.filter fun e => e.includes id).length
  | none => none

/-- src/graph/planar_graph.rs:168-173 -/
def gatherNodePositions (g : PlanarGraph F T U) : List (Vec2 F) := g.nodes.map fun n => n.position

section Adding
variable [Scalar F]

/-- Result of the first loop of `split_edges_at_node`: the edge array after in-place updates, the additional
edges and the indices of the updated slots. -/
structure SplitOut (U : Type) where
  edges : List (Edge U)
  additional : List (Edge U)
  changed : List Nat

/-- the first loop of `split_edges_at_node` (src/graph/planar_graph.rs:249-279), from slot `index` on -/
def splitLoop (nodes : List (Node F T)) (id : Nat) : List (Edge U) → (index : Nat) → Res (SplitOut U)
  | [], _ => .ok ⟨[], [], []⟩
  | e :: es, i => do
    let a ← index nodes e.src
    let b ← index nodes e.dst
    let p ← index nodes id
    let onEdge := Utils.isOnLineSegment a.position b.position p.position false
    let rest ← splitLoop nodes id es (i + 1)
    if onEdge then
      return ⟨⟨e.src, id, e.data, defaultLabel⟩ :: rest.edges,
        ⟨e.dst, id, e.data, defaultLabel⟩ :: rest.additional, i :: rest.changed⟩
    else
      return ⟨e :: rest.edges, rest.additional, rest.changed⟩

/-- the second loop of `split_edges_at_node` (src/graph/planar_graph.rs:282-288) -/
def pushEdges : List (Edge U) → (edges : List (Edge U)) → (changed : List Nat) → List (Edge U) × List Nat
  | [], edges, changed => (edges, changed)
  | e :: es, edges, changed =>
    let edges := edges ++ [e]
    pushEdges es edges (changed ++ [edges.length - 1])

/-- src/graph/planar_graph.rs:243-293 -/
def splitEdgesAtNode (g : PlanarGraph F T U) (id : Nat) : Res (PlanarGraph F T U × List Nat) :=
  match g.nodes[id]? with
  | some _ => do
    let out ← splitLoop g.nodes id g.edges 0
    let (edges, changed) := pushEdges out.additional out.edges out.changed
    return (⟨g.nodes, edges⟩, changed)
  | none => .ok (g, [])

/-- src/graph/planar_graph.rs:180-200 -/
def addNode (g : PlanarGraph F T U) (position : Vec2 F) (data : T) :
    Res (PlanarGraph F T U × (Nat × List Nat)) :=
  let (index, dist) := Utils.findClosestTo position g.gatherNodePositions
  if dist <. Scalar.epsilon then .ok (g, (index, []))
  else do
    let g : PlanarGraph F T U := ⟨g.nodes ++ [⟨position, data, defaultLabel⟩], g.edges⟩
    let (g, changedEdges) ← g.splitEdgesAtNode (g.nodeCount - 1)
    return (g, (g.nodeCount - 1, changedEdges))

/-- the intersection loop of `split_edges_along_edge` (src/graph/planar_graph.rs:307-321), from slot `index` on -/
def intersectionLoop (g : PlanarGraph F T U) (id : Nat) : List (Edge U) → (index : Nat) → Res (List (Vec2 F))
  | [], _ => .ok []
  | e :: es, i => do
    if id ≠ i then
      let a ← index g.nodes e.src
      let b ← index g.nodes e.dst
      let target ← index g.edges id
      let c ← index g.nodes target.src
      let d ← index g.nodes target.dst
      let rest ← intersectionLoop g id es (i + 1)
      match Utils.calculateLineSegmentIntersection a.position b.position c.position d.position with
      | some x => return x :: rest
      | none => return rest
    else intersectionLoop g id es (i + 1)

/-- one round of the second loop of `split_edges_along_edge` (src/graph/planar_graph.rs:343-363) -/
def splitAtIntersection [Inhabited T] (g : PlanarGraph F T U) (changedNodes changedEdges : List Nat)
    (intersection : Vec2 F) : Res (PlanarGraph F T U × (List Nat × List Nat)) :=
  let (index, dist) := Utils.findClosestTo intersection g.gatherNodePositions
  if dist <. Scalar.epsilon then do
    let (g, changed) ← g.splitEdgesAtNode index
    return (g, (changedNodes, changedEdges ++ changed))
  else do
    let (g, (nodeIndex, edgeIndices)) ← g.addNode intersection default
    return (g, (changedNodes ++ [nodeIndex], changedEdges ++ edgeIndices))

/-- the second loop of `split_edges_along_edge` (src/graph/planar_graph.rs:343-363) -/
def splitAtIntersections [Inhabited T] : List (Vec2 F) → PlanarGraph F T U → (changedNodes changedEdges : List Nat) →
    Res (PlanarGraph F T U × (List Nat × List Nat))
  | [], g, cn, ce => .ok (g, (cn, ce))
  | x :: xs, g, cn, ce => do
    let (g, (cn, ce)) ← g.splitAtIntersection cn ce x
    splitAtIntersections xs g cn ce

/-- src/graph/planar_graph.rs:298-366 -/
def splitEdgesAlongEdge [Inhabited T] (g : PlanarGraph F T U) (id : Nat) :
    Res (PlanarGraph F T U × (List Nat × List Nat)) := do
  let intersections ← g.intersectionLoop id g.edges 0
  let intersections := Utils.uniquePointsAmong intersections
  splitAtIntersections intersections g [] []

/-- src/graph/planar_graph.rs:204-239 -/
def addEdge [Inhabited T] (g : PlanarGraph F T U) (src dst : Nat) (data : U) :
    Res (PlanarGraph F T U × Except PlanarGraphError (List Nat × List Nat)) :=
  if !g.hasEdgeBetweenNodes src dst then
    match g.getVertex src, g.getVertex dst with
    | some _, some _ => do
      let g : PlanarGraph F T U := ⟨g.nodes, g.edges ++ [⟨src, dst, data, defaultLabel⟩]⟩
      let (g, (changedNodes, changedEdges)) ← g.splitEdgesAlongEdge (g.edgeCount - 1)
      let changedEdges := if changedEdges.isEmpty then changedEdges ++ [g.edgeCount - 1] else changedEdges
      return (g, .ok (changedNodes, changedEdges))
    | _, _ => .ok (g, .error .NoSuchVertex)
  else .ok (g, .ok ([], []))

end Adding

section Removing

/-- the loop of `remove_edges_incident_to_node` (src/graph/planar_graph.rs:495-512), from slot `index` on -/
def incidentLoop (g : PlanarGraph F T U) (id : Nat) : List (Edge U) → (index : Nat) → List Nat × List Nat
  | [], _ => ([], [])
  | e :: es, i =>
    let (markedNodes, markedEdges) := incidentLoop g id es (i + 1)
    if e.includes id then
      let neighbor := if e.src == id then e.dst else e.src
      if g.numberOfEdgesIncidentTo neighbor = some 1 then (neighbor :: markedNodes, i :: markedEdges)
      else (markedNodes, i :: markedEdges)
    else (markedNodes, markedEdges)

/-- src/graph/planar_graph.rs:491-515 -/
def removeEdgesIncidentToNode (g : PlanarGraph F T U) (id : Nat) : List Nat × List Nat :=
  g.incidentLoop id g.edges 0

/-- construction of `remapped_nodes` (src/graph/planar_graph.rs:426-437), from node `index` on, `count` nodes left.
The `HashMap` is modelled as an association list; its keys are inserted once each. -/
def remapLoop (p : Profile) (markedNodes : List Nat) : (count index : Nat) → Res (List (Nat × Nat))
  | 0, _ => .ok []
  | count + 1, i =>
    if !markedNodes.contains i then do
      let back := (markedNodes.filter fun entry => decide (entry < i)).length
      let i' ← usizeSub p i back
      let rest ← remapLoop p markedNodes count (i + 1)
      return (i, i') :: rest
    else remapLoop p markedNodes count (i + 1)

/-- `xs.iter().cloned().min().unwrap()` -/
def minUnwrap (xs : List Nat) : Res Nat :=
  match xs.min? with
  | some m => .ok m
  | none => .error .unwrapFailed

/-- `xs.enumerate().filter(|(i, _)| !marked.contains(i)).map(|(_, x)| x)`
(src/graph/planar_graph.rs:449-456, 458-465), from position `i` on -/
def eraseMarked {α : Type} (marked : List Nat) : List α → (i : Nat) → List α
  | [], _ => []
  | x :: xs, i => if !marked.contains i then x :: eraseMarked marked xs (i + 1) else eraseMarked marked xs (i + 1)

/-- renumbering of one endpoint (src/graph/planar_graph.rs:472-477) -/
def remapIndex (remapped : List (Nat × Nat)) (i : Nat) : Nat :=
  match remapped.lookup i with
  | some j => j
  | none => i

/-- src/graph/planar_graph.rs:412-484 -/
def removeNode (p : Profile) (g : PlanarGraph F T U) (id : Nat) :
    Res (PlanarGraph F T U × (List Nat × List Nat)) :=
  match g.nodes[id]? with
  | some _ => do
    let (strayNodes, markedEdges) := g.removeEdgesIncidentToNode id
    let markedNodes := id :: strayNodes
    let remapped ← remapLoop p markedNodes g.nodes.length 0
    let minNodeIndex ← minUnwrap markedNodes
    let minEdgeIndex ← minUnwrap markedEdges
    let changedNodes := List.range' minNodeIndex (g.nodeCount - minNodeIndex)
    let changedEdges := List.range' minEdgeIndex (g.edgeCount - minEdgeIndex)
    let nodes := eraseMarked markedNodes g.nodes 0
    let edges := eraseMarked markedEdges g.edges 0
    let edges := edges.map fun e => { e with src := remapIndex remapped e.src, dst := remapIndex remapped e.dst }
    return (⟨nodes, edges⟩, (changedNodes, changedEdges))
  | none => .ok (g, ([], []))

/-- `Option::unwrap` -/
def unwrap {α : Type} : Option α → Res α
  | some a => .ok a
  | none => .error .unwrapFailed

/-- src/graph/planar_graph.rs:369-408 -/
def removeEdge (p : Profile) (g : PlanarGraph F T U) (id : Nat) :
    Res (PlanarGraph F T U × (List Nat × List Nat)) :=
  match g.edges[id]? with
  | some edge => do
    let na ← unwrap (g.numberOfEdgesIncidentTo edge.src)
    if na = 1 then g.removeNode p edge.src
    else
      let nb ← unwrap (g.numberOfEdgesIncidentTo edge.dst)
      if nb = 1 then g.removeNode p edge.dst
      else if g.edgeCount > 1 then do
        let changedEdges := [id, g.edgeCount - 1]
        let last ← unwrap g.edges.getLast?
        let edges ← assign g.edges.dropLast id last
        return (⟨g.nodes, edges⟩, ([], changedEdges))
      else return (g, ([], [id]))
  | none => .ok (g, ([], []))

end Removing

/-! ## Histories -/

/-- A call of a mutating method. -/
inductive Op (F : Type) (T : Type) (U : Type)
  | addNode (position : Vec2 F) (data : T)
  | addEdge (src dst : Nat) (data : U)
  | removeEdge (id : Nat)
  | removeNode (id : Nat)

/-- The graph after one call, or the panic of the call. -/
def step [Scalar F] [Inhabited T] (p : Profile) (g : PlanarGraph F T U) : Op F T U → Res (PlanarGraph F T U)
  | .addNode pos d => do return (← g.addNode pos d).1
  | .addEdge s d x => do return (← g.addEdge s d x).1
  | .removeEdge i => do return (← g.removeEdge p i).1
  | .removeNode i => do return (← g.removeNode p i).1

/-- The graph after a sequence of calls, stopping at the first panic. -/
def run [Scalar F] [Inhabited T] (p : Profile) : PlanarGraph F T U → List (Op F T U) → Res (PlanarGraph F T U)
  | g, [] => .ok g
  | g, op :: ops => do run p (← g.step p op) ops

end PlanarGraph
end Kami.Graph
