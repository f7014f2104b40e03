import Verif.Graph.Model
/-!
# `src/graph/planar_graph.rs` statement by statement

The four methods on `&mut self` once more, this time as sequences of reads and writes of the graph.  A panic ends a call in
the middle; what had been written up to then stays written.  `Graph/Model.lean` describes the same methods as functions
from graphs to graphs and says nothing about the graph after a panic.
-/

set_option autoImplicit false

namespace Kami.Graph

open Kami
open scoped Kami

/-- A computation on a mutable value: the result or the panic, and the value left behind. -/
def Mut (σ α : Type) : Type := σ → Res α × σ

/-- sequencing: a panic skips the rest and keeps the writes -/
instance {σ : Type} : Monad (Mut σ) where
  pure a s := (.ok a, s)
  bind x f s := match x s with
    | (.ok a, s') => f a s'
    | (.error e, s') => (.error e, s')

namespace Mut

variable {σ α : Type}

/-- reading the value -/
def get : Mut σ σ := fun s => (.ok s, s)

/-- overwriting the value -/
def put (s : σ) : Mut σ Unit := fun _ => (.ok (), s)

/-- an expression without side effects, which may panic -/
def eval (r : Res α) : Mut σ α := fun s => (r, s)

end Mut

variable {F T U : Type}

namespace PlanarGraph

section
variable [Scalar F]

/-- src/graph/planar_graph.rs:249-279: `count` edges left, the next one in slot `i` -/
def splitLoopM (id : Nat) : (count i : Nat) → (changed : List Nat) → (additional : List (Edge U)) →
    Mut (PlanarGraph F T U) (List Nat × List (Edge U))
  | 0, _, changed, additional => pure (changed, additional)
  | count + 1, i, changed, additional => do
    let g ← Mut.get
    let edge ← Mut.eval (index g.edges i)
    let a ← Mut.eval (index g.nodes edge.src)
    let b ← Mut.eval (index g.nodes edge.dst)
    let p ← Mut.eval (index g.nodes id)
    if Utils.isOnLineSegment a.position b.position p.position false then do
      Mut.put ⟨g.nodes, g.edges.set i ⟨edge.src, id, edge.data, defaultLabel⟩⟩
      splitLoopM id count (i + 1) (changed ++ [i]) (additional ++ [⟨edge.dst, id, edge.data, defaultLabel⟩])
    else splitLoopM id count (i + 1) changed additional

/-- src/graph/planar_graph.rs:282-288 -/
def pushLoopM : List (Edge U) → (changed : List Nat) → Mut (PlanarGraph F T U) (List Nat)
  | [], changed => pure changed
  | edge :: rest, changed => do
    let g ← Mut.get
    Mut.put ⟨g.nodes, g.edges ++ [edge]⟩
    let g ← Mut.get
    pushLoopM rest (changed ++ [g.edgeCount - 1])

/-- src/graph/planar_graph.rs:243-293 -/
def splitEdgesAtNodeM (id : Nat) : Mut (PlanarGraph F T U) (List Nat) := do
  let g ← Mut.get
  match g.nodes[id]? with
  | some _ => do
    let (changed, additional) ← splitLoopM id g.edges.length 0 [] []
    pushLoopM additional changed
  | none => pure []

/-- src/graph/planar_graph.rs:180-200 -/
def addNodeM (position : Vec2 F) (data : T) : Mut (PlanarGraph F T U) (Nat × List Nat) := do
  let g ← Mut.get
  let (index, distance) := Utils.findClosestTo position g.gatherNodePositions
  if distance <. Scalar.epsilon then pure (index, [])
  else do
    Mut.put ⟨g.nodes ++ [⟨position, data, defaultLabel⟩], g.edges⟩
    let g ← Mut.get
    let changed ← splitEdgesAtNodeM (g.nodeCount - 1)
    let g ← Mut.get
    pure (g.nodeCount - 1, changed)

/-- src/graph/planar_graph.rs:343-363 -/
def splitAtIntersectionsM [Inhabited T] : List (Vec2 F) → (changedNodes changedEdges : List Nat) →
    Mut (PlanarGraph F T U) (List Nat × List Nat)
  | [], changedNodes, changedEdges => pure (changedNodes, changedEdges)
  | intersection :: rest, changedNodes, changedEdges => do
    let g ← Mut.get
    let (index, distance) := Utils.findClosestTo intersection g.gatherNodePositions
    if distance <. Scalar.epsilon then do
      let changed ← splitEdgesAtNodeM index
      splitAtIntersectionsM rest changedNodes (changedEdges ++ changed)
    else do
      let (nodeIndex, edgeIndices) ← addNodeM intersection default
      splitAtIntersectionsM rest (changedNodes ++ [nodeIndex]) (changedEdges ++ edgeIndices)

/-- src/graph/planar_graph.rs:298-366.  The loop over all edges (307-321) only reads. -/
def splitEdgesAlongEdgeM [Inhabited T] (id : Nat) : Mut (PlanarGraph F T U) (List Nat × List Nat) := do
  let g ← Mut.get
  let intersections ← Mut.eval (g.intersectionLoop id g.edges 0)
  splitAtIntersectionsM (Utils.uniquePointsAmong intersections) [] []

/-- src/graph/planar_graph.rs:204-239 -/
def addEdgeM [Inhabited T] (src dst : Nat) (data : U) :
    Mut (PlanarGraph F T U) (Except PlanarGraphError (List Nat × List Nat)) := do
  let g ← Mut.get
  if !g.hasEdgeBetweenNodes src dst then
    match g.getVertex src, g.getVertex dst with
    | some _, some _ => do
      Mut.put ⟨g.nodes, g.edges ++ [⟨src, dst, data, defaultLabel⟩]⟩
      let g ← Mut.get
      let (changedNodes, changedEdges) ← splitEdgesAlongEdgeM (g.edgeCount - 1)
      let g ← Mut.get
      if changedEdges.isEmpty then pure (.ok (changedNodes, changedEdges ++ [g.edgeCount - 1]))
      else pure (.ok (changedNodes, changedEdges))
    | _, _ => pure (.error .NoSuchVertex)
  else pure (.ok ([], []))

end

/-- src/graph/planar_graph.rs:412-484.  Everything up to line 445 only reads. -/
def removeNodeM (p : Profile) (id : Nat) : Mut (PlanarGraph F T U) (List Nat × List Nat) := do
  let g ← Mut.get
  match g.nodes[id]? with
  | some _ => do
    let (strayNodes, markedEdges) := g.removeEdgesIncidentToNode id
    let markedNodes := id :: strayNodes
    let remapped ← Mut.eval (remapLoop p markedNodes g.nodes.length 0)
    let minNodeIndex ← Mut.eval (minUnwrap markedNodes)
    let minEdgeIndex ← Mut.eval (minUnwrap markedEdges)
    let changedNodes := List.range' minNodeIndex (g.nodeCount - minNodeIndex)
    let changedEdges := List.range' minEdgeIndex (g.edgeCount - minEdgeIndex)
    let g ← Mut.get
    Mut.put ⟨eraseMarked markedNodes g.nodes 0, g.edges⟩
    let g ← Mut.get
    Mut.put ⟨g.nodes, eraseMarked markedEdges g.edges 0⟩
    let g ← Mut.get
    Mut.put ⟨g.nodes, g.edges.map fun e => { e with src := remapIndex remapped e.src, dst := remapIndex remapped e.dst }⟩
    pure (changedNodes, changedEdges)
  | none => pure ([], [])

/-- src/graph/planar_graph.rs:369-408 -/
def removeEdgeM (p : Profile) (id : Nat) : Mut (PlanarGraph F T U) (List Nat × List Nat) := do
  let g ← Mut.get
  match g.edges[id]? with
  | some edge => do
    let na ← Mut.eval (unwrap (g.numberOfEdgesIncidentTo edge.src))
    if na = 1 then removeNodeM p edge.src
    else do
      let nb ← Mut.eval (unwrap (g.numberOfEdgesIncidentTo edge.dst))
      if nb = 1 then removeNodeM p edge.dst
      else if g.edgeCount > 1 then do
        let changedEdges := [id, g.edgeCount - 1]
        let last ← Mut.eval (unwrap g.edges.getLast?)
        Mut.put ⟨g.nodes, g.edges.dropLast⟩
        let g ← Mut.get
        let edges ← Mut.eval (assign g.edges id last)
        Mut.put ⟨g.nodes, edges⟩
        pure ([], changedEdges)
      else pure ([], [id])
  | none => pure ([], [])

/-- One call; the results are dropped. -/
def callM [Scalar F] [Inhabited T] (p : Profile) : Op F T U → Mut (PlanarGraph F T U) Unit
  | .addNode pos d => do let _ ← addNodeM pos d
  | .addEdge s d x => do let _ ← addEdgeM s d x
  | .removeEdge i => do let _ ← removeEdgeM p i
  | .removeNode i => do let _ ← removeNodeM p i

/-- The graph after a sequence of calls whose panics, if any, are caught: the next call goes on with what is left. -/
def runCaught [Scalar F] [Inhabited T] (p : Profile) : PlanarGraph F T U → List (Op F T U) → PlanarGraph F T U
  | g, [] => g
  | g, op :: ops => runCaught p (callM p op g).2 ops

end PlanarGraph
end Kami.Graph
