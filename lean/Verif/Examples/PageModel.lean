import Verif.Examples.SvgF32
/-!
# The page

Model of `run` of the three examples, of `draw_graph` and `draw` of `examples/simple_graph/src/lib.rs` with the calls into the
browser, of `svg_main` and `svg_title`, and of the click handlers.

The document is an arena: an element is a position in a list, and the list only grows.  What is modelled of the browser:
creating elements, attributes, `innerHTML` (the string that was assigned, see `Plain`), `appendChild` with its hierarchy
check, `getElementById` (first in tree order), `onclick` properties and the dispatch of a click with bubbling.
A call ends in a value, a thrown `JsValue`, or a panic; the page keeps what was done before.
-/

set_option autoImplicit false

namespace Kami.Web

open Kami Kami.Svg Kami.Graph Kami.Draw

/-- an element; `svg`: is in the SVG namespace (and so an `SvgElement`); `onclick`: the number that the installed click handler
has captured -/
structure El where
  svg : Bool
  tag : String
  attributes : List (String × String)
  html : String
  children : List Nat
  onclick : Option Nat
  deriving DecidableEq, Repr

/-- the document and the console -/
structure Page where
  els : List El
  root : Nat
  body : Option Nat
  console : List String
  deriving DecidableEq, Repr

/-- how a call ends -/
inductive Out (α : Type)
  | ok (a : α)
  /-- `Err(JsValue)` -/
  | thrown
  | panic (p : Panic)
  deriving DecidableEq, Repr

/-- a call that may change the page -/
def Js (α : Type) := Page → Out α × Page

instance : Monad Js where
  pure a := fun p => (.ok a, p)
  bind x f := fun p => match x p with
    | (.ok a, q) => f a q
    | (.thrown, q) => (.thrown, q)
    | (.panic e, q) => (.panic e, q)

/-- `.unwrap()` and `.expect(..)` on a `Result<_, JsValue>` -/
def unwrap {α : Type} (x : Js α) : Js α := fun p => match x p with
  | (.thrown, q) => (.panic .unwrapFailed, q)
  | r => r

/-- a `Result` that is not looked at -/
def ignore {α : Type} (x : Js α) : Js Unit := fun p => match x p with
  | (.ok _, q) => (.ok (), q)
  | (.thrown, q) => (.ok (), q)
  | (.panic e, q) => (.panic e, q)

/-- `.unwrap()` and `.expect(..)` on an `Option` -/
def unwrapOption {α : Type} : Option α → Js α
  | some a => pure a
  | none => fun p => (.panic .unwrapFailed, p)

/-- a call that may panic and does not touch the page -/
def liftRes {α : Type} : Res α → Js α
  | .ok a => pure a
  | .error e => fun p => (.panic e, p)

/-! ### The browser -/

/-- change one element -/
def Page.change (p : Page) (i : Nat) (f : El → El) : Page := { p with els := p.els.modify i f }

/-- `createElement`, `createElementNS` -/
def createElement (svg : Bool) (tag : String) : Js Nat := fun p =>
  (.ok p.els.length, { p with els := p.els ++ [⟨svg, tag, [], "", [], none⟩] })

/-- a list of attributes after `setAttribute` -/
def setAttr (name value : String) : List (String × String) → List (String × String)
  | [] => [(name, value)]
  | (n, v) :: rest => if n = name then (n, value) :: rest else (n, v) :: setAttr name value rest

/-- `setAttribute`; also `set_id`, and `style().set_property` (which rewrites the attribute `style`) -/
def setAttribute (i : Nat) (name value : String) : Js Unit := fun p =>
  (.ok (), p.change i fun e => { e with attributes := setAttr name value e.attributes })

/-- assignment to `innerHTML` -/
def setInnerHtml (i : Nat) (s : String) : Js Unit := fun p =>
  (.ok (), p.change i fun e => { e with html := s, children := [] })

/-- assignment to `onclick` of a handler that has captured `k` -/
def setOnclick (i k : Nat) : Js Unit := fun p => (.ok (), p.change i fun e => { e with onclick := some k })

/-- the elements of the subtree below `i` in tree order, down to a depth -/
def subtree (els : List El) : (depth i : Nat) → List Nat
  | 0, i => [i]
  | depth + 1, i => i :: ((els[i]?.map (·.children)).getD []).flatMap (subtree els depth)

/-- `appendChild`: an error if the child contains the parent; the child is taken out of its old place -/
def appendChild (parent child : Nat) : Js Unit := fun p =>
  if parent ∈ subtree p.els p.els.length child then (.thrown, p)
  else (.ok (), { p with els :=
    (p.els.map fun e => { e with children := e.children.filter (· ≠ child) }).modify parent fun e =>
      { e with children := e.children ++ [child] } })

/-- the `id` of an element -/
def El.id (e : El) : Option String := e.attributes.lookup "id"

/-- `getElementById` -/
def getElementById (p : Page) (id : String) : Option Nat :=
  (subtree p.els p.els.length p.root).find? fun i => (p.els[i]?.bind El.id) == some id

/-- `dyn_into::<SvgElement>`, `dyn_ref::<SvgElement>` -/
def dynIntoSvg (i : Nat) : Js Nat := fun p =>
  if (p.els[i]?.map (·.svg)).getD false then (.ok i, p) else (.thrown, p)

/-- `console::log_1` -/
def log (s : String) : Js Unit := fun p => (.ok (), { p with console := p.console ++ [s] })

/-- `document.body()` -/
def getBody : Js (Option Nat) := fun p => (.ok p.body, p)

/-- `document.get_element_by_id` -/
def byId (id : String) : Js (Option Nat) := fun p => (.ok (getElementById p id), p)

/-! ### examples/simple_graph/src/shared.rs -/

/-- `as i32`: towards zero, saturating, 0 for NaN -/
def toI32 : F32 → Int
  | .nan => 0
  | .inf s => if s then -2 ^ 31 else 2 ^ 31 - 1
  | .fin s n => max (-2 ^ 31) (min (2 ^ 31 - 1) (if s then -((F32.mag n / 2 ^ 149 : Nat) : Int) else (F32.mag n / 2 ^ 149 : Nat)))

/-- examples/simple_graph/src/shared.rs:12-26 -/
def svgMain (w h : F32) : Js Nat := do
  let e ← createElement true "svg"
  let svg ← dynIntoSvg e
  setAttribute svg "style" "border: solid;"
  setAttribute svg "width" (fmt32 w)
  setAttribute svg "height" (fmt32 h)
  setAttribute svg "viewBox" ("0 0 " ++ toString (toI32 w) ++ " " ++ toString (toI32 h))
  return svg

/-- examples/simple_graph/src/shared.rs:28-33 -/
def svgTitle (text : String) : Js Nat := do
  let element ← createElement true "title"
  setInnerHtml element text
  return element

/-- the attributes set one after the other, `element.set_attribute(..)?` -/
def setAttributes (element : Nat) : List (String × String) → Js Unit
  | [] => pure ()
  | (n, v) :: rest => do
    setAttribute element n v
    setAttributes element rest

/-- examples/simple_graph/src/shared.rs:35-89: `svg_polygon`, `svg_circle` and `svg_line` all create an element and set
the attributes of the corresponding `Svg.Element` one after the other -/
def svgElement (e : Element) : Js Nat := do
  let element ← createElement true e.tag
  setAttributes element e.attributes
  return element

/-! ### examples/simple_graph/src/lib.rs -/

variable {T U : Type}

/-- examples/simple_graph/src/lib.rs:51-65, the click handler -/
def handler (i : Nat) : Js Unit := do
  let main ← byId "main"
  let main ← unwrapOption main
  let _svg ← unwrap (dynIntoSvg main)
  let clicked ← byId "clicked"
  let p ← unwrapOption clicked
  setInnerHtml p ("Node " ++ toString i)

/-- examples/simple_graph/src/lib.rs:43-81, from node `i` on -/
def putNodes (five : F32) (svg : Nat) : List (Node F32 T) → (i : Nat) → Js Unit
  | [], _ => pure ()
  | node :: rest, i => do
    let element ← unwrap (svgElement (svgCircle fmt32 node.position five "green" "black"))
    let element ← unwrap (dynIntoSvg element)
    setOnclick element i
    let title ← unwrap (svgTitle ("Node " ++ toString i))
    ignore (appendChild element title)
    appendChild svg element
    putNodes five svg rest (i + 1)

/-- examples/simple_graph/src/lib.rs:83-101, from edge `index` on -/
def putEdges (graph : PlanarGraph F32 T U) (svg : Nat) : List (Edge U) → (index : Nat) → Js Unit
  | [], _ => pure ()
  | edge :: rest, index => do
    let srcVertex ← liftRes (PlanarGraph.unwrap (graph.getVertex edge.src))
    let dstVertex ← liftRes (PlanarGraph.unwrap (graph.getVertex edge.dst))
    let element ← unwrap (svgElement (svgLine fmt32 srcVertex.position dstVertex.position "black"))
    let title ← unwrap (svgTitle
      ("Edge " ++ toString index ++ " between vertices <" ++ toString edge.src ++ ", " ++ toString edge.dst ++ ">"))
    ignore (appendChild element title)
    appendChild svg element
    putEdges graph svg rest (index + 1)

/-- examples/simple_graph/src/lib.rs:38-104 -/
def putGraph (five : F32) (graph : PlanarGraph F32 T U) (svg : Nat) : Js Unit := do
  putNodes five svg graph.nodes 0
  putEdges graph svg graph.edges 0

/-- examples/simple_graph/src/lib.rs:106-144; `ops` are the calls that build the graph (lines 113-124: `demoOps`) -/
def draw (pr : Profile) (ops : List (PlanarGraph.Op F32 Unit Unit)) (body svg : Nat) : Js Unit := do
  let graph ← liftRes (PlanarGraph.run pr PlanarGraph.new ops)
  let stats ← createElement false "p"
  setInnerHtml stats ("Graph has " ++ toString graph.edgeCount ++ " edges and " ++ toString graph.nodeCount ++ " nodes")
  appendChild body stats
  let clicked ← createElement false "p"
  setInnerHtml clicked "No node selected"
  setAttribute clicked "id" "clicked"
  appendChild body clicked
  ignore (putGraph (F32.lit 5) graph svg)

/-- `run` up to the call of `draw`: examples/simple_graph/src/lib.rs:11-30 and the same lines of the other two examples, which
do not set the id of the `svg` element.  `set_panic_hook` (shared.rs:6-10) only changes what a panic prints. -/
def start (withId : Bool) : Js (Nat × Nat) := do
  let body ← getBody
  let body ← unwrapOption body
  let heading ← createElement false "h1"
  setInnerHtml heading "かみ"
  appendChild body heading
  let svg ← unwrap (svgMain (F32.lit 500) (F32.lit 500))
  if withId then setAttribute svg "id" "main"
  appendChild body svg
  return (body, svg)

/-- examples/simple_graph/src/lib.rs:10-36 -/
def run (pr : Profile) (ops : List (PlanarGraph.Op F32 Unit Unit)) : Js Unit := do
  let (body, svg) ← start true
  draw pr ops body svg
  log "Finished drawing"

/-- examples/_template/src/lib.rs:6-43 -/
def runTemplate : Js Unit := do
  let (_body, _svg) ← start false
  log "Finished drawing"

/-! ### Clicks -/

/-- the parent of an element -/
def parentOf (els : List El) (i : Nat) : Option Nat := els.findIdx? fun e => i ∈ e.children

/-- an element and its ancestors, from the inside out -/
def pathOf (els : List El) : (fuel i : Nat) → List Nat
  | 0, _ => []
  | fuel + 1, i => i :: match parentOf els i with
    | some j => pathOf els fuel j
    | none => []

/-- the handlers that a click on `t` runs, in order -/
def handlersAt (p : Page) (t : Nat) : List Nat :=
  (pathOf p.els p.els.length t).filterMap fun i => p.els[i]?.bind El.onclick

/-- one handler after the other -/
def runHandlers : List Nat → Js Unit
  | [] => pure ()
  | i :: rest => do
    handler i
    runHandlers rest

/-- a click on `t`: the path is fixed before any handler runs -/
def click (t : Nat) : Js Unit := fun p => runHandlers (handlersAt p t) p

/-- several clicks -/
def clicks : List Nat → Js Unit
  | [] => pure ()
  | t :: rest => do
    click t
    clicks rest

/-- examples/simple_graph/index.html: `html` (0), `head` (1), `meta` (2), `title` (3), `body` (4), `noscript` (5) -/
def indexHtml : Page where
  els := [⟨false, "html", [], "", [1, 4], none⟩, ⟨false, "head", [], "", [2, 3], none⟩,
    ⟨false, "meta", [("charset", "utf-8")], "", [], none⟩, ⟨false, "title", [], "kami", [], none⟩,
    ⟨false, "body", [], "", [5], none⟩,
    ⟨false, "noscript", [], "This page contains WASM and JS content, please enable JS in your browser.", [], none⟩]
  root := 0
  body := some 4
  console := []

example : ((run .debug (demoOps lit2) indexHtml).2).els.length = 16 := by decide +kernel
example : (run .debug (demoOps lit2) indexHtml).1 = .ok () := by decide +kernel

end Kami.Web
