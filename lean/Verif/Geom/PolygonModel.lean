import Verif.Base.Panic
import Verif.Num.Scalar
/-!
# Model of `src/geometry/polygon.rs`

Orientation predicates, `Polygon`, diagonals and ear-clipping triangulation, over any scalar.
-/

namespace Kami

open scoped Kami

variable {F : Type}

section Predicates
variable [OrdScalar F]

/-- src/geometry/polygon.rs:7-9 -/
def area2 (a b c : Vec2 F) : F :=
  (b.x - a.x) * (c.y - a.y) - (c.x - a.x) * (b.y - a.y)

/-- src/geometry/polygon.rs:13-15 -/
def left (a b c : Vec2 F) : Bool := OrdScalar.zero <. area2 a b c

/-- src/geometry/polygon.rs:19-21 -/
def leftOn (a b c : Vec2 F) : Bool := OrdScalar.zero ≤. area2 a b c

/-- src/geometry/polygon.rs:24-26 -/
def collinear (a b c : Vec2 F) : Bool := area2 a b c =. OrdScalar.zero

/-- src/geometry/polygon.rs:31-45 -/
def intersectProp (a b c d : Vec2 F) : Bool :=
  if collinear a b c || collinear a b d || collinear c d a || collinear c d b then false
  else (left a b c ^^ left a b d) && (left c d a ^^ left c d b)

/-- src/geometry/polygon.rs:50-64 -/
def between (a b c : Vec2 F) : Bool :=
  if !collinear a b c then false
  else if !(a.x =. b.x) then
    ((a.x ≤. c.x) && (c.x ≤. b.x)) || ((c.x ≤. a.x) && (b.x ≤. c.x))
  else
    ((a.y ≤. c.y) && (c.y ≤. b.y)) || ((c.y ≤. a.y) && (b.y ≤. c.y))

/-- src/geometry/polygon.rs:69-82 -/
def intersect (a b c d : Vec2 F) : Bool :=
  if intersectProp a b c d then true
  else if between a b c || between a b d || between c d a || between c d b then true
  else false

end Predicates

/-- src/geometry/polygon.rs:89-92 -/
structure Polygon (F : Type) where
  vertices : List (Vec2 F)
  deriving DecidableEq, Repr

/-- src/geometry/polygon.rs:84-87 -/
inductive PolygonError
  | Degenerate
  deriving DecidableEq, Repr

namespace Polygon

section Ord
variable [OrdScalar F]

/-- the loop of `area_poly2` (src/geometry/polygon.rs:163-167): consecutive pairs after the head -/
def fanSum (a : Vec2 F) : List (Vec2 F) → F → F
  | b :: c :: rest, sum => fanSum a (c :: rest) (sum + area2 a b c)
  | _, sum => sum

/-- src/geometry/polygon.rs:156-170.  `vertices[0]` panics and `len() - 1` underflows for an empty polygon;
`Polygon::new` is the only constructor and rejects fewer than 3 vertices before calling this. -/
def areaPoly2 (self : Polygon F) : F :=
  match self.vertices with
  | [] => OrdScalar.zero
  | a :: rest => fanSum a rest OrdScalar.zero

/-- src/geometry/polygon.rs:96-114 -/
def new (vertices : List (Vec2 F)) : Except PolygonError (Polygon F) :=
  if vertices.length < 3 then .error .Degenerate
  else
    let polygon : Polygon F := ⟨vertices⟩
    if polygon.areaPoly2 <. OrdScalar.zero then .ok ⟨vertices.reverse⟩
    else .ok polygon

/-- `Polygon::new(..).unwrap()` -/
def newUnwrap (vertices : List (Vec2 F)) : Res (Polygon F) :=
  match new vertices with
  | .ok p => .ok p
  | .error _ => .error .unwrapFailed

/-- src/geometry/polygon.rs:136-140 -/
def uniformScale (self : Polygon F) (s : F) : Polygon F :=
  ⟨self.vertices.map fun v => ⟨v.x * s, v.y * s⟩⟩

/-- src/geometry/polygon.rs:143-147 -/
def translate (self : Polygon F) (t : Vec2 F) : Polygon F :=
  ⟨self.vertices.map fun v => ⟨v.x + t.x, v.y + t.y⟩⟩

/-- src/geometry/polygon.rs:173-175 -/
def area (self : Polygon F) : F := OrdScalar.abs self.areaPoly2 * OrdScalar.half

/-- src/geometry/polygon.rs:179-193 -/
def getNeighborIndices (self : Polygon F) (index : Nat) : Res (Nat × Nat) := do
  let prev ← if index = 0 then usizeSub .debug self.vertices.length 1 else .ok (index - 1)
  let last ← usizeSub .debug self.vertices.length 1
  let next := if index = last then 0 else index + 1
  return (prev, next)

/-- src/geometry/polygon.rs:196-199 -/
def areNeighbors (self : Polygon F) (i j : Nat) : Res Bool := do
  let (prev, next) ← self.getNeighborIndices i
  return prev == j || next == j

/-- src/geometry/polygon.rs:203-226 -/
def inCone (self : Polygon F) (apex other : Nat) : Res Bool := do
  let a ← index self.vertices apex
  let b ← index self.vertices other
  let (prev, next) ← self.getNeighborIndices apex
  let a0 ← index self.vertices prev
  let a1 ← index self.vertices next
  if leftOn a a1 a0 then
    return left a b a0 && left b a a1
  return !(leftOn a b a1 && leftOn b a a0)

/-- the loop of `diagonal` (src/geometry/polygon.rs:239-253) from edge `k` on, `count` edges left;
`true` when an edge not incident to `i` or `j` is hit -/
def hitsEdge (self : Polygon F) (i j : Nat) : (count k : Nat) → Res Bool
  | 0, _ => .ok false
  | count + 1, k => do
    let n := self.vertices.length
    if k ≠ i ∧ (k + 1) % n ≠ i ∧ k ≠ j ∧ (k + 1) % n ≠ j then
      let vi ← index self.vertices i
      let vj ← index self.vertices j
      let vk ← index self.vertices k
      let vk1 ← index self.vertices ((k + 1) % n)
      if intersect vi vj vk vk1 then return true
    hitsEdge self i j count (k + 1)

/-- src/geometry/polygon.rs:231-259 -/
def diagonal (self : Polygon F) (i j : Nat) : Res Bool := do
  if i = j then return false
  if ← self.hitsEdge i j self.vertices.length 0 then return false
  if ← self.inCone i j then self.inCone j i else return false

/-- the ear flags (src/geometry/polygon.rs:272-277) of vertices `i, i+1, ...` (`count` of them) -/
def earFlags (self : Polygon F) : (count i : Nat) → Res (List Bool)
  | 0, _ => .ok []
  | count + 1, i => do
    let (prev, next) ← self.getNeighborIndices i
    let d ← self.diagonal prev next
    let rest ← self.earFlags count (i + 1)
    return d :: rest

/-- local state of `triangulate`: `copy`, `is_ear`, `triangles` -/
structure TriState (F : Type) where
  copy : Polygon F
  isEar : List Bool
  triangles : List (Polygon F)

/-- index shift after the removal of position `v2` (src/geometry/polygon.rs:315-326) -/
def shiftDown (v2 v : Nat) : Nat := if v > v2 then v - 1 else v

/-- the body of `if is_ear[v2] { ... }` (src/geometry/polygon.rs:288-333) -/
def clipEar (st : TriState F) (v2 : Nat) : Res (TriState F) := do
  let (v1, v3) ← st.copy.getNeighborIndices v2
  let (_, v4) ← st.copy.getNeighborIndices v3
  let (v0, _) ← st.copy.getNeighborIndices v1
  let p1 ← index st.copy.vertices v1
  let p2 ← index st.copy.vertices v2
  let p3 ← index st.copy.vertices v3
  let tri ← newUnwrap [p1, p2, p3]
  let triangles := st.triangles ++ [tri]
  -- `Vec::remove` panics when out of range
  let _ ← index st.isEar v2
  let copy : Polygon F := ⟨st.copy.vertices.eraseIdx v2⟩
  let isEar := st.isEar.eraseIdx v2
  let v0 := shiftDown v2 v0
  let v1 := shiftDown v2 v1
  let v3 := shiftDown v2 v3
  let v4 := shiftDown v2 v4
  let d1 ← copy.diagonal v0 v3
  let isEar ← assign isEar v1 d1
  let d3 ← copy.diagonal v1 v4
  let isEar ← assign isEar v3 d3
  return ⟨copy, isEar, triangles⟩

/-- the `for v2 in 0..copy.vertices.len()` loop (src/geometry/polygon.rs:285-335) from `v2` on, `count` steps
left: clips the first ear and breaks; leaves the state as it is when there is none -/
def forEar (st : TriState F) : (count v2 : Nat) → Res (TriState F)
  | 0, _ => .ok st
  | count + 1, v2 => do
    let e ← index st.isEar v2
    if e then clipEar st v2 else forEar st count (v2 + 1)

/-- one iteration of the `while` loop body -/
def whileBody (st : TriState F) : Res (TriState F) := forEar st st.copy.vertices.length 0

/-- src/geometry/polygon.rs:267-281: the state before the `while` loop -/
def triInit (self : Polygon F) : Res (TriState F) := do
  let flags ← self.earFlags self.vertices.length 0
  return ⟨self, flags, []⟩

end Ord

/-- Big-step semantics of `while copy.vertices.len() > 3 { body }` for a body that may panic: the loop, started in
`st`, ends in `out`.  No derivation exists exactly when the loop runs forever. -/
inductive WhileRuns [OrdScalar F] : TriState F → Res (TriState F) → Prop
  | done (st) (h : ¬ st.copy.vertices.length > 3) : WhileRuns st (.ok st)
  | panic (st e) (h : st.copy.vertices.length > 3) (hb : whileBody st = .error e) : WhileRuns st (.error e)
  | next (st st' out) (h : st.copy.vertices.length > 3) (hb : whileBody st = .ok st')
      (hr : WhileRuns st' out) : WhileRuns st out

/-- src/geometry/polygon.rs:261-343: `Triangulates P out` says that `P.triangulate()` ends with `out`
(the list of triangles, or a panic).  `triangulate` runs forever on `P` when there is no such `out`. -/
inductive Triangulates [OrdScalar F] (self : Polygon F) : Res (List (Polygon F)) → Prop
  | triangle (h : self.vertices.length = 3) : Triangulates self (.ok [self])
  | initPanic (e) (h : self.vertices.length ≠ 3) (hi : triInit self = .error e) : Triangulates self (.error e)
  | loopPanic (st e) (h : self.vertices.length ≠ 3) (hi : triInit self = .ok st)
      (hr : WhileRuns st (.error e)) : Triangulates self (.error e)
  | ok (st fin) (h : self.vertices.length ≠ 3) (hi : triInit self = .ok st)
      (hr : WhileRuns st (.ok fin)) : Triangulates self (.ok (fin.triangles ++ [fin.copy]))

section Div
variable [Scalar F]

/-- src/geometry/polygon.rs:150-152 -/
def center (self : Polygon F) : Vec2 F :=
  let sum := self.vertices.foldl (fun (acc v : Vec2 F) => (⟨acc.x + v.x, acc.y + v.y⟩ : Vec2 F))
    ⟨OrdScalar.zero, OrdScalar.zero⟩
  let n : F := Scalar.ofNat self.vertices.length
  ⟨sum.x / n, sum.y / n⟩

end Div

/-- src/geometry/polygon.rs:117-128 -/
def regular [TrigScalar F] (sides : Nat) (circumradius : F) (center : Vec2 F) : Res (Polygon F) :=
  let vertex (i : Nat) : Vec2 F :=
    ⟨center.x + circumradius *
        TrigScalar.cos (TrigScalar.two * TrigScalar.pi * (Scalar.ofNat i / Scalar.ofNat sides)),
     center.y + circumradius *
        TrigScalar.sin (TrigScalar.two * TrigScalar.pi * (Scalar.ofNat i / Scalar.ofNat sides))⟩
  newUnwrap ((List.range sides).map vertex)

end Polygon
end Kami
