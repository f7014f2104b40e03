import Verif.Num.Scalar
/-!
# The SVG helpers of the examples

Model of `examples/simple_polygons/src/shared.rs` (the files in `examples/simple_graph` and `examples/_template` contain the
same functions).  A DOM element is its tag and its attributes in the order in which they are set; calls into the browser
are assumed to succeed.  `fmt` is `Display` for `f32`.
-/

set_option autoImplicit false

namespace Kami.Svg

open Kami

variable {F : Type}

/-- a DOM element -/
structure Element where
  tag : String
  attributes : List (String × String)
  deriving DecidableEq, Repr

/-- `String::pop` as a statement: removes the last character, if any -/
def pop (s : String) : String := String.ofList s.toList.dropLast

/-- examples/simple_polygons/src/shared.rs:42-48 -/
def pointsAttr (fmt : F → String) (points : List (Vec2 F)) : String :=
  pop (String.join (points.map fun point => fmt point.x ++ "," ++ fmt point.y ++ " "))

/-- examples/simple_polygons/src/shared.rs:35-56 -/
def svgPolygon (fmt : F → String) (points : List (Vec2 F)) (fill stroke : String) : Element :=
  ⟨"polygon", [("points", pointsAttr fmt points), ("fill", fill), ("stroke", stroke)]⟩

/-- examples/simple_polygons/src/shared.rs:58-73 -/
def svgCircle (fmt : F → String) (position : Vec2 F) (radius : F) (fill stroke : String) : Element :=
  ⟨"circle", [("cx", fmt position.x), ("cy", fmt position.y), ("r", fmt radius), ("fill", fill), ("stroke", stroke)]⟩

/-- examples/simple_polygons/src/shared.rs:75-89 -/
def svgLine (fmt : F → String) (a b : Vec2 F) (stroke : String) : Element :=
  ⟨"line", [("x1", fmt a.x), ("y1", fmt a.y), ("x2", fmt b.x), ("y2", fmt b.y), ("stroke", stroke)]⟩

/-- the value of an attribute -/
def Element.attr (e : Element) (name : String) : Option String := e.attributes.lookup name

theorem join_toList (l : List String) : (String.join l).toList = (l.map String.toList).flatten := by
  rw [String.toList_join, List.flatMap_def]

theorem dropLast_flatten (xs : List (List Char)) :
    ((xs.map fun w => w ++ [' ']).flatten).dropLast = [' '].intercalate xs := by
  induction xs with
  | nil => rfl
  | cons w xs ih =>
    cases xs with
    | nil => simp
    | cons v vs =>
      rw [List.map_cons, List.flatten_cons, List.dropLast_append_of_ne_nil, ih]
      · simp [List.intercalate, List.append_assoc]
      · simp

/-- **C75.** The `points` attribute is the vertices as `x,y`, separated by single spaces, for any number of vertices and any
way of printing numbers. -/
theorem C75_points (fmt : F → String) (points : List (Vec2 F)) (fill stroke : String) :
    (svgPolygon fmt points fill stroke).attr "points" =
      some (String.intercalate " " (points.map fun p => fmt p.x ++ "," ++ fmt p.y)) := by
  show some (pointsAttr fmt points) = _
  congr 1
  apply String.toList_injective
  unfold pointsAttr pop
  rw [String.toList_ofList, join_toList, String.toList_intercalate]
  rw [show (" " : String).toList = [' '] from rfl, ← dropLast_flatten]
  simp [Function.comp_def]

theorem intercalate_ends (ws : List (List Char)) (h : ∀ w ∈ ws, w ≠ [] ∧ ' ' ∉ w) :
    ([' '].intercalate ws).head? ≠ some ' ' ∧ ([' '].intercalate ws).getLast? ≠ some ' ' ∧
    ([' '].intercalate ws).count ' ' = ws.length - 1 := by
  induction ws with
  | nil => simp [List.intercalate]
  | cons w ws ih =>
    obtain ⟨hw, hs⟩ := h w (List.mem_cons_self ..)
    have ih := ih (fun v hv => h v (List.mem_cons_of_mem _ hv))
    have hhead : ∀ t, (w ++ t).head? ≠ some ' ' := by
      intro t hc
      cases w with
      | nil => exact hw rfl
      | cons c w => simp at hc; exact hs (by simp [hc])
    have hcount : w.count ' ' = 0 := List.count_eq_zero.2 hs
    cases ws with
    | nil =>
      refine ⟨?_, ?_, ?_⟩
      · simpa [List.intercalate] using hhead []
      · intro hc
        have : ([' '].intercalate [w]) = w := by simp [List.intercalate]
        rw [this] at hc
        exact hs (List.mem_of_getLast? hc)
      · simp [List.intercalate, hcount]
    | cons v vs =>
      have he : ([' '].intercalate (w :: v :: vs)) = w ++ (' ' :: [' '].intercalate (v :: vs)) := by
        simp [List.intercalate]
      rw [he]
      obtain ⟨i1, i2, i3⟩ := ih
      refine ⟨hhead _, ?_, ?_⟩
      · rw [List.getLast?_append, List.getLast?_cons]
        have hne : [' '].intercalate (v :: vs) ≠ [] := by
          obtain ⟨hv, _⟩ := h v (by simp)
          cases vs with
          | nil => simpa [List.intercalate] using hv
          | cons u us => simp [List.intercalate]
        cases hl : ([' '].intercalate (v :: vs)).getLast? with
        | none => exact absurd (List.getLast?_eq_none_iff.1 hl) hne
        | some c =>
          rw [hl] at i2
          simpa using i2
      · rw [List.count_append, List.count_cons_self, hcount, i3]
        simp

/-- **C75, spaces.** If printed numbers contain no space, the attribute neither starts nor ends with a space, and contains
exactly one space fewer than there are vertices. -/
theorem C75_spaces (fmt : F → String) (hfmt : ∀ x, ' ' ∉ (fmt x).toList) (points : List (Vec2 F)) :
    (pointsAttr fmt points).toList.head? ≠ some ' ' ∧ (pointsAttr fmt points).toList.getLast? ≠ some ' ' ∧
    (pointsAttr fmt points).toList.count ' ' = points.length - 1 := by
  have h := C75_points fmt points "" ""
  simp only [svgPolygon, Element.attr, List.lookup, beq_self_eq_true] at h
  rw [Option.some.inj h, String.toList_intercalate]
  have := intercalate_ends ((points.map fun p => fmt p.x ++ "," ++ fmt p.y).map String.toList) (by
    intro w hw
    simp only [List.mem_map] at hw
    obtain ⟨_, ⟨p, _, rfl⟩, rfl⟩ := hw
    have h1 := hfmt p.x
    have h2 := hfmt p.y
    simp only [String.toList_append]
    refine ⟨by simp, ?_⟩
    simp only [List.mem_append, not_or]
    exact ⟨⟨h1, by decide⟩, h2⟩)
  simpa using this

example : (svgPolygon (fun n : Nat => toString n) [⟨200, 300⟩, ⟨100, 200⟩, ⟨400, 50⟩] "none" "black").attr "points" =
    some "200,300 100,200 400,50" := by decide +kernel

/-- no vertices give the empty string -/
example : pointsAttr (fun n : Nat => toString n) [] = "" := rfl

/-! ### C79: the other attributes -/

/-- **C79, polygon.** -/
theorem C79_polygon (fmt : F → String) (points : List (Vec2 F)) (fill stroke : String) :
    let e := svgPolygon fmt points fill stroke
    e.tag = "polygon" ∧ e.attr "fill" = some fill ∧ e.attr "stroke" = some stroke ∧
    e.attributes.map Prod.fst = ["points", "fill", "stroke"] :=
  ⟨rfl, rfl, rfl, rfl⟩

/-- **C79, circle.** The centre, the radius and the colours are the arguments, each under the right name. -/
theorem C79_circle (fmt : F → String) (c : Vec2 F) (r : F) (fill stroke : String) :
    let e := svgCircle fmt c r fill stroke
    e.tag = "circle" ∧ e.attr "cx" = some (fmt c.x) ∧ e.attr "cy" = some (fmt c.y) ∧ e.attr "r" = some (fmt r) ∧
    e.attr "fill" = some fill ∧ e.attr "stroke" = some stroke ∧
    e.attributes.map Prod.fst = ["cx", "cy", "r", "fill", "stroke"] :=
  ⟨rfl, rfl, rfl, rfl, rfl, rfl, rfl⟩

/-- **C79, line.** The line runs from the first argument to the second. -/
theorem C79_line (fmt : F → String) (a b : Vec2 F) (stroke : String) :
    let e := svgLine fmt a b stroke
    e.tag = "line" ∧ e.attr "x1" = some (fmt a.x) ∧ e.attr "y1" = some (fmt a.y) ∧ e.attr "x2" = some (fmt b.x) ∧
    e.attr "y2" = some (fmt b.y) ∧ e.attr "stroke" = some stroke ∧
    e.attributes.map Prod.fst = ["x1", "y1", "x2", "y2", "stroke"] :=
  ⟨rfl, rfl, rfl, rfl, rfl, rfl, rfl⟩

/-- **C79, faithful.** If numbers are printed injectively, different lines (circles) give different elements. -/
theorem C79_injective (fmt : F → String) (hf : Function.Injective fmt) (a b c d : Vec2 F) (r r' : F)
    (s s' f f' : String) :
    (svgLine fmt a b s = svgLine fmt c d s' ↔ a = c ∧ b = d ∧ s = s') ∧
    (svgCircle fmt a r f s = svgCircle fmt b r' f' s' ↔ a = b ∧ r = r' ∧ f = f' ∧ s = s') := by
  obtain ⟨ax, ay⟩ := a
  obtain ⟨bx, b2⟩ := b
  obtain ⟨cx, cy⟩ := c
  obtain ⟨dx, dy⟩ := d
  constructor
  · simp [svgLine, hf.eq_iff, and_assoc]
  · simp [svgCircle, hf.eq_iff, and_assoc]

example : (svgLine (fun n : Nat => toString n) ⟨1, 2⟩ ⟨3, 4⟩ "black").attr "y2" = some "4" := by decide +kernel

end Kami.Svg
