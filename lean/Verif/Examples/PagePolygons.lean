import Verif.Examples.Page
import Verif.Examples.DrawPolygons
import Verif.Examples.DemoPolygon
/-!
# The page of the polygon example

Model of `run` and `draw` of `examples/simple_polygons/src/lib.rs` with the calls into the browser, and what they leave behind on
any page.  The random triangles and segments are arguments, and so is the result of `triangulate` (a loop, see `Triangulates`);
the count of intersections is unbounded (an `i32` in the source, at most 4950).
-/

set_option autoImplicit false

namespace Kami.Web

open Kami Kami.Svg Kami.Draw

/-! ### Model -/

/-- an element is made and appended to the `svg` element -/
def putElement (svg : Nat) (e : Element) : Js Unit := do
  let element ← unwrap (svgElement e)
  appendChild svg element

/-- examples/simple_polygons/src/lib.rs:59-80 -/
def putTriangles (svg : Nat) : List (Vec2 F32 × Vec2 F32 × Vec2 F32) → Js Unit
  | [] => pure ()
  | (a, b, c) :: rest => do
    putElement svg (svgPolygon fmt32 [a, b, c] "none" "black")
    match Utils.calculateTriangleIncenter a b c with
    | some (incenter, inradius) =>
      putElement svg (svgCircle fmt32 incenter inradius "none" "blue")
      let lineA ← unwrap (svgElement (svgLine fmt32 a incenter "red"))
      let lineB ← unwrap (svgElement (svgLine fmt32 b incenter "red"))
      let lineC ← unwrap (svgElement (svgLine fmt32 c incenter "red"))
      appendChild svg lineA
      appendChild svg lineB
      appendChild svg lineC
    | none => pure ()
    putTriangles svg rest

/-- the inner loop of examples/simple_polygons/src/lib.rs:100-113 from `j` on, `count` steps left -/
def putCrossings (svg : Nat) (segments : List (Vec2 F32 × Vec2 F32)) (i : Nat) : (count j intersections : Nat) → Js Nat
  | 0, _, intersections => pure intersections
  | count + 1, j, intersections => do
    let si ← liftRes (index segments i)
    let sj ← liftRes (index segments j)
    match Utils.calculateLineSegmentIntersection si.1 si.2 sj.1 sj.2 with
    | some intersection =>
      putElement svg (svgCircle fmt32 intersection (F32.lit 2) "red" "")
      putCrossings svg segments i count (j + 1) (intersections + 1)
    | none => putCrossings svg segments i count (j + 1) intersections

/-- the outer loop of examples/simple_polygons/src/lib.rs:93-114 from `i` on, `count` steps left -/
def putSegments (svg : Nat) (segments : List (Vec2 F32 × Vec2 F32)) : (count i intersections : Nat) → Js Nat
  | 0, _, intersections => pure intersections
  | count + 1, i, intersections => do
    let si ← liftRes (index segments i)
    putElement svg (svgLine fmt32 si.1 si.2 "green")
    let intersections ← putCrossings svg segments i (segments.length - (i + 1)) (i + 1) intersections
    putSegments svg segments count (i + 1) intersections

/-- examples/simple_polygons/src/lib.rs:151-160, from triangle `index` on -/
def putFills (svg len : Nat) : List (Polygon F32) → (index : Nat) → Js Unit
  | [], _ => pure ()
  | triangle :: rest, index => do
    putElement svg (svgPolygon fmt32 triangle.vertices
      ("hsl(" ++ fmt32 (hue (fun n => F32.lit n) index len) ++ ", 100%, 50%)") "none")
    putFills svg len rest (index + 1)

/-- examples/simple_polygons/src/lib.rs:39-163 -/
def drawPolygons (triangles : List (Vec2 F32 × Vec2 F32 × Vec2 F32)) (segments : List (Vec2 F32 × Vec2 F32))
    (triangulated : Res (List (Polygon F32))) (body svg : Nat) : Js Unit := do
  putTriangles svg triangles
  let intersections ← putSegments svg segments segments.length 0 0
  let count ← createElement false "p"
  setInnerHtml count ("Found " ++ toString intersections ++ " intersections")
  appendChild body count
  let polygon ← liftRes (demoPolygon F32.lit)
  putElement svg (svgPolygon fmt32 polygon.vertices "none" "black")
  let triangles ← liftRes triangulated
  putFills svg triangles.length triangles 0

/-- examples/simple_polygons/src/lib.rs:11-37 -/
def runPolygons (triangles : List (Vec2 F32 × Vec2 F32 × Vec2 F32)) (segments : List (Vec2 F32 × Vec2 F32))
    (triangulated : Res (List (Polygon F32))) : Js Unit := do
  let (body, svg) ← start false
  drawPolygons triangles segments triangulated body svg
  log "Finished drawing"

/-! ### Proofs -/

/-- an element of a drawing -/
def elOf (e : Element) : El := ⟨true, e.tag, e.attributes, "", [], none⟩

/-- elements put into `svg` one after the other -/
def withElements (els : List El) (svg : Nat) (l : List Element) : List El :=
  els.modify svg (addChildren (List.range' els.length l.length)) ++ l.map elOf

/-- the attributes of an element have different names -/
def Distinct (e : Element) : Prop := (e.attributes.map Prod.fst).Nodup

theorem withElements_nil (els : List El) (svg : Nat) : withElements els svg [] = els := by
  have : addChildren [] = id := by funext e; simp [addChildren]
  simp [withElements, this, List.modify_id]

theorem withElements_cons (els : List El) (svg : Nat) (hs : svg < els.length) (e : Element) (l : List Element) :
    withElements els svg (e :: l) = withElements (withElements els svg [e]) svg l := by
  simp only [withElements, List.length_append, List.length_modify, List.length_map, List.length_cons, List.length_nil]
  rw [modify_add_add els svg hs]
  simp [List.range'_succ]

theorem withElements_length (els : List El) (svg : Nat) (l : List Element) :
    (withElements els svg l).length = els.length + l.length := by simp [withElements]

theorem withElements_append (els : List El) (svg : Nat) (hs : svg < els.length) (l m : List Element) :
    withElements (withElements els svg l) svg m = withElements els svg (l ++ m) := by
  induction l generalizing els with
  | nil => rw [withElements_nil]; rfl
  | cons e l ih =>
    rw [List.cons_append, withElements_cons els svg hs e l, withElements_cons els svg hs e (l ++ m),
      ih _ (by rw [withElements_length]; omega)]

theorem withElements_bounded {els : List El} (h : Bounded els) (svg : Nat) (l : List Element) : Bounded (withElements els svg l) := by
  refine h.append svg _ _ ?_ ?_
  · intro c hc
    rw [List.mem_range'_1] at hc
    simpa using hc.2
  · intro e he c hc
    obtain ⟨x, _, rfl⟩ := List.mem_map.1 he
    cases hc

/-- what is left of a page when elements have been put into `svg` -/
def Puts {α : Type} (svg : Nat) (x : Js α) (l : List Element) (a : α) : Prop :=
  ∀ (els : List El), Bounded els → svg < els.length → ∀ (r : Nat) (b : Option Nat) (c : List String),
    x ⟨els, r, b, c⟩ = (.ok a, ⟨withElements els svg l, r, b, c⟩)

theorem puts_pure {α : Type} (svg : Nat) (a : α) : Puts svg (pure a) [] a := by
  intro els _ _ r b c
  rw [withElements_nil]; rfl

theorem Puts.bind {α β : Type} {svg : Nat} {x : Js α} {l : List Element} {a : α} (h : Puts svg x l a) {f : α → Js β}
    {m : List Element} {d : β} (h' : Puts svg (f a) m d) : Puts svg (x >>= f) (l ++ m) d := by
  intro els hb hs r b c
  rw [bind_ok (h els hb hs r b c), h' _ (withElements_bounded hb svg l) (by rw [withElements_length]; omega) r b c,
    withElements_append els svg hs]

theorem puts_element (svg : Nat) (e : Element) (h : Distinct e) : Puts svg (putElement svg e) [e] () := by
  intro els hb hs r b c
  rw [putElement, bind_ok (unwrap_ok (svgElement_eq e h els r b c)), append_last hb hs _ rfl]
  rfl

theorem polygon_distinct {F : Type} (fmt : F → String) (l : List (Vec2 F)) (f s : String) : Distinct (svgPolygon fmt l f s) := by
  show (["points", "fill", "stroke"] : List String).Nodup
  decide

theorem puts_index {α : Type} (svg : Nat) (l : List α) (i : Nat) (hi : i < l.length) : Puts svg (liftRes (index l i)) [] l[i] := by
  rw [index_some hi]
  exact puts_pure svg _

/-- three elements are made before the first is appended -/
theorem puts_three (svg : Nat) (e1 e2 e3 : Element) (h1 : Distinct e1) (h2 : Distinct e2) (h3 : Distinct e3) :
    Puts svg (do
      let a ← unwrap (svgElement e1)
      let b ← unwrap (svgElement e2)
      let c ← unwrap (svgElement e3)
      appendChild svg a
      appendChild svg b
      appendChild svg c) [e1, e2, e3] () := by
  intro els hb hs r b c
  have hl1 : (els ++ [elOf e1]).length = els.length + 1 := by simp
  have hl2 : (els ++ [elOf e1] ++ [elOf e2]).length = els.length + 2 := by simp
  rw [bind_ok (unwrap_ok (svgElement_eq e1 h1 els r b c))]
  change ((unwrap (svgElement e2)) >>= _) ⟨els ++ [elOf e1], r, b, c⟩ = _
  rw [bind_ok (unwrap_ok (svgElement_eq e2 h2 (els ++ [elOf e1]) r b c))]
  change ((unwrap (svgElement e3)) >>= _) ⟨els ++ [elOf e1] ++ [elOf e2], r, b, c⟩ = _
  rw [bind_ok (unwrap_ok (svgElement_eq e3 h3 (els ++ [elOf e1] ++ [elOf e2]) r b c)), hl1, hl2]
  change (appendChild svg els.length >>= _) ⟨els ++ [elOf e1] ++ [elOf e2] ++ [elOf e3], r, b, c⟩ = _
  have key : ∀ (l : List Nat) (i : Nat), i < 3 → (∀ x ∈ l, x ≠ els.length + i) → (∀ x ∈ l, x < els.length + 3) →
      appendChild svg (els.length + i) ⟨els.modify svg (addChildren l) ++ [elOf e1, elOf e2, elOf e3], r, b, c⟩ =
        (.ok (), ⟨els.modify svg (addChildren (l ++ [els.length + i])) ++ [elOf e1, elOf e2, elOf e3], r, b, c⟩) := by
    intro l i hi hl _
    rw [appendChild_ok]
    · simp only [Page.change]
      have := modify_add_add els svg hs l [els.length + i] [elOf e1, elOf e2, elOf e3]
      rw [← this]
      rfl
    · rw [subtree_leaf]
      · simp only [List.mem_singleton]; omega
      · show ((els.modify svg (addChildren l) ++ [elOf e1, elOf e2, elOf e3])[els.length + i]?.map (·.children)).getD [] = []
        rw [List.getElem?_append_right (by simp)]
        have : i = 0 ∨ i = 1 ∨ i = 2 := by omega
        rcases this with rfl | rfl | rfl <;> simp [elOf]
    · intro x hx hc
      rcases List.mem_append.1 hx with hx | hx
      · obtain ⟨j, hj, rfl⟩ := List.mem_iff_getElem.1 hx
        rw [List.getElem_modify] at hc
        rw [List.length_modify] at hj
        have hold : ∀ y ∈ (els[j]).children, y < els.length := fun y hy => hb _ (List.getElem_mem hj) y hy
        split at hc
        · rcases List.mem_append.1 hc with hc | hc
          · have := hold _ hc; omega
          · exact hl _ hc rfl
        · have := hold _ hc; omega
      · have : x.children = [] := by
          simp only [List.mem_cons, List.not_mem_nil, or_false] at hx
          rcases hx with rfl | rfl | rfl <;> rfl
        rw [this] at hc; cases hc
  have h0 : els ++ [elOf e1] ++ [elOf e2] ++ [elOf e3] = els.modify svg (addChildren []) ++ [elOf e1, elOf e2, elOf e3] := by
    have : addChildren [] = id := by funext e; simp [addChildren]
    simp [this, List.modify_id]
  rw [h0]
  have k0 := key [] 0 (by omega) (by simp) (by simp)
  have k1 := key [els.length] 1 (by omega) (by simp) (by simp)
  have k2 := key [els.length, els.length + 1] 2 (by omega) (by simp) (by simp)
  refine (bind_ok k0).trans ?_
  refine (bind_ok k1).trans ?_
  exact k2

theorem js_assoc {α β γ : Type} (x : Js α) (f : α → Js β) (g : β → Js γ) : (x >>= f) >>= g = x >>= fun a => f a >>= g := by
  funext p
  rcases h : x p with ⟨a | _ | e, q⟩
  · rw [bind_ok h]
    show (match (x >>= f) p with | (.ok a, q) => g a q | (.thrown, q) => (.thrown, q) | (.panic e, q) => (.panic e, q)) = _
    rw [bind_ok h]
    rfl
  · have h1 : (x >>= f) p = (.thrown, q) := by
      show (match x p with | (.ok a, q) => f a q | (.thrown, q) => (.thrown, q) | (.panic e, q) => (.panic e, q)) = _
      rw [h]
    show (match (x >>= f) p with | (.ok a, q) => g a q | (.thrown, q) => (.thrown, q) | (.panic e, q) => (.panic e, q)) =
      (match x p with | (.ok a, q) => (f a >>= g) q | (.thrown, q) => (.thrown, q) | (.panic e, q) => (.panic e, q))
    rw [h, h1]
  · rw [bind_panic h, bind_panic (bind_panic h)]

theorem puts_triangles (svg : Nat) (l : List (Vec2 F32 × Vec2 F32 × Vec2 F32)) : Puts svg (putTriangles svg l) (drawTriangles fmt32 l) () := by
  induction l with
  | nil => exact puts_pure svg ()
  | cons t l ih =>
    obtain ⟨a, b, c⟩ := t
    rw [putTriangles, drawTriangles, drawTriangle, List.cons_append, ← List.singleton_append]
    refine (puts_element svg _ (polygon_distinct _ _ _ _)).bind ?_
    cases Utils.calculateTriangleIncenter a b c with
    | none => exact ih
    | some x =>
      obtain ⟨i, r⟩ := x
      dsimp only
      change Puts svg _ ([svgCircle fmt32 i r "none" "blue"] ++
        ([svgLine fmt32 a i "red", svgLine fmt32 b i "red", svgLine fmt32 c i "red"] ++ drawTriangles fmt32 l)) ()
      refine (puts_element svg _ (circle_nodup _ _ _ _ _)).bind ?_
      have := (puts_three svg _ _ _ (line_nodup fmt32 a i "red") (line_nodup fmt32 b i "red") (line_nodup fmt32 c i "red")).bind
        (f := fun _ => putTriangles svg l) ih
      simpa only [js_assoc] using this

theorem puts_crossings (svg : Nat) (segs : List (Vec2 F32 × Vec2 F32)) (i : Nat) : ∀ (count j n : Nat) (shapes : List Element) (m : Nat),
    i < segs.length → j + count ≤ segs.length → drawCrossings fmt32 (F32.lit 2) segs i count j = .ok (shapes, m) →
      Puts svg (putCrossings svg segs i count j n) shapes (n + m) := by
  intro count
  induction count with
  | zero =>
    intro j n shapes m _ _ h
    obtain ⟨rfl, rfl⟩ := Prod.mk.inj (Except.ok.inj h)
    exact puts_pure svg n
  | succ count ih =>
    intro j n shapes m hi hj h
    have hj' : j < segs.length := by omega
    unfold drawCrossings at h
    rw [drawCrossings_eq fmt32 _ segs i count (j + 1) hi (by omega), index_some hi, index_some hj'] at h
    have ih := fun n => ih (j + 1) n _ _ hi (by omega) (drawCrossings_eq fmt32 (F32.lit 2) segs i count (j + 1) hi (by omega))
    rw [putCrossings]
    rw [← List.nil_append shapes]
    refine (puts_index svg segs i hi).bind ?_
    rw [← List.nil_append shapes]
    refine (puts_index svg segs j hj').bind ?_
    simp only [bind, Except.bind, pure, Except.pure] at h
    cases hc : Utils.calculateLineSegmentIntersection segs[i].1 segs[i].2 segs[j].1 segs[j].2 with
    | none =>
      rw [hc] at h
      obtain ⟨h1, h2⟩ := Prod.mk.inj (Except.ok.inj h)
      rw [← h1, ← h2]
      exact ih n
    | some x =>
      rw [hc] at h
      obtain ⟨h1, h2⟩ := Prod.mk.inj (Except.ok.inj h)
      rw [← h1, ← h2, ← List.singleton_append]
      have := (puts_element svg _ (circle_nodup fmt32 x (F32.lit 2) "red" "")).bind (f := fun _ => putCrossings svg segs i count (j + 1) (n + 1))
        (ih (n + 1))
      rw [show n + 1 + ((List.range' (j + 1) count).filterMap (meets segs i)).length =
        n + (((List.range' (j + 1) count).filterMap (meets segs i)).length + 1) by ring] at this
      exact this

theorem puts_segments (svg : Nat) (segs : List (Vec2 F32 × Vec2 F32)) : ∀ (count i n : Nat), i + count ≤ segs.length →
    Puts svg (putSegments svg segs count i n) ((List.range' i count).flatMap (shapesOf fmt32 (F32.lit 2) segs))
      (n + ((List.range' i count).flatMap (pointsOf segs)).length) := by
  intro count
  induction count with
  | zero => intro i n _; exact puts_pure svg n
  | succ count ih =>
    intro i n hi
    have hi' : i < segs.length := by omega
    rw [putSegments, List.range'_succ, List.flatMap_cons, List.flatMap_cons, List.length_append, ← Nat.add_assoc]
    have hs : shapesOf fmt32 (F32.lit 2) segs i = svgLine fmt32 segs[i].1 segs[i].2 "green" ::
        (pointsOf segs i).map fun x => svgCircle fmt32 x (F32.lit 2) "red" "" := by
      unfold shapesOf; rw [List.getElem?_eq_getElem hi']
    rw [hs, List.cons_append, ← List.nil_append (_ :: _)]
    refine (puts_index svg segs i hi').bind ?_
    rw [← List.singleton_append]
    refine (puts_element svg _ (line_nodup _ _ _ _)).bind ?_
    exact (puts_crossings svg segs i _ _ n _ _ hi' (by omega)
      (drawCrossings_eq fmt32 (F32.lit 2) segs i (segs.length - (i + 1)) (i + 1) hi' (by omega))).bind (ih (i + 1) _ (by omega))

theorem puts_fills (svg len : Nat) (ts : List (Polygon F32)) : ∀ i, Puts svg (putFills svg len ts i)
    (drawFills fmt32 (fun n => F32.lit n) len ts i) () := by
  induction ts with
  | nil => intro i; exact puts_pure svg ()
  | cons t ts ih =>
    intro i
    rw [putFills, drawFills, ← List.singleton_append]
    exact (puts_element svg _ (polygon_distinct _ _ _ _)).bind (ih (i + 1))

/-- the elements of the page after `run`: `before` was drawn before the paragraph, `after` after it -/
def polygonEls (els : List El) (b : Nat) (text : String) (before after : List Element) : List El :=
  els.modify b (addChildren [els.length, els.length + 1, els.length + 2 + before.length]) ++
    [headingEl, svgEl false (List.range' (els.length + 2) before.length ++ List.range' (els.length + 3 + before.length) after.length)] ++
    before.map elOf ++ [textEl [] text] ++ after.map elOf

/-- **C131, polygons.** On any page with a body, whatever the random triangles and segments, the program ends without a panic
or an error; the drawing has the triangles and segments with the crossings found (C96), then the polygon and its triangles
(C97), in this order, and the paragraph says how many pairs of segments cross. -/
theorem C131_polygons (triangles : List (Vec2 F32 × Vec2 F32 × Vec2 F32)) (segs : List (Vec2 F32 × Vec2 F32))
    (ts : List (Polygon F32)) (p : Page) (b : Nat) (hbody : p.body = some b) (hb : Bounded p.els) (hs : b < p.els.length) :
    ∃ shapes, drawSegments fmt32 (F32.lit 2) segs segs.length 0 = .ok (shapes, (crossingPairs segs).card) ∧
    runPolygons triangles segs (.ok ts) p = (.ok (), { p with
      els := polygonEls p.els b ("Found " ++ toString (crossingPairs segs).card ++ " intersections") (drawTriangles fmt32 triangles ++ shapes)
        (svgPolygon fmt32 demo32 "none" "black" :: drawFills fmt32 (fun n => F32.lit n) ts.length ts 0),
      console := p.console ++ ["Finished drawing"] }) := by
  have hcard := points_length segs
  refine ⟨(List.range' 0 segs.length).flatMap (shapesOf fmt32 (F32.lit 2) segs), ?_, ?_⟩
  · rw [drawSegments_eq fmt32 _ segs _ _ (by omega), hcard]
  obtain ⟨els, r, bo, c⟩ := p
  obtain rfl : bo = some b := hbody
  rw [runPolygons, bind_ok (start_eq false els r b c hb hs)]
  dsimp only
  set e0 := startEls false els b with he0
  have hb0 : Bounded e0 := startEls_bounded false hb b
  have hl0 : e0.length = els.length + 2 := by simp [he0, startEls]
  have h1 := (puts_triangles (els.length + 1) triangles).bind (f := fun _ => putSegments (els.length + 1) segs segs.length 0 0)
    (puts_segments (els.length + 1) segs segs.length 0 0 (by omega))
  rw [Nat.zero_add, hcard] at h1
  set before := drawTriangles fmt32 triangles ++ (List.range' 0 segs.length).flatMap (shapesOf fmt32 (F32.lit 2) segs) with hbef
  have h1 := h1 e0 hb0 (by omega) r (some b) c
  have hb1 := withElements_bounded hb0 (els.length + 1) before
  have hl1 : (withElements e0 (els.length + 1) before).length = els.length + 2 + before.length := by rw [withElements_length, hl0]
  have hm1 : (withElements e0 (els.length + 1) before).modify b (addChildren [els.length + 2 + before.length]) =
      els.modify b (addChildren [els.length, els.length + 1, els.length + 2 + before.length]) ++
        ([headingEl, svgEl false (List.range' (els.length + 2) before.length)] ++ before.map elOf) := by
    have h2 := modify_right (els.modify b (addChildren [els.length, els.length + 1])) [headingEl, svgEl false []] 1
      (addChildren (List.range' (els.length + 2) before.length))
    rw [List.length_modify] at h2
    rw [withElements, hl0, he0, startEls, h2, List.append_assoc]
    exact modify_add_add els b hs [els.length, els.length + 1] [els.length + 2 + before.length] _
  have hdraw : drawPolygons triangles segs (.ok ts) b (els.length + 1) ⟨e0, r, some b, c⟩ =
      (.ok (), ⟨polygonEls els b ("Found " ++ toString (crossingPairs segs).card ++ " intersections") before
        (svgPolygon fmt32 demo32 "none" "black" :: drawFills fmt32 (fun n => F32.lit n) ts.length ts 0), r, some b, c⟩) := by
    unfold drawPolygons
    rw [← js_assoc, bind_ok h1]
    set e1 := withElements e0 (els.length + 1) before with he1
    have g1 : createElement false "p" ⟨e1, r, some b, c⟩ = (.ok e1.length, ⟨e1 ++ [⟨false, "p", [], "", [], none⟩], r, some b, c⟩) := rfl
    have g2 : setInnerHtml e1.length ("Found " ++ toString (crossingPairs segs).card ++ " intersections")
        ⟨e1 ++ [⟨false, "p", [], "", [], none⟩], r, some b, c⟩ =
        (.ok (), ⟨e1 ++ [textEl [] ("Found " ++ toString (crossingPairs segs).card ++ " intersections")], r, some b, c⟩) := by
      simp only [setInnerHtml, Page.change, modify_last]; rfl
    have hs1 : b < e1.length := by have : b < els.length := hs; omega
    generalize "Found " ++ toString (crossingPairs segs).card ++ " intersections" = text at g2 ⊢
    rw [bind_ok g1, bind_ok g2, bind_ok (append_last hb1 hs1 (textEl [] text) rfl r (some b) c)]
    have hb2 := hb1.last b (textEl [] text) rfl
    have hl2 : (e1.modify b (addChildren [e1.length]) ++ [textEl [] text]).length = els.length + 3 + before.length := by
      rw [List.length_append, List.length_modify, hl1]; simp; omega
    have g3 : liftRes (demoPolygon F32.lit) ⟨e1.modify b (addChildren [e1.length]) ++ [textEl [] text], r, some b, c⟩ =
        (.ok ⟨demo32⟩, ⟨e1.modify b (addChildren [e1.length]) ++ [textEl [] text], r, some b, c⟩) := by
      rw [demo_eq]; rfl
    rw [bind_ok g3]
    have g4 := (puts_element (els.length + 1) _ (polygon_distinct fmt32 demo32 "none" "black")).bind
      (f := fun _ => liftRes (.ok ts) >>= fun triangles => putFills (els.length + 1) triangles.length triangles 0)
      ((puts_pure (els.length + 1) ts).bind (f := fun triangles => putFills (els.length + 1) triangles.length triangles 0)
        (puts_fills (els.length + 1) ts.length ts 0))
    rw [g4 _ hb2 (by omega) r (some b) c]
    congr 2
    rw [List.singleton_append, List.nil_append, withElements, hl2, hl1, hm1]
    generalize (svgPolygon fmt32 demo32 "none" "black" :: drawFills fmt32 (fun n => F32.lit n) ts.length ts 0) = after
    have h2 := modify_right (els.modify b (addChildren [els.length, els.length + 1, els.length + 2 + before.length]))
      ([headingEl, svgEl false (List.range' (els.length + 2) before.length)] ++ before.map elOf ++ [textEl [] text]) 1
      (addChildren (List.range' (els.length + 3 + before.length) after.length))
    rw [List.length_modify] at h2
    rw [List.append_assoc, h2, polygonEls]
    simp [svgEl, addChildren]
  rw [bind_ok hdraw]
  rfl

/-- **C131, polygons, with the triangulation.** The loop `triangulate` ends on the polygon of the example with sixteen
triangles (C97), and with them the program ends normally on every page with a body. -/
theorem C131_polygons_end (triangles : List (Vec2 F32 × Vec2 F32 × Vec2 F32)) (segs : List (Vec2 F32 × Vec2 F32))
    (p : Page) (b : Nat) (hbody : p.body = some b) (hb : Bounded p.els) (hs : b < p.els.length) :
    ∃ P ts, demoPolygon F32.lit = .ok P ∧ Polygon.Triangulates P (.ok ts) ∧ ts.length = 16 ∧
      (runPolygons triangles segs (.ok ts) p).1 = .ok () := by
  obtain ⟨_, P, ts, h1, _, h2, h3, _⟩ := C97_triangulate
  obtain ⟨shapes, _, h4⟩ := C131_polygons triangles segs ts p b hbody hb hs
  exact ⟨P, ts, h1, h2, h3, by rw [h4]⟩

/-- the hypotheses on the page of the project -/
example : indexHtml.body = some 4 ∧ Bounded indexHtml.els ∧ 4 < indexHtml.els.length := by
  unfold Bounded
  decide +kernel

/-- the program with one triangle and two segments that cross -/
example : ((runPolygons [(lit2 0 250, lit2 100 250, lit2 0 350)] [(lit2 0 0, lit2 10 10), (lit2 0 10, lit2 10 0)] (.ok []) indexHtml).2.els.map
    fun e => (e.tag, e.html)).drop 6 = [("h1", "かみ"), ("svg", ""), ("polygon", ""), ("circle", ""), ("line", ""), ("line", ""), ("line", ""),
      ("line", ""), ("circle", ""), ("line", ""), ("p", "Found 1 intersections"), ("polygon", "")] := by
  decide +kernel

end Kami.Web
