import Verif.Examples.DrawGraph
import Verif.Num.Display
/-!
# C130: drawings determine what was drawn

With the numbers printed as Rust prints an `f32`, the attributes written by the helpers of the examples determine the points,
and the drawing of a graph determines the graph.
-/

set_option autoImplicit false

namespace Kami.Draw

open Kami Kami.Svg Kami.Graph

variable {T T' U U' : Type}

/-- `to_string` and `{}` of an `f32` (Rust 1.53 and later) -/
abbrev fmt32 : F32 → String := F32.display true

theorem fmt32_injective : Function.Injective fmt32 := by
  intro x y h
  rcases (F32.C129_injective true x y).1 h with h | ⟨h, _⟩
  · exact h
  · cases h

/-- the first separator splits a list in one way only -/
theorem split_unique {s : Char} {w w' r r' : List Char} (hw : s ∉ w) (hw' : s ∉ w') (h : w ++ s :: r = w' ++ s :: r') :
    w = w' ∧ r = r' := by
  induction w generalizing w' with
  | nil =>
    cases w' with
    | nil => exact ⟨rfl, (List.cons.inj h).2⟩
    | cons c w' =>
      obtain ⟨rfl, _⟩ := List.cons.inj h
      exact absurd (List.mem_cons_self ..) hw'
  | cons c w ih =>
    cases w' with
    | nil =>
      obtain ⟨rfl, _⟩ := List.cons.inj h
      exact absurd (List.mem_cons_self ..) hw
    | cons c' w' =>
      obtain ⟨rfl, h1⟩ := List.cons.inj h
      obtain ⟨rfl, h2⟩ := ih (fun hc => hw (List.mem_cons_of_mem _ hc)) (fun hc => hw' (List.mem_cons_of_mem _ hc)) h1
      exact ⟨rfl, h2⟩

theorem intercalate_cons_cons (s : Char) (w v : List Char) (vs : List (List Char)) :
    [s].intercalate (w :: v :: vs) = w ++ s :: [s].intercalate (v :: vs) := by simp [List.intercalate]

theorem intercalate_injective {s : Char} (ws vs : List (List Char)) (hw : ∀ w ∈ ws, s ∉ w ∧ w ≠ []) (hv : ∀ v ∈ vs, s ∉ v ∧ v ≠ [])
    (h : [s].intercalate ws = [s].intercalate vs) : ws = vs := by
  have nil : ∀ us : List (List Char), (∀ v ∈ us, s ∉ v ∧ v ≠ []) → [s].intercalate us = [] → us = [] := by
    intro us hu he
    match us with
    | [] => rfl
    | [u] => exact absurd (by simpa [List.intercalate] using he) (hu u (by simp)).2
    | u :: u' :: us => rw [intercalate_cons_cons] at he; simp at he
  induction ws generalizing vs with
  | nil => exact (nil vs hv (by rw [← h]; rfl)).symm
  | cons w ws ih =>
    cases vs with
    | nil => exact nil _ hw (by rw [h]; rfl)
    | cons v vs =>
      have single : ∀ u, [s].intercalate [u] = u := fun u => by simp [List.intercalate]
      cases ws with
      | nil =>
        cases vs with
        | nil => rw [single, single] at h; rw [h]
        | cons v' vs =>
          rw [single, intercalate_cons_cons] at h
          exact absurd (by rw [h]; simp) (hw w (by simp)).1
      | cons w' ws =>
        cases vs with
        | nil =>
          rw [single, intercalate_cons_cons] at h
          exact absurd (by rw [← h]; simp) (hv v (by simp)).1
        | cons v' vs =>
          rw [intercalate_cons_cons, intercalate_cons_cons] at h
          obtain ⟨rfl, h1⟩ := split_unique (hw w (by simp)).1 (hv v (by simp)).1 h
          rw [ih (v' :: vs) (fun x hx => hw x (List.mem_cons_of_mem _ hx)) (fun x hx => hv x (List.mem_cons_of_mem _ hx)) h1]

/-- **C130, polygons.** The `points` attribute determines the list of vertices, so different polygons give different
elements. -/
theorem C130_polygon (ps qs : List (Vec2 F32)) (f f' s s' : String) :
    svgPolygon fmt32 ps f s = svgPolygon fmt32 qs f' s' ↔ ps = qs ∧ f = f' ∧ s = s' := by
  constructor
  · intro h
    have ha : pointsAttr fmt32 ps = pointsAttr fmt32 qs ∧ f = f' ∧ s = s' := by
      simpa [svgPolygon] using h
    refine ⟨?_, ha.2⟩
    have key : ∀ ps : List (Vec2 F32), (pointsAttr fmt32 ps).toList =
        [' '].intercalate (ps.map fun p => (fmt32 p.x).toList ++ ',' :: (fmt32 p.y).toList) := by
      intro ps
      have h := C75_points fmt32 ps "" ""
      simp only [svgPolygon, Element.attr, List.lookup, beq_self_eq_true] at h
      rw [Option.some.inj h, String.toList_intercalate]
      simp [Function.comp_def, show (" " : String).toList = [' '] from rfl, show ("," : String).toList = [','] from rfl]
    have hwords : ∀ ps : List (Vec2 F32), ∀ w ∈ ps.map (fun p => (fmt32 p.x).toList ++ ',' :: (fmt32 p.y).toList),
        ' ' ∉ w ∧ w ≠ [] := by
      intro ps w hw
      obtain ⟨p, _, rfl⟩ := List.mem_map.1 hw
      have h1 := (F32.display_separators true p.x).1
      have h2 := (F32.display_separators true p.y).1
      refine ⟨?_, by simp⟩
      simp only [List.mem_append, List.mem_cons, not_or]
      exact ⟨h1, by decide, h2⟩
    have h1 := intercalate_injective _ _ (hwords ps) (hwords qs) (by rw [← key, ← key, ha.1])
    have hinj : Function.Injective fun p : Vec2 F32 => (fmt32 p.x).toList ++ ',' :: (fmt32 p.y).toList := by
      rintro ⟨a, b⟩ ⟨c, d⟩ h
      obtain ⟨h1, h2⟩ := split_unique (F32.display_separators true a).2 (F32.display_separators true c).2 h
      obtain rfl : a = c := fmt32_injective (String.toList_injective h1)
      obtain rfl : b = d := fmt32_injective (String.toList_injective h2)
      rfl
    exact List.map_injective_iff.2 hinj h1
  · rintro ⟨rfl, rfl, rfl⟩; rfl

theorem drawNodes_circles {F : Type} (fmt : F → String) (five : F) (ns : List (Node F T)) (i : Nat) :
    ∀ s ∈ drawNodes fmt five ns i, s.element.tag = "circle" := by
  induction ns generalizing i with
  | nil => intro s hs; cases hs
  | cons n ns ih =>
    intro s hs
    rcases List.mem_cons.1 hs with rfl | hs
    · rfl
    · exact ih (i + 1) s hs

/-- one step of the loop over the edges -/
theorem drawEdges_cons {F : Type} {fmt : F → String} {g : PlanarGraph F T U} {e : Edge U} {es : List (Edge U)} {i : Nat}
    {ss : List Shape} (h : drawEdges fmt g (e :: es) i = .ok ss) : ∃ s rest, ss = s :: rest ∧
      drawEdges fmt g es (i + 1) = .ok rest ∧ s.element.tag = "line" ∧
      s.title = some ("Edge " ++ toString i ++ " between vertices <" ++ toString e.src ++ ", " ++ toString e.dst ++ ">") := by
  unfold drawEdges at h
  cases h1 : g.getVertex e.src with
  | none => rw [h1] at h; cases h
  | some a =>
    cases h2 : g.getVertex e.dst with
    | none => rw [h1, h2] at h; cases h
    | some b =>
      cases h3 : drawEdges fmt g es (i + 1) with
      | error p => rw [h1, h2, h3] at h; cases h
      | ok rest =>
        rw [h1, h2, h3] at h
        exact ⟨_, rest, (Except.ok.inj h).symm, rfl, rfl, rfl⟩

theorem drawEdges_lines {F : Type} (fmt : F → String) (g : PlanarGraph F T U) (es : List (Edge U)) (i : Nat) (ss : List Shape)
    (h : drawEdges fmt g es i = .ok ss) : ∀ s ∈ ss, s.element.tag = "line" := by
  induction es generalizing i ss with
  | nil => obtain rfl := Except.ok.inj h; intro s hs; cases hs
  | cons e es ih =>
    obtain ⟨s, rest, rfl, h1, h2, _⟩ := drawEdges_cons h
    intro t ht
    rcases List.mem_cons.1 ht with rfl | ht
    · exact h2
    · exact ih (i + 1) rest h1 t ht

theorem digits_not {c : Char} (hc : c.isDigit = false) (n : Nat) : c ∉ (toString n).toList := by
  intro h
  have : c.isDigit = true := Nat.isDigit_of_mem_toDigits (b := 10) (n := n) (by norm_num) (by norm_num) (by
    rwa [show toString n = Nat.repr n from rfl, Nat.toList_repr] at h)
  rw [hc] at this
  cases this

theorem toString_injective : Function.Injective (toString : Nat → String) := by
  intro a b h
  have h' : Nat.toDigits 10 a = Nat.toDigits 10 b := by
    rw [← Nat.toList_repr, ← Nat.toList_repr]; exact congrArg String.toList h
  rw [← Nat.ofDigitChars_ten_toDigits (n := a), h', Nat.ofDigitChars_ten_toDigits]

theorem edge_title {i a b c d : Nat}
    (h : "Edge " ++ toString i ++ " between vertices <" ++ toString a ++ ", " ++ toString b ++ ">" =
      "Edge " ++ toString i ++ " between vertices <" ++ toString c ++ ", " ++ toString d ++ ">") : a = c ∧ b = d := by
  have h' := congrArg String.toList h
  simp only [String.toList_append, List.append_assoc, List.append_cancel_left_eq] at h'
  have e1 : (", " : String).toList = [',', ' '] := rfl
  have e2 : (">" : String).toList = ['>'] := rfl
  rw [e1, e2] at h'
  obtain ⟨h1, h2⟩ := split_unique (digits_not (by decide) a) (digits_not (by decide) c) h'
  obtain ⟨_, h2⟩ := List.cons.inj h2
  obtain ⟨h2, _⟩ := split_unique (digits_not (by decide) b) (digits_not (by decide) d) h2
  exact ⟨toString_injective (String.toList_injective h1), toString_injective (String.toList_injective h2)⟩

theorem drawNodes_positions {five : F32} (ns : List (Node F32 T)) (ns' : List (Node F32 T')) (i : Nat)
    (h : drawNodes fmt32 five ns i = drawNodes fmt32 five ns' i) : ns.map (·.position) = ns'.map (·.position) := by
  induction ns generalizing ns' i with
  | nil =>
    cases ns' with
    | nil => rfl
    | cons n' ns' => cases h
  | cons n ns ih =>
    cases ns' with
    | nil => cases h
    | cons n' ns' =>
      obtain ⟨h1, h2⟩ := List.cons.inj h
      have h3 := congrArg Shape.element h1
      have h4 := ((C79_injective fmt32 fmt32_injective n.position n'.position n.position n'.position five five "black" "black"
        "green" "green").2.1 h3).1
      rw [List.map_cons, List.map_cons, h4, ih ns' (i + 1) h2]

theorem drawEdges_indices {F F' : Type} {fmt : F → String} {fmt' : F' → String} (g : PlanarGraph F T U) (g' : PlanarGraph F' T' U')
    (es : List (Edge U)) (es' : List (Edge U')) (i : Nat) (ss : List Shape) (h : drawEdges fmt g es i = .ok ss)
    (h' : drawEdges fmt' g' es' i = .ok ss) : es.map (fun e => (e.src, e.dst)) = es'.map fun e => (e.src, e.dst) := by
  induction es generalizing es' i ss with
  | nil =>
    obtain rfl := Except.ok.inj h
    cases es' with
    | nil => rfl
    | cons e' es' => obtain ⟨_, _, h1, _⟩ := drawEdges_cons h'; cases h1
  | cons e es ih =>
    obtain ⟨s, rest, rfl, h1, _, h2⟩ := drawEdges_cons h
    cases es' with
    | nil => cases h'
    | cons e' es' =>
      obtain ⟨s', rest', hs, h1', _, h2'⟩ := drawEdges_cons h'
      obtain ⟨rfl, rfl⟩ := List.cons.inj hs
      rw [h2] at h2'
      obtain ⟨h3, h4⟩ := edge_title (Option.some.inj h2')
      rw [List.map_cons, List.map_cons, h3, h4, ih es' (i + 1) rest h1 h1']

/-- **C130, graphs.** Two graphs with the same drawing have the same node positions (bit by bit) and the same edges, in the
same order: nothing but labels and attached data is lost in the drawing. -/
theorem C130_graph (five : F32) (g : PlanarGraph F32 T U) (g' : PlanarGraph F32 T' U') (shapes : List Shape)
    (h : drawGraph fmt32 five g = .ok shapes) (h' : drawGraph fmt32 five g' = .ok shapes) :
    g.nodes.map (·.position) = g'.nodes.map (·.position) ∧
    g.edges.map (fun e => (e.src, e.dst)) = g'.edges.map fun e => (e.src, e.dst) := by
  have split : ∀ {T U : Type} (g : PlanarGraph F32 T U), drawGraph fmt32 five g = .ok shapes →
      ∃ es, drawEdges fmt32 g g.edges 0 = .ok es ∧ shapes = drawNodes fmt32 five g.nodes 0 ++ es := by
    intro T U g h
    unfold drawGraph at h
    cases he : drawEdges fmt32 g g.edges 0 with
    | error p => rw [he] at h; cases h
    | ok es => rw [he] at h; exact ⟨es, rfl, (Except.ok.inj h).symm⟩
  obtain ⟨es, h1, h2⟩ := split g h
  obtain ⟨es', h1', h2'⟩ := split g' h'
  have parts : ∀ {T U : Type} (g : PlanarGraph F32 T U) (es : List Shape), drawEdges fmt32 g g.edges 0 = .ok es →
      (drawNodes fmt32 five g.nodes 0 ++ es).filter (fun s => s.element.tag == "circle") = drawNodes fmt32 five g.nodes 0 ∧
      (drawNodes fmt32 five g.nodes 0 ++ es).filter (fun s => s.element.tag == "line") = es := by
    intro T U g es h
    have hc := drawNodes_circles fmt32 five g.nodes 0
    have hl := drawEdges_lines fmt32 g g.edges 0 es h
    constructor
    · rw [List.filter_append, List.filter_eq_self.2 (fun s hs => by rw [hc s hs]; rfl),
        List.filter_eq_nil_iff.2 (fun s hs => by rw [hl s hs]; decide), List.append_nil]
    · rw [List.filter_append, List.filter_eq_nil_iff.2 (fun s hs => by rw [hc s hs]; decide),
        List.filter_eq_self.2 (fun s hs => by rw [hl s hs]; rfl), List.nil_append]
  obtain ⟨a1, a2⟩ := parts g es h1
  obtain ⟨b1, b2⟩ := parts g' es' h1'
  rw [← h2] at a1 a2
  rw [← h2'] at b1 b2
  refine ⟨drawNodes_positions _ _ 0 (a1.symm.trans b1), ?_⟩
  obtain rfl : es = es' := a2.symm.trans b2
  exact drawEdges_indices g g' _ _ 0 es h1 h1'

/-- **C130, example program.** The text of the attributes of the graph example: whole coordinates are printed without a
fraction. -/
theorem C130_demo (p : Profile) : drawDemo p fmt32 (F32.lit 5) lit2 =
    .ok ("Graph has 1 edges and 2 nodes",
      [⟨⟨"circle", [("cx", "150"), ("cy", "50"), ("r", "5"), ("fill", "green"), ("stroke", "black")]⟩, some "Node 0"⟩,
       ⟨⟨"circle", [("cx", "150"), ("cy", "100"), ("r", "5"), ("fill", "green"), ("stroke", "black")]⟩, some "Node 1"⟩,
       ⟨⟨"line", [("x1", "150"), ("y1", "50"), ("x2", "150"), ("y2", "100"), ("stroke", "black")]⟩,
        some "Edge 0 between vertices <0, 1>"⟩]) := by
  rw [C95_demo]
  have h5 : fmt32 (F32.lit 5) = "5" := F32.C129_whole true 5 (by norm_num)
  have h50 : fmt32 (F32.lit 50) = "50" := F32.C129_whole true 50 (by norm_num)
  have h100 : fmt32 (F32.lit 100) = "100" := F32.C129_whole true 100 (by norm_num)
  have h150 : fmt32 (F32.lit 150) = "150" := F32.C129_whole true 150 (by norm_num)
  simp only [svgCircle, svgLine, lit2, h5, h50, h100, h150]

/-- two graphs that differ in the last bit of one coordinate are drawn differently -/
example : drawGraph fmt32 (F32.lit 5) (⟨[⟨⟨F32.lit 1 3, F32.lit 2⟩, (), ""⟩], []⟩ : PlanarGraph F32 Unit Unit) ≠
    drawGraph fmt32 (F32.lit 5) (⟨[⟨⟨F32.lit 333333313 1000000000, F32.lit 2⟩, (), ""⟩], []⟩ : PlanarGraph F32 Unit Unit) := by
  intro h
  have h1 : ∀ x : F32, drawGraph fmt32 (F32.lit 5) (⟨[⟨⟨x, F32.lit 2⟩, (), ""⟩], []⟩ : PlanarGraph F32 Unit Unit) =
    .ok [⟨svgCircle fmt32 ⟨x, F32.lit 2⟩ (F32.lit 5) "green" "black", some "Node 0"⟩] := fun x => rfl
  have := (C130_graph (F32.lit 5) _ _ _ (h1 _) (h ▸ h1 _)).1
  simp only [List.map_cons, List.map_nil, List.cons.injEq, Vec2.mk.injEq, and_true] at this
  revert this
  decide +kernel

/-- A version of Rust before 1.53 drops the sign of zero: two graphs with the same drawing. -/
theorem C130_sharp_old_rust : drawGraph (F32.display false) (F32.lit 5)
      (⟨[⟨⟨F32.ofBits 0, F32.lit 2⟩, (), ""⟩], []⟩ : PlanarGraph F32 Unit Unit) =
    drawGraph (F32.display false) (F32.lit 5)
      (⟨[⟨⟨F32.ofBits 0x80000000, F32.lit 2⟩, (), ""⟩], []⟩ : PlanarGraph F32 Unit Unit) := by
  have h : F32.display false (F32.ofBits 0) = F32.display false (F32.ofBits 0x80000000) := by decide +kernel
  simp only [drawGraph, drawEdges, drawNodes, svgCircle, h]

end Kami.Draw
