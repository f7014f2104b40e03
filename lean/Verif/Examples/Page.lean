import Verif.Examples.PageModel
/-!
# C131, C132: what the graph example puts on the page, and what clicks do

`run` on any page, with any graph; the shapes are those of `Draw.drawGraph` (C95).
-/

set_option autoImplicit false

namespace Kami.Web

open Kami Kami.Svg Kami.Graph Kami.Draw

variable {T U : Type}

/-! ### Steps -/

theorem bind_ok {α β : Type} {x : Js α} {f : α → Js β} {p q : Page} {a : α} (h : x p = (.ok a, q)) :
    (x >>= f) p = f a q := by
  show (match x p with | (.ok a, q) => f a q | (.thrown, q) => (.thrown, q) | (.panic e, q) => (.panic e, q)) = _
  rw [h]

theorem bind_panic {α β : Type} {x : Js α} {f : α → Js β} {p q : Page} {e : Panic} (h : x p = (.panic e, q)) :
    (x >>= f) p = (.panic e, q) := by
  show (match x p with | (.ok a, q) => f a q | (.thrown, q) => (.thrown, q) | (.panic e, q) => (.panic e, q)) = _
  rw [h]

theorem unwrap_ok {α : Type} {x : Js α} {p q : Page} {a : α} (h : x p = (.ok a, q)) : unwrap x p = (.ok a, q) := by
  unfold unwrap; rw [h]

theorem ignore_ok {α : Type} {x : Js α} {p q : Page} {a : α} (h : x p = (.ok a, q)) : ignore x p = (.ok (), q) := by
  unfold ignore; rw [h]

theorem modify_last {α : Type} (l : List α) (e : α) (f : α → α) : (l ++ [e]).modify l.length f = l ++ [f e] := by
  induction l with
  | nil => rfl
  | cons a l ih => simp [ih]

theorem modify_left {α : Type} (l r : List α) (i : Nat) (hi : i < l.length) (f : α → α) :
    (l ++ r).modify i f = l.modify i f ++ r := by
  induction l generalizing i with
  | nil => simp at hi
  | cons a l ih =>
    cases i with
    | zero => simp
    | succ i => simp [ih i (by simpa using hi)]

theorem modify_right {α : Type} (l r : List α) (i : Nat) (f : α → α) :
    (l ++ r).modify (l.length + i) f = l ++ r.modify i f := by
  induction l with
  | nil => simp
  | cons a l ih => simp [Nat.succ_add, ih]

/-- no element lists a child that does not exist -/
def Bounded (els : List El) : Prop := ∀ e ∈ els, ∀ c ∈ e.children, c < els.length

theorem filter_fresh {els : List El} {c : Nat} (h : ∀ e ∈ els, c ∉ e.children) :
    (els.map fun e => { e with children := e.children.filter (· ≠ c) }) = els := by
  conv_rhs => rw [← List.map_id els]
  refine List.map_congr_left fun e he => ?_
  have : e.children.filter (· ≠ c) = e.children := by
    rw [List.filter_eq_self]
    intro x hx
    have : x ≠ c := fun hc => h e he (hc ▸ hx)
    simpa using this
  rw [this]
  rfl

/-- appending an element that is nowhere in a list of children and does not contain the new parent -/
theorem appendChild_ok {p : Page} {i c : Nat} (hs : i ∉ subtree p.els p.els.length c) (hc : ∀ e ∈ p.els, c ∉ e.children) :
    appendChild i c p = (.ok (), p.change i fun e => { e with children := e.children ++ [c] }) := by
  unfold appendChild
  rw [if_neg hs, filter_fresh hc]
  rfl

theorem setAttr_new (name value : String) (l : List (String × String)) (h : name ∉ l.map Prod.fst) :
    setAttr name value l = l ++ [(name, value)] := by
  induction l with
  | nil => rfl
  | cons a l ih =>
    obtain ⟨n, v⟩ := a
    have h1 : n ≠ name := fun hc => h (by simp [hc])
    have h2 : name ∉ l.map Prod.fst := fun hc => h (by simp only [List.map_cons, List.mem_cons]; exact Or.inr hc)
    rw [setAttr, if_neg h1, ih h2]
    rfl

theorem setAttributes_last (l : List (String × String)) (els : List El) (e : El) (r : Nat) (b : Option Nat) (c : List String)
    (h : ((e.attributes ++ l).map Prod.fst).Nodup) : setAttributes els.length l ⟨els ++ [e], r, b, c⟩ =
      (.ok (), ⟨els ++ [{ e with attributes := e.attributes ++ l }], r, b, c⟩) := by
  induction l generalizing e with
  | nil => simp only [setAttributes, List.append_nil]; rfl
  | cons a l ih =>
    obtain ⟨n, v⟩ := a
    have hn : n ∉ e.attributes.map Prod.fst := by
      rw [List.map_append, List.map_cons, List.nodup_append] at h
      intro hc
      exact h.2.2 n hc n (by simp) rfl
    have h1 : setAttribute els.length n v ⟨els ++ [e], r, b, c⟩ =
        (.ok (), ⟨els ++ [{ e with attributes := e.attributes ++ [(n, v)] }], r, b, c⟩) := by
      simp only [setAttribute, Page.change, modify_last, setAttr_new n v e.attributes hn]
    rw [setAttributes, bind_ok h1, ih _ (by simpa [List.append_assoc] using h)]
    simp [List.append_assoc]

theorem svgElement_eq (e : Element) (h : (e.attributes.map Prod.fst).Nodup) (els : List El) (r : Nat) (b : Option Nat)
    (c : List String) : svgElement e ⟨els, r, b, c⟩ =
      (.ok els.length, ⟨els ++ [⟨true, e.tag, e.attributes, "", [], none⟩], r, b, c⟩) := by
  have h1 : createElement true e.tag ⟨els, r, b, c⟩ = (.ok els.length, ⟨els ++ [⟨true, e.tag, [], "", [], none⟩], r, b, c⟩) := rfl
  rw [svgElement, bind_ok h1, bind_ok (setAttributes_last e.attributes els _ r b c (by simpa using h))]
  rfl

theorem svgTitle_eq (text : String) (els : List El) (r : Nat) (b : Option Nat) (c : List String) :
    svgTitle text ⟨els, r, b, c⟩ = (.ok els.length, ⟨els ++ [⟨true, "title", [], text, [], none⟩], r, b, c⟩) := by
  have h1 : createElement true "title" ⟨els, r, b, c⟩ = (.ok els.length, ⟨els ++ [⟨true, "title", [], "", [], none⟩], r, b, c⟩) := rfl
  have h2 : setInnerHtml els.length text ⟨els ++ [⟨true, "title", [], "", [], none⟩], r, b, c⟩ =
      (.ok (), ⟨els ++ [⟨true, "title", [], text, [], none⟩], r, b, c⟩) := by
    simp only [setInnerHtml, Page.change, modify_last]
  rw [svgTitle, bind_ok h1, bind_ok h2]
  rfl

/-- the elements of a shape drawn at position `l` of the arena -/
def shapeEls (l : Nat) (s : Shape) (h : Option Nat) : List El :=
  [⟨true, s.element.tag, s.element.attributes, "", [l + 1], h⟩, ⟨true, "title", [], s.title.getD "", [], none⟩]

/-- a list of children with more at the end -/
def addChildren (l : List Nat) (e : El) : El := { e with children := e.children ++ l }

theorem Bounded.append {els : List El} (h : Bounded els) (i : Nat) (l : List Nat) (r : List El)
    (hl : ∀ c ∈ l, c < els.length + r.length) (hr : ∀ e ∈ r, ∀ c ∈ e.children, c < els.length + r.length) :
    Bounded (els.modify i (addChildren l) ++ r) := by
  intro e he c hc
  rw [List.length_append, List.length_modify]
  rcases List.mem_append.1 he with he | he
  · obtain ⟨j, hj, rfl⟩ := List.mem_iff_getElem.1 he
    rw [List.getElem_modify] at hc
    rw [List.length_modify] at hj
    by_cases hij : i = j
    · rw [if_pos hij] at hc
      rcases List.mem_append.1 hc with hc | hc
      · have := h _ (List.getElem_mem hj) c hc; omega
      · exact hl c hc
    · rw [if_neg hij] at hc
      have := h _ (List.getElem_mem hj) c hc; omega
  · exact hr e he c hc

theorem bounded_fresh {els : List El} (h : Bounded els) {c : Nat} (hc : els.length ≤ c) : ∀ e ∈ els, c ∉ e.children := by
  intro e he hm
  have := h e he c hm
  omega

theorem subtree_leaf (els : List El) (d i : Nat) (h : (els[i]?.map (·.children)).getD [] = []) : subtree els d i = [i] := by
  cases d with
  | zero => rfl
  | succ d => rw [subtree, h]; rfl

/-- a titled shape is put at the end of the drawing -/
theorem title_and_append {els : List El} (hb : Bounded els) {svg : Nat} (hs : svg < els.length) (e : El) (he : e.children = [])
    (text : String) (r : Nat) (b : Option Nat) (c : List String) {β : Type} (k : Js β) :
    (do
      let title ← unwrap (svgTitle text)
      ignore (appendChild els.length title)
      appendChild svg els.length
      k) ⟨els ++ [e], r, b, c⟩ =
    k ⟨els.modify svg (addChildren [els.length]) ++
        [{ e with children := [els.length + 1] }, ⟨true, "title", [], text, [], none⟩], r, b, c⟩ := by
  have h1 := unwrap_ok (svgTitle_eq text (els ++ [e]) r b c)
  rw [bind_ok h1]
  set t : El := ⟨true, "title", [], text, [], none⟩ with ht
  have hL : (els ++ [e]).length = els.length + 1 := by simp
  rw [hL]
  have e1 : els ++ [e] ++ [t] = els ++ [e, t] := by simp
  rw [e1]
  have g0 : (els ++ [e, t])[els.length]? = some e := by simp
  have g1 : (els ++ [e, t])[els.length + 1]? = some t := by simp
  have h2 : appendChild els.length (els.length + 1) ⟨els ++ [e, t], r, b, c⟩ =
      (.ok (), ⟨els ++ [{ e with children := [els.length + 1] }, t], r, b, c⟩) := by
    rw [appendChild_ok]
    · simp only [Page.change]
      have := modify_right els [e, t] 0 (fun e => { e with children := e.children ++ [els.length + 1] })
      rw [Nat.add_zero] at this
      rw [this]
      simp [he]
    · rw [subtree_leaf]
      · simp
      · show ((els ++ [e, t])[els.length + 1]?.map (·.children)).getD [] = []
        rw [g1]; rfl
    · intro x hx
      rcases List.mem_append.1 hx with hx | hx
      · exact bounded_fresh hb (by omega) x hx
      · rcases List.mem_cons.1 hx with rfl | hx
        · rw [he]; simp
        · rw [List.mem_singleton.1 hx]; simp [ht]
  rw [bind_ok (ignore_ok h2)]
  set e' : El := { e with children := [els.length + 1] } with he'
  have g0' : (els ++ [e', t])[els.length]? = some e' := by simp
  have g1' : (els ++ [e', t])[els.length + 1]? = some t := by simp
  have h3 : appendChild svg els.length ⟨els ++ [e', t], r, b, c⟩ =
      (.ok (), ⟨els.modify svg (addChildren [els.length]) ++ [e', t], r, b, c⟩) := by
    rw [appendChild_ok]
    · simp only [Page.change]
      rw [modify_left _ _ _ hs]
      rfl
    · show svg ∉ subtree (els ++ [e', t]) (els ++ [e', t]).length els.length
      have hl : (els ++ [e', t]).length = (els.length + 1) + 1 := by simp
      rw [hl, subtree, g0']
      have : subtree (els ++ [e', t]) (els.length + 1) (els.length + 1) = [els.length + 1] := by
        apply subtree_leaf
        rw [g1']; rfl
      have hch : e'.children = [els.length + 1] := rfl
      rw [Option.map_some, Option.getD_some, hch, List.flatMap_cons, List.flatMap_nil, this]
      simp only [List.cons_append, List.nil_append, List.mem_cons, List.not_mem_nil, or_false]
      omega
    · intro x hx
      rcases List.mem_append.1 hx with hx | hx
      · exact bounded_fresh hb le_rfl x hx
      · rcases List.mem_cons.1 hx with rfl | hx
        · rw [he']; simp
        · rw [List.mem_singleton.1 hx]; simp [ht]
  rw [bind_ok h3]

/-! ### The whole drawing -/

/-- shapes with their handlers, put one after the other from position `l` of the arena on -/
def place (l : Nat) : List (Shape × Option Nat) → List El
  | [] => []
  | (s, h) :: rest => shapeEls l s h ++ place (l + 2) rest

/-- the positions of the shapes themselves -/
def places (l n : Nat) : List Nat := (List.range n).map fun k => l + 2 * k

theorem places_succ (l n : Nat) : places l (n + 1) = l :: places (l + 2) n := by
  unfold places
  rw [List.range_succ_eq_map, List.map_cons, List.map_map]
  congr 1
  refine List.map_congr_left fun k _ => ?_
  simp only [Function.comp_apply]
  omega

theorem place_length (l : Nat) (ss : List (Shape × Option Nat)) : (place l ss).length = 2 * ss.length := by
  induction ss generalizing l with
  | nil => rfl
  | cons a ss ih => obtain ⟨s, h⟩ := a; simp [place, shapeEls, ih]; omega

/-- the arena after the shapes have been drawn into the element `svg` -/
def withShapes (els : List El) (svg : Nat) (ss : List (Shape × Option Nat)) : List El :=
  els.modify svg (addChildren (places els.length ss.length)) ++ place els.length ss

theorem withShapes_nil (els : List El) (svg : Nat) : withShapes els svg [] = els := by
  have : addChildren (places els.length ([] : List (Shape × Option Nat)).length) = id := by
    funext e; simp [addChildren, places]
  rw [withShapes, this, place, List.append_nil, List.modify_id]

theorem withShapes_cons (els : List El) (svg : Nat) (hs : svg < els.length) (s : Shape) (h : Option Nat)
    (ss : List (Shape × Option Nat)) :
    withShapes els svg ((s, h) :: ss) = withShapes (els.modify svg (addChildren [els.length]) ++ shapeEls els.length s h) svg ss := by
  have hl : (els.modify svg (addChildren [els.length]) ++ shapeEls els.length s h).length = els.length + 2 := by
    simp [shapeEls]
  unfold withShapes
  rw [hl, modify_left _ _ _ (by simpa using hs), List.modify_modify_eq, List.append_assoc, List.length_cons, places_succ]
  congr 2
  funext e
  simp [addChildren]

theorem withShapes_append (els : List El) (svg : Nat) (hs : svg < els.length) (ss ts : List (Shape × Option Nat)) :
    withShapes (withShapes els svg ss) svg ts = withShapes els svg (ss ++ ts) := by
  induction ss generalizing els with
  | nil => rw [withShapes_nil]; rfl
  | cons a ss ih =>
    obtain ⟨s, h⟩ := a
    rw [List.cons_append, withShapes_cons els svg hs, withShapes_cons els svg hs, ih]
    simp [shapeEls]; omega

theorem place_bounded (l : Nat) (ss : List (Shape × Option Nat)) :
    ∀ e ∈ place l ss, ∀ c ∈ e.children, l < c ∧ c < l + 2 * ss.length := by
  induction ss generalizing l with
  | nil => intro e he; cases he
  | cons a ss ih =>
    obtain ⟨s, h⟩ := a
    intro e he c hc
    rw [List.length_cons]
    rcases List.mem_append.1 he with he | he
    · rcases List.mem_cons.1 he with rfl | he
      · have := List.mem_singleton.1 hc; omega
      · rw [List.mem_singleton.1 he] at hc; cases hc
    · have := ih (l + 2) e he c hc; omega

theorem withShapes_bounded {els : List El} (h : Bounded els) (svg : Nat) (ss : List (Shape × Option Nat)) :
    Bounded (withShapes els svg ss) := by
  refine h.append svg _ _ ?_ ?_
  · intro c hc
    obtain ⟨k, hk, rfl⟩ := List.mem_map.1 hc
    rw [place_length]
    have := List.mem_range.1 hk
    omega
  · intro e he c hc
    rw [place_length]
    exact (place_bounded _ _ e he c hc).2

/-- the circles with the handlers `i`, `i + 1`, … -/
def numbered : List Shape → (i : Nat) → List (Shape × Option Nat)
  | [], _ => []
  | s :: rest, i => (s, some i) :: numbered rest (i + 1)

/-- the lines, without handlers -/
def unnumbered (ss : List Shape) : List (Shape × Option Nat) := ss.map fun s => (s, none)

theorem circle_nodup {F : Type} (fmt : F → String) (c : Vec2 F) (r : F) (f s : String) :
    ((svgCircle fmt c r f s).attributes.map Prod.fst).Nodup := by
  show (["cx", "cy", "r", "fill", "stroke"] : List String).Nodup
  decide

theorem line_nodup {F : Type} (fmt : F → String) (a b : Vec2 F) (s : String) :
    ((svgLine fmt a b s).attributes.map Prod.fst).Nodup := by
  show (["x1", "y1", "x2", "y2", "stroke"] : List String).Nodup
  decide

theorem putNodes_eq (five : F32) (svg : Nat) (ns : List (Node F32 T)) : ∀ (i : Nat) (els : List El), Bounded els → svg < els.length →
    ∀ (r : Nat) (b : Option Nat) (c : List String), putNodes five svg ns i ⟨els, r, b, c⟩ =
      (.ok (), ⟨withShapes els svg (numbered (drawNodes fmt32 five ns i) i), r, b, c⟩) := by
  induction ns with
  | nil => intro i els hb hs r b c; simp only [putNodes, drawNodes, numbered, withShapes_nil]; rfl
  | cons n ns ih =>
    intro i els hb hs r b c
    rw [putNodes]
    rw [bind_ok (unwrap_ok (svgElement_eq _ (circle_nodup _ _ _ _ _) els r b c))]
    have hd : dynIntoSvg els.length ⟨els ++ [⟨true, (svgCircle fmt32 n.position five "green" "black").tag,
        (svgCircle fmt32 n.position five "green" "black").attributes, "", [], none⟩], r, b, c⟩ =
        (.ok els.length, ⟨els ++ [⟨true, (svgCircle fmt32 n.position five "green" "black").tag,
        (svgCircle fmt32 n.position five "green" "black").attributes, "", [], none⟩], r, b, c⟩) := by
      unfold dynIntoSvg
      simp
    rw [bind_ok (unwrap_ok hd)]
    have ho : setOnclick els.length i ⟨els ++ [⟨true, (svgCircle fmt32 n.position five "green" "black").tag,
        (svgCircle fmt32 n.position five "green" "black").attributes, "", [], none⟩], r, b, c⟩ =
        (.ok (), ⟨els ++ [⟨true, (svgCircle fmt32 n.position five "green" "black").tag,
        (svgCircle fmt32 n.position five "green" "black").attributes, "", [], some i⟩], r, b, c⟩) := by
      simp only [setOnclick, Page.change, modify_last]
    rw [bind_ok ho, title_and_append hb hs _ rfl, drawNodes, numbered, withShapes_cons els svg hs]
    exact ih (i + 1) _ (hb.append _ _ _ (by simp) (by simp)) (by simp; omega) r b c

theorem putEdges_eq (g : PlanarGraph F32 T U) (svg : Nat) (es : List (Edge U)) : ∀ (i : Nat) (els : List El), Bounded els →
    svg < els.length → ∀ (r : Nat) (b : Option Nat) (c : List String) (ss : List Shape), drawEdges fmt32 g es i = .ok ss →
      putEdges g svg es i ⟨els, r, b, c⟩ = (.ok (), ⟨withShapes els svg (unnumbered ss), r, b, c⟩) := by
  induction es with
  | nil =>
    intro i els hb hs r b c ss h
    obtain rfl := Except.ok.inj h
    rw [putEdges, show unnumbered [] = [] from rfl, withShapes_nil]; rfl
  | cons e es ih =>
    intro i els hb hs r b c ss h
    unfold drawEdges at h
    cases h1 : g.getVertex e.src with
    | none => rw [h1] at h; cases h
    | some u =>
      cases h2 : g.getVertex e.dst with
      | none => rw [h1, h2] at h; cases h
      | some v =>
        cases h3 : drawEdges fmt32 g es (i + 1) with
        | error p => rw [h1, h2, h3] at h; cases h
        | ok rest =>
          rw [h1, h2, h3] at h
          obtain rfl := Except.ok.inj h
          have q1 : liftRes (PlanarGraph.unwrap (g.getVertex e.src)) ⟨els, r, b, c⟩ = (.ok u, ⟨els, r, b, c⟩) := by rw [h1]; rfl
          have q2 : liftRes (PlanarGraph.unwrap (g.getVertex e.dst)) ⟨els, r, b, c⟩ = (.ok v, ⟨els, r, b, c⟩) := by rw [h2]; rfl
          rw [putEdges, bind_ok q1, bind_ok q2, bind_ok (unwrap_ok (svgElement_eq _ (line_nodup _ _ _ _) els r b c)),
            title_and_append hb hs _ rfl]
          show _ = (Out.ok (), (⟨withShapes els svg ((_, none) :: unnumbered rest), r, b, c⟩ : Page))
          rw [withShapes_cons els svg hs]
          exact ih (i + 1) _ (hb.append _ _ _ (by simp) (by simp)) (by simp; omega) r b c rest h3

/-- **C131, draw_graph.** On any page, for any graph whose edges have valid indices, `draw_graph` appends exactly the shapes of
`Draw.drawGraph`, each with its title as its only child, at the end of the `svg` element; the circle of node `i` gets the
handler that has captured `i`, lines get none; nothing else on the page changes. -/
theorem C131_draw_graph (five : F32) (g : PlanarGraph F32 T U) (svg : Nat) (p : Page) (hb : Bounded p.els) (hs : svg < p.els.length)
    (es : List Shape) (h : drawEdges fmt32 g g.edges 0 = .ok es) :
    putGraph five g svg p =
      (.ok (), { p with els := withShapes p.els svg (numbered (drawNodes fmt32 five g.nodes 0) 0 ++ unnumbered es) }) := by
  rw [putGraph]
  obtain ⟨els, r, b, c⟩ := p
  rw [bind_ok (putNodes_eq five svg g.nodes 0 els hb hs r b c)]
  rw [putEdges_eq g svg g.edges 0 _ (withShapes_bounded hb svg _) (by
    simp only [withShapes, List.length_append, List.length_modify]
    exact Nat.lt_of_lt_of_le hs (Nat.le_add_right _ _)) r b c es h, withShapes_append els svg hs]


/-! ### `run` -/

/-- a new element without children becomes the last child of `b` -/
theorem append_last {els : List El} (hb : Bounded els) {b : Nat} (hs : b < els.length) (e : El) (he : e.children = [])
    (r : Nat) (bo : Option Nat) (c : List String) : appendChild b els.length ⟨els ++ [e], r, bo, c⟩ =
      (.ok (), ⟨els.modify b (addChildren [els.length]) ++ [e], r, bo, c⟩) := by
  rw [appendChild_ok]
  · simp only [Page.change]
    rw [modify_left _ _ _ hs]
    rfl
  · rw [subtree_leaf]
    · simp only [List.mem_singleton]; omega
    · show ((els ++ [e])[els.length]?.map (·.children)).getD [] = []
      simp [he]
  · intro x hx
    rcases List.mem_append.1 hx with hx | hx
    · exact bounded_fresh hb le_rfl x hx
    · rw [List.mem_singleton.1 hx, he]; simp

theorem Bounded.last {els : List El} (hb : Bounded els) (b : Nat) (e : El) (he : e.children = []) :
    Bounded (els.modify b (addChildren [els.length]) ++ [e]) :=
  hb.append _ _ _ (by simp) (by simp [he])

/-- the `svg` element -/
def svgEl (withId : Bool) (children : List Nat) : El :=
  ⟨true, "svg", [("style", "border: solid;"), ("width", "500"), ("height", "500"), ("viewBox", "0 0 500 500")] ++
    (if withId then [("id", "main")] else []), "", children, none⟩

/-- the heading -/
def headingEl : El := ⟨false, "h1", [], "かみ", [], none⟩

/-- a paragraph -/
def textEl (attributes : List (String × String)) (text : String) : El := ⟨false, "p", attributes, text, [], none⟩

theorem svgMain_eq (els : List El) (r : Nat) (b : Option Nat) (c : List String) : svgMain (F32.lit 500) (F32.lit 500) ⟨els, r, b, c⟩ =
    (.ok els.length, ⟨els ++ [svgEl false []], r, b, c⟩) := by
  have hw : fmt32 (F32.lit 500) = "500" := by decide +kernel
  have hv : ("0 0 " ++ toString (toI32 (F32.lit 500)) ++ " " ++ toString (toI32 (F32.lit 500))) = "0 0 500 500" := by decide +kernel
  have h1 : createElement true "svg" ⟨els, r, b, c⟩ = (.ok els.length, ⟨els ++ [⟨true, "svg", [], "", [], none⟩], r, b, c⟩) := rfl
  have h2 : dynIntoSvg els.length ⟨els ++ [⟨true, "svg", [], "", [], none⟩], r, b, c⟩ =
      (.ok els.length, ⟨els ++ [⟨true, "svg", [], "", [], none⟩], r, b, c⟩) := by
    unfold dynIntoSvg
    simp
  have hset : ∀ (e : El) (n v : String), setAttribute els.length n v ⟨els ++ [e], r, b, c⟩ =
      (.ok (), ⟨els ++ [{ e with attributes := setAttr n v e.attributes }], r, b, c⟩) := by
    intro e n v
    simp only [setAttribute, Page.change, modify_last]
  rw [svgMain, bind_ok h1, bind_ok h2, bind_ok (hset _ _ _), bind_ok (hset _ _ _), bind_ok (hset _ _ _), bind_ok (hset _ _ _), hw, hv]
  rfl

/-- the elements after the first part of `run` -/
def startEls (withId : Bool) (els : List El) (b : Nat) : List El :=
  els.modify b (addChildren [els.length, els.length + 1]) ++ [headingEl, svgEl withId []]

theorem modify_add_add (els : List El) (b : Nat) (hb : b < els.length) (l m : List Nat) (r : List El) :
    (els.modify b (addChildren l) ++ r).modify b (addChildren m) = els.modify b (addChildren (l ++ m)) ++ r := by
  rw [modify_left _ _ _ (by simpa using hb), List.modify_modify_eq]
  congr 2
  funext e
  simp [addChildren]

theorem start_eq (withId : Bool) (els : List El) (r b : Nat) (c : List String) (hb : Bounded els) (hs : b < els.length) :
    start withId ⟨els, r, some b, c⟩ = (.ok (b, els.length + 1), ⟨startEls withId els b, r, some b, c⟩) := by
  have h0 : getBody ⟨els, r, some b, c⟩ = (.ok (some b), ⟨els, r, some b, c⟩) := rfl
  have h0' : unwrapOption (some b) ⟨els, r, some b, c⟩ = (.ok b, ⟨els, r, some b, c⟩) := rfl
  have h1 : createElement false "h1" ⟨els, r, some b, c⟩ = (.ok els.length, ⟨els ++ [⟨false, "h1", [], "", [], none⟩], r, some b, c⟩) := rfl
  have h2 : setInnerHtml els.length "かみ" ⟨els ++ [⟨false, "h1", [], "", [], none⟩], r, some b, c⟩ =
      (.ok (), ⟨els ++ [headingEl], r, some b, c⟩) := by
    simp only [setInnerHtml, Page.change, modify_last]; rfl
  rw [start, bind_ok h0, bind_ok h0', bind_ok h1, bind_ok h2, bind_ok (append_last hb hs headingEl rfl r (some b) c)]
  have hl : (els.modify b (addChildren [els.length]) ++ [headingEl]).length = els.length + 1 := by simp
  have hB := hb.last b headingEl rfl
  have hs' : b < (els.modify b (addChildren [els.length]) ++ [headingEl]).length := by omega
  have hm := modify_add_add els b hs [els.length] [els.length + 1] [headingEl]
  generalize els.modify b (addChildren [els.length]) ++ [headingEl] = els1 at hl hB hs' hm ⊢
  rw [bind_ok (unwrap_ok (svgMain_eq els1 r (some b) c))]
  cases withId with
  | false =>
    have := append_last hB hs' (svgEl false []) rfl r (some b) c
    rw [hl, hm] at this
    simp only [Bool.false_eq_true, if_false]
    rw [hl, bind_ok this]
    simp only [startEls, List.append_assoc]
    rfl
  | true =>
    have := append_last hB hs' (svgEl true []) rfl r (some b) c
    have ha : setAttribute els1.length "id" "main" ⟨els1 ++ [svgEl false []], r, some b, c⟩ = (.ok (), ⟨els1 ++ [svgEl true []], r, some b, c⟩) := by
      simp only [setAttribute, Page.change, modify_last]
      rfl
    simp only [if_true]
    rw [bind_ok ha]
    rw [hl, hm] at this
    rw [hl, bind_ok this]
    simp only [startEls, List.append_assoc]
    rfl

theorem startEls_bounded (withId : Bool) {els : List El} (hb : Bounded els) (b : Nat) : Bounded (startEls withId els b) :=
  hb.append _ _ _ (by simp) (by simp [headingEl, svgEl])

/-- the elements of the page after `run`: in `b`, the heading, the `svg` element, the paragraph `stats` and the paragraph
`clicked` with the text `text`; in the `svg` element, the shapes -/
def pageEls (els : List El) (b : Nat) (stats text : String) (ss : List (Shape × Option Nat)) : List El :=
  (els.modify b (addChildren [els.length, els.length + 1, els.length + 2, els.length + 3]) ++
    [headingEl, svgEl true (places (els.length + 4) ss.length), textEl [] stats, textEl [("id", "clicked")] text]) ++
  place (els.length + 4) ss

/-- the text of the first paragraph -/
def statsText (g : PlanarGraph F32 T U) : String :=
  "Graph has " ++ toString g.edgeCount ++ " edges and " ++ toString g.nodeCount ++ " nodes"

/-- what `draw_graph` puts into the `svg` element -/
def graphShapes (g : PlanarGraph F32 T U) (es : List Shape) : List (Shape × Option Nat) :=
  numbered (drawNodes fmt32 (F32.lit 5) g.nodes 0) 0 ++ unnumbered es

/-- the page before `draw_graph` -/
theorem draw_texts (els : List El) (r b : Nat) (c : List String) (hb : Bounded els) (hs : b < els.length) (stats : String) (k : Js Unit) :
    (do
      let s ← createElement false "p"
      setInnerHtml s stats
      appendChild b s
      let clicked ← createElement false "p"
      setInnerHtml clicked "No node selected"
      setAttribute clicked "id" "clicked"
      appendChild b clicked
      k) ⟨startEls true els b, r, some b, c⟩ =
    k ⟨els.modify b (addChildren [els.length, els.length + 1, els.length + 2, els.length + 3]) ++
      [headingEl, svgEl true [], textEl [] stats, textEl [("id", "clicked")] "No node selected"], r, some b, c⟩ := by
  have hB := startEls_bounded true hb b
  have hl : (startEls true els b).length = els.length + 2 := by simp [startEls]
  have hs1 : b < (startEls true els b).length := by omega
  have hm := modify_add_add els b hs [els.length, els.length + 1] [els.length + 2] [headingEl, svgEl true []]
  change (startEls true els b).modify b _ = _ at hm
  generalize startEls true els b = e1 at hB hl hs1 hm ⊢
  have h1 : createElement false "p" ⟨e1, r, some b, c⟩ = (.ok e1.length, ⟨e1 ++ [⟨false, "p", [], "", [], none⟩], r, some b, c⟩) := rfl
  have h2 : setInnerHtml e1.length stats ⟨e1 ++ [⟨false, "p", [], "", [], none⟩], r, some b, c⟩ =
      (.ok (), ⟨e1 ++ [textEl [] stats], r, some b, c⟩) := by
    simp only [setInnerHtml, Page.change, modify_last]; rfl
  rw [bind_ok h1, bind_ok h2, bind_ok (append_last hB hs1 (textEl [] stats) rfl r (some b) c)]
  have hB2 := hB.last b (textEl [] stats) rfl
  have hl2 : (e1.modify b (addChildren [e1.length]) ++ [textEl [] stats]).length = els.length + 3 := by simp [hl]
  have hs2 : b < (e1.modify b (addChildren [e1.length]) ++ [textEl [] stats]).length := by omega
  have hm2 := modify_add_add els b hs [els.length, els.length + 1, els.length + 2] [els.length + 3]
    [headingEl, svgEl true [], textEl [] stats]
  have heq : e1.modify b (addChildren [e1.length]) ++ [textEl [] stats] =
      els.modify b (addChildren [els.length, els.length + 1, els.length + 2]) ++ [headingEl, svgEl true [], textEl [] stats] := by
    rw [hl, hm]; simp
  rw [← heq] at hm2
  generalize e1.modify b (addChildren [e1.length]) ++ [textEl [] stats] = e2 at hB2 hl2 hs2 hm2 ⊢
  have h3 : createElement false "p" ⟨e2, r, some b, c⟩ = (.ok e2.length, ⟨e2 ++ [⟨false, "p", [], "", [], none⟩], r, some b, c⟩) := rfl
  have h4 : setInnerHtml e2.length "No node selected" ⟨e2 ++ [⟨false, "p", [], "", [], none⟩], r, some b, c⟩ =
      (.ok (), ⟨e2 ++ [textEl [] "No node selected"], r, some b, c⟩) := by
    simp only [setInnerHtml, Page.change, modify_last]; rfl
  have h5 : setAttribute e2.length "id" "clicked" ⟨e2 ++ [textEl [] "No node selected"], r, some b, c⟩ =
      (.ok (), ⟨e2 ++ [textEl [("id", "clicked")] "No node selected"], r, some b, c⟩) := by
    simp only [setAttribute, Page.change, modify_last]; rfl
  rw [bind_ok h3, bind_ok h4, bind_ok h5, bind_ok (append_last hB2 hs2 (textEl [("id", "clicked")] "No node selected") rfl r (some b) c)]
  rw [hl2, hm2]
  simp

/-- **C131, run.** On any page with a body, for any calls that build a graph with valid edges, `run` succeeds; the body gets
four more children at the end, the `svg` element among them has the shapes of the drawing (C95) with their titles and
handlers as its children in order, and the console gets one line.  Nothing else on the page changes. -/
theorem C131_run (pr : Profile) (ops : List (PlanarGraph.Op F32 Unit Unit)) (p : Page) (b : Nat) (hbody : p.body = some b)
    (hb : Bounded p.els) (hs : b < p.els.length) (g : PlanarGraph F32 Unit Unit) (hg : PlanarGraph.run pr PlanarGraph.new ops = .ok g)
    (es : List Shape) (hes : drawEdges fmt32 g g.edges 0 = .ok es) :
    run pr ops p = (.ok (), { p with
      els := pageEls p.els b (statsText g) "No node selected" (graphShapes g es), console := p.console ++ ["Finished drawing"] }) := by
  obtain ⟨els, r, bo, c⟩ := p
  obtain rfl : bo = some b := hbody
  rw [run, bind_ok (start_eq true els r b c hb hs)]
  have hd : draw pr ops b (els.length + 1) ⟨startEls true els b, r, some b, c⟩ =
      (.ok (), ⟨pageEls els b (statsText g) "No node selected" (graphShapes g es), r, some b, c⟩) := by
    have hgr : liftRes (PlanarGraph.run pr PlanarGraph.new ops) ⟨startEls true els b, r, some b, c⟩ = (.ok g, ⟨startEls true els b, r, some b, c⟩) := by
      rw [hg]; rfl
    rw [draw, bind_ok hgr]
    have := draw_texts els r b c hb hs (statsText g) (ignore (putGraph (F32.lit 5) g (els.length + 1)))
    rw [statsText] at this
    rw [this]
    refine ignore_ok (a := ()) ?_
    rw [C131_draw_graph _ g (els.length + 1) _ (hb.append _ _ _ (by simp) (by simp [headingEl, svgEl, textEl])) (by simp) es hes]
    simp only [withShapes, pageEls, graphShapes, statsText]
    congr 3
    · rw [List.length_append, List.length_modify]
      have := modify_right (els.modify b (addChildren [els.length, els.length + 1, els.length + 2, els.length + 3]))
        [headingEl, svgEl true [], textEl [] (statsText g), textEl [("id", "clicked")] "No node selected"] 1
        (addChildren (places (els.length + 4) (graphShapes g es).length))
      rw [List.length_modify] at this
      exact this
    · rw [List.length_append, List.length_modify]; rfl
  show (draw pr ops b (els.length + 1) >>= fun _ => log "Finished drawing") _ = _
  rw [bind_ok hd]
  rfl

theorem putEdges_error (g : PlanarGraph F32 T U) (svg : Nat) (es : List (Edge U)) : ∀ (i : Nat) (els : List El), Bounded els →
    svg < els.length → ∀ (r : Nat) (b : Option Nat) (c : List String) (e : Panic), drawEdges fmt32 g es i = .error e →
      ∃ q, putEdges g svg es i ⟨els, r, b, c⟩ = (.panic e, q) := by
  induction es with
  | nil => intro i els hb hs r b c e h; cases h
  | cons e es ih =>
    intro i els hb hs r b c p h
    unfold drawEdges at h
    rw [putEdges]
    cases h1 : g.getVertex e.src with
    | none =>
      rw [h1] at h
      obtain rfl : Panic.unwrapFailed = p := Except.error.inj h
      exact ⟨_, bind_panic rfl⟩
    | some u =>
      rw [bind_ok (show liftRes (PlanarGraph.unwrap (some u)) ⟨els, r, b, c⟩ = (.ok u, ⟨els, r, b, c⟩) from rfl)]
      cases h2 : g.getVertex e.dst with
      | none =>
        rw [h1, h2] at h
        obtain rfl : Panic.unwrapFailed = p := Except.error.inj h
        exact ⟨_, bind_panic rfl⟩
      | some v =>
        cases h3 : drawEdges fmt32 g es (i + 1) with
        | ok rest => rw [h1, h2, h3] at h; cases h
        | error p' =>
          rw [h1, h2, h3] at h
          obtain rfl : p' = p := Except.error.inj h
          rw [bind_ok (show liftRes (PlanarGraph.unwrap (some v)) ⟨els, r, b, c⟩ = (.ok v, ⟨els, r, b, c⟩) from rfl),
            bind_ok (unwrap_ok (svgElement_eq _ (line_nodup _ _ _ _) els r b c)), title_and_append hb hs _ rfl]
          exact ih (i + 1) _ (hb.append _ _ _ (by simp) (by simp)) (by simp; omega) r b c p' h3

/-- **C131, panics.** `run` never throws.  It panics exactly if there is no body, if building the graph panics (then the page has
the heading and the empty `svg` element), or if the graph has an edge whose node does not exist (in release builds only,
`C95_history`). -/
theorem C131_run_panic (pr : Profile) (ops : List (PlanarGraph.Op F32 Unit Unit)) (p : Page) (hb : Bounded p.els)
    (hs : ∀ b, p.body = some b → b < p.els.length) :
    (run pr ops p).1 ≠ .thrown ∧
    ((∃ e, (run pr ops p).1 = .panic e) ↔ p.body = none ∨ (∃ e, PlanarGraph.run pr PlanarGraph.new ops = .error e) ∨
      ∃ g, PlanarGraph.run pr PlanarGraph.new ops = .ok g ∧ ∃ e ∈ g.edges, ¬ (e.src < g.nodes.length ∧ e.dst < g.nodes.length)) := by
  obtain ⟨els, r, bo, c⟩ := p
  cases bo with
  | none =>
    have h : run pr ops ⟨els, r, none, c⟩ = (.panic .unwrapFailed, ⟨els, r, none, c⟩) := rfl
    rw [h]
    exact ⟨by simp, by simp⟩
  | some b =>
    have hs := hs b rfl
    have hrun : run pr ops ⟨els, r, some b, c⟩ =
        (draw pr ops b (els.length + 1) >>= fun _ => log "Finished drawing") ⟨startEls true els b, r, some b, c⟩ := by
      rw [run, bind_ok (start_eq true els r b c hb hs)]
    cases hg : PlanarGraph.run pr PlanarGraph.new ops with
    | error e =>
      have hd : draw pr ops b (els.length + 1) ⟨startEls true els b, r, some b, c⟩ = (.panic e, ⟨startEls true els b, r, some b, c⟩) := by
        rw [draw, hg]
        exact bind_panic rfl
      rw [hrun, bind_panic hd]
      exact ⟨by simp, by simp⟩
    | ok g =>
      by_cases hv : ∃ e ∈ g.edges, ¬ (e.src < g.nodes.length ∧ e.dst < g.nodes.length)
      · have he := drawEdges_error fmt32 g g.edges 0 hv
        have hd : ∃ q, draw pr ops b (els.length + 1) ⟨startEls true els b, r, some b, c⟩ = (.panic .unwrapFailed, q) := by
          have hgr : liftRes (PlanarGraph.run pr PlanarGraph.new ops) ⟨startEls true els b, r, some b, c⟩ =
              (.ok g, ⟨startEls true els b, r, some b, c⟩) := by
            rw [hg]; rfl
          rw [draw, bind_ok hgr]
          have := draw_texts els r b c hb hs (statsText g) (ignore (putGraph (F32.lit 5) g (els.length + 1)))
          rw [statsText] at this
          rw [this]
          have hB : Bounded (els.modify b (addChildren [els.length, els.length + 1, els.length + 2, els.length + 3]) ++
              [headingEl, svgEl true [], textEl [] (statsText g), textEl [("id", "clicked")] "No node selected"]) :=
            hb.append _ _ _ (by simp) (by simp [headingEl, svgEl, textEl])
          have hN := putNodes_eq (F32.lit 5) (els.length + 1) g.nodes 0 _ hB (by simp) r (some b) c
          obtain ⟨q, hq⟩ := putEdges_error g (els.length + 1) g.edges 0 _ (withShapes_bounded hB (els.length + 1) _) (by
            simp only [withShapes, List.length_append, List.length_modify, List.length_cons, List.length_nil]; omega) r (some b) c _ he
          refine ⟨q, ?_⟩
          rw [statsText] at hN hq
          unfold ignore putGraph
          rw [bind_ok hN, hq]
        obtain ⟨q, hd⟩ := hd
        rw [hrun, bind_panic hd]
        exact ⟨by simp, fun _ => Or.inr (Or.inr ⟨g, rfl, hv⟩), fun _ => ⟨_, rfl⟩⟩
      · have hv' : ∀ e ∈ g.edges, e.src < g.nodes.length ∧ e.dst < g.nodes.length := by
          intro e he
          by_contra hc
          exact hv ⟨e, he, hc⟩
        obtain ⟨es, hes, _⟩ := drawEdges_ok fmt32 g g.edges 0 hv'
        rw [C131_run pr ops ⟨els, r, some b, c⟩ b rfl hb hs g hg es hes]
        refine ⟨by simp, ?_⟩
        constructor
        · rintro ⟨e, he⟩; cases he
        · rintro (h | ⟨e, h⟩ | ⟨g', h, hv⟩)
          · cases h
          · cases h
          · obtain rfl := Except.ok.inj h
            exact absurd hv ‹_›

/-! ### Clicks -/

/-- the children of an element -/
def kids (els : List El) (i : Nat) : List Nat := (els[i]?.map (·.children)).getD []

theorem subtree_mono {els els' : List El} (h : ∀ i, ∀ c ∈ kids els i, c ∈ kids els' i) :
    ∀ (d d' : Nat), d ≤ d' → ∀ i j, j ∈ subtree els d i → j ∈ subtree els' d' i := by
  intro d
  induction d with
  | zero =>
    intro d' _ i j hj
    rw [subtree, List.mem_singleton] at hj
    subst hj
    cases d' <;> simp [subtree]
  | succ d ih =>
    intro d' hd i j hj
    obtain ⟨d', rfl⟩ : ∃ k, d' = k + 1 := ⟨d' - 1, by omega⟩
    rw [subtree, List.mem_cons] at hj ⊢
    rcases hj with hj | hj
    · exact Or.inl hj
    · obtain ⟨c, hc, hj⟩ := List.mem_flatMap.1 hj
      exact Or.inr (List.mem_flatMap.2 ⟨c, h i c hc, ih d' (by omega) c j hj⟩)

theorem subtree_child {els : List El} {j c : Nat} (hc : c ∈ kids els j) :
    ∀ (d i : Nat), j ∈ subtree els d i → c ∈ subtree els (d + 1) i := by
  intro d
  induction d with
  | zero =>
    intro i hj
    rw [subtree, List.mem_singleton] at hj
    subst hj
    rw [subtree, List.mem_cons]
    exact Or.inr (List.mem_flatMap.2 ⟨c, hc, by simp [subtree]⟩)
  | succ d ih =>
    intro i hj
    rw [subtree, List.mem_cons] at hj
    rw [subtree, List.mem_cons]
    rcases hj with rfl | hj
    · refine Or.inr (List.mem_flatMap.2 ⟨c, hc, ?_⟩)
      rw [subtree]; simp
    · obtain ⟨k, hk, hj⟩ := List.mem_flatMap.1 hj
      exact Or.inr (List.mem_flatMap.2 ⟨k, hk, ih k hj⟩)

theorem place_get (l : Nat) (ss : List (Shape × Option Nat)) (k : Nat) :
    (place l ss)[2 * k]? = ss[k]?.map (fun s => ⟨true, s.1.element.tag, s.1.element.attributes, "", [l + 2 * k + 1], s.2⟩) ∧
    (place l ss)[2 * k + 1]? = ss[k]?.map (fun s => ⟨true, "title", [], s.1.title.getD "", [], none⟩) := by
  induction ss generalizing l k with
  | nil => simp [place]
  | cons a ss ih =>
    obtain ⟨s, h⟩ := a
    cases k with
    | zero => simp [place, shapeEls]
    | succ k =>
      have := ih (l + 2) k
      rw [place, shapeEls]
      rw [show 2 * (k + 1) + 1 = (2 * k + 1) + 1 + 1 by ring, show 2 * (k + 1) = (2 * k) + 1 + 1 by ring]
      simp only [List.cons_append, List.nil_append, List.getElem?_cons_succ]
      rw [this.1, this.2]
      constructor
      · congr 1; funext x; congr 2; ring
      · rfl

section
variable (els : List El) (b : Nat) (stats text : String) (ss : List (Shape × Option Nat))

theorem page_old (i : Nat) (hi : i < els.length) : (pageEls els b stats text ss)[i]? =
    if b = i then els[i]?.map (addChildren [els.length, els.length + 1, els.length + 2, els.length + 3]) else els[i]? := by
  rw [pageEls, List.getElem?_append_left (by simp; omega), List.getElem?_append_left (by simp; omega), List.getElem?_modify]
  split <;> simp

theorem page_new (i : Nat) (hi : i < 4) : (pageEls els b stats text ss)[els.length + i]? =
    [headingEl, svgEl true (places (els.length + 4) ss.length), textEl [] stats, textEl [("id", "clicked")] text][i]? := by
  rw [pageEls, List.getElem?_append_left (by simp; omega), List.getElem?_append_right (by simp)]
  simp

theorem page_shapes (k : Nat) : (pageEls els b stats text ss)[els.length + 4 + k]? = (place (els.length + 4) ss)[k]? := by
  rw [pageEls, List.getElem?_append_right (by simp)]
  congr 1
  simp

/-- where an element of the page is: old, one of the four new ones, or a shape or its title -/
theorem page_cases (i : Nat) : i < els.length ∨ (∃ k < 4, i = els.length + k) ∨ (∃ k, i = els.length + 4 + 2 * k) ∨
    ∃ k, i = els.length + 4 + (2 * k + 1) := by
  by_cases h1 : i < els.length
  · exact Or.inl h1
  · by_cases h2 : i < els.length + 4
    · exact Or.inr (Or.inl ⟨i - els.length, by omega, by omega⟩)
    · rcases Nat.even_or_odd' (i - (els.length + 4)) with ⟨k, hk | hk⟩
      · exact Or.inr (Or.inr (Or.inl ⟨k, by omega⟩))
      · exact Or.inr (Or.inr (Or.inr ⟨k, by omega⟩))

theorem kids_old (i : Nat) (hi : i < els.length) : kids (pageEls els b stats text ss) i =
    kids els i ++ if b = i then [els.length, els.length + 1, els.length + 2, els.length + 3] else [] := by
  unfold kids
  rw [page_old els b stats text ss i hi, List.getElem?_eq_getElem hi]
  split <;> simp [addChildren]

theorem kids_new (i : Nat) (hi : i < 4) : kids (pageEls els b stats text ss) (els.length + i) =
    if i = 1 then places (els.length + 4) ss.length else [] := by
  unfold kids
  rw [page_new els b stats text ss i hi]
  have : i = 0 ∨ i = 1 ∨ i = 2 ∨ i = 3 := by omega
  rcases this with rfl | rfl | rfl | rfl <;> rfl

theorem kids_shape (k : Nat) : kids (pageEls els b stats text ss) (els.length + 4 + 2 * k) =
    if k < ss.length then [els.length + 4 + (2 * k + 1)] else [] := by
  unfold kids
  rw [page_shapes els b stats text ss, (place_get _ ss k).1]
  by_cases h : k < ss.length
  · rw [if_pos h, List.getElem?_eq_getElem h]; rfl
  · rw [if_neg h, List.getElem?_eq_none (by omega)]; rfl

theorem kids_title (k : Nat) : kids (pageEls els b stats text ss) (els.length + 4 + (2 * k + 1)) = [] := by
  unfold kids
  rw [page_shapes els b stats text ss, (place_get _ ss k).2]
  cases ss[k]? <;> rfl

/-- a title is a child of its shape only, and a shape is a child of the `svg` element only -/
theorem page_parent (hb : Bounded els) (c j : Nat) (h : c ∈ kids (pageEls els b stats text ss) j) (k : Nat) :
    (c = els.length + 4 + (2 * k + 1) → j = els.length + 4 + 2 * k) ∧ (c = els.length + 4 + 2 * k → j = els.length + 1) := by
  rcases page_cases els j with hj | ⟨i, hi, rfl⟩ | ⟨i, rfl⟩ | ⟨i, rfl⟩
  · rw [kids_old _ _ _ _ _ j hj] at h
    have hc : c < els.length + 4 := by
      rcases List.mem_append.1 h with h | h
      · unfold kids at h
        rw [List.getElem?_eq_getElem hj] at h
        have := hb _ (List.getElem_mem hj) c h
        omega
      · split at h
        · simp at h; omega
        · cases h
    constructor <;> intro h <;> omega
  · rw [kids_new _ _ _ _ _ i hi] at h
    split at h
    · obtain ⟨m, hm, rfl⟩ := List.mem_map.1 h
      constructor <;> intro h <;> omega
    · cases h
  · rw [kids_shape] at h
    split at h
    · have := List.mem_singleton.1 h
      constructor <;> intro h <;> omega
    · cases h
  · rw [kids_title] at h; cases h

theorem parentOf_kids {els : List El} {c j : Nat} (h : parentOf els c = some j) : c ∈ kids els j := by
  unfold parentOf at h
  obtain ⟨hj, h, _⟩ := List.findIdx?_eq_some_iff_getElem.1 h
  unfold kids
  rw [List.getElem?_eq_getElem hj]
  simpa using h

theorem kids_parentOf {els : List El} {c j : Nat} (h : c ∈ kids els j) : ∃ i, parentOf els c = some i := by
  unfold parentOf
  by_contra hn
  have : (els.findIdx? fun e => decide (c ∈ e.children)) = none := by
    cases h' : els.findIdx? fun e => decide (c ∈ e.children) with
    | none => rfl
    | some i => exact absurd ⟨i, h'⟩ hn
  rw [List.findIdx?_eq_none_iff] at this
  unfold kids at h
  cases he : els[j]? with
  | none => rw [he] at h; cases h
  | some e =>
    rw [he] at h
    have := this e (List.mem_of_getElem? he)
    simp at this
    exact this h

/-- which node an element belongs to: the circle of a node and its title -/
def nodeOf (first n t : Nat) : Option Nat := if first ≤ t ∧ (t - first) / 2 < n then some ((t - first) / 2) else none

/-- the shapes of `n` nodes, with their handlers, followed by others without handlers -/
def Handled (n : Nat) (ss : List (Shape × Option Nat)) : Prop :=
  ∀ k, (ss[k]?.bind fun s => s.2) = if k < n then some k else none

theorem onclick_at (n : Nat) (hh : Handled n ss) (h0 : ∀ e ∈ els, e.onclick = none) (i : Nat) :
    ((pageEls els b stats text ss)[i]?.bind El.onclick) =
      if els.length + 4 ≤ i ∧ (i - (els.length + 4)) % 2 = 0 then
        (if (i - (els.length + 4)) / 2 < n then some ((i - (els.length + 4)) / 2) else none) else none := by
  rcases page_cases els i with hi | ⟨k, hk, rfl⟩ | ⟨k, rfl⟩ | ⟨k, rfl⟩
  · rw [if_neg (show ¬ (els.length + 4 ≤ i ∧ (i - (els.length + 4)) % 2 = 0) by omega), page_old _ _ _ _ _ i hi,
      List.getElem?_eq_getElem hi]
    have := h0 _ (List.getElem_mem hi)
    split <;> simp [addChildren, this]
  · rw [page_new _ _ _ _ _ k hk, if_neg (by omega)]
    have : k = 0 ∨ k = 1 ∨ k = 2 ∨ k = 3 := by omega
    rcases this with rfl | rfl | rfl | rfl <;> rfl
  · rw [page_shapes, (place_get _ ss k).1, if_pos (by omega)]
    have : (els.length + 4 + 2 * k - (els.length + 4)) / 2 = k := by omega
    rw [this, ← hh k]
    cases ss[k]? <;> rfl
  · rw [page_shapes, (place_get _ ss k).2, if_neg (by omega)]
    cases ss[k]? <;> rfl

/-- above an element that is not a node's circle or title there is no circle of a node -/
theorem path_outside (n : Nat) (hh : Handled n ss) (h0 : ∀ e ∈ els, e.onclick = none) :
    ∀ (fuel i : Nat), nodeOf (els.length + 4) n i = none →
      ((pathOf (pageEls els b stats text ss) fuel i).filterMap fun i => (pageEls els b stats text ss)[i]?.bind El.onclick) = [] := by
  intro fuel
  induction fuel with
  | zero => intro i _; rfl
  | succ fuel ih =>
    intro i hi
    have hi' : ¬ (els.length + 4 ≤ i ∧ (i - (els.length + 4)) / 2 < n) := by
      intro hc; rw [nodeOf, if_pos hc] at hi; cases hi
    rw [pathOf, List.filterMap_cons_none]
    · cases hp : parentOf (pageEls els b stats text ss) i with
      | none => rfl
      | some j =>
        refine ih j ?_
        have hj := parentOf_kids hp
        rw [nodeOf, if_neg]
        rintro ⟨h1, h2⟩
        rcases page_cases els j with hj' | ⟨k, hk, rfl⟩ | ⟨k, rfl⟩ | ⟨k, rfl⟩
        · omega
        · omega
        · rw [kids_shape] at hj
          split at hj
          · have := List.mem_singleton.1 hj
            omega
          · cases hj
        · rw [kids_title] at hj; cases hj
    · rw [onclick_at els b stats text ss n hh h0]
      by_cases hc : els.length + 4 ≤ i ∧ (i - (els.length + 4)) % 2 = 0
      · rw [if_pos hc, if_neg (by omega)]
      · rw [if_neg hc]

/-- a click on a circle or its title runs exactly the handler of the node -/
theorem handlers_eq (hb : Bounded els) (n : Nat) (hn : n ≤ ss.length) (hh : Handled n ss) (h0 : ∀ e ∈ els, e.onclick = none)
    (r : Nat) (bo : Option Nat) (c : List String) (t : Nat) :
    handlersAt ⟨pageEls els b stats text ss, r, bo, c⟩ t = (nodeOf (els.length + 4) n t).toList := by
  unfold handlersAt
  show ((pathOf (pageEls els b stats text ss) (pageEls els b stats text ss).length t).filterMap fun i =>
    (pageEls els b stats text ss)[i]?.bind El.onclick) = _
  obtain ⟨f, hf⟩ : ∃ f, (pageEls els b stats text ss).length = f + 1 + 1 := by
    refine ⟨els.length + 2 + (place (els.length + 4) ss).length, ?_⟩
    simp [pageEls]; omega
  rw [hf]
  have circle : ∀ k < n, ∀ f, ((pathOf (pageEls els b stats text ss) (f + 1) (els.length + 4 + 2 * k)).filterMap fun i =>
      (pageEls els b stats text ss)[i]?.bind El.onclick) = [k] := by
    intro k hk f
    have ho := onclick_at els b stats text ss n hh h0 (els.length + 4 + 2 * k)
    rw [if_pos (by omega), if_pos (by omega)] at ho
    have hk2 : (els.length + 4 + 2 * k - (els.length + 4)) / 2 = k := by omega
    rw [hk2] at ho
    rw [pathOf, List.filterMap_cons_some (f := fun i => (pageEls els b stats text ss)[i]?.bind El.onclick) ho]
    congr 1
    cases hp : parentOf (pageEls els b stats text ss) (els.length + 4 + 2 * k) with
    | none => rfl
    | some j =>
      have hj := (page_parent els b stats text ss hb _ j (parentOf_kids hp) k).2 rfl
      subst hj
      exact path_outside els b stats text ss n hh h0 f _ (by rw [nodeOf, if_neg (by omega)])
  cases ht : nodeOf (els.length + 4) n t with
  | none => exact path_outside els b stats text ss n hh h0 _ t ht
  | some k =>
    unfold nodeOf at ht
    split at ht
    · obtain rfl := Option.some.inj ht
      rename_i hc
      generalize hk : (t - (els.length + 4)) / 2 = k at hc
      show _ = [k]
      rcases Nat.mod_two_eq_zero_or_one (t - (els.length + 4)) with h2 | h2
      · obtain rfl : t = els.length + 4 + 2 * k := by omega
        exact circle k hc.2 _
      · obtain rfl : t = els.length + 4 + (2 * k + 1) := by omega
        have ho := onclick_at els b stats text ss n hh h0 (els.length + 4 + (2 * k + 1))
        rw [if_neg (by omega)] at ho
        rw [pathOf, List.filterMap_cons_none (f := fun i => (pageEls els b stats text ss)[i]?.bind El.onclick) ho]
        have hkid : els.length + 4 + (2 * k + 1) ∈ kids (pageEls els b stats text ss) (els.length + 4 + 2 * k) := by
          rw [kids_shape, if_pos (by omega)]; simp
        obtain ⟨j, hp⟩ := kids_parentOf hkid
        have hj := (page_parent els b stats text ss hb _ j (parentOf_kids hp) k).1 rfl
        subst hj
        rw [hp]
        exact circle k hc.2 _
    · cases ht

/-- no id in a list of shapes -/
def NoIds (ss : List (Shape × Option Nat)) : Prop := ∀ s ∈ ss, s.1.element.attributes.lookup "id" = none

theorem id_at (h0 : ∀ e ∈ els, e.id ≠ some "main" ∧ e.id ≠ some "clicked") (hn : NoIds ss) (i : Nat) :
    (((pageEls els b stats text ss)[i]?.bind El.id) = some "main" ↔ i = els.length + 1) ∧
    (((pageEls els b stats text ss)[i]?.bind El.id) = some "clicked" ↔ i = els.length + 3) := by
  rcases page_cases els i with hi | ⟨k, hk, rfl⟩ | ⟨k, rfl⟩ | ⟨k, rfl⟩
  · rw [page_old _ _ _ _ _ i hi, List.getElem?_eq_getElem hi]
    have := h0 _ (List.getElem_mem hi)
    have hid : ∀ l, El.id (addChildren l els[i]) = El.id els[i] := fun l => rfl
    have e1 : i ≠ els.length + 1 := by omega
    have e2 : i ≠ els.length + 3 := by omega
    split <;> simp [hid, this, e1, e2]
  · rw [page_new _ _ _ _ _ k hk]
    have : k = 0 ∨ k = 1 ∨ k = 2 ∨ k = 3 := by omega
    rcases this with rfl | rfl | rfl | rfl <;> simp [El.id, headingEl, svgEl, textEl, List.lookup]
  · rw [page_shapes, (place_get _ ss k).1]
    cases hs : ss[k]? with
    | none => simp; omega
    | some s =>
      have := hn s (List.mem_of_getElem? hs)
      simp [El.id, this]; omega
  · rw [page_shapes, (place_get _ ss k).2]
    cases ss[k]? <;> simp [El.id] <;> omega

theorem find_unique {α : Type} (l : List α) (q : α → Bool) (a : α) (ha : a ∈ l) (h : ∀ x, q x = true ↔ x = a) : l.find? q = some a := by
  cases hf : l.find? q with
  | none => exact absurd ((h a).2 rfl) (by simpa using List.find?_eq_none.1 hf a ha)
  | some x => rw [(h x).1 (List.find?_some hf)]

theorem byId_eq (r : Nat) (bo : Option Nat) (c : List String) (hs : b < els.length) (hr : b ∈ subtree els els.length r)
    (h0 : ∀ e ∈ els, e.id ≠ some "main" ∧ e.id ≠ some "clicked") (hn : NoIds ss) :
    getElementById ⟨pageEls els b stats text ss, r, bo, c⟩ "main" = some (els.length + 1) ∧
    getElementById ⟨pageEls els b stats text ss, r, bo, c⟩ "clicked" = some (els.length + 3) := by
  have hmono : ∀ i, ∀ c ∈ kids els i, c ∈ kids (pageEls els b stats text ss) i := by
    intro i c hc
    by_cases hi : i < els.length
    · rw [kids_old _ _ _ _ _ i hi]; exact List.mem_append_left _ hc
    · unfold kids at hc
      rw [List.getElem?_eq_none (by omega)] at hc
      cases hc
  have hlen : els.length + 1 ≤ (pageEls els b stats text ss).length := by
    simp only [pageEls, List.length_append, List.length_modify, List.length_cons, List.length_nil]; omega
  have hmem : ∀ x ∈ [els.length, els.length + 1, els.length + 2, els.length + 3],
      x ∈ subtree (pageEls els b stats text ss) (pageEls els b stats text ss).length r := by
    intro x hx
    have h1 := subtree_mono hmono els.length els.length le_rfl r b hr
    have h2 := subtree_child (c := x) (by rw [kids_old _ _ _ _ _ b hs, if_pos rfl]; exact List.mem_append_right _ hx) _ _ h1
    exact subtree_mono (fun i c hc => hc) _ _ hlen _ _ h2
  unfold getElementById
  constructor
  · refine find_unique _ _ _ (hmem _ (by simp)) fun x => ?_
    rw [beq_iff_eq]
    exact (id_at els b stats text ss h0 hn x).1
  · refine find_unique _ _ _ (hmem _ (by simp)) fun x => ?_
    rw [beq_iff_eq]
    exact (id_at els b stats text ss h0 hn x).2

theorem handler_eq (r : Nat) (bo : Option Nat) (c : List String) (hs : b < els.length) (hr : b ∈ subtree els els.length r)
    (h0 : ∀ e ∈ els, e.id ≠ some "main" ∧ e.id ≠ some "clicked") (hn : NoIds ss) (k : Nat) :
    handler k ⟨pageEls els b stats text ss, r, bo, c⟩ = (.ok (), ⟨pageEls els b stats ("Node " ++ toString k) ss, r, bo, c⟩) := by
  obtain ⟨h1, h2⟩ := byId_eq els b stats text ss r bo c hs hr h0 hn
  have g1 : byId "main" ⟨pageEls els b stats text ss, r, bo, c⟩ = (.ok (some (els.length + 1)), ⟨pageEls els b stats text ss, r, bo, c⟩) := by
    unfold byId; rw [h1]
  have g2 : byId "clicked" ⟨pageEls els b stats text ss, r, bo, c⟩ = (.ok (some (els.length + 3)), ⟨pageEls els b stats text ss, r, bo, c⟩) := by
    unfold byId; rw [h2]
  have g3 : dynIntoSvg (els.length + 1) ⟨pageEls els b stats text ss, r, bo, c⟩ = (.ok (els.length + 1), ⟨pageEls els b stats text ss, r, bo, c⟩) := by
    unfold dynIntoSvg
    rw [page_new _ _ _ _ _ 1 (by omega)]
    rfl
  have u : ∀ (i : Nat) (p : Page), unwrapOption (some i) p = (.ok i, p) := fun _ _ => rfl
  rw [handler, bind_ok g1, bind_ok (u _ _), bind_ok (unwrap_ok g3), bind_ok g2, bind_ok (u _ _)]
  unfold setInnerHtml Page.change
  congr 2
  simp only [pageEls]
  rw [modify_left _ _ _ (by simp)]
  congr 1
  have := modify_right (els.modify b (addChildren [els.length, els.length + 1, els.length + 2, els.length + 3]))
    [headingEl, svgEl true (places (els.length + 4) ss.length), textEl [] stats, textEl [("id", "clicked")] text] 3
    (fun e => { e with html := "Node " ++ toString k, children := [] })
  rw [List.length_modify] at this
  rw [this]
  rfl
end

theorem numbered_get (l : List Shape) (i k : Nat) : (numbered l i)[k]? = l[k]?.map fun s => (s, some (i + k)) := by
  induction l generalizing i k with
  | nil => rfl
  | cons a l ih =>
    cases k with
    | zero => simp [numbered]
    | succ k =>
      simp only [numbered, List.getElem?_cons_succ, ih]
      congr 1; funext s; congr 2; omega

theorem numbered_length (l : List Shape) (i : Nat) : (numbered l i).length = l.length := by
  induction l generalizing i with
  | nil => rfl
  | cons a l ih => simp [numbered, ih]

theorem graphShapes_handled (g : PlanarGraph F32 T U) (es : List Shape) :
    Handled g.nodes.length (graphShapes g es) ∧ g.nodes.length ≤ (graphShapes g es).length := by
  have hl : (numbered (drawNodes fmt32 (F32.lit 5) g.nodes 0) 0).length = g.nodes.length := by
    rw [numbered_length, (drawNodes_spec _ _ _ _).1]
  constructor
  · intro k
    unfold graphShapes
    by_cases hk : k < g.nodes.length
    · rw [if_pos hk, List.getElem?_append_left (by omega), numbered_get,
        List.getElem?_eq_getElem (by rw [(drawNodes_spec _ _ _ _).1]; exact hk)]
      simp
    · rw [if_neg hk, List.getElem?_append_right (by omega), unnumbered, List.getElem?_map]
      cases es[k - (numbered (drawNodes fmt32 (F32.lit 5) g.nodes 0) 0).length]? <;> rfl
  · unfold graphShapes
    rw [List.length_append]; omega

theorem drawNodes_noIds (five : F32) (ns : List (Node F32 T)) (i : Nat) :
    ∀ s ∈ drawNodes fmt32 five ns i, s.element.attributes.lookup "id" = none := by
  induction ns generalizing i with
  | nil => intro s hs; cases hs
  | cons n ns ih =>
    intro s hs
    rcases List.mem_cons.1 hs with rfl | hs
    · simp [svgCircle, List.lookup]
    · exact ih (i + 1) s hs

theorem drawEdges_noIds (g : PlanarGraph F32 T U) (es : List (Edge U)) (i : Nat) (ss : List Shape) (h : drawEdges fmt32 g es i = .ok ss) :
    ∀ s ∈ ss, s.element.attributes.lookup "id" = none := by
  induction es generalizing i ss with
  | nil => obtain rfl := Except.ok.inj h; intro s hs; cases hs
  | cons e es ih =>
    unfold drawEdges at h
    cases h1 : g.getVertex e.src with
    | none => rw [h1] at h; cases h
    | some u =>
      cases h2 : g.getVertex e.dst with
      | none => rw [h1, h2] at h; cases h
      | some v =>
        cases h3 : drawEdges fmt32 g es (i + 1) with
        | error p => rw [h1, h2, h3] at h; cases h
        | ok rest =>
          rw [h1, h2, h3] at h
          obtain rfl := Except.ok.inj h
          intro s hs
          rcases List.mem_cons.1 hs with rfl | hs
          · simp [svgLine, List.lookup]
          · exact ih (i + 1) rest h3 s hs

theorem graphShapes_noIds (g : PlanarGraph F32 T U) (es : List Shape) (h : drawEdges fmt32 g g.edges 0 = .ok es) :
    NoIds (graphShapes g es) := by
  intro s hs
  rcases List.mem_append.1 hs with hs | hs
  · obtain ⟨k, hk⟩ := List.mem_iff_getElem?.1 hs
    rw [numbered_get] at hk
    obtain ⟨x, hx, rfl⟩ := Option.map_eq_some_iff.1 hk
    exact drawNodes_noIds _ _ _ x (List.mem_of_getElem? hx)
  · obtain ⟨x, hx, rfl⟩ := List.mem_map.1 hs
    exact drawEdges_noIds g g.edges 0 es h x hx

/-- what `#clicked` says after clicks on the targets `ts` -/
def clickedText (first n : Nat) : (text : String) → (ts : List Nat) → String
  | text, [] => text
  | text, t :: ts => clickedText first n (match nodeOf first n t with | some k => "Node " ++ toString k | none => text) ts

/-- **C132, clicks.** `run` on a page whose body is in the document, without click handlers and without the ids `main` and
`clicked`, followed by any clicks on any elements of the page (or outside): no click panics or throws, and the only change is the
text of `#clicked`, which names the node of the last click on the circle of a node or on its title, "No node selected" before
the first. -/
theorem C132_clicks (pr : Profile) (ops : List (PlanarGraph.Op F32 Unit Unit)) (p : Page) (b : Nat) (hbody : p.body = some b)
    (hb : Bounded p.els) (hs : b < p.els.length) (hr : b ∈ subtree p.els p.els.length p.root)
    (hid : ∀ e ∈ p.els, e.id ≠ some "main" ∧ e.id ≠ some "clicked") (hon : ∀ e ∈ p.els, e.onclick = none)
    (g : PlanarGraph F32 Unit Unit) (hg : PlanarGraph.run pr PlanarGraph.new ops = .ok g)
    (es : List Shape) (hes : drawEdges fmt32 g g.edges 0 = .ok es) (ts : List Nat) :
    (do run pr ops; clicks ts) p = (.ok (), { p with
      els := pageEls p.els b (statsText g) (clickedText (p.els.length + 4) g.nodes.length "No node selected" ts) (graphShapes g es),
      console := p.console ++ ["Finished drawing"] }) := by
  rw [bind_ok (C131_run pr ops p b hbody hb hs g hg es hes)]
  generalize "No node selected" = text
  induction ts generalizing text with
  | nil => rfl
  | cons t ts ih =>
    obtain ⟨els, r, bo, c⟩ := p
    have hc : click t ⟨pageEls els b (statsText g) text (graphShapes g es), r, bo, c ++ ["Finished drawing"]⟩ =
        (.ok (), ⟨pageEls els b (statsText g) (match nodeOf (els.length + 4) g.nodes.length t with
          | some k => "Node " ++ toString k | none => text) (graphShapes g es), r, bo, c ++ ["Finished drawing"]⟩) := by
      unfold click
      rw [handlers_eq els b _ _ _ hb g.nodes.length (graphShapes_handled g es).2 (graphShapes_handled g es).1 hon]
      cases nodeOf (els.length + 4) g.nodes.length t with
      | none => rfl
      | some k =>
        show (do handler k; runHandlers []) _ = _
        rw [bind_ok (handler_eq els b _ _ _ r bo _ hs hr hid (graphShapes_noIds g es hes) k)]
        rfl
    rw [clicks]
    exact (bind_ok hc).trans (ih _)

/-- the hypotheses of the theorems hold for the page of the project and the graph of the example -/
example : indexHtml.body = some 4 ∧ Bounded indexHtml.els ∧ 4 < indexHtml.els.length ∧
    4 ∈ subtree indexHtml.els indexHtml.els.length indexHtml.root ∧
    (∀ e ∈ indexHtml.els, e.id ≠ some "main" ∧ e.id ≠ some "clicked") ∧ ∀ e ∈ indexHtml.els, e.onclick = none := by
  unfold Bounded
  decide +kernel

/-- clicks on the circle of node 0 (at position 10), on the title of node 1 (13) and on the line (14) -/
example : (do run .debug (demoOps lit2); clicks [10, 13, 14]) indexHtml =
    ((do run .debug (demoOps lit2); setInnerHtml 9 "Node 1") indexHtml) := by decide +kernel

/-- **C132, limit.** Running the program twice on one page is not covered: the handlers of the second drawing find the paragraph
of the first one (both have the id `clicked`), the text below the second drawing never changes. -/
theorem C132_sharp_twice : ((do run .debug (demoOps lit2); run .debug (demoOps lit2)) indexHtml).1 = .ok () ∧
    let q := ((do run .debug (demoOps lit2); run .debug (demoOps lit2)) indexHtml).2
    q.els.length = 26 ∧ ∀ t < 26, ((click t q).2.els[19]?.map (·.html)) = some "No node selected" ∧
      (t = 20 → ((click t q).2.els[9]?.map (·.html)) = some "Node 0") := by
  decide +kernel

/-- **C131, template.** The template adds the heading and an empty drawing. -/
theorem C131_template (p : Page) (b : Nat) (hbody : p.body = some b) (hb : Bounded p.els) (hs : b < p.els.length) :
    runTemplate p = (.ok (), { p with
      els := p.els.modify b (addChildren [p.els.length, p.els.length + 1]) ++ [headingEl, svgEl false []]
      console := p.console ++ ["Finished drawing"] }) := by
  obtain ⟨els, r, bo, c⟩ := p
  obtain rfl : bo = some b := hbody
  rw [runTemplate, bind_ok (start_eq false els r b c hb hs)]
  rfl

/-! ### The size of the drawing -/

theorem floor_div (m d : Nat) (hd : 0 < d) : ⌊(m : ℝ) / (d : ℝ)⌋ = ((m / d : Nat) : Int) := by
  have hd' : (0 : ℝ) < d := by exact_mod_cast hd
  rw [Int.floor_eq_iff]
  constructor
  · rw [le_div_iff₀ hd']
    have := Nat.div_mul_le_self m d
    exact_mod_cast this
  · rw [div_lt_iff₀ hd']
    have := Nat.lt_div_mul_add (a := m) hd
    have h2 : ((m : ℕ) : ℝ) < ((m / d * d + d : ℕ) : ℝ) := by exact_mod_cast this
    rw [Nat.cast_add, Nat.cast_mul] at h2
    rw [Int.cast_natCast]
    linarith

/-- **C131, `as i32`.** The cast drops the fraction and saturates. -/
theorem C131_cast (s : Bool) (n : Fin 0x7f800000) :
    toI32 (.fin s n) = max (-2 ^ 31) (min (2 ^ 31 - 1)
      (if F32.toReal (.fin s n) < 0 then ⌈F32.toReal (.fin s n)⌉ else ⌊F32.toReal (.fin s n)⌋)) := by
  show max (-2 ^ 31) (min (2 ^ 31 - 1) _) = _
  congr 2
  have hv : F32.toReal (.fin s n) = (F32.val s n : ℝ) / 2 ^ 149 := rfl
  rw [hv]
  unfold F32.val
  generalize F32.mag n = m
  have hf : ⌊(m : ℝ) / 2 ^ 149⌋ = ((m / 2 ^ 149 : Nat) : Int) := by
    have := floor_div m (2 ^ 149) (by positivity)
    simpa only [Nat.cast_pow, Nat.cast_ofNat] using this
  generalize hD : (2 : ℝ) ^ 149 = D at hf ⊢
  have hD0 : 0 < D := by rw [← hD]; positivity
  have h0 : 0 ≤ (m : ℝ) / D := by positivity
  cases s with
  | false =>
    simp only [Bool.false_eq_true, if_false, Int.cast_natCast]
    rw [if_neg (not_lt.2 h0), hf]
  | true =>
    simp only [if_true, Int.cast_neg, Int.cast_natCast, neg_div]
    by_cases hm : (m : ℝ) / D = 0
    · rw [hm] at hf ⊢
      rw [← hf]; simp
    · have : -((m : ℝ) / D) < 0 := by
        have := lt_of_le_of_ne h0 (Ne.symm hm)
        linarith
      rw [if_pos this, Int.ceil_neg, hf]

theorem toI32_lit (k : Int) (hk : |k| < 2 ^ 24) : toI32 (F32.lit k) = k := by
  obtain ⟨n, hn, hm⟩ := F32.exists_whole k.natAbs (by zify; exact hk.le)
  have hl : F32.lit k = .fin (decide (k < 0)) ⟨n, hn⟩ := by
    unfold F32.lit F32.round F32.pack
    have := F32.roundIdx_exact n 1 Nat.one_pos
    rw [hm, Nat.mul_one] at this
    rw [this, dif_pos hn]
  have hd : F32.mag n / 2 ^ 149 = k.natAbs := by rw [hm, Nat.mul_div_cancel _ (by positivity)]
  rw [hl]
  simp only [toI32, hd]
  rw [abs_lt] at hk
  by_cases h0 : k < 0
  · simp only [h0, decide_true, if_true]
    omega
  · simp only [h0, decide_false, Bool.false_eq_true, if_false]
    omega

/-- **C131, size.** For a whole number of pixels the view box of `svg_main` is the size of the drawing. -/
theorem C131_size (w h : Int) (hw : |w| < 2 ^ 24) (hh : |h| < 2 ^ 24) (p : Page) : ∃ q, svgMain (F32.lit w) (F32.lit h) p = (.ok p.els.length, q) ∧
    ∃ e, q.els[p.els.length]? = some e ∧ e.attributes.lookup "width" = some (toString w) ∧
      e.attributes.lookup "height" = some (toString h) ∧
      e.attributes.lookup "viewBox" = some ("0 0 " ++ toString w ++ " " ++ toString h) := by
  obtain ⟨els, r, b, c⟩ := p
  have h1 : createElement true "svg" ⟨els, r, b, c⟩ = (.ok els.length, ⟨els ++ [⟨true, "svg", [], "", [], none⟩], r, b, c⟩) := rfl
  have h2 : dynIntoSvg els.length ⟨els ++ [⟨true, "svg", [], "", [], none⟩], r, b, c⟩ =
      (.ok els.length, ⟨els ++ [⟨true, "svg", [], "", [], none⟩], r, b, c⟩) := by
    unfold dynIntoSvg
    simp
  have hset : ∀ (e : El) (n v : String), setAttribute els.length n v ⟨els ++ [e], r, b, c⟩ =
      (.ok (), ⟨els ++ [{ e with attributes := setAttr n v e.attributes }], r, b, c⟩) := by
    intro e n v
    simp only [setAttribute, Page.change, modify_last]
  rw [svgMain, bind_ok h1, bind_ok h2, bind_ok (hset _ _ _), bind_ok (hset _ _ _), bind_ok (hset _ _ _), bind_ok (hset _ _ _),
    toI32_lit w hw, toI32_lit h hh, show fmt32 (F32.lit w) = toString w from F32.C129_whole true w hw,
    show fmt32 (F32.lit h) = toString h from F32.C129_whole true h hh]
  refine ⟨_, rfl, _, List.getElem?_concat_length, ?_, ?_, ?_⟩ <;> simp [setAttr, List.lookup]

/-- a size of half a pixel has an empty view box -/
theorem C131_sharp_size : (svgMain (F32.lit 1 2) (F32.lit 1 2) indexHtml).2.els[6]? =
    some ⟨true, "svg", [("style", "border: solid;"), ("width", "0.5"), ("height", "0.5"), ("viewBox", "0 0 0 0")], "", [], none⟩ := by
  decide +kernel

/-! ### Text -/

/-- a text that the HTML parser takes as it is: no character reference, no character that is replaced, and no `<` that starts a tag
or a comment (https://html.spec.whatwg.org/#data-state, https://html.spec.whatwg.org/#tag-open-state) -/
def Plain : List Char → Prop
  | [] => True
  | c :: rest => c ≠ '&' ∧ c ≠ '\r' ∧ c ≠ '\x00' ∧
    (c = '<' → ∀ d, rest.head? = some d → ¬ (d.isAlpha = true) ∧ d ≠ '/' ∧ d ≠ '!' ∧ d ≠ '?') ∧ Plain rest

theorem plain_append {l m : List Char} (h : ∀ c ∈ l, c ≠ '&' ∧ c ≠ '\r' ∧ c ≠ '\x00' ∧ c ≠ '<') (hm : Plain m) : Plain (l ++ m) := by
  induction l with
  | nil => exact hm
  | cons c l ih =>
    have := h c (List.mem_cons_self ..)
    exact ⟨this.1, this.2.1, this.2.2.1, fun hc => absurd hc this.2.2.2, ih fun c hc => h c (List.mem_cons_of_mem _ hc)⟩

theorem digits_plain (n : Nat) : ∀ c ∈ (toString n).toList, c ≠ '&' ∧ c ≠ '\r' ∧ c ≠ '\x00' ∧ c ≠ '<' := by
  intro c hc
  refine ⟨?_, ?_, ?_, ?_⟩ <;> rintro rfl <;> exact digits_not (by decide) n hc

theorem digits_head (n : Nat) (m : List Char) (d : Char) (h : ((toString n).toList ++ m).head? = some d) : d.isDigit = true := by
  rw [show toString n = Nat.repr n from rfl, Nat.toList_repr] at h
  cases hd : Nat.toDigits 10 n with
  | nil => exact absurd hd Nat.toDigits_ne_nil
  | cons c l =>
    rw [hd] at h
    obtain rfl : c = d := Option.some.inj h
    exact Nat.isDigit_of_mem_toDigits (b := 10) (n := n) (by norm_num) (by norm_num) (by rw [hd]; simp)

theorem plain_of_all {l : List Char} (h : ∀ c ∈ l, c ≠ '&' ∧ c ≠ '\r' ∧ c ≠ '\x00' ∧ c ≠ '<') : Plain l := by
  have := plain_append h (m := []) trivial
  rwa [List.append_nil] at this

theorem node_plain (k : Nat) : Plain ("Node " ++ toString k).toList := by
  rw [String.toList_append]
  exact plain_append (by decide) (plain_of_all (digits_plain k))

theorem edge_plain (i a b : Nat) :
    Plain ("Edge " ++ toString i ++ " between vertices <" ++ toString a ++ ", " ++ toString b ++ ">").toList := by
  simp only [String.toList_append, List.append_assoc]
  refine plain_append (by decide) (plain_append (digits_plain i) ?_)
  have h1 : (" between vertices <" : String).toList = " between vertices ".toList ++ ['<'] := by decide
  rw [h1, List.append_assoc]
  refine plain_append (by decide) ?_
  refine ⟨by decide, by decide, by decide, fun _ d hd => ?_, ?_⟩
  · have := digits_head a _ d hd
    refine ⟨fun ha => ?_, ?_, ?_, ?_⟩
    · simp only [Char.isAlpha, Char.isUpper, Char.isLower, Char.isDigit, Bool.or_eq_true, Bool.and_eq_true, decide_eq_true_eq] at ha this
      have h9 := this.2
      rw [UInt32.le_iff_toNat_le] at h9
      rcases ha with ha | ha
      · have h := ha.1
        rw [ge_iff_le, UInt32.le_iff_toNat_le] at h
        exact absurd (le_trans h h9) (by decide)
      · have h := ha.1
        rw [ge_iff_le, UInt32.le_iff_toNat_le] at h
        exact absurd (le_trans h h9) (by decide)
    all_goals rintro rfl; exact absurd this (by decide)
  · show Plain ((toString a).toList ++ _)
    exact plain_append (digits_plain a) (plain_append (by decide) (plain_append (digits_plain b) (plain_of_all (by decide))))

theorem drawNodes_plain (five : F32) (ns : List (Node F32 T)) (i : Nat) :
    ∀ s ∈ drawNodes fmt32 five ns i, Plain (s.title.getD "").toList := by
  induction ns generalizing i with
  | nil => intro s hs; cases hs
  | cons n ns ih =>
    intro s hs
    rcases List.mem_cons.1 hs with rfl | hs
    · exact node_plain i
    · exact ih (i + 1) s hs

theorem drawEdges_plain (g : PlanarGraph F32 T U) (es : List (Edge U)) (i : Nat) (ss : List Shape) (h : drawEdges fmt32 g es i = .ok ss) :
    ∀ s ∈ ss, Plain (s.title.getD "").toList := by
  induction es generalizing i ss with
  | nil => obtain rfl := Except.ok.inj h; intro s hs; cases hs
  | cons e es ih =>
    obtain ⟨s, rest, rfl, h1, _, h2⟩ := drawEdges_cons h
    intro t ht
    rcases List.mem_cons.1 ht with rfl | ht
    · rw [h2]; exact edge_plain _ _ _
    · exact ih (i + 1) rest h1 t ht

theorem clickedText_plain (first n : Nat) (text : String) (ts : List Nat) (h : Plain text.toList) :
    Plain (clickedText first n text ts).toList := by
  induction ts generalizing text with
  | nil => exact h
  | cons t ts ih =>
    rw [clickedText]
    apply ih
    cases nodeOf first n t with
    | none => exact h
    | some k => exact node_plain k

/-- **C132, text.** After `run` and any clicks, the markup of every element that was added is a text that is shown as it is.  (The
`<` in the title of an edge is not the start of a tag because a digit follows.) -/
theorem C132_plain (els : List El) (b : Nat) (g : PlanarGraph F32 T U) (es : List Shape) (hes : drawEdges fmt32 g g.edges 0 = .ok es)
    (ts : List Nat) (i : Nat) (hi : els.length ≤ i) (e : El)
    (he : (pageEls els b (statsText g) (clickedText (els.length + 4) g.nodes.length "No node selected" ts) (graphShapes g es))[i]? = some e) :
    Plain e.html.toList := by
  have hsh : ∀ s ∈ graphShapes g es, Plain (s.1.title.getD "").toList := by
    intro s hs
    rcases List.mem_append.1 hs with hs | hs
    · obtain ⟨k, hk⟩ := List.mem_iff_getElem?.1 hs
      rw [numbered_get] at hk
      obtain ⟨x, hx, rfl⟩ := Option.map_eq_some_iff.1 hk
      exact drawNodes_plain _ _ _ x (List.mem_of_getElem? hx)
    · obtain ⟨x, hx, rfl⟩ := List.mem_map.1 hs
      exact drawEdges_plain g g.edges 0 es hes x hx
  rcases page_cases els i with h | ⟨k, hk, rfl⟩ | ⟨k, rfl⟩ | ⟨k, rfl⟩
  · omega
  · rw [page_new _ _ _ _ _ k hk] at he
    have : k = 0 ∨ k = 1 ∨ k = 2 ∨ k = 3 := by omega
    rcases this with rfl | rfl | rfl | rfl
    · obtain rfl := Option.some.inj he
      exact plain_of_all (by decide)
    · obtain rfl := Option.some.inj he
      exact trivial
    · obtain rfl := Option.some.inj he
      show Plain (statsText g).toList
      unfold statsText
      simp only [String.toList_append, List.append_assoc]
      exact plain_append (by decide) (plain_append (digits_plain _) (plain_append (by decide) (plain_append (digits_plain _)
        (plain_of_all (by decide)))))
    · obtain rfl := Option.some.inj he
      exact clickedText_plain _ _ _ _ (plain_of_all (by decide))
  · rw [page_shapes, (place_get _ _ k).1] at he
    obtain ⟨x, hx, rfl⟩ := Option.map_eq_some_iff.1 he
    exact trivial
  · rw [page_shapes, (place_get _ _ k).2] at he
    obtain ⟨x, hx, rfl⟩ := Option.map_eq_some_iff.1 he
    exact hsh x (List.mem_of_getElem? hx)

/-- a title that would not be shown -/
example : ¬ Plain "Edge 0 between vertices <a, b>".toList := by
  intro h
  have : Plain "<a, b>".toList := by
    revert h
    simp [Plain]
  exact (this.2.2.2.1 rfl 'a' rfl).1 (by decide)

end Kami.Web
