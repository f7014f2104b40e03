import Verif.Graph.Histories
import Verif.Geom.UtilsLists
/-!
# Graphs with corresponding positions

Two graphs with the same edges and node data whose positions correspond under a relation behave alike when corresponding
positions have equal distances and crossings of corresponding segments correspond.
-/

set_option autoImplicit false

namespace Kami.Graph

open Kami
open scoped Kami
open PlanarGraph

/-- both computations panic in the same way, or both end, with related results -/
def ResRel {α β : Type} (r : α → β → Prop) : Res α → Res β → Prop
  | .ok a, .ok b => r a b
  | .error p, .error q => p = q
  | _, _ => False

theorem ResRel.bind {α β γ δ : Type} {r : α → β → Prop} {s : γ → δ → Prop} {x : Res α} {y : Res β} {f : α → Res γ} {g : β → Res δ}
    (h : ResRel r x y) (hf : ∀ a b, r a b → ResRel s (f a) (g b)) : ResRel s (x >>= f) (y >>= g) := by
  cases x <;> cases y
  · exact h
  · exact h.elim
  · exact h.elim
  · exact hf _ _ h

theorem ResRel.refl {α : Type} {r : α → α → Prop} (hr : ∀ a, r a a) (x : Res α) : ResRel r x x := by
  cases x
  · rfl
  · exact hr _

theorem ResRel.eq {α : Type} {x y : Res α} (h : ResRel (fun a b : α => a = b) x y) : x = y := by
  cases x <;> cases y
  · exact congrArg _ h
  · exact h.elim
  · exact h.elim
  · exact congrArg _ h

theorem ResRel.ite {α β : Type} {r : α → β → Prop} {c : Prop} [Decidable c] {x y : Res α} {x' y' : Res β} (h : ResRel r x x')
    (h' : ResRel r y y') : ResRel r (if c then x else y) (if c then x' else y') := by
  by_cases hc : c
  · rw [if_pos hc, if_pos hc]; exact h
  · rw [if_neg hc, if_neg hc]; exact h'

/-- two nodes with the same data and label and corresponding positions -/
def NodeRel {F T : Type} (R : Vec2 F → Vec2 F → Prop) (n n' : Node F T) : Prop :=
  R n.position n'.position ∧ n.data = n'.data ∧ n.label = n'.label

/-- two graphs with the same edges and corresponding nodes -/
def GraphRel {F T U : Type} (R : Vec2 F → Vec2 F → Prop) (g g' : PlanarGraph F T U) : Prop :=
  List.Forall₂ (NodeRel R) g.nodes g'.nodes ∧ g.edges = g'.edges

/-- two calls with the same arguments up to corresponding positions -/
def OpRel {F T U : Type} (R : Vec2 F → Vec2 F → Prop) : Op F T U → Op F T U → Prop
  | .addNode x t, .addNode x' t' => R x x' ∧ t = t'
  | .addEdge s d u, .addEdge s' d' u' => s = s' ∧ d = d' ∧ u = u'
  | .removeEdge i, .removeEdge i' => i = i'
  | .removeNode i, .removeNode i' => i = i'
  | _, _ => False

/-- the same call with its position moved -/
def moveOp {F T U : Type} (f : Vec2 F → Vec2 F) : Op F T U → Op F T U
  | .addNode x t => .addNode (f x) t
  | .addEdge s d u => .addEdge s d u
  | .removeEdge i => .removeEdge i
  | .removeNode i => .removeNode i

/-- graphs that correspond, with equal reports -/
def OutRel {F T U ρ : Type} (R : Vec2 F → Vec2 F → Prop) (x y : PlanarGraph F T U × ρ) : Prop := GraphRel R x.1 y.1 ∧ x.2 = y.2

/-- nothing, or corresponding points -/
def OptRel {α : Type} (R : α → α → Prop) : Option α → Option α → Prop
  | none, none => True
  | some a, some b => R a b
  | _, _ => False

/-- corresponding points have equal distances, and crossings correspond -/
structure Preserves {F : Type} [Scalar F] (R : Vec2 F → Vec2 F → Prop) : Prop where
  dist : ∀ {a a' b b'}, R a a' → R b b' → distance a b = distance a' b'
  cross : ∀ {a a' b b' c c' d d'}, R a a' → R b b' → R c c' → R d d' →
    OptRel R (Utils.calculateLineSegmentIntersection a b c d) (Utils.calculateLineSegmentIntersection a' b' c' d')

section
variable {F T U : Type} {R : Vec2 F → Vec2 F → Prop}

theorem GraphRel.length {g g' : PlanarGraph F T U} (h : GraphRel R g g') : g.nodes.length = g'.nodes.length := h.1.length_eq

theorem forall₂_getElem? {α : Type} {r : α → α → Prop} {xs ys : List α} (h : List.Forall₂ r xs ys) : ∀ i : Nat,
    OptRel r xs[i]? ys[i]? := by
  induction h with
  | nil => exact fun _ => trivial
  | cons h _ ih =>
    intro i
    cases i with
    | zero => exact h
    | succ i => exact ih i

theorem index_rel {α : Type} {r : α → α → Prop} {xs ys : List α} (h : List.Forall₂ r xs ys) (i : Nat) :
    ResRel r (index xs i) (index ys i) := by
  have h := forall₂_getElem? h i
  unfold index
  revert h
  cases xs[i]? <;> cases ys[i]? <;> intro h
  · exact rfl
  · exact h.elim
  · exact h.elim
  · exact h

theorem getVertex_rel {g g' : PlanarGraph F T U} (h : GraphRel R g g') (i : Nat) : (g.getVertex i).isSome = (g'.getVertex i).isSome := by
  have := forall₂_getElem? h.1 i
  unfold getVertex
  revert this
  cases g.nodes[i]? <;> cases g'.nodes[i]? <;> intro h <;> first | rfl | exact h.elim

theorem numberOfEdges_rel {g g' : PlanarGraph F T U} (h : GraphRel R g g') (i : Nat) :
    g.numberOfEdgesIncidentTo i = g'.numberOfEdgesIncidentTo i := by
  have := getVertex_rel h i
  unfold numberOfEdgesIncidentTo
  rw [h.2]
  revert this
  cases g.getVertex i <;> cases g'.getVertex i <;> intro h <;> first | rfl | cases h

theorem eraseMarked_rel {α : Type} {r : α → α → Prop} (m : List Nat) {xs ys : List α} (h : List.Forall₂ r xs ys) : ∀ i : Nat,
    List.Forall₂ r (eraseMarked m xs i) (eraseMarked m ys i) := by
  induction h with
  | nil => exact fun _ => .nil
  | cons h _ ih =>
    intro i
    unfold eraseMarked
    split
    · exact .cons h (ih _)
    · exact ih _

theorem incidentLoop_rel {g g' : PlanarGraph F T U} (h : GraphRel R g g') (id : Nat) (es : List (Edge U)) : ∀ i,
    g.incidentLoop id es i = g'.incidentLoop id es i := by
  induction es with
  | nil => exact fun _ => rfl
  | cons e es ih =>
    intro i
    simp only [incidentLoop, ih, numberOfEdges_rel h]

theorem removeNode_rel {p : Profile} {g g' : PlanarGraph F T U} (h : GraphRel R g g') (i : Nat) :
    ResRel (OutRel R) (g.removeNode p i) (g'.removeNode p i) := by
  have hv := forall₂_getElem? h.1 i
  unfold removeNode
  revert hv
  cases g.nodes[i]? <;> cases g'.nodes[i]? <;> intro hv
  · exact ⟨h, rfl⟩
  · exact hv.elim
  · exact hv.elim
  · simp only [removeEdgesIncidentToNode, incidentLoop_rel h, nodeCount, edgeCount, h.length, h.2]
    refine ResRel.bind (ResRel.refl (r := fun a b => a = b) (fun _ => rfl) _) fun a b hab => ?_
    refine ResRel.bind (ResRel.refl (r := fun a b => a = b) (fun _ => rfl) _) fun c d hcd => ?_
    refine ResRel.bind (ResRel.refl (r := fun a b => a = b) (fun _ => rfl) _) fun c' d' hcd' => ?_
    subst hab hcd hcd'
    exact ⟨⟨eraseMarked_rel _ h.1 _, rfl⟩, rfl⟩

theorem removeEdge_rel {p : Profile} {g g' : PlanarGraph F T U} (h : GraphRel R g g') (i : Nat) :
    ResRel (OutRel R) (g.removeEdge p i) (g'.removeEdge p i) := by
  unfold removeEdge
  simp only [numberOfEdges_rel h, edgeCount, h.2]
  split
  · refine ResRel.bind (ResRel.refl (r := fun a b => a = b) (fun _ => rfl) _) fun a b hab => ?_
    subst hab
    refine ResRel.ite (removeNode_rel h _) ?_
    refine ResRel.bind (ResRel.refl (r := fun a b => a = b) (fun _ => rfl) _) fun a b hab => ?_
    subst hab
    refine ResRel.ite (removeNode_rel h _) ?_
    refine ResRel.ite ?_ ?_
    · refine ResRel.bind (ResRel.refl (r := fun a b => a = b) (fun _ => rfl) _) fun a b hab => ?_
      subst hab
      refine ResRel.bind (ResRel.refl (r := fun a b => a = b) (fun _ => rfl) _) fun c d hcd => ?_
      subst hcd
      exact ⟨⟨h.1, rfl⟩, rfl⟩
    · exact ⟨h, rfl⟩
  · exact ⟨h, rfl⟩

variable [Scalar F]

theorem Preserves.onSegment (hR : Preserves R) {a a' b b' p p' : Vec2 F} {i : Bool} (ha : R a a') (hb : R b b') (hp : R p p') :
    Utils.isOnLineSegment a b p i = Utils.isOnLineSegment a' b' p' i := by
  unfold Utils.isOnLineSegment
  rw [hR.dist ha hb, hR.dist ha hp, hR.dist hp hb]

theorem Preserves.map_dist (hR : Preserves R) {x x' : Vec2 F} (hx : R x x') {ps ps' : List (Vec2 F)} (h : List.Forall₂ R ps ps') :
    (ps.map fun p => distance x p) = ps'.map fun p => distance x' p := by
  induction h with
  | nil => rfl
  | cons h _ ih => simp only [List.map_cons, ih, hR.dist hx h]

theorem Preserves.findClosest (hR : Preserves R) {x x' : Vec2 F} (hx : R x x') {ps ps' : List (Vec2 F)} (h : List.Forall₂ R ps ps') :
    Utils.findClosestTo x ps = Utils.findClosestTo x' ps' := by
  unfold Utils.findClosestTo
  simp only [hR.map_dist hx h]

theorem Preserves.isUnique (hR : Preserves R) {x x' : Vec2 F} (hx : R x x') (i : Nat) {ps ps' : List (Vec2 F)}
    (h : List.Forall₂ R ps ps') : ∀ j, Utils.isUnique i x ps j = Utils.isUnique i x' ps' j := by
  induction h with
  | nil => exact fun _ => rfl
  | cons h _ ih =>
    intro j
    have hc : Utils.closeTo x _ = Utils.closeTo x' _ := congrArg (· ≤. Scalar.epsilon) (hR.dist hx h)
    unfold Utils.isUnique
    rw [hc, ih]

theorem Preserves.uniqueLoop (hR : Preserves R) {qs qs' : List (Vec2 F)} (hq : List.Forall₂ R qs qs') {ps ps' : List (Vec2 F)}
    (h : List.Forall₂ R ps ps') : ∀ i, List.Forall₂ R (Utils.uniqueLoop qs ps i) (Utils.uniqueLoop qs' ps' i) := by
  induction h with
  | nil => exact fun _ => .nil
  | cons h _ ih =>
    intro i
    simp only [Utils.uniqueLoop, hR.isUnique h i hq]
    split
    · exact .cons h (ih _)
    · exact ih _

omit [Scalar F] in
theorem gather_rel {g g' : PlanarGraph F T U} (h : GraphRel R g g') : List.Forall₂ R g.gatherNodePositions g'.gatherNodePositions := by
  obtain ⟨h, _⟩ := h
  unfold gatherNodePositions
  revert h
  generalize g.nodes = xs
  generalize g'.nodes = ys
  intro h
  induction h with
  | nil => exact .nil
  | cons h _ ih => exact .cons h.1 ih

theorem splitLoop_rel (hR : Preserves R) {ns ns' : List (Node F T)} (h : List.Forall₂ (NodeRel R) ns ns') (id : Nat)
    (es : List (Edge U)) : ∀ i, splitLoop ns id es i = splitLoop ns' id es i := by
  induction es with
  | nil => exact fun _ => rfl
  | cons e es ih =>
    intro i
    refine ResRel.eq ?_
    unfold splitLoop
    refine ResRel.bind (index_rel h _) fun a a' ha => ?_
    refine ResRel.bind (index_rel h _) fun b b' hb => ?_
    refine ResRel.bind (index_rel h _) fun p p' hp => ?_
    simp only [hR.onSegment ha.1 hb.1 hp.1, ih]
    exact ResRel.refl (fun _ => rfl) _

theorem splitEdgesAtNode_rel (hR : Preserves R) {g g' : PlanarGraph F T U} (h : GraphRel R g g') (id : Nat) :
    ResRel (OutRel R) (g.splitEdgesAtNode id) (g'.splitEdgesAtNode id) := by
  have hv := forall₂_getElem? h.1 id
  unfold splitEdgesAtNode
  revert hv
  cases g.nodes[id]? <;> cases g'.nodes[id]? <;> intro hv
  · exact ⟨h, rfl⟩
  · exact hv.elim
  · exact hv.elim
  · simp only [splitLoop_rel hR h.1, h.2]
    refine ResRel.bind (ResRel.refl (r := fun a b => a = b) (fun _ => rfl) _) fun a b hab => ?_
    subst hab
    exact ⟨⟨h.1, rfl⟩, rfl⟩

theorem addNode_rel (hR : Preserves R) {g g' : PlanarGraph F T U} (h : GraphRel R g g') {x x' : Vec2 F} (hx : R x x') (t : T) :
    ResRel (OutRel R) (g.addNode x t) (g'.addNode x' t) := by
  unfold addNode
  simp only [hR.findClosest hx (gather_rel h)]
  split
  · exact ⟨h, rfl⟩
  · have hg : GraphRel R (⟨g.nodes ++ [⟨x, t, defaultLabel⟩], g.edges⟩ : PlanarGraph F T U)
        ⟨g'.nodes ++ [⟨x', t, defaultLabel⟩], g'.edges⟩ :=
      ⟨List.rel_append h.1 (.cons ⟨hx, rfl, rfl⟩ .nil), h.2⟩
    have hn : nodeCount (⟨g.nodes ++ [⟨x, t, defaultLabel⟩], g.edges⟩ : PlanarGraph F T U) =
        nodeCount (⟨g'.nodes ++ [⟨x', t, defaultLabel⟩], g'.edges⟩ : PlanarGraph F T U) := hg.length
    rw [hn]
    refine ResRel.bind (splitEdgesAtNode_rel hR hg _) fun a b hab => ?_
    obtain ⟨a, r⟩ := a
    obtain ⟨b, q⟩ := b
    obtain ⟨h1, h2⟩ := hab
    exact ⟨h1, by simp only [nodeCount, GraphRel.length h1]; exact congrArg _ h2⟩

theorem intersectionLoop_rel (hR : Preserves R) {g g' : PlanarGraph F T U} (h : GraphRel R g g') (id : Nat) (es : List (Edge U)) :
    ∀ i, ResRel (List.Forall₂ R) (g.intersectionLoop id es i) (g'.intersectionLoop id es i) := by
  induction es with
  | nil => exact fun _ => List.Forall₂.nil
  | cons e es ih =>
    intro i
    unfold intersectionLoop
    split
    · refine ResRel.bind (index_rel h.1 _) fun a a' ha => ?_
      refine ResRel.bind (index_rel h.1 _) fun b b' hb => ?_
      rw [h.2]
      refine ResRel.bind (ResRel.refl (r := fun a b => a = b) (fun _ => rfl) _) fun t t' ht => ?_
      subst ht
      refine ResRel.bind (index_rel h.1 _) fun c c' hc => ?_
      refine ResRel.bind (index_rel h.1 _) fun d d' hd => ?_
      refine ResRel.bind (ih _) fun xs xs' hxs => ?_
      have := hR.cross ha.1 hb.1 hc.1 hd.1
      revert this
      cases Utils.calculateLineSegmentIntersection a.position b.position c.position d.position <;>
      cases Utils.calculateLineSegmentIntersection a'.position b'.position c'.position d'.position <;> intro this
      · exact hxs
      · exact this.elim
      · exact this.elim
      · exact List.Forall₂.cons this hxs
    · exact ih _

theorem splitAtIntersection_rel [Inhabited T] (hR : Preserves R) {g g' : PlanarGraph F T U} (h : GraphRel R g g') {x x' : Vec2 F}
    (hx : R x x') (cn ce : List Nat) : ResRel (OutRel R) (g.splitAtIntersection cn ce x) (g'.splitAtIntersection cn ce x') := by
  unfold splitAtIntersection
  simp only [hR.findClosest hx (gather_rel h)]
  split
  · refine ResRel.bind (splitEdgesAtNode_rel hR h _) fun a b hab => ?_
    obtain ⟨a, r⟩ := a
    obtain ⟨b, q⟩ := b
    obtain ⟨h1, rfl⟩ := hab
    exact ⟨h1, rfl⟩
  · refine ResRel.bind (addNode_rel hR h hx _) fun a b hab => ?_
    obtain ⟨a, r⟩ := a
    obtain ⟨b, q⟩ := b
    obtain ⟨h1, rfl⟩ := hab
    exact ⟨h1, rfl⟩

theorem splitAtIntersections_rel [Inhabited T] (hR : Preserves R) {xs xs' : List (Vec2 F)} (hx : List.Forall₂ R xs xs') :
    ∀ {g g' : PlanarGraph F T U}, GraphRel R g g' → ∀ cn ce : List Nat,
    ResRel (OutRel R) (splitAtIntersections xs g cn ce) (splitAtIntersections xs' g' cn ce) := by
  induction hx with
  | nil => exact fun h _ _ => ⟨h, rfl⟩
  | cons hx _ ih =>
    intro g g' h cn ce
    simp only [splitAtIntersections]
    refine ResRel.bind (splitAtIntersection_rel hR h hx _ _) fun a b hab => ?_
    obtain ⟨a, r⟩ := a
    obtain ⟨b, q⟩ := b
    obtain ⟨h1, rfl⟩ := hab
    exact ih h1 _ _

theorem addEdge_rel [Inhabited T] (hR : Preserves R) {g g' : PlanarGraph F T U} (h : GraphRel R g g') (s d : Nat) (u : U) :
    ResRel (OutRel R) (g.addEdge s d u) (g'.addEdge s d u) := by
  have hs := getVertex_rel h s
  have hd := getVertex_rel h d
  unfold addEdge
  simp only [hasEdgeBetweenNodes, h.2]
  refine ResRel.ite ?_ ?_
  · revert hs hd
    cases g.getVertex s <;> cases g'.getVertex s <;> intro hs hd
    · exact ⟨h, rfl⟩
    · cases hs
    · cases hs
    · revert hd
      cases g.getVertex d <;> cases g'.getVertex d <;> intro hd
      · exact ⟨h, rfl⟩
      · cases hd
      · cases hd
      · have hg : GraphRel R (⟨g.nodes, g'.edges ++ [⟨s, d, u, defaultLabel⟩]⟩ : PlanarGraph F T U)
            ⟨g'.nodes, g'.edges ++ [⟨s, d, u, defaultLabel⟩]⟩ := ⟨h.1, rfl⟩
        refine ResRel.bind (r := OutRel R) ?_ fun a b hab => ?_
        · unfold splitEdgesAlongEdge
          refine ResRel.bind (intersectionLoop_rel hR hg _ _ _) fun xs xs' hxs => ?_
          exact splitAtIntersections_rel hR (hR.uniqueLoop hxs hxs _) hg _ _
        · obtain ⟨a, r⟩ := a
          obtain ⟨b, q⟩ := b
          obtain ⟨h1, rfl⟩ := hab
          have he : a.edges = b.edges := h1.2
          exact ⟨h1, by simp only [edgeCount, he]⟩
  · exact ⟨h, rfl⟩

theorem step_rel [Inhabited T] (hR : Preserves R) (p : Profile) {g g' : PlanarGraph F T U} (h : GraphRel R g g') {o o' : Op F T U}
    (ho : OpRel R o o') : ResRel (GraphRel R) (g.step p o) (g'.step p o') := by
  rcases o with ⟨x, t⟩ | ⟨s, d, u⟩ | i | i <;> rcases o' with ⟨x', t'⟩ | ⟨s', d', u'⟩ | i' | i' <;>
    first | exact ho.elim | skip
  · obtain ⟨hx, rfl⟩ := ho
    exact ResRel.bind (addNode_rel hR h hx t) fun a b hab => hab.1
  · obtain ⟨rfl, rfl, rfl⟩ := ho
    exact ResRel.bind (addEdge_rel hR h s d u) fun a b hab => hab.1
  · cases ho
    exact ResRel.bind (removeEdge_rel h i) fun a b hab => hab.1
  · cases ho
    exact ResRel.bind (removeNode_rel h i) fun a b hab => hab.1

theorem run_rel [Inhabited T] (hR : Preserves R) (p : Profile) {os os' : List (Op F T U)} (ho : List.Forall₂ (OpRel R) os os') :
    ∀ {g g' : PlanarGraph F T U}, GraphRel R g g' → ResRel (GraphRel R) (run p g os) (run p g' os') := by
  induction ho with
  | nil => exact fun h => h
  | cons ho _ ih =>
    intro g g' h
    exact ResRel.bind (step_rel hR p h ho) fun a b hab => ih hab

/-- `run_rel` for the calls with all positions moved by a map, without the auxiliary relations -/
theorem run_move [Inhabited T] (hR : Preserves R) (p : Profile) (f : Vec2 F → Vec2 F) (ops : List (Op F T U))
    (hf : ∀ x t, Op.addNode x t ∈ ops → R x (f x)) :
    (∀ q, run p new ops = .error q ↔ run p new (ops.map (moveOp f)) = .error q) ∧
    ∀ g, run p new ops = .ok g → ∃ g', run p new (ops.map (moveOp f)) = .ok g' ∧ g'.edges = g.edges ∧
      g'.nodes.length = g.nodes.length ∧ ∀ (i : Nat) (a : Node F T), g.nodes[i]? = some a → ∃ a' : Node F T, g'.nodes[i]? = some a' ∧ a'.data = a.data ∧
        a'.label = a.label ∧ R a.position a'.position := by
  have ho : List.Forall₂ (OpRel R) ops (ops.map (moveOp f)) := by
    induction ops with
    | nil => exact .nil
    | cons o os ih =>
      refine .cons ?_ (ih fun x t h => hf x t (List.mem_cons_of_mem _ h))
      rcases o with ⟨x, t⟩ | ⟨s, d, u⟩ | i | i
      · exact ⟨hf x t (List.mem_cons_self ..), rfl⟩
      · exact ⟨rfl, rfl, rfl⟩
      · exact rfl
      · exact rfl
  have h := run_rel hR p ho (g := new) (g' := new) ⟨.nil, rfl⟩
  revert h
  cases run p new ops <;> cases run p new (ops.map (moveOp f)) <;> intro h
  · cases h
    exact ⟨fun q => Iff.rfl, fun g hg => by cases hg⟩
  · exact h.elim
  · exact h.elim
  · rename_i g g'
    have h : GraphRel R g g' := h
    refine ⟨fun q => ⟨fun h => (by cases h), fun h => (by cases h)⟩, ?_⟩
    rintro _ ⟨⟩
    refine ⟨g', rfl, h.2.symm, h.length.symm, fun i a ha => ?_⟩
    have := forall₂_getElem? h.1 i
    rw [ha] at this
    cases hb : g'.nodes[i]? with
    | none => rw [hb] at this; exact this.elim
    | some b =>
      rw [hb] at this
      exact ⟨b, rfl, this.2.1.symm, this.2.2.symm, this.1⟩

end

end Kami.Graph
