import Verif.Graph.Imperative
import Verif.Graph.Histories
/-!
# What a panic leaves behind

The statement-by-statement model agrees with the functional one whenever a call returns, and panics when it panics.  After a
panic that the caller catches, the graph is still valid.
-/

set_option autoImplicit false

namespace Kami.Graph

open Kami
open scoped Kami
open PlanarGraph

variable {F T U : Type}

/-! ## Agreement with the functional model -/

/-- the call `m` on a mutable graph does what the function `f` says: same panic, or same result and same new graph -/
def Mut.Agrees {σ α : Type} (m : Mut σ α) (f : σ → Res (σ × α)) : Prop :=
  ∀ g, (∀ g' r, f g = .ok (g', r) → m g = (.ok r, g')) ∧ (∀ e, f g = .error e → (m g).1 = .error e)

theorem Mut.bind_def {σ α β : Type} (x : Mut σ α) (f : α → Mut σ β) (s : σ) : (x >>= f) s =
    match x s with
    | (.ok a, s') => f a s'
    | (.error e, s') => (.error e, s') := rfl

theorem Mut.bind_ok {σ α β : Type} {x : Mut σ α} {f : α → Mut σ β} {s s' : σ} {a : α} (h : x s = (.ok a, s')) :
    (x >>= f) s = f a s' := by rw [Mut.bind_def, h]

theorem Mut.bind_err {σ α β : Type} {x : Mut σ α} {f : α → Mut σ β} {s : σ} {e : Panic} (h : (x s).1 = .error e) :
    (x >>= f) s = (.error e, (x s).2) := by
  rw [Mut.bind_def]
  generalize x s = y at h
  obtain ⟨y1, y2⟩ := y
  simp only at h
  subst h
  rfl

theorem Mut.get_bind {σ β : Type} (f : σ → Mut σ β) (s : σ) : (Mut.get >>= f) s = f s s := rfl

theorem Mut.put_bind {σ β : Type} (t : σ) (f : Unit → Mut σ β) (s : σ) : (Mut.put t >>= f) s = f () t := rfl

theorem Mut.eval_ok {σ α β : Type} (a : α) (f : α → Mut σ β) (s : σ) : (Mut.eval (.ok a) >>= f) s = f a s := rfl

theorem Mut.eval_err {σ α β : Type} (e : Panic) (f : α → Mut σ β) (s : σ) :
    (Mut.eval (.error e) >>= f) s = (.error e, s) := rfl

theorem Mut.pure_def {σ α : Type} (a : α) (s : σ) : (pure a : Mut σ α) s = (.ok a, s) := rfl

theorem res_ok {α β : Type} (a : α) (f : α → Res β) : ((Except.ok a : Res α) >>= f) = f a := rfl

theorem res_err {α β : Type} (e : Panic) (f : α → Res β) : ((Except.error e : Res α) >>= f) = .error e := rfl

section
variable [Scalar F]

/-- the in-place loop does what the functional loop says, and a panic in it only affects edge slots -/
theorem splitLoopM_eq (nodes : List (Node F T)) (id : Nat) (es : List (Edge U)) : ∀ (pre : List (Edge U)) ch ad,
    (∀ out, splitLoop nodes id es pre.length = .ok out →
      splitLoopM id es.length pre.length ch ad (⟨nodes, pre ++ es⟩ : PlanarGraph F T U) =
        (.ok (ch ++ out.changed, ad ++ out.additional), ⟨nodes, pre ++ out.edges⟩)) ∧
    (∀ e, splitLoop nodes id es pre.length = .error e →
      (splitLoopM id es.length pre.length ch ad (⟨nodes, pre ++ es⟩ : PlanarGraph F T U)).1 = .error e) ∧
    (splitLoopM id es.length pre.length ch ad (⟨nodes, pre ++ es⟩ : PlanarGraph F T U)).2.nodes = nodes ∧
    (splitLoopM id es.length pre.length ch ad (⟨nodes, pre ++ es⟩ : PlanarGraph F T U)).2.edges.length =
      pre.length + es.length := by
  induction es with
  | nil =>
    intro pre ch ad
    refine ⟨?_, ?_, ?_, ?_⟩
    · intro out h; cases h; simp [splitLoopM, Mut.pure_def]
    · intro e h; cases h
    · rfl
    · simp [splitLoopM, Mut.pure_def]
  | cons x es ih =>
    intro pre ch ad
    have hx : index (pre ++ x :: es) pre.length = .ok x := by rw [index_eq_ok]; simp
    have hset : ∀ y : Edge U, (pre ++ x :: es).set pre.length y = (pre ++ [y]) ++ es := by intro y; simp
    simp only [splitLoop, List.length_cons, splitLoopM, Mut.get_bind, hx, Mut.eval_ok]
    cases ha : index nodes x.src with
    | error e => simp [Mut.eval_err, res_err]
    | ok a =>
    cases hb : index nodes x.dst with
    | error e => simp [Mut.eval_ok, Mut.eval_err, res_ok, res_err]
    | ok b =>
    cases hp : index nodes id with
    | error e => simp [Mut.eval_ok, Mut.eval_err, res_ok, res_err]
    | ok p =>
    simp only [Mut.eval_ok, res_ok]
    cases hon : Utils.isOnLineSegment a.position b.position p.position false with
    | true =>
      simp only [if_true, Mut.put_bind, hset]
      have := ih (pre ++ [⟨x.src, id, x.data, defaultLabel⟩]) (ch ++ [pre.length]) (ad ++ [⟨x.dst, id, x.data, defaultLabel⟩])
      rw [List.length_append, List.length_singleton] at this
      obtain ⟨h1, h2, h3, h4⟩ := this
      refine ⟨?_, ?_, h3, by rw [h4]; omega⟩
      · intro out h
        cases hr : splitLoop nodes id es (pre.length + 1) with
        | error e => rw [hr] at h; cases h
        | ok rest =>
          rw [hr] at h
          simp only [res_ok, pure, Except.pure, Except.ok.injEq] at h
          subst h
          rw [h1 rest hr]
          simp
      · intro e h
        cases hr : splitLoop nodes id es (pre.length + 1) with
        | error e' => rw [hr] at h; cases h; exact h2 _ hr
        | ok rest => rw [hr] at h; cases h
    | false =>
      have hpre : pre ++ x :: es = (pre ++ [x]) ++ es := by simp
      have := ih (pre ++ [x]) ch ad
      rw [List.length_append, List.length_singleton] at this
      obtain ⟨h1, h2, h3, h4⟩ := this
      simp only [Bool.false_eq_true, if_false, hpre]
      refine ⟨?_, ?_, h3, by rw [h4]; omega⟩
      · intro out h
        cases hr : splitLoop nodes id es (pre.length + 1) with
        | error e => rw [hr] at h; cases h
        | ok rest =>
          rw [hr] at h
          simp only [res_ok, pure, Except.pure, Except.ok.injEq] at h
          subst h
          rw [h1 rest hr]
          simp
      · intro e h
        cases hr : splitLoop nodes id es (pre.length + 1) with
        | error e' => rw [hr] at h; cases h; exact h2 _ hr
        | ok rest => rw [hr] at h; cases h

omit [Scalar F] in
theorem pushLoopM_eq (xs : List (Edge U)) : ∀ ch (g : PlanarGraph F T U),
    pushLoopM xs ch g = (.ok (pushEdges xs g.edges ch).2, ⟨g.nodes, (pushEdges xs g.edges ch).1⟩) := by
  induction xs with
  | nil => intro ch g; rfl
  | cons x xs ih =>
    intro ch g
    simp only [pushLoopM, Mut.get_bind, Mut.put_bind]
    rw [ih]
    rfl

theorem splitM_eq (id : Nat) (g : PlanarGraph F T U) :
    ((∀ g' r, g.splitEdgesAtNode id = .ok (g', r) → splitEdgesAtNodeM id g = (.ok r, g')) ∧
      ∀ e, g.splitEdgesAtNode id = .error e → (splitEdgesAtNodeM id g).1 = .error e) ∧
    (splitEdgesAtNodeM id g).2.nodes = g.nodes ∧ g.edges.length ≤ (splitEdgesAtNodeM id g).2.edges.length := by
  unfold splitEdgesAtNode splitEdgesAtNodeM
  simp only [Mut.get_bind]
  cases hn : g.nodes[id]? with
  | none =>
    simp only
    refine ⟨⟨?_, ?_⟩, rfl, Nat.le_refl _⟩
    · intro g' r h; cases h; rfl
    · intro e h; cases h
  | some n =>
    simp only
    obtain ⟨h1, h2, h3, h4⟩ := splitLoopM_eq g.nodes id g.edges [] [] []
    simp only [List.length_nil, List.nil_append, Nat.zero_add] at h1 h2 h3 h4
    have hg : (⟨g.nodes, g.edges⟩ : PlanarGraph F T U) = g := rfl
    rw [hg] at h1 h2 h3 h4
    cases hl : splitLoop g.nodes id g.edges 0 with
    | error e =>
      have h5 := h2 e hl
      rw [Mut.bind_err h5]
      refine ⟨⟨?_, ?_⟩, h3, h4.symm.le⟩
      · intro g' r h; cases h
      · intro e' h; cases h; rfl
    | ok out =>
      have h5 := h1 out hl
      rw [Mut.bind_ok h5]
      simp only [pushLoopM_eq]
      refine ⟨⟨?_, ?_⟩, trivial, ?_⟩
      · intro g' r h
        simp only [bind, Except.bind, pure, Except.pure, Except.ok.injEq, Prod.mk.injEq] at h
        rw [← h.1, ← h.2]
      · intro e h; cases h
      · simp only [pushEdges_eq, List.length_append]
        rw [h5] at h4
        simp only at h4
        omega

theorem addNodeM_eq (pos : Vec2 F) (data : T) (g : PlanarGraph F T U) :
    ((∀ g' r, g.addNode pos data = .ok (g', r) → addNodeM pos data g = (.ok r, g')) ∧
      ∀ e, g.addNode pos data = .error e → (addNodeM pos data g).1 = .error e) ∧
    (∃ l, (addNodeM pos data g).2.nodes = g.nodes ++ l) ∧ g.edges.length ≤ (addNodeM pos data g).2.edges.length := by
  unfold addNode addNodeM
  simp only [Mut.get_bind]
  split
  · refine ⟨⟨?_, ?_⟩, ⟨[], by simp [Mut.pure_def]⟩, Nat.le_refl _⟩
    · intro g' r h; cases h; rfl
    · intro e h; cases h
  · simp only [Mut.put_bind, Mut.get_bind]
    set g1 : PlanarGraph F T U := ⟨g.nodes ++ [⟨pos, data, defaultLabel⟩], g.edges⟩ with hg1
    obtain ⟨⟨h1, h2⟩, h3, h4⟩ := splitM_eq (g1.nodeCount - 1) g1
    cases hs : g1.splitEdgesAtNode (g1.nodeCount - 1) with
    | error e =>
      have h5 := h2 e hs
      rw [Mut.bind_err h5]
      refine ⟨⟨?_, ?_⟩, ⟨_, h3⟩, h4⟩
      · intro g' r h; cases h
      · intro e' h; cases h; rfl
    | ok r =>
      have h5 := h1 r.1 r.2 hs
      rw [Mut.bind_ok h5]
      rw [h5] at h3 h4
      simp only [Mut.get_bind, Mut.pure_def]
      refine ⟨⟨?_, ?_⟩, ⟨_, h3⟩, h4⟩
      · intro g' r' h
        simp only [bind, Except.bind, pure, Except.pure, Except.ok.injEq, Prod.mk.injEq] at h
        rw [← h.1, ← h.2]
      · intro e h; cases h

theorem splitAtIntersectionsM_eq [Inhabited T] (xs : List (Vec2 F)) : ∀ cn ce (g : PlanarGraph F T U),
    ((∀ g' r, splitAtIntersections xs g cn ce = .ok (g', r) → splitAtIntersectionsM xs cn ce g = (.ok r, g')) ∧
      ∀ e, splitAtIntersections xs g cn ce = .error e → (splitAtIntersectionsM xs cn ce g).1 = .error e) ∧
    (∃ l, (splitAtIntersectionsM xs cn ce g).2.nodes = g.nodes ++ l) ∧
    g.edges.length ≤ (splitAtIntersectionsM xs cn ce g).2.edges.length := by
  induction xs with
  | nil =>
    intro cn ce g
    refine ⟨⟨?_, ?_⟩, ⟨[], by simp [splitAtIntersectionsM, Mut.pure_def]⟩, Nat.le_refl _⟩
    · intro g' r h; cases h; rfl
    · intro e h; cases h
  | cons x xs ih =>
    intro cn ce g
    simp only [splitAtIntersections, splitAtIntersection, splitAtIntersectionsM, Mut.get_bind]
    split
    · obtain ⟨⟨h1, h2⟩, h3, h4⟩ := splitM_eq (Utils.findClosestTo x g.gatherNodePositions).1 g
      cases hs : g.splitEdgesAtNode (Utils.findClosestTo x g.gatherNodePositions).1 with
      | error e =>
        have h5 := h2 e hs
        rw [Mut.bind_err h5]
        refine ⟨⟨?_, ?_⟩, ⟨[], by rw [h3]; simp⟩, h4⟩
        · intro g' r h; cases h
        · intro e' h; cases h; rfl
      | ok r =>
        have h5 := h1 r.1 r.2 hs
        rw [Mut.bind_ok h5]
        rw [h5] at h3 h4
        obtain ⟨h6, ⟨l, h7⟩, h8⟩ := ih cn (ce ++ r.2) r.1
        exact ⟨h6, ⟨l, by rw [h7, h3]⟩, h4.trans h8⟩
    · obtain ⟨⟨h1, h2⟩, ⟨l, h3⟩, h4⟩ := addNodeM_eq x default g
      cases hs : g.addNode x default with
      | error e =>
        have h5 := h2 e hs
        rw [Mut.bind_err h5]
        refine ⟨⟨?_, ?_⟩, ⟨l, h3⟩, h4⟩
        · intro g' r h; cases h
        · intro e' h; cases h; rfl
      | ok r =>
        have h5 := h1 r.1 r.2 hs
        rw [Mut.bind_ok h5]
        rw [h5] at h3 h4
        obtain ⟨h6, ⟨l', h7⟩, h8⟩ := ih (cn ++ [r.2.1]) (ce ++ r.2.2) r.1
        exact ⟨h6, ⟨l ++ l', by rw [h7, h3]; simp⟩, h4.trans h8⟩

theorem addEdgeM_eq [Inhabited T] (s d : Nat) (x : U) (g : PlanarGraph F T U) :
    ((∀ g' r, g.addEdge s d x = .ok (g', r) → addEdgeM s d x g = (.ok r, g')) ∧
      ∀ e, g.addEdge s d x = .error e → (addEdgeM s d x g).1 = .error e) ∧
    (∃ l, (addEdgeM s d x g).2.nodes = g.nodes ++ l) ∧ g.edges.length ≤ (addEdgeM s d x g).2.edges.length := by
  have triv : ∀ r : Except PlanarGraphError (List Nat × List Nat),
      ((∀ g' r', (Except.ok (g, r) : Res (PlanarGraph F T U × _)) = .ok (g', r') →
          (pure r : Mut (PlanarGraph F T U) _) g = (.ok r', g')) ∧
        ∀ e, (Except.ok (g, r) : Res (PlanarGraph F T U × _)) = .error e →
          ((pure r : Mut (PlanarGraph F T U) _) g).1 = .error e) ∧
      (∃ l, ((pure r : Mut (PlanarGraph F T U) _) g).2.nodes = g.nodes ++ l) ∧
      g.edges.length ≤ ((pure r : Mut (PlanarGraph F T U) _) g).2.edges.length := by
    intro r
    refine ⟨⟨?_, ?_⟩, ⟨[], by simp [Mut.pure_def]⟩, Nat.le_refl _⟩
    · intro g' r h; cases h; rfl
    · intro e h; cases h
  unfold addEdge addEdgeM
  simp only [Mut.get_bind]
  split
  · cases hs : g.getVertex s with
    | none => exact triv _
    | some a =>
    cases hd : g.getVertex d with
    | none => exact triv _
    | some b =>
      simp only [Mut.put_bind, Mut.get_bind, splitEdgesAlongEdge, splitEdgesAlongEdgeM]
      set g1 : PlanarGraph F T U := ⟨g.nodes, g.edges ++ [⟨s, d, x, defaultLabel⟩]⟩ with hg1
      have hlen : g.edges.length ≤ g1.edges.length := by rw [hg1]; simp
      cases hi : g1.intersectionLoop (g1.edgeCount - 1) g1.edges 0 with
      | error e =>
        have hm : (do let g ← (Mut.get : Mut (PlanarGraph F T U) _)
                      let intersections ← Mut.eval (g.intersectionLoop (g1.edgeCount - 1) g.edges 0)
                      splitAtIntersectionsM (Utils.uniquePointsAmong intersections) [] []) g1 = (.error e, g1) := by
          rw [Mut.get_bind, hi, Mut.eval_err]
        rw [Mut.bind_err (by rw [hm]), hm]
        refine ⟨⟨?_, ?_⟩, ⟨[], ?_⟩, hlen⟩
        · intro g' r h; cases h
        · intro e' h; cases h; rfl
        · simp only [List.append_nil]; rfl
      | ok pts =>
        obtain ⟨⟨h1, h2⟩, ⟨l, h3⟩, h4⟩ := splitAtIntersectionsM_eq (Utils.uniquePointsAmong pts) [] [] g1
        have hm : ∀ f : List Nat × List Nat → Mut (PlanarGraph F T U) (Except PlanarGraphError (List Nat × List Nat)),
            ((do let g ← (Mut.get : Mut (PlanarGraph F T U) _)
                 let intersections ← Mut.eval (g.intersectionLoop (g1.edgeCount - 1) g.edges 0)
                 splitAtIntersectionsM (Utils.uniquePointsAmong intersections) [] []) >>= f) g1 =
              (splitAtIntersectionsM (Utils.uniquePointsAmong pts) [] [] >>= f) g1 := by
          intro f
          have : (do let g ← (Mut.get : Mut (PlanarGraph F T U) _)
                     let intersections ← Mut.eval (g.intersectionLoop (g1.edgeCount - 1) g.edges 0)
                     splitAtIntersectionsM (Utils.uniquePointsAmong intersections) [] []) g1 =
              splitAtIntersectionsM (Utils.uniquePointsAmong pts) [] [] g1 := by rw [Mut.get_bind, hi, Mut.eval_ok]
          rw [Mut.bind_def, this, Mut.bind_def]
        rw [hm]
        simp only [res_ok]
        cases ht : splitAtIntersections (Utils.uniquePointsAmong pts) g1 [] [] with
        | error e =>
          have h5 := h2 e ht
          rw [Mut.bind_err h5]
          refine ⟨⟨?_, ?_⟩, ⟨l, h3⟩, hlen.trans h4⟩
          · intro g' r h; cases h
          · intro e' h; cases h; rfl
        | ok r =>
          have h5 := h1 r.1 r.2 ht
          rw [Mut.bind_ok h5]
          rw [h5] at h3 h4
          simp only [res_ok, Mut.get_bind]
          cases hc : r.2.2.isEmpty with
          | true =>
            simp only [if_true]
            refine ⟨⟨?_, ?_⟩, ⟨l, h3⟩, hlen.trans h4⟩
            · intro g' r' h; cases h; rfl
            · intro e h; cases h
          | false =>
            simp only [Bool.false_eq_true, if_false]
            refine ⟨⟨?_, ?_⟩, ⟨l, h3⟩, hlen.trans h4⟩
            · intro g' r' h; cases h; rfl
            · intro e h; cases h
  · exact triv _

end

/-! ## Removal -/

theorem removeNodeM_eq (p : Profile) (id : Nat) (g : PlanarGraph F T U) :
    (∀ g' r, g.removeNode p id = .ok (g', r) → removeNodeM p id g = (.ok r, g')) ∧
    ∀ e, g.removeNode p id = .error e → removeNodeM p id g = (.error e, g) := by
  unfold removeNode removeNodeM
  simp only [Mut.get_bind]
  cases hn : g.nodes[id]? with
  | none =>
    constructor
    · intro g' r h; cases h; rfl
    · intro e h; cases h
  | some n =>
    simp only
    cases h1 : remapLoop p (id :: (g.removeEdgesIncidentToNode id).1) g.nodes.length 0 with
    | error e =>
      constructor
      · intro g' r h; cases h
      · intro e h; cases h; rfl
    | ok remapped =>
    cases h2 : minUnwrap (id :: (g.removeEdgesIncidentToNode id).1) with
    | error e =>
      constructor
      · intro g' r h; cases h
      · intro e h; cases h; rfl
    | ok m =>
    cases h3 : minUnwrap (g.removeEdgesIncidentToNode id).2 with
    | error e =>
      constructor
      · intro g' r h; cases h
      · intro e h; cases h; rfl
    | ok me =>
      constructor
      · intro g' r h; cases h; rfl
      · intro e h; cases h

theorem removeEdgeM_eq (p : Profile) (id : Nat) (g : PlanarGraph F T U) :
    (∀ g' r, g.removeEdge p id = .ok (g', r) → removeEdgeM p id g = (.ok r, g')) ∧
    ∀ e, g.removeEdge p id = .error e → (removeEdgeM p id g).1 = .error e ∧
      ((removeEdgeM p id g).2 = g ∨ (id + 1 = g.edges.length ∧
        (∃ edge, g.edges[id]? = some edge ∧ g.numberOfEdgesIncidentTo edge.src ≠ some 1 ∧
          g.numberOfEdgesIncidentTo edge.dst ≠ some 1) ∧
        (removeEdgeM p id g).2 = ⟨g.nodes, g.edges.eraseIdx id⟩)) := by
  unfold removeEdge removeEdgeM
  simp only [Mut.get_bind]
  cases hn : g.edges[id]? with
  | none =>
    constructor
    · intro g' r h; cases h; rfl
    · intro e h; cases h
  | some edge =>
    simp only
    cases h1 : g.numberOfEdgesIncidentTo edge.src with
    | none =>
      constructor
      · intro g' r h; cases h
      · intro e h; cases h; exact ⟨rfl, Or.inl rfl⟩
    | some na =>
      simp only [unwrap, Mut.eval_ok, res_ok]
      by_cases hna : na = 1
      · simp only [hna, if_true]
        obtain ⟨q1, q2⟩ := removeNodeM_eq p edge.src g
        exact ⟨q1, fun e h => by rw [show removeNodeM p edge.src g = _ from q2 e h]; exact ⟨rfl, Or.inl rfl⟩⟩
      · simp only [hna, if_false]
        cases h2 : g.numberOfEdgesIncidentTo edge.dst with
        | none =>
          constructor
          · intro g' r h; cases h
          · intro e h; cases h; exact ⟨rfl, Or.inl rfl⟩
        | some nb =>
          simp only [Mut.eval_ok, res_ok]
          by_cases hnb : nb = 1
          · simp only [hnb, if_true]
            obtain ⟨q1, q2⟩ := removeNodeM_eq p edge.dst g
            exact ⟨q1, fun e h => by rw [show removeNodeM p edge.dst g = _ from q2 e h]; exact ⟨rfl, Or.inl rfl⟩⟩
          · simp only [hnb, if_false]
            by_cases hc : g.edgeCount > 1
            · simp only [hc, if_true]
              cases hl : g.edges.getLast? with
              | none =>
                constructor
                · intro g' r h; cases h
                · intro e h; cases h; exact ⟨rfl, Or.inl rfl⟩
              | some last =>
                simp only [Mut.put_bind, Mut.get_bind, Mut.eval_ok, res_ok]
                cases ha : assign g.edges.dropLast id last with
                | error e =>
                  constructor
                  · intro g' r h; cases h
                  · intro e' h
                    cases h
                    refine ⟨rfl, Or.inr ?_⟩
                    have hlt := (List.getElem?_eq_some_iff.1 hn).1
                    have hge : ¬ id < g.edges.dropLast.length := by
                      intro hlt'
                      unfold assign at ha
                      rw [if_pos hlt'] at ha
                      cases ha
                    rw [List.length_dropLast] at hge
                    have hid : id + 1 = g.edges.length := by omega
                    refine ⟨hid, ⟨edge, rfl, ?_, ?_⟩, ?_⟩
                    · rw [h1]; simpa using hna
                    · rw [h2]; simpa using hnb
                    · have : g.edges.eraseIdx id = g.edges.dropLast := by
                        have : id = g.edges.length - 1 := by omega
                        rw [this, List.eraseIdx_length_sub_one]
                      rw [this]
                      rfl
                | ok edges =>
                  constructor
                  · intro g' r h; cases h; rfl
                  · intro e h; cases h
            · simp only [hc, if_false]
              constructor
              · intro g' r h; cases h; rfl
              · intro e h; cases h

/-! ## C120 -/

/-- **C120.** Executed statement by statement on a mutable graph, the four methods give the results, graphs and panics of the
functional model, for all graphs and arguments, in any arithmetic and both build profiles. -/
theorem C120_agree [Scalar F] [Inhabited T] (p : Profile) :
    (∀ pos data, (addNodeM pos data : Mut (PlanarGraph F T U) _).Agrees fun g => g.addNode pos data) ∧
    (∀ s d x, (addEdgeM s d x : Mut (PlanarGraph F T U) _).Agrees fun g => g.addEdge s d x) ∧
    (∀ id, (removeEdgeM p id : Mut (PlanarGraph F T U) _).Agrees fun g => g.removeEdge p id) ∧
    (∀ id, (removeNodeM p id : Mut (PlanarGraph F T U) _).Agrees fun g => g.removeNode p id) :=
  ⟨fun pos data g => (addNodeM_eq pos data g).1, fun s d x g => (addEdgeM_eq s d x g).1,
    fun id g => ⟨(removeEdgeM_eq p id g).1, fun e h => ((removeEdgeM_eq p id g).2 e h).1⟩,
    fun id g => ⟨(removeNodeM_eq p id g).1, fun e h => by rw [(removeNodeM_eq p id g).2 e h]⟩⟩

/-- **C120.** A panic in `remove_node` leaves the graph as it was. A panic in `remove_edge` leaves the graph as it was, or
without the requested edge and otherwise as it was; the latter only if the edge is the last one and both its ends have other
edges. -/
theorem C120_remove (p : Profile) (id : Nat) (g : PlanarGraph F T U) :
    (∀ e, (removeNodeM p id g).1 = .error e → (removeNodeM p id g).2 = g) ∧
    (∀ e, (removeEdgeM p id g).1 = .error e → (removeEdgeM p id g).2 = g ∨ (id + 1 = g.edges.length ∧
      (∃ edge, g.getEdge id = some edge ∧ g.numberOfEdgesIncidentTo edge.src ≠ some 1 ∧
        g.numberOfEdgesIncidentTo edge.dst ≠ some 1) ∧
      (removeEdgeM p id g).2 = ⟨g.nodes, g.edges.eraseIdx id⟩)) := by
  constructor
  · intro e h
    cases hr : g.removeNode p id with
    | error e' => rw [(removeNodeM_eq p id g).2 e' hr]
    | ok r => rw [(removeNodeM_eq p id g).1 r.1 r.2 hr] at h; cases h
  · intro e h
    cases hr : g.removeEdge p id with
    | error e' => exact ((removeEdgeM_eq p id g).2 e' hr).2
    | ok r => rw [(removeEdgeM_eq p id g).1 r.1 r.2 hr] at h; cases h

/-- **C120.** The panic in the middle of `remove_edge`: if the edge is the last one and both its ends have other edges, the call
panics, and the edge is gone nevertheless. -/
theorem C120_remove_last (p : Profile) (id : Nat) (g : PlanarGraph F T U) (edge : Edge U) (he : g.getEdge id = some edge)
    (hl : id + 1 = g.edges.length) (na nb : Nat) (h1 : g.numberOfEdgesIncidentTo edge.src = some na) (hna : na ≠ 1)
    (h2 : g.numberOfEdgesIncidentTo edge.dst = some nb) (hnb : nb ≠ 1) :
    removeEdgeM p id g = (.error .indexOutOfBounds, ⟨g.nodes, g.edges.eraseIdx id⟩) := by
  have he' : g.edges[id]? = some edge := he
  have hc : g.edgeCount > 1 := by
    by_contra hc
    have hlen : g.edges.length = 1 := by unfold edgeCount at hc; omega
    obtain ⟨x, hx⟩ := List.length_eq_one_iff.1 hlen
    have h0 : id = 0 := by omega
    subst h0
    rw [hx] at he'
    cases he'
    unfold numberOfEdgesIncidentTo at h1
    rw [hx] at h1
    cases hn : g.getVertex edge.src with
    | none => rw [hn] at h1; cases h1
    | some n =>
      rw [hn] at h1
      simp [Edge.includes] at h1
      exact hna h1.symm
  have hd : g.edges.eraseIdx id = g.edges.dropLast := by
    have : id = g.edges.length - 1 := by omega
    rw [this, List.eraseIdx_length_sub_one]
  unfold removeEdgeM
  simp only [Mut.get_bind, he', h1, h2, unwrap, Mut.eval_ok, hna, hnb, if_false, hc, if_true]
  cases hg : g.edges.getLast? with
  | none =>
    rw [List.getLast?_eq_none_iff] at hg
    rw [hg] at hl; simp at hl
  | some last =>
    have ha : assign g.edges.dropLast id last = .error .indexOutOfBounds := by
      unfold assign
      rw [if_neg (by rw [List.length_dropLast]; omega)]
    simp only [Mut.eval_ok, Mut.put_bind, Mut.get_bind, ha]
    rw [hd]
    rfl

/-- the path 0-1-2-0: the last edge, whose ends have other edges -/
example : (removeEdgeM .debug 2 (⟨[⟨⟨(0 : ℚ), 0⟩, (), ""⟩, ⟨⟨1, 0⟩, (), ""⟩, ⟨⟨0, 1⟩, (), ""⟩],
      [⟨0, 1, (), ""⟩, ⟨1, 2, (), ""⟩, ⟨2, 0, (), ""⟩]⟩ : PlanarGraph ℚ Unit Unit)).2.edges =
    [⟨0, 1, (), ""⟩, ⟨1, 2, (), ""⟩] := rfl

/-- the graph a call leaves behind -/
def stateAfter [Scalar F] [Inhabited T] (p : Profile) (g : PlanarGraph F T U) : Op F T U → PlanarGraph F T U
  | .addNode pos d => (addNodeM pos d g).2
  | .addEdge s d x => (addEdgeM s d x g).2
  | .removeEdge i => (removeEdgeM p i g).2
  | .removeNode i => (removeNodeM p i g).2

theorem callM_state [Scalar F] [Inhabited T] (p : Profile) (op : Op F T U) (g : PlanarGraph F T U) :
    (callM p op g).2 = stateAfter p g op := by
  have key : ∀ {α : Type} (m : Mut (PlanarGraph F T U) α), ((m >>= fun _ => pure ()) g).2 = (m g).2 := by
    intro α m
    rw [Mut.bind_def]
    generalize m g = y
    obtain ⟨y1, y2⟩ := y
    cases y1 <;> rfl
  cases op <;> exact key _

/-- **C120.** Whether `add_node` or `add_edge` returns or panics, all earlier nodes are still there, unchanged and under the
same index, and there are at least as many edges as before. -/
theorem C120_add [Scalar F] [Inhabited T] (g : PlanarGraph F T U) (op : Op F T U)
    (h : (∃ pos data, op = .addNode pos data) ∨ ∃ s d x, op = .addEdge s d x) (p : Profile) :
    (∀ i n, g.getVertex i = some n → (callM p op g).2.getVertex i = some n) ∧
    g.edgeCount ≤ (callM p op g).2.edgeCount := by
  have fin : ∀ g' : PlanarGraph F T U, (∃ l, g'.nodes = g.nodes ++ l) → g.edges.length ≤ g'.edges.length →
      (∀ i n, g.getVertex i = some n → g'.getVertex i = some n) ∧ g.edgeCount ≤ g'.edgeCount := by
    rintro g' ⟨l, hl⟩ he
    refine ⟨fun i n hi => ?_, he⟩
    unfold getVertex at *
    rw [hl, List.getElem?_append_left (List.getElem?_eq_some_iff.1 hi).1, hi]
  rcases h with ⟨pos, data, rfl⟩ | ⟨s, d, x, rfl⟩
  · have := addNodeM_eq pos data g
    rw [callM_state p (.addNode pos data)]
    exact fin _ this.2.1 this.2.2
  · have := addEdgeM_eq s d x g
    rw [callM_state p (.addEdge s d x)]
    exact fin _ this.2.1 this.2.2

/-- a valid graph stays valid under one call, panic or not -/
theorem callM_wf [Scalar F] [Inhabited T] {g : PlanarGraph F T U} (hwf : WF g) (op : Op F T U) :
    WF (callM .debug op g).2 := by
  rw [callM_state]
  cases op with
  | addNode pos data =>
    obtain ⟨g', r, h, h'⟩ := (C50_no_panic g hwf).1 pos data
    rw [stateAfter, (addNodeM_eq pos data g).1.1 _ _ h]
    exact h'
  | addEdge s d x =>
    obtain ⟨g', r, h, h'⟩ := (C50_no_panic g hwf).2 s d x
    rw [stateAfter, (addEdgeM_eq s d x g).1.1 _ _ h]
    exact h'
  | removeEdge i =>
    rw [stateAfter]
    cases hr : g.removeEdge .debug i with
    | ok r =>
      rw [(removeEdgeM_eq .debug i g).1 _ _ hr]
      exact removeEdge_wf_debug hwf hr
    | error e =>
      rcases ((removeEdgeM_eq .debug i g).2 e hr).2 with h | ⟨_, _, h⟩
      · rw [h]; exact hwf
      · rw [h]; exact fun f hf => hwf f (List.mem_of_mem_eraseIdx hf)
  | removeNode i =>
    rw [stateAfter]
    cases hr : g.removeNode .debug i with
    | ok r =>
      rw [(removeNodeM_eq .debug i g).1 _ _ hr]
      exact removeNode_wf_debug hwf hr
    | error e => rw [(removeNodeM_eq .debug i g).2 e hr]; exact hwf

/-- without self-loops this holds in both build profiles -/
theorem callM_loopFree [Scalar F] [LawfulScalar F] [Inhabited T] (p : Profile) {g : PlanarGraph F T U} (hwf : WF g)
    (hl : LoopFree g) (op : Op F T U) (hop : NoLoopRequest op) : WF (callM p op g).2 ∧ LoopFree (callM p op g).2 := by
  rw [callM_state]
  cases op with
  | addNode pos data =>
    obtain ⟨g', r, h, h'⟩ := (C50_no_panic g hwf).1 pos data
    rw [stateAfter, (addNodeM_eq pos data g).1.1 _ _ h]
    exact ⟨h', addNode_loopFree hwf hl h⟩
  | addEdge s d x =>
    obtain ⟨g', r, h, h'⟩ := (C50_no_panic g hwf).2 s d x
    rw [stateAfter, (addEdgeM_eq s d x g).1.1 _ _ h]
    exact ⟨h', addEdge_loopFree hwf hl hop h⟩
  | removeEdge i =>
    rw [stateAfter]
    cases hr : g.removeEdge p i with
    | ok r =>
      rw [(removeEdgeM_eq p i g).1 _ _ hr]
      rcases removeEdge_renumbered hwf hl hr with h | ⟨_, _, h⟩
      · simp only [h]; exact ⟨hwf, hl⟩
      · exact ⟨h.wf, h.loopFree hl⟩
    | error e =>
      rcases ((removeEdgeM_eq p i g).2 e hr).2 with h | ⟨_, _, h⟩
      · rw [h]; exact ⟨hwf, hl⟩
      · rw [h]; exact ⟨fun f hf => hwf f (List.mem_of_mem_eraseIdx hf), fun f hf => hl f (List.mem_of_mem_eraseIdx hf)⟩
  | removeNode i =>
    rw [stateAfter]
    cases hr : g.removeNode p i with
    | ok r =>
      rw [(removeNodeM_eq p i g).1 _ _ hr]
      rcases removeNode_renumbered hwf hl hr with h | ⟨_, _, h⟩
      · simp only [h]; exact ⟨hwf, hl⟩
      · exact ⟨h.wf, h.loopFree hl⟩
    | error e => rw [(removeNodeM_eq p i g).2 e hr]; exact ⟨hwf, hl⟩

/-- **C120.** If every panic is caught and the program goes on with the graph that is left, both node indices of every edge
stay valid: in debug builds for all sequences of calls and in any arithmetic. -/
theorem C120_caught_valid [Scalar F] [Inhabited T] (ops : List (Op F T U)) :
    ∀ e ∈ (runCaught .debug PlanarGraph.new ops).edges,
      (∃ n, (runCaught .debug PlanarGraph.new ops).getVertex e.src = some n) ∧
      ∃ n, (runCaught .debug PlanarGraph.new ops).getVertex e.dst = some n := by
  have key : ∀ (ops : List (Op F T U)) g, WF g → WF (runCaught .debug g ops) := by
    intro ops
    induction ops with
    | nil => exact fun g h => h
    | cons op ops ih => exact fun g h => ih _ (callM_wf h op)
  intro e he
  obtain ⟨h1, h2⟩ := key ops _ wf_new e he
  exact ⟨⟨_, List.getElem?_eq_getElem h1⟩, ⟨_, List.getElem?_eq_getElem h2⟩⟩

/-- **C120.** The same in both build profiles for sequences that never call `add_edge(s, s)`, and then no edge ever joins a
node to itself (f32 and exact arithmetic). -/
theorem C120_caught_valid_release [Scalar F] [LawfulScalar F] [Inhabited T] (p : Profile) (ops : List (Op F T U))
    (hops : ∀ op ∈ ops, ∀ s d x, op = Op.addEdge s d x → s ≠ d) :
    ∀ e ∈ (runCaught p PlanarGraph.new ops).edges,
      (∃ n, (runCaught p PlanarGraph.new ops).getVertex e.src = some n) ∧
      (∃ n, (runCaught p PlanarGraph.new ops).getVertex e.dst = some n) ∧ e.src ≠ e.dst := by
  have key : ∀ (ops : List (Op F T U)) g, (∀ op ∈ ops, NoLoopRequest op) → WF g → LoopFree g →
      WF (runCaught p g ops) ∧ LoopFree (runCaught p g ops) := by
    intro ops
    induction ops with
    | nil => exact fun g _ h h' => ⟨h, h'⟩
    | cons op ops ih =>
      intro g ho h h'
      obtain ⟨h1, h2⟩ := callM_loopFree p h h' op (ho op (List.mem_cons_self ..))
      exact ih _ (fun o h => ho o (List.mem_cons_of_mem _ h)) h1 h2
  obtain ⟨k1, k2⟩ := key ops PlanarGraph.new (fun op ho => by
    cases op with
    | addEdge s d x => exact hops _ ho s d x rfl
    | _ => trivial) wf_new (by intro e he; cases he)
  intro e he
  obtain ⟨h1, h2⟩ := k1 e he
  exact ⟨⟨_, List.getElem?_eq_getElem h1⟩, ⟨_, List.getElem?_eq_getElem h2⟩, k2 e he⟩

/-- a triangle -/
def triangle32 : PlanarGraph F32 Unit Unit :=
  ⟨[⟨⟨F32.lit 0, F32.lit 0⟩, (), ""⟩, ⟨⟨F32.lit 4, F32.lit 0⟩, (), ""⟩, ⟨⟨F32.lit 0, F32.lit 4⟩, (), ""⟩],
    [⟨0, 1, (), ""⟩, ⟨1, 2, (), ""⟩, ⟨2, 0, (), ""⟩]⟩

/-- both outcomes of `C120_remove`: removing the last edge of a triangle panics with the edge gone, removing an isolated node
panics with the graph unchanged -/
example : (∃ e, (removeEdgeM .debug 2 triangle32).1 = .error e) ∧
    (removeEdgeM .debug 2 triangle32).2 = ⟨triangle32.nodes, [⟨0, 1, (), ""⟩, ⟨1, 2, (), ""⟩]⟩ ∧
    (∃ e, (removeNodeM .debug 0 (⟨triangle32.nodes, []⟩ : PlanarGraph F32 Unit Unit)).1 = .error e) :=
  ⟨⟨.indexOutOfBounds, rfl⟩, rfl, ⟨.unwrapFailed, rfl⟩⟩

/-- a sequence with two caught panics -/
example : runCaught .debug (PlanarGraph.new : PlanarGraph F32 Unit Unit)
    [.addNode ⟨F32.lit 0, F32.lit 0⟩ (), .removeNode 0, .addNode ⟨F32.lit 4, F32.lit 0⟩ (),
      .addNode ⟨F32.lit 0, F32.lit 4⟩ (), .addEdge 0 1 (), .addEdge 1 2 (), .addEdge 2 0 (), .removeEdge 2] =
    ⟨triangle32.nodes, [⟨0, 1, (), ""⟩, ⟨1, 2, (), ""⟩]⟩ := by
  decide +kernel

end Kami.Graph
