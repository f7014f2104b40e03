import Verif.Geom.Triangulate
/-!
# Moving triangulations between arithmetics

`triangulate` looks at coordinates only through the orientation predicates and the coordinate comparisons.  When two
arithmetics answer these questions alike, all results correspond, including non-termination.
-/

set_option autoImplicit false
set_option linter.unusedSectionVars false

namespace Kami.Transfer

open Kami Kami.Polygon Kami.Tri
open scoped Kami

variable {F G : Type} [OrdScalar F] [OrdScalar G]

/-- on points satisfying `S`, the predicates of the first arithmetic agree with those of the second on the images -/
structure Agrees (S : Vec2 F → Prop) (φ : Vec2 F → Vec2 G) : Prop where
  left : ∀ a b c, S a → S b → S c → Kami.left (φ a) (φ b) (φ c) = Kami.left a b c
  leftOn : ∀ a b c, S a → S b → S c → Kami.leftOn (φ a) (φ b) (φ c) = Kami.leftOn a b c
  collinear : ∀ a b c, S a → S b → S c → Kami.collinear (φ a) (φ b) (φ c) = Kami.collinear a b c
  neg : ∀ a b c, S a → S b → S c →
    ((OrdScalar.zero + area2 (φ a) (φ b) (φ c)) <. OrdScalar.zero) = ((OrdScalar.zero + area2 a b c) <. OrdScalar.zero)
  between : ∀ a b c, S a → S b → S c → Kami.between (φ a) (φ b) (φ c) = Kami.between a b c

/-- image of a polygon -/
def mapP (φ : Vec2 F → Vec2 G) (P : Polygon F) : Polygon G := ⟨P.vertices.map φ⟩

/-- image of the loop state -/
def mapS (φ : Vec2 F → Vec2 G) (st : TriState F) : TriState G :=
  ⟨mapP φ st.copy, st.isEar, st.triangles.map (mapP φ)⟩

variable {S : Vec2 F → Prop} {φ : Vec2 F → Vec2 G}

theorem Agrees.intersectProp (h : Agrees S φ) {a b c d : Vec2 F} (ha : S a) (hb : S b) (hc : S c) (hd : S d) :
    Kami.intersectProp (φ a) (φ b) (φ c) (φ d) = Kami.intersectProp a b c d := by
  unfold Kami.intersectProp
  rw [h.collinear a b c ha hb hc, h.collinear a b d ha hb hd, h.collinear c d a hc hd ha, h.collinear c d b hc hd hb,
    h.left a b c ha hb hc, h.left a b d ha hb hd, h.left c d a hc hd ha, h.left c d b hc hd hb]

/-- agreement on `between` follows from agreement on collinearity and on the order of the coordinates -/
theorem Agrees.of_order (left : ∀ a b c, S a → S b → S c → Kami.left (φ a) (φ b) (φ c) = Kami.left a b c)
    (leftOn : ∀ a b c, S a → S b → S c → Kami.leftOn (φ a) (φ b) (φ c) = Kami.leftOn a b c)
    (collinear : ∀ a b c, S a → S b → S c → Kami.collinear (φ a) (φ b) (φ c) = Kami.collinear a b c)
    (neg : ∀ a b c, S a → S b → S c →
      ((OrdScalar.zero + area2 (φ a) (φ b) (φ c)) <. OrdScalar.zero) = ((OrdScalar.zero + area2 a b c) <. OrdScalar.zero))
    (eqx : ∀ a b, S a → S b → ((φ a).x =. (φ b).x) = (a.x =. b.x))
    (lex : ∀ a b, S a → S b → ((φ a).x ≤. (φ b).x) = (a.x ≤. b.x))
    (ley : ∀ a b, S a → S b → ((φ a).y ≤. (φ b).y) = (a.y ≤. b.y)) : Agrees S φ := by
  refine ⟨left, leftOn, collinear, neg, fun a b c ha hb hc => ?_⟩
  unfold Kami.between
  rw [collinear a b c ha hb hc, eqx a b ha hb, lex a c ha hc, lex c b hc hb, lex c a hc ha, lex b c hb hc,
    ley a c ha hc, ley c b hc hb, ley c a hc ha, ley b c hb hc]

theorem Agrees.intersect (h : Agrees S φ) {a b c d : Vec2 F} (ha : S a) (hb : S b) (hc : S c) (hd : S d) :
    Kami.intersect (φ a) (φ b) (φ c) (φ d) = Kami.intersect a b c d := by
  unfold Kami.intersect
  rw [h.intersectProp ha hb hc hd, h.between _ _ _ ha hb hc, h.between _ _ _ ha hb hd, h.between _ _ _ hc hd ha,
    h.between _ _ _ hc hd hb]

theorem index_map {α β : Type} (f : α → β) (l : List α) (i : Nat) : index (l.map f) i = (index l i).map f := by
  unfold index
  rw [List.getElem?_map]
  cases l[i]? <;> rfl

theorem index_mem {α : Type} {l : List α} {i : Nat} {a : α} (h : index l i = .ok a) : a ∈ l :=
  List.mem_of_getElem? (index_eq_ok.1 h)

theorem neighbors_map (φ : Vec2 F → Vec2 G) (P : Polygon F) (i : Nat) :
    (mapP φ P).getNeighborIndices i = P.getNeighborIndices i := by
  unfold getNeighborIndices mapP
  rw [List.length_map]

theorem inCone_map (h : Agrees S φ) (P : Polygon F) (hP : ∀ v ∈ P.vertices, S v) (a o : Nat) :
    (mapP φ P).inCone a o = P.inCone a o := by
  unfold inCone
  rw [neighbors_map]
  show (index (P.vertices.map φ) a >>= _) = _
  rw [index_map]
  cases e1 : index P.vertices a with
  | error e => rfl
  | ok va =>
    show (index (P.vertices.map φ) o >>= _) = (index P.vertices o >>= _)
    rw [index_map]
    cases e2 : index P.vertices o with
    | error e => rfl
    | ok vb =>
      cases e3 : P.getNeighborIndices a with
      | error e => rfl
      | ok pn =>
        obtain ⟨p, n⟩ := pn
        show (index (P.vertices.map φ) p >>= _) = (index P.vertices p >>= _)
        rw [index_map]
        cases e4 : index P.vertices p with
        | error e => rfl
        | ok v0 =>
          show (index (P.vertices.map φ) n >>= _) = (index P.vertices n >>= _)
          rw [index_map]
          cases e5 : index P.vertices n with
          | error e => rfl
          | ok v1 =>
            have sa := hP _ (index_mem e1)
            have sb := hP _ (index_mem e2)
            have s0 := hP _ (index_mem e4)
            have s1 := hP _ (index_mem e5)
            show (if Kami.leftOn (φ va) (φ v1) (φ v0) = true then
                Except.ok (Kami.left (φ va) (φ vb) (φ v0) && Kami.left (φ vb) (φ va) (φ v1))
              else Except.ok !(Kami.leftOn (φ va) (φ vb) (φ v1) && Kami.leftOn (φ vb) (φ va) (φ v0))) = _
            rw [h.leftOn _ _ _ sa s1 s0, h.left _ _ _ sa sb s0, h.left _ _ _ sb sa s1, h.leftOn _ _ _ sa sb s1,
              h.leftOn _ _ _ sb sa s0]
            rfl

theorem hitsEdge_map (h : Agrees S φ) (P : Polygon F) (hP : ∀ v ∈ P.vertices, S v) (i j count k : Nat) :
    (mapP φ P).hitsEdge i j count k = P.hitsEdge i j count k := by
  induction count generalizing k with
  | zero => rfl
  | succ c ih =>
    unfold hitsEdge
    rw [ih]
    have hlen : (mapP φ P).vertices.length = P.vertices.length := List.length_map ..
    simp only [hlen]
    split
    · show (index (P.vertices.map φ) i >>= _) = _
      rw [index_map]
      cases e1 : index P.vertices i with
      | error e => rfl
      | ok va =>
        show (index (P.vertices.map φ) j >>= _) = (index P.vertices j >>= _)
        rw [index_map]
        cases e2 : index P.vertices j with
        | error e => rfl
        | ok vb =>
          show (index (P.vertices.map φ) k >>= _) = (index P.vertices k >>= _)
          rw [index_map]
          cases e3 : index P.vertices k with
          | error e => rfl
          | ok vc =>
            show (index (P.vertices.map φ) ((k + 1) % P.vertices.length) >>= _) =
              (index P.vertices ((k + 1) % P.vertices.length) >>= _)
            rw [index_map]
            cases e4 : index P.vertices ((k + 1) % P.vertices.length) with
            | error e => rfl
            | ok vd =>
              have := h.intersect (hP _ (index_mem e1)) (hP _ (index_mem e2)) (hP _ (index_mem e3)) (hP _ (index_mem e4))
              simp only [Except.map, bind, Except.bind]
              rw [this]
    · rfl

theorem diagonal_map (h : Agrees S φ) (P : Polygon F) (hP : ∀ v ∈ P.vertices, S v) (i j : Nat) :
    (mapP φ P).diagonal i j = P.diagonal i j := by
  unfold diagonal
  rw [inCone_map h P hP i j, inCone_map h P hP j i]
  have hlen : (mapP φ P).vertices.length = P.vertices.length := List.length_map ..
  rw [hlen, hitsEdge_map h P hP]

theorem newUnwrap_three {F : Type} [OrdScalar F] (a b c : Vec2 F) : newUnwrap [a, b, c] =
    .ok (if ((OrdScalar.zero + area2 a b c) <. OrdScalar.zero) = true then ⟨[c, b, a]⟩ else ⟨[a, b, c]⟩) := by
  show (match (if ((OrdScalar.zero + area2 a b c) <. OrdScalar.zero) = true then Except.ok ⟨[c, b, a]⟩
    else Except.ok ⟨[a, b, c]⟩ : Except PolygonError (Polygon F)) with
    | .ok p => Except.ok p
    | .error _ => Except.error Panic.unwrapFailed) = _
  split_ifs <;> rfl

theorem triangle_map (h : Agrees S φ) {a b c : Vec2 F} (ha : S a) (hb : S b) (hc : S c) :
    newUnwrap [φ a, φ b, φ c] = (newUnwrap [a, b, c]).map (mapP φ) := by
  rw [newUnwrap_three, newUnwrap_three]
  have hn := h.neg a b c ha hb hc
  by_cases hq : ((OrdScalar.zero + area2 a b c) <. OrdScalar.zero) = true
  · rw [if_pos hq, if_pos (hn.trans hq)]; rfl
  · rw [if_neg hq, if_neg (fun e => hq (hn.symm.trans e))]; rfl

/-- what the loops of `triangulate` need of the map: on vertex lists satisfying `Inv`, a property kept when a vertex is removed,
diagonals and the orientation of triangles are kept -/
structure Respects (Inv : List (Vec2 F) → Prop) (φ : Vec2 F → Vec2 G) : Prop where
  diagonal : ∀ P : Polygon F, Inv P.vertices → ∀ i j, (mapP φ P).diagonal i j = P.diagonal i j
  triangle : ∀ l : List (Vec2 F), Inv l → ∀ a ∈ l, ∀ b ∈ l, ∀ c ∈ l, newUnwrap [φ a, φ b, φ c] = (newUnwrap [a, b, c]).map (mapP φ)
  erase : ∀ l : List (Vec2 F), Inv l → ∀ i, Inv (l.eraseIdx i)

theorem Agrees.respects (h : Agrees S φ) : Respects (fun l => ∀ v ∈ l, S v) φ :=
  ⟨fun P hP i j => diagonal_map h P hP i j, fun _ hP _ ha _ hb _ hc => triangle_map h (hP _ ha) (hP _ hb) (hP _ hc),
    fun _ hP _ v hv => hP v (List.mem_of_mem_eraseIdx hv)⟩

variable {Inv : List (Vec2 F) → Prop}

theorem earFlags_map (h : Respects Inv φ) (P : Polygon F) (hP : Inv P.vertices) (count i : Nat) :
    (mapP φ P).earFlags count i = P.earFlags count i := by
  induction count generalizing i with
  | zero => rfl
  | succ c ih =>
    unfold earFlags
    rw [neighbors_map, ih]
    simp only [h.diagonal P hP]

theorem clipEar_map (h : Respects Inv φ) (st : TriState F) (hP : Inv st.copy.vertices) (v2 : Nat) :
    clipEar (mapS φ st) v2 = (clipEar st v2).map (mapS φ) := by
  unfold clipEar
  have hnb : ∀ i, (mapS φ st).copy.getNeighborIndices i = st.copy.getNeighborIndices i := neighbors_map φ st.copy
  simp only [hnb]
  cases e1 : st.copy.getNeighborIndices v2 with
  | error e => rfl
  | ok pn =>
    obtain ⟨v1, v3⟩ := pn
    simp only [bind, Except.bind]
    cases e2 : st.copy.getNeighborIndices v3 with
    | error e => rfl
    | ok pn =>
      obtain ⟨x3, v4⟩ := pn
      simp only []
      cases e3 : st.copy.getNeighborIndices v1 with
      | error e => rfl
      | ok pn =>
        obtain ⟨v0, x0⟩ := pn
        simp only []
        rw [show (mapS φ st).copy.vertices = st.copy.vertices.map φ from rfl, index_map, index_map, index_map]
        cases e4 : index st.copy.vertices v1 with
        | error e => rfl
        | ok p1 =>
          cases e5 : index st.copy.vertices v2 with
          | error e => rfl
          | ok p2 =>
            cases e6 : index st.copy.vertices v3 with
            | error e => rfl
            | ok p3 =>
              simp only [Except.map]
              rw [h.triangle _ hP _ (index_mem e4) _ (index_mem e5) _ (index_mem e6)]
              cases e7 : newUnwrap [p1, p2, p3] with
              | error e => rfl
              | ok tri =>
                simp only [Except.map]
                rw [show (mapS φ st).isEar = st.isEar from rfl]
                cases e8 : index st.isEar v2 with
                | error e => rfl
                | ok fl =>
                  simp only []
                  rw [List.eraseIdx_map]
                  have hd := h.diagonal ⟨st.copy.vertices.eraseIdx v2⟩ (h.erase _ hP _)
                  unfold mapP at hd
                  rw [hd, hd]
                  cases e9 : (⟨st.copy.vertices.eraseIdx v2⟩ : Polygon F).diagonal (shiftDown v2 v0) (shiftDown v2 v3) with
                  | error e => rfl
                  | ok d1 =>
                    simp only []
                    cases e10 : assign (st.isEar.eraseIdx v2) (shiftDown v2 v1) d1 with
                    | error e => rfl
                    | ok fl' =>
                      simp only []
                      cases e11 : (⟨st.copy.vertices.eraseIdx v2⟩ : Polygon F).diagonal (shiftDown v2 v1) (shiftDown v2 v4) with
                      | error e => rfl
                      | ok d3 =>
                        simp only []
                        cases e12 : assign fl' (shiftDown v2 v3) d3 with
                        | error e => rfl
                        | ok fl'' =>
                          simp only [pure, Except.pure, mapS, mapP, List.map_append, List.map_cons, List.map_nil]

theorem clipEar_verts {st st' : TriState F} {v2 : Nat} (h : clipEar st v2 = .ok st') :
    st'.copy.vertices = st.copy.vertices.eraseIdx v2 := by
  unfold clipEar at h
  simp only [bind, Except.bind, pure, Except.pure] at h
  repeat' split at h
  all_goals first
    | (cases h; done)
    | (cases h; rfl)

theorem forEar_map (h : Respects Inv φ) (st : TriState F) (hP : Inv st.copy.vertices) (count v2 : Nat) :
    forEar (mapS φ st) count v2 = (forEar st count v2).map (mapS φ) := by
  induction count generalizing v2 with
  | zero => rfl
  | succ c ih =>
    unfold forEar
    rw [show (mapS φ st).isEar = st.isEar from rfl, ih, clipEar_map h st hP]
    cases index st.isEar v2 with
    | error e => rfl
    | ok b => cases b <;> rfl

theorem forEar_verts (he : ∀ l : List (Vec2 F), Inv l → ∀ i, Inv (l.eraseIdx i)) {st st' : TriState F} (hP : Inv st.copy.vertices) (count v2 : Nat)
    (h : forEar st count v2 = .ok st') : Inv st'.copy.vertices := by
  induction count generalizing v2 with
  | zero => cases h; exact hP
  | succ c ih =>
    unfold forEar at h
    simp only [bind, Except.bind] at h
    split at h
    · cases h
    · split at h
      · rw [clipEar_verts h]
        exact he _ hP _
      · exact ih _ h

theorem whileBody_map (h : Respects Inv φ) (st : TriState F) (hP : Inv st.copy.vertices) :
    whileBody (mapS φ st) = (whileBody st).map (mapS φ) := by
  unfold whileBody
  rw [show (mapS φ st).copy.vertices.length = st.copy.vertices.length from List.length_map .., forEar_map h st hP]

/-- if the loop ends in the second arithmetic, it ends in the first, with corresponding results -/
theorem whileRuns_back (h : Respects Inv φ) {stG : TriState G} {out : Res (TriState G)} (hr : WhileRuns stG out) :
    ∀ st : TriState F, stG = mapS φ st → Inv st.copy.vertices →
      ∃ out', WhileRuns st out' ∧ out = out'.map (mapS φ) := by
  induction hr with
  | done stG hd =>
    rintro st rfl hP
    refine ⟨.ok st, .done st ?_, rfl⟩
    rwa [show (mapS φ st).copy.vertices.length = st.copy.vertices.length from List.length_map ..] at hd
  | panic stG e hl hb =>
    rintro st rfl hP
    rw [show (mapS φ st).copy.vertices.length = st.copy.vertices.length from List.length_map ..] at hl
    rw [whileBody_map h st hP] at hb
    cases hw : whileBody st with
    | error e' =>
      rw [hw] at hb
      cases hb
      exact ⟨.error e, .panic st e hl hw, rfl⟩
    | ok st' => rw [hw] at hb; cases hb
  | next stG stG' out hl hb _ ih =>
    rintro st rfl hP
    rw [show (mapS φ st).copy.vertices.length = st.copy.vertices.length from List.length_map ..] at hl
    rw [whileBody_map h st hP] at hb
    cases hw : whileBody st with
    | error e' => rw [hw] at hb; cases hb
    | ok st' =>
      rw [hw] at hb
      have hb : mapS φ st' = stG' := Except.ok.inj hb
      obtain ⟨out', h1, h2⟩ := ih st' hb.symm (forEar_verts h.erase hP _ _ hw)
      exact ⟨out', .next st st' out' hl hw h1, h2⟩

/-- and the other way round -/
theorem whileRuns_forth (h : Respects Inv φ) {st : TriState F} {out : Res (TriState F)} (hr : WhileRuns st out) :
    Inv st.copy.vertices → WhileRuns (mapS φ st) (out.map (mapS φ)) := by
  have hlen : ∀ st : TriState F, (mapS φ st).copy.vertices.length = st.copy.vertices.length := fun st => List.length_map ..
  induction hr with
  | done st hd => exact fun hP => .done _ (by rwa [hlen])
  | panic st e hl hb =>
    intro hP
    refine .panic _ e (by rwa [hlen]) ?_
    rw [whileBody_map h st hP, hb]; rfl
  | next st st' out hl hb _ ih =>
    intro hP
    refine .next _ (mapS φ st') _ (by rwa [hlen]) ?_ (ih (forEar_verts h.erase hP _ _ hb))
    rw [whileBody_map h st hP, hb]; rfl

theorem triInit_map (h : Respects Inv φ) (P : Polygon F) (hP : Inv P.vertices) :
    triInit (mapP φ P) = (triInit P).map (mapS φ) := by
  unfold triInit
  rw [show (mapP φ P).vertices.length = P.vertices.length from List.length_map .., earFlags_map h P hP]
  cases P.earFlags P.vertices.length 0 <;> rfl

theorem triInit_verts {P : Polygon F} {st : TriState F} (h : triInit P = .ok st) : st.copy = P := by
  unfold triInit at h
  simp only [bind, Except.bind, pure, Except.pure] at h
  split at h
  · cases h
  · cases h; rfl

/-- **Transfer.** `triangulate` ends on the image polygon with a given result exactly when it ends on the original polygon
with a result whose image this is. -/
theorem triangulates_resp (h : Respects Inv φ) (P : Polygon F) (hP : Inv P.vertices) (out : Res (List (Polygon G))) :
    Triangulates (mapP φ P) out ↔ ∃ out', Triangulates P out' ∧ out = out'.map (List.map (mapP φ)) := by
  have hlen : (mapP φ P).vertices.length = P.vertices.length := List.length_map ..
  have hi := triInit_map h P hP
  constructor
  · intro ht
    cases ht with
    | triangle h3 => exact ⟨_, .triangle (by rwa [hlen] at h3), rfl⟩
    | initPanic e h3 hp =>
      rw [hlen] at h3
      rw [hi] at hp
      cases hw : triInit P with
      | error e' => rw [hw] at hp; cases hp; exact ⟨_, .initPanic e h3 hw, rfl⟩
      | ok st => rw [hw] at hp; cases hp
    | loopPanic st e h3 hp hr =>
      rw [hlen] at h3
      rw [hi] at hp
      cases hw : triInit P with
      | error e' => rw [hw] at hp; cases hp
      | ok st' =>
        rw [hw] at hp
        have hp : mapS φ st' = st := Except.ok.inj hp
        obtain ⟨o, h1, h2⟩ := whileRuns_back h hr st' hp.symm (by rw [triInit_verts hw]; exact hP)
        cases o with
        | error e' => cases h2; exact ⟨_, .loopPanic st' e h3 hw h1, rfl⟩
        | ok st'' => cases h2
    | ok st fin h3 hp hr =>
      rw [hlen] at h3
      rw [hi] at hp
      cases hw : triInit P with
      | error e' => rw [hw] at hp; cases hp
      | ok st' =>
        rw [hw] at hp
        have hp : mapS φ st' = st := Except.ok.inj hp
        obtain ⟨o, h1, h2⟩ := whileRuns_back h hr st' hp.symm (by rw [triInit_verts hw]; exact hP)
        cases o with
        | error e' => cases h2
        | ok st'' =>
          have h2 : fin = mapS φ st'' := Except.ok.inj h2
          subst h2
          exact ⟨_, .ok st' st'' h3 hw h1, by simp [mapS, Except.map]⟩
  · rintro ⟨out', ht, rfl⟩
    cases ht with
    | triangle h3 => exact .triangle (by rwa [hlen])
    | initPanic e h3 hp => exact .initPanic e (by rwa [hlen]) (by rw [hi, hp]; rfl)
    | loopPanic st e h3 hp hr =>
      refine .loopPanic (mapS φ st) e (by rwa [hlen]) (by rw [hi, hp]; rfl) ?_
      exact whileRuns_forth h hr (by rw [triInit_verts hp]; exact hP)
    | ok st fin h3 hp hr =>
      have h1 := whileRuns_forth h hr (by rw [triInit_verts hp]; exact hP)
      have h2 := Triangulates.ok (self := mapP φ P) (mapS φ st) (mapS φ fin) (by rwa [hlen]) (by rw [hi, hp]; rfl) h1
      simpa [mapS, Except.map] using h2

/-- the same for a property of single points -/
theorem triangulates_map (h : Agrees S φ) (P : Polygon F) (hP : ∀ v ∈ P.vertices, S v) (out : Res (List (Polygon G))) :
    Triangulates (mapP φ P) out ↔ ∃ out', Triangulates P out' ∧ out = out'.map (List.map (mapP φ)) :=
  triangulates_resp h.respects P hP out

end Kami.Transfer
