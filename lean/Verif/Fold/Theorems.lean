import Verif.Fold.Model
/-!
# Reading and writing FOLD files
-/

set_option autoImplicit false

namespace Kami.FoldFile

open Kami

variable {D : Type}

/-! ## C72: which objects are accepted -/

/-- a JSON number that is not out of range -/
def IsNumber (io : FloatIO D) (j : Json D) : Prop :=
  (∃ z, j = .num (.int z)) ∨ ∃ d x, j = .num (.float d) ∧ io.dec d = some x
/-- an integer token in the range of `i32` -/
def IsI32 (j : Json D) : Prop := ∃ z : Int, j = .num (.int z) ∧ -2 ^ 31 ≤ z ∧ z < 2 ^ 31
/-- a JSON string -/
def IsString (j : Json D) : Prop := ∃ s, j = .str s
/-- an array all of whose elements are of the given kind -/
def IsArrayOf (P : Json D → Prop) (j : Json D) : Prop := ∃ xs, j = .arr xs ∧ ∀ x ∈ xs, P x
/-- an array of three integers -/
def IsTriple (j : Json D) : Prop := ∃ a b c, j = .arr [a, b, c] ∧ IsI32 a ∧ IsI32 b ∧ IsI32 c

/-- well-typed values for a field type -/
def FieldTy.WellTyped (io : FloatIO D) : FieldTy → Json D → Prop
  | .i32 => IsI32
  | .string => IsString
  | .strings => IsArrayOf IsString
  | .f32s => IsArrayOf (IsNumber io)
  | .f32ss => IsArrayOf (IsArrayOf (IsNumber io))
  | .i32ss => IsArrayOf (IsArrayOf IsI32)
  | .triples => IsArrayOf IsTriple

theorem deI32_ok (j : Json D) : (∃ v, deI32 j = .ok v) ↔ IsI32 j := by
  unfold deI32 IsI32
  split
  · rename_i z
    split
    · rename_i h; exact ⟨fun _ => ⟨z, rfl, h⟩, fun _ => ⟨_, rfl⟩⟩
    · rename_i h
      constructor
      · rintro ⟨v, hv⟩; cases hv
      · rintro ⟨z', h', h2⟩; cases h'; exact absurd h2 h
  · rename_i h
    constructor
    · rintro ⟨v, hv⟩; cases hv
    · rintro ⟨z', h', h2⟩; exact absurd h' (h z')

theorem deString_ok (j : Json D) : (∃ v, deString j = .ok v) ↔ IsString j := by
  unfold deString IsString
  split
  · exact ⟨fun _ => ⟨_, rfl⟩, fun _ => ⟨_, rfl⟩⟩
  · rename_i h
    constructor
    · rintro ⟨v, hv⟩; cases hv
    · rintro ⟨s, h'⟩; exact absurd h' (h s)

theorem deF32_ok (io : FloatIO D) (j : Json D) : (∃ v, deF32 io j = .ok v) ↔ IsNumber io j := by
  unfold deF32 IsNumber
  split
  · exact ⟨fun _ => .inl ⟨_, rfl⟩, fun _ => ⟨_, rfl⟩⟩
  · rename_i d
    cases hd : io.dec d with
    | some x => exact ⟨fun _ => .inr ⟨d, x, rfl, hd⟩, fun _ => ⟨x, rfl⟩⟩
    | none =>
      constructor
      · rintro ⟨v, hv⟩; cases hv
      · rintro (⟨z, h⟩ | ⟨d', x, h, h'⟩)
        · cases h
        · cases h; rw [hd] at h'; cases h'
  · rename_i h1 h2
    constructor
    · rintro ⟨v, hv⟩; cases hv
    · rintro (⟨z, h'⟩ | ⟨d, x, h', _⟩)
      · exact absurd h' (h1 z)
      · exact absurd h' (h2 d)

theorem mapM_ok {α : Type} (de : Json D → De α) (xs : List (Json D)) :
    (∃ v, xs.mapM de = .ok v) ↔ ∀ x ∈ xs, ∃ v, de x = .ok v := by
  induction xs with
  | nil => simp [pure, Except.pure]
  | cons x xs ih =>
    rw [List.mapM_cons]
    simp only [List.mem_cons, forall_eq_or_imp, ← ih, bind, Except.bind, pure, Except.pure]
    cases de x with
    | error e => simp
    | ok v => cases xs.mapM de <;> simp

theorem deVec_ok {α : Type} (de : Json D → De α) (P : Json D → Prop) (h : ∀ j, (∃ v, de j = .ok v) ↔ P j) (j : Json D) :
    (∃ v, deVec de j = .ok v) ↔ IsArrayOf P j := by
  unfold deVec IsArrayOf
  split
  · rename_i xs
    rw [mapM_ok]
    constructor
    · exact fun hx => ⟨xs, rfl, fun x hm => (h x).1 (hx x hm)⟩
    · rintro ⟨ys, hy, hp⟩ x hm
      cases hy
      exact (h x).2 (hp x hm)
  · rename_i h'
    constructor
    · rintro ⟨v, hv⟩; cases hv
    · rintro ⟨s, hs, _⟩; exact absurd hs (h' s)

theorem deTriple_ok (j : Json D) : (∃ v, deTriple j = .ok v) ↔ IsTriple j := by
  unfold deTriple IsTriple
  split
  · rename_i a b c
    have ha := deI32_ok a
    have hb := deI32_ok b
    have hc := deI32_ok c
    simp only [bind, Except.bind, pure, Except.pure]
    constructor
    · rintro ⟨v, hv⟩
      refine ⟨a, b, c, rfl, ha.1 ?_, hb.1 ?_, hc.1 ?_⟩
      · cases h : deI32 a with
        | error e => rw [h] at hv; cases hv
        | ok w => exact ⟨w, rfl⟩
      · cases h : deI32 a with
        | error e => rw [h] at hv; cases hv
        | ok w =>
          rw [h] at hv
          cases h' : deI32 b with
          | error e => rw [h'] at hv; cases hv
          | ok w => exact ⟨w, rfl⟩
      · cases h : deI32 a with
        | error e => rw [h] at hv; cases hv
        | ok w =>
          rw [h] at hv
          cases h' : deI32 b with
          | error e => rw [h'] at hv; cases hv
          | ok w =>
            rw [h'] at hv
            cases h'' : deI32 c with
            | error e => rw [h''] at hv; cases hv
            | ok w => exact ⟨w, rfl⟩
    · rintro ⟨a', b', c', h, h1, h2, h3⟩
      simp only [Json.arr.injEq, List.cons.injEq, and_true] at h
      obtain ⟨rfl, rfl, rfl⟩ := h
      obtain ⟨_, h1⟩ := ha.2 h1
      obtain ⟨_, h2⟩ := hb.2 h2
      obtain ⟨_, h3⟩ := hc.2 h3
      rw [h1, h2, h3]
      exact ⟨_, rfl⟩
  · rename_i h
    constructor
    · rintro ⟨v, hv⟩; cases hv
    · rintro ⟨a, b, c, hs, _⟩; exact absurd hs (h a b c)

theorem FieldTy.de_ok (io : FloatIO D) (t : FieldTy) (j : Json D) : (∃ v, t.de io j = .ok v) ↔ t.WellTyped io j := by
  cases t with
  | i32 => exact deI32_ok j
  | string => exact deString_ok j
  | strings => exact deVec_ok _ _ deString_ok j
  | f32s => exact deVec_ok _ _ (deF32_ok io) j
  | f32ss => exact deVec_ok _ _ (deVec_ok _ _ (deF32_ok io)) j
  | i32ss => exact deVec_ok _ _ (deVec_ok _ _ deI32_ok) j
  | triples => exact deVec_ok _ _ deTriple_ok j

/-- the values an object has for a key -/
def valuesOf (kvs : List (String × Json D)) (key : String) : List (Json D) :=
  (kvs.filter fun kv => kv.1 == key).map Prod.snd

/-- `v` is what a list of candidate values means for a field: the default if there is none, its value if there is one -/
def FieldValue (io : FloatIO D) (t : FieldTy) (v : t.Carrier) : List (Json D) → Prop
  | [] => v = t.default
  | [j] => t.de io j = .ok v
  | _ => False

/-- every field of the record has the value that the object gives it -/
def Reads (io : FloatIO D) (kvs : List (String × Json D)) : (fs : List Field) → Rec fs → Prop
  | [], _ => True
  | f :: fs, r => FieldValue io f.ty r.1 (valuesOf kvs f.de) ∧ Reads io kvs fs r.2

/-- state of one variable during the loop: the value of the entries seen so far and still to come -/
def SlotValue (io : FloatIO D) (t : FieldTy) (s : Option t.Carrier) (todo : List (Json D)) (v : t.Carrier) : Prop :=
  match s with
  | none => FieldValue io t v todo
  | some w => todo = [] ∧ v = w

def SlotsRead (io : FloatIO D) (kvs : List (String × Json D)) : (fs : List Field) → Slots fs → Rec fs → Prop
  | [], _, _ => True
  | f :: fs, s, r => SlotValue io f.ty s.1 (valuesOf kvs f.de) r.1 ∧ SlotsRead io kvs fs s.2 r.2

theorem valuesOf_cons (k key : String) (v : Json D) (kvs : List (String × Json D)) :
    valuesOf ((k, v) :: kvs) key = if k = key then v :: valuesOf kvs key else valuesOf kvs key := by
  unfold valuesOf
  rw [List.filter_cons]
  by_cases h : k = key
  · simp [h]
  · simp [h]

theorem putEntry_skip (io : FloatIO D) (k : String) (v : Json D) (fs : List Field) (s : Slots fs)
    (h : ∀ f ∈ fs, f.de ≠ k) : putEntry io k v fs s = .ok s := by
  induction fs with
  | nil => rfl
  | cons f fs ih =>
    simp only [putEntry]
    rw [if_neg (fun hc => h f (List.mem_cons_self ..) hc.symm), ih s.2 (fun g hg => h g (List.mem_cons_of_mem _ hg))]
    rfl

theorem slotsRead_skip (io : FloatIO D) (k : String) (v : Json D) (kvs : List (String × Json D)) (fs : List Field)
    (s : Slots fs) (r : Rec fs) (h : ∀ f ∈ fs, f.de ≠ k) :
    SlotsRead io ((k, v) :: kvs) fs s r ↔ SlotsRead io kvs fs s r := by
  induction fs with
  | nil => exact Iff.rfl
  | cons f fs ih =>
    simp only [SlotsRead]
    rw [valuesOf_cons, if_neg (fun hc => h f (List.mem_cons_self ..) hc.symm),
      ih s.2 r.2 (fun g hg => h g (List.mem_cons_of_mem _ hg))]

/-- reading one entry -/
theorem putEntry_spec (io : FloatIO D) (k : String) (v : Json D) (kvs : List (String × Json D)) (fs : List Field)
    (hnd : (fs.map Field.de).Nodup) (s : Slots fs) (r : Rec fs) :
    SlotsRead io ((k, v) :: kvs) fs s r ↔ ∃ s', putEntry io k v fs s = .ok s' ∧ SlotsRead io kvs fs s' r := by
  induction fs with
  | nil => exact ⟨fun _ => ⟨s, rfl, trivial⟩, fun _ => trivial⟩
  | cons f fs ih =>
    rw [List.map_cons, List.nodup_cons] at hnd
    by_cases hk : k = f.de
    · have hskip : ∀ g ∈ fs, g.de ≠ k := by
        intro g hg hc
        exact hnd.1 (List.mem_map.2 ⟨g, hg, by rw [hc, hk]⟩)
      simp only [SlotsRead, putEntry]
      rw [if_pos hk, valuesOf_cons, if_pos hk, slotsRead_skip io k v kvs fs s.2 r.2 hskip]
      obtain ⟨s1, s2⟩ := s
      cases s1 with
      | some w =>
        simp only [SlotValue]
        constructor
        · rintro ⟨⟨h, _⟩, _⟩; cases h
        · rintro ⟨s', h, _⟩; cases h
      | none =>
        simp only [SlotValue]
        cases hv : valuesOf kvs f.de with
        | nil =>
          simp only [FieldValue, bind, Except.bind, pure, Except.pure]
          constructor
          · rintro ⟨h1, h2⟩
            rw [h1]
            exact ⟨_, rfl, ⟨trivial, rfl⟩, h2⟩
          · rintro ⟨s', h1, h2⟩
            cases hd : f.ty.de io v with
            | error e => rw [hd] at h1; cases h1
            | ok w =>
              rw [hd] at h1
              cases h1
              obtain ⟨⟨_, h3⟩, h4⟩ := h2
              exact ⟨by rw [h3], h4⟩
        | cons j js =>
          simp only [FieldValue, bind, Except.bind, pure, Except.pure]
          constructor
          · rintro ⟨h, _⟩; exact h.elim
          · rintro ⟨s', h1, h2⟩
            cases hd : f.ty.de io v with
            | error e => rw [hd] at h1; cases h1
            | ok w =>
              rw [hd] at h1
              cases h1
              obtain ⟨⟨h3, _⟩, _⟩ := h2
              cases h3
    · simp only [SlotsRead, putEntry]
      rw [if_neg hk, valuesOf_cons, if_neg hk, ih hnd.2 s.2 r.2]
      simp only [bind, Except.bind, pure, Except.pure]
      constructor
      · rintro ⟨h1, s', h2, h3⟩
        rw [h2]
        exact ⟨_, rfl, h1, h3⟩
      · rintro ⟨s', h1, h2⟩
        cases hp : putEntry io k v fs s.2 with
        | error e => rw [hp] at h1; cases h1
        | ok w => rw [hp] at h1; cases h1; exact ⟨h2.1, w, rfl, h2.2⟩

theorem slotsRead_nil (io : FloatIO D) (fs : List Field) (s : Slots fs) (r : Rec fs) :
    SlotsRead io ([] : List (String × Json D)) fs s r ↔ r = finish fs s := by
  induction fs with
  | nil => exact ⟨fun _ => rfl, fun _ => trivial⟩
  | cons f fs ih =>
    obtain ⟨s1, s2⟩ := s
    obtain ⟨r1, r2⟩ := r
    simp only [SlotsRead, finish, ih]
    have : SlotValue io f.ty s1 (valuesOf ([] : List (String × Json D)) f.de) r1 ↔ r1 = s1.getD f.ty.default := by
      cases s1 <;> simp [SlotValue, valuesOf, FieldValue]
    rw [this, Prod.ext_iff]

theorem mapLoop_spec (io : FloatIO D) (fs : List Field) (hnd : (fs.map Field.de).Nodup) (kvs : List (String × Json D)) :
    ∀ (s : Slots fs) (r : Rec fs), SlotsRead io kvs fs s r ↔ ∃ s', mapLoop io fs kvs s = .ok s' ∧ r = finish fs s' := by
  induction kvs with
  | nil =>
    intro s r
    rw [slotsRead_nil]
    constructor
    · exact fun h => ⟨s, rfl, h⟩
    · rintro ⟨s', h1, h2⟩; cases h1; exact h2
  | cons kv kvs ih =>
    obtain ⟨k, v⟩ := kv
    intro s r
    rw [putEntry_spec io k v kvs fs hnd]
    simp only [mapLoop, bind, Except.bind]
    constructor
    · rintro ⟨s', h1, h2⟩
      rw [h1]
      exact (ih s' r).1 h2
    · rintro ⟨s', h1, h2⟩
      cases hp : putEntry io k v fs s with
      | error e => rw [hp] at h1; cases h1
      | ok w =>
        rw [hp] at h1
        exact ⟨w, rfl, (ih w r).2 ⟨s', h1, h2⟩⟩

theorem slotsRead_empty (io : FloatIO D) (kvs : List (String × Json D)) (fs : List Field) (r : Rec fs) :
    SlotsRead io kvs fs (emptySlots fs) r ↔ Reads io kvs fs r := by
  induction fs with
  | nil => exact Iff.rfl
  | cons f fs ih =>
    simp only [SlotsRead, Reads, emptySlots, SlotValue]
    rw [ih]

theorem schema_nodup : (schema.map Field.de).Nodup := by decide

/-- **C72, exact result.** Deserialising an object yields `x` if and only if `file_frames` is empty and every other field
has its default value when its key is missing, and the decoded value when its key occurs exactly once with a decodable
value.  (Unknown keys play no role.) -/
theorem C72_object (io : FloatIO D) (kvs : List (String × Json D)) (x : Fold) :
    deserialize io (.obj kvs) = .ok x ↔ x.file_frames = "" ∧ Reads io kvs schema x.fields := by
  rw [← slotsRead_empty, mapLoop_spec io schema schema_nodup]
  simp only [deserialize, bind, Except.bind, pure, Except.pure]
  cases h : mapLoop io schema kvs (emptySlots schema) with
  | error e =>
    constructor
    · intro hc; cases hc
    · rintro ⟨_, s', hc, _⟩; cases hc
  | ok s =>
    constructor
    · intro hc; cases hc; exact ⟨rfl, s, rfl, rfl⟩
    · rintro ⟨h1, s', h2, h3⟩
      cases h2
      obtain ⟨xf, xs⟩ := x
      simp only at h1 h3
      rw [h1, h3]

theorem reads_exists (io : FloatIO D) (kvs : List (String × Json D)) (fs : List Field) :
    (∃ r, Reads io kvs fs r) ↔ ∀ f ∈ fs, valuesOf kvs f.de = [] ∨ ∃ j, valuesOf kvs f.de = [j] ∧ f.ty.WellTyped io j := by
  induction fs with
  | nil => exact ⟨fun _ f hf => (List.not_mem_nil hf).elim, fun _ => ⟨(), trivial⟩⟩
  | cons f fs ih =>
    have hone : (∃ v, FieldValue io f.ty v (valuesOf kvs f.de)) ↔
        (valuesOf kvs f.de = [] ∨ ∃ j, valuesOf kvs f.de = [j] ∧ f.ty.WellTyped io j) := by
      cases valuesOf kvs f.de with
      | nil => exact ⟨fun _ => Or.inl rfl, fun _ => ⟨_, rfl⟩⟩
      | cons j js =>
        cases js with
        | nil =>
          simp only [FieldValue, FieldTy.de_ok io f.ty j]
          constructor
          · exact fun h => Or.inr ⟨j, rfl, h⟩
          · rintro (h | ⟨j', h, hw⟩)
            · cases h
            · cases h; exact hw
        | cons j' js =>
          constructor
          · rintro ⟨v, h⟩; exact h.elim
          · rintro (h | ⟨j', h, hw⟩) <;> cases h
    simp only [List.mem_cons, forall_eq_or_imp, ← ih, ← hone, Reads]
    constructor
    · rintro ⟨r, h1, h2⟩; exact ⟨⟨r.1, h1⟩, ⟨r.2, h2⟩⟩
    · rintro ⟨⟨v, h1⟩, ⟨r, h2⟩⟩; exact ⟨(v, r), h1, h2⟩

/-- **C72.** Deserialising an object succeeds exactly when every known key occurs at most once, and with a well-typed value
if it occurs. -/
theorem C72_accepts_iff (io : FloatIO D) (kvs : List (String × Json D)) :
    (∃ x, deserialize io (.obj kvs) = .ok x) ↔
      ∀ f ∈ schema, valuesOf kvs f.de = [] ∨ ∃ j, valuesOf kvs f.de = [j] ∧ f.ty.WellTyped io j := by
  rw [← reads_exists io kvs schema]
  constructor
  · rintro ⟨x, h⟩; exact ⟨x.fields, ((C72_object io kvs x).1 h).2⟩
  · rintro ⟨r, h⟩; exact ⟨⟨r, ""⟩, (C72_object io kvs _).2 ⟨rfl, h⟩⟩

theorem de_ext {α : Type} (a b : De α) (h : ∀ x, a = .ok x ↔ b = .ok x) : a = b := by
  cases a with
  | ok x => exact ((h x).1 rfl).symm
  | error e =>
    cases b with
    | ok x => exact (h x).2 rfl
    | error e' => cases e; cases e'; rfl

theorem reads_congr (io : FloatIO D) (kvs kvs' : List (String × Json D)) (fs : List Field) (r : Rec fs)
    (h : ∀ f ∈ fs, (valuesOf kvs f.de).Perm (valuesOf kvs' f.de)) : Reads io kvs fs r ↔ Reads io kvs' fs r := by
  induction fs with
  | nil => exact Iff.rfl
  | cons f fs ih =>
    simp only [Reads]
    rw [ih r.2 (fun g hg => h g (List.mem_cons_of_mem _ hg))]
    have hp := h f (List.mem_cons_self ..)
    apply and_congr_left
    intro _
    generalize valuesOf kvs f.de = a at hp
    generalize valuesOf kvs' f.de = b at hp
    match a, b, hp with
    | [], b, hp => rw [List.nil_perm.1 hp]
    | [j], b, hp => rw [List.singleton_perm.1 hp]
    | j :: j' :: js, [], hp => exact absurd hp.length_eq (by simp)
    | j :: j' :: js, [_], hp => exact absurd hp.length_eq (by simp)
    | j :: j' :: js, _ :: _ :: _, hp => exact Iff.rfl

/-- **C72, order.** The order of the keys does not matter. -/
theorem C72_order (io : FloatIO D) (kvs kvs' : List (String × Json D)) (h : kvs.Perm kvs') :
    deserialize io (.obj kvs) = deserialize io (.obj kvs') := by
  apply de_ext
  intro x
  rw [C72_object, C72_object, reads_congr io kvs kvs' schema x.fields]
  intro f _
  exact (h.filter _).map _

/-- **C72, unknown keys.** Entries whose key is not the key of a field have no effect, wherever they occur. -/
theorem C72_unknown (io : FloatIO D) (kvs : List (String × Json D)) :
    deserialize io (.obj kvs) = deserialize io (.obj (kvs.filter fun kv => (schema.map Field.de).contains kv.1)) := by
  apply de_ext
  intro x
  rw [C72_object, C72_object, reads_congr]
  intro f hf
  have : valuesOf kvs f.de = valuesOf (kvs.filter fun kv => (schema.map Field.de).contains kv.1) f.de := by
    unfold valuesOf
    rw [List.filter_filter]
    congr 1
    apply List.filter_congr
    intro kv _
    by_cases hk : kv.1 = f.de
    · have : (schema.map Field.de).contains kv.1 = true := by
        rw [List.contains_iff_mem, hk]; exact List.mem_map.2 ⟨f, hf, rfl⟩
      rw [this, Bool.and_true]
    · simp [hk]
  rw [this]

/-- the empty object is the default value -/
example (io : FloatIO D) : deserialize io (.obj []) = .ok ⟨finish schema (emptySlots schema), ""⟩ := rfl


/-! ## C71: writing and reading back -/

/-- all numbers can be written (NaN and infinities cannot) -/
def Writable (io : FloatIO D) (xs : List F32) : Prop := ∀ x ∈ xs, ∃ d, io.enc x = some d

/-- serde_json reads back the numbers it writes -/
def FloatIO.Faithful (io : FloatIO D) : Prop := ∀ x d, io.enc x = some d → io.dec d = some x

theorem mapM_ser {α : Type} (ser : α → Json D) (de : Json D → De α) (xs : List α) (h : ∀ x ∈ xs, de (ser x) = .ok x) :
    (xs.map ser).mapM de = .ok xs := by
  induction xs with
  | nil => rfl
  | cons x xs ih =>
    rw [List.map_cons, List.mapM_cons, h x (List.mem_cons_self ..), ih (fun y hy => h y (List.mem_cons_of_mem _ hy))]
    rfl

theorem deI32_ser (i : I32) : deI32 (serI32 i : Json D) = .ok i := by
  unfold deI32 serI32
  simp only
  rw [dif_pos i.2]

theorem deF32_ser (io : FloatIO D) (hio : io.Faithful) (x : F32) (h : ∃ d, io.enc x = some d) :
    deF32 io (serF32 io x) = .ok x := by
  obtain ⟨d, hd⟩ := h
  unfold serF32
  rw [hd]
  simp only [deF32]
  rw [hio x d hd]

theorem deF32_null (io : FloatIO D) (x : F32) (h : io.enc x = none) : ¬ ∃ v, deF32 io (serF32 io x) = .ok v := by
  unfold serF32
  rw [h]
  rintro ⟨v, hv⟩; cases hv

/-- values that survive -/
def Survives (io : FloatIO D) : (t : FieldTy) → t.Carrier → Prop
  | .f32s, v => Writable io v
  | .f32ss, v => ∀ xs ∈ v, Writable io xs
  | _, _ => True

theorem de_ser (io : FloatIO D) (hio : io.Faithful) (t : FieldTy) (v : t.Carrier) (h : Survives io t v) :
    t.de io (t.ser io v) = .ok v := by
  cases t with
  | i32 => exact deI32_ser (D := D) v
  | string => rfl
  | strings => exact mapM_ser _ _ _ fun _ _ => rfl
  | f32s => exact mapM_ser _ _ _ fun x hx => deF32_ser io hio x (h x hx)
  | f32ss => exact mapM_ser _ _ _ fun xs hxs => mapM_ser _ _ _ fun x hx => deF32_ser io hio x (h xs hxs x hx)
  | i32ss => exact mapM_ser _ _ _ fun xs _ => mapM_ser _ _ _ fun x _ => deI32_ser x
  | triples =>
    refine mapM_ser _ _ _ fun x _ => ?_
    simp only [serTriple, deTriple, deI32_ser]
    rfl

theorem de_ser_fail (io : FloatIO D) (t : FieldTy) (v : t.Carrier) (h : ¬ Survives io t v) :
    ¬ ∃ w, t.de io (t.ser io v) = .ok w := by
  have hvec : ∀ xs : List F32, ¬ Writable io xs → ¬ ∃ w, (xs.map (serF32 io)).mapM (deF32 io) = .ok w := by
    intro xs hx
    rw [mapM_ok]
    intro hc
    refine hx fun x hxm => ?_
    obtain ⟨w, hw⟩ := hc (serF32 io x) (List.mem_map.2 ⟨x, hxm, rfl⟩)
    cases he : io.enc x with
    | some d => exact ⟨d, rfl⟩
    | none => exact absurd ⟨w, hw⟩ (deF32_null io x he)
  cases t with
  | f32s => exact hvec v h
  | f32ss =>
    show ¬ ∃ w, (v.map fun xs => (Json.arr (xs.map (serF32 io)) : Json D)).mapM (deVec (deF32 io)) = .ok w
    rw [mapM_ok]
    intro hc
    refine h fun xs hxm => ?_
    by_contra hw
    exact hvec xs hw (hc _ (List.mem_map.2 ⟨xs, hxm, rfl⟩))
  | _ => exact absurd trivial h

/-- the field `vertices_coords` -/
def Fold.vertices_coords (x : Fold) : List (List F32) := x.fields.2.2.2.2.2.2.2.2.2.2.2.2.1
/-- the field `edges_foldangles` -/
def Fold.edges_foldangles (x : Fold) : List F32 := x.fields.2.2.2.2.2.2.2.2.2.2.2.2.2.2.2.2.2.2.1
/-- the field `edges_lengths` -/
def Fold.edges_lengths (x : Fold) : List F32 := x.fields.2.2.2.2.2.2.2.2.2.2.2.2.2.2.2.2.2.2.2.1
/-- the field `faceorders` -/
def Fold.faceorders (x : Fold) : List (I32 × I32 × I32) := x.fields.2.2.2.2.2.2.2.2.2.2.2.2.2.2.2.2.2.2.2.2.2.2.1
/-- the field `edgeorders` -/
def Fold.edgeorders (x : Fold) : List (I32 × I32 × I32) := x.fields.2.2.2.2.2.2.2.2.2.2.2.2.2.2.2.2.2.2.2.2.2.2.2.1

/-- the value with `file_frames`, `edges_foldangles`, `faceorders` and `edgeorders` emptied -/
def Fold.forget : Fold → Fold
  | ⟨(a1, a2, a3, a4, a5, a6, a7, a8, a9, a10, a11, a12, a13, a14, a15, a16, a17, a18, _, a20, a21, a22, _, _,
      ()), _⟩ =>
    ⟨(a1, a2, a3, a4, a5, a6, a7, a8, a9, a10, a11, a12, a13, a14, a15, a16, a17, a18, [], a20, a21, a22, [], [], ()), ""⟩

theorem fieldValue_one (io : FloatIO D) (hio : io.Faithful) (t : FieldTy) (v w : t.Carrier) :
    FieldValue io t w [t.ser io v] ↔ Survives io t v ∧ w = v := by
  show t.de io (t.ser io v) = .ok w ↔ _
  constructor
  · intro h
    by_cases hs : Survives io t v
    · rw [de_ser io hio t v hs] at h
      cases h; exact ⟨hs, rfl⟩
    · exact absurd ⟨w, h⟩ (de_ser_fail io t v hs)
  · rintro ⟨hs, rfl⟩
    exact de_ser io hio t w hs

/-- fields read under another name than written get their default -/
def forgetRec : (fs : List Field) → Rec fs → Rec fs
  | [], _ => ()
  | f :: fs, r => (if f.ser = f.de then r.1 else f.ty.default, forgetRec fs r.2)

/-- the fields that are read back survive -/
def SurvivesRec (io : FloatIO D) : (fs : List Field) → Rec fs → Prop
  | [], _ => True
  | f :: fs, r => (f.ser = f.de → Survives io f.ty r.1) ∧ SurvivesRec io fs r.2

theorem valuesOf_append (a b : List (String × Json D)) (key : String) :
    valuesOf (a ++ b) key = valuesOf a key ++ valuesOf b key := by
  unfold valuesOf
  rw [List.filter_append, List.map_append]

theorem valuesOf_ser_none (io : FloatIO D) (fs : List Field) (r : Rec fs) (key : String) (h : ∀ f ∈ fs, f.ser ≠ key) :
    valuesOf (serFields io fs r) key = [] := by
  induction fs with
  | nil => rfl
  | cons f fs ih =>
    simp only [serFields]
    rw [valuesOf_cons, if_neg (h f (List.mem_cons_self ..)), ih r.2 (fun g hg => h g (List.mem_cons_of_mem _ hg))]

theorem reads_ser (io : FloatIO D) (hio : io.Faithful) (fs : List Field) : ∀ (pre : List (String × Json D)) (r r' : Rec fs),
    (∀ f ∈ fs, valuesOf pre f.de = []) → (fs.map Field.ser).Nodup →
    (∀ f ∈ fs, f.ser ≠ f.de → ∀ g ∈ fs, g.ser ≠ f.de) →
    (Reads io (pre ++ serFields io fs r) fs r' ↔ SurvivesRec io fs r ∧ r' = forgetRec fs r) := by
  induction fs with
  | nil => intro pre r r' _ _ _; exact ⟨fun _ => ⟨trivial, rfl⟩, fun _ => trivial⟩
  | cons f fs ih =>
    intro pre r r' hpre hnd hren
    rw [List.map_cons, List.nodup_cons] at hnd
    have hser : ∀ g ∈ fs, g.ser ≠ f.ser := fun g hg hc => hnd.1 (List.mem_map.2 ⟨g, hg, hc⟩)
    have htail : ∀ g ∈ fs, g.ser ≠ f.de := by
      intro g hg
      by_cases hf : f.ser = f.de
      · rw [← hf]; exact hser g hg
      · exact hren f (List.mem_cons_self ..) hf g (List.mem_cons_of_mem _ hg)
    have hde : ∀ g ∈ fs, f.ser ≠ g.de := by
      intro g hg
      by_cases hg' : g.ser = g.de
      · rw [← hg']; exact (hser g hg).symm
      · exact hren g (List.mem_cons_of_mem _ hg) hg' f (List.mem_cons_self ..)
    have ih := ih (pre ++ [(f.ser, f.ty.ser io r.1)]) r.2 r'.2 (by
      intro g hg
      rw [valuesOf_append, hpre g (List.mem_cons_of_mem _ hg), valuesOf_cons, if_neg (hde g hg)]
      rfl) hnd.2 (fun g hg h k hk => hren g (List.mem_cons_of_mem _ hg) h k (List.mem_cons_of_mem _ hk))
    rw [List.append_assoc, List.singleton_append] at ih
    simp only [Reads, serFields, SurvivesRec, forgetRec]
    rw [ih, valuesOf_append, hpre f (List.mem_cons_self ..), valuesOf_cons, valuesOf_ser_none io fs r.2 f.de htail,
      List.nil_append, Prod.ext_iff]
    by_cases hf : f.ser = f.de
    · rw [if_pos hf, if_pos hf, fieldValue_one io hio]
      constructor
      · rintro ⟨⟨h1, h2⟩, h3, h4⟩; exact ⟨⟨fun _ => h1, h3⟩, h2, h4⟩
      · rintro ⟨⟨h1, h3⟩, h2, h4⟩; exact ⟨⟨h1 hf, h2⟩, h3, h4⟩
    · rw [if_neg hf, if_neg hf]
      constructor
      · rintro ⟨h2, h3, h4⟩; exact ⟨⟨fun hc => absurd hc hf, h3⟩, h2, h4⟩
      · rintro ⟨⟨h1, h3⟩, h2, h4⟩; exact ⟨h2, h3, h4⟩

theorem forgetRec_schema (r : Rec schema) (s : String) : (⟨forgetRec schema r, ""⟩ : Fold) = Fold.forget ⟨r, s⟩ := rfl

theorem survivesRec_schema (io : FloatIO D) (r : Rec schema) (s : String) : SurvivesRec io schema r ↔
    (∀ xs ∈ Fold.vertices_coords ⟨r, s⟩, Writable io xs) ∧ Writable io (Fold.edges_lengths ⟨r, s⟩) := by
  simp only [schema, plain, SurvivesRec, Survives, String.reduceEq, true_and, and_true, forall_const, false_implies,
    implies_true]
  exact Iff.rfl

/-- **C71, exact result (the claim holds only partly).** If serde_json reads back the finite numbers it writes, then
serialising `x` and deserialising the result yields `y` if and only if all vertex coordinates and edge lengths are
finite and `y` is `x` with `file_frames`, `edges_foldangles`, `faceorders` and `edgeorders` emptied.  Missing: those four
fields (`C71_counterexample`) and non-finite numbers. -/
theorem C71_roundtrip_partial (io : FloatIO D) (hio : io.Faithful) (x y : Fold) :
    deserialize io (serialize io x) = .ok y ↔
      (∀ xs ∈ x.vertices_coords, Writable io xs) ∧ Writable io x.edges_lengths ∧ y = x.forget := by
  unfold serialize
  rw [C72_object]
  have h := reads_ser io hio schema [] x.fields y.fields (fun f _ => rfl) (by decide) (by decide)
  rw [List.nil_append] at h
  rw [h, survivesRec_schema io x.fields x.file_frames, ← forgetRec_schema, Fold.mk.injEq]
  tauto

/-- **C71, in particular**: values without the four fields and with finite numbers survive. -/
theorem C71_survives_partial (io : FloatIO D) (hio : io.Faithful) (x : Fold)
    (h1 : ∀ xs ∈ x.vertices_coords, Writable io xs) (h2 : Writable io x.edges_lengths) (h3 : x.file_frames = "")
    (h4 : x.edges_foldangles = []) (h5 : x.faceorders = []) (h6 : x.edgeorders = []) :
    deserialize io (serialize io x) = .ok x := by
  rw [C71_roundtrip_partial io hio]
  refine ⟨h1, h2, ?_⟩
  obtain ⟨⟨a1, a2, a3, a4, a5, a6, a7, a8, a9, a10, a11, a12, a13, a14, a15, a16, a17, a18, a19, a20, a21, a22, a23, a24,
    a25⟩, fr⟩ := x
  simp only [Fold.edges_foldangles, Fold.faceorders, Fold.edgeorders] at h3 h4 h5 h6
  subst h3 h4 h5 h6
  rfl

/-- **C71, numbers that are not finite.** JSON has no token for them: a length or coordinate that serde_json cannot write
becomes `null` at its place, and the document cannot be read back. -/
theorem C71_null_partial (io : FloatIO D) (hio : io.Faithful) (x : Fold) (v : F32) (hv : io.enc v = none) :
    (∀ i : Nat, x.edges_lengths[i]? = some v →
      (∃ (kvs : List (String × Json D)) (vals : List (Json D)), serialize io x = .obj kvs ∧
        ("edges_lengths", Json.arr vals) ∈ kvs ∧ vals[i]? = some Json.null) ∧
      ∃ e, deserialize io (serialize io x) = .error e) ∧
    ∀ (i j : Nat) (row : List F32), x.vertices_coords[i]? = some row → row[j]? = some v →
      (∃ (kvs : List (String × Json D)) (rows vals : List (Json D)), serialize io x = .obj kvs ∧
        ("vertices_coords", Json.arr rows) ∈ kvs ∧ rows[i]? = some (Json.arr vals) ∧ vals[j]? = some Json.null) ∧
      ∃ e, deserialize io (serialize io x) = .error e := by
  have hs : serF32 io v = .null := by unfold serF32; rw [hv]
  have herr : ¬ ((∀ xs ∈ x.vertices_coords, Writable io xs) ∧ Writable io x.edges_lengths) →
      ∃ e, deserialize io (serialize io x) = .error e := by
    intro hn
    cases h : deserialize io (serialize io x) with
    | error e => exact ⟨e, rfl⟩
    | ok y =>
      obtain ⟨h1, h2, _⟩ := (C71_roundtrip_partial io hio x y).1 h
      exact absurd ⟨h1, h2⟩ hn
  constructor
  · intro i hi
    refine ⟨⟨_, x.edges_lengths.map (serF32 io), rfl, ?_, ?_⟩, herr ?_⟩
    · simp [serFields, schema, plain, FieldTy.ser, Fold.edges_lengths]
    · rw [List.getElem?_map, hi, Option.map_some, hs]
    · rintro ⟨_, h⟩
      have := h v (List.mem_of_getElem? hi)
      rw [hv] at this
      simp at this
  · intro i j row hi hj
    refine ⟨⟨_, x.vertices_coords.map fun xs => .arr (xs.map (serF32 io)), row.map (serF32 io), rfl, ?_, ?_, ?_⟩, herr ?_⟩
    · simp [serFields, schema, plain, FieldTy.ser, Fold.vertices_coords]
    · rw [List.getElem?_map, hi, Option.map_some]
    · rw [List.getElem?_map, hj, Option.map_some, hs]
    · rintro ⟨h, _⟩
      have := h row (List.mem_of_getElem? hi) v (List.mem_of_getElem? hj)
      rw [hv] at this
      simp at this

/-- a number format that reads back what it writes -/
example : (⟨fun x => if (x == F32.nan) = true then none else some x, fun d => some d, fun _ => F32.lit 0⟩ : FloatIO F32).Faithful := by
  intro x d h
  simp only at h
  split at h
  · cases h
  · cases h; rfl

/-- NaN cannot be written in it -/
example : (⟨fun x => if (x == F32.nan) = true then none else some x, fun d => some d, fun _ => F32.lit 0⟩ : FloatIO F32).enc F32.nan =
    none := by decide +kernel

/-- **C71 is false**, whatever the number format: a value with a layer order between two faces is read back without it. -/
theorem C71_counterexample (io : FloatIO D) : ∃ x y : Fold, x.faceorders = [(⟨0, by decide⟩, ⟨1, by decide⟩, ⟨1, by decide⟩)] ∧
    deserialize io (serialize io x) = .ok y ∧ y.faceorders = [] := by
  refine ⟨⟨(⟨0, by decide⟩, "", "", "", "", [], "", "", "", [], [], "", [], [], [], [], [], [], [], [], [], [],
    [(⟨0, by decide⟩, ⟨1, by decide⟩, ⟨1, by decide⟩)], [], ()), ""⟩, ⟨finish schema (emptySlots schema), ""⟩, rfl, ?_, rfl⟩
  rfl

/-! ## C73, C74 -/

/-- **C73, exactly when it panics.** `from_file` returns `Err` exactly for files that cannot be read, and panics exactly when
the contents are not JSON or not a value accepted by `deserialize`.  Missing: the claim for such contents is false. -/
theorem C73_from_file_partial (io : FloatIO D) (parse : String → Option (Json D)) (file : Except IoError String) :
    ((∃ e, fromFile io parse file = .ok (.error e)) ↔ ∃ e, file = .error e) ∧
    ((∃ p, fromFile io parse file = .error p) ↔
      ∃ contents, file = .ok contents ∧ ∀ json x, parse contents = some json → deserialize io json ≠ .ok x) ∧
    (∀ x, fromFile io parse file = .ok (.ok x) ↔
      ∃ contents json, file = .ok contents ∧ parse contents = some json ∧ deserialize io json = .ok x) := by
  cases file with
  | error e =>
    have hf : fromFile io parse (.error e) = .ok (.error e) := rfl
    rw [hf]
    simp
  | ok contents =>
    cases hp : parse contents with
    | none =>
      have hf : fromFile io parse (.ok contents) = .error .unwrapFailed := by simp only [fromFile, hp]
      rw [hf]
      refine ⟨by simp, ⟨fun _ => ⟨contents, rfl, fun j x h => (by rw [hp] at h; cases h)⟩, fun _ => ⟨_, rfl⟩⟩,
        fun x => ⟨fun h => (by cases h), ?_⟩⟩
      rintro ⟨c, j, hc, h, _⟩
      cases hc
      rw [hp] at h; cases h
    | some json =>
      cases hd : deserialize io json with
      | error e =>
        have hf : fromFile io parse (.ok contents) = .error .unwrapFailed := by simp only [fromFile, hp, hd]
        rw [hf]
        refine ⟨by simp, ⟨fun _ => ⟨contents, rfl, fun j x h hx => ?_⟩, fun _ => ⟨_, rfl⟩⟩, fun x => ⟨fun h => (by cases h), ?_⟩⟩
        · rw [hp] at h; cases h; rw [hd] at hx; cases hx
        · rintro ⟨c, j, hc, h, hx⟩
          cases hc
          rw [hp] at h; cases h
          rw [hd] at hx; cases hx
      | ok y =>
        have hf : fromFile io parse (.ok contents) = .ok (.ok y) := by simp only [fromFile, hp, hd, resolve]
        rw [hf]
        refine ⟨by simp, ⟨fun h => (by obtain ⟨p, h⟩ := h; cases h), ?_⟩, fun x => ⟨?_, ?_⟩⟩
        · rintro ⟨c, hc, h⟩
          cases hc
          exact absurd hd (h json y hp)
        · intro h
          cases h
          exact ⟨contents, json, rfl, hp, hd⟩
        · rintro ⟨c, j, hc, h, hx⟩
          cases hc
          rw [hp] at h; cases h
          rw [hd] at hx; cases hx
          rfl

/-- **C73 is false**: a readable file whose contents are not a JSON text makes `from_file` panic. -/
theorem C73_counterexample (io : FloatIO D) (parse : String → Option (Json D)) (h : parse "" = none) :
    fromFile io parse (.ok "") = .error .unwrapFailed := by
  unfold fromFile
  simp only [h]

/-- **C74 is false**: `validate` accepts everything, for example two vertices with coordinates and one vertex with
neighbours. -/
theorem C74_counterexample : (∀ x, validate x = true) ∧ ∃ x : Fold, x.vertices_coords.length = 2 ∧
    (x.fields.2.2.2.2.2.2.2.2.2.2.2.2.2.1 : List (List I32)).length = 1 :=
  ⟨fun _ => rfl, ⟨(⟨0, by decide⟩, "", "", "", "", [], "", "", "", [], [], "", [[], []], [[]], [], [], [], [], [], [], [], [],
    [], [], ()), ""⟩, rfl, rfl⟩

/-- an object with an unknown key, keys in unusual order and a missing rest -/
example (io : FloatIO D) : ∃ x, deserialize io (.obj [("zzz", .null), ("edges_assignment", .arr [.str "M", .str "V"]),
    ("file_spec", .num (.int 1))]) = .ok x ∧ x.fields.1.1 = 1 := ⟨_, rfl, rfl⟩

/-- a repeated key and an ill-typed value are rejected -/
example (io : FloatIO D) : deserialize io (.obj [("file_spec", .num (.int 1)), ("file_spec", .num (.int 1))]) =
    .error .error ∧ deserialize io (.obj [("file_spec", .str "1")]) = .error .error := ⟨rfl, rfl⟩

end Kami.FoldFile
