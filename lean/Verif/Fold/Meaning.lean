import Verif.Fold.Arrays
import Mathlib.Data.List.Forall2
/-!
# C72: the value of a FOLD field, written out

`C72_object` refers to the decoder of the field types.  Here the values are described directly: what a JSON value means as a
value of a field type, and which value a missing key gets.
-/

set_option autoImplicit false

namespace Kami.FoldFile

open Kami

variable {D : Type}

/-! ### specification -/

/-- the integer token with this value -/
def MeansInt (j : Json D) (i : I32) : Prop := j = .num (.int i.1)

/-- a number token, whose value `serde_json` converts to `f32`, and that is not out of range -/
def MeansFloat (io : FloatIO D) (j : Json D) (x : F32) : Prop :=
  (∃ z, j = .num (.int z) ∧ x = io.decInt z) ∨ ∃ d, j = .num (.float d) ∧ io.dec d = some x

/-- an array with the same number of elements, in the same order -/
def MeansList {α : Type} (R : Json D → α → Prop) (j : Json D) (v : List α) : Prop :=
  ∃ xs, j = .arr xs ∧ List.Forall₂ R xs v

/-- what a JSON value means as a value of a field type -/
def Means (io : FloatIO D) : (t : FieldTy) → Json D → t.Carrier → Prop
  | .i32, j, v => MeansInt j v
  | .string, j, v => j = .str v
  | .strings, j, v => j = .arr (v.map .str)
  | .f32s, j, v => MeansList (MeansFloat io) j v
  | .f32ss, j, v => MeansList (MeansList (MeansFloat io)) j v
  | .i32ss, j, v => MeansList (MeansList MeansInt) j v
  | .triples, j, v => MeansList (fun j (t : I32 × I32 × I32) =>
      j = .arr [.num (.int t.1.1), .num (.int t.2.1.1), .num (.int t.2.2.1)]) j v

/-- the value of a field whose key is missing: 0, the empty string or the empty list -/
def IsEmpty : (t : FieldTy) → t.Carrier → Prop
  | .i32, v => v.1 = 0
  | .string, v => v = ""
  | .strings, v => v = []
  | .f32s, v => v = []
  | .f32ss, v => v = []
  | .i32ss, v => v = []
  | .triples, v => v = []

/-- every field has the value that its key has, once, and is empty when the key is missing -/
def ReadsAs (io : FloatIO D) (kvs : List (String × Json D)) : (fs : List Field) → Rec fs → Prop
  | [], _ => True
  | f :: fs, r => (((∀ kv ∈ kvs, kv.1 ≠ f.de) ∧ IsEmpty f.ty r.1) ∨
      ∃ before after j, kvs = before ++ (f.de, j) :: after ∧ (∀ kv ∈ before ++ after, kv.1 ≠ f.de) ∧ Means io f.ty j r.1) ∧
      ReadsAs io kvs fs r.2

/-! ### the decoder -/

theorem deI32_means (j : Json D) (v : I32) : deI32 j = .ok v ↔ MeansInt j v := by
  unfold deI32 MeansInt
  split
  · rename_i z
    split_ifs with h
    · constructor
      · intro hv; cases hv; rfl
      · intro hv
        simp only [Json.num.injEq, JNum.int.injEq] at hv
        subst hv; rfl
    · constructor
      · intro hv; cases hv
      · intro hv
        simp only [Json.num.injEq, JNum.int.injEq] at hv
        subst hv; exact absurd v.2 h
  · rename_i h
    constructor
    · intro hv; cases hv
    · intro hv; exact absurd hv (h _)

theorem deString_means (j : Json D) (v : String) : deString j = .ok v ↔ j = .str v := by
  unfold deString
  split
  · simp
  · rename_i h
    constructor
    · intro hv; cases hv
    · intro hv; exact absurd hv (h _)

theorem deF32_means (io : FloatIO D) (j : Json D) (v : F32) : deF32 io j = .ok v ↔ MeansFloat io j v := by
  unfold deF32 MeansFloat
  split
  · rename_i z
    simp [eq_comm]
  · rename_i d
    cases hd : io.dec d with
    | none =>
      constructor
      · intro hv; cases hv
      · rintro (⟨z, h, _⟩ | ⟨d', h, h'⟩)
        · cases h
        · cases h; rw [hd] at h'; cases h'
    | some x =>
      constructor
      · intro hv; cases hv; exact .inr ⟨d, rfl, hd⟩
      · rintro (⟨z, h, _⟩ | ⟨d', h, h'⟩)
        · cases h
        · cases h; rw [hd] at h'; cases h'; rfl
  · rename_i h1 h2
    constructor
    · intro hv; cases hv
    · rintro (⟨z, h, _⟩ | ⟨d, h, _⟩)
      · exact absurd h (h1 z)
      · exact absurd h (h2 d)

theorem mapM_means {α : Type} (de : Json D → De α) (R : Json D → α → Prop) (h : ∀ j v, de j = .ok v ↔ R j v)
    (xs : List (Json D)) (v : List α) : xs.mapM de = .ok v ↔ List.Forall₂ R xs v := by
  induction xs generalizing v with
  | nil => simp [pure, Except.pure, eq_comm]
  | cons x xs ih =>
    rw [List.mapM_cons, List.forall₂_cons_left_iff]
    simp only [bind, Except.bind, pure, Except.pure]
    cases hx : de x with
    | error e =>
      constructor
      · intro hc; cases hc
      · rintro ⟨b, u, hb, _⟩; rw [← h, hx] at hb; cases hb
    | ok w =>
      cases hs : xs.mapM de with
      | error e =>
        constructor
        · intro hc; cases hc
        · rintro ⟨b, u, _, hb, _⟩; rw [← ih, hs] at hb; cases hb
      | ok u =>
        constructor
        · intro hc; cases hc
          exact ⟨w, u, (h _ _).1 hx, (ih _).1 hs, rfl⟩
        · rintro ⟨b, u', hb, hu, rfl⟩
          rw [← h, hx] at hb; rw [← ih, hs] at hu
          cases hb; cases hu; rfl

theorem deVec_means {α : Type} (de : Json D → De α) (R : Json D → α → Prop) (h : ∀ j v, de j = .ok v ↔ R j v) (j : Json D)
    (v : List α) : deVec de j = .ok v ↔ MeansList R j v := by
  unfold deVec MeansList
  split
  · rename_i xs
    rw [mapM_means de R h]
    simp
  · rename_i h'
    constructor
    · intro hv; cases hv
    · rintro ⟨s, hs, _⟩; exact absurd hs (h' s)

theorem deTriple_means (j : Json D) (t : I32 × I32 × I32) :
    deTriple j = .ok t ↔ j = .arr [.num (.int t.1.1), .num (.int t.2.1.1), .num (.int t.2.2.1)] := by
  unfold deTriple
  split
  · rename_i a b c
    simp only [bind, Except.bind, pure, Except.pure, Json.arr.injEq, List.cons.injEq, and_true]
    have ha := deI32_means a
    have hb := deI32_means b
    have hc := deI32_means c
    unfold MeansInt at ha hb hc
    rw [← ha, ← hb, ← hc]
    cases deI32 a with
    | error e => simp
    | ok a' =>
      cases deI32 b with
      | error e => simp
      | ok b' =>
        cases deI32 c with
        | error e => simp
        | ok c' =>
          obtain ⟨t1, t2, t3⟩ := t
          simp
  · rename_i h
    constructor
    · intro hv; cases hv
    · intro hv; exact absurd hv (h _ _ _)

theorem forall₂_map {α β : Type} (f : β → α) (xs : List α) (v : List β) :
    List.Forall₂ (fun x y => x = f y) xs v ↔ xs = v.map f := by
  induction xs generalizing v with
  | nil => cases v <;> simp
  | cons x xs ih => cases v <;> simp [ih]

theorem de_means (io : FloatIO D) (t : FieldTy) (j : Json D) (v : t.Carrier) : t.de io j = .ok v ↔ Means io t j v := by
  cases t with
  | i32 => exact deI32_means j v
  | string => exact deString_means j v
  | strings =>
    refine (deVec_means _ _ deString_means j v).trans ?_
    unfold MeansList Means
    constructor
    · rintro ⟨xs, rfl, h⟩; rw [(forall₂_map _ _ _).1 h]
    · rintro rfl; exact ⟨_, rfl, (forall₂_map _ _ _).2 rfl⟩
  | f32s => exact deVec_means _ _ (deF32_means io) j v
  | f32ss => exact deVec_means _ _ (deVec_means _ _ (deF32_means io)) j v
  | i32ss => exact deVec_means _ _ (deVec_means _ _ deI32_means) j v
  | triples => exact deVec_means _ _ deTriple_means j v

theorem default_isEmpty (t : FieldTy) (v : t.Carrier) : v = t.default ↔ IsEmpty t v := by
  cases t with
  | i32 => exact Subtype.ext_iff
  | _ => exact Iff.rfl

theorem fieldValue_iff (io : FloatIO D) (kvs : List (String × Json D)) (key : String) (t : FieldTy) (v : t.Carrier) :
    FieldValue io t v (valuesOf kvs key) ↔ (((∀ kv ∈ kvs, kv.1 ≠ key) ∧ IsEmpty t v) ∨
      ∃ before after j, kvs = before ++ (key, j) :: after ∧ (∀ kv ∈ before ++ after, kv.1 ≠ key) ∧ Means io t j v) := by
  have hnil : ∀ l : List (String × Json D), valuesOf l key = [] ↔ ∀ kv ∈ l, kv.1 ≠ key := by
    intro l; unfold valuesOf; simp [List.filter_eq_nil_iff]
  have happ : ∀ l m : List (String × Json D), valuesOf (l ++ m) key = valuesOf l key ++ valuesOf m key := by
    intro l m; unfold valuesOf; simp
  have hone : ∀ (l : List (String × Json D)) j, valuesOf l key = [j] ↔
      ∃ before after, l = before ++ (key, j) :: after ∧ ∀ kv ∈ before ++ after, kv.1 ≠ key := by
    intro l j
    constructor
    · intro h
      have hf : l.filter (fun kv => kv.1 == key) = [(key, j)] := by
        unfold valuesOf at h
        rw [List.map_eq_singleton_iff] at h
        obtain ⟨⟨k, j'⟩, h1, h2⟩ := h
        have : (k, j') ∈ l.filter (fun kv => kv.1 == key) := by rw [h1]; simp
        have hk := (List.mem_filter.1 this).2
        simp only [beq_iff_eq] at hk
        simp only at h2
        rw [h1, hk, h2]
      obtain ⟨l1, l2, h1, h2, h3⟩ := List.filter_eq_cons_iff.1 hf
      refine ⟨l1, l2, h1, ?_⟩
      intro kv hkv
      rcases List.mem_append.1 hkv with hm | hm
      · simpa using h2 kv hm
      · simpa using List.filter_eq_nil_iff.1 h3.2 kv hm
    · rintro ⟨b, a, rfl, h⟩
      rw [happ, (hnil b).2 (fun kv hkv => h kv (by simp [hkv])), valuesOf_cons, if_pos rfl,
        (hnil a).2 (fun kv hkv => h kv (by simp [hkv]))]
      rfl
  constructor
  · intro h
    match hv : valuesOf kvs key with
    | [] =>
      rw [hv] at h
      exact Or.inl ⟨(hnil kvs).1 hv, (default_isEmpty t v).1 h⟩
    | [j] =>
      rw [hv] at h
      obtain ⟨b, a, h1, h2⟩ := (hone kvs j).1 hv
      exact Or.inr ⟨b, a, j, h1, h2, (de_means io t j v).1 h⟩
    | _ :: _ :: _ => rw [hv] at h; exact h.elim
  · rintro (⟨h1, h2⟩ | ⟨b, a, j, h1, h2, h3⟩)
    · rw [(hnil kvs).2 h1]; exact (default_isEmpty t v).2 h2
    · rw [(hone kvs j).2 ⟨b, a, h1, h2⟩]; exact (de_means io t j v).2 h3

theorem reads_iff (io : FloatIO D) (kvs : List (String × Json D)) (fs : List Field) (r : Rec fs) :
    Reads io kvs fs r ↔ ReadsAs io kvs fs r := by
  induction fs with
  | nil => exact Iff.rfl
  | cons f fs ih => exact and_congr (fieldValue_iff io kvs f.de f.ty r.1) (ih r.2)

/-- **C72, meaning.** Deserialising an object yields `x` if and only if every field of `x` is empty (0, `""`, `[]`) with its
key missing, or its key occurs exactly once with a JSON value that means the value of the field; `file_frames` is empty. -/
theorem C72_meaning (io : FloatIO D) (kvs : List (String × Json D)) (x : Fold) :
    deserialize io (.obj kvs) = .ok x ↔ x.file_frames = "" ∧ ReadsAs io kvs schema x.fields := by
  rw [C72_object, reads_iff]

/-- the keys that are read and their types, in the order of the struct -/
theorem C72_keys : schema.map (fun f => (f.de, f.ty)) =
    [("file_spec", .i32), ("file_creator", .string), ("file_author", .string), ("file_title", .string),
     ("file_description", .string), ("file_classes", .strings), ("frame_author", .string), ("frame_title", .string),
     ("frame_description", .string), ("frame_classes", .strings), ("frame_attributes", .strings), ("frame_unit", .string),
     ("vertices_coords", .f32ss), ("vertices_vertices", .i32ss), ("vertices_faces", .i32ss), ("edges_vertices", .i32ss),
     ("edges_faces", .i32ss), ("edges_assignment", .strings), ("edges_foldAngles", .f32s), ("edges_lengths", .f32s),
     ("faces_vertices", .i32ss), ("faces_edges", .i32ss), ("faceOrders", .triples), ("edgeOrders", .triples)] := rfl

/-- the empty object gives the empty value, in every field -/
theorem C72_empty_object (io : FloatIO D) : ∃ x, deserialize io (.obj []) = .ok x ∧ x.file_frames = "" ∧
    x.fields = (⟨0, by decide⟩, "", "", "", "", [], "", "", "", [], [], "", [], [], [], [], [], [], [], [], [], [], [], [], ()) :=
  ⟨_, rfl, rfl, rfl⟩

/-- an object with two known keys and an unknown one -/
example (io : FloatIO D) : ∃ x, deserialize io (.obj [("edges_vertices", .arr [.arr [.num (.int 3), .num (.int 5)]]),
    ("camera", .null), ("file_spec", .num (.int 1))]) = .ok x ∧ x.fields.1.1 = 1 ∧ x.fields.2.1 = "" ∧
    x.fields.2.2.2.2.2.2.2.2.2.2.2.2.2.2.2.1.map (List.map Subtype.val) = [[3, 5]] := ⟨_, rfl, rfl, rfl, rfl⟩

end Kami.FoldFile
