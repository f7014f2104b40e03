import Verif.Fold.Theorems
/-!
# FOLD files written as arrays, and other top-level values
-/

set_option autoImplicit false

namespace Kami.FoldFile

open Kami

variable {D : Type}

theorem valuesOf_zip_none (names : List String) (xs : List (Json D)) (key : String) (h : key ∉ names) :
    valuesOf (names.zip xs) key = [] := by
  induction names generalizing xs with
  | nil => rfl
  | cons n names ih =>
    cases xs with
    | nil => rfl
    | cons x xs =>
      rw [List.zip_cons_cons, valuesOf_cons, if_neg (fun e => h (by rw [e]; exact List.mem_cons_self ..)),
        ih _ (fun hc => h (List.mem_cons_of_mem _ hc))]

theorem reads_prefix (io : FloatIO D) (k : String) (x : Json D) (kvs : List (String × Json D)) (fs : List Field) (r : Rec fs)
    (h : k ∉ fs.map Field.de) : Reads io ((k, x) :: kvs) fs r ↔ Reads io kvs fs r := by
  apply reads_congr
  intro f hf
  rw [valuesOf_cons, if_neg]
  rintro rfl
  exact h (List.mem_map_of_mem hf)

theorem seqLoop_spec (io : FloatIO D) (fs : List Field) (hnd : (fs.map Field.de).Nodup) (xs : List (Json D)) (r : Rec fs) :
    seqLoop io fs xs = .ok r ↔ xs.length ≤ fs.length ∧ Reads io ((fs.map Field.de).zip xs) fs r := by
  induction fs generalizing xs with
  | nil =>
    cases xs with
    | nil => exact ⟨fun _ => ⟨le_rfl, trivial⟩, fun _ => rfl⟩
    | cons x xs =>
      constructor
      · intro h; cases h
      · rintro ⟨h, _⟩; simp at h
  | cons f fs ih =>
    rw [List.map_cons, List.nodup_cons] at hnd
    obtain ⟨r1, r2⟩ := r
    cases xs with
    | nil =>
      have := ih hnd.2 [] r2
      simp only [List.zip_nil_right] at this
      simp only [seqLoop, bind, Except.bind, pure, Except.pure, List.zip_nil_right, Reads, valuesOf, List.filter_nil,
        List.map_nil, FieldValue]
      cases hs : seqLoop io fs ([] : List (Json D)) with
      | error e =>
        rw [hs] at this
        constructor
        · intro h; cases h
        · rintro ⟨_, _, h⟩; cases this.2 ⟨Nat.zero_le _, h⟩
      | ok rest =>
        rw [hs] at this
        constructor
        · intro h; cases h
          exact ⟨Nat.zero_le _, rfl, (this.1 rfl).2⟩
        · rintro ⟨_, h1, h2⟩
          cases this.2 ⟨Nat.zero_le _, h2⟩
          rw [h1]
    | cons x xs =>
      have := ih hnd.2 xs r2
      simp only [seqLoop, bind, Except.bind, pure, Except.pure, Reads, List.map_cons, List.zip_cons_cons]
      rw [reads_prefix io _ _ _ _ _ hnd.1, valuesOf_cons, if_pos rfl, valuesOf_zip_none _ _ _ hnd.1]
      simp only [FieldValue, List.length_cons, Nat.add_le_add_iff_right]
      cases hd : f.ty.de io x with
      | error e =>
        constructor
        · intro h; cases h
        · rintro ⟨_, h, _⟩; cases h
      | ok v =>
        cases hs : seqLoop io fs xs with
        | error e =>
          rw [hs] at this
          constructor
          · intro h; cases h
          · rintro ⟨h, _, h2⟩; cases this.2 ⟨h, h2⟩
        | ok rest =>
          rw [hs] at this
          constructor
          · intro h; cases h
            exact ⟨(this.1 rfl).1, rfl, (this.1 rfl).2⟩
          · rintro ⟨h, h1, h2⟩
            cases h1
            cases this.2 ⟨h, h2⟩
            rfl

/-- **C78.** An array of at most 24 values is read exactly like the object that gives these values to the first fields, in
the order of the struct and under the names that are read; an array of more values is rejected. -/
theorem C78_array (io : FloatIO D) (xs : List (Json D)) :
    (xs.length ≤ 24 → deserialize io (.arr xs) = deserialize io (.obj ((schema.map Field.de).zip xs))) ∧
    (24 < xs.length → ∀ x, deserialize io (.arr xs) ≠ .ok x) := by
  have key : ∀ x, deserialize io (.arr xs) = .ok x ↔
      xs.length ≤ 24 ∧ deserialize io (.obj ((schema.map Field.de).zip xs)) = .ok x := by
    intro x
    rw [C72_object]
    have hs := fun r => seqLoop_spec io schema schema_nodup xs r
    have hlen : schema.length = 24 := rfl
    rw [hlen] at hs
    simp only [deserialize, bind, Except.bind, pure, Except.pure]
    obtain ⟨xf, xs'⟩ := x
    cases h : seqLoop io schema xs with
    | error e =>
      rw [h] at hs
      constructor
      · intro hc; cases hc
      · rintro ⟨h1, _, h3⟩; cases (hs xf).2 ⟨h1, h3⟩
    | ok r =>
      rw [h] at hs
      constructor
      · intro hc; cases hc
        exact ⟨((hs _).1 rfl).1, rfl, ((hs _).1 rfl).2⟩
      · rintro ⟨h1, h2, h3⟩
        cases (hs xf).2 ⟨h1, h3⟩
        simp only at h2
        rw [h2]
  constructor
  · intro h
    apply de_ext
    intro x
    rw [key x]
    exact ⟨fun h => h.2, fun h2 => ⟨h, h2⟩⟩
  · intro h x hx
    have := ((key x).1 hx).1
    omega

/-- the names, in order -/
theorem C78_names : schema.map Field.de = ["file_spec", "file_creator", "file_author", "file_title", "file_description",
    "file_classes", "frame_author", "frame_title", "frame_description", "frame_classes", "frame_attributes", "frame_unit",
    "vertices_coords", "vertices_vertices", "vertices_faces", "edges_vertices", "edges_faces", "edges_assignment",
    "edges_foldAngles", "edges_lengths", "faces_vertices", "faces_edges", "faceOrders", "edgeOrders"] := rfl

/-- **C78, acceptance.** An array is accepted exactly when it has at most 24 elements and each is well typed for the field
at its position. -/
theorem C78_accepts_iff (io : FloatIO D) (xs : List (Json D)) :
    (∃ x, deserialize io (.arr xs) = .ok x) ↔
      xs.length ≤ 24 ∧ ∀ (i : Nat) (f : Field) (j : Json D), schema[i]? = some f → xs[i]? = some j → f.ty.WellTyped io j := by
  have gen : ∀ (fs : List Field) (xs : List (Json D)), (∃ r, seqLoop io fs xs = .ok r) ↔
      xs.length ≤ fs.length ∧ ∀ (i : Nat) (f : Field) (j : Json D), fs[i]? = some f → xs[i]? = some j → f.ty.WellTyped io j := by
    intro fs
    induction fs with
    | nil =>
      intro xs
      cases xs with
      | nil => exact ⟨fun _ => ⟨le_rfl, by simp⟩, fun _ => ⟨(), rfl⟩⟩
      | cons x xs =>
        constructor
        · rintro ⟨r, h⟩; cases h
        · rintro ⟨h, _⟩; simp at h
    | cons f fs ih =>
      intro xs
      cases xs with
      | nil =>
        obtain ⟨r, hr⟩ := (ih []).2 ⟨Nat.zero_le _, by simp⟩
        refine ⟨fun _ => ⟨Nat.zero_le _, by simp⟩, fun _ => ⟨(f.ty.default, r), ?_⟩⟩
        simp [seqLoop, hr, bind, Except.bind, pure, Except.pure]
      | cons x xs =>
        have hd := FieldTy.de_ok io f.ty x
        simp only [seqLoop, bind, Except.bind, pure, Except.pure]
        constructor
        · rintro ⟨r, h⟩
          cases hx : f.ty.de io x with
          | error e => rw [hx] at h; cases h
          | ok v =>
            cases hs : seqLoop io fs xs with
            | error e => simp only [hx, hs] at h; cases h
            | ok rest =>
              obtain ⟨h1, h2⟩ := (ih xs).1 ⟨rest, hs⟩
              refine ⟨by simpa using h1, ?_⟩
              intro i g j hg hj
              cases i with
              | zero => cases hg; cases hj; exact hd.1 ⟨v, hx⟩
              | succ i => exact h2 i g j (by simpa using hg) (by simpa using hj)
        · rintro ⟨h1, h2⟩
          obtain ⟨v, hv⟩ := hd.2 (h2 0 f x rfl rfl)
          obtain ⟨r, hr⟩ := (ih xs).2 ⟨by simpa using h1, fun i g j hg hj => h2 (i + 1) g j (by simpa using hg) (by simpa using hj)⟩
          exact ⟨(v, r), by simp only [hv, hr]⟩
  have := gen schema xs
  rw [show schema.length = 24 from rfl] at this
  rw [← this]
  simp only [deserialize, bind, Except.bind, pure, Except.pure]
  constructor
  · rintro ⟨x, h⟩
    cases hs : seqLoop io schema xs with
    | error e => rw [hs] at h; cases h
    | ok r => exact ⟨r, rfl⟩
  · rintro ⟨r, h⟩; rw [h]; exact ⟨_, rfl⟩

/-- **C78, other values.** Nothing but objects and arrays is accepted. -/
theorem C78_scalar (io : FloatIO D) (j : Json D) (x : Fold) (h : deserialize io j = .ok x) :
    (∃ kvs, j = .obj kvs) ∨ ∃ xs, j = .arr xs := by
  cases j with
  | obj kvs => exact Or.inl ⟨kvs, rfl⟩
  | arr xs => exact Or.inr ⟨xs, rfl⟩
  | null => cases h
  | bool b => cases h
  | num n => cases h
  | str s => cases h
  | loneSurrogate => cases h

/-- `[1, "kami"]` is read as `{"file_spec": 1, "file_creator": "kami"}` -/
example (io : FloatIO D) : ∃ x, deserialize io (.arr [.num (.int 1), .str "kami"]) = .ok x ∧ x.fields.1.1 = 1 ∧
    x.fields.2.1 = "kami" := ⟨_, rfl, rfl, rfl⟩

end Kami.FoldFile
