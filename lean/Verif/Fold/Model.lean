import Verif.Base.Panic
import Verif.Num.F32
/-!
# Model of `src/fold/fold.rs`

`Fold` derives `Serialize` and `Deserialize` (serde 1.0.114) and is read with serde_json 1.0.56.  The derived code is
modelled over JSON trees:

* the text of a file becomes a tree through a parser (`parse` in `fromFile`; `parseText` in Text.lean is serde_json's);
* number tokens are kept as integers (those that fit `i64` or `u64`) or as values of an abstract type `D` (all others);
* the conversions between `f32` and number tokens are the unspecified functions of `FloatIO`;
* error messages are dropped.

The struct is described by the table `schema`, one entry per field that is not skipped; the record type, the serialiser and
the deserialiser are generated from the table as the derive macros generate them from the attributes.
-/

set_option autoImplicit false

namespace Kami.FoldFile

open Kami

/-- a JSON number token: an integer in the range of `i64` or `u64`, or anything else -/
inductive JNum (D : Type)
  | int (z : Int)
  | float (d : D)

/-- a JSON tree; objects keep the order and the repetitions of their keys.  `loneSurrogate` is a string token with an
unpaired surrogate escape, which serde_json accepts only where it skips the value. -/
inductive Json (D : Type)
  | null
  | bool (b : Bool)
  | num (n : JNum D)
  | str (s : String)
  | loneSurrogate
  | arr (xs : List (Json D))
  | obj (kvs : List (String × Json D))

/-- `serde_json`'s number conversions: `f32` to a token (`none` for NaN and infinities, which are written as `null`),
a token to `f32` (`none`: number out of range), an integer to `f32` -/
structure FloatIO (D : Type) where
  enc : F32 → Option D
  dec : D → Option F32
  decInt : Int → F32

/-- a deserialisation error (the message is dropped) -/
inductive DeError
  | error
  deriving DecidableEq, Repr

abbrev De (α : Type) : Type := Except DeError α

/-- Rust `i32` -/
abbrev I32 : Type := { z : Int // -2 ^ 31 ≤ z ∧ z < 2 ^ 31 }

/-- the field types that occur in `Fold` -/
inductive FieldTy
  | i32
  | string
  | strings
  | f32s
  | f32ss
  | i32ss
  | triples
  deriving DecidableEq, Repr

/-- the Rust type of a field -/
abbrev FieldTy.Carrier : FieldTy → Type
  | .i32 => I32
  | .string => String
  | .strings => List String
  | .f32s => List F32
  | .f32ss => List (List F32)
  | .i32ss => List (List I32)
  | .triples => List (I32 × I32 × I32)

/-- `Default::default()` of a field type -/
def FieldTy.default : (t : FieldTy) → t.Carrier
  | .i32 => ⟨0, by decide⟩
  | .string => ""
  | .strings => []
  | .f32s => []
  | .f32ss => []
  | .i32ss => []
  | .triples => []

section Values
variable {D : Type}

/-- `Serialize` for `i32` -/
def serI32 (i : I32) : Json D := .num (.int i.1)

/-- `Deserialize` for `i32`: integer tokens in range; other numbers and other values are errors -/
def deI32 : Json D → De I32
  | .num (.int z) => if h : -2 ^ 31 ≤ z ∧ z < 2 ^ 31 then .ok ⟨z, h⟩ else .error .error
  | _ => .error .error

/-- `Deserialize` for `String` -/
def deString : Json D → De String
  | .str s => .ok s
  | _ => .error .error

/-- `Serialize` for `f32` -/
def serF32 (io : FloatIO D) (x : F32) : Json D :=
  match io.enc x with
  | some d => .num (.float d)
  | none => .null

/-- `Deserialize` for `f32`: any number token that is not out of range -/
def deF32 (io : FloatIO D) : Json D → De F32
  | .num (.int z) => .ok (io.decInt z)
  | .num (.float d) =>
    match io.dec d with
    | some x => .ok x
    | none => .error .error
  | _ => .error .error

/-- `Deserialize` for `Vec<T>` -/
def deVec {α : Type} (de : Json D → De α) : Json D → De (List α)
  | .arr xs => xs.mapM de
  | _ => .error .error

/-- `Serialize` for `[i32; 3]` -/
def serTriple (t : I32 × I32 × I32) : Json D := .arr [serI32 t.1, serI32 t.2.1, serI32 t.2.2]

/-- `Deserialize` for `[i32; 3]`: exactly three elements -/
def deTriple : Json D → De (I32 × I32 × I32)
  | .arr [a, b, c] => do
    let a ← deI32 a
    let b ← deI32 b
    let c ← deI32 c
    return (a, b, c)
  | _ => .error .error

/-- `Serialize` for the field types -/
def FieldTy.ser (io : FloatIO D) : (t : FieldTy) → t.Carrier → Json D
  | .i32, v => serI32 v
  | .string, v => .str v
  | .strings, v => .arr (v.map .str)
  | .f32s, v => .arr (v.map (serF32 io))
  | .f32ss, v => .arr (v.map fun xs => .arr (xs.map (serF32 io)))
  | .i32ss, v => .arr (v.map fun xs => .arr (xs.map serI32))
  | .triples, v => .arr (v.map serTriple)

/-- `Deserialize` for the field types -/
def FieldTy.de (io : FloatIO D) : (t : FieldTy) → Json D → De t.Carrier
  | .i32 => deI32
  | .string => deString
  | .strings => deVec deString
  | .f32s => deVec (deF32 io)
  | .f32ss => deVec (deVec (deF32 io))
  | .i32ss => deVec (deVec deI32)
  | .triples => deVec deTriple

end Values

/-- a field that takes part in serialisation: the key written, the key read, the type.  All these fields carry
`serde(default)`. -/
structure Field where
  ser : String
  de : String
  ty : FieldTy
  deriving DecidableEq, Repr

/-- a field without `rename` -/
def plain (name : String) (ty : FieldTy) : Field := ⟨name, name, ty⟩

/-- src/fold/fold.rs:13-119, in order, without `file_frames` (36-37, `serde(skip)`) -/
def schema : List Field :=
  [plain "file_spec" .i32,            -- 13-14
   plain "file_creator" .string,      -- 17-18
   plain "file_author" .string,       -- 21-22
   plain "file_title" .string,        -- 25-26
   plain "file_description" .string,  -- 29-30
   plain "file_classes" .strings,     -- 33-34
   plain "frame_author" .string,      -- 42-43
   plain "frame_title" .string,       -- 46-47
   plain "frame_description" .string, -- 50-51
   plain "frame_classes" .strings,    -- 54-55
   plain "frame_attributes" .strings, -- 58-59
   plain "frame_unit" .string,        -- 62-63
   plain "vertices_coords" .f32ss,    -- 68-69
   plain "vertices_vertices" .i32ss,  -- 72-73
   plain "vertices_faces" .i32ss,     -- 76-77
   plain "edges_vertices" .i32ss,     -- 82-83
   plain "edges_faces" .i32ss,        -- 86-87
   plain "edges_assignment" .strings, -- 90-91
   ⟨"edges_foldangles", "edges_foldAngles", .f32s⟩, -- 94-95
   plain "edges_lengths" .f32s,       -- 98-99
   plain "faces_vertices" .i32ss,     -- 104-105
   plain "faces_edges" .i32ss,        -- 108-109
   ⟨"faceorders", "faceOrders", .triples⟩, -- 114-115
   ⟨"edgeorders", "edgeOrders", .triples⟩] -- 118-119

/-- the values of a list of fields -/
abbrev Rec : List Field → Type
  | [] => Unit
  | f :: fs => f.ty.Carrier × Rec fs

/-- src/fold/fold.rs:9-120: the serialised fields and `file_frames` -/
structure Fold where
  fields : Rec schema
  file_frames : String

section Derived
variable {D : Type}

/-- derived `Serialize`: the fields in order under their `ser` names -/
def serFields (io : FloatIO D) : (fs : List Field) → Rec fs → List (String × Json D)
  | [], _ => []
  | f :: fs, r => (f.ser, f.ty.ser io r.1) :: serFields io fs r.2

/-- `serde_json::to_value`-like serialisation of `Fold` (derived, src/fold/fold.rs:8); `file_frames` is skipped -/
def serialize (io : FloatIO D) (f : Fold) : Json D := .obj (serFields io schema f.fields)

/-- the derived visitor's local variables, one `Option` per field -/
abbrev Slots : List Field → Type
  | [] => Unit
  | f :: fs => Option f.ty.Carrier × Slots fs

/-- all variables `None` -/
def emptySlots : (fs : List Field) → Slots fs
  | [] => ()
  | _ :: fs => (none, emptySlots fs)

/-- one entry of the map in the derived `visit_map`: the field is found by its `de` name; a second value for a field is an
error; unknown keys are skipped -/
def putEntry (io : FloatIO D) (key : String) (value : Json D) : (fs : List Field) → Slots fs → De (Slots fs)
  | [], s => .ok s
  | f :: fs, s =>
    if key = f.de then
      match s.1 with
      | some _ => .error .error
      | none => do
        let v ← f.ty.de io value
        return (some v, s.2)
    else do
      let rest ← putEntry io key value fs s.2
      return (s.1, rest)

/-- the loop of the derived `visit_map` -/
def mapLoop (io : FloatIO D) (fs : List Field) : List (String × Json D) → Slots fs → De (Slots fs)
  | [], s => .ok s
  | (k, v) :: kvs, s => do mapLoop io fs kvs (← putEntry io k v fs s)

/-- end of the derived `visit_map`: missing fields get their default -/
def finish : (fs : List Field) → Slots fs → Rec fs
  | [], _ => ()
  | f :: fs, s => (s.1.getD f.ty.default, finish fs s.2)

/-- derived `visit_seq`: the fields in order; missing elements get the default; elements left over are an error -/
def seqLoop (io : FloatIO D) : (fs : List Field) → List (Json D) → De (Rec fs)
  | [], [] => .ok ()
  | [], _ :: _ => .error .error
  | f :: fs, [] => do
    let rest ← seqLoop io fs []
    return (f.ty.default, rest)
  | f :: fs, x :: xs => do
    let v ← f.ty.de io x
    let rest ← seqLoop io fs xs
    return (v, rest)

/-- derived `Deserialize` (src/fold/fold.rs:8) through `serde_json`'s `deserialize_struct`: objects and arrays are
accepted; `file_frames` gets its default -/
def deserialize (io : FloatIO D) : Json D → De Fold
  | .obj kvs => do
    let s ← mapLoop io schema kvs (emptySlots schema)
    return ⟨finish schema s, ""⟩
  | .arr xs => do
    let r ← seqLoop io schema xs
    return ⟨r, ""⟩
  | _ => .error .error

end Derived

/-- src/fold/fold.rs:137-139 -/
def resolve (f : Fold) : Fold := f

/-- src/fold/fold.rs:141-144 -/
def validate (_ : Fold) : Bool := true

/-- an `std::io::Error` -/
inductive IoError
  | error
  deriving DecidableEq, Repr

/-- src/fold/fold.rs:125-135.  `file` is the result of opening the file and reading it to a string, `parse` the JSON
grammar of serde_json. -/
def fromFile {D : Type} (io : FloatIO D) (parse : String → Option (Json D)) (file : Except IoError String) :
    Res (Except IoError Fold) :=
  match file with
  | .error e => .ok (.error e)
  | .ok contents =>
    match parse contents with
    | none => .error .unwrapFailed
    | some json =>
      match deserialize io json with
      | .error _ => .error .unwrapFailed
      | .ok fold =>
        let fold := resolve fold
        let _ := validate fold
        .ok (.ok fold)

end Kami.FoldFile
