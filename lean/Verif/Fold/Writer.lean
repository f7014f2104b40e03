import Verif.Fold.Reader
/-!
# Texts written by serde_json, and truncated files (C135, C136)
-/

set_option autoImplicit false

namespace Kami.FoldFile

open Kami

/-! ### the writer follows the grammar -/

/-- trees whose integers fit `i64` or `u64`, whose other numbers are written with a point or an exponent (or are larger),
and whose strings are texts: what `Serialize` produces -/
inductive Printable : Json NumTok → Prop
  | null : Printable .null
  | bool (b : Bool) : Printable (.bool b)
  | int (z : Int) : -2 ^ 63 ≤ z → z < 2 ^ 64 → Printable (.num (.int z))
  | float (t : NumTok) : t.Valid → ¬ t.IsInt → Printable (.num (.float t))
  | str (s : String) : Printable (.str s)
  | arr (xs : List (Json NumTok)) : (∀ x ∈ xs, Printable x) → Printable (.arr xs)
  | obj (kvs : List (String × Json NumTok)) : (∀ kv ∈ kvs, Printable kv.2) → Printable (.obj kvs)

theorem toDigits_head (n : Nat) : Nat.toDigits 10 n = ['0'] ∨ (Nat.toDigits 10 n).head? ≠ some '0' := by
  induction n using Nat.strong_induction_on with
  | _ n ih =>
    by_cases h : n < 10
    · rw [Nat.toDigits_of_lt_base h]
      interval_cases n <;> decide
    · right
      rw [Nat.toDigits_of_base_le (by norm_num) (by omega)]
      have hne : Nat.toDigits 10 (n / 10) ≠ [] := Nat.toDigits_ne_nil
      have hhd : (Nat.toDigits 10 (n / 10) ++ [Nat.digitChar (n % 10)]).head? = (Nat.toDigits 10 (n / 10)).head? := by
        cases hd : Nat.toDigits 10 (n / 10) with
        | nil => exact absurd hd hne
        | cons a as => rfl
      rw [hhd]
      rcases ih (n / 10) (by omega) with h' | h'
      · exfalso
        have := @Nat.ofDigitChars_ten_toDigits (n / 10)
        rw [h'] at this
        have e : Nat.ofDigitChars 10 ['0'] 0 = 0 := by decide
        omega
      · exact h'

theorem digits_toDigits (n : Nat) : Digits (Nat.toDigits 10 n) :=
  ⟨Nat.toDigits_ne_nil, fun _ hc => Nat.isDigit_of_mem_toDigits (by norm_num) (by norm_num) hc⟩

/-- the token of an integer -/
def intTok (z : Int) : NumTok := ⟨decide (z < 0), Nat.toDigits 10 z.natAbs, [], []⟩

theorem intTok_valid (z : Int) : (intTok z).Valid := by
  refine ⟨?_, .inl rfl, .inl rfl⟩
  rcases toDigits_head z.natAbs with h | h
  · exact .inl h
  · exact .inr ⟨digits_toDigits _, h⟩

theorem intTok_text (z : Int) : (intTok z).text = writeInt z := by
  unfold intTok NumTok.text writeInt
  by_cases h : z < 0 <;> simp [h]

theorem intTok_classify (z : Int) (h1 : -2 ^ 63 ≤ z) (h2 : z < 2 ^ 64) : (intTok z).classify = .int z := by
  have hv : (intTok z).intValue = z := by
    unfold intTok NumTok.intValue
    simp only [Nat.ofDigitChars_ten_toDigits]
    by_cases h : z < 0
    · rw [if_pos (by simpa using h)]; omega
    · rw [if_neg (by simpa using h)]; omega
  unfold NumTok.classify
  rw [hv, if_pos ⟨rfl, rfl, h1, h2⟩]

theorem chars_append {t t' : List Char} {s s' : List Char} (h' : Chars t' (some s')) :
    Chars t (some s) → Chars (t ++ t') (some (s ++ s')) := by
  intro h
  generalize ho : some s = o at h
  induction h generalizing s with
  | nil => cases ho; exact h'
  | plain c t o h1 h2 h3 _ ih =>
    cases o with
    | none => cases ho
    | some o => cases ho; exact .plain c _ _ h1 h2 h3 (ih rfl)
  | short e c t o h1 _ ih =>
    cases o with
    | none => cases ho
    | some o => cases ho; exact .short e c _ _ h1 (ih rfl)
  | unicode h n t o h1 h2 h3 _ ih =>
    cases o with
    | none => cases ho
    | some o =>
      cases ho
      have := Chars.unicode h n _ _ h1 h2 h3 (ih rfl)
      simpa using this
  | pair h l n m t o h1 h2 h3 h4 _ ih =>
    cases o with
    | none => cases ho
    | some o =>
      cases ho
      have := Chars.pair h l n m _ _ h1 h2 h3 h4 (ih rfl)
      simpa using this
  | unpaired => cases ho

theorem hexDigit_digitChar (v : Nat) (h : v < 16) : HexDigit (Nat.digitChar v) v := ⟨h, .inl rfl⟩

theorem chars_writeChar (c : Char) : Chars (writeChar c) (some [c]) := by
  unfold writeChar
  have short : ∀ e d : Char, (e, d) ∈ shortEscapes → Chars ['\\', e] (some [d]) := fun e d h => .short e d [] _ h .nil
  by_cases h1 : c = '"'
  · rw [if_pos h1, h1]; exact short _ _ (by decide)
  rw [if_neg h1]
  by_cases h2 : c = '\\'
  · rw [if_pos h2, h2]; exact short _ _ (by decide)
  rw [if_neg h2]
  by_cases h3 : c = '\x08'
  · rw [if_pos h3, h3]; exact short _ _ (by decide)
  rw [if_neg h3]
  by_cases h4 : c = '\x0c'
  · rw [if_pos h4, h4]; exact short _ _ (by decide)
  rw [if_neg h4]
  by_cases h5 : c = '\n'
  · rw [if_pos h5, h5]; exact short _ _ (by decide)
  rw [if_neg h5]
  by_cases h6 : c = '\r'
  · rw [if_pos h6, h6]; exact short _ _ (by decide)
  rw [if_neg h6]
  by_cases h7 : c = '\t'
  · rw [if_pos h7, h7]; exact short _ _ (by decide)
  rw [if_neg h7]
  by_cases h8 : c.toNat < 32
  · rw [if_pos h8]
    have hx : Hex4 ['0', '0', Nat.digitChar (c.toNat / 16), Nat.digitChar (c.toNat % 16)] c.toNat :=
      ⟨_, _, _, _, 0, 0, c.toNat / 16, c.toNat % 16, rfl, hexDigit_digitChar 0 (by decide), hexDigit_digitChar 0 (by decide),
        hexDigit_digitChar _ (by omega), hexDigit_digitChar _ (by omega), by omega⟩
    have := Chars.unicode _ c.toNat [] _ hx (by unfold HighSurrogate; omega) (by unfold LowSurrogate; omega) .nil
    simpa [hexDigits2] using this
  · rw [if_neg h8]
    exact .plain c [] _ (by omega) h1 h2 .nil

theorem chars_write (cs : List Char) : Chars (cs.flatMap writeChar) (some cs) := by
  induction cs with
  | nil => exact .nil
  | cons c cs ih => exact chars_append ih (chars_writeChar c)

theorem white_nil : White [] := fun c hc => by simp at hc

theorem elements_write (x : Json NumTok) (xs : List (Json NumTok))
    (h : ∀ y ∈ x :: xs, Writes (writeValue y) (.value y)) :
    ∃ t, Writes t (.elements (x :: xs)) ∧ writeValue x ++ writeElements xs = t ++ [']'] := by
  induction xs generalizing x with
  | nil =>
    refine ⟨writeValue x, ?_, by simp [writeElements]⟩
    simpa using Writes.lastElement [] (writeValue x) [] x white_nil (h x (by simp)) white_nil
  | cons y ys ih =>
    obtain ⟨t, ht, e⟩ := ih y (fun z hz => h z (List.mem_cons_of_mem _ hz))
    refine ⟨writeValue x ++ ',' :: t, ?_, by simp [writeElements, e]⟩
    simpa using Writes.element [] (writeValue x) [] t x (y :: ys) white_nil (h x (by simp)) white_nil ht

theorem members_write (kv : String × Json NumTok) (kvs : List (String × Json NumTok))
    (h : ∀ y ∈ kv :: kvs, Writes (writeValue y.2) (.value y.2)) :
    ∃ t, Writes t (.members (kv :: kvs)) ∧
      writeString kv.1 ++ ':' :: (writeValue kv.2 ++ writeMembers kvs) = t ++ ['}'] := by
  induction kvs generalizing kv with
  | nil =>
    obtain ⟨k, x⟩ := kv
    refine ⟨writeString k ++ ':' :: writeValue x, ?_, by simp [writeMembers]⟩
    have := Writes.lastMember [] _ [] [] (writeValue x) [] k.toList x white_nil (chars_write k.toList) white_nil white_nil
      (h (k, x) (by simp)) white_nil
    simpa [writeString] using this
  | cons y ys ih =>
    obtain ⟨k, x⟩ := kv
    obtain ⟨t, ht, e⟩ := ih y (fun z hz => h z (List.mem_cons_of_mem _ hz))
    obtain ⟨k', x'⟩ := y
    refine ⟨writeString k ++ ':' :: (writeValue x ++ ',' :: t), ?_, by simp only [writeMembers]; rw [e]; simp⟩
    have := Writes.member [] _ [] [] (writeValue x) [] t k.toList x ((k', x') :: ys) white_nil (chars_write k.toList) white_nil
      white_nil (h (k, x) (by simp)) white_nil ht
    simpa [writeString] using this

theorem writes_write (j : Json NumTok) (h : Printable j) : Writes (writeValue j) (.value j) := by
  induction h with
  | null => simp only [writeValue]; exact .null
  | bool b => cases b <;> simp only [writeValue] <;> constructor
  | int z h1 h2 =>
    have := Writes.num (intTok z) _ (intTok_valid z) ((denotes_iff _ _).2 rfl)
    rw [intTok_text, intTok_classify z h1 h2] at this
    simpa only [writeValue] using this
  | float t h1 h2 =>
    have := Writes.num t (.float t) h1 ⟨h2, rfl⟩
    simpa only [writeValue] using this
  | str s =>
    have := Writes.str _ _ (chars_write s.toList)
    rw [String.ofList_toList] at this
    simpa only [writeValue, writeString] using this
  | arr xs h ih =>
    cases xs with
    | nil => simpa [writeValue] using Writes.arrEmpty [] white_nil
    | cons x xs =>
      obtain ⟨t, ht, e⟩ := elements_write x xs ih
      simp only [writeValue, e]
      exact .arr t _ ht
  | obj kvs h ih =>
    cases kvs with
    | nil => simpa [writeValue] using Writes.objEmpty [] white_nil
    | cons kv kvs =>
      obtain ⟨t, ht, e⟩ := members_write kv kvs ih
      obtain ⟨k, x⟩ := kv
      simp only [writeValue]
      rw [show writeString k ++ ':' :: (writeValue x ++ writeMembers kvs) = t ++ ['}'] from e]
      exact .obj t _ ht

/-- **C135, trees.** What serde_json writes for a tree is a JSON text for this tree, and is read back as this tree. -/
theorem C135_tree (j : Json NumTok) (h : Printable j) : IsText (writeText j) j ∧ parseText (writeText j) = some j := by
  have : IsText (writeText j) j :=
    ⟨[], writeValue j, [], white_nil, white_nil, writes_write j h, by simp [writeText]⟩
  exact ⟨this, (C134_grammar _ _).2 this⟩

/-! ### `Fold` values -/

/-- serde_json writes floats as number tokens with a point or an exponent (`ryu` always does) -/
def FloatIO.WritesFloats (io : FloatIO NumTok) : Prop :=
  ∀ x t, io.enc x = some t → t.Valid ∧ (t.frac ≠ [] ∨ t.exp ≠ [])

theorem printable_f32 (io : FloatIO NumTok) (hio : io.WritesFloats) (x : F32) : Printable (serF32 io x) := by
  unfold serF32
  cases h : io.enc x with
  | none => exact .null
  | some t =>
    obtain ⟨h1, h2⟩ := hio x t h
    refine .float t h1 ?_
    rintro ⟨h3, h4, _⟩
    rcases h2 with h2 | h2
    · exact h2 h3
    · exact h2 h4

theorem printable_i32 (i : I32) : Printable (serI32 i : Json NumTok) := by
  have := i.2
  exact .int i.1 (by omega) (by omega)

theorem printable_map {α : Type} (f : α → Json NumTok) (xs : List α) (h : ∀ x, Printable (f x)) :
    Printable (.arr (xs.map f)) := by
  refine .arr _ fun y hy => ?_
  obtain ⟨x, _, rfl⟩ := List.mem_map.1 hy
  exact h x

theorem printable_field (io : FloatIO NumTok) (hio : io.WritesFloats) (t : FieldTy) (v : t.Carrier) : Printable (t.ser io v) := by
  cases t with
  | i32 => exact printable_i32 v
  | string => exact .str v
  | strings => exact printable_map _ _ fun s => .str s
  | f32s => exact printable_map _ _ fun x => printable_f32 io hio x
  | f32ss => exact printable_map _ _ fun xs => printable_map _ _ fun x => printable_f32 io hio x
  | i32ss => exact printable_map _ _ fun xs => printable_map _ _ fun x => printable_i32 x
  | triples =>
    refine printable_map _ _ fun x => .arr _ fun y hy => ?_
    simp only [List.mem_cons, List.not_mem_nil, or_false] at hy
    rcases hy with rfl | rfl | rfl <;> exact printable_i32 _

theorem printable_fields (io : FloatIO NumTok) (hio : io.WritesFloats) (fs : List Field) : ∀ (r : Rec fs),
    ∀ kv ∈ serFields io fs r, Printable kv.2 := by
  induction fs with
  | nil => intro r kv h; simp [serFields] at h
  | cons f fs ih =>
    intro r kv h
    simp only [serFields, List.mem_cons] at h
    rcases h with rfl | h
    · exact printable_field io hio f.ty r.1
    · exact ih r.2 kv h

theorem printable_fold (io : FloatIO NumTok) (hio : io.WritesFloats) (x : Fold) : Printable (serialize io x) :=
  .obj _ (printable_fields io hio schema x.fields)

/-- **C135, files.** If the text that serde_json writes for `x` is put into a file, then `from_file` returns `y` if and only
if all vertex coordinates and edge lengths of `x` are finite and `y` is `x` without the four lost fields (see C71); it
panics exactly when a coordinate or length is not finite. -/
theorem C135_file (io : FloatIO NumTok) (hio : io.Faithful) (hw : io.WritesFloats) (x : Fold) :
    (∀ y, fromFile io parseText (.ok (writeText (serialize io x))) = .ok (.ok y) ↔
      (∀ xs ∈ x.vertices_coords, Writable io xs) ∧ Writable io x.edges_lengths ∧ y = x.forget) ∧
    ((∃ p, fromFile io parseText (.ok (writeText (serialize io x))) = .error p) ↔
      ¬ ((∀ xs ∈ x.vertices_coords, Writable io xs) ∧ Writable io x.edges_lengths)) := by
  have hp := (C135_tree _ (printable_fold io hw x)).2
  obtain ⟨_, h2, h3⟩ := C73_from_file_partial io parseText (.ok (writeText (serialize io x)))
  constructor
  · intro y
    rw [h3, ← C71_roundtrip_partial io hio x y]
    constructor
    · rintro ⟨c, j, hc, hj, hd⟩
      cases hc
      rw [hp] at hj
      cases hj
      exact hd
    · intro hd
      exact ⟨_, _, rfl, hp, hd⟩
  · rw [h2]
    constructor
    · rintro ⟨c, hc, hn⟩ ⟨ha, hb⟩
      cases hc
      exact hn _ x.forget hp ((C71_roundtrip_partial io hio x _).2 ⟨ha, hb, rfl⟩)
    · intro hn
      refine ⟨_, rfl, fun j y hj hd => ?_⟩
      rw [hp] at hj
      cases hj
      obtain ⟨ha, hb, _⟩ := (C71_roundtrip_partial io hio x y).1 hd
      exact hn ⟨ha, hb⟩

/-! ### from texts to `from_file` -/

/-- **C134, files.** `from_file` returns `x` exactly for files whose contents are a JSON text whose tree is accepted as `x`,
and panics exactly for readable files that are no JSON text or whose tree is not accepted. -/
theorem C134_from_file (io : FloatIO NumTok) (text : String) :
    (∀ x, fromFile io parseText (.ok text) = .ok (.ok x) ↔ ∃ j, IsText text j ∧ deserialize io j = .ok x) ∧
    ((∃ p, fromFile io parseText (.ok text) = .error p) ↔ ∀ j x, IsText text j → deserialize io j ≠ .ok x) := by
  obtain ⟨_, h2, h3⟩ := C73_from_file_partial io parseText (.ok text)
  constructor
  · intro x
    rw [h3]
    constructor
    · rintro ⟨c, j, hc, hj, hd⟩
      cases hc
      exact ⟨j, (C134_grammar _ _).1 hj, hd⟩
    · rintro ⟨j, hj, hd⟩
      exact ⟨_, j, rfl, (C134_grammar _ _).2 hj, hd⟩
  · rw [h2]
    constructor
    · rintro ⟨c, hc, h⟩ j x hj
      cases hc
      exact h j x ((C134_grammar _ _).2 hj)
    · intro h
      exact ⟨_, rfl, fun j x hj => h j x ((C134_grammar _ _).1 hj)⟩

/-! ### truncated files -/

/-- a text for an array or an object begins with its bracket -/
theorem bracket_head {t : List Char} {j : Json NumTok} (h : Writes t (.value j)) :
    ((∃ kvs, j = .obj kvs) ↔ ∃ cs, t = '{' :: cs) ∧ ((∃ xs, j = .arr xs) ↔ ∃ cs, t = '[' :: cs) := by
  cases h with
  | num t _ ht _ =>
    have hc : ∃ c cs, t.text = c :: cs ∧ (c = '-' ∨ c.isDigit = true) := by
      cases hn : t.neg with
      | true => exact ⟨'-', t.whole ++ (t.frac ++ t.exp), by simp [NumTok.text, hn], .inl rfl⟩
      | false =>
        obtain ⟨c, cs, hc, hd⟩ := valid_head t ht (t.frac ++ t.exp)
        exact ⟨c, cs, by rw [← hc]; simp [NumTok.text, hn], .inr hd⟩
    obtain ⟨c, cs, hc, hcd⟩ := hc
    rw [hc]
    have h1 : c ≠ '{' := by rcases hcd with rfl | hd; · decide
                            · exact isDigit_ne hd (by decide)
    have h2 : c ≠ '[' := by rcases hcd with rfl | hd; · decide
                            · exact isDigit_ne hd (by decide)
    simp [h1, h2]
  | _ => simp

/-- a text for an array or an object ends with a bracket -/
theorem bracket_last {t : List Char} {j : Json NumTok} (h : Writes t (.value j))
    (hb : (∃ kvs, j = .obj kvs) ∨ ∃ xs, j = .arr xs) : ∃ t0 l, (l = ']' ∨ l = '}') ∧ t = t0 ++ [l] := by
  cases h with
  | arrEmpty w hw => exact ⟨'[' :: w, ']', .inl rfl, rfl⟩
  | arr t xs => exact ⟨'[' :: t, ']', .inl rfl, rfl⟩
  | objEmpty w hw => exact ⟨'{' :: w, '}', .inr rfl, rfl⟩
  | obj t xs => exact ⟨'{' :: t, '}', .inr rfl, rfl⟩
  | _ => rcases hb with ⟨_, h⟩ | ⟨_, h⟩ <;> cases h

/-- **C136.** If a file is read, then the same file with its end missing is not: unless only white space is missing,
`from_file` panics, and never returns a part of the drawing. -/
theorem C136_truncated (io : FloatIO NumTok) (p q : String) (x : Fold)
    (h : fromFile io parseText (.ok (p ++ q)) = .ok (.ok x)) :
    (White q.toList → fromFile io parseText (.ok p) = .ok (.ok x)) ∧
    (¬ White q.toList → ∃ e, fromFile io parseText (.ok p) = .error e) := by
  obtain ⟨j, ⟨w, t, w', hw, hw', ht, e⟩, hd⟩ := ((C134_from_file io (p ++ q)).1 x).1 h
  rw [String.toList_append] at e
  have hbr : (∃ kvs, j = .obj kvs) ∨ ∃ xs, j = .arr xs := C78_scalar io j x hd
  -- a text for the beginning
  have key : ∀ j', IsText p j' → White q.toList ∧ j' = j := by
    rintro j' ⟨v, s, v', hv, hv', hs, e'⟩
    -- both readings begin at the same place
    have e1 : skipWs (p.toList ++ q.toList) = t ++ w' := by rw [e]; exact skipWs_value hw ht
    have e2 : skipWs (p.toList ++ q.toList) = s ++ (v' ++ q.toList) := by
      rw [e', List.append_assoc, List.append_assoc]; exact skipWs_value hv hs
    have e3 : t ++ w' = s ++ (v' ++ q.toList) := by rw [← e1, e2]
    obtain ⟨c, cs, hc, _⟩ := value_head ht
    obtain ⟨d, ds, hd', _⟩ := value_head hs
    have hcd : c = d := by
      rw [hc, hd'] at e3
      simpa using (List.cons.inj e3).1
    have nonum : ¬ ∃ z, j = .num z := by
      rintro ⟨z, rfl⟩
      rcases hbr with ⟨_, h⟩ | ⟨_, h⟩ <;> cases h
    have nonum' : ¬ ∃ z, j' = .num z := by
      rintro ⟨z, rfl⟩
      rcases hbr with h | h
      · obtain ⟨cs', h1⟩ := (bracket_head ht).1.1 h
        obtain ⟨_, h2⟩ := (bracket_head hs).1.2 ⟨ds, by
          rw [hd', ← hcd]; rw [hc] at h1; rw [(List.cons.inj h1).1]⟩
        cases h2
      · obtain ⟨cs', h1⟩ := (bracket_head ht).2.1 h
        obtain ⟨_, h2⟩ := (bracket_head hs).2.2 ⟨ds, by
          rw [hd', ← hcd]; rw [hc] at h1; rw [(List.cons.inj h1).1]⟩
        cases h2
    have r1 := read_complete ht ((t ++ w').length + 1) w' (by simp; omega) (fun hz => absurd hz nonum)
    have r2 := read_complete hs ((t ++ w').length + 1) (v' ++ q.toList) (by rw [e3]; simp; omega) (fun hz => absurd hz nonum')
    rw [← e3, r1] at r2
    simp only [Option.some.injEq, Prod.mk.injEq] at r2
    refine ⟨fun c hc => hw' c (by rw [r2.2]; simp [hc]), r2.1.symm⟩
  constructor
  · intro hq
    refine ((C134_from_file io p).1 x).2 ⟨j, ?_, hd⟩
    -- the white space at the end belongs to the white space after the value
    have e' : p.toList ++ q.toList = (w ++ t) ++ w' := by rw [e, List.append_assoc]
    rcases List.append_eq_append_iff.1 e' with ⟨b, hb, hb'⟩ | ⟨a, ha, ha'⟩
    · obtain ⟨t0, l, hl, ht0⟩ := bracket_last ht hbr
      rcases List.eq_nil_or_concat b with rfl | ⟨b0, l', rfl⟩
      · exact ⟨w, t, [], hw, white_nil, ht, by rw [List.append_nil] at hb; simp [← hb]⟩
      · exfalso
        have hll : l = l' := by
          rw [ht0, List.concat_eq_append, ← List.append_assoc, ← List.append_assoc] at hb
          exact (List.append_inj' hb rfl).2 |> List.cons.inj |>.1
        have hm : l' ∈ q.toList := by rw [hb']; simp
        rw [← hll] at hm
        have := hq l hm
        rcases hl with rfl | rfl <;> simp at this
    · refine ⟨w, t, a, hw, fun c hc => hw' c (by rw [ha']; simp [hc]), ht, by rw [ha, List.append_assoc]⟩
  · intro hq
    refine ((C134_from_file io p).2).2 fun j' y hj' _ => hq (key j' hj').1

end Kami.FoldFile
