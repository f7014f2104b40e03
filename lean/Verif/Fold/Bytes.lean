import Verif.Fold.Files
import Verif.Fold.FloatRoundtrip
/-!
# C141: files as sequences of bytes

`File::open` and `read_to_string` (src/fold/fold.rs:126-128): a file that cannot be opened, or whose bytes are not the UTF-8
encoding of a text, is reported as an error; everything later panics instead.  `String.utf8EncodeChar` is Lean's
definition of the UTF-8 encoding of a character.
-/

set_option autoImplicit false

namespace Kami.FoldFile

open Kami

/-- the UTF-8 encoding of a text -/
def utf8 (text : String) : List UInt8 := text.toList.flatMap String.utf8EncodeChar

/-- src/fold/fold.rs:126-128: `read_to_string` fails on bytes that are not UTF-8 -/
def readToString (file : Except IoError (List UInt8)) : Except IoError String :=
  match file with
  | .error e => .error e
  | .ok bytes =>
    match String.fromUTF8? bytes.toByteArray with
    | none => .error .error
    | some contents => .ok contents

/-- src/fold/fold.rs:125-135, from the bytes of the file (or the failure to open it) -/
def fromBytes (io : FloatIO NumTok) (file : Except IoError (List UInt8)) : Res (Except IoError Fold) :=
  fromFile io parseText (readToString file)

/-- the bytes of blank, line feed, tab and carriage return -/
def WhiteByte (b : UInt8) : Prop := b = 32 ∨ b = 10 ∨ b = 9 ∨ b = 13

/-- the bytes inside an encoded character: `10xxxxxx` -/
def InsideByte (b : UInt8) : Prop := 128 ≤ b.toNat ∧ b.toNat < 192

theorem toByteArray_inj {a b : List UInt8} (h : a.toByteArray = b.toByteArray) : a = b := by
  have := congrArg ByteArray.data h
  rw [List.data_toByteArray, List.data_toByteArray] at this
  simpa using this

theorem utf8_bytes (s : String) : (utf8 s).toByteArray = s.toByteArray := by
  rw [← String.utf8Encode_toList]; rfl

theorem utf8_inj {s t : String} (h : utf8 s = utf8 t) : s = t := by
  rw [← String.toByteArray_inj, ← utf8_bytes, ← utf8_bytes, h]

theorem fromUTF8?_some (bytes : List UInt8) (s : String) :
    String.fromUTF8? bytes.toByteArray = some s ↔ bytes = utf8 s := by
  unfold String.fromUTF8?
  split
  · rename_i h
    rw [Option.some.injEq, ← String.toByteArray_inj]
    constructor
    · intro e
      refine toByteArray_inj ?_
      rw [utf8_bytes, ← e]; rfl
    · rintro rfl
      rw [← utf8_bytes s]; rfl
  · rename_i h
    refine ⟨fun e => (by cases e), fun e => absurd ?_ h⟩
    rw [e, utf8_bytes]; exact s.isValidUTF8

theorem readToString_ok (file : Except IoError (List UInt8)) (s : String) :
    readToString file = .ok s ↔ file = .ok (utf8 s) := by
  unfold readToString
  cases file with
  | error e => simp
  | ok bytes =>
    simp only [Except.ok.injEq]
    rw [← fromUTF8?_some]
    cases h : String.fromUTF8? bytes.toByteArray with
    | none => simp
    | some t => simp

theorem readToString_error (file : Except IoError (List UInt8)) :
    (∃ e, readToString file = .error e) ↔ ∀ s : String, file ≠ .ok (utf8 s) := by
  constructor
  · rintro ⟨e, h⟩ s hs
    rw [(readToString_ok file s).2 hs] at h
    cases h
  · intro h
    cases hr : readToString file with
    | error e => exact ⟨e, rfl⟩
    | ok s => exact absurd ((readToString_ok file s).1 hr) (h s)

/-- **C141.** For every file: `from_file` returns `x` exactly when the bytes are a text in UTF-8, this text is a JSON text and its
tree is accepted as `x`; it returns an error exactly when the file cannot be opened or is not a text in UTF-8; it panics
exactly when the file is a text in UTF-8 but no JSON text or one whose tree is not accepted. -/
theorem C141_bytes (io : FloatIO NumTok) (file : Except IoError (List UInt8)) :
    (∀ x, fromBytes io file = .ok (.ok x) ↔
      ∃ s j, file = .ok (utf8 s) ∧ IsText s j ∧ deserialize io j = .ok x) ∧
    ((∃ e, fromBytes io file = .ok (.error e)) ↔
      (∃ e, file = .error e) ∨ ∃ bytes, file = .ok bytes ∧ ∀ s, bytes ≠ utf8 s) ∧
    ((∃ p, fromBytes io file = .error p) ↔
      ∃ s, file = .ok (utf8 s) ∧ ∀ j x, IsText s j → deserialize io j ≠ .ok x) := by
  have hE : (∀ s : String, file ≠ .ok (utf8 s)) ↔
      (∃ e, file = .error e) ∨ ∃ bytes, file = .ok bytes ∧ ∀ s, bytes ≠ utf8 s := by
    cases file with
    | error e => exact ⟨fun _ => .inl ⟨e, rfl⟩, fun _ s h => (by cases h)⟩
    | ok bytes => simp
  rw [← hE, ← readToString_error]
  unfold fromBytes
  have hi := fun s => readToString_ok file s
  cases hr : readToString file with
  | error e =>
    have hn : ∀ s : String, file ≠ .ok (utf8 s) := (readToString_error file).1 ⟨e, hr⟩
    have hf : fromFile io parseText (.error e) = .ok (.error e) := rfl
    rw [hf]
    refine ⟨fun x => ⟨fun h => (by cases h), fun ⟨s, j, h, _⟩ => absurd h (hn s)⟩, ⟨fun _ => ⟨e, rfl⟩, fun _ => ⟨e, rfl⟩⟩,
      ⟨fun ⟨p, h⟩ => (by cases h), fun ⟨s, h, _⟩ => absurd h (hn s)⟩⟩
  | ok s =>
    have hs : file = .ok (utf8 s) := (hi s).1 hr
    have hu : ∀ t : String, file = .ok (utf8 t) → t = s := fun t ht => by
      have := (hi t).2 ht
      rw [hr] at this
      exact (Except.ok.inj this).symm
    obtain ⟨h1, h2⟩ := C134_from_file io s
    refine ⟨fun x => ?_, ?_, ?_⟩
    · rw [h1]
      constructor
      · rintro ⟨j, a, b⟩; exact ⟨s, j, hs, a, b⟩
      · rintro ⟨t, j, ht, a, b⟩; rw [hu t ht] at a; exact ⟨j, a, b⟩
    · constructor
      · rintro ⟨e, h⟩
        exfalso
        unfold fromFile at h
        simp only at h
        split at h <;> [cases h; (split at h <;> cases h)]
      · rintro ⟨e, h⟩; cases h
    · rw [h2]
      constructor
      · intro h; exact ⟨s, hs, h⟩
      · rintro ⟨t, ht, h⟩; rw [hu t ht] at h; exact h

theorem fromBytes_utf8 (io : FloatIO NumTok) (s : String) :
    fromBytes io (.ok (utf8 s)) = fromFile io parseText (.ok s) := by
  rw [fromBytes, (readToString_ok _ s).2 rfl]

/-! ### cut files -/

/-- the encoding of a character: a byte that is not `10xxxxxx`, then only such bytes -/
theorem encode_shape (c : Char) : ∃ h t, String.utf8EncodeChar c = h :: t ∧ ¬ InsideByte h ∧ (∀ b ∈ t, InsideByte b) ∧
    ((∀ b ∈ h :: t, WhiteByte b) ↔ c = ' ' ∨ c = '\n' ∨ c = '\t' ∨ c = '\r') := by
  have hc : c.val.toNat < 1114112 := by
    have := c.valid
    rcases this with h | h
    · exact lt_trans h (by norm_num)
    · exact h.2
  have hw : (c = ' ' ∨ c = '\n' ∨ c = '\t' ∨ c = '\r') ↔
      (c.val.toNat = 32 ∨ c.val.toNat = 10 ∨ c.val.toNat = 9 ∨ c.val.toNat = 13) := by
    simp only [Char.ext_iff, ← UInt32.toNat_inj]
    rfl
  rw [hw]
  have wb : ∀ n : Nat, n < 256 → (WhiteByte (UInt8.ofNat n) ↔ n = 32 ∨ n = 10 ∨ n = 9 ∨ n = 13) := by
    intro n hn
    unfold WhiteByte
    simp only [← UInt8.toNat_inj, UInt8.toNat_ofNat', Nat.mod_eq_of_lt hn]
    rfl
  have ib : ∀ n : Nat, n < 256 → (InsideByte (UInt8.ofNat n) ↔ 128 ≤ n ∧ n < 192) := by
    intro n hn
    unfold InsideByte
    rw [UInt8.toNat_ofNat', Nat.mod_eq_of_lt (by simpa using hn)]
  unfold String.utf8EncodeChar
  simp only
  generalize c.val.toNat = v at *
  split
  · refine ⟨_, _, rfl, ?_, by simp, ?_⟩
    · rw [ib _ (by omega)]; omega
    · simp only [List.mem_singleton, forall_eq]; rw [wb _ (by omega)]
  · split
    · refine ⟨_, _, rfl, ?_, ?_, ?_⟩
      · rw [ib _ (by omega)]; omega
      · simp only [List.mem_cons, List.not_mem_nil, or_false, forall_eq]
        rw [ib _ (by omega)]; omega
      · simp only [List.mem_cons, List.not_mem_nil, or_false, forall_eq_or_imp, forall_eq]
        rw [wb _ (by omega)]; omega
    · split
      · refine ⟨_, _, rfl, ?_, ?_, ?_⟩
        · rw [ib _ (by omega)]; omega
        · simp only [List.mem_cons, List.not_mem_nil, or_false, forall_eq_or_imp, forall_eq]
          rw [ib _ (by omega), ib _ (by omega)]; omega
        · simp only [List.mem_cons, List.not_mem_nil, or_false, forall_eq_or_imp, forall_eq]
          rw [wb _ (by omega)]; omega
      · refine ⟨_, _, rfl, ?_, ?_, ?_⟩
        · rw [ib _ (by omega)]; omega
        · simp only [List.mem_cons, List.not_mem_nil, or_false, forall_eq_or_imp, forall_eq]
          rw [ib _ (by omega), ib _ (by omega), ib _ (by omega)]; omega
        · simp only [List.mem_cons, List.not_mem_nil, or_false, forall_eq_or_imp, forall_eq]
          rw [wb _ (by omega)]; omega

/-- a text cannot begin inside a character -/
theorem encode_head (cs : List Char) (b : UInt8) (bs : List UInt8) (h : cs.flatMap String.utf8EncodeChar = b :: bs) :
    ¬ InsideByte b := by
  cases cs with
  | nil => cases h
  | cons c cs =>
    obtain ⟨x, t, e, hx, -⟩ := encode_shape c
    rw [List.flatMap_cons, e, List.cons_append] at h
    rwa [← (List.cons.inj h).1]

/-- a text can be cut in front of every byte that is not inside a character -/
theorem encode_cut (cs : List Char) (a b : List UInt8) (h : cs.flatMap String.utf8EncodeChar = a ++ b)
    (hb : ∀ x ∈ b.head?, ¬ InsideByte x) :
    ∃ ps qs, cs = ps ++ qs ∧ a = ps.flatMap String.utf8EncodeChar ∧ b = qs.flatMap String.utf8EncodeChar := by
  induction cs generalizing a with
  | nil =>
    obtain ⟨rfl, rfl⟩ := List.append_eq_nil_iff.1 h.symm
    exact ⟨[], [], rfl, rfl, rfl⟩
  | cons c cs ih =>
    obtain ⟨x, t, e, hx, ht, -⟩ := encode_shape c
    rw [List.flatMap_cons] at h
    rcases List.append_eq_append_iff.1 h with ⟨r, hr, hr'⟩ | ⟨r, hr, hr'⟩
    · obtain ⟨ps, qs, h1, h2, h3⟩ := ih r hr'
      exact ⟨c :: ps, qs, by rw [h1]; rfl, by rw [hr, h2, List.flatMap_cons], h3⟩
    · cases r with
      | nil =>
        rw [List.append_nil] at hr
        exact ⟨[c], cs, rfl, by rw [← hr]; simp, by simpa using hr'⟩
      | cons y r =>
        have hy : ¬ InsideByte y := hb y (by rw [hr']; rfl)
        cases a with
        | nil => exact ⟨[], c :: cs, rfl, rfl, by rw [List.flatMap_cons, hr, hr']; rfl⟩
        | cons z a =>
          rw [e, List.cons_append] at hr
          exact absurd (ht y (by rw [(List.cons.inj hr).2]; simp)) hy

theorem whiteByte_iff (cs : List Char) : (∀ b ∈ cs.flatMap String.utf8EncodeChar, WhiteByte b) ↔ White cs := by
  unfold White
  constructor
  · intro h c hc
    obtain ⟨x, t, e, -, -, hw⟩ := encode_shape c
    exact hw.1 fun b hb => h b (List.mem_flatMap.2 ⟨c, hc, by rw [e]; exact hb⟩)
  · intro h b hb
    obtain ⟨c, hc, hb⟩ := List.mem_flatMap.1 hb
    obtain ⟨x, t, e, -, -, hw⟩ := encode_shape c
    rw [e] at hb
    exact hw.2 (h c hc) b hb

theorem first_not_inside (c : UInt8) (h : c.IsUTF8FirstByte) : ¬ InsideByte c := by
  have key : ∀ n : Fin 256, (UInt8.ofFin n).IsUTF8FirstByte → ¬ (128 ≤ (UInt8.ofFin n).toNat ∧ (UInt8.ofFin n).toNat < 192) := by
    decide +kernel
  exact key c.toFin h

/-- **C141, cut files.** Let `from_file` load a file with the bytes `a ++ b`.  From the bytes `a` alone it loads the same
value if `b` is only white space; otherwise it never loads anything: it returns an error if the cut is inside a
character, and panics if not. -/
theorem C141_cut (io : FloatIO NumTok) (a b : List UInt8) (x : Fold) (h : fromBytes io (.ok (a ++ b)) = .ok (.ok x)) :
    ((∀ c ∈ b, WhiteByte c) → fromBytes io (.ok a) = .ok (.ok x)) ∧
    ((∃ c ∈ b, ¬ WhiteByte c) → (∀ c ∈ b.head?, ¬ InsideByte c) → ∃ p, fromBytes io (.ok a) = .error p) ∧
    ((∃ c ∈ b.head?, InsideByte c) → ∃ e, fromBytes io (.ok a) = .ok (.error e)) := by
  obtain ⟨s, j, hs, hj, hd⟩ := ((C141_bytes io _).1 x).1 h
  have hs : s.toList.flatMap String.utf8EncodeChar = a ++ b := (Except.ok.inj hs).symm
  have hf : fromFile io parseText (.ok s) = .ok (.ok x) := ((C134_from_file io s).1 x).2 ⟨j, hj, hd⟩
  have hcut : (∀ c ∈ b.head?, ¬ InsideByte c) → ∃ p q : String, s = p ++ q ∧ a = utf8 p ∧
      b = q.toList.flatMap String.utf8EncodeChar := by
    intro hb
    obtain ⟨ps, qs, h1, h2, h3⟩ := encode_cut _ a b hs hb
    refine ⟨String.ofList ps, String.ofList qs, ?_, ?_, ?_⟩
    · rw [← String.ofList_append, ← h1, String.ofList_toList]
    · rw [utf8, String.toList_ofList, h2]
    · rw [String.toList_ofList, h3]
  refine ⟨fun hb => ?_, fun hw hb => ?_, fun hb => ?_⟩
  · obtain ⟨p, q, e1, e2, e3⟩ := hcut fun c hc hi => by
      rcases hb c (List.mem_of_mem_head? hc) with rfl | rfl | rfl | rfl <;> exact absurd hi (by unfold InsideByte; decide)
    rw [e1] at hf
    rw [e2, fromBytes_utf8]
    exact (C136_truncated io p q x hf).1 ((whiteByte_iff _).1 (by rw [← e3]; exact hb))
  · obtain ⟨p, q, e1, e2, e3⟩ := hcut hb
    rw [e1] at hf
    rw [e2, fromBytes_utf8]
    refine (C136_truncated io p q x hf).2 fun hq => ?_
    obtain ⟨c, hc, hn⟩ := hw
    exact hn ((whiteByte_iff _).2 hq c (by rw [← e3]; exact hc))
  · obtain ⟨c, hc, hi⟩ := hb
    refine ((C141_bytes io _).2.1).2 (.inr ⟨a, rfl, fun t ht => ?_⟩)
    -- if `a` were a text, the cut would be between two characters
    have hb : s.toByteArray = t.toByteArray ++ b.toByteArray := by
      rw [← utf8_bytes, ← utf8_bytes, ← ht, ← List.toByteArray_append, ← hs]; rfl
    have hlt : 0 < b.toByteArray.size := by
      cases b with
      | nil => cases hc
      | cons y b => simp
    have hv : (⟨t.toByteArray.size⟩ : String.Pos.Raw).IsValid s := by
      refine String.Pos.Raw.isValid_iff_isValidUTF8_extract_zero.2 ⟨?_, ?_⟩
      · rw [String.Pos.Raw.le_iff, String.byteIdx_rawEndPos, ← String.size_toByteArray, hb, ByteArray.size_append]
        exact Nat.le_add_right _ _
      · rw [hb, ByteArray.extract_append_eq_left rfl]
        exact t.isValidUTF8
    rcases String.Pos.Raw.isValid_iff_isUTF8FirstByte.1 hv with he | ⟨hl, hfirst⟩
    · have := congrArg String.Pos.Raw.byteIdx he
      rw [String.byteIdx_rawEndPos, ← String.size_toByteArray, hb, ByteArray.size_append] at this
      simp only at this
      omega
    · have hg : s.getUTF8Byte ⟨t.toByteArray.size⟩ hl = c := by
        cases b with
        | nil => cases hc
        | cons y b =>
          have hy : y = c := Option.some.inj hc
          simp only [String.getUTF8Byte, hb]
          rw [ByteArray.getElem_append_right (le_refl _)]
          simp [hy]
      rw [hg] at hfirst
      exact first_not_inside c hfirst hi

/-- **C141, byte order marks.** A file that begins with the bytes `EF BB BF` is never loaded: `from_file` panics if it is a text in
UTF-8, whatever follows. -/
theorem C141_mark (io : FloatIO NumTok) (s : String) :
    utf8 ("\uFEFF" ++ s) = [0xEF, 0xBB, 0xBF] ++ utf8 s ∧ ∃ p, fromBytes io (.ok ([0xEF, 0xBB, 0xBF] ++ utf8 s)) = .error p := by
  have e : utf8 ("\uFEFF" ++ s) = [0xEF, 0xBB, 0xBF] ++ utf8 s := by
    unfold utf8
    rw [String.toList_append, List.flatMap_append]
    rfl
  refine ⟨e, ?_⟩
  rw [← e, fromBytes_utf8]
  refine ((C134_from_file io _).2).2 fun j x hj hd => ?_
  obtain ⟨w, t, w', hw, hw', ht, et⟩ := hj
  rw [String.toList_append] at et
  cases w with
  | nil =>
    rcases C78_scalar io j x hd with h | h
    · obtain ⟨cs, hc⟩ := (bracket_head ht).1.1 h
      rw [hc] at et
      exact absurd (List.cons.inj et).1 (by decide)
    · obtain ⟨cs, hc⟩ := (bracket_head ht).2.1 h
      rw [hc] at et
      exact absurd (List.cons.inj et).1 (by decide)
  | cons c w =>
    have hc : '\uFEFF' = c := (List.cons.inj et).1
    subst hc
    have := hw _ List.mem_cons_self
    revert this
    decide

/-! ### files that were not written to the end -/

theorem writeMembers_last (kvs : List (String × Json NumTok)) : ∃ t, writeMembers kvs = t ++ ['}'] := by
  induction kvs with
  | nil => exact ⟨[], rfl⟩
  | cons kv kvs ih =>
    obtain ⟨k, x⟩ := kv
    obtain ⟨t, ht⟩ := ih
    exact ⟨',' :: (writeString k ++ ':' :: (writeValue x ++ t)), by simp [writeMembers, ht]⟩

theorem writeObject_last (kvs : List (String × Json NumTok)) : ∃ t, writeValue (.obj kvs) = t ++ ['}'] := by
  cases kvs with
  | nil => exact ⟨['{'], by simp [writeValue]⟩
  | cons kv kvs =>
    obtain ⟨k, x⟩ := kv
    obtain ⟨t, ht⟩ := writeMembers_last kvs
    exact ⟨'{' :: (writeString k ++ ':' :: (writeValue x ++ t)), by simp [writeValue, ht]⟩

/-- the bytes that are written for a value -/
def savedBytes (x : Fold) : List UInt8 := utf8 (writeText (serialize serdeIO x))

/-- **C141, saved files.** Let all coordinates and lengths of `x` be finite.  From the bytes written for `x`, `from_file` loads
`x` without the four lost fields (see C71).  From any proper beginning of these bytes it loads nothing. -/
theorem C141_saved (x : Fold) (hc : ∀ xs ∈ x.vertices_coords, ∀ c ∈ xs, F32.IsFin c) (hl : ∀ c ∈ x.edges_lengths, F32.IsFin c) :
    fromBytes serdeIO (.ok (savedBytes x)) = .ok (.ok x.forget) ∧
    ∀ a b, savedBytes x = a ++ b → b ≠ [] → ∀ y, fromBytes serdeIO (.ok a) ≠ .ok (.ok y) := by
  have hw : fromBytes serdeIO (.ok (savedBytes x)) = .ok (.ok x.forget) := by
    rw [savedBytes, fromBytes_utf8]
    exact ((C138_file x).1 _).2 ⟨hc, hl, rfl⟩
  refine ⟨hw, fun a b hab hb y hy => ?_⟩
  rw [hab] at hw
  obtain ⟨-, h2, h3⟩ := C141_cut serdeIO a b x.forget hw
  -- the last byte is the closing bracket
  obtain ⟨t, ht⟩ := writeObject_last (serFields serdeIO schema x.fields)
  have hs : savedBytes x = t.flatMap String.utf8EncodeChar ++ [125] := by
    rw [savedBytes, utf8, writeText, serialize, ht, String.toList_ofList, List.flatMap_append]
    rfl
  have hm : (125 : UInt8) ∈ b := by
    rw [hab] at hs
    rcases List.eq_nil_or_concat b with rfl | ⟨b0, l, rfl⟩
    · exact absurd rfl hb
    · rw [List.concat_eq_append, ← List.append_assoc] at hs
      have := (List.append_inj' hs rfl).2
      rw [← (List.cons.inj this).1]
      simp
  by_cases hi : ∃ c ∈ b.head?, InsideByte c
  · obtain ⟨e, he⟩ := h3 hi
    rw [hy] at he
    cases he
  · obtain ⟨p, hp⟩ := h2 ⟨125, hm, by unfold WhiteByte; decide⟩ (by simpa using hi)
    rw [hy] at hp
    cases hp

/-! ### examples -/

/-- `{"a":"é"}` is loaded; cut inside the é it is an error, cut behind the é it makes `from_file` panic -/
example :
    (∃ x, fromBytes serdeIO (.ok [123, 34, 97, 34, 58, 34, 0xC3, 0xA9, 34, 125]) = .ok (.ok x)) ∧
    (∃ e, fromBytes serdeIO (.ok [123, 34, 97, 34, 58, 34, 0xC3]) = .ok (.error e)) ∧
    (∃ p, fromBytes serdeIO (.ok [123, 34, 97, 34, 58, 34, 0xC3, 0xA9]) = .error p) := by
  have h : ∃ x, fromBytes serdeIO (.ok [123, 34, 97, 34, 58, 34, 0xC3, 0xA9, 34, 125]) = .ok (.ok x) := by
    have e : [123, 34, 97, 34, 58, 34, 0xC3, 0xA9, 34, 125] = utf8 "{\"a\":\"é\"}" := by decide +kernel
    rw [e, fromBytes_utf8]
    have hb : (match fromFile serdeIO parseText (.ok "{\"a\":\"é\"}") with | .ok (.ok _) => true | _ => false) = true := by
      decide +kernel
    split at hb
    · rename_i x hx; exact ⟨x, hx⟩
    · cases hb
  obtain ⟨x, hx⟩ := h
  exact ⟨⟨x, hx⟩, (C141_cut serdeIO [123, 34, 97, 34, 58, 34, 0xC3] [0xA9, 34, 125] x hx).2.2 ⟨0xA9, rfl, by unfold InsideByte; decide⟩,
    (C141_cut serdeIO [123, 34, 97, 34, 58, 34, 0xC3, 0xA9] [34, 125] x hx).2.1 ⟨34, by simp, by unfold WhiteByte; decide⟩
      (by unfold InsideByte; simp)⟩

/-- Latin-1 is reported as an error: `{"a":"é"}` with a single byte for the é -/
example : ∃ e, fromBytes serdeIO (.ok [123, 34, 97, 34, 58, 34, 0xE9, 34, 125]) = .ok (.error e) := by
  refine ⟨.error, ?_⟩
  have : String.fromUTF8? [123, 34, 97, 34, 58, 34, 0xE9, 34, 125].toByteArray = none := by decide +kernel
  simp only [fromBytes, readToString, this, fromFile]

end Kami.FoldFile
