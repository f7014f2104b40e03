import Verif.Fold.Writer
/-!
# Example files, and the version number (C137)
-/

set_option autoImplicit false

namespace Kami.FoldFile

open Kami

/-- a reader of floats for the examples: every float is written as `0.5` and read as 1/2 -/
def halfIO : FloatIO NumTok :=
  ⟨fun x => if (x == F32.lit 1 2) = true then some ⟨false, ['0'], ['.', '5'], []⟩ else none, fun _ => some (F32.lit 1 2),
    fun _ => F32.lit 0⟩

theorem halfIO_faithful : halfIO.Faithful := by
  intro x d h
  simp only [halfIO] at h ⊢
  by_cases hx : (x == F32.lit 1 2) = true
  · rw [beq_iff_eq] at hx
    rw [hx]
  · rw [if_neg hx] at h; cases h

theorem halfIO_writes : halfIO.WritesFloats := by
  intro x d h
  simp only [halfIO] at h
  by_cases hx : (x == F32.lit 1 2) = true
  · rw [if_pos hx] at h
    cases h
    exact ⟨⟨.inl rfl, .inr ⟨['5'], ⟨by simp, by simp⟩, rfl⟩, .inl rfl⟩, .inl (by simp)⟩
  · rw [if_neg hx] at h; cases h

/-- white space, an escape, a surrogate pair, nested arrays, an exponent: read, and written again -/
example : (parseText " {\"a\\n\" : [1 , -2.5E+3],\n \"\\ud83d\\ude00\":null}").map writeText =
    some "{\"a\\n\":[1,-2.5E+3],\"😀\":null}" := by decide +kernel

/-- superfluous zeros, a trailing comma, a missing bracket, text after the value, nothing -/
example : (["01", "[1,]", "{\"a\":1", "{} {}", ""].all fun s => (parseText s).isNone) = true := by decide +kernel

/-- a control character has to be escaped -/
example : (parseText "\"\t\"").isNone = true ∧ (parseText "\"\\t\"").map writeText = some "\"\\t\"" := by decide +kernel

/-- an unpaired surrogate is a token, but not a key -/
example : (parseText "\"\\ud800\"").isSome = true ∧ (parseText "{\"\\ud800\":1}").isNone = true := by decide +kernel

/-- the compact writer -/
example : writeText (.obj [("a\"b", .arr [.num (.int (-12)), .bool true, .str "\x01"]), ("", .arr [])]) =
    "{\"a\\\"b\":[-12,true,\"\\u0001\"],\"\":[]}" := by decide +kernel

/-- the version that `from_file` finds in a file, if it loads the file -/
def loadedSpec (text : String) : Option Int :=
  match fromFile halfIO parseText (.ok text) with
  | .ok (.ok x) => some x.fields.1.1
  | _ => none

/-- **C134, skipped values.** A broken string does no harm under an unknown key, but under a known one. -/
example : loadedSpec "{\"note\": \"\\ud800\", \"file_spec\": 1}" = some 1 ∧
    loadedSpec "{\"file_title\": \"\\ud800\", \"file_spec\": 1}" = none := by decide +kernel

/-- **C136, an example**: a file, and the file without its last characters -/
example : loadedSpec ("{\"file_spec\": 12" ++ "}\n") = some 12 ∧ loadedSpec "{\"file_spec\": 12}" = some 12 ∧
    loadedSpec "{\"file_spec\": 12" = none ∧ loadedSpec "{\"file_spec\": 1" = none := by decide +kernel

/-- **C136 needs the brackets**: `12` and `1` are both JSON texts. -/
example : (parseText "12").map writeText = some "12" ∧ (parseText "1").map writeText = some "1" := by decide +kernel

/-- **C135, an example**: a value with two coordinates and one length comes back from its file -/
example : ∃ x : Fold, x.vertices_coords = [[F32.lit 1 2, F32.lit 1 2]] ∧ x.edges_lengths = [F32.lit 1 2] ∧
    fromFile halfIO parseText (.ok (writeText (serialize halfIO x))) = .ok (.ok x) := by
  refine ⟨⟨(⟨1, by decide⟩, "kami", "", "", "", [], "", "", "", [], [], "", [[F32.lit 1 2, F32.lit 1 2]], [], [], [], [], ["M\n"], [],
    [F32.lit 1 2], [], [], [], [], ()), ""⟩, rfl, rfl, ?_⟩
  have hw : ∀ xs : List F32, (∀ x ∈ xs, x = F32.lit 1 2) → Writable halfIO xs := by
    intro xs h x hx
    rw [h x hx]
    exact ⟨⟨false, ['0'], ['.', '5'], []⟩, by simp only [halfIO, beq_self_eq_true, ↓reduceIte]⟩
  refine ((C135_file halfIO halfIO_faithful halfIO_writes _).1 _).2 ⟨?_, ?_, rfl⟩
  · intro xs hxs
    refine hw xs fun x hx => ?_
    simp only [Fold.vertices_coords, List.mem_singleton] at hxs
    rw [hxs] at hx
    simpa using hx
  · refine hw _ fun x hx => ?_
    simpa [Fold.edges_lengths] using hx

/-- **C73 is false** for the actual reader: an empty file makes `from_file` panic. -/
theorem C73_counterexample_text (io : FloatIO NumTok) : fromFile io parseText (.ok "") = .error .unwrapFailed :=
  C73_counterexample io parseText (Option.isNone_iff_eq_none.1 (by decide +kernel))

/-! ### C137 -/

/-- `{"file_spec": …}` -/
def specText (t : NumTok) : String := "{\"file_spec\": " ++ String.ofList t.text ++ "}"

theorem specText_tree (t : NumTok) (ht : t.Valid) : IsText (specText t) (.obj [("file_spec", .num t.classify)]) := by
  refine ⟨[], '{' :: ('"' :: ("file_spec".toList ++ '"' :: ([] ++ ':' :: ([' '] ++ (t.text ++ [])))) ++ ['}']), [],
    white_nil, white_nil, ?_, ?_⟩
  · refine .obj _ _ ?_
    have hk : Chars "file_spec".toList (some "file_spec".toList) := chars_write "file_spec".toList
    have := Writes.lastMember [] _ [] [' '] t.text [] _ _ white_nil hk white_nil (fun c hc => .inl (by simpa using hc)) 
      (.num t _ ht ((denotes_iff t _).2 rfl))
      white_nil
    simpa using this
  · simp [specText]

/-- **C137, exactly what is accepted.** The comment in `Fold` calls `file_spec` a number, but a file whose only entry is a
`file_spec` is loaded if and only if the number is written as an integer in the range of `i32`; otherwise `from_file`
panics.  Missing: numbers with a fraction or an exponent (`C137_counterexample`). -/
theorem C137_file_spec_partial (io : FloatIO NumTok) (t : NumTok) (ht : t.Valid) :
    ((∃ x, fromFile io parseText (.ok (specText t)) = .ok (.ok x)) ↔
      t.frac = [] ∧ t.exp = [] ∧ -2 ^ 31 ≤ t.wholeValue ∧ t.wholeValue < 2 ^ 31) ∧
    (∀ x, fromFile io parseText (.ok (specText t)) = .ok (.ok x) → x.fields.1.1 = t.wholeValue) ∧
    ((∃ p, fromFile io parseText (.ok (specText t)) = .error p) ↔
      ¬ (t.frac = [] ∧ t.exp = [] ∧ -2 ^ 31 ≤ t.wholeValue ∧ t.wholeValue < 2 ^ 31)) := by
  rw [← intValue_eq]
  have hp := (C134_grammar _ _).2 (specText_tree t ht)
  by_cases hc : t.frac = [] ∧ t.exp = [] ∧ -2 ^ 63 ≤ t.intValue ∧ t.intValue < 2 ^ 64
  · have hcl : t.classify = .int t.intValue := by unfold NumTok.classify; rw [if_pos hc]
    rw [hcl] at hp
    obtain ⟨h1, h2, _, _⟩ := hc
    by_cases hr : -2 ^ 31 ≤ t.intValue ∧ t.intValue < 2 ^ 31
    · have hd : deserialize io (.obj [("file_spec", .num (.int t.intValue))]) =
          .ok ⟨(⟨t.intValue, hr⟩, "", "", "", "", [], "", "", "", [], [], "", [], [], [], [], [], [], [], [], [], [], [], [], ()),
            ""⟩ := by
        have hi : deI32 (.num (.int t.intValue) : Json NumTok) = .ok ⟨t.intValue, hr⟩ := by simp only [deI32, dif_pos hr]
        simp only [deserialize, mapLoop, schema, plain, putEntry, emptySlots, FieldTy.de, ↓reduceIte, hi]
        rfl
      have hf : fromFile io parseText (.ok (specText t)) = .ok (.ok ⟨(⟨t.intValue, hr⟩, "", "", "", "", [], "", "", "", [], [], "",
          [], [], [], [], [], [], [], [], [], [], [], [], ()), ""⟩) := by
        simp only [fromFile, hp, hd, resolve]
      rw [hf]
      refine ⟨⟨fun _ => ⟨h1, h2, hr.1, hr.2⟩, fun _ => ⟨_, rfl⟩⟩, fun x hx => ?_, ⟨fun h => ?_, fun h => ?_⟩⟩
      · cases hx; rfl
      · obtain ⟨p, h⟩ := h; cases h
      · exact absurd ⟨h1, h2, hr.1, hr.2⟩ h
    · have hd : deserialize io (.obj [("file_spec", .num (.int t.intValue))]) = .error .error := by
        have hi : deI32 (.num (.int t.intValue) : Json NumTok) = .error .error := by simp only [deI32, dif_neg hr]
        simp only [deserialize, mapLoop, schema, plain, putEntry, emptySlots, FieldTy.de, ↓reduceIte, hi]
        rfl
      have hf : fromFile io parseText (.ok (specText t)) = .error .unwrapFailed := by simp only [fromFile, hp, hd]
      rw [hf]
      refine ⟨⟨fun h => ?_, fun h => absurd h.2.2 hr⟩, fun x hx => ?_, ⟨fun _ h => hr h.2.2, fun _ => ⟨_, rfl⟩⟩⟩
      · obtain ⟨_, h⟩ := h; cases h
      · cases hx
  · have hcl : t.classify = .float t := by unfold NumTok.classify; rw [if_neg hc]
    rw [hcl] at hp
    have hf : fromFile io parseText (.ok (specText t)) = .error .unwrapFailed := by
      simp only [fromFile, hp]
      rfl
    have hno : ¬ (t.frac = [] ∧ t.exp = [] ∧ -2 ^ 31 ≤ t.intValue ∧ t.intValue < 2 ^ 31) := by
      rintro ⟨h1, h2, h3, h4⟩
      exact hc ⟨h1, h2, by omega, by omega⟩
    rw [hf]
    refine ⟨⟨fun h => ?_, fun h => absurd h hno⟩, fun x hx => ?_, ⟨fun _ => hno, fun _ => ⟨_, rfl⟩⟩⟩
    · obtain ⟨_, h⟩ := h; cases h
    · cases hx

/-- **C137 is false**: a file that states version 1.1 of the FOLD format cannot be loaded, and neither can one that states
1.0. -/
theorem C137_counterexample (io : FloatIO NumTok) :
    (∃ p, fromFile io parseText (.ok "{\"file_spec\": 1.1}") = .error p) ∧
    (∃ p, fromFile io parseText (.ok "{\"file_spec\": 1.0}") = .error p) ∧
    ∃ x, fromFile io parseText (.ok "{\"file_spec\": 1}") = .ok (.ok x) := by
  have hd : ∀ c : Char, c.isDigit = true → Digits [c] := fun c hc => ⟨by simp, by simpa using hc⟩
  have hone : Digits ['1'] ∧ ['1'].head? ≠ some '0' := ⟨hd _ (by decide), by decide⟩
  refine ⟨?_, ?_, ?_⟩
  · have h := (C137_file_spec_partial io ⟨false, ['1'], ['.', '1'], []⟩
      ⟨.inr hone, .inr ⟨['1'], hd _ (by decide), rfl⟩, .inl rfl⟩).2.2.2 (fun h => by cases h.1)
    have e : specText ⟨false, ['1'], ['.', '1'], []⟩ = "{\"file_spec\": 1.1}" := by decide +kernel
    rw [e] at h
    exact h
  · have h := (C137_file_spec_partial io ⟨false, ['1'], ['.', '0'], []⟩
      ⟨.inr hone, .inr ⟨['0'], hd _ (by decide), rfl⟩, .inl rfl⟩).2.2.2 (fun h => by cases h.1)
    have e : specText ⟨false, ['1'], ['.', '0'], []⟩ = "{\"file_spec\": 1.0}" := by decide +kernel
    rw [e] at h
    exact h
  · have h := (C137_file_spec_partial io ⟨false, ['1'], [], []⟩ ⟨.inr hone, .inl rfl, .inl rfl⟩).1.2
      ⟨rfl, rfl, by decide, by decide⟩
    have e : specText ⟨false, ['1'], [], []⟩ = "{\"file_spec\": 1}" := by decide +kernel
    rw [e] at h
    exact h

end Kami.FoldFile
