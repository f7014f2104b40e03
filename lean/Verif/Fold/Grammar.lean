import Verif.Fold.Text
import Mathlib.Tactic.IntervalCases
import Mathlib.Data.List.TakeWhile
/-!
# The JSON grammar, and the reader of FOLD files

The grammar (RFC 8259) is given as rules that say which texts stand for which trees.  The reader accepts exactly the texts
of the grammar and gives each its tree.
-/

set_option autoImplicit false

namespace Kami.FoldFile

open Kami

/-! ### Specification: the grammar -/

/-- white space -/
def White (w : List Char) : Prop := ∀ c ∈ w, c = ' ' ∨ c = '\n' ∨ c = '\t' ∨ c = '\r'

/-- one or more digits -/
def Digits (ds : List Char) : Prop := ds ≠ [] ∧ ∀ c ∈ ds, c.isDigit = true

/-- a number token: an integer without superfluous zeros, optionally a fraction, optionally an exponent -/
def NumTok.Valid (t : NumTok) : Prop :=
  (t.whole = ['0'] ∨ Digits t.whole ∧ t.whole.head? ≠ some '0') ∧
  (t.frac = [] ∨ ∃ ds, Digits ds ∧ t.frac = '.' :: ds) ∧
  (t.exp = [] ∨ ∃ e sign ds, (e = 'e' ∨ e = 'E') ∧ (sign = [] ∨ sign = ['+'] ∨ sign = ['-']) ∧ Digits ds ∧
    t.exp = e :: (sign ++ ds))

/-- the value of a token without point and exponent -/
def NumTok.wholeValue (t : NumTok) : Int := (if t.neg then -1 else 1) * (Nat.ofDigitChars 10 t.whole 0 : ℕ)

/-- an integer token: neither point nor exponent, in the range of `i64` or `u64` -/
def NumTok.IsInt (t : NumTok) : Prop := t.frac = [] ∧ t.exp = [] ∧ -2 ^ 63 ≤ t.wholeValue ∧ t.wholeValue < 2 ^ 64

/-- the number that a token stands for -/
def NumTok.Denotes (t : NumTok) : JNum NumTok → Prop
  | .int z => t.IsInt ∧ z = t.wholeValue
  | .float d => ¬ t.IsInt ∧ d = t

/-- `c` is the hexadecimal digit of value `v`, in either case -/
def HexDigit (c : Char) (v : Nat) : Prop := v < 16 ∧ (c = Nat.digitChar v ∨ c = (Nat.digitChar v).toUpper)

/-- four hexadecimal digits -/
def Hex4 (h : List Char) (n : Nat) : Prop :=
  ∃ a b c d va vb vc vd, h = [a, b, c, d] ∧ HexDigit a va ∧ HexDigit b vb ∧ HexDigit c vc ∧ HexDigit d vd ∧
    n = va * 16 ^ 3 + vb * 16 ^ 2 + vc * 16 + vd

def HighSurrogate (n : Nat) : Prop := 0xD800 ≤ n ∧ n < 0xDC00
def LowSurrogate (n : Nat) : Prop := 0xDC00 ≤ n ∧ n < 0xE000

/-- the escapes of one letter -/
def shortEscapes : List (Char × Char) :=
  [('"', '"'), ('\\', '\\'), ('/', '/'), ('b', Char.ofNat 8), ('f', Char.ofNat 12), ('n', Char.ofNat 10), ('r', Char.ofNat 13),
    ('t', Char.ofNat 9)]

/-- the text between the quotes of a string, and the characters it stands for (`none`: there is an unpaired surrogate) -/
inductive Chars : List Char → Option (List Char) → Prop
  | nil : Chars [] (some [])
  | plain (c : Char) (t : List Char) (s : Option (List Char)) : 32 ≤ c.toNat → c ≠ '"' → c ≠ '\\' → Chars t s →
      Chars (c :: t) (s.map (c :: ·))
  | short (e c : Char) (t : List Char) (s : Option (List Char)) : (e, c) ∈ shortEscapes → Chars t s →
      Chars ('\\' :: e :: t) (s.map (c :: ·))
  | unicode (h : List Char) (n : Nat) (t : List Char) (s : Option (List Char)) : Hex4 h n → ¬ HighSurrogate n →
      ¬ LowSurrogate n → Chars t s → Chars ('\\' :: 'u' :: (h ++ t)) (s.map (Char.ofNat n :: ·))
  | pair (h l : List Char) (n m : Nat) (t : List Char) (s : Option (List Char)) : Hex4 h n → HighSurrogate n → Hex4 l m →
      LowSurrogate m → Chars t s →
      Chars ('\\' :: 'u' :: (h ++ '\\' :: 'u' :: (l ++ t)))
        (s.map (Char.ofNat (0x10000 + (n - 0xD800) * 0x400 + (m - 0xDC00)) :: ·))
  | unpaired (h : List Char) (n : Nat) (t : List Char) (s : Option (List Char)) : Hex4 h n →
      (LowSurrogate n ∨ HighSurrogate n ∧ ∀ l m t', Hex4 l m → LowSurrogate m → t ≠ '\\' :: 'u' :: (l ++ t')) →
      Chars t s → Chars ('\\' :: 'u' :: (h ++ t)) none

/-- what a piece of text can stand for -/
inductive Item
  | value (j : Json NumTok)
  | elements (xs : List (Json NumTok))
  | members (kvs : List (String × Json NumTok))

/-- the text stands for the item -/
inductive Writes : List Char → Item → Prop
  | null : Writes ['n', 'u', 'l', 'l'] (.value .null)
  | true : Writes ['t', 'r', 'u', 'e'] (.value (.bool true))
  | false : Writes ['f', 'a', 'l', 's', 'e'] (.value (.bool false))
  | num (t : NumTok) (n : JNum NumTok) : t.Valid → t.Denotes n → Writes t.text (.value (.num n))
  | str (t s : List Char) : Chars t (some s) → Writes ('"' :: (t ++ ['"'])) (.value (.str (String.ofList s)))
  | lone (t : List Char) : Chars t none → Writes ('"' :: (t ++ ['"'])) (.value .loneSurrogate)
  | arrEmpty (w : List Char) : White w → Writes ('[' :: (w ++ [']'])) (.value (.arr []))
  | arr (t : List Char) (xs : List (Json NumTok)) : Writes t (.elements xs) → Writes ('[' :: (t ++ [']'])) (.value (.arr xs))
  | objEmpty (w : List Char) : White w → Writes ('{' :: (w ++ ['}'])) (.value (.obj []))
  | obj (t : List Char) (kvs : List (String × Json NumTok)) : Writes t (.members kvs) →
      Writes ('{' :: (t ++ ['}'])) (.value (.obj kvs))
  | lastElement (w t w' : List Char) (x : Json NumTok) : White w → Writes t (.value x) → White w' →
      Writes (w ++ (t ++ w')) (.elements [x])
  | element (w t w' t' : List Char) (x : Json NumTok) (xs : List (Json NumTok)) : White w → Writes t (.value x) → White w' →
      Writes t' (.elements xs) → Writes (w ++ (t ++ (w' ++ ',' :: t'))) (.elements (x :: xs))
  | lastMember (w k w' w'' t w''' s : List Char) (x : Json NumTok) : White w → Chars k (some s) → White w' → White w'' →
      Writes t (.value x) → White w''' →
      Writes (w ++ '"' :: (k ++ '"' :: (w' ++ ':' :: (w'' ++ (t ++ w'''))))) (.members [(String.ofList s, x)])
  | member (w k w' w'' t w''' t' s : List Char) (x : Json NumTok) (kvs : List (String × Json NumTok)) : White w →
      Chars k (some s) → White w' → White w'' → Writes t (.value x) → White w''' → Writes t' (.members kvs) →
      Writes (w ++ '"' :: (k ++ '"' :: (w' ++ ':' :: (w'' ++ (t ++ (w''' ++ ',' :: t')))))) (.members ((String.ofList s, x) :: kvs))

/-- a JSON text: one value with white space around it -/
def IsText (text : String) (j : Json NumTok) : Prop :=
  ∃ w t w', White w ∧ White w' ∧ Writes t (.value j) ∧ text.toList = w ++ (t ++ w')

/-! ### white space -/

theorem white_iff (w : List Char) : White w ↔ ∀ c ∈ w, isWs c = true := by
  unfold White isWs
  simp [or_assoc]

theorem skipWs_white (w : List Char) (hw : White w) (c : Char) (r : List Char) (hc : isWs c = false) :
    skipWs (w ++ c :: r) = c :: r := by
  unfold skipWs
  rw [List.dropWhile_append_of_pos ((white_iff w).1 hw)]
  simp [hc]

theorem skipWs_all (w : List Char) : skipWs w = [] ↔ White w := by
  rw [white_iff]
  unfold skipWs
  exact List.dropWhile_eq_nil_iff

theorem skipWs_split (cs : List Char) : ∃ w, White w ∧ cs = w ++ skipWs cs := by
  refine ⟨cs.takeWhile isWs, ?_, ?_⟩
  · rw [white_iff]
    exact fun c hc => List.mem_takeWhile_imp hc
  · exact (List.takeWhile_append_dropWhile).symm

/-! ### strings -/

theorem hexVal_iff (c : Char) (v : Nat) : hexVal c = some v ↔ HexDigit c v := by
  constructor
  · intro h
    unfold hexVal at h
    have hc : c = Char.ofNat c.toNat := (Char.ofNat_toNat c).symm
    split_ifs at h with h1 h2 h3
    · have h1' : 48 ≤ c.toNat ∧ c.toNat ≤ 57 := by
        simpa [Char.isDigit, UInt32.le_iff_toNat_le] using h1
      obtain ⟨a, b⟩ := h1'
      simp only [Option.some.injEq] at h
      generalize c.toNat = k at *
      interval_cases k <;> subst h <;> subst hc <;> exact ⟨by decide, by decide⟩
    · obtain ⟨a, b⟩ := h2
      simp only [Option.some.injEq] at h
      generalize c.toNat = k at *
      interval_cases k <;> subst h <;> subst hc <;> exact ⟨by decide, by decide⟩
    · obtain ⟨a, b⟩ := h3
      simp only [Option.some.injEq] at h
      generalize c.toNat = k at *
      interval_cases k <;> subst h <;> subst hc <;> exact ⟨by decide, by decide⟩
  · rintro ⟨hv, h⟩
    interval_cases v <;> rcases h with rfl | rfl <;> decide

theorem hexDigit_ne {c : Char} {v : Nat} (h : HexDigit c v) : c ≠ '"' := by
  obtain ⟨hv, h⟩ := h
  interval_cases v <;> rcases h with rfl | rfl <;> decide

theorem hex4_iff (cs r : List Char) (n : Nat) : hex4 cs = some (n, r) ↔ ∃ h, Hex4 h n ∧ cs = h ++ r := by
  constructor
  · intro h
    unfold hex4 at h
    split at h
    · rename_i a b c d cs
      cases ha : hexVal a with
      | none => simp [ha] at h
      | some va =>
        cases hb : hexVal b with
        | none => simp [ha, hb] at h
        | some vb =>
          cases hc : hexVal c with
          | none => simp [ha, hb, hc] at h
          | some vc =>
            cases hd : hexVal d with
            | none => simp [ha, hb, hc, hd] at h
            | some vd =>
              simp only [ha, hb, hc, hd, bind, Option.bind, pure, Option.some.injEq, Prod.mk.injEq] at h
              obtain ⟨h1, rfl⟩ := h
              refine ⟨[a, b, c, d], ⟨a, b, c, d, va, vb, vc, vd, rfl, (hexVal_iff _ _).1 ha, (hexVal_iff _ _).1 hb,
                (hexVal_iff _ _).1 hc, (hexVal_iff _ _).1 hd, ?_⟩, rfl⟩
              omega
    · cases h
  · rintro ⟨h, ⟨a, b, c, d, va, vb, vc, vd, rfl, ha, hb, hc, hd, rfl⟩, rfl⟩
    rw [← hexVal_iff] at ha hb hc hd
    simp only [List.cons_append, List.nil_append, hex4, ha, hb, hc, hd, bind, Option.bind, pure, Option.some.injEq,
      Prod.mk.injEq, and_true]
    omega

theorem hex4_length {h : List Char} {n : Nat} (hh : Hex4 h n) : h.length = 4 := by
  obtain ⟨a, b, c, d, _, _, _, _, rfl, _⟩ := hh
  rfl

theorem hex4_ne {h : List Char} {n : Nat} (hh : Hex4 h n) : '"' ∉ h := by
  obtain ⟨a, b, c, d, _, _, _, _, rfl, ha, hb, hc, hd, _⟩ := hh
  have := hexDigit_ne ha
  have := hexDigit_ne hb
  have := hexDigit_ne hc
  have := hexDigit_ne hd
  simp only [List.mem_cons, List.not_mem_nil, or_false]
  rintro (h | h | h | h) <;> exact absurd h.symm (by assumption)

theorem isHigh_iff (n : Nat) : isHigh n = true ↔ HighSurrogate n := by
  unfold isHigh HighSurrogate
  simp only [Bool.and_eq_true, decide_eq_true_eq]
  omega

theorem isLow_iff (n : Nat) : isLow n = true ↔ LowSurrogate n := by
  unfold isLow LowSurrogate
  simp only [Bool.and_eq_true, decide_eq_true_eq]
  omega

theorem lowEscape_iff (cs r : List Char) (m : Nat) :
    lowEscape cs = some (m, r) ↔ ∃ l, Hex4 l m ∧ LowSurrogate m ∧ cs = '\\' :: 'u' :: (l ++ r) := by
  constructor
  · intro h
    unfold lowEscape at h
    split at h
    · rename_i a b cs
      split_ifs at h with hab
      obtain ⟨rfl, rfl⟩ := hab
      cases hh : hex4 cs with
      | none => rw [hh] at h; cases h
      | some nr =>
        obtain ⟨n, r'⟩ := nr
        rw [hh] at h
        simp only at h
        split_ifs at h with hl
        cases h
        obtain ⟨l, h1, h2⟩ := (hex4_iff _ _ _).1 hh
        exact ⟨l, h1, (isLow_iff _).1 hl, by rw [h2]⟩
    · cases h
  · rintro ⟨l, h1, h2, rfl⟩
    have hh := (hex4_iff (l ++ r) r m).2 ⟨l, h1, rfl⟩
    simp only [lowEscape, and_self, ↓reduceIte, hh, (isLow_iff _).2 h2]

theorem shortEscape_iff (e c : Char) : shortEscape e = some c ↔ (e, c) ∈ shortEscapes := by
  constructor
  · intro h
    unfold shortEscape at h
    split_ifs at h <;> (subst_vars; simp only [Option.some.injEq] at h; subst h; decide)
  · intro h
    simp only [shortEscapes, List.mem_cons, Prod.mk.injEq, List.not_mem_nil, or_false] at h
    rcases h with ⟨rfl, rfl⟩ | ⟨rfl, rfl⟩ | ⟨rfl, rfl⟩ | ⟨rfl, rfl⟩ | ⟨rfl, rfl⟩ | ⟨rfl, rfl⟩ | ⟨rfl, rfl⟩ | ⟨rfl, rfl⟩ <;> decide

theorem consChar_some (c : Char) (s : Option (List Char)) : consChar (some c) s = s.map (c :: ·) := by
  cases s <;> rfl

theorem consChar_none (s : Option (List Char)) : consChar none s = none := by
  cases s <;> rfl

/-- a rest of text that begins with an escaped low surrogate and stands before a quote -/
theorem lowEscape_before_quote (t r r' : List Char) (m : Nat) (h : lowEscape (t ++ '"' :: r) = some (m, r')) :
    ∃ l t', Hex4 l m ∧ LowSurrogate m ∧ t = '\\' :: 'u' :: (l ++ t') ∧ r' = t' ++ '"' :: r := by
  obtain ⟨l, h1, h2, h3⟩ := (lowEscape_iff _ _ _).1 h
  have h3' : t ++ '"' :: r = ('\\' :: 'u' :: l) ++ r' := h3
  rcases List.append_eq_append_iff.1 h3' with ⟨as, ha, hb⟩ | ⟨bs, ha, hb⟩
  · cases as with
    | nil => exact ⟨l, [], h1, h2, by simpa using ha.symm, by simpa using hb.symm⟩
    | cons a as =>
      simp only [List.cons_append, List.cons.injEq] at hb
      obtain ⟨rfl, _⟩ := hb
      have : '"' ∈ ('\\' :: 'u' :: l) := by rw [ha]; simp
      simp only [List.mem_cons, Char.reduceEq, false_or] at this
      exact absurd this (hex4_ne h1)
  · exact ⟨l, bs, h1, h2, by rw [ha]; rfl, by rw [hb]⟩

theorem strBody_sound (n : Nat) : ∀ (cs r : List Char) (s : Option (List Char)), strBody n cs = some (s, r) →
    ∃ t, Chars t s ∧ cs = t ++ '"' :: r := by
  induction n with
  | zero => intro cs r s h; simp [strBody] at h
  | succ n ih =>
    intro cs r s h
    cases cs with
    | nil => simp [strBody] at h
    | cons c cs =>
      simp only [strBody] at h
      by_cases h1 : c = '"'
      · rw [if_pos h1] at h
        cases h
        exact ⟨[], .nil, by rw [h1]; rfl⟩
      · rw [if_neg h1] at h
        by_cases h2 : c = '\\'
        · rw [if_pos h2] at h
          subst h2
          cases he : escape cs with
          | none => rw [he] at h; cases h
          | some p =>
            obtain ⟨ch, q⟩ := p
            rw [he] at h
            simp only at h
            cases hs : strBody n q with
            | none => rw [hs] at h; cases h
            | some p' =>
              obtain ⟨s', r'⟩ := p'
              rw [hs] at h
              cases h
              obtain ⟨t, ht, rfl⟩ := ih _ _ _ hs
              cases cs with
              | nil => simp [escape] at he
              | cons e cs =>
                simp only [escape] at he
                by_cases hu : e = 'u'
                · rw [if_pos hu] at he
                  subst hu
                  cases hx : hex4 cs with
                  | none => rw [hx] at he; cases he
                  | some p' =>
                    obtain ⟨k, q'⟩ := p'
                    rw [hx] at he
                    simp only at he
                    obtain ⟨hh, hk, rfl⟩ := (hex4_iff _ _ _).1 hx
                    by_cases hi : isHigh k = true
                    · rw [if_pos hi] at he
                      cases hl : lowEscape q' with
                      | none =>
                        rw [hl] at he
                        cases he
                        refine ⟨'\\' :: 'u' :: (hh ++ t), ?_, by simp⟩
                        rw [consChar_none]
                        refine .unpaired hh k t _ hk (.inr ⟨(isHigh_iff k).1 hi, ?_⟩) ht
                        rintro l m t' hl' hm rfl
                        have := (lowEscape_iff ('\\' :: 'u' :: (l ++ t') ++ '"' :: r) (t' ++ '"' :: r) m).2
                          ⟨l, hl', hm, by simp⟩
                        rw [this] at hl; cases hl
                      | some p' =>
                        obtain ⟨m, q''⟩ := p'
                        rw [hl] at he
                        cases he
                        obtain ⟨l, hl', hm, rfl⟩ := (lowEscape_iff _ _ _).1 hl
                        refine ⟨'\\' :: 'u' :: (hh ++ '\\' :: 'u' :: (l ++ t)), ?_, by simp⟩
                        rw [consChar_some]
                        exact .pair hh l k m t _ hk ((isHigh_iff k).1 hi) hl' hm ht
                    · rw [if_neg hi] at he
                      by_cases hlo : isLow k = true
                      · rw [if_pos hlo] at he
                        cases he
                        refine ⟨'\\' :: 'u' :: (hh ++ t), ?_, by simp⟩
                        rw [consChar_none]
                        exact .unpaired hh k t _ hk (.inl ((isLow_iff k).1 hlo)) ht
                      · rw [if_neg hlo] at he
                        cases he
                        refine ⟨'\\' :: 'u' :: (hh ++ t), ?_, by simp⟩
                        rw [consChar_some]
                        exact .unicode hh k t _ hk (fun h' => hi ((isHigh_iff k).2 h')) (fun h' => hlo ((isLow_iff k).2 h')) ht
                · rw [if_neg hu] at he
                  cases hse : shortEscape e with
                  | none => rw [hse] at he; cases he
                  | some c' =>
                    rw [hse] at he
                    cases he
                    refine ⟨'\\' :: e :: t, ?_, rfl⟩
                    rw [consChar_some]
                    exact .short e c' t _ ((shortEscape_iff e c').1 hse) ht
        · rw [if_neg h2] at h
          by_cases h3 : c.toNat < 32
          · rw [if_pos h3] at h; cases h
          · rw [if_neg h3] at h
            cases hs : strBody n cs with
            | none => rw [hs] at h; cases h
            | some p' =>
              obtain ⟨s', r'⟩ := p'
              rw [hs] at h
              cases h
              obtain ⟨t, ht, rfl⟩ := ih _ _ _ hs
              refine ⟨c :: t, ?_, rfl⟩
              rw [consChar_some]
              exact .plain c t _ (by omega) h1 h2 ht

theorem escape_complete_short (e c : Char) (cs : List Char) (h : (e, c) ∈ shortEscapes) : escape (e :: cs) = some (some c, cs) := by
  have hs := (shortEscape_iff e c).2 h
  have hu : e ≠ 'u' := by
    rintro rfl
    revert hs
    simp [shortEscape]
  simp only [escape, hu, ↓reduceIte, hs]

theorem strBody_complete (t : List Char) (s : Option (List Char)) (h : Chars t s) : ∀ (n : Nat) (r : List Char), t.length < n →
    strBody n (t ++ '"' :: r) = some (s, r) := by
  induction h with
  | nil =>
    intro n r hn
    cases n with
    | zero => simp at hn
    | succ n => simp [strBody]
  | plain c t s h1 h2 h3 _ ih =>
    intro n r hn
    cases n with
    | zero => simp at hn
    | succ n =>
      have := ih n r (by simpa using hn)
      simp only [List.cons_append, strBody, h2, h3, ↓reduceIte, this, show ¬ c.toNat < 32 by omega, consChar_some]
  | short e c t s hec _ ih =>
    intro n r hn
    cases n with
    | zero => simp at hn
    | succ n =>
      have := ih n r (by simp at hn; omega)
      have he := escape_complete_short e c (t ++ '"' :: r) hec
      simp only [List.cons_append, strBody, Char.reduceEq, ↓reduceIte, he, this, consChar_some]
  | unicode hh k t s hk hh1 hl1 _ ih =>
    intro n r hn
    cases n with
    | zero => simp at hn
    | succ n =>
      have := ih n r (by simp at hn; omega)
      have hx := (hex4_iff (hh ++ (t ++ '"' :: r)) (t ++ '"' :: r) k).2 ⟨hh, hk, rfl⟩
      have he : escape ('u' :: (hh ++ (t ++ '"' :: r))) = some (some (Char.ofNat k), t ++ '"' :: r) := by
        have e1 : isHigh k = false := by rw [← Bool.not_eq_true, isHigh_iff]; exact hh1
        have e2 : isLow k = false := by rw [← Bool.not_eq_true, isLow_iff]; exact hl1
        simp [escape, hx, e1, e2]
      simp only [List.cons_append, List.append_assoc, strBody, Char.reduceEq, ↓reduceIte, he, this, consChar_some]
  | pair hh l k m t s hk hh1 hl hm _ ih =>
    intro n r hn
    cases n with
    | zero => simp at hn
    | succ n =>
      have := ih n r (by simp at hn; omega)
      have hx := (hex4_iff (hh ++ ('\\' :: 'u' :: (l ++ (t ++ '"' :: r)))) ('\\' :: 'u' :: (l ++ (t ++ '"' :: r))) k).2 ⟨hh, hk, rfl⟩
      have hy := (lowEscape_iff ('\\' :: 'u' :: (l ++ (t ++ '"' :: r))) (t ++ '"' :: r) m).2 ⟨l, hl, hm, rfl⟩
      have he : escape ('u' :: (hh ++ ('\\' :: 'u' :: (l ++ (t ++ '"' :: r))))) =
          some (some (Char.ofNat (0x10000 + (k - 0xD800) * 0x400 + (m - 0xDC00))), t ++ '"' :: r) := by
        simp only [escape, ↓reduceIte, hx, (isHigh_iff k).2 hh1, hy]
      simp only [List.cons_append, List.append_assoc, strBody, Char.reduceEq, ↓reduceIte, he, this, consChar_some]
  | unpaired hh k t s hk hor _ ih =>
    intro n r hn
    cases n with
    | zero => simp at hn
    | succ n =>
      have := ih n r (by simp at hn; omega)
      have hx := (hex4_iff (hh ++ (t ++ '"' :: r)) (t ++ '"' :: r) k).2 ⟨hh, hk, rfl⟩
      have he : escape ('u' :: (hh ++ (t ++ '"' :: r))) = some (none, t ++ '"' :: r) := by
        rcases hor with hlo | ⟨hhi, hno⟩
        · have e1 : isHigh k = false := by
            rw [← Bool.not_eq_true, isHigh_iff]
            unfold HighSurrogate; unfold LowSurrogate at hlo; omega
          simp [escape, hx, e1, (isLow_iff k).2 hlo]
        · have e1 : lowEscape (t ++ '"' :: r) = none := by
            cases hl : lowEscape (t ++ '"' :: r) with
            | none => rfl
            | some p =>
              obtain ⟨m, r'⟩ := p
              obtain ⟨l, t', h1, h2, h3, _⟩ := lowEscape_before_quote t r r' m hl
              exact absurd h3 (hno l m t' h1 h2)
          simp only [escape, ↓reduceIte, hx, (isHigh_iff k).2 hhi, e1]
      simp only [List.cons_append, List.append_assoc, strBody, Char.reduceEq, ↓reduceIte, he, this, consChar_none]

/-! ### numbers -/

theorem intValue_eq (t : NumTok) : t.intValue = t.wholeValue := by
  unfold NumTok.intValue NumTok.wholeValue
  cases t.neg <;> simp

theorem denotes_iff (t : NumTok) (n : JNum NumTok) : t.Denotes n ↔ n = t.classify := by
  unfold NumTok.classify
  rw [intValue_eq]
  by_cases h : t.IsInt
  · have h' := h
    unfold NumTok.IsInt at h'
    rw [if_pos h']
    cases n with
    | int z => simp [NumTok.Denotes, h]
    | float d => simp [NumTok.Denotes, h]
  · have h' := h
    unfold NumTok.IsInt at h'
    rw [if_neg h']
    cases n with
    | int z => simp [NumTok.Denotes, h]
    | float d => simp [NumTok.Denotes, h]

/-- no digit follows -/
def NoDigit (r : List Char) : Prop := ∀ c cs, r = c :: cs → c.isDigit = false

theorem lexDigits_iff (cs ds r : List Char) : lexDigits cs = some (ds, r) ↔ cs = ds ++ r ∧ Digits ds ∧ NoDigit r := by
  unfold lexDigits Digits NoDigit
  constructor
  · intro h
    split_ifs at h with h0
    cases h
    refine ⟨(List.takeWhile_append_dropWhile).symm, ⟨h0, fun c hc => List.mem_takeWhile_imp hc⟩, ?_⟩
    intro c cs' hr
    have h1 : (cs.dropWhile Char.isDigit).head? = some c := by rw [hr]; rfl
    have h2 := List.head?_dropWhile_not Char.isDigit cs
    rw [h1] at h2
    simpa using h2
  · rintro ⟨rfl, ⟨h0, h1⟩, h2⟩
    have e1 : (ds ++ r).takeWhile Char.isDigit = ds := by
      rw [List.takeWhile_append_of_pos h1]
      cases r with
      | nil => simp
      | cons c cs => simp [h2 c cs rfl]
    have e2 : (ds ++ r).dropWhile Char.isDigit = r := by
      rw [List.dropWhile_append_of_pos h1]
      cases r with
      | nil => simp
      | cons c cs => simp [h2 c cs rfl]
    rw [e1, e2, if_neg h0]

theorem lexWhole_iff (cs w r : List Char) : lexWhole cs = some (w, r) ↔
    cs = w ++ r ∧ (w = ['0'] ∨ Digits w ∧ w.head? ≠ some '0') ∧ NoDigit r := by
  cases cs with
  | nil =>
    simp only [lexWhole]
    constructor
    · intro h; cases h
    · rintro ⟨h1, h2, _⟩
      have : w = [] := (List.append_eq_nil_iff.1 h1.symm).1
      subst this
      rcases h2 with h2 | ⟨⟨h2, _⟩, _⟩
      · cases h2
      · exact absurd rfl h2
  | cons c cs =>
    simp only [lexWhole]
    by_cases h0 : c = '0'
    · rw [if_pos h0]
      subst h0
      have key : ∀ r', '0' :: cs = w ++ r' → (w = ['0'] ∨ Digits w ∧ w.head? ≠ some '0') → w = ['0'] := by
        intro r' h1 h2
        rcases h2 with h2 | ⟨⟨h2, _⟩, h3⟩
        · exact h2
        · cases w with
          | nil => exact absurd rfl h2
          | cons a w =>
            simp only [List.cons_append, List.cons.injEq] at h1
            rw [← h1.1] at h3
            exact absurd rfl h3
      cases cs with
      | nil =>
        constructor
        · intro h; cases h; exact ⟨rfl, .inl rfl, fun _ _ h => by cases h⟩
        · rintro ⟨h1, h2, _⟩
          have := key r h1 h2
          subst this
          simp only [List.cons_append, List.nil_append, List.cons.injEq, true_and] at h1
          rw [← h1]
      | cons d ds =>
        simp only
        constructor
        · intro h
          split_ifs at h with hd
          cases h
          refine ⟨rfl, .inl rfl, fun _ _ h => ?_⟩
          cases h
          simpa using hd
        · rintro ⟨h1, h2, h3⟩
          have := key r h1 h2
          subst this
          simp only [List.cons_append, List.nil_append, List.cons.injEq, true_and] at h1
          have := h3 d ds h1.symm
          rw [if_neg (by simp [this]), ← h1]
    · rw [if_neg h0]
      by_cases hd : c.isDigit = true
      · rw [if_pos hd]
        have hl := lexDigits_iff (c :: cs) w r
        have e : lexDigits (c :: cs) = some (c :: cs.takeWhile Char.isDigit, cs.dropWhile Char.isDigit) := by
          simp [lexDigits, hd]
        rw [e] at hl
        rw [hl]
        constructor
        · rintro ⟨h1, h2, h3⟩
          refine ⟨h1, .inr ⟨h2, ?_⟩, h3⟩
          cases w with
          | nil => simp
          | cons a w =>
            simp only [List.cons_append, List.cons.injEq] at h1
            rw [← h1.1]
            simpa using h0
        · rintro ⟨h1, h2, h3⟩
          refine ⟨h1, ?_, h3⟩
          rcases h2 with rfl | h2
          · simp only [List.cons_append, List.nil_append, List.cons.injEq] at h1
            exact absurd h1.1 h0
          · exact h2.1
      · rw [if_neg hd]
        constructor
        · intro h; cases h
        · rintro ⟨h1, h2, _⟩
          exfalso
          cases w with
          | nil =>
            rcases h2 with h2 | ⟨⟨h2, _⟩, _⟩
            · cases h2
            · exact h2 rfl
          | cons a w =>
            simp only [List.cons_append, List.cons.injEq] at h1
            obtain ⟨rfl, _⟩ := h1
            rcases h2 with h2 | ⟨⟨_, h2⟩, _⟩
            · simp only [List.cons.injEq] at h2
              exact h0 h2.1
            · exact hd (h2 c (by simp))

/-- nothing that could continue a number token follows -/
def Ends (r : List Char) : Prop := ∀ c cs, r = c :: cs → c.isDigit = false ∧ c ≠ '.' ∧ c ≠ 'e' ∧ c ≠ 'E'

theorem lexFrac_sound (cs f r : List Char) (h : lexFrac cs = some (f, r)) :
    cs = f ++ r ∧ (f = [] ∨ ∃ ds, Digits ds ∧ f = '.' :: ds) := by
  cases cs with
  | nil => simp only [lexFrac] at h; cases h; exact ⟨rfl, .inl rfl⟩
  | cons c cs =>
    simp only [lexFrac] at h
    by_cases hc : c = '.'
    · rw [if_pos hc] at h
      cases hl : lexDigits cs with
      | none => rw [hl] at h; cases h
      | some p =>
        obtain ⟨ds, r'⟩ := p
        rw [hl] at h
        cases h
        obtain ⟨rfl, h2, _⟩ := (lexDigits_iff _ _ _).1 hl
        exact ⟨rfl, .inr ⟨ds, h2, by rw [hc]⟩⟩
    · rw [if_neg hc] at h
      cases h
      exact ⟨rfl, .inl rfl⟩

theorem lexExp_sound (cs x r : List Char) (h : lexExp cs = some (x, r)) :
    cs = x ++ r ∧ (x = [] ∨ ∃ e sign ds, (e = 'e' ∨ e = 'E') ∧ (sign = [] ∨ sign = ['+'] ∨ sign = ['-']) ∧ Digits ds ∧
      x = e :: (sign ++ ds)) := by
  cases cs with
  | nil => simp only [lexExp] at h; cases h; exact ⟨rfl, .inl rfl⟩
  | cons c cs =>
    simp only [lexExp] at h
    by_cases hc : c = 'e' ∨ c = 'E'
    · rw [if_pos hc] at h
      cases hl : lexDigits (lexSign cs).2 with
      | none => rw [hl] at h; cases h
      | some p =>
        obtain ⟨ds, r'⟩ := p
        rw [hl] at h
        cases h
        obtain ⟨h1, h2, _⟩ := (lexDigits_iff _ _ _).1 hl
        have hs : cs = (lexSign cs).1 ++ (lexSign cs).2 ∧
            ((lexSign cs).1 = [] ∨ (lexSign cs).1 = ['+'] ∨ (lexSign cs).1 = ['-']) := by
          cases cs with
          | nil => exact ⟨rfl, .inl rfl⟩
          | cons d ds =>
            simp only [lexSign]
            split_ifs with hd
            · refine ⟨rfl, ?_⟩
              rcases hd with rfl | rfl
              · exact .inr (.inl rfl)
              · exact .inr (.inr rfl)
            · exact ⟨rfl, .inl rfl⟩
        refine ⟨?_, .inr ⟨c, (lexSign cs).1, ds, hc, hs.2, h2, rfl⟩⟩
        conv_lhs => rw [hs.1, h1]
        simp
    · rw [if_neg hc] at h
      cases h
      exact ⟨rfl, .inl rfl⟩

theorem lexNumber_sound (cs r : List Char) (t : NumTok) (h : lexNumber cs = some (t, r)) : t.Valid ∧ cs = t.text ++ r := by
  have hu : ∀ (neg : Bool) (cs r : List Char) (t : NumTok), lexUnsigned neg cs = some (t, r) →
      t.neg = neg ∧ t.Valid ∧ cs = t.whole ++ (t.frac ++ (t.exp ++ r)) := by
    intro neg cs r t h
    unfold lexUnsigned at h
    cases h1 : lexWhole cs with
    | none => rw [h1] at h; cases h
    | some p =>
      obtain ⟨w, r1⟩ := p
      rw [h1] at h
      simp only [bind, Option.bind] at h
      cases h2 : lexFrac r1 with
      | none => rw [h2] at h; cases h
      | some p =>
        obtain ⟨f, r2⟩ := p
        rw [h2] at h
        simp only at h
        cases h3 : lexExp r2 with
        | none => rw [h3] at h; cases h
        | some p =>
          obtain ⟨x, r3⟩ := p
          rw [h3] at h
          cases h
          obtain ⟨rfl, a, _⟩ := (lexWhole_iff _ _ _).1 h1
          obtain ⟨rfl, b⟩ := lexFrac_sound _ _ _ h2
          obtain ⟨rfl, c⟩ := lexExp_sound _ _ _ h3
          exact ⟨rfl, ⟨a, b, c⟩, rfl⟩
  cases cs with
  | nil => simp [lexNumber] at h
  | cons c cs =>
    simp only [lexNumber] at h
    by_cases hc : c = '-'
    · rw [if_pos hc] at h
      obtain ⟨h1, h2, h3⟩ := hu _ _ _ _ h
      refine ⟨h2, ?_⟩
      rw [hc, h3]
      simp [NumTok.text, h1]
    · rw [if_neg hc] at h
      obtain ⟨h1, h2, h3⟩ := hu _ _ _ _ h
      refine ⟨h2, ?_⟩
      rw [h3]
      simp [NumTok.text, h1]

theorem isDigit_ne {c d : Char} (hc : c.isDigit = true) (hd : d.isDigit = false) : c ≠ d := by
  rintro rfl
  rw [hc] at hd
  cases hd

theorem lexExp_complete (x r : List Char) (hx : x = [] ∨ ∃ e sign ds, (e = 'e' ∨ e = 'E') ∧
    (sign = [] ∨ sign = ['+'] ∨ sign = ['-']) ∧ Digits ds ∧ x = e :: (sign ++ ds)) (hr : Ends r) :
    lexExp (x ++ r) = some (x, r) := by
  rcases hx with rfl | ⟨e, sign, ds, he, hs, hd, rfl⟩
  · cases r with
    | nil => rfl
    | cons c cs =>
      obtain ⟨_, _, h1, h2⟩ := hr c cs rfl
      simp [lexExp, h1, h2]
  · have hsign : lexSign (sign ++ (ds ++ r)) = (sign, ds ++ r) := by
      rcases hs with rfl | rfl | rfl
      · obtain ⟨h0, h1⟩ := hd
        cases ds with
        | nil => exact absurd rfl h0
        | cons a ds =>
          have ha := h1 a (by simp)
          have n1 : a ≠ '+' := isDigit_ne ha (by decide)
          have n2 : a ≠ '-' := isDigit_ne ha (by decide)
          simp [lexSign, n1, n2]
      · simp [lexSign]
      · simp [lexSign]
    have hdig := (lexDigits_iff (ds ++ r) ds r).2 ⟨rfl, hd, fun c cs h => (hr c cs h).1⟩
    simp only [List.cons_append, List.append_assoc, lexExp, he, ↓reduceIte, hsign, hdig]
    rfl

theorem lexFrac_complete (f r : List Char) (hf : f = [] ∨ ∃ ds, Digits ds ∧ f = '.' :: ds) (hr : NoDigit r)
    (hp : ∀ c cs, r = c :: cs → c ≠ '.') : lexFrac (f ++ r) = some (f, r) := by
  rcases hf with rfl | ⟨ds, hd, rfl⟩
  · cases r with
    | nil => rfl
    | cons c cs => simp [lexFrac, hp c cs rfl]
  · have hdig := (lexDigits_iff (ds ++ r) ds r).2 ⟨rfl, hd, hr⟩
    simp only [List.cons_append, lexFrac, ↓reduceIte, hdig]
    rfl

theorem valid_head (t : NumTok) (ht : t.Valid) (r : List Char) :
    ∃ c cs, t.whole ++ r = c :: cs ∧ c.isDigit = true := by
  obtain ⟨h, _⟩ := ht
  rcases h with h | ⟨⟨h0, h1⟩, _⟩
  · exact ⟨'0', r, by rw [h]; rfl, by decide⟩
  · cases hw : t.whole with
    | nil => exact absurd hw h0
    | cons c cs => exact ⟨c, cs ++ r, rfl, h1 c (by rw [hw]; simp)⟩

theorem lexNumber_complete (t : NumTok) (r : List Char) (ht : t.Valid) (hr : Ends r) :
    lexNumber (t.text ++ r) = some (t, r) := by
  have h3 := lexExp_complete t.exp r ht.2.2 hr
  have hx : ∀ c cs, t.exp ++ r = c :: cs → c.isDigit = false ∧ c ≠ '.' := by
    intro c cs h
    rcases ht.2.2 with e | ⟨e, sign, ds, he, _, _, hexp⟩
    · rw [e, List.nil_append] at h
      exact ⟨(hr c cs h).1, (hr c cs h).2.1⟩
    · rw [hexp] at h
      simp only [List.cons_append, List.cons.injEq] at h
      obtain ⟨rfl, _⟩ := h
      rcases he with rfl | rfl <;> exact ⟨by decide, by decide⟩
  have h2 := lexFrac_complete t.frac (t.exp ++ r) ht.2.1 (fun c cs h => (hx c cs h).1) (fun c cs h => (hx c cs h).2)
  have hf : NoDigit (t.frac ++ (t.exp ++ r)) := by
    intro c cs h
    rcases ht.2.1 with e | ⟨ds, _, e⟩
    · rw [e, List.nil_append] at h
      exact (hx c cs h).1
    · rw [e] at h
      simp only [List.cons_append, List.cons.injEq] at h
      rw [← h.1]; decide
  have h1 := (lexWhole_iff (t.whole ++ (t.frac ++ (t.exp ++ r))) t.whole (t.frac ++ (t.exp ++ r))).2 ⟨rfl, ht.1, hf⟩
  have hu : lexUnsigned t.neg (t.whole ++ (t.frac ++ (t.exp ++ r))) = some (t, r) := by
    simp only [lexUnsigned, h1, h2, h3, bind, Option.bind, pure]
  cases hn : t.neg with
  | true =>
    rw [hn] at hu
    simp [NumTok.text, hn, lexNumber, hu]
  | false =>
    rw [hn] at hu
    obtain ⟨c, cs, hc, hd⟩ := valid_head t ht (t.frac ++ (t.exp ++ r))
    have hne : c ≠ '-' := isDigit_ne hd (by decide)
    have : t.text ++ r = c :: cs := by rw [← hc]; simp [NumTok.text, hn]
    rw [this]
    simp only [lexNumber, hne, ↓reduceIte]
    rw [← hc, hu]

end Kami.FoldFile
