import Verif.Fold.Grammar
import Verif.Fold.Meaning
/-!
# The reader accepts exactly the JSON grammar (C134)
-/

set_option autoImplicit false

namespace Kami.FoldFile

open Kami

/-! ### soundness -/

theorem white_append {w w' : List Char} (h : White w) (h' : White w') : White (w ++ w') := by
  intro c hc
  rcases List.mem_append.1 hc with hc | hc
  · exact h c hc
  · exact h' c hc

theorem elements_white {w t : List Char} {xs : List (Json NumTok)} (hw : White w) (h : Writes t (.elements xs)) :
    Writes (w ++ t) (.elements xs) := by
  cases h with
  | lastElement w1 t w2 x h1 h2 h3 =>
    rw [← List.append_assoc]
    exact .lastElement _ t w2 x (white_append hw h1) h2 h3
  | element w1 t w2 t' x xs h1 h2 h3 h4 =>
    rw [← List.append_assoc]
    exact .element _ t w2 t' x xs (white_append hw h1) h2 h3 h4

theorem members_white {w t : List Char} {kvs : List (String × Json NumTok)} (hw : White w) (h : Writes t (.members kvs)) :
    Writes (w ++ t) (.members kvs) := by
  cases h with
  | lastMember w1 k w2 w3 t w4 s x h1 h2 h3 h4 h5 h6 =>
    rw [← List.append_assoc]
    exact .lastMember _ k w2 w3 t w4 s x (white_append hw h1) h2 h3 h4 h5 h6
  | member w1 k w2 w3 t w4 t' s x kvs h1 h2 h3 h4 h5 h6 h7 =>
    rw [← List.append_assoc]
    exact .member _ k w2 w3 t w4 t' s x kvs (white_append hw h1) h2 h3 h4 h5 h6 h7

theorem expect_iff (word cs r : List Char) : expect word cs = some r ↔ cs = word ++ r := by
  unfold expect
  constructor
  · intro h
    split_ifs at h with h1
    cases h
    conv_lhs => rw [← List.take_append_drop word.length cs, h1]
  · rintro rfl
    simp

theorem read_sound (n : Nat) :
    (∀ cs r j, readValue n cs = some (j, r) → ∃ t, Writes t (.value j) ∧ cs = t ++ r) ∧
    (∀ cs r xs, readElements n cs = some (xs, r) → ∃ t, Writes t (.elements xs) ∧ cs = t ++ ']' :: r) ∧
    (∀ cs r kvs, readMembers n cs = some (kvs, r) → ∃ t, Writes t (.members kvs) ∧ cs = t ++ '}' :: r) := by
  induction n with
  | zero =>
    refine ⟨?_, ?_, ?_⟩
    · intro cs r j h; simp [readValue] at h
    · intro cs r j h; simp [readElements] at h
    · intro cs r j h; simp [readMembers] at h
  | succ n ih =>
    obtain ⟨ihv, ihe, ihm⟩ := ih
    refine ⟨?_, ?_, ?_⟩
    · intro cs r j h
      cases cs with
      | nil => simp [readValue] at h
      | cons c cs =>
        simp only [readValue] at h
        by_cases h1 : c = 'n'
        · rw [if_pos h1, Option.map_eq_some_iff] at h
          obtain ⟨q, hq, e⟩ := h
          cases e
          rw [h1, (expect_iff _ _ _).1 hq]
          exact ⟨_, .null, rfl⟩
        rw [if_neg h1] at h
        by_cases h2 : c = 't'
        · rw [if_pos h2, Option.map_eq_some_iff] at h
          obtain ⟨q, hq, e⟩ := h
          cases e
          rw [h2, (expect_iff _ _ _).1 hq]
          exact ⟨_, .true, rfl⟩
        rw [if_neg h2] at h
        by_cases h3 : c = 'f'
        · rw [if_pos h3, Option.map_eq_some_iff] at h
          obtain ⟨q, hq, e⟩ := h
          cases e
          rw [h3, (expect_iff _ _ _).1 hq]
          exact ⟨_, .false, rfl⟩
        rw [if_neg h3] at h
        by_cases h4 : c = '"'
        · rw [if_pos h4, Option.map_eq_some_iff] at h
          obtain ⟨⟨s, q⟩, hq, e⟩ := h
          simp only [Prod.mk.injEq] at e
          obtain ⟨rfl, rfl⟩ := e
          obtain ⟨t, ht, rfl⟩ := strBody_sound _ _ _ _ hq
          refine ⟨'"' :: (t ++ ['"']), ?_, by simp [h4]⟩
          cases s with
          | none => exact .lone t ht
          | some s => exact .str t s ht
        rw [if_neg h4] at h
        by_cases h5 : c = '['
        · rw [if_pos h5] at h
          obtain ⟨w, hw, hcs⟩ := skipWs_split cs
          cases hs : skipWs cs with
          | nil => rw [hs] at h; cases h
          | cons d q =>
            rw [hs] at h hcs
            simp only at h
            by_cases h6 : d = ']'
            · rw [if_pos h6] at h
              cases h
              exact ⟨_, .arrEmpty w hw, by rw [h5, hcs, h6]; simp⟩
            · rw [if_neg h6, Option.map_eq_some_iff] at h
              obtain ⟨⟨xs, q'⟩, hq, e⟩ := h
              simp only [Prod.mk.injEq] at e
              obtain ⟨rfl, rfl⟩ := e
              obtain ⟨t, ht, he⟩ := ihe _ _ _ hq
              exact ⟨_, .arr (w ++ t) xs (elements_white hw ht), by rw [h5, hcs, he]; simp⟩
        rw [if_neg h5] at h
        by_cases h6 : c = '{'
        · rw [if_pos h6] at h
          obtain ⟨w, hw, hcs⟩ := skipWs_split cs
          cases hs : skipWs cs with
          | nil => rw [hs] at h; cases h
          | cons d q =>
            rw [hs] at h hcs
            simp only at h
            by_cases h7 : d = '}'
            · rw [if_pos h7] at h
              cases h
              exact ⟨_, .objEmpty w hw, by rw [h6, hcs, h7]; simp⟩
            · rw [if_neg h7, Option.map_eq_some_iff] at h
              obtain ⟨⟨xs, q'⟩, hq, e⟩ := h
              simp only [Prod.mk.injEq] at e
              obtain ⟨rfl, rfl⟩ := e
              obtain ⟨t, ht, he⟩ := ihm _ _ _ hq
              exact ⟨_, .obj (w ++ t) xs (members_white hw ht), by rw [h6, hcs, he]; simp⟩
        rw [if_neg h6, Option.map_eq_some_iff] at h
        obtain ⟨⟨t, q⟩, hq, e⟩ := h
        simp only [Prod.mk.injEq] at e
        obtain ⟨rfl, rfl⟩ := e
        obtain ⟨hv, he⟩ := lexNumber_sound _ _ _ hq
        exact ⟨t.text, .num t _ hv ((denotes_iff t _).2 rfl), he⟩
    · intro cs r xs h
      simp only [readElements] at h
      obtain ⟨w, hw, hcs⟩ := skipWs_split cs
      cases hv : readValue n (skipWs cs) with
      | none => rw [hv] at h; cases h
      | some p =>
        obtain ⟨x, q⟩ := p
        rw [hv] at h
        simp only at h
        obtain ⟨t, ht, he⟩ := ihv _ _ _ hv
        obtain ⟨w', hw', hq⟩ := skipWs_split q
        cases hs : skipWs q with
        | nil => rw [hs] at h; cases h
        | cons d q' =>
          rw [hs] at h hq
          simp only at h
          by_cases h1 : d = ','
          · rw [if_pos h1, Option.map_eq_some_iff] at h
            obtain ⟨⟨ys, q''⟩, hy, e⟩ := h
            simp only [Prod.mk.injEq] at e
            obtain ⟨rfl, rfl⟩ := e
            obtain ⟨t', ht', rfl⟩ := ihe _ _ _ hy
            exact ⟨_, .element w t w' t' x ys hw ht hw' ht', by rw [hcs, he, hq, h1]; simp⟩
          · rw [if_neg h1] at h
            by_cases h2 : d = ']'
            · rw [if_pos h2] at h
              cases h
              exact ⟨_, .lastElement w t w' x hw ht hw', by rw [hcs, he, hq, h2]; simp⟩
            · rw [if_neg h2] at h; cases h
    · intro cs r kvs h
      simp only [readMembers] at h
      obtain ⟨w, hw, hcs⟩ := skipWs_split cs
      cases hc : skipWs cs with
      | nil => rw [hc] at h; cases h
      | cons q0 cs' =>
        rw [hc] at h hcs
        simp only at h
        by_cases h0 : q0 = '"'
        · rw [if_pos h0] at h
          cases hk : strBody n cs' with
          | none => rw [hk] at h; cases h
          | some p =>
            obtain ⟨s, q⟩ := p
            cases s with
            | none => rw [hk] at h; cases h
            | some s =>
              rw [hk] at h
              simp only at h
              obtain ⟨k, hks, rfl⟩ := strBody_sound _ _ _ _ hk
              obtain ⟨w', hw', hq⟩ := skipWs_split q
              cases hs : skipWs q with
              | nil => rw [hs] at h; cases h
              | cons d q' =>
                rw [hs] at h hq
                simp only at h
                by_cases h1 : d = ':'
                · rw [if_pos h1] at h
                  obtain ⟨w'', hw'', hq'⟩ := skipWs_split q'
                  cases hv : readValue n (skipWs q') with
                  | none => rw [hv] at h; cases h
                  | some p =>
                    obtain ⟨x, q''⟩ := p
                    rw [hv] at h
                    simp only at h
                    obtain ⟨t, ht, he⟩ := ihv _ _ _ hv
                    obtain ⟨w''', hw''', hq''⟩ := skipWs_split q''
                    cases hs' : skipWs q'' with
                    | nil => rw [hs'] at h; cases h
                    | cons d' q3 =>
                      rw [hs'] at h hq''
                      simp only at h
                      by_cases h2 : d' = ','
                      · rw [if_pos h2, Option.map_eq_some_iff] at h
                        obtain ⟨⟨ys, q4⟩, hy, e⟩ := h
                        simp only [Prod.mk.injEq] at e
                        obtain ⟨rfl, rfl⟩ := e
                        obtain ⟨t', ht', rfl⟩ := ihm _ _ _ hy
                        exact ⟨_, .member w k w' w'' t w''' t' s x ys hw hks hw' hw'' ht hw''' ht',
                          by rw [hcs, h0, hq, h1, hq', he, hq'', h2]; simp⟩
                      · rw [if_neg h2] at h
                        by_cases h3 : d' = '}'
                        · rw [if_pos h3] at h
                          cases h
                          exact ⟨_, .lastMember w k w' w'' t w''' s x hw hks hw' hw'' ht hw''',
                            by rw [hcs, h0, hq, h1, hq', he, hq'', h3]; simp⟩
                        · rw [if_neg h3] at h; cases h
                · rw [if_neg h1] at h; cases h
        · rw [if_neg h0] at h; cases h

/-! ### completeness -/

/-- the first character of a value -/
theorem value_head {t : List Char} {j : Json NumTok} (h : Writes t (.value j)) :
    ∃ c cs, t = c :: cs ∧ isWs c = false ∧ c ≠ ']' ∧ c ≠ '}' := by
  cases h with
  | null => exact ⟨_, _, rfl, by decide, by decide, by decide⟩
  | true => exact ⟨_, _, rfl, by decide, by decide, by decide⟩
  | false => exact ⟨_, _, rfl, by decide, by decide, by decide⟩
  | str => exact ⟨_, _, rfl, by decide, by decide, by decide⟩
  | lone => exact ⟨_, _, rfl, by decide, by decide, by decide⟩
  | arrEmpty => exact ⟨_, _, rfl, by decide, by decide, by decide⟩
  | arr => exact ⟨_, _, rfl, by decide, by decide, by decide⟩
  | objEmpty => exact ⟨_, _, rfl, by decide, by decide, by decide⟩
  | obj => exact ⟨_, _, rfl, by decide, by decide, by decide⟩
  | num t _ ht _ =>
    cases hn : t.neg with
    | true => exact ⟨'-', t.whole ++ (t.frac ++ t.exp), by simp [NumTok.text, hn], by decide, by decide, by decide⟩
    | false =>
      obtain ⟨c, cs, hc, hd⟩ := valid_head t ht (t.frac ++ t.exp)
      refine ⟨c, cs, by rw [← hc]; simp [NumTok.text, hn], ?_, isDigit_ne hd (by decide), isDigit_ne hd (by decide)⟩
      have n1 : c ≠ ' ' := isDigit_ne hd (by decide)
      have n2 : c ≠ '\n' := isDigit_ne hd (by decide)
      have n3 : c ≠ '\t' := isDigit_ne hd (by decide)
      have n4 : c ≠ '\r' := isDigit_ne hd (by decide)
      simp [isWs, n1, n2, n3, n4]

theorem ends_white (w r : List Char) (c : Char) (hw : White w) (hc : c = ',' ∨ c = ']' ∨ c = '}') : Ends (w ++ c :: r) := by
  intro d ds h
  cases w with
  | nil =>
    simp only [List.nil_append, List.cons.injEq] at h
    obtain ⟨rfl, _⟩ := h
    rcases hc with rfl | rfl | rfl <;> exact ⟨by decide, by decide, by decide, by decide⟩
  | cons a w =>
    simp only [List.cons_append, List.cons.injEq] at h
    obtain ⟨rfl, _⟩ := h
    rcases hw a (by simp) with rfl | rfl | rfl | rfl <;> exact ⟨by decide, by decide, by decide, by decide⟩

theorem skipWs_idem (cs : List Char) : skipWs (skipWs cs) = skipWs cs := by
  unfold skipWs
  induction cs with
  | nil => rfl
  | cons c cs ih =>
    by_cases hc : isWs c = true
    · simp only [List.dropWhile_cons, hc, ↓reduceIte]
      exact ih
    · simp [hc]

theorem readElements_skip (n : Nat) (cs : List Char) : readElements n (skipWs cs) = readElements n cs := by
  cases n with
  | zero => simp [readElements]
  | succ n => simp only [readElements, skipWs_idem]

theorem readMembers_skip (n : Nat) (cs : List Char) : readMembers n (skipWs cs) = readMembers n cs := by
  cases n with
  | zero => simp [readMembers]
  | succ n => simp only [readMembers, skipWs_idem]

theorem skipWs_value {w t r : List Char} {j : Json NumTok} (hw : White w) (h : Writes t (.value j)) :
    skipWs (w ++ (t ++ r)) = t ++ r := by
  obtain ⟨c, cs, rfl, h1, _⟩ := value_head h
  exact skipWs_white w hw c (cs ++ r) h1

/-- what the reader does with an item of the grammar -/
def ReadsItem (t : List Char) : Item → Prop
  | .value j => ∀ n r, t.length < n → ((∃ z, j = .num z) → Ends r) → readValue n (t ++ r) = some (j, r)
  | .elements xs => ∀ n r, t.length + 1 < n → readElements n (t ++ ']' :: r) = some (xs, r)
  | .members kvs => ∀ n r, t.length + 1 < n → readMembers n (t ++ '}' :: r) = some (kvs, r)

theorem elements_head {t : List Char} {xs : List (Json NumTok)} (h : Writes t (.elements xs)) (r : List Char) :
    ∃ c cs, skipWs (t ++ r) = c :: cs ∧ c ≠ ']' := by
  cases h with
  | lastElement w t w' x h1 h2 h3 =>
    obtain ⟨c, cs, rfl, h4, h5, _⟩ := value_head h2
    refine ⟨c, cs ++ (w' ++ r), ?_, h5⟩
    have := skipWs_white w h1 c (cs ++ (w' ++ r)) h4
    simpa using this
  | element w t w' t' x xs h1 h2 h3 h4 =>
    obtain ⟨c, cs, rfl, h4, h5, _⟩ := value_head h2
    refine ⟨c, cs ++ (w' ++ ',' :: (t' ++ r)), ?_, h5⟩
    have := skipWs_white w h1 c (cs ++ (w' ++ ',' :: (t' ++ r))) h4
    simpa using this

theorem members_head {t : List Char} {kvs : List (String × Json NumTok)} (h : Writes t (.members kvs)) (r : List Char) :
    ∃ cs, skipWs (t ++ r) = '"' :: cs := by
  cases h with
  | lastMember w k w' w'' t w''' s x h1 =>
    exact ⟨_, by rw [List.append_assoc, List.cons_append]; exact skipWs_white w h1 '"' _ (by decide)⟩
  | member w k w' w'' t w''' t' s x kvs h1 =>
    exact ⟨_, by rw [List.append_assoc, List.cons_append]; exact skipWs_white w h1 '"' _ (by decide)⟩

theorem read_complete {t : List Char} {i : Item} (h : Writes t i) : ReadsItem t i := by
  induction h with
  | null =>
    intro n r hn _
    obtain ⟨n, rfl⟩ : ∃ m, n = m + 1 := ⟨n - 1, by simp at hn; omega⟩
    simp [readValue, expect]
  | true =>
    intro n r hn _
    obtain ⟨n, rfl⟩ : ∃ m, n = m + 1 := ⟨n - 1, by simp at hn; omega⟩
    simp [readValue, expect]
  | false =>
    intro n r hn _
    obtain ⟨n, rfl⟩ : ∃ m, n = m + 1 := ⟨n - 1, by simp at hn; omega⟩
    simp [readValue, expect]
  | num t k ht hk =>
    intro n r hn hr
    rw [(denotes_iff t k).1 hk]
    obtain ⟨n, rfl⟩ : ∃ m, n = m + 1 := ⟨n - 1, by omega⟩
    have hl := lexNumber_complete t r ht (hr ⟨_, rfl⟩)
    have hc : ∃ c cs, t.text ++ r = c :: cs ∧ (c = '-' ∨ c.isDigit = true) := by
      cases hn : t.neg with
      | true => exact ⟨'-', t.whole ++ (t.frac ++ (t.exp ++ r)), by simp [NumTok.text, hn], .inl rfl⟩
      | false =>
        obtain ⟨c, cs, hc, hd⟩ := valid_head t ht (t.frac ++ (t.exp ++ r))
        exact ⟨c, cs, by rw [← hc]; simp [NumTok.text, hn], .inr hd⟩
    obtain ⟨c, cs, hc, hcd⟩ := hc
    rw [hc] at hl ⊢
    have hne : ∀ d : Char, d ≠ '-' → d.isDigit = false → c ≠ d := by
      intro d h1 h2
      rcases hcd with rfl | hcd
      · exact h1.symm
      · exact isDigit_ne hcd h2
    simp only [readValue, hne 'n' (by decide) (by decide), hne 't' (by decide) (by decide), hne 'f' (by decide) (by decide),
      hne '"' (by decide) (by decide), hne '[' (by decide) (by decide), hne '{' (by decide) (by decide), ↓reduceIte, hl,
      Option.map_some]
  | str t s hs =>
    intro n r hn _
    obtain ⟨n, rfl⟩ : ∃ m, n = m + 1 := ⟨n - 1, by omega⟩
    have := strBody_complete t _ hs n r (by simp at hn; omega)
    simp [readValue, this, strTree]
  | lone t hs =>
    intro n r hn _
    obtain ⟨n, rfl⟩ : ∃ m, n = m + 1 := ⟨n - 1, by omega⟩
    have := strBody_complete t _ hs n r (by simp at hn; omega)
    simp [readValue, this, strTree]
  | arrEmpty w hw =>
    intro n r hn _
    obtain ⟨n, rfl⟩ : ∃ m, n = m + 1 := ⟨n - 1, by omega⟩
    have := skipWs_white w hw ']' r (by decide)
    simp [readValue, this]
  | objEmpty w hw =>
    intro n r hn _
    obtain ⟨n, rfl⟩ : ∃ m, n = m + 1 := ⟨n - 1, by omega⟩
    have := skipWs_white w hw '}' r (by decide)
    simp [readValue, this]
  | arr t xs ht ih =>
    intro n r hn _
    obtain ⟨n, rfl⟩ : ∃ m, n = m + 1 := ⟨n - 1, by omega⟩
    have h1 := ih n r (by simp at hn; omega)
    obtain ⟨c, cs, h2, h3⟩ := elements_head ht (']' :: r)
    rw [← readElements_skip, h2] at h1
    simp [readValue, h2, h3, h1]
  | obj t kvs ht ih =>
    intro n r hn _
    obtain ⟨n, rfl⟩ : ∃ m, n = m + 1 := ⟨n - 1, by omega⟩
    have h1 := ih n r (by simp at hn; omega)
    obtain ⟨cs, h2⟩ := members_head ht ('}' :: r)
    rw [← readMembers_skip, h2] at h1
    simp [readValue, h2, h1]
  | lastElement w t w' x hw ht hw' ih =>
    intro n r hn
    obtain ⟨n, rfl⟩ : ∃ m, n = m + 1 := ⟨n - 1, by omega⟩
    have h1 := ih n (w' ++ ']' :: r) (by simp at hn; omega) (fun _ => ends_white w' r _ hw' (by simp))
    have h2 := skipWs_value (r := w' ++ ']' :: r) hw ht
    have h3 := skipWs_white w' hw' ']' r (by decide)
    simp [readElements, h2, h1, h3]
  | element w t w' t' x xs hw ht hw' _ ih ih' =>
    intro n r hn
    obtain ⟨n, rfl⟩ : ∃ m, n = m + 1 := ⟨n - 1, by omega⟩
    have h1 := ih n (w' ++ ',' :: (t' ++ ']' :: r)) (by simp at hn; omega) (fun _ => ends_white w' _ _ hw' (by simp))
    have h2 := skipWs_value (r := w' ++ ',' :: (t' ++ ']' :: r)) hw ht
    have h3 := skipWs_white w' hw' ',' (t' ++ ']' :: r) (by decide)
    have h4 := ih' n r (by simp at hn; omega)
    simp [readElements, h2, h1, h3, h4]
  | lastMember w k w' w'' t w''' s x hw hk hw' hw'' ht hw''' ih =>
    intro n r hn
    obtain ⟨n, rfl⟩ : ∃ m, n = m + 1 := ⟨n - 1, by omega⟩
    have h0 := skipWs_white w hw '"' (k ++ '"' :: (w' ++ ':' :: (w'' ++ (t ++ (w''' ++ '}' :: r))))) (by decide)
    have h1 := ih n (w''' ++ '}' :: r) (by simp at hn; omega) (fun _ => ends_white w''' _ _ hw''' (by simp))
    have h2 := skipWs_value (r := w''' ++ '}' :: r) hw'' ht
    have h3 := skipWs_white w''' hw''' '}' r (by decide)
    have h5 := strBody_complete k _ hk n (w' ++ ':' :: (w'' ++ (t ++ (w''' ++ '}' :: r)))) (by simp at hn; omega)
    have h6 := skipWs_white w' hw' ':' (w'' ++ (t ++ (w''' ++ '}' :: r))) (by decide)
    simp [readMembers, h0, h5, h6, h2, h1, h3]
  | member w k w' w'' t w''' t' s x kvs hw hk hw' hw'' ht hw''' _ ih ih' =>
    intro n r hn
    obtain ⟨n, rfl⟩ : ∃ m, n = m + 1 := ⟨n - 1, by omega⟩
    have h0 := skipWs_white w hw '"' (k ++ '"' :: (w' ++ ':' :: (w'' ++ (t ++ (w''' ++ ',' :: (t' ++ '}' :: r)))))) (by decide)
    have h1 := ih n (w''' ++ ',' :: (t' ++ '}' :: r)) (by simp at hn; omega) (fun _ => ends_white w''' _ _ hw''' (by simp))
    have h2 := skipWs_value (r := w''' ++ ',' :: (t' ++ '}' :: r)) hw'' ht
    have h3 := skipWs_white w''' hw''' ',' (t' ++ '}' :: r) (by decide)
    have h4 := ih' n r (by simp at hn; omega)
    have h5 := strBody_complete k _ hk n (w' ++ ':' :: (w'' ++ (t ++ (w''' ++ ',' :: (t' ++ '}' :: r))))) (by simp at hn; omega)
    have h6 := skipWs_white w' hw' ':' (w'' ++ (t ++ (w''' ++ ',' :: (t' ++ '}' :: r)))) (by decide)
    simp [readMembers, h0, h5, h6, h2, h1, h3, h4]

/-! ### C134 -/

/-- **C134.** The reader accepts exactly the JSON texts, and gives each the tree it stands for. -/
theorem C134_grammar (text : String) (j : Json NumTok) : parseText text = some j ↔ IsText text j := by
  unfold parseText IsText
  constructor
  · intro h
    cases hr : readValue (text.toList.length + 1) (skipWs text.toList) with
    | none => rw [hr] at h; cases h
    | some p =>
      obtain ⟨j', r⟩ := p
      rw [hr] at h
      simp only at h
      split_ifs at h with hs
      cases h
      obtain ⟨w, hw, e⟩ := skipWs_split text.toList
      obtain ⟨t, ht, e'⟩ := (read_sound _).1 _ _ _ hr
      exact ⟨w, t, r, hw, (skipWs_all r).1 hs, ht, by rw [← e']; exact e⟩
  · rintro ⟨w, t, w', hw, hw', ht, e⟩
    have h1 : skipWs text.toList = t ++ w' := by rw [e]; exact skipWs_value hw ht
    have hlen : t.length < text.toList.length + 1 := by rw [e]; simp; omega
    have hends : Ends w' := by
      intro c cs h
      rcases hw' c (by rw [h]; simp) with rfl | rfl | rfl | rfl <;> exact ⟨by decide, by decide, by decide, by decide⟩
    have h2 := read_complete ht (text.toList.length + 1) w' hlen (fun _ => hends)
    rw [h1, h2]
    simp only [(skipWs_all w').2 hw', ↓reduceIte]

/-- **C134, no ambiguity.** A JSON text stands for one tree. -/
theorem C134_unambiguous (text : String) (j j' : Json NumTok) (h : IsText text j) (h' : IsText text j') : j = j' := by
  rw [← C134_grammar] at h h'
  rw [h] at h'
  exact Option.some.inj h'

end Kami.FoldFile
