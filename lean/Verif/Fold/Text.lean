import Verif.Fold.Model
/-!
# The text of a FOLD file

`Fold::from_file` reads a text with `serde_json::from_str` (src/fold/fold.rs:130).  This is a model of the reader of
serde_json 1.0.56 as a function of the characters, and of its compact writer (`serde_json::to_string`).

* number tokens are kept as they are written (`NumTok`); integer tokens in the range of `i64` or `u64` become integers;
* whether a number is out of range, and its `f32` value, is left to `FloatIO`;
* the limit on nesting (128) is not modelled: a `Fold` nests three deep, and deeper values can occur only under unknown
  keys, where serde_json skips them without counting.
-/

set_option autoImplicit false

namespace Kami.FoldFile

open Kami

/-- `Deserializer::parse_whitespace` -/
def isWs (c : Char) : Bool := c == ' ' || c == '\n' || c == '\t' || c == '\r'

def skipWs (cs : List Char) : List Char := cs.dropWhile isWs

/-! ### numbers -/

/-- a number token as it is written; `frac` includes the point, `exp` the letter and the sign -/
structure NumTok where
  neg : Bool
  whole : List Char
  frac : List Char
  exp : List Char
  deriving DecidableEq, Repr

def NumTok.text (t : NumTok) : List Char := (if t.neg then ['-'] else []) ++ t.whole ++ t.frac ++ t.exp

/-- the integer a token without point and exponent stands for -/
def NumTok.intValue (t : NumTok) : Int :=
  if t.neg then -(Nat.ofDigitChars 10 t.whole 0 : ℕ) else (Nat.ofDigitChars 10 t.whole 0 : ℕ)

/-- `Deserializer::parse_number`: an integer if there is neither point nor exponent and it fits `u64`, or `i64` if it is
negative -/
def NumTok.classify (t : NumTok) : JNum NumTok :=
  if t.frac = [] ∧ t.exp = [] ∧ -2 ^ 63 ≤ t.intValue ∧ t.intValue < 2 ^ 64 then .int t.intValue else .float t

/-- `Deserializer::parse_integer`: one digit `0`, or digits that do not begin with `0` -/
def lexWhole : List Char → Option (List Char × List Char)
  | [] => none
  | c :: cs =>
    if c = '0' then
      match cs with
      | [] => some ([c], [])
      | d :: ds => if d.isDigit then none else some ([c], d :: ds)
    else if c.isDigit then some (c :: cs.takeWhile Char.isDigit, cs.dropWhile Char.isDigit)
    else none

/-- at least one digit -/
def lexDigits (cs : List Char) : Option (List Char × List Char) :=
  if cs.takeWhile Char.isDigit = [] then none else some (cs.takeWhile Char.isDigit, cs.dropWhile Char.isDigit)

/-- `Deserializer::parse_decimal` -/
def lexFrac : List Char → Option (List Char × List Char)
  | [] => some ([], [])
  | c :: cs =>
    if c = '.' then do
      let (ds, r) ← lexDigits cs
      return (c :: ds, r)
    else some ([], c :: cs)

/-- an optional sign -/
def lexSign : List Char → List Char × List Char
  | [] => ([], [])
  | c :: cs => if c = '+' ∨ c = '-' then ([c], cs) else ([], c :: cs)

/-- `Deserializer::parse_exponent` -/
def lexExp : List Char → Option (List Char × List Char)
  | [] => some ([], [])
  | c :: cs =>
    if c = 'e' ∨ c = 'E' then do
      let (ds, r) ← lexDigits (lexSign cs).2
      return (c :: ((lexSign cs).1 ++ ds), r)
    else some ([], c :: cs)

/-- `Deserializer::parse_any_number` after the sign -/
def lexUnsigned (neg : Bool) (cs : List Char) : Option (NumTok × List Char) := do
  let (whole, r) ← lexWhole cs
  let (frac, r) ← lexFrac r
  let (exp, r) ← lexExp r
  return (⟨neg, whole, frac, exp⟩, r)

/-- `Deserializer::parse_any_number` -/
def lexNumber : List Char → Option (NumTok × List Char)
  | [] => none
  | c :: cs => if c = '-' then lexUnsigned true cs else lexUnsigned false (c :: cs)

/-! ### strings -/

/-- `decode_hex_val` -/
def hexVal (c : Char) : Option Nat :=
  if c.isDigit then some (c.toNat - 48)
  else if 97 ≤ c.toNat ∧ c.toNat ≤ 102 then some (c.toNat - 87)
  else if 65 ≤ c.toNat ∧ c.toNat ≤ 70 then some (c.toNat - 55)
  else none

/-- `Read::decode_hex_escape` -/
def hex4 : List Char → Option (Nat × List Char)
  | a :: b :: c :: d :: cs => do
    let a ← hexVal a
    let b ← hexVal b
    let c ← hexVal c
    let d ← hexVal d
    return (((a * 16 + b) * 16 + c) * 16 + d, cs)
  | _ => none

def isHigh (n : Nat) : Bool := 0xD800 ≤ n && n ≤ 0xDBFF
def isLow (n : Nat) : Bool := 0xDC00 ≤ n && n ≤ 0xDFFF

/-- an escaped low surrogate -/
def lowEscape : List Char → Option (Nat × List Char)
  | a :: b :: cs =>
    if a = '\\' ∧ b = 'u' then
      match hex4 cs with
      | some (n, r) => if isLow n then some (n, r) else none
      | none => none
    else none
  | _ => none

/-- `parse_escape`: the escapes of one letter -/
def shortEscape (e : Char) : Option Char :=
  if e = '"' then some '"'
  else if e = '\\' then some '\\'
  else if e = '/' then some '/'
  else if e = 'b' then some '\x08'
  else if e = 'f' then some '\x0c'
  else if e = 'n' then some '\n'
  else if e = 'r' then some '\r'
  else if e = 't' then some '\t'
  else none

/-- `parse_escape` (and `ignore_escape`) after the backslash; the character is `none` for an unpaired surrogate -/
def escape : List Char → Option (Option Char × List Char)
  | [] => none
  | e :: cs =>
    if e = 'u' then
      match hex4 cs with
      | none => none
      | some (n, r) =>
        if isHigh n then
          match lowEscape r with
          | some (m, r') => some (some (Char.ofNat (0x10000 + (n - 0xD800) * 0x400 + (m - 0xDC00))), r')
          | none => some (none, r)
        else if isLow n then some (none, r)
        else some (some (Char.ofNat n), r)
    else
      match shortEscape e with
      | some c => some (some c, cs)
      | none => none

/-- put a character in front, unless one of them is broken -/
def consChar (c : Option Char) (s : Option (List Char)) : Option (List Char) :=
  match c, s with
  | some c, some s => some (c :: s)
  | _, _ => none

/-- `Read::parse_str` and `Read::ignore_str` after the opening quote.  The first argument bounds the number of steps. -/
def strBody : Nat → List Char → Option (Option (List Char) × List Char)
  | 0, _ => none
  | _ + 1, [] => none
  | n + 1, c :: cs =>
    if c = '"' then some (some [], cs)
    else if c = '\\' then
      match escape cs with
      | none => none
      | some (ch, r) =>
        match strBody n r with
        | none => none
        | some (s, r') => some (consChar ch s, r')
    else if c.toNat < 32 then none
    else
      match strBody n cs with
      | none => none
      | some (s, r') => some (consChar (some c) s, r')

/-- the tree of a string token -/
def strTree : Option (List Char) → Json NumTok
  | some cs => .str (String.ofList cs)
  | none => .loneSurrogate

/-! ### values -/

/-- `Deserializer::parse_ident` -/
def expect (word cs : List Char) : Option (List Char) :=
  if cs.take word.length = word then some (cs.drop word.length) else none

mutual

/-- `Deserializer::parse_value`, after white space -/
def readValue : Nat → List Char → Option (Json NumTok × List Char)
  | 0, _ => none
  | _ + 1, [] => none
  | n + 1, c :: cs =>
    if c = 'n' then (expect ['u', 'l', 'l'] cs).map fun r => (.null, r)
    else if c = 't' then (expect ['r', 'u', 'e'] cs).map fun r => (.bool true, r)
    else if c = 'f' then (expect ['a', 'l', 's', 'e'] cs).map fun r => (.bool false, r)
    else if c = '"' then (strBody n cs).map fun sr => (strTree sr.1, sr.2)
    else if c = '[' then
      match skipWs cs with
      | [] => none
      | d :: r => if d = ']' then some (.arr [], r) else (readElements n (d :: r)).map fun xr => (.arr xr.1, xr.2)
    else if c = '{' then
      match skipWs cs with
      | [] => none
      | d :: r => if d = '}' then some (.obj [], r) else (readMembers n (d :: r)).map fun xr => (.obj xr.1, xr.2)
    else (lexNumber (c :: cs)).map fun tr => (.num tr.1.classify, tr.2)

/-- `SeqAccess`, at an element, up to the closing bracket -/
def readElements : Nat → List Char → Option (List (Json NumTok) × List Char)
  | 0, _ => none
  | n + 1, cs =>
    match readValue n (skipWs cs) with
    | none => none
    | some (x, r) =>
      match skipWs r with
      | [] => none
      | d :: r =>
        if d = ',' then (readElements n r).map fun xr => (x :: xr.1, xr.2)
        else if d = ']' then some ([x], r)
        else none

/-- `MapAccess`, at a key, up to the closing brace -/
def readMembers : Nat → List Char → Option (List (String × Json NumTok) × List Char)
  | 0, _ => none
  | n + 1, cs =>
    match skipWs cs with
    | [] => none
    | q :: cs =>
      if q = '"' then
        match strBody n cs with
        | none => none
        | some (none, _) => none
        | some (some key, r) =>
          match skipWs r with
          | [] => none
          | d :: r =>
            if d = ':' then
              match readValue n (skipWs r) with
              | none => none
              | some (x, r) =>
                match skipWs r with
                | [] => none
                | d :: r =>
                  if d = ',' then (readMembers n r).map fun xr => ((String.ofList key, x) :: xr.1, xr.2)
                  else if d = '}' then some ([(String.ofList key, x)], r)
                  else none
            else none
      else none

end

/-- `serde_json::from_str` (src/fold/fold.rs:130): one value, with white space around it (`Deserializer::end`) -/
def parseText (text : String) : Option (Json NumTok) :=
  match readValue (text.toList.length + 1) (skipWs text.toList) with
  | none => none
  | some (j, r) => if skipWs r = [] then some j else none

/-! ### writing -/

/-- the two hexadecimal digits of a control character (`CharEscape::AsciiControl`) -/
def hexDigits2 (n : Nat) : List Char := [Nat.digitChar (n / 16), Nat.digitChar (n % 16)]

/-- `format_escaped_str_contents`: one character -/
def writeChar (c : Char) : List Char :=
  if c = '"' then ['\\', '"']
  else if c = '\\' then ['\\', '\\']
  else if c = '\x08' then ['\\', 'b']
  else if c = '\x0c' then ['\\', 'f']
  else if c = '\n' then ['\\', 'n']
  else if c = '\r' then ['\\', 'r']
  else if c = '\t' then ['\\', 't']
  else if c.toNat < 32 then ['\\', 'u', '0', '0'] ++ hexDigits2 c.toNat
  else [c]

/-- `format_escaped_str` -/
def writeString (s : String) : List Char := '"' :: (s.toList.flatMap writeChar ++ ['"'])

/-- `itoa` -/
def writeInt (z : Int) : List Char := if z < 0 then '-' :: Nat.toDigits 10 z.natAbs else Nat.toDigits 10 z.natAbs

mutual

/-- `serde_json::to_string` with the compact formatter.  An unpaired surrogate cannot be written and does not occur in
what `Serialize` produces. -/
def writeValue : Json NumTok → List Char
  | .null => ['n', 'u', 'l', 'l']
  | .bool true => ['t', 'r', 'u', 'e']
  | .bool false => ['f', 'a', 'l', 's', 'e']
  | .num (.int z) => writeInt z
  | .num (.float t) => t.text
  | .str s => writeString s
  | .loneSurrogate => []
  | .arr [] => ['[', ']']
  | .arr (x :: xs) => '[' :: (writeValue x ++ writeElements xs)
  | .obj [] => ['{', '}']
  | .obj ((k, x) :: kvs) => '{' :: (writeString k ++ ':' :: (writeValue x ++ writeMembers kvs))

/-- the elements after the first, and the closing bracket -/
def writeElements : List (Json NumTok) → List Char
  | [] => [']']
  | x :: xs => ',' :: (writeValue x ++ writeElements xs)

/-- the entries after the first, and the closing brace -/
def writeMembers : List (String × Json NumTok) → List Char
  | [] => ['}']
  | (k, x) :: kvs => ',' :: (writeString k ++ ':' :: (writeValue x ++ writeMembers kvs))

end

def writeText (j : Json NumTok) : String := String.ofList (writeValue j)

end Kami.FoldFile
