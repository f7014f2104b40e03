import Verif.Fold.Grammar
import Verif.Num.F64
import Verif.Num.Display
import Verif.Fold.Model
/-!
# How serde_json computes numbers

Model of the conversion of a number token to `f32` in serde_json 1.0.56 without the feature `float_roundtrip`, the
configuration of /repo/Cargo.toml, as `Fold::from_file` uses it (src/fold/fold.rs:130): the digits are
collected in a `u64`, converted to `f64`, multiplied with or divided by a
power of ten from a table of `f64` constants, and converted to `f32` (`Deserialize for f32` in serde: `v as f32`).

Simplification: the number of digits of a token is below 2^31, so that the exponent does not overflow an `i32` while the
digits are counted.
-/

set_option autoImplicit false

namespace Kami.FoldFile

open Kami

def digitValue (c : Char) : Nat := c.toNat - 48

/-- `Deserializer::parse_integer` and `parse_long_integer`: the digits that fit a `u64`, and the number of digits dropped -/
def wholeSig : Nat → List Char → Nat × Nat
  | res, [] => (res, 0)
  | res, c :: cs => if 10 * res + digitValue c < 2 ^ 64 then wholeSig (10 * res + digitValue c) cs else (res, cs.length + 1)

/-- the loop of `Deserializer::parse_decimal`: the significand, and the number of digits used -/
def fracSig : Nat → List Char → Nat × Nat
  | sig, [] => (sig, 0)
  | sig, c :: cs =>
    if 10 * sig + digitValue c < 2 ^ 64 then
      let r := fracSig (10 * sig + digitValue c) cs
      (r.1, r.2 + 1)
    else (sig, 0)

/-- the table `POW10` of `f64` constants `1e0` to `1e308` -/
def pow10 (n : Nat) : Nat := F64.ofNat (10 ^ n)

/-- the loop of `Deserializer::f64_from_parts` for the exponent `-n`; at most `fuel` rounds without the table -/
def scaleDown : (fuel f n : Nat) → Nat
  | 0, f, n => F64.div f (pow10 n)
  | fuel + 1, f, n =>
    if n ≤ 308 then F64.div f (pow10 n)
    else if f = 0 then 0
    else scaleDown fuel (F64.div f (pow10 308)) (n - 308)

/-- `Deserializer::f64_from_parts`; `none` is the error `NumberOutOfRange` -/
def f64FromParts (sig : Nat) (e : Int) : Option Nat :=
  if 0 ≤ e then
    if e ≤ 308 then
      let f := F64.mul (F64.ofNat sig) (pow10 e.toNat)
      if F64.tooLarge ≤ f then none else some f
    else if sig = 0 then some 0 else none
  else some (scaleDown ((-e).toNat / 308) (F64.ofNat sig) (-e).toNat)

/-- `Deserializer::parse_exponent` and `parse_exponent_overflow`: the significand, the exponent so far, the text of the
exponent -/
def withExponent (sig : Nat) (start : Int) : List Char → Option Nat
  | [] => f64FromParts sig start
  | _ :: cs =>
    let negative := cs.head? == some '-'
    let digits := (lexSign cs).2
    let v := Nat.ofDigitChars 10 digits 0
    if 2147483647 < v then
      if sig ≠ 0 ∧ !negative then none else some 0
    else f64FromParts sig (if negative then start - v else start + v)

/-- the magnitude of a token as `f64` -/
def NumTok.readF64 (t : NumTok) : Option Nat :=
  let w := wholeSig 0 t.whole
  let f := fracSig w.1 t.frac.tail
  withExponent f.1 ((w.2 : Int) - f.2) t.exp

/-- a number token with a point, an exponent or too many digits, as `f32` -/
def NumTok.readF32 (t : NumTok) : Option F32 := t.readF64.map (F64.toF32 t.neg)

/-! ### writing -/

/-- remove trailing zeros of the digits -/
def stripZeros : (fuel d : Nat) → (e : Int) → Nat × Int
  | 0, d, e => (d, e)
  | fuel + 1, d, e => if d % 10 = 0 then stripZeros fuel (d / 10) (e + 1) else (d, e)

/-- `-` and the digits of a number -/
def intChars (z : Int) : List Char := (if z < 0 then ['-'] else []) ++ Nat.toDigits 10 z.natAbs

/-- `ryu::pretty::format32` for the digits `d` and the exponent `k` -/
def prettyTok (neg : Bool) (d : Nat) (k : Int) : NumTok :=
  let ds := Nat.toDigits 10 d
  let kk := (ds.length : Int) + k
  if 0 ≤ k ∧ kk ≤ 13 then ⟨neg, ds ++ List.replicate k.toNat '0', ['.', '0'], []⟩
  else if 0 < kk ∧ kk ≤ 13 then ⟨neg, ds.take kk.toNat, '.' :: ds.drop kk.toNat, []⟩
  else if -6 < kk ∧ kk ≤ 0 then ⟨neg, ['0'], '.' :: (List.replicate (-kk).toNat '0' ++ ds), []⟩
  else if ds.length = 1 then ⟨neg, ds, [], 'e' :: intChars (kk - 1)⟩
  else ⟨neg, ds.take 1, '.' :: ds.drop 1, 'e' :: intChars (kk - 1)⟩

/-- `ryu` stopped after `N` digits: as `F32.candidate` (the numbers that read back, the nearer one of two), but the even digit
if both are equally near -/
def ryuCandidate (n N : Nat) : Option Nat :=
  let step := 10 ^ (F32.decLen n - N)
  let lo := F32.floor60 n / step * step
  let hi := lo + step
  if F32.readsBack n lo then
    if F32.readsBack n hi then
      match compare (step * 2 ^ 149) (2 * (F32.mag n * 10 ^ 60 - lo * 2 ^ 149)) with
      | .lt => some hi
      | .gt => some lo
      | .eq => if F32.floor60 n / step % 2 = 0 then some lo else some hi
    else some lo
  else if F32.readsBack n hi then some hi
  else none

/-- `ryu::f2s`: the shortest decimal, in units of `10^-60` -/
def ryuDecimal (n : Nat) : Nat := ((List.range 16).findSome? fun i => ryuCandidate n (i + 1)).getD 0

/-- what `Formatter::write_f32` writes for a number with index `n` -/
def finiteTok (neg : Bool) (n : Nat) : NumTok :=
  if n = 0 then ⟨neg, ['0'], ['.', '0'], []⟩
  else
    let r := stripZeros 100 (ryuDecimal n) (-60)
    prettyTok neg r.1 r.2

/-- `Serialize for f32` with the compact formatter; `none` is `null` -/
def floatTok : F32 → Option NumTok
  | .fin s n => some (finiteTok s n)
  | _ => none

/-- the numbers of serde_json -/
def serdeIO : FloatIO NumTok := ⟨floatTok, NumTok.readF32, fun z => F32.lit z⟩

end Kami.FoldFile
