import Verif.Num.Scalar
/-!
# IEEE-754 binary32

An executable model of `f32`: round-to-nearest-even, signed zeros, subnormals, infinities, and a single NaN
(payloads and the sign of NaN are not observable through the operations the code uses).

A finite number is a sign and a *magnitude index*: the 31 low bits of its bit pattern, read as a natural number
(`0` is zero, `1` the least subnormal, `0x7f7fffff` the largest finite number, `0x7f800000` would be infinity).
All finite values are integers in units of `2^-149`; `mag n` is that integer.
-/

namespace Kami

/-- An `f32`. -/
inductive F32
  | nan
  /-- `inf true` is `-∞` -/
  | inf (neg : Bool)
  /-- sign bit and the other 31 bits of the bit pattern, below `0x7f800000` -/
  | fin (neg : Bool) (idx : Fin 0x7f800000)
  deriving DecidableEq, Repr

namespace F32

/-- the value with magnitude index `n`, in units of `2^-149` (for every `n`: the binary32 grid continued
upwards without bound) -/
def mag (n : Nat) : Nat := (n - 2 ^ 23 * (n / 2 ^ 23 - 1)) * 2 ^ (n / 2 ^ 23 - 1)

/-- signed value in units of `2^-149` -/
def val (s : Bool) (n : Nat) : Int := if s then -(mag n : Int) else mag n

/-- attach a sign to a magnitude index; indices from `0x7f800000` on overflow to infinity -/
def pack (s : Bool) (n : Nat) : F32 :=
  if h : n < 0x7f800000 then fin s ⟨n, h⟩ else inf s

/-- exponent shift of the binade containing the integer `q` (in units of `2^-149`): grid spacing is `2^shift` -/
def shift (q : Nat) : Nat := Nat.log2 q - 23

/-- index of the largest grid value not above `q` -/
def floorIdx (q : Nat) : Nat := q / 2 ^ shift q + 2 ^ 23 * shift q

/-- round-half-to-even choice between index `n` and `n + 1`, given the comparison of the number to be rounded
with the middle between the two grid values -/
def roundTo (n : Nat) (cmp : Ordering) : Nat :=
  match cmp with
  | .lt => n
  | .gt => n + 1
  | .eq => if n % 2 = 0 then n else n + 1

/-- index of the number nearest to `num / den` (units of `2^-149`), ties to even -/
def roundIdx (num den : Nat) : Nat :=
  let q := num / den
  let n := floorIdx q
  roundTo n (compare (2 * num) ((mag n + mag (n + 1)) * den))

/-- rounded quotient with sign -/
def round (s : Bool) (num den : Nat) : F32 := pack s (roundIdx num den)

/-- negation flips the sign bit -/
def neg : F32 → F32
  | nan => nan
  | inf s => inf (!s)
  | fin s n => fin (!s) n

/-- absolute value clears the sign bit -/
def abs : F32 → F32
  | nan => nan
  | inf _ => inf false
  | fin _ n => fin false n

/-- addition -/
def add : F32 → F32 → F32
  | nan, _ => nan
  | _, nan => nan
  | inf s, inf t => if s = t then inf s else nan
  | inf s, fin _ _ => inf s
  | fin _ _, inf t => inf t
  | fin s m, fin t n =>
    let z := val s m + val t n
    if z = 0 then fin (s && t) ⟨0, by decide⟩
    else round (decide (z < 0)) z.natAbs 1

/-- subtraction -/
def sub (a b : F32) : F32 := add a (neg b)

/-- multiplication -/
def mul : F32 → F32 → F32
  | nan, _ => nan
  | _, nan => nan
  | inf s, inf t => inf (s ^^ t)
  | inf s, fin t n => if n.val = 0 then nan else inf (s ^^ t)
  | fin s m, inf t => if m.val = 0 then nan else inf (s ^^ t)
  | fin s m, fin t n => round (s ^^ t) (mag m * mag n) (2 ^ 149)

/-- division -/
def div : F32 → F32 → F32
  | nan, _ => nan
  | _, nan => nan
  | inf _, inf _ => nan
  | inf s, fin t _ => inf (s ^^ t)
  | fin s _, inf t => fin (s ^^ t) ⟨0, by decide⟩
  | fin s m, fin t n =>
    if n.val = 0 then (if m.val = 0 then nan else inf (s ^^ t))
    else round (s ^^ t) (mag m * 2 ^ 149) (mag n)

/-- integer square root by bits: the largest `r + x` with `x < 2^k` (multiple of 1) such that its square is at
most `t`, provided `r^2 ≤ t` -/
def isqrtAux (t : Nat) : Nat → Nat → Nat
  | 0, r => r
  | k + 1, r => if (r + 2 ^ k) * (r + 2 ^ k) ≤ t then isqrtAux t k (r + 2 ^ k) else isqrtAux t k r

/-- integer square root -/
def isqrt (t : Nat) : Nat := isqrtAux t (Nat.log2 t / 2 + 1) 0

/-- index of the number nearest to the square root of `t` (units of `2^-149`) -/
def sqrtIdx (t : Nat) : Nat :=
  let n := floorIdx (isqrt t)
  let mid2 := mag n + mag (n + 1)
  roundTo n (compare (4 * t) (mid2 * mid2))

/-- square root -/
def sqrt : F32 → F32
  | nan => nan
  | inf false => inf false
  | inf true => nan
  | fin s n =>
    if n.val = 0 then fin s n
    else if s then nan
    else pack false (sqrtIdx (mag n * 2 ^ 149))

/-- `<` -/
def lt : F32 → F32 → Bool
  | nan, _ => false
  | _, nan => false
  | inf s, inf t => s && !t
  | inf s, fin _ _ => s
  | fin _ _, inf t => !t
  | fin s m, fin t n => decide (val s m < val t n)

/-- `==` -/
def eq : F32 → F32 → Bool
  | nan, _ => false
  | _, nan => false
  | inf s, inf t => s == t
  | inf _, fin _ _ => false
  | fin _ _, inf _ => false
  | fin s m, fin t n => decide (val s m = val t n)

/-- `<=` -/
def le (a b : F32) : Bool := lt a b || eq a b

/-- the number with bit pattern `b` (any NaN pattern gives `nan`) -/
def ofBits (b : Nat) : F32 :=
  let s := decide (b / 2 ^ 31 % 2 = 1)
  let n := b % 2 ^ 31
  if n = 0x7f800000 then inf s
  else if h : n < 0x7f800000 then fin s ⟨n, h⟩ else nan

/-- the bit pattern (the canonical quiet NaN for `nan`) -/
def toBits : F32 → Nat
  | nan => 0x7fc00000
  | inf s => (if s then 2 ^ 31 else 0) + 0x7f800000
  | fin s n => (if s then 2 ^ 31 else 0) + n

/-- `n as f32` -/
def ofNatF (n : Nat) : F32 := round false (n * 2 ^ 149) 1

/-- the `f32` nearest to `num / den` (a decimal literal) -/
def lit (num : Int) (den : Nat := 1) : F32 := round (decide (num < 0)) (num.natAbs * 2 ^ 149) den

instance : Scalar F32 where
  add := add
  sub := sub
  mul := mul
  neg := neg
  zero := ofBits 0
  one := ofBits 0x3f800000
  half := ofBits 0x3f000000
  abs := abs
  lt := lt
  le := le
  eq := eq
  div := div
  sqrt := sqrt
  epsilon := ofBits 0x34000000
  maxValue := ofBits 0x7f7fffff
  ofNat := ofNatF

/-- `num_traits::Zero` -/
instance : Zero F32 := ⟨ofBits 0⟩
/-- `num_traits::One` -/
instance : One F32 := ⟨ofBits 0x3f800000⟩

end F32
end Kami
