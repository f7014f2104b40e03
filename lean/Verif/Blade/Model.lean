import Verif.Base.Panic
/-!
# Model of `src/math/blade.rs`

`usize` is a natural number below `2^64`; every arithmetic operation goes through the overflow profile.
-/

namespace Kami.Blade

open Kami

/-- `2usize.pow(e)` (core library: square and multiply; overflow detection is exact, and wrapping
gives the product modulo `2^64`) -/
def usizePow (p : Profile) (b e : Nat) : Res Nat :=
  if b ^ e < usizeSize then .ok (b ^ e)
  else match p with
    | .debug => .error .arithmeticOverflow
    | .release => .ok (b ^ e % usizeSize)

/-- src/math/blade.rs:48-50: `dim as u32` truncates modulo `2^32` -/
def totalNumberOfBasisBlades (p : Profile) (dim : Nat) : Res Nat :=
  usizePow p 2 (dim % 2 ^ 32)

/-- the loop `for i in lo..hi { acc *= f(i) }` where `f(i)` may panic; runs over `count` values from `i` on -/
def mulLoop (p : Profile) (f : Nat → Res Nat) : (count i acc : Nat) → Res Nat
  | 0, _, acc => .ok acc
  | count + 1, i, acc => do
    let x ← f i
    let acc ← usizeMul p acc x
    mulLoop p f count (i + 1) acc

/-- src/math/blade.rs:53-59 -/
def factorial (p : Profile) (n : Nat) : Res Nat :=
  mulLoop p (fun i => .ok i) (n - 2) 2 n

/-- src/math/blade.rs:63-69 -/
def binomialCoefficient (p : Profile) (n k : Nat) : Res Nat := do
  let num ← mulLoop p (fun i => usizeSub p n i) (k - 1) 1 n
  let f ← factorial p k
  usizeDiv num f

/-- src/math/blade.rs:75-77 -/
def numberOfBasisBlades (p : Profile) (n k : Nat) : Res Nat := binomialCoefficient p n k

end Kami.Blade
