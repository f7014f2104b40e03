import Verif.Fold.Numbers
import Verif.Fold.Bases
/-!
# Decimals near the middle of two f32 numbers: the computation

A decimal `d * 10^e` with eight digits is near the middle `m * 2^(j - 150)` of two neighbouring `f32` numbers (`m` odd and below
`2^25`) only if the lattice point `(d, m)` is near the line of slope `10^e * 2^(150 - j)`.  A basis of the lattice with a
short vector along the line leaves few such points; each of them is computed.
-/

set_option autoImplicit false

namespace Kami.FoldFile

open Kami

/-- `10^e * 2^(150 - j) = slopeNum / slopeDen` -/
def slopeNum (e : Int) (j : Nat) : Nat := 5 ^ e.toNat * 2 ^ (e + 150 - j).toNat
def slopeDen (e : Int) (j : Nat) : Nat := 5 ^ (-e).toNat * 2 ^ (-(e + 150 - j)).toNat

/-- what serde_json computes for the significand `d` and the exponent `e` -/
def readParts (d : Nat) (e : Int) : Nat :=
  if 0 ≤ e then F64.mul (F64.ofNat d) (pow10 e.toNat) else F64.div (F64.ofNat d) (pow10 (-e).toNat)

/-- the index of the `f32` that is read -/
def readIdx (d : Nat) (e : Int) : Nat := F32.roundIdx (readParts d e) (2 ^ 925)

/-- the index of the `f32` nearest to `d * 10^e` -/
def nearestIdx (d : Nat) (e : Int) : Nat := F32.roundIdx (d * 10 ^ e.toNat * 2 ^ 149) (10 ^ (-e).toNat)

/-- the decimals with at most eight digits that are not read as the nearest `f32` -/
def misread : List (Nat × Int) :=
  [(93137999, -40), (82381273, -35), (35192655, -33), (70385310, -33), (41358803, 27), (82717606, 27)]

/-- every way of writing `d * 10^e` with fewer zeros is read correctly, or is on the list -/
def okPoint (d : Nat) (e : Int) : Bool :=
  (List.range 8).all fun i =>
    d % 10 ^ i != 0 || readIdx (d / 10 ^ i) (e + i) == nearestIdx (d / 10 ^ i) (e + i) || misread.contains (d / 10 ^ i, e + i)

/-- the lattice point is not one with eight digits near the middle of two numbers, or it is such a middle, or it is read correctly -/
def okLattice (e : Int) (A B d m : Int) : Bool :=
  d < 10 ^ 7 || 10 ^ 8 ≤ d || m % 2 == 0 || m ≤ 0 || 2 ^ 25 ≤ m || B < 2 ^ 25 * (d * A - m * B).natAbs || d * A == m * B ||
    okPoint d.toNat e

/-- all points near the line, for one basis -/
def okBasis (e : Int) (A B : Nat) (b : Basis) : Bool :=
  let det := b.u * b.q - b.v * b.p
  let s := (2 ^ 25 * 10 ^ 8 * (b.v * A - b.q * B).natAbs + B * b.v.natAbs) / (2 ^ 25 * B)
  let t := (2 ^ 25 * 10 ^ 8 * (b.u * A - b.p * B).natAbs + B * b.u.natAbs) / (2 ^ 25 * B)
  (det == 1 || det == -1) &&
  (List.range (2 * s + 1)).all fun x => (List.range (2 * t + 1)).all fun y =>
    okLattice e A B ((x - s : Int) * b.u + (y - t : Int) * b.v) ((x - s : Int) * b.p + (y - t : Int) * b.q)

/-- one line -/
def okLine (e : Int) (bs : List Basis) (j : Nat) : Bool :=
  let A := slopeNum e j
  let B := slopeDen e j
  B < 2 ^ 25 || 2 ^ 26 * B ≤ 10 ^ 7 * A || 2 * 10 ^ 8 * A ≤ (if j = 0 then 1 else 2 ^ 24) * B ||
    match bs.find? fun b => b.j == j with
    | some b => okBasis e A B b
    | none => false

/-- all lines for one exponent -/
def okExponent (i : Nat) : Bool :=
  (List.range 260).all fun j => okLine (i - 60 : Int) (bases.getD i []) j

-- one declaration after the other: a single computation over all exponents would need too much memory
set_option Elab.async false

theorem okExponent_0 : ∀ r < 4, okExponent (0 + r) = true := by decide +kernel
theorem okExponent_4 : ∀ r < 4, okExponent (4 + r) = true := by decide +kernel
theorem okExponent_8 : ∀ r < 4, okExponent (8 + r) = true := by decide +kernel
theorem okExponent_12 : ∀ r < 4, okExponent (12 + r) = true := by decide +kernel
theorem okExponent_16 : ∀ r < 4, okExponent (16 + r) = true := by decide +kernel
theorem okExponent_20 : ∀ r < 4, okExponent (20 + r) = true := by decide +kernel
theorem okExponent_24 : ∀ r < 4, okExponent (24 + r) = true := by decide +kernel
theorem okExponent_28 : ∀ r < 4, okExponent (28 + r) = true := by decide +kernel
theorem okExponent_32 : ∀ r < 4, okExponent (32 + r) = true := by decide +kernel
theorem okExponent_36 : ∀ r < 4, okExponent (36 + r) = true := by decide +kernel
theorem okExponent_40 : ∀ r < 4, okExponent (40 + r) = true := by decide +kernel
theorem okExponent_44 : ∀ r < 4, okExponent (44 + r) = true := by decide +kernel
theorem okExponent_48 : ∀ r < 4, okExponent (48 + r) = true := by decide +kernel
theorem okExponent_52 : ∀ r < 4, okExponent (52 + r) = true := by decide +kernel
theorem okExponent_56 : ∀ r < 4, okExponent (56 + r) = true := by decide +kernel
theorem okExponent_60 : ∀ r < 4, okExponent (60 + r) = true := by decide +kernel
theorem okExponent_64 : ∀ r < 4, okExponent (64 + r) = true := by decide +kernel
theorem okExponent_68 : ∀ r < 4, okExponent (68 + r) = true := by decide +kernel
theorem okExponent_72 : ∀ r < 4, okExponent (72 + r) = true := by decide +kernel
theorem okExponent_76 : ∀ r < 4, okExponent (76 + r) = true := by decide +kernel
theorem okExponent_80 : ∀ r < 4, okExponent (80 + r) = true := by decide +kernel
theorem okExponent_84 : ∀ r < 4, okExponent (84 + r) = true := by decide +kernel
theorem okExponent_88 : ∀ r < 4, okExponent (88 + r) = true := by decide +kernel

theorem okExponent_all (i : Nat) (hi : i < 92) : okExponent i = true := by
  have e : i = 4 * (i / 4) + i % 4 := (Nat.div_add_mod i 4).symm
  have hr : i % 4 < 4 := Nat.mod_lt _ (by omega)
  have hk : i / 4 < 23 := by omega
  generalize i % 4 = r at *
  generalize i / 4 = k at *
  subst e
  match k, hk with
  | 0, _ => exact okExponent_0 r hr
  | 1, _ => exact okExponent_4 r hr
  | 2, _ => exact okExponent_8 r hr
  | 3, _ => exact okExponent_12 r hr
  | 4, _ => exact okExponent_16 r hr
  | 5, _ => exact okExponent_20 r hr
  | 6, _ => exact okExponent_24 r hr
  | 7, _ => exact okExponent_28 r hr
  | 8, _ => exact okExponent_32 r hr
  | 9, _ => exact okExponent_36 r hr
  | 10, _ => exact okExponent_40 r hr
  | 11, _ => exact okExponent_44 r hr
  | 12, _ => exact okExponent_48 r hr
  | 13, _ => exact okExponent_52 r hr
  | 14, _ => exact okExponent_56 r hr
  | 15, _ => exact okExponent_60 r hr
  | 16, _ => exact okExponent_64 r hr
  | 17, _ => exact okExponent_68 r hr
  | 18, _ => exact okExponent_72 r hr
  | 19, _ => exact okExponent_76 r hr
  | 20, _ => exact okExponent_80 r hr
  | 21, _ => exact okExponent_84 r hr
  | 22, _ => exact okExponent_88 r hr
  | k + 23, h => exact absurd h (by omega)

end Kami.FoldFile
