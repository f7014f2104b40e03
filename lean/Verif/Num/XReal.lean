import Verif.Num.Scalar
import Mathlib.Analysis.SpecialFunctions.Trigonometric.Inverse
import Mathlib.Analysis.SpecialFunctions.Pow.Real
/-!
# Exact arithmetic with IEEE special values

`XReal` is the real line with the special values of IEEE-754: NaN and the two infinities.  Its operations
follow the IEEE rules for special values and are exact otherwise.  It is the reference semantics for code
that divides: `x / 0` is an infinity or NaN here, never a number.

Simplification: zeros are unsigned, so `x / 0` for `x > 0` is `+∞` where IEEE gives `-∞` for the
divisor `-0.0`.  (The model `F32` has signed zeros.)
-/

namespace Kami

/-- Real numbers with NaN and signed infinities. -/
inductive XReal
  | nan
  /-- `inf true` is `-∞`, `inf false` is `+∞` -/
  | inf (neg : Bool)
  | fin (r : ℝ)

namespace XReal

noncomputable section
open Classical

/-- IEEE negation -/
def neg : XReal → XReal
  | nan => nan
  | inf s => inf (!s)
  | fin r => fin (-r)

/-- IEEE addition without rounding -/
def add : XReal → XReal → XReal
  | nan, _ => nan
  | _, nan => nan
  | inf s, inf t => if s = t then inf s else nan
  | inf s, fin _ => inf s
  | fin _, inf t => inf t
  | fin a, fin b => fin (a + b)

/-- IEEE subtraction without rounding -/
def sub (a b : XReal) : XReal := add a (neg b)

/-- the sign bit of a non-zero real -/
def sgn (r : ℝ) : Bool := decide (r < 0)

/-- IEEE multiplication without rounding -/
def mul : XReal → XReal → XReal
  | nan, _ => nan
  | _, nan => nan
  | inf s, inf t => inf (s ^^ t)
  | inf s, fin b => if b = 0 then nan else inf (s ^^ sgn b)
  | fin a, inf t => if a = 0 then nan else inf (sgn a ^^ t)
  | fin a, fin b => fin (a * b)

/-- IEEE division without rounding (zeros unsigned) -/
def div : XReal → XReal → XReal
  | nan, _ => nan
  | _, nan => nan
  | inf _, inf _ => nan
  | inf s, fin b => inf (s ^^ sgn b)
  | fin _, inf _ => fin 0
  | fin a, fin b => if b = 0 then (if a = 0 then nan else inf (sgn a)) else fin (a / b)

/-- IEEE square root without rounding -/
def sqrt : XReal → XReal
  | nan => nan
  | inf false => inf false
  | inf true => nan
  | fin r => if r < 0 then nan else fin (Real.sqrt r)

/-- IEEE absolute value -/
def abs : XReal → XReal
  | nan => nan
  | inf _ => inf false
  | fin r => fin |r|

/-- IEEE `<` -/
def lt : XReal → XReal → Bool
  | nan, _ => false
  | _, nan => false
  | inf s, inf t => s && !t
  | inf s, fin _ => s
  | fin _, inf t => !t
  | fin a, fin b => decide (a < b)

/-- IEEE `==` -/
def eq : XReal → XReal → Bool
  | nan, _ => false
  | _, nan => false
  | inf s, inf t => s == t
  | inf _, fin _ => false
  | fin _, inf _ => false
  | fin a, fin b => decide (a = b)

/-- IEEE `<=` -/
def le (a b : XReal) : Bool := lt a b || eq a b

/-- `f32::EPSILON = 2^-23` -/
def epsR : ℝ := 1 / 2 ^ 23

/-- `f32::MAX = 2^128 - 2^104` -/
def maxR : ℝ := 2 ^ 128 - 2 ^ 104

/-- apply a function defined on all reals; infinities give NaN (`sin`, `cos` of an infinity) -/
def lift (f : ℝ → ℝ) : XReal → XReal
  | fin r => fin (f r)
  | _ => nan

/-- arc cosine: NaN outside `[-1, 1]` -/
def acos : XReal → XReal
  | fin r => if -1 ≤ r ∧ r ≤ 1 then fin (Real.arccos r) else nan
  | _ => nan

instance : TrigScalar XReal where
  add := add
  sub := sub
  mul := mul
  neg := neg
  zero := fin 0
  one := fin 1
  half := fin (1 / 2)
  abs := abs
  lt := lt
  le := le
  eq := eq
  div := div
  sqrt := sqrt
  epsilon := fin epsR
  maxValue := fin maxR
  ofNat n := fin n
  sin := lift Real.sin
  cos := lift Real.cos
  acos := acos
  pi := fin Real.pi
  two := fin 2

/-- `num_traits::Zero` -/
instance : Zero XReal := ⟨fin 0⟩
/-- `num_traits::One` -/
instance : One XReal := ⟨fin 1⟩
theorem zero_def : (0 : XReal) = fin 0 := rfl
theorem one_def : (1 : XReal) = fin 1 := rfl

@[simp] theorem fin_add (a b : ℝ) : fin a + fin b = fin (a + b) := rfl
@[simp] theorem fin_sub (a b : ℝ) : fin a - fin b = fin (a - b) := by
  show fin (a + -b) = _; rw [sub_eq_add_neg]
@[simp] theorem fin_mul (a b : ℝ) : fin a * fin b = fin (a * b) := rfl
@[simp] theorem fin_neg (a : ℝ) : -fin a = fin (-a) := rfl
theorem fin_div (a b : ℝ) (h : b ≠ 0) : fin a / fin b = fin (a / b) := by
  show (if b = 0 then _ else _) = _; rw [if_neg h]
theorem fin_div_zero (a : ℝ) : fin a / fin 0 = if a = 0 then nan else inf (sgn a) := by
  show (if (0:ℝ) = 0 then _ else _) = _; rw [if_pos rfl]
@[simp] theorem fin_zero : (OrdScalar.zero : XReal) = fin 0 := rfl
@[simp] theorem fin_one : (OrdScalar.one : XReal) = fin 1 := rfl
@[simp] theorem fin_half : (OrdScalar.half : XReal) = fin (1 / 2) := rfl
@[simp] theorem fin_abs (a : ℝ) : OrdScalar.abs (fin a) = fin |a| := rfl
@[simp] theorem fin_lt (a b : ℝ) : (fin a <. fin b) = decide (a < b) := rfl
@[simp] theorem fin_eq (a b : ℝ) : (fin a =. fin b) = decide (a = b) := rfl
@[simp] theorem fin_le (a b : ℝ) : (fin a ≤. fin b) = decide (a ≤ b) := by
  show (decide (a < b) || decide (a = b)) = _
  rw [← Bool.decide_or]; simp only [le_iff_lt_or_eq]
theorem fin_sqrt (a : ℝ) (h : 0 ≤ a) : Scalar.sqrt (fin a) = fin (Real.sqrt a) := by
  show (if a < 0 then _ else _) = _; rw [if_neg (not_lt.mpr h)]
@[simp] theorem eps_def : (Scalar.epsilon : XReal) = fin epsR := rfl
@[simp] theorem max_def : (Scalar.maxValue : XReal) = fin maxR := rfl
@[simp] theorem ofNat_def (n : Nat) : (Scalar.ofNat n : XReal) = fin n := rfl
@[simp] theorem fin_sin (a : ℝ) : TrigScalar.sin (fin a) = fin (Real.sin a) := rfl
@[simp] theorem fin_cos (a : ℝ) : TrigScalar.cos (fin a) = fin (Real.cos a) := rfl
theorem fin_acos (a : ℝ) (h : -1 ≤ a ∧ a ≤ 1) :
    TrigScalar.acos (fin a) = fin (Real.arccos a) := by
  show (if _ then _ else _) = _; rw [if_pos h]
@[simp] theorem pi_def : (TrigScalar.pi : XReal) = fin Real.pi := rfl
@[simp] theorem two_def : (TrigScalar.two : XReal) = fin 2 := rfl

@[simp] theorem inf_le_fin (s : Bool) (a : ℝ) : (inf s ≤. fin a) = s := by
  show (s || false) = s; simp
@[simp] theorem fin_le_inf (s : Bool) (a : ℝ) : (fin a ≤. inf s) = !s := by
  show (!s || false) = !s; simp
@[simp] theorem nan_le (a : XReal) : (nan ≤. a) = false := by
  show (lt nan a || eq nan a) = false; cases a <;> rfl
@[simp] theorem le_nan (a : XReal) : (a ≤. nan) = false := by
  show (lt a nan || eq a nan) = false; cases a <;> rfl
@[simp] theorem nan_lt (a : XReal) : (nan <. a) = false := by
  show lt nan a = false; cases a <;> rfl
@[simp] theorem lt_nan (a : XReal) : (a <. nan) = false := by
  show lt a nan = false; cases a <;> rfl
@[simp] theorem inf_lt_fin (s : Bool) (a : ℝ) : (inf s <. fin a) = s := rfl
@[simp] theorem fin_lt_inf (s : Bool) (a : ℝ) : (fin a <. inf s) = !s := rfl

theorem epsR_pos : 0 < epsR := by unfold epsR; positivity
theorem maxR_pos : 0 < maxR := by unfold maxR; norm_num
theorem eps_lt_max : epsR < maxR := by unfold epsR maxR; norm_num

end
end XReal

/-- A point with real coordinates as a point of the model. -/
def pt (p : ℝ × ℝ) : Vec2 XReal := ⟨.fin p.1, .fin p.2⟩

@[simp] theorem pt_x (p : ℝ × ℝ) : (pt p).x = .fin p.1 := rfl
@[simp] theorem pt_y (p : ℝ × ℝ) : (pt p).y = .fin p.2 := rfl
theorem pt_injective : Function.Injective pt := by
  intro p q h
  have hx := congrArg Vec2.x h
  have hy := congrArg Vec2.y h
  simp only [pt_x, pt_y, XReal.fin.injEq] at hx hy
  exact Prod.ext hx hy
@[simp] theorem pt_inj {p q : ℝ × ℝ} : pt p = pt q ↔ p = q := pt_injective.eq_iff

end Kami
