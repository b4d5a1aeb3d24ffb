import Mathlib.Data.Rat.Defs
import Mathlib.Data.Real.Basic
import Mathlib.Analysis.Real.Sqrt
import Mathlib.Algebra.Order.Round
import Mathlib.Analysis.SpecialFunctions.Pow.Real
import Mathlib.Analysis.SpecialFunctions.Trigonometric.Arctan
import Mathlib.Analysis.SpecialFunctions.Complex.Arg

/-!
# The number types of the model

Every numeric function of pt.rs works on `f32` (a few lines on `f64`).  The
model functions are polymorphic in a type `α` with the operations of `Scalar`
below, so that the same definition can be read over exact reals and over
IEEE-like floats (`Verif.Model.Fl`).

Comparisons are `Bool`-valued, as in Rust, because on floats `<`, `<=` and `==`
are not complements of each other (NaN).
-/

namespace PT

/-- The operations of Rust's `f32`/`f64` used by pt.rs (std library, not a file of /repo).
`lit q` is the literal `q` (rounded to the format).  `toInt x lo hi` is the cast
`x as iN`/`as uN`: truncation, saturating to `[lo, hi]`, NaN to 0. -/
class Scalar (α : Type) where
  add : α → α → α
  sub : α → α → α
  mul : α → α → α
  div : α → α → α
  neg : α → α
  lit : ℚ → α
  lt : α → α → Bool
  le : α → α → Bool
  eq : α → α → Bool
  fmin : α → α → α
  fmax : α → α → α
  abs : α → α
  floor : α → α
  ceil : α → α
  round : α → α
  isNaN : α → Bool
  isInf : α → Bool
  toInt : α → Int → Int → Int

/-- The elementary functions of the platform's math library (std, libm).  For floats this is
an arbitrary parameter: theorems about floats hold for every implementation unless they
state a hypothesis about it. -/
class Libm (α : Type) where
  sqrt : α → α
  sin : α → α
  cos : α → α
  tan : α → α
  atan : α → α
  atan2 : α → α → α
  acos : α → α
  exp : α → α
  ln : α → α
  powf : α → α → α
  pi : α

/-- `std::f32::INFINITY` (/repo/src/common.rs:7).  A separate class because ℝ has no such value:
theorems over ℝ that mention it hold for every value chosen for it. -/
class HasInf (α : Type) where
  infinity : α

infixl:65 " +. " => Scalar.add
infixl:65 " -. " => Scalar.sub
infixl:70 " *. " => Scalar.mul
infixl:70 " /. " => Scalar.div
prefix:max "⊖" => Scalar.neg
infix:50 " <. " => Scalar.lt
infix:50 " <=. " => Scalar.le
infix:50 " ==. " => Scalar.eq
/-- `a > b` -/
notation:50 a:51 " >. " b:51 => Scalar.lt b a
/-- `a >= b` -/
notation:50 a:51 " >=. " b:51 => Scalar.le b a

export Scalar (lit)

/-- An integer converted to a float, `n as f32`. -/
def ofInt {α} [Scalar α] (n : Int) : α := lit (n : ℚ)

/-- Truncation towards zero of an exact number. -/
def truncInt {K : Type} [Field K] [LinearOrder K] [FloorRing K] (x : K) : Int :=
  if x < 0 then ⌈x⌉ else ⌊x⌋

/-- Rust's `f32::round`: nearest integer, halves away from zero. -/
def roundAway {K : Type} [Field K] [LinearOrder K] [FloorRing K] (x : K) : Int :=
  if x < 0 then ⌈x - 1 / 2⌉ else ⌊x + 1 / 2⌋

/-- Clamp of an integer, used for saturating casts. -/
def satInt (n lo hi : Int) : Int := if n < lo then lo else if hi < n then hi else n

open Classical in
/-- Exact real arithmetic. -/
noncomputable instance : Scalar ℝ where
  add := (· + ·)
  sub := (· - ·)
  mul := (· * ·)
  div := (· / ·)
  neg := fun x => -x
  lit := fun q => (q : ℝ)
  lt := fun a b => decide (a < b)
  le := fun a b => decide (a ≤ b)
  eq := fun a b => decide (a = b)
  fmin := min
  fmax := max
  abs := fun x => |x|
  floor := fun x => (⌊x⌋ : ℝ)
  ceil := fun x => (⌈x⌉ : ℝ)
  round := fun x => (roundAway x : ℝ)
  isNaN := fun _ => false
  isInf := fun _ => false
  toInt := fun x lo hi => satInt (truncInt x) lo hi

/-- The real functions that libm approximates.  `PI` is taken to be π itself. -/
noncomputable instance : Libm ℝ where
  sqrt := Real.sqrt
  sin := Real.sin
  cos := Real.cos
  tan := Real.tan
  atan := Real.arctan
  atan2 := fun y x => Complex.arg ⟨x, y⟩
  acos := Real.arccos
  exp := Real.exp
  ln := Real.log
  powf := fun x y => x ^ y
  pi := Real.pi

section RealSimps
variable (a b : ℝ) (q : ℚ)
/-! Reading the operations over ℝ as ordinary mathematics (all by definition). -/
theorem r_add : a +. b = a + b := rfl
theorem r_sub : a -. b = a - b := rfl
theorem r_mul : a *. b = a * b := rfl
theorem r_div : a /. b = a / b := rfl
theorem r_neg : ⊖a = -a := rfl
theorem r_lit : (lit q : ℝ) = (q : ℝ) := rfl
theorem r_lt : (a <. b) = decide (a < b) := rfl
theorem r_le : (a <=. b) = decide (a ≤ b) := rfl
theorem r_eq : (a ==. b) = decide (a = b) := rfl
theorem r_min : Scalar.fmin a b = min a b := rfl
theorem r_max : Scalar.fmax a b = max a b := rfl
theorem r_abs : Scalar.abs a = |a| := rfl
theorem r_floor : Scalar.floor a = (⌊a⌋ : ℝ) := rfl
theorem r_ceil : Scalar.ceil a = (⌈a⌉ : ℝ) := rfl
theorem r_round : Scalar.round a = (roundAway a : ℝ) := rfl
theorem r_isNaN : Scalar.isNaN a = false := rfl
theorem r_isInf : Scalar.isInf a = false := rfl
theorem r_toInt (lo hi : Int) : Scalar.toInt a lo hi = satInt (truncInt a) lo hi := rfl
theorem r_sqrt : Libm.sqrt a = Real.sqrt a := rfl
theorem r_sin : Libm.sin a = Real.sin a := rfl
theorem r_cos : Libm.cos a = Real.cos a := rfl
theorem r_tan : Libm.tan a = Real.tan a := rfl
theorem r_atan : Libm.atan a = Real.arctan a := rfl
theorem r_atan2 : Libm.atan2 a b = Complex.arg ⟨b, a⟩ := rfl
theorem r_acos : Libm.acos a = Real.arccos a := rfl
theorem r_exp : Libm.exp a = Real.exp a := rfl
theorem r_ln : Libm.ln a = Real.log a := rfl
theorem r_powf : Libm.powf a b = a ^ b := rfl
theorem r_pi : (Libm.pi : ℝ) = Real.pi := rfl
theorem r_ofInt (n : Int) : (ofInt n : ℝ) = (n : ℝ) := by simp [ofInt, r_lit]
end RealSimps

/-- Rewrite model arithmetic over ℝ into ordinary mathematics. -/
macro "real_ops" loc:(Lean.Parser.Tactic.location)? : tactic =>
  `(tactic| simp only [PT.r_add, PT.r_sub, PT.r_mul, PT.r_div, PT.r_neg, PT.r_lit, PT.r_lt, PT.r_le,
     PT.r_eq, PT.r_min, PT.r_max, PT.r_abs, PT.r_floor, PT.r_ceil, PT.r_round, PT.r_isNaN, PT.r_isInf,
     PT.r_toInt, PT.r_sqrt, PT.r_sin, PT.r_cos, PT.r_tan, PT.r_atan, PT.r_atan2, PT.r_acos, PT.r_exp,
     PT.r_ln, PT.r_powf, PT.r_pi, PT.r_ofInt, decide_eq_true_eq, Rat.cast_zero, Rat.cast_one,
     Rat.cast_ofNat, Rat.cast_neg, Rat.cast_div, Rat.cast_natCast, Rat.cast_intCast] $(loc)?)

end PT
