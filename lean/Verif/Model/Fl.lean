import Verif.Model.Scalar
import Mathlib.Tactic.Linarith
import Mathlib.Tactic.Ring
import Mathlib.Algebra.Order.Field.Basic

/-!
# IEEE-754-like floating point values

`Fl φ K` has NaN, two infinities and finite values with an explicit sign bit and
a magnitude in an ordered field `K`.  Arithmetic is "exact result, then round the
magnitude with the format `φ`".  Simplifications with respect to hardware: all
NaNs are identified; rounding is symmetric in the sign (true for the
round-to-nearest-even mode that Rust uses).
-/

namespace PT

/-- A rounding of non-negative magnitudes: `none` is overflow (to infinity). -/
class Rounding (φ : Type) (K : Type) [Field K] [LinearOrder K] where
  rnd : K → Option K
  rnd_zero : rnd 0 = some 0
  rnd_nonneg : ∀ x a, 0 ≤ x → rnd x = some a → 0 ≤ a
  rnd_mono : ∀ x y b, 0 ≤ x → x ≤ y → rnd y = some b → ∃ a, rnd x = some a ∧ a ≤ b
  rnd_idem : ∀ x a, 0 ≤ x → rnd x = some a → rnd a = some a

/-- The format without rounding. -/
structure Exact where

instance (K : Type) [Field K] [LinearOrder K] : Rounding Exact K where
  rnd := some
  rnd_zero := rfl
  rnd_nonneg := by intro x a h e; cases e; exact h
  rnd_mono := by intro x y b _ h e; cases e; exact ⟨x, rfl, h⟩
  rnd_idem := by intro x a _ e; rfl

/-- Floating-point values of format `φ` over `K`; `neg = true` is a set sign bit. -/
inductive Fl (φ : Type) (K : Type) where
  | nan : Fl φ K
  | inf (neg : Bool) : Fl φ K
  | fin (neg : Bool) (mag : K) : Fl φ K

instance {φ K : Type} [DecidableEq K] : DecidableEq (Fl φ K) := fun a b =>
  match a, b with
  | .nan, .nan => isTrue rfl
  | .inf s, .inf t => if h : s = t then isTrue (by rw [h]) else isFalse (by simpa using h)
  | .fin s a, .fin t b =>
    if h : s = t ∧ a = b then isTrue (by rw [h.1, h.2]) else isFalse (by simpa using h)
  | .nan, .inf _ => isFalse (by simp)
  | .nan, .fin _ _ => isFalse (by simp)
  | .inf _, .nan => isFalse (by simp)
  | .inf _, .fin _ _ => isFalse (by simp)
  | .fin _ _, .nan => isFalse (by simp)
  | .fin _ _, .inf _ => isFalse (by simp)

namespace Fl
variable {φ K : Type} [Field K] [LinearOrder K] [FloorRing K] [Rounding φ K]

/-- Signed value of sign bit and magnitude. -/
def sgn (s : Bool) (m : K) : K := if s then -m else m

/-- Round a signed exact result; `zs` is the sign to give an exact zero. -/
def ofVal (x : K) (zs : Bool) : Fl φ K :=
  if x = 0 then fin zs 0
  else if x < 0 then
    match Rounding.rnd φ (-x) with
    | none => inf true
    | some m => fin true m
  else
    match Rounding.rnd φ x with
    | none => inf false
    | some m => fin false m

/-- Round a magnitude and attach a sign. -/
def ofMag (s : Bool) (m : K) : Fl φ K :=
  match Rounding.rnd φ m with
  | none => inf s
  | some m => fin s m

def add : Fl φ K → Fl φ K → Fl φ K
  | nan, _ => nan
  | _, nan => nan
  | inf s, inf t => if s = t then inf s else nan
  | inf s, fin _ _ => inf s
  | fin _ _, inf t => inf t
  | fin s a, fin t b => ofVal (sgn s a + sgn t b) (s && t)

def neg : Fl φ K → Fl φ K
  | nan => nan
  | inf s => inf (!s)
  | fin s a => fin (!s) a

def mul : Fl φ K → Fl φ K → Fl φ K
  | nan, _ => nan
  | _, nan => nan
  | inf s, inf t => inf (s ^^ t)
  | inf s, fin t b => if b = 0 then nan else inf (s ^^ t)
  | fin s a, inf t => if a = 0 then nan else inf (s ^^ t)
  | fin s a, fin t b => ofMag (s ^^ t) (a * b)

def div : Fl φ K → Fl φ K → Fl φ K
  | nan, _ => nan
  | _, nan => nan
  | inf _, inf _ => nan
  | inf s, fin t _ => inf (s ^^ t)
  | fin s _, inf t => fin (s ^^ t) 0
  | fin s a, fin t b =>
    if b = 0 then (if a = 0 then nan else inf (s ^^ t)) else ofMag (s ^^ t) (a / b)

def lt : Fl φ K → Fl φ K → Bool
  | nan, _ => false
  | _, nan => false
  | inf s, inf t => s && !t
  | inf s, fin _ _ => s
  | fin _ _, inf t => !t
  | fin s a, fin t b => decide (sgn s a < sgn t b)

def le : Fl φ K → Fl φ K → Bool
  | nan, _ => false
  | _, nan => false
  | inf s, inf t => s || !t
  | inf s, fin _ _ => s
  | fin _ _, inf t => !t
  | fin s a, fin t b => decide (sgn s a ≤ sgn t b)

def eq : Fl φ K → Fl φ K → Bool
  | nan, _ => false
  | _, nan => false
  | inf s, inf t => s == t
  | inf _, fin _ _ => false
  | fin _ _, inf _ => false
  | fin s a, fin t b => decide (sgn s a = sgn t b)

def isNaN : Fl φ K → Bool
  | nan => true
  | _ => false

def isInf : Fl φ K → Bool
  | inf _ => true
  | _ => false

/-- `f32::min`: the other operand if one is NaN.  (For `min(0.0, -0.0)` Rust leaves the sign of the
result open; the model returns the first operand.) -/
def fmin (a b : Fl φ K) : Fl φ K :=
  if a.isNaN then b else if b.isNaN then a else if b.lt a then b else a

/-- `f32::max`, as `fmin`. -/
def fmax (a b : Fl φ K) : Fl φ K :=
  if a.isNaN then b else if b.isNaN then a else if a.lt b then b else a

def abs : Fl φ K → Fl φ K
  | nan => nan
  | inf _ => inf false
  | fin _ a => fin false a

/-- Map a finite value to an integer value with the same sign bit (`floor`, `ceil`, `round`;
integers between a float and its neighbour integer are representable, so there is no rounding). -/
def mapInt (f : K → Int) : Fl φ K → Fl φ K
  | nan => nan
  | inf s => inf s
  | fin s a => fin s ((f (sgn s a)).natAbs : K)

def toInt (x : Fl φ K) (lo hi : Int) : Int :=
  match x with
  | nan => 0
  | inf s => if s then lo else hi
  | fin s a => satInt (truncInt (sgn s a)) lo hi

/-- The literal `q`. -/
def lit (q : ℚ) : Fl φ K := ofVal (q : K) false

instance : Scalar (Fl φ K) where
  add := add
  sub := fun a b => add a (neg b)
  mul := mul
  div := div
  neg := neg
  lit := lit
  lt := lt
  le := le
  eq := eq
  fmin := fmin
  fmax := fmax
  abs := abs
  floor := mapInt (fun x => ⌊x⌋)
  ceil := mapInt (fun x => ⌈x⌉)
  round := mapInt roundAway
  isNaN := isNaN
  isInf := isInf
  toInt := toInt

instance : HasInf (Fl φ K) where
  infinity := inf false

/-- A value of the format: the magnitude is non-negative and representable. -/
def WF : Fl φ K → Prop
  | nan => True
  | inf _ => True
  | fin _ a => 0 ≤ a ∧ Rounding.rnd φ a = some a

/-- Neither NaN nor infinite. -/
def IsFin : Fl φ K → Prop
  | fin _ _ => True
  | _ => False

/-- The number represented by a finite value (0 for the others; only used together with `IsFin`). -/
def val : Fl φ K → K
  | fin s a => sgn s a
  | _ => 0

end Fl

/-- The reals extended by NaN and infinities, without rounding. -/
abbrev XR := Fl Exact ℝ
/-- The same over ℚ: computable, for concrete counterexamples. -/
abbrev XQ := Fl Exact ℚ

end PT
