import Verif.Model.Fl

/-!
# Binary32 and binary64

The non-negative finite floats are enumerated by their bit pattern `k` (sign bit
clear); `sval p k` is the value in units of the smallest subnormal.  Rounding is
to the nearest pattern, ties to even, and a result at or above the pattern of
infinity overflows.
-/

namespace PT

/-- Value of bit pattern `k` with `p` explicit mantissa bits, in units of the least subnormal
(IEEE-754 encoding: exponent field `k / 2^p`, mantissa field `k % 2^p`). -/
def sval (p k : ℕ) : ℕ :=
  if k < 2 ^ p then k else (2 ^ p + k % 2 ^ p) * 2 ^ (k / 2 ^ p - 1)

/-- Greatest pattern below `base + 2^bits` whose value is at most `y` (greedy from the top bit). -/
def ordFloor (p : ℕ) (y : ℚ) : ℕ → ℕ → ℕ
  | 0, base => base
  | bits + 1, base =>
    if (sval p (base + 2 ^ bits) : ℚ) ≤ y then ordFloor p y bits (base + 2 ^ bits)
    else ordFloor p y bits base

/-- Round to nearest pattern, ties to the even pattern. -/
def ordRound (p n : ℕ) (y : ℚ) : ℕ :=
  let k := ordFloor p y n 0
  let lo : ℚ := sval p k
  let hi : ℚ := sval p (k + 1)
  if y - lo < hi - y then k
  else if hi - y < y - lo then k + 1
  else if k % 2 = 0 then k else k + 1

/-- A binary format: `p` mantissa bits, least subnormal `2^-q`, infinity pattern `top < 2^n`. -/
structure Bin (p q top n : ℕ) where

/-- Rounding of a magnitude to the format. -/
def Bin.rnd (p q top n : ℕ) (x : ℚ) : Option ℚ :=
  let k := ordRound p n (x * 2 ^ q)
  if k < top then some (sval p k / 2 ^ q) else none

/-- IEEE single precision. -/
abbrev Binary32 := Bin 23 149 0x7f800000 31
/-- IEEE double precision. -/
abbrev Binary64 := Bin 52 1074 0x7ff0000000000000 63

end PT
