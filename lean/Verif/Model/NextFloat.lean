import Verif.Model.Common
import Verif.Lemmas.Binary

/-! # `next_float_up` and `next_float_down`, /repo/src/common.rs:34-68 -/

namespace PT

/-- `next_float_up`/`next_float_down` as operations of the number type: adjacent floats have no counterpart over ℝ, so
theorems over ℝ that mention them hold for every choice. -/
class HasNext (α : Type) where
  up : α → α
  down : α → α

/-- `transmute::<u32, f32>`: sign bit, then the pattern of the magnitude (IEEE-754 binary32). -/
def ofBits (b : Nat) : F32 :=
  let s := decide (2 ^ 31 ≤ b)
  let k := b % 2 ^ 31
  if k < 0x7f800000 then .fin s ((sval 23 k : ℚ) / 2 ^ 149)
  else if k = 0x7f800000 then .inf s
  else .nan

/-- `transmute::<f32, u32>`.  The model has one NaN; its pattern is taken to be the usual quiet NaN. -/
def toBits : F32 → Nat
  | .nan => 0x7fc00000
  | .inf s => (if s then 2 ^ 31 else 0) + 0x7f800000
  | .fin s a => (if s then 2 ^ 31 else 0) + ordRound 23 31 (a * 2 ^ 149)

/-- /repo/src/common.rs:34-50 (wrapping `u32` arithmetic, release build) -/
def nextFloatDown (x : F32) : F32 :=
  if Scalar.isInf x && (x <. lit 0) then x
  else
    let x := if x ==. lit 0 then ⊖(lit 0) else x
    let bits := toBits x
    let bits := if x <=. lit 0 then (bits + 1) % 2 ^ 32 else (bits + (2 ^ 32 - 1)) % 2 ^ 32
    ofBits bits

/-- /repo/src/common.rs:52-68 -/
def nextFloatUp (x : F32) : F32 :=
  if Scalar.isInf x && (x >. lit 0) then x
  else
    let x := if x ==. ⊖(lit 0) then lit 0 else x
    let bits := toBits x
    let bits := if x >=. lit 0 then (bits + 1) % 2 ^ 32 else (bits + (2 ^ 32 - 1)) % 2 ^ 32
    ofBits bits

instance : HasNext F32 := ⟨nextFloatUp, nextFloatDown⟩

end PT
