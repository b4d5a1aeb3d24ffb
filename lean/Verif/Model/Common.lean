import Verif.Model.Vector

/-!
# /repo/src/common.rs (except `next_float_*`, see `Verif.Model.NextFloat`)

`debug_assert!`s are not modelled (they are absent from release builds).
-/

namespace PT
variable {α : Type} [Scalar α]

/-- `f32::EPSILON` = 2^-23, /repo/src/common.rs:6 -/
def epsilon : α := lit (1 / 2 ^ 23)
/-- /repo/src/common.rs:9 -/
def machineEpsilon : α := epsilon *. lit (1 / 2)
/-- /repo/src/common.rs:11 -/
def oneMinusEpsilon : α := lit 1 -. epsilon

/-- /repo/src/common.rs:15-24, at a float type. -/
def clamp (x low high : α) : α :=
  if x <. low then low else if x >. high then high else x

/-- /repo/src/common.rs:26-28 -/
def lerp (t v1 v2 : α) : α := (lit 1 -. t) *. v1 +. t *. v2

/-- /repo/src/common.rs:30-32 -/
def gamma (x : α) : α := (x *. machineEpsilon) /. (lit 1 -. x *. machineEpsilon)

/-- /repo/src/common.rs:70-89 (there at `f64`). -/
def quadratic [Libm α] (a b c : α) : Option (α × α) :=
  let discrim := b *. b -. lit 4 *. a *. c
  if discrim <. lit 0 then none
  else
    let rootDiscrim := Libm.sqrt discrim
    let q := if b <. lit 0 then (⊖(lit (1 / 2))) *. (b -. rootDiscrim)
      else (⊖(lit (1 / 2))) *. (b +. rootDiscrim)
    let t0 := q /. a
    let t1 := c /. q
    if t0 >. t1 then some (t1, t0) else some (t0, t1)

end PT
