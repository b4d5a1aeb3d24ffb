import Verif.Model.Scalar

/-!
# /repo/src/vector.rs, vector_macro.rs, axis.rs, spectrum.rs

Rust has separate types for vectors, points and normals with the same fields; the
model uses one structure per dimension (`From` conversions between them are the identity,
vector_macro.rs:263-271, 428-436).
-/

namespace PT

/-- /repo/src/vector.rs:144-148, 158-162 (`Vector2`, `Point2`). -/
@[ext] structure V2 (α : Type) where
  x : α
  y : α
  deriving DecidableEq

/-- /repo/src/vector.rs:3-8, 80-85, 99-104 (`Vector3f`, `Normal3f`, `Point3f`). -/
@[ext] structure V3 (α : Type) where
  x : α
  y : α
  z : α
  deriving DecidableEq

/-- /repo/src/axis.rs:1-6 -/
inductive Axis where
  | X | Y | Z
  deriving DecidableEq

/-- /repo/src/axis.rs:10-16 -/
def Axis.next : Axis → Axis
  | X => Y | Y => Z | Z => X

/-- /repo/src/axis.rs:19-25 -/
def Axis.prev : Axis → Axis
  | X => Z | Y => X | Z => Y

/-- /repo/src/axis.rs:28-34 -/
def Axis.others : Axis → Axis × Axis
  | X => (Y, Z) | Y => (X, Z) | Z => (X, Y)

namespace V3
variable {α : Type}

/-- Indexing by axis, /repo/src/vector_macro.rs:240-249. -/
def get (v : V3 α) : Axis → α
  | .X => v.x | .Y => v.y | .Z => v.z

/-- Componentwise map (helper for the macros below). -/
def map {β : Type} (f : α → β) (v : V3 α) : V3 β := ⟨f v.x, f v.y, f v.z⟩

/-- Componentwise combination (helper for the macros below). -/
def zip (f : α → α → α) (v w : V3 α) : V3 α := ⟨f v.x w.x, f v.y w.y, f v.z w.z⟩

variable [Scalar α]

/-- /repo/src/vector_macro.rs:119-140 -/
def add (v w : V3 α) : V3 α := ⟨v.x +. w.x, v.y +. w.y, v.z +. w.z⟩
/-- /repo/src/vector_macro.rs:142-163 -/
def sub (v w : V3 α) : V3 α := ⟨v.x -. w.x, v.y -. w.y, v.z -. w.z⟩
/-- /repo/src/vector_macro.rs:30-39 -/
def neg (v : V3 α) : V3 α := ⟨⊖v.x, ⊖v.y, ⊖v.z⟩
/-- `v * a`, /repo/src/vector_macro.rs:79-88 -/
def smul (v : V3 α) (a : α) : V3 α := ⟨v.x *. a, v.y *. a, v.z *. a⟩
/-- `v / a`, /repo/src/vector_macro.rs:98-107 -/
def sdiv (v : V3 α) (a : α) : V3 α := ⟨v.x /. a, v.y /. a, v.z /. a⟩
/-- /repo/src/vector_macro.rs:12-18 -/
def abs (v : V3 α) : V3 α := ⟨Scalar.abs v.x, Scalar.abs v.y, Scalar.abs v.z⟩
/-- /repo/src/vector.rs:59-69, 92-96 (`dot`, `dot_n`) -/
def dot (v w : V3 α) : α := v.x *. w.x +. v.y *. w.y +. v.z *. w.z
/-- /repo/src/vector.rs:71-77 -/
def cross (v w : V3 α) : V3 α :=
  ⟨v.y *. w.z -. v.z *. w.y, v.z *. w.x -. v.x *. w.z, v.x *. w.y -. v.y *. w.x⟩
/-- /repo/src/vector_macro.rs:8-10 -/
def length [Libm α] (v : V3 α) : α := Libm.sqrt (v.x *. v.x +. v.y *. v.y +. v.z *. v.z)
/-- /repo/src/vector_macro.rs:20-27 -/
def normalize [Libm α] (v : V3 α) : V3 α :=
  let l := v.length
  ⟨v.x /. l, v.y /. l, v.z /. l⟩
/-- /repo/src/vector.rs:127-133 -/
def min (v w : V3 α) : V3 α := ⟨Scalar.fmin v.x w.x, Scalar.fmin v.y w.y, Scalar.fmin v.z w.z⟩
/-- /repo/src/vector.rs:135-141 -/
def max (v w : V3 α) : V3 α := ⟨Scalar.fmax v.x w.x, Scalar.fmax v.y w.y, Scalar.fmax v.z w.z⟩
/-- /repo/src/vector.rs:123-125 -/
def distance [Libm α] (v w : V3 α) : α := (v.sub w).length
/-- /repo/src/vector.rs:36-38 -/
def maxComponent (v : V3 α) : α := Scalar.fmax (Scalar.fmax v.x v.y) v.z
/-- /repo/src/vector.rs:40-46, 115-121 -/
def permute (v : V3 α) (x y z : Axis) : V3 α := ⟨v.get x, v.get y, v.get z⟩
/-- /repo/src/vector.rs:26-34.  `none` is the panicking arm (reachable only with NaN). -/
def maxAbsAxis (v : V3 α) : Option Axis :=
  let a := v.abs
  match a.x >=. a.y, a.x >=. a.z, a.y >=. a.z with
  | true, true, _ => some .X
  | false, _, true => some .Y
  | _, false, false => some .Z
  | _, _, _ => none
/-- /repo/src/vector.rs:18-24 -/
def fromSphericalDirection [Libm α] (sinTheta cosTheta phi : α) : V3 α :=
  ⟨sinTheta *. Libm.cos phi, sinTheta *. Libm.sin phi, cosTheta⟩
/-- /repo/src/vector.rs:49-57 -/
def constructCoordinateSystem [Libm α] (v : V3 α) : V3 α × V3 α :=
  let v1 := if Scalar.abs v.x >. Scalar.abs v.y then
      V3.sdiv ⟨⊖v.z, lit 0, v.x⟩ (Libm.sqrt (v.x *. v.x +. v.z *. v.z))
    else
      V3.sdiv ⟨lit 0, v.z, ⊖v.y⟩ (Libm.sqrt (v.y *. v.y +. v.z *. v.z))
  (v1, v.cross v1)
/-- `Default` (all zero), /repo/src/vector.rs:3, 80, 99 -/
def zero : V3 α := ⟨lit 0, lit 0, lit 0⟩
end V3

/-- Float to `i32` cast. -/
def toI32 {α} [Scalar α] (x : α) : Int := Scalar.toInt x (-2 ^ 31) (2 ^ 31 - 1)
/-- Float to `u32` cast. -/
def toU32 {α} [Scalar α] (x : α) : Nat := (Scalar.toInt x 0 (2 ^ 32 - 1)).toNat
/-- Float to `usize` cast (64-bit). -/
def toUsize {α} [Scalar α] (x : α) : Nat := (Scalar.toInt x 0 (2 ^ 64 - 1)).toNat
/-- `i32` to `usize` cast (64-bit, sign extension). -/
def asUsize (n : Int) : Nat := if 0 ≤ n then n.toNat else (2 ^ 64 + n).toNat
/-- Two's complement wrap-around of an `i32` result (release build). -/
def wrapI32 (n : Int) : Int := (n + 2 ^ 31) % 2 ^ 32 - 2 ^ 31

namespace V2
variable {α : Type}
/-- /repo/src/vector_macro.rs:405-414; other indices panic and are not used. -/
def get (v : V2 α) (i : Nat) : α := if i = 0 then v.x else v.y

/-- Float point to integer point, /repo/src/vector.rs:240-247 -/
def toI [Scalar α] (v : V2 α) : V2 Int := ⟨toI32 v.x, toI32 v.y⟩
/-- Integer point to float point, /repo/src/vector.rs:258-265 -/
def ofI [Scalar α] (v : V2 Int) : V2 α := ⟨ofInt v.x, ofInt v.y⟩
/-- /repo/src/vector_macro.rs:361-380 -/
def add [Scalar α] (v w : V2 α) : V2 α := ⟨v.x +. w.x, v.y +. w.y⟩
/-- /repo/src/vector_macro.rs:382-401 -/
def sub [Scalar α] (v w : V2 α) : V2 α := ⟨v.x -. w.x, v.y -. w.y⟩
/-- `v + a`, /repo/src/vector_macro.rs:291-299 -/
def sadd [Scalar α] (v : V2 α) (a : α) : V2 α := ⟨v.x +. a, v.y +. a⟩
/-- `v - a`, /repo/src/vector_macro.rs:308-316 -/
def ssub [Scalar α] (v : V2 α) (a : α) : V2 α := ⟨v.x -. a, v.y -. a⟩
/-- /repo/src/vector.rs:192-197 -/
def floor [Scalar α] (v : V2 α) : V2 α := ⟨Scalar.floor v.x, Scalar.floor v.y⟩
/-- /repo/src/vector.rs:199-204 -/
def ceil [Scalar α] (v : V2 α) : V2 α := ⟨Scalar.ceil v.x, Scalar.ceil v.y⟩
end V2

/-- Integer `min` of /repo/src/vector.rs:267-273 -/
def imin (a b : Int) : Int := if a < b then a else b
/-- Integer `max` of /repo/src/vector.rs:275-281 -/
def imax (a b : Int) : Int := if b < a then a else b

namespace V2
/-- `Point2i::min`, /repo/src/vector.rs:176-181 -/
def imin (v w : V2 Int) : V2 Int := ⟨PT.imin v.x w.x, PT.imin v.y w.y⟩
/-- `Point2i::max`, /repo/src/vector.rs:183-188 -/
def imax (v w : V2 Int) : V2 Int := ⟨PT.imax v.x w.x, PT.imax v.y w.y⟩
end V2

end PT
