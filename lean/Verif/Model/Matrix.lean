import Verif.Model.Vector

/-!
# /repo/src/matrix.rs

The arithmetic of `inverse` was transcribed from the source text by a script (`tools/genmat.py`), term by term and
in the same order.
-/

namespace PT

/-- /repo/src/matrix.rs:4-7; entry `[i][j]` is the field `mij`. -/
@[ext] structure Matrix (α : Type) where
  m00 : α
  m01 : α
  m02 : α
  m03 : α
  m10 : α
  m11 : α
  m12 : α
  m13 : α
  m20 : α
  m21 : α
  m22 : α
  m23 : α
  m30 : α
  m31 : α
  m32 : α
  m33 : α

namespace Matrix
variable {α : Type}

/-- /repo/src/matrix.rs:30-37 -/
def transpose (m : Matrix α) : Matrix α :=
  ⟨m.m00, m.m10, m.m20, m.m30,
   m.m01, m.m11, m.m21, m.m31,
   m.m02, m.m12, m.m22, m.m32,
   m.m03, m.m13, m.m23, m.m33⟩

variable [Scalar α]

/-- `Matrix * Matrix`, /repo/src/matrix.rs:74-89 (the two loops written out). -/
def mul (a b : Matrix α) : Matrix α :=
  ⟨a.m00 *. b.m00 +. a.m01 *. b.m10 +. a.m02 *. b.m20 +. a.m03 *. b.m30,
   a.m00 *. b.m01 +. a.m01 *. b.m11 +. a.m02 *. b.m21 +. a.m03 *. b.m31,
   a.m00 *. b.m02 +. a.m01 *. b.m12 +. a.m02 *. b.m22 +. a.m03 *. b.m32,
   a.m00 *. b.m03 +. a.m01 *. b.m13 +. a.m02 *. b.m23 +. a.m03 *. b.m33,
   a.m10 *. b.m00 +. a.m11 *. b.m10 +. a.m12 *. b.m20 +. a.m13 *. b.m30,
   a.m10 *. b.m01 +. a.m11 *. b.m11 +. a.m12 *. b.m21 +. a.m13 *. b.m31,
   a.m10 *. b.m02 +. a.m11 *. b.m12 +. a.m12 *. b.m22 +. a.m13 *. b.m32,
   a.m10 *. b.m03 +. a.m11 *. b.m13 +. a.m12 *. b.m23 +. a.m13 *. b.m33,
   a.m20 *. b.m00 +. a.m21 *. b.m10 +. a.m22 *. b.m20 +. a.m23 *. b.m30,
   a.m20 *. b.m01 +. a.m21 *. b.m11 +. a.m22 *. b.m21 +. a.m23 *. b.m31,
   a.m20 *. b.m02 +. a.m21 *. b.m12 +. a.m22 *. b.m22 +. a.m23 *. b.m32,
   a.m20 *. b.m03 +. a.m21 *. b.m13 +. a.m22 *. b.m23 +. a.m23 *. b.m33,
   a.m30 *. b.m00 +. a.m31 *. b.m10 +. a.m32 *. b.m20 +. a.m33 *. b.m30,
   a.m30 *. b.m01 +. a.m31 *. b.m11 +. a.m32 *. b.m21 +. a.m33 *. b.m31,
   a.m30 *. b.m02 +. a.m31 *. b.m12 +. a.m32 *. b.m22 +. a.m33 *. b.m32,
   a.m30 *. b.m03 +. a.m31 *. b.m13 +. a.m32 *. b.m23 +. a.m33 *. b.m33⟩

/-- `Matrix / f32`, /repo/src/matrix.rs:91-102 -/
def sdiv (m : Matrix α) (n : α) : Matrix α :=
  ⟨m.m00 /. n, m.m01 /. n, m.m02 /. n, m.m03 /. n,
   m.m10 /. n, m.m11 /. n, m.m12 /. n, m.m13 /. n,
   m.m20 /. n, m.m21 /. n, m.m22 /. n, m.m23 /. n,
   m.m30 /. n, m.m31 /. n, m.m32 /. n, m.m33 /. n⟩

/-- The matrix `r` of /repo/src/matrix.rs:42-57. -/
def cofactors (m : Matrix α) : Matrix α :=
  ⟨m.m12 *. m.m23 *. m.m31 -. m.m13 *. m.m22 *. m.m31 +. m.m13 *. m.m21 *. m.m32 -. m.m11 *. m.m23 *. m.m32 -. m.m12 *. m.m21 *. m.m33 +. m.m11 *. m.m22 *. m.m33,
   m.m03 *. m.m22 *. m.m31 -. m.m02 *. m.m23 *. m.m31 -. m.m03 *. m.m21 *. m.m32 +. m.m01 *. m.m23 *. m.m32 +. m.m02 *. m.m21 *. m.m33 -. m.m01 *. m.m22 *. m.m33,
   m.m02 *. m.m13 *. m.m31 -. m.m03 *. m.m12 *. m.m31 +. m.m03 *. m.m11 *. m.m32 -. m.m01 *. m.m13 *. m.m32 -. m.m02 *. m.m11 *. m.m33 +. m.m01 *. m.m12 *. m.m33,
   m.m03 *. m.m12 *. m.m21 -. m.m02 *. m.m13 *. m.m21 -. m.m03 *. m.m11 *. m.m22 +. m.m01 *. m.m13 *. m.m22 +. m.m02 *. m.m11 *. m.m23 -. m.m01 *. m.m12 *. m.m23,
   m.m13 *. m.m22 *. m.m30 -. m.m12 *. m.m23 *. m.m30 -. m.m13 *. m.m20 *. m.m32 +. m.m10 *. m.m23 *. m.m32 +. m.m12 *. m.m20 *. m.m33 -. m.m10 *. m.m22 *. m.m33,
   m.m02 *. m.m23 *. m.m30 -. m.m03 *. m.m22 *. m.m30 +. m.m03 *. m.m20 *. m.m32 -. m.m00 *. m.m23 *. m.m32 -. m.m02 *. m.m20 *. m.m33 +. m.m00 *. m.m22 *. m.m33,
   m.m03 *. m.m12 *. m.m30 -. m.m02 *. m.m13 *. m.m30 -. m.m03 *. m.m10 *. m.m32 +. m.m00 *. m.m13 *. m.m32 +. m.m02 *. m.m10 *. m.m33 -. m.m00 *. m.m12 *. m.m33,
   m.m02 *. m.m13 *. m.m20 -. m.m03 *. m.m12 *. m.m20 +. m.m03 *. m.m10 *. m.m22 -. m.m00 *. m.m13 *. m.m22 -. m.m02 *. m.m10 *. m.m23 +. m.m00 *. m.m12 *. m.m23,
   m.m11 *. m.m23 *. m.m30 -. m.m13 *. m.m21 *. m.m30 +. m.m13 *. m.m20 *. m.m31 -. m.m10 *. m.m23 *. m.m31 -. m.m11 *. m.m20 *. m.m33 +. m.m10 *. m.m21 *. m.m33,
   m.m03 *. m.m21 *. m.m30 -. m.m01 *. m.m23 *. m.m30 -. m.m03 *. m.m20 *. m.m31 +. m.m00 *. m.m23 *. m.m31 +. m.m01 *. m.m20 *. m.m33 -. m.m00 *. m.m21 *. m.m33,
   m.m01 *. m.m13 *. m.m30 -. m.m03 *. m.m11 *. m.m30 +. m.m03 *. m.m10 *. m.m31 -. m.m00 *. m.m13 *. m.m31 -. m.m01 *. m.m10 *. m.m33 +. m.m00 *. m.m11 *. m.m33,
   m.m03 *. m.m11 *. m.m20 -. m.m01 *. m.m13 *. m.m20 -. m.m03 *. m.m10 *. m.m21 +. m.m00 *. m.m13 *. m.m21 +. m.m01 *. m.m10 *. m.m23 -. m.m00 *. m.m11 *. m.m23,
   m.m12 *. m.m21 *. m.m30 -. m.m11 *. m.m22 *. m.m30 -. m.m12 *. m.m20 *. m.m31 +. m.m10 *. m.m22 *. m.m31 +. m.m11 *. m.m20 *. m.m32 -. m.m10 *. m.m21 *. m.m32,
   m.m01 *. m.m22 *. m.m30 -. m.m02 *. m.m21 *. m.m30 +. m.m02 *. m.m20 *. m.m31 -. m.m00 *. m.m22 *. m.m31 -. m.m01 *. m.m20 *. m.m32 +. m.m00 *. m.m21 *. m.m32,
   m.m02 *. m.m11 *. m.m30 -. m.m01 *. m.m12 *. m.m30 -. m.m02 *. m.m10 *. m.m31 +. m.m00 *. m.m12 *. m.m31 +. m.m01 *. m.m10 *. m.m32 -. m.m00 *. m.m11 *. m.m32,
   m.m01 *. m.m12 *. m.m20 -. m.m02 *. m.m11 *. m.m20 +. m.m02 *. m.m10 *. m.m21 -. m.m00 *. m.m12 *. m.m21 -. m.m01 *. m.m10 *. m.m22 +. m.m00 *. m.m11 *. m.m22⟩

/-- `d`, /repo/src/matrix.rs:59-65 -/
def detExpr (m : Matrix α) : α :=
  m.m03 *. m.m12 *. m.m21 *. m.m30 -. m.m02 *. m.m13 *. m.m21 *. m.m30 -. m.m03 *. m.m11 *. m.m22 *. m.m30 +. m.m01 *. m.m13 *. m.m22 *. m.m30
    +. m.m02 *. m.m11 *. m.m23 *. m.m30 -. m.m01 *. m.m12 *. m.m23 *. m.m30 -. m.m03 *. m.m12 *. m.m20 *. m.m31 +. m.m02 *. m.m13 *. m.m20 *. m.m31
    +. m.m03 *. m.m10 *. m.m22 *. m.m31 -. m.m00 *. m.m13 *. m.m22 *. m.m31 -. m.m02 *. m.m10 *. m.m23 *. m.m31 +. m.m00 *. m.m12 *. m.m23 *. m.m31
    +. m.m03 *. m.m11 *. m.m20 *. m.m32 -. m.m01 *. m.m13 *. m.m20 *. m.m32 -. m.m03 *. m.m10 *. m.m21 *. m.m32 +. m.m00 *. m.m13 *. m.m21 *. m.m32
    +. m.m01 *. m.m10 *. m.m23 *. m.m32 -. m.m00 *. m.m11 *. m.m23 *. m.m32 -. m.m02 *. m.m11 *. m.m20 *. m.m33 +. m.m01 *. m.m12 *. m.m20 *. m.m33
    +. m.m02 *. m.m10 *. m.m21 *. m.m33 -. m.m00 *. m.m12 *. m.m21 *. m.m33 -. m.m01 *. m.m10 *. m.m22 *. m.m33 +. m.m00 *. m.m11 *. m.m22 *. m.m33

/-- /repo/src/matrix.rs:39-71 (the `debug_assert` is not modelled) -/
def inverse (m : Matrix α) : Matrix α := m.cofactors.sdiv m.detExpr

end Matrix
end PT
