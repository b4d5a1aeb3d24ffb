import Verif.Model.Matrix
import Verif.Model.BBox3

/-! # /repo/src/transform.rs -/

namespace PT
variable {α : Type} [Scalar α]

/-- /repo/src/transform.rs:9-13 -/
@[ext] structure Transform (α : Type) where
  m : Matrix α
  mInv : Matrix α

/-- `f32::to_radians` (std): multiplication with π/180. -/
def toRadians [Libm α] (deg : α) : α := deg *. (Libm.pi /. lit 180)

/-- /repo/src/transform.rs:179-181 -/
def computeSinCosInDegree [Libm α] (deg : α) : α × α := (Libm.sin (toRadians deg), Libm.cos (toRadians deg))

namespace Transform

/-- /repo/src/transform.rs:15-32 -/
def ofMatrix (m : Matrix α) : Transform α := ⟨m, m.inverse⟩

/-- /repo/src/transform.rs:35-50 -/
def translate (x y z : α) : Transform α :=
  ⟨⟨lit 1, lit 0, lit 0, x, lit 0, lit 1, lit 0, y, lit 0, lit 0, lit 1, z, lit 0, lit 0, lit 0, lit 1⟩,
   ⟨lit 1, lit 0, lit 0, ⊖x, lit 0, lit 1, lit 0, ⊖y, lit 0, lit 0, lit 1, ⊖z, lit 0, lit 0, lit 0, lit 1⟩⟩

/-- /repo/src/transform.rs:52-67 -/
def scale (x y z : α) : Transform α :=
  ⟨⟨x, lit 0, lit 0, lit 0, lit 0, y, lit 0, lit 0, lit 0, lit 0, z, lit 0, lit 0, lit 0, lit 0, lit 1⟩,
   ⟨lit 1 /. x, lit 0, lit 0, lit 0, lit 0, lit 1 /. y, lit 0, lit 0, lit 0, lit 0, lit 1 /. z, lit 0,
    lit 0, lit 0, lit 0, lit 1⟩⟩

/-- /repo/src/transform.rs:69-81 -/
def rotateX [Libm α] (theta : α) : Transform α :=
  let (s, c) := computeSinCosInDegree theta
  let m : Matrix α := ⟨lit 1, lit 0, lit 0, lit 0, lit 0, c, ⊖s, lit 0, lit 0, s, c, lit 0, lit 0, lit 0, lit 0, lit 1⟩
  ⟨m, m.transpose⟩

/-- /repo/src/transform.rs:83-95 -/
def rotateY [Libm α] (theta : α) : Transform α :=
  let (s, c) := computeSinCosInDegree theta
  let m : Matrix α := ⟨c, lit 0, s, lit 0, lit 0, lit 1, lit 0, lit 0, ⊖s, lit 0, c, lit 0, lit 0, lit 0, lit 0, lit 1⟩
  ⟨m, m.transpose⟩

/-- /repo/src/transform.rs:97-109 -/
def rotateZ [Libm α] (theta : α) : Transform α :=
  let (s, c) := computeSinCosInDegree theta
  let m : Matrix α := ⟨c, ⊖s, lit 0, lit 0, s, c, lit 0, lit 0, lit 0, lit 0, lit 1, lit 0, lit 0, lit 0, lit 0, lit 1⟩
  ⟨m, m.transpose⟩

/-- `Transform * Transform`, /repo/src/transform.rs:169-177 -/
def mul (s t : Transform α) : Transform α := ⟨s.m.mul t.m, t.mInv.mul s.mInv⟩

/-- /repo/src/transform.rs:112-122 -/
def perspective [Libm α] (fov n f : α) : Transform α :=
  let p : Matrix α := ⟨lit 1, lit 0, lit 0, lit 0, lit 0, lit 1, lit 0, lit 0,
    lit 0, lit 0, f /. (f -. n), (⊖f) *. n /. (f -. n), lit 0, lit 0, lit 1, lit 0⟩
  let invTanAng := lit 1 /. Libm.tan (toRadians fov /. lit 2)
  (scale invTanAng invTanAng (lit 1)).mul (ofMatrix p)

/-- /repo/src/transform.rs:125-141 -/
def lookAt [Libm α] (pos look up : V3 α) : Transform α :=
  let d := (look.sub pos).normalize
  let left := (up.normalize.cross d).normalize
  let up := d.cross left
  let m : Matrix α := ⟨left.x, up.x, d.x, pos.x, left.y, up.y, d.y, pos.y, left.z, up.z, d.z, pos.z,
    lit 0, lit 0, lit 0, lit 1⟩
  ⟨m, m.inverse⟩

/-- /repo/src/transform.rs:150-152 -/
def inverse (t : Transform α) : Transform α := ⟨t.mInv, t.m⟩

end Transform

/-- The trait method `_transform`, /repo/src/transform.rs:183-184.  (Rust picks the implementation by the type; the model's
vectors, points and normals have one type, so there is one function for each.) -/
def vectorTransform (v : V3 α) (m _mInv : Matrix α) : V3 α :=
  ⟨m.m00 *. v.x +. m.m01 *. v.y +. m.m02 *. v.z,
   m.m10 *. v.x +. m.m11 *. v.y +. m.m12 *. v.z,
   m.m20 *. v.x +. m.m21 *. v.y +. m.m22 *. v.z⟩

/-- /repo/src/transform.rs:205-213 -/
def normalTransform (v : V3 α) (_m mInv : Matrix α) : V3 α :=
  ⟨mInv.m00 *. v.x +. mInv.m10 *. v.y +. mInv.m20 *. v.z,
   mInv.m01 *. v.x +. mInv.m11 *. v.y +. mInv.m21 *. v.z,
   mInv.m02 *. v.x +. mInv.m12 *. v.y +. mInv.m22 *. v.z⟩

/-- /repo/src/transform.rs:215-230 -/
def pointTransform (v : V3 α) (m _mInv : Matrix α) : V3 α :=
  let xp := m.m00 *. v.x +. m.m01 *. v.y +. m.m02 *. v.z +. m.m03
  let yp := m.m10 *. v.x +. m.m11 *. v.y +. m.m12 *. v.z +. m.m13
  let zp := m.m20 *. v.x +. m.m21 *. v.y +. m.m22 *. v.z +. m.m23
  let wp := m.m30 *. v.x +. m.m31 *. v.y +. m.m32 *. v.z +. m.m33
  let p : V3 α := ⟨xp, yp, zp⟩
  if wp ==. lit 1 then p else p.sdiv wp

/-- /repo/src/transform.rs:232-239 -/
def boxTransform (b : BBox3 α) (m mInv : Matrix α) : BBox3 α :=
  BBox3.new (pointTransform b.min m mInv) (pointTransform b.max m mInv)

/-- /repo/src/transform.rs:241-249 -/
def rayTransform (r : Ray α) (m mInv : Matrix α) : Ray α :=
  ⟨pointTransform r.origin m mInv, vectorTransform r.direction m mInv, r.tMax⟩

/-- /repo/src/transform.rs:251-265 -/
def interactionTransform (i : Interaction α) (m mInv : Matrix α) : Interaction α :=
  { p := pointTransform i.p m mInv
    pErr := vectorTransform i.pErr m mInv
    uv := i.uv
    n := normalTransform i.n m mInv
    sn := normalTransform i.sn m mInv
    dpdu := vectorTransform i.dpdu m mInv
    dpdv := vectorTransform i.dpdv m mInv
    wo := vectorTransform i.wo m mInv }

namespace Transform
variable {τ : Type}
/-- `apply`, /repo/src/transform.rs:154-156, 186-188, for any of the `_transform`s above. -/
def apply (t : Transform α) (tr : τ → Matrix α → Matrix α → τ) (x : τ) : τ := tr x t.m t.mInv
/-- `inverse_apply`, /repo/src/transform.rs:158-160, 190-192 -/
def inverseApply (t : Transform α) (tr : τ → Matrix α → Matrix α → τ) (x : τ) : τ := tr x t.mInv t.m
end Transform
end PT
