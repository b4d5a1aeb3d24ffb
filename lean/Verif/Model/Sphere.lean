import Verif.Model.Shape
import Verif.Lemmas.Binary

/-!
# /repo/src/shape_sphere.rs

`has_intersection` computes in `f64`: the model is polymorphic in a wide type `β` with the two casts.
-/

namespace PT

/-- The casts between a type and the wider type used for intermediate results: `x as f64`, `x as f32`
(/repo/src/shape_sphere.rs:33-35, 46). -/
class Widen (α : Type) (β : outParam Type) where
  up : α → β
  down : β → α

/-- Exact arithmetic needs no wider type. -/
instance : Widen ℝ ℝ := ⟨id, id⟩

/-- Conversion between two float formats: the value is rounded to the target format (std `as`). -/
def Fl.convert {φ ψ K : Type} [Field K] [LinearOrder K] [Rounding ψ K] : Fl φ K → Fl ψ K
  | .nan => .nan
  | .inf s => .inf s
  | .fin s a => Fl.ofMag s a

/-- `f32` and `f64` -/
instance : Widen (Fl Binary32 ℚ) (Fl Binary64 ℚ) := ⟨Fl.convert, Fl.convert⟩

instance (K : Type) [Field K] [LinearOrder K] : Widen (Fl Exact K) (Fl Exact K) := ⟨Fl.convert, Fl.convert⟩

variable {α β : Type} [Scalar α] [Libm α] [Scalar β] [Libm β] [Widen α β]

/-- /repo/src/shape_sphere.rs:11-15 -/
structure Sphere (α : Type) where
  center : V3 α
  radius : α
  material : Material α

namespace Sphere

/-- /repo/src/shape_sphere.rs:22-24 -/
def worldToLocal (s : Sphere α) (p : V3 α) : V3 α := p.add s.center.neg

/-- /repo/src/shape_sphere.rs:26-28 -/
def localToWorld (s : Sphere α) (p : V3 α) : V3 α := p.add s.center

/-- /repo/src/shape_sphere.rs:30-55 -/
def hasIntersection (s : Sphere α) (ray : Ray α) : Option α :=
  let o := ray.origin
  let d := ray.direction
  let ox : β := Widen.up o.x
  let oy : β := Widen.up o.y
  let oz : β := Widen.up o.z
  let dx : β := Widen.up d.x
  let dy : β := Widen.up d.y
  let dz : β := Widen.up d.z
  let r : β := Widen.up s.radius
  let a := dx *. dx +. dy *. dy +. dz *. dz
  let b := lit 2 *. (dx *. ox +. dy *. oy +. dz *. oz)
  let c := ox *. ox +. oy *. oy +. oz *. oz -. r *. r
  match quadratic a b c with
  | none => none
  | some (t0, t1) =>
    let t0 : α := Widen.down t0
    let t1 : α := Widen.down t1
    if lit 0 <. t0 && t0 <. ray.tMax then some t0
    else if lit 0 <. t1 && t1 <. ray.tMax then some t1
    else none

/-- /repo/src/shape_sphere.rs:58-71 -/
def computePartialDerivative (p : V3 α) : V3 α × V3 α :=
  let dpdu : V3 α := ⟨⊖(lit 2) *. Libm.pi *. p.y, lit 2 *. Libm.pi *. p.x, lit 0⟩
  let rSinTheta := Libm.sqrt (p.x *. p.x +. p.y *. p.y)
  let dpdv : V3 α := ⟨Libm.pi *. p.z *. p.x /. rSinTheta, Libm.pi *. p.z *. p.y /. rSinTheta, Libm.pi *. ⊖rSinTheta⟩
  (dpdu, dpdv)

/-- /repo/src/shape_sphere.rs:73-111; the ray is in local coordinates. -/
def computeInteraction (s : Sphere α) (ray : Ray α) (t : α) : Interaction α × α :=
  let p := ray.position t
  let p := p.smul (s.radius /. p.length)
  let pErr := p.abs.smul (gamma (lit 5))
  let phi :=
    let px := if p.x ==. lit 0 && p.y ==. lit 0 then lit (1 / 100000) *. s.radius else p.x
    let phi := Libm.atan2 p.y px
    if phi <. lit 0 then phi +. Libm.pi *. lit 2 else phi
  let theta := Libm.acos (clamp (p.z /. s.radius) ⊖(lit 1) (lit 1))
  let n := p.normalize
  let (dpdu, dpdv) := computePartialDerivative p
  ({ p := s.localToWorld p, pErr, uv := ⟨phi, theta⟩, n, sn := n, dpdu, dpdv, wo := ray.direction.neg }, t)

/-- /repo/src/shape_sphere.rs:115-119 -/
def bbox (s : Sphere α) : BBox3 α :=
  BBox3.new
    ⟨s.center.x -. s.radius, s.center.y -. s.radius, s.center.z -. s.radius⟩
    ⟨s.center.x +. s.radius, s.center.y +. s.radius, s.center.z +. s.radius⟩

/-- /repo/src/shape_sphere.rs:121-123 -/
def area (s : Sphere α) : α := lit 4 *. Libm.pi *. s.radius *. s.radius

/-- /repo/src/shape_sphere.rs:125-130 -/
def intersectP (s : Sphere α) (ray : Ray α) : Bool :=
  let ray := { ray with origin := s.worldToLocal ray.origin }
  (hasIntersection s ray).isSome

/-- /repo/src/shape_sphere.rs:132-139 -/
def intersect (s : Sphere α) (ray : Ray α) : Option (Interaction α × α) :=
  let ray := { ray with origin := s.worldToLocal ray.origin }
  (hasIntersection s ray).map fun t => s.computeInteraction ray t

/-- /repo/src/shape_sphere.rs:114-148; `sample` panics (`unimplemented!()`, line 145-147). -/
def toShape (s : Sphere α) : Shape α :=
  Shape.withDefaults s.bbox s.area (fun ray => some (s.intersectP ray)) (fun ray => some (s.intersect ray)) s.material
    (fun _ => none)

end Sphere
end PT
