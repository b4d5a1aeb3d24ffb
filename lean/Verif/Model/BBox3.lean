import Verif.Model.Ray

/-! # /repo/src/bbox.rs:11-110 -/

namespace PT

/-- /repo/src/bbox.rs:11-15 -/
@[ext] structure BBox3 (α : Type) where
  min : V3 α
  max : V3 α

namespace BBox3
variable {α : Type} [Scalar α]

/-- /repo/src/bbox.rs:18-23 -/
def new (min max : V3 α) : BBox3 α := ⟨min.min max, max.max min⟩
/-- /repo/src/bbox.rs:29-31 -/
def diagonal (b : BBox3 α) : V3 α := b.max.sub b.min
/-- /repo/src/bbox.rs:33-36 -/
def surfaceArea (b : BBox3 α) : α :=
  let d := b.diagonal
  (d.x *. d.y +. d.x *. d.z +. d.y *. d.z) *. lit 2
/-- /repo/src/bbox.rs:38-46; `none` is the panicking arm. -/
def maxExtent (b : BBox3 α) : Option Axis :=
  let d := b.diagonal
  match d.x >=. d.y, d.x >=. d.z, d.y >=. d.z with
  | true, true, _ => some .X
  | false, _, true => some .Y
  | _, false, false => some .Z
  | _, _, _ => none
/-- /repo/src/bbox.rs:64-68 -/
def pointInside (b : BBox3 α) (p : V3 α) : Bool :=
  (b.min.x <=. p.x) && (p.x <=. b.max.x) &&
  (b.min.y <=. p.y) && (p.y <=. b.max.y) &&
  (b.min.z <=. p.z) && (p.z <=. b.max.z)
/-- /repo/src/bbox.rs:48-56 -/
def boundingSphere [Libm α] (b : BBox3 α) : V3 α × α :=
  let center := (b.min.add b.max).sdiv (lit 2)
  (center, if b.pointInside center then center.distance b.max else lit 0)
/-- /repo/src/bbox.rs:58-62 -/
def overlaps (b c : BBox3 α) : Bool :=
  (c.min.x <=. b.max.x) && (b.min.x <=. c.max.x) &&
  (c.min.y <=. b.max.y) && (b.min.y <=. c.max.y) &&
  (c.min.z <=. b.max.z) && (b.min.z <=. c.max.z)
/-- /repo/src/bbox.rs:70-75 -/
def union (b c : BBox3 α) : BBox3 α := ⟨b.min.min c.min, b.max.max c.max⟩
/-- /repo/src/bbox.rs:77-82 -/
def unionPoint (b : BBox3 α) (p : V3 α) : BBox3 α := ⟨b.min.min p, b.max.max p⟩

/-- The body of the loop of /repo/src/bbox.rs:89-107 for one axis; `none` is `return None`. -/
def slab (b : BBox3 α) (ray : Ray α) (axis : Axis) (t : α × α) : Option (α × α) :=
  let tNear := (b.min.get axis -. ray.origin.get axis) /. ray.direction.get axis
  let tFar := (b.max.get axis -. ray.origin.get axis) /. ray.direction.get axis
  let (tNear, tFar) := if tNear >. tFar then (tFar, tNear) else (tNear, tFar)
  let tFar := tFar *. (lit 1 +. lit 2 *. gamma (lit 3))
  let t0 := if tNear >. t.1 then tNear else t.1
  let t1 := if tFar <. t.2 then tFar else t.2
  if t0 >. t1 then none else some (t0, t1)

/-- /repo/src/bbox.rs:84-109 -/
def intersect (b : BBox3 α) (ray : Ray α) : Option (α × α) := do
  let t ← b.slab ray .X (lit 0, ray.tMax)
  let t ← b.slab ray .Y t
  b.slab ray .Z t

end BBox3
end PT
