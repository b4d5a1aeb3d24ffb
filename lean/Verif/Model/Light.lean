import Verif.Model.Shape
import Verif.Model.Interaction

/-!
# /repo/src/light.rs

A light is the record of the methods of the trait, after `pre_process`.  `Arc<Light>` is a `LightObj`: the light and the
address that identifies it.  Only the two lights of the library can exist: the type `VisibilityTester` cannot be
constructed outside the crate.
-/

namespace PT
variable {α : Type} [Scalar α] [Libm α]

/-- /repo/src/light.rs:24-27 -/
structure VisibilityTester (α : Type) where
  p0 : Interaction α
  p1 : Interaction α

/-- The ray traced by `unoccluded`, /repo/src/light.rs:31 -/
def VisibilityTester.ray [HasNext α] (v : VisibilityTester α) : Ray α := v.p0.spawnRayTo v.p1

/-- The result of `sample_li`, /repo/src/light.rs:19: direction, radiance, pdf, visibility tester. -/
structure LightSample (α : Type) where
  wi : V3 α
  li : Spectrum α
  pdf : α
  vis : VisibilityTester α

/-- The trait `Light`, /repo/src/light.rs:13-22, without `pre_process`.  `none` is a panic. -/
structure Light (α : Type) where
  isDelta : Bool
  sampleLi : Interaction α → V2 α → Option (LightSample α)
  pdfLi : Interaction α → V3 α → α

/-- `Arc<Light>`: a light behind a pointer. -/
structure LightObj (α : Type) where
  addr : Nat
  light : Light α

/-- /repo/src/light.rs:35-40 -/
structure DistantLight (α : Type) where
  l : Spectrum α
  wLight : V3 α
  worldCenter : V3 α
  worldRadius : α

namespace DistantLight
/-- /repo/src/light.rs:43-50 -/
def new (l : Spectrum α) (wLight : V3 α) : DistantLight α := ⟨l, wLight.normalize, V3.zero, lit 0⟩

/-- /repo/src/light.rs:58-62 -/
def preProcess (d : DistantLight α) (sceneBBox : BBox3 α) : DistantLight α :=
  let s := sceneBBox.boundingSphere
  { d with worldCenter := s.1, worldRadius := s.2 }

/-- /repo/src/light.rs:64-74 -/
def sampleLi (d : DistantLight α) (refI : Interaction α) (_sample : V2 α) : LightSample α :=
  { wi := d.wLight, li := d.l, pdf := lit 1
    vis := ⟨refI, { Interaction.default with p := refI.p.add (d.wLight.smul (lit 2 *. d.worldRadius)) }⟩ }

/-- /repo/src/light.rs:53-79 -/
def toLight (d : DistantLight α) : Light α := ⟨true, fun i u => some (d.sampleLi i u), fun _ _ => lit 0⟩
end DistantLight

/-- /repo/src/light.rs:81-84 -/
structure AreaLight (α : Type) where
  l : Spectrum α
  shape : Shape α

namespace AreaLight
/-- `Shape::l` of an area light, /repo/src/light.rs:128-134 -/
def emitted (a : AreaLight α) (i : Interaction α) (w : V3 α) : Spectrum α :=
  if w.dot i.n >. lit 0 then a.l else Spectrum.zero

/-- /repo/src/light.rs:95-135 -/
def toShape (a : AreaLight α) : Shape α :=
  { bbox := a.shape.bbox
    area := a.shape.area
    intersectP := a.shape.intersectP
    intersect := a.shape.intersect
    material := a.shape.material
    sample := a.shape.sample
    sampleRef := a.shape.sampleRef
    pdf := a.shape.pdf
    l := a.emitted }

/-- /repo/src/light.rs:142-152 -/
def sampleLi (a : AreaLight α) (refI : Interaction α) (u : V2 α) : Option (LightSample α) :=
  (a.shape.sampleRef refI u).map fun pShape =>
    let wi := (pShape.p.sub refI.p).normalize
    { wi, li := a.emitted pShape wi.neg, pdf := a.shape.pdf refI wi, vis := ⟨refI, pShape⟩ }

/-- /repo/src/light.rs:137-157 -/
def toLight (a : AreaLight α) : Light α := ⟨false, a.sampleLi, a.shape.pdf⟩
end AreaLight

end PT
