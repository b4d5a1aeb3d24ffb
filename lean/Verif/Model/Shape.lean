import Verif.Model.BBox3
import Verif.Model.Material

/-!
# /repo/src/shape.rs and `BBox3f::bbox_of_shapes`

A shape is the record of the methods of the trait.  Methods that can panic return an `Option`
(`none` is a panic).  `Arc<Shape>` is an `Obj`: the shape and the address that identifies it.
-/

namespace PT

/-- The trait `Shape`, /repo/src/shape.rs:11-42.  `material` stands for `compute_scattering`
(shape.rs:23-27).  `intersect` returns the interaction without its `shape` field (as documented there). -/
structure Shape (α : Type) where
  bbox : BBox3 α
  area : α
  intersectP : Ray α → Option Bool
  intersect : Ray α → Option (Option (Interaction α × α))
  material : Material α
  sample : V2 α → Option (Interaction α)
  sampleRef : Interaction α → V2 α → Option (Interaction α)
  pdf : Interaction α → V3 α → α
  l : Interaction α → V3 α → Spectrum α

/-- `Arc<Shape>`: a shape behind a pointer. -/
structure Obj (α : Type) where
  addr : Nat
  shape : Shape α

/-- The interaction returned by a container: its `shape` field is always set,
/repo/src/shape.rs:46-53, interaction.rs:22. -/
structure Hit (α : Type) where
  i : Interaction α
  obj : Obj α

variable {α : Type} [Scalar α]

/-- The provided methods of the trait: `sample_ref`, `pdf`, `l`, /repo/src/shape.rs:31-41. -/
def Shape.withDefaults (bbox : BBox3 α) (area : α) (intersectP : Ray α → Option Bool)
    (intersect : Ray α → Option (Option (Interaction α × α))) (material : Material α)
    (sample : V2 α → Option (Interaction α)) : Shape α :=
  { bbox, area, intersectP, intersect, material, sample
    sampleRef := fun _ u => sample u
    pdf := fun _ _ => lit 1 /. area
    l := fun _ _ => Spectrum.zero }

/-- The free function `intersect`, /repo/src/shape.rs:46-53: the new ray and the hit. -/
def Obj.intersect (s : Obj α) (ray : Ray α) : Option (Ray α × Option (Hit α)) :=
  (s.shape.intersect ray).map fun r => r.elim (ray, none) fun x => ({ ray with tMax := x.2 }, some ⟨x.1, s⟩)

/-- /repo/src/bbox.rs:25-27; `none` is the panic of `shapes[1..]` on an empty slice. -/
def bboxOfShapes : List (Obj α) → Option (BBox3 α)
  | [] => none
  | s :: ss => some (ss.foldl (fun b s => b.union s.shape.bbox) s.shape.bbox)

/-- `for shape in shapes { if shape.intersect_p(ray) { return true } }`,
/repo/src/container_simple.rs:31-37, container_kdtree.rs:258-269 -/
def anyHit (ray : Ray α) : List (Obj α) → Option Bool
  | [] => some false
  | s :: ss => (s.shape.intersectP ray).bind fun b => if b then some true else anyHit ray ss

/-- `for shape in shapes { let i = intersect(shape, &mut ray); if i.is_some() { interaction = i } }`,
/repo/src/container_simple.rs:48-53, container_kdtree.rs:341-354 -/
def closestHit : List (Obj α) → Ray α → Option (Hit α) → Option (Ray α × Option (Hit α))
  | [], ray, h => some (ray, h)
  | s :: ss, ray, h => (s.intersect ray).bind fun r => closestHit ss r.1 (if r.2.isSome then r.2 else h)

/-- The trait `Container`, /repo/src/container.rs:6-12. -/
structure Container (α : Type) where
  bbox : BBox3 α
  intersectP : Ray α → Option Bool
  intersect : Ray α → Option (Option (Hit α))

/-- /repo/src/container_simple.rs:9-20 -/
structure Simple (α : Type) where
  shapes : List (Obj α)
  bbox : BBox3 α

namespace Simple
/-- /repo/src/container_simple.rs:15-18 -/
def new (shapes : List (Obj α)) : Option (Simple α) := (bboxOfShapes shapes).map fun b => ⟨shapes, b⟩
/-- /repo/src/container_simple.rs:26-38 -/
def intersectP (c : Simple α) (ray : Ray α) : Option Bool :=
  if (c.bbox.intersect ray).isNone then some false else anyHit ray c.shapes
/-- /repo/src/container_simple.rs:40-56 -/
def intersect (c : Simple α) (ray : Ray α) : Option (Option (Hit α)) :=
  if (c.bbox.intersect ray).isNone then some none
  else (closestHit c.shapes ray none).map (·.2)
/-- /repo/src/container_simple.rs:21-57 -/
def toContainer (c : Simple α) : Container α := ⟨c.bbox, c.intersectP, c.intersect⟩
end Simple

end PT
