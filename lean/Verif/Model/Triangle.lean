import Verif.Model.Shape

/-!
# /repo/src/shape_triangle.rs

`intersect_p` and `intersect` duplicate the first part of the computation in the source; so does the model.
Where a loop runs over the three vertices, the model applies the body to each.
-/

namespace PT

variable {α : Type} [Scalar α] [Libm α]

/-- /repo/src/shape_triangle.rs:11-17 -/
structure Triangle (α : Type) where
  v0 : V3 α
  v1 : V3 α
  v2 : V3 α
  vertexNormals : Option (V3 α × V3 α × V3 α)
  reverseOrientation : Bool
  material : Material α

namespace Triangle

/-- /repo/src/shape_triangle.rs:24-51.  `none` is an index panic. -/
def newTriangleMesh (vertices : List (V3 α)) (indices : List (Nat × Nat × Nat)) (vertexNormals : Option (List (V3 α)))
    (vertexNormalIndices : Option (List (Nat × Nat × Nat))) (material : Material α) : Option (List (Triangle α)) :=
  let vertexNormals := vertexNormals.getD []
  let vertexNormalIndices := vertexNormalIndices.getD []
  let hasVertexNormals := vertexNormalIndices.length >= indices.length
  (List.range indices.length).mapM fun i => do
    let vi ← indices[i]?
    let v0 ← vertices[vi.1]?
    let v1 ← vertices[vi.2.1]?
    let v2 ← vertices[vi.2.2]?
    let vn ← if hasVertexNormals then do
        let vni ← vertexNormalIndices[i]?
        let n0 ← vertexNormals[vni.1]?
        let n1 ← vertexNormals[vni.2.1]?
        let n2 ← vertexNormals[vni.2.2]?
        pure (some (n0, n1, n2))
      else pure none
    pure ⟨v0, v1, v2, vn, false, material⟩

/-- /repo/src/shape_triangle.rs:53-59 -/
def getUv : V2 α × V2 α × V2 α := (⟨lit 0, lit 0⟩, ⟨lit 1, lit 0⟩, ⟨lit 1, lit 1⟩)

/-- /repo/src/shape_triangle.rs:63-66 -/
def bbox (s : Triangle α) : BBox3 α := (BBox3.new s.v0 s.v1).unionPoint s.v2

/-- /repo/src/shape_triangle.rs:68-70 -/
def area (s : Triangle α) : α := lit (1 / 2) *. ((s.v1.sub s.v0).cross (s.v2.sub s.v0)).length

/-- The body of the loop over the vertices, /repo/src/shape_triangle.rs:84-89, 150-155 -/
def shear (origin : V3 α) (px py pz : Axis) (sx sy : α) (p : V3 α) : V3 α :=
  let p := p.add origin.neg
  let p := p.permute px py pz
  ⟨p.x +. p.z *. sx, p.y +. p.z *. sy, p.z⟩

/-- /repo/src/shape_triangle.rs:72-136.  `none` is the panic of `max_abs_axis` (direction with NaN). -/
def intersectP (s : Triangle α) (ray : Ray α) : Option Bool := do
  let maxAxis ← ray.direction.maxAbsAxis
  let px := maxAxis.prev
  let py := maxAxis.next
  let pz := maxAxis
  let d := ray.direction.permute px py pz
  let sx := ⊖d.x /. d.z
  let sy := ⊖d.y /. d.z
  let sz := lit 1 /. d.z
  let a := shear ray.origin px py pz sx sy s.v0
  let b := shear ray.origin px py pz sx sy s.v1
  let c := shear ray.origin px py pz sx sy s.v2
  let e0 := b.x *. c.y -. b.y *. c.x
  let e1 := c.x *. a.y -. c.y *. a.x
  let e2 := a.x *. b.y -. a.y *. b.x
  if (e0 <. lit 0 || e1 <. lit 0 || e2 <. lit 0) && (e0 >. lit 0 || e1 >. lit 0 || e2 >. lit 0) then some false
  else
  let det := e0 +. e1 +. e2
  if det ==. lit 0 then some false
  else
  let az := a.z *. sz
  let bz := b.z *. sz
  let cz := c.z *. sz
  let tScaled := az *. e0 +. bz *. e1 +. cz *. e2
  if (det <. lit 0 && (tScaled <. ray.tMax *. det || lit 0 <=. tScaled))
      || (det >. lit 0 && (tScaled <=. lit 0 || ray.tMax *. det <. tScaled)) then some false
  else
  let t := tScaled /. det
  let maxX := (V3.mk a.x b.x c.x).abs.maxComponent
  let maxY := (V3.mk a.y b.y c.y).abs.maxComponent
  let maxZ := (V3.mk az bz cz).abs.maxComponent
  let deltaX := maxX *. gamma (lit 5)
  let deltaY := maxY *. gamma (lit 5)
  let deltaZ := maxZ *. gamma (lit 3)
  let deltaE := (gamma (lit 2) *. maxX *. maxY +. maxX *. deltaY +. maxY *. deltaX) *. lit 2
  let maxE := (V3.mk e0 e1 e2).abs.maxComponent
  let deltaT := lit 3 *. (gamma (lit 3) *. maxE *. maxZ +. maxZ *. deltaE +. maxE *. deltaZ) /. Scalar.abs det
  if t <=. deltaT then some false else some true

/-- `dpdu` and `dpdv` before shading, /repo/src/shape_triangle.rs:214-228 -/
def partials (s : Triangle α) : V3 α × V3 α :=
  let uv : V2 α × V2 α × V2 α := getUv
  let duv02 := uv.1.sub uv.2.2
  let duv12 := uv.2.1.sub uv.2.2
  let dp02 := s.v0.sub s.v2
  let dp12 := s.v1.sub s.v2
  let det := duv02.x *. duv12.y -. duv02.y *. duv12.x
  if Scalar.abs det <. epsilon then
    ((s.v2.sub s.v0).cross (s.v1.sub s.v0)).normalize.constructCoordinateSystem
  else
    (((dp02.smul duv12.y).sub (dp12.smul duv02.y)).sdiv det,
     ((dp02.smul ⊖duv12.x).add (dp12.smul duv02.x)).sdiv det)

/-- Shading normal and tangents, /repo/src/shape_triangle.rs:235-260: `(sn, dpdu, dpdv)`. -/
def shading (s : Triangle α) (b0 b1 b2 : α) (n dpdu dpdv : V3 α) : V3 α × V3 α × V3 α :=
  match s.vertexNormals with
  | some (n0, n1, n2) =>
    let sn := ((n0.smul b0).add (n1.smul b1)).add (n2.smul b2)
    let len := sn.length
    let sn := if len >=. lit 0 then sn.sdiv len else n
    let dpdu := dpdu.normalize
    let dpdv := dpdu.cross sn
    let len := dpdv.length
    if len >. lit 0 then
      let dpdv := dpdv.sdiv len
      (sn, dpdv.cross sn, dpdv)
    else
      let f := sn.constructCoordinateSystem
      (sn, f.1, f.2)
  | none => (n, dpdu, dpdv)

/-- The interaction at barycentric coordinates `b0 b1 b2`, /repo/src/shape_triangle.rs:206-280 -/
def interactionAt (s : Triangle α) (direction : V3 α) (b0 b1 b2 : α) : Interaction α :=
  let p := ((s.v0.smul b0).add (s.v1.smul b1)).add (s.v2.smul b2)
  let pAbsSum := ((s.v0.smul b0).abs.add (s.v1.smul b1).abs).add (s.v2.smul b2).abs
  let pErr := pAbsSum.smul (gamma (lit 7))
  let uv : V2 α × V2 α × V2 α := getUv
  let dp02 := s.v0.sub s.v2
  let dp12 := s.v1.sub s.v2
  let (dpdu, dpdv) := s.partials
  let uvHit : V2 α := ⟨uv.1.x *. b0 +. uv.2.1.x *. b1 +. uv.2.2.x *. b2, uv.1.y *. b0 +. uv.2.1.y *. b1 +. uv.2.2.y *. b2⟩
  let n := (dp02.cross dp12).normalize
  let (sn, dpdu, dpdv) := s.shading b0 b1 b2 n dpdu dpdv
  let sn := if s.reverseOrientation then sn.smul ⊖(lit 1) else sn
  let n := if n.dot sn <. lit 0 then n.smul ⊖(lit 1) else n
  { p, pErr, uv := uvHit, n, sn, dpdu, dpdv, wo := direction.neg }

/-- /repo/src/shape_triangle.rs:138-283.  `none` is the panic of `max_abs_axis`. -/
def intersect (s : Triangle α) (ray : Ray α) : Option (Option (Interaction α × α)) := do
  let maxAxis ← ray.direction.maxAbsAxis
  let px := maxAxis.prev
  let py := maxAxis.next
  let pz := maxAxis
  let d := ray.direction.permute px py pz
  let sx := ⊖d.x /. d.z
  let sy := ⊖d.y /. d.z
  let sz := lit 1 /. d.z
  let a := shear ray.origin px py pz sx sy s.v0
  let b := shear ray.origin px py pz sx sy s.v1
  let c := shear ray.origin px py pz sx sy s.v2
  let e0 := b.x *. c.y -. b.y *. c.x
  let e1 := c.x *. a.y -. c.y *. a.x
  let e2 := a.x *. b.y -. a.y *. b.x
  if (e0 <. lit 0 || e1 <. lit 0 || e2 <. lit 0) && (e0 >. lit 0 || e1 >. lit 0 || e2 >. lit 0) then some none
  else
  let det := e0 +. e1 +. e2
  if det ==. lit 0 then some none
  else
  let az := a.z *. sz
  let bz := b.z *. sz
  let cz := c.z *. sz
  let tScaled := az *. e0 +. bz *. e1 +. cz *. e2
  if (det <. lit 0 && (tScaled <. ray.tMax *. det || lit 0 <=. tScaled))
      || (det >. lit 0 && (tScaled <=. lit 0 || ray.tMax *. det <. tScaled)) then some none
  else
  let b0 := e0 /. det
  let b1 := e1 /. det
  let b2 := e2 /. det
  let t := tScaled /. det
  let maxX := (V3.mk a.x b.x c.x).abs.maxComponent
  let maxY := (V3.mk a.y b.y c.y).abs.maxComponent
  let maxZ := (V3.mk az bz cz).abs.maxComponent
  let deltaX := maxX *. gamma (lit 5)
  let deltaY := maxY *. gamma (lit 5)
  let deltaZ := maxZ *. gamma (lit 3)
  let deltaE := (gamma (lit 2) *. maxX *. maxY +. maxX *. deltaY +. maxY *. deltaX) *. lit 2
  let maxE := (V3.mk e0 e1 e2).abs.maxComponent
  let deltaT := lit 3 *. (gamma (lit 3) *. maxE *. maxZ +. maxZ *. deltaE +. maxE *. deltaZ) /. Scalar.abs det
  if t <=. deltaT then some none else some (some (s.interactionAt ray.direction b0 b1 b2, t))

/-- /repo/src/shape_triangle.rs:289-318 -/
def sample (s : Triangle α) (u : V2 α) : Interaction α :=
  let sample0 := Libm.sqrt u.x
  let b0 := lit 1 -. sample0
  let b1 := u.y *. sample0
  let b2 := lit 1 -. b0 -. b1
  let p := ((s.v0.smul b0).add (s.v1.smul b1)).add (s.v2.smul b2)
  let pAbsSum := ((s.v0.smul b0).abs.add (s.v1.smul b1).abs).add (s.v2.smul b2).abs
  let pErr := pAbsSum.smul (gamma (lit 7))
  let n := ((s.v1.sub s.v0).cross (s.v2.sub s.v0)).normalize
  let n := if s.reverseOrientation then n.smul ⊖(lit 1) else n
  { Interaction.default with p, pErr, n }

/-- /repo/src/shape_triangle.rs:62-319 -/
def toShape (s : Triangle α) : Shape α :=
  Shape.withDefaults s.bbox s.area s.intersectP s.intersect s.material (fun u => some (s.sample u))

end Triangle
end PT
