import Verif.Model.BxDFs
import Verif.Model.Texture

/-!
# /repo/src/material*.rs

The trait `Material` (material.rs:4-6) has one method and is modelled as that function.  A texture
(texture.rs:8-22) is the function `evaluate`.
-/

namespace PT
variable {α : Type} [Scalar α] [Libm α]

/-- The trait, /repo/src/material.rs:4-6 -/
abbrev Material (α : Type) := Interaction α → BSDF α

/-- A texture: its `evaluate` method. -/
abbrev TextureOf (α β : Type) := Interaction α → β

variable [HasInf α]

/-- `texture.evaluate(i).clamp(0., INFINITY)` (each material's `compute_scattering`). -/
def clampedTex (k : TextureOf α (Spectrum α)) (i : Interaction α) : Spectrum α :=
  (k i).clamp (lit 0) HasInf.infinity

/-- /repo/src/material_lambertian_reflection.rs:10-29 -/
def lambertianMaterial (kd : TextureOf α (Spectrum α)) : Material α := fun i =>
  let r := clampedTex kd i
  let b := BSDF.new i
  if r.isBlack then b else b.add (lambertianReflection r)

/-- /repo/src/material_mirror.rs:11-30 -/
def mirrorMaterial (kr : TextureOf α (Spectrum α)) : Material α := fun i =>
  let r := clampedTex kr i
  let b := BSDF.new i
  if r.isBlack then b else b.add (specularReflection r fresnelNoOp)

/-- /repo/src/material_metal.rs:14-49 -/
def metalMaterial (r eta k : TextureOf α (Spectrum α)) (roughU roughV : TextureOf α α) : Material α :=
  fun i =>
  let b := BSDF.new i
  let r := clampedTex r i
  let fresnel := fresnelConductor (Spectrum.of (lit 1)) (eta i) (k i)
  if (roughU i ==. lit 0) && (roughV i ==. lit 0) then b.add (specularReflection r fresnel)
  else b.add (microfacetReflection r ⟨roughU i, roughV i⟩ fresnel)

/-- /repo/src/material_glass.rs:15-60 -/
def glassMaterial (kr kt : TextureOf α (Spectrum α)) (eta roughU roughV : TextureOf α α) : Material α :=
  fun i =>
  let b := BSDF.new i
  let eta := eta i
  let r := clampedTex kr i
  let t := clampedTex kt i
  let ru := roughU i
  let rv := roughV i
  if (ru ==. lit 0) && (rv ==. lit 0) then
    let b := if r.isBlack then b else b.add (specularReflection r (fresnelDielectric (lit 1) eta))
    if t.isBlack then b else b.add (specularTransmission t (lit 1) eta)
  else
    let b := if r.isBlack then b
      else b.add (microfacetReflection r ⟨ru, rv⟩ (fresnelDielectric (lit 1) eta))
    if t.isBlack then b else b.add (microfacetTransmission t (lit 1) eta ⟨ru, rv⟩)

/-- /repo/src/material_plastic.rs:14-50 -/
def plasticMaterial (kd ks : TextureOf α (Spectrum α)) (rough : TextureOf α α) : Material α := fun i =>
  let d := clampedTex kd i
  let s := clampedTex ks i
  let b := BSDF.new i
  let b := if d.isBlack then b else b.add (lambertianReflection d)
  if s.isBlack then b
  else
    let fresnel := fresnelDielectric (lit (3 / 2)) (lit 1)
    if rough i ==. lit 0 then b.add (specularReflection s fresnel)
    else b.add (microfacetReflection s ⟨rough i, rough i⟩ fresnel)

end PT
