import Verif.Model.Reflection
import Verif.Model.Fresnel
import Verif.Model.Sampling

/-! # /repo/src/microfacet.rs and the components /repo/src/bxdf_*.rs -/

namespace PT
variable {α : Type} [Scalar α] [Libm α]

/-- /repo/src/microfacet.rs:7-10 -/
structure Microfacet (α : Type) where
  ax : α
  ay : α

namespace Microfacet
/-- /repo/src/microfacet.rs:17-27 -/
def d (m : Microfacet α) (wh : V3 α) : α :=
  let t2 := tan2Theta wh
  if Scalar.isInf t2 then lit 0
  else
    let cos4 := cos2Theta wh *. cos2Theta wh
    let e := (cos2Phi wh /. (m.ax *. m.ax) +. sin2Phi wh /. (m.ay *. m.ay)) *. t2
    lit 1 /. (Libm.pi *. m.ax *. m.ay *. cos4 *. ((lit 1 +. e) *. (lit 1 +. e)))

/-- /repo/src/microfacet.rs:30-38 -/
def lambda (m : Microfacet α) (w : V3 α) : α :=
  let t := Scalar.abs (tanTheta w)
  if Scalar.isInf t then lit 0
  else
    let alpha := Libm.sqrt (cos2Phi w *. (m.ax *. m.ax) +. sin2Phi w *. (m.ay *. m.ay))
    let a2 := (alpha *. t) *. (alpha *. t)
    (⊖(lit 1) +. Libm.sqrt (lit 1 +. a2)) *. lit (1 / 2)

/-- /repo/src/microfacet.rs:40-42 -/
def g1 (m : Microfacet α) (w : V3 α) : α := lit 1 /. (lit 1 +. m.lambda w)

/-- /repo/src/microfacet.rs:44-46 -/
def g (m : Microfacet α) (wo wi : V3 α) : α := lit 1 /. (lit 1 +. m.lambda wo +. m.lambda wi)

/-- /repo/src/microfacet.rs:48-76 -/
def sampleWh (m : Microfacet α) (wo : V3 α) (sample : V2 α) : V3 α :=
  let (cosT, phi) :=
    if m.ax ==. m.ay then
      let t2 := m.ax *. m.ax *. sample.x /. (lit 1 -. sample.x)
      (lit 1 /. Libm.sqrt (lit 1 +. t2), Libm.pi *. lit 2 *. sample.y)
    else
      let phi := Libm.atan (m.ay /. m.ax *.
        Libm.tan (lit 2 *. Libm.pi *. sample.y +. lit (1 / 2) *. Libm.pi))
      let phi := if sample.y >. lit (1 / 2) then phi +. Libm.pi else phi
      let sinPhi := Libm.sin phi
      let cosPhi := Libm.cos phi
      let a2 := lit 1 /. (cosPhi *. cosPhi /. (m.ax *. m.ax) +. sinPhi *. sinPhi /. (m.ay *. m.ay))
      let t2 := a2 *. sample.x /. (lit 1 -. sample.x)
      (lit 1 /. Libm.sqrt (lit 1 +. t2), phi)
  let sinT := Libm.sqrt (Scalar.fmax (lit 1 -. cosT *. cosT) (lit 0))
  let wh := V3.fromSphericalDirection sinT cosT phi
  if !sameHemisphere wo wh then wh.smul ⊖(lit 1) else wh

/-- /repo/src/microfacet.rs:78-80 -/
def pdf (m : Microfacet α) (_wo wh : V3 α) : α := m.d wh /. absCosTheta wh
end Microfacet

/-- `Default::default()` of the result of `BxDF::sample_f`. -/
def noLocalSample : V3 α × Spectrum α × α := (V3.zero, Spectrum.zero, lit 0)

namespace Lambertian
/-- /repo/src/bxdf_lambertian_reflection.rs:36-42 -/
def pdf (wo wi : V3 α) : α := if sameHemisphere wo wi then absCosTheta wi /. Libm.pi else lit 0
/-- /repo/src/bxdf_lambertian_reflection.rs:23-25 -/
def f (r : Spectrum α) (_wo _wi : V3 α) : Spectrum α := r.sdiv Libm.pi
/-- /repo/src/bxdf_lambertian_reflection.rs:27-34 -/
def sampleF (r : Spectrum α) (wo : V3 α) (sample : V2 α) : V3 α × Spectrum α × α :=
  let w := cosineSampleHemisphere sample
  let wi : V3 α := if wo.z <. lit 0 then ⟨w.x, w.y, w.z *. ⊖(lit 1)⟩ else w
  (wi, f r wo wi, pdf wo wi)
end Lambertian

/-- /repo/src/bxdf_lambertian_reflection.rs:8-43 -/
def lambertianReflection (r : Spectrum α) : BxDF α where
  flag := REFLECTION ||| DIFFUSE
  f := Lambertian.f r
  sampleF := Lambertian.sampleF r
  pdf := Lambertian.pdf

/-- /repo/src/bxdf_specular_reflection.rs:6-36 -/
def specularReflection (r : Spectrum α) (fresnel : Fresnel α) : BxDF α where
  flag := REFLECTION ||| SPECULAR
  f := fun _ _ => Spectrum.zero
  sampleF := fun wo _ =>
    let wi : V3 α := ⟨⊖wo.x, ⊖wo.y, wo.z⟩
    (wi, (r.mul (fresnel (cosTheta wi))).sdiv (absCosTheta wi), lit 1)
  pdf := fun _ _ => lit 0

/-- /repo/src/bxdf_specular_transmission.rs:6-61 -/
def specularTransmission (t : Spectrum α) (etaA etaB : α) : BxDF α where
  flag := TRANSMISSION ||| SPECULAR
  f := fun _ _ => Spectrum.zero
  sampleF := fun wo _ =>
    let (etaI, etaT) := if cosTheta wo >. lit 0 then (etaA, etaB) else (etaB, etaA)
    let n : V3 α := if wo.z >. lit 0 then ⟨lit 0, lit 0, lit 1⟩ else ⟨lit 0, lit 0, ⊖(lit 1)⟩
    match refract wo n (etaI /. etaT) with
    | none => noLocalSample
    | some wi =>
      let f := (t.mul ((Spectrum.of (lit 1)).sub (fresnelDielectric etaA etaB (cosTheta wi)))).sdiv
        (absCosTheta wi)
      let f := (f.smul (etaI *. etaI)).sdiv (etaT *. etaT)
      (wi, f, lit 1)
  pdf := fun _ _ => lit 0

namespace MicrofacetReflection
/-- /repo/src/bxdf_microfacet_reflection.rs:25-44 -/
def f (r : Spectrum α) (m : Microfacet α) (fresnel : Fresnel α) (wo wi : V3 α) : Spectrum α :=
  let co := absCosTheta wo
  let ci := absCosTheta wi
  if (co ==. lit 0) || (ci ==. lit 0) then Spectrum.zero
  else
    let wh := wo.add wi
    if (wh.x ==. lit 0) && (wh.y ==. lit 0) && (wh.z ==. lit 0) then Spectrum.zero
    else
      let wh := wh.normalize
      (((r.smul (m.d wh)).smul (m.g wo wi)).mul (fresnel (wh.dot wi))).sdiv (lit 4 *. co *. ci)
/-- /repo/src/bxdf_microfacet_reflection.rs:63-69 -/
def pdf (m : Microfacet α) (wo wi : V3 α) : α :=
  if !sameHemisphere wo wi then lit 0
  else
    let wh := (wo.add wi).normalize
    m.pdf wo wh /. (wh.dot wo *. lit 4)
/-- /repo/src/bxdf_microfacet_reflection.rs:46-61 -/
def sampleF (r : Spectrum α) (m : Microfacet α) (fresnel : Fresnel α) (wo : V3 α) (sample : V2 α) :
    V3 α × Spectrum α × α :=
  if wo.z ==. lit 0 then noLocalSample
  else
    let wh := m.sampleWh wo sample
    let wi := reflect wo wh
    if !sameHemisphere wo wi then noLocalSample
    else (wi, f r m fresnel wo wi, m.pdf wo wh /. (wh.dot wo *. lit 4))
end MicrofacetReflection

/-- /repo/src/bxdf_microfacet_reflection.rs:8-70 -/
def microfacetReflection (r : Spectrum α) (m : Microfacet α) (fresnel : Fresnel α) : BxDF α where
  flag := REFLECTION ||| GLOSSY
  f := MicrofacetReflection.f r m fresnel
  sampleF := MicrofacetReflection.sampleF r m fresnel
  pdf := MicrofacetReflection.pdf m

namespace MicrofacetTransmission
/-- /repo/src/bxdf_microfacet_transmission.rs:33-59 -/
def f (t : Spectrum α) (etaA etaB : α) (m : Microfacet α) (wo wi : V3 α) : Spectrum α :=
  if sameHemisphere wo wi then Spectrum.zero
  else
    let co := cosTheta wo
    let ci := cosTheta wi
    if (co ==. lit 0) || (ci ==. lit 0) then Spectrum.zero
    else
      let eta := if co >. lit 0 then etaB /. etaA else etaA /. etaB
      let wh := (wo.add (wi.smul eta)).normalize
      let wh := if wh.z <. lit 0 then wh.smul ⊖(lit 1) else wh
      let fr := fresnelDielectric etaA etaB (wh.dot wo)
      let den := wo.dot wh +. wi.dot wh *. eta
      ((((((t.smul (m.d wh)).smul (m.g wo wi)).mul (fr.neg.sadd (lit 1))).smul
        (Scalar.abs (wi.dot wh))).smul (Scalar.abs (wo.dot wh))).sdiv (den *. den *. co *. ci)).abs
/-- /repo/src/bxdf_microfacet_transmission.rs:84-99 -/
def pdf (etaA etaB : α) (m : Microfacet α) (wo wi : V3 α) : α :=
  if sameHemisphere wo wi then lit 0
  else
    let eta := if cosTheta wo >. lit 0 then etaB /. etaA else etaA /. etaB
    let wh := (wo.add (wi.smul eta)).normalize
    let sqrtDenom := wo.dot wh +. wi.dot wh *. eta
    let dwhDwi := Scalar.abs (wi.dot wh *. eta *. eta /. (sqrtDenom *. sqrtDenom))
    m.pdf wo wh *. dwhDwi
/-- /repo/src/bxdf_microfacet_transmission.rs:61-82 -/
def sampleF (t : Spectrum α) (etaA etaB : α) (m : Microfacet α) (wo : V3 α) (sample : V2 α) :
    V3 α × Spectrum α × α :=
  if wo.z ==. lit 0 then noLocalSample
  else
    let wh := m.sampleWh wo sample
    let eta := if cosTheta wo >. lit 0 then etaA /. etaB else etaB /. etaA
    match refract wo wh eta with
    | none => noLocalSample
    | some wi => (wi, f t etaA etaB m wo wi, pdf etaA etaB m wo wi)
end MicrofacetTransmission

/-- /repo/src/bxdf_microfacet_transmission.rs:8-100 -/
def microfacetTransmission (t : Spectrum α) (etaA etaB : α) (m : Microfacet α) : BxDF α where
  flag := TRANSMISSION ||| GLOSSY
  f := MicrofacetTransmission.f t etaA etaB m
  sampleF := MicrofacetTransmission.sampleF t etaA etaB m
  pdf := MicrofacetTransmission.pdf etaA etaB m

end PT
