import Verif.Model.Scene
import Verif.Model.Camera
import Verif.Model.Sampler
import Verif.Model.Sampling

/-!
# The path integrator, /repo/src/integrator.rs:120-230

`li` is a program that draws samples and asks the scene.  One definition of the code serves two purposes: run in a
scene it gives the radiance (`Prog.run`), and the questions it can ask, whatever the answers, can be counted
(`Prog.AtMost`).
-/

namespace PT

/-- What a closest-hit query is for (used only to count). -/
inductive Why where
  /-- the next vertex of the path, integrator.rs:195 -/
  | path
  /-- to find the light, integrator.rs:161 -/
  | light

/-- A computation that may draw sample values, query the scene, make scattering functions and panic. -/
inductive Prog (α β : Type) where
  | ret : β → Prog α β
  | panic : Prog α β
  | get1 : (α → Prog α β) → Prog α β
  | get2 : (V2 α → Prog α β) → Prog α β
  | hit : Why → Ray α → (Option (Hit α) → Prog α β) → Prog α β
  | occluded : Ray α → (Bool → Prog α β) → Prog α β
  | scatter : Hit α → (BSDF α → Prog α β) → Prog α β

namespace Prog
variable {α β γ : Type}

/-- Sequencing. -/
def bind : Prog α β → (β → Prog α γ) → Prog α γ
  | ret b, f => f b
  | panic, _ => panic
  | get1 k, f => get1 fun x => (k x).bind f
  | get2 k, f => get2 fun x => (k x).bind f
  | hit w r k, f => hit w r fun x => (k x).bind f
  | occluded r k, f => occluded r fun x => (k x).bind f
  | scatter h k, f => scatter h fun x => (k x).bind f

instance : Monad (Prog α) where
  pure := ret
  bind := bind

/-- A computation that cannot go on without a value panics. -/
def ofOption : Option β → Prog α β
  | none => panic
  | some b => ret b

/-- Run in a scene: what is left are the draws of samples.  `shape.compute_scattering(i)` is the shape's material,
/repo/src/interaction.rs:64-70, shape.rs:25-27. -/
def run (scene : Scene α) : Prog α β → Draw α β
  | ret b => .ret b
  | panic => .panic
  | get1 k => .get1 fun x => (k x).run scene
  | get2 k => .get2 fun x => (k x).run scene
  | hit _ r k => match scene.intersect r with
    | none => .panic
    | some x => (k x).run scene
  | occluded r k => match scene.intersectP r with
    | none => .panic
    | some x => (k x).run scene
  | scatter h k => (k (h.obj.shape.material h.i)).run scene
end Prog

variable {α : Type} [Scalar α] [Libm α] [HasInf α] [HasNext α]

/-- /repo/src/integrator.rs:21 -/
def MAX_BOUNCES : Nat := 64

/-- `Interaction::le`, /repo/src/interaction.rs:72-78 -/
def Hit.le (h : Hit α) (w : V3 α) : Spectrum α := h.obj.shape.l h.i w

/-- "sample light", /repo/src/integrator.rs:126-143: `ld` afterwards. -/
def directFromLight (light : LightObj α) (i : Interaction α) (bsdf : BSDF α) (sample0 : V2 α) : Prog α (Spectrum α) := do
  let s ← Prog.ofOption (light.light.sampleLi i sample0)
  if s.pdf >. lit 0 && !s.li.isBlack then
    let f := (bsdf.f i.wo s.wi).smul (Scalar.abs (s.wi.dot i.sn))
    let scatteringPdf := bsdf.pdf i.wo s.wi
    if !f.isBlack then
      let occ ← Prog.occluded s.vis.ray .ret
      if !occ then
        if light.light.isDelta then pure (Spectrum.zero.add ((f.mul s.li).sdiv s.pdf))
        else
          let weight := powerHeuristic 1 s.pdf 1 scatteringPdf
          pure (Spectrum.zero.add (((f.mul s.li).smul weight).sdiv s.pdf))
      else pure Spectrum.zero
    else pure Spectrum.zero
  else pure Spectrum.zero

/-- "sample BSDF", /repo/src/integrator.rs:145-173: the result of `estimate_direct`, given `ld`. -/
def directFromBsdf (light : LightObj α) (i : Interaction α) (bsdf : BSDF α) (sample1 : V2 α) (ld : Spectrum α) :
    Prog α (Spectrum α) := do
  if !light.light.isDelta then
    let (wi, f, scatteringPdf, flag) ← Prog.ofOption (bsdf.sampleF i.wo sample1)
    let f := f.smul (Scalar.abs (wi.dot i.sn))
    let sampledSpecular := flag &&& SPECULAR != 0
    if scatteringPdf >. lit 0 && !f.isBlack then
      let lightPdf := light.light.pdfLi i wi
      if !sampledSpecular && (lightPdf ==. lit 0) then pure ld
      else
        let weight := if !sampledSpecular then powerHeuristic 1 scatteringPdf 1 lightPdf else lit 1
        let lightI ← Prog.hit .light (i.spawnRay wi) .ret
        match lightI with
        | some h =>
          let li := if h.obj.addr = light.addr then h.le wi.neg else Spectrum.zero
          pure (ld.add (((f.mul li).smul weight).sdiv scatteringPdf))
        | none => pure ld
    else pure ld
  else pure ld

/-- /repo/src/integrator.rs:120-174 -/
def estimateDirect (light : LightObj α) (i : Interaction α) (bsdf : BSDF α) : Prog α (Spectrum α) := do
  let sample0 ← Prog.get2 .ret
  let sample1 ← Prog.get2 .ret
  let ld ← directFromLight light i bsdf sample0
  directFromBsdf light i bsdf sample1 ld

/-- /repo/src/integrator.rs:176-187 -/
def uniformSampleOneLight (lights : List (LightObj α)) (i : Interaction α) (bsdf : BSDF α) : Prog α (Spectrum α) := do
  let nLights := lights.length
  if nLights = 0 then pure Spectrum.zero
  else
    let u ← Prog.get1 .ret
    let lightI := min (toUsize (ofInt nLights *. u)) (nLights - 1)
    let light ← Prog.ofOption lights[lightI]?
    let ld ← estimateDirect light i bsdf
    pure (ld.smul (ofInt nLights))

/-- Russian roulette, /repo/src/integrator.rs:222-226: the new weight; `none` is the `break`. -/
def roulette (beta : Spectrum α) (u : α) : Option (Spectrum α) :=
  let q := Scalar.fmin beta.y (lit (95 / 100))
  if u >. q then none else some (beta.sdiv q)

/-- /repo/src/integrator.rs:216: the weight after scattering. -/
def scatterWeight (beta f : Spectrum α) (wi sn : V3 α) (pdf : α) : Spectrum α :=
  beta.mul ((f.smul (Scalar.abs (wi.dot sn))).sdiv pdf)

/-- The loop of /repo/src/integrator.rs:194-229, from its beginning to the result. -/
def liLoop (lights : List (LightObj α)) (bounces : Nat) (ray : Ray α) (l beta : Spectrum α) (specularBounce : Bool) :
    Prog α (Spectrum α) := do
  let i ← Prog.hit .path ray .ret
  let l := if bounces = 0 ∨ specularBounce = true then
      match i with
      | some h => l.add (beta.mul (h.le ray.direction.neg))
      | none => l
    else l
  match i with
  | none => pure l
  | some h =>
    if hb : bounces > MAX_BOUNCES then pure l
    else
      let bsdf ← Prog.scatter h .ret
      let ld ← uniformSampleOneLight lights h.i bsdf
      let l := l.add (beta.mul ld)
      let u ← Prog.get2 .ret
      let (wi, f, pdf, flag) ← Prog.ofOption (bsdf.sampleF h.i.wo u)
      if (pdf ==. lit 0) || f.isBlack then pure l
      else
        let beta := scatterWeight beta f wi h.i.sn pdf
        let specularBounce := flag &&& SPECULAR != 0
        let ray := h.i.spawnRay wi
        if bounces + 1 > 3 then
          let v ← Prog.get1 .ret
          match roulette beta v with
          | none => pure l
          | some beta => liLoop lights (bounces + 1) ray l beta specularBounce
        else liLoop lights (bounces + 1) ray l beta specularBounce
termination_by MAX_BOUNCES + 1 - bounces
decreasing_by all_goals (simp only [MAX_BOUNCES] at *; omega)

/-- /repo/src/integrator.rs:189-230 -/
def li (lights : List (LightObj α)) (ray : Ray α) : Prog α (Spectrum α) :=
  liLoop lights 0 ray Spectrum.zero (Spectrum.of (lit 1)) false

/-- The radiance of one camera sample, /repo/src/integrator.rs:102-103. -/
def cameraRadiance (scene : Scene α) (camera : PerspectiveCamera α) (pFilm : V2 α) : Draw α (Spectrum α) :=
  (li scene.lights (camera.generateRay pFilm)).run scene

end PT
