import Verif.Model.Spectrum

/-!
# /repo/src/fresnel.rs

The trait `Fresnel` (fresnel.rs:6-8) has one method and is modelled as that function.
-/

namespace PT
variable {α : Type} [Scalar α]

/-- The trait, /repo/src/fresnel.rs:6-8 -/
abbrev Fresnel (α : Type) := α → Spectrum α

/-- /repo/src/fresnel.rs:59-81 -/
def frDielectric [Libm α] (cosI etaI etaT : α) : α :=
  let c := clamp cosI (⊖(lit 1)) (lit 1)
  let (etaI, etaT, c) := if c >. lit 0 then (etaI, etaT, c) else (etaT, etaI, c *. ⊖(lit 1))
  let sinI := Libm.sqrt (Scalar.fmax (lit 1 -. c *. c) (lit 0))
  let sinT := (etaI /. etaT) *. sinI
  if sinT >=. lit 1 then lit 1
  else
    let cosT := Libm.sqrt (Scalar.fmax (lit 1 -. sinT *. sinT) (lit 0))
    let rParl := (etaT *. c -. etaI *. cosT) /. (etaT *. c +. etaI *. cosT)
    let rPerp := (etaI *. c -. etaT *. cosT) /. (etaI *. c +. etaT *. cosT)
    (rParl *. rParl +. rPerp *. rPerp) /. lit 2

/-- /repo/src/fresnel.rs:83-105 -/
def frConductor [Libm α] (cosI : α) (etaI etaT k : Spectrum α) : Spectrum α :=
  let c := clamp cosI (⊖(lit 1)) (lit 1)
  let eta := etaT.div etaI
  let etaK := k.div etaI
  let c2 := c *. c
  let s2 := lit 1 -. c2
  let eta2 := eta.mul eta
  let etaK2 := etaK.mul etaK
  let t0 := (eta2.sub etaK2).ssub s2
  let ab := ((t0.mul t0).add ((eta2.mul etaK2).smul (lit 4))).sqrt
  let t1 := ab.sadd c2
  let a := ((ab.add t0).smul (lit (1 / 2))).sqrt
  let t2 := (a.smul c).smul (lit 2)
  let rPerp := (t1.sub t2).div (t1.add t2)
  let t3 := (ab.smul c2).sadd (s2 *. s2)
  let t4 := t2.smul s2
  let rParl := (rPerp.mul (t3.sub t4)).div (t3.add t4)
  (rParl.add rPerp).smul (lit (1 / 2))

/-- /repo/src/fresnel.rs:10-25 -/
def fresnelDielectric [Libm α] (etaI etaT : α) : Fresnel α := fun c => Spectrum.of (frDielectric c etaI etaT)
/-- /repo/src/fresnel.rs:27-43 -/
def fresnelConductor [Libm α] (etaI etaT k : Spectrum α) : Fresnel α :=
  fun c => frConductor (Scalar.abs c) etaI etaT k
/-- /repo/src/fresnel.rs:45-57 -/
def fresnelNoOp : Fresnel α := fun _ => Spectrum.of (lit 1)

end PT
