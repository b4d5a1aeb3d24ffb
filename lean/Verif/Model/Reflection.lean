import Verif.Model.Ray
import Verif.Model.Spectrum

/-!
# /repo/src/reflection.rs

`x.powi(2)` is modelled as `x * x`.
-/

namespace PT
variable {α : Type} [Scalar α]

/-- /repo/src/reflection.rs:7 -/
def REFLECTION : Nat := 1
/-- /repo/src/reflection.rs:8 -/
def TRANSMISSION : Nat := 2
/-- /repo/src/reflection.rs:9 -/
def DIFFUSE : Nat := 4
/-- /repo/src/reflection.rs:10 -/
def GLOSSY : Nat := 8
/-- /repo/src/reflection.rs:11 -/
def SPECULAR : Nat := 16

/-- The trait `BxDF`, /repo/src/reflection.rs:14-32 -/
structure BxDF (α : Type) where
  flag : Nat
  f : V3 α → V3 α → Spectrum α
  sampleF : V3 α → V2 α → V3 α × Spectrum α × α
  pdf : V3 α → V3 α → α

/-- /repo/src/reflection.rs:18-22 -/
def BxDF.hasFlag (b : BxDF α) (t : Nat) : Bool := t &&& b.flag == t

/-- /repo/src/reflection.rs:34-40 -/
structure BSDF (α : Type) where
  bxdfs : List (BxDF α)
  gn : V3 α
  sn : V3 α
  s : V3 α
  t : V3 α

namespace BSDF
/-- /repo/src/reflection.rs:43-55 -/
def new [Libm α] (i : Interaction α) : BSDF α :=
  let s := i.dpdu.normalize
  ⟨[], i.n, i.sn, s, i.sn.cross s⟩

/-- /repo/src/reflection.rs:58-60 -/
def add (b : BSDF α) (x : BxDF α) : BSDF α := { b with bxdfs := b.bxdfs ++ [x] }

/-- /repo/src/reflection.rs:62-68 -/
def worldToLocal (b : BSDF α) (v : V3 α) : V3 α := ⟨v.dot b.s, v.dot b.t, v.dot b.sn⟩

/-- /repo/src/reflection.rs:70-76 -/
def localToWorld (b : BSDF α) (v : V3 α) : V3 α :=
  ⟨b.s.x *. v.x +. b.t.x *. v.y +. b.sn.x *. v.z,
   b.s.y *. v.x +. b.t.y *. v.y +. b.sn.y *. v.z,
   b.s.z *. v.x +. b.t.z *. v.y +. b.sn.z *. v.z⟩

/-- The loop of /repo/src/reflection.rs:87-93 and 130-136: sum over the components of the wanted kind
(in local directions). -/
def sumF (bs : List (BxDF α)) (reflect : Bool) (wo wi : V3 α) : Spectrum α :=
  bs.foldl (fun f b =>
    if (reflect && b.hasFlag REFLECTION) || (!reflect && b.hasFlag TRANSMISSION) then f.add (b.f wo wi)
    else f) Spectrum.zero

/-- /repo/src/reflection.rs:78-96 -/
def f (b : BSDF α) (woW wiW : V3 α) : Spectrum α :=
  let wo := b.worldToLocal woW
  if wo.z ==. lit 0 then Spectrum.zero
  else
    let wi := b.worldToLocal wiW
    let reflect := (wiW.dot b.gn) *. (woW.dot b.gn) >. lit 0
    sumF b.bxdfs reflect wo wi

/-- `Default::default()` of the result tuple of `sample_f`. -/
def noSample : V3 α × Spectrum α × α × Nat := (V3.zero, Spectrum.zero, lit 0, 0)

/-- /repo/src/reflection.rs:99-143.  `none`: the component index is out of range (panic). -/
def sampleF (b : BSDF α) (woW : V3 α) (sample : V2 α) : Option (V3 α × Spectrum α × α × Nat) :=
  let n := b.bxdfs.length
  if n = 0 then some noSample
  else
    let kf := sample.x *. ofInt n
    let k := toUsize (Scalar.floor kf)
    match b.bxdfs[k]? with
    | none => none
    | some x =>
      let sample : V2 α := ⟨kf -. ofInt k, sample.y⟩
      let wo := b.worldToLocal woW
      if wo.z ==. lit 0 then some noSample
      else
        let (wi, f0, pdf0) := x.sampleF wo sample
        if pdf0 ==. lit 0 then some noSample
        else
          let wiW := b.localToWorld wi
          let (f1, pdf1) :=
            if !x.hasFlag SPECULAR && decide (1 < n) then
              let pdf := (List.range n).foldl (fun p i =>
                if i = k then p else (b.bxdfs[i]?).elim p (fun y => p +. y.pdf wo wi)) pdf0
              let reflect := (wiW.dot b.gn) *. (woW.dot b.gn) >. lit 0
              (sumF b.bxdfs reflect wo wi, pdf)
            else (f0, pdf0)
          let pdf2 := if 1 < n then pdf1 /. ofInt n else pdf1
          some (wiW, f1, pdf2, x.flag)

/-- /repo/src/reflection.rs:145-163 -/
def pdf (b : BSDF α) (woW wiW : V3 α) : α :=
  let n := b.bxdfs.length
  if n = 0 then lit 0
  else
    let wo := b.worldToLocal woW
    let wi := b.worldToLocal wiW
    if wo.z ==. lit 0 then lit 0
    else (b.bxdfs.foldl (fun p x => p +. x.pdf wo wi) (lit 0)) /. ofInt n
end BSDF

/-- /repo/src/reflection.rs:166-168 -/
def cosTheta (w : V3 α) : α := w.z
/-- /repo/src/reflection.rs:170-172 -/
def cos2Theta (w : V3 α) : α := w.z *. w.z
/-- /repo/src/reflection.rs:174-176 -/
def absCosTheta (w : V3 α) : α := Scalar.abs w.z
/-- /repo/src/reflection.rs:182-184 -/
def sin2Theta (w : V3 α) : α := Scalar.fmax (lit 1 -. cos2Theta w) (lit 0)
/-- /repo/src/reflection.rs:178-180 -/
def sinTheta [Libm α] (w : V3 α) : α := Libm.sqrt (sin2Theta w)
/-- /repo/src/reflection.rs:186-188 -/
def tanTheta [Libm α] (w : V3 α) : α := sinTheta w /. cosTheta w
/-- /repo/src/reflection.rs:190-192 -/
def tan2Theta (w : V3 α) : α := sin2Theta w /. cos2Theta w
/-- /repo/src/reflection.rs:194-201 -/
def cosPhi [Libm α] (w : V3 α) : α :=
  if sinTheta w ==. lit 0 then lit 1 else clamp (w.x /. sinTheta w) (⊖(lit 1)) (lit 1)
/-- /repo/src/reflection.rs:203-210 -/
def sinPhi [Libm α] (w : V3 α) : α :=
  if sinTheta w ==. lit 0 then lit 0 else clamp (w.y /. sinTheta w) (⊖(lit 1)) (lit 1)
/-- /repo/src/reflection.rs:212-214 -/
def cos2Phi [Libm α] (w : V3 α) : α := cosPhi w *. cosPhi w
/-- /repo/src/reflection.rs:216-218 -/
def sin2Phi [Libm α] (w : V3 α) : α := sinPhi w *. sinPhi w
/-- /repo/src/reflection.rs:220-222 -/
def sameHemisphere (w1 w2 : V3 α) : Bool := w1.z *. w2.z >. lit 0

/-- /repo/src/reflection.rs:224-226 -/
def reflect (w n : V3 α) : V3 α := w.neg.add ((n.smul (w.dot n)).smul (lit 2))

/-- /repo/src/reflection.rs:228-241 -/
def refract [Libm α] (wi n : V3 α) (eta : α) : Option (V3 α) :=
  let cosI := wi.dot n
  let sin2I := Scalar.fmax (lit 1 -. cosI *. cosI) (lit 0)
  let sin2T := eta *. eta *. sin2I
  if sin2T >=. lit 1 then none
  else
    let cosT := Libm.sqrt (lit 1 -. sin2T)
    some ((wi.neg.smul eta).add (n.smul (cosI *. eta -. cosT)))

end PT
