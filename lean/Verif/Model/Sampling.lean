import Verif.Model.Common

/-! # /repo/src/sampling.rs -/

namespace PT
variable {α : Type} [Scalar α]

/-- /repo/src/sampling.rs:4-18 -/
def concentricSampleDisk [Libm α] (u : V2 α) : V2 α :=
  let u : V2 α := ⟨u.x *. lit 2 +. ⊖(lit 1), u.y *. lit 2 +. ⊖(lit 1)⟩
  if (u.x ==. lit 0) && (u.y ==. lit 0) then u
  else
    let (theta, r) :=
      if Scalar.abs u.x >. Scalar.abs u.y then ((Libm.pi /. lit 4) *. (u.y /. u.x), u.x)
      else ((Libm.pi /. lit 2) -. (Libm.pi /. lit 4) *. (u.x /. u.y), u.y)
    ⟨Libm.cos theta *. r, Libm.sin theta *. r⟩

/-- /repo/src/sampling.rs:20-24 -/
def cosineSampleHemisphere [Libm α] (u : V2 α) : V3 α :=
  let d := concentricSampleDisk u
  let z := Libm.sqrt (Scalar.fmax (lit 1 -. d.x *. d.x -. d.y *. d.y) (lit 0))
  ⟨d.x, d.y, z⟩

/-- /repo/src/sampling.rs:26-30 -/
def powerHeuristic (n1 : Nat) (pdf1 : α) (n2 : Nat) (pdf2 : α) : α :=
  let f := pdf1 *. ofInt n1
  let g := pdf2 *. ofInt n2
  (f *. f) /. (f *. f +. g *. g)

end PT
