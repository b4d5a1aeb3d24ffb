import Verif.Model.Triangle
import Verif.Lemmas.Vec

/-! # The triangle test in stages (proof side; the model itself is one long computation, as in the source) -/

namespace PT
namespace Triangle

variable {α : Type} [Scalar α] [Libm α]

/-- Intermediate results of the triangle test that do not depend on `t_max`. -/
structure Stage (α : Type) where
  e0 : α
  e1 : α
  e2 : α
  ts : α
  dt : α

/-- Shear coefficients. -/
def sxOf (d : V3 α) (m : Axis) : α := ⊖(d.get m.prev) /. d.get m
def syOf (d : V3 α) (m : Axis) : α := ⊖(d.get m.next) /. d.get m
def szOf (d : V3 α) (m : Axis) : α := lit 1 /. d.get m

/-- A vertex in ray coordinates (`z` not yet scaled). -/
def rc (o d : V3 α) (m : Axis) (p : V3 α) : V3 α := shear o m.prev m.next m (sxOf d m) (syOf d m) p

def Stage.det (g : Stage α) : α := g.e0 +. g.e1 +. g.e2

def threshold (a b c : V3 α) (az bz cz e0 e1 e2 det : α) : α :=
  let maxX := (V3.mk a.x b.x c.x).abs.maxComponent
  let maxY := (V3.mk a.y b.y c.y).abs.maxComponent
  let maxZ := (V3.mk az bz cz).abs.maxComponent
  let deltaX := maxX *. gamma (lit 5)
  let deltaY := maxY *. gamma (lit 5)
  let deltaZ := maxZ *. gamma (lit 3)
  let deltaE := (gamma (lit 2) *. maxX *. maxY +. maxX *. deltaY +. maxY *. deltaX) *. lit 2
  let maxE := (V3.mk e0 e1 e2).abs.maxComponent
  lit 3 *. (gamma (lit 3) *. maxE *. maxZ +. maxZ *. deltaE +. maxE *. deltaZ) /. Scalar.abs det

/-- The stage computed from vertices in ray coordinates. -/
def stageOf (a b c : V3 α) (sz : α) : Stage α :=
  let e0 := b.x *. c.y -. b.y *. c.x
  let e1 := c.x *. a.y -. c.y *. a.x
  let e2 := a.x *. b.y -. a.y *. b.x
  { e0, e1, e2
    ts := (a.z *. sz) *. e0 +. (b.z *. sz) *. e1 +. (c.z *. sz) *. e2
    dt := threshold a b c (a.z *. sz) (b.z *. sz) (c.z *. sz) e0 e1 e2 (e0 +. e1 +. e2) }

def stage (s : Triangle α) (o d : V3 α) (m : Axis) : Stage α :=
  stageOf (rc o d m s.v0) (rc o d m s.v1) (rc o d m s.v2) (szOf d m)

/-- Tests that do not depend on `t_max`. -/
def Stage.mixed (g : Stage α) : Bool :=
  ((g.e0 <. lit 0 || g.e1 <. lit 0 || g.e2 <. lit 0) && (g.e0 >. lit 0 || g.e1 >. lit 0 || g.e2 >. lit 0))
/-- Out of range. -/
def Stage.out (g : Stage α) (tm : α) : Bool :=
  (g.det <. lit 0 && (g.ts <. tm *. g.det || lit 0 <=. g.ts))
    || (g.det >. lit 0 && (g.ts <=. lit 0 || tm *. g.det <. g.ts))
def Stage.t (g : Stage α) : α := g.ts /. g.det
/-- All the tests. -/
def Stage.rejects (g : Stage α) (tm : α) : Bool :=
  g.mixed || (g.det ==. lit 0) || g.out tm || (g.t <=. g.dt)

theorem intersectP_eq (s : Triangle α) (o d : V3 α) (tm : α) :
    s.intersectP ⟨o, d, tm⟩ = d.maxAbsAxis.map fun m => !(stage s o d m).rejects tm := by
  unfold intersectP
  cases d.maxAbsAxis with
  | none => rfl
  | some m =>
    simp only [Option.map_some, bind, Option.bind_some]
    change (if (stage s o d m).mixed = true then some false
      else if ((stage s o d m).det ==. lit 0) = true then some false
      else if (stage s o d m).out tm = true then some false
      else if ((stage s o d m).t <=. (stage s o d m).dt) = true then some false else some true) = _
    unfold Stage.rejects
    cases h1 : (stage s o d m).mixed <;> cases h2 : ((stage s o d m).det ==. lit 0) <;>
      cases h3 : (stage s o d m).out tm <;> cases h4 : ((stage s o d m).t <=. (stage s o d m).dt) <;> rfl

theorem intersect_eq (s : Triangle α) (o d : V3 α) (tm : α) :
    s.intersect ⟨o, d, tm⟩ = d.maxAbsAxis.map fun m =>
      let g := stage s o d m
      if g.rejects tm then none
      else some (s.interactionAt d (g.e0 /. g.det) (g.e1 /. g.det) (g.e2 /. g.det), g.t) := by
  unfold intersect
  cases d.maxAbsAxis with
  | none => rfl
  | some m =>
    simp only [Option.map_some, bind, Option.bind_some]
    change (if (stage s o d m).mixed = true then some none
      else if ((stage s o d m).det ==. lit 0) = true then some none
      else if (stage s o d m).out tm = true then some none
      else if ((stage s o d m).t <=. (stage s o d m).dt) = true then some none
      else some (some (s.interactionAt d ((stage s o d m).e0 /. (stage s o d m).det)
        ((stage s o d m).e1 /. (stage s o d m).det) ((stage s o d m).e2 /. (stage s o d m).det), (stage s o d m).t))) = _
    unfold Stage.rejects
    cases h1 : (stage s o d m).mixed <;> cases h2 : ((stage s o d m).det ==. lit 0) <;>
      cases h3 : (stage s o d m).out tm <;> cases h4 : ((stage s o d m).t <=. (stage s o d m).dt) <;> rfl

end Triangle
end PT
