import Verif.Model.Ray
import Verif.Model.NextFloat

/-! # /repo/src/interaction.rs:25-62 -/

namespace PT
namespace Interaction
variable {α : Type} [Scalar α] [HasNext α]

/-- The loop body of /repo/src/interaction.rs:34-40 for one coordinate. -/
def nudge (offset p : α) : α :=
  if offset >. lit 0 then HasNext.up p
  else if offset <. lit 0 then HasNext.down p
  else p

/-- /repo/src/interaction.rs:26-42 -/
def offsetRayOrigin (i : Interaction α) (v : V3 α) : V3 α :=
  let d := i.n.abs.dot i.pErr
  let offset := i.n.smul d
  let offset := if i.n.dot v <. lit 0 then offset.smul ⊖(lit 1) else offset
  let p := i.p.add offset
  ⟨nudge offset.x p.x, nudge offset.y p.y, nudge offset.z p.z⟩

/-- /repo/src/interaction.rs:44-50 -/
def spawnRay [HasInf α] (i : Interaction α) (direction : V3 α) : Ray α :=
  ⟨i.offsetRayOrigin direction, direction, HasInf.infinity⟩

/-- /repo/src/interaction.rs:52-62 -/
def spawnRayTo (i j : Interaction α) : Ray α :=
  let d := j.p.sub i.p
  let origin := i.offsetRayOrigin d
  let p := j.offsetRayOrigin d.neg
  ⟨origin, p.sub origin, lit 1 -. lit (1 / 10000)⟩

end Interaction
end PT
