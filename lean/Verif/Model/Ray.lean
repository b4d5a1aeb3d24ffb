import Verif.Model.Common

/-! # /repo/src/ray.rs and the data of /repo/src/interaction.rs -/

namespace PT
variable {α : Type} [Scalar α]

/-- /repo/src/ray.rs:4-9 -/
@[ext] structure Ray (α : Type) where
  origin : V3 α
  direction : V3 α
  tMax : α

namespace Ray
/-- /repo/src/ray.rs:12-14 -/
def position (r : Ray α) (t : α) : V3 α := r.origin.add (r.direction.smul t)
/-- /repo/src/ray.rs:17-25 -/
def default [HasInf α] : Ray α := ⟨V3.zero, V3.zero, HasInf.infinity⟩
end Ray

/-- /repo/src/interaction.rs:10-23, without the field `shape`: see `Hit`. -/
@[ext] structure Interaction (α : Type) where
  p : V3 α
  pErr : V3 α
  uv : V2 α
  n : V3 α
  sn : V3 α
  dpdu : V3 α
  dpdv : V3 α
  wo : V3 α

/-- `Default`, /repo/src/interaction.rs:10 -/
def Interaction.default : Interaction α :=
  ⟨V3.zero, V3.zero, ⟨lit 0, lit 0⟩, V3.zero, V3.zero, V3.zero, V3.zero, V3.zero⟩
end PT
