import Verif.Model.Common

/-! # /repo/src/filter.rs -/

namespace PT
variable {α : Type} [Scalar α]

/-- The trait `Filter`, /repo/src/filter.rs:3-8: an arbitrary implementation is its two methods. -/
structure Filter (α : Type) where
  radius : α
  evaluate : V2 α → α

/-- /repo/src/filter.rs:10-14 -/
structure GaussianFilter (α : Type) where
  radius : α
  alpha : α
  exp : α

namespace GaussianFilter
variable [Libm α]
/-- /repo/src/filter.rs:17-23 (`powi(2)` is `radius * radius`). -/
def new (radius alpha : α) : GaussianFilter α :=
  ⟨radius, alpha, Libm.exp ((⊖alpha) *. (radius *. radius))⟩
/-- /repo/src/filter.rs:25-27 -/
def gaussian (f : GaussianFilter α) (d : α) : α :=
  Scalar.fmax (Libm.exp ((⊖f.alpha) *. d *. d) -. f.exp) (lit 0)
/-- /repo/src/filter.rs:35-37 -/
def evaluate (f : GaussianFilter α) (p : V2 α) : α := f.gaussian p.x *. f.gaussian p.y
/-- `impl Filter for GaussianFilter`, /repo/src/filter.rs:30-38 -/
def toFilter (f : GaussianFilter α) : Filter α := ⟨f.radius, f.evaluate⟩
end GaussianFilter
end PT
