import Verif.Model.Common

/-! # /repo/src/spectrum.rs -/

namespace PT

/-- /repo/src/spectrum.rs:3-8 -/
@[ext] structure Spectrum (α : Type) where
  r : α
  g : α
  b : α
  deriving DecidableEq

namespace Spectrum
variable {α : Type} [Scalar α]

/-- `Default`, /repo/src/spectrum.rs:3 -/
def zero : Spectrum α := ⟨lit 0, lit 0, lit 0⟩
/-- `From<f32>`, /repo/src/spectrum.rs:48-52 -/
def of (v : α) : Spectrum α := ⟨v, v, v⟩
/-- /repo/src/spectrum.rs:10 -/
def add (s t : Spectrum α) : Spectrum α := ⟨s.r +. t.r, s.g +. t.g, s.b +. t.b⟩
/-- /repo/src/spectrum.rs:11 -/
def sub (s t : Spectrum α) : Spectrum α := ⟨s.r -. t.r, s.g -. t.g, s.b -. t.b⟩
/-- /repo/src/spectrum.rs:12 -/
def mul (s t : Spectrum α) : Spectrum α := ⟨s.r *. t.r, s.g *. t.g, s.b *. t.b⟩
/-- /repo/src/spectrum.rs:13 -/
def div (s t : Spectrum α) : Spectrum α := ⟨s.r /. t.r, s.g /. t.g, s.b /. t.b⟩
/-- `s + a`, /repo/src/spectrum.rs:9 -/
def sadd (s : Spectrum α) (a : α) : Spectrum α := ⟨s.r +. a, s.g +. a, s.b +. a⟩
/-- `s - a`, /repo/src/spectrum.rs:9 -/
def ssub (s : Spectrum α) (a : α) : Spectrum α := ⟨s.r -. a, s.g -. a, s.b -. a⟩
/-- `s * a`, /repo/src/spectrum.rs:9 -/
def smul (s : Spectrum α) (a : α) : Spectrum α := ⟨s.r *. a, s.g *. a, s.b *. a⟩
/-- `s / a`, /repo/src/spectrum.rs:9 -/
def sdiv (s : Spectrum α) (a : α) : Spectrum α := ⟨s.r /. a, s.g /. a, s.b /. a⟩
/-- `-s`, /repo/src/spectrum.rs:9 (/repo/src/vector_macro.rs:30-39) -/
def neg (s : Spectrum α) : Spectrum α := ⟨⊖s.r, ⊖s.g, ⊖s.b⟩
/-- /repo/src/spectrum.rs:9 (/repo/src/vector_macro.rs:12-18) -/
def abs (s : Spectrum α) : Spectrum α := ⟨Scalar.abs s.r, Scalar.abs s.g, Scalar.abs s.b⟩
/-- /repo/src/spectrum.rs:35-37 (private, unused) -/
def lerp (s t : Spectrum α) (a : α) : Spectrum α := (s.smul (lit 1 -. a)).add (t.smul a)
/-- /repo/src/spectrum.rs:17-19 -/
def isBlack (s : Spectrum α) : Bool := (s.r ==. lit 0) && (s.g ==. lit 0) && (s.b ==. lit 0)
/-- /repo/src/spectrum.rs:21-25 -/
def y (s : Spectrum α) : α :=
  lit (212671 / 1000000) *. s.r +. lit (715160 / 1000000) *. s.g +. lit (72169 / 1000000) *. s.b
/-- /repo/src/spectrum.rs:27-33 -/
def sqrt [Libm α] (s : Spectrum α) : Spectrum α := ⟨Libm.sqrt s.r, Libm.sqrt s.g, Libm.sqrt s.b⟩
/-- /repo/src/spectrum.rs:39-45 -/
def clamp (s : Spectrum α) (low high : α) : Spectrum α :=
  ⟨PT.clamp s.r low high, PT.clamp s.g low high, PT.clamp s.b low high⟩
/-- Some channel satisfies a test (the `(0..3).any` of integrator.rs:105). -/
def any (s : Spectrum α) (f : α → Bool) : Bool := f s.r || f s.g || f s.b
/-- Apply to each channel (the `for i in 0..3` of film.rs:227-229). -/
def map {β} (f : α → β) (s : Spectrum α) : Spectrum β := ⟨f s.r, f s.g, f s.b⟩
end Spectrum
end PT
