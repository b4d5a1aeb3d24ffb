import Verif.Model.Common

/-!
# /repo/src/sampler.rs, sampler_random.rs

The trait `Sampler` is its methods over a state type `σ`.  Code that draws samples (the path
integrator) is modelled as a program `Draw`, so that one definition can be run with every sampler.
-/

namespace PT
variable {α : Type} [Scalar α]

/-- The trait `Sampler`, /repo/src/sampler.rs:4-23.  `none` is a panic.  (`Clone` is the identity on
model states.) -/
structure SamplerOps (α σ : Type) where
  startPixel : σ → V2 Int → σ
  startNextSample : σ → Bool × σ
  get1d : σ → Option (α × σ)
  get2d : σ → Option (V2 α × σ)

/-- A computation that may draw sample values and may panic. -/
inductive Draw (α β : Type) where
  | ret : β → Draw α β
  | panic : Draw α β
  | get1 : (α → Draw α β) → Draw α β
  | get2 : (V2 α → Draw α β) → Draw α β

namespace Draw
variable {β γ : Type}

/-- Sequencing. -/
def bind : Draw α β → (β → Draw α γ) → Draw α γ
  | ret b, f => f b
  | panic, _ => panic
  | get1 k, f => get1 fun x => (k x).bind f
  | get2 k, f => get2 fun x => (k x).bind f

instance : Monad (Draw α) where
  pure := ret
  bind := bind

/-- `sampler.get_1d()` -/
def sample1 : Draw α α := get1 ret
/-- `sampler.get_2d()` -/
def sample2 : Draw α (V2 α) := get2 ret

/-- Run with a sampler. -/
def run {σ : Type} (ops : SamplerOps α σ) : Draw α β → σ → Option (β × σ)
  | ret b, s => some (b, s)
  | panic, _ => none
  | get1 k, s => match ops.get1d s with
    | none => none
    | some (x, s') => (k x).run ops s'
  | get2 k, s => match ops.get2d s with
    | none => none
    | some (x, s') => (k x).run ops s'

/-- No run draws more than `n` dimensions, whatever values are drawn. -/
def AtMost : Draw α β → Nat → Prop
  | ret _, _ => True
  | panic, _ => True
  | get1 k, n => 1 ≤ n ∧ ∀ x, (k x).AtMost (n - 1)
  | get2 k, n => 2 ≤ n ∧ ∀ x, (k x).AtMost (n - 2)
end Draw

/-- `Sampler::get_camera_sample`, /repo/src/sampler.rs:18-22: the film position. -/
def getCameraSample (pRaster : V2 Int) : Draw α (V2 α) :=
  Draw.get2 fun u => Draw.ret ((V2.ofI pRaster).add u)

/-- `u32` arithmetic wraps around (release build). -/
def u32 (n : Nat) : Nat := n % 2 ^ 32

/-- /repo/src/sampler_random.rs:8-14; the generator (`rand::StdRng`) is an arbitrary state `ρ`. -/
structure RandomSampler (ρ : Type) where
  samplesPerPixel : Nat
  currentPixelSampleIndex : Nat
  rng : ρ

namespace RandomSampler
variable {ρ : Type}
/-- /repo/src/sampler_random.rs:17-23 (the seed is a parameter). -/
def new (samplesPerPixel : Nat) (rng : ρ) : RandomSampler ρ := ⟨samplesPerPixel, 0, rng⟩

/-- /repo/src/sampler_random.rs:26-45.  `next` is `rng.gen::<f32>()`.  The `debug_assert`s are not
modelled. -/
def ops (next : ρ → α × ρ) : SamplerOps α (RandomSampler ρ) where
  startPixel s _ := { s with currentPixelSampleIndex := 0 }
  startNextSample s :=
    let i := u32 (s.currentPixelSampleIndex + 1)
    (decide (i < s.samplesPerPixel), { s with currentPixelSampleIndex := i })
  get1d s :=
    let (x, r) := next s.rng
    some (x, { s with rng := r })
  get2d s :=
    let (x, r) := next s.rng
    let (y, r) := next r
    some (⟨x, y⟩, { s with rng := r })
end RandomSampler

end PT
