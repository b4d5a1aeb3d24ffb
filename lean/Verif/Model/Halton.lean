import Verif.Model.Sampler
import Verif.Model.BBox2
import Verif.Model.Primes

/-!
# /repo/src/sampler_halton.rs

`u32` values are natural numbers; every `+` and `*` on them is followed by `u32` (wrap-around of a
release build) unless it provably cannot overflow.
-/

namespace PT
variable {α : Type} [Scalar α]

/-- /repo/src/sampler_halton.rs:9 -/
def kMaxResolution : Int := 128

/-- The loop state of `radical_inverse`, /repo/src/sampler_halton.rs:145-151: `(x, base_n)` at the
end.  For `base < 2` Rust's loop does not terminate (base 1) or panics (base 0); all callers use
primes, and the model stops at once. -/
def radicalLoop (base a x baseN : Nat) : Nat × Nat :=
  if h : 0 < a ∧ 2 ≤ base then
    radicalLoop base (a / base) (u32 (u32 (x * base) + a % base)) (u32 (baseN * base))
  else (x, baseN)
termination_by a
decreasing_by exact Nat.div_lt_self h.1 h.2

/-- /repo/src/sampler_halton.rs:144-153 -/
def radicalInverse (base a : Nat) : α :=
  let (x, baseN) := radicalLoop base a 0 1
  Scalar.fmin oneMinusEpsilon (ofInt x /. ofInt baseN)

/-- /repo/src/sampler_halton.rs:155-1183; `none` is the panic for an index without a base. -/
def radicalInversePrime (baseIndex a : Nat) : Option α :=
  (haltonBases[baseIndex]?).map fun base => radicalInverse base a

/-- /repo/src/sampler_halton.rs:1185-1193 -/
def inverseRadicalInverse (base a nDigits : Nat) : Nat :=
  go nDigits a 0
where
  /-- the loop; `x` is the result so far -/
  go : Nat → Nat → Nat → Nat
    | 0, _, x => x
    | n + 1, a, x => go n (a / base) (u32 (u32 (x * base) + a % base))

/-- /repo/src/sampler_halton.rs:1203-1211.  `i64` arithmetic is unbounded here; `c18_no_overflow` shows
that no value leaves the `i64` range. -/
def extendedGcd (a b : Nat) : Int × Int :=
  if h : b = 0 then (1, 0)
  else
    let d : Int := (a / b : Nat)
    let r := extendedGcd b (a % b)
    (r.2, r.1 - d * r.2)
termination_by b
decreasing_by exact Nat.mod_lt _ (Nat.pos_of_ne_zero h)

/-- /repo/src/sampler_halton.rs:1195-1198 (`as u32` of a non-negative `i64` takes the low 32 bits). -/
def multiplicativeInverse (a n : Nat) : Nat :=
  u32 (extendedGcd a n).1.natAbs % n

/-- /repo/src/sampler_halton.rs:1213-1220; `%` on `i32` truncates. -/
def posMod (a b : Int) : Nat :=
  let m := a.tmod b
  if m < 0 then (m + b).toNat else m.toNat

/-- /repo/src/sampler_halton.rs:12-33.  Pairs indexed by dimension are `V2`. -/
@[ext] structure HaltonSampler where
  samplesPerPixel : Nat
  currentPixel : V2 Int
  currentPixelSampleIndex : Nat
  dimension : Nat
  intervalSampleIndex : Nat
  baseScale : V2 Nat
  baseExp : V2 Nat
  sampleStride : Nat
  pixelForOffset : V2 Int
  offsetForCurrentPixel : Nat
  mulInverse : V2 Nat
  deriving DecidableEq

/-- The loop at /repo/src/sampler_halton.rs:42-47, `(scale, exp)`; `limit ≤ 128`, so there is no
overflow. -/
def scaleLoop (base limit scale exp : Nat) : Nat × Nat :=
  if h : scale < limit ∧ 0 < scale ∧ 2 ≤ base then scaleLoop base limit (scale * base) (exp + 1)
  else (scale, exp)
termination_by limit - scale
decreasing_by
  have : scale * 2 ≤ scale * base := Nat.mul_le_mul_left _ h.2.2
  omega

namespace HaltonSampler

/-- /repo/src/sampler_halton.rs:36-72.  The box is ordered (`BBox2i::new`), so the resolution is not
negative and the cast to `u32` keeps it. -/
def new (samplesPerPixel : Nat) (sampleBBox : BBox2i) : HaltonSampler :=
  let res := sampleBBox.diagonal
  let s0 := scaleLoop 2 (imin res.x kMaxResolution).toNat 1 0
  let s1 := scaleLoop 3 (imin res.y kMaxResolution).toNat 1 0
  { samplesPerPixel
    currentPixel := ⟨0, 0⟩, currentPixelSampleIndex := 0
    dimension := 0, intervalSampleIndex := 0
    baseScale := ⟨s0.1, s1.1⟩, baseExp := ⟨s0.2, s1.2⟩
    sampleStride := u32 (s0.1 * s1.1)
    pixelForOffset := ⟨0, 0⟩, offsetForCurrentPixel := 0
    mulInverse := ⟨multiplicativeInverse s1.1 s0.1, multiplicativeInverse s0.1 s1.1⟩ }

/-- The offset computed at /repo/src/sampler_halton.rs:77-90. -/
def computeOffset (s : HaltonSampler) : Nat :=
  if s.sampleStride > 1 then
    let pm : V2 Nat := ⟨posMod s.currentPixel.x kMaxResolution, posMod s.currentPixel.y kMaxResolution⟩
    let o := u32 (u32 (inverseRadicalInverse 2 pm.x s.baseExp.x * (s.sampleStride / s.baseScale.x)) * s.mulInverse.x)
    let o := u32 (o +
      u32 (u32 (inverseRadicalInverse 3 pm.y s.baseExp.y * (s.sampleStride / s.baseScale.y)) * s.mulInverse.y))
    o % s.sampleStride
  else 0

/-- /repo/src/sampler_halton.rs:75-95 -/
def getIndexForSample (s : HaltonSampler) : Nat × HaltonSampler :=
  let s := if s.pixelForOffset ≠ s.currentPixel then
      { s with offsetForCurrentPixel := s.computeOffset, pixelForOffset := s.currentPixel }
    else s
  (u32 (s.offsetForCurrentPixel + u32 (s.currentPixelSampleIndex * s.sampleStride)), s)

/-- /repo/src/sampler_halton.rs:98-104 -/
def sampleDimension (s : HaltonSampler) (index d : Nat) : Option α :=
  match d with
  | 0 => radicalInversePrime 0 (index >>> s.baseExp.x)
  | 1 => radicalInversePrime 1 (index / s.baseScale.y)
  | d => radicalInversePrime d index

/-- /repo/src/sampler_halton.rs:108-116 -/
def startPixel (s : HaltonSampler) (p : V2 Int) : HaltonSampler :=
  let s := { s with currentPixel := p, currentPixelSampleIndex := 0, dimension := 0 }
  let (i, s) := s.getIndexForSample
  { s with intervalSampleIndex := i }

/-- /repo/src/sampler_halton.rs:118-125 -/
def startNextSample (s : HaltonSampler) : Bool × HaltonSampler :=
  let s := { s with currentPixelSampleIndex := u32 (s.currentPixelSampleIndex + 1), dimension := 0 }
  let (i, s) := s.getIndexForSample
  let s := { s with intervalSampleIndex := i }
  (decide (s.currentPixelSampleIndex < s.samplesPerPixel), s)

/-- /repo/src/sampler_halton.rs:107-142 -/
def ops : SamplerOps α HaltonSampler where
  startPixel := startPixel
  startNextSample := startNextSample
  get1d s := do
    let x ← s.sampleDimension s.intervalSampleIndex s.dimension
    pure (x, { s with dimension := u32 (s.dimension + 1) })
  get2d s := do
    let x ← s.sampleDimension s.intervalSampleIndex s.dimension
    let y ← s.sampleDimension s.intervalSampleIndex (u32 (s.dimension + 1))
    pure (⟨x, y⟩, { s with dimension := u32 (s.dimension + 2) })

end HaltonSampler
end PT
