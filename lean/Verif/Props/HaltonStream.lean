import Verif.Props.HaltonIndex
import Verif.Props.PathLength

/-!
# The values of one sample are the coordinates of one Halton point (C77)
-/

namespace PT

namespace Spec
/-- Requests to a sampler: one value (`false`) or two (`true`). -/
abbrev Request := Bool
/-- How many values are asked for. -/
def demand : List Request → Nat
  | [] => 0
  | false :: rs => 1 + demand rs
  | true :: rs => 2 + demand rs

/-- The values a sampler delivers for a list of requests, in order, and its state afterwards. -/
def deliver {α σ : Type} (ops : SamplerOps α σ) : List Request → σ → Option (List α × σ)
  | [], s => some ([], s)
  | false :: rs, s => do
    let (x, s) ← ops.get1d s
    let (xs, s) ← deliver ops rs s
    pure (x :: xs, s)
  | true :: rs, s => do
    let (p, s) ← ops.get2d s
    let (xs, s) ← deliver ops rs s
    pure (p.x :: p.y :: xs, s)

/-- Some samples of a pixel: after the requests of each, the next sample is started. -/
def samples {α σ : Type} (ops : SamplerOps α σ) : List (List Request) → σ → Option σ
  | [], s => some s
  | rs :: rss, s => do
    let (_, s) ← deliver ops rs s
    samples ops rss (ops.startNextSample s).2

/-- Coordinate `d` of the Halton point with index `i`, in the pixel grid of `2^j` by `3^k` cells: in base 2 without the `j` digits
that select the column, in base 3 without the `k` digits that select the row, then in the further prime bases. -/
noncomputable def coordinate {α : Type} [Scalar α] (j k i d : Nat) : α :=
  radicalInverse (Nat.nth Nat.Prime d) (if d = 0 then i / 2 ^ j else if d = 1 then i / 3 ^ k else i)
end Spec
open Spec

variable {α : Type} [Scalar α]

theorem base_nth (d : Nat) (hd : d < 1024) : haltonBases[d]? = some (Nat.nth Nat.Prime d) := by
  rw [c24_bases, List.getElem?_map, List.getElem?_range hd]; rfl

theorem sampleDimension_coordinate (s : HaltonSampler) (j k i d : Nat) (hj : s.baseExp.x = j) (hk : s.baseScale.y = 3 ^ k) (hd : d < 1024) :
    s.sampleDimension i d = some (coordinate j k i d : α) := by
  unfold HaltonSampler.sampleDimension radicalInversePrime coordinate
  match d with
  | 0 => rw [base_nth 0 hd]; simp [hj, Nat.shiftRight_eq_div_pow]
  | 1 => rw [base_nth 1 hd]; simp [hk]
  | d + 2 =>
    change Option.map _ haltonBases[d + 2]? = _
    rw [base_nth (d + 2) hd]; simp

theorem deliver_coordinates (j k i : Nat) : ∀ (rs : List Request) (s : HaltonSampler), s.baseExp.x = j → s.baseScale.y = 3 ^ k →
    s.intervalSampleIndex = i → s.dimension + demand rs ≤ 1024 →
    deliver (HaltonSampler.ops : SamplerOps α _) rs s =
      some ((List.range' s.dimension (demand rs)).map (coordinate j k i), { s with dimension := s.dimension + demand rs }) := by
  intro rs
  induction rs with
  | nil => intro s _ _ _ _; simp [deliver, demand]
  | cons r rs ih =>
    intro s hj hk hi hd
    cases r with
    | false =>
      simp only [demand] at hd ⊢
      have e := sampleDimension_coordinate (α := α) s j k i s.dimension hj hk (by omega)
      have h1 : (HaltonSampler.ops : SamplerOps α _).get1d s = some (coordinate j k i s.dimension, { s with dimension := s.dimension + 1 }) := by
        have : u32 (s.dimension + 1) = s.dimension + 1 := Nat.mod_eq_of_lt (by omega)
        simp [HaltonSampler.ops, hi, e, this]
      simp only [deliver, h1, Option.bind_eq_bind, Option.bind_some, Option.pure_def]
      rw [ih { s with dimension := s.dimension + 1 } hj hk hi (by simp only; omega)]
      simp only [Option.bind_some, Nat.add_comm 1 (demand rs), List.range'_succ, List.map_cons]
      congr 3; omega
    | true =>
      simp only [demand] at hd ⊢
      have e := sampleDimension_coordinate (α := α) s j k i s.dimension hj hk (by omega)
      have e' := sampleDimension_coordinate (α := α) s j k i (s.dimension + 1) hj hk (by omega)
      have h1 : (HaltonSampler.ops : SamplerOps α _).get2d s =
          some (⟨coordinate j k i s.dimension, coordinate j k i (s.dimension + 1)⟩, { s with dimension := s.dimension + 2 }) := by
        have a1 : u32 (s.dimension + 1) = s.dimension + 1 := Nat.mod_eq_of_lt (by omega)
        have a2 : u32 (s.dimension + 2) = s.dimension + 2 := Nat.mod_eq_of_lt (by omega)
        simp [HaltonSampler.ops, hi, e, e', a1, a2]
      simp only [deliver, h1, Option.bind_eq_bind, Option.bind_some, Option.pure_def]
      rw [ih { s with dimension := s.dimension + 2 } hj hk hi (by simp only; omega)]
      simp only [Option.bind_some, show 2 + demand rs = demand rs + 1 + 1 by omega, List.range'_succ, List.map_cons]
      congr 3; omega

/-- Starting the next sample does not depend on the dimension reached. -/
theorem startNext_dimension (s : HaltonSampler) (d : Nat) : { s with dimension := d }.startNextSample = s.startNextSample := by
  unfold HaltonSampler.startNextSample HaltonSampler.getIndexForSample HaltonSampler.computeOffset
  rfl

theorem computeOffset_lt {s : HaltonSampler} {j k : Nat} (hp : HaltonParams s j k) (p : V2 Int) : { s with currentPixel := p }.computeOffset < 2 ^ j * 3 ^ k := by
  have h0 : 0 < 2 ^ j * 3 ^ k := by positivity
  unfold HaltonSampler.computeOffset
  split_ifs with h
  · rw [← hp.stride] at h0 ⊢
    exact Nat.mod_lt _ h0
  · exact h0

/-- C77: the sampling region fixes a grid of `2^j` by `3^k` cells, and each pixel a first index; then for every history of the
sampler, every number of samples taken of the pixel before and whatever values were asked for in them, the values delivered for the
next sample, however they are asked for, one or two at a time, are the successive coordinates of one Halton point, whose index grows
by the number of cells from sample to sample.  The grid has a cell for every pixel of the region, up to 128 in each direction. -/
theorem c77_halton_stream (spp : Nat) (box : BBox2i) : ∃ j k, (imin box.diagonal.x 128 ≤ ((2 ^ j : Nat) : Int) ∧ 2 ^ j ≤ 128) ∧
    (imin box.diagonal.y 128 ≤ ((3 ^ k : Nat) : Int) ∧ 3 ^ k ≤ 243) ∧ ∀ p, ∃ i₀ < 2 ^ j * 3 ^ k, ∀ s, Hist α (HaltonSampler.new spp box) s →
    ∀ (before : List (List Request)) (now : List Request), before.length < 2 ^ 32 → (∀ rs ∈ before, demand rs ≤ 1024) → demand now ≤ 1024 →
    ∃ s1 s2, samples (HaltonSampler.ops : SamplerOps α _) before (HaltonSampler.ops (α := α) |>.startPixel s p) = some s1 ∧
      deliver (HaltonSampler.ops : SamplerOps α _) now s1 =
        some ((List.range (demand now)).map (coordinate j k ((i₀ + before.length * (2 ^ j * 3 ^ k)) % 2 ^ 32)), s2) := by
  obtain ⟨j, k, hp, g1, g2⟩ := new_params spp box
  refine ⟨j, k, ⟨g1, hp.hx⟩, ⟨g2, hp.hy⟩, fun p => ⟨{ HaltonSampler.new spp box with currentPixel := p }.computeOffset, computeOffset_lt hp p,
    fun s hs before now hb hr hn => ?_⟩⟩
  have hinv := hist_inv spp box s hs
  have key : ∀ (before : List (List Request)) (n : Nat), n + before.length < 2 ^ 32 → (∀ rs ∈ before, demand rs ≤ 1024) →
      samples (HaltonSampler.ops : SamplerOps α _) before (sampleState s p n) = some (sampleState s p (n + before.length)) := by
    intro before
    induction before with
    | nil => intro n _ _; rfl
    | cons rs rss ih =>
      intro n hn hr
      simp only [List.length_cons] at hn ⊢
      have e := sampleState_spec hinv p n (by omega)
      have := deliver_coordinates (α := α) j k _ rs (sampleState s p n) (by rw [e]; exact hp.ex) (by rw [e]; exact hp.sy) rfl
        (by rw [e]; simpa using hr rs (by simp))
      simp only [samples, this, Option.bind_eq_bind, Option.bind_some]
      change samples _ rss (HaltonSampler.startNextSample _).2 = _
      rw [startNext_dimension]
      change samples _ rss (sampleState s p (n + 1)) = _
      rw [ih (n + 1) (by omega) (fun rs h => hr rs (by simp [h]))]
      congr 2; omega
  have e := sampleState_spec hinv p before.length hb
  have hd := deliver_coordinates (α := α) j k _ now (sampleState s p before.length) (by rw [e]; exact hp.ex) (by rw [e]; exact hp.sy) rfl
    (by rw [e]; simpa using hn)
  have hk := key before 0 (by omega) hr
  rw [Nat.zero_add] at hk
  have e1 : (sampleState s p before.length).dimension = 0 := by rw [e]
  have e2 : (sampleState s p before.length).intervalSampleIndex = ({ HaltonSampler.new spp box with currentPixel := p }.computeOffset + before.length * (2 ^ j * 3 ^ k)) % 2 ^ 32 := by
    rw [e]; simp only [hp.stride, u32, Nat.add_mod_mod]
  rw [e1, e2, ← List.range_eq_range'] at hd
  exact ⟨_, _, hk, hd⟩

/-- The coordinates of a sample use pairwise different bases. -/
theorem c77_bases_distinct (d d' : Nat) (h : Nat.nth Nat.Prime d = Nat.nth Nat.Prime d') : d = d' :=
  Nat.nth_injective Nat.infinite_setOf_prime h

/-- A film position, then five values for a vertex: seven coordinates. -/
example : demand [true, false, true, true] = 7 ∧ demand [true, false, true, true] ≤ 1024 := by decide

end PT
