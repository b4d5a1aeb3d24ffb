import Verif.Props.WholeImage

/-!
# More samples per pixel only add samples (C106)
-/

namespace PT
open Spec

section
variable {α : Type} [Scalar α]

/-- The sampler with another number of samples per pixel. -/
def withSpp (s : HaltonSampler) (b : Nat) : HaltonSampler := { s with samplesPerPixel := b }

theorem getIndex_withSpp (s : HaltonSampler) (b : Nat) :
    (withSpp s b).getIndexForSample = (s.getIndexForSample.1, withSpp s.getIndexForSample.2 b) := by
  unfold HaltonSampler.getIndexForSample
  by_cases h : s.pixelForOffset ≠ s.currentPixel
  · have h' : (withSpp s b).pixelForOffset ≠ (withSpp s b).currentPixel := h
    rw [if_pos h, if_pos h']
    rfl
  · have h' : ¬ (withSpp s b).pixelForOffset ≠ (withSpp s b).currentPixel := h
    rw [if_neg h, if_neg h']
    rfl

theorem sampleState_withSpp (s : HaltonSampler) (b : Nat) (p : V2 Int) (i : Nat) : sampleState (withSpp s b) p i = withSpp (sampleState s p i) b := by
  induction i with
  | zero =>
    have := getIndex_withSpp { s with currentPixel := p, currentPixelSampleIndex := 0, dimension := 0 } b
    change ({ (HaltonSampler.getIndexForSample (withSpp { s with currentPixel := p, currentPixelSampleIndex := 0, dimension := 0 } b)).2 with
      intervalSampleIndex := (HaltonSampler.getIndexForSample (withSpp { s with currentPixel := p, currentPixelSampleIndex := 0, dimension := 0 } b)).1 } : HaltonSampler) = _
    rw [this]
    rfl
  | succ i ih =>
    simp only [sampleState]
    rw [ih]
    generalize sampleState s p i = t
    have := getIndex_withSpp { t with currentPixelSampleIndex := u32 (t.currentPixelSampleIndex + 1), dimension := 0 } b
    change ({ (HaltonSampler.getIndexForSample (withSpp { t with currentPixelSampleIndex := u32 (t.currentPixelSampleIndex + 1), dimension := 0 } b)).2 with
      intervalSampleIndex := (HaltonSampler.getIndexForSample (withSpp { t with currentPixelSampleIndex := u32 (t.currentPixelSampleIndex + 1), dimension := 0 } b)).1 } : HaltonSampler) = _
    rw [this]
    rfl

theorem run_withSpp {β : Type} (b : Nat) (d : Draw α β) : ∀ s : HaltonSampler,
    d.run HaltonSampler.ops (withSpp s b) = (d.run HaltonSampler.ops s).map fun r => (r.1, withSpp r.2 b) := by
  induction d with
  | ret x => intro s; rfl
  | panic => intro s; rfl
  | get1 k ih =>
    intro s
    simp only [Draw.run]
    have h : (HaltonSampler.ops : SamplerOps α _).get1d (withSpp s b) =
        ((HaltonSampler.ops : SamplerOps α _).get1d s).map fun r => (r.1, withSpp r.2 b) := by
      have e : (HaltonSampler.sampleDimension (withSpp s b) : Nat → Nat → Option α) = HaltonSampler.sampleDimension s := rfl
      simp only [HaltonSampler.ops, e]
      change ((HaltonSampler.sampleDimension s s.intervalSampleIndex s.dimension : Option α) >>= _) = _
      cases (HaltonSampler.sampleDimension s s.intervalSampleIndex s.dimension : Option α) <;> rfl
    rw [h]
    cases (HaltonSampler.ops : SamplerOps α _).get1d s with
    | none => rfl
    | some r => exact ih _ _
  | get2 k ih =>
    intro s
    simp only [Draw.run]
    have h : (HaltonSampler.ops : SamplerOps α _).get2d (withSpp s b) =
        ((HaltonSampler.ops : SamplerOps α _).get2d s).map fun r => (r.1, withSpp r.2 b) := by
      have e : (HaltonSampler.sampleDimension (withSpp s b) : Nat → Nat → Option α) = HaltonSampler.sampleDimension s := rfl
      simp only [HaltonSampler.ops, e]
      change ((HaltonSampler.sampleDimension s s.intervalSampleIndex s.dimension : Option α) >>= _) = _
      cases (HaltonSampler.sampleDimension s s.intervalSampleIndex s.dimension : Option α) with
      | none => rfl
      | some x =>
        change ((HaltonSampler.sampleDimension s s.intervalSampleIndex (u32 (s.dimension + 1)) : Option α) >>= _) = _
        cases (HaltonSampler.sampleDimension s s.intervalSampleIndex (u32 (s.dimension + 1)) : Option α) <;> rfl
    rw [h]
    cases (HaltonSampler.ops : SamplerOps α _).get2d s with
    | none => rfl
    | some r => exact ih _ _

/-- C106 for one sample, in every arithmetic: what any computation gets from the Halton sampler in the `i`-th sample of a pixel — the value or a
panic — does not depend on the number of samples per pixel the sampler was made for. -/
theorem c106_same_sample {β : Type} (a b : Nat) (box : BBox2i) (p : V2 Int) (i : Nat) (d : Draw α β) :
    (d.run HaltonSampler.ops (sampleState (HaltonSampler.new a box) p i)).map Prod.fst =
    (d.run HaltonSampler.ops (sampleState (HaltonSampler.new b box) p i)).map Prod.fst := by
  have e : HaltonSampler.new b box = withSpp (HaltonSampler.new a box) b := rfl
  rw [e, sampleState_withSpp, run_withSpp, Option.map_map]
  rfl

end

theorem samplesFrom_add (radiance : V2 ℝ → Draw ℝ (Spectrum ℝ)) (s0 : HaltonSampler) (p : V2 Int) : ∀ (m i n : Nat),
    samplesFrom radiance s0 p i (m + n) = samplesFrom radiance s0 p i m ++ samplesFrom radiance s0 p (i + m) n := by
  intro m
  induction m with
  | zero => intro i n; simp [samplesFrom]
  | succ m ih =>
    intro i n
    rw [show m + 1 + n = (m + n) + 1 by omega, samplesFrom, samplesFrom, ih, List.append_assoc, show i + 1 + m = i + (m + 1) by omega]

theorem samplesFrom_congr {radiance : V2 ℝ → Draw ℝ (Spectrum ℝ)} {s0 s1 : HaltonSampler} {p : V2 Int}
    (h : ∀ i, cameraSample radiance s0 p i = cameraSample radiance s1 p i) : ∀ (n i : Nat), samplesFrom radiance s0 p i n = samplesFrom radiance s1 p i n := by
  intro n
  induction n with
  | zero => intro i; rfl
  | succ n ih => intro i; rw [samplesFrom, samplesFrom, ih, h]

/-- C106.  Two renders of the same picture with the Halton sampler, one with `a` samples per pixel and one with more, `b`, each with its own number of threads
and its own schedule, both completed: the first `max(1, a)` camera samples of each sampled pixel are the same in both, and every pixel of the second image
is the one of the first plus the filtered sum of the remaining samples. -/
theorem c106_more_samples (res : V2 Int) (filt : Filter ℝ) (hR : FilmRange res filt.radius) (radiance : V2 ℝ → Draw ℝ (Spectrum ℝ))
    (a b : Nat) (hab : a ≤ b) (hb : b < 2 ^ 32)
    (n n' : Nat) (hn : 1 ≤ n) (hn' : 1 ≤ n') (file file' : Option (List UInt8)) (k k' : Nat) (st st' : RState ℝ HaltonSampler) :
    let film := Film.new res filt
    let few := HaltonSampler.new a film.sampleBBox
    let many := HaltonSampler.new b film.sampleBBox
    RReach (fun s b => renderTile HaltonSampler.ops radiance film s b) few (RState.init film n file) k st → st.main = .done →
    RReach (fun s b => renderTile HaltonSampler.ops radiance film s b) many (RState.init film n' file') k' st' → st'.main = .done →
    (∀ p, Sampled res filt.radius p → ∀ i < max 1 a, ∃ s, cameraSample radiance few p i = some s ∧ cameraSample radiance many p i = some s) ∧
    ∀ ps : List (V2 Int), ps.Nodup → (∀ p, p ∈ ps ↔ Sampled res filt.radius p) → ∀ x y, Spec.InImage res x y →
      st'.sh.film.px x y = (st.sh.film.px x y).merge
        (Spec.pixel filt (ps.flatMap fun p => samplesFrom radiance many p (max 1 a) (max 1 b - max 1 a)) x y) := by
  intro film few many hr hd hr' hd'
  have hsame : ∀ p i, cameraSample radiance few p i = cameraSample radiance many p i := fun p i => c106_same_sample a b _ p i _
  obtain ⟨h1, h2⟩ := c102_image res filt hR radiance a (by omega) n hn file k st hr hd
  obtain ⟨-, h4⟩ := c102_image res filt hR radiance b hb n' hn' file' k' st' hr' hd'
  refine ⟨fun p hp i hi => ?_, fun ps hnd hps x y hin => ?_⟩
  · obtain ⟨s, hs, -⟩ := h1 p hp i hi
    exact ⟨s, hs, by rw [← hs]; exact (hsame p i).symm⟩
  · rw [h2 ps hnd hps x y hin, h4 ps hnd hps x y hin, ← Spec.pixel_append]
    apply pixel_perm
    have e : samplesOf radiance many b = fun p => samplesOf radiance few a p ++ samplesFrom radiance many p (max 1 a) (max 1 b - max 1 a) := by
      funext p
      have hle : max 1 a ≤ max 1 b := by omega
      rw [samplesOf, samplesOf, samplesFrom_congr (hsame p)]
      conv_lhs => rw [show max 1 b = max 1 a + (max 1 b - max 1 a) by omega]
      rw [samplesFrom_add, Nat.zero_add]
    change (ps.flatMap (samplesOf radiance many b)).Perm _
    rw [e]
    exact (List.flatMap_append_perm ps _ _).symm

/-- With a filter that is nowhere negative more samples never take light or weight away from a pixel. -/
theorem c106_only_adds (res : V2 Int) (filt : Filter ℝ) (hR : FilmRange res filt.radius) (hfilt : ∀ p, 0 ≤ filt.evaluate p)
    (radiance : V2 ℝ → Draw ℝ (Spectrum ℝ)) (a b : Nat) (hab : a ≤ b) (hb : b < 2 ^ 32)
    (n n' : Nat) (hn : 1 ≤ n) (hn' : 1 ≤ n') (file file' : Option (List UInt8)) (k k' : Nat) (st st' : RState ℝ HaltonSampler) :
    let film := Film.new res filt
    RReach (fun s b => renderTile HaltonSampler.ops radiance film s b) (HaltonSampler.new a film.sampleBBox) (RState.init film n file) k st → st.main = .done →
    RReach (fun s b => renderTile HaltonSampler.ops radiance film s b) (HaltonSampler.new b film.sampleBBox) (RState.init film n' file') k' st' → st'.main = .done →
    ∀ x y, Spec.InImage res x y → (st.sh.film.px x y).weight ≤ (st'.sh.film.px x y).weight ∧
      ∀ c : Chan, c.of (st.sh.film.px x y).color ≤ c.of (st'.sh.film.px x y).color := by
  intro film hr hd hr' hd' x y hi
  obtain ⟨ps, h1, h2⟩ := exists_sampled res filt hR
  have e := (c106_more_samples res filt hR radiance a b hab hb n n' hn hn' file file' k k' st st' hr hd hr' hd').2 ps h1 h2 x y hi
  rw [e]
  have hc : ∀ (p q : Pixel ℝ) (c : Chan), c.of (p.merge q).color = c.of p.color + c.of q.color := by
    intro p q c; cases c <;> rfl
  constructor
  · have : 0 ≤ (Spec.pixel filt (ps.flatMap fun p => samplesFrom radiance (HaltonSampler.new b film.sampleBBox) p (max 1 a) (max 1 b - max 1 a)) x y).weight := by
      refine List.sum_nonneg ?_
      intro v hv
      obtain ⟨s, -, rfl⟩ := List.mem_map.1 hv
      split_ifs
      · exact hfilt _
      · exact le_refl _
    change _ ≤ (st.sh.film.px x y).weight + _
    linarith
  · intro c
    rw [hc, pixel_chan]
    have : 0 ≤ Spec.colorSum filt c.of (ps.flatMap fun p => samplesFrom radiance (HaltonSampler.new b film.sampleBBox) p (max 1 a) (max 1 b - max 1 a)) x y := by
      refine List.sum_nonneg ?_
      intro v hv
      obtain ⟨s, hs, rfl⟩ := List.mem_map.1 hv
      split_ifs
      · obtain ⟨p, -, hs⟩ := List.mem_flatMap.1 hs
        obtain ⟨j, -, -, -, hu⟩ := samplesFrom_pos radiance _ p _ _ s hs
        refine mul_nonneg ?_ (hfilt _)
        cases c
        · exact hu.1
        · exact hu.2.1
        · exact hu.2.2
      · exact le_refl _
    linarith

/-- Such pairs of renders exist for every scene that can be built with the library: 640×480 pixels, 16 samples on 4 threads and 64 on 3. -/
example [HasInf ℝ] [HasNext ℝ] (hist : List (BuilderCall ℝ)) (hlib : ∀ c ∈ hist, LibraryCall c) {mk : List (Obj ℝ) → Option (Container ℝ)} (hmk : LibraryContainer mk)
    {scene : Scene ℝ} (hsc : (built hist).construct mk = some scene) (camera : PerspectiveCamera ℝ) : ∃ (k k' : Nat) (st st' : RState ℝ HaltonSampler),
    let film := Film.new ⟨640, 480⟩ (GaussianFilter.new (2 : ℝ) 2).toFilter
    (RReach (fun s b => renderTile HaltonSampler.ops (cameraRadiance scene camera) film s b) (HaltonSampler.new 16 film.sampleBBox) (RState.init film 4 none) k st ∧
      st.main = .done) ∧
    (RReach (fun s b => renderTile HaltonSampler.ops (cameraRadiance scene camera) film s b) (HaltonSampler.new 64 film.sampleBBox) (RState.init film 3 none) k' st' ∧
      st'.main = .done) ∧ (st.sh.film.px 0 0).weight ≤ (st'.sh.film.px 0 0).weight := by
  have hR : FilmRange ⟨640, 480⟩ 2 := by constructor <;> norm_num
  obtain ⟨k, st, hr, hd⟩ := (c76_library_real _ hlib hmk hsc camera ⟨640, 480⟩ (GaussianFilter.new (2 : ℝ) 2).toFilter hR
    (HaltonSampler.new 16 (Film.new ⟨640, 480⟩ (GaussianFilter.new (2 : ℝ) 2).toFilter).sampleBBox) (by norm_num [HaltonSampler.new]) 4 none).2
  obtain ⟨k', st', hr', hd'⟩ := (c76_library_real _ hlib hmk hsc camera ⟨640, 480⟩ (GaussianFilter.new (2 : ℝ) 2).toFilter hR
    (HaltonSampler.new 64 (Film.new ⟨640, 480⟩ (GaussianFilter.new (2 : ℝ) 2).toFilter).sampleBBox) (by norm_num [HaltonSampler.new]) 3 none).2
  refine ⟨k, k', st, st', ⟨hr, hd⟩, ⟨hr', hd'⟩, ?_⟩
  exact (c106_only_adds ⟨640, 480⟩ _ hR (c14_gaussian 2 2 (by norm_num) (by norm_num)).1 _ 16 64 (by norm_num) (by norm_num) 4 3 (by norm_num) (by norm_num) none none
    k k' st st' hr hd hr' hd' 0 0 (by norm_num [Spec.InImage])).1

end PT
