import Verif.Props.HaltonIndex
import Verif.Lemmas.FlMono
import Verif.Model.RenderTile

/-!
# The per-pixel loop and camera samples (C22, C25)
-/

namespace PT

/-! ### C22 -/

/-- Taking exactly `n` samples of a pixel one after the other and adding them to the tile; the answer of
`start_next_sample` plays no role. -/
def Spec.takeSamples {α σ : Type} [Scalar α] (ops : SamplerOps α σ) (radiance : V2 α → Draw α (Spectrum α))
    (pixel : V2 Int) : Nat → FilmTile α → σ → Option (FilmTile α × σ)
  | 0, tile, s => some (tile, s)
  | n + 1, tile, s => do
    let ((pFilm, l), s) ← (oneSample radiance pixel).run ops s
    let tile ← addIfValid tile pFilm l
    Spec.takeSamples ops radiance pixel n tile (ops.startNextSample s).2

/-- A sampler that counts the samples of the pixel. -/
structure Counting {α σ : Type} (ops : SamplerOps α σ) (idx spp : σ → Nat) : Prop where
  start : ∀ s p, idx (ops.startPixel s p) = 0 ∧ spp (ops.startPixel s p) = spp s
  next : ∀ s, idx s + 1 < 2 ^ 32 → (ops.startNextSample s).1 = decide (idx s + 1 < spp s) ∧
    idx (ops.startNextSample s).2 = idx s + 1 ∧ spp (ops.startNextSample s).2 = spp s
  get1 : ∀ s x s', ops.get1d s = some (x, s') → idx s' = idx s ∧ spp s' = spp s
  get2 : ∀ s x s', ops.get2d s = some (x, s') → idx s' = idx s ∧ spp s' = spp s

theorem Counting.run {α σ β : Type} {ops : SamplerOps α σ} {idx spp : σ → Nat} (h : Counting ops idx spp)
    (d : Draw α β) : ∀ (s : σ) (b : β) (s' : σ), d.run ops s = some (b, s') → idx s' = idx s ∧ spp s' = spp s := by
  induction d with
  | ret b => intro s b' s' e; simp only [Draw.run, Option.some.injEq, Prod.mk.injEq] at e; rw [← e.2]; exact ⟨rfl, rfl⟩
  | panic => intro s b s' e; simp [Draw.run] at e
  | get1 k ih =>
    intro s b s' e
    simp only [Draw.run] at e
    cases hg : ops.get1d s with
    | none => rw [hg] at e; simp at e
    | some p =>
      obtain ⟨x, t⟩ := p
      rw [hg] at e
      obtain ⟨a, b⟩ := ih x t _ _ e
      obtain ⟨c, d⟩ := h.get1 _ _ _ hg
      exact ⟨a.trans c, b.trans d⟩
  | get2 k ih =>
    intro s b s' e
    simp only [Draw.run] at e
    cases hg : ops.get2d s with
    | none => rw [hg] at e; simp at e
    | some p =>
      obtain ⟨x, t⟩ := p
      rw [hg] at e
      obtain ⟨a, b⟩ := ih x t _ _ e
      obtain ⟨c, d⟩ := h.get2 _ _ _ hg
      exact ⟨a.trans c, b.trans d⟩

theorem Counting.loop {α σ : Type} [Scalar α] {ops : SamplerOps α σ} {idx spp : σ → Nat} (h : Counting ops idx spp)
    (radiance : V2 α → Draw α (Spectrum α)) (pixel : V2 Int) : ∀ (n fuel : Nat) (tile : FilmTile α) (s : σ),
    n < fuel → idx s + n + 1 < 2 ^ 32 + 1 → (idx s + n + 1 = spp s ∨ (n = 0 ∧ spp s ≤ idx s + 1)) → spp s < 2 ^ 32 →
    idx s + 1 < 2 ^ 32 →
    pixelLoop ops radiance pixel fuel tile s = Spec.takeSamples ops radiance pixel (n + 1) tile s := by
  intro n
  induction n with
  | zero =>
    intro fuel tile s hf h1 h2 h3 h4
    obtain ⟨f, rfl⟩ : ∃ f, fuel = f + 1 := ⟨fuel - 1, by omega⟩
    unfold pixelLoop Spec.takeSamples
    cases hr : (oneSample radiance pixel).run ops s with
    | none => rfl
    | some r =>
      obtain ⟨⟨pf, l⟩, t⟩ := r
      obtain ⟨e1, e2⟩ := h.run _ _ _ _ hr
      simp only [bind, Option.bind_some]
      cases ha : addIfValid tile pf l with
      | none => rfl
      | some tile' =>
        simp only [Option.bind_some, Spec.takeSamples]
        obtain ⟨n1, n2, n3⟩ := h.next t (by omega)
        have : (ops.startNextSample t).1 = false := by rw [n1, decide_eq_false_iff_not]; omega
        rw [this]; rfl
  | succ n ih =>
    intro fuel tile s hf h1 h2 h3 h4
    obtain ⟨f, rfl⟩ : ∃ f, fuel = f + 1 := ⟨fuel - 1, by omega⟩
    unfold pixelLoop Spec.takeSamples
    cases hr : (oneSample radiance pixel).run ops s with
    | none => rfl
    | some r =>
      obtain ⟨⟨pf, l⟩, t⟩ := r
      obtain ⟨e1, e2⟩ := h.run _ _ _ _ hr
      simp only [bind, Option.bind_some]
      cases ha : addIfValid tile pf l with
      | none => rfl
      | some tile' =>
        simp only [Option.bind_some]
        obtain ⟨n1, n2, n3⟩ := h.next t (by omega)
        have : (ops.startNextSample t).1 = true := by rw [n1, decide_eq_true_iff]; omega
        rw [this]
        simp only [if_true]
        exact ih f tile' (ops.startNextSample t).2 (by omega) (by omega) (by omega) (by omega) (by omega)

theorem Counting.pixel {α σ : Type} [Scalar α] {ops : SamplerOps α σ} {idx spp : σ → Nat} (h : Counting ops idx spp)
    (radiance : V2 α → Draw α (Spectrum α)) (pixel : V2 Int) (tile : FilmTile α) (s : σ) (hs : spp s < 2 ^ 32) :
    pixelLoop ops radiance pixel (2 ^ 32) tile (ops.startPixel s pixel) =
      Spec.takeSamples ops radiance pixel (max 1 (spp s)) tile (ops.startPixel s pixel) := by
  obtain ⟨a, b⟩ := h.start s pixel
  have := h.loop radiance pixel (max 1 (spp s) - 1) (2 ^ 32) tile (ops.startPixel s pixel) (by omega) (by omega) (by omega) (by omega) (by omega)
  rw [this]; congr 1; omega

theorem halton_counting {α : Type} [Scalar α] : Counting (HaltonSampler.ops : SamplerOps α HaltonSampler)
    HaltonSampler.currentPixelSampleIndex HaltonSampler.samplesPerPixel := by
  have gi : ∀ s : HaltonSampler, s.getIndexForSample.2.currentPixelSampleIndex = s.currentPixelSampleIndex ∧
      s.getIndexForSample.2.samplesPerPixel = s.samplesPerPixel := by
    intro s; unfold HaltonSampler.getIndexForSample; simp only; split_ifs <;> exact ⟨rfl, rfl⟩
  constructor
  · intro s p
    exact ⟨(gi _).1, (gi _).2⟩
  · intro s hs
    have e := u32_of_lt hs
    have h1 := gi { s with currentPixelSampleIndex := u32 (s.currentPixelSampleIndex + 1), dimension := 0 }
    simp only [e] at h1
    refine ⟨?_, ?_, ?_⟩
    · simp only [HaltonSampler.ops, HaltonSampler.startNextSample, e, h1.1, h1.2]
    · show HaltonSampler.currentPixelSampleIndex _ = _
      simp only [HaltonSampler.ops, HaltonSampler.startNextSample, e]; exact h1.1
    · simp only [HaltonSampler.ops, HaltonSampler.startNextSample, e]; exact h1.2
  · intro s x s' e
    simp only [HaltonSampler.ops, bind, pure] at e
    obtain ⟨y, _, e⟩ := Option.bind_eq_some_iff.1 e
    simp only [Option.some.injEq, Prod.mk.injEq] at e
    rw [← e.2]; exact ⟨rfl, rfl⟩
  · intro s x s' e
    simp only [HaltonSampler.ops, bind, pure] at e
    obtain ⟨y, _, e⟩ := Option.bind_eq_some_iff.1 e
    obtain ⟨z, _, e⟩ := Option.bind_eq_some_iff.1 e
    simp only [Option.some.injEq, Prod.mk.injEq] at e
    rw [← e.2]; exact ⟨rfl, rfl⟩

theorem random_counting {α ρ : Type} [Scalar α] (next : ρ → α × ρ) : Counting (RandomSampler.ops next)
    RandomSampler.currentPixelSampleIndex RandomSampler.samplesPerPixel := by
  constructor
  · intro s p; exact ⟨rfl, rfl⟩
  · intro s hs
    have e := u32_of_lt hs
    simp only [RandomSampler.ops, e, and_self]
  · intro s x s' e
    simp only [RandomSampler.ops, Option.some.injEq, Prod.mk.injEq] at e
    rw [← e.2]; exact ⟨rfl, rfl⟩
  · intro s x s' e
    simp only [RandomSampler.ops, Option.some.injEq, Prod.mk.injEq] at e
    rw [← e.2]; exact ⟨rfl, rfl⟩

/-- C22, Halton sampler: the loop over the samples of a pixel takes exactly `max(1, samples_per_pixel)`
samples — for every sampler state, pixel, tile, radiance computation and `u32` sample count. -/
theorem c22_halton_sample_count {α : Type} [Scalar α] (radiance : V2 α → Draw α (Spectrum α)) (pixel : V2 Int)
    (tile : FilmTile α) (s : HaltonSampler) (hs : s.samplesPerPixel < 2 ^ 32) :
    pixelLoop HaltonSampler.ops radiance pixel (2 ^ 32) tile (HaltonSampler.ops (α := α) |>.startPixel s pixel) =
      Spec.takeSamples HaltonSampler.ops radiance pixel (max 1 s.samplesPerPixel) tile
        (HaltonSampler.ops (α := α) |>.startPixel s pixel) :=
  halton_counting.pixel radiance pixel tile s hs

/-- C22, random sampler (any generator). -/
theorem c22_random_sample_count {α ρ : Type} [Scalar α] (next : ρ → α × ρ) (radiance : V2 α → Draw α (Spectrum α))
    (pixel : V2 Int) (tile : FilmTile α) (s : RandomSampler ρ) (hs : s.samplesPerPixel < 2 ^ 32) :
    pixelLoop (RandomSampler.ops next) radiance pixel (2 ^ 32) tile ((RandomSampler.ops next).startPixel s pixel) =
      Spec.takeSamples (RandomSampler.ops next) radiance pixel (max 1 s.samplesPerPixel) tile
        ((RandomSampler.ops next).startPixel s pixel) :=
  (random_counting next).pixel radiance pixel tile s hs

/-- The setting is the one given to the constructor and never changes (Halton). -/
theorem c22_halton_setting {α : Type} [Scalar α] (spp : Nat) (box : BBox2i) (s : HaltonSampler)
    (h : Spec.Hist α (HaltonSampler.new spp box) s) : s.samplesPerPixel = spp :=
  (hist_inv spp box s h).spp

/-- A run in which samples are really taken: the tile weight counts them. -/
example : (HaltonSampler.new 3 ⟨⟨0, 0⟩, ⟨2, 2⟩⟩).samplesPerPixel < 2 ^ 32 := by decide

/-! ### C25 -/

/-- C25 in exact arithmetic: the film position of a camera sample lies in its pixel, `[p, p+1)` on both axes,
for every sampler that delivers values in `[0, 1)`. -/
theorem c25_camera_sample_in_pixel {σ : Type} (ops : SamplerOps ℝ σ)
    (hops : ∀ s u s', ops.get2d s = some (u, s') → (0 ≤ u.x ∧ u.x < 1) ∧ (0 ≤ u.y ∧ u.y < 1))
    (p : V2 Int) (s s' : σ) (q : V2 ℝ) (h : (getCameraSample p).run ops s = some (q, s')) :
    ((p.x : ℝ) ≤ q.x ∧ q.x < p.x + 1) ∧ ((p.y : ℝ) ≤ q.y ∧ q.y < p.y + 1) := by
  simp only [getCameraSample, Draw.run] at h
  cases hg : ops.get2d s with
  | none => rw [hg] at h; simp at h
  | some r =>
    obtain ⟨u, t⟩ := r
    rw [hg] at h
    simp only [Option.some.injEq, Prod.mk.injEq] at h
    obtain ⟨⟨a, b⟩, c, d⟩ := hops _ _ _ hg
    rw [← h.1]
    simp only [V2.add, V2.ofI]
    real_ops
    exact ⟨⟨by linarith, by linarith⟩, ⟨by linarith, by linarith⟩⟩

/-- In single precision (coordinates up to 2^24 - 1) the position lies in the closed pixel `[p, p+1]`: with the
Halton sampler in any state, … -/
theorem c25_camera_sample_f32_partial (p : V2 Int) (hx : |p.x| < 2 ^ 24) (hy : |p.y| < 2 ^ 24)
    (s s' : HaltonSampler) (q : V2 F32) (h : (getCameraSample p).run HaltonSampler.ops s = some (q, s')) :
    (q.x.IsFin ∧ (p.x : ℚ) ≤ q.x.val ∧ q.x.val ≤ p.x + 1) ∧ (q.y.IsFin ∧ (p.y : ℚ) ≤ q.y.val ∧ q.y.val ≤ p.y + 1) := by
  simp only [getCameraSample, Draw.run] at h
  cases hg : (HaltonSampler.ops : SamplerOps F32 _).get2d s with
  | none => rw [hg] at h; simp at h
  | some r =>
    obtain ⟨u, t⟩ := r
    rw [hg] at h
    simp only [Option.some.injEq, Prod.mk.injEq] at h
    obtain ⟨ux, uy⟩ := c15_get2d_in_unit _ _ _ hg
    rw [← h.1]
    have key : ∀ (n : Int) (u : F32), |n| < 2 ^ 24 → Spec.InUnit u →
        ((ofInt n : F32) +. u).IsFin ∧ (n : ℚ) ≤ ((ofInt n : F32) +. u).val ∧ ((ofInt n : F32) +. u).val ≤ n + 1 := by
      intro n u hn hu
      obtain ⟨e1, e2⟩ := ofInt_exact hn.le
      obtain ⟨zs, e⟩ := Fl.add_fin e1 hu.1
      rw [Fl.f_add, e, e2]
      have hr : Fl.Repr Binary32 ((n : ℚ) + 1) := by
        have := repr_int (n := n + 1) (by rw [abs_lt] at hn; rw [abs_le]; omega)
        push_cast at this; exact this
      refine Fl.ofVal_between (repr_int hn.le) hr ?_ ?_ zs
      · linarith [hu.2.1]
      · linarith [hu.2.2.1]
    exact ⟨key _ _ hx ux, key _ _ hy uy⟩

/-- … but the half-open claim is false of the code: pixel 8 with the sample value `1 - 2⁻²³` (the greatest one
the sampler can deliver) gives the position 9, in the next pixel. -/
theorem c25_refuted_f32 : Spec.InUnit (.fin false (1 - 1 / 2 ^ 23) : F32) ∧
    ((V2.ofI ⟨8, 8⟩ : V2 F32).add ⟨.fin false (1 - 1 / 2 ^ 23), .fin false (1 - 1 / 2 ^ 23)⟩) =
      ⟨.fin false 9, .fin false 9⟩ := by
  refine ⟨⟨trivial, by norm_num [Fl.val, Fl.sgn], by norm_num [Fl.val, Fl.sgn], by norm_num, by decide +kernel⟩, ?_⟩
  decide +kernel

/-- Runs exist. -/
example : ∃ q s', (getCameraSample ⟨3, 4⟩).run (HaltonSampler.ops : SamplerOps F32 _) (HaltonSampler.new 1 ⟨⟨0, 0⟩, ⟨8, 8⟩⟩) = some (q, s') := by
  obtain ⟨j, k, hp, -, -⟩ := new_params 1 ⟨⟨0, 0⟩, ⟨8, 8⟩⟩
  exact ⟨_, _, rfl⟩

end PT
