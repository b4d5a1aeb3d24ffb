import Verif.Props.Hello

/-!
# Rendering with the random sampler in single precision (C76, C99)
-/

namespace PT
open Spec Hello

section
variable [Libm F32] [Libm F64]

/-- C76: `c76_matt_render` with the random sampler and any generator of numbers in `[0, 1)`. -/
theorem c76_matt_random (hl : SaneLibm) (hist : List (BuilderCall F32)) (hlib : ∀ c ∈ hist, MattCall c)
    {mk : List (Obj F32) → Option (Container F32)} (hmk : LibraryContainer mk) {scene : Scene F32} (hsc : (built hist).construct mk = some scene)
    (camera : PerspectiveCamera F32) (hcam : SteadyCamera camera) (res : V2 Int) (filt : Filter F32) (hR : FilmRange32 res filt.radius)
    {ρ : Type} (next : ρ → F32 × ρ) (hnext : ∀ r, Sample32 (next r).1)
    (sampler : RandomSampler ρ) (hspp : sampler.samplesPerPixel < 2 ^ 32) (n : Nat) (file : Option (List UInt8)) :
    let work := renderTile (RandomSampler.ops next) (cameraRadiance scene camera) (Film.new res filt)
    (∀ k st, RReach work sampler (RState.init (Film.new res filt) n file) k st → .panicked ∉ st.threads) ∧
    ∃ k st, RReach work sampler (RState.init (Film.new res filt) n file) k st ∧ st.main = .done :=
  c76_library_f32_random hist (fun c hc => NoPanic.matt_library (hlib c hc)) hmk hsc camera res filt hR next hnext sampler hspp
    (fun b hb p hp u h1 h2 =>
      have h := NoPanic.tile_points res filt hR hb hp
      (NoPanic.liLoop_avoids (NoPanic.matt_tame hl hist hlib hmk hsc) _ 0 _ _ _ _
        (c76_camera_steady hl camera hcam _ (NoPanic.film_point h.1 h1) (NoPanic.film_point h.2 h2)) rfl).not_asks) n file

/-- C99: what this gives the user: for every scene of matt triangles and spheres, distant lights and area lights on matt triangles, every schedule of every
number of threads ends, without a panic of a worker thread, either with the image in the output file or, if this cannot be opened, with the file as it
was. -/
theorem c99_matt_random (hl : SaneLibm) (hist : List (BuilderCall F32)) (hlib : ∀ c ∈ hist, MattCall c)
    {mk : List (Obj F32) → Option (Container F32)} (hmk : LibraryContainer mk) {scene : Scene F32} (hsc : (built hist).construct mk = some scene)
    (camera : PerspectiveCamera F32) (hcam : SteadyCamera camera) (res : V2 Int) (filt : Filter F32) (hR : FilmRange32 res filt.radius)
    {ρ : Type} (next : ρ → F32 × ρ) (hnext : ∀ r, Sample32 (next r).1)
    (sampler : RandomSampler ρ) (hspp : sampler.samplesPerPixel < 2 ^ 32) (n : Nat) (file : Option (List UInt8)) :
    Renders (renderTile (RandomSampler.ops next) (cameraRadiance scene camera) (Film.new res filt)) sampler (Film.new res filt) n file :=
  renders_of _ _ res filt hR sampler n file (c76_matt_random hl hist hlib hmk hsc camera hcam res filt hR next hnext sampler hspp n file)
end

/-- A counter as generator: the numbers 0, 1/8, …, 7/8 again and again. -/
def Demo.eighths (k : Nat) : F32 × Nat := (f32 ((k % 8 : Nat) / 8), k + 1)

theorem eighths_sample (k : Nat) : Sample32 (Demo.eighths k).1 := by
  have h : ∀ j < 8, (Fl.le (lit 0) (f32 ((j : Nat) / 8)) && Fl.lt (f32 ((j : Nat) / 8)) (lit 1)) = true := by decide +kernel
  have := h (k % 8) (Nat.mod_lt _ (by norm_num))
  rw [Bool.and_eq_true] at this
  exact ⟨Fl.ofVal_WF _ _, this.1, this.2⟩

/-- The hypotheses are met by a scene of a wall, a ball, an area light and a distant light, the library's perspective camera, a rough mathematical
library and a simple generator. -/
example [Libm F64] (e : V2 F32 → F32) (n : Nat) (file : Option (List UInt8)) :
    letI := Demo.roughLibm
    ∃ scene, (built Demo.mattScene).construct (fun ss => (Simple.new ss).map Simple.toContainer) = some scene ∧
      let film := Film.new ⟨640, 480⟩ (⟨lit 2, e⟩ : Filter F32)
      Renders (renderTile (RandomSampler.ops Demo.eighths) (cameraRadiance scene Demo.wideCamera) film) (RandomSampler.new 16 0) film n file := by
  let _ := Demo.roughLibm
  have hR : FilmRange32 ⟨640, 480⟩ (⟨lit 2, e⟩ : Filter F32).radius := by
    have h : (lit (2 : ℚ) : F32).IsFin ∧ (lit (2 : ℚ) : F32).val = 2 := by
      have := ofInt_exact (n := 2) (by norm_num)
      simpa [ofInt] using this
    exact ⟨h.1, by rw [h.2]; norm_num, by rw [h.2]; norm_num, by norm_num, by norm_num, by norm_num, by norm_num, by norm_num⟩
  refine ⟨_, rfl, ?_⟩
  exact c99_matt_random Demo.roughLibm_sane _ Demo.mattScene_matt .simple rfl _ (Demo.wideCamera_steady rfl) _ _ hR _ eighths_sample _ (by decide) n file

end PT
