import Verif.Props.Superposition

/-!
# What a render computes, from the camera samples to the pixels (C102, C103)

The composition of the results on the tiles, the samplers, the film and the threads: an image rendered with the Halton sampler is, in exact
arithmetic, the filtered sum of the camera samples of all pixels of the sampled region.
-/

namespace PT
open Spec

/-! ### Specification -/

namespace Spec
/-- The `i`-th camera sample of the pixel `p`: its place on the film and the light that arrives there, computed with the sampler in the state
after `start_pixel(p)` on the sampler as it was made and then `i` times `start_next_sample` (`Spec.sampleState`).  `none` if computing it panics. -/
noncomputable def cameraSample (radiance : V2 ℝ → Draw ℝ (Spectrum ℝ)) (s0 : HaltonSampler) (p : V2 Int) (i : Nat) : Option (V2 ℝ × Spectrum ℝ) :=
  ((oneSample radiance p).run HaltonSampler.ops (sampleState s0 p i)).map Prod.fst

/-- The light of a sample is usable: no channel is negative. -/
def Usable (l : Spectrum ℝ) : Prop := 0 ≤ l.r ∧ 0 ≤ l.g ∧ 0 ≤ l.b

open Classical in
/-- The usable samples among the samples number `i`, …, `i + n - 1` of the pixel. -/
noncomputable def samplesFrom (radiance : V2 ℝ → Draw ℝ (Spectrum ℝ)) (s0 : HaltonSampler) (p : V2 Int) : Nat → Nat → List (V2 ℝ × Spectrum ℝ)
  | _, 0 => []
  | i, n + 1 => ((cameraSample radiance s0 p i).toList.filter fun s => Usable s.2) ++ samplesFrom radiance s0 p (i + 1) n

/-- The usable samples of the pixel, `n` being the number of samples asked for; at least one sample is taken. -/
noncomputable def samplesOf (radiance : V2 ℝ → Draw ℝ (Spectrum ℝ)) (s0 : HaltonSampler) (n : Nat) (p : V2 Int) : List (V2 ℝ × Spectrum ℝ) :=
  samplesFrom radiance s0 p 0 (max 1 n)

/-- The pixels in which samples are taken: the smallest block of whole pixels that covers everything within the filter radius of the centre of a pixel
of the image. -/
def Sampled (res : V2 Int) (r : ℝ) (p : V2 Int) : Prop :=
  (⌊1 / 2 - r⌋ ≤ p.x ∧ p.x < ⌈(res.x : ℝ) - 1 / 2 + r⌉) ∧ (⌊1 / 2 - r⌋ ≤ p.y ∧ p.y < ⌈(res.y : ℝ) - 1 / 2 + r⌉)
end Spec

/-! ### One pixel -/

theorem valid_iff_usable (l : Spectrum ℝ) : validRadiance l = true ↔ Usable l := by
  unfold validRadiance Spectrum.any Usable
  real_ops
  simp [and_assoc]

/-- Drawing numbers changes nothing but the dimension. -/
theorem halton_run_dim {β : Type} (d : Draw ℝ β) : ∀ (s : HaltonSampler) (b : β) (s' : HaltonSampler),
    d.run HaltonSampler.ops s = some (b, s') → ∃ k, s' = { s with dimension := k } := by
  induction d with
  | ret b => intro s b' s' e; simp only [Draw.run, Option.some.injEq, Prod.mk.injEq] at e; exact ⟨s.dimension, e.2.symm⟩
  | panic => intro s b s' e; simp [Draw.run] at e
  | get1 k ih =>
    intro s b s' e
    simp only [Draw.run] at e
    cases hg : (HaltonSampler.ops : SamplerOps ℝ _).get1d s with
    | none => rw [hg] at e; simp at e
    | some p =>
      rw [hg] at e
      obtain ⟨j, rfl⟩ := ih p.1 p.2 _ _ e
      obtain ⟨x, t⟩ := p
      simp only [HaltonSampler.ops, bind, pure] at hg
      obtain ⟨y, _, hg⟩ := Option.bind_eq_some_iff.1 hg
      simp only [Option.some.injEq, Prod.mk.injEq] at hg
      rw [← hg.2]; exact ⟨j, rfl⟩
  | get2 k ih =>
    intro s b s' e
    simp only [Draw.run] at e
    cases hg : (HaltonSampler.ops : SamplerOps ℝ _).get2d s with
    | none => rw [hg] at e; simp at e
    | some p =>
      rw [hg] at e
      obtain ⟨j, rfl⟩ := ih p.1 p.2 _ _ e
      obtain ⟨x, t⟩ := p
      simp only [HaltonSampler.ops, bind, pure] at hg
      obtain ⟨y, _, hg⟩ := Option.bind_eq_some_iff.1 hg
      obtain ⟨z, _, hg⟩ := Option.bind_eq_some_iff.1 hg
      simp only [Option.some.injEq, Prod.mk.injEq] at hg
      rw [← hg.2]; exact ⟨j, rfl⟩

theorem startNextSample_dim (s : HaltonSampler) (k : Nat) : ({ s with dimension := k } : HaltonSampler).startNextSample = s.startNextSample := rfl

/-- The samples of a pixel are taken one after the other. -/
theorem takeSamples_samples (radiance : V2 ℝ → Draw ℝ (Spectrum ℝ)) (s0 : HaltonSampler) (p : V2 Int) : ∀ (n i : Nat) (t t' : FilmTile ℝ) (s' : HaltonSampler),
    Spec.takeSamples HaltonSampler.ops radiance p n t (sampleState s0 p i) = some (t', s') →
      (∀ j, i ≤ j → j < i + n → ∃ s, cameraSample radiance s0 p j = some s) ∧
      (samplesFrom radiance s0 p i n).foldlM (fun t s => t.addSample s.1 s.2) t = some t' := by
  intro n
  induction n with
  | zero =>
    intro i t t' s' e
    simp only [Spec.takeSamples, Option.some.injEq, Prod.mk.injEq] at e
    exact ⟨fun j h1 h2 => absurd h2 (by omega), by rw [samplesFrom, List.foldlM_nil, e.1]; rfl⟩
  | succ n ih =>
    intro i t t' s' e
    simp only [Spec.takeSamples, bind] at e
    obtain ⟨⟨⟨pf, l⟩, s1⟩, e1, e⟩ := Option.bind_eq_some_iff.1 e
    obtain ⟨t1, e2, e⟩ := Option.bind_eq_some_iff.1 e
    obtain ⟨k, rfl⟩ := halton_run_dim _ _ _ _ e1
    have hc : cameraSample radiance s0 p i = some (pf, l) := by unfold cameraSample; rw [e1]; rfl
    obtain ⟨h1, h2⟩ := ih (i + 1) t1 t' s' e
    refine ⟨fun j hj hj' => ?_, ?_⟩
    · rcases Nat.lt_or_ge i j with h | h
      · exact h1 j h (by omega)
      · obtain rfl : j = i := by omega
        exact ⟨_, hc⟩
    · rw [samplesFrom, hc, List.foldlM_append]
      unfold addIfValid at e2
      by_cases hu : Usable l
      · rw [if_pos ((valid_iff_usable l).2 hu)] at e2
        simp only [Option.toList_some, hu, decide_true, List.filter_cons_of_pos, List.filter_nil, List.foldlM_cons, List.foldlM_nil, e2]
        exact h2
      · rw [if_neg (fun h => hu ((valid_iff_usable l).1 h))] at e2
        cases e2
        simp only [Option.toList_some, hu, decide_false, Bool.false_eq_true, not_false_eq_true, List.filter_cons_of_neg, List.filter_nil, List.foldlM_nil]
        exact h2

/-- All samples of a pixel are taken in it. -/
theorem samplesFrom_pos (radiance : V2 ℝ → Draw ℝ (Spectrum ℝ)) (s0 : HaltonSampler) (p : V2 Int) : ∀ (n i : Nat), ∀ s ∈ samplesFrom radiance s0 p i n,
    ∃ j, i ≤ j ∧ j < i + n ∧ cameraSample radiance s0 p j = some s ∧ Usable s.2 := by
  intro n
  induction n with
  | zero => intro i s hs; simp [samplesFrom] at hs
  | succ n ih =>
    intro i s hs
    rw [samplesFrom, List.mem_append] at hs
    rcases hs with hs | hs
    · obtain ⟨h1, h2⟩ := List.mem_filter.1 hs
      exact ⟨i, le_refl _, by omega, by simpa using h1, by simpa using h2⟩
    · obtain ⟨j, h1, h2, h3⟩ := ih (i + 1) s hs
      exact ⟨j, by omega, by omega, h3⟩

theorem mem_samplesFrom (radiance : V2 ℝ → Draw ℝ (Spectrum ℝ)) (s0 : HaltonSampler) (p : V2 Int) : ∀ (n i j : Nat) (s : V2 ℝ × Spectrum ℝ),
    i ≤ j → j < i + n → cameraSample radiance s0 p j = some s → Usable s.2 → s ∈ samplesFrom radiance s0 p i n := by
  intro n
  induction n with
  | zero => intro i j s h1 h2; omega
  | succ n ih =>
    intro i j s h1 h2 h3 h4
    rw [samplesFrom, List.mem_append]
    rcases Nat.lt_or_ge i j with h | h
    · exact Or.inr (ih (i + 1) j s h (by omega) h3 h4)
    · obtain rfl : j = i := by omega
      exact Or.inl (List.mem_filter.2 ⟨by simp [h3], by simpa using h4⟩)

theorem cameraSample_pos {radiance : V2 ℝ → Draw ℝ (Spectrum ℝ)} {s0 : HaltonSampler} {p : V2 Int} {i : Nat} {s : V2 ℝ × Spectrum ℝ}
    (h : cameraSample radiance s0 p i = some s) : ((p.x : ℝ) ≤ s.1.x ∧ s.1.x < p.x + 1) ∧ ((p.y : ℝ) ≤ s.1.y ∧ s.1.y < p.y + 1) := by
  unfold cameraSample at h
  obtain ⟨⟨s, s'⟩, h1, rfl⟩ := Option.map_eq_some_iff.1 h
  unfold oneSample at h1
  rw [draw_run_bind] at h1
  obtain ⟨⟨q, s1⟩, h2, h1⟩ := Option.bind_eq_some_iff.1 h1
  rw [draw_run_bind] at h1
  obtain ⟨⟨l, s2⟩, h3, h1⟩ := Option.bind_eq_some_iff.1 h1
  simp only [Draw.run, Option.some.injEq, Prod.mk.injEq] at h1
  have := c25_camera_sample_in_pixel HaltonSampler.ops (fun s u s' hs => halton_delivers.2 s u s' hs) p _ s1 q h2
  rw [← h1.1]
  exact this

theorem cameraSample_light {radiance : V2 ℝ → Draw ℝ (Spectrum ℝ)} {s0 : HaltonSampler} {p : V2 Int} {i : Nat} {s : V2 ℝ × Spectrum ℝ}
    (h : cameraSample radiance s0 p i = some s) : ∃ s1 s2, (radiance s.1).run HaltonSampler.ops s1 = some (s.2, s2) := by
  unfold cameraSample at h
  obtain ⟨⟨s, s'⟩, h1, rfl⟩ := Option.map_eq_some_iff.1 h
  unfold oneSample at h1
  rw [draw_run_bind] at h1
  obtain ⟨⟨q, s1⟩, h2, h1⟩ := Option.bind_eq_some_iff.1 h1
  rw [draw_run_bind] at h1
  obtain ⟨⟨l, s2⟩, h3, h1⟩ := Option.bind_eq_some_iff.1 h1
  simp only [Draw.run, Option.some.injEq, Prod.mk.injEq] at h1
  rw [← h1.1]
  exact ⟨s1, s2, h3⟩

/-! ### One tile -/

theorem foldPixels_samples (radiance : V2 ℝ → Draw ℝ (Spectrum ℝ)) (spp : Nat) (hspp : spp < 2 ^ 32) (box : BBox2i) : ∀ (ps : List (V2 Int)) (t : FilmTile ℝ)
    (s : HaltonSampler) (t' : FilmTile ℝ) (s' : HaltonSampler), Spec.Hist ℝ (HaltonSampler.new spp box) s →
    ps.foldlM (fun (acc : FilmTile ℝ × HaltonSampler) pixel =>
      pixelLoop HaltonSampler.ops radiance pixel (2 ^ 32) acc.1 ((HaltonSampler.ops : SamplerOps ℝ _).startPixel acc.2 pixel)) (t, s) = some (t', s') →
    (∀ p ∈ ps, ∀ j < max 1 spp, ∃ q, cameraSample radiance (HaltonSampler.new spp box) p j = some q) ∧
    (ps.flatMap (samplesOf radiance (HaltonSampler.new spp box) spp)).foldlM (fun t s => t.addSample s.1 s.2) t = some t' := by
  intro ps
  induction ps with
  | nil =>
    intro t s t' s' _ e
    simp only [List.foldlM_nil] at e
    cases e
    exact ⟨fun p hp => absurd hp (List.not_mem_nil), rfl⟩
  | cons p ps ih =>
    intro t s t' s' hs e
    rw [List.foldlM_cons] at e
    obtain ⟨⟨t1, s1⟩, e1, e⟩ := Option.bind_eq_some_iff.1 e
    have hinv := hist_inv spp box s hs
    obtain ⟨h1, h2⟩ := ih t1 s1 t' s' (hist_pixelLoop radiance p _ _ _ _ _ (.startPixel _ _ hs) e1) e
    have hst := (c23_history_independent spp box s _ hs .start p (Draw.ret () : Draw ℝ Unit)).1
    simp only at e1
    rw [c22_halton_sample_count radiance p t s (by rw [hinv.spp]; exact hspp), hinv.spp, hst] at e1
    obtain ⟨k1, k2⟩ := takeSamples_samples radiance (HaltonSampler.new spp box) p (max 1 spp) 0 t t1 s1 e1
    refine ⟨fun q hq j hj => ?_, ?_⟩
    · rcases List.mem_cons.1 hq with rfl | hq
      · exact k1 j (Nat.zero_le _) (by omega)
      · exact h1 q hq j hj
    · rw [List.flatMap_cons, List.foldlM_append]
      unfold samplesOf
      rw [k2]
      exact h2

/-- Rendering a tile adds the samples of its pixels, one after the other. -/
theorem renderTile_samples (radiance : V2 ℝ → Draw ℝ (Spectrum ℝ)) (film : Film ℝ) (spp : Nat) (hspp : spp < 2 ^ 32) (box b : BBox2i) (t : FilmTile ℝ)
    (s' : HaltonSampler) (h : renderTile HaltonSampler.ops radiance film (HaltonSampler.new spp box) b = some (t, s')) :
    (∀ p ∈ b.iter.toList, ∀ j < max 1 spp, ∃ q, cameraSample radiance (HaltonSampler.new spp box) p j = some q) ∧
    (b.iter.toList.flatMap (samplesOf radiance (HaltonSampler.new spp box) spp)).foldlM (fun t s => t.addSample s.1 s.2) (film.getFilmTile b) = some t :=
  foldPixels_samples radiance spp hspp box _ _ _ _ _ .start h

theorem samplesOf_in_tile (radiance : V2 ℝ → Draw ℝ (Spectrum ℝ)) (s0 : HaltonSampler) (n : Nat) (b : BBox2i) :
    ∀ s ∈ b.iter.toList.flatMap (samplesOf radiance s0 n), Spec.PosIn b s.1 := by
  intro s hs
  obtain ⟨p, hp, hs⟩ := List.mem_flatMap.1 hs
  obtain ⟨j, -, -, hj, -⟩ := samplesFrom_pos radiance s0 p _ _ s hs
  obtain ⟨⟨h1, h2⟩, h3, h4⟩ := cameraSample_pos hj
  have hb := (b.mem_toList p).1 hp
  unfold Spec.InBox at hb
  obtain ⟨a1, a2, a3, a4⟩ := hb
  have b1 : (b.min.x : ℝ) ≤ p.x := by exact_mod_cast a1
  have b2 : (p.x : ℝ) + 1 ≤ b.max.x := by exact_mod_cast a2
  have b3 : (b.min.y : ℝ) ≤ p.y := by exact_mod_cast a3
  have b4 : (p.y : ℝ) + 1 ≤ b.max.y := by exact_mod_cast a4
  exact ⟨by linarith, by linarith, by linarith, by linarith⟩

open Classical in
/-- What a rendered tile has for a pixel of the image. -/
theorem renderTile_pixel (res : V2 Int) (filt : Filter ℝ) (hR : FilmRange res filt.radius) (radiance : V2 ℝ → Draw ℝ (Spectrum ℝ))
    (spp : Nat) (hspp : spp < 2 ^ 32) (b : BBox2i) (hb : b ∈ (Film.new res filt).iter.toList) (t : FilmTile ℝ) (box : BBox2i)
    (s' : HaltonSampler) (h : renderTile HaltonSampler.ops radiance (Film.new res filt) (HaltonSampler.new spp box) b = some (t, s'))
    (x y : Int) (hi : Spec.InImage res x y) :
    (if InTile t x y then t.px x y else ⟨⟨0, 0, 0⟩, 0⟩) =
      Spec.pixel filt (b.iter.toList.flatMap (samplesOf radiance (HaltonSampler.new spp box) spp)) x y := by
  have hs := samplesOf_in_tile radiance (HaltonSampler.new spp box) spp b
  obtain ⟨t', e1, e2, e3, e4⟩ := addSamples_spec res filt hR b hb _ hs ((Film.new res filt).getFilmTile b) rfl rfl rfl
    (getFilmTile_sized _ _ (tile_fits (film := Film.new res filt) hR hb))
  rw [(renderTile_samples radiance _ spp hspp box b t s' h).2] at e1
  obtain rfl := Option.some.inj e1
  split_ifs with hin
  · rw [e4 x y hi hin, getFilmTile_at, pixel_zero_real]
    simp [Pixel.merge, Spectrum.add, r_add]
  · exact (pixel_outside res filt hR b hb _ hs x y hi (by unfold InTile at hin ⊢; rw [e2] at hin; exact hin)).symm

/-! ### The whole image -/

theorem pixel_perm (filt : Filter ℝ) {l m : List (V2 ℝ × Spectrum ℝ)} (h : l.Perm m) (x y : Int) : Spec.pixel filt l x y = Spec.pixel filt m x y := by
  unfold Spec.pixel Spec.colorSum Spec.weightSum
  rw [(h.map _).sum_eq, (h.map _).sum_eq, (h.map _).sum_eq, (h.map _).sum_eq]

theorem pixel_flatMap (filt : Filter ℝ) (comp : Pixel ℝ → ℝ) (hcomp : ∀ p q : Pixel ℝ, comp (p.merge q) = comp p + comp q) {γ : Type} (f : γ → List (V2 ℝ × Spectrum ℝ))
    (x y : Int) : ∀ l : List γ, comp (Spec.pixel filt (l.flatMap f) x y) = (l.map fun b => comp (Spec.pixel filt (f b) x y)).sum := by
  have h0 : comp ⟨⟨0, 0, 0⟩, 0⟩ = 0 := by
    have := hcomp ⟨⟨0, 0, 0⟩, 0⟩ ⟨⟨0, 0, 0⟩, 0⟩
    simp only [Pixel.merge, Spectrum.add, r_add, add_zero] at this
    linarith
  intro l
  induction l with
  | nil => simpa [Spec.pixel, Spec.colorSum, Spec.weightSum] using h0
  | cons b l ih => rw [List.flatMap_cons, Spec.pixel_append, hcomp, ih, List.map_cons, List.sum_cons]

/-- In a render that has completed every tile has been rendered. -/
theorem halton_rendered (film : Film ℝ) (radiance : V2 ℝ → Draw ℝ (Spectrum ℝ)) (spp : Nat) (n : Nat) (hn : 1 ≤ n) (file : Option (List UInt8)) (k : Nat)
    (st : RState ℝ HaltonSampler) (hr : RReach (fun s b => renderTile HaltonSampler.ops radiance film s b) (HaltonSampler.new spp film.sampleBBox)
      (RState.init film n file) k st) (hdone : st.main = .done) (b : BBox2i) (hb : b ∈ film.iter.toList) :
    ∃ t s', renderTile HaltonSampler.ops radiance film (HaltonSampler.new spp film.sampleBBox) b = some (t, s') := by
  obtain ⟨log, lost, base, h⟩ := rinv_reach (R := Spec.Hist ℝ (HaltonSampler.new spp film.sampleBBox))
    (fun s b t s' hs e => hist_renderTile radiance film s b t s' hs e) .start hr
  have hm := h.main
  unfold mainOk at hm; rw [hdone] at hm
  obtain ⟨h1, h2, h3, h4⟩ := hm
  have hbox : (st.threads.map PC.box).sum = 0 := by
    apply List.sum_eq_zero
    intro x hx
    obtain ⟨pc, hp, rfl⟩ := List.mem_map.1 hx
    rw [h2 pc hp]; rfl
  have hlost : lost = 0 := h.lost0 fun hc => by have := h2 _ hc; simp at this
  have hne : st.threads ≠ [] := by intro hc; rw [hc] at h1; simp at h1; omega
  obtain ⟨pc, hpc⟩ := List.exists_mem_of_ne_nil _ hne
  have hend : st.sh.iter.toList = [] := h.over pc hpc (by rw [h2 pc hpc]; trivial)
  have hcount := h.count
  rw [hbox, hlost, hend] at hcount
  simp only [Multiset.coe_nil, add_zero] at hcount
  have p1 := (Multiset.coe_eq_coe.1 hcount).symm
  obtain ⟨e, he, rfl⟩ := List.mem_map.1 (p1.mem_iff.2 hb)
  obtain ⟨hs, s', hw⟩ := h.logOk _ he
  have := renderTile_halton spp film.sampleBBox radiance film e.1 _ hs .start e.2.1
  rw [hw] at this
  obtain ⟨⟨t, s2⟩, h5, -⟩ := Option.map_eq_some_iff.1 this.symm
  exact ⟨t, s2, h5⟩

theorem haltonTile_rendered (res : V2 Int) (filt : Filter ℝ) (radiance : V2 ℝ → Draw ℝ (Spectrum ℝ)) (spp : Nat) (b : BBox2i) (t : FilmTile ℝ) (s' : HaltonSampler)
    (h : renderTile HaltonSampler.ops radiance (Film.new res filt) (HaltonSampler.new spp (Film.new res filt).sampleBBox) b = some (t, s')) :
    haltonTile res filt radiance spp b = t := by
  unfold haltonTile
  rw [h]
  rfl

theorem sampled_iff (res : V2 Int) (filt : Filter ℝ) (hR : FilmRange res filt.radius) (p : V2 Int) :
    Spec.InBox (Film.new res filt).sampleBBox p ↔ Sampled res filt.radius p := by
  rw [sampleBBox_eq (Film.new res filt) hR]
  unfold Spec.InBox Sampled
  simp only [Film.new, and_assoc]

theorem tiles_perm (film : Film ℝ) : (film.iter.toList.flatMap fun b => b.iter.toList).Perm film.sampleBBox.iter.toList := by
  have nd : ∀ b : BBox2i, b.iter.toList.Nodup := by
    intro b
    refine (b.pairwise_toList).imp ?_
    intro p q h e
    subst e
    rcases h with h | h <;> omega
  obtain ⟨h1, h2, h3⟩ := c02_tiles_partition film.sampleBBox
  rw [List.perm_ext_iff_of_nodup _ (nd _)]
  · intro p
    rw [List.mem_flatMap, BBox2i.mem_toList]
    constructor
    · rintro ⟨b, hb, hp⟩
      exact (h1 b hb).2.2.2.2 p ((b.mem_toList p).1 hp)
    · intro hp
      obtain ⟨b, hb, hp⟩ := h3 p hp
      exact ⟨b, hb, (b.mem_toList p).2 hp⟩
  · rw [List.nodup_flatMap]
    refine ⟨fun b _ => nd b, h2.imp ?_⟩
    intro b c h
    rw [Function.onFun, List.disjoint_left]
    intro p hp hq
    exact h p ⟨(b.mem_toList p).1 hp, (c.mem_toList p).1 hq⟩

/-- C102.  When a render with the Halton sampler has completed, whatever the number of threads and the schedule: no sample of a sampled pixel panicked,
each was taken inside its pixel, and every pixel of the image holds the filtered sum of the usable samples of all the sampled pixels — `max(1, spp)` for each,
the `i`-th being computed with the sampler in the state after `start_pixel` and `i` times `start_next_sample`. -/
theorem c102_image (res : V2 Int) (filt : Filter ℝ) (hR : FilmRange res filt.radius) (radiance : V2 ℝ → Draw ℝ (Spectrum ℝ)) (spp : Nat) (hspp : spp < 2 ^ 32)
    (n : Nat) (hn : 1 ≤ n) (file : Option (List UInt8)) (k : Nat) (st : RState ℝ HaltonSampler) :
    let film := Film.new res filt
    let sampler := HaltonSampler.new spp film.sampleBBox
    RReach (fun s b => renderTile HaltonSampler.ops radiance film s b) sampler (RState.init film n file) k st → st.main = .done →
    (∀ p, Sampled res filt.radius p → ∀ i < max 1 spp, ∃ s, cameraSample radiance sampler p i = some s ∧
      ((p.x : ℝ) ≤ s.1.x ∧ s.1.x < p.x + 1) ∧ ((p.y : ℝ) ≤ s.1.y ∧ s.1.y < p.y + 1)) ∧
    ∀ ps : List (V2 Int), ps.Nodup → (∀ p, p ∈ ps ↔ Sampled res filt.radius p) → ∀ x y, Spec.InImage res x y →
      st.sh.film.px x y = Spec.pixel filt (ps.flatMap (samplesOf radiance sampler spp)) x y := by
  intro film sampler hr hd
  have hren := halton_rendered film radiance spp n hn file k st hr hd
  refine ⟨fun p hp i hi => ?_, fun ps hnd hps x y hin => ?_⟩
  · obtain ⟨b, hb, hpb⟩ := (c02_tiles_partition film.sampleBBox).2.2 p ((sampled_iff res filt hR p).2 hp)
    obtain ⟨t, s', ht⟩ := hren b hb
    obtain ⟨s, hs⟩ := (renderTile_samples radiance film spp hspp _ b t s' ht).1 p ((b.mem_toList p).2 hpb) i hi
    exact ⟨s, hs, cameraSample_pos hs⟩
  · have hperm : ps.Perm (film.iter.toList.flatMap fun b => b.iter.toList) := by
      refine List.Perm.trans ?_ (tiles_perm film).symm
      refine (List.perm_ext_iff_of_nodup hnd ((c01_pixel_iteration_exact _).2.imp ?_)).2 fun p => ?_
      · intro p q h e
        subst e
        rcases h with h | h <;> omega
      · rw [hps, BBox2i.mem_toList]; exact (sampled_iff res filt hR p).symm
    rw [pixel_perm filt (hperm.flatMap_right (samplesOf radiance sampler spp)), List.flatMap_assoc]
    have h0 : film.px x y = Pixel.zero := by
      unfold Film.px film Film.new
      simp only [List.getElem?_replicate]
      split <;> rfl
    have key : ∀ comp : Pixel ℝ → ℝ, (∀ p q : Pixel ℝ, comp (p.merge q) = comp p + comp q) → comp ⟨⟨0, 0, 0⟩, 0⟩ = 0 →
        comp (st.sh.film.px x y) = comp (Spec.pixel filt (film.iter.toList.flatMap fun b => b.iter.toList.flatMap (samplesOf radiance sampler spp)) x y) := by
      intro comp hcomp hz
      rw [halton_pixel res filt hR radiance spp n hn file k st hr hd comp hcomp x y hin, pixel_flatMap filt comp hcomp]
      have : comp ((Film.new res filt).px x y) = 0 := by
        change comp (film.px x y) = 0
        rw [h0, pixel_zero_real]; exact hz
      rw [this, zero_add]
      congr 1
      apply List.map_congr_left
      intro b hb
      obtain ⟨t, s', ht⟩ := hren b hb
      rw [haltonTile_rendered res filt radiance spp b t s' ht, ← renderTile_pixel res filt hR radiance spp hspp b hb t _ s' ht x y hin]
      split_ifs
      · rfl
      · exact hz.symm
    ext
    · exact key (fun p => p.color.r) (fun p q => rfl) rfl
    · exact key (fun p => p.color.g) (fun p q => rfl) rfl
    · exact key (fun p => p.color.b) (fun p q => rfl) rfl
    · exact key (fun p => p.weight) (fun p q => rfl) rfl

/-! ### C102 for any sampler -/

section
variable {σ : Type} {ops : SamplerOps ℝ σ} {idx spp : σ → Nat}

/-- A camera sample of the pixel, computed with the sampler in some state. -/
def Spec.TakenIn (ops : SamplerOps ℝ σ) (radiance : V2 ℝ → Draw ℝ (Spectrum ℝ)) (p : V2 Int) (q : V2 ℝ × Spectrum ℝ) : Prop :=
  ∃ s s', (oneSample radiance p).run ops s = some (q, s')

open Classical in
/-- The samples whose light is usable. -/
noncomputable def Spec.usables (l : List (V2 ℝ × Spectrum ℝ)) : List (V2 ℝ × Spectrum ℝ) := l.filter fun s => Usable s.2

theorem takeSamples_any (h : Counting ops idx spp) (radiance : V2 ℝ → Draw ℝ (Spectrum ℝ)) (p : V2 Int) : ∀ (n : Nat) (t : FilmTile ℝ) (s : σ) (t' : FilmTile ℝ) (s' : σ),
    idx s + n < 2 ^ 32 → Spec.takeSamples ops radiance p n t s = some (t', s') → spp s' = spp s ∧
      ∃ l : List (V2 ℝ × Spectrum ℝ), l.length = n ∧ (∀ q ∈ l, TakenIn ops radiance p q) ∧
        (usables l).foldlM (fun t s => t.addSample s.1 s.2) t = some t' := by
  intro n
  induction n with
  | zero =>
    intro t s t' s' _ e
    simp only [Spec.takeSamples, Option.some.injEq, Prod.mk.injEq] at e
    obtain ⟨rfl, rfl⟩ := e
    exact ⟨rfl, [], rfl, by simp, rfl⟩
  | succ n ih =>
    intro t s t' s' hs e
    simp only [Spec.takeSamples, bind] at e
    obtain ⟨⟨⟨pf, l⟩, s1⟩, e1, e⟩ := Option.bind_eq_some_iff.1 e
    obtain ⟨t1, e2, e⟩ := Option.bind_eq_some_iff.1 e
    obtain ⟨i1, i2⟩ := h.run _ _ _ _ e1
    obtain ⟨-, n2, n3⟩ := h.next s1 (by omega)
    obtain ⟨k1, m, k2, k3, k4⟩ := ih t1 _ t' s' (by rw [n2]; omega) e
    refine ⟨by rw [k1, n3, i2], (pf, l) :: m, by rw [List.length_cons, k2], ?_, ?_⟩
    · intro q hq
      rcases List.mem_cons.1 hq with rfl | hq
      · exact ⟨s, s1, e1⟩
      · exact k3 q hq
    · unfold usables at k4 ⊢
      unfold addIfValid at e2
      by_cases hu : Usable l
      · rw [if_pos ((valid_iff_usable l).2 hu)] at e2
        rw [List.filter_cons_of_pos (by simpa using hu), List.foldlM_cons, e2]
        exact k4
      · rw [if_neg (fun h => hu ((valid_iff_usable l).1 h))] at e2
        cases e2
        rw [List.filter_cons_of_neg (by simpa using hu)]
        exact k4

theorem usables_append (l m : List (V2 ℝ × Spectrum ℝ)) : usables (l ++ m) = usables l ++ usables m := by
  unfold usables; rw [List.filter_append]

theorem foldPixels_any (h : Counting ops idx spp) (radiance : V2 ℝ → Draw ℝ (Spectrum ℝ)) {n : Nat} (hn : n < 2 ^ 32) : ∀ (ps : List (V2 Int)) (_ : ps.Nodup)
    (t : FilmTile ℝ) (s : σ) (t' : FilmTile ℝ) (s' : σ), spp s = n →
    ps.foldlM (fun (acc : FilmTile ℝ × σ) pixel => pixelLoop ops radiance pixel (2 ^ 32) acc.1 (ops.startPixel acc.2 pixel)) (t, s) = some (t', s') →
    spp s' = n ∧ ∃ f : V2 Int → List (V2 ℝ × Spectrum ℝ), (∀ p ∈ ps, (f p).length = max 1 n ∧ ∀ q ∈ f p, TakenIn ops radiance p q) ∧
      (ps.flatMap fun p => usables (f p)).foldlM (fun t s => t.addSample s.1 s.2) t = some t' := by
  intro ps
  induction ps with
  | nil =>
    intro _ t s t' s' hs e
    simp only [List.foldlM_nil] at e
    cases e
    exact ⟨hs, fun _ => [], fun p hp => absurd hp (List.not_mem_nil), rfl⟩
  | cons p ps ih =>
    intro hnd t s t' s' hs e
    rw [List.foldlM_cons] at e
    obtain ⟨⟨t1, s1⟩, e1, e⟩ := Option.bind_eq_some_iff.1 e
    simp only at e1
    rw [h.pixel radiance p t s (by rw [hs]; exact hn), hs] at e1
    obtain ⟨a1, a2⟩ := h.start s p
    obtain ⟨k1, l, k2, k3, k4⟩ := takeSamples_any h radiance p (max 1 n) t _ t1 s1 (by rw [a1]; omega) e1
    obtain ⟨hp, hnd⟩ := List.nodup_cons.1 hnd
    obtain ⟨i1, f, i2, i3⟩ := ih hnd t1 s1 t' s' (by rw [k1, a2, hs]) e
    obtain ⟨F, hF1, hF2⟩ : ∃ F : V2 Int → List (V2 ℝ × Spectrum ℝ), F p = l ∧ ∀ q, q ≠ p → F q = f q := by
      classical
      exact ⟨Function.update f p l, Function.update_self .., fun q hq => Function.update_of_ne hq ..⟩
    refine ⟨i1, F, fun q hq => ?_, ?_⟩
    · by_cases hqp : q = p
      · rw [hqp, hF1]; exact ⟨k2, k3⟩
      · rw [hF2 q hqp]
        exact i2 q ((List.mem_cons.1 hq).resolve_left hqp)
    · rw [List.flatMap_cons, List.foldlM_append, hF1, k4]
      have : (ps.flatMap fun q => usables (F q)) = ps.flatMap fun q => usables (f q) := by
        rw [List.flatMap_def, List.flatMap_def]
        congr 1
        apply List.map_congr_left
        intro q hq
        rw [hF2 q (fun e => hp (e ▸ hq))]
      rw [this]
      exact i3

theorem pixels_nodup (b : BBox2i) : b.iter.toList.Nodup := by
  refine (b.pairwise_toList).imp ?_
  intro p q h e
  subst e
  rcases h with h | h <;> omega

open Classical in
/-- What a tile rendered with any sampler has for a pixel of the image. -/
theorem renderTile_any (h : Counting ops idx spp) (hops : ∀ s u s', ops.get2d s = some (u, s') → (0 ≤ u.x ∧ u.x < 1) ∧ (0 ≤ u.y ∧ u.y < 1))
    (res : V2 Int) (filt : Filter ℝ) (hR : FilmRange res filt.radius) (radiance : V2 ℝ → Draw ℝ (Spectrum ℝ)) {n : Nat} (hn : n < 2 ^ 32)
    (b : BBox2i) (hb : b ∈ (Film.new res filt).iter.toList) (t : FilmTile ℝ) (s s' : σ) (hs : spp s = n)
    (hre : renderTile ops radiance (Film.new res filt) s b = some (t, s')) :
    ∃ f : V2 Int → List (V2 ℝ × Spectrum ℝ), (∀ p ∈ b.iter.toList, (f p).length = max 1 n ∧ ∀ q ∈ f p, TakenIn ops radiance p q) ∧
      ∀ x y, Spec.InImage res x y → (if InTile t x y then t.px x y else ⟨⟨0, 0, 0⟩, 0⟩) = Spec.pixel filt (b.iter.toList.flatMap fun p => usables (f p)) x y := by
  obtain ⟨-, f, h1, h2⟩ := foldPixels_any h radiance hn b.iter.toList (pixels_nodup b) _ s t s' hs hre
  refine ⟨f, h1, fun x y hi => ?_⟩
  have hpos : ∀ s ∈ b.iter.toList.flatMap fun p => usables (f p), Spec.PosIn b s.1 := by
    intro q hq
    obtain ⟨p, hp, hq⟩ := List.mem_flatMap.1 hq
    obtain ⟨s1, s2, e⟩ := (h1 p hp).2 q (List.mem_of_mem_filter hq)
    unfold oneSample at e
    rw [draw_run_bind] at e
    obtain ⟨⟨pf, s3⟩, e1, e⟩ := Option.bind_eq_some_iff.1 e
    rw [draw_run_bind] at e
    obtain ⟨⟨l, s4⟩, e3, e⟩ := Option.bind_eq_some_iff.1 e
    simp only [Draw.run, Option.some.injEq, Prod.mk.injEq] at e
    obtain ⟨⟨g1, g2⟩, g3, g4⟩ := c25_camera_sample_in_pixel ops hops p _ s3 pf e1
    obtain ⟨a1, a2, a3, a4⟩ := (b.mem_toList p).1 hp
    have b1 : (b.min.x : ℝ) ≤ p.x := by exact_mod_cast a1
    have b2 : (p.x : ℝ) + 1 ≤ b.max.x := by exact_mod_cast a2
    have b3 : (b.min.y : ℝ) ≤ p.y := by exact_mod_cast a3
    have b4 : (p.y : ℝ) + 1 ≤ b.max.y := by exact_mod_cast a4
    rw [← e.1]
    exact ⟨by simp only; linarith, by simp only; linarith, by simp only; linarith, by simp only; linarith⟩
  obtain ⟨t', e1, e2, e3, e4⟩ := addSamples_spec res filt hR b hb _ hpos ((Film.new res filt).getFilmTile b) rfl rfl rfl
    (getFilmTile_sized _ _ (tile_fits (film := Film.new res filt) hR hb))
  rw [h2] at e1
  obtain rfl := Option.some.inj e1
  split_ifs with hin
  · rw [e4 x y hi hin, getFilmTile_at, pixel_zero_real]
    simp [Pixel.merge, Spectrum.add, r_add]
  · exact (pixel_outside res filt hR b hb _ hpos x y hi (by unfold InTile at hin ⊢; rw [e2] at hin; exact hin)).symm

/-- C102 for every sampler that counts the samples of a pixel and delivers numbers in `[0, 1)`, in particular the random sampler: the image is the filtered sum of
`max(1, spp)` camera samples for each sampled pixel, less those that are not usable.  Which numbers they are computed from may depend on the schedule. -/
theorem c102_any_sampler (h : Counting ops idx spp) (hops : ∀ s u s', ops.get2d s = some (u, s') → (0 ≤ u.x ∧ u.x < 1) ∧ (0 ≤ u.y ∧ u.y < 1))
    (res : V2 Int) (filt : Filter ℝ) (hR : FilmRange res filt.radius) (radiance : V2 ℝ → Draw ℝ (Spectrum ℝ)) (sampler : σ) (hspp : spp sampler < 2 ^ 32)
    (n : Nat) (hn : 1 ≤ n) (file : Option (List UInt8)) (k : Nat) (st : RState ℝ σ) :
    let film := Film.new res filt
    RReach (fun s b => renderTile ops radiance film s b) sampler (RState.init film n file) k st → st.main = .done →
    ∃ f : V2 Int → List (V2 ℝ × Spectrum ℝ),
      (∀ p, Sampled res filt.radius p → (f p).length = max 1 (spp sampler) ∧ ∀ q ∈ f p, TakenIn ops radiance p q) ∧
      ∀ ps : List (V2 Int), ps.Nodup → (∀ p, p ∈ ps ↔ Sampled res filt.radius p) → ∀ x y, Spec.InImage res x y →
        st.sh.film.px x y = Spec.pixel filt (ps.flatMap fun p => usables (f p)) x y := by
  intro film hr hdone
  classical
  obtain ⟨log, lost, base, hI⟩ := rinv_reach (R := fun s => spp s = spp sampler)
    (fun s b t s' hs e => (foldPixels_any h radiance hspp b.iter.toList (pixels_nodup b) _ s t s' hs e).1) rfl hr
  have hm := hI.main
  unfold mainOk at hm; rw [hdone] at hm
  obtain ⟨h1, h2, h3, h4⟩ := hm
  have hbox : (st.threads.map PC.box).sum = 0 := by
    apply List.sum_eq_zero
    intro x hx
    obtain ⟨pc, hp, rfl⟩ := List.mem_map.1 hx
    rw [h2 pc hp]; rfl
  have hlost : lost = 0 := hI.lost0 fun hc => by have := h2 _ hc; simp at this
  have hne : st.threads ≠ [] := by intro hc; rw [hc] at h1; simp at h1; omega
  obtain ⟨pc, hpc⟩ := List.exists_mem_of_ne_nil _ hne
  have hend : st.sh.iter.toList = [] := hI.over pc hpc (by rw [h2 pc hpc]; trivial)
  have hcount := hI.count
  rw [hbox, hlost, hend] at hcount
  simp only [Multiset.coe_nil, add_zero] at hcount
  have p1 := (Multiset.coe_eq_coe.1 hcount).symm
  have p3 : mergeLog film log = some st.sh.film := by rw [hI.filmFree h4]; exact hI.baseOk
  have good : ∀ e ∈ log, e.2.1 ∈ film.iter.toList ∧ TileGood film e.2.1 e.2.2 := by
    intro e he
    obtain ⟨_, s', hw⟩ := hI.logOk e he
    exact ⟨p1.mem_iff.1 (List.mem_map.2 ⟨e, he, rfl⟩), renderTile_good _ _ _ (mkFilterTable_ok filt) _ _ _ _ hw⟩
  -- the samples of each tile
  have tile : ∀ e : LogEntry ℝ σ, ∃ f : V2 Int → List (V2 ℝ × Spectrum ℝ), e ∈ log →
      (∀ p ∈ e.2.1.iter.toList, (f p).length = max 1 (spp sampler) ∧ ∀ q ∈ f p, TakenIn ops radiance p q) ∧
      ∀ x y, Spec.InImage res x y → (if InTile e.2.2 x y then e.2.2.px x y else ⟨⟨0, 0, 0⟩, 0⟩) =
        Spec.pixel filt (e.2.1.iter.toList.flatMap fun p => usables (f p)) x y := by
    intro e
    by_cases he : e ∈ log
    · obtain ⟨hs, s', hw⟩ := hI.logOk e he
      obtain ⟨f, hf⟩ := renderTile_any h hops res filt hR radiance hspp e.2.1 (good e he).1 e.2.2 e.1 s' hs hw
      exact ⟨f, fun _ => hf⟩
    · exact ⟨fun _ => [], fun hc => absurd hc he⟩
  choose g hg using tile
  -- the samples of each pixel: those of the entry whose tile contains it
  obtain ⟨c1, c2, c3⟩ := c02_tiles_partition film.sampleBBox
  have own : ∀ p, ∃ e : LogEntry ℝ σ ⊕ Unit, Sampled res filt.radius p → ∃ e', e = .inl e' ∧ e' ∈ log ∧ p ∈ e'.2.1.iter.toList := by
    intro p
    by_cases hp : Sampled res filt.radius p
    · obtain ⟨b, hb, hpb⟩ := c3 p ((sampled_iff res filt hR p).2 hp)
      obtain ⟨e, he, rfl⟩ := List.mem_map.1 (p1.mem_iff.2 hb)
      exact ⟨.inl e, fun _ => ⟨e, rfl, he, (e.2.1.mem_toList p).2 hpb⟩⟩
    · exact ⟨.inr (), fun hc => absurd hc hp⟩
  choose o ho using own
  have hnd : (log.map fun e => e.2.1).Pairwise (fun t u => ∀ p, ¬ (Spec.InBox t p ∧ Spec.InBox u p)) :=
    (p1.pairwise_iff (fun {a b} hab p hp => hab p ⟨hp.2, hp.1⟩)).2 c2
  -- an entry of the log is determined by a pixel of its tile
  have uniq : ∀ l : List (LogEntry ℝ σ), (l.map fun e => e.2.1).Pairwise (fun t u => ∀ p, ¬ (Spec.InBox t p ∧ Spec.InBox u p)) →
      ∀ e ∈ l, ∀ e' ∈ l, ∀ p, Spec.InBox e.2.1 p → Spec.InBox e'.2.1 p → e = e' := by
    intro l
    induction l with
    | nil => intro _ e he; simp at he
    | cons a l ih =>
      intro hl e he e' he' p hp hp'
      rw [List.map_cons, List.pairwise_cons] at hl
      rcases List.mem_cons.1 he with g | g <;> rcases List.mem_cons.1 he' with g' | g'
      · rw [g, g']
      · exact absurd ⟨g ▸ hp, hp'⟩ (hl.1 _ (List.mem_map.2 ⟨e', g', rfl⟩) p)
      · exact absurd ⟨g' ▸ hp', hp⟩ (hl.1 _ (List.mem_map.2 ⟨e, g, rfl⟩) p)
      · exact ih hl.2 e g e' g' p hp hp'
  let f : V2 Int → List (V2 ℝ × Spectrum ℝ) := fun p => match o p with
    | .inl e => g e p
    | .inr _ => []
  have hf : ∀ e ∈ log, ∀ p ∈ e.2.1.iter.toList, f p = g e p := by
    intro e he p hp
    have hs : Sampled res filt.radius p := (sampled_iff res filt hR p).1 ((c1 _ (good e he).1).2.2.2.2 p ((e.2.1.mem_toList p).1 hp))
    obtain ⟨e', h1, h2, h3⟩ := ho p hs
    obtain rfl := uniq log hnd e he e' h2 p ((e.2.1.mem_toList p).1 hp) ((e'.2.1.mem_toList p).1 h3)
    simp only [f, h1]
  refine ⟨f, fun p hp => ?_, fun ps hpsn hps x y hi => ?_⟩
  · obtain ⟨e, h1, h2, h3⟩ := ho p hp
    rw [hf e h2 p h3]
    exact (hg e h2).1 p h3
  · have hperm : ps.Perm (log.flatMap fun e => e.2.1.iter.toList) := by
      have q1 : ((log.map fun e => e.2.1).flatMap fun b => b.iter.toList).Perm film.sampleBBox.iter.toList :=
        (p1.flatMap_right _).trans (tiles_perm film)
      rw [List.flatMap_map] at q1
      refine List.Perm.trans ?_ q1.symm
      refine (List.perm_ext_iff_of_nodup hpsn (pixels_nodup _)).2 fun p => ?_
      rw [hps, BBox2i.mem_toList]; exact (sampled_iff res filt hR p).symm
    rw [pixel_perm filt (hperm.flatMap_right fun p => usables (f p)), List.flatMap_assoc]
    have hpos : 0 ≤ res.x * res.y := Int.mul_nonneg hR.x0.le hR.y0.le
    have inv0 : FilmInv res filt film := ⟨rfl, rfl, rfl, filmNew_sized res hpos hR.area filt⟩
    have h0 : film.px x y = Pixel.zero := by
      unfold Film.px film Film.new
      simp only [List.getElem?_replicate]
      split <;> rfl
    have key : ∀ comp : Pixel ℝ → ℝ, (∀ p q : Pixel ℝ, comp (p.merge q) = comp p + comp q) → comp ⟨⟨0, 0, 0⟩, 0⟩ = 0 →
        comp (st.sh.film.px x y) = comp (Spec.pixel filt (log.flatMap fun e => e.2.1.iter.toList.flatMap fun p => usables (f p)) x y) := by
      intro comp hcomp hz
      rw [(mergeLog_px res filt hR comp hcomp x y hi log film _ inv0 good p3).2, pixel_flatMap filt comp hcomp, h0, pixel_zero_real, hz, zero_add]
      congr 1
      apply List.map_congr_left
      intro e he
      have : (e.2.1.iter.toList.flatMap fun p => usables (f p)) = e.2.1.iter.toList.flatMap fun p => usables (g e p) := by
        rw [List.flatMap_def, List.flatMap_def]
        congr 1
        apply List.map_congr_left
        intro p hp
        rw [hf e he p hp]
      rw [this, ← (hg e he).2 x y hi]
      split_ifs
      · rfl
      · exact hz.symm
    ext
    · exact key (fun p => p.color.r) (fun p q => rfl) rfl
    · exact key (fun p => p.color.g) (fun p q => rfl) rfl
    · exact key (fun p => p.color.b) (fun p q => rfl) rfl
    · exact key (fun p => p.weight) (fun p q => rfl) rfl
end

/-- The random sampler is such a sampler, whatever its generator, as long as the generator gives numbers in `[0, 1)`. -/
example {ρ : Type} (next : ρ → ℝ × ρ) (hnext : ∀ g, 0 ≤ (next g).1 ∧ (next g).1 < 1) (res : V2 Int) (filt : Filter ℝ) (hR : FilmRange res filt.radius)
    (radiance : V2 ℝ → Draw ℝ (Spectrum ℝ)) (sampler : RandomSampler ρ) (hspp : sampler.samplesPerPixel < 2 ^ 32) (n : Nat) (hn : 1 ≤ n)
    (file : Option (List UInt8)) (k : Nat) (st : RState ℝ (RandomSampler ρ)) :=
  c102_any_sampler (random_counting next) (fun s u s' e => by
    simp only [RandomSampler.ops, Option.some.injEq, Prod.mk.injEq] at e
    rw [← e.1]
    exact ⟨hnext _, hnext _⟩) res filt hR radiance sampler hspp n hn file k st

/-! ### C103 -/

namespace Spec
/-- Some usable sample of a sampled pixel, with the filter's reach covering the centre of the pixel `(x, y)`: a sample that counts for that pixel. -/
def Counts (res : V2 Int) (filt : Filter ℝ) (radiance : V2 ℝ → Draw ℝ (Spectrum ℝ)) (s0 : HaltonSampler) (spp : Nat) (x y : Int) (s : V2 ℝ × Spectrum ℝ) : Prop :=
  ∃ p i, Sampled res filt.radius p ∧ i < max 1 spp ∧ cameraSample radiance s0 p i = some s ∧ Usable s.2 ∧ Within filt.radius s.1 x y
end Spec

theorem exists_sampled (res : V2 Int) (filt : Filter ℝ) (hR : FilmRange res filt.radius) :
    ∃ ps : List (V2 Int), ps.Nodup ∧ ∀ p, p ∈ ps ↔ Sampled res filt.radius p := by
  refine ⟨(Film.new res filt).sampleBBox.iter.toList, (c01_pixel_iteration_exact _).2.imp ?_, fun p => ?_⟩
  · intro p q h e
    subst e
    rcases h with h | h <;> omega
  · rw [BBox2i.mem_toList]; exact sampled_iff res filt hR p

theorem sum_between (f g : V2 ℝ × Spectrum ℝ → ℝ) (a b : ℝ) : ∀ l : List (V2 ℝ × Spectrum ℝ), (∀ s ∈ l, a * g s ≤ f s ∧ f s ≤ b * g s) →
    a * (l.map g).sum ≤ (l.map f).sum ∧ (l.map f).sum ≤ b * (l.map g).sum := by
  intro l
  induction l with
  | nil => simp
  | cons s l ih =>
    intro h
    obtain ⟨h1, h2⟩ := ih fun s hs => h s (List.mem_cons_of_mem _ hs)
    obtain ⟨h3, h4⟩ := h s (List.mem_cons_self ..)
    simp only [List.map_cons, List.sum_cons, mul_add]
    exact ⟨by linarith, by linarith⟩

theorem pixel_chan (filt : Filter ℝ) (l : List (V2 ℝ × Spectrum ℝ)) (x y : Int) (c : Chan) : c.of (Spec.pixel filt l x y).color = Spec.colorSum filt c.of l x y := by
  cases c <;> rfl

/-- C103, the range: with a filter that is nowhere negative every pixel gets a non-negative weight, and in each channel a colour between the weight times
the least and the weight times the greatest light of the samples that count for it. -/
theorem c103_between (res : V2 Int) (filt : Filter ℝ) (hR : FilmRange res filt.radius) (hfilt : ∀ p, 0 ≤ filt.evaluate p)
    (radiance : V2 ℝ → Draw ℝ (Spectrum ℝ)) (spp : Nat) (hspp : spp < 2 ^ 32)
    (n : Nat) (hn : 1 ≤ n) (file : Option (List UInt8)) (k : Nat) (st : RState ℝ HaltonSampler) :
    let film := Film.new res filt
    let sampler := HaltonSampler.new spp film.sampleBBox
    RReach (fun s b => renderTile HaltonSampler.ops radiance film s b) sampler (RState.init film n file) k st → st.main = .done →
    ∀ x y, Spec.InImage res x y → 0 ≤ (st.sh.film.px x y).weight ∧
      ∀ (c : Chan) (a b : ℝ), (∀ s, Counts res filt radiance sampler spp x y s → a ≤ c.of s.2 ∧ c.of s.2 ≤ b) →
        a * (st.sh.film.px x y).weight ≤ c.of (st.sh.film.px x y).color ∧ c.of (st.sh.film.px x y).color ≤ b * (st.sh.film.px x y).weight := by
  intro film sampler hr hd x y hi
  obtain ⟨ps, h1, h2⟩ := exists_sampled res filt hR
  have e := (c102_image res filt hR radiance spp hspp n hn file k st hr hd).2 ps h1 h2 x y hi
  rw [e]
  constructor
  · refine List.sum_nonneg ?_
    intro v hv
    obtain ⟨s, -, rfl⟩ := List.mem_map.1 hv
    split_ifs
    · exact hfilt _
    · exact le_refl _
  · intro c a b hab
    rw [pixel_chan]
    refine sum_between _ _ a b _ fun s hs => ?_
    split_ifs with hw
    · obtain ⟨p, hp, hs⟩ := List.mem_flatMap.1 hs
      obtain ⟨j, -, hj, hc, hu⟩ := samplesFrom_pos radiance sampler p _ _ s hs
      obtain ⟨h3, h4⟩ := hab s ⟨p, j, (h2 p).1 hp, by omega, hc, hu, hw⟩
      have h0 : 0 ≤ Spec.weight filt s.1 x y := hfilt _
      exact ⟨mul_le_mul_of_nonneg_right h3 h0, mul_le_mul_of_nonneg_right h4 h0⟩
    · simp

/-- If all samples bring the same light, so does every pixel: its colour is its weight times that light. -/
theorem c103_uniform (res : V2 Int) (filt : Filter ℝ) (hR : FilmRange res filt.radius) (hfilt : ∀ p, 0 ≤ filt.evaluate p)
    (radiance : V2 ℝ → Draw ℝ (Spectrum ℝ)) (spp : Nat) (hspp : spp < 2 ^ 32)
    (n : Nat) (hn : 1 ≤ n) (file : Option (List UInt8)) (k : Nat) (st : RState ℝ HaltonSampler) (light : Spectrum ℝ) :
    let film := Film.new res filt
    let sampler := HaltonSampler.new spp film.sampleBBox
    (∀ p s l s', (radiance p).run HaltonSampler.ops s = some (l, s') → l = light) →
    RReach (fun s b => renderTile HaltonSampler.ops radiance film s b) sampler (RState.init film n file) k st → st.main = .done →
    ∀ x y, Spec.InImage res x y → ∀ c : Chan, c.of (st.sh.film.px x y).color = c.of light * (st.sh.film.px x y).weight := by
  intro film sampler hl hr hd x y hi c
  obtain ⟨h1, h2⟩ := (c103_between res filt hR hfilt radiance spp hspp n hn file k st hr hd x y hi).2 c (c.of light) (c.of light) (by
    rintro s ⟨p, i, -, -, hc, -⟩
    obtain ⟨s1, s2, h3⟩ := cameraSample_light hc
    rw [hl _ _ _ _ h3]
    exact ⟨le_refl _, le_refl _⟩)
  exact le_antisymm h2 h1

theorem cellCentre_lt {r d : ℝ} (hr : 0 < r) (hd : 0 ≤ d) : |Spec.cellCentre r d| < r := by
  unfold Spec.cellCentre
  have h0 : 0 ≤ ⌊16 * d / r⌋ := by rw [Int.le_floor]; push_cast; positivity
  have h1 : (0 : ℝ) ≤ (min ⌊16 * d / r⌋ 15 : Int) := by exact_mod_cast le_min h0 (by norm_num)
  have h2 : ((min ⌊16 * d / r⌋ 15 : Int) : ℝ) ≤ 15 := by exact_mod_cast min_le_right _ _
  rw [abs_of_nonneg (by positivity)]
  nlinarith

/-- C103, no pixel is left out: with a filter that is positive inside its radius and reaches at least half a pixel, every pixel of the image in which a usable
sample was taken gets a positive weight. -/
theorem c103_covered (res : V2 Int) (filt : Filter ℝ) (hR : FilmRange res filt.radius) (hfilt : ∀ p, 0 ≤ filt.evaluate p)
    (hpos : ∀ x y, |x| < filt.radius → |y| < filt.radius → 0 < filt.evaluate ⟨x, y⟩) (hr : 1 / 2 ≤ filt.radius)
    (radiance : V2 ℝ → Draw ℝ (Spectrum ℝ)) (spp : Nat) (hspp : spp < 2 ^ 32)
    (n : Nat) (hn : 1 ≤ n) (file : Option (List UInt8)) (k : Nat) (st : RState ℝ HaltonSampler) :
    let film := Film.new res filt
    let sampler := HaltonSampler.new spp film.sampleBBox
    RReach (fun s b => renderTile HaltonSampler.ops radiance film s b) sampler (RState.init film n file) k st → st.main = .done →
    ∀ x y, Spec.InImage res x y → (∃ i < max 1 spp, ∀ s, cameraSample radiance sampler ⟨x, y⟩ i = some s → Usable s.2) → 0 < (st.sh.film.px x y).weight := by
  intro film sampler hre hd x y hi hu
  obtain ⟨i, hi1, hu⟩ := hu
  obtain ⟨ps, h1, h2⟩ := exists_sampled res filt hR
  obtain ⟨c1, c2⟩ := c102_image res filt hR radiance spp hspp n hn file k st hre hd
  have hs : Sampled res filt.radius ⟨x, y⟩ := by
    obtain ⟨a1, a2, a3, a4⟩ := hi
    have b1 : ⌊1 / 2 - filt.radius⌋ ≤ 0 := by
      have : ⌊1 / 2 - filt.radius⌋ < 1 := by rw [Int.floor_lt]; push_cast; linarith
      omega
    have b2 : ∀ m : Int, m ≤ ⌈(m : ℝ) - 1 / 2 + filt.radius⌉ := by
      intro m
      have := Int.ceil_mono (show (m : ℝ) ≤ (m : ℝ) - 1 / 2 + filt.radius by linarith)
      rwa [Int.ceil_intCast] at this
    have b3 := b2 res.x
    have b4 := b2 res.y
    exact ⟨⟨by simp only; omega, by simp only; omega⟩, by simp only; omega, by simp only; omega⟩
  obtain ⟨s, e1, ⟨p1, p2⟩, p3, p4⟩ := c1 ⟨x, y⟩ hs i hi1
  simp only at p1 p2 p3 p4
  have hw : Within filt.radius s.1 x y := by
    constructor <;> rw [abs_le] <;> constructor <;> linarith
  have hwt : 0 < Spec.weight filt s.1 x y := hpos _ _ (cellCentre_lt hR.rpos (abs_nonneg _)) (cellCentre_lt hR.rpos (abs_nonneg _))
  have hm : s ∈ ps.flatMap (samplesOf radiance sampler spp) :=
    List.mem_flatMap.2 ⟨⟨x, y⟩, (h2 _).2 hs, mem_samplesFrom radiance sampler _ _ _ i s (Nat.zero_le _) (by omega) e1 (hu s e1)⟩
  rw [c2 ps h1 h2 x y hi]
  refine lt_of_lt_of_le hwt ?_
  refine List.single_le_sum ?_ _ (List.mem_map.2 ⟨s, hm, by simp only [hw, if_true]⟩)
  intro v hv
  obtain ⟨s, -, rfl⟩ := List.mem_map.1 hv
  split_ifs
  · exact hfilt _
  · exact le_refl _

section
variable [HasInf ℝ] [HasNext ℝ]

/-- C103 for the scenes of triangles with the library's materials and lights, and a Gaussian filter that reaches at least half a pixel: every pixel of the
image has a positive weight, and its colour divided by its weight lies between the least and the greatest light of the samples that count for it. -/
theorem c103_triangle_world (hinf : (0 : ℝ) ≤ HasInf.infinity) (hist : List (BuilderCall ℝ)) (hlib : ∀ c ∈ hist, TriangleCall c)
    {mk : List (Obj ℝ) → Option (Container ℝ)} (hmk : LibraryContainer mk) {scene : Scene ℝ} (hsc : (built hist).construct mk = some scene)
    (camera : PerspectiveCamera ℝ) (hcam : ∀ p, UnitVec (camera.generateRay p).direction)
    (res : V2 Int) (radius alpha : ℝ) (hR : FilmRange res radius) (hr : 1 / 2 ≤ radius) (ha : 0 < alpha) (spp : Nat) (hspp : spp < 2 ^ 32)
    (n : Nat) (hn : 1 ≤ n) (file : Option (List UInt8)) (k : Nat) (st : RState ℝ HaltonSampler) :
    let filt := (GaussianFilter.new radius alpha).toFilter
    let film := Film.new res filt
    let sampler := HaltonSampler.new spp film.sampleBBox
    RReach (fun s b => renderTile HaltonSampler.ops (cameraRadiance scene camera) film s b) sampler (RState.init film n file) k st → st.main = .done →
    ∀ x y, Spec.InImage res x y → 0 < (st.sh.film.px x y).weight ∧
      ∀ (c : Chan) (a b : ℝ), (∀ s, Counts res filt (cameraRadiance scene camera) sampler spp x y s → a ≤ c.of s.2 ∧ c.of s.2 ≤ b) →
        a ≤ c.of (st.sh.film.px x y).color / (st.sh.film.px x y).weight ∧ c.of (st.sh.film.px x y).color / (st.sh.film.px x y).weight ≤ b := by
  intro filt film sampler hre hd x y hi
  obtain ⟨f1, -, -, f4, -⟩ := c14_gaussian radius alpha ha.le hR.rpos.le
  have hw := c103_covered res filt hR f1 (fun x y hx hy => f4 x y ha hx hy) hr (cameraRadiance scene camera) spp hspp n hn file k st hre hd x y hi
    ⟨0, by omega, fun s hs => by
      obtain ⟨s1, s2, h⟩ := cameraSample_light hs
      obtain ⟨h1, h2, h3⟩ := c67_triangle_world hinf hist hlib hmk hsc camera s.1 (hcam _) HaltonSampler.ops halton_delivers s1 s2 s.2 h
      exact ⟨h1, h2, h3⟩⟩
  refine ⟨hw, fun c a b hab => ?_⟩
  obtain ⟨h1, h2⟩ := (c103_between res filt hR f1 (cameraRadiance scene camera) spp hspp n hn file k st hre hd x y hi).2 c a b hab
  rw [le_div_iff₀ hw, div_le_iff₀ hw]
  exact ⟨h1, h2⟩

/-- A shining triangle in a picture of 640×480 pixels, with a Gaussian filter of radius 2: all pixels are covered. -/
example (hinf : (0 : ℝ) ≤ HasInf.infinity) : ∃ (scene : Scene ℝ) (camera : PerspectiveCamera ℝ) (k : Nat) (st : RState ℝ HaltonSampler),
    let film := Film.new ⟨640, 480⟩ (GaussianFilter.new (2 : ℝ) 2).toFilter
    RReach (fun s b => renderTile HaltonSampler.ops (cameraRadiance scene camera) film s b) (HaltonSampler.new 16 film.sampleBBox) (RState.init film 4 none) k st ∧
    st.main = .done ∧ scene.lights.length = 1 ∧ ∀ x y, Spec.InImage ⟨640, 480⟩ x y → 0 < (st.sh.film.px x y).weight := by
  let t : Triangle ℝ := ⟨⟨0, 0, 5⟩, ⟨1, 0, 5⟩, ⟨0, 1, 5⟩, none, true, lambertianMaterial fun _ => ⟨1 / 2, 1 / 2, 1 / 2⟩⟩
  have h2 : LibraryTriangle t := ⟨fun i => .lambertian _, fun n0 n1 n2 hn => by cases hn⟩
  have hR : FilmRange ⟨640, 480⟩ 2 := by constructor <;> norm_num
  have hcam : ∀ p, UnitVec ((PerspectiveCamera.new (Transform.lookAt ⟨0, 0, -5⟩ ⟨0, 0, 0⟩ ⟨0, 1, 0⟩) (Transform.perspective 90 (1 / 100) 1000) ⟨-1, -1⟩ ⟨1, 1⟩
      ⟨640, 480⟩ : PerspectiveCamera ℝ).generateRay p).direction := by
    intro p
    refine (c52_camera_ray ?_ (by norm_num) (by norm_num) ?_ (by norm_num) (by norm_num) (by norm_num) (by norm_num) p).2.2.1
    · intro e
      have := congrArg V3.x e
      norm_num [vprod, V3.sub, r_sub] at this
    · refine (Real.tan_pos_of_pos_of_lt_pi_div_two ?_ ?_).ne' <;> simp only [degrees] <;> nlinarith [Real.pi_pos]
  have hl : ∀ c ∈ [BuilderCall.area 2 ⟨⟨3, 2, 1⟩, t.toShape⟩], TriangleCall c := by
    intro c hc
    obtain rfl := List.mem_singleton.1 hc
    exact .area _ _ _ (by norm_num [NonNeg]) (.lambertian _) h2
  obtain ⟨scene, hsc⟩ : ∃ scene, (built [BuilderCall.area 2 ⟨⟨3, 2, 1⟩, t.toShape⟩]).construct (fun ss => (Simple.new ss).map Simple.toContainer) = some scene :=
    ⟨_, rfl⟩
  have hll : ∀ c ∈ [BuilderCall.area 2 ⟨⟨3, 2, 1⟩, t.toShape⟩], LibraryCall c := by
    intro c hc
    obtain rfl := List.mem_singleton.1 hc
    exact .area _ _ _ (.lambertian _)
  obtain ⟨k, st, hr, hd⟩ := (c76_library_real _ hll .simple hsc _ ⟨640, 480⟩ (GaussianFilter.new (2 : ℝ) 2).toFilter hR
    (HaltonSampler.new 16 (Film.new ⟨640, 480⟩ (GaussianFilter.new (2 : ℝ) 2).toFilter).sampleBBox) (by norm_num [HaltonSampler.new]) 4 none).2
  refine ⟨scene, _, k, st, hr, hd, ?_, fun x y hi => (c103_triangle_world hinf _ hl .simple hsc _ hcam ⟨640, 480⟩ 2 2 hR (by norm_num) (by norm_num) 16
    (by norm_num) 4 (by norm_num) none k st hr hd x y hi).1⟩
  obtain ⟨box, -, h, -⟩ := c65_construct [BuilderCall.area 2 ⟨⟨3, 2, 1⟩, t.toShape⟩] (fun ss => (Simple.new ss).map Simple.toContainer)
  rw [(h scene hsc).1]
  rfl
end

theorem radicalInverse_zero (b : Nat) : (radicalInverse b 0 : ℝ) = 0 := by
  unfold radicalInverse radicalLoop
  simp only [lt_self_iff_false, false_and, dite_false]
  have h := radicalInverse_real_unit b 0
  unfold radicalInverse radicalLoop at h
  simp only [lt_self_iff_false, false_and, dite_false] at h
  have : (Scalar.fmin oneMinusEpsilon (ofInt (0 : Nat) /. ofInt (1 : Nat)) : ℝ) ≤ 0 := by
    real_ops
    simp
  exact le_antisymm this h.1

/-- The first sample of the pixel `(0, 0)` is taken at its corner. -/
theorem first_sample_at_corner (radiance : V2 ℝ → Draw ℝ (Spectrum ℝ)) (spp : Nat) (box : BBox2i) (s : V2 ℝ × Spectrum ℝ)
    (h : cameraSample radiance (HaltonSampler.new spp box) ⟨0, 0⟩ 0 = some s) : s.1 = ⟨0, 0⟩ := by
  unfold cameraSample at h
  obtain ⟨⟨s, s'⟩, h1, rfl⟩ := Option.map_eq_some_iff.1 h
  unfold oneSample at h1
  rw [draw_run_bind] at h1
  obtain ⟨⟨q, s1⟩, h2, h1⟩ := Option.bind_eq_some_iff.1 h1
  rw [draw_run_bind] at h1
  obtain ⟨⟨l, s2⟩, h3, h1⟩ := Option.bind_eq_some_iff.1 h1
  simp only [Draw.run, Option.some.injEq, Prod.mk.injEq] at h1
  rw [← h1.1]
  have hst : (sampleState (HaltonSampler.new spp box) ⟨0, 0⟩ 0).intervalSampleIndex = 0 := by
    simp [sampleState, HaltonSampler.startPixel, HaltonSampler.getIndexForSample, HaltonSampler.new, u32]
  have hdim : (sampleState (HaltonSampler.new spp box) ⟨0, 0⟩ 0).dimension = 0 := by
    simp [sampleState, HaltonSampler.startPixel, HaltonSampler.getIndexForSample, HaltonSampler.new]
  have h0 : haltonBases[0]? = some 2 := by decide +kernel
  have h1' : haltonBases[1]? = some 3 := by decide +kernel
  simp only [getCameraSample, Draw.run, HaltonSampler.ops, hst, hdim, HaltonSampler.sampleDimension, u32, radicalInversePrime, Nat.zero_shiftRight, Nat.zero_div,
    h0, h1', Option.map_some, bind, Option.bind_some, pure, radicalInverse_zero, Nat.zero_add, Option.some.injEq, Prod.mk.injEq,
    show 1 % 2 ^ 32 = 1 from rfl] at h2
  rw [← h2.1]
  simp [V2.add, V2.ofI, r_add, r_ofInt]

/-- C103 needs the filter to reach half a pixel: with a smaller radius and one sample per pixel the first pixel of every image, of whatever scene, gets no
light and no weight at all — its only sample is taken at its corner, which is farther than the radius from its centre. -/
theorem c103_narrow_filter (res : V2 Int) (filt : Filter ℝ) (hR : FilmRange res filt.radius) (hr : filt.radius < 1 / 2) (radiance : V2 ℝ → Draw ℝ (Spectrum ℝ))
    (spp : Nat) (hspp : spp ≤ 1) (n : Nat) (hn : 1 ≤ n) (file : Option (List UInt8)) (k : Nat) (st : RState ℝ HaltonSampler) :
    let film := Film.new res filt
    let sampler := HaltonSampler.new spp film.sampleBBox
    RReach (fun s b => renderTile HaltonSampler.ops radiance film s b) sampler (RState.init film n file) k st → st.main = .done →
    st.sh.film.px 0 0 = ⟨⟨0, 0, 0⟩, 0⟩ := by
  intro film sampler hre hd
  obtain ⟨ps, h1, h2⟩ := exists_sampled res filt hR
  rw [(c102_image res filt hR radiance spp (by omega) n hn file k st hre hd).2 ps h1 h2 0 0 ⟨le_refl _, hR.x0, le_refl _, hR.y0⟩]
  have hno : ∀ s ∈ ps.flatMap (samplesOf radiance sampler spp), ¬ Within filt.radius s.1 0 0 := by
    rintro s hs ⟨w1, w2⟩
    obtain ⟨p, hp, hs⟩ := List.mem_flatMap.1 hs
    obtain ⟨j, -, hj, hc, -⟩ := samplesFrom_pos radiance sampler p _ _ s hs
    obtain rfl : j = 0 := by omega
    obtain ⟨⟨p1, p2⟩, p3, p4⟩ := cameraSample_pos hc
    rw [abs_le] at w1 w2
    push_cast at w1 w2
    have near : ∀ (m : Int) (q : ℝ), (m : ℝ) ≤ q → q < m + 1 → 0 < q → q < 1 → m = 0 := by
      intro m q a1 a2 a3 a4
      have b1 : (m : ℝ) < 1 := by linarith
      have b2 : (-1 : ℝ) < m := by linarith
      have c1 : m < 1 := by exact_mod_cast b1
      have c2 : -1 < m := by exact_mod_cast b2
      omega
    have e1 := near p.x s.1.x p1 p2 (by linarith [w1.2]) (by linarith [w1.1])
    have e2 := near p.y s.1.y p3 p4 (by linarith [w2.2]) (by linarith [w2.1])
    obtain ⟨px, py⟩ := p
    simp only at e1 e2
    subst e1 e2
    have := first_sample_at_corner radiance spp _ s hc
    rw [this] at w1
    simp only at w1
    linarith [w1.2]
  have sum0 : ∀ (g : V2 ℝ × Spectrum ℝ → ℝ), (∀ s ∈ ps.flatMap (samplesOf radiance sampler spp), g s = 0) → ((ps.flatMap (samplesOf radiance sampler spp)).map g).sum = 0 := by
    intro g hg
    apply List.sum_eq_zero
    intro v hv
    obtain ⟨s, hs, rfl⟩ := List.mem_map.1 hv
    exact hg s hs
  simp only [Spec.pixel, Spec.colorSum, Spec.weightSum]
  rw [sum0 _ (fun s hm => if_neg (hno s hm)), sum0 _ (fun s hm => if_neg (hno s hm)),
    sum0 _ (fun s hm => if_neg (hno s hm)), sum0 _ (fun s hm => if_neg (hno s hm))]

/-- Such renders exist, for every scene that can be built with the library: 640×480 pixels, one sample for each, a Gaussian filter of radius 1/4. -/
example [HasInf ℝ] [HasNext ℝ] (hist : List (BuilderCall ℝ)) (hlib : ∀ c ∈ hist, LibraryCall c) {mk : List (Obj ℝ) → Option (Container ℝ)} (hmk : LibraryContainer mk)
    {scene : Scene ℝ} (hsc : (built hist).construct mk = some scene) (camera : PerspectiveCamera ℝ) : ∃ (k : Nat) (st : RState ℝ HaltonSampler),
    let film := Film.new ⟨640, 480⟩ (GaussianFilter.new (1 / 4 : ℝ) 2).toFilter
    RReach (fun s b => renderTile HaltonSampler.ops (cameraRadiance scene camera) film s b) (HaltonSampler.new 1 film.sampleBBox) (RState.init film 4 none) k st ∧
    st.main = .done ∧ st.sh.film.px 0 0 = ⟨⟨0, 0, 0⟩, 0⟩ := by
  have hR : FilmRange ⟨640, 480⟩ (1 / 4) := by constructor <;> norm_num
  obtain ⟨k, st, hr, hd⟩ := (c76_library_real _ hlib hmk hsc camera ⟨640, 480⟩ (GaussianFilter.new (1 / 4 : ℝ) 2).toFilter hR
    (HaltonSampler.new 1 (Film.new ⟨640, 480⟩ (GaussianFilter.new (1 / 4 : ℝ) 2).toFilter).sampleBBox) (by norm_num [HaltonSampler.new]) 4 none).2
  exact ⟨k, st, hr, hd, c103_narrow_filter ⟨640, 480⟩ _ hR (by norm_num [GaussianFilter.new, GaussianFilter.toFilter]) _ 1 (le_refl _) 4 (by norm_num) none k st hr hd⟩

end PT
