import Verif.Props.Render
import Verif.Props.Pixel

/-!
# The rendered image does not depend on the schedule (C06)
-/

namespace PT

section generic
variable {α : Type} [Scalar α] {σ : Type}

/-- A tile of the size the film prescribes for the box. -/
structure TileGood (film : Film α) (b : BBox2i) (t : FilmTile α) : Prop where
  bbox : t.bbox = (film.getFilmTile b).bbox
  sized : Spec.Fits (film.getFilmTile b).bbox → t.Sized
  table : TableOK t.filterTable

theorem addSample_good {film : Film α} {b : BBox2i} {t : FilmTile α} (hf : Spec.Fits (film.getFilmTile b).bbox)
    (h : TileGood film b t) (pf : V2 α) (l : Spectrum α) : ∃ t', t.addSample pf l = some t' ∧ TileGood film b t' := by
  obtain ⟨t', e1, e2, _, e4, e5, _⟩ := addSample_spec t h.table (h.sized hf) pf l
  exact ⟨t', e1, e2.trans h.bbox, fun _ => e5, by rw [e4]; exact h.table⟩

theorem addIfValid_good {film : Film α} {b : BBox2i} {t : FilmTile α} (hf : Spec.Fits (film.getFilmTile b).bbox)
    (h : TileGood film b t) (pf : V2 α) (l : Spectrum α) : ∃ t', addIfValid t pf l = some t' ∧ TileGood film b t' := by
  unfold addIfValid
  split_ifs
  · exact addSample_good hf h pf l
  · exact ⟨t, rfl, h⟩

theorem addIfValid_keeps {film : Film α} {b : BBox2i} {t t' : FilmTile α} (h : TileGood film b t) (pf : V2 α) (l : Spectrum α)
    (e : addIfValid t pf l = some t') : TileGood film b t' := by
  by_cases hf : Spec.Fits (film.getFilmTile b).bbox
  · obtain ⟨t1, e1, h1⟩ := addIfValid_good hf h pf l
    rw [e] at e1; cases e1; exact h1
  · unfold addIfValid at e
    split_ifs at e
    · obtain ⟨px, _, e⟩ := Option.bind_eq_some_iff.1 e
      cases e
      exact ⟨h.bbox, fun hc => absurd hc hf, h.table⟩
    · cases e; exact h

theorem pixelLoop_good (ops : SamplerOps α σ) (radiance : V2 α → Draw α (Spectrum α)) (pixel : V2 Int)
    {film : Film α} {b : BBox2i} : ∀ (fuel : Nat) (t : FilmTile α) (s : σ) (t' : FilmTile α) (s' : σ),
    TileGood film b t → pixelLoop ops radiance pixel fuel t s = some (t', s') → TileGood film b t' := by
  intro fuel
  induction fuel with
  | zero => intro t s t' s' _ e; simp [pixelLoop] at e
  | succ fuel ih =>
    intro t s t' s' h e
    simp only [pixelLoop, bind] at e
    obtain ⟨⟨⟨pf, l⟩, s1⟩, _, e⟩ := Option.bind_eq_some_iff.1 e
    obtain ⟨t1, e1, e⟩ := Option.bind_eq_some_iff.1 e
    have h1 := addIfValid_keeps h pf l e1
    split_ifs at e
    · exact ih t1 _ t' s' h1 e
    · cases e; exact h1

/-- Rendering a tile gives a tile of the right size. -/
theorem renderTile_good (ops : SamplerOps α σ) (radiance : V2 α → Draw α (Spectrum α)) (film : Film α)
    (hT : TableOK film.filterTable) (s : σ) (b : BBox2i) (t : FilmTile α) (s' : σ)
    (e : renderTile ops radiance film s b = some (t, s')) : TileGood film b t := by
  unfold renderTile at e
  refine foldlM_inv (fun acc : FilmTile α × σ => TileGood film b acc.1) _ _ ?_ _ (t, s') ?_ e
  · rintro ⟨t1, s1⟩ p _ ⟨t2, s2⟩ h1 e1
    exact pixelLoop_good ops radiance p _ _ _ _ _ h1 e1
  · exact ⟨rfl, getFilmTile_sized _ _, hT⟩

/-- The hypothesis of `c07_bounded` holds for the renderer's tiles. -/
theorem renderTile_bbox (ops : SamplerOps α σ) (radiance : V2 α → Draw α (Spectrum α)) (res : V2 Int) (filt : Filter α)
    (s : σ) (b : BBox2i) (t : FilmTile α) (s' : σ)
    (e : renderTile ops radiance (Film.new res filt) s b = some (t, s')) :
    t.bbox = ((Film.new res filt).getFilmTile b).bbox :=
  (renderTile_good ops radiance _ (mkFilterTable_ok filt) s b t s' e).bbox

theorem hist_run {β : Type} {s0 : HaltonSampler} (d : Draw α β) : ∀ (s : HaltonSampler) (b : β) (s' : HaltonSampler),
    Spec.Hist α s0 s → d.run HaltonSampler.ops s = some (b, s') → Spec.Hist α s0 s' := by
  induction d with
  | ret b => intro s b' s' h e; simp only [Draw.run, Option.some.injEq, Prod.mk.injEq] at e; rw [← e.2]; exact h
  | panic => intro s b s' _ e; simp [Draw.run] at e
  | get1 k ih =>
    intro s b s' h e
    simp only [Draw.run] at e
    cases hg : (HaltonSampler.ops : SamplerOps α _).get1d s with
    | none => rw [hg] at e; simp at e
    | some p => rw [hg] at e; exact ih p.1 p.2 _ _ (.get1d _ _ _ h hg) e
  | get2 k ih =>
    intro s b s' h e
    simp only [Draw.run] at e
    cases hg : (HaltonSampler.ops : SamplerOps α _).get2d s with
    | none => rw [hg] at e; simp at e
    | some p => rw [hg] at e; exact ih p.1 p.2 _ _ (.get2d _ _ _ h hg) e

theorem hist_pixelLoop {s0 : HaltonSampler} (radiance : V2 α → Draw α (Spectrum α)) (pixel : V2 Int) :
    ∀ (fuel : Nat) (t : FilmTile α) (s : HaltonSampler) (t' : FilmTile α) (s' : HaltonSampler),
    Spec.Hist α s0 s → pixelLoop HaltonSampler.ops radiance pixel fuel t s = some (t', s') → Spec.Hist α s0 s' := by
  intro fuel
  induction fuel with
  | zero => intro t s t' s' _ e; simp [pixelLoop] at e
  | succ fuel ih =>
    intro t s t' s' h e
    simp only [pixelLoop, bind] at e
    obtain ⟨⟨⟨pf, l⟩, s1⟩, e1, e⟩ := Option.bind_eq_some_iff.1 e
    obtain ⟨t1, _, e⟩ := Option.bind_eq_some_iff.1 e
    have h1 := hist_run _ _ _ _ h e1
    split_ifs at e
    · exact ih _ _ _ _ (.startNext _ h1) e
    · cases e; exact .startNext _ h1

theorem hist_renderTile {s0 : HaltonSampler} (radiance : V2 α → Draw α (Spectrum α)) (film : Film α) (s : HaltonSampler)
    (b : BBox2i) (t : FilmTile α) (s' : HaltonSampler) (h : Spec.Hist α s0 s)
    (e : renderTile HaltonSampler.ops radiance film s b = some (t, s')) : Spec.Hist α s0 s' := by
  unfold renderTile at e
  refine foldlM_inv (fun acc : FilmTile α × HaltonSampler => Spec.Hist α s0 acc.2) _ _ ?_ _ (t, s') h e
  rintro ⟨t1, s1⟩ p _ ⟨t2, s2⟩ h1 e1
  exact hist_pixelLoop radiance p _ _ _ _ _ (.startPixel _ _ h1) e1

/-- With the Halton sampler the tile depends only on its box, not on what the thread did before. -/
theorem renderTile_halton (spp : Nat) (box : BBox2i) (radiance : V2 α → Draw α (Spectrum α)) (film : Film α)
    (s s' : HaltonSampler) (h : Spec.Hist α (HaltonSampler.new spp box) s) (h' : Spec.Hist α (HaltonSampler.new spp box) s')
    (b : BBox2i) : (renderTile HaltonSampler.ops radiance film s b).map Prod.fst =
      (renderTile HaltonSampler.ops radiance film s' b).map Prod.fst := by
  unfold renderTile
  cases b.iter.toList with
  | nil => rfl
  | cons p l =>
    rw [List.foldlM_cons, List.foldlM_cons]
    have := (c23_history_independent spp box s s' h h' p (Draw.ret () : Draw α Unit)).1
    simp only
    rw [this]

end generic

/-! ### Merging in any order -/

theorem mergeLog_px {σ : Type} (res : V2 Int) (filt : Filter ℝ) (hR : FilmRange res filt.radius)
    (comp : Pixel ℝ → ℝ) (hcomp : ∀ p q : Pixel ℝ, comp (p.merge q) = comp p + comp q) (x y : Int) (hi : Spec.InImage res x y) :
    ∀ (log : List (LogEntry ℝ σ)) (film film' : Film ℝ), FilmInv res filt film →
      (∀ e ∈ log, e.2.1 ∈ (Film.new res filt).iter.toList ∧ TileGood (Film.new res filt) e.2.1 e.2.2) →
      mergeLog film log = some film' →
      FilmInv res filt film' ∧ comp (film'.px x y) = comp (film.px x y) +
        (log.map fun e => open Classical in if InTile e.2.2 x y then comp (e.2.2.px x y) else 0).sum := by
  intro log
  induction log with
  | nil =>
    intro film film' h _ e
    simp only [mergeLog, List.foldlM_nil] at e; cases e
    exact ⟨h, by simp⟩
  | cons e log ih =>
    intro film film' h hlog he
    obtain ⟨hb, hg⟩ := hlog e (List.mem_cons_self ..)
    unfold mergeLog at he
    rw [List.foldlM_cons] at he
    have hF : FilmRange film.resolution film.filterRadius := by rw [h.1, h.2.1]; exact hR
    have hb' : e.2.1 ∈ film.iter.toList := by
      have e1 : film.iter = (Film.new res filt).iter := by
        unfold Film.iter Film.sampleBBox; rw [h.1, h.2.1]; rfl
      rw [e1]; exact hb
    have hbb : (film.getFilmTile e.2.1).bbox = ((Film.new res filt).getFilmTile e.2.1).bbox := by
      unfold Film.getFilmTile; rw [h.1, h.2.1, h.2.2.1]; rfl
    obtain ⟨f1, g1, g2, g3, g4, g5, g6, g7⟩ := mergeFilmTile_spec film h.2.2.2 e.2.2 (hg.sized (tile_fits (film := Film.new res filt) hR hb)) (by
      intro x y hin
      apply inTile_inFilm hF hb'
      unfold InTile at hin ⊢; rw [hg.bbox] at hin; rw [hbb]; exact hin)
    rw [g1] at he
    obtain ⟨i1, i2⟩ := ih f1 film' ⟨g3.trans h.1, g4.trans h.2.1, g5.trans h.2.2.1, g2⟩
      (fun e' h' => hlog e' (List.mem_cons_of_mem _ h')) he
    refine ⟨i1, ?_⟩
    rw [i2, List.map_cons, List.sum_cons]
    split_ifs with hin
    · rw [g6 x y hin, hcomp]; ring
    · rw [g7 x y (by unfold InFilm; rw [h.1]; exact hi) hin]; ring

/-- The tile of a box, rendered first. -/
noncomputable def haltonTile (res : V2 Int) (filt : Filter ℝ) (radiance : V2 ℝ → Draw ℝ (Spectrum ℝ)) (spp : Nat) (b : BBox2i) : FilmTile ℝ :=
  ((renderTile HaltonSampler.ops radiance (Film.new res filt) (HaltonSampler.new spp (Film.new res filt).sampleBBox) b).map Prod.fst).getD
    ((Film.new res filt).getFilmTile b)

/-- The image rendered with the Halton sampler: every pixel is the sum of what the tiles have there. -/
theorem halton_pixel (res : V2 Int) (filt : Filter ℝ) (hR : FilmRange res filt.radius)
    (radiance : V2 ℝ → Draw ℝ (Spectrum ℝ)) (spp : Nat) (n : Nat) (hn : 1 ≤ n) (file : Option (List UInt8)) (k : Nat) (st : RState ℝ HaltonSampler)
    (hr : RReach (fun s b => renderTile HaltonSampler.ops radiance (Film.new res filt) s b) (HaltonSampler.new spp (Film.new res filt).sampleBBox)
      (RState.init (Film.new res filt) n file) k st) (hdone : st.main = .done)
    (comp : Pixel ℝ → ℝ) (hcomp : ∀ p q : Pixel ℝ, comp (p.merge q) = comp p + comp q) (x y : Int) (hi : Spec.InImage res x y) :
    comp (st.sh.film.px x y) = comp ((Film.new res filt).px x y) +
      ((Film.new res filt).iter.toList.map fun b => open Classical in if InTile (haltonTile res filt radiance spp b) x y then
        comp ((haltonTile res filt radiance spp b).px x y) else 0).sum := by
  have hpos : 0 ≤ res.x * res.y := Int.mul_nonneg hR.x0.le hR.y0.le
  -- the log of a completed run, with samplers that are histories of the initial one
  obtain ⟨log, lost, base, h⟩ := rinv_reach (R := Spec.Hist ℝ (HaltonSampler.new spp (Film.new res filt).sampleBBox))
    (fun s b t s' hs e => hist_renderTile radiance (Film.new res filt) s b t s' hs e) .start hr
  have hm := h.main
  unfold mainOk at hm; rw [hdone] at hm
  obtain ⟨h1, h2, h3, h4⟩ := hm
  have hbox : (st.threads.map PC.box).sum = 0 := by
    apply List.sum_eq_zero
    intro x hx
    obtain ⟨pc, hp, rfl⟩ := List.mem_map.1 hx
    rw [h2 pc hp]; rfl
  have hlost : lost = 0 := h.lost0 fun hc => by have := h2 _ hc; simp at this
  have hne : st.threads ≠ [] := by intro hc; rw [hc] at h1; simp at h1; omega
  obtain ⟨pc, hpc⟩ := List.exists_mem_of_ne_nil _ hne
  have hend : st.sh.iter.toList = [] := h.over pc hpc (by rw [h2 pc hpc]; trivial)
  have hcount := h.count
  rw [hbox, hlost, hend] at hcount
  simp only [Multiset.coe_nil, add_zero] at hcount
  have p1 := (Multiset.coe_eq_coe.1 hcount).symm
  have p2 := h.logOk
  have p3 : mergeLog (Film.new res filt) log = some st.sh.film := by rw [h.filmFree h4]; exact h.baseOk
  -- the tile as a function of the box
  have tile : ∀ e ∈ log, e.2.2 = haltonTile res filt radiance spp e.2.1 := by
    rintro ⟨s, b, t⟩ he
    obtain ⟨hs, s', e⟩ := p2 _ he
    have := renderTile_halton spp (Film.new res filt).sampleBBox radiance (Film.new res filt) s _ hs .start b
    have e' : (renderTile HaltonSampler.ops radiance (Film.new res filt) s b).map Prod.fst = some t := by
      rw [e]; rfl
    simp only [haltonTile, ← this, e', Option.getD_some]
  have good : ∀ e ∈ log, e.2.1 ∈ (Film.new res filt).iter.toList ∧ TileGood (Film.new res filt) e.2.1 e.2.2 := by
    intro e he
    obtain ⟨_, s', hw⟩ := p2 e he
    exact ⟨p1.mem_iff.1 (List.mem_map.2 ⟨e, he, rfl⟩), renderTile_good _ _ _ (mkFilterTable_ok filt) _ _ _ _ hw⟩
  have inv0 : FilmInv res filt (Film.new res filt) := ⟨rfl, rfl, rfl, filmNew_sized res hpos hR.area filt⟩
  rw [(mergeLog_px res filt hR comp hcomp x y hi log (Film.new res filt) _ inv0 good p3).2]
  congr 1
  refine Eq.trans ?_ (p1.map _).sum_eq
  rw [List.map_map]
  congr 1
  apply List.map_congr_left
  intro e he
  simp only [Function.comp]
  rw [← tile e he]

/-- C06, the result: with the Halton sampler, two renders of the same film with any numbers of threads `≥ 1` and any
schedules that complete give the same value in every pixel (exact arithmetic).  In particular each
equals the result with one thread, which renders and merges the tiles in order. -/
theorem c06_schedule_independent (res : V2 Int) (filt : Filter ℝ) (hR : FilmRange res filt.radius)
    (radiance : V2 ℝ → Draw ℝ (Spectrum ℝ)) (spp : Nat) (n n' : Nat) (hn : 1 ≤ n) (hn' : 1 ≤ n')
    (file file' : Option (List UInt8)) (k k' : Nat) (st st' : RState ℝ HaltonSampler) :
    let film := Film.new res filt
    let sampler := HaltonSampler.new spp film.sampleBBox
    let work := fun s b => renderTile HaltonSampler.ops radiance film s b
    RReach work sampler (RState.init film n file) k st → st.main = .done →
    RReach work sampler (RState.init film n' file') k' st' → st'.main = .done →
    ∀ x y, Spec.InImage res x y → st.sh.film.px x y = st'.sh.film.px x y := by
  intro film sampler work hr hd hr' hd' x y hi
  have key : ∀ comp : Pixel ℝ → ℝ, (∀ p q : Pixel ℝ, comp (p.merge q) = comp p + comp q) →
      comp (st.sh.film.px x y) = comp (st'.sh.film.px x y) := by
    intro comp hcomp
    rw [halton_pixel res filt hR radiance spp n hn file k st hr hd comp hcomp x y hi,
      halton_pixel res filt hR radiance spp n' hn' file' k' st' hr' hd' comp hcomp x y hi]
  have k1 := key (fun p => p.color.r) (fun p q => rfl)
  have k2 := key (fun p => p.color.g) (fun p q => rfl)
  have k3 := key (fun p => p.color.b) (fun p q => rfl)
  have k4 := key (fun p => p.weight) (fun p q => rfl)
  ext
  · exact k1
  · exact k2
  · exact k3
  · exact k4

/-- A 1×1 tile holding one pixel of the given weight. -/
def Spec.onePixelTile (w : F32) : FilmTile F32 :=
  { bbox := ⟨⟨0, 0⟩, ⟨1, 1⟩⟩, filterRadius := .fin false 1, filterTable := [], pixels := [⟨Spectrum.zero, w⟩] }

/-- C06 in `f32`: the exactness of `c06_schedule_independent` is necessary.  Three tiles that overlap in one pixel, with
weights 1, 2⁻²⁴ and 2⁻²⁴ there, merged in this order leave weight 1; merged in the opposite order they leave
1 + 2⁻²³.  So with `f32` the bits of the image may depend on the schedule. -/
theorem c06_f32_order_matters (filt : Filter F32) :
    let a := Spec.onePixelTile (.fin false 1)
    let b := Spec.onePixelTile (.fin false (1 / 2 ^ 24))
    ∃ f f' : Film F32,
      [a, b, b].foldlM (fun f t => f.mergeFilmTile t) (Film.new ⟨1, 1⟩ filt) = some f ∧
      [b, b, a].foldlM (fun f t => f.mergeFilmTile t) (Film.new ⟨1, 1⟩ filt) = some f' ∧
      (f.px 0 0).weight = .fin false 1 ∧ (f'.px 0 0).weight = .fin false (1 + 1 / 2 ^ 23) := by
  have sized : ∀ w, (Spec.onePixelTile w).Sized := by
    intro w; simp [FilmTile.Sized, Spec.onePixelTile, Spec.Fits]
  have ht : ∀ w, InTile (Spec.onePixelTile w) 0 0 := by
    intro w; simp [InTile, Spec.onePixelTile]
  have hpx : ∀ w, (Spec.onePixelTile w).px 0 0 = ⟨Spectrum.zero, w⟩ := by
    intro w; simp [FilmTile.px, Spec.onePixelTile, FilmTile.pixelOffset, wrapI32, asUsize]
  have step : ∀ (f : Film F32) (w : F32), f.Sized → f.resolution = ⟨1, 1⟩ →
      ∃ f', f.mergeFilmTile (Spec.onePixelTile w) = some f' ∧ f'.Sized ∧ f'.resolution = ⟨1, 1⟩ ∧
        (f'.px 0 0).weight = (f.px 0 0).weight +. w := by
    intro f w hf hr
    obtain ⟨f', g1, g2, g3, _, _, g6, _⟩ := mergeFilmTile_spec f hf (Spec.onePixelTile w) (sized w) (by
      intro x y h
      simp only [InTile, Spec.onePixelTile] at h
      simp only [InFilm, hr]; omega)
    exact ⟨f', g1, g2, g3.trans hr, by rw [g6 0 0 (ht w), hpx]; rfl⟩
  have run : ∀ u v w : F32, ∃ f, [Spec.onePixelTile u, Spec.onePixelTile v, Spec.onePixelTile w].foldlM
      (fun f t => f.mergeFilmTile t) (Film.new ⟨1, 1⟩ filt) = some f ∧
      (f.px 0 0).weight = (lit 0 : F32) +. u +. v +. w := by
    intro u v w
    obtain ⟨f1, a1, a2, a3, a4⟩ := step (Film.new ⟨1, 1⟩ filt) u (filmNew_sized _ (by norm_num) (by norm_num) _) rfl
    obtain ⟨f2, b1, b2, b3, b4⟩ := step f1 v a2 a3
    obtain ⟨f3, c1, c2, c3, c4⟩ := step f2 w b2 b3
    refine ⟨f3, ?_, ?_⟩
    · simp only [List.foldlM_cons, List.foldlM_nil, a1, b1, c1, Option.bind_some, bind, pure]
    · rw [c4, b4, a4]
      have : (Film.new ⟨1, 1⟩ filt).px 0 0 = Pixel.zero := by
        simp [Film.px, Film.new, wrapI32, asUsize, Film.pixelOffset]
      rw [this]; rfl
  intro a b
  obtain ⟨f, e1, e2⟩ := run (.fin false 1) (.fin false (1 / 2 ^ 24)) (.fin false (1 / 2 ^ 24))
  obtain ⟨f', e3, e4⟩ := run (.fin false (1 / 2 ^ 24)) (.fin false (1 / 2 ^ 24)) (.fin false 1)
  refine ⟨f, f', e1, e3, ?_, ?_⟩
  · rw [e2]; decide +kernel
  · rw [e4]; decide +kernel

/-! ### No failure of its own making (C07, C08) -/

/-- The pixel box of each tile's buffer lies in the image. -/
def Spec.TilesFit {α : Type} [Scalar α] (film : Film α) : Prop :=
  ∀ b ∈ film.iter.toList, ∀ x y, InTile (film.getFilmTile b) x y → InFilm film x y

/-- In exact arithmetic they do, for any film in range. -/
theorem tilesFit_real (res : V2 Int) (filt : Filter ℝ) (hR : FilmRange res filt.radius) : Spec.TilesFit (Film.new res filt) :=
  fun _ hb _ _ h => inTile_inFilm (film := Film.new res filt) hR hb h

/-- Merging a good tile. -/
theorem mergeFilmTile_fit {α : Type} [Scalar α] (res : V2 Int) (ha : res.x * res.y < 2 ^ 31) (filt : Filter α) (hfit : Spec.TilesFit (Film.new res filt))
    (film : Film α) (h : FilmInv res filt film) (b : BBox2i) (hb : b ∈ (Film.new res filt).iter.toList) (t : FilmTile α)
    (hg : TileGood (Film.new res filt) b t) : ∃ f', film.mergeFilmTile t = some f' ∧ FilmInv res filt f' := by
  obtain ⟨f1, g1, g2, g3, g4, g5, -⟩ := mergeFilmTile_spec film h.2.2.2 t (hg.sized (fits_of_inFilm (Film.new res filt) ha b (hfit b hb))) (by
    intro x y hin
    have := hfit b hb x y (by unfold InTile at hin ⊢; rw [← hg.bbox]; exact hin)
    unfold InFilm at this ⊢; rw [h.1]; exact this)
  exact ⟨f1, g1, g3.trans h.1, g4.trans h.2.1, g5.trans h.2.2.1, g2⟩

theorem mergeLog_inv {α σ : Type} [Scalar α] (res : V2 Int) (ha : res.x * res.y < 2 ^ 31) (filt : Filter α) (hfit : Spec.TilesFit (Film.new res filt)) :
    ∀ (log : List (LogEntry α σ)) (film film' : Film α), FilmInv res filt film →
      (∀ e ∈ log, e.2.1 ∈ (Film.new res filt).iter.toList ∧ TileGood (Film.new res filt) e.2.1 e.2.2) →
      mergeLog film log = some film' → FilmInv res filt film' := by
  intro log
  induction log with
  | nil =>
    intro film film' h _ e
    simp only [mergeLog, List.foldlM_nil] at e; cases e
    exact h
  | cons e log ih =>
    intro film film' h hlog he
    obtain ⟨hb, hg⟩ := hlog e (List.mem_cons_self ..)
    unfold mergeLog at he
    rw [List.foldlM_cons] at he
    obtain ⟨f1, g1, g2⟩ := mergeFilmTile_fit res ha filt hfit film h e.2.1 hb e.2.2 hg
    rw [g1] at he
    exact ih f1 film' g2 (fun e' h' => hlog e' (List.mem_cons_of_mem _ h')) he

/-- A prefix of a successful sequence of merges, and one more. -/
theorem foldlM_prefix {s γ : Type} (f : s → γ → Option s) (l1 l2 : List γ) (x : γ) (a b c : s)
    (h1 : l1.foldlM f a = some b) (h2 : (l1 ++ x :: l2).foldlM f a = some c) : ∃ d, f b x = some d := by
  rw [List.foldlM_append, h1] at h2
  change (x :: l2).foldlM f b = some c at h2
  rw [List.foldlM_cons] at h2
  obtain ⟨d, hd, _⟩ := Option.bind_eq_some_iff.1 h2
  exact ⟨d, hd⟩

/-- C08, the converse: if rendering a tile never panics, no thread ever panics: neither the merge (indexing the
film's pixels) nor a poisoned lock can be the cause.  Hence `render` can fail only by not being able to open the output file. -/
theorem c08_no_other_panic {α σ : Type} [Scalar α] [Libm α] (res : V2 Int) (filt : Filter α)
    (hpos : 0 ≤ res.x * res.y) (ha : res.x * res.y < 2 ^ 31) (hfit : Spec.TilesFit (Film.new res filt))
    (work : σ → BBox2i → Option (FilmTile α × σ)) (R : σ → Prop) (sampler : σ) (hs : R sampler)
    (hwork : ∀ s b, R s → b ∈ (Film.new res filt).iter.toList → ∃ t s', work s b = some (t, s'))
    (hgood : ∀ s b t s', R s → work s b = some (t, s') → TileGood (Film.new res filt) b t ∧ R s')
    (n : Nat) (file : Option (List UInt8)) (k : Nat) (st : RState α σ)
    (hr : RReach work sampler (RState.init (Film.new res filt) n file) k st) : .panicked ∉ st.threads := by
  induction hr with
  | zero => simp [RState.init]
  | succ k st st' hr hstep ih =>
    obtain ⟨log, lost, base, h⟩ := rinv_reach (R := R) (fun s b t s' hs e => (hgood s b t s' hs e).2) hs hr
    have mem : ∀ (i : Nat) (pc : PC α σ) (b : BBox2i), st.threads[i]? = some pc → b ∈ pc.box → b ∈ (Film.new res filt).iter.toList := by
      intro i pc b hp hb
      have : b ∈ ((Film.new res filt).iter.toList : Multiset BBox2i) := by
        rw [h.count]
        simp only [Multiset.mem_add]
        left; left; right
        have := sum_set PC.box st.threads i pc (.panicked) hp
        have e2 : b ∈ (st.threads.map PC.box).sum + PC.box (.panicked : PC α σ) := by
          rw [← this]; exact Multiset.mem_add.2 (Or.inr hb)
        simpa [PC.box] using e2
      simpa using this
    have boxes : ∀ e ∈ log, e.2.1 ∈ (Film.new res filt).iter.toList := by
      intro e he
      have : e.2.1 ∈ ((Film.new res filt).iter.toList : Multiset BBox2i) := by
        rw [h.count]
        simp only [Multiset.mem_add]
        left; left; left
        exact Multiset.mem_coe.2 (List.mem_map.2 ⟨e, he, rfl⟩)
      simpa using this
    cases hstep with
    | openFails => exact ih
    | main _ hs =>
      unfold mainStep at hs
      cases he : st.main with
      | spawning k => cases k <;> rw [he] at hs <;> simp only [Option.some.injEq] at hs <;> subst hs <;> simp [ih]
      | joining i =>
        rw [he] at hs; dsimp only at hs
        split at hs <;> simp only [Option.some.injEq, reduceCtorEq] at hs <;> subst hs <;> exact ih
      | opening => rw [he] at hs; simp only [Option.some.injEq] at hs; subst hs; exact ih
      | writing =>
        rw [he] at hs; dsimp only at hs
        split at hs <;> simp only [Option.some.injEq, reduceCtorEq] at hs <;> subst hs <;> exact ih
      | done => rw [he] at hs; simp at hs
      | failed => rw [he] at hs; simp at hs
    | thread i pc pc' sh' hi hs =>
      intro hc
      have hok := h.ok pc (List.mem_of_getElem? hi)
      rcases mem_set_imp hc with hc | hc
      · exact ih hc
      subst hc
      cases pc with
      | wantIter s => simp only [threadStep] at hs; split_ifs at hs; simp at hs
      | haveIter s => simp [threadStep] at hs
      | gotTile s r => cases r <;> simp [threadStep] at hs
      | rendering s b =>
        obtain ⟨t, s', hw⟩ := hwork s b hok (mem i _ b hi (by simp [PC.box]))
        simp [threadStep, hw] at hs
      | wantFilm s b t =>
        simp only [threadStep] at hs
        cases hl : st.sh.filmLock with
        | held k => rw [hl] at hs; simp at hs
        | poisoned => exact ih (h.poisoned hl)
        | free => rw [hl] at hs; simp at hs
      | merging s b t rest =>
        cases rest with
        | nil => simp [threadStep] at hs
        | cons p rest =>
          obtain ⟨-, s0, hR0, hw⟩ := hok
          obtain ⟨done, hd1, hd2⟩ := h.mergeOk i s b t (p :: rest) hi
          have hbase := mergeLog_inv res ha filt hfit log _ base ⟨rfl, rfl, rfl, filmNew_sized res hpos ha filt⟩
            (fun e he => ⟨boxes e he, by
              obtain ⟨r, s', hw'⟩ := h.logOk e he
              exact (hgood _ _ _ _ r hw').1⟩) h.baseOk
          obtain ⟨f1, g1, _⟩ := mergeFilmTile_fit res ha filt hfit base hbase b (mem i _ b hi (by simp [PC.box])) t
            (hgood _ _ _ _ hR0 hw).1
          unfold Film.mergeFilmTile at g1
          rw [hd1] at g1
          obtain ⟨d, hd⟩ := foldlM_prefix _ done rest p base _ f1 hd2 g1
          simp [threadStep, hd] at hs
      | finished => simp [threadStep] at hs
      | panicked => simp [threadStep] at hs

/-- C07, completion: with a tile renderer that never panics and a file that can be opened, a render with any number of
threads can be scheduled to its end: `render` returns.  (Any schedule does: it cannot get stuck, `c07_never_stuck`, go on for
ever, `c07_bounded`, or fail in a thread, `c08_no_other_panic`.) -/
theorem c07_completes {α σ : Type} [Scalar α] [Libm α] (res : V2 Int) (filt : Filter α)
    (hpos : 0 ≤ res.x * res.y) (ha : res.x * res.y < 2 ^ 31) (hfit : Spec.TilesFit (Film.new res filt))
    (work : σ → BBox2i → Option (FilmTile α × σ)) (R : σ → Prop) (sampler : σ) (hs : R sampler)
    (hwork : ∀ s b, R s → b ∈ (Film.new res filt).iter.toList → ∃ t s', work s b = some (t, s'))
    (hgood : ∀ s b t s', R s → work s b = some (t, s') → TileGood (Film.new res filt) b t ∧ R s')
    (n : Nat) (file : Option (List UInt8)) :
    ∃ k st, RReach work sampler (RState.init (Film.new res filt) n file) k st ∧ st.main = .done := by
  -- some run that never takes the `openFails` step, of maximal length
  have noPanic := fun k st => c08_no_other_panic res filt hpos ha hfit work R sampler hs hwork hgood n file k st
  have main : ∀ (m : Nat) (k : Nat) (st : RState α σ),
      RReach work sampler (RState.init (Film.new res filt) n file) k st → st.main ≠ .failed → (st.sh.filmLock ≠ .poisoned) →
      (∃ k st, RReach work sampler (RState.init (Film.new res filt) n file) k st ∧ st.main = .done) ∨
      ∃ st, RReach work sampler (RState.init (Film.new res filt) n file) (k + m) st ∧ st.main ≠ .failed := by
    intro m
    induction m with
    | zero => intro k st hr hf _; exact Or.inr ⟨st, hr, hf⟩
    | succ m ih =>
      intro k st hr hf hp
      by_cases hd : st.main = .done
      · exact Or.inl ⟨k, st, hr, hd⟩
      obtain ⟨st', hst⟩ := c07_never_stuck work sampler _ n file k st hr hd hf
      have go : ∀ st', RStep work sampler st st' → st'.main ≠ .failed →
          (∃ k st, RReach work sampler (RState.init (Film.new res filt) n file) k st ∧ st.main = .done) ∨
          ∃ st, RReach work sampler (RState.init (Film.new res filt) n file) (k + (m + 1)) st ∧ st.main ≠ .failed := by
        intro st' hst hf'
        have hr' := RReach.succ k st st' hr hst
        have hp' : st'.sh.filmLock ≠ .poisoned := by
          intro hc
          obtain ⟨log, lost, base, h⟩ := rinv_reach (R := R) (fun s b t s' hs e => (hgood s b t s' hs e).2) hs hr'
          exact noPanic _ _ hr' (h.poisoned hc)
        rcases ih (k + 1) st' hr' hf' hp' with h | ⟨st2, h1, h2⟩
        · exact Or.inl h
        · exact Or.inr ⟨st2, by rw [show k + (m + 1) = k + 1 + m by omega]; exact h1, h2⟩
      by_cases ho : st.main = .opening
      · exact go { st with main := .writing, file := some (st.file.getD []) } (.main st _ (by simp only [mainStep, ho])) (by simp)
      · refine go st' hst ?_
        cases hst with
        | openFails h => exact absurd h ho
        | thread i pc pc' sh' hi hs => exact hf
        | main _ hs =>
          unfold mainStep at hs
          cases he : st.main with
          | spawning k => cases k <;> rw [he] at hs <;> simp only [Option.some.injEq] at hs <;> subst hs <;> simp
          | joining i =>
            rw [he] at hs; dsimp only at hs
            cases ht : st.threads[i]? with
            | none => rw [ht] at hs; simp only [Option.some.injEq] at hs; subst hs; simp
            | some pc =>
              rw [ht] at hs
              cases pc <;> simp only [Option.some.injEq, reduceCtorEq] at hs
              · subst hs; simp
              · exact absurd (List.mem_of_getElem? ht) (noPanic k st hr)
          | opening => exact absurd he ho
          | writing =>
            rw [he] at hs; dsimp only at hs
            cases hl : st.sh.filmLock with
            | free => rw [hl] at hs; simp only [Option.some.injEq] at hs; subst hs; simp
            | held j => rw [hl] at hs; simp at hs
            | poisoned => exact absurd hl hp
          | done => exact absurd he hd
          | failed => exact absurd he hf
  let B := 5 * n + 4 + ((Film.new res filt).iter.toList.map fun b => ((Film.new res filt).getFilmTile b).bbox.iter.toList.length + 6).sum
  -- restrict `work` to good samplers to bound the length
  rcases main (B + 1) 0 _ .zero (by simp [RState.init]) (by simp [RState.init]) with h | ⟨st, h1, _⟩
  · exact h
  · exfalso
    have key : ∀ k st, RReach work sampler (RState.init (Film.new res filt) n file) k st →
        k + st.steps (Film.new res filt) n ≤ (RState.init (Film.new res filt) n file : RState α σ).steps (Film.new res filt) n := by
      intro k st hr
      induction hr with
      | zero => simp
      | succ k st st' hr hs' ih =>
        have := step_decreases_of (R := R) hs (fun s b t s' r e => (hgood s b t s' r e).2)
          (fun s b t s' r e => (hgood s b t s' r e).1.bbox) hr hs'
        omega
    have := key _ _ h1
    have e0 : (RState.init (Film.new res filt) n file : RState α σ).steps (Film.new res filt) n = B := by
      simp only [RState.init, RState.steps, MainPC.steps, List.map_nil, List.sum_nil, B, tilePixels]; omega
    omega

/-- Non-vacuity of `c06_every_tile_once`, `c08_no_other_panic` and `c07_completes`: a 40×20 film with a Gaussian filter of radius 2, whose
tiles are rendered as all black, on three threads. -/
example (file : Option (List UInt8)) :
    let film := Film.new (⟨40, 20⟩ : V2 Int) (GaussianFilter.new (2 : ℝ) 2).toFilter
    ∃ k st, RReach (fun (s : Unit) b => some (film.getFilmTile b, s)) () (RState.init film 3 file) k st ∧ st.main = .done := by
  intro film
  refine c07_completes (⟨40, 20⟩ : V2 Int) (GaussianFilter.new (2 : ℝ) 2).toFilter (by norm_num) (by norm_num)
    (tilesFit_real _ _ ?_) _ (fun _ => True) () trivial (fun s b _ _ => ⟨_, _, rfl⟩) ?_ 3 file
  · constructor <;> norm_num [GaussianFilter.toFilter, GaussianFilter.new]
  · intro s b t s' _ e
    simp only [Option.some.injEq, Prod.mk.injEq] at e
    obtain ⟨rfl, -⟩ := e
    exact ⟨⟨rfl, getFilmTile_sized _ _, mkFilterTable_ok _⟩, trivial⟩

/-! ### C26 -/

/-- C26 is false of the code: the worker threads start with clones of one sampler (integrator.rs:54, 71), and a clone
of a `RandomSampler` has the same generator state.  Whatever the generator, the seed, the scene and the number of
threads `≥ 2`, as soon as the film has two tiles some schedule makes the first two threads render different tiles from the
same sampler state, and so with the same random numbers: every program of draws gives the same result on both. -/
theorem c26_refuted {α ρ : Type} [Scalar α] [Libm α] (next : ρ → α × ρ) (radiance : V2 α → Draw α (Spectrum α))
    (film : Film α) (sampler : RandomSampler ρ) (n : Nat) (file : Option (List UInt8))
    (b0 b1 : BBox2i) (rest : List BBox2i) (htiles : film.iter.toList = b0 :: b1 :: rest) :
    let work := fun s b => renderTile (RandomSampler.ops next) radiance film s b
    ∃ k st s0 s1, RReach work sampler (RState.init film (n + 2) file) k st ∧
      st.threads[0]? = some (.rendering s0 b0) ∧ st.threads[1]? = some (.rendering s1 b1) ∧
      ∀ (β : Type) (prog : Draw α β) (p0 p1 : V2 Int),
        (prog.run (RandomSampler.ops next) ((RandomSampler.ops next).startPixel s0 p0)).map Prod.fst =
        (prog.run (RandomSampler.ops next) ((RandomSampler.ops next).startPixel s1 p1)).map Prod.fst := by
  intro work
  have n0 : film.iter.next.1 = some b0 := by
    cases h : film.iter.next.1 with
    | none => rw [(FilmTileIter.toList_none h).1] at htiles; simp at htiles
    | some b => rw [FilmTileIter.toList_some h] at htiles; simp at htiles; rw [htiles.1]
  have n1 : film.iter.next.2.next.1 = some b1 := by
    have e := FilmTileIter.toList_some n0
    rw [htiles] at e
    have e := List.tail_eq_of_cons_eq e
    cases h : film.iter.next.2.next.1 with
    | none => rw [(FilmTileIter.toList_none h).1] at e; simp at e
    | some b => rw [FilmTileIter.toList_some h] at e; simp at e; rw [e.1]
  let sh0 : Shared α := { iter := film.iter, iterLock := none, film, filmLock := .free }
  let sh1 : Shared α := { sh0 with iter := film.iter.next.2 }
  let sh2 : Shared α := { sh0 with iter := film.iter.next.2.next.2 }
  let S (sh : Shared α) (l : List (PC α (RandomSampler ρ))) : RState α (RandomSampler ρ) := ⟨.spawning n, sh, l, file⟩
  have r0 : RReach work sampler (RState.init film (n + 2) file) 0 _ := .zero
  have r1 := RReach.succ _ _ _ r0 (.main _ _ rfl)
  have r2 : RReach work sampler (RState.init film (n + 2) file) 2 (S sh0 [.wantIter sampler, .wantIter sampler]) :=
    RReach.succ _ _ _ r1 (.main _ _ rfl)
  have r3 : RReach work sampler (RState.init film (n + 2) file) 3
      (S { sh0 with iterLock := some 0 } [.haveIter sampler, .wantIter sampler]) := RReach.succ _ _ _ r2 (.thread _ 0 _ _ _ rfl rfl)
  have r4 : RReach work sampler (RState.init film (n + 2) file) 4
      (S { sh1 with iterLock := some 0 } [.gotTile sampler film.iter.next.1, .wantIter sampler]) :=
    RReach.succ _ _ _ r3 (.thread _ 0 _ _ _ rfl rfl)
  rw [n0] at r4
  have r5 : RReach work sampler (RState.init film (n + 2) file) 5
      (S sh1 [.rendering sampler b0, .wantIter sampler]) := RReach.succ _ _ _ r4 (.thread _ 0 _ _ _ rfl rfl)
  have r6 : RReach work sampler (RState.init film (n + 2) file) 6
      (S { sh1 with iterLock := some 1 } [.rendering sampler b0, .haveIter sampler]) := RReach.succ _ _ _ r5 (.thread _ 1 _ _ _ rfl rfl)
  have r7 : RReach work sampler (RState.init film (n + 2) file) 7
      (S { sh2 with iterLock := some 1 } [.rendering sampler b0, .gotTile sampler film.iter.next.2.next.1]) :=
    RReach.succ _ _ _ r6 (.thread _ 1 _ _ _ rfl rfl)
  rw [n1] at r7
  have r8 : RReach work sampler (RState.init film (n + 2) file) 8
      (S sh2 [.rendering sampler b0, .rendering sampler b1]) := RReach.succ _ _ _ r7 (.thread _ 1 _ _ _ rfl rfl)
  exact ⟨8, _, sampler, sampler, r8, rfl, rfl, fun β prog p0 p1 => rfl⟩

end PT
