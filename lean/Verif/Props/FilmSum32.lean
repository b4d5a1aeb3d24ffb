import Verif.Props.ImageAll32

/-!
# The contents of the film in single precision (C05, C103)

What the film holds after a render, against the exact filtered sums over all samples, and how far a pixel can be from the range of its samples.
-/

namespace PT
open Fl

namespace Spec
/-- The light of a sample in one of the colours; 1 for the weight. -/
def lightOf (c : Entry) (s : Spectrum F32) : ℚ :=
  match c with
  | .r => s.r.val
  | .g => s.g.val
  | .b => s.b.val
  | .weight => 1

/-- A render as it is made: a film as it occurs in practice, a Gaussian filter of usual shape, at most 12500 samples within its radius, plain light. -/
structure PlainRender [Libm F32] (res : V2 Int) (radius alpha : F32) (R : Nat) (radiance : V2 F32 → Draw F32 (Spectrum F32)) (spp : Nat) : Prop where
  film : PlainFilm res radius R
  numR : Num radius
  numA : Num alpha
  wide : 1 / 2 ≤ radius.val
  steep : 1 / 4 ≤ alpha.val * radius.val ^ 2
  flat : alpha.val * radius.val ^ 2 ≤ 8
  few : (2 * R + 1) ^ 2 * max 1 spp ≤ 12500
  light : PlainLight (Film.new res (GaussianFilter.new radius alpha).toFilter) radiance spp
end Spec

namespace Img
open Spec

theorem plain_render [Libm F32] (hx : ExpAccurate) {res : V2 Int} {radius alpha : F32} {R : Nat} {radiance : V2 F32 → Draw F32 (Spectrum F32)} {spp : Nat}
    (h : PlainRender res radius alpha R radiance spp) :
    radius.val ≤ 7 ∧ PositiveFilter (Film.new res (GaussianFilter.new radius alpha).toFilter) ∧ spp < 2 ^ 32 := by
  obtain ⟨j, j0, j1, hrv⟩ := h.film.grid
  have hsm := h.film.small
  have h7 : radius.val ≤ 7 := by
    have j1' : (j : ℚ) ≤ 7 * 2 ^ 10 := by exact_mod_cast (by omega : j ≤ 7 * 2 ^ 10)
    rw [hrv, div_le_iff₀ (by norm_num)]; exact j1'
  have r0 := h.wide
  have p1 := h.flat
  have a0 : alpha.val ≤ 32 := by
    by_contra hc
    have k1 : (1 / 4 : ℚ) ≤ radius.val ^ 2 := by nlinarith
    have k2 : alpha.val * (1 / 4) ≤ alpha.val * radius.val ^ 2 := mul_le_mul_of_nonneg_left k1 (by linarith)
    linarith
  refine ⟨h7, c14_table_f32 hx radius alpha h.numR h.numA (by linarith) (by norm_num at *; linarith) (by norm_num at *; linarith) h.steep p1 res, ?_⟩
  have h1 : max 1 spp ≤ (2 * R + 1) ^ 2 * max 1 spp := Nat.le_mul_of_pos_left _ (by positivity)
  have := h.few
  omega

theorem full_exact {res : V2 Int} (filt : Filter F32) {R : Int} (h : PlainFilm res filt.radius R) (radiance : V2 F32 → Draw F32 (Spectrum F32)) (spp : Nat)
    (x y : Int) (hi : InImage res x y) (c : Entry) : exactSum (Film.new res filt) radiance spp x y c = fullSum (Film.new res filt) radiance spp x y c := by
  unfold exactSum fullSum
  exact ((c119_all_samples filt h radiance spp x y hi).map _).sum_eq

/-- Colours between two bounds have a weighted sum between the bounds times the total weight. -/
theorem full_between {film : Film F32} (hT : TableOK film.filterTable) (hP : PositiveFilter film) (radiance : V2 F32 → Draw F32 (Spectrum F32)) (spp : Nat) (x y : Int) (c : Entry)
    {lo hi : ℚ} (hb : ∀ s ∈ reaching film radiance spp x y, lo ≤ lightOf c s.2 ∧ lightOf c s.2 ≤ hi) :
    lo * fullSum film radiance spp x y .weight ≤ fullSum film radiance spp x y c ∧ fullSum film radiance spp x y c ≤ hi * fullSum film radiance spp x y .weight := by
  unfold fullSum
  generalize reaching film radiance spp x y = l at hb
  induction l with
  | nil => simp
  | cons s l ih =>
    obtain ⟨i1, i2⟩ := ih fun t ht => hb t (List.mem_cons_of_mem _ ht)
    obtain ⟨b1, b2⟩ := hb s List.mem_cons_self
    have w0 : 0 ≤ (weight32 film x y s).val := le_trans (by norm_num) (weight_bounds hT hP x y s).2.1
    have e : share32 film x y c s = lightOf c s.2 * share32 film x y .weight s := by cases c <;> simp [share32, lightOf]
    have e' : share32 film x y .weight s = (weight32 film x y s).val := rfl
    simp only [List.map_cons, List.sum_cons]
    rw [e, e', mul_add, mul_add]
    exact ⟨add_le_add (mul_le_mul_of_nonneg_right b1 w0) i1, add_le_add (mul_le_mul_of_nonneg_right b2 w0) i2⟩

/-- The transfer function is increasing, but for a tiny step down where its two pieces meet. -/
theorem srgb_mono {a b : ℝ} (h0 : 0 ≤ a) (h : a ≤ b) : Spec.srgb a ≤ Spec.srgb b + 1 / 10 ^ 5 := by
  unfold Spec.srgb
  split_ifs with h1 h2 h2
  · linarith
  · rcases le_total b 0.0031309 with h3 | h3
    · have := (srgb_switch (v := b) (by norm_num at *; linarith) h3).1
      norm_num at *; linarith
    · have k := (srgb_switch (v := 0.0031309) (by norm_num) (by norm_num)).1
      have k2 : (0.0031309 : ℝ) ^ (1 / 2.4 : ℝ) ≤ b ^ (1 / 2.4 : ℝ) := Real.rpow_le_rpow (by norm_num) h3 (by norm_num)
      norm_num at *; linarith
  · exact absurd (h.trans h2) h1
  · have := Real.rpow_le_rpow h0 h (show (0 : ℝ) ≤ 1 / 2.4 by norm_num)
    linarith

end Img

open Img in
/-- C05 in single precision: after any completed render as it is made, whatever the number of threads and the schedule, each of the four numbers the film holds for a
pixel of the image is a number, and is the exact filtered sum over all valid samples whose footprint contains the pixel up to a relative error of 1/1300. -/
theorem c05_f32 [Libm F32] (hx : Spec.ExpAccurate) (res : V2 Int) (radius alpha : F32) (R : Nat) (radiance : V2 F32 → Draw F32 (Spectrum F32)) (spp n : Nat)
    (h : Spec.PlainRender res radius alpha R radiance spp) (file : Option (List UInt8)) (st : RState F32 HaltonSampler)
    (hr : Spec.Rendered (Film.new res (GaussianFilter.new radius alpha).toFilter) radiance spp n file st) (x y : Int) (hi : Spec.InImage res x y) (c : Spec.Entry) :
    let sum := Spec.fullSum (Film.new res (GaussianFilter.new radius alpha).toFilter) radiance spp x y c
    (c.of (st.sh.film.px x y)).IsFin ∧ |(c.of (st.sh.film.px x y)).val - sum| ≤ 1 / 1300 * sum + 1 / 2 ^ 134 := by
  intro sum
  obtain ⟨h7, hP, hspp⟩ := plain_render hx h
  have hfilm : Spec.PlainFilm res (GaussianFilter.new radius alpha).toFilter.radius R := h.film
  have ho := plain_pixel _ hfilm h.wide radiance spp h.few h.light x y hi
  have hR := plain_range hfilm
  have hord := ordinary res _ hR hP radiance spp n hspp file st hr x y ho
  obtain ⟨k1, k2, k3⟩ := c98_close_partial res _ hR radiance spp n file st hr x y hi c (hord.parts c) (c98_four_tiles res _ hR h7 x y) (hord.small c)
  have err := (tileSum_err res _ hR hP radiance spp n hspp file st hr x y ho c).2
  have bd := exact_bounds (mkFilterTable_ok _) hP ho c
  have es := full_exact _ hfilm radiance spp x y hi c
  rw [es] at err bd
  refine ⟨k1, ?_⟩
  change Spec.tileSum (Film.new res (GaussianFilter.new radius alpha).toFilter) radiance spp x y c * (1 - 1 / 2 ^ 24) ^ 4 ≤ _ at k2
  change _ ≤ Spec.tileSum (Film.new res (GaussianFilter.new radius alpha).toFilter) radiance spp x y c * (1 + 1 / 2 ^ 24) ^ 4 at k3
  have s0 : 0 ≤ sum := bd.1
  change |_ - sum| ≤ 31 / 40960 * sum + _ at err
  obtain ⟨e1, e2⟩ := abs_le.1 err
  clear err bd es hord k1 hP hspp ho
  generalize Spec.tileSum (Film.new res (GaussianFilter.new radius alpha).toFilter) radiance spp x y c = T at *
  generalize (c.of (st.sh.film.px x y)).val = V at *
  clear_value sum
  rw [abs_le]
  norm_num at k2 k3 e1 e2 ⊢
  constructor <;> linarith

open Img in
/-- C103 in single precision: after any completed render as it is made into a new file, if the samples whose footprint contains a pixel have in some colour a light
between `lo` and `hi`, the number in the image file is at least `255 · srgb(lo) - 0.51` and at most `255 · srgb(hi) + 1.51` (colours cut off at 1). -/
theorem c103_f32 [Libm F32] (hp : Spec.PowfAccurate) (hm : Spec.PowfMonotone) (hx : Spec.ExpAccurate) (res : V2 Int) (radius alpha : F32) (R : Nat)
    (radiance : V2 F32 → Draw F32 (Spectrum F32)) (spp n : Nat) (h : Spec.PlainRender res radius alpha R radiance spp) (st : RState F32 HaltonSampler)
    (hr : Spec.Rendered (Film.new res (GaussianFilter.new radius alpha).toFilter) radiance spp n none st) :
    let between := fun (x y : Int) (c : Spec.Entry) (k : Nat) => ∀ lo hi : ℚ, 0 ≤ lo →
      (∀ s ∈ Spec.reaching (Film.new res (GaussianFilter.new radius alpha).toFilter) radiance spp x y, lo ≤ Spec.lightOf c s.2 ∧ Spec.lightOf c s.2 ≤ hi) →
      255 * Spec.srgb (min 1 lo) - 0.51 ≤ k ∧ (k : ℝ) ≤ 255 * Spec.srgb (min 1 hi) + 1.51
    ∃ (text : String) (px : List (Nat × Nat × Nat)), st.file = some text.toUTF8.toList ∧ Spec.IsPpm text res.x res.y px ∧
      ∀ x y, Spec.InImage res x y → ∃ r g b : Nat, px[(y * res.x + x).toNat]? = some (r, g, b) ∧ between x y .r r ∧ between x y .g g ∧ between x y .b b := by
  intro between
  obtain ⟨h7, hP, hspp⟩ := plain_render hx h
  have hfilm : Spec.PlainFilm res (GaussianFilter.new radius alpha).toFilter.radius R := h.film
  obtain ⟨text, px, e1, e2, e3⟩ := c119_gaussian hp hm hx radius alpha h.numR h.numA h.wide h.steep h.flat res R h.film radiance spp n h.few h.light st hr
  refine ⟨text, px, e1, e2, ?_⟩
  intro x y hi
  obtain ⟨r, g, b, e4, k1, k2, k3⟩ := e3 x y hi
  have ho := plain_pixel _ hfilm h.wide radiance spp h.few h.light x y hi
  have es := full_exact _ hfilm radiance spp x y hi .weight
  have W0 := (exact_bounds (mkFilterTable_ok _) hP ho .weight).2.2
  rw [es] at W0
  have key : ∀ (c : Spec.Entry) (k : Nat), |(k : ℝ) - (255 * Spec.srgb (min 1 ((Spec.fullSum (Film.new res (GaussianFilter.new radius alpha).toFilter) radiance spp x y c : ℝ) /
      Spec.fullSum (Film.new res (GaussianFilter.new radius alpha).toFilter) radiance spp x y .weight)) + 1 / 2)| ≤ 1 → between x y c k := by
    intro c k hk lo up l0 hb
    obtain ⟨b1, b2⟩ := full_between (mkFilterTable_ok _) hP radiance spp x y c hb
    generalize Spec.fullSum (Film.new res (GaussianFilter.new radius alpha).toFilter) radiance spp x y c = C at *
    generalize Spec.fullSum (Film.new res (GaussianFilter.new radius alpha).toFilter) radiance spp x y .weight = W at *
    have W0' : (0 : ℝ) < W := by exact_mod_cast lt_of_lt_of_le (by norm_num : (0 : ℚ) < 1 / 2 ^ 40) W0
    have b1' : (lo : ℝ) ≤ C / W := by rw [le_div_iff₀ W0']; exact_mod_cast b1
    have b2' : (C : ℝ) / W ≤ up := by rw [div_le_iff₀ W0']; exact_mod_cast b2
    have l0' : (0 : ℝ) ≤ lo := by exact_mod_cast l0
    have m1 := srgb_mono (le_min zero_le_one l0') (min_le_min_left 1 b1')
    have m2 := srgb_mono (le_min zero_le_one (l0'.trans b1')) (min_le_min_left 1 b2')
    obtain ⟨q1, q2⟩ := abs_le.1 hk
    constructor <;> (norm_num at m1 m2 q1 q2 ⊢; linarith)
  exact ⟨r, g, b, e4, key .r r k1, key .g g k2, key .b b k3⟩

/-! ### A case: the film of the example program -/

/-- The render of the case of `c119_gaussian` is one as it is made. -/
theorem Demo.hello_render : @Spec.PlainRender Demo.gaussLibm ⟨1600, 1280⟩ (lit 2) (lit 2) 2 (fun _ => .ret Demo.dark) 500 := by
  let := Demo.gaussLibm
  obtain ⟨n2, v2⟩ := Gauss.two_num
  exact ⟨Demo.hello_plain, n2, n2, by rw [v2]; norm_num, by rw [v2]; norm_num, by rw [v2]; norm_num, by norm_num, Demo.dark_plain _ _⟩

/-- C05, a case: the film of the example program. -/
example (n : Nat) (file : Option (List UInt8)) (st : RState F32 HaltonSampler)
    (h : @Spec.Rendered F32 _ Demo.gaussLibm (Film.new ⟨1600, 1280⟩ Demo.gauss2) (fun _ => .ret Demo.dark) 500 n file st) :
    (st.sh.film.px 799 639).weight.IsFin := by
  let := Demo.gaussLibm
  exact (c05_f32 Demo.exp_accurate ⟨1600, 1280⟩ (lit 2) (lit 2) 2 _ 500 n Demo.hello_render file st h 799 639 ⟨by norm_num, by norm_num, by norm_num, by norm_num⟩ .weight).1

open Img Spec in
theorem Demo.dark_reaching {film : Film F32} {spp : Nat} {x y : Int} {s : V2 F32 × Spectrum F32} (h : s ∈ reaching film (fun _ => .ret Demo.dark) spp x y) : s.2 = Demo.dark := by
  unfold reaching at h
  obtain ⟨p, -, h⟩ := List.mem_flatMap.1 (List.mem_filter.1 h).1
  obtain ⟨i, -, h, -⟩ := mem_samples.1 h
  unfold sample32 oneSample at h
  obtain ⟨⟨s', t⟩, h3, e3⟩ := Option.map_eq_some_iff.1 h
  have e3 : s' = s := e3
  subst e3
  rw [getCameraSample] at h3
  simp only [Draw.bind, Draw.run] at h3
  split at h3
  · cases h3
  · simp only [Option.some.injEq, Prod.mk.injEq] at h3
    rw [← h3.1]

/-- C103, a case: the image of a scene that has one dark colour everywhere has 8 or 9 in every pixel; 8 is the gamma-corrected value. -/
example (n : Nat) (st : RState F32 HaltonSampler) (h : @Spec.Rendered F32 _ Demo.gaussLibm (Film.new ⟨1600, 1280⟩ Demo.gauss2) (fun _ => .ret Demo.dark) 500 n none st) :
    ∃ (text : String) (px : List (Nat × Nat × Nat)), st.file = some text.toUTF8.toList ∧ Spec.IsPpm text 1600 1280 px ∧
      ∀ x y, Spec.InImage ⟨1600, 1280⟩ x y → ∃ r g b : Nat, px[(y * 1600 + x).toNat]? = some (r, g, b) ∧ (r = 8 ∨ r = 9) := by
  let := Demo.gaussLibm
  obtain ⟨text, px, e1, e2, e3⟩ := c103_f32 (by exact Demo.fine_accurate)
    ⟨@Spec.PowfMonotone.mono Demo.fineLibm Demo.fine_monotone, @Spec.PowfMonotone.wf Demo.fineLibm Demo.fine_monotone, @Spec.PowfMonotone.low Demo.fineLibm Demo.fine_monotone⟩
    Demo.exp_accurate ⟨1600, 1280⟩ (lit 2) (lit 2) 2 _ 500 n Demo.hello_render st h
  refine ⟨text, px, e1, e2, ?_⟩
  intro x y hi
  obtain ⟨r, g, b, e4, k, -, -⟩ := e3 x y hi
  refine ⟨r, g, b, e4, ?_⟩
  have dark : Demo.dark.r.val = 20858214 / 2 ^ 33 := by
    have : Demo.dark.r = .fin false (20858214 / 2 ^ 33) := by decide +kernel
    rw [this]; norm_num [Fl.val, Fl.sgn]
  obtain ⟨k1, k2⟩ := k (20858214 / 2 ^ 33) (20858214 / 2 ^ 33) (by norm_num) (by
    intro s hs
    rw [Demo.dark_reaching hs]
    exact ⟨dark.ge, dark.le⟩)
  have m : min (1 : ℝ) ((20858214 / 2 ^ 33 : ℚ) : ℝ) = 20858214 / 2 ^ 33 := by push_cast; norm_num
  rw [m] at k1 k2
  unfold Spec.srgb at k1 k2
  rw [if_pos (by norm_num)] at k1 k2
  norm_num at k1 k2
  have a1 : (7 : ℝ) < r := by linarith
  have a2 : (r : ℝ) < 10 := by linarith
  have a1' : 7 < r := by exact_mod_cast a1
  have a2' : r < 10 := by exact_mod_cast a2
  omega

end PT
