import Verif.Props.ScheduleByte
import Verif.Props.HaltonIndex

/-!
# The image file of a render in single precision (C119, and C98 in part)

The film adds up all samples, the tiles are merged and the file is written, all in single precision: how far are the numbers in the file from
the ones computed exactly from the camera samples?
-/

namespace PT
open Fl

/-! ### Sums with rounding -/

namespace Img

/-- One more term in a sum of rounded terms. -/
theorem step_err {A E g p a s : ℚ} {m : ℕ} (hm : m ≤ 2 ^ 14) (hA : 0 ≤ A) (hg : 0 ≤ g) (hE : E = 101 / 100 * (m + 1) * ulpHalf * A + 2 * m * tinyHalf) (ha : |a - A| ≤ E)
    (hp : |p - g| ≤ g * ulpHalf + tinyHalf) (hs : |s - (a + p)| ≤ |a + p| * ulpHalf) :
    |s - (A + g)| ≤ 101 / 100 * (m + 1 + 1) * ulpHalf * (A + g) + 2 * (m + 1) * tinyHalf := by
  have hu : ulpHalf = 1 / 2 ^ 24 := rfl
  have ht : 0 < tinyHalf := by unfold tinyHalf; norm_num
  have hmq : (m : ℚ) ≤ 2 ^ 14 := by exact_mod_cast hm
  have m0 : (0 : ℚ) ≤ m := by positivity
  have h1 : |a + p - (A + g)| ≤ E + (g * ulpHalf + tinyHalf) := by
    have : a + p - (A + g) = (a - A) + (p - g) := by ring
    rw [this]; exact (abs_add_le _ _).trans (add_le_add ha hp)
  have h2 : |a + p| ≤ A + g + (E + (g * ulpHalf + tinyHalf)) := by
    have : a + p = (A + g) + (a + p - (A + g)) := by ring
    rw [this]
    refine (abs_add_le _ _).trans (add_le_add ?_ h1)
    rw [abs_of_nonneg (by linarith)]
  have h3 : |s - (A + g)| ≤ (A + g + (E + (g * ulpHalf + tinyHalf))) * ulpHalf + (E + (g * ulpHalf + tinyHalf)) := by
    have : s - (A + g) = (s - (a + p)) + (a + p - (A + g)) := by ring
    rw [this]
    refine (abs_add_le _ _).trans (add_le_add (hs.trans ?_) h1)
    exact mul_le_mul_of_nonneg_right h2 (by rw [hu]; norm_num)
  refine h3.trans ?_
  subst hE
  rw [hu]
  have k1 : (m : ℚ) * A ≤ 2 ^ 14 * A := mul_le_mul_of_nonneg_right hmq hA
  have k2 : (m : ℚ) * tinyHalf ≤ 2 ^ 14 * tinyHalf := mul_le_mul_of_nonneg_right hmq ht.le
  have k3 : 0 ≤ (m : ℚ) * g := mul_nonneg m0 hg
  have k4 : 0 ≤ (m : ℚ) * A := mul_nonneg m0 hA
  have k5 : 0 ≤ (m : ℚ) * tinyHalf := mul_nonneg m0 ht.le
  ring_nf
  ring_nf at k1 k2 k3 k4 k5
  linarith

/-- A sum of terms that are themselves rounded: every term and every addition costs a factor of `1 ± 2⁻²⁴`. -/
theorem sum_err {γ : Type} (f : γ → F32) (g : γ → ℚ) (l : List γ) : ∀ (a : F32) (A : ℚ) (m : ℕ), m + l.length ≤ 2 ^ 14 → Num a → 0 ≤ a.val → 0 ≤ A → A ≤ m * 2 ^ 91 →
    |a.val - A| ≤ 101 / 100 * (m + 1) * ulpHalf * A + 2 * m * tinyHalf →
    (∀ s ∈ l, Num (f s) ∧ 0 ≤ (f s).val ∧ 0 ≤ g s ∧ g s ≤ 2 ^ 91 ∧ |(f s).val - g s| ≤ g s * ulpHalf + tinyHalf) →
    let r := l.foldl (fun a s => a +. f s) a
    let R := A + (l.map g).sum
    Num r ∧ 0 ≤ r.val ∧ a.val ≤ r.val ∧ |r.val - R| ≤ 101 / 100 * ((m + l.length : ℕ) + 1) * ulpHalf * R + 2 * (m + l.length : ℕ) * tinyHalf := by
  induction l with
  | nil =>
    intro a A m _ na a0 _ _ e _
    exact ⟨na, a0, le_rfl, by simpa only [List.foldl_nil, List.map_nil, List.sum_nil, add_zero, List.length_nil] using e⟩
  | cons s l ih =>
    intro a A m hm na a0 hA hA' e hl
    obtain ⟨n, f0, g0, g1, ge⟩ := hl s (List.mem_cons_self ..)
    have hm' : m + 1 + l.length ≤ 2 ^ 14 := by simpa [List.length_cons, Nat.add_assoc, Nat.add_comm 1] using hm
    have mm : (m : ℚ) ≤ 2 ^ 20 := by
      have : m ≤ 2 ^ 20 := by omega
      exact_mod_cast this
    have m0 : (0 : ℚ) ≤ m := by positivity
    have hu : ulpHalf = 1 / 2 ^ 24 := rfl
    have ht : tinyHalf = 1 / 2 ^ 150 := rfl
    have aA : a.val ≤ 2 ^ 112 := by
      have h1 := (abs_le.1 e).2
      have h2 : A ≤ 2 ^ 111 := hA'.trans (by calc (m : ℚ) * 2 ^ 91 ≤ 2 ^ 20 * 2 ^ 91 := mul_le_mul_of_nonneg_right mm (by norm_num)
                                                _ = 2 ^ 111 := by norm_num)
      have h3 : (m : ℚ) * A ≤ 2 ^ 20 * A := mul_le_mul_of_nonneg_right mm hA
      have h4 : 101 / 100 * ((m : ℚ) + 1) * ulpHalf * A + 2 * m * tinyHalf = 101 / 100 / 2 ^ 24 * (m * A) + 101 / 100 / 2 ^ 24 * A + 2 / 2 ^ 150 * m := by rw [hu, ht]; ring
      rw [h4] at h1
      generalize (m : ℚ) * A = P at h1 h3
      norm_num at h1 h2 h3 ⊢
      linarith
    have fle : (f s).val ≤ 2 ^ 92 := by
      have h1 := (abs_le.1 ge).2
      rw [hu, ht] at h1
      norm_num at h1 g1 ⊢
      linarith
    obtain ⟨n1, n2⟩ := add_ok na n (by
      rw [abs_of_nonneg (by linarith)]
      norm_num at aA fle ⊢
      linarith)
    have n3 : a.val ≤ (a +. f s).val ∧ 0 ≤ (a +. f s).val := by
      obtain ⟨-, h1, -⟩ := add_stays na n (num_repr na) big_repr (by linarith) (by norm_num at aA fle ⊢; linarith)
      exact ⟨h1, a0.trans h1⟩
    have st := step_err (A := A) (g := g s) (m := m) (by omega) hA g0 rfl e ge n2
    have key := ih (a +. f s) (A + g s) (m + 1) hm' n1 n3.2 (by linarith) (by push_cast; linarith) (by push_cast; exact st)
      (fun s' hs' => hl s' (List.mem_cons_of_mem _ hs'))
    obtain ⟨r1, r2, r3, r4⟩ := key
    simp only [List.foldl_cons, List.map_cons, List.sum_cons, List.length_cons]
    refine ⟨r1, r2, n3.1.trans r3, ?_⟩
    have e1 : A + (g s + (l.map g).sum) = A + g s + (l.map g).sum := by ring
    have e2 : m + (l.length + 1) = m + 1 + l.length := by omega
    rw [e1, e2]; exact r4

/-- The sRGB curve when its argument changes by at most 0.153 per cent. -/
theorem srgb_near {V v : ℝ} (hV0 : 0 ≤ V) (hV1 : V ≤ 1) (hv : |v - V| ≤ 153 / 10 ^ 5 * V) : |Spec.srgb v - Spec.srgb V| ≤ 163 / 10 ^ 5 := by
  obtain ⟨v1, v2⟩ := abs_le.1 hv
  have v0 : 0 ≤ v := by linarith
  obtain ⟨t1, t2⟩ := srgb_switch (v := 0.0031308) (by norm_num) (by norm_num)
  have cross : ∀ x y : ℝ, 0 ≤ x → x ≤ 0.0031308 → 0.0031308 < y → |y - x| ≤ 16 / 10 ^ 4 * x → |12.92 * x - (1.055 * y ^ (1 / 2.4 : ℝ) - 0.055)| ≤ 163 / 10 ^ 5 := by
    intro x y x0 hx hy hxy
    obtain ⟨a1, a2⟩ := abs_le.1 hxy
    have hrel := rpow_rel (a := 0.0031308) (b := y) (d := 16 / 10 ^ 4) (p := 1 / 2.4) (by norm_num) (by norm_num) (by norm_num) (by norm_num) (by norm_num)
      (by rw [abs_le]; constructor <;> linarith)
    obtain ⟨r1, r2⟩ := abs_le.1 hrel
    generalize (0.0031308 : ℝ) ^ (1 / 2.4 : ℝ) = X at *
    generalize y ^ (1 / 2.4 : ℝ) = Y at *
    rw [abs_le]; constructor <;> (norm_num at *; linarith)
  unfold Spec.srgb
  by_cases hv' : v ≤ 0.0031308
  · rw [if_pos hv']
    split_ifs with hV
    · rw [abs_le]; constructor <;> (norm_num at *; linarith)
    · exact cross v V v0 hv' (by linarith) (by rw [abs_le]; constructor <;> linarith)
  · rw [if_neg hv']
    split_ifs with hV
    · rw [abs_sub_comm]
      exact cross V v hV0 hV (by linarith) (by rw [abs_le]; constructor <;> linarith)
    · have hrel := rpow_rel (a := V) (b := v) (d := 153 / 10 ^ 5) (p := 1 / 2.4) (by linarith) (by norm_num) (by norm_num) (by norm_num) (by norm_num) hv
      have hVp : V ^ (1 / 2.4 : ℝ) ≤ 1 := Real.rpow_le_one hV0 hV1 (by norm_num)
      have hVp0 : 0 ≤ V ^ (1 / 2.4 : ℝ) := Real.rpow_nonneg hV0 _
      obtain ⟨r1, r2⟩ := abs_le.1 hrel
      generalize V ^ (1 / 2.4 : ℝ) = X at *
      generalize v ^ (1 / 2.4 : ℝ) = Y at *
      rw [abs_le]; constructor <;> (norm_num at *; linarith)

/-- The same with an absolute error, and cut off at 1. -/
theorem srgb_min_near {V v : ℝ} (hV0 : 0 ≤ V) (hv : |v - V| ≤ 152 / 10 ^ 5 * V + 1 / 2 ^ 80) : |Spec.srgb (min 1 v) - Spec.srgb (min 1 V)| ≤ 163 / 10 ^ 5 := by
  obtain ⟨v1, v2⟩ := abs_le.1 hv
  rcases lt_or_ge V (1 / 2 ^ 60) with h | h
  · have hV : V ≤ 0.0031308 := by norm_num at *; linarith
    have hv' : v ≤ 0.0031308 := by norm_num at *; linarith
    rw [min_eq_right (by linarith), min_eq_right (by linarith)]
    unfold Spec.srgb
    rw [if_pos hV, if_pos hv', abs_le]
    constructor <;> (norm_num at *; linarith)
  · have hv' : |v - V| ≤ 153 / 10 ^ 5 * V := hv.trans (by norm_num at *; linarith)
    obtain ⟨w1, w2⟩ := abs_le.1 hv'
    refine srgb_near (le_min zero_le_one hV0) (min_le_left _ _) ?_
    rcases le_total 1 V with h1 | h1 <;> rcases le_total 1 v with h2 | h2
    · rw [min_eq_left h1, min_eq_left h2]; norm_num
    · rw [min_eq_left h1, min_eq_right h2, abs_le]; constructor <;> (norm_num at *; linarith)
    · rw [min_eq_right h1, min_eq_left h2, abs_le]; constructor <;> (norm_num at *; linarith)
    · rw [min_eq_right h1, min_eq_right h2]; exact hv'

/-- The quotient of two sums of at most 12500 terms. -/
theorem quotient_near {c w C W : ℝ} (hC : 0 ≤ C) (hW : 1 / 2 ^ 40 ≤ W) (hc : |c - C| ≤ 31 / 40960 * C + 1 / 2 ^ 135) (hw : |w - W| ≤ 31 / 40960 * W + 1 / 2 ^ 135) :
    |c / w - C / W| ≤ 152 / 10 ^ 5 * (C / W) + 1 / 2 ^ 80 := by
  obtain ⟨c1, c2⟩ := abs_le.1 hc
  obtain ⟨w1, w2⟩ := abs_le.1 hw
  have W0 : 0 < W := lt_of_lt_of_le (by norm_num) hW
  have e : C = C / W * W := by field_simp
  have hq : 0 ≤ C / W := div_nonneg hC W0.le
  generalize C / W = q at *
  subst e
  have l1 : W * (1 - 31 / 40960 - 1 / 2 ^ 90) ≤ w := by norm_num at *; linarith
  have l2 : w ≤ W * (1 + 31 / 40960 + 1 / 2 ^ 90) := by norm_num at *; linarith
  have w0 : 0 < w := lt_of_lt_of_le (mul_pos W0 (by norm_num)) l1
  have qW : 0 ≤ q * W := mul_nonneg hq W0.le
  have u : c / w ≤ q * (1 + 152 / 10 ^ 5) + 1 / 2 ^ 80 := by
    rw [div_le_iff₀ w0]
    have k1 : q * (1 + 152 / 10 ^ 5) * (W * (1 - 31 / 40960 - 1 / 2 ^ 90)) ≤ q * (1 + 152 / 10 ^ 5) * w := mul_le_mul_of_nonneg_left l1 (by positivity)
    have k2 : q * (1 + 152 / 10 ^ 5) * (W * (1 - 31 / 40960 - 1 / 2 ^ 90)) = q * W * ((1 + 152 / 10 ^ 5) * (1 - 31 / 40960 - 1 / 2 ^ 90)) := by ring
    rw [k2] at k1
    rw [add_mul]
    norm_num at *
    linarith
  have l : q * (1 - 152 / 10 ^ 5) - 1 / 2 ^ 80 ≤ c / w := by
    rw [le_div_iff₀ w0]
    have k1 : q * (1 - 152 / 10 ^ 5) * w ≤ q * (1 - 152 / 10 ^ 5) * (W * (1 + 31 / 40960 + 1 / 2 ^ 90)) := mul_le_mul_of_nonneg_left l2 (mul_nonneg hq (by norm_num))
    have k2 : q * (1 - 152 / 10 ^ 5) * (W * (1 + 31 / 40960 + 1 / 2 ^ 90)) = q * W * ((1 - 152 / 10 ^ 5) * (1 + 31 / 40960 + 1 / 2 ^ 90)) := by ring
    rw [k2] at k1
    rw [sub_mul]
    norm_num at *
    linarith
  rw [abs_le]; constructor <;> linarith

end Img

/-! ### Specification -/

namespace Spec
/-- The `i`-th camera sample of the pixel `p`: its place on the film and the light that arrives there, computed with the sampler in the state
after `start_pixel(p)` on the sampler as it was made and then `i` times `start_next_sample`.  `none` if computing it panics. -/
def sample32 (radiance : V2 F32 → Draw F32 (Spectrum F32)) (s0 : HaltonSampler) (p : V2 Int) (i : Nat) : Option (V2 F32 × Spectrum F32) :=
  ((oneSample radiance p).run HaltonSampler.ops (sampleState s0 p i)).map Prod.fst

/-- The valid samples (no channel NaN, infinite or negative) among the samples number `i`, …, `i + n - 1` of the pixel. -/
def samplesFrom32 (radiance : V2 F32 → Draw F32 (Spectrum F32)) (s0 : HaltonSampler) (p : V2 Int) (i n : Nat) : List (V2 F32 × Spectrum F32) :=
  (List.range' i n).filterMap fun j => (sample32 radiance s0 p j).filter fun s => validRadiance s.2

/-- The samples that count for the image pixel `(x, y)`: those taken by the tiles that have this pixel, `max(1, spp)` for each pixel of the tile's box, whose
light is valid and whose footprint contains the pixel. -/
def counted (film : Film F32) (radiance : V2 F32 → Draw F32 (Spectrum F32)) (spp : Nat) (x y : Int) : List (V2 F32 × Spectrum F32) :=
  ((tilesAt film x y).flatMap fun b => b.iter.toList.flatMap fun p => samplesFrom32 radiance (HaltonSampler.new spp film.sampleBBox) p 0 (max 1 spp)).filter
    fun s => Covers film.filterRadius s.1 x y

/-- The filter weight of a sample for a pixel, an entry of the film's table. -/
def weight32 (film : Film F32) (x y : Int) (s : V2 F32 × Spectrum F32) : F32 := sampleWeight film.filterRadius film.filterTable s.1 x y

/-- What a sample should add to one of the four numbers of the pixel: filter weight times light, or filter weight. -/
def share32 (film : Film F32) (x y : Int) (c : Entry) (s : V2 F32 × Spectrum F32) : ℚ :=
  match c with
  | .r => s.2.r.val * (weight32 film x y s).val
  | .g => s.2.g.val * (weight32 film x y s).val
  | .b => s.2.b.val * (weight32 film x y s).val
  | .weight => (weight32 film x y s).val

/-- The exact sum over all samples that count. -/
def exactSum (film : Film F32) (radiance : V2 F32 → Draw F32 (Spectrum F32)) (spp : Nat) (x y : Int) (c : Entry) : ℚ :=
  ((counted film radiance spp x y).map (share32 film x y c)).sum
end Spec

/-! ### One pixel of a tile -/

namespace Img
open Spec

/-- Drawing numbers changes nothing but the dimension. -/
theorem run_dim {β : Type} (d : Draw F32 β) : ∀ (s : HaltonSampler) (b : β) (s' : HaltonSampler),
    d.run HaltonSampler.ops s = some (b, s') → ∃ k, s' = { s with dimension := k } := by
  induction d with
  | ret b => intro s b' s' e; simp only [Draw.run, Option.some.injEq, Prod.mk.injEq] at e; exact ⟨s.dimension, e.2.symm⟩
  | panic => intro s b s' e; simp [Draw.run] at e
  | get1 k ih =>
    intro s b s' e
    simp only [Draw.run] at e
    cases hg : (HaltonSampler.ops : SamplerOps F32 _).get1d s with
    | none => rw [hg] at e; simp at e
    | some p =>
      rw [hg] at e
      obtain ⟨j, rfl⟩ := ih p.1 p.2 _ _ e
      obtain ⟨x, t⟩ := p
      simp only [HaltonSampler.ops, bind, pure] at hg
      obtain ⟨y, _, hg⟩ := Option.bind_eq_some_iff.1 hg
      simp only [Option.some.injEq, Prod.mk.injEq] at hg
      rw [← hg.2]; exact ⟨j, rfl⟩
  | get2 k ih =>
    intro s b s' e
    simp only [Draw.run] at e
    cases hg : (HaltonSampler.ops : SamplerOps F32 _).get2d s with
    | none => rw [hg] at e; simp at e
    | some p =>
      rw [hg] at e
      obtain ⟨j, rfl⟩ := ih p.1 p.2 _ _ e
      obtain ⟨x, t⟩ := p
      simp only [HaltonSampler.ops, bind, pure] at hg
      obtain ⟨y, _, hg⟩ := Option.bind_eq_some_iff.1 hg
      obtain ⟨z, _, hg⟩ := Option.bind_eq_some_iff.1 hg
      simp only [Option.some.injEq, Prod.mk.injEq] at hg
      rw [← hg.2]; exact ⟨j, rfl⟩

/-- The samples of a pixel are taken one after the other. -/
theorem take_samples (radiance : V2 F32 → Draw F32 (Spectrum F32)) (s0 : HaltonSampler) (p : V2 Int) : ∀ (n i : Nat) (t t' : FilmTile F32) (s' : HaltonSampler),
    Spec.takeSamples HaltonSampler.ops radiance p n t (sampleState s0 p i) = some (t', s') →
      (samplesFrom32 radiance s0 p i n).foldlM (fun t s => t.addSample s.1 s.2) t = some t' := by
  intro n
  induction n with
  | zero =>
    intro i t t' s' e
    simp only [Spec.takeSamples, Option.some.injEq, Prod.mk.injEq] at e
    rw [← e.1]; rfl
  | succ n ih =>
    intro i t t' s' e
    simp only [Spec.takeSamples, bind] at e
    obtain ⟨⟨⟨pf, l⟩, s1⟩, e1, e⟩ := Option.bind_eq_some_iff.1 e
    obtain ⟨t1, e2, e⟩ := Option.bind_eq_some_iff.1 e
    obtain ⟨k, rfl⟩ := run_dim _ _ _ _ e1
    have hc : sample32 radiance s0 p i = some (pf, l) := by unfold sample32; rw [e1]; rfl
    have h2 := ih (i + 1) t1 t' s' e
    unfold samplesFrom32 at h2 ⊢
    rw [List.range'_succ, List.filterMap_cons, hc]
    unfold addIfValid at e2
    by_cases hu : validRadiance l = true
    · rw [if_pos hu] at e2
      simp only [Option.filter, hu, if_true, List.foldlM_cons, e2]
      exact h2
    · rw [if_neg hu] at e2
      cases e2
      simp only [Option.filter, hu]
      exact h2

/-- The samples of the pixels of a tile are taken one after the other. -/
theorem tile_samples (radiance : V2 F32 → Draw F32 (Spectrum F32)) (spp : Nat) (hspp : spp < 2 ^ 32) (box : BBox2i) : ∀ (ps : List (V2 Int)) (t : FilmTile F32)
    (s : HaltonSampler) (t' : FilmTile F32) (s' : HaltonSampler), Spec.Hist F32 (HaltonSampler.new spp box) s →
    ps.foldlM (fun (acc : FilmTile F32 × HaltonSampler) pixel =>
      pixelLoop HaltonSampler.ops radiance pixel (2 ^ 32) acc.1 ((HaltonSampler.ops : SamplerOps F32 _).startPixel acc.2 pixel)) (t, s) = some (t', s') →
    (ps.flatMap fun p => samplesFrom32 radiance (HaltonSampler.new spp box) p 0 (max 1 spp)).foldlM (fun t s => t.addSample s.1 s.2) t = some t' := by
  intro ps
  induction ps with
  | nil =>
    intro t s t' s' _ e
    simp only [List.foldlM_nil] at e
    cases e
    rfl
  | cons p ps ih =>
    intro t s t' s' hs e
    rw [List.foldlM_cons] at e
    obtain ⟨⟨t1, s1⟩, e1, e⟩ := Option.bind_eq_some_iff.1 e
    have hinv := hist_inv spp box s hs
    have h2 := ih t1 s1 t' s' (hist_pixelLoop radiance p _ _ _ _ _ (.startPixel _ _ hs) e1) e
    have hst := (c23_history_independent spp box s _ hs .start p (Draw.ret () : Draw F32 Unit)).1
    simp only at e1
    rw [c22_halton_sample_count radiance p t s (by rw [hinv.spp]; exact hspp), hinv.spp, hst] at e1
    have k2 := take_samples radiance (HaltonSampler.new spp box) p (max 1 spp) 0 t t1 s1 e1
    rw [List.flatMap_cons, List.foldlM_append, k2]
    exact h2

/-- Adding samples to a tile, seen from one pixel. -/
theorem add_samples (film : Film F32) (b : BBox2i) (hf : Spec.Fits (film.getFilmTile b).bbox) (x y : Int) (hin : InTile (film.getFilmTile b) x y) :
    ∀ (l : List (V2 F32 × Spectrum F32)) (t t' : FilmTile F32), TileGood film b t → t.filterRadius = film.filterRadius → t.filterTable = film.filterTable →
    l.foldlM (fun t s => t.addSample s.1 s.2) t = some t' →
    t'.px x y = (l.filter fun s => Covers film.filterRadius s.1 x y).foldl (fun v s => v.addSample s.2 (weight32 film x y s)) (t.px x y) := by
  intro l
  induction l with
  | nil => intro t t' _ _ _ e; simp only [List.foldlM_nil] at e; cases e; rfl
  | cons s l ih =>
    intro t t' ht hr htab e
    rw [List.foldlM_cons] at e
    obtain ⟨t1, e1, e⟩ := Option.bind_eq_some_iff.1 e
    obtain ⟨t2, a1, a2, a3, a4, a5, a6⟩ := addSample_spec t ht.table (ht.sized hf) s.1 s.2
    rw [a1] at e1
    obtain rfl := Option.some.inj e1
    have hin' : InTile t x y := by unfold InTile at hin ⊢; rw [ht.bbox]; exact hin
    have hpx : t2.px x y = if Covers film.filterRadius s.1 x y then (t.px x y).addSample s.2 (weight32 film x y s) else t.px x y := by
      have := a6 x y hin'
      unfold FilmTile.px weight32
      rw [this, ← hr, ← htab]
      have hlt := tile_offset_lt (ht.sized hf) hin'
      rw [List.getElem?_eq_getElem hlt]
      simp only [Option.map_some, Option.getD_some]
    rw [ih t2 t' ⟨a2.trans ht.bbox, fun _ => a5, by rw [a4]; exact ht.table⟩ (a3.trans hr) (a4.trans htab) e, hpx]
    by_cases hc : Covers film.filterRadius s.1 x y
    · rw [if_pos hc, List.filter_cons_of_pos (by simpa using hc), List.foldl_cons]
    · rw [if_neg hc, List.filter_cons_of_neg (by simpa using hc)]

/-- In a render that has completed every tile has been rendered. -/
theorem all_rendered [Libm F32] (film : Film F32) (radiance : V2 F32 → Draw F32 (Spectrum F32)) (spp : Nat) (n : Nat) (file : Option (List UInt8))
    (st : RState F32 HaltonSampler) (hr : Spec.Rendered film radiance spp n file st) (b : BBox2i) (hb : b ∈ film.iter.toList) :
    ∃ t s', renderTile HaltonSampler.ops radiance film (HaltonSampler.new spp film.sampleBBox) b = some (t, s') := by
  obtain ⟨hn, ⟨k, hr⟩, hdone⟩ := hr
  obtain ⟨log, lost, base, h⟩ := rinv_reach (R := Spec.Hist F32 (HaltonSampler.new spp film.sampleBBox))
    (fun s b t s' hs e => hist_renderTile radiance film s b t s' hs e) .start hr
  have hm := h.main
  unfold mainOk at hm; rw [hdone] at hm
  obtain ⟨h1, h2, h3, h4⟩ := hm
  have hbox : (st.threads.map PC.box).sum = 0 := by
    apply List.sum_eq_zero
    intro x hx
    obtain ⟨pc, hp, rfl⟩ := List.mem_map.1 hx
    rw [h2 pc hp]; rfl
  have hlost : lost = 0 := h.lost0 fun hc => by have := h2 _ hc; simp at this
  have hne : st.threads ≠ [] := by intro hc; rw [hc] at h1; simp at h1; omega
  obtain ⟨pc, hpc⟩ := List.exists_mem_of_ne_nil _ hne
  have hend : st.sh.iter.toList = [] := h.over pc hpc (by rw [h2 pc hpc]; trivial)
  have hcount := h.count
  rw [hbox, hlost, hend] at hcount
  simp only [Multiset.coe_nil, add_zero] at hcount
  have p1 := (Multiset.coe_eq_coe.1 hcount).symm
  obtain ⟨e, he, rfl⟩ := List.mem_map.1 (p1.mem_iff.2 hb)
  obtain ⟨hs, s', hw⟩ := h.logOk _ he
  have := renderTile_halton spp film.sampleBBox radiance film e.1 _ hs .start e.2.1
  rw [hw] at this
  obtain ⟨⟨t, s2⟩, h5, -⟩ := Option.map_eq_some_iff.1 this.symm
  exact ⟨t, s2, h5⟩

/-- The samples of one tile that count for a pixel. -/
def countedIn (film : Film F32) (radiance : V2 F32 → Draw F32 (Spectrum F32)) (spp : Nat) (x y : Int) (b : BBox2i) : List (V2 F32 × Spectrum F32) :=
  (b.iter.toList.flatMap fun p => samplesFrom32 radiance (HaltonSampler.new spp film.sampleBBox) p 0 (max 1 spp)).filter fun s => Covers film.filterRadius s.1 x y

theorem counted_eq (film : Film F32) (radiance : V2 F32 → Draw F32 (Spectrum F32)) (spp : Nat) (x y : Int) :
    counted film radiance spp x y = (tilesAt film x y).flatMap (countedIn film radiance spp x y) := by
  unfold counted countedIn
  rw [List.filter_flatMap]

/-- What a tile has for a pixel. -/
theorem tile_px [Libm F32] (res : V2 Int) (filt : Filter F32) (hR : FilmRange32 res filt.radius) (radiance : V2 F32 → Draw F32 (Spectrum F32)) (spp n : Nat) (hspp : spp < 2 ^ 32)
    (file : Option (List UInt8)) (st : RState F32 HaltonSampler) (h : Spec.Rendered (Film.new res filt) radiance spp n file st) (x y : Int)
    (b : BBox2i) (hb : b ∈ tilesAt (Film.new res filt) x y) :
    (tileOf (Film.new res filt) radiance spp b).px x y =
      (countedIn (Film.new res filt) radiance spp x y b).foldl (fun v s => v.addSample s.2 (weight32 (Film.new res filt) x y s)) Pixel.zero := by
  obtain ⟨h1, h2⟩ := List.mem_filter.1 hb
  have hin : InTile ((Film.new res filt).getFilmTile b) x y := by simpa using h2
  have hf : Spec.Fits ((Film.new res filt).getFilmTile b).bbox :=
    fits_of_inFilm (Film.new res filt) hR.area b (tilesFit_f32 res filt hR b h1)
  obtain ⟨t, s', e⟩ := all_rendered _ radiance spp n file st h b h1
  have et : tileOf (Film.new res filt) radiance spp b = t := by unfold tileOf; rw [e]; rfl
  rw [et]
  have := tile_samples radiance spp hspp _ _ _ _ _ _ .start e
  rw [add_samples (Film.new res filt) b hf x y hin _ _ _ ⟨rfl, getFilmTile_sized _ _, mkFilterTable_ok filt⟩ rfl rfl this, getFilmTile_at]
  rfl

/-- What a sample does add. -/
def term (film : Film F32) (x y : Int) (c : Entry) (s : V2 F32 × Spectrum F32) : F32 :=
  match c with
  | .r => s.2.r *. weight32 film x y s
  | .g => s.2.g *. weight32 film x y s
  | .b => s.2.b *. weight32 film x y s
  | .weight => weight32 film x y s

theorem entry_addSample (film : Film F32) (x y : Int) (c : Entry) (l : List (V2 F32 × Spectrum F32)) : ∀ v : Pixel F32,
    c.of (l.foldl (fun v s => v.addSample s.2 (weight32 film x y s)) v) = l.foldl (fun a s => a +. term film x y c s) (c.of v) := by
  induction l with
  | nil => intro v; rfl
  | cons s l ih => intro v; rw [List.foldl_cons, ih]; cases c <;> rfl

theorem tableGet_mem {table : List (List F32)} (h : TableOK table) {i j : Nat} (hi : i < 16) (hj : j < 16) : ∃ row ∈ table, tableGet table i j ∈ row := by
  have h1 : i < table.length := by rw [h.1]; exact hi
  have h2 := h.2 table[i] (List.getElem_mem h1)
  refine ⟨table[i], List.getElem_mem h1, ?_⟩
  unfold tableGet
  rw [List.getElem?_eq_getElem h1, Option.getD_some, List.getElem?_eq_getElem (by rw [h2]; exact hj), Option.getD_some]
  exact List.getElem_mem _

end Img

namespace Spec
/-- All entries of the film's filter table are ordinary positive numbers. -/
def PositiveFilter (film : Film F32) : Prop := ∀ row ∈ film.filterTable, ∀ w ∈ row, Num w ∧ 1 / 2 ^ 40 ≤ w.val ∧ w.val ≤ 2 ^ 40

/-- At least one and at most 12500 samples count for the pixel, and their light is of ordinary size. -/
structure PlainPixel (film : Film F32) (radiance : V2 F32 → Draw F32 (Spectrum F32)) (spp : Nat) (x y : Int) : Prop where
  some : counted film radiance spp x y ≠ []
  few : (counted film radiance spp x y).length ≤ 12500
  light : ∀ s ∈ counted film radiance spp x y, (s.2.r.WF ∧ s.2.r.val ≤ 2 ^ 50) ∧ (s.2.g.WF ∧ s.2.g.val ≤ 2 ^ 50) ∧ (s.2.b.WF ∧ s.2.b.val ≤ 2 ^ 50)
end Spec

namespace Img
open Spec

theorem counted_valid {film : Film F32} {radiance : V2 F32 → Draw F32 (Spectrum F32)} {spp : Nat} {x y : Int} {s : V2 F32 × Spectrum F32}
    (h : s ∈ counted film radiance spp x y) : validRadiance s.2 = true := by
  unfold counted at h
  obtain ⟨h, -⟩ := List.mem_filter.1 h
  obtain ⟨b, -, h⟩ := List.mem_flatMap.1 h
  obtain ⟨p, -, h⟩ := List.mem_flatMap.1 h
  unfold samplesFrom32 at h
  obtain ⟨j, -, h⟩ := List.mem_filterMap.1 h
  exact (Option.filter_eq_some_iff.1 h).2

theorem weight_bounds {film : Film F32} (hT : TableOK film.filterTable) (hP : PositiveFilter film) (x y : Int) (s : V2 F32 × Spectrum F32) :
    Num (weight32 film x y s) ∧ 1 / 2 ^ 40 ≤ (weight32 film x y s).val ∧ (weight32 film x y s).val ≤ 2 ^ 40 := by
  obtain ⟨row, h1, h2⟩ := tableGet_mem hT (tableIndex_lt film.filterRadius (s.1.sub halfPixel).y y) (tableIndex_lt film.filterRadius (s.1.sub halfPixel).x x)
  exact hP row h1 _ h2

/-- The number a sample adds. -/
theorem term_ok {film : Film F32} {radiance : V2 F32 → Draw F32 (Spectrum F32)} {spp : Nat} {x y : Int} (hT : TableOK film.filterTable) (hP : PositiveFilter film)
    (ho : PlainPixel film radiance spp x y) (c : Entry) (s : V2 F32 × Spectrum F32) (hs : s ∈ counted film radiance spp x y) :
    let f := term film x y c s
    Num f ∧ 0 ≤ f.val ∧ 0 ≤ share32 film x y c s ∧ share32 film x y c s ≤ 2 ^ 91 ∧ |f.val - share32 film x y c s| ≤ share32 film x y c s * ulpHalf + tinyHalf := by
  intro f
  obtain ⟨w1, w2, w3⟩ := weight_bounds hT hP x y s
  have w0 : 0 ≤ (weight32 film x y s).val := le_trans (by norm_num) w2
  obtain ⟨⟨r1, r2⟩, ⟨g1, g2⟩, b1, b2⟩ := ho.light s hs
  obtain ⟨r3, g3, b3⟩ := (validRadiance_iff s.2 r1 g1 b1).1 (counted_valid hs)
  have prod : ∀ l : F32, l.WF → l.FinNN → l.val ≤ 2 ^ 50 → Num (l *. weight32 film x y s) ∧ 0 ≤ (l *. weight32 film x y s).val ∧
      0 ≤ l.val * (weight32 film x y s).val ∧ l.val * (weight32 film x y s).val ≤ 2 ^ 91 ∧
      |(l *. weight32 film x y s).val - l.val * (weight32 film x y s).val| ≤ l.val * (weight32 film x y s).val * ulpHalf + tinyHalf := by
    intro l h1 h2 h3
    have nl : Num l := ⟨h1, h2.1⟩
    have l0 : 0 ≤ l.val := by
      obtain ⟨t, m, rfl⟩ := IsFin_iff.1 h2.1
      exact h2.2.2
    have p0 := mul_nonneg l0 w0
    have p1 : l.val * (weight32 film x y s).val ≤ 2 ^ 50 * 2 ^ 40 := mul_le_mul h3 w3 w0 (by norm_num)
    obtain ⟨m1, m2⟩ := mul_ok nl w1 (by rw [abs_of_nonneg p0]; exact p1.trans (by norm_num))
    rw [abs_of_nonneg p0] at m2
    obtain ⟨-, m3, -⟩ := mul_stays nl w1 repr_zero big_repr p0 (p1.trans (by norm_num))
    exact ⟨m1, m3, p0, p1.trans (by norm_num), m2⟩
  cases c with
  | r => exact prod _ r1 r3 r2
  | g => exact prod _ g1 g3 g2
  | b => exact prod _ b1 b3 b2
  | weight =>
    refine ⟨w1, w0, w0, w3.trans (by norm_num), ?_⟩
    simp only [f, term, share32, sub_self, abs_zero]
    have : (0 : ℚ) ≤ ulpHalf := by norm_num [ulpHalf]
    have : (0 : ℚ) ≤ tinyHalf := by norm_num [tinyHalf]
    positivity

theorem sums_err {γ : Type} (v S : γ → ℚ) (n : γ → ℕ) (E T : ℚ) (l : List γ) (h : ∀ b ∈ l, |v b - S b| ≤ E * S b + T * n b) :
    |(l.map v).sum - (l.map S).sum| ≤ E * (l.map S).sum + T * ((l.map n).sum : ℕ) := by
  induction l with
  | nil => simp
  | cons b l ih =>
    have h1 := h b (List.mem_cons_self ..)
    have h2 := ih fun b hb => h b (List.mem_cons_of_mem _ hb)
    simp only [List.map_cons, List.sum_cons]
    push_cast
    have e : v b + (l.map v).sum - (S b + (l.map S).sum) = (v b - S b) + ((l.map v).sum - (l.map S).sum) := by ring
    rw [e]
    refine (abs_add_le _ _).trans ((add_le_add h1 h2).trans (le_of_eq (by push_cast; ring)))

/-- The tiles together have the exact sum, nearly. -/
theorem tileSum_err [Libm F32] (res : V2 Int) (filt : Filter F32) (hR : FilmRange32 res filt.radius) (hP : PositiveFilter (Film.new res filt))
    (radiance : V2 F32 → Draw F32 (Spectrum F32)) (spp n : Nat) (hspp : spp < 2 ^ 32)
    (file : Option (List UInt8)) (st : RState F32 HaltonSampler) (h : Spec.Rendered (Film.new res filt) radiance spp n file st) (x y : Int)
    (ho : PlainPixel (Film.new res filt) radiance spp x y) (c : Entry) :
    (∀ b ∈ tilesAt (Film.new res filt) x y, (c.of ((tileOf (Film.new res filt) radiance spp b).px x y)).IsFin ∧ 0 ≤ (c.of ((tileOf (Film.new res filt) radiance spp b).px x y)).val) ∧
    |tileSum (Film.new res filt) radiance spp x y c - exactSum (Film.new res filt) radiance spp x y c| ≤ 31 / 40960 * exactSum (Film.new res filt) radiance spp x y c + 1 / 2 ^ 135 := by
  have len : (counted (Film.new res filt) radiance spp x y).length = ((tilesAt (Film.new res filt) x y).map fun b => (countedIn (Film.new res filt) radiance spp x y b).length).sum := by
    rw [counted_eq, List.length_flatMap]
  have ex : exactSum (Film.new res filt) radiance spp x y c =
      ((tilesAt (Film.new res filt) x y).map fun b => ((countedIn (Film.new res filt) radiance spp x y b).map (share32 (Film.new res filt) x y c)).sum).sum := by
    unfold exactSum
    rw [counted_eq, List.map_flatMap, List.flatMap_def, List.sum_flatten, List.map_map]
    rfl
  have one : ∀ b ∈ tilesAt (Film.new res filt) x y,
      (Num (c.of ((tileOf (Film.new res filt) radiance spp b).px x y)) ∧ 0 ≤ (c.of ((tileOf (Film.new res filt) radiance spp b).px x y)).val) ∧
      |(c.of ((tileOf (Film.new res filt) radiance spp b).px x y)).val - ((countedIn (Film.new res filt) radiance spp x y b).map (share32 (Film.new res filt) x y c)).sum| ≤
        31 / 40960 * ((countedIn (Film.new res filt) radiance spp x y b).map (share32 (Film.new res filt) x y c)).sum +
          1 / 2 ^ 149 * ((countedIn (Film.new res filt) radiance spp x y b).length : ℕ) := by
    intro b hb
    have mem : ∀ s ∈ countedIn (Film.new res filt) radiance spp x y b, s ∈ counted (Film.new res filt) radiance spp x y := by
      intro s hs; rw [counted_eq]; exact List.mem_flatMap.2 ⟨b, hb, hs⟩
    have ln : (countedIn (Film.new res filt) radiance spp x y b).length ≤ 12500 := by
      refine le_trans ?_ ho.few
      rw [len]
      exact List.single_le_sum (fun _ _ => Nat.zero_le _) _ (List.mem_map.2 ⟨b, hb, rfl⟩)
    rw [tile_px res filt hR radiance spp n hspp file st h x y b hb, entry_addSample, Sched.entry_zero]
    have key := sum_err (term (Film.new res filt) x y c) (share32 (Film.new res filt) x y c) (countedIn (Film.new res filt) radiance spp x y b) (lit 0) 0 0
      (by omega) ⟨Fl.lit_WF 0, Sched.zero_val.1⟩ Sched.zero_val.2.ge le_rfl (by simp) (by rw [Sched.zero_val.2]; simp)
      (fun s hs => term_ok (mkFilterTable_ok filt) hP ho c s (mem s hs))
    obtain ⟨k1, k2, -, k3⟩ := key
    rw [zero_add, zero_add] at k3
    refine ⟨⟨k1, k2⟩, k3.trans ?_⟩
    have S0 : 0 ≤ ((countedIn (Film.new res filt) radiance spp x y b).map (share32 (Film.new res filt) x y c)).sum := by
      apply List.sum_nonneg
      intro q hq
      obtain ⟨s, hs, rfl⟩ := List.mem_map.1 hq
      exact (term_ok (mkFilterTable_ok filt) hP ho c s (mem s hs)).2.2.1
    generalize ((countedIn (Film.new res filt) radiance spp x y b).map (share32 (Film.new res filt) x y c)).sum = S at S0
    generalize (countedIn (Film.new res filt) radiance spp x y b).length = N at ln
    have lq : (N : ℚ) ≤ 12500 := by exact_mod_cast ln
    have hu : ulpHalf = 1 / 2 ^ 24 := rfl
    have ht : tinyHalf = 1 / 2 ^ 150 := rfl
    rw [hu, ht]
    have k := mul_le_mul_of_nonneg_right lq S0
    have e1 : 101 / 100 * ((N : ℚ) + 1) * (1 / 2 ^ 24) * S + 2 * N * (1 / 2 ^ 150) = 101 / 100 / 2 ^ 24 * (N * S + S) + 1 / 2 ^ 149 * N := by ring
    rw [e1]
    generalize (N : ℚ) * S = P at k
    have : 101 / 100 / 2 ^ 24 * (P + S) ≤ 31 / 40960 * S := by norm_num at k ⊢; linarith
    linarith
  refine ⟨fun b hb => ⟨(one b hb).1.1.fin, (one b hb).1.2⟩, ?_⟩
  have key := sums_err (fun b => (c.of ((tileOf (Film.new res filt) radiance spp b).px x y)).val)
    (fun b => ((countedIn (Film.new res filt) radiance spp x y b).map (share32 (Film.new res filt) x y c)).sum)
    (fun b => (countedIn (Film.new res filt) radiance spp x y b).length) (31 / 40960) (1 / 2 ^ 149) (tilesAt (Film.new res filt) x y) (fun b hb => (one b hb).2)
  rw [← ex, ← len] at key
  refine key.trans ?_
  have lq : ((counted (Film.new res filt) radiance spp x y).length : ℚ) ≤ 12500 := by exact_mod_cast ho.few
  have : (1 : ℚ) / 2 ^ 149 * ((counted (Film.new res filt) radiance spp x y).length : ℕ) ≤ 1 / 2 ^ 149 * 12500 := mul_le_mul_of_nonneg_left lq (by norm_num)
  refine add_le_add le_rfl (this.trans (by norm_num))

/-- The exact sums are of ordinary size, and the weight is positive. -/
theorem exact_bounds {film : Film F32} {radiance : V2 F32 → Draw F32 (Spectrum F32)} {spp : Nat} {x y : Int} (hT : TableOK film.filterTable) (hP : PositiveFilter film)
    (ho : PlainPixel film radiance spp x y) (c : Entry) : 0 ≤ exactSum film radiance spp x y c ∧ exactSum film radiance spp x y c ≤ 2 ^ 105 ∧ 1 / 2 ^ 40 ≤ exactSum film radiance spp x y .weight := by
  have nn : ∀ c, ∀ q ∈ (counted film radiance spp x y).map (share32 film x y c), 0 ≤ q := by
    intro c q hq
    obtain ⟨s, hs, rfl⟩ := List.mem_map.1 hq
    exact (term_ok hT hP ho c s hs).2.2.1
  refine ⟨List.sum_nonneg (nn c), ?_, ?_⟩
  · have := List.sum_le_card_nsmul ((counted film radiance spp x y).map (share32 film x y c)) (2 ^ 91) (by
      intro q hq
      obtain ⟨s, hs, rfl⟩ := List.mem_map.1 hq
      exact (term_ok hT hP ho c s hs).2.2.2.1)
    rw [List.length_map, nsmul_eq_mul] at this
    have lq : ((counted film radiance spp x y).length : ℚ) ≤ 12500 := by exact_mod_cast ho.few
    refine this.trans ((mul_le_mul_of_nonneg_right lq (by norm_num)).trans (by norm_num))
  · obtain ⟨s, hs⟩ := List.exists_mem_of_ne_nil _ ho.some
    exact (weight_bounds hT hP x y s).2.1.trans (List.single_le_sum (nn .weight) _ (List.mem_map.2 ⟨s, hs, rfl⟩))

/-- A plain pixel is ordinary. -/
theorem ordinary [Libm F32] (res : V2 Int) (filt : Filter F32) (hR : FilmRange32 res filt.radius) (hP : PositiveFilter (Film.new res filt))
    (radiance : V2 F32 → Draw F32 (Spectrum F32)) (spp n : Nat) (hspp : spp < 2 ^ 32)
    (file : Option (List UInt8)) (st : RState F32 HaltonSampler) (h : Spec.Rendered (Film.new res filt) radiance spp n file st) (x y : Int)
    (ho : PlainPixel (Film.new res filt) radiance spp x y) : Ordinary (Film.new res filt) radiance spp x y := by
  have err := fun c => tileSum_err res filt hR hP radiance spp n hspp file st h x y ho c
  have bd := fun c => exact_bounds (mkFilterTable_ok filt) hP ho c
  refine ⟨fun c => (err c).1, fun c => ?_, ?_⟩
  · have h1 := (abs_le.1 (err c).2).2
    have h2 := (bd c).2.1
    norm_num at h1 h2 ⊢
    linarith
  · have h1 := (abs_le.1 (err .weight).2).1
    have h2 := (bd .weight).2.2
    norm_num at h1 h2 ⊢
    linarith

end Img

/-! ### The file -/

open Img in
/-- C119, one number: in any render, whatever the number of threads and the schedule, each number written for a plain pixel is within 1 of
`255 · srgb(colour) + 1/2`, where the colour is the quotient of the exact sums over the samples that count, cut off at 1. -/
theorem c119_number [Libm F32] (hp : Spec.PowfAccurate) (hm : Spec.PowfMonotone) (res : V2 Int) (filt : Filter F32) (hR : FilmRange32 res filt.radius)
    (h7 : filt.radius.val ≤ 7) (hP : Spec.PositiveFilter (Film.new res filt)) (radiance : V2 F32 → Draw F32 (Spectrum F32)) (spp n : Nat) (hspp : spp < 2 ^ 32)
    (file : Option (List UInt8)) (st : RState F32 HaltonSampler) (h : Spec.Rendered (Film.new res filt) radiance spp n file st)
    (x y : Int) (hi : Spec.InImage res x y) (ho : Spec.PlainPixel (Film.new res filt) radiance spp x y) (c : Spec.Entry) :
    |(Spec.written st.sh.film x y c : ℝ) -
      (255 * Spec.srgb (min 1 ((Spec.exactSum (Film.new res filt) radiance spp x y c : ℝ) / Spec.exactSum (Film.new res filt) radiance spp x y .weight)) + 1 / 2)| ≤ 1 := by
  have hord := ordinary res filt hR hP radiance spp n hspp file st h x y ho
  obtain ⟨k1, k2⟩ := c98_written_partial hp hm res filt hR h7 radiance spp n file st h x y hi hord c
  have err := fun c => (tileSum_err res filt hR hP radiance spp n hspp file st h x y ho c).2
  have bd := fun c => exact_bounds (mkFilterTable_ok filt) hP ho c
  have cast : ∀ c, |(Spec.tileSum (Film.new res filt) radiance spp x y c : ℝ) - Spec.exactSum (Film.new res filt) radiance spp x y c| ≤
      31 / 40960 * (Spec.exactSum (Film.new res filt) radiance spp x y c : ℝ) + 1 / 2 ^ 135 := by
    intro c
    have := (Rat.cast_le (K := ℝ)).2 (err c)
    push_cast at this
    exact this
  have C0 : (0 : ℝ) ≤ Spec.exactSum (Film.new res filt) radiance spp x y c := by exact_mod_cast (bd c).1
  have W0 : (1 : ℝ) / 2 ^ 40 ≤ Spec.exactSum (Film.new res filt) radiance spp x y .weight := by
    have := (Rat.cast_le (K := ℝ)).2 (bd .weight).2.2
    push_cast at this
    exact this
  have q := quotient_near C0 W0 (cast c) (cast .weight)
  have s := srgb_min_near (div_nonneg C0 (le_trans (by norm_num) W0)) q
  obtain ⟨s1, s2⟩ := abs_le.1 s
  generalize Spec.srgb (min 1 ((Spec.exactSum (Film.new res filt) radiance spp x y c : ℝ) / Spec.exactSum (Film.new res filt) radiance spp x y .weight)) = A at *
  generalize Spec.srgb (min 1 ((Spec.tileSum (Film.new res filt) radiance spp x y c : ℝ) / Spec.tileSum (Film.new res filt) radiance spp x y .weight)) = B at *
  generalize (Spec.written st.sh.film x y c : ℝ) = N at *
  rw [abs_le]
  norm_num at k1 k2 s1 s2 ⊢
  constructor <;> linarith

/-- C119, the file: the image file is a plain PPM file of the size of the image, and each of its numbers is within 1 of the one computed exactly from the samples. -/
theorem c119_file [Libm F32] (hp : Spec.PowfAccurate) (hm : Spec.PowfMonotone) (res : V2 Int) (filt : Filter F32) (hR : FilmRange32 res filt.radius)
    (h7 : filt.radius.val ≤ 7) (hP : Spec.PositiveFilter (Film.new res filt)) (radiance : V2 F32 → Draw F32 (Spectrum F32)) (spp n : Nat) (hspp : spp < 2 ^ 32)
    (st : RState F32 HaltonSampler) (h : Spec.Rendered (Film.new res filt) radiance spp n none st)
    (ho : ∀ x y, Spec.InImage res x y → Spec.PlainPixel (Film.new res filt) radiance spp x y) :
    let want := fun (x y : Int) (c : Spec.Entry) => 255 * Spec.srgb (min 1 ((Spec.exactSum (Film.new res filt) radiance spp x y c : ℝ) /
      Spec.exactSum (Film.new res filt) radiance spp x y .weight)) + 1 / 2
    ∃ (text : String) (px : List (Nat × Nat × Nat)), st.file = some text.toUTF8.toList ∧ Spec.IsPpm text res.x res.y px ∧
      ∀ x y, Spec.InImage res x y → ∃ r g b : Nat, px[(y * res.x + x).toNat]? = some (r, g, b) ∧
        |(r : ℝ) - want x y .r| ≤ 1 ∧ |(g : ℝ) - want x y .g| ≤ 1 ∧ |(b : ℝ) - want x y .b| ≤ 1 := by
  intro want
  have hpos : 0 ≤ res.x * res.y := Int.mul_nonneg hR.x0.le hR.y0.le
  obtain ⟨inv, hfile, -⟩ := Sched.rendered_pixel res hpos hR.area filt (tilesFit_f32 res filt hR) radiance spp n none st h
  obtain ⟨px, w, hb⟩ := c09_ppm_well_formed st.sh.film (by rw [inv.1]; exact hR.x0.le) (by rw [inv.1]; exact hR.y0.le) inv.2.2.2
  refine ⟨st.sh.film.writeImagePpm, px, ?_, ?_, ?_⟩
  · rw [hfile]
    unfold outputFile overwriteFile
    simp
  · rw [inv.1] at w; exact w
  · intro x y hi
    obtain ⟨q, hq, e⟩ := hb x y hi.1 (by rw [inv.1]; exact hi.2.1) hi.2.2.1 (by rw [inv.1]; exact hi.2.2.2)
    have h2 : st.sh.film.px x y = q := by unfold Film.px; rw [hq]; rfl
    have key := fun c => c119_number hp hm res filt hR h7 hP radiance spp n hspp none st h x y hi (ho x y hi) c
    rw [inv.1] at e
    refine ⟨Spec.written st.sh.film x y .r, Spec.written st.sh.film x y .g, Spec.written st.sh.film x y .b, ?_, key .r, key .g, key .b⟩
    rw [e]
    simp only [Spec.written, h2, Spec.Entry.of]

open Img in
/-- C98, in part: if all pixels are plain, the image files of any two renders into new files have the same size and differ by at most one in every number. -/
theorem c98_plain_off_by_one_partial [Libm F32] (hp : Spec.PowfAccurate) (hm : Spec.PowfMonotone) (res : V2 Int) (filt : Filter F32) (hR : FilmRange32 res filt.radius)
    (h7 : filt.radius.val ≤ 7) (hP : Spec.PositiveFilter (Film.new res filt)) (radiance : V2 F32 → Draw F32 (Spectrum F32)) (spp n n' : Nat) (hspp : spp < 2 ^ 32)
    (st st' : RState F32 HaltonSampler) (h : Spec.Rendered (Film.new res filt) radiance spp n none st) (h' : Spec.Rendered (Film.new res filt) radiance spp n' none st')
    (ho : ∀ x y, Spec.InImage res x y → Spec.PlainPixel (Film.new res filt) radiance spp x y) :
    ∃ (text text' : String) (px px' : List (Nat × Nat × Nat)),
      st.file = some text.toUTF8.toList ∧ Spec.IsPpm text res.x res.y px ∧
      st'.file = some text'.toUTF8.toList ∧ Spec.IsPpm text' res.x res.y px' ∧
      ∀ (k : Nat) (p p' : Nat × Nat × Nat), px[k]? = some p → px'[k]? = some p' →
        (p.1 ≤ p'.1 + 1 ∧ p'.1 ≤ p.1 + 1) ∧ (p.2.1 ≤ p'.2.1 + 1 ∧ p'.2.1 ≤ p.2.1 + 1) ∧ (p.2.2 ≤ p'.2.2 + 1 ∧ p'.2.2 ≤ p.2.2 + 1) :=
  c98_files_off_by_one_partial hp hm res filt hR h7 radiance spp n n' st st' h h' fun x y hi =>
    ordinary res filt hR hP radiance spp n hspp none st h x y (ho x y hi)

/-! ### A case: the scene of `c98_refuted_schedule` -/

namespace Img
open Spec Sched

theorem positive13 : PositiveFilter film13 := by
  intro row hrow w hw
  have e : film13.filterTable = List.replicate 16 (List.replicate 16 (lit 1)) := by decide +kernel
  rw [e] at hrow
  rw [List.eq_of_mem_replicate hrow] at hw
  rw [List.eq_of_mem_replicate hw, one_ok.2]
  exact ⟨one_ok.1, by norm_num, by norm_num⟩

theorem sample13 (p : V2 Int) : sample32 (fun _ => .ret Demo.dark) start13 p 0 = some (posOf start13 p, Demo.dark) := by
  obtain ⟨s1, e1, -, -⟩ := cam_run (α := F32) start13 p
  unfold sample32
  have r : (oneSample (fun _ => .ret Demo.dark) p).run HaltonSampler.ops (sampleState start13 p 0) = some ((posOf start13 p, Demo.dark), s1) := by
    show (oneSample (fun _ => .ret Demo.dark) p).run HaltonSampler.ops ((HaltonSampler.ops : SamplerOps F32 _).startPixel start13 p) = _
    unfold oneSample
    simp only [getCameraSample, Draw.run, Draw.bind] at e1 ⊢
    split at e1
    · cases e1
    · simp only [Option.some.injEq, Prod.mk.injEq] at e1 ⊢
      rw [e1.1, e1.2]
      exact ⟨⟨rfl, trivial⟩, rfl⟩
  rw [r]; rfl

theorem samples13 (p : V2 Int) : samplesFrom32 (fun _ => .ret Demo.dark) start13 p 0 (max 1 1) = [(posOf start13 p, Demo.dark)] := by
  unfold samplesFrom32
  rw [show max 1 1 = 1 from rfl, List.range'_one, List.filterMap_cons, sample13]
  simp [Option.filter, valid13]

theorem plain13 (x y : Int) (hi : Spec.InImage ⟨13, 13⟩ x y) : PlainPixel film13 (fun _ => .ret Demo.dark) 1 x y := by
  have e : counted film13 (fun _ => .ret Demo.dark) 1 x y = ((tilesAt film13 x y).flatMap fun b => b.iter.toList.map fun p => ((posOf start13 p : V2 F32), Demo.dark)).filter
      fun s => Covers film13.filterRadius s.1 x y := by
    unfold counted
    congr 1
    apply List.flatMap_congr
    intro b _
    rw [List.map_eq_flatMap]
    apply List.flatMap_congr
    intro p _
    rw [new13]; exact samples13 p
  have dark : ∀ c : F32, c = lit (20858214 / 2 ^ 33) → c.WF ∧ c.val ≤ 2 ^ 50 := by
    rintro c rfl
    refine ⟨Fl.lit_WF _, ?_⟩
    have : (lit (20858214 / 2 ^ 33) : F32) = .fin false (20858214 / 2 ^ 33) := by decide +kernel
    rw [this]; norm_num [Fl.val, Fl.sgn]
  refine ⟨?_, ?_, ?_⟩
  · have h1 := own13 x y hi
    have h2 : InTile (film13.getFilmTile ⟨⟨-2, -2⟩, ⟨14, 14⟩⟩) x y := by
      unfold InTile; rw [first13]; exact hi
    have hb : (⟨⟨-2, -2⟩, ⟨14, 14⟩⟩ : BBox2i) ∈ film13.iter.toList := by rw [tiles13]; simp
    have hmem : (⟨⟨-2, -2⟩, ⟨14, 14⟩⟩ : BBox2i) ∈ Spec.tilesAt film13 x y := List.mem_filter.2 ⟨hb, by simpa using h2⟩
    rw [e]
    refine List.ne_nil_of_mem (List.mem_filter.2 ⟨List.mem_flatMap.2 ⟨_, hmem, List.mem_map.2 ⟨⟨x, y⟩, ?_, rfl⟩⟩, decide_eq_true h1⟩)
    refine (BBox2i.mem_toList _ _).2 ?_
    have := hi.1; have := hi.2.1; have := hi.2.2.1; have := hi.2.2.2
    simp only at *
    omega
  · rw [e]
    refine (List.length_filter_le _ _).trans ?_
    rw [List.length_flatMap]
    have : ((tilesAt film13 x y).map fun b => (b.iter.toList.map fun p => ((posOf start13 p : V2 F32), Demo.dark)).length).sum ≤ (tilesAt film13 x y).length * 256 := by
      have := List.sum_le_card_nsmul ((tilesAt film13 x y).map fun b => (b.iter.toList.map fun p => ((posOf start13 p : V2 F32), Demo.dark)).length) 256 (by
        intro q hq
        obtain ⟨b, hb, rfl⟩ := List.mem_map.1 hq
        have := count13_le b (List.mem_filter.1 hb).1 (fun _ => true)
        simpa using this)
      simpa using this
    refine this.trans ?_
    have len : (tilesAt film13 x y).length ≤ 4 := by
      refine (List.length_filter_le _ _).trans ?_
      rw [tiles13]; rfl
    omega
  · intro s hs
    rw [e] at hs
    obtain ⟨b, -, hs⟩ := List.mem_flatMap.1 (List.mem_filter.1 hs).1
    obtain ⟨p, -, rfl⟩ := List.mem_map.1 hs
    exact ⟨dark _ rfl, dark _ rfl, dark _ rfl⟩
end Img

example (n : Nat) (st : RState F32 HaltonSampler) (h : @Spec.Rendered F32 _ Demo.fineLibm (Film.new ⟨13, 13⟩ Demo.flatFilter) (fun _ => .ret Demo.dark) 1 n none st) :
    |(@Spec.written Demo.fineLibm st.sh.film 12 12 .r : ℝ) - (255 * Spec.srgb (min 1 ((Spec.exactSum (Film.new ⟨13, 13⟩ Demo.flatFilter) (fun _ => .ret Demo.dark) 1 12 12 .r : ℝ) /
      Spec.exactSum (Film.new ⟨13, 13⟩ Demo.flatFilter) (fun _ => .ret Demo.dark) 1 12 12 .weight)) + 1 / 2)| ≤ 1 := by
  have h7 : Demo.flatFilter.radius.val ≤ 7 := by
    have : Demo.flatFilter.radius = .fin false 2 := by decide +kernel
    rw [this]; norm_num [Fl.val, Fl.sgn]
  have hi : Spec.InImage ⟨13, 13⟩ 12 12 := ⟨by norm_num, by norm_num, by norm_num, by norm_num⟩
  exact @c119_number Demo.fineLibm Demo.fine_accurate Demo.fine_monotone ⟨13, 13⟩ Demo.flatFilter Sched.range13 h7 Img.positive13 _ 1 n (by norm_num) none st h 12 12 hi
    (Img.plain13 12 12 hi) .r

example : ∀ x y, Spec.InImage ⟨13, 13⟩ x y → Spec.PlainPixel (Film.new ⟨13, 13⟩ Demo.flatFilter) (fun _ => .ret Demo.dark) 1 x y := Img.plain13

end PT
