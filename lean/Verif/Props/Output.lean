import Verif.Lemmas.Fl
import Verif.Lemmas.Film
import Verif.Lemmas.FilmReal
import Verif.Model.Output
import Mathlib.Analysis.SpecialFunctions.Pow.Real

/-!
# The image file (C09, C10, C11, C12)
-/

namespace PT

/-! ### Specification -/

/-- One pixel line of a plain PPM file. -/
def Spec.ppmLine (c : Nat × Nat × Nat) : String :=
  toString c.1 ++ " " ++ toString c.2.1 ++ " " ++ toString c.2.2 ++ "\n"

/-- `s` is a plain PPM file (P3) of the given size with maximal value 255 and these pixels, row by row. -/
def Spec.IsPpm (s : String) (w h : Int) (pixels : List (Nat × Nat × Nat)) : Prop :=
  s = "P3\n" ++ toString w ++ " " ++ toString h ++ "\n255\n" ++ String.join (pixels.map Spec.ppmLine) ∧
  (pixels.length : Int) = w * h ∧
  ∀ p ∈ pixels, p.1 ≤ 255 ∧ p.2.1 ≤ 255 ∧ p.2.2 ≤ 255

/-! ### C09 -/

theorem foldl_append_join {β : Type} (f : β → String) (l : List β) (s : String) :
    l.foldl (fun acc b => acc ++ f b) s = s ++ String.join (l.map f) := by
  induction l generalizing s with
  | nil => simp [String.join]
  | cons b l ih =>
    rw [List.foldl_cons, ih, List.map_cons, String.join_cons, String.append_assoc]

theorem lit255 : (lit 255 : F32) = Fl.fin false 255 := by decide +kernel

theorem roundAway_le {x : ℚ} {n : Int} (h0 : 0 ≤ x) (h : x ≤ n) : 0 ≤ roundAway x ∧ roundAway x ≤ n := by
  unfold roundAway
  rw [if_neg (not_lt.2 h0)]
  constructor
  · rw [Int.le_floor]; push_cast; linarith
  · have : ⌊x + 1 / 2⌋ < n + 1 := by rw [Int.floor_lt]; push_cast; linarith
    omega

/-- After clamping, rounding and casting, every float (NaN and infinities included) is a byte. -/
theorem clamp_round_byte (x : F32) : toU32 (Scalar.round (clamp x (lit 0) (lit 255))) ≤ 255 := by
  unfold clamp
  rw [Fl.lit_zero, lit255]
  have h0 : toU32 (Scalar.round (Fl.fin false 0 : F32)) ≤ 255 := by decide +kernel
  have h255 : toU32 (Scalar.round (Fl.fin false 255 : F32)) ≤ 255 := by decide +kernel
  split_ifs with h1 h2
  · exact h0
  · exact h255
  · cases x with
    | nan => simp [toU32, Scalar.round, Scalar.toInt, Fl.mapInt, Fl.toInt]
    | inf s =>
      cases s
      · exact absurd rfl h2
      · exact absurd rfl h1
    | fin s a =>
      rw [Fl.f_lt, Fl.lt_fin] at h1 h2
      simp only [Fl.sgn, not_lt, Bool.false_eq_true, if_false] at h1 h2
      have hr := roundAway_le (n := 255) h1 (by exact_mod_cast h2)
      simp only [toU32, Scalar.round, Scalar.toInt, Fl.mapInt, Fl.toInt]
      have hs : Fl.sgn s ((roundAway (Fl.sgn s a)).natAbs : ℚ) ≤ 255 ∧
          -255 ≤ Fl.sgn s ((roundAway (Fl.sgn s a)).natAbs : ℚ) := by
        have e : (((roundAway (Fl.sgn s a)).natAbs : Nat) : ℚ) ≤ 255 := by
          have : (roundAway (Fl.sgn s a)).natAbs ≤ 255 := by
            change _ ∧ _ at hr
            have h1' : roundAway (Fl.sgn s a) ≤ 255 := hr.2
            have h0' : 0 ≤ roundAway (Fl.sgn s a) := hr.1
            omega
          exact_mod_cast this
        have e0 : (0 : ℚ) ≤ (((roundAway (Fl.sgn s a)).natAbs : Nat) : ℚ) := by positivity
        generalize (((roundAway (Fl.sgn s a)).natAbs : Nat) : ℚ) = m at e e0
        cases s
        · simp only [Fl.sgn, Bool.false_eq_true, if_false]; constructor <;> linarith
        · simp only [Fl.sgn, if_true]; constructor <;> linarith
      have ht : truncInt (Fl.sgn s ((roundAway (Fl.sgn s a)).natAbs : ℚ)) ≤ 255 := by
        unfold truncInt
        split_ifs
        · rw [Int.ceil_le]; exact_mod_cast hs.1
        · have := (Int.floor_le (Fl.sgn s ((roundAway (Fl.sgn s a)).natAbs : ℚ))).trans hs.1
          exact_mod_cast this
      unfold satInt
      split_ifs <;> omega

/-- C09.  In IEEE single precision, with any math library and any pixel contents (NaN, infinities, zero
weights), the file is a well-formed plain PPM; line `y * width + x` belongs to pixel `(x, y)`. -/
theorem c09_ppm_well_formed [Libm F32] (film : Film F32) (hx : 0 ≤ film.resolution.x)
    (hy : 0 ≤ film.resolution.y) (hs : film.Sized) :
    ∃ px : List (Nat × Nat × Nat),
      Spec.IsPpm film.writeImagePpm film.resolution.x film.resolution.y px ∧
      ∀ x y : Int, 0 ≤ x → x < film.resolution.x → 0 ≤ y → y < film.resolution.y →
        ∃ p, film.pixels[film.pixelOffset ⟨x, y⟩]? = some p ∧
          px[(y * film.resolution.x + x).toNat]? =
            some (channelByte p.color.r p.weight, channelByte p.color.g p.weight, channelByte p.color.b p.weight) := by
  have hlen : (film.pixels.length : Int) = film.resolution.x * film.resolution.y := by
    have := Int.mul_nonneg hx hy
    have := hs.2
    omega
  refine ⟨film.pixels.map fun p =>
    (channelByte p.color.r p.weight, channelByte p.color.g p.weight, channelByte p.color.b p.weight),
    ⟨?_, ?_, ?_⟩, ?_⟩
  · unfold Film.writeImagePpm
    rw [foldl_append_join, List.map_map]
    rfl
  · rw [List.length_map]; exact hlen
  · intro p hp
    obtain ⟨q, -, rfl⟩ := List.mem_map.1 hp
    exact ⟨clamp_round_byte _, clamp_round_byte _, clamp_round_byte _⟩
  · intro x y h1 h2 h3 h4
    have hlt := film_offset_lt hs (p := ⟨x, y⟩) ⟨h1, h2, h3, h4⟩
    refine ⟨film.pixels[film.pixelOffset ⟨x, y⟩], by simp [hlt], ?_⟩
    have e : film.pixelOffset ⟨x, y⟩ = (y * film.resolution.x + x).toNat := by
      rw [film_offset_eq hs.1 ⟨h1, h2, h3, h4⟩, mul_comm]
    rw [← e, List.getElem?_map]
    simp [hlt]

/-- A 2×1 film with a NaN pixel and an infinite one meets the hypotheses. -/
example : (⟨⟨2, 1⟩, lit 1, [], [⟨⟨Fl.nan, Fl.inf true, lit 3⟩, lit 0⟩, ⟨Spectrum.zero, lit 1⟩]⟩ : Film F32).Sized :=
  ⟨by norm_num, rfl⟩

/-! ### C10 -/

/-- The sRGB transfer function (IEC 61966-2-1, encoding direction). -/
noncomputable def Spec.srgb (v : ℝ) : ℝ :=
  if v ≤ 0.0031308 then 12.92 * v else 1.055 * v ^ (1 / 2.4 : ℝ) - 0.055

theorem gammaCorrect_real (v : ℝ) : gammaCorrect v = Spec.srgb v := by
  unfold gammaCorrect Spec.srgb
  real_ops
  norm_num

theorem channelByte_real (c w : ℝ) :
    channelByte c w = if 255 * Spec.srgb (c / w) < -1 / 2 then 0
      else min 255 (⌊255 * Spec.srgb (c / w)⌋ + 1).toNat := by
  unfold channelByte clamp
  rw [gammaCorrect_real]
  generalize hg : Spec.srgb (c /. w) = g
  rw [r_div] at hg
  try rw [hg]
  unfold toU32
  real_ops
  push_cast
  have key : ∀ x : ℝ, 0 ≤ x → x ≤ 255 →
      (satInt (truncInt ((roundAway x : Int) : ℝ)) 0 4294967295).toNat = ⌊x + 1 / 2⌋.toNat := by
    intro x h0 h1
    rw [truncInt_intCast]
    unfold roundAway
    rw [if_neg (not_lt.2 h0)]
    have a : 0 ≤ ⌊x + 1 / 2⌋ := by rw [Int.le_floor]; push_cast; linarith
    have b : ⌊x + 1 / 2⌋ < 256 := by rw [Int.floor_lt]; push_cast; linarith
    rw [satInt_of_mem a (by omega)]
  split_ifs with h1 h2 h3 h4 h5
  · rw [key 0 le_rfl (by norm_num)]; norm_num
  · exfalso; linarith
  · exfalso; linarith
  · rw [key 255 (by norm_num) le_rfl]
    have : (254 : Int) ≤ ⌊255 * g⌋ := by rw [Int.le_floor]; push_cast; linarith
    have e : ⌊(255 : ℝ) + 1 / 2⌋ = 255 := by rw [Int.floor_eq_iff]; norm_num
    rw [e]; omega
  · exfalso; linarith
  · rw [key _ (by linarith) (by linarith)]
    have e : g * 255 + 1 / 2 + 1 / 2 = 255 * g + 1 := by ring
    rw [e, Int.floor_add_one]
    have : ⌊255 * g⌋ < 255 := by rw [Int.floor_lt]; push_cast; linarith
    omega

/-- C10 is false of the code: a black pixel is written as 1, because 0.5 is added before rounding to
nearest.  In exact arithmetic: -/
theorem c10_refuted_black_is_one : channelByte (0 : ℝ) 1 = 1 ∧ roundAway (255 * Spec.srgb (0 / 1)) = 0 := by
  rw [channelByte_real]
  norm_num [Spec.srgb, roundAway]

/-- The same in IEEE single precision, with every math library. -/
theorem c10_refuted_black_is_one_f32 [Libm F32] : channelByte (lit 0 : F32) (lit 1) = 1 := by
  have h : ((lit 0 : F32) /. lit 1 <=. lit (31308 / 10000000)) = true := by decide +kernel
  unfold channelByte gammaCorrect
  rw [if_pos h]
  decide +kernel

theorem srgb_pow_ge {v : ℝ} (h : (0.0031308 : ℝ) < v) :
    1.055 * (0.0894 : ℝ) - 0.055 ≤ 1.055 * v ^ (1 / 2.4 : ℝ) - 0.055 := by
  have h1 : (0.0031308 : ℝ) ^ (1 / 2.4 : ℝ) ≤ v ^ (1 / 2.4 : ℝ) :=
    Real.rpow_le_rpow (by norm_num) h.le (by norm_num)
  have h2 : (0.0894 : ℝ) ≤ (0.0031308 : ℝ) ^ (1 / 2.4 : ℝ) := by
    have : (0.0894 : ℝ) = ((0.0894 : ℝ) ^ (12 : ℕ)) ^ (1 / 12 : ℝ) := by
      rw [← Real.rpow_natCast, ← Real.rpow_mul (by norm_num)]; norm_num
    rw [this]
    have : (0.0031308 : ℝ) ^ (1 / 2.4 : ℝ) = ((0.0031308 : ℝ) ^ (5 : ℕ)) ^ (1 / 12 : ℝ) := by
      rw [← Real.rpow_natCast, ← Real.rpow_mul (by norm_num)]; norm_num
    rw [this]
    exact Real.rpow_le_rpow (by norm_num) (by norm_num) (by norm_num)
  linarith

theorem srgb_nonneg {v : ℝ} (hv : 0 ≤ v) : 0 ≤ Spec.srgb v := by
  unfold Spec.srgb
  split_ifs with h
  · positivity
  · have := srgb_pow_ge (not_le.1 h)
    linarith

/-- What holds instead of C10: the channel is the *next* integer above 255 times the gamma-corrected
colour (one more than its floor), clamped to 255. -/
theorem c10_channel_partial (c w : ℝ) (hw : 0 < w) (h0 : 0 ≤ c) :
    channelByte c w = min 255 (⌊255 * Spec.srgb (c / w)⌋₊ + 1) := by
  have hg := srgb_nonneg (div_nonneg h0 hw.le)
  rw [channelByte_real, if_neg (by linarith)]
  have : 0 ≤ ⌊255 * Spec.srgb (c / w)⌋ := Int.floor_nonneg.2 (by linarith)
  rw [← Int.floor_toNat (255 * Spec.srgb (c / w))]
  omega

/-- What holds instead of C10: the channel is off by at most one. -/
theorem c10_off_by_at_most_one_partial (c w : ℝ) (hw : 0 < w) (h0 : 0 ≤ c)
    (h1 : Spec.srgb (c / w) ≤ 1) :
    |(channelByte c w : ℝ) - 255 * Spec.srgb (c / w)| ≤ 1 := by
  have hg := srgb_nonneg (div_nonneg h0 hw.le)
  rw [c10_channel_partial c w hw h0]
  generalize Spec.srgb (c / w) = g at *
  have a := Nat.floor_le (show 0 ≤ 255 * g by linarith)
  have b := Nat.lt_floor_add_one (255 * g)
  push_cast
  rw [abs_le]
  rcases min_cases (255 : ℝ) ((⌊255 * g⌋₊ : ℝ) + 1) with ⟨e, f⟩ | ⟨e, f⟩ <;> rw [e] <;> constructor <;> linarith

/-- A colour sum of 0.002 with weight 1 (a dark grey): 255·0.02584 = 6.6 is written as 7. -/
example : channelByte (0.002 : ℝ) 1 = 7 := by
  have e : ⌊255 * Spec.srgb (0.002 / 1)⌋₊ = 6 := by
    rw [Nat.floor_eq_iff (by norm_num [Spec.srgb])]; norm_num [Spec.srgb]
  rw [c10_channel_partial _ _ one_pos (by norm_num), e]
  rfl

/-! ### C11 -/

/-- C11.  For a common positive weight, the written value is monotone in the colour sum (all reals,
negative ones included), although the transfer function itself has a tiny downward step. -/
theorem c11_monotone (c c' w : ℝ) (hw : 0 < w) (h : c ≤ c') : channelByte c w ≤ channelByte c' w := by
  have hv : c / w ≤ c' / w := div_le_div_of_nonneg_right h hw.le
  rw [channelByte_real, channelByte_real]
  generalize c / w = v at *
  generalize c' / w = v' at *
  have mono : ∀ g g' : ℝ, g ≤ g' →
      (if 255 * g < -1 / 2 then 0 else min 255 (⌊255 * g⌋ + 1).toNat) ≤
      (if 255 * g' < -1 / 2 then 0 else min 255 (⌊255 * g'⌋ + 1).toNat) := by
    intro g g' hg
    have hf : ⌊255 * g⌋ ≤ ⌊255 * g'⌋ := Int.floor_le_floor (by linarith)
    split_ifs with h1 h2 h2
    · exact le_rfl
    · exact Nat.zero_le _
    · exfalso; linarith
    · omega
  by_cases h1 : v ≤ 0.0031308
  · by_cases h2 : v' ≤ 0.0031308
    · apply mono; unfold Spec.srgb; rw [if_pos h1, if_pos h2]; linarith
    · have g1 : Spec.srgb v ≤ 10.4 / 255 := by
        unfold Spec.srgb; rw [if_pos h1]; linarith
      have g2 : 10 / 255 ≤ Spec.srgb v' := by
        unfold Spec.srgb; rw [if_neg h2]; have := srgb_pow_ge (not_le.1 h2); linarith
      refine (mono _ _ g1).trans (le_trans (le_of_eq ?_) (mono _ _ g2))
      have e1 : ⌊(255 : ℝ) * (10.4 / 255)⌋ = 10 := by rw [Int.floor_eq_iff]; norm_num
      have e2 : ⌊(255 : ℝ) * (10 / 255)⌋ = 10 := by rw [Int.floor_eq_iff]; norm_num
      rw [e1, e2, if_neg (by norm_num), if_neg (by norm_num)]
  · have h2 : ¬ v' ≤ 0.0031308 := by push Not at h1 ⊢; linarith
    apply mono
    unfold Spec.srgb
    rw [if_neg h1, if_neg h2]
    have := Real.rpow_le_rpow (z := (1 / 2.4 : ℝ)) (by push Not at h1; linarith) hv (by norm_num)
    linarith

/-- The order is not trivial: black and white are written differently. -/
example : channelByte (0 : ℝ) 2 = 1 ∧ channelByte (2 : ℝ) 2 = 255 := by
  rw [channelByte_real, channelByte_real]
  norm_num [Spec.srgb]

/-! ### C12 -/

/-- C12 is false of the code: the old file is not truncated, so if it was longer its tail remains. -/
theorem c12_refuted_stale_tail {α : Type} [Scalar α] [Libm α] (film : Film α) :
    ∃ old : List UInt8, outputFile old film ≠ film.writeImagePpm.toUTF8.toList := by
  refine ⟨List.replicate (film.writeImagePpm.toUTF8.toList.length + 1) 0, fun h => ?_⟩
  have := congrArg List.length h
  simp [outputFile, overwriteFile] at this

/-- What holds of C12: the file always starts with the image, its length is the larger of the two
lengths, and it is exactly the image if (and only if) the old file was not longer than the image. -/
theorem c12_output_partial {α : Type} [Scalar α] [Libm α] (film : Film α) (old : List UInt8) :
    let img := film.writeImagePpm.toUTF8.toList
    img <+: outputFile old film ∧
    (outputFile old film).length = max img.length old.length ∧
    (outputFile old film = img ↔ old.length ≤ img.length) := by
  intro img
  have hl : (outputFile old film).length = img.length + (old.length - img.length) := by
    simp [outputFile, overwriteFile, img]
  refine ⟨List.prefix_append _ _, by omega, ?_, ?_⟩
  · intro h; have := congrArg List.length h; omega
  · intro h
    simp only [outputFile, overwriteFile]
    rw [List.drop_eq_nil_of_le h, List.append_nil]

example : overwriteFile [1, 2, 3, 4] [7, 8] = ([7, 8, 3, 4] : List Nat) := rfl

end PT
