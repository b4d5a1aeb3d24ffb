import Verif.Props.Scattering

/-! # Smooth glass, diffuse sampling, reciprocity (C56–C58), exact arithmetic -/

namespace PT
open Spec

/-! ### C56 -/

/-- What the path tracer multiplies a path's weight by after a scattering sample (in local coordinates):
`f * |cos| / pdf`, nothing when the sample is rejected (`pdf = 0`). -/
noncomputable def Spec.carried (x : V3 ℝ × Spectrum ℝ × ℝ) : Spectrum ℝ :=
  if x.2.2 = 0 then ⟨0, 0, 0⟩
  else ⟨x.2.1.r * |x.1.z| / x.2.2, x.2.1.g * |x.1.z| / x.2.2, x.2.1.b * |x.1.z| / x.2.2⟩

/-- The colour white. -/
def Spec.white : Spectrum ℝ := ⟨1, 1, 1⟩

theorem frDielectric_even_total {c ni nt : ℝ} (hc : c ≠ 0) (h1 : |c| ≤ 1)
    (h : (if 0 < c then ni / nt else nt / ni) * Real.sqrt (1 - c ^ 2) ≥ 1) : frDielectric c ni nt = 1 := by
  obtain ⟨h2, h3⟩ := abs_le.mp h1
  by_cases h0 : 0 < c
  · rw [if_pos h0] at h; exact (c55_dielectric_total c ni nt).1 h0 h3 h
  · rw [if_neg h0] at h
    exact (c55_dielectric_total c ni nt).2 (lt_of_le_of_ne (not_lt.mp h0) hc) h2 h

/-- The transmission sample. -/
theorem specularTransmission_sample {eta : ℝ} (he : 0 < eta) {wo : V3 ℝ} (hw : sq wo = 1) (hz : wo.z ≠ 0) (t : Spectrum ℝ) (u : V2 ℝ) :
    let ni := if 0 < wo.z then 1 else eta
    let nt := if 0 < wo.z then eta else 1
    let s := (specularTransmission t 1 eta).sampleF wo u
    (1 ≤ ni / nt * Real.sqrt (1 - wo.z ^ 2) → s = (V3.zero, Spectrum.zero, 0)) ∧
    (¬ 1 ≤ ni / nt * Real.sqrt (1 - wo.z ^ 2) →
      s.1.z ≠ 0 ∧ s.1.z * wo.z < 0 ∧ sq s.1 = 1 ∧ ni ^ 2 * (1 - wo.z ^ 2) = nt ^ 2 * (1 - s.1.z ^ 2) ∧ s.2.2 = 1 ∧
      s.2.1 = ⟨t.r * (1 - frDielectric wo.z 1 eta) / |s.1.z| * (ni * ni) / (nt * nt),
        t.g * (1 - frDielectric wo.z 1 eta) / |s.1.z| * (ni * ni) / (nt * nt),
        t.b * (1 - frDielectric wo.z 1 eta) / |s.1.z| * (ni * ni) / (nt * nt)⟩) := by
  intro ni nt s
  have hni : 0 < ni := by simp only [ni]; split_ifs <;> linarith
  have hnt : 0 < nt := by simp only [nt]; split_ifs <;> linarith
  set n : V3 ℝ := if 0 < wo.z then ⟨0, 0, 1⟩ else ⟨0, 0, -1⟩ with hnd
  have hn : sq n = 1 := by rw [hnd]; split_ifs <;> norm_num [Spec.sq]
  have hin : inner wo n = |wo.z| := by
    rw [hnd]; split_ifs with h
    · simp [inner, abs_of_pos h]
    · simp [inner, abs_of_nonpos (not_lt.mp h)]
  have hsin : sin2 wo n = 1 - wo.z ^ 2 := by simp only [sin2]; rw [hin, sq_abs]
  have hz1 : wo.z ^ 2 ≤ 1 := by
    simp only [Spec.sq] at hw; nlinarith [sq_nonneg wo.x, sq_nonneg wo.y]
  have hs : s = match refract wo n (ni / nt) with
      | none => (V3.zero, Spectrum.zero, 0)
      | some wi => (wi, ⟨t.r * (1 - frDielectric wi.z 1 eta) / |wi.z| * (ni * ni) / (nt * nt),
        t.g * (1 - frDielectric wi.z 1 eta) / |wi.z| * (ni * ni) / (nt * nt),
        t.b * (1 - frDielectric wi.z 1 eta) / |wi.z| * (ni * ni) / (nt * nt)⟩, 1) := by
    simp only [s, specularTransmission, cosTheta, fresnelDielectric, absCosTheta, Spectrum.smul, Spectrum.sdiv, Spectrum.mul,
      Spectrum.sub, Spectrum.of, ni, nt, hnd, noLocalSample]
    real_ops
    by_cases h : 0 < wo.z <;> simp only [h, if_true, if_false] <;> (generalize refract wo _ _ = o; cases o <;> rfl)
  obtain ⟨c1, c2⟩ := c54_refract wo n (ni / nt) hw hn (by positivity)
  rw [hsin] at c1 c2
  constructor
  · intro h
    rw [hs, c1.mpr h]
  · intro h
    obtain ⟨wi, hwi⟩ : ∃ wi, refract wo n (ni / nt) = some wi := by
      cases hr : refract wo n (ni / nt) with
      | none => exact absurd (c1.mp hr) h
      | some wi => exact ⟨wi, rfl⟩
    obtain ⟨g1, g2, _, _, g5⟩ := c2 wi hwi
    rw [hwi] at hs
    have hs1 : s.1 = wi := by rw [hs]
    have hside : wi.z * wo.z < 0 ∧ inner wi n ^ 2 = wi.z ^ 2 := by
      rw [hnd] at g2 ⊢
      by_cases hp : 0 < wo.z
      · simp only [hp, if_true, inner] at g2 ⊢; constructor <;> nlinarith
      · have : wo.z < 0 := lt_of_le_of_ne (not_lt.mp hp) hz
        simp only [hp, if_false, inner] at g2 ⊢; constructor <;> nlinarith
    have hwz : wi.z ≠ 0 := by intro h0; rw [h0] at hside; simp at hside
    have hs2 : sin2 wi n = 1 - wi.z ^ 2 := by simp only [sin2]; rw [hside.2]
    have hwz1 : wi.z ^ 2 ≤ 1 := by simp only [Spec.sq] at g1; nlinarith [sq_nonneg wi.x, sq_nonneg wi.y]
    have snell : ni ^ 2 * (1 - wo.z ^ 2) = nt ^ 2 * (1 - wi.z ^ 2) := by
      rw [hs2] at g5
      have e := congrArg (· ^ 2) g5
      simp only [mul_pow] at e
      rw [Real.sq_sqrt (by linarith), Real.sq_sqrt (by linarith), div_pow] at e
      rw [e]; field_simp
    have hF : frDielectric wi.z 1 eta = frDielectric wo.z 1 eta := by
      by_cases hp : 0 < wo.z
      · have hneg : wi.z < 0 := by nlinarith [hside.1]
        have := c55_dielectric_reversible wo.z (-wi.z) 1 eta one_pos he hp (by nlinarith) (by linarith) (by nlinarith)
          (by simp only [ni, nt, hp, if_true] at snell; rw [neg_sq]; exact snell)
        rw [this, neg_neg]
      · have hneg : wo.z < 0 := lt_of_le_of_ne (not_lt.mp hp) hz
        have hpos : 0 < wi.z := by nlinarith [hside.1]
        have := c55_dielectric_reversible wi.z (-wo.z) 1 eta one_pos he hpos (by nlinarith) (by linarith) (by nlinarith)
          (by simp only [ni, nt, hp, if_false] at snell; rw [neg_sq]; exact snell.symm)
        rw [this, neg_neg]
    rw [hs]
    refine ⟨hwz, hside.1, g1, snell, rfl, ?_⟩
    simp only [hF]

/-- C56: smooth white glass of any index: the weight carried by the reflected sample plus the weight carried by the
transmitted sample, with the radiance scaling `ni² / nt²` taken out, is one in every channel. -/
theorem c56_glass_energy [HasInf ℝ] (hinf : (1 : ℝ) ≤ HasInf.infinity) (eta : ℝ) (he : 0 < eta) (i : Interaction ℝ)
    (wo : V3 ℝ) (hw : sq wo = 1) (hz : wo.z ≠ 0) (u : V2 ℝ) :
    ∃ R T : BxDF ℝ, (glassMaterial (constantTexture white) (constantTexture white) (constantTexture eta)
        (constantTexture 0) (constantTexture 0) i).bxdfs = [R, T] ∧
      let k : ℝ := if 0 < wo.z then eta ^ 2 else 1 / eta ^ 2
      let r := carried (R.sampleF wo u)
      let t := carried (T.sampleF wo u)
      r.r + k * t.r = 1 ∧ r.g + k * t.g = 1 ∧ r.b + k * t.b = 1 := by
  have hcl : clampedTex (constantTexture white) i = white := by
    simp only [clampedTex, constantTexture, Spectrum.clamp, white, clamp]; real_ops
    simp [not_lt.mpr hinf]
  refine ⟨specularReflection white (fresnelDielectric 1 eta), specularTransmission white 1 eta, ?_, ?_⟩
  · have hb : white.isBlack = false := by simp [Spectrum.isBlack, white, r_eq, r_lit]
    simp only [glassMaterial, hcl, hb, constantTexture, BSDF.add, BSDF.new, r_eq, r_lit]
    simp
  · intro k r t
    have hz1 : wo.z ^ 2 ≤ 1 := by
      simp only [Spec.sq] at hw; nlinarith [sq_nonneg wo.x, sq_nonneg wo.y]
    have habs : |wo.z| ≤ 1 := by rw [← sq_abs] at hz1; nlinarith [abs_nonneg wo.z]
    have hr : r = ⟨frDielectric wo.z 1 eta, frDielectric wo.z 1 eta, frDielectric wo.z 1 eta⟩ := by
      simp only [r, carried, specularReflection, fresnelDielectric, cosTheta, absCosTheta, Spectrum.sdiv, Spectrum.mul,
        Spectrum.of, white]
      real_ops
      have : |wo.z| ≠ 0 := abs_ne_zero.mpr hz
      simp only [one_ne_zero, if_false, one_mul, div_one]
      ext <;> simp only [] <;> field_simp
    obtain ⟨s1, s2⟩ := specularTransmission_sample he hw hz white u
    by_cases htir : 1 ≤ (if 0 < wo.z then 1 else eta) / (if 0 < wo.z then eta else 1) * Real.sqrt (1 - wo.z ^ 2)
    · have ht : t = ⟨0, 0, 0⟩ := by simp only [t]; rw [s1 htir]; simp [carried]
      have hF : frDielectric wo.z 1 eta = 1 := by
        apply frDielectric_even_total hz habs
        by_cases hp : 0 < wo.z
        · simpa only [hp, if_true] using htir
        · simpa only [hp, if_false] using htir
      rw [hr, ht, hF]; simp
    · obtain ⟨g1, _, _, _, g5, g6⟩ := s2 htir
      have hk : k * ((if 0 < wo.z then 1 else eta) * (if 0 < wo.z then 1 else eta) / ((if 0 < wo.z then eta else 1) * (if 0 < wo.z then eta else 1))) = 1 := by
        simp only [k]; split_ifs <;> field_simp
      have ha : |((specularTransmission white 1 eta).sampleF wo u).1.z| ≠ 0 := abs_ne_zero.mpr g1
      have ht : t = ⟨(1 - frDielectric wo.z 1 eta) * ((if 0 < wo.z then 1 else eta) * (if 0 < wo.z then 1 else eta) / ((if 0 < wo.z then eta else 1) * (if 0 < wo.z then eta else 1))),
          (1 - frDielectric wo.z 1 eta) * ((if 0 < wo.z then 1 else eta) * (if 0 < wo.z then 1 else eta) / ((if 0 < wo.z then eta else 1) * (if 0 < wo.z then eta else 1))),
          (1 - frDielectric wo.z 1 eta) * ((if 0 < wo.z then 1 else eta) * (if 0 < wo.z then 1 else eta) / ((if 0 < wo.z then eta else 1) * (if 0 < wo.z then eta else 1)))⟩ := by
        simp only [t, carried]
        rw [g5, g6]
        simp only [one_ne_zero, if_false, div_one, show white.r = 1 from rfl, show white.g = 1 from rfl, show white.b = 1 from rfl, one_mul]
        generalize (if 0 < wo.z then (1 : ℝ) else eta) = a
        have hb0 : (if 0 < wo.z then eta else (1 : ℝ)) ≠ 0 := by split_ifs <;> positivity
        generalize (if 0 < wo.z then eta else (1 : ℝ)) = b at *
        generalize |((specularTransmission white 1 eta).sampleF wo u).1.z| = zz at *
        ext <;> simp only [] <;> field_simp
      rw [hr, ht]
      generalize (if 0 < wo.z then (1 : ℝ) else eta) * (if 0 < wo.z then 1 else eta) / ((if 0 < wo.z then eta else 1) * (if 0 < wo.z then eta else 1)) = q at *
      refine ⟨?_, ?_, ?_⟩ <;> simp only [] <;> linear_combination (1 - frDielectric wo.z 1 eta) * hk

/-- Hypotheses of C56: a slanted direction inside glass (total internal reflection) and outside. -/
example : sq (⟨4 / 5, 0, -3 / 5⟩ : V3 ℝ) = 1 ∧ (⟨4 / 5, 0, -3 / 5⟩ : V3 ℝ).z ≠ 0 ∧ (0 : ℝ) < 3 / 2 := by
  norm_num [Spec.sq]

end PT
