import Verif.Props.BsdfMix
import Mathlib.MeasureTheory.Integral.IntervalIntegral.FundThmCalculus
import Mathlib.MeasureTheory.Measure.Lebesgue.Basic
import Mathlib.Analysis.Calculus.Deriv.Pow
import Mathlib.Analysis.Calculus.Deriv.Inv

/-! # The distribution of sampled microfacet normals (C59), isotropic case, exact arithmetic -/

namespace PT
open Spec MeasureTheory

/-- The value of the normal distribution for a unit vector depends on the cosine only. -/
theorem microfacet_d_iso {a : ℝ} (ha : 0 < a) (wh : V3 ℝ) (h1 : sq wh = 1) (hz : 0 < wh.z) :
    (⟨a, a⟩ : Microfacet ℝ).d wh = a ^ 2 / (Real.pi * (a ^ 2 * wh.z ^ 2 + (1 - wh.z ^ 2)) ^ 2) := by
  have hxy : 0 ≤ 1 - wh.z * wh.z := by simp only [Spec.sq] at h1; nlinarith [sq_nonneg wh.x, sq_nonneg wh.y]
  have hphi : cos2Phi wh + sin2Phi wh = 1 := by
    simp only [cos2Phi, sin2Phi, cosPhi, sinPhi, sinTheta, sin2Theta, cos2Theta, clamp]; real_ops
    rw [max_eq_left hxy]
    have hs2 := Real.sq_sqrt hxy
    have hs0 := Real.sqrt_nonneg (1 - wh.z * wh.z)
    generalize Real.sqrt (1 - wh.z * wh.z) = s at *
    by_cases hs : s = 0
    · simp [hs]
    · have hsp : 0 < s := lt_of_le_of_ne hs0 (Ne.symm hs)
      simp only [Spec.sq] at h1
      have e : wh.x ^ 2 + wh.y ^ 2 = s ^ 2 := by rw [hs2]; linarith
      have b1 : -1 ≤ wh.x / s ∧ wh.x / s ≤ 1 := by
        rw [le_div_iff₀ hsp, div_le_one hsp]; constructor <;> nlinarith [sq_nonneg wh.y]
      have b2 : -1 ≤ wh.y / s ∧ wh.y / s ≤ 1 := by
        rw [le_div_iff₀ hsp, div_le_one hsp]; constructor <;> nlinarith [sq_nonneg wh.x]
      simp only [hs, decide_false, Bool.false_eq_true, if_false, decide_eq_true_eq]
      split_ifs <;> first | (exfalso; linarith [b1.1, b1.2, b2.1, b2.2]) | skip
      field_simp; linarith
  simp only [Microfacet.d, tan2Theta, sin2Theta, cos2Theta]
  simp only [r_isInf, Bool.false_eq_true, if_false]
  real_ops
  rw [max_eq_left hxy]
  have e : cos2Phi wh / (a * a) + sin2Phi wh / (a * a) = 1 / a ^ 2 := by rw [← add_div, hphi, pow_two]
  rw [e]
  have hd : 0 < a ^ 2 * wh.z ^ 2 + (1 - wh.z ^ 2) := by
    have : 0 < a ^ 2 * wh.z ^ 2 := by positivity
    nlinarith
  have hpi := Real.pi_pos
  have e2 : 1 + 1 / a ^ 2 * ((1 - wh.z * wh.z) / (wh.z * wh.z)) = (a ^ 2 * wh.z ^ 2 + (1 - wh.z ^ 2)) / (a ^ 2 * wh.z ^ 2) := by
    field_simp
  rw [e2]
  generalize a ^ 2 * wh.z ^ 2 + (1 - wh.z ^ 2) = q at *
  field_simp

/-- The sampled normal for `wo` above the surface, in spherical coordinates. -/
theorem sampleWh_iso {a : ℝ} (ha : 0 < a) {wo : V3 ℝ} (hwo : 0 < wo.z) {u : V2 ℝ} (hu : 0 ≤ u.x ∧ u.x < 1) :
    ((⟨a, a⟩ : Microfacet ℝ).sampleWh wo u).z = 1 / Real.sqrt (1 + a * a * u.x / (1 - u.x)) ∧
    ((⟨a, a⟩ : Microfacet ℝ).sampleWh wo u).x = Real.sqrt (1 - ((⟨a, a⟩ : Microfacet ℝ).sampleWh wo u).z ^ 2) * Real.cos (2 * Real.pi * u.y) ∧
    ((⟨a, a⟩ : Microfacet ℝ).sampleWh wo u).y = Real.sqrt (1 - ((⟨a, a⟩ : Microfacet ℝ).sampleWh wo u).z ^ 2) * Real.sin (2 * Real.pi * u.y) ∧
    0 < ((⟨a, a⟩ : Microfacet ℝ).sampleWh wo u).z ∧ sq ((⟨a, a⟩ : Microfacet ℝ).sampleWh wo u) = 1 := by
  have ht : 0 ≤ a * a * u.x / (1 - u.x) := by
    have : 0 < 1 - u.x := by linarith
    have := hu.1
    positivity
  obtain ⟨g1, g2⟩ := sampleWh_spec (m := ⟨a, a⟩) ha ha hwo.ne' hu
  have hform : (⟨a, a⟩ : Microfacet ℝ).sampleWh wo u = V3.fromSphericalDirection
      (Real.sqrt (max (1 - 1 / Real.sqrt (1 + a * a * u.x / (1 - u.x)) * (1 / Real.sqrt (1 + a * a * u.x / (1 - u.x)))) 0))
      (1 / Real.sqrt (1 + a * a * u.x / (1 - u.x))) (Real.pi * 2 * u.y) := by
    simp only [Microfacet.sampleWh]; real_ops
    simp only [if_true]
    have hs : 0 < Real.sqrt (1 + a * a * u.x / (1 - u.x)) := Real.sqrt_pos.mpr (by linarith)
    have : sameHemisphere wo (V3.fromSphericalDirection
      (Real.sqrt (max (1 - 1 / Real.sqrt (1 + a * a * u.x / (1 - u.x)) * (1 / Real.sqrt (1 + a * a * u.x / (1 - u.x)))) 0))
      (1 / Real.sqrt (1 + a * a * u.x / (1 - u.x))) (Real.pi * 2 * u.y)) = true := by
      simp only [sameHemisphere, V3.fromSphericalDirection]; real_ops; positivity
    rw [this]; simp
  have hz0 : 0 < ((⟨a, a⟩ : Microfacet ℝ).sampleWh wo u).z := by
    by_contra hc
    have := mul_nonpos_of_nonpos_of_nonneg (not_lt.mp hc) hwo.le
    linarith
  have hzz : ((⟨a, a⟩ : Microfacet ℝ).sampleWh wo u).z = 1 / Real.sqrt (1 + a * a * u.x / (1 - u.x)) := by rw [hform]; rfl
  have hm : 0 ≤ 1 - 1 / Real.sqrt (1 + a * a * u.x / (1 - u.x)) * (1 / Real.sqrt (1 + a * a * u.x / (1 - u.x))) := by
    rw [← hzz]; simp only [Spec.sq] at g1; nlinarith [sq_nonneg ((⟨a, a⟩ : Microfacet ℝ).sampleWh wo u).x, sq_nonneg ((⟨a, a⟩ : Microfacet ℝ).sampleWh wo u).y]
  refine ⟨hzz, ?_, ?_, hz0, g1⟩
  · rw [hzz, hform]; simp only [V3.fromSphericalDirection]; real_ops
    rw [max_eq_left hm, mul_comm Real.pi 2, pow_two]
  · rw [hzz, hform]; simp only [V3.fromSphericalDirection]; real_ops
    rw [max_eq_left hm, mul_comm Real.pi 2, pow_two]

/-- The probability, for a uniform first sample, that the sampled normal is within the cap of cosine at least `c`. -/
noncomputable def Spec.capProbability (m : Microfacet ℝ) (wo : V3 ℝ) (c : ℝ) : ENNReal :=
  volume {x : ℝ | 0 ≤ x ∧ x < 1 ∧ ∀ y, c ≤ (m.sampleWh wo ⟨x, y⟩).z}

/-- The mass that a density `p` with respect to solid angle, depending on the cosine only, gives to that cap
(solid angle is `2π dc`). -/
noncomputable def Spec.capMass (p : ℝ → ℝ) (c : ℝ) : ℝ := 2 * Real.pi * ∫ t in c..1, p t

/-- A unit vector with a given cosine. -/
noncomputable def Spec.tilted (c : ℝ) : V3 ℝ := ⟨Real.sqrt (1 - c ^ 2), 0, c⟩

theorem tilted_unit {c : ℝ} (h0 : 0 ≤ c) (h1 : c ≤ 1) : sq (tilted c) = 1 := by
  simp only [tilted, Spec.sq]
  rw [Real.sq_sqrt (by nlinarith)]; ring

theorem cap_fraction {a : ℝ} (ha : 0 < a) {wo : V3 ℝ} (hwo : 0 < wo.z) {c : ℝ} (h0 : 0 < c) (h1 : c ≤ 1) :
    capProbability ⟨a, a⟩ wo c = ENNReal.ofReal ((1 - c ^ 2) / (a ^ 2 * c ^ 2 + (1 - c ^ 2))) := by
  have hc2 : 0 ≤ 1 - c ^ 2 := by nlinarith
  have hd : 0 < a ^ 2 * c ^ 2 + (1 - c ^ 2) := by have : 0 < a ^ 2 * c ^ 2 := by positivity
                                                  linarith
  set r := (1 - c ^ 2) / (a ^ 2 * c ^ 2 + (1 - c ^ 2)) with hr
  have hr1 : r < 1 := by
    rw [hr, div_lt_one hd]; have : 0 < a ^ 2 * c ^ 2 := by positivity
    linarith
  have hset : {x : ℝ | 0 ≤ x ∧ x < 1 ∧ ∀ y, c ≤ ((⟨a, a⟩ : Microfacet ℝ).sampleWh wo ⟨x, y⟩).z} = Set.Icc 0 r := by
    ext x
    simp only [Set.mem_setOf_eq, Set.mem_Icc]
    have key : 0 ≤ x → x < 1 → ((∀ y, c ≤ ((⟨a, a⟩ : Microfacet ℝ).sampleWh wo ⟨x, y⟩).z) ↔ x ≤ r) := by
      intro hx0 hx1
      have hx' : 0 < 1 - x := by linarith
      have hw : 0 < 1 + a * a * x / (1 - x) := by positivity
      have : (∀ y, c ≤ ((⟨a, a⟩ : Microfacet ℝ).sampleWh wo ⟨x, y⟩).z) ↔ c ≤ 1 / Real.sqrt (1 + a * a * x / (1 - x)) := by
        constructor
        · intro h; have := h 0; rwa [(sampleWh_iso ha hwo (u := ⟨x, 0⟩) ⟨hx0, hx1⟩).1] at this
        · intro h y; rwa [(sampleWh_iso ha hwo (u := ⟨x, y⟩) ⟨hx0, hx1⟩).1]
      rw [this, le_div_iff₀ (Real.sqrt_pos.mpr hw), hr, le_div_iff₀ hd]
      have e : c * Real.sqrt (1 + a * a * x / (1 - x)) ≤ 1 ↔ c ^ 2 * (1 + a * a * x / (1 - x)) ≤ 1 := by
        have hs := Real.sq_sqrt hw.le
        have hs0 := Real.sqrt_nonneg (1 + a * a * x / (1 - x))
        rw [← hs, ← mul_pow, sq_le_one_iff₀ (by positivity), Real.sqrt_sq hs0]
      rw [e]
      have e2 : c ^ 2 * (1 + a * a * x / (1 - x)) = c ^ 2 * ((1 - x) + a * a * x) / (1 - x) := by field_simp
      rw [e2, div_le_one hx']
      constructor <;> intro h <;> nlinarith
    constructor
    · rintro ⟨h1, h2, h3⟩; exact ⟨h1, (key h1 h2).mp h3⟩
    · rintro ⟨h1, h2⟩
      have h3 : x < 1 := lt_of_le_of_lt h2 hr1
      exact ⟨h1, h3, (key h1 h3).mpr h2⟩
  rw [capProbability, hset, Real.volume_Icc, sub_zero]

theorem cap_integral {a : ℝ} (ha : 0 < a) {c : ℝ} (h0 : 0 < c) (h1 : c ≤ 1) :
    capMass (fun t => (⟨a, a⟩ : Microfacet ℝ).d (tilted t) * t) c = (1 - c ^ 2) / (a ^ 2 * c ^ 2 + (1 - c ^ 2)) := by
  have hpos : ∀ t, 0 < t → t ≤ 1 → 0 < a ^ 2 * t ^ 2 + (1 - t ^ 2) := by
    intro t ht ht1
    have : 0 < a ^ 2 * t ^ 2 := by positivity
    nlinarith
  have hpi := Real.pi_pos
  have hI : ∫ t in c..1, (⟨a, a⟩ : Microfacet ℝ).d (tilted t) * t =
      ∫ t in c..1, a ^ 2 / (Real.pi * (a ^ 2 * t ^ 2 + (1 - t ^ 2)) ^ 2) * t := by
    apply intervalIntegral.integral_congr
    intro t ht
    rw [Set.uIcc_of_le h1] at ht
    have ht0 : 0 < t := lt_of_lt_of_le h0 ht.1
    simp only []
    rw [microfacet_d_iso ha (tilted t) (tilted_unit ht0.le ht.2) ht0]
    rfl
  have hF : ∫ t in c..1, a ^ 2 / (Real.pi * (a ^ 2 * t ^ 2 + (1 - t ^ 2)) ^ 2) * t =
      (fun t => -((1 - t ^ 2) / (a ^ 2 * t ^ 2 + (1 - t ^ 2))) / (2 * Real.pi)) 1 -
      (fun t => -((1 - t ^ 2) / (a ^ 2 * t ^ 2 + (1 - t ^ 2))) / (2 * Real.pi)) c := by
    refine intervalIntegral.integral_eq_sub_of_hasDerivAt
      (f := fun t => -((1 - t ^ 2) / (a ^ 2 * t ^ 2 + (1 - t ^ 2))) / (2 * Real.pi)) ?_ ?_
    · intro t ht
      rw [Set.uIcc_of_le h1] at ht
      have ht0 : 0 < t := lt_of_lt_of_le h0 ht.1
      have hd := hpos t ht0 ht.2
      have h2 : HasDerivAt (fun t : ℝ => 1 - t ^ 2) (-(2 * t)) t := by
        simpa using (hasDerivAt_pow 2 t).const_sub 1
      have h3 : HasDerivAt (fun t : ℝ => a ^ 2 * t ^ 2 + (1 - t ^ 2)) (a ^ 2 * (2 * t) + -(2 * t)) t := by
        have := (hasDerivAt_pow 2 t).const_mul (a ^ 2)
        simpa using this.fun_add h2
      have h4 := ((h2.fun_div h3 hd.ne').fun_neg).div_const (2 * Real.pi)
      have e : -((-(2 * t) * (a ^ 2 * t ^ 2 + (1 - t ^ 2)) - (1 - t ^ 2) * (a ^ 2 * (2 * t) + -(2 * t))) /
          (a ^ 2 * t ^ 2 + (1 - t ^ 2)) ^ 2) / (2 * Real.pi) = a ^ 2 / (Real.pi * (a ^ 2 * t ^ 2 + (1 - t ^ 2)) ^ 2) * t := by
        field_simp
        ring
      rw [e] at h4
      exact h4
    · apply ContinuousOn.intervalIntegrable
      rw [Set.uIcc_of_le h1]
      apply ContinuousOn.mul _ continuousOn_id
      apply ContinuousOn.div continuousOn_const (by fun_prop)
      intro t ht
      have := hpos t (lt_of_lt_of_le h0 ht.1) ht.2
      positivity
  rw [capMass, hI, hF]
  field_simp
  ring

/-- C59, what holds: the sampled normal's azimuth is `2π` times the second sample and, over the first sample, its
density with respect to solid angle is `D(wh) cos θ`.  What is missing: the code's `pdf` is `D(wh) / |cos θ|`, which is
not that density, see `c59_pdf_is_not_the_density`. -/
theorem c59_density_partial {a : ℝ} (ha : 0 < a) {wo : V3 ℝ} (hwo : 0 < wo.z) {c : ℝ} (h0 : 0 < c) (h1 : c ≤ 1) :
    capProbability ⟨a, a⟩ wo c = ENNReal.ofReal (capMass (fun t => (⟨a, a⟩ : Microfacet ℝ).d (tilted t) * t) c) ∧
    (∀ u : V2 ℝ, 0 ≤ u.x → u.x < 1 →
      (⟨a, a⟩ : Microfacet ℝ).sampleWh wo u = ⟨Real.sqrt (1 - ((⟨a, a⟩ : Microfacet ℝ).sampleWh wo u).z ^ 2) * Real.cos (2 * Real.pi * u.y),
        Real.sqrt (1 - ((⟨a, a⟩ : Microfacet ℝ).sampleWh wo u).z ^ 2) * Real.sin (2 * Real.pi * u.y),
        ((⟨a, a⟩ : Microfacet ℝ).sampleWh wo ⟨u.x, 0⟩).z⟩) ∧
    (∀ wh : V3 ℝ, sq wh = 1 → 0 < wh.z → (⟨a, a⟩ : Microfacet ℝ).d wh = (⟨a, a⟩ : Microfacet ℝ).d (tilted wh.z)) := by
  refine ⟨by rw [cap_fraction ha hwo h0 h1, cap_integral ha h0 h1], ?_, ?_⟩
  · intro u hu0 hu1
    obtain ⟨e1, e2, e3, _, _⟩ := sampleWh_iso ha hwo (u := u) ⟨hu0, hu1⟩
    have e4 := (sampleWh_iso ha hwo (u := ⟨u.x, 0⟩) ⟨hu0, hu1⟩).1
    ext
    · exact e2
    · exact e3
    · rw [e4, e1]
  · intro wh hw hz
    have hz1 : wh.z ≤ 1 := by simp only [Spec.sq] at hw; nlinarith [sq_nonneg wh.x, sq_nonneg wh.y]
    rw [microfacet_d_iso ha wh hw hz, microfacet_d_iso ha (tilted wh.z) (tilted_unit hz.le hz1) hz]
    rfl

/-- C59 refuted: for every roughness and every cap of positive size, the mass that the reported pdf gives to the cap is
strictly larger than the probability of sampling a normal in it. -/
theorem c59_pdf_is_not_the_density {a : ℝ} (ha : 0 < a) {wo : V3 ℝ} (hwo : 0 < wo.z) {c : ℝ} (h0 : 0 < c) (h1 : c < 1) :
    capProbability ⟨a, a⟩ wo c < ENNReal.ofReal (capMass (fun t => (⟨a, a⟩ : Microfacet ℝ).pdf wo (tilted t)) c) := by
  rw [cap_fraction ha hwo h0 h1.le, ← cap_integral ha h0 h1.le]
  have hpi := Real.pi_pos
  have hpos : ∀ t, 0 < t → t ≤ 1 → 0 < a ^ 2 * t ^ 2 + (1 - t ^ 2) := by
    intro t ht ht1
    have : 0 < a ^ 2 * t ^ 2 := by positivity
    nlinarith
  have hval : ∀ t, 0 < t → t ≤ 1 → (⟨a, a⟩ : Microfacet ℝ).d (tilted t) = a ^ 2 / (Real.pi * (a ^ 2 * t ^ 2 + (1 - t ^ 2)) ^ 2) := by
    intro t ht ht1
    rw [microfacet_d_iso ha (tilted t) (tilted_unit ht.le ht1) ht]; rfl
  have hlt : ∫ t in c..1, (⟨a, a⟩ : Microfacet ℝ).d (tilted t) * t < ∫ t in c..1, (⟨a, a⟩ : Microfacet ℝ).pdf wo (tilted t) := by
    have hpdf : ∀ t, 0 < t → (⟨a, a⟩ : Microfacet ℝ).pdf wo (tilted t) = (⟨a, a⟩ : Microfacet ℝ).d (tilted t) / t := by
      intro t ht
      simp only [Microfacet.pdf, absCosTheta, tilted]; real_ops; rw [abs_of_pos ht]
    have cont : ContinuousOn (fun t => a ^ 2 / (Real.pi * (a ^ 2 * t ^ 2 + (1 - t ^ 2)) ^ 2)) (Set.Icc c 1) := by
      apply ContinuousOn.div continuousOn_const (by fun_prop)
      intro t ht
      have := hpos t (lt_of_lt_of_le h0 ht.1) ht.2
      positivity
    apply intervalIntegral.integral_lt_integral_of_continuousOn_of_le_of_exists_lt h1
    · apply ContinuousOn.mul _ continuousOn_id
      exact cont.congr (fun t ht => hval t (lt_of_lt_of_le h0 ht.1) ht.2)
    · refine (cont.div continuousOn_id (fun t ht => (lt_of_lt_of_le h0 ht.1).ne')).congr ?_
      intro t ht
      have ht0 := lt_of_lt_of_le h0 ht.1
      show (⟨a, a⟩ : Microfacet ℝ).pdf wo (tilted t) = _
      rw [hpdf t ht0, hval t ht0 ht.2]; rfl
    · intro t ht
      have ht0 : 0 < t := lt_trans h0 ht.1
      rw [hpdf t ht0, hval t ht0 ht.2]
      have := hpos t ht0 ht.2
      rw [le_div_iff₀ ht0, mul_assoc]
      have h2 : t * t ≤ 1 := by nlinarith [ht.2]
      exact mul_le_of_le_one_right (by positivity) h2
    · refine ⟨c, ⟨le_rfl, h1.le⟩, ?_⟩
      rw [hpdf c h0, hval c h0 h1.le, lt_div_iff₀ h0, mul_assoc]
      have := hpos c h0 h1.le
      exact mul_lt_of_lt_one_right (by positivity) (by nlinarith)
  have hnn : 0 ≤ ∫ t in c..1, (⟨a, a⟩ : Microfacet ℝ).d (tilted t) * t := by
    apply intervalIntegral.integral_nonneg h1.le
    intro t ht
    have ht0 := lt_of_lt_of_le h0 ht.1
    have := hpos t ht0 ht.2
    rw [hval t ht0 ht.2]; positivity
  rw [ENNReal.ofReal_lt_ofReal_iff]
  · unfold capMass; exact mul_lt_mul_of_pos_left hlt (by positivity)
  · unfold capMass
    exact mul_pos (by positivity) (lt_of_le_of_lt hnn hlt)

example : (0 : ℝ) < 1 / 10 ∧ (0 : ℝ) < (⟨0, 3 / 5, 4 / 5⟩ : V3 ℝ).z ∧ (0 : ℝ) < 1 / 2 ∧ (1 / 2 : ℝ) < 1 := by norm_num

end PT
