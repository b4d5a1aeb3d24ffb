import Verif.Props.SampleDist
import Verif.Props.Lights

/-!
# Points sampled on triangles are uniform (C42), and what sampling a triangle light estimates (C69)
-/

namespace PT
open MeasureTheory Set
open scoped ENNReal

namespace Spec
/-- The integral of `F` over the surface of the triangle: the points are `b0 v0 + b1 v1 + (1 - b0 - b1) v2`, and the surface element is the
length of the vector product of the partial derivatives, `(v0 - v2) × (v1 - v2)`. -/
noncomputable def overTriangle (s : Triangle ℝ) (F : V3 ℝ → ℝ≥0∞) : ℝ≥0∞ :=
  ∫⁻ b0 in Ioo (0 : ℝ) 1, ∫⁻ b1 in Ioo (0 : ℝ) (1 - b0),
    ENNReal.ofReal (Real.sqrt (Spec.sq (vcross (diff s.v0 s.v2) (diff s.v1 s.v2)))) * F (mix b0 b1 (1 - b0 - b1) s.v0 s.v1 s.v2)
end Spec
open Spec

/-- Uniform numbers become uniform barycentric coordinates. -/
theorem barycentric_uniform (F : ℝ → ℝ → ℝ≥0∞) :
    mean2 (fun u => F (1 - Real.sqrt u.x) (u.y * Real.sqrt u.x)) =
      ENNReal.ofReal 2 * ∫⁻ b0 in Ioo (0 : ℝ) 1, ∫⁻ b1 in Ioo (0 : ℝ) (1 - b0), F b0 b1 := by
  have himg : (fun b : ℝ => (1 - b) ^ 2) '' Ioo 0 1 = Ioo 0 1 := by
    ext y
    constructor
    · rintro ⟨b, ⟨h0, h1⟩, rfl⟩
      exact ⟨by have : 0 < 1 - b := by linarith
                positivity, by nlinarith⟩
    · rintro ⟨h0, h1⟩
      refine ⟨1 - Real.sqrt y, ⟨?_, ?_⟩, ?_⟩
      · have := Real.sqrt_lt_sqrt h0.le h1
        rw [Real.sqrt_one] at this
        linarith
      · have := Real.sqrt_pos.2 h0
        linarith
      · simp only [sub_sub_cancel]
        exact Real.sq_sqrt h0.le
  unfold mean2 mean1
  simp only []
  rw [setLIntegral_congr (Ioo_ae_eq_Ico (a := (0 : ℝ)) (b := 1)).symm, ← himg,
    lintegral_image_eq_lintegral_abs_deriv_mul measurableSet_Ioo (f' := fun b => -(2 * (1 - b))), himg,
    ← lintegral_const_mul' _ _ ENNReal.ofReal_ne_top]
  · refine setLIntegral_congr_fun measurableSet_Ioo fun b hb => ?_
    have hb1 : 0 < 1 - b := by linarith [hb.2]
    simp only [Real.sqrt_sq hb1.le, sub_sub_cancel]
    rw [lint_affine_of (a := 1 - b) hb1.ne' 0 (s := Ioo 0 1) measurableSet_Ioo (t := Ioo 0 (1 - b)), abs_neg, abs_of_pos (by linarith : 0 < 2 * (1 - b)),
      abs_of_pos hb1, ← mul_assoc, ← ENNReal.ofReal_mul (by norm_num)]
    · rw [setLIntegral_congr (Ioo_ae_eq_Ico (a := (0 : ℝ)) (b := 1)).symm]
      simp [mul_comm]
    · intro x
      simp only [mem_Ioo, add_zero]
      rw [mul_pos_iff_of_pos_left hb1]
      refine and_congr_right fun _ => ?_
      constructor <;> intro h <;> nlinarith
  · intro x _
    have h : HasDerivAt (fun b : ℝ => (1 - b) * (1 - b)) (-1 * (1 - x) + (1 - x) * -1) x :=
      ((hasDerivAt_id x).const_sub 1).mul ((hasDerivAt_id x).const_sub 1)
    have e : (fun b : ℝ => (1 - b) ^ 2) = fun b => (1 - b) * (1 - b) := by funext b; ring
    rw [e, show -(2 * (1 - x)) = -1 * (1 - x) + (1 - x) * -1 by ring]
    exact h.hasDerivWithinAt
  · intro x hx y hy h
    have h' : (1 - x) ^ 2 = (1 - y) ^ 2 := h
    have := (sq_eq_sq₀ (by linarith [hx.2]) (by linarith [hy.2])).1 h'
    linarith

/-- C42: points sampled on a triangle are uniform by area: the mean of any function of the sampled point is its integral over the surface divided
by the area. -/
theorem c42_uniform (s : Triangle ℝ) (hs : planeNormal s ≠ V3.zero) (F : V3 ℝ → ℝ≥0∞) :
    mean2 (fun u => F (s.sample u).p) = ENNReal.ofReal (1 / triangleArea s) * overTriangle s F := by
  have hA : 0 < Real.sqrt (Spec.sq (planeNormal s)) := Real.sqrt_pos.2 (sq_pos hs)
  have hv : vcross (diff s.v0 s.v2) (diff s.v1 s.v2) = planeNormal s := by
    unfold planeNormal vcross diff; ext <;> simp only [] <;> ring
  have e : ∀ u : V2 ℝ, F (s.sample u).p = (fun b0 b1 => F (mix b0 b1 (1 - b0 - b1) s.v0 s.v1 s.v2)) (1 - Real.sqrt u.x) (u.y * Real.sqrt u.x) := by
    intro u
    unfold Triangle.sample mix
    simp only [V3.smul, V3.add]
    real_ops
    congr 1
    ext <;> simp only [] <;> ring
  simp only [e]
  rw [barycentric_uniform (fun b0 b1 => F (mix b0 b1 (1 - b0 - b1) s.v0 s.v1 s.v2))]
  unfold overTriangle
  rw [hv]
  simp only [lintegral_const_mul' _ _ ENNReal.ofReal_ne_top]
  rw [← mul_assoc, ← ENNReal.ofReal_mul (by unfold triangleArea; positivity)]
  congr 2
  unfold triangleArea
  field_simp

/-- C42: the area of the library is the surface integral of one. -/
theorem c42_area (s : Triangle ℝ) (hs : planeNormal s ≠ V3.zero) : overTriangle s (fun _ => 1) = ENNReal.ofReal s.area := by
  have hA : 0 < Real.sqrt (Spec.sq (planeNormal s)) := Real.sqrt_pos.2 (sq_pos hs)
  have h := c42_uniform s hs (fun _ => 1)
  rw [mean2_const] at h
  have ha : s.area = triangleArea s := by
    have := area_pdf s ⟨0, 0, 0⟩ (Interaction.default) V3.zero
    change (lit 1 : ℝ) /. s.area = _ at this
    rw [r_div, r_lit] at this
    simp only [Rat.cast_one, one_div] at this
    exact inv_injective this
  have hp : 0 < triangleArea s := by unfold triangleArea; positivity
  rw [ha]
  calc overTriangle s (fun _ => 1) = ENNReal.ofReal (triangleArea s) * (ENNReal.ofReal (1 / triangleArea s) * overTriangle s fun _ => 1) := by
        rw [← mul_assoc, ← ENNReal.ofReal_mul hp.le, mul_one_div_cancel hp.ne', ENNReal.ofReal_one, one_mul]
    _ = _ := by rw [← h, mul_one]

/-- C69, what sampling a triangle light estimates: dividing by the reported density gives, on average, the integral over the light's surface,
without the factor cosine over distance² that turns surface into solid angle. -/
theorem c69_area_estimate (s : Triangle ℝ) (hs : planeNormal s ≠ V3.zero) (l : Spectrum ℝ) (refI : Interaction ℝ) (K : V3 ℝ → ℝ≥0∞) :
    mean2 (fun u => match (AreaLight.mk l s.toShape).toLight.sampleLi refI u with
      | none => 0
      | some smp => K smp.vis.p1.p / ENNReal.ofReal smp.pdf) = overTriangle s K := by
  have hA : 0 < triangleArea s := by unfold triangleArea; exact div_pos (Real.sqrt_pos.2 (sq_pos hs)) (by norm_num)
  have e : ∀ u, (match (AreaLight.mk l s.toShape).toLight.sampleLi refI u with
      | none => 0
      | some smp => K smp.vis.p1.p / ENNReal.ofReal smp.pdf) = ENNReal.ofReal (triangleArea s) * K (s.sample u).p := by
    intro u
    change K (s.sample u).p / ENNReal.ofReal ((AreaLight.mk l s.toShape).toLight.pdfLi refI _) = _
    rw [area_pdf, one_div, ENNReal.ofReal_inv_of_pos hA, div_eq_mul_inv, inv_inv, mul_comm]
  simp only [e]
  have := mean2_affine 0 (ENNReal.ofReal (triangleArea s)) ENNReal.ofReal_ne_top (fun u => K (s.sample u).p)
  simp only [zero_add] at this
  rw [this, c42_uniform s hs, ← mul_assoc, ← ENNReal.ofReal_mul hA.le, mul_one_div_cancel hA.ne', ENNReal.ofReal_one, one_mul]

/-- Non-vacuity: a triangle of area 8. -/
example (mat : Material ℝ) : planeNormal ⟨⟨0, 0, 0⟩, ⟨4, 0, 0⟩, ⟨0, 4, 0⟩, none, false, mat⟩ ≠ V3.zero := by
  intro h
  have := congrArg V3.z h
  norm_num [planeNormal, vcross, diff, V3.zero, r_lit] at this

end PT
