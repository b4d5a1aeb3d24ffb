import Verif.Props.Glass

/-! # Diffuse sampling, reciprocity, composition of components (C57, C58, C60), exact arithmetic -/

namespace PT
open Spec

/-! ### C57 -/

theorem disk_bound {u : V2 ℝ} (hx : 0 ≤ u.x ∧ u.x ≤ 1) (hy : 0 ≤ u.y ∧ u.y ≤ 1) :
    (concentricSampleDisk u).x ^ 2 + (concentricSampleDisk u).y ^ 2 ≤ 1 := by
  have key : ∀ θ r : ℝ, -1 ≤ r → r ≤ 1 → (Real.cos θ * r) ^ 2 + (Real.sin θ * r) ^ 2 ≤ 1 := by
    intro θ r h1 h2
    have := Real.sin_sq_add_cos_sq θ
    have e : (Real.cos θ * r) ^ 2 + (Real.sin θ * r) ^ 2 = r ^ 2 := by linear_combination r ^ 2 * this
    rw [e]; nlinarith
  simp only [concentricSampleDisk]
  real_ops
  split_ifs with h1 h2
  · simp only [Bool.and_eq_true, decide_eq_true_eq] at h1
    simp only [h1.1, h1.2]; norm_num
  · exact key _ _ (by linarith) (by linarith)
  · exact key _ _ (by linarith) (by linarith)

/-- C57: diffuse sampling returns a unit direction in `wo`'s (closed) hemisphere; the reported pdf is the pdf method's
value, `cos/π` whenever the direction is not exactly grazing; and the weight `f * cos / pdf` is the albedo. -/
theorem c57_lambertian_sample (r : Spectrum ℝ) (wo : V3 ℝ) (hz : wo.z ≠ 0) (u : V2 ℝ) (hx : 0 ≤ u.x ∧ u.x ≤ 1)
    (hy : 0 ≤ u.y ∧ u.y ≤ 1) (wi : V3 ℝ) (f : Spectrum ℝ) (p : ℝ)
    (h : (lambertianReflection r).sampleF wo u = (wi, f, p)) :
    sq wi = 1 ∧ 0 ≤ wi.z * wo.z ∧ p = |wi.z| / Real.pi ∧ p = (lambertianReflection r).pdf wo wi ∧
    f = (lambertianReflection r).f wo wi ∧
    (0 < p → f.r * |wi.z| / p = r.r ∧ f.g * |wi.z| / p = r.g ∧ f.b * |wi.z| / p = r.b) := by
  have hd := disk_bound hx hy
  simp only [lambertianReflection, Lambertian.sampleF, cosineSampleHemisphere, Prod.mk.injEq] at h
  obtain ⟨h1, h2, h3⟩ := h
  generalize concentricSampleDisk u = d at *
  have hnn : 0 ≤ 1 - d.x * d.x - d.y * d.y := by nlinarith
  real_ops at h1
  rw [max_eq_left hnn] at h1
  have hs0 := Real.sqrt_nonneg (1 - d.x * d.x - d.y * d.y)
  have hs2 := Real.sq_sqrt hnn
  set z := Real.sqrt (1 - d.x * d.x - d.y * d.y) with hzd
  have hwi : wi = ⟨d.x, d.y, if wo.z < 0 then -z else z⟩ := by
    rw [← h1]; split_ifs <;> simp
  have hsq : sq wi = 1 := by
    rw [hwi]; simp only [Spec.sq]; split_ifs <;> nlinarith
  have hside : 0 ≤ wi.z * wo.z := by
    rw [hwi]; simp only []; split_ifs with hh
    · nlinarith
    · nlinarith
  have hf : f = Lambertian.f r wo wi := by rw [← h2]; rfl
  have hp : p = Lambertian.pdf wo wi := by rw [← h3, ← h1]; real_ops; rw [max_eq_left hnn]
  have hpi := Real.pi_pos
  have hp' : p = |wi.z| / Real.pi := by
    rw [hp]; simp only [Lambertian.pdf, sameHemisphere, absCosTheta]; real_ops
    split_ifs with hh
    · rfl
    · have : wi.z = 0 := by
        rw [mul_comm] at hside
        rcases (not_lt.mp hh).antisymm hside |> mul_eq_zero.mp with h0 | h0
        · exact absurd h0 hz
        · exact h0
      rw [this]; simp
  refine ⟨hsq, hside, hp', hp, hf, ?_⟩
  intro hpos
  rw [hp'] at hpos ⊢
  have hz0 : |wi.z| ≠ 0 := by intro h0; rw [h0] at hpos; simp at hpos
  rw [hf]; simp only [Lambertian.f, Spectrum.sdiv]; real_ops
  refine ⟨?_, ?_, ?_⟩ <;> field_simp

/-- Hypotheses of C57 with a positive pdf. -/
example : ∃ (wi : V3 ℝ) (f : Spectrum ℝ) (p : ℝ),
    (lambertianReflection (⟨1 / 2, 1 / 3, 0⟩ : Spectrum ℝ)).sampleF ⟨0, 3 / 5, -4 / 5⟩ ⟨1 / 2, 1 / 2⟩ = (wi, f, p) ∧ wi.z = -1 := by
  refine ⟨_, _, _, rfl, ?_⟩
  simp only [cosineSampleHemisphere, concentricSampleDisk]
  real_ops
  norm_num

/-! ### C58 -/

/-- Every channel is non-negative. -/
def Spec.NonNeg (s : Spectrum ℝ) : Prop := 0 ≤ s.r ∧ 0 ≤ s.g ∧ 0 ≤ s.b

/-- C58: diffuse reflection is reciprocal and non-negative. -/
theorem c58_lambertian (r : Spectrum ℝ) (hr : NonNeg r) (wo wi : V3 ℝ) :
    (lambertianReflection r).f wo wi = (lambertianReflection r).f wi wo ∧ NonNeg ((lambertianReflection r).f wo wi) := by
  refine ⟨rfl, ?_⟩
  have hpi := Real.pi_pos
  simp only [lambertianReflection, Lambertian.f, NonNeg, Spectrum.sdiv] at *; real_ops
  exact ⟨div_nonneg hr.1 hpi.le, div_nonneg hr.2.1 hpi.le, div_nonneg hr.2.2 hpi.le⟩

theorem sin2Theta_nonneg (w : V3 ℝ) : 0 ≤ sin2Theta w := by simp only [sin2Theta]; real_ops; exact le_max_right _ _

theorem microfacet_d_nonneg {m : Microfacet ℝ} (hx : 0 < m.ax) (hy : 0 < m.ay) (w : V3 ℝ) : 0 ≤ m.d w := by
  have hpi := Real.pi_pos
  simp only [Microfacet.d, tan2Theta, cos2Theta, cos2Phi, sin2Phi]; real_ops
  simp only [Bool.false_eq_true, if_false]
  have h4 : 0 ≤ w.z * w.z * (w.z * w.z) := mul_self_nonneg _
  have := mul_self_nonneg (1 + (cosPhi w * cosPhi w / (m.ax * m.ax) + sinPhi w * sinPhi w / (m.ay * m.ay)) * (sin2Theta w / (w.z * w.z)))
  positivity

theorem microfacet_lambda_nonneg (m : Microfacet ℝ) (w : V3 ℝ) : 0 ≤ m.lambda w := by
  simp only [Microfacet.lambda]; real_ops
  simp only [Bool.false_eq_true, if_false]
  generalize Real.sqrt (cos2Phi w * (m.ax * m.ax) + sin2Phi w * (m.ay * m.ay)) * |tanTheta w| = a
  have : 1 ≤ Real.sqrt (1 + a * a) := by
    rw [show (1 : ℝ) = Real.sqrt 1 by simp]; apply Real.sqrt_le_sqrt; simp; nlinarith [mul_self_nonneg a]
  push_cast
  linarith

theorem microfacet_g_symm (m : Microfacet ℝ) (a b : V3 ℝ) : m.g a b = m.g b a := by
  simp only [Microfacet.g]; real_ops; ring_nf

/-- C58: the masking-shadowing term is a fraction. -/
theorem c58_g_range (m : Microfacet ℝ) (a b : V3 ℝ) : 0 < m.g a b ∧ m.g a b ≤ 1 := by
  simp only [Microfacet.g]; real_ops
  have h1 := microfacet_lambda_nonneg m a
  have h2 := microfacet_lambda_nonneg m b
  refine ⟨by positivity, ?_⟩
  rw [div_le_one (by positivity)]; linarith

theorem add_comm_v (a b : V3 ℝ) : a.add b = b.add a := by
  ext <;> simp only [V3.add] <;> real_ops <;> ring

/-- The half vector makes equal inner products with two unit vectors. -/
theorem half_inner {a b : V3 ℝ} (ha : sq a = 1) (hb : sq b = 1) : (a.add b).normalize.dot b = (a.add b).normalize.dot a := by
  simp only [V3.normalize, V3.dot, V3.add]; real_ops
  generalize (V3.length (α := ℝ) _) = l
  simp only [Spec.sq] at ha hb
  rw [div_mul_eq_mul_div, div_mul_eq_mul_div, div_mul_eq_mul_div, div_mul_eq_mul_div, div_mul_eq_mul_div, div_mul_eq_mul_div,
    ← add_div, ← add_div, ← add_div, ← add_div]
  congr 1; linear_combination hb - ha

/-- C58: microfacet reflection is reciprocal (for unit directions) and non-negative, for every roughness and every
Fresnel model with non-negative values. -/
theorem c58_microfacet (r : Spectrum ℝ) (hr : NonNeg r) (m : Microfacet ℝ) (hx : 0 < m.ax) (hy : 0 < m.ay)
    (fr : Fresnel ℝ) (hf : ∀ c, NonNeg (fr c)) (wo wi : V3 ℝ) (ho : sq wo = 1) (hi : sq wi = 1) :
    (microfacetReflection r m fr).f wo wi = (microfacetReflection r m fr).f wi wo ∧
    NonNeg ((microfacetReflection r m fr).f wo wi) := by
  constructor
  · simp only [microfacetReflection, MicrofacetReflection.f]
    rw [add_comm_v wi wo, microfacet_g_symm m wi wo, half_inner ho hi]
    real_ops
    rw [Bool.or_comm]
    congr 1
    rw [mul_assoc 4, mul_comm (absCosTheta wo), ← mul_assoc]
  · simp only [microfacetReflection, MicrofacetReflection.f]
    have hz : NonNeg (Spectrum.zero : Spectrum ℝ) := by simp [NonNeg, Spectrum.zero, r_lit]
    split_ifs
    · exact hz
    · exact hz
    · have h1 := microfacet_d_nonneg hx hy (wo.add wi).normalize
      have h2 := (c58_g_range m wo wi).1
      obtain ⟨f1, f2, f3⟩ := hf ((wo.add wi).normalize.dot wi)
      obtain ⟨r1, r2, r3⟩ := hr
      simp only [NonNeg, Spectrum.sdiv, Spectrum.mul, Spectrum.smul, absCosTheta]; real_ops
      exact ⟨by positivity, by positivity, by positivity⟩

/-- The hypotheses of C58 are met by the Fresnel models of the code. -/
theorem c58_fresnel_models (ni nt : ℝ) (hi : 0 < ni) (ht : 0 < nt) (eta k : Spectrum ℝ) (c : ℝ) :
    NonNeg (fresnelDielectric ni nt c) ∧ NonNeg (fresnelConductor (Spectrum.of 1) eta k c) ∧ NonNeg ((fresnelNoOp : Fresnel ℝ) c) := by
  refine ⟨?_, ?_, ?_⟩
  · have := c55_dielectric_range c ni nt hi ht
    exact ⟨this.1, this.1, this.1⟩
  · have := c55_conductor_range c (Spectrum.of 1) eta k _ rfl
    exact ⟨this.1.1, this.2.1.1, this.2.2.1⟩
  · simp [NonNeg, fresnelNoOp, Spectrum.of, r_lit]

/-- Two unit directions for which the value is not black. -/
example : sq (⟨0, 0, 1⟩ : V3 ℝ) = 1 ∧ sq (⟨3 / 5, 0, 4 / 5⟩ : V3 ℝ) = 1 ∧ (0 : ℝ) < (⟨1 / 10, 1 / 5⟩ : Microfacet ℝ).ax := by
  norm_num [Spec.sq]

end PT
