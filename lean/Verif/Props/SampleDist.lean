import Verif.Props.Transport
import Mathlib.MeasureTheory.Function.JacobianOneDim
import Mathlib.MeasureTheory.Measure.Prod
import Mathlib.Analysis.SpecialFunctions.PolarCoord

/-!
# How samples are distributed: diffuse directions (C81)
-/

namespace PT
open MeasureTheory Set
open scoped ENNReal

namespace Spec
/-- The integral over the directions above the surface (`z > 0`), in spherical coordinates. -/
noncomputable def overHemisphere (H : V3 ℝ → ℝ≥0∞) : ℝ≥0∞ :=
  ∫⁻ θ in Ioo 0 (Real.pi / 2), ∫⁻ φ in Ioo (-Real.pi) Real.pi,
    ENNReal.ofReal (Real.sin θ) * H ⟨Real.sin θ * Real.cos φ, Real.sin θ * Real.sin φ, Real.cos θ⟩
/-- A measurable function of points of the plane. -/
def MeasurableOn2 (F : V2 ℝ → ℝ≥0∞) : Prop := Measurable fun p : ℝ × ℝ => F ⟨p.1, p.2⟩
/-- A measurable function of vectors. -/
def MeasurableOn3 (G : V3 ℝ → ℝ≥0∞) : Prop := Measurable fun p : ℝ × ℝ × ℝ => G ⟨p.1, p.2.1, p.2.2⟩
end Spec
open Spec

/-! ## One-dimensional substitutions -/

theorem lint_affine {a : ℝ} (ha : a ≠ 0) (b : ℝ) {s : Set ℝ} (hs : MeasurableSet s) (g : ℝ → ℝ≥0∞) :
    ∫⁻ x in (fun t => a * t + b) '' s, g x = ENNReal.ofReal |a| * ∫⁻ t in s, g (a * t + b) := by
  rw [lintegral_image_eq_lintegral_abs_deriv_mul hs (f' := fun _ => a), lintegral_const_mul' _ _ ENNReal.ofReal_ne_top]
  · intro x _
    simpa using (((hasDerivAt_id x).const_mul a).add_const b).hasDerivWithinAt
  · intro x _ y _ h
    have : a * x = a * y := by simpa using h
    exact mul_left_cancel₀ ha this

theorem lint_affine_of {a : ℝ} (ha : a ≠ 0) (b : ℝ) {s t : Set ℝ} (hs : MeasurableSet s) (ht : ∀ x, a * x + b ∈ t ↔ x ∈ s) (g : ℝ → ℝ≥0∞) :
    ∫⁻ x in t, g x = ENNReal.ofReal |a| * ∫⁻ x in s, g (a * x + b) := by
  rw [← lint_affine ha b hs]
  congr 2
  ext y
  constructor
  · intro hy
    refine ⟨(y - b) / a, (ht _).1 ?_, ?_⟩
    · rwa [mul_div_cancel₀ _ ha, sub_add_cancel]
    · simp only []
      rw [mul_div_cancel₀ _ ha, sub_add_cancel]
  · rintro ⟨x, hx, rfl⟩
    exact (ht x).2 hx

theorem mean1_centred (H : ℝ → ℝ≥0∞) : mean1 (fun x => H (2 * x - 1)) = ENNReal.ofReal (1 / 2) * ∫⁻ a in Ioo (-1 : ℝ) 1, H a := by
  rw [lint_affine_of (a := 2) (by norm_num) (-1) (s := Ioo 0 1) measurableSet_Ioo, mean1, ← mul_assoc, ← ENNReal.ofReal_mul (by norm_num),
    setLIntegral_congr (Ioo_ae_eq_Ico (a := (0 : ℝ)) (b := 1)).symm]
  · norm_num [sub_eq_add_neg]
  · intro x
    simp only [mem_Ioo]
    constructor <;> rintro ⟨h1, h2⟩ <;> constructor <;> linarith

theorem mean2_centred (H : ℝ → ℝ → ℝ≥0∞) :
    mean2 (fun u => H (2 * u.x - 1) (2 * u.y - 1)) = ENNReal.ofReal (1 / 4) * ∫⁻ a in Ioo (-1 : ℝ) 1, ∫⁻ b in Ioo (-1 : ℝ) 1, H a b := by
  unfold mean2
  simp only [mean1_centred]
  rw [mean1_centred (fun a => ENNReal.ofReal (1 / 2) * ∫⁻ b in Ioo (-1 : ℝ) 1, H a b), lintegral_const_mul' _ _ ENNReal.ofReal_ne_top,
    ← mul_assoc, ← ENNReal.ofReal_mul (by norm_num)]
  norm_num

/-! ## The concentric map -/

/-- The image of the centred square point under the concentric map, in polar form. -/
noncomputable def polarAt (F : V2 ℝ → ℝ≥0∞) (r θ : ℝ) : ℝ≥0∞ := F ⟨r * Real.cos θ, r * Real.sin θ⟩

theorem concentric_eq (F : V2 ℝ → ℝ≥0∞) (u : V2 ℝ) :
    F (concentricSampleDisk u) =
      (if |2 * u.y - 1| < |2 * u.x - 1| then polarAt F (2 * u.x - 1) (Real.pi / 4 * ((2 * u.y - 1) / (2 * u.x - 1))) else 0) +
      (if |2 * u.x - 1| ≤ |2 * u.y - 1| then polarAt F (2 * u.y - 1) (Real.pi / 2 - Real.pi / 4 * ((2 * u.x - 1) / (2 * u.y - 1))) else 0) := by
  unfold concentricSampleDisk polarAt
  real_ops
  have e1 : u.x * 2 + -1 = 2 * u.x - 1 := by ring
  have e2 : u.y * 2 + -1 = 2 * u.y - 1 := by ring
  simp only [e1, e2]
  generalize 2 * u.x - 1 = x
  generalize 2 * u.y - 1 = y
  by_cases h0 : x = 0 ∧ y = 0
  · obtain ⟨rfl, rfl⟩ := h0
    simp
  · by_cases h : |y| < |x|
    · have h' : ¬ |x| ≤ |y| := not_le.2 h
      simp only [h, h', if_true, if_false, add_zero]
      simp [mul_comm, h0]
    · have h' : |x| ≤ |y| := not_lt.1 h
      simp only [h, h', if_true, if_false, zero_add]
      simp [mul_comm, h0]

/-- The triangle wedge left and right. -/
theorem wedge_x (G : ℝ → ℝ≥0∞) {x : ℝ} (h1 : x ∈ Ioo (-1 : ℝ) 1) :
    ∫⁻ y in Ioo (-1 : ℝ) 1, (if |y| < |x| then G (Real.pi / 4 * (y / x)) else 0) =
      ENNReal.ofReal (4 / Real.pi * |x|) * ∫⁻ θ in Ioo (-(Real.pi / 4)) (Real.pi / 4), G θ := by
  have hpi := Real.pi_pos
  by_cases hx : x = 0
  · subst hx
    have : ∀ y : ℝ, ¬ |y| < 0 := fun y => not_lt.2 (abs_nonneg y)
    simp [this]
  have hx0 : 0 < |x| := abs_pos.2 hx
  have hx1 : |x| < 1 := abs_lt.2 h1
  have e : ∀ y, (if |y| < |x| then G (Real.pi / 4 * (y / x)) else 0) = (Ioo (-|x|) |x|).indicator (fun y => G (Real.pi / 4 * (y / x))) y := by
    intro y
    simp only [indicator, mem_Ioo, abs_lt]
  simp only [e]
  rw [setLIntegral_indicator measurableSet_Ioo, inter_eq_left.2 (Ioo_subset_Ioo (by linarith) hx1.le)]
  rw [lint_affine_of (a := 4 / Real.pi * x) (mul_ne_zero (by positivity) hx) 0 (s := Ioo (-(Real.pi / 4)) (Real.pi / 4)) measurableSet_Ioo,
    abs_mul, abs_of_pos (by positivity : 0 < 4 / Real.pi)]
  · congr 1
    refine lintegral_congr fun θ => ?_
    congr 1
    field_simp
    ring
  · intro θ
    have hc : 0 < 4 / Real.pi * |x| := by positivity
    have e2 : |4 / Real.pi * x * θ| = 4 / Real.pi * |x| * |θ| := by rw [abs_mul, abs_mul, abs_of_pos (by positivity : 0 < 4 / Real.pi)]
    have e3 : |x| = 4 / Real.pi * |x| * (Real.pi / 4) := by field_simp
    rw [add_zero, mem_Ioo, mem_Ioo, ← abs_lt, ← abs_lt, e2]
    conv_lhs => rhs; rw [e3]
    exact mul_lt_mul_iff_right₀ hc

/-- The wedge above and below. -/
theorem wedge_y (G : ℝ → ℝ≥0∞) {y : ℝ} (h1 : y ∈ Ioo (-1 : ℝ) 1) :
    ∫⁻ x in Ioo (-1 : ℝ) 1, (if |x| ≤ |y| then G (Real.pi / 2 - Real.pi / 4 * (x / y)) else 0) =
      ENNReal.ofReal (4 / Real.pi * |y|) * ∫⁻ θ in Icc (Real.pi / 4) (3 * Real.pi / 4), G θ := by
  have hpi := Real.pi_pos
  by_cases hy : y = 0
  · subst hy
    have e : ∀ x : ℝ, (if |x| ≤ |(0 : ℝ)| then G (Real.pi / 2 - Real.pi / 4 * (x / 0)) else 0) =
        ({0} : Set ℝ).indicator (fun x => G (Real.pi / 2 - Real.pi / 4 * (x / 0))) x := by
      intro x
      simp [indicator, abs_nonpos_iff]
    simp only [e]
    rw [setLIntegral_indicator (measurableSet_singleton _)]
    simp only [abs_zero, mul_zero, ENNReal.ofReal_zero, zero_mul]
    exact setLIntegral_measure_zero _ _ (measure_mono_null inter_subset_left (by simp))
  have hy0 : 0 < |y| := abs_pos.2 hy
  have hy1 : |y| < 1 := abs_lt.2 h1
  have e : ∀ x, (if |x| ≤ |y| then G (Real.pi / 2 - Real.pi / 4 * (x / y)) else 0) =
      (Icc (-|y|) |y|).indicator (fun x => G (Real.pi / 2 - Real.pi / 4 * (x / y))) x := by
    intro x
    simp only [indicator, mem_Icc, abs_le]
  simp only [e]
  rw [setLIntegral_indicator measurableSet_Icc, inter_eq_left.2 (Icc_subset_Ioo (by linarith) hy1)]
  rw [lint_affine_of (a := -(4 / Real.pi * y)) (neg_ne_zero.2 (mul_ne_zero (by positivity) hy)) (2 * y) (s := Icc (Real.pi / 4) (3 * Real.pi / 4))
    measurableSet_Icc, abs_neg, abs_mul, abs_of_pos (by positivity : 0 < 4 / Real.pi)]
  · congr 1
    refine lintegral_congr fun θ => ?_
    congr 1
    field_simp
    ring
  · intro θ
    have hc : 0 < 4 / Real.pi * |y| := by positivity
    have e1 : -(4 / Real.pi * y) * θ + 2 * y = 4 / Real.pi * y * (Real.pi / 2 - θ) := by field_simp; ring
    have e2 : |4 / Real.pi * y * (Real.pi / 2 - θ)| = 4 / Real.pi * |y| * |Real.pi / 2 - θ| := by
      rw [abs_mul, abs_mul, abs_of_pos (by positivity : 0 < 4 / Real.pi)]
    have e3 : |y| = 4 / Real.pi * |y| * (Real.pi / 4) := by field_simp
    rw [e1, mem_Icc, mem_Icc, ← abs_le, e2]
    conv_lhs => rhs; rw [e3]
    rw [mul_le_mul_iff_right₀ hc, abs_le]
    constructor <;> rintro ⟨a, b⟩ <;> constructor <;> linarith

theorem polarAt_neg (F : V2 ℝ → ℝ≥0∞) (r θ : ℝ) : polarAt F (-r) θ = polarAt F r (θ + Real.pi) := by
  simp [polarAt, Real.cos_add_pi, Real.sin_add_pi]

theorem polarAt_periodic (F : V2 ℝ → ℝ≥0∞) (r θ : ℝ) : polarAt F r (θ + 2 * Real.pi) = polarAt F r θ := by
  simp [polarAt]

/-- Four quarter turns make the circle. -/
theorem circle (F : V2 ℝ → ℝ≥0∞) (r : ℝ) :
    (∫⁻ θ in Ioc (-(Real.pi / 4)) (3 * Real.pi / 4), polarAt F r θ) + (∫⁻ θ in Ioc (-(Real.pi / 4)) (3 * Real.pi / 4), polarAt F (-r) θ) =
      ∫⁻ θ in Ioo (-Real.pi) Real.pi, polarAt F r θ := by
  have hpi := Real.pi_pos
  have h2 : ∫⁻ θ in Ioc (-(Real.pi / 4)) (3 * Real.pi / 4), polarAt F (-r) θ = ∫⁻ θ in Ioc (3 * Real.pi / 4) (7 * Real.pi / 4), polarAt F r θ := by
    symm
    rw [lint_affine_of (a := 1) one_ne_zero Real.pi (s := Ioc (-(Real.pi / 4)) (3 * Real.pi / 4)) measurableSet_Ioc]
    · simp [polarAt_neg]
    · intro x; simp only [mem_Ioc]; constructor <;> rintro ⟨a, b⟩ <;> constructor <;> linarith
  have h3 : ∫⁻ θ in Ioc Real.pi (7 * Real.pi / 4), polarAt F r θ = ∫⁻ θ in Ioc (-Real.pi) (-(Real.pi / 4)), polarAt F r θ := by
    rw [lint_affine_of (a := 1) one_ne_zero (2 * Real.pi) (s := Ioc (-Real.pi) (-(Real.pi / 4))) measurableSet_Ioc]
    · simp [polarAt_periodic]
    · intro x; simp only [mem_Ioc]; constructor <;> rintro ⟨a, b⟩ <;> constructor <;> linarith
  have join : ∀ a b c : ℝ, a ≤ b → b ≤ c → (∫⁻ θ in Ioc a b, polarAt F r θ) + (∫⁻ θ in Ioc b c, polarAt F r θ) = ∫⁻ θ in Ioc a c, polarAt F r θ := by
    intro a b c hab hbc
    rw [← lintegral_union measurableSet_Ioc (Ioc_disjoint_Ioc_of_le le_rfl), Ioc_union_Ioc_eq_Ioc hab hbc]
  rw [h2, join _ _ _ (by linarith) (by linarith), ← join (-(Real.pi / 4)) Real.pi (7 * Real.pi / 4) (by linarith) (by linarith), h3, add_comm,
    join _ _ _ (by linarith) (by linarith), setLIntegral_congr Ioo_ae_eq_Ioc]

/-- The concentric map sends uniform numbers to uniform points of the disk: polar form. -/
theorem disk_polar {F : V2 ℝ → ℝ≥0∞} (hF : MeasurableOn2 F) :
    mean2 (fun u => F (concentricSampleDisk u)) =
      ENNReal.ofReal (1 / Real.pi) * ∫⁻ r in Ioo (0 : ℝ) 1, ENNReal.ofReal r * ∫⁻ θ in Ioo (-Real.pi) Real.pi, polarAt F r θ := by
  have hpi := Real.pi_pos
  have hm : Measurable fun q : ℝ × ℝ => polarAt F q.1 q.2 := by
    have : (fun q : ℝ × ℝ => polarAt F q.1 q.2) = (fun p : ℝ × ℝ => F ⟨p.1, p.2⟩) ∘ fun q => (q.1 * Real.cos q.2, q.1 * Real.sin q.2) := rfl
    rw [this]
    exact hF.comp (by fun_prop)
  simp only [concentric_eq F]
  rw [mean2_centred (fun x y => (if |y| < |x| then polarAt F x (Real.pi / 4 * (y / x)) else 0) +
      (if |x| ≤ |y| then polarAt F y (Real.pi / 2 - Real.pi / 4 * (x / y)) else 0))]
  have m1 : Measurable fun q : ℝ × ℝ => if |q.2| < |q.1| then polarAt F q.1 (Real.pi / 4 * (q.2 / q.1)) else 0 := by
    refine Measurable.ite (measurableSet_lt (by fun_prop) (by fun_prop)) ?_ measurable_const
    exact hm.comp (f := fun q : ℝ × ℝ => (q.1, Real.pi / 4 * (q.2 / q.1))) (by fun_prop)
  have m2 : Measurable fun q : ℝ × ℝ => if |q.1| ≤ |q.2| then polarAt F q.2 (Real.pi / 2 - Real.pi / 4 * (q.1 / q.2)) else 0 := by
    refine Measurable.ite (measurableSet_le (by fun_prop) (by fun_prop)) ?_ measurable_const
    exact hm.comp (f := fun q : ℝ × ℝ => (q.2, Real.pi / 2 - Real.pi / 4 * (q.1 / q.2))) (by fun_prop)
  have s1 : ∀ x : ℝ, ∫⁻ y in Ioo (-1 : ℝ) 1, ((if |y| < |x| then polarAt F x (Real.pi / 4 * (y / x)) else 0) +
      (if |x| ≤ |y| then polarAt F y (Real.pi / 2 - Real.pi / 4 * (x / y)) else 0)) =
      (∫⁻ y in Ioo (-1 : ℝ) 1, if |y| < |x| then polarAt F x (Real.pi / 4 * (y / x)) else 0) +
      ∫⁻ y in Ioo (-1 : ℝ) 1, if |x| ≤ |y| then polarAt F y (Real.pi / 2 - Real.pi / 4 * (x / y)) else 0 := by
    intro x
    exact lintegral_add_left (m1.comp measurable_prodMk_left) _
  simp only [s1]
  rw [lintegral_add_left m1.lintegral_prod_right']
  rw [lintegral_lintegral_swap (f := fun x y => if |x| ≤ |y| then polarAt F y (Real.pi / 2 - Real.pi / 4 * (x / y)) else 0) m2.aemeasurable]
  rw [setLIntegral_congr_fun (f := fun x => ∫⁻ y in Ioo (-1 : ℝ) 1, if |y| < |x| then polarAt F x (Real.pi / 4 * (y / x)) else 0)
    measurableSet_Ioo (fun x hx => wedge_x (polarAt F x) hx)]
  rw [setLIntegral_congr_fun (f := fun y => ∫⁻ x in Ioo (-1 : ℝ) 1, if |x| ≤ |y| then polarAt F y (Real.pi / 2 - Real.pi / 4 * (x / y)) else 0)
    measurableSet_Ioo (fun y hy => wedge_y (polarAt F y) hy)]
  have mi : ∀ s : Set ℝ, Measurable fun r : ℝ => ∫⁻ θ in s, polarAt F r θ := fun s => hm.lintegral_prod_right'
  rw [← lintegral_add_left (by have := mi (Ioo (-(Real.pi / 4)) (Real.pi / 4)); fun_prop)]
  have s2 : ∀ r : ℝ, ENNReal.ofReal (4 / Real.pi * |r|) * (∫⁻ θ in Ioo (-(Real.pi / 4)) (Real.pi / 4), polarAt F r θ) +
      ENNReal.ofReal (4 / Real.pi * |r|) * (∫⁻ θ in Icc (Real.pi / 4) (3 * Real.pi / 4), polarAt F r θ) =
      ENNReal.ofReal (4 / Real.pi * |r|) * ∫⁻ θ in Ioc (-(Real.pi / 4)) (3 * Real.pi / 4), polarAt F r θ := by
    intro r
    rw [← mul_add, setLIntegral_congr (Ioo_ae_eq_Ioc (a := -(Real.pi / 4)) (b := Real.pi / 4)), setLIntegral_congr (Ioc_ae_eq_Icc (a := Real.pi / 4)).symm,
      ← lintegral_union measurableSet_Ioc (Ioc_disjoint_Ioc_of_le le_rfl), Ioc_union_Ioc_eq_Ioc (by linarith) (by linarith)]
  simp only [s2]
  set K : ℝ → ℝ≥0∞ := fun r => ∫⁻ θ in Ioc (-(Real.pi / 4)) (3 * Real.pi / 4), polarAt F r θ with hK
  have hKm : Measurable K := mi _
  have s3 : ∫⁻ r in Ioo (-1 : ℝ) 1, ENNReal.ofReal (4 / Real.pi * |r|) * K r =
      (∫⁻ r in Ioo (0 : ℝ) 1, ENNReal.ofReal (4 / Real.pi * r) * K r) + ∫⁻ r in Ioo (0 : ℝ) 1, ENNReal.ofReal (4 / Real.pi * r) * K (-r) := by
    rw [← Ioc_union_Ioo_eq_Ioo (a := (-1 : ℝ)) (b := 0) (c := 1) (by norm_num) (by norm_num),
      lintegral_union measurableSet_Ioo (by
        rw [Set.disjoint_left]; rintro x ⟨_, h⟩ ⟨h', _⟩; linarith), add_comm]
    congr 1
    · refine setLIntegral_congr_fun measurableSet_Ioo fun r hr => ?_
      simp only [abs_of_pos hr.1]
    · rw [setLIntegral_congr (Ioo_ae_eq_Ioc (a := (-1 : ℝ)) (b := 0)).symm,
        lint_affine_of (a := -1) (by norm_num) 0 (s := Ioo (0 : ℝ) 1) measurableSet_Ioo]
      · simp only [abs_neg, abs_one, ENNReal.ofReal_one, one_mul, neg_mul, add_zero]
        refine setLIntegral_congr_fun measurableSet_Ioo fun r hr => ?_
        simp only [abs_of_pos hr.1]
      · intro x; simp only [mem_Ioo]; constructor <;> rintro ⟨a, b⟩ <;> constructor <;> linarith
  rw [s3, ← lintegral_add_left (by fun_prop)]
  simp only [← mul_add, hK, circle]
  rw [← lintegral_const_mul' _ _ ENNReal.ofReal_ne_top, ← lintegral_const_mul' _ _ ENNReal.ofReal_ne_top]
  refine setLIntegral_congr_fun measurableSet_Ioo fun r hr => ?_
  simp only [← mul_assoc]
  rw [← ENNReal.ofReal_mul (by norm_num), ← ENNReal.ofReal_mul (by positivity)]
  congr 2
  ring

/-- C81: the concentric map sends uniform numbers to uniform points of the unit disk. -/
theorem c81_disk {F : V2 ℝ → ℝ≥0∞} (hF : MeasurableOn2 F) :
    mean2 (fun u => F (concentricSampleDisk u)) =
      ENNReal.ofReal (1 / Real.pi) * ∫⁻ p in {p : ℝ × ℝ | p.1 ^ 2 + p.2 ^ 2 < 1}, F ⟨p.1, p.2⟩ := by
  have hpi := Real.pi_pos
  have hD : MeasurableSet {p : ℝ × ℝ | p.1 ^ 2 + p.2 ^ 2 < 1} := measurableSet_lt (by fun_prop) (by fun_prop)
  rw [disk_polar hF]
  congr 1
  rw [← lintegral_indicator hD, ← lintegral_comp_polarCoord_symm, polarCoord_target]
  have hm : Measurable fun q : ℝ × ℝ => polarAt F q.1 q.2 := by
    have : (fun q : ℝ × ℝ => polarAt F q.1 q.2) = (fun p : ℝ × ℝ => F ⟨p.1, p.2⟩) ∘ fun q => (q.1 * Real.cos q.2, q.1 * Real.sin q.2) := rfl
    rw [this]
    exact hF.comp (by fun_prop)
  rw [Measure.volume_eq_prod, ← Measure.prod_restrict]
  have hmm : Measurable fun p : ℝ × ℝ => ENNReal.ofReal p.1 • {p : ℝ × ℝ | p.1 ^ 2 + p.2 ^ 2 < 1}.indicator (fun a => F ⟨a.1, a.2⟩) (polarCoord.symm p) := by
    refine (by fun_prop : Measurable fun p : ℝ × ℝ => ENNReal.ofReal p.1).mul ?_
    exact (Measurable.indicator hF hD).comp continuous_polarCoord_symm.measurable
  rw [lintegral_prod _ hmm.aemeasurable]
  have e : ∀ r : ℝ, r ∈ Ioi (0 : ℝ) → ∫⁻ θ in Ioo (-Real.pi) Real.pi, ENNReal.ofReal (r, θ).1 •
      {p : ℝ × ℝ | p.1 ^ 2 + p.2 ^ 2 < 1}.indicator (fun a => F ⟨a.1, a.2⟩) (polarCoord.symm (r, θ)) =
      (Ioo (0 : ℝ) 1).indicator (fun r => ENNReal.ofReal r * ∫⁻ θ in Ioo (-Real.pi) Real.pi, polarAt F r θ) r := by
    intro r hr
    have hr0 : 0 < r := hr
    have hin : ∀ θ, (r * Real.cos θ) ^ 2 + (r * Real.sin θ) ^ 2 = r ^ 2 := by
      intro θ; nlinarith [Real.sin_sq_add_cos_sq θ]
    have hsq : r ^ 2 < 1 ↔ r < 1 := sq_lt_one_iff₀ hr0.le
    simp only [polarCoord_symm_apply, indicator, mem_setOf_eq, hin, smul_eq_mul, mem_Ioo, hr0, true_and, hsq]
    by_cases h : r < 1
    · simp only [h, if_true]
      rw [lintegral_const_mul' _ _ ENNReal.ofReal_ne_top]
      rfl
    · simp only [h, if_false, mul_zero, lintegral_zero]
  rw [setLIntegral_congr_fun measurableSet_Ioi e, setLIntegral_indicator measurableSet_Ioo, inter_eq_left.2 Ioo_subset_Ioi_self]

/-- C81: the directions of the diffuse sampler have the density `cos θ / π` over the hemisphere: the mean of any function of the direction is its
integral over the hemisphere against that density. -/
theorem c81_cosine_hemisphere {G : V3 ℝ → ℝ≥0∞} (hG : MeasurableOn3 G) :
    mean2 (fun u => G (cosineSampleHemisphere u)) = overHemisphere (fun w => ENNReal.ofReal (w.z / Real.pi) * G w) := by
  have hpi := Real.pi_pos
  have hF : MeasurableOn2 (fun d => G ⟨d.x, d.y, Real.sqrt (max (1 - d.x * d.x - d.y * d.y) 0)⟩) :=
    hG.comp (f := fun p : ℝ × ℝ => (p.1, p.2, Real.sqrt (max (1 - p.1 * p.1 - p.2 * p.2) 0))) (by fun_prop)
  have e : ∀ u, G (cosineSampleHemisphere u) = (fun d : V2 ℝ => G ⟨d.x, d.y, Real.sqrt (max (1 - d.x * d.x - d.y * d.y) 0)⟩) (concentricSampleDisk u) := by
    intro u
    simp only [cosineSampleHemisphere]
    real_ops
  simp only [e]
  rw [disk_polar hF]
  have himg : Real.sin '' Ioo 0 (Real.pi / 2) = Ioo 0 1 := by
    ext y
    constructor
    · rintro ⟨x, hx, rfl⟩
      refine ⟨Real.sin_pos_of_pos_of_lt_pi hx.1 (by linarith [hx.2]), ?_⟩
      have := Real.sin_lt_sin_of_lt_of_le_pi_div_two (x := x) (y := Real.pi / 2) (by linarith [hx.1]) le_rfl hx.2
      rwa [Real.sin_pi_div_two] at this
    · rintro ⟨h0, h1⟩
      refine ⟨Real.arcsin y, ⟨Real.arcsin_pos.2 h0, ?_⟩, Real.sin_arcsin (by linarith) h1.le⟩
      exact Real.arcsin_lt_pi_div_two.2 h1
  rw [← himg, lintegral_image_eq_lintegral_abs_deriv_mul measurableSet_Ioo (f' := Real.cos) (fun x _ => (Real.hasDerivAt_sin x).hasDerivWithinAt)
    (Real.injOn_sin.mono (fun x (hx : x ∈ Ioo 0 (Real.pi / 2)) => mem_Icc.2 ⟨by linarith [hx.1], by linarith [hx.2]⟩)), ← lintegral_const_mul' _ _ ENNReal.ofReal_ne_top]
  unfold overHemisphere
  refine setLIntegral_congr_fun measurableSet_Ioo fun θ hθ => ?_
  have hc : 0 < Real.cos θ := Real.cos_pos_of_mem_Ioo ⟨by linarith [hθ.1], hθ.2⟩
  have hs : 0 < Real.sin θ := Real.sin_pos_of_pos_of_lt_pi hθ.1 (by linarith [hθ.2])
  have hz : ∀ φ, Real.sqrt (max (1 - Real.sin θ * Real.cos φ * (Real.sin θ * Real.cos φ) - Real.sin θ * Real.sin φ * (Real.sin θ * Real.sin φ)) 0) = Real.cos θ := by
    intro φ
    have : 1 - Real.sin θ * Real.cos φ * (Real.sin θ * Real.cos φ) - Real.sin θ * Real.sin φ * (Real.sin θ * Real.sin φ) = Real.cos θ ^ 2 := by
      nlinarith [Real.sin_sq_add_cos_sq θ, Real.sin_sq_add_cos_sq φ]
    rw [this, max_eq_left (sq_nonneg _), Real.sqrt_sq hc.le]
  simp only [polarAt, hz]
  rw [abs_of_pos hc, ← lintegral_const_mul' _ _ ENNReal.ofReal_ne_top, ← lintegral_const_mul' _ _ ENNReal.ofReal_ne_top,
    ← lintegral_const_mul' _ _ ENNReal.ofReal_ne_top]
  refine lintegral_congr fun φ => ?_
  rw [ENNReal.ofReal_div_of_pos hpi, ENNReal.ofReal_div_of_pos hpi, ENNReal.ofReal_one, one_div, div_eq_mul_inv]
  ring

/-! ## Diffuse reflection -/

namespace Spec
/-- The direction with coordinates `w` in the frame `s`, `t`, `n`. -/
def inFrame (s t n w : V3 ℝ) : V3 ℝ := ⟨s.x * w.x + t.x * w.y + n.x * w.z, s.y * w.x + t.y * w.y + n.y * w.z, s.z * w.x + t.z * w.y + n.z * w.z⟩
/-- The normal turned to the side of `wo`. -/
noncomputable def turnedTo (wo n : V3 ℝ) : V3 ℝ := if Spec.inner wo n < 0 then ⟨-n.x, -n.y, -n.z⟩ else n
end Spec

theorem single_sampleF {b : BSDF ℝ} {x : BxDF ℝ} (hb : b.bxdfs = [x]) (wo : V3 ℝ) {u : V2 ℝ} (hu : Canonical u.x) :
    b.sampleF wo u = if (b.worldToLocal wo).z = 0 then some BSDF.noSample else
      if (x.sampleF (b.worldToLocal wo) u).2.2 = 0 then some BSDF.noSample else
        some (b.localToWorld (x.sampleF (b.worldToLocal wo) u).1, (x.sampleF (b.worldToLocal wo) u).2.1, (x.sampleF (b.worldToLocal wo) u).2.2, x.flag) := by
  have hk : toUsize (Scalar.floor (u.x *. ofInt ((1 : ℕ) : ℤ))) = 0 := by
    have hf : ⌊u.x⌋ = 0 := Int.floor_eq_zero_iff.2 hu
    simp only [toUsize]; real_ops
    simp [hf, truncInt, satInt]
  unfold BSDF.sampleF
  simp only [hb, List.length_singleton, hk]
  have hu' : (⟨u.x *. ofInt ((1 : ℕ) : ℤ) -. ofInt ((0 : ℕ) : ℤ), u.y⟩ : V2 ℝ) = u := by
    real_ops; simp
  simp only [hu']
  real_ops
  simp

theorem cosine_z {u : V2 ℝ} : 0 ≤ (cosineSampleHemisphere u).z := by
  unfold cosineSampleHemisphere
  real_ops
  exact Real.sqrt_nonneg _

/-- C81: a diffuse surface of reflectance `ρ` hands on, on average, `ρ/π` times the integral over the hemisphere (on the side of the viewer) of
whatever comes in, times the cosine. -/
theorem c81_diffuse [HasInf ℝ] (kd : TextureOf ℝ (Spectrum ℝ)) (i : Interaction ℝ) (hf : Frame (BSDF.new i)) (c : Chan) {wo : V3 ℝ}
    (hwo : Spec.inner wo i.sn ≠ 0) {K : V3 ℝ → ℝ≥0∞} (hK : MeasurableOn3 K) :
    mean2 (fun u => match (lambertianMaterial kd i).sampleF wo u with
      | none => 0
      | some (wi, f, pdf, _) => if pdf = 0 then 0 else ENNReal.ofReal (c.of f * |Spec.inner wi i.sn| / pdf) * K wi) =
    overHemisphere (fun w => ENNReal.ofReal (c.of (clampedTex kd i) / Real.pi * w.z) *
      K (inFrame (BSDF.new i).s (BSDF.new i).t (turnedTo wo i.sn) w)) := by
  have hpi := Real.pi_pos
  by_cases hbl : (clampedTex kd i).isBlack = true
  · have h0 : c.of (clampedTex kd i) = 0 := by
      unfold Spectrum.isBlack at hbl
      real_ops at hbl
      cases c <;> simp only [Chan.of] <;> simp_all
    have hm : lambertianMaterial kd i = BSDF.new i := by simp only [lambertianMaterial, hbl, if_true]
    have hs : ∀ u, (BSDF.new i).sampleF wo u = some BSDF.noSample := fun u => rfl
    simp only [hm, hs, BSDF.noSample, h0, r_lit, Rat.cast_zero, if_true, zero_div, zero_mul, ENNReal.ofReal_zero, mean2_const]
    simp [overHemisphere]
  set r := clampedTex kd i with hr
  set b := lambertianMaterial kd i with hbd
  have hm : b = (BSDF.new i).add (lambertianReflection r) := by
    simp only [hbd, lambertianMaterial, ← hr, hbl, if_false]
    rfl
  have hbx : b.bxdfs = [lambertianReflection r] := by rw [hm]; rfl
  have hz : (b.worldToLocal wo).z = Spec.inner wo i.sn := by
    rw [hm]; simp only [BSDF.worldToLocal, BSDF.add, BSDF.new, V3.dot, Spec.inner]; real_ops
  have hfb : Frame b := by rw [hm]; exact hf
  set side : V3 ℝ → V3 ℝ := fun w => if Spec.inner wo i.sn < 0 then ⟨w.x, w.y, -w.z⟩ else w with hside
  have hw : ∀ w, b.localToWorld (side w) = inFrame (BSDF.new i).s (BSDF.new i).t (turnedTo wo i.sn) w := by
    intro w
    have e : b.localToWorld = (BSDF.new i).localToWorld := by rw [hm]; rfl
    rw [e]
    simp only [hside, turnedTo, BSDF.localToWorld, inFrame, BSDF.new]
    real_ops
    split_ifs <;> ext <;> simp only [] <;> ring
  have hsz : ∀ w, |(side w).z| = |w.z| := by
    intro w; simp only [hside]; split_ifs <;> simp
  have key : mean2 (fun u => match b.sampleF wo u with
      | none => 0
      | some (wi, f, pdf, _) => if pdf = 0 then 0 else ENNReal.ofReal (c.of f * |Spec.inner wi i.sn| / pdf) * K wi) =
      mean2 (fun u => (fun w : V3 ℝ => if w.z = 0 then 0 else ENNReal.ofReal (c.of r) *
        K (inFrame (BSDF.new i).s (BSDF.new i).t (turnedTo wo i.sn) w)) (cosineSampleHemisphere u)) := by
    refine mean2_congr fun u hux huy => ?_
    have hc0 := cosine_z (u := u)
    rw [single_sampleF hbx wo hux, hz, if_neg hwo]
    have hsmp : (lambertianReflection r).sampleF (b.worldToLocal wo) u =
        (side (cosineSampleHemisphere u), r.sdiv Real.pi, (cosineSampleHemisphere u).z / Real.pi) := by
      simp only [lambertianReflection, Lambertian.sampleF, Lambertian.f, hz]
      have e1 : (if Spec.inner wo i.sn <. lit 0 then (⟨(cosineSampleHemisphere u).x, (cosineSampleHemisphere u).y,
          (cosineSampleHemisphere u).z *. ⊖(lit 1)⟩ : V3 ℝ) else cosineSampleHemisphere u) = side (cosineSampleHemisphere u) := by
        simp only [hside]; real_ops; simp
      rw [e1]
      refine Prod.ext rfl (Prod.ext rfl ?_)
      simp only [Lambertian.pdf, sameHemisphere, absCosTheta, hz]
      real_ops
      rw [hsz, abs_of_nonneg hc0]
      rcases eq_or_lt_of_le hc0 with h0 | h0
      · rw [← h0]; simp
      · rw [if_pos]
        simp only [hside]
        split_ifs with hs
        · simp only []; nlinarith
        · have : 0 < Spec.inner wo i.sn := lt_of_le_of_ne (not_lt.1 hs) (Ne.symm hwo)
          positivity
    rw [hsmp]
    simp only []
    by_cases h0 : (cosineSampleHemisphere u).z = 0
    · simp [h0, BSDF.noSample, r_lit]
    · have hpos : 0 < (cosineSampleHemisphere u).z := lt_of_le_of_ne hc0 (Ne.symm h0)
      have hp : (cosineSampleHemisphere u).z / Real.pi ≠ 0 := (div_pos hpos hpi).ne'
      simp only [hp, h0, if_false, hw]
      congr 2
      have hin : Spec.inner (inFrame (BSDF.new i).s (BSDF.new i).t (turnedTo wo i.sn) (cosineSampleHemisphere u)) i.sn = (side (cosineSampleHemisphere u)).z := by
        rw [← hw]
        have e := congrArg V3.z (frame_inverse b hfb (side (cosineSampleHemisphere u)))
        rw [← e, hm]
        simp only [BSDF.worldToLocal, BSDF.add, BSDF.new, V3.dot, Spec.inner]; real_ops
      rw [hin, hsz, abs_of_pos hpos]
      cases c <;> simp only [Chan.of, Spectrum.sdiv] <;> real_ops <;> field_simp
  rw [key, c81_cosine_hemisphere (G := fun w : V3 ℝ => if w.z = 0 then 0 else ENNReal.ofReal (c.of r) *
        K (inFrame (BSDF.new i).s (BSDF.new i).t (turnedTo wo i.sn) w))]
  · unfold overHemisphere
    refine setLIntegral_congr_fun measurableSet_Ioo fun θ hθ => ?_
    have hc : 0 < Real.cos θ := Real.cos_pos_of_mem_Ioo ⟨by linarith [hθ.1], hθ.2⟩
    simp only [hc.ne', if_false]
    refine lintegral_congr fun φ => ?_
    congr 1
    rw [← mul_assoc, ← ENNReal.ofReal_mul (by positivity)]
    congr 2
    ring
  · unfold MeasurableOn3
    refine Measurable.ite (measurableSet_eq_fun (by fun_prop) (by fun_prop)) measurable_const (measurable_const.mul ?_)
    exact hK.comp (f := fun p : ℝ × ℝ × ℝ => ((inFrame (BSDF.new i).s (BSDF.new i).t (turnedTo wo i.sn) ⟨p.1, p.2.1, p.2.2⟩).x,
      (inFrame (BSDF.new i).s (BSDF.new i).t (turnedTo wo i.sn) ⟨p.1, p.2.1, p.2.2⟩).y,
      (inFrame (BSDF.new i).s (BSDF.new i).t (turnedTo wo i.sn) ⟨p.1, p.2.1, p.2.2⟩).z)) (by simp only [inFrame]; fun_prop)

/-- Non-vacuity of C81: a point of a floor seen from above; the light that comes in is 1 from a slanted direction range and 0 elsewhere. -/
example : Frame (BSDF.new ({ Interaction.default with n := ⟨0, 0, 1⟩, sn := ⟨0, 0, 1⟩, dpdu := ⟨2, 0, 0⟩ } : Interaction ℝ)) ∧
    Spec.inner ⟨0, 3 / 5, 4 / 5⟩ (⟨0, 0, 1⟩ : V3 ℝ) ≠ 0 ∧ MeasurableOn3 (fun w => if w.x < w.z then 1 else 0) ∧
    MeasurableOn2 (fun p => if p.x < p.y then 1 else 0) := by
  refine ⟨c60_frame _ ?_ ?_ ?_, ?_, ?_, ?_⟩
  · norm_num [Spec.sq]
  · intro h; have := congrArg V3.x h; norm_num [V3.zero, r_lit] at this
  · norm_num [Spec.inner]
  · norm_num [Spec.inner]
  · exact Measurable.ite (measurableSet_lt (by fun_prop) (by fun_prop)) measurable_const measurable_const
  · exact Measurable.ite (measurableSet_lt (by fun_prop) (by fun_prop)) measurable_const measurable_const

end PT
