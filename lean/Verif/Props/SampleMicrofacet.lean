import Verif.Props.SampleDist
import Verif.Props.Microfacet
import Mathlib.Analysis.SpecialFunctions.Trigonometric.ArctanDeriv
import Mathlib.MeasureTheory.Function.SpecialFunctions.Arctan

/-!
# The distribution of sampled microfacet normals (C59), both roughnesses, exact arithmetic
-/

namespace PT
open MeasureTheory Set Spec
open scoped ENNReal

namespace Spec
/-- The vector turned to the side of `wo`. -/
noncomputable def sided (wo w : V3 ℝ) : V3 ℝ := if wo.z < 0 then ⟨-w.x, -w.y, -w.z⟩ else w
/-- The unit vector with inclination `θ` and azimuth `φ`. -/
noncomputable def towards (θ φ : ℝ) : V3 ℝ := ⟨Real.sin θ * Real.cos φ, Real.sin θ * Real.sin φ, Real.cos θ⟩
end Spec

/-- The squared roughness seen in azimuth `φ`. -/
noncomputable def roughAt (m : Microfacet ℝ) (φ : ℝ) : ℝ :=
  1 / (Real.cos φ * Real.cos φ / (m.ax * m.ax) + Real.sin φ * Real.sin φ / (m.ay * m.ay))

theorem roughAt_pos {m : Microfacet ℝ} (hx : 0 < m.ax) (hy : 0 < m.ay) (φ : ℝ) : 0 < roughAt m φ := by
  unfold roughAt
  have h := Real.sin_sq_add_cos_sq φ
  apply one_div_pos.2
  by_cases hc : Real.cos φ = 0
  · have hs : Real.sin φ ≠ 0 := by intro h0; rw [hc, h0] at h; norm_num at h
    have := mul_self_pos.2 hs
    rw [hc]; simp only [mul_zero, zero_div, zero_add]; positivity
  · have := mul_self_pos.2 hc
    have := mul_self_nonneg (Real.sin φ)
    positivity

theorem roughAt_iso {m : Microfacet ℝ} (hx : 0 < m.ax) (h : m.ax = m.ay) (φ : ℝ) : roughAt m φ = m.ax * m.ax := by
  unfold roughAt
  rw [← h, ← add_div, show Real.cos φ * Real.cos φ + Real.sin φ * Real.sin φ = 1 by nlinarith [Real.sin_sq_add_cos_sq φ]]
  field_simp

/-! ## The inclination -/

theorem cos_of_fraction {A θ : ℝ} (hA : 0 < A) (h0 : 0 < Real.sin θ) (h1 : 0 < Real.cos θ) :
    1 / Real.sqrt (1 + A * (Real.sin θ ^ 2 / (A * Real.cos θ ^ 2 + Real.sin θ ^ 2)) /
      (1 - Real.sin θ ^ 2 / (A * Real.cos θ ^ 2 + Real.sin θ ^ 2))) = Real.cos θ := by
  have hd : 0 < A * Real.cos θ ^ 2 + Real.sin θ ^ 2 := by positivity
  have e1 : 1 - Real.sin θ ^ 2 / (A * Real.cos θ ^ 2 + Real.sin θ ^ 2) = A * Real.cos θ ^ 2 / (A * Real.cos θ ^ 2 + Real.sin θ ^ 2) := by
    rw [eq_div_iff hd.ne', sub_mul, div_mul_cancel₀ _ hd.ne']; ring
  have e2 : 1 + A * (Real.sin θ ^ 2 / (A * Real.cos θ ^ 2 + Real.sin θ ^ 2)) / (A * Real.cos θ ^ 2 / (A * Real.cos θ ^ 2 + Real.sin θ ^ 2)) =
      (1 / Real.cos θ) ^ 2 := by
    have h := Real.sin_sq_add_cos_sq θ
    have : A * (Real.sin θ ^ 2 / (A * Real.cos θ ^ 2 + Real.sin θ ^ 2)) / (A * Real.cos θ ^ 2 / (A * Real.cos θ ^ 2 + Real.sin θ ^ 2)) =
        Real.sin θ ^ 2 / Real.cos θ ^ 2 := by field_simp
    rw [this, div_pow, one_pow, eq_div_iff (by positivity), add_mul, div_mul_cancel₀ _ (by positivity)]
    linarith
  rw [e1, e2, Real.sqrt_sq (by positivity)]
  field_simp

theorem inclination {A : ℝ} (hA : 0 < A) (g : ℝ → ℝ≥0∞) :
    mean1 (fun x => g (1 / Real.sqrt (1 + A * x / (1 - x)))) =
      ∫⁻ θ in Ioo 0 (Real.pi / 2), ENNReal.ofReal (2 * A * Real.sin θ * Real.cos θ / (A * Real.cos θ ^ 2 + Real.sin θ ^ 2) ^ 2) * g (Real.cos θ) := by
  have hpi := Real.pi_pos
  have hsc : ∀ θ ∈ Ioo 0 (Real.pi / 2), 0 < Real.sin θ ∧ 0 < Real.cos θ := fun θ hθ =>
    ⟨Real.sin_pos_of_pos_of_lt_pi hθ.1 (by linarith [hθ.2]), Real.cos_pos_of_mem_Ioo ⟨by linarith [hθ.1], hθ.2⟩⟩
  set h : ℝ → ℝ := fun θ => Real.sin θ ^ 2 / (A * Real.cos θ ^ 2 + Real.sin θ ^ 2) with hh
  have himg : h '' Ioo 0 (Real.pi / 2) = Ioo 0 1 := by
    ext y
    constructor
    · rintro ⟨θ, hθ, rfl⟩
      obtain ⟨h1, h2⟩ := hsc θ hθ
      have hd : 0 < A * Real.cos θ ^ 2 + Real.sin θ ^ 2 := by positivity
      refine ⟨by simp only [hh]; positivity, ?_⟩
      simp only [hh]
      rw [div_lt_one hd]
      have : 0 < A * Real.cos θ ^ 2 := by positivity
      linarith
    · rintro ⟨h0, h1⟩
      have hy : 0 < 1 - y := by linarith
      have hq : 0 < A * y / (1 - y) := by positivity
      refine ⟨Real.arctan (Real.sqrt (A * y / (1 - y))), ⟨?_, Real.arctan_lt_pi_div_two _⟩, ?_⟩
      · have := Real.arctan_strictMono (Real.sqrt_pos.2 hq)
        rwa [Real.arctan_zero] at this
      · simp only [hh]
        rw [Real.sin_sq_arctan, Real.cos_sq_arctan, Real.sq_sqrt hq.le]
        field_simp
        ring
  have hinj : InjOn h (Ioo 0 (Real.pi / 2)) := by
    intro a ha b hb hab
    obtain ⟨a1, a2⟩ := hsc a ha
    obtain ⟨b1, b2⟩ := hsc b hb
    have := cos_of_fraction hA a1 a2
    have h2 := cos_of_fraction hA b1 b2
    simp only [hh] at hab
    rw [hab, h2] at this
    exact (Real.injOn_cos.mono (fun x (hx : x ∈ Ioo 0 (Real.pi / 2)) => mem_Icc.2 ⟨hx.1.le, by linarith [hx.2]⟩) hb ha this).symm
  have hder : ∀ θ ∈ Ioo 0 (Real.pi / 2), HasDerivWithinAt h (2 * A * Real.sin θ * Real.cos θ / (A * Real.cos θ ^ 2 + Real.sin θ ^ 2) ^ 2)
      (Ioo 0 (Real.pi / 2)) θ := by
    intro θ hθ
    obtain ⟨h1, h2⟩ := hsc θ hθ
    have hd : 0 < A * Real.cos θ ^ 2 + Real.sin θ ^ 2 := by positivity
    have d1 : HasDerivAt (fun θ => Real.sin θ ^ 2) (2 * Real.sin θ * Real.cos θ) θ := by
      simpa using (Real.hasDerivAt_sin θ).fun_pow 2
    have d2 : HasDerivAt (fun θ => A * Real.cos θ ^ 2 + Real.sin θ ^ 2) (A * (2 * Real.cos θ * -Real.sin θ) + 2 * Real.sin θ * Real.cos θ) θ := by
      have := ((Real.hasDerivAt_cos θ).fun_pow 2).const_mul A
      simpa using this.fun_add d1
    have d3 := (d1.fun_div d2 hd.ne').hasDerivWithinAt (s := Ioo 0 (Real.pi / 2))
    refine d3.congr_deriv ?_
    congr 1
    linear_combination (2 * A * Real.sin θ * Real.cos θ) * Real.sin_sq_add_cos_sq θ
  rw [mean1, setLIntegral_congr (Ioo_ae_eq_Ico (a := (0 : ℝ)) (b := 1)).symm, ← himg,
    lintegral_image_eq_lintegral_abs_deriv_mul measurableSet_Ioo hder hinj]
  refine setLIntegral_congr_fun measurableSet_Ioo fun θ hθ => ?_
  obtain ⟨h1, h2⟩ := hsc θ hθ
  have hd : 0 < A * Real.cos θ ^ 2 + Real.sin θ ^ 2 := by positivity
  simp only [hh]
  rw [abs_of_pos (by positivity), cos_of_fraction hA h1 h2]

/-! ## The azimuth -/

/-- The azimuth for the second sample value. -/
noncomputable def azimuthAt (m : Microfacet ℝ) (y : ℝ) : ℝ :=
  if m.ax = m.ay then 2 * Real.pi * y
  else if 1 / 2 < y then Real.arctan (m.ay / m.ax * Real.tan (2 * Real.pi * y + 1 / 2 * Real.pi)) + Real.pi
  else Real.arctan (m.ay / m.ax * Real.tan (2 * Real.pi * y + 1 / 2 * Real.pi))

theorem half_turn {ρ : ℝ} (hρ : 0 < ρ) (K : ℝ → ℝ≥0∞) :
    ∫⁻ y in Ioo (0 : ℝ) (1 / 2), K (Real.arctan (ρ * Real.tan (2 * Real.pi * y + 1 / 2 * Real.pi))) =
      ∫⁻ φ in Ioo (-(Real.pi / 2)) (Real.pi / 2), ENNReal.ofReal (ρ / (2 * Real.pi * (ρ ^ 2 * Real.cos φ ^ 2 + Real.sin φ ^ 2))) * K φ := by
  have hpi := Real.pi_pos
  set h : ℝ → ℝ := fun φ => (Real.arctan (Real.tan φ / ρ) + Real.pi / 2) / (2 * Real.pi) with hh
  have back : ∀ φ ∈ Ioo (-(Real.pi / 2)) (Real.pi / 2), Real.arctan (ρ * Real.tan (2 * Real.pi * h φ + 1 / 2 * Real.pi)) = φ := by
    intro φ hφ
    have : 2 * Real.pi * h φ + 1 / 2 * Real.pi = Real.arctan (Real.tan φ / ρ) + Real.pi := by
      simp only [hh]; field_simp; ring
    rw [this, Real.tan_add_pi, Real.tan_arctan, mul_div_cancel₀ _ hρ.ne', Real.arctan_tan hφ.1 hφ.2]
  have himg : h '' Ioo (-(Real.pi / 2)) (Real.pi / 2) = Ioo 0 (1 / 2) := by
    ext y
    constructor
    · rintro ⟨φ, hφ, rfl⟩
      have l1 := Real.neg_pi_div_two_lt_arctan (Real.tan φ / ρ)
      have l2 := Real.arctan_lt_pi_div_two (Real.tan φ / ρ)
      simp only [hh]
      refine ⟨div_pos (by linarith) (by positivity), ?_⟩
      rw [div_lt_iff₀ (by positivity)]; linarith
    · rintro ⟨h0, h1⟩
      have r1 : -(Real.pi / 2) < 2 * Real.pi * y - Real.pi / 2 := by nlinarith
      have r2 : 2 * Real.pi * y - Real.pi / 2 < Real.pi / 2 := by nlinarith
      refine ⟨Real.arctan (ρ * Real.tan (2 * Real.pi * y - Real.pi / 2)), ⟨Real.neg_pi_div_two_lt_arctan _, Real.arctan_lt_pi_div_two _⟩, ?_⟩
      simp only [hh]
      rw [Real.tan_arctan, mul_div_cancel_left₀ _ hρ.ne', Real.arctan_tan r1 r2]
      field_simp
      ring
  have hinj : InjOn h (Ioo (-(Real.pi / 2)) (Real.pi / 2)) := by
    intro a ha b hb hab
    rw [← back a ha, ← back b hb, hab]
  have hder : ∀ φ ∈ Ioo (-(Real.pi / 2)) (Real.pi / 2), HasDerivWithinAt h (ρ / (2 * Real.pi * (ρ ^ 2 * Real.cos φ ^ 2 + Real.sin φ ^ 2)))
      (Ioo (-(Real.pi / 2)) (Real.pi / 2)) φ := by
    intro φ hφ
    have hc : 0 < Real.cos φ := Real.cos_pos_of_mem_Ioo hφ
    have d1 := (((Real.hasDerivAt_tan hc.ne').div_const ρ).arctan.add_const (Real.pi / 2)).div_const (2 * Real.pi)
    refine (d1.hasDerivWithinAt (s := Ioo (-(Real.pi / 2)) (Real.pi / 2))).congr_deriv ?_
    rw [Real.tan_eq_sin_div_cos]
    have : 0 < ρ ^ 2 * Real.cos φ ^ 2 + Real.sin φ ^ 2 := by positivity
    field_simp
  rw [← himg, lintegral_image_eq_lintegral_abs_deriv_mul measurableSet_Ioo hder hinj]
  refine setLIntegral_congr_fun measurableSet_Ioo fun φ hφ => ?_
  have hc : 0 < Real.cos φ := Real.cos_pos_of_mem_Ioo hφ
  have : 0 < ρ ^ 2 * Real.cos φ ^ 2 + Real.sin φ ^ 2 := by positivity
  rw [back φ hφ, abs_of_pos (by positivity)]

theorem join_Ioc (f : ℝ → ℝ≥0∞) {a b c : ℝ} (hab : a ≤ b) (hbc : b ≤ c) :
    (∫⁻ t in Ioc a b, f t) + (∫⁻ t in Ioc b c, f t) = ∫⁻ t in Ioc a c, f t := by
  rw [← lintegral_union measurableSet_Ioc (Ioc_disjoint_Ioc_of_le le_rfl), Ioc_union_Ioc_eq_Ioc hab hbc]

/-- A periodic function has the same integral over any turn. -/
theorem full_turn {f : ℝ → ℝ≥0∞} (hf : ∀ t, f (t + 2 * Real.pi) = f t) {a : ℝ} (h1 : -Real.pi ≤ a) (h2 : a ≤ Real.pi) :
    ∫⁻ t in Ioc a (a + 2 * Real.pi), f t = ∫⁻ t in Ioo (-Real.pi) Real.pi, f t := by
  have hpi := Real.pi_pos
  have h3 : ∫⁻ t in Ioc Real.pi (a + 2 * Real.pi), f t = ∫⁻ t in Ioc (-Real.pi) a, f t := by
    rw [lint_affine_of (a := 1) one_ne_zero (2 * Real.pi) (s := Ioc (-Real.pi) a) measurableSet_Ioc]
    · simp [hf]
    · intro x; simp only [mem_Ioc]; constructor <;> rintro ⟨a, b⟩ <;> constructor <;> linarith
  rw [← join_Ioc f h2 (by linarith), h3, add_comm, join_Ioc f h1 h2, setLIntegral_congr Ioo_ae_eq_Ioc]

theorem azimuth {m : Microfacet ℝ} (hx : 0 < m.ax) (hy : 0 < m.ay) {K : ℝ → ℝ≥0∞} (hK : ∀ t, K (t + 2 * Real.pi) = K t) :
    mean1 (fun y => K (azimuthAt m y)) = ∫⁻ φ in Ioo (-Real.pi) Real.pi, ENNReal.ofReal (roughAt m φ / (2 * Real.pi * m.ax * m.ay)) * K φ := by
  have hpi := Real.pi_pos
  rw [mean1, setLIntegral_congr (Ioo_ae_eq_Ico (a := (0 : ℝ)) (b := 1)).symm]
  by_cases h : m.ax = m.ay
  · have e : ∀ φ, roughAt m φ / (2 * Real.pi * m.ax * m.ay) = 1 / (2 * Real.pi) := by
      intro φ; rw [roughAt_iso hx h, ← h]; field_simp
    have e' : ∀ y, azimuthAt m y = 2 * Real.pi * y := by
      intro y; simp only [azimuthAt, h, if_true]
    simp only [e', e]
    rw [lintegral_const_mul' _ _ ENNReal.ofReal_ne_top, ← full_turn hK (a := 0) (by linarith) hpi.le, zero_add,
      ← setLIntegral_congr Ioo_ae_eq_Ioc, lint_affine_of (a := 2 * Real.pi) (by positivity) 0 (s := Ioo 0 1) (t := Ioo 0 (2 * Real.pi)) measurableSet_Ioo, ← mul_assoc,
      ← ENNReal.ofReal_mul (by positivity), abs_of_pos (by positivity)]
    · rw [show 1 / (2 * Real.pi) * (2 * Real.pi) = 1 by field_simp]
      simp
    · intro x
      simp only [mem_Ioo, add_zero]
      constructor
      · rintro ⟨a, b⟩
        exact ⟨pos_of_mul_pos_right a (by positivity), by nlinarith⟩
      · rintro ⟨a, b⟩
        exact ⟨by positivity, by nlinarith⟩
  · set ρ := m.ay / m.ax with hρd
    have hρ : 0 < ρ := by positivity
    have e : ∀ φ, roughAt m φ / (2 * Real.pi * m.ax * m.ay) = ρ / (2 * Real.pi * (ρ ^ 2 * Real.cos φ ^ 2 + Real.sin φ ^ 2)) := by
      intro φ
      have hr := roughAt_pos hx hy φ
      unfold roughAt at *
      have hpos := one_div_pos.1 hr
      have h2 : 0 < ρ ^ 2 * Real.cos φ ^ 2 + Real.sin φ ^ 2 := by
        have : ρ ^ 2 * Real.cos φ ^ 2 + Real.sin φ ^ 2 = m.ay ^ 2 * (Real.cos φ * Real.cos φ / (m.ax * m.ax) + Real.sin φ * Real.sin φ / (m.ay * m.ay)) := by
          rw [hρd]; field_simp
        rw [this]; positivity
      have h3 : Real.cos φ * Real.cos φ / (m.ax * m.ax) + Real.sin φ * Real.sin φ / (m.ay * m.ay) =
          (ρ ^ 2 * Real.cos φ ^ 2 + Real.sin φ ^ 2) / m.ay ^ 2 := by
        rw [hρd]; field_simp
      rw [h3]
      generalize ρ ^ 2 * Real.cos φ ^ 2 + Real.sin φ ^ 2 = q at *
      rw [hρd]
      field_simp
    simp only [e]
    set W : ℝ → ℝ≥0∞ := fun φ => ENNReal.ofReal (ρ / (2 * Real.pi * (ρ ^ 2 * Real.cos φ ^ 2 + Real.sin φ ^ 2))) * K φ with hW
    have hWp : ∀ t, W (t + 2 * Real.pi) = W t := by
      intro t; simp only [hW, hK, Real.cos_add_two_pi, Real.sin_add_two_pi]
    have p1 : ∫⁻ y in Ioc (0 : ℝ) (1 / 2), K (azimuthAt m y) = ∫⁻ φ in Ioc (-(Real.pi / 2)) (Real.pi / 2), W φ := by
      rw [← setLIntegral_congr Ioo_ae_eq_Ioc, ← setLIntegral_congr Ioo_ae_eq_Ioc, ← half_turn hρ K]
      refine setLIntegral_congr_fun measurableSet_Ioo fun y hy => ?_
      simp only [azimuthAt, h, if_false, not_lt.2 hy.2.le, ← hρd]
    have p2 : ∫⁻ y in Ioc (1 / 2 : ℝ) 1, K (azimuthAt m y) = ∫⁻ φ in Ioc (Real.pi / 2) (-(Real.pi / 2) + 2 * Real.pi), W φ := by
      rw [← setLIntegral_congr Ioo_ae_eq_Ioc, ← setLIntegral_congr Ioo_ae_eq_Ioc,
        lint_affine_of (a := 1) one_ne_zero (1 / 2) (s := Ioo (0 : ℝ) (1 / 2)) (t := Ioo (1 / 2 : ℝ) 1) measurableSet_Ioo,
        lint_affine_of (a := 1) one_ne_zero Real.pi (s := Ioo (-(Real.pi / 2)) (Real.pi / 2)) (t := Ioo (Real.pi / 2) (-(Real.pi / 2) + 2 * Real.pi))
          measurableSet_Ioo]
      · have := half_turn hρ (fun φ => K (φ + Real.pi))
        simp only [hW, one_mul, Real.cos_add_pi, Real.sin_add_pi, neg_sq] at this ⊢
        rw [← this]
        congr 1
        refine setLIntegral_congr_fun measurableSet_Ioo fun y hy => ?_
        have h1 : 1 / 2 < y + 1 / 2 := by linarith [hy.1]
        simp only [azimuthAt, h, if_false, h1, if_true, ← hρd]
        rw [show 2 * Real.pi * (y + 1 / 2) + 1 / 2 * Real.pi = 2 * Real.pi * y + 1 / 2 * Real.pi + Real.pi by ring, Real.tan_add_pi]
      · intro x; simp only [mem_Ioo]; constructor <;> rintro ⟨a, b⟩ <;> constructor <;> linarith
      · intro x; simp only [mem_Ioo]; constructor <;> rintro ⟨a, b⟩ <;> constructor <;> linarith
    rw [setLIntegral_congr Ioo_ae_eq_Ioc, ← join_Ioc _ (by norm_num : (0 : ℝ) ≤ 1 / 2) (by norm_num), p1, p2, join_Ioc _ (by linarith) (by linarith),
      full_turn hWp (by linarith) (by linarith)]

/-! ## The sampled normal -/

theorem sampleWh_form {m : Microfacet ℝ} (hx : 0 < m.ax) (hy : 0 < m.ay) {wo : V3 ℝ} (hwo : wo.z ≠ 0) {x y : ℝ} (hx0 : 0 ≤ x) (hx1 : x < 1) :
    m.sampleWh wo ⟨x, y⟩ = sided wo (V3.fromSphericalDirection
      (Real.sqrt (max (1 - 1 / Real.sqrt (1 + roughAt m (azimuthAt m y) * x / (1 - x)) * (1 / Real.sqrt (1 + roughAt m (azimuthAt m y) * x / (1 - x)))) 0))
      (1 / Real.sqrt (1 + roughAt m (azimuthAt m y) * x / (1 - x))) (azimuthAt m y)) := by
  have hA := roughAt_pos hx hy (azimuthAt m y)
  have h1 : 0 < 1 - x := by linarith
  have key : ∀ c s p : ℝ, 0 < c → (if (!sameHemisphere wo (V3.fromSphericalDirection s c p)) = true then (V3.fromSphericalDirection s c p).smul (-1)
      else V3.fromSphericalDirection s c p) = sided wo (V3.fromSphericalDirection s c p) := by
    intro c s p hc
    simp only [sameHemisphere, sided, V3.fromSphericalDirection, V3.smul]
    real_ops
    by_cases h : wo.z < 0
    · have : ¬ 0 < wo.z * c := by nlinarith
      simp [h, this]
    · have hp : 0 < wo.z := lt_of_le_of_ne (not_lt.1 h) (Ne.symm hwo)
      have : 0 < wo.z * c := by positivity
      simp [h, this]
  have hc : 0 < 1 / Real.sqrt (1 + roughAt m (azimuthAt m y) * x / (1 - x)) := by positivity
  rw [← key _ _ _ hc]
  unfold Microfacet.sampleWh
  real_ops
  by_cases h : m.ax = m.ay
  · have e1 : azimuthAt m y = Real.pi * 2 * y := by simp only [azimuthAt, h, if_true]; ring
    rw [e1, roughAt_iso hx h]
    simp only [h, if_true]
  · simp only [h, if_false]
    have e1 : (if 1 / 2 < y then Real.arctan (m.ay / m.ax * Real.tan (2 * Real.pi * y + 1 / 2 * Real.pi)) + Real.pi
        else Real.arctan (m.ay / m.ax * Real.tan (2 * Real.pi * y + 1 / 2 * Real.pi))) = azimuthAt m y := by
      simp only [azimuthAt, h, if_false]
    rw [e1]
    rfl

theorem microfacet_d_towards {m : Microfacet ℝ} (hx : 0 < m.ax) (hy : 0 < m.ay) {θ : ℝ} (hθ : θ ∈ Ioo 0 (Real.pi / 2)) (φ : ℝ) :
    m.d (towards θ φ) * (towards θ φ).z = roughAt m φ ^ 2 * Real.cos θ / (Real.pi * m.ax * m.ay * (roughAt m φ * Real.cos θ ^ 2 + Real.sin θ ^ 2) ^ 2) := by
  have hpi := Real.pi_pos
  have hs : 0 < Real.sin θ := Real.sin_pos_of_pos_of_lt_pi hθ.1 (by linarith [hθ.2])
  have hc : 0 < Real.cos θ := Real.cos_pos_of_mem_Ioo ⟨by linarith [hθ.1], hθ.2⟩
  have hsc := Real.sin_sq_add_cos_sq θ
  have hA := roughAt_pos hx hy φ
  have hs2 : max (1 - Real.cos θ * Real.cos θ) 0 = Real.sin θ ^ 2 := by
    rw [max_eq_left (by nlinarith)]; nlinarith
  have hst : Real.sqrt (max (1 - Real.cos θ * Real.cos θ) 0) = Real.sin θ := by rw [hs2, Real.sqrt_sq hs.le]
  have c1 : cos2Phi (towards θ φ) = Real.cos φ * Real.cos φ := by
    simp only [cos2Phi, cosPhi, sinTheta, sin2Theta, cos2Theta, clamp, towards]; real_ops
    rw [hst, mul_div_cancel_left₀ _ hs.ne']
    simp [hs.ne', not_lt.2 (Real.cos_le_one φ), not_lt.2 (Real.neg_one_le_cos φ)]
  have c2 : sin2Phi (towards θ φ) = Real.sin φ * Real.sin φ := by
    simp only [sin2Phi, sinPhi, sinTheta, sin2Theta, cos2Theta, clamp, towards]; real_ops
    rw [hst, mul_div_cancel_left₀ _ hs.ne']
    simp [hs.ne', not_lt.2 (Real.sin_le_one φ), not_lt.2 (Real.neg_one_le_sin φ)]
  simp only [Microfacet.d, c1, c2, tan2Theta, sin2Theta, cos2Theta]
  simp only [r_isInf, Bool.false_eq_true, if_false]
  simp only [towards]
  real_ops
  rw [hs2]
  have hr : Real.cos φ * Real.cos φ / (m.ax * m.ax) + Real.sin φ * Real.sin φ / (m.ay * m.ay) = 1 / roughAt m φ := by
    unfold roughAt; rw [one_div_one_div]
  rw [hr]
  generalize roughAt m φ = A at *
  have e : 1 + 1 / A * (Real.sin θ ^ 2 / (Real.cos θ * Real.cos θ)) = (A * Real.cos θ ^ 2 + Real.sin θ ^ 2) / (A * Real.cos θ ^ 2) := by
    field_simp
  rw [e]
  have hd : 0 < A * Real.cos θ ^ 2 + Real.sin θ ^ 2 := by positivity
  generalize A * Real.cos θ ^ 2 + Real.sin θ ^ 2 = q at *
  field_simp

theorem measurable_azimuthAt (m : Microfacet ℝ) : Measurable (azimuthAt m) := by
  unfold azimuthAt
  split_ifs
  · fun_prop
  · have : Measurable fun y : ℝ => Real.arctan (m.ay / m.ax * Real.tan (2 * Real.pi * y + 1 / 2 * Real.pi)) := by
      simp only [Real.tan_eq_sin_div_cos]
      exact Real.measurable_arctan.comp (by fun_prop)
    exact Measurable.ite (measurableSet_lt measurable_const measurable_id) (this.add_const _) this

/-- C59, what holds: the sampled normals have the density `D(wh) cos θ` over the hemisphere (turned to the side of `wo`): the mean of any function
of the sampled normal is its integral against that density, for every pair of roughnesses.  What is missing: the reported `pdf` is
`D(wh) / |cos θ|`, see `c59_pdf_is_not_the_density`. -/
theorem c59_distribution_partial {m : Microfacet ℝ} (hx : 0 < m.ax) (hy : 0 < m.ay) {wo : V3 ℝ} (hwo : wo.z ≠ 0) {G : V3 ℝ → ℝ≥0∞}
    (hG : MeasurableOn3 G) :
    mean2 (fun u => G (m.sampleWh wo u)) = overHemisphere (fun w => ENNReal.ofReal (m.d w * w.z) * G (sided wo w)) := by
  have hpi := Real.pi_pos
  set S : ℝ → ℝ → ℝ≥0∞ := fun c φ => G (sided wo (V3.fromSphericalDirection (Real.sqrt (max (1 - c * c) 0)) c φ)) with hS
  have hSm : Measurable fun p : ℝ × ℝ => S p.1 p.2 := by
    have hsf : ∀ (c φ : ℝ), S c φ = (fun p : ℝ × ℝ × ℝ => G ⟨p.1, p.2.1, p.2.2⟩) (if wo.z < 0 then
        (-(Real.sqrt (max (1 - c * c) 0) * Real.cos φ), -(Real.sqrt (max (1 - c * c) 0) * Real.sin φ), -c)
        else (Real.sqrt (max (1 - c * c) 0) * Real.cos φ, Real.sqrt (max (1 - c * c) 0) * Real.sin φ, c)) := by
      intro c φ
      simp only [hS, sided, V3.fromSphericalDirection]
      real_ops
      split_ifs <;> rfl
    simp only [hsf]
    refine hG.comp ?_
    split_ifs <;> fun_prop
  have hSp : ∀ c t, S c (t + 2 * Real.pi) = S c t := by
    intro c t; simp only [hS, V3.fromSphericalDirection]; real_ops; rw [Real.cos_add_two_pi, Real.sin_add_two_pi]
  set C : ℝ → ℝ → ℝ := fun A x => 1 / Real.sqrt (1 + A * x / (1 - x)) with hC
  have hRm : Measurable (roughAt m) := by unfold roughAt; fun_prop
  have hRp : ∀ t, roughAt m (t + 2 * Real.pi) = roughAt m t := by
    intro t; simp only [roughAt, Real.cos_add_two_pi, Real.sin_add_two_pi]
  have e0 : mean2 (fun u => G (m.sampleWh wo u)) = mean1 fun x => mean1 fun y => S (C (roughAt m (azimuthAt m y)) x) (azimuthAt m y) := by
    unfold mean2 mean1
    refine setLIntegral_congr_fun measurableSet_Ico fun x hxx => ?_
    refine lintegral_congr fun y => ?_
    simp only []
    rw [sampleWh_form hx hy hwo hxx.1 hxx.2]
  have hjoint : Measurable fun p : ℝ × ℝ => S (C (roughAt m (azimuthAt m p.2)) p.1) (azimuthAt m p.2) := by
    have ha := measurable_azimuthAt m
    refine hSm.comp (f := fun p : ℝ × ℝ => (C (roughAt m (azimuthAt m p.2)) p.1, azimuthAt m p.2)) ?_
    have h2 : Measurable fun p : ℝ × ℝ => azimuthAt m p.2 := ha.comp measurable_snd
    have h1 : Measurable fun p : ℝ × ℝ => roughAt m (azimuthAt m p.2) := hRm.comp h2
    simp only [hC]
    fun_prop
  rw [e0]
  unfold mean1
  rw [lintegral_lintegral_swap (f := fun x y => S (C (roughAt m (azimuthAt m y)) x) (azimuthAt m y)) hjoint.aemeasurable]
  have e1 : ∀ φ, ∫⁻ x in Ico (0 : ℝ) 1, S (C (roughAt m φ) x) φ =
      ∫⁻ θ in Ioo 0 (Real.pi / 2), ENNReal.ofReal (2 * roughAt m φ * Real.sin θ * Real.cos θ / (roughAt m φ * Real.cos θ ^ 2 + Real.sin θ ^ 2) ^ 2) *
        S (Real.cos θ) φ := fun φ => inclination (roughAt_pos hx hy φ) (fun c => S c φ)
  set K : ℝ → ℝ≥0∞ := fun φ => ∫⁻ x in Ico (0 : ℝ) 1, S (C (roughAt m φ) x) φ with hK
  have e2 := azimuth hx hy (K := K) (by intro t; simp only [hK, hRp, hSp])
  unfold mean1 at e2
  rw [e2]
  set E : ℝ → ℝ → ℝ≥0∞ := fun θ φ => ENNReal.ofReal (roughAt m φ / (2 * Real.pi * m.ax * m.ay)) * (ENNReal.ofReal
    (2 * roughAt m φ * Real.sin θ * Real.cos θ / (roughAt m φ * Real.cos θ ^ 2 + Real.sin θ ^ 2) ^ 2) * S (Real.cos θ) φ) with hE
  have hEm : Measurable fun p : ℝ × ℝ => E p.1 p.2 := by
    have h1 : Measurable fun p : ℝ × ℝ => S (Real.cos p.1) p.2 := hSm.comp (f := fun p : ℝ × ℝ => (Real.cos p.1, p.2)) (by fun_prop)
    have h2 : Measurable fun p : ℝ × ℝ => roughAt m p.2 := hRm.comp measurable_snd
    simp only [hE]
    fun_prop
  have e3 : overHemisphere (fun w => ENNReal.ofReal (m.d w * w.z) * G (sided wo w)) =
      ∫⁻ θ in Ioo 0 (Real.pi / 2), ∫⁻ φ in Ioo (-Real.pi) Real.pi, E θ φ := by
    unfold overHemisphere
    refine setLIntegral_congr_fun measurableSet_Ioo fun θ hθ => ?_
    refine lintegral_congr fun φ => ?_
    have hs : 0 < Real.sin θ := Real.sin_pos_of_pos_of_lt_pi hθ.1 (by linarith [hθ.2])
    have hc : 0 < Real.cos θ := Real.cos_pos_of_mem_Ioo ⟨by linarith [hθ.1], hθ.2⟩
    have hA := roughAt_pos hx hy φ
    have hst : Real.sqrt (max (1 - Real.cos θ * Real.cos θ) 0) = Real.sin θ := by
      rw [show 1 - Real.cos θ * Real.cos θ = Real.sin θ ^ 2 by nlinarith [Real.sin_sq_add_cos_sq θ], max_eq_left (sq_nonneg _), Real.sqrt_sq hs.le]
    have hd := microfacet_d_towards hx hy hθ φ
    simp only [towards] at hd
    simp only [hE, hS, hst, hd, V3.fromSphericalDirection]
    real_ops
    rw [← mul_assoc, ← mul_assoc, ← ENNReal.ofReal_mul hs.le, ← ENNReal.ofReal_mul (by positivity)]
    congr 2
    field_simp
  rw [e3, lintegral_lintegral_swap hEm.aemeasurable]
  refine setLIntegral_congr_fun measurableSet_Ioo fun φ hφ => ?_
  simp only [hK, hE, e1]
  rw [lintegral_const_mul' _ _ ENNReal.ofReal_ne_top]

/-- The microfacets' projected areas add up to one. -/
theorem c59_normalized {m : Microfacet ℝ} (hx : 0 < m.ax) (hy : 0 < m.ay) : overHemisphere (fun w => ENNReal.ofReal (m.d w * w.z)) = 1 := by
  have h := c59_distribution_partial hx hy (wo := ⟨0, 0, 1⟩) (by norm_num) (G := fun _ => 1) measurable_const
  simp only [mul_one, mean2_const] at h
  exact h.symm

/-- Two different roughnesses, seen from below. -/
example : (0 : ℝ) < (⟨1 / 10, 1 / 2⟩ : Microfacet ℝ).ax ∧ (0 : ℝ) < (⟨1 / 10, 1 / 2⟩ : Microfacet ℝ).ay ∧ (⟨0, 3 / 5, -4 / 5⟩ : V3 ℝ).z ≠ 0 ∧
    MeasurableOn3 (fun w => ENNReal.ofReal (w.x + 1)) := by
  refine ⟨by norm_num, by norm_num, by norm_num, ?_⟩
  unfold MeasurableOn3
  fun_prop

end PT
