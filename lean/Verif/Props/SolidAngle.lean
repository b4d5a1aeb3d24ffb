import Verif.Props.MaterialsRough
import Mathlib.Analysis.SpecialFunctions.Sqrt
import Mathlib.Analysis.SpecialFunctions.Trigonometric.Deriv

/-!
# The change of solid angle in the densities of rough reflection and transmission (C59)

A microfacet model chooses a facet normal and mirrors or refracts `wo` at it.  The density of the direction that results is the density of the normal
times the area that the normals sweep on the unit sphere for each unit of area that the direction sweeps.
-/

namespace PT
open Spec

namespace Spec
/-- The great circle through `w` in the direction `u`. -/
noncomputable def arc (w u : V3 ℝ) (s : ℝ) : V3 ℝ := plus (times (Real.cos s) w) (times (Real.sin s) u)
/-- The velocity at time 0 of a moving point. -/
def SphereVelocity (f : ℝ → V3 ℝ) (d : V3 ℝ) : Prop :=
  HasDerivAt (fun s => (f s).x) d.x 0 ∧ HasDerivAt (fun s => (f s).y) d.y 0 ∧ HasDerivAt (fun s => (f s).z) d.z 0
/-- Two unit vectors, at right angles to each other, that span the plane that touches the unit sphere at `w`. -/
structure TouchingPlane (w u v : V3 ℝ) : Prop where
  first : sq u = 1
  second : sq v = 1
  square : Spec.inner u v = 0
  normal : w = ⟨u.y * v.z - u.z * v.y, u.z * v.x - u.x * v.z, u.x * v.y - u.y * v.x⟩
/-- The area of the parallelogram of `a` and `b`, seen along the unit vector `n`. -/
noncomputable def areaAlong (n a b : V3 ℝ) : ℝ :=
  |n.x * (a.y * b.z - a.z * b.y) + n.y * (a.z * b.x - a.x * b.z) + n.z * (a.x * b.y - a.y * b.x)|
/-- The area that the facet normals `h` sweep on the unit sphere for each unit of area that `wi` sweeps. -/
def SweptArea (h : V3 ℝ → V3 ℝ) (wi : V3 ℝ) (J : ℝ) : Prop :=
  ∀ u v, TouchingPlane wi u v → ∃ du dv, SphereVelocity (fun s => h (arc wi u s)) du ∧ SphereVelocity (fun s => h (arc wi v s)) dv ∧ J = areaAlong (h wi) du dv
/-- The index on the far side of the boundary divided by the index on the side of `wo`. -/
noncomputable def ratio (etaA etaB : ℝ) (wo : V3 ℝ) : ℝ := if 0 < wo.z then etaB / etaA else etaA / etaB
end Spec

namespace SolidAngle

theorem arc_zero (w u : V3 ℝ) : arc w u 0 = w := by
  ext <;> simp [arc, plus, times]

theorem arc_velocity (w u : V3 ℝ) : SphereVelocity (arc w u) u := by
  have key : ∀ a b : ℝ, HasDerivAt (fun s => Real.cos s * a + Real.sin s * b) b 0 := by
    intro a b
    have h : HasDerivAt (fun s => Real.cos s * a + Real.sin s * b) (-Real.sin 0 * a + Real.cos 0 * b) 0 :=
      ((Real.hasDerivAt_cos 0).mul_const a).add ((Real.hasDerivAt_sin 0).mul_const b)
    rwa [Real.sin_zero, Real.cos_zero, neg_zero, zero_mul, one_mul, zero_add] at h
  exact ⟨key _ _, key _ _, key _ _⟩

theorem unit_deriv {X Y Z : ℝ → ℝ} {a b c x y z : ℝ} (hX : HasDerivAt X a 0) (hY : HasDerivAt Y b 0) (hZ : HasDerivAt Z c 0)
    (hx : X 0 = x) (hy : Y 0 = y) (hz : Z 0 = z) (h0 : 0 < x ^ 2 + y ^ 2 + z ^ 2) (W : ℝ → ℝ) (w d : ℝ) (hW : HasDerivAt W d 0) (hw : W 0 = w) :
    HasDerivAt (fun s => 1 / Real.sqrt (X s ^ 2 + Y s ^ 2 + Z s ^ 2) * W s)
      (d / Real.sqrt (x ^ 2 + y ^ 2 + z ^ 2) - (a * x + b * y + c * z) * w / Real.sqrt (x ^ 2 + y ^ 2 + z ^ 2) ^ 3) 0 := by
  have dn : HasDerivAt (fun s => X s ^ 2 + Y s ^ 2 + Z s ^ 2) (2 * x * a + 2 * y * b + 2 * z * c) 0 := by
    have : HasDerivAt (fun s => X s ^ 2 + Y s ^ 2 + Z s ^ 2) ((2 : ℕ) * X 0 ^ (2 - 1) * a + (2 : ℕ) * Y 0 ^ (2 - 1) * b + (2 : ℕ) * Z 0 ^ (2 - 1) * c) 0 :=
      ((hX.pow 2).add (hY.pow 2)).add (hZ.pow 2)
    rw [hx, hy, hz] at this
    convert this using 1
    norm_num
  have dl := HasDerivAt.sqrt dn (by rw [hx, hy, hz]; exact h0.ne')
  have hL := Real.sqrt_pos.2 h0
  rw [hx, hy, hz] at dl
  have di := HasDerivAt.fun_inv dl (by rw [hx, hy, hz]; exact hL.ne')
  rw [hx, hy, hz] at di
  have dm := HasDerivAt.fun_mul di hW
  rw [hx, hy, hz, hw] at dm
  simp only [one_div]
  refine dm.congr_deriv ?_
  generalize Real.sqrt (x ^ 2 + y ^ 2 + z ^ 2) = L at hL
  field_simp
  ring

/-- The velocity of the half vector. -/
noncomputable def rate (H : V3 ℝ) (η : ℝ) (u : V3 ℝ) : V3 ℝ :=
  let L := Real.sqrt (H.x ^ 2 + H.y ^ 2 + H.z ^ 2)
  let k := (η * u.x) * H.x + (η * u.y) * H.y + (η * u.z) * H.z
  ⟨η * u.x / L - k * H.x / L ^ 3, η * u.y / L - k * H.y / L ^ 3, η * u.z / L - k * H.z / L ^ 3⟩

theorem half_velocity (wo wi u : V3 ℝ) (η : ℝ) (h0 : 0 < sq (plus wo (times η wi))) :
    SphereVelocity (fun s => halfway wo (times η (arc wi u s))) (rate (plus wo (times η wi)) η u) := by
  obtain ⟨ax, ay, az⟩ := arc_velocity wi u
  have e0 : arc wi u 0 = wi := arc_zero wi u
  have dx := (ax.const_mul η).const_add wo.x
  have dy := (ay.const_mul η).const_add wo.y
  have dz := (az.const_mul η).const_add wo.z
  have key := unit_deriv dx dy dz (by rw [e0]; rfl) (by rw [e0]; rfl) (by rw [e0]; rfl) h0
  exact ⟨key _ _ _ dx (by rw [e0]), key _ _ _ dy (by rw [e0]), key _ _ _ dz (by rw [e0])⟩

/-- The area that the half vectors sweep. -/
theorem half_swept (wo wi : V3 ℝ) (η : ℝ) (h0 : 0 < sq (plus wo (times η wi))) :
    let h := halfway wo (times η wi)
    SweptArea (fun w => halfway wo (times η w)) wi |Spec.inner wi h * η * η / (Spec.inner wo h + Spec.inner wi h * η) ^ 2| := by
  intro h u v huv
  refine ⟨_, _, half_velocity wo wi u η h0, half_velocity wo wi v η h0, ?_⟩
  have hL := Real.sqrt_pos.2 h0
  have hL2 := Real.sq_sqrt h0.le
  have hn := huv.normal
  have nx := congrArg V3.x hn
  have ny := congrArg V3.y hn
  have nz := congrArg V3.z hn
  simp only at nx ny nz
  have hs : Spec.inner wo h + Spec.inner wi h * η = Real.sqrt (sq (plus wo (times η wi))) := by
    show Spec.inner wo (halfway wo (times η wi)) + Spec.inner wi (halfway wo (times η wi)) * η = _
    simp only [halfway, Spec.inner, times, plus, Spec.sq] at *
    generalize Real.sqrt _ = L at *
    field_simp
    linarith
  rw [hs]
  unfold areaAlong
  congr 1
  simp only [h, rate, halfway, Spec.inner, times, plus, Spec.sq] at *
  generalize Real.sqrt _ = L at *
  rw [nx, ny, nz]
  field_simp
  ring

theorem times_one (w : V3 ℝ) : times 1 w = w := by ext <;> simp [times]

theorem plus_sq {wo wi : V3 ℝ} (h1 : sq wo = 1) (h2 : sq wi = 1) (η : ℝ) : sq (plus wo (times η wi)) = 1 + η ^ 2 + 2 * η * Spec.inner wo wi := by
  simp only [Spec.sq, plus, times, Spec.inner] at *
  linear_combination h1 + η ^ 2 * h2

end SolidAngle
open SolidAngle

/-- C59: the density that rough reflection reports for a direction is the density of the facet normal that mirrors the two directions into each other,
times the area that this normal sweeps for each unit of area that the direction sweeps. -/
theorem c59_reflected_solid_angle (r : Spectrum ℝ) (m : Microfacet ℝ) (fr : Fresnel ℝ) {wo wi : V3 ℝ} (h1 : sq wo = 1) (h2 : sq wi = 1) (hz : 0 < wo.z * wi.z) :
    ∃ J, SweptArea (fun w => halfway wo w) wi J ∧ (microfacetReflection r m fr).pdf wo wi = m.pdf wo (halfway wo wi) * J := by
  have hc : -1 < Spec.inner wo wi := by
    simp only [Spec.sq, Spec.inner] at *
    nlinarith [sq_nonneg (wo.x + wi.x), sq_nonneg (wo.y + wi.y), sq_nonneg (wo.z - wi.z), sq_nonneg (wo.z + wi.z)]
  have h0 : 0 < sq (plus wo (times 1 wi)) := by rw [plus_sq h1 h2]; linarith
  have hJ := half_swept wo wi 1 h0
  simp only [times_one] at hJ h0
  refine ⟨_, hJ, ?_⟩
  have hs : sameHemisphere wo wi = true := by unfold sameHemisphere; real_ops; simpa using hz
  have hd : (halfway wo wi).dot wo = Spec.inner wo (halfway wo wi) := by simp only [V3.dot, Spec.inner]; real_ops; ring
  simp only [microfacetReflection, MicrofacetReflection.pdf, hs, normalize_halfway, hd, Bool.not_true, Bool.false_eq_true, if_false]
  have hL := Real.sqrt_pos.2 h0
  have e1 : Spec.inner wi (halfway wo wi) = (1 + Spec.inner wo wi) / Real.sqrt (sq (plus wo wi)) := by
    simp only [halfway, Spec.inner, times, plus, Spec.sq] at *
    field_simp
    linear_combination h2
  have e2 : Spec.inner wo (halfway wo wi) = (1 + Spec.inner wo wi) / Real.sqrt (sq (plus wo wi)) := by
    simp only [halfway, Spec.inner, times, plus, Spec.sq] at *
    field_simp
    linear_combination h1
  rw [e1, e2]
  have hp : 0 < (1 + Spec.inner wo wi) / Real.sqrt (sq (plus wo wi)) := div_pos (by linarith) hL
  generalize (1 + Spec.inner wo wi) / Real.sqrt (sq (plus wo wi)) = c at hp
  real_ops
  rw [abs_of_nonneg (by positivity)]
  field_simp
  ring

/-- C59: the same for rough transmission, and the facet normal that refracts one direction into the other. -/
theorem c59_transmitted_solid_angle (t : Spectrum ℝ) (m : Microfacet ℝ) (etaA etaB : ℝ) {wo wi : V3 ℝ} (hz : wo.z * wi.z < 0)
    (h0 : plus wo (times (ratio etaA etaB wo) wi) ≠ ⟨0, 0, 0⟩) :
    ∃ J, SweptArea (fun w => halfway wo (times (ratio etaA etaB wo) w)) wi J ∧
      (microfacetTransmission t etaA etaB m).pdf wo wi = m.pdf wo (halfway wo (times (ratio etaA etaB wo) wi)) * J := by
  have hpos : 0 < sq (plus wo (times (ratio etaA etaB wo) wi)) := by
    set H := plus wo (times (ratio etaA etaB wo) wi)
    refine lt_of_le_of_ne (by unfold Spec.sq; positivity) fun h => h0 ?_
    have hx : H.x = 0 := by unfold Spec.sq at h; nlinarith [sq_nonneg H.x, sq_nonneg H.y, sq_nonneg H.z]
    have hy : H.y = 0 := by unfold Spec.sq at h; nlinarith [sq_nonneg H.x, sq_nonneg H.y, sq_nonneg H.z]
    have hz : H.z = 0 := by unfold Spec.sq at h; nlinarith [sq_nonneg H.x, sq_nonneg H.y, sq_nonneg H.z]
    ext <;> assumption
  refine ⟨_, half_swept wo wi _ hpos, ?_⟩
  have hs : sameHemisphere wo wi = false := by unfold sameHemisphere; real_ops; simpa using hz.le
  have hη : (if (cosTheta wo >. (lit 0 : ℝ)) = true then etaB /. etaA else etaA /. etaB) = ratio etaA etaB wo := by unfold cosTheta ratio; real_ops
  have hsm : wi.smul (ratio etaA etaB wo) = times (ratio etaA etaB wo) wi := by ext <;> simp only [V3.smul, times] <;> real_ops <;> ring
  have hd : ∀ a b : V3 ℝ, a.dot b = Spec.inner a b := by intro a b; simp only [V3.dot, Spec.inner]; real_ops
  simp only [microfacetTransmission, MicrofacetTransmission.pdf, hs, hη, hsm, normalize_halfway, hd, Bool.false_eq_true, if_false]
  real_ops
  rw [pow_two]

/-- C59: the facet normal of a direction chosen by rough transmission is, up to its sign, the normal that was chosen. -/
theorem c59_transmitted_facet (t : Spectrum ℝ) (m : Microfacet ℝ) (hx : 0 < m.ax) (hy : 0 < m.ay) {etaA etaB : ℝ} (ha : 0 < etaA) (hb : 0 < etaB) (hne : etaA ≠ etaB)
    {wo : V3 ℝ} (h1 : sq wo = 1) (hz : wo.z ≠ 0) {u : V2 ℝ} (hu : 0 ≤ u.x ∧ u.x < 1) :
    (microfacetTransmission t etaA etaB m).sampleF wo u = (⟨0, 0, 0⟩, ⟨0, 0, 0⟩, 0) ∨
    let wi := ((microfacetTransmission t etaA etaB m).sampleF wo u).1
    let h := halfway wo (times (ratio etaA etaB wo) wi)
    sq wi = 1 ∧ (h = m.sampleWh wo u ∨ h = times (-1) (m.sampleWh wo u)) := by
  obtain ⟨hn, -⟩ := sampleWh_spec hx hy hz hu
  have hzf : (wo.z ==. (lit 0 : ℝ)) = false := by real_ops; simpa using hz
  have hη : 0 < ratio etaA etaB wo := by unfold ratio; split_ifs <;> positivity
  have hη1 : ratio etaA etaB wo ≠ 1 := by
    unfold ratio
    split_ifs
    · rw [Ne, div_eq_one_iff_eq ha.ne']; exact hne.symm
    · rw [Ne, div_eq_one_iff_eq hb.ne']; exact hne
  have he : (if (cosTheta wo >. (lit 0 : ℝ)) = true then etaA /. etaB else etaB /. etaA) = (ratio etaA etaB wo)⁻¹ := by
    unfold cosTheta ratio; real_ops; split_ifs <;> rw [inv_div]
  simp only [microfacetTransmission, MicrofacetTransmission.sampleF, hzf, he, Bool.false_eq_true, if_false]
  generalize m.sampleWh wo u = n at hn ⊢
  generalize ratio etaA etaB wo = η at hη hη1 ⊢
  cases hr : refract wo n η⁻¹ with
  | none => left; simp only [noLocalSample, V3.zero, Spectrum.zero, Spectrum.of]; real_ops
  | some wi =>
    right
    refine ⟨((c54_refract wo n _ h1 hn (inv_pos.2 hη)).2 wi hr).1, ?_⟩
    rw [refract_eq h1 hn] at hr
    split_ifs at hr with hc
    simp only [Option.some.injEq] at hr
    have hk2 := Real.sq_sqrt (show 0 ≤ 1 - η⁻¹ ^ 2 * sin2 wo n by linarith)
    have hk0 := Real.sqrt_nonneg (1 - η⁻¹ ^ 2 * sin2 wo n)
    generalize Real.sqrt (1 - η⁻¹ ^ 2 * sin2 wo n) = k at hr hk2 hk0
    set q := Spec.inner wo n - η * k with hq
    have hH : plus wo (times η wi) = times q n := by
      rw [← hr, hq]
      ext <;> simp only [plus, times, comb] <;> field_simp <;> ring
    have hq0 : q ≠ 0 := by
      intro h
      have h3 : Spec.inner wo n = η * k := by linarith
      have h4 : Spec.inner wo n ^ 2 = η ^ 2 * k ^ 2 := by rw [h3]; ring
      rw [hk2, sin2] at h4
      field_simp at h4
      have h5 : η ^ 2 = 1 := by linarith
      rcases mul_eq_zero.1 (show (η - 1) * (η + 1) = 0 by linarith) with h | h
      · exact hη1 (by linarith)
      · linarith
    have hhalf : halfway wo (times η wi) = times (1 / |q|) (times q n) := by
      have : Real.sqrt ((wo.x + (times η wi).x) ^ 2 + (wo.y + (times η wi).y) ^ 2 + (wo.z + (times η wi).z) ^ 2) = |q| := by
        rw [← Real.sqrt_sq_eq_abs]
        congr 1
        show sq (plus wo (times η wi)) = q ^ 2
        rw [hH]
        simp only [Spec.sq, times] at hn ⊢
        linear_combination q ^ 2 * hn
      rw [halfway, this, hH]
    show halfway wo (times η wi) = n ∨ halfway wo (times η wi) = times (-1) n
    rw [hhalf]
    rcases lt_or_gt_of_ne hq0 with h | h
    · right
      rw [abs_of_neg h]
      ext <;> simp only [times] <;> field_simp
    · left
      rw [abs_of_pos h]
      ext <;> simp only [times] <;> field_simp

/-! ## The hypotheses are met -/

/-- A direction with its touching plane. -/
example : TouchingPlane ⟨-4 / 5, 0, 3 / 5⟩ ⟨3 / 5, 0, 4 / 5⟩ ⟨0, 1, 0⟩ := by
  refine ⟨by norm_num [Spec.sq], by norm_num [Spec.sq], by norm_num [Spec.inner], ?_⟩
  ext <;> norm_num

/-- Two directions on the same side. -/
example (r : Spectrum ℝ) (fr : Fresnel ℝ) := c59_reflected_solid_angle r ⟨1 / 2, 1 / 3⟩ fr (wo := ⟨4 / 5, 0, 3 / 5⟩) (wi := ⟨-4 / 5, 0, 3 / 5⟩)
  (by norm_num [Spec.sq]) (by norm_num [Spec.sq]) (by norm_num)

/-- Two directions on opposite sides. -/
example (t : Spectrum ℝ) := c59_transmitted_solid_angle t ⟨1 / 2, 1 / 3⟩ 1 (3 / 2) (wo := ⟨4 / 5, 0, 3 / 5⟩) (wi := ⟨-4 / 5, 0, -3 / 5⟩)
  (by norm_num) (by intro h; have := congrArg V3.x h; norm_num [plus, times, ratio] at this)

/-- A choice of a facet. -/
example (t : Spectrum ℝ) := c59_transmitted_facet t ⟨1 / 2, 1 / 3⟩ (by norm_num) (by norm_num) (etaA := 1) (etaB := 3 / 2) (by norm_num) (by norm_num)
  (by norm_num) (wo := ⟨4 / 5, 0, 3 / 5⟩) (by norm_num [Spec.sq]) (by norm_num) (u := ⟨1 / 3, 1 / 2⟩) (by norm_num)
end PT
