import Verif.Props.MaterialsSpecular

/-!
# What rough glass scatters (C82), and which side's reflectance rough dielectrics use (C83)
-/

namespace PT
open Spec

namespace Spec
/-- The same line, pointing upwards. -/
noncomputable def upward (v : V3 ℝ) : V3 ℝ := if v.z < 0 then times (-1) v else v
/-- The microfacet model of transmission of Walter, Marschner, Li and Torrance, of unit colour: `ni` is the index on the side of `wo`, `nt` on that of
`wi`, `F` the reflected share. The facet is the one that refracts `wi` into `wo`. -/
noncomputable def passage (ax ay ni nt : ℝ) (F : ℝ → ℝ) (wo wi : V3 ℝ) : ℝ :=
  let h := upward (halfway wo (times (nt / ni) wi))
  ggx ax ay h * (1 / (1 + smith ax ay wo + smith ax ay wi)) * (1 - F (inner h wo)) * |inner wi h| * |inner wo h| /
    ((inner wo h + nt / ni * inner wi h) ^ 2 * |wo.z| * |wi.z|)
end Spec

theorem upward_sq (v : V3 ℝ) : sq (upward v) = sq v := by
  unfold upward; split_ifs <;> simp only [times, Spec.sq] <;> ring

theorem upward_z {v : V3 ℝ} (h : v.z ≠ 0) : (upward v).z ≠ 0 := by
  unfold upward; split_ifs <;> simpa [times] using h

theorem halfway_unit {a b : V3 ℝ} (hz : a.z + b.z ≠ 0) : sq (halfway a b) = 1 ∧ (halfway a b).z ≠ 0 := by
  have hpos : 0 < (a.x + b.x) ^ 2 + (a.y + b.y) ^ 2 + (a.z + b.z) ^ 2 := by positivity
  have hL := Real.sqrt_pos.2 hpos
  have hL2 := Real.sq_sqrt hpos.le
  simp only [halfway, times, plus, Spec.sq] at *
  generalize Real.sqrt ((a.x + b.x) ^ 2 + (a.y + b.y) ^ 2 + (a.z + b.z) ^ 2) = L at *
  constructor
  · field_simp; linarith
  · exact mul_ne_zero (by positivity) hz

theorem smith_nonneg (ax ay : ℝ) (w : V3 ℝ) : 0 ≤ smith ax ay w := by
  unfold smith
  have : 1 ≤ Real.sqrt (1 + ((ax * w.x) ^ 2 + (ay * w.y) ^ 2) / w.z ^ 2) := by
    rw [Real.one_le_sqrt]
    have : 0 ≤ ((ax * w.x) ^ 2 + (ay * w.y) ^ 2) / w.z ^ 2 := by positivity
    linarith
  linarith

theorem ggx_nonneg {ax ay : ℝ} (hx : 0 < ax) (hy : 0 < ay) (h : V3 ℝ) : 0 ≤ ggx ax ay h := by
  unfold ggx; have := Real.pi_pos; positivity

theorem passage_value {t : Spectrum ℝ} {m : Microfacet ℝ} (hx : 0 < m.ax) (hy : 0 < m.ay) {eta : ℝ} (he : 0 < eta) {wo wi : V3 ℝ} (h1 : sq wo = 1) (h2 : sq wi = 1)
    (hz : wo.z * wi.z < 0) (hh : wo.z + farIndex eta wo.z / nearIndex eta wo.z * wi.z ≠ 0)
    (hi : Spec.inner (upward (halfway wo (times (farIndex eta wo.z / nearIndex eta wo.z) wi))) wo ≠ 0) (c : Chan) (ht : 0 ≤ c.of t) :
    c.of ((microfacetTransmission t 1 eta m).f wo wi) = c.of t * passage m.ax m.ay (nearIndex eta wo.z) (farIndex eta wo.z) (glassShare eta) wo wi := by
  have z1 : wo.z ≠ 0 := by intro h; rw [h] at hz; simp at hz
  have z2 : wi.z ≠ 0 := by intro h; rw [h] at hz; simp at hz
  have hη : (if 0 < wo.z then eta / 1 else 1 / eta) = farIndex eta wo.z / nearIndex eta wo.z := by
    unfold farIndex nearIndex; split_ifs <;> rfl
  obtain ⟨g1, g2⟩ := halfway_unit (a := wo) (b := times (farIndex eta wo.z / nearIndex eta wo.z) wi) (by simpa [times] using hh)
  set η := farIndex eta wo.z / nearIndex eta wo.z with hηd
  have hs : sameHemisphere wo wi = false := by unfold sameHemisphere; real_ops; simpa using hz.le
  have hc : ((cosTheta wo ==. (lit 0 : ℝ)) || (cosTheta wi ==. (lit 0 : ℝ))) = false := by unfold cosTheta; real_ops; simp [z1, z2]
  have hη' : (if (cosTheta wo >. (lit 0 : ℝ)) = true then eta /. 1 else 1 /. eta) = η := by rw [← hη]; unfold cosTheta; real_ops
  have hsm : wi.smul η = times η wi := by ext <;> simp only [V3.smul, times] <;> real_ops <;> ring
  have hup : ∀ v : V3 ℝ, (if (v.z <. (lit 0 : ℝ)) = true then v.smul (⊖(lit 1)) else v) = upward v := by
    intro v
    have : v.smul (⊖(lit 1 : ℝ)) = times (-1) v := by ext <;> simp only [V3.smul, times] <;> real_ops <;> ring
    rw [this]; unfold upward; real_ops
  simp only [microfacetTransmission, MicrofacetTransmission.f, hs, hc, hη', hsm, normalize_halfway, hup, Bool.false_eq_true, if_false]
  set h := upward (halfway wo (times η wi)) with hhd
  have u1 : sq h = 1 := by rw [hhd, upward_sq, g1]
  have u2 : h.z ≠ 0 := upward_z g2
  have d1 : h.dot wo = Spec.inner h wo := by simp only [V3.dot, Spec.inner]; real_ops
  have d2 : wo.dot h = Spec.inner wo h := by simp only [V3.dot, Spec.inner]; real_ops
  have d3 : wi.dot h = Spec.inner wi h := by simp only [V3.dot, Spec.inner]; real_ops
  rw [c82_distribution hx hy u1 u2, c82_masking h1 h2 z1 z2, d1, d2, d3]
  simp only [fresnelDielectric, share_value hi (cos_le_one u1 h1)]
  have hF : glassShare eta (Spec.inner h wo) ≤ 1 := by
    rw [← share_value hi (cos_le_one u1 h1)]; exact (c55_dielectric_range _ _ _ one_pos he).2
  rw [passage]
  simp only [← hηd, ← hhd]
  have s1 := smith_nonneg m.ax m.ay wo
  have s2 := smith_nonneg m.ax m.ay wi
  have s3 := ggx_nonneg hx hy h
  have s4 : 0 ≤ 1 - glassShare eta (Spec.inner h wo) := by linarith
  have key : ∀ t : ℝ, 0 ≤ t → |t * ggx m.ax m.ay h * (1 / (1 + smith m.ax m.ay wo + smith m.ax m.ay wi)) * (-glassShare eta (Spec.inner h wo) + 1) * |Spec.inner wi h| * |Spec.inner wo h| /
      ((Spec.inner wo h + Spec.inner wi h * η) * (Spec.inner wo h + Spec.inner wi h * η) * wo.z * wi.z)| =
      t * (ggx m.ax m.ay h * (1 / (1 + smith m.ax m.ay wo + smith m.ax m.ay wi)) * (1 - glassShare eta (Spec.inner h wo)) * |Spec.inner wi h| * |Spec.inner wo h| /
    ((Spec.inner wo h + η * Spec.inner wi h) ^ 2 * |wo.z| * |wi.z|)) := by
    intro t ht
    rw [abs_div, abs_mul _ wi.z, abs_mul _ wo.z, abs_mul_self, abs_of_nonneg (by rw [show -glassShare eta (Spec.inner h wo) + 1 = 1 - glassShare eta (Spec.inner h wo) by ring]; positivity)]
    rw [show (Spec.inner wo h + η * Spec.inner wi h) ^ 2 = (Spec.inner wo h + Spec.inner wi h * η) * (Spec.inner wo h + Spec.inner wi h * η) by ring]
    ring
  cases c <;> simp only [Chan.of, Spectrum.sdiv, Spectrum.mul, Spectrum.smul, Spectrum.abs, Spectrum.sadd, Spectrum.neg, Spectrum.of, cosTheta] <;> real_ops <;> exact key _ ht

theorem rough_glass_components [HasInf ℝ] (kr kt : TextureOf ℝ (Spectrum ℝ)) (eta ru rv : TextureOf ℝ ℝ) {i : Interaction ℝ} (hkr : Colour (kr i))
    (hkt : Colour (kt i)) (hu : 0 < ru i) :
    glassMaterial kr kt eta ru rv i = { BSDF.new i with bxdfs :=
      (if (kr i).isBlack then [] else [microfacetReflection (kr i) ⟨ru i, rv i⟩ (fresnelDielectric (lit 1) (eta i))]) ++
      (if (kt i).isBlack then [] else [microfacetTransmission (kt i) (lit 1) (eta i) ⟨ru i, rv i⟩]) } := by
  unfold glassMaterial
  rw [colour_clamped hkr, colour_clamped hkt]
  have hr' : ((ru i ==. lit 0 : Bool)) = false := by real_ops; simp [hu.ne']
  simp only [hr']
  by_cases b1 : (kr i).isBlack = true <;> by_cases b2 : (kt i).isBlack = true <;> simp [b1, b2, BSDF.add, BSDF.new]

/-- C82: on its own side rough glass scatters the reflection colour times the Torrance–Sparrow model; the Fresnel factor is that of light arriving
from the air, whichever side that is. -/
theorem c82_rough_glass_reflects [HasInf ℝ] (kr kt : TextureOf ℝ (Spectrum ℝ)) (eta ru rv : TextureOf ℝ ℝ) {i : Interaction ℝ} (h : Smooth i)
    (hkr : Colour (kr i)) (hkt : Colour (kt i)) (hu : 0 < ru i) (hv : 0 < rv i) {wo wi : V3 ℝ} (h1 : sq wo = 1) (h2 : sq wi = 1)
    (hz : 0 < Spec.inner wo i.sn * Spec.inner wi i.sn) (hside : SameSide i wo wi) (c : Chan) :
    c.of ((glassMaterial kr kt eta ru rv i).f wo wi) = c.of (kr i) * gloss (ru i) (rv i) (boundary 1 (eta i)) (local3 i wo) (local3 i wi) := by
  have z1 : Spec.inner wo i.sn ≠ 0 := by intro h; rw [h] at hz; simp at hz
  rw [rough_glass_components kr kt eta ru rv hkr hkt hu, value_of h _ wi z1]
  simp only [hside, decide_true]
  rw [sumF_append _ _ (by split_ifs <;> simp) (by split_ifs <;> simp)]
  have e2 : c.of (BSDF.sumF (if (kt i).isBlack then [] else [microfacetTransmission (kt i) (lit 1) (eta i) ⟨ru i, rv i⟩]) true
      (local3 i wo) (local3 i wi)) = c.of (kt i) * 0 := by
    refine sumF_optional ?_
    rw [sumF_one]
    simp only [(flags (kr i) (kt i) ⟨ru i, rv i⟩ (fun _ => Spectrum.zero) (lit 1) (eta i)).2.2.2.2]
    simp
  rw [e2, mul_zero, add_zero]
  refine sumF_optional ?_
  rw [sumF_one]
  simp only [(flags (kr i) (kt i) ⟨ru i, rv i⟩ (fresnelDielectric (lit 1) (eta i)) (lit 1) (eta i)).2.2.2.1, Bool.and_self, Bool.true_or, if_true]
  refine gloss_value (kr i) hu hv _ (by rw [local3_sq h, h1]) (by rw [local3_sq h, h2]) hz c _ ?_
  intro x h0 h1
  rw [← boundary_value h0 h1]
  simp only [fresnelDielectric]
  cases c <;> simp only [Chan.of, Spectrum.of] <;> real_ops

/-- C82: through to the other side it scatters the transmission colour times the model of Walter et al., with the share that the facet does not
reflect. -/
theorem c82_rough_glass_transmits [HasInf ℝ] (kr kt : TextureOf ℝ (Spectrum ℝ)) (eta ru rv : TextureOf ℝ ℝ) {i : Interaction ℝ} (h : Smooth i)
    (hkr : Colour (kr i)) (hkt : Colour (kt i)) (hu : 0 < ru i) (hv : 0 < rv i) (heta : 0 < eta i) {wo wi : V3 ℝ} (h1 : sq wo = 1) (h2 : sq wi = 1)
    (hz : Spec.inner wo i.sn * Spec.inner wi i.sn < 0) (hside : ¬ SameSide i wo wi) (c : Chan)
    (hh : Spec.inner wo i.sn + farIndex (eta i) (Spec.inner wo i.sn) / nearIndex (eta i) (Spec.inner wo i.sn) * Spec.inner wi i.sn ≠ 0)
    (hi : Spec.inner (upward (halfway (local3 i wo) (times (farIndex (eta i) (Spec.inner wo i.sn) / nearIndex (eta i) (Spec.inner wo i.sn)) (local3 i wi))))
      (local3 i wo) ≠ 0) :
    c.of ((glassMaterial kr kt eta ru rv i).f wo wi) =
      c.of (kt i) * passage (ru i) (rv i) (nearIndex (eta i) (Spec.inner wo i.sn)) (farIndex (eta i) (Spec.inner wo i.sn)) (glassShare (eta i))
        (local3 i wo) (local3 i wi) := by
  have z1 : Spec.inner wo i.sn ≠ 0 := by intro h; rw [h] at hz; simp at hz
  rw [rough_glass_components kr kt eta ru rv hkr hkt hu, value_of h _ wi z1]
  simp only [hside, decide_false]
  rw [sumF_append _ _ (by split_ifs <;> simp) (by split_ifs <;> simp)]
  have e2 : c.of (BSDF.sumF (if (kr i).isBlack then [] else [microfacetReflection (kr i) ⟨ru i, rv i⟩ (fresnelDielectric (lit 1) (eta i))]) false
      (local3 i wo) (local3 i wi)) = c.of (kr i) * 0 := by
    refine sumF_optional ?_
    rw [sumF_one]
    simp only [(flags (kr i) (kt i) ⟨ru i, rv i⟩ (fresnelDielectric (lit 1) (eta i)) (lit 1) (eta i)).2.2.2.1]
    simp
  rw [e2, mul_zero, zero_add]
  refine sumF_optional ?_
  rw [sumF_one]
  simp only [(flags (kr i) (kt i) ⟨ru i, rv i⟩ (fresnelDielectric (lit 1) (eta i)) (lit 1) (eta i)).2.2.2.2, Bool.and_self, Bool.not_false, Bool.false_and, Bool.false_or, if_true]
  have one : (lit 1 : ℝ) = 1 := by real_ops
  rw [one]
  exact passage_value (m := ⟨ru i, rv i⟩) hu hv heta (by rw [local3_sq h, h1]) (by rw [local3_sq h, h2]) hz hh hi c (hkt c).1

/-! ## Which side's reflectance (C83) -/

theorem fresnel_lt_one {ni nt ci ct : ℝ} (hi : 0 < ni) (ht : 0 < nt) (hci : 0 < ci) (hct : 0 < ct) : fresnel ni nt ci ct < 1 := by
  have key : ∀ a b : ℝ, 0 < a → 0 < b → ((a - b) / (a + b)) ^ 2 < 1 := by
    intro a b ha hb
    rw [div_pow, div_lt_one (by positivity)]
    nlinarith [mul_pos ha hb]
  have k1 := key (nt * ci) (ni * ct) (by positivity) (by positivity)
  have k2 := key (ni * ci) (nt * ct) (by positivity) (by positivity)
  simp only [fresnel] at *
  linarith

/-- Below the critical angle part of the light gets through. -/
theorem boundary_lt_one {ni nt c : ℝ} (hi : 0 < ni) (ht : 0 < nt) (hc : 0 < c) (hc1 : c ≤ 1) (h : ni / nt * Real.sqrt (1 - c ^ 2) < 1) : boundary ni nt c < 1 := by
  rw [boundary, if_neg (not_le.2 h)]
  refine fresnel_lt_one hi ht hc (Real.sqrt_pos.2 ?_)
  have hs := Real.sq_sqrt (show 0 ≤ 1 - c ^ 2 by nlinarith)
  have hn : 0 ≤ ni / nt * Real.sqrt (1 - c ^ 2) := by positivity
  have : (ni / nt * Real.sqrt (1 - c ^ 2)) ^ 2 < 1 := by nlinarith
  rw [mul_pow, hs] at this
  linarith

theorem ggx_pos {ax ay : ℝ} (hx : 0 < ax) (hy : 0 < ay) {h : V3 ℝ} (hz : h.z ≠ 0) : 0 < ggx ax ay h := by
  unfold ggx; have := Real.pi_pos; positivity

theorem gloss_strict {ax ay : ℝ} (hx : 0 < ax) (hy : 0 < ay) {F G : ℝ → ℝ} {wo wi : V3 ℝ} (h1 : sq wo = 1) (h2 : sq wi = 1) (hz : 0 < wo.z * wi.z)
    (h : F (Spec.inner (halfway wo wi) wi) < G (Spec.inner (halfway wo wi) wi)) : gloss ax ay F wo wi < gloss ax ay G wo wi := by
  have z1 : wo.z ≠ 0 := by intro h; rw [h] at hz; simp at hz
  have z2 : wi.z ≠ 0 := by intro h; rw [h] at hz; simp at hz
  obtain ⟨-, g2, -, -⟩ := halfway_facts h1 h2 hz
  have g5 : (halfway wo wi).z ≠ 0 := by intro h; rw [h] at g2; simp at g2
  have s1 := smith_nonneg ax ay wo
  have s2 := smith_nonneg ax ay wi
  have s3 := ggx_pos hx hy g5
  unfold gloss
  gcongr

namespace Spec
/-- The share that the boundary of a medium of index `n` in air reflects, for light on the side given by the sign of `side`. -/
noncomputable def rightShare (n side : ℝ) : ℝ → ℝ := if 0 < side then boundary 1 n else boundary n 1
end Spec

/-- C83, where it holds: rough glass seen from the air. (Smooth glass, from both sides, is `c82_glass_reflects`.) -/
theorem c83_rough_glass_partial [HasInf ℝ] (kr kt : TextureOf ℝ (Spectrum ℝ)) (eta ru rv : TextureOf ℝ ℝ) {i : Interaction ℝ} (h : Smooth i)
    (hkr : Colour (kr i)) (hkt : Colour (kt i)) (hu : 0 < ru i) (hv : 0 < rv i) {wo wi : V3 ℝ} (h1 : sq wo = 1) (h2 : sq wi = 1)
    (hzo : 0 < Spec.inner wo i.sn) (hzi : 0 < Spec.inner wi i.sn) (hside : SameSide i wo wi) (c : Chan) :
    c.of ((glassMaterial kr kt eta ru rv i).f wo wi) =
      c.of (kr i) * gloss (ru i) (rv i) (rightShare (eta i) (Spec.inner wo i.sn)) (local3 i wo) (local3 i wi) := by
  rw [c82_rough_glass_reflects kr kt eta ru rv h hkr hkt hu hv h1 h2 (mul_pos hzo hzi) hside c, rightShare, if_pos hzo]

/-- C83 refuted for rough glass seen from inside: wherever light would be totally reflected, the material reflects less than it should. -/
theorem c83_rough_glass_inside_too_dim [HasInf ℝ] (kr kt : TextureOf ℝ (Spectrum ℝ)) (eta ru rv : TextureOf ℝ ℝ) {i : Interaction ℝ} (h : Smooth i)
    (hkr : Colour (kr i)) (hkt : Colour (kt i)) (hu : 0 < ru i) (hv : 0 < rv i) (heta : 1 ≤ eta i) {wo wi : V3 ℝ} (h1 : sq wo = 1) (h2 : sq wi = 1)
    (hzo : Spec.inner wo i.sn < 0) (hzi : Spec.inner wi i.sn < 0) (hside : SameSide i wo wi)
    (htotal : 1 ≤ eta i * Real.sqrt (1 - Spec.inner (halfway (local3 i wo) (local3 i wi)) (local3 i wi) ^ 2)) (c : Chan) (hc : c.of (kr i) ≠ 0) :
    c.of ((glassMaterial kr kt eta ru rv i).f wo wi) <
      c.of (kr i) * gloss (ru i) (rv i) (rightShare (eta i) (Spec.inner wo i.sn)) (local3 i wo) (local3 i wi) := by
  have hz : 0 < Spec.inner wo i.sn * Spec.inner wi i.sn := mul_pos_of_neg_of_neg hzo hzi
  have l1 : sq (local3 i wo) = 1 := by rw [local3_sq h, h1]
  have l2 : sq (local3 i wi) = 1 := by rw [local3_sq h, h2]
  rw [c82_rough_glass_reflects kr kt eta ru rv h hkr hkt hu hv h1 h2 hz hside c, rightShare, if_neg (not_lt.2 hzo.le)]
  have hp : 0 < c.of (kr i) := lt_of_le_of_ne (hkr c).1 (Ne.symm hc)
  refine mul_lt_mul_of_pos_left (gloss_strict hu hv l1 l2 hz ?_) hp
  obtain ⟨-, -, g3, g4⟩ := halfway_facts l1 l2 hz
  generalize Spec.inner (halfway (local3 i wo) (local3 i wi)) (local3 i wi) = x at *
  have e : boundary (eta i) 1 x = 1 := by rw [boundary, if_pos (by simpa using htotal)]
  rw [e]
  refine boundary_lt_one one_pos (by linarith) g3 g4 ?_
  have hs : Real.sqrt (1 - x ^ 2) < 1 := by
    rw [Real.sqrt_lt' one_pos]; nlinarith
  have hs0 := Real.sqrt_nonneg (1 - x ^ 2)
  rw [one_div, inv_mul_lt_iff₀ (by linarith)]
  linarith

/-- C83 refuted for rough plastic seen from outside: beyond the angle at which light inside would be totally reflected, the gloss is brighter than
that of a medium of index 1.5, because the two indices are swapped. -/
theorem c83_plastic_too_bright [HasInf ℝ] (kd ks : TextureOf ℝ (Spectrum ℝ)) (rough : TextureOf ℝ ℝ) {i : Interaction ℝ} (h : Smooth i) (hd : Colour (kd i))
    (hs : Colour (ks i)) (hr : 0 < rough i) {wo wi : V3 ℝ} (h1 : sq wo = 1) (h2 : sq wi = 1) (hzo : 0 < Spec.inner wo i.sn) (hzi : 0 < Spec.inner wi i.sn)
    (hside : SameSide i wo wi)
    (htotal : 1 ≤ 3 / 2 * Real.sqrt (1 - Spec.inner (halfway (local3 i wo) (local3 i wi)) (local3 i wi) ^ 2)) (c : Chan) (hc : c.of (ks i) ≠ 0) :
    c.of (kd i) / Real.pi + c.of (ks i) * gloss (rough i) (rough i) (rightShare (3 / 2) (Spec.inner wo i.sn)) (local3 i wo) (local3 i wi) <
      c.of ((plasticMaterial kd ks rough i).f wo wi) := by
  have hz : 0 < Spec.inner wo i.sn * Spec.inner wi i.sn := mul_pos hzo hzi
  have l1 : sq (local3 i wo) = 1 := by rw [local3_sq h, h1]
  have l2 : sq (local3 i wi) = 1 := by rw [local3_sq h, h2]
  rw [c82_plastic kd ks rough h hd hs hr h1 h2 hz hside c, rightShare, if_pos hzo]
  have hp : 0 < c.of (ks i) := lt_of_le_of_ne (hs c).1 (Ne.symm hc)
  refine add_lt_add_right (mul_lt_mul_of_pos_left (gloss_strict hr hr l1 l2 hz ?_) hp) _
  obtain ⟨-, -, g3, g4⟩ := halfway_facts l1 l2 hz
  generalize Spec.inner (halfway (local3 i wo) (local3 i wi)) (local3 i wi) = x at *
  have e : boundary (3 / 2) 1 x = 1 := by rw [boundary, if_pos (by simpa using htotal)]
  rw [e]
  refine boundary_lt_one one_pos (by norm_num) g3 g4 ?_
  have hs : Real.sqrt (1 - x ^ 2) < 1 := by
    rw [Real.sqrt_lt' one_pos]; nlinarith
  linarith [Real.sqrt_nonneg (1 - x ^ 2)]

/-- C82: smooth plastic without a diffuse part is a mirror with the swapped reflectance. -/
theorem c82_smooth_plastic [HasInf ℝ] (kd ks : TextureOf ℝ (Spectrum ℝ)) (rough : TextureOf ℝ ℝ) {i : Interaction ℝ} (h : Smooth i) (hd : kd i = Spectrum.zero)
    (hs : Colour (ks i)) (hinf : 0 ≤ (HasInf.infinity : ℝ)) (hb : ∃ c : Chan, c.of (ks i) ≠ 0) (hr : rough i = 0) {wo : V3 ℝ} (h1 : sq wo = 1) (hwo : 0 < Spec.inner wo i.sn)
    {u : V2 ℝ} (hu : Canonical u.x) :
    ∃ f, (plasticMaterial kd ks rough i).sampleF wo u = some (mirrored wo i.sn, f, 1, REFLECTION ||| SPECULAR) ∧
      ∀ c : Chan, c.of f * |Spec.inner (mirrored wo i.sn) i.sn| = c.of (ks i) * boundary (3 / 2) 1 (Spec.inner wo i.sn) := by
  obtain ⟨c, hc⟩ := hb
  have hd' : Colour (kd i) := by rw [hd]; intro c; rw [chan_zero]; exact ⟨le_refl _, hinf⟩
  have hbd : (kd i).isBlack = true := by rw [hd]; simp only [Spectrum.isBlack, Spectrum.zero]; real_ops; simp
  have e : plasticMaterial kd ks rough i = { BSDF.new i with bxdfs := [specularReflection (ks i) (fresnelDielectric (lit (3 / 2)) (lit 1))] } := by
    unfold plasticMaterial
    rw [colour_clamped hd', colour_clamped hs]
    have e1 : ((rough i ==. lit 0 : Bool)) = true := by real_ops; simp [hr]
    simp only [e1, not_black hc, hbd]
    rfl
  rw [e]
  obtain ⟨f, g1, g2⟩ := specular_sample h (ks i) (fresnelDielectric (lit (3 / 2)) (lit 1)) hwo.ne' hu
  refine ⟨f, g1, fun c => ?_⟩
  rw [g2, ← boundary_value hwo ((le_abs_self _).trans (cos_le_one h1 h.1))]
  simp only [fresnelDielectric]
  cases c <;> simp only [Chan.of, Spectrum.of] <;> real_ops

/-! ## The hypotheses are met -/

/-- A surface point with vertical normal, seen at an angle. -/
noncomputable def Demo.flat : Interaction ℝ := ⟨⟨0, 0, 0⟩, ⟨0, 0, 0⟩, ⟨0, 0⟩, ⟨0, 0, 1⟩, ⟨0, 0, 1⟩, ⟨2, 0, 0⟩, ⟨0, 1, 0⟩, ⟨4 / 5, 0, 3 / 5⟩⟩

theorem Demo.flat_smooth : Smooth Demo.flat := by
  refine ⟨by norm_num [Demo.flat, Spec.sq], ?_, by norm_num [Demo.flat, Spec.inner]⟩
  intro h; have := congrArg V3.x h; simp only [Demo.flat, V3.zero] at this; real_ops at this; norm_num at this

theorem Demo.flat_local (v : V3 ℝ) : local3 Demo.flat v = v := by
  have : Real.sqrt (Spec.sq Demo.flat.dpdu) = 2 := by
    rw [show Spec.sq Demo.flat.dpdu = 2 ^ 2 by norm_num [Demo.flat, Spec.sq]]; exact Real.sqrt_sq (by norm_num)
  ext <;> simp only [local3, this] <;> simp [Demo.flat, Spec.inner, vprod]

/-- Light at the mirror angle of a view 53 degrees off the normal; the same from below. -/
theorem Demo.mirror_half : Spec.inner (halfway ⟨4 / 5, 0, 3 / 5⟩ ⟨-4 / 5, 0, 3 / 5⟩) ⟨-4 / 5, 0, 3 / 5⟩ = 3 / 5 ∧
    Spec.inner (halfway ⟨4 / 5, 0, -3 / 5⟩ ⟨-4 / 5, 0, -3 / 5⟩) ⟨-4 / 5, 0, -3 / 5⟩ = 3 / 5 := by
  have e1 : Real.sqrt ((4 / 5 + -4 / 5 : ℝ) ^ 2 + (0 + 0) ^ 2 + (3 / 5 + 3 / 5) ^ 2) = 6 / 5 := by
    rw [show ((4 / 5 + -4 / 5 : ℝ) ^ 2 + (0 + 0) ^ 2 + (3 / 5 + 3 / 5) ^ 2) = (6 / 5) ^ 2 by norm_num]; exact Real.sqrt_sq (by norm_num)
  have e2 : Real.sqrt ((4 / 5 + -4 / 5 : ℝ) ^ 2 + (0 + 0) ^ 2 + (-3 / 5 + -3 / 5) ^ 2) = 6 / 5 := by
    rw [show ((4 / 5 + -4 / 5 : ℝ) ^ 2 + (0 + 0) ^ 2 + (-3 / 5 + -3 / 5) ^ 2) = (6 / 5) ^ 2 by norm_num]; exact Real.sqrt_sq (by norm_num)
  constructor <;> simp only [halfway, times, plus, Spec.inner, e1, e2] <;> norm_num

theorem Demo.sine : Real.sqrt (1 - (3 / 5 : ℝ) ^ 2) = 4 / 5 := by
  rw [show (1 : ℝ) - (3 / 5) ^ 2 = (4 / 5) ^ 2 by norm_num]; exact Real.sqrt_sq (by norm_num)

theorem Demo.white_colour [HasInf ℝ] (h : 1 ≤ (HasInf.infinity : ℝ)) : Colour (⟨1, 1, 1⟩ : Spectrum ℝ) := by
  intro c; cases c <;> exact ⟨zero_le_one, h⟩

/-- A rough plastic surface is seen at an angle at which the theorem applies. -/
example [HasInf ℝ] (hinf : 1 ≤ (HasInf.infinity : ℝ)) :=
  c83_plastic_too_bright (fun _ => ⟨1, 1, 1⟩) (fun _ => ⟨1, 1, 1⟩) (fun _ => 1 / 2) Demo.flat_smooth (Demo.white_colour hinf) (Demo.white_colour hinf)
    (by norm_num) (wo := ⟨4 / 5, 0, 3 / 5⟩) (wi := ⟨-4 / 5, 0, 3 / 5⟩) (by norm_num [Spec.sq]) (by norm_num [Spec.sq])
    (by norm_num [Spec.inner, Demo.flat]) (by norm_num [Spec.inner, Demo.flat]) (by norm_num [SameSide, Spec.inner, Demo.flat])
    (by rw [Demo.flat_local, Demo.flat_local, Demo.mirror_half.1, Demo.sine]; norm_num) .r (by norm_num [Chan.of])

/-- So is rough glass of index 3/2, from inside. -/
example [HasInf ℝ] (hinf : 1 ≤ (HasInf.infinity : ℝ)) :=
  c83_rough_glass_inside_too_dim (fun _ => ⟨1, 1, 1⟩) (fun _ => ⟨1, 1, 1⟩) (fun _ => 3 / 2) (fun _ => 1 / 2) (fun _ => 1 / 3) Demo.flat_smooth
    (Demo.white_colour hinf) (Demo.white_colour hinf) (by norm_num) (by norm_num) (by norm_num) (wo := ⟨4 / 5, 0, -3 / 5⟩) (wi := ⟨-4 / 5, 0, -3 / 5⟩)
    (by norm_num [Spec.sq]) (by norm_num [Spec.sq]) (by norm_num [Spec.inner, Demo.flat]) (by norm_num [Spec.inner, Demo.flat])
    (by norm_num [SameSide, Spec.inner, Demo.flat]) (by rw [Demo.flat_local, Demo.flat_local, Demo.mirror_half.2, Demo.sine]; norm_num) .r (by norm_num [Chan.of])

/-- And from the air. -/
example [HasInf ℝ] (hinf : 1 ≤ (HasInf.infinity : ℝ)) :=
  c83_rough_glass_partial (fun _ => ⟨1, 1, 1⟩) (fun _ => ⟨1, 1, 1⟩) (fun _ => 3 / 2) (fun _ => 1 / 2) (fun _ => 1 / 3) Demo.flat_smooth
    (Demo.white_colour hinf) (Demo.white_colour hinf) (by norm_num) (by norm_num) (wo := ⟨4 / 5, 0, 3 / 5⟩) (wi := ⟨-4 / 5, 0, 3 / 5⟩)
    (by norm_num [Spec.sq]) (by norm_num [Spec.sq]) (by norm_num [Spec.inner, Demo.flat]) (by norm_num [Spec.inner, Demo.flat])
    (by norm_num [SameSide, Spec.inner, Demo.flat]) .r

/-- Light that passes the rough glass straight through. -/
example [HasInf ℝ] (hinf : 1 ≤ (HasInf.infinity : ℝ)) :=
  c82_rough_glass_transmits (fun _ => ⟨1, 1, 1⟩) (fun _ => ⟨1, 1, 1⟩) (fun _ => 3 / 2) (fun _ => 1 / 2) (fun _ => 1 / 3) Demo.flat_smooth
    (Demo.white_colour hinf) (Demo.white_colour hinf) (by norm_num) (by norm_num) (by norm_num) (wo := ⟨0, 0, 1⟩) (wi := ⟨0, 0, -1⟩)
    (by norm_num [Spec.sq]) (by norm_num [Spec.sq]) (by norm_num [Spec.inner, Demo.flat])
    (by norm_num [SameSide, Spec.inner, Demo.flat]) .r (by norm_num [Spec.inner, Demo.flat, farIndex, nearIndex])
    (by
      rw [Demo.flat_local, Demo.flat_local]
      have e : Real.sqrt ((1 / 2 : ℝ) ^ 2) = 1 / 2 := Real.sqrt_sq (by norm_num)
      norm_num at e
      norm_num [Spec.inner, Demo.flat, farIndex, nearIndex, upward, halfway, times, plus, e])

/-- A mirror, smooth metal, smooth plastic and both events at smooth glass. -/
example [HasInf ℝ] (hinf : 1 ≤ (HasInf.infinity : ℝ)) :=
  c82_mirror (fun _ => ⟨1, 1, 1⟩) Demo.flat_smooth (Demo.white_colour hinf) ⟨.r, by norm_num [Chan.of]⟩ (wo := ⟨4 / 5, 0, 3 / 5⟩)
    (by norm_num [Spec.inner, Demo.flat]) (u := ⟨1 / 3, 1 / 2⟩) ⟨by norm_num, by norm_num⟩

example [HasInf ℝ] (hinf : 1 ≤ (HasInf.infinity : ℝ)) :=
  c82_smooth_metal (fun _ => ⟨1, 1, 1⟩) (fun _ => ⟨1 / 5, 1, 3 / 2⟩) (fun _ => ⟨3, 2, 2⟩) (fun _ => 0) (fun _ => 0) Demo.flat_smooth (Demo.white_colour hinf)
    rfl rfl (wo := ⟨4 / 5, 0, 3 / 5⟩) (by norm_num [Spec.sq]) (by norm_num [Spec.inner, Demo.flat]) (u := ⟨1 / 3, 1 / 2⟩) ⟨by norm_num, by norm_num⟩

example [HasInf ℝ] (hinf : 1 ≤ (HasInf.infinity : ℝ)) :=
  c82_smooth_plastic (fun _ => Spectrum.zero) (fun _ => ⟨1, 1, 1⟩) (fun _ => 0) Demo.flat_smooth rfl (Demo.white_colour hinf) (by linarith)
    ⟨.r, by norm_num [Chan.of]⟩ rfl (wo := ⟨4 / 5, 0, 3 / 5⟩) (by norm_num [Spec.sq]) (by norm_num [Spec.inner, Demo.flat]) (u := ⟨1 / 3, 1 / 2⟩)
    ⟨by norm_num, by norm_num⟩

example [HasInf ℝ] (hinf : 1 ≤ (HasInf.infinity : ℝ)) :=
  c82_glass_reflects (fun _ => ⟨1, 1, 1⟩) (fun _ => ⟨1, 1, 1⟩) (fun _ => 3 / 2) (fun _ => 0) (fun _ => 0) Demo.flat_smooth (Demo.white_colour hinf)
    (Demo.white_colour hinf) ⟨.r, by norm_num [Chan.of]⟩ ⟨.r, by norm_num [Chan.of]⟩ rfl rfl (wo := ⟨4 / 5, 0, 3 / 5⟩) (by norm_num [Spec.sq])
    (by norm_num [Spec.inner, Demo.flat]) (u := ⟨1 / 3, 1 / 2⟩) ⟨by norm_num, by norm_num⟩ (by norm_num)

/-- From the air light gets into smooth glass; from inside, at the same angle, it does not get out. -/
example [HasInf ℝ] (hinf : 1 ≤ (HasInf.infinity : ℝ)) :
    (∃ wi f, (glassMaterial (fun _ => ⟨1, 1, 1⟩) (fun _ => ⟨1, 1, 1⟩) (fun _ => 3 / 2) (fun _ => 0) (fun _ => 0) Demo.flat).sampleF ⟨4 / 5, 0, 3 / 5⟩ ⟨2 / 3, 1 / 2⟩ =
      some (wi, f, 1 / 2, TRANSMISSION ||| SPECULAR)) ∧
    (glassMaterial (fun _ => ⟨1, 1, 1⟩) (fun _ => ⟨1, 1, 1⟩) (fun _ => 3 / 2) (fun _ => 0) (fun _ => 0) Demo.flat).sampleF ⟨4 / 5, 0, -3 / 5⟩ ⟨2 / 3, 1 / 2⟩ =
      some BSDF.noSample := by
  have hs := Demo.sine
  have hs' : Real.sqrt (1 - (-3 / 5 : ℝ) ^ 2) = 4 / 5 := by rw [← hs]; norm_num
  constructor
  · obtain ⟨-, g⟩ := c82_glass_transmits (fun _ => ⟨1, 1, 1⟩) (fun _ => ⟨1, 1, 1⟩) (fun _ => 3 / 2) (fun _ => 0) (fun _ => 0) Demo.flat_smooth (Demo.white_colour hinf)
      (Demo.white_colour hinf) ⟨.r, by norm_num [Chan.of]⟩ ⟨.r, by norm_num [Chan.of]⟩ rfl rfl (by norm_num) (wo := ⟨4 / 5, 0, 3 / 5⟩) (by norm_num [Spec.sq])
      (by norm_num [Spec.inner, Demo.flat]) (u := ⟨2 / 3, 1 / 2⟩) ⟨by norm_num, by norm_num⟩ (by norm_num)
    have e : Spec.inner ⟨4 / 5, 0, 3 / 5⟩ Demo.flat.sn = 3 / 5 := by norm_num [Spec.inner, Demo.flat]
    rw [e] at g
    obtain ⟨wi, f, g1, -⟩ := g (by rw [hs]; norm_num [nearIndex, farIndex])
    exact ⟨wi, f, g1⟩
  · obtain ⟨g, -⟩ := c82_glass_transmits (fun _ => ⟨1, 1, 1⟩) (fun _ => ⟨1, 1, 1⟩) (fun _ => 3 / 2) (fun _ => 0) (fun _ => 0) Demo.flat_smooth (Demo.white_colour hinf)
      (Demo.white_colour hinf) ⟨.r, by norm_num [Chan.of]⟩ ⟨.r, by norm_num [Chan.of]⟩ rfl rfl (by norm_num) (wo := ⟨4 / 5, 0, -3 / 5⟩) (by norm_num [Spec.sq])
      (by norm_num [Spec.inner, Demo.flat]) (u := ⟨2 / 3, 1 / 2⟩) ⟨by norm_num, by norm_num⟩ (by norm_num)
    have e : Spec.inner ⟨4 / 5, 0, -3 / 5⟩ Demo.flat.sn = -3 / 5 := by norm_num [Spec.inner, Demo.flat]
    rw [e] at g
    exact g (by rw [hs']; norm_num [nearIndex, farIndex])

/-- Metal and plastic with a view and a light on the same side, matte with any light. -/
example [HasInf ℝ] (hinf : 1 ≤ (HasInf.infinity : ℝ)) :=
  c82_metal (fun _ => ⟨1, 1, 1⟩) (fun _ => ⟨1 / 5, 1, 3 / 2⟩) (fun _ => ⟨3, 2, 2⟩) (fun _ => 1 / 2) (fun _ => 1 / 3) Demo.flat_smooth (Demo.white_colour hinf)
    (by norm_num) (by norm_num) (wo := ⟨4 / 5, 0, 3 / 5⟩) (wi := ⟨0, 3 / 5, 4 / 5⟩) (by norm_num [Spec.sq]) (by norm_num [Spec.sq])
    (by norm_num [Spec.inner, Demo.flat]) (by norm_num [SameSide, Spec.inner, Demo.flat]) .g

/-- Every complex index has a reflectance. -/
example (n : ℂ) : ∃ F, Conducts n F := by
  choose w hw using fun c : ℝ => transmitted_exists c n
  exact ⟨fun c => waveReflectance c n (w c), fun c _ _ => ⟨w c, hw c, rfl⟩⟩

example [HasInf ℝ] (hinf : 1 ≤ (HasInf.infinity : ℝ)) :=
  c82_plastic (fun _ => ⟨1, 1, 1⟩) (fun _ => ⟨1, 1, 1⟩) (fun _ => 1 / 2) Demo.flat_smooth (Demo.white_colour hinf) (Demo.white_colour hinf)
    (by norm_num) (wo := ⟨4 / 5, 0, 3 / 5⟩) (wi := ⟨0, 3 / 5, 4 / 5⟩) (by norm_num [Spec.sq]) (by norm_num [Spec.sq])
    (by norm_num [Spec.inner, Demo.flat]) (by norm_num [SameSide, Spec.inner, Demo.flat]) .b

example [HasInf ℝ] (hinf : 1 ≤ (HasInf.infinity : ℝ)) :
    Chan.r.of ((lambertianMaterial (fun _ => ⟨1, 1, 1⟩) Demo.flat).f ⟨4 / 5, 0, 3 / 5⟩ ⟨0, 3 / 5, 4 / 5⟩) = 1 / Real.pi := by
  rw [c82_matte (fun _ => ⟨1, 1, 1⟩) Demo.flat_smooth (Demo.white_colour hinf) _ (by norm_num [Spec.inner, Demo.flat]),
    if_pos (by norm_num [SameSide, Spec.inner, Demo.flat])]
  rfl

end PT
