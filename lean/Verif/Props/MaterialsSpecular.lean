import Verif.Props.Materials

/-!
# What smooth materials scatter (C82): mirrors, smooth metal and smooth glass
-/

namespace PT
open Spec

namespace Spec
/-- The share of light that smooth glass of index `eta` (in air) reflects, for a direction at cosine `c` on either side. -/
noncomputable def glassShare (eta c : ℝ) : ℝ := if 0 < c then boundary 1 eta c else boundary eta 1 (-c)
/-- The index of the medium on the side of a direction at cosine `c` and on the other side. -/
noncomputable def nearIndex (eta c : ℝ) : ℝ := if 0 < c then 1 else eta
noncomputable def farIndex (eta c : ℝ) : ℝ := if 0 < c then eta else 1
/-- The part of a vector along the surface with normal `n`. -/
def tangential (v n : V3 ℝ) : V3 ℝ := ⟨v.x - inner v n * n.x, v.y - inner v n * n.y, v.z - inner v n * n.z⟩
end Spec

theorem world_z {b : BSDF ℝ} (h : Frame b) (l : V3 ℝ) : Spec.inner (b.localToWorld l) b.sn = l.z := by
  have := congrArg V3.z (frame_inverse b h l)
  simpa [BSDF.worldToLocal, V3.dot, Spec.inner, r_mul, r_add] using this

theorem world_mirrored {i : Interaction ℝ} (h : Smooth i) (wo : V3 ℝ) :
    (BSDF.new i).localToWorld ⟨-(local3 i wo).x, -(local3 i wo).y, (local3 i wo).z⟩ = mirrored wo i.sn := by
  have hb := frame_inverse' (BSDF.new i) (smooth_frame h) wo
  rw [local3_eq h] at hb
  have hn : (BSDF.new i).sn = i.sn := rfl
  have hz : (local3 i wo).z = Spec.inner wo i.sn := rfl
  have hx := congrArg V3.x hb
  have hy := congrArg V3.y hb
  have hz' := congrArg V3.z hb
  simp only [BSDF.localToWorld] at hx hy hz' ⊢
  real_ops at hx hy hz'
  simp only [hn] at hx hy hz' ⊢
  rw [mirrored, ← hz]
  real_ops
  ext <;> simp only []
  · linear_combination -hx
  · linear_combination -hy
  · linear_combination -hz'

theorem mirrored_cos {n : V3 ℝ} (hn : sq n = 1) (wo : V3 ℝ) : Spec.inner (mirrored wo n) n = Spec.inner wo n := by
  simp only [mirrored, Spec.inner, Spec.sq] at *
  linear_combination (2 * (wo.x * n.x + wo.y * n.y + wo.z * n.z)) * hn

theorem specular_sample {i : Interaction ℝ} (h : Smooth i) (r : Spectrum ℝ) (fr : Fresnel ℝ) {wo : V3 ℝ} (hwo : Spec.inner wo i.sn ≠ 0) {u : V2 ℝ}
    (hu : Canonical u.x) :
    ∃ f, ({ BSDF.new i with bxdfs := [specularReflection r fr] } : BSDF ℝ).sampleF wo u = some (mirrored wo i.sn, f, 1, REFLECTION ||| SPECULAR) ∧
      ∀ c : Chan, c.of f * |Spec.inner (mirrored wo i.sn) i.sn| = c.of r * c.of (fr (Spec.inner wo i.sn)) := by
  set b : BSDF ℝ := { BSDF.new i with bxdfs := [specularReflection r fr] } with hb
  have e : ∀ v, b.worldToLocal v = local3 i v := fun v => by rw [← local3_eq h]; rfl
  have hz : (local3 i wo).z = Spec.inner wo i.sn := rfl
  have hw := world_mirrored h wo
  refine ⟨(r.mul (fr (Spec.inner wo i.sn))).sdiv |Spec.inner wo i.sn|, ?_, ?_⟩
  · rw [single_sampleF (b := b) (x := specularReflection r fr) rfl wo hu, e, hz, if_neg hwo]
    simp only [specularReflection, cosTheta, absCosTheta]
    real_ops
    rw [if_neg one_ne_zero]
    have e2 : b.localToWorld = (BSDF.new i).localToWorld := rfl
    rw [e2, hw, hz]
  · intro c
    have ha : |Spec.inner wo i.sn| ≠ 0 := abs_ne_zero.2 hwo
    rw [mirrored_cos h.1]
    cases c <;> simp only [Chan.of, Spectrum.sdiv, Spectrum.mul] <;> real_ops <;> field_simp

theorem not_black {s : Spectrum ℝ} {c : Chan} (h : c.of s ≠ 0) : s.isBlack = false := by
  by_contra hb
  exact h (black_zero (by simpa using hb) c)

/-- C82: a mirror sends the light in the mirror direction, multiplied by its colour. -/
theorem c82_mirror [HasInf ℝ] (kr : TextureOf ℝ (Spectrum ℝ)) {i : Interaction ℝ} (h : Smooth i) (hk : Colour (kr i)) (hb : ∃ c : Chan, c.of (kr i) ≠ 0)
    {wo : V3 ℝ} (hwo : Spec.inner wo i.sn ≠ 0) {u : V2 ℝ} (hu : Canonical u.x) :
    ∃ f, (mirrorMaterial kr i).sampleF wo u = some (mirrored wo i.sn, f, 1, REFLECTION ||| SPECULAR) ∧
      ∀ c : Chan, c.of f * |Spec.inner (mirrored wo i.sn) i.sn| = c.of (kr i) := by
  obtain ⟨c, hc⟩ := hb
  have e : mirrorMaterial kr i = { BSDF.new i with bxdfs := [specularReflection (kr i) fresnelNoOp] } := by
    unfold mirrorMaterial
    rw [colour_clamped hk]
    simp only [not_black hc]
    rfl
  rw [e]
  obtain ⟨f, h1, h2⟩ := specular_sample h (kr i) fresnelNoOp hwo hu
  refine ⟨f, h1, fun c => ?_⟩
  rw [h2]
  cases c <;> simp only [Chan.of, fresnelNoOp, Spectrum.of] <;> real_ops <;> ring

theorem conductor_channel {eta k : Spectrum ℝ} {c : Chan} {F : ℝ → ℝ} (hF : Conducts ⟨c.of eta, c.of k⟩ F) {x : ℝ} (h1 : |x| ≤ 1) :
    c.of (fresnelConductor (Spectrum.of (lit 1)) eta k x) = F |x| := by
  obtain ⟨w, hw, e⟩ := hF |x| (abs_nonneg x) h1
  rw [e, fresnelConductor_channels, min_eq_left h1]
  have hc : ∀ ni nt k : ℝ, ni = 1 → Transmitted |x| ⟨nt, k⟩ w → condChannel |x| ni nt k = waveReflectance |x| ⟨nt, k⟩ w := by
    rintro ni nt k rfl hw
    have := condChannel_value (c := |x|) (ni := 1) (nt := nt) (k := k) w (by simpa using hw)
    simpa using this
  cases c <;> simp only [Chan.of, Spectrum.of] at * <;> exact hc _ _ _ (by real_ops) hw

theorem cos_le_one {a b : V3 ℝ} (ha : sq a = 1) (hb : sq b = 1) : |Spec.inner a b| ≤ 1 := by
  simp only [Spec.sq, Spec.inner] at *
  rw [abs_le]
  constructor
  · nlinarith [sq_nonneg (a.x + b.x), sq_nonneg (a.y + b.y), sq_nonneg (a.z + b.z)]
  · nlinarith [sq_nonneg (a.x - b.x), sq_nonneg (a.y - b.y), sq_nonneg (a.z - b.z)]

/-- C82: smooth metal is a mirror whose colour is multiplied by the reflectance of its complex index. -/
theorem c82_smooth_metal [HasInf ℝ] (r eta k : TextureOf ℝ (Spectrum ℝ)) (ru rv : TextureOf ℝ ℝ) {i : Interaction ℝ} (h : Smooth i) (hk : Colour (r i))
    (hu0 : ru i = 0) (hv0 : rv i = 0) {wo : V3 ℝ} (h1 : sq wo = 1) (hwo : Spec.inner wo i.sn ≠ 0) {u : V2 ℝ} (hu : Canonical u.x) :
    ∃ f, (metalMaterial r eta k ru rv i).sampleF wo u = some (mirrored wo i.sn, f, 1, REFLECTION ||| SPECULAR) ∧
      ∀ (c : Chan) (F : ℝ → ℝ), Conducts ⟨c.of (eta i), c.of (k i)⟩ F →
        c.of f * |Spec.inner (mirrored wo i.sn) i.sn| = c.of (r i) * F |Spec.inner wo i.sn| := by
  set fr : Fresnel ℝ := fresnelConductor (Spectrum.of (lit 1)) (eta i) (k i) with hfr
  have e : metalMaterial r eta k ru rv i = { BSDF.new i with bxdfs := [specularReflection (r i) fr] } := by
    unfold metalMaterial
    rw [colour_clamped hk]
    have e1 : ((ru i ==. lit 0 : Bool)) = true := by real_ops; simp [hu0]
    have e2 : ((rv i ==. lit 0 : Bool)) = true := by real_ops; simp [hv0]
    simp only [e1, e2]
    rfl
  rw [e]
  obtain ⟨f, g1, g2⟩ := specular_sample h (r i) fr hwo hu
  refine ⟨f, g1, fun c F hF => ?_⟩
  rw [g2, hfr, conductor_channel hF (cos_le_one h1 h.1)]

/-! ## Smooth glass -/

theorem specular_flag_r (r : Spectrum ℝ) (fr : Fresnel ℝ) : (specularReflection r fr).hasFlag SPECULAR = true := by
  simp [BxDF.hasFlag, specularReflection, REFLECTION, SPECULAR]

theorem specular_flag_t (t : Spectrum ℝ) (a b : ℝ) : (specularTransmission t a b).hasFlag SPECULAR = true := by
  simp [BxDF.hasFlag, specularTransmission, TRANSMISSION, SPECULAR]

/-- The part of a refracted direction along the surface. -/
theorem transmission_tangent {eta : ℝ} {wo : V3 ℝ} (t : Spectrum ℝ) (u : V2 ℝ) (h : ((specularTransmission t 1 eta).sampleF wo u).2.2 ≠ 0) :
    ((specularTransmission t 1 eta).sampleF wo u).1.x = -(nearIndex eta wo.z / farIndex eta wo.z) * wo.x ∧
    ((specularTransmission t 1 eta).sampleF wo u).1.y = -(nearIndex eta wo.z / farIndex eta wo.z) * wo.y := by
  revert h
  simp only [specularTransmission, refract, cosTheta, noLocalSample, nearIndex, farIndex]
  real_ops
  by_cases hz : 0 < wo.z
  · simp only [hz, decide_true, if_true]
    split_ifs
    · intro h; exact absurd (by real_ops) h
    · intro _
      simp only [V3.add, V3.smul, V3.neg]
      real_ops
      constructor <;> ring
  · simp only [hz, decide_false, if_false, Bool.false_eq_true]
    split_ifs
    · intro h; exact absurd (by real_ops) h
    · intro _
      simp only [V3.add, V3.smul, V3.neg]
      real_ops
      constructor <;> ring

/-- One of two specular components is picked. -/
theorem pair_sampleF {b : BSDF ℝ} {x y : BxDF ℝ} (hb : b.bxdfs = [x, y]) (hx : x.hasFlag SPECULAR = true) (hy : y.hasFlag SPECULAR = true) (wo : V3 ℝ)
    (hwo : (b.worldToLocal wo).z ≠ 0) {u : V2 ℝ} (hu : Canonical u.x) :
    ∃ z : BxDF ℝ, ∃ u' : V2 ℝ, (if u.x < 1 / 2 then z = x else z = y) ∧
      b.sampleF wo u = if (z.sampleF (b.worldToLocal wo) u').2.2 = 0 then some BSDF.noSample else
        some (b.localToWorld (z.sampleF (b.worldToLocal wo) u').1, (z.sampleF (b.worldToLocal wo) u').2.1,
          (z.sampleF (b.worldToLocal wo) u').2.2 / 2, z.flag) := by
  by_cases h : u.x < 1 / 2
  · have hk : toUsize (Scalar.floor (u.x *. ofInt ((2 : ℕ) : ℤ))) = 0 := by
      have hf : ⌊u.x * 2⌋ = 0 := Int.floor_eq_zero_iff.2 ⟨by linarith [hu.1], by linarith⟩
      simp only [toUsize]; real_ops
      push_cast
      simp [hf, truncInt, satInt]
    refine ⟨x, ⟨u.x * 2 - ((0 : ℕ) : ℤ), u.y⟩, by rw [if_pos h], ?_⟩
    unfold BSDF.sampleF
    simp only [hb, List.length_cons, List.length_nil, hk]
    real_ops
    simp only [List.getElem?_cons_zero, hwo, if_false, hx]
    simp
  · have hk : toUsize (Scalar.floor (u.x *. ofInt ((2 : ℕ) : ℤ))) = 1 := by
      have hf : ⌊u.x * 2⌋ = 1 := Int.floor_eq_iff.2 ⟨by push_cast; linarith, by push_cast; linarith [hu.2]⟩
      simp only [toUsize]; real_ops
      push_cast
      simp [hf, truncInt, satInt]
    refine ⟨y, ⟨u.x * 2 - ((1 : ℕ) : ℤ), u.y⟩, by rw [if_neg h], ?_⟩
    unfold BSDF.sampleF
    simp only [hb, List.length_cons, List.length_nil, hk]
    real_ops
    simp only [List.getElem?_cons_succ, List.getElem?_cons_zero, hwo, if_false, hy]
    simp

theorem share_value {eta x : ℝ} (h0 : x ≠ 0) (h1 : |x| ≤ 1) : frDielectric x 1 eta = glassShare eta x := by
  unfold glassShare
  obtain ⟨l, r⟩ := abs_le.1 h1
  split_ifs with h
  · exact boundary_value h r
  · rw [← boundary_value (x := -x) (by rcases lt_or_gt_of_ne h0 with h' | h' <;> linarith) (by linarith), frDielectric_neg (not_lt.1 h) l,
      frDielectric_pos (c := -x) (by rcases lt_or_gt_of_ne h0 with h' | h' <;> linarith) (by linarith), neg_sq]

theorem glass_components [HasInf ℝ] (kr kt : TextureOf ℝ (Spectrum ℝ)) (eta ru rv : TextureOf ℝ ℝ) {i : Interaction ℝ} (hkr : Colour (kr i)) (hkt : Colour (kt i))
    (hbr : ∃ c : Chan, c.of (kr i) ≠ 0) (hbt : ∃ c : Chan, c.of (kt i) ≠ 0) (hu0 : ru i = 0) (hv0 : rv i = 0) :
    glassMaterial kr kt eta ru rv i = { BSDF.new i with bxdfs :=
      [specularReflection (kr i) (fresnelDielectric (lit 1) (eta i)), specularTransmission (kt i) (lit 1) (eta i)] } := by
  obtain ⟨c, hc⟩ := hbr
  obtain ⟨c', hc'⟩ := hbt
  unfold glassMaterial
  rw [colour_clamped hkr, colour_clamped hkt]
  have e1 : ((ru i ==. lit 0 : Bool)) = true := by real_ops; simp [hu0]
  have e2 : ((rv i ==. lit 0 : Bool)) = true := by real_ops; simp [hv0]
  simp only [e1, e2, not_black hc, not_black hc']
  rfl

/-- C82: half of the samples of smooth glass are reflected in the mirror direction and carry (their probability of one half taken into account)
the reflected share of the light times the reflection colour. -/
theorem c82_glass_reflects [HasInf ℝ] (kr kt : TextureOf ℝ (Spectrum ℝ)) (eta ru rv : TextureOf ℝ ℝ) {i : Interaction ℝ} (h : Smooth i)
    (hkr : Colour (kr i)) (hkt : Colour (kt i)) (hbr : ∃ c : Chan, c.of (kr i) ≠ 0) (hbt : ∃ c : Chan, c.of (kt i) ≠ 0) (hu0 : ru i = 0) (hv0 : rv i = 0)
    {wo : V3 ℝ} (h1 : sq wo = 1) (hwo : Spec.inner wo i.sn ≠ 0) {u : V2 ℝ} (hu : Canonical u.x) (hu2 : u.x < 1 / 2) :
    ∃ f, (glassMaterial kr kt eta ru rv i).sampleF wo u = some (mirrored wo i.sn, f, 1 / 2, REFLECTION ||| SPECULAR) ∧
      ∀ c : Chan, c.of f * |Spec.inner (mirrored wo i.sn) i.sn| = c.of (kr i) * glassShare (eta i) (Spec.inner wo i.sn) := by
  rw [glass_components kr kt eta ru rv hkr hkt hbr hbt hu0 hv0]
  set b : BSDF ℝ := { BSDF.new i with bxdfs :=
      [specularReflection (kr i) (fresnelDielectric (lit 1) (eta i)), specularTransmission (kt i) (lit 1) (eta i)] } with hb
  have e : ∀ v, b.worldToLocal v = local3 i v := fun v => by rw [← local3_eq h]; rfl
  have hz : (local3 i wo).z = Spec.inner wo i.sn := rfl
  obtain ⟨z, u', hzz, hs⟩ := pair_sampleF (b := b) rfl (specular_flag_r _ _) (specular_flag_t _ _ _) wo (by rw [e, hz]; exact hwo) hu
  rw [if_pos hu2] at hzz
  subst hzz
  have hw := world_mirrored h wo
  have hF := share_value (eta := eta i) hwo (cos_le_one h1 h.1)
  refine ⟨((kr i).mul (fresnelDielectric (lit 1) (eta i) (Spec.inner wo i.sn))).sdiv |Spec.inner wo i.sn|, ?_, ?_⟩
  · rw [hs, e]
    simp only [specularReflection, cosTheta, absCosTheta]
    real_ops
    rw [if_neg one_ne_zero]
    have e2 : b.localToWorld = (BSDF.new i).localToWorld := rfl
    rw [e2, hw, hz]
  · intro c
    have ha : |Spec.inner wo i.sn| ≠ 0 := abs_ne_zero.2 hwo
    rw [mirrored_cos h.1, ← hF]
    cases c <;> simp only [Chan.of, Spectrum.sdiv, Spectrum.mul, fresnelDielectric, Spectrum.of] <;> real_ops <;> field_simp

/-- C82: the other half is refracted: where the light gets through, along the direction of Snell's law, carrying the transmitted share times the
transmission colour times the squared index ratio; where it does not, nothing is sampled. -/
theorem c82_glass_transmits [HasInf ℝ] (kr kt : TextureOf ℝ (Spectrum ℝ)) (eta ru rv : TextureOf ℝ ℝ) {i : Interaction ℝ} (h : Smooth i)
    (hkr : Colour (kr i)) (hkt : Colour (kt i)) (hbr : ∃ c : Chan, c.of (kr i) ≠ 0) (hbt : ∃ c : Chan, c.of (kt i) ≠ 0) (hu0 : ru i = 0) (hv0 : rv i = 0)
    (heta : 0 < eta i) {wo : V3 ℝ} (h1 : sq wo = 1) (hwo : Spec.inner wo i.sn ≠ 0) {u : V2 ℝ} (hu : Canonical u.x) (hu2 : 1 / 2 ≤ u.x) :
    let ni := nearIndex (eta i) (Spec.inner wo i.sn)
    let nt := farIndex (eta i) (Spec.inner wo i.sn)
    (1 ≤ ni / nt * Real.sqrt (1 - Spec.inner wo i.sn ^ 2) → (glassMaterial kr kt eta ru rv i).sampleF wo u = some BSDF.noSample) ∧
    (¬ 1 ≤ ni / nt * Real.sqrt (1 - Spec.inner wo i.sn ^ 2) →
      ∃ wi f, (glassMaterial kr kt eta ru rv i).sampleF wo u = some (wi, f, 1 / 2, TRANSMISSION ||| SPECULAR) ∧
        sq wi = 1 ∧ Spec.inner wi i.sn * Spec.inner wo i.sn < 0 ∧ times nt (tangential wi i.sn) = times (-ni) (tangential wo i.sn) ∧
        ∀ c : Chan, c.of f * |Spec.inner wi i.sn| = c.of (kt i) * (1 - glassShare (eta i) (Spec.inner wo i.sn)) * (ni / nt) ^ 2) := by
  intro ni nt
  rw [glass_components kr kt eta ru rv hkr hkt hbr hbt hu0 hv0]
  set b : BSDF ℝ := { BSDF.new i with bxdfs :=
      [specularReflection (kr i) (fresnelDielectric (lit 1) (eta i)), specularTransmission (kt i) (lit 1) (eta i)] } with hb
  have e : ∀ v, b.worldToLocal v = local3 i v := fun v => by rw [← local3_eq h]; rfl
  have hz : (local3 i wo).z = Spec.inner wo i.sn := rfl
  obtain ⟨z, u', hzz, hs⟩ := pair_sampleF (b := b) rfl (specular_flag_r _ _) (specular_flag_t _ _ _) wo (by rw [e, hz]; exact hwo) hu
  rw [if_neg (not_lt.2 hu2)] at hzz
  subst hzz
  have hF := share_value (eta := eta i) hwo (cos_le_one h1 h.1)
  have hl1 : sq (local3 i wo) = 1 := by rw [local3_sq h, h1]
  have one : (lit 1 : ℝ) = 1 := by real_ops
  rw [one] at hs
  obtain ⟨g1, g2⟩ := specularTransmission_sample heta hl1 (by rw [hz]; exact hwo) (kt i) u'
  rw [hz] at g1 g2
  rw [e] at hs
  refine ⟨fun ht => ?_, fun ht => ?_⟩
  · rw [hs, g1 ht, if_pos rfl]
  · obtain ⟨k1, k2, k3, k4, k5, k6⟩ := g2 ht
    obtain ⟨tx, ty⟩ := transmission_tangent (eta := eta i) (wo := local3 i wo) (kt i) u' (by rw [k5]; exact one_ne_zero)
    have e2 : ∀ v, b.localToWorld v = (BSDF.new i).localToWorld v := fun _ => rfl
    have hf := smooth_frame h
    have hnt : nt ≠ 0 := by simp only [nt, farIndex]; split_ifs <;> positivity
    have hn : (BSDF.new i).sn = i.sn := rfl
    rw [hz] at tx ty
    change _ = -(ni / nt) * _ at tx
    change _ = -(ni / nt) * _ at ty
    change _ = Spectrum.mk (_ * _ / _ * (ni * ni) / (nt * nt)) (_ * _ / _ * (ni * ni) / (nt * nt)) (_ * _ / _ * (ni * ni) / (nt * nt)) at k6
    set s := (specularTransmission (kt i) 1 (eta i)).sampleF (local3 i wo) u' with hsd
    have hwz : Spec.inner ((BSDF.new i).localToWorld s.1) i.sn = s.1.z := by rw [← hn]; exact world_z hf _
    refine ⟨(BSDF.new i).localToWorld s.1, s.2.1, ?_, ?_, ?_, ?_, ?_⟩
    · rw [hs, e2, k5, if_neg one_ne_zero]; rfl
    · rw [← local3_sq h, ← local3_eq h, frame_inverse _ hf]; exact k3
    · rw [hwz]; exact k2
    · have hb := frame_inverse' (BSDF.new i) hf wo
      rw [local3_eq h] at hb
      have hx := congrArg V3.x hb
      have hy := congrArg V3.y hb
      have hz' := congrArg V3.z hb
      simp only [times, tangential, hwz]
      rw [← hz]
      simp only [BSDF.localToWorld] at hx hy hz' ⊢
      real_ops at hx hy hz'
      real_ops
      simp only [hn] at hx hy hz' ⊢
      rw [tx, ty, ← hx, ← hy, ← hz']
      ext <;> simp only [] <;> field_simp <;> ring
    · intro c
      have ha : |s.1.z| ≠ 0 := abs_ne_zero.2 k1
      rw [hwz, k6, ← hF]
      cases c <;> simp only [Chan.of] <;> field_simp

end PT
