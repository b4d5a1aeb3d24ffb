import Verif.Props.FresnelValue
import Verif.Props.SampleDist
import Verif.Props.TransformMeaning
import Verif.Props.Glass
import Verif.Props.Frame

/-!
# What each material scatters (C82)
-/

namespace PT

namespace Spec
/-- All channels are non-negative and representable. -/
def Colour [HasInf ℝ] (s : Spectrum ℝ) : Prop := ∀ c : Chan, 0 ≤ c.of s ∧ c.of s ≤ HasInf.infinity
/-- The Trowbridge–Reitz distribution, in terms of the slopes of the microfacet with unit normal `h`. -/
noncomputable def ggx (ax ay : ℝ) (h : V3 ℝ) : ℝ :=
  1 / (Real.pi * ax * ay * h.z ^ 4 * (1 + (h.x / (ax * h.z)) ^ 2 + (h.y / (ay * h.z)) ^ 2) ^ 2)
/-- Smith's masking: invisible microfacet area per visible area. -/
noncomputable def smith (ax ay : ℝ) (w : V3 ℝ) : ℝ := (Real.sqrt (1 + ((ax * w.x) ^ 2 + (ay * w.y) ^ 2) / w.z ^ 2) - 1) / 2
/-- The unit vector halfway. -/
noncomputable def halfway (a b : V3 ℝ) : V3 ℝ :=
  times (1 / Real.sqrt ((a.x + b.x) ^ 2 + (a.y + b.y) ^ 2 + (a.z + b.z) ^ 2)) (plus a b)
/-- The Torrance–Sparrow model of unit reflectance with Fresnel factor `F`, in coordinates with the surface normal along `z`. -/
noncomputable def gloss (ax ay : ℝ) (F : ℝ → ℝ) (wo wi : V3 ℝ) : ℝ :=
  ggx ax ay (halfway wo wi) * (1 / (1 + smith ax ay wo + smith ax ay wi)) * F (inner (halfway wo wi) wi) / (4 * |wo.z| * |wi.z|)
/-- The reflectance of the boundary between two dielectrics for light arriving in the medium of index `ni` at cosine `c > 0`. -/
noncomputable def boundary (ni nt c : ℝ) : ℝ :=
  if 1 ≤ ni / nt * Real.sqrt (1 - c ^ 2) then 1 else fresnel ni nt c (Real.sqrt (1 - (ni / nt) ^ 2 * (1 - c ^ 2)))
/-- `F` is the reflectance of a medium of complex index `n`. -/
def Conducts (n : ℂ) (F : ℝ → ℝ) : Prop := ∀ c, 0 ≤ c → c ≤ 1 → ∃ w, Transmitted c n w ∧ F c = waveReflectance c n w
/-- Coordinates of `v` in the shading frame of an interaction: along the tangent, the bitangent and the normal. -/
noncomputable def local3 (i : Interaction ℝ) (v : V3 ℝ) : V3 ℝ := ⟨inner v i.dpdu / Real.sqrt (sq i.dpdu), inner v (vprod i.sn i.dpdu) / Real.sqrt (sq i.dpdu), inner v i.sn⟩
/-- The direction mirrored about the normal. -/
def mirrored (wo n : V3 ℝ) : V3 ℝ := ⟨2 * inner wo n * n.x - wo.x, 2 * inner wo n * n.y - wo.y, 2 * inner wo n * n.z - wo.z⟩
/-- A surface point whose tangent is a non-zero vector perpendicular to the unit shading normal. -/
def Smooth (i : Interaction ℝ) : Prop := sq i.sn = 1 ∧ i.dpdu ≠ V3.zero ∧ inner i.dpdu i.sn = 0
/-- Two directions on the same side of the surface, with respect to the geometric normal. -/
def SameSide (i : Interaction ℝ) (a b : V3 ℝ) : Prop := 0 < inner b i.n * inner a i.n
end Spec
open Spec

theorem colour_clamped [HasInf ℝ] {k : TextureOf ℝ (Spectrum ℝ)} {i : Interaction ℝ} (h : Colour (k i)) : clampedTex k i = k i := by
  have h1 := h .r; have h2 := h .g; have h3 := h .b
  simp only [Chan.of] at h1 h2 h3
  unfold clampedTex Spectrum.clamp PT.clamp
  real_ops
  simp [not_lt.2 h1.1, not_lt.2 h1.2, not_lt.2 h2.1, not_lt.2 h2.2, not_lt.2 h3.1, not_lt.2 h3.2]

theorem black_zero {s : Spectrum ℝ} (h : s.isBlack = true) (c : Chan) : c.of s = 0 := by
  unfold Spectrum.isBlack at h
  real_ops at h
  cases c <;> simp only [Chan.of] <;> simp_all

/-! ## The microfacet distribution -/

theorem sinTheta_sq {w : V3 ℝ} (h : sq w = 1) : max (1 - w.z * w.z) 0 = w.x ^ 2 + w.y ^ 2 := by
  simp only [Spec.sq] at h
  rw [max_eq_left (by nlinarith [sq_nonneg w.x, sq_nonneg w.y])]; linarith

theorem phi_squares {w : V3 ℝ} (h : sq w = 1) (hs : w.x ^ 2 + w.y ^ 2 ≠ 0) :
    cos2Phi w = w.x ^ 2 / (w.x ^ 2 + w.y ^ 2) ∧ sin2Phi w = w.y ^ 2 / (w.x ^ 2 + w.y ^ 2) := by
  have hp : 0 < w.x ^ 2 + w.y ^ 2 := lt_of_le_of_ne (by positivity) (Ne.symm hs)
  have hsp := Real.sqrt_pos.2 hp
  have hs2 := Real.sq_sqrt hp.le
  have b1 : -1 ≤ w.x / Real.sqrt (w.x ^ 2 + w.y ^ 2) ∧ w.x / Real.sqrt (w.x ^ 2 + w.y ^ 2) ≤ 1 := by
    rw [le_div_iff₀ hsp, div_le_one hsp]; constructor <;> nlinarith [sq_nonneg w.y]
  have b2 : -1 ≤ w.y / Real.sqrt (w.x ^ 2 + w.y ^ 2) ∧ w.y / Real.sqrt (w.x ^ 2 + w.y ^ 2) ≤ 1 := by
    rw [le_div_iff₀ hsp, div_le_one hsp]; constructor <;> nlinarith [sq_nonneg w.x]
  constructor
  · simp only [cos2Phi, cosPhi, sinTheta, sin2Theta, cos2Theta, PT.clamp]; real_ops
    rw [sinTheta_sq h]
    simp only [hsp.ne', if_false, not_lt.2 b1.1, not_lt.2 b1.2]
    rw [div_mul_div_comm, ← pow_two, ← pow_two, hs2]
  · simp only [sin2Phi, sinPhi, sinTheta, sin2Theta, cos2Theta, PT.clamp]; real_ops
    rw [sinTheta_sq h]
    simp only [hsp.ne', if_false, not_lt.2 b2.1, not_lt.2 b2.2]
    rw [div_mul_div_comm, ← pow_two, ← pow_two, hs2]

/-- C82: the distribution of microfacet normals is the Trowbridge–Reitz one. -/
theorem c82_distribution {m : Microfacet ℝ} (hx : 0 < m.ax) (hy : 0 < m.ay) {h : V3 ℝ} (h1 : sq h = 1) (hz : h.z ≠ 0) : m.d h = ggx m.ax m.ay h := by
  have hpi := Real.pi_pos
  simp only [Microfacet.d, tan2Theta, sin2Theta, cos2Theta]
  simp only [r_isInf, Bool.false_eq_true, if_false]
  real_ops
  rw [sinTheta_sq h1]
  have e : (cos2Phi h / (m.ax * m.ax) + sin2Phi h / (m.ay * m.ay)) * ((h.x ^ 2 + h.y ^ 2) / (h.z * h.z)) = (h.x / (m.ax * h.z)) ^ 2 + (h.y / (m.ay * h.z)) ^ 2 := by
    by_cases hs : h.x ^ 2 + h.y ^ 2 = 0
    · have ex : h.x = 0 := by nlinarith [sq_nonneg h.x, sq_nonneg h.y]
      have ey : h.y = 0 := by nlinarith [sq_nonneg h.x, sq_nonneg h.y]
      rw [hs, ex, ey]; simp
    · obtain ⟨e1, e2⟩ := phi_squares h1 hs
      rw [e1, e2]
      generalize hq : h.x ^ 2 + h.y ^ 2 = q at *
      field_simp
  rw [e, ggx]
  congr 1
  ring

/-- C82: the masking term is Smith's. -/
theorem c82_masking {m : Microfacet ℝ} {wo wi : V3 ℝ} (h1 : sq wo = 1) (h2 : sq wi = 1) (hz1 : wo.z ≠ 0) (hz2 : wi.z ≠ 0) :
    m.g wo wi = 1 / (1 + smith m.ax m.ay wo + smith m.ax m.ay wi) := by
  have key : ∀ w : V3 ℝ, sq w = 1 → w.z ≠ 0 → m.lambda w = smith m.ax m.ay w := by
    intro w h hz
    simp only [Microfacet.lambda, tanTheta, sinTheta, sin2Theta, cos2Theta, cosTheta]
    simp only [r_isInf, Bool.false_eq_true, if_false]
    real_ops
    rw [sinTheta_sq h]
    have e : Real.sqrt (cos2Phi w * (m.ax * m.ax) + sin2Phi w * (m.ay * m.ay)) * |Real.sqrt (w.x ^ 2 + w.y ^ 2) / w.z| *
        (Real.sqrt (cos2Phi w * (m.ax * m.ax) + sin2Phi w * (m.ay * m.ay)) * |Real.sqrt (w.x ^ 2 + w.y ^ 2) / w.z|) =
        ((m.ax * w.x) ^ 2 + (m.ay * w.y) ^ 2) / w.z ^ 2 := by
      have hnn : 0 ≤ cos2Phi w * (m.ax * m.ax) + sin2Phi w * (m.ay * m.ay) := by
        have a1 : 0 ≤ cos2Phi w := by simp only [cos2Phi]; real_ops; exact mul_self_nonneg _
        have a2 : 0 ≤ sin2Phi w := by simp only [sin2Phi]; real_ops; exact mul_self_nonneg _
        have := mul_self_nonneg m.ax; have := mul_self_nonneg m.ay; positivity
      rw [mul_mul_mul_comm, Real.mul_self_sqrt hnn, abs_mul_abs_self, div_mul_div_comm, Real.mul_self_sqrt (by positivity)]
      by_cases hs : w.x ^ 2 + w.y ^ 2 = 0
      · have ex : w.x = 0 := by nlinarith [sq_nonneg w.x, sq_nonneg w.y]
        have ey : w.y = 0 := by nlinarith [sq_nonneg w.x, sq_nonneg w.y]
        rw [hs, ex, ey]; simp
      · obtain ⟨e1, e2⟩ := phi_squares h hs
        rw [e1, e2]
        generalize hq : w.x ^ 2 + w.y ^ 2 = q at *
        field_simp
    rw [e, smith]
    ring
  simp only [Microfacet.g]
  real_ops
  rw [key wo h1 hz1, key wi h2 hz2]

/-! ## Frames -/

theorem sqrt_sq_dpdu {v : V3 ℝ} (h : v ≠ V3.zero) : 0 < Real.sqrt (sq v) := by
  apply Real.sqrt_pos.2
  simp only [Spec.sq]
  by_contra hc
  apply h
  have hx : v.x = 0 := by nlinarith [sq_nonneg v.x, sq_nonneg v.y, sq_nonneg v.z]
  have hy : v.y = 0 := by nlinarith [sq_nonneg v.x, sq_nonneg v.y, sq_nonneg v.z]
  have hz : v.z = 0 := by nlinarith [sq_nonneg v.x, sq_nonneg v.y, sq_nonneg v.z]
  ext <;> simp only [V3.zero, hx, hy, hz] <;> real_ops

theorem smooth_frame {i : Interaction ℝ} (h : Smooth i) : Frame (BSDF.new i) := c60_frame i h.1 h.2.1 h.2.2

theorem local3_eq {i : Interaction ℝ} (h : Smooth i) (v : V3 ℝ) : (BSDF.new i).worldToLocal v = local3 i v := by
  have hl := sqrt_sq_dpdu h.2.1
  have he : i.dpdu.length = Real.sqrt (sq i.dpdu) := length_eq _
  ext <;> simp only [BSDF.worldToLocal, BSDF.new, V3.normalize, V3.dot, V3.cross, local3, Spec.inner, vprod, he] <;> real_ops <;> field_simp

theorem local3_sq {i : Interaction ℝ} (h : Smooth i) (v : V3 ℝ) : sq (local3 i v) = sq v := by
  rw [← local3_eq h]
  obtain ⟨f1, f2, f3, f4, f5, f6⟩ := smooth_frame h
  have hb := frame_inverse' (BSDF.new i) (smooth_frame h) v
  conv_rhs => rw [← hb]
  generalize (BSDF.new i).worldToLocal v = l
  simp only [BSDF.localToWorld, Spec.sq, Spec.inner] at *
  real_ops
  linear_combination (-l.x ^ 2) * f1 - l.y ^ 2 * f2 - l.z ^ 2 * f3 - 2 * l.x * l.y * f4 - 2 * l.x * l.z * f5 - 2 * l.y * l.z * f6

open Classical in
theorem value_of {i : Interaction ℝ} (h : Smooth i) (l : List (BxDF ℝ)) {wo : V3 ℝ} (wi : V3 ℝ) (hz : Spec.inner wo i.sn ≠ 0) :
    ({ BSDF.new i with bxdfs := l } : BSDF ℝ).f wo wi = BSDF.sumF l (decide (SameSide i wo wi)) (local3 i wo) (local3 i wi) := by
  have e : ∀ v, ({ BSDF.new i with bxdfs := l } : BSDF ℝ).worldToLocal v = local3 i v := fun v => by rw [← local3_eq h]; rfl
  simp only [BSDF.f, e]
  have hz' : (local3 i wo).z ≠ 0 := hz
  real_ops
  rw [if_neg hz']
  congr 1

theorem flags (r t : Spectrum ℝ) (m : Microfacet ℝ) (fr : Fresnel ℝ) (a b : ℝ) :
    ((lambertianReflection r).hasFlag REFLECTION = true ∧ (lambertianReflection r).hasFlag TRANSMISSION = false) ∧
    ((specularReflection r fr).hasFlag REFLECTION = true ∧ (specularReflection r fr).hasFlag TRANSMISSION = false) ∧
    ((specularTransmission t a b).hasFlag REFLECTION = false ∧ (specularTransmission t a b).hasFlag TRANSMISSION = true) ∧
    ((microfacetReflection r m fr).hasFlag REFLECTION = true ∧ (microfacetReflection r m fr).hasFlag TRANSMISSION = false) ∧
    ((microfacetTransmission t a b m).hasFlag REFLECTION = false ∧ (microfacetTransmission t a b m).hasFlag TRANSMISSION = true) :=
  by simp [BxDF.hasFlag, lambertianReflection, specularReflection, specularTransmission, microfacetReflection, microfacetTransmission, REFLECTION,
    TRANSMISSION, DIFFUSE, GLOSSY, SPECULAR]

theorem chan_zero (c : Chan) : c.of (Spectrum.zero : Spectrum ℝ) = 0 := by
  cases c <;> simp only [Chan.of, Spectrum.zero] <;> real_ops

theorem chan_add (c : Chan) (a b : Spectrum ℝ) : c.of (a.add b) = c.of a + c.of b := by
  cases c <;> simp only [Chan.of, Spectrum.add] <;> real_ops

open Classical in
/-- C82: a matte surface scatters its colour over π evenly to its own side, and nothing through. -/
theorem c82_matte [HasInf ℝ] (kd : TextureOf ℝ (Spectrum ℝ)) {i : Interaction ℝ} (h : Smooth i) (hk : Colour (kd i)) {wo : V3 ℝ} (wi : V3 ℝ)
    (hwo : Spec.inner wo i.sn ≠ 0) (c : Chan) :
    c.of ((lambertianMaterial kd i).f wo wi) = if SameSide i wo wi then c.of (kd i) / Real.pi else 0 := by
  have hl : ∃ l, lambertianMaterial kd i = { BSDF.new i with bxdfs := l } ∧
      (((kd i).isBlack = true ∧ l = []) ∨ ((kd i).isBlack = false ∧ l = [lambertianReflection (kd i)])) := by
    unfold lambertianMaterial
    rw [colour_clamped hk]
    by_cases hb : (kd i).isBlack = true
    · exact ⟨[], by simp only [hb, if_true]; rfl, .inl ⟨hb, rfl⟩⟩
    · exact ⟨_, by simp only [hb]; rfl, .inr ⟨by simpa using hb, rfl⟩⟩
  obtain ⟨l, e, hl⟩ := hl
  rw [e, value_of h l wi hwo]
  rcases hl with ⟨hb, rfl⟩ | ⟨hb, rfl⟩
  · simp [BSDF.sumF, black_zero hb, chan_zero]
  · simp only [BSDF.sumF, List.foldl_cons, List.foldl_nil, (flags (kd i) (kd i) ⟨0, 0⟩ (fun _ => Spectrum.zero) 0 0).1]
    by_cases hs : SameSide i wo wi
    · simp only [hs, decide_true, Bool.and_self, Bool.true_or, if_true, chan_add, chan_zero, zero_add]
      simp only [lambertianReflection, Lambertian.f]
      cases c <;> simp only [Chan.of, Spectrum.sdiv] <;> real_ops
    · simp [hs, chan_zero]

/-! ## Gloss -/

theorem normalize_halfway (a b : V3 ℝ) : (a.add b).normalize = halfway a b := by
  have e : (a.add b).length = Real.sqrt ((a.x + b.x) ^ 2 + (a.y + b.y) ^ 2 + (a.z + b.z) ^ 2) := by
    rw [length_eq]; simp only [Spec.sq, V3.add]; real_ops
  ext <;> simp only [V3.normalize, e, halfway, times, plus] <;> simp only [V3.add] <;> real_ops <;> ring

theorem halfway_facts {a b : V3 ℝ} (ha : sq a = 1) (hb : sq b = 1) (hz : 0 < a.z * b.z) :
    sq (halfway a b) = 1 ∧ 0 < (halfway a b).z * a.z ∧ 0 < Spec.inner (halfway a b) b ∧ Spec.inner (halfway a b) b ≤ 1 := by
  have hne : 0 < (a.z + b.z) ^ 2 := by nlinarith [sq_nonneg a.z, sq_nonneg b.z, mul_self_nonneg (a.z - b.z)]
  have hpos : 0 < (a.x + b.x) ^ 2 + (a.y + b.y) ^ 2 + (a.z + b.z) ^ 2 := by positivity
  have hL := Real.sqrt_pos.2 hpos
  have hL2 := Real.sq_sqrt hpos.le
  simp only [halfway, times, plus, Spec.sq, Spec.inner] at *
  generalize Real.sqrt ((a.x + b.x) ^ 2 + (a.y + b.y) ^ 2 + (a.z + b.z) ^ 2) = L at *
  have hin : 1 / L * (a.x + b.x) * b.x + 1 / L * (a.y + b.y) * b.y + 1 / L * (a.z + b.z) * b.z = L / 2 := by
    rw [eq_div_iff two_ne_zero]
    field_simp
    nlinarith
  have hz2 : 0 < (a.z + b.z) * a.z := by nlinarith [sq_nonneg a.z]
  refine ⟨?_, ?_, by rw [hin]; positivity, ?_⟩
  · field_simp; linarith
  · rw [mul_assoc]; positivity
  · rw [hin]
    have : L ^ 2 ≤ 4 := by
      rw [hL2]
      nlinarith [sq_nonneg (a.x - b.x), sq_nonneg (a.y - b.y), sq_nonneg (a.z - b.z)]
    nlinarith

theorem gloss_value (r : Spectrum ℝ) {m : Microfacet ℝ} (hx : 0 < m.ax) (hy : 0 < m.ay) (fr : Fresnel ℝ) {wo wi : V3 ℝ} (h1 : sq wo = 1) (h2 : sq wi = 1)
    (hz : 0 < wo.z * wi.z) (c : Chan) (F : ℝ → ℝ) (hF : ∀ x, 0 < x → x ≤ 1 → c.of (fr x) = F x) :
    c.of ((microfacetReflection r m fr).f wo wi) = c.of r * gloss m.ax m.ay F wo wi := by
  have z1 : wo.z ≠ 0 := by intro h; rw [h] at hz; simp at hz
  have z2 : wi.z ≠ 0 := by intro h; rw [h] at hz; simp at hz
  obtain ⟨g1, g2, g3, g4⟩ := halfway_facts h1 h2 hz
  have g5 : (halfway wo wi).z ≠ 0 := by intro h; rw [h] at g2; simp at g2
  have hwh : ¬ ((wo.x + wi.x = 0 ∧ wo.y + wi.y = 0) ∧ wo.z + wi.z = 0) := by
    rintro ⟨_, h⟩
    have : wi.z = -wo.z := by linarith
    rw [this] at hz; nlinarith [sq_nonneg wo.z]
  simp only [microfacetReflection, MicrofacetReflection.f, absCosTheta, normalize_halfway]
  rw [c82_distribution hx hy g1 g5, c82_masking h1 h2 z1 z2]
  have hdot : (halfway wo wi).dot wi = Spec.inner (halfway wo wi) wi := by simp only [V3.dot, Spec.inner]; real_ops
  rw [hdot]
  have hf := hF _ g3 g4
  simp only [V3.add]
  real_ops
  simp only [abs_eq_zero, z1, z2, decide_false, Bool.or_self, Bool.false_eq_true, if_false, Bool.and_eq_true, decide_eq_true_eq, hwh]
  rw [gloss, ← hf]
  cases c <;> simp only [Chan.of, Spectrum.sdiv, Spectrum.mul, Spectrum.smul] <;> real_ops <;> ring

theorem boundary_value {ni nt x : ℝ} (h0 : 0 < x) (h1 : x ≤ 1) : frDielectric x ni nt = boundary ni nt x := by
  rw [frDielectric_pos h0 h1, boundary]
  have hnn : 0 ≤ 1 - x ^ 2 := by nlinarith
  split_ifs with h
  · rfl
  · congr 1
    rw [mul_pow, Real.sq_sqrt hnn]
    rcases le_total 0 (1 - (ni / nt) ^ 2 * (1 - x ^ 2)) with h' | h'
    · rw [max_eq_left h']
    · rw [max_eq_right h', Real.sqrt_zero, Real.sqrt_eq_zero_of_nonpos h']


theorem sumF_nil (b : Bool) (wo wi : V3 ℝ) (c : Chan) : c.of (BSDF.sumF [] b wo wi) = 0 := by simp [BSDF.sumF, chan_zero]

theorem sumF_one (x : BxDF ℝ) (b : Bool) (wo wi : V3 ℝ) (c : Chan) :
    c.of (BSDF.sumF [x] b wo wi) = if ((b && x.hasFlag REFLECTION) || (!b && x.hasFlag TRANSMISSION)) = true then c.of (x.f wo wi) else 0 := by
  simp only [BSDF.sumF, List.foldl_cons, List.foldl_nil]
  split_ifs <;> simp [chan_add, chan_zero]

theorem sumF_two (x y : BxDF ℝ) (b : Bool) (wo wi : V3 ℝ) (c : Chan) :
    c.of (BSDF.sumF [x, y] b wo wi) = c.of (BSDF.sumF [x] b wo wi) + c.of (BSDF.sumF [y] b wo wi) := by
  simp only [BSDF.sumF, List.foldl_cons, List.foldl_nil]
  split_ifs <;> simp [chan_add, chan_zero]

/-- A component that is left out when its colour is black: its share of the sum is the same formula. -/
theorem sumF_optional {s : Spectrum ℝ} {x : BxDF ℝ} {b : Bool} {wo wi : V3 ℝ} {c : Chan} {v : ℝ} (hx : c.of (BSDF.sumF [x] b wo wi) = c.of s * v) :
    c.of (BSDF.sumF (if s.isBlack then [] else [x]) b wo wi) = c.of s * v := by
  by_cases hb : s.isBlack = true
  · simp only [hb, if_true, sumF_nil, black_zero hb, zero_mul]
  · simp only [hb, if_false, hx]; simp [hx]

theorem sumF_append (l k : List (BxDF ℝ)) (hl : l.length ≤ 1) (hk : k.length ≤ 1) (b : Bool) (wo wi : V3 ℝ) (c : Chan) :
    c.of (BSDF.sumF (l ++ k) b wo wi) = c.of (BSDF.sumF l b wo wi) + c.of (BSDF.sumF k b wo wi) := by
  match l, k, hl, hk with
  | [], k, _, _ => simp [sumF_nil]
  | [x], [], _, _ => simp [sumF_nil]
  | [x], [y], _, _ => exact sumF_two x y b wo wi c
  | _ :: _ :: _, _, h, _ => simp at h
  | [_], _ :: _ :: _, _, h => simp at h

/-- C82: rough plastic scatters the diffuse colour over π plus the glossy colour times the Torrance–Sparrow model, its Fresnel factor that of
light inside a medium of index 1.5 that is surrounded by air. -/
theorem c82_plastic [HasInf ℝ] (kd ks : TextureOf ℝ (Spectrum ℝ)) (rough : TextureOf ℝ ℝ) {i : Interaction ℝ} (h : Smooth i) (hd : Colour (kd i))
    (hs : Colour (ks i)) (hr : 0 < rough i) {wo wi : V3 ℝ} (h1 : sq wo = 1) (h2 : sq wi = 1) (hz : 0 < Spec.inner wo i.sn * Spec.inner wi i.sn)
    (hside : SameSide i wo wi) (c : Chan) :
    c.of ((plasticMaterial kd ks rough i).f wo wi) =
      c.of (kd i) / Real.pi + c.of (ks i) * gloss (rough i) (rough i) (boundary (3 / 2) 1) (local3 i wo) (local3 i wi) := by
  have z1 : Spec.inner wo i.sn ≠ 0 := by intro h; rw [h] at hz; simp at hz
  set fr : Fresnel ℝ := fresnelDielectric (lit (3 / 2)) (lit 1) with hfr
  have e : plasticMaterial kd ks rough i = { BSDF.new i with bxdfs := (if (kd i).isBlack then [] else [lambertianReflection (kd i)]) ++
      (if (ks i).isBlack then [] else [microfacetReflection (ks i) ⟨rough i, rough i⟩ fr]) } := by
    unfold plasticMaterial
    rw [colour_clamped hd, colour_clamped hs]
    have hr' : ((rough i ==. lit 0 : Bool)) = false := by real_ops; simp [hr.ne']
    simp only [hr']
    by_cases b1 : (kd i).isBlack = true <;> by_cases b2 : (ks i).isBlack = true <;> simp [b1, b2, BSDF.add, BSDF.new, hfr]
  rw [e, value_of h _ wi z1, sumF_append _ _ (by split_ifs <;> simp) (by split_ifs <;> simp)]
  congr 1
  · rw [sumF_optional (v := 1 / Real.pi)]
    · ring
    · rw [sumF_one]
      simp only [hside, decide_true, (flags (kd i) (kd i) ⟨0, 0⟩ (fun _ => Spectrum.zero) 0 0).1, Bool.and_self, Bool.true_or, if_true]
      simp only [lambertianReflection, Lambertian.f]
      cases c <;> simp only [Chan.of, Spectrum.sdiv] <;> real_ops <;> ring
  · rw [sumF_optional]
    rw [sumF_one]
    simp only [hside, decide_true, (flags (ks i) (kd i) ⟨rough i, rough i⟩ fr 0 0).2.2.2.1, Bool.and_self, Bool.true_or, if_true]
    refine gloss_value (ks i) hr hr fr (by rw [local3_sq h, h1]) (by rw [local3_sq h, h2]) hz c _ ?_
    intro x h0 h1
    rw [← boundary_value h0 h1, hfr]
    simp only [fresnelDielectric]
    cases c <;> simp only [Chan.of, Spectrum.of] <;> real_ops

/-- C82: rough metal scatters its colour times the Torrance–Sparrow model, with the reflectance of the complex index. -/
theorem c82_metal [HasInf ℝ] (r eta k : TextureOf ℝ (Spectrum ℝ)) (ru rv : TextureOf ℝ ℝ) {i : Interaction ℝ} (h : Smooth i) (hk : Colour (r i))
    (hu : 0 < ru i) (hv : 0 < rv i) {wo wi : V3 ℝ} (h1 : sq wo = 1) (h2 : sq wi = 1) (hz : 0 < Spec.inner wo i.sn * Spec.inner wi i.sn)
    (hside : SameSide i wo wi) (c : Chan) (F : ℝ → ℝ) (hF : Conducts ⟨c.of (eta i), c.of (k i)⟩ F) :
    c.of ((metalMaterial r eta k ru rv i).f wo wi) = c.of (r i) * gloss (ru i) (rv i) F (local3 i wo) (local3 i wi) := by
  have z1 : Spec.inner wo i.sn ≠ 0 := by intro h; rw [h] at hz; simp at hz
  set fr : Fresnel ℝ := fresnelConductor (Spectrum.of (lit 1)) (eta i) (k i) with hfr
  have e : metalMaterial r eta k ru rv i = { BSDF.new i with bxdfs := [microfacetReflection (r i) ⟨ru i, rv i⟩ fr] } := by
    unfold metalMaterial
    rw [colour_clamped hk]
    have hr' : ((ru i ==. lit 0 : Bool)) = false := by real_ops; simp [hu.ne']
    simp only [hr']
    rfl
  rw [e, value_of h _ wi z1, sumF_one]
  simp only [hside, decide_true, (flags (r i) (r i) ⟨ru i, rv i⟩ fr 0 0).2.2.2.1, Bool.and_self, Bool.true_or, if_true]
  refine gloss_value (r i) hu hv fr (by rw [local3_sq h, h1]) (by rw [local3_sq h, h2]) hz c _ ?_
  intro x h0 h1
  obtain ⟨w, hw, e⟩ := hF x h0.le h1
  rw [e, hfr, fresnelConductor_channels, abs_of_pos h0, min_eq_left h1]
  have hc : ∀ ni nt k : ℝ, ni = 1 → Transmitted x ⟨nt, k⟩ w → condChannel x ni nt k = waveReflectance x ⟨nt, k⟩ w := by
    rintro ni nt k rfl hw
    have := condChannel_value (c := x) (ni := 1) (nt := nt) (k := k) w (by simpa using hw)
    simpa using this
  cases c <;> simp only [Chan.of, Spectrum.of] at * <;> exact hc _ _ _ (by real_ops) hw

open Classical in
/-- C82: matte, mirror, metal and plastic surfaces let nothing through. -/
theorem c82_opaque [HasInf ℝ] (kd ks eta k : TextureOf ℝ (Spectrum ℝ)) (ru rv : TextureOf ℝ ℝ) {i : Interaction ℝ} (h : Smooth i) {wo : V3 ℝ} (wi : V3 ℝ)
    (hwo : Spec.inner wo i.sn ≠ 0) (hside : ¬ SameSide i wo wi) (c : Chan) :
    c.of ((lambertianMaterial kd i).f wo wi) = 0 ∧ c.of ((mirrorMaterial kd i).f wo wi) = 0 ∧ c.of ((metalMaterial kd eta k ru rv i).f wo wi) = 0 ∧
    c.of ((plasticMaterial kd ks ru i).f wo wi) = 0 := by
  have key : ∀ b : BSDF ℝ, (∃ l, b = { BSDF.new i with bxdfs := l } ∧ ∀ x ∈ l, x.hasFlag TRANSMISSION = false) → c.of (b.f wo wi) = 0 := by
    rintro b ⟨l, rfl, hl⟩
    rw [value_of h l wi hwo]
    simp only [hside, decide_false, BSDF.sumF]
    have : ∀ s, List.foldl (fun (f : Spectrum ℝ) (b : BxDF ℝ) => if ((false && b.hasFlag REFLECTION) || (!false && b.hasFlag TRANSMISSION)) = true then f.add (b.f (local3 i wo) (local3 i wi)) else f) s l = s := by
      intro s
      induction l generalizing s with
      | nil => rfl
      | cons x l ih =>
        rw [List.foldl_cons, hl x (by simp)]
        simp only [Bool.false_and, Bool.not_false, Bool.true_and, Bool.or_self, Bool.false_eq_true, if_false]
        exact ih (fun y hy => hl y (by simp [hy])) s
    rw [this, chan_zero]
  have f1 := fun r => (flags r r ⟨0, 0⟩ (fun _ => Spectrum.zero) 0 0).1.2
  have f2 := fun r fr => (flags r r ⟨0, 0⟩ fr 0 0).2.1.2
  have f3 := fun r m fr => (flags r r m fr 0 0).2.2.2.1.2
  refine ⟨key _ ?_, key _ ?_, key _ ?_, key _ ?_⟩
  · unfold lambertianMaterial
    dsimp only
    split_ifs
    · exact ⟨[], rfl, by simp⟩
    · exact ⟨[lambertianReflection _], rfl, by simp [f1]⟩
  · unfold mirrorMaterial
    dsimp only
    split_ifs
    · exact ⟨[], rfl, by simp⟩
    · exact ⟨[specularReflection _ _], rfl, by simp [f2]⟩
  · unfold metalMaterial
    dsimp only
    split_ifs
    · exact ⟨[specularReflection _ _], rfl, by simp [f2]⟩
    · exact ⟨[microfacetReflection _ _ _], rfl, by simp [f3]⟩
  · unfold plasticMaterial
    dsimp only
    split_ifs
    · exact ⟨[], rfl, by simp⟩
    · exact ⟨[lambertianReflection _], rfl, by simp [f1]⟩
    all_goals first
      | exact ⟨[specularReflection _ _], rfl, by simp [f2]⟩
      | exact ⟨[microfacetReflection _ _ _], rfl, by simp [f3]⟩
      | exact ⟨[lambertianReflection _, specularReflection _ _], rfl, by simp [f1, f2]⟩
      | exact ⟨[lambertianReflection _, microfacetReflection _ _ _], rfl, by simp [f1, f3]⟩

end PT
