import Verif.Props.Radiance
import Verif.Props.Frame
import Verif.Props.Glass
import Verif.Props.Lights

/-!
# The library's shapes, materials and lights keep the contract of C67 (exact arithmetic)
-/

namespace PT
open Spec

namespace Spec
/-- A sample value in `[0,1)`. -/
def Canonical (x : ℝ) : Prop := 0 ≤ x ∧ x < 1
/-- A unit vector. -/
def UnitVec (v : V3 ℝ) : Prop := Spec.sq v = 1
/-- Roughness values that are both zero or both positive. -/
def Roughness (a b : ℝ) : Prop := (a = 0 ∧ b = 0) ∨ (0 < a ∧ 0 < b)

/-- The scattering functions that the library's materials can make at `i`, from arbitrary textures for the colours, with
admissible roughness and a positive index of refraction. -/
inductive LibraryBsdf [HasInf ℝ] (i : Interaction ℝ) : BSDF ℝ → Prop
  | lambertian (kd) : LibraryBsdf i (lambertianMaterial kd i)
  | mirror (kr) : LibraryBsdf i (mirrorMaterial kr i)
  | metal (r eta k ru rv) : Roughness (ru i) (rv i) → LibraryBsdf i (metalMaterial r eta k ru rv i)
  | glass (kr kt eta ru rv) : Roughness (ru i) (rv i) → 0 < eta i → LibraryBsdf i (glassMaterial kr kt eta ru rv i)
  | plastic (kd ks rough) : 0 ≤ rough i → LibraryBsdf i (plasticMaterial kd ks rough i)
end Spec

/-- What is needed of one component, in local coordinates. -/
structure CompOk (x : BxDF ℝ) : Prop where
  f : ∀ wo wi, UnitVec wo → UnitVec wi → NonNeg (x.f wo wi)
  pdf : ∀ wo wi, UnitVec wo → UnitVec wi → 0 ≤ x.pdf wo wi
  sample : ∀ wo u wi f p, UnitVec wo → wo.z ≠ 0 → Canonical u.x → Canonical u.y → x.sampleF wo u = (wi, f, p) → p ≠ 0 →
    NonNeg f ∧ 0 ≤ p ∧ UnitVec wi

theorem nonNeg_zero : NonNeg (Spectrum.zero : Spectrum ℝ) := by simp [NonNeg, Spectrum.zero, r_lit]

theorem compOk_lambertian {r : Spectrum ℝ} (hr : NonNeg r) : CompOk (lambertianReflection r) where
  f wo wi _ _ := (c58_lambertian r hr wo wi).2
  pdf wo wi _ _ := by
    simp only [lambertianReflection, Lambertian.pdf, absCosTheta]
    split_ifs
    · real_ops; have := Real.pi_pos; positivity
    · rw [r_lit]; simp
  sample wo u wi f p _ hz hu hv h _ := by
    obtain ⟨h1, -, h3, -, h5, -⟩ := c57_lambertian_sample r wo hz u ⟨hu.1, hu.2.le⟩ ⟨hv.1, hv.2.le⟩ wi f p h
    have := Real.pi_pos
    refine ⟨h5 ▸ (c58_lambertian r hr wo wi).2, ?_, h1⟩
    rw [h3]; positivity

theorem compOk_specularReflection {r : Spectrum ℝ} (hr : NonNeg r) {fr : Fresnel ℝ} (hf : ∀ c, NonNeg (fr c)) :
    CompOk (specularReflection r fr) where
  f _ _ _ _ := nonNeg_zero
  pdf _ _ _ _ := by simp only [specularReflection]; rw [r_lit]; simp
  sample wo u wi f p ho _ _ _ h _ := by
    simp only [specularReflection, Prod.mk.injEq] at h
    obtain ⟨rfl, rfl, rfl⟩ := h
    refine ⟨?_, ?_, ?_⟩
    · obtain ⟨f1, f2, f3⟩ := hf (cosTheta (⟨⊖wo.x, ⊖wo.y, wo.z⟩ : V3 ℝ))
      obtain ⟨r1, r2, r3⟩ := hr
      simp only [NonNeg, Spectrum.sdiv, Spectrum.mul, absCosTheta]; real_ops
      exact ⟨by positivity, by positivity, by positivity⟩
    · rw [r_lit]; simp
    · simp only [UnitVec, Spec.sq] at *; real_ops; linarith

theorem compOk_specularTransmission {t : Spectrum ℝ} (ht : NonNeg t) {eta : ℝ} (he : 0 < eta) :
    CompOk (specularTransmission t (lit 1) eta) where
  f _ _ _ _ := nonNeg_zero
  pdf _ _ _ _ := by simp only [specularTransmission]; rw [r_lit]; simp
  sample wo u wi f p ho hz _ _ h hp := by
    have e1 : (lit 1 : ℝ) = 1 := by rw [r_lit]; simp
    rw [e1] at h
    obtain ⟨h1, h2⟩ := specularTransmission_sample he ho hz t u
    rw [h] at h1 h2
    by_cases hc : 1 ≤ (if 0 < wo.z then 1 else eta) / (if 0 < wo.z then eta else 1) * Real.sqrt (1 - wo.z ^ 2)
    · have := congrArg (fun x => x.2.2) (h1 hc)
      exact absurd this hp
    · obtain ⟨-, -, k3, -, k5, k6⟩ := h2 hc
      have hr := (c55_dielectric_range wo.z 1 eta one_pos he).2
      have hr' : 0 ≤ 1 - frDielectric wo.z 1 eta := by linarith
      obtain ⟨t1, t2, t3⟩ := ht
      dsimp only at k3 k5 k6
      refine ⟨?_, by rw [k5]; norm_num, k3⟩
      rw [k6]
      have q1 := mul_self_nonneg (if 0 < wo.z then 1 else eta)
      have q2 := mul_self_nonneg (if 0 < wo.z then eta else 1)
      have g : ∀ c, 0 ≤ c → 0 ≤ c * (1 - frDielectric wo.z 1 eta) / |wi.z| * ((if 0 < wo.z then 1 else eta) * (if 0 < wo.z then 1 else eta)) /
          ((if 0 < wo.z then eta else 1) * (if 0 < wo.z then eta else 1)) := fun c hc =>
        div_nonneg (mul_nonneg (div_nonneg (mul_nonneg hc hr') (abs_nonneg _)) q1) q2
      exact ⟨g _ t1, g _ t2, g _ t3⟩

theorem microfacet_pdf_nonneg {m : Microfacet ℝ} (hx : 0 < m.ax) (hy : 0 < m.ay) (wo wh : V3 ℝ) : 0 ≤ m.pdf wo wh := by
  have := microfacet_d_nonneg hx hy wh
  simp only [Microfacet.pdf, absCosTheta]; real_ops
  positivity

theorem compOk_microfacetReflection {r : Spectrum ℝ} (hr : NonNeg r) {m : Microfacet ℝ} (hx : 0 < m.ax) (hy : 0 < m.ay)
    {fr : Fresnel ℝ} (hf : ∀ c, NonNeg (fr c)) : CompOk (microfacetReflection r m fr) := by
  have hpdf : ∀ wo wi, UnitVec wo → UnitVec wi → 0 ≤ (microfacetReflection r m fr).pdf wo wi := by
    intro wo wi ho hi
    simp only [microfacetReflection, MicrofacetReflection.pdf]
    split_ifs
    · rw [r_lit]; simp
    · have h1 := microfacet_pdf_nonneg hx hy wo (wo.add wi).normalize
      have h2 : 0 ≤ (wo.add wi).normalize.dot wo := by
        have hc := abs_le.1 (sq_le_one_iff_abs_le_one _ |>.1 (inner_sq_le ho hi))
        have hl : 0 ≤ (wo.add wi).length := by rw [length_eq]; exact Real.sqrt_nonneg _
        have e : (wo.add wi).normalize.dot wo = (1 + Spec.inner wo wi) / (wo.add wi).length := by
          simp only [UnitVec, Spec.sq] at ho
          simp only [V3.normalize, V3.dot, V3.add, Spec.inner]; real_ops
          rw [← ho]; ring
        rw [e]; exact div_nonneg (by linarith [hc.1]) hl
      real_ops
      exact div_nonneg h1 (by linarith)
  refine ⟨fun wo wi ho hi => (c58_microfacet r hr m hx hy fr hf wo wi ho hi).2, hpdf, ?_⟩
  intro wo u wi f p ho hz hu hv h hp
  obtain ⟨e1, e2⟩ := selfConsistent_microfacetReflection r hx hy fr wo u wi f p hz hu hv h hp
  have hi : UnitVec wi := by
    obtain ⟨g1, -⟩ := sampleWh_spec hx hy hz hu
    simp only [microfacetReflection, MicrofacetReflection.sampleF] at h
    split_ifs at h
    · exact absurd (congrArg (fun x => x.2.2) h).symm (by simp only [noLocalSample]; rw [r_lit]; simpa using hp)
    · exact absurd (congrArg (fun x => x.2.2) h).symm (by simp only [noLocalSample]; rw [r_lit]; simpa using hp)
    · have := congrArg (fun x => x.1) h
      dsimp only at this
      rw [← this]
      exact (c53_reflect wo _ g1).1.trans ho
  exact ⟨e1 ▸ (c58_microfacet r hr m hx hy fr hf wo wi ho hi).2, e2 ▸ hpdf wo wi ho hi, hi⟩

theorem compOk_microfacetTransmission (t : Spectrum ℝ) {m : Microfacet ℝ} (hx : 0 < m.ax) (hy : 0 < m.ay) {a b : ℝ} (ha : 0 < a) (hb : 0 < b) :
    CompOk (microfacetTransmission t a b m) := by
  have hf : ∀ wo wi, NonNeg ((microfacetTransmission t a b m).f wo wi) := by
    intro wo wi
    simp only [microfacetTransmission, MicrofacetTransmission.f]
    split_ifs
    all_goals first
      | exact nonNeg_zero
      | (simp only [Spectrum.abs, NonNeg]; real_ops; exact ⟨abs_nonneg _, abs_nonneg _, abs_nonneg _⟩)
  have hpdf : ∀ wo wi, 0 ≤ (microfacetTransmission t a b m).pdf wo wi := by
    intro wo wi
    simp only [microfacetTransmission, MicrofacetTransmission.pdf]
    split_ifs
    all_goals first
      | (rw [r_lit]; norm_num)
      | (real_ops; exact mul_nonneg (microfacet_pdf_nonneg hx hy _ _) (abs_nonneg _))
  refine ⟨fun wo wi _ _ => hf wo wi, fun wo wi _ _ => hpdf wo wi, ?_⟩
  intro wo u wi f p ho hz hu hv h hp
  obtain ⟨g1, -⟩ := sampleWh_spec hx hy hz hu
  simp only [microfacetTransmission, MicrofacetTransmission.sampleF] at h
  split_ifs at h with h0 h1
  · exact absurd (congrArg (fun x => x.2.2) h).symm (by simp only [noLocalSample]; rw [r_lit]; simpa using hp)
  all_goals
    cases hr : refract wo (m.sampleWh wo u) _ with
    | none =>
      rw [hr] at h
      exact absurd (congrArg (fun x => x.2.2) h).symm (by simp only [noLocalSample]; rw [r_lit]; simpa using hp)
    | some w =>
      rw [hr] at h
      simp only [Prod.mk.injEq] at h
      obtain ⟨rfl, rfl, rfl⟩ := h
      refine ⟨hf _ _, hpdf _ _, ?_⟩
      refine ((c54_refract wo _ _ ho g1 ?_).2 _ hr).1
      real_ops
      positivity

theorem sq_worldToLocal (b : BSDF ℝ) (h : Frame b) (v : V3 ℝ) : Spec.sq (b.worldToLocal v) = Spec.sq v := by
  have e := frame_inverse' b h v
  have k : ∀ w, Spec.sq (b.localToWorld w) = Spec.sq w := by
    intro w
    obtain ⟨h1, h2, h3, h4, h5, h6⟩ := h
    simp only [BSDF.localToWorld, Spec.sq, Spec.inner] at *; real_ops
    linear_combination w.x ^ 2 * h1 + w.y ^ 2 * h2 + w.z ^ 2 * h3 + 2 * w.x * w.y * h4 + 2 * w.x * w.z * h5 + 2 * w.y * w.z * h6
  rw [← k, e]

theorem sq_localToWorld (b : BSDF ℝ) (h : Frame b) (v : V3 ℝ) : Spec.sq (b.localToWorld v) = Spec.sq v := by
  rw [← sq_worldToLocal b h, frame_inverse b h]

theorem sumF_nonNeg (bs : List (BxDF ℝ)) (r : Bool) (wo wi : V3 ℝ) (h : ∀ x ∈ bs, NonNeg (x.f wo wi)) : NonNeg (BSDF.sumF bs r wo wi) := by
  unfold BSDF.sumF
  suffices g : ∀ (l : List (BxDF ℝ)) (a : Spectrum ℝ), (∀ x ∈ l, NonNeg (x.f wo wi)) → NonNeg a →
      NonNeg (l.foldl (fun f b => if (r && b.hasFlag REFLECTION) || (!r && b.hasFlag TRANSMISSION) then f.add (b.f wo wi) else f) a) from
    g bs _ h nonNeg_zero
  intro l
  induction l with
  | nil => exact fun a _ ha => ha
  | cons x l ih =>
    intro a hl ha
    rw [List.foldl_cons]
    refine ih _ (fun y hy => hl y (by simp [hy])) ?_
    split_ifs
    · obtain ⟨b1, b2, b3⟩ := hl x (by simp)
      obtain ⟨a1, a2, a3⟩ := ha
      simp only [NonNeg, Spectrum.add]; real_ops
      exact ⟨add_nonneg a1 b1, add_nonneg a2 b2, add_nonneg a3 b3⟩
    · exact ha

/-- An orthonormal frame and components that are in order make a scattering function that is in order. -/
theorem bsdf_contract (b : BSDF ℝ) (hf : Frame b) (hn : b.bxdfs.length < 2 ^ 64) (hc : ∀ x ∈ b.bxdfs, CompOk x) :
    BsdfContract (fun x : ℝ => 0 ≤ x) UnitVec Canonical b where
  f wo wi ho hi := by
    have h1 : UnitVec (b.worldToLocal wo) := (sq_worldToLocal b hf wo).trans ho
    have h2 : UnitVec (b.worldToLocal wi) := (sq_worldToLocal b hf wi).trans hi
    unfold BSDF.f
    dsimp only
    split_ifs
    · exact nonNeg_zero
    · exact sumF_nonNeg _ _ _ _ fun x hx => (hc x hx).f _ _ h1 h2
  sample wo u wi f p flag ho hu hv h hp := by
    have hp' : p ≠ 0 := by real_ops at hp; simpa using hp
    have h1 : UnitVec (b.worldToLocal wo) := (sq_worldToLocal b hf wo).trans ho
    obtain ⟨k, x, u', w, f0, p0, hx, hu', hv', -, hz, hs, hp0, hwi, -, hcase⟩ := sampleF_cases b hn wo u hu hv wi f p flag h hp'
    have hxm : x ∈ b.bxdfs := List.mem_of_getElem? hx
    obtain ⟨g1, g2, g3⟩ := (hc x hxm).sample _ u' w f0 p0 h1 hz hu' (by rw [hv']; exact hv) hs hp0
    refine ⟨?_, ?_, ?_⟩
    · rcases hcase with ⟨-, -, hf', -⟩ | ⟨-, hf', -⟩
      · rw [hf']; exact sumF_nonNeg _ _ _ _ fun y hy => (hc y hy).f _ _ h1 g3
      · rw [hf']; exact g1
    · rcases hcase with ⟨-, -, -, hpp⟩ | ⟨-, -, hpp⟩
      · rw [hpp]
        refine div_nonneg ?_ (Nat.cast_nonneg _)
        suffices g : ∀ (l : List ℕ) (q : ℝ), 0 ≤ q → 0 ≤ l.foldl (fun q i => if i = k then q else
            (b.bxdfs[i]?).elim q (fun y => q + y.pdf (b.worldToLocal wo) w)) q from g _ _ g2
        intro l
        induction l with
        | nil => exact fun q hq => hq
        | cons i l ih =>
          intro q hq
          rw [List.foldl_cons]
          refine ih _ ?_
          split_ifs
          · exact hq
          · cases hi : b.bxdfs[i]? with
            | none => exact hq
            | some y => exact add_nonneg hq ((hc y (List.mem_of_getElem? hi)).pdf _ _ h1 g3)
      · rw [hpp]; exact div_nonneg g2 (Nat.cast_nonneg _)
    · rw [hwi]; exact (sq_localToWorld b hf w).trans g3

theorem clampedTex_nonNeg [HasInf ℝ] (hinf : (0 : ℝ) ≤ HasInf.infinity) (k : TextureOf ℝ (Spectrum ℝ)) (i : Interaction ℝ) :
    NonNeg (clampedTex k i) := by
  have g : ∀ x : ℝ, 0 ≤ PT.clamp x (lit 0) HasInf.infinity := by
    intro x
    unfold PT.clamp
    real_ops
    split_ifs with h1 h2
    · norm_num
    · exact hinf
    · norm_num at h1; exact h1
  exact ⟨g _, g _, g _⟩

/-- The library's scattering functions keep the contract wherever the shading frame is good. -/
theorem library_contract [HasInf ℝ] (hinf : (0 : ℝ) ≤ HasInf.infinity) (i : Interaction ℝ) (hi : GoodFrame i) (b : BSDF ℝ) (hb : LibraryBsdf i b) :
    BsdfContract (fun x : ℝ => 0 ≤ x) UnitVec Canonical b := by
  have key : ∀ b : BSDF ℝ, b.s = (BSDF.new i).s → b.t = (BSDF.new i).t → b.sn = (BSDF.new i).sn → b.bxdfs.length ≤ 2 →
      (∀ x ∈ b.bxdfs, CompOk x) → BsdfContract (fun x : ℝ => 0 ≤ x) UnitVec Canonical b := by
    intro b e1 e2 e3 hn hc
    refine bsdf_contract b ?_ (by omega) hc
    have := hi.1
    unfold Frame at *
    rw [e1, e2, e3]; exact this
  have one : (lit 1 : ℝ) = 1 := by rw [r_lit]; simp
  have hd : ∀ {ni nt : ℝ}, 0 < ni → 0 < nt → ∀ c, NonNeg (fresnelDielectric ni nt c) := fun h1 h2 c =>
    (c58_fresnel_models _ _ h1 h2 Spectrum.zero Spectrum.zero c).1
  have hcl := fun k => clampedTex_nonNeg hinf k i
  cases hb with
  | lambertian kd =>
    unfold lambertianMaterial
    dsimp only
    split_ifs
    · exact key _ rfl rfl rfl (by simp [BSDF.new]) (by simp [BSDF.new])
    · refine key _ rfl rfl rfl (by simp [BSDF.new, BSDF.add]) ?_
      simp only [BSDF.new, BSDF.add, List.nil_append, List.mem_singleton, forall_eq]
      exact compOk_lambertian (hcl _)
  | mirror kr =>
    unfold mirrorMaterial
    dsimp only
    split_ifs
    · exact key _ rfl rfl rfl (by simp [BSDF.new]) (by simp [BSDF.new])
    · refine key _ rfl rfl rfl (by simp [BSDF.new, BSDF.add]) ?_
      simp only [BSDF.new, BSDF.add, List.nil_append, List.mem_singleton, forall_eq]
      exact compOk_specularReflection (hcl _) fun c => (c58_fresnel_models 1 1 one_pos one_pos Spectrum.zero Spectrum.zero c).2.2
  | metal r eta k ru rv hr =>
    have hfr : ∀ c, NonNeg (fresnelConductor (Spectrum.of (lit 1)) (eta i) (k i) c) := fun c => by
      rw [one]; exact (c58_fresnel_models 1 1 one_pos one_pos (eta i) (k i) c).2.1
    unfold metalMaterial
    dsimp only
    split_ifs with h
    · refine key _ rfl rfl rfl (by simp [BSDF.new, BSDF.add]) ?_
      simp only [BSDF.new, BSDF.add, List.nil_append, List.mem_singleton, forall_eq]
      exact compOk_specularReflection (hcl _) hfr
    · refine key _ rfl rfl rfl (by simp [BSDF.new, BSDF.add]) ?_
      simp only [BSDF.new, BSDF.add, List.nil_append, List.mem_singleton, forall_eq]
      have hr' := hr.resolve_left (by real_ops at h; simpa using h)
      exact compOk_microfacetReflection (hcl _) hr'.1 hr'.2 hfr
  | glass kr kt eta ru rv hr he =>
    have hone : (0 : ℝ) < lit 1 := by rw [one]; exact one_pos
    unfold glassMaterial
    dsimp only
    split_ifs with h
    all_goals refine key _ rfl rfl rfl (by simp [BSDF.new, BSDF.add]) ?_
    all_goals simp only [BSDF.new, BSDF.add, List.nil_append, List.cons_append, List.mem_cons, List.not_mem_nil, or_false,
      forall_eq_or_imp, forall_eq, IsEmpty.forall_iff, implies_true]
    · exact compOk_specularReflection (hcl _) (hd hone he)
    · exact compOk_specularTransmission (hcl _) he
    · exact ⟨compOk_specularReflection (hcl _) (hd hone he), compOk_specularTransmission (hcl _) he⟩
    all_goals have hr' := hr.resolve_left (by real_ops at h; simpa using h)
    · exact compOk_microfacetReflection (hcl _) hr'.1 hr'.2 (hd hone he)
    · exact compOk_microfacetTransmission _ hr'.1 hr'.2 hone he
    · exact ⟨compOk_microfacetReflection (hcl _) hr'.1 hr'.2 (hd hone he), compOk_microfacetTransmission _ hr'.1 hr'.2 hone he⟩
  | plastic kd ks rough hr =>
    have h32 : (0 : ℝ) < lit (3 / 2) := by rw [r_lit]; norm_num
    have hone : (0 : ℝ) < lit 1 := by rw [one]; exact one_pos
    have hpos : ¬ (rough i ==. lit 0) = true → 0 < rough i := fun h => lt_of_le_of_ne hr fun e => h (by real_ops; simp [← e])
    unfold plasticMaterial
    dsimp only
    split_ifs with h1 h2 h3 h4 h5
    all_goals refine key _ rfl rfl rfl (by simp [BSDF.new, BSDF.add]) ?_
    all_goals simp only [BSDF.new, BSDF.add, List.nil_append, List.cons_append, List.mem_cons, List.not_mem_nil, or_false,
      forall_eq_or_imp, forall_eq, IsEmpty.forall_iff, implies_true]
    all_goals
      have hL := compOk_lambertian (hcl kd)
      have hS := compOk_specularReflection (hcl ks) (hd h32 hone)
      first
      | exact hL
      | exact hS
      | exact ⟨hL, hS⟩
      | exact compOk_microfacetReflection (hcl ks) (hpos ‹_›) (hpos ‹_›) (hd h32 hone)
      | exact ⟨hL, compOk_microfacetReflection (hcl ks) (hpos ‹_›) (hpos ‹_›) (hd h32 hone)⟩

/-! ### Scenes of triangles -/

/-- A hit of the simple container is a hit of one of its shapes, by a ray with the same origin and direction. -/
theorem simple_hit_from {α : Type} [Scalar α] (c : Simple α) (ray : Ray α) (h : Hit α) (hc : c.intersect ray = some (some h)) :
    h.obj ∈ c.shapes ∧ ∃ tm t, Reports h.obj.shape { ray with tMax := tm } h.i t := by
  have key : ∀ (ss : List (Obj α)) (r r' : Ray α) (h0 : Option (Hit α)), r.origin = ray.origin → r.direction = ray.direction →
      closestHit ss r h0 = some (r', some h) → h0 = some h ∨ (h.obj ∈ ss ∧ ∃ tm t, Reports h.obj.shape { ray with tMax := tm } h.i t) := by
    intro ss
    induction ss with
    | nil =>
      intro r r' h0 _ _ e
      simp only [closestHit, Option.some.injEq, Prod.mk.injEq] at e
      exact Or.inl e.2
    | cons s ss ih =>
      intro r r' h0 ho hd e
      simp only [closestHit, Obj.intersect] at e
      cases hs : s.shape.intersect r with
      | none => rw [hs] at e; cases e
      | some x =>
        rw [hs] at e
        cases x with
        | none =>
          rcases ih r r' h0 ho hd e with h1 | h1
          · exact Or.inl h1
          · exact Or.inr ⟨by simp [h1.1], h1.2⟩
        | some x =>
          rcases ih { r with tMax := x.2 } r' (some ⟨x.1, s⟩) ho hd e with h1 | h1
          · right
            simp only [Option.some.injEq] at h1
            subst h1
            refine ⟨by simp, r.tMax, x.2, ?_⟩
            unfold Reports
            rw [← ho, ← hd]; exact hs
          · exact Or.inr ⟨by simp [h1.1], h1.2⟩
  unfold Simple.intersect at hc
  split_ifs at hc
  · cases hc
  cases hr : closestHit c.shapes ray none with
  | none => rw [hr] at hc; cases hc
  | some x =>
    rw [hr] at hc
    obtain ⟨r', o⟩ := x
    simp only [Option.map_some, Option.some.injEq] at hc
    subst hc
    rcases key c.shapes ray r' none rfl rfl hr with h1 | h1
    · cases h1
    · exact h1

namespace Spec
/-- A triangle with a library material, without vertex normals or with vertex normals that do not cancel anywhere on it. -/
structure LibraryTriangle [HasInf ℝ] (t : Triangle ℝ) : Prop where
  material : ∀ i, LibraryBsdf i (t.material i)
  normals : ∀ n0 n1 n2, t.vertexNormals = some (n0, n1, n2) → ∀ b0 b1 b2, Weights b0 b1 b2 → mix b0 b1 b2 n0 n1 n2 ≠ V3.zero

/-- A scene of such triangles, some of them emitting, with the light list to go with it and any distant lights. -/
structure TriangleScene [HasInf ℝ] (scene : Scene ℝ) : Prop where
  shapes : ∃ c : Simple ℝ, scene.shapes = c.toContainer ∧ ∀ s ∈ c.shapes, ∃ t : Triangle ℝ, LibraryTriangle t ∧
    (s.shape = t.toShape ∨ ∃ l, NonNeg l ∧ s.shape = (AreaLight.mk l t.toShape).toShape)
  lights : ∀ l ∈ scene.lights, (∃ e w box, NonNeg e ∧ w ≠ V3.zero ∧ l.light = distant e w box) ∨
    ∃ (e : Spectrum ℝ) (t : Triangle ℝ), NonNeg e ∧ l.light = (AreaLight.mk e t.toShape).toLight
end Spec

theorem unit_ne_zero {v : V3 ℝ} (h : UnitVec v) : v ≠ V3.zero := by
  rintro rfl
  simp [UnitVec, Spec.sq, V3.zero, r_lit] at h

theorem emitted_nonNeg {l : Spectrum ℝ} (hl : NonNeg l) (s : Shape ℝ) (i : Interaction ℝ) (w : V3 ℝ) : NonNeg ((AreaLight.mk l s).emitted i w) := by
  unfold AreaLight.emitted
  split_ifs
  · exact hl
  · exact nonNeg_zero

/-- Scenes of library triangles keep the contract, whatever the container, provided it reports only what its shapes report. -/
theorem triangles_contract [HasInf ℝ] (hinf : (0 : ℝ) ≤ HasInf.infinity) (scene : Scene ℝ) (ss : List (Obj ℝ))
    (hfrom : ∀ ray h, scene.intersect ray = some (some h) → h.obj ∈ ss ∧ ∃ tm t, Reports h.obj.shape { ray with tMax := tm } h.i t)
    (hshape : ∀ s ∈ ss, ∃ t : Triangle ℝ, LibraryTriangle t ∧ (s.shape = t.toShape ∨ ∃ l, NonNeg l ∧ s.shape = (AreaLight.mk l t.toShape).toShape))
    (hlights : ∀ l ∈ scene.lights, (∃ e w box, NonNeg e ∧ w ≠ V3.zero ∧ l.light = distant e w box) ∨
      ∃ (e : Spectrum ℝ) (t : Triangle ℝ), NonNeg e ∧ l.light = (AreaLight.mk e t.toShape).toLight) :
    SceneContract (fun x : ℝ => 0 ≤ x) UnitVec Canonical scene := by
  have hit : ∀ ray h, UnitVec ray.direction → scene.intersect ray = some (some h) →
      (∀ w, NonNeg (h.obj.shape.l h.i w)) ∧ h.i.wo = ray.direction.neg ∧ GoodFrame h.i ∧ LibraryBsdf h.i (h.obj.shape.material h.i) := by
    intro ray h hd hh
    obtain ⟨hm, tm, t, hrep⟩ := hfrom ray h hh
    obtain ⟨tr, ht, hcase⟩ := hshape _ hm
    have hi : tr.intersect { ray with tMax := tm } = some (some (h.i, t)) := by
      unfold Reports at hrep
      rcases hcase with e | ⟨l, -, e⟩ <;> rw [e] at hrep <;> exact hrep
    have hd' : ({ ray with tMax := tm } : Ray ℝ).direction ≠ V3.zero := unit_ne_zero hd
    obtain ⟨-, b0, b1, b2, hw, huv, hiAt⟩ := triangle_hit_fields tr _ hd' h.i t hi
    refine ⟨?_, ?_, ?_, ?_⟩
    · intro w
      rcases hcase with e | ⟨l, hl, e⟩ <;> rw [e]
      · exact nonNeg_zero
      · exact emitted_nonNeg hl _ _ _
    · rw [hiAt]; rfl
    · refine c74_triangle_frame tr _ hd' h.i t hi ?_
      cases hv : tr.vertexNormals with
      | none => exact Or.inl rfl
      | some ns =>
        right
        obtain ⟨n0, n1, n2⟩ := ns
        have := ht.normals n0 n1 n2 hv b0 b1 b2 hw
        unfold rawNormal
        rw [hv, huv]
        simp only [Option.elim_some]
        have e1 : 1 - (b1 + b2) = b0 := by linarith [hw.2.2.2]
        have e2 : b1 + b2 - b2 = b1 := by ring
        rw [e1, e2]; exact this
    · have := ht.material h.i
      rcases hcase with e | ⟨l, -, e⟩ <;> rw [e] <;> exact this
  refine ⟨?_, fun ray h w hd hh => (hit ray h hd hh).1 w, ?_, ?_⟩
  · intro l hl
    refine ⟨?_⟩
    intro i u smp _ _ he _ hblack
    rcases hlights l hl with ⟨e, w, box, hne, hw, e1⟩ | ⟨e, t, hne, e1⟩
    · rw [e1] at he
      simp only [distant, DistantLight.toLight, DistantLight.sampleLi, DistantLight.new, DistantLight.preProcess, Option.some.injEq] at he
      subst he
      exact ⟨hne, by rw [r_lit]; simp, sq_normalize hw⟩
    · rw [e1] at he
      have hsr : t.toShape.sampleRef i u = some (t.sample u) := rfl
      simp only [AreaLight.toLight, AreaLight.sampleLi, hsr, Option.map_some, Option.some.injEq] at he
      subst he
      refine ⟨emitted_nonNeg hne _ _ _, ?_, ?_⟩
      · have : 0 ≤ t.area := by
          unfold Triangle.area
          rw [length_eq]; real_ops
          positivity
        change 0 ≤ lit 1 /. t.area
        real_ops
        positivity
      · refine sq_normalize fun e0 => ?_
        dsimp only at hblack
        rw [e0] at hblack
        have hz : ¬ ((V3.zero : V3 ℝ).normalize.neg.dot (t.sample u).n >. lit 0) = true := by
          simp only [V3.normalize, V3.neg, V3.dot, V3.zero]; real_ops; norm_num
        unfold AreaLight.emitted at hblack
        rw [if_neg hz] at hblack
        simp only [Spectrum.isBlack, Spectrum.zero] at hblack
        real_ops at hblack
        norm_num at hblack
  · intro ray h hd hh
    rw [(hit ray h hd hh).2.1]
    simp only [UnitVec, Spec.sq, V3.neg] at *; real_ops; linarith
  · intro ray h hd hh
    obtain ⟨-, -, h3, h4⟩ := hit ray h hd hh
    exact library_contract hinf h.i h3 _ h4

/-- Scenes of library triangles in a simple container keep the contract. -/
theorem triangle_scene_contract [HasInf ℝ] (hinf : (0 : ℝ) ≤ HasInf.infinity) (scene : Scene ℝ) (hs : TriangleScene scene) :
    SceneContract (fun x : ℝ => 0 ≤ x) UnitVec Canonical scene := by
  obtain ⟨c, hc, hshape⟩ := hs.shapes
  exact triangles_contract hinf scene c.shapes (fun ray h hh => simple_hit_from c ray h (by rw [Scene.intersect, hc] at hh; exact hh)) hshape hs.lights

/-- C67 for scenes of triangles with the library's materials and lights, seen through a camera that casts unit directions: with
sample values in `[0,1)` every channel of the radiance is non-negative. -/
theorem c67_triangle_scene [HasInf ℝ] [HasNext ℝ] (hinf : (0 : ℝ) ≤ HasInf.infinity) (scene : Scene ℝ) (hs : TriangleScene scene)
    (camera : PerspectiveCamera ℝ) (pFilm : V2 ℝ) (hd : UnitVec (camera.generateRay pFilm).direction)
    {σ : Type} (ops : SamplerOps ℝ σ) (hops : Delivers Canonical ops) (s s' : σ) (l : Spectrum ℝ)
    (h : (cameraRadiance scene camera pFilm).run ops s = some (l, s')) : NonNeg l :=
  c67_radiance c67_real_rule.1 c67_real_rule.2 (triangle_scene_contract hinf scene hs) camera pFilm hd ops hops s s' l h

/-- Such a scene: a rough plastic triangle with vertex normals, an emitting diffuse one and a distant light. -/
example [HasInf ℝ] (box : BBox3 ℝ) :
    let t1 : Triangle ℝ := ⟨⟨0, 0, 0⟩, ⟨1, 0, 0⟩, ⟨0, 1, 0⟩, some (⟨0, 0, 1⟩, ⟨1, 0, 1⟩, ⟨0, 1, 1⟩), false,
      plasticMaterial (fun _ => ⟨1, 0, 0⟩) (fun _ => ⟨0, 1, 0⟩) (fun _ => 1 / 10)⟩
    let t2 : Triangle ℝ := ⟨⟨0, 0, 5⟩, ⟨1, 0, 5⟩, ⟨0, 1, 5⟩, none, true, lambertianMaterial fun _ => ⟨1 / 2, 1 / 2, 1 / 2⟩⟩
    TriangleScene ⟨[⟨0, distant ⟨1, 1, 1⟩ ⟨0, 0, 1⟩ box⟩, ⟨2, (AreaLight.mk ⟨3, 2, 1⟩ t2.toShape).toLight⟩],
      (Simple.mk [⟨1, t1.toShape⟩, ⟨2, (AreaLight.mk ⟨3, 2, 1⟩ t2.toShape).toShape⟩] box).toContainer⟩ := by
  intro t1 t2
  have h1 : LibraryTriangle t1 := by
    refine ⟨fun i => .plastic (fun _ => ⟨1, 0, 0⟩) (fun _ => ⟨0, 1, 0⟩) (fun _ => 1 / 10) (by norm_num), ?_⟩
    rintro n0 n1 n2 hn b0 b1 b2 ⟨w0, w1, w2, w3⟩ e
    simp only [t1, Option.some.injEq, Prod.mk.injEq] at hn
    obtain ⟨rfl, rfl, rfl⟩ := hn
    have := congrArg V3.z e
    simp only [mix, V3.zero, r_lit] at this
    norm_num at this
    linarith
  have h2 : LibraryTriangle t2 := ⟨fun i => .lambertian _, fun n0 n1 n2 hn => by cases hn⟩
  have p1 : NonNeg (⟨3, 2, 1⟩ : Spectrum ℝ) := by norm_num [NonNeg]
  refine ⟨⟨_, rfl, ?_⟩, ?_⟩
  · intro s hs
    simp only [List.mem_cons, List.not_mem_nil, or_false] at hs
    rcases hs with rfl | rfl
    · exact ⟨t1, h1, Or.inl rfl⟩
    · exact ⟨t2, h2, Or.inr ⟨_, p1, rfl⟩⟩
  · intro l hl
    simp only [List.mem_cons, List.not_mem_nil, or_false] at hl
    rcases hl with rfl | rfl
    · refine Or.inl ⟨_, _, box, by norm_num [NonNeg], ?_, rfl⟩
      intro e
      have := congrArg V3.z e
      simp [V3.zero, r_lit] at this
    · exact Or.inr ⟨_, t2, p1, rfl⟩

end PT
