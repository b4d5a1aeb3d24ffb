import Verif.Props.WholeImage

/-!
# No camera sample is much brighter than the lights (C108)
-/

namespace PT

namespace Spec
/-- Light (or a colour) without negative channels and with no channel above `M`. -/
def Within3 (M : ℝ) (s : Spectrum ℝ) : Prop := NonNeg s ∧ s.r ≤ M ∧ s.g ≤ M ∧ s.b ≤ M

/-- A matt material that reflects at most the share `ρ` of each channel. -/
def Matt [HasInf ℝ] (ρ : ℝ) (m : Material ℝ) : Prop :=
  ∃ kd : TextureOf ℝ (Spectrum ℝ), m = lambertianMaterial kd ∧ ∀ i, (kd i).r ≤ ρ ∧ (kd i).g ≤ ρ ∧ (kd i).b ≤ ρ

/-- A call of the scene builder for a scene of matt spheres and of matt triangles without vertex normals, some of them shining, and of distant
lights: no surface reflects more than the share `ρ`, no light shines brighter than `M`. -/
inductive MattSceneCall [HasInf ℝ] (ρ M : ℝ) : BuilderCall ℝ → Prop
  | distant (addr e w) : Within3 M e → MattSceneCall ρ M (.light addr fun box => ((DistantLight.new e w).preProcess box).toLight)
  | sphere (addr) (s : Sphere ℝ) : 0 < s.radius → Matt ρ s.material → MattSceneCall ρ M (.shape addr s.toShape)
  | triangle (addr) (t : Triangle ℝ) : t.vertexNormals = none → Matt ρ t.material → MattSceneCall ρ M (.shape addr t.toShape)
  | area (addr e) (t : Triangle ℝ) : Within3 M e → t.vertexNormals = none → Matt ρ t.material → MattSceneCall ρ M (.area addr ⟨e, t.toShape⟩)

/-- By how much the weight of a path can grow at one reflection: Russian roulette lets a path survive with a chance of at most 95%. -/
noncomputable def growth (ρ : ℝ) : ℝ := max 1 (ρ / (95 / 100))

/-- The greatest luminance a camera sample can have. -/
noncomputable def brightest (ρ M : ℝ) (lights : Nat) : ℝ := M * (1 + 3 / 2 * ρ * lights * ∑ j ∈ Finset.range 65, growth ρ ^ j)
end Spec
open Spec

/-! ### One matt surface -/

/-- What the proofs need to know about a hit. -/
structure MattHit (ρ M : ℝ) [HasInf ℝ] (h : Hit ℝ) : Prop where
  unit : Spec.sq h.i.sn = 1
  perp : Spec.inner h.i.dpdu.normalize h.i.sn = 0
  normal : h.i.n = h.i.sn
  matt : Matt ρ h.obj.shape.material
  emits : ∀ w, Within3 M (h.obj.shape.l h.i w)

section
variable [HasInf ℝ]

theorem clamp_share (hinf : (0 : ℝ) ≤ HasInf.infinity) {ρ x : ℝ} (h0 : 0 ≤ ρ) (h : x ≤ ρ) : PT.clamp x (lit 0) (HasInf.infinity : ℝ) ≤ ρ := by
  unfold PT.clamp
  real_ops
  split_ifs with h1 h2
  · simpa using h0
  · have h3 : (HasInf.infinity : ℝ) < x := by simpa using h2
    linarith
  · exact h

theorem clampedTex_share (hinf : (0 : ℝ) ≤ HasInf.infinity) {ρ : ℝ} (h0 : 0 ≤ ρ) (kd : TextureOf ℝ (Spectrum ℝ)) (i : Interaction ℝ)
    (h : (kd i).r ≤ ρ ∧ (kd i).g ≤ ρ ∧ (kd i).b ≤ ρ) (c : Chan) : 0 ≤ c.of (clampedTex kd i) ∧ c.of (clampedTex kd i) ≤ ρ := by
  obtain ⟨n1, n2, n3⟩ := clampedTex_nonNeg hinf kd i
  obtain ⟨h1, h2, h3⟩ := h
  cases c
  · exact ⟨n1, clamp_share hinf h0 h1⟩
  · exact ⟨n2, clamp_share hinf h0 h2⟩
  · exact ⟨n3, clamp_share hinf h0 h3⟩

/-- The value and the density of a matt surface, for directions that need not have length one. -/
theorem matt_value (kd : TextureOf ℝ (Spectrum ℝ)) (i : Interaction ℝ) (hn : i.n = i.sn) (wo wi : V3 ℝ) :
    (∀ c : Chan, c.of ((lambertianMaterial kd i).f wo wi) = 0) ∨
    ((lambertianMaterial kd i).pdf wo wi = |wi.dot i.sn| / Real.pi ∧ ∀ c : Chan, c.of ((lambertianMaterial kd i).f wo wi) = c.of (clampedTex kd i) / Real.pi) := by
  unfold lambertianMaterial
  dsimp only
  by_cases hb : (clampedTex kd i).isBlack = true
  · left
    intro c
    rw [if_pos hb]
    unfold BSDF.f
    dsimp only
    split_ifs <;> exact Chan.of_zero c
  · rw [if_neg hb]
    by_cases hz : (((BSDF.new i).add (lambertianReflection (clampedTex kd i))).worldToLocal wo).z = 0
    · left
      intro c
      unfold BSDF.f
      dsimp only
      rw [if_pos (by real_ops; simpa using hz)]
      exact Chan.of_zero c
    · by_cases hr : ((wi.dot i.n) *. (wo.dot i.n) >. lit 0) = true
      · right
        have hrr : 0 < wi.dot i.sn * wo.dot i.sn := by
          rw [hn] at hr; real_ops at hr; simpa using hr
        constructor
        · unfold BSDF.pdf
          dsimp only
          rw [if_neg (by simp [BSDF.add, BSDF.new]), if_neg (by real_ops; simpa using hz)]
          have hs : sameHemisphere (((BSDF.new i).add (lambertianReflection (clampedTex kd i))).worldToLocal wo)
              (((BSDF.new i).add (lambertianReflection (clampedTex kd i))).worldToLocal wi) = true := by
            simp only [sameHemisphere, BSDF.worldToLocal, BSDF.add, BSDF.new]
            real_ops
            rw [mul_comm]
            simpa using hrr
          simp only [BSDF.add, BSDF.new, List.nil_append, List.foldl_cons, List.foldl_nil, List.length_singleton, lambertianReflection, Lambertian.pdf] at hs ⊢
          rw [if_pos hs]
          simp only [absCosTheta, BSDF.worldToLocal]
          real_ops
          norm_num
        · intro c
          unfold BSDF.f
          dsimp only
          rw [if_neg (by real_ops; simpa using hz)]
          have hr' : ((wi.dot ((BSDF.new i).add (lambertianReflection (clampedTex kd i))).gn) *.
            (wo.dot ((BSDF.new i).add (lambertianReflection (clampedTex kd i))).gn) >. lit 0) = true := hr
          rw [hr']
          have hR : (lambertianReflection (clampedTex kd i)).hasFlag REFLECTION = true := by
            simp only [lambertianReflection, BxDF.hasFlag]; decide
          simp only [BSDF.sumF, BSDF.add, BSDF.new, List.nil_append, List.foldl_cons, List.foldl_nil, hR, Bool.and_self, Bool.true_or, if_true, Chan.of_add,
            Chan.of_zero, zero_add]
          change c.of ((clampedTex kd i).sdiv Libm.pi) = _
          rw [Chan.of_sdiv]
          real_ops
      · left
        intro c
        unfold BSDF.f
        dsimp only
        rw [if_neg (by real_ops; simpa using hz)]
        have hr' : ((wi.dot ((BSDF.new i).add (lambertianReflection (clampedTex kd i))).gn) *.
            (wo.dot ((BSDF.new i).add (lambertianReflection (clampedTex kd i))).gn) >. lit 0) = false := by
          exact eq_false_of_ne_true hr
        rw [hr']
        have hT : (lambertianReflection (clampedTex kd i)).hasFlag TRANSMISSION = false := by
          simp only [lambertianReflection, BxDF.hasFlag]; decide
        simp only [BSDF.sumF, BSDF.add, BSDF.new, List.nil_append, List.foldl_cons, List.foldl_nil, hT, Bool.false_and, Bool.and_false, Bool.or_self,
          Bool.false_eq_true, if_false]
        exact Chan.of_zero c

/-- A direction sampled at a matt surface. -/
theorem matt_sample (kd : TextureOf ℝ (Spectrum ℝ)) (i : Interaction ℝ) (h1 : Spec.sq i.sn = 1) (hps : Spec.inner i.dpdu.normalize i.sn = 0) (wo : V3 ℝ) (u : V2 ℝ)
    (hu : Canonical u.x) (hv : Canonical u.y) (wi : V3 ℝ) (f : Spectrum ℝ) (p : ℝ) (flag : Nat)
    (h : (lambertianMaterial kd i).sampleF wo u = some (wi, f, p, flag)) (hp0 : p ≠ 0) :
    wi.dot i.sn ≠ 0 ∧ p = |wi.dot i.sn| / Real.pi ∧ (flag &&& SPECULAR != 0) = false ∧ ∀ c : Chan, c.of f = c.of (clampedTex kd i) / Real.pi := by
  have hbx : (lambertianMaterial kd i).bxdfs = [] ∨ (lambertianMaterial kd i).bxdfs = [lambertianReflection (clampedTex kd i)] := by
    unfold lambertianMaterial
    dsimp only
    split_ifs
    · exact Or.inl rfl
    · exact Or.inr rfl
  have hfr : (lambertianMaterial kd i).s = i.dpdu.normalize ∧ (lambertianMaterial kd i).t = i.sn.cross i.dpdu.normalize ∧ (lambertianMaterial kd i).sn = i.sn := by
    unfold lambertianMaterial
    dsimp only
    split_ifs <;> exact ⟨rfl, rfl, rfl⟩
  have hlen : (lambertianMaterial kd i).bxdfs.length < 2 ^ 64 := by rcases hbx with e | e <;> rw [e] <;> norm_num
  obtain ⟨k, x, u', w, f0, p0, hx, hu', hv', -, hz, hs, hp1, hwi, hflag, hcase⟩ := sampleF_cases _ hlen wo u hu hv wi f p flag h hp0
  rcases hbx with e | e
  · rw [e] at hx; simp at hx
  rw [e] at hx hcase
  have hxe : x = lambertianReflection (clampedTex kd i) := by
    have := List.mem_of_getElem? hx
    simpa using this
  subst hxe
  rcases hcase with ⟨-, hl, -⟩ | ⟨-, hf, hpp⟩
  · simp at hl
  obtain ⟨-, -, g1, -, g2, -⟩ := c57_lambertian_sample _ _ hz u' ⟨hu'.1, hu'.2.le⟩ (by rw [hv']; exact ⟨hv.1, hv.2.le⟩) w f0 p0 hs
  have hdot : wi.dot i.sn = w.z := by
    rw [hwi]
    simp only [BSDF.localToWorld, hfr.1, hfr.2.1, hfr.2.2]
    generalize i.dpdu.normalize = s at *
    simp only [Spec.inner, Spec.sq, V3.cross, V3.dot] at *
    real_ops
    linear_combination w.x * hps + w.z * h1
  have hp2 : p = p0 := by rw [hpp]; simp
  rw [hdot]
  refine ⟨?_, ?_, ?_, ?_⟩
  · intro hw
    apply hp1
    rw [g1, hw]; simp
  · rw [hp2, g1]
  · rw [hflag]; simp only [lambertianReflection]; decide
  · intro c
    rw [hf, g2]
    change c.of ((clampedTex kd i).sdiv Libm.pi) = _
    rw [Chan.of_sdiv]
    real_ops

/-! ### Direct light -/

theorem mul_share_le {p q : ℝ} (hp : 0 < p) (hq : 0 ≤ q) : 0 ≤ q * share p q / p ∧ q * share p q / p ≤ 1 / 2 := by
  unfold share
  have h : 0 < p ^ 2 + q ^ 2 := by positivity
  refine ⟨by positivity, ?_⟩
  rw [div_le_iff₀ hp, mul_div_assoc', div_le_iff₀ h]
  nlinarith [mul_nonneg hp.le (sq_nonneg (p - q))]

theorem share_unit (p q : ℝ) : 0 ≤ share p q ∧ share p q ≤ 1 := by
  unfold share
  refine ⟨by positivity, ?_⟩
  rcases eq_or_ne (p ^ 2 + q ^ 2) 0 with h | h
  · rw [h]; simp
  · rw [div_le_one (lt_of_le_of_ne (by positivity) h.symm)]
    nlinarith [sq_nonneg q]

theorem within3_chan {M : ℝ} {s : Spectrum ℝ} (h : Within3 M s) (c : Chan) : 0 ≤ c.of s ∧ c.of s ≤ M := by
  obtain ⟨⟨h1, h2, h3⟩, h4, h5, h6⟩ := h
  cases c
  · exact ⟨h1, h4⟩
  · exact ⟨h2, h5⟩
  · exact ⟨h3, h6⟩

theorem dot_unit_le (v w : V3 ℝ) (hw : Spec.sq w = 1) (hv : Spec.sq v ≤ 1) : |v.dot w| ≤ 1 := by
  rw [abs_le_one_iff_mul_self_le_one]
  simp only [V3.dot, Spec.sq] at *
  real_ops
  nlinarith [sq_nonneg (v.x * w.y - v.y * w.x), sq_nonneg (v.y * w.z - v.z * w.y), sq_nonneg (v.z * w.x - v.x * w.z)]

theorem sq_normalize_le (v : V3 ℝ) : Spec.sq v.normalize ≤ 1 := by
  by_cases h : v = V3.zero
  · subst h
    simp only [Spec.sq, V3.normalize, V3.zero]; real_ops; norm_num
  · exact (sq_normalize h).le

section
variable [HasNext ℝ] {scene : Scene ℝ} {ρ M : ℝ}
open Prog

/-- What the proofs need to know about a light. -/
def MattLight (M : ℝ) (l : Light ℝ) : Prop :=
  (l.isDelta = true ∧ ∀ i u s, l.sampleLi i u = some s → Within3 M s.li ∧ s.pdf = 1 ∧ Spec.sq s.wi ≤ 1) ∨
  (l.isDelta = false ∧ ∀ i u s, l.sampleLi i u = some s → Within3 M s.li)

theorem directFromLight_matt (hM : 0 ≤ M) {light : LightObj ℝ} (hl : MattLight M light.light) {i : Interaction ℝ}
    (h1 : Spec.sq i.sn = 1) (hn : i.n = i.sn) (kd : TextureOf ℝ (Spectrum ℝ)) (hr : ∀ c : Chan, 0 ≤ c.of (clampedTex kd i)) (u : V2 ℝ) :
    (directFromLight light i (lambertianMaterial kd i) u).Yields scene Canonical
      (fun s => ∀ c : Chan, 0 ≤ c.of s ∧ c.of s ≤ c.of (clampedTex kd i) * (M * (1 / 2))) := by
  have hz : ∀ c : Chan, 0 ≤ c.of (Spectrum.zero : Spectrum ℝ) ∧ c.of (Spectrum.zero : Spectrum ℝ) ≤ c.of (clampedTex kd i) * (M * (1 / 2)) := by
    intro c
    rw [Chan.of_zero]
    exact ⟨le_rfl, mul_nonneg (hr c) (by positivity)⟩
  unfold directFromLight
  refine Yields.bind (Q := fun s => light.light.sampleLi i u = some s) (fun s hs => ?_) (Yields.ofOption fun x h => h)
  refine Yields.ite (fun hc => ?_) fun _ => hz
  simp only [Bool.and_eq_true, Bool.not_eq_true'] at hc
  have hpdf : 0 < s.pdf := by have := hc.1; real_ops at this; simpa using this
  refine Yields.ite (fun _ => ?_) fun _ => hz
  refine Yields.bind (Q := fun _ => True) (fun occ _ => ?_) (fun _ _ => trivial)
  refine Yields.ite (fun _ => ?_) fun _ => hz
  have hpi := Real.pi_pos
  have hpi3 := Real.two_le_pi
  refine Yields.ite (fun hd => ?_) fun hd => ?_
  · intro c
    obtain ⟨-, hl⟩ | ⟨hl, -⟩ := hl
    swap
    · rw [hl] at hd; cases hd
    obtain ⟨g1, g2, g3⟩ := hl i u s hs
    obtain ⟨m0, mM⟩ := within3_chan g1 c
    rw [Chan.of_add, Chan.of_zero, zero_add, Chan.of_sdiv, Chan.of_mul, Chan.of_smul, g2, div_one]
    have ha : Scalar.abs (s.wi.dot i.sn) = |s.wi.dot i.sn| := by real_ops
    rw [ha]
    have hd1 := dot_unit_le s.wi i.sn h1 g3
    rcases matt_value kd i hn i.wo s.wi with h0 | ⟨-, h0⟩
    · rw [h0 c, zero_mul, zero_mul]
      exact ⟨le_rfl, mul_nonneg (hr c) (by positivity)⟩
    · rw [h0 c]
      have hx := hr c
      refine ⟨by positivity, ?_⟩
      have e : c.of (clampedTex kd i) / Real.pi * |s.wi.dot i.sn| * c.of s.li = c.of (clampedTex kd i) * (c.of s.li * (|s.wi.dot i.sn| / Real.pi)) := by ring
      rw [e]
      refine mul_le_mul_of_nonneg_left (mul_le_mul mM ?_ (by positivity) hM) hx
      rw [div_le_iff₀ hpi]
      linarith
  · intro c
    obtain ⟨hl, -⟩ | ⟨-, hl⟩ := hl
    · exact absurd hl hd
    obtain ⟨m0, mM⟩ := within3_chan (hl i u s hs) c
    rw [Chan.of_add, Chan.of_zero, zero_add, Chan.of_sdiv, Chan.of_smul, Chan.of_mul, Chan.of_smul, power_share]
    have ha : Scalar.abs (s.wi.dot i.sn) = |s.wi.dot i.sn| := by real_ops
    rw [ha]
    rcases matt_value kd i hn i.wo s.wi with h0 | ⟨hp, h0⟩
    · rw [h0 c]
      simp only [zero_mul, zero_div]
      exact ⟨le_rfl, mul_nonneg (hr c) (by positivity)⟩
    · rw [h0 c, hp]
      have hx := hr c
      obtain ⟨k1, k2⟩ := mul_share_le hpdf (q := |s.wi.dot i.sn| / Real.pi) (by positivity)
      have e : c.of (clampedTex kd i) / Real.pi * |s.wi.dot i.sn| * c.of s.li * share s.pdf (|s.wi.dot i.sn| / Real.pi) / s.pdf =
        c.of (clampedTex kd i) * (c.of s.li * (|s.wi.dot i.sn| / Real.pi * share s.pdf (|s.wi.dot i.sn| / Real.pi) / s.pdf)) := by ring
      rw [e]
      exact ⟨mul_nonneg hx (mul_nonneg m0 k1), mul_le_mul_of_nonneg_left (mul_le_mul mM k2 k1 hM) hx⟩

theorem directFromBsdf_matt (hM : 0 ≤ M) (hhit : ∀ ray h, ray.direction ≠ V3.zero → scene.intersect ray = some (some h) → MattHit ρ M h)
    (light : LightObj ℝ) {i : Interaction ℝ}
    (h1 : Spec.sq i.sn = 1) (hps : Spec.inner i.dpdu.normalize i.sn = 0) (kd : TextureOf ℝ (Spectrum ℝ)) (hr : ∀ c : Chan, 0 ≤ c.of (clampedTex kd i)) (u : V2 ℝ)
    (hu : Canonical u.x) (hv : Canonical u.y) (ld : Spectrum ℝ) (hld : ∀ c : Chan, 0 ≤ c.of ld ∧ c.of ld ≤ c.of (clampedTex kd i) * (M * (1 / 2))) :
    (directFromBsdf light i (lambertianMaterial kd i) u ld).Yields scene Canonical
      (fun s => ∀ c : Chan, 0 ≤ c.of s ∧ c.of s ≤ c.of (clampedTex kd i) * (M * (3 / 2))) := by
  have hz : ∀ c : Chan, 0 ≤ c.of ld ∧ c.of ld ≤ c.of (clampedTex kd i) * (M * (3 / 2)) := by
    intro c
    refine ⟨(hld c).1, (hld c).2.trans (mul_le_mul_of_nonneg_left (by linarith) (hr c))⟩
  unfold directFromBsdf
  refine Yields.ite (fun _ => ?_) fun _ => hz
  refine Yields.bind (Q := fun s => (lambertianMaterial kd i).sampleF i.wo u = some s) (fun s hs => ?_) (Yields.ofOption fun x h => h)
  obtain ⟨wi, f, p, flag⟩ := s
  dsimp only
  refine Yields.ite (fun hc => ?_) fun _ => hz
  simp only [Bool.and_eq_true] at hc
  have hpdf : 0 < p := by have := hc.1; real_ops at this; simpa using this
  obtain ⟨g1, g2, g3, g4⟩ := matt_sample kd i h1 hps i.wo u hu hv wi f p flag hs hpdf.ne'
  refine Yields.ite (fun _ => hz) fun _ => ?_
  refine Yields.bind (Q := fun x => scene.shapes.intersect (i.spawnRay wi) = some x) (fun x hx => ?_) (fun x hx => hx)
  cases x with
  | none => exact hz
  | some h =>
    have hne : (i.spawnRay wi).direction ≠ V3.zero := by
      change wi ≠ V3.zero
      rintro rfl
      apply g1
      simp only [V3.dot, V3.zero]; real_ops; norm_num
    have hm := hhit (i.spawnRay wi) h hne hx
    have hli : ∀ c : Chan, 0 ≤ c.of (if h.obj.addr = light.addr then h.le wi.neg else Spectrum.zero) ∧
        c.of (if h.obj.addr = light.addr then h.le wi.neg else Spectrum.zero) ≤ M := by
      intro c
      split_ifs
      · exact within3_chan (hm.emits _) c
      · rw [Chan.of_zero]; exact ⟨le_rfl, hM⟩
    have hw : ∀ b : Bool, 0 ≤ (if b = true then powerHeuristic 1 p 1 (light.light.pdfLi i wi) else lit 1) ∧
        (if b = true then powerHeuristic 1 p 1 (light.light.pdfLi i wi) else lit 1) ≤ (1 : ℝ) := by
      intro b
      split_ifs
      · rw [power_share]; exact share_unit _ _
      · real_ops; norm_num
    intro c
    rw [Chan.of_add, Chan.of_sdiv, Chan.of_smul, Chan.of_mul, Chan.of_smul, g4 c]
    have ha : Scalar.abs (wi.dot i.sn) = |wi.dot i.sn| := by real_ops
    rw [ha]
    obtain ⟨w0, w1⟩ := hw (!(flag &&& SPECULAR != 0))
    obtain ⟨m0, mM⟩ := hli c
    generalize (if (!(flag &&& SPECULAR != 0)) = true then powerHeuristic 1 p 1 (light.light.pdfLi i wi) else lit 1) = w at *
    generalize c.of (if h.obj.addr = light.addr then h.le wi.neg else Spectrum.zero) = L at *
    have hpi := Real.pi_pos
    have hab : 0 < |wi.dot i.sn| := abs_pos.mpr g1
    have e : c.of (clampedTex kd i) / Real.pi * |wi.dot i.sn| * L * w / p = c.of (clampedTex kd i) * (L * w) := by
      rw [g2]; field_simp
    rw [e]
    have hx := hr c
    refine ⟨add_nonneg (hld c).1 (by positivity), ?_⟩
    have : c.of (clampedTex kd i) * (L * w) ≤ c.of (clampedTex kd i) * M :=
      mul_le_mul_of_nonneg_left (by nlinarith) hx
    linarith [(hld c).2]

theorem uniformSampleOneLight_matt (hM : 0 ≤ M) (hhit : ∀ ray h, ray.direction ≠ V3.zero → scene.intersect ray = some (some h) → MattHit ρ M h)
    (hlights : ∀ l ∈ scene.lights, MattLight M l.light) {i : Interaction ℝ}
    (h1 : Spec.sq i.sn = 1) (hps : Spec.inner i.dpdu.normalize i.sn = 0) (hn : i.n = i.sn) (kd : TextureOf ℝ (Spectrum ℝ)) (hr : ∀ c : Chan, 0 ≤ c.of (clampedTex kd i)) :
    (uniformSampleOneLight scene.lights i (lambertianMaterial kd i)).Yields scene Canonical
      (fun s => ∀ c : Chan, 0 ≤ c.of s ∧ c.of s ≤ c.of (clampedTex kd i) * (M * (3 / 2)) * scene.lights.length) := by
  unfold uniformSampleOneLight
  dsimp only
  refine Yields.ite (fun _ => ?_) fun _ => ?_
  · intro c
    rw [Chan.of_zero]
    have := hr c
    exact ⟨le_rfl, by positivity⟩
  refine Yields.bind (Q := fun _ => True) (fun u _ => ?_) (fun _ _ => trivial)
  refine Yields.bind (Q := fun l => l ∈ scene.lights) (fun light hl => ?_) (Yields.ofOption fun x h => List.mem_of_getElem? h)
  refine Yields.bind (Q := fun s => ∀ c : Chan, 0 ≤ c.of s ∧ c.of s ≤ c.of (clampedTex kd i) * (M * (3 / 2))) (fun ld hld => ?_) ?_
  · intro c
    rw [Chan.of_smul]
    have e : (ofInt (scene.lights.length : Int) : ℝ) = scene.lights.length := by real_ops; simp
    rw [e]
    exact ⟨mul_nonneg (hld c).1 (Nat.cast_nonneg _), mul_le_mul_of_nonneg_right (hld c).2 (Nat.cast_nonneg _)⟩
  unfold estimateDirect
  refine Yields.bind (Q := fun u => Canonical u.x ∧ Canonical u.y) (fun u hu => ?_) (fun _ h1 h2 => ⟨h1, h2⟩)
  refine Yields.bind (Q := fun u => Canonical u.x ∧ Canonical u.y) (fun v hv => ?_) (fun _ h1 h2 => ⟨h1, h2⟩)
  exact Yields.bind (fun ld hld => directFromBsdf_matt hM hhit light h1 hps kd hr v hv.1 hv.2 ld hld)
    (directFromLight_matt hM (hlights light hl) h1 hn kd hr u)

/-! ### The path -/

theorem lum_eq (s : Spectrum ℝ) : s.y = 212671 / 1000000 * s.r + 715160 / 1000000 * s.g + 72169 / 1000000 * s.b := by
  unfold Spectrum.y; real_ops

theorem lum_add (s t : Spectrum ℝ) : (s.add t).y = s.y + t.y := by
  rw [lum_eq, lum_eq, lum_eq]; simp only [Spectrum.add]; real_ops; ring

theorem lum_sdiv (s : Spectrum ℝ) (a : ℝ) : (s.sdiv a).y = s.y / a := by
  rw [lum_eq, lum_eq]; simp only [Spectrum.sdiv]; real_ops; ring

theorem lum_mul_le {β s : Spectrum ℝ} {K : ℝ} (hβ : ∀ c : Chan, 0 ≤ c.of β) (h : ∀ c : Chan, c.of s ≤ K) : (β.mul s).y ≤ K * β.y := by
  have b1 : 0 ≤ β.r := hβ .r
  have b2 : 0 ≤ β.g := hβ .g
  have b3 : 0 ≤ β.b := hβ .b
  have h1 : s.r ≤ K := h .r
  have h2 : s.g ≤ K := h .g
  have h3 : s.b ≤ K := h .b
  rw [lum_eq, lum_eq]
  simp only [Spectrum.mul]; real_ops
  nlinarith [mul_le_mul_of_nonneg_left h1 b1, mul_le_mul_of_nonneg_left h2 b2, mul_le_mul_of_nonneg_left h3 b3]

theorem lum_nonneg {s : Spectrum ℝ} (h : ∀ c : Chan, 0 ≤ c.of s) : 0 ≤ s.y := by
  have b1 : 0 ≤ s.r := h .r
  have b2 : 0 ≤ s.g := h .g
  have b3 : 0 ≤ s.b := h .b
  rw [lum_eq]; positivity

theorem one_le_growth (ρ : ℝ) : 1 ≤ growth ρ := le_max_left _ _

/-- The weight of a path that survives Russian roulette. -/
theorem roulette_weight {β β' : Spectrum ℝ} {B v : ℝ} (hB : 1 ≤ B) (hβ : ∀ c : Chan, 0 ≤ c.of β) (hy : β.y ≤ ρ * B) (h : roulette β v = some β') :
    (∀ c : Chan, 0 ≤ c.of β') ∧ β'.y ≤ growth ρ * B := by
  unfold roulette at h
  dsimp only at h
  split_ifs at h
  simp only [Option.some.injEq] at h
  subst h
  have hy0 := lum_nonneg hβ
  have e : Scalar.fmin β.y (lit (95 / 100)) = min β.y (95 / 100) := by real_ops
  rw [e]
  have hq : 0 ≤ min β.y (95 / 100 : ℝ) := le_min hy0 (by norm_num)
  refine ⟨fun c => by rw [Chan.of_sdiv]; exact div_nonneg (hβ c) hq, ?_⟩
  rw [lum_sdiv]
  have hg := one_le_growth ρ
  have hg2 : ρ / (95 / 100) ≤ growth ρ := le_max_right _ _
  rcases le_total β.y (95 / 100) with h1 | h1
  · rw [min_eq_left h1]
    have : β.y / β.y ≤ 1 := div_self_le_one _
    nlinarith
  · rw [min_eq_right h1, div_le_iff₀ (by norm_num)]
    rw [div_le_iff₀ (by norm_num)] at hg2
    nlinarith

theorem liLoop_matt (h0 : 0 ≤ ρ) (hρ : ρ ≤ 1) (hM : 0 ≤ M) (hinf : (0 : ℝ) ≤ HasInf.infinity)
    (hhit : ∀ ray h, ray.direction ≠ V3.zero → scene.intersect ray = some (some h) → MattHit ρ M h)
    (hlights : ∀ l ∈ scene.lights, MattLight M l.light) (k : Nat) : ∀ (bounces : Nat) (ray : Ray ℝ) (l beta : Spectrum ℝ) (sb : Bool) (A B : ℝ),
    MAX_BOUNCES + 1 - bounces = k → ray.direction ≠ V3.zero → sb = false → 1 ≤ B → (∀ c : Chan, 0 ≤ c.of l) → (∀ c : Chan, 0 ≤ c.of beta) →
    l.y ≤ A → beta.y ≤ B →
    (liLoop scene.lights bounces ray l beta sb).Yields scene Canonical (fun s => (∀ c : Chan, 0 ≤ c.of s) ∧
      s.y ≤ A + (if bounces = 0 then M * B else 0) + ρ * (M * (3 / 2)) * scene.lights.length * B * ∑ j ∈ Finset.range k, growth ρ ^ j) := by
  have hg := one_le_growth ρ
  have hg0 : 0 ≤ growth ρ := by linarith
  induction k using Nat.strong_induction_on with
  | _ k ih =>
    intro bounces ray l beta sb A B hk hd hsb hB hl hbeta hA hbB
    have hC : 0 ≤ ρ * (M * (3 / 2)) * scene.lights.length := by positivity
    have hB0 : 0 ≤ B := by linarith
    have hGB : 1 ≤ growth ρ * B := one_le_mul_of_one_le_of_one_le hg hB
    have hρB : ρ * B ≤ growth ρ * B := mul_le_mul_of_nonneg_right (hρ.trans hg) hB0
    have hS : ∀ m, 0 ≤ ∑ j ∈ Finset.range m, growth ρ ^ j := fun m => Finset.sum_nonneg fun j _ => pow_nonneg hg0 j
    have hE : 0 ≤ (if bounces = 0 then M * B else 0) := by split_ifs <;> positivity
    have hbase : l.y ≤ A + (if bounces = 0 then M * B else 0) + ρ * (M * (3 / 2)) * scene.lights.length * B * ∑ j ∈ Finset.range k, growth ρ ^ j := by
      have := mul_nonneg (mul_nonneg hC hB0) (hS k)
      linarith
    rw [liLoop]
    refine Yields.bind (Q := fun x => scene.shapes.intersect ray = some x) (fun x hx => ?_) (fun x hx => hx)
    cases x with
    | none =>
      dsimp only
      split_ifs at hbase ⊢ <;> exact ⟨hl, hbase⟩
    | some h =>
      dsimp only
      have hm := hhit ray h hd hx
      generalize hl' : (if bounces = 0 ∨ sb = true then l.add (beta.mul (h.le ray.direction.neg)) else l) = l'
      have hl2 : (∀ c : Chan, 0 ≤ c.of l') ∧ l'.y ≤ A + (if bounces = 0 then M * B else 0) := by
        rw [← hl']
        by_cases hb0 : bounces = 0
        · rw [if_pos (Or.inl hb0), if_pos hb0]
          refine ⟨fun c => ?_, ?_⟩
          · rw [Chan.of_add, Chan.of_mul]
            exact add_nonneg (hl c) (mul_nonneg (hbeta c) (within3_chan (hm.emits _) c).1)
          · rw [lum_add]
            have := lum_mul_le (s := h.le ray.direction.neg) hbeta fun c => (within3_chan (hm.emits _) c).2
            linarith [mul_le_mul_of_nonneg_left hbB hM]
        · rw [if_neg (by simp [hb0, hsb]), if_neg hb0]
          exact ⟨hl, by linarith⟩
      have hY : l'.y ≤ A + (if bounces = 0 then M * B else 0) + ρ * (M * (3 / 2)) * scene.lights.length * B * ∑ j ∈ Finset.range k, growth ρ ^ j := by
        have := mul_nonneg (mul_nonneg hC hB0) (hS k)
        linarith [hl2.2]
      by_cases hb : bounces > MAX_BOUNCES
      · rw [dif_pos hb]; exact ⟨hl2.1, hY⟩
      rw [dif_neg hb]
      obtain ⟨kd, hkd, hsh⟩ := hm.matt
      have hr := fun c => clampedTex_share hinf h0 kd h.i (hsh h.i) c
      refine Yields.bind (Q := fun b => b = lambertianMaterial kd h.i) (fun b hb' => ?_) (show _ = _ by rw [hkd])
      subst hb'
      refine Yields.bind (fun ld hld => ?_) (uniformSampleOneLight_matt hM hhit hlights hm.unit hm.perp hm.normal kd fun c => (hr c).1)
      have hl3 : (∀ c : Chan, 0 ≤ c.of (l'.add (beta.mul ld))) ∧ (l'.add (beta.mul ld)).y ≤
          A + (if bounces = 0 then M * B else 0) + ρ * (M * (3 / 2)) * scene.lights.length * B := by
        refine ⟨fun c => ?_, ?_⟩
        · rw [Chan.of_add, Chan.of_mul]
          exact add_nonneg (hl2.1 c) (mul_nonneg (hbeta c) (hld c).1)
        · rw [lum_add]
          have h1 := lum_mul_le (s := ld) (K := ρ * (M * (3 / 2)) * scene.lights.length) hbeta fun c => (hld c).2.trans
            (mul_le_mul_of_nonneg_right (mul_le_mul_of_nonneg_right (hr c).2 (by positivity)) (Nat.cast_nonneg _))
          have h2 : ρ * (M * (3 / 2)) * scene.lights.length * beta.y ≤ ρ * (M * (3 / 2)) * scene.lights.length * B :=
            mul_le_mul_of_nonneg_left hbB hC
          linarith [hl2.2]
      obtain ⟨k', rfl⟩ : ∃ k', k = k' + 1 := ⟨k - 1, by omega⟩
      have hsum : ∑ j ∈ Finset.range (k' + 1), growth ρ ^ j = 1 + growth ρ * ∑ j ∈ Finset.range k', growth ρ ^ j := by
        rw [Finset.sum_range_succ', Finset.mul_sum, add_comm]
        simp [pow_succ, mul_comm]
      have hfin : A + (if bounces = 0 then M * B else 0) + ρ * (M * (3 / 2)) * scene.lights.length * B ≤
          A + (if bounces = 0 then M * B else 0) + ρ * (M * (3 / 2)) * scene.lights.length * B * ∑ j ∈ Finset.range (k' + 1), growth ρ ^ j := by
        rw [hsum]
        have := mul_nonneg (mul_nonneg hC hB0) (mul_nonneg hg0 (hS k'))
        linarith
      refine Yields.bind (Q := fun u => Canonical u.x ∧ Canonical u.y) (fun u hu => ?_) (fun _ h1 h2 => ⟨h1, h2⟩)
      refine Yields.bind (Q := fun s => (lambertianMaterial kd h.i).sampleF h.i.wo u = some s) (fun s hs => ?_) (Yields.ofOption fun x h => h)
      obtain ⟨wi, f, p, flag⟩ := s
      dsimp only
      refine Yields.ite (fun _ => ⟨hl3.1, hl3.2.trans hfin⟩) fun hc => ?_
      have hp0 : p ≠ 0 := by
        intro e
        apply hc
        rw [e]
        real_ops
        simp
      obtain ⟨g1, g2, g3, g4⟩ := matt_sample kd h.i hm.unit hm.perp h.i.wo u hu.1 hu.2 wi f p flag hs hp0
      have hne : (h.i.spawnRay wi).direction ≠ V3.zero := by
        change wi ≠ V3.zero
        rintro rfl
        apply g1
        simp only [V3.dot, V3.zero]; real_ops; norm_num
      have hw : ∀ c : Chan, c.of ((f.smul (Scalar.abs (wi.dot h.i.sn))).sdiv p) = c.of (clampedTex kd h.i) := by
        intro c
        rw [Chan.of_sdiv, Chan.of_smul, g4 c, g2]
        have ha : Scalar.abs (wi.dot h.i.sn) = |wi.dot h.i.sn| := by real_ops
        rw [ha]
        have hpi := Real.pi_pos
        have hab : 0 < |wi.dot h.i.sn| := abs_pos.mpr g1
        field_simp
      have hbeta' : ∀ c : Chan, 0 ≤ c.of (scatterWeight beta f wi h.i.sn p) := by
        intro c
        unfold scatterWeight
        rw [Chan.of_mul, hw c]
        exact mul_nonneg (hbeta c) (hr c).1
      have hyb : (scatterWeight beta f wi h.i.sn p).y ≤ ρ * B := by
        unfold scatterWeight
        have := lum_mul_le (s := (f.smul (Scalar.abs (wi.dot h.i.sn))).sdiv p) (K := ρ) hbeta fun c => by rw [hw c]; exact (hr c).2
        exact this.trans (mul_le_mul_of_nonneg_left hbB h0)
      have hnext : ∀ b' : Spectrum ℝ, (∀ c : Chan, 0 ≤ c.of b') → b'.y ≤ growth ρ * B →
          (liLoop scene.lights (bounces + 1) (h.i.spawnRay wi) (l'.add (beta.mul ld)) b' (flag &&& SPECULAR != 0)).Yields scene Canonical
            (fun s => (∀ c : Chan, 0 ≤ c.of s) ∧ s.y ≤ A + (if bounces = 0 then M * B else 0) +
              ρ * (M * (3 / 2)) * scene.lights.length * B * ∑ j ∈ Finset.range (k' + 1), growth ρ ^ j) := by
        intro b' hb1 hb2
        have hq := ih k' (by omega) (bounces + 1) (h.i.spawnRay wi) (l'.add (beta.mul ld)) b' (flag &&& SPECULAR != 0) _ (growth ρ * B) (by omega) hne g3
          hGB hl3.1 hb1 hl3.2 hb2
        have e : A + (if bounces = 0 then M * B else 0) + ρ * (M * (3 / 2)) * scene.lights.length * B + (if bounces + 1 = 0 then M * (growth ρ * B) else 0) +
            ρ * (M * (3 / 2)) * scene.lights.length * (growth ρ * B) * ∑ j ∈ Finset.range k', growth ρ ^ j =
            A + (if bounces = 0 then M * B else 0) + ρ * (M * (3 / 2)) * scene.lights.length * B * ∑ j ∈ Finset.range (k' + 1), growth ρ ^ j := by
          rw [hsum, if_neg (Nat.succ_ne_zero bounces)]
          ring
        rw [e] at hq
        exact hq
      refine Yields.ite (fun _ => ?_) fun _ => ?_
      · refine Yields.bind (Q := fun _ => True) (fun v _ => ?_) (fun _ _ => trivial)
        cases hro : roulette (scatterWeight beta f wi h.i.sn p) v with
        | none => exact ⟨hl3.1, hl3.2.trans hfin⟩
        | some b' =>
          obtain ⟨r1, r2⟩ := roulette_weight hB hbeta' hyb hro
          exact hnext b' r1 r2
      · exact hnext _ hbeta' (hyb.trans hρB)
end

/-! ### Scenes -/

theorem matt_calls_shapes {ρ M : ℝ} : ∀ (hist : List (BuilderCall ℝ)), (∀ c ∈ hist, MattSceneCall ρ M c) → ∀ s ∈ sceneShapes hist,
    (∃ b : Sphere ℝ, 0 < b.radius ∧ Matt ρ b.material ∧ s.shape = b.toShape) ∨
    ∃ t : Triangle ℝ, t.vertexNormals = none ∧ Matt ρ t.material ∧ (s.shape = t.toShape ∨ ∃ l, Within3 M l ∧ s.shape = (AreaLight.mk l t.toShape).toShape) := by
  intro hist
  induction hist with
  | nil => intro _ s h; simp [sceneShapes, addedShapes, addedAreas, asShapes] at h
  | cons c hist ih =>
    intro hlib s h
    have hc := hlib c (by simp)
    have ht := ih (fun c hc => hlib c (by simp [hc])) s
    simp only [sceneShapes, List.mem_append] at ht
    cases hc with
    | distant addr e w => simp only [sceneShapes, List.mem_append] at h; exact ht h
    | sphere addr b hb hm =>
      simp only [sceneShapes, addedShapes, addedAreas, List.mem_append, List.mem_cons] at h
      rcases h with (rfl | h) | h
      · exact Or.inl ⟨b, hb, hm, rfl⟩
      · exact ht (Or.inl h)
      · exact ht (Or.inr h)
    | triangle addr t hv hm =>
      simp only [sceneShapes, addedShapes, addedAreas, List.mem_append, List.mem_cons] at h
      rcases h with (rfl | h) | h
      · exact Or.inr ⟨t, hv, hm, Or.inl rfl⟩
      · exact ht (Or.inl h)
      · exact ht (Or.inr h)
    | area addr e t he hv hm =>
      simp only [sceneShapes, addedShapes, addedAreas, asShapes, List.map_cons, List.mem_append, List.mem_cons] at h
      rcases h with h | rfl | h
      · exact ht (Or.inl h)
      · exact Or.inr ⟨t, hv, hm, Or.inr ⟨e, he, rfl⟩⟩
      · exact ht (Or.inr h)

theorem within3_zero {M : ℝ} (hM : 0 ≤ M) : Within3 M (Spectrum.zero : Spectrum ℝ) := by
  simp only [Within3, NonNeg, Spectrum.zero]
  real_ops
  norm_num [hM]

theorem within3_emitted {M : ℝ} (hM : 0 ≤ M) {l : Spectrum ℝ} (hl : Within3 M l) (s : Shape ℝ) (i : Interaction ℝ) (w : V3 ℝ) :
    Within3 M ((AreaLight.mk l s).emitted i w) := by
  unfold AreaLight.emitted
  split_ifs
  · exact hl
  · exact within3_zero hM

theorem matt_calls_lights {ρ M : ℝ} (hM : 0 ≤ M) (box : BBox3 ℝ) : ∀ (hist : List (BuilderCall ℝ)), (∀ c ∈ hist, MattSceneCall ρ M c) →
    ∀ l ∈ addedLights box hist ++ asLights (addedAreas hist), MattLight M l.light := by
  intro hist
  induction hist with
  | nil => intro _ s h; simp [addedLights, addedAreas, asLights] at h
  | cons c hist ih =>
    intro hlib l h
    have hc := hlib c (by simp)
    have ht := ih (fun c hc => hlib c (by simp [hc])) l
    simp only [List.mem_append] at ht
    cases hc with
    | distant addr e w he =>
      simp only [addedLights, addedAreas, List.mem_append, List.mem_cons] at h
      rcases h with (rfl | h) | h
      · refine Or.inl ⟨rfl, fun i u s hs => ?_⟩
        simp only [DistantLight.toLight, DistantLight.sampleLi, DistantLight.new, DistantLight.preProcess, Option.some.injEq] at hs
        subst hs
        exact ⟨he, by real_ops, sq_normalize_le w⟩
      · exact ht (Or.inl h)
      · exact ht (Or.inr h)
    | sphere addr b hb hm => simp only [List.mem_append] at h; exact ht h
    | triangle addr t hv hm => simp only [List.mem_append] at h; exact ht h
    | area addr e t he hv hm =>
      simp only [addedLights, addedAreas, asLights, List.map_cons, List.mem_append, List.mem_cons] at h
      rcases h with h | rfl | h
      · exact ht (Or.inl h)
      · refine Or.inr ⟨rfl, fun i u s hs => ?_⟩
        simp only [AreaLight.toLight, AreaLight.sampleLi] at hs
        obtain ⟨x, -, rfl⟩ := Option.map_eq_some_iff.1 hs
        exact within3_emitted hM he _ _ _
      · exact ht (Or.inr h)

theorem sphere_matt (s : Sphere ℝ) (hr : 0 < s.radius) (ray : Ray ℝ) (hd : ray.direction ≠ V3.zero) (i : Interaction ℝ) (t : ℝ)
    (h : s.intersect ray = some (i, t)) : Spec.sq i.sn = 1 ∧ Spec.inner i.dpdu.normalize i.sn = 0 ∧ i.n = i.sn := by
  obtain ⟨-, -, -, -, -, hsq, -⟩ := c36_sphere_hit_real s hr ray hd i t h
  obtain ⟨hn, hsn, hdu, -⟩ := sphere_hit_fields s hr ray hd i t h
  refine ⟨by rw [hsn]; exact hsq, ?_, hsn.symm⟩
  have : Spec.inner i.dpdu i.sn = 0 := by
    rw [hsn, hdu, hn]
    simp only [Sphere.computePartialDerivative, scale, diff, Spec.inner]
    real_ops
    ring
  simp only [Spec.inner, V3.normalize] at this ⊢
  real_ops
  have e : i.dpdu.x / i.dpdu.length * i.sn.x + i.dpdu.y / i.dpdu.length * i.sn.y + i.dpdu.z / i.dpdu.length * i.sn.z =
    (i.dpdu.x * i.sn.x + i.dpdu.y * i.sn.y + i.dpdu.z * i.sn.z) / i.dpdu.length := by ring
  rw [e, this, zero_div]

theorem triangle_matt (s : Triangle ℝ) (hv : s.vertexNormals = none) (ray : Ray ℝ) (hd : ray.direction ≠ V3.zero) (i : Interaction ℝ) (t : ℝ)
    (h : s.intersect ray = some (some (i, t))) : Spec.sq i.sn = 1 ∧ Spec.inner i.dpdu.normalize i.sn = 0 ∧ i.n = i.sn := by
  obtain ⟨hf, -⟩ := c74_triangle_frame s ray hd i t h (Or.inl hv)
  obtain ⟨-, -, h1, -, h2, -⟩ := hf
  have h1' : Spec.sq i.sn = 1 := h1
  refine ⟨h1', h2, ?_⟩
  obtain ⟨-, b0, b1, b2, -, -, hi⟩ := triangle_hit_fields s ray hd i t h
  have hsn : i.sn = if s.reverseOrientation then ((s.v0.sub s.v2).cross (s.v1.sub s.v2)).normalize.smul ⊖(lit 1)
      else ((s.v0.sub s.v2).cross (s.v1.sub s.v2)).normalize := by
    rw [hi]; unfold Triangle.interactionAt Triangle.shading; simp only [hv]
  have hn : i.n = if ((s.v0.sub s.v2).cross (s.v1.sub s.v2)).normalize.dot i.sn <. lit 0 then ((s.v0.sub s.v2).cross (s.v1.sub s.v2)).normalize.smul ⊖(lit 1)
      else ((s.v0.sub s.v2).cross (s.v1.sub s.v2)).normalize := by
    rw [hi]; unfold Triangle.interactionAt Triangle.shading; simp only [hv]
  rw [hn]
  generalize ((s.v0.sub s.v2).cross (s.v1.sub s.v2)).normalize = m at *
  cases hrev : s.reverseOrientation
  · rw [hrev] at hsn
    simp only [Bool.false_eq_true, if_false] at hsn
    rw [if_neg, hsn]
    rw [hsn] at h1' ⊢
    simp only [V3.dot, Spec.sq] at h1' ⊢
    real_ops
    simp only [not_lt]
    nlinarith
  · rw [hrev] at hsn
    simp only [if_true] at hsn
    rw [if_pos, hsn]
    rw [hsn] at h1' ⊢
    simp only [V3.dot, V3.smul, Spec.sq] at h1' ⊢
    real_ops at h1' ⊢
    nlinarith

/-- What the proofs need to know about a scene of matt things. -/
theorem matt_world {ρ M : ℝ} (hM : 0 ≤ M) (hist : List (BuilderCall ℝ)) (hlib : ∀ c ∈ hist, MattSceneCall ρ M c)
    {mk : List (Obj ℝ) → Option (Container ℝ)} (hmk : LibraryContainer mk) {scene : Scene ℝ} (hsc : (built hist).construct mk = some scene) :
    (∀ ray h, ray.direction ≠ V3.zero → scene.intersect ray = some (some h) → MattHit ρ M h) ∧ ∀ l ∈ scene.lights, MattLight M l.light := by
  obtain ⟨box, -, h, -⟩ := c65_construct hist mk
  obtain ⟨hl, hc⟩ := h scene hsc
  refine ⟨fun ray h hd hh => ?_, ?_⟩
  · obtain ⟨hm, tm, t, hrep⟩ := container_reports hmk hc ray h hh
    unfold Reports at hrep
    have hd' : ({ ray with tMax := tm } : Ray ℝ).direction ≠ V3.zero := hd
    rcases matt_calls_shapes hist hlib _ hm with ⟨b, hb, hmat, e⟩ | ⟨tr, hv, hmat, e⟩
    · rw [e] at hrep
      have hi : b.intersect { ray with tMax := tm } = some (h.i, t) := by
        have : some (b.intersect { ray with tMax := tm }) = some (some (h.i, t)) := hrep
        simpa using this
      obtain ⟨g1, g2, g3⟩ := sphere_matt b hb _ hd' h.i t hi
      refine ⟨g1, g2, g3, by rw [e]; exact hmat, fun w => ?_⟩
      rw [e]; exact within3_zero hM
    · have hi : tr.intersect { ray with tMax := tm } = some (some (h.i, t)) := by
        rcases e with e | ⟨l, -, e⟩ <;> rw [e] at hrep <;> exact hrep
      obtain ⟨g1, g2, g3⟩ := triangle_matt tr hv _ hd' h.i t hi
      refine ⟨g1, g2, g3, ?_, fun w => ?_⟩
      · rcases e with e | ⟨l, -, e⟩ <;> rw [e] <;> exact hmat
      · rcases e with e | ⟨l, hl, e⟩ <;> rw [e]
        · exact within3_zero hM
        · exact within3_emitted hM hl _ _ _
  · rw [hl]; exact matt_calls_lights hM box hist hlib

variable [HasNext ℝ]

/-- C108: in every scene of matt spheres, matt triangles without vertex normals, shining triangles and distant lights, made by any history of
builder calls, in a simple container or a k-d tree of any depth: whatever values in `[0,1)` the sampler delivers, the light of a camera sample is
not negative in any channel and its luminance is at most `brightest`, which is computed from the greatest reflectance, the brightness of the
brightest light and the number of lights alone: not from the distance or the size of a light, nor from the angle at which it is seen. -/
theorem c108_sample {ρ M : ℝ} (h0 : 0 ≤ ρ) (hρ : ρ ≤ 1) (hM : 0 ≤ M) (hinf : (0 : ℝ) ≤ HasInf.infinity)
    (hist : List (BuilderCall ℝ)) (hlib : ∀ c ∈ hist, MattSceneCall ρ M c)
    {mk : List (Obj ℝ) → Option (Container ℝ)} (hmk : LibraryContainer mk) {scene : Scene ℝ} (hsc : (built hist).construct mk = some scene)
    (camera : PerspectiveCamera ℝ) (pFilm : V2 ℝ) (hd : (camera.generateRay pFilm).direction ≠ V3.zero)
    {σ : Type} (ops : SamplerOps ℝ σ) (hops : Delivers Canonical ops) (s s' : σ) (l : Spectrum ℝ)
    (h : (cameraRadiance scene camera pFilm).run ops s = some (l, s')) : NonNeg l ∧ l.y ≤ brightest ρ M scene.lights.length := by
  obtain ⟨h1, h2⟩ := matt_world hM hist hlib hmk hsc
  have hz : ∀ c : Chan, 0 ≤ c.of (Spectrum.zero : Spectrum ℝ) := fun c => by rw [Chan.of_zero]
  have hone : ∀ c : Chan, 0 ≤ c.of (Spectrum.of (lit 1) : Spectrum ℝ) := fun c => by rw [Chan.of_one]; norm_num
  have hy0 : (Spectrum.zero : Spectrum ℝ).y ≤ 0 := by rw [lum_eq]; simp only [Spectrum.zero]; real_ops; norm_num
  have hy1 : (Spectrum.of (lit 1) : Spectrum ℝ).y ≤ 1 := by rw [lum_eq]; simp only [Spectrum.of]; real_ops; norm_num
  obtain ⟨g1, g2⟩ := (liLoop_matt h0 hρ hM hinf h1 h2 65 0 _ _ _ false 0 1 rfl hd rfl le_rfl hz hone hy0 hy1).run hops s l s' h
  refine ⟨⟨g1 .r, g1 .g, g1 .b⟩, g2.trans (le_of_eq ?_)⟩
  rw [if_pos rfl, brightest]
  ring

/-- C108 in numbers: if no surface reflects more than 95%, at most 93 times the brightest light for every light in the scene, besides the light
of the first thing seen; for surfaces that reflect everything 772 times. -/
theorem c108_numbers {ρ M : ℝ} (h0 : 0 ≤ ρ) (hM : 0 ≤ M) (n : Nat) :
    (ρ ≤ 95 / 100 → brightest ρ M n ≤ M * (1 + 93 * n)) ∧ (ρ ≤ 1 → brightest ρ M n ≤ M * (1 + 772 * n)) := by
  have key : ∀ G K : ℝ, growth ρ ≤ G → 3 / 2 * ρ * ∑ j ∈ Finset.range 65, G ^ j ≤ K → brightest ρ M n ≤ M * (1 + K * n) := by
    intro G K hG hK
    have hs : ∑ j ∈ Finset.range 65, growth ρ ^ j ≤ ∑ j ∈ Finset.range 65, G ^ j :=
      Finset.sum_le_sum fun j _ => pow_le_pow_left₀ (by linarith [one_le_growth ρ]) hG j
    have h1 : 3 / 2 * ρ * ∑ j ∈ Finset.range 65, growth ρ ^ j ≤ K := (mul_le_mul_of_nonneg_left hs (by positivity)).trans hK
    unfold brightest
    refine mul_le_mul_of_nonneg_left ?_ hM
    have e : 3 / 2 * ρ * n * ∑ j ∈ Finset.range 65, growth ρ ^ j = (3 / 2 * ρ * ∑ j ∈ Finset.range 65, growth ρ ^ j) * n := by ring
    rw [e]
    linarith [mul_le_mul_of_nonneg_right h1 (Nat.cast_nonneg (α := ℝ) n)]
  constructor
  · intro h
    refine key 1 93 (max_le le_rfl ?_) ?_
    · rw [div_le_one (by norm_num)]; exact h
    · simp only [one_pow, Finset.sum_const, Finset.card_range, nsmul_eq_mul]
      push_cast
      linarith
  · intro h
    refine key (20 / 19) 772 (max_le (by norm_num) ?_) ?_
    · rw [div_le_iff₀ (by norm_num)]; linarith
    · have e : ∑ j ∈ Finset.range 65, (20 / 19 : ℝ) ^ j ≤ 514 := by
        rw [geom_sum_eq (by norm_num)]; norm_num
      nlinarith [e]

/-- A channel is at most 14 times the luminance. -/
theorem chan_le_lum {s : Spectrum ℝ} (h : NonNeg s) (c : Chan) : c.of s ≤ 14 * s.y := by
  obtain ⟨h1, h2, h3⟩ := h
  rw [lum_eq]
  cases c <;> simp only [Chan.of] <;> nlinarith

/-- C108 for the picture: with a Gaussian filter that reaches at least half a pixel no channel of a pixel (its colour divided by its weight) is
negative, or above 14 times `brightest`. -/
theorem c108_image {ρ M : ℝ} (h0 : 0 ≤ ρ) (hρ : ρ ≤ 1) (hM : 0 ≤ M) (hinf : (0 : ℝ) ≤ HasInf.infinity)
    (hist : List (BuilderCall ℝ)) (hlib : ∀ c ∈ hist, MattSceneCall ρ M c)
    {mk : List (Obj ℝ) → Option (Container ℝ)} (hmk : LibraryContainer mk) {scene : Scene ℝ} (hsc : (built hist).construct mk = some scene)
    (camera : PerspectiveCamera ℝ) (hcam : ∀ p, (camera.generateRay p).direction ≠ V3.zero)
    (res : V2 Int) (radius alpha : ℝ) (hR : FilmRange res radius) (hr : 1 / 2 ≤ radius) (ha : 0 < alpha) (spp : Nat) (hspp : spp < 2 ^ 32)
    (n : Nat) (hn : 1 ≤ n) (file : Option (List UInt8)) (k : Nat) (st : RState ℝ HaltonSampler) :
    let filt := (GaussianFilter.new radius alpha).toFilter
    let film := Film.new res filt
    let sampler := HaltonSampler.new spp film.sampleBBox
    RReach (fun s b => renderTile HaltonSampler.ops (cameraRadiance scene camera) film s b) sampler (RState.init film n file) k st → st.main = .done →
    ∀ x y, Spec.InImage res x y → 0 < (st.sh.film.px x y).weight ∧
      ∀ c : Chan, 0 ≤ c.of (st.sh.film.px x y).color / (st.sh.film.px x y).weight ∧
        c.of (st.sh.film.px x y).color / (st.sh.film.px x y).weight ≤ 14 * brightest ρ M scene.lights.length := by
  intro filt film sampler hre hdone x y hi
  have hsam : ∀ p i s, cameraSample (cameraRadiance scene camera) sampler p i = some s → NonNeg s.2 ∧ s.2.y ≤ brightest ρ M scene.lights.length := by
    intro p i s hs
    obtain ⟨s1, s2, h⟩ := cameraSample_light hs
    exact c108_sample h0 hρ hM hinf hist hlib hmk hsc camera s.1 (hcam _) HaltonSampler.ops halton_delivers s1 s2 s.2 h
  obtain ⟨f1, -, -, f4, -⟩ := c14_gaussian radius alpha ha.le hR.rpos.le
  have hw := c103_covered res filt hR f1 (fun x y hx hy => f4 x y ha hx hy) hr (cameraRadiance scene camera) spp hspp n hn file k st hre hdone x y hi
    ⟨0, by omega, fun s hs => by
      obtain ⟨h1, h2, h3⟩ := (hsam _ _ _ hs).1
      exact ⟨h1, h2, h3⟩⟩
  refine ⟨hw, fun c => ?_⟩
  obtain ⟨h1, h2⟩ := (c103_between res filt hR f1 (cameraRadiance scene camera) spp hspp n hn file k st hre hdone x y hi).2 c 0
    (14 * brightest ρ M scene.lights.length) (fun s hs => by
      obtain ⟨p, i, -, -, hs, -⟩ := hs
      obtain ⟨g1, g2⟩ := hsam _ _ _ hs
      exact ⟨by cases c; exacts [g1.1, g1.2.1, g1.2.2], (chan_le_lum g1 c).trans (by linarith)⟩)
  rw [le_div_iff₀ hw, div_le_iff₀ hw]
  exact ⟨h1, h2⟩

/-- Such a picture: a matt ball on a matt floor under a shining triangle and a distant light, 640×480 pixels, four threads.  No channel of any
pixel is above 14 times 20 times (1 + 2 × 93). -/
example (hinf : (0 : ℝ) ≤ HasInf.infinity) : ∃ (scene : Scene ℝ) (camera : PerspectiveCamera ℝ) (k : Nat) (st : RState ℝ HaltonSampler),
    let film := Film.new ⟨640, 480⟩ (GaussianFilter.new (2 : ℝ) 2).toFilter
    RReach (fun s b => renderTile HaltonSampler.ops (cameraRadiance scene camera) film s b) (HaltonSampler.new 16 film.sampleBBox) (RState.init film 4 none) k st ∧
    st.main = .done ∧ scene.lights.length = 2 ∧ ∀ x y, Spec.InImage ⟨640, 480⟩ x y → ∀ c : Chan,
      c.of (st.sh.film.px x y).color / (st.sh.film.px x y).weight ≤ 14 * (20 * (1 + 93 * 2)) := by
  let grey : Material ℝ := lambertianMaterial fun _ => ⟨1 / 2, 1 / 2, 1 / 2⟩
  let ball : Sphere ℝ := ⟨⟨0, 0, 0⟩, 1, grey⟩
  let floor : Triangle ℝ := ⟨⟨-9, -1, -9⟩, ⟨9, -1, -9⟩, ⟨0, -1, 9⟩, none, false, grey⟩
  let lamp : Triangle ℝ := ⟨⟨0, 5, 0⟩, ⟨1, 5, 0⟩, ⟨0, 5, 1⟩, none, true, grey⟩
  let hist : List (BuilderCall ℝ) := [.light 0 fun box => ((DistantLight.new ⟨3, 2, 1⟩ ⟨0, 1, 1⟩).preProcess box).toLight, .shape 1 ball.toShape,
    .shape 2 floor.toShape, .area 3 ⟨⟨20, 20, 10⟩, lamp.toShape⟩]
  have hgrey : Matt (1 / 2) grey := ⟨_, rfl, fun _ => ⟨le_rfl, le_rfl, le_rfl⟩⟩
  have hl : ∀ c ∈ hist, MattSceneCall (1 / 2) 20 c := by
    intro c hc
    simp only [hist, List.mem_cons, List.not_mem_nil, or_false] at hc
    rcases hc with rfl | rfl | rfl | rfl
    · exact .distant _ _ _ (by norm_num [Within3, NonNeg])
    · exact .sphere _ ball (by norm_num [ball]) hgrey
    · exact .triangle _ floor rfl hgrey
    · exact .area _ _ lamp (by norm_num [Within3, NonNeg]) rfl hgrey
  have hll : ∀ c ∈ hist, LibraryCall c := by
    intro c hc
    simp only [hist, List.mem_cons, List.not_mem_nil, or_false] at hc
    rcases hc with rfl | rfl | rfl | rfl
    · exact .distant _ _ _
    · exact .sphere _ ball (.lambertian _)
    · exact .triangle _ floor (.lambertian _)
    · exact .area _ _ lamp (.lambertian _)
  have hR : FilmRange ⟨640, 480⟩ 2 := by constructor <;> norm_num
  have hcam : ∀ p, ((PerspectiveCamera.new (Transform.lookAt ⟨0, 0, -5⟩ ⟨0, 0, 0⟩ ⟨0, 1, 0⟩) (Transform.perspective 90 (1 / 100) 1000) ⟨-1, -1⟩ ⟨1, 1⟩
      ⟨640, 480⟩ : PerspectiveCamera ℝ).generateRay p).direction ≠ V3.zero := by
    intro p
    apply unit_ne_zero
    refine (c52_camera_ray ?_ (by norm_num) (by norm_num) ?_ (by norm_num) (by norm_num) (by norm_num) (by norm_num) p).2.2.1
    · intro e
      have := congrArg V3.x e
      norm_num [vprod, V3.sub, r_sub] at this
    · refine (Real.tan_pos_of_pos_of_lt_pi_div_two ?_ ?_).ne' <;> simp only [degrees] <;> nlinarith [Real.pi_pos]
  obtain ⟨scene, hsc⟩ : ∃ scene, (built hist).construct (fun ss => (Simple.new ss).map Simple.toContainer) = some scene := ⟨_, rfl⟩
  obtain ⟨k, st, hr, hd⟩ := (c76_library_real _ hll .simple hsc _ ⟨640, 480⟩ (GaussianFilter.new (2 : ℝ) 2).toFilter hR
    (HaltonSampler.new 16 (Film.new ⟨640, 480⟩ (GaussianFilter.new (2 : ℝ) 2).toFilter).sampleBBox) (by norm_num [HaltonSampler.new]) 4 none).2
  have hlen : scene.lights.length = 2 := by
    obtain ⟨box, -, h, -⟩ := c65_construct hist (fun ss => (Simple.new ss).map Simple.toContainer)
    rw [(h scene hsc).1]
    rfl
  refine ⟨scene, _, k, st, hr, hd, hlen, fun x y hi c => ?_⟩
  have h := ((c108_image (by norm_num) (by norm_num) (by norm_num) hinf _ hl .simple hsc _ hcam ⟨640, 480⟩ 2 2 hR (by norm_num) (by norm_num) 16
    (by norm_num) 4 (by norm_num) none k st hr hd x y hi).2 c).2
  refine h.trans ?_
  rw [hlen]
  have := (c108_numbers (ρ := 1 / 2) (M := 20) (by norm_num) (by norm_num) 2).1 (by norm_num)
  push_cast at this ⊢
  linarith
end

end PT
