import Verif.Props.Dark
import Verif.Props.NoFireflies

/-!
# C113: a matt surface in the light of a distant lamp has the brightness of Lambert's law

All samples agree: there is no noise.
-/

namespace PT
namespace Spec

/-- Lambert's law: what a matt surface with normal `n` reflects of the light that comes from the direction `w`: the share `albedo` times the light times the
cosine between the directions, over π. -/
noncomputable def lambert (albedo light : Spectrum ℝ) (n w : V3 ℝ) : Spectrum ℝ :=
  let k := |inner n w| / √(sq w) / Real.pi
  ⟨albedo.r * light.r * k, albedo.g * light.g * k, albedo.b * light.b * k⟩

/-- Seen from the surface with normal `n`, the directions `v` and `w` are on the same side. -/
def FacingSide (n v w : V3 ℝ) : Prop := 0 < inner n v * inner n w

/-- The ray from a surface point that tests whether a lamp far away in the direction `w` is visible; the lamp is taken to be outside the sphere around the box of the
scene. -/
noncomputable def lampRay [HasNext ℝ] (i : Interaction ℝ) (w : V3 ℝ) (box : BBox3 ℝ) : Ray ℝ :=
  i.spawnRayTo { Interaction.default with p := along i.p (2 * radius box / √(sq w)) w }
end Spec
open Spec

theorem inner_eq_dot (v w : V3 ℝ) : v.dot w = inner w v := by
  unfold V3.dot Spec.inner; real_ops; ring

theorem spectrum_ext {s t : Spectrum ℝ} (h : ∀ c : Chan, c.of s = c.of t) : s = t := by
  obtain ⟨a, b, d⟩ := s
  obtain ⟨a', b', d'⟩ := t
  have h1 : a = a' := h .r
  have h2 : b = b' := h .g
  have h3 : d = d' := h .b
  rw [h1, h2, h3]

theorem black_chan {s : Spectrum ℝ} (h : s.isBlack = true) (c : Chan) : c.of s = 0 := by
  unfold Spectrum.isBlack at h
  real_ops at h
  simp only [Bool.and_eq_true, decide_eq_true_eq] at h
  cases c <;> simp_all [Chan.of]

section
variable [HasInf ℝ]

theorem matt_front (kd : TextureOf ℝ (Spectrum ℝ)) (i : Interaction ℝ) (hn : i.n = i.sn) (wo wi : V3 ℝ) (h : FacingSide i.n wo wi) (c : Chan) :
    c.of ((lambertianMaterial kd i).f wo wi) = c.of (clampedTex kd i) / Real.pi := by
  unfold lambertianMaterial
  dsimp only
  by_cases hb : (clampedTex kd i).isBlack = true
  · rw [if_pos hb, black_chan hb c, zero_div]
    unfold BSDF.f
    dsimp only
    split_ifs <;> exact Chan.of_zero c
  · rw [if_neg hb]
    unfold FacingSide at h
    have hr : ((wi.dot ((BSDF.new i).add (lambertianReflection (clampedTex kd i))).gn) *.
        (wo.dot ((BSDF.new i).add (lambertianReflection (clampedTex kd i))).gn) >. lit 0) = true := by
      simp only [BSDF.add, BSDF.new, inner_eq_dot]
      real_ops
      simpa [mul_comm] using h
    have hz : ¬ (((BSDF.new i).add (lambertianReflection (clampedTex kd i))).worldToLocal wo).z = 0 := by
      intro e
      simp only [BSDF.worldToLocal, BSDF.add, BSDF.new, inner_eq_dot] at e
      rw [hn, e, zero_mul] at h
      exact lt_irrefl _ h
    unfold BSDF.f
    dsimp only
    rw [if_neg (by real_ops; simpa using hz), hr]
    have hR : (lambertianReflection (clampedTex kd i)).hasFlag REFLECTION = true := by
      simp only [lambertianReflection, BxDF.hasFlag]; decide
    simp only [BSDF.sumF, BSDF.add, BSDF.new, List.nil_append, List.foldl_cons, List.foldl_nil, hR, Bool.and_self, Bool.true_or, if_true, Chan.of_add,
      Chan.of_zero, zero_add]
    change c.of ((clampedTex kd i).sdiv Libm.pi) = _
    rw [Chan.of_sdiv]
    real_ops

theorem matt_back (kd : TextureOf ℝ (Spectrum ℝ)) (i : Interaction ℝ) (wo wi : V3 ℝ) (h : ¬ FacingSide i.n wo wi) (c : Chan) :
    c.of ((lambertianMaterial kd i).f wo wi) = 0 := by
  unfold lambertianMaterial
  dsimp only
  by_cases hb : (clampedTex kd i).isBlack = true
  · rw [if_pos hb]
    unfold BSDF.f
    dsimp only
    split_ifs <;> exact Chan.of_zero c
  · rw [if_neg hb]
    unfold FacingSide at h
    have hr : ((wi.dot ((BSDF.new i).add (lambertianReflection (clampedTex kd i))).gn) *.
        (wo.dot ((BSDF.new i).add (lambertianReflection (clampedTex kd i))).gn) >. lit 0) = false := by
      simp only [BSDF.add, BSDF.new, inner_eq_dot]
      real_ops
      simpa [mul_comm] using h
    unfold BSDF.f
    dsimp only
    rw [hr]
    have hT : (lambertianReflection (clampedTex kd i)).hasFlag TRANSMISSION = false := by
      simp only [lambertianReflection, BxDF.hasFlag]; decide
    simp only [BSDF.sumF, BSDF.add, BSDF.new, List.nil_append, List.foldl_cons, List.foldl_nil, hT, Bool.false_and, Bool.and_false, Bool.or_self,
      Bool.false_eq_true, if_false]
    split_ifs <;> exact Chan.of_zero c

/-- A direction sampled at a matt surface is on the side of the viewer. -/
theorem matt_sample_side (kd : TextureOf ℝ (Spectrum ℝ)) (i : Interaction ℝ) (h1 : Spec.sq i.sn = 1) (hps : Spec.inner i.dpdu.normalize i.sn = 0) (wo : V3 ℝ) (u : V2 ℝ)
    (hu : Canonical u.x) (hv : Canonical u.y) (wi : V3 ℝ) (f : Spectrum ℝ) (p : ℝ) (flag : Nat)
    (h : (lambertianMaterial kd i).sampleF wo u = some (wi, f, p, flag)) (hp0 : p ≠ 0) : FacingSide i.sn wo wi := by
  have hbx : (lambertianMaterial kd i).bxdfs = [] ∨ (lambertianMaterial kd i).bxdfs = [lambertianReflection (clampedTex kd i)] := by
    unfold lambertianMaterial
    dsimp only
    split_ifs
    · exact Or.inl rfl
    · exact Or.inr rfl
  have hfr : (lambertianMaterial kd i).s = i.dpdu.normalize ∧ (lambertianMaterial kd i).t = i.sn.cross i.dpdu.normalize ∧ (lambertianMaterial kd i).sn = i.sn := by
    unfold lambertianMaterial
    dsimp only
    split_ifs <;> exact ⟨rfl, rfl, rfl⟩
  have hlen : (lambertianMaterial kd i).bxdfs.length < 2 ^ 64 := by rcases hbx with e | e <;> rw [e] <;> norm_num
  obtain ⟨k, x, u', w, f0, p0, hx, hu', hv', -, hz, hs, hp1, hwi, -, -⟩ := sampleF_cases _ hlen wo u hu hv wi f p flag h hp0
  rcases hbx with e | e
  · rw [e] at hx; simp at hx
  rw [e] at hx
  have hxe : x = lambertianReflection (clampedTex kd i) := by
    have := List.mem_of_getElem? hx
    simpa using this
  subst hxe
  obtain ⟨-, g0, g1, -, -, -⟩ := c57_lambertian_sample _ _ hz u' ⟨hu'.1, hu'.2.le⟩ (by rw [hv']; exact ⟨hv.1, hv.2.le⟩) w f0 p0 hs
  have hdot : wi.dot i.sn = w.z := by
    rw [hwi]
    simp only [BSDF.localToWorld, hfr.1, hfr.2.1, hfr.2.2]
    generalize i.dpdu.normalize = s at *
    simp only [Spec.inner, Spec.sq, V3.cross, V3.dot] at *
    real_ops
    linear_combination w.x * hps + w.z * h1
  have hwz : w.z ≠ 0 := by
    intro hw
    apply hp1
    rw [g1, hw]; simp
  have hoz : ((lambertianMaterial kd i).worldToLocal wo).z = wo.dot i.sn := by simp only [BSDF.worldToLocal, hfr.2.2]
  rw [hoz] at hz g0
  unfold FacingSide
  rw [← inner_eq_dot, ← inner_eq_dot, hdot]
  exact lt_of_le_of_ne (by rw [mul_comm]; exact g0) (mul_ne_zero hz hwz).symm

/-- Colours in the range of the material are used as they are. -/
theorem clampedTex_self (kd : TextureOf ℝ (Spectrum ℝ)) (i : Interaction ℝ) (h : ∀ c : Chan, 0 ≤ c.of (kd i) ∧ c.of (kd i) ≤ HasInf.infinity) (c : Chan) :
    c.of (clampedTex kd i) = c.of (kd i) := by
  have key : ∀ x : ℝ, 0 ≤ x ∧ x ≤ HasInf.infinity → PT.clamp x (lit 0) (HasInf.infinity : ℝ) = x := by
    intro x ⟨h0, h1⟩
    unfold PT.clamp
    real_ops
    rw [if_neg (by simpa using h0), if_neg (by simpa using h1)]
  cases c
  · exact key _ (h .r)
  · exact key _ (h .g)
  · exact key _ (h .b)
end

section
variable [HasInf ℝ] [HasNext ℝ] {scene : Scene ℝ}
open Prog

/-- C113, the surface: the camera sees a matt surface that does not shine, the only lamp is far away in the direction `w`, and from the surface point nothing
else is to be seen on the viewer's side.  Then every sample is exactly Lambert's law if the lamp is on the viewer's side and not hidden, and exactly black if the
lamp is on the other side or hidden: whatever numbers the sampler delivers. -/
theorem c113_sample (addr : Nat) (e : Spectrum ℝ) (w : V3 ℝ) (hw : w ≠ V3.zero) (box : BBox3 ℝ) (hbox : ∀ a, box.min.get a ≤ box.max.get a)
    (hlights : scene.lights = [⟨addr, distant e w box⟩]) (camera : PerspectiveCamera ℝ) (pFilm : V2 ℝ)
    (h : Hit ℝ) (hh : scene.intersect (camera.generateRay pFilm) = some (some h))
    (kd : TextureOf ℝ (Spectrum ℝ)) (hmat : h.obj.shape.material = lambertianMaterial kd)
    (hkd : ∀ c : Chan, 0 ≤ c.of (kd h.i) ∧ c.of (kd h.i) ≤ HasInf.infinity) (hdark : ∀ v, h.obj.shape.l h.i v = Spectrum.zero)
    (h1 : sq h.i.n = 1) (hsn : h.i.sn = h.i.n) (hps : inner h.i.dpdu.normalize h.i.n = 0)
    (hfree : ∀ v, v ≠ V3.zero → FacingSide h.i.n h.i.wo v → scene.intersect (h.i.spawnRay v) = some none)
    {σ : Type} (ops : SamplerOps ℝ σ) (hops : Delivers Canonical ops) (s s' : σ) (l : Spectrum ℝ)
    (hrun : (cameraRadiance scene camera pFilm).run ops s = some (l, s')) :
    (FacingSide h.i.n h.i.wo w → scene.intersectP (lampRay h.i w box) = some false → l = lambert (kd h.i) e h.i.n w) ∧
    (¬ FacingSide h.i.n h.i.wo w ∨ scene.intersectP (lampRay h.i w box) = some true → l = ⟨0, 0, 0⟩) := by
  have hws : 0 < sq w := sq_pos hw
  have hsq : 0 < √(sq w) := Real.sqrt_pos.2 hws
  -- the light that one look at the lamp brings
  have main : ∀ D : Spectrum ℝ, (FacingSide h.i.n h.i.wo w ∧ scene.intersectP (lampRay h.i w box) = some false ∧ D = lambert (kd h.i) e h.i.n w) ∨
      ((¬ FacingSide h.i.n h.i.wo w ∨ scene.intersectP (lampRay h.i w box) = some true) ∧ D = ⟨0, 0, 0⟩) → l = D := by
    intro D hD
    have hDch : ∀ c : Chan, (FacingSide h.i.n h.i.wo w ∧ scene.intersectP (lampRay h.i w box) = some false ∧
          c.of D = c.of (kd h.i) / Real.pi * (|inner h.i.n w| / √(sq w)) * c.of e) ∨
        ((¬ FacingSide h.i.n h.i.wo w ∨ scene.intersectP (lampRay h.i w box) = some true) ∧ c.of D = 0) := by
      intro c
      rcases hD with ⟨a1, a2, rfl⟩ | ⟨a1, rfl⟩
      · refine Or.inl ⟨a1, a2, ?_⟩
        cases c <;> simp only [lambert, Chan.of] <;> ring
      · exact Or.inr ⟨a1, by cases c <;> rfl⟩
    have hside : FacingSide h.i.n h.i.wo (scale (1 / √(sq w)) w) ↔ FacingSide h.i.n h.i.wo w := by
      have e1 : inner h.i.n (scale (1 / √(sq w)) w) = 1 / √(sq w) * inner h.i.n w := by unfold Spec.inner scale; ring
      unfold FacingSide
      rw [e1, show inner h.i.n h.i.wo * (1 / √(sq w) * inner h.i.n w) = 1 / √(sq w) * (inner h.i.n h.i.wo * inner h.i.n w) by ring]
      exact mul_pos_iff_of_pos_left (by positivity)
    have hlight : ∀ u, (directFromLight ⟨addr, distant e w box⟩ h.i (lambertianMaterial kd h.i) u).Yields scene Canonical (fun s => ∀ c : Chan, c.of s = c.of D) := by
      intro u
      have hf0 : (∀ c : Chan, c.of (((lambertianMaterial kd h.i).f h.i.wo (scale (1 / √(sq w)) w)).smul
          (Scalar.abs ((scale (1 / √(sq w)) w).dot h.i.sn))) = 0) →
          ∀ c : Chan, c.of D = 0 ∨ FacingSide h.i.n h.i.wo w ∧ scene.intersectP (lampRay h.i w box) = some false ∧ c.of D = 0 := by
        intro hz c
        rcases hDch c with ⟨a1, a2, a3⟩ | ⟨-, a2⟩
        · right
          refine ⟨a1, a2, ?_⟩
          have := hz c
          rw [Chan.of_smul, matt_front kd h.i hsn.symm _ _ (hside.2 a1), clampedTex_self kd h.i hkd c, inner_eq_dot, hsn] at this
          have e1 : inner h.i.n (scale (1 / √(sq w)) w) = inner h.i.n w / √(sq w) := by unfold Spec.inner scale; ring
          rw [e1] at this
          real_ops at this
          rw [abs_div, abs_of_pos hsq] at this
          rw [a3, this, zero_mul]
        · exact Or.inl a2
      unfold directFromLight
      refine Yields.bind (Q := fun s => s = ⟨scale (1 / √(sq w)) w, e, 1,
        ⟨h.i, { Interaction.default with p := along h.i.p (2 * radius box / √(sq w)) w }⟩⟩) (fun s hs => ?_)
        (Yields.ofOption fun x hx => by
          have := distant_sample e w hw box hbox h.i u
          exact (Option.some.inj (this.symm.trans hx)).symm)
      subst hs
      have hzero : (∀ c : Chan, c.of D = 0) → ∀ c : Chan, c.of (Spectrum.zero : Spectrum ℝ) = c.of D := fun hz c => by rw [hz c, Chan.of_zero]
      refine Yields.ite (fun hc => ?_) fun hc => hzero fun c => ?_
      swap
      · -- the lamp is black
        have hb : e.isBlack = true := by
          by_contra hb
          apply hc
          simp only [Bool.not_eq_true] at hb
          simp only [hb, Bool.not_false, Bool.and_true]
          real_ops; norm_num
        rcases hDch c with ⟨-, -, a3⟩ | ⟨-, a2⟩
        · rw [a3, black_chan hb c, mul_zero]
        · exact a2
      refine Yields.ite (fun hc => ?_) fun hc => hzero fun c => ?_
      swap
      · have hb : (((lambertianMaterial kd h.i).f h.i.wo (scale (1 / √(sq w)) w)).smul
          (Scalar.abs ((scale (1 / √(sq w)) w).dot h.i.sn))).isBlack = true := by simpa using hc
        rcases hf0 (black_chan hb) c with a | ⟨-, -, a⟩ <;> exact a
      refine Yields.bind (Q := fun x => scene.intersectP (lampRay h.i w box) = some x) (fun occ ho => ?_) (fun x hx => hx)
      refine Yields.ite (fun hc => ?_) fun hc => hzero fun c => ?_
      swap
      · have : occ = true := by simpa using hc
        subst this
        rcases hDch c with ⟨-, a2, -⟩ | ⟨-, a2⟩
        · rw [ho] at a2; simp at a2
        · exact a2
      have hocc : occ = false := by simpa using hc
      subst hocc
      refine Yields.ite (fun hd => ?_) fun hd => absurd rfl hd
      intro c
      rw [Chan.of_add, Chan.of_zero, zero_add, Chan.of_sdiv, Chan.of_mul, Chan.of_smul, div_one]
      rcases hDch c with ⟨a1, -, a3⟩ | ⟨a1 | a1, a2⟩
      · rw [matt_front kd h.i hsn.symm _ _ (hside.2 a1), clampedTex_self kd h.i hkd c, inner_eq_dot, hsn, a3]
        have e1 : inner h.i.n (scale (1 / √(sq w)) w) = inner h.i.n w / √(sq w) := by unfold Spec.inner scale; ring
        rw [e1]
        real_ops
        rw [abs_div, abs_of_pos hsq]
      · rw [matt_back kd h.i _ _ (fun hs => a1 (hside.1 hs)), a2, zero_mul, zero_mul]
      · rw [ho] at a1; simp at a1
    have hone : (uniformSampleOneLight scene.lights h.i (lambertianMaterial kd h.i)).Yields scene Canonical (fun s => ∀ c : Chan, c.of s = c.of D) := by
      unfold uniformSampleOneLight
      rw [hlights]
      dsimp only
      refine Yields.ite (fun h0 => by simp at h0) fun _ => ?_
      refine Yields.bind (Q := fun _ => True) (fun u _ => ?_) (fun _ _ => trivial)
      refine Yields.bind (Q := fun l => l = ⟨addr, distant e w box⟩) (fun light hl => ?_) (Yields.ofOption fun x hx => by
        have := List.mem_of_getElem? hx
        simpa using this)
      subst hl
      refine Yields.bind (Q := fun s => ∀ c : Chan, c.of s = c.of D) (fun ld hld => ?_) ?_
      · intro c
        rw [Chan.of_smul, hld c]
        simp only [List.length_singleton]
        real_ops
        norm_num
      · unfold estimateDirect
        refine Yields.bind (Q := fun u => Canonical u.x ∧ Canonical u.y) (fun u hu => ?_) (fun _ a b => ⟨a, b⟩)
        refine Yields.bind (Q := fun u => Canonical u.x ∧ Canonical u.y) (fun v hv => ?_) (fun _ a b => ⟨a, b⟩)
        refine Yields.bind (Q := fun s => ∀ c : Chan, c.of s = c.of D) (fun ld hld => ?_) (hlight u)
        unfold directFromBsdf
        refine Yields.ite (fun hd => ?_) fun _ => hld
        have : (distant e w box).isDelta = true := rfl
        rw [this] at hd
        simp at hd
    have hloop : (liLoop scene.lights 0 (camera.generateRay pFilm) Spectrum.zero (Spectrum.of (lit 1)) false).Yields scene Canonical (fun s => s = D) := by
      refine Yields.mono (P := fun s => ∀ c : Chan, c.of s = c.of D) (fun s hs => spectrum_ext hs) ?_
      rw [liLoop]
      refine Yields.bind (Q := fun x => x = some h) (fun x hx => ?_) (fun x hx => Option.some.inj (hx.symm.trans hh))
      subst hx
      dsimp only
      rw [if_pos (Or.inl rfl), dif_neg (by decide)]
      have hle : h.le (camera.generateRay pFilm).direction.neg = Spectrum.zero := hdark _
      rw [hle]
      have hl0 : ∀ c : Chan, c.of ((Spectrum.zero : Spectrum ℝ).add ((Spectrum.of (lit 1)).mul Spectrum.zero)) = 0 := by
        intro c
        rw [Chan.of_add, Chan.of_mul, Chan.of_zero, mul_zero, add_zero]
      generalize (Spectrum.zero : Spectrum ℝ).add ((Spectrum.of (lit 1)).mul Spectrum.zero) = l0 at hl0
      refine Yields.bind (Q := fun b => b = lambertianMaterial kd h.i) (fun b hb => ?_) (show _ = _ by rw [hmat])
      subst hb
      refine Yields.bind (Q := fun s => ∀ c : Chan, c.of s = c.of D) (fun ld hld => ?_) hone
      have hl3 : ∀ c : Chan, c.of (l0.add ((Spectrum.of (lit 1)).mul ld)) = c.of D := by
        intro c
        rw [Chan.of_add, Chan.of_mul, c.of_one, hl0 c, hld c, zero_add, one_mul]
      refine Yields.bind (Q := fun u => Canonical u.x ∧ Canonical u.y) (fun u hu => ?_) (fun _ a b => ⟨a, b⟩)
      refine Yields.bind (Q := fun s => (lambertianMaterial kd h.i).sampleF h.i.wo u = some s) (fun s hs => ?_) (Yields.ofOption fun x h => h)
      obtain ⟨wi, f, p, flag⟩ := s
      dsimp only
      refine Yields.ite (fun _ => hl3) fun hc => ?_
      have hp0 : p ≠ 0 := by
        intro h0
        apply hc
        rw [h0]
        real_ops
        simp
      have hs1 := matt_sample_side kd h.i (by rw [hsn]; exact h1) (by rw [hsn]; exact hps) h.i.wo u hu.1 hu.2 wi f p flag hs hp0
      rw [hsn] at hs1
      have hwi : wi ≠ V3.zero := by
        rintro rfl
        unfold FacingSide at hs1
        have : inner h.i.n V3.zero = 0 := by unfold Spec.inner V3.zero; real_ops; norm_num
        rw [this, mul_zero] at hs1
        exact lt_irrefl _ hs1
      have hmiss := hfree wi hwi hs1
      rw [if_neg (by norm_num)]
      rw [liLoop]
      refine Yields.bind (Q := fun x => x = none) (fun x hx => ?_) (fun x hx => Option.some.inj (hx.symm.trans hmiss))
      subst hx
      dsimp only
      split_ifs <;> exact hl3
    exact Yields.run hops hloop s l s' hrun
  exact ⟨fun a b => main _ (Or.inl ⟨a, b, rfl⟩), fun a => main _ (Or.inr ⟨a, rfl⟩)⟩

/-! ### One matt object and one lamp -/

/-- The point a shadow ray to a distant lamp is aimed at is not moved. -/
theorem target_stays (q v : V3 ℝ) : (Interaction.spawnRay { (Interaction.default : Interaction ℝ) with p := q } v).origin = q := by
  unfold Interaction.spawnRay Interaction.offsetRayOrigin Interaction.nudge Interaction.default V3.zero V3.abs V3.dot V3.smul V3.add
  real_ops
  norm_num

theorem lamp_target (i : Interaction ℝ) (w : V3 ℝ) (k : ℝ) : inner i.n (diff (along i.p k w) i.p) = k * inner i.n w := by
  unfold Spec.inner diff along; ring

/-- What a container of one object reports comes from that object. -/
theorem lone_hit {x : Obj ℝ} {box : BBox3 ℝ} {ray : Ray ℝ} {h : Hit ℝ} (hh : (Simple.mk [x] box).intersect ray = some (some h)) :
    h.obj = x ∧ ∃ t, x.shape.intersect ray = some (some (h.i, t)) := by
  unfold Simple.intersect at hh
  split_ifs at hh
  · simp at hh
  simp only [closestHit, Obj.intersect] at hh
  cases he : x.shape.intersect ray with
  | none => rw [he] at hh; simp at hh
  | some r =>
    rw [he] at hh
    cases r with
    | none => simp at hh
    | some r =>
      have : (⟨r.1, x⟩ : Hit ℝ) = h := Option.some.inj (Option.some.inj hh)
      subst this
      exact ⟨rfl, _, rfl⟩

theorem lone_missed {x : Obj ℝ} (box : BBox3 ℝ) {ray : Ray ℝ} (hm : x.shape.intersect ray = some none) : (Simple.mk [x] box).intersect ray = some none := by
  unfold Simple.intersect
  split_ifs
  · rfl
  simp only [closestHit, Obj.intersect, hm]
  rfl

theorem lone_unhidden {x : Obj ℝ} (box : BBox3 ℝ) {ray : Ray ℝ} (hm : x.shape.intersectP ray = some false) : (Simple.mk [x] box).intersectP ray = some false := by
  unfold Simple.intersectP
  split_ifs
  · rfl
  simp only [anyHit, hm]
  rfl

/-- A triangle does not hide a distant lamp from its own points. -/
theorem triangle_unshaded (hN : OutwardNext ‹HasNext ℝ›) (s : Triangle ℝ) (i : Interaction ℝ) (hmade : MadeOn s i) (w : V3 ℝ) (box : BBox3 ℝ)
    (hlamp : (lampRay i w box).direction ≠ V3.zero) : s.intersectP (lampRay i w box) = some false := by
  obtain ⟨m1, ⟨c, hc, hcn⟩, m3, m4⟩ := madeOn_facts hmade
  have hmiss : s.intersect (lampRay i w box) = some none := by
    unfold lampRay at hlamp ⊢
    generalize hj : ({ Interaction.default with p := along i.p (2 * radius box / √(sq w)) w } : Interaction ℝ) = j at hlamp ⊢
    obtain ⟨k1, k2, k3, -⟩ := c45_shadow_ray ‹HasNext ℝ› i j
    have q0 : pointAt (i.spawnRayTo j) 0 = (i.spawnRay (j.p.sub i.p)).origin := by
      rw [← k1]; unfold pointAt; ext <;> simp only [] <;> ring
    have q1 : pointAt (i.spawnRayTo j) 1 = j.p := by
      have : (j.spawnRay (i.p.sub j.p)).origin = j.p := by rw [← hj]; exact target_stays _ _
      rw [← this, ← k2]; unfold pointAt Ray.position V3.add V3.smul; real_ops; ext <;> simp only [] <;> ring
    refine segment_missed s _ hlamp (by rw [k3]; norm_num) ?_
    rw [q0, q1]
    obtain ⟨h1, h2⟩ := origin_side ‹HasNext ℝ› hN i (j.p.sub i.p) m1 m3
    have hdd : inner i.n (j.p.sub i.p) = inner i.n (diff j.p i.p) := rfl
    rw [hdd] at h1 h2
    generalize (i.spawnRay (j.p.sub i.p)).origin = o at *
    have ee : ∀ x, inner i.n (diff x i.p) = c * inner (planeNormal s) (diff x s.v0) := by
      intro x
      rw [hcn]
      unfold Spec.inner diff scale at *
      simp only [] at *
      linear_combination (-c) * m4
    have hprod : 0 ≤ inner i.n (diff o i.p) * inner i.n (diff j.p i.p) := by
      rcases lt_or_ge (inner i.n (diff j.p i.p)) 0 with hx | hx
      · exact mul_nonneg_of_nonpos_of_nonpos (h2 hx) hx.le
      · exact mul_nonneg (h1 hx) hx
    rw [ee, ee] at hprod
    have hc2 : 0 < c * c := mul_self_pos.2 hc
    rw [show c * inner (planeNormal s) (diff o s.v0) * (c * inner (planeNormal s) (diff j.p s.v0)) =
      c * c * (inner (planeNormal s) (diff o s.v0) * inner (planeNormal s) (diff j.p s.v0)) by ring] at hprod
    exact nonneg_of_mul_nonneg_right hprod hc2
  rw [c40_triangle, hmiss]; rfl

/-- C113, a world with one matt triangle and one distant lamp: where the camera sees the triangle, every sample is exactly Lambert's law if the
lamp shines on the side the camera sees, and exactly black if it shines on the other side. -/
theorem c113_triangle (hN : OutwardNext ‹HasNext ℝ›) (s : Triangle ℝ) (hv : s.vertexNormals = none) (kd : TextureOf ℝ (Spectrum ℝ))
    (hmat : s.material = lambertianMaterial kd) (a addr : Nat) (e : Spectrum ℝ) (w : V3 ℝ) (hw : w ≠ V3.zero) (box : BBox3 ℝ)
    (hbox : ∀ a, box.min.get a ≤ box.max.get a) (hlights : scene.lights = [⟨addr, distant e w box⟩])
    (hshapes : scene.shapes = (Simple.mk [⟨a, s.toShape⟩] box).toContainer)
    (camera : PerspectiveCamera ℝ) (pFilm : V2 ℝ) (hd : (camera.generateRay pFilm).direction ≠ V3.zero)
    (h : Hit ℝ) (hh : scene.intersect (camera.generateRay pFilm) = some (some h))
    (hkd : ∀ c : Chan, 0 ≤ c.of (kd h.i) ∧ c.of (kd h.i) ≤ HasInf.infinity) (hlamp : (lampRay h.i w box).direction ≠ V3.zero)
    {σ : Type} (ops : SamplerOps ℝ σ) (hops : Delivers Canonical ops) (st st' : σ) (l : Spectrum ℝ)
    (hrun : (cameraRadiance scene camera pFilm).run ops st = some (l, st')) :
    (FacingSide h.i.n h.i.wo w → l = lambert (kd h.i) e h.i.n w) ∧ (¬ FacingSide h.i.n h.i.wo w → l = ⟨0, 0, 0⟩) := by
  have hh' : (Simple.mk [⟨a, s.toShape⟩] box).intersect (camera.generateRay pFilm) = some (some h) := by
    have := hh
    unfold Scene.intersect at this
    rw [hshapes] at this
    exact this
  obtain ⟨hobj, t, hi⟩ := lone_hit hh'
  have hi' : s.intersect (camera.generateRay pFilm) = some (some (h.i, t)) := hi
  obtain ⟨g1, g2, g3⟩ := triangle_matt s hv _ hd h.i t hi'
  have hmade : MadeOn s h.i := Or.inl ⟨_, t, hd, hi'⟩
  obtain ⟨m1, -⟩ := madeOn_facts hmade
  have hsplit : scene.intersectP (lampRay h.i w box) = some false := by
    unfold Scene.intersectP
    rw [hshapes]
    exact lone_unhidden (x := ⟨a, s.toShape⟩) box (triangle_unshaded hN s h.i hmade w box hlamp)
  have hps : inner h.i.dpdu.normalize h.i.n = 0 := by rw [g3]; exact g2
  have hm' : h.obj.shape.material = lambertianMaterial kd := by rw [hobj]; exact hmat
  have hd' : ∀ v, h.obj.shape.l h.i v = Spectrum.zero := fun v => by rw [hobj]; rfl
  have hf' : ∀ v, v ≠ V3.zero → FacingSide h.i.n h.i.wo v → scene.intersect (h.i.spawnRay v) = some none := fun v hv0 _ => by
    unfold Scene.intersect
    rw [hshapes]
    have hmiss := (c107_triangle ‹HasNext ℝ› hN s h.i hmade v hv0).1
    generalize h.i.spawnRay v = r at hmiss ⊢
    refine lone_missed (x := ⟨a, s.toShape⟩) box ?_
    change s.intersect r = some none
    exact hmiss
  have key := c113_sample addr e w hw box hbox hlights camera pFilm h hh kd hm' hkd hd'
    m1 g3.symm hps hf' ops hops st st' l hrun
  exact ⟨fun hs => key.1 hs hsplit, fun hs => key.2 (Or.inl hs)⟩

/-- Seen from outside, a sphere shows its outer side. -/
theorem sphere_faces (s : Sphere ℝ) (hr : 0 < s.radius) (ray : Ray ℝ) (hd : ray.direction ≠ V3.zero)
    (hout : s.radius ^ 2 < sq (diff ray.origin s.center)) (i : Interaction ℝ) (t : ℝ) (h : s.intersect ray = some (i, t)) : 0 ≤ inner i.n i.wo := by
  obtain ⟨ht0, ht1, hon, hp, hn, -, -, hwo, -⟩ := c36_sphere_hit_real s hr ray hd i t h
  by_contra hneg
  rw [not_le] at hneg
  have hdd : 0 < sq ray.direction := sq_pos hd
  set b := inner (diff (pointAt ray t) s.center) ray.direction with hb
  have hbpos : 0 < b := by
    have : inner i.n i.wo = -(1 / s.radius) * b := by
      rw [hn, hwo, hp, hb]; unfold Spec.inner scale diff; ring
    rw [this] at hneg
    have : 0 < 1 / s.radius := by positivity
    nlinarith
  have ho : sq (diff ray.origin s.center) = s.radius ^ 2 - 2 * t * b + t ^ 2 * sq ray.direction := by
    have e : sq (diff (pointAt ray t) s.center) = s.radius ^ 2 := hon
    rw [← e, hb]; unfold Spec.sq Spec.inner diff pointAt; ring
  rw [ho] at hout
  have ht2 : 2 * b < t * sq ray.direction := by
    have : 0 < t * (t * sq ray.direction - 2 * b) := by nlinarith
    have := (mul_pos_iff_of_pos_left ht0).1 this
    linarith
  have hlt : 2 * b / sq ray.direction < t := by rw [div_lt_iff₀ hdd]; exact ht2
  have hpos : 0 < 2 * b / sq ray.direction := by positivity
  obtain ⟨i', t', h', hle⟩ := c37_sphere_complete s ray hd (t - 2 * b / sq ray.direction) (by linarith) (by linarith) (by
    have e : sq (diff (pointAt ray t) s.center) = s.radius ^ 2 := hon
    change sq (diff (pointAt ray (t - 2 * b / sq ray.direction)) s.center) = s.radius ^ 2
    have e2 : sq (diff (pointAt ray (t - 2 * b / sq ray.direction)) s.center) =
        sq (diff (pointAt ray t) s.center) - 2 * (2 * b / sq ray.direction) * b + (2 * b / sq ray.direction) ^ 2 * sq ray.direction := by
      rw [hb]; generalize 2 * inner (diff (pointAt ray t) s.center) ray.direction / sq ray.direction = k; unfold Spec.sq Spec.inner diff pointAt; ring
    rw [e2, e]
    field_simp
    ring)
  rw [h] at h'
  have : t = t' := congrArg Prod.snd (Option.some.inj h')
  linarith

/-- C113, a world with one matt sphere, seen from outside, and one distant lamp: every sample of the sphere is exactly Lambert's law on the half that
faces the lamp and exactly black on the other half. -/
theorem c113_sphere (hN : OutwardNext ‹HasNext ℝ›) (s : Sphere ℝ) (hr : 0 < s.radius) (kd : TextureOf ℝ (Spectrum ℝ))
    (hmat : s.material = lambertianMaterial kd) (a addr : Nat) (e : Spectrum ℝ) (w : V3 ℝ) (hw : w ≠ V3.zero) (box : BBox3 ℝ)
    (hbox : ∀ a, box.min.get a ≤ box.max.get a) (hlights : scene.lights = [⟨addr, distant e w box⟩])
    (hshapes : scene.shapes = (Simple.mk [⟨a, s.toShape⟩] box).toContainer)
    (camera : PerspectiveCamera ℝ) (pFilm : V2 ℝ) (hd : (camera.generateRay pFilm).direction ≠ V3.zero)
    (hout : s.radius ^ 2 < sq (diff (camera.generateRay pFilm).origin s.center))
    (h : Hit ℝ) (hh : scene.intersect (camera.generateRay pFilm) = some (some h)) (hedge : inner h.i.n h.i.wo ≠ 0)
    (hkd : ∀ c : Chan, 0 ≤ c.of (kd h.i) ∧ c.of (kd h.i) ≤ HasInf.infinity) (hlamp : (lampRay h.i w box).direction ≠ V3.zero)
    {σ : Type} (ops : SamplerOps ℝ σ) (hops : Delivers Canonical ops) (st st' : σ) (l : Spectrum ℝ)
    (hrun : (cameraRadiance scene camera pFilm).run ops st = some (l, st')) :
    h.i.n = scale (1 / s.radius) (diff h.i.p s.center) ∧
    (0 < inner h.i.n w → l = lambert (kd h.i) e h.i.n w) ∧ (inner h.i.n w ≤ 0 → l = ⟨0, 0, 0⟩) := by
  have hh' : (Simple.mk [⟨a, s.toShape⟩] box).intersect (camera.generateRay pFilm) = some (some h) := by
    have := hh
    unfold Scene.intersect at this
    rw [hshapes] at this
    exact this
  obtain ⟨hobj, t, hi⟩ := lone_hit hh'
  have hi' : s.intersect (camera.generateRay pFilm) = some (h.i, t) := by
    have : some (s.intersect (camera.generateRay pFilm)) = some (some (h.i, t)) := hi
    simpa using this
  obtain ⟨-, -, -, -, hn, hn1, -⟩ := c36_sphere_hit_real s hr _ hd h.i t hi'
  obtain ⟨g1, g2, g3⟩ := sphere_matt s hr _ hd h.i t hi'
  have hf : 0 < inner h.i.n h.i.wo := lt_of_le_of_ne (sphere_faces s hr _ hd hout h.i t hi') hedge.symm
  obtain ⟨c1, c2⟩ := c107_sphere ‹HasNext ℝ› hN s hr _ hd h.i t hi'
  have key := c113_sample addr e w hw box hbox hlights camera pFilm h hh kd (by rw [hobj]; exact hmat) hkd (fun v => by rw [hobj]; rfl)
    hn1 g3.symm (by rw [g3]; exact g2) (fun v hv0 hs => by
      unfold Scene.intersect
      rw [hshapes]
      have hv : 0 < inner h.i.n v := (mul_pos_iff_of_pos_left hf).1 hs
      exact lone_missed (x := ⟨a, s.toShape⟩) box (show some (s.intersect _) = _ by rw [(c1 v hv0 hv.le).1])) ops hops st st' l hrun
  refine ⟨hn, fun hs => key.1 (mul_pos hf hs) ?_, fun hs => key.2 (Or.inl fun hx => ?_)⟩
  · unfold Scene.intersectP
    rw [hshapes]
    refine lone_unhidden (x := ⟨a, s.toShape⟩) box ?_
    change some (s.intersectP _) = _
    have hk : 0 ≤ inner h.i.n (diff (along h.i.p (2 * radius box / √(sq w)) w) h.i.p) := by
      rw [lamp_target]
      have : 0 ≤ radius box := by unfold radius; positivity
      positivity
    unfold lampRay at hlamp ⊢
    rw [(c2 _ hlamp hk (by rw [target_stays]; exact hk)).2]
  · have := (mul_pos_iff_of_pos_left hf).1 hx
    linarith

/-- C113, the pixel: if all over the area a pixel's samples come from the camera sees the lit side of a matt triangle of one colour, then the pixel has exactly
the colour of Lambert's law: there is no noise, whatever the number of samples. -/
theorem c113_pixel (hN : OutwardNext ‹HasNext ℝ›) (s : Triangle ℝ) (hv : s.vertexNormals = none) (k : Spectrum ℝ)
    (hmat : s.material = lambertianMaterial (constantTexture k)) (hk : ∀ c : Chan, 0 ≤ c.of k ∧ c.of k ≤ HasInf.infinity)
    (a addr : Nat) (e : Spectrum ℝ) (w : V3 ℝ) (hw : w ≠ V3.zero) (box : BBox3 ℝ)
    (hbox : ∀ a, box.min.get a ≤ box.max.get a) (hlights : scene.lights = [⟨addr, distant e w box⟩])
    (hshapes : scene.shapes = (Simple.mk [⟨a, s.toShape⟩] box).toContainer) (camera : PerspectiveCamera ℝ)
    (res : V2 Int) (filt : Filter ℝ) (hR : FilmRange res filt.radius) (hfilt : ∀ p, 0 ≤ filt.evaluate p) (spp : Nat) (hspp : spp < 2 ^ 32)
    (n : Nat) (hn : 1 ≤ n) (file : Option (List UInt8)) (m : Nat) (st : RState ℝ HaltonSampler)
    (hr : RReach (fun s b => renderTile HaltonSampler.ops (cameraRadiance scene camera) (Film.new res filt) s b)
      (HaltonSampler.new spp (Film.new res filt).sampleBBox) (RState.init (Film.new res filt) n file) m st) (hdone : st.main = .done)
    (x y : Int) (hi : Spec.InImage res x y)
    (hsee : ∀ p : V2 ℝ, Within filt.radius p x y → (camera.generateRay p).direction ≠ V3.zero ∧
      ∃ h, scene.intersect (camera.generateRay p) = some (some h) ∧ (lampRay h.i w box).direction ≠ V3.zero ∧ FacingSide (orientedNormal s) h.i.wo w) :
    ∀ c : Chan, c.of (st.sh.film.px x y).color = c.of (lambert k e (orientedNormal s) w) * (st.sh.film.px x y).weight := by
  intro c
  obtain ⟨h1, h2⟩ := (c103_between res filt hR hfilt (cameraRadiance scene camera) spp hspp n hn file m st hr hdone x y hi).2 c
      (c.of (lambert k e (orientedNormal s) w)) (c.of (lambert k e (orientedNormal s) w)) (by
    rintro q ⟨p, i, -, -, hc, -, hwi⟩
    obtain ⟨s1, s2, h3⟩ := cameraSample_light hc
    obtain ⟨hd, h, hh, hl, hs⟩ := hsee _ hwi
    have hh' : (Simple.mk [⟨a, s.toShape⟩] box).intersect (camera.generateRay q.1) = some (some h) := by
      have := hh
      unfold Scene.intersect at this
      rw [hshapes] at this
      exact this
    obtain ⟨-, t, hit⟩ := lone_hit hh'
    have hit' : s.intersect (camera.generateRay q.1) = some (some (h.i, t)) := hit
    have hpl : planeNormal s ≠ V3.zero := by
      intro h0
      obtain ⟨m1, ⟨c, hc, hcn⟩, -⟩ := madeOn_facts (Or.inl ⟨_, t, hd, hit'⟩ : MadeOn s h.i)
      rw [hcn, h0] at m1
      unfold Spec.sq scale V3.zero at m1
      real_ops at m1
      norm_num at m1
    have hno := (((c42_triangle_sample s hpl).2.2 hv) _ _ _ hit').1
    have key := (c113_triangle hN s hv _ hmat a addr e w hw box hbox hlights hshapes camera q.1 hd h hh hk hl HaltonSampler.ops halton_delivers _ _ _ h3).1
      (by rw [hno]; exact hs)
    rw [key, hno]
    exact ⟨le_refl _, le_refl _⟩)
  exact le_antisymm h2 h1
end

namespace Demo
/-- The matt triangle with the corners (0, 0, 1), (8, 0, 1) and (0, 12, 1). -/
noncomputable def mattWall [HasInf ℝ] : Triangle ℝ :=
  ⟨⟨0, 0, 1⟩, ⟨8, 0, 1⟩, ⟨0, 12, 1⟩, none, true, lambertianMaterial (constantTexture ⟨1 / 2, 1 / 4, 0⟩)⟩
noncomputable def mattWallBox : BBox3 ℝ := ⟨⟨0, 0, 1⟩, ⟨8, 12, 1⟩⟩

/-- That triangle and a lamp in the direction (3, 0, -4). -/
noncomputable def mattWallScene [HasInf ℝ] : Scene ℝ :=
  ⟨[⟨7, distant ⟨3, 2, 1⟩ ⟨3, 0, -4⟩ mattWallBox⟩], (Simple.mk [⟨2, mattWall.toShape⟩] mattWallBox).toContainer⟩
end Demo

/-- C113, the assumptions: through the film position (1280/3, 120) the camera sees the wall, and every sample has the brightness 3/2 · 4/5 / π in red, half of 4/5 / π in
green and none in blue. -/
example [HasInf ℝ] [HasNext ℝ] (hN : OutwardNext ‹HasNext ℝ›) (hinf : (100 : ℝ) ≤ HasInf.infinity) {σ : Type} (ops : SamplerOps ℝ σ) (hops : Delivers Canonical ops)
    (s s' : σ) (l : Spectrum ℝ) (e : (cameraRadiance Demo.mattWallScene Demo.aheadView.camera ⟨1280 / 3, 120⟩).run ops s = some (l, s')) :
    l = ⟨6 / 5 / Real.pi, 2 / 5 / Real.pi, 0⟩ := by
  obtain ⟨h1, h2, h3, c, hc, h4⟩ := ahead_rays ⟨1280 / 3, 120⟩
  obtain rfl : c = 6 / 7 := by
    have : Spec.sq (V3.mk (c * (1280 / 3 / 320 - 1)) (c * (1 - 120 / 240)) c) = 1 := h4 ▸ h3
    simp only [Spec.sq] at this
    nlinarith
  have hray : Demo.aheadView.camera.generateRay ⟨1280 / 3, 120⟩ = ⟨⟨0, 0, -5⟩, ⟨2 / 7, 3 / 7, 6 / 7⟩, HasInf.infinity⟩ := by
    revert h1 h2 h4
    generalize Demo.aheadView.camera.generateRay ⟨1280 / 3, 120⟩ = r
    rintro h1 h2 h4
    obtain ⟨o, d, t⟩ := r
    simp only at h1 h2 h4
    rw [h1, h2, h4]
    norm_num
  obtain ⟨i, hi, -, -⟩ := c39_triangle_complete Demo.mattWall ⟨⟨0, 0, -5⟩, ⟨2 / 7, 3 / 7, 6 / 7⟩, HasInf.infinity⟩ (1 / 2) (1 / 4) (1 / 4) 7
    (by norm_num [Weights]) (by unfold pointAt mix Demo.mattWall; ext <;> norm_num)
    (by norm_num [planeNormal, Spec.inner, vcross, diff, Demo.mattWall])
    (by
      intro m hm
      have hz := hm .Z
      cases m
      · norm_num [V3.get, abs_of_pos, abs_of_neg] at hz
      · norm_num [V3.get, abs_of_pos, abs_of_neg] at hz
      · unfold errorThreshold rayCoord maxAbs errFactor diff Demo.mattWall
        simp only [V3.get, Axis.prev, Axis.next]
        norm_num [abs_of_pos, abs_of_neg, max_def]) (by dsimp only; linarith)
  have hn : i.n = ⟨0, 0, -1⟩ := by
    have hs : Spec.sq (planeNormal Demo.mattWall) = 96 ^ 2 := by norm_num [planeNormal, vcross, diff, Demo.mattWall, Spec.sq]
    rw [((c42_triangle_sample _ (by intro e; have := congrArg V3.z e; norm_num [planeNormal, vcross, diff, Demo.mattWall, V3.zero, r_lit] at this)).2.2 rfl _ _ _ hi).1,
      orientedNormal, hs, Real.sqrt_sq (by norm_num)]
    ext <;> norm_num [scale, planeNormal, vcross, diff, Demo.mattWall]
  have hwo : i.wo = ⟨-(2 / 7), -(3 / 7), -(6 / 7)⟩ := by
    obtain ⟨-, b0, b1, b2, -, -, hf⟩ := triangle_hit_fields Demo.mattWall _ (by intro e; have := congrArg V3.x e; norm_num [V3.zero, r_lit] at this) i 7 hi
    rw [hf]
    unfold Triangle.interactionAt V3.neg
    real_ops
  have hh : Demo.mattWallScene.intersect (Demo.aheadView.camera.generateRay ⟨1280 / 3, 120⟩) = some (some ⟨i, ⟨2, Demo.mattWall.toShape⟩⟩) := by
    rw [hray]
    change Simple.intersect _ _ = _
    unfold Simple.intersect
    dsimp only
    have hb : (BBox3.intersect Demo.mattWallBox (⟨⟨0, 0, -5⟩, ⟨2 / 7, 3 / 7, 6 / 7⟩, HasInf.infinity⟩ : Ray ℝ)) ≠ none := by
      intro hb
      have := (c35_box_test _ _ (by intro a; cases a <;> norm_num [V3.get, Demo.mattWallBox])).2 hb
      have hmem : (7 : ℝ) ∈ (∅ : Set ℝ) := by
        rw [← this]
        have hg : 0 ≤ gamma3 := by unfold gamma3; norm_num
        refine ⟨by norm_num, by dsimp only; linarith, fun a => ?_⟩
        cases a <;> norm_num [planeLo, planeHi, V3.get, Demo.mattWallBox] <;> nlinarith
      exact hmem
    rw [if_neg (by simpa using hb)]
    have hi' : Demo.mattWall.toShape.intersect ⟨⟨0, 0, -5⟩, ⟨2 / 7, 3 / 7, 6 / 7⟩, HasInf.infinity⟩ = some (some (i, 7)) := hi
    simp only [closestHit, Obj.intersect, hi']
    rfl
  have hw : √(Spec.sq (⟨3, 0, -4⟩ : V3 ℝ)) = 5 := by
    rw [show Spec.sq (⟨3, 0, -4⟩ : V3 ℝ) = 5 ^ 2 by norm_num [Spec.sq]]; exact Real.sqrt_sq (by norm_num)
  have hlamp : (lampRay i ⟨3, 0, -4⟩ Demo.mattWallBox).direction ≠ V3.zero := by
    intro h0
    have hx := congrArg V3.x h0
    unfold lampRay Interaction.spawnRayTo Interaction.offsetRayOrigin Interaction.nudge Interaction.default at hx
    rw [hn, hw] at hx
    simp only [V3.sub, V3.add, V3.smul, V3.abs, V3.dot, V3.zero, along] at hx
    real_ops at hx
    norm_num at hx
    have hrad : 0 < radius Demo.mattWallBox := by
      have : 0 < Real.sqrt (Spec.sq (diff Demo.mattWallBox.max Demo.mattWallBox.min)) := Real.sqrt_pos.2 (by norm_num [Spec.sq, diff, Demo.mattWallBox])
      unfold radius; positivity
    split_ifs at hx <;> norm_num at hx <;> linarith
  have key := (c113_triangle hN Demo.mattWall rfl _ rfl 2 7 ⟨3, 2, 1⟩ ⟨3, 0, -4⟩ (by intro e; have := congrArg V3.x e; norm_num [V3.zero, r_lit] at this)
    Demo.mattWallBox (by intro a; cases a <;> norm_num [V3.get, Demo.mattWallBox]) rfl rfl _ _ (unit_ne_zero h3) _ hh
    (by intro c; cases c <;> simp only [constantTexture, Chan.of] <;> constructor <;> first | (norm_num; done) | (norm_num; linarith) | linarith) hlamp ops hops s s' l e).1
    (by dsimp only; rw [hn, hwo]; norm_num [FacingSide, Spec.inner])
  rw [key]
  dsimp only
  rw [hn]
  unfold lambert
  rw [hw]
  norm_num [Spec.inner, constantTexture, abs_of_pos]
  constructor <;> ring

namespace Demo
/-- A matt ball of radius 1 around (2, 3, 1). -/
noncomputable def lambertBall [HasInf ℝ] : Sphere ℝ := ⟨⟨2, 3, 1⟩, 1, lambertianMaterial (constantTexture ⟨1 / 2, 1 / 4, 0⟩)⟩
noncomputable def mattBallBox : BBox3 ℝ := ⟨⟨1, 2, 0⟩, ⟨3, 4, 2⟩⟩
/-- That ball and a lamp in the direction (3, 0, -4). -/
noncomputable def mattBallScene [HasInf ℝ] : Scene ℝ :=
  ⟨[⟨7, distant ⟨3, 2, 1⟩ ⟨3, 0, -4⟩ mattBallBox⟩], (Simple.mk [⟨2, lambertBall.toShape⟩] mattBallBox).toContainer⟩
end Demo

/-- The origin of a ray that leaves on the side of a normal with a negative first coordinate is not moved in the positive direction. -/
theorem origin_left [HasNext ℝ] (hN : OutwardNext ‹HasNext ℝ›) (i : Interaction ℝ) (v : V3 ℝ) (hn : i.n.x < 0) (he : 0 ≤ i.n.abs.dot i.pErr) (hv : 0 ≤ inner i.n v) :
    (i.offsetRayOrigin v).x ≤ i.p.x := by
  have hv' : ¬ (i.n.dot v <. lit 0) = true := by
    rw [V3.dot]; real_ops; simpa [Spec.inner] using hv
  unfold Interaction.offsetRayOrigin
  dsimp only
  rw [if_neg hv']
  generalize i.n.abs.dot i.pErr = d at he
  unfold Interaction.nudge V3.smul V3.add
  real_ops
  have h1 : i.n.x * d ≤ 0 := mul_nonpos_of_nonpos_of_nonneg hn.le he
  split_ifs with h2 h3
  · have : 0 < i.n.x * d := by simpa using h2
    linarith
  · exact ((hN _).2).trans (by linarith)
  · linarith

/-- C113, the assumptions for the ball: through the film position (1280/3, 120) the camera sees a point of it with the normal -(2, 3, 6)/7, and every sample has the
brightness 3/2 · 18/35 / π in red. -/
example [HasInf ℝ] [HasNext ℝ] (hN : OutwardNext ‹HasNext ℝ›) (hinf : (100 : ℝ) ≤ HasInf.infinity) {σ : Type} (ops : SamplerOps ℝ σ) (hops : Delivers Canonical ops)
    (s s' : σ) (l : Spectrum ℝ) (e : (cameraRadiance Demo.mattBallScene Demo.aheadView.camera ⟨1280 / 3, 120⟩).run ops s = some (l, s')) :
    l = ⟨3 / 2 * (18 / 35) / Real.pi, 1 / 2 * (18 / 35) / Real.pi, 0⟩ := by
  obtain ⟨h1, h2, h3, c, hc, h4⟩ := ahead_rays ⟨1280 / 3, 120⟩
  obtain rfl : c = 6 / 7 := by
    have : Spec.sq (V3.mk (c * (1280 / 3 / 320 - 1)) (c * (1 - 120 / 240)) c) = 1 := h4 ▸ h3
    simp only [Spec.sq] at this
    nlinarith
  have hray : Demo.aheadView.camera.generateRay ⟨1280 / 3, 120⟩ = ⟨⟨0, 0, -5⟩, ⟨2 / 7, 3 / 7, 6 / 7⟩, HasInf.infinity⟩ := by
    revert h1 h2 h4
    generalize Demo.aheadView.camera.generateRay ⟨1280 / 3, 120⟩ = r
    rintro h1 h2 h4
    obtain ⟨o, d, t⟩ := r
    simp only at h1 h2 h4
    rw [h1, h2, h4]
    norm_num
  have hd : (⟨2 / 7, 3 / 7, 6 / 7⟩ : V3 ℝ) ≠ V3.zero := by intro e; have := congrArg V3.z e; norm_num [V3.zero, r_lit] at this
  obtain ⟨i, t, hi, hle⟩ := c37_sphere_complete Demo.lambertBall ⟨⟨0, 0, -5⟩, ⟨2 / 7, 3 / 7, 6 / 7⟩, HasInf.infinity⟩ hd 6 (by norm_num) (by dsimp only; linarith)
    (by norm_num [OnSphere, pointAt, Demo.lambertBall])
  have hr1 : 0 < Demo.lambertBall.radius := by norm_num [Demo.lambertBall]
  obtain ⟨g0, g1, g2, g3, g4, -, -, g5, -⟩ := c36_sphere_hit_real Demo.lambertBall hr1 _ hd i t hi
  obtain rfl : t = 6 := by
    simp only [OnSphere, pointAt, Demo.lambertBall] at g2
    nlinarith
  have hn : i.n = ⟨-(2 / 7), -(3 / 7), -(6 / 7)⟩ := by
    rw [g4, g3]; ext <;> norm_num [scale, diff, pointAt, Demo.lambertBall]
  have hwo : i.wo = ⟨-(2 / 7), -(3 / 7), -(6 / 7)⟩ := by
    rw [g5]; ext <;> norm_num [scale]
  have hh : Demo.mattBallScene.intersect (Demo.aheadView.camera.generateRay ⟨1280 / 3, 120⟩) = some (some ⟨i, ⟨2, Demo.lambertBall.toShape⟩⟩) := by
    rw [hray]
    change Simple.intersect _ _ = _
    unfold Simple.intersect
    dsimp only
    have hb : (BBox3.intersect Demo.mattBallBox (⟨⟨0, 0, -5⟩, ⟨2 / 7, 3 / 7, 6 / 7⟩, HasInf.infinity⟩ : Ray ℝ)) ≠ none := by
      intro hb
      have := (c35_box_test _ _ (by intro a; cases a <;> norm_num [V3.get, Demo.mattBallBox])).2 hb
      have hmem : (7 : ℝ) ∈ (∅ : Set ℝ) := by
        rw [← this]
        have hg : 0 ≤ gamma3 := by unfold gamma3; norm_num
        refine ⟨by norm_num, by dsimp only; linarith, fun a => ?_⟩
        cases a <;> norm_num [planeLo, planeHi, V3.get, Demo.mattBallBox] <;> nlinarith
      exact hmem
    rw [if_neg (by simpa using hb)]
    have hi' : Demo.lambertBall.toShape.intersect ⟨⟨0, 0, -5⟩, ⟨2 / 7, 3 / 7, 6 / 7⟩, HasInf.infinity⟩ = some (some (i, 6)) := congrArg some hi
    simp only [closestHit, Obj.intersect, hi']
    rfl
  have hw : √(Spec.sq (⟨3, 0, -4⟩ : V3 ℝ)) = 5 := by
    rw [show Spec.sq (⟨3, 0, -4⟩ : V3 ℝ) = 5 ^ 2 by norm_num [Spec.sq]]; exact Real.sqrt_sq (by norm_num)
  have hlamp : (lampRay i ⟨3, 0, -4⟩ Demo.mattBallBox).direction ≠ V3.zero := by
    intro h0
    have hrad : 0 < radius Demo.mattBallBox := by
      have : 0 < Real.sqrt (Spec.sq (diff Demo.mattBallBox.max Demo.mattBallBox.min)) := Real.sqrt_pos.2 (by norm_num [Spec.sq, diff, Demo.mattBallBox])
      unfold radius; positivity
    have hx := congrArg V3.x h0
    unfold lampRay at hx
    rw [hw] at hx
    have hE := sphere_hit_pErr Demo.lambertBall hr1 _ hd i 6 hi
    have hg : (0 : ℝ) ≤ gamma 5 := gamma_real_nonneg 5 (by norm_num) (by norm_num)
    have hle := origin_left hN i ((along i.p (2 * radius Demo.mattBallBox / 5) ⟨3, 0, -4⟩).sub i.p) (by rw [hn]; norm_num) (by
      rw [hE]
      unfold V3.abs V3.dot
      real_ops
      positivity) (by
      have := lamp_target i ⟨3, 0, -4⟩ (2 * radius Demo.mattBallBox / 5)
      rw [hn] at this ⊢
      refine le_of_le_of_eq ?_ this.symm
      norm_num [Spec.inner]
      positivity)
    have hx' : ((Interaction.spawnRay { (Interaction.default : Interaction ℝ) with p := along i.p (2 * radius Demo.mattBallBox / 5) ⟨3, 0, -4⟩ }
        ((along i.p (2 * radius Demo.mattBallBox / 5) ⟨3, 0, -4⟩).sub i.p).neg).origin).x -
        (i.offsetRayOrigin ((along i.p (2 * radius Demo.mattBallBox / 5) ⟨3, 0, -4⟩).sub i.p)).x = 0 := by
      have h00 : (V3.zero : V3 ℝ).x = 0 := by simp [V3.zero, r_lit]
      rw [h00] at hx
      unfold Interaction.spawnRayTo V3.sub at hx
      rw [r_sub] at hx
      exact hx
    rw [target_stays] at hx'
    have : (along i.p (2 * radius Demo.mattBallBox / 5) ⟨3, 0, -4⟩).x = i.p.x + 2 * radius Demo.mattBallBox / 5 * 3 := rfl
    rw [this] at hx'
    linarith
  have key := (c113_sphere hN Demo.lambertBall hr1 _ rfl 2 7 ⟨3, 2, 1⟩ ⟨3, 0, -4⟩ (by intro e; have := congrArg V3.x e; norm_num [V3.zero, r_lit] at this)
    Demo.mattBallBox (by intro a; cases a <;> norm_num [V3.get, Demo.mattBallBox]) rfl rfl _ _ (unit_ne_zero h3)
    (by rw [hray]; norm_num [Demo.lambertBall, diff, Spec.sq]) _ hh
    (by dsimp only; rw [hn, hwo]; norm_num [Spec.inner])
    (by intro c; cases c <;> simp only [constantTexture, Chan.of] <;> constructor <;> first | (norm_num; done) | (norm_num; linarith) | linarith) hlamp ops hops s s' l e).2.1
    (by dsimp only; rw [hn]; norm_num [Spec.inner])
  rw [key]
  dsimp only
  rw [hn]
  unfold lambert
  rw [hw]
  norm_num [Spec.inner, constantTexture, abs_of_pos]
  constructor <;> ring


/-- Through every film position of the area around the pixel (426, 120) the camera sees the lit side of the wall. -/
theorem Demo.mattWall_seen [HasInf ℝ] [HasNext ℝ] (hinf : (100 : ℝ) ≤ HasInf.infinity) (p : V2 ℝ) (hx0 : 1 / 4 ≤ p.x / 320 - 1) (hx1 : p.x / 320 - 1 ≤ 2 / 5)
    (hy0 : 2 / 5 ≤ 1 - p.y / 240) (hy1 : 1 - p.y / 240 ≤ 3 / 5) :
    (Demo.aheadView.camera.generateRay p).direction ≠ V3.zero ∧ ∃ h, Demo.mattWallScene.intersect (Demo.aheadView.camera.generateRay p) = some (some h) ∧
      (lampRay h.i ⟨3, 0, -4⟩ Demo.mattWallBox).direction ≠ V3.zero ∧ FacingSide (orientedNormal Demo.mattWall) h.i.wo ⟨3, 0, -4⟩ := by
  obtain ⟨h1, h2, h3, c, hc, h4⟩ := ahead_rays p
  generalize hu : p.x / 320 - 1 = u at *
  generalize hv : 1 - p.y / 240 = v at *
  have hc1 : 1 / 2 ≤ c := by
    have : Spec.sq (V3.mk (c * u) (c * v) c) = 1 := h4 ▸ h3
    simp only [Spec.sq] at this
    have h5 : c * c * (u * u + v * v + 1) = 1 := by linarith
    have h6 : u * u + v * v + 1 ≤ 4 := by nlinarith
    nlinarith [mul_pos hc hc]
  have hray : Demo.aheadView.camera.generateRay p = ⟨⟨0, 0, -5⟩, ⟨c * u, c * v, c⟩, HasInf.infinity⟩ := by
    revert h1 h2 h4
    generalize Demo.aheadView.camera.generateRay p = r
    rintro h1 h2 h4
    obtain ⟨o, d, t⟩ := r
    simp only at h1 h2 h4
    rw [h1, h2, h4]
  have ht : 6 / c ≤ 12 := by rw [div_le_iff₀ hc]; linarith
  have ht0 : 0 < 6 / c := by positivity
  have hd : (⟨c * u, c * v, c⟩ : V3 ℝ) ≠ V3.zero := by
    intro e; have := congrArg V3.z e; simp only [V3.zero, r_lit] at this; norm_num at this; linarith
  obtain ⟨i, hi, -, -⟩ := c39_triangle_complete Demo.mattWall ⟨⟨0, 0, -5⟩, ⟨c * u, c * v, c⟩, HasInf.infinity⟩ (1 - 3 / 4 * u - 1 / 2 * v) (3 / 4 * u) (1 / 2 * v) (6 / c)
    (by refine ⟨?_, ?_, ?_, ?_⟩ <;> linarith)
    (by unfold pointAt mix Demo.mattWall; ext <;> dsimp only <;> field_simp <;> ring)
    (by
      have : inner (planeNormal Demo.mattWall) (⟨c * u, c * v, c⟩ : V3 ℝ) = 96 * c := by
        unfold Spec.inner planeNormal vcross diff Demo.mattWall; ring
      rw [this]; positivity)
    (by
      intro m hm
      have hz := hm .Z
      have hcu : |c * u| < c := by rw [abs_of_nonneg (by positivity)]; nlinarith
      have hcv : |c * v| < c := by rw [abs_of_nonneg (by positivity)]; nlinarith
      cases m
      · simp only [V3.get, abs_of_pos hc] at hz; linarith
      · simp only [V3.get, abs_of_pos hc] at hz; linarith
      · have hsub : ∀ q : ℝ, q / c * c = q := fun q => div_mul_cancel₀ q hc.ne'
        have hs2 : ∀ q : ℝ, 6 / c * (c * q) = 6 * q := fun q => by field_simp
        have r0 : rayCoord ⟨⟨0, 0, -5⟩, ⟨c * u, c * v, c⟩, HasInf.infinity⟩ .Z Demo.mattWall.v0 = ⟨-(6 * v), -(6 * u), 6 / c⟩ := by
          unfold rayCoord diff Demo.mattWall
          simp only [V3.get, Axis.prev, Axis.next]
          norm_num [hs2]
        have r1 : rayCoord ⟨⟨0, 0, -5⟩, ⟨c * u, c * v, c⟩, HasInf.infinity⟩ .Z Demo.mattWall.v1 = ⟨-(6 * v), 8 - 6 * u, 6 / c⟩ := by
          unfold rayCoord diff Demo.mattWall
          simp only [V3.get, Axis.prev, Axis.next]
          norm_num [hs2]
        have r2 : rayCoord ⟨⟨0, 0, -5⟩, ⟨c * u, c * v, c⟩, HasInf.infinity⟩ .Z Demo.mattWall.v2 = ⟨12 - 6 * v, -(6 * u), 6 / c⟩ := by
          unfold rayCoord diff Demo.mattWall
          simp only [V3.get, Axis.prev, Axis.next]
          norm_num [hs2]
        have hmax : ∀ x y z k : ℝ, |x| ≤ k → |y| ≤ k → |z| ≤ k → maxAbs x y z ≤ k := fun x y z k a b d => max_le (max_le a b) d
        have hmax0 : ∀ x y z : ℝ, 0 ≤ maxAbs x y z := fun x y z => (abs_nonneg z).trans (le_max_right _ _)
        rw [r0, r1, r2]
        unfold errorThreshold
        simp only
        have e0 : -(6 * v) * -(6 * u) - (8 - 6 * u) * (12 - 6 * v) = 48 * v + 72 * u - 96 := by ring
        have e1 : (12 - 6 * v) * -(6 * u) - -(6 * u) * -(6 * v) = -(72 * u) := by ring
        have e2 : -(6 * v) * (8 - 6 * u) - -(6 * u) * -(6 * v) = -(48 * v) := by ring
        have e3 : |48 * v + 72 * u - 96 + -(72 * u) + -(48 * v)| = 96 := by
          rw [show 48 * v + 72 * u - 96 + -(72 * u) + -(48 * v) = -96 by ring]; norm_num
        rw [e0, e1, e2, e3]
        have b1 := hmax (48 * v + 72 * u - 96) (-(72 * u)) (-(48 * v)) 96 (by rw [abs_le]; constructor <;> linarith) (by rw [abs_le]; constructor <;> linarith)
          (by rw [abs_le]; constructor <;> linarith)
        have b2 := hmax (-(6 * v)) (-(6 * v)) (12 - 6 * v) 12 (by rw [abs_le]; constructor <;> linarith) (by rw [abs_le]; constructor <;> linarith)
          (by rw [abs_le]; constructor <;> linarith)
        have b3 := hmax (-(6 * u)) (8 - 6 * u) (-(6 * u)) 8 (by rw [abs_le]; constructor <;> linarith) (by rw [abs_le]; constructor <;> linarith)
          (by rw [abs_le]; constructor <;> linarith)
        have b4 : maxAbs (6 / c) (6 / c) (6 / c) = 6 / c := by unfold maxAbs; rw [max_self, max_self, abs_of_pos ht0]
        have c1 := hmax0 (48 * v + 72 * u - 96) (-(72 * u)) (-(48 * v))
        have c2 := hmax0 (-(6 * v)) (-(6 * v)) (12 - 6 * v)
        have c3 := hmax0 (-(6 * u)) (8 - 6 * u) (-(6 * u))
        rw [b4]
        generalize maxAbs (48 * v + 72 * u - 96) (-(72 * u)) (-(48 * v)) = E at b1 c1 ⊢
        generalize maxAbs (-(6 * v)) (-(6 * v)) (12 - 6 * v) = X at b2 c2 ⊢
        generalize maxAbs (-(6 * u)) (8 - 6 * u) (-(6 * u)) = Y at b3 c3 ⊢
        have hXY : X * Y ≤ 96 := by nlinarith
        have hXY0 : 0 ≤ X * Y := mul_nonneg c2 c3
        unfold errFactor
        norm_num
        rw [show ∀ a b d : ℝ, (a * d) / b = a / b * d from fun a b d => by ring]
        nlinarith) (by dsimp only; linarith)
  have hn : i.n = ⟨0, 0, -1⟩ ∧ i.n = orientedNormal Demo.mattWall := by
    have hs : Spec.sq (planeNormal Demo.mattWall) = 96 ^ 2 := by norm_num [planeNormal, vcross, diff, Demo.mattWall, Spec.sq]
    have e := ((c42_triangle_sample Demo.mattWall (by intro e; have := congrArg V3.z e; norm_num [planeNormal, vcross, diff, Demo.mattWall, V3.zero, r_lit] at this)).2.2 rfl _ _ _ hi).1
    refine ⟨?_, e⟩
    rw [e, orientedNormal, hs, Real.sqrt_sq (by norm_num)]
    ext <;> norm_num [scale, planeNormal, vcross, diff, Demo.mattWall]
  have hwo : i.wo = ⟨-(c * u), -(c * v), -c⟩ := by
    obtain ⟨-, b0, b1, b2, -, -, hf⟩ := triangle_hit_fields Demo.mattWall _ hd i _ hi
    rw [hf]
    unfold Triangle.interactionAt V3.neg
    real_ops
  have hh : Demo.mattWallScene.intersect (Demo.aheadView.camera.generateRay p) = some (some ⟨i, ⟨2, Demo.mattWall.toShape⟩⟩) := by
    rw [hray]
    change Simple.intersect _ _ = _
    unfold Simple.intersect
    dsimp only
    have hb : (BBox3.intersect Demo.mattWallBox (⟨⟨0, 0, -5⟩, ⟨c * u, c * v, c⟩, HasInf.infinity⟩ : Ray ℝ)) ≠ none := by
      intro hb
      have hcu : c * u ≠ 0 := by positivity
      have hcv : c * v ≠ 0 := by positivity
      have := (c35_box_test _ _ (by intro a; cases a; exacts [hcu, hcv, hc.ne'])).2 hb
      have hmem : (6 / c : ℝ) ∈ (∅ : Set ℝ) := by
        rw [← this]
        have hg : 0 ≤ gamma3 := by unfold gamma3; norm_num
        refine ⟨ht0.le, by dsimp only; linarith, fun a => ?_⟩
        have hu8 : 6 / c ≤ 8 / (c * u) := by rw [div_le_div_iff₀ hc (by positivity)]; nlinarith
        have hv12 : 6 / c ≤ 12 / (c * v) := by rw [div_le_div_iff₀ hc (by positivity)]; nlinarith
        have hx0 : 0 ≤ 8 / (c * u) := by positivity
        have hy0 : 0 ≤ 12 / (c * v) := by positivity
        cases a
        · simp only [planeLo, planeHi, V3.get, Demo.mattWallBox, sub_zero, zero_div, min_eq_left hx0, max_eq_right hx0]
          exact ⟨ht0.le, by nlinarith⟩
        · simp only [planeLo, planeHi, V3.get, Demo.mattWallBox, sub_zero, zero_div, min_eq_left hy0, max_eq_right hy0]
          exact ⟨ht0.le, by nlinarith⟩
        · simp only [planeLo, planeHi, V3.get, Demo.mattWallBox, min_self, max_self]
          rw [show (1 - -5 : ℝ) = 6 by norm_num]
          exact ⟨le_refl _, by nlinarith⟩
      exact hmem
    rw [if_neg (by simpa using hb)]
    have hi' : Demo.mattWall.toShape.intersect ⟨⟨0, 0, -5⟩, ⟨c * u, c * v, c⟩, HasInf.infinity⟩ = some (some (i, 6 / c)) := hi
    simp only [closestHit, Obj.intersect, hi']
    rfl
  refine ⟨unit_ne_zero h3, _, hh, ?_, ?_⟩
  · intro h0
    have hw : √(Spec.sq (⟨3, 0, -4⟩ : V3 ℝ)) = 5 := by
      rw [show Spec.sq (⟨3, 0, -4⟩ : V3 ℝ) = 5 ^ 2 by norm_num [Spec.sq]]; exact Real.sqrt_sq (by norm_num)
    have hx := congrArg V3.x h0
    unfold lampRay Interaction.spawnRayTo Interaction.offsetRayOrigin Interaction.nudge Interaction.default at hx
    dsimp only at hx
    rw [hn.1, hw] at hx
    simp only [V3.sub, V3.add, V3.smul, V3.abs, V3.dot, V3.zero, along] at hx
    real_ops at hx
    norm_num at hx
    have hrad : 0 < radius Demo.mattWallBox := by
      have : 0 < Real.sqrt (Spec.sq (diff Demo.mattWallBox.max Demo.mattWallBox.min)) := Real.sqrt_pos.2 (by norm_num [Spec.sq, diff, Demo.mattWallBox])
      unfold radius; positivity
    split_ifs at hx <;> norm_num at hx <;> linarith
  · dsimp only
    rw [← hn.2, hn.1, hwo]
    norm_num [FacingSide, Spec.inner]
    exact hc

/-- C113, the assumptions for the pixel: with a Gaussian filter of radius 2, the pixel (426, 120) of a picture of 640 × 480 pixels. -/
example [HasInf ℝ] [HasNext ℝ] (hN : OutwardNext ‹HasNext ℝ›) (hinf : (100 : ℝ) ≤ HasInf.infinity) (m : Nat) (st : RState ℝ HaltonSampler)
    (hr : RReach (fun s b => renderTile HaltonSampler.ops (cameraRadiance Demo.mattWallScene Demo.aheadView.camera)
      (Film.new ⟨640, 480⟩ (GaussianFilter.new 2 1).toFilter) s b)
      (HaltonSampler.new 16 (Film.new ⟨640, 480⟩ (GaussianFilter.new (2 : ℝ) 1).toFilter).sampleBBox)
      (RState.init (Film.new ⟨640, 480⟩ (GaussianFilter.new 2 1).toFilter) 4 none) m st) (hdone : st.main = .done) :
    (st.sh.film.px 426 120).color.r = 6 / 5 / Real.pi * (st.sh.film.px 426 120).weight := by
  obtain ⟨f1, -⟩ := c14_gaussian 2 1 (by norm_num) (by norm_num)
  have key := c113_pixel hN Demo.mattWall rfl ⟨1 / 2, 1 / 4, 0⟩ rfl
    (by intro c; cases c <;> simp only [Chan.of] <;> constructor <;> first | (norm_num; done) | (norm_num; linarith) | linarith)
    2 7 ⟨3, 2, 1⟩ ⟨3, 0, -4⟩ (by intro e; have := congrArg V3.x e; norm_num [V3.zero, r_lit] at this)
    Demo.mattWallBox (by intro a; cases a <;> norm_num [V3.get, Demo.mattWallBox]) rfl rfl Demo.aheadView.camera ⟨640, 480⟩ (GaussianFilter.new 2 1).toFilter
    (show FilmRange ⟨640, 480⟩ 2 by constructor <;> norm_num) f1 16 (by norm_num) 4 (by norm_num) none m st hr hdone 426 120 (by norm_num [Spec.InImage])
    (fun p hp => by
      have hp' : |((426 : ℤ) : ℝ) + 1 / 2 - p.x| ≤ 2 ∧ |((120 : ℤ) : ℝ) + 1 / 2 - p.y| ≤ 2 := hp
      push_cast at hp'
      rw [abs_le, abs_le] at hp'
      obtain ⟨⟨p1, p2⟩, p3, p4⟩ := hp'
      exact Demo.mattWall_seen hinf p (by linarith) (by linarith) (by linarith) (by linarith)) .r
  have hw : √(Spec.sq (⟨3, 0, -4⟩ : V3 ℝ)) = 5 := by
    rw [show Spec.sq (⟨3, 0, -4⟩ : V3 ℝ) = 5 ^ 2 by norm_num [Spec.sq]]; exact Real.sqrt_sq (by norm_num)
  have hs : Spec.sq (planeNormal Demo.mattWall) = 96 ^ 2 := by norm_num [planeNormal, vcross, diff, Demo.mattWall, Spec.sq]
  refine (show _ = _ from key).trans ?_
  congr 1
  unfold lambert Chan.of orientedNormal
  rw [hw, hs, Real.sqrt_sq (by norm_num)]
  norm_num [Spec.inner, scale, planeNormal, vcross, diff, Demo.mattWall, abs_of_pos]
  ring

end PT
