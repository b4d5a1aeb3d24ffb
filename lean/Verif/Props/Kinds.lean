import Verif.Props.BsdfMix

/-!
# C110: which kinds of components the materials put on a surface

The integrator treats specular components differently from the others (no light sampling at the surface; light that the next ray finds
counts in full), so what a component announces decides what is computed.
-/

namespace PT
namespace Spec

/-- What a component does with light. -/
inductive Finish
  /-- spreads it over the side it comes from, in all directions -/
  | matt
  /-- reflects it around the mirror direction -/
  | glossy
  /-- reflects it in the mirror direction only -/
  | mirror
  /-- lets it through around the refracted direction -/
  | frosted
  /-- lets it through in the refracted direction only -/
  | clear
deriving DecidableEq

/-- What a component announces: reflection, transmission, diffuse, glossy, specular. -/
def announced (x : BxDF α) : List Bool :=
  [x.hasFlag REFLECTION, x.hasFlag TRANSMISSION, x.hasFlag DIFFUSE, x.hasFlag GLOSSY, x.hasFlag SPECULAR]

/-- What a component of the given finish should announce. -/
def Finish.announces : Finish → List Bool
  | .matt => [true, false, true, false, false]
  | .glossy => [true, false, false, true, false]
  | .mirror => [true, false, false, false, true]
  | .frosted => [false, true, false, true, false]
  | .clear => [false, true, false, false, true]

/-- The surface announces components of these finishes, in this order. -/
def Shows (b : BSDF α) (l : List Finish) : Prop := b.bxdfs.map announced = l.map Finish.announces

end Spec
open Spec

variable {α : Type} [Scalar α] [Libm α]

theorem announced_lambertian (r : Spectrum α) : announced (lambertianReflection r) = Finish.announces .matt := by
  simp only [announced, lambertianReflection, BxDF.hasFlag]; decide
theorem announced_specularReflection (r : Spectrum α) (f : Fresnel α) :
    announced (specularReflection r f) = Finish.announces .mirror := by
  simp only [announced, specularReflection, BxDF.hasFlag]; decide
theorem announced_specularTransmission (t : Spectrum α) (a b : α) :
    announced (specularTransmission t a b) = Finish.announces .clear := by
  simp only [announced, specularTransmission, BxDF.hasFlag]; decide
theorem announced_microfacetReflection (r : Spectrum α) (m : Microfacet α) (f : Fresnel α) :
    announced (microfacetReflection r m f) = Finish.announces .glossy := by
  simp only [announced, microfacetReflection, BxDF.hasFlag]; decide
theorem announced_microfacetTransmission (t : Spectrum α) (a b : α) (m : Microfacet α) :
    announced (microfacetTransmission t a b m) = Finish.announces .frosted := by
  simp only [announced, microfacetTransmission, BxDF.hasFlag]; decide

variable [HasInf α]

/-- C110: a matt material has one matt component, or none if its colour is black. -/
theorem c110_matt (kd : TextureOf α (Spectrum α)) (i : Interaction α) :
    Shows (lambertianMaterial kd i) (if (clampedTex kd i).isBlack then [] else [.matt]) := by
  simp only [Shows, lambertianMaterial]
  split_ifs <;> simp [BSDF.new, BSDF.add, announced_lambertian]

/-- C110: a mirror has one mirror component, or none if its colour is black. -/
theorem c110_mirror (kr : TextureOf α (Spectrum α)) (i : Interaction α) :
    Shows (mirrorMaterial kr i) (if (clampedTex kr i).isBlack then [] else [.mirror]) := by
  simp only [Shows, mirrorMaterial]
  split_ifs <;> simp [BSDF.new, BSDF.add, announced_specularReflection]

/-- C110: a metal is a mirror if both roughnesses are zero, glossy otherwise. -/
theorem c110_metal (r eta k : TextureOf α (Spectrum α)) (ru rv : TextureOf α α) (i : Interaction α) :
    Shows (metalMaterial r eta k ru rv i) (if (ru i ==. lit 0) && (rv i ==. lit 0) then [.mirror] else [.glossy]) := by
  simp only [Shows, metalMaterial]
  split_ifs <;> simp [BSDF.new, BSDF.add, announced_specularReflection, announced_microfacetReflection]

/-- C110: glass reflects and lets through, each unless its colour is black; sharply if both roughnesses are zero, blurred otherwise. -/
theorem c110_glass (kr kt : TextureOf α (Spectrum α)) (eta ru rv : TextureOf α α) (i : Interaction α) :
    Shows (glassMaterial kr kt eta ru rv i)
      ((if (clampedTex kr i).isBlack then [] else [if (ru i ==. lit 0) && (rv i ==. lit 0) then .mirror else .glossy]) ++
        (if (clampedTex kt i).isBlack then [] else [if (ru i ==. lit 0) && (rv i ==. lit 0) then .clear else .frosted])) := by
  simp only [Shows, glassMaterial]
  split_ifs <;> simp [BSDF.new, BSDF.add, announced_specularReflection, announced_microfacetReflection,
    announced_specularTransmission, announced_microfacetTransmission]

/-- C110: plastic is a matt layer under a coat, each unless its colour is black; the coat is a mirror if the roughness is zero, glossy
otherwise. -/
theorem c110_plastic (kd ks : TextureOf α (Spectrum α)) (rough : TextureOf α α) (i : Interaction α) :
    Shows (plasticMaterial kd ks rough i)
      ((if (clampedTex kd i).isBlack then [] else [.matt]) ++
        (if (clampedTex ks i).isBlack then [] else [if rough i ==. lit 0 then .mirror else .glossy])) := by
  simp only [Shows, plasticMaterial]
  split_ifs <;> simp [BSDF.new, BSDF.add, announced_specularReflection, announced_microfacetReflection, announced_lambertian]

/-- Where the components of the materials come from. -/
theorem material_component (i : Interaction α) (kd ks kr kt eta3 k3 : TextureOf α (Spectrum α)) (eta ru rv : TextureOf α α) (x : BxDF α)
    (hx : x ∈ (lambertianMaterial kd i).bxdfs ∨ x ∈ (mirrorMaterial kr i).bxdfs ∨ x ∈ (metalMaterial kr eta3 k3 ru rv i).bxdfs ∨
      x ∈ (glassMaterial kr kt eta ru rv i).bxdfs ∨ x ∈ (plasticMaterial kd ks ru i).bxdfs) :
    (∃ r, x = lambertianReflection r) ∨ (∃ r f, x = specularReflection r f) ∨ (∃ t a b, x = specularTransmission t a b) ∨
    (∃ r m f, x = microfacetReflection r m f) ∨ (∃ t a b m, x = microfacetTransmission t a b m) := by
  rcases hx with hx | hx | hx | hx | hx <;>
    simp only [lambertianMaterial, mirrorMaterial, metalMaterial, glassMaterial, plasticMaterial] at hx <;>
    split_ifs at hx <;>
    simp only [BSDF.new, BSDF.add, List.nil_append, List.mem_singleton, List.cons_append, List.mem_cons, List.not_mem_nil, or_false] at hx <;>
    (first | subst hx | (rcases hx with rfl | rfl)) <;>
    first | exact .inl ⟨_, rfl⟩ | exact .inr (.inl ⟨_, _, rfl⟩) | exact .inr (.inr (.inl ⟨_, _, _, rfl⟩)) |
      exact .inr (.inr (.inr (.inl ⟨_, _, _, rfl⟩))) | exact .inr (.inr (.inr (.inr ⟨_, _, _, _, rfl⟩)))

/-- C110: a specular component of a material has value and density zero for every pair of directions given from outside: light can be
found along it only by following its own sample. -/
theorem c110_specular_only_sampled (i : Interaction α) (kd ks kr kt eta3 k3 : TextureOf α (Spectrum α)) (eta ru rv : TextureOf α α)
    (x : BxDF α) (hx : x ∈ (lambertianMaterial kd i).bxdfs ∨ x ∈ (mirrorMaterial kr i).bxdfs ∨
      x ∈ (metalMaterial kr eta3 k3 ru rv i).bxdfs ∨ x ∈ (glassMaterial kr kt eta ru rv i).bxdfs ∨
      x ∈ (plasticMaterial kd ks ru i).bxdfs) (hs : x.hasFlag SPECULAR = true) (wo wi : V3 α) :
    x.f wo wi = Spectrum.zero ∧ x.pdf wo wi = lit 0 := by
  rcases material_component i kd ks kr kt eta3 k3 eta ru rv x hx with ⟨r, rfl⟩ | ⟨r, f, rfl⟩ | ⟨t, a, b, rfl⟩ | ⟨r, m, f, rfl⟩ | ⟨t, a, b, m, rfl⟩
  · have := announced_lambertian r; simp only [announced, Finish.announces, List.cons.injEq] at this; simp [this] at hs
  · exact ⟨rfl, rfl⟩
  · exact ⟨rfl, rfl⟩
  · have := announced_microfacetReflection r m f; simp only [announced, Finish.announces, List.cons.injEq] at this; simp [this] at hs
  · have := announced_microfacetTransmission t a b m; simp only [announced, Finish.announces, List.cons.injEq] at this; simp [this] at hs

/-- C110, over the reals: from a mirror, a smooth metal and clear glass no light arrives between two directions given from outside. -/
theorem c110_smooth_dark [HasInf ℝ] (i : Interaction ℝ) (kr kt eta3 k3 : TextureOf ℝ (Spectrum ℝ)) (eta ru rv : TextureOf ℝ ℝ)
    (hr : ru i = 0 ∧ rv i = 0) (b : BSDF ℝ)
    (hb : b = mirrorMaterial kr i ∨ b = metalMaterial kr eta3 k3 ru rv i ∨ b = glassMaterial kr kt eta ru rv i) (wo wi : V3 ℝ) :
    b.f wo wi = Spectrum.zero ∧ b.pdf wo wi = 0 := by
  have key : ∀ x ∈ b.bxdfs, (∀ u w, x.f u w = Spectrum.zero) ∧ ∀ u w, x.pdf u w = 0 := by
    have hz : ∀ x : BxDF ℝ, (∃ r f, x = specularReflection r f) ∨ (∃ t a b, x = specularTransmission t a b) →
        (∀ u w, x.f u w = Spectrum.zero) ∧ ∀ u w, x.pdf u w = 0 := by
      rintro x (⟨r, f, rfl⟩ | ⟨t, a, b, rfl⟩) <;> exact ⟨fun _ _ => rfl, fun _ _ => by simp [specularReflection, specularTransmission, r_lit]⟩
    intro x hx
    apply hz
    rcases hb with rfl | rfl | rfl
    · simp only [mirrorMaterial] at hx
      split_ifs at hx
      · simp [BSDF.new] at hx
      · simp only [BSDF.new, BSDF.add, List.nil_append, List.mem_singleton] at hx
        exact .inl ⟨_, _, hx⟩
    · simp only [metalMaterial] at hx; real_ops at hx
      simp only [hr, decide_true, Bool.and_self, if_true, BSDF.new, BSDF.add, List.nil_append, List.mem_singleton] at hx
      exact .inl ⟨_, _, hx⟩
    · simp only [glassMaterial] at hx; real_ops at hx
      simp only [hr, decide_true, Bool.and_self, if_true] at hx
      split_ifs at hx
      all_goals simp only [BSDF.new, BSDF.add, List.nil_append, List.mem_singleton, List.cons_append, List.mem_cons, List.not_mem_nil,
        or_false] at hx
      · exact .inl ⟨_, _, hx⟩
      · exact .inr ⟨_, _, _, hx⟩
      · rcases hx with hx | hx
        · exact .inl ⟨_, _, hx⟩
        · exact .inr ⟨_, _, _, hx⟩
  constructor
  · simp only [BSDF.f]
    split_ifs
    · rfl
    · generalize b.bxdfs = l at key
      have : ∀ (l : List (BxDF ℝ)), (∀ x ∈ l, (∀ u w, x.f u w = Spectrum.zero) ∧ ∀ u w, x.pdf u w = 0) → ∀ (r : Bool) u w,
          BSDF.sumF l r u w = Spectrum.zero := by
        intro l hl r u w
        simp only [BSDF.sumF]
        induction l with
        | nil => rfl
        | cons x l ih =>
          rw [List.foldl_cons, (hl x (List.mem_cons_self ..)).1 u w]
          have e : (Spectrum.zero : Spectrum ℝ).add Spectrum.zero = Spectrum.zero := by
            simp [Spectrum.add, Spectrum.zero, Spectrum.of, r_add, r_lit]
          rw [e, ite_self]
          exact ih fun y hy => hl y (List.mem_cons_of_mem _ hy)
      exact this l key _ _ _
  · simp only [BSDF.pdf]
    have : ∀ (l : List (BxDF ℝ)), (∀ x ∈ l, (∀ u w, x.f u w = Spectrum.zero) ∧ ∀ u w, x.pdf u w = 0) → ∀ u w,
        l.foldl (fun p x => p +. x.pdf u w) 0 = 0 := by
      intro l hl u w
      induction l with
      | nil => rfl
      | cons x l ih =>
        rw [List.foldl_cons, (hl x (List.mem_cons_self ..)).2 u w, r_add, add_zero]
        exact ih fun y hy => hl y (List.mem_cons_of_mem _ hy)
    split_ifs
    · simp [r_lit]
    · simp [r_lit]
    · simp only [r_lit, Rat.cast_zero]
      rw [this _ key, r_div, zero_div]

/-- Non-vacuity of C110: glass with roughness (0.1, 0) shows a glossy and a frosted component, with roughness (0, 0) a mirror and a clear
one; black plastic shows nothing. -/
example [HasInf ℝ] (hi : (HasInf.infinity : ℝ) = 2 ^ 128) (i : Interaction ℝ) :
    Shows (glassMaterial (fun _ => .of 1) (fun _ => .of 1) (fun _ => 3 / 2) (fun _ => 1 / 10) (fun _ => 0) i) [.glossy, .frosted] ∧
    Shows (glassMaterial (fun _ => .of 1) (fun _ => .of 1) (fun _ => 3 / 2) (fun _ => 0) (fun _ => 0) i) [.mirror, .clear] ∧
    Shows (plasticMaterial (fun _ => .of (0 : ℝ)) (fun _ => .of 0) (fun _ => 0) i) [] := by
  have h1 : (clampedTex (fun _ => Spectrum.of (1 : ℝ)) i).isBlack = false := by
    simp [clampedTex, Spectrum.of, Spectrum.clamp, Spectrum.isBlack, clamp, hi, r_lit, r_eq, r_lt]
    try norm_num
  have h0 : (clampedTex (fun _ => Spectrum.of (0 : ℝ)) i).isBlack = true := by
    simp [clampedTex, Spectrum.of, Spectrum.clamp, Spectrum.isBlack, clamp, hi, r_lit, r_eq, r_lt]
    try norm_num
  refine ⟨?_, ?_, ?_⟩
  · have := c110_glass (fun _ => Spectrum.of (1 : ℝ)) (fun _ => .of 1) (fun _ => 3 / 2) (fun _ => 1 / 10) (fun _ => 0) i
    rw [h1] at this
    simpa [r_eq, r_lit] using this
  · have := c110_glass (fun _ => Spectrum.of (1 : ℝ)) (fun _ => .of 1) (fun _ => 3 / 2) (fun _ => 0) (fun _ => 0) i
    rw [h1] at this
    simpa [r_eq, r_lit] using this
  · have := c110_plastic (fun _ => Spectrum.of (0 : ℝ)) (fun _ => .of 0) (fun _ => 0) i
    rw [h0] at this
    simpa using this

end PT
