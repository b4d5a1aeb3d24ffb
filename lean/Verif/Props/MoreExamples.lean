import Verif.Props.MaterialsSpecular
import Verif.Props.SceneClosest
import Verif.Props.Frame

/-!
# Cases that meet the hypotheses of C41, C60 and C74

Concrete cases for `c41_triangle_exact`, `c60_specular_pick` and `c74_sphere_frame`.
-/

namespace PT
open Spec

/-- C41: a slanted triangle in front of a ray; the contract holds along it. -/
example [Libm XR] : ∃ (s : Triangle XR) (o d : V3 XR), FiniteTriangle s ∧ Finite3 o ∧ Finite3 d ∧ NonZero d ∧ LawfulAlong s.toShape o d := by
  have h : NonZero (Demo.vec 1 2 2) := ⟨.X, by change (num 1).val ≠ 0; rw [(num_rel 1).val]; norm_num⟩
  have ht : FiniteTriangle ⟨Demo.vec 20 0 0, Demo.vec 0 20 0, Demo.vec 0 0 20, none, false,
     fun _ => ⟨[], Demo.vec 0 0 1, Demo.vec 0 0 1, Demo.vec 1 0 0, Demo.vec 0 1 0⟩⟩ := ⟨vec_finite _ _ _, vec_finite _ _ _, vec_finite _ _ _⟩
  exact ⟨_, _, _, ht, vec_finite 0 0 0, vec_finite 1 2 2, h, c41_triangle_exact _ ht _ _ (vec_finite 0 0 0) (vec_finite 1 2 2) h⟩

/-- C60: a mirror returns the mirrored direction as a specular pick. -/
example (m : Spectrum ℝ) (u : V2 ℝ) (hu : 0 ≤ u.x ∧ u.x < 1) (hv : 0 ≤ u.y ∧ u.y < 1) : ∃ (b : BSDF ℝ) (wo wi : V3 ℝ) (f : Spectrum ℝ),
    b.sampleF wo u = some (wi, f, 1, REFLECTION ||| SPECULAR) ∧
    ∃ x ∈ b.bxdfs, x.flag = REFLECTION ||| SPECULAR ∧ ∃ (u' : V2 ℝ) (w : V3 ℝ) (p0 : ℝ), (0 ≤ u'.x ∧ u'.x < 1) ∧ u'.y = u.y ∧
      x.sampleF (b.worldToLocal wo) u' = (w, f, p0) ∧ wi = b.localToWorld w ∧ 1 = p0 / b.bxdfs.length := by
  let i : Interaction ℝ := ⟨⟨0, 0, 0⟩, ⟨0, 0, 0⟩, ⟨0, 0⟩, ⟨0, 0, 1⟩, ⟨0, 0, 1⟩, ⟨1, 0, 0⟩, ⟨0, 1, 0⟩, ⟨0, 3 / 5, 4 / 5⟩⟩
  have hi : Smooth i := by
    refine ⟨by simp [i, Spec.sq], fun e => ?_, by simp [i, Spec.inner]⟩
    have := congrArg V3.x e
    simp [i, V3.zero, r_lit] at this
  have hwo : Spec.inner (⟨0, 3 / 5, 4 / 5⟩ : V3 ℝ) i.sn ≠ 0 := by simp [i, Spec.inner]
  obtain ⟨f, h, -⟩ := specular_sample hi m (fun _ => ⟨1, 1, 1⟩) hwo hu
  exact ⟨_, _, _, f, h, c60_specular_pick _ (by simp) _ u hu hv _ _ _ _ h one_ne_zero (by decide)⟩

/-- C74: a ray along the `x` axis and a sphere around the origin. -/
example (m : Material ℝ) : ∃ (s : Sphere ℝ) (ray : Ray ℝ) (i : Interaction ℝ) (t : ℝ), 0 < s.radius ∧ ray.direction ≠ V3.zero ∧ s.intersect ray = some (i, t) ∧
    (i.p.x ≠ s.center.x ∨ i.p.y ≠ s.center.y) ∧ GoodFrame i := by
  let s : Sphere ℝ := ⟨⟨0, 0, 0⟩, 1, m⟩
  let ray : Ray ℝ := ⟨⟨-3, 0, 0⟩, ⟨1, 0, 0⟩, 10⟩
  have hd : ray.direction ≠ V3.zero := fun e => by
    have := congrArg V3.x e
    simp [ray, V3.zero, r_lit] at this
  have hr : (0 : ℝ) < s.radius := by simp [s]
  obtain ⟨i, t, h, -⟩ := c37_sphere_complete s ray hd 2 (by norm_num) (by norm_num [ray]) (by
    simp [OnSphere, pointAt, s, ray, Spec.sq]; norm_num)
  have hp := c36_sphere_hit_real s hr ray hd i t h
  have hpole : i.p.x ≠ s.center.x ∨ i.p.y ≠ s.center.y := by
    obtain ⟨-, -, hon, hp, -⟩ := hp
    left
    rw [hp]
    intro h0
    simp [OnSphere, pointAt, s, ray, Spec.sq] at hon h0
    rw [h0] at hon
    norm_num at hon
  exact ⟨s, ray, i, t, hr, hd, h, hpole, c74_sphere_frame s hr ray hd i t h hpole⟩

end PT
