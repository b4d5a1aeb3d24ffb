import Verif.Props.Frame
import Verif.Props.Util
import Verif.Props.TransformMeaning
import Mathlib.Analysis.SpecialFunctions.Trigonometric.Deriv

/-!
# Texture coordinates, the tangents that belong to them, and textures on surfaces (C86, C73)
-/

namespace PT
open Spec

namespace Spec
/-- The point of a surface moves with velocity `v` when the parameter passes `x`. -/
def Velocity (f : ℝ → V3 ℝ) (x : ℝ) (v : V3 ℝ) : Prop :=
  HasDerivAt (fun x => (f x).x) v.x x ∧ HasDerivAt (fun x => (f x).y) v.y x ∧ HasDerivAt (fun x => (f x).z) v.z x

/-- The point of a triangle with texture coordinates `u`, `v`: the corners have the coordinates (0,0), (1,0) and (1,1). -/
def trianglePoint (s : Triangle ℝ) (u v : ℝ) : V3 ℝ := mix (1 - u) (u - v) v s.v0 s.v1 s.v2

/-- The cell of a checkerboard of unit squares that a number falls in. -/
noncomputable def square (x : ℝ) : ℤ := ⌊x⌋
/-- A number in the range of the cell counter. -/
def InRange (x : ℝ) : Prop := -2 ^ 63 ≤ x ∧ x < 2 ^ 63
end Spec

theorem Velocity.unique {f : ℝ → V3 ℝ} {x : ℝ} {v w : V3 ℝ} (h : Velocity f x v) (h' : Velocity f x w) : v = w := by
  ext
  · exact h.1.unique h'.1
  · exact h.2.1.unique h'.2.1
  · exact h.2.2.unique h'.2.2

/-- C86 for triangles without vertex normals: the tangents are the velocities of the hit point along the texture coordinates. -/
theorem c86_triangle_partial (s : Triangle ℝ) (hn : s.vertexNormals = none) (ray : Ray ℝ) (hd : ray.direction ≠ V3.zero)
    (i : Interaction ℝ) (t : ℝ) (h : s.intersect ray = some (some (i, t))) :
    i.p = trianglePoint s i.uv.x i.uv.y ∧ Velocity (fun u => trianglePoint s u i.uv.y) i.uv.x i.dpdu ∧
    Velocity (fun v => trianglePoint s i.uv.x v) i.uv.y i.dpdv := by
  obtain ⟨-, b0, b1, b2, hw, huv, hi⟩ := triangle_hit_fields s ray hd i t h
  have hp : i.p = mix b0 b1 b2 s.v0 s.v1 s.v2 := by
    rw [hi]
    simp only [Triangle.interactionAt, mix, V3.add, V3.smul]
    real_ops
    ext <;> simp only [] <;> ring
  have hdu : i.dpdu = diff s.v1 s.v0 ∧ i.dpdv = diff s.v2 s.v1 := by
    rw [hi]
    simp only [Triangle.interactionAt, partials_real, Triangle.shading, hn, and_self]
  have lin : ∀ (f : ℝ → ℝ) (m c x : ℝ), (∀ x, f x = m * x + c) → HasDerivAt f m x := by
    intro f m c x e
    rw [funext e]
    simpa using ((hasDerivAt_id x).const_mul m).add_const c
  refine ⟨?_, ?_, ?_⟩
  · rw [hp, huv]
    unfold trianglePoint
    have : b0 = 1 - (b1 + b2) := by linarith [hw.2.2.2]
    rw [this]
    congr 1
    ring
  · rw [hdu.1]
    refine ⟨lin _ _ (trianglePoint s 0 i.uv.y).x _ ?_, lin _ _ (trianglePoint s 0 i.uv.y).y _ ?_, lin _ _ (trianglePoint s 0 i.uv.y).z _ ?_⟩ <;>
      intro x <;> simp only [trianglePoint, mix, diff] <;> ring
  · rw [hdu.2]
    refine ⟨lin _ _ (trianglePoint s i.uv.x 0).x _ ?_, lin _ _ (trianglePoint s i.uv.x 0).y _ ?_, lin _ _ (trianglePoint s i.uv.x 0).z _ ?_⟩ <;>
      intro x <;> simp only [trianglePoint, mix, diff] <;> ring

/-- C86 is false of the code for every triangle with vertex normals, at every hit where the interpolated normal is not zero: the first tangent
never points to the side in which the surface point moves when the first texture coordinate grows; if the edge is not parallel to the shading
normal it points to the opposite side. -/
theorem c86_vertex_normals_refuted (s : Triangle ℝ) (hv : s.vertexNormals ≠ none) (ray : Ray ℝ) (hd : ray.direction ≠ V3.zero)
    (i : Interaction ℝ) (t : ℝ) (h : s.intersect ray = some (some (i, t))) (hne : rawNormal s i.uv ≠ V3.zero)
    (move : V3 ℝ) (hm : Velocity (fun u => trianglePoint s u i.uv.y) i.uv.x move) :
    inner i.dpdu move ≤ 0 ∧ (vcross move i.sn ≠ V3.zero → inner i.dpdu move < 0) ∧ i.dpdu ≠ move := by
  obtain ⟨hpn0, b0, b1, b2, hw, huv, hi⟩ := triangle_hit_fields s ray hd i t h
  have lin : ∀ (f : ℝ → ℝ) (m c x : ℝ), (∀ x, f x = m * x + c) → HasDerivAt f m x := by
    intro f m c x e
    rw [funext e]
    simpa using ((hasDerivAt_id x).const_mul m).add_const c
  have hmove : move = diff s.v1 s.v0 := by
    refine Velocity.unique hm ⟨lin _ _ (trianglePoint s 0 i.uv.y).x _ ?_, lin _ _ (trianglePoint s 0 i.uv.y).y _ ?_,
      lin _ _ (trianglePoint s 0 i.uv.y).z _ ?_⟩ <;> intro x <;> simp only [trianglePoint, mix, diff] <;> ring
  clear hm
  subst hmove
  have hedge : diff s.v1 s.v0 ≠ V3.zero := by
    intro e
    apply hpn0
    unfold planeNormal
    rw [e]
    simp [vcross, V3.zero, r_lit]
  have hself : 0 < Spec.sq (diff s.v1 s.v0) := by rw [← length_sq]; have := length_pos hedge; positivity
  suffices hs : inner i.dpdu (diff s.v1 s.v0) ≤ 0 ∧
      (vcross (diff s.v1 s.v0) i.sn ≠ V3.zero → inner i.dpdu (diff s.v1 s.v0) < 0) by
    refine ⟨hs.1, hs.2, fun e => ?_⟩
    have h1 := hs.1
    rw [e] at h1
    have : inner (diff s.v1 s.v0) (diff s.v1 s.v0) = Spec.sq (diff s.v1 s.v0) := by unfold Spec.inner Spec.sq; ring
    linarith
  obtain ⟨⟨n0, n1, n2⟩, hvn⟩ := Option.ne_none_iff_exists'.1 hv
  have hmx : mix b0 b1 b2 n0 n1 n2 ≠ V3.zero := by
    unfold rawNormal at hne
    rw [hvn, huv] at hne
    simp only [Option.elim_some] at hne
    have e1 : 1 - (b1 + b2) = b0 := by linarith [hw.2.2.2]
    have e2 : b1 + b2 - b2 = b1 := by ring
    rw [e1, e2] at hne
    exact hne
  have hcross : (s.v0.sub s.v2).cross (s.v1.sub s.v2) = planeNormal s := by
    unfold planeNormal vcross diff V3.cross V3.sub; real_ops; ext <;> simp only [] <;> ring
  have hsn : i.sn = if s.reverseOrientation then
      (s.shading b0 b1 b2 (planeNormal s).normalize (diff s.v1 s.v0) (diff s.v2 s.v1)).1.smul ⊖(lit 1)
      else (s.shading b0 b1 b2 (planeNormal s).normalize (diff s.v1 s.v0) (diff s.v2 s.v1)).1 := by
    rw [hi]
    unfold Triangle.interactionAt
    simp only [partials_real, hcross]
  have hdu : i.dpdu = (s.shading b0 b1 b2 (planeNormal s).normalize (diff s.v1 s.v0) (diff s.v2 s.v1)).2.1 := by
    rw [hi]
    unfold Triangle.interactionAt
    simp only [partials_real, hcross]
  obtain ⟨k1, -, k3, -⟩ := shading_perp s b0 b1 b2 (planeNormal s).normalize (diff s.v1 s.v0) (diff s.v2 s.v1) n0 n1 n2 hvn hmx
  have key : ∃ w, w = (diff s.v1 s.v0).normalize.cross
        (s.shading b0 b1 b2 (planeNormal s).normalize (diff s.v1 s.v0) (diff s.v2 s.v1)).1 ∧ (w.length > 0 →
      (s.shading b0 b1 b2 (planeNormal s).normalize (diff s.v1 s.v0) (diff s.v2 s.v1)).2.1 = (w.sdiv w.length).cross
        (s.shading b0 b1 b2 (planeNormal s).normalize (diff s.v1 s.v0) (diff s.v2 s.v1)).1) := by
    have hform : ∀ n dpdu dpdv : V3 ℝ, ∃ sn : V3 ℝ, s.shading b0 b1 b2 n dpdu dpdv =
        if (dpdu.normalize.cross sn).length >. lit 0 then
          (sn, ((dpdu.normalize.cross sn).sdiv (dpdu.normalize.cross sn).length).cross sn,
            (dpdu.normalize.cross sn).sdiv (dpdu.normalize.cross sn).length)
        else (sn, sn.constructCoordinateSystem.1, sn.constructCoordinateSystem.2) := by
      intro n dpdu dpdv
      refine ⟨if (((n0.smul b0).add (n1.smul b1)).add (n2.smul b2)).length >=. lit 0 then
        (((n0.smul b0).add (n1.smul b1)).add (n2.smul b2)).sdiv (((n0.smul b0).add (n1.smul b1)).add (n2.smul b2)).length else n, ?_⟩
      unfold Triangle.shading
      simp only [hvn]
    obtain ⟨sn, hsh⟩ := hform (planeNormal s).normalize (diff s.v1 s.v0) (diff s.v2 s.v1)
    by_cases hc : ((diff s.v1 s.v0).normalize.cross sn).length >. lit 0
    · rw [hsh, if_pos hc]
      exact ⟨_, rfl, fun _ => rfl⟩
    · rw [hsh, if_neg hc]
      refine ⟨_, rfl, fun hpos => absurd (by real_ops; exact hpos) hc⟩
  obtain ⟨w, hw1, hw2⟩ := key
  generalize s.shading b0 b1 b2 (planeNormal s).normalize (diff s.v1 s.v0) (diff s.v2 s.v1) = r at *
  obtain ⟨sn, du, dv⟩ := r
  simp only [] at hdu hsn k1 k3 hw1 hw2
  have hlen := length_pos hedge
  have hw3 : vcross (diff s.v1 s.v0) sn = scale (diff s.v1 s.v0).length w := by
    rw [hw1, normalize_scale]
    unfold vcross scale V3.cross
    real_ops
    ext <;> simp only [] <;> field_simp
  rw [hdu]
  have hpar : vcross (diff s.v1 s.v0) i.sn = V3.zero ↔ vcross (diff s.v1 s.v0) sn = V3.zero := by
    rw [hsn]
    cases s.reverseOrientation
    · rfl
    · simp only [if_true, vcross, V3.smul, V3.zero, V3.mk.injEq, r_lit]
      real_ops
      push_cast
      constructor
      · rintro ⟨a, b, c⟩; exact ⟨by linarith, by linarith, by linarith⟩
      · rintro ⟨a, b, c⟩; exact ⟨by linarith, by linarith, by linarith⟩
  rw [ne_eq, hpar]
  generalize diff s.v1 s.v0 = e at *
  by_cases hpos : w.length > 0
  · have h1 := hw2 hpos
    have h2 : inner du e = -(e.length * w.length) := by
      have h3 : inner du e = -(1 / w.length * inner w (vcross e sn)) := by
        rw [h1, sdiv_scale]
        unfold scale V3.cross Spec.inner vcross
        real_ops
        ring
      have h4 : inner w (scale e.length w) = e.length * Spec.sq w := by unfold Spec.inner scale Spec.sq; ring
      rw [h3, hw3, h4, ← length_sq]
      field_simp
    have : 0 < e.length * w.length := by positivity
    exact ⟨by linarith, fun _ => by linarith⟩
  · have hw0 : w = V3.zero := by
      by_contra hne
      exact hpos (length_pos hne)
    have hz : vcross e sn = V3.zero := by
      rw [hw3, hw0]; simp [scale, V3.zero, r_lit]
    refine ⟨le_of_eq ?_, fun hc => absurd hz hc⟩
    -- the edge is parallel to the normal, and the tangent perpendicular to it
    have hz1 := congrArg V3.x hz
    have hz2 := congrArg V3.y hz
    have hz3 := congrArg V3.z hz
    simp only [vcross, V3.zero, r_lit, Rat.cast_zero] at hz1 hz2 hz3
    unfold Spec.sq at k1
    unfold Spec.inner at k3 ⊢
    have ex : e.x = (e.x * sn.x + e.y * sn.y + e.z * sn.z) * sn.x := by linear_combination (-e.x) * k1 + sn.y * hz3 - sn.z * hz2
    have ey : e.y = (e.x * sn.x + e.y * sn.y + e.z * sn.z) * sn.y := by linear_combination (-e.y) * k1 - sn.x * hz3 + sn.z * hz1
    have ez : e.z = (e.x * sn.x + e.y * sn.y + e.z * sn.z) * sn.z := by linear_combination (-e.z) * k1 + sn.x * hz2 - sn.y * hz1
    linear_combination (e.x * sn.x + e.y * sn.y + e.z * sn.z) * k3 + du.x * ex + du.y * ey + du.z * ez

/-- A hit on a triangle with vertex normals, where the first tangent points backwards. -/
example (mat : Material ℝ) (i : Interaction ℝ) (t : ℝ)
    (h : (Triangle.mk ⟨0, 0, 0⟩ ⟨1, 0, 0⟩ ⟨0, 1, 0⟩ (some (⟨0, 0, 1⟩, ⟨1, 0, 1⟩, ⟨0, 1, 1⟩)) true mat).intersect
      ⟨⟨1 / 4, 1 / 4, -1⟩, ⟨0, 0, 1⟩, 10⟩ = some (some (i, t))) : inner i.dpdu ⟨1, 0, 0⟩ ≤ 0 := by
  refine (c86_vertex_normals_refuted _ (by simp) _ ?_ i t h ?_ ⟨1, 0, 0⟩ ?_).1
  · intro e
    have := congrArg V3.z e
    norm_num [V3.zero, r_lit] at this
  · intro e
    have := congrArg V3.z e
    norm_num [rawNormal, mix, V3.zero, r_lit] at this
  · refine ⟨?_, ?_, ?_⟩ <;> simp only [trianglePoint, mix] <;> ring_nf
    · exact (hasDerivAt_id _).sub_const _
    · exact hasDerivAt_const _ _
    · exact hasDerivAt_const _ _

theorem sphere_velocity_u (c : V3 ℝ) (r k a b : ℝ) : Velocity (fun u => spherePoint c r (k * u) b) a
    ⟨-(k * (r * (Real.sin b * Real.sin (k * a)))), k * (r * (Real.sin b * Real.cos (k * a))), 0⟩ := by
  have h0 : HasDerivAt (fun u => k * u) k a := by simpa using (hasDerivAt_id a).const_mul k
  refine ⟨?_, ?_, ?_⟩
  · have := (((Real.hasDerivAt_cos (k * a)).comp a h0).const_mul (Real.sin b)).const_mul r |>.const_add c.x
    refine HasDerivAt.congr_deriv this ?_
    ring
  · have := (((Real.hasDerivAt_sin (k * a)).comp a h0).const_mul (Real.sin b)).const_mul r |>.const_add c.y
    refine HasDerivAt.congr_deriv this ?_
    ring
  · exact hasDerivAt_const a _

theorem sphere_velocity_v (c : V3 ℝ) (r k a b : ℝ) : Velocity (fun v => spherePoint c r a (k * v)) b
    ⟨k * (r * (Real.cos (k * b) * Real.cos a)), k * (r * (Real.cos (k * b) * Real.sin a)), -(k * (r * Real.sin (k * b)))⟩ := by
  have h0 : HasDerivAt (fun u => k * u) k b := by simpa using (hasDerivAt_id b).const_mul k
  refine ⟨?_, ?_, ?_⟩
  · have := (((Real.hasDerivAt_sin (k * b)).comp b h0).mul_const (Real.cos a)).const_mul r |>.const_add c.x
    refine HasDerivAt.congr_deriv this ?_
    ring
  · have := (((Real.hasDerivAt_sin (k * b)).comp b h0).mul_const (Real.sin a)).const_mul r |>.const_add c.y
    refine HasDerivAt.congr_deriv this ?_
    ring
  · have := ((Real.hasDerivAt_cos (k * b)).comp b h0).const_mul r |>.const_add c.z
    refine HasDerivAt.congr_deriv this ?_
    ring

/-- C86 for spheres, what the code computes: away from the poles the tangents are the velocities of the hit point along the longitude and the
polar angle counted as fractions of `2π` and `π`. -/
theorem c86_sphere_partial (s : Sphere ℝ) (hr : 0 < s.radius) (ray : Ray ℝ) (hd : ray.direction ≠ V3.zero)
    (i : Interaction ℝ) (t : ℝ) (h : s.intersect ray = some (i, t)) (hpole : i.p.x ≠ s.center.x ∨ i.p.y ≠ s.center.y) :
    i.p = spherePoint s.center s.radius i.uv.x i.uv.y ∧
    Velocity (fun u => spherePoint s.center s.radius (2 * Real.pi * u) i.uv.y) (i.uv.x / (2 * Real.pi)) i.dpdu ∧
    Velocity (fun v => spherePoint s.center s.radius i.uv.x (Real.pi * v)) (i.uv.y / Real.pi) i.dpdv := by
  obtain ⟨-, -, -, -, -, -, -, -, hp, -, -, hv0, hv1⟩ := c36_sphere_hit_real s hr ray hd i t h
  obtain ⟨-, -, hdu, hdv⟩ := sphere_hit_fields s hr ray hd i t h
  have hpi := Real.pi_pos
  have e1 : 2 * Real.pi * (i.uv.x / (2 * Real.pi)) = i.uv.x := by field_simp
  have e2 : Real.pi * (i.uv.y / Real.pi) = i.uv.y := by field_simp
  have hx : i.p.x - s.center.x = s.radius * (Real.sin i.uv.y * Real.cos i.uv.x) := by
    have := congrArg V3.x hp; simp only [spherePoint] at this; linarith
  have hy : i.p.y - s.center.y = s.radius * (Real.sin i.uv.y * Real.sin i.uv.x) := by
    have := congrArg V3.y hp; simp only [spherePoint] at this; linarith
  have hz : i.p.z - s.center.z = s.radius * Real.cos i.uv.y := by
    have := congrArg V3.z hp; simp only [spherePoint] at this; linarith
  have hs0 : 0 ≤ Real.sin i.uv.y := Real.sin_nonneg_of_nonneg_of_le_pi hv0 hv1
  have hs : 0 < Real.sin i.uv.y := by
    refine lt_of_le_of_ne hs0 fun e => ?_
    rw [← e] at hx hy
    rcases hpole with h | h
    · apply h; linarith
    · apply h; linarith
  refine ⟨hp, ?_, ?_⟩
  · have := sphere_velocity_u s.center s.radius (2 * Real.pi) (i.uv.x / (2 * Real.pi)) i.uv.y
    rw [e1] at this
    convert this using 1
    rw [hdu]
    simp only [Sphere.computePartialDerivative, diff, hx, hy]
    real_ops
    ext <;> simp only [] <;> ring
  · have := sphere_velocity_v s.center s.radius Real.pi i.uv.x (i.uv.y / Real.pi)
    rw [e2] at this
    convert this using 1
    rw [hdv]
    have hq : Real.sqrt ((s.radius * (Real.sin i.uv.y * Real.cos i.uv.x)) * (s.radius * (Real.sin i.uv.y * Real.cos i.uv.x)) +
        (s.radius * (Real.sin i.uv.y * Real.sin i.uv.x)) * (s.radius * (Real.sin i.uv.y * Real.sin i.uv.x))) = s.radius * Real.sin i.uv.y := by
      rw [← Real.sqrt_sq (mul_nonneg hr.le hs0)]
      congr 1
      nlinarith [Real.sin_sq_add_cos_sq i.uv.x]
    simp only [Sphere.computePartialDerivative, diff, hx, hy, hz]
    real_ops
    rw [hq]
    ext <;> simp only [] <;> field_simp

/-- C86 is false of the code: at every hit of a sphere away from the poles the tangent along the first texture coordinate is `2π` times the
velocity of the point. -/
theorem c86_sphere_refuted (s : Sphere ℝ) (hr : 0 < s.radius) (ray : Ray ℝ) (hd : ray.direction ≠ V3.zero)
    (i : Interaction ℝ) (t : ℝ) (h : s.intersect ray = some (i, t)) (hpole : i.p.x ≠ s.center.x ∨ i.p.y ≠ s.center.y) :
    ¬ Velocity (fun u => spherePoint s.center s.radius u i.uv.y) i.uv.x i.dpdu := by
  intro hv
  obtain ⟨hp, h1, -⟩ := c86_sphere_partial s hr ray hd i t h hpole
  have e1 : 2 * Real.pi * (i.uv.x / (2 * Real.pi)) = i.uv.x := by have := Real.pi_pos; field_simp
  have a := Velocity.unique h1 (sphere_velocity_u s.center s.radius (2 * Real.pi) (i.uv.x / (2 * Real.pi)) i.uv.y)
  have b := Velocity.unique hv (by simpa only [one_mul] using sphere_velocity_u s.center s.radius 1 i.uv.x i.uv.y)
  rw [e1] at a
  rw [a] at b
  have hx := congrArg V3.x b
  have hy := congrArg V3.y b
  simp only [] at hx hy
  have hk : 2 * Real.pi - 1 ≠ 0 := by have := Real.two_le_pi; intro e; linarith
  have px := congrArg V3.x hp
  have py := congrArg V3.y hp
  simp only [spherePoint] at px py
  rcases hpole with hq | hq
  · apply hq
    have : (2 * Real.pi - 1) * (s.radius * (Real.sin i.uv.y * Real.cos i.uv.x)) = 0 := by linarith
    rcases mul_eq_zero.1 this with h | h
    · exact absurd h hk
    · linarith
  · apply hq
    have : (2 * Real.pi - 1) * (s.radius * (Real.sin i.uv.y * Real.sin i.uv.x)) = 0 := by linarith
    rcases mul_eq_zero.1 this with h | h
    · exact absurd h hk
    · linarith

/-- A hit away from the poles: the sphere and ray of the unit test in the code. -/
example (mat : Material ℝ) : ∃ i t', (Sphere.mk ⟨2, 2, 2⟩ 1 mat).intersect ⟨⟨2, 0, 2⟩, ⟨0, 1, 0⟩, 10⟩ = some (i, t') ∧ i.p.y ≠ 2 := by
  have hd : (V3.mk (0 : ℝ) 1 0) ≠ V3.zero := by intro h; have := congrArg V3.y h; norm_num [V3.zero, r_lit] at this
  obtain ⟨i, t, h, -⟩ := c37_sphere_complete (Sphere.mk ⟨2, 2, 2⟩ 1 mat) ⟨⟨2, 0, 2⟩, ⟨0, 1, 0⟩, 10⟩ hd 1 (by norm_num) (by norm_num)
    (by norm_num [OnSphere, pointAt])
  refine ⟨i, t, h, fun e => ?_⟩
  obtain ⟨-, -, h2, h3, -⟩ := c36_sphere_hit_real _ (by norm_num) _ hd i t h
  rw [h3] at e
  simp only [OnSphere, pointAt] at h2 e
  norm_num at h2 e
  rw [e] at h2
  norm_num at h2

/-! ### Textures on surfaces -/

theorem toI64_real {x : ℝ} (h : InRange x) : toI64 (Scalar.floor x) = square x := by
  have h1 : (-2 ^ 63 : ℤ) ≤ ⌊x⌋ := Int.le_floor.2 (by have := h.1; norm_num at this ⊢; exact this)
  have h2 : ⌊x⌋ < (2 ^ 63 : ℤ) := Int.floor_lt.2 (by have := h.2; norm_num at this ⊢; exact this)
  unfold toI64 square
  have : (Scalar.floor x : ℝ) = (⌊x⌋ : ℝ) := rfl
  rw [this]
  change satInt (truncInt ((⌊x⌋ : ℤ) : ℝ)) (-2 ^ 63) (2 ^ 63 - 1) = ⌊x⌋
  have ht : truncInt ((⌊x⌋ : ℤ) : ℝ) = ⌊x⌋ := by unfold truncInt; split <;> simp
  rw [ht]
  unfold satInt
  split
  · omega
  · split <;> omega

/-- C73 on a triangle: the colour of a checkerboard at a hit, from the position of the hit on the triangle.  The squares have the sides `1/su` and
`1/sv` in texture coordinates and are shifted by `du` and `dv`. -/
theorem c73_on_triangle {T : Type} (s : Triangle ℝ) (ray : Ray ℝ) (hd : ray.direction ≠ V3.zero) (i : Interaction ℝ) (t : ℝ)
    (h : s.intersect ray = some (some (i, t))) (su sv du dv : ℝ) (t1 t2 : T) :
    ∃ u v, 0 ≤ v ∧ v ≤ u ∧ u ≤ 1 ∧ i.p = trianglePoint s u v ∧ (InRange (su * u + du) → InRange (sv * v + dv) →
      checkerboard (uvMapping su sv du dv) t1 t2 i = if Even (square (su * u + du) + square (sv * v + dv)) then t1 else t2) := by
  obtain ⟨-, b0, b1, b2, hw, huv, hi⟩ := triangle_hit_fields s ray hd i t h
  refine ⟨b1 + b2, b2, hw.2.2.1, by linarith [hw.2.1], by linarith [hw.1, hw.2.2.2], ?_, fun hx hy => ?_⟩
  · have h0 : b0 = 1 - (b1 + b2) := by linarith [hw.2.2.2]
    rw [hi]
    simp only [Triangle.interactionAt, trianglePoint, mix, V3.add, V3.smul]
    real_ops
    rw [h0]
    ext <;> simp only [] <;> ring
  · have e : uvMapping su sv du dv i = ⟨su * (b1 + b2) + du, sv * b2 + dv⟩ := by
      unfold uvMapping
      rw [huv]
      real_ops
      ext <;> simp only [] <;> ring
    simp only [checkerboard, e, toI64_real hx, toI64_real hy, tmod_two_wrap]

/-- C73 on a sphere: the squares are given by the longitude and the polar angle of the hit, in radians. -/
theorem c73_on_sphere {T : Type} (s : Sphere ℝ) (hr : 0 < s.radius) (ray : Ray ℝ) (hd : ray.direction ≠ V3.zero) (i : Interaction ℝ) (t : ℝ)
    (h : s.intersect ray = some (i, t)) (su sv du dv : ℝ) (t1 t2 : T) :
    ∃ u v, 0 ≤ u ∧ u < 2 * Real.pi ∧ 0 ≤ v ∧ v ≤ Real.pi ∧ i.p = spherePoint s.center s.radius u v ∧
      (InRange (su * u + du) → InRange (sv * v + dv) →
        checkerboard (uvMapping su sv du dv) t1 t2 i = if Even (square (su * u + du) + square (sv * v + dv)) then t1 else t2) := by
  obtain ⟨-, -, -, -, -, -, -, -, hp, hu0, hu1, hv0, hv1⟩ := c36_sphere_hit_real s hr ray hd i t h
  refine ⟨i.uv.x, i.uv.y, hu0, hu1, hv0, hv1, hp, fun hx hy => ?_⟩
  have e : uvMapping su sv du dv i = ⟨su * i.uv.x + du, sv * i.uv.y + dv⟩ := by
    unfold uvMapping
    real_ops
    ext <;> simp only [] <;> ring
  simp only [checkerboard, e, toI64_real hx, toI64_real hy, tmod_two_wrap]

/-- C73 in space: with a scaling by `a` the texture fills space with cubes of side `1/a`, whatever the surface. -/
theorem c73_in_space {T : Type} (a b c : ℝ) (ha : a ≠ 0) (hb : b ≠ 0) (hc : c ≠ 0) (i : Interaction ℝ) (t1 t2 : T)
    (hx : InRange (a * i.p.x)) (hy : InRange (b * i.p.y)) (hz : InRange (c * i.p.z)) :
    checkerboard3D (identityMapping3D (Transform.scale a b c)) t1 t2 i =
      if Even (square (a * i.p.x) + square (b * i.p.y) + square (c * i.p.z)) then t1 else t2 := by
  simp only [checkerboard3D, identityMapping3D, (c80_scale a b c ha hb hc i.p).1, toI64_real hx, toI64_real hy, toI64_real hz, tmod_two_wrap,
    wrapI64_even]

/-- Points in different halves of a triangle that is covered with two columns of squares: the colours differ. -/
example (t1 t2 : Bool) (i : Interaction ℝ) (hi : i.uv = ⟨3 / 4, 1 / 4⟩) (j : Interaction ℝ) (hj : j.uv = ⟨1 / 4, 1 / 4⟩) :
    checkerboard (uvMapping 2 2 0 0) t1 t2 i = t2 ∧ checkerboard (uvMapping 2 2 0 0) t1 t2 j = t1 := by
  have e : ∀ k : Interaction ℝ, uvMapping 2 2 0 0 k = ⟨2 * k.uv.x, 2 * k.uv.y⟩ := by
    intro k; unfold uvMapping; real_ops; ext <;> simp only [] <;> ring
  have r : ∀ x : ℝ, 0 ≤ x → x ≤ 2 → InRange x := fun x h1 h2 => ⟨by norm_num; linarith, by norm_num; linarith⟩
  have f0 : square (2 * (1 / 4)) = 0 := by unfold square; norm_num
  have f1 : square (2 * (3 / 4)) = 1 := by unfold square; rw [Int.floor_eq_iff]; norm_num
  constructor
  · simp only [checkerboard, e, hi, toI64_real (r (2 * (3 / 4)) (by norm_num) (by norm_num)), toI64_real (r (2 * (1 / 4)) (by norm_num) (by norm_num)),
      tmod_two_wrap, f0, f1]
    norm_num
  · simp only [checkerboard, e, hj, toI64_real (r (2 * (1 / 4)) (by norm_num) (by norm_num)), tmod_two_wrap, f0]
    norm_num

end PT
