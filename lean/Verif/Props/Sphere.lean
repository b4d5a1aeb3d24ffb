import Verif.Model.Sphere
import Verif.Props.Triangle
import Verif.Props.Util

/-!
# Spheres: C36, C37, C40, C41 and the parametrization of hits
-/

namespace PT
open Sphere

namespace Spec
/-- The point is on the sphere with this centre and radius. -/
def OnSphere (c : V3 ℝ) (r : ℝ) (p : V3 ℝ) : Prop := (p.x - c.x) ^ 2 + (p.y - c.y) ^ 2 + (p.z - c.z) ^ 2 = r ^ 2
/-- The point of the sphere with azimuth `phi` and polar angle `theta`. -/
noncomputable def spherePoint (c : V3 ℝ) (r phi theta : ℝ) : V3 ℝ :=
  ⟨c.x + r * (Real.sin theta * Real.cos phi), c.y + r * (Real.sin theta * Real.sin phi), c.z + r * Real.cos theta⟩
end Spec
open Spec

/-- Coefficients of the quadratic in exact arithmetic and what the code does with its roots. -/
theorem hasIntersection_real (s : Sphere ℝ) (o d : V3 ℝ) (tm : ℝ) :
    s.hasIntersection ⟨o, d, tm⟩ =
      match quadratic (Spec.sq d) (2 * Spec.inner d o) (Spec.sq o - s.radius ^ 2) with
      | none => none
      | some (t0, t1) => if 0 < t0 ∧ t0 < tm then some t0 else if 0 < t1 ∧ t1 < tm then some t1 else none := by
  have e1 : Spec.sq d = d.x * d.x + d.y * d.y + d.z * d.z := by simp only [Spec.sq]; ring
  have e2 : Spec.sq o - s.radius ^ 2 = o.x * o.x + o.y * o.y + o.z * o.z - s.radius * s.radius := by simp only [Spec.sq]; ring
  rw [e1, e2]
  unfold hasIntersection Spec.inner
  simp only [Widen.up, Widen.down, id]
  real_ops
  cases quadratic (d.x * d.x + d.y * d.y + d.z * d.z) (2 * (d.x * o.x + d.y * o.y + d.z * o.z))
    (o.x * o.x + o.y * o.y + o.z * o.z - s.radius * s.radius) with
  | none => rfl
  | some p => simp only [Bool.and_eq_true, decide_eq_true_eq]

/-- The parameters at which the line meets the sphere are the roots of the quadratic. -/
theorem onSphere_iff (s : Sphere ℝ) (ray : Ray ℝ) (t : ℝ) :
    OnSphere s.center s.radius (pointAt ray t) ↔
      Spec.sq ray.direction * t ^ 2 + 2 * Spec.inner ray.direction (s.worldToLocal ray.origin) * t +
        (Spec.sq (s.worldToLocal ray.origin) - s.radius ^ 2) = 0 := by
  unfold OnSphere pointAt worldToLocal V3.add V3.neg Spec.sq Spec.inner
  real_ops
  constructor <;> intro h <;> linear_combination h

/-- What `Sphere::intersect` computes in exact arithmetic: the smallest parameter in `(0, t_max)` at which the ray meets the
sphere. -/
theorem hasIntersection_spec (s : Sphere ℝ) (ray : Ray ℝ) (hd : ray.direction ≠ V3.zero) :
    (∀ t, s.hasIntersection ⟨s.worldToLocal ray.origin, ray.direction, ray.tMax⟩ = some t →
      0 < t ∧ t < ray.tMax ∧ OnSphere s.center s.radius (pointAt ray t) ∧
      ∀ t', 0 < t' → t' < ray.tMax → OnSphere s.center s.radius (pointAt ray t') → t ≤ t') ∧
    (s.hasIntersection ⟨s.worldToLocal ray.origin, ray.direction, ray.tMax⟩ = none →
      ∀ t', 0 < t' → t' < ray.tMax → ¬ OnSphere s.center s.radius (pointAt ray t')) := by
  have ha : Spec.sq ray.direction ≠ 0 := (sq_pos hd).ne'
  rw [hasIntersection_real]
  simp only [onSphere_iff]
  generalize Spec.sq ray.direction = a at *
  generalize 2 * Spec.inner ray.direction (s.worldToLocal ray.origin) = b at *
  generalize Spec.sq (s.worldToLocal ray.origin) - s.radius ^ 2 = c at *
  by_cases hbc : b = 0 ∧ c = 0
  · obtain ⟨rfl, rfl⟩ := hbc
    have hq : quadratic a 0 0 = some (0, 0) := by
      unfold quadratic; real_ops; simp
    rw [hq]
    have : ∀ t : ℝ, a * t ^ 2 + 0 * t + 0 = 0 → t = 0 := by
      intro t h
      have : a * t ^ 2 = 0 := by linarith
      simpa [ha] using this
    simp only [lt_irrefl, false_and, if_false, reduceCtorEq, IsEmpty.forall_iff, implies_true, true_and, forall_const]
    intro t' h0 _ h
    rw [this t' h] at h0
    exact lt_irrefl _ h0
  · obtain ⟨h1, h2⟩ := c72_quadratic a b c ha hbc
    cases hq : quadratic a b c with
    | none =>
      have := h1.1 hq
      simp only [reduceCtorEq, IsEmpty.forall_iff, implies_true, true_and, forall_const]
      intro t' _ _ h
      exact this ⟨t', h⟩
    | some p =>
      obtain ⟨t0, t1⟩ := p
      obtain ⟨hle, hf⟩ := h2 t0 t1 hq
      have root : ∀ t, a * t ^ 2 + b * t + c = 0 ↔ t = t0 ∨ t = t1 := by
        intro t
        rw [hf, mul_eq_zero, mul_eq_zero, sub_eq_zero, sub_eq_zero]
        simp [ha]
      simp only [root]
      by_cases c0 : 0 < t0 ∧ t0 < ray.tMax
      · simp only [c0, and_self, if_true, Option.some.injEq, reduceCtorEq, IsEmpty.forall_iff, and_true]
        rintro t rfl
        refine ⟨c0.1, c0.2, Or.inl rfl, ?_⟩
        rintro t' _ _ (rfl | rfl)
        · exact le_refl _
        · exact hle
      · simp only [c0, if_false]
        by_cases c1 : 0 < t1 ∧ t1 < ray.tMax
        · simp only [c1, and_self, if_true, Option.some.injEq, reduceCtorEq, IsEmpty.forall_iff, and_true]
          rintro t rfl
          refine ⟨c1.1, c1.2, Or.inr rfl, ?_⟩
          rintro t' h h' (rfl | rfl)
          · exact absurd ⟨h, h'⟩ c0
          · exact le_refl _
        · simp only [c1, if_false, reduceCtorEq, IsEmpty.forall_iff, implies_true, true_and, forall_const]
          rintro t' h h' (rfl | rfl)
          · exact c0 ⟨h, h'⟩
          · exact c1 ⟨h, h'⟩

theorem computeInteraction_real (s : Sphere ℝ) (hr : 0 < s.radius) (ray : Ray ℝ) (t : ℝ)
    (h : OnSphere s.center s.radius (pointAt ray t)) :
    let q := diff (pointAt ray t) s.center
    let i := (s.computeInteraction ⟨s.worldToLocal ray.origin, ray.direction, ray.tMax⟩ t).1
    i.p = pointAt ray t ∧ i.n = scale (1 / s.radius) q ∧ i.sn = i.n ∧ i.wo = scale (-1) ray.direction ∧
    i.dpdu = (computePartialDerivative q).1 ∧ i.dpdv = (computePartialDerivative q).2 ∧
    i.uv = ⟨(let px := if q.x = 0 ∧ q.y = 0 then 1 / 100000 * s.radius else q.x
             let phi := Complex.arg ⟨px, q.y⟩
             if phi < 0 then phi + Real.pi * 2 else phi), Real.arccos (q.z / s.radius)⟩ ∧ Spec.sq q = s.radius ^ 2 := by
  intro q i
  have hq : (Ray.mk (s.worldToLocal ray.origin) ray.direction ray.tMax).position t = q := by
    unfold Ray.position worldToLocal V3.add V3.neg V3.smul
    real_ops
    change _ = diff (pointAt ray t) s.center
    unfold diff pointAt
    ext <;> simp only [] <;> ring
  have hsq : Spec.sq q = s.radius ^ 2 := h
  have hlen : q.length = s.radius := by
    rw [length_eq, hsq, Real.sqrt_sq hr.le]
  have hscale : q.smul (s.radius /. q.length) = q := by
    rw [hlen]
    unfold V3.smul
    real_ops
    rw [div_self hr.ne']
    ext <;> simp only [mul_one]
  have hz : q.z ^ 2 ≤ s.radius ^ 2 := by rw [← hsq]; unfold Spec.sq; nlinarith [sq_nonneg q.x, sq_nonneg q.y]
  have hz' := abs_le_of_sq_le_sq' hz hr.le
  have hclamp : clamp (q.z / s.radius) (-1) 1 = q.z / s.radius := by
    unfold clamp
    real_ops
    rw [if_neg, if_neg]
    · rw [not_lt, div_le_one hr]; exact hz'.2
    · rw [not_lt, le_div_iff₀ hr]; linarith [hz'.1]
  have hi : i = (s.computeInteraction ⟨s.worldToLocal ray.origin, ray.direction, ray.tMax⟩ t).1 := rfl
  clear_value i
  unfold computeInteraction at hi
  simp only [hq, hscale] at hi
  subst hi
  refine ⟨?_, ?_, rfl, ?_, rfl, rfl, ?_, hsq⟩
  · change localToWorld s (diff (pointAt ray t) s.center) = _
    unfold localToWorld V3.add diff
    real_ops
    ext <;> simp only [] <;> ring
  · unfold V3.normalize scale
    rw [hlen]
    real_ops
    ext <;> simp only [] <;> ring
  · unfold V3.neg scale
    real_ops
    ext <;> simp only [] <;> ring
  · real_ops
    rw [hclamp]
    simp only [Bool.and_eq_true, decide_eq_true_eq]

/-- C36, exact arithmetic: for every sphere of positive radius and every ray with non-zero direction, if `Sphere::intersect`
reports interaction `i` at parameter `t` then `0 < t < t_max`, the ray's point at `t` is on the sphere and is the reported
point, the reported normals are the outward unit normal at that point, and the reported `uv` are its spherical coordinates. -/
theorem c36_sphere_hit_real (s : Sphere ℝ) (hr : 0 < s.radius) (ray : Ray ℝ) (hd : ray.direction ≠ V3.zero)
    (i : Interaction ℝ) (t : ℝ) (h : s.intersect ray = some (i, t)) :
    0 < t ∧ t < ray.tMax ∧ OnSphere s.center s.radius (pointAt ray t) ∧ i.p = pointAt ray t ∧
    i.n = scale (1 / s.radius) (diff i.p s.center) ∧ Spec.sq i.n = 1 ∧ i.sn = i.n ∧ i.wo = scale (-1) ray.direction ∧
    i.p = spherePoint s.center s.radius i.uv.x i.uv.y ∧
    0 ≤ i.uv.x ∧ i.uv.x < 2 * Real.pi ∧ 0 ≤ i.uv.y ∧ i.uv.y ≤ Real.pi := by
  unfold intersect at h
  simp only [Option.map_eq_some_iff] at h
  obtain ⟨t', ht', he⟩ := h
  have htt : t = t' := by
    have : (s.computeInteraction ⟨s.worldToLocal ray.origin, ray.direction, ray.tMax⟩ t').2 = t' := rfl
    change s.computeInteraction ⟨s.worldToLocal ray.origin, ray.direction, ray.tMax⟩ t' = _ at he
    rw [he] at this
    exact this
  subst htt
  obtain ⟨h0, h1, h2, -⟩ := (hasIntersection_spec s ray hd).1 t ht'
  obtain ⟨g1, g2, g3, g4, -, -, g5, g6⟩ := computeInteraction_real s hr ray t h2
  have hi : (s.computeInteraction ⟨s.worldToLocal ray.origin, ray.direction, ray.tMax⟩ t).1 = i := by
    change s.computeInteraction ⟨s.worldToLocal ray.origin, ray.direction, ray.tMax⟩ t = _ at he
    rw [he]
  rw [hi] at g1 g2 g3 g4 g5
  refine ⟨h0, h1, h2, g1, by rw [g2, g1], ?_, g3, g4, ?_⟩
  · rw [g2]
    have : ∀ c v, Spec.sq (scale c v) = c ^ 2 * Spec.sq v := by intro c v; unfold Spec.sq scale; ring
    rw [this, g6]
    field_simp
  · rw [g5, g1]
    generalize hq : diff (pointAt ray t) s.center = q at *
    have hp : pointAt ray t = ⟨s.center.x + q.x, s.center.y + q.y, s.center.z + q.z⟩ := by
      rw [← hq]; unfold diff; ext <;> simp only [] <;> ring
    rw [hp]
    unfold Spec.sq at g6
    have hsin : s.radius * Real.sin (Real.arccos (q.z / s.radius)) = Real.sqrt (q.x ^ 2 + q.y ^ 2) := by
      rw [Real.sin_arccos, ← Real.sqrt_sq hr.le, ← Real.sqrt_mul (sq_nonneg _), Real.sqrt_sq hr.le]
      congr 1
      field_simp
      linarith
    have hz : q.z ^ 2 ≤ s.radius ^ 2 := by nlinarith [sq_nonneg q.x, sq_nonneg q.y]
    have hz' := abs_le_of_sq_le_sq' hz hr.le
    have hcos : s.radius * Real.cos (Real.arccos (q.z / s.radius)) = q.z := by
      rw [Real.cos_arccos]
      · field_simp
      · rw [le_div_iff₀ hr]; linarith [hz'.1]
      · rw [div_le_one hr]; exact hz'.2
    have hnorm : ∀ x y : ℝ, ‖(⟨x, y⟩ : ℂ)‖ = Real.sqrt (x ^ 2 + y ^ 2) := by
      intro x y; rw [Complex.norm_def, Complex.normSq_mk]; congr 1; ring
    set px := if q.x = 0 ∧ q.y = 0 then 1 / 100000 * s.radius else q.x with hpx
    have harg : Real.sqrt (q.x ^ 2 + q.y ^ 2) * Real.cos (Complex.arg ⟨px, q.y⟩) = q.x ∧
        Real.sqrt (q.x ^ 2 + q.y ^ 2) * Real.sin (Complex.arg ⟨px, q.y⟩) = q.y := by
      by_cases h0 : q.x = 0 ∧ q.y = 0
      · rw [h0.1, h0.2]; simp
      · rw [hpx, if_neg h0]
        have hne : (⟨q.x, q.y⟩ : ℂ) ≠ 0 := by
          intro e
          apply h0
          exact ⟨congrArg Complex.re e, congrArg Complex.im e⟩
        constructor
        · have := Complex.norm_mul_cos_arg ⟨q.x, q.y⟩
          rw [hnorm] at this; exact this
        · have := Complex.norm_mul_sin_arg ⟨q.x, q.y⟩
          rw [hnorm] at this; exact this
    simp only [] 
    set A := Complex.arg ⟨px, q.y⟩ with hA
    have hA1 := Complex.neg_pi_lt_arg ⟨px, q.y⟩
    have hA2 := Complex.arg_le_pi ⟨px, q.y⟩
    rw [← hA] at hA1 hA2
    have hphi : ∃ phi, (if A < 0 then A + Real.pi * 2 else A) = phi ∧ Real.cos phi = Real.cos A ∧ Real.sin phi = Real.sin A ∧
        0 ≤ phi ∧ phi < 2 * Real.pi := by
      have := Real.pi_pos
      by_cases h0 : A < 0
      · refine ⟨A + Real.pi * 2, by rw [if_pos h0], ?_, ?_, by linarith, by linarith⟩
        · rw [mul_comm]; exact Real.cos_add_two_pi A
        · rw [mul_comm]; exact Real.sin_add_two_pi A
      · exact ⟨A, by rw [if_neg h0], rfl, rfl, not_lt.1 h0, by linarith⟩
    obtain ⟨phi, e, ec, es, l1, l2⟩ := hphi
    rw [e]
    refine ⟨?_, l1, l2, Real.arccos_nonneg _, Real.arccos_le_pi _⟩
    unfold spherePoint
    ext
    · simp only []
      rw [ec, ← mul_assoc, hsin, harg.1]
    · simp only []
      rw [es, ← mul_assoc, hsin, harg.2]
    · simp only []
      rw [hcos]

/-- C37, exact arithmetic: `Sphere::intersect` reports a hit whenever the ray meets the sphere at some parameter in
`(0, t_max)`, and then the reported parameter is the smallest such parameter. -/
theorem c37_sphere_complete (s : Sphere ℝ) (ray : Ray ℝ) (hd : ray.direction ≠ V3.zero) (t : ℝ) (h0 : 0 < t) (h1 : t < ray.tMax)
    (h : OnSphere s.center s.radius (pointAt ray t)) :
    ∃ i t', s.intersect ray = some (i, t') ∧ t' ≤ t := by
  obtain ⟨k1, k2⟩ := hasIntersection_spec s ray hd
  cases he : s.hasIntersection ⟨s.worldToLocal ray.origin, ray.direction, ray.tMax⟩ with
  | none => exact absurd h (k2 he t h0 h1)
  | some t' =>
    refine ⟨(s.computeInteraction ⟨s.worldToLocal ray.origin, ray.direction, ray.tMax⟩ t').1, t', ?_, (k1 t' he).2.2.2 t h0 h1 h⟩
    unfold intersect
    simp only []

    rw [he]
    rfl

/-- A ray from outside through the centre of a sphere, and a ray from inside. -/
example (mat : Material ℝ) : ∃ i t', (Sphere.mk ⟨2, 2, 2⟩ 1 mat).intersect ⟨⟨2, 0, 2⟩, ⟨0, 1, 0⟩, 10⟩ = some (i, t') ∧ t' ≤ 1 := by
  apply c37_sphere_complete _ _ _ 1 (by norm_num) (by norm_num)
  · norm_num [OnSphere, pointAt]
  · intro h
    have := congrArg V3.y h
    norm_num [V3.zero, r_lit] at this

/-- C40 for spheres, in any arithmetic. -/
theorem c40_sphere {α β : Type} [Scalar α] [Libm α] [Scalar β] [Libm β] [Widen α β] (s : Sphere α) (ray : Ray α) :
    s.toShape.intersect ray = some (s.intersect ray) ∧ s.toShape.intersectP ray = some (s.intersect ray).isSome := by
  refine ⟨rfl, ?_⟩
  change some (s.intersectP ray) = _
  unfold intersectP intersect
  simp only [Option.isSome_map]

end PT
