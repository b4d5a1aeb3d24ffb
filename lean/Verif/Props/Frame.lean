import Verif.Props.Sphere
import Verif.Props.BsdfMix
import Mathlib.LinearAlgebra.Matrix.NonsingularInverse
import Mathlib.Data.Matrix.Mul
import Mathlib.Analysis.SpecialFunctions.Trigonometric.Deriv

/-!
# Shading frames of hits: C74, and the sphere's partial derivatives: C75
-/

namespace PT
open Spec

/-- In an orthonormal frame the other composition is the identity as well. -/
theorem frame_inverse' (b : BSDF ℝ) (h : Frame b) (v : V3 ℝ) : b.localToWorld (b.worldToLocal v) = v := by
  obtain ⟨h1, h2, h3, h4, h5, h6⟩ := h
  simp only [Spec.sq, Spec.inner] at *
  let M : _root_.Matrix (Fin 3) (Fin 3) ℝ := !![b.s.x, b.s.y, b.s.z; b.t.x, b.t.y, b.t.z; b.sn.x, b.sn.y, b.sn.z]
  have hM : M * M.transpose = 1 := by
    ext i j
    fin_cases i <;> fin_cases j <;> simp [M, _root_.Matrix.mul_apply, Fin.sum_univ_three] <;> linarith
  have hM' : M.transpose * M = 1 := mul_eq_one_comm.1 hM
  have e := fun i j => congrFun (congrFun hM' i) j
  simp only [M, _root_.Matrix.mul_apply, Fin.sum_univ_three, _root_.Matrix.transpose_apply, _root_.Matrix.one_apply] at e
  have e00 := e 0 0
  have e01 := e 0 1
  have e02 := e 0 2
  have e11 := e 1 1
  have e12 := e 1 2
  have e22 := e 2 2
  simp at e00 e01 e02 e11 e12 e22
  simp only [BSDF.worldToLocal, BSDF.localToWorld, V3.dot]; real_ops
  ext <;> simp only []
  · linear_combination v.x * e00 + v.y * e01 + v.z * e02
  · linear_combination v.x * e01 + v.y * e11 + v.z * e12
  · linear_combination v.x * e02 + v.y * e12 + v.z * e22

/-- A unit shading normal and a tangent perpendicular to it give an orthonormal frame. -/
theorem frame_of_perp (i : Interaction ℝ) (h1 : Spec.sq i.sn = 1) (h2 : i.dpdu ≠ V3.zero) (h3 : Spec.inner i.dpdu i.sn = 0) :
    Frame (BSDF.new i) := by
  have hl := (length_pos h2).ne'
  have hs : Spec.sq i.dpdu.normalize = 1 := sq_normalize h2
  have hp : Spec.inner i.dpdu.normalize i.sn = 0 := by
    unfold Spec.inner V3.normalize at *
    real_ops
    field_simp
    linarith
  unfold BSDF.new Frame
  simp only []
  generalize i.dpdu.normalize = s at *
  generalize i.sn = n at *
  unfold Spec.sq Spec.inner V3.cross at *
  real_ops
  refine ⟨hs, ?_, h1, by ring, hp, by ring⟩
  linear_combination hs * (n.x ^ 2 + n.y ^ 2 + n.z ^ 2) + h1 - (s.x * n.x + s.y * n.y + s.z * n.z) * hp

namespace Spec
/-- The shading frame that materials build from an interaction is orthonormal, has the shading normal as its third axis, and
the two changes of coordinates are inverse to each other. -/
def GoodFrame (i : Interaction ℝ) : Prop :=
  Frame (BSDF.new i) ∧ (BSDF.new i).sn = i.sn ∧
  ∀ v, (BSDF.new i).worldToLocal ((BSDF.new i).localToWorld v) = v ∧ (BSDF.new i).localToWorld ((BSDF.new i).worldToLocal v) = v
end Spec

theorem goodFrame_of_perp (i : Interaction ℝ) (h1 : Spec.sq i.sn = 1) (h2 : i.dpdu ≠ V3.zero) (h3 : Spec.inner i.dpdu i.sn = 0) :
    GoodFrame i :=
  have h := frame_of_perp i h1 h2 h3
  ⟨h, rfl, fun v => ⟨frame_inverse _ h v, frame_inverse' _ h v⟩⟩

/-- The interaction of a sphere hit in terms of the hit point relative to the centre. -/
theorem sphere_hit_fields (s : Sphere ℝ) (hr : 0 < s.radius) (ray : Ray ℝ) (hd : ray.direction ≠ V3.zero)
    (i : Interaction ℝ) (t : ℝ) (h : s.intersect ray = some (i, t)) :
    i.n = scale (1 / s.radius) (diff i.p s.center) ∧ i.sn = i.n ∧
    i.dpdu = (Sphere.computePartialDerivative (diff i.p s.center)).1 ∧
    i.dpdv = (Sphere.computePartialDerivative (diff i.p s.center)).2 := by
  obtain ⟨-, -, h2, hp, hn, -, hsn, -⟩ := c36_sphere_hit_real s hr ray hd i t h
  refine ⟨hn, hsn, ?_⟩
  unfold Sphere.intersect at h
  simp only [Option.map_eq_some_iff] at h
  obtain ⟨t', ht', he⟩ := h
  have htt : t' = t := congrArg Prod.snd he
  subst htt
  have hi : (s.computeInteraction ⟨s.worldToLocal ray.origin, ray.direction, ray.tMax⟩ t').1 = i := congrArg Prod.fst he
  obtain ⟨-, -, -, -, g1, g2, -, -⟩ := computeInteraction_real s hr ray t' h2
  rw [hi] at g1 g2
  rw [hp]
  exact ⟨g1, g2⟩

/-- C74 for spheres: a hit that is not at a pole (not straight above or below the centre) has an orthonormal shading frame. -/
theorem c74_sphere_frame (s : Sphere ℝ) (hr : 0 < s.radius) (ray : Ray ℝ) (hd : ray.direction ≠ V3.zero)
    (i : Interaction ℝ) (t : ℝ) (h : s.intersect ray = some (i, t)) (hpole : i.p.x ≠ s.center.x ∨ i.p.y ≠ s.center.y) :
    GoodFrame i := by
  obtain ⟨-, -, -, -, -, hsq, -⟩ := c36_sphere_hit_real s hr ray hd i t h
  obtain ⟨hn, hsn, hdu, -⟩ := sphere_hit_fields s hr ray hd i t h
  apply goodFrame_of_perp
  · rw [hsn]; exact hsq
  · intro e
    rw [hdu] at e
    have hx := congrArg V3.x e
    have hy := congrArg V3.y e
    simp only [Sphere.computePartialDerivative, V3.zero, diff] at hx hy
    real_ops at hx hy
    have hp := Real.pi_ne_zero
    rcases hpole with h | h
    · apply h
      have : i.p.x - s.center.x = 0 := by simpa [hp] using hy
      linarith
    · apply h
      have : i.p.y - s.center.y = 0 := by simpa [hp] using hx
      linarith
  · rw [hsn, hdu, hn]
    simp only [Sphere.computePartialDerivative, scale, diff, Spec.inner]
    real_ops
    ring

namespace Spec
/-- The shading normal interpolated at the weights given by `uv`, before normalization (zero if there are no vertex normals). -/
noncomputable def rawNormal (s : Triangle ℝ) (uv : V2 ℝ) : V3 ℝ :=
  s.vertexNormals.elim V3.zero fun n => mix (1 - uv.x) (uv.x - uv.y) uv.y n.1 n.2.1 n.2.2
end Spec

theorem partials_real (s : Triangle ℝ) : s.partials = (diff s.v1 s.v0, diff s.v2 s.v1) := by
  unfold Triangle.partials Triangle.getUv V2.sub V3.sub V3.smul V3.sdiv V3.add epsilon diff
  real_ops
  norm_num

theorem sq_scale (c : ℝ) (v : V3 ℝ) : Spec.sq (scale c v) = c ^ 2 * Spec.sq v := by unfold Spec.sq scale; ring

theorem normalize_scale (v : V3 ℝ) : v.normalize = scale (1 / v.length) v := by
  unfold V3.normalize scale
  real_ops
  ext <;> simp only [] <;> ring

theorem sdiv_scale (v : V3 ℝ) (c : ℝ) : v.sdiv c = scale (1 / c) v := by
  unfold V3.sdiv scale
  real_ops
  ext <;> simp only [] <;> ring

/-- Frame of `construct_coordinate_system` on a unit vector. -/
theorem coordinate_system_perp (v : V3 ℝ) (h : Spec.sq v = 1) :
    v.constructCoordinateSystem.1 ≠ V3.zero ∧ Spec.inner v.constructCoordinateSystem.1 v = 0 := by
  unfold V3.constructCoordinateSystem
  unfold Spec.sq at h
  simp only []
  by_cases hc : |v.x| > |v.y|
  · have hx : v.x ≠ 0 := by
      intro e; rw [e, abs_zero] at hc; exact absurd hc (not_lt.2 (abs_nonneg _))
    have hs : 0 < Real.sqrt (v.x * v.x + v.z * v.z) := Real.sqrt_pos.2 (by nlinarith [sq_pos_of_ne_zero hx, sq_nonneg v.z])
    rw [if_pos (by real_ops; exact hc)]
    constructor
    · intro e
      have := congrArg V3.z e
      unfold V3.sdiv V3.zero at this
      real_ops at this
      simp [hx, hs.ne'] at this
    · unfold V3.sdiv Spec.inner
      real_ops
      field_simp
      ring
  · have hyz : 0 < v.y * v.y + v.z * v.z := by
      by_contra hle
      have hy : v.y = 0 := by nlinarith [sq_nonneg v.y, sq_nonneg v.z]
      have hz : v.z = 0 := by nlinarith [sq_nonneg v.y, sq_nonneg v.z]
      rw [hy, abs_zero, gt_iff_lt, abs_pos, not_not] at hc
      rw [hc, hy, hz] at h
      norm_num at h
    have hs : 0 < Real.sqrt (v.y * v.y + v.z * v.z) := Real.sqrt_pos.2 hyz
    rw [if_neg (by real_ops; exact hc)]
    constructor
    · intro e
      have hy := congrArg V3.y e
      have hz := congrArg V3.z e
      unfold V3.sdiv V3.zero at hy hz
      real_ops at hy hz
      simp [hs.ne'] at hy hz
      rw [hy, hz] at hyz
      norm_num at hyz
    · unfold V3.sdiv Spec.inner
      real_ops
      field_simp
      ring

/-- The shading part of a triangle hit. -/
theorem shading_perp (s : Triangle ℝ) (b0 b1 b2 : ℝ) (n dpdu dpdv : V3 ℝ) (n0 n1 n2 : V3 ℝ)
    (hv : s.vertexNormals = some (n0, n1, n2)) (hne : mix b0 b1 b2 n0 n1 n2 ≠ V3.zero) :
    let r := s.shading b0 b1 b2 n dpdu dpdv
    Spec.sq r.1 = 1 ∧ r.2.1 ≠ V3.zero ∧ Spec.inner r.2.1 r.1 = 0 ∧
      r.1 = scale (1 / (mix b0 b1 b2 n0 n1 n2).length) (mix b0 b1 b2 n0 n1 n2) := by
  intro r
  have hraw : ((n0.smul b0).add (n1.smul b1)).add (n2.smul b2) = mix b0 b1 b2 n0 n1 n2 := by
    unfold V3.smul V3.add mix
    real_ops
    ext <;> simp only [] <;> ring
  have hlen := length_pos hne
  have hunit : Spec.sq (scale (1 / (mix b0 b1 b2 n0 n1 n2).length) (mix b0 b1 b2 n0 n1 n2)) = 1 := by
    rw [sq_scale, ← length_sq]; field_simp
  have hr : r = s.shading b0 b1 b2 n dpdu dpdv := rfl
  clear_value r
  unfold Triangle.shading at hr
  simp only [hv, hraw] at hr
  have hge : ((mix b0 b1 b2 n0 n1 n2).length >=. lit 0) = true := by real_ops; exact hlen.le
  simp only [hge, if_true, sdiv_scale] at hr
  generalize scale (1 / (mix b0 b1 b2 n0 n1 n2).length) (mix b0 b1 b2 n0 n1 n2) = sn at *
  have hperp : Spec.inner (dpdu.normalize.cross sn) sn = 0 := by
    unfold V3.cross Spec.inner
    real_ops
    ring
  generalize dpdu.normalize.cross sn = w at *
  by_cases hw : w.length > 0
  · rw [if_pos (by real_ops; exact hw)] at hr
    subst hr
    refine ⟨hunit, ?_, ?_, rfl⟩
    · intro e
      simp only [] at e
      have h0 : Spec.sq ((scale (1 / w.length) w).cross sn) = Spec.sq (scale (1 / w.length) w) * Spec.sq sn -
          (1 / w.length * Spec.inner w sn) ^ 2 := by
        unfold Spec.sq V3.cross scale Spec.inner
        real_ops
        ring
      rw [e, sq_eq_zero_iff.2 rfl, hperp, sq_scale, ← length_sq, hunit] at h0
      have h2 : (1 / w.length) ^ 2 * w.length ^ 2 = 1 := by field_simp
      rw [h2] at h0
      norm_num at h0
    · unfold V3.cross scale Spec.inner
      real_ops
      ring
  · rw [if_neg (by real_ops; exact hw)] at hr
    subst hr
    obtain ⟨h1, h2⟩ := coordinate_system_perp sn hunit
    exact ⟨hunit, h1, h2, rfl⟩

/-- The fields of a triangle hit. -/
theorem triangle_hit_fields (s : Triangle ℝ) (ray : Ray ℝ) (hd : ray.direction ≠ V3.zero)
    (i : Interaction ℝ) (t : ℝ) (h : s.intersect ray = some (some (i, t))) :
    planeNormal s ≠ V3.zero ∧ ∃ b0 b1 b2, Weights b0 b1 b2 ∧ i.uv = ⟨b1 + b2, b2⟩ ∧ i = s.interactionAt ray.direction b0 b1 b2 := by
  obtain ⟨m, hm, hdom⟩ := maxAbsAxis_real ray.direction
  have hne := dominant_ne hd hdom
  have e := Triangle.intersect_eq s ray.origin ray.direction ray.tMax
  rw [hm] at e
  change s.intersect ray = _ at e
  rw [e] at h
  simp only [Option.map_some, Option.some.injEq] at h
  by_cases hr : (Triangle.stage s ray.origin ray.direction m).rejects ray.tMax = true
  · rw [if_pos hr] at h; cases h
  rw [if_neg hr] at h
  have hr' := rejects_false (Bool.not_eq_true _ ▸ hr)
  obtain ⟨-, -, -, -, hdt, -⟩ := stage_real s ray m hne
  have hpl := det_plane s ray m hne
  simp only [] at hr'
  generalize hg : Triangle.stage s ray.origin ray.direction m = g at *
  obtain ⟨hsgn, hdet, -, -, -⟩ := hr'
  simp only [Option.some.injEq, Prod.mk.injEq] at h
  obtain ⟨hi, ht⟩ := h
  refine ⟨?_, g.e0 / g.det, g.e1 / g.det, g.e2 / g.det, ?_, ?_, hi.symm⟩
  · intro e
    rw [e] at hpl
    have : Spec.inner V3.zero ray.direction = 0 := by simp [Spec.inner, V3.zero, r_lit]
    rw [this, neg_zero] at hpl
    exact (mul_ne_zero hdet hne) hpl
  · have h1 : g.e0 / g.det + g.e1 / g.det + g.e2 / g.det = 1 := by
      rw [← add_div, ← add_div, ← hdt]; exact div_self hdet
    rcases hsgn with ⟨a, b, c⟩ | ⟨a, b, c⟩
    · have : 0 ≤ g.det := by rw [hdt]; positivity
      exact ⟨div_nonneg a this, div_nonneg b this, div_nonneg c this, h1⟩
    · have : g.det ≤ 0 := by rw [hdt]; linarith
      exact ⟨div_nonneg_of_nonpos a this, div_nonneg_of_nonpos b this, div_nonneg_of_nonpos c this, h1⟩
  · rw [← hi]
    unfold Triangle.interactionAt Triangle.getUv
    real_ops
    ext <;> simp only [] <;> ring

/-- C74 for triangles: a hit has an orthonormal shading frame if the triangle has no vertex normals or the interpolated normal is
not zero at the hit (if it is zero the code divides zero by zero, see `c74_zero_normal_refuted`). -/
theorem c74_triangle_frame (s : Triangle ℝ) (ray : Ray ℝ) (hd : ray.direction ≠ V3.zero)
    (i : Interaction ℝ) (t : ℝ) (h : s.intersect ray = some (some (i, t)))
    (hvn : s.vertexNormals = none ∨ rawNormal s i.uv ≠ V3.zero) : GoodFrame i := by
  obtain ⟨hpn0, b0, b1, b2, hw, huv, hi⟩ := triangle_hit_fields s ray hd i t h
  have hcross : (s.v0.sub s.v2).cross (s.v1.sub s.v2) = planeNormal s := by
    unfold planeNormal vcross diff V3.cross V3.sub; real_ops; ext <;> simp only [] <;> ring
  have hsn : i.sn = if s.reverseOrientation then
      (s.shading b0 b1 b2 (planeNormal s).normalize (diff s.v1 s.v0) (diff s.v2 s.v1)).1.smul ⊖(lit 1)
      else (s.shading b0 b1 b2 (planeNormal s).normalize (diff s.v1 s.v0) (diff s.v2 s.v1)).1 := by
    rw [hi]
    unfold Triangle.interactionAt
    simp only [partials_real, hcross]
  have hdu : i.dpdu = (s.shading b0 b1 b2 (planeNormal s).normalize (diff s.v1 s.v0) (diff s.v2 s.v1)).2.1 := by
    rw [hi]
    unfold Triangle.interactionAt
    simp only [partials_real, hcross]
  have key : Spec.sq (s.shading b0 b1 b2 (planeNormal s).normalize (diff s.v1 s.v0) (diff s.v2 s.v1)).1 = 1 ∧
      (s.shading b0 b1 b2 (planeNormal s).normalize (diff s.v1 s.v0) (diff s.v2 s.v1)).2.1 ≠ V3.zero ∧
      Spec.inner (s.shading b0 b1 b2 (planeNormal s).normalize (diff s.v1 s.v0) (diff s.v2 s.v1)).2.1
        (s.shading b0 b1 b2 (planeNormal s).normalize (diff s.v1 s.v0) (diff s.v2 s.v1)).1 = 0 := by
    cases hv : s.vertexNormals with
    | none =>
      unfold Triangle.shading
      simp only [hv]
      refine ⟨sq_normalize hpn0, ?_, ?_⟩
      · intro e
        apply hpn0
        unfold planeNormal
        rw [e]
        simp [vcross, V3.zero, r_lit]
      · rw [normalize_scale]
        unfold planeNormal scale vcross diff Spec.inner
        ring
    | some ns =>
      obtain ⟨n0, n1, n2⟩ := ns
      have hm : mix b0 b1 b2 n0 n1 n2 ≠ V3.zero := by
        rcases hvn with h | h
        · rw [hv] at h; cases h
        · unfold rawNormal at h
          rw [hv, huv] at h
          simp only [Option.elim_some] at h
          have e1 : 1 - (b1 + b2) = b0 := by linarith [hw.2.2.2]
          have e2 : b1 + b2 - b2 = b1 := by ring
          rw [e1, e2] at h
          exact h
      obtain ⟨k1, k2, k3, -⟩ := shading_perp s b0 b1 b2 (planeNormal s).normalize (diff s.v1 s.v0) (diff s.v2 s.v1) n0 n1 n2 hv hm
      exact ⟨k1, k2, k3⟩
  generalize s.shading b0 b1 b2 (planeNormal s).normalize (diff s.v1 s.v0) (diff s.v2 s.v1) = r at *
  obtain ⟨k1, k2, k3⟩ := key
  apply goodFrame_of_perp
  · rw [hsn]
    cases s.reverseOrientation
    · simpa using k1
    · simp only [if_true]
      unfold Spec.sq V3.smul at *
      real_ops
      linarith
  · rw [hdu]; exact k2
  · rw [hdu, hsn]
    cases s.reverseOrientation
    · simpa using k3
    · simp only [if_true]
      unfold Spec.inner V3.smul at *
      real_ops
      linarith

/-- The hit of the earlier example has a good frame; so has a hit of a triangle with vertex normals. -/
example (mat : Material ℝ) (i : Interaction ℝ) (t : ℝ)
    (h : (Triangle.mk ⟨0, 0, 0⟩ ⟨1, 0, 0⟩ ⟨0, 1, 0⟩ (some (⟨0, 0, 1⟩, ⟨1, 0, 1⟩, ⟨0, 1, 1⟩)) true mat).intersect
      ⟨⟨1 / 4, 1 / 4, -1⟩, ⟨0, 0, 1⟩, 10⟩ = some (some (i, t))) : GoodFrame i := by
  apply c74_triangle_frame _ _ _ i t h
  · right
    intro e
    have := congrArg V3.z e
    norm_num [rawNormal, mix, V3.zero, r_lit] at this
  · intro e
    have := congrArg V3.z e
    norm_num [V3.zero, r_lit] at this

/-- A triangle whose vertex normals cancel in the middle, and a ray through that point. -/
def cancelling (mat : Material F32) : Triangle F32 :=
  ⟨⟨lit 0, lit 0, lit 0⟩, ⟨lit 1, lit 0, lit 0⟩, ⟨lit 0, lit 1, lit 0⟩,
    some (⟨lit 0, lit 0, lit 1⟩, ⟨lit 0, lit 0, lit (-1)⟩, ⟨lit 0, lit 0, lit (-1)⟩), false, mat⟩
def cancellingRay : Ray F32 := ⟨⟨lit (1 / 4), lit (1 / 4), lit (-1)⟩, ⟨lit 0, lit 0, lit 1⟩, .inf false⟩

/-- The intermediate results for this ray. -/
def cancellingStage : Triangle.Stage F32 :=
  Triangle.stageOf (Triangle.rc cancellingRay.origin cancellingRay.direction .Z ⟨lit 0, lit 0, lit 0⟩)
    (Triangle.rc cancellingRay.origin cancellingRay.direction .Z ⟨lit 1, lit 0, lit 0⟩)
    (Triangle.rc cancellingRay.origin cancellingRay.direction .Z ⟨lit 0, lit 1, lit 0⟩)
    (Triangle.szOf cancellingRay.direction .Z)

/-- Where the interpolated normal is zero (`f32`, any math library with `sqrt 0 = 0`), the fallback to the geometric normal is not
taken, because the test is `len >= 0.` instead of `len > 0.`: the hit has a NaN shading normal. -/
theorem c74_zero_normal_refuted [Libm F32] (h0 : Libm.sqrt (lit 0 : F32) = lit 0) (mat : Material F32) :
    ∃ i t, (cancelling mat).intersect cancellingRay = some (some (i, t)) ∧ i.sn = ⟨.nan, .nan, .nan⟩ := by
  have e := Triangle.intersect_eq (cancelling mat) cancellingRay.origin cancellingRay.direction cancellingRay.tMax
  have hm : cancellingRay.direction.maxAbsAxis = some .Z := by decide +kernel
  rw [hm] at e
  change (cancelling mat).intersect cancellingRay = _ at e
  have hs : Triangle.stage (cancelling mat) cancellingRay.origin cancellingRay.direction .Z = cancellingStage := rfl
  have hr : cancellingStage.rejects cancellingRay.tMax = false := by decide +kernel
  simp only [Option.map_some, hs, hr, Bool.false_eq_true, if_false] at e
  refine ⟨_, _, e, ?_⟩
  have w0 : cancellingStage.e0 /. cancellingStage.det = lit (1 / 2) := by decide +kernel
  have w1 : cancellingStage.e1 /. cancellingStage.det = lit (1 / 4) := by decide +kernel
  have w2 : cancellingStage.e2 /. cancellingStage.det = lit (1 / 4) := by decide +kernel
  rw [w0, w1, w2]
  have hraw : ((V3.smul (⟨lit 0, lit 0, lit 1⟩ : V3 F32) (lit (1 / 2))).add (V3.smul ⟨lit 0, lit 0, lit (-1)⟩ (lit (1 / 4)))).add
      (V3.smul ⟨lit 0, lit 0, lit (-1)⟩ (lit (1 / 4))) = ⟨lit 0, lit 0, lit 0⟩ := by decide +kernel
  have hlen : (⟨lit 0, lit 0, lit 0⟩ : V3 F32).length = lit 0 := by
    unfold V3.length
    have : (lit 0 *. lit 0 +. lit 0 *. lit 0 +. lit 0 *. lit 0 : F32) = lit 0 := by decide +kernel
    simp only [this, h0]
  have hge : ((lit 0 : F32) >=. lit 0) = true := by decide +kernel
  have hnan : (⟨lit 0, lit 0, lit 0⟩ : V3 F32).sdiv (lit 0) = ⟨.nan, .nan, .nan⟩ := by decide +kernel
  unfold Triangle.interactionAt Triangle.shading
  simp only [cancelling, hraw, hlen, hge, if_true, hnan, Bool.false_eq_true, if_false]
  split <;> rfl

end PT
