import Verif.Model.Scene
import Verif.Props.Sphere
import Verif.Props.Triangle
import Verif.Props.BBox
import Verif.Props.KdTree
import Mathlib.MeasureTheory.Integral.Bochner.Basic

/-!
# Lights and scene assembly (C40 for area lights, C63, C64, C65, C69)
-/

namespace PT
open Spec

/-! ### C40 -/

/-- C40 for area lights: an area light made of a triangle or of a sphere answers both tests like its shape, so the occlusion test
is again "is there a hit", in every arithmetic. -/
theorem c40_area_light {α β : Type} [Scalar α] [Libm α] [Scalar β] [Libm β] [Widen α β] (l : Spectrum α) (s : Triangle α) (b : Sphere α)
    (ray : Ray α) :
    (AreaLight.mk l s.toShape).toShape.intersectP ray = ((AreaLight.mk l s.toShape).toShape.intersect ray).map Option.isSome ∧
    (AreaLight.mk l b.toShape).toShape.intersectP ray = ((AreaLight.mk l b.toShape).toShape.intersect ray).map Option.isSome := by
  refine ⟨c40_triangle s ray, ?_⟩
  have h := c40_sphere b ray
  change b.toShape.intersectP ray = (b.toShape.intersect ray).map Option.isSome
  rw [h.1, h.2]; rfl

/-! ### C63 -/

/-- C63: the radiance an area light emits towards `w` is its colour if `w` is on the side of the normal, and black otherwise
(also for directions in the surface). -/
theorem c63_one_sided (a : AreaLight ℝ) (i : Interaction ℝ) (w : V3 ℝ) :
    (0 < inner w i.n → a.toShape.l i w = a.l) ∧ (inner w i.n ≤ 0 → a.toShape.l i w = ⟨0, 0, 0⟩) := by
  have e : a.toShape.l i w = if 0 < inner w i.n then a.l else ⟨0, 0, 0⟩ := by
    change a.emitted i w = _
    unfold AreaLight.emitted inner V3.dot Spectrum.zero
    real_ops
  constructor
  · intro h; rw [e, if_pos h]
  · intro h; rw [e, if_neg (not_lt.2 h)]

/-- C63, exact arithmetic, triangles without vertex normals: the radiance reported when the light is sampled from some point is
the radiance seen along any ray in the sampled direction that hits the light. -/
theorem c63_sample_matches_hit (s : Triangle ℝ) (hs : planeNormal s ≠ V3.zero) (hvn : s.vertexNormals = none) (l : Spectrum ℝ)
    (refI : Interaction ℝ) (u : V2 ℝ) (smp : LightSample ℝ) (h : (AreaLight.mk l s.toShape).toLight.sampleLi refI u = some smp)
    (ray : Ray ℝ) (c : ℝ) (hc : 0 < c) (hd : ray.direction = scale c smp.wi) (i : Interaction ℝ) (t : ℝ)
    (hit : (AreaLight.mk l s.toShape).toShape.intersect ray = some (some (i, t))) :
    smp.li = (AreaLight.mk l s.toShape).toShape.l i ray.direction.neg := by
  obtain ⟨-, h2, h3⟩ := c42_triangle_sample s hs
  have hn := (h3 hvn ray i t hit).1
  have hsr : s.toShape.sampleRef refI u = some (s.sample u) := rfl
  simp only [AreaLight.toLight, AreaLight.sampleLi, hsr] at h
  simp only [Option.map_some, Option.some.injEq] at h
  subst h
  dsimp only at hd ⊢
  change _ = AreaLight.emitted _ i _
  unfold AreaLight.emitted
  rw [h2 u, hn, hd]
  have e : ∀ v n : V3 ℝ, ((scale c v).neg.dot n >. lit 0) = (v.neg.dot n >. lit 0) := by
    intro v n
    unfold V3.neg V3.dot scale
    real_ops
    have : -(c * v.x) * n.x + -(c * v.y) * n.y + -(c * v.z) * n.z = c * (-v.x * n.x + -v.y * n.y + -v.z * n.z) := by ring
    rw [this]
    exact decide_eq_decide.2 (mul_pos_iff_of_pos_left hc)
  rw [e]

/-- A hit is the interaction at some barycentric coordinates. -/
theorem hit_interactionAt (s : Triangle ℝ) (ray : Ray ℝ) (hd : ray.direction ≠ V3.zero) {i : Interaction ℝ} {t : ℝ}
    (h : s.intersect ray = some (some (i, t))) :
    ∃ b0 b1 b2, b0 + b1 + b2 = 1 ∧ i = s.interactionAt ray.direction b0 b1 b2 := by
  obtain ⟨m, hm, hdom⟩ := maxAbsAxis_real ray.direction
  have hne := dominant_ne hd hdom
  have e := Triangle.intersect_eq s ray.origin ray.direction ray.tMax
  rw [hm] at e
  change s.intersect ray = _ at e
  rw [e] at h
  simp only [Option.map_some, Option.some.injEq] at h
  by_cases hr : (Triangle.stage s ray.origin ray.direction m).rejects ray.tMax = true
  · rw [if_pos hr] at h; cases h
  rw [if_neg hr] at h
  have hr' := rejects_false (Bool.not_eq_true _ ▸ hr)
  simp only [] at hr'
  obtain ⟨-, -, -, -, hdt, -⟩ := stage_real s ray m hne
  generalize hg : Triangle.stage s ray.origin ray.direction m = g at *
  obtain ⟨-, hdet, -⟩ := hr'
  simp only [Option.some.injEq, Prod.mk.injEq] at h
  refine ⟨_, _, _, ?_, h.1.symm⟩
  real_ops
  rw [← add_div, ← add_div, ← hdt]; exact div_self hdet

/-- A triangle in the plane `z = 0` whose vertex normals point down. -/
noncomputable def Demo.bentTriangle : Triangle ℝ :=
  ⟨⟨0, 0, 0⟩, ⟨4, 0, 0⟩, ⟨0, 4, 0⟩, some (⟨0, 0, -1⟩, ⟨0, 0, -1⟩, ⟨0, 0, -1⟩), false, fun i => BSDF.new i⟩

theorem Demo.bent_normal (d : V3 ℝ) (b0 b1 b2 : ℝ) (h : b0 + b1 + b2 = 1) : (Demo.bentTriangle.interactionAt d b0 b1 b2).n = ⟨0, 0, -1⟩ := by
  have hlen : (V3.mk (0 : ℝ) 0 16).length = 16 := by
    rw [length_eq]; simp only [Spec.sq]
    rw [Real.sqrt_eq_iff_eq_sq] <;> norm_num
  have hlen1 : (V3.mk (0 : ℝ) 0 (-1)).length = 1 := by
    rw [length_eq]; simp only [Spec.sq]
    rw [Real.sqrt_eq_iff_eq_sq] <;> norm_num
  have hn : ((Demo.bentTriangle.v0.sub Demo.bentTriangle.v2).cross (Demo.bentTriangle.v1.sub Demo.bentTriangle.v2)).normalize = ⟨0, 0, 1⟩ := by
    have : (Demo.bentTriangle.v0.sub Demo.bentTriangle.v2).cross (Demo.bentTriangle.v1.sub Demo.bentTriangle.v2) = ⟨0, 0, 16⟩ := by
      unfold Demo.bentTriangle V3.sub V3.cross; real_ops; norm_num
    rw [this]; unfold V3.normalize; rw [hlen]; real_ops; norm_num
  have hsn : (((V3.mk (0:ℝ) 0 (-1)).smul b0).add ((V3.mk (0:ℝ) 0 (-1)).smul b1)).add ((V3.mk (0:ℝ) 0 (-1)).smul b2) = ⟨0, 0, -1⟩ := by
    unfold V3.smul V3.add; real_ops
    ext <;> simp only [] <;> linarith
  have hs : ∀ n dpdu dpdv, (Demo.bentTriangle.shading b0 b1 b2 n dpdu dpdv).1 = ⟨0, 0, -1⟩ := by
    intro n dpdu dpdv
    unfold Triangle.shading
    simp only [Demo.bentTriangle]
    rw [hsn, hlen1]
    have e : (if ((1 : ℝ) >=. lit 0) = true then (V3.mk (0:ℝ) 0 (-1)).sdiv 1 else n) = ⟨0, 0, -1⟩ := by
      unfold V3.sdiv; real_ops; norm_num
    rw [e]
    split_ifs <;> rfl
  unfold Triangle.interactionAt
  dsimp only
  rw [hn, hs]
  have hr : Demo.bentTriangle.reverseOrientation = false := rfl
  rw [hr]
  unfold V3.dot V3.smul
  real_ops
  norm_num

/-- C63 is false of the code for triangles with vertex normals on the other side: sampled from a point in front of it the
light reports its colour, but the ray from that point to the sampled point sees black,
whatever the colour of the light. -/
theorem c63_vertex_normals_refuted (l : Spectrum ℝ) :
    ∃ (s : Triangle ℝ) (refI : Interaction ℝ) (u : V2 ℝ) (smp : LightSample ℝ) (i : Interaction ℝ) (t : ℝ),
      planeNormal s ≠ V3.zero ∧ (0 < u.x ∧ u.x < 1) ∧ (0 < u.y ∧ u.y < 1) ∧
      (AreaLight.mk l s.toShape).toLight.sampleLi refI u = some smp ∧
      (AreaLight.mk l s.toShape).toShape.intersect ⟨refI.p, smp.wi, 10⟩ = some (some (i, t)) ∧
      smp.li = l ∧ (AreaLight.mk l s.toShape).toShape.l i smp.wi.neg = ⟨0, 0, 0⟩ := by
  have hsq : Real.sqrt (1 / 4) = 1 / 2 := by
    rw [show (1 / 4 : ℝ) = (1 / 2) ^ 2 by norm_num, Real.sqrt_sq (by norm_num)]
  have hlen : (V3.mk (0 : ℝ) 0 16).length = 16 := by
    rw [length_eq]; simp only [Spec.sq]
    rw [Real.sqrt_eq_iff_eq_sq] <;> norm_num
  have hp : (Demo.bentTriangle.sample ⟨1 / 4, 1 / 2⟩).p = ⟨1, 1, 0⟩ := by
    unfold Triangle.sample Demo.bentTriangle V3.smul V3.add
    real_ops
    rw [hsq]; norm_num
  have hn : (Demo.bentTriangle.sample ⟨1 / 4, 1 / 2⟩).n = ⟨0, 0, 1⟩ := by
    have e : (Demo.bentTriangle.v1.sub Demo.bentTriangle.v0).cross (Demo.bentTriangle.v2.sub Demo.bentTriangle.v0) = ⟨0, 0, 16⟩ := by
      unfold Demo.bentTriangle V3.sub V3.cross; real_ops; norm_num
    unfold Triangle.sample
    dsimp only
    rw [e]
    have hr : Demo.bentTriangle.reverseOrientation = false := rfl
    rw [hr]
    unfold V3.normalize; rw [hlen]; real_ops; norm_num
  have hwi : ((V3.mk (1 : ℝ) 1 0).sub ⟨1, 1, 1⟩).normalize = ⟨0, 0, -1⟩ := by
    have e : (V3.mk (1 : ℝ) 1 0).sub ⟨1, 1, 1⟩ = ⟨0, 0, -1⟩ := by unfold V3.sub; real_ops; norm_num
    have hl1 : (V3.mk (0 : ℝ) 0 (-1)).length = 1 := by rw [length_eq]; simp only [Spec.sq]; norm_num
    rw [e]; unfold V3.normalize; rw [hl1]; real_ops; norm_num
  obtain ⟨i, hi, -, -⟩ := c39_triangle_complete Demo.bentTriangle ⟨⟨1, 1, 1⟩, ⟨0, 0, -1⟩, 10⟩ (1 / 2) (1 / 4) (1 / 4) 1
    (by norm_num [Weights]) (by unfold pointAt mix Demo.bentTriangle; ext <;> norm_num)
    (by norm_num [planeNormal, Spec.inner, vcross, diff, Demo.bentTriangle])
    (by
      intro m hm
      have hz := hm .Z
      cases m
      · norm_num [V3.get] at hz
      · norm_num [V3.get] at hz
      · unfold errorThreshold rayCoord maxAbs errFactor diff Demo.bentTriangle
        simp only [V3.get, Axis.prev, Axis.next]
        norm_num [abs_of_pos, abs_of_neg, max_def]) (by norm_num)
  obtain ⟨b0, b1, b2, hb, hib⟩ := hit_interactionAt _ _ (by
    intro h; have := congrArg V3.z h; norm_num [V3.zero, r_lit] at this) hi
  have hin : i.n = ⟨0, 0, -1⟩ := by rw [hib]; exact Demo.bent_normal _ b0 b1 b2 hb
  refine ⟨Demo.bentTriangle, { Interaction.default with p := ⟨1, 1, 1⟩ }, ⟨1 / 4, 1 / 2⟩, _, i, 1, ?_, by norm_num, by norm_num, rfl, ?_, ?_, ?_⟩
  · intro h
    have := congrArg V3.z h
    norm_num [planeNormal, vcross, diff, V3.zero, r_lit, Demo.bentTriangle] at this
  · dsimp only
    rw [hp, hwi]; exact hi
  · dsimp only
    rw [hp, hwi]
    unfold AreaLight.emitted
    rw [hn]
    unfold V3.neg V3.dot; real_ops; norm_num
  · dsimp only
    rw [hp, hwi]
    change AreaLight.emitted _ i _ = _
    unfold AreaLight.emitted
    rw [hin]
    unfold V3.neg V3.dot Spectrum.zero; real_ops; norm_num

/-- A triangle light without vertex normals that is sampled and hit from the same point: C63 applies to it. -/
example (l : Spectrum ℝ) (mat : Material ℝ) : ∃ smp i,
    (AreaLight.mk l (Triangle.mk ⟨0, 0, 0⟩ ⟨4, 0, 0⟩ ⟨0, 4, 0⟩ none false mat).toShape).toLight.sampleLi
      { Interaction.default with p := ⟨1, 1, 1⟩ } ⟨1 / 4, 1 / 2⟩ = some smp ∧
    (AreaLight.mk l (Triangle.mk ⟨0, 0, 0⟩ ⟨4, 0, 0⟩ ⟨0, 4, 0⟩ none false mat).toShape).toShape.intersect
      ⟨⟨1, 1, 1⟩, scale 1 smp.wi, 10⟩ = some (some (i, 1)) := by
  have hsq : Real.sqrt (1 / 4) = 1 / 2 := by
    rw [show (1 / 4 : ℝ) = (1 / 2) ^ 2 by norm_num, Real.sqrt_sq (by norm_num)]
  have hp : ((Triangle.mk ⟨0, 0, 0⟩ ⟨4, 0, 0⟩ ⟨0, 4, 0⟩ none false mat).sample ⟨1 / 4, 1 / 2⟩).p = ⟨1, 1, 0⟩ := by
    unfold Triangle.sample V3.smul V3.add
    real_ops
    rw [hsq]; norm_num
  have hwi : ((V3.mk (1 : ℝ) 1 0).sub ⟨1, 1, 1⟩).normalize = ⟨0, 0, -1⟩ := by
    have e : (V3.mk (1 : ℝ) 1 0).sub ⟨1, 1, 1⟩ = ⟨0, 0, -1⟩ := by unfold V3.sub; real_ops; norm_num
    have hl1 : (V3.mk (0 : ℝ) 0 (-1)).length = 1 := by rw [length_eq]; simp only [Spec.sq]; norm_num
    rw [e]; unfold V3.normalize; rw [hl1]; real_ops; norm_num
  obtain ⟨i, hi, -, -⟩ := c39_triangle_complete (Triangle.mk ⟨0, 0, 0⟩ ⟨4, 0, 0⟩ ⟨0, 4, 0⟩ none false mat)
    ⟨⟨1, 1, 1⟩, ⟨0, 0, -1⟩, 10⟩ (1 / 2) (1 / 4) (1 / 4) 1
    (by norm_num [Weights]) (by unfold pointAt mix; ext <;> norm_num)
    (by norm_num [planeNormal, Spec.inner, vcross, diff])
    (by
      intro m hm
      have hz := hm .Z
      cases m
      · norm_num [V3.get] at hz
      · norm_num [V3.get] at hz
      · unfold errorThreshold rayCoord maxAbs errFactor diff
        simp only [V3.get, Axis.prev, Axis.next]
        norm_num [abs_of_pos, abs_of_neg, max_def]) (by norm_num)
  refine ⟨_, i, rfl, ?_⟩
  dsimp only
  rw [hp, hwi, show scale 1 (V3.mk (0 : ℝ) 0 (-1)) = ⟨0, 0, -1⟩ by unfold scale; norm_num]
  exact hi

/-! ### C64, C75 -/

namespace Spec
/-- The point is in the box (faces included). -/
def PointIn (box : BBox3 ℝ) (p : V3 ℝ) : Prop := ∀ a, box.min.get a ≤ p.get a ∧ p.get a ≤ box.max.get a
/-- `p + t w` -/
def along (p : V3 ℝ) (t : ℝ) (w : V3 ℝ) : V3 ℝ := ⟨p.x + t * w.x, p.y + t * w.y, p.z + t * w.z⟩
/-- Centre of the box. -/
noncomputable def centre (box : BBox3 ℝ) : V3 ℝ :=
  ⟨(box.min.x + box.max.x) / 2, (box.min.y + box.max.y) / 2, (box.min.z + box.max.z) / 2⟩
/-- Radius of the sphere through the corners of the box: half the diagonal. -/
noncomputable def radius (box : BBox3 ℝ) : ℝ := Real.sqrt (Spec.sq (diff box.max box.min)) / 2
/-- A distant light of colour `l` in direction `w`, ready to be used in a scene with this box. -/
noncomputable def distant (l : Spectrum ℝ) (w : V3 ℝ) (box : BBox3 ℝ) : Light ℝ := ((DistantLight.new l w).preProcess box).toLight
end Spec

/-- What a distant light in a scene samples. -/
theorem distant_sample (l : Spectrum ℝ) (w : V3 ℝ) (hw : w ≠ V3.zero) (box : BBox3 ℝ) (hbox : ∀ a, box.min.get a ≤ box.max.get a)
    (refI : Interaction ℝ) (u : V2 ℝ) :
    (distant l w box).sampleLi refI u = some ⟨scale (1 / Real.sqrt (Spec.sq w)) w, l, 1,
      ⟨refI, { Interaction.default with p := along refI.p (2 * radius box / Real.sqrt (Spec.sq w)) w }⟩⟩ := by
  have hn : w.normalize = scale (1 / Real.sqrt (Spec.sq w)) w := by
    unfold V3.normalize scale; rw [length_eq]; real_ops; ext <;> simp only [] <;> ring
  have hr : box.boundingSphere.2 = radius box := by
    have hx := hbox .X
    have hy := hbox .Y
    have hz := hbox .Z
    simp only [V3.get] at hx hy hz
    have hin : box.pointInside ((box.min.add box.max).sdiv (lit 2)) = true := by
      unfold BBox3.pointInside V3.add V3.sdiv
      real_ops
      simp only [Bool.and_eq_true, decide_eq_true_eq]
      norm_num
      refine ⟨⟨⟨⟨⟨?_, ?_⟩, ?_⟩, ?_⟩, ?_⟩, ?_⟩ <;> linarith
    unfold BBox3.boundingSphere
    dsimp only
    rw [if_pos hin]
    unfold V3.distance
    rw [length_eq]
    unfold radius
    rw [show Real.sqrt (Spec.sq (diff box.max box.min)) / 2 = Real.sqrt (Spec.sq (diff box.max box.min) / 2 ^ 2) by
      rw [Real.sqrt_div' _ (by norm_num), Real.sqrt_sq (by norm_num)]]
    congr 1
    unfold V3.add V3.sdiv V3.sub Spec.sq diff
    real_ops
    norm_num
    ring
  unfold distant DistantLight.toLight DistantLight.sampleLi DistantLight.preProcess DistantLight.new
  dsimp only
  rw [hr, hn]
  simp only [Option.some.injEq, LightSample.mk.injEq, true_and, VisibilityTester.mk.injEq]
  refine ⟨by real_ops, ?_⟩
  congr 1
  unfold V3.add V3.smul scale along
  real_ops
  ext <;> simp only [] <;> ring

theorem cauchy (u v : V3 ℝ) : Spec.inner u v ^ 2 ≤ Spec.sq u * Spec.sq v := by
  unfold Spec.inner Spec.sq
  nlinarith [sq_nonneg (u.x * v.y - u.y * v.x), sq_nonneg (u.y * v.z - u.z * v.y), sq_nonneg (u.z * v.x - u.x * v.z)]

/-- C64, exact arithmetic: for every point of the scene box, the end point of the segment that is tested for the visibility of a
distant light lies in the direction of the light, not in the interior of the sphere around the scene box, and every point of
the scene box in the direction of the light is on the segment. -/
theorem c64_distant_reaches (l : Spectrum ℝ) (w : V3 ℝ) (hw : w ≠ V3.zero) (box : BBox3 ℝ) (refI : Interaction ℝ)
    (hp : PointIn box refI.p) (u : V2 ℝ) :
    ∃ smp, (distant l w box).sampleLi refI u = some smp ∧ smp.vis.p0 = refI ∧
      (∃ k, 0 ≤ k ∧ smp.vis.p1.p = along refI.p k w) ∧
      radius box ^ 2 ≤ Spec.sq (diff smp.vis.p1.p (centre box)) ∧
      ∀ t, 0 ≤ t → PointIn box (along refI.p t w) →
        ∃ r, 0 ≤ r ∧ r ≤ 1 ∧ along refI.p t w = along refI.p r (diff smp.vis.p1.p refI.p) := by
  have hbox : ∀ a, box.min.get a ≤ box.max.get a := fun a => (hp a).1.trans (hp a).2
  refine ⟨_, distant_sample l w hw box hbox refI u, rfl, ?_, ?_, ?_⟩
  all_goals
    have hws := sq_pos hw
    have hl : 0 < Real.sqrt (Spec.sq w) := Real.sqrt_pos.2 hws
    have hll : Real.sqrt (Spec.sq w) ^ 2 = Spec.sq w := Real.sq_sqrt hws.le
    have hd0 : 0 ≤ Spec.sq (diff box.max box.min) := by unfold Spec.sq; positivity
    have hR : 0 ≤ radius box := by unfold radius; positivity
    have hRR : (2 * radius box) ^ 2 = Spec.sq (diff box.max box.min) := by
      unfold radius; rw [mul_div_cancel₀ _ (by norm_num : (2 : ℝ) ≠ 0), Real.sq_sqrt hd0]
    generalize hL : Real.sqrt (Spec.sq w) = L at *
    generalize hRe : radius box = R at *
    have hx := hp .X
    have hy := hp .Y
    have hz := hp .Z
    simp only [V3.get] at hx hy hz
  · exact ⟨_, by positivity, rfl⟩
  · dsimp only
    have hq : Spec.sq (diff refI.p (centre box)) ≤ R ^ 2 := by
      have : 4 * Spec.sq (diff refI.p (centre box)) ≤ Spec.sq (diff box.max box.min) := by
        unfold Spec.sq diff centre
        simp only []
        nlinarith [mul_nonneg (sub_nonneg.2 hx.1) (sub_nonneg.2 hx.2), mul_nonneg (sub_nonneg.2 hy.1) (sub_nonneg.2 hy.2),
          mul_nonneg (sub_nonneg.2 hz.1) (sub_nonneg.2 hz.2)]
      nlinarith
    have hc := cauchy (diff refI.p (centre box)) w
    have hq0 : 0 ≤ Spec.sq (diff refI.p (centre box)) := by unfold Spec.sq; positivity
    have e : Spec.sq (diff (along refI.p (2 * R / L) w) (centre box)) =
        Spec.sq (diff refI.p (centre box)) + 4 * R * (Spec.inner (diff refI.p (centre box)) w / L) + 4 * R ^ 2 * (Spec.sq w / L ^ 2) := by
      unfold Spec.sq Spec.inner diff along
      simp only []
      field_simp
      ring
    rw [e, hll, div_self hws.ne', mul_one]
    generalize Spec.sq (diff refI.p (centre box)) = q at *
    generalize hi : Spec.inner (diff refI.p (centre box)) w / L = c at *
    have hcc : c ^ 2 ≤ q := by
      rw [← hi, div_pow, hll, div_le_iff₀ hws]; exact hc
    have hcR : |c| ≤ R := abs_le_of_sq_le_sq (by linarith) hR
    have := abs_le.1 hcR
    nlinarith [sq_nonneg (c + R), sq_nonneg (c + 2 * R)]
  · intro t ht hin
    dsimp only
    have hx' := hin .X
    have hy' := hin .Y
    have hz' := hin .Z
    simp only [V3.get, along] at hx' hy' hz'
    have hle : (t * L) ^ 2 ≤ (2 * R) ^ 2 := by
      rw [hRR, mul_pow, hll]
      have key : ∀ lo hi p q : ℝ, lo ≤ p → p ≤ hi → lo ≤ p + q → p + q ≤ hi → q ^ 2 ≤ (hi - lo) * (hi - lo) := by
        intro lo hi p q a b c d; nlinarith
      have kx := key _ _ _ _ hx.1 hx.2 hx'.1 hx'.2
      have ky := key _ _ _ _ hy.1 hy.2 hy'.1 hy'.2
      have kz := key _ _ _ _ hz.1 hz.2 hz'.1 hz'.2
      unfold Spec.sq diff
      simp only []
      nlinarith
    have hle' : t * L ≤ 2 * R := by
      have := abs_le_of_sq_le_sq hle (by positivity)
      exact (le_abs_self _).trans this
    rcases hR.eq_or_lt with h0 | hpos
    · rw [← h0] at hle'
      have ht0 : t = 0 := by nlinarith
      refine ⟨0, le_rfl, zero_le_one, ?_⟩
      rw [ht0]; unfold along; simp
    · refine ⟨t * L / (2 * R), by positivity, (div_le_one (by positivity)).2 hle', ?_⟩
      unfold along diff
      simp only []
      ext <;> simp only [] <;> field_simp <;> ring

/-- A box, a point of it and another point of it in the direction of the light. -/
example : PointIn ⟨⟨0, 0, 0⟩, ⟨2, 1, 2⟩⟩ ⟨0, 0, 0⟩ ∧ PointIn ⟨⟨0, 0, 0⟩, ⟨2, 1, 2⟩⟩ (along ⟨0, 0, 0⟩ 1 ⟨2, 1, 2⟩) ∧
    (V3.mk (2 : ℝ) 1 2) ≠ V3.zero := by
  refine ⟨?_, ?_, ?_⟩
  · intro a; cases a <;> norm_num [V3.get]
  · intro a; cases a <;> norm_num [V3.get, along]
  · intro h; have := congrArg V3.y h; norm_num [V3.zero, r_lit] at this

/-- The shadow ray from a point without error bounds to a point without normal. -/
theorem shadow_ray_exact [HasNext ℝ] (refI : Interaction ℝ) (herr : refI.pErr = V3.zero) (q : V3 ℝ) :
    VisibilityTester.ray ⟨refI, { Interaction.default with p := q }⟩ = ⟨refI.p, diff q refI.p, 9999 / 10000⟩ := by
  have h0 : ∀ (i : Interaction ℝ) (v : V3 ℝ), i.pErr = V3.zero → i.offsetRayOrigin v = i.p := by
    intro i v h
    unfold Interaction.offsetRayOrigin Interaction.nudge
    rw [h]
    unfold V3.zero V3.abs V3.dot V3.smul V3.add
    real_ops
    norm_num
  unfold VisibilityTester.ray Interaction.spawnRayTo
  dsimp only
  rw [h0 _ _ herr, h0 _ _ rfl]
  unfold V3.sub diff
  real_ops
  norm_num

/-- C75 where it holds, exact arithmetic: from a point without error bounds, the shadow ray towards a distant light covers the
points of the scene box in the direction of the light up to 0.9999 of the diagonal of the scene box. -/
theorem c75_shadow_ray_partial [HasNext ℝ] (l : Spectrum ℝ) (w : V3 ℝ) (hw : w ≠ V3.zero) (box : BBox3 ℝ) (refI : Interaction ℝ)
    (hp : PointIn box refI.p) (herr : refI.pErr = V3.zero) (u : V2 ℝ) :
    ∃ smp, (distant l w box).sampleLi refI u = some smp ∧ smp.vis.ray.origin = refI.p ∧
      ∀ t, 0 ≤ t → t * Real.sqrt (Spec.sq w) ≤ (9999 / 10000) * (2 * radius box) → 0 < radius box →
        ∃ r, 0 ≤ r ∧ r ≤ smp.vis.ray.tMax ∧ along refI.p t w = pointAt smp.vis.ray r := by
  have hbox : ∀ a, box.min.get a ≤ box.max.get a := fun a => (hp a).1.trans (hp a).2
  refine ⟨_, distant_sample l w hw box hbox refI u, ?_⟩
  have hl : 0 < Real.sqrt (Spec.sq w) := Real.sqrt_pos.2 (sq_pos hw)
  generalize Real.sqrt (Spec.sq w) = L at *
  rw [shadow_ray_exact refI herr]
  refine ⟨rfl, fun t ht h1 hR => ⟨t * L / (2 * radius box), by positivity, ?_, ?_⟩⟩
  · rw [div_le_iff₀ (by positivity)]; exact h1
  · unfold along pointAt diff
    simp only []
    ext <;> simp only [] <;> field_simp <;> ring

/-- The surface shaded in the scene below: it goes through the corner `(0,0,0)` of the box `(0,0,0)-(2,1,2)`. -/
def Demo.floorTriangle (mat : Material ℝ) : Triangle ℝ := ⟨⟨0, 0, 0⟩, ⟨2, 1, 0⟩, ⟨0, 1, 2⟩, none, false, mat⟩
/-- A small triangle across the diagonal of that box, at 0.99995 of its length. -/
noncomputable def Demo.cornerTriangle (mat : Material ℝ) : Triangle ℝ :=
  ⟨⟨2 * 0.99995 + 0.00002, 0.99995, 2 * 0.99995 - 0.00002⟩, ⟨2 * 0.99995 - 0.00002, 0.99995 + 0.00004, 2 * 0.99995⟩,
    ⟨2 * 0.99995, 0.99995 - 0.00004, 2 * 0.99995 + 0.00002⟩, none, false, mat⟩

/-- A triangle that is wholly in a plane `n·x = c` is not hit by a ray from a point with `n·o = 0` unless `t (n·d) = c`. -/
theorem triangle_misses (s : Triangle ℝ) (ray : Ray ℝ) (hd : ray.direction ≠ V3.zero) (n : V3 ℝ) (c : ℝ)
    (h0 : Spec.inner n s.v0 = c) (h1 : Spec.inner n s.v1 = c) (h2 : Spec.inner n s.v2 = c) (ho : Spec.inner n ray.origin = 0)
    (hmiss : ∀ t, 0 < t → t ≤ ray.tMax → t * Spec.inner n ray.direction ≠ c) : s.toShape.intersectP ray = some false := by
  obtain ⟨hne, hhit⟩ := c38_triangle_hit_real s ray hd
  change s.intersectP ray = _
  rw [c40_triangle]
  cases h : s.intersect ray with
  | none => exact absurd h hne
  | some r =>
    cases r with
    | none => rfl
    | some x =>
      obtain ⟨i, t⟩ := x
      obtain ⟨a, b, hp, b0, b1, b2, hw, hm, -⟩ := hhit i t h
      exfalso
      apply hmiss t a b
      have e : Spec.inner n (pointAt ray t) = t * Spec.inner n ray.direction := by
        have : Spec.inner n (pointAt ray t) = Spec.inner n ray.origin + t * Spec.inner n ray.direction := by
          unfold Spec.inner pointAt; simp only []; ring
        rw [this, ho, zero_add]
      have e' : Spec.inner n (mix b0 b1 b2 s.v0 s.v1 s.v2) = c := by
        have : Spec.inner n (mix b0 b1 b2 s.v0 s.v1 s.v2) =
            b0 * Spec.inner n s.v0 + b1 * Spec.inner n s.v1 + b2 * Spec.inner n s.v2 := by
          unfold Spec.inner mix; simp only []; ring
        rw [this, h0, h1, h2, ← add_mul, ← add_mul, hw.2.2.2, one_mul]
      rw [← e, ← hp, hm, e']

/-- C75 is false of the code: there is a scene of two triangles and a distant light, and a point on the first triangle from
which the direction of the light meets the second one, but the shadow ray reports that the light is not occluded. -/
theorem c75_shadow_ray_refuted [HasNext ℝ] (l : Spectrum ℝ) (mat : Material ℝ) :
    ∃ (scene : Scene ℝ) (light : LightObj ℝ) (smp : LightSample ℝ) (refI : Interaction ℝ) (t : ℝ),
      (((Builder.new.addShape 0 (Demo.floorTriangle mat).toShape).addShape 1 (Demo.cornerTriangle mat).toShape).addLight 2
        (distant l ⟨2, 1, 2⟩)).construct (fun ss => (Simple.new ss).map Simple.toContainer) = some scene ∧
      scene.lights = [light] ∧ refI.p = (Demo.floorTriangle mat).v0 ∧ light.light.sampleLi refI ⟨0, 0⟩ = some smp ∧
      0 < t ∧ along refI.p t ⟨2, 1, 2⟩ = mix (1 / 3) (1 / 3) (1 / 3) (Demo.cornerTriangle mat).v0 (Demo.cornerTriangle mat).v1 (Demo.cornerTriangle mat).v2 ∧
      Spec.inner (planeNormal (Demo.cornerTriangle mat)) ⟨2, 1, 2⟩ ≠ 0 ∧
      scene.intersectP smp.vis.ray = some false := by
  have hbb : bboxOfShapes [(⟨0, (Demo.floorTriangle mat).toShape⟩ : Obj ℝ), ⟨1, (Demo.cornerTriangle mat).toShape⟩] =
      some ⟨⟨0, 0, 0⟩, ⟨2, 1, 2⟩⟩ := by
    have e0 : (Demo.floorTriangle mat).toShape.bbox = ⟨⟨0, 0, 0⟩, ⟨2, 1, 2⟩⟩ := by
      change (Demo.floorTriangle mat).bbox = _
      unfold Triangle.bbox Demo.floorTriangle BBox3.new BBox3.unionPoint V3.min V3.max
      real_ops
      norm_num
    have e1 : (Demo.cornerTriangle mat).toShape.bbox = ⟨⟨1.99988, 0.99991, 1.99988⟩, ⟨1.99992, 0.99999, 1.99992⟩⟩ := by
      change (Demo.cornerTriangle mat).bbox = _
      unfold Triangle.bbox Demo.cornerTriangle BBox3.new BBox3.unionPoint V3.min V3.max
      real_ops
      norm_num
    simp only [bboxOfShapes, List.foldl_cons, List.foldl_nil, e0, e1]
    unfold BBox3.union V3.min V3.max
    real_ops
    norm_num
  have hw : (V3.mk (2 : ℝ) 1 2) ≠ V3.zero := by
    intro h; have := congrArg V3.y h; norm_num [V3.zero, r_lit] at this
  have h9 : Real.sqrt 9 = 3 := by rw [show (9 : ℝ) = 3 ^ 2 by norm_num, Real.sqrt_sq (by norm_num)]
  have hsq : Real.sqrt (Spec.sq (V3.mk (2 : ℝ) 1 2)) = 3 := by unfold Spec.sq; norm_num [h9]
  have hrad : radius ⟨⟨0, 0, 0⟩, ⟨2, 1, 2⟩⟩ = 3 / 2 := by
    unfold radius diff
    simp only [sub_zero]
    rw [hsq]
  let refI : Interaction ℝ := { Interaction.default with p := ⟨0, 0, 0⟩ }
  have hs := distant_sample l ⟨2, 1, 2⟩ hw ⟨⟨0, 0, 0⟩, ⟨2, 1, 2⟩⟩ (by intro a; cases a <;> norm_num [V3.get]) refI ⟨0, 0⟩
  rw [hsq, hrad] at hs
  refine ⟨⟨[⟨2, distant l ⟨2, 1, 2⟩ ⟨⟨0, 0, 0⟩, ⟨2, 1, 2⟩⟩⟩],
    Simple.toContainer ⟨[⟨0, (Demo.floorTriangle mat).toShape⟩, ⟨1, (Demo.cornerTriangle mat).toShape⟩], ⟨⟨0, 0, 0⟩, ⟨2, 1, 2⟩⟩⟩⟩,
    _, _, refI, 0.99995, ?_, rfl, rfl, hs, by norm_num, ?_, ?_, ?_⟩
  · simp only [Builder.construct, Builder.sceneBBox, Builder.new, Builder.addShape, Builder.addLight, List.nil_append,
      List.cons_append, List.isEmpty_cons, Bool.false_eq_true, if_false, hbb, Simple.new, Option.map_some, List.foldl_nil,
      Option.bind_eq_bind, Option.bind_some, List.map_cons, List.map_nil, Option.pure_def]
  · simp only [refI]
    unfold along mix Demo.cornerTriangle
    ext <;> norm_num
  · norm_num [planeNormal, Spec.inner, vcross, diff, Demo.cornerTriangle]
  · dsimp only
    rw [shadow_ray_exact refI rfl]
    have hray : (Ray.mk refI.p (diff (along refI.p (2 * (3 / 2) / 3) ⟨2, 1, 2⟩) refI.p) (9999 / 10000) : Ray ℝ) =
        ⟨⟨0, 0, 0⟩, ⟨2, 1, 2⟩, 9999 / 10000⟩ := by
      simp only [refI]; unfold diff along; norm_num
    rw [hray]
    have m0 := triangle_misses (Demo.floorTriangle mat) ⟨⟨0, 0, 0⟩, ⟨2, 1, 2⟩, 9999 / 10000⟩ hw ⟨2, -4, 2⟩ 0
      (by norm_num [Spec.inner, Demo.floorTriangle]) (by norm_num [Spec.inner, Demo.floorTriangle])
      (by norm_num [Spec.inner, Demo.floorTriangle]) (by norm_num [Spec.inner])
      (by intro t ht _; norm_num [Spec.inner]; exact ht.ne')
    have m1 := triangle_misses (Demo.cornerTriangle mat) ⟨⟨0, 0, 0⟩, ⟨2, 1, 2⟩, 9999 / 10000⟩ hw ⟨2, 1, 2⟩ (9 * 0.99995)
      (by norm_num [Spec.inner, Demo.cornerTriangle]) (by norm_num [Spec.inner, Demo.cornerTriangle])
      (by norm_num [Spec.inner, Demo.cornerTriangle]) (by norm_num [Spec.inner])
      (by intro t _ ht h; norm_num [Spec.inner] at h ht; linarith)
    change Simple.intersectP _ _ = _
    unfold Simple.intersectP
    split_ifs
    · rfl
    · simp only [anyHit, m0, m1, Option.bind_some, Option.bind_eq_bind, Bool.false_eq_true, if_false, Option.pure_def]

/-! ### C65 -/

namespace Spec
/-- One call on the builder; the address is where the allocator puts the object. -/
inductive BuilderCall (α : Type) where
  | light (addr : Nat) (l : BBox3 α → Light α)
  | shape (addr : Nat) (s : Shape α)
  | area (addr : Nat) (a : AreaLight α)

/-- The builder after a history of calls. -/
def built {α : Type} (hist : List (BuilderCall α)) : Builder α :=
  hist.foldl (fun b c => match c with
    | .light addr l => b.addLight addr l
    | .shape addr s => b.addShape addr s
    | .area addr a => b.addAreaLight addr a) Builder.new

/-- The lights added by the calls, in order, prepared for the box. -/
def addedLights {α : Type} (box : BBox3 α) : List (BuilderCall α) → List (LightObj α)
  | [] => []
  | .light addr l :: h => ⟨addr, l box⟩ :: addedLights box h
  | _ :: h => addedLights box h

/-- The shapes added by the calls, in order. -/
def addedShapes {α : Type} : List (BuilderCall α) → List (Obj α)
  | [] => []
  | .shape addr s :: h => ⟨addr, s⟩ :: addedShapes h
  | _ :: h => addedShapes h

/-- The area lights added by the calls, in order. -/
def addedAreas {α : Type} : List (BuilderCall α) → List (Nat × AreaLight α)
  | [] => []
  | .area addr a :: h => (addr, a) :: addedAreas h
  | _ :: h => addedAreas h

/-- The area lights as lights. -/
def asLights {α : Type} [Scalar α] [Libm α] (l : List (Nat × AreaLight α)) : List (LightObj α) := l.map fun a => ⟨a.1, a.2.toLight⟩
/-- The area lights as shapes: objects at the same addresses. -/
def asShapes {α : Type} [Scalar α] [Libm α] (l : List (Nat × AreaLight α)) : List (Obj α) := l.map fun a => ⟨a.1, a.2.toShape⟩
/-- All the shapes of the scene. -/
def sceneShapes {α : Type} [Scalar α] [Libm α] (hist : List (BuilderCall α)) : List (Obj α) := addedShapes hist ++ asShapes (addedAreas hist)
end Spec

section
variable {α : Type} [Scalar α] [Libm α]

theorem built_fields (hist : List (BuilderCall α)) (box : BBox3 α) :
    (built hist).lights.map (fun l => (⟨l.1, l.2 box⟩ : LightObj α)) = addedLights box hist ∧
    (built hist).shapes = addedShapes hist ∧ (built hist).areaLights = addedAreas hist := by
  have key : ∀ (hist : List (BuilderCall α)) (b : Builder α),
      ((hist.foldl (fun b c => match c with
        | .light addr l => b.addLight addr l
        | .shape addr s => b.addShape addr s
        | .area addr a => b.addAreaLight addr a) b).lights.map (fun l => (⟨l.1, l.2 box⟩ : LightObj α)) =
          b.lights.map (fun l => (⟨l.1, l.2 box⟩ : LightObj α)) ++ addedLights box hist) ∧
      ((hist.foldl (fun b c => match c with
        | .light addr l => b.addLight addr l
        | .shape addr s => b.addShape addr s
        | .area addr a => b.addAreaLight addr a) b).shapes = b.shapes ++ addedShapes hist) ∧
      ((hist.foldl (fun b c => match c with
        | .light addr l => b.addLight addr l
        | .shape addr s => b.addShape addr s
        | .area addr a => b.addAreaLight addr a) b).areaLights = b.areaLights ++ addedAreas hist) := by
    intro hist
    induction hist with
    | nil => intro b; simp [addedLights, addedShapes, addedAreas]
    | cons c hist ih =>
      intro b
      simp only [List.foldl_cons]
      obtain ⟨h1, h2, h3⟩ := ih (match c with
        | .light addr l => b.addLight addr l
        | .shape addr s => b.addShape addr s
        | .area addr a => b.addAreaLight addr a)
      rw [h1, h2, h3]
      cases c <;> simp [addedLights, addedShapes, addedAreas, Builder.addLight, Builder.addShape, Builder.addAreaLight]
  have h := key hist Builder.new
  simp only [Builder.new, List.map_nil, List.nil_append] at h
  exact h

theorem area_fold (l : List (Nat × AreaLight α)) : ∀ (L : List (LightObj α)) (S : List (Obj α)),
    l.foldl (fun (acc : List (LightObj α) × List (Obj α)) a =>
      (acc.1 ++ [⟨a.1, a.2.toLight⟩], acc.2 ++ [⟨a.1, a.2.toShape⟩])) (L, S) = (L ++ asLights l, S ++ asShapes l) := by
  induction l with
  | nil => intro L S; simp [asLights, asShapes]
  | cons a l ih => intro L S; simp only [List.foldl_cons]; rw [ih]; simp [asLights, asShapes]

/-- C65, any arithmetic: whatever the history of calls, construction computes one box, and then gives exactly the added lights
in order prepared for that box and followed by the area lights, and a container made of the added shapes followed by the
same area-light objects; it panics exactly when making the container panics. -/
theorem c65_construct (hist : List (BuilderCall α)) (container : List (Obj α) → Option (Container α)) :
    ∃ box, (built hist).sceneBBox = some box ∧
      (∀ scene, (built hist).construct container = some scene →
        scene.lights = addedLights box hist ++ asLights (addedAreas hist) ∧ container (sceneShapes hist) = some scene.shapes) ∧
      ((built hist).construct container = none ↔ container (sceneShapes hist) = none) := by
  obtain ⟨box, hb⟩ : ∃ box, (built hist).sceneBBox = some box := by
    unfold Builder.sceneBBox
    cases h : (built hist).shapes with
    | nil => exact ⟨_, rfl⟩
    | cons s ss => exact ⟨_, rfl⟩
  obtain ⟨h1, h2, h3⟩ := built_fields hist box
  refine ⟨box, hb, ?_⟩
  have e : (built hist).construct container =
      (container (sceneShapes hist)).map fun c => ⟨addedLights box hist ++ asLights (addedAreas hist), c⟩ := by
    unfold Builder.construct sceneShapes
    simp only [hb, Option.bind_eq_bind, Option.bind_some, area_fold, h1, h2, h3]
    cases container (addedShapes hist ++ asShapes (addedAreas hist)) <;> rfl
  rw [e]
  cases h : container (sceneShapes hist) with
  | none => simp
  | some c =>
    refine ⟨?_, by simp⟩
    intro scene hsc
    simp only [Option.map_some, Option.some.injEq] at hsc
    subst hsc
    exact ⟨rfl, rfl⟩

/-- C65: with the simple container, construction panics exactly when there is no shape and no area light. -/
theorem c65_panics_simple (hist : List (BuilderCall α)) :
    (built hist).construct (fun ss => (Simple.new ss).map Simple.toContainer) = none ↔ addedShapes hist = [] ∧ addedAreas hist = [] := by
  obtain ⟨box, -, -, h⟩ := c65_construct hist (fun ss => (Simple.new ss).map Simple.toContainer)
  rw [h]
  have : ∀ ss : List (Obj α), (Simple.new ss).map Simple.toContainer = none ↔ ss = [] := by
    intro ss; cases ss <;> simp [Simple.new, bboxOfShapes]
  rw [this]
  simp [sceneShapes, asShapes]
end

section
variable {φ K : Type} [Field K] [LinearOrder K] [IsStrictOrderedRing K] [FloorRing K] [Rounding φ K] [Libm (Fl φ K)]

/-- C65: with the k-d tree, for shapes with finite boxes, construction panics exactly when there is no shape and no area light. -/
theorem c65_panics_kdtree (hist : List (BuilderCall (Fl φ K))) (hss : FiniteBoxes (sceneShapes hist)) (depth : Option Nat) :
    (built hist).construct (fun ss => (KdTree.new ss depth).map KdTree.toContainer) = none ↔
      addedShapes hist = [] ∧ addedAreas hist = [] := by
  obtain ⟨box, -, -, h⟩ := c65_construct hist (fun ss => (KdTree.new ss depth).map KdTree.toContainer)
  rw [h, Option.map_eq_none_iff, KdTree.c28_build_total _ hss]
  simp [sceneShapes, asShapes]

/-- C65, floating point with any rounding: the box given to the lights contains the box of every shape and of every area light. -/
theorem c65_box (hist : List (BuilderCall (Fl φ K))) (hss : ∀ s ∈ sceneShapes hist, NoNaN s.shape.bbox) :
    ∃ box, (built hist).sceneBBox = some box ∧ NoNaN box ∧ ∀ s ∈ sceneShapes hist, Contains box s.shape.bbox := by
  obtain ⟨-, h2, h3⟩ := built_fields hist (BBox3.new V3.zero V3.zero)
  have hfold : ∀ (l : List (Nat × AreaLight (Fl φ K))) (b : BBox3 (Fl φ K)),
      l.foldl (fun x a => x.union a.2.toShape.bbox) b = (asShapes l).foldl (fun b s => b.union s.shape.bbox) b := by
    intro l
    induction l with
    | nil => intro b; rfl
    | cons a l ih => intro b; exact ih _
  unfold sceneShapes at hss ⊢
  unfold Builder.sceneBBox
  rw [h2, h3]
  have ha : ∀ s ∈ asShapes (addedAreas hist), NoNaN s.shape.bbox := fun s hs => hss s (List.mem_append_right _ hs)
  have hs : ∀ s ∈ addedShapes hist, NoNaN s.shape.bbox := fun s hs => hss s (List.mem_append_left _ hs)
  obtain ⟨b0, hb0, hn0, hc0⟩ : ∃ b0, (if (addedShapes hist).isEmpty then some (BBox3.new V3.zero V3.zero) else bboxOfShapes (addedShapes hist)) = some b0 ∧
      NoNaN b0 ∧ ∀ s ∈ addedShapes hist, Contains b0 s.shape.bbox := by
    cases hsh : addedShapes hist with
    | nil =>
      refine ⟨_, rfl, ?_, by simp⟩
      have hz : NoNaN3 (V3.zero : V3 (Fl φ K)) := by intro a; cases a <;> simp [V3.zero, V3.get, Fl.lit_zero]
      exact (c33_new hz hz).1
    | cons s ss =>
      rw [hsh] at hs
      obtain ⟨h, h'⟩ := c33_bbox_of_shapes (s :: ss) hs
      cases hb : bboxOfShapes (s :: ss) with
      | none => exact absurd (h.1 hb) (by simp)
      | some b => exact ⟨b, by simp [hb], (h' b hb).1, (h' b hb).2.1⟩
  obtain ⟨f1, f2, f3, -⟩ := foldl_union (asShapes (addedAreas hist)) b0 hn0 ha
  refine ⟨(addedAreas hist).foldl (fun x a => x.union a.2.toShape.bbox) b0, ?_, ?_, ?_⟩
  · dsimp only
    split_ifs at hb0 ⊢ with h
    · rw [hb0]; rfl
    · rw [hb0]; rfl
  · rw [hfold]; exact f1
  · intro s hs
    rw [hfold]
    rcases List.mem_append.1 hs with h | h
    · exact Spec.Contains.trans f2 (hc0 s h)
    · exact f3 s h
end

/-- A history with a distant light, an area light and a shape; the area light comes last in both lists. -/
example (l : Spectrum ℝ) (w : V3 ℝ) (t1 t2 : Triangle ℝ) (box : BBox3 ℝ) :
    let hist : List (BuilderCall ℝ) := [.area 5 ⟨l, t1.toShape⟩, .light 6 (distant l w), .shape 7 t2.toShape]
    addedLights box hist ++ asLights (addedAreas hist) = [⟨6, distant l w box⟩, ⟨5, (AreaLight.mk l t1.toShape).toLight⟩] ∧
    sceneShapes hist = [⟨7, t2.toShape⟩, ⟨5, (AreaLight.mk l t1.toShape).toShape⟩] := ⟨rfl, rfl⟩

/-! ### C69 -/

namespace Spec
/-- The density with respect to solid angle at `p` of the direction to a point `q` chosen uniformly by area on a flat surface with
unit normal `n` and area `A`: distance² / (A |cos θ|). -/
noncomputable def solidAngleDensity (p q n : V3 ℝ) (A : ℝ) : ℝ :=
  Spec.sq (diff q p) / (A * |Spec.inner (diff q p) n / Real.sqrt (Spec.sq (diff q p))|)
/-- The area of a triangle. -/
noncomputable def triangleArea (s : Triangle ℝ) : ℝ := Real.sqrt (Spec.sq (planeNormal s)) / 2
end Spec

theorem area_pdf (s : Triangle ℝ) (l : Spectrum ℝ) (refI : Interaction ℝ) (w : V3 ℝ) :
    (AreaLight.mk l s.toShape).toLight.pdfLi refI w = 1 / triangleArea s := by
  change (lit 1 : ℝ) /. s.area = _
  unfold Triangle.area triangleArea
  rw [length_eq]
  have hpn : (s.v1.sub s.v0).cross (s.v2.sub s.v0) = planeNormal s := by
    unfold planeNormal vcross diff V3.cross V3.sub; real_ops
  rw [hpn]
  real_ops
  norm_num
  ring

/-- C69 where it holds, exact arithmetic: the pdf reported with a sample of a triangle light, and for any direction, is one over
its area; times distance² / |cos θ| it is the solid-angle density, so it is that density exactly when distance² = |cos θ|. -/
theorem c69_area_pdf_partial (s : Triangle ℝ) (hs : planeNormal s ≠ V3.zero) (l : Spectrum ℝ) (refI : Interaction ℝ) (u : V2 ℝ) :
    ∃ smp, (AreaLight.mk l s.toShape).toLight.sampleLi refI u = some smp ∧
      smp.pdf = (AreaLight.mk l s.toShape).toLight.pdfLi refI smp.wi ∧
      (let d := Spec.sq (diff smp.vis.p1.p refI.p)
       let c := |Spec.inner (diff smp.vis.p1.p refI.p) smp.vis.p1.n / Real.sqrt d|
       smp.pdf * (d / c) = solidAngleDensity refI.p smp.vis.p1.p smp.vis.p1.n (triangleArea s) ∧
       (c ≠ 0 → (smp.pdf = solidAngleDensity refI.p smp.vis.p1.p smp.vis.p1.n (triangleArea s) ↔ d = c))) := by
  have hA : 0 < triangleArea s := by
    unfold triangleArea
    exact div_pos (Real.sqrt_pos.2 (sq_pos hs)) (by norm_num)
  refine ⟨_, rfl, rfl, ?_⟩
  dsimp only
  have e := area_pdf s l refI
  change ∀ w, s.toShape.pdf refI w = _ at e
  rw [e]
  unfold solidAngleDensity
  generalize |Spec.inner (diff (s.sample u).p refI.p) (s.sample u).n / Real.sqrt (Spec.sq (diff (s.sample u).p refI.p))| = c
  generalize Spec.sq (diff (s.sample u).p refI.p) = d
  refine ⟨by rw [div_mul_div_comm, one_mul], fun hc => ?_⟩
  rw [div_eq_div_iff hA.ne' (by positivity)]
  constructor
  · intro h
    have : triangleArea s * c = triangleArea s * d := by linarith
    exact (mul_left_cancel₀ hA.ne' this).symm
  · intro h; rw [h]; ring

open MeasureTheory in
/-- C69 is false of the code: integrated over all directions (any measure of total mass `4π`, as solid angle is), the reported pdf
gives `4π / area`.  A density gives 1, so it is not one unless the area is `4π`. -/
theorem c69_not_a_density (s : Triangle ℝ) (l : Spectrum ℝ) (refI : Interaction ℝ) {Ω : Type} [MeasurableSpace Ω] (μ : Measure Ω)
    (hμ : μ Set.univ = ENNReal.ofReal (4 * Real.pi)) (dir : Ω → V3 ℝ) :
    ∫ ω, (AreaLight.mk l s.toShape).toLight.pdfLi refI (dir ω) ∂μ = 4 * Real.pi / triangleArea s := by
  simp only [area_pdf]
  rw [integral_const]
  simp only [Measure.real, hμ, smul_eq_mul]
  rw [ENNReal.toReal_ofReal (by positivity)]
  ring

/-- A concrete case: a light of area 8 seen from distance 1 from its plane straight below the sample; the solid-angle density is
1/8 there, but at distance 2 it is 1/2, and the reported value is 1/8 both times. -/
theorem c69_refuted (l : Spectrum ℝ) (mat : Material ℝ) :
    ∃ (s : Triangle ℝ) (refI : Interaction ℝ) (u : V2 ℝ) (smp : LightSample ℝ),
      (AreaLight.mk l s.toShape).toLight.sampleLi refI u = some smp ∧ smp.pdf = 1 / 8 ∧
      solidAngleDensity refI.p smp.vis.p1.p smp.vis.p1.n (triangleArea s) = 1 / 2 := by
  let s : Triangle ℝ := ⟨⟨0, 0, 0⟩, ⟨4, 0, 0⟩, ⟨0, 4, 0⟩, none, false, mat⟩
  have hpn : planeNormal s = ⟨0, 0, 16⟩ := by simp only [s]; unfold planeNormal vcross diff; norm_num
  have hsq : Real.sqrt (Spec.sq (planeNormal s)) = 16 := by
    rw [hpn]; simp only [Spec.sq]; rw [Real.sqrt_eq_iff_eq_sq] <;> norm_num
  have hA : triangleArea s = 8 := by unfold triangleArea; rw [hsq]; norm_num
  have hne : planeNormal s ≠ V3.zero := by
    rw [hpn]; intro h; have := congrArg V3.z h; norm_num [V3.zero, r_lit] at this
  have hn : (s.sample ⟨1 / 4, 1 / 2⟩).n = ⟨0, 0, 1⟩ := by
    rw [(c42_triangle_sample s hne).2.1]
    unfold orientedNormal
    rw [hsq, hpn]
    simp only [s]
    unfold scale; norm_num
  have hp : (s.sample ⟨1 / 4, 1 / 2⟩).p = ⟨1, 1, 0⟩ := by
    have h4 : Real.sqrt (1 / 4) = 1 / 2 := by
      rw [show (1 / 4 : ℝ) = (1 / 2) ^ 2 by norm_num, Real.sqrt_sq (by norm_num)]
    simp only [s]
    unfold Triangle.sample V3.smul V3.add
    real_ops
    rw [h4]; norm_num
  refine ⟨s, { Interaction.default with p := ⟨1, 1, 2⟩ }, ⟨1 / 4, 1 / 2⟩, _, rfl, ?_, ?_⟩
  · have e := area_pdf s l { Interaction.default with p := ⟨1, 1, 2⟩ }
    rw [hA] at e
    exact e (((s.sample ⟨1 / 4, 1 / 2⟩).p.sub ⟨1, 1, 2⟩).normalize)
  · dsimp only
    rw [hn, hp, hA]
    have h4 : Real.sqrt 4 = 2 := by rw [show (4 : ℝ) = 2 ^ 2 by norm_num, Real.sqrt_sq (by norm_num)]
    unfold solidAngleDensity Spec.sq Spec.inner diff
    norm_num [h4]

end PT
