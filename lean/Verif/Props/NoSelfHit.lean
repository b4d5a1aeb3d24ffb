import Verif.Props.Lights
import Verif.Props.Interaction

/-!
# A surface does not hit itself (C107)

Bounce rays and shadow rays leave a surface from a point that is pushed off it by the rounding-error bound stored with the
hit.  In exact arithmetic that push is never to the wrong side: the surface the ray leaves is not found again by mistake,
whatever the neighbour operations of `next_float_*` are, as long as they go outward.
-/

namespace PT
open Spec

namespace Spec
/-- `i` is a point of the triangle that the library made: a reported hit, or a point sampled for lighting (of a triangle with
a non-zero area). -/
def MadeOn (s : Triangle ℝ) (i : Interaction ℝ) : Prop :=
  (∃ ray t, ray.direction ≠ V3.zero ∧ s.intersect ray = some (some (i, t))) ∨
  (planeNormal s ≠ V3.zero ∧ ∃ u, i = s.sample u)

/-- The two points are not on opposite sides of the plane through `p` with normal `n`. -/
def NotAcross (n p a b : V3 ℝ) : Prop :=
  (0 ≤ inner n (diff a p) → 0 ≤ inner n (diff b p)) ∧ (inner n (diff a p) < 0 → inner n (diff b p) ≤ 0)
end Spec

/-- If the ray is in the triangle's plane nowhere in its range, unless it is parallel to it, then it does not hit. -/
theorem triangle_missed (s : Triangle ℝ) (ray : Ray ℝ) (hd : ray.direction ≠ V3.zero)
    (h : ∀ t, 0 < t → t ≤ ray.tMax → inner (planeNormal s) (diff (pointAt ray t) s.v0) = 0 →
      inner (planeNormal s) ray.direction = 0) : s.intersect ray = some none := by
  obtain ⟨h0, h1⟩ := c38_triangle_hit_real s ray hd
  cases hi : s.intersect ray with
  | none => exact absurd hi h0
  | some r =>
    cases r with
    | none => rfl
    | some p =>
      obtain ⟨i, t⟩ := p
      obtain ⟨ht, htm, hp, b0, b1, b2, hw, hm, -⟩ := h1 i t hi
      exfalso
      have hz := h t ht htm (by
        rw [← hp, hm]
        obtain ⟨-, -, -, hs⟩ := hw
        have e : b0 = 1 - b1 - b2 := by linarith
        subst e
        unfold inner planeNormal vcross diff mix
        ring)
      obtain ⟨m, hm', hdom⟩ := maxAbsAxis_real ray.direction
      have hne := dominant_ne hd hdom
      have e := Triangle.intersect_eq s ray.origin ray.direction ray.tMax
      rw [hm'] at e
      change s.intersect ray = _ at e
      rw [e] at hi
      simp only [Option.map_some, Option.some.injEq] at hi
      by_cases hr : (Triangle.stage s ray.origin ray.direction m).rejects ray.tMax = true
      · rw [if_pos hr] at hi; cases hi
      have hr' := rejects_false (Bool.not_eq_true _ ▸ hr)
      have hdet := hr'.2.1
      have hpl := det_plane s ray m hne
      rw [hz, neg_zero] at hpl
      exact hdet ((mul_eq_zero.1 hpl).resolve_right hne)

theorem gamma_real_nonneg (k : ℝ) (h0 : 0 ≤ k) (h1 : k ≤ 16) : 0 ≤ (gamma k : ℝ) := by
  unfold gamma machineEpsilon epsilon
  real_ops
  apply div_nonneg
  · positivity
  · norm_num; linarith

/-- What is used about a point of a triangle: unit normal along the plane's, non-negative error bounds, a point of the plane. -/
theorem madeOn_facts {s : Triangle ℝ} {i : Interaction ℝ} (h : MadeOn s i) :
    sq i.n = 1 ∧ (∃ c, c ≠ 0 ∧ i.n = scale c (planeNormal s)) ∧ (0 ≤ i.pErr.x ∧ 0 ≤ i.pErr.y ∧ 0 ≤ i.pErr.z) ∧
    inner (planeNormal s) (diff i.p s.v0) = 0 := by
  have hpn : (s.v1.sub s.v0).cross (s.v2.sub s.v0) = planeNormal s := by
    unfold planeNormal vcross diff V3.cross V3.sub; real_ops
  have hpn' : (s.v0.sub s.v2).cross (s.v1.sub s.v2) = planeNormal s := by
    unfold planeNormal vcross diff V3.cross V3.sub; real_ops; ext <;> simp only [] <;> ring
  have hg := gamma_real_nonneg 7 (by norm_num) (by norm_num)
  have hnorm : (planeNormal s).normalize = scale (1 / Real.sqrt (Spec.sq (planeNormal s))) (planeNormal s) := by
    unfold V3.normalize scale
    rw [length_eq]
    real_ops
    ext <;> simp only [] <;> ring
  have key : ∀ (hs : planeNormal s ≠ V3.zero) (b : Bool),
      sq (if b = true then (planeNormal s).normalize.smul ⊖(lit 1) else (planeNormal s).normalize) = 1 ∧
      ∃ c, c ≠ 0 ∧ (if b = true then (planeNormal s).normalize.smul ⊖(lit 1) else (planeNormal s).normalize) = scale c (planeNormal s) := by
    intro hs b
    have hl : 0 < Real.sqrt (Spec.sq (planeNormal s)) := Real.sqrt_pos.2 (sq_pos hs)
    have h1 := sq_normalize hs
    cases b
    · simp only [Bool.false_eq_true, if_false]
      exact ⟨h1, _, (one_div_pos.2 hl).ne', hnorm⟩
    · simp only [if_true]
      refine ⟨?_, -(1 / Real.sqrt (Spec.sq (planeNormal s))), (neg_neg_of_pos (one_div_pos.2 hl)).ne, ?_⟩
      · rw [← h1]; unfold V3.smul Spec.sq; real_ops; ring
      · rw [hnorm]; unfold V3.smul scale; real_ops; ext <;> simp only [] <;> ring
  have hplane : ∀ b0 b1 b2 : ℝ, b0 + b1 + b2 = 1 →
      inner (planeNormal s) (diff (((s.v0.smul b0).add (s.v1.smul b1)).add (s.v2.smul b2)) s.v0) = 0 := by
    intro b0 b1 b2 hs
    have e : b0 = 1 - b1 - b2 := by linarith
    subst e
    unfold inner planeNormal vcross diff V3.add V3.smul
    real_ops
    ring
  have herr : ∀ b0 b1 b2 : ℝ,
      let e := (((s.v0.smul b0).abs.add (s.v1.smul b1).abs).add (s.v2.smul b2).abs).smul (gamma (lit 7))
      0 ≤ e.x ∧ 0 ≤ e.y ∧ 0 ≤ e.z := by
    intro b0 b1 b2
    unfold V3.add V3.smul V3.abs
    real_ops
    exact ⟨by positivity, by positivity, by positivity⟩
  rcases h with ⟨ray, t, hd, hi⟩ | ⟨hs, u, rfl⟩
  · have hs : planeNormal s ≠ V3.zero := by
      intro e
      have := triangle_missed s ray hd (by intros; rw [e]; unfold inner V3.zero; real_ops; ring)
      rw [this] at hi; cases hi
    obtain ⟨b0, b1, b2, hb, rfl⟩ := hit_interactionAt s ray hd hi
    refine ⟨?_, ?_, herr b0 b1 b2, hplane b0 b1 b2 hb⟩
    · have := fun b => (key hs b).1
      unfold Triangle.interactionAt
      simp only [hpn']
      exact this _
    · have := fun b => (key hs b).2
      unfold Triangle.interactionAt
      simp only [hpn']
      exact this _
  · refine ⟨?_, ?_, herr _ _ _, hplane _ _ _ ?_⟩
    · have := (key hs s.reverseOrientation).1
      unfold Triangle.sample
      simp only [hpn]
      exact this
    · have := (key hs s.reverseOrientation).2
      unfold Triangle.sample
      simp only [hpn]
      exact this
    · real_ops; ring

/-- The pushed-off origin is on the ray's side of the tangent plane. -/
theorem origin_side [HasInf ℝ] (N : HasNext ℝ) (hN : OutwardNext N) (i : Interaction ℝ) (v : V3 ℝ) (hn : sq i.n = 1)
    (he : 0 ≤ i.pErr.x ∧ 0 ≤ i.pErr.y ∧ 0 ≤ i.pErr.z) :
    (0 ≤ inner i.n v → 0 ≤ inner i.n (diff (i.spawnRay v).origin i.p)) ∧
    (inner i.n v < 0 → inner i.n (diff (i.spawnRay v).origin i.p) ≤ 0) := by
  have := c44_clears_error_box N hN i v hn i.p (by simpa using he.1) (by simpa using he.2.1) (by simpa using he.2.2)
  exact this

/-- C107, exact arithmetic: a ray spawned at a point of a triangle (a reported hit, or a point sampled for lighting) never hits
that triangle, in whatever direction it goes; the occlusion test agrees. -/
theorem c107_triangle [HasInf ℝ] (N : HasNext ℝ) (hN : OutwardNext N) (s : Triangle ℝ) (i : Interaction ℝ) (hi : MadeOn s i)
    (v : V3 ℝ) (hv : v ≠ V3.zero) :
    s.intersect (i.spawnRay v) = some none ∧ s.intersectP (i.spawnRay v) = some false := by
  have hmain : s.intersect (i.spawnRay v) = some none := by
    obtain ⟨hn, ⟨c, hc, hcn⟩, he, hp⟩ := madeOn_facts hi
    apply triangle_missed s _ hv
    intro t ht _ h0
    change inner (planeNormal s) v = 0
    obtain ⟨h1, h2⟩ := origin_side N hN i v hn he
    have hdir : (i.spawnRay v).direction = v := rfl
    generalize (i.spawnRay v) = r at *
    have hsplit : inner i.n (diff r.origin i.p) + t * inner i.n v = 0 := by
      rw [hcn]
      unfold pointAt at h0
      rw [hdir] at h0
      unfold inner diff scale at *
      simp only [] at *
      linear_combination c * h0 - c * hp
    have hz : inner i.n v = 0 := by
      rcases lt_or_ge (inner i.n v) 0 with h | h
      · have := h2 h; nlinarith
      · have := h1 h; nlinarith
    rw [hcn] at hz
    have : c * inner (planeNormal s) v = 0 := by rw [← hz]; unfold inner scale; ring
    exact (mul_eq_zero.1 this).resolve_left hc
  refine ⟨hmain, ?_⟩
  rw [c40_triangle, hmain]; rfl

/-- A segment up to 99.99 % whose ends are not on opposite sides of the triangle's plane does not hit it. -/
theorem segment_missed (s : Triangle ℝ) (r : Ray ℝ) (hd : r.direction ≠ V3.zero) (ht : r.tMax < 1)
    (h : 0 ≤ inner (planeNormal s) (diff (pointAt r 0) s.v0) * inner (planeNormal s) (diff (pointAt r 1) s.v0)) :
    s.intersect r = some none := by
  apply triangle_missed s r hd
  intro t h0 h1 hz
  have ht1 : t < 1 := lt_of_le_of_lt h1 ht
  have e : ∀ t, inner (planeNormal s) (diff (pointAt r t) s.v0) =
      (1 - t) * inner (planeNormal s) (diff (pointAt r 0) s.v0) + t * inner (planeNormal s) (diff (pointAt r 1) s.v0) := by
    intro t; unfold inner diff pointAt; ring
  have ed : inner (planeNormal s) r.direction =
      inner (planeNormal s) (diff (pointAt r 1) s.v0) - inner (planeNormal s) (diff (pointAt r 0) s.v0) := by
    unfold inner diff pointAt; ring
  rw [e] at hz
  rw [ed]
  generalize inner (planeNormal s) (diff (pointAt r 0) s.v0) = A at *
  generalize inner (planeNormal s) (diff (pointAt r 1) s.v0) = B at *
  have hA : A = 0 := by
    have h2 : (1 - t) * A * A + t * (A * B) = 0 := by linear_combination A * hz
    have h3 : 0 ≤ t * (A * B) := mul_nonneg h0.le h
    have h4 : 0 ≤ A * A := mul_self_nonneg A
    have h5 : A * A = 0 := by nlinarith
    exact mul_self_eq_zero.1 h5
  subst hA
  have hB : t * B = 0 := by linarith
  have := (mul_eq_zero.1 hB).resolve_left h0.ne'
  rw [this]; ring

/-- C107 for shadow rays, exact arithmetic: the ray from a point of one surface to a point of another hits neither the triangle
it leaves nor the triangle it is aimed at, provided pushing the two end points off their surfaces does not carry either of them
across the other's plane. -/
theorem c107_shadow_ray [HasInf ℝ] (N : HasNext ℝ) (hN : OutwardNext N) (s s' : Triangle ℝ) (i j : Interaction ℝ)
    (hi : MadeOn s i) (hj : MadeOn s' j) (hd : (i.spawnRayTo j).direction ≠ V3.zero)
    (h : NotAcross i.n i.p j.p (j.spawnRay (i.p.sub j.p)).origin)
    (h' : NotAcross j.n j.p i.p (i.spawnRay (j.p.sub i.p)).origin) :
    s.intersect (i.spawnRayTo j) = some none ∧ s'.intersect (i.spawnRayTo j) = some none ∧
    s.intersectP (i.spawnRayTo j) = some false ∧ s'.intersectP (i.spawnRayTo j) = some false := by
  obtain ⟨k1, k2, k3, -⟩ := c45_shadow_ray N i j
  have ktm : (i.spawnRayTo j).tMax < 1 := by rw [k3]; norm_num
  have q0 : pointAt (i.spawnRayTo j) 0 = (i.spawnRay (j.p.sub i.p)).origin := by
    rw [← k1]; unfold pointAt; ext <;> simp only [] <;> ring
  have q1 : pointAt (i.spawnRayTo j) 1 = (j.spawnRay (i.p.sub j.p)).origin := by
    rw [← k2]; unfold pointAt Ray.position V3.add V3.smul; real_ops; ext <;> simp only [] <;> ring
  have main : ∀ (s : Triangle ℝ) (i j : Interaction ℝ) (o o' : V3 ℝ), MadeOn s i → o = (i.spawnRay (j.p.sub i.p)).origin →
      NotAcross i.n i.p j.p o' →
      0 ≤ inner (planeNormal s) (diff o s.v0) * inner (planeNormal s) (diff o' s.v0) := by
    intro s i j o o' hi ho h
    obtain ⟨hn, ⟨c, hc, hcn⟩, he, hp⟩ := madeOn_facts hi
    obtain ⟨h1, h2⟩ := origin_side N hN i (j.p.sub i.p) hn he
    rw [← ho] at h1 h2
    have hdd : inner i.n (j.p.sub i.p) = inner i.n (diff j.p i.p) := rfl
    rw [hdd] at h1 h2
    have e : ∀ x, inner i.n (diff x i.p) = c * inner (planeNormal s) (diff x s.v0) := by
      intro x
      rw [hcn]
      unfold inner diff scale at *
      simp only [] at *
      linear_combination (-c) * hp
    have hprod : 0 ≤ inner i.n (diff o i.p) * inner i.n (diff o' i.p) := by
      rcases lt_or_ge (inner i.n (diff j.p i.p)) 0 with hh | hh
      · exact mul_nonneg_of_nonpos_of_nonpos (h2 hh) (h.2 hh)
      · exact mul_nonneg (h1 hh) (h.1 hh)
    rw [e, e] at hprod
    have hc2 : 0 < c * c := mul_self_pos.2 hc
    have : c * inner (planeNormal s) (diff o s.v0) * (c * inner (planeNormal s) (diff o' s.v0)) =
      c * c * (inner (planeNormal s) (diff o s.v0) * inner (planeNormal s) (diff o' s.v0)) := by ring
    rw [this] at hprod
    exact nonneg_of_mul_nonneg_right hprod hc2
  have r1 : s.intersect (i.spawnRayTo j) = some none :=
    segment_missed s _ hd ktm (by rw [q0, q1]; exact main s i j _ _ hi rfl h)
  have r2 : s'.intersect (i.spawnRayTo j) = some none :=
    segment_missed s' _ hd ktm (by rw [q0, q1, mul_comm]; exact main s' j i _ _ hj rfl h')
  refine ⟨r1, r2, ?_, ?_⟩
  · rw [c40_triangle, r1]; rfl
  · rw [c40_triangle, r2]; rfl

/-- The error bound stored with a sphere hit. -/
theorem sphere_hit_pErr (s : Sphere ℝ) (hr : 0 < s.radius) (ray : Ray ℝ) (hd : ray.direction ≠ V3.zero)
    (i : Interaction ℝ) (t : ℝ) (h : s.intersect ray = some (i, t)) :
    let q := diff i.p s.center
    i.pErr = ⟨|q.x| * gamma 5, |q.y| * gamma 5, |q.z| * gamma 5⟩ := by
  intro q
  obtain ⟨-, -, hon, hp, -⟩ := c36_sphere_hit_real s hr ray hd i t h
  unfold Sphere.intersect at h
  simp only [Option.map_eq_some_iff] at h
  obtain ⟨t', ht', he⟩ := h
  have htt : t = t' := by
    have : (s.computeInteraction ⟨s.worldToLocal ray.origin, ray.direction, ray.tMax⟩ t').2 = t' := rfl
    change s.computeInteraction ⟨s.worldToLocal ray.origin, ray.direction, ray.tMax⟩ t' = _ at he
    rw [he] at this
    exact this
  subst htt
  have hq : (Ray.mk (s.worldToLocal ray.origin) ray.direction ray.tMax).position t = q := by
    unfold q
    rw [hp]
    unfold Ray.position Sphere.worldToLocal V3.add V3.neg V3.smul
    real_ops
    unfold diff pointAt
    ext <;> simp only [] <;> ring
  have hsq : Spec.sq q = s.radius ^ 2 := by unfold q; rw [hp]; exact hon
  have hlen : q.length = s.radius := by
    rw [length_eq, hsq, Real.sqrt_sq hr.le]
  have hscale : q.smul (s.radius /. q.length) = q := by
    rw [hlen]
    unfold V3.smul
    real_ops
    rw [div_self hr.ne']
    ext <;> simp only [mul_one]
  have hi : i = (s.computeInteraction ⟨s.worldToLocal ray.origin, ray.direction, ray.tMax⟩ t).1 := by
    change s.computeInteraction ⟨s.worldToLocal ray.origin, ray.direction, ray.tMax⟩ t = _ at he
    rw [he]
  clear_value q
  rw [hi]
  unfold Sphere.computeInteraction
  simp only [hq, hscale]
  unfold V3.abs V3.smul
  real_ops

/-- A point strictly beyond a tangent plane is outside the sphere. -/
theorem beyond_tangent {s : Sphere ℝ} {p x : V3 ℝ} (hp : OnSphere s.center s.radius p)
    (h : 0 < inner (diff p s.center) (diff x p)) : ¬ OnSphere s.center s.radius x := by
  unfold OnSphere at *
  unfold inner diff at *
  simp only [] at *
  intro hx
  nlinarith [sq_nonneg (x.x - p.x), sq_nonneg (x.y - p.y), sq_nonneg (x.z - p.z)]

/-- The pushed-off origin of a ray that leaves a sphere outward is strictly outside the tangent plane. -/
theorem sphere_origin_beyond [HasInf ℝ] (N : HasNext ℝ) (hN : OutwardNext N) (s : Sphere ℝ) (hr : 0 < s.radius) (ray : Ray ℝ)
    (hd : ray.direction ≠ V3.zero) (i : Interaction ℝ) (t : ℝ) (h : s.intersect ray = some (i, t)) (v : V3 ℝ)
    (hv : 0 ≤ inner i.n v) : 0 < inner (diff i.p s.center) (diff (i.spawnRay v).origin i.p) := by
  have hE := sphere_hit_pErr s hr ray hd i t h
  obtain ⟨-, -, hon, hp, hn, hn1, -⟩ := c36_sphere_hit_real s hr ray hd i t h
  have hg : 0 < (gamma 5 : ℝ) := by unfold gamma machineEpsilon epsilon; real_ops; norm_num
  simp only [] at hE
  set q := diff i.p s.center with hq
  have hsq : Spec.sq q = s.radius ^ 2 := by rw [hq, hp]; exact hon
  have key := (c44_clears_error_box N hN i v hn1
    ⟨i.p.x + gamma 5 * q.x, i.p.y + gamma 5 * q.y, i.p.z + gamma 5 * q.z⟩
    (by rw [hE]; simp only [add_sub_cancel_left, abs_mul, abs_of_pos hg]; exact (mul_comm _ _).le)
    (by rw [hE]; simp only [add_sub_cancel_left, abs_mul, abs_of_pos hg]; exact (mul_comm _ _).le)
    (by rw [hE]; simp only [add_sub_cancel_left, abs_mul, abs_of_pos hg]; exact (mul_comm _ _).le)).1 hv
  rw [hn] at key
  generalize (i.spawnRay v).origin = o at *
  have hk : inner (scale (1 / s.radius) q) (o.sub ⟨i.p.x + gamma 5 * q.x, i.p.y + gamma 5 * q.y, i.p.z + gamma 5 * q.z⟩) =
      (1 / s.radius) * (inner q (diff o i.p) - gamma 5 * Spec.sq q) := by
    unfold inner scale V3.sub diff Spec.sq; real_ops; ring
  rw [hk, hsq] at key
  have h1 : 0 ≤ inner q (diff o i.p) - gamma 5 * s.radius ^ 2 :=
    nonneg_of_mul_nonneg_right key (one_div_pos.2 hr)
  have h2 : 0 < (gamma 5 : ℝ) * s.radius ^ 2 := mul_pos hg (pow_pos hr 2)
  linarith

/-- C107 for spheres, exact arithmetic: a ray spawned at a hit of a sphere in a direction that does not go into it never hits the
sphere; nor does a shadow ray from the hit to a point outside, provided its pushed-off end is outside too. -/
theorem c107_sphere [HasInf ℝ] (N : HasNext ℝ) (hN : OutwardNext N) (s : Sphere ℝ) (hr : 0 < s.radius) (ray : Ray ℝ)
    (hd : ray.direction ≠ V3.zero) (i : Interaction ℝ) (t : ℝ) (h : s.intersect ray = some (i, t)) :
    (∀ v, v ≠ V3.zero → 0 ≤ inner i.n v →
      s.intersect (i.spawnRay v) = none ∧ s.intersectP (i.spawnRay v) = false) ∧
    (∀ j : Interaction ℝ, (i.spawnRayTo j).direction ≠ V3.zero → 0 ≤ inner i.n (diff j.p i.p) →
      0 ≤ inner i.n (diff (j.spawnRay (i.p.sub j.p)).origin i.p) →
      s.intersect (i.spawnRayTo j) = none ∧ s.intersectP (i.spawnRayTo j) = false) := by
  obtain ⟨-, -, hon, hp, hn, hn1, -⟩ := c36_sphere_hit_real s hr ray hd i t h
  have hon' : OnSphere s.center s.radius i.p := by rw [hp]; exact hon
  have hinn : ∀ w, inner (diff i.p s.center) w = s.radius * inner i.n w := by
    intro w; rw [hn]; unfold inner scale; field_simp
  have miss : ∀ r : Ray ℝ, r.direction ≠ V3.zero →
      (∀ t, 0 < t → t < r.tMax → 0 < inner (diff i.p s.center) (diff (pointAt r t) i.p)) →
      s.intersect r = none ∧ s.intersectP r = false := by
    intro r hrd hout
    have hnone : s.hasIntersection ⟨s.worldToLocal r.origin, r.direction, r.tMax⟩ = none := by
      cases hh : s.hasIntersection ⟨s.worldToLocal r.origin, r.direction, r.tMax⟩ with
      | none => rfl
      | some t' =>
        obtain ⟨h0, h1, h2, -⟩ := (hasIntersection_spec s r hrd).1 t' hh
        exact absurd h2 (beyond_tangent hon' (hout t' h0 h1))
    unfold Sphere.intersect Sphere.intersectP
    simp only [hnone]
    exact ⟨rfl, rfl⟩
  constructor
  · intro v hv hnv
    have ho := sphere_origin_beyond N hN s hr ray hd i t h v hnv
    apply miss _ hv
    intro t' h0 _
    have e : inner (diff i.p s.center) (diff (pointAt (i.spawnRay v) t') i.p) =
        inner (diff i.p s.center) (diff (i.spawnRay v).origin i.p) + t' * inner (diff i.p s.center) v := by
      change inner _ (diff (pointAt ⟨(i.spawnRay v).origin, v, (i.spawnRay v).tMax⟩ t') i.p) = _
      unfold pointAt inner diff
      simp only []
      ring
    rw [e, hinn v]
    have : 0 ≤ t' * (s.radius * inner i.n v) := by positivity
    linarith
  · intro j hjd hj hj'
    obtain ⟨k1, k2, k3, -⟩ := c45_shadow_ray N i j
    have ho := sphere_origin_beyond N hN s hr ray hd i t h (j.p.sub i.p) hj
    have q1 : pointAt (i.spawnRayTo j) 1 = (j.spawnRay (i.p.sub j.p)).origin := by
      rw [← k2]; unfold pointAt Ray.position V3.add V3.smul; real_ops; ext <;> simp only [] <;> ring
    apply miss _ hjd
    intro t' h0 h1
    rw [k3] at h1
    have e : inner (diff i.p s.center) (diff (pointAt (i.spawnRayTo j) t') i.p) =
        (1 - t') * inner (diff i.p s.center) (diff (i.spawnRayTo j).origin i.p) +
        t' * inner (diff i.p s.center) (diff (pointAt (i.spawnRayTo j) 1) i.p) := by
      unfold pointAt inner diff
      simp only []
      ring
    rw [e, q1, k1, hinn (diff (j.spawnRay (i.p.sub j.p)).origin i.p)]
    have a1 : 0 < (1 - t') * inner (diff i.p s.center) (diff (i.spawnRay (j.p.sub i.p)).origin i.p) :=
      mul_pos (by linarith) ho
    have a2 : 0 ≤ t' * (s.radius * inner i.n (diff (j.spawnRay (i.p.sub j.p)).origin i.p)) := by positivity
    linarith

/-! ### Concrete cases -/

/-- A flat triangle at height `z`. -/
noncomputable def Demo.slab (z : ℝ) : Triangle ℝ :=
  ⟨⟨0, 0, z⟩, ⟨4, 0, z⟩, ⟨0, 4, z⟩, none, false, fun i => BSDF.new i⟩

theorem Demo.slab_plane (z : ℝ) : planeNormal (Demo.slab z) = ⟨0, 0, 16⟩ := by
  unfold planeNormal Demo.slab vcross diff; norm_num

theorem Demo.slab_ne (z : ℝ) : planeNormal (Demo.slab z) ≠ V3.zero := by
  rw [Demo.slab_plane]; intro h; have := congrArg V3.z h; norm_num [V3.zero, r_lit] at this

/-- A hit of the slab: `c107_triangle` applies to it, in every direction. -/
example : ∃ i, MadeOn (Demo.slab 0) i ∧ i.p = ⟨1, 1, 0⟩ ∧
    ∃ ray t, (Demo.slab 0).intersect ray = some (some (i, t)) := by
  obtain ⟨i, h1, h2, -⟩ := c39_triangle_complete (Demo.slab 0)
    ⟨⟨1, 1, -1⟩, ⟨0, 0, 1⟩, 10⟩ (1 / 2) (1 / 4) (1 / 4) 1 (by norm_num [Weights])
    (by unfold pointAt mix Demo.slab; ext <;> norm_num) (by rw [Demo.slab_plane]; norm_num [Spec.inner])
    (by
      intro m hm
      have hz := hm .Z
      cases m
      · norm_num [V3.get] at hz
      · norm_num [V3.get] at hz
      · unfold errorThreshold rayCoord maxAbs errFactor diff Demo.slab
        simp only [V3.get, Axis.prev, Axis.next]
        norm_num [abs_of_pos, abs_of_neg, max_def]) (by norm_num)
  refine ⟨i, Or.inl ⟨_, _, ?_, h1⟩, ?_, _, _, h1⟩
  · intro h; have := congrArg V3.z h; norm_num [V3.zero, r_lit] at this
  · rw [h2]; unfold pointAt; ext <;> norm_num

/-- A shadow ray from a point of the slab at height 0 to one of the slab at height 2 meets the hypotheses of `c107_shadow_ray`. -/
example [HasInf ℝ] : let N : HasNext ℝ := ⟨id, id⟩
    let i := (Demo.slab 0).sample ⟨1 / 4, 1 / 2⟩
    let j := (Demo.slab 2).sample ⟨1 / 4, 1 / 2⟩
    OutwardNext N ∧ MadeOn (Demo.slab 0) i ∧ MadeOn (Demo.slab 2) j ∧ (i.spawnRayTo j).direction ≠ V3.zero ∧
    NotAcross i.n i.p j.p (j.spawnRay (i.p.sub j.p)).origin ∧ NotAcross j.n j.p i.p (i.spawnRay (j.p.sub i.p)).origin := by
  intro N i j
  have h4 : Real.sqrt (1 / 4) = 1 / 2 := by
    rw [show (1 / 4 : ℝ) = (1 / 2) ^ 2 by norm_num, Real.sqrt_sq (by norm_num)]
  have hn : ∀ z, ((Demo.slab z).sample ⟨1 / 4, 1 / 2⟩).n = ⟨0, 0, 1⟩ := by
    intro z
    rw [(c42_triangle_sample _ (Demo.slab_ne z)).2.1]
    unfold orientedNormal
    have hsq : Real.sqrt (Spec.sq (planeNormal (Demo.slab z))) = 16 := by
      rw [Demo.slab_plane]; simp only [Spec.sq]; rw [Real.sqrt_eq_iff_eq_sq] <;> norm_num
    rw [hsq, Demo.slab_plane]
    unfold Demo.slab scale; norm_num
  have hp : ∀ z, ((Demo.slab z).sample ⟨1 / 4, 1 / 2⟩).p = ⟨1, 1, z⟩ := by
    intro z
    unfold Triangle.sample Demo.slab V3.smul V3.add
    real_ops
    rw [h4]; ext <;> norm_num <;> ring
  have he : ∀ z, 0 ≤ z → ((Demo.slab z).sample ⟨1 / 4, 1 / 2⟩).pErr.z = z * gamma 7 := by
    intro z hz
    unfold Triangle.sample Demo.slab V3.smul V3.add V3.abs
    real_ops
    rw [h4, abs_of_nonneg, abs_of_nonneg, abs_of_nonneg] <;> first | (ring; done) | (norm_num; done) | (norm_num; linarith) | nlinarith
  have hg : (gamma 7 : ℝ) ≤ 1 / 100 := by unfold gamma machineEpsilon epsilon; real_ops; norm_num
  have hg0 := gamma_real_nonneg 7 (by norm_num) (by norm_num)
  have nud : ∀ o p : ℝ, Interaction.nudge o p = p := by intro o p; unfold Interaction.nudge; split_ifs <;> rfl
  have oz : ∀ (k : Interaction ℝ) (v : V3 ℝ), k.n = ⟨0, 0, 1⟩ →
      (k.offsetRayOrigin v).z = k.p.z + (if v.z < 0 then -k.pErr.z else k.pErr.z) := by
    intro k v hk
    unfold Interaction.offsetRayOrigin
    simp only [nud, hk]
    unfold V3.dot V3.abs V3.smul V3.add
    real_ops
    norm_num
    split_ifs <;> norm_num
  have hN : OutwardNext N := fun x => ⟨le_refl _, le_refl _⟩
  have hij : (j.p.sub i.p) = ⟨0, 0, 2⟩ := by unfold i j; rw [hp, hp]; unfold V3.sub; real_ops; norm_num
  have hji : (i.p.sub j.p) = ⟨0, 0, -2⟩ := by unfold i j; rw [hp, hp]; unfold V3.sub; real_ops; norm_num
  have oi : (i.offsetRayOrigin (j.p.sub i.p)).z = 0 := by
    rw [oz _ _ (hn 0), hij]; rw [hp, he 0 (le_refl _)]; norm_num
  have oj : (j.offsetRayOrigin (i.p.sub j.p)).z = 2 - 2 * gamma 7 := by
    rw [oz _ _ (hn 2), hji]; rw [hp, he 2 (by norm_num)]; norm_num; ring
  refine ⟨hN, Or.inr ⟨Demo.slab_ne 0, _, rfl⟩, Or.inr ⟨Demo.slab_ne 2, _, rfl⟩, ?_, ?_, ?_⟩
  · intro h
    have hz := congrArg V3.z h
    have hneg : (j.p.sub i.p).neg = i.p.sub j.p := by ext <;> simp only [V3.sub, V3.neg] <;> real_ops <;> ring
    unfold Interaction.spawnRayTo at hz
    simp only [hneg] at hz
    change (j.offsetRayOrigin (i.p.sub j.p)).z - (i.offsetRayOrigin (j.p.sub i.p)).z = _ at hz
    rw [oi, oj] at hz
    norm_num [V3.zero, r_lit] at hz
    linarith
  · unfold NotAcross
    change (_ → 0 ≤ inner i.n (diff (j.offsetRayOrigin (i.p.sub j.p)) i.p)) ∧ (_ → inner i.n (diff (j.offsetRayOrigin (i.p.sub j.p)) i.p) ≤ 0)
    unfold inner diff
    simp only [oj]
    rw [show i.n = ⟨0, 0, 1⟩ from hn 0, show i.p = ⟨1, 1, 0⟩ from hp 0, show j.p = ⟨1, 1, 2⟩ from hp 2]
    norm_num
    linarith
  · unfold NotAcross
    change (_ → 0 ≤ inner j.n (diff (i.offsetRayOrigin (j.p.sub i.p)) j.p)) ∧ (_ → inner j.n (diff (i.offsetRayOrigin (j.p.sub i.p)) j.p) ≤ 0)
    unfold inner diff
    simp only [oi]
    rw [show j.n = ⟨0, 0, 1⟩ from hn 2, show i.p = ⟨1, 1, 0⟩ from hp 0, show j.p = ⟨1, 1, 2⟩ from hp 2]
    norm_num

/-- A hit of a sphere and an outward direction, as `c107_sphere` asks for. -/
example (mat : Material ℝ) : ∃ i t v, (Sphere.mk ⟨2, 2, 2⟩ 1 mat).intersect ⟨⟨2, 0, 2⟩, ⟨0, 1, 0⟩, 10⟩ = some (i, t) ∧
    v ≠ V3.zero ∧ 0 ≤ inner i.n v := by
  have hd : (⟨0, 1, 0⟩ : V3 ℝ) ≠ V3.zero := by
    intro h; have := congrArg V3.y h; norm_num [V3.zero, r_lit] at this
  obtain ⟨i, t, h, -⟩ := c37_sphere_complete (Sphere.mk ⟨2, 2, 2⟩ 1 mat) ⟨⟨2, 0, 2⟩, ⟨0, 1, 0⟩, 10⟩ hd 1 (by norm_num) (by norm_num)
    (by norm_num [OnSphere, pointAt])
  obtain ⟨-, -, -, -, -, hn, -⟩ := c36_sphere_hit_real _ (by norm_num) _ hd i t h
  refine ⟨i, t, i.n, h, ?_, ?_⟩
  · intro e; rw [e] at hn; norm_num [Spec.sq, V3.zero, r_lit] at hn
  · unfold inner; nlinarith [sq_nonneg i.n.x, sq_nonneg i.n.y, sq_nonneg i.n.z]

end PT
