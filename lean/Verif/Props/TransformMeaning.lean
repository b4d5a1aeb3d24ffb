import Verif.Props.Camera

/-!
# C80: what the elementary transforms do; C52: where camera rays go
-/

namespace PT

namespace Spec
/-- Vector product. -/
def vprod (a b : V3 ℝ) : V3 ℝ := ⟨a.y * b.z - a.z * b.y, a.z * b.x - a.x * b.z, a.x * b.y - a.y * b.x⟩
/-- Scalar product. -/
def sprod (a b : V3 ℝ) : ℝ := a.x * b.x + a.y * b.y + a.z * b.z
/-- Multiple of a vector. -/
def times (c : ℝ) (a : V3 ℝ) : V3 ℝ := ⟨c * a.x, c * a.y, c * a.z⟩
/-- Sum of vectors. -/
def plus (a b : V3 ℝ) : V3 ℝ := ⟨a.x + b.x, a.y + b.y, a.z + b.z⟩
/-- Rodrigues' formula: `v` turned about the unit vector `k` by the angle `t` (radians), counterclockwise if `k` points at the viewer
(in right-handed coordinates). -/
noncomputable def turned (k : V3 ℝ) (t : ℝ) (v : V3 ℝ) : V3 ℝ :=
  plus (times (Real.cos t) v) (plus (times (Real.sin t) (vprod k v)) (times (sprod k v * (1 - Real.cos t)) k))
/-- Degrees to radians. -/
noncomputable def degrees (d : ℝ) : ℝ := d * (Real.pi / 180)
end Spec
open Spec

/-- C80: translation moves points by the given offset and leaves vectors and normals alone. -/
theorem c80_translate (x y z : ℝ) (p : V3 ℝ) :
    (Transform.translate x y z).apply pointTransform p = ⟨p.x + x, p.y + y, p.z + z⟩ ∧
    (Transform.translate x y z).apply vectorTransform p = p ∧ (Transform.translate x y z).apply normalTransform p = p := by
  refine ⟨?_, ?_, ?_⟩
  · rw [Transform.apply, pointTransform_affine (builtAffine_affine (.translate x y z)).1]
    ext <;> simp [Transform.translate, r_lit]
  · ext <;> simp [Transform.apply, vectorTransform, Transform.translate, r_lit, r_add, r_mul]
  · ext <;> simp [Transform.apply, normalTransform, Transform.translate, r_lit, r_add, r_mul]

/-- C80: scaling multiplies the coordinates of points and vectors and divides those of normals. -/
theorem c80_scale (x y z : ℝ) (hx : x ≠ 0) (hy : y ≠ 0) (hz : z ≠ 0) (p : V3 ℝ) :
    (Transform.scale x y z).apply pointTransform p = ⟨x * p.x, y * p.y, z * p.z⟩ ∧
    (Transform.scale x y z).apply vectorTransform p = ⟨x * p.x, y * p.y, z * p.z⟩ ∧
    (Transform.scale x y z).apply normalTransform p = ⟨p.x / x, p.y / y, p.z / z⟩ := by
  refine ⟨?_, ?_, ?_⟩
  · rw [Transform.apply, pointTransform_affine (builtAffine_affine (.scale x y z hx hy hz)).1]
    ext <;> simp [Transform.scale, r_lit]
  · ext <;> simp [Transform.apply, vectorTransform, Transform.scale, r_lit, r_add, r_mul]
  · ext <;> simp [Transform.apply, normalTransform, Transform.scale, r_lit, r_add, r_mul, r_div] <;> ring

/-- C80: rotation about the x axis, for points, vectors and normals. -/
theorem c80_rotate_x (t : ℝ) (p : V3 ℝ) :
    (Transform.rotateX t).apply pointTransform p = turned ⟨1, 0, 0⟩ (degrees t) p ∧
    (Transform.rotateX t).apply vectorTransform p = turned ⟨1, 0, 0⟩ (degrees t) p ∧
    (Transform.rotateX t).apply normalTransform p = turned ⟨1, 0, 0⟩ (degrees t) p := by
  refine ⟨?_, ?_, ?_⟩
  · rw [Transform.apply, pointTransform_affine (builtAffine_affine (.rotateX t)).1]
    ext <;> simp [Transform.rotateX, computeSinCosInDegree, toRadians, r_lit, r_add, r_mul, r_div, r_neg, r_sin, r_cos, r_pi, turned, plus,
      times, vprod, sprod, degrees] <;> ring
  · ext <;> simp [Transform.apply, vectorTransform, Transform.rotateX, computeSinCosInDegree, toRadians, r_lit, r_add, r_mul, r_div, r_neg,
      r_sin, r_cos, r_pi, turned, plus, times, vprod, sprod, degrees] <;> ring
  · ext <;> simp [Transform.apply, normalTransform, Transform.rotateX, Matrix.transpose, computeSinCosInDegree, toRadians, r_lit, r_add, r_mul,
      r_div, r_neg, r_sin, r_cos, r_pi, turned, plus, times, vprod, sprod, degrees] <;> ring

/-- C80: rotation about the y axis. -/
theorem c80_rotate_y (t : ℝ) (p : V3 ℝ) :
    (Transform.rotateY t).apply pointTransform p = turned ⟨0, 1, 0⟩ (degrees t) p ∧
    (Transform.rotateY t).apply vectorTransform p = turned ⟨0, 1, 0⟩ (degrees t) p ∧
    (Transform.rotateY t).apply normalTransform p = turned ⟨0, 1, 0⟩ (degrees t) p := by
  refine ⟨?_, ?_, ?_⟩
  · rw [Transform.apply, pointTransform_affine (builtAffine_affine (.rotateY t)).1]
    ext <;> simp [Transform.rotateY, computeSinCosInDegree, toRadians, r_lit, r_add, r_mul, r_div, r_neg, r_sin, r_cos, r_pi, turned, plus,
      times, vprod, sprod, degrees] <;> ring
  · ext <;> simp [Transform.apply, vectorTransform, Transform.rotateY, computeSinCosInDegree, toRadians, r_lit, r_add, r_mul, r_div, r_neg,
      r_sin, r_cos, r_pi, turned, plus, times, vprod, sprod, degrees] <;> ring
  · ext <;> simp [Transform.apply, normalTransform, Transform.rotateY, Matrix.transpose, computeSinCosInDegree, toRadians, r_lit, r_add, r_mul,
      r_div, r_neg, r_sin, r_cos, r_pi, turned, plus, times, vprod, sprod, degrees] <;> ring

/-- C80: rotation about the z axis. -/
theorem c80_rotate_z (t : ℝ) (p : V3 ℝ) :
    (Transform.rotateZ t).apply pointTransform p = turned ⟨0, 0, 1⟩ (degrees t) p ∧
    (Transform.rotateZ t).apply vectorTransform p = turned ⟨0, 0, 1⟩ (degrees t) p ∧
    (Transform.rotateZ t).apply normalTransform p = turned ⟨0, 0, 1⟩ (degrees t) p := by
  refine ⟨?_, ?_, ?_⟩
  · rw [Transform.apply, pointTransform_affine (builtAffine_affine (.rotateZ t)).1]
    ext <;> simp [Transform.rotateZ, computeSinCosInDegree, toRadians, r_lit, r_add, r_mul, r_div, r_neg, r_sin, r_cos, r_pi, turned, plus,
      times, vprod, sprod, degrees] <;> ring
  · ext <;> simp [Transform.apply, vectorTransform, Transform.rotateZ, computeSinCosInDegree, toRadians, r_lit, r_add, r_mul, r_div, r_neg,
      r_sin, r_cos, r_pi, turned, plus, times, vprod, sprod, degrees] <;> ring
  · ext <;> simp [Transform.apply, normalTransform, Transform.rotateZ, Matrix.transpose, computeSinCosInDegree, toRadians, r_lit, r_add, r_mul,
      r_div, r_neg, r_sin, r_cos, r_pi, turned, plus, times, vprod, sprod, degrees] <;> ring

/-- C80, perspective: a point ahead of the eye goes to its picture on the plane at the distance where the field of view is two wide; the
planes at `n` and `f` go to depth 0 and 1. -/
theorem c80_perspective (fov n f : ℝ) (hf : n ≠ f) (ht : Real.tan (degrees fov / 2) ≠ 0) (p : V3 ℝ) (hz : p.z ≠ 0) :
    (Transform.perspective fov n f).apply pointTransform p =
      ⟨p.x / (p.z * Real.tan (degrees fov / 2)), p.y / (p.z * Real.tan (degrees fov / 2)), f * (p.z - n) / (p.z * (f - n))⟩ := by
  have hfn : f - n ≠ 0 := sub_ne_zero.2 hf.symm
  have hw : hweight (Transform.perspective fov n f).m p = p.z := by
    simp [hweight, Transform.perspective, Transform.mul, Transform.scale, Transform.ofMatrix, Matrix.mul, toMat, hom,
      _root_.Matrix.mulVec, dotProduct, Fin.sum_univ_four, r_add, r_mul, r_lit]
  apply hom_inj
  rw [Transform.apply, pointTransform_spec _ _ _ (by rw [hw]; exact hz), hw]
  simp only [degrees] at *
  generalize hk : Real.tan (fov * (Real.pi / 180) / 2) = k at *
  ext i
  fin_cases i <;>
    simp [Transform.perspective, Transform.mul, Transform.scale, Transform.ofMatrix, Matrix.mul, toMat, hom,
      _root_.Matrix.mulVec, dotProduct, Fin.sum_univ_four, toRadians, r_add, r_mul, r_lit, r_div, r_neg,
      r_sub, r_tan, r_pi, hk] <;> field_simp <;> ring

/-- C80: near and far plane. -/
theorem c80_perspective_depth (fov n f : ℝ) (h0 : 0 < n) (h1 : n < f) (ht : Real.tan (degrees fov / 2) ≠ 0) (x y : ℝ) :
    ((Transform.perspective fov n f).apply pointTransform ⟨x, y, n⟩).z = 0 ∧
    ((Transform.perspective fov n f).apply pointTransform ⟨x, y, f⟩).z = 1 := by
  have hfn : f - n ≠ 0 := by linarith
  have hf : f ≠ 0 := by linarith
  rw [c80_perspective fov n f h1.ne ht _ h0.ne', c80_perspective fov n f h1.ne ht _ hf]
  simp only [sub_self, mul_zero, zero_div, true_and]
  exact div_self (mul_ne_zero hf hfn)

theorem normalize_times (v : V3 ℝ) : v.normalize = times (1 / v.length) v := by
  ext <;> simp only [V3.normalize, times, r_div] <;> ring

/-- C80, the view: the axes of the camera placed by `look_at`. -/
theorem c80_look_at (pos look up : V3 ℝ) (h : vprod up (look.sub pos) ≠ ⟨0, 0, 0⟩) :
    let cw := Transform.lookAt pos look up
    let L := cw.apply vectorTransform ⟨1, 0, 0⟩
    let U := cw.apply vectorTransform ⟨0, 1, 0⟩
    let D := cw.apply vectorTransform ⟨0, 0, 1⟩
    (∀ q, cw.apply pointTransform q = plus pos (plus (times q.x L) (plus (times q.y U) (times q.z D)))) ∧
    (∃ c > 0, D = times c (look.sub pos)) ∧ (∃ c > 0, L = times c (vprod up (look.sub pos))) ∧ U = vprod D L ∧ 0 < sprod U up ∧
    sq D = 1 ∧ sq L = 1 ∧ sq U = 1 := by
  intro cw L U D
  have h' : up.cross (look.sub pos) ≠ V3.zero := by
    simpa [V3.cross, V3.zero, vprod, r_lit, r_mul, r_sub] using h
  obtain ⟨hv1, hv2, hv3⟩ := cross_normalize_ne h'
  obtain ⟨a1, a2, a3⟩ := lookAt_axes h'
  have hb : BuiltAffine cw := .lookAt _ _ _ h'
  set d := (look.sub pos).normalize with hd
  set l := (up.normalize.cross d).normalize with hl
  have eL : L = l := by ext <;> simp [L, cw, Transform.lookAt, Transform.apply, vectorTransform, r_add, r_mul, hl, hd]
  have eD : D = d := by ext <;> simp [D, cw, Transform.lookAt, Transform.apply, vectorTransform, r_add, r_mul, hd]
  have eU : U = vprod d l := by
    ext <;> simp [U, cw, Transform.lookAt, Transform.apply, vectorTransform, r_add, r_mul, r_sub, hl, hd, vprod, V3.cross]
  have hc : ∃ c > 0, D = times c (look.sub pos) := by
    refine ⟨1 / (look.sub pos).length, one_div_pos.mpr (length_pos hv3), ?_⟩
    rw [eD, hd]
    ext <;> simp [V3.normalize, times, r_div] <;> ring
  have hcl : ∃ c > 0, L = times c (vprod up (look.sub pos)) := by
    refine ⟨1 / (up.normalize.cross d).length * (1 / up.length * (1 / (look.sub pos).length)), ?_, ?_⟩
    · have h1 := length_pos hv1; have h2 := length_pos hv2; have h3 := length_pos hv3
      positivity
    · rw [eL, hl, normalize_times (up.normalize.cross d)]
      generalize 1 / (up.normalize.cross d).length = q
      rw [hd, normalize_times up, normalize_times (look.sub pos)]
      ext <;> simp only [times, V3.cross, vprod, r_mul, r_sub] <;> ring
  have hU : U = vprod D L := by rw [eU, eD, eL]
  have hD1 : sq D = 1 := by rw [eD]; exact a1
  have hL1 : sq L = 1 := by rw [eL]; exact a2
  refine ⟨fun q => ?_, hc, hcl, hU, ?_, hD1, hL1, ?_⟩
  · have hm : cw.m = ⟨l.x, (d.cross l).x, d.x, pos.x, l.y, (d.cross l).y, d.y, pos.y, l.z, (d.cross l).z, d.z, pos.z, lit 0, lit 0, lit 0, lit 1⟩ := rfl
    rw [eL, eD, eU, Transform.apply, pointTransform_affine (builtAffine_affine hb).1, hm]
    ext <;> simp only [plus, times, vprod, V3.cross, r_mul, r_sub] <;> ring
  · obtain ⟨c1, hc1, e1⟩ := hc
    obtain ⟨c2, hc2, e2⟩ := hcl
    rw [e2] at hL1
    have key : sprod U up = c1 * (1 / c2) * sq (times c2 (vprod up (look.sub pos))) := by
      rw [hU, e1, e2]
      simp only [sprod, vprod, times, Spec.sq]
      field_simp
      ring
    rw [key, hL1]
    positivity
  · rw [hU, eD, eL]
    simp only [Spec.sq, vprod] at *
    linear_combination (l.x ^ 2 + l.y ^ 2 + l.z ^ 2) * a1 + a2 - (l.x * d.x + l.y * d.y + l.z * d.z) * a3

/-- Non-vacuity of the hypotheses of C80: the view of the library's example (helloworld.rs:26-31). -/
example : vprod (⟨0, 0, 1⟩ : V3 ℝ) (V3.sub ⟨0, 0, 0⟩ ⟨-10, -30, 10⟩) ≠ ⟨0, 0, 0⟩ ∧ (0.01 : ℝ) ≠ 1000 ∧ (0 : ℝ) < 0.01 ∧ (0.01 : ℝ) < 1000 ∧
    Real.tan (degrees 30 / 2) ≠ 0 := by
  refine ⟨?_, by norm_num, by norm_num, by norm_num, ?_⟩
  · intro e
    have := congrArg V3.x e
    norm_num [vprod, V3.sub, r_sub] at this
  · refine (Real.tan_pos_of_pos_of_lt_pi_div_two ?_ ?_).ne' <;> simp only [degrees] <;> nlinarith [Real.pi_pos]

/-- C52: the ray of a film position, for a camera placed by `look_at`.  With `D` the viewing direction, `L` the unit vector along
`up × D` and `U = D × L`, the ray starts at the eye and goes along `D + k (s.x L + s.y U)`, where `s` is the point of the screen window at the
film position and `k` the tangent of half the field of view. -/
theorem c52_camera_ray [HasInf ℝ] {pos look up : V3 ℝ} {fov n f : ℝ} {wmin wmax : V2 ℝ} {res : V2 Nat}
    (h : vprod up (look.sub pos) ≠ ⟨0, 0, 0⟩) (h0 : 0 < n) (h1 : n < f) (ht : Real.tan (degrees fov / 2) ≠ 0)
    (hx : wmin.x < wmax.x) (hy : wmin.y < wmax.y) (rx : 0 < res.x) (ry : 0 < res.y) (p : V2 ℝ) :
    let ray := (PerspectiveCamera.new (Transform.lookAt pos look up) (Transform.perspective fov n f) wmin wmax res).generateRay p
    let s := screenPoint wmin wmax res p
    let k := Real.tan (degrees fov / 2)
    ray.origin = pos ∧ ray.tMax = HasInf.infinity ∧ sq ray.direction = 1 ∧
    ∃ L U D : V3 ℝ, (∃ c > 0, D = times c (look.sub pos)) ∧ (∃ c > 0, L = times c (vprod up (look.sub pos))) ∧ U = vprod D L ∧
      sq D = 1 ∧ sq L = 1 ∧ ∃ c > 0, ray.direction = times c (plus D (plus (times (k * s.x) L) (times (k * s.y) U))) := by
  intro ray s k
  have h' : up.cross (look.sub pos) ≠ V3.zero := by
    simpa [V3.cross, V3.zero, vprod, r_lit, r_mul, r_sub] using h
  obtain ⟨hb, hr, ho, _⟩ := c52_lookAt pos look up h'
  obtain ⟨_, hD, hL, hU, _, hD1, hL1, _⟩ := c80_look_at pos look up h
  obtain ⟨g1, g2, g3, _⟩ := c52_generate_ray (cw := Transform.lookAt pos look up) hb hr h0 h1 ht hx hy rx ry p
  refine ⟨g1.trans ho, g2, g3, _, _, _, hD, hL, hU, hD1, hL1, ?_⟩
  set q := camPoint fov n s with hq
  have hq0 : q ≠ V3.zero := by
    intro e
    have := congrArg V3.z e
    simp [hq, camPoint, V3.zero, r_lit] at this
    linarith
  have hd : ray.direction = (Transform.lookAt pos look up).apply vectorTransform q.normalize := by
    have := rasterToCamera_eq (cw := Transform.lookAt pos look up) h0 h1 ht hx hy rx ry p
    simp only [ray, PerspectiveCamera.generateRay]
    simp only [r_lit, Rat.cast_zero]
    rw [this]
    rfl
  refine ⟨n / q.length, div_pos h0 (length_pos hq0), ?_⟩
  rw [hd]
  have hk : Real.tan (fov * (Real.pi / 180) / 2) = k := rfl
  have hqq : q = ⟨n * k * s.x, n * k * s.y, n⟩ := by simp only [hq, camPoint, hk]
  generalize hlen : q.length = len
  ext <;> simp [Transform.apply, vectorTransform, V3.normalize, r_div, r_add, r_mul, plus, times, hlen] <;> rw [hqq] <;> ring

/-- C52: which way round the picture is.  Film positions right of the centre line of a symmetric window see what lies to the side of
`up × (look - pos)`; in right-handed coordinates that is the left-hand side of the eye, so the picture is the right way round for scenes given
in left-handed coordinates and mirrored for scenes given in right-handed ones. -/
theorem c52_left_handed [HasInf ℝ] {pos look up : V3 ℝ} {fov n f : ℝ} {wmin wmax : V2 ℝ} {res : V2 Nat}
    (h : vprod up (look.sub pos) ≠ ⟨0, 0, 0⟩) (h0 : 0 < n) (h1 : n < f) (hfov : 0 < fov ∧ fov < 180)
    (hx : wmin.x < wmax.x) (hy : wmin.y < wmax.y) (rx : 0 < res.x) (ry : 0 < res.y) (p : V2 ℝ) :
    let ray := (PerspectiveCamera.new (Transform.lookAt pos look up) (Transform.perspective fov n f) wmin wmax res).generateRay p
    0 < (screenPoint wmin wmax res p).x ↔ 0 < sprod ray.direction (vprod up (look.sub pos)) := by
  intro ray
  have hk : 0 < Real.tan (degrees fov / 2) := by
    refine Real.tan_pos_of_pos_of_lt_pi_div_two ?_ ?_ <;> simp only [degrees] <;> nlinarith [Real.pi_pos]
  obtain ⟨_, _, _, L, U, D, ⟨c1, hc1, e1⟩, ⟨c2, hc2, e2⟩, hU, hD1, hL1, c, hc, e⟩ := c52_camera_ray h h0 h1 hk.ne' hx hy rx ry p
  have hW : 0 < sq (vprod up (look.sub pos)) := by
    rw [e2] at hL1
    simp only [Spec.sq, times] at *
    by_contra hn
    nlinarith [sq_nonneg (vprod up (look.sub pos)).x, sq_nonneg (vprod up (look.sub pos)).y, sq_nonneg (vprod up (look.sub pos)).z, sq_pos_of_pos hc2]
  have key : sprod ray.direction (vprod up (look.sub pos)) =
      (c * c2 * Real.tan (degrees fov / 2) * sq (vprod up (look.sub pos))) * (screenPoint wmin wmax res p).x := by
    rw [show ray.direction = _ from e, hU, e1, e2]
    simp only [sprod, times, plus, vprod, Spec.sq]
    ring
  rw [key]
  exact (mul_pos_iff_of_pos_left (by positivity)).symm

end PT
