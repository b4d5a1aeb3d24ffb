import Verif.Props.Transform

/-! # The perspective camera (C52) -/

namespace PT
namespace Spec

/-- The point of the screen window that belongs to the raster position `p`: raster x runs from the left to the right
edge, raster y from the top to the bottom edge. -/
noncomputable def screenPoint (wmin wmax : V2 ℝ) (res : V2 Nat) (p : V2 ℝ) : V3 ℝ :=
  ⟨wmin.x + p.x / res.x * (wmax.x - wmin.x), wmax.y - p.y / res.y * (wmax.y - wmin.y), 0⟩

/-- A placement without scaling. -/
def Rigid (t : Transform ℝ) : Prop := ∀ v, sq (t.apply vectorTransform v) = sq v

end Spec
open Spec

variable {cw : Transform ℝ} {wmin wmax : V2 ℝ} {res : V2 Nat} {fov n f : ℝ}

theorem scale_builtAffine {wmin wmax : V2 ℝ} {res : V2 Nat} (hx : wmin.x < wmax.x) (hy : wmin.y < wmax.y)
    (rx : 0 < res.x) (ry : 0 < res.y) (cw cs : Transform ℝ) :
    BuiltAffine (PerspectiveCamera.new cw cs wmin wmax res).screenToRaster := by
  simp only [PerspectiveCamera.new]
  refine .mul _ _ (.mul _ _ (.scale _ _ _ ?_ ?_ ?_) (.scale _ _ _ ?_ ?_ ?_)) (.translate _ _ _) <;> real_ops
  · exact_mod_cast rx.ne'
  · exact_mod_cast ry.ne'
  · exact one_ne_zero
  · exact one_div_ne_zero (by linarith)
  · exact one_div_ne_zero (by linarith)
  · exact one_ne_zero

/-- C52: raster positions map linearly to the screen window. -/
theorem c52_raster_to_screen (cw cs : Transform ℝ) (hx : wmin.x < wmax.x) (hy : wmin.y < wmax.y)
    (rx : 0 < res.x) (ry : 0 < res.y) (p : V2 ℝ) :
    (PerspectiveCamera.new cw cs wmin wmax res).rasterToScreen.apply pointTransform ⟨p.x, p.y, 0⟩
      = screenPoint wmin wmax res p := by
  set c := PerspectiveCamera.new cw cs wmin wmax res with hc
  have hb := scale_builtAffine hx hy rx ry cw cs
  have key : c.screenToRaster.apply pointTransform (screenPoint wmin wmax res p) = ⟨p.x, p.y, 0⟩ := by
    have ha := (builtAffine_affine hb).1
    have e := pointTransform_affine (mi := c.screenToRaster.mInv) ha (screenPoint wmin wmax res p)
    rw [Transform.apply, e]
    have h1 : wmax.x - wmin.x ≠ 0 := by linarith
    have h2 : wmin.y - wmax.y ≠ 0 := by linarith
    have h3 : (res.x : ℝ) ≠ 0 := by exact_mod_cast rx.ne'
    have h4 : (res.y : ℝ) ≠ 0 := by exact_mod_cast ry.ne'
    ext <;>
      simp [hc, PerspectiveCamera.new, Transform.mul, Transform.scale, Transform.translate, Matrix.mul, screenPoint,
        r_add, r_mul, r_div, r_neg, r_lit, r_sub, r_ofInt]
    · field_simp; ring
    · field_simp; ring
  have := (c49_inverse_undoes _ hb (screenPoint wmin wmax res p)).1
  rw [key] at this
  exact this

/-- C52: the film's corners are the screen window's corners. -/
theorem c52_corners (cw cs : Transform ℝ) (hx : wmin.x < wmax.x) (hy : wmin.y < wmax.y)
    (rx : 0 < res.x) (ry : 0 < res.y) :
    let c := PerspectiveCamera.new cw cs wmin wmax res
    c.rasterToScreen.apply pointTransform ⟨0, 0, 0⟩ = ⟨wmin.x, wmax.y, 0⟩ ∧
    c.rasterToScreen.apply pointTransform ⟨res.x, res.y, 0⟩ = ⟨wmax.x, wmin.y, 0⟩ := by
  have h3 : (res.x : ℝ) ≠ 0 := by exact_mod_cast rx.ne'
  have h4 : (res.y : ℝ) ≠ 0 := by exact_mod_cast ry.ne'
  refine ⟨(c52_raster_to_screen cw cs hx hy rx ry ⟨0, 0⟩).trans ?_,
    (c52_raster_to_screen cw cs hx hy rx ry ⟨res.x, res.y⟩).trans ?_⟩
  · simp [screenPoint]
  · simp [screenPoint, div_self h3, div_self h4]

/-- The camera-space point whose perspective image is the screen point `s`. -/
noncomputable def Spec.camPoint (fov n : ℝ) (s : V3 ℝ) : V3 ℝ :=
  let k := Real.tan (fov * (Real.pi / 180) / 2)
  ⟨n * k * s.x, n * k * s.y, n⟩

theorem perspective_camPoint (h0 : 0 < n) (h1 : n < f) (ht : Real.tan (fov * (Real.pi / 180) / 2) ≠ 0)
    (s : V3 ℝ) (hs : s.z = 0) :
    hweight (Transform.perspective fov n f).m (camPoint fov n s) = n ∧
    (Transform.perspective fov n f).apply pointTransform (camPoint fov n s) = s := by
  have hfn : f - n ≠ 0 := by linarith
  have hw : hweight (Transform.perspective fov n f).m (camPoint fov n s) = n := by
    simp [hweight, Transform.perspective, Transform.mul, Transform.scale, Transform.ofMatrix, Matrix.mul, toMat, hom,
      _root_.Matrix.mulVec, dotProduct, Fin.sum_univ_four, camPoint, r_add, r_mul, r_lit]
  refine ⟨hw, ?_⟩
  have hn : hweight (Transform.perspective fov n f).m (camPoint fov n s) ≠ 0 := by rw [hw]; exact h0.ne'
  apply hom_inj
  rw [Transform.apply, pointTransform_spec _ _ _ hn, hw]
  simp only [Transform.perspective, camPoint, toRadians, r_mul, r_div, r_lit, r_tan, r_pi, Rat.cast_ofNat]
  generalize Real.tan (fov * (Real.pi / 180) / 2) = k at *
  ext i
  fin_cases i <;>
    simp [Transform.perspective, Transform.mul, Transform.scale, Transform.ofMatrix, Matrix.mul, toMat, hom,
      _root_.Matrix.mulVec, dotProduct, Fin.sum_univ_four, camPoint, toRadians, r_add, r_mul, r_lit, r_div, r_neg,
      r_sub, r_tan, r_pi, hs]
  · field_simp
  · field_simp
  · right; field_simp; ring
  · field_simp

/-- The point in camera space computed by `generate_ray`. -/
theorem rasterToCamera_eq (h0 : 0 < n) (h1 : n < f) (ht : Real.tan (fov * (Real.pi / 180) / 2) ≠ 0)
    (hx : wmin.x < wmax.x) (hy : wmin.y < wmax.y) (rx : 0 < res.x) (ry : 0 < res.y) (p : V2 ℝ) :
    (PerspectiveCamera.new cw (Transform.perspective fov n f) wmin wmax res).rasterToCamera.apply pointTransform
      ⟨p.x, p.y, 0⟩ = camPoint fov n (screenPoint wmin wmax res p) := by
  set cs := Transform.perspective fov n f with hcs
  set c := PerspectiveCamera.new cw cs wmin wmax res with hc
  have hb := scale_builtAffine hx hy rx ry cw cs
  have hba : BuiltAffine c.rasterToScreen := .inverse _ hb
  have e1 : c.rasterToScreen.apply pointTransform ⟨p.x, p.y, 0⟩ = screenPoint wmin wmax res p :=
    c52_raster_to_screen cw cs hx hy rx ry p
  have hl := lawful_perspective h0 h1 ht
  obtain ⟨hw, ha⟩ := perspective_camPoint h0 h1 ht (screenPoint wmin wmax res p) rfl
  have hn : hweight cs.m (camPoint fov n (screenPoint wmin wmax res p)) ≠ 0 := by rw [hw]; exact h0.ne'
  have hinv := c49_inverse_apply_point cs hl _ hn
  have hwi : hweight cs.mInv (screenPoint wmin wmax res p) ≠ 0 := by
    have e2 := pointTransform_spec cs.m cs.mInv _ hn
    rw [show pointTransform (camPoint fov n (screenPoint wmin wmax res p)) cs.m cs.mInv = _ from ha] at e2
    simp only [hweight]
    rw [e2, _root_.Matrix.mulVec_smul, Pi.smul_apply, smul_eq_mul, _root_.Matrix.mulVec_mulVec, hl.2,
      _root_.Matrix.one_mulVec]
    simpa [hom] using hn
  rw [ha] at hinv
  rw [show c.rasterToCamera = cs.inverse.mul c.rasterToScreen from rfl, c48_compose_point, e1]
  · exact hinv
  · rw [affine_weight (builtAffine_affine hba).1]; exact one_ne_zero
  · rw [e1]; exact hwi

/-- C52: the ray starts at the camera-space origin's image (the eye), has unit direction, unlimited range, and some point
ahead of the eye on it projects exactly to the screen point of the film sample. -/
theorem c52_generate_ray [HasInf ℝ] (hcw : BuiltAffine cw) (hr : Rigid cw) (h0 : 0 < n) (h1 : n < f)
    (ht : Real.tan (fov * (Real.pi / 180) / 2) ≠ 0) (hx : wmin.x < wmax.x) (hy : wmin.y < wmax.y)
    (rx : 0 < res.x) (ry : 0 < res.y) (p : V2 ℝ) :
    let ray := (PerspectiveCamera.new cw (Transform.perspective fov n f) wmin wmax res).generateRay p
    ray.origin = cw.apply pointTransform ⟨0, 0, 0⟩ ∧ ray.tMax = HasInf.infinity ∧ sq ray.direction = 1 ∧
    ∃ t > 0, (Transform.perspective fov n f).apply pointTransform (cw.inverseApply pointTransform
        ⟨ray.origin.x + t * ray.direction.x, ray.origin.y + t * ray.direction.y, ray.origin.z + t * ray.direction.z⟩)
      = screenPoint wmin wmax res p := by
  intro ray
  set q := camPoint fov n (screenPoint wmin wmax res p) with hq
  have hq0 : q ≠ V3.zero := by
    intro e
    have := congrArg V3.z e
    simp [hq, camPoint, V3.zero, r_lit] at this
    linarith
  have hray : ray = cw.apply rayTransform { Ray.default with direction := q.normalize } := by
    have := rasterToCamera_eq (cw := cw) h0 h1 ht hx hy rx ry p
    simp only [ray, PerspectiveCamera.generateRay]
    simp only [r_lit, Rat.cast_zero]
    rw [this]
    rfl
  have ho : ray.origin = cw.apply pointTransform ⟨0, 0, 0⟩ := by
    rw [hray]; simp [Transform.apply, rayTransform, Ray.default, V3.zero, r_lit]
  have hd : ray.direction = cw.apply vectorTransform q.normalize := by rw [hray]; rfl
  refine ⟨ho, by rw [hray]; rfl, by rw [hd, hr, sq_normalize hq0], q.length, length_pos hq0, ?_⟩
  have hpt : (⟨ray.origin.x + q.length * ray.direction.x, ray.origin.y + q.length * ray.direction.y,
      ray.origin.z + q.length * ray.direction.z⟩ : V3 ℝ) = cw.apply pointTransform q := by
    have ha := (builtAffine_affine hcw).1
    rw [ho, hd]
    simp only [Transform.apply, pointTransform_affine ha, vectorTransform, V3.normalize, r_add, r_mul, r_div]
    have hl := (length_pos hq0).ne'
    ext <;> simp only [] <;> field_simp <;> ring
  rw [hpt, (c49_inverse_undoes cw hcw q).1]
  exact (perspective_camPoint h0 h1 ht (screenPoint wmin wmax res p) rfl).2

/-- `look_at` places the eye at `pos`, without scaling, looking along `look - pos`. -/
theorem c52_lookAt (pos look up : V3 ℝ) (h : up.cross (look.sub pos) ≠ V3.zero) :
    let cw := Transform.lookAt pos look up
    BuiltAffine cw ∧ Rigid cw ∧ cw.apply pointTransform ⟨0, 0, 0⟩ = pos ∧
    ∃ k > 0, cw.apply vectorTransform ⟨0, 0, 1⟩ = ⟨k * (look.x - pos.x), k * (look.y - pos.y), k * (look.z - pos.z)⟩ := by
  intro cw
  have hb : BuiltAffine cw := .lookAt _ _ _ h
  refine ⟨hb, ?_, ?_, ?_⟩
  · intro v
    obtain ⟨h1, h2, h3⟩ := lookAt_axes h
    simp only [cw, Transform.lookAt, Transform.apply, vectorTransform] at *
    generalize V3.normalize (look.sub pos) = d at *
    generalize (up.normalize.cross d).normalize = l at *
    simp only [Spec.sq, V3.cross, r_add, r_mul, r_sub] at *
    linear_combination (v.x ^ 2 + v.y ^ 2 * (d.x ^ 2 + d.y ^ 2 + d.z ^ 2)) * h2 + (v.z ^ 2 + v.y ^ 2) * h1
      + (2 * v.x * v.z - v.y ^ 2 * (l.x * d.x + l.y * d.y + l.z * d.z)) * h3
  · rw [Transform.apply, pointTransform_affine (builtAffine_affine hb).1]
    simp [cw, Transform.lookAt]
  · obtain ⟨_, _, hv⟩ := cross_normalize_ne h
    refine ⟨1 / (look.sub pos).length, one_div_pos.mpr (length_pos hv), ?_⟩
    ext <;> simp [cw, Transform.lookAt, Transform.apply, vectorTransform, V3.normalize, V3.sub, r_add, r_mul, r_sub, r_div] <;>
      ring

/-- Non-vacuity of C52: a 45 degree camera at (0, -4, 1) looking at the origin. -/
example : (V3.cross (⟨0, 0, 1⟩ : V3 ℝ) (V3.sub ⟨0, 0, 0⟩ ⟨0, -4, 1⟩) ≠ V3.zero) ∧
    Real.tan (45 * 2 * (Real.pi / 180) / 2) ≠ 0 ∧ (0 : ℝ) < 1 / 100 ∧ (1 / 100 : ℝ) < 1000 := by
  refine ⟨?_, ?_, by norm_num, by norm_num⟩
  · intro e
    have := congrArg V3.x e
    norm_num [V3.cross, V3.sub, V3.zero, r_mul, r_sub, r_lit] at this
  · rw [show (45 * 2 : ℝ) * (Real.pi / 180) / 2 = Real.pi / 4 by ring, Real.tan_pi_div_four]; exact one_ne_zero

end PT
