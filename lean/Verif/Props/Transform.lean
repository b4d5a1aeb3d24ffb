import Verif.Model.Camera
import Verif.Lemmas.Vec
import Mathlib.LinearAlgebra.Matrix.Determinant.Basic
import Mathlib.LinearAlgebra.Matrix.NonsingularInverse
import Mathlib.Tactic.FieldSimp
import Mathlib.Tactic.LinearCombination
import Mathlib.Tactic.FinCases

/-!
# Matrices and transforms (C46–C51)

The specification side is Mathlib's `Matrix (Fin 4) (Fin 4) ℝ` with its determinant, product and `mulVec`.
-/

namespace PT
namespace Spec

/-- The code's matrix as a mathematical matrix. -/
def toMat (m : Matrix ℝ) : _root_.Matrix (Fin 4) (Fin 4) ℝ :=
  !![m.m00, m.m01, m.m02, m.m03; m.m10, m.m11, m.m12, m.m13; m.m20, m.m21, m.m22, m.m23; m.m30, m.m31, m.m32, m.m33]

/-- Homogeneous coordinates of a point. -/
def hom (p : V3 ℝ) : Fin 4 → ℝ := ![p.x, p.y, p.z, 1]
/-- Homogeneous coordinates of a vector. -/
def homV (p : V3 ℝ) : Fin 4 → ℝ := ![p.x, p.y, p.z, 0]

/-- The transforms a user can build (restrictions exactly as in the text of C47). -/
inductive Built : Transform ℝ → Prop
  | translate (x y z : ℝ) : Built (Transform.translate x y z)
  | scale (x y z : ℝ) (hx : x ≠ 0) (hy : y ≠ 0) (hz : z ≠ 0) : Built (Transform.scale x y z)
  | rotateX (t : ℝ) : Built (Transform.rotateX t)
  | rotateY (t : ℝ) : Built (Transform.rotateY t)
  | rotateZ (t : ℝ) : Built (Transform.rotateZ t)
  | lookAt (pos look up : V3 ℝ) (h : up.cross (look.sub pos) ≠ V3.zero) : Built (Transform.lookAt pos look up)
  | perspective (fov n f : ℝ) (h0 : 0 < n) (h1 : n < f) (ht : Real.tan (fov * (Real.pi / 180) / 2) ≠ 0) :
      Built (Transform.perspective fov n f)
  | ofMatrix (m : Matrix ℝ) (h : (toMat m).det ≠ 0) : Built (Transform.ofMatrix m)
  | mul (s t : Transform ℝ) (hs : Built s) (ht : Built t) : Built (s.mul t)
  | inverse (t : Transform ℝ) (ht : Built t) : Built t.inverse

/-- The stored inverse is the two-sided inverse. -/
def Lawful (t : Transform ℝ) : Prop := toMat t.m * toMat t.mInv = 1 ∧ toMat t.mInv * toMat t.m = 1

/-- The homogeneous weight of the image of a point. -/
def hweight (m : Matrix ℝ) (p : V3 ℝ) : ℝ := (toMat m).mulVec (hom p) 3

end Spec
open Spec

theorem toMat_mul (a b : Matrix ℝ) : toMat (a.mul b) = toMat a * toMat b := by
  ext i j
  fin_cases i <;> fin_cases j <;>
    simp [toMat, Matrix.mul, _root_.Matrix.mul_apply, Fin.sum_univ_four, r_add, r_mul] <;> rfl

theorem toMat_transpose (a : Matrix ℝ) : toMat a.transpose = (toMat a).transpose := by
  ext i j
  fin_cases i <;> fin_cases j <;> rfl

theorem toMat_inj {a b : Matrix ℝ} (h : toMat a = toMat b) : a = b := by
  have e := fun i j => congrFun (congrFun h i) j
  ext
  · exact e 0 0
  · exact e 0 1
  · exact e 0 2
  · exact e 0 3
  · exact e 1 0
  · exact e 1 1
  · exact e 1 2
  · exact e 1 3
  · exact e 2 0
  · exact e 2 1
  · exact e 2 2
  · exact e 2 3
  · exact e 3 0
  · exact e 3 1
  · exact e 3 2
  · exact e 3 3

theorem det_eq (m : Matrix ℝ) : m.detExpr = (toMat m).det := by
  rw [_root_.Matrix.det_succ_row_zero]
  simp only [Fin.sum_univ_four, _root_.Matrix.det_fin_three]
  simp [toMat, _root_.Matrix.submatrix, Fin.succAbove, Matrix.detExpr, r_add, r_mul, r_sub]
  ring

/-- C46 -/
theorem c46_inverse_correct (m : Matrix ℝ) (h : (toMat m).det ≠ 0) :
    toMat m * toMat m.inverse = 1 ∧ toMat m.inverse * toMat m = 1 := by
  have h1 : toMat m * toMat m.inverse = 1 := by
    rw [← det_eq] at h
    ext i j
    fin_cases i <;> fin_cases j <;>
      simp only [toMat, Matrix.inverse, Matrix.sdiv, Matrix.cofactors, _root_.Matrix.mul_apply, Fin.sum_univ_four,
        r_add, r_mul, r_div, r_sub] <;>
      simp <;> field_simp <;> simp only [Matrix.detExpr, r_add, r_sub, r_mul] <;> ring
  exact ⟨h1, mul_eq_one_comm.mp h1⟩

/-- Non-vacuity of C46: a shear with translation. -/
example : (toMat ⟨2, 1, 0, 5, 0, 3, 1, 7, 1, 0, 1, 1, 0, 0, 0, 1⟩).det ≠ 0 := by
  rw [← det_eq]
  norm_num [Matrix.detExpr, r_add, r_mul, r_sub]

theorem lawful_of_left {t : Transform ℝ} (h : toMat t.m * toMat t.mInv = 1) : Lawful t :=
  ⟨h, mul_eq_one_comm.mp h⟩

theorem lawful_mul {s t : Transform ℝ} (hs : Lawful s) (ht : Lawful t) : Lawful (s.mul t) := by
  apply lawful_of_left
  simp only [Transform.mul, toMat_mul]
  calc toMat s.m * toMat t.m * (toMat t.mInv * toMat s.mInv)
      = toMat s.m * (toMat t.m * toMat t.mInv) * toMat s.mInv := by simp only [mul_assoc]
    _ = 1 := by rw [ht.1, mul_one, hs.1]

theorem lawful_ofMatrix (m : Matrix ℝ) (h : (toMat m).det ≠ 0) : Lawful ⟨m, m.inverse⟩ := c46_inverse_correct m h

theorem lawful_scale {x y z : ℝ} (hx : x ≠ 0) (hy : y ≠ 0) (hz : z ≠ 0) : Lawful (Transform.scale x y z) := by
  apply lawful_of_left
  ext i j
  fin_cases i <;> fin_cases j <;>
    simp [toMat, Transform.scale, _root_.Matrix.mul_apply, Fin.sum_univ_four, r_div, r_lit, hx, hy, hz]

theorem lawful_translate (x y z : ℝ) : Lawful (Transform.translate x y z) := by
  apply lawful_of_left
  ext i j
  fin_cases i <;> fin_cases j <;>
    simp [toMat, Transform.translate, _root_.Matrix.mul_apply, Fin.sum_univ_four, r_neg, r_lit]

theorem lawful_rotateX (t : ℝ) : Lawful (Transform.rotateX t) := by
  apply lawful_of_left
  have h := Real.sin_sq_add_cos_sq (t * (Real.pi / 180))
  ext i j
  fin_cases i <;> fin_cases j <;>
    simp [toMat, Transform.rotateX, Matrix.transpose, computeSinCosInDegree, toRadians, _root_.Matrix.mul_apply,
      Fin.sum_univ_four, r_neg, r_lit, r_sin, r_cos, r_mul, r_div, r_pi] <;> nlinarith

theorem lawful_rotateY (t : ℝ) : Lawful (Transform.rotateY t) := by
  apply lawful_of_left
  have h := Real.sin_sq_add_cos_sq (t * (Real.pi / 180))
  ext i j
  fin_cases i <;> fin_cases j <;>
    simp [toMat, Transform.rotateY, Matrix.transpose, computeSinCosInDegree, toRadians, _root_.Matrix.mul_apply,
      Fin.sum_univ_four, r_neg, r_lit, r_sin, r_cos, r_mul, r_div, r_pi] <;> nlinarith

theorem lawful_rotateZ (t : ℝ) : Lawful (Transform.rotateZ t) := by
  apply lawful_of_left
  have h := Real.sin_sq_add_cos_sq (t * (Real.pi / 180))
  ext i j
  fin_cases i <;> fin_cases j <;>
    simp [toMat, Transform.rotateZ, Matrix.transpose, computeSinCosInDegree, toRadians, _root_.Matrix.mul_apply,
      Fin.sum_univ_four, r_neg, r_lit, r_sin, r_cos, r_mul, r_div, r_pi] <;> nlinarith

/-- The axes of `look_at`: `d`, `left` orthonormal. -/
theorem lookAt_axes {pos look up : V3 ℝ} (h : up.cross (look.sub pos) ≠ V3.zero) :
    let d := (look.sub pos).normalize
    let left := (up.normalize.cross d).normalize
    sq d = 1 ∧ sq left = 1 ∧ left.x * d.x + left.y * d.y + left.z * d.z = 0 := by
  obtain ⟨h1, _, h3⟩ := cross_normalize_ne h
  refine ⟨sq_normalize h3, sq_normalize h1, ?_⟩
  generalize (look.sub pos).normalize = d at *
  have lp := (length_pos h1).ne'
  generalize up.normalize = u at *
  simp only [V3.normalize, r_div]
  field_simp
  simp only [V3.cross, r_mul, r_sub]
  ring

theorem lookAt_det {l d pos : V3 ℝ} (h1 : sq l = 1) (h2 : sq d = 1) (h3 : l.x * d.x + l.y * d.y + l.z * d.z = 0) :
    (⟨l.x, (d.cross l).x, d.x, pos.x, l.y, (d.cross l).y, d.y, pos.y, l.z, (d.cross l).z, d.z, pos.z, 0, 0, 0, 1⟩ :
      Matrix ℝ).detExpr = 1 := by
  simp only [Matrix.detExpr, V3.cross, r_add, r_mul, r_sub, Spec.sq] at *
  linear_combination (d.x ^ 2 + d.y ^ 2 + d.z ^ 2) * h1 + h2 - (l.x * d.x + l.y * d.y + l.z * d.z) * h3

theorem lawful_lookAt {pos look up : V3 ℝ} (h : up.cross (look.sub pos) ≠ V3.zero) :
    Lawful (Transform.lookAt pos look up) := by
  obtain ⟨h1, h2, h3⟩ := lookAt_axes h
  apply lawful_ofMatrix
  rw [← det_eq]
  have := lookAt_det (pos := pos) h2 h1 h3
  simp only [r_lit, Rat.cast_zero, Rat.cast_one]
  rw [this]
  exact one_ne_zero

theorem lawful_perspective {fov n f : ℝ} (h0 : 0 < n) (h1 : n < f)
    (ht : Real.tan (fov * (Real.pi / 180) / 2) ≠ 0) : Lawful (Transform.perspective fov n f) := by
  have hfn : f - n ≠ 0 := by linarith
  apply lawful_mul
  · apply lawful_scale
    · simp only [toRadians]; real_ops; exact one_div_ne_zero ht
    · simp only [toRadians]; real_ops; exact one_div_ne_zero ht
    · simp [r_lit]
  · apply lawful_ofMatrix
    rw [← det_eq]
    simp [Matrix.detExpr, r_add, r_mul, r_sub, r_lit, r_div, r_neg]
    exact ⟨⟨by linarith, by linarith⟩, hfn⟩

/-- C47 -/
theorem c47_built_lawful (t : Transform ℝ) (h : Built t) : Lawful t := by
  induction h with
  | translate x y z => exact lawful_translate x y z
  | scale x y z hx hy hz => exact lawful_scale hx hy hz
  | rotateX t => exact lawful_rotateX t
  | rotateY t => exact lawful_rotateY t
  | rotateZ t => exact lawful_rotateZ t
  | lookAt pos look up h => exact lawful_lookAt h
  | perspective fov n f h0 h1 ht => exact lawful_perspective h0 h1 ht
  | ofMatrix m h => exact lawful_ofMatrix m h
  | mul s t _ _ hs ht => exact lawful_mul hs ht
  | inverse t _ ht => exact ⟨ht.2, ht.1⟩

/-- Non-vacuity of C47: a camera placement composed with a squeeze. -/
example : Built ((Transform.lookAt ⟨1, 2, 3⟩ ⟨4, 4, 4⟩ ⟨0, 0, 1⟩).mul (Transform.scale 1 2 (-3)).inverse) := by
  refine .mul _ _ (.lookAt _ _ _ ?_) (.inverse _ (.scale _ _ _ (by norm_num) (by norm_num) (by norm_num)))
  intro e
  have := congrArg V3.x e
  norm_num [V3.cross, V3.sub, V3.zero, r_mul, r_sub, r_lit] at this

/-! ### Application -/

/-- A vector is transformed by the linear part. -/
theorem vectorTransform_spec (m mi : Matrix ℝ) (v : V3 ℝ) :
    let w := vectorTransform v m mi
    w.x = (toMat m).mulVec (homV v) 0 ∧ w.y = (toMat m).mulVec (homV v) 1 ∧ w.z = (toMat m).mulVec (homV v) 2 := by
  simp [vectorTransform, toMat, homV, _root_.Matrix.mulVec, dotProduct, Fin.sum_univ_four, r_add, r_mul]

/-- A point is transformed in homogeneous coordinates, provided its weight is not zero. -/
theorem pointTransform_spec (m mi : Matrix ℝ) (p : V3 ℝ) (h : hweight m p ≠ 0) :
    hom (pointTransform p m mi) = (hweight m p)⁻¹ • (toMat m).mulVec (hom p) := by
  simp only [hweight, pointTransform] at *
  split
  · rename_i h1
    have hw : (toMat m).mulVec (hom p) 3 = 1 := by
      simpa [toMat, hom, _root_.Matrix.mulVec, dotProduct, Fin.sum_univ_four, r_add, r_mul, r_eq, r_lit] using h1
    rw [hw, inv_one, one_smul]
    ext i
    fin_cases i
    · simp [toMat, hom, _root_.Matrix.mulVec, dotProduct, Fin.sum_univ_four, r_add, r_mul]
    · simp [toMat, hom, _root_.Matrix.mulVec, dotProduct, Fin.sum_univ_four, r_add, r_mul]
    · simp [toMat, hom, _root_.Matrix.mulVec, dotProduct, Fin.sum_univ_four, r_add, r_mul]
    · simpa [hom] using hw.symm
  · have hw : (toMat m).mulVec (hom p) 3 = m.m30 * p.x + m.m31 * p.y + m.m32 * p.z + m.m33 := by
      simp [toMat, hom, _root_.Matrix.mulVec, dotProduct, Fin.sum_univ_four]
    rw [hw] at h ⊢
    ext i
    fin_cases i <;>
      simp [toMat, hom, _root_.Matrix.mulVec, dotProduct, Fin.sum_univ_four, V3.sdiv, r_add, r_mul, r_div] <;>
      field_simp <;> ring

theorem hom_inj {p q : V3 ℝ} (h : hom p = hom q) : p = q := by
  ext
  · exact congrFun h 0
  · exact congrFun h 1
  · exact congrFun h 2

/-- The last row of an affine matrix, which every vector transform assumes. -/
def Spec.AffineM (m : Matrix ℝ) : Prop := m.m30 = 0 ∧ m.m31 = 0 ∧ m.m32 = 0 ∧ m.m33 = 1
/-- Both stored matrices are affine. -/
def Spec.Affine (t : Transform ℝ) : Prop := AffineM t.m ∧ AffineM t.mInv

/-- C48, points: as long as no weight vanishes. -/
theorem c48_compose_point (s t : Transform ℝ) (p : V3 ℝ)
    (h1 : hweight t.m p ≠ 0) (h2 : hweight s.m (t.apply pointTransform p) ≠ 0) :
    (s.mul t).apply pointTransform p = s.apply pointTransform (t.apply pointTransform p) := by
  apply hom_inj
  have e1 : hom (t.apply pointTransform p) = _ := pointTransform_spec t.m t.mInv p h1
  have ew : hweight s.m (t.apply pointTransform p) = (hweight t.m p)⁻¹ * hweight (s.mul t).m p := by
    simp only [hweight]
    rw [e1, _root_.Matrix.mulVec_smul, Pi.smul_apply, smul_eq_mul, _root_.Matrix.mulVec_mulVec, ← toMat_mul]
    rfl
  have h3 : hweight (s.mul t).m p ≠ 0 := by
    intro e; rw [e, mul_zero] at ew; exact h2 ew
  rw [show hom ((s.mul t).apply pointTransform p) = _ from pointTransform_spec _ _ _ h3,
    show hom (s.apply pointTransform (t.apply pointTransform p)) = _ from pointTransform_spec _ _ _ h2, ew, e1,
    _root_.Matrix.mulVec_smul, _root_.Matrix.mulVec_mulVec, ← toMat_mul, smul_smul]
  congr 1
  field_simp

/-- C48, vectors: the linear parts compose when the inner map has no translation in the weight row. -/
theorem c48_compose_vector (s t : Transform ℝ) (v : V3 ℝ)
    (h : t.m.m30 = 0 ∧ t.m.m31 = 0 ∧ t.m.m32 = 0) :
    (s.mul t).apply vectorTransform v = s.apply vectorTransform (t.apply vectorTransform v) := by
  obtain ⟨h0, h1, h2⟩ := h
  ext <;> simp only [Transform.apply, Transform.mul, Matrix.mul, vectorTransform, r_add, r_mul, h0, h1, h2] <;> ring

/-- C48, normals. -/
theorem c48_compose_normal (s t : Transform ℝ) (v : V3 ℝ)
    (h : s.mInv.m30 = 0 ∧ s.mInv.m31 = 0 ∧ s.mInv.m32 = 0) :
    (s.mul t).apply normalTransform v = s.apply normalTransform (t.apply normalTransform v) := by
  obtain ⟨h0, h1, h2⟩ := h
  ext <;> simp only [Transform.apply, Transform.mul, Matrix.mul, normalTransform, r_add, r_mul, h0, h1, h2] <;> ring

/-- The restriction to affine maps in `c48_compose_vector` is needed: with a perspective map inside, composition and
successive application of vectors differ. -/
theorem c48_vector_perspective_differs :
    ∃ s t : Transform ℝ, Built s ∧ Built t ∧ ∃ v,
      (s.mul t).apply vectorTransform v ≠ s.apply vectorTransform (t.apply vectorTransform v) := by
  refine ⟨Transform.translate 1 0 0, Transform.perspective 90 1 2, .translate _ _ _,
    .perspective _ _ _ one_pos one_lt_two ?_, ⟨0, 0, 1⟩, ?_⟩
  · rw [show (90 : ℝ) * (Real.pi / 180) / 2 = Real.pi / 4 by ring, Real.tan_pi_div_four]; exact one_ne_zero
  · intro e
    have := congrArg V3.x e
    norm_num [Transform.apply, Transform.mul, Matrix.mul, vectorTransform, Transform.translate, Transform.perspective,
      Transform.scale, Transform.ofMatrix, r_add, r_mul, r_lit, r_div, r_sub, r_neg] at this

theorem affine_inv {t : Transform ℝ} (h : Lawful t) (ha : AffineM t.m) : AffineM t.mInv := by
  obtain ⟨a, b, c, d⟩ := ha
  have e := fun j => congrFun (congrFun h.1 3) j
  have e0 := e 0; have e1 := e 1; have e2 := e 2; have e3 := e 3
  simp [toMat, _root_.Matrix.mul_apply, Fin.sum_univ_four, a, b, c, d] at e0 e1 e2 e3
  exact ⟨e0, e1, e2, e3⟩

/-- C49, points. -/
theorem c49_inverse_apply_point (t : Transform ℝ) (h : Lawful t) (p : V3 ℝ) (hw : hweight t.m p ≠ 0) :
    t.inverseApply pointTransform (t.apply pointTransform p) = p := by
  have e1 : hom (t.apply pointTransform p) = _ := pointTransform_spec t.m t.mInv p hw
  have ew : hweight t.mInv (t.apply pointTransform p) = (hweight t.m p)⁻¹ := by
    simp only [hweight]
    rw [e1, _root_.Matrix.mulVec_smul, Pi.smul_apply, smul_eq_mul, _root_.Matrix.mulVec_mulVec, h.2,
      _root_.Matrix.one_mulVec]
    simp [hweight, hom]
  have h2 : hweight t.mInv (t.apply pointTransform p) ≠ 0 := by rw [ew]; exact inv_ne_zero hw
  apply hom_inj
  rw [show hom (t.inverseApply pointTransform (t.apply pointTransform p)) = _ from
    pointTransform_spec t.mInv t.m _ h2, ew, e1, _root_.Matrix.mulVec_smul, _root_.Matrix.mulVec_mulVec, h.2,
    _root_.Matrix.one_mulVec, smul_smul, inv_inv, mul_inv_cancel₀ hw, one_smul]

theorem lin_inv {a b : Matrix ℝ} (h : toMat a * toMat b = 1) (hb : AffineM b) (v : V3 ℝ) :
    vectorTransform (vectorTransform v b a) a b = v := by
  obtain ⟨h0, h1, h2, _⟩ := hb
  have e := fun i j => congrFun (congrFun h i) j
  have e00 := e 0 0; have e01 := e 0 1; have e02 := e 0 2
  have e10 := e 1 0; have e11 := e 1 1; have e12 := e 1 2
  have e20 := e 2 0; have e21 := e 2 1; have e22 := e 2 2
  simp [toMat, _root_.Matrix.mul_apply, Fin.sum_univ_four, h0, h1, h2] at e00 e01 e02 e10 e11 e12 e20 e21 e22
  ext <;> simp only [vectorTransform, r_add, r_mul]
  · linear_combination v.x * e00 + v.y * e01 + v.z * e02
  · linear_combination v.x * e10 + v.y * e11 + v.z * e12
  · linear_combination v.x * e20 + v.y * e21 + v.z * e22

/-- C49, vectors (affine transforms). -/
theorem c49_inverse_apply_vector (t : Transform ℝ) (h : Lawful t) (ha : AffineM t.m) (v : V3 ℝ) :
    t.inverseApply vectorTransform (t.apply vectorTransform v) = v :=
  lin_inv h.2 ha v

/-- C50: the scalar product of a normal with a vector is preserved, so perpendicular stays perpendicular. -/
theorem c50_normal_dot (t : Transform ℝ) (h : Lawful t) (ha : AffineM t.m) (n v : V3 ℝ) :
    let n' := t.apply normalTransform n
    let v' := t.apply vectorTransform v
    n'.x * v'.x + n'.y * v'.y + n'.z * v'.z = n.x * v.x + n.y * v.y + n.z * v.z := by
  have e := c49_inverse_apply_vector t h ha v
  have ex := congrArg V3.x e
  have ey := congrArg V3.y e
  have ez := congrArg V3.z e
  simp only [Transform.apply, Transform.inverseApply, vectorTransform, normalTransform, r_add, r_mul] at *
  linear_combination n.x * ex + n.y * ey + n.z * ez

/-- C50 -/
theorem c50_normals_stay_perpendicular (t : Transform ℝ) (hb : Built t) (ha : AffineM t.m) (n v : V3 ℝ)
    (hp : n.x * v.x + n.y * v.y + n.z * v.z = 0) :
    let n' := t.apply normalTransform n
    let v' := t.apply vectorTransform v
    n'.x * v'.x + n'.y * v'.y + n'.z * v'.z = 0 := by
  rw [← hp]; exact c50_normal_dot t (c47_built_lawful t hb) ha n v

/-- C49, normals (affine transforms). -/
theorem c49_inverse_apply_normal (t : Transform ℝ) (h : Lawful t) (ha : AffineM t.m) (n : V3 ℝ) :
    t.inverseApply normalTransform (t.apply normalTransform n) = n := by
  obtain ⟨h0, h1, h2, _⟩ := ha
  have e := fun i j => congrFun (congrFun h.2 i) j
  have e00 := e 0 0; have e01 := e 0 1; have e02 := e 0 2
  have e10 := e 1 0; have e11 := e 1 1; have e12 := e 1 2
  have e20 := e 2 0; have e21 := e 2 1; have e22 := e 2 2
  simp [toMat, _root_.Matrix.mul_apply, Fin.sum_univ_four, h0, h1, h2] at e00 e01 e02 e10 e11 e12 e20 e21 e22
  ext <;> simp only [Transform.apply, Transform.inverseApply, normalTransform, r_add, r_mul]
  · linear_combination n.x * e00 + n.y * e10 + n.z * e20
  · linear_combination n.x * e01 + n.y * e11 + n.z * e21
  · linear_combination n.x * e02 + n.y * e12 + n.z * e22

/-- Which constructors give affine transforms: all but `perspective` and arbitrary matrices. -/
inductive Spec.BuiltAffine : Transform ℝ → Prop
  | translate (x y z : ℝ) : BuiltAffine (Transform.translate x y z)
  | scale (x y z : ℝ) (hx : x ≠ 0) (hy : y ≠ 0) (hz : z ≠ 0) : BuiltAffine (Transform.scale x y z)
  | rotateX (t : ℝ) : BuiltAffine (Transform.rotateX t)
  | rotateY (t : ℝ) : BuiltAffine (Transform.rotateY t)
  | rotateZ (t : ℝ) : BuiltAffine (Transform.rotateZ t)
  | lookAt (pos look up : V3 ℝ) (h : up.cross (look.sub pos) ≠ V3.zero) :
      BuiltAffine (Transform.lookAt pos look up)
  | mul (s t : Transform ℝ) (hs : BuiltAffine s) (ht : BuiltAffine t) : BuiltAffine (s.mul t)
  | inverse (t : Transform ℝ) (ht : BuiltAffine t) : BuiltAffine t.inverse

theorem builtAffine_built {t : Transform ℝ} (h : BuiltAffine t) : Built t := by
  induction h with
  | translate x y z => exact .translate x y z
  | scale x y z hx hy hz => exact .scale x y z hx hy hz
  | rotateX t => exact .rotateX t
  | rotateY t => exact .rotateY t
  | rotateZ t => exact .rotateZ t
  | lookAt pos look up h => exact .lookAt _ _ _ h
  | mul s t _ _ hs ht => exact .mul _ _ hs ht
  | inverse t _ ht => exact .inverse _ ht

theorem affineM_mul {a b : Matrix ℝ} (ha : AffineM a) (hb : AffineM b) : AffineM (a.mul b) := by
  obtain ⟨a0, a1, a2, a3⟩ := ha
  obtain ⟨b0, b1, b2, b3⟩ := hb
  simp [AffineM, Matrix.mul, r_add, r_mul, *]

/-- Everything built without `perspective` is affine (so the hypotheses of C49 and C50 are met). -/
theorem builtAffine_affine {t : Transform ℝ} (h : BuiltAffine t) : Affine t := by
  have key : AffineM t.m ∧ AffineM t.mInv := by
    induction h with
    | translate x y z => simp [AffineM, Transform.translate, r_lit]
    | scale x y z hx hy hz => simp [AffineM, Transform.scale, r_lit]
    | rotateX t => simp [AffineM, Transform.rotateX, Matrix.transpose, r_lit]
    | rotateY t => simp [AffineM, Transform.rotateY, Matrix.transpose, r_lit]
    | rotateZ t => simp [AffineM, Transform.rotateZ, Matrix.transpose, r_lit]
    | lookAt pos look up h =>
      have : AffineM (Transform.lookAt pos look up).m := by simp [AffineM, Transform.lookAt, r_lit]
      exact ⟨this, affine_inv (lawful_lookAt h) this⟩
    | mul s t _ _ hs ht => exact ⟨affineM_mul hs.1 ht.1, affineM_mul ht.2 hs.2⟩
    | inverse t _ ht => exact ⟨ht.2, ht.1⟩
  exact key

/-- The weight of an affine map is one, so points never divide. -/
theorem affine_weight {m : Matrix ℝ} (h : AffineM m) (p : V3 ℝ) : hweight m p = 1 := by
  obtain ⟨a, b, c, d⟩ := h
  simp [hweight, toMat, hom, _root_.Matrix.mulVec, dotProduct, Fin.sum_univ_four, a, b, c, d]

/-- C49 for everything built without `perspective`: points, vectors and normals come back. -/
theorem c49_inverse_undoes (t : Transform ℝ) (hb : BuiltAffine t) (x : V3 ℝ) :
    t.inverseApply pointTransform (t.apply pointTransform x) = x ∧
    t.inverseApply vectorTransform (t.apply vectorTransform x) = x ∧
    t.inverseApply normalTransform (t.apply normalTransform x) = x := by
  have hl := c47_built_lawful t (builtAffine_built hb)
  have ha := (builtAffine_affine hb).1
  exact ⟨c49_inverse_apply_point t hl x (by rw [affine_weight ha]; exact one_ne_zero),
    c49_inverse_apply_vector t hl ha x, c49_inverse_apply_normal t hl ha x⟩

/-- C49 for a ray. -/
theorem c49_inverse_undoes_ray (t : Transform ℝ) (hb : BuiltAffine t) (r : Ray ℝ) :
    t.inverseApply rayTransform (t.apply rayTransform r) = r := by
  obtain ⟨h1, h2, _⟩ := c49_inverse_undoes t hb r.origin
  obtain ⟨_, h3, _⟩ := c49_inverse_undoes t hb r.direction
  have := show t.inverseApply rayTransform (t.apply rayTransform r) =
    ⟨t.inverseApply pointTransform (t.apply pointTransform r.origin),
     t.inverseApply vectorTransform (t.apply vectorTransform r.direction), r.tMax⟩ from rfl
  rw [this, h1, h3]

/-- C49 for an interaction: every field comes back. -/
theorem c49_inverse_undoes_interaction (t : Transform ℝ) (hb : BuiltAffine t) (i : Interaction ℝ) :
    t.inverseApply interactionTransform (t.apply interactionTransform i) = i := by
  have hp := fun x => (c49_inverse_undoes t hb x).1
  have hv := fun x => (c49_inverse_undoes t hb x).2.1
  have hn := fun x => (c49_inverse_undoes t hb x).2.2
  have := show t.inverseApply interactionTransform (t.apply interactionTransform i) =
    { p := t.inverseApply pointTransform (t.apply pointTransform i.p)
      pErr := t.inverseApply vectorTransform (t.apply vectorTransform i.pErr)
      uv := i.uv
      n := t.inverseApply normalTransform (t.apply normalTransform i.n)
      sn := t.inverseApply normalTransform (t.apply normalTransform i.sn)
      dpdu := t.inverseApply vectorTransform (t.apply vectorTransform i.dpdu)
      dpdv := t.inverseApply vectorTransform (t.apply vectorTransform i.dpdv)
      wo := t.inverseApply vectorTransform (t.apply vectorTransform i.wo) } from rfl
  rw [this, hp, hv, hv, hv, hv, hn, hn]

/-- C50 for an interaction: a normal perpendicular to the tangents stays so, and so does the shading normal. -/
theorem c50_interaction (t : Transform ℝ) (hb : BuiltAffine t) (i : Interaction ℝ) :
    let j := t.apply interactionTransform i
    let inner := fun a b : V3 ℝ => a.x * b.x + a.y * b.y + a.z * b.z
    inner j.n j.dpdu = inner i.n i.dpdu ∧ inner j.n j.dpdv = inner i.n i.dpdv ∧
    inner j.sn j.dpdu = inner i.sn i.dpdu ∧ inner j.sn j.dpdv = inner i.sn i.dpdv ∧ inner j.n j.wo = inner i.n i.wo := by
  have h := c50_normal_dot t (c47_built_lawful t (builtAffine_built hb)) (builtAffine_affine hb).1
  exact ⟨h i.n i.dpdu, h i.n i.dpdv, h i.sn i.dpdu, h i.sn i.dpdv, h i.n i.wo⟩

/-- C48 for everything built without `perspective`. -/
theorem c48_compose (s t : Transform ℝ) (hs : BuiltAffine s) (ht : BuiltAffine t) (x : V3 ℝ) :
    (s.mul t).apply pointTransform x = s.apply pointTransform (t.apply pointTransform x) ∧
    (s.mul t).apply vectorTransform x = s.apply vectorTransform (t.apply vectorTransform x) ∧
    (s.mul t).apply normalTransform x = s.apply normalTransform (t.apply normalTransform x) := by
  have as := builtAffine_affine hs
  have at' := builtAffine_affine ht
  refine ⟨c48_compose_point s t x ?_ ?_, c48_compose_vector s t x ⟨at'.1.1, at'.1.2.1, at'.1.2.2.1⟩,
    c48_compose_normal s t x ⟨as.2.1, as.2.2.1, as.2.2.2.1⟩⟩
  · rw [affine_weight at'.1]; exact one_ne_zero
  · rw [affine_weight as.1]; exact one_ne_zero

/-- Non-vacuity. -/
example : BuiltAffine ((Transform.rotateX 30).mul (Transform.scale 2 (-1) 3)) :=
  .mul _ _ (.rotateX _) (.scale _ _ _ (by norm_num) (by norm_num) (by norm_num))

/-! ### Boxes -/

/-- Mathematical membership in a box. -/
def Spec.InBox3 (b : BBox3 ℝ) (p : V3 ℝ) : Prop :=
  b.min.x ≤ p.x ∧ p.x ≤ b.max.x ∧ b.min.y ≤ p.y ∧ p.y ≤ b.max.y ∧ b.min.z ≤ p.z ∧ p.z ≤ b.max.z

/-- C51 is false: rotating the box [0,1]³ about the z axis by 45 degrees gives a box that misses the image of the
corner (0, 1, 0). -/
theorem c51_refuted :
    ∃ (t : Transform ℝ) (b : BBox3 ℝ) (p : V3 ℝ), BuiltAffine t ∧ InBox3 b p ∧
      ¬ InBox3 (t.apply boxTransform b) (t.apply pointTransform p) := by
  refine ⟨Transform.rotateZ 45, ⟨⟨0, 0, 0⟩, ⟨1, 1, 1⟩⟩, ⟨0, 1, 0⟩, .rotateZ _, by norm_num [InBox3], ?_⟩
  intro h
  have h1 := h.1
  have ha : (45 : ℝ) * (Real.pi / 180) = Real.pi / 4 := by ring
  simp [Transform.apply, boxTransform, BBox3.new, V3.min, pointTransform, Transform.rotateZ, computeSinCosInDegree,
    toRadians, r_add, r_mul, r_lit, r_sin, r_cos, r_neg, r_div, r_pi, r_eq, ha, V3.sdiv, r_min] at h1
  have := Real.sqrt_pos.mpr (show (0 : ℝ) < 2 by norm_num)
  linarith

/-- The linear part maps axes to axes: at most one non-zero entry in each row. -/
def Spec.AxisAligned (m : Matrix ℝ) : Prop :=
  (∃ a : Axis, ∀ c : Axis, c ≠ a → (V3.mk m.m00 m.m01 m.m02).get c = 0) ∧
  (∃ a : Axis, ∀ c : Axis, c ≠ a → (V3.mk m.m10 m.m11 m.m12).get c = 0) ∧
  (∃ a : Axis, ∀ c : Axis, c ≠ a → (V3.mk m.m20 m.m21 m.m22).get c = 0)

theorem row_bound {r : V3 ℝ} (h : ∃ a : Axis, ∀ c : Axis, c ≠ a → r.get c = 0) (k : ℝ) {b : BBox3 ℝ} {p : V3 ℝ}
    (hp : InBox3 b p) :
    let f := fun q : V3 ℝ => r.x * q.x + r.y * q.y + r.z * q.z + k
    min (f b.min) (f b.max) ≤ f p ∧ f p ≤ max (f b.max) (f b.min) := by
  obtain ⟨a, ha⟩ := h
  obtain ⟨h1, h2, h3, h4, h5, h6⟩ := hp
  have aux : ∀ c lo x hi : ℝ, lo ≤ x → x ≤ hi →
      min (c * lo) (c * hi) ≤ c * x ∧ c * x ≤ max (c * hi) (c * lo) := by
    intro c lo x hi hl hh
    rcases le_total 0 c with hc | hc
    · exact ⟨min_le_of_left_le (mul_le_mul_of_nonneg_left hl hc), le_max_of_le_left (mul_le_mul_of_nonneg_left hh hc)⟩
    · exact ⟨min_le_of_right_le (mul_le_mul_of_nonpos_left hh hc), le_max_of_le_right (mul_le_mul_of_nonpos_left hl hc)⟩
  have shift : ∀ A B C : ℝ, min A B ≤ C ∧ C ≤ max B A → min (A + k) (B + k) ≤ C + k ∧ C + k ≤ max (B + k) (A + k) := by
    intro A B C h
    rw [min_add_add_right, max_add_add_right]
    exact ⟨by linarith [h.1], by linarith [h.2]⟩
  cases a with
  | X =>
    have hy : r.y = 0 := ha .Y (by decide)
    have hz : r.z = 0 := ha .Z (by decide)
    simp only [hy, hz, zero_mul, add_zero]
    exact shift _ _ _ (aux _ _ _ _ h1 h2)
  | Y =>
    have hx : r.x = 0 := ha .X (by decide)
    have hz : r.z = 0 := ha .Z (by decide)
    simp only [hx, hz, zero_mul, add_zero, zero_add]
    exact shift _ _ _ (aux _ _ _ _ h3 h4)
  | Z =>
    have hx : r.x = 0 := ha .X (by decide)
    have hy : r.y = 0 := ha .Y (by decide)
    simp only [hx, hy, zero_mul, zero_add]
    exact shift _ _ _ (aux _ _ _ _ h5 h6)

theorem pointTransform_affine {m mi : Matrix ℝ} (h : AffineM m) (p : V3 ℝ) :
    pointTransform p m mi = ⟨m.m00 * p.x + m.m01 * p.y + m.m02 * p.z + m.m03,
      m.m10 * p.x + m.m11 * p.y + m.m12 * p.z + m.m13, m.m20 * p.x + m.m21 * p.y + m.m22 * p.z + m.m23⟩ := by
  obtain ⟨a, b, c, d⟩ := h
  simp [pointTransform, r_add, r_mul, r_eq, r_lit, a, b, c, d]

/-- C51, the part that holds: translations, scales, quarter turns and mirrors (linear part with at most one non-zero
entry per row).  Missing: rotations and shears, for which the claim is false (`c51_refuted`). -/
theorem c51_transformed_box_partial (t : Transform ℝ) (ha : AffineM t.m) (hax : AxisAligned t.m) (b : BBox3 ℝ)
    (p : V3 ℝ) (hp : InBox3 b p) : InBox3 (t.apply boxTransform b) (t.apply pointTransform p) := by
  simp only [Transform.apply, boxTransform, BBox3.new, pointTransform_affine ha, V3.min, V3.max, r_min, r_max]
  obtain ⟨h1, h2, h3⟩ := hax
  have e1 := row_bound h1 t.m.m03 hp
  have e2 := row_bound h2 t.m.m13 hp
  have e3 := row_bound h3 t.m.m23 hp
  exact ⟨e1.1, e1.2, e2.1, e2.2, e3.1, e3.2⟩

/-- Non-vacuity: a mirrored, stretched and moved box. -/
example : AffineM ((Transform.translate 1 2 3).mul (Transform.scale 2 (-5) 1)).m ∧
    AxisAligned ((Transform.translate 1 2 3).mul (Transform.scale 2 (-5) 1)).m := by
  refine ⟨by simp [AffineM, Transform.mul, Matrix.mul, Transform.translate, Transform.scale, r_add, r_mul, r_lit],
    ⟨.X, ?_⟩, ⟨.Y, ?_⟩, ⟨.Z, ?_⟩⟩ <;> intro c hc <;> cases c <;>
    simp_all [V3.get, Transform.mul, Matrix.mul, Transform.translate, Transform.scale, r_add, r_mul, r_lit]

end PT
