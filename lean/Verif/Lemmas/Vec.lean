import Verif.Model.Common
import Mathlib.Tactic.FieldSimp
import Mathlib.Tactic.LinearCombination
import Mathlib.Tactic.Linarith
import Mathlib.Tactic.Positivity

/-! # Exact vector algebra -/

namespace PT

/-- Square of the Euclidean length (a specification, not the code's `length`). -/
def Spec.sq (v : V3 ℝ) : ℝ := v.x ^ 2 + v.y ^ 2 + v.z ^ 2

open Spec


theorem length_eq (v : V3 ℝ) : v.length = Real.sqrt (sq v) := by
  simp only [V3.length, Spec.sq]; real_ops; congr 1; ring

theorem sq_eq_zero_iff {v : V3 ℝ} : sq v = 0 ↔ v = V3.zero := by
  constructor
  · intro h
    simp only [Spec.sq] at h
    have hx : v.x = 0 := by nlinarith [sq_nonneg v.x, sq_nonneg v.y, sq_nonneg v.z]
    have hy : v.y = 0 := by nlinarith [sq_nonneg v.x, sq_nonneg v.y, sq_nonneg v.z]
    have hz : v.z = 0 := by nlinarith [sq_nonneg v.x, sq_nonneg v.y, sq_nonneg v.z]
    ext <;> simp [V3.zero, r_lit, hx, hy, hz]
  · intro h; subst h; simp [Spec.sq, V3.zero, r_lit]

theorem sq_pos {v : V3 ℝ} (h : v ≠ V3.zero) : 0 < sq v := by
  have h1 : 0 ≤ sq v := by simp only [Spec.sq]; positivity
  exact lt_of_le_of_ne h1 (fun e => h (sq_eq_zero_iff.mp e.symm))

theorem length_pos {v : V3 ℝ} (h : v ≠ V3.zero) : 0 < v.length := by
  rw [length_eq]; exact Real.sqrt_pos.mpr (sq_pos h)

theorem length_sq (v : V3 ℝ) : v.length ^ 2 = sq v := by
  rw [length_eq, Real.sq_sqrt]; simp only [Spec.sq]; positivity

theorem sq_normalize {v : V3 ℝ} (h : v ≠ V3.zero) : sq v.normalize = 1 := by
  have hl := length_pos h
  have h2 := length_sq v
  simp only [V3.normalize, Spec.sq] at *
  real_ops
  have : v.length ≠ 0 := hl.ne'
  field_simp
  linarith

theorem normalize_ne {v : V3 ℝ} (h : v ≠ V3.zero) : v.normalize ≠ V3.zero := by
  intro e
  have := sq_normalize h
  rw [e] at this
  norm_num [Spec.sq, V3.zero, r_lit] at this

theorem cross_normalize_ne {u v : V3 ℝ} (h : u.cross v ≠ V3.zero) :
    u.normalize.cross v.normalize ≠ V3.zero ∧ u ≠ V3.zero ∧ v ≠ V3.zero := by
  have hu : u ≠ V3.zero := by
    rintro rfl; apply h; ext <;> simp [V3.cross, V3.zero, r_mul, r_sub, r_lit]
  have hv : v ≠ V3.zero := by
    rintro rfl; apply h; ext <;> simp [V3.cross, V3.zero, r_mul, r_sub, r_lit]
  refine ⟨?_, hu, hv⟩
  intro e
  apply h
  have lu := (length_pos hu).ne'
  have lv := (length_pos hv).ne'
  have ex := congrArg V3.x e
  have ey := congrArg V3.y e
  have ez := congrArg V3.z e
  simp only [V3.cross, V3.normalize, V3.zero, r_mul, r_sub, r_lit, r_div, Rat.cast_zero] at ex ey ez
  field_simp at ex ey ez
  ext <;> simp only [V3.cross, V3.zero, r_mul, r_sub, r_lit, Rat.cast_zero] <;> linarith


/-- Inner product (a specification, not the code's `dot`). -/
def Spec.inner (v w : V3 ℝ) : ℝ := v.x * w.x + v.y * w.y + v.z * w.z

/-- `a v + b w` (specification). -/
def Spec.comb (a : ℝ) (v : V3 ℝ) (b : ℝ) (w : V3 ℝ) : V3 ℝ := ⟨a * v.x + b * w.x, a * v.y + b * w.y, a * v.z + b * w.z⟩

theorem dot_eq (v w : V3 ℝ) : v.dot w = Spec.inner v w := by simp only [V3.dot, Spec.inner]; real_ops

end PT
