import Verif.Props.Transport

/-!
# The choice of a light (C61)
-/

namespace PT
open Spec

section
variable {α : Type} [Scalar α] [Libm α] [HasInf α] [HasNext α]

/-- C61 for lights: whatever number the sampler delivers (even one outside `[0,1)` or NaN) and in any arithmetic, the light that is asked is one of
the lights of the scene, and the result is multiplied by their number. -/
theorem c61_light (lights : List (LightObj α)) (h : lights ≠ []) (i : Interaction α) (bsdf : BSDF α) :
    ∃ pick : α → LightObj α, (∀ u, pick u ∈ lights) ∧
      uniformSampleOneLight lights i bsdf = (Prog.get1 .ret).bind fun u => (estimateDirect (pick u) i bsdf).bind fun ld => .ret (ld.smul (ofInt (lights.length : Int))) := by
  have h0 : lights.length ≠ 0 := by simpa using h
  have hlt : ∀ u : α, min (toUsize (ofInt (lights.length : Int) *. u)) (lights.length - 1) < lights.length := fun u =>
    (min_le_right _ _).trans_lt (by omega)
  refine ⟨fun u => lights[min (toUsize (ofInt (lights.length : Int) *. u)) (lights.length - 1)]'(hlt u), fun u => List.getElem_mem _, ?_⟩
  unfold uniformSampleOneLight
  simp only [h0, if_false]
  have hget : ∀ u : α, lights[min (toUsize (ofInt (lights.length : Int) *. u)) (lights.length - 1)]? =
      some (lights[min (toUsize (ofInt (lights.length : Int) *. u)) (lights.length - 1)]'(hlt u)) := fun u => List.getElem?_eq_getElem (hlt u)
  simp only [hget]
  rfl

/-- Two lights: one of the two is asked and its answer doubled. -/
example (a b : LightObj α) (i : Interaction α) (bsdf : BSDF α) : ∃ pick : α → LightObj α, (∀ u, pick u = a ∨ pick u = b) ∧
    uniformSampleOneLight [a, b] i bsdf = (Prog.get1 .ret).bind fun u => (estimateDirect (pick u) i bsdf).bind fun ld => .ret (ld.smul (ofInt 2)) := by
  obtain ⟨pick, h1, h2⟩ := c61_light [a, b] (by simp) i bsdf
  exact ⟨pick, fun u => by simpa using h1 u, h2⟩
end

/-- C61 for lights, exact arithmetic: of `n` lights number `k` (counted from 0) is asked exactly for the numbers from `k / n` up to, not including,
`(k + 1) / n`: each has the same chance. -/
theorem c61_light_share [HasInf ℝ] [HasNext ℝ] (n k : Nat) (hn : 0 < n) (hn2 : n ≤ 2 ^ 64) (hk : k < n) (u : ℝ) (hu : Canonical u) :
    min (toUsize (ofInt (n : Int) *. u)) (n - 1) = k ↔ (k : ℝ) / n ≤ u ∧ u < (k + 1 : ℝ) / n := by
  rw [toUsize_real n hn2 u hu]
  have hn0 : (0 : ℝ) < n := by exact_mod_cast hn
  have hlt : ⌊(n : ℝ) * u⌋₊ < n := by
    rw [Nat.floor_lt (mul_nonneg hn0.le hu.1)]
    have := hu.2
    nlinarith
  rw [min_eq_left (by omega), Nat.floor_eq_iff (mul_nonneg hn0.le hu.1), div_le_iff₀ hn0, lt_div_iff₀ hn0, mul_comm u]

/-- With three lights the sample 1/2 asks the middle one. -/
example [HasInf ℝ] [HasNext ℝ] : min (toUsize (ofInt (3 : Nat) *. (1 / 2 : ℝ))) (3 - 1) = 1 :=
  (c61_light_share 3 1 (by norm_num) (by norm_num) (by norm_num) (1 / 2) ⟨by norm_num, by norm_num⟩).2 ⟨by norm_num, by norm_num⟩
end PT
