import Verif.Props.Util

/-!
# Multiple importance sampling with any numbers of samples (C62)
-/

namespace PT

/-- C62, any numbers of samples: for every sample one strategy gives, `n * a` of them fall near a
direction on average. The two weights are a partition of unity, and they are to each other as the
squares of these numbers. -/
theorem c62_counts (n m : Nat) (a b : ℝ) (h : (n : ℝ) * a ≠ 0 ∨ (m : ℝ) * b ≠ 0) :
    powerHeuristic n a m b + powerHeuristic m b n a = 1 ∧
    0 ≤ powerHeuristic n a m b ∧ powerHeuristic n a m b ≤ 1 ∧
    powerHeuristic n a m b * ((m : ℝ) * b) ^ 2 = powerHeuristic m b n a * ((n : ℝ) * a) ^ 2 := by
  have hp : 0 < ((n : ℝ) * a) ^ 2 + ((m : ℝ) * b) ^ 2 := by
    rcases h with h | h
    · have := pow_pos (abs_pos.2 h) 2; rw [sq_abs] at this; positivity
    · have := pow_pos (abs_pos.2 h) 2; rw [sq_abs] at this; positivity
  have e : ∀ (i j : Nat) (x y : ℝ),
      powerHeuristic i x j y = ((i : ℝ) * x) ^ 2 / (((i : ℝ) * x) ^ 2 + ((j : ℝ) * y) ^ 2) := by
    intro i j x y; simp only [powerHeuristic]; real_ops; push_cast; congr 1 <;> ring
  rw [e, e, add_comm (((m : ℝ) * b) ^ 2) (((n : ℝ) * a) ^ 2)]
  refine ⟨by rw [← add_div, div_self hp.ne'], by positivity, ?_, by ring⟩
  rw [div_le_one hp]; nlinarith [sq_nonneg ((m : ℝ) * b)]

/-- four samples of a density 1/2 against one of density 2: equal weights -/
example : powerHeuristic 4 (1 / 2 : ℝ) 1 2 = 1 / 2 := by
  simp only [powerHeuristic]; real_ops; norm_num

example : ((4 : Nat) : ℝ) * (1 / 2) ≠ 0 ∨ ((1 : Nat) : ℝ) * 2 ≠ 0 := by norm_num

end PT
