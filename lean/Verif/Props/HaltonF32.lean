import Verif.Props.HaltonSpread
import Verif.Props.WeightsF32

/-!
# Halton coordinates in single precision (C16)
-/

namespace PT
open Fl

namespace Halt

/-- An integer as a single precision number. -/
theorem ofInt_near {n : ℕ} (h : n < 2 ^ 32) : Num (ofInt (n : ℤ) : F32) ∧ |(ofInt (n : ℤ) : F32).val - n| ≤ n / 2 ^ 24 := by
  have q : ((n : ℤ) : ℚ) = n := by push_cast; rfl
  have hn : (n : ℚ) < 2 ^ 32 := by exact_mod_cast h
  have n0 : (0 : ℚ) ≤ n := by positivity
  have num : Num (ofInt (n : ℤ) : F32) := by
    refine lit_ok ?_
    rw [q, abs_of_nonneg n0]
    linarith
  refine ⟨num, ?_⟩
  have e : (ofInt (n : ℤ) : F32) = ofVal (n : ℚ) false := by
    unfold ofInt; rw [f_lit, q]; simp
  have fin := num.fin
  rw [e] at fin ⊢
  have := ofVal_grid fin ((n : ℤ) * 2 ^ 149) (by push_cast; norm_num)
  rw [abs_of_nonneg n0] at this
  refine this.trans (le_of_eq ?_)
  unfold ulpHalf; norm_num; ring

/-- A quotient of two integers, each rounded, rounded. -/
theorem quotient_near {x N : ℕ} (hx : x ≤ N) (hN0 : 0 < N) (hN : N < 2 ^ 32) :
    Num ((ofInt (x : ℤ) : F32) /. ofInt (N : ℤ)) ∧ |((ofInt (x : ℤ) : F32) /. ofInt (N : ℤ)).val - (x : ℚ) / N| ≤ (x : ℚ) / N * (7 / 2 ^ 25) + 1 / 2 ^ 149 := by
  obtain ⟨n1, e1⟩ := ofInt_near (n := x) (by omega)
  obtain ⟨n2, e2⟩ := ofInt_near (n := N) hN
  obtain ⟨a1, a2⟩ := abs_le.1 e1
  obtain ⟨b1, b2⟩ := abs_le.1 e2
  have x0 : (0 : ℚ) ≤ x := by positivity
  have N0 : (0 : ℚ) < N := by exact_mod_cast hN0
  have xN : (x : ℚ) ≤ N := by exact_mod_cast hx
  set X := (ofInt (x : ℤ) : F32) with hX
  set Y := (ofInt (N : ℤ) : F32) with hY
  have Y0 : 0 < Y.val := by
    have : (N : ℚ) * (1 - 1 / 2 ^ 24) ≤ Y.val := by linarith
    exact lt_of_lt_of_le (mul_pos N0 (by norm_num)) this
  have X0 : 0 ≤ X.val := by
    have : (x : ℚ) * (1 - 1 / 2 ^ 24) ≤ X.val := by linarith
    exact le_trans (mul_nonneg x0 (by norm_num)) this
  set q := (x : ℚ) / N with hq
  have q0 : 0 ≤ q := div_nonneg x0 N0.le
  have q1 : q ≤ 1 := (div_le_one N0).2 xN
  have hxq : (x : ℚ) = q * N := by rw [hq]; field_simp
  -- the exact quotient of the rounded integers
  have up : X.val / Y.val ≤ q * (1 + 2001 / 1000 / 2 ^ 24) := by
    rw [div_le_iff₀ Y0]
    have h1 : X.val ≤ q * N * (1 + 1 / 2 ^ 24) := by rw [← hxq]; linarith
    have h2 : N * (1 - 1 / 2 ^ 24) ≤ Y.val := by linarith
    have h3 : q * (1 + 2001 / 1000 / 2 ^ 24) * (N * (1 - 1 / 2 ^ 24)) ≤ q * (1 + 2001 / 1000 / 2 ^ 24) * Y.val :=
      mul_le_mul_of_nonneg_left h2 (mul_nonneg q0 (by norm_num))
    have h4 : q * N * (1 + 1 / 2 ^ 24) ≤ q * (1 + 2001 / 1000 / 2 ^ 24) * (N * (1 - 1 / 2 ^ 24)) := by
      have e : q * (1 + 2001 / 1000 / 2 ^ 24) * (N * (1 - 1 / 2 ^ 24)) = q * N * ((1 + 2001 / 1000 / 2 ^ 24) * (1 - 1 / 2 ^ 24)) := by ring
      rw [e]
      exact mul_le_mul_of_nonneg_left (by norm_num) (mul_nonneg q0 N0.le)
    linarith
  have low : q * (1 - 2001 / 1000 / 2 ^ 24) ≤ X.val / Y.val := by
    rw [le_div_iff₀ Y0]
    have h1 : q * N * (1 - 1 / 2 ^ 24) ≤ X.val := by rw [← hxq]; linarith
    have h2 : Y.val ≤ N * (1 + 1 / 2 ^ 24) := by linarith
    have h3 : q * (1 - 2001 / 1000 / 2 ^ 24) * Y.val ≤ q * (1 - 2001 / 1000 / 2 ^ 24) * (N * (1 + 1 / 2 ^ 24)) :=
      mul_le_mul_of_nonneg_left h2 (mul_nonneg q0 (by norm_num))
    have h4 : q * (1 - 2001 / 1000 / 2 ^ 24) * (N * (1 + 1 / 2 ^ 24)) ≤ q * N * (1 - 1 / 2 ^ 24) := by
      have e : q * (1 - 2001 / 1000 / 2 ^ 24) * (N * (1 + 1 / 2 ^ 24)) = q * N * ((1 - 2001 / 1000 / 2 ^ 24) * (1 + 1 / 2 ^ 24)) := by ring
      rw [e]
      exact mul_le_mul_of_nonneg_left (by norm_num) (mul_nonneg q0 N0.le)
    linarith
  have Q0 : 0 ≤ X.val / Y.val := div_nonneg X0 Y0.le
  obtain ⟨n3, e3⟩ := div_ok n1 n2 Y0.ne' (by rw [abs_of_nonneg Q0]; norm_num at up ⊢; linarith)
  refine ⟨n3, ?_⟩
  rw [abs_of_nonneg Q0] at e3
  obtain ⟨c1, c2⟩ := abs_le.1 e3
  unfold ulpHalf tinyHalf at c1 c2
  generalize (X /. Y).val = V at *
  generalize X.val / Y.val = Q at *
  clear_value q
  clear a1 a2 b1 b2 e1 e2 e3 hxq hX hY hq
  rw [abs_le]
  norm_num at up low c1 c2 ⊢
  constructor <;> linarith

end Halt

open Halt in
/-- C16 in single precision: if `base^(number of digits)` fits in 32 bits, the coordinate is a number that differs from the mirror image of the index's digits around the
radix point by at most 2⁻²² of it. -/
theorem c16_f32 (base a : Nat) (hb : 2 ≤ base) (h : base ^ (Nat.digits base a).length < 2 ^ 32) :
    Num (radicalInverse base a : F32) ∧
    |((radicalInverse base a : F32).val : ℝ) - Spec.mirror base (Nat.digits base a)| ≤ Spec.mirror base (Nat.digits base a) / 2 ^ 22 + 1 / 2 ^ 149 := by
  have hm := foldl_mirror base hb (Nat.digits base a) 0
  have mb := PT.mirror_bounds base hb _ fun d hd => Nat.digits_lt_base (m := a) (by omega) hd
  unfold radicalInverse
  rw [radicalLoop_eq base hb a 0 1 (by norm_num) (by rwa [one_mul])]
  simp only [one_mul]
  set x := (Nat.digits base a).foldl (fun x d => x * base + d) 0 with hx
  set N := base ^ (Nat.digits base a).length with hN
  set M := Spec.mirror base (Nat.digits base a) with hM
  have N0 : 0 < N := by positivity
  have e : ((x : ℚ) / (N : ℚ) : ℚ) = ((x : ℝ) / (N : ℝ) : ℝ) := by push_cast; rfl
  have e' : ((x : ℝ) / (N : ℝ) : ℝ) = M := by rw [hN]; push_cast; rw [hm]; simp
  have N0' : (0 : ℝ) < N := by exact_mod_cast N0
  have xN : x ≤ N := by
    have : (x : ℝ) ≤ N := by
      rw [← e', div_lt_one N0'] at mb; exact mb.2.le
    exact_mod_cast this
  obtain ⟨n1, e1⟩ := quotient_near xN N0 h
  have cap : Num (oneMinusEpsilon : F32) ∧ (oneMinusEpsilon : F32).val = 1 - 1 / 2 ^ 23 := by
    rw [oneMinusEpsilon_f32]
    refine ⟨⟨?_, trivial⟩, by norm_num [Fl.val, Fl.sgn]⟩
    rw [← oneMinusEpsilon_f32]; unfold oneMinusEpsilon; exact add_WF _ _
  obtain ⟨n2, e2⟩ := min_ok cap.1 n1
  refine ⟨n2, ?_⟩
  rw [e2, cap.2]
  have e1' := (Rat.cast_le (K := ℝ)).2 e1
  push_cast at e1'
  rw [e'] at e1'
  push_cast
  generalize (((ofInt (x : ℤ) : F32) /. ofInt (N : ℤ)).val : ℝ) = q at *
  obtain ⟨q1, q2⟩ := abs_le.1 e1'
  obtain ⟨m0, m1⟩ := mb
  clear_value M
  clear e1' e1 e2 hm hM
  rw [abs_le]
  rcases le_total (1 - 1 / 2 ^ 23 : ℝ) q with hq | hq
  · rw [min_eq_left hq]
    norm_num at *
    constructor <;> linarith
  · rw [min_eq_right hq]
    norm_num at *
    constructor <;> linarith

/-- The repository's own test case: base 10, index 1234. -/
example : |((radicalInverse 10 1234 : F32).val : ℝ) - 0.4321| ≤ 1 / 2 ^ 23 := by
  have := (c16_f32 10 1234 (by norm_num) (by norm_num)).2
  have e : Spec.mirror 10 (Nat.digits 10 1234) = 0.4321 := by norm_num [Spec.mirror]
  rw [e] at this
  refine this.trans (by norm_num)

end PT
