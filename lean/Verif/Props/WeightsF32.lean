import Verif.Props.Util
import Verif.Props.Radiance
import Verif.Props.Grey
import Verif.Lemmas.FlOk

/-!
# Weights in single precision: multiple importance sampling (C62), the roulette (C68), interpolation (C71)
-/

namespace PT
namespace Fl

theorem one_ok : Num (PT.lit 1 : F32) ∧ (PT.lit 1 : F32).val = 1 := by
  have e : (PT.lit 1 : F32) = .fin false 1 := by decide +kernel
  exact ⟨lit_ok (by norm_num), by rw [e]; simp [val, sgn]⟩

theorem ofInt_WF (n : ℤ) : (ofInt n : F32).WF := lit_WF _

theorem num_repr {a : F32} (ha : Num a) : Repr Binary32 a.val := by
  obtain ⟨s, m, rfl⟩ := IsFin_iff.1 ha.fin
  have := ha.wf
  unfold Repr
  cases s <;> simp only [val, sgn, if_true, Bool.false_eq_true, if_false, abs_neg, abs_of_nonneg this.1] <;> exact this.2

theorem repr_zero : Repr Binary32 (0 : ℚ) := by unfold Repr; decide +kernel
theorem repr_one : Repr Binary32 (1 : ℚ) := by unfold Repr; decide +kernel

/-- A product lies between any two representable numbers that the exact product lies between. -/
theorem mul_stays {a b : F32} (ha : Num a) (hb : Num b) {lo hi : ℚ} (hlo : Repr Binary32 lo) (hhi : Repr Binary32 hi) (h1 : lo ≤ a.val * b.val) (h2 : a.val * b.val ≤ hi) :
    Num (a *. b) ∧ lo ≤ (a *. b).val ∧ (a *. b).val ≤ hi := by
  obtain ⟨zs, e⟩ := mul_val ha hb
  rw [e]
  obtain ⟨k1, k2, k3⟩ := ofVal_between hlo hhi h1 h2 zs
  exact ⟨⟨ofVal_WF _ _, k1⟩, k2, k3⟩

theorem add_stays {a b : F32} (ha : Num a) (hb : Num b) {lo hi : ℚ} (hlo : Repr Binary32 lo) (hhi : Repr Binary32 hi) (h1 : lo ≤ a.val + b.val) (h2 : a.val + b.val ≤ hi) :
    Num (a +. b) ∧ lo ≤ (a +. b).val ∧ (a +. b).val ≤ hi := by
  obtain ⟨zs, e⟩ := add_fin ha.fin hb.fin
  rw [f_add, e]
  obtain ⟨k1, k2, k3⟩ := ofVal_between hlo hhi h1 h2 zs
  exact ⟨⟨ofVal_WF _ _, k1⟩, k2, k3⟩

theorem div_num_val {a b : F32} (ha : Num a) (hb : Num b) (h0 : b.val ≠ 0) : ∃ zs, a /. b = ofVal (a.val / b.val) zs := by
  obtain ⟨s, m, rfl⟩ := IsFin_iff.1 ha.fin
  obtain ⟨t, k, rfl⟩ := IsFin_iff.1 hb.fin
  have hk : k ≠ 0 := by rintro rfl; apply h0; cases t <;> simp [val, sgn]
  have e0 : (fin s m /. fin t k : F32) = ofMag (s ^^ t) (m / k) := by simp [f_div, div, hk]
  obtain ⟨zs, e⟩ := ofMag_ofVal (φ := Binary32) (div_nonneg ha.wf.1 hb.wf.1 : 0 ≤ m / k) (s ^^ t)
  exact ⟨zs, by rw [e0, e, sgn_xor_div]; rfl⟩

theorem div_stays {a b : F32} (ha : Num a) (hb : Num b) (h0 : b.val ≠ 0) {lo hi : ℚ} (hlo : Repr Binary32 lo) (hhi : Repr Binary32 hi) (h1 : lo ≤ a.val / b.val)
    (h2 : a.val / b.val ≤ hi) : Num (a /. b) ∧ lo ≤ (a /. b).val ∧ (a /. b).val ≤ hi := by
  obtain ⟨zs, e⟩ := div_num_val ha hb h0
  rw [e]
  obtain ⟨k1, k2, k3⟩ := ofVal_between hlo hhi h1 h2 zs
  exact ⟨⟨ofVal_WF _ _, k1⟩, k2, k3⟩

/-- Multiplication by one changes nothing. -/
theorem mul_one_ok {a : F32} (ha : Num a) : Num (a *. ofInt 1) ∧ (a *. ofInt 1).val = a.val := by
  obtain ⟨f1, v1⟩ := ofInt_exact (n := 1) (by norm_num)
  have n1 : Num (ofInt 1 : F32) := ⟨ofInt_WF 1, f1⟩
  have hv : a.val * (ofInt 1 : F32).val = a.val := by rw [v1]; simp
  obtain ⟨n, l, u⟩ := mul_stays ha n1 (num_repr ha) (num_repr ha) hv.ge hv.le
  exact ⟨n, le_antisymm u l⟩

theorem min_ok {a b : F32} (ha : Num a) (hb : Num b) : Num (Scalar.fmin a b) ∧ (Scalar.fmin a b).val = min a.val b.val := by
  have na : a.isNaN = false := by obtain ⟨s, m, rfl⟩ := IsFin_iff.1 ha.fin; rfl
  have nb : b.isNaN = false := by obtain ⟨s, m, rfl⟩ := IsFin_iff.1 hb.fin; rfl
  rw [f_min, fmin, na, nb]
  simp only [Bool.false_eq_true, if_false]
  by_cases h : lt b a = true
  · rw [if_pos h]; exact ⟨hb, (min_eq_right ((lt_val hb.fin ha.fin).1 h).le).symm⟩
  · rw [if_neg h]
    refine ⟨ha, (min_eq_left ?_).symm⟩
    rw [lt_val hb.fin ha.fin] at h; exact not_lt.1 h
end Fl
open Fl

/-- The share of the first of two rounded squares in their rounded sum. -/
theorem share_err {a b F G S u h t : ℚ} (hh : h = 1 / 2 ^ 24) (ht : t = 1 / 2 ^ 150) (hT : 1 / 2 ^ 120 ≤ a ^ 2 + b ^ 2) (hF0 : 0 ≤ F)
    (hF : |F - a * a| ≤ a * a * h + t) (hG : |G - b * b| ≤ b * b * h + t) (hS : |S - (F + G)| ≤ (F + G) * h) (hFS : F ≤ S)
    (hu : |u - F / S| ≤ F / S * h + t) : 0 < S ∧ |u - a ^ 2 / (a ^ 2 + b ^ 2)| ≤ 1 / 2 ^ 22 := by
  have hA : 0 ≤ a ^ 2 := sq_nonneg a
  have hB : 0 ≤ b ^ 2 := sq_nonneg b
  rw [← pow_two] at hF hG
  generalize a ^ 2 = A at *
  generalize b ^ 2 = B at *
  have htT : t ≤ (A + B) * h / 64 := by rw [ht, hh]; linarith
  obtain ⟨f1, f2⟩ := abs_le.1 hF
  obtain ⟨g1, g2⟩ := abs_le.1 hG
  obtain ⟨s1, s2⟩ := abs_le.1 hS
  have hT0 : 0 < A + B := lt_of_lt_of_le (by positivity) hT
  have hh0 : 0 < h := by rw [hh]; positivity
  have hFG : (A + B) * (3 / 4) ≤ F + G := by
    have : (A + B) * h ≤ (A + B) * (1 / 2 ^ 24) := by rw [hh]
    linarith
  have hFG0 : 0 < F + G := by linarith
  have hS0 : 0 < S := by
    have : (F + G) * h = (F + G) * (1 / 2 ^ 24) := by rw [hh]
    linarith
  refine ⟨hS0, ?_⟩
  have hr1 : F / S ≤ 1 := (div_le_one hS0).2 hFS
  have hr0 : 0 ≤ F / S := div_nonneg hF0 hS0.le
  -- the rounded sum
  have k1 : |F / S - F / (F + G)| ≤ h := by
    rw [div_sub_div _ _ hS0.ne' hFG0.ne', show F * (F + G) - S * F = -(F * (S - (F + G))) by ring, abs_div, abs_neg, abs_mul, abs_of_nonneg hF0,
      abs_of_pos (mul_pos hS0 hFG0), div_le_iff₀ (mul_pos hS0 hFG0)]
    calc F * |S - (F + G)| ≤ S * ((F + G) * h) := mul_le_mul hFS hS (abs_nonneg _) hS0.le
      _ = h * (S * (F + G)) := by ring
  -- the rounded squares
  have k2 : |F / (F + G) - A / (A + B)| ≤ h := by
    rw [div_sub_div _ _ hFG0.ne' hT0.ne', abs_div, abs_of_pos (mul_pos hFG0 hT0), div_le_iff₀ (mul_pos hFG0 hT0),
      show F * (A + B) - (F + G) * A = (F - A) * B - (G - B) * A by ring]
    have e1 : |(F - A) * B - (G - B) * A| ≤ (A * h + t) * B + (B * h + t) * A := by
      refine (abs_sub _ _).trans (add_le_add ?_ ?_)
      · rw [abs_mul, abs_of_nonneg hB]; exact mul_le_mul_of_nonneg_right hF hB
      · rw [abs_mul, abs_of_nonneg hA]; exact mul_le_mul_of_nonneg_right hG hA
    refine e1.trans ?_
    have e2 : 2 * (A * B) ≤ (A + B) * (A + B) / 2 := by nlinarith [sq_nonneg (A - B)]
    have e3 : t * (A + B) ≤ (A + B) * h / 64 * (A + B) := mul_le_mul_of_nonneg_right htT hT0.le
    have e4 : h * ((A + B) * (3 / 4) * (A + B)) ≤ h * ((F + G) * (A + B)) := mul_le_mul_of_nonneg_left (mul_le_mul_of_nonneg_right hFG hT0.le) hh0.le
    have e5 : h * (2 * (A * B)) ≤ h * ((A + B) * (A + B) / 2) := mul_le_mul_of_nonneg_left e2 hh0.le
    nlinarith
  have k3 : |u - F / S| ≤ h + t := hu.trans (by nlinarith)
  have k4 : t ≤ h := by rw [hh, ht]; norm_num
  have e : u - A / (A + B) = (u - F / S) + ((F / S - F / (F + G)) + (F / (F + G) - A / (A + B))) := by ring
  rw [e]
  refine (abs_add_le _ _).trans ?_
  have := (abs_add_le (F / S - F / (F + G)) (F / (F + G) - A / (A + B)))
  have : (4 : ℚ) * h = 1 / 2 ^ 22 := by rw [hh]; norm_num
  linarith

/-- One weight of the power heuristic in single precision. -/
theorem weight_f32 {a b : F32} (ha : Num a) (hb : Num b) (ha0 : 0 ≤ a.val) (hb0 : 0 ≤ b.val) (ha1 : a.val ≤ 2 ^ 62) (hb1 : b.val ≤ 2 ^ 62)
    (hne : 1 / 2 ^ 60 ≤ a.val ∨ 1 / 2 ^ 60 ≤ b.val) :
    Num (powerHeuristic 1 a 1 b) ∧ 0 ≤ (powerHeuristic 1 a 1 b).val ∧ (powerHeuristic 1 a 1 b).val ≤ 1 ∧
      |(powerHeuristic 1 a 1 b).val - a.val ^ 2 / (a.val ^ 2 + b.val ^ 2)| ≤ 1 / 2 ^ 22 := by
  obtain ⟨nf, vf⟩ := mul_one_ok ha
  obtain ⟨ng, vg⟩ := mul_one_ok hb
  have e0 : powerHeuristic 1 a 1 b = ((a *. ofInt 1) *. (a *. ofInt 1)) /. ((a *. ofInt 1) *. (a *. ofInt 1) +. (b *. ofInt 1) *. (b *. ofInt 1)) := rfl
  rw [e0]
  generalize a *. ofInt 1 = f at *
  generalize b *. ofInt 1 = g at *
  rw [← vf] at ha0 ha1 hne ⊢
  rw [← vg] at hb0 hb1 hne ⊢
  have hsq : ∀ x : ℚ, 0 ≤ x → x ≤ 2 ^ 62 → 0 ≤ x * x ∧ x * x ≤ 2 ^ 124 := fun x h0 h1 => ⟨mul_nonneg h0 h0, by
    calc x * x ≤ 2 ^ 62 * 2 ^ 62 := mul_le_mul h1 h1 h0 (by positivity)
      _ = 2 ^ 124 := by norm_num⟩
  obtain ⟨ff0, ff1⟩ := hsq _ ha0 ha1
  obtain ⟨gg0, gg1⟩ := hsq _ hb0 hb1
  have r124 : Fl.Repr Binary32 ((2 : ℚ) ^ 124) := by unfold Fl.Repr; decide +kernel
  have r125 : Fl.Repr Binary32 ((2 : ℚ) ^ 125) := by unfold Fl.Repr; decide +kernel
  obtain ⟨nF, F0, F1⟩ := mul_stays nf nf repr_zero r124 ff0 ff1
  obtain ⟨nG, G0, G1⟩ := mul_stays ng ng repr_zero r124 gg0 gg1
  have eF := (mul_ok nf nf (by rw [abs_of_nonneg ff0]; exact ff1.trans (by norm_num))).2
  have eG := (mul_ok ng ng (by rw [abs_of_nonneg gg0]; exact gg1.trans (by norm_num))).2
  rw [abs_of_nonneg ff0] at eF
  rw [abs_of_nonneg gg0] at eG
  have hT : (1 : ℚ) / 2 ^ 120 ≤ f.val ^ 2 + g.val ^ 2 := by
    have : ∀ x : ℚ, 1 / 2 ^ 60 ≤ x → (1 : ℚ) / 2 ^ 120 ≤ x ^ 2 := fun x hx => by
      calc (1 : ℚ) / 2 ^ 120 = (1 / 2 ^ 60) ^ 2 := by norm_num
        _ ≤ x ^ 2 := pow_le_pow_left₀ (by positivity) hx 2
    rcases hne with h | h
    · linarith [this _ h, sq_nonneg g.val]
    · linarith [this _ h, sq_nonneg f.val]
  generalize f *. f = F at *
  generalize g *. g = G at *
  obtain ⟨nS, S1, -⟩ := add_stays nF nG (num_repr nF) r125 (by linarith) (by linarith)
  have eS := (add_ok nF nG (by rw [abs_of_nonneg (by linarith)]; linarith)).2
  rw [abs_of_nonneg (by linarith : 0 ≤ F.val + G.val)] at eS
  generalize F +. G = S at *
  have hS0 : 0 < S.val := (share_err (u := F.val / S.val) rfl rfl hT F0 eF eG eS S1 (by
    rw [sub_self, abs_zero]
    have : 0 ≤ F.val / S.val := div_nonneg F0 (F0.trans S1)
    positivity)).1
  have hr1 : F.val / S.val ≤ 1 := (div_le_one hS0).2 S1
  have hr0 : 0 ≤ F.val / S.val := div_nonneg F0 hS0.le
  obtain ⟨nu, u0, u1⟩ := div_stays nF nS hS0.ne' repr_zero repr_one hr0 hr1
  have eu := (div_ok nF nS hS0.ne' (by rw [abs_of_nonneg hr0]; exact hr1.trans (by norm_num))).2
  rw [abs_of_nonneg hr0] at eu
  exact ⟨nu, u0, u1, (share_err rfl rfl hT F0 eF eG eS S1 eu).2⟩

/-- C62 in single precision: for densities of at most 2^62, one of them at least 2^-60, both weights are numbers from 0 to 1, each is its exact value up to 2^-22, and their
sum is 1 up to 2^-21. -/
theorem c62_power_heuristic_f32 (a b : F32) (ha : Num a) (hb : Num b) (ha0 : 0 ≤ a.val) (hb0 : 0 ≤ b.val) (ha1 : a.val ≤ 2 ^ 62) (hb1 : b.val ≤ 2 ^ 62)
    (hne : 1 / 2 ^ 60 ≤ a.val ∨ 1 / 2 ^ 60 ≤ b.val) :
    (∀ w ∈ [powerHeuristic 1 a 1 b, powerHeuristic 1 b 1 a], w.IsFin ∧ 0 ≤ w.val ∧ w.val ≤ 1) ∧
    |(powerHeuristic 1 a 1 b).val - a.val ^ 2 / (a.val ^ 2 + b.val ^ 2)| ≤ 1 / 2 ^ 22 ∧
    |(powerHeuristic 1 a 1 b).val + (powerHeuristic 1 b 1 a).val - 1| ≤ 1 / 2 ^ 21 := by
  obtain ⟨n1, u1, u2, u3⟩ := weight_f32 ha hb ha0 hb0 ha1 hb1 hne
  obtain ⟨n2, v1, v2, v3⟩ := weight_f32 hb ha hb0 ha0 hb1 ha1 hne.symm
  refine ⟨?_, u3, ?_⟩
  · intro w hw
    simp only [List.mem_cons, List.not_mem_nil, or_false] at hw
    rcases hw with rfl | rfl
    exacts [⟨n1.fin, u1, u2⟩, ⟨n2.fin, v1, v2⟩]
  · have hT : 0 < a.val ^ 2 + b.val ^ 2 := by
      rcases hne with h | h
      · have : 0 < a.val := lt_of_lt_of_le (by positivity) h
        positivity
      · have : 0 < b.val := lt_of_lt_of_le (by positivity) h
        positivity
    have e : (powerHeuristic 1 a 1 b).val + (powerHeuristic 1 b 1 a).val - 1 =
        ((powerHeuristic 1 a 1 b).val - a.val ^ 2 / (a.val ^ 2 + b.val ^ 2)) + ((powerHeuristic 1 b 1 a).val - b.val ^ 2 / (b.val ^ 2 + a.val ^ 2)) := by
      rw [add_comm (b.val ^ 2)]
      field_simp
      ring
    rw [e]
    refine (abs_add_le _ _).trans ?_
    have : (1 : ℚ) / 2 ^ 22 + 1 / 2 ^ 22 = 1 / 2 ^ 21 := by norm_num
    linarith

/-- C62, the range is needed: a density of 2^64 has an infinite square and two densities of 2^-80 have squares that vanish; either way there is no weight. -/
theorem c62_range_needed :
    powerHeuristic 1 (.fin false (2 ^ 64) : F32) 1 (.fin false 1) = .nan ∧
    powerHeuristic 1 (.fin false (1 / 2 ^ 80) : F32) 1 (.fin false (1 / 2 ^ 80)) = .nan := by
  constructor <;> decide +kernel

/-- C62, a case: the densities 3 and 4. -/
example : |(powerHeuristic 1 (ofInt 3) 1 (ofInt 4) : F32).val - 9 / 25| ≤ 1 / 2 ^ 22 := by
  obtain ⟨f3, v3⟩ := ofInt_exact (n := 3) (by norm_num)
  obtain ⟨f4, v4⟩ := ofInt_exact (n := 4) (by norm_num)
  have := (c62_power_heuristic_f32 (ofInt 3) (ofInt 4) ⟨ofInt_WF 3, f3⟩ ⟨ofInt_WF 4, f4⟩ (by rw [v3]; norm_num) (by rw [v4]; norm_num) (by rw [v3]; norm_num)
    (by rw [v4]; norm_num) (Or.inl (by rw [v3]; norm_num))).2.1
  rw [v3, v4] at this
  norm_num at this ⊢
  exact this

/-! ## The roulette -/

namespace Spec
/-- The values that the random generator delivers: the multiples of 2^-24 below 1. -/
def generated (k : ℕ) : F32 := .fin false ((k : ℚ) / 2 ^ 24)

/-- The weight after the roulette, 0 if the path ends, averaged over all values that the generator delivers. -/
noncomputable def meanAfterRoulette (beta : Spectrum F32) (c : Channel) : ℚ :=
  (∑ k ∈ Finset.range (2 ^ 24), (roulette beta (generated k)).elim 0 fun b => (c.of b).val) / 2 ^ 24
end Spec
open Spec

theorem generated_ok {k : ℕ} (hk : k < 2 ^ 24) : Num (generated k) ∧ (generated k).val = (k : ℚ) / 2 ^ 24 := by
  refine ⟨⟨⟨by positivity, ?_⟩, trivial⟩, by simp [generated, val, sgn]⟩
  obtain ⟨i, hi, ei⟩ := sval_dyadic 125 k (by norm_num) hk
  have hval : (k : ℚ) / 2 ^ 24 = (sval 23 i : ℚ) / 2 ^ 149 := by rw [ei]; push_cast; field_simp; norm_num
  rw [hval]
  show Bin.rnd 23 149 0x7f800000 31 _ = _
  rw [Bin.rnd_some, div_mul_cancel₀ _ (by positivity), ordRound_exact 23 31 i (by omega)]
  exact ⟨hi, rfl⟩

/-- Counting the numbers up to a bound. -/
theorem sum_upto (n : ℕ) (z w : ℚ) (hz : 0 ≤ z) (hn : z < n) : (∑ k ∈ Finset.range n, if z < (k : ℚ) then 0 else w) = (⌊z⌋₊ + 1) * w := by
  have hf : ⌊z⌋₊ < n := (Nat.floor_lt hz).2 hn
  have e : ∀ k ∈ Finset.range n, (if z < (k : ℚ) then (0 : ℚ) else w) = if k ∈ Finset.range (⌊z⌋₊ + 1) then w else 0 := by
    intro k _
    have hm : k ∈ Finset.range (⌊z⌋₊ + 1) ↔ (k : ℚ) ≤ z := by rw [Finset.mem_range, Nat.lt_succ_iff, Nat.le_floor_iff hz]
    by_cases h : z < (k : ℚ)
    · rw [if_pos h, if_neg fun e => not_le.2 h (hm.1 e)]
    · rw [if_neg h, if_pos (hm.2 (not_lt.1 h))]
  rw [Finset.sum_congr rfl e, Finset.sum_ite_mem, Finset.inter_eq_right.2 (Finset.range_subset_range.2 (by omega)), Finset.sum_const, Finset.card_range]
  simp

/-- The luminance of a colour without negative channels is a number, and at least 7/100 of each channel. -/
theorem luminance_f32 {s : Spectrum F32} (hn : ∀ c : Channel, Num (c.of s)) (h0 : ∀ c : Channel, 0 ≤ (c.of s).val) (h1 : ∀ c : Channel, (c.of s).val ≤ 2 ^ 100) :
    Num s.y ∧ ∀ c : Channel, 7 / 100 * (c.of s).val - 1 / 2 ^ 150 ≤ s.y.val := by
  have r102 : Fl.Repr Binary32 ((2 : ℚ) ^ 101) := by unfold Fl.Repr; decide +kernel
  have r103 : Fl.Repr Binary32 ((2 : ℚ) ^ 102) := by unfold Fl.Repr; decide +kernel
  have r104 : Fl.Repr Binary32 ((2 : ℚ) ^ 103) := by unfold Fl.Repr; decide +kernel
  have part : ∀ (q : ℚ) (x : F32), 72169 / 1000000 ≤ q → q ≤ 1 → Num x → 0 ≤ x.val → x.val ≤ 2 ^ 100 →
      Num (lit q *. x) ∧ 0 ≤ (lit q *. x).val ∧ (lit q *. x).val ≤ 2 ^ 101 ∧ 7 / 100 * x.val - 1 / 2 ^ 150 ≤ (lit q *. x).val := by
    intro q x hq0 hq1 nx x0 x1
    have nq : Num (lit q : F32) := lit_ok (by rw [abs_of_nonneg (by linarith)]; exact hq1.trans (by norm_num))
    have eq := ofVal_err (x := q) (zs := false) (by have := nq.fin; rw [f_lit] at this; simpa using this)
    have elit : (lit q : F32) = ofVal q false := by rw [f_lit]; simp
    rw [← elit, abs_of_nonneg (by linarith : 0 ≤ q)] at eq
    obtain ⟨q1, q2⟩ := abs_le.1 eq
    have a1 : 72 / 1000 ≤ (lit q : F32).val := by simp only [ulpHalf, tinyHalf] at *; linarith [show (1 : ℚ) / 2 ^ 150 ≤ 1 / 2 ^ 24 by norm_num]
    have a2 : (lit q : F32).val ≤ 2 := by simp only [ulpHalf, tinyHalf] at *; linarith [show (1 : ℚ) / 2 ^ 150 ≤ 1 / 2 ^ 24 by norm_num]
    have p0 : 0 ≤ (lit q : F32).val * x.val := mul_nonneg (by linarith) x0
    have p1 : (lit q : F32).val * x.val ≤ 2 ^ 101 := by
      calc (lit q : F32).val * x.val ≤ 2 * 2 ^ 100 := mul_le_mul a2 x1 x0 (by norm_num)
        _ = 2 ^ 101 := by norm_num
    obtain ⟨n, l, u⟩ := mul_stays nq nx repr_zero r102 p0 p1
    have em := (mul_ok nq nx (by rw [abs_of_nonneg p0]; exact p1.trans (by norm_num))).2
    rw [abs_of_nonneg p0] at em
    obtain ⟨m1, m2⟩ := abs_le.1 em
    refine ⟨n, l, u, ?_⟩
    have : 72 / 1000 * x.val ≤ (lit q : F32).val * x.val := mul_le_mul_of_nonneg_right a1 x0
    simp only [ulpHalf, tinyHalf] at *
    linarith
  obtain ⟨n1, l1, u1, b1⟩ := part (212671 / 1000000) s.r (by norm_num) (by norm_num) (hn .red) (h0 .red) (h1 .red)
  obtain ⟨n2, l2, u2, b2⟩ := part (715160 / 1000000) s.g (by norm_num) (by norm_num) (hn .green) (h0 .green) (h1 .green)
  obtain ⟨n3, l3, u3, b3⟩ := part (72169 / 1000000) s.b (by norm_num) (by norm_num) (hn .blue) (h0 .blue) (h1 .blue)
  have ey : s.y = lit (212671 / 1000000) *. s.r +. lit (715160 / 1000000) *. s.g +. lit (72169 / 1000000) *. s.b := rfl
  rw [ey]
  generalize (lit (212671 / 1000000) : F32) *. s.r = P at *
  generalize (lit (715160 / 1000000) : F32) *. s.g = Q at *
  generalize (lit (72169 / 1000000) : F32) *. s.b = R at *
  have hPQ : P.val + Q.val ≤ 2 ^ 102 := by linarith [show (2 : ℚ) ^ 101 + 2 ^ 101 = 2 ^ 102 by norm_num]
  obtain ⟨n4, l4, u4⟩ := add_stays n1 n2 (num_repr n1) r103 (by linarith) hPQ
  obtain ⟨-, l5, -⟩ := add_stays n1 n2 (num_repr n2) r103 (by linarith) hPQ
  generalize P +. Q = T at *
  have hTR : T.val + R.val ≤ 2 ^ 103 := by linarith [show (2 : ℚ) ^ 102 + 2 ^ 102 = 2 ^ 103 by norm_num, show (2 : ℚ) ^ 101 ≤ 2 ^ 102 by norm_num]
  obtain ⟨n6, l6, -⟩ := add_stays n4 n3 (num_repr n4) r104 (by linarith) hTR
  obtain ⟨-, l7, -⟩ := add_stays n4 n3 (num_repr n3) r104 (by linarith) hTR
  refine ⟨n6, fun c => ?_⟩
  cases c <;> simp only [Channel.of] <;> linarith

/-- C68 in single precision, with a random generator: for a path weight of positive luminance and channels from 0 to 2^100, every weight after the roulette is a number without
minus sign, and averaged over all the values that the generator delivers each channel is what it was before, up to a relative error of 2^-22 and an absolute one of 2^-18. -/
theorem c68_roulette_f32 (beta : Spectrum F32) (hn : ∀ c : Channel, Num (c.of beta)) (h0 : ∀ c : Channel, 0 ≤ (c.of beta).val)
    (h1 : ∀ c : Channel, (c.of beta).val ≤ 2 ^ 100) (hy : 0 < beta.y.val) (c : Channel) :
    (∀ u b, roulette beta u = some b → (c.of b).IsFin ∧ 0 ≤ (c.of b).val) ∧
    |meanAfterRoulette beta c - (c.of beta).val| ≤ (c.of beta).val / 2 ^ 22 + 1 / 2 ^ 18 := by
  obtain ⟨ny, ly⟩ := luminance_f32 hn h0 h1
  have ncap : Num (lit (95 / 100) : F32) := lit_ok (by rw [abs_of_nonneg (by norm_num)]; norm_num)
  have vcap : 94 / 100 ≤ (lit (95 / 100) : F32).val ∧ (lit (95 / 100) : F32).val ≤ 96 / 100 := by
    have eq := ofVal_err (x := 95 / 100) (zs := false) (by have := ncap.fin; rw [f_lit] at this; simpa using this)
    have elit : (lit (95 / 100) : F32) = ofVal (95 / 100) false := by rw [f_lit]; simp
    rw [← elit, abs_of_nonneg (show (0 : ℚ) ≤ 95 / 100 by norm_num)] at eq
    obtain ⟨q1, q2⟩ := abs_le.1 eq
    simp only [ulpHalf, tinyHalf] at *
    have : (1 : ℚ) / 2 ^ 150 ≤ 1 / 2 ^ 24 := by norm_num
    constructor <;> linarith
  obtain ⟨nq, vq⟩ := min_ok ny ncap
  have eroul : ∀ u, roulette beta u = if u >. Scalar.fmin beta.y (lit (95 / 100)) then none else some (beta.sdiv (Scalar.fmin beta.y (lit (95 / 100)))) := fun _ => rfl
  unfold meanAfterRoulette
  simp only [eroul]
  clear eroul
  generalize Scalar.fmin beta.y (lit (95 / 100)) = q at *
  have hx := ly c
  have hgrid : 1 / 2 ^ 149 ≤ beta.y.val := by
    obtain ⟨m, hm⟩ := val_grid ny.wf
    rw [hm] at hy ⊢
    have : 0 < m := by
      by_contra h
      have : (m : ℚ) ≤ 0 := by exact_mod_cast not_lt.1 h
      have := div_nonpos_of_nonpos_of_nonneg this (show (0 : ℚ) ≤ 2 ^ 149 by positivity)
      linarith
    have : (1 : ℚ) ≤ m := by exact_mod_cast this
    gcongr
  generalize beta.y.val = y at *
  generalize (lit (95 / 100) : F32).val = cap at *
  have q0 : 0 < q.val := by rw [vq]; exact lt_min hy (by linarith)
  have q1 : q.val ≤ 96 / 100 := by rw [vq]; exact (min_le_right _ _).trans vcap.2
  have x0 := h0 c
  have x1 := h1 c
  have nx := hn c
  have edef : c.of (beta.sdiv q) = c.of beta /. q := by cases c <;> rfl
  generalize c.of beta = x at *
  have w0 : 0 ≤ x.val / q.val := div_nonneg x0 q0.le
  have w1 : x.val / q.val ≤ 22 + x.val * (107 / 100) := by
    rw [div_le_iff₀ q0]
    rcases le_total y cap with h | h
    · rw [vq, min_eq_left h]
      have e : (1 : ℚ) / 2 ^ 150 = 1 / 2 ^ 149 / 2 := by norm_num
      have : 7 / 100 * x.val ≤ 3 / 2 * y := by linarith
      have : 0 ≤ x.val * (107 / 100) * y := by positivity
      linarith
    · rw [vq, min_eq_right h]
      have : x.val * (107 / 100) * (94 / 100) ≤ x.val * (107 / 100) * cap := mul_le_mul_of_nonneg_left vcap.1 (by positivity)
      linarith
  have w2 : x.val / q.val ≤ 2 ^ 102 := by
    have : (22 : ℚ) + 2 ^ 100 * (107 / 100) ≤ 2 ^ 102 := by norm_num
    linarith
  have r102 : Fl.Repr Binary32 ((2 : ℚ) ^ 102) := by unfold Fl.Repr; decide +kernel
  obtain ⟨nw, wl, -⟩ := div_stays nx nq q0.ne' repr_zero r102 w0 w2
  have ew := (div_ok nx nq q0.ne' (by rw [abs_of_nonneg w0]; exact w2.trans (by norm_num))).2
  rw [abs_of_nonneg w0] at ew
  constructor
  · intro u b hb
    split_ifs at hb
    cases hb
    rw [edef]
    exact ⟨nw.fin, wl⟩
  have hterm : ∀ k ∈ Finset.range (2 ^ 24), ((if generated k >. q then none else some (beta.sdiv q)).elim (0 : ℚ) fun b => (c.of b).val) =
      if q.val * 2 ^ 24 < (k : ℚ) then 0 else (x /. q).val := by
    intro k hk
    obtain ⟨nk, vk⟩ := generated_ok (Finset.mem_range.1 hk)
    have hlt : (generated k >. q) = true ↔ q.val * 2 ^ 24 < (k : ℚ) := by
      rw [show (generated k >. q) = (q <. generated k) from rfl, lt_ok nq nk, vk, lt_div_iff₀ (by positivity)]
    by_cases h : q.val * 2 ^ 24 < (k : ℚ)
    · rw [if_pos h, if_pos (hlt.2 h)]; rfl
    · rw [if_neg h, if_neg (fun e => h (hlt.1 e))]
      simp only [Option.elim, edef]
  rw [Finset.sum_congr rfl hterm, sum_upto (2 ^ 24) (q.val * 2 ^ 24) _ (by positivity) (by push_cast; linarith)]
  have f1 := Nat.floor_le (show 0 ≤ q.val * 2 ^ 24 by positivity)
  have f2 := Nat.lt_floor_add_one (q.val * 2 ^ 24)
  generalize (⌊q.val * 2 ^ 24⌋₊ : ℚ) = N at *
  have eqw : x.val = q.val * (x.val / q.val) := by field_simp
  generalize x.val / q.val = w at *
  generalize (x /. q).val = W at *
  obtain ⟨d, hd⟩ : ∃ d : ℚ, (N + 1) / 2 ^ 24 = q.val + d := ⟨(N + 1) / 2 ^ 24 - q.val, by ring⟩
  have d0 : 0 ≤ d := by
    have : q.val ≤ (N + 1) / 2 ^ 24 := by rw [le_div_iff₀ (by positivity)]; linarith
    linarith
  have d1 : d ≤ 1 / 2 ^ 24 := by
    have : (N + 1) / 2 ^ 24 ≤ q.val + 1 / 2 ^ 24 := by rw [div_le_iff₀ (by positivity), add_mul]; linarith
    linarith
  have e : (N + 1) * W / 2 ^ 24 - x.val = d * w + (q.val + d) * (W - w) := by
    rw [show (N + 1) * W / 2 ^ 24 = (N + 1) / 2 ^ 24 * W by ring, hd, eqw]; ring
  rw [e]
  refine (abs_add_le _ _).trans ?_
  rw [abs_of_nonneg (mul_nonneg d0 w0), abs_mul, abs_of_nonneg (by linarith : 0 ≤ q.val + d)]
  have k1 : d * w ≤ 1 / 2 ^ 24 * w := mul_le_mul_of_nonneg_right d1 w0
  have k2 : (q.val + d) * |W - w| ≤ 1 * (w * ulpHalf + tinyHalf) := by
    refine mul_le_mul ?_ ew (abs_nonneg _) (by norm_num)
    have : (1 : ℚ) / 2 ^ 24 ≤ 4 / 100 := by norm_num
    linarith
  simp only [ulpHalf, tinyHalf] at *
  have k3 : (1 : ℚ) / 2 ^ 150 ≤ 1 / 2 ^ 24 := by norm_num
  have k4 : (1 : ℚ) / 2 ^ 24 * w + w * (1 / 2 ^ 24) ≤ 2 * (1 / 2 ^ 24) * (22 + x.val * (107 / 100)) := by linarith
  have k5 : x.val / 2 ^ 22 = 4 * (1 / 2 ^ 24) * x.val := by ring
  have k6 : (1 : ℚ) / 2 ^ 18 = 64 * (1 / 2 ^ 24) := by norm_num
  rw [k5, k6]
  nlinarith

/-- C68, positive luminance is needed: a black weight that meets the value 0 becomes NaN. -/
theorem c68_black_f32 : roulette (⟨lit 0, lit 0, lit 0⟩ : Spectrum F32) (generated 0) = some ⟨.nan, .nan, .nan⟩ := by
  simp only [generated]
  decide +kernel

/-- C68, a case: the weight 1/2 in all channels. -/
example : |meanAfterRoulette ⟨.fin false (1 / 2), .fin false (1 / 2), .fin false (1 / 2)⟩ .green - 1 / 2| ≤ 1 / 2 ^ 17 := by
  have nh : Num (.fin false (1 / 2) : F32) := ⟨⟨by norm_num, by decide +kernel⟩, trivial⟩
  have vh : (Fl.fin false (1 / 2) : F32).val = 1 / 2 := by simp [val, sgn]
  have key := (c68_roulette_f32 ⟨.fin false (1 / 2), .fin false (1 / 2), .fin false (1 / 2)⟩ (by intro c; cases c <;> exact nh)
    (by intro c; cases c <;> (simp only [Channel.of]; rw [vh]; norm_num)) (by intro c; cases c <;> (simp only [Channel.of]; rw [vh]; norm_num)) (by decide +kernel) .green).2
  simp only [Channel.of, vh] at key
  refine key.trans (by norm_num)

/-! ## Interpolation -/

/-- C71, interpolation in single precision: it starts and ends exactly at the given values, and in between it is right up to a rounding error. -/
theorem c71_lerp_f32 (a b t : F32) (ha : Num a) (hb : Num b) (ht : Num t) (M : ℚ) (hM : M ≤ 2 ^ 100) (ha1 : |a.val| ≤ M) (hb1 : |b.val| ≤ M) (ht0 : 0 ≤ t.val)
    (ht1 : t.val ≤ 1) :
    (lerp (lit 0) a b).val = a.val ∧ (lerp (lit 1) a b).val = b.val ∧
    (lerp t a b).IsFin ∧ |(lerp t a b).val - ((1 - t.val) * a.val + t.val * b.val)| ≤ M / 2 ^ 22 + 1 / 2 ^ 148 := by
  have hM0 : 0 ≤ M := (abs_nonneg _).trans ha1
  obtain ⟨n1, v1⟩ := one_ok
  obtain ⟨n0, v0⟩ := zero_ok
  have subx : ∀ {x y : F32}, Num x → Num y → Fl.Repr Binary32 (x.val - y.val) → Num (x -. y) ∧ (x -. y).val = x.val - y.val := by
    intro x y nx ny hr
    obtain ⟨nn, vn⟩ := neg_ok ny
    obtain ⟨n, l, u⟩ := add_stays nx nn hr hr (by rw [vn]; linarith) (by rw [vn]; linarith)
    exact ⟨n, le_antisymm u l⟩
  have mulx : ∀ {x y : F32}, Num x → Num y → Fl.Repr Binary32 (x.val * y.val) → Num (x *. y) ∧ (x *. y).val = x.val * y.val := by
    intro x y nx ny hr
    obtain ⟨n, l, u⟩ := mul_stays nx ny hr hr le_rfl le_rfl
    exact ⟨n, le_antisymm u l⟩
  have addx : ∀ {x y : F32}, Num x → Num y → Fl.Repr Binary32 (x.val + y.val) → Num (x +. y) ∧ (x +. y).val = x.val + y.val := by
    intro x y nx ny hr
    obtain ⟨n, l, u⟩ := add_stays nx ny hr hr le_rfl le_rfl
    exact ⟨n, le_antisymm u l⟩
  refine ⟨?_, ?_, ?_⟩
  · obtain ⟨p1, p2⟩ := subx n1 n0 (by rw [v1, v0, sub_zero]; exact repr_one)
    obtain ⟨p3, p4⟩ := mulx p1 ha (by rw [p2, v1, v0, sub_zero, one_mul]; exact num_repr ha)
    obtain ⟨p5, p6⟩ := mulx n0 hb (by rw [v0, zero_mul]; exact repr_zero)
    have e : (lit 1 -. lit 0 : F32).val * a.val = a.val := by rw [p2, v1, v0]; ring
    obtain ⟨-, p7⟩ := addx p3 p5 (by rw [p4, p6, v0, e, zero_mul, add_zero]; exact num_repr ha)
    unfold lerp
    rw [p7, p4, p6, v0, e, zero_mul, add_zero]
  · obtain ⟨p1, p2⟩ := subx n1 n1 (by rw [sub_self]; exact repr_zero)
    have e : (lit 1 -. lit 1 : F32).val * a.val = 0 := by rw [p2]; ring
    obtain ⟨p3, p4⟩ := mulx p1 ha (by rw [e]; exact repr_zero)
    obtain ⟨p5, p6⟩ := mulx n1 hb (by rw [v1, one_mul]; exact num_repr hb)
    obtain ⟨-, p7⟩ := addx p3 p5 (by rw [p4, p6, v1, e, one_mul, zero_add]; exact num_repr hb)
    unfold lerp
    rw [p7, p4, p6, v1, e, one_mul, zero_add]
  · have hs : |(lit 1 : F32).val - t.val| ≤ 1 := by rw [v1, abs_le]; constructor <;> linarith
    obtain ⟨ns, es⟩ := sub_ok n1 ht (hs.trans (by norm_num))
    rw [v1, abs_of_nonneg (by linarith : 0 ≤ 1 - t.val)] at es
    unfold lerp
    generalize (lit 1 : F32) -. t = s at *
    have hh : (0 : ℚ) ≤ ulpHalf := by norm_num
    have s1 : |s.val| ≤ 2 := by
      have e1 : s.val = (s.val - (1 - t.val)) + (1 - t.val) := by ring
      rw [e1]
      refine (abs_add_le _ _).trans ?_
      rw [abs_of_nonneg (by linarith : 0 ≤ 1 - t.val)]
      have : (1 - t.val) * ulpHalf ≤ 1 * 1 := mul_le_mul (by linarith) (by norm_num) hh (by norm_num)
      linarith
    have p1 : |s.val * a.val| ≤ 2 * M := by rw [abs_mul]; exact mul_le_mul s1 ha1 (abs_nonneg _) (by norm_num)
    have p2 : |t.val * b.val| ≤ 1 * M := by rw [abs_mul, abs_of_nonneg ht0]; exact mul_le_mul ht1 hb1 (abs_nonneg _) (by norm_num)
    have big : (2 : ℚ) ^ 100 * 16 ≤ 2 ^ 126 := by norm_num
    obtain ⟨nP, eP⟩ := mul_ok ns ha (by linarith)
    obtain ⟨nQ, eQ⟩ := mul_ok ht hb (by linarith)
    generalize s *. a = P at *
    generalize t *. b = Q at *
    -- the first product against the exact one
    have dP : |P.val - (1 - t.val) * a.val| ≤ (1 - t.val) * M * ulpHalf + |s.val * a.val| * ulpHalf + tinyHalf := by
      have e1 : P.val - (1 - t.val) * a.val = (P.val - s.val * a.val) + (s.val - (1 - t.val)) * a.val := by ring
      rw [e1]
      refine (abs_add_le _ _).trans ?_
      rw [abs_mul]
      have : |s.val - (1 - t.val)| * |a.val| ≤ (1 - t.val) * ulpHalf * M := mul_le_mul es ha1 (abs_nonneg _) (mul_nonneg (by linarith) hh)
      linarith
    have sa : |s.val * a.val| ≤ (1 - t.val) * M + M * ulpHalf := by
      rw [abs_mul]
      have e1 : s.val = (s.val - (1 - t.val)) + (1 - t.val) := by ring
      have : |s.val| ≤ (1 - t.val) * ulpHalf + (1 - t.val) := by
        conv_lhs => rw [e1]
        refine (abs_add_le _ _).trans ?_
        rw [abs_of_nonneg (by linarith : 0 ≤ 1 - t.val)]
        linarith
      calc |s.val| * |a.val| ≤ ((1 - t.val) * ulpHalf + (1 - t.val)) * M := mul_le_mul this ha1 (abs_nonneg _) (by nlinarith)
        _ ≤ _ := by nlinarith [mul_nonneg (mul_nonneg ht0 hh) hM0]
    have tb : |t.val * b.val| ≤ t.val * M := by rw [abs_mul, abs_of_nonneg ht0]; exact mul_le_mul_of_nonneg_left hb1 ht0
    have hE : |(1 - t.val) * a.val + t.val * b.val| ≤ M := by
      refine (abs_add_le _ _).trans ?_
      rw [abs_mul, abs_of_nonneg (by linarith : 0 ≤ 1 - t.val)]
      have : (1 - t.val) * |a.val| ≤ (1 - t.val) * M := mul_le_mul_of_nonneg_left ha1 (by linarith)
      linarith
    have dS : |P.val + Q.val - ((1 - t.val) * a.val + t.val * b.val)| ≤ 2 * M * ulpHalf + M * ulpHalf * ulpHalf + 2 * tinyHalf := by
      have e1 : P.val + Q.val - ((1 - t.val) * a.val + t.val * b.val) = (P.val - (1 - t.val) * a.val) + (Q.val - t.val * b.val) := by ring
      rw [e1]
      refine (abs_add_le _ _).trans ?_
      have k1 : |s.val * a.val| * ulpHalf ≤ ((1 - t.val) * M + M * ulpHalf) * ulpHalf := mul_le_mul_of_nonneg_right sa hh
      have k2 : |t.val * b.val| * ulpHalf ≤ t.val * M * ulpHalf := mul_le_mul_of_nonneg_right tb hh
      have k3 : 0 ≤ t.val * M * ulpHalf := by positivity
      linarith
    have hsum : |P.val + Q.val| ≤ M + (2 * M * ulpHalf + M * ulpHalf * ulpHalf + 2 * tinyHalf) := by
      have e1 : P.val + Q.val = ((1 - t.val) * a.val + t.val * b.val) + (P.val + Q.val - ((1 - t.val) * a.val + t.val * b.val)) := by ring
      conv_lhs => rw [e1]
      exact (abs_add_le _ _).trans (add_le_add hE dS)
    simp only [ulpHalf, tinyHalf] at *
    obtain ⟨nR, eR⟩ := add_ok nP nQ (by
      refine hsum.trans ?_
      have : (1 : ℚ) / 2 ^ 150 ≤ 1 := by norm_num
      norm_num at *
      linarith)
    refine ⟨nR.fin, ?_⟩
    generalize P +. Q = R at *
    have e1 : R.val - ((1 - t.val) * a.val + t.val * b.val) = (R.val - (P.val + Q.val)) + (P.val + Q.val - ((1 - t.val) * a.val + t.val * b.val)) := by ring
    rw [e1]
    refine (abs_add_le _ _).trans ?_
    have k1 : |P.val + Q.val| * (1 / 2 ^ 24) ≤ (M + (2 * M * (1 / 2 ^ 24) + M * (1 / 2 ^ 24) * (1 / 2 ^ 24) + 2 * (1 / 2 ^ 150))) * (1 / 2 ^ 24) :=
      mul_le_mul_of_nonneg_right hsum (by positivity)
    have k2 := (eR.trans k1)
    generalize |R.val - (P.val + Q.val)| = A at *
    generalize |P.val + Q.val - ((1 - t.val) * a.val + t.val * b.val)| = B at *
    norm_num at *
    linarith

/-- C71, a case: half way from 1 to 3. -/
example : |(lerp (.fin false (1 / 2)) (ofInt 1) (ofInt 3) : F32).val - 2| ≤ 1 / 2 ^ 20 := by
  obtain ⟨f1, v1⟩ := ofInt_exact (n := 1) (by norm_num)
  obtain ⟨f3, v3⟩ := ofInt_exact (n := 3) (by norm_num)
  have nh : Num (.fin false (1 / 2) : F32) := ⟨⟨by norm_num, by decide +kernel⟩, trivial⟩
  have vh : (Fl.fin false (1 / 2) : F32).val = 1 / 2 := by simp [val, sgn]
  have key := (c71_lerp_f32 (ofInt 1) (ofInt 3) (.fin false (1 / 2)) ⟨ofInt_WF 1, f1⟩ ⟨ofInt_WF 3, f3⟩ nh 3 (by norm_num) (by rw [v1]; norm_num) (by rw [v3]; norm_num)
    (by rw [vh]; norm_num) (by rw [vh]; norm_num)).2.2.2
  rw [v1, v3, vh] at key
  have e : (1 - 1 / 2 : ℚ) * ((1 : ℤ) : ℚ) + 1 / 2 * ((3 : ℤ) : ℚ) = 2 := by norm_num
  rw [e] at key
  exact key.trans (by norm_num)
end PT
