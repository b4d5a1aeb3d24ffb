import Verif.Lemmas.RelErr
import Verif.Lemmas.FlWF
import Mathlib.Tactic.GCongr

/-! # Single precision operations that do not overflow -/

namespace PT
namespace Fl

/-- A number: neither NaN nor an infinity, and representable. -/
structure Num (x : F32) : Prop where
  wf : x.WF
  fin : x.IsFin

theorem big_repr : Repr Binary32 ((2 : ℚ) ^ 126) := by
  unfold Repr; decide +kernel

theorem ofVal_ok {x : ℚ} (h : |x| ≤ 2 ^ 126) (zs : Bool) : Num (ofVal x zs : F32) := by
  have h' := abs_le.1 h
  exact ⟨ofVal_WF _ _, (ofVal_between (repr_neg big_repr) big_repr h'.1 h'.2 zs).1⟩

theorem lit_ok {q : ℚ} (h : |q| ≤ 2 ^ 126) : Num (PT.lit q : F32) := by
  rw [f_lit]; simpa using ofVal_ok h false

theorem neg_ok {a : F32} (ha : Num a) : Num (⊖a) ∧ (⊖a).val = -a.val :=
  ⟨⟨neg_WF ha.wf, (neg_fin ha.fin).1⟩, (neg_fin ha.fin).2⟩

/-- A product is the rounded product of the values. -/
theorem mul_val {a b : F32} (ha : Num a) (hb : Num b) : ∃ zs, a *. b = ofVal (a.val * b.val) zs := by
  obtain ⟨s, m, rfl⟩ := IsFin_iff.1 ha.fin
  obtain ⟨t, k, rfl⟩ := IsFin_iff.1 hb.fin
  obtain ⟨zs, e⟩ := ofMag_ofVal (φ := Binary32) (mul_nonneg ha.wf.1 hb.wf.1 : 0 ≤ m * k) (s ^^ t)
  refine ⟨zs, ?_⟩
  change ofMag (s ^^ t) (m * k) = _
  rw [e, sgn_xor_mul]; rfl

theorem mul_ok {a b : F32} (ha : Num a) (hb : Num b) (h : |a.val * b.val| ≤ 2 ^ 126) :
    Num (a *. b) ∧ |(a *. b).val - a.val * b.val| ≤ |a.val * b.val| * ulpHalf + tinyHalf := by
  obtain ⟨zs, e⟩ := mul_val ha hb
  have n : Num (a *. b) := by rw [e]; exact ofVal_ok h zs
  exact ⟨n, mul_err ha.wf hb.wf n.fin⟩

theorem add_ok {a b : F32} (ha : Num a) (hb : Num b) (h : |a.val + b.val| ≤ 2 ^ 126) :
    Num (a +. b) ∧ |(a +. b).val - (a.val + b.val)| ≤ |a.val + b.val| * ulpHalf := by
  obtain ⟨zs, e⟩ := add_fin ha.fin hb.fin
  have n : Num (a +. b) := by rw [f_add, e]; exact ofVal_ok h zs
  exact ⟨n, add_err ha.wf hb.wf n.fin⟩

theorem sub_ok {a b : F32} (ha : Num a) (hb : Num b) (h : |a.val - b.val| ≤ 2 ^ 126) :
    Num (a -. b) ∧ |(a -. b).val - (a.val - b.val)| ≤ |a.val - b.val| * ulpHalf := by
  obtain ⟨nb, vb⟩ := neg_ok hb
  have := add_ok ha nb (by rwa [vb, ← sub_eq_add_neg])
  rwa [vb, ← sub_eq_add_neg] at this

theorem div_ok {a b : F32} (ha : Num a) (hb : Num b) (h0 : b.val ≠ 0) (h : |a.val / b.val| ≤ 2 ^ 126) :
    Num (a /. b) ∧ |(a /. b).val - a.val / b.val| ≤ |a.val / b.val| * ulpHalf + tinyHalf := by
  have n : Num (a /. b) := by
    obtain ⟨s, m, rfl⟩ := IsFin_iff.1 ha.fin
    obtain ⟨t, k, rfl⟩ := IsFin_iff.1 hb.fin
    have hk : k ≠ 0 := by rintro rfl; apply h0; cases t <;> simp [val, sgn]
    have e0 : (fin s m /. fin t k : F32) = ofMag (s ^^ t) (m / k) := by simp [f_div, div, hk]
    obtain ⟨zs, e⟩ := ofMag_ofVal (φ := Binary32) (div_nonneg ha.wf.1 hb.wf.1 : 0 ≤ m / k) (s ^^ t)
    rw [e0, e, sgn_xor_div]
    exact ofVal_ok h zs
  exact ⟨n, (div_err ha.wf hb.wf hb.fin n.fin).2.2⟩

theorem abs_ok {a : F32} (ha : Num a) : Num (Scalar.abs a) ∧ (Scalar.abs a).val = |a.val| := by
  obtain ⟨s, m, rfl⟩ := IsFin_iff.1 ha.fin
  refine ⟨⟨ha.wf, trivial⟩, ?_⟩
  have := ha.wf.1
  cases s <;> simp [f_abs, abs, val, sgn, abs_of_nonneg this]

theorem max_ok {a b : F32} (ha : Num a) (hb : Num b) : Num (Scalar.fmax a b) ∧ (Scalar.fmax a b).val = max a.val b.val := by
  have na : a.isNaN = false := by obtain ⟨s, m, rfl⟩ := IsFin_iff.1 ha.fin; rfl
  have nb : b.isNaN = false := by obtain ⟨s, m, rfl⟩ := IsFin_iff.1 hb.fin; rfl
  rw [f_max, fmax, na, nb]
  simp only [Bool.false_eq_true, if_false]
  by_cases h : lt a b = true
  · rw [if_pos h]; exact ⟨hb, (max_eq_right ((lt_val ha.fin hb.fin).1 h).le).symm⟩
  · rw [if_neg h]
    refine ⟨ha, (max_eq_left ?_).symm⟩
    rw [lt_val ha.fin hb.fin] at h; exact not_lt.1 h

theorem lt_ok {a b : F32} (ha : Num a) (hb : Num b) : (a <. b) = true ↔ a.val < b.val := lt_val ha.fin hb.fin
theorem le_ok {a b : F32} (ha : Num a) (hb : Num b) : (a <=. b) = true ↔ a.val ≤ b.val := le_val ha.fin hb.fin
theorem eq_ok {a b : F32} (ha : Num a) (hb : Num b) : (a ==. b) = true ↔ a.val = b.val := by
  obtain ⟨s, x, rfl⟩ := IsFin_iff.1 ha.fin
  obtain ⟨t, y, rfl⟩ := IsFin_iff.1 hb.fin
  simp [f_eq, Fl.eq, val]

theorem zero_ok : Num (PT.lit 0 : F32) ∧ (PT.lit 0 : F32).val = 0 := ⟨lit_ok (by norm_num), by rw [lit_zero]; rfl⟩

/-- A difference of two products has the sign of the exact difference, or is zero. -/
theorem cross_sign {a b c d : F32} (ha : Num a) (hb : Num b) (hc : Num c) (hd : Num d) (h1 : |a.val * b.val| ≤ 2 ^ 120)
    (h2 : |c.val * d.val| ≤ 2 ^ 120) :
    (0 ≤ a.val * b.val - c.val * d.val → 0 ≤ (a *. b -. c *. d).val) ∧ (a.val * b.val - c.val * d.val ≤ 0 → (a *. b -. c *. d).val ≤ 0) := by
  have k1 := mul_ok ha hb (h1.trans (by norm_num))
  have k2 := mul_ok hc hd (h2.trans (by norm_num))
  obtain ⟨z1, e1⟩ := mul_val ha hb
  obtain ⟨z2, e2⟩ := mul_val hc hd
  have hm : ∀ {x y : ℚ} {z z' : Bool}, x ≤ y → (ofVal x z : F32).IsFin → (ofVal y z' : F32).IsFin → (ofVal x z : F32).val ≤ (ofVal y z' : F32).val :=
    fun h f g => (le_val f g).1 (ofVal_mono h _ _)
  have f1 := k1.1.fin
  have f2 := k2.1.fin
  have b1 : |(a *. b).val| ≤ 2 ^ 122 := by
    have := k1.2
    rw [abs_le] at this h1 ⊢
    have := abs_le.2 h1
    simp only [ulpHalf, tinyHalf] at *
    constructor <;> linarith
  have b2 : |(c *. d).val| ≤ 2 ^ 122 := by
    have := k2.2
    rw [abs_le] at this h2 ⊢
    have := abs_le.2 h2
    simp only [ulpHalf, tinyHalf] at *
    constructor <;> linarith
  have h3 : |(a *. b).val - (c *. d).val| ≤ 2 ^ 126 := by
    rw [abs_le] at b1 b2 ⊢; constructor <;> linarith
  have k3 := sub_ok k1.1 k2.1 h3
  constructor
  · intro h
    have : (c *. d).val ≤ (a *. b).val := by
      rw [e1] at f1 ⊢; rw [e2] at f2 ⊢
      exact hm (by linarith) f2 f1
    have g := k3.2
    rw [abs_of_nonneg (by linarith : 0 ≤ (a *. b).val - (c *. d).val), abs_le] at g
    simp only [ulpHalf] at g
    linarith [g.1]
  · intro h
    have : (a *. b).val ≤ (c *. d).val := by
      rw [e1] at f1 ⊢; rw [e2] at f2 ⊢
      exact hm (by linarith) f1 f2
    have g := k3.2
    rw [abs_of_nonpos (by linarith : (a *. b).val - (c *. d).val ≤ 0), abs_le] at g
    simp only [ulpHalf] at g
    linarith [g.2]

end Fl
end PT
