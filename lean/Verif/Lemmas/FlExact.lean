import Verif.Lemmas.FlMono

/-! # `Fl Exact K`: arithmetic without rounding, with NaN, infinities and signed zeros -/

namespace PT
namespace Fl
variable {K : Type} [Field K] [LinearOrder K] [IsStrictOrderedRing K] [FloorRing K]

/-- The finite value `x` (with sign bit of `x`; `+0` for zero). -/
theorem ofVal_exact (x : K) (zs : Bool) :
    (ofVal x zs : Fl Exact K) = if x = 0 then fin zs 0 else fin (decide (x < 0)) |x| := by
  unfold ofVal
  split_ifs with h0 hn
  · rfl
  · simp only [Rounding.rnd, hn, decide_true, abs_of_neg hn]
  · have : 0 ≤ x := not_lt.1 hn
    simp only [Rounding.rnd, hn, decide_false, abs_of_nonneg this]

theorem ofVal_exact_fin (x : K) (zs : Bool) : (ofVal x zs : Fl Exact K).IsFin ∧ (ofVal x zs : Fl Exact K).val = x := by
  rw [ofVal_exact]
  split_ifs with h
  · subst h; refine ⟨trivial, ?_⟩; cases zs <;> simp [val, sgn]
  · refine ⟨trivial, ?_⟩
    by_cases hn : x < 0
    · simp [val, sgn, hn, abs_of_neg hn]
    · simp [val, sgn, hn, abs_of_nonneg (not_lt.1 hn)]

theorem exact_add {a b : Fl Exact K} (ha : a.IsFin) (hb : b.IsFin) :
    (add a b).IsFin ∧ (add a b).val = a.val + b.val := by
  obtain ⟨zs, h⟩ := add_fin ha hb
  rw [h]; exact ofVal_exact_fin _ _

theorem exact_sub {a b : Fl Exact K} (ha : a.IsFin) (hb : b.IsFin) :
    (add a (neg b)).IsFin ∧ (add a (neg b)).val = a.val - b.val := by
  obtain ⟨h1, h2⟩ := neg_fin hb
  obtain ⟨h3, h4⟩ := exact_add ha h1
  exact ⟨h3, by rw [h4, h2, sub_eq_add_neg]⟩

theorem exact_mul {a b : Fl Exact K} (ha : a.IsFin) (hb : b.IsFin) :
    (mul a b).IsFin ∧ (mul a b).val = a.val * b.val := by
  obtain ⟨s, x, rfl⟩ := IsFin_iff.1 ha
  obtain ⟨t, y, rfl⟩ := IsFin_iff.1 hb
  refine ⟨trivial, ?_⟩
  cases s <;> cases t <;> simp [mul, ofMag, Rounding.rnd, val, sgn]

theorem exact_div {a b : Fl Exact K} (ha : a.IsFin) (hb : b.IsFin) (h0 : b.val ≠ 0) :
    (div a b).IsFin ∧ (div a b).val = a.val / b.val := by
  obtain ⟨s, x, rfl⟩ := IsFin_iff.1 ha
  obtain ⟨t, y, rfl⟩ := IsFin_iff.1 hb
  have hy : y ≠ 0 := by rintro rfl; apply h0; cases t <;> simp [val, sgn]
  simp only [div, hy, if_false]
  refine ⟨trivial, ?_⟩
  cases s <;> cases t <;> simp [ofMag, Rounding.rnd, val, sgn, neg_div, div_neg]

theorem exact_lit (q : ℚ) : (PT.lit q : Fl Exact K).IsFin ∧ (PT.lit q : Fl Exact K).val = q := by
  rw [f_lit]; exact ofVal_exact_fin _ _

/-- Division by a zero with sign bit `s`. -/
theorem exact_sub_div_zero {a b : Fl Exact K} (ha : a.IsFin) (hb : b.IsFin) (s : Bool) :
    div (add a (neg b)) (fin s 0) =
      if a.val = b.val then nan else inf (decide (a.val < b.val) ^^ s) := by
  obtain ⟨zs, h⟩ := add_fin ha (neg_fin hb).1
  rw [h, (neg_fin hb).2, ← sub_eq_add_neg, ofVal_exact]
  by_cases he : a.val = b.val
  · simp [he, div]
  · have : a.val - b.val ≠ 0 := sub_ne_zero.2 he
    simp [he, this, div]

theorem zero_of_val {a : Fl Exact K} (ha : a.IsFin) (h : a.val = 0) : ∃ s, a = fin s 0 := by
  obtain ⟨s, x, rfl⟩ := IsFin_iff.1 ha
  refine ⟨s, ?_⟩
  have : x = 0 := by cases s <;> simpa [val, sgn] using h
  rw [this]

theorem le_nan_left {φ} [Rounding φ K] (a : Fl φ K) : le nan a = false := by cases a <;> rfl
theorem le_nan_right {φ} [Rounding φ K] (a : Fl φ K) : le a nan = false := by cases a <;> rfl
theorem lt_nan_left {φ} [Rounding φ K] (a : Fl φ K) : lt nan a = false := by cases a <;> rfl
theorem lt_nan_right {φ} [Rounding φ K] (a : Fl φ K) : lt a nan = false := by cases a <;> rfl

theorem le_trans' {φ} [Rounding φ K] {a b c : Fl φ K} (h1 : le a b = true) (h2 : le b c = true) : le a c = true := by
  rw [le_iff] at *; exact ⟨h1.1, h2.2.1, h1.2.2.trans h2.2.2⟩
theorem le_of_lt' {φ} [Rounding φ K] {a b : Fl φ K} (h1 : lt a b = true) : le a b = true := by
  rw [lt_iff] at h1; rw [le_iff]; exact ⟨h1.1, h1.2.1, h1.2.2.le⟩
theorem lt_of_le_of_lt' {φ} [Rounding φ K] {a b c : Fl φ K} (h1 : le a b = true) (h2 : lt b c = true) : lt a c = true := by
  rw [le_iff] at h1; rw [lt_iff] at *; exact ⟨h1.1, h2.2.1, h1.2.2.trans_lt h2.2.2⟩
theorem lt_of_lt_of_le' {φ} [Rounding φ K] {a b c : Fl φ K} (h1 : lt a b = true) (h2 : le b c = true) : lt a c = true := by
  rw [le_iff] at h2; rw [lt_iff] at *; exact ⟨h1.1, h2.2.1, h1.2.2.trans_le h2.2.2⟩
theorem le_refl' {φ} [Rounding φ K] {a : Fl φ K} (h : a ≠ nan) : le a a = true := by rw [le_iff]; exact ⟨h, h, le_rfl⟩
theorem not_lt' {φ} [Rounding φ K] {a b : Fl φ K} (ha : a ≠ nan) (hb : b ≠ nan) : lt a b = false ↔ le b a = true := by
  rw [← Bool.not_eq_true, lt_iff, le_iff]; simp [ha, hb]
theorem not_le' {φ} [Rounding φ K] {a b : Fl φ K} (ha : a ≠ nan) (hb : b ≠ nan) : le a b = false ↔ lt b a = true := by
  rw [← Bool.not_eq_true, lt_iff, le_iff]; simp [ha, hb]
theorem lt_asymm' {φ} [Rounding φ K] {a b : Fl φ K} (h : le a b = true) : lt b a = false := by
  rw [← Bool.not_eq_true, lt_iff]; rw [le_iff] at h; exact fun h' => absurd h.2.2 (not_le.2 h'.2.2)
theorem IsFin.ne_nan {φ} [Rounding φ K] {a : Fl φ K} (h : a.IsFin) : a ≠ nan := by rintro rfl; exact h

end Fl
end PT
