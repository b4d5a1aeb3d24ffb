import Verif.Lemmas.Fl

/-!
# Monotonicity of rounding, exactly representable numbers
-/

namespace PT
namespace Fl
variable {φ K : Type} [Field K] [LinearOrder K] [IsStrictOrderedRing K] [FloorRing K] [Rounding φ K]

/-- A (signed) number that the format represents. -/
def Repr (φ : Type) {K : Type} [Field K] [LinearOrder K] [Rounding φ K] (x : K) : Prop :=
  Rounding.rnd φ |x| = some |x|

theorem repr_neg {x : K} (h : Repr φ x) : Repr φ (-x) := by unfold Repr; rwa [abs_neg]

/-- Rounding a number between two representable numbers stays between them. -/
theorem ofVal_between {lo hi x : K} (hlo : Repr φ lo) (hhi : Repr φ hi) (h1 : lo ≤ x) (h2 : x ≤ hi) (zs : Bool) :
    (ofVal x zs : Fl φ K).IsFin ∧ lo ≤ (ofVal x zs : Fl φ K).val ∧ (ofVal x zs : Fl φ K).val ≤ hi := by
  unfold ofVal
  split_ifs with h0 hneg
  · subst h0
    refine ⟨trivial, ?_, ?_⟩ <;> cases zs <;> simpa [val, sgn]
  · have ha : |lo| = -lo := abs_of_neg (lt_of_le_of_lt h1 hneg)
    have hr := hlo
    unfold Repr at hr; rw [ha] at hr
    obtain ⟨m, hm, hmle⟩ := Rounding.rnd_mono (-x) (-lo) _ (by linarith) (by linarith) hr
    have hm0 := Rounding.rnd_nonneg _ _ (by linarith : 0 ≤ -x) hm
    rw [hm]
    refine ⟨trivial, by simp only [val, sgn, if_true]; linarith, ?_⟩
    simp only [val, sgn, if_true]
    rcases le_or_gt 0 hi with hh | hh
    · linarith
    · have hb : |hi| = -hi := abs_of_neg hh
      unfold Repr at hhi; rw [hb] at hhi
      obtain ⟨m', hm', hmle'⟩ := Rounding.rnd_mono (-hi) (-x) _ (by linarith) (by linarith) hm
      rw [hhi] at hm'; cases hm'; linarith
  · have hpos : 0 < x := lt_of_le_of_ne (not_lt.1 hneg) (Ne.symm h0)
    have ha : |hi| = hi := abs_of_pos (lt_of_lt_of_le hpos h2)
    unfold Repr at hhi; rw [ha] at hhi
    obtain ⟨m, hm, hmle⟩ := Rounding.rnd_mono x hi _ hpos.le h2 hhi
    have hm0 := Rounding.rnd_nonneg _ _ hpos.le hm
    rw [hm]
    refine ⟨trivial, ?_, by simpa [val, sgn]⟩
    simp only [val, sgn, Bool.false_eq_true, if_false]
    rcases le_or_gt 0 lo with hh | hh
    · have hb : |lo| = lo := abs_of_nonneg hh
      unfold Repr at hlo; rw [hb] at hlo
      obtain ⟨m', hm', hmle'⟩ := Rounding.rnd_mono lo x _ hh h1 hm
      rw [hlo] at hm'; cases hm'; exact hmle'
    · linarith

theorem ofVal_repr {x : K} (h : Repr φ x) (zs : Bool) :
    (ofVal x zs : Fl φ K).IsFin ∧ (ofVal x zs : Fl φ K).val = x := by
  obtain ⟨a, b, c⟩ := ofVal_between (φ := φ) h h le_rfl le_rfl zs
  exact ⟨a, le_antisymm c b⟩

theorem IsFin_iff {x : Fl φ K} : x.IsFin ↔ ∃ s a, x = fin s a := by
  cases x <;> simp [IsFin]

theorem add_fin {a b : Fl φ K} (ha : a.IsFin) (hb : b.IsFin) : ∃ zs, add a b = ofVal (a.val + b.val) zs := by
  obtain ⟨s, x, rfl⟩ := IsFin_iff.1 ha
  obtain ⟨t, y, rfl⟩ := IsFin_iff.1 hb
  exact ⟨_, rfl⟩

theorem neg_fin {a : Fl φ K} (ha : a.IsFin) : (neg a).IsFin ∧ (neg a).val = -a.val := by
  obtain ⟨s, x, rfl⟩ := IsFin_iff.1 ha
  refine ⟨trivial, ?_⟩
  cases s <;> simp [neg, val, sgn]

/-- Comparison of finite values is comparison of the numbers. -/
theorem lt_val {a b : Fl φ K} (ha : a.IsFin) (hb : b.IsFin) : lt a b = true ↔ a.val < b.val := by
  obtain ⟨s, x, rfl⟩ := IsFin_iff.1 ha
  obtain ⟨t, y, rfl⟩ := IsFin_iff.1 hb
  exact lt_fin
theorem le_val {a b : Fl φ K} (ha : a.IsFin) (hb : b.IsFin) : le a b = true ↔ a.val ≤ b.val := by
  obtain ⟨s, x, rfl⟩ := IsFin_iff.1 ha
  obtain ⟨t, y, rfl⟩ := IsFin_iff.1 hb
  exact le_fin

/-- Magnitudes round to well-formed values. -/
theorem ofVal_WF (x : K) (zs : Bool) : (ofVal x zs : Fl φ K).WF := by
  unfold ofVal
  split_ifs with h0 hneg
  · exact ⟨le_rfl, Rounding.rnd_zero⟩
  · cases h : Rounding.rnd φ (-x) with
    | none => trivial
    | some m => exact ⟨Rounding.rnd_nonneg _ _ (by linarith) h, Rounding.rnd_idem _ _ (by linarith) h⟩
  · cases h : Rounding.rnd φ x with
    | none => trivial
    | some m => exact ⟨Rounding.rnd_nonneg _ _ (by linarith) h, Rounding.rnd_idem _ _ (by linarith) h⟩

theorem ofVal_ne_nan (x : K) (zs : Bool) : (ofVal x zs : Fl φ K) ≠ nan := by
  unfold ofVal
  split_ifs
  · simp
  · cases Rounding.rnd φ (-x) <;> simp
  · cases Rounding.rnd φ x <;> simp

theorem ofMag_WF {x : K} (h0 : 0 ≤ x) (s : Bool) : (ofMag s x : Fl φ K).WF := by
  unfold ofMag
  cases h : Rounding.rnd φ x with
  | none => trivial
  | some m => exact ⟨Rounding.rnd_nonneg _ _ h0 h, Rounding.rnd_idem _ _ h0 h⟩

theorem ofMag_ne_nan (x : K) (s : Bool) : (ofMag s x : Fl φ K) ≠ nan := by
  unfold ofMag; cases Rounding.rnd φ x <;> simp

/-- Rounding with sign is rounding the magnitude. -/
theorem ofMag_eq_ofVal {x : K} (h0 : 0 < x) (s zs : Bool) : (ofMag s x : Fl φ K) = ofVal (sgn s x) zs := by
  unfold ofMag ofVal sgn
  cases s
  · simp [h0.ne', h0.le]
  · simp [h0.ne', h0]

/-- Rounding is monotone. -/
theorem ofVal_mono {x y : K} (h : x ≤ y) (a b : Bool) : le (ofVal x a : Fl φ K) (ofVal y b) = true := by
  rcases lt_trichotomy x 0 with hx | hx | hx
  · rcases lt_trichotomy y 0 with hy | hy | hy
    · have e1 : (ofVal x a : Fl φ K) = ofMag true (-x) := by simp [ofVal, ofMag, hx, hx.ne]
      have e2 : (ofVal y b : Fl φ K) = ofMag true (-y) := by simp [ofVal, ofMag, hy, hy.ne]
      rw [e1, e2]; unfold ofMag
      cases hm : Rounding.rnd φ (-x) with
      | none => cases Rounding.rnd φ (-y) <;> simp [le]
      | some m =>
        obtain ⟨m', h1, h2⟩ := Rounding.rnd_mono (-y) (-x) m (by linarith) (by linarith) hm
        rw [h1]; simp [le, sgn]; exact h2
    · subst hy
      have e1 : (ofVal x a : Fl φ K) = ofMag true (-x) := by simp [ofVal, ofMag, hx, hx.ne]
      have e2 : (ofVal 0 b : Fl φ K) = fin b 0 := by simp [ofVal]
      rw [e1, e2]; unfold ofMag
      cases hm : Rounding.rnd φ (-x) with
      | none => simp [le]
      | some m =>
        have := Rounding.rnd_nonneg _ _ (by linarith : 0 ≤ -x) hm
        cases b <;> simp [le, sgn] <;> linarith
    · have e1 : (ofVal x a : Fl φ K) = ofMag true (-x) := by simp [ofVal, ofMag, hx, hx.ne]
      have e2 : (ofVal y b : Fl φ K) = ofMag false y := by simp [ofVal, ofMag, hy.ne', hy.le]
      rw [e1, e2]; unfold ofMag
      cases hm : Rounding.rnd φ (-x) with
      | none => cases Rounding.rnd φ y <;> simp [le]
      | some m =>
        have := Rounding.rnd_nonneg _ _ (by linarith : 0 ≤ -x) hm
        cases hn : Rounding.rnd φ y with
        | none => simp [le]
        | some n =>
          have := Rounding.rnd_nonneg _ _ hy.le hn
          simp [le, sgn]; linarith
  · subst hx
    have e1 : (ofVal 0 a : Fl φ K) = fin a 0 := by simp [ofVal]
    rw [e1]
    rcases h.lt_or_eq with hy | hy
    · have e2 : (ofVal y b : Fl φ K) = ofMag false y := by simp [ofVal, ofMag, hy.ne', hy.le]
      rw [e2]; unfold ofMag
      cases hn : Rounding.rnd φ y with
      | none => simp [le]
      | some n =>
        have := Rounding.rnd_nonneg _ _ hy.le hn
        cases a <;> simp [le, sgn] <;> linarith
    · subst hy
      have e2 : (ofVal 0 b : Fl φ K) = fin b 0 := by simp [ofVal]
      rw [e2]; cases a <;> cases b <;> simp [le, sgn]
  · have hy : 0 < y := lt_of_lt_of_le hx h
    have e1 : (ofVal x a : Fl φ K) = ofMag false x := by simp [ofVal, ofMag, hx.ne', hx.le]
    have e2 : (ofVal y b : Fl φ K) = ofMag false y := by simp [ofVal, ofMag, hy.ne', hy.le]
    rw [e1, e2]; unfold ofMag
    cases hn : Rounding.rnd φ y with
    | none => cases Rounding.rnd φ x <;> simp [le]
    | some n =>
      obtain ⟨m', h1, h2⟩ := Rounding.rnd_mono x y n hx.le h hn
      rw [h1]; simp [le, sgn]; exact h2

/-- A value of the format is rounded to itself. -/
theorem ofVal_val {x : Fl φ K} (hf : x.IsFin) (hw : x.WF) (zs : Bool) : ev (ofVal x.val zs : Fl φ K) = ev x ∧ (ofVal x.val zs : Fl φ K).IsFin ∧
    (ofVal x.val zs : Fl φ K).val = x.val := by
  obtain ⟨s, a, rfl⟩ := IsFin_iff.1 hf
  obtain ⟨h0, h1⟩ := hw
  have hr : Repr φ (sgn s a) := by
    unfold Repr; cases s <;> simp [sgn, abs_of_nonneg h0, h1]
  obtain ⟨e1, e2⟩ := ofVal_repr hr zs
  refine ⟨?_, e1, e2⟩
  obtain ⟨t, b, hb⟩ := IsFin_iff.1 e1
  simp only [val] at e2 ⊢
  rw [hb] at e2 ⊢
  simp only [val] at e2
  simp [ev, e2]

end Fl

/-- Every number of at most 24 bits times a power of two is a single precision number. -/
theorem sval_dyadic : ∀ (e m : Nat), e ≤ 253 → m < 2 ^ 24 → ∃ k, k < 0x7f800000 ∧ sval 23 k = m * 2 ^ e := by
  intro e
  induction e with
  | zero =>
    intro m _ hm
    refine ⟨m, by omega, ?_⟩
    unfold sval
    split_ifs with h
    · simp
    · have h1 : m / 2 ^ 23 = 1 := by omega
      rw [h1]; omega
  | succ e ih =>
    intro m he hm
    by_cases h : m < 2 ^ 23
    · obtain ⟨k, hk, hv⟩ := ih (2 * m) (by omega) (by omega)
      exact ⟨k, hk, by rw [hv, pow_succ]; ring⟩
    · refine ⟨(e + 2) * 2 ^ 23 + (m - 2 ^ 23), by omega, ?_⟩
      unfold sval
      rw [if_neg (by omega)]
      have h1 : ((e + 2) * 2 ^ 23 + (m - 2 ^ 23)) / 2 ^ 23 = e + 2 := by omega
      have h2 : ((e + 2) * 2 ^ 23 + (m - 2 ^ 23)) % 2 ^ 23 = m - 2 ^ 23 := by omega
      rw [h1, h2, show e + 2 - 1 = e + 1 by omega, show 2 ^ 23 + (m - 2 ^ 23) = m by omega]

/-- Integers up to 2^24 are exact in single precision. -/
theorem repr_int {n : Int} (h : |n| ≤ 2 ^ 24) : Fl.Repr Binary32 (n : ℚ) := by
  unfold Fl.Repr
  have e : |(n : ℚ)| = (n.natAbs : ℚ) := by rw [← Int.cast_abs, Int.abs_eq_natAbs]; simp
  rw [e]
  have h' : n.natAbs ≤ 2 ^ 24 := by
    rw [Int.abs_eq_natAbs] at h; exact_mod_cast h
  have hk : ∃ k, k < 0x7f800000 ∧ sval 23 k = n.natAbs * 2 ^ 149 := by
    rcases Nat.lt_or_ge n.natAbs (2 ^ 24) with hlt | hge
    · exact sval_dyadic 149 _ (by omega) hlt
    · obtain ⟨k, hk, hv⟩ := sval_dyadic 150 (2 ^ 23) (by omega) (by norm_num)
      exact ⟨k, hk, by rw [hv, show n.natAbs = 2 ^ 24 by omega]; norm_num⟩
  obtain ⟨k, hk, hv⟩ := hk
  show Bin.rnd 23 149 0x7f800000 31 _ = _
  rw [Bin.rnd_some]
  have hval : ((n.natAbs : ℚ) * 2 ^ 149) = (sval 23 k : ℚ) := by rw [hv]; push_cast; rfl
  rw [hval, ordRound_exact 23 31 k (by omega)]
  refine ⟨hk, ?_⟩
  rw [← hval]; field_simp

/-- `n as f32` is exact for `|n| ≤ 2^24`. -/
theorem ofInt_exact {n : Int} (h : |n| ≤ 2 ^ 24) : (ofInt n : F32).IsFin ∧ (ofInt n : F32).val = n := by
  unfold ofInt
  rw [Fl.f_lit]
  simpa using Fl.ofVal_repr (repr_int h) false

end PT
