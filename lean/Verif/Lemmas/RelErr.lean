import Verif.Lemmas.Binary
import Verif.Lemmas.FlMono
import Mathlib.Tactic.NormNum
import Mathlib.Tactic.FieldSimp
import Mathlib.Tactic.Positivity

/-!
# Rounding errors of single precision: half a unit in the last place
-/

namespace PT

/-- Neighbouring patterns differ by at most the 2^-p part of the lower one, above the subnormals. -/
theorem sval_gap (p k : ℕ) (h : 2 ^ p ≤ k) : (sval p (k + 1) - sval p k) * 2 ^ p ≤ sval p k := by
  have hp : 0 < 2 ^ p := by positivity
  unfold sval
  have h2 : ¬ k < 2 ^ p := by omega
  have h1 : ¬ k + 1 < 2 ^ p := by omega
  rw [if_neg h2, if_neg h1]
  set e := k / 2 ^ p with he
  set m := k % 2 ^ p with hm
  have hk : k = 2 ^ p * e + m := (Nat.div_add_mod k (2 ^ p)).symm
  have hmlt : m < 2 ^ p := Nat.mod_lt _ hp
  have he1 : 1 ≤ e := by
    rw [he]; exact (Nat.one_le_div_iff hp).2 (by omega)
  have key : (2 ^ p + (k + 1) % 2 ^ p) * 2 ^ ((k + 1) / 2 ^ p - 1) = (2 ^ p + m) * 2 ^ (e - 1) + 2 ^ (e - 1) := by
    by_cases h3 : m + 1 < 2 ^ p
    · have hd : (k + 1) / 2 ^ p = e := by
        rw [hk]; rw [show 2 ^ p * e + m + 1 = m + 1 + 2 ^ p * e by ring, Nat.add_mul_div_left _ _ hp,
          Nat.div_eq_of_lt h3]; omega
      have hmod : (k + 1) % 2 ^ p = m + 1 := by
        rw [hk]; rw [show 2 ^ p * e + m + 1 = m + 1 + 2 ^ p * e by ring, Nat.add_mul_mod_self_left,
          Nat.mod_eq_of_lt h3]
      rw [hd, hmod]; ring
    · have h4 : m + 1 = 2 ^ p := by omega
      have hd : (k + 1) / 2 ^ p = e + 1 := by
        rw [hk]; rw [show 2 ^ p * e + m + 1 = (m + 1) + 2 ^ p * e by ring, h4]
        rw [Nat.add_mul_div_left _ _ hp, Nat.div_self hp]; omega
      have hmod : (k + 1) % 2 ^ p = 0 := by
        rw [hk]; rw [show 2 ^ p * e + m + 1 = (m + 1) + 2 ^ p * e by ring, h4]
        rw [Nat.add_mul_mod_self_left, Nat.mod_self]
      rw [hd, hmod]
      obtain ⟨f, hf⟩ : ∃ f, e = f + 1 := ⟨e - 1, by omega⟩
      rw [hf]
      simp only [Nat.add_sub_cancel, add_zero]
      rw [pow_succ, ← h4]; ring
  rw [key, Nat.add_sub_cancel_left, mul_comm]
  exact Nat.mul_le_mul_right _ (by omega)

theorem sval_small (p k : ℕ) (h : k ≤ 2 ^ p) : sval p k = k := by
  unfold sval
  rcases lt_or_eq_of_le h with h | h
  · rw [if_pos h]
  · subst h; simp

/-- Rounding error: half the gap. -/
theorem ordRound_err (p n : ℕ) (y : ℚ) (h0 : 0 ≤ y) (hy : y < sval p (2 ^ n)) :
    |(sval p (ordRound p n y) : ℚ) - y| ≤ y / 2 ^ (p + 1) ∨ (y < 2 ^ p ∧ |(sval p (ordRound p n y) : ℚ) - y| ≤ 1 / 2) := by
  obtain ⟨a, b⟩ := ordFloor_bracket p n y h0 hy
  set k := ordFloor p y n 0 with hk
  have hlt := (sval_lt_succ p k)
  have half : |(sval p (ordRound p n y) : ℚ) - y| ≤ ((sval p (k + 1) : ℚ) - sval p k) / 2 := by
    unfold ordRound
    simp only [← hk]
    split_ifs with h1 h2 h3
    · rw [abs_le]; constructor <;> linarith
    · rw [abs_le]; constructor <;> linarith
    · rw [abs_le]; constructor <;> linarith
    · rw [abs_le]; constructor <;> linarith
  by_cases hb : 2 ^ p ≤ k
  · left
    have hg := sval_gap p k hb
    have hg' : ((sval p (k + 1) : ℚ) - sval p k) * 2 ^ p ≤ sval p k := by
      have : ((sval p (k + 1) - sval p k : ℕ) : ℚ) * 2 ^ p ≤ sval p k := by exact_mod_cast hg
      rwa [Nat.cast_sub hlt.le] at this
    refine half.trans ?_
    rw [pow_succ, div_le_div_iff₀ (by norm_num) (by positivity)]
    nlinarith
  · right
    have hk1 : k + 1 ≤ 2 ^ p := by omega
    rw [sval_small p k (by omega), sval_small p (k + 1) hk1] at half
    push_cast at half
    refine ⟨lt_of_lt_of_le b ?_, by linarith⟩
    rw [sval_small p (k + 1) hk1]; exact_mod_cast hk1

/-- Half a unit in the last place and half the least subnormal, single precision. -/
abbrev ulpHalf : ℚ := 1 / 2 ^ 24
abbrev tinyHalf : ℚ := 1 / 2 ^ 150

theorem rnd32_lt {x a : ℚ} (h : Rounding.rnd Binary32 x = some a) : x * 2 ^ 149 < sval 23 (2 ^ 31) := by
  have h' : Bin.rnd 23 149 0x7f800000 31 x = some a := h
  rw [Bin.rnd_some] at h'
  by_contra hc
  have := ordRound_big 23 31 _ (not_lt.1 hc)
  have := h'.1
  omega

theorem rnd32_err {x a : ℚ} (hx : 0 ≤ x) (h : Rounding.rnd Binary32 x = some a) :
    |a - x| ≤ x * ulpHalf ∨ (x < 1 / 2 ^ 126 ∧ |a - x| ≤ tinyHalf) := by
  have hl := rnd32_lt h
  have h' : Bin.rnd 23 149 0x7f800000 31 x = some a := h
  rw [Bin.rnd_some] at h'
  have e : a - x = ((sval 23 (ordRound 23 31 (x * 2 ^ 149)) : ℚ) - x * 2 ^ 149) / 2 ^ 149 := by
    rw [h'.2]; field_simp
  rcases ordRound_err 23 31 (x * 2 ^ 149) (by positivity) hl with hh | ⟨h1, h2⟩
  · left
    rw [e, abs_div, abs_of_pos (show (0 : ℚ) < 2 ^ 149 by positivity), div_le_iff₀ (by positivity)]
    refine hh.trans (le_of_eq ?_)
    rw [ulpHalf]; ring
  · right
    constructor
    · rw [lt_div_iff₀ (by positivity)]
      have : x * 2 ^ 149 = x * 2 ^ 126 * 2 ^ 23 := by ring
      rw [this] at h1
      nlinarith [show (0 : ℚ) < 2 ^ 23 by positivity]
    · rw [e, abs_div, abs_of_pos (show (0 : ℚ) < 2 ^ 149 by positivity), div_le_iff₀ (by positivity)]
      refine h2.trans (le_of_eq ?_)
      rw [tinyHalf]; norm_num

/-- A whole number of least subnormals below the normal range is representable. -/
theorem rnd32_grid {x a : ℚ} (hx : 0 ≤ x) (h : Rounding.rnd Binary32 x = some a) (m : ℤ) (hm : x = m / 2 ^ 149) : |a - x| ≤ x * ulpHalf := by
  rcases rnd32_err hx h with h1 | ⟨h1, h2⟩
  · exact h1
  · have hm0 : 0 ≤ m := by
      rw [hm] at hx
      by_contra hc
      have : (m : ℚ) < 0 := by exact_mod_cast not_le.1 hc
      have := div_neg_of_neg_of_pos this (show (0 : ℚ) < 2 ^ 149 by positivity)
      linarith
    obtain ⟨k, rfl⟩ := Int.eq_ofNat_of_zero_le hm0
    have hk : k < 2 ^ 23 := by
      rw [hm, div_lt_div_iff₀ (by positivity) (by positivity)] at h1
      have : ((k : ℤ) : ℚ) = (k : ℚ) := by norm_cast
      rw [this] at h1
      have h3 : (k : ℚ) * 2 ^ 126 < 2 ^ 23 * 2 ^ 126 := by rw [← pow_add]; norm_num at h1 ⊢; linarith
      have := lt_of_mul_lt_mul_right h3 (by positivity)
      exact_mod_cast this
    have h' : Bin.rnd 23 149 0x7f800000 31 x = some a := h
    rw [Bin.rnd_some] at h'
    have e : x * 2 ^ 149 = sval 23 k := by
      rw [hm, sval_small 23 k hk.le]; push_cast; field_simp
    have := h'.2
    rw [e, ordRound_exact 23 31 k (by omega), ← e] at this
    have ha : a = x := by rw [this]; field_simp
    rw [ha, sub_self, abs_zero, ulpHalf]; positivity

/-- A representable number is a whole number of least subnormals. -/
theorem grid_of_repr {a x : ℚ} (h : Rounding.rnd Binary32 x = some a) : ∃ m : ℤ, a = m / 2 ^ 149 := by
  have h' : Bin.rnd 23 149 0x7f800000 31 x = some a := h
  rw [Bin.rnd_some] at h'
  exact ⟨(sval 23 (ordRound 23 31 (x * 2 ^ 149)) : ℤ), by rw [h'.2, Int.cast_natCast]⟩

namespace Fl

theorem ofVal_err {x : ℚ} {zs : Bool} (h : (ofVal x zs : F32).IsFin) : |(ofVal x zs : F32).val - x| ≤ |x| * ulpHalf + tinyHalf := by
  unfold ofVal at h ⊢
  split_ifs at h ⊢ with h0 h1
  · subst h0; cases zs <;> simp [val, sgn]
  · cases hr : Rounding.rnd Binary32 (-x) with
    | none => rw [hr] at h; exact absurd h id
    | some m =>
      simp only [val, sgn, if_true]
      rw [abs_of_neg h1, show -m - x = -(m - -x) by ring, abs_neg]
      rcases rnd32_err (by linarith) hr with g | ⟨-, g⟩
      · refine g.trans ?_; simp only [tinyHalf]; linarith [show (0 : ℚ) < 1 / 2 ^ 150 by positivity]
      · have : 0 ≤ -x * ulpHalf := mul_nonneg (by linarith) (by rw [ulpHalf]; positivity)
        linarith
  · cases hr : Rounding.rnd Binary32 x with
    | none => rw [hr] at h; exact absurd h id
    | some m =>
      have hx : 0 ≤ x := not_lt.1 h1
      simp only [val, sgn, Bool.false_eq_true, if_false]
      rw [abs_of_nonneg hx]
      rcases rnd32_err hx hr with g | ⟨-, g⟩
      · refine g.trans ?_; simp only [tinyHalf]; linarith [show (0 : ℚ) < 1 / 2 ^ 150 by positivity]
      · have : 0 ≤ x * ulpHalf := mul_nonneg hx (by rw [ulpHalf]; positivity)
        linarith

theorem ofVal_grid {x : ℚ} {zs : Bool} (h : (ofVal x zs : F32).IsFin) (m : ℤ) (hm : x = m / 2 ^ 149) :
    |(ofVal x zs : F32).val - x| ≤ |x| * ulpHalf := by
  unfold ofVal at h ⊢
  split_ifs at h ⊢ with h0 h1
  · subst h0; cases zs <;> simp [val, sgn]
  · cases hr : Rounding.rnd Binary32 (-x) with
    | none => rw [hr] at h; exact absurd h id
    | some m =>
      simp only [val, sgn, if_true]
      rw [abs_of_neg h1, show -m - x = -(m - -x) by ring, abs_neg]
      rename_i k
      exact rnd32_grid (by linarith) hr (-k) (by rw [hm]; push_cast; ring)
  · cases hr : Rounding.rnd Binary32 x with
    | none => rw [hr] at h; exact absurd h id
    | some k =>
      have hx : 0 ≤ x := not_lt.1 h1
      simp only [val, sgn, Bool.false_eq_true, if_false]
      rw [abs_of_nonneg hx]
      exact rnd32_grid hx hr m hm

theorem val_grid {a : F32} (h : a.WF) : ∃ m : ℤ, a.val = m / 2 ^ 149 := by
  cases a with
  | nan => exact ⟨0, by simp [val]⟩
  | inf s => exact ⟨0, by simp [val]⟩
  | fin s m =>
    obtain ⟨k, hk⟩ := grid_of_repr h.2
    cases s
    · exact ⟨k, by simp [val, sgn, ← hk]⟩
    · exact ⟨-k, by simp only [val, sgn, if_true]; rw [hk]; push_cast; ring⟩

theorem add_isFin {a b : F32} (h : (a +. b).IsFin) : a.IsFin ∧ b.IsFin := by
  cases a <;> cases b <;> simp_all [f_add, add, IsFin]
  split_ifs at h <;> exact h

theorem mul_isFin {a b : F32} (h : (a *. b).IsFin) : a.IsFin ∧ b.IsFin := by
  cases a <;> cases b <;> simp_all [f_mul, mul, IsFin] <;> (split_ifs at h <;> exact h)

/-- Sums: no underflow error. -/
theorem add_err {a b : F32} (ha : a.WF) (hb : b.WF) (h : (a +. b).IsFin) : |(a +. b).val - (a.val + b.val)| ≤ |a.val + b.val| * ulpHalf := by
  obtain ⟨fa, fb⟩ := add_isFin h
  obtain ⟨zs, e⟩ := add_fin fa fb
  rw [f_add, e] at h ⊢
  obtain ⟨m, hm⟩ := val_grid ha
  obtain ⟨k, hk⟩ := val_grid hb
  exact ofVal_grid h (m + k) (by rw [hm, hk]; push_cast; ring)

theorem ofMag_val {s : Bool} {m : ℚ} (hm : 0 ≤ m) (h : (ofMag s m : F32).IsFin) :
    |(ofMag s m : F32).val - sgn s m| ≤ m * ulpHalf + tinyHalf := by
  unfold ofMag at h ⊢
  cases hr : Rounding.rnd Binary32 m with
  | none => rw [hr] at h; exact absurd h id
  | some k =>
    have e : |sgn s k - sgn s m| = |k - m| := by
      cases s <;> simp only [sgn, if_true, Bool.false_eq_true, if_false]
      rw [show -k - -m = -(k - m) by ring, abs_neg]
    simp only [val]
    rw [e]
    rcases rnd32_err hm hr with g | ⟨-, g⟩
    · linarith [show (0 : ℚ) < tinyHalf by rw [tinyHalf]; positivity]
    · have : 0 ≤ m * ulpHalf := mul_nonneg hm (by rw [ulpHalf]; positivity)
      linarith

theorem sgn_xor_mul (s t : Bool) (a b : ℚ) : sgn (s ^^ t) (a * b) = sgn s a * sgn t b := by
  cases s <;> cases t <;> simp [sgn]

theorem sgn_xor_div (s t : Bool) (a b : ℚ) : sgn (s ^^ t) (a / b) = sgn s a / sgn t b := by
  cases s <;> cases t <;> simp [sgn, neg_div, div_neg]

theorem abs_sgn (s : Bool) {a : ℚ} (h : 0 ≤ a) : |sgn s a| = a := by
  cases s <;> simp [sgn, abs_of_nonneg h]

/-- Products. -/
theorem mul_err {a b : F32} (ha : a.WF) (hb : b.WF) (h : (a *. b).IsFin) : |(a *. b).val - a.val * b.val| ≤ |a.val * b.val| * ulpHalf + tinyHalf := by
  obtain ⟨fa, fb⟩ := mul_isFin h
  obtain ⟨s, m, rfl⟩ := IsFin_iff.1 fa
  obtain ⟨t, k, rfl⟩ := IsFin_iff.1 fb
  have e : (fin s m *. fin t k : F32) = ofMag (s ^^ t) (m * k) := rfl
  rw [e] at h ⊢
  have hmk : 0 ≤ m * k := mul_nonneg ha.1 hb.1
  have := ofMag_val hmk h
  simp only [val] at this ⊢
  rw [sgn_xor_mul] at this
  rwa [abs_mul, abs_sgn s ha.1, abs_sgn t hb.1]

/-- Quotients. -/
theorem div_err {a b : F32} (ha : a.WF) (hb : b.WF) (fb : b.IsFin) (h : (a /. b).IsFin) :
    a.IsFin ∧ b.val ≠ 0 ∧ |(a /. b).val - a.val / b.val| ≤ |a.val / b.val| * ulpHalf + tinyHalf := by
  obtain ⟨t, k, rfl⟩ := IsFin_iff.1 fb
  cases a with
  | nan => exact absurd h id
  | inf s => exact absurd h id
  | fin s m =>
    have hk : k ≠ 0 := by
      rintro rfl
      have e : (fin s m /. fin t 0 : F32) = if m = 0 then nan else inf (s ^^ t) := by simp [f_div, div]
      rw [e] at h; split_ifs at h <;> exact h
    have e : (fin s m /. fin t k : F32) = ofMag (s ^^ t) (m / k) := by simp [f_div, div, hk]
    rw [e] at h ⊢
    have hmk : 0 ≤ m / k := div_nonneg ha.1 hb.1
    have := ofMag_val hmk h
    refine ⟨trivial, ?_, ?_⟩
    · simp only [val]; cases t <;> simpa [sgn] using hk
    · simp only [val] at this ⊢
      rw [sgn_xor_div] at this
      rwa [abs_div, abs_sgn s ha.1, abs_sgn t hb.1]

theorem abs_fin {a : F32} (ha : a.WF) (h : (Scalar.abs a).IsFin) : a.IsFin ∧ (Scalar.abs a).val = |a.val| := by
  cases a with
  | nan => exact absurd h id
  | inf s => exact absurd h id
  | fin s m => exact ⟨trivial, by simp only [f_abs, abs, val, abs_sgn s ha.1]; simp [sgn]⟩

end Fl
end PT
