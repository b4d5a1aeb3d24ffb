import Verif.Model.Binary
import Mathlib.Tactic.Positivity
import Mathlib.Tactic.FieldSimp
import Mathlib.Order.Monotone.Basic

namespace PT

theorem sval_lt_succ (p k : ℕ) : sval p k < sval p (k + 1) := by
  have hp : 0 < 2 ^ p := by positivity
  unfold sval
  by_cases h1 : k + 1 < 2 ^ p
  · have : k < 2 ^ p := by omega
    simp [h1, this]
  · by_cases h2 : k < 2 ^ p
    · have : k + 1 = 2 ^ p := by omega
      rw [if_pos h2, if_neg h1, this]
      simp
      omega
    · rw [if_neg h2, if_neg h1]
      set e := k / 2 ^ p with he
      set m := k % 2 ^ p with hm
      have hk : k = 2 ^ p * e + m := (Nat.div_add_mod k (2 ^ p)).symm
      have hmlt : m < 2 ^ p := Nat.mod_lt _ hp
      have he1 : 1 ≤ e := by
        rw [he]; exact (Nat.one_le_div_iff hp).2 (by omega)
      by_cases h3 : m + 1 < 2 ^ p
      · have hd : (k + 1) / 2 ^ p = e := by
          rw [hk]; rw [show 2 ^ p * e + m + 1 = m + 1 + 2 ^ p * e by ring, Nat.add_mul_div_left _ _ hp,
            Nat.div_eq_of_lt h3]; omega
        have hmod : (k + 1) % 2 ^ p = m + 1 := by
          rw [hk]; rw [show 2 ^ p * e + m + 1 = m + 1 + 2 ^ p * e by ring, Nat.add_mul_mod_self_left,
            Nat.mod_eq_of_lt h3]
        rw [hd, hmod]
        apply Nat.mul_lt_mul_of_pos_right (by omega) (by positivity)
      · have h4 : m + 1 = 2 ^ p := by omega
        have hd : (k + 1) / 2 ^ p = e + 1 := by
          rw [hk]; rw [show 2 ^ p * e + m + 1 = (m + 1) + 2 ^ p * e by ring, h4]
          rw [Nat.add_mul_div_left _ _ hp, Nat.div_self hp]; omega
        have hmod : (k + 1) % 2 ^ p = 0 := by
          rw [hk]; rw [show 2 ^ p * e + m + 1 = (m + 1) + 2 ^ p * e by ring, h4]
          rw [Nat.add_mul_mod_self_left, Nat.mod_self]
        rw [hd, hmod]
        obtain ⟨f, hf⟩ : ∃ f, e = f + 1 := ⟨e - 1, by omega⟩
        rw [hf]
        simp only [Nat.add_sub_cancel, add_zero]
        rw [pow_succ, ← mul_assoc, mul_comm (2 ^ p * 2 ^ f) 2, ← mul_assoc]
        apply Nat.mul_lt_mul_of_pos_right (by omega) (by positivity)

theorem sval_strictMono (p : ℕ) : StrictMono (sval p) :=
  strictMono_nat_of_lt_succ (sval_lt_succ p)

theorem sval_zero (p : ℕ) : sval p 0 = 0 := by simp [sval]

/-- `ordFloor` brackets its argument. -/
theorem ordFloor_spec (p : ℕ) (y : ℚ) : ∀ (n base : ℕ), (sval p base : ℚ) ≤ y →
    y < sval p (base + 2 ^ n) →
    (sval p (ordFloor p y n base) : ℚ) ≤ y ∧ y < sval p (ordFloor p y n base + 1)
  | 0, base, h1, h2 => by simpa [ordFloor] using ⟨h1, h2⟩
  | n + 1, base, h1, h2 => by
    unfold ordFloor
    split
    · rename_i h
      exact ordFloor_spec p y n _ h (by rwa [add_assoc, ← two_mul, ← pow_succ'])
    · rename_i h
      exact ordFloor_spec p y n _ h1 (not_le.1 h)

theorem ordFloor_big (p : ℕ) (y : ℚ) : ∀ (n base : ℕ), (sval p (base + 2 ^ n) : ℚ) ≤ y →
    ordFloor p y n base = base + 2 ^ n - 1
  | 0, base, _ => by simp [ordFloor]
  | n + 1, base, h => by
    have hpos : 0 < 2 ^ n := by positivity
    have h1 : (sval p (base + 2 ^ n) : ℚ) ≤ y := by
      refine le_trans ?_ h
      exact_mod_cast (sval_strictMono p).monotone (by rw [pow_succ]; omega)
    unfold ordFloor
    rw [if_pos h1, ordFloor_big p y n _ (by rwa [add_assoc, ← two_mul, ← pow_succ'])]
    rw [pow_succ]; omega

theorem sval_le_iff (p j k : ℕ) : (sval p j : ℚ) ≤ sval p k ↔ j ≤ k := by
  rw [Nat.cast_le]; exact (sval_strictMono p).le_iff_le

theorem sval_lt_iff (p j k : ℕ) : (sval p j : ℚ) < sval p k ↔ j < k := by
  rw [Nat.cast_lt]; exact (sval_strictMono p).lt_iff_lt

theorem ordFloor_unique (p n k : ℕ) (y : ℚ) (hy : y < sval p (2 ^ n)) (h1 : (sval p k : ℚ) ≤ y)
    (h2 : y < sval p (k + 1)) : ordFloor p y n 0 = k := by
  have h0 : (sval p 0 : ℚ) ≤ y := le_trans (by rw [sval_le_iff]; omega) h1
  obtain ⟨a, b⟩ := ordFloor_spec p y n 0 h0 (by simpa using hy)
  have := (sval_lt_iff p _ _).1 (lt_of_le_of_lt a h2)
  have := (sval_lt_iff p _ _).1 (lt_of_le_of_lt h1 b)
  omega

theorem ordFloor_bracket (p n : ℕ) (y : ℚ) (h0 : 0 ≤ y) (hy : y < sval p (2 ^ n)) :
    (sval p (ordFloor p y n 0) : ℚ) ≤ y ∧ y < sval p (ordFloor p y n 0 + 1) :=
  ordFloor_spec p y n 0 (by simpa [sval_zero] using h0) (by simpa using hy)

theorem ordRound_eq (p n : ℕ) (y : ℚ) :
    ordRound p n y = ordFloor p y n 0 ∨ ordRound p n y = ordFloor p y n 0 + 1 := by
  unfold ordRound; simp only; split_ifs <;> simp

theorem ordRound_mono (p n : ℕ) (x y : ℚ) (h0 : 0 ≤ x) (hxy : x ≤ y) (hy : y < sval p (2 ^ n)) :
    ordRound p n x ≤ ordRound p n y := by
  obtain ⟨a, b⟩ := ordFloor_bracket p n x h0 (lt_of_le_of_lt hxy hy)
  obtain ⟨c, d⟩ := ordFloor_bracket p n y (h0.trans hxy) hy
  have hk : ordFloor p x n 0 ≤ ordFloor p y n 0 := by
    have := (sval_lt_iff p _ _).1 (lt_of_le_of_lt (a.trans hxy) d); omega
  rcases hk.lt_or_eq with h | h
  · have h1 : ordRound p n x ≤ ordFloor p x n 0 + 1 := by
      rcases ordRound_eq p n x with e | e <;> omega
    have h2 : ordFloor p y n 0 ≤ ordRound p n y := by
      rcases ordRound_eq p n y with e | e <;> omega
    omega
  · unfold ordRound; simp only; rw [h]
    split_ifs <;> first | omega | (exfalso; linarith)

theorem ordRound_exact (p n k : ℕ) (hk : k < 2 ^ n) : ordRound p n (sval p k) = k := by
  have hf : ordFloor p (sval p k) n 0 = k :=
    ordFloor_unique p n k _ ((sval_lt_iff _ _ _).2 hk) le_rfl ((sval_lt_iff _ _ _).2 (by omega))
  unfold ordRound; simp only; rw [hf, sub_self]
  have : (sval p k : ℚ) < sval p (k + 1) := (sval_lt_iff _ _ _).2 (by omega)
  rw [if_pos (by linarith)]

/-- `top < 2^n` as a class, so that it can be found for the two concrete formats. -/
class BinOk (top n : ℕ) : Prop where
  ok : 0 < top ∧ top < 2 ^ n

instance : BinOk 0x7f800000 31 := ⟨by norm_num⟩
instance : BinOk 0x7ff0000000000000 63 := ⟨by norm_num⟩

theorem ordRound_big (p n : ℕ) (y : ℚ) (hy : (sval p (2 ^ n) : ℚ) ≤ y) :
    2 ^ n - 1 ≤ ordRound p n y := by
  have := ordFloor_big p y n 0 (by simpa using hy)
  rcases ordRound_eq p n y with e | e <;> omega

theorem Bin.rnd_some {p q top n : ℕ} {x a : ℚ} :
    Bin.rnd p q top n x = some a ↔
      ordRound p n (x * 2 ^ q) < top ∧ a = sval p (ordRound p n (x * 2 ^ q)) / 2 ^ q := by
  unfold Bin.rnd; simp only
  split_ifs with h
  · simp [h, eq_comm]
  · simp [h]

instance Bin.instRounding (p q top n : ℕ) [h : BinOk top n] : Rounding (Bin p q top n) ℚ where
  rnd := Bin.rnd p q top n
  rnd_zero := by
    rw [Bin.rnd_some]
    have : ordRound p n (0 * 2 ^ q) = 0 := by
      have := ordRound_exact p n 0 (by positivity)
      rwa [sval_zero, Nat.cast_zero, ← zero_mul ((2 : ℚ) ^ q)] at this
    rw [this]; exact ⟨h.ok.1, by simp [sval_zero]⟩
  rnd_nonneg := by
    intro x a _ e
    rw [Bin.rnd_some] at e
    rw [e.2]; positivity
  rnd_mono := by
    intro x y b h0 hxy e
    rw [Bin.rnd_some] at e
    have hlt : y * 2 ^ q < sval p (2 ^ n) := by
      by_contra hc
      have := ordRound_big p n _ (not_lt.1 hc)
      have := h.ok.2
      omega
    have hm := ordRound_mono p n (x * 2 ^ q) (y * 2 ^ q) (by positivity)
      (mul_le_mul_of_nonneg_right hxy (by positivity)) hlt
    refine ⟨_, Bin.rnd_some.2 ⟨lt_of_le_of_lt hm e.1, rfl⟩, ?_⟩
    rw [e.2]
    apply div_le_div_of_nonneg_right _ (by positivity)
    exact (sval_le_iff _ _ _).2 hm
  rnd_idem := by
    intro x a _ e
    rw [Bin.rnd_some] at e
    have h2 : a * 2 ^ q = sval p (ordRound p n (x * 2 ^ q)) := by
      rw [e.2]; field_simp
    have hlt : ordRound p n (x * 2 ^ q) < 2 ^ n := lt_trans e.1 h.ok.2
    rw [Bin.rnd_some, h2, ordRound_exact p n _ hlt]
    exact e

/-- Rust's `f32`. -/
abbrev F32 := Fl Binary32 ℚ
/-- Rust's `f64`. -/
abbrev F64 := Fl Binary64 ℚ

example : (lit 0.1 : F32) = Fl.fin false (13421773 / 2 ^ 27) := by decide +kernel
example : (lit 16777217 : F32) = Fl.fin false 16777216 := by decide +kernel
example : (lit (10 ^ 39) : F32) = Fl.inf false := by decide +kernel

end PT
