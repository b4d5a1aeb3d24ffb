import Verif.Props.Select
import Verif.Props.LightChoice

/-!
# The choice of a component or a light in single precision (C61)
-/

namespace PT

theorem rnd_nat {n : ℕ} (hn : n ≤ 2 ^ 24) : Rounding.rnd Binary32 (n : ℚ) = some (n : ℚ) := by
  have hrep := repr_int (n := (n : ℤ)) (by rw [abs_of_nonneg (by positivity)]; exact_mod_cast hn)
  unfold Fl.Repr at hrep
  simpa using hrep

theorem ofInt_fin {n : ℕ} (hn0 : 0 < n) (hn : n ≤ 2 ^ 24) : (ofInt (n : ℤ) : F32) = .fin false n := by
  have hq : ((n : ℤ) : ℚ) = (n : ℚ) := by norm_cast
  unfold ofInt; rw [hq]
  have := Fl.lit_exact (φ := Binary32) (K := ℚ) (q := (n : ℚ)) (by simpa using hn0) (by simpa using rnd_nat hn)
  simpa using this

/-- A sample in `[0,1)` is a number with a value in `[0,1)`. -/
theorem sample_fin {x : F32} (hw : x.WF) (h0 : Fl.le (lit 0) x = true) (h1 : Fl.lt x (lit 1) = true) :
    ∃ s a, x = .fin s a ∧ x.val = a ∧ 0 ≤ a ∧ a ≤ 1 - 1 / 2 ^ 24 ∧ (s = false ∨ a = 0) := by
  have hone : (lit 1 : F32) = .fin false 1 := by decide +kernel
  rw [Fl.lit_zero] at h0; rw [hone] at h1
  cases x with
  | nan => simp [Fl.lt] at h1
  | inf s => cases s <;> simp [Fl.lt, Fl.le] at h1 h0
  | fin s a =>
    obtain ⟨ha0, har⟩ := hw
    rw [Fl.le_fin] at h0; rw [Fl.lt_fin] at h1
    have hs : s = false ∨ a = 0 := Fl.sgn_nonneg ha0 (by simpa [Fl.sgn] using h0)
    have ha1 : a < 1 := by
      rcases hs with hs | hs
      · subst hs; simpa [Fl.sgn] using h1
      · rw [hs]; norm_num
    refine ⟨s, a, rfl, ?_, ha0, below_one har ha1, hs⟩
    rcases hs with h | h
    · subst h; simp [Fl.val, Fl.sgn]
    · subst h; simp [Fl.val, Fl.sgn]

/-- The cast to an index cuts off the fraction, with or without a `floor` before it. -/
theorem index_floor {s : Bool} {b : ℚ} (hb0 : 0 ≤ b) (hb : b < 2 ^ 24) (hbs : s = false ∨ b = 0) :
    toUsize (Scalar.floor (Fl.fin s b : F32)) = ⌊b⌋₊ ∧ toUsize (Fl.fin s b : F32) = ⌊b⌋₊ := by
  have hb' : (⌊b⌋ : ℤ) < 2 ^ 24 := by rw [Int.floor_lt]; push_cast; exact hb
  have hb'' : 0 ≤ ⌊b⌋ := Int.floor_nonneg.mpr hb0
  have hnat : ⌊b⌋.toNat = ⌊b⌋₊ := rfl
  have cut : ∀ c : ℚ, (s = false ∨ c = 0) → 0 ≤ c → ⌊c⌋ = ⌊b⌋ → toUsize (Fl.fin s c : F32) = ⌊b⌋₊ := by
    intro c hc hc0 e
    have e2 : truncInt (Fl.sgn s c) = ⌊b⌋ := by
      rcases hc with h | h
      · subst h
        simp only [Fl.sgn, if_false, Bool.false_eq_true, truncInt]
        rw [if_neg (not_lt.2 hc0)]; exact e
      · subst h; simp [Fl.sgn, truncInt] at e ⊢; omega
    simp only [toUsize]
    show (Fl.toInt _ _ _).toNat = _
    simp only [Fl.toInt, e2, satInt]
    rw [if_neg (by omega), if_neg (by omega)]
    exact hnat
  refine ⟨?_, cut b hbs hb0 rfl⟩
  have e1 : (Scalar.floor (Fl.fin s b : F32)) = Fl.fin s (⌊b⌋.toNat : ℚ) := by
    show Fl.mapInt _ _ = _
    simp only [Fl.mapInt]
    rcases hbs with h | h
    · subst h; simp only [Fl.sgn, if_false, Bool.false_eq_true]
      congr 1; congr 1; omega
    · subst h; simp [Fl.sgn]
  rw [e1]
  refine cut _ ?_ (by positivity) ?_
  · rcases hbs with h | h
    · exact Or.inl h
    · subst h; right; simp
  · rw [Int.floor_natCast]; omega

/-- The index: the product rounded to a float, cut off. -/
theorem index_eq {n : ℕ} (hn0 : 0 < n) (hn : n ≤ 2 ^ 24) {x : F32} (hw : x.WF) (h0 : Fl.le (lit 0) x = true) (h1 : Fl.lt x (lit 1) = true) :
    ∃ b, Rounding.rnd Binary32 (x.val * n) = some b ∧ 0 ≤ b ∧ b < n ∧ 0 ≤ x.val ∧ toUsize (Scalar.floor (x *. ofInt n)) = ⌊b⌋₊ ∧
      min (toUsize (ofInt (n : ℤ) *. x)) (n - 1) = ⌊b⌋₊ := by
  obtain ⟨s, a, hx, hv, ha0, ha1, hs⟩ := sample_fin hw h0 h1
  obtain ⟨b, hb, hb0, hbn⟩ := rnd_below hn0 hn ha0 ha1
  have hbs : s = false ∨ b = 0 := by
    rcases hs with hs | hs
    · exact Or.inl hs
    · right; subst hs; rw [zero_mul, Rounding.rnd_zero] at hb; exact (Option.some.inj hb).symm
  have hb24 : b < 2 ^ 24 := lt_of_lt_of_le hbn (by exact_mod_cast hn)
  have k1 : x *. ofInt (n : ℤ) = .fin s b := by
    rw [hx, ofInt_fin hn0 hn, Fl.f_mul]; simp only [Fl.mul, Fl.ofMag, hb]; simp
  have k2 : ofInt (n : ℤ) *. x = .fin s b := by
    rw [hx, ofInt_fin hn0 hn, Fl.f_mul]; simp only [Fl.mul, Fl.ofMag, mul_comm (n : ℚ), hb]; simp
  obtain ⟨f1, f2⟩ := index_floor hb0 hb24 hbs
  have hlt : ⌊b⌋₊ < n := (Nat.floor_lt hb0).2 hbn
  refine ⟨b, by rw [hv]; exact hb, hb0, hbn, by rw [hv]; exact ha0, by rw [k1]; exact f1, ?_⟩
  rw [k2, f2]; omega

/-- C61, the shares in single precision: of `n ≤ 2^24` components (or lights) number `k` is chosen for every sample from `k / n` up to `(k + 1) / n`
less one step of `2^-24`, and only for samples from `k / n` less such a step up to, not including, `(k + 1) / n`.  So up to a step at each end the shares
are equal.  The first formula is the index computed by `BSDF::sample_f`, the second the one computed for a light. -/
theorem c61_share_f32 (n k : ℕ) (hn0 : 0 < n) (hn : n ≤ 2 ^ 24) (hk : k < n) (x : F32) (hw : x.WF) (h0 : Fl.le (lit 0) x = true)
    (h1 : Fl.lt x (lit 1) = true) :
    ((k : ℚ) / n ≤ x.val ∧ x.val + 1 / 2 ^ 24 ≤ (k + 1 : ℚ) / n →
      toUsize (Scalar.floor (x *. ofInt n)) = k ∧ min (toUsize (ofInt (n : ℤ) *. x)) (n - 1) = k) ∧
    (toUsize (Scalar.floor (x *. ofInt n)) = k ∨ min (toUsize (ofInt (n : ℤ) *. x)) (n - 1) = k →
      (k : ℚ) / n - 1 / 2 ^ 24 < x.val ∧ x.val < (k + 1 : ℚ) / n) := by
  obtain ⟨b, hb, hb0, hbn, hx0, e1, e2⟩ := index_eq hn0 hn hw h0 h1
  rw [e1, e2, and_self, or_self]
  have hnq : (0 : ℚ) < n := by exact_mod_cast hn0
  -- a product a little below `m` is rounded to something below `m`
  have below : ∀ m : ℕ, 0 < m → m ≤ n → x.val * n ≤ m - n / 2 ^ 24 → b < m := by
    intro m hm hmn h
    have hmq : (0 : ℚ) < m := by exact_mod_cast hm
    have hmn' : (m : ℚ) ≤ n := by exact_mod_cast hmn
    obtain ⟨c, hc, _, hcm⟩ := rnd_below (n := m) hm (hmn.trans hn) (x := x.val * n / m) (by positivity) (by
      rw [div_le_iff₀ hmq]; linarith)
    rw [div_mul_cancel₀ _ hmq.ne', hb] at hc
    cases hc; exact hcm
  -- a product at least `m` is rounded to something at least `m`
  have above : ∀ m : ℕ, m ≤ n → (m : ℚ) ≤ x.val * n → (m : ℚ) ≤ b := by
    intro m hmn h
    obtain ⟨c, hc, hcb⟩ := Rounding.rnd_mono (φ := Binary32) (m : ℚ) (x.val * n) b (by positivity) h hb
    rw [rnd_nat (hmn.trans hn)] at hc
    cases hc; exact hcb
  constructor
  · rintro ⟨g1, g2⟩
    rw [div_le_iff₀ hnq] at g1
    rw [le_div_iff₀ hnq] at g2
    rw [Nat.floor_eq_iff hb0]
    refine ⟨above k hk.le g1, ?_⟩
    have := below (k + 1) (by omega) (by omega) (by push_cast; linarith)
    exact_mod_cast this
  · intro h
    rw [Nat.floor_eq_iff hb0] at h
    obtain ⟨g1, g2⟩ := h
    constructor
    · by_contra hc
      rw [not_lt, le_sub_iff_add_le, le_div_iff₀ hnq] at hc
      have hk0 : 0 < k := by
        rcases Nat.eq_zero_or_pos k with h | h
        · subst h; push_cast at hc; nlinarith [mul_nonneg hx0 hnq.le]
        · exact h
      have := below k hk0 hk.le (by linarith)
      linarith
    · by_contra hc
      rw [not_lt, div_le_iff₀ hnq] at hc
      have := above (k + 1) (by omega) (by push_cast; exact hc)
      push_cast at this
      linarith

/-- C61: with up to `2^23` components (or lights) every one of them is chosen for some of the `2^24` equally spaced samples a random generator delivers:
none is left out. -/
theorem c61_none_left_out (n k : ℕ) (hn0 : 0 < n) (hn : n ≤ 2 ^ 23) (hk : k < n) :
    ∃ m : ℕ, m < 2 ^ 24 ∧ ∃ x : F32, x.WF ∧ x.val = (m : ℚ) / 2 ^ 24 ∧
      toUsize (Scalar.floor (x *. ofInt n)) = k ∧ min (toUsize (ofInt (n : ℤ) *. x)) (n - 1) = k := by
  have hnq : (0 : ℚ) < n := by exact_mod_cast hn0
  set m := ⌈(k : ℚ) / n * 2 ^ 24⌉₊ with hm
  have m1 : (k : ℚ) / n * 2 ^ 24 ≤ m := Nat.le_ceil _
  have m2 : (m : ℚ) < (k : ℚ) / n * 2 ^ 24 + 1 := Nat.ceil_lt_add_one (by positivity)
  have hnq' : (n : ℚ) ≤ 2 ^ 23 := by exact_mod_cast hn
  have hstep : (2 : ℚ) / 2 ^ 24 ≤ 1 / n := by
    rw [div_le_div_iff₀ (by positivity) hnq]; linarith
  have hk1 : (k + 1 : ℚ) / n ≤ 1 := by rw [div_le_one hnq]; exact_mod_cast hk
  have hsplit : (k + 1 : ℚ) / n = k / n + 1 / n := add_div _ _ _
  have hup : (m : ℚ) / 2 ^ 24 + 1 / 2 ^ 24 ≤ (k + 1 : ℚ) / n := by
    have : (m : ℚ) / 2 ^ 24 < k / n + 1 / 2 ^ 24 := by
      rw [div_lt_iff₀ (by positivity)]; linarith
    rw [hsplit]; norm_num at *; linarith
  have hm24 : (m : ℚ) < 2 ^ 24 := by
    have : (m : ℚ) / 2 ^ 24 < 1 := by
      have : (0 : ℚ) < 1 / 2 ^ 24 := by positivity
      linarith
    rwa [div_lt_one (by positivity)] at this
  have hmn : m < 2 ^ 24 := by exact_mod_cast hm24
  have hwf : (Fl.fin false ((m : ℚ) / 2 ^ 24) : F32).WF := by
    refine ⟨by positivity, ?_⟩
    obtain ⟨i, hi, ei⟩ := sval_dyadic 125 m (by norm_num) hmn
    have hval : (m : ℚ) / 2 ^ 24 = (sval 23 i : ℚ) / 2 ^ 149 := by rw [ei]; push_cast; field_simp; norm_num
    rw [hval]
    show Bin.rnd 23 149 0x7f800000 31 _ = _
    rw [Bin.rnd_some, div_mul_cancel₀ _ (by positivity), ordRound_exact 23 31 i (by omega)]
    exact ⟨hi, rfl⟩
  have hv : (Fl.fin false ((m : ℚ) / 2 ^ 24) : F32).val = (m : ℚ) / 2 ^ 24 := by simp [Fl.val, Fl.sgn]
  refine ⟨m, hmn, _, hwf, hv, (c61_share_f32 n k hn0 (hn.trans (by norm_num)) hk _ hwf ?_ ?_).1 ⟨?_, ?_⟩⟩
  · rw [Fl.lit_zero, Fl.le_fin]; simp [Fl.sgn]; positivity
  · have hone : (lit 1 : F32) = .fin false 1 := by decide +kernel
    rw [hone, Fl.lt_fin]; simp only [Fl.sgn, if_false, Bool.false_eq_true]; rwa [div_lt_one (by positivity)]
  · rw [hv, le_div_iff₀ (by positivity)]; exact m1
  · rw [hv]; exact hup

/-- With seven lights the last one is chosen for some sample. -/
example : ∃ m : ℕ, m < 2 ^ 24 ∧ ∃ x : F32, x.WF ∧ x.val = (m : ℚ) / 2 ^ 24 ∧ toUsize (Scalar.floor (x *. ofInt (7 : ℕ))) = 6 ∧
    min (toUsize (ofInt ((7 : ℕ) : ℤ) *. x)) (7 - 1) = 6 := c61_none_left_out 7 6 (by norm_num) (by norm_num) (by norm_num)

/-- The step is needed: with six lights a sample just below 5/6 already chooses the last (the product is rounded up to 5). -/
example : (Fl.fin false (13981013 / 2 ^ 24) : F32).WF ∧ (13981013 / 2 ^ 24 : ℚ) < 5 / 6 ∧
    toUsize (Scalar.floor ((Fl.fin false (13981013 / 2 ^ 24) : F32) *. ofInt 6)) = 5 := by
  refine ⟨⟨by norm_num, by decide +kernel⟩, by norm_num, by decide +kernel⟩
end PT
