import Verif.Props.Util
import Verif.Lemmas.FlMono
import Verif.Model.Reflection

/-! # Selecting a component or a light by a uniform sample (C61), binary32 -/

namespace PT

theorem floor_repr (j : ℕ) (hj : (sval 23 j : ℚ) < 2 ^ 24 * 2 ^ 149) : ∃ i, i < 0x7f800000 ∧ sval 23 i = sval 23 j % 2 ^ 149 := by
  by_cases h : j < 2 ^ 23
  · refine ⟨j, by omega, ?_⟩
    have : sval 23 j = j := by simp only [sval, if_pos h]
    rw [this, Nat.mod_eq_of_lt]
    calc j < 2 ^ 23 := h
      _ < 2 ^ 149 := by norm_num
  · set m := 2 ^ 23 + j % 2 ^ 23 with hm
    set e := j / 2 ^ 23 - 1 with he
    have hs : sval 23 j = m * 2 ^ e := by simp only [sval, if_neg h]; rfl
    have hm24 : m < 2 ^ 24 := by have := Nat.mod_lt j (show 0 < 2 ^ 23 by norm_num); omega
    have hm23 : 2 ^ 23 ≤ m := by omega
    rw [hs] at hj ⊢
    by_cases h2 : e ≤ 149
    · obtain ⟨d, hd⟩ := Nat.exists_eq_add_of_le h2
      obtain ⟨i, hi, e2⟩ := sval_dyadic e (m % 2 ^ d) (by omega) (lt_of_le_of_lt (Nat.mod_le _ _) hm24)
      refine ⟨i, hi, ?_⟩
      rw [e2, hd, pow_add, mul_comm (2 ^ e) (2 ^ d), Nat.mul_mod_mul_right]
    · refine ⟨0, by omega, ?_⟩
      obtain ⟨d, hd⟩ := Nat.exists_eq_add_of_le (show 149 ≤ e by omega)
      rw [sval_zero, hd, pow_add, mul_comm (2 ^ 149), ← mul_assoc, Nat.mul_mod_left]

theorem below_one {x : ℚ} (h : Rounding.rnd Binary32 x = some x) (h1 : x < 1) : x ≤ 1 - 1 / 2 ^ 24 := by
  have h' := Bin.rnd_some.mp h
  obtain ⟨_, e⟩ := h'
  set k := ordRound 23 31 (x * 2 ^ 149)
  have hone : sval 23 (127 * 2 ^ 23) = 2 ^ 149 := by norm_num [sval]
  have hpred : sval 23 (127 * 2 ^ 23 - 1) = 2 ^ 149 - 2 ^ 125 := by norm_num [sval]
  have hk : k < 127 * 2 ^ 23 := by
    rw [← sval_lt_iff 23, hone]
    rw [e, div_lt_one (by positivity)] at h1
    exact_mod_cast h1
  have : (sval 23 k : ℚ) ≤ sval 23 (127 * 2 ^ 23 - 1) := by rw [sval_le_iff]; omega
  rw [hpred] at this
  rw [e, div_le_iff₀ (by positivity)]
  push_cast [Nat.cast_sub (show 2 ^ 125 ≤ 2 ^ 149 by norm_num)] at this
  linarith

/-- The product of a sample below one and a count is rounded to something below the count. -/
theorem rnd_below {n : ℕ} (h0 : 0 < n) (hn : n ≤ 2 ^ 24) {x : ℚ} (hx0 : 0 ≤ x) (hx : x ≤ 1 - 1 / 2 ^ 24) :
    ∃ a, Rounding.rnd Binary32 (x * n) = some a ∧ 0 ≤ a ∧ a < n := by
  -- normalise n
  obtain ⟨e, M, he, hM1, hM2, hMn⟩ : ∃ e M : ℕ, e ≤ 24 ∧ 2 ^ 23 ≤ M ∧ M < 2 ^ 24 ∧ M * 2 ^ e = n * 2 ^ 23 := by
    by_cases hb : n = 2 ^ 24
    · exact ⟨24, 2 ^ 23, le_rfl, le_rfl, by norm_num, by rw [hb]; norm_num⟩
    · have hl := Nat.log2_self_le (by omega : n ≠ 0)
      have hu := Nat.lt_log2_self (n := n)
      have hl23 : n.log2 ≤ 23 := by
        have : n.log2 < 24 := (Nat.log2_lt (by omega)).mpr (by omega)
        omega
      obtain ⟨d, hd⟩ := Nat.exists_eq_add_of_le hl23
      refine ⟨n.log2, n * 2 ^ d, by omega, ?_, ?_, ?_⟩
      · rw [hd, pow_add]; exact Nat.mul_le_mul_right _ hl
      · rw [show 24 = n.log2 + 1 + d by omega, pow_add]; exact Nat.mul_lt_mul_of_pos_right hu (by positivity)
      · rw [mul_assoc, ← pow_add]; congr 2; omega
  obtain ⟨hi, hhi, ehi⟩ := sval_dyadic (126 + e) M (by omega) hM2
  have ehi' : (sval 23 hi : ℚ) = n * 2 ^ 149 := by
    rw [ehi]; push_cast
    have : (M : ℚ) * 2 ^ e = n * 2 ^ 23 := by exact_mod_cast hMn
    rw [pow_add]; linear_combination 2 ^ 126 * this
  have hhi0 : hi ≠ 0 := by
    rintro rfl; rw [sval_zero] at ehi'
    have : (0 : ℚ) < n * 2 ^ 149 := by positivity
    simp at ehi'; omega
  -- a representable value close below n
  have hlo : (sval 23 hi : ℚ) - n * 2 ^ 126 < sval 23 (hi - 1) := by
    have hMq : (M : ℚ) * 2 ^ e = n * 2 ^ 23 := by exact_mod_cast hMn
    have hstep : ∀ j : ℕ, sval 23 j < sval 23 hi → (sval 23 j : ℚ) ≤ sval 23 (hi - 1) := by
      intro j hj
      have := (sval_strictMono 23).lt_iff_lt.mp hj
      rw [sval_le_iff]; omega
    rcases hM1.lt_or_eq with h | h
    · obtain ⟨j, _, ej⟩ := sval_dyadic (126 + e) (M - 1) (by omega) (by omega)
      have := hstep j (by rw [ej, ehi]; exact Nat.mul_lt_mul_of_pos_right (by omega) (by positivity))
      refine lt_of_lt_of_le ?_ this
      rw [ej, ehi]; push_cast [Nat.cast_sub (show 1 ≤ M by omega)]
      have h2 : (2 : ℚ) ^ 23 < M := by exact_mod_cast h
      have h3 : (0 : ℚ) < 2 ^ e := by positivity
      have : (n : ℚ) * 2 ^ 126 = M * 2 ^ e * 2 ^ 103 := by rw [hMq]; ring
      rw [this, pow_add]
      have := mul_lt_mul_of_pos_right h2 h3
      nlinarith
    · obtain ⟨j, _, ej⟩ := sval_dyadic (125 + e) (2 ^ 24 - 1) (by omega) (by norm_num)
      have := hstep j (by
        rw [ej, ehi, ← h, show 126 + e = 1 + (125 + e) by ring, pow_add 2 1, ← mul_assoc]
        exact Nat.mul_lt_mul_of_pos_right (by norm_num) (by positivity))
      refine lt_of_lt_of_le ?_ this
      rw [ej, ehi, ← h]
      have : (n : ℚ) * 2 ^ 126 = M * 2 ^ e * 2 ^ 103 := by rw [hMq]; ring
      rw [this, ← h]
      push_cast
      rw [pow_add, pow_add]
      have h3 : (0 : ℚ) < 2 ^ e := by positivity
      norm_num
      nlinarith
  have hn0 : (0 : ℚ) < n := by exact_mod_cast h0
  have hy1 : x * n * 2 ^ 149 ≤ sval 23 hi - n * 2 ^ 125 := by
    rw [ehi']; have := mul_le_mul_of_nonneg_right hx hn0.le; nlinarith
  have hy2 : x * n * 2 ^ 149 < sval 23 hi := by have : (0 : ℚ) < n * 2 ^ 125 := by positivity
                                                linarith
  have hbig : x * n * 2 ^ 149 < sval 23 (2 ^ 31) := by
    refine hy2.trans ?_
    rw [sval_lt_iff]; omega
  obtain ⟨b1, b2⟩ := ordFloor_bracket 23 31 (x * n * 2 ^ 149) (by positivity) hbig
  have hf : ordFloor 23 (x * n * 2 ^ 149) 31 0 < hi := by
    rw [← sval_lt_iff 23]; exact lt_of_le_of_lt b1 hy2
  have hr : ordRound 23 31 (x * n * 2 ^ 149) < hi := by
    by_cases hc : ordFloor 23 (x * n * 2 ^ 149) 31 0 = hi - 1
    · unfold ordRound; simp only; rw [hc, if_pos]
      · omega
      · rw [show hi - 1 + 1 = hi by omega]; linarith
    · rcases ordRound_eq 23 31 (x * n * 2 ^ 149) with h | h <;> omega
  refine ⟨sval 23 (ordRound 23 31 (x * n * 2 ^ 149)) / 2 ^ 149, Bin.rnd_some.mpr ⟨by omega, rfl⟩, by positivity, ?_⟩
  rw [div_lt_iff₀ (by positivity), ← ehi', sval_lt_iff]
  exact hr


/-- C61: for every single-precision sample in `[0, 1)` and every count up to `2^24`, the index `⌊sample * n⌋` computed in
single precision is below the count and the remapped sample is again in `[0, 1)`. -/
theorem c61_select (x : F32) (hw : x.WF) (h0 : Fl.le (lit 0) x = true) (h1 : Fl.lt x (lit 1) = true) (n : ℕ) (hn0 : 0 < n)
    (hn : n ≤ 2 ^ 24) :
    toUsize (Scalar.floor (x *. ofInt n)) < n ∧
    Fl.le (lit 0) ((x *. ofInt n) -. ofInt (toUsize (Scalar.floor (x *. ofInt n)) : ℕ)) = true ∧
    Fl.lt ((x *. ofInt n) -. ofInt (toUsize (Scalar.floor (x *. ofInt n)) : ℕ)) (lit 1) = true := by
  have hone : (lit 1 : F32) = .fin false 1 := by decide +kernel
  rw [Fl.lit_zero] at h0 ⊢; rw [hone] at h1 ⊢
  cases x with
  | nan => simp [Fl.lt] at h1
  | inf s => cases s <;> simp [Fl.lt, Fl.le] at h1 h0
  | fin s a =>
    obtain ⟨ha0, har⟩ := hw
    rw [Fl.le_fin] at h0; rw [Fl.lt_fin] at h1
    have hs : s = false ∨ a = 0 := Fl.sgn_nonneg ha0 (by simpa [Fl.sgn] using h0)
    have ha1 : a < 1 := by
      rcases hs with hs | hs
      · subst hs; simpa [Fl.sgn] using h1
      · rw [hs]; norm_num
    obtain ⟨b, hb, hb0, hbn⟩ := rnd_below hn0 hn ha0 (below_one har ha1)
    have hbs : s = false ∨ b = 0 := by
      rcases hs with hs | hs
      · exact Or.inl hs
      · right; subst hs; rw [zero_mul, Rounding.rnd_zero] at hb; exact (Option.some.inj hb).symm
    have hbw : Rounding.rnd Binary32 b = some b := Rounding.rnd_idem _ _ (by positivity) hb
    have hN : (ofInt (n : ℤ) : F32) = .fin false n := by
      have hrep := repr_int (n := (n : ℤ)) (by rw [abs_of_nonneg (by positivity)]; exact_mod_cast hn)
      unfold Fl.Repr at hrep
      have hq : ((n : ℤ) : ℚ) = (n : ℚ) := by norm_cast
      rw [hq, abs_of_nonneg (by positivity)] at hrep
      unfold ofInt; rw [hq]
      have := Fl.lit_exact (φ := Binary32) (K := ℚ) (q := (n : ℚ)) (by simpa using hn0) (by simpa using hrep)
      simpa using this
    have hk : (Fl.fin s a : F32) *. ofInt (n : ℤ) = .fin s b := by
      rw [hN, Fl.f_mul]; simp only [Fl.mul, Fl.ofMag, hb]; simp
    rw [hk]
    have hfl : toUsize (Scalar.floor (Fl.fin s b : F32)) = ⌊b⌋.toNat := by
      have hb' : (⌊b⌋ : ℤ) < 2 ^ 24 := by
        rw [Int.floor_lt]; push_cast
        exact lt_of_lt_of_le hbn (by exact_mod_cast hn)
      have hb'' : 0 ≤ ⌊b⌋ := Int.floor_nonneg.mpr hb0
      have e1 : (Scalar.floor (Fl.fin s b : F32)) = Fl.fin s (⌊b⌋.toNat : ℚ) := by
        show Fl.mapInt _ _ = _
        simp only [Fl.mapInt]
        rcases hbs with h | h
        · subst h; simp only [Fl.sgn, if_false, Bool.false_eq_true]
          congr 1; congr 1; omega
        · subst h; simp [Fl.sgn]
      have e2 : truncInt (Fl.sgn s (⌊b⌋.toNat : ℚ)) = ⌊b⌋ := by
        rcases hbs with h | h
        · subst h
          simp only [Fl.sgn, if_false, Bool.false_eq_true, truncInt]
          rw [show ((⌊b⌋.toNat : ℕ) : ℚ) = ((⌊b⌋ : ℤ) : ℚ) by rw [← Int.cast_natCast, Int.toNat_of_nonneg hb'']]
          simp
        · subst h; simp [Fl.sgn, truncInt]
      simp only [toUsize]
      rw [e1]
      show (Fl.toInt _ _ _).toNat = _
      simp only [Fl.toInt, e2, satInt]
      rw [if_neg (by omega), if_neg (by omega)]
    have hlt : ⌊b⌋.toNat < n := by
      have : ⌊b⌋ < (n : ℤ) := by rw [Int.floor_lt]; exact_mod_cast hbn
      omega
    rw [hfl]
    refine ⟨hlt, ?_⟩
    set k := ⌊b⌋.toNat with hkd
    have hkb : (k : ℚ) ≤ b ∧ b < k + 1 := by
      have h1 := Int.floor_le b; have h2 := Int.lt_floor_add_one b
      have : ((k : ℕ) : ℚ) = ((⌊b⌋ : ℤ) : ℚ) := by
        rw [hkd, ← Int.cast_natCast, Int.toNat_of_nonneg (Int.floor_nonneg.mpr hb0)]
      rw [this]; exact ⟨h1, h2⟩
    obtain ⟨i1, i2⟩ := ofInt_exact (n := (k : ℤ)) (by rw [abs_of_nonneg (by positivity)]; exact_mod_cast (by omega : k ≤ 2 ^ 24))
    obtain ⟨j, hj, ej⟩ := wf_pattern (s := false) (show (Fl.fin false b : F32).WF from ⟨hb0, hbw⟩)
    -- the fractional part is representable
    have hfrac : Fl.Repr Binary32 (b - k) := by
      have hj24 : (sval 23 j : ℚ) < 2 ^ 24 * 2 ^ 149 := by
        have : b < 2 ^ 24 := lt_of_lt_of_le hbn (by exact_mod_cast hn)
        rw [ej, div_lt_iff₀ (by positivity)] at this; exact this
      obtain ⟨i, hi, ei⟩ := floor_repr j hj24
      have hdiv : sval 23 j / 2 ^ 149 = k := by
        have e1 : (k : ℚ) * 2 ^ 149 ≤ sval 23 j := by
          have := hkb.1; rw [ej, le_div_iff₀ (by positivity)] at this; exact this
        have e2 : (sval 23 j : ℚ) < (k + 1) * 2 ^ 149 := by
          have := hkb.2; rw [ej, div_lt_iff₀ (by positivity)] at this; exact this
        have e1' : k * 2 ^ 149 ≤ sval 23 j := by exact_mod_cast e1
        have e2' : sval 23 j < (k + 1) * 2 ^ 149 := by exact_mod_cast e2
        exact Nat.div_eq_of_lt_le e1' e2'
      have hval : b - k = (sval 23 i : ℚ) / 2 ^ 149 := by
        have := Nat.div_add_mod (sval 23 j) (2 ^ 149)
        rw [hdiv, ← ei] at this
        have h' : (2 ^ 149 * (k : ℚ) + sval 23 i : ℚ) = sval 23 j := by exact_mod_cast this
        rw [ej, ← h']; field_simp; ring
      unfold Fl.Repr
      rw [abs_of_nonneg (by linarith [hkb.1]), hval]
      show Bin.rnd 23 149 0x7f800000 31 _ = _
      rw [Bin.rnd_some, div_mul_cancel₀ _ (by positivity), ordRound_exact 23 31 i (by omega)]
      exact ⟨hi, rfl⟩
    obtain ⟨n1, n2⟩ := Fl.neg_fin i1
    obtain ⟨zs, hz⟩ := Fl.add_fin (a := (Fl.fin s b : F32)) trivial n1
    have hbv : (Fl.fin s b : F32).val = b := by
      rcases hbs with h | h
      · subst h; simp [Fl.val, Fl.sgn]
      · subst h; simp [Fl.val, Fl.sgn]
    rw [hbv, n2, i2] at hz
    have hz' : (Fl.fin s b : F32) -. ofInt (k : ℤ) = Fl.ofVal (b - k) zs := by
      rw [Fl.f_sub, hz]; congr 1; push_cast; ring
    rw [hz']
    obtain ⟨r1, r2⟩ := Fl.ofVal_repr hfrac zs
    constructor
    · rw [Fl.le_val (a := (Fl.fin false 0 : F32)) trivial r1, r2]; simp [Fl.val, Fl.sgn]; exact hkb.1
    · rw [Fl.lt_val r1 (b := (Fl.fin false 1 : F32)) trivial, r2]; simp [Fl.val, Fl.sgn]; linarith [hkb.2]

/-- The largest float below one, and a count that is not a power of two. -/
example : (Fl.fin false (1 - 1 / 2 ^ 24) : F32).WF ∧ Fl.le (lit 0) (Fl.fin false (1 - 1 / 2 ^ 24) : F32) = true ∧
    Fl.lt (Fl.fin false (1 - 1 / 2 ^ 24) : F32) (lit 1) = true ∧
    toUsize (Scalar.floor ((Fl.fin false (1 - 1 / 2 ^ 24) : F32) *. ofInt 7)) = 6 := by
  refine ⟨⟨by norm_num, by decide +kernel⟩, by decide +kernel, by decide +kernel, by decide +kernel⟩

/-- C61 for `BSDF::sample_f`: with samples in `[0, 1)` it never indexes out of the list of components, whatever the
components, directions and frame are. -/
theorem c61_bsdf_never_panics (b : BSDF F32) (hb : b.bxdfs.length ≤ 2 ^ 24) (wo : V3 F32) (u : V2 F32) (hw : u.x.WF)
    (h0 : Fl.le (lit 0) u.x = true) (h1 : Fl.lt u.x (lit 1) = true) : (b.sampleF wo u).isSome = true := by
  simp only [BSDF.sampleF]
  by_cases hn : b.bxdfs.length = 0
  · rw [if_pos hn]; rfl
  · rw [if_neg hn]
    have := (c61_select u.x hw h0 h1 b.bxdfs.length (by omega) hb).1
    rw [List.getElem?_eq_getElem this]
    simp only []
    split_ifs <;> rfl

end PT
