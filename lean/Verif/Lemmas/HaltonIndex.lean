import Verif.Props.Halton
import Mathlib.Data.Nat.ModEq
import Mathlib.Data.Int.ModEq
import Mathlib.Tactic.IntervalCases

/-! # The pixel-to-index mapping of the Halton sampler -/

namespace PT

/-- Scales and exponents of one axis: `scale = base^exp`, and `scale` is 1 or below `base * limit`. -/
theorem scaleLoop_spec (base limit : Nat) (hb : 2 ≤ base) : ∀ (d scale exp : Nat), limit - scale ≤ d → scale = base ^ exp →
    (scaleLoop base limit scale exp).1 = base ^ (scaleLoop base limit scale exp).2 ∧
    limit ≤ (scaleLoop base limit scale exp).1 ∧
    ((scaleLoop base limit scale exp).1 ≤ scale ∨ (scaleLoop base limit scale exp).1 < base * limit) := by
  intro d
  induction d with
  | zero =>
    intro scale exp hd hs
    unfold scaleLoop
    rw [dif_neg (by omega)]
    exact ⟨hs, by omega, Or.inl le_rfl⟩
  | succ d ih =>
    intro scale exp hd hs
    have hpos : 0 < scale := by rw [hs]; exact Nat.pow_pos (by omega)
    unfold scaleLoop
    by_cases h : scale < limit
    · rw [dif_pos ⟨h, hpos, hb⟩]
      have h2 : scale * 2 ≤ scale * base := Nat.mul_le_mul_left _ hb
      obtain ⟨a, b, c⟩ := ih (scale * base) (exp + 1) (by omega) (by rw [hs, pow_succ])
      refine ⟨a, b, ?_⟩
      rcases c with c | c
      · right
        have : scale * base < limit * base := Nat.mul_lt_mul_of_pos_right h (by omega)
        rw [mul_comm base]; omega
      · exact Or.inr c
    · rw [dif_neg (by omega)]
      exact ⟨hs, by omega, Or.inl le_rfl⟩

/-- The construction parameters of a sampler. -/
structure HaltonParams (s : HaltonSampler) (j k : Nat) : Prop where
  sx : s.baseScale.x = 2 ^ j
  sy : s.baseScale.y = 3 ^ k
  ex : s.baseExp.x = j
  ey : s.baseExp.y = k
  hx : 2 ^ j ≤ 128
  hy : 3 ^ k ≤ 243
  stride : s.sampleStride = 2 ^ j * 3 ^ k
  inv0 : s.mulInverse.x = multiplicativeInverse (3 ^ k) (2 ^ j)
  inv1 : s.mulInverse.y = multiplicativeInverse (2 ^ j) (3 ^ k)

theorem new_params (spp : Nat) (box : BBox2i) :
    ∃ j k, HaltonParams (HaltonSampler.new spp box) j k ∧
      imin box.diagonal.x 128 ≤ ((2 ^ j : Nat) : Int) ∧ imin box.diagonal.y 128 ≤ ((3 ^ k : Nat) : Int) := by
  set lx := (imin box.diagonal.x kMaxResolution).toNat with hlx
  set ly := (imin box.diagonal.y kMaxResolution).toNat with hly
  obtain ⟨a1, a2, a3⟩ := scaleLoop_spec 2 lx le_rfl lx 1 0 (by omega) (by simp)
  obtain ⟨b1, b2, b3⟩ := scaleLoop_spec 3 ly (by omega) ly 1 0 (by omega) (by simp)
  have hlx' : lx ≤ 128 := by rw [hlx]; simp only [imin, kMaxResolution]; split_ifs <;> omega
  have hly' : ly ≤ 128 := by rw [hly]; simp only [imin, kMaxResolution]; split_ifs <;> omega
  refine ⟨(scaleLoop 2 lx 1 0).2, (scaleLoop 3 ly 1 0).2, ?_, ?_, ?_⟩
  · have hx : 2 ^ (scaleLoop 2 lx 1 0).2 ≤ 128 := by
      rcases Nat.lt_or_ge (scaleLoop 2 lx 1 0).2 8 with h | h
      · calc 2 ^ (scaleLoop 2 lx 1 0).2 ≤ 2 ^ 7 := Nat.pow_le_pow_right (by omega) (by omega)
          _ = 128 := by norm_num
      · have : 2 ^ 8 ≤ 2 ^ (scaleLoop 2 lx 1 0).2 := Nat.pow_le_pow_right (by omega) h
        rw [a1] at a3; omega
    have hy : 3 ^ (scaleLoop 3 ly 1 0).2 ≤ 243 := by
      rcases Nat.lt_or_ge (scaleLoop 3 ly 1 0).2 6 with h | h
      · calc 3 ^ (scaleLoop 3 ly 1 0).2 ≤ 3 ^ 5 := Nat.pow_le_pow_right (by omega) (by omega)
          _ = 243 := by norm_num
      · have : 3 ^ 6 ≤ 3 ^ (scaleLoop 3 ly 1 0).2 := Nat.pow_le_pow_right (by omega) h
        rw [b1] at b3; omega
    refine ⟨a1, b1, rfl, rfl, hx, hy, ?_, ?_, ?_⟩
    · show u32 ((scaleLoop 2 lx 1 0).1 * (scaleLoop 3 ly 1 0).1) = _
      rw [a1, b1]
      refine u32_of_lt ?_
      have := Nat.mul_le_mul hx hy
      omega
    · show multiplicativeInverse (scaleLoop 3 ly 1 0).1 (scaleLoop 2 lx 1 0).1 = _
      rw [a1, b1]
    · show multiplicativeInverse (scaleLoop 2 lx 1 0).1 (scaleLoop 3 ly 1 0).1 = _
      rw [a1, b1]
  · rw [← a1]; have : (imin box.diagonal.x 128).toNat = lx := rfl; omega
  · rw [← b1]; have : (imin box.diagonal.y 128).toNat = ly := rfl; omega

/-- `pos_mod` is the mathematical remainder. -/
theorem posMod_eq (a b : Int) (hb : 0 < b) : (posMod a b : Int) = a % b := by
  unfold posMod
  simp only
  have h1 := Int.tmod_eq_emod (a := a) (b := b)
  have h2 := Int.emod_nonneg a hb.ne'
  have h3 := Int.emod_lt_of_pos a hb
  split_ifs at h1 with h
  · rw [if_neg (by omega)]; omega
  · have hnab : (b.natAbs : Int) = b := Int.natAbs_of_nonneg hb.le
    by_cases h0 : a % b = 0
    · exact absurd (Or.inr (Int.dvd_of_emod_eq_zero h0)) h
    · rw [if_pos (by omega)]; omega

theorem posMod_lt (a b : Int) (hb : 0 < b) : (posMod a b : Int) < b := by
  rw [posMod_eq a b hb]; exact Int.emod_lt_of_pos a hb

/-- The unreduced offset: no 32-bit operation of the computation wraps around. -/
theorem computeOffset_eq {s : HaltonSampler} {j k : Nat} (h : HaltonParams s j k) :
    s.computeOffset =
      (Spec.rev 2 j (posMod s.currentPixel.x 128) * 3 ^ k * s.mulInverse.x +
       Spec.rev 3 k (posMod s.currentPixel.y 128) * 2 ^ j * s.mulInverse.y) % (2 ^ j * 3 ^ k) := by
  have hx0 : 0 < 2 ^ j := Nat.pow_pos (by omega)
  have hy0 : 0 < 3 ^ k := Nat.pow_pos (by omega)
  have hr2 := rev_lt 2 le_rfl j (posMod s.currentPixel.x 128)
  have hr3 := rev_lt 3 (by omega) k (posMod s.currentPixel.y 128)
  have hm0 : s.mulInverse.x < 2 ^ j := by rw [h.inv0]; exact Nat.mod_lt _ hx0
  have hm1 : s.mulInverse.y < 3 ^ k := by rw [h.inv1]; exact Nat.mod_lt _ hy0
  have hhx := h.hx
  have hhy := h.hy
  have e2 : (2 ^ j * 3 ^ k) / 2 ^ j = 3 ^ k := Nat.mul_div_cancel_left _ hx0
  have e3 : (2 ^ j * 3 ^ k) / 3 ^ k = 2 ^ j := Nat.mul_div_cancel _ hy0
  unfold HaltonSampler.computeOffset
  simp only [h.stride, h.sx, h.sy, h.ex, h.ey, kMaxResolution, e2, e3]
  rw [inverseRadicalInverse_eq 2 le_rfl j _ (by omega), inverseRadicalInverse_eq 3 (by omega) k _ (by omega)]
  generalize Spec.rev 2 j (posMod s.currentPixel.x 128) = a at *
  generalize Spec.rev 3 k (posMod s.currentPixel.y 128) = b at *
  generalize s.mulInverse.x = m0 at *
  generalize s.mulInverse.y = m1 at *
  generalize 2 ^ j = X at *
  generalize 3 ^ k = Y at *
  have p1 : a * Y ≤ 128 * 243 := Nat.mul_le_mul (by omega) hhy
  have p2 : b * X ≤ 243 * 128 := Nat.mul_le_mul (by omega) hhx
  have p3 : a * Y * m0 ≤ 128 * 243 * 128 := Nat.mul_le_mul p1 (by omega)
  have p4 : b * X * m1 ≤ 243 * 128 * 243 := Nat.mul_le_mul p2 (by omega)
  by_cases h1 : X * Y > 1
  · rw [if_pos h1, u32_of_lt (by omega : a * Y < 2 ^ 32), u32_of_lt (by omega : a * Y * m0 < 2 ^ 32),
      u32_of_lt (by omega : b * X < 2 ^ 32), u32_of_lt (by omega : b * X * m1 < 2 ^ 32), u32_of_lt (by omega)]
  · rw [if_neg h1]
    have : X * Y = 1 := by have := Nat.mul_pos hx0 hy0; omega
    rw [this, Nat.mod_one]

theorem inv_sign (a n : Nat) (hn : n < 2 ^ 32) (hn0 : 0 < n) (hc : Nat.Coprime a n) (r : Nat) :
    ((r * a * multiplicativeInverse a n : Nat) : Int) ≡
      (if 0 ≤ (extendedGcd a n).1 then (r : Int) else -r) [ZMOD n] := by
  obtain ⟨h1, h2⟩ := c19_inverse_partial a n hn hn0 hc
  have e : ((r * a * multiplicativeInverse a n : Nat) : Int) = r * (multiplicativeInverse a n * a : Int) := by
    push_cast; ring
  rw [e]
  split_ifs with h
  · simpa using (h1 h).mul_left (r : Int)
  · simpa using (h2 (not_le.1 h)).mul_left (r : Int)

/-- The residues of the offset on both axes: the reversed pixel coordinate, or its negative. -/
theorem computeOffset_residues {s : HaltonSampler} {j k : Nat} (h : HaltonParams s j k) :
    s.computeOffset < 2 ^ j * 3 ^ k ∧
    (s.computeOffset : Int) ≡ (if 0 ≤ (extendedGcd (3 ^ k) (2 ^ j)).1 then
        (Spec.rev 2 j (posMod s.currentPixel.x 128) : Int)
      else -(Spec.rev 2 j (posMod s.currentPixel.x 128) : Int)) [ZMOD (2 ^ j : Nat)] ∧
    (s.computeOffset : Int) ≡ (if 0 ≤ (extendedGcd (2 ^ j) (3 ^ k)).1 then
        (Spec.rev 3 k (posMod s.currentPixel.y 128) : Int)
      else -(Spec.rev 3 k (posMod s.currentPixel.y 128) : Int)) [ZMOD (3 ^ k : Nat)] := by
  have hx0 : 0 < 2 ^ j := Nat.pow_pos (by omega)
  have hy0 : 0 < 3 ^ k := Nat.pow_pos (by omega)
  have hc : Nat.Coprime (3 ^ k) (2 ^ j) := Nat.Coprime.pow _ _ (by decide)
  have hhx := h.hx
  have hhy := h.hy
  have i0 := inv_sign (3 ^ k) (2 ^ j) (by omega) hx0 hc (Spec.rev 2 j (posMod s.currentPixel.x 128))
  have i1 := inv_sign (2 ^ j) (3 ^ k) (by omega) hy0 hc.symm (Spec.rev 3 k (posMod s.currentPixel.y 128))
  rw [computeOffset_eq h, h.inv0, h.inv1]
  generalize Spec.rev 2 j (posMod s.currentPixel.x 128) = a at *
  generalize Spec.rev 3 k (posMod s.currentPixel.y 128) = b at *
  generalize multiplicativeInverse (3 ^ k) (2 ^ j) = m0 at *
  generalize multiplicativeInverse (2 ^ j) (3 ^ k) = m1 at *
  refine ⟨Nat.mod_lt _ (Nat.mul_pos hx0 hy0), ?_, ?_⟩
  · have e1 : (((a * 3 ^ k * m0 + b * 2 ^ j * m1) % (2 ^ j * 3 ^ k) : Nat) : Int) ≡
        ((a * 3 ^ k * m0 + b * 2 ^ j * m1 : Nat) : Int) [ZMOD (2 ^ j : Nat)] := by
      refine Int.ModEq.of_mul_right ((3 ^ k : Nat) : Int) ?_
      rw [← Nat.cast_mul]
      exact (Int.natCast_modEq_iff.2 (Nat.mod_modEq _ _))
    refine e1.trans ?_
    refine Int.ModEq.trans ?_ i0
    have : ((b * 2 ^ j * m1 : Nat) : Int) ≡ 0 [ZMOD (2 ^ j : Nat)] :=
      Int.modEq_zero_iff_dvd.2 ⟨(b * m1 : Nat), by push_cast; ring⟩
    simpa using (Int.ModEq.refl ((a * 3 ^ k * m0 : Nat) : Int)).add this
  · have e1 : (((a * 3 ^ k * m0 + b * 2 ^ j * m1) % (2 ^ j * 3 ^ k) : Nat) : Int) ≡
        ((a * 3 ^ k * m0 + b * 2 ^ j * m1 : Nat) : Int) [ZMOD (3 ^ k : Nat)] := by
      refine Int.ModEq.of_mul_left ((2 ^ j : Nat) : Int) ?_
      rw [← Nat.cast_mul]
      exact (Int.natCast_modEq_iff.2 (Nat.mod_modEq _ _))
    refine e1.trans ?_
    refine Int.ModEq.trans ?_ i1
    have : ((a * 3 ^ k * m0 : Nat) : Int) ≡ 0 [ZMOD (3 ^ k : Nat)] :=
      Int.modEq_zero_iff_dvd.2 ⟨(a * m0 : Nat), by push_cast; ring⟩
    simpa using this.add (Int.ModEq.refl ((b * 2 ^ j * m1 : Nat) : Int))

/-- At most one of the two Bezout coefficients is negative. -/
theorem not_both_negative (a b : Nat) (hc : Nat.Coprime a b) :
    0 ≤ (extendedGcd a b).1 ∨ 0 ≤ (extendedGcd b a).1 := by
  have key : ∀ a b : Nat, a < b → Nat.Coprime a b → 0 ≤ (extendedGcd a b).1 ∨ 0 ≤ (extendedGcd b a).1 := by
    intro a b h hc
    have hb := c18_bezout b a
    have e : (extendedGcd a b).1 = (extendedGcd b a).2 := by
      conv_lhs => rw [extendedGcd]
      rw [dif_neg (by omega), Nat.mod_eq_of_lt h]
    rw [e]
    by_contra hn
    push Not at hn
    rw [hc.symm] at hb
    have h1 : (extendedGcd b a).1 * (b : Int) ≤ 0 := Int.mul_nonpos_of_nonpos_of_nonneg hn.2.le (by omega)
    have h2 : (extendedGcd b a).2 * (a : Int) ≤ 0 := Int.mul_nonpos_of_nonpos_of_nonneg hn.1.le (by omega)
    push_cast at hb
    omega
  rcases Nat.lt_trichotomy a b with h | h | h
  · exact key a b h hc
  · subst h
    have : a = 1 := by simpa using hc
    subst this
    left
    rw [extendedGcd, dif_neg (by omega)]
    rw [extendedGcd]; simp
  · exact (key b a h hc.symm).symm

end PT
