import Verif.Model.NextFloat
import Verif.Model.Sampling
import Verif.Model.Spectrum
import Verif.Model.Texture
import Verif.Lemmas.Fl
import Mathlib.Tactic.NormNum

/-! # Utility functions (C62, C70–C73) -/

namespace PT

/-! ### C62 -/

/-- C62 -/
theorem c62_power_heuristic (a b : ℝ) (ha : 0 ≤ a) (hb : 0 ≤ b) (h : a ≠ 0 ∨ b ≠ 0) :
    powerHeuristic 1 a 1 b + powerHeuristic 1 b 1 a = 1 ∧
    0 ≤ powerHeuristic 1 a 1 b ∧ powerHeuristic 1 a 1 b ≤ 1 := by
  have hp : 0 < a * a + b * b := by
    rcases h with h | h
    · have := mul_self_pos.mpr h; nlinarith [mul_self_nonneg b]
    · have := mul_self_pos.mpr h; nlinarith [mul_self_nonneg a]
  have e : ∀ x y : ℝ, powerHeuristic 1 x 1 y = x * x / (x * x + y * y) := by
    intro x y; simp only [powerHeuristic]; real_ops; simp
  rw [e, e]
  refine ⟨?_, by positivity, ?_⟩
  · rw [add_comm (b * b) (a * a), ← add_div, div_self hp.ne']
  · rw [div_le_one hp]; nlinarith [mul_self_nonneg b]

example : (1 / 2 : ℝ) ≥ 0 ∧ (3 : ℝ) ≥ 0 ∧ ((1 / 2 : ℝ) ≠ 0 ∨ (3 : ℝ) ≠ 0) := by norm_num

/-- Interpolation runs from the first value to the second. -/
theorem lerp_runs (a b : ℝ) : lerp 0 a b = a ∧ lerp 1 a b = b ∧ ∀ t t', t ≤ t' → a ≤ b → lerp t a b ≤ lerp t' a b := by
  refine ⟨by simp only [lerp]; real_ops; simp, by simp only [lerp]; real_ops; simp, ?_⟩
  intro t t' h h'
  simp only [lerp]; real_ops
  nlinarith

/-- The same for colours, channel by channel. -/
theorem spectrum_lerp_runs (s t : Spectrum ℝ) (a : ℝ) :
    s.lerp t a = ⟨lerp a s.r t.r, lerp a s.g t.g, lerp a s.b t.b⟩ := by
  simp only [Spectrum.lerp, lerp, Spectrum.smul, Spectrum.add]; real_ops
  simp only [mul_comm]

/-- A quarter of the way from 2 to 6. -/
example : lerp (1 / 4 : ℝ) 2 6 = 3 := by simp only [lerp]; real_ops; norm_num

/-! ### C71 -/
section
variable {φ K : Type} [Field K] [LinearOrder K] [FloorRing K] [Rounding φ K]

/-- C71: on every float format.  `≤` and `<` are the IEEE comparisons. -/
theorem c71_clamp (x lo hi : Fl φ K) (h : Fl.le lo hi = true) :
    (x = .nan → clamp x lo hi = .nan) ∧
    (x ≠ .nan → Fl.le lo (clamp x lo hi) = true ∧ Fl.le (clamp x lo hi) hi = true) ∧
    (Fl.le lo x = true → Fl.le x hi = true → clamp x lo hi = x) ∧
    (Fl.lt x lo = true → clamp x lo hi = lo) ∧ (Fl.lt hi x = true → clamp x lo hi = hi) := by
  have hb := Fl.le_iff.mp h
  simp only [clamp, Fl.f_lt]
  refine ⟨?_, ?_, ?_, ?_, ?_⟩
  · rintro rfl; simp [Fl.lt]
    cases hi <;> simp [Fl.lt]
  · intro hx
    by_cases h1 : Fl.lt x lo = true
    · simp only [h1, if_true]; exact ⟨Fl.le_iff.mpr ⟨hb.1, hb.1, le_rfl⟩, h⟩
    · by_cases h2 : Fl.lt hi x = true
      · simp only [h1, h2, if_true, if_false]; exact ⟨h, Fl.le_iff.mpr ⟨hb.2.1, hb.2.1, le_rfl⟩⟩
      · simp only [h1, h2, if_false]
        rw [Fl.lt_iff] at h1 h2
        push Not at h1 h2
        exact ⟨Fl.le_iff.mpr ⟨hb.1, hx, h1 hx hb.1⟩, Fl.le_iff.mpr ⟨hx, hb.2.1, h2 hb.2.1 hx⟩⟩
  · intro h1 h2
    have a := Fl.le_iff.mp h1
    have b := Fl.le_iff.mp h2
    rw [if_neg, if_neg]
    · rw [Fl.lt_iff]; push Not; intro _ _; exact b.2.2
    · rw [Fl.lt_iff]; push Not; intro _ _; exact a.2.2
  · intro h1; rw [if_pos h1]
  · intro h1
    rw [if_neg, if_pos h1]
    rw [Fl.lt_iff] at h1 ⊢
    push Not
    intro _ _
    exact le_trans hb.2.2 h1.2.2.le

example : Fl.le (PT.lit 0 : F32) (PT.lit 1) = true ∧ clamp (lit 7 : F32) (lit 0) (lit 1) = lit 1 := by decide +kernel

end

/-! ### C72 -/

/-- C72, exact arithmetic. -/
theorem c72_quadratic (a b c : ℝ) (ha : a ≠ 0) (h : ¬(b = 0 ∧ c = 0)) :
    (quadratic a b c = none ↔ ¬ ∃ x : ℝ, a * x ^ 2 + b * x + c = 0) ∧
    (∀ t0 t1, quadratic a b c = some (t0, t1) →
      t0 ≤ t1 ∧ ∀ x : ℝ, a * x ^ 2 + b * x + c = a * (x - t0) * (x - t1)) := by
  set D := b * b - 4 * a * c with hD
  have key : 0 ≤ D → ∃ q, (if b < 0 then (-(1 / 2 : ℝ)) * (b - Real.sqrt D) else (-(1 / 2)) * (b + Real.sqrt D)) = q ∧
      q ≠ 0 ∧ ∀ x : ℝ, a * x ^ 2 + b * x + c = a * (x - q / a) * (x - c / q) := by
    intro h0
    have hs := Real.mul_self_sqrt h0
    have hs0 := Real.sqrt_nonneg D
    refine ⟨_, rfl, ?_, ?_⟩
    · split
      · intro e; nlinarith
      · intro e
        have hb : b = 0 := by nlinarith
        have hd : Real.sqrt D = 0 := by nlinarith
        rw [hd] at hs
        apply h
        refine ⟨hb, ?_⟩
        have : a * c = 0 := by rw [hD, hb] at hs; linarith
        exact (mul_eq_zero.mp this).resolve_left ha
    · intro x
      have hq : ∀ q : ℝ, q ≠ 0 → q ^ 2 + b * q + a * c = 0 → a * x ^ 2 + b * x + c = a * (x - q / a) * (x - c / q) := by
        intro q hq hr
        field_simp
        linear_combination x * hr
      split
      · apply hq
        · intro e; nlinarith
        · nlinarith
      · apply hq
        · intro e
          have hb : b = 0 := by nlinarith
          have hd : Real.sqrt D = 0 := by nlinarith
          rw [hd] at hs
          apply h
          refine ⟨hb, ?_⟩
          have : a * c = 0 := by rw [hD, hb] at hs; linarith
          exact (mul_eq_zero.mp this).resolve_left ha
        · nlinarith
  have hq : quadratic a b c = if D < 0 then none else
      let q := if b < 0 then (-(1 / 2 : ℝ)) * (b - Real.sqrt D) else (-(1 / 2)) * (b + Real.sqrt D)
      if q / a > c / q then some (c / q, q / a) else some (q / a, c / q) := by
    simp only [quadratic]
    real_ops
    simp only [hD]
  constructor
  · rw [hq]
    by_cases h0 : D < 0
    · simp only [h0, if_true, true_iff]
      rintro ⟨x, hx⟩
      have : (2 * a * x + b) ^ 2 = D := by rw [hD]; linear_combination 4 * a * hx
      nlinarith [sq_nonneg (2 * a * x + b)]
    · simp only [h0, if_false]
      obtain ⟨q, e, _, hr⟩ := key (not_lt.mp h0)
      rw [e]
      constructor
      · intro hn; split at hn <;> cases hn
      · intro hn; exact absurd ⟨c / q, by rw [hr]; ring⟩ hn
  · intro t0 t1 he
    rw [hq] at he
    by_cases h0 : D < 0
    · simp [h0] at he
    · simp only [h0, if_false] at he
      obtain ⟨q, e, _, hr⟩ := key (not_lt.mp h0)
      rw [e] at he
      split at he
      · cases he
        refine ⟨by linarith, fun x => by rw [hr]; ring⟩
      · cases he
        exact ⟨by linarith, hr⟩

example : (1 : ℝ) ≠ 0 ∧ ¬((-3 : ℝ) = 0 ∧ (2 : ℝ) = 0) := by norm_num

/-- C72, the excluded case, in double precision: `quadratic(1, 0, 0)` gives NaN for the second root, with any math library
in which √0 = 0. -/
theorem c72_degenerate [Libm F64] (hs : Libm.sqrt (PT.lit 0 : F64) = PT.lit 0) :
    quadratic (PT.lit 1 : F64) (PT.lit 0) (PT.lit 0) = some (⊖(PT.lit 0), .nan) := by
  have e : (PT.lit 0 : F64) *. PT.lit 0 -. PT.lit 4 *. PT.lit 1 *. PT.lit 0 = PT.lit 0 := by decide +kernel
  simp only [quadratic, e, hs]
  decide +kernel

/-! ### C73 -/
section
variable {φ K : Type} [Field K] [LinearOrder K] [IsStrictOrderedRing K] [FloorRing K] [Rounding φ K] {T : Type}

/-- The cell of a finite coordinate. -/
def Spec.cell (x : Fl φ K) : Int := ⌊x.val⌋

theorem tmod_two_wrap (n : Int) : Int.tmod (wrapI64 n) 2 = 0 ↔ Even n := by
  rw [← Int.dvd_iff_tmod_eq_zero]
  unfold wrapI64
  rw [Int.even_iff]
  omega

theorem toI64_floor {x : Fl φ K} (hx : x.IsFin) (hw : x.WF) (h : -2 ^ 63 ≤ Spec.cell x ∧ Spec.cell x < 2 ^ 63) :
    toI64 (Scalar.floor x) = Spec.cell x := by
  cases x with
  | nan => cases hx
  | inf s => cases hx
  | fin s a =>
    have ha : 0 ≤ a := hw.1
    have key : Fl.sgn s (((⌊Fl.sgn s a⌋).natAbs : K)) = ((⌊Fl.sgn s a⌋ : Int) : K) := by
      cases s
      · have : 0 ≤ ⌊a⌋ := Int.floor_nonneg.mpr ha
        simp only [Fl.sgn, Bool.false_eq_true, if_false]
        rw [← Int.cast_natCast, Int.natAbs_of_nonneg this]
      · have : ⌊-a⌋ ≤ 0 := by
          have : ((⌊-a⌋ : Int) : K) ≤ -a := Int.floor_le _
          have h2 : ((⌊-a⌋ : Int) : K) ≤ 0 := by linarith
          exact_mod_cast h2
        simp only [Fl.sgn, if_true]
        rw [← Int.cast_natCast, Int.ofNat_natAbs_of_nonpos this]
        push_cast
        ring
    change satInt (truncInt (Fl.sgn s (((⌊Fl.sgn s a⌋).natAbs : K)))) (-2 ^ 63) (2 ^ 63 - 1) = ⌊Fl.sgn s a⌋
    rw [key]
    have ht : truncInt ((⌊Fl.sgn s a⌋ : Int) : K) = ⌊Fl.sgn s a⌋ := by
      unfold truncInt; split <;> simp
    rw [ht]
    have h' : -2 ^ 63 ≤ ⌊Fl.sgn s a⌋ ∧ ⌊Fl.sgn s a⌋ < 2 ^ 63 := h
    unfold satInt
    split
    · omega
    · split <;> omega

/-- C73, two dimensions, on every float format. -/
theorem c73_checkerboard (mapping : Interaction (Fl φ K) → V2 (Fl φ K)) (t1 t2 : T) (i : Interaction (Fl φ K))
    (hx : (mapping i).x.IsFin) (hy : (mapping i).y.IsFin) (wx : (mapping i).x.WF) (wy : (mapping i).y.WF)
    (rx : -2 ^ 63 ≤ Spec.cell (mapping i).x ∧ Spec.cell (mapping i).x < 2 ^ 63)
    (ry : -2 ^ 63 ≤ Spec.cell (mapping i).y ∧ Spec.cell (mapping i).y < 2 ^ 63) :
    checkerboard mapping t1 t2 i = if Even (Spec.cell (mapping i).x + Spec.cell (mapping i).y) then t1 else t2 := by
  simp only [checkerboard, toI64_floor hx wx rx, toI64_floor hy wy ry, tmod_two_wrap]

theorem wrapI64_even (m n : Int) : Even (wrapI64 m + n) ↔ Even (m + n) := by
  unfold wrapI64; rw [Int.even_iff, Int.even_iff]; omega

/-- C73, three dimensions. -/
theorem c73_checkerboard3D (mapping : Interaction (Fl φ K) → V3 (Fl φ K)) (t1 t2 : T) (i : Interaction (Fl φ K))
    (hx : (mapping i).x.IsFin) (hy : (mapping i).y.IsFin) (hz : (mapping i).z.IsFin)
    (wx : (mapping i).x.WF) (wy : (mapping i).y.WF) (wz : (mapping i).z.WF)
    (rx : -2 ^ 63 ≤ Spec.cell (mapping i).x ∧ Spec.cell (mapping i).x < 2 ^ 63)
    (ry : -2 ^ 63 ≤ Spec.cell (mapping i).y ∧ Spec.cell (mapping i).y < 2 ^ 63)
    (rz : -2 ^ 63 ≤ Spec.cell (mapping i).z ∧ Spec.cell (mapping i).z < 2 ^ 63) :
    checkerboard3D mapping t1 t2 i =
      if Even (Spec.cell (mapping i).x + Spec.cell (mapping i).y + Spec.cell (mapping i).z) then t1 else t2 := by
  simp only [checkerboard3D, toI64_floor hx wx rx, toI64_floor hy wy ry, toI64_floor hz wz rz, tmod_two_wrap, wrapI64_even]

/-- C73: one cell further in the first coordinate shows the other texture (by symmetry of the sum, likewise for the
others). -/
theorem c73_alternates (mapping : Interaction (Fl φ K) → V2 (Fl φ K)) (t1 t2 : T) (ht : t1 ≠ t2)
    (i j : Interaction (Fl φ K))
    (hi : ∀ k ∈ [i, j], (mapping k).x.IsFin ∧ (mapping k).y.IsFin ∧ (mapping k).x.WF ∧ (mapping k).y.WF ∧
      (-2 ^ 63 ≤ Spec.cell (mapping k).x ∧ Spec.cell (mapping k).x < 2 ^ 63) ∧
      (-2 ^ 63 ≤ Spec.cell (mapping k).y ∧ Spec.cell (mapping k).y < 2 ^ 63))
    (hj : (Spec.cell (mapping j).x = Spec.cell (mapping i).x + 1 ∧ Spec.cell (mapping j).y = Spec.cell (mapping i).y) ∨
      (Spec.cell (mapping j).x = Spec.cell (mapping i).x ∧ Spec.cell (mapping j).y = Spec.cell (mapping i).y + 1)) :
    checkerboard mapping t1 t2 i ≠ checkerboard mapping t1 t2 j := by
  obtain ⟨a1, a2, a3, a4, a5, a6⟩ := hi i (by simp)
  obtain ⟨b1, b2, b3, b4, b5, b6⟩ := hi j (by simp)
  rw [c73_checkerboard _ _ _ _ a1 a2 a3 a4 a5 a6, c73_checkerboard _ _ _ _ b1 b2 b3 b4 b5 b6]
  have : Even (Spec.cell (mapping j).x + Spec.cell (mapping j).y) ↔
      ¬ Even (Spec.cell (mapping i).x + Spec.cell (mapping i).y) := by
    rw [Int.even_iff, Int.even_iff]; rcases hj with h | h <;> omega
  by_cases h : Even (Spec.cell (mapping i).x + Spec.cell (mapping i).y)
  · simp only [this, h, not_true, if_true, if_false]; exact ht
  · simp only [this, h, not_false_iff, if_true, if_false]; exact ht.symm

/-- C73, three dimensions: one cell further in any one coordinate shows the other texture. -/
theorem c73_alternates3D (mapping : Interaction (Fl φ K) → V3 (Fl φ K)) (t1 t2 : T) (ht : t1 ≠ t2)
    (i j : Interaction (Fl φ K))
    (hi : ∀ k ∈ [i, j], ∀ a : Axis, ((mapping k).get a).IsFin ∧ ((mapping k).get a).WF ∧
      (-2 ^ 63 ≤ Spec.cell ((mapping k).get a) ∧ Spec.cell ((mapping k).get a) < 2 ^ 63))
    (a : Axis) (hj : Spec.cell ((mapping j).get a) = Spec.cell ((mapping i).get a) + 1)
    (hj' : ∀ b ≠ a, Spec.cell ((mapping j).get b) = Spec.cell ((mapping i).get b)) :
    checkerboard3D mapping t1 t2 i ≠ checkerboard3D mapping t1 t2 j := by
  have ei := c73_checkerboard3D mapping t1 t2 i (hi i (by simp) .X).1 (hi i (by simp) .Y).1 (hi i (by simp) .Z).1
    (hi i (by simp) .X).2.1 (hi i (by simp) .Y).2.1 (hi i (by simp) .Z).2.1
    (hi i (by simp) .X).2.2 (hi i (by simp) .Y).2.2 (hi i (by simp) .Z).2.2
  have ej := c73_checkerboard3D mapping t1 t2 j (hi j (by simp) .X).1 (hi j (by simp) .Y).1 (hi j (by simp) .Z).1
    (hi j (by simp) .X).2.1 (hi j (by simp) .Y).2.1 (hi j (by simp) .Z).2.1
    (hi j (by simp) .X).2.2 (hi j (by simp) .Y).2.2 (hi j (by simp) .Z).2.2
  rw [ei, ej]
  have hx := hj' .X
  have hy := hj' .Y
  have hz := hj' .Z
  simp only [V3.get] at hx hy hz
  have : Even (Spec.cell (mapping j).x + Spec.cell (mapping j).y + Spec.cell (mapping j).z) ↔
      ¬ Even (Spec.cell (mapping i).x + Spec.cell (mapping i).y + Spec.cell (mapping i).z) := by
    rw [Int.even_iff, Int.even_iff]
    cases a <;> simp only [V3.get, ne_eq, reduceCtorEq, not_false_eq_true, forall_const, not_true, IsEmpty.forall_iff] at * <;> omega
  by_cases h : Even (Spec.cell (mapping i).x + Spec.cell (mapping i).y + Spec.cell (mapping i).z)
  · simp only [this, h, not_true, if_true, if_false]; exact ht
  · simp only [this, h, not_false_iff, if_true, if_false]; exact ht.symm

end

/-- Non-vacuity of C73: the cell of -0.25 is -1 (not 0). -/
example : Spec.cell (lit (-1 / 4) : F32) = -1 ∧ (lit (-1 / 4) : F32).IsFin ∧ (lit (-1 / 4) : F32).WF := by
  have : (lit (-1 / 4) : F32) = .fin true (1 / 4) := by decide +kernel
  rw [this]
  exact ⟨by decide +kernel, trivial, by norm_num, by decide +kernel⟩

/-! ### C70 -/

/-- The floats are exactly the patterns. -/
theorem wf_pattern {s : Bool} {a : ℚ} (h : (Fl.fin s a : F32).WF) :
    ∃ k, k < 0x7f800000 ∧ a = (sval 23 k : ℚ) / 2 ^ 149 := by
  obtain ⟨_, h2⟩ := h
  rw [show Rounding.rnd Binary32 a = Bin.rnd 23 149 0x7f800000 31 a from rfl, Bin.rnd_some] at h2
  obtain ⟨h3, h4⟩ := h2
  exact ⟨_, h3, h4⟩

/-- The float with sign `s` and pattern `k` (`k = 0x7f800000` is infinity). -/
def pat (s : Bool) (k : ℕ) : F32 := if k < 0x7f800000 then .fin s ((sval 23 k : ℚ) / 2 ^ 149) else .inf s

theorem exists_pat {x : F32} (h : x.WF) (hn : x ≠ .nan) : ∃ s k, k ≤ 0x7f800000 ∧ x = pat s k := by
  cases x with
  | nan => exact absurd rfl hn
  | inf s => exact ⟨s, 0x7f800000, le_rfl, by simp [pat]⟩
  | fin s a =>
    obtain ⟨k, hk, rfl⟩ := wf_pattern h
    exact ⟨s, k, hk.le, by simp [pat, hk]⟩

theorem toBits_pat {s : Bool} {k : ℕ} (h : k ≤ 0x7f800000) : toBits (pat s k) = (if s then 2 ^ 31 else 0) + k := by
  unfold pat
  split
  · rename_i hk
    simp only [toBits]
    rw [div_mul_cancel₀ _ (by positivity), ordRound_exact]
    omega
  · have : k = 0x7f800000 := by omega
    simp [toBits, this]

theorem ofBits_pat {s : Bool} {k : ℕ} (h : k ≤ 0x7f800000) : ofBits ((if s then 2 ^ 31 else 0) + k) = pat s k := by
  have e1 : decide (2 ^ 31 ≤ (if s then 2 ^ 31 else 0) + k) = s := by
    cases s <;> simp <;> omega
  have e2 : ((if s then 2 ^ 31 else 0) + k) % 2 ^ 31 = k := by
    cases s <;> simp <;> omega
  simp only [ofBits, e1, e2, pat]
  split
  · rfl
  · rw [if_pos (by omega)]

/-- Position of a float on the integer line: patterns, negated for negative floats. -/
def posn (s : Bool) (k : ℕ) : Int := if s then -k else k

theorem sgn_div (s : Bool) (k : ℕ) : Fl.sgn s ((sval 23 k : ℚ) / 2 ^ 149) = Fl.sgn s (sval 23 k : ℚ) / 2 ^ 149 := by
  cases s <;> simp [Fl.sgn, neg_div]

theorem sval_pos {k : ℕ} (h : 0 < k) : (0 : ℚ) < sval 23 k := by
  have := sval_strictMono 23 h; rw [sval_zero] at this; exact_mod_cast this

theorem sgn_lt {s t : Bool} {j k : ℕ} : Fl.sgn s (sval 23 j : ℚ) < Fl.sgn t (sval 23 k : ℚ) ↔ posn s j < posn t k := by
  have e := sval_lt_iff 23
  have n : ∀ k, (0 : ℚ) ≤ sval 23 k := fun k => by positivity
  have z : ∀ k, (sval 23 k : ℚ) = 0 ↔ k = 0 := by
    intro k
    constructor
    · intro h; by_contra hk; have := sval_pos (Nat.pos_of_ne_zero hk); linarith
    · rintro rfl; simp [sval_zero]
  cases s <;> cases t <;> simp only [Fl.sgn, posn, Bool.false_eq_true, if_false, if_true]
  · rw [e]; simp
  · constructor
    · intro h; have := n j; have := n k; linarith
    · intro h; omega
  · constructor
    · intro h
      by_contra hc
      have h1 : j = 0 := by omega
      have h2 : k = 0 := by omega
      rw [(z j).2 h1, (z k).2 h2] at h; simp at h
    · intro h
      have h1 := n j
      have h2 := n k
      rcases Nat.eq_zero_or_pos j with hj | hj
      · have := sval_pos (show 0 < k by omega); linarith
      · have := sval_pos hj; linarith
  · rw [neg_lt_neg_iff, e]; simp

theorem pat_lt {s t : Bool} {j k : ℕ} (hj : j ≤ 0x7f800000) (hk : k ≤ 0x7f800000) :
    Fl.lt (pat s j) (pat t k) = true ↔ posn s j < posn t k := by
  unfold pat
  split <;> split
  · rw [Fl.lt_fin, sgn_div, sgn_div, div_lt_div_iff_of_pos_right (by positivity), sgn_lt]
  · have : k = 0x7f800000 := by omega
    subst this
    cases t <;> cases s <;> simp [Fl.lt, posn] <;> omega
  · have : j = 0x7f800000 := by omega
    subst this
    cases t <;> cases s <;> simp [Fl.lt, posn] <;> omega
  · have : k = 0x7f800000 := by omega
    have : j = 0x7f800000 := by omega
    subst j; subst k
    cases t <;> cases s <;> simp [Fl.lt, posn]

theorem pat_ne_nan (s : Bool) (k : ℕ) : pat s k ≠ .nan := by unfold pat; split <;> simp

theorem le_iff_not_lt {a b : F32} (ha : a ≠ .nan) (hb : b ≠ .nan) : Fl.le a b = true ↔ ¬ Fl.lt b a = true := by
  rw [Fl.le_iff, Fl.lt_iff]
  constructor
  · rintro ⟨_, _, h⟩ ⟨_, _, h'⟩; exact absurd h' (not_lt.mpr h)
  · intro h; exact ⟨ha, hb, not_lt.mp fun h' => h ⟨hb, ha, h'⟩⟩

theorem pat_le {s t : Bool} {j k : ℕ} (hj : j ≤ 0x7f800000) (hk : k ≤ 0x7f800000) :
    Fl.le (pat s j) (pat t k) = true ↔ posn s j ≤ posn t k := by
  rw [le_iff_not_lt (pat_ne_nan _ _) (pat_ne_nan _ _), pat_lt hk hj, not_lt]

theorem pat_zero (s : Bool) : pat s 0 = .fin s 0 := by simp [pat, sval_zero]

theorem pat_eq {s t : Bool} {j k : ℕ} (hj : j ≤ 0x7f800000) (hk : k ≤ 0x7f800000) :
    Fl.eq (pat s j) (pat t k) = true ↔ posn s j = posn t k := by
  have : Fl.eq (pat s j) (pat t k) = true ↔ Fl.le (pat s j) (pat t k) = true ∧ Fl.le (pat t k) (pat s j) = true := by
    rw [Fl.eq_iff, Fl.le_iff, Fl.le_iff]
    constructor
    · rintro ⟨a, b, c⟩; exact ⟨⟨a, b, c.le⟩, b, a, c.ge⟩
    · rintro ⟨⟨a, b, c⟩, _, _, d⟩; exact ⟨a, b, le_antisymm c d⟩
  rw [this, pat_le hj hk, pat_le hk hj]
  exact ⟨fun h => le_antisymm h.1 h.2, fun h => ⟨h.le, h.ge⟩⟩

theorem pat_wf {s : Bool} {k : ℕ} : (pat s k).WF := by
  unfold pat
  split
  · rename_i h
    refine ⟨by positivity, ?_⟩
    change Bin.rnd 23 149 0x7f800000 31 _ = _
    rw [Bin.rnd_some]
    have : ordRound 23 31 ((sval 23 k : ℚ) / 2 ^ 149 * 2 ^ 149) = k := by
      rw [div_mul_cancel₀ _ (by positivity), ordRound_exact]; omega
    rw [this]
    exact ⟨h, rfl⟩
  · trivial

theorem pat_isInf {s : Bool} {k : ℕ} (h : k ≤ 0x7f800000) : Fl.isInf (pat s k) = decide (k = 0x7f800000) := by
  unfold pat
  split
  · rename_i hk; simp [Fl.isInf]; omega
  · have : k = 0x7f800000 := by omega
    simp [Fl.isInf, this]

/-- What `next_float_up` does on patterns. -/
theorem nextUp_pat {s : Bool} {k : ℕ} (h : k ≤ 0x7f800000) (hi : ¬(s = false ∧ k = 0x7f800000)) :
    nextFloatUp (pat s k) = if s = true ∧ k ≠ 0 then pat true (k - 1) else pat false (k + 1) := by
  have z : (PT.lit 0 : F32) = pat false 0 := by rw [pat_zero, Fl.lit_zero]
  have nz : (⊖(PT.lit 0) : F32) = pat true 0 := by rw [pat_zero, Fl.lit_zero]; rfl
  have hz : (0 : ℕ) ≤ 0x7f800000 := by omega
  have c1 : (Scalar.isInf (pat s k) && (pat s k >. PT.lit 0)) = false := by
    rw [Bool.and_eq_false_iff]
    by_cases hk : k = 0x7f800000
    · right
      rw [z, Fl.f_lt, ← Bool.not_eq_true, pat_lt hz h]
      cases s
      · exact absurd ⟨rfl, hk⟩ hi
      · simp [posn]
    · left; rw [Fl.f_isInf, pat_isInf h]; simp [hk]
  unfold nextFloatUp
  rw [c1]
  simp only [Bool.false_eq_true, if_false]
  by_cases hk0 : k = 0
  · subst hk0
    have c2 : (pat s 0 ==. ⊖(PT.lit 0)) = true := by
      rw [nz, Fl.f_eq, pat_eq hz hz]; cases s <;> simp [posn]
    have c3 : (pat false 0 >=. pat false 0) = true := by rw [Fl.f_le, pat_le hz hz]
    simp only [c2, if_true]
    rw [z, c3, if_pos rfl, toBits_pat hz]
    have : ((if false = true then 2 ^ 31 else 0) + 0 + 1) % 2 ^ 32 = (if false = true then 2 ^ 31 else 0) + 1 := by norm_num
    rw [this, ofBits_pat (by omega)]
    simp
  · have c2 : (pat s k ==. ⊖(PT.lit 0)) = false := by
      rw [nz, Fl.f_eq, ← Bool.not_eq_true, pat_eq h hz]; cases s <;> simp [posn, hk0]
    simp only [c2, Bool.false_eq_true, if_false]
    rw [z, Fl.f_le]
    cases s
    · have c3 : Fl.le (pat false 0) (pat false k) = true := by rw [pat_le hz h]; simp [posn]
      have hk1 : k + 1 ≤ 0x7f800000 := by
        rcases Nat.lt_or_ge k 0x7f800000 with h' | h'
        · exact h'
        · exact absurd ⟨rfl, by omega⟩ hi
      have : ((if false = true then 2 ^ 31 else 0) + k + 1) % 2 ^ 32 = (if false = true then 2 ^ 31 else 0) + (k + 1) := by
        simp; omega
      rw [c3, if_pos rfl, toBits_pat h, this, ofBits_pat hk1]
      simp
    · have c3 : Fl.le (pat false 0) (pat true k) = false := by
        rw [← Bool.not_eq_true, pat_le hz h]; simp [posn]; omega
      have : ((if true = true then 2 ^ 31 else 0) + k + (2 ^ 32 - 1)) % 2 ^ 32 =
          (if true = true then 2 ^ 31 else 0) + (k - 1) := by
        simp; omega
      rw [c3]
      simp only [Bool.false_eq_true, if_false]
      rw [toBits_pat h, this, ofBits_pat (by omega)]
      simp [hk0]

/-- What `next_float_down` does on patterns. -/
theorem nextDown_pat {s : Bool} {k : ℕ} (h : k ≤ 0x7f800000) (hi : ¬(s = true ∧ k = 0x7f800000)) :
    nextFloatDown (pat s k) = if s = false ∧ k ≠ 0 then pat false (k - 1) else pat true (k + 1) := by
  have z : (PT.lit 0 : F32) = pat false 0 := by rw [pat_zero, Fl.lit_zero]
  have nz : (⊖(PT.lit 0) : F32) = pat true 0 := by rw [pat_zero, Fl.lit_zero]; rfl
  have hz : (0 : ℕ) ≤ 0x7f800000 := by omega
  have c1 : (Scalar.isInf (pat s k) && (pat s k <. PT.lit 0)) = false := by
    rw [Bool.and_eq_false_iff]
    by_cases hk : k = 0x7f800000
    · right
      rw [z, Fl.f_lt, ← Bool.not_eq_true, pat_lt h hz]
      cases s
      · simp [posn]
      · exact absurd ⟨rfl, hk⟩ hi
    · left; rw [Fl.f_isInf, pat_isInf h]; simp [hk]
  unfold nextFloatDown
  rw [c1]
  simp only [Bool.false_eq_true, if_false]
  by_cases hk0 : k = 0
  · subst hk0
    have c2 : (pat s 0 ==. PT.lit 0) = true := by
      rw [z, Fl.f_eq, pat_eq hz hz]; cases s <;> simp [posn]
    have c3 : (pat true 0 <=. pat false 0) = true := by rw [Fl.f_le, pat_le hz hz]; simp [posn]
    simp only [c2, if_true]
    rw [nz, z, c3, if_pos rfl, toBits_pat hz]
    have : ((if true = true then 2 ^ 31 else 0) + 0 + 1) % 2 ^ 32 = (if true = true then 2 ^ 31 else 0) + 1 := by norm_num
    rw [this, ofBits_pat (by omega)]
    simp
  · have c2 : (pat s k ==. PT.lit 0) = false := by
      rw [z, Fl.f_eq, ← Bool.not_eq_true, pat_eq h hz]; cases s <;> simp [posn, hk0]
    simp only [c2, Bool.false_eq_true, if_false]
    rw [z, Fl.f_le]
    cases s
    · have c3 : Fl.le (pat false k) (pat false 0) = false := by
        rw [← Bool.not_eq_true, pat_le h hz]; simp [posn]; omega
      have : ((if false = true then 2 ^ 31 else 0) + k + (2 ^ 32 - 1)) % 2 ^ 32 =
          (if false = true then 2 ^ 31 else 0) + (k - 1) := by
        simp; omega
      rw [c3]
      simp only [Bool.false_eq_true, if_false]
      rw [toBits_pat h, this, ofBits_pat (by omega)]
      simp [hk0]
    · have c3 : Fl.le (pat true k) (pat false 0) = true := by rw [pat_le h hz]; simp [posn]
      have hk1 : k + 1 ≤ 0x7f800000 := by
        rcases Nat.lt_or_ge k 0x7f800000 with h' | h'
        · exact h'
        · exact absurd ⟨rfl, by omega⟩ hi
      have : ((if true = true then 2 ^ 31 else 0) + k + 1) % 2 ^ 32 = (if true = true then 2 ^ 31 else 0) + (k + 1) := by
        simp; omega
      rw [c3, if_pos rfl, toBits_pat h, this, ofBits_pat hk1]
      simp

/-- C70, upwards: the least float above. -/
theorem c70_next_up (x : F32) (hw : x.WF) (hn : x ≠ .nan) (hi : x ≠ .inf false) :
    (nextFloatUp x).WF ∧ Fl.lt x (nextFloatUp x) = true ∧
    ∀ z : F32, z.WF → Fl.lt x z = true → Fl.le (nextFloatUp x) z = true := by
  obtain ⟨s, k, hk, rfl⟩ := exists_pat hw hn
  have hi' : ¬(s = false ∧ k = 0x7f800000) := by
    rintro ⟨rfl, rfl⟩; apply hi; simp [pat]
  have hk1 : ¬(s = true ∧ k ≠ 0) → k + 1 ≤ 0x7f800000 := by
    intro h
    rcases Nat.lt_or_ge k 0x7f800000 with h' | h'
    · exact h'
    · cases s
      · exact absurd ⟨rfl, by omega⟩ hi'
      · exact absurd ⟨rfl, by omega⟩ h
  rw [nextUp_pat hk hi']
  refine ⟨by split <;> exact pat_wf, ?_, ?_⟩
  · split
    · rename_i h; rw [pat_lt hk (by omega), h.1]; simp [posn]; omega
    · rename_i h; rw [pat_lt hk (hk1 h)]; cases s <;> simp [posn]
  · intro z hz hlt
    have hzn := (Fl.lt_iff.mp hlt).2.1
    obtain ⟨t, j, hj, rfl⟩ := exists_pat hz hzn
    rw [pat_lt hk hj] at hlt
    split
    · rename_i h; rw [pat_le (by omega) hj]; obtain ⟨rfl, h⟩ := h; cases t <;> simp [posn] at * <;> omega
    · rename_i h; rw [pat_le (hk1 h) hj]
      cases s
      · cases t <;> simp [posn] at * <;> omega
      · have : k = 0 := by by_contra hc; exact h ⟨rfl, hc⟩
        subst this
        cases t <;> simp [posn] at * <;> omega

/-- C70, downwards: the greatest float below. -/
theorem c70_next_down (x : F32) (hw : x.WF) (hn : x ≠ .nan) (hi : x ≠ .inf true) :
    (nextFloatDown x).WF ∧ Fl.lt (nextFloatDown x) x = true ∧
    ∀ z : F32, z.WF → Fl.lt z x = true → Fl.le z (nextFloatDown x) = true := by
  obtain ⟨s, k, hk, rfl⟩ := exists_pat hw hn
  have hi' : ¬(s = true ∧ k = 0x7f800000) := by
    rintro ⟨rfl, rfl⟩; apply hi; simp [pat]
  have hk1 : ¬(s = false ∧ k ≠ 0) → k + 1 ≤ 0x7f800000 := by
    intro h
    rcases Nat.lt_or_ge k 0x7f800000 with h' | h'
    · exact h'
    · cases s
      · exact absurd ⟨rfl, by omega⟩ h
      · exact absurd ⟨rfl, by omega⟩ hi'
  rw [nextDown_pat hk hi']
  refine ⟨by split <;> exact pat_wf, ?_, ?_⟩
  · split
    · rename_i h; rw [pat_lt (by omega) hk, h.1]; simp [posn]; omega
    · rename_i h; rw [pat_lt (hk1 h) hk]; cases s <;> simp [posn]; omega
  · intro z hz hlt
    have hzn := (Fl.lt_iff.mp hlt).1
    obtain ⟨t, j, hj, rfl⟩ := exists_pat hz hzn
    rw [pat_lt hj hk] at hlt
    split
    · rename_i h; rw [pat_le hj (by omega)]; obtain ⟨rfl, h⟩ := h; cases t <;> simp [posn] at * <;> omega
    · rename_i h; rw [pat_le hj (hk1 h)]
      cases s
      · have : k = 0 := by by_contra hc; exact h ⟨rfl, hc⟩
        subst this
        cases t <;> simp [posn] at * <;> omega
      · cases t <;> simp [posn] at * <;> omega

/-- C70: infinities in their own direction are fixed. -/
theorem c70_fixed : nextFloatUp (.inf false) = .inf false ∧ nextFloatDown (.inf true) = .inf true := by
  constructor <;> decide +kernel

/-- C70: going up and down again (or down and up) returns to the same number for every non-zero float the first step
moves, and to zero from zero. -/
theorem c70_inverse (x : F32) (hw : x.WF) (hn : x ≠ .nan) :
    (x ≠ .inf false → Fl.eq (nextFloatDown (nextFloatUp x)) x = true ∧
      (x ≠ .fin true 0 → nextFloatDown (nextFloatUp x) = x)) ∧
    (x ≠ .inf true → Fl.eq (nextFloatUp (nextFloatDown x)) x = true ∧
      (x ≠ .fin false 0 → nextFloatUp (nextFloatDown x) = x)) := by
  obtain ⟨s, k, hk, rfl⟩ := exists_pat hw hn
  constructor
  · intro hi
    have hi' : ¬(s = false ∧ k = 0x7f800000) := by
      rintro ⟨rfl, rfl⟩; apply hi; simp [pat]
    have key : nextFloatDown (nextFloatUp (pat s k)) = if k = 0 then pat false 0 else pat s k := by
      rw [nextUp_pat hk hi']
      split
      · rename_i h
        obtain ⟨rfl, h⟩ := h
        rw [nextDown_pat (by omega) (by omega), if_neg (by simp), if_neg h]
        congr 1; omega
      · rename_i h
        have hk1 : k + 1 ≤ 0x7f800000 := by
          rcases Nat.lt_or_ge k 0x7f800000 with h' | h'
          · exact h'
          · cases s
            · exact absurd ⟨rfl, by omega⟩ hi'
            · exact absurd ⟨rfl, by omega⟩ h
        rw [nextDown_pat hk1 (by simp), if_pos (by simp)]
        split
        · subst k; rfl
        · cases s
          · rfl
          · rename_i h0; exact absurd ⟨rfl, h0⟩ h
    rw [key]
    split
    · rename_i h0
      subst h0
      refine ⟨by rw [pat_eq hk hk]; cases s <;> simp [posn], ?_⟩
      intro h; cases s
      · rfl
      · rw [pat_zero] at h; exact absurd rfl h
    · exact ⟨by rw [pat_eq hk hk], fun _ => rfl⟩
  · intro hi
    have hi' : ¬(s = true ∧ k = 0x7f800000) := by
      rintro ⟨rfl, rfl⟩; apply hi; simp [pat]
    have key : nextFloatUp (nextFloatDown (pat s k)) = if k = 0 then pat true 0 else pat s k := by
      rw [nextDown_pat hk hi']
      split
      · rename_i h
        obtain ⟨rfl, h⟩ := h
        rw [nextUp_pat (by omega) (by omega), if_neg (by simp), if_neg h]
        congr 1; omega
      · rename_i h
        have hk1 : k + 1 ≤ 0x7f800000 := by
          rcases Nat.lt_or_ge k 0x7f800000 with h' | h'
          · exact h'
          · cases s
            · exact absurd ⟨rfl, by omega⟩ h
            · exact absurd ⟨rfl, by omega⟩ hi'
        rw [nextUp_pat hk1 (by simp), if_pos (by simp)]
        split
        · subst k; rfl
        · cases s
          · rename_i h0; exact absurd ⟨rfl, h0⟩ h
          · rfl
    rw [key]
    split
    · rename_i h0
      subst h0
      refine ⟨by rw [pat_eq hk hk]; cases s <;> simp [posn], ?_⟩
      intro h; cases s
      · rw [pat_zero] at h; exact absurd rfl h
      · rfl
    · exact ⟨by rw [pat_eq hk hk], fun _ => rfl⟩

/-- Non-vacuity of C70: one. -/
example : (lit 1 : F32).WF ∧ (lit 1 : F32) ≠ .nan ∧ (lit 1 : F32) ≠ .inf false ∧
    nextFloatUp (lit 1) = .fin false (1 + 1 / 2 ^ 23) := by
  have : (lit 1 : F32) = .fin false 1 := by decide +kernel
  rw [this]
  exact ⟨⟨by norm_num, by decide +kernel⟩, by simp, by simp, by decide +kernel⟩

end PT
