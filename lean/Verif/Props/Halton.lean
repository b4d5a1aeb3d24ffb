import Verif.Lemmas.FlMono
import Verif.Lemmas.Digits
import Verif.Lemmas.Fl
import Verif.Lemmas.FilmReal

/-!
# The Halton sampler (C15 – C19)
-/

namespace PT

/-! ### C15 -/

section C15
variable {φ K : Type} [Field K] [LinearOrder K] [IsStrictOrderedRing K] [FloorRing K] [Rounding φ K]

theorem Fl.div_nan_or_NN {a b : Fl φ K} (ha : a.NN) (hb : b.FinNN) (hs : ∀ s m, b = .fin s m → s = false) :
    div a b = nan ∨ (div a b).NN := by
  obtain ⟨hb1, hb2⟩ := hb
  cases b with
  | nan => exact hb1.elim
  | inf t => exact hb1.elim
  | fin t b =>
    obtain rfl := hs t b rfl
    cases a with
    | nan => exact ha.elim
    | inf s => right; obtain rfl : s = false := ha; rfl
    | fin s a =>
      unfold div
      by_cases h0 : b = 0
      · simp only [h0, if_true]
        by_cases h1 : a = 0
        · simp [h1]
        · right; simp only [h1, if_false]
          rcases sgn_nonneg ha.1 ha.2 with rfl | h
          · rfl
          · exact absurd h h1
      · right
        simp only [h0, if_false]
        refine ofMag_NN (div_nonneg ha.1 hb2.1) ?_
        rcases sgn_nonneg ha.1 ha.2 with rfl | h
        · exact Or.inl rfl
        · right; rw [h, zero_div]

end C15

/-- The value of the constant `ONE_MINUS_EPSILON` in single precision. -/
theorem oneMinusEpsilon_f32 : (oneMinusEpsilon : F32) = .fin false (1 - 1 / 2 ^ 23) := by decide +kernel

theorem Bin32.rnd_le_big {x : ℚ} (h0 : 0 ≤ x) (h : x ≤ 2 ^ 32) : ∃ m, Rounding.rnd Binary32 x = some m ∧ 0 ≤ m := by
  have hb : Rounding.rnd Binary32 ((2 : ℚ) ^ 32) = some (2 ^ 32) := by decide +kernel
  obtain ⟨m, hm, _⟩ := Rounding.rnd_mono x (2 ^ 32) _ h0 h hb
  exact ⟨m, hm, Rounding.rnd_nonneg _ _ h0 hm⟩

theorem ofInt_u32 (n : Nat) (h : n ≤ 2 ^ 32) : ∃ m, (ofInt (n : Int) : F32) = .fin false m ∧ 0 ≤ m := by
  have e : ((((n : Int) : ℚ) : ℚ)) = (n : ℚ) := by push_cast; rfl
  unfold ofInt
  rw [Fl.f_lit]
  unfold Fl.ofVal
  simp only [Rat.cast_id, e]
  split_ifs with h0 h1
  · exact ⟨0, rfl, le_rfl⟩
  · exact absurd h1 (not_lt.2 (by positivity))
  · obtain ⟨m, hm, hm0⟩ := Bin32.rnd_le_big (x := (n : ℚ)) (by positivity) (by exact_mod_cast h)
    rw [hm]
    exact ⟨m, rfl, hm0⟩

theorem radicalLoop_lt (b : Nat) : ∀ (a x N : Nat), x < 2 ^ 32 → N < 2 ^ 32 →
    (radicalLoop b a x N).1 < 2 ^ 32 ∧ (radicalLoop b a x N).2 < 2 ^ 32 := by
  intro a
  induction a using Nat.strong_induction_on with
  | _ a ih =>
    intro x N hx hN
    unfold radicalLoop
    split_ifs with h
    · exact ih _ (Nat.div_lt_self h.1 h.2) _ _ (u32_lt _) (u32_lt _)
    · exact ⟨hx, hN⟩

/-- The coordinate is a finite single precision number in `[0, 1 - 2⁻²³]`. -/
def Spec.InUnit (x : F32) : Prop := x.IsFin ∧ 0 ≤ x.val ∧ x.val ≤ 1 - 1 / 2 ^ 23 ∧ x.WF

theorem radicalInverse_range (base a : Nat) : Spec.InUnit (radicalInverse base a : F32) := by
  have h := radicalLoop_lt base a 0 1 (by norm_num) (by norm_num)
  unfold radicalInverse
  simp only [oneMinusEpsilon_f32, Fl.f_min, Fl.f_div]
  obtain ⟨m, hm, hm0⟩ := ofInt_u32 (radicalLoop base a 0 1).1 h.1.le
  obtain ⟨n, hn, hn0⟩ := ofInt_u32 (radicalLoop base a 0 1).2 h.2.le
  simp only [hm, hn]
  have hone : Spec.InUnit (.fin false (1 - 1 / 2 ^ 23) : F32) :=
    ⟨trivial, by norm_num [Fl.val, Fl.sgn], by norm_num [Fl.val, Fl.sgn], by norm_num, by decide +kernel⟩
  have hwf : (Fl.div (Fl.fin false m : F32) (.fin false n)).WF := by
    unfold Fl.div
    dsimp only
    split_ifs <;> first | trivial | exact Fl.ofMag_WF (by positivity) _
  rcases Fl.div_nan_or_NN (φ := Binary32) (a := .fin false m) (b := .fin false n) ⟨hm0, by simpa [Fl.sgn] using hm0⟩
    ⟨trivial, hn0, by simpa [Fl.sgn] using hn0⟩ (by rintro s k h; cases h; rfl) with e | e
  · rw [e]; exact hone
  · generalize Fl.div (Fl.fin false m : F32) (.fin false n) = y at e hwf
    unfold Fl.fmin
    split_ifs with h1 h2 h3
    · exact absurd h1 (by simp [Fl.isNaN])
    · exact hone
    · cases y with
      | nan => exact e.elim
      | inf s => obtain rfl : s = false := e; exact absurd h3 (by simp [Fl.lt])
      | fin s y =>
        rw [Fl.lt_fin] at h3
        refine ⟨trivial, e.2, ?_⟩
        simp only [Fl.sgn, Bool.false_eq_true, if_false] at h3
        exact ⟨h3.le, hwf⟩
    · exact hone

/-- C15.  Every single coordinate delivered lies in `[0, 1 - 2⁻²³]`, in single precision, for every state
of the sampler (every index and pixel) and with wrapping 32-bit digit arithmetic. -/
theorem c15_get1d_in_unit (s s' : HaltonSampler) (x : F32)
    (h : (HaltonSampler.ops : SamplerOps F32 _).get1d s = some (x, s')) : Spec.InUnit x := by
  have key : ∀ i d (x : F32), s.sampleDimension i d = some x → Spec.InUnit x := by
    intro i d x hx
    unfold HaltonSampler.sampleDimension radicalInversePrime at hx
    split at hx <;>
    · obtain ⟨b, _, rfl⟩ := Option.map_eq_some_iff.1 hx
      exact radicalInverse_range _ _
  simp only [HaltonSampler.ops, bind, pure] at h
  obtain ⟨y, hy, h⟩ := Option.bind_eq_some_iff.1 h
  simp only [Option.some.injEq, Prod.mk.injEq] at h
  exact h.1 ▸ key _ _ _ hy

/-- C15.  The same for pairs of coordinates. -/
theorem c15_get2d_in_unit (s s' : HaltonSampler) (p : V2 F32)
    (h : (HaltonSampler.ops : SamplerOps F32 _).get2d s = some (p, s')) :
    Spec.InUnit p.x ∧ Spec.InUnit p.y := by
  have key : ∀ i d (x : F32), s.sampleDimension i d = some x → Spec.InUnit x := by
    intro i d x hx
    unfold HaltonSampler.sampleDimension radicalInversePrime at hx
    split at hx <;>
    · obtain ⟨b, _, rfl⟩ := Option.map_eq_some_iff.1 hx
      exact radicalInverse_range _ _
  simp only [HaltonSampler.ops, bind, pure] at h
  obtain ⟨x, hx, h⟩ := Option.bind_eq_some_iff.1 h
  obtain ⟨y, hy, h⟩ := Option.bind_eq_some_iff.1 h
  simp only [Option.some.injEq, Prod.mk.injEq] at h
  rw [← h.1]
  exact ⟨key _ _ _ hx, key _ _ _ hy⟩

theorem haltonBases_length : haltonBases.length = 1024 := by decide +kernel

/-- C15.  Below dimension 1024 a coordinate is always delivered; from 1024 on the sampler panics. -/
theorem c15_delivered_iff (s : HaltonSampler) :
    (∃ x s', (HaltonSampler.ops : SamplerOps F32 _).get1d s = some (x, s')) ↔ s.dimension < 1024 := by
  have e : ∀ d, haltonBases[d]? = none ↔ 1024 ≤ d := by
    intro d; rw [List.getElem?_eq_none_iff, haltonBases_length]
  have key : ∀ i d, (∃ x : F32, s.sampleDimension i d = some x) ↔ d < 1024 := by
    intro i d
    unfold HaltonSampler.sampleDimension radicalInversePrime
    have hm : ∀ (d a : Nat), (∃ x : F32, (haltonBases[d]?).map (fun base => (radicalInverse base a : F32)) = some x) ↔ d < 1024 := by
      intro d a
      cases h : haltonBases[d]? with
      | none => simp; exact (e d).1 h
      | some b => simp; by_contra hc; rw [(e d).2 (by omega)] at h; cases h
    split <;> exact hm _ _
  constructor
  · rintro ⟨x, s', h⟩
    simp only [HaltonSampler.ops, bind, pure] at h
    obtain ⟨y, hy, _⟩ := Option.bind_eq_some_iff.1 h
    exact (key _ _).1 ⟨y, hy⟩
  · intro h
    obtain ⟨x, hx⟩ := (key s.intervalSampleIndex s.dimension).2 h
    exact ⟨x, { s with dimension := u32 (s.dimension + 1) },
      by simp only [HaltonSampler.ops, hx, bind, pure, Option.bind_some]⟩

/-- An index at which the 32-bit arithmetic does wrap around (base 7919, index 2³² - 1). -/
example : (radicalLoop 7919 (2 ^ 32 - 1) 0 1).2 ≠ 7919 ^ 3 ∧ (Nat.digits 7919 (2 ^ 32 - 1)).length = 3 := by
  decide +kernel

/-! ### C16 -/

/-- The number `0.d₀d₁d₂…` in base `b`. -/
noncomputable def Spec.mirror (b : Nat) : List Nat → ℝ
  | [] => 0
  | d :: ds => (d + Spec.mirror b ds) / b

theorem foldl_mirror (b : Nat) (hb : 2 ≤ b) : ∀ (l : List Nat) (x : Nat),
    ((l.foldl (fun x d => x * b + d) x : Nat) : ℝ) / b ^ l.length = x + Spec.mirror b l := by
  have hb0 : (b : ℝ) ≠ 0 := by positivity
  intro l
  induction l with
  | nil => intro x; simp [Spec.mirror]
  | cons d l ih =>
    intro x
    have := ih (x * b + d)
    simp only [List.foldl_cons, List.length_cons, Spec.mirror]
    rw [pow_succ, ← div_div, this]
    push_cast
    field_simp
    ring

/-- C16.  If `base^(number of digits)` fits in 32 bits, the coordinate is the mirror image of the index's
digits around the radix point, capped at `1 - 2⁻²³` (exact arithmetic). -/
theorem c16_radical_inverse (base a : Nat) (hb : 2 ≤ base) (h : base ^ (Nat.digits base a).length < 2 ^ 32) :
    (radicalInverse base a : ℝ) = min (1 - 1 / 2 ^ 23) (Spec.mirror base (Nat.digits base a)) := by
  unfold radicalInverse
  rw [radicalLoop_eq base hb a 0 1 (by norm_num) (by rwa [one_mul])]
  have hm := foldl_mirror base hb (Nat.digits base a) 0
  simp only [one_mul]
  have e1 : (oneMinusEpsilon : ℝ) = 1 - 1 / 2 ^ 23 := by
    unfold oneMinusEpsilon epsilon; real_ops; norm_num
  rw [e1, r_min, r_div, r_ofInt, r_ofInt]
  congr 1
  rw [show (0 : Nat) + Spec.mirror base (Nat.digits base a) = Spec.mirror base (Nat.digits base a) by simp] at hm
  rw [← hm]; push_cast; rfl

/-- The first four base-3 points: 0, 1/3, 2/3, 1/9. -/
example : Spec.mirror 3 (Nat.digits 3 0) = 0 ∧ Spec.mirror 3 (Nat.digits 3 1) = 1 / 3 ∧
    Spec.mirror 3 (Nat.digits 3 2) = 2 / 3 ∧ Spec.mirror 3 (Nat.digits 3 3) = 1 / 9 := by
  refine ⟨?_, ?_, ?_, ?_⟩ <;> norm_num [Spec.mirror]

/-- The repository's own test case: base 10, index 1234. -/
example : (radicalInverse 10 1234 : ℝ) = 0.4321 := by
  rw [c16_radical_inverse 10 1234 (by norm_num) (by norm_num)]
  norm_num [Spec.mirror]

/-! ### C17 -/

/-- C17.  Reversing `n` base-`b` digits twice gives the number back; the reversal stays below `b^n`. -/
theorem c17_reversal_involutive (b n a : Nat) (hb : 2 ≤ b) (h : b ^ n ≤ 2 ^ 32) (ha : a < b ^ n) :
    inverseRadicalInverse b (inverseRadicalInverse b a n) n = a ∧ inverseRadicalInverse b a n < b ^ n := by
  rw [inverseRadicalInverse_eq b hb n _ h, inverseRadicalInverse_eq b hb n _ h, rev_rev b hb, Nat.mod_eq_of_lt ha]
  exact ⟨rfl, rev_lt b hb n a⟩

/-- C17.  The reversal really reverses: digit `i` of the result is digit `n - 1 - i` of the argument. -/
theorem c17_reversal_digits (b n a : Nat) (hb : 2 ≤ b) (h : b ^ n ≤ 2 ^ 32) (i : Nat) (hi : i < n) :
    inverseRadicalInverse b a n / b ^ i % b = a / b ^ (n - 1 - i) % b := by
  rw [inverseRadicalInverse_eq b hb n _ h]
  clear h
  induction n generalizing a i with
  | zero => omega
  | succ n ih =>
    cases i with
    | zero =>
      rw [rev_snoc b hb]
      simp [Nat.add_mod]
    | succ i =>
      rw [rev_snoc b hb]
      have hlt : a / b ^ n % b < b := Nat.mod_lt _ (by omega)
      have e : (Spec.rev b n a * b + a / b ^ n % b) / b ^ (i + 1) = Spec.rev b n a / b ^ i := by
        rw [pow_succ, mul_comm (b ^ i) b, ← Nat.div_div_eq_div_mul]
        congr 1
        rw [mul_comm, Nat.mul_add_div (by omega), Nat.div_eq_of_lt hlt, add_zero]
      rw [e, ih a i (by omega)]
      congr 3
      omega

example : inverseRadicalInverse 2 6 4 = 6 ∧ inverseRadicalInverse 3 5 4 = 63 ∧ (3 : Nat) ^ 4 ≤ 2 ^ 32 := by decide

/-! ### C18 -/

/-- C18.  Bezout's identity. -/
theorem c18_bezout (a b : Nat) : (extendedGcd a b).1 * a + (extendedGcd a b).2 * b = Nat.gcd a b := by
  fun_induction extendedGcd a b with
  | case1 a => simp
  | case2 a b h d r ih =>
    have hg : Nat.gcd a b = Nat.gcd b (a % b) := by rw [Nat.gcd_comm a b, Nat.gcd_rec b a, Nat.gcd_comm]
    rw [hg, ← ih]
    have hd : (a : Int) = (a % b : Nat) + (b : Int) * (a / b : Nat) := by exact_mod_cast (Nat.mod_add_div a b).symm
    have e : (extendedGcd b (a % b)) = r := rfl
    rw [e]
    simp only [d]
    generalize ((a / b : Nat) : Int) = q at *
    generalize ((a % b : Nat) : Int) = m at *
    rw [hd]; ring

theorem extendedGcd_bound (a b : Nat) :
    (extendedGcd a b).1.natAbs ≤ max 1 b ∧ (extendedGcd a b).2.natAbs ≤ max 1 a := by
  fun_induction extendedGcd a b with
  | case1 a => simp
  | case2 a b h d r ih =>
    obtain ⟨i1, i2⟩ := ih
    have e : (extendedGcd b (a % b)) = r := rfl
    rw [e] at i1 i2
    have hb : 0 < b := Nat.pos_of_ne_zero h
    refine ⟨i2, ?_⟩
    by_cases hm : a % b = 0
    · have hr : r = (1, 0) := by simp only [r, hm]; rw [extendedGcd]; simp
      rw [hr]; simp
    · have hq : (d * r.2).natAbs ≤ a / b * b := by
        rw [Int.natAbs_mul]
        have : d.natAbs = a / b := by simp only [d]; exact Int.natAbs_natCast _
        rw [this]
        exact Nat.mul_le_mul_left _ (by omega)
      have hab : a / b * b + a % b = a := by rw [mul_comm]; exact Nat.div_add_mod a b
      simp only
      omega

/-- C18.  For 32-bit arguments every value computed (the two results and the intermediate product) has
magnitude at most `2^32`, far inside `i64`; the recursive call has 32-bit arguments again. -/
theorem c18_no_overflow (a b : Nat) (ha : a < 2 ^ 32) (hb : b < 2 ^ 32) :
    (extendedGcd a b).1.natAbs ≤ 2 ^ 32 ∧ (extendedGcd a b).2.natAbs ≤ 2 ^ 32 ∧
    (b ≠ 0 → (((a / b : Nat) : Int) * (extendedGcd b (a % b)).2).natAbs ≤ 2 ^ 32 ∧ a % b < 2 ^ 32) := by
  have h := extendedGcd_bound a b
  refine ⟨by omega, by omega, fun h0 => ⟨?_, ?_⟩⟩
  · have h2 := (extendedGcd_bound b (a % b)).2
    rw [Int.natAbs_mul, Int.natAbs_natCast]
    have : a / b * (extendedGcd b (a % b)).2.natAbs ≤ a / b * b := Nat.mul_le_mul_left _ (by omega)
    have := Nat.div_mul_le_self a b
    omega
  · have := Nat.mod_lt a (Nat.pos_of_ne_zero h0); omega

example : extendedGcd 240 46 = (-9, 47) := by decide +kernel

/-! ### C19 -/

/-- A copy of `extended_gcd` with a recursion bound, for evaluation on literals. -/
def egcdF : Nat → Nat → Nat → Int × Int
  | 0, _, _ => (1, 0)
  | n + 1, a, b => if b = 0 then (1, 0) else
    ((egcdF n b (a % b)).2, (egcdF n b (a % b)).1 - ((a / b : Nat) : Int) * (egcdF n b (a % b)).2)

theorem egcdF_eq : ∀ (n a b : Nat), b < n → egcdF n a b = extendedGcd a b := by
  intro n
  induction n with
  | zero => intro a b h; omega
  | succ n ih =>
    intro a b h
    unfold egcdF
    rw [extendedGcd]
    by_cases h0 : b = 0
    · rw [if_pos h0, dif_pos h0]
    · have := Nat.mod_lt a (Nat.pos_of_ne_zero h0)
      rw [if_neg h0, dif_neg h0, ih b (a % b) (by omega)]

/-- C19 is false of the code: for the pair (128, 243), which the sampler uses for sampling regions larger
than 64 × 81, the "inverse" times 128 is -1 modulo 243.  (The sign of the Bezout coefficient is
dropped.) -/
theorem c19_refuted : ∃ a n, Nat.Coprime a n ∧ multiplicativeInverse a n * a % n ≠ 1 % n := by
  refine ⟨128, 243, by decide, ?_⟩
  unfold multiplicativeInverse
  rw [← egcdF_eq 244 128 243 (by norm_num)]
  decide +kernel

/-- What holds of C19: the result times `a` is 1 modulo `n` when the Bezout coefficient is not negative and
-1 when it is negative. -/
theorem c19_inverse_partial (a n : Nat) (hn : n < 2 ^ 32) (hn0 : 0 < n) (hc : Nat.Coprime a n) :
    (0 ≤ (extendedGcd a n).1 → (multiplicativeInverse a n * a : Int) ≡ 1 [ZMOD n]) ∧
    ((extendedGcd a n).1 < 0 → (multiplicativeInverse a n * a : Int) ≡ -1 [ZMOD n]) := by
  have hb := c18_bezout a n
  have hbd := (extendedGcd_bound a n).1
  rw [hc] at hb
  have hm : (multiplicativeInverse a n : Int) ≡ ((extendedGcd a n).1.natAbs : Int) [ZMOD n] := by
    unfold multiplicativeInverse
    rw [u32_of_lt (by omega)]
    push_cast
    exact Int.mod_modEq _ _
  have hx : (extendedGcd a n).1 * (a : Int) ≡ 1 [ZMOD n] := by
    have : (extendedGcd a n).1 * (a : Int) = 1 - (extendedGcd a n).2 * n := by push_cast at hb; linarith
    rw [this]
    have h2 := (Int.modEq_zero_iff_dvd.2 (Dvd.intro_left (extendedGcd a n).2 rfl) :
      (extendedGcd a n).2 * (n : Int) ≡ 0 [ZMOD n])
    simpa using (Int.ModEq.refl 1).sub h2
  refine ⟨fun h => ?_, fun h => ?_⟩
  · have e : ((extendedGcd a n).1.natAbs : Int) = (extendedGcd a n).1 := Int.natAbs_of_nonneg h
    rw [e] at hm
    exact (hm.mul_right _).trans hx
  · have e : ((extendedGcd a n).1.natAbs : Int) = -(extendedGcd a n).1 := by omega
    rw [e] at hm
    refine (hm.mul_right _).trans ?_
    rw [neg_mul]
    exact hx.neg

/-- Both signs occur. -/
example : 0 ≤ (extendedGcd 243 128).1 ∧ (extendedGcd 128 243).1 < 0 := by
  rw [← egcdF_eq 129 243 128 (by norm_num), ← egcdF_eq 244 128 243 (by norm_num)]
  decide +kernel

end PT
