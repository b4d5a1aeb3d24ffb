import Verif.Props.HaltonStream
import Mathlib.Data.Nat.ChineseRemainder
import Mathlib.RingTheory.Coprime.Lemmas

/-!
# The samples of a pixel are evenly spread (C87)

In exact arithmetic, as long as the digit arithmetic does not wrap around: cut each of some dimensions into equal parts, a power of the
dimension's prime; then of as many consecutive samples of a pixel as there are boxes, exactly one falls into each box.  Where the 32-bit
arithmetic wraps around this is false: almost all samples have the same value.
-/

namespace PT
open Spec

namespace Spec
/-- Part number `m` of the unit interval cut into `b^e` equal parts. -/
def InPart (b e m : ℕ) (x : ℝ) : Prop := (m : ℝ) / (b : ℝ) ^ e ≤ x ∧ x < ((m : ℝ) + 1) / (b : ℝ) ^ e

/-- The prime of a dimension. -/
noncomputable def prime (d : ℕ) : ℕ := Nat.nth Nat.Prime d

/-- `v n d` is the value of dimension `d` of sample number `n` of pixel `p`: whatever the sampler was used for before, whatever was asked
for in earlier samples of the pixel, and however the values are asked for. -/
def StreamIs {α : Type} [Scalar α] (sampler : HaltonSampler) (p : V2 Int) (v : ℕ → ℕ → α) : Prop :=
  ∀ s, Hist α sampler s → ∀ (before : List (List Request)) (now : List Request), before.length < 2 ^ 32 → (∀ rs ∈ before, demand rs ≤ 1024) →
    demand now ≤ 1024 → ∃ s1 s2, samples (HaltonSampler.ops : SamplerOps α _) before (HaltonSampler.ops (α := α) |>.startPixel s p) = some s1 ∧
      deliver (HaltonSampler.ops : SamplerOps α _) now s1 = some ((List.range (demand now)).map (v before.length), s2)
end Spec

/-! ### Digits -/

theorem mirror_bounds (b : ℕ) (hb : 2 ≤ b) : ∀ l : List ℕ, (∀ d ∈ l, d < b) → 0 ≤ mirror b l ∧ mirror b l < 1 := by
  intro l
  have hb0 : (0 : ℝ) < b := by positivity
  induction l with
  | nil => intro _; simp [mirror]
  | cons d l ih =>
    intro h
    obtain ⟨h1, h2⟩ := ih fun x hx => h x (by simp [hx])
    have hd : (d : ℝ) + 1 ≤ b := by exact_mod_cast h d (by simp)
    simp only [mirror]
    refine ⟨by positivity, ?_⟩
    rw [div_lt_one hb0]
    linarith

theorem mirror_step (b : ℕ) (hb : 2 ≤ b) (a : ℕ) : mirror b (Nat.digits b a) = ((a % b : ℕ) + mirror b (Nat.digits b (a / b))) / b := by
  rcases Nat.eq_zero_or_pos a with rfl | h
  · simp [mirror]
  · rw [Nat.digits_def' (by omega) h]; rfl

theorem mirror_split (b : ℕ) (hb : 2 ≤ b) : ∀ e a : ℕ,
    mirror b (Nat.digits b a) = ((Spec.rev b e a : ℕ) + mirror b (Nat.digits b (a / b ^ e))) / (b : ℝ) ^ e := by
  intro e
  have hb0 : (b : ℝ) ≠ 0 := by positivity
  induction e with
  | zero => intro a; simp [Spec.rev]
  | succ e ih =>
    intro a
    rw [mirror_step b hb a, ih (a / b), Spec.rev, Nat.div_div_eq_div_mul, show b * b ^ e = b ^ (e + 1) by rw [pow_succ]; ring]
    push_cast
    field_simp
    ring

/-- The mirror image of a number is in a part if its low digits are those of the part, reversed. -/
theorem mirror_inPart (b : ℕ) (hb : 2 ≤ b) (e m a : ℕ) (hm : m < b ^ e) :
    InPart b e m (mirror b (Nat.digits b a)) ↔ a % b ^ e = Spec.rev b e m := by
  have hB : (0 : ℝ) < (b : ℝ) ^ e := by positivity
  obtain ⟨h1, h2⟩ := mirror_bounds b hb (Nat.digits b (a / b ^ e)) fun d hd => Nat.digits_lt_base (by omega) hd
  rw [mirror_split b hb e a]
  have key : InPart b e m (((Spec.rev b e a : ℕ) + mirror b (Nat.digits b (a / b ^ e))) / (b : ℝ) ^ e) ↔ Spec.rev b e a = m := by
    unfold InPart
    rw [div_le_div_iff_of_pos_right hB, div_lt_div_iff_of_pos_right hB]
    constructor
    · rintro ⟨g1, g2⟩
      have a1 : (m : ℝ) < (Spec.rev b e a : ℕ) + 1 := by linarith
      have a2 : ((Spec.rev b e a : ℕ) : ℝ) < m + 1 := by linarith
      have a1' : m < Spec.rev b e a + 1 := by exact_mod_cast a1
      have a2' : Spec.rev b e a < m + 1 := by exact_mod_cast a2
      omega
    · rintro rfl
      exact ⟨by linarith, by linarith⟩
  rw [key]
  constructor
  · rintro rfl
    rw [rev_rev b hb]
  · intro h
    rw [← rev_mod b hb, h, rev_rev b hb, Nat.mod_eq_of_lt hm]

/-- The cap below 1 does not lead out of a part that is not smaller than the cap. -/
theorem cap_inPart (b e m : ℕ) (hb : 2 ≤ b) (hm : m < b ^ e) (he : b ^ e ≤ 2 ^ 23) (x : ℝ) (hx : x < 1) :
    InPart b e m (min (1 - 1 / 2 ^ 23) x) ↔ InPart b e m x := by
  rcases le_or_gt x (1 - 1 / 2 ^ 23) with h | h
  · rw [min_eq_right h]
  · rw [min_eq_left h.le]
    have hB : (0 : ℝ) < (b : ℝ) ^ e := by positivity
    have he' : (b : ℝ) ^ e ≤ 2 ^ 23 := by exact_mod_cast he
    have hm' : (m : ℝ) + 1 ≤ (b : ℝ) ^ e := by exact_mod_cast hm
    have hc : ((b : ℝ) ^ e - 1) / (b : ℝ) ^ e ≤ 1 - 1 / 2 ^ 23 := by
      rw [sub_div, div_self hB.ne']
      have : 1 / 2 ^ 23 ≤ 1 / (b : ℝ) ^ e := one_div_le_one_div_of_le hB he'
      linarith
    have h1 : (m : ℝ) / (b : ℝ) ^ e ≤ 1 - 1 / 2 ^ 23 :=
      le_trans (by gcongr; linarith) hc
    unfold InPart
    constructor
    · rintro ⟨-, g⟩
      refine ⟨h1.trans h.le, ?_⟩
      have : m + 1 = b ^ e := by
        by_contra hne
        have hlt : m + 1 + 1 ≤ b ^ e := by omega
        have hlt' : (m : ℝ) + 1 ≤ (b : ℝ) ^ e - 1 := by
          have : (m : ℝ) + 1 + 1 ≤ (b : ℝ) ^ e := by exact_mod_cast hlt
          linarith
        have : ((m : ℝ) + 1) / (b : ℝ) ^ e ≤ ((b : ℝ) ^ e - 1) / (b : ℝ) ^ e := by gcongr
        linarith
      have : (m : ℝ) + 1 = (b : ℝ) ^ e := by exact_mod_cast this
      rw [this, div_self hB.ne']
      exact hx
    · rintro ⟨-, g⟩
      exact ⟨h1, h.trans g⟩

/-- Without wrap-around, a coordinate is in a part if the low digits of the index are those of the part, reversed. -/
theorem radicalInverse_inPart (b e m a : ℕ) (hb : 2 ≤ b) (hm : m < b ^ e) (he : b ^ e ≤ 2 ^ 23) (n : ℕ) (hn : b ^ n < 2 ^ 32) (ha : a < b ^ n) :
    InPart b e m (radicalInverse b a) ↔ a % b ^ e = Spec.rev b e m := by
  have hlen : (Nat.digits b a).length ≤ n := (Nat.digits_length_le_iff (by omega) a).2 ha
  rw [c16_radical_inverse b a hb (lt_of_le_of_lt (Nat.pow_le_pow_right (by omega) hlen) hn), cap_inPart b e m hb hm he _ ?_, mirror_inPart b hb e m a hm]
  exact (mirror_bounds b hb _ fun d hd => Nat.digits_lt_base (by omega) hd).2

/-! ### Arithmetic progressions -/

/-- Of a progression with a step prime to `M`, exactly one residue class of positions meets a given residue. -/
theorem progression (M S c r : ℕ) (hM : 0 < M) (h : Nat.Coprime S M) (hr : r < M) : ∃ q, ∀ n, (c + n * S) % M = r ↔ n ≡ q [MOD M] := by
  obtain ⟨t, ht⟩ : ∃ t, S * t ≡ 1 [MOD M] := by
    rcases Nat.lt_or_ge 1 M with h1 | h1
    · obtain ⟨t, -, ht⟩ := Nat.exists_mul_mod_eq_one_of_coprime h h1
      exact ⟨t, by rw [Nat.ModEq, ht, Nat.mod_eq_of_lt h1]⟩
    · obtain rfl : M = 1 := by omega
      exact ⟨0, Nat.modEq_one⟩
  obtain ⟨M', rfl⟩ : ∃ M', M = M' + 1 := ⟨M - 1, by omega⟩
  refine ⟨t * (r + c * M'), fun n => ?_⟩
  have hq : c + t * (r + c * M') * S ≡ r [MOD M' + 1] := by
    have h1 : c + t * (r + c * M') * S ≡ c + 1 * (r + c * M') [MOD M' + 1] := by
      apply Nat.ModEq.add_left
      rw [show t * (r + c * M') * S = S * t * (r + c * M') by ring]
      exact ht.mul_right _
    refine h1.trans ?_
    rw [show c + 1 * (r + c * M') = r + (M' + 1) * c by ring]
    simp [Nat.ModEq]
  have e1 : (c + n * S) % (M' + 1) = r ↔ c + n * S ≡ r [MOD M' + 1] := by rw [Nat.ModEq, Nat.mod_eq_of_lt hr]
  rw [e1]
  constructor
  · intro g
    exact Nat.ModEq.cancel_right_of_coprime (by rw [Nat.gcd_comm]; exact h) (Nat.ModEq.add_left_cancel' c (g.trans hq.symm))
  · intro g
    exact ((g.mul_right S).add_left c).trans hq

/-- One position in every window of the right length meets all the congruences. -/
theorem one_position (D : Finset ℕ) (M q : ℕ → ℕ) (hM : ∀ d ∈ D, 0 < M d) (hco : Set.Pairwise (D : Set ℕ) (Function.onFun Nat.Coprime M)) (first : ℕ) :
    ∃! n, first ≤ n ∧ n < first + ∏ d ∈ D, M d ∧ ∀ d ∈ D, n ≡ q d [MOD M d] := by
  have hN : 0 < ∏ d ∈ D, M d := Finset.prod_pos hM
  obtain ⟨x, hx⟩ := Nat.chineseRemainderOfFinset q M D (fun d hd => (hM d hd).ne') hco
  -- the first number from `first` on that is congruent to x
  set N := ∏ d ∈ D, M d with hNdef
  refine ⟨first + (x + (N - first % N)) % N, ⟨by omega, by have := Nat.mod_lt (x + (N - first % N)) hN; omega, fun d hd => ?_⟩, ?_⟩
  · have hdvd : M d ∣ N := Finset.dvd_prod_of_mem M hd
    refine Nat.ModEq.trans ?_ (hx d hd)
    refine Nat.ModEq.of_dvd hdvd ?_
    have h1 : first + (x + (N - first % N)) % N ≡ first + (x + (N - first % N)) [MOD N] := (Nat.mod_modEq _ _).add_left _
    refine h1.trans ?_
    have h2 : first + (x + (N - first % N)) = x + N * (first / N + 1) := by
      have := Nat.div_add_mod first N
      have := Nat.mod_lt first hN
      have e : N * (first / N + 1) = N * (first / N) + N := by ring
      omega
    rw [h2]
    simp [Nat.ModEq]
  · rintro y ⟨h1, h2, h3⟩
    have hz : first + (x + (N - first % N)) % N < first + N := by have := Nat.mod_lt (x + (N - first % N)) hN; omega
    generalize hzd : first + (x + (N - first % N)) % N = z at hz
    have hzf : first ≤ z := by omega
    have hzx : z ≡ x [MOD N] := by
      rw [← hzd]
      have h1 : first + (x + (N - first % N)) % N ≡ first + (x + (N - first % N)) [MOD N] := (Nat.mod_modEq _ _).add_left _
      refine h1.trans ?_
      have h2 : first + (x + (N - first % N)) = x + N * (first / N + 1) := by
        have := Nat.div_add_mod first N
        have := Nat.mod_lt first hN
        have e : N * (first / N + 1) = N * (first / N) + N := by ring
        omega
      rw [h2]
      simp [Nat.ModEq]
    have hyx : y ≡ x [MOD N] := by
      rw [Nat.modEq_iff_dvd, hNdef]
      push_cast
      refine Finset.prod_dvd_of_coprime ?_ fun d hd => ?_
      · intro a ha b hb hab
        exact Nat.isCoprime_iff_coprime.2 (hco ha hb hab)
      · exact Nat.modEq_iff_dvd.1 ((h3 d hd).trans (hx d hd).symm)
    have hyz : y ≡ z [MOD N] := hyx.trans hzx.symm
    rw [Nat.modEq_iff_dvd] at hyz
    have : (z : Int) - y = 0 := Int.eq_zero_of_abs_lt_dvd hyz (by rw [abs_lt]; constructor <;> omega)
    omega

/-! ### The theorems -/

theorem prime_prime (d : ℕ) : (prime d).Prime := Nat.prime_nth_prime d

theorem prime_coprime {d d' : ℕ} (h : d ≠ d') : Nat.Coprime (prime d) (prime d') :=
  (Nat.coprime_primes (prime_prime d) (prime_prime d')).2 fun e => h (c77_bases_distinct d d' e)

theorem prime_zero' : prime 0 = 2 := Nat.nth_prime_zero_eq_two
theorem prime_one' : prime 1 = 3 := Nat.nth_prime_one_eq_three

/-- The positions of the samples that fall into a part of a dimension are a residue class. -/
theorem part_positions (j k i₀ d e m : ℕ) (hm : m < prime d ^ e) (hfine : prime d ^ e ≤ 2 ^ 23) :
    ∃ q, ∀ n, (∃ r, prime d ^ r < 2 ^ 32 ∧ i₀ + n * (2 ^ j * 3 ^ k) < prime d ^ r) →
      (InPart (prime d) e m (coordinate j k (i₀ + n * (2 ^ j * 3 ^ k)) d) ↔ n ≡ q [MOD prime d ^ e]) := by
  have hp2 : 2 ≤ prime d := (prime_prime d).two_le
  have hco2 : ∀ j, d ≠ 0 → Nat.Coprime (2 ^ j) (prime d ^ e) := fun j h =>
    Nat.Coprime.pow _ _ (by rw [← prime_zero']; exact prime_coprime (Ne.symm h))
  have hco3 : ∀ k, d ≠ 1 → Nat.Coprime (3 ^ k) (prime d ^ e) := fun k h =>
    Nat.Coprime.pow _ _ (by rw [← prime_one']; exact prime_coprime (Ne.symm h))
  have key : ∃ c S, Nat.Coprime S (prime d ^ e) ∧ ∀ n,
      (if d = 0 then (i₀ + n * (2 ^ j * 3 ^ k)) / 2 ^ j else if d = 1 then (i₀ + n * (2 ^ j * 3 ^ k)) / 3 ^ k else i₀ + n * (2 ^ j * 3 ^ k)) =
        c + n * S ∧ c + n * S ≤ i₀ + n * (2 ^ j * 3 ^ k) := by
    have h2 : 0 < 2 ^ j := by positivity
    have h3 : 0 < 3 ^ k := by positivity
    by_cases h0 : d = 0
    · refine ⟨i₀ / 2 ^ j, 3 ^ k, hco3 k (by omega), fun n => ?_⟩
      have e1 : (i₀ + n * (2 ^ j * 3 ^ k)) / 2 ^ j = i₀ / 2 ^ j + n * 3 ^ k := by
        rw [show n * (2 ^ j * 3 ^ k) = n * 3 ^ k * 2 ^ j by ring, Nat.add_mul_div_right _ _ h2]
      rw [if_pos h0]
      exact ⟨e1, e1 ▸ Nat.div_le_self _ _⟩
    · by_cases h1 : d = 1
      · refine ⟨i₀ / 3 ^ k, 2 ^ j, hco2 j (by omega), fun n => ?_⟩
        have e1 : (i₀ + n * (2 ^ j * 3 ^ k)) / 3 ^ k = i₀ / 3 ^ k + n * 2 ^ j := by
          rw [show n * (2 ^ j * 3 ^ k) = n * 2 ^ j * 3 ^ k by ring, Nat.add_mul_div_right _ _ h3]
        rw [if_neg h0, if_pos h1]
        exact ⟨e1, e1 ▸ Nat.div_le_self _ _⟩
      · exact ⟨i₀, 2 ^ j * 3 ^ k, (hco2 j h0).mul_left (hco3 k h1), fun n => by simp [h0, h1]⟩
  obtain ⟨c, S, hS, hidx⟩ := key
  obtain ⟨q, hq⟩ := progression (prime d ^ e) S c (Spec.rev (prime d) e m) (by positivity) hS (rev_lt _ hp2 e m)
  refine ⟨q, fun n ⟨r, hr, hn⟩ => ?_⟩
  obtain ⟨e1, e2⟩ := hidx n
  unfold coordinate
  rw [e1, ← hq n]
  exact radicalInverse_inPart (prime d) e m _ hp2 hm hfine r hr (by omega)

/-- What a sampler delivers for a pixel is determined. -/
theorem streamIs_unique {α : Type} [Scalar α] {s : HaltonSampler} {p : V2 Int} {v w : ℕ → ℕ → α} (hv : StreamIs s p v) (hw : StreamIs s p w)
    (n d : ℕ) (hn : n < 2 ^ 32) (hd : d < 1024) : v n d = w n d := by
  have hdem : ∀ m, demand (List.replicate m false) = m := by
    intro m; induction m with
    | zero => rfl
    | succ m ih => rw [List.replicate_succ, demand, ih]; omega
  have hb : ∀ rs ∈ List.replicate n ([] : List Request), demand rs ≤ 1024 := by
    intro rs h; rw [List.eq_of_mem_replicate h]; simp [demand]
  obtain ⟨s1, s2, a1, a2⟩ := hv s Hist.start (List.replicate n []) (List.replicate 1024 false) (by simpa using hn) hb (by rw [hdem])
  obtain ⟨t1, t2, b1, b2⟩ := hw s Hist.start (List.replicate n []) (List.replicate 1024 false) (by simpa using hn) hb (by rw [hdem])
  rw [a1] at b1
  obtain rfl := Option.some.inj b1
  rw [a2, hdem, List.length_replicate] at b2
  have e := (Prod.mk.inj (Option.some.inj b2)).1
  have := List.map_inj_left.1 e d (List.mem_range.2 hd)
  exact this

/-- C87, as far as it holds: take some dimensions and cut each into equal parts, a power of the dimension's prime many, not finer than the
cap below 1.  Then of any `N` consecutive samples of a pixel, `N` the number of boxes, exactly one falls into each box -- in exact
arithmetic, and as long as the indices of the samples have no more digits than the powers of the prime that fit into 32 bits. -/
theorem c87_spread_partial (spp : ℕ) (box : BBox2i) (p : V2 Int) :
    (∃ v : ℕ → ℕ → ℝ, StreamIs (HaltonSampler.new spp box) p v) ∧
    ∀ v : ℕ → ℕ → ℝ, StreamIs (HaltonSampler.new spp box) p v →
    ∀ (D : Finset ℕ) (e part : ℕ → ℕ) (first : ℕ), (∀ d ∈ D, d < 1024) → (∀ d ∈ D, part d < prime d ^ e d) → (∀ d ∈ D, prime d ^ e d ≤ 2 ^ 23) →
      (∀ d ∈ D, ∃ r, prime d ^ r < 2 ^ 32 ∧ (first + ∏ d ∈ D, prime d ^ e d) * 31104 ≤ prime d ^ r) →
      ∃! n, first ≤ n ∧ n < first + ∏ d ∈ D, prime d ^ e d ∧ ∀ d ∈ D, InPart (prime d) (e d) (part d) (v n d) := by
  obtain ⟨j, k, ⟨-, hj⟩, ⟨-, hk⟩, h⟩ := c77_halton_stream (α := ℝ) spp box
  obtain ⟨i₀, hi, hd⟩ := h p
  have hS : 2 ^ j * 3 ^ k ≤ 31104 := by calc 2 ^ j * 3 ^ k ≤ 128 * 243 := Nat.mul_le_mul hj hk
    _ = 31104 := by norm_num
  have hdel : StreamIs (HaltonSampler.new spp box) p fun n => (coordinate j k ((i₀ + n * (2 ^ j * 3 ^ k)) % 2 ^ 32) : ℕ → ℝ) := hd
  refine ⟨⟨_, hdel⟩, fun v hv D e part first hD hpart hfine hroom => ?_⟩
  choose! q hq using fun d (hd : d ∈ D) => part_positions j k i₀ d (e d) (part d) (hpart d hd) (hfine d hd)
  obtain ⟨n, ⟨h1, h2, h3⟩, huniq⟩ := one_position D (fun d => prime d ^ e d) q (fun d _ => pow_pos (prime_prime d).pos _)
    (fun a _ b _ hab => Nat.Coprime.pow _ _ (prime_coprime hab)) first
  have hiff : ∀ n, first ≤ n → n < first + ∏ d ∈ D, prime d ^ e d → ∀ d ∈ D, (InPart (prime d) (e d) (part d) (v n d) ↔ n ≡ q d [MOD prime d ^ e d]) := by
    intro n _ hn d hd
    obtain ⟨r, hr1, hr2⟩ := hroom d hd
    have hlt : i₀ + n * (2 ^ j * 3 ^ k) < prime d ^ r := by
      calc i₀ + n * (2 ^ j * 3 ^ k) < 2 ^ j * 3 ^ k + n * (2 ^ j * 3 ^ k) := by omega
        _ = (n + 1) * (2 ^ j * 3 ^ k) := by ring
        _ ≤ (first + ∏ d ∈ D, prime d ^ e d) * 31104 := Nat.mul_le_mul (by omega) hS
        _ ≤ _ := hr2
    have hn32 : n < 2 ^ 32 := by
      have : n ≤ n * (2 ^ j * 3 ^ k) := Nat.le_mul_of_pos_right _ (by positivity)
      omega
    rw [streamIs_unique hv hdel n d hn32 (hD d hd), Nat.mod_eq_of_lt (by omega : i₀ + n * (2 ^ j * 3 ^ k) < 2 ^ 32)]
    exact hq d hd n ⟨r, hr1, hlt⟩
  refine ⟨n, ⟨h1, h2, fun d hd => (hiff n h1 h2 d hd).2 (h3 d hd)⟩, fun y ⟨g1, g2, g3⟩ => huniq y ⟨g1, g2, fun d hd => (hiff y g1 g2 d hd).1 (g3 d hd)⟩⟩

/-- For instance the position on the film: the first 144 samples of every pixel of every image have exactly one sample in each cell of
a 16 by 9 grid. -/
example (spp : ℕ) (box : BBox2i) (p : V2 Int) (v : ℕ → ℕ → ℝ) (hv : StreamIs (HaltonSampler.new spp box) p v) (column row : ℕ) (hc : column < 16)
    (hr : row < 9) : ∃! n, n < 144 ∧ InPart 2 4 column (v n 0) ∧ InPart 3 2 row (v n 1) := by
  have hprod : ∏ d ∈ ({0, 1} : Finset ℕ), prime d ^ (if d = 0 then 4 else 2) = 144 := by
    rw [Finset.prod_pair (by decide), prime_zero', prime_one']; norm_num
  have h := (c87_spread_partial spp box p).2 v hv {0, 1} (fun d => if d = 0 then 4 else 2) (fun d => if d = 0 then column else row) 0
    (by simp) (by simp [prime_zero', prime_one', hc, hr]) (by simp [prime_zero', prime_one'])
    (by
      rw [hprod]
      intro d hd
      simp only [Finset.mem_insert, Finset.mem_singleton] at hd
      rcases hd with rfl | rfl
      · exact ⟨31, by rw [prime_zero']; norm_num⟩
      · exact ⟨20, by rw [prime_one']; norm_num⟩)
  rw [hprod] at h
  simpa [prime_zero', prime_one'] using h

/-! ### Where the 32-bit arithmetic wraps around -/

theorem radicalLoop_step (b a x N : ℕ) (h : 0 < a) (hb : 1 < b) :
    radicalLoop b a x N = radicalLoop b (a / b) (u32 (u32 (x * b) + a % b)) (u32 (N * b)) := by
  rw [radicalLoop, dif_pos ⟨h, hb⟩]

/-- The power of 257 wraps around to 67503105, while the digits are still reversed. -/
theorem loop257 (a : ℕ) (h1 : 257 ^ 3 ≤ a) (h2 : a < 257 ^ 4) (h3 : 4 ≤ a % 257) (h4 : a % 257 ≤ 252) :
    ∃ x, radicalLoop 257 a 0 1 = (x, 67503105) ∧ 67898372 ≤ x ∧ x < 2 ^ 32 := by
  have a1 : 0 < a / 257 := by omega
  have a2 : 0 < a / 257 / 257 := by omega
  have a3 : 0 < a / 257 / 257 / 257 := by omega
  have a4 : a / 257 / 257 / 257 / 257 = 0 := by omega
  rw [radicalLoop_step _ _ _ _ (by omega) (by norm_num), radicalLoop_step _ _ _ _ a1 (by norm_num), radicalLoop_step _ _ _ _ a2 (by norm_num),
    radicalLoop_step _ _ _ _ a3 (by norm_num), a4, radicalLoop, dif_neg (by simp)]
  refine ⟨_, rfl, ?_, u32_lt _⟩
  have d0 := Nat.mod_lt (a / 257) (show 0 < 257 by norm_num)
  have d1 := Nat.mod_lt (a / 257 / 257) (show 0 < 257 by norm_num)
  have d2 := Nat.mod_lt (a / 257 / 257 / 257) (show 0 < 257 by norm_num)
  generalize a % 257 = e0 at *
  generalize a / 257 % 257 = e1 at *
  generalize a / 257 / 257 % 257 = e2 at *
  generalize a / 257 / 257 / 257 % 257 = e3 at *
  have b0 : u32 (u32 (0 * 257) + e0) = e0 := by rw [Nat.zero_mul, u32_of_lt (by norm_num : (0 : ℕ) < 2 ^ 32), Nat.zero_add, u32_of_lt (by omega)]
  rw [b0]
  have b1 : u32 (u32 (e0 * 257) + e1) = e0 * 257 + e1 := by rw [u32_of_lt (n := e0 * 257) (by omega), u32_of_lt (by omega)]
  rw [b1]
  have b2 : u32 (u32 ((e0 * 257 + e1) * 257) + e2) = (e0 * 257 + e1) * 257 + e2 := by
    rw [u32_of_lt (n := (e0 * 257 + e1) * 257) (by omega), u32_of_lt (by omega)]
  rw [b2]
  have b3 : u32 (u32 (((e0 * 257 + e1) * 257 + e2) * 257) + e3) = ((e0 * 257 + e1) * 257 + e2) * 257 + e3 := by
    rw [u32_of_lt (n := ((e0 * 257 + e1) * 257 + e2) * 257) (by omega), u32_of_lt (by omega)]
  rw [b3]
  omega

theorem wrapped_real (a : ℕ) (h1 : 257 ^ 3 ≤ a) (h2 : a < 257 ^ 4) (h3 : 4 ≤ a % 257) (h4 : a % 257 ≤ 252) :
    (radicalInverse 257 a : ℝ) = oneMinusEpsilon := by
  obtain ⟨x, hx, hlo, -⟩ := loop257 a h1 h2 h3 h4
  unfold radicalInverse
  rw [hx]
  have e1 : (oneMinusEpsilon : ℝ) = 1 - 1 / 2 ^ 23 := by
    unfold oneMinusEpsilon epsilon; real_ops; norm_num
  simp only
  rw [e1, r_min, r_div, r_ofInt, r_ofInt, min_eq_left]
  have hlo' : (67898372 : ℝ) ≤ x := by exact_mod_cast hlo
  push_cast
  rw [le_div_iff₀ (by norm_num)]
  linarith

theorem wrapped_f32 (a : ℕ) (h1 : 257 ^ 3 ≤ a) (h2 : a < 257 ^ 4) (h3 : 4 ≤ a % 257) (h4 : a % 257 ≤ 252) :
    (radicalInverse 257 a : F32) = oneMinusEpsilon := by
  obtain ⟨x, hx, hlo, hhi⟩ := loop257 a h1 h2 h3 h4
  unfold radicalInverse
  rw [hx]
  simp only
  have r1 : Fl.Repr Binary32 (67898368 : ℚ) := by unfold Fl.Repr; decide +kernel
  have r2 : Fl.Repr Binary32 (4294967296 : ℚ) := by unfold Fl.Repr; decide +kernel
  have hx1 : (67898368 : ℚ) ≤ ((x : Int) : ℚ) := by
    have : 67898368 ≤ x := by omega
    exact_mod_cast this
  have hx2 : ((x : Int) : ℚ) ≤ 4294967296 := by
    have : x ≤ 4294967296 := by omega
    exact_mod_cast this
  have hb := Fl.ofVal_between (φ := Binary32) r1 r2 hx1 hx2 false
  have hX : (ofInt ((x : ℕ) : Int) : F32) = Fl.ofVal ((x : Int) : ℚ) false := by
    unfold ofInt; rw [Fl.f_lit]; simp
  have hw : (ofInt ((x : ℕ) : Int) : F32).WF := by rw [hX]; exact Fl.ofVal_WF _ _
  rw [← hX] at hb
  have hN : (ofInt ((67503105 : ℕ) : Int) : F32) = Fl.fin false 67503104 := by decide +kernel
  rw [hN]
  generalize (ofInt ((x : ℕ) : Int) : F32) = X at hb hw
  obtain ⟨hf, hl, -⟩ := hb
  obtain ⟨s, m, rfl⟩ := Fl.IsFin_iff.1 hf
  have hm0 : 0 ≤ m := hw.1
  cases s with
  | true => simp [Fl.val, Fl.sgn] at hl; linarith
  | false =>
    replace hl : 67898368 ≤ m := by simpa [Fl.val, Fl.sgn] using hl
    have hq : 1 ≤ m / 67503104 := by rw [le_div_iff₀ (by norm_num)]; linarith
    have hd : (Fl.fin false m /. Fl.fin false 67503104 : F32) = Fl.ofVal (m / 67503104) false := by
      rw [Fl.f_div]
      simp only [Fl.div, Bool.xor_false]
      rw [if_neg (by norm_num), Fl.ofMag_eq_ofVal (by linarith) false false]
      rfl
    rw [hd]
    have hmono := Fl.ofVal_mono (φ := Binary32) hq false false
    have hnn := Fl.ofVal_ne_nan (φ := Binary32) (m / 67503104) false
    generalize (Fl.ofVal (m / 67503104) false : F32) = Y at hmono hnn
    have e1 : (oneMinusEpsilon : F32) = Fl.fin false (8388607 / 8388608) := by decide +kernel
    have e2 : (Fl.ofVal 1 false : F32) = Fl.fin false 1 := by decide +kernel
    rw [e2] at hmono
    rw [e1, Fl.f_min]
    cases Y with
    | nan => exact absurd rfl hnn
    | inf s => cases s with
      | true => exact absurd hmono (by simp [Fl.le])
      | false => rfl
    | fin s y =>
      have h1y := Fl.le_fin.1 hmono
      have : Fl.lt (Fl.fin s y : F32) (Fl.fin false (8388607 / 8388608)) = false := by
        rw [Bool.eq_false_iff]
        intro h
        have h2 := Fl.lt_fin.1 h
        simp [Fl.sgn] at h1y h2
        linarith
      simp [Fl.fmin, Fl.isNaN, this]

theorem prime_54 : prime 54 = 257 := by
  have h := base_nth 54 (by norm_num)
  have h' : haltonBases[54]? = some 257 := by decide +kernel
  rw [h'] at h
  exact (Option.some.inj h).symm

/-- Of any 257 consecutive samples at most 8 have another low digit. -/
theorem few_others (i₀ n : ℕ) : ((Finset.Ico n (n + 257)).filter fun m => ¬ (4 ≤ (i₀ + m * 31104) % 257 ∧ (i₀ + m * 31104) % 257 ≤ 252)).card ≤ 8 := by
  have : ({0, 1, 2, 3, 253, 254, 255, 256} : Finset ℕ).card = 8 := by decide
  rw [← this]
  refine Finset.card_le_card_of_injOn (fun m => (i₀ + m * 31104) % 257) ?_ ?_
  · intro m hm
    simp only [Finset.coe_filter, Finset.mem_Ico, Set.mem_setOf_eq] at hm
    have := Nat.mod_lt (i₀ + m * 31104) (show 0 < 257 by norm_num)
    simp only [Finset.coe_insert, Finset.coe_singleton, Set.mem_insert_iff, Set.mem_singleton_iff]
    omega
  · intro a ha b hb hab
    simp only [Finset.coe_filter, Finset.mem_Ico, Set.mem_setOf_eq] at ha hb
    simp only at hab
    omega

section
variable {α : Type} [Scalar α] [DecidableEq α]
theorem mostly_equal (hw : ∀ a, 257 ^ 3 ≤ a → a < 257 ^ 4 → 4 ≤ a % 257 → a % 257 ≤ 252 → (radicalInverse 257 a : α) = oneMinusEpsilon)
    (spp : ℕ) (box : BBox2i) (hx : 128 ≤ box.diagonal.x) (hy : 128 ≤ box.diagonal.y) (p : V2 Int) (v : ℕ → ℕ → α)
    (hv : StreamIs (HaltonSampler.new spp box) p v) (n : ℕ) (h1 : 546 ≤ n) (h2 : n + 257 ≤ 138000) :
    ((Finset.Ico n (n + 257)).filter fun m => v m 54 ≠ oneMinusEpsilon).card ≤ 8 := by
  obtain ⟨j, k, ⟨hj1, hj⟩, ⟨hk1, hk⟩, h⟩ := c77_halton_stream (α := α) spp box
  have ej : 2 ^ j = 128 := by
    rw [show imin box.diagonal.x 128 = 128 by unfold imin; split_ifs <;> omega] at hj1
    have : 128 ≤ 2 ^ j := by exact_mod_cast hj1
    omega
  have ek : 3 ^ k = 243 := by
    rw [show imin box.diagonal.y 128 = 128 by unfold imin; split_ifs <;> omega] at hk1
    have h128 : 128 ≤ 3 ^ k := by exact_mod_cast hk1
    rcases Nat.lt_or_ge k 5 with h5 | h5
    · have : 3 ^ k ≤ 3 ^ 4 := Nat.pow_le_pow_right (by norm_num) (by omega)
      omega
    · have : 3 ^ 5 ≤ 3 ^ k := Nat.pow_le_pow_right (by norm_num) h5
      omega
  obtain ⟨i₀, hi, hd⟩ := h p
  have hdel : StreamIs (HaltonSampler.new spp box) p fun n => (coordinate j k ((i₀ + n * (2 ^ j * 3 ^ k)) % 2 ^ 32) : ℕ → α) := hd
  rw [ej, ek] at hi
  refine le_trans (Finset.card_le_card ?_) (few_others i₀ n)
  intro m hm
  simp only [Finset.mem_filter, Finset.mem_Ico] at hm ⊢
  refine ⟨hm.1, fun hr => hm.2 ?_⟩
  rw [streamIs_unique hv hdel m 54 (by omega) (by norm_num)]
  change (coordinate j k ((i₀ + m * (2 ^ j * 3 ^ k)) % 2 ^ 32) 54 : α) = _
  have hpr := prime_54
  unfold prime at hpr
  rw [ej, ek, Nat.mod_eq_of_lt (by omega)]
  unfold coordinate
  rw [hpr, if_neg (by norm_num), if_neg (by norm_num)]
  exact hw _ (by omega) (by omega) hr.1 hr.2
end

open Classical in
/-- C87 in full is false: in images of at least 128 by 128 pixels, from the 547th sample of a pixel on (up to the 138000th), at most 8 of any
257 consecutive samples have a value other than the largest below 1 in dimension 54; evenly spread they would have one in each of 257
parts.  So in exact arithmetic and in 32-bit arithmetic. -/
theorem c87_overflow_refuted (spp : ℕ) (box : BBox2i) (hx : 128 ≤ box.diagonal.x) (hy : 128 ≤ box.diagonal.y) (p : V2 Int) (n : ℕ)
    (h1 : 546 ≤ n) (h2 : n + 257 ≤ 138000) :
    prime 54 = 257 ∧
    (∀ v : ℕ → ℕ → ℝ, StreamIs (HaltonSampler.new spp box) p v → ((Finset.Ico n (n + 257)).filter fun m => v m 54 ≠ 1 - 1 / 2 ^ 23).card ≤ 8) ∧
    (∀ v : ℕ → ℕ → F32, StreamIs (HaltonSampler.new spp box) p v → ((Finset.Ico n (n + 257)).filter fun m => v m 54 ≠ lit (1 - 1 / 2 ^ 23)).card ≤ 8) := by
  refine ⟨prime_54, fun v hv => ?_, fun v hv => ?_⟩
  · have e1 : (oneMinusEpsilon : ℝ) = 1 - 1 / 2 ^ 23 := by
      unfold oneMinusEpsilon epsilon; real_ops; norm_num
    rw [← e1]
    convert mostly_equal wrapped_real spp box hx hy p v hv n h1 h2 using 4
  · have e1 : (oneMinusEpsilon : F32) = lit (1 - 1 / 2 ^ 23) := by decide +kernel
    rw [← e1]
    convert mostly_equal wrapped_f32 spp box hx hy p v hv n h1 h2 using 4

/-- An image of 640 by 480 pixels, its pixel (320, 240) and its samples 1000 to 1256. -/
example : 128 ≤ (BBox2i.diagonal ⟨⟨0, 0⟩, ⟨640, 480⟩⟩).x ∧ 128 ≤ (BBox2i.diagonal ⟨⟨0, 0⟩, ⟨640, 480⟩⟩).y ∧
    ∃ v : ℕ → ℕ → F32, StreamIs (HaltonSampler.new 4096 ⟨⟨0, 0⟩, ⟨640, 480⟩⟩) ⟨320, 240⟩ v := by
  refine ⟨by decide, by decide, ?_⟩
  obtain ⟨j, k, -, -, h⟩ := c77_halton_stream (α := F32) 4096 ⟨⟨0, 0⟩, ⟨640, 480⟩⟩
  obtain ⟨i₀, -, hd⟩ := h ⟨320, 240⟩
  exact ⟨fun n => coordinate j k ((i₀ + n * (2 ^ j * 3 ^ k)) % 2 ^ 32), hd⟩

end PT
