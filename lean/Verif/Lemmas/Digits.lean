import Verif.Model.Halton
import Mathlib.Data.Nat.Digits.Defs
import Mathlib.Data.Nat.Digits.Lemmas
import Mathlib.Data.Int.GCD

/-! # Digit arithmetic of the Halton sampler -/

namespace PT

theorem u32_of_lt {n : Nat} (h : n < 2 ^ 32) : u32 n = n := Nat.mod_eq_of_lt h
theorem u32_lt (n : Nat) : u32 n < 2 ^ 32 := Nat.mod_lt _ (by norm_num)

/-- Loop state of `radical_inverse` without wrap-around. -/
theorem radicalLoop_eq (b : Nat) (hb : 2 ≤ b) : ∀ (a x N : Nat), x < N →
    N * b ^ (Nat.digits b a).length < 2 ^ 32 →
    radicalLoop b a x N = ((Nat.digits b a).foldl (fun x d => x * b + d) x, N * b ^ (Nat.digits b a).length) := by
  intro a
  induction a using Nat.strong_induction_on with
  | _ a ih =>
    intro x N hx hN
    unfold radicalLoop
    by_cases h0 : a = 0
    · subst h0; simp
    · have hpos : 0 < a := Nat.pos_of_ne_zero h0
      rw [dif_pos ⟨hpos, hb⟩]
      have hd : Nat.digits b a = a % b :: Nat.digits b (a / b) := Nat.digits_def' (by omega) hpos
      rw [hd] at hN ⊢
      simp only [List.length_cons, List.foldl_cons] at hN ⊢
      have hbp : 0 < b ^ (Nat.digits b (a / b)).length := Nat.pow_pos (by omega)
      have hN1 : N * b * b ^ (Nat.digits b (a / b)).length < 2 ^ 32 := by
        rw [pow_succ] at hN; calc _ = N * (b ^ (Nat.digits b (a / b)).length * b) := by ring
          _ < _ := hN
      have hNb : N * b < 2 ^ 32 := lt_of_le_of_lt (Nat.le_mul_of_pos_right _ hbp) hN1
      have hmod : a % b < b := Nat.mod_lt _ (by omega)
      have hxb : x * b + a % b < N * b := by
        have : (x + 1) * b ≤ N * b := Nat.mul_le_mul_right _ hx
        rw [Nat.add_mul] at this; omega
      rw [u32_of_lt (by omega : x * b < 2 ^ 32), u32_of_lt (by omega), u32_of_lt hNb]
      rw [ih (a / b) (Nat.div_lt_self hpos hb) _ _ hxb hN1]
      congr 1
      rw [pow_succ]; ring

/-- Mathematical digit reversal: `rev b n a` reads the `n` low base-`b` digits of `a` backwards. -/
def Spec.rev (b : Nat) : Nat → Nat → Nat
  | 0, _ => 0
  | n + 1, a => (a % b) * b ^ n + Spec.rev b n (a / b)

theorem invLoop_rev (b : Nat) (hb : 2 ≤ b) : ∀ (n a x N : Nat), x < N → N * b ^ n ≤ 2 ^ 32 →
    inverseRadicalInverse.go b n a x = x * b ^ n + Spec.rev b n a := by
  intro n
  induction n with
  | zero => intro a x N hx _; simp [inverseRadicalInverse.go, Spec.rev]
  | succ n ih =>
    intro a x N hx hN
    unfold inverseRadicalInverse.go
    have hmod : a % b < b := Nat.mod_lt _ (by omega)
    have hbp : 0 < b ^ n := Nat.pow_pos (by omega)
    have hxb : x * b + a % b < N * b := by
      have : (x + 1) * b ≤ N * b := Nat.mul_le_mul_right _ hx
      rw [Nat.add_mul] at this; omega
    have hN1 : N * b * b ^ n ≤ 2 ^ 32 := by rw [pow_succ] at hN; calc _ = N * (b ^ n * b) := by ring
      _ ≤ _ := hN
    have hNb : N * b ≤ 2 ^ 32 := le_trans (Nat.le_mul_of_pos_right _ hbp) hN1
    rw [u32_of_lt (by omega : x * b < 2 ^ 32), u32_of_lt (by omega), ih _ _ _ hxb hN1]
    simp only [Spec.rev]
    rw [pow_succ]; ring

theorem inverseRadicalInverse_eq (b : Nat) (hb : 2 ≤ b) (n a : Nat) (h : b ^ n ≤ 2 ^ 32) :
    inverseRadicalInverse b a n = Spec.rev b n a := by
  unfold inverseRadicalInverse
  rw [invLoop_rev b hb n a 0 1 (by omega) (by omega)]; simp

theorem rev_lt (b : Nat) (hb : 2 ≤ b) : ∀ n a, Spec.rev b n a < b ^ n := by
  intro n
  induction n with
  | zero => intro a; simp [Spec.rev]
  | succ n ih =>
    intro a
    have hmod : a % b < b := Nat.mod_lt _ (by omega)
    have := ih (a / b)
    calc Spec.rev b (n + 1) a = a % b * b ^ n + Spec.rev b n (a / b) := rfl
      _ < a % b * b ^ n + b ^ n := by omega
      _ = (a % b + 1) * b ^ n := by ring
      _ ≤ b * b ^ n := Nat.mul_le_mul_right _ hmod
      _ = b ^ (n + 1) := by rw [pow_succ]; ring

/-- Reversal peeled at the other end: the last digit of the reversal is the top digit. -/
theorem rev_snoc (b : Nat) (hb : 2 ≤ b) : ∀ n a,
    Spec.rev b (n + 1) a = Spec.rev b n a * b + a / b ^ n % b := by
  intro n
  induction n with
  | zero => intro a; simp [Spec.rev]
  | succ n ih =>
    intro a
    have h1 : Spec.rev b (n + 2) a = a % b * b ^ (n + 1) + Spec.rev b (n + 1) (a / b) := rfl
    have h2 : Spec.rev b (n + 1) a = a % b * b ^ n + Spec.rev b n (a / b) := rfl
    rw [h1, ih (a / b), h2, Nat.div_div_eq_div_mul]
    rw [show b * b ^ n = b ^ (n + 1) by rw [pow_succ]; ring, pow_succ]
    ring

/-- Only the `n` low digits matter. -/
theorem rev_mod (b : Nat) (hb : 2 ≤ b) : ∀ n a, Spec.rev b n (a % b ^ n) = Spec.rev b n a := by
  intro n
  induction n with
  | zero => intro a; rfl
  | succ n ih =>
    intro a
    simp only [Spec.rev]
    have h1 : a % b ^ (n + 1) % b = a % b := Nat.mod_mod_of_dvd _ (dvd_pow_self b (by omega))
    have h2 : a % b ^ (n + 1) / b = a / b % b ^ n := by
      rw [pow_succ, mul_comm, Nat.mod_mul_right_div_self]
    rw [h1, h2, ih]

theorem rev_rev (b : Nat) (hb : 2 ≤ b) : ∀ n a, Spec.rev b n (Spec.rev b n a) = a % b ^ n := by
  intro n
  induction n with
  | zero => intro a; simp [Spec.rev, Nat.mod_one]
  | succ n ih =>
    intro a
    rw [rev_snoc b hb n a]
    have hmod : a / b ^ n % b < b := Nat.mod_lt _ (by omega)
    have h1 : (Spec.rev b n a * b + a / b ^ n % b) % b = a / b ^ n % b := by
      rw [Nat.add_mod, Nat.mul_mod_left, Nat.zero_add, Nat.mod_mod, Nat.mod_mod]
    have h2 : (Spec.rev b n a * b + a / b ^ n % b) / b = Spec.rev b n a := by
      rw [Nat.add_div (by omega : 0 < b), Nat.mul_div_cancel _ (by omega : 0 < b),
        Nat.div_eq_of_lt hmod, Nat.mul_mod_left, Nat.mod_mod]
      rw [if_neg (by omega)]; rfl
    conv_lhs => unfold Spec.rev
    rw [h1, h2, ih]
    rw [pow_succ, Nat.mod_mul, mul_comm]
    omega

end PT
