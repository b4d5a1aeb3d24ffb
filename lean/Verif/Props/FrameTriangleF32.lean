import Verif.Props.FrameF32
import Verif.Lemmas.Triangle

/-!
# Shading frames of plain triangles in single precision (C122)
-/

namespace PT

namespace Spec

/-- A triangle whose computed edges at the third vertex are between `2 ^ -20` and `2 ^ 20` long and whose angle there is between about 8 and 172 degrees (its cosine is at most 0.99 in size). -/
def Handsome (s : Triangle F32) : Prop :=
  UpTo3 20 (s.v0.sub s.v2) ∧ UpTo3 20 (s.v1.sub s.v2) ∧ 1 / 2 ^ 20 ≤ exactLength (s.v0.sub s.v2) ∧ 1 / 2 ^ 20 ≤ exactLength (s.v1.sub s.v2) ∧
  |exactDot (s.v0.sub s.v2) (s.v1.sub s.v2)| ≤ 99 / 100 * (exactLength (s.v0.sub s.v2) * exactLength (s.v1.sub s.v2))

end Spec

open Spec Fl

namespace FrameF
open NoPanic VecF TriF

theorem mul_abs_le {x y p q : ℝ} (hx : |x| ≤ p) (hy : |y| ≤ q) : |x * y| ≤ p * q := by
  rw [abs_mul]; exact mul_le_mul hx hy (abs_nonneg _) ((abs_nonneg _).trans hx)

theorem two_terms {x y z u v w p q : ℝ} (p0 : 0 ≤ p) (q0 : 0 ≤ q) (hp : p ^ 2 = x ^ 2 + y ^ 2 + z ^ 2) (hq : q ^ 2 = u ^ 2 + v ^ 2 + w ^ 2) : |y * w| + |z * v| ≤ p * q := by
  refine le_of_sq_le_sq ?_ (mul_nonneg p0 q0)
  rw [abs_mul, abs_mul, mul_pow, hp, hq]
  have a := sq_abs y
  have b := sq_abs z
  have c := sq_abs v
  have d := sq_abs w
  rw [← a, ← b, ← c, ← d]
  nlinarith [sq_nonneg (|y| * |v| - |z| * |w|), mul_nonneg (sq_nonneg x) (add_nonneg (add_nonneg (sq_nonneg u) (sq_nonneg |v|)) (sq_nonneg |w|)),
    mul_nonneg (sq_nonneg u) (add_nonneg (sq_nonneg |y|) (sq_nonneg |z|))]

/-- A coordinate is at most the length. -/
theorem coord_le_length {x y z p : ℝ} (p0 : 0 ≤ p) (hp : p ^ 2 = x ^ 2 + y ^ 2 + z ^ 2) : |x| ≤ p ∧ |y| ≤ p ∧ |z| ≤ p := by
  refine ⟨abs_le_of_sq_le_sq ?_ p0, abs_le_of_sq_le_sq ?_ p0, abs_le_of_sq_le_sq ?_ p0⟩ <;> rw [hp] <;> linarith [sq_nonneg x, sq_nonneg y, sq_nonneg z]

/-- The computed normal of a triangle that is not sharp is not much shorter than the exact one. -/
theorem normal_long {c0 c1 c2 n0 n1 n2 L M : ℝ} (M0 : 0 < M) (l0 : 0 ≤ L) (hL : L ^ 2 = n0 ^ 2 + n1 ^ 2 + n2 ^ 2) (hc : M ^ 2 / 256 ≤ c0 ^ 2 + c1 ^ 2 + c2 ^ 2)
    (e0 : |n0 - c0| ≤ M * (4 / 2 ^ 24)) (e1 : |n1 - c1| ≤ M * (4 / 2 ^ 24)) (e2 : |n2 - c2| ≤ M * (4 / 2 ^ 24)) : M / 17 ≤ L := by
  by_contra h
  push Not at h
  obtain ⟨h0, h1, h2⟩ := coord_le_length l0 hL
  have one : ∀ {c n : ℝ}, |n - c| ≤ M * (4 / 2 ^ 24) → |n| ≤ L → c ^ 2 ≤ n ^ 2 + M ^ 2 / 2 ^ 20 := by
    intro c n he hn
    have k1 := mul_abs_le (hn.trans h.le) he
    have k2 := mul_abs_le he he
    have e : c ^ 2 = n ^ 2 - 2 * (n * (n - c)) + (n - c) * (n - c) := by ring
    have := (abs_le.1 k1).1
    have := (abs_le.1 k2).2
    have M2 : 0 < M ^ 2 := by positivity
    rw [e]
    have r1 : M / 17 * (M * (4 / 2 ^ 24)) = M ^ 2 * (4 / 2 ^ 24 / 17) := by ring
    have r2 : M * (4 / 2 ^ 24) * (M * (4 / 2 ^ 24)) = M ^ 2 * (16 / 2 ^ 48) := by ring
    rw [r1] at *
    rw [r2] at *
    norm_num at *
    linarith
  have k0 := one e0 h0
  have k1 := one e1 h1
  have k2 := one e2 h2
  have k3 : L ^ 2 ≤ (M / 17) ^ 2 := pow_le_pow_left₀ l0 h.le 2
  have M2 : 0 < M ^ 2 := by positivity
  rw [div_pow] at k3
  norm_num at *
  linarith

/-- The errors of the computed normal, and its length. -/
theorem plain_normal {a0 a1 a2 b0 b1 b2 m0 m1 m2 A B L : ℝ} (A0 : 1 / 2 ^ 20 ≤ A) (B0 : 1 / 2 ^ 20 ≤ B) (L0 : 0 ≤ L)
    (hA : A ^ 2 = a0 ^ 2 + a1 ^ 2 + a2 ^ 2) (hB : B ^ 2 = b0 ^ 2 + b1 ^ 2 + b2 ^ 2) (hL : L ^ 2 = m0 ^ 2 + m1 ^ 2 + m2 ^ 2)
    (hc : |a0 * b0 + a1 * b1 + a2 * b2| ≤ 99 / 100 * (A * B))
    (em0 : |m0 - (a1 * b2 - a2 * b1)| ≤ (|a1 * b2| + |a2 * b1|) * (3 / 2 ^ 24) + 1 / 2 ^ 147)
    (em1 : |m1 - (a2 * b0 - a0 * b2)| ≤ (|a2 * b0| + |a0 * b2|) * (3 / 2 ^ 24) + 1 / 2 ^ 147)
    (em2 : |m2 - (a0 * b1 - a1 * b0)| ≤ (|a0 * b1| + |a1 * b0|) * (3 / 2 ^ 24) + 1 / 2 ^ 147) :
    (|m0 - (a1 * b2 - a2 * b1)| ≤ A * B * (4 / 2 ^ 24) ∧ |m1 - (a2 * b0 - a0 * b2)| ≤ A * B * (4 / 2 ^ 24) ∧ |m2 - (a0 * b1 - a1 * b0)| ≤ A * B * (4 / 2 ^ 24)) ∧
    (A * B) ^ 2 / 256 ≤ (a1 * b2 - a2 * b1) ^ 2 + (a2 * b0 - a0 * b2) ^ 2 + (a0 * b1 - a1 * b0) ^ 2 ∧ A * B / 17 ≤ L ∧ 1 / 2 ^ 40 ≤ A * B := by
  have Ap : 0 < A := lt_of_lt_of_le (by norm_num) A0
  have Bp : 0 < B := lt_of_lt_of_le (by norm_num) B0
  have Mp : 0 < A * B := mul_pos Ap Bp
  have M0 : 1 / 2 ^ 40 ≤ A * B := by
    calc (1 / 2 ^ 40 : ℝ) = 1 / 2 ^ 20 * (1 / 2 ^ 20) := by norm_num
      _ ≤ A * B := mul_le_mul A0 B0 (by norm_num) Ap.le
  -- the error of the normal
  have em : ∀ {m c p : ℝ}, |m - c| ≤ p * (3 / 2 ^ 24) + 1 / 2 ^ 147 → p ≤ A * B → |m - c| ≤ A * B * (4 / 2 ^ 24) := by
    intro m c p h hp
    refine h.trans ?_
    norm_num at *
    linarith
  have f0 := em em0 (two_terms Ap.le Bp.le hA hB)
  have f1 := em em1 (two_terms (x := a1) (y := a2) (z := a0) (u := b1) (v := b2) (w := b0) Ap.le Bp.le (by linarith) (by linarith))
  have f2 := em em2 (two_terms (x := a2) (y := a0) (z := a1) (u := b2) (v := b0) (w := b1) Ap.le Bp.le (by linarith) (by linarith))
  have lag : (a1 * b2 - a2 * b1) ^ 2 + (a2 * b0 - a0 * b2) ^ 2 + (a0 * b1 - a1 * b0) ^ 2 = A ^ 2 * B ^ 2 - (a0 * b0 + a1 * b1 + a2 * b2) ^ 2 := by rw [hA, hB]; ring
  have hdot : (a0 * b0 + a1 * b1 + a2 * b2) ^ 2 ≤ (99 / 100 * (A * B)) ^ 2 := sq_le_sq' (abs_le.1 hc).1 (abs_le.1 hc).2
  have hcr : (A * B) ^ 2 / 256 ≤ (a1 * b2 - a2 * b1) ^ 2 + (a2 * b0 - a0 * b2) ^ 2 + (a0 * b1 - a1 * b0) ^ 2 := by
    rw [lag]
    have : 0 < (A * B) ^ 2 := by positivity
    rw [mul_pow] at hdot
    rw [← mul_pow]
    norm_num at *
    linarith
  exact ⟨⟨f0, f1, f2⟩, hcr, normal_long Mp L0 hL hcr f0 f1 f2, M0⟩

/-- The normal and the tangent of a triangle, both computed, are nearly perpendicular. -/
theorem plain_perp {a0 a1 a2 b0 b1 b2 m0 m1 m2 n0 n1 n2 d0 d1 d2 A B L D D' : ℝ}
    (A0 : 1 / 2 ^ 20 ≤ A) (B0 : 1 / 2 ^ 20 ≤ B) (L0 : 0 < L) (D0 : 0 ≤ D) (D0' : 0 ≤ D')
    (hA : A ^ 2 = a0 ^ 2 + a1 ^ 2 + a2 ^ 2) (hB : B ^ 2 = b0 ^ 2 + b1 ^ 2 + b2 ^ 2) (hL : L ^ 2 = m0 ^ 2 + m1 ^ 2 + m2 ^ 2)
    (hD : D ^ 2 = (b0 - a0) ^ 2 + (b1 - a1) ^ 2 + (b2 - a2) ^ 2) (hD' : D' ^ 2 = d0 ^ 2 + d1 ^ 2 + d2 ^ 2)
    (hc : |a0 * b0 + a1 * b1 + a2 * b2| ≤ 99 / 100 * (A * B))
    (em0 : |m0 - (a1 * b2 - a2 * b1)| ≤ (|a1 * b2| + |a2 * b1|) * (3 / 2 ^ 24) + 1 / 2 ^ 147)
    (em1 : |m1 - (a2 * b0 - a0 * b2)| ≤ (|a2 * b0| + |a0 * b2|) * (3 / 2 ^ 24) + 1 / 2 ^ 147)
    (em2 : |m2 - (a0 * b1 - a1 * b0)| ≤ (|a0 * b1| + |a1 * b0|) * (3 / 2 ^ 24) + 1 / 2 ^ 147)
    (en0 : |n0 - m0 / L| ≤ |m0 / L| * (4 / 2 ^ 24) + 1 / 2 ^ 150) (en1 : |n1 - m1 / L| ≤ |m1 / L| * (4 / 2 ^ 24) + 1 / 2 ^ 150)
    (en2 : |n2 - m2 / L| ≤ |m2 / L| * (4 / 2 ^ 24) + 1 / 2 ^ 150)
    (ed0 : |d0 - (b0 - a0)| ≤ |b0 - a0| * (3 / 2 ^ 24) + 1 / 2 ^ 149) (ed1 : |d1 - (b1 - a1)| ≤ |b1 - a1| * (3 / 2 ^ 24) + 1 / 2 ^ 149)
    (ed2 : |d2 - (b2 - a2)| ≤ |b2 - a2| * (3 / 2 ^ 24) + 1 / 2 ^ 149) :
    A * B / 17 ≤ L ∧ 1 / 2 ^ 25 ≤ D' ∧ |n0 * d0 + n1 * d1 + n2 * d2| ≤ 1 / 2 ^ 16 * D' := by
  have Ap : 0 < A := lt_of_lt_of_le (by norm_num) A0
  have Bp : 0 < B := lt_of_lt_of_le (by norm_num) B0
  obtain ⟨⟨f0, f1, f2⟩, hcr, hL17, -⟩ := plain_normal A0 B0 L0.le hA hB hL hc em0 em1 em2
  -- the tangent is not tiny
  have hDB : B / 16 ≤ D := by
    have e : (a1 * b2 - a2 * b1) ^ 2 + (a2 * b0 - a0 * b2) ^ 2 + (a0 * b1 - a1 * b0) ^ 2 = A ^ 2 * D ^ 2 - (a0 * (b0 - a0) + a1 * (b1 - a1) + a2 * (b2 - a2)) ^ 2 := by rw [hA, hD]; ring
    rw [e] at hcr
    have h1 : A ^ 2 * (B / 16) ^ 2 ≤ A ^ 2 * D ^ 2 := by
      have := sq_nonneg (a0 * (b0 - a0) + a1 * (b1 - a1) + a2 * (b2 - a2))
      calc A ^ 2 * (B / 16) ^ 2 = (A * B) ^ 2 / 256 := by ring
        _ ≤ _ := by linarith
    exact le_of_sq_le_sq (le_of_mul_le_mul_left h1 (by positivity)) D0
  have Dm : 1 / 2 ^ 24 ≤ D := le_trans (by norm_num at *; linarith) hDB
  obtain ⟨D1, D2, D3⟩ := coord_le_length D0 hD
  have ed : ∀ {d x : ℝ}, |d - x| ≤ |x| * (3 / 2 ^ 24) + 1 / 2 ^ 149 → |x| ≤ D → |d - x| ≤ D * (4 / 2 ^ 24) := by
    intro d x h hx
    refine h.trans ?_
    norm_num at *
    linarith
  have g0 := ed ed0 D1
  have g1 := ed ed1 D2
  have g2 := ed ed2 D3
  have small : ∀ {d x : ℝ}, |d - x| ≤ D * (4 / 2 ^ 24) → |x| ≤ D → |d| ≤ D * (1001 / 1000) ∧ x ^ 2 ≤ d ^ 2 + D ^ 2 / 2 ^ 20 := by
    intro d x h hx
    have h' : |d| ≤ D * (1001 / 1000) := by
      have := abs_add_le (d - x) x
      rw [sub_add_cancel] at this
      norm_num at *
      linarith
    refine ⟨h', ?_⟩
    have k1 := (abs_le.1 (mul_abs_le h' h)).1
    have k2 := (abs_le.1 (mul_abs_le h h)).2
    have e : x ^ 2 = d ^ 2 - 2 * (d * (d - x)) + (d - x) * (d - x) := by ring
    rw [e]
    have D2 := sq_nonneg D
    rw [show D * (1001 / 1000) * (D * (4 / 2 ^ 24)) = D ^ 2 * (1001 / 1000 * (4 / 2 ^ 24)) by ring] at k1
    rw [show D * (4 / 2 ^ 24) * (D * (4 / 2 ^ 24)) = D ^ 2 * (4 / 2 ^ 24 * (4 / 2 ^ 24)) by ring] at k2
    generalize d * (d - x) = P at *
    generalize (d - x) * (d - x) = Q at *
    generalize D ^ 2 = E at *
    clear e h h' hx hD
    norm_num at *
    linarith
  obtain ⟨s0, q0⟩ := small g0 D1
  obtain ⟨s1, q1⟩ := small g1 D2
  obtain ⟨s2, q2⟩ := small g2 D3
  have hDD : D ≤ D' * (101 / 100) := by
    refine le_of_sq_le_sq ?_ (by positivity)
    have : D ^ 2 ≤ D' ^ 2 + 3 * (D ^ 2 / 2 ^ 20) := by rw [hD']; linarith
    rw [mul_pow]
    norm_num at *
    linarith [sq_nonneg D, sq_nonneg D']
  refine ⟨hL17, ?_, ?_⟩
  · norm_num at *
    linarith
  -- the three parts
  have part1 : |(m0 * (b0 - a0) + m1 * (b1 - a1) + m2 * (b2 - a2)) / L| ≤ D * (204 / 2 ^ 24) := by
    have e : m0 * (b0 - a0) + m1 * (b1 - a1) + m2 * (b2 - a2) =
        (m0 - (a1 * b2 - a2 * b1)) * (b0 - a0) + (m1 - (a2 * b0 - a0 * b2)) * (b1 - a1) + (m2 - (a0 * b1 - a1 * b0)) * (b2 - a2) := by ring
    rw [abs_div, abs_of_pos L0, div_le_iff₀ L0, e]
    have t := (abs_add_le _ _).trans (add_le_add ((abs_add_le _ _).trans (add_le_add (mul_abs_le f0 D1) (mul_abs_le f1 D2))) (mul_abs_le f2 D3))
    refine t.trans ?_
    have : D * (A * B / 17) ≤ D * L := mul_le_mul_of_nonneg_left hL17 D0
    calc A * B * (4 / 2 ^ 24) * D + A * B * (4 / 2 ^ 24) * D + A * B * (4 / 2 ^ 24) * D = D * (A * B / 17) * (204 / 2 ^ 24) := by ring
      _ ≤ D * L * (204 / 2 ^ 24) := by gcongr
      _ = D * (204 / 2 ^ 24) * L := by ring
  obtain ⟨M1, M2, M3⟩ := coord_le_length L0.le hL
  have q : ∀ {m : ℝ}, |m| ≤ L → |m / L| ≤ 1 := fun {m} h => by rwa [abs_div, abs_of_pos L0, div_le_one L0]
  have r : ∀ {s d : ℝ}, |s - d| ≤ |d| * (4 / 2 ^ 24) + 1 / 2 ^ 150 → |d| ≤ 1 → |s - d| ≤ 41 / 10 / 2 ^ 24 := fun {s d} h h' => by
    refine h.trans ?_
    calc |d| * (4 / 2 ^ 24) + 1 / 2 ^ 150 ≤ 1 * (4 / 2 ^ 24) + 1 / 2 ^ 150 := by gcongr
      _ ≤ 41 / 10 / 2 ^ 24 := by norm_num
  have part2 := (abs_add_le _ _).trans (add_le_add ((abs_add_le _ _).trans (add_le_add (mul_abs_le (r en0 (q M1)) s0) (mul_abs_le (r en1 (q M2)) s1))) (mul_abs_le (r en2 (q M3)) s2))
  have part3 := (abs_add_le _ _).trans (add_le_add ((abs_add_le _ _).trans (add_le_add (mul_abs_le (q M1) g0) (mul_abs_le (q M2) g1))) (mul_abs_le (q M3) g2))
  have e : n0 * d0 + n1 * d1 + n2 * d2 = (m0 * (b0 - a0) + m1 * (b1 - a1) + m2 * (b2 - a2)) / L + ((n0 - m0 / L) * d0 + (n1 - m1 / L) * d1 + (n2 - m2 / L) * d2) +
      (m0 / L * (d0 - (b0 - a0)) + m1 / L * (d1 - (b1 - a1)) + m2 / L * (d2 - (b2 - a2))) := by ring
  rw [e]
  have t := (abs_add_le _ _).trans (add_le_add ((abs_add_le _ _).trans (add_le_add part1 part2)) part3)
  refine t.trans ?_
  clear t e part1 part2 part3 r q small ed
  norm_num at *
  linarith

theorem minus_one_times {x : F32} (hx : Num x) : Num (x *. ⊖(lit 1)) ∧ (x *. ⊖(lit 1)).val = -x.val := by
  have o : Num (lit 1 : F32) := lit_ok (by norm_num)
  have ov : (lit 1 : F32).val = 1 := by decide +kernel
  obtain ⟨n, nv⟩ := neg_ok o
  obtain ⟨zs, e⟩ := mul_val hx n
  rw [e, nv, ov, mul_neg_one]
  have h := ofVal_repr (repr_neg (val_repr hx)) zs
  exact ⟨⟨ofVal_WF _ _, h.1⟩, h.2⟩

/-- One coordinate of the tangent of a triangle. -/
theorem tangent_near {a b : F32} (ha : UpTo 20 a) (hb : UpTo 20 b) :
    UpTo 53 ((a *. ⊖(lit 1) -. b *. ⊖(lit 1)) /. lit 1) ∧
    |(((a *. ⊖(lit 1) -. b *. ⊖(lit 1)) /. lit 1).val : ℝ) - (b.val - a.val)| ≤ |(b.val : ℝ) - a.val| * (3 / 2 ^ 24) + 1 / 2 ^ 149 := by
  have o : Num (lit 1 : F32) := lit_ok (by norm_num)
  have ov : (lit 1 : F32).val = 1 := by decide +kernel
  obtain ⟨na, va⟩ := minus_one_times ha.1
  obtain ⟨nb, vb⟩ := minus_one_times hb.1
  have ua : UpTo 20 (a *. ⊖(lit 1)) := ⟨na, by rw [va, abs_neg]; exact ha.2⟩
  have ub : UpTo 20 (b *. ⊖(lit 1)) := ⟨nb, by rw [vb, abs_neg]; exact hb.2⟩
  have us := upTo_sub (by omega) ua ub
  have hs := sub_near na nb us.1 (a := -a.val) (b := -b.val) (e := 0) (f := 0) (by rw [va]; simp) (by rw [vb]; simp) (m := |(b.val : ℝ) - a.val|) (by
    rw [show -(a.val : ℝ) - -b.val = b.val - a.val by ring])
  rw [show -(a.val : ℝ) - -b.val = b.val - a.val by ring] at hs
  generalize a *. ⊖(lit 1) -. b *. ⊖(lit 1) = x at *
  have ud := upTo_div (n := 53) (by omega) us.1 o (by rw [ov]; norm_num) (by
    rw [ov, abs_one, mul_one]
    exact us.2.trans (by norm_num))
  refine ⟨ud, ?_⟩
  obtain ⟨-, -, he⟩ := div_err us.1.wf o.wf o.fin ud.1.fin
  have he := cast_abs_le he
  unfold ulpHalf tinyHalf at he
  rw [ov, div_one] at he
  push_cast at he
  have t := abs_add_le (((x /. lit 1).val : ℝ) - x.val) (x.val - (b.val - a.val))
  rw [sub_add_sub_cancel] at t
  have t' := abs_add_le ((x.val : ℝ) - (b.val - a.val)) (b.val - a.val)
  rw [sub_add_cancel] at t'
  have z := abs_nonneg ((b.val : ℝ) - a.val)
  refine t.trans ?_
  generalize |(b.val : ℝ) - a.val| = Z at *
  generalize |(x.val : ℝ)| = X at *
  generalize |((x /. lit 1).val : ℝ) - x.val| = Y at *
  generalize |(x.val : ℝ) - (b.val - a.val)| = W at *
  norm_num at *
  linarith

/-- The tangent that the code computes. -/
theorem partials_f32 [Libm F32] (s : Triangle F32) :
    s.partials.1 = (((s.v0.sub s.v2).smul ⊖(lit 1)).sub ((s.v1.sub s.v2).smul ⊖(lit 1))).sdiv (lit 1) := by
  have h1 : (Triangle.getUv : V2 F32 × V2 F32 × V2 F32).2.1.sub (Triangle.getUv : V2 F32 × V2 F32 × V2 F32).2.2 = ⟨lit 0, ⊖(lit 1)⟩ := by
    rw [Triangle.getUv]; show (⟨_, _⟩ : V2 F32) = _
    rw [V2.mk.injEq]; constructor <;> decide +kernel
  have h0 : (Triangle.getUv : V2 F32 × V2 F32 × V2 F32).1.sub (Triangle.getUv : V2 F32 × V2 F32 × V2 F32).2.2 = ⟨⊖(lit 1), ⊖(lit 1)⟩ := by
    rw [Triangle.getUv]; show (⟨_, _⟩ : V2 F32) = _
    rw [V2.mk.injEq]; constructor <;> decide +kernel
  unfold Triangle.partials
  simp only [h0, h1]
  have hd : (⊖(lit 1) *. ⊖(lit 1) -. ⊖(lit 1) *. lit 0 : F32) = lit 1 := by decide +kernel
  rw [hd, if_neg (by decide +kernel)]

theorem exactLength_sq (v : V3 F32) : exactLength v ^ 2 = (v.x.val : ℝ) ^ 2 + (v.y.val : ℝ) ^ 2 + (v.z.val : ℝ) ^ 2 := by
  unfold exactLength; exact Real.sq_sqrt (by positivity)

theorem exactLength_nonneg (v : V3 F32) : 0 ≤ exactLength v := Real.sqrt_nonneg _

theorem long_notTiny {v : V3 F32} (h : 1 / 2 ^ 49 ≤ exactLength v) : NotTiny v := by
  by_contra hc
  unfold NotTiny at hc
  push Not at hc
  obtain ⟨h1, h2, h3⟩ := hc
  have c : ∀ {x : F32}, |x.val| < 1 / 2 ^ 50 → (x.val : ℝ) ^ 2 ≤ 1 / 2 ^ 100 := fun {x} h => by
    have : |(x.val : ℝ)| < ((1 / 2 ^ 50 : ℚ) : ℝ) := by exact_mod_cast h
    push_cast at this
    have k := pow_le_pow_left₀ (abs_nonneg _) this.le 2
    rw [sq_abs] at k
    exact k.trans (by norm_num)
  have k := exactLength_sq v
  have k' : (1 / 2 ^ 49) ^ 2 ≤ exactLength v ^ 2 := pow_le_pow_left₀ (by norm_num) h 2
  rw [k] at k'
  have l1 := c h1
  have l2 := c h2
  have l3 := c h3
  norm_num at *
  linarith

/-- The normal and tangent of a triangle with the sizes and the angle of `Handsome`. -/
theorem plain_frame [Libm F32] (hl : AccurateSqrt) {s : Triangle F32} (h : Handsome s) :
    UpTo3 53 s.partials.1 ∧ NotTiny s.partials.1 ∧ UpTo3 1 ((s.v0.sub s.v2).cross (s.v1.sub s.v2)).normalize ∧
    |exactDot ((s.v0.sub s.v2).cross (s.v1.sub s.v2)).normalize ((s.v0.sub s.v2).cross (s.v1.sub s.v2)).normalize - 1| ≤ 1 / 2 ^ 20 ∧
    |exactDot ((s.v0.sub s.v2).cross (s.v1.sub s.v2)).normalize s.partials.1| ≤ 1 / 2 ^ 16 * exactLength s.partials.1 := by
  obtain ⟨ha, hb, la, lb, hc⟩ := h
  rw [partials_f32]
  generalize s.v0.sub s.v2 = a at *
  generalize s.v1.sub s.v2 = b at *
  obtain ⟨ux, ex⟩ := tangent_near ha.1 hb.1
  obtain ⟨uy, ey⟩ := tangent_near ha.2.1 hb.2.1
  obtain ⟨uz, ez⟩ := tangent_near ha.2.2 hb.2.2
  obtain ⟨-, ⟨c1, e1⟩, ⟨c2, e2⟩, c3, e3⟩ := c120_products (UpTo3.mono ha (show 20 ≤ 60 by omega)) (UpTo3.mono hb (show 20 ≤ 60 by omega))
  have uc : UpTo3 53 (a.cross b) := UpTo3.mono (upTo3_cross (m := 20) (n := 20) (by omega) ha hb) (by omega)
  obtain ⟨-, -, long, big⟩ := plain_normal la lb (exactLength_nonneg (a.cross b)) (exactLength_sq a) (exactLength_sq b) (exactLength_sq _) hc e1 e2 e3
  have nt : NotTiny (a.cross b) := long_notTiny (le_trans (by norm_num at *; linarith) long)
  obtain ⟨-, hn, n2⟩ := c120_normalize hl uc nt
  obtain ⟨-, l0, -⟩ := length_near hl uc nt
  obtain ⟨-, dl, pp⟩ := plain_perp la lb l0 (Real.sqrt_nonneg _) (exactLength_nonneg (((a.smul ⊖(lit 1)).sub (b.smul ⊖(lit 1))).sdiv (lit 1))) (exactLength_sq a) (exactLength_sq b)
    (exactLength_sq _) (Real.sq_sqrt (by positivity)) (exactLength_sq _) hc e1 e2 e3 (hn .X).2 (hn .Y).2 (hn .Z).2 ex ey ez
  have n2' : |exactDot (a.cross b).normalize (a.cross b).normalize - 1| ≤ 9 / 2 ^ 24 := by
    unfold exactDot
    simpa only [pow_two] using n2
  obtain ⟨sx1, sy1, sz1⟩ := unit_coords n2' (by norm_num)
  have up : ∀ {r : F32}, Num r → |(r.val : ℝ)| ≤ 1001 / 1000 → UpTo 1 r := fun hr h => ⟨hr, by
    have : |(_ : ℝ)| ≤ ((2 ^ 1 : ℚ) : ℝ) := h.trans (by norm_num)
    exact_mod_cast this⟩
  exact ⟨⟨ux, uy, uz⟩, long_notTiny (le_trans (by norm_num) dl), ⟨up (hn .X).1 sx1, up (hn .Y).1 sy1, up (hn .Z).1 sz1⟩, n2'.trans (by norm_num), pp⟩

/-- Turning the normal around keeps what is known of it. -/
theorem flip_frame {n d : V3 F32} (hn : UpTo3 1 n) (n2 : |exactDot n n - 1| ≤ 1 / 2 ^ 20) {e : ℝ} (hp : |exactDot n d| ≤ e) (c : Bool) :
    UpTo3 1 (if c then n.smul ⊖(lit 1) else n) ∧ |exactDot (if c then n.smul ⊖(lit 1) else n) (if c then n.smul ⊖(lit 1) else n) - 1| ≤ 1 / 2 ^ 20 ∧
    |exactDot (if c then n.smul ⊖(lit 1) else n) d| ≤ e := by
  refine ⟨upTo3_flip (by omega) hn c, ?_⟩
  cases c with
  | false => exact ⟨n2, hp⟩
  | true =>
    have hx : (n.smul ⊖(lit 1)).x.val = -n.x.val := (minus_one_times hn.1.1).2
    have hy : (n.smul ⊖(lit 1)).y.val = -n.y.val := (minus_one_times hn.2.1.1).2
    have hz : (n.smul ⊖(lit 1)).z.val = -n.z.val := (minus_one_times hn.2.2.1).2
    have h1 : exactDot (n.smul ⊖(lit 1)) (n.smul ⊖(lit 1)) = exactDot n n := by
      unfold exactDot; rw [hx, hy, hz]; push_cast; ring
    have h2 : exactDot (n.smul ⊖(lit 1)) d = -exactDot n d := by
      unfold exactDot; rw [hx, hy, hz]; push_cast; ring
    simp only [if_true]
    rw [h1, h2, abs_neg]
    exact ⟨n2, hp⟩

end FrameF

open FrameF NoPanic in
/-- **C122** (triangles).  Every hit that the code reports on a triangle without vertex normals whose third angle is not sharp has normal and tangent perpendicular up to `2 ^ -16`, and directions survive the way into
its shading frame and back up to `2 ^ -12`. -/
theorem c122_plain_triangle [Libm F32] (hl : AccurateSqrt) (s : Triangle F32) (hs : Handsome s) (hv : s.vertexNormals = none) (ray : Ray F32) (i : Interaction F32) (t : F32)
    (h : s.intersect ray = some (some (i, t))) :
    SteadyFrame (1 / 2 ^ 16) i ∧
    ∀ (bs : List (BxDF F32)) (v : V3 F32), UpTo3 0 v → ∀ a, let b := { BSDF.new i with bxdfs := bs }
      |(((b.localToWorld (b.worldToLocal v)).get a).val : ℝ) - (v.get a).val| ≤ 1 / 2 ^ 12 := by
  have hi : SteadyFrame (1 / 2 ^ 16) i := by
    obtain ⟨o, d, tm⟩ := ray
    rw [Triangle.intersect_eq] at h
    cases hm : d.maxAbsAxis with
    | none => rw [hm] at h; cases h
    | some m =>
      rw [hm] at h
      simp only [Option.map_some, Option.some.injEq] at h
      split_ifs at h
      simp only [Option.some.injEq, Prod.mk.injEq] at h
      obtain ⟨hd, ht, hn, n2, hp⟩ := plain_frame hl hs
      obtain ⟨f1, f2, f3⟩ := flip_frame hn n2 hp s.reverseOrientation
      rw [← h.1]
      unfold Triangle.interactionAt Triangle.shading
      rw [hv]
      exact ⟨hd, ht, f1, f2, f3⟩
  refine ⟨hi, fun bs v hv' a => ?_⟩
  exact (c122_round_trip hl (by norm_num) hi bs hv' a).2.trans (by norm_num)

namespace Demo

/-- A slanted triangle with a corner at the rounded height 1/3. -/
def roofTile (mat : Material F32) : Triangle F32 := ⟨⟨f32 (-1), f32 (-1), f32 (1 / 3)⟩, ⟨f32 2, f32 (-1), f32 (1 / 3)⟩, ⟨f32 (-1), f32 1, f32 0⟩, none, false, mat⟩

end Demo

/-- The triangle meets the conditions and is hit by a ray from above. -/
example (mat : Material F32) : letI := Demo.libm32
    AccurateSqrt ∧ Handsome (Demo.roofTile mat) ∧ ∃ i t, (Demo.roofTile mat).intersect ⟨⟨f32 0, f32 (-1 / 2), f32 4⟩, ⟨f32 0, f32 0, f32 (-1)⟩, f32 100⟩ = some (some (i, t)) := by
  letI := Demo.libm32
  have a1 : ((Demo.roofTile mat).v0.sub (Demo.roofTile mat).v2) = ⟨f32 0, f32 (-2), f32 (1 / 3)⟩ := by
    show (⟨f32 (-1) -. f32 (-1), f32 (-1) -. f32 1, f32 (1 / 3) -. f32 0⟩ : V3 F32) = _
    rw [V3.mk.injEq]; refine ⟨?_, ?_, ?_⟩ <;> decide +kernel
  have b1 : ((Demo.roofTile mat).v1.sub (Demo.roofTile mat).v2) = ⟨f32 3, f32 (-2), f32 (1 / 3)⟩ := by
    show (⟨f32 2 -. f32 (-1), f32 (-1) -. f32 1, f32 (1 / 3) -. f32 0⟩ : V3 F32) = _
    rw [V3.mk.injEq]; refine ⟨?_, ?_, ?_⟩ <;> decide +kernel
  have n : ∀ (q : ℚ), |q| ≤ 2 ^ 20 → UpTo 20 (f32 q) := fun q h => NoPanic.upTo_ofVal (by omega) h _
  have v0 : (f32 0).val = 0 := by decide +kernel
  have v2 : (f32 (-2)).val = -2 := by decide +kernel
  have v3 : (f32 3).val = 3 := by decide +kernel
  have vt : (f32 (1 / 3)).val = 11184811 / 2 ^ 25 := by decide +kernel
  refine ⟨Demo.libm32_accurate, ?_, ?_⟩
  · unfold Handsome
    rw [a1, b1]
    have la : (2 : ℝ) ≤ exactLength ⟨f32 0, f32 (-2), f32 (1 / 3)⟩ ∧ exactLength ⟨f32 0, f32 (-2), f32 (1 / 3)⟩ ^ 2 = (11184811 / 2 ^ 25) ^ 2 + 4 := by
      have h := FrameF.exactLength_sq ⟨f32 0, f32 (-2), f32 (1 / 3)⟩
      simp only [v0, v2, vt] at h
      push_cast at h
      have h' : exactLength ⟨f32 0, f32 (-2), f32 (1 / 3)⟩ ^ 2 = (11184811 / 2 ^ 25) ^ 2 + 4 := by rw [h]; norm_num
      exact ⟨le_of_sq_le_sq (by rw [h']; norm_num) (FrameF.exactLength_nonneg _), h'⟩
    have lb : (36 / 10 : ℝ) ≤ exactLength ⟨f32 3, f32 (-2), f32 (1 / 3)⟩ := by
      have h := FrameF.exactLength_sq ⟨f32 3, f32 (-2), f32 (1 / 3)⟩
      simp only [v3, v2, vt] at h
      push_cast at h
      exact le_of_sq_le_sq (by rw [h]; norm_num) (FrameF.exactLength_nonneg _)
    refine ⟨⟨n 0 (by norm_num), n (-2) (by norm_num), n (1 / 3) (by norm_num [abs_of_pos])⟩, ⟨n 3 (by norm_num [abs_of_pos]), n (-2) (by norm_num), n (1 / 3) (by norm_num [abs_of_pos])⟩,
      le_trans (by norm_num) la.1, le_trans (by norm_num) lb, ?_⟩
    have hd : exactDot ⟨f32 0, f32 (-2), f32 (1 / 3)⟩ ⟨f32 3, f32 (-2), f32 (1 / 3)⟩ = (11184811 / 2 ^ 25) ^ 2 + 4 := by
      unfold exactDot
      simp only [v0, v3, v2, vt]
      push_cast
      norm_num
    rw [hd, abs_of_pos (by norm_num)]
    have := mul_le_mul la.1 lb (by norm_num) (FrameF.exactLength_nonneg _)
    norm_num at *
    linarith
  · have e := Triangle.intersect_eq (Demo.roofTile mat) ⟨f32 0, f32 (-1 / 2), f32 4⟩ ⟨f32 0, f32 0, f32 (-1)⟩ (f32 100)
    have hm : (⟨f32 0, f32 0, f32 (-1)⟩ : V3 F32).maxAbsAxis = some .Z := by decide +kernel
    rw [hm] at e
    have hr : (Triangle.stage (Demo.roofTile mat) ⟨f32 0, f32 (-1 / 2), f32 4⟩ ⟨f32 0, f32 0, f32 (-1)⟩ .Z).rejects (f32 100) = false := by
      show (Triangle.stageOf (Triangle.rc ⟨f32 0, f32 (-1 / 2), f32 4⟩ ⟨f32 0, f32 0, f32 (-1)⟩ .Z ⟨f32 (-1), f32 (-1), f32 (1 / 3)⟩) (Triangle.rc ⟨f32 0, f32 (-1 / 2), f32 4⟩ ⟨f32 0, f32 0, f32 (-1)⟩ .Z ⟨f32 2, f32 (-1), f32 (1 / 3)⟩)
        (Triangle.rc ⟨f32 0, f32 (-1 / 2), f32 4⟩ ⟨f32 0, f32 0, f32 (-1)⟩ .Z ⟨f32 (-1), f32 1, f32 0⟩) (Triangle.szOf ⟨f32 0, f32 0, f32 (-1)⟩ .Z)).rejects (f32 100) = false
      decide +kernel
    simp only [Option.map_some, hr, Bool.false_eq_true, if_false] at e
    exact ⟨_, _, e⟩

end PT
