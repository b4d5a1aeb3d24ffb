import Verif.Props.NormalizeF32

/-!
# Mirror reflection in single precision (C53)
-/

namespace PT
open Spec Fl

namespace ReflF

theorem mul_swap (a b : F32) : a *. b = b *. a := by
  rw [f_mul, f_mul]
  cases a <;> cases b <;> simp [Fl.mul, Bool.xor_comm, mul_comm]

end ReflF

open VecF NoPanic TriF ReflF in
/-- **C53** in single precision.  For vectors with coordinates in `[-1, 1]`, in particular for unit vectors, the computed reflection is a vector of numbers, and each of its
coordinates is within `2 ^ -18` of the exact `2 (w · n) n - w`. -/
theorem c53_f32 {w n : V3 F32} (hw : UpTo3 0 w) (hn : UpTo3 0 n) (a : Axis) :
    Num ((reflect w n).get a) ∧
    |(((reflect w n).get a).val : ℝ) - (2 * (w.x.val * n.x.val + w.y.val * n.y.val + w.z.val * n.z.val) * (n.get a).val - (w.get a).val)| ≤ 1 / 2 ^ 18 := by
  have mono : ∀ {v : V3 F32}, UpTo3 0 v → UpTo3 60 v := fun h => UpTo3.mono h (by omega)
  obtain ⟨⟨nd, ed⟩, -⟩ := c120_products (mono hw) (mono hn)
  have one : ∀ {r : F32}, UpTo 0 r → |(r.val : ℝ)| ≤ 1 := fun h => by
    have := h.2
    rw [pow_zero] at this
    exact_mod_cast this
  have pr : ∀ {r s : F32}, UpTo 0 r → UpTo 0 s → |(r.val : ℝ) * s.val| ≤ 1 := fun h h' => by
    rw [abs_mul]; exact mul_le_one₀ (one h) (abs_nonneg _) (one h')
  have p1 := pr hw.1 hn.1
  have p2 := pr hw.2.1 hn.2.1
  have p3 := pr hw.2.2 hn.2.2
  have ud : UpTo 2 (w.dot n) := UpTo.mono (upTo_dot (m := 0) (n := 0) (by omega) hw hn) (by omega)
  set D : ℝ := w.x.val * n.x.val + w.y.val * n.y.val + w.z.val * n.z.val with hD
  have hD3 : |D| ≤ 3 := by
    rw [hD]
    exact (abs_add_le _ _).trans ((add_le_add_left (abs_add_le _ _) _).trans (by linarith))
  have ed' : |((w.dot n).val : ℝ) - D| ≤ 121 / 10 / 2 ^ 24 := by
    refine ed.trans ?_
    have hs : |(w.x.val : ℝ) * n.x.val| + |(w.y.val : ℝ) * n.y.val| + |(w.z.val : ℝ) * n.z.val| ≤ 3 := by linarith
    calc _ ≤ (3 : ℝ) * (4 / 2 ^ 24) + 1 / 2 ^ 147 := by gcongr
      _ ≤ 121 / 10 / 2 ^ 24 := by norm_num
  have two : UpTo 1 (lit 2 : F32) := upTo_lit (by omega) (by norm_num)
  have twov : (lit 2 : F32).val = 2 := by decide +kernel
  have key : ∀ {x y : F32}, UpTo 0 x → UpTo 0 y → Num (⊖x +. (y *. w.dot n) *. lit 2) ∧ |((⊖x +. (y *. w.dot n) *. lit 2).val : ℝ) - (2 * D * y.val - x.val)| ≤ 1 / 2 ^ 18 := by
    intro x y hx hy
    have u1 : UpTo 2 (y *. w.dot n) := UpTo.mono (upTo_mul (m := 0) (n := 2) (by omega) hy ud) (by omega)
    have u2 : UpTo 3 ((y *. w.dot n) *. lit 2) := upTo_mul (m := 2) (n := 1) (by omega) u1 two
    have ux := upTo_neg hx
    have u3 := upTo_add (by omega) (UpTo.mono ux (by omega)) u2
    have m1 := mul_near hy.1 ud.1 u1.1 (one hy) ed' hD3
    have yD : |(y.val : ℝ) * D| ≤ 3 := by
      rw [abs_mul]
      calc |(y.val : ℝ)| * |D| ≤ 1 * 3 := mul_le_mul (one hy) hD3 (abs_nonneg _) (by norm_num)
        _ = 3 := by norm_num
    have comm : (y *. w.dot n) *. lit 2 = lit 2 *. (y *. w.dot n) := mul_swap _ _
    have m2 := mul_near two.1 u1.1 (by rw [← comm]; exact u2.1) (k := 2) (by rw [twov]; norm_num) m1 yD
    rw [← comm, twov] at m2
    have ex : |((⊖x).val : ℝ) - -(x.val : ℝ)| ≤ 0 := by rw [(neg_ok hx.1).2]; simp
    have m3 := add_near ux.1 u2.1 u3.1 ex m2 (m := 7) (by
      refine (abs_add_le _ _).trans ?_
      rw [abs_neg, abs_mul]
      have h2 : |((2 : ℚ) : ℝ)| = 2 := by norm_num
      rw [h2]
      linarith [one hx])
    refine ⟨u3.1, ?_⟩
    rw [show -(x.val : ℝ) + ((2 : ℚ) : ℝ) * (y.val * D) = 2 * D * y.val - x.val by push_cast; ring] at m3
    exact m3.trans (by norm_num)
  cases a
  · exact key hw.1 hn.1
  · exact key hw.2.1 hn.2.1
  · exact key hw.2.2 hn.2.2

/-- A direction and a normal, neither along an axis. -/
example : UpTo3 0 (⟨f32 (3 / 5), f32 (1 / 7), f32 (4 / 5)⟩ : V3 F32) ∧ UpTo3 0 (⟨f32 (2 / 3), f32 (-1 / 3), f32 (2 / 3)⟩ : V3 F32) := by
  have n : ∀ q : ℚ, |q| ≤ 2 ^ 0 → UpTo 0 (f32 q) := fun q h => NoPanic.upTo_ofVal (by omega) h _
  refine ⟨⟨n (3 / 5) ?_, n (1 / 7) ?_, n (4 / 5) ?_⟩, n (2 / 3) ?_, n (-1 / 3) ?_, n (2 / 3) ?_⟩ <;> norm_num [abs_of_pos, abs_of_neg, abs_le]

end PT
