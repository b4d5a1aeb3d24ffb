import Verif.Props.TriangleSampleF32

/-!
# Vector arithmetic in single precision (C120), and the directions of camera rays (C52)
-/

namespace PT
open Spec Fl

/-! ### Specification -/

namespace Spec
/-- The exact length of a vector of numbers of the format. -/
noncomputable def exactLength (v : V3 F32) : ℝ := √((v.x.val : ℝ) ^ 2 + (v.y.val : ℝ) ^ 2 + (v.z.val : ℝ) ^ 2)
end Spec

namespace VecF
open NoPanic TriF

/-- A computed square. -/
theorem square {x : F32} (hx : UpTo 53 x) : Num (x *. x) ∧ 0 ≤ ((x *. x).val : ℝ) ∧ |((x *. x).val : ℝ) - (x.val : ℝ) ^ 2| ≤ (x.val : ℝ) ^ 2 / 2 ^ 24 + 1 / 2 ^ 150 := by
  have u := upTo_mul (m := 53) (n := 53) (by omega) hx hx
  have he := cast_abs_le (mul_err hx.1.wf hx.1.wf u.1.fin)
  unfold ulpHalf tinyHalf at he
  push_cast at he
  rw [abs_of_nonneg (mul_self_nonneg (x.val : ℝ))] at he
  refine ⟨u.1, by exact_mod_cast sq_nonneg' (by omega) hx, ?_⟩
  rw [pow_two]
  refine he.trans (le_of_eq ?_)
  ring

theorem plus {x y : F32} {n : ℕ} (hn : n + 1 ≤ 126) (hx : UpTo n x) (hy : UpTo n y) (x0 : 0 ≤ (x.val : ℝ)) (y0 : 0 ≤ (y.val : ℝ)) :
    0 ≤ ((x +. y).val : ℝ) ∧ |((x +. y).val : ℝ) - (x.val + y.val)| ≤ ((x.val : ℝ) + y.val) / 2 ^ 24 := by
  have u := upTo_add hn hx hy
  have he := cast_abs_le (add_err hx.1.wf hy.1.wf u.1.fin)
  unfold ulpHalf at he
  push_cast at he
  rw [abs_of_nonneg (add_nonneg x0 y0), mul_one_div] at he
  refine ⟨?_, he⟩
  have h1 := (add_ge' hn hx hy (by exact_mod_cast x0) (by exact_mod_cast y0)).1
  have h2 : (x.val : ℝ) ≤ ((x +. y).val : ℝ) := by exact_mod_cast h1
  linarith

/-- The computed sum of the squares. -/
theorem sumsq {v : V3 F32} (hv : UpTo3 53 v) (hs : NotTiny v) {S : ℝ} (hS : S = (v.x.val : ℝ) ^ 2 + (v.y.val : ℝ) ^ 2 + (v.z.val : ℝ) ^ 2) :
    1 / 2 ^ 100 ≤ S ∧ Num (v.x *. v.x +. v.y *. v.y +. v.z *. v.z) ∧ 0 ≤ (v.x *. v.x +. v.y *. v.y +. v.z *. v.z).val ∧
    |((v.x *. v.x +. v.y *. v.y +. v.z *. v.z).val : ℝ) - S| ≤ S * (301 / 100 / 2 ^ 24) := by
  obtain ⟨hx, hy, hz⟩ := hv
  obtain ⟨nx, x0, ex⟩ := square hx
  obtain ⟨ny, y0, ey⟩ := square hy
  obtain ⟨nz, z0, ez⟩ := square hz
  have ux := upTo_mul (m := 53) (n := 53) (by omega) hx hx
  have uy := upTo_mul (m := 53) (n := 53) (by omega) hy hy
  have uz := upTo_mul (m := 53) (n := 53) (by omega) hz hz
  have uxy := upTo_add (by omega) ux uy
  obtain ⟨p0, p1⟩ := plus (by omega) ux uy x0 y0
  have uS := upTo_add (by omega) uxy (UpTo.mono uz (by omega))
  obtain ⟨r0, r1⟩ := plus (by omega) uxy (UpTo.mono uz (by omega)) p0 z0
  have big : ∀ {c : F32}, 1 / 2 ^ 50 ≤ |c.val| → 1 / 2 ^ 100 ≤ (c.val : ℝ) ^ 2 := by
    intro c h
    have h' : (1 : ℝ) / 2 ^ 50 ≤ |(c.val : ℝ)| := by
      have : (((1 / 2 ^ 50 : ℚ)) : ℝ) ≤ ((|c.val| : ℚ) : ℝ) := by exact_mod_cast h
      push_cast at this
      exact this
    rw [← sq_abs]
    calc (1 : ℝ) / 2 ^ 100 = (1 / 2 ^ 50) ^ 2 := by norm_num
      _ ≤ _ := pow_le_pow_left₀ (by positivity) h' 2
  have hS1 : 1 / 2 ^ 100 ≤ S := by
    rw [hS]
    have a := sq_nonneg (v.x.val : ℝ)
    have b := sq_nonneg (v.y.val : ℝ)
    have c := sq_nonneg (v.z.val : ℝ)
    rcases hs with h | h | h <;> have := big h <;> linarith
  refine ⟨hS1, uS.1, by exact_mod_cast r0, ?_⟩
  have hx2 := sq_nonneg (v.x.val : ℝ)
  have hy2 := sq_nonneg (v.y.val : ℝ)
  have hz2 := sq_nonneg (v.z.val : ℝ)
  generalize ((v.x *. v.x +. v.y *. v.y +. v.z *. v.z).val : ℝ) = Q at *
  generalize ((v.x *. v.x +. v.y *. v.y).val : ℝ) = P at *
  generalize ((v.x *. v.x).val : ℝ) = X at *
  generalize ((v.y *. v.y).val : ℝ) = Y at *
  generalize ((v.z *. v.z).val : ℝ) = Z at *
  generalize (v.x.val : ℝ) ^ 2 = a at *
  generalize (v.y.val : ℝ) ^ 2 = b at *
  generalize (v.z.val : ℝ) ^ 2 = c at *
  have tiny : 3 * ((1 : ℝ) / 2 ^ 150) ≤ S * (1 / 1000 / 2 ^ 24) := by
    calc 3 * ((1 : ℝ) / 2 ^ 150) ≤ 1 / 2 ^ 100 * (1 / 1000 / 2 ^ 24) := by norm_num
      _ ≤ _ := mul_le_mul_of_nonneg_right hS1 (by positivity)
  generalize (1 : ℝ) / 2 ^ 150 = τ at *
  obtain ⟨ex1, ex2⟩ := abs_le.1 ex
  obtain ⟨ey1, ey2⟩ := abs_le.1 ey
  obtain ⟨ez1, ez2⟩ := abs_le.1 ez
  obtain ⟨p1, p2⟩ := abs_le.1 p1
  obtain ⟨r1, r2⟩ := abs_le.1 r1
  norm_num at ex1 ex2 ey1 ey2 ez1 ez2 p1 p2 r1 r2 tiny ⊢
  rw [abs_le]
  constructor <;> linarith

/-- The computed length. -/
theorem length_near [Libm F32] (hl : AccurateSqrt) {v : V3 F32} (hv : UpTo3 53 v) (hs : NotTiny v) :
    Num v.length ∧ 0 < exactLength v ∧ |(v.length.val : ℝ) - exactLength v| ≤ exactLength v * (27 / 10 / 2 ^ 24) := by
  obtain ⟨hS1, nQ, q0, hq⟩ := sumsq hv hs rfl
  obtain ⟨w, f, h⟩ := hl _ nQ.wf nQ.fin q0
  unfold exactLength
  change v.length.WF at w
  change v.length.IsFin at f
  change |(v.length.val : ℝ) - _| ≤ _ at h
  set S := (v.x.val : ℝ) ^ 2 + (v.y.val : ℝ) ^ 2 + (v.z.val : ℝ) ^ 2 with hS
  have S0 : 0 < S := lt_of_lt_of_le (by positivity) hS1
  have l0 : 0 < √S := Real.sqrt_pos.2 S0
  refine ⟨⟨w, f⟩, l0, ?_⟩
  obtain ⟨q1, q2⟩ := abs_le.1 hq
  have b1 : √S * (1 - 16 / 10 / 2 ^ 24) ≤ √(((v.x *. v.x +. v.y *. v.y +. v.z *. v.z).val : ℝ)) := by
    apply Real.le_sqrt_of_sq_le
    rw [mul_pow, Real.sq_sqrt S0.le]
    norm_num at q1 ⊢
    linarith
  have b2 : √(((v.x *. v.x +. v.y *. v.y +. v.z *. v.z).val : ℝ)) ≤ √S * (1 + 16 / 10 / 2 ^ 24) := by
    apply Real.sqrt_le_iff.2 ⟨by positivity, ?_⟩
    rw [mul_pow, Real.sq_sqrt S0.le]
    norm_num at q2 ⊢
    linarith
  generalize √(((v.x *. v.x +. v.y *. v.y +. v.z *. v.z).val : ℝ)) = r at *
  obtain ⟨h1, h2⟩ := abs_le.1 h
  norm_num at b1 b2 h1 h2 ⊢
  rw [abs_le]
  constructor <;> linarith

/-- A coordinate of the computed unit vector. -/
theorem quotient_near {x L : F32} {l : ℝ} (hx : Num x) (hL : Num L) (hq : Num (x /. L)) (l0 : 0 < l) (h : |(L.val : ℝ) - l| ≤ l * (27 / 10 / 2 ^ 24)) :
    |((x /. L).val : ℝ) - x.val / l| ≤ |x.val / l| * (4 / 2 ^ 24) + 1 / 2 ^ 150 := by
  obtain ⟨-, -, he⟩ := div_err hx.wf hL.wf hL.fin hq.fin
  have he := cast_abs_le he
  unfold ulpHalf tinyHalf at he
  push_cast at he
  obtain ⟨h1, h2⟩ := abs_le.1 h
  have L0 : 0 < (L.val : ℝ) := by
    norm_num at h1
    linarith
  have e1 : (x.val : ℝ) / L.val - x.val / l = x.val / l * ((l - L.val) / L.val) := by field_simp
  have b1 : |(l - (L.val : ℝ)) / L.val| ≤ 28 / 10 / 2 ^ 24 := by
    rw [abs_div, abs_of_pos L0, div_le_iff₀ L0, abs_sub_comm]
    refine h.trans ?_
    norm_num at h1 ⊢
    linarith
  have b2 : |(x.val : ℝ) / L.val - x.val / l| ≤ |x.val / l| * (28 / 10 / 2 ^ 24) := by
    rw [e1, abs_mul]; exact mul_le_mul_of_nonneg_left b1 (abs_nonneg _)
  have b3 : |(x.val : ℝ) / L.val| ≤ |(x.val : ℝ) / l| * (1 + 28 / 10 / 2 ^ 24) := by
    rw [show (x.val : ℝ) / L.val = x.val / l + (x.val / L.val - x.val / l) by ring]
    refine (abs_add_le _ _).trans ?_
    linarith
  rw [show ((x /. L).val : ℝ) - x.val / l = ((x /. L).val - x.val / L.val) + (x.val / L.val - x.val / l) by ring]
  refine (abs_add_le _ _).trans ?_
  have a0 := abs_nonneg ((x.val : ℝ) / l)
  generalize |(x.val : ℝ) / l| = a at *
  generalize (1 : ℝ) / 2 ^ 150 = τ at *
  norm_num at he b2 b3 ⊢
  linarith

theorem product_near {x y : F32} {m n : ℕ} (hmn : m + n ≤ 126) (hx : UpTo m x) (hy : UpTo n y) :
    |((x *. y).val : ℝ) - x.val * y.val| ≤ |(x.val : ℝ) * y.val| / 2 ^ 24 + 1 / 2 ^ 150 := by
  have u := upTo_mul hmn hx hy
  have he := cast_abs_le (mul_err hx.1.wf hy.1.wf u.1.fin)
  unfold ulpHalf tinyHalf at he
  push_cast at he
  rwa [mul_one_div] at he

end VecF

open VecF NoPanic TriF in
/-- **C120**, normalising.  For every vector with coordinates of absolute value at most `2 ^ 53`, not all of them below `2 ^ -50`: the computed length is right up to a relative
error of `3 / 2 ^ 24`; the computed unit vector is a vector of numbers, each right up to a relative error of `4 / 2 ^ 24` and half the smallest number; its squared length
is one up to `9 / 2 ^ 24`. -/
theorem c120_normalize [Libm F32] (hl : AccurateSqrt) {v : V3 F32} (hv : UpTo3 53 v) (hs : NotTiny v) :
    |(v.length.val : ℝ) - exactLength v| ≤ exactLength v * (3 / 2 ^ 24) ∧
    (∀ a, Num (v.normalize.get a) ∧ |((v.normalize.get a).val : ℝ) - (v.get a).val / exactLength v| ≤ |((v.get a).val : ℝ) / exactLength v| * (4 / 2 ^ 24) + 1 / 2 ^ 150) ∧
    |(v.normalize.x.val : ℝ) ^ 2 + (v.normalize.y.val : ℝ) ^ 2 + (v.normalize.z.val : ℝ) ^ 2 - 1| ≤ 9 / 2 ^ 24 := by
  obtain ⟨nL, l0, h⟩ := length_near hl hv hs
  have l2 : exactLength v ^ 2 = (v.x.val : ℝ) ^ 2 + (v.y.val : ℝ) ^ 2 + (v.z.val : ℝ) ^ 2 := by
    unfold exactLength; exact Real.sq_sqrt (by positivity)
  have L0 : 0 < (v.length.val : ℝ) := by
    have := (abs_le.1 h).1
    norm_num at this
    linarith
  have le1 : ∀ a, |((v.get a).val : ℝ)| ≤ exactLength v := by
    intro a
    rw [← abs_of_pos l0]
    apply sq_le_sq.1
    rw [l2]
    have a1 := sq_nonneg (v.x.val : ℝ)
    have a2 := sq_nonneg (v.y.val : ℝ)
    have a3 := sq_nonneg (v.z.val : ℝ)
    cases a <;> simp only [V3.get] <;> linarith
  have num : ∀ a, Num (v.get a) := by intro a; cases a <;> [exact hv.1.1; exact hv.2.1.1; exact hv.2.2.1]
  have quo : ∀ a, Num (v.normalize.get a) := by
    intro a
    have hL : v.length.val ≠ 0 := by
      intro e; rw [e] at L0; norm_num at L0
    have u : UpTo 1 ((v.get a) /. v.length) := by
      refine upTo_div (by omega) (num a) nL hL ?_
      have L0' : 0 < v.length.val := by exact_mod_cast L0
      rw [abs_of_pos L0', pow_one]
      have h1 := le1 a
      have h2 := (abs_le.1 h).1
      have : |((v.get a).val : ℝ)| ≤ 2 * (v.length.val : ℝ) := by
        norm_num at h2
        linarith
      exact_mod_cast this
    cases a <;> exact u.1
  have coord : ∀ a, |((v.normalize.get a).val : ℝ) - (v.get a).val / exactLength v| ≤ |((v.get a).val : ℝ) / exactLength v| * (4 / 2 ^ 24) + 1 / 2 ^ 150 := by
    intro a
    have e : v.normalize.get a = v.get a /. v.length := by cases a <;> rfl
    have := quo a
    rw [e] at this ⊢
    exact quotient_near (num a) nL this l0 h
  refine ⟨?_, fun a => ⟨quo a, coord a⟩, ?_⟩
  · refine h.trans (mul_le_mul_of_nonneg_left (by norm_num) l0.le)
  have sq1 : ((v.x.val : ℝ) / exactLength v) ^ 2 + ((v.y.val : ℝ) / exactLength v) ^ 2 + ((v.z.val : ℝ) / exactLength v) ^ 2 = 1 := by
    rw [div_pow, div_pow, div_pow, ← add_div, ← add_div, ← l2, div_self (by positivity)]
  have one : ∀ {n a : ℝ}, |n - a| ≤ |a| * (4 / 2 ^ 24) + 1 / 2 ^ 150 → |a| ≤ 1 → |n ^ 2 - a ^ 2| ≤ a ^ 2 * (81 / 10 / 2 ^ 24) + 3 / 2 ^ 150 := by
    intro n a h ha
    have h1 : |n + a| ≤ |a| * (2 + 4 / 2 ^ 24) + 1 / 2 ^ 150 := by
      rw [show n + a = (n - a) + 2 * a by ring]
      refine (abs_add_le _ _).trans ?_
      rw [abs_mul, abs_of_pos (by norm_num : (0 : ℝ) < 2)]
      linarith
    rw [show n ^ 2 - a ^ 2 = (n - a) * (n + a) by ring, abs_mul, ← sq_abs a]
    have a0 := abs_nonneg a
    calc _ ≤ (|a| * (4 / 2 ^ 24) + 1 / 2 ^ 150) * (|a| * (2 + 4 / 2 ^ 24) + 1 / 2 ^ 150) := mul_le_mul h h1 (abs_nonneg _) (by positivity)
      _ = |a| ^ 2 * ((4 / 2 ^ 24) * (2 + 4 / 2 ^ 24)) + |a| * ((4 / 2 ^ 24 + (2 + 4 / 2 ^ 24)) * (1 / 2 ^ 150)) + 1 / 2 ^ 150 * (1 / 2 ^ 150) := by ring
      _ ≤ |a| ^ 2 * (81 / 10 / 2 ^ 24) + 1 * ((4 / 2 ^ 24 + (2 + 4 / 2 ^ 24)) * (1 / 2 ^ 150)) + 1 / 2 ^ 150 * (1 / 2 ^ 150) := by
        refine add_le_add (add_le_add (mul_le_mul_of_nonneg_left (by norm_num) (by positivity)) (mul_le_mul_of_nonneg_right ha (by positivity))) le_rfl
      _ ≤ _ := by
        rw [sq_abs, add_assoc]
        exact add_le_add le_rfl (by norm_num)
  have small : ∀ a, |((v.get a).val : ℝ) / exactLength v| ≤ 1 := by
    intro a
    rw [abs_div, abs_of_pos l0, div_le_one l0]; exact le1 a
  have o1 := one (coord .X) (small .X)
  have o2 := one (coord .Y) (small .Y)
  have o3 := one (coord .Z) (small .Z)
  simp only [V3.get] at o1 o2 o3
  generalize (v.x.val : ℝ) / exactLength v = a at *
  generalize (v.y.val : ℝ) / exactLength v = b at *
  generalize (v.z.val : ℝ) / exactLength v = c at *
  obtain ⟨x1, x2⟩ := abs_le.1 o1
  obtain ⟨y1, y2⟩ := abs_le.1 o2
  obtain ⟨z1, z2⟩ := abs_le.1 o3
  have tiny : (3 : ℝ) / 2 ^ 150 * 3 ≤ 1 / 10 / 2 ^ 24 := by norm_num
  generalize (3 : ℝ) / 2 ^ 150 = τ at *
  norm_num at x1 x2 y1 y2 z1 z2 tiny ⊢
  rw [abs_le]
  constructor <;> linarith

open VecF NoPanic TriF in
/-- **C120**, products.  For vectors with coordinates of absolute value at most `2 ^ 60` the computed scalar and vector product are vectors of numbers, right up to a few
half units relative to the sum of the absolute values of the products of coordinates. -/
theorem c120_products {v w : V3 F32} (hv : UpTo3 60 v) (hw : UpTo3 60 w) :
    (Num (v.dot w) ∧ |((v.dot w).val : ℝ) - (v.x.val * w.x.val + v.y.val * w.y.val + v.z.val * w.z.val)| ≤
      (|(v.x.val : ℝ) * w.x.val| + |(v.y.val : ℝ) * w.y.val| + |(v.z.val : ℝ) * w.z.val|) * (4 / 2 ^ 24) + 1 / 2 ^ 147) ∧
    (Num (v.cross w).x ∧ |((v.cross w).x.val : ℝ) - (v.y.val * w.z.val - v.z.val * w.y.val)| ≤ (|(v.y.val : ℝ) * w.z.val| + |(v.z.val : ℝ) * w.y.val|) * (3 / 2 ^ 24) + 1 / 2 ^ 147) ∧
    (Num (v.cross w).y ∧ |((v.cross w).y.val : ℝ) - (v.z.val * w.x.val - v.x.val * w.z.val)| ≤ (|(v.z.val : ℝ) * w.x.val| + |(v.x.val : ℝ) * w.z.val|) * (3 / 2 ^ 24) + 1 / 2 ^ 147) ∧
    (Num (v.cross w).z ∧ |((v.cross w).z.val : ℝ) - (v.x.val * w.y.val - v.y.val * w.x.val)| ≤ (|(v.x.val : ℝ) * w.y.val| + |(v.y.val : ℝ) * w.x.val|) * (3 / 2 ^ 24) + 1 / 2 ^ 147) := by
  have minor : ∀ {a b c d : F32}, UpTo 60 a → UpTo 60 b → UpTo 60 c → UpTo 60 d →
      Num (a *. b -. c *. d) ∧ |((a *. b -. c *. d).val : ℝ) - (a.val * b.val - c.val * d.val)| ≤ (|(a.val : ℝ) * b.val| + |(c.val : ℝ) * d.val|) * (3 / 2 ^ 24) + 1 / 2 ^ 147 := by
    intro a b c d ha hb hc hd
    have u1 := upTo_mul (m := 60) (n := 60) (by omega) ha hb
    have u2 := upTo_mul (m := 60) (n := 60) (by omega) hc hd
    have u3 := upTo_sub (by omega) u1 u2
    refine ⟨u3.1, (sub_near u1.1 u2.1 u3.1 (product_near (by omega) ha hb) (product_near (by omega) hc hd) (abs_sub _ _)).trans ?_⟩
    have p := abs_nonneg ((a.val : ℝ) * b.val)
    have q := abs_nonneg ((c.val : ℝ) * d.val)
    generalize |(a.val : ℝ) * b.val| = p at *
    generalize |(c.val : ℝ) * d.val| = q at *
    norm_num
    linarith
  refine ⟨?_, minor hv.2.1 hw.2.2 hv.2.2 hw.2.1, minor hv.2.2 hw.1 hv.1 hw.2.2, minor hv.1 hw.2.1 hv.2.1 hw.1⟩
  have u1 := upTo_mul (m := 60) (n := 60) (by omega) hv.1 hw.1
  have u2 := upTo_mul (m := 60) (n := 60) (by omega) hv.2.1 hw.2.1
  have u3 := upTo_mul (m := 60) (n := 60) (by omega) hv.2.2 hw.2.2
  have u4 := upTo_add (by omega) u1 u2
  have u5 := upTo_add (by omega) u4 (UpTo.mono u3 (by omega))
  have n1 := add_near u1.1 u2.1 u4.1 (product_near (by omega) hv.1 hw.1) (product_near (by omega) hv.2.1 hw.2.1) (abs_add_le _ _)
  have n2 := add_near u4.1 u3.1 u5.1 n1 (product_near (by omega) hv.2.2 hw.2.2)
    ((abs_add_le _ _).trans (add_le_add_left (abs_add_le _ _) _))
  refine ⟨u5.1, n2.trans ?_⟩
  have p := abs_nonneg ((v.x.val : ℝ) * w.x.val)
  have q := abs_nonneg ((v.y.val : ℝ) * w.y.val)
  have r := abs_nonneg ((v.z.val : ℝ) * w.z.val)
  generalize |(v.x.val : ℝ) * w.x.val| = p at *
  generalize |(v.y.val : ℝ) * w.y.val| = q at *
  generalize |(v.z.val : ℝ) * w.z.val| = r at *
  norm_num
  linarith

/-- **C120**: outside that range normalising fails, whatever the square root.  A vector of length `2 ^ 64` becomes zero, and one of length `2 ^ -75` infinite, if only the square
root of infinity is infinity and that of zero is zero. -/
theorem c120_range_needed [Libm F32] (h1 : Libm.sqrt (inf false : F32) = inf false) (h0 : Libm.sqrt (lit 0 : F32) = lit 0) :
    (⟨f32 (2 ^ 64), f32 0, f32 0⟩ : V3 F32).normalize = ⟨f32 0, f32 0, f32 0⟩ ∧
    (⟨f32 (1 / 2 ^ 75), f32 0, f32 0⟩ : V3 F32).normalize = ⟨inf false, nan, nan⟩ := by
  have e1 : f32 (2 ^ 64) *. f32 (2 ^ 64) +. f32 0 *. f32 0 +. f32 0 *. f32 0 = inf false := by decide +kernel
  have e0 : f32 (1 / 2 ^ 75) *. f32 (1 / 2 ^ 75) +. f32 0 *. f32 0 +. f32 0 *. f32 0 = lit 0 := by decide +kernel
  unfold V3.normalize V3.length
  simp only [e1, e0, h1, h0]
  constructor
  · exact v3_eq (by decide +kernel) (by decide +kernel) (by decide +kernel)
  · exact v3_eq (by decide +kernel) (by decide +kernel) (by decide +kernel)

namespace VecF
open NoPanic TriF

/-- In the camera's own coordinates the points of the film are neither tiny nor huge. -/
theorem steady_point {camera : PerspectiveCamera F32} (hc : SteadyCamera camera) {p : V2 F32} (hx : UpTo 24 p.x) (hy : UpTo 24 p.y) :
    UpTo3 53 (camera.rasterToCamera.apply pointTransform ⟨p.x, p.y, lit 0⟩) ∧ NotTiny (camera.rasterToCamera.apply pointTransform ⟨p.x, p.y, lit 0⟩) := by
  obtain ⟨hrot, hwin, hcor, hflat, hdep⟩ := hc
  simp only [List.mem_cons, List.not_mem_nil, or_false, forall_eq_or_imp, forall_eq] at hrot hwin hcor hflat hdep
  clear hrot
  obtain ⟨w00, w01, w02, w10, w11, w12⟩ := hwin
  obtain ⟨c03, c13, c22, c32⟩ := hcor
  obtain ⟨f20, f21, f30, f31⟩ := hflat
  obtain ⟨⟨z1, z2⟩, d1, d2⟩ := hdep
  have hX := NoPanic.camera_row w00 w01 w02 c03 hx hy
  have hY := NoPanic.camera_row w10 w11 w12 c13 hx hy
  obtain ⟨Z1, Z2⟩ := NoPanic.flat_row f20 f21 c22.1 z1.1 hx.1 hy.1
  obtain ⟨W1, W2⟩ := NoPanic.flat_row f30 f31 c32.1 d1.1 hx.1 hy.1
  unfold Transform.apply pointTransform
  generalize camera.rasterToCamera.m.m00 *. p.x +. camera.rasterToCamera.m.m01 *. p.y +. camera.rasterToCamera.m.m02 *. lit 0 +. camera.rasterToCamera.m.m03 = X at *
  generalize camera.rasterToCamera.m.m10 *. p.x +. camera.rasterToCamera.m.m11 *. p.y +. camera.rasterToCamera.m.m12 *. lit 0 +. camera.rasterToCamera.m.m13 = Y at *
  generalize camera.rasterToCamera.m.m20 *. p.x +. camera.rasterToCamera.m.m21 *. p.y +. camera.rasterToCamera.m.m22 *. lit 0 +. camera.rasterToCamera.m.m23 = Z at *
  generalize camera.rasterToCamera.m.m30 *. p.x +. camera.rasterToCamera.m.m31 *. p.y +. camera.rasterToCamera.m.m32 *. lit 0 +. camera.rasterToCamera.m.m33 = W at *
  have hZ : UpTo 20 Z := ⟨Z1, by rw [Z2]; exact z1.2⟩
  have hW : UpTo 20 W := ⟨W1, by rw [W2]; exact d1.2⟩
  rw [← Z2] at z2
  rw [← W2] at d2
  simp only
  split_ifs
  · refine ⟨⟨NoPanic.UpTo.mono hX (by omega), NoPanic.UpTo.mono hY (by omega), NoPanic.UpTo.mono hZ (by omega)⟩, Or.inr (Or.inr (le_trans ?_ z2))⟩
    norm_num
  · have hW0 : W.val ≠ 0 := by intro h; rw [h] at d2; norm_num at d2
    have key : ∀ q : F32, UpTo 37 q → UpTo 53 (q /. W) := fun q hq => NoPanic.upTo_div (by omega) hq.1 hW.1 hW0 (by
      have := hq.2
      norm_num at this d2 ⊢
      linarith)
    exact ⟨⟨key _ hX, key _ hY, key _ (NoPanic.UpTo.mono hZ (by omega))⟩, Or.inr (Or.inr (NoPanic.div_ge hZ hW z2 d2))⟩

/-- One coordinate of a rotated unit vector. -/
theorem turned {r0 r1 r2 n0 n1 n2 : F32} {a0 a1 a2 : ℝ} (hr0 : UpTo 0 r0) (hr1 : UpTo 0 r1) (hr2 : UpTo 0 r2) (h0 : UpTo 1 n0) (h1 : UpTo 1 n1) (h2 : UpTo 1 n2)
    (b0 : |a0| ≤ 1) (b1 : |a1| ≤ 1) (b2 : |a2| ≤ 1) (e0 : |(n0.val : ℝ) - a0| ≤ 41 / 10 / 2 ^ 24) (e1 : |(n1.val : ℝ) - a1| ≤ 41 / 10 / 2 ^ 24)
    (e2 : |(n2.val : ℝ) - a2| ≤ 41 / 10 / 2 ^ 24) :
    Num (r0 *. n0 +. r1 *. n1 +. r2 *. n2) ∧ |((r0 *. n0 +. r1 *. n1 +. r2 *. n2).val : ℝ) - (r0.val * a0 + r1.val * a1 + r2.val * a2)| ≤ 1 / 2 ^ 19 := by
  have u0 := upTo_mul (m := 0) (n := 1) (by omega) hr0 h0
  have u1 := upTo_mul (m := 0) (n := 1) (by omega) hr1 h1
  have u2 := upTo_mul (m := 0) (n := 1) (by omega) hr2 h2
  have u3 := upTo_add (by omega) u0 u1
  have u4 := upTo_add (by omega) u3 (UpTo.mono u2 (by omega))
  have one : ∀ {r : F32}, UpTo 0 r → |(r.val : ℝ)| ≤ 1 := fun h => by
    have := h.2
    rw [pow_zero] at this
    exact_mod_cast this
  have pr : ∀ {r : F32} {a : ℝ}, UpTo 0 r → |a| ≤ 1 → |(r.val : ℝ) * a| ≤ 1 := fun h h' => by
    rw [abs_mul]; exact mul_le_one₀ (one h) (abs_nonneg _) h'
  have m0 := mul_near hr0.1 h0.1 u0.1 (one hr0) e0 b0
  have m1 := mul_near hr1.1 h1.1 u1.1 (one hr1) e1 b1
  have m2 := mul_near hr2.1 h2.1 u2.1 (one hr2) e2 b2
  have m3 := add_near u0.1 u1.1 u3.1 m0 m1 (m := 2) ((abs_add_le _ _).trans (by linarith [pr hr0 b0, pr hr1 b1]))
  have m4 := add_near u3.1 u2.1 u4.1 m3 m2 (m := 3) ((abs_add_le _ _).trans ((add_le_add_left (abs_add_le _ _) _).trans (by linarith [pr hr0 b0, pr hr1 b1, pr hr2 b2])))
  exact ⟨u4.1, m4.trans (by norm_num)⟩
end VecF

open VecF NoPanic TriF in
/-- **C52** in single precision.  Take a camera whose rotation has entries of absolute value at most one and which maps the film to one depth, neither tiny nor huge.  Then for
every point of the film with coordinates up to `2 ^ 24` every coordinate of the direction of its ray is a number within `2 ^ -19` of the exact one: the rotation, applied to the
exact unit vector from the eye to the point `q` of the film in the camera's own coordinates. -/
theorem c52_f32 [Libm F32] (hl : AccurateSqrt) (camera : PerspectiveCamera F32) (hc : SteadyCamera camera)
    (hr : ∀ c ∈ [camera.cameraToWorld.m.m00, camera.cameraToWorld.m.m01, camera.cameraToWorld.m.m02, camera.cameraToWorld.m.m10, camera.cameraToWorld.m.m11,
      camera.cameraToWorld.m.m12, camera.cameraToWorld.m.m20, camera.cameraToWorld.m.m21, camera.cameraToWorld.m.m22], |c.val| ≤ 1)
    (p : V2 F32) (hx : UpTo 24 p.x) (hy : UpTo 24 p.y) :
    let q := camera.rasterToCamera.apply pointTransform ⟨p.x, p.y, lit 0⟩
    let d := (camera.generateRay p).direction
    let m := camera.cameraToWorld.m
    let a : ℝ := q.x.val / exactLength q
    let b : ℝ := q.y.val / exactLength q
    let c : ℝ := q.z.val / exactLength q
    a ^ 2 + b ^ 2 + c ^ 2 = 1 ∧
    (Num d.x ∧ |(d.x.val : ℝ) - (m.m00.val * a + m.m01.val * b + m.m02.val * c)| ≤ 1 / 2 ^ 19) ∧
    (Num d.y ∧ |(d.y.val : ℝ) - (m.m10.val * a + m.m11.val * b + m.m12.val * c)| ≤ 1 / 2 ^ 19) ∧
    (Num d.z ∧ |(d.z.val : ℝ) - (m.m20.val * a + m.m21.val * b + m.m22.val * c)| ≤ 1 / 2 ^ 19) := by
  intro q d m a b c
  obtain ⟨hv, hs⟩ : UpTo3 53 q ∧ NotTiny q := steady_point hc hx hy
  obtain ⟨-, h2, -⟩ := c120_normalize hl hv hs
  obtain ⟨-, l0, -⟩ := length_near hl hv hs
  have l2 : exactLength q ^ 2 = (q.x.val : ℝ) ^ 2 + (q.y.val : ℝ) ^ 2 + (q.z.val : ℝ) ^ 2 := by
    unfold exactLength; exact Real.sq_sqrt (by positivity)
  have sq1 : a ^ 2 + b ^ 2 + c ^ 2 = 1 := by
    simp only [a, b, c]
    rw [div_pow, div_pow, div_pow, ← add_div, ← add_div, ← l2, div_self (by positivity)]
  have a1 : |a| ≤ 1 := (sq_le_one_iff_abs_le_one _).1 (by nlinarith [sq_nonneg b, sq_nonneg c])
  have b1 : |b| ≤ 1 := (sq_le_one_iff_abs_le_one _).1 (by nlinarith [sq_nonneg a, sq_nonneg c])
  have c1 : |c| ≤ 1 := (sq_le_one_iff_abs_le_one _).1 (by nlinarith [sq_nonneg a, sq_nonneg b])
  have near : ∀ {n : F32} {t : ℝ}, Num n ∧ |(n.val : ℝ) - t| ≤ |t| * (4 / 2 ^ 24) + 1 / 2 ^ 150 → |t| ≤ 1 → UpTo 1 n ∧ |(n.val : ℝ) - t| ≤ 41 / 10 / 2 ^ 24 := by
    intro n t h ht
    have h' : |(n.val : ℝ) - t| ≤ 41 / 10 / 2 ^ 24 := by
      refine h.2.trans ?_
      norm_num
      linarith
    refine ⟨⟨h.1, ?_⟩, h'⟩
    have : |(n.val : ℝ)| ≤ 2 := by
      rw [show (n.val : ℝ) = t + (n.val - t) by ring]
      refine (abs_add_le _ _).trans ?_
      norm_num at h' ⊢
      linarith
    rw [pow_one]
    exact_mod_cast this
  obtain ⟨x1, x2⟩ := near (h2 .X) a1
  obtain ⟨y1, y2⟩ := near (h2 .Y) b1
  obtain ⟨z1, z2⟩ := near (h2 .Z) c1
  simp only [List.mem_cons, List.not_mem_nil, or_false, forall_eq_or_imp, forall_eq] at hr
  have hn := hc.rotation
  simp only [List.mem_cons, List.not_mem_nil, or_false, forall_eq_or_imp, forall_eq] at hn
  obtain ⟨n00, n01, n02, n10, n11, n12, n20, n21, n22⟩ := hn
  obtain ⟨r00, r01, r02, r10, r11, r12, r20, r21, r22⟩ := hr
  have up : ∀ {c : F32}, UpTo 50 c → |c.val| ≤ 1 → UpTo 0 c := fun h h' => ⟨h.1, by simpa using h'⟩
  have hd : d = vectorTransform q.normalize m camera.cameraToWorld.mInv := by
    rfl
  rw [hd]
  refine ⟨sq1, ?_, ?_, ?_⟩
  · exact turned (up n00 r00) (up n01 r01) (up n02 r02) x1 y1 z1 a1 b1 c1 x2 y2 z2
  · exact turned (up n10 r10) (up n11 r11) (up n12 r12) x1 y1 z1 a1 b1 c1 x2 y2 z2
  · exact turned (up n20 r20) (up n21 r21) (up n22 r22) x1 y1 z1 a1 b1 c1 x2 y2 z2

/-- Such a square root exists. -/
example : letI := Demo.roughLibm
    Libm.sqrt (inf false : F32) = inf false ∧ Libm.sqrt (lit 0 : F32) = lit 0 := by
  refine ⟨rfl, ?_⟩
  show Demo.roughSqrt (lit 0) = lit 0
  have e : (lit 0 : F32) = fin false 0 := by decide +kernel
  have h : Demo.roughSqrt (fin false 0) = if 0 < (fin false 0 : F32).val then ofVal (2 ^ Int.log 4 (2 * (fin false 0 : F32).val)) false else lit 0 := rfl
  rw [e, h, if_neg (by decide +kernel), e]

/-- The conditions of `c120_normalize` and `c120_products` hold of a vector whose length is not a number of the format. -/
example : letI := Demo.libm32
    AccurateSqrt ∧ UpTo3 53 (⟨f32 (1 / 3), f32 (-7), f32 0⟩ : V3 F32) ∧ UpTo3 60 (⟨f32 (1 / 3), f32 (-7), f32 0⟩ : V3 F32) ∧ NotTiny (⟨f32 (1 / 3), f32 (-7), f32 0⟩ : V3 F32) := by
  have n : ∀ k, k ≤ 126 → ∀ q : ℚ, |q| ≤ 2 ^ k → UpTo k (f32 q) := fun k hk q h => NoPanic.upTo_ofVal hk h _
  refine ⟨Demo.libm32_accurate, ⟨n 53 (by omega) (1 / 3) (by norm_num [abs_of_pos]), n 53 (by omega) (-7) (by norm_num [abs_of_pos]), n 53 (by omega) 0 (by norm_num)⟩,
    ⟨n 60 (by omega) (1 / 3) (by norm_num [abs_of_pos]), n 60 (by omega) (-7) (by norm_num [abs_of_pos]), n 60 (by omega) 0 (by norm_num)⟩, Or.inr (Or.inl ?_)⟩
  show 1 / 2 ^ 50 ≤ |(f32 (-7)).val|
  decide +kernel

namespace Demo
/-- The accurate square root, with a tangent of one. -/
noncomputable abbrev tangentLibm : Libm F32 := { libm32 with tan := fun _ => lit 1 }
end Demo

/-- A camera of the library with a view of 90 degrees meets the conditions. -/
example : letI := Demo.tangentLibm
    AccurateSqrt ∧ SteadyCamera Demo.wideCamera ∧
    ∀ c ∈ [Demo.wideCamera.cameraToWorld.m.m00, Demo.wideCamera.cameraToWorld.m.m01, Demo.wideCamera.cameraToWorld.m.m02, Demo.wideCamera.cameraToWorld.m.m10,
      Demo.wideCamera.cameraToWorld.m.m11, Demo.wideCamera.cameraToWorld.m.m12, Demo.wideCamera.cameraToWorld.m.m20, Demo.wideCamera.cameraToWorld.m.m21,
      Demo.wideCamera.cameraToWorld.m.m22], |c.val| ≤ 1 := by
  let _ := Demo.tangentLibm
  refine ⟨Demo.libm32_accurate, Demo.wideCamera_steady rfl, ?_⟩
  intro x hx
  have : x = lit 0 ∨ x = lit 1 := by
    simp only [Demo.wideCamera, PerspectiveCamera.new, Transform.translate, List.mem_cons, List.not_mem_nil, or_false] at hx
    tauto
  rcases this with rfl | rfl <;> decide +kernel

end PT
