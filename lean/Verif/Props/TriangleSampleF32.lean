import Verif.Props.DiffuseF32

/-!
# Points drawn on a triangle, in single precision (C42)
-/

namespace PT
open Spec Fl

namespace TriF
open NoPanic

/-- The sum of two numbers that are known up to an error. -/
theorem add_near {x y : F32} (hx : Num x) (hy : Num y) (h : Num (x +. y)) {a b e f m : ℝ} (ha : |(x.val : ℝ) - a| ≤ e) (hb : |(y.val : ℝ) - b| ≤ f) (hm : |a + b| ≤ m) :
    |((x +. y).val : ℝ) - (a + b)| ≤ e + f + (m + e + f) / 2 ^ 24 := by
  have he := cast_abs_le (add_err hx.wf hy.wf h.fin)
  unfold ulpHalf at he
  push_cast at he
  have h1 : |(x.val : ℝ) + y.val - (a + b)| ≤ e + f := by
    rw [show (x.val : ℝ) + y.val - (a + b) = (x.val - a) + (y.val - b) by ring]
    exact (abs_add_le _ _).trans (by linarith)
  have h2 : |(x.val : ℝ) + y.val| ≤ m + e + f := by
    rw [show (x.val : ℝ) + y.val = (a + b) + (x.val + y.val - (a + b)) by ring]
    exact (abs_add_le _ _).trans (by linarith)
  rw [show ((x +. y).val : ℝ) - (a + b) = ((x +. y).val - (x.val + y.val)) + (x.val + y.val - (a + b)) by ring]
  refine (abs_add_le _ _).trans ?_
  have h3 : |(x.val : ℝ) + y.val| * (1 / 2 ^ 24) ≤ (m + e + f) / 2 ^ 24 := by
    rw [mul_one_div]; exact div_le_div_of_nonneg_right h2 (by positivity)
  linarith

theorem sub_near {x y : F32} (hx : Num x) (hy : Num y) (h : Num (x -. y)) {a b e f m : ℝ} (ha : |(x.val : ℝ) - a| ≤ e) (hb : |(y.val : ℝ) - b| ≤ f) (hm : |a - b| ≤ m) :
    |((x -. y).val : ℝ) - (a - b)| ≤ e + f + (m + e + f) / 2 ^ 24 := by
  have hn := neg_ok hy
  have := add_near hx hn.1 (y := ⊖y) h (a := a) (b := -b) ha (f := f) (by
    rw [hn.2]; push_cast
    rw [show -(y.val : ℝ) - -b = -(y.val - b) by ring, abs_neg]; exact hb) (m := m) (by rwa [← sub_eq_add_neg])
  rwa [← sub_eq_add_neg] at this

/-- The product of a number and one that is known up to an error. -/
theorem mul_near {x y : F32} (hx : Num x) (hy : Num y) (h : Num (x *. y)) {b e k m : ℝ} (hk : |(x.val : ℝ)| ≤ k) (hb : |(y.val : ℝ) - b| ≤ e) (hm : |b| ≤ m) :
    |((x *. y).val : ℝ) - x.val * b| ≤ k * e + k * (m + e) / 2 ^ 24 + 1 / 2 ^ 150 := by
  have he := cast_abs_le (mul_err hx.wf hy.wf h.fin)
  unfold ulpHalf tinyHalf at he
  push_cast at he
  have k0 : 0 ≤ k := (abs_nonneg _).trans hk
  have h1 : |(x.val : ℝ) * y.val - x.val * b| ≤ k * e := by
    rw [← mul_sub, abs_mul]; exact mul_le_mul hk hb (abs_nonneg _) k0
  have h2 : |(x.val : ℝ) * y.val| ≤ k * (m + e) := by
    rw [abs_mul]
    refine mul_le_mul hk ?_ (abs_nonneg _) k0
    rw [show (y.val : ℝ) = b + (y.val - b) by ring]
    exact (abs_add_le _ _).trans (by linarith)
  rw [show ((x *. y).val : ℝ) - x.val * b = ((x *. y).val - x.val * y.val) + (x.val * y.val - x.val * b) by ring]
  refine (abs_add_le _ _).trans ?_
  have h3 : |(x.val : ℝ) * y.val| * (1 / 2 ^ 24) ≤ k * (m + e) / 2 ^ 24 := by
    rw [mul_one_div]; exact div_le_div_of_nonneg_right h2 (by positivity)
  linarith

/-- One coordinate of the drawn point. -/
theorem coordinate {v0 v1 v2 B0 B1 B2 : F32} {b0 b1 b2 M : ℝ} (u0 : UpTo 100 v0) (u1 : UpTo 100 v1) (u2 : UpTo 100 v2) (w0 : UpTo 4 B0) (w1 : UpTo 4 B1) (w2 : UpTo 4 B2)
    (m0 : |(v0.val : ℝ)| ≤ M) (m1 : |(v1.val : ℝ)| ≤ M) (m2 : |(v2.val : ℝ)| ≤ M) (p0 : 0 ≤ b0) (p1 : 0 ≤ b1) (p2 : 0 ≤ b2) (hs : b0 + b1 + b2 = 1)
    (e0 : |(B0.val : ℝ) - b0| ≤ 21 / 10 / 2 ^ 24) (e1 : |(B1.val : ℝ) - b1| ≤ 21 / 10 / 2 ^ 24) (e2 : |(B2.val : ℝ) - b2| ≤ 64 / 10 / 2 ^ 24) :
    Num ((v0 *. B0 +. v1 *. B1) +. v2 *. B2) ∧
    |(((v0 *. B0 +. v1 *. B1) +. v2 *. B2).val : ℝ) - (v0.val * b0 + v1.val * b1 + v2.val * b2)| ≤ 17 * M / 2 ^ 24 + 1 / 2 ^ 147 := by
  have t0 := upTo_mul (m := 100) (n := 4) (by omega) u0 w0
  have t1 := upTo_mul (m := 100) (n := 4) (by omega) u1 w1
  have t2 := upTo_mul (m := 100) (n := 4) (by omega) u2 w2
  have t3 := upTo_add (by omega) t0 t1
  have t4 := upTo_add (by omega) t3 (UpTo.mono t2 (by omega))
  refine ⟨t4.1, ?_⟩
  have M0 : 0 ≤ M := (abs_nonneg _).trans m0
  have one : ∀ {b : ℝ}, 0 ≤ b → b ≤ 1 → |b| ≤ 1 := fun h h' => by rwa [abs_of_nonneg h]
  have n0 := mul_near u0.1 w0.1 t0.1 m0 e0 (one p0 (by linarith))
  have n1 := mul_near u1.1 w1.1 t1.1 m1 e1 (one p1 (by linarith))
  have n2 := mul_near u2.1 w2.1 t2.1 m2 e2 (one p2 (by linarith))
  have part : ∀ {v b : ℝ}, |v| ≤ M → 0 ≤ b → |v * b| ≤ M * b := fun h h' => by
    rw [abs_mul, abs_of_nonneg h']; exact mul_le_mul_of_nonneg_right h h'
  have q0 := part m0 p0
  have q1 := part m1 p1
  have q2 := part m2 p2
  have n3 := add_near t0.1 t1.1 t3.1 n0 n1 (m := M) (by
    refine (abs_add_le _ _).trans ?_
    have : M * (b0 + b1) ≤ M * 1 := mul_le_mul_of_nonneg_left (by linarith) M0
    linarith)
  have n4 := add_near t3.1 t2.1 t4.1 n3 n2 (m := M) (by
    refine (abs_add_le _ _).trans ((add_le_add_left (abs_add_le _ _) _).trans ?_)
    have : M * (b0 + b1 + b2) = M := by rw [hs, mul_one]
    linarith)
  refine n4.trans ?_
  norm_num
  linarith

/-- The weights of the drawn point. -/
theorem weights [Libm F32] (hl : AccurateSqrt) {x y : F32} (hx : Sample32 x) (hy : Sample32 y) :
    UpTo 4 (lit 1 -. Libm.sqrt x) ∧ UpTo 4 (y *. Libm.sqrt x) ∧ UpTo 4 (lit 1 -. (lit 1 -. Libm.sqrt x) -. y *. Libm.sqrt x) ∧
    |((lit 1 -. Libm.sqrt x).val : ℝ) - (1 - √(x.val : ℝ))| ≤ 21 / 10 / 2 ^ 24 ∧
    |((y *. Libm.sqrt x).val : ℝ) - y.val * √(x.val : ℝ)| ≤ 21 / 10 / 2 ^ 24 ∧
    |((lit 1 -. (lit 1 -. Libm.sqrt x) -. y *. Libm.sqrt x).val : ℝ) - (√(x.val : ℝ) - y.val * √(x.val : ℝ))| ≤ 64 / 10 / 2 ^ 24 := by
  obtain ⟨hx, hx0⟩ := sample_num hx
  obtain ⟨hy, hy0⟩ := sample_num hy
  obtain ⟨w, f, h⟩ := hl x hx.1.wf hx.1.fin hx0
  have x1 : (x.val : ℝ) ≤ 1 := by
    have := (abs_le.1 hx.2).2
    rw [pow_zero] at this
    exact_mod_cast this
  have y1 : (y.val : ℝ) ≤ 1 := by
    have := (abs_le.1 hy.2).2
    rw [pow_zero] at this
    exact_mod_cast this
  have y0 : (0 : ℝ) ≤ (y.val : ℝ) := by exact_mod_cast hy0
  have q0 := Real.sqrt_nonneg (x.val : ℝ)
  have q1 : √(x.val : ℝ) ≤ 1 := Real.sqrt_le_one.2 x1
  generalize √(x.val : ℝ) = q at *
  generalize Libm.sqrt x = s at *
  have hs : |(s.val : ℝ) - q| ≤ 1001 / 1000 / 2 ^ 24 := h.trans (by nlinarith [show (0 : ℝ) < 1001 / 1000 / 2 ^ 24 by positivity])
  have us : UpTo 1 s := by
    refine ⟨⟨w, f⟩, ?_⟩
    have : |(s.val : ℝ)| ≤ 2 := by
      rw [show (s.val : ℝ) = q + (s.val - q) by ring]
      refine (abs_add_le _ _).trans ?_
      rw [abs_of_nonneg q0]
      norm_num at hs ⊢
      linarith
    rw [pow_one]
    exact_mod_cast this
  have one := upTo_one
  have v1 : |((lit 1 : F32).val : ℝ) - 1| ≤ 0 := by rw [Sgn.lit_one.2.1]; simp
  have k0 : UpTo 2 (lit 1 -. s) := upTo_sub (by omega) (UpTo.mono one (by omega)) us
  have k1 : UpTo 1 (y *. s) := upTo_mul (m := 0) (n := 1) (by omega) hy us
  have k2 : UpTo 3 (lit 1 -. (lit 1 -. s)) := upTo_sub (by omega) (UpTo.mono one (by omega)) k0
  have k3 : UpTo 4 (lit 1 -. (lit 1 -. s) -. y *. s) := upTo_sub (by omega) k2 (UpTo.mono k1 (by omega))
  have n0 := sub_near one.1 us.1 k0.1 v1 hs (m := 1) (by rw [abs_le]; constructor <;> linarith)
  have n1 := mul_near hy.1 us.1 k1.1 (k := 1) (by rwa [abs_of_nonneg y0]) hs (m := 1) (by rwa [abs_of_nonneg q0])
  have n0' : |((lit 1 -. s).val : ℝ) - (1 - q)| ≤ 21 / 10 / 2 ^ 24 := n0.trans (by norm_num)
  have n1' : |((y *. s).val : ℝ) - y.val * q| ≤ 21 / 10 / 2 ^ 24 := n1.trans (by norm_num)
  have n2 := sub_near one.1 k0.1 k2.1 v1 n0' (m := 1) (by rw [abs_le]; constructor <;> linarith)
  have yq : (y.val : ℝ) * q ≤ q := by nlinarith
  have yq0 : 0 ≤ (y.val : ℝ) * q := mul_nonneg y0 q0
  have n3 := sub_near k2.1 k1.1 k3.1 n2 n1' (m := 1) (by rw [abs_le]; constructor <;> linarith)
  refine ⟨UpTo.mono k0 (by omega), UpTo.mono k1 (by omega), k3, n0', n1', ?_⟩
  rw [show (1 : ℝ) - (1 - q) - y.val * q = q - y.val * q by ring] at n3
  exact n3.trans (by norm_num)

end TriF

open TriF NoPanic in
/-- **C42** in single precision.  For every triangle with coordinates of absolute value at most `M ≤ 2 ^ 100` and every pair of sample values the drawn point has finite
coordinates, and none of them differs by more than `17 M / 2 ^ 24 + 2 ^ -147` from that of a point of the triangle; that point is the one that exact arithmetic gives for the
same sample values, so it has the distribution of `c42_uniform`. -/
theorem c42_f32 [Libm F32] (hl : AccurateSqrt) (t : Triangle F32) (M : ℚ) (hM : M ≤ 2 ^ 100)
    (ht : ∀ v ∈ [t.v0, t.v1, t.v2], ∀ c ∈ [v.x, v.y, v.z], Num c ∧ |c.val| ≤ M) (u : V2 F32) (hx : Sample32 u.x) (hy : Sample32 u.y) :
    ∃ b0 b1 b2 : ℝ, Weights b0 b1 b2 ∧ b0 = 1 - √(u.x.val : ℝ) ∧ b1 = u.y.val * √(u.x.val : ℝ) ∧
    ∀ a, Num ((t.sample u).p.get a) ∧
      |(((t.sample u).p.get a).val : ℝ) - ((t.v0.get a).val * b0 + (t.v1.get a).val * b1 + (t.v2.get a).val * b2)| ≤ 17 * M / 2 ^ 24 + 1 / 2 ^ 147 := by
  obtain ⟨k0, k1, k2, e0, e1, e2⟩ := weights hl hx hy
  obtain ⟨hx', hx0⟩ := sample_num hx
  obtain ⟨hy', hy0⟩ := sample_num hy
  have x1 : (u.x.val : ℝ) ≤ 1 := by
    have := (abs_le.1 hx'.2).2
    rw [pow_zero] at this
    exact_mod_cast this
  have y1 : (u.y.val : ℝ) ≤ 1 := by
    have := (abs_le.1 hy'.2).2
    rw [pow_zero] at this
    exact_mod_cast this
  have y0 : (0 : ℝ) ≤ (u.y.val : ℝ) := by exact_mod_cast hy0
  have q0 := Real.sqrt_nonneg (u.x.val : ℝ)
  have q1 : √(u.x.val : ℝ) ≤ 1 := Real.sqrt_le_one.2 x1
  have yq : (u.y.val : ℝ) * √(u.x.val : ℝ) ≤ √(u.x.val : ℝ) := by nlinarith
  have yq0 : 0 ≤ (u.y.val : ℝ) * √(u.x.val : ℝ) := mul_nonneg y0 q0
  refine ⟨1 - √(u.x.val : ℝ), u.y.val * √(u.x.val : ℝ), √(u.x.val : ℝ) - u.y.val * √(u.x.val : ℝ), ⟨by linarith, yq0, by linarith, by ring⟩, rfl, rfl, ?_⟩
  have up : ∀ {c : F32}, Num c ∧ |c.val| ≤ M → UpTo 100 c ∧ |(c.val : ℝ)| ≤ (M : ℝ) := fun h => ⟨⟨h.1, h.2.trans hM⟩, by exact_mod_cast h.2⟩
  intro a
  have h0 : Num (t.v0.get a) ∧ |(t.v0.get a).val| ≤ M := ht t.v0 (by simp) _ (by cases a <;> simp [V3.get])
  have h1 : Num (t.v1.get a) ∧ |(t.v1.get a).val| ≤ M := ht t.v1 (by simp) _ (by cases a <;> simp [V3.get])
  have h2 : Num (t.v2.get a) ∧ |(t.v2.get a).val| ≤ M := ht t.v2 (by simp) _ (by cases a <;> simp [V3.get])
  have key := coordinate (up h0).1 (up h1).1 (up h2).1 k0 k1 k2 (up h0).2 (up h1).2 (up h2).2 (by linarith) yq0 (by linarith) (by ring) e0 e1 e2
  cases a <;> exact key

/-- A triangle across the axes, and two sample values that single precision rounds. -/
example (mat : Material F32) : letI := Demo.libm32
    AccurateSqrt ∧ Sample32 (f32 (1 / 3)) ∧ Sample32 (f32 (1 / 10)) ∧
    let t : Triangle F32 := ⟨⟨f32 (-50), f32 (-50), f32 30⟩, ⟨f32 50, f32 (-50), f32 31⟩, ⟨f32 0, f32 50, f32 (1 / 3)⟩, none, false, mat⟩
    ∀ v ∈ [t.v0, t.v1, t.v2], ∀ c ∈ [v.x, v.y, v.z], Num c ∧ |c.val| ≤ 50 := by
  refine ⟨Demo.libm32_accurate, ⟨lit_WF (1 / 3 : ℚ), by decide +kernel, by decide +kernel⟩, ⟨lit_WF (1 / 10 : ℚ), by decide +kernel, by decide +kernel⟩, ?_⟩
  have n : ∀ q : ℚ, |q| ≤ 2 ^ 126 → Num (f32 q) := fun q h => ofVal_ok h _
  intro t v hv c hc
  simp only [t, List.mem_cons, List.not_mem_nil, or_false] at hv
  rcases hv with rfl | rfl | rfl <;> simp only [List.mem_cons, List.not_mem_nil, or_false] at hc <;> rcases hc with rfl | rfl | rfl <;>
    exact ⟨n _ (by norm_num [abs_of_pos]), by decide +kernel⟩

end PT
