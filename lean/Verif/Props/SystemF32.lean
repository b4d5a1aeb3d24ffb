import Verif.Props.FrameSmoothF32

/-!
# The coordinate system around a direction, in single precision (C120)
-/

namespace PT
open Spec Fl

namespace SystF
open NoPanic VecF TriF TrF FrameF SmoothF

/-- The square of a number is not minus zero. -/
theorem square_plus {a : F32} (ha : Num a) (hs : Num (a *. a)) : ∃ m, a *. a = .fin false m := by
  obtain ⟨s, m, e⟩ := IsFin_iff.1 ha.fin
  obtain ⟨t, k, e'⟩ := IsFin_iff.1 hs.fin
  refine ⟨k, ?_⟩
  rw [e']
  rw [f_mul, e] at e'
  simp only [Fl.mul, Bool.xor_self, Fl.ofMag] at e'
  split at e'
  · cases e'
  · cases e'; rfl

/-- Adding zero times zero changes nothing. -/
theorem plus_zero {a : F32} (ha : Num a) (h : ∃ m, a = .fin false m) : a +. lit 0 *. lit 0 = a := by
  have z : (lit 0 *. lit 0 : F32) = .fin false 0 := by decide +kernel
  rw [z]
  obtain ⟨m, rfl⟩ := h
  have w := ha.wf
  rw [f_add]
  simp only [Fl.add, sgn, Bool.false_and, Bool.false_eq_true, if_false, add_zero]
  unfold ofVal
  by_cases hm : m = 0
  · rw [if_pos hm, hm]
  · rw [if_neg hm, if_neg (not_lt.2 w.1)]
    have := w.2
    simp only [this]

/-- The length used by the code is that of a vector in a coordinate plane. -/
theorem plane_length [Libm F32] {x z : F32} (hx : UpTo 1 x) : Libm.sqrt (x *. x +. z *. z) = (⟨x, lit 0, z⟩ : V3 F32).length := by
  have n : Num (x *. x) := (upTo_mul (m := 1) (n := 1) (by omega) hx hx).1
  show _ = Libm.sqrt (x *. x +. lit 0 *. lit 0 +. z *. z)
  rw [plus_zero n (square_plus hx.1 n)]

theorem neg_div' {a b : F32} : ⊖a /. b = ⊖(a /. b) := by
  show Fl.div (Fl.neg a) b = Fl.neg (Fl.div a b)
  cases a <;> cases b <;> simp only [Fl.neg, Fl.div, Bool.not_xor]
  split_ifs <;> simp only [Fl.ofMag]
  split <;> rfl

/-- A direction in a coordinate plane scaled to length one. -/
theorem plane_unit [Libm F32] (hl : AccurateSqrt) {x z : F32} (hx : UpTo 1 x) (hz : UpTo 1 z) (x1 : |(x.val : ℝ)| ≤ 1001 / 1000) (z1 : |(z.val : ℝ)| ≤ 1001 / 1000)
    (h : 1 / 100 ≤ (x.val : ℝ) ^ 2 + (z.val : ℝ) ^ 2) :
    let w := (⟨x, lit 0, z⟩ : V3 F32).normalize
    UpTo3 1 w ∧ |(w.y.val : ℝ)| ≤ 1 / 2 ^ 100 ∧ |exactDot w w - 1| ≤ 9 / 2 ^ 24 ∧
    |(z.val : ℝ) * w.x.val - x.val * w.z.val| ≤ 11 / 2 ^ 24 := by
  intro w
  have zn : UpTo 1 (lit 0 : F32) := upTo_lit (by omega) (by norm_num)
  have u : UpTo3 53 (⟨x, lit 0, z⟩ : V3 F32) := UpTo3.mono (m := 1) ⟨hx, zn, hz⟩ (by omega)
  have l : 1 / 10 ≤ exactLength (⟨x, lit 0, z⟩ : V3 F32) := by
    unfold exactLength
    apply Real.le_sqrt_of_sq_le
    simp only [zero_ok.2]
    norm_num at h ⊢
    linarith
  have t : NotTiny (⟨x, lit 0, z⟩ : V3 F32) := long_notTiny (le_trans (by norm_num) l)
  obtain ⟨u1, n2, l0, c1, near⟩ := unit_facts hl u t
  obtain ⟨-, hn, -⟩ := c120_normalize hl u t
  refine ⟨u1, ?_, n2, ?_⟩
  · have := (hn .Y).2
    simp only [V3.get, zero_ok.2] at this
    norm_num at this ⊢
    exact this.trans (by norm_num)
  · have e : (z.val : ℝ) * w.x.val - x.val * w.z.val = z.val * (w.x.val - x.val / exactLength (⟨x, lit 0, z⟩ : V3 F32)) + -(x.val * (w.z.val - z.val / exactLength (⟨x, lit 0, z⟩ : V3 F32))) := by ring
    rw [e]
    refine (abs_add_le _ _).trans ?_
    rw [abs_neg]
    exact (add_le_add (mul_abs_le z1 (near .X).1) (mul_abs_le x1 (near .Z).1)).trans (by norm_num)

/-- How long a computed product can be. -/
theorem cross_short {a1 a2 a3 b1 b2 b3 p1 p2 p3 : ℝ} (ha1 : |a1| ≤ 1001 / 1000) (ha2 : |a2| ≤ 1001 / 1000) (ha3 : |a3| ≤ 1001 / 1000)
    (hb1 : |b1| ≤ 1001 / 1000) (hb2 : |b2| ≤ 1001 / 1000) (hb3 : |b3| ≤ 1001 / 1000)
    (h1 : |p1 - (a2 * b3 - a3 * b2)| ≤ 7 / 2 ^ 24) (h2 : |p2 - (a3 * b1 - a1 * b3)| ≤ 7 / 2 ^ 24) (h3 : |p3 - (a1 * b2 - a2 * b1)| ≤ 7 / 2 ^ 24) :
    p1 * p1 + p2 * p2 + p3 * p3 ≤ (a1 * a1 + a2 * a2 + a3 * a3) * (b1 * b1 + b2 * b2 + b3 * b3) + 100 / 2 ^ 24 := by
  obtain ⟨E1, hE1⟩ : ∃ E, E = a2 * b3 - a3 * b2 := ⟨_, rfl⟩
  obtain ⟨E2, hE2⟩ : ∃ E, E = a3 * b1 - a1 * b3 := ⟨_, rfl⟩
  obtain ⟨E3, hE3⟩ : ∃ E, E = a1 * b2 - a2 * b1 := ⟨_, rfl⟩
  have size : ∀ {x y z w : ℝ}, |x| ≤ 1001 / 1000 → |y| ≤ 1001 / 1000 → |z| ≤ 1001 / 1000 → |w| ≤ 1001 / 1000 → |x * y - z * w| ≤ 201 / 100 := by
    intro x y z w hx hy hz hw
    refine (abs_sub _ _).trans ((add_le_add (mul_abs_le hx hy) (mul_abs_le hz hw)).trans (by norm_num))
  have s1 := size ha2 hb3 ha3 hb2
  have s2 := size ha3 hb1 ha1 hb3
  have s3 := size ha1 hb2 ha2 hb1
  rw [← hE1] at h1 s1
  rw [← hE2] at h2 s2
  rw [← hE3] at h3 s3
  have q : (a1 * a1 + a2 * a2 + a3 * a3) * (b1 * b1 + b2 * b2 + b3 * b3) = E1 * E1 + E2 * E2 + E3 * E3 + (a1 * b1 + a2 * b2 + a3 * b3) ^ 2 := by rw [hE1, hE2, hE3]; ring
  rw [q]
  have m1 := abs_le.1 (mul_abs_le s1 h1)
  have m2 := abs_le.1 (mul_abs_le s2 h2)
  have m3 := abs_le.1 (mul_abs_le s3 h3)
  have r1 := abs_le.1 (mul_abs_le h1 h1)
  have r2 := abs_le.1 (mul_abs_le h2 h2)
  have r3 := abs_le.1 (mul_abs_le h3 h3)
  have e : p1 * p1 + p2 * p2 + p3 * p3 = E1 * E1 + E2 * E2 + E3 * E3 + 2 * (E1 * (p1 - E1) + E2 * (p2 - E2) + E3 * (p3 - E3)) +
    ((p1 - E1) * (p1 - E1) + (p2 - E2) * (p2 - E2) + (p3 - E3) * (p3 - E3)) := by ring
  rw [e]
  have sq := sq_nonneg (a1 * b1 + a2 * b2 + a3 * b3)
  norm_num at m1 m2 m3 r1 r2 r3 ⊢
  linarith [m1.2, m2.2, m3.2, r1.2, r2.2, r3.2]

/-- The second direction of the system. -/
theorem second {v w : V3 F32} (hv : UpTo3 1 v) (hw : UpTo3 1 w) (v2 : |exactDot v v - 1| ≤ 16 / 2 ^ 24) (w2 : |exactDot w w - 1| ≤ 10 / 2 ^ 24) (vw : |exactDot v w| ≤ 16 / 2 ^ 24) :
    UpTo3 3 (v.cross w) ∧ |exactDot (v.cross w) (v.cross w) - 1| ≤ 1 / 2 ^ 17 ∧ |exactDot w (v.cross w)| ≤ 1 / 2 ^ 19 ∧ |exactDot v (v.cross w)| ≤ 1 / 2 ^ 19 := by
  have v1 := unit_coords v2 (by norm_num)
  have w1 := unit_coords w2 (by norm_num)
  obtain ⟨-, ⟨-, e1⟩, ⟨-, e2⟩, -, e3⟩ := c120_products (UpTo3.mono hv (show 1 ≤ 60 by omega)) (UpTo3.mono hw (show 1 ≤ 60 by omega))
  have b : ∀ {x y z t : ℝ}, |x| ≤ 1001 / 1000 → |y| ≤ 1001 / 1000 → |z| ≤ 1001 / 1000 → |t| ≤ 1001 / 1000 → (|x * y| + |z * t|) * (3 / 2 ^ 24) + 1 / 2 ^ 147 ≤ 7 / 2 ^ 24 := by
    intro x y z t hx hy hz ht
    calc _ ≤ (1001 / 1000 * (1001 / 1000) + 1001 / 1000 * (1001 / 1000) : ℝ) * (3 / 2 ^ 24) + 1 / 2 ^ 147 := by
          gcongr
          exacts [mul_abs_le hx hy, mul_abs_le hz ht]
      _ ≤ 7 / 2 ^ 24 := by norm_num
  have f1 := e1.trans (b v1.2.1 w1.2.2 v1.2.2 w1.2.1)
  have f2 := e2.trans (b v1.2.2 w1.1 v1.1 w1.2.2)
  have f3 := e3.trans (b v1.1 w1.2.1 v1.2.1 w1.1)
  obtain ⟨h1, h2⟩ := cross_facts v1.1 v1.2.1 v1.2.2 w1.1 w1.2.1 w1.2.2 f1 f2 f3
  have h3 := cross_short v1.1 v1.2.1 v1.2.2 w1.1 w1.2.1 w1.2.2 f1 f2 f3
  have flip : ∀ {p x y z t : ℝ}, |p - (x * y - z * t)| ≤ 7 / 2 ^ 24 → |-p - (t * z - y * x)| ≤ 7 / 2 ^ 24 := fun {p x y z t} h => by
    rw [show -p - (t * z - y * x) = -(p - (x * y - z * t)) by ring, abs_neg]; exact h
  obtain ⟨h4, -⟩ := cross_facts w1.1 w1.2.1 w1.2.2 v1.1 v1.2.1 v1.2.2 (flip f1) (flip f2) (flip f3)
  refine ⟨upTo3_cross (m := 1) (n := 1) (by omega) hv hw, ?_, h1.trans (by norm_num), ?_⟩
  · change exactDot v v * exactDot w w - exactDot v w ^ 2 - 100 / 2 ^ 24 ≤ exactDot (v.cross w) (v.cross w) at h2
    change exactDot (v.cross w) (v.cross w) ≤ exactDot v v * exactDot w w + 100 / 2 ^ 24 at h3
    have q : exactDot v w ^ 2 ≤ (16 / 2 ^ 24) ^ 2 := by
      rw [← sq_abs]; exact pow_le_pow_left₀ (abs_nonneg _) vw 2
    have r := abs_le.1 (mul_abs_le v2 w2)
    have a1 := abs_le.1 v2
    have a2 := abs_le.1 w2
    generalize exactDot v v = A at *
    generalize exactDot w w = B at *
    have e : A * B = (A - 1) * (B - 1) + (A - 1) + (B - 1) + 1 := by ring
    rw [e] at h2 h3
    generalize exactDot (v.cross w) (v.cross w) = P at *
    generalize (A - 1) * (B - 1) = Q at *
    obtain ⟨r1, r2⟩ := r
    obtain ⟨a1, a1'⟩ := a1
    obtain ⟨a2, a2'⟩ := a2
    rw [abs_le]
    norm_num at q h2 h3 r1 r2 a1 a1' a2 a2' ⊢
    constructor <;> linarith
  · rw [show (v.x.val : ℝ) * -((v.cross w).x.val : ℝ) + v.y.val * -((v.cross w).y.val : ℝ) + v.z.val * -((v.cross w).z.val : ℝ) = -exactDot v (v.cross w) by unfold exactDot; ring, abs_neg] at h4
    exact h4.trans (by norm_num)

/-- The first direction of the system. -/
theorem first [Libm F32] (hl : AccurateSqrt) {v : V3 F32} (hv : UpTo3 1 v) (v2 : |exactDot v v - 1| ≤ 16 / 2 ^ 24) :
    UpTo3 1 v.constructCoordinateSystem.1 ∧ |exactDot v.constructCoordinateSystem.1 v.constructCoordinateSystem.1 - 1| ≤ 10 / 2 ^ 24 ∧
    |exactDot v v.constructCoordinateSystem.1| ≤ 16 / 2 ^ 24 := by
  have v1 := unit_coords v2 (by norm_num)
  have big := (abs_le.1 v2).1
  unfold exactDot at big
  unfold V3.constructCoordinateSystem
  dsimp only
  have ax := abs_ok hv.1.1
  have ay := abs_ok hv.2.1.1
  have test := lt_ok ay.1 ax.1
  rw [ax.2, ay.2] at test
  by_cases hb : |v.y.val| < |v.x.val|
  · rw [if_pos (test.2 hb)]
    have hb' : (v.y.val : ℝ) ^ 2 ≤ (v.x.val : ℝ) ^ 2 := by
      apply sq_le_sq.2
      have := hb.le
      exact_mod_cast this
    obtain ⟨u, y0, n2, p⟩ := plane_unit hl hv.1 hv.2.2 v1.1 v1.2.2 (by norm_num at big ⊢; nlinarith)
    rw [plane_length hv.1]
    have e : V3.sdiv ⟨⊖v.z, lit 0, v.x⟩ (⟨v.x, lit 0, v.z⟩ : V3 F32).length = ⟨⊖(⟨v.x, lit 0, v.z⟩ : V3 F32).normalize.z, (⟨v.x, lit 0, v.z⟩ : V3 F32).normalize.y, (⟨v.x, lit 0, v.z⟩ : V3 F32).normalize.x⟩ := by
      show (⟨⊖v.z /. _, _, _⟩ : V3 F32) = _
      rw [neg_div']; rfl
    rw [e]
    generalize (⟨v.x, lit 0, v.z⟩ : V3 F32).normalize = w at *
    have nz : ((⊖w.z).val : ℝ) = -(w.z.val : ℝ) := by rw [(neg_ok u.2.2.1).2]; push_cast; rfl
    refine ⟨⟨upTo_neg u.2.2, u.2.1, u.1⟩, ?_, ?_⟩
    · have : exactDot ⟨⊖w.z, w.y, w.x⟩ ⟨⊖w.z, w.y, w.x⟩ = exactDot w w := by
        unfold exactDot; simp only [nz]; ring
      rw [this]; exact n2.trans (by norm_num)
    · have : exactDot v ⟨⊖w.z, w.y, w.x⟩ = (v.z.val * w.x.val - v.x.val * w.z.val) + v.y.val * w.y.val := by
        unfold exactDot; simp only [nz]; ring
      rw [this]
      exact (abs_add_le _ _).trans ((add_le_add p (mul_abs_le v1.2.1 y0)).trans (by norm_num))
  · rw [if_neg (fun h => hb (test.1 h))]
    have hb' : (v.x.val : ℝ) ^ 2 ≤ (v.y.val : ℝ) ^ 2 := by
      apply sq_le_sq.2
      have := not_lt.1 hb
      exact_mod_cast this
    obtain ⟨u, y0, n2, p⟩ := plane_unit hl hv.2.1 hv.2.2 v1.2.1 v1.2.2 (by norm_num at big ⊢; nlinarith)
    rw [plane_length hv.2.1]
    have e : V3.sdiv ⟨lit 0, v.z, ⊖v.y⟩ (⟨v.y, lit 0, v.z⟩ : V3 F32).length = ⟨(⟨v.y, lit 0, v.z⟩ : V3 F32).normalize.y, (⟨v.y, lit 0, v.z⟩ : V3 F32).normalize.z, ⊖(⟨v.y, lit 0, v.z⟩ : V3 F32).normalize.x⟩ := by
      show (⟨_, _, ⊖v.y /. _⟩ : V3 F32) = _
      rw [neg_div']; rfl
    rw [e]
    generalize (⟨v.y, lit 0, v.z⟩ : V3 F32).normalize = w at *
    have nx : ((⊖w.x).val : ℝ) = -(w.x.val : ℝ) := by rw [(neg_ok u.1.1).2]; push_cast; rfl
    refine ⟨⟨u.2.1, u.2.2, upTo_neg u.1⟩, ?_, ?_⟩
    · have : exactDot ⟨w.y, w.z, ⊖w.x⟩ ⟨w.y, w.z, ⊖w.x⟩ = exactDot w w := by
        unfold exactDot; simp only [nx]; ring
      rw [this]; exact n2.trans (by norm_num)
    · have : exactDot v ⟨w.y, w.z, ⊖w.x⟩ = -(v.z.val * w.x.val - v.y.val * w.z.val) + v.x.val * w.y.val := by
        unfold exactDot; simp only [nx]; ring
      rw [this]
      refine (abs_add_le _ _).trans ?_
      rw [abs_neg]
      exact (add_le_add p (mul_abs_le v1.1 y0)).trans (by norm_num)

end SystF

open NoPanic SystF in
/-- **C120** (coordinate systems).  Around every direction of length one (up to `2 ^ -20` in the square) the code constructs two vectors of numbers that, together with the
direction, are of length one and pairwise perpendicular: up to `2 ^ -20` for the first, up to `2 ^ -17` in the square of the length and `2 ^ -19` in the inner products for the
second. -/
theorem c120_system [Libm F32] (hl : AccurateSqrt) {v : V3 F32} (hv : UpTo3 1 v) (h : |exactDot v v - 1| ≤ 1 / 2 ^ 20) :
    let f := v.constructCoordinateSystem
    (∀ a, Num (f.1.get a) ∧ Num (f.2.get a)) ∧
    |exactDot f.1 f.1 - 1| ≤ 1 / 2 ^ 20 ∧ |exactDot f.2 f.2 - 1| ≤ 1 / 2 ^ 17 ∧
    |exactDot v f.1| ≤ 1 / 2 ^ 20 ∧ |exactDot v f.2| ≤ 1 / 2 ^ 19 ∧ |exactDot f.1 f.2| ≤ 1 / 2 ^ 19 := by
  intro f
  have v2 : |exactDot v v - 1| ≤ 16 / 2 ^ 24 := h.trans (by norm_num)
  obtain ⟨u1, a1, b1⟩ := first hl hv v2
  obtain ⟨u2, a2, b2, c2⟩ := second hv u1 v2 a1 b1
  have num : ∀ {k : ℕ} {w : V3 F32}, UpTo3 k w → ∀ a, Num (w.get a) := fun h a => by
    cases a
    exacts [h.1.1, h.2.1.1, h.2.2.1]
  exact ⟨fun a => ⟨num u1 a, num u2 a⟩, a1.trans (by norm_num), a2, b1.trans (by norm_num), c2, b2⟩

/-- The direction `(1, 0, 0)`, and one off the axes, turned by the code itself from `(2, 1, 2)`. -/
example [Libm F32] (hl : AccurateSqrt) : (UpTo3 1 (⟨f32 1, f32 0, f32 0⟩ : V3 F32) ∧ |exactDot ⟨f32 1, f32 0, f32 0⟩ ⟨f32 1, f32 0, f32 0⟩ - 1| ≤ 1 / 2 ^ 20) ∧
    (UpTo3 1 (⟨f32 2, f32 1, f32 2⟩ : V3 F32).normalize ∧ |exactDot (⟨f32 2, f32 1, f32 2⟩ : V3 F32).normalize (⟨f32 2, f32 1, f32 2⟩ : V3 F32).normalize - 1| ≤ 1 / 2 ^ 20) := by
  have n : ∀ {k : ℕ} (q : ℚ), k ≤ 100 → |q| ≤ 2 ^ k → UpTo k (f32 q) := fun q hk h => NoPanic.upTo_ofVal (by omega) h _
  have v0 : (f32 0).val = 0 := by decide +kernel
  have v1 : (f32 1).val = 1 := by decide +kernel
  refine ⟨⟨⟨n 1 (by omega) (by norm_num), n 0 (by omega) (by norm_num), n 0 (by omega) (by norm_num)⟩, ?_⟩, ?_⟩
  · unfold exactDot
    simp only [v0, v1]
    norm_num
  · have u : UpTo3 53 (⟨f32 2, f32 1, f32 2⟩ : V3 F32) := ⟨n 2 (by omega) (by norm_num [abs_of_pos]), n 1 (by omega) (by norm_num), n 2 (by omega) (by norm_num [abs_of_pos])⟩
    have t : NotTiny (⟨f32 2, f32 1, f32 2⟩ : V3 F32) := Or.inr (Or.inl (by show 1 / 2 ^ 50 ≤ |(f32 1).val|; rw [v1]; norm_num))
    obtain ⟨h1, h2, -⟩ := SmoothF.unit_facts hl u t
    exact ⟨h1, h2.trans (by norm_num)⟩

end PT
