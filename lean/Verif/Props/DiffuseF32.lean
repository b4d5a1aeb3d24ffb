import Verif.Props.FresnelF32
import Verif.Props.ErrorBoundsSphere

/-!
# Diffuse sampling in single precision (C57)

In exact arithmetic the direction drawn on a matt surface has length one and lies on the side of the viewer.  In single precision the drawn point of the disk may lie outside
the unit disk, and the product that decides about the side may underflow.
-/

namespace PT
open Spec Fl

/-! ### Specification -/

namespace Spec
/-- What is asked of the mathematical library: the square of a square root is right, and the squares of sine and cosine add up to one, within `2 ^ -22`; π is between 3 and 4. -/
structure CarefulLibm [Libm F32] : Prop where
  sqrt : ∀ x : F32, Num x → 0 ≤ x.val → |(Libm.sqrt x).val ^ 2 - x.val| ≤ x.val / 2 ^ 22
  circle : ∀ x : F32, Num x → |(Libm.cos x).val ^ 2 + (Libm.sin x).val ^ 2 - 1| ≤ 1 / 2 ^ 22
  pi : 3 ≤ (Libm.pi : F32).val ∧ (Libm.pi : F32).val ≤ 4
end Spec

namespace DiffF
open NoPanic FrF

theorem unit_mul {a b : F32} (ha : UpTo 0 a) (hb : UpTo 0 b) : UpTo 0 (a *. b) ∧ |(a *. b).val - a.val * b.val| ≤ 1 / 2 ^ 24 + 1 / 2 ^ 150 := by
  have u : UpTo 0 (a *. b) := upTo_mul (m := 0) (n := 0) (by omega) ha hb
  refine ⟨u, (mul_err ha.1.wf hb.1.wf u.1.fin).trans ?_⟩
  have h1 : |a.val * b.val| ≤ 1 := by
    rw [abs_mul]
    have := mul_le_mul ha.2 hb.2 (abs_nonneg _) (by positivity)
    simpa using this
  unfold ulpHalf tinyHalf
  nlinarith

/-- Twice a sample less one. -/
theorem spread {x : F32} (h : Sample32 x) : UpTo 0 (x *. lit 2 +. ⊖(lit 1)) := by
  obtain ⟨hx, h0⟩ := sample_num h
  have two : UpTo 1 (lit 2 : F32) := upTo_lit (by omega) (by norm_num)
  have twov : (lit 2 : F32).val = 2 := by decide +kernel
  have m := upTo_mul (m := 0) (n := 1) (by omega) hx two
  have h1 := (abs_le.1 hx.2).2
  have m0 : 0 ≤ (x *. lit 2).val := mul_nonneg' (m := 0) (n := 1) (by omega) hx two h0 (by rw [twov]; norm_num)
  have m1 := (abs_le.1 m.2).2
  have n1 := neg_ok Sgn.lit_one.1
  obtain ⟨zs, e⟩ := add_fin m.1.fin n1.1.fin
  rw [f_add, e]
  apply upTo_ofVal (by omega)
  rw [n1.2, Sgn.lit_one.2.1, pow_zero, abs_le]
  norm_num at m1
  constructor <;> linarith

/-- The point drawn in the disk is the centre, or a point on a circle of radius at most one. -/
theorem disk_shape [Libm F32] (hl : SaneLibm) {u : V2 F32} (hx : Sample32 u.x) (hy : Sample32 u.y) :
    (UpTo 0 (concentricSampleDisk u).x ∧ UpTo 0 (concentricSampleDisk u).y ∧ (concentricSampleDisk u).x.val = 0 ∧ (concentricSampleDisk u).y.val = 0) ∨
    ∃ theta r : F32, Num theta ∧ UpTo 0 r ∧ (concentricSampleDisk u).x = Libm.cos theta *. r ∧ (concentricSampleDisk u).y = Libm.sin theta *. r := by
  have two : UpTo 1 (lit 2 : F32) := upTo_lit (by omega) (by norm_num)
  have four : Num (lit 4 : F32) ∧ (lit 4 : F32).val = 4 := by
    refine ⟨lit_ok (by norm_num), by decide +kernel⟩
  have twov : (lit 2 : F32).val = 2 := by decide +kernel
  have p4 : UpTo 0 ((Libm.pi : F32) /. lit 4) := upTo_div (by omega) hl.pi.1 four.1 (by rw [four.2]; norm_num) (by
    rw [four.2]; have := hl.pi.2; norm_num at this ⊢; exact this)
  have p2 : UpTo 1 ((Libm.pi : F32) /. lit 2) := upTo_div (by omega) hl.pi.1 two.1 (by rw [twov]; norm_num) (by
    rw [twov]; have := hl.pi.2; norm_num at this ⊢; exact this)
  have hx' := spread hx
  have hy' := spread hy
  unfold concentricSampleDisk
  dsimp only
  generalize u.x *. lit 2 +. ⊖(lit 1) = a at hx' ⊢
  generalize u.y *. lit 2 +. ⊖(lit 1) = b at hy' ⊢
  have ha := abs_ok hx'.1
  have hb := abs_ok hy'.1
  split_ifs with hz hc
  · rw [Bool.and_eq_true, eq_ok hx'.1 zero_ok.1, eq_ok hy'.1 zero_ok.1, zero_ok.2] at hz
    exact Or.inl ⟨hx', hy', hz.1, hz.2⟩
  · rw [show (Scalar.abs a >. Scalar.abs b) = (Scalar.abs b <. Scalar.abs a) from rfl, lt_ok hb.1 ha.1, ha.2, hb.2] at hc
    refine Or.inr ⟨_, _, ?_, hx', rfl, rfl⟩
    exact (upTo_mul (m := 0) (n := 0) (by omega) p4 (upTo_div (by omega) hy'.1 hx'.1
      (fun h => by rw [h, abs_zero] at hc; exact absurd hc (not_lt.2 (abs_nonneg _))) (by simpa using hc.le))).1
  · rw [show (Scalar.abs a >. Scalar.abs b) = (Scalar.abs b <. Scalar.abs a) from rfl, lt_ok hb.1 ha.1, ha.2, hb.2, not_lt] at hc
    refine Or.inr ⟨_, _, ?_, hy', rfl, rfl⟩
    have hne : b.val ≠ 0 := fun h => by
      apply hz
      rw [h, abs_zero] at hc
      rw [Bool.and_eq_true, eq_ok hx'.1 zero_ok.1, eq_ok hy'.1 zero_ok.1, zero_ok.2]
      exact ⟨abs_eq_zero.1 (le_antisymm hc (abs_nonneg _)), h⟩
    exact (upTo_sub (by omega) p2 (UpTo.mono (upTo_mul (m := 0) (n := 0) (by omega) p4 (upTo_div (by omega) hx'.1 hy'.1 hne (by simpa using hc))) (by omega))).1

/-- Rounding the square of a number of absolute value at most one. -/
theorem square_near {a b e : ℚ} (ha : |a| ≤ 1) (hb : |b| ≤ 1) (h : |a - b| ≤ e) : |a ^ 2 - b ^ 2| ≤ 2 * e := by
  have h2 : |a + b| ≤ 2 := (abs_add_le a b).trans (by linarith)
  rw [show a ^ 2 - b ^ 2 = (a + b) * (a - b) by ring, abs_mul]
  exact mul_le_mul h2 h (abs_nonneg _) (by norm_num)

/-- The point drawn lies in the disk, up to rounding. -/
theorem disk_bound [Libm F32] (hl : SaneLibm) (hm : CarefulLibm) {u : V2 F32} (hx : Sample32 u.x) (hy : Sample32 u.y) :
    UpTo 0 (concentricSampleDisk u).x ∧ UpTo 0 (concentricSampleDisk u).y ∧
    (concentricSampleDisk u).x.val ^ 2 + (concentricSampleDisk u).y.val ^ 2 ≤ 1 + 1 / 2 ^ 21 + 1 / 2 ^ 140 := by
  rcases disk_shape hl hx hy with ⟨h1, h2, e1, e2⟩ | ⟨theta, r, ht, hr, e1, e2⟩
  · refine ⟨h1, h2, ?_⟩
    rw [e1, e2]; norm_num
  rw [e1, e2]
  have hc := hl.cos _ ht
  have hs := hl.sin _ ht
  have circ := (abs_le.1 (hm.circle _ ht)).2
  generalize Libm.cos theta = c at hc circ ⊢
  generalize Libm.sin theta = s at hs circ ⊢
  obtain ⟨u1, x1⟩ := unit_mul hc hr
  obtain ⟨u2, x2⟩ := unit_mul hs hr
  refine ⟨u1, u2, ?_⟩
  have pr : ∀ {a b : F32}, UpTo 0 a → UpTo 0 b → |a.val * b.val| ≤ 1 := by
    intro a b ha hb
    rw [abs_mul]
    have := mul_le_mul ha.2 hb.2 (abs_nonneg _) (by positivity)
    simpa using this
  have q1 := (abs_le.1 (square_near (by simpa using u1.2) (pr hc hr) x1)).2
  have q2 := (abs_le.1 (square_near (by simpa using u2.2) (pr hs hr) x2)).2
  have r1 : r.val ^ 2 ≤ 1 := by
    have := hr.2
    rw [pow_zero] at this
    exact (sq_le_one_iff_abs_le_one _).2 this
  have r0 := sq_nonneg r.val
  have k : (c.val * r.val) ^ 2 + (s.val * r.val) ^ 2 ≤ 1 + 1 / 2 ^ 22 := by
    have e : (c.val * r.val) ^ 2 + (s.val * r.val) ^ 2 = (c.val ^ 2 + s.val ^ 2) * r.val ^ 2 := by ring
    rw [e]
    have h0 : 0 ≤ c.val ^ 2 + s.val ^ 2 := by positivity
    calc _ ≤ (c.val ^ 2 + s.val ^ 2) * 1 := mul_le_mul_of_nonneg_left r1 h0
      _ ≤ _ := by linarith
  have num : (1 : ℚ) + 1 / 2 ^ 22 + 2 * (1 / 2 ^ 24 + 1 / 2 ^ 150) + 2 * (1 / 2 ^ 24 + 1 / 2 ^ 150) ≤ 1 + 1 / 2 ^ 21 + 1 / 2 ^ 140 := by norm_num
  linarith

/-- The rounded third coordinate. -/
theorem hemisphere [Libm F32] (hl : SaneLibm) (hm : CarefulLibm) {u : V2 F32} (hx : Sample32 u.x) (hy : Sample32 u.y) :
    UpTo 0 (cosineSampleHemisphere u).x ∧ UpTo 0 (cosineSampleHemisphere u).y ∧ UpTo 1 (cosineSampleHemisphere u).z ∧ 0 ≤ (cosineSampleHemisphere u).z.val ∧
    |(cosineSampleHemisphere u).x.val ^ 2 + (cosineSampleHemisphere u).y.val ^ 2 + (cosineSampleHemisphere u).z.val ^ 2 - 1| ≤ 1 / 2 ^ 20 := by
  obtain ⟨ux, uy, hd⟩ := disk_bound hl hm hx hy
  unfold cosineSampleHemisphere
  dsimp only
  generalize (concentricSampleDisk u).x = x at *
  generalize (concentricSampleDisk u).y = y at *
  obtain ⟨uX, eX⟩ := unit_mul ux ux
  obtain ⟨uY, eY⟩ := unit_mul uy uy
  have X0 : 0 ≤ (x *. x).val := sq_nonneg' (n := 0) (by omega) ux
  have Y0 : 0 ≤ (y *. y).val := sq_nonneg' (n := 0) (by omega) uy
  generalize x *. x = X at *
  generalize y *. y = Y at *
  have one := Sgn.lit_one
  have X1 : X.val ≤ 1 := by have := (abs_le.1 uX.2).2; simpa using this
  have Y1 : Y.val ≤ 1 := by have := (abs_le.1 uY.2).2; simpa using this
  -- the differences stay in [-1, 1]
  have sub1 : ∀ {a b : F32}, Num a → Num b → 0 ≤ a.val → a.val ≤ 1 → 0 ≤ b.val → b.val ≤ 1 →
      UpTo 0 (a -. b) ∧ |(a -. b).val - (a.val - b.val)| ≤ 1 / 2 ^ 24 ∧ (b.val ≤ a.val → 0 ≤ (a -. b).val) := by
    intro a b na nb a0 a1 b0 b1
    have nn := neg_ok nb
    obtain ⟨zs, e⟩ := add_fin na.fin nn.1.fin
    have e' : (a -. b) = ofVal (a.val - b.val) zs := by
      show add a (⊖b) = _
      rw [e, nn.2, sub_eq_add_neg]
    have hab : |a.val - b.val| ≤ 1 := by rw [abs_le]; constructor <;> linarith
    have u : UpTo 0 (a -. b) := by rw [e']; exact upTo_ofVal (by omega) (by simpa using hab) _
    refine ⟨u, ?_, fun h => ?_⟩
    · have he := add_err na.wf nn.1.wf (by show (a -. b : F32).IsFin; exact u.1.fin)
      change |(a -. b).val - _| ≤ _ at he
      rw [nn.2, ← sub_eq_add_neg] at he
      refine he.trans ?_
      unfold ulpHalf
      nlinarith
    · rw [e']
      exact (ofVal_between (φ := Binary32) repr_zero Sgn.repr_one (by linarith) ((le_abs_self _).trans hab) zs).2.1
  obtain ⟨uA, eA, pA⟩ := sub1 one.1 uX.1 (by rw [one.2.1]; norm_num) (by rw [one.2.1]) X0 X1
  rw [one.2.1] at eA pA
  have A0 := pA X1
  have A1 : (lit 1 -. X).val ≤ 1 := by have := (abs_le.1 uA.2).2; simpa using this
  generalize (lit 1 -. X) = A at *
  obtain ⟨uB, eB, -⟩ := sub1 uA.1 uY.1 A0 A1 Y0 Y1
  generalize A -. Y = B at *
  have uM : UpTo 0 (Scalar.fmax B (lit 0)) := upTo_max uB (upTo_zero 0 (by omega))
  have vM : (Scalar.fmax B (lit 0)).val = max B.val 0 := by rw [(max_ok uB.1 zero_ok.1).2, zero_ok.2]
  have M0 : 0 ≤ (Scalar.fmax B (lit 0)).val := by rw [vM]; exact le_max_right _ _
  have uz := sqrt_upTo hl uM M0
  have z0 := (hl.sqrt _ uM.1 M0).2.1
  have ez := hm.sqrt _ uM.1 M0
  have M1 : (Scalar.fmax B (lit 0)).val ≤ 1 := by have := (abs_le.1 uM.2).2; simpa using this
  generalize Libm.sqrt (Scalar.fmax B (lit 0)) = z at *
  generalize Scalar.fmax B (lit 0) = M at *
  refine ⟨ux, uy, uz, z0, ?_⟩
  have hM : M.val / 2 ^ 22 ≤ 1 / 2 ^ 22 := by linarith
  have sX := abs_le.1 eX
  have sY := abs_le.1 eY
  have sA := abs_le.1 eA
  have sB := abs_le.1 eB
  have sz := abs_le.1 ez
  have num : (1 : ℚ) / 2 ^ 21 + 1 / 2 ^ 140 + 2 * (1 / 2 ^ 150) + 1 / 2 ^ 22 ≤ 1 / 2 ^ 20 := by norm_num
  have num2 : (4 : ℚ) / 2 ^ 24 ≤ 1 / 2 ^ 22 := by norm_num
  have num3 : (1 : ℚ) / 2 ^ 22 + 1 / 2 ^ 22 = 1 / 2 ^ 21 := by norm_num
  have pos : (0 : ℚ) < 1 / 2 ^ 140 := by positivity
  generalize hk1 : (1 : ℚ) / 2 ^ 24 = k1 at *
  have num2' : 4 * k1 ≤ 1 / 2 ^ 22 := by rw [← hk1]; norm_num
  generalize (1 : ℚ) / 2 ^ 22 = k2 at *
  generalize (1 : ℚ) / 2 ^ 21 = k3 at *
  generalize (1 : ℚ) / 2 ^ 150 = k4 at *
  generalize (1 : ℚ) / 2 ^ 140 = k5 at *
  generalize (1 : ℚ) / 2 ^ 20 = k6 at *
  have ex : x.val * x.val = x.val ^ 2 := by ring
  have ey : y.val * y.val = y.val ^ 2 := by ring
  rw [ex] at sX
  rw [ey] at sY
  rcases le_total 0 B.val with h | h
  · rw [max_eq_left h] at vM
    rw [abs_le]; constructor <;> linarith
  · rw [max_eq_right h] at vM
    rw [abs_le]; constructor <;> linarith

theorem mul_minus_one {x : F32} (h : Num x) : Num (x *. ⊖(lit 1)) ∧ (x *. ⊖(lit 1)).val = -x.val := by
  have n1 := neg_ok Sgn.lit_one.1
  obtain ⟨zs, e⟩ := mul_val h n1.1
  have e2 : x.val * (⊖(lit 1) : F32).val = -x.val := by rw [n1.2, Sgn.lit_one.2.1]; ring
  rw [e2] at e
  obtain ⟨f, v⟩ := ofVal_repr (repr_neg (val_repr h)) zs
  rw [e]
  exact ⟨⟨ofVal_WF _ _, f⟩, v⟩

/-- The error of a quotient, relative to the quotient, far from the underflow. -/
theorem div_rel {a b : F32} (ha : Num a) (hb : Num b) (hb3 : 3 ≤ b.val) (hb4 : b.val ≤ 4) (h : 1 / 2 ^ 100 ≤ |a.val|) (h' : |a.val| ≤ 2 ^ 100) :
    Num (a /. b) ∧ |(a /. b).val - a.val / b.val| ≤ |a.val / b.val| * (1001 / 1000 / 2 ^ 24) := by
  have bp : (0 : ℚ) < b.val := by linarith
  have u : UpTo 100 (a /. b) := by
    refine upTo_div (by omega) ha hb bp.ne' ?_
    rw [abs_of_pos bp]
    have : (2 : ℚ) ^ 100 * 1 ≤ 2 ^ 100 * b.val := mul_le_mul_of_nonneg_left (by linarith) (by positivity)
    linarith
  refine ⟨u.1, (div_err ha.wf hb.wf hb.fin u.1.fin).2.2.trans ?_⟩
  have : 1 / 2 ^ 102 ≤ |a.val / b.val| := by
    rw [abs_div, abs_of_pos bp, le_div_iff₀ bp]
    calc (1 : ℚ) / 2 ^ 102 * b.val ≤ 1 / 2 ^ 102 * 4 := mul_le_mul_of_nonneg_left hb4 (by positivity)
      _ = 1 / 2 ^ 100 := by norm_num
      _ ≤ _ := h
  have num : (1 : ℚ) / 2 ^ 150 ≤ 1 / 2 ^ 102 * (1 / 1000 / 2 ^ 24) := by norm_num
  unfold ulpHalf tinyHalf
  generalize |a.val / b.val| = q at *
  nlinarith

end DiffF

open DiffF NoPanic FrF in
/-- **C57** in single precision, for every pair of sample values and every view direction with a third coordinate of at most 2.
(1) The drawn direction has finite coordinates and a squared length of one within `2 ^ -20`, and it is never on the other side of the surface.
(2) The reported density is a finite number `≥ 0`, the one that `pdf` gives for the drawn direction, and it is `cos / π` up to rounding, unless the product of the two third
coordinates is so small that it may round to zero.
(3) Away from the underflow the value times the cosine over the density is the albedo, in each channel, up to a relative error of `2 ^ -22`. -/
theorem c57_f32 [Libm F32] (hl : SaneLibm) (hm : CarefulLibm) (r : Spectrum F32) (wo : V3 F32) (hwo : UpTo 1 wo.z) (u : V2 F32) (hx : Sample32 u.x) (hy : Sample32 u.y)
    (wi : V3 F32) (f : Spectrum F32) (p : F32) (h : (lambertianReflection r).sampleF wo u = (wi, f, p)) :
    (Num wi.x ∧ Num wi.y ∧ Num wi.z ∧ |wi.x.val ^ 2 + wi.y.val ^ 2 + wi.z.val ^ 2 - 1| ≤ 1 / 2 ^ 20 ∧ 0 ≤ wi.z.val * wo.z.val) ∧
    (Num p ∧ 0 ≤ p.val ∧ p = (lambertianReflection r).pdf wo wi ∧ f = (lambertianReflection r).f wo wi ∧
      (1 / 2 ^ 149 ≤ wo.z.val * wi.z.val → |p.val - |wi.z.val| / (Libm.pi : F32).val| ≤ |wi.z.val| / (Libm.pi : F32).val / 2 ^ 24 + 1 / 2 ^ 150)) ∧
    (1 / 2 ^ 100 ≤ |wi.z.val| → 1 / 2 ^ 149 ≤ wo.z.val * wi.z.val → ∀ c f', (c, f') ∈ [(r.r, f.r), (r.g, f.g), (r.b, f.b)] →
      Num c → 1 / 2 ^ 100 ≤ |c.val| → |c.val| ≤ 2 ^ 100 → |f'.val * |wi.z.val| / p.val - c.val| ≤ |c.val| / 2 ^ 22) := by
  obtain ⟨ux, uy, uz, z0, hsq⟩ := hemisphere hl hm hx hy
  simp only [lambertianReflection, Lambertian.sampleF, Prod.mk.injEq] at h ⊢
  obtain ⟨h1, h2, h3⟩ := h
  generalize cosineSampleHemisphere u = w at *
  have hmz := mul_minus_one uz.1
  -- the drawn direction
  have dir : wi.x = w.x ∧ wi.y = w.y ∧ UpTo 1 wi.z ∧ wi.z.val ^ 2 = w.z.val ^ 2 ∧ 0 ≤ wi.z.val * wo.z.val := by
    rw [← h1]
    by_cases hz : (wo.z <. lit 0) = true
    · rw [if_pos hz]
      rw [lt_ok hwo.1 zero_ok.1, zero_ok.2] at hz
      refine ⟨rfl, rfl, ⟨hmz.1, by rw [hmz.2, abs_neg]; exact uz.2⟩, by rw [hmz.2]; ring, ?_⟩
      rw [hmz.2]; nlinarith
    · rw [if_neg hz]
      rw [lt_ok hwo.1 zero_ok.1, zero_ok.2, not_lt] at hz
      exact ⟨rfl, rfl, uz, rfl, mul_nonneg z0 hz⟩
  rw [h1] at h2 h3
  obtain ⟨d1, d2, d3, d4, d5⟩ := dir
  have np : Num (Libm.pi : F32) := hl.pi.1
  obtain ⟨p3, p4⟩ := hm.pi
  have pp : (0 : ℚ) < (Libm.pi : F32).val := by linarith
  have ab := abs_ok d3.1
  have vz : |wi.z.val| ≤ 2 := by simpa using d3.2
  have quo : UpTo 0 (Scalar.abs wi.z /. (Libm.pi : F32)) := by
    refine upTo_div (by omega) ab.1 np pp.ne' ?_
    rw [ab.2, abs_abs, abs_of_pos pp]; linarith
  have same : 1 / 2 ^ 149 ≤ wo.z.val * wi.z.val → sameHemisphere wo wi = true := by
    intro hprod
    show (lit 0 <. wo.z *. wi.z) = true
    have um := upTo_mul (m := 1) (n := 1) (by omega) hwo d3
    rw [lt_ok zero_ok.1 um.1, zero_ok.2]
    obtain ⟨zs, e⟩ := mul_val hwo.1 d3.1
    rw [e]
    have hb : wo.z.val * wi.z.val ≤ 2 ^ 2 := by
      have := mul_le_mul hwo.2 d3.2 (abs_nonneg _) (by positivity)
      rw [← abs_mul] at this
      calc _ ≤ _ := le_abs_self _
        _ ≤ _ := this
        _ = _ := by norm_num
    have := (ofVal_between (φ := Binary32) (repr_inv (n := 149) (by omega)) (pow_repr (n := 2) (by omega)) hprod hb zs).2.1
    exact lt_of_lt_of_le (by positivity) this
  have hp : sameHemisphere wo wi = true → p = Scalar.abs wi.z /. Libm.pi := by
    intro hs
    rw [← h3]; unfold Lambertian.pdf absCosTheta
    rw [if_pos hs]
  refine ⟨⟨d1 ▸ ux.1, d2 ▸ uy.1, d3.1, by rw [d1, d2, d4]; exact hsq, d5⟩, ⟨?_, ?_, h3.symm, h2.symm, ?_⟩, ?_⟩
  · by_cases hs : sameHemisphere wo wi = true
    · rw [hp hs]; exact quo.1
    · rw [← h3]; unfold Lambertian.pdf; rw [if_neg hs]; exact zero_ok.1
  · by_cases hs : sameHemisphere wo wi = true
    · rw [hp hs]
      obtain ⟨zs, e⟩ := div_val ab.1 np pp.ne'
      rw [e, ab.2]
      refine (ofVal_between (φ := Binary32) repr_zero Sgn.repr_one (by positivity) ?_ zs).2.1
      rw [div_le_iff₀ pp]; linarith
    · rw [← h3]; unfold Lambertian.pdf; rw [if_neg hs, zero_ok.2]
  · intro hprod
    rw [hp (same hprod)]
    have := (div_err ab.1.wf np.wf np.fin quo.1.fin).2.2
    rw [ab.2] at this
    rw [abs_of_nonneg (by positivity : 0 ≤ |wi.z.val| / (Libm.pi : F32).val)] at this
    refine this.trans (le_of_eq ?_)
    unfold ulpHalf tinyHalf
    ring
  · intro hz hprod c f' hmem nc c0 c1
    have hf : f' = c /. Libm.pi := by
      simp only [Lambertian.f, Spectrum.sdiv] at h2
      subst h2
      simp only [List.mem_cons, Prod.mk.injEq, List.not_mem_nil, or_false] at hmem
      rcases hmem with ⟨rfl, rfl⟩ | ⟨rfl, rfl⟩ | ⟨rfl, rfl⟩ <;> rfl
    have zp : 0 < |wi.z.val| := lt_of_lt_of_le (by positivity) hz
    obtain ⟨-, ep⟩ := div_rel ab.1 np p3 p4 (by rw [ab.2, abs_abs]; exact hz) (by rw [ab.2, abs_abs]; exact vz.trans (by norm_num))
    obtain ⟨-, ef⟩ := div_rel nc np p3 p4 c0 c1
    rw [← hp (same hprod), ab.2] at ep
    rw [← hf] at ef
    have e1 : |wi.z.val| / (Libm.pi : F32).val = |(|wi.z.val| / (Libm.pi : F32).val)| := (abs_of_nonneg (by positivity)).symm
    rw [← e1] at ep
    have e2 : |c.val / (Libm.pi : F32).val| = |c.val| / (Libm.pi : F32).val := by rw [abs_div, abs_of_pos pp]
    rw [e2] at ef
    set P := (Libm.pi : F32).val with hP
    set Z := |wi.z.val| with hZ
    have sp := abs_le.1 ep
    have pv : 0 < p.val := by
      have : 0 < Z / P := by positivity
      have num : (1001 : ℚ) / 1000 / 2 ^ 24 ≤ 1 / 2 := by norm_num
      nlinarith
    rw [div_sub' pv.ne', abs_div, abs_of_pos pv, div_le_iff₀ pv]
    have split : f'.val * Z - p.val * c.val = (f'.val - c.val / P) * Z - (p.val - Z / P) * c.val := by field_simp; ring
    rw [split]
    have t1 : |(f'.val - c.val / P) * Z| ≤ |c.val| / P * (1001 / 1000 / 2 ^ 24) * Z := by
      rw [abs_mul, abs_of_pos zp]; exact mul_le_mul_of_nonneg_right ef zp.le
    have t2 : |(p.val - Z / P) * c.val| ≤ Z / P * (1001 / 1000 / 2 ^ 24) * |c.val| := by
      rw [abs_mul]; exact mul_le_mul_of_nonneg_right ep (abs_nonneg _)
    have t3 : Z / P * (1 / 2) ≤ p.val * (1 / 2 + 1 / 2 ^ 20) := by
      have : 0 < Z / P := by positivity
      norm_num at sp ⊢
      linarith [sp.1]
    calc _ ≤ |(f'.val - c.val / P) * Z| + |(p.val - Z / P) * c.val| := abs_sub _ _
      _ ≤ |c.val| * (Z / P * (1 / 2)) * (4 * (1001 / 1000 / 2 ^ 24)) := by
        have e : |c.val| / P * (1001 / 1000 / 2 ^ 24) * Z + Z / P * (1001 / 1000 / 2 ^ 24) * |c.val| = |c.val| * (Z / P * (1 / 2)) * (4 * (1001 / 1000 / 2 ^ 24)) := by
          field_simp; ring
        linarith
      _ ≤ |c.val| * (p.val * (1 / 2 + 1 / 2 ^ 20)) * (4 * (1001 / 1000 / 2 ^ 24)) := by
        exact mul_le_mul_of_nonneg_right (mul_le_mul_of_nonneg_left t3 (abs_nonneg _)) (by positivity)
      _ = |c.val| * p.val * ((1 / 2 + 1 / 2 ^ 20) * (4 * (1001 / 1000 / 2 ^ 24))) := by ring
      _ ≤ |c.val| * p.val * (1 / 2 ^ 22) := by
        exact mul_le_mul_of_nonneg_left (by norm_num) (mul_nonneg (abs_nonneg _) pv.le)
      _ = _ := by ring

namespace Demo
/-- A mathematical library with an accurate square root. -/
noncomputable def carefulSqrt : F32 → F32
  | .nan => .nan
  | .inf s => .inf s
  | .fin s a => sqrt32 (.fin s a)

/-- Its sine is 0 and its cosine 1. -/
noncomputable abbrev carefulLibm : Libm F32 := { roughLibm with sqrt := carefulSqrt, cos := fun _ => lit 1 }

theorem carefulSqrt_spec (x : F32) (hx : Num x) (h0 : 0 ≤ x.val) :
    Num (carefulSqrt x) ∧ 0 ≤ (carefulSqrt x).val ∧ |(carefulSqrt x).val ^ 2 - x.val| ≤ x.val / 2 ^ 22 := by
  have e : carefulSqrt x = sqrt32 x := by
    obtain ⟨s, a, rfl⟩ := IsFin_iff.1 hx.fin; rfl
  rw [e]
  obtain ⟨w, f, h⟩ := libm32_accurate x hx.wf hx.fin h0
  change (sqrt32 x).WF at w
  change (sqrt32 x).IsFin at f
  change |((sqrt32 x).val : ℝ) - _| ≤ _ at h
  have hr0 := Real.sqrt_nonneg (x.val : ℝ)
  have hr := Real.sq_sqrt (show (0 : ℝ) ≤ (x.val : ℝ) by exact_mod_cast h0)
  generalize √(x.val : ℝ) = r at h hr hr0
  generalize sqrt32 x = y at *
  have s := abs_le.1 h
  have num : (1001 : ℝ) / 1000 / 2 ^ 24 ≤ 1 / 2 := by norm_num
  have y0 : (0 : ℝ) ≤ (y.val : ℝ) := by nlinarith
  refine ⟨⟨w, f⟩, by exact_mod_cast y0, ?_⟩
  have y1 : (y.val : ℝ) + r ≤ r * (2 + 1001 / 1000 / 2 ^ 24) := by linarith
  have key : |((y.val : ℝ)) ^ 2 - (x.val : ℝ)| ≤ (x.val : ℝ) / 2 ^ 22 := by
    rw [← hr, show (y.val : ℝ) ^ 2 - r ^ 2 = (y.val - r) * (y.val + r) by ring, abs_mul, abs_of_nonneg (show (0 : ℝ) ≤ (y.val : ℝ) + r by linarith)]
    calc _ ≤ r * (1001 / 1000 / 2 ^ 24) * (r * (2 + 1001 / 1000 / 2 ^ 24)) := mul_le_mul h y1 (by linarith) (by positivity)
      _ = r ^ 2 * ((1001 / 1000 / 2 ^ 24) * (2 + 1001 / 1000 / 2 ^ 24)) := by ring
      _ ≤ r ^ 2 * (1 / 2 ^ 22) := mul_le_mul_of_nonneg_left (by norm_num) (by positivity)
      _ = _ := by ring
  exact_mod_cast key

theorem carefulLibm_sane : @SaneLibm carefulLibm := by
  refine @SaneLibm.mk carefulLibm rfl rfl ?_ (fun _ _ => NoPanic.upTo_zero 0 (by omega)) (fun _ _ => NoPanic.upTo_one) (@SaneLibm.pi roughLibm roughLibm_sane)
  intro x hx h0
  obtain ⟨a, b, c⟩ := carefulSqrt_spec x hx h0
  have := abs_le.1 c
  refine ⟨a, b, ?_, ?_⟩
  · change (carefulSqrt x).val ^ 2 ≤ _
    linarith [this.2]
  · change _ ≤ 2 * (carefulSqrt x).val ^ 2
    linarith [this.1]

theorem carefulLibm_careful : @CarefulLibm carefulLibm := by
  refine @CarefulLibm.mk carefulLibm (fun x hx h0 => (carefulSqrt_spec x hx h0).2.2) ?_ ?_
  · intro x _
    show |(lit 1 : F32).val ^ 2 + (lit 0 : F32).val ^ 2 - 1| ≤ 1 / 2 ^ 22
    decide +kernel
  · show 3 ≤ (f32 (13176795 / 2 ^ 22)).val ∧ (f32 (13176795 / 2 ^ 22)).val ≤ 4
    decide +kernel
end Demo

/-- A grey surface seen from below: the direction drawn is straight down, the density is not zero, and part (3) applies. -/
example : letI := Demo.carefulLibm
    SaneLibm ∧ CarefulLibm ∧ UpTo 1 (f32 (-1)) ∧ Sample32 (f32 (1 / 2)) ∧
    (((lambertianReflection (Spectrum.of (f32 (1 / 4)))).sampleF ⟨f32 0, f32 0, f32 (-1)⟩ ⟨f32 (1 / 2), f32 (1 / 2)⟩).1.z = f32 (-1)) ∧
    1 / 2 ^ 100 ≤ |(f32 (-1)).val| ∧ 1 / 2 ^ 149 ≤ (f32 (-1)).val * (f32 (-1)).val ∧ Num (f32 (1 / 4)) ∧ 1 / 2 ^ 100 ≤ |(f32 (1 / 4)).val| := by
  let _ := Demo.carefulLibm
  refine ⟨Demo.carefulLibm_sane, Demo.carefulLibm_careful, NoPanic.upTo_ofVal (by omega) (by norm_num [abs_of_pos]) _, ⟨lit_WF (1 / 2 : ℚ), by decide +kernel, by decide +kernel⟩, ?_,
    by decide +kernel, by decide +kernel, ofVal_ok (by norm_num [abs_of_pos]) _, by decide +kernel⟩
  have e : f32 (1 / 2) *. lit 2 +. ⊖(lit 1) = (lit 0 : F32) := by decide +kernel
  have e2 : ((lit 0 : F32) ==. lit 0) = true := by decide +kernel
  have e3 : (Scalar.fmax (lit 1 -. (lit 0 : F32) *. lit 0 -. lit 0 *. lit 0) (lit 0) : F32) = lit 1 := by decide +kernel
  have e4 : (f32 (-1) <. lit 0) = true := by decide +kernel
  have e5 : (Libm.sqrt (lit 1 : F32)) = lit 1 := by
    show Demo.carefulSqrt (lit 1) = lit 1
    have h1 : (lit 1 : F32) = .fin false 1 := by decide +kernel
    rw [h1]
    show Demo.sqrt32 (.fin false 1) = _
    rw [← h1]; unfold Demo.sqrt32; rw [if_pos rfl]
  simp only [lambertianReflection, Lambertian.sampleF, cosineSampleHemisphere, concentricSampleDisk, e, e2, Bool.and_self, if_true, e3, e4, e5]
  decide +kernel

end PT
