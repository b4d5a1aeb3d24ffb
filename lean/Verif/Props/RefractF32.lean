import Verif.Props.ReflectF32
import Verif.Props.FrameF32

/-!
# Refraction in single precision (C54)
-/

namespace PT
open Spec Fl

namespace Spec

/-- The square of the sine of the refracted direction by Snell's law, from the values of the arguments: `eta² (1 - (w · n)²)`. -/
noncomputable def exactSin2T (w n : V3 F32) (eta : F32) : ℝ := (eta.val : ℝ) ^ 2 * max (1 - exactDot w n ^ 2) 0

end Spec

namespace RefrF
open VecF NoPanic TriF ReflF

theorem one_abs {r : F32} (h : UpTo 0 r) : |(r.val : ℝ)| ≤ 1 := by
  have := h.2
  rw [pow_zero] at this
  exact_mod_cast this

theorem pow_abs {k : ℕ} {r : F32} (h : UpTo k r) : |(r.val : ℝ)| ≤ 2 ^ k := by
  have := h.2
  exact_mod_cast this

/-- The cosine of the incoming direction. -/
theorem cosine {w n : V3 F32} (hw : UpTo3 0 w) (hn : UpTo3 0 n) :
    UpTo 2 (w.dot n) ∧ |exactDot w n| ≤ 3 ∧ |((w.dot n).val : ℝ) - exactDot w n| ≤ 121 / 10 / 2 ^ 24 := by
  have mono : ∀ {v : V3 F32}, UpTo3 0 v → UpTo3 60 v := fun h => UpTo3.mono h (by omega)
  obtain ⟨⟨nd, ed⟩, -⟩ := c120_products (mono hw) (mono hn)
  have pr : ∀ {r s : F32}, UpTo 0 r → UpTo 0 s → |(r.val : ℝ) * s.val| ≤ 1 := fun h h' => by
    rw [abs_mul]; exact mul_le_one₀ (one_abs h) (abs_nonneg _) (one_abs h')
  have p1 := pr hw.1 hn.1
  have p2 := pr hw.2.1 hn.2.1
  have p3 := pr hw.2.2 hn.2.2
  refine ⟨UpTo.mono (upTo_dot (m := 0) (n := 0) (by omega) hw hn) (by omega), ?_, ?_⟩
  · unfold exactDot
    exact (abs_add_le _ _).trans ((add_le_add_left (abs_add_le _ _) _).trans (by linarith))
  · unfold exactDot
    refine ed.trans ?_
    have hs : |(w.x.val : ℝ) * n.x.val| + |(w.y.val : ℝ) * n.y.val| + |(w.z.val : ℝ) * n.z.val| ≤ 3 := by linarith
    calc _ ≤ (3 : ℝ) * (4 / 2 ^ 24) + 1 / 2 ^ 147 := by gcongr
      _ ≤ 121 / 10 / 2 ^ 24 := by norm_num

/-- The square of the sine of the incoming direction. -/
theorem sine_in {d : F32} {D : ℝ} (ud : UpTo 2 d) (hD : |D| ≤ 3) (h : |(d.val : ℝ) - D| ≤ 121 / 10 / 2 ^ 24) :
    UpTo 5 (Scalar.fmax (lit 1 -. d *. d) (lit 0)) ∧ |((Scalar.fmax (lit 1 -. d *. d) (lit 0) : F32).val : ℝ) - max (1 - D ^ 2) 0| ≤ 112 / 2 ^ 24 := by
  have dv : |(d.val : ℝ)| ≤ 4 := (pow_abs ud).trans (by norm_num)
  have u1 : UpTo 4 (d *. d) := upTo_mul (m := 2) (n := 2) (by omega) ud ud
  have m1 := mul_near ud.1 ud.1 u1.1 dv h hD
  have m1' : |((d *. d).val : ℝ) - D ^ 2| ≤ 102 / 2 ^ 24 := by
    rw [show ((d *. d).val : ℝ) - D ^ 2 = ((d *. d).val - d.val * D) + D * (d.val - D) by ring]
    refine (abs_add_le _ _).trans ?_
    rw [abs_mul]
    calc _ ≤ _ + 3 * (121 / 10 / 2 ^ 24 : ℝ) := add_le_add m1 (mul_le_mul hD h (abs_nonneg _) (by norm_num))
      _ ≤ 102 / 2 ^ 24 := by norm_num
  have one := upTo_one
  have v1 : |((lit 1 : F32).val : ℝ) - 1| ≤ 0 := by rw [Sgn.lit_one.2.1]; simp
  have u2 : UpTo 5 (lit 1 -. d *. d) := upTo_sub (by omega) (UpTo.mono one (by omega)) u1
  have D9 : D ^ 2 ≤ 9 := by
    have := abs_le.1 hD
    nlinarith
  have m2 := sub_near one.1 u1.1 u2.1 v1 m1' (m := 9) (by rw [abs_le]; constructor <;> nlinarith)
  have z : UpTo 5 (lit 0 : F32) := upTo_lit (by omega) (by norm_num)
  refine ⟨upTo_max u2 z, ?_⟩
  rw [(max_ok u2.1 z.1).2, zero_ok.2]
  push_cast
  refine (abs_max_sub_max_le_abs _ _ _).trans (m2.trans (by norm_num))

/-- The square of the sine of the refracted direction. -/
theorem sine_out {eta s : F32} {S : ℝ} (ue : UpTo 2 eta) (us : UpTo 5 s) (S0 : 0 ≤ S) (S1 : S ≤ 1) (h : |(s.val : ℝ) - S| ≤ 112 / 2 ^ 24) :
    UpTo 9 (eta *. eta *. s) ∧ |((eta *. eta *. s).val : ℝ) - (eta.val : ℝ) ^ 2 * S| ≤ 1830 / 2 ^ 24 := by
  have ev : |(eta.val : ℝ)| ≤ 4 := (pow_abs ue).trans (by norm_num)
  have u1 : UpTo 4 (eta *. eta) := upTo_mul (m := 2) (n := 2) (by omega) ue ue
  have u2 : UpTo 9 (eta *. eta *. s) := upTo_mul (m := 4) (n := 5) (by omega) u1 us
  have m1 := mul_near ue.1 ue.1 u1.1 ev (b := eta.val) (e := 0) (by simp) ev
  have m1' : |((eta *. eta).val : ℝ) - (eta.val : ℝ) ^ 2| ≤ 17 / 2 ^ 24 := by
    rw [pow_two]; exact m1.trans (by norm_num)
  have m2 := mul_near u1.1 us.1 u2.1 (k := 16) ((pow_abs u1).trans (by norm_num)) h (m := 1) (by rwa [abs_of_nonneg S0])
  refine ⟨u2, ?_⟩
  rw [show ((eta *. eta *. s).val : ℝ) - (eta.val : ℝ) ^ 2 * S = ((eta *. eta *. s).val - (eta *. eta).val * S) + ((eta *. eta).val - (eta.val : ℝ) ^ 2) * S by ring]
  refine (abs_add_le _ _).trans ?_
  rw [abs_mul, abs_of_nonneg S0]
  calc _ ≤ _ + 17 / 2 ^ 24 * 1 := add_le_add m2 (mul_le_mul m1' S1 S0 (by norm_num))
    _ ≤ 1830 / 2 ^ 24 := by norm_num

/-- The difference of two square roots. -/
theorem sqrt_near {q a e : ℝ} (q0 : 0 ≤ q) (a0 : 0 < a) (h : |q - a| ≤ e) : |√q - √a| ≤ e / √a := by
  have ra := Real.sqrt_pos.2 a0
  have rq := Real.sqrt_nonneg q
  rw [le_div_iff₀ ra]
  have : (√q - √a) * (√q + √a) = q - a := by
    have h1 := Real.sq_sqrt q0
    have h2 := Real.sq_sqrt a0.le
    linear_combination h1 - h2
  calc |√q - √a| * √a ≤ |√q - √a| * |√q + √a| := by
        gcongr
        rw [abs_of_nonneg (by linarith)]
        linarith
    _ = |q - a| := by rw [← abs_mul, this]
    _ ≤ e := h

/-- The cosine of the refracted direction. -/
theorem cosine_out [Libm F32] (hl : AccurateSqrt) {t : F32} {T : ℝ} (ut : UpTo 9 t) (t1 : t.val < 1) (T0 : 0 ≤ T) (T1 : T < 1) (h : |(t.val : ℝ) - T| ≤ 1830 / 2 ^ 24) :
    UpTo 1 (Libm.sqrt (lit 1 -. t)) ∧ |((Libm.sqrt (lit 1 -. t)).val : ℝ) - √(1 - T)| ≤ 1834 * (1 / 2 ^ 24 / √(1 - T)) := by
  have one := upTo_one
  have v1 : |((lit 1 : F32).val : ℝ) - 1| ≤ 0 := by rw [Sgn.lit_one.2.1]; simp
  have u1 : UpTo 10 (lit 1 -. t) := upTo_sub (by omega) (UpTo.mono one (by omega)) ut
  have m1 := sub_near one.1 ut.1 u1.1 v1 h (m := 1) (by rw [abs_le]; constructor <;> linarith)
  have m1' : |((lit 1 -. t).val : ℝ) - (1 - T)| ≤ 1832 / 2 ^ 24 := m1.trans (by norm_num)
  have q0 : 0 ≤ (lit 1 -. t).val := by
    obtain ⟨zs, e⟩ := add_fin one.1.fin (neg_ok ut.1).1.fin
    change 0 ≤ (Fl.add (lit 1) (⊖t)).val
    rw [e]
    refine (ofVal_between (hi := (2 : ℚ) ^ 126) ?_ big_repr ?_ ?_ zs).2.1
    · unfold Fl.Repr; decide +kernel
    · rw [Sgn.lit_one.2.1, (neg_ok ut.1).2]; linarith
    · rw [Sgn.lit_one.2.1, (neg_ok ut.1).2]
      have := (abs_le.1 ut.2).1
      norm_num at this ⊢
      linarith
  obtain ⟨w, f, hs⟩ := hl _ u1.1.wf u1.1.fin q0
  have q0' : (0 : ℝ) ≤ (lit 1 -. t).val := by exact_mod_cast q0
  have a0 : 0 < 1 - T := by linarith
  have r := sqrt_near q0' a0 m1'
  have C0 := Real.sqrt_pos.2 a0
  have C1 : √(1 - T) ≤ 1 := Real.sqrt_le_one.2 (by linarith)
  have Q1 : √((lit 1 -. t).val : ℝ) ≤ 1001 / 1000 := by
    apply Real.sqrt_le_iff.2 ⟨by norm_num, ?_⟩
    have := (abs_le.1 m1').2
    norm_num at this ⊢
    linarith
  have Q0 := Real.sqrt_nonneg ((lit 1 -. t).val : ℝ)
  generalize Libm.sqrt (lit 1 -. t) = c at *
  generalize √((lit 1 -. t).val : ℝ) = Q at *
  generalize √(1 - T) = C at *
  have hs' : |(c.val : ℝ) - Q| ≤ 2 * (1 / 2 ^ 24) := by
    refine hs.trans ?_
    calc Q * (1001 / 1000 / 2 ^ 24) ≤ 1001 / 1000 * (1001 / 1000 / 2 ^ 24) := by gcongr
      _ ≤ 2 * (1 / 2 ^ 24) := by norm_num
  have big : (1 / 2 ^ 24 : ℝ) ≤ 1 / 2 ^ 24 / C := by
    rw [le_div_iff₀ C0]
    exact mul_le_of_le_one_right (by positivity) C1
  refine ⟨⟨⟨w, f⟩, ?_⟩, ?_⟩
  · have : |(c.val : ℝ)| ≤ 2 := by
      rw [show (c.val : ℝ) = Q + (c.val - Q) by ring]
      refine (abs_add_le _ _).trans ?_
      rw [abs_of_nonneg Q0]
      norm_num at hs' ⊢
      linarith
    rw [pow_one]
    exact_mod_cast this
  · rw [show (c.val : ℝ) - C = (c.val - Q) + (Q - C) by ring]
    refine (abs_add_le _ _).trans ((add_le_add hs' r).trans ?_)
    rw [show (1832 / 2 ^ 24 / C : ℝ) = 1832 * (1 / 2 ^ 24 / C) by ring]
    linarith

/-- A coordinate of the refracted direction. -/
theorem coordinate {d eta c x y : F32} {D C X : ℝ} (ud : UpTo 2 d) (ue : UpTo 2 eta) (uc : UpTo 1 c) (hx : UpTo 0 x) (hy : UpTo 0 y) (hD : |D| ≤ 3)
    (hd : |(d.val : ℝ) - D| ≤ 121 / 10 / 2 ^ 24) (C0 : 0 < C) (C1 : C ≤ 1) (X0 : 1 / 2 ^ 24 ≤ X) (hc : |(c.val : ℝ) - C| ≤ 1834 * X) :
    Num (⊖x *. eta +. y *. (d *. eta -. c)) ∧ |((⊖x *. eta +. y *. (d *. eta -. c)).val : ℝ) - (-(x.val : ℝ) * eta.val + y.val * (D * eta.val - C))| ≤ 2048 * X := by
  have ev : |(eta.val : ℝ)| ≤ 4 := (pow_abs ue).trans (by norm_num)
  have u1 : UpTo 4 (d *. eta) := upTo_mul (m := 2) (n := 2) (by omega) ud ue
  have m1 := mul_near ue.1 ud.1 (by rw [mul_swap]; exact u1.1) ev hd hD
  rw [mul_swap, mul_comm (eta.val : ℝ) D] at m1
  have m1' : |((d *. eta).val : ℝ) - D * eta.val| ≤ 62 / 2 ^ 24 := m1.trans (by norm_num)
  have De : |D * (eta.val : ℝ)| ≤ 12 := by
    rw [abs_mul]
    exact (mul_le_mul hD ev (abs_nonneg _) (by norm_num)).trans (by norm_num)
  have u2 : UpTo 5 (d *. eta -. c) := upTo_sub (by omega) u1 (UpTo.mono uc (by omega))
  have K13 : |D * (eta.val : ℝ) - C| ≤ 13 := by
    have := abs_le.1 De
    rw [abs_le]; constructor <;> linarith
  have m2 := sub_near u1.1 uc.1 u2.1 m1' hc K13
  have m2' : |((d *. eta -. c).val : ℝ) - (D * eta.val - C)| ≤ 1911 * X := by
    refine m2.trans ?_
    norm_num at X0 ⊢
    linarith
  have u3 : UpTo 5 (y *. (d *. eta -. c)) := UpTo.mono (upTo_mul (m := 0) (n := 5) (by omega) hy u2) (by omega)
  have m3 := mul_near hy.1 u2.1 u3.1 (one_abs hy) m2' K13
  have m3' : |((y *. (d *. eta -. c)).val : ℝ) - y.val * (D * eta.val - C)| ≤ 1926 * X := by
    refine m3.trans ?_
    norm_num at X0 ⊢
    linarith
  have ux := upTo_neg hx
  have u4 : UpTo 5 (⊖x *. eta) := UpTo.mono (upTo_mul (m := 0) (n := 2) (by omega) ux ue) (by omega)
  have m4 := mul_near ux.1 ue.1 u4.1 (one_abs ux) (b := eta.val) (e := 0) (by simp) ev
  have nx : ((⊖x).val : ℝ) = -(x.val : ℝ) := by rw [(neg_ok hx.1).2]; push_cast; rfl
  rw [nx] at m4
  have m4' : |((⊖x *. eta).val : ℝ) - -(x.val : ℝ) * eta.val| ≤ 5 * X := by
    refine m4.trans ?_
    norm_num at X0 ⊢
    linarith
  have u5 : UpTo 6 (⊖x *. eta +. y *. (d *. eta -. c)) := upTo_add (by omega) u4 u3
  have m5 := add_near u4.1 u3.1 u5.1 m4' m3' (m := 17) (by
    refine (abs_add_le _ _).trans ?_
    rw [abs_mul, abs_mul, abs_neg]
    calc _ ≤ (1 : ℝ) * 4 + 1 * 13 := add_le_add (mul_le_mul (one_abs hx) ev (abs_nonneg _) (by norm_num)) (mul_le_mul (one_abs hy) K13 (abs_nonneg _) (by norm_num))
      _ = 17 := by norm_num)
  refine ⟨u5.1, m5.trans ?_⟩
  norm_num at X0 ⊢
  linarith

end RefrF

open VecF NoPanic TriF ReflF RefrF in
/-- **C54** in single precision.  For vectors with coordinates in `[-1, 1]`, in particular unit vectors, and a ratio of indices of at most 4: total reflection is answered only if
the exact square of the refracted sine is at least `1 - 2 ^ -13`, and a direction only if it is at most `1 + 2 ^ -13`.  Below 1 a direction consists of numbers, and each
coordinate is within `2 ^ -13`, divided by the cosine of the refracted direction, of the one of Snell's law. -/
theorem c54_f32 [Libm F32] (hl : AccurateSqrt) {w n : V3 F32} {eta : F32} (hw : UpTo3 0 w) (hn : UpTo3 0 n) (he : UpTo 2 eta) :
    (refract w n eta = none → 1 - 1 / 2 ^ 13 ≤ exactSin2T w n eta) ∧
    ∀ t, refract w n eta = some t → exactSin2T w n eta ≤ 1 + 1 / 2 ^ 13 ∧
      (exactSin2T w n eta < 1 → ∀ a : Axis, Num (t.get a) ∧
        |((t.get a).val : ℝ) - (-((w.get a).val : ℝ) * eta.val + (n.get a).val * (exactDot w n * eta.val - √(1 - exactSin2T w n eta)))| ≤ 1 / 2 ^ 13 / √(1 - exactSin2T w n eta)) := by
  obtain ⟨ud, hD, hd⟩ := cosine hw hn
  obtain ⟨us, hs⟩ := sine_in ud hD hd
  have S0 : 0 ≤ max (1 - exactDot w n ^ 2) 0 := le_max_right _ _
  have S1 : max (1 - exactDot w n ^ 2) 0 ≤ 1 := max_le (by nlinarith [sq_nonneg (exactDot w n)]) (by norm_num)
  obtain ⟨ut, ht⟩ := sine_out he us S0 S1 hs
  change |_ - exactSin2T w n eta| ≤ _ at ht
  have T0 : 0 ≤ exactSin2T w n eta := mul_nonneg (sq_nonneg _) S0
  have test := le_ok (a := lit 1) (b := eta *. eta *. Scalar.fmax (lit 1 -. w.dot n *. w.dot n) (lit 0)) upTo_one.1 ut.1
  rw [Sgn.lit_one.2.1] at test
  obtain ⟨h1, h2⟩ := abs_le.1 ht
  unfold refract
  dsimp only
  by_cases hb : (1 : ℚ) ≤ (eta *. eta *. Scalar.fmax (lit 1 -. w.dot n *. w.dot n) (lit 0)).val
  · rw [if_pos (test.2 hb)]
    refine ⟨fun _ => ?_, fun t h => by simp at h⟩
    have hb' : (1 : ℝ) ≤ (eta *. eta *. Scalar.fmax (lit 1 -. w.dot n *. w.dot n) (lit 0)).val := by exact_mod_cast hb
    norm_num at h1 h2 ⊢
    linarith
  · rw [if_neg (fun h => hb (test.1 h))]
    refine ⟨fun h => by simp at h, fun t h => ?_⟩
    have hb' : ((eta *. eta *. Scalar.fmax (lit 1 -. w.dot n *. w.dot n) (lit 0)).val : ℝ) < 1 := by exact_mod_cast not_le.1 hb
    refine ⟨by norm_num at h1 h2 ⊢; linarith, fun T1 a => ?_⟩
    obtain ⟨uc, hc⟩ := cosine_out hl ut (not_le.1 hb) T0 T1 ht
    have C0 : 0 < √(1 - exactSin2T w n eta) := Real.sqrt_pos.2 (by linarith)
    have C1 : √(1 - exactSin2T w n eta) ≤ 1 := Real.sqrt_le_one.2 (by linarith)
    have X0 : (1 / 2 ^ 24 : ℝ) ≤ 1 / 2 ^ 24 / √(1 - exactSin2T w n eta) := by
      rw [le_div_iff₀ C0]
      exact mul_le_of_le_one_right (by positivity) C1
    have e13 : (1 / 2 ^ 13 / √(1 - exactSin2T w n eta) : ℝ) = 2048 * (1 / 2 ^ 24 / √(1 - exactSin2T w n eta)) := by
      rw [← mul_div_assoc]; norm_num
    rw [e13]
    obtain rfl := Option.some.inj h
    cases a
    · exact coordinate ud he uc hw.1 hn.1 hD hd C0 C1 X0 hc
    · exact coordinate ud he uc hw.2.1 hn.2.1 hD hd C0 C1 X0 hc
    · exact coordinate ud he uc hw.2.2 hn.2.2 hD hd C0 C1 X0 hc

namespace Demo

/-- Light along the surface, in the direction `(1, 0, 0)`, and the normal `(0, 0, 1)`. -/
def along : V3 F32 := ⟨f32 1, f32 0, f32 0⟩
def upright : V3 F32 := ⟨f32 0, f32 0, f32 1⟩

theorem refract_meets {q : ℚ} (hq : |q| ≤ 2 ^ 2) : UpTo3 0 along ∧ UpTo3 0 upright ∧ UpTo 2 (f32 q) := by
  have n : ∀ q : ℚ, |q| ≤ 2 ^ 0 → UpTo 0 (f32 q) := fun q h => NoPanic.upTo_ofVal (by omega) h _
  exact ⟨⟨n 1 (by norm_num), n 0 (by norm_num), n 0 (by norm_num)⟩, ⟨n 0 (by norm_num), n 0 (by norm_num), n 1 (by norm_num)⟩, NoPanic.upTo_ofVal (by omega) hq _⟩

theorem along_sine (e : F32) : exactSin2T along upright e = (e.val : ℝ) ^ 2 := by
  have z : (f32 0).val = 0 := by decide +kernel
  have o : (f32 1).val = 1 := by decide +kernel
  simp [exactSin2T, exactDot, along, upright, z, o]

/-- Into the denser medium there is a refracted direction, out of it total reflection. -/
example [Libm F32] (hl : AccurateSqrt) : refract along upright (f32 (1 / 2)) ≠ none ∧ refract along upright (f32 2) = none := by
  obtain ⟨a, b, c⟩ := refract_meets (q := 1 / 2) (by norm_num [abs_of_pos])
  obtain ⟨-, -, c'⟩ := refract_meets (q := 2) (by norm_num [abs_of_pos])
  have v : (f32 (1 / 2)).val = 1 / 2 := by decide +kernel
  have v' : (f32 2).val = 2 := by decide +kernel
  refine ⟨fun h => ?_, ?_⟩
  · have := (c54_f32 hl a b c).1 h
    rw [along_sine, v] at this
    norm_num at this
  · by_contra h
    obtain ⟨t, ht⟩ := Option.ne_none_iff_exists'.1 h
    have := ((c54_f32 hl a b c').2 t ht).1
    rw [along_sine, v'] at this
    norm_num at this

example : @AccurateSqrt libm32 := libm32_accurate

end Demo

end PT
