import Verif.Props.ErrorBounds
import Verif.Model.Sphere
import Verif.Props.ShapeContract
import Mathlib.Analysis.SpecialFunctions.Pow.Real

/-!
# Reported error bounds of spheres (C84)
-/

namespace PT
open Fl

theorem squares_core {x y z xx yy zz s Q : ℝ} (hX : 1 / 2 ^ 100 ≤ x ^ 2 + y ^ 2 + z ^ 2)
    (hx : |xx - x ^ 2| ≤ x ^ 2 * (1 / 2 ^ 24) + 1 / 2 ^ 150) (hy : |yy - y ^ 2| ≤ y ^ 2 * (1 / 2 ^ 24) + 1 / 2 ^ 150)
    (hz : |zz - z ^ 2| ≤ z ^ 2 * (1 / 2 ^ 24) + 1 / 2 ^ 150) (hs : |s - (xx + yy)| ≤ |xx + yy| * (1 / 2 ^ 24))
    (hQ : |Q - (s + zz)| ≤ |s + zz| * (1 / 2 ^ 24)) :
    |Q - (x ^ 2 + y ^ 2 + z ^ 2)| ≤ (x ^ 2 + y ^ 2 + z ^ 2) * (301 / 100 / 2 ^ 24) := by
  have nx := sq_nonneg x
  have ny := sq_nonneg y
  have nz := sq_nonneg z
  generalize x ^ 2 = A at *
  generalize y ^ 2 = B at *
  generalize z ^ 2 = C at *
  have h1 : |xx + yy| ≤ (A + B) * (1 + 1 / 2 ^ 24) + 2 / 2 ^ 150 := by
    rw [abs_le] at *; constructor <;> linarith [hx.1, hx.2, hy.1, hy.2]
  have h2 : |s - (xx + yy)| ≤ ((A + B) * (1 + 1 / 2 ^ 24) + 2 / 2 ^ 150) * (1 / 2 ^ 24) := hs.trans (by gcongr)
  have h3 : |s + zz| ≤ (A + B + C) * (1 + 21 / 10 / 2 ^ 24) + 4 / 2 ^ 150 := by
    rw [abs_le] at *; constructor <;> linarith [hx.1, hx.2, hy.1, hy.2, hz.1, hz.2, h2.1, h2.2]
  have h4 : |Q - (s + zz)| ≤ ((A + B + C) * (1 + 21 / 10 / 2 ^ 24) + 4 / 2 ^ 150) * (1 / 2 ^ 24) := hQ.trans (by gcongr)
  rw [abs_le] at hx hy hz h2 h4 ⊢
  constructor <;> linarith [hx.1, hx.2, hy.1, hy.2, hz.1, hz.2, h2.1, h2.2, h4.1, h4.2]

theorem root_core {X Q len : ℝ} (hX : 0 < X) (hQ : |Q - X| ≤ X * (301 / 100 / 2 ^ 24)) (hl : |len - √Q| ≤ √Q * (1001 / 1000 / 2 ^ 24)) :
    |len - √X| ≤ √X * (252 / 100 / 2 ^ 24) := by
  have up : √Q ≤ √X * (1 + 151 / 100 / 2 ^ 24) := by
    rw [show √X * (1 + 151 / 100 / 2 ^ 24) = √(X * (1 + 151 / 100 / 2 ^ 24) ^ 2) by
      rw [Real.sqrt_mul hX.le, Real.sqrt_sq (by norm_num)]]
    apply Real.sqrt_le_sqrt
    rw [abs_le] at hQ
    nlinarith [hQ.2]
  have lo : √X * (1 - 151 / 100 / 2 ^ 24) ≤ √Q := by
    rw [show √X * (1 - 151 / 100 / 2 ^ 24) = √(X * (1 - 151 / 100 / 2 ^ 24) ^ 2) by
      rw [Real.sqrt_mul hX.le, Real.sqrt_sq (by norm_num)]]
    apply Real.sqrt_le_sqrt
    rw [abs_le] at hQ
    nlinarith [hQ.1]
  have h0 := Real.sqrt_nonneg X
  rw [abs_le] at hl ⊢
  constructor <;> linarith [hl.1, hl.2]

theorem ratio_core {r L len k : ℝ} (hL : 0 < L) (hr : 1 / 2 ^ 30 ≤ r) (hL' : L ≤ 2 ^ 65) (hl : |len - L| ≤ L * (252 / 100 / 2 ^ 24))
    (hk : |k - r / len| ≤ |r / len| * (1 / 2 ^ 24) + 1 / 2 ^ 150) : 0 < k ∧ |k - r / L| ≤ r / L * (354 / 100 / 2 ^ 24) := by
  have hr0 : 0 < r := by linarith [show (0 : ℝ) < 1 / 2 ^ 30 by norm_num]
  rw [abs_le] at hl
  have hlen : 0 < len := by linarith [hl.1]
  have hq : 0 < r / len := by positivity
  have hq' : 0 < r / L := by positivity
  rw [abs_of_pos hq] at hk
  have hsmall : 1 / 2 ^ 95 ≤ r / L := by
    rw [div_le_div_iff₀ (by norm_num) hL]
    nlinarith
  have e : r / len * len = r / L * L := by field_simp
  have up : r / len ≤ r / L * (1 + 253 / 100 / 2 ^ 24) := by
    rw [div_le_iff₀ hlen]
    have : r / L * L = r := by field_simp
    nlinarith [hl.1, mul_le_mul_of_nonneg_left hl.1 hq'.le]
  have lo : r / L * (1 - 253 / 100 / 2 ^ 24) ≤ r / len := by
    rw [le_div_iff₀ hlen]
    have : r / L * L = r := by field_simp
    nlinarith [hl.2, mul_le_mul_of_nonneg_left hl.2 hq'.le]
  rw [abs_le] at hk ⊢
  refine ⟨by linarith [hk.1], ?_, ?_⟩ <;> linarith [hk.1, hk.2]

theorem product_core {x k K p g pe : ℝ} (hK : 0 < K) (hk : |k - K| ≤ K * (354 / 100 / 2 ^ 24)) (hp : |p - x * k| ≤ |x * k| * (1 / 2 ^ 24) + 1 / 2 ^ 150)
    (hg : 5 / 2 ^ 24 ≤ g) (hpe : |pe - |p| * g| ≤ |(|p|) * g| * (1 / 2 ^ 24) + 1 / 2 ^ 150) (hu : 1 / 2 ^ 140 ≤ pe) : |p - x * K| ≤ pe := by
  have h1 : |x * k - x * K| ≤ |x * K| * (354 / 100 / 2 ^ 24) := by
    rw [← mul_sub, abs_mul, abs_mul, abs_of_pos hK, mul_assoc]; gcongr
  have h2 : |x * k| ≤ |x * K| * (1 + 354 / 100 / 2 ^ 24) := by
    have := abs_add_le (x * K) (x * k - x * K)
    rw [add_sub_cancel] at this
    linarith
  have h3 : |p - x * K| ≤ |x * K| * (455 / 100 / 2 ^ 24) + 1 / 2 ^ 150 := by
    have := abs_add_le (p - x * k) (x * k - x * K)
    rw [sub_add_sub_cancel] at this
    have n := abs_nonneg (x * K)
    linarith
  have h4 : |x * K| ≤ |p| + |p - x * K| := by
    have := abs_sub_abs_le_abs_sub (x * K) p
    rw [abs_sub_comm] at this
    linarith
  have n := abs_nonneg p
  have h5 : |p| * (5 / 2 ^ 24) ≤ |p| * g := by gcongr
  rw [abs_of_nonneg (by positivity : 0 ≤ |p| * g), abs_le] at hpe
  linarith [hpe.1]

theorem gamma5 : (gamma (lit 5) : F32) = fin false (335544416 / 2 ^ 50) := by decide +kernel

/-- A bound on rational numbers, as reals. -/
theorem cast_abs_le {a b : ℚ} (h : |a| ≤ b) : |(a : ℝ)| ≤ (b : ℝ) := by exact_mod_cast h

theorem fin_lt {a : F32} (wa : a.WF) (h : a.IsFin) : |a.val| < 2 ^ 129 := by
  obtain ⟨s, m, rfl⟩ := IsFin_iff.1 h
  have h1 := rnd32_lt wa.2
  simp only [val, abs_sgn s wa.1]
  have : (sval 23 (2 ^ 31) : ℚ) = 2 ^ 278 := by decide +kernel
  rw [this] at h1
  have e : (2 : ℚ) ^ 278 = 2 ^ 129 * 2 ^ 149 := by rw [← pow_add]
  rw [e] at h1
  exact lt_of_mul_lt_mul_right h1 (by positivity)

theorem add_zero_exact {a b : F32} (wa : a.WF) (h : (a +. b).IsFin) (hb : b.val = 0) : (a +. b).val = a.val := by
  obtain ⟨fa, fb⟩ := add_isFin h
  obtain ⟨zs, e⟩ := add_fin fa fb
  rw [f_add, e, hb, add_zero]
  exact (ofVal_val fa wa zs).2.2

namespace Spec
/-- Square roots of single precision numbers are computed to within (a little more than) half a unit in the last place; `sqrtss` is correctly rounded. -/
def AccurateSqrt [Libm F32] : Prop :=
  ∀ x : F32, x.WF → x.IsFin → 0 ≤ x.val →
    (Libm.sqrt x).WF ∧ (Libm.sqrt x).IsFin ∧ |((Libm.sqrt x).val : ℝ) - √(x.val : ℝ)| ≤ √(x.val : ℝ) * (1001 / 1000 / 2 ^ 24)
/-- The point at the reported distance, relative to the centre, as it is computed. -/
def relativePoint (s : Sphere F32) (ray : Ray F32) (t : F32) : V3 F32 :=
  (ray.origin.add s.center.neg).add (ray.direction.smul t)
/-- Distance (squared) of two points. -/
noncomputable def distSq (p q : V3 ℝ) : ℝ := (p.x - q.x) ^ 2 + (p.y - q.y) ^ 2 + (p.z - q.z) ^ 2
/-- The value of a vector. -/
noncomputable def exactly (v : V3 F32) : V3 ℝ := ⟨v.x.val, v.y.val, v.z.val⟩
end Spec
open Spec

/-- C84, spheres: the reported point is, in every coordinate, within the reported error bound of one and the same point of the exact sphere,
provided the centre has coordinate 0 there; in other coordinates the error of moving the point to its place (half a unit in the last
place of the result) comes on top. -/
theorem c84_sphere_partial [Libm F32] [Libm F64] (hsqrt : AccurateSqrt) {s : Sphere F32} {ray : Ray F32} {i : Interaction F32} {t : F32}
    (h : s.intersect ray = some (i, t))
    (hr : s.radius.WF) (hr' : s.radius.IsFin) (hr0 : 1 / 2 ^ 30 ≤ s.radius.val) (hc : ∀ a, (s.center.get a).WF)
    (hfin : ((relativePoint s ray t).dot (relativePoint s ray t)).IsFin) (hfar : 1 / 2 ^ 100 ≤ distSq (exactly (relativePoint s ray t)) ⟨0, 0, 0⟩) :
    ∃ P : V3 ℝ, distSq P (exactly s.center) = (s.radius.val : ℝ) ^ 2 ∧
      ∀ a, (i.p.get a).IsFin → (i.pErr.get a).IsFin → (((relativePoint s ray t).get a).val = 0 ∨ 1 / 2 ^ 140 ≤ (i.pErr.get a).val) →
        |((i.p.get a).val : ℝ) - P.get a| ≤
          ((i.pErr.get a).val : ℝ) + if (s.center.get a).val = 0 then 0 else |((i.p.get a).val : ℝ)| * (1 / 2 ^ 23) := by
  unfold Sphere.intersect at h
  rw [Option.map_eq_some_iff] at h
  obtain ⟨t', -, h⟩ := h
  unfold Sphere.computeInteraction at h
  simp only [Prod.mk.injEq] at h
  obtain ⟨hi, rfl⟩ := h
  have hq : (Ray.position { ray with origin := s.worldToLocal ray.origin } t' : V3 F32) = relativePoint s ray t' := rfl
  rw [hq] at hi
  set q := relativePoint s ray t' with hqdef
  have wx : q.x.WF := add_WF _ _
  have wy : q.y.WF := add_WF _ _
  have wz : q.z.WF := add_WF _ _
  have wq : ∀ a, (q.get a).WF := by intro a; cases a; exacts [wx, wy, wz]
  -- the squared length
  change (q.x *. q.x +. q.y *. q.y +. q.z *. q.z).IsFin at hfin
  obtain ⟨f1, fzz⟩ := add_isFin hfin
  obtain ⟨fxx, fyy⟩ := add_isFin f1
  have wxx : (q.x *. q.x).WF := mul_WF wx wx
  have wyy : (q.y *. q.y).WF := mul_WF wy wy
  have wzz : (q.z *. q.z).WF := mul_WF wz wz
  set X : ℝ := (q.x.val : ℝ) ^ 2 + (q.y.val : ℝ) ^ 2 + (q.z.val : ℝ) ^ 2 with hX
  have hfar' : 1 / 2 ^ 100 ≤ X := by simpa [distSq, exactly] using hfar
  have sq : ∀ x : F32, x.WF → (x *. x).IsFin → |(((x *. x).val : ℚ) : ℝ) - (x.val : ℝ) ^ 2| ≤ (x.val : ℝ) ^ 2 * (1 / 2 ^ 24) + 1 / 2 ^ 150 := by
    intro x w f
    have := cast_abs_le (mul_err w w f)
    rw [← pow_two, abs_of_nonneg (sq_nonneg x.val)] at this
    simp only [ulpHalf, tinyHalf] at this
    push_cast at this
    exact this
  have ad : ∀ x y : F32, x.WF → y.WF → (x +. y).IsFin → |(((x +. y).val : ℚ) : ℝ) - ((x.val : ℝ) + y.val)| ≤ |(x.val : ℝ) + y.val| * (1 / 2 ^ 24) := by
    intro x y w w' f
    have := cast_abs_le (add_err w w' f)
    simp only [ulpHalf] at this
    push_cast at this
    exact this
  have hQ := squares_core hfar' (sq _ wx fxx) (sq _ wy fyy) (sq _ wz fzz) (ad _ _ wxx wyy f1) (ad _ _ (sum_WF _ _) wzz hfin)
  rw [← hX] at hQ
  have hX0 : 0 < X := lt_of_lt_of_le (by norm_num) hfar'
  set Q : F32 := q.x *. q.x +. q.y *. q.y +. q.z *. q.z with hQdef
  have hQ0 : 0 ≤ Q.val := by
    have : (0 : ℝ) ≤ Q.val := by
      rw [abs_le] at hQ; nlinarith [hQ.1]
    exact_mod_cast this
  obtain ⟨wl, fl, hl⟩ := hsqrt Q (sum_WF _ _) hfin hQ0
  have hlen := root_core hX0 hQ hl
  have hL0 : 0 < √X := Real.sqrt_pos.2 hX0
  have hL65 : √X ≤ 2 ^ 65 := by
    rw [show (2 : ℝ) ^ 65 = √((2 ^ 65) ^ 2) by rw [Real.sqrt_sq (by norm_num)]]
    apply Real.sqrt_le_sqrt
    have hb : (|Q.val| : ℚ) < 2 ^ 129 := fin_lt (sum_WF _ _) hfin
    have hb' : ((|Q.val| : ℚ) : ℝ) < 2 ^ 129 := by exact_mod_cast hb
    have := le_abs_self (Q.val : ℝ)
    push_cast at hb'
    rw [abs_le] at hQ
    nlinarith [hQ.1]
  set K : ℝ := s.radius.val / √X with hK
  have hr1 : (1 : ℝ) / 2 ^ 30 ≤ s.radius.val := by
    have := (Rat.cast_le (K := ℝ)).2 hr0
    push_cast at this; exact this
  have hK0 : 0 < K := div_pos (lt_of_lt_of_le (by norm_num) hr1) hL0
  have hlenQ : q.length = Libm.sqrt Q := rfl
  have wk : (s.radius /. q.length).WF := div_WF hr (by rw [hlenQ]; exact wl)
  set k : F32 := s.radius /. q.length with hkdef
  refine ⟨⟨s.center.x.val + q.x.val * K, s.center.y.val + q.y.val * K, s.center.z.val + q.z.val * K⟩, ?_, ?_⟩
  · simp only [distSq, exactly, add_sub_cancel_left, mul_pow, hK, div_pow]
    rw [← add_mul, ← add_mul, ← hX, Real.sq_sqrt hX0.le]
    field_simp
  · intro a fp fe hu
    have ep : i.p.get a = (q.get a *. k) +. s.center.get a := by rw [← hi]; cases a <;> rfl
    have ee : i.pErr.get a = Scalar.abs (q.get a *. k) *. gamma (lit 5) := by rw [← hi]; cases a <;> rfl
    rw [ep] at fp ⊢
    rw [ee] at fe hu ⊢
    obtain ⟨fm, fc⟩ := add_isFin fp
    have fk := (mul_isFin fm).2
    have wm : (q.get a *. k).WF := mul_WF (wq a) wk
    have eP : V3.get (⟨s.center.x.val + q.x.val * K, s.center.y.val + q.y.val * K, s.center.z.val + q.z.val * K⟩ : V3 ℝ) a =
        (s.center.get a).val + (q.get a).val * K := by cases a <;> rfl
    rw [eP]
    have local_bound : |((q.get a *. k).val : ℝ) - (q.get a).val * K| ≤ ((Scalar.abs (q.get a *. k) *. gamma (lit 5)).val : ℝ) := by
      obtain ⟨fa, fg⟩ := mul_isFin fe
      have ea := (abs_fin wm fa).2
      rcases hu with hz | hu
      · have z1 := mul_zero_val fm (by rw [hz, zero_mul])
        have z2 := mul_zero_val fe (by rw [ea, z1, abs_zero, zero_mul])
        rw [z1, z2, hz]; simp
      · have hkerr := cast_abs_le (div_err hr (by rw [hlenQ]; exact wl) (by rw [hlenQ]; exact fl) fk).2.2
        simp only [ulpHalf, tinyHalf, hlenQ] at hkerr
        push_cast at hkerr
        have hkK := (ratio_core hL0 hr1 hL65 hlen hkerr).2
        have hm := cast_abs_le (mul_err (wq a) wk fm)
        simp only [ulpHalf, tinyHalf] at hm
        push_cast at hm
        have hpe := cast_abs_le (mul_err (abs_WF wm) (by rw [gamma5]; exact ⟨by positivity, by decide +kernel⟩) fe)
        rw [ea] at hpe
        simp only [ulpHalf, tinyHalf] at hpe
        push_cast at hpe
        have hg : (gamma (lit 5) : F32).val = 335544416 / 2 ^ 50 := by rw [gamma5]; simp [val, sgn]
        exact product_core hK0 hkK hm (by rw [hg]; norm_num) hpe (by have := (Rat.cast_le (K := ℝ)).2 hu; push_cast at this; exact this)
    split_ifs with hz
    · rw [add_zero_exact wm fp hz, hz]
      simpa using local_bound
    · have hadd := ad _ _ wm (hc a) fp
      have n := abs_nonneg (((q.get a *. k).val : ℝ) + (s.center.get a).val)
      have h1 : |((q.get a *. k).val : ℝ) + (s.center.get a).val| ≤ |(((q.get a *. k) +. s.center.get a).val : ℝ)| * 2 := by
        have := abs_sub_abs_le_abs_sub (((q.get a *. k).val : ℝ) + (s.center.get a).val) (((q.get a *. k) +. s.center.get a).val : ℝ)
        rw [abs_sub_comm] at this
        linarith
      have h2 := abs_add_le ((((q.get a *. k) +. s.center.get a).val : ℝ) - (((q.get a *. k).val : ℝ) + (s.center.get a).val))
        (((q.get a *. k).val : ℝ) - (q.get a).val * K)
      have e : (((q.get a *. k) +. s.center.get a).val : ℝ) - (((q.get a *. k).val : ℝ) + (s.center.get a).val) +
        (((q.get a *. k).val : ℝ) - (q.get a).val * K) = (((q.get a *. k) +. s.center.get a).val : ℝ) - ((s.center.get a).val + (q.get a).val * K) := by ring
      rw [e] at h2
      linarith

/-- Equality of vectors, one coordinate at a time. -/
theorem v3_eq {v w : V3 F32} (hx : v.x = w.x) (hy : v.y = w.y) (hz : v.z = w.z) : v = w := by
  cases v; cases w; simp_all

/-! ## A case of the triangle theorem -/

namespace Demo
/-- A triangle across the z axis at height 1. -/
def across (mat : Material F32) : Triangle F32 :=
  ⟨⟨f32 (-1), f32 (-1), f32 1⟩, ⟨f32 1, f32 (-1), f32 1⟩, ⟨f32 0, f32 1, f32 1⟩, none, false, mat⟩

open Triangle in
def acrossStage : Stage F32 :=
  stageOf (rc zAxis.1 zAxis.2 .Z ⟨f32 (-1), f32 (-1), f32 1⟩) (rc zAxis.1 zAxis.2 .Z ⟨f32 1, f32 (-1), f32 1⟩)
    (rc zAxis.1 zAxis.2 .Z ⟨f32 0, f32 1, f32 1⟩) (szOf zAxis.2 .Z)

open Triangle in
theorem acrossStage_facts : acrossStage.rejects (f32 2) = false ∧ acrossStage.t = f32 1 ∧ acrossStage.e0 /. acrossStage.det = f32 (1 / 4) ∧
    acrossStage.e1 /. acrossStage.det = f32 (1 / 4) ∧ acrossStage.e2 /. acrossStage.det = f32 (1 / 2) := by decide +kernel
end Demo

/-- Non-vacuity of `c84_triangle`: a ray along the z axis meets a triangle, and all three coordinates of the reported point are covered. -/
example [Libm F32] (mat : Material F32) : ProperTriangle (Demo.across mat) ∧
    ∃ i, (Demo.across mat).intersect ⟨⟨f32 0, f32 0, f32 0⟩, ⟨f32 0, f32 0, f32 1⟩, f32 2⟩ = some (some (i, f32 1)) ∧
      ∀ a, (i.p.get a).IsFin ∧ (i.pErr.get a).IsFin ∧ NoUnderflow (Demo.across mat) i a := by
  have w : ∀ q : ℚ, (f32 q).WF := fun q => ofVal_WF _ _
  refine ⟨by intro a; cases a <;> simp only [Demo.across, V3.get, w, and_self], ?_⟩
  obtain ⟨h1, h2, h3, h4, h5⟩ := Demo.acrossStage_facts
  have hi := Triangle.intersect_eq (Demo.across mat) Demo.zAxis.1 Demo.zAxis.2 (f32 2)
  rw [Demo.rangeStage_facts.2.2, Option.map_some] at hi
  have hg : Triangle.stage (Demo.across mat) Demo.zAxis.1 Demo.zAxis.2 .Z = Demo.acrossStage := rfl
  simp only [hg, h1, h2, h3, h4, h5, Bool.false_eq_true, if_false] at hi
  refine ⟨_, hi, ?_⟩
  have v : ∀ a, (((Demo.across mat).interactionAt Demo.zAxis.2 (f32 (1 / 4)) (f32 (1 / 4)) (f32 (1 / 2))).p.get a).IsFin ∧
      ∃ m : ℚ, ((Demo.across mat).interactionAt Demo.zAxis.2 (f32 (1 / 4)) (f32 (1 / 4)) (f32 (1 / 2))).pErr.get a = fin false m ∧ 1 / 2 ^ 30 ≤ m := by
    intro a
    have hf : ∀ {x : F32} {m}, x = fin false m → x.IsFin := by rintro _ m rfl; trivial
    cases a
    · refine ⟨hf (m := 0) ?_, 234881120 / 2 ^ 50, ?_, by norm_num⟩
      · change ((f32 (-1) *. f32 (1 / 4) +. f32 1 *. f32 (1 / 4)) +. f32 0 *. f32 (1 / 2) : F32) = _
        decide +kernel
      · change ((Scalar.abs (f32 (-1) *. f32 (1 / 4)) +. Scalar.abs (f32 1 *. f32 (1 / 4))) +. Scalar.abs (f32 0 *. f32 (1 / 2))) *. gamma (lit 7) = _
        rw [gamma7]; decide +kernel
    · refine ⟨hf (m := 0) ?_, 469762240 / 2 ^ 50, ?_, by norm_num⟩
      · change ((f32 (-1) *. f32 (1 / 4) +. f32 (-1) *. f32 (1 / 4)) +. f32 1 *. f32 (1 / 2) : F32) = _
        decide +kernel
      · change ((Scalar.abs (f32 (-1) *. f32 (1 / 4)) +. Scalar.abs (f32 (-1) *. f32 (1 / 4))) +. Scalar.abs (f32 1 *. f32 (1 / 2))) *. gamma (lit 7) = _
        rw [gamma7]; decide +kernel
    · refine ⟨hf (m := 1) ?_, 469762240 / 2 ^ 50, ?_, by norm_num⟩
      · change ((f32 1 *. f32 (1 / 4) +. f32 1 *. f32 (1 / 4)) +. f32 1 *. f32 (1 / 2) : F32) = _
        decide +kernel
      · change ((Scalar.abs (f32 1 *. f32 (1 / 4)) +. Scalar.abs (f32 1 *. f32 (1 / 4))) +. Scalar.abs (f32 1 *. f32 (1 / 2))) *. gamma (lit 7) = _
        rw [gamma7]; decide +kernel
  intro a
  obtain ⟨f, m, hm, hm'⟩ := v a
  refine ⟨f, by rw [hm]; trivial, Or.inr ?_⟩
  rw [hm]
  have c : ∀ a, |((Demo.across mat).v0.get a).val| ≤ 1 ∧ |((Demo.across mat).v1.get a).val| ≤ 1 ∧ |((Demo.across mat).v2.get a).val| ≤ 1 := by
    intro a; cases a
    · exact (by decide +kernel : |(f32 (-1)).val| ≤ 1 ∧ |(f32 1).val| ≤ 1 ∧ |(f32 0).val| ≤ 1)
    · exact (by decide +kernel : |(f32 (-1)).val| ≤ 1 ∧ |(f32 (-1)).val| ≤ 1 ∧ |(f32 1).val| ≤ 1)
    · exact (by decide +kernel : |(f32 1).val| ≤ 1 ∧ |(f32 1).val| ≤ 1 ∧ |(f32 1).val| ≤ 1)
  obtain ⟨c0, c1, c2⟩ := c a
  have hv : (fin false m : F32).val = m := by simp [val, sgn]
  rw [hv]
  refine le_trans ?_ hm'
  linarith

/-! ## Such square roots exist, and a case of the theorem -/

theorem sqrt_approx (x : F32) (w : x.WF) (f : x.IsFin) (h : 0 ≤ x.val) :
    ∃ y : F32, y.WF ∧ y.IsFin ∧ |(y.val : ℝ) - √(x.val : ℝ)| ≤ √(x.val : ℝ) * (1001 / 1000 / 2 ^ 24) := by
  rcases h.eq_or_lt with h0 | h0
  · refine ⟨lit 0, lit_WF _, trivial, ?_⟩
    have : (lit 0 : F32).val = 0 := by decide +kernel
    rw [this, ← h0]; simp
  · obtain ⟨m, hm⟩ := val_grid w
    have hm1 : (1 : ℚ) / 2 ^ 149 ≤ x.val := by
      rw [hm] at h0 ⊢
      have hm0 : (0 : ℚ) < m := by
        by_contra hc
        have : (m : ℚ) / 2 ^ 149 ≤ 0 := div_nonpos_of_nonpos_of_nonneg (by linarith) (by positivity)
        linarith
      have : (1 : ℚ) ≤ m := by exact_mod_cast (by exact_mod_cast hm0 : (0 : ℤ) < m)
      gcongr
    have hm2 : ((1 : ℚ) / 2 ^ 149 : ℚ) ≤ (x.val : ℝ) := by exact_mod_cast hm1
    push_cast at hm2
    have hX : (0 : ℝ) < x.val := by exact_mod_cast h0
    set L := √(x.val : ℝ) with hL
    have hL0 : 0 < L := Real.sqrt_pos.2 hX
    have hLmin : 1 / 2 ^ 75 ≤ L := by
      rw [hL, show (1 : ℝ) / 2 ^ 75 = √((1 / 2 ^ 75) ^ 2) by rw [Real.sqrt_sq (by norm_num)]]
      apply Real.sqrt_le_sqrt
      exact le_trans (by norm_num) hm2
    have hLmax : L ≤ 2 ^ 65 := by
      rw [hL, show (2 : ℝ) ^ 65 = √((2 ^ 65) ^ 2) by rw [Real.sqrt_sq (by norm_num)]]
      apply Real.sqrt_le_sqrt
      have hb : x.val < 2 ^ 129 := lt_of_le_of_lt (le_abs_self _) (fin_lt w f)
      have hb' : (x.val : ℝ) < 2 ^ 129 := by exact_mod_cast hb
      linarith
    obtain ⟨q, hq1, hq2⟩ := exists_rat_btwn (show L * (1 - 1 / 2 ^ 40) < L by nlinarith)
    have hq0 : (0 : ℚ) < q := by
      have : (0 : ℝ) < q := lt_trans (by nlinarith) hq1
      exact_mod_cast this
    have hq65 : q ≤ 2 ^ 65 := by
      have : (q : ℝ) ≤ 2 ^ 65 := hq2.le.trans hLmax
      exact_mod_cast this
    obtain ⟨hf, -, -⟩ := ofVal_between (φ := Binary32) (lo := 0) (hi := 2 ^ 65) (by unfold Fl.Repr; decide +kernel) (by unfold Fl.Repr; decide +kernel) hq0.le hq65 false
    refine ⟨ofVal q false, ofVal_WF _ _, hf, ?_⟩
    have he := cast_abs_le (ofVal_err hf)
    rw [abs_of_pos hq0] at he
    simp only [ulpHalf, tinyHalf] at he
    push_cast at he
    rw [abs_le] at he ⊢
    constructor <;> nlinarith [he.1, he.2]

open Classical in
/-- A square root that meets the requirement exists; it can be made exact where the theorems below need it. -/
noncomputable def Demo.sqrt32 (x : F32) : F32 :=
  if x = lit 1 then lit 1 else
    if h : ∃ y : F32, y.WF ∧ y.IsFin ∧ |(y.val : ℝ) - √(x.val : ℝ)| ≤ √(x.val : ℝ) * (1001 / 1000 / 2 ^ 24) then h.choose else x

@[reducible] noncomputable def Demo.libm32 : Libm F32 := ⟨Demo.sqrt32, id, id, id, id, fun _ y => y, id, id, id, fun _ y => y, lit 3⟩

theorem Demo.libm32_accurate : @AccurateSqrt Demo.libm32 := by
  intro x w f h
  change (Demo.sqrt32 x).WF ∧ (Demo.sqrt32 x).IsFin ∧ |((Demo.sqrt32 x).val : ℝ) - _| ≤ _
  unfold Demo.sqrt32
  split_ifs with h1 h2
  · subst h1
    have : (lit 1 : F32).val = 1 := by decide +kernel
    refine ⟨lit_WF _, f, ?_⟩
    rw [this]; norm_num
  · exact h2.choose_spec
  · exact absurd (sqrt_approx x w f h) h2

namespace Demo
/-- A sphere of radius 1 with this centre on the z axis. -/
def ball (mat : Material F32) (z : ℚ) : Sphere F32 := ⟨⟨f32 0, f32 0, f32 z⟩, f32 1, mat⟩
/-- A ray that starts 2 above the centre and goes down. -/
def downRay (z : ℚ) : Ray F32 := ⟨⟨f32 0, f32 0, f32 (z + 2)⟩, ⟨f32 0, f32 0, f32 (-1)⟩, f32 100⟩

theorem ball_quadratic [Libm F64] (h4 : Libm.sqrt (lit 4 : F64) = lit 2) :
    quadratic (lit 1 : F64) (lit (-4)) (lit 3) = some (lit 1, lit 3) := by
  unfold quadratic
  have e : (lit (-4) : F64) *. lit (-4) -. lit 4 *. lit 1 *. lit 3 = lit 4 := by decide +kernel
  simp only [e, h4]
  decide +kernel

theorem ball_parameter [Libm F32] [Libm F64] (h4 : Libm.sqrt (lit 4 : F64) = lit 2) (mat : Material F32) (z : ℚ)
    (o : V3 F32) (ho : o = ⟨f32 0, f32 0, f32 2⟩) : (ball mat z).hasIntersection ⟨o, ⟨f32 0, f32 0, f32 (-1)⟩, f32 100⟩ = some (f32 1) := by
  subst ho
  unfold Sphere.hasIntersection
  have ea : (Widen.up (f32 0) : F64) *. Widen.up (f32 0) +. Widen.up (f32 0) *. Widen.up (f32 0) +. Widen.up (f32 (-1)) *. Widen.up (f32 (-1)) = lit 1 := by
    decide +kernel
  have eb : (lit 2 : F64) *. ((Widen.up (f32 0) : F64) *. Widen.up (f32 0) +. Widen.up (f32 0) *. Widen.up (f32 0) +. Widen.up (f32 (-1)) *. Widen.up (f32 2)) =
      lit (-4) := by decide +kernel
  have ec : (Widen.up (f32 0) : F64) *. Widen.up (f32 0) +. Widen.up (f32 0) *. Widen.up (f32 0) +. Widen.up (f32 2) *. Widen.up (f32 2) -.
      Widen.up (f32 1) *. Widen.up (f32 1) = lit 3 := by decide +kernel
  simp only [ball, ea, eb, ec, ball_quadratic h4]
  decide +kernel

theorem ball_hit [Libm F32] [Libm F64] (h1 : Libm.sqrt (lit 1 : F32) = lit 1) (h4 : Libm.sqrt (lit 4 : F64) = lit 2) (mat : Material F32) (z : ℚ)
    (ho : (downRay z).origin.add (ball mat z).center.neg = ⟨f32 0, f32 0, f32 2⟩) :
    relativePoint (ball mat z) (downRay z) (f32 1) = ⟨f32 0, f32 0, f32 1⟩ ∧
    ∃ i, (ball mat z).intersect (downRay z) = some (i, f32 1) ∧ i.p = (⟨f32 0, f32 0, f32 1⟩ : V3 F32).add (ball mat z).center ∧
      i.pErr = ⟨f32 0, f32 0, gamma (lit 5)⟩ := by
  have hr : relativePoint (ball mat z) (downRay z) (f32 1) = ⟨f32 0, f32 0, f32 1⟩ := by
    unfold relativePoint
    rw [ho]
    change V3.add (⟨f32 0, f32 0, f32 2⟩ : V3 F32) (V3.smul (⟨f32 0, f32 0, f32 (-1)⟩ : V3 F32) (f32 1)) = _
    exact v3_eq (by decide +kernel) (by decide +kernel) (by decide +kernel)
  refine ⟨hr, ?_⟩
  unfold Sphere.intersect
  have hp := ball_parameter h4 mat z ((downRay z).origin.add (ball mat z).center.neg) ho
  have e : ({ downRay z with origin := (ball mat z).worldToLocal (downRay z).origin } : Ray F32) =
    ⟨(downRay z).origin.add (ball mat z).center.neg, ⟨f32 0, f32 0, f32 (-1)⟩, f32 100⟩ := rfl
  simp only [e, hp, Option.map_some]
  have hpos : (⟨(downRay z).origin.add (ball mat z).center.neg, ⟨f32 0, f32 0, f32 (-1)⟩, f32 100⟩ : Ray F32).position (f32 1) = ⟨f32 0, f32 0, f32 1⟩ := hr
  have hlen : (⟨f32 0, f32 0, f32 1⟩ : V3 F32).length = f32 1 := by
    unfold V3.length
    have : f32 0 *. f32 0 +. f32 0 *. f32 0 +. f32 1 *. f32 1 = lit 1 := by decide +kernel
    rw [this, h1]; rfl
  have hk : (⟨f32 0, f32 0, f32 1⟩ : V3 F32).smul ((ball mat z).radius /. f32 1) = ⟨f32 0, f32 0, f32 1⟩ := by
    change (⟨f32 0, f32 0, f32 1⟩ : V3 F32).smul (f32 1 /. f32 1) = ⟨f32 0, f32 0, f32 1⟩
    exact v3_eq (by decide +kernel) (by decide +kernel) (by decide +kernel)
  have he : (⟨f32 0, f32 0, f32 1⟩ : V3 F32).abs.smul (gamma (lit 5)) = ⟨f32 0, f32 0, gamma (lit 5)⟩ := by
    exact v3_eq (by decide +kernel) (by decide +kernel) (by decide +kernel)
  refine ⟨_, rfl, ?_, ?_⟩ <;> simp only [hpos, hlen, hk, he, Sphere.localToWorld]
end Demo

/-- Non-vacuity of `c84_sphere_partial`: a ray straight down on the unit sphere about the origin; all three coordinates of the reported point are covered
by the theorem. -/
example [Libm F64] (h4 : Libm.sqrt (lit 4 : F64) = lit 2) (mat : Material F32) :
    letI := Demo.libm32
    ∃ i, (Demo.ball mat 0).intersect (Demo.downRay 0) = some (i, f32 1) ∧ AccurateSqrt ∧
      ((relativePoint (Demo.ball mat 0) (Demo.downRay 0) (f32 1)).dot (relativePoint (Demo.ball mat 0) (Demo.downRay 0) (f32 1))).IsFin ∧
      1 / 2 ^ 100 ≤ distSq (exactly (relativePoint (Demo.ball mat 0) (Demo.downRay 0) (f32 1))) ⟨0, 0, 0⟩ ∧
      (∀ a, (i.p.get a).IsFin ∧ (i.pErr.get a).IsFin ∧
        (((relativePoint (Demo.ball mat 0) (Demo.downRay 0) (f32 1)).get a).val = 0 ∨ 1 / 2 ^ 140 ≤ (i.pErr.get a).val)) ∧ i.p = ⟨f32 0, f32 0, f32 1⟩ := by
  have h1 : Demo.libm32.sqrt (lit 1 : F32) = lit 1 := by
    change Demo.sqrt32 (lit 1) = lit 1
    unfold Demo.sqrt32; rw [if_pos rfl]
  obtain ⟨hr, i, hi, hp, he⟩ := @Demo.ball_hit Demo.libm32 _ h1 h4 mat 0 (by
    change V3.add (⟨f32 0, f32 0, f32 (0 + 2)⟩ : V3 F32) (V3.neg ⟨f32 0, f32 0, f32 0⟩) = ⟨f32 0, f32 0, f32 2⟩
    exact v3_eq (by decide +kernel) (by decide +kernel) (by decide +kernel))
  have hp' : i.p = ⟨f32 0, f32 0, f32 1⟩ := by
    rw [hp]
    change V3.add (⟨f32 0, f32 0, f32 1⟩ : V3 F32) ⟨f32 0, f32 0, f32 0⟩ = ⟨f32 0, f32 0, f32 1⟩
    exact v3_eq (by decide +kernel) (by decide +kernel) (by decide +kernel)
  refine ⟨i, hi, Demo.libm32_accurate, ?_, ?_, ?_, hp'⟩
  · rw [hr, show (⟨f32 0, f32 0, f32 1⟩ : V3 F32).dot ⟨f32 0, f32 0, f32 1⟩ = fin false 1 by decide +kernel]; trivial
  · rw [hr]
    have v0 : (f32 0).val = 0 := by decide +kernel
    have v1 : (f32 1).val = 1 := by decide +kernel
    simp only [distSq, exactly, v0, v1]
    norm_num
  · rw [hp', he, hr]
    intro a
    cases a
    · exact ⟨trivial, trivial, Or.inl (by decide +kernel)⟩
    · exact ⟨trivial, trivial, Or.inl (by decide +kernel)⟩
    · refine ⟨?_, ?_, Or.inr ?_⟩ <;> simp only [V3.get, gamma5]
      · rw [show f32 1 = fin false 1 by decide +kernel]; trivial
      · trivial
      · decide +kernel

/-- C84 is false of spheres away from the origin: a unit sphere about a point `2 ^ 24` up the z axis.  The point reported for a vertical ray is the
centre of the sphere, although the reported error bounds are below `10 ^ -6`: they are computed before the point is moved to its place. -/
theorem c84_sphere_refuted [Libm F32] [Libm F64] (h1 : Libm.sqrt (lit 1 : F32) = lit 1) (h4 : Libm.sqrt (lit 4 : F64) = lit 2) (mat : Material F32) :
    ∃ i t, (Demo.ball mat (2 ^ 24)).intersect (Demo.downRay (2 ^ 24)) = some (i, t) ∧ i.p = (Demo.ball mat (2 ^ 24)).center ∧
      (∀ a, (i.pErr.get a).IsFin ∧ (i.pErr.get a).val < 1 / 10 ^ 6) ∧
      ¬ ∃ P : V3 ℝ, distSq P (exactly (Demo.ball mat (2 ^ 24)).center) = ((Demo.ball mat (2 ^ 24)).radius.val : ℝ) ^ 2 ∧
        ∀ a, |((i.p.get a).val : ℝ) - P.get a| ≤ (i.pErr.get a).val := by
  obtain ⟨-, i, hi, hp, he⟩ := Demo.ball_hit h1 h4 mat (2 ^ 24) (by
    change V3.add (⟨f32 0, f32 0, f32 (2 ^ 24 + 2)⟩ : V3 F32) (V3.neg ⟨f32 0, f32 0, f32 (2 ^ 24)⟩) = ⟨f32 0, f32 0, f32 2⟩
    exact v3_eq (by decide +kernel) (by decide +kernel) (by decide +kernel))
  have hp' : i.p = (Demo.ball mat (2 ^ 24)).center := by
    rw [hp]
    change V3.add (⟨f32 0, f32 0, f32 1⟩ : V3 F32) ⟨f32 0, f32 0, f32 (2 ^ 24)⟩ = ⟨f32 0, f32 0, f32 (2 ^ 24)⟩
    exact v3_eq (by decide +kernel) (by decide +kernel) (by decide +kernel)
  have hsmall : ∀ a, (i.pErr.get a).IsFin ∧ (i.pErr.get a).val < 1 / 10 ^ 6 := by
    rw [he]
    intro a
    cases a
    · exact ⟨trivial, by decide +kernel⟩
    · exact ⟨trivial, by decide +kernel⟩
    · simp only [V3.get, gamma5]
      exact ⟨trivial, by decide +kernel⟩
  refine ⟨i, _, hi, hp', hsmall, ?_⟩
  rintro ⟨P, hP, hb⟩
  have key : ∀ a, (P.get a - ((i.p.get a).val : ℝ)) ^ 2 ≤ 1 / 10 := by
    intro a
    have h2 : ((i.pErr.get a).val : ℝ) < 1 / 10 ^ 6 := by
      have := (Rat.cast_lt (K := ℝ)).2 (hsmall a).2
      push_cast at this; exact this
    have h3 : |P.get a - ((i.p.get a).val : ℝ)| ≤ 1 / 10 := by
      rw [abs_sub_comm]; exact (hb a).trans (h2.le.trans (by norm_num))
    rw [← sq_abs]
    have := abs_nonneg (P.get a - ((i.p.get a).val : ℝ))
    nlinarith
  rw [hp'] at key
  have kx := key .X
  have ky := key .Y
  have kz := key .Z
  have hr1 : ((Demo.ball mat (2 ^ 24)).radius.val : ℝ) = 1 := by
    have : (f32 1).val = 1 := by decide +kernel
    change ((f32 1).val : ℝ) = 1
    rw [this]; norm_num
  rw [hr1] at hP
  simp only [V3.get] at kx ky kz
  simp only [distSq, exactly] at hP
  have := add_le_add (add_le_add kx ky) kz
  rw [hP] at this
  norm_num at this

end PT
