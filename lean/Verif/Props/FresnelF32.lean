import Verif.Props.RadianceF32
import Verif.Props.ChoiceF32

/-!
# The reflectance of glass in single precision (C55)

In exact arithmetic the reflectance of a dielectric is a fraction.  In single precision the quotients could be `0 / 0`, and the rounded fractions could leave `[0, 1]`.  They do
not, for every cosine that is not NaN, infinities included, and all indices between `2 ^ -30` and `2 ^ 30`.
-/

namespace PT
open Spec Fl

/-! ### Specification -/

namespace Spec
/-- An index of refraction between `2 ^ -30` and `2 ^ 30`. -/
def Index32 (n : F32) : Prop := Num n ∧ 1 / 2 ^ 30 ≤ n.val ∧ n.val ≤ 2 ^ 30
end Spec

namespace FrF
open Sgn NoPanic

theorem repr_inv {n : ℕ} (h : n ≤ 149) : Fl.Repr Binary32 ((1 : ℚ) / 2 ^ n) := by
  unfold Fl.Repr
  rw [abs_of_nonneg (by positivity)]
  obtain ⟨k, hk, hv⟩ := sval_dyadic (149 - n) 1 (by omega) (by norm_num)
  show Bin.rnd 23 149 0x7f800000 31 _ = _
  rw [Bin.rnd_some]
  have hval : ((1 : ℚ) / 2 ^ n * 2 ^ 149) = (sval 23 k : ℚ) := by
    rw [hv]; push_cast
    rw [show (149 : ℕ) = (149 - n) + n by omega, pow_add]
    rw [show 149 - n + n - n = 149 - n by omega]
    field_simp
  rw [hval, ordRound_exact 23 31 k (by omega)]
  refine ⟨hk, ?_⟩
  rw [← hval]; field_simp

theorem repr_zero : Fl.Repr Binary32 (0 : ℚ) := by simpa using repr_int (n := 0) (by norm_num)

/-- A product of numbers that are not negative, at most and at least some powers. -/
theorem mul_ge {m n j k : ℕ} {a b : F32} (hn : m + n ≤ 126) (hk : j + k ≤ 149) (ha : UpTo m a) (hb : UpTo n b) (h0 : 1 / 2 ^ j ≤ a.val) (h1 : 1 / 2 ^ k ≤ b.val) :
    1 / 2 ^ (j + k) ≤ (a *. b).val := by
  obtain ⟨zs, e⟩ := mul_val ha.1 hb.1
  rw [e]
  refine (ofVal_between (φ := Binary32) (repr_inv hk) (pow_repr hn) ?_ ?_ zs).2.1
  · rw [show (1 : ℚ) / 2 ^ (j + k) = 1 / 2 ^ j * (1 / 2 ^ k) by rw [pow_add]; field_simp]
    exact mul_le_mul h0 h1 (by positivity) (le_trans (by positivity) h0)
  · rw [pow_add]
    exact mul_le_mul ((le_abs_self _).trans ha.2) ((le_abs_self _).trans hb.2) (le_trans (by positivity) h1) (by positivity)

theorem mul_nonneg' {m n : ℕ} {a b : F32} (hn : m + n ≤ 126) (ha : UpTo m a) (hb : UpTo n b) (h0 : 0 ≤ a.val) (h1 : 0 ≤ b.val) : 0 ≤ (a *. b).val := by
  obtain ⟨zs, e⟩ := mul_val ha.1 hb.1
  rw [e]
  refine (ofVal_between (φ := Binary32) repr_zero (pow_repr hn) (mul_nonneg h0 h1) ?_ zs).2.1
  rw [pow_add]
  exact mul_le_mul ((le_abs_self _).trans ha.2) ((le_abs_self _).trans hb.2) h1 (by positivity)

theorem small_num {x : F32} (h : Small x) (hn : x ≠ nan) : UpTo 0 x := by
  rcases h with h | ⟨h, h1⟩
  · exact absurd h hn
  · exact ⟨h, by simpa using h1⟩

/-- The quotient of difference and sum is a number when one of the two is not zero. -/
theorem quotient_num {n : ℕ} {x y : F32} (hn : n + 1 ≤ 126) (hx : UpTo n x) (hy : UpTo n y) (h0 : 0 ≤ x.val) (h1 : 0 < y.val) : UpTo 0 ((x -. y) /. (x +. y)) := by
  refine small_num (quotient_small (Or.inr (Or.inr ⟨hx.1, h0⟩)) (Or.inr (Or.inr ⟨hy.1, h1.le⟩))) ?_
  obtain ⟨-, g⟩ := add_ge' hn hx hy h0 h1.le
  obtain ⟨zs, e⟩ := div_val (upTo_sub hn hx hy).1 (upTo_add hn hx hy).1 (by linarith)
  rw [e]; exact ofVal_ne_nan _ _

variable [Libm F32] (hm : SaneLibm)
include hm

theorem core {x a b : F32} (hx : UpTo 0 x) (hx0 : 0 ≤ x.val) (ha : Index32 a) (hb : Index32 b) :
    Num (let sinI := Libm.sqrt (Scalar.fmax (lit 1 -. x *. x) (lit 0))
        let sinT := (a /. b) *. sinI
        if sinT >=. lit 1 then lit 1
        else
          let cosT := Libm.sqrt (Scalar.fmax (lit 1 -. sinT *. sinT) (lit 0))
          let rParl := (b *. x -. a *. cosT) /. (b *. x +. a *. cosT)
          let rPerp := (a *. x -. b *. cosT) /. (a *. x +. b *. cosT)
          (rParl *. rParl +. rPerp *. rPerp) /. lit 2) ∧
    Part (let sinI := Libm.sqrt (Scalar.fmax (lit 1 -. x *. x) (lit 0))
        let sinT := (a /. b) *. sinI
        if sinT >=. lit 1 then lit 1
        else
          let cosT := Libm.sqrt (Scalar.fmax (lit 1 -. sinT *. sinT) (lit 0))
          let rParl := (b *. x -. a *. cosT) /. (b *. x +. a *. cosT)
          let rPerp := (a *. x -. b *. cosT) /. (a *. x +. b *. cosT)
          (rParl *. rParl +. rPerp *. rPerp) /. lit 2) := by
  obtain ⟨na, a0, a1⟩ := ha
  obtain ⟨nb, b0, b1⟩ := hb
  have ap : (0 : ℚ) < a.val := lt_of_lt_of_le (by positivity) a0
  have bp : (0 : ℚ) < b.val := lt_of_lt_of_le (by positivity) b0
  have ua : UpTo 30 a := ⟨na, by rw [abs_of_pos ap]; exact a1⟩
  have ub : UpTo 30 b := ⟨nb, by rw [abs_of_pos bp]; exact b1⟩
  have uy : UpTo 1 (Scalar.fmax (lit 1 -. x *. x) (lit 0)) :=
    upTo_max (upTo_sub (by omega) upTo_one (upTo_mul (by omega) hx hx)) (upTo_zero 1 (by omega))
  have maxnn : ∀ {n : ℕ} {y : F32}, UpTo n y → 0 ≤ (Scalar.fmax y (lit 0)).val := by
    intro n y hy
    rw [(max_ok hy.1 zero_ok.1).2, zero_ok.2]; exact le_max_right _ _
  have y0 := maxnn (upTo_sub (n := 0) (by omega) upTo_one (upTo_mul (m := 0) (n := 0) (by omega) hx hx))
  have us := sqrt_upTo hm uy y0
  have s0 := (hm.sqrt _ uy.1 y0).2.1
  generalize Libm.sqrt (Scalar.fmax (lit 1 -. x *. x) (lit 0)) = sinI at us s0
  have uq : UpTo 60 (a /. b) := by
    refine upTo_div (by omega) na nb bp.ne' ?_
    rw [abs_of_pos ap, abs_of_pos bp]
    have : (2 : ℚ) ^ 60 * (1 / 2 ^ 30) ≤ 2 ^ 60 * b.val := mul_le_mul_of_nonneg_left b0 (by positivity)
    calc a.val ≤ 2 ^ 30 := a1
      _ = 2 ^ 60 * (1 / 2 ^ 30) := by norm_num
      _ ≤ _ := this
  have q0 : 0 ≤ (a /. b).val := by
    obtain ⟨zs, e⟩ := div_val na nb bp.ne'
    have h : a.val / b.val ≤ 2 ^ 60 := by
      rw [div_le_iff₀ bp]
      have : (2 : ℚ) ^ 60 * (1 / 2 ^ 30) ≤ 2 ^ 60 * b.val := mul_le_mul_of_nonneg_left b0 (by positivity)
      calc a.val ≤ 2 ^ 30 := a1
        _ = 2 ^ 60 * (1 / 2 ^ 30) := by norm_num
        _ ≤ _ := this
    rw [e]
    exact (ofVal_between (φ := Binary32) repr_zero (pow_repr (n := 60) (by omega)) (div_nonneg ap.le bp.le) h zs).2.1
  have ut : UpTo 62 ((a /. b) *. sinI) := upTo_mul (by omega) uq us
  have t0 := mul_nonneg' (m := 60) (n := 2) (by omega) uq us q0 s0
  dsimp only
  generalize (a /. b) *. sinI = sinT at ut t0
  by_cases ht : (sinT >=. lit 1) = true
  · rw [if_pos ht]
    exact ⟨lit_one.1, Or.inr ⟨lit_one.1, by rw [lit_one.2.1]; norm_num, by rw [lit_one.2.1]⟩⟩
  rw [if_neg ht]
  have t1 : sinT.val < 1 := by
    by_contra hc
    exact ht ((le_ok lit_one.1 ut.1).2 (by rw [lit_one.2.1]; linarith))
  have t2 : sinT.val ≤ 1 - 1 / 2 ^ 24 := by
    have hr := val_repr ut.1
    unfold Fl.Repr at hr
    rw [abs_of_nonneg t0] at hr
    exact below_one hr t1
  have ut' : UpTo 0 sinT := ⟨ut.1, by rw [abs_of_nonneg t0, pow_zero]; exact t1.le⟩
  have r1 : Fl.Repr Binary32 (1 - 1 / 2 ^ 24 : ℚ) := by
    have h : (1 - 1 / 2 ^ 24 : ℚ) = ((fin false (1 - 1 / 2 ^ 24) : F32)).val := by simp [val, sgn]
    rw [h]
    refine repr_num ⟨?_, trivial⟩
    show (0 : ℚ) ≤ 1 - 1 / 2 ^ 24 ∧ Rounding.rnd Binary32 (1 - 1 / 2 ^ 24 : ℚ) = some (1 - 1 / 2 ^ 24)
    decide +kernel
  have sq : (sinT *. sinT).val ≤ 1 - 1 / 2 ^ 24 := by
    obtain ⟨zs, e⟩ := mul_val ut.1 ut.1
    rw [e]
    refine (ofVal_between (φ := Binary32) repr_zero r1 (mul_nonneg t0 t0) ?_ zs).2.2
    nlinarith
  have sq0 := sq_nonneg' (n := 0) (by omega) ut'
  have uz1 := upTo_sub (n := 0) (by omega) upTo_one (upTo_mul (m := 0) (n := 0) (by omega) ut' ut')
  have z1 : 1 / 2 ^ 24 ≤ (lit 1 -. sinT *. sinT).val := by
    have nn := neg_ok (upTo_mul (m := 0) (n := 0) (by omega) ut' ut').1
    obtain ⟨zs, e⟩ := add_fin (lit_one.1.fin) nn.1.fin
    show 1 / 2 ^ 24 ≤ (add (lit 1) (⊖(sinT *. sinT))).val
    rw [e]
    refine (ofVal_between (φ := Binary32) (repr_inv (n := 24) (by omega)) Sgn.repr_one ?_ ?_ zs).2.1 <;> rw [nn.2, lit_one.2.1] <;> linarith
  have uz : UpTo 1 (Scalar.fmax (lit 1 -. sinT *. sinT) (lit 0)) := upTo_max uz1 (upTo_zero 1 (by omega))
  have z2 : 1 / 2 ^ 24 ≤ (Scalar.fmax (lit 1 -. sinT *. sinT) (lit 0)).val := by
    rw [(max_ok uz1.1 zero_ok.1).2]; exact z1.trans (le_max_left _ _)
  have z0 := maxnn uz1
  have uc := sqrt_upTo hm uz z0
  obtain ⟨-, c0, -, c1⟩ := hm.sqrt _ uz.1 z0
  generalize Libm.sqrt (Scalar.fmax (lit 1 -. sinT *. sinT) (lit 0)) = cosT at uc c0 c1
  have c2 : 1 / 2 ^ 13 ≤ cosT.val := by
    by_contra hc
    push Not at hc
    have : cosT.val ^ 2 < (1 / 2 ^ 13) ^ 2 := pow_lt_pow_left₀ hc c0 (by norm_num)
    norm_num at this z2
    linarith
  have quot : ∀ {a b : F32}, UpTo 30 a → UpTo 30 b → 0 ≤ b.val → 1 / 2 ^ 30 ≤ a.val → UpTo 0 ((b *. x -. a *. cosT) /. (b *. x +. a *. cosT)) := by
    intro a b ua ub b0 a0
    refine quotient_num (n := 32) (by omega) (UpTo.mono (upTo_mul (m := 30) (n := 0) (by omega) ub hx) (by omega)) (upTo_mul (by omega) ua uc) ?_ ?_
    · exact mul_nonneg' (by omega) ub hx b0 hx0
    · exact lt_of_lt_of_le (by positivity) (mul_ge (by omega) (by omega) ua uc a0 c2)
  have p1 := quot ua ub bp.le a0
  have p2 := quot ub ua ap.le b0
  generalize (b *. x -. a *. cosT) /. (b *. x +. a *. cosT) = p at p1
  generalize (a *. x -. b *. cosT) /. (a *. x +. b *. cosT) = q at p2
  have hp := half_sum (p := p) (q := q) (Or.inr ⟨p1.1, by simpa using p1.2⟩) (Or.inr ⟨p2.1, by simpa using p2.2⟩)
  refine ⟨?_, hp⟩
  rcases hp with h | h
  · exfalso
    have v2 : (lit 2 : F32).val = 2 := by
      have := (ofInt_exact (n := 2) (by norm_num)).2
      simpa [ofInt] using this
    obtain ⟨zs, e⟩ := div_val (upTo_add (n := 0) (by omega) (upTo_mul (m := 0) (n := 0) (by omega) p1 p1) (upTo_mul (m := 0) (n := 0) (by omega) p2 p2)).1
      (lit_ok (q := 2) (by norm_num)) (by rw [v2]; norm_num)
    rw [e] at h
    exact ofVal_ne_nan _ _ h
  · exact h.1

omit hm [Libm F32] in
/-- A cosine that is not NaN is a number in `[-1, 1]` after the clamping. -/
theorem clamp_num {c : F32} (hc : c.WF) (hn : c ≠ nan) : UpTo 0 (clamp c (⊖(lit 1)) (lit 1)) := by
  have n1 := lit_one.1
  have n2 := (neg_ok n1).1
  have v2 : (⊖(lit 1) : F32).val = -1 := by rw [(neg_ok n1).2, lit_one.2.1]
  have u1 : UpTo 0 (lit 1 : F32) := ⟨n1, by rw [lit_one.2.1]; norm_num⟩
  have u2 : UpTo 0 (⊖(lit 1) : F32) := ⟨n2, by rw [v2]; norm_num⟩
  obtain ⟨a, e⟩ := lit_one.2.2
  unfold clamp
  rcases wf_num hc with h | ⟨s, rfl⟩ | h
  · exact absurd h hn
  · cases s
    · have h1 : ((inf false : F32) <. ⊖(lit 1)) = false := by rw [e]; rfl
      have h2 : ((inf false : F32) >. lit 1) = true := by rw [e]; rfl
      rw [if_neg (by rw [h1]; simp), if_pos h2]; exact u1
    · have h1 : ((inf true : F32) <. ⊖(lit 1)) = true := by rw [e]; rfl
      rw [if_pos h1]; exact u2
  · split_ifs with h1 h2
    · exact u2
    · exact u1
    · refine ⟨h, abs_le.2 ⟨?_, ?_⟩⟩
      · by_contra hc
        refine h1 ((lt_ok h n2).2 ?_)
        rw [v2]; push Not at hc; simpa using hc
      · by_contra hc
        refine h2 ((lt_ok n1 h).2 ?_)
        rw [lit_one.2.1]; push Not at hc; simpa using hc

end FrF

open FrF Sgn NoPanic in
/-- **C55** in single precision.  For every cosine that is not NaN, infinities included, and all indices between `2 ^ -30` and `2 ^ 30` the reflectance of a dielectric is a
number (never `0 / 0`) in `[0, 1]`; what is left of the light is a number in `[0, 1]` too, and the two shares add up to one within half the spacing of the
numbers below one.  The square root need only be right within a factor of two. -/
theorem c55_f32 [Libm F32] (hm : SaneLibm) {c a b : F32} (hc : c.WF) (hn : c ≠ nan) (ha : Index32 a) (hb : Index32 b) :
    Num (frDielectric c a b) ∧ 0 ≤ (frDielectric c a b).val ∧ (frDielectric c a b).val ≤ 1 ∧
    Num (lit 1 -. frDielectric c a b) ∧ 0 ≤ (lit 1 -. frDielectric c a b).val ∧ (lit 1 -. frDielectric c a b).val ≤ 1 ∧
    |(frDielectric c a b).val + (lit 1 -. frDielectric c a b).val - 1| ≤ 1 / 2 ^ 24 := by
  have main : Num (frDielectric c a b) ∧ Part (frDielectric c a b) := by
    have uc := clamp_num hc hn
    unfold frDielectric
    dsimp only
    by_cases h : (clamp c (⊖(lit 1)) (lit 1) >. lit 0) = true
    · rw [if_pos h]
      refine core hm uc ?_ ha hb
      have := (lt_ok zero_ok.1 uc.1).1 h
      rw [zero_ok.2] at this; exact this.le
    · rw [if_neg h]
      have u2 : UpTo 0 (⊖(lit 1) : F32) := upTo_neg upTo_one
      refine core hm (upTo_mul (m := 0) (n := 0) (by omega) uc u2) ?_ hb ha
      have h0 : (clamp c (⊖(lit 1)) (lit 1)).val ≤ 0 := by
        by_contra hc
        exact h ((lt_ok zero_ok.1 uc.1).2 (by rw [zero_ok.2]; linarith))
      obtain ⟨zs, e⟩ := mul_val uc.1 u2.1
      rw [e]
      have v2 : (⊖(lit 1) : F32).val = -1 := by rw [(neg_ok lit_one.1).2, lit_one.2.1]
      have h1 := (abs_le.1 uc.2).1
      rw [v2]
      refine (ofVal_between (φ := Binary32) repr_zero Sgn.repr_one ?_ ?_ zs).2.1
      · linarith
      · simp at h1; linarith
  obtain ⟨hN, hP⟩ := main
  rcases hP with e | ⟨-, h0, h1⟩
  · rw [e] at hN; exact absurd hN.fin id
  generalize frDielectric c a b = F at hN h0 h1
  have nn := neg_ok hN
  obtain ⟨zs, e⟩ := add_fin lit_one.1.fin nn.1.fin
  have e' : (lit 1 -. F) = ofVal (1 - F.val) zs := by
    show add (lit 1) (⊖F) = _
    rw [e, nn.2, lit_one.2.1, sub_eq_add_neg]
  obtain ⟨f1, l1, l2⟩ := ofVal_between (φ := Binary32) repr_zero Sgn.repr_one (by linarith : 0 ≤ 1 - F.val) (by linarith) zs
  rw [e']
  refine ⟨hN, h0, h1, ⟨ofVal_WF _ _, f1⟩, l1, l2, ?_⟩
  have he := add_err lit_one.1.wf nn.1.wf (by show (lit 1 -. F : F32).IsFin; rw [e']; exact f1)
  change |(lit 1 -. F).val - _| ≤ _ at he
  rw [e', nn.2, lit_one.2.1] at he
  have : |(1 : ℚ) + -F.val| ≤ 1 := by rw [abs_le]; constructor <;> linarith
  have hu : ulpHalf ≤ 1 / 2 ^ 24 := by unfold ulpHalf; norm_num
  calc _ = |(ofVal (1 - F.val) zs : F32).val - (1 + -F.val)| := by congr 1; ring
    _ ≤ _ := he
    _ ≤ 1 * (1 / 2 ^ 24) := mul_le_mul this hu (by unfold ulpHalf; norm_num) (by norm_num)
    _ = _ := by norm_num

/-- Air and glass, at grazing incidence, at an infinite cosine, and from the inside. -/
example : letI := Demo.roughLibm
    SaneLibm ∧ Index32 (f32 1) ∧ Index32 (f32 (3 / 2)) ∧ (f32 0).WF ∧ f32 0 ≠ nan ∧ (.inf true : F32).WF ∧ (.inf true : F32) ≠ nan := by
  have n1 : f32 1 = (lit 1 : F32) := rfl
  have n2 : f32 (3 / 2) = (lit (3 / 2) : F32) := rfl
  refine ⟨Demo.roughLibm_sane, ⟨n1 ▸ lit_ok (by norm_num), by decide +kernel, by decide +kernel⟩, ⟨n2 ▸ lit_ok (by norm_num [abs_of_pos]), by decide +kernel, by decide +kernel⟩,
    lit_WF (0 : ℚ), by decide +kernel, trivial, by decide⟩

end PT
