import Verif.Props.ImageF32
import Verif.Props.KdF32
import Verif.Props.NoPanicCamera
import Verif.Props.ShapeContract
import Verif.Model.Hello
import Mathlib.Analysis.Complex.ExponentialBounds

/-! # C14 in single precision: the Gaussian filter, and the filter table of the example program

What is assumed of the platform's exponential function is said here; the model of `expf` stays a parameter. -/

namespace PT
open Fl

/-- The exponential function of a number that is not positive is a number between 0 and 1, and it never decreases. -/
structure Spec.ExpMonotone [Libm F32] : Prop where
  range : ∀ x : F32, Num x → x.val ≤ 0 → Num (Libm.exp x) ∧ 0 ≤ (Libm.exp x).val ∧ (Libm.exp x).val ≤ 1
  mono : ∀ x y : F32, Num x → Num y → x.val ≤ y.val → y.val ≤ 0 → (Libm.exp x).val ≤ (Libm.exp y).val

/-- Between -9 and 0 the exponential function is exact to one part in a million. -/
def Spec.ExpAccurate [Libm F32] : Prop :=
  ∀ x : F32, Num x → -9 ≤ x.val → x.val ≤ 0 →
    Num (Libm.exp x) ∧ |((Libm.exp x).val : ℝ) - Real.exp x.val| ≤ Real.exp x.val / 2 ^ 20

namespace Gauss

theorem mul_mono {a b c d : F32} (na : Num a) (nb : Num b) (nc : Num c) (nd : Num d)
    (s1 : |a.val * b.val| ≤ 2 ^ 126) (s2 : |c.val * d.val| ≤ 2 ^ 126) (h : a.val * b.val ≤ c.val * d.val) : (a *. b).val ≤ (c *. d).val := by
  have n1 := (mul_ok na nb s1).1
  have n2 := (mul_ok nc nd s2).1
  obtain ⟨z1, e1⟩ := mul_val na nb
  obtain ⟨z2, e2⟩ := mul_val nc nd
  refine (le_ok n1 n2).1 ?_
  rw [e1, e2]
  exact ofVal_mono h z1 z2

theorem mul_nonneg' {a b : F32} (na : Num a) (nb : Num b) (s : |a.val * b.val| ≤ 2 ^ 126) (h : 0 ≤ a.val * b.val) : 0 ≤ (a *. b).val := by
  obtain ⟨z, e⟩ := mul_val na nb
  have := ofVal_between repr_zero big_repr h ((le_abs_self _).trans s) z
  rw [e]; exact this.2.1

theorem mul_nonpos' {a b : F32} (na : Num a) (nb : Num b) (s : |a.val * b.val| ≤ 2 ^ 126) (h : a.val * b.val ≤ 0) : (a *. b).val ≤ 0 := by
  obtain ⟨z, e⟩ := mul_val na nb
  have := ofVal_between (repr_neg big_repr) repr_zero (neg_le_of_abs_le s) h z
  rw [e]; exact this.2.2

theorem mul_le_one' {a b : F32} (na : Num a) (nb : Num b) (h0 : 0 ≤ a.val * b.val) (h1 : a.val * b.val ≤ 1) : (a *. b).val ≤ 1 := by
  obtain ⟨z, e⟩ := mul_val na nb
  have := ofVal_between repr_zero repr_one h0 h1 z
  rw [e]; exact this.2.2

/-- The exponent at distance `d`. -/
def arg (alpha d : F32) : F32 := (⊖alpha) *. d *. d

theorem arg_neg (alpha d : F32) : arg alpha (⊖d) = arg alpha d := by
  show Fl.mul (Fl.mul (Fl.neg alpha) (Fl.neg d)) (Fl.neg d) = Fl.mul (Fl.mul (Fl.neg alpha) d) d
  rw [mul_neg' (Fl.neg alpha) d]
  generalize Fl.mul (Fl.neg alpha) d = e
  cases e with
  | nan => rfl
  | inf s => cases d <;> simp [Fl.neg, Fl.mul]
  | fin s m => cases d <;> simp [Fl.neg, Fl.mul]

theorem abs_cases {d : F32} (nd : Num d) : Scalar.abs d = d ∨ Scalar.abs d = ⊖d := by
  obtain ⟨s, m, rfl⟩ := IsFin_iff.1 nd.fin
  cases s
  · left; rfl
  · right; rfl

theorem arg_abs {alpha d : F32} (nd : Num d) : arg alpha (Scalar.abs d) = arg alpha d := by
  rcases abs_cases nd with h | h <;> rw [h]
  exact arg_neg _ _

section
variable {alpha d e : F32} (na : Num alpha) (a0 : 0 ≤ alpha.val) (a1 : alpha.val ≤ 2 ^ 20)
include na a0 a1

/-- The first product. -/
theorem first_ok (nd : Num d) (d0 : 0 ≤ d.val) (d1 : d.val ≤ 2 ^ 20) : Num ((⊖alpha) *. d) ∧ ((⊖alpha) *. d).val ≤ 0 ∧ -2 ^ 42 ≤ ((⊖alpha) *. d).val ∧
    |((⊖alpha) *. d).val + alpha.val * d.val| ≤ alpha.val * d.val * ulpHalf + tinyHalf := by
  obtain ⟨nn, vn⟩ := neg_ok na
  have p0 : 0 ≤ alpha.val * d.val := mul_nonneg a0 d0
  have p1 : alpha.val * d.val ≤ 2 ^ 40 := by
    calc alpha.val * d.val ≤ 2 ^ 20 * 2 ^ 20 := mul_le_mul a1 d1 d0 (by positivity)
      _ = 2 ^ 40 := by norm_num
  have hs : |(⊖alpha).val * d.val| ≤ 2 ^ 126 := by
    rw [vn, neg_mul, abs_neg, abs_of_nonneg p0]; exact p1.trans (by norm_num)
  obtain ⟨n1, e1⟩ := mul_ok nn nd hs
  have hz := mul_nonpos' nn nd hs (by rw [vn, neg_mul]; linarith)
  rw [vn, neg_mul, abs_neg, abs_of_nonneg p0, sub_neg_eq_add] at e1
  refine ⟨n1, hz, ?_, e1⟩
  have := (abs_le.1 e1).1
  generalize ((⊖alpha) *. d).val = X at *
  generalize alpha.val * d.val = P at *
  simp only [ulpHalf, tinyHalf] at this
  norm_num at this p1 ⊢
  linarith

/-- The exponent is a number that is not positive, close to minus alpha times the square. -/
theorem arg_ok (nd : Num d) (d0 : 0 ≤ d.val) (d1 : d.val ≤ 2 ^ 20) : Num (arg alpha d) ∧ (arg alpha d).val ≤ 0 ∧
    |(arg alpha d).val - ((⊖alpha) *. d).val * d.val| ≤ -(((⊖alpha) *. d).val * d.val) * ulpHalf + tinyHalf := by
  obtain ⟨n1, h1, h2, -⟩ := first_ok na a0 a1 nd d0 d1
  have p0 : ((⊖alpha) *. d).val * d.val ≤ 0 := mul_nonpos_of_nonpos_of_nonneg h1 d0
  have hs : |((⊖alpha) *. d).val * d.val| ≤ 2 ^ 126 := by
    rw [abs_mul]
    have ha : |((⊖alpha) *. d).val| ≤ 2 ^ 42 := by rw [abs_of_nonpos h1]; linarith
    have hd : |d.val| ≤ 2 ^ 20 := by rw [abs_of_nonneg d0]; exact d1
    calc |((⊖alpha) *. d).val| * |d.val| ≤ 2 ^ 42 * 2 ^ 20 := mul_le_mul ha hd (abs_nonneg _) (by positivity)
      _ ≤ 2 ^ 126 := by norm_num
  obtain ⟨n, er⟩ := mul_ok n1 nd hs
  rw [abs_of_nonpos p0] at er
  exact ⟨n, mul_nonpos' n1 nd hs p0, er⟩

theorem arg_mono (nd : Num d) (ne : Num e) (d0 : 0 ≤ d.val) (h : d.val ≤ e.val) (e1 : e.val ≤ 2 ^ 20) : (arg alpha e).val ≤ (arg alpha d).val := by
  have d1 := h.trans e1
  have e0 := d0.trans h
  obtain ⟨nn, vn⟩ := neg_ok na
  obtain ⟨n1, h1, h1', -⟩ := first_ok na a0 a1 nd d0 d1
  obtain ⟨n2, h2, h2', -⟩ := first_ok na a0 a1 ne e0 e1
  have sd : ∀ x : ℚ, 0 ≤ x → x ≤ 2 ^ 20 → |(⊖alpha).val * x| ≤ 2 ^ 126 := by
    intro x x0 x1
    rw [vn, neg_mul, abs_neg, abs_of_nonneg (mul_nonneg a0 x0)]
    calc alpha.val * x ≤ 2 ^ 20 * 2 ^ 20 := mul_le_mul a1 x1 x0 (by positivity)
      _ ≤ 2 ^ 126 := by norm_num
  have st : ∀ t x : ℚ, t ≤ 0 → -2 ^ 42 ≤ t → 0 ≤ x → x ≤ 2 ^ 20 → |t * x| ≤ 2 ^ 126 := by
    intro t x t0 t1 x0 x1
    rw [abs_mul, abs_of_nonpos t0, abs_of_nonneg x0]
    calc -t * x ≤ 2 ^ 42 * 2 ^ 20 := mul_le_mul (by linarith) x1 x0 (by positivity)
      _ ≤ 2 ^ 126 := by norm_num
  have hf : ((⊖alpha) *. e).val ≤ ((⊖alpha) *. d).val := by
    refine mul_mono nn ne nn nd (sd _ e0 e1) (sd _ d0 d1) ?_
    rw [vn]; nlinarith
  refine mul_mono n2 ne n1 nd (st _ _ h2 h2' e0 e1) (st _ _ h1 h1' d0 d1) ?_
  generalize ((⊖alpha) *. e).val = X at *
  generalize ((⊖alpha) *. d).val = Y at *
  nlinarith

end


theorem zero_num : Num (lit 0 : F32) ∧ (lit 0 : F32).val = 0 := ⟨⟨lit_WF 0, Sched.zero_val.1⟩, Sched.zero_val.2⟩

/-- The exponent at the radius. -/
theorem rim_ok {alpha r : F32} (na : Num alpha) (a0 : 0 ≤ alpha.val) (a1 : alpha.val ≤ 2 ^ 20) (nr : Num r) (r0 : 0 ≤ r.val) (r1 : r.val ≤ 2 ^ 20) :
    Num (r *. r) ∧ 0 ≤ (r *. r).val ∧ |(r *. r).val - r.val * r.val| ≤ r.val * r.val * ulpHalf + tinyHalf ∧
    Num ((⊖alpha) *. (r *. r)) ∧ ((⊖alpha) *. (r *. r)).val ≤ 0 ∧
    |((⊖alpha) *. (r *. r)).val + alpha.val * (r *. r).val| ≤ alpha.val * (r *. r).val * ulpHalf + tinyHalf := by
  obtain ⟨nn, vn⟩ := neg_ok na
  have p0 : 0 ≤ r.val * r.val := mul_nonneg r0 r0
  have p1 : r.val * r.val ≤ 2 ^ 40 := by
    calc r.val * r.val ≤ 2 ^ 20 * 2 ^ 20 := mul_le_mul r1 r1 r0 (by positivity)
      _ = 2 ^ 40 := by norm_num
  have hs : |r.val * r.val| ≤ 2 ^ 126 := by rw [abs_of_nonneg p0]; exact p1.trans (by norm_num)
  obtain ⟨n1, e1⟩ := mul_ok nr nr hs
  have h0 := mul_nonneg' nr nr hs p0
  rw [abs_of_nonneg p0] at e1
  have h1 : (r *. r).val ≤ 2 ^ 42 := by
    have := (abs_le.1 e1).2
    generalize r.val * r.val = P at *
    simp only [ulpHalf, tinyHalf] at this
    norm_num at this p1 ⊢
    linarith
  have q0 : 0 ≤ alpha.val * (r *. r).val := mul_nonneg a0 h0
  have hs2 : |(⊖alpha).val * (r *. r).val| ≤ 2 ^ 126 := by
    rw [vn, neg_mul, abs_neg, abs_of_nonneg q0]
    calc alpha.val * (r *. r).val ≤ 2 ^ 20 * 2 ^ 42 := mul_le_mul a1 h1 h0 (by positivity)
      _ ≤ 2 ^ 126 := by norm_num
  obtain ⟨n2, e2⟩ := mul_ok nn n1 hs2
  have h2 := mul_nonpos' nn n1 hs2 (by rw [vn, neg_mul]; linarith)
  rw [vn, neg_mul, abs_neg, abs_of_nonneg q0, sub_neg_eq_add] at e2
  exact ⟨n1, h0, e1, n2, h2, e2⟩

theorem gaussian_eq [Libm F32] (r alpha d : F32) :
    (GaussianFilter.new r alpha).gaussian d = Scalar.fmax (Libm.exp (arg alpha d) -. Libm.exp ((⊖alpha) *. (r *. r))) (lit 0) := rfl

theorem gaussian_neg [Libm F32] (r alpha d : F32) : (GaussianFilter.new r alpha).gaussian (⊖d) = (GaussianFilter.new r alpha).gaussian d := by
  rw [gaussian_eq, gaussian_eq, arg_neg]

section
variable [Libm F32] (hm : Spec.ExpMonotone) {alpha r d e : F32} (na : Num alpha) (a0 : 0 ≤ alpha.val) (a1 : alpha.val ≤ 2 ^ 20) (nr : Num r) (r0 : 0 ≤ r.val) (r1 : r.val ≤ 2 ^ 20)
include hm na a0 a1 nr r0 r1

theorem arg_num (nd : Num d) (d1 : |d.val| ≤ 2 ^ 20) : Num (arg alpha d) ∧ (arg alpha d).val ≤ 0 := by
  obtain ⟨n, v⟩ := abs_ok nd
  have := arg_ok na a0 a1 n (by rw [v]; exact abs_nonneg _) (by rw [v]; exact d1)
  rw [arg_abs nd] at this
  exact ⟨this.1, this.2.1⟩

theorem gaussian_ok (nd : Num d) (d1 : |d.val| ≤ 2 ^ 20) :
    Num ((GaussianFilter.new r alpha).gaussian d) ∧ 0 ≤ ((GaussianFilter.new r alpha).gaussian d).val ∧ ((GaussianFilter.new r alpha).gaussian d).val ≤ 1 := by
  obtain ⟨n, h⟩ := arg_num hm na a0 a1 nr r0 r1 nd d1
  obtain ⟨ne, e0, e1⟩ := hm.range _ n h
  obtain ⟨-, -, -, n', h', -⟩ := rim_ok na a0 a1 nr r0 r1
  obtain ⟨ne', e0', e1'⟩ := hm.range _ n' h'
  rw [gaussian_eq]
  generalize Libm.exp (arg alpha d) = u at *
  generalize Libm.exp ((⊖alpha) *. (r *. r)) = w at *
  have b1 : u.val - w.val ≤ 1 := by linarith
  have b2 : -1 ≤ u.val - w.val := by linarith
  have nd := (sub_ok ne ne' (by rw [abs_le]; norm_num; constructor <;> linarith)).1
  obtain ⟨z, ez⟩ := add_fin ne.fin (neg_fin ne'.fin).1
  have bt := ofVal_between (repr_neg repr_one) repr_one (x := u.val + (⊖w).val) (by rw [(neg_ok ne').2]; linarith) (by rw [(neg_ok ne').2]; linarith) z
  have le1 : (u -. w).val ≤ 1 := by
    have : (u -. w : F32) = ofVal (u.val + (⊖w).val) z := ez
    rw [this]; exact bt.2.2
  obtain ⟨nm, vm⟩ := max_ok nd zero_num.1
  rw [zero_num.2] at vm
  exact ⟨nm, by rw [vm]; exact le_max_right _ _, by rw [vm]; exact max_le le1 (by norm_num)⟩

theorem gaussian_mono (nd : Num d) (ne : Num e) (h : |d.val| ≤ |e.val|) (e1 : |e.val| ≤ 2 ^ 20) :
    ((GaussianFilter.new r alpha).gaussian e).val ≤ ((GaussianFilter.new r alpha).gaussian d).val := by
  obtain ⟨nda, vd⟩ := abs_ok nd
  obtain ⟨nea, ve⟩ := abs_ok ne
  have am : (arg alpha e).val ≤ (arg alpha d).val := by
    have := arg_mono na a0 a1 nda nea (by rw [vd]; exact abs_nonneg _) (by rw [vd, ve]; exact h) (by rw [ve]; exact e1)
    rwa [arg_abs nd, arg_abs ne] at this
  obtain ⟨n1, h1⟩ := arg_num hm na a0 a1 nr r0 r1 nd (h.trans e1)
  obtain ⟨n2, h2⟩ := arg_num hm na a0 a1 nr r0 r1 ne e1
  obtain ⟨m1, u0, u1⟩ := hm.range _ n1 h1
  obtain ⟨m2, v0, v1⟩ := hm.range _ n2 h2
  have xm := hm.mono _ _ n2 n1 am h1
  obtain ⟨-, -, -, n', h', -⟩ := rim_ok na a0 a1 nr r0 r1
  obtain ⟨ne', e0', e1'⟩ := hm.range _ n' h'
  rw [gaussian_eq, gaussian_eq]
  generalize Libm.exp (arg alpha d) = u at *
  generalize Libm.exp (arg alpha e) = v at *
  generalize Libm.exp ((⊖alpha) *. (r *. r)) = w at *
  have s1 : |u.val - w.val| ≤ 2 ^ 126 := by rw [abs_le]; norm_num; constructor <;> linarith
  have s2 : |v.val - w.val| ≤ 2 ^ 126 := by rw [abs_le]; norm_num; constructor <;> linarith
  have sm := Kd32.sub_mono m2 m1 ne' s2 s1 xm
  rw [(max_ok (sub_ok m1 ne' s1).1 zero_num.1).2, (max_ok (sub_ok m2 ne' s2).1 zero_num.1).2]
  exact max_le_max sm le_rfl

end

end Gauss

/-- C14 in single precision, of any `expf` that stays between 0 and 1 and never decreases below zero.  For a radius and an `alpha` between 0 and
a million, the filter is a number between 0 and 1 at every point with coordinates up to a million; it is exactly the same at points that differ only in
the sign of a coordinate; and going away from the centre along either axis it never increases. -/
theorem c14_f32 [Libm F32] (hm : Spec.ExpMonotone) (radius alpha : F32) (nr : Num radius) (na : Num alpha) (r0 : 0 ≤ radius.val) (r1 : radius.val ≤ 2 ^ 20)
    (a0 : 0 ≤ alpha.val) (a1 : alpha.val ≤ 2 ^ 20) :
    let f := (GaussianFilter.new radius alpha).toFilter.evaluate
    (∀ x y, Num x → Num y → |x.val| ≤ 2 ^ 20 → |y.val| ≤ 2 ^ 20 → Num (f ⟨x, y⟩) ∧ 0 ≤ (f ⟨x, y⟩).val ∧ (f ⟨x, y⟩).val ≤ 1) ∧
    (∀ x y, f ⟨⊖x, y⟩ = f ⟨x, y⟩ ∧ f ⟨x, ⊖y⟩ = f ⟨x, y⟩) ∧
    (∀ x x' y y', Num x → Num x' → Num y → Num y' → |x.val| ≤ |x'.val| → |y.val| ≤ |y'.val| → |x'.val| ≤ 2 ^ 20 → |y'.val| ≤ 2 ^ 20 →
      (f ⟨x', y'⟩).val ≤ (f ⟨x, y⟩).val) := by
  intro f
  have hf : ∀ x y, f ⟨x, y⟩ = (GaussianFilter.new radius alpha).gaussian x *. (GaussianFilter.new radius alpha).gaussian y := fun _ _ => rfl
  have ok := fun {d : F32} => Gauss.gaussian_ok (d := d) hm na a0 a1 nr r0 r1
  have prod : ∀ {u w : F32}, 0 ≤ u.val → u.val ≤ 1 → 0 ≤ w.val → w.val ≤ 1 → 0 ≤ u.val * w.val ∧ u.val * w.val ≤ 1 :=
    fun h1 h2 h3 h4 => ⟨mul_nonneg h1 h3, mul_le_one₀ h2 h3 h4⟩
  have small : ∀ {q : ℚ}, 0 ≤ q ∧ q ≤ 1 → |q| ≤ 2 ^ 126 := by intro q h; rw [abs_of_nonneg h.1]; exact h.2.trans (by norm_num)
  refine ⟨?_, ?_, ?_⟩
  · intro x y nx ny hx hy
    obtain ⟨n1, u0, u1⟩ := ok nx hx
    obtain ⟨n2, w0, w1⟩ := ok ny hy
    have p := prod u0 u1 w0 w1
    rw [hf]
    exact ⟨(mul_ok n1 n2 (small p)).1, Gauss.mul_nonneg' n1 n2 (small p) p.1, Gauss.mul_le_one' n1 n2 p.1 p.2⟩
  · intro x y
    rw [hf, hf, hf, Gauss.gaussian_neg, Gauss.gaussian_neg]
    exact ⟨rfl, rfl⟩
  · intro x x' y y' nx nx' ny ny' hx hy hx' hy'
    obtain ⟨n1, u0, u1⟩ := ok nx (hx.trans hx')
    obtain ⟨n2, w0, w1⟩ := ok ny (hy.trans hy')
    obtain ⟨n3, s0, s1⟩ := ok nx' hx'
    obtain ⟨n4, t0, t1⟩ := ok ny' hy'
    have m1 := Gauss.gaussian_mono hm na a0 a1 nr r0 r1 nx nx' hx hx'
    have m2 := Gauss.gaussian_mono hm na a0 a1 nr r0 r1 ny ny' hy hy'
    rw [hf, hf]
    exact Gauss.mul_mono n3 n4 n1 n2 (small (prod s0 s1 t0 t1)) (small (prod u0 u1 w0 w1)) (mul_le_mul m1 m2 t0 u0)


/-! ### The filter table -/

namespace Gauss

/-- The distances the table is made for. -/
def cell (r : F32) (k : Nat) : F32 := (ofInt k +. lit (1 / 2)) *. r /. ofInt filterTableWidth

theorem cell_ok {r : F32} (nr : Num r) (r0 : 1 / 2 ^ 20 ≤ r.val) (r1 : r.val ≤ 2 ^ 20) {k : Nat} (hk : k < 16) :
    Num (cell r k) ∧ 0 ≤ (cell r k).val ∧ (cell r k).val ≤ 969 / 1000 * r.val := by
  obtain ⟨f1, v1⟩ := ofInt_exact (n := (k : Int)) (by rw [abs_of_nonneg (by omega)]; norm_num; omega)
  have n1 : Num (ofInt (k : Int) : F32) := ⟨ofInt_WF _, f1⟩
  have nh : Num (lit (1 / 2) : F32) := ⟨lit_WF _, half_f32.1⟩
  have n2 : Num (ofInt (k : Int) +. lit (1 / 2) : F32) ∧ (ofInt (k : Int) +. lit (1 / 2) : F32).val = k + 1 / 2 := by
    obtain ⟨z, e⟩ := add_fin f1 half_f32.1
    have hr := ofVal_repr (φ := Binary32) (repr_half (n := 2 * k + 1) (by rw [abs_of_nonneg (by omega)]; norm_num; omega)) z
    have e' : (ofInt (k : Int) : F32).val + (lit (1 / 2) : F32).val = ((2 * (k : Int) + 1 : Int) : ℚ) / 2 := by
      rw [v1, half_f32.2]; push_cast; ring
    rw [e'] at e
    have e2 : (ofInt (k : Int) +. lit (1 / 2) : F32) = ofVal (((2 * (k : Int) + 1 : Int) : ℚ) / 2) z := e
    refine ⟨⟨add_WF _ _, by rw [e2]; exact hr.1⟩, ?_⟩
    rw [e2, hr.2]; push_cast; ring
  obtain ⟨f16, v16⟩ := ofInt_exact (n := (filterTableWidth : Int)) (by decide)
  have n16 : Num (ofInt (filterTableWidth : Int) : F32) := ⟨ofInt_WF _, f16⟩
  have w16 : ((filterTableWidth : Int) : ℚ) = 16 := by norm_num [filterTableWidth]
  rw [w16] at v16
  have k0 : (0 : ℚ) ≤ k := by positivity
  have k1 : (k : ℚ) ≤ 15 := by exact_mod_cast (by omega : k ≤ 15)
  have p0 : r.val / 2 ≤ (k + 1 / 2) * r.val := by nlinarith
  have p1 : (k + 1 / 2) * r.val ≤ 31 / 2 * r.val := by nlinarith
  have rp : 0 < r.val := lt_of_lt_of_le (by norm_num) r0
  obtain ⟨m1, e1⟩ := mul_ok n2.1 nr (by rw [n2.2, abs_of_nonneg (by linarith)]; norm_num at r1 ⊢; linarith)
  rw [n2.2, abs_of_nonneg (show (0 : ℚ) ≤ ((k : ℚ) + 1 / 2) * r.val by linarith)] at e1
  obtain ⟨a1, a2⟩ := abs_le.1 e1
  unfold cell
  generalize (ofInt (k : Int) +. lit (1 / 2)) *. r = P at *
  generalize ((k : ℚ) + 1 / 2) * r.val = Q at *
  simp only [ulpHalf, tinyHalf] at a1 a2
  have b1 : 49 / 100 * r.val ≤ P.val := by norm_num at a1 r0 ⊢; linarith
  have b2 : P.val ≤ 15501 / 1000 * r.val := by norm_num at a2 r0 ⊢; linarith
  obtain ⟨m2, e2⟩ := div_ok m1 n16 (by rw [v16]; norm_num) (by rw [v16, abs_of_nonneg (by linarith)]; norm_num at r1 ⊢; linarith)
  rw [v16, abs_of_nonneg (show 0 ≤ P.val / 16 by linarith)] at e2
  obtain ⟨c1, c2⟩ := abs_le.1 e2
  refine ⟨m2, ?_, ?_⟩
  · simp only [ulpHalf, tinyHalf] at c1
    norm_num at c1 r0 ⊢
    linarith
  · simp only [ulpHalf, tinyHalf] at c2
    norm_num at c2 r0 ⊢
    linarith

/-- Real arithmetic behind the table: the two exponentials differ clearly. -/
theorem gap {P A B u w : ℝ} (p0 : 1 / 4 ≤ P) (p1 : P ≤ 8) (hA : -(94 / 100 * P) ≤ A) (hB : B ≤ -P + P / 2 ^ 20)
    (hu : |u - Real.exp A| ≤ Real.exp A / 2 ^ 20) (hw : |w - Real.exp B| ≤ Real.exp B / 2 ^ 20) : 4 / 10 ^ 6 ≤ u - w := by
  have hu1 := (abs_le.1 hu).1
  have hw2 := (abs_le.1 hw).2
  have X8 : (1 : ℝ) / 2985 ≤ Real.exp (-P) := by
    have h1 : Real.exp (-8) ≤ Real.exp (-P) := Real.exp_le_exp.2 (by linarith)
    refine le_trans ?_ h1
    have e8 : Real.exp 8 = Real.exp 1 ^ 8 := by rw [← Real.exp_nat_mul]; norm_num
    have h2 : Real.exp 8 ≤ 2985 := by
      rw [e8]
      have := Real.exp_one_lt_d9
      calc Real.exp 1 ^ 8 ≤ 2.7182818286 ^ 8 := pow_le_pow_left₀ (Real.exp_pos 1).le this.le 8
        _ ≤ 2985 := by norm_num
    rw [Real.exp_neg, one_div]
    exact inv_anti₀ (Real.exp_pos 8) h2
  have hX : 0 < Real.exp (-P) := Real.exp_pos _
  have eA : Real.exp (-P) * (1 + 6 / 100 * P) ≤ Real.exp A := by
    have h1 : Real.exp (-(94 / 100 * P)) ≤ Real.exp A := Real.exp_le_exp.2 hA
    have h2 : Real.exp (-(94 / 100 * P)) = Real.exp (-P) * Real.exp (6 / 100 * P) := by rw [← Real.exp_add]; congr 1; ring
    have h3 := Real.add_one_le_exp (6 / 100 * P)
    have h4 := mul_le_mul_of_nonneg_left h3 hX.le
    rw [← h2] at h4
    linarith
  have eB : Real.exp B ≤ Real.exp (-P) * (1 + P / 2 ^ 19) := by
    have h1 : Real.exp B ≤ Real.exp (-P + P / 2 ^ 20) := Real.exp_le_exp.2 hB
    rw [Real.exp_add] at h1
    refine h1.trans (mul_le_mul_of_nonneg_left ?_ hX.le)
    have h3 := Real.add_one_le_exp (-(P / 2 ^ 20))
    have h4 : Real.exp (P / 2 ^ 20) * Real.exp (-(P / 2 ^ 20)) = 1 := by rw [← Real.exp_add]; simp
    have h5 : 0 < Real.exp (P / 2 ^ 20) := Real.exp_pos _
    have h6 : Real.exp (P / 2 ^ 20) * (-(P / 2 ^ 20) + 1) ≤ 1 := (mul_le_mul_of_nonneg_left h3 h5.le).trans_eq h4
    generalize Real.exp (P / 2 ^ 20) = Z at *
    have t0 : 0 ≤ P / 2 ^ 20 := by positivity
    have t1 : P / 2 ^ 20 ≤ 1 / 2 := by norm_num; linarith
    have t2 : P / 2 ^ 19 = 2 * (P / 2 ^ 20) := by ring
    rw [t2]
    generalize P / 2 ^ 20 = t at *
    by_contra hc
    push Not at hc
    have : (1 + 2 * t) * (1 - t) < Z * (1 - t) := mul_lt_mul_of_pos_right hc (by linarith)
    nlinarith
  generalize Real.exp (-P) = X at *
  generalize Real.exp A = EA at *
  generalize Real.exp B = EB at *
  have hXP : X / 4 ≤ X * P := by nlinarith
  have hXP0 : X * (1 + 6 / 100 * P) = X + 6 / 100 * (X * P) := by ring
  have hXP1 : X * (1 + P / 2 ^ 19) = X + (X * P) / 2 ^ 19 := by ring
  rw [hXP0] at eA
  rw [hXP1] at eB
  have hXP2 : X * P ≤ 8 * X := by nlinarith
  generalize X * P = Y at *
  norm_num at *
  linarith

section
variable [Libm F32] (hx : Spec.ExpAccurate) {alpha r d : F32} (na : Num alpha) (nr : Num r) (r0 : 1 / 2 ^ 20 ≤ r.val) (r1 : r.val ≤ 2 ^ 20)
  (a1 : alpha.val ≤ 2 ^ 20) (p0 : 1 / 4 ≤ alpha.val * r.val ^ 2) (p1 : alpha.val * r.val ^ 2 ≤ 8)
include hx na nr r0 r1 a1 p0 p1

theorem gaussian_pos (nd : Num d) (d0 : 0 ≤ d.val) (d1 : d.val ≤ 969 / 1000 * r.val) :
    Num ((GaussianFilter.new r alpha).gaussian d) ∧ 39 / 10 ^ 7 ≤ ((GaussianFilter.new r alpha).gaussian d).val ∧ ((GaussianFilter.new r alpha).gaussian d).val ≤ 2 := by
  have rp : 0 < r.val := lt_of_lt_of_le (by norm_num) r0
  have a0 : 0 ≤ alpha.val := by
    by_contra hc
    push Not at hc
    have : alpha.val * r.val ^ 2 ≤ 0 := mul_nonpos_of_nonpos_of_nonneg hc.le (by positivity)
    linarith
  have d2 : d.val ≤ 2 ^ 20 := by linarith
  obtain ⟨nf, f0, -, ef⟩ := first_ok na a0 a1 nd d0 d2
  obtain ⟨nA, A0, eA⟩ := arg_ok na a0 a1 nd d0 d2
  obtain ⟨nq, q0, eq, nB, B0, eB⟩ := rim_ok na a0 a1 nr rp.le r1
  have hA : -(94 / 100 * (alpha.val * r.val ^ 2)) ≤ (arg alpha d).val := by
    have h1 := (abs_le.1 eA).1
    have h2 := (abs_le.1 ef).1
    have h3 : -(((⊖alpha) *. d).val * d.val) ≤ (alpha.val * d.val * (1 + ulpHalf) + tinyHalf) * d.val := by
      rw [← neg_mul]; exact mul_le_mul_of_nonneg_right (by linarith) d0
    have h4 : alpha.val * d.val * d.val ≤ (969 / 1000) ^ 2 * (alpha.val * r.val ^ 2) := by
      have : d.val * d.val ≤ (969 / 1000 * r.val) * (969 / 1000 * r.val) := mul_le_mul d1 d1 d0 (by positivity)
      have := mul_le_mul_of_nonneg_left this a0
      nlinarith
    have h5 : tinyHalf * d.val ≤ 1 / 2 ^ 100 := by
      have : tinyHalf * d.val ≤ tinyHalf * 2 ^ 20 := mul_le_mul_of_nonneg_left d2 (by unfold tinyHalf; norm_num)
      refine this.trans (by unfold tinyHalf; norm_num)
    have h6 : (alpha.val * d.val * (1 + ulpHalf) + tinyHalf) * d.val = alpha.val * d.val * d.val * (1 + ulpHalf) + tinyHalf * d.val := by ring
    rw [h6] at h3
    generalize ((⊖alpha) *. d).val * d.val = F at *
    generalize alpha.val * d.val * d.val = G at *
    generalize tinyHalf * d.val = T at *
    generalize alpha.val * r.val ^ 2 = P at *
    generalize (arg alpha d).val = Z at *
    simp only [ulpHalf, tinyHalf] at h1 h3
    norm_num at h1 h3 h4 h5 p0 ⊢
    linarith
  have hB : ((⊖alpha) *. (r *. r)).val ≤ -(alpha.val * r.val ^ 2) + alpha.val * r.val ^ 2 / 2 ^ 20 ∧ -9 ≤ ((⊖alpha) *. (r *. r)).val := by
    obtain ⟨h1, h1'⟩ := abs_le.1 eB
    obtain ⟨h2, h2'⟩ := abs_le.1 eq
    have h3 := mul_le_mul_of_nonneg_left h2 a0
    have h3' := mul_le_mul_of_nonneg_left h2' a0
    have e3 : alpha.val * -(r.val * r.val * ulpHalf + tinyHalf) = -(alpha.val * r.val ^ 2 * ulpHalf) - alpha.val * tinyHalf := by ring
    have e4 : alpha.val * ((r *. r).val - r.val * r.val) = alpha.val * (r *. r).val - alpha.val * r.val ^ 2 := by ring
    have e5 : alpha.val * (r.val * r.val * ulpHalf + tinyHalf) = alpha.val * r.val ^ 2 * ulpHalf + alpha.val * tinyHalf := by ring
    rw [e3, e4] at h3
    rw [e4, e5] at h3'
    have h5 : alpha.val * tinyHalf ≤ 1 / 2 ^ 100 := by
      have : alpha.val * tinyHalf ≤ 2 ^ 20 * tinyHalf := mul_le_mul_of_nonneg_right a1 (by unfold tinyHalf; norm_num)
      refine this.trans (by unfold tinyHalf; norm_num)
    generalize alpha.val * (r *. r).val = G at *
    generalize alpha.val * tinyHalf = T at *
    generalize alpha.val * r.val ^ 2 = P at *
    generalize ((⊖alpha) *. (r *. r)).val = Z at *
    simp only [ulpHalf, tinyHalf] at h1 h1' h3 h3'
    norm_num at h1 h1' h3 h3' h5 p0 p1 ⊢
    constructor <;> linarith
  obtain ⟨nU, eU⟩ := hx _ nA (by linarith) A0
  obtain ⟨nW, eW⟩ := hx _ nB hB.2 B0
  have g := gap (P := ((alpha.val * r.val ^ 2 : ℚ) : ℝ)) (A := ((arg alpha d).val : ℝ)) (B := (((⊖alpha) *. (r *. r)).val : ℝ))
    (by have := (Rat.cast_le (K := ℝ)).2 p0; push_cast at this ⊢; exact this)
    (by have := (Rat.cast_le (K := ℝ)).2 p1; push_cast at this ⊢; exact this)
    (by have := (Rat.cast_le (K := ℝ)).2 hA; push_cast at this ⊢; exact this)
    (by have := (Rat.cast_le (K := ℝ)).2 hB.1; push_cast at this ⊢; exact this) eU eW
  have u1 : ((Libm.exp (arg alpha d)).val : ℝ) ≤ 3 / 2 := by
    have h1 := (abs_le.1 eU).2
    have h2 : Real.exp ((arg alpha d).val : ℝ) ≤ 1 := Real.exp_le_one_iff.2 (by exact_mod_cast A0)
    norm_num at h1 ⊢
    linarith
  have w0 : (0 : ℝ) ≤ ((Libm.exp ((⊖alpha) *. (r *. r))).val : ℝ) := by
    have h1 := (abs_le.1 eW).1
    have h2 := Real.exp_pos (((⊖alpha) *. (r *. r)).val : ℝ)
    norm_num at h1
    linarith
  rw [gaussian_eq]
  generalize Libm.exp (arg alpha d) = U at *
  generalize Libm.exp ((⊖alpha) *. (r *. r)) = W at *
  have g' : 4 / 10 ^ 6 ≤ U.val - W.val := by
    have : ((4 / 10 ^ 6 : ℚ) : ℝ) ≤ ((U.val - W.val : ℚ) : ℝ) := by push_cast; exact g
    exact_mod_cast this
  have u' : U.val ≤ 3 / 2 := by
    have : ((U.val : ℚ) : ℝ) ≤ ((3 / 2 : ℚ) : ℝ) := by push_cast; exact u1
    exact_mod_cast this
  have w' : 0 ≤ W.val := by exact_mod_cast w0
  have D0 : 0 ≤ U.val - W.val := le_trans (by norm_num) g'
  obtain ⟨nD, eD⟩ := sub_ok nU nW (by rw [abs_of_nonneg D0]; norm_num; linarith)
  rw [abs_of_nonneg D0] at eD
  obtain ⟨k1, k2⟩ := abs_le.1 eD
  obtain ⟨nm, vm⟩ := max_ok nD zero_num.1
  rw [zero_num.2] at vm
  have D1 : U.val - W.val ≤ 3 / 2 := by linarith
  generalize U.val - W.val = D at *
  simp only [ulpHalf] at k1 k2
  refine ⟨nm, ?_, ?_⟩
  · rw [vm]
    refine le_trans ?_ (le_max_left _ _)
    norm_num at k1 g' ⊢
    linarith
  · rw [vm]
    refine max_le ?_ (by norm_num)
    norm_num at k2 ⊢
    linarith

end
end Gauss

/-- C14, the table of weights in single precision: for every film whose filter is a Gaussian with `1/4 ≤ alpha · radius² ≤ 8`, of any `expf` exact to one part in a
million there, each of the 256 weights that samples are counted with is a number from 2⁻⁴⁰ to 2⁴⁰: none is zero, and none is lost. -/
theorem c14_table_f32 [Libm F32] (hx : Spec.ExpAccurate) (radius alpha : F32) (nr : Num radius) (na : Num alpha) (r0 : 1 / 2 ^ 20 ≤ radius.val) (r1 : radius.val ≤ 2 ^ 20)
    (a1 : alpha.val ≤ 2 ^ 20) (p0 : 1 / 4 ≤ alpha.val * radius.val ^ 2) (p1 : alpha.val * radius.val ^ 2 ≤ 8) (res : V2 Int) :
    Spec.PositiveFilter (Film.new res (GaussianFilter.new radius alpha).toFilter) := by
  intro row hrow w hw
  have hrow' : row ∈ mkFilterTable (GaussianFilter.new radius alpha).toFilter := hrow
  unfold mkFilterTable at hrow'
  obtain ⟨y, hy, rfl⟩ := List.mem_map.1 hrow'
  obtain ⟨x, hx', rfl⟩ := List.mem_map.1 hw
  have hy := List.mem_range.1 hy
  have hx' := List.mem_range.1 hx'
  show Num ((GaussianFilter.new radius alpha).gaussian (Gauss.cell radius x) *. (GaussianFilter.new radius alpha).gaussian (Gauss.cell radius y)) ∧
    1 / 2 ^ 40 ≤ ((GaussianFilter.new radius alpha).gaussian (Gauss.cell radius x) *. (GaussianFilter.new radius alpha).gaussian (Gauss.cell radius y)).val ∧
    ((GaussianFilter.new radius alpha).gaussian (Gauss.cell radius x) *. (GaussianFilter.new radius alpha).gaussian (Gauss.cell radius y)).val ≤ 2 ^ 40
  obtain ⟨c1, c2, c3⟩ := Gauss.cell_ok nr r0 r1 hx'
  obtain ⟨d1, d2, d3⟩ := Gauss.cell_ok nr r0 r1 hy
  obtain ⟨n1, g1, g1'⟩ := Gauss.gaussian_pos hx na nr r0 r1 a1 p0 p1 c1 c2 c3
  obtain ⟨n2, g2, g2'⟩ := Gauss.gaussian_pos hx na nr r0 r1 a1 p0 p1 d1 d2 d3
  generalize (GaussianFilter.new radius alpha).gaussian (Gauss.cell radius x) = u at *
  generalize (GaussianFilter.new radius alpha).gaussian (Gauss.cell radius y) = w at *
  have l : (39 / 10 ^ 7) * (39 / 10 ^ 7) ≤ u.val * w.val := mul_le_mul g1 g2 (by norm_num) (le_trans (by norm_num) g1)
  have h : u.val * w.val ≤ 2 * 2 := mul_le_mul g1' g2' (le_trans (by norm_num) g2) (by norm_num)
  have z : 0 ≤ u.val * w.val := le_trans (by norm_num) l
  obtain ⟨n, e⟩ := mul_ok n1 n2 (by rw [abs_of_nonneg z]; exact h.trans (by norm_num))
  rw [abs_of_nonneg z] at e
  obtain ⟨e1, e2⟩ := abs_le.1 e
  generalize u.val * w.val = q at *
  simp only [ulpHalf, tinyHalf] at e1 e2
  refine ⟨n, ?_, ?_⟩
  · norm_num at e1 l ⊢
    linarith
  · norm_num at e2 h ⊢
    linarith


/-! ### Outside the radius -/

namespace Gauss

/-- Real arithmetic behind the border: there the two exponentials hardly differ. -/
theorem rim_gap {P A B u w : ℝ} (p0 : 0 ≤ P) (p1 : P ≤ 8) (hA : A ≤ -P + P / 2 ^ 20) (hB : -P - P / 2 ^ 20 ≤ B)
    (hu : |u - Real.exp A| ≤ Real.exp A / 2 ^ 20) (hw : |w - Real.exp B| ≤ Real.exp B / 2 ^ 20) : u - w ≤ 1 / 2 ^ 15 - 1 / 2 ^ 20 := by
  have hu1 := (abs_le.1 hu).2
  have hw2 := (abs_le.1 hw).1
  have hX : 0 < Real.exp (-P) := Real.exp_pos _
  have hX1 : Real.exp (-P) ≤ 1 := Real.exp_le_one_iff.2 (by linarith)
  have eA : Real.exp A ≤ Real.exp (-P) * (1 + P / 2 ^ 19) := by
    have h1 : Real.exp A ≤ Real.exp (-P + P / 2 ^ 20) := Real.exp_le_exp.2 hA
    rw [Real.exp_add] at h1
    refine h1.trans (mul_le_mul_of_nonneg_left ?_ hX.le)
    have h3 := Real.add_one_le_exp (-(P / 2 ^ 20))
    have h4 : Real.exp (P / 2 ^ 20) * Real.exp (-(P / 2 ^ 20)) = 1 := by rw [← Real.exp_add]; simp
    have h5 : 0 < Real.exp (P / 2 ^ 20) := Real.exp_pos _
    have h6 : Real.exp (P / 2 ^ 20) * (-(P / 2 ^ 20) + 1) ≤ 1 := (mul_le_mul_of_nonneg_left h3 h5.le).trans_eq h4
    generalize Real.exp (P / 2 ^ 20) = Z at *
    have t0 : 0 ≤ P / 2 ^ 20 := by positivity
    have t1 : P / 2 ^ 20 ≤ 1 / 2 := by norm_num; linarith
    have t2 : P / 2 ^ 19 = 2 * (P / 2 ^ 20) := by ring
    rw [t2]
    generalize P / 2 ^ 20 = t at *
    by_contra hc
    push Not at hc
    have : (1 + 2 * t) * (1 - t) < Z * (1 - t) := mul_lt_mul_of_pos_right hc (by linarith)
    nlinarith
  have eB : Real.exp (-P) * (1 - P / 2 ^ 20) ≤ Real.exp B := by
    have h1 : Real.exp (-P - P / 2 ^ 20) ≤ Real.exp B := Real.exp_le_exp.2 hB
    rw [sub_eq_add_neg, Real.exp_add] at h1
    refine (mul_le_mul_of_nonneg_left ?_ hX.le).trans h1
    have := Real.add_one_le_exp (-(P / 2 ^ 20))
    linarith
  generalize Real.exp (-P) = X at *
  generalize Real.exp A = EA at *
  generalize Real.exp B = EB at *
  have e1 : X * (1 + P / 2 ^ 19) = X + (X * P) / 2 ^ 19 := by ring
  have e2 : X * (1 - P / 2 ^ 20) = X - (X * P) / 2 ^ 20 := by ring
  rw [e1] at eA
  rw [e2] at eB
  have h8 : X * P ≤ 8 := by nlinarith
  have h0 : 0 ≤ X * P := mul_nonneg hX.le p0
  generalize X * P = Y at *
  norm_num at *
  linarith

section
variable [Libm F32] (hm : Spec.ExpMonotone) (hx : Spec.ExpAccurate) {alpha r d : F32} (na : Num alpha) (nr : Num r) (r0 : 1 / 2 ^ 20 ≤ r.val) (r1 : r.val ≤ 2 ^ 20)
  (a1 : alpha.val ≤ 2 ^ 20) (p0 : 1 / 4 ≤ alpha.val * r.val ^ 2) (p1 : alpha.val * r.val ^ 2 ≤ 8)
include hm hx na nr r0 r1 a1 p0 p1

theorem gaussian_outside (nd : Num d) (d0 : r.val ≤ |d.val|) (d1 : |d.val| ≤ 2 ^ 20) : ((GaussianFilter.new r alpha).gaussian d).val ≤ 1 / 2 ^ 15 := by
  have rp : 0 < r.val := lt_of_lt_of_le (by norm_num) r0
  have a0 : 0 ≤ alpha.val := by
    by_contra hc
    push Not at hc
    have : alpha.val * r.val ^ 2 ≤ 0 := mul_nonpos_of_nonpos_of_nonneg hc.le (by positivity)
    linarith
  refine (gaussian_mono hm na a0 a1 nr rp.le r1 nr nd (by rw [abs_of_nonneg rp.le]; exact d0) d1).trans ?_
  obtain ⟨nf, f0, -, ef⟩ := first_ok na a0 a1 nr rp.le r1
  obtain ⟨nA, A0, eA⟩ := arg_ok na a0 a1 nr rp.le r1
  obtain ⟨nq, q0, eq, nB, B0, eB⟩ := rim_ok na a0 a1 nr rp.le r1
  have hA : (arg alpha r).val ≤ -(alpha.val * r.val ^ 2) + alpha.val * r.val ^ 2 / 2 ^ 20 ∧ -9 ≤ (arg alpha r).val := by
    obtain ⟨h1, h1'⟩ := abs_le.1 eA
    obtain ⟨h2, h2'⟩ := abs_le.1 ef
    have h3 : -(((⊖alpha) *. r).val * r.val) ≤ (alpha.val * r.val * (1 + ulpHalf) + tinyHalf) * r.val := by
      rw [← neg_mul]; exact mul_le_mul_of_nonneg_right (by linarith) rp.le
    have h3' : (alpha.val * r.val * (1 - ulpHalf) - tinyHalf) * r.val ≤ -(((⊖alpha) *. r).val * r.val) := by
      rw [← neg_mul]; exact mul_le_mul_of_nonneg_right (by linarith) rp.le
    have h5 : tinyHalf * r.val ≤ 1 / 2 ^ 100 := by
      have : tinyHalf * r.val ≤ tinyHalf * 2 ^ 20 := mul_le_mul_of_nonneg_left r1 (by unfold tinyHalf; norm_num)
      refine this.trans (by unfold tinyHalf; norm_num)
    have h6 : (alpha.val * r.val * (1 + ulpHalf) + tinyHalf) * r.val = alpha.val * r.val ^ 2 * (1 + ulpHalf) + tinyHalf * r.val := by ring
    have h6' : (alpha.val * r.val * (1 - ulpHalf) - tinyHalf) * r.val = alpha.val * r.val ^ 2 * (1 - ulpHalf) - tinyHalf * r.val := by ring
    rw [h6] at h3
    rw [h6'] at h3'
    generalize ((⊖alpha) *. r).val * r.val = F at *
    generalize tinyHalf * r.val = T at *
    generalize alpha.val * r.val ^ 2 = P at *
    generalize (arg alpha r).val = Z at *
    simp only [ulpHalf, tinyHalf] at h1 h1' h3 h3'
    norm_num at h1 h1' h3 h3' h5 p0 p1 ⊢
    constructor <;> linarith
  have hB : -(alpha.val * r.val ^ 2) - alpha.val * r.val ^ 2 / 2 ^ 20 ≤ ((⊖alpha) *. (r *. r)).val ∧ -9 ≤ ((⊖alpha) *. (r *. r)).val := by
    obtain ⟨h1, h1'⟩ := abs_le.1 eB
    obtain ⟨h2, h2'⟩ := abs_le.1 eq
    have h3' := mul_le_mul_of_nonneg_left h2' a0
    have e4 : alpha.val * ((r *. r).val - r.val * r.val) = alpha.val * (r *. r).val - alpha.val * r.val ^ 2 := by ring
    have e5 : alpha.val * (r.val * r.val * ulpHalf + tinyHalf) = alpha.val * r.val ^ 2 * ulpHalf + alpha.val * tinyHalf := by ring
    rw [e4, e5] at h3'
    have h5 : alpha.val * tinyHalf ≤ 1 / 2 ^ 100 := by
      have : alpha.val * tinyHalf ≤ 2 ^ 20 * tinyHalf := mul_le_mul_of_nonneg_right a1 (by unfold tinyHalf; norm_num)
      refine this.trans (by unfold tinyHalf; norm_num)
    generalize alpha.val * (r *. r).val = G at *
    generalize alpha.val * tinyHalf = T at *
    generalize alpha.val * r.val ^ 2 = P at *
    generalize ((⊖alpha) *. (r *. r)).val = Z at *
    simp only [ulpHalf, tinyHalf] at h1 h1' h3'
    norm_num at h1 h1' h3' h5 p0 p1 ⊢
    constructor <;> linarith
  obtain ⟨nU, eU⟩ := hx _ nA hA.2 A0
  obtain ⟨nW, eW⟩ := hx _ nB hB.2 B0
  have u1 := (hm.range _ nA A0).2
  have w1 := (hm.range _ nB B0).2
  have g := rim_gap (P := ((alpha.val * r.val ^ 2 : ℚ) : ℝ)) (A := ((arg alpha r).val : ℝ)) (B := (((⊖alpha) *. (r *. r)).val : ℝ))
    (by have := (Rat.cast_le (K := ℝ)).2 (le_trans (by norm_num) p0 : 0 ≤ alpha.val * r.val ^ 2); push_cast at this ⊢; exact this)
    (by have := (Rat.cast_le (K := ℝ)).2 p1; push_cast at this ⊢; exact this)
    (by have := (Rat.cast_le (K := ℝ)).2 hA.1; push_cast at this ⊢; exact this)
    (by have := (Rat.cast_le (K := ℝ)).2 hB.1; push_cast at this ⊢; exact this) eU eW
  rw [gaussian_eq]
  generalize Libm.exp (arg alpha r) = U at *
  generalize Libm.exp ((⊖alpha) *. (r *. r)) = W at *
  have g' : U.val - W.val ≤ 1 / 2 ^ 15 - 1 / 2 ^ 20 := by
    have : ((U.val - W.val : ℚ) : ℝ) ≤ ((1 / 2 ^ 15 - 1 / 2 ^ 20 : ℚ) : ℝ) := by push_cast; exact g
    exact_mod_cast this
  have ab : |U.val - W.val| ≤ 1 := by rw [abs_le]; constructor <;> linarith
  obtain ⟨nD, eD⟩ := sub_ok nU nW (ab.trans (by norm_num))
  have k2 := (abs_le.1 eD).2
  rw [(max_ok nD zero_num.1).2, zero_num.2]
  refine max_le ?_ (by norm_num)
  have : |U.val - W.val| * ulpHalf ≤ 1 * ulpHalf := mul_le_mul_of_nonneg_right ab (by unfold ulpHalf; norm_num)
  have hu : ulpHalf = 1 / 2 ^ 24 := rfl
  rw [hu] at k2 this
  generalize |U.val - W.val| * (1 / 2 ^ 24) = T at *
  generalize U.val - W.val = D at *
  norm_num at k2 g' this ⊢
  linarith

end
end Gauss

/-- C14, outside the radius in single precision.  Exact arithmetic gives 0 there; here at most 2⁻¹⁵ is shown, because the program rounds
`alpha · d · d` and `alpha · radius²` differently. -/
theorem c14_outside_f32_partial [Libm F32] (hm : Spec.ExpMonotone) (hx : Spec.ExpAccurate) (radius alpha : F32) (nr : Num radius) (na : Num alpha) (r0 : 1 / 2 ^ 20 ≤ radius.val)
    (r1 : radius.val ≤ 2 ^ 20) (a1 : alpha.val ≤ 2 ^ 20) (p0 : 1 / 4 ≤ alpha.val * radius.val ^ 2) (p1 : alpha.val * radius.val ^ 2 ≤ 8)
    (x y : F32) (nx : Num x) (ny : Num y) (hx1 : |x.val| ≤ 2 ^ 20) (hy1 : |y.val| ≤ 2 ^ 20) (ho : radius.val ≤ |x.val| ∨ radius.val ≤ |y.val|) :
    ((GaussianFilter.new radius alpha).toFilter.evaluate ⟨x, y⟩).val ≤ 1 / 2 ^ 15 := by
  have rp : 0 < radius.val := lt_of_lt_of_le (by norm_num) r0
  have a0 : 0 ≤ alpha.val := by
    by_contra hc
    push Not at hc
    have : alpha.val * radius.val ^ 2 ≤ 0 := mul_nonpos_of_nonpos_of_nonneg hc.le (by positivity)
    linarith
  obtain ⟨n1, u0, u1⟩ := Gauss.gaussian_ok hm na a0 a1 nr rp.le r1 nx hx1
  obtain ⟨n2, w0, w1⟩ := Gauss.gaussian_ok hm na a0 a1 nr rp.le r1 ny hy1
  have key : ((GaussianFilter.new radius alpha).gaussian x).val ≤ 1 / 2 ^ 15 ∨ ((GaussianFilter.new radius alpha).gaussian y).val ≤ 1 / 2 ^ 15 :=
    ho.imp (fun h => Gauss.gaussian_outside hm hx na nr r0 r1 a1 p0 p1 nx h hx1) (fun h => Gauss.gaussian_outside hm hx na nr r0 r1 a1 p0 p1 ny h hy1)
  show ((GaussianFilter.new radius alpha).gaussian x *. (GaussianFilter.new radius alpha).gaussian y).val ≤ _
  generalize (GaussianFilter.new radius alpha).gaussian x = u at *
  generalize (GaussianFilter.new radius alpha).gaussian y = w at *
  have l : 0 ≤ u.val * w.val := mul_nonneg u0 w0
  have h : u.val * w.val ≤ 1 / 2 ^ 15 := by
    rcases key with k | k
    · calc u.val * w.val ≤ 1 / 2 ^ 15 * 1 := mul_le_mul k w1 w0 (by norm_num)
        _ = 1 / 2 ^ 15 := mul_one _
    · calc u.val * w.val ≤ 1 * (1 / 2 ^ 15) := mul_le_mul u1 k w0 (by norm_num)
        _ = 1 / 2 ^ 15 := one_mul _
  obtain ⟨z, e⟩ := mul_val n1 n2
  have hr : Fl.Repr Binary32 ((1 : ℚ) / 2 ^ 15) := by
    have := NoPanic.zpow_repr (k := -15) (by norm_num) (by norm_num)
    norm_num at this ⊢
    exact this
  have := ofVal_between repr_zero hr l h z
  rw [e]; exact this.2.2

/-! A math library that meets the assumptions: the exponential is computed to 60 binary places, then rounded. -/

/-- The exponential, rounded down to 60 places and then to a float. -/
noncomputable def Demo.fineExp (x : F32) : F32 :=
  match x with
  | .nan => .nan
  | .inf _ => .inf false
  | .fin s m => ofVal (⌊Real.exp ((Fl.fin s m : F32).val : ℝ) * 2 ^ 60⌋ / 2 ^ 60 : ℚ) false

@[reducible] noncomputable def Demo.gaussLibm : Libm F32 := { Demo.fineLibm with exp := Demo.fineExp }

theorem Demo.floor_exp {v : ℚ} (h : v ≤ 0) : (0 : ℚ) ≤ (⌊Real.exp (v : ℝ) * 2 ^ 60⌋ : ℚ) / 2 ^ 60 ∧ (⌊Real.exp (v : ℝ) * 2 ^ 60⌋ : ℚ) / 2 ^ 60 ≤ 1 := by
  have x0 := Real.exp_pos (v : ℝ)
  have x1 : Real.exp (v : ℝ) ≤ 1 := Real.exp_le_one_iff.2 (by exact_mod_cast h)
  have f1 := Int.floor_le (Real.exp (v : ℝ) * 2 ^ 60)
  have f0 : (0 : ℤ) ≤ ⌊Real.exp (v : ℝ) * 2 ^ 60⌋ := Int.floor_nonneg.2 (by positivity)
  generalize ⌊Real.exp (v : ℝ) * 2 ^ 60⌋ = N at *
  refine ⟨div_nonneg (by exact_mod_cast f0) (by positivity), ?_⟩
  have : ((N : ℝ) / 2 ^ 60) ≤ 1 := by rw [div_le_iff₀ (by positivity)]; linarith
  have : (((N : ℚ) / 2 ^ 60 : ℚ) : ℝ) ≤ ((1 : ℚ) : ℝ) := by push_cast; exact this
  exact_mod_cast this

theorem Demo.exp_monotone : @Spec.ExpMonotone Demo.gaussLibm := by
  refine @Spec.ExpMonotone.mk Demo.gaussLibm ?_ ?_
  · intro x nx h
    obtain ⟨s, m, rfl⟩ := IsFin_iff.1 nx.fin
    show Num (Demo.fineExp (.fin s m)) ∧ 0 ≤ (Demo.fineExp (.fin s m)).val ∧ (Demo.fineExp (.fin s m)).val ≤ 1
    unfold Demo.fineExp
    dsimp only
    obtain ⟨q0, q1⟩ := Demo.floor_exp h
    have b := ofVal_between repr_zero repr_one q0 q1 false
    exact ⟨ofVal_ok (by rw [abs_of_nonneg q0]; exact q1.trans (by norm_num)) false, b.2.1, b.2.2⟩
  · intro x y nx ny h hy
    obtain ⟨s, m, rfl⟩ := IsFin_iff.1 nx.fin
    obtain ⟨t, k, rfl⟩ := IsFin_iff.1 ny.fin
    show (Demo.fineExp (.fin s m)).val ≤ (Demo.fineExp (.fin t k)).val
    unfold Demo.fineExp
    dsimp only
    obtain ⟨q0, q1⟩ := Demo.floor_exp (h.trans hy)
    obtain ⟨r0, r1⟩ := Demo.floor_exp hy
    have n1 := ofVal_ok (x := (⌊Real.exp ((Fl.fin s m : F32).val : ℝ) * 2 ^ 60⌋ : ℚ) / 2 ^ 60) (by rw [abs_of_nonneg q0]; exact q1.trans (by norm_num)) false
    have n2 := ofVal_ok (x := (⌊Real.exp ((Fl.fin t k : F32).val : ℝ) * 2 ^ 60⌋ : ℚ) / 2 ^ 60) (by rw [abs_of_nonneg r0]; exact r1.trans (by norm_num)) false
    refine (le_ok n1 n2).1 (ofVal_mono ?_ _ _)
    refine div_le_div_of_nonneg_right ?_ (by positivity)
    have h' : (((Fl.fin s m : F32).val : ℚ) : ℝ) ≤ ((Fl.fin t k : F32).val : ℚ) := by exact_mod_cast h
    have : ⌊Real.exp ((Fl.fin s m : F32).val : ℝ) * 2 ^ 60⌋ ≤ ⌊Real.exp ((Fl.fin t k : F32).val : ℝ) * 2 ^ 60⌋ :=
      Int.floor_le_floor (mul_le_mul_of_nonneg_right (Real.exp_le_exp.2 h') (by positivity))
    exact_mod_cast this

theorem Demo.exp_accurate : @Spec.ExpAccurate Demo.gaussLibm := by
  intro x nx h9 h
  obtain ⟨s, m, rfl⟩ := IsFin_iff.1 nx.fin
  show Num (Demo.fineExp (.fin s m)) ∧ |((Demo.fineExp (.fin s m)).val : ℝ) - _| ≤ _
  unfold Demo.fineExp
  dsimp only
  obtain ⟨q0, q1⟩ := Demo.floor_exp h
  generalize (Fl.fin s m : F32).val = v at *
  have x0 : (1 : ℝ) / 2 ^ 20 ≤ Real.exp (v : ℝ) := by
    have h1 : Real.exp (-9) ≤ Real.exp (v : ℝ) := Real.exp_le_exp.2 (by exact_mod_cast h9)
    refine le_trans ?_ h1
    have e9 : Real.exp 9 = Real.exp 1 ^ 9 := by rw [← Real.exp_nat_mul]; norm_num
    have h2 : Real.exp 9 ≤ 2 ^ 20 := by
      rw [e9]
      have := Real.exp_one_lt_d9
      calc Real.exp 1 ^ 9 ≤ 2.7182818286 ^ 9 := pow_le_pow_left₀ (Real.exp_pos 1).le this.le 9
        _ ≤ 2 ^ 20 := by norm_num
    rw [Real.exp_neg, one_div]
    exact inv_anti₀ (Real.exp_pos 9) h2
  have f1 := Int.floor_le (Real.exp (v : ℝ) * 2 ^ 60)
  have f2 := Int.lt_floor_add_one (Real.exp (v : ℝ) * 2 ^ 60)
  generalize Real.exp (v : ℝ) = X at *
  generalize ⌊X * 2 ^ 60⌋ = N at *
  have n := ofVal_ok (x := (N : ℚ) / 2 ^ 60) (by rw [abs_of_nonneg q0]; exact q1.trans (by norm_num)) false
  have e := ofVal_err (x := (N : ℚ) / 2 ^ 60) (zs := false) n.fin
  refine ⟨n, ?_⟩
  rw [abs_of_nonneg q0] at e
  have := (Rat.cast_le (K := ℝ)).2 e
  simp only [ulpHalf, tinyHalf] at this
  push_cast at this
  obtain ⟨a1, a2⟩ := abs_le.1 this
  have b1 : (N : ℝ) / 2 ^ 60 ≤ X := by rw [div_le_iff₀ (by positivity)]; exact f1
  have b2 : X - 1 / 2 ^ 60 ≤ (N : ℝ) / 2 ^ 60 := by rw [le_div_iff₀ (by positivity), sub_mul]; norm_num at f2 ⊢; linarith
  generalize (N : ℝ) / 2 ^ 60 = Q at *
  generalize ((ofVal ((N : ℚ) / 2 ^ 60) false : F32).val : ℝ) = V at *
  rw [abs_le]; constructor <;> (norm_num at a1 a2 b2 x0 ⊢; linarith)

theorem Gauss.two_num : Num (lit 2 : F32) ∧ (lit 2 : F32).val = 2 := by
  obtain ⟨f, v⟩ := ofInt_exact (n := 2) (by norm_num)
  exact ⟨⟨lit_WF 2, f⟩, by rw [show (lit 2 : F32) = ofInt 2 from by simp [ofInt], v]; norm_num⟩

/-- The filter of the example program with that library. -/
noncomputable def Demo.gauss2 : Filter F32 := @Hello.filter F32 _ Demo.gaussLibm

/-- C14, a case: the filter of the example program (radius 2, alpha 2), at two points on one line through the centre. -/
example : (Demo.gauss2.evaluate ⟨lit 2, lit 0⟩).val ≤ (Demo.gauss2.evaluate ⟨lit 0, lit 0⟩).val := by
  let := Demo.gaussLibm
  obtain ⟨n2, v2⟩ := Gauss.two_num
  obtain ⟨n0, v0⟩ := Gauss.zero_num
  exact (c14_f32 Demo.exp_monotone (lit 2) (lit 2) n2 n2 (by rw [v2]; norm_num) (by rw [v2]; norm_num) (by rw [v2]; norm_num) (by rw [v2]; norm_num)).2.2
    (lit 0) (lit 2) (lit 0) (lit 0) n0 n2 n0 n0 (by rw [v0, v2]; norm_num) le_rfl (by rw [v2]; norm_num) (by rw [v0]; norm_num)

/-- C14, the table: the film of the example program. -/
example : Spec.PositiveFilter (@Hello.film F32 _ Demo.gaussLibm) := by
  let := Demo.gaussLibm
  obtain ⟨n2, v2⟩ := Gauss.two_num
  exact c14_table_f32 Demo.exp_accurate (lit 2) (lit 2) n2 n2 (by rw [v2]; norm_num) (by rw [v2]; norm_num) (by rw [v2]; norm_num) (by rw [v2]; norm_num)
    (by rw [v2]; norm_num) _

/-- C14, outside: on the border of the filter of the example program. -/
example : (Demo.gauss2.evaluate ⟨lit 2, lit 0⟩).val ≤ 1 / 2 ^ 15 := by
  let := Demo.gaussLibm
  obtain ⟨n2, v2⟩ := Gauss.two_num
  obtain ⟨n0, v0⟩ := Gauss.zero_num
  exact c14_outside_f32_partial Demo.exp_monotone Demo.exp_accurate (lit 2) (lit 2) n2 n2 (by rw [v2]; norm_num) (by rw [v2]; norm_num) (by rw [v2]; norm_num)
    (by rw [v2]; norm_num) (by rw [v2]; norm_num) (lit 2) (lit 0) n2 n0 (by rw [v2]; norm_num) (by rw [v0]; norm_num) (Or.inl (by rw [v2]; norm_num))

end PT
