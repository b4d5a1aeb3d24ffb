import Verif.Lemmas.FlOk
import Verif.Lemmas.Triangle
import Verif.Props.ShapeContract
import Verif.Props.ErrorBounds

/-!
# Meshes without gaps: C91
-/

namespace PT
open Fl Triangle

namespace Spec

/-- A point as the ray sees it, with the rounded operations of the machine: the origin of the ray is moved to zero, the longest axis `m` of
the direction becomes the last one, the point is moved along the ray to the plane of the two other axes, and the last coordinate is its
distance in units of the direction.  It depends on the ray and the point only, not on the triangle. -/
def seen (ray : Ray F32) (m : Axis) (p : V3 F32) : V3 F32 :=
  let d := ray.direction
  let q := p.add ray.origin.neg
  ⟨q.get m.prev +. q.get m *. (⊖(d.get m.prev) /. d.get m), q.get m.next +. q.get m *. (⊖(d.get m.next) /. d.get m), q.get m *. (lit 1 /. d.get m)⟩

/-- Exact turn around the ray from `a` to `b` (twice the signed area of the triangle of zero, `a` and `b`). -/
def turn (a b : V3 F32) : ℚ := a.x.val * b.y.val - a.y.val * b.x.val

/-- The ray goes through the triangle `a b c`, its edges and corners included. -/
def Through (a b c : V3 F32) : Prop :=
  (0 ≤ turn a b ∧ 0 ≤ turn b c ∧ 0 ≤ turn c a) ∨ (turn a b ≤ 0 ∧ turn b c ≤ 0 ∧ turn c a ≤ 0)

/-- A triangle, as seen from the ray, that is neither too thin nor too close to be told from nothing in single precision. `X` and `Y` bound
its coordinates, `Z` and `Z'` its distance from below and from above.  -/
structure Plain (X Y Z Z' : ℚ) (a b c : V3 F32) : Prop where
  number : ∀ p ∈ [a, b, c], Num p.x ∧ Num p.y ∧ Num p.z
  wide : ∀ p ∈ [a, b, c], |p.x.val| ≤ X ∧ |p.y.val| ≤ Y
  deep : ∀ p ∈ [a, b, c], Z ≤ p.z.val ∧ p.z.val ≤ Z'
  range : X ≤ 2 ^ 30 ∧ Y ≤ 2 ^ 30 ∧ 1 / 2 ^ 60 ≤ Z ∧ Z' ≤ 2 ^ 60 ∧ 1 / 2 ^ 60 ≤ |turn a b + turn b c + turn c a|
  fat : Z' * (X * Y + |turn a b + turn b c + turn c a|) ≤ 2 ^ 17 * Z * |turn a b + turn b c + turn c a|

end Spec
open Spec

/-! ## The computation with its errors -/

/-- One edge function. -/
theorem edge_core {x y x' y' p q e W : ℚ} (h1 : |x * y'| ≤ W) (h2 : |y * x'| ≤ W) (hp : |p - x * y'| ≤ |x * y'| * ulpHalf + tinyHalf)
    (hq : |q - y * x'| ≤ |y * x'| * ulpHalf + tinyHalf) (he : |e - (p - q)| ≤ |p - q| * ulpHalf) :
    |e - (x * y' - y * x')| ≤ 4001 / 1000 * ulpHalf * W + 3 * tinyHalf := by
  have hW : 0 ≤ W := (abs_nonneg _).trans h1
  have k : |p - q| ≤ 2 * W + 2 * (W * ulpHalf + tinyHalf) := by
    have a1 : |p| ≤ W + (W * ulpHalf + tinyHalf) := by
      have := abs_sub_abs_le_abs_sub p (x * y')
      have : |x * y'| * ulpHalf ≤ W * ulpHalf := by gcongr
      linarith
    have a2 : |q| ≤ W + (W * ulpHalf + tinyHalf) := by
      have := abs_sub_abs_le_abs_sub q (y * x')
      have : |y * x'| * ulpHalf ≤ W * ulpHalf := by gcongr
      linarith
    have := abs_sub p q
    linarith
  have e1 : |e - (x * y' - y * x')| ≤ |e - (p - q)| + |p - x * y'| + |q - y * x'| := by
    rw [show e - (x * y' - y * x') = (e - (p - q)) + (p - x * y') - (q - y * x') by ring]
    exact (abs_sub _ _).trans (add_le_add_left (abs_add_le _ _) _)
  have g1 : |x * y'| * ulpHalf ≤ W * ulpHalf := by gcongr
  have g2 : |y * x'| * ulpHalf ≤ W * ulpHalf := by gcongr
  have g3 : |p - q| * ulpHalf ≤ (2 * W + 2 * (W * ulpHalf + tinyHalf)) * ulpHalf := by gcongr
  simp only [ulpHalf, tinyHalf] at *
  linarith

/-- Determinant. -/
theorem det_ok {e0 e1 e2 d1 det E0 E1 E2 W : ℚ} (h0 : 0 ≤ e0) (h1 : 0 ≤ e1) (h2 : 0 ≤ e2)
    (k0 : |e0 - E0| ≤ 4001 / 1000 * ulpHalf * W + 3 * tinyHalf) (k1 : |e1 - E1| ≤ 4001 / 1000 * ulpHalf * W + 3 * tinyHalf)
    (k2 : |e2 - E2| ≤ 4001 / 1000 * ulpHalf * W + 3 * tinyHalf) (hW : W ≤ 2 ^ 17 * (E0 + E1 + E2)) (hD : 1 / 2 ^ 60 ≤ E0 + E1 + E2)
    (hd1 : |d1 - (e0 + e1)| ≤ |e0 + e1| * ulpHalf) (hdet : |det - (d1 + e2)| ≤ |d1 + e2| * ulpHalf) :
    9 / 10 * (E0 + E1 + E2) ≤ e0 + e1 + e2 ∧ e0 + e1 + e2 ≤ 11 / 10 * (E0 + E1 + E2) ∧
    (e0 + e1 + e2) * (999 / 1000) ≤ det ∧ det ≤ (e0 + e1 + e2) * (1001 / 1000) := by
  rw [abs_le] at k0 k1 k2
  rw [abs_of_nonneg (by linarith : 0 ≤ e0 + e1), abs_le] at hd1
  have : 0 ≤ d1 := by simp only [ulpHalf] at hd1; linarith
  rw [abs_of_nonneg (by linarith : 0 ≤ d1 + e2), abs_le] at hdet
  simp only [ulpHalf, tinyHalf] at *
  refine ⟨?_, ?_, ?_, ?_⟩ <;> linarith

/-- Scaled distance. -/
theorem scaled_ok {z0 z1 z2 e0 e1 e2 p0 p1 p2 s ts Z Z' D : ℚ} (h0 : 0 ≤ e0) (h1 : 0 ≤ e1) (h2 : 0 ≤ e2)
    (a0 : Z ≤ z0) (a1 : Z ≤ z1) (a2 : Z ≤ z2) (b0 : z0 ≤ Z') (b1 : z1 ≤ Z') (b2 : z2 ≤ Z') (hZ : 1 / 2 ^ 60 ≤ Z)
    (hD : 1 / 2 ^ 60 ≤ D) (hl : 9 / 10 * D ≤ e0 + e1 + e2) (hu : e0 + e1 + e2 ≤ 11 / 10 * D)
    (k0 : |p0 - z0 * e0| ≤ |z0 * e0| * ulpHalf + tinyHalf) (k1 : |p1 - z1 * e1| ≤ |z1 * e1| * ulpHalf + tinyHalf)
    (k2 : |p2 - z2 * e2| ≤ |z2 * e2| * ulpHalf + tinyHalf) (hs : |s - (p0 + p1)| ≤ |p0 + p1| * ulpHalf)
    (hts : |ts - (s + p2)| ≤ |s + p2| * ulpHalf) :
    89 / 100 * (Z * D) ≤ ts ∧ ts ≤ 101 / 100 * (Z' * (e0 + e1 + e2)) := by
  have hZ0 : 0 < Z := lt_of_lt_of_le (by norm_num) hZ
  have hZ' : Z ≤ Z' := a0.trans b0
  have n0 : 0 ≤ z0 * e0 := mul_nonneg (by linarith) h0
  have n1 : 0 ≤ z1 * e1 := mul_nonneg (by linarith) h1
  have n2 : 0 ≤ z2 * e2 := mul_nonneg (by linarith) h2
  have l0 : Z * e0 ≤ z0 * e0 := by gcongr
  have l1 : Z * e1 ≤ z1 * e1 := by gcongr
  have l2 : Z * e2 ≤ z2 * e2 := by gcongr
  have u0 : z0 * e0 ≤ Z' * e0 := by gcongr
  have u1 : z1 * e1 ≤ Z' * e1 := by gcongr
  have u2 : z2 * e2 ≤ Z' * e2 := by gcongr
  have hZD : 1 / 2 ^ 120 ≤ Z * D := by
    have : (1 / 2 ^ 60 : ℚ) * (1 / 2 ^ 60) ≤ Z * D := by gcongr
    linarith
  have hZS : Z * (9 / 10 * D) ≤ Z * (e0 + e1 + e2) := by gcongr
  have hZ'S : Z * (e0 + e1 + e2) ≤ Z' * (e0 + e1 + e2) := by gcongr
  rw [abs_of_nonneg n0, abs_le] at k0
  rw [abs_of_nonneg n1, abs_le] at k1
  rw [abs_of_nonneg n2, abs_le] at k2
  have q01 : |p0 + p1| ≤ (z0 * e0 + z1 * e1) * (1 + ulpHalf) + 2 * tinyHalf := by
    rw [abs_le]; simp only [ulpHalf, tinyHalf] at *; constructor <;> linarith
  have hs' : |p0 + p1| * ulpHalf ≤ ((z0 * e0 + z1 * e1) * (1 + ulpHalf) + 2 * tinyHalf) * ulpHalf := by gcongr
  have hs'' := abs_le.1 (hs.trans hs')
  have q2 : |s + p2| ≤ (z0 * e0 + z1 * e1 + z2 * e2) * (1 + 3 * ulpHalf) + 4 * tinyHalf := by
    rw [abs_le]; simp only [ulpHalf, tinyHalf] at *; constructor <;> linarith
  have ht' : |s + p2| * ulpHalf ≤ ((z0 * e0 + z1 * e1 + z2 * e2) * (1 + 3 * ulpHalf) + 4 * tinyHalf) * ulpHalf := by gcongr
  have ht'' := abs_le.1 (hts.trans ht')
  rw [mul_add, mul_add] at hZS hZ'S ⊢
  simp only [ulpHalf, tinyHalf] at *
  constructor
  · linarith
  · linarith

/-- An upper bound of a product of numbers that are not negative. -/
theorem up_mul {a b r A B : ℚ} (ha : 0 ≤ a) (hb : 0 ≤ b) (hA : a ≤ A) (hB : b ≤ B) (h : |r - a * b| ≤ |a * b| * ulpHalf + tinyHalf) :
    r ≤ A * B * (1 + ulpHalf) + tinyHalf := by
  have k : a * b ≤ A * B := mul_le_mul hA hB hb (ha.trans hA)
  have := mul_nonneg ha hb
  rw [abs_of_nonneg this, abs_le] at h
  simp only [ulpHalf, tinyHalf] at *
  linarith

theorem up_add {a b r A B : ℚ} (ha : 0 ≤ a) (hb : 0 ≤ b) (hA : a ≤ A) (hB : b ≤ B) (h : |r - (a + b)| ≤ |a + b| * ulpHalf) :
    r ≤ (A + B) * (1 + ulpHalf) := by
  rw [abs_of_nonneg (add_nonneg ha hb), abs_le] at h
  simp only [ulpHalf] at *
  linarith

/-- A number that is not negative and at most `A`. -/
structure Upto (x : F32) (A : ℚ) : Prop where
  num : Num x
  nonneg : 0 ≤ x.val
  le : x.val ≤ A

theorem Upto.mono {x : F32} {A B : ℚ} (h : Upto x A) (k : A ≤ B) : Upto x B := ⟨h.num, h.nonneg, h.le.trans k⟩

theorem Upto.mul {x y : F32} {A B : ℚ} (hx : Upto x A) (hy : Upto y B) (h : A * B ≤ 2 ^ 126) :
    Upto (x *. y) (A * B * (1 + ulpHalf) + tinyHalf) := by
  have k : x.val * y.val ≤ A * B := mul_le_mul hx.le hy.le hy.nonneg (hx.nonneg.trans hx.le)
  have n := mul_nonneg hx.nonneg hy.nonneg
  have g := mul_ok hx.num hy.num (by rw [abs_of_nonneg n]; linarith)
  refine ⟨g.1, ?_, up_mul hx.nonneg hy.nonneg hx.le hy.le g.2⟩
  obtain ⟨zs, e⟩ := mul_val hx.num hy.num
  rw [e]
  exact (ofVal_between (φ := Binary32) (by simpa using repr_int (n := 0) (by norm_num)) big_repr n (k.trans h) zs).2.1

theorem Upto.add {x y : F32} {A B : ℚ} (hx : Upto x A) (hy : Upto y B) (h : A + B ≤ 2 ^ 126) : Upto (x +. y) ((A + B) * (1 + ulpHalf)) := by
  have n := add_nonneg hx.nonneg hy.nonneg
  have g := add_ok hx.num hy.num (by rw [abs_of_nonneg n]; linarith [hx.le, hy.le])
  refine ⟨g.1, ?_, up_add hx.nonneg hy.nonneg hx.le hy.le g.2⟩
  have g2 := g.2
  rw [abs_of_nonneg n, abs_le] at g2
  simp only [ulpHalf] at g2
  linarith [g2.1]

theorem Upto.max3 {x y z : F32} {A : ℚ} (hx : Num x) (hy : Num y) (hz : Num z) (ax : |x.val| ≤ A) (ay : |y.val| ≤ A) (az : |z.val| ≤ A) :
    Upto (V3.mk x y z).abs.maxComponent A := by
  unfold V3.abs V3.maxComponent
  obtain ⟨nx, vx⟩ := abs_ok hx
  obtain ⟨ny, vy⟩ := abs_ok hy
  obtain ⟨nz, vz⟩ := abs_ok hz
  obtain ⟨n1, v1⟩ := max_ok nx ny
  obtain ⟨n2, v2⟩ := max_ok n1 nz
  refine ⟨n2, ?_, ?_⟩
  · change 0 ≤ (Scalar.fmax _ _ : F32).val
    rw [v2, vz]; exact le_max_of_le_right (abs_nonneg _)
  · change (Scalar.fmax _ _ : F32).val ≤ A
    rw [v2, v1, vx, vy, vz]; exact max_le (max_le ax ay) az

theorem gamma_ok : Upto (gamma (lit 2)) (2001 / 1000 * ulpHalf) ∧ Upto (gamma (lit 3)) (3001 / 1000 * ulpHalf) ∧
    Upto (gamma (lit 5)) (5001 / 1000 * ulpHalf) := by
  have g2 : (gamma (lit 2) : F32) = fin false (134217744 / 2 ^ 50) := by decide +kernel
  have g3 : (gamma (lit 3) : F32) = fin false (201326624 / 2 ^ 50) := by decide +kernel
  have g5 : (gamma (lit 5) : F32) = fin false (335544416 / 2 ^ 50) := by decide +kernel
  have w2 : (gamma (lit 2) : F32).WF := by rw [g2]; exact ⟨by norm_num, by decide +kernel⟩
  have w3 : (gamma (lit 3) : F32).WF := by rw [g3]; exact ⟨by norm_num, by decide +kernel⟩
  have w5 : (gamma (lit 5) : F32).WF := by rw [g5]; exact ⟨by norm_num, by decide +kernel⟩
  refine ⟨⟨⟨w2, by rw [g2]; trivial⟩, ?_, ?_⟩, ⟨⟨w3, by rw [g3]; trivial⟩, ?_, ?_⟩, ⟨⟨w5, by rw [g5]; trivial⟩, ?_, ?_⟩⟩ <;>
    (first | rw [g2] | rw [g3] | rw [g5]) <;> simp only [val, sgn, ulpHalf] <;> norm_num

/-- The numerator of the error threshold on the distance. -/
theorem threshold_ok {mx my mz me : F32} {X Y Z' S : ℚ} (hx : Upto mx X) (hy : Upto my Y) (hz : Upto mz Z') (he : Upto me S)
    (rX : X ≤ 2 ^ 30) (rY : Y ≤ 2 ^ 30) (rZ : Z' ≤ 2 ^ 60) (rS : S ≤ 2 ^ 63) :
    Upto (lit 3 *. (gamma (lit 3) *. me *. mz +. mz *. ((gamma (lit 2) *. mx *. my +. mx *. (my *. gamma (lit 5)) +. my *. (mx *. gamma (lit 5))) *. lit 2)
      +. me *. (mz *. gamma (lit 3))))
      (19 * ulpHalf * (S * Z') + 73 * ulpHalf * (X * Y * Z') + 1 / 2 ^ 109 * Z' + 1 / 2 ^ 146 * S + 1 / 2 ^ 146) := by
  obtain ⟨g2, g3, g5⟩ := gamma_ok
  have X0 : 0 ≤ X := hx.nonneg.trans hx.le
  have Y0 : 0 ≤ Y := hy.nonneg.trans hy.le
  have Z0 : 0 ≤ Z' := hz.nonneg.trans hz.le
  have S0 : 0 ≤ S := he.nonneg.trans he.le
  have XY0 := mul_nonneg X0 Y0
  have SZ0 := mul_nonneg S0 Z0
  have XYZ0 := mul_nonneg XY0 Z0
  have XY : X * Y ≤ 2 ^ 60 := by
    have : X * Y ≤ 2 ^ 30 * 2 ^ 30 := by gcongr
    linarith
  have XYZ : X * Y * Z' ≤ 2 ^ 120 := by
    have : X * Y * Z' ≤ 2 ^ 60 * 2 ^ 60 := by gcongr
    linarith
  have SZ : S * Z' ≤ 2 ^ 123 := by
    have : S * Z' ≤ 2 ^ 63 * 2 ^ 60 := by gcongr
    linarith
  have two : Upto (lit 2) 2 := ⟨lit_ok (by norm_num), by rw [show (lit 2 : F32) = fin false 2 by decide +kernel]; norm_num [val, sgn], by rw [show (lit 2 : F32) = fin false 2 by decide +kernel]; norm_num [val, sgn]⟩
  have three : Upto (lit 3) 3 := ⟨lit_ok (by norm_num), by rw [show (lit 3 : F32) = fin false 3 by decide +kernel]; norm_num [val, sgn], by rw [show (lit 3 : F32) = fin false 3 by decide +kernel]; norm_num [val, sgn]⟩
  simp only [ulpHalf, tinyHalf] at *
  have a1 : Upto (my *. gamma (lit 5)) (5002 / 1000 / 2 ^ 24 * Y + 1 / 2 ^ 150) := (hy.mul g5 (by linarith)).mono (by simp only [ulpHalf, tinyHalf]; linarith)
  have a2 : Upto (mx *. gamma (lit 5)) (5002 / 1000 / 2 ^ 24 * X + 1 / 2 ^ 150) := (hx.mul g5 (by linarith)).mono (by simp only [ulpHalf, tinyHalf]; linarith)
  have a3 : Upto (gamma (lit 2) *. mx) (2002 / 1000 / 2 ^ 24 * X + 1 / 2 ^ 150) := (g2.mul hx (by linarith)).mono (by simp only [ulpHalf, tinyHalf]; linarith)
  have a4 : Upto (gamma (lit 2) *. mx *. my) (2003 / 1000 / 2 ^ 24 * (X * Y) + 1 / 2 ^ 118) := (a3.mul hy (by rw [add_mul]; linarith)).mono (by simp only [ulpHalf, tinyHalf]; linarith)
  have a5 : Upto (mx *. (my *. gamma (lit 5))) (5003 / 1000 / 2 ^ 24 * (X * Y) + 1 / 2 ^ 118) := (hx.mul a1 (by linarith)).mono (by simp only [ulpHalf, tinyHalf]; linarith)
  have a6 : Upto (my *. (mx *. gamma (lit 5))) (5003 / 1000 / 2 ^ 24 * (X * Y) + 1 / 2 ^ 118) := (hy.mul a2 (by linarith)).mono (by simp only [ulpHalf, tinyHalf]; linarith)
  have a7 := (a4.add a5 (by linarith)).add a6 (by simp only [ulpHalf]; linarith)
  have a8 : Upto (((gamma (lit 2) *. mx *. my +. mx *. (my *. gamma (lit 5)) +. my *. (mx *. gamma (lit 5))) *. lit 2)) (2403 / 100 / 2 ^ 24 * (X * Y) + 1 / 2 ^ 113) :=
    (a7.mul two (by simp only [ulpHalf]; linarith)).mono (by simp only [ulpHalf, tinyHalf]; linarith)
  have b1 : Upto (gamma (lit 3) *. me) (3002 / 1000 / 2 ^ 24 * S + 1 / 2 ^ 150) := (g3.mul he (by linarith)).mono (by simp only [ulpHalf, tinyHalf]; linarith)
  have b2 : Upto (gamma (lit 3) *. me *. mz) (3003 / 1000 / 2 ^ 24 * (S * Z') + 2 / 2 ^ 150 * Z' + 1 / 2 ^ 150) :=
    (b1.mul hz (by rw [add_mul]; linarith)).mono (by simp only [ulpHalf, tinyHalf]; linarith)
  have b3 : Upto (mz *. gamma (lit 3)) (3002 / 1000 / 2 ^ 24 * Z' + 1 / 2 ^ 150) := (hz.mul g3 (by linarith)).mono (by simp only [ulpHalf, tinyHalf]; linarith)
  have b4 : Upto (me *. (mz *. gamma (lit 3))) (3003 / 1000 / 2 ^ 24 * (S * Z') + 2 / 2 ^ 150 * S + 1 / 2 ^ 150) :=
    (he.mul b3 (by rw [mul_add]; linarith)).mono (by simp only [ulpHalf, tinyHalf]; linarith)
  have b5 : Upto (mz *. ((gamma (lit 2) *. mx *. my +. mx *. (my *. gamma (lit 5)) +. my *. (mx *. gamma (lit 5))) *. lit 2))
      (2404 / 100 / 2 ^ 24 * (X * Y * Z') + 1 / 2 ^ 112 * Z' + 1 / 2 ^ 150) :=
    (hz.mul a8 (by rw [mul_add]; linarith)).mono (by simp only [ulpHalf, tinyHalf]; linarith)
  have c1 := (b2.add b5 (by linarith)).add b4 (by simp only [ulpHalf]; linarith)
  exact (three.mul c1 (by simp only [ulpHalf]; linarith)).mono (by simp only [ulpHalf, tinyHalf]; linarith)

/-- The distance exceeds its error threshold. -/
theorem distance_ok {ts det num t dt Z Z' S D W : ℚ} (hZ : 1 / 2 ^ 60 ≤ Z) (hD : 1 / 2 ^ 60 ≤ D) (hW : 0 ≤ W) (hZZ : Z ≤ Z')
    (fat : Z' * (W + D) ≤ 2 ^ 17 * Z * D)
    (hl : 9 / 10 * D ≤ S) (hu : S ≤ 11 / 10 * D) (dl : S * (999 / 1000) ≤ det) (du : det ≤ S * (1001 / 1000))
    (tl : 89 / 100 * (Z * D) ≤ ts) (tu : ts ≤ 101 / 100 * (Z' * S)) (n0 : 0 ≤ num)
    (nu : num ≤ 19 * ulpHalf * (S * Z') + 73 * ulpHalf * (W * Z') + 1 / 2 ^ 109 * Z' + 1 / 2 ^ 146 * S + 1 / 2 ^ 146)
    (ht : |t - ts / det| ≤ |ts / det| * ulpHalf + tinyHalf) (hdt : |dt - num / det| ≤ |num / det| * ulpHalf + tinyHalf) : dt < t := by
  have D0 : 0 < D := lt_of_lt_of_le (by norm_num) hD
  have Z0 : 0 < Z := lt_of_lt_of_le (by norm_num) hZ
  have S0 : 0 < S := lt_of_lt_of_le (by linarith) hl
  have d0 : 0 < det := lt_of_lt_of_le (by linarith) dl
  have ZD0 : 0 < Z * D := mul_pos Z0 D0
  have Z'0 : 0 < Z' := lt_of_lt_of_le Z0 hZZ
  have t0 : 0 ≤ ts := le_trans (by linarith) tl
  -- everything in units of `Z * D`
  have k1 : S * Z' ≤ 11 / 10 * (D * Z') := by
    have : S * Z' ≤ 11 / 10 * D * Z' := by gcongr
    linarith
  have k2 : Z' * W + Z' * D ≤ 2 ^ 17 * (Z * D) := by linarith
  have WZ0 : 0 ≤ Z' * W := by positivity
  have DZ0 : 0 ≤ Z' * D := by positivity
  have k3 : 1 / 2 ^ 60 * Z' ≤ D * Z' := by gcongr
  have k4 : D * (1 / 2 ^ 60) ≤ Z * D := by rw [mul_comm]; gcongr
  have k5 : 1 / 2 ^ 120 ≤ Z * D := by
    have : (1 / 2 ^ 60 : ℚ) * (1 / 2 ^ 60) ≤ Z * D := by gcongr
    linarith
  have nb : num ≤ 6 / 10 * (Z * D) := by
    simp only [ulpHalf] at nu
    linarith
  have tb : ts ≤ 2 ^ 18 * (Z * D) := by linarith
  have db : det ≤ 12 / 10 * D := by linarith
  -- compare the quotients
  rw [abs_of_nonneg (div_nonneg t0 d0.le), abs_le] at ht
  rw [abs_of_nonneg (div_nonneg n0 d0.le), abs_le] at hdt
  have q1 : ts / det - num / det = (ts - num) / det := by ring
  have q2 : Z * (2 / 10) ≤ (ts * (1 - ulpHalf) - num * (1 + ulpHalf)) / det := by
    rw [le_div_iff₀ d0]
    have : Z * (2 / 10) * det ≤ Z * (2 / 10) * (12 / 10 * D) := by gcongr
    simp only [ulpHalf]
    linarith
  have q3 : (ts * (1 - ulpHalf) - num * (1 + ulpHalf)) / det = ts / det * (1 - ulpHalf) - num / det * (1 + ulpHalf) := by ring
  rw [q3] at q2
  simp only [ulpHalf, tinyHalf] at *
  linarith [ht.1, hdt.2]

/-- One edge function of the test. -/
theorem edge_ok {a b : V3 F32} {X Y : ℚ} (na : Num a.x ∧ Num a.y) (nb : Num b.x ∧ Num b.y) (ha : |a.x.val| ≤ X ∧ |a.y.val| ≤ Y)
    (hb : |b.x.val| ≤ X ∧ |b.y.val| ≤ Y) (rX : X ≤ 2 ^ 30) (rY : Y ≤ 2 ^ 30) :
    let e := a.x *. b.y -. a.y *. b.x
    Num e ∧ |e.val - turn a b| ≤ 4001 / 1000 * ulpHalf * (X * Y) + 3 * tinyHalf ∧ |e.val| ≤ 2 ^ 61 + 2 ^ 50 ∧
    (0 ≤ turn a b → 0 ≤ e.val) ∧ (turn a b ≤ 0 → e.val ≤ 0) := by
  intro e
  have X0 : 0 ≤ X := (abs_nonneg _).trans ha.1
  have Y0 : 0 ≤ Y := (abs_nonneg _).trans ha.2
  have XY : X * Y ≤ 2 ^ 60 := by
    have : X * Y ≤ 2 ^ 30 * 2 ^ 30 := by gcongr
    linarith
  have h1 : |a.x.val * b.y.val| ≤ X * Y := by rw [abs_mul]; exact mul_le_mul ha.1 hb.2 (abs_nonneg _) X0
  have h2 : |a.y.val * b.x.val| ≤ X * Y := by rw [abs_mul, mul_comm]; exact mul_le_mul hb.1 ha.2 (abs_nonneg _) X0
  obtain ⟨n1, k1⟩ := mul_ok na.1 nb.2 (by linarith)
  obtain ⟨n2, k2⟩ := mul_ok na.2 nb.1 (by linarith)
  have b1 : |(a.x *. b.y).val| ≤ 2 ^ 60 + 2 ^ 40 := by
    have := abs_sub_abs_le_abs_sub (a.x *. b.y).val (a.x.val * b.y.val)
    simp only [ulpHalf, tinyHalf] at k1
    linarith
  have b2 : |(a.y *. b.x).val| ≤ 2 ^ 60 + 2 ^ 40 := by
    have := abs_sub_abs_le_abs_sub (a.y *. b.x).val (a.y.val * b.x.val)
    simp only [ulpHalf, tinyHalf] at k2
    linarith
  have b3 : |(a.x *. b.y).val - (a.y *. b.x).val| ≤ 2 ^ 61 + 2 ^ 41 := by
    have := abs_sub (a.x *. b.y).val (a.y *. b.x).val
    linarith
  obtain ⟨n3, k3⟩ := sub_ok n1 n2 (b3.trans (by norm_num))
  refine ⟨n3, edge_core h1 h2 k1 k2 k3, ?_, cross_sign na.1 nb.2 na.2 nb.1 (by linarith) (by linarith)⟩
  have := abs_sub_abs_le_abs_sub (a.x *. b.y -. a.y *. b.x).val ((a.x *. b.y).val - (a.y *. b.x).val)
  simp only [ulpHalf] at k3
  linarith

theorem flip {sg r x c : ℚ} (hs : sg = 1 ∨ sg = -1) (h : |r - x| ≤ |x| * ulpHalf + c) : |sg * r - sg * x| ≤ |sg * x| * ulpHalf + c := by
  have e : |sg| = 1 := by rcases hs with rfl | rfl <;> norm_num
  rw [← mul_sub, abs_mul, abs_mul, e, one_mul, one_mul]; exact h

theorem flip' {sg r x c : ℚ} (hs : sg = 1 ∨ sg = -1) (h : |r - x| ≤ c) : |sg * r - sg * x| ≤ c := by
  have e : |sg| = 1 := by rcases hs with rfl | rfl <;> norm_num
  rw [← mul_sub, abs_mul, e, one_mul]; exact h

/-- Comparing with a product that may overflow. -/
theorem not_beyond {tm det ts : F32} {Z2 : ℚ} (hd : Num det) (ht : Num ts) (h : tm = Fl.inf false ∨ (Num tm ∧ Z2 ≤ tm.val)) :
    (0 < det.val → ts.val ≤ Z2 * det.val → (tm *. det <. ts) = false) ∧ (det.val < 0 → Z2 * det.val ≤ ts.val → (ts <. tm *. det) = false) := by
  obtain ⟨e1, f1, -⟩ := ofVal_val ht.fin ht.wf false
  rcases h with rfl | ⟨nt, h⟩
  · obtain ⟨s, m, rfl⟩ := IsFin_iff.1 hd.fin
    obtain ⟨s', m', rfl⟩ := IsFin_iff.1 ht.fin
    have m0 := hd.wf.1
    constructor
    · intro h0 _
      have hm : m ≠ 0 := by rintro rfl; cases s <;> simp [val, sgn] at h0
      have hs : s = false := by
        cases s with
        | false => rfl
        | true => simp only [val, sgn, if_true] at h0; linarith
      subst hs
      simp [f_lt, f_mul, mul, hm, lt]
    · intro h0 _
      have hm : m ≠ 0 := by rintro rfl; cases s <;> simp [val, sgn] at h0
      have hs : s = true := by
        cases s with
        | true => rfl
        | false => simp only [val, sgn, Bool.false_eq_true, if_false] at h0; linarith
      subst hs
      simp [f_lt, f_mul, mul, hm, lt]
  · obtain ⟨zs, e⟩ := mul_val nt hd
    constructor
    · intro h0 hle
      have k : ts.val ≤ tm.val * det.val := hle.trans (by gcongr)
      have g := (le_iff.1 (ofVal_mono (φ := Binary32) k false zs)).2.2
      rw [e1] at g
      rw [e, f_lt, ← Bool.not_eq_true, lt_iff]
      rintro ⟨-, -, h'⟩
      exact absurd g (not_le.2 h')
    · intro h0 hle
      have k : tm.val * det.val ≤ ts.val := le_trans (mul_le_mul_of_nonpos_right h h0.le) hle
      have g := (le_iff.1 (ofVal_mono (φ := Binary32) k zs false)).2.2
      rw [e1] at g
      rw [e, f_lt, ← Bool.not_eq_true, lt_iff]
      rintro ⟨-, -, h'⟩
      exact absurd g (not_le.2 h')

set_option maxHeartbeats 1000000 in
/-- The tests of the triangle accept a triangle that the ray goes through. -/
theorem stage_accepts {a b c : V3 F32} {sz tm : F32} {X Y Z Z' : ℚ}
    (hp : Plain X Y Z Z' ⟨a.x, a.y, a.z *. sz⟩ ⟨b.x, b.y, b.z *. sz⟩ ⟨c.x, c.y, c.z *. sz⟩)
    (ht : Through ⟨a.x, a.y, a.z *. sz⟩ ⟨b.x, b.y, b.z *. sz⟩ ⟨c.x, c.y, c.z *. sz⟩)
    (far : tm = Fl.inf false ∨ (Num tm ∧ 51 / 50 * Z' ≤ tm.val)) : (stageOf a b c sz).rejects tm = false := by
  obtain ⟨nx, ny, nz⟩ := hp.number _ (List.mem_cons_self)
  obtain ⟨nx', ny', nz'⟩ := hp.number _ (List.mem_cons_of_mem _ List.mem_cons_self)
  obtain ⟨nx'', ny'', nz''⟩ := hp.number _ (List.mem_cons_of_mem _ (List.mem_cons_of_mem _ List.mem_cons_self))
  have wa := hp.wide _ (List.mem_cons_self)
  have wb := hp.wide _ (List.mem_cons_of_mem _ List.mem_cons_self)
  have wc := hp.wide _ (List.mem_cons_of_mem _ (List.mem_cons_of_mem _ List.mem_cons_self))
  obtain ⟨la, ua⟩ := hp.deep _ (List.mem_cons_self)
  obtain ⟨lb, ub⟩ := hp.deep _ (List.mem_cons_of_mem _ List.mem_cons_self)
  obtain ⟨lc, uc⟩ := hp.deep _ (List.mem_cons_of_mem _ (List.mem_cons_of_mem _ List.mem_cons_self))
  obtain ⟨rX, rY, rZ, rZ', rD⟩ := hp.range
  have fat := hp.fat
  clear hp
  simp only [] at nx ny nz nx' ny' nz' nx'' ny'' nz'' wa wb wc la ua lb ub lc uc
  have X0 : 0 ≤ X := (abs_nonneg _).trans wa.1
  have Y0 : 0 ≤ Y := (abs_nonneg _).trans wa.2
  have XY0 := mul_nonneg X0 Y0
  have eab : turn ⟨a.x, a.y, a.z *. sz⟩ ⟨b.x, b.y, b.z *. sz⟩ = turn a b := rfl
  have ebc : turn ⟨b.x, b.y, b.z *. sz⟩ ⟨c.x, c.y, c.z *. sz⟩ = turn b c := rfl
  have eca : turn ⟨c.x, c.y, c.z *. sz⟩ ⟨a.x, a.y, a.z *. sz⟩ = turn c a := rfl
  unfold Through at ht
  rw [eab, ebc, eca] at ht rD fat
  obtain ⟨m0, k0, B0, p0, q0⟩ := edge_ok ⟨nx', ny'⟩ ⟨nx'', ny''⟩ wb wc rX rY
  obtain ⟨m1, k1, B1, p1, q1⟩ := edge_ok ⟨nx'', ny''⟩ ⟨nx, ny⟩ wc wa rX rY
  obtain ⟨m2, k2, B2, p2, q2⟩ := edge_ok ⟨nx, ny⟩ ⟨nx', ny'⟩ wa wb rX rY
  unfold Stage.rejects stageOf Stage.mixed Stage.out Stage.t Stage.det threshold
  simp only []
  have mxo := Upto.max3 nx nx' nx'' wa.1 wb.1 wc.1
  have myo := Upto.max3 ny ny' ny'' wa.2 wb.2 wc.2
  have hza := abs_of_nonneg (le_trans (le_trans (by norm_num) rZ) la)
  have hzb := abs_of_nonneg (le_trans (le_trans (by norm_num) rZ) lb)
  have hzc := abs_of_nonneg (le_trans (le_trans (by norm_num) rZ) lc)
  have mzo := Upto.max3 (A := Z') nz nz' nz'' (by rwa [hza]) (by rwa [hzb]) (by rwa [hzc])
  generalize b.x *. c.y -. b.y *. c.x = e0 at *
  generalize c.x *. a.y -. c.y *. a.x = e1 at *
  generalize a.x *. b.y -. a.y *. b.x = e2 at *
  generalize (V3.mk a.x b.x c.x).abs.maxComponent = mx at *
  generalize (V3.mk a.y b.y c.y).abs.maxComponent = my at *
  generalize a.z *. sz = za at *
  generalize b.z *. sz = zb at *
  generalize c.z *. sz = zc at *
  generalize (V3.mk za zb zc).abs.maxComponent = mz at *
  generalize turn a b = E2 at *
  generalize turn b c = E0 at *
  generalize turn c a = E1 at *
  -- the sign of the orientation
  obtain ⟨sg, hs, hE, f0, f1, f2, hD⟩ : ∃ sg : ℚ, (sg = 1 ∨ sg = -1) ∧ |E2 + E0 + E1| = sg * E0 + sg * E1 + sg * E2 ∧
      0 ≤ sg * e0.val ∧ 0 ≤ sg * e1.val ∧ 0 ≤ sg * e2.val ∧ True := by
    rcases ht with ⟨t2, t0, t1⟩ | ⟨t2, t0, t1⟩
    · refine ⟨1, Or.inl rfl, ?_, ?_, ?_, ?_, trivial⟩
      · rw [abs_of_nonneg (by linarith)]; ring
      · rw [one_mul]; exact p0 t0
      · rw [one_mul]; exact p1 t1
      · rw [one_mul]; exact p2 t2
    · refine ⟨-1, Or.inr rfl, ?_, ?_, ?_, ?_, trivial⟩
      · rw [abs_of_nonpos (by linarith)]; ring
      · linarith [q0 t0]
      · linarith [q1 t1]
      · linarith [q2 t2]
  rw [hE] at rD fat
  have Z0 : 0 < Z := lt_of_lt_of_le (by norm_num) rZ
  have hZZ : Z ≤ Z' := la.trans ua
  have Z'0 : 0 < Z' := lt_of_lt_of_le Z0 hZZ
  set D := sg * E0 + sg * E1 + sg * E2 with hDdef
  have D0 : 0 < D := lt_of_lt_of_le (by norm_num) rD
  have hW : X * Y ≤ 2 ^ 17 * D := by
    have h1 : Z * (X * Y) ≤ Z' * (X * Y + D) := mul_le_mul hZZ (by linarith) XY0 Z'0.le
    have h2 : Z * (X * Y) ≤ Z * (2 ^ 17 * D) := by linarith
    exact le_of_mul_le_mul_left h2 Z0
  -- determinant
  have s0 : |e0.val + e1.val| ≤ 2 ^ 63 := by have := abs_add_le e0.val e1.val; linarith
  obtain ⟨n3, d1⟩ := add_ok m0 m1 (s0.trans (by norm_num))
  have B3 : |(e0 +. e1).val| ≤ 2 ^ 64 := by
    have := abs_sub_abs_le_abs_sub (e0 +. e1).val (e0.val + e1.val)
    simp only [ulpHalf] at d1; linarith
  obtain ⟨nd, d2⟩ := add_ok n3 m2 (by have := abs_add_le (e0 +. e1).val e2.val; linarith)
  generalize e0 +. e1 = d01 at *
  generalize d01 +. e2 = det at *
  have d1' := flip (c := 0) hs (by simpa using d1)
  have d2' := flip (c := 0) hs (by simpa using d2)
  rw [mul_add, add_zero] at d1' d2'
  obtain ⟨hl, hu, dl, du⟩ := det_ok f0 f1 f2 (flip' hs k0) (flip' hs k1) (flip' hs k2) hW rD d1' d2'
  rw [← hDdef] at hl hu
  -- scaled distance
  have b0 : |e0.val| ≤ 2 ^ 62 := by linarith
  have b1 : |e1.val| ≤ 2 ^ 62 := by linarith
  have b2 : |e2.val| ≤ 2 ^ 62 := by linarith
  have bz : ∀ {z e : F32}, |z.val| = z.val → z.val ≤ Z' → |e.val| ≤ 2 ^ 62 → |z.val * e.val| ≤ 2 ^ 122 := by
    intro z e h1 h2 h3
    have h4 : |z.val| * |e.val| ≤ 2 ^ 60 * 2 ^ 62 := mul_le_mul (by linarith) h3 (abs_nonneg _) (by norm_num)
    rw [abs_mul]; linarith
  have bp : ∀ {p x : ℚ}, |x| ≤ 2 ^ 122 → |p - x| ≤ |x| * ulpHalf + tinyHalf → |p| ≤ 2 ^ 123 := by
    intro p x h1 h2
    have := abs_sub_abs_le_abs_sub p x
    simp only [ulpHalf, tinyHalf] at h2; linarith
  obtain ⟨w0, v0⟩ := mul_ok nz m0 ((bz (by assumption) ua b0).trans (by norm_num))
  obtain ⟨w1, v1⟩ := mul_ok nz' m1 ((bz (by assumption) ub b1).trans (by norm_num))
  obtain ⟨w2, v2⟩ := mul_ok nz'' m2 ((bz (by assumption) uc b2).trans (by norm_num))
  have x0 := bp (bz (by assumption) ua b0) v0
  have x1 := bp (bz (by assumption) ub b1) v1
  have x2 := bp (bz (by assumption) uc b2) v2
  obtain ⟨w3, v3⟩ := add_ok w0 w1 (by have := abs_add_le (za *. e0).val (zb *. e1).val; linarith)
  have x3 : |(za *. e0 +. zb *. e1).val| ≤ 2 ^ 125 := by
    have := abs_sub_abs_le_abs_sub (za *. e0 +. zb *. e1).val ((za *. e0).val + (zb *. e1).val)
    have := abs_add_le (za *. e0).val (zb *. e1).val
    simp only [ulpHalf] at v3; linarith
  obtain ⟨w4, v4⟩ := add_ok w3 w2 (by have := abs_add_le (za *. e0 +. zb *. e1).val (zc *. e2).val; linarith)
  generalize za *. e0 = r0 at *
  generalize zb *. e1 = r1 at *
  generalize zc *. e2 = r2 at *
  generalize r0 +. r1 = r01 at *
  generalize r01 +. r2 = ts at *
  have v0' := flip hs v0
  have v1' := flip hs v1
  have v2' := flip hs v2
  have v3' := flip (c := 0) hs (by simpa using v3)
  have v4' := flip (c := 0) hs (by simpa using v4)
  rw [mul_left_comm] at v0' v1' v2'
  rw [mul_add, add_zero] at v3' v4'
  obtain ⟨tl, tu⟩ := scaled_ok f0 f1 f2 la lb lc ua ub uc rZ rD hl hu v0' v1' v2' v3' v4'
  set S := sg * e0.val + sg * e1.val + sg * e2.val with hS
  have S0 : 0 < S := lt_of_lt_of_le (by linarith) hl
  have det0 : 0 < sg * det.val := lt_of_lt_of_le (by linarith) dl
  have hsg : |sg| = 1 := by rcases hs with rfl | rfl <;> norm_num
  have absS : ∀ x : ℚ, 0 ≤ sg * x → |x| = sg * x := by
    intro x h
    have := abs_of_nonneg h
    rwa [abs_mul, hsg, one_mul] at this
  have hdet0 : det.val ≠ 0 := by intro h; rw [h] at det0; simp at det0
  -- threshold
  have meo : Upto (V3.mk e0 e1 e2).abs.maxComponent S :=
    Upto.max3 m0 m1 m2 (by rw [absS _ f0]; linarith) (by rw [absS _ f1]; linarith) (by rw [absS _ f2]; linarith)
  generalize (V3.mk e0 e1 e2).abs.maxComponent = me at *
  have rS : S ≤ 2 ^ 63 := by
    have := absS _ f0; have := absS _ f1; have := absS _ f2
    linarith
  have num := threshold_ok mxo myo mzo meo rX rY rZ' rS
  generalize (lit 3 *. (gamma (lit 3) *. me *. mz +. mz *. ((gamma (lit 2) *. mx *. my +. mx *. (my *. gamma (lit 5)) +. my *. (mx *. gamma (lit 5))) *. lit 2)
      +. me *. (mz *. gamma (lit 3)))) = nm at *
  obtain ⟨na, va⟩ := abs_ok nd
  rw [absS _ det0.le] at va
  -- quotients
  have inv : sg * sg = 1 := by rcases hs with rfl | rfl <;> norm_num
  have qts : ts.val / det.val = (sg * ts.val) / (sg * det.val) := by
    rw [mul_div_mul_left _ _ (by intro h; rw [h] at inv; norm_num at inv)]
  have detl : 9 / 10 * (999 / 1000) * (1 / 2 ^ 60) ≤ sg * det.val := by linarith
  have tsb : sg * ts.val / (sg * det.val) ≤ 2 ^ 62 := by
    rw [div_le_iff₀ det0]
    have : Z' * S ≤ 2 ^ 60 * S := by gcongr
    linarith
  have ts0 : 0 ≤ sg * ts.val := le_trans (by positivity) tl
  obtain ⟨nt, et⟩ := div_ok w4 nd hdet0 (by rw [qts, abs_of_nonneg (div_nonneg ts0 det0.le)]; linarith)
  rw [qts] at et
  have SZ : S * Z' ≤ S * 2 ^ 60 := by gcongr
  have DZ : D * Z' ≤ D * 2 ^ 60 := by gcongr
  have XYZ : X * Y * Z' ≤ 2 ^ 17 * D * 2 ^ 60 := by gcongr
  have nmb : nm.val / (sg * det.val) ≤ 2 ^ 90 := by
    rw [div_le_iff₀ det0]
    have := num.le
    simp only [ulpHalf] at this
    linarith
  obtain ⟨ndt, edt⟩ := div_ok num.num na (by rw [va]; exact det0.ne')
    (by rw [va, abs_of_nonneg (div_nonneg num.nonneg det0.le)]; linarith)
  rw [va] at edt
  have final := distance_ok rZ rD XY0 hZZ fat hl hu dl du tl tu num.nonneg num.le et edt
  generalize ts /. det = t at *
  generalize nm /. Scalar.abs det = dt at *
  -- the tests
  have tsle : sg * ts.val ≤ 51 / 50 * Z' * (sg * det.val) := by
    have : Z' * (S * (999 / 1000)) ≤ Z' * (sg * det.val) := by gcongr
    linarith [mul_pos Z'0 S0]
  have tspos : 0 < sg * ts.val := lt_of_lt_of_le (by positivity) tl
  obtain ⟨nb1, nb2⟩ := not_beyond nd w4 far
  have nz0 := zero_ok
  have T1 : (t <=. dt) = false := by rw [← Bool.not_eq_true, le_ok nt ndt]; exact not_le.2 final
  have T2 : (det ==. lit 0) = false := by rw [← Bool.not_eq_true, eq_ok nd nz0.1, nz0.2]; exact hdet0
  rw [T1, T2]
  rcases hs with rfl | rfl
  · simp only [one_mul] at f0 f1 f2 det0 tspos tsle
    have g1 : ∀ {e : F32}, Num e → 0 ≤ e.val → (e <. lit 0) = false := by
      intro e he h; rw [← Bool.not_eq_true, lt_ok he nz0.1, nz0.2]; exact not_lt.2 h
    rw [g1 m0 f0, g1 m1 f1, g1 m2 f2, g1 nd det0.le, nb1 det0 tsle,
      show (ts <=. lit 0) = false by rw [← Bool.not_eq_true, le_ok w4 nz0.1, nz0.2]; exact not_le.2 tspos]
    simp
  · have g1 : ∀ {e : F32}, Num e → e.val ≤ 0 → (e >. lit 0) = false := by
      intro e he h
      change (lit 0 <. e) = false
      rw [← Bool.not_eq_true, lt_ok nz0.1 he, nz0.2]; exact not_lt.2 h
    rw [g1 m0 (by linarith), g1 m1 (by linarith), g1 m2 (by linarith), g1 nd (by linarith), nb2 (by linarith) (by linarith),
      show (lit 0 <=. ts) = false by rw [← Bool.not_eq_true, le_ok nz0.1 w4, nz0.2]; exact not_le.2 (by linarith)]
    simp

/-! ## C91 -/

namespace Spec
/-- The ray reaches beyond the distance `z`. -/
def Reaches (ray : Ray F32) (z : ℚ) : Prop := ray.tMax = Fl.inf false ∨ (Num ray.tMax ∧ z ≤ ray.tMax.val)

/-- The triangle is hit: both by the test for the nearest hit and by the test for any hit. -/
def Stopped [Libm F32] (s : Triangle F32) (ray : Ray F32) : Prop :=
  (∃ i t, s.intersect ray = some (some (i, t))) ∧ s.intersectP ray = some true
end Spec

/-- **C91** (partial: see `c91_sliver_refuted`).  In single precision a triangle that is not a sliver is hit by every ray that goes through it,
its edges and corners included, where "through" is decided exactly from what each corner looks like from the ray. -/
theorem c91_triangle_partial [Libm F32] (s : Triangle F32) (ray : Ray F32) (m : Axis) (hm : ray.direction.maxAbsAxis = some m) {X Y Z Z' : ℚ}
    (plain : Plain X Y Z Z' (seen ray m s.v0) (seen ray m s.v1) (seen ray m s.v2))
    (through : Through (seen ray m s.v0) (seen ray m s.v1) (seen ray m s.v2)) (far : Reaches ray (51 / 50 * Z')) : Stopped s ray := by
  obtain ⟨o, d, tm⟩ := ray
  have e : ∀ p, seen ⟨o, d, tm⟩ m p = ⟨(rc o d m p).x, (rc o d m p).y, (rc o d m p).z *. szOf d m⟩ := by
    intro p; rfl
  simp only [e] at plain through
  have acc := stage_accepts plain through far
  change (stage s o d m).rejects tm = false at acc
  refine ⟨?_, ?_⟩
  · rw [intersect_eq]
    simp only [] at hm
    rw [hm]
    simp only [Option.map_some, acc]
    exact ⟨_, _, rfl⟩
  · rw [intersectP_eq]
    simp only [] at hm
    rw [hm]
    simp only [Option.map_some, acc]
    rfl

/-- **C91** (partial).  No gap between two triangles with a common edge: a ray inside the outline `v0 v1 v2 v3` hits one of `v0 v1 v2` and
`v0 v2 v3`, wherever it is relative to the edge from `v0` to `v2`. -/
theorem c91_shared_edge_partial [Libm F32] (s s' : Triangle F32) (v0 v1 v2 v3 : V3 F32) (hs : s.v0 = v0 ∧ s.v1 = v1 ∧ s.v2 = v2)
    (hs' : s'.v0 = v0 ∧ s'.v1 = v2 ∧ s'.v2 = v3) (ray : Ray F32) (m : Axis) (hm : ray.direction.maxAbsAxis = some m) {X Y Z Z' : ℚ}
    (plain : Plain X Y Z Z' (seen ray m v0) (seen ray m v1) (seen ray m v2))
    (plain' : Plain X Y Z Z' (seen ray m v0) (seen ray m v2) (seen ray m v3))
    (inside : 0 ≤ turn (seen ray m v0) (seen ray m v1) ∧ 0 ≤ turn (seen ray m v1) (seen ray m v2) ∧
      0 ≤ turn (seen ray m v2) (seen ray m v3) ∧ 0 ≤ turn (seen ray m v3) (seen ray m v0))
    (far : Reaches ray (51 / 50 * Z')) : Stopped s ray ∨ Stopped s' ray := by
  obtain ⟨rfl, rfl, rfl⟩ := hs
  obtain ⟨h0, h1, rfl⟩ := hs'
  obtain ⟨i0, i1, i2, i3⟩ := inside
  have anti : turn (seen ray m s.v2) (seen ray m s.v0) = -turn (seen ray m s.v0) (seen ray m s.v2) := by unfold turn; ring
  rcases le_total 0 (turn (seen ray m s.v2) (seen ray m s.v0)) with h | h
  · exact Or.inl (c91_triangle_partial s ray m hm plain (Or.inl ⟨i0, i1, h⟩) far)
  · refine Or.inr (c91_triangle_partial s' ray m hm (by rw [h0, h1]; exact plain') ?_ far)
    rw [h0, h1]
    exact Or.inl ⟨by linarith, i2, i3⟩

/-- **C91** (partial).  A mesh has no gaps between its triangles: if the outlines of the triangles, as seen from the ray, cover the ray, then one
of them is hit. -/
theorem c91_mesh_partial [Libm F32] (mesh : List (Triangle F32)) (ray : Ray F32) (m : Axis) (hm : ray.direction.maxAbsAxis = some m) {X Y Z Z' : ℚ}
    (plain : ∀ s ∈ mesh, Plain X Y Z Z' (seen ray m s.v0) (seen ray m s.v1) (seen ray m s.v2))
    (covered : ∃ s ∈ mesh, Through (seen ray m s.v0) (seen ray m s.v1) (seen ray m s.v2)) (far : Reaches ray (51 / 50 * Z')) :
    ∃ s ∈ mesh, Stopped s ray := by
  obtain ⟨s, h, t⟩ := covered
  exact ⟨s, h, c91_triangle_partial s ray m hm (plain s h) t far⟩

namespace Demo
/-- A ray in the direction (1, 2, 4). -/
def slant : Ray F32 := ⟨⟨f32 0, f32 0, f32 0⟩, ⟨f32 1, f32 2, f32 4⟩, Fl.inf false⟩
/-- Corners of a square at distance 4 around it; the ray meets the diagonal from the first to the third. -/
def corner0 : V3 F32 := ⟨f32 0, f32 0, f32 4⟩
def corner1 : V3 F32 := ⟨f32 4, f32 0, f32 4⟩
def corner2 : V3 F32 := ⟨f32 4, f32 8, f32 4⟩
def corner3 : V3 F32 := ⟨f32 0, f32 8, f32 4⟩

theorem corners_seen : seen slant .Z corner0 = ⟨f32 (-2), f32 (-1), f32 1⟩ ∧ seen slant .Z corner1 = ⟨f32 (-2), f32 3, f32 1⟩ ∧
    seen slant .Z corner2 = ⟨f32 6, f32 3, f32 1⟩ ∧ seen slant .Z corner3 = ⟨f32 6, f32 (-1), f32 1⟩ := by decide +kernel

theorem int_ok {n : ℤ} (h : |n| ≤ 100) : Num (f32 n) ∧ (f32 n).val = n := by
  have := ofInt_exact (n := n) (by linarith)
  have k : |(n : ℚ)| ≤ 100 := by exact_mod_cast h
  exact ⟨lit_ok (q := (n : ℚ)) (by linarith), this.2⟩

theorem demo_nums : (Num (f32 (-2)) ∧ (f32 (-2)).val = -2) ∧ (Num (f32 (-1)) ∧ (f32 (-1)).val = -1) ∧ (Num (f32 1) ∧ (f32 1).val = 1) ∧
    (Num (f32 3) ∧ (f32 3).val = 3) ∧ (Num (f32 6) ∧ (f32 6).val = 6) := by
  refine ⟨?_, ?_, ?_, ?_, ?_⟩
  · simpa using int_ok (n := -2) (by norm_num)
  · simpa using int_ok (n := -1) (by norm_num)
  · simpa using int_ok (n := 1) (by norm_num)
  · simpa using int_ok (n := 3) (by norm_num)
  · simpa using int_ok (n := 6) (by norm_num)

/-- A square of two triangles and a ray that goes exactly through their common edge. -/
example [Libm F32] (mat : Material F32) :
    Stopped ⟨corner0, corner3, corner2, none, false, mat⟩ slant ∨ Stopped ⟨corner0, corner2, corner1, none, false, mat⟩ slant := by
  obtain ⟨c0, c1, c2, c3⟩ := corners_seen
  obtain ⟨⟨n1, v1⟩, ⟨n2, v2⟩, ⟨n3, v3⟩, ⟨n4, v4⟩, ⟨n5, v5⟩⟩ := demo_nums
  refine c91_shared_edge_partial (X := 6) (Y := 6) (Z := 1) (Z' := 1) _ _ corner0 corner3 corner2 corner1 ⟨rfl, rfl, rfl⟩ ⟨rfl, rfl, rfl⟩ slant .Z
    (by decide +kernel) ?_ ?_ ?_ (Or.inl rfl)
  · rw [c0, c2, c3]
    refine ⟨?_, ?_, ?_, ?_, ?_⟩
    · simp [n1, n2, n3, n4, n5]
    · simp [v1, v2, v3, v4, v5]; norm_num
    · simp [v3]
    · unfold turn; simp only [v1, v2, v3, v4, v5]; norm_num
    · unfold turn; simp only [v1, v2, v3, v4, v5]; norm_num
  · rw [c0, c1, c2]
    refine ⟨?_, ?_, ?_, ?_, ?_⟩
    · simp [n1, n2, n3, n4, n5]
    · simp [v1, v2, v3, v4, v5]; norm_num
    · simp [v3]
    · unfold turn; simp only [v1, v2, v3, v4, v5]; norm_num
    · unfold turn; simp only [v1, v2, v3, v4, v5]; norm_num
  · rw [c0, c1, c2, c3]; unfold turn; simp only [v1, v2, v3, v4, v5]; norm_num

/-- A triangle of length two around the axis that is about 2⁻²² wide. -/
def sliver [Libm F32] (mat : Material F32) : Triangle F32 :=
  ⟨⟨f32 (1 + 1 / 2 ^ 23), f32 (1 + 2 / 2 ^ 23), f32 1⟩, ⟨f32 (-1 - 3 / 2 ^ 23), f32 (-1 - 4 / 2 ^ 23), f32 1⟩,
    ⟨f32 (1 + 5 / 2 ^ 23), f32 (1 + 6 / 2 ^ 23), f32 1⟩, none, false, mat⟩
/-- The ray along the axis. -/
def axisRay : Ray F32 := ⟨⟨f32 0, f32 0, f32 0⟩, ⟨f32 0, f32 0, f32 1⟩, Fl.inf false⟩
end Demo
open Demo

/-- The full statement of C91 fails: here is a triangle, and a ray strictly inside it as seen from the ray, that the program misses.  All three
edge functions are rounded to zero, and the fallback to double precision that the source marks as missing is needed. -/
theorem c91_sliver_refuted [Libm F32] (mat : Material F32) :
    axisRay.direction.maxAbsAxis = some .Z ∧
    (turn (seen axisRay .Z (sliver mat).v0) (seen axisRay .Z (sliver mat).v1) < 0 ∧ turn (seen axisRay .Z (sliver mat).v1) (seen axisRay .Z (sliver mat).v2) < 0 ∧
      turn (seen axisRay .Z (sliver mat).v2) (seen axisRay .Z (sliver mat).v0) < 0) ∧
    (sliver mat).intersect axisRay = some none ∧ (sliver mat).intersectP axisRay = some false := by
  have hm : axisRay.direction.maxAbsAxis = some .Z := by decide +kernel
  have hr : (stage (sliver mat) axisRay.origin axisRay.direction .Z).rejects axisRay.tMax = true := by
    change (stageOf (rc _ _ .Z ⟨f32 (1 + 1 / 2 ^ 23), f32 (1 + 2 / 2 ^ 23), f32 1⟩) (rc _ _ .Z ⟨f32 (-1 - 3 / 2 ^ 23), f32 (-1 - 4 / 2 ^ 23), f32 1⟩)
      (rc _ _ .Z ⟨f32 (1 + 5 / 2 ^ 23), f32 (1 + 6 / 2 ^ 23), f32 1⟩) _).rejects _ = true
    decide +kernel
  refine ⟨hm, ?_, ?_, ?_⟩
  · change (turn (seen axisRay .Z ⟨f32 (1 + 1 / 2 ^ 23), f32 (1 + 2 / 2 ^ 23), f32 1⟩) (seen axisRay .Z ⟨f32 (-1 - 3 / 2 ^ 23), f32 (-1 - 4 / 2 ^ 23), f32 1⟩) < 0 ∧
      turn (seen axisRay .Z ⟨f32 (-1 - 3 / 2 ^ 23), f32 (-1 - 4 / 2 ^ 23), f32 1⟩) (seen axisRay .Z ⟨f32 (1 + 5 / 2 ^ 23), f32 (1 + 6 / 2 ^ 23), f32 1⟩) < 0 ∧
      turn (seen axisRay .Z ⟨f32 (1 + 5 / 2 ^ 23), f32 (1 + 6 / 2 ^ 23), f32 1⟩) (seen axisRay .Z ⟨f32 (1 + 1 / 2 ^ 23), f32 (1 + 2 / 2 ^ 23), f32 1⟩) < 0)
    decide +kernel
  · have := intersect_eq (sliver mat) axisRay.origin axisRay.direction axisRay.tMax
    rw [hm] at this
    simp only [Option.map_some, hr, if_true] at this
    exact this
  · have := intersectP_eq (sliver mat) axisRay.origin axisRay.direction axisRay.tMax
    rw [hm] at this
    simp only [Option.map_some, hr] at this
    exact this

end PT
