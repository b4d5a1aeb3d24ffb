import Verif.Lemmas.RelErr
import Verif.Lemmas.FlWF
import Verif.Lemmas.Triangle
import Mathlib.Tactic.GCongr

/-!
# Reported error bounds (C84)
-/

namespace PT
open Fl

/-! ## Triangles -/

theorem det_core {e0 e1 e2 d1 det : ℚ} (h0 : 0 ≤ e0) (h1 : 0 ≤ e1) (h2 : 0 ≤ e2) (hd1 : |d1 - (e0 + e1)| ≤ |e0 + e1| * ulpHalf)
    (hdet : |det - (d1 + e2)| ≤ |d1 + e2| * ulpHalf) (hne : det ≠ 0) :
    0 < e0 + e1 + e2 ∧ |(e0 + e1 + e2) / det - 1| ≤ 2001 / 1000 * ulpHalf := by
  rw [abs_of_nonneg (by linarith : 0 ≤ e0 + e1), abs_le] at hd1
  have hd1' : 0 ≤ d1 := by
    have : (e0 + e1) * ulpHalf ≤ e0 + e1 := by
      have : (e0 + e1) * ulpHalf ≤ (e0 + e1) * 1 := by gcongr; norm_num [ulpHalf]
      linarith
    linarith
  rw [abs_of_nonneg (by linarith : 0 ≤ d1 + e2), abs_le] at hdet
  have hS : 0 < e0 + e1 + e2 := by
    by_contra hc
    have : e0 = 0 := by linarith
    have : e1 = 0 := by linarith
    have : e2 = 0 := by linarith
    subst_vars
    simp at hd1
    have : d1 = 0 := le_antisymm (by linarith) (by linarith)
    subst this
    simp at hdet
    exact hne (le_antisymm (by linarith) (by linarith))
  refine ⟨hS, ?_⟩
  have hdp : 0 < det := by
    have : 0 ≤ det := by
      have : (d1 + e2) * ulpHalf ≤ (d1 + e2) * 1 := by gcongr; norm_num [ulpHalf]
      linarith
    exact lt_of_le_of_ne this (Ne.symm hne)
  rw [div_sub_one hne, abs_div, abs_of_pos hdp, div_le_iff₀ hdp, abs_le]
  simp only [ulpHalf] at *
  constructor <;> linarith

theorem weight_core {e det S b : ℚ} (he : 0 ≤ e) (hS : 0 < S) (hr : |S / det - 1| ≤ 2001 / 1000 * ulpHalf)
    (hb : |b - e / det| ≤ |e / det| * ulpHalf + tinyHalf) : |b - e / S| ≤ e / S * (3002 / 1000 * ulpHalf) + tinyHalf := by
  have e1 : e / det = e / S * (S / det) := by field_simp
  rw [e1] at hb
  have hB : 0 ≤ e / S := by positivity
  generalize e / S = B at *
  generalize S / det = r at *
  have hr' := abs_le.1 hr
  have hr0 : 0 ≤ r := by simp only [ulpHalf] at hr'; linarith [hr'.1]
  have hr2 : r ≤ 10001 / 10000 := by simp only [ulpHalf] at hr'; linarith [hr'.2]
  rw [abs_of_nonneg (mul_nonneg hB hr0)] at hb
  have h3 : |B * r - B| ≤ B * (2001 / 1000 * ulpHalf) := by
    rw [show B * r - B = B * (r - 1) by ring, abs_mul, abs_of_nonneg hB]; gcongr
  have h4 : |b - B| ≤ |b - B * r| + |B * r - B| := abs_sub_le _ _ _
  have h5 : B * r * ulpHalf ≤ B * (10001 / 10000) * ulpHalf := by gcongr
  have h6 : B * (10001 / 10000) * ulpHalf + B * (2001 / 1000 * ulpHalf) ≤ B * (3002 / 1000 * ulpHalf) := by
    have : 0 ≤ B * ulpHalf := mul_nonneg hB (by norm_num [ulpHalf])
    linarith
  simp only [ulpHalf, tinyHalf] at *
  linarith

theorem term_core {v b B t : ℚ} (hB : 0 ≤ B) (hb : |b - B| ≤ B * (3002 / 1000 * ulpHalf) + tinyHalf) (ht : |t - v * b| ≤ |v * b| * ulpHalf + tinyHalf) :
    |t - v * B| ≤ |v| * B * (401 / 100 * ulpHalf) + 2 * tinyHalf * |v| + tinyHalf := by
  have h1 : |v * b - v * B| ≤ |v| * (B * (3002 / 1000 * ulpHalf) + tinyHalf) := by
    rw [← mul_sub, abs_mul]; gcongr
  have h2 : |b| ≤ B * (1 + 3002 / 1000 * ulpHalf) + tinyHalf := by
    have := abs_sub_abs_le_abs_sub b B
    rw [abs_of_nonneg hB] at this
    linarith
  have h3 : |v * b| * ulpHalf ≤ |v| * (B * (1 + 3002 / 1000 * ulpHalf) + tinyHalf) * ulpHalf := by
    rw [abs_mul]; gcongr
  have h4 : |t - v * B| ≤ |t - v * b| + |v * b - v * B| := abs_sub_le _ _ _
  have h5 : 0 ≤ |v| * B := mul_nonneg (abs_nonneg v) hB
  have h6 := abs_nonneg v
  have e : |v| * (B * (1 + 3002 / 1000 * ulpHalf) + tinyHalf) * ulpHalf = |v| * B * ((1 + 3002 / 1000 * ulpHalf) * ulpHalf) + |v| * (tinyHalf * ulpHalf) := by ring
  have e' : |v| * (B * (3002 / 1000 * ulpHalf) + tinyHalf) = |v| * B * (3002 / 1000 * ulpHalf) + |v| * tinyHalf := by ring
  rw [e] at h3
  rw [e'] at h1
  simp only [ulpHalf, tinyHalf] at *
  linarith

theorem point_core {v0 v1 v2 B0 B1 B2 t0 t1 t2 s1 p q1 q pe g : ℚ} (hB0 : 0 ≤ B0) (hB1 : 0 ≤ B1) (hB2 : 0 ≤ B2)
    (h0 : |t0 - v0 * B0| ≤ |v0| * B0 * (401 / 100 * ulpHalf) + 2 * tinyHalf * |v0| + tinyHalf)
    (h1 : |t1 - v1 * B1| ≤ |v1| * B1 * (401 / 100 * ulpHalf) + 2 * tinyHalf * |v1| + tinyHalf)
    (h2 : |t2 - v2 * B2| ≤ |v2| * B2 * (401 / 100 * ulpHalf) + 2 * tinyHalf * |v2| + tinyHalf)
    (hs1 : |s1 - (t0 + t1)| ≤ |t0 + t1| * ulpHalf) (hp : |p - (s1 + t2)| ≤ |s1 + t2| * ulpHalf)
    (hq1 : |q1 - (|t0| + |t1|)| ≤ |(|t0| + |t1|)| * ulpHalf) (hq : |q - (q1 + |t2|)| ≤ |q1 + (|t2|)| * ulpHalf)
    (hg : 7 * ulpHalf ≤ g) (hpe : |pe - q * g| ≤ |q * g| * ulpHalf + tinyHalf) (hsmall : 1 / 2 ^ 140 * (1 + |v0| + |v1| + |v2|) ≤ pe) :
    |p - (v0 * B0 + v1 * B1 + v2 * B2)| ≤ pe := by
  have n0 := abs_nonneg t0; have n1 := abs_nonneg t1; have n2 := abs_nonneg t2
  have w0 : 0 ≤ |v0| * B0 := mul_nonneg (abs_nonneg v0) hB0
  have w1 : 0 ≤ |v1| * B1 := mul_nonneg (abs_nonneg v1) hB1
  have w2 : 0 ≤ |v2| * B2 := mul_nonneg (abs_nonneg v2) hB2
  have m0 : |v0| * B0 ≤ |t0| + |t0 - v0 * B0| := by
    have := abs_sub_abs_le_abs_sub (v0 * B0) t0
    rw [abs_mul, abs_of_nonneg hB0, abs_sub_comm] at this; linarith
  have m1 : |v1| * B1 ≤ |t1| + |t1 - v1 * B1| := by
    have := abs_sub_abs_le_abs_sub (v1 * B1) t1
    rw [abs_mul, abs_of_nonneg hB1, abs_sub_comm] at this; linarith
  have m2 : |v2| * B2 ≤ |t2| + |t2 - v2 * B2| := by
    have := abs_sub_abs_le_abs_sub (v2 * B2) t2
    rw [abs_mul, abs_of_nonneg hB2, abs_sub_comm] at this; linarith
  have a1 : |t0 + t1| ≤ |t0| + |t1| := abs_add_le _ _
  have a2 : |s1| ≤ |t0 + t1| + |s1 - (t0 + t1)| := by
    have := abs_sub_abs_le_abs_sub s1 (t0 + t1); linarith
  have a3 : |s1 + t2| ≤ |s1| + |t2| := abs_add_le _ _
  have a4 : |p - (v0 * B0 + v1 * B1 + v2 * B2)| ≤ |p - (s1 + t2)| + |s1 - (t0 + t1)| + |t0 - v0 * B0| + |t1 - v1 * B1| + |t2 - v2 * B2| := by
    have e : p - (v0 * B0 + v1 * B1 + v2 * B2) = (p - (s1 + t2)) + (s1 - (t0 + t1)) + (t0 - v0 * B0) + (t1 - v1 * B1) + (t2 - v2 * B2) := by ring
    rw [e]
    refine (abs_add_le _ _).trans (add_le_add_left ?_ _)
    refine (abs_add_le _ _).trans (add_le_add_left ?_ _)
    refine (abs_add_le _ _).trans (add_le_add_left ?_ _)
    exact abs_add_le _ _
  rw [abs_of_nonneg (add_nonneg n0 n1), abs_le] at hq1
  have hq1' : 0 ≤ q1 := by simp only [ulpHalf] at hq1; linarith
  rw [abs_of_nonneg (add_nonneg hq1' n2), abs_le] at hq
  have hq' : 0 ≤ q := by simp only [ulpHalf] at hq; linarith
  have hg0 : 0 ≤ g := le_trans (by norm_num [ulpHalf]) hg
  rw [abs_of_nonneg (mul_nonneg hq' hg0), abs_le] at hpe
  have hqg : q * (7 * ulpHalf) ≤ q * g := by gcongr
  have v0' := abs_nonneg v0; have v1' := abs_nonneg v1; have v2' := abs_nonneg v2
  simp only [ulpHalf, tinyHalf] at *
  have lower : 699 / 100 / 2 ^ 24 * (|t0| + |t1| + |t2|) ≤ pe + 1 / 2 ^ 150 := by
    linarith [hpe.1, hq.1, hq1.1]
  have upper : |p - (v0 * B0 + v1 * B1 + v2 * B2)| ≤ 602 / 100 / 2 ^ 24 * (|t0| + |t1| + |t2|) + 4 / 2 ^ 150 * (1 + |v0| + |v1| + |v2|) := by
    linarith
  linarith

theorem mul_zero_val {a b : F32} (h : (a *. b).IsFin) (h0 : a.val * b.val = 0) : (a *. b).val = 0 := by
  obtain ⟨fa, fb⟩ := mul_isFin h
  obtain ⟨s, m, rfl⟩ := IsFin_iff.1 fa
  obtain ⟨t, k, rfl⟩ := IsFin_iff.1 fb
  have hmk : m * k = 0 := by
    simp only [val] at h0
    rw [← sgn_xor_mul] at h0
    cases hx : (s ^^ t) <;> simpa [hx, sgn] using h0
  have e : (fin s m *. fin t k : F32) = fin (s ^^ t) 0 := by
    change ofMag (s ^^ t) (m * k) = _
    rw [hmk, ofMag, Rounding.rnd_zero]
  rw [e]; cases (s ^^ t) <;> simp [val, sgn]

theorem eq_of_val {a b : F32} (ha : a.IsFin) (hb : b.IsFin) (h : a.val = b.val) : (a ==. b) = true := by
  obtain ⟨s, x, rfl⟩ := IsFin_iff.1 ha
  obtain ⟨t, y, rfl⟩ := IsFin_iff.1 hb
  simpa [f_eq, Fl.eq, val] using h

theorem sum_WF (a b : F32) : (a +. b).WF := add_WF a b

theorem add_zero_val {a b : F32} (wa : a.WF) (wb : b.WF) (h : (a +. b).IsFin) (ha : a.val = 0) (hb : b.val = 0) : (a +. b).val = 0 := by
  have := add_err wa wb h
  rw [ha, hb] at this
  simpa using this

theorem div_inf_val {e D : F32} (hD : ¬ D.IsFin) (h : (e /. D).IsFin) : (e /. D).val = 0 := by
  cases D with
  | fin s m => exact absurd trivial hD
  | nan => cases e <;> exact absurd h id
  | inf t =>
    cases e with
    | nan => exact absurd h id
    | inf s => exact absurd h id
    | fin s m => cases hs : (s ^^ t) <;> simp [f_div, Fl.div, val, sgn, hs]

theorem gamma7 : (gamma (lit 7) : F32) = fin false (469762240 / 2 ^ 50) := by decide +kernel

theorem abs_WF {a : F32} (h : a.WF) : (Scalar.abs a).WF := by cases a <;> exact h

/-- What is computed for one coordinate of the hit point. -/
theorem coordinate_core {v0 v1 v2 b0 b1 b2 : F32} {B0 B1 B2 : ℚ} (w0 : v0.WF) (w1 : v1.WF) (w2 : v2.WF) (wb0 : b0.WF) (wb1 : b1.WF) (wb2 : b2.WF)
    (hB0 : 0 ≤ B0) (hB1 : 0 ≤ B1) (hB2 : 0 ≤ B2)
    (hb0 : |b0.val - B0| ≤ B0 * (3002 / 1000 * ulpHalf) + tinyHalf) (hb1 : |b1.val - B1| ≤ B1 * (3002 / 1000 * ulpHalf) + tinyHalf)
    (hb2 : |b2.val - B2| ≤ B2 * (3002 / 1000 * ulpHalf) + tinyHalf)
    (hp : ((v0 *. b0 +. v1 *. b1) +. v2 *. b2).IsFin)
    (he : (((Scalar.abs (v0 *. b0) +. Scalar.abs (v1 *. b1)) +. Scalar.abs (v2 *. b2)) *. gamma (lit 7)).IsFin)
    (hc : 1 / 2 ^ 140 * (1 + |v0.val| + |v1.val| + |v2.val|) ≤
      (((Scalar.abs (v0 *. b0) +. Scalar.abs (v1 *. b1)) +. Scalar.abs (v2 *. b2)) *. gamma (lit 7)).val) :
    |((v0 *. b0 +. v1 *. b1) +. v2 *. b2).val - (v0.val * B0 + v1.val * B1 + v2.val * B2)| ≤
      (((Scalar.abs (v0 *. b0) +. Scalar.abs (v1 *. b1)) +. Scalar.abs (v2 *. b2)) *. gamma (lit 7)).val := by
  obtain ⟨f1, f2⟩ := add_isFin hp
  obtain ⟨f3, f4⟩ := add_isFin f1
  have x0 := mul_WF w0 wb0
  have x1 := mul_WF w1 wb1
  have x2 := mul_WF w2 wb2
  rw [← f_mul] at x0 x1 x2
  obtain ⟨g1, -⟩ := mul_isFin he
  obtain ⟨g2, g3⟩ := add_isFin g1
  obtain ⟨g4, g5⟩ := add_isFin g2
  obtain ⟨-, k0⟩ := abs_fin x0 g4
  obtain ⟨-, k1⟩ := abs_fin x1 g5
  obtain ⟨-, k2⟩ := abs_fin x2 g3
  have hq1 := add_err (abs_WF x0) (abs_WF x1) g2
  have hq := add_err (add_WF _ _) (abs_WF x2) g1
  rw [k0, k1] at hq1
  rw [k2] at hq
  have hpe := mul_err (add_WF _ _) (by rw [gamma7]; exact ⟨by positivity, by decide +kernel⟩) he
  have hg : (gamma (lit 7) : F32).val = 469762240 / 2 ^ 50 := by rw [gamma7]; simp [val, sgn]
  exact point_core hB0 hB1 hB2 (term_core hB0 hb0 (mul_err w0 wb0 f3)) (term_core hB1 hb1 (mul_err w1 wb1 f4)) (term_core hB2 hb2 (mul_err w2 wb2 f2))
    (add_err x0 x1 f1) (add_err (add_WF _ _) x2 hp) hq1 hq (by rw [hg]; norm_num [ulpHalf]) hpe hc

namespace Spec
/-- Vertices whose coordinates are values of the format. -/
def ProperTriangle (s : Triangle F32) : Prop := ∀ a, (s.v0.get a).WF ∧ (s.v1.get a).WF ∧ (s.v2.get a).WF
/-- The error bound is not so small that it is affected by underflow (or there is nothing to bound: all vertices have coordinate 0). -/
def NoUnderflow (s : Triangle F32) (i : Interaction F32) (a : Axis) : Prop :=
  ((s.v0.get a).val = 0 ∧ (s.v1.get a).val = 0 ∧ (s.v2.get a).val = 0) ∨
  1 / 2 ^ 140 * (1 + |(s.v0.get a).val| + |(s.v1.get a).val| + |(s.v2.get a).val|) ≤ (i.pErr.get a).val
end Spec
open Spec

open Triangle in
/-- C84: the point reported for a triangle is, in every coordinate, within the reported error bound of one and the same point of the triangle,
in single precision and however badly the ray is conditioned. -/
theorem c84_triangle [Libm F32] {s : Triangle F32} (hs : ProperTriangle s) {ray : Ray F32} {i : Interaction F32} {t : F32}
    (h : s.intersect ray = some (some (i, t))) :
    ∃ b0 b1 b2 : ℚ, 0 ≤ b0 ∧ 0 ≤ b1 ∧ 0 ≤ b2 ∧ b0 + b1 + b2 = 1 ∧
      ∀ a, (i.p.get a).IsFin → (i.pErr.get a).IsFin → NoUnderflow s i a →
        |(i.p.get a).val - ((s.v0.get a).val * b0 + (s.v1.get a).val * b1 + (s.v2.get a).val * b2)| ≤ (i.pErr.get a).val := by
  obtain ⟨o, d, tm⟩ := ray
  rw [intersect_eq] at h
  cases hm : d.maxAbsAxis with
  | none => rw [hm] at h; simp at h
  | some m =>
    rw [hm] at h
    simp only [Option.map_some, Option.some.injEq] at h
    set g := stage s o d m with hg
    split_ifs at h with hrej
    have hrej' : g.rejects tm = false := by simpa using hrej
    simp only [Option.some.injEq, Prod.mk.injEq] at h
    obtain ⟨hi, -⟩ := h
    subst hi
    set b0 := g.e0 /. g.det with hb0
    set b1 := g.e1 /. g.det with hb1
    set b2 := g.e2 /. g.det with hb2
    have hp : ∀ a, ((s.interactionAt d b0 b1 b2).p.get a) = ((s.v0.get a *. b0 +. s.v1.get a *. b1) +. s.v2.get a *. b2) := by
      intro a; cases a <;> rfl
    have he : ∀ a, ((s.interactionAt d b0 b1 b2).pErr.get a) =
        (((Scalar.abs (s.v0.get a *. b0) +. Scalar.abs (s.v1.get a *. b1)) +. Scalar.abs (s.v2.get a *. b2)) *. gamma (lit 7)) := by
      intro a; cases a <;> rfl
    have we0 : g.e0.WF := add_WF _ _
    have we1 : g.e1.WF := add_WF _ _
    have we2 : g.e2.WF := add_WF _ _
    have wdet : g.det.WF := add_WF _ _
    have wb0 : b0.WF := div_WF we0 wdet
    have wb1 : b1.WF := div_WF we1 wdet
    have wb2 : b2.WF := div_WF we2 wdet
    have wg : (gamma (lit 7) : F32).WF := by rw [gamma7]; exact ⟨by positivity, by decide +kernel⟩
    have zero_case : ∀ a (B0 B1 B2 : ℚ), ((s.interactionAt d b0 b1 b2).p.get a).IsFin → ((s.interactionAt d b0 b1 b2).pErr.get a).IsFin →
        ((s.v0.get a).val = 0 ∧ (s.v1.get a).val = 0 ∧ (s.v2.get a).val = 0) →
        |((s.interactionAt d b0 b1 b2).p.get a).val - ((s.v0.get a).val * B0 + (s.v1.get a).val * B1 + (s.v2.get a).val * B2)| ≤
          ((s.interactionAt d b0 b1 b2).pErr.get a).val := by
      rintro a B0 B1 B2 fp fe ⟨z0, z1, z2⟩
      rw [hp] at fp ⊢
      rw [he] at fe ⊢
      obtain ⟨f1, f2⟩ := add_isFin fp
      obtain ⟨f3, f4⟩ := add_isFin f1
      obtain ⟨w0, w1, w2⟩ := hs a
      have x0 : (s.v0.get a *. b0).WF := mul_WF w0 wb0
      have x1 : (s.v1.get a *. b1).WF := mul_WF w1 wb1
      have x2 : (s.v2.get a *. b2).WF := mul_WF w2 wb2
      have t0 := mul_zero_val f3 (by rw [z0, zero_mul])
      have t1 := mul_zero_val f4 (by rw [z1, zero_mul])
      have t2 := mul_zero_val f2 (by rw [z2, zero_mul])
      have s1 := add_zero_val x0 x1 f1 t0 t1
      have s2 := add_zero_val (sum_WF _ _) x2 fp s1 t2
      obtain ⟨g1, -⟩ := mul_isFin fe
      obtain ⟨g2, g3⟩ := add_isFin g1
      obtain ⟨g4, g5⟩ := add_isFin g2
      have q1 := add_zero_val (abs_WF x0) (abs_WF x1) g2 (by rw [(abs_fin x0 g4).2, t0, abs_zero]) (by rw [(abs_fin x1 g5).2, t1, abs_zero])
      have q2 := add_zero_val (sum_WF _ _) (abs_WF x2) g1 q1 (by rw [(abs_fin x2 g3).2, t2, abs_zero])
      have q3 := mul_zero_val fe (by rw [q2, zero_mul])
      rw [s2, q3, z0, z1, z2]
      simp
    have hmixed : g.mixed = false ∧ (g.det ==. lit 0) = false := by
      unfold Stage.rejects at hrej'
      simp only [Bool.or_eq_false_iff] at hrej'
      exact ⟨hrej'.1.1.1, hrej'.1.1.2⟩
    by_cases fdet : g.det.IsFin
    · obtain ⟨fd1, fe2⟩ := add_isFin fdet
      obtain ⟨fe0, fe1⟩ := add_isFin fd1
      have fz : (lit 0 : F32).IsFin := trivial
      have vz : (lit 0 : F32).val = 0 := by decide +kernel
      have hne : g.det.val ≠ 0 := by
        intro hz
        have : (g.det ==. lit 0) = true := eq_of_val fdet fz (by rw [vz, hz])
        rw [hmixed.2] at this; cases this
      have hsign : (0 ≤ g.e0.val ∧ 0 ≤ g.e1.val ∧ 0 ≤ g.e2.val) ∨ (g.e0.val ≤ 0 ∧ g.e1.val ≤ 0 ∧ g.e2.val ≤ 0) := by
        have hx := hmixed.1
        unfold Stage.mixed at hx
        have key : ∀ x : F32, x.IsFin → ((x <. lit 0) = false → 0 ≤ x.val) ∧ ((x >. lit 0) = false → x.val ≤ 0) := by
          intro x fx
          constructor
          · intro hh
            by_contra hc
            rw [f_lt, (lt_val fx fz).2 (by rw [vz]; linarith)] at hh; cases hh
          · intro hh
            by_contra hc
            have : (x >. lit 0) = true := (lt_val fz fx).2 (by rw [vz]; linarith)
            rw [this] at hh; cases hh
        rw [Bool.and_eq_false_iff] at hx
        simp only [Bool.or_eq_false_iff] at hx
        rcases hx with ⟨⟨a0, a1⟩, a2⟩ | ⟨⟨a0, a1⟩, a2⟩
        · exact Or.inl ⟨(key _ fe0).1 a0, (key _ fe1).1 a1, (key _ fe2).1 a2⟩
        · exact Or.inr ⟨(key _ fe0).2 a0, (key _ fe1).2 a1, (key _ fe2).2 a2⟩
      have hd1 := add_err we0 we1 fd1
      have hd : |g.det.val - ((g.e0 +. g.e1).val + g.e2.val)| ≤ |(g.e0 +. g.e1).val + g.e2.val| * ulpHalf := add_err (add_WF _ _) we2 fdet
      set S := g.e0.val + g.e1.val + g.e2.val with hS
      have main : 0 ≤ g.e0.val / S ∧ 0 ≤ g.e1.val / S ∧ 0 ≤ g.e2.val / S ∧ S ≠ 0 ∧
          (∀ e b : ℚ, (e = g.e0.val ∨ e = g.e1.val ∨ e = g.e2.val) → |b - e / g.det.val| ≤ |e / g.det.val| * ulpHalf + tinyHalf →
            |b - e / S| ≤ e / S * (3002 / 1000 * ulpHalf) + tinyHalf) := by
        rcases hsign with ⟨n0, n1, n2⟩ | ⟨n0, n1, n2⟩
        · obtain ⟨hSp, hr⟩ := det_core n0 n1 n2 hd1 hd hne
          refine ⟨div_nonneg n0 hSp.le, div_nonneg n1 hSp.le, div_nonneg n2 hSp.le, hSp.ne', ?_⟩
          rintro e b he' hb
          exact weight_core (by rcases he' with rfl | rfl | rfl <;> assumption) hSp hr hb
        · have neg1 : |-(g.e0 +. g.e1).val - (-g.e0.val + -g.e1.val)| ≤ |-g.e0.val + -g.e1.val| * ulpHalf := by
            have l : -(g.e0 +. g.e1).val - (-g.e0.val + -g.e1.val) = -((g.e0 +. g.e1).val - (g.e0.val + g.e1.val)) := by ring
            have r : -g.e0.val + -g.e1.val = -(g.e0.val + g.e1.val) := by ring
            rw [l, r, abs_neg, abs_neg]; exact hd1
          have neg2 : |-g.det.val - (-(g.e0 +. g.e1).val + -g.e2.val)| ≤ |-(g.e0 +. g.e1).val + -g.e2.val| * ulpHalf := by
            have l : -g.det.val - (-(g.e0 +. g.e1).val + -g.e2.val) = -(g.det.val - ((g.e0 +. g.e1).val + g.e2.val)) := by ring
            have r : -(g.e0 +. g.e1).val + -g.e2.val = -((g.e0 +. g.e1).val + g.e2.val) := by ring
            rw [l, r, abs_neg, abs_neg]; exact hd
          obtain ⟨hSp, hr⟩ := det_core (neg_nonneg.2 n0) (neg_nonneg.2 n1) (neg_nonneg.2 n2) neg1 neg2 (neg_ne_zero.2 hne)
          have hSS : -g.e0.val + -g.e1.val + -g.e2.val = -S := by rw [hS]; ring
          rw [hSS] at hSp hr
          have hSn : S ≤ 0 := by linarith
          refine ⟨div_nonneg_of_nonpos n0 hSn, div_nonneg_of_nonpos n1 hSn, div_nonneg_of_nonpos n2 hSn, by intro h0; rw [h0] at hSp; simp at hSp, ?_⟩
          rintro e b he' hb
          have := weight_core (e := -e) (b := b) (by rcases he' with rfl | rfl | rfl <;> linarith) hSp hr (by rwa [neg_div_neg_eq])
          rwa [neg_div_neg_eq] at this
      obtain ⟨p0, p1, p2, hSne, hw⟩ := main
      refine ⟨_, _, _, p0, p1, p2, by rw [← add_div, ← add_div, ← hS, div_self hSne], ?_⟩
      intro a fp fe hu
      rcases hu with hz | hu
      · exact zero_case a _ _ _ fp fe hz
      · rw [hp] at fp ⊢
        rw [he] at fe hu ⊢
        obtain ⟨f1, f2⟩ := add_isFin fp
        obtain ⟨f3, f4⟩ := add_isFin f1
        obtain ⟨w0, w1, w2⟩ := hs a
        have d0 := (div_err we0 wdet fdet (mul_isFin f3).2).2.2
        have d1 := (div_err we1 wdet fdet (mul_isFin f4).2).2.2
        have d2 := (div_err we2 wdet fdet (mul_isFin f2).2).2.2
        exact coordinate_core w0 w1 w2 wb0 wb1 wb2 p0 p1 p2 (hw _ _ (Or.inl rfl) d0) (hw _ _ (Or.inr (Or.inl rfl)) d1)
          (hw _ _ (Or.inr (Or.inr rfl)) d2) fp fe hu
    · refine ⟨1, 0, 0, by norm_num, by norm_num, by norm_num, by norm_num, ?_⟩
      intro a fp fe hu
      rcases hu with hz | hu
      · exact zero_case a _ _ _ fp fe hz
      · exfalso
        rw [hp] at fp
        rw [he] at fe hu
        obtain ⟨f1, f2⟩ := add_isFin fp
        obtain ⟨f3, f4⟩ := add_isFin f1
        obtain ⟨w0, w1, w2⟩ := hs a
        have x0 : (s.v0.get a *. b0).WF := mul_WF w0 wb0
        have x1 : (s.v1.get a *. b1).WF := mul_WF w1 wb1
        have x2 : (s.v2.get a *. b2).WF := mul_WF w2 wb2
        have z : ∀ e : F32, (e /. g.det).IsFin → (e /. g.det).val = 0 := by
          intro e fe'
          revert fe' fdet
          generalize g.det = D
          intro fdet fe'
          exact div_inf_val fdet fe'
        have t0 := mul_zero_val f3 (by rw [z _ (mul_isFin f3).2, mul_zero])
        have t1 := mul_zero_val f4 (by rw [z _ (mul_isFin f4).2, mul_zero])
        have t2 := mul_zero_val f2 (by rw [z _ (mul_isFin f2).2, mul_zero])
        obtain ⟨g1, -⟩ := mul_isFin fe
        obtain ⟨g2, g3⟩ := add_isFin g1
        obtain ⟨g4, g5⟩ := add_isFin g2
        have q1 := add_zero_val (abs_WF x0) (abs_WF x1) g2 (by rw [(abs_fin x0 g4).2, t0, abs_zero]) (by rw [(abs_fin x1 g5).2, t1, abs_zero])
        have q2 := add_zero_val (sum_WF _ _) (abs_WF x2) g1 q1 (by rw [(abs_fin x2 g3).2, t2, abs_zero])
        have q3 := mul_zero_val fe (by rw [q2, zero_mul])
        rw [q3] at hu
        have : (0 : ℚ) < 1 / 2 ^ 140 * (1 + |(s.v0.get a).val| + |(s.v1.get a).val| + |(s.v2.get a).val|) := by positivity
        linarith

end PT
