import Verif.Lemmas.FlExact
import Verif.Lemmas.FlWF
import Verif.Lemmas.Vec
import Verif.Props.Triangle

/-!
# From exact reals to the reals with NaN and infinities

A finite `XR` value computes like the real number it represents, as long as no operation leaves the finite values.
-/

namespace PT
namespace Fl

/-- `x` is the finite value of the number `r`. -/
structure Rel (x : XR) (r : ℝ) : Prop where
  fin : x.IsFin
  val : x.val = r
  wf : x.WF

theorem Rel.of_fin {x : XR} (h : x.IsFin) (w : x.WF) : Rel x x.val := ⟨h, rfl, w⟩
theorem Rel.add {x y : XR} {r s : ℝ} (h : Rel x r) (k : Rel y s) : Rel (x +. y) (r +. s) := by
  obtain ⟨a, b⟩ := exact_add h.fin k.fin; exact ⟨a, by rw [f_add, b, h.val, k.val]; rfl, add_WF _ _⟩
theorem Rel.sub {x y : XR} {r s : ℝ} (h : Rel x r) (k : Rel y s) : Rel (x -. y) (r -. s) := by
  obtain ⟨a, b⟩ := exact_sub h.fin k.fin; exact ⟨a, by rw [f_sub, b, h.val, k.val]; rfl, add_WF _ _⟩
theorem Rel.mul {x y : XR} {r s : ℝ} (h : Rel x r) (k : Rel y s) : Rel (x *. y) (r *. s) := by
  obtain ⟨a, b⟩ := exact_mul h.fin k.fin; exact ⟨a, by rw [f_mul, b, h.val, k.val]; rfl, mul_WF h.wf k.wf⟩
theorem Rel.div {x y : XR} {r s : ℝ} (h : Rel x r) (k : Rel y s) (hs : s ≠ 0) : Rel (x /. y) (r /. s) := by
  obtain ⟨a, b⟩ := exact_div h.fin k.fin (by rwa [k.val]); exact ⟨a, by rw [f_div, b, h.val, k.val]; rfl, div_WF h.wf k.wf⟩
theorem Rel.neg {x : XR} {r : ℝ} (h : Rel x r) : Rel (⊖x) (⊖r) := by
  obtain ⟨a, b⟩ := neg_fin h.fin; exact ⟨a, by rw [f_neg, b, h.val]; rfl, neg_WF h.wf⟩
theorem Rel.lit (q : ℚ) : Rel (PT.lit q) (PT.lit q) := by
  obtain ⟨a, b⟩ := exact_lit (K := ℝ) q; exact ⟨a, b, lit_WF _⟩
theorem Rel.lt {x y : XR} {r s : ℝ} (h : Rel x r) (k : Rel y s) : (x <. y) = (r <. s) := by
  rw [Bool.eq_iff_iff, f_lt, lt_val h.fin k.fin, h.val, k.val]; real_ops
theorem Rel.le {x y : XR} {r s : ℝ} (h : Rel x r) (k : Rel y s) : (x <=. y) = (r <=. s) := by
  rw [Bool.eq_iff_iff, f_le, le_val h.fin k.fin, h.val, k.val]; real_ops
theorem Rel.eq {x y : XR} {r s : ℝ} (h : Rel x r) (k : Rel y s) : (x ==. y) = (r ==. s) := by
  have e : (x ==. y) = ((x <=. y) && (y <=. x)) := by
    rw [Bool.eq_iff_iff, Bool.and_eq_true, f_eq, f_le, f_le, eq_iff, le_iff, le_iff]
    constructor
    · rintro ⟨a, b, c⟩; exact ⟨⟨a, b, c.le⟩, b, a, c.ge⟩
    · rintro ⟨⟨a, b, c⟩, _, _, d⟩; exact ⟨a, b, _root_.le_antisymm c d⟩
  rw [e, h.le k, k.le h, Bool.eq_iff_iff]
  real_ops
  simp only [Bool.and_eq_true, decide_eq_true_eq]
  constructor
  · rintro ⟨a, b⟩; exact _root_.le_antisymm a b
  · rintro rfl; simp
theorem Rel.max {x y : XR} {r s : ℝ} (h : Rel x r) (k : Rel y s) : Rel (Scalar.fmax x y) (Scalar.fmax r s) := by
  have hl := h.lt k
  have e : Scalar.fmax x y = if (x <. y) = true then y else x := by
    change fmax x y = _
    unfold fmax
    obtain ⟨_, _, rfl⟩ := IsFin_iff.1 h.fin
    obtain ⟨_, _, rfl⟩ := IsFin_iff.1 k.fin
    rfl
  rw [e, hl, r_max, r_lt]
  by_cases c : r < s
  · rw [if_pos (by simpa using c), max_eq_right c.le]; exact k
  · rw [if_neg (by simpa using c), max_eq_left (not_lt.1 c)]; exact h
theorem Rel.min {x y : XR} {r s : ℝ} (h : Rel x r) (k : Rel y s) : Rel (Scalar.fmin x y) (Scalar.fmin r s) := by
  have hl := k.lt h
  have e : Scalar.fmin x y = if (y <. x) = true then y else x := by
    change fmin x y = _
    unfold fmin
    obtain ⟨_, _, rfl⟩ := IsFin_iff.1 h.fin
    obtain ⟨_, _, rfl⟩ := IsFin_iff.1 k.fin
    rfl
  rw [e, hl, r_min, r_lt]
  by_cases c : s < r
  · rw [if_pos (by simpa using c), min_eq_right c.le]; exact k
  · rw [if_neg (by simpa using c), min_eq_left (not_lt.1 c)]; exact h

theorem Rel.abs {x : XR} {r : ℝ} (h : Rel x r) : Rel (Scalar.abs x) (Scalar.abs r) := by
  obtain ⟨s, a, rfl⟩ := IsFin_iff.1 h.fin
  refine ⟨trivial, ?_, h.wf⟩
  rw [← h.val, r_abs]
  change a = |sgn s a|
  cases s <;> simp [sgn, abs_of_nonneg h.wf.1]

/-- Componentwise. -/
structure Rel3 (v : V3 XR) (w : V3 ℝ) : Prop where
  x : Rel v.x w.x
  y : Rel v.y w.y
  z : Rel v.z w.z

theorem Rel3.of {x y z : XR} {x' y' z' : ℝ} (h : Rel x x') (i : Rel y y') (j : Rel z z') : Rel3 ⟨x, y, z⟩ ⟨x', y', z'⟩ := ⟨h, i, j⟩
theorem Rel3.get {v : V3 XR} {w : V3 ℝ} (h : Rel3 v w) (a : Axis) : Rel (v.get a) (w.get a) := by
  cases a
  · exact h.x
  · exact h.y
  · exact h.z
theorem Rel3.add {v v' : V3 XR} {w w' : V3 ℝ} (h : Rel3 v w) (k : Rel3 v' w') : Rel3 (v.add v') (w.add w') :=
  ⟨h.x.add k.x, h.y.add k.y, h.z.add k.z⟩
theorem Rel3.sub {v v' : V3 XR} {w w' : V3 ℝ} (h : Rel3 v w) (k : Rel3 v' w') : Rel3 (v.sub v') (w.sub w') :=
  ⟨h.x.sub k.x, h.y.sub k.y, h.z.sub k.z⟩
theorem Rel3.neg {v : V3 XR} {w : V3 ℝ} (h : Rel3 v w) : Rel3 v.neg w.neg := ⟨h.x.neg, h.y.neg, h.z.neg⟩
theorem Rel3.abs {v : V3 XR} {w : V3 ℝ} (h : Rel3 v w) : Rel3 v.abs w.abs := ⟨h.x.abs, h.y.abs, h.z.abs⟩
theorem Rel3.smul {v : V3 XR} {w : V3 ℝ} (h : Rel3 v w) {a : XR} {r : ℝ} (k : Rel a r) : Rel3 (v.smul a) (w.smul r) :=
  ⟨h.x.mul k, h.y.mul k, h.z.mul k⟩
theorem Rel3.max {v v' : V3 XR} {w w' : V3 ℝ} (h : Rel3 v w) (k : Rel3 v' w') : Rel3 (v.max v') (w.max w') :=
  ⟨h.x.max k.x, h.y.max k.y, h.z.max k.z⟩
theorem Rel3.min {v v' : V3 XR} {w w' : V3 ℝ} (h : Rel3 v w) (k : Rel3 v' w') : Rel3 (v.min v') (w.min w') :=
  ⟨h.x.min k.x, h.y.min k.y, h.z.min k.z⟩
theorem Rel3.dot {v v' : V3 XR} {w w' : V3 ℝ} (h : Rel3 v w) (k : Rel3 v' w') : Rel (v.dot v') (w.dot w') :=
  ((h.x.mul k.x).add (h.y.mul k.y)).add (h.z.mul k.z)
theorem Rel3.maxComponent {v : V3 XR} {w : V3 ℝ} (h : Rel3 v w) : Rel v.maxComponent w.maxComponent := (h.x.max h.y).max h.z
theorem Rel3.permute {v : V3 XR} {w : V3 ℝ} (h : Rel3 v w) (a b c : Axis) : Rel3 (v.permute a b c) (w.permute a b c) :=
  ⟨h.get a, h.get b, h.get c⟩
theorem Rel3.maxAbsAxis {v : V3 XR} {w : V3 ℝ} (h : Rel3 v w) : v.maxAbsAxis = w.maxAbsAxis := by
  unfold V3.maxAbsAxis
  have h := h.abs
  simp only [h.y.le h.x, h.z.le h.x, h.z.le h.y]

theorem machineEpsilon_rel : Rel machineEpsilon (machineEpsilon : ℝ) := (Rel.lit _).mul (Rel.lit _)

theorem gamma_rel (q : ℚ) (h : |q| < 1000) : Rel (gamma (PT.lit q)) (gamma (PT.lit q)) := by
  have k := (Rel.lit q).mul machineEpsilon_rel
  refine k.div ((Rel.lit 1).sub k) ?_
  unfold machineEpsilon epsilon
  real_ops
  have h' : |(q : ℝ)| < 1000 := by exact_mod_cast h
  have := (abs_lt.1 h').2
  push_cast
  intro e
  nlinarith

end Fl

namespace Triangle
open Fl

/-- The stage of finite values is the stage of the numbers. -/
structure RelS (g : Stage XR) (g' : Stage ℝ) : Prop where
  e0 : Rel g.e0 g'.e0
  e1 : Rel g.e1 g'.e1
  e2 : Rel g.e2 g'.e2
  ts : Rel g.ts g'.ts
  dt : g'.det ≠ 0 → Rel g.dt g'.dt

theorem RelS.det {g : Stage XR} {g' : Stage ℝ} (h : RelS g g') : Rel g.det g'.det := (h.e0.add h.e1).add h.e2
theorem RelS.t {g : Stage XR} {g' : Stage ℝ} (h : RelS g g') (hd : g'.det ≠ 0) : Rel g.t g'.t := h.ts.div h.det hd

variable [Libm XR]

theorem rc_rel {o d p : V3 XR} {o' d' p' : V3 ℝ} (ho : Rel3 o o') (hd : Rel3 d d') (hp : Rel3 p p') (m : Axis) (hm : d'.get m ≠ 0) :
    Rel3 (rc o d m p) (rc o' d' m p') := by
  have hq := (hp.add ho.neg).permute m.prev m.next m
  have hx := (hd.get m.prev).neg.div (hd.get m) hm
  have hy := (hd.get m.next).neg.div (hd.get m) hm
  exact ⟨hq.x.add (hq.z.mul hx), hq.y.add (hq.z.mul hy), hq.z⟩

theorem stageOf_rel {a b c : V3 XR} {a' b' c' : V3 ℝ} (ha : Rel3 a a') (hb : Rel3 b b') (hc : Rel3 c c') {sz : XR} {sz' : ℝ}
    (hs : Rel sz sz') : RelS (stageOf a b c sz) (stageOf a' b' c' sz') := by
  have e0 := (hb.x.mul hc.y).sub (hb.y.mul hc.x)
  have e1 := (hc.x.mul ha.y).sub (hc.y.mul ha.x)
  have e2 := (ha.x.mul hb.y).sub (ha.y.mul hb.x)
  have az := ha.z.mul hs
  have bz := hb.z.mul hs
  have cz := hc.z.mul hs
  refine ⟨e0, e1, e2, ((az.mul e0).add (bz.mul e1)).add (cz.mul e2), fun hdet => ?_⟩
  have g2 := gamma_rel 2 (by norm_num)
  have g3 := gamma_rel 3 (by norm_num)
  have g5 := gamma_rel 5 (by norm_num)
  have mx := (Rel3.of ha.x hb.x hc.x).abs.maxComponent
  have my := (Rel3.of ha.y hb.y hc.y).abs.maxComponent
  have mz := (Rel3.of az bz cz).abs.maxComponent
  have me := (Rel3.of e0 e1 e2).abs.maxComponent
  have dx := mx.mul g5
  have dy := my.mul g5
  have dz := mz.mul g3
  have de := ((((g2.mul mx).mul my).add (mx.mul dy)).add (my.mul dx)).mul (Rel.lit 2)
  refine ((Rel.lit 3).mul ((((g3.mul me).mul mz).add (mz.mul de)).add (me.mul dz))).div ((e0.add e1).add e2).abs ?_
  rw [r_abs]
  exact abs_ne_zero.2 hdet

theorem stage_rel {s : Triangle XR} {s' : Triangle ℝ} (h0 : Rel3 s.v0 s'.v0) (h1 : Rel3 s.v1 s'.v1) (h2 : Rel3 s.v2 s'.v2)
    {o d : V3 XR} {o' d' : V3 ℝ} (ho : Rel3 o o') (hd : Rel3 d d') (m : Axis) (hm : d'.get m ≠ 0) :
    RelS (stage s o d m) (stage s' o' d' m) :=
  stageOf_rel (rc_rel ho hd h0 m hm) (rc_rel ho hd h1 m hm) (rc_rel ho hd h2 m hm) ((Rel.lit 1).div (hd.get m) hm)

omit [Libm XR] in
/-- With a finite range the tests agree. -/
theorem RelS.rejects {g : Stage XR} {g' : Stage ℝ} (h : RelS g g') {tm : XR} (hr : tm.IsFin) : g.rejects tm = g'.rejects tm.val := by
  have z := Rel.lit 0
  have hm : g.mixed = g'.mixed := by
    unfold Stage.mixed
    rw [h.e0.lt z, h.e1.lt z, h.e2.lt z, z.lt h.e0, z.lt h.e1, z.lt h.e2]
  have hd := h.det
  have ho : g.out tm = g'.out tm.val := by
    unfold Stage.out
    obtain ⟨mf, mv⟩ := exact_mul hr hd.fin
    have k1 : (g.ts <. tm *. g.det) = (g'.ts <. tm.val *. g'.det) := by
      rw [Bool.eq_iff_iff, f_lt, f_mul, lt_val h.ts.fin mf, mv, h.ts.val, hd.val]; real_ops
    have k2 : (tm *. g.det <. g.ts) = (tm.val *. g'.det <. g'.ts) := by
      rw [Bool.eq_iff_iff, f_lt, f_mul, lt_val mf h.ts.fin, mv, h.ts.val, hd.val]; real_ops
    rw [hd.lt z, z.lt hd, k1, z.le h.ts, h.ts.le z, k2]
  unfold Stage.rejects
  rw [hm, ho, hd.eq z]
  by_cases hz : g'.det = 0
  · have : (g'.det ==. PT.lit 0) = true := by real_ops; exact hz
    simp [this]
  · rw [(h.t hz).le (h.dt hz)]

omit [Libm XR] in
/-- An infinite range, or the NaN range, behaves like any range beyond the parameter. -/
theorem RelS.rejects_unbounded {g : Stage XR} {g' : Stage ℝ} (h : RelS g g') {tm : XR} (htm : tm = inf false ∨ tm = nan) :
    g.rejects tm = g'.rejects g'.t := by
  have z := Rel.lit 0
  have hm : g.mixed = g'.mixed := by
    unfold Stage.mixed
    rw [h.e0.lt z, h.e1.lt z, h.e2.lt z, z.lt h.e0, z.lt h.e1, z.lt h.e2]
  have hd := h.det
  unfold Stage.rejects
  rw [hm, hd.eq z]
  by_cases hz : g'.det = 0
  · have : (g'.det ==. PT.lit 0) = true := by real_ops; exact hz
    simp [this]
  have ho : g.out tm = g'.out g'.t := by
    unfold Stage.out
    rw [hd.lt z, z.lt hd, z.le h.ts, h.ts.le z]
    have e : g'.t *. g'.det = g'.ts := by
      unfold Stage.t; real_ops; field_simp
    rw [e]
    have e1 : (g'.ts <. g'.ts) = false := by real_ops; simp
    rw [e1]
    obtain ⟨s, x, hx⟩ := IsFin_iff.1 hd.fin
    obtain ⟨s', x', hx'⟩ := IsFin_iff.1 h.ts.fin
    have hv : sgn s x = g'.det := by rw [← hd.val, hx]; rfl
    rcases htm with rfl | rfl
    · have hx0 : x ≠ 0 := by
        rintro rfl; apply hz; rw [← hv]; cases s <;> simp [sgn]
      have hw := hd.wf
      rw [hx] at hw
      rw [f_mul, hx, hx']
      simp only [mul, hx0, if_false, f_lt, lt, Bool.false_xor]
      cases s
      · have : (g'.det <. PT.lit 0) = false := by
          real_ops; rw [← hv]; simpa [sgn] using hw.1
        rw [this]; simp
      · have : (PT.lit 0 <. g'.det) = false := by
          real_ops; rw [← hv]; simpa [sgn] using hw.1
        rw [this]; simp
    · rw [f_mul]
      have : mul (nan : XR) g.det = nan := by rw [hx]; rfl
      rw [this, f_lt, f_lt, lt_nan_left, lt_nan_right]
  rw [ho, (h.t hz).le (h.dt hz)]

omit [Libm XR] in
theorem RelS.rejects_neg_inf {g : Stage XR} {g' : Stage ℝ} (h : RelS g g') : g.rejects (inf true) = true := by
  have z := Rel.lit 0
  have hd := h.det
  unfold Stage.rejects
  rw [hd.eq z]
  by_cases hz : g'.det = 0
  · have : (g'.det ==. PT.lit 0) = true := by real_ops; exact hz
    simp [this]
  have ho : g.out (inf true) = true := by
    unfold Stage.out
    rw [hd.lt z, z.lt hd]
    obtain ⟨s, x, hx⟩ := IsFin_iff.1 hd.fin
    obtain ⟨s', x', hx'⟩ := IsFin_iff.1 h.ts.fin
    have hv : sgn s x = g'.det := by rw [← hd.val, hx]; rfl
    have hx0 : x ≠ 0 := by
      rintro rfl; apply hz; rw [← hv]; cases s <;> simp [sgn]
    have hw := hd.wf
    rw [hx] at hw
    have hpos : 0 < x := lt_of_le_of_ne hw.1 (Ne.symm hx0)
    rw [f_mul, hx, hx']
    simp only [mul, hx0, if_false, f_lt, lt, Bool.true_xor]
    cases s
    · have : (PT.lit 0 <. g'.det) = true := by
        real_ops; rw [← hv]; simpa [sgn] using hpos
      rw [this]; simp
    · have : (g'.det <. PT.lit 0) = true := by
        real_ops; rw [← hv]; simpa [sgn] using hpos
      rw [this]; simp
  rw [ho]; simp

omit [Libm XR] in
/-- In exact arithmetic the range test is `t ≤ t_max`. -/
theorem rejects_real_iff (g : Stage ℝ) (x : ℝ) : g.rejects x = false ↔ g.rejects g.t = false ∧ g.t ≤ x := by
  unfold Stage.rejects
  by_cases hz : g.det = 0
  · have : (g.det ==. PT.lit 0) = true := by real_ops; exact hz
    simp [this]
  have ho : g.out x = false ↔ g.out g.t = false ∧ g.t ≤ x := by
    unfold Stage.out
    have e : g.t *. g.det = g.ts := by
      unfold Stage.t; real_ops; field_simp
    have et : g.t = g.ts / g.det := rfl
    rw [e]
    real_ops
    rcases lt_or_gt_of_ne hz with h | h
    · simp only [h, not_lt.2 h.le, decide_true, decide_false, Bool.true_and, Bool.false_and, Bool.or_false, Bool.or_eq_false_iff,
        decide_eq_false_iff_not, not_lt, not_le, lt_irrefl, decide_eq_true_eq]
      rw [et, div_le_iff_of_neg h]
      simp [and_comm]
    · simp only [h, not_lt.2 h.le, decide_true, decide_false, Bool.true_and, Bool.false_and, Bool.false_or, Bool.or_eq_false_iff,
        decide_eq_false_iff_not, not_lt, not_le, lt_irrefl, decide_eq_true_eq]
      rw [et, div_le_iff₀ h]
      simp
  simp only [Bool.or_eq_false_iff, ho]
  tauto

omit [Libm XR] in
/-- The same for the extended reals. -/
theorem RelS.rejects_iff {g : Stage XR} {g' : Stage ℝ} (h : RelS g g') (tm : XR) :
    g.rejects tm = false ↔ g'.rejects g'.t = false ∧ (tm = nan ∨ Fl.le (Fl.fin false g'.t) tm = true) := by
  cases tm with
  | nan => rw [h.rejects_unbounded (Or.inr rfl)]; simp
  | inf s =>
    cases s
    · rw [h.rejects_unbounded (Or.inl rfl)]; simp [Fl.le]
    · rw [h.rejects_neg_inf]; simp [Fl.le]
  | fin s a =>
    rw [h.rejects (tm := Fl.fin s a) trivial, rejects_real_iff]
    simp [Fl.le, val, sgn]

end Triangle
end PT
