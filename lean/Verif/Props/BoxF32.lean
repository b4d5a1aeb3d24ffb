import Verif.Lemmas.FlOk
import Verif.Props.BBox

/-!
# The ray/box test in single precision (C34)

The test widens the far end of each slab by the factor `1 + 2γ(3)`.  Here it is shown that this is enough for the rounding errors of
subtraction, division and multiplication.
-/

namespace PT
open Fl

namespace Spec
/-- The value is a number not above `q`, or minus infinity. -/
def AtMost (x : F32) (q : ℚ) : Prop := x = Fl.inf true ∨ (Num x ∧ x.val ≤ q)
/-- The value is a number not below `q`, or plus infinity. -/
def AtLeast (x : F32) (q : ℚ) : Prop := x = Fl.inf false ∨ (Num x ∧ q ≤ x.val)
/-- The box has finite corners, the ray a finite origin and direction, and their differences do not overflow. -/
def Sized (b : BBox3 F32) (ray : Ray F32) : Prop :=
  ∀ a, Num (b.min.get a) ∧ Num (b.max.get a) ∧ Num (ray.origin.get a) ∧ Num (ray.direction.get a) ∧
    |(b.min.get a).val - (ray.origin.get a).val| ≤ 2 ^ 126 ∧ |(b.max.get a).val - (ray.origin.get a).val| ≤ 2 ^ 126
/-- The exact point of the ray at parameter `t` is in the box. -/
def RayPointInBox (b : BBox3 F32) (ray : Ray F32) (t : ℚ) : Prop :=
  ∀ a, (b.min.get a).val ≤ (ray.origin.get a).val + t * (ray.direction.get a).val ∧
    (ray.origin.get a).val + t * (ray.direction.get a).val ≤ (b.max.get a).val
/-- A direction component is negative zero while the origin is exactly on one of the two faces of that axis. -/
def NegZeroFace (b : BBox3 F32) (ray : Ray F32) : Prop :=
  ∃ a, ray.direction.get a = Fl.fin true 0 ∧
    ((ray.origin.get a).val = (b.min.get a).val ∨ (ray.origin.get a).val = (b.max.get a).val)
end Spec
open Spec

theorem Spec.AtMost.mono {x : F32} {p q : ℚ} (h : AtMost x p) (k : p ≤ q) : AtMost x q := h.imp_right fun h => ⟨h.1, h.2.trans k⟩
theorem Spec.AtLeast.mono {x : F32} {p q : ℚ} (h : AtLeast x p) (k : q ≤ p) : AtLeast x q := h.imp_right fun h => ⟨h.1, k.trans h.2⟩

/-- Rounding keeps upper bounds. -/
theorem ofVal_atMost {x q r : ℚ} (h : x ≤ q) (hn : Num (ofVal q false : F32)) (hr : (ofVal q false : F32).val ≤ r) (zs : Bool) :
    AtMost (ofVal x zs : F32) r := by
  have m := ofVal_mono (φ := Binary32) h zs false
  have w := ofVal_WF (φ := Binary32) x zs
  generalize (ofVal x zs : F32) = y at *
  generalize (ofVal q false : F32) = z at *
  obtain ⟨s, k, rfl⟩ := IsFin_iff.1 hn.fin
  cases y with
  | nan => simp [le] at m
  | inf s => cases s with
    | true => exact Or.inl rfl
    | false => simp [le] at m
  | fin s k => exact Or.inr ⟨⟨w, trivial⟩, ((le_val (a := (fin s k : F32)) (b := fin _ _) trivial trivial).1 m).trans hr⟩

theorem ofVal_atLeast {x q r : ℚ} (h : q ≤ x) (hn : Num (ofVal q false : F32)) (hr : r ≤ (ofVal q false : F32).val) (zs : Bool) :
    AtLeast (ofVal x zs : F32) r := by
  have m := ofVal_mono (φ := Binary32) h false zs
  have w := ofVal_WF (φ := Binary32) x zs
  generalize (ofVal x zs : F32) = y at *
  generalize (ofVal q false : F32) = z at *
  obtain ⟨s, k, rfl⟩ := IsFin_iff.1 hn.fin
  cases y with
  | nan => simp [le] at m
  | inf s => cases s with
    | false => exact Or.inl rfl
    | true => simp [le] at m
  | fin s k => exact Or.inr ⟨⟨w, trivial⟩, hr.trans ((le_val (a := (fin _ _ : F32)) (b := fin s k) trivial trivial).1 m)⟩

theorem not_gt {x y : F32} {p q : ℚ} (hx : AtMost x p) (hy : AtLeast y q) (h : p ≤ q) : lt y x = false := by
  rcases hx with rfl | ⟨nx, hx⟩
  · cases y <;> simp [lt]
  · rcases hy with rfl | ⟨ny, hy⟩
    · cases x <;> simp [lt]
    · rw [← Bool.not_eq_true, lt_val ny.fin nx.fin]; exact not_lt.2 (hx.trans (h.trans hy))

/-- What is not above a bounded value is bounded. -/
theorem atMost_of_not_lt {x y : F32} {p : ℚ} (hx : AtMost x p) (hy : y ≠ nan) (hw : y.WF) (h : lt x y = false) : AtMost y p := by
  rcases hx with rfl | ⟨nx, hx⟩
  · cases y with
    | nan => exact absurd rfl hy
    | inf s => cases s <;> simp [lt] at h; exact Or.inl rfl
    | fin s a => simp [lt] at h
  · obtain ⟨s, a, rfl⟩ := IsFin_iff.1 nx.fin
    cases y with
    | nan => exact absurd rfl hy
    | inf s => cases s <;> simp [lt] at h; exact Or.inl rfl
    | fin s a =>
      refine Or.inr ⟨⟨hw, trivial⟩, ?_⟩
      have := mt (lt_val nx.fin (b := fin s a) trivial).2 (by rw [h]; simp)
      exact (not_lt.1 this).trans hx

theorem atLeast_of_not_lt {x y : F32} {p : ℚ} (hx : AtLeast x p) (hy : y ≠ nan) (hw : y.WF) (h : lt y x = false) : AtLeast y p := by
  rcases hx with rfl | ⟨nx, hx⟩
  · cases y with
    | nan => exact absurd rfl hy
    | inf s => cases s <;> simp [lt] at h; exact Or.inl rfl
    | fin s a => simp [lt] at h
  · obtain ⟨s, a, rfl⟩ := IsFin_iff.1 nx.fin
    cases y with
    | nan => exact absurd rfl hy
    | inf s => cases s <;> simp [lt] at h; exact Or.inl rfl
    | fin s a =>
      refine Or.inr ⟨⟨hw, trivial⟩, ?_⟩
      have := mt (lt_val (a := fin s a) trivial nx.fin).2 (by rw [h]; simp)
      exact hx.trans (not_lt.1 this)

theorem atMost_ne_nan {x : F32} {p : ℚ} (h : AtMost x p) : x ≠ nan := by
  rcases h with rfl | ⟨n, _⟩
  · simp
  · obtain ⟨s, a, rfl⟩ := IsFin_iff.1 n.fin; simp
theorem atLeast_ne_nan {x : F32} {p : ℚ} (h : AtLeast x p) : x ≠ nan := by
  rcases h with rfl | ⟨n, _⟩
  · simp
  · obtain ⟨s, a, rfl⟩ := IsFin_iff.1 n.fin; simp
theorem atMost_WF {x : F32} {p : ℚ} (h : AtMost x p) : x.WF := by
  rcases h with rfl | ⟨n, _⟩
  · trivial
  · exact n.wf
theorem atLeast_WF {x : F32} {p : ℚ} (h : AtLeast x p) : x.WF := by
  rcases h with rfl | ⟨n, _⟩
  · trivial
  · exact n.wf

/-- A quotient of numbers is the rounded quotient. -/
theorem div_val {a b : F32} (ha : Num a) (hb : Num b) (h0 : b.val ≠ 0) : ∃ zs, a /. b = ofVal (a.val / b.val) zs := by
  obtain ⟨s, m, rfl⟩ := IsFin_iff.1 ha.fin
  obtain ⟨t, k, rfl⟩ := IsFin_iff.1 hb.fin
  have hk : k ≠ 0 := by rintro rfl; apply h0; cases t <;> simp [val, sgn]
  have e0 : (fin s m /. fin t k : F32) = ofMag (s ^^ t) (m / k) := by simp [f_div, div, hk]
  obtain ⟨zs, e⟩ := ofMag_ofVal (φ := Binary32) (div_nonneg ha.wf.1 hb.wf.1 : 0 ≤ m / k) (s ^^ t)
  exact ⟨zs, by rw [e0, e, sgn_xor_div]; rfl⟩

/-- A difference divided by zero. -/
theorem sub_div_zero {x o : F32} (nx : Num x) (no : Num o) (hs : |x.val - o.val| ≤ 2 ^ 126) (s : Bool) :
    (x.val = o.val → (x -. o) /. fin s 0 = nan) ∧ (x.val < o.val → (x -. o) /. fin s 0 = inf (!s)) ∧
    (o.val < x.val → (x -. o) /. fin s 0 = inf s) := by
  obtain ⟨n, e⟩ := sub_ok nx no hs
  generalize (x -. o : F32) = y at *
  obtain ⟨s', m, rfl⟩ := IsFin_iff.1 n.fin
  have m0 : 0 ≤ m := n.wf.1
  have ev : (fin s' m : F32).val = sgn s' m := rfl
  rw [ev] at e
  generalize x.val = u at *
  generalize o.val = v at *
  refine ⟨fun h => ?_, fun h => ?_, fun h => ?_⟩
  · rw [h, sub_self, abs_zero, zero_mul, sub_zero] at e
    have : m = 0 := by
      have := abs_eq_zero.1 (le_antisymm e (abs_nonneg _))
      cases s' <;> simpa [sgn] using this
    subst this
    simp [f_div, div]
  · rw [abs_of_neg (by linarith : u - v < 0), abs_le] at e
    have k : sgn s' m < 0 := by simp only [ulpHalf] at e; linarith [e.2]
    have hm : m ≠ 0 := by rintro rfl; cases s' <;> simp [sgn] at k
    cases s' with
    | false => simp only [sgn, Bool.false_eq_true, if_false] at k; linarith
    | true => simp [f_div, div, hm]
  · rw [abs_of_pos (by linarith : 0 < u - v), abs_le] at e
    have k : 0 < sgn s' m := by simp only [ulpHalf] at e; linarith [e.1]
    have hm : m ≠ 0 := by rintro rfl; cases s' <;> simp [sgn] at k
    cases s' with
    | true => simp only [sgn, if_true] at k; linarith
    | false => simp [f_div, div, hm]

/-- The common bound of all near ends from above and of all far ends from below. -/
def mid (t : ℚ) : ℚ := t * (1 + 5 / 2 * ulpHalf)

/-- Near end of a slab: subtraction and division. -/
theorem near_ok {l o d : F32} {t : ℚ} (nl : Num l) (no : Num o) (nd : Num d) (hs : |l.val - o.val| ≤ 2 ^ 126) (hd : d.val ≠ 0)
    (ht : t = 0 ∨ (1 / 2 ^ 100 ≤ t ∧ t ≤ 2 ^ 120)) (h : (l.val - o.val) / d.val ≤ t) : AtMost ((l -. o) /. d) (mid t) := by
  obtain ⟨n1, e1⟩ := sub_ok nl no hs
  obtain ⟨zs, e⟩ := div_val n1 nd hd
  have t0 : 0 ≤ t := by rcases ht with rfl | ⟨h, _⟩; · exact le_rfl
                        · exact le_trans (by norm_num) h
  have q : (l -. o).val / d.val ≤ t * (1 + ulpHalf) := by
    have : |(l -. o).val / d.val - (l.val - o.val) / d.val| ≤ |(l.val - o.val) / d.val| * ulpHalf := by
      rw [← sub_div, abs_div, abs_div, div_mul_eq_mul_div]
      gcongr
    rw [abs_le] at this
    rcases le_total 0 ((l.val - o.val) / d.val) with k | k
    · rw [abs_of_nonneg k] at this
      simp only [ulpHalf] at *
      linarith
    · rw [abs_of_nonpos k] at this
      simp only [ulpHalf] at *
      linarith
  rw [e]
  have u0 : (0 : ℚ) ≤ t * (1 + ulpHalf) := mul_nonneg t0 (by norm_num [ulpHalf])
  have nq : Num (ofVal (t * (1 + ulpHalf)) false : F32) := by
    refine ofVal_ok ?_ false
    rw [abs_of_nonneg u0]
    rcases ht with rfl | ⟨_, h⟩
    · norm_num
    · simp only [ulpHalf]; linarith
  refine ofVal_atMost q nq ?_ zs
  rcases ht with rfl | ⟨h1, _⟩
  · simp [ofVal, val, sgn, mid]
  · have := abs_le.1 (ofVal_err nq.fin)
    rw [abs_of_nonneg u0] at this
    simp only [mid, ulpHalf, tinyHalf] at *
    linarith

/-- Far end of a slab: subtraction, division and the widening. -/
theorem far_ok {l o d : F32} {t : ℚ} (nl : Num l) (no : Num o) (nd : Num d) (hs : |l.val - o.val| ≤ 2 ^ 126) (hd : d.val ≠ 0)
    (ht : t = 0 ∨ (1 / 2 ^ 100 ≤ t ∧ t ≤ 2 ^ 120)) (h : t ≤ (l.val - o.val) / d.val) :
    AtLeast ((l -. o) /. d) (if t = 0 then 0 else t * (1 - 201 / 100 * ulpHalf)) := by
  obtain ⟨n1, e1⟩ := sub_ok nl no hs
  obtain ⟨zs, e⟩ := div_val n1 nd hd
  have t0 : 0 ≤ t := by rcases ht with rfl | ⟨h, _⟩; · exact le_rfl
                        · exact le_trans (by norm_num) h
  have q : t * (1 - ulpHalf) ≤ (l -. o).val / d.val := by
    have : |(l -. o).val / d.val - (l.val - o.val) / d.val| ≤ |(l.val - o.val) / d.val| * ulpHalf := by
      rw [← sub_div, abs_div, abs_div, div_mul_eq_mul_div]
      gcongr
    rw [abs_le, abs_of_nonneg (t0.trans h)] at this
    simp only [ulpHalf] at *
    linarith
  rw [e]
  have u0 : (0 : ℚ) ≤ t * (1 - ulpHalf) := mul_nonneg t0 (by norm_num [ulpHalf])
  have nq : Num (ofVal (t * (1 - ulpHalf)) false : F32) := by
    refine ofVal_ok ?_ false
    rw [abs_of_nonneg u0]
    rcases ht with rfl | ⟨_, h⟩
    · norm_num
    · simp only [ulpHalf]; linarith
  refine ofVal_atLeast q nq ?_ zs
  rcases ht with rfl | ⟨h1, _⟩
  · simp [ofVal, val, sgn]
  · have := abs_le.1 (ofVal_err nq.fin)
    rw [abs_of_nonneg u0] at this
    rw [if_neg (by intro h; rw [h] at h1; norm_num at h1)]
    simp only [ulpHalf, tinyHalf] at *
    linarith

theorem widen_val : (lit 1 +. lit 2 *. gamma (lit 3) : F32) = fin false (1 + 6 / 2 ^ 24) ∧ Num (lit 1 +. lit 2 *. gamma (lit 3) : F32) := by
  have e : (lit 1 +. lit 2 *. gamma (lit 3) : F32) = fin false (1 + 6 / 2 ^ 24) := by decide +kernel
  exact ⟨e, by rw [e]; exact ⟨⟨by norm_num, by decide +kernel⟩, trivial⟩⟩

theorem widen_ok {x : F32} {t : ℚ} (ht : t = 0 ∨ (1 / 2 ^ 100 ≤ t ∧ t ≤ 2 ^ 120))
    (h : AtLeast x (if t = 0 then 0 else t * (1 - 201 / 100 * ulpHalf))) : AtLeast (x *. (lit 1 +. lit 2 *. gamma (lit 3))) (mid t) := by
  obtain ⟨e, n⟩ := widen_val
  rcases h with rfl | ⟨nx, h⟩
  · left; rw [e]; simp [f_mul, mul]; norm_num
  obtain ⟨zs, e'⟩ := mul_val nx n
  have ev : (lit 1 +. lit 2 *. gamma (lit 3) : F32).val = 1 + 6 / 2 ^ 24 := by rw [e]; rfl
  rw [e', ev]
  rcases ht with rfl | ⟨h1, h2⟩
  · rw [if_pos rfl] at h
    refine ofVal_atLeast (q := 0) (by nlinarith) (ofVal_ok (by norm_num) _) ?_ zs
    simp [ofVal, val, sgn, mid]
  · rw [if_neg (by intro h; rw [h] at h1; norm_num at h1)] at h
    have k : t * (1 - 201 / 100 * ulpHalf) * (1 + 6 / 2 ^ 24) ≤ x.val * (1 + 6 / 2 ^ 24) := by gcongr
    have u0 : 0 ≤ t * (1 - 201 / 100 * ulpHalf) * (1 + 6 / 2 ^ 24) := by
      simp only [ulpHalf]
      have : 0 ≤ t := le_trans (by norm_num) h1
      exact mul_nonneg (mul_nonneg this (by norm_num)) (by norm_num)
    have nq : Num (ofVal (t * (1 - 201 / 100 * ulpHalf) * (1 + 6 / 2 ^ 24)) false : F32) := by
      refine ofVal_ok ?_ false
      rw [abs_of_nonneg u0]
      simp only [ulpHalf]
      linarith
    refine ofVal_atLeast k nq ?_ zs
    have := abs_le.1 (ofVal_err nq.fin)
    rw [abs_of_nonneg u0] at this
    simp only [mid, ulpHalf, tinyHalf] at *
    linarith

/-- What one axis needs, whatever the order of the two ends. -/
theorem slab_key {p q near far : F32} {t : ℚ} {r : F32 × F32} (hr1 : AtMost r.1 (mid t)) (hr2 : AtLeast r.2 (mid t))
    (e : (if p >. q then (q, p) else (p, q)) = (near, far)) (hn : near = nan ∨ AtMost near (mid t))
    (hf : far *. (lit 1 +. lit 2 *. gamma (lit 3)) = nan ∨ AtLeast (far *. (lit 1 +. lit 2 *. gamma (lit 3))) (mid t)) :
    ∃ r', (let (tNear, tFar) := if p >. q then (q, p) else (p, q)
        let tFar := tFar *. (lit 1 +. lit 2 *. gamma (lit 3))
        let t0 := if tNear >. r.1 then tNear else r.1
        let t1 := if tFar <. r.2 then tFar else r.2
        if t0 >. t1 then none else some (t0, t1)) = some r' ∧ AtMost r'.1 (mid t) ∧ AtLeast r'.2 (mid t) := by
  rw [e]
  simp only []
  generalize far *. (lit 1 +. lit 2 *. gamma (lit 3)) = far' at *
  have a1 : AtMost (if near >. r.1 then near else r.1) (mid t) := by
    by_cases h : (r.1 <. near) = true
    · rw [if_pos h]
      rcases hn with rfl | hn
      · rw [f_lt, lt_nan_right] at h; cases h
      · exact hn
    · rw [if_neg h]; exact hr1
  have a2 : AtLeast (if far' <. r.2 then far' else r.2) (mid t) := by
    by_cases h : (far' <. r.2) = true
    · rw [if_pos h]
      rcases hf with rfl | hf
      · rw [f_lt, lt_nan_left] at h; cases h
      · exact hf
    · rw [if_neg h]; exact hr2
  have a3 := not_gt a1 a2 le_rfl
  rw [← f_lt] at a3
  simp only [a3, Bool.false_eq_true, if_false]
  exact ⟨_, rfl, a1, a2⟩

/-- One axis of the test. -/
theorem slab_keeps32 (b : BBox3 F32) (ray : Ray F32) (a : Axis) {t : ℚ} (ht : t = 0 ∨ (1 / 2 ^ 100 ≤ t ∧ t ≤ 2 ^ 120))
    (hs : Sized b ray) (hz : ¬ NegZeroFace b ray) (hin : RayPointInBox b ray t) (r : F32 × F32) (hr1 : AtMost r.1 (mid t)) (hr2 : AtLeast r.2 (mid t)) :
    ∃ r', b.slab ray a r = some r' ∧ AtMost r'.1 (mid t) ∧ AtLeast r'.2 (mid t) := by
  obtain ⟨nl, nh, no, nd, s1, s2⟩ := hs a
  obtain ⟨i1, i2⟩ := hin a
  have hz' : ray.direction.get a = fin true 0 → (ray.origin.get a).val ≠ (b.min.get a).val ∧ (ray.origin.get a).val ≠ (b.max.get a).val :=
    fun h => ⟨fun e => hz ⟨a, h, Or.inl e⟩, fun e => hz ⟨a, h, Or.inr e⟩⟩
  unfold BBox3.slab
  generalize b.min.get a = lo at *
  generalize b.max.get a = hi at *
  generalize ray.origin.get a = o at *
  generalize ray.direction.get a = d at *
  clear hs hz hin
  simp only []
  have t0 : 0 ≤ t := by rcases ht with rfl | ⟨h, _⟩; · exact le_rfl
                        · exact le_trans (by norm_num) h
  by_cases hd : d.val = 0
  · obtain ⟨s, m, rfl⟩ := IsFin_iff.1 nd.fin
    have hm : m = 0 := by cases s <;> simpa [val, sgn] using hd
    subst hm
    rw [hd, mul_zero, add_zero] at i1 i2
    obtain ⟨a1, a2, -⟩ := sub_div_zero nl no s1 s
    obtain ⟨b1, -, b3⟩ := sub_div_zero nh no s2 s
    obtain ⟨we, -⟩ := widen_val
    have wnan : (nan : F32) *. (lit 1 +. lit 2 *. gamma (lit 3)) = nan := rfl
    have winf : (inf false : F32) *. (lit 1 +. lit 2 *. gamma (lit 3)) = inf false := by
      rw [we]; simp [f_mul, mul]; norm_num
    cases s with
    | true =>
      obtain ⟨z1, z2⟩ := hz' rfl
      rw [a2 (lt_of_le_of_ne i1 (Ne.symm z1)), b3 (lt_of_le_of_ne i2 z2)]
      exact slab_key (p := inf false) (q := inf true) (near := inf true) (far := inf false) hr1 hr2 rfl (Or.inr (Or.inl rfl)) (Or.inr (Or.inl winf))
    | false =>
      have hn : (lo -. o) /. fin false 0 = nan ∨ (lo -. o) /. fin false 0 = inf true := by
        rcases lt_or_eq_of_le i1 with h | h
        · exact Or.inr (a2 h)
        · exact Or.inl (a1 h)
      have hf : (hi -. o) /. fin false 0 = nan ∨ (hi -. o) /. fin false 0 = inf false := by
        rcases lt_or_eq_of_le i2 with h | h
        · exact Or.inr (b3 h)
        · exact Or.inl (b1 h.symm)
      rcases hn with hn | hn <;> rcases hf with hf | hf <;> rw [hn, hf]
      · exact slab_key (p := nan) (q := nan) (near := nan) (far := nan) hr1 hr2 rfl (Or.inl rfl) (Or.inl wnan)
      · exact slab_key (p := nan) (q := inf false) (near := nan) (far := inf false) hr1 hr2 rfl (Or.inl rfl) (Or.inr (Or.inl winf))
      · exact slab_key (p := inf true) (q := nan) (near := inf true) (far := nan) hr1 hr2 rfl (Or.inr (Or.inl rfl)) (Or.inl wnan)
      · exact slab_key (p := inf true) (q := inf false) (near := inf true) (far := inf false) hr1 hr2 rfl (Or.inr (Or.inl rfl)) (Or.inr (Or.inl winf))
  have wn : ∀ x : F32, Num x → ((x -. o) /. d).WF := fun x hx => div_WF (add_WF _ _) nd.wf
  have both : ∀ x y : F32, AtMost x (mid t) → AtLeast y (if t = 0 then 0 else t * (1 - 201 / 100 * ulpHalf)) → lt y x = true →
      AtMost y (mid t) ∧ AtLeast x (if t = 0 then 0 else t * (1 - 201 / 100 * ulpHalf)) := by
    intro x y hx hy h
    have h' : lt x y = false := lt_asymm' (le_of_lt' h)
    exact ⟨atMost_of_not_lt hx (atLeast_ne_nan hy) (atLeast_WF hy) h', atLeast_of_not_lt hy (atMost_ne_nan hx) (atMost_WF hx) h'⟩
  rcases lt_or_gt_of_ne hd with hneg | hpos
  · have k1 : t ≤ (lo.val - o.val) / d.val := by rw [le_div_iff_of_neg hneg]; linarith
    have k2 : (hi.val - o.val) / d.val ≤ t := by rw [div_le_iff_of_neg hneg]; linarith
    have g1 := far_ok nl no nd s1 hd ht k1
    have g2 := near_ok nh no nd s2 hd ht k2
    by_cases h : ((hi -. o) /. d <. (lo -. o) /. d) = true
    · exact slab_key hr1 hr2 (by rw [if_pos h]) (Or.inr g2) (Or.inr (widen_ok ht g1))
    · have h' := Bool.not_eq_true _ ▸ h
      rw [f_lt] at h'
      exact slab_key hr1 hr2 (by rw [if_neg h]) (Or.inr (atMost_of_not_lt g2 (atLeast_ne_nan g1) (atLeast_WF g1) h'))
        (Or.inr (widen_ok ht (atLeast_of_not_lt g1 (atMost_ne_nan g2) (atMost_WF g2) h')))
  · have k1 : (lo.val - o.val) / d.val ≤ t := by rw [div_le_iff₀ hpos]; linarith
    have k2 : t ≤ (hi.val - o.val) / d.val := by rw [le_div_iff₀ hpos]; linarith
    have g1 := near_ok nl no nd s1 hd ht k1
    have g2 := far_ok nh no nd s2 hd ht k2
    by_cases h : ((hi -. o) /. d <. (lo -. o) /. d) = true
    · obtain ⟨q1, q2⟩ := both _ _ g1 g2 (by rwa [f_lt] at h)
      exact slab_key hr1 hr2 (by rw [if_pos h]) (Or.inr q1) (Or.inr (widen_ok ht q2))
    · exact slab_key hr1 hr2 (by rw [if_neg h]) (Or.inr g1) (Or.inr (widen_ok ht g2))

/-- **C34** in single precision (partial: without the case `NegZeroFace`, for which the claim is false, and for parameters between
2⁻¹⁰⁰ and 2¹²⁰, or zero).  If the exact point of the ray at a parameter `t` is in the box, and `t_max` is not within the rounding error of
`t`, then the test reports a range, and the range includes `t` up to the rounding error. -/
theorem c34_f32_partial (b : BBox3 F32) (ray : Ray F32) (hs : Sized b ray) (hz : ¬ NegZeroFace b ray) (t : ℚ)
    (ht : t = 0 ∨ (1 / 2 ^ 100 ≤ t ∧ t ≤ 2 ^ 120)) (hin : RayPointInBox b ray t) (htm : AtLeast ray.tMax (t * (1 + 1 / 2 ^ 22))) :
    ∃ t0 t1, b.intersect ray = some (t0, t1) ∧ AtMost t0 (t * (1 + 1 / 2 ^ 22)) ∧ AtLeast t1 t := by
  have t0 : 0 ≤ t := by rcases ht with rfl | ⟨h, _⟩; · exact le_rfl
                        · exact le_trans (by norm_num) h
  have m1 : mid t ≤ t * (1 + 1 / 2 ^ 22) := by simp only [mid, ulpHalf]; linarith
  have m2 : t ≤ mid t := by simp only [mid, ulpHalf]; linarith
  have step := fun (a : Axis) (r : F32 × F32) => slab_keeps32 b ray a ht hs hz hin r
  obtain ⟨r1, e1, p1, q1⟩ := step .X (lit 0, ray.tMax) (Or.inr ⟨zero_ok.1, by rw [zero_ok.2]; linarith⟩) (htm.mono m1)
  obtain ⟨r2, e2, p2, q2⟩ := step .Y r1 p1 q1
  obtain ⟨r3, e3, p3, q3⟩ := step .Z r2 p2 q2
  refine ⟨r3.1, r3.2, ?_, p3.mono m1, q3.mono m2⟩
  simp only [BBox3.intersect, Option.bind_eq_bind]
  rw [e1, Option.bind_some, e2, Option.bind_some, e3]

theorem lit_int {n : ℤ} (h : |n| ≤ 100) : Num (PT.lit (n : ℚ) : F32) ∧ (PT.lit (n : ℚ) : F32).val = n := by
  have := ofInt_exact (n := n) (by linarith)
  have k : |(n : ℚ)| ≤ 100 := by exact_mod_cast h
  exact ⟨lit_ok (q := (n : ℚ)) (by linarith), this.2⟩

namespace Demo
/-- A flat box, and a ray that meets it at parameter 3 and has a zero direction component. -/
def flatBox : BBox3 F32 := ⟨⟨PT.lit ((1 : ℤ) : ℚ), PT.lit ((-2 : ℤ) : ℚ), PT.lit ((3 : ℤ) : ℚ)⟩, ⟨PT.lit ((4 : ℤ) : ℚ), PT.lit ((2 : ℤ) : ℚ), PT.lit ((3 : ℤ) : ℚ)⟩⟩
def boxRay : Ray F32 := ⟨⟨PT.lit ((0 : ℤ) : ℚ), PT.lit ((0 : ℤ) : ℚ), PT.lit ((0 : ℤ) : ℚ)⟩, ⟨PT.lit ((1 : ℤ) : ℚ), PT.lit ((0 : ℤ) : ℚ), PT.lit ((1 : ℤ) : ℚ)⟩, Fl.inf false⟩
end Demo

example : ∃ t0 t1, Demo.flatBox.intersect Demo.boxRay = some (t0, t1) ∧ AtMost t0 (3 * (1 + 1 / 2 ^ 22)) ∧ AtLeast t1 3 := by
  obtain ⟨n0, v0⟩ := lit_int (n := 0) (by norm_num)
  obtain ⟨n1, v1⟩ := lit_int (n := 1) (by norm_num)
  obtain ⟨n2, v2⟩ := lit_int (n := 2) (by norm_num)
  obtain ⟨n3, v3⟩ := lit_int (n := 3) (by norm_num)
  obtain ⟨n4, v4⟩ := lit_int (n := 4) (by norm_num)
  obtain ⟨n5, v5⟩ := lit_int (n := -2) (by norm_num)
  refine c34_f32_partial Demo.flatBox Demo.boxRay ?_ ?_ 3 (by norm_num) ?_ (Or.inl rfl)
  · intro a
    cases a <;> simp only [Demo.flatBox, Demo.boxRay, V3.get] <;> refine ⟨by assumption, by assumption, by assumption, by assumption, ?_⟩ <;>
      simp only [v0, v1, v2, v3, v4, v5] <;> norm_num
  · rintro ⟨a, h, -⟩
    revert h
    cases a <;> simp only [Demo.boxRay, V3.get] <;> decide +kernel
  · intro a
    cases a <;> simp only [Demo.flatBox, Demo.boxRay, V3.get] <;> simp only [v0, v1, v2, v3, v4, v5] <;> norm_num

end PT
