import Verif.Model.Material
import Verif.Lemmas.Vec

/-! # Reflection, refraction, Fresnel, smooth glass (C53–C56), exact arithmetic -/

namespace PT
open Spec

/-! ### C53 -/

theorem inner_self (v : V3 ℝ) : inner v v = sq v := by simp only [inner, Spec.sq]; ring

theorem inner_comm (v w : V3 ℝ) : inner v w = inner w v := by simp only [inner]; ring

theorem inner_comb_left (a b : ℝ) (v w u : V3 ℝ) : inner (comb a v b w) u = a * inner v u + b * inner w u := by
  simp only [inner, comb]; ring

theorem sq_comb (a b : ℝ) (v w : V3 ℝ) : sq (comb a v b w) = a ^ 2 * sq v + 2 * a * b * inner v w + b ^ 2 * sq w := by
  simp only [inner, comb, Spec.sq]; ring

theorem reflect_eq (w n : V3 ℝ) : reflect w n = comb (-1) w (2 * inner w n) n := by
  simp only [reflect, V3.add, V3.neg, V3.smul, dot_eq, comb]; real_ops
  ext <;> simp <;> ring

/-- C53: `reflect` about a unit normal keeps the length, keeps the inner product with the normal (the angle),
stays in the plane of `w` and `n`, and is an involution. -/
theorem c53_reflect (w n : V3 ℝ) (hn : sq n = 1) :
    sq (reflect w n) = sq w ∧ inner (reflect w n) n = inner w n ∧
    (∃ a b, reflect w n = comb a w b n) ∧ reflect (reflect w n) n = w := by
  have h2 : inner (reflect w n) n = inner w n := by
    rw [reflect_eq, inner_comb_left, inner_self, hn]; ring
  refine ⟨?_, h2, ⟨_, _, reflect_eq w n⟩, ?_⟩
  · rw [reflect_eq, sq_comb, hn]; ring
  · rw [reflect_eq (reflect w n), h2, reflect_eq]
    ext <;> simp only [comb] <;> ring

example : sq (⟨3 / 5, 0, 4 / 5⟩ : V3 ℝ) = 1 ∧ reflect (⟨1, 2, 3⟩ : V3 ℝ) ⟨3 / 5, 0, 4 / 5⟩ ≠ ⟨1, 2, 3⟩ := by
  refine ⟨by norm_num [Spec.sq], ?_⟩
  intro h
  rw [reflect_eq] at h
  have := congrArg V3.y h
  norm_num [comb] at this

/-- Reflecting also stays on the normal's side: the mirror direction is never on the other side of the surface. -/
theorem c53_same_side (w n : V3 ℝ) (hn : sq n = 1) (h : 0 < inner w n) : 0 < inner (reflect w n) n := by
  rw [(c53_reflect w n hn).2.1]; exact h

/-! ### C54 -/

/-- The squared sine of the angle between two unit vectors. -/
def Spec.sin2 (v n : V3 ℝ) : ℝ := 1 - inner v n ^ 2

theorem inner_sq_le {v n : V3 ℝ} (hv : sq v = 1) (hn : sq n = 1) : inner v n ^ 2 ≤ 1 := by
  have h : inner v n ^ 2 ≤ sq v * sq n := by
    simp only [inner, Spec.sq]
    nlinarith [sq_nonneg (v.x * n.y - v.y * n.x), sq_nonneg (v.x * n.z - v.z * n.x), sq_nonneg (v.y * n.z - v.z * n.y)]
  rw [hv, hn] at h; linarith

theorem refract_eq {wi n : V3 ℝ} {eta : ℝ} (hw : sq wi = 1) (hn : sq n = 1) :
    refract wi n eta = if 1 ≤ eta ^ 2 * sin2 wi n then none else
      some (comb (-eta) wi (inner wi n * eta - Real.sqrt (1 - eta ^ 2 * sin2 wi n)) n) := by
  have h := inner_sq_le hw hn
  have hm : max (1 - inner wi n * inner wi n) 0 = sin2 wi n := by
    rw [max_eq_left (by nlinarith)]; simp only [sin2]; ring
  simp only [refract, dot_eq]
  real_ops
  rw [hm, show eta * eta * sin2 wi n = eta ^ 2 * sin2 wi n by ring]
  by_cases h1 : 1 ≤ eta ^ 2 * sin2 wi n
  · simp [h1]
  · simp only [h1, if_false]
    congr 1
    ext <;> simp only [comb, V3.add, V3.smul, V3.neg] <;> real_ops <;> ring

/-- C54: `refract` answers `none` exactly in total internal reflection (`eta * sin ≥ 1`); otherwise the result is a
unit vector strictly on the other side of the surface, its tangential part is `-eta` times that of `wi` (so it is in
the plane of `wi` and `n` and its sine is `eta` times the incident sine). -/
theorem c54_refract (wi n : V3 ℝ) (eta : ℝ) (hw : sq wi = 1) (hn : sq n = 1) (he : 0 < eta) :
    (refract wi n eta = none ↔ 1 ≤ eta * Real.sqrt (sin2 wi n)) ∧
    ∀ wt, refract wi n eta = some wt →
      sq wt = 1 ∧ inner wt n < 0 ∧ (∃ a b, wt = comb a wi b n) ∧
      comb 1 wt (-inner wt n) n = comb (-eta) wi (eta * inner wi n) n ∧
      Real.sqrt (sin2 wt n) = eta * Real.sqrt (sin2 wi n) := by
  have hs : 0 ≤ sin2 wi n := by have := inner_sq_le hw hn; simp only [sin2]; linarith
  rw [refract_eq hw hn]
  have hsq : (eta * Real.sqrt (sin2 wi n)) ^ 2 = eta ^ 2 * sin2 wi n := by rw [mul_pow, Real.sq_sqrt hs]
  have hnn : 0 ≤ eta * Real.sqrt (sin2 wi n) := by positivity
  refine ⟨?_, ?_⟩
  · by_cases h1 : 1 ≤ eta ^ 2 * sin2 wi n
    · simp only [h1, if_true, true_iff]
      rw [← hsq] at h1
      nlinarith
    · simp only [h1, if_false, reduceCtorEq, false_iff]
      intro h; apply h1; rw [← hsq]; nlinarith
  · intro wt hwt
    by_cases h1 : 1 ≤ eta ^ 2 * sin2 wi n
    · simp [h1] at hwt
    · simp only [h1, if_false, Option.some.injEq] at hwt
      have hpos : 0 < 1 - eta ^ 2 * sin2 wi n := by linarith [not_le.mp h1]
      set k := Real.sqrt (1 - eta ^ 2 * sin2 wi n) with hk
      have hk0 : 0 < k := Real.sqrt_pos.mpr hpos
      have hk2 : k ^ 2 = 1 - eta ^ 2 * (1 - inner wi n ^ 2) := Real.sq_sqrt hpos.le
      have hin : inner wt n = -k := by
        rw [← hwt, inner_comb_left, inner_self, hn]; ring
      refine ⟨?_, by rw [hin]; linarith, ⟨_, _, hwt.symm⟩, ?_, ?_⟩
      · rw [← hwt, sq_comb, hw, hn]
        linear_combination hk2
      · rw [hin, ← hwt]; ext <;> simp only [comb] <;> ring
      · have : sin2 wt n = (eta * Real.sqrt (sin2 wi n)) ^ 2 := by
          rw [hsq]; simp only [sin2]; rw [hin]; linear_combination -hk2
        rw [this, Real.sqrt_sq hnn]

/-- A refracted and a totally reflected direction. -/
example : sq (⟨3 / 5, 0, 4 / 5⟩ : V3 ℝ) = 1 ∧ sq (⟨0, 0, 1⟩ : V3 ℝ) = 1 ∧
    refract (⟨3 / 5, 0, 4 / 5⟩ : V3 ℝ) ⟨0, 0, 1⟩ (1 / 2) ≠ none ∧ refract (⟨3 / 5, 0, 4 / 5⟩ : V3 ℝ) ⟨0, 0, 1⟩ 2 = none := by
  have h1 : sq (⟨3 / 5, 0, 4 / 5⟩ : V3 ℝ) = 1 := by norm_num [Spec.sq]
  have h2 : sq (⟨0, 0, 1⟩ : V3 ℝ) = 1 := by norm_num [Spec.sq]
  refine ⟨h1, h2, ?_, ?_⟩
  · rw [refract_eq h1 h2, if_neg (by norm_num [sin2, inner])]; simp
  · rw [refract_eq h1 h2]; norm_num [sin2, inner]

/-! ### C55 -/

/-- The Fresnel reflectance of a dielectric for cosines `ci`, `ct` > 0 on the sides with index `ni`, `nt`
(specification). -/
noncomputable def Spec.fresnel (ni nt ci ct : ℝ) : ℝ :=
  (((nt * ci - ni * ct) / (nt * ci + ni * ct)) ^ 2 + ((ni * ci - nt * ct) / (ni * ci + nt * ct)) ^ 2) / 2

/-- Entering from the side with index `etaI`. -/
theorem frDielectric_pos {c ni nt : ℝ} (h0 : 0 < c) (h1 : c ≤ 1) :
    frDielectric c ni nt = if 1 ≤ ni / nt * Real.sqrt (1 - c ^ 2) then 1 else
      Spec.fresnel ni nt c (Real.sqrt (max (1 - (ni / nt * Real.sqrt (1 - c ^ 2)) ^ 2) 0)) := by
  simp only [frDielectric, clamp]; real_ops
  have e1 : ¬ c < -1 := by linarith
  have e2 : ¬ 1 < c := by linarith
  simp only [e1, e2, h0, if_false, if_true]
  rw [show max (1 - c * c) 0 = 1 - c ^ 2 by rw [max_eq_left (by nlinarith)]; ring]
  split_ifs
  · rfl
  · simp only [Spec.fresnel, pow_two]

theorem frDielectric_neg {c ni nt : ℝ} (h0 : c ≤ 0) (h1 : -1 ≤ c) :
    frDielectric c ni nt = if 1 ≤ nt / ni * Real.sqrt (1 - c ^ 2) then 1 else
      Spec.fresnel nt ni (-c) (Real.sqrt (max (1 - (nt / ni * Real.sqrt (1 - c ^ 2)) ^ 2) 0)) := by
  simp only [frDielectric, clamp]; real_ops
  have e1 : ¬ c < -1 := by linarith
  have e2 : ¬ 1 < c := by linarith
  have e3 : ¬ 0 < c := by linarith
  simp only [e1, e2, e3, if_false]
  rw [show max (1 - c * -1 * (c * -1)) 0 = 1 - c ^ 2 by rw [max_eq_left (by nlinarith)]; ring]
  rw [show c * -1 = -c by ring]
  split_ifs
  · rfl
  · simp only [Spec.fresnel, pow_two]

theorem frDielectric_clamp (c ni nt : ℝ) : frDielectric c ni nt = frDielectric (max (-1) (min c 1)) ni nt := by
  simp only [frDielectric]
  have : ∀ x : ℝ, clamp x (⊖(lit 1)) (lit 1) = max (-1) (min x 1) := by
    intro x
    simp only [clamp]; real_ops
    by_cases h : x < -1
    · simp only [h, if_true]; rw [min_eq_left (by linarith), max_eq_left h.le]
    · by_cases h' : 1 < x
      · simp only [h, h', if_true, if_false]; rw [min_eq_right h'.le]; norm_num
      · simp only [h, h', if_false]; rw [min_eq_left (by linarith), max_eq_right (by linarith)]
  rw [this, this (max (-1) (min c 1))]
  congr 1 <;> simp

theorem fresnel_range {ni nt ci ct : ℝ} (h1 : 0 < ni) (h2 : 0 < nt) (h3 : 0 ≤ ci) (h4 : 0 < ct) :
    0 ≤ Spec.fresnel ni nt ci ct ∧ Spec.fresnel ni nt ci ct ≤ 1 := by
  have key : ∀ a b : ℝ, 0 ≤ a → 0 < b → ((a - b) / (a + b)) ^ 2 ≤ 1 := by
    intro a b ha hb
    rw [sq_le_one_iff_abs_le_one, abs_div, div_le_one (abs_pos.mpr (by linarith)), abs_of_pos (by linarith : 0 < a + b)]
    rw [abs_le]; constructor <;> linarith
  have a := key (nt * ci) (ni * ct) (by positivity) (by positivity)
  have b := key (ni * ci) (nt * ct) (by positivity) (by positivity)
  simp only [Spec.fresnel]
  constructor
  · positivity
  · linarith

theorem sqrt_max_pos {x : ℝ} (h0 : 0 ≤ x) (h : ¬ 1 ≤ x) : 0 < Real.sqrt (max (1 - x ^ 2) 0) := by
  apply Real.sqrt_pos.mpr
  apply lt_max_of_lt_left
  nlinarith

/-- C55: the dielectric reflectance is in [0, 1] for every cosine. -/
theorem c55_dielectric_range (c ni nt : ℝ) (hi : 0 < ni) (ht : 0 < nt) :
    0 ≤ frDielectric c ni nt ∧ frDielectric c ni nt ≤ 1 := by
  rw [frDielectric_clamp]
  have h1 : -1 ≤ max (-1) (min c 1) := le_max_left _ _
  have h2 : max (-1) (min c 1) ≤ 1 := by simp
  generalize max (-1) (min c 1) = x at *
  by_cases h : 0 < x
  · rw [frDielectric_pos h h2]
    split_ifs with hh
    · norm_num
    · exact fresnel_range hi ht h.le (sqrt_max_pos (by positivity) hh)
  · rw [frDielectric_neg (not_lt.mp h) h1]
    split_ifs with hh
    · norm_num
    · exact fresnel_range ht hi (by linarith) (sqrt_max_pos (by positivity) hh)

/-- C55: it is 1 in total internal reflection, from either side (`c > 0`: incident in the medium `ni`). -/
theorem c55_dielectric_total (c ni nt : ℝ) :
    (0 < c → c ≤ 1 → 1 ≤ ni / nt * Real.sqrt (1 - c ^ 2) → frDielectric c ni nt = 1) ∧
    (c < 0 → -1 ≤ c → 1 ≤ nt / ni * Real.sqrt (1 - c ^ 2) → frDielectric c ni nt = 1) := by
  constructor
  · intro h0 h1 h2; rw [frDielectric_pos h0 h1, if_pos h2]
  · intro h0 h1 h2; rw [frDielectric_neg h0.le h1, if_pos h2]

/-- C55: it is the textbook value otherwise: with `ct` the cosine given by Snell's law. -/
theorem c55_dielectric_value (ci ct ni nt : ℝ) (hi : 0 < ni) (ht : 0 < nt) (hci : 0 < ci) (hci1 : ci ≤ 1) (hct : 0 < ct)
    (hct1 : ct ≤ 1) (snell : ni ^ 2 * (1 - ci ^ 2) = nt ^ 2 * (1 - ct ^ 2)) :
    frDielectric ci ni nt = Spec.fresnel ni nt ci ct ∧ frDielectric (-ct) ni nt = Spec.fresnel nt ni ct ci := by
  have aux : ∀ a b x y : ℝ, 0 < a → 0 < b → 0 < x → x ≤ 1 → 0 < y → y ≤ 1 → a ^ 2 * (1 - x ^ 2) = b ^ 2 * (1 - y ^ 2) →
      ¬ 1 ≤ a / b * Real.sqrt (1 - x ^ 2) ∧ Real.sqrt (max (1 - (a / b * Real.sqrt (1 - x ^ 2)) ^ 2) 0) = y := by
    intro a b x y ha hb hx hx1 hy hy1 h
    have e : (a / b * Real.sqrt (1 - x ^ 2)) ^ 2 = 1 - y ^ 2 := by
      rw [mul_pow, Real.sq_sqrt (by nlinarith), div_pow, div_mul_eq_mul_div, h]; field_simp
    have hnn : 0 ≤ a / b * Real.sqrt (1 - x ^ 2) := by positivity
    constructor
    · intro hh; nlinarith [mul_pos hy hy]
    · rw [e, show (1 : ℝ) - (1 - y ^ 2) = y ^ 2 by ring, max_eq_left (by positivity), Real.sqrt_sq hy.le]
  constructor
  · obtain ⟨h1, h2⟩ := aux ni nt ci ct hi ht hci hci1 hct hct1 snell
    rw [frDielectric_pos hci hci1, if_neg h1, h2]
  · obtain ⟨h1, h2⟩ := aux nt ni ct ci ht hi hct hct1 hci hci1 snell.symm
    rw [frDielectric_neg (by linarith) (by linarith), neg_sq, if_neg h1, h2, neg_neg]

/-- C55: a path and its reversal see the same reflectance. -/
theorem c55_dielectric_reversible (ci ct ni nt : ℝ) (hi : 0 < ni) (ht : 0 < nt) (hci : 0 < ci) (hci1 : ci ≤ 1) (hct : 0 < ct)
    (hct1 : ct ≤ 1) (snell : ni ^ 2 * (1 - ci ^ 2) = nt ^ 2 * (1 - ct ^ 2)) :
    frDielectric ci ni nt = frDielectric (-ct) ni nt := by
  obtain ⟨h1, h2⟩ := c55_dielectric_value ci ct ni nt hi ht hci hci1 hct hct1 snell
  rw [h1, h2]
  simp only [Spec.fresnel]
  have e1 : nt * ci + ni * ct ≠ 0 := by positivity
  have e2 : ni * ci + nt * ct ≠ 0 := by positivity
  have e3 : ni * ct + nt * ci ≠ 0 := by positivity
  have e4 : nt * ct + ni * ci ≠ 0 := by positivity
  rw [show ni * ct - nt * ci = -(nt * ci - ni * ct) by ring, show nt * ct - ni * ci = -(ni * ci - nt * ct) by ring,
    add_comm (ni * ct), add_comm (nt * ct), neg_div, neg_div, neg_sq, neg_sq]

/-- Air to glass of index 4/3 at sine 4/5. -/
example : (1 : ℝ) ^ 2 * (1 - (3 / 5) ^ 2) = (4 / 3) ^ 2 * (1 - (4 / 5) ^ 2) ∧ (1 : ℝ) ≤ (4 / 1) * Real.sqrt (1 - (4 / 5) ^ 2) := by
  refine ⟨by norm_num, ?_⟩
  rw [show (1 - (4 / 5) ^ 2 : ℝ) = (3 / 5) ^ 2 by norm_num, Real.sqrt_sq (by norm_num)]; norm_num

/-- One channel of the conductor formula. -/
noncomputable def condChannel (c ni nt k : ℝ) : ℝ :=
  let c2 := c * c
  let s2 := 1 - c2
  let e2 := nt / ni * (nt / ni)
  let k2 := k / ni * (k / ni)
  let t0 := e2 - k2 - s2
  let ab := Real.sqrt (t0 * t0 + e2 * k2 * 4)
  let t1 := ab + c2
  let t2 := Real.sqrt ((ab + t0) * (1 / 2)) * c * 2
  let rPerp := (t1 - t2) / (t1 + t2)
  let t3 := ab * c2 + s2 * s2
  let t4 := t2 * s2
  (rPerp * (t3 - t4) / (t3 + t4) + rPerp) * (1 / 2)

theorem condChannel_range {c ni nt k : ℝ} (h0 : 0 ≤ c) (h1 : c ≤ 1) : 0 ≤ condChannel c ni nt k ∧ condChannel c ni nt k ≤ 1 := by
  simp only [condChannel]
  set s2 := 1 - c * c with hs2
  have hs : 0 ≤ s2 := by rw [hs2]; nlinarith
  set e2 := nt / ni * (nt / ni) with he2
  have he : 0 ≤ e2 := mul_self_nonneg _
  set k2 := k / ni * (k / ni) with hk2
  have hk : 0 ≤ k2 := mul_self_nonneg _
  set t0 := e2 - k2 - s2 with ht0
  set ab := Real.sqrt (t0 * t0 + e2 * k2 * 4) with hab
  have hab0 : 0 ≤ ab := Real.sqrt_nonneg _
  have habs : |t0| ≤ ab := by
    rw [hab]; apply Real.abs_le_sqrt; nlinarith [mul_nonneg he hk]
  obtain ⟨l1, l2⟩ := abs_le.mp habs
  set a := Real.sqrt ((ab + t0) * (1 / 2)) with ha
  have ha0 : 0 ≤ a := Real.sqrt_nonneg _
  have ha2 : a ^ 2 = (ab + t0) * (1 / 2) := Real.sq_sqrt (by linarith)
  have hle : a ^ 2 ≤ ab := by rw [ha2]; linarith
  have d1 : 0 ≤ ab + c * c - a * c * 2 := by nlinarith [sq_nonneg (a - c)]
  have d2 : 0 ≤ a * c * 2 := by positivity
  have d3 : 0 ≤ ab * (c * c) + s2 * s2 - a * c * 2 * s2 := by
    nlinarith [sq_nonneg (a * c - s2), mul_nonneg h0 h0, mul_le_mul_of_nonneg_right hle (mul_nonneg h0 h0)]
  have d4 : 0 ≤ a * c * 2 * s2 := by positivity
  have p0 : 0 ≤ (ab + c * c - a * c * 2) / (ab + c * c + a * c * 2) := div_nonneg d1 (by positivity)
  have p1 : (ab + c * c - a * c * 2) / (ab + c * c + a * c * 2) ≤ 1 := div_le_one_of_le₀ (by linarith) (by positivity)
  have q0 : 0 ≤ (ab * (c * c) + s2 * s2 - a * c * 2 * s2) / (ab * (c * c) + s2 * s2 + a * c * 2 * s2) := div_nonneg d3 (by positivity)
  have q1 : (ab * (c * c) + s2 * s2 - a * c * 2 * s2) / (ab * (c * c) + s2 * s2 + a * c * 2 * s2) ≤ 1 :=
    div_le_one_of_le₀ (by linarith) (by positivity)
  rw [mul_div_assoc]
  constructor
  · positivity
  · nlinarith [mul_le_mul p1 q1 q0 (by norm_num)]

theorem fresnelConductor_channels (c : ℝ) (ni nt k : Spectrum ℝ) :
    fresnelConductor ni nt k c = ⟨condChannel (min |c| 1) ni.r nt.r k.r, condChannel (min |c| 1) ni.g nt.g k.g,
      condChannel (min |c| 1) ni.b nt.b k.b⟩ := by
  have hc : clamp |c| (-1) 1 = min |c| 1 := by
    simp only [clamp]; real_ops
    have : ¬ |c| < -1 := by have := abs_nonneg c; linarith
    simp only [this, if_false]
    split_ifs with h
    · rw [min_eq_right h.le]
    · rw [min_eq_left (not_lt.mp h)]
  simp only [fresnelConductor, frConductor, condChannel, Spectrum.div, Spectrum.mul, Spectrum.sub, Spectrum.ssub,
    Spectrum.add, Spectrum.smul, Spectrum.sadd, Spectrum.sqrt]
  real_ops
  rw [hc]

/-- C55: each channel of the conductor reflectance is in [0, 1].  (Over the reals `0/0` is `0`; with `c ≠ 0` and a
non-zero index no denominator is zero, see `c55_conductor_denominators`.) -/
theorem c55_conductor_range (c : ℝ) (ni nt k : Spectrum ℝ) (f : Spectrum ℝ) (h : fresnelConductor ni nt k c = f) :
    (0 ≤ f.r ∧ f.r ≤ 1) ∧ (0 ≤ f.g ∧ f.g ≤ 1) ∧ (0 ≤ f.b ∧ f.b ≤ 1) := by
  rw [fresnelConductor_channels] at h
  subst h
  have h0 : 0 ≤ min |c| 1 := by positivity
  exact ⟨condChannel_range h0 (min_le_right _ _), condChannel_range h0 (min_le_right _ _),
    condChannel_range h0 (min_le_right _ _)⟩

/-- The two denominators of the conductor formula are positive for a non-grazing direction and non-zero index, so the
convention `x / 0 = 0` of the reals plays no role there. -/
theorem c55_conductor_denominators (c ni nt k : ℝ) (hc : 0 < c) (hc1 : c ≤ 1) (hi : 0 < ni) (ht : 0 < nt) :
    let e2 := nt / ni * (nt / ni)
    let k2 := k / ni * (k / ni)
    let t0 := e2 - k2 - (1 - c * c)
    let ab := Real.sqrt (t0 * t0 + e2 * k2 * 4)
    let a := Real.sqrt ((ab + t0) * (1 / 2))
    0 < ab + c * c + a * c * 2 ∧ 0 < ab * (c * c) + (1 - c * c) * (1 - c * c) + a * c * 2 * (1 - c * c) := by
  intro e2 k2 t0 ab a
  have ha : 0 ≤ a := Real.sqrt_nonneg _
  have hab : 0 ≤ ab := Real.sqrt_nonneg _
  have he : 0 < e2 := by positivity
  have hk : 0 ≤ k2 := mul_self_nonneg _
  have hs : 0 ≤ 1 - c * c := by nlinarith
  refine ⟨by positivity, ?_⟩
  rcases hs.eq_or_lt with h | h
  · have hpos : 0 < ab := by
      apply Real.sqrt_pos.mpr
      have ht0 : t0 = e2 - k2 := by simp only [t0]; rw [← h]; ring
      rcases hk.eq_or_lt with h' | h'
      · rw [ht0, ← h']; nlinarith
      · nlinarith [mul_self_nonneg t0, mul_pos he h']
    rw [← h]; nlinarith [mul_pos hpos (mul_pos hc hc)]
  · have := mul_pos h h
    positivity

end PT
