import Verif.Props.Output
import Verif.Props.WeightsF32

/-!
# The written values in single precision (C10, C11)
-/

namespace PT
open Fl
namespace Fl

/-- A float that is not NaN is an infinity or a number. -/
theorem cases_num {a : F32} (hw : a.WF) (hn : a ≠ .nan) : a = .inf true ∨ a = .inf false ∨ Num a := by
  cases a with
  | nan => exact absurd rfl hn
  | inf s => cases s <;> simp
  | fin s m => exact Or.inr (Or.inr ⟨hw, trivial⟩)

theorem le_left {a b : F32} (h : Fl.le a b = true) : a ≠ .nan := (le_iff.1 h).1
theorem le_right {a b : F32} (h : Fl.le a b = true) : b ≠ .nan := (le_iff.1 h).2.1

theorem le_minus {a : F32} (h : Fl.le a (.inf true) = true) : a = .inf true := by
  cases a with
  | nan => simp [Fl.le] at h
  | inf s => cases s <;> simp [Fl.le] at h ⊢
  | fin s m => simp [Fl.le] at h

theorem plus_le {a : F32} (h : Fl.le (.inf false) a = true) : a = .inf false := by
  cases a with
  | nan => simp [Fl.le] at h
  | inf s => cases s <;> simp [Fl.le] at h ⊢
  | fin s m => simp [Fl.le] at h

/-- A function that takes infinities to themselves and numbers to the rounding of a monotone function of their value is monotone. -/
theorem mono_of {f : F32 → F32} (g : ℚ → ℚ) (hg : ∀ x y, x ≤ y → g x ≤ g y) (h1 : f (.inf true) = .inf true) (h2 : f (.inf false) = .inf false)
    (h3 : ∀ a, Num a → ∃ zs, f a = ofVal (g a.val) zs) {a b : F32} (ha : a.WF) (hb : b.WF) (h : Fl.le a b = true) : Fl.le (f a) (f b) = true := by
  have hne : ∀ c : F32, c.WF → c ≠ .nan → f c ≠ .nan := by
    intro c hc hn
    rcases cases_num hc hn with rfl | rfl | n
    · rw [h1]; simp
    · rw [h2]; simp
    · obtain ⟨zs, e⟩ := h3 c n
      rw [e]; exact ofVal_ne_nan _ _
  rcases cases_num ha (le_left h) with rfl | rfl | na
  · rw [h1]; exact inf_le (hne b hb (le_right h))
  · rw [plus_le h, h2]; rfl
  rcases cases_num hb (le_right h) with rfl | rfl | nb
  · rw [le_minus h, h1]; rfl
  · rw [h2]; exact le_inf (hne a ha (le_left h))
  obtain ⟨z1, e1⟩ := h3 a na
  obtain ⟨z2, e2⟩ := h3 b nb
  rw [e1, e2]
  exact ofVal_mono (hg _ _ ((le_ok na nb).1 h)) _ _

theorem pos_fin {k : F32} (nk : Num k) (hk : 0 < k.val) : ∃ m, k = .fin false m ∧ m ≠ 0 := by
  obtain ⟨s, m, rfl⟩ := IsFin_iff.1 nk.fin
  have := nk.wf.1
  cases s
  · exact ⟨m, rfl, by rintro rfl; simp [val, sgn] at hk⟩
  · simp only [val, sgn, if_true] at hk; linarith

theorem mul_left_mono {k : F32} (nk : Num k) (hk : 0 < k.val) {a b : F32} (ha : a.WF) (hb : b.WF) (h : Fl.le a b = true) : Fl.le (k *. a) (k *. b) = true := by
  obtain ⟨m, e, hm⟩ := pos_fin nk hk
  refine mono_of (f := fun a => k *. a) (fun x => k.val * x) (fun x y h => mul_le_mul_of_nonneg_left h hk.le) ?_ ?_ (fun a na => mul_val nk na) ha hb h
  · subst e; simp [f_mul, mul, hm]
  · subst e; simp [f_mul, mul, hm]

theorem mul_right_mono {k : F32} (nk : Num k) (hk : 0 < k.val) {a b : F32} (ha : a.WF) (hb : b.WF) (h : Fl.le a b = true) : Fl.le (a *. k) (b *. k) = true := by
  obtain ⟨m, e, hm⟩ := pos_fin nk hk
  refine mono_of (f := fun a => a *. k) (fun x => x * k.val) (fun x y h => mul_le_mul_of_nonneg_right h hk.le) ?_ ?_ (fun a na => mul_val na nk) ha hb h
  · subst e; simp [f_mul, mul, hm]
  · subst e; simp [f_mul, mul, hm]

theorem div_right_mono {k : F32} (nk : Num k) (hk : 0 < k.val) {a b : F32} (ha : a.WF) (hb : b.WF) (h : Fl.le a b = true) : Fl.le (a /. k) (b /. k) = true := by
  obtain ⟨m, e, hm⟩ := pos_fin nk hk
  refine mono_of (f := fun a => a /. k) (fun x => x / k.val) (fun x y h => div_le_div_of_nonneg_right h hk.le) ?_ ?_ (fun a na => div_num_val na nk hk.ne') ha hb h
  · subst e; simp [f_div, div]
  · subst e; simp [f_div, div]

theorem add_right_mono {k : F32} (nk : Num k) {a b : F32} (ha : a.WF) (hb : b.WF) (h : Fl.le a b = true) : Fl.le (a +. k) (b +. k) = true := by
  obtain ⟨s, m, rfl⟩ := IsFin_iff.1 nk.fin
  refine mono_of (f := fun a => a +. .fin s m) (fun x => x + (Fl.fin s m : F32).val) (fun x y h => by linarith) ?_ ?_ (fun a na => add_fin na.fin nk.fin) ha hb h
  · simp [f_add, add]
  · simp [f_add, add]

/-- A literal of moderate size is a number near its value. -/
theorem lit_near {q : ℚ} (h0 : 0 ≤ q) (h1 : q ≤ 1000) : Num (PT.lit q : F32) ∧ |(PT.lit q : F32).val - q| ≤ q / 2 ^ 24 + 1 / 2 ^ 150 := by
  have n : Num (PT.lit q : F32) := lit_ok (by rw [abs_of_nonneg h0]; exact h1.trans (by norm_num))
  have e := ofVal_err (x := q) (zs := false) (by have := n.fin; rw [f_lit] at this; simpa using this)
  have elit : (PT.lit q : F32) = ofVal q false := by rw [f_lit]; simp
  rw [← elit, abs_of_nonneg h0] at e
  refine ⟨n, e.trans_eq ?_⟩
  simp only [ulpHalf, tinyHalf]; ring
end Fl

/-- The last steps in writing a channel: clamp, round, cast. -/
def writeChannel (x : F32) : Nat := toU32 (Scalar.round (clamp x (lit 0) (lit 255)))

theorem writeChannel_fin {x : F32} (nx : Num x) : writeChannel x = min 255 ⌊max 0 x.val + 1 / 2⌋₊ := by
  have key : ∀ (s : Bool) (a : ℚ), 0 ≤ sgn s a → sgn s a ≤ 255 → 0 ≤ a → toU32 (Scalar.round (Fl.fin s a : F32)) = ⌊sgn s a + 1 / 2⌋₊ := by
    intro s a h0 h1 ha
    have hr := roundAway_le (n := 255) h0 (by exact_mod_cast h1)
    have e : roundAway (sgn s a) = ⌊sgn s a + 1 / 2⌋ := by unfold roundAway; rw [if_neg (not_lt.2 h0)]
    have hs : sgn s ((roundAway (sgn s a)).natAbs : ℚ) = ((roundAway (sgn s a)).natAbs : ℚ) := by
      rcases sgn_nonneg ha h0 with h | h
      · subst h; simp [sgn]
      · subst h
        have : roundAway (sgn s (0 : ℚ)) = 0 := by cases s <;> norm_num [sgn, roundAway]
        rw [this]; cases s <;> simp [sgn]
    have ht : truncInt (((roundAway (sgn s a)).natAbs : ℚ)) = roundAway (sgn s a) := by
      unfold truncInt
      rw [if_neg (not_lt.2 (by positivity)), Int.floor_natCast]; omega
    simp only [toU32, Scalar.round, Scalar.toInt, Fl.mapInt, Fl.toInt]
    rw [hs, ht]
    unfold satInt
    rw [if_neg (by omega), if_neg (by omega), e]
    rfl
  unfold writeChannel clamp
  obtain ⟨s, a, rfl⟩ := IsFin_iff.1 nx.fin
  rw [Fl.lit_zero, lit255]
  have ev : (Fl.fin s a : F32).val = sgn s a := rfl
  rw [ev]
  split_ifs with h1 h2
  · rw [Fl.f_lt, Fl.lt_fin] at h1
    rw [key false 0 (by simp [sgn]) (by norm_num [sgn]) le_rfl, max_eq_left (by simp [sgn] at h1 ⊢; exact h1.le)]
    have e : ⌊(0 : ℚ) + 1 / 2⌋₊ = 0 := by rw [Nat.floor_eq_zero]; norm_num
    simp only [sgn, Bool.false_eq_true, if_false, e]
    rfl
  · rw [show ((Fl.fin s a : F32) >. Fl.fin false 255) = Fl.lt (Fl.fin false 255) (Fl.fin s a) from rfl, Fl.lt_fin] at h2
    have h2' : 255 < sgn s a := by simpa [sgn] using h2
    rw [key false 255 (by norm_num [sgn]) (by simp [sgn]) (by norm_num), max_eq_right (by linarith)]
    have : 255 ≤ ⌊sgn s a + 1 / 2⌋₊ := Nat.le_floor (by push_cast; linarith)
    rw [min_eq_left this]
    have e : sgn false (255 : ℚ) + 1 / 2 = 255 + 1 / 2 := by simp [sgn]
    rw [e, Nat.floor_eq_iff (by norm_num)]; norm_num
  · rw [show ((Fl.fin s a : F32) >. Fl.fin false 255) = Fl.lt (Fl.fin false 255) (Fl.fin s a) from rfl, Fl.lt_fin] at h2
    rw [Fl.f_lt, Fl.lt_fin] at h1
    have h1' : 0 ≤ sgn s a := by simpa [sgn] using h1
    have h2' : sgn s a ≤ 255 := by simpa [sgn] using h2
    rw [key s a h1' h2' nx.wf.1, max_eq_right h1']
    have : ⌊sgn s a + 1 / 2⌋₊ < 256 := (Nat.floor_lt (by linarith)).2 (by push_cast; linarith)
    omega

theorem writeChannel_mono {x y : F32} (hx : x.WF) (hy : y.WF) (h : Fl.le x y = true) : writeChannel x ≤ writeChannel y := by
  have hinf : writeChannel (.inf false) = 255 := by unfold writeChannel; decide +kernel
  have hminf : writeChannel (.inf true) = 0 := by unfold writeChannel; decide +kernel
  rcases cases_num hx (le_left h) with rfl | rfl | nx
  · rw [hminf]; exact Nat.zero_le _
  · rw [plus_le h]
  rcases cases_num hy (le_right h) with rfl | rfl | ny
  · rw [le_minus h]
  · rw [hinf]; exact clamp_round_byte x
  rw [writeChannel_fin nx, writeChannel_fin ny]
  have := (le_ok nx ny).1 h
  refine min_le_min le_rfl (Nat.floor_le_floor ?_)
  have := max_le_max (le_refl (0 : ℚ)) this
  linarith

namespace Spec
/-- What is assumed of the power function of the math library: for the exponent of the sRGB curve it is monotone above the switch-over point, gives floats, and is at least
9/100 there (the exact value is 0.0904…). -/
structure PowfMonotone [Libm F32] : Prop where
  mono : ∀ x y : F32, Fl.lt (lit (31308 / 10000000)) x = true → Fl.le x y = true →
    Fl.le (Libm.powf x (lit 1 /. lit (24 / 10))) (Libm.powf y (lit 1 /. lit (24 / 10))) = true
  wf : ∀ x y : F32, x.WF → (Libm.powf x y).WF
  low : ∀ x : F32, Fl.lt (lit (31308 / 10000000)) x = true → Fl.le (lit (9 / 100)) (Libm.powf x (lit 1 /. lit (24 / 10))) = true
end Spec

theorem sub_WF (a b : F32) : (a -. b).WF := add_WF _ _

/-- C11 in single precision, infinite sums included: for a common positive weight, the written value is monotone in the colour sum. -/
theorem c11_monotone_f32 [Libm F32] (hp : Spec.PowfMonotone) (c c' w : F32) (hc : c.WF) (hc' : c'.WF) (hw : w.WF) (hfin : w.IsFin) (hpos : 0 < w.val)
    (h : Fl.le c c' = true) : channelByte c w ≤ channelByte c' w := by
  have nw : Num w := ⟨hw, hfin⟩
  have hv := div_right_mono nw hpos hc hc' h
  have v1 : (c /. w).WF := div_WF hc hw
  have v2 : (c' /. w).WF := div_WF hc' hw
  have e : ∀ c : F32, channelByte c w = writeChannel (gammaCorrect (c /. w) *. lit 255 +. lit (1 / 2)) := fun _ => rfl
  rw [e, e]
  generalize c /. w = v at *
  generalize c' /. w = v' at *
  have n255 := (lit_near (q := 255) (by norm_num) (by norm_num)).1
  have p255 : 0 < (lit 255 : F32).val := by decide +kernel
  have nhalf := (lit_near (q := 1 / 2) (by norm_num) (by norm_num)).1
  have n1292 := (lit_near (q := 1292 / 100) (by norm_num) (by norm_num)).1
  have p1292 : 0 < (lit (1292 / 100) : F32).val := by decide +kernel
  have n1055 := (lit_near (q := 1055 / 1000) (by norm_num) (by norm_num)).1
  have p1055 : 0 < (lit (1055 / 1000) : F32).val := by decide +kernel
  have n55 := (lit_near (q := 55 / 1000) (by norm_num) (by norm_num)).1
  have last : ∀ g g' : F32, g.WF → g'.WF → Fl.le g g' = true → writeChannel (g *. lit 255 +. lit (1 / 2)) ≤ writeChannel (g' *. lit 255 +. lit (1 / 2)) :=
    fun g g' hg hg' h => writeChannel_mono (add_WF _ _) (add_WF _ _)
      (add_right_mono nhalf (mul_WF hg n255.wf) (mul_WF hg' n255.wf) (mul_right_mono n255 p255 hg hg' h))
  have lwf : ∀ x : F32, x.WF → (lit (1292 / 100) *. x).WF := fun x hx => mul_WF n1292.wf hx
  have nthr := (lit_near (q := 31308 / 10000000) (by norm_num) (by norm_num)).1
  unfold gammaCorrect
  by_cases h1 : (v <=. lit (31308 / 10000000)) = true
  · rw [if_pos h1]
    by_cases h2 : (v' <=. lit (31308 / 10000000)) = true
    · rw [if_pos h2]
      exact last _ _ (lwf _ v1) (lwf _ v2) (mul_left_mono n1292 p1292 v1 v2 hv)
    · rw [if_neg h2]
      have h2' : Fl.lt (lit (31308 / 10000000)) v' = true := (not_le' (le_right hv) (nthr.fin.ne_nan)).1 (Bool.eq_false_of_not_eq_true h2)
      have wp : (Libm.powf v' (lit 1 /. lit (24 / 10)) : F32).WF := hp.wf _ _ v2
      have s1 := last _ _ (lwf _ v1) (lwf _ nthr.wf) (mul_left_mono n1292 p1292 v1 nthr.wf h1)
      have s2 := last _ _ (sub_WF (lit (1055 / 1000) *. lit (9 / 100)) (lit (55 / 1000))) (sub_WF _ _)
        (add_right_mono (neg_ok n55).1 (mul_WF n1055.wf (lit_WF _)) (mul_WF n1055.wf wp) (mul_left_mono n1055 p1055 (lit_WF _) wp (hp.low _ h2')))
      refine s1.trans (le_trans (le_of_eq ?_) s2)
      unfold writeChannel
      decide +kernel
  · have h1' : Fl.lt (lit (31308 / 10000000)) v = true := (not_le' (le_left hv) (nthr.fin.ne_nan)).1 (Bool.eq_false_of_not_eq_true h1)
    have h2 : ¬ (v' <=. lit (31308 / 10000000)) = true := by
      intro h2
      have := lt_of_lt_of_le' h1' (le_trans' hv h2)
      rw [lt_iff] at this
      exact absurd this.2.2 (lt_irrefl _)
    rw [if_neg h1, if_neg h2]
    have w1 : (Libm.powf v (lit 1 /. lit (24 / 10)) : F32).WF := hp.wf _ _ v1
    have w2 : (Libm.powf v' (lit 1 /. lit (24 / 10)) : F32).WF := hp.wf _ _ v2
    exact last _ _ (sub_WF _ _) (sub_WF _ _) (add_right_mono (neg_ok n55).1 (mul_WF n1055.wf w1) (mul_WF n1055.wf w2)
      (mul_left_mono n1055 p1055 w1 w2 (hp.mono _ _ h1' hv)))

/-! ## C10 -/

/-- A power with exponent at most one does not increase relative errors. -/
theorem rpow_rel {a b d p : ℝ} (ha : 0 < a) (hd0 : 0 ≤ d) (hd1 : d < 1) (hp0 : 0 ≤ p) (hp1 : p ≤ 1) (h : |b - a| ≤ d * a) : |b ^ p - a ^ p| ≤ d * a ^ p := by
  obtain ⟨h1, h2⟩ := abs_le.1 h
  have hap : 0 ≤ a ^ p := Real.rpow_nonneg ha.le _
  have up : b ^ p ≤ a ^ p * (1 + d) := by
    calc b ^ p ≤ (a * (1 + d)) ^ p := Real.rpow_le_rpow (by nlinarith) (by linarith) hp0
      _ = a ^ p * (1 + d) ^ p := Real.mul_rpow ha.le (by linarith)
      _ ≤ a ^ p * (1 + d) := mul_le_mul_of_nonneg_left (by
          calc (1 + d) ^ p ≤ (1 + d) ^ (1 : ℝ) := Real.rpow_le_rpow_of_exponent_le (by linarith) hp1
            _ = 1 + d := Real.rpow_one _) hap
  have low : a ^ p * (1 - d) ≤ b ^ p := by
    calc a ^ p * (1 - d) ≤ a ^ p * (1 - d) ^ p := mul_le_mul_of_nonneg_left (by
          calc 1 - d = (1 - d) ^ (1 : ℝ) := (Real.rpow_one _).symm
            _ ≤ (1 - d) ^ p := Real.rpow_le_rpow_of_exponent_ge (by linarith) (by linarith) hp1) hap
      _ = (a * (1 - d)) ^ p := (Real.mul_rpow ha.le (by linarith)).symm
      _ ≤ b ^ p := Real.rpow_le_rpow (mul_nonneg ha.le (by linarith)) (by linarith) hp0
  rw [abs_le]
  constructor <;> nlinarith

/-- Near the switch-over point the two branches of the sRGB curve agree. -/
theorem srgb_switch {v : ℝ} (h1 : 0.0031307 ≤ v) (h2 : v ≤ 0.0031309) : 0.09047 ≤ v ^ (1 / 2.4 : ℝ) ∧ v ^ (1 / 2.4 : ℝ) ≤ 0.09048 := by
  have e : ∀ x : ℝ, 0 ≤ x → x ^ (1 / 2.4 : ℝ) = (x ^ (5 : ℕ)) ^ (1 / 12 : ℝ) := fun x hx => by
    rw [← Real.rpow_natCast, ← Real.rpow_mul hx]; norm_num
  have e' : ∀ x : ℝ, 0 ≤ x → x = (x ^ (12 : ℕ)) ^ (1 / 12 : ℝ) := fun x hx => by
    rw [← Real.rpow_natCast, ← Real.rpow_mul hx]; norm_num
  have v0 : 0 ≤ v := by linarith
  rw [e v v0]
  constructor
  · rw [e' 0.09047 (by norm_num)]
    refine Real.rpow_le_rpow (by norm_num) ?_ (by norm_num)
    calc (0.09047 : ℝ) ^ 12 ≤ 0.0031307 ^ 5 := by norm_num
      _ ≤ v ^ 5 := pow_le_pow_left₀ (by norm_num) h1 5
  · rw [e' 0.09048 (by norm_num)]
    refine Real.rpow_le_rpow (by positivity) ?_ (by norm_num)
    calc v ^ 5 ≤ 0.0031309 ^ 5 := pow_le_pow_left₀ v0 h2 5
      _ ≤ (0.09048 : ℝ) ^ 12 := by norm_num

/-- The curve at a rounded argument, with a rounded switch-over point. -/
theorem srgb_err {V v th g : ℝ} (hV0 : 0 ≤ V) (hV1 : V ≤ 1) (hv : |v - V| ≤ V / 2 ^ 24 + 1 / 2 ^ 150) (hth : |th - 0.0031308| ≤ 1 / 2 ^ 30)
    (h1 : v ≤ th → |g - 12.92 * v| ≤ 1 / 10 ^ 6) (h2 : th < v → |g - (1.055 * v ^ (1 / 2.4 : ℝ) - 0.055)| ≤ 1 / 10 ^ 5) : |g - Spec.srgb V| ≤ 2 / 10 ^ 5 := by
  obtain ⟨t1, t2⟩ := abs_le.1 hth
  obtain ⟨v1, v2⟩ := abs_le.1 hv
  have tiny : (1 : ℝ) / 2 ^ 150 ≤ 1 / 2 ^ 40 := by norm_num
  unfold Spec.srgb
  by_cases hv' : v ≤ th
  · obtain ⟨g1, g2⟩ := abs_le.1 (h1 hv')
    split_ifs with hV
    · rw [abs_le]; constructor <;> (norm_num at *; linarith)
    · obtain ⟨p1, p2⟩ := srgb_switch (v := V) (by linarith) (by norm_num at *; linarith)
      rw [abs_le]; constructor <;> (norm_num at *; linarith)
  · obtain ⟨g1, g2⟩ := abs_le.1 (h2 (not_le.1 hv'))
    have hv' := not_le.1 hv'
    have Vpos : 0.0031307 ≤ V := by norm_num at *; linarith
    split_ifs with hV
    · obtain ⟨p1, p2⟩ := srgb_switch (v := v) (by norm_num at *; linarith) (by norm_num at *; linarith)
      rw [abs_le]; constructor <;> (norm_num at *; linarith)
    · have hrel := rpow_rel (a := V) (b := v) (d := 1 / 2 ^ 23) (p := 1 / 2.4) (by linarith) (by norm_num) (by norm_num) (by norm_num) (by norm_num) (by
        refine hv.trans ?_
        norm_num at *; linarith)
      have hVp : V ^ (1 / 2.4 : ℝ) ≤ 1 := Real.rpow_le_one hV0 hV1 (by norm_num)
      have hVp0 : 0 ≤ V ^ (1 / 2.4 : ℝ) := Real.rpow_nonneg hV0 _
      obtain ⟨r1, r2⟩ := abs_le.1 hrel
      generalize V ^ (1 / 2.4 : ℝ) = X at *
      generalize v ^ (1 / 2.4 : ℝ) = Y at *
      rw [abs_le]; constructor <;> (norm_num at *; linarith)

namespace Spec
/-- What is assumed of the power function of the math library for accuracy: from the switch-over point to 2 it is right up to 2^-20. -/
def PowfAccurate [Libm F32] : Prop := ∀ x : F32, Num x → 0.003 ≤ x.val → x.val ≤ 2 →
  Num (Libm.powf x (lit 1 /. lit (24 / 10))) ∧ |((Libm.powf x (lit 1 /. lit (24 / 10))).val : ℝ) - (x.val : ℝ) ^ (1 / 2.4 : ℝ)| ≤ 1 / 2 ^ 20
end Spec

/-- The curve as computed in single precision. -/
theorem gamma_f32 [Libm F32] (hp : Spec.PowfAccurate) {c w : F32} (nc : Num c) (nw : Num w) (hw : 0 < w.val) (hc : 0 ≤ c.val) (h1 : c.val ≤ w.val) :
    Num (gammaCorrect (c /. w)) ∧ |((gammaCorrect (c /. w)).val : ℝ) - Spec.srgb ((c.val : ℝ) / w.val)| ≤ 2 / 10 ^ 5 := by
  have V0 : 0 ≤ c.val / w.val := div_nonneg hc hw.le
  have V1 : c.val / w.val ≤ 1 := (div_le_one hw).2 h1
  obtain ⟨nv, ev⟩ := div_ok nc nw hw.ne' (by rw [abs_of_nonneg V0]; exact V1.trans (by norm_num))
  obtain ⟨-, v0, v1⟩ := div_stays nc nw hw.ne' repr_zero repr_one V0 V1
  rw [abs_of_nonneg V0] at ev
  generalize c /. w = v at *
  have hcast : (c.val : ℝ) / w.val = ((c.val / w.val : ℚ) : ℝ) := by push_cast; rfl
  rw [hcast]
  generalize c.val / w.val = V at *
  obtain ⟨nth, eth⟩ := lit_near (q := 31308 / 10000000) (by norm_num) (by norm_num)
  obtain ⟨nL, eL⟩ := lit_near (q := 1292 / 100) (by norm_num) (by norm_num)
  obtain ⟨nK, eK⟩ := lit_near (q := 1055 / 1000) (by norm_num) (by norm_num)
  obtain ⟨nB, eB⟩ := lit_near (q := 55 / 1000) (by norm_num) (by norm_num)
  have evR : |(v.val : ℝ) - V| ≤ V / 2 ^ 24 + 1 / 2 ^ 150 := by
    have : |v.val - V| ≤ V / 2 ^ 24 + 1 / 2 ^ 150 := by simp only [ulpHalf, tinyHalf] at ev; linarith
    have := (Rat.cast_le (K := ℝ)).2 this
    push_cast at this; exact this
  have ethR : |((lit (31308 / 10000000) : F32).val : ℝ) - 0.0031308| ≤ 1 / 2 ^ 30 := by
    have : |(lit (31308 / 10000000) : F32).val - 31308 / 10000000| ≤ 1 / 2 ^ 30 := eth.trans (by norm_num)
    have := (Rat.cast_le (K := ℝ)).2 this
    push_cast at this; norm_num at this ⊢; exact this
  have hth : (lit (31308 / 10000000) : F32).val ≤ 32 / 10000 ∧ 31 / 10000 ≤ (lit (31308 / 10000000) : F32).val := by
    obtain ⟨a, b⟩ := abs_le.1 eth
    norm_num at *
    constructor <;> linarith
  obtain ⟨L1, L2⟩ := abs_le.1 eL
  obtain ⟨K1, K2⟩ := abs_le.1 eK
  obtain ⟨B1, B2⟩ := abs_le.1 eB
  unfold gammaCorrect
  by_cases h : (v <=. lit (31308 / 10000000)) = true
  · rw [if_pos h]
    have hle := (le_ok nv nth).1 h
    have hLv0 : 0 ≤ (lit (1292 / 100) : F32).val * v.val := mul_nonneg (by norm_num at *; linarith) v0
    have hLv1 : (lit (1292 / 100) : F32).val * v.val ≤ 1 := by
      have := mul_le_mul (show (lit (1292 / 100) : F32).val ≤ 13 by norm_num at *; linarith) (hle.trans hth.1) v0 (by norm_num)
      linarith
    obtain ⟨ng, eg⟩ := mul_ok nL nv (by rw [abs_of_nonneg hLv0]; exact hLv1.trans (by norm_num))
    rw [abs_of_nonneg hLv0] at eg
    refine ⟨ng, srgb_err (by exact_mod_cast V0) (by exact_mod_cast V1) evR ethR (fun _ => ?_) (fun h' => ?_)⟩
    · have : |(lit (1292 / 100) *. v : F32).val - 1292 / 100 * v.val| ≤ 1 / 10 ^ 6 := by
        have e : (lit (1292 / 100) *. v : F32).val - 1292 / 100 * v.val =
            ((lit (1292 / 100) *. v : F32).val - (lit (1292 / 100) : F32).val * v.val) + ((lit (1292 / 100) : F32).val - 1292 / 100) * v.val := by ring
        rw [e]
        refine (abs_add_le _ _).trans ?_
        rw [abs_mul, abs_of_nonneg v0]
        have k1 := mul_le_mul eL v1 v0 (by norm_num)
        simp only [ulpHalf, tinyHalf] at eg
        have k2 : (lit (1292 / 100) : F32).val * v.val * (1 / 2 ^ 24) ≤ 1 * (1 / 2 ^ 24) := mul_le_mul_of_nonneg_right hLv1 (by positivity)
        norm_num at *
        linarith
      have := (Rat.cast_le (K := ℝ)).2 this
      push_cast at this; norm_num at this ⊢; exact this
    · exact absurd hle (not_le.2 (by exact_mod_cast h'))
  · rw [if_neg h]
    have hlt : (lit (31308 / 10000000) : F32).val < v.val := by
      rw [show ((v <=. lit (31308 / 10000000)) = true ↔ _) from le_ok nv nth] at h
      exact not_le.1 h
    obtain ⟨nP, eP⟩ := hp v nv (by norm_num at *; linarith) (by linarith)
    have x0 : (0 : ℝ) ≤ (v.val : ℝ) ^ (1 / 2.4 : ℝ) := Real.rpow_nonneg (by exact_mod_cast v0) _
    have x1 : (v.val : ℝ) ^ (1 / 2.4 : ℝ) ≤ 1 := Real.rpow_le_one (by exact_mod_cast v0) (by exact_mod_cast v1) (by norm_num)
    generalize Libm.powf v (lit 1 /. lit (24 / 10)) = P at *
    obtain ⟨P1, P2⟩ := abs_le.1 eP
    have hP : |P.val| ≤ 2 := by
      have : |(P.val : ℝ)| ≤ 2 := by rw [abs_le]; constructor <;> (norm_num at *; linarith)
      exact_mod_cast this
    have hK : |(lit (1055 / 1000) : F32).val| ≤ 2 := by rw [abs_le]; constructor <;> (norm_num at *; linarith)
    have hKP : |(lit (1055 / 1000) : F32).val * P.val| ≤ 4 := by
      rw [abs_mul]
      calc _ ≤ 2 * 2 := mul_le_mul hK hP (abs_nonneg _) (by norm_num)
        _ = (4 : ℚ) := by norm_num
    obtain ⟨nM, eM⟩ := mul_ok nK nP (hKP.trans (by norm_num))
    have eM' : |(lit (1055 / 1000) *. P : F32).val - 1055 / 1000 * P.val| ≤ 1 / 10 ^ 6 := by
      have e : (lit (1055 / 1000) *. P : F32).val - 1055 / 1000 * P.val =
          ((lit (1055 / 1000) *. P : F32).val - (lit (1055 / 1000) : F32).val * P.val) + ((lit (1055 / 1000) : F32).val - 1055 / 1000) * P.val := by ring
      rw [e]
      refine (abs_add_le _ _).trans ?_
      rw [abs_mul]
      have k1 := mul_le_mul eK hP (abs_nonneg _) (by norm_num)
      simp only [ulpHalf, tinyHalf] at eM
      norm_num at *
      linarith
    generalize (lit (1055 / 1000) : F32) *. P = M at *
    obtain ⟨M1, M2⟩ := abs_le.1 eM'
    obtain ⟨P3, P4⟩ := abs_le.1 hP
    have hMB : |M.val - (lit (55 / 1000) : F32).val| ≤ 4 := by rw [abs_le]; constructor <;> (norm_num at *; linarith)
    obtain ⟨ng, eg⟩ := sub_ok nM nB (hMB.trans (by norm_num))
    refine ⟨ng, srgb_err (by exact_mod_cast V0) (by exact_mod_cast V1) evR ethR (fun h' => ?_) (fun _ => ?_)⟩
    · exact absurd hlt (not_lt.2 (by exact_mod_cast h'))
    · have : |(M -. lit (55 / 1000) : F32).val - (1055 / 1000 * P.val - 55 / 1000)| ≤ 5 / 10 ^ 6 := by
        simp only [ulpHalf] at eg
        obtain ⟨e1, e2⟩ := abs_le.1 eg
        rw [abs_le]; constructor <;> (norm_num at *; linarith)
      have := (Rat.cast_le (K := ℝ)).2 this
      push_cast at this
      obtain ⟨e1, e2⟩ := abs_le.1 this
      generalize (v.val : ℝ) ^ (1 / 2.4 : ℝ) = X at *
      rw [abs_le]; constructor <;> (norm_num at *; linarith)

/-- What holds instead of C10, in single precision: the channel is at most 1.01 above and 0.01 below 255 times the gamma-corrected colour, and a colour of 1 or more is
written as 255. -/
theorem c10_f32_partial [Libm F32] (hp : Spec.PowfAccurate) (c w : F32) (nc : Num c) (nw : Num w) (hw : 0 < w.val) (hc : 0 ≤ c.val) :
    (c.val ≤ w.val → -0.01 ≤ (channelByte c w : ℝ) - 255 * Spec.srgb ((c.val : ℝ) / w.val) ∧
      (channelByte c w : ℝ) - 255 * Spec.srgb ((c.val : ℝ) / w.val) ≤ 1.01) ∧
    (Spec.PowfMonotone → w.val ≤ c.val → channelByte c w = 255) := by
  have e0 : ∀ c : F32, channelByte c w = writeChannel (gammaCorrect (c /. w) *. lit 255 +. lit (1 / 2)) := fun _ => rfl
  obtain ⟨n255, -⟩ := lit_near (q := 255) (by norm_num) (by norm_num)
  obtain ⟨nh, -⟩ := lit_near (q := 1 / 2) (by norm_num) (by norm_num)
  have v255 : (lit 255 : F32).val = 255 := by rw [lit255]; simp [val, sgn]
  have vh : (lit (1 / 2) : F32).val = 1 / 2 := by decide +kernel
  have main : ∀ c : F32, Num c → 0 ≤ c.val → c.val ≤ w.val → 0 ≤ Spec.srgb ((c.val : ℝ) / w.val) ∧ Spec.srgb ((c.val : ℝ) / w.val) ≤ 1 ∧
      ∃ x : F32, Num x ∧ channelByte c w = writeChannel x ∧ |(x.val : ℝ) - (255 * Spec.srgb ((c.val : ℝ) / w.val) + 1 / 2)| ≤ 0.006 := by
    intro c nc hc h1
    have V0 : (0 : ℝ) ≤ (c.val : ℝ) / w.val := div_nonneg (by exact_mod_cast hc) (by exact_mod_cast hw.le)
    have V1 : (c.val : ℝ) / w.val ≤ 1 := (div_le_one (by exact_mod_cast hw)).2 (by exact_mod_cast h1)
    obtain ⟨ng, eg⟩ := gamma_f32 hp nc nw hw hc h1
    have s0 := srgb_nonneg V0
    have s1 : Spec.srgb ((c.val : ℝ) / w.val) ≤ 1 := by
      unfold Spec.srgb
      split_ifs with h
      · norm_num at *; linarith
      · have := Real.rpow_le_one V0 V1 (show (0 : ℝ) ≤ 1 / 2.4 by norm_num)
        norm_num at *; linarith
    refine ⟨s0, s1, _, ?_, e0 c, ?_⟩
    all_goals generalize gammaCorrect (c /. w) = g at *
    all_goals generalize Spec.srgb ((c.val : ℝ) / w.val) = S at *
    all_goals obtain ⟨g1, g2⟩ := abs_le.1 eg
    all_goals
      have hg : |g.val| ≤ 2 := by
        have : |(g.val : ℝ)| ≤ 2 := by rw [abs_le]; constructor <;> (norm_num at *; linarith)
        exact_mod_cast this
      have hm : |g.val * (lit 255 : F32).val| ≤ 510 := by
        rw [v255, abs_mul, show |(255 : ℚ)| = 255 by norm_num]; linarith
      obtain ⟨nm, em⟩ := mul_ok ng n255 (hm.trans (by norm_num))
      simp only [ulpHalf, tinyHalf] at em
      have em' : |(g *. lit 255).val - g.val * 255| ≤ 1 / 10 ^ 4 := by
        rw [v255] at em hm
        refine em.trans ?_
        norm_num at *; linarith
      obtain ⟨m1, m2⟩ := abs_le.1 em'
      obtain ⟨g3, g4⟩ := abs_le.1 hg
      have ha : |(g *. lit 255).val + (lit (1 / 2) : F32).val| ≤ 600 := by
        rw [vh, abs_le]; constructor <;> (norm_num at *; linarith)
      obtain ⟨na, ea⟩ := add_ok nm nh (ha.trans (by norm_num))
    · exact na
    · simp only [ulpHalf] at ea
      rw [vh] at ea ha
      have ea' : |(g *. lit 255 +. lit (1 / 2)).val - (g.val * 255 + 1 / 2)| ≤ 2 / 10 ^ 4 := by
        obtain ⟨a1, a2⟩ := abs_le.1 ea
        rw [abs_le]; constructor <;> (norm_num at *; linarith)
      have := (Rat.cast_le (K := ℝ)).2 ea'
      push_cast at this
      obtain ⟨a1, a2⟩ := abs_le.1 this
      rw [abs_le]; constructor <;> (norm_num at *; linarith)
  constructor
  · intro h1
    obtain ⟨s0, s1, x, nx, e, hx⟩ := main c nc hc h1
    rw [e, writeChannel_fin nx]
    generalize Spec.srgb ((c.val : ℝ) / w.val) = S at *
    obtain ⟨x1, x2⟩ := abs_le.1 hx
    have hx0 : 0 ≤ x.val := by
      have : (0 : ℝ) ≤ x.val := by norm_num at x1; linarith
      exact_mod_cast this
    rw [max_eq_right hx0]
    have f1 := Nat.floor_le (show 0 ≤ x.val + 1 / 2 by linarith)
    have f2 := Nat.lt_floor_add_one (x.val + 1 / 2)
    have f1' := (Rat.cast_le (K := ℝ)).2 f1
    have f2' := (Rat.cast_lt (K := ℝ)).2 f2
    push_cast at f1' f2'
    generalize ⌊x.val + 1 / 2⌋₊ = N at *
    rcases le_total 255 N with h | h
    · rw [min_eq_left h]
      have : (255 : ℝ) ≤ N := by exact_mod_cast h
      push_cast
      constructor <;> (norm_num at f1' f2' x1 x2 ⊢; linarith)
    · rw [min_eq_right h]
      constructor <;> (norm_num at f1' f2' x1 x2 ⊢; linarith)
  · intro hm h1
    obtain ⟨-, -, x, nx, e, hx⟩ := main w nw hw.le le_rfl
    have ew : Spec.srgb ((w.val : ℝ) / w.val) = 1 := by
      rw [div_self (by exact_mod_cast hw.ne')]
      norm_num [Spec.srgb]
    rw [ew] at hx
    have h255 : 255 ≤ channelByte w w := by
      rw [e, writeChannel_fin nx]
      obtain ⟨x1, x2⟩ := abs_le.1 hx
      have : (255 : ℝ) ≤ x.val := by norm_num at *; linarith
      have : (255 : ℚ) ≤ x.val := by exact_mod_cast this
      refine le_min le_rfl (Nat.le_floor ?_)
      rw [max_eq_right (by linarith)]
      push_cast; linarith
    have := c11_monotone_f32 hm w c w nw.wf nc.wf nw.wf nw.fin hw ((le_ok nw nc).2 h1)
    have := clamp_round_byte (gammaCorrect (c /. w) *. lit 255 +. lit (1 / 2))
    have e1 : channelByte c w ≤ 255 := this
    omega

/-! A math library that meets the assumptions: the power is computed to 60 binary places, then rounded. -/

open Classical in
/-- The power 5/12, rounded down to 60 places and then to a float. -/
noncomputable def Demo.fineRoot (x : F32) : F32 :=
  match x with
  | .nan => .nan
  | .inf _ => .inf false
  | .fin s m => ofVal (⌊(max 0 ((Fl.fin s m : F32).val : ℝ)) ^ (1 / 2.4 : ℝ) * 2 ^ 60⌋ / 2 ^ 60 : ℚ) false

@[reducible] noncomputable def Demo.fineLibm : Libm F32 := ⟨id, id, id, id, id, fun _ y => y, id, id, id, fun x _ => Demo.fineRoot x, lit 3⟩

theorem Demo.fine_accurate : @Spec.PowfAccurate Demo.fineLibm := by
  intro x nx h0 h1
  obtain ⟨s, m, rfl⟩ := IsFin_iff.1 nx.fin
  show Num (Demo.fineRoot (.fin s m)) ∧ |((Demo.fineRoot (.fin s m)).val : ℝ) - _| ≤ _
  unfold Demo.fineRoot
  dsimp only
  generalize (Fl.fin s m : F32).val = v at *
  have v0 : (0 : ℝ) ≤ v := by
    have : (0 : ℚ) ≤ v := by norm_num at *; linarith
    exact_mod_cast this
  have v1 : (v : ℝ) ≤ 2 := by exact_mod_cast h1
  rw [max_eq_right v0]
  have x0 : 0 ≤ (v : ℝ) ^ (1 / 2.4 : ℝ) := Real.rpow_nonneg v0 _
  have x1 : (v : ℝ) ^ (1 / 2.4 : ℝ) ≤ 2 := by
    calc (v : ℝ) ^ (1 / 2.4 : ℝ) ≤ 2 ^ (1 / 2.4 : ℝ) := Real.rpow_le_rpow v0 v1 (by norm_num)
      _ ≤ 2 ^ (1 : ℝ) := Real.rpow_le_rpow_of_exponent_le (by norm_num) (by norm_num)
      _ = 2 := Real.rpow_one _
  generalize (v : ℝ) ^ (1 / 2.4 : ℝ) = X at *
  have f1 := Int.floor_le (X * 2 ^ 60)
  have f2 := Int.lt_floor_add_one (X * 2 ^ 60)
  have f0 : (0 : ℤ) ≤ ⌊X * 2 ^ 60⌋ := Int.floor_nonneg.2 (by positivity)
  generalize ⌊X * 2 ^ 60⌋ = N at *
  have q0 : (0 : ℚ) ≤ (N : ℚ) / 2 ^ 60 := div_nonneg (by exact_mod_cast f0) (by positivity)
  have q1 : ((N : ℚ) / 2 ^ 60 : ℚ) ≤ 2 := by
    have : ((N : ℝ) / 2 ^ 60) ≤ 2 := by rw [div_le_iff₀ (by positivity)]; linarith
    have : (((N : ℚ) / 2 ^ 60 : ℚ) : ℝ) ≤ ((2 : ℚ) : ℝ) := by push_cast; exact this
    exact_mod_cast this
  have n := ofVal_ok (x := (N : ℚ) / 2 ^ 60) (by rw [abs_of_nonneg q0]; exact q1.trans (by norm_num)) false
  have e := ofVal_err (x := (N : ℚ) / 2 ^ 60) (zs := false) n.fin
  refine ⟨n, ?_⟩
  have e' : |(ofVal ((N : ℚ) / 2 ^ 60) false : F32).val - (N : ℚ) / 2 ^ 60| ≤ 1 / 2 ^ 21 := by
    refine e.trans ?_
    rw [abs_of_nonneg q0]
    simp only [ulpHalf, tinyHalf]
    norm_num at *
    linarith
  have := (Rat.cast_le (K := ℝ)).2 e'
  push_cast at this
  obtain ⟨a1, a2⟩ := abs_le.1 this
  have b1 : (N : ℝ) / 2 ^ 60 ≤ X := by rw [div_le_iff₀ (by positivity)]; exact f1
  have b2 : X - 1 / 2 ^ 60 ≤ (N : ℝ) / 2 ^ 60 := by rw [le_div_iff₀ (by positivity), sub_mul]; norm_num at *; linarith
  rw [abs_le]; constructor <;> (norm_num at *; linarith)

theorem Demo.fine_monotone : @Spec.PowfMonotone Demo.fineLibm := by
  have hne : ∀ x : F32, x ≠ .nan → Demo.fineRoot x ≠ .nan := by
    intro x hx
    cases x with
    | nan => exact absurd rfl hx
    | inf s => simp [Demo.fineRoot]
    | fin s m => exact ofVal_ne_nan _ _
  have hmono : ∀ x y : F32, Fl.lt (lit (31308 / 10000000)) x = true → Fl.le x y = true → Fl.le (Demo.fineRoot x) (Demo.fineRoot y) = true := by
    intro x y hx h
    cases y with
    | nan => exact absurd rfl (le_right h)
    | inf s =>
      have : Demo.fineRoot (.inf s) = .inf false := rfl
      rw [this]; exact le_inf (hne x (le_left h))
    | fin t k =>
      cases x with
      | nan => exact absurd rfl (le_left h)
      | inf s =>
        cases s
        · have := plus_le h; cases this
        · simp [Fl.lt] at hx
          obtain ⟨nth, -⟩ := lit_near (q := 31308 / 10000000) (by norm_num) (by norm_num)
          obtain ⟨s, m, e⟩ := IsFin_iff.1 nth.fin
          rw [e] at hx; simp at hx
      | fin s m =>
        refine ofVal_mono ?_ _ _
        rw [le_fin] at h
        have h' : (((Fl.fin s m : F32).val : ℚ) : ℝ) ≤ ((Fl.fin t k : F32).val : ℚ) := by exact_mod_cast h
        refine div_le_div_of_nonneg_right ?_ (by positivity)
        have : ⌊(max 0 ((Fl.fin s m : F32).val : ℝ)) ^ (1 / 2.4 : ℝ) * 2 ^ 60⌋ ≤ ⌊(max 0 ((Fl.fin t k : F32).val : ℝ)) ^ (1 / 2.4 : ℝ) * 2 ^ 60⌋ :=
          Int.floor_le_floor (mul_le_mul_of_nonneg_right (Real.rpow_le_rpow (le_max_left _ _) (max_le_max le_rfl h') (by norm_num)) (by positivity))
        exact_mod_cast this
  obtain ⟨nth, eth⟩ := lit_near (q := 31308 / 10000000) (by norm_num) (by norm_num)
  obtain ⟨n9, e9⟩ := lit_near (q := 9 / 100) (by norm_num) (by norm_num)
  obtain ⟨t1, t2⟩ := abs_le.1 eth
  refine @Spec.PowfMonotone.mk Demo.fineLibm hmono ?_ ?_
  · intro x y hx
    show (Demo.fineRoot x).WF
    cases x with
    | nan => trivial
    | inf s => trivial
    | fin s m => exact ofVal_WF _ _
  · intro x hx
    show Fl.le _ (Demo.fineRoot x) = true
    have hx0 : x ≠ .nan := (lt_iff.1 hx).2.1
    cases x with
    | nan => exact absurd rfl hx0
    | inf s => exact le_inf n9.fin.ne_nan
    | fin s m =>
      have hv : (lit (31308 / 10000000) : F32).val < (Fl.fin s m : F32).val := (lt_val nth.fin (IsFin_iff.2 ⟨s, m, rfl⟩)).1 hx
      unfold Demo.fineRoot
      dsimp only
      generalize (Fl.fin s m : F32).val = v at *
      have e9' : (lit (9 / 100) : F32) = ofVal (9 / 100) false := by rw [f_lit]; simp
      rw [e9']
      refine ofVal_mono ?_ _ _
      have v1 : (0.0031307 : ℝ) ≤ v := by
        have : (31307 / 10000000 : ℚ) ≤ v := by norm_num at *; linarith
        have := (Rat.cast_le (K := ℝ)).2 this
        push_cast at this; norm_num at this ⊢; exact this
      rw [max_eq_right (by linarith)]
      have p1 := (srgb_switch (v := 0.0031307) le_rfl (by norm_num)).1
      have p2 : (0.0031307 : ℝ) ^ (1 / 2.4 : ℝ) ≤ (v : ℝ) ^ (1 / 2.4 : ℝ) := Real.rpow_le_rpow (by norm_num) v1 (by norm_num)
      generalize (v : ℝ) ^ (1 / 2.4 : ℝ) = X at *
      have f2 := Int.lt_floor_add_one (X * 2 ^ 60)
      generalize ⌊X * 2 ^ 60⌋ = N at *
      rw [le_div_iff₀ (by positivity)]
      have : ((9 / 100 * 2 ^ 60 : ℚ) : ℝ) ≤ ((N : ℚ) : ℝ) := by
        push_cast
        norm_num at f2 p1 p2 ⊢
        linarith
      exact_mod_cast this

/-- C10 and C11, a case: the pixel of colour sum 3 and weight 4 (255 times its gamma-corrected colour is 224.6…), with that library. -/
example : (@channelByte F32 _ Demo.fineLibm (ofInt 3) (ofInt 4) : ℝ) - 255 * Spec.srgb (3 / 4) ≤ 1.01 ∧
    @channelByte F32 _ Demo.fineLibm (ofInt 3) (ofInt 4) ≤ @channelByte F32 _ Demo.fineLibm (ofInt 4) (ofInt 4) := by
  obtain ⟨f3, v3⟩ := ofInt_exact (n := 3) (by norm_num)
  obtain ⟨f4, v4⟩ := ofInt_exact (n := 4) (by norm_num)
  have n3 : Num (ofInt 3 : F32) := ⟨ofInt_WF 3, f3⟩
  have n4 : Num (ofInt 4 : F32) := ⟨ofInt_WF 4, f4⟩
  constructor
  · have key := ((@c10_f32_partial Demo.fineLibm Demo.fine_accurate (ofInt 3) (ofInt 4) n3 n4 (by rw [v4]; norm_num) (by rw [v3]; norm_num)).1
      (by rw [v3, v4]; norm_num)).2
    rw [v3, v4] at key
    push_cast at key
    exact key
  · exact @c11_monotone_f32 Demo.fineLibm Demo.fine_monotone (ofInt 3) (ofInt 4) (ofInt 4) n3.wf n4.wf n4.wf n4.fin (by rw [v4]; norm_num)
      ((le_ok n3 n4).2 (by rw [v3, v4]; norm_num))
end PT
