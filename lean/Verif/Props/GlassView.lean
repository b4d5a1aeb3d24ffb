import Verif.Props.MirrorTwice
import Verif.Props.Kinds

/-!
# What smooth glass and smooth metal show (C115)
-/

namespace PT
open Spec MeasureTheory
open scoped ENNReal

namespace Spec
/-- Snell's law: `wi` is the unit direction across the surface with normal `n` in which light goes on that comes to the viewer in the direction
`wo`, from a medium of index `ni` (on the viewer's side) into one of index `nt`. -/
def Refracted (ni nt : ℝ) (n wo wi : V3 ℝ) : Prop :=
  sq wi = 1 ∧ inner wi n * inner wo n < 0 ∧ times nt (tangential wi n) = times (-ni) (tangential wo n)

/-- No lamp is the first thing that a ray meets. -/
def SeesNoLamp [HasInf ℝ] [HasNext ℝ] (scene : Scene ℝ) (ray : Ray ℝ) : Prop :=
  ∀ h, scene.intersect ray = some (some h) → ∀ l ∈ scene.lights, h.obj.addr ≠ l.addr
end Spec

/-- There is at most one refracted direction. -/
theorem refracted_unique {ni nt : ℝ} (hnt : nt ≠ 0) {n wo a b : V3 ℝ} (hn : Spec.sq n = 1) (ha : Refracted ni nt n wo a) (hb : Refracted ni nt n wo b) : a = b := by
  obtain ⟨a1, a2, a3⟩ := ha
  obtain ⟨b1, b2, b3⟩ := hb
  have ht : times nt (tangential a n) = times nt (tangential b n) := a3.trans b3.symm
  simp only [times, tangential, V3.mk.injEq] at ht
  obtain ⟨hx, hy, hz⟩ := ht
  replace hx := mul_left_cancel₀ hnt hx
  replace hy := mul_left_cancel₀ hnt hy
  replace hz := mul_left_cancel₀ hnt hz
  set p := Spec.inner a n with hp
  set q := Spec.inner b n with hq
  have key : p ^ 2 = q ^ 2 := by
    have ea : Spec.sq a = (a.x - p * n.x) ^ 2 + (a.y - p * n.y) ^ 2 + (a.z - p * n.z) ^ 2 + p ^ 2 := by
      rw [hp] ; simp only [Spec.sq, Spec.inner] at hn ⊢
      linear_combination -(a.x * n.x + a.y * n.y + a.z * n.z) ^ 2 * hn
    have eb : Spec.sq b = (b.x - q * n.x) ^ 2 + (b.y - q * n.y) ^ 2 + (b.z - q * n.z) ^ 2 + q ^ 2 := by
      rw [hq] ; simp only [Spec.sq, Spec.inner] at hn ⊢
      linear_combination -(b.x * n.x + b.y * n.y + b.z * n.z) ^ 2 * hn
    rw [hx, hy, hz] at ea
    linarith
  have hpq : p = q := by
    rcases sq_eq_sq_iff_eq_or_eq_neg.1 key with h | h
    · exact h
    · exfalso
      rw [h] at a2
      linarith
  rw [hpq] at hx hy hz
  ext
  · linarith
  · linarith
  · linarith

/-- Where there is a refracted direction the angle is below the limiting one. -/
theorem refracted_sine {ni nt : ℝ} (hni : 0 < ni) (hnt : 0 < nt) {n wo wi : V3 ℝ} (hn : Spec.sq n = 1) (h1 : Spec.sq wo = 1) (hw : Refracted ni nt n wo wi) :
    ni / nt * Real.sqrt (1 - Spec.inner wo n ^ 2) < 1 := by
  obtain ⟨a1, a2, a3⟩ := hw
  have split : ∀ v : V3 ℝ, Spec.sq v = Spec.sq (tangential v n) + Spec.inner v n ^ 2 := by
    intro v
    simp only [Spec.sq, Spec.inner, tangential] at hn ⊢
    linear_combination -(v.x * n.x + v.y * n.y + v.z * n.z) ^ 2 * hn
  have hsq : nt ^ 2 * Spec.sq (tangential wi n) = ni ^ 2 * Spec.sq (tangential wo n) := by
    have := congrArg Spec.sq a3
    simp only [times, Spec.sq] at this ⊢
    linear_combination this
  have hne : 0 < Spec.inner wi n ^ 2 := by
    have : Spec.inner wi n ≠ 0 := by intro h0; rw [h0, zero_mul] at a2; exact lt_irrefl _ a2
    positivity
  have e1 := split wi
  have e2 := split wo
  rw [a1] at e1
  rw [h1] at e2
  have e3 : 1 - Spec.inner wo n ^ 2 = Spec.sq (tangential wo n) := by linarith
  have hnn : 0 ≤ Spec.sq (tangential wo n) := by simp only [Spec.sq]; positivity
  have hlt : (ni / nt * Real.sqrt (Spec.sq (tangential wo n))) ^ 2 < 1 ^ 2 := by
    rw [mul_pow, Real.sq_sqrt hnn, div_pow, div_mul_eq_mul_div, div_lt_iff₀ (by positivity), ← hsq]
    nlinarith [sq_pos_of_pos hnt]
  rw [e3]
  exact lt_of_pow_lt_pow_left₀ 2 zero_le_one hlt

section
variable [HasInf ℝ] [HasNext ℝ]

theorem mean1_halves (a b : ℝ≥0∞) : (mean1 fun x => if x < 1 / 2 then a else b) = a / 2 + b / 2 := by
  have h := mean1_cells 2 (by norm_num) (fun i => if i = 0 then a / 2 else b / 2)
  rw [Finset.sum_range_succ, Finset.sum_range_one] at h
  simp only [if_true, one_ne_zero, if_false] at h
  rw [← h]
  refine mean1_congr fun x hx => ?_
  have h2 : ∀ y : ℝ≥0∞, ((2 : Nat) : ℝ≥0∞) * (y / 2) = y := fun y => by
    rw [Nat.cast_ofNat, ENNReal.mul_div_cancel (by simp) (by simp)]
  by_cases hl : x < 1 / 2
  · have : ⌊((2 : Nat) : ℝ) * x⌋₊ = 0 := by rw [Nat.floor_eq_zero]; push_cast; linarith
    rw [if_pos hl, this, if_pos rfl, h2]
  · have : ⌊((2 : Nat) : ℝ) * x⌋₊ ≠ 0 := by
      intro h0
      rw [Nat.floor_eq_zero] at h0
      push_cast at h0
      exact hl (by linarith)
    rw [if_neg hl, if_neg this, h2]

theorem mean2_halves (a b : ℝ≥0∞) : (mean2 fun u => if u.x < 1 / 2 then a else b) = a / 2 + b / 2 := by
  unfold mean2
  exact (mean1_congr fun x _ => mean1_const _).trans (mean1_halves a b)

/-- A sample of a surface that scatters in single directions only: either a direction `w` with weight `k`, or nothing (then `k` is zero). -/
def PicksSharp (c : Chan) (i : Interaction ℝ) (b : BSDF ℝ) (u : V2 ℝ) (w : V3 ℝ) (k : ℝ) : Prop :=
  (∃ f p flag, b.sampleF i.wo u = some (w, f, p, flag) ∧ flag &&& SPECULAR ≠ 0 ∧ 0 < p ∧ c.of f * |Spec.inner w i.sn| / p = k) ∨
    (k = 0 ∧ b.sampleF i.wo u = some BSDF.noSample)

theorem dark_fromLight (scene : Scene ℝ) (c : Chan) (h : Hit ℝ) (hf : ∀ wo wi, (h.obj.shape.material h.i).f wo wi = Spectrum.zero)
    (light : LightObj ℝ) (u : V2 ℝ) : fromLight scene c h light u = 0 := by
  have h0 : c.of (Spectrum.zero : Spectrum ℝ) = 0 := by cases c <;> simp only [Chan.of, Spectrum.zero] <;> real_ops
  unfold fromLight
  dsimp only
  split
  · rfl
  · split_ifs
    · rw [hf, h0]; simp
    · rw [hf, h0]; simp
    · rfl

theorem picks_fromSurface (scene : Scene ℝ) (c : Chan) (h : Hit ℝ) (light : LightObj ℝ) {u : V2 ℝ} {w : V3 ℝ} {k : ℝ} (hk : 0 ≤ k)
    (hp : PicksSharp c h.i (h.obj.shape.material h.i) u w k) :
    fromSurface scene c h light u = ENNReal.ofReal k * shines scene c (h.i.spawnRay w) light := by
  rcases hp with ⟨f, p, flag, h1, h2, h3, h4⟩ | ⟨rfl, h1⟩
  · unfold fromSurface shines
    simp only [h1]
    rcases hi : scene.intersect (h.i.spawnRay w) with _ | _ | h'
    · simp
    · simp
    · dsimp only
      by_cases ha : h'.obj.addr = light.addr
      · rw [if_pos ⟨h3, ha⟩, if_pos h2, if_pos ha, mul_one, mul_div_right_comm, h4, ENNReal.ofReal_mul hk]
        rfl
      · rw [if_neg (fun x => ha x.2), if_neg ha, mul_zero]
  · unfold fromSurface
    simp only [h1, BSDF.noSample]
    have : ¬ (0 : ℝ) < lit 0 := by real_ops; simp
    rcases hi : scene.intersect (h.i.spawnRay V3.zero) with _ | _ | h' <;> simp [this]

/-- At a surface that scatters in single directions only. -/
theorem sharp_incoming (scene : Scene ℝ) (c : Chan) (n : Nat) (e : Bool) (ray : Ray ℝ) (h : Hit ℝ) (hh : scene.intersect ray = some (some h))
    (hf : ∀ wo wi, (h.obj.shape.material h.i).f wo wi = Spectrum.zero) (w1 w2 : V3 ℝ) (k1 k2 : ℝ) (hk1 : 0 ≤ k1) (hk2 : 0 ≤ k2)
    (hp1 : ∀ u : V2 ℝ, Canonical u.x → u.x < 1 / 2 → PicksSharp c h.i (h.obj.shape.material h.i) u w1 k1)
    (hp2 : ∀ u : V2 ℝ, Canonical u.x → 1 / 2 ≤ u.x → PicksSharp c h.i (h.obj.shape.material h.i) u w2 k2) :
    incoming scene c (n + 1) e ray = (if e then ENNReal.ofReal (c.of (h.obj.shape.l h.i ray.direction.neg)) else 0) +
      (ENNReal.ofReal k1 * (incoming scene c n true (h.i.spawnRay w1) + ((extended scene).map (shines scene c (h.i.spawnRay w1))).sum) / 2 +
       ENNReal.ofReal k2 * (incoming scene c n true (h.i.spawnRay w2) + ((extended scene).map (shines scene c (h.i.spawnRay w2))).sum) / 2) := by
  have hlight : ∀ light : LightObj ℝ, fromSource scene c h light =
      if light.light.isDelta then 0 else ENNReal.ofReal k1 * shines scene c (h.i.spawnRay w1) light / 2 +
        ENNReal.ofReal k2 * shines scene c (h.i.spawnRay w2) light / 2 := by
    intro light
    unfold fromSource
    rw [show fromLight scene c h light = fun _ => 0 from funext (dark_fromLight scene c h hf light), mean2_const, zero_add]
    split_ifs
    · rfl
    · rw [← mean2_halves]
      apply mean2_congr
      intro u hu _
      split_ifs with hl
      · exact picks_fromSurface scene c h light hk1 (hp1 u hu hl)
      · exact picks_fromSurface scene c h light hk2 (hp2 u hu (not_lt.1 hl))
  have hsum : (scene.lights.map fun light => fromSource scene c h light).sum =
      ENNReal.ofReal k1 * ((extended scene).map (shines scene c (h.i.spawnRay w1))).sum / 2 +
      ENNReal.ofReal k2 * ((extended scene).map (shines scene c (h.i.spawnRay w2))).sum / 2 := by
    unfold extended
    induction scene.lights with
    | nil => simp
    | cons l ls ih =>
      rw [List.map_cons, List.sum_cons, ih, hlight l]
      by_cases hd : l.light.isDelta = true
      · simp [hd]
      · simp [hd, mul_add, ENNReal.add_div]
        abel
  have hnext : ∀ {u : V2 ℝ} {w : V3 ℝ} {k : ℝ}, PicksSharp c h.i (h.obj.shape.material h.i) u w k →
      (match (h.obj.shape.material h.i).sampleF h.i.wo u with
          | none => 0
          | some (wi, f, pdf, flag) =>
            if pdf = 0 then 0
            else ENNReal.ofReal (c.of f * |Spec.inner wi h.i.sn| / pdf) * incoming scene c n (flag &&& SPECULAR != 0) (h.i.spawnRay wi)) =
        ENNReal.ofReal k * incoming scene c n true (h.i.spawnRay w) := by
    intro u w k hp
    rcases hp with ⟨f, p, flag, h1, h2, h3, h4⟩ | ⟨rfl, h1⟩
    · simp only [h1]
      rw [if_neg h3.ne', h4, show (flag &&& SPECULAR != 0) = true by simpa using h2]
    · simp only [h1, BSDF.noSample]
      rw [if_pos (by real_ops)]
      simp
  rw [incoming]
  simp only [hh]
  rw [hsum, add_assoc]
  congr 1
  rw [mean2_congr (G := fun u => if u.x < 1 / 2 then ENNReal.ofReal k1 * incoming scene c n true (h.i.spawnRay w1)
    else ENNReal.ofReal k2 * incoming scene c n true (h.i.spawnRay w2)) ?_, mean2_halves]
  · simp only [mul_add, ENNReal.add_div]
    abel
  · intro u hu _
    by_cases hl : u.x < 1 / 2
    · rw [if_pos hl]; exact hnext (hp1 u hu hl)
    · rw [if_neg hl]; exact hnext (hp2 u hu (not_lt.1 hl))

theorem no_lamp_sum {scene : Scene ℝ} {ray : Ray ℝ} (hno : SeesNoLamp scene ray) (c : Chan) : ((extended scene).map (shines scene c ray)).sum = 0 := by
  apply List.sum_eq_zero
  intro x hx
  obtain ⟨l, hl, rfl⟩ := List.mem_map.1 hx
  unfold shines
  split
  · rename_i h' he
    rw [if_neg (hno h' he l (List.mem_filter.1 hl).1)]
  · rfl

theorem glassShare_range {eta x : ℝ} (heta : 0 < eta) (h0 : x ≠ 0) (h1 : |x| ≤ 1) : 0 ≤ glassShare eta x ∧ glassShare eta x ≤ 1 := by
  rw [← share_value h0 h1]
  exact c55_dielectric_range x 1 _ one_pos heta

/-- C115: smooth metal shows what comes in along the mirror direction, times its colour and its reflectance, if no lamp is seen there. -/
theorem c115_metal (scene : Scene ℝ) (c : Chan) (n : Nat) (e : Bool) (ray : Ray ℝ) (h : Hit ℝ) (hh : scene.intersect ray = some (some h))
    (r eta k : TextureOf ℝ (Spectrum ℝ)) (ru rv : TextureOf ℝ ℝ) (hm : h.obj.shape.material = metalMaterial r eta k ru rv)
    (hs : Smooth h.i) (hr : Colour (r h.i)) (hu0 : ru h.i = 0) (hv0 : rv h.i = 0) (h1 : Spec.sq h.i.wo = 1) (hwo : Spec.inner h.i.wo h.i.sn ≠ 0)
    (F : ℝ → ℝ) (hF : Conducts ⟨c.of (eta h.i), c.of (k h.i)⟩ F) (hno : SeesNoLamp scene (h.i.spawnRay (mirrored h.i.wo h.i.sn))) :
    incoming scene c (n + 1) e ray = (if e then ENNReal.ofReal (c.of (h.obj.shape.l h.i ray.direction.neg)) else 0) +
      ENNReal.ofReal (c.of (r h.i) * F |Spec.inner h.i.wo h.i.sn|) * incoming scene c n true (h.i.spawnRay (mirrored h.i.wo h.i.sn)) := by
  have hF0 : 0 ≤ F |Spec.inner h.i.wo h.i.sn| := by
    obtain ⟨w, _, hw⟩ := hF _ (abs_nonneg _) (cos_le_one h1 hs.1)
    rw [hw]
    unfold waveReflectance
    exact div_nonneg (add_nonneg (Complex.normSq_nonneg _) (Complex.normSq_nonneg _)) two_pos.le
  have hp : ∀ u : V2 ℝ, Canonical u.x → PicksSharp c h.i (h.obj.shape.material h.i) u (mirrored h.i.wo h.i.sn) (c.of (r h.i) * F |Spec.inner h.i.wo h.i.sn|) := by
    intro u hu
    obtain ⟨f, g1, g2⟩ := c82_smooth_metal r eta k ru rv hs hr hu0 hv0 h1 hwo hu
    rw [hm]
    exact .inl ⟨f, 1, _, g1, by decide, one_pos, by rw [div_one, g2 c F hF]⟩
  have hdark : ∀ wo wi, (h.obj.shape.material h.i).f wo wi = Spectrum.zero := fun wo wi => by
    rw [hm]
    exact (c110_smooth_dark h.i r r eta k ru ru rv ⟨hu0, hv0⟩ _ (.inr (.inl rfl)) wo wi).1
  rw [sharp_incoming scene c n e ray h hh hdark _ _ _ _ (mul_nonneg (hr c).1 hF0) (mul_nonneg (hr c).1 hF0) (fun u hu _ => hp u hu) (fun u hu _ => hp u hu),
    no_lamp_sum hno, add_zero, ENNReal.add_halves]

/-- What the code computes at smooth glass through which light passes: as `c115_glass`, but with the emission of lamps that are seen directly in
the glass counted once more (see C85). -/
theorem c115_glass_lamps (scene : Scene ℝ) (c : Chan) (n : Nat) (e : Bool) (ray : Ray ℝ) (h : Hit ℝ) (hh : scene.intersect ray = some (some h))
    (kr kt : TextureOf ℝ (Spectrum ℝ)) (eta ru rv : TextureOf ℝ ℝ) (hm : h.obj.shape.material = glassMaterial kr kt eta ru rv)
    (hs : Smooth h.i) (hkr : Colour (kr h.i)) (hkt : Colour (kt h.i)) (hbr : ∃ c : Chan, c.of (kr h.i) ≠ 0) (hbt : ∃ c : Chan, c.of (kt h.i) ≠ 0)
    (hu0 : ru h.i = 0) (hv0 : rv h.i = 0) (heta : 0 < eta h.i) (h1 : Spec.sq h.i.wo = 1) (hwo : Spec.inner h.i.wo h.i.sn ≠ 0) (wi : V3 ℝ) :
    let ni := nearIndex (eta h.i) (Spec.inner h.i.wo h.i.sn)
    let nt := farIndex (eta h.i) (Spec.inner h.i.wo h.i.sn)
    let F := glassShare (eta h.i) (Spec.inner h.i.wo h.i.sn)
    let front := h.i.spawnRay (mirrored h.i.wo h.i.sn)
    let behind := h.i.spawnRay wi
    let shown := (if e then ENNReal.ofReal (c.of (h.obj.shape.l h.i ray.direction.neg)) else 0) +
      ENNReal.ofReal (c.of (kr h.i) * F) * (incoming scene c n true front + ((extended scene).map (shines scene c front)).sum)
    (Refracted ni nt h.i.sn h.i.wo wi → incoming scene c (n + 1) e ray = shown +
      ENNReal.ofReal (c.of (kt h.i) * (1 - F) * (ni / nt) ^ 2) * (incoming scene c n true behind + ((extended scene).map (shines scene c behind)).sum)) ∧
    ((¬ ∃ wi, Refracted ni nt h.i.sn h.i.wo wi) → incoming scene c (n + 1) e ray = shown) := by
  intro ni nt F front behind shown
  have hFr := glassShare_range heta hwo (cos_le_one h1 hs.1)
  have hnt : 0 < nt := by simp only [nt, farIndex]; split_ifs <;> [exact heta; exact one_pos]
  have hni : 0 < ni := by simp only [ni, nearIndex]; split_ifs <;> [exact one_pos; exact heta]
  have hk1 : 0 ≤ 2 * (c.of (kr h.i) * F) := mul_nonneg two_pos.le (mul_nonneg (hkr c).1 hFr.1)
  have hk2 : 0 ≤ 2 * (c.of (kt h.i) * (1 - F) * (ni / nt) ^ 2) :=
    mul_nonneg two_pos.le (mul_nonneg (mul_nonneg (hkt c).1 (sub_nonneg.2 hFr.2)) (sq_nonneg _))
  have hdark : ∀ wo wi, (h.obj.shape.material h.i).f wo wi = Spectrum.zero := fun wo wi => by
    rw [hm]
    exact (c110_smooth_dark h.i kr kt kr kr eta ru rv ⟨hu0, hv0⟩ _ (.inr (.inr rfl)) wo wi).1
  have hp1 : ∀ u : V2 ℝ, Canonical u.x → u.x < 1 / 2 → PicksSharp c h.i (h.obj.shape.material h.i) u (mirrored h.i.wo h.i.sn) (2 * (c.of (kr h.i) * F)) := by
    intro u hu hl
    obtain ⟨f, g1, g2⟩ := c82_glass_reflects kr kt eta ru rv hs hkr hkt hbr hbt hu0 hv0 h1 hwo hu hl
    rw [hm]
    refine .inl ⟨f, 1 / 2, _, g1, by decide, by norm_num, ?_⟩
    rw [g2]
    change c.of (kr h.i) * F / (1 / 2) = _
    ring
  have hhalf : ∀ (k : ℝ) (X : ℝ≥0∞), ENNReal.ofReal (2 * k) * X / 2 = ENNReal.ofReal k * X := by
    intro k X
    rw [ENNReal.ofReal_mul two_pos.le, mul_assoc, show ENNReal.ofReal 2 = 2 by simp, mul_comm 2, ENNReal.mul_div_cancel_right (by simp) (by simp)]
  constructor
  · intro hw
    have hp2 : ∀ u : V2 ℝ, Canonical u.x → 1 / 2 ≤ u.x → PicksSharp c h.i (h.obj.shape.material h.i) u wi (2 * (c.of (kt h.i) * (1 - F) * (ni / nt) ^ 2)) := by
      intro u hu hl
      obtain ⟨g1, g2⟩ := c82_glass_transmits kr kt eta ru rv hs hkr hkt hbr hbt hu0 hv0 heta h1 hwo hu hl
      rw [hm]
      have hnot : ¬ 1 ≤ nearIndex (eta h.i) (Spec.inner h.i.wo h.i.sn) / farIndex (eta h.i) (Spec.inner h.i.wo h.i.sn) *
          Real.sqrt (1 - Spec.inner h.i.wo h.i.sn ^ 2) := not_le.2 (refracted_sine hni hnt hs.1 h1 hw)
      obtain ⟨wi', f, q1, q2, q3, q4, q5⟩ := g2 hnot
      have hu : wi' = wi := refracted_unique hnt.ne' hs.1 ⟨q2, q3, q4⟩ hw
      subst hu
      refine .inl ⟨f, 1 / 2, _, q1, by decide, by norm_num, ?_⟩
      rw [q5]
      change c.of (kt h.i) * (1 - F) * (ni / nt) ^ 2 / (1 / 2) = _
      ring
    rw [sharp_incoming scene c n e ray h hh hdark _ _ _ _ hk1 hk2 hp1 hp2, hhalf, hhalf, ← add_assoc]
  · intro hw
    have hp2 : ∀ u : V2 ℝ, Canonical u.x → 1 / 2 ≤ u.x → PicksSharp c h.i (h.obj.shape.material h.i) u wi 0 := by
      intro u hu hl
      obtain ⟨g1, g2⟩ := c82_glass_transmits kr kt eta ru rv hs hkr hkt hbr hbt hu0 hv0 heta h1 hwo hu hl
      rw [hm]
      refine .inr ⟨rfl, g1 ?_⟩
      by_contra hnot
      obtain ⟨wi', f, q1, q2, q3, q4, q5⟩ := g2 hnot
      exact hw ⟨wi', q2, q3, q4⟩
    rw [sharp_incoming scene c n e ray h hh hdark _ _ _ _ hk1 le_rfl hp1 hp2, hhalf]
    simp [shown, front]

/-- C115: smooth glass shows what comes in along the mirror direction in the share that Fresnel's equations give, and the rest of what comes in
along the direction of Snell's law, scaled by the square of the index ratio, each times its colour — if no lamp is seen directly there. -/
theorem c115_glass (scene : Scene ℝ) (c : Chan) (n : Nat) (e : Bool) (ray : Ray ℝ) (h : Hit ℝ) (hh : scene.intersect ray = some (some h))
    (kr kt : TextureOf ℝ (Spectrum ℝ)) (eta ru rv : TextureOf ℝ ℝ) (hm : h.obj.shape.material = glassMaterial kr kt eta ru rv)
    (hs : Smooth h.i) (hkr : Colour (kr h.i)) (hkt : Colour (kt h.i)) (hbr : ∃ c : Chan, c.of (kr h.i) ≠ 0) (hbt : ∃ c : Chan, c.of (kt h.i) ≠ 0)
    (hu0 : ru h.i = 0) (hv0 : rv h.i = 0) (heta : 0 < eta h.i) (h1 : Spec.sq h.i.wo = 1) (hwo : Spec.inner h.i.wo h.i.sn ≠ 0)
    (hfront : SeesNoLamp scene (h.i.spawnRay (mirrored h.i.wo h.i.sn))) (wi : V3 ℝ) (hbehind : SeesNoLamp scene (h.i.spawnRay wi)) :
    let ni := nearIndex (eta h.i) (Spec.inner h.i.wo h.i.sn)
    let nt := farIndex (eta h.i) (Spec.inner h.i.wo h.i.sn)
    let F := glassShare (eta h.i) (Spec.inner h.i.wo h.i.sn)
    let shown := (if e then ENNReal.ofReal (c.of (h.obj.shape.l h.i ray.direction.neg)) else 0) +
      ENNReal.ofReal (c.of (kr h.i) * F) * incoming scene c n true (h.i.spawnRay (mirrored h.i.wo h.i.sn))
    (Refracted ni nt h.i.sn h.i.wo wi → incoming scene c (n + 1) e ray = shown +
      ENNReal.ofReal (c.of (kt h.i) * (1 - F) * (ni / nt) ^ 2) * incoming scene c n true (h.i.spawnRay wi)) ∧
    ((¬ ∃ wi, Refracted ni nt h.i.sn h.i.wo wi) → incoming scene c (n + 1) e ray = shown) := by
  have key := c115_glass_lamps scene c n e ray h hh kr kt eta ru rv hm hs hkr hkt hbr hbt hu0 hv0 heta h1 hwo wi
  simp only [no_lamp_sum hfront, no_lamp_sum hbehind, add_zero] at key
  exact key

omit [HasInf ℝ] [HasNext ℝ] in
/-- C115: light that has passed into a plate with parallel faces leaves it in its first direction. -/
theorem c115_straight {ni nt : ℝ} {n wo wi : V3 ℝ} (h1 : Spec.sq wo = 1) (hw : Refracted ni nt n wo wi) :
    Refracted nt ni (times (-1) n) (times (-1) wi) (times (-1) wo) := by
  obtain ⟨a1, a2, a3⟩ := hw
  refine ⟨?_, ?_, ?_⟩
  · simp only [times, Spec.sq] at h1 ⊢; linear_combination h1
  · simp only [times, Spec.inner] at a2 ⊢; linarith
  · simp only [times, tangential, Spec.inner, V3.mk.injEq] at a3 ⊢
    obtain ⟨x, y, z⟩ := a3
    refine ⟨by linear_combination -x, by linear_combination -y, by linear_combination -z⟩

omit [HasInf ℝ] [HasNext ℝ] in
theorem plate_share {eta : ℝ} (heta : 0 < eta) {n wo wi : V3 ℝ} (hn : Spec.sq n = 1) (h1 : Spec.sq wo = 1) (hout : 0 < Spec.inner wo n)
    (hw : Refracted 1 eta n wo wi) : glassShare eta (Spec.inner (times (-1) wi) (times (-1) n)) = glassShare eta (Spec.inner wo n) := by
  obtain ⟨a1, a2, a3⟩ := hw
  have e0 : Spec.inner (times (-1) wi) (times (-1) n) = Spec.inner wi n := by simp only [Spec.inner, times]; ring
  have split : ∀ v : V3 ℝ, Spec.sq v = Spec.sq (tangential v n) + Spec.inner v n ^ 2 := by
    intro v
    simp only [Spec.sq, Spec.inner, tangential] at hn ⊢
    linear_combination -(v.x * n.x + v.y * n.y + v.z * n.z) ^ 2 * hn
  have hsq : eta ^ 2 * Spec.sq (tangential wi n) = 1 ^ 2 * Spec.sq (tangential wo n) := by
    have := congrArg Spec.sq a3
    simp only [times, Spec.sq] at this ⊢
    linear_combination this
  have e1 := split wi
  have e2 := split wo
  rw [a1] at e1
  rw [h1] at e2
  have hneg : Spec.inner wi n < 0 := by
    by_contra hc
    exact absurd a2 (not_lt.2 (mul_nonneg (not_lt.1 hc) hout.le))
  have c1 := abs_le.1 (cos_le_one h1 hn)
  have c2 := abs_le.1 (cos_le_one a1 hn)
  have key := c55_dielectric_reversible (Spec.inner wo n) (-Spec.inner wi n) 1 eta one_pos heta hout c1.2 (by linarith) (by linarith)
    (by nlinarith)
  rw [neg_neg] at key
  rw [e0, ← share_value hneg.ne (cos_le_one a1 hn), ← share_value hout.ne' (cos_le_one h1 hn), key]

/-- C115: a plate of smooth glass with parallel faces lets through what comes in behind it along the straight continuation of the ray, times both
colours and the square of the share that one face lets through: the index ratios cancel.  (What is shown may be more, by the mirror images.) -/
theorem c115_plate (scene : Scene ℝ) (c : Chan) (n : Nat) (e : Bool) (ray : Ray ℝ) (h h2 : Hit ℝ) (wi : V3 ℝ) (hh : scene.intersect ray = some (some h))
    (kr kt : TextureOf ℝ (Spectrum ℝ)) (eta ru rv : TextureOf ℝ ℝ) (hm : h.obj.shape.material = glassMaterial kr kt eta ru rv)
    (hs : Smooth h.i) (hkr : Colour (kr h.i)) (hkt : Colour (kt h.i)) (hbr : ∃ c : Chan, c.of (kr h.i) ≠ 0) (hbt : ∃ c : Chan, c.of (kt h.i) ≠ 0)
    (hu0 : ru h.i = 0) (hv0 : rv h.i = 0) (heta : 0 < eta h.i) (h1 : Spec.sq h.i.wo = 1) (hout : 0 < Spec.inner h.i.wo h.i.sn)
    (hw : Refracted 1 (eta h.i) h.i.sn h.i.wo wi)
    (hh2 : scene.intersect (h.i.spawnRay wi) = some (some h2))
    (kr2 kt2 : TextureOf ℝ (Spectrum ℝ)) (eta2 ru2 rv2 : TextureOf ℝ ℝ) (hm2 : h2.obj.shape.material = glassMaterial kr2 kt2 eta2 ru2 rv2)
    (hs2 : Smooth h2.i) (hkr2 : Colour (kr2 h2.i)) (hkt2 : Colour (kt2 h2.i)) (hbr2 : ∃ c : Chan, c.of (kr2 h2.i) ≠ 0)
    (hbt2 : ∃ c : Chan, c.of (kt2 h2.i) ≠ 0) (hu2 : ru2 h2.i = 0) (hv2 : rv2 h2.i = 0) (hsame : eta2 h2.i = eta h.i)
    (hpar : h2.i.sn = times (-1) h.i.sn) (hwo2 : h2.i.wo = times (-1) wi) :
    ENNReal.ofReal (c.of (kt h.i) * c.of (kt2 h2.i) * (1 - glassShare (eta h.i) (Spec.inner h.i.wo h.i.sn)) ^ 2) *
      incoming scene c n true (h2.i.spawnRay (times (-1) h.i.wo)) ≤ incoming scene c (n + 2) e ray := by
  have hcos : Spec.inner h2.i.wo h2.i.sn = Spec.inner wi h.i.sn := by rw [hpar, hwo2]; simp only [Spec.inner, times]; ring
  have hneg : Spec.inner wi h.i.sn < 0 := by
    by_contra hc
    exact absurd hw.2.1 (not_lt.2 (mul_nonneg (not_lt.1 hc) hout.le))
  have k1 := (c115_glass_lamps scene c (n + 1) e ray h hh kr kt eta ru rv hm hs hkr hkt hbr hbt hu0 hv0 heta h1 hout.ne' wi).1
  have k2 := (c115_glass_lamps scene c n true (h.i.spawnRay wi) h2 hh2 kr2 kt2 eta2 ru2 rv2 hm2 hs2 hkr2 hkt2 hbr2 hbt2 hu2 hv2 (by rw [hsame]; exact heta)
    (by rw [hwo2]; have := hw.1; simp only [Spec.sq, times] at this ⊢; linear_combination this) (by rw [hcos]; exact hneg.ne) (times (-1) h.i.wo)).1
  have hF := glassShare_range heta hout.ne' (cos_le_one h1 hs.1)
  have hF2 : glassShare (eta2 h2.i) (Spec.inner h2.i.wo h2.i.sn) = glassShare (eta h.i) (Spec.inner h.i.wo h.i.sn) := by
    rw [hsame, hpar, hwo2]
    exact plate_share heta hs.1 h1 hout hw
  rw [hF2, hcos, hsame] at k2
  simp only [nearIndex, farIndex, hout, not_lt.2 hneg.le, if_true, if_false] at k1 k2
  rw [hpar, hwo2] at k2
  rw [k1 hw, k2 (c115_straight h1 hw)]
  generalize glassShare (eta h.i) (Spec.inner h.i.wo h.i.sn) = F at hF
  generalize incoming scene c n true (h2.i.spawnRay (times (-1) h.i.wo)) = I
  have e1 : c.of (kt h.i) * c.of (kt2 h2.i) * (1 - F) ^ 2 = (c.of (kt h.i) * (1 - F) * (1 / eta h.i) ^ 2) * (c.of (kt2 h2.i) * (1 - F) * (eta h.i / 1) ^ 2) := by
    field_simp
  rw [e1, ENNReal.ofReal_mul (mul_nonneg (mul_nonneg (hkt c).1 (sub_nonneg.2 hF.2)) (sq_nonneg _)), mul_assoc]
  refine le_trans ?_ le_add_self
  gcongr
  refine le_trans ?_ le_self_add
  refine le_trans ?_ le_add_self
  gcongr
  exact le_self_add
end
end PT
