import Verif.Props.WrongSide

/-!
# Rough glass seen from inside (C100)
-/

namespace PT
open Spec WrongSide

/-- A facet bends light the other way too. -/
theorem Spec.Bends.swap {η : ℝ} (hη : η ≠ 0) {n wo wi : V3 ℝ} (h : Bends (1 / η) n wo wi) : Bends η (times (-1) n) wi wo := by
  refine ⟨?_, ?_, ?_, ?_⟩
  · have := h.unit; simp only [Spec.sq, times] at *; linarith
  · rw [inner_times]; linarith [h.back]
  · rw [inner_times]; linarith [h.front]
  · have hs := h.snell
    have hx := congrArg V3.x hs
    have hy := congrArg V3.y hs
    have hz := congrArg V3.z hs
    simp only [tangential, times] at hx hy hz
    have fin : ∀ a b : ℝ, a = -(1 / η) * b → b = -η * a := by intro a b e; rw [e]; field_simp
    ext <;> simp only [tangential, inner_times] <;> simp only [times]
    · have := fin _ _ hx; linear_combination this
    · have := fin _ _ hy; linear_combination this
    · have := fin _ _ hz; linear_combination this

/-- C100: from inside a denser medium, too, light can leave by some facet exactly if the two directions make a cosine below `-1 / η`. -/
theorem c100_facet_exists_inside {η : ℝ} (hη : 1 < η) {wo wi : V3 ℝ} (h1 : sq wo = 1) (h2 : sq wi = 1) :
    (∃ n, Bends (1 / η) n wo wi) ↔ η * Spec.inner wo wi < -1 := by
  have h0 : η ≠ 0 := by linarith
  rw [inner_swap wo wi, ← c100_facet_exists hη h2 h1]
  constructor
  · rintro ⟨n, h⟩
    exact ⟨_, h.swap h0⟩
  · rintro ⟨n, h⟩
    have h' : Bends (1 / (1 / η)) n wi wo := by rw [one_div_one_div]; exact h
    exact ⟨_, h'.swap (one_div_ne_zero h0)⟩

/-- Light from inside into air: some of it passes for almost every pair of directions. -/
theorem leaving_pos {ax ay η : ℝ} (hx : 0 < ax) (hy : 0 < ay) (hη : 1 < η) {wo wi : V3 ℝ} (h1 : sq wo = 1) (h2 : sq wi = 1) (z1 : wo.z < 0) (z2 : 0 < wi.z)
    (hz : wo.z + 1 / η * wi.z ≠ 0) (hs : η * Spec.inner wo wi ≠ -1) :
    0 < passage ax ay η 1 (glassShare η) wo wi ∧ Spec.inner (upward (halfway wo (times (1 / η) wi))) wo ≠ 0 := by
  have hη0 : 0 < η := by linarith
  obtain ⟨L, hL, e0, e1, e2, e3, e4⟩ := facet_facts h1 h2 hz
  have hL2 : L ^ 2 = 1 + (1 / η) ^ 2 + 2 * (1 / η) * Spec.inner wo wi := by
    have hq : ∀ k : ℝ, sq (times k (plus wo (times (1 / η) wi))) = k ^ 2 * sq (plus wo (times (1 / η) wi)) := by
      intro k; simp only [Spec.sq, times]; ring
    rw [hq, SolidAngle.plus_sq h1 h2 (1 / η)] at e4
    have hk2 : (if wo.z + 1 / η * wi.z < 0 then -1 / L else 1 / L) ^ 2 = 1 / L ^ 2 := by split_ifs <;> field_simp
    rw [hk2] at e4
    field_simp at e4 ⊢
    linarith
  have hkk : (if wo.z + 1 / η * wi.z < 0 then -1 / L else 1 / L) ^ 2 = 1 / L ^ 2 := by split_ifs <;> field_simp
  generalize hk : (if wo.z + 1 / η * wi.z < 0 then -1 / L else 1 / L) = k at e0 e1 e2 e3 e4 hkk
  have hk0 : k ≠ 0 := by rw [← hk]; split_ifs <;> simp [hL.ne']
  have hge := inner_ge h1 h2
  have hle := inner_le h1 h2
  have hin : 1 / η < 1 := by rw [div_lt_one hη0]; exact hη
  have hin0 : 0 < 1 / η := by positivity
  have hone : 0 < 1 + 1 / η * Spec.inner wo wi := by nlinarith
  have hc0 : Spec.inner (times k (plus wo (times (1 / η) wi))) wo ≠ 0 := by
    rw [inner_swap, e1]; exact mul_ne_zero hk0 hone.ne'
  have hc1 : Spec.inner (times k (plus wo (times (1 / η) wi))) wo ≤ 1 := inner_le e4 h1
  have hc2 : -1 ≤ Spec.inner (times k (plus wo (times (1 / η) wi))) wo := inner_ge e4 h1
  have hne : Spec.inner wo wi + 1 / η ≠ 0 := by
    intro h
    apply hs
    have : Spec.inner wo wi = -(1 / η) := by linarith
    rw [this]; field_simp
  have hcsq : η ^ 2 * (1 - Spec.inner (times k (plus wo (times (1 / η) wi))) wo ^ 2) < 1 := by
    rw [inner_swap, e1, mul_pow, hkk]
    have hLp : 0 < L ^ 2 := by positivity
    have key : η ^ 2 * (L ^ 2 - (1 + 1 / η * Spec.inner wo wi) ^ 2) = 1 - Spec.inner wo wi ^ 2 := by
      rw [hL2]; field_simp; ring
    have : η ^ 2 * (1 - 1 / L ^ 2 * (1 + 1 / η * Spec.inner wo wi) ^ 2) = (1 - Spec.inner wo wi ^ 2) / L ^ 2 := by
      rw [← key]; field_simp
    rw [this, div_lt_one hLp, hL2]
    have : 0 < (Spec.inner wo wi + 1 / η) ^ 2 := by positivity
    nlinarith
  refine ⟨passage_pos hx hy z1.ne z2.ne' (h := times k (plus wo (times (1 / η) wi))) e0 ?_ ?_ ?_ ?_ ?_, by rw [e0]; exact hc0⟩
  · simp only [times, plus]; exact mul_ne_zero hk0 hz
  · rw [inner_swap]; exact hc0
  · rw [e2]; exact mul_ne_zero hk0 hne
  · rw [e3]; positivity
  · generalize Spec.inner (times k (plus wo (times (1 / η) wi))) wo = c at hc0 hc1 hc2 hcsq
    rw [glassShare]
    have hsq0 := Real.sqrt_nonneg (1 - c ^ 2)
    have hsq := Real.sq_sqrt (show 0 ≤ 1 - c ^ 2 by nlinarith)
    split_ifs with hc
    · refine boundary_lt_one one_pos hη0 hc hc1 ?_
      have hs1 : Real.sqrt (1 - c ^ 2) ≤ 1 := by rw [Real.sqrt_le_one]; nlinarith
      rw [one_div, inv_mul_lt_iff₀ hη0]
      linarith
    · have hc' : c < 0 := lt_of_le_of_ne (not_lt.1 hc) hc0
      refine boundary_lt_one hη0 one_pos (by linarith) (by linarith) ?_
      rw [neg_sq, div_one]
      rw [← hsq] at hcsq
      nlinarith [mul_nonneg hη0.le hsq0]

/-- C100, seen from inside: some light passes for every pair of directions on the two sides, except where the facet would be vertical or one direction
would graze it.  So light passes wherever a facet bends it, and also where none does. -/
theorem c100_inside_always [HasInf ℝ] (kr kt : TextureOf ℝ (Spectrum ℝ)) (eta ru rv : TextureOf ℝ ℝ) {i : Interaction ℝ} (h : Smooth i)
    (hkr : Colour (kr i)) (hkt : Colour (kt i)) (hu : 0 < ru i) (hv : 0 < rv i) (heta : 1 < eta i) {wo wi : V3 ℝ} (h1 : sq wo = 1) (h2 : sq wi = 1)
    (z1 : Spec.inner wo i.sn < 0) (z2 : 0 < Spec.inner wi i.sn) (hside : ¬ SameSide i wo wi) (c : Chan) (hc : c.of (kt i) ≠ 0)
    (hvert : eta i * Spec.inner wo i.sn + Spec.inner wi i.sn ≠ 0) (hgraze : eta i * Spec.inner wo wi ≠ -1) :
    0 < c.of ((glassMaterial kr kt eta ru rv i).f wo wi) := by
  have hη0 : 0 < eta i := by linarith
  have hz : Spec.inner wo i.sn + 1 / eta i * Spec.inner wi i.sn ≠ 0 := by
    intro e; apply hvert
    have : eta i * (Spec.inner wo i.sn + 1 / eta i * Spec.inner wi i.sn) = 0 := by rw [e, mul_zero]
    rw [← this]; field_simp
  have l1 : sq (local3 i wo) = 1 := by rw [local3_sq h, h1]
  have l2 : sq (local3 i wi) = 1 := by rw [local3_sq h, h2]
  have key := leaving_pos (ax := ru i) (ay := rv i) hu hv heta l1 l2 z1 z2 hz (by rw [local_inner h]; exact hgraze)
  have hn : nearIndex (eta i) (Spec.inner wo i.sn) = eta i := if_neg (not_lt.2 z1.le)
  have hf : farIndex (eta i) (Spec.inner wo i.sn) = 1 := if_neg (not_lt.2 z1.le)
  rw [c82_rough_glass_transmits kr kt eta ru rv h hkr hkt hu hv hη0 h1 h2 (mul_neg_of_neg_of_pos z1 z2) hside c
    (by rw [hn, hf]; exact hz) (by rw [hn, hf]; exact key.2), hn, hf]
  exact mul_pos (lt_of_le_of_ne (hkt c).1 (Ne.symm hc)) key.1

/-- C100, the part that holds, seen from inside: light passes wherever a facet that does not stand vertical bends it. -/
theorem c100_facet_passes_inside_partial [HasInf ℝ] (kr kt : TextureOf ℝ (Spectrum ℝ)) (eta ru rv : TextureOf ℝ ℝ) {i : Interaction ℝ} (h : Smooth i)
    (hkr : Colour (kr i)) (hkt : Colour (kt i)) (hu : 0 < ru i) (hv : 0 < rv i) (heta : 1 < eta i) {wo wi : V3 ℝ} (h1 : sq wo = 1) (h2 : sq wi = 1)
    (z1 : Spec.inner wo i.sn < 0) (z2 : 0 < Spec.inner wi i.sn) (hside : ¬ SameSide i wo wi) (c : Chan) (hc : c.of (kt i) ≠ 0)
    {n : V3 ℝ} (hn : Bends (1 / eta i) n wo wi) (hup : Spec.inner n i.sn ≠ 0) : 0 < c.of ((glassMaterial kr kt eta ru rv i).f wo wi) := by
  have hη0 : 0 < eta i := by linarith
  have hA := (c100_facet_exists_inside heta h1 h2).1 ⟨n, hn⟩
  refine c100_inside_always kr kt eta ru rv h hkr hkt hu hv heta h1 h2 z1 z2 hside c hc ?_ hA.ne
  have hH := bends_along hn
  have hge := inner_ge h1 h2
  have e1 : Spec.inner wo (plus wo (times (1 / eta i) wi)) = 1 + 1 / eta i * Spec.inner wo wi := by rw [inner_plus, inner_self, h1]
  have e3 : Spec.inner i.sn (plus wo (times (1 / eta i) wi)) = Spec.inner wo i.sn + 1 / eta i * Spec.inner wi i.sn := by
    rw [inner_plus, inner_swap i.sn wo, inner_swap i.sn wi]
  rw [hH, inner_times] at e1 e3
  have hin : 1 / eta i < 1 := by rw [div_lt_one hη0]; exact heta
  have hin0 : 0 < 1 / eta i := by positivity
  have hq : Spec.inner wo n + 1 / eta i * Spec.inner wi n ≠ 0 := by
    intro e; rw [e, zero_mul] at e1; nlinarith
  intro e
  have : eta i * (Spec.inner wo i.sn + 1 / eta i * Spec.inner wi i.sn) = 0 := by rw [← e]; field_simp
  rw [← e3] at this
  have h3 := mul_ne_zero hη0.ne' (mul_ne_zero hq (by rw [inner_swap]; exact hup : Spec.inner i.sn n ≠ 0))
  exact h3 this

/-- C100 refuted from inside: light passes between all directions that no facet bends into each other, except where the facet would be vertical. -/
theorem c100_inside_no_facet_but_light [HasInf ℝ] (kr kt : TextureOf ℝ (Spectrum ℝ)) (eta ru rv : TextureOf ℝ ℝ) {i : Interaction ℝ} (h : Smooth i)
    (hkr : Colour (kr i)) (hkt : Colour (kt i)) (hu : 0 < ru i) (hv : 0 < rv i) (heta : 1 < eta i) {wo wi : V3 ℝ} (h1 : sq wo = 1) (h2 : sq wi = 1)
    (z1 : Spec.inner wo i.sn < 0) (z2 : 0 < Spec.inner wi i.sn) (hside : ¬ SameSide i wo wi) (c : Chan) (hc : c.of (kt i) ≠ 0)
    (hvert : eta i * Spec.inner wo i.sn + Spec.inner wi i.sn ≠ 0) (hsame : -1 < eta i * Spec.inner wo wi) :
    (¬ ∃ n, Bends (1 / eta i) n wo wi) ∧ 0 < c.of ((glassMaterial kr kt eta ru rv i).f wo wi) := by
  refine ⟨fun hn => ?_, c100_inside_always kr kt eta ru rv h hkr hkt hu hv heta h1 h2 z1 z2 hside c hc hvert hsame.ne'⟩
  have := (c100_facet_exists_inside heta h1 h2).1 hn
  linarith

/-! ## The hypotheses are met -/

/-- Light that leaves glass of index 4/3: the sine 3/5 becomes 4/5. -/
theorem Demo.leaves : Bends (1 / (4 / 3)) ⟨0, 0, -1⟩ ⟨-3 / 5, 0, -4 / 5⟩ ⟨4 / 5, 0, 3 / 5⟩ := by
  refine ⟨by norm_num [Spec.sq], by norm_num [Spec.inner], by norm_num [Spec.inner], ?_⟩
  ext <;> norm_num [tangential, times, Spec.inner]

example [HasInf ℝ] (hinf : 1 ≤ (HasInf.infinity : ℝ)) :=
  c100_facet_passes_inside_partial (fun _ => ⟨1, 1, 1⟩) (fun _ => ⟨1, 1, 1⟩) (fun _ => 4 / 3) (fun _ => 1 / 2) (fun _ => 1 / 3) Demo.flat_smooth
    (Demo.white_colour hinf) (Demo.white_colour hinf) (by norm_num) (by norm_num) (by norm_num) (wo := ⟨-3 / 5, 0, -4 / 5⟩) (wi := ⟨4 / 5, 0, 3 / 5⟩)
    (by norm_num [Spec.sq]) (by norm_num [Spec.sq]) (by norm_num [Spec.inner, Demo.flat]) (by norm_num [Spec.inner, Demo.flat])
    (by norm_num [SameSide, Spec.inner, Demo.flat]) .r (by norm_num [Chan.of]) Demo.leaves (by norm_num [Spec.inner, Demo.flat])

/-- Seen from 53 degrees off the normal inside the glass, light that comes from the same side outside: total reflection would keep it out. -/
example [HasInf ℝ] (hinf : 1 ≤ (HasInf.infinity : ℝ)) :=
  c100_inside_no_facet_but_light (fun _ => ⟨1, 1, 1⟩) (fun _ => ⟨1, 1, 1⟩) (fun _ => 3 / 2) (fun _ => 1 / 2) (fun _ => 1 / 3) Demo.flat_smooth
    (Demo.white_colour hinf) (Demo.white_colour hinf) (by norm_num) (by norm_num) (by norm_num) (wo := ⟨4 / 5, 0, -3 / 5⟩) (wi := ⟨4 / 5, 0, 3 / 5⟩)
    (by norm_num [Spec.sq]) (by norm_num [Spec.sq]) (by norm_num [Spec.inner, Demo.flat]) (by norm_num [Spec.inner, Demo.flat])
    (by norm_num [SameSide, Spec.inner, Demo.flat]) .r (by norm_num [Chan.of]) (by norm_num [Spec.inner, Demo.flat]) (by norm_num [Spec.inner])
end PT
