import Verif.Props.SolidAngle

/-!
# Rough glass and the facets that could refract the light (C100)

Rough glass is a field of small facets.  Light can pass from one direction to another only if some facet has the two directions on its two sides and
bends one into the other by Snell's law.
-/

namespace PT
open Spec

namespace Spec
/-- A facet with unit normal `n` bends light between `wo`, on the side the normal points to, and `wi`, on the other side, where the index of the medium
is `η` times that on the side of `wo`: Snell's law, in vector form. -/
structure Bends (η : ℝ) (n wo wi : V3 ℝ) : Prop where
  unit : sq n = 1
  front : 0 < Spec.inner wo n
  back : Spec.inner wi n < 0
  snell : tangential wo n = times (-η) (tangential wi n)
end Spec

namespace WrongSide

theorem bends_along {η : ℝ} {n wo wi : V3 ℝ} (h : Bends η n wo wi) : plus wo (times η wi) = times (Spec.inner wo n + η * Spec.inner wi n) n := by
  have hs := h.snell
  have hx := congrArg V3.x hs
  have hy := congrArg V3.y hs
  have hz := congrArg V3.z hs
  simp only [tangential, times] at hx hy hz
  ext <;> simp only [plus, times] <;> linarith

theorem inner_plus (a b : V3 ℝ) (η : ℝ) (w : V3 ℝ) : Spec.inner w (plus a (times η b)) = Spec.inner w a + η * Spec.inner w b := by
  simp only [Spec.inner, plus, times]; ring

theorem inner_times (w n : V3 ℝ) (q : ℝ) : Spec.inner w (times q n) = q * Spec.inner w n := by
  simp only [Spec.inner, times]; ring

theorem inner_self (w : V3 ℝ) : Spec.inner w w = sq w := by simp only [Spec.inner, Spec.sq]; ring

theorem inner_swap (a b : V3 ℝ) : Spec.inner a b = Spec.inner b a := by simp only [Spec.inner]; ring

theorem inner_ge {a b : V3 ℝ} (h1 : sq a = 1) (h2 : sq b = 1) : -1 ≤ Spec.inner a b := by
  simp only [Spec.sq, Spec.inner] at *
  nlinarith [sq_nonneg (a.x + b.x), sq_nonneg (a.y + b.y), sq_nonneg (a.z + b.z)]

theorem inner_le {a b : V3 ℝ} (h1 : sq a = 1) (h2 : sq b = 1) : Spec.inner a b ≤ 1 := by
  simp only [Spec.sq, Spec.inner] at *
  nlinarith [sq_nonneg (a.x - b.x), sq_nonneg (a.y - b.y), sq_nonneg (a.z - b.z)]

theorem local_inner {i : Interaction ℝ} (h : Smooth i) (a b : V3 ℝ) : Spec.inner (local3 i a) (local3 i b) = Spec.inner a b := by
  have h1 := local3_sq h a
  have h2 := local3_sq h b
  have h3 := local3_sq h (plus a b)
  have h4 : local3 i (plus a b) = plus (local3 i a) (local3 i b) := by
    ext <;> simp only [local3, Spec.inner, plus] <;> ring
  rw [h4] at h3
  simp only [Spec.sq, Spec.inner, plus] at *
  linarith

end WrongSide
open WrongSide

/-- C100: light can pass into a denser medium by some facet exactly if the two directions make a cosine below `-1 / η`. -/
theorem c100_facet_exists {η : ℝ} (hη : 1 < η) {wo wi : V3 ℝ} (h1 : sq wo = 1) (h2 : sq wi = 1) :
    (∃ n, Bends η n wo wi) ↔ η * Spec.inner wo wi < -1 := by
  have hge := inner_ge h1 h2
  constructor
  · rintro ⟨n, h⟩
    have hH := bends_along h
    set q := Spec.inner wo n + η * Spec.inner wi n
    have e1 : Spec.inner wo (plus wo (times η wi)) = 1 + η * Spec.inner wo wi := by rw [inner_plus, inner_self, h1]
    have e2 : Spec.inner wi (plus wo (times η wi)) = Spec.inner wo wi + η := by rw [inner_plus, inner_self, h2, inner_swap wi wo]; ring
    rw [hH, inner_times] at e1 e2
    have hq : q < 0 := by
      by_contra hc
      nlinarith [h.back]
    nlinarith [h.front]
  · intro hc
    set H := plus wo (times η wi) with hHd
    have e1 : Spec.inner wo H = 1 + η * Spec.inner wo wi := by rw [hHd, inner_plus, inner_self, h1]
    have e2 : Spec.inner wi H = Spec.inner wo wi + η := by rw [hHd, inner_plus, inner_self, h2, inner_swap wi wo]; ring
    have hHs := SolidAngle.plus_sq h1 h2 η
    rw [← hHd] at hHs
    have hpos : 0 < sq H := by
      rcases (show 0 ≤ sq H by unfold Spec.sq; positivity).lt_or_eq with h | h
      · exact h
      · have : Spec.inner wo H ^ 2 ≤ sq wo * sq H := by
          simp only [Spec.inner, Spec.sq]
          nlinarith [sq_nonneg (wo.x * H.y - wo.y * H.x), sq_nonneg (wo.y * H.z - wo.z * H.y), sq_nonneg (wo.z * H.x - wo.x * H.z)]
        rw [← h, mul_zero, e1] at this
        nlinarith
    have hL := Real.sqrt_pos.2 hpos
    have hL2 := Real.sq_sqrt hpos.le
    set L := Real.sqrt (sq H)
    refine ⟨times (-1 / L) H, ?_, ?_, ?_, ?_⟩
    · have : sq (times (-1 / L) H) = sq H / L ^ 2 := by simp only [Spec.sq, times]; field_simp
      rw [this, hL2, div_self hpos.ne']
    · rw [inner_times, e1, div_mul_eq_mul_div]; exact div_pos (by linarith) hL
    · rw [inner_times, e2, div_mul_eq_mul_div]; exact div_neg_of_neg_of_pos (by nlinarith) hL
    · have key : ∀ v : V3 ℝ, tangential v (times (-1 / L) H) = plus v (times (-(Spec.inner v H / L ^ 2)) H) := by
        intro v
        have e : tangential v (times (-1 / L) H) = plus v (times (-Spec.inner v (times (-1 / L) H)) (times (-1 / L) H)) := by
          ext <;> simp only [tangential, times, plus] <;> ring
        rw [e, inner_times]
        ext <;> simp only [times, plus] <;> field_simp
      rw [key, key, hL2, hHs, e1, e2]
      have hden : 1 + η ^ 2 + 2 * η * Spec.inner wo wi ≠ 0 := by rw [← hHs]; exact hpos.ne'
      have fin : ∀ a b c D : ℝ, D ≠ 0 → 1 + η ^ 2 + 2 * η * c = D →
          a + -((1 + η * c) / D) * (a + η * b) = -η * (b + -((c + η) / D) * (a + η * b)) := by
        intro a b c D hD hE
        field_simp
        linear_combination -(a + η * b) * hE
      ext <;> simp only [plus, times, hHd] <;> exact fin _ _ _ _ hden rfl

/-- The share that the model of Walter et al. lets pass is positive wherever its facet does not reflect everything. -/
theorem passage_pos {ax ay ni nt : ℝ} (hx : 0 < ax) (hy : 0 < ay) {F : ℝ → ℝ} {wo wi : V3 ℝ} (z1 : wo.z ≠ 0) (z2 : wi.z ≠ 0) {h : V3 ℝ}
    (hh : upward (halfway wo (times (nt / ni) wi)) = h) (hz : h.z ≠ 0) (ho : Spec.inner wo h ≠ 0) (hi : Spec.inner wi h ≠ 0)
    (hs : Spec.inner wo h + nt / ni * Spec.inner wi h ≠ 0) (hF : F (Spec.inner h wo) < 1) : 0 < passage ax ay ni nt F wo wi := by
  unfold passage
  simp only [hh]
  have g := ggx_pos hx hy hz
  have s1 := smith_nonneg ax ay wo
  have s2 := smith_nonneg ax ay wi
  have hF' : 0 < 1 - F (Spec.inner h wo) := by linarith
  positivity

/-- The facet normal in terms of the unnormalised one. -/
theorem facet_facts {η : ℝ} {wo wi : V3 ℝ} (h1 : sq wo = 1) (h2 : sq wi = 1) (hz : wo.z + η * wi.z ≠ 0) :
    ∃ L : ℝ, 0 < L ∧ let k := if wo.z + η * wi.z < 0 then -1 / L else 1 / L
      upward (halfway wo (times η wi)) = times k (plus wo (times η wi)) ∧
      Spec.inner wo (times k (plus wo (times η wi))) = k * (1 + η * Spec.inner wo wi) ∧
      Spec.inner wi (times k (plus wo (times η wi))) = k * (Spec.inner wo wi + η) ∧
      Spec.inner wo (times k (plus wo (times η wi))) + η * Spec.inner wi (times k (plus wo (times η wi))) = k * L ^ 2 ∧
      sq (times k (plus wo (times η wi))) = 1 := by
  have hH : (plus wo (times η wi)).z ≠ 0 := by simpa [plus, times] using hz
  have hpos : 0 < sq (plus wo (times η wi)) := by unfold Spec.sq; positivity
  have hL := Real.sqrt_pos.2 hpos
  have hL2 := Real.sq_sqrt hpos.le
  refine ⟨Real.sqrt (sq (plus wo (times η wi))), hL, ?_⟩
  have e1 : Spec.inner wo (plus wo (times η wi)) = 1 + η * Spec.inner wo wi := by rw [inner_plus, inner_self, h1]
  have e2 : Spec.inner wi (plus wo (times η wi)) = Spec.inner wo wi + η := by rw [inner_plus, inner_self, h2, inner_swap wi wo]; ring
  have hh : halfway wo (times η wi) = times (1 / Real.sqrt (sq (plus wo (times η wi)))) (plus wo (times η wi)) := rfl
  have hHs := SolidAngle.plus_sq h1 h2 η
  simp only [inner_times, e1, e2, hh]
  generalize Real.sqrt (sq (plus wo (times η wi))) = L at *
  refine ⟨?_, trivial, trivial, ?_, ?_⟩
  · unfold upward
    have : (times (1 / L) (plus wo (times η wi))).z < 0 ↔ wo.z + η * wi.z < 0 := by
      simp only [times, plus, one_div]
      rw [mul_neg_iff]
      constructor
      · rintro (h | h)
        · exact h.2
        · exact absurd h.1 (not_lt.2 (inv_pos.2 hL).le)
      · exact fun h => Or.inl ⟨inv_pos.2 hL, h⟩
    simp only [this]
    split_ifs
    · ext <;> simp only [times] <;> ring
    · rfl
  · rw [hL2, hHs]; ring
  · have : ∀ k : ℝ, sq (times k (plus wo (times η wi))) = k ^ 2 * sq (plus wo (times η wi)) := by intro k; simp only [Spec.sq, times]; ring
    rw [this, ← hL2]
    split_ifs <;> field_simp

/-- Light from above into a denser glass: whenever the cosine of the facet at `wo` is positive, some of it passes. -/
theorem entering_pos {ax ay η : ℝ} (hx : 0 < ax) (hy : 0 < ay) (hη : 1 < η) {wo wi : V3 ℝ} (h1 : sq wo = 1) (h2 : sq wi = 1) (z1 : 0 < wo.z) (z2 : wi.z < 0)
    (hz : wo.z + η * wi.z ≠ 0) (hs : 0 < (wo.z + η * wi.z) * (1 + η * Spec.inner wo wi)) :
    0 < passage ax ay 1 η (glassShare η) wo wi ∧ Spec.inner (upward (halfway wo (times (η / 1) wi))) wo ≠ 0 := by
  obtain ⟨L, hL, e0, e1, e2, e3, e4⟩ := facet_facts h1 h2 hz
  generalize hk : (if wo.z + η * wi.z < 0 then -1 / L else 1 / L) = k at e0 e1 e2 e3 e4
  have hk0 : k ≠ 0 := by rw [← hk]; split_ifs <;> simp [hL.ne']
  have hkp : 0 < k * (1 + η * Spec.inner wo wi) := by
    rw [← hk]
    split_ifs with h
    · have : 1 + η * Spec.inner wo wi < 0 := by nlinarith
      rw [div_mul_eq_mul_div]; exact div_pos (by linarith) hL
    · have h' : 0 < wo.z + η * wi.z := lt_of_le_of_ne (not_lt.1 h) (Ne.symm hz)
      have : 0 < 1 + η * Spec.inner wo wi := by nlinarith
      positivity
  have hge := inner_ge h1 h2
  rw [div_one]
  have hc0 : 0 < Spec.inner (times k (plus wo (times η wi))) wo := by rw [inner_swap, e1]; exact hkp
  have hc1 : Spec.inner (times k (plus wo (times η wi))) wo ≤ 1 := inner_le e4 h1
  refine ⟨passage_pos hx hy z1.ne' z2.ne (h := times k (plus wo (times η wi))) (by rw [div_one]; exact e0) ?_ ?_ ?_ ?_ ?_, by rw [e0]; exact hc0.ne'⟩
  · simp only [times, plus]; exact mul_ne_zero hk0 hz
  · rw [e1]; exact hkp.ne'
  · rw [e2]; exact mul_ne_zero hk0 (by linarith)
  · rw [div_one, e3]; positivity
  · generalize Spec.inner (times k (plus wo (times η wi))) wo = c at hc0 hc1
    rw [glassShare, if_pos hc0]
    refine boundary_lt_one one_pos (by linarith) hc0 hc1 ?_
    have hs1 : Real.sqrt (1 - c ^ 2) ≤ 1 := by rw [Real.sqrt_le_one]; nlinarith
    have := Real.sqrt_nonneg (1 - c ^ 2)
    rw [one_div, inv_mul_lt_iff₀ (by linarith)]
    linarith

namespace WrongSide

theorem material_pos [HasInf ℝ] (kr kt : TextureOf ℝ (Spectrum ℝ)) (eta ru rv : TextureOf ℝ ℝ) {i : Interaction ℝ} (h : Smooth i)
    (hkr : Colour (kr i)) (hkt : Colour (kt i)) (hu : 0 < ru i) (hv : 0 < rv i) (heta : 1 < eta i) {wo wi : V3 ℝ} (h1 : sq wo = 1) (h2 : sq wi = 1)
    (z1 : 0 < Spec.inner wo i.sn) (z2 : Spec.inner wi i.sn < 0) (hside : ¬ SameSide i wo wi) (c : Chan) (hc : c.of (kt i) ≠ 0)
    (hs : 0 < (Spec.inner wo i.sn + eta i * Spec.inner wi i.sn) * (1 + eta i * Spec.inner wo wi)) :
    0 < c.of ((glassMaterial kr kt eta ru rv i).f wo wi) := by
  have hz : Spec.inner wo i.sn + eta i * Spec.inner wi i.sn ≠ 0 := by intro h; rw [h, zero_mul] at hs; exact lt_irrefl _ hs
  have l1 : sq (local3 i wo) = 1 := by rw [local3_sq h, h1]
  have l2 : sq (local3 i wi) = 1 := by rw [local3_sq h, h2]
  have key := entering_pos (ax := ru i) (ay := rv i) hu hv heta l1 l2 z1 z2 hz (by rw [local_inner h]; exact hs)
  have hn : nearIndex (eta i) (Spec.inner wo i.sn) = 1 := if_pos z1
  have hf : farIndex (eta i) (Spec.inner wo i.sn) = eta i := if_pos z1
  rw [c82_rough_glass_transmits kr kt eta ru rv h hkr hkt hu hv (by linarith) h1 h2 (mul_neg_of_pos_of_neg z1 z2) hside c
    (by rw [hn, hf, div_one]; exact hz) (by rw [hn, hf]; exact key.2), hn, hf]
  exact mul_pos (lt_of_le_of_ne (hkt c).1 (Ne.symm hc)) key.1

end WrongSide

/-- C100, the part that holds: light passes from above into rough glass wherever a facet that faces upwards bends it. -/
theorem c100_facet_passes_partial [HasInf ℝ] (kr kt : TextureOf ℝ (Spectrum ℝ)) (eta ru rv : TextureOf ℝ ℝ) {i : Interaction ℝ} (h : Smooth i)
    (hkr : Colour (kr i)) (hkt : Colour (kt i)) (hu : 0 < ru i) (hv : 0 < rv i) (heta : 1 < eta i) {wo wi : V3 ℝ} (h1 : sq wo = 1) (h2 : sq wi = 1)
    (z1 : 0 < Spec.inner wo i.sn) (z2 : Spec.inner wi i.sn < 0) (hside : ¬ SameSide i wo wi) (c : Chan) (hc : c.of (kt i) ≠ 0)
    {n : V3 ℝ} (hn : Bends (eta i) n wo wi) (hup : 0 < Spec.inner n i.sn) : 0 < c.of ((glassMaterial kr kt eta ru rv i).f wo wi) := by
  refine WrongSide.material_pos kr kt eta ru rv h hkr hkt hu hv heta h1 h2 z1 z2 hside c hc ?_
  have hA := (c100_facet_exists heta h1 h2).1 ⟨n, hn⟩
  have hge := inner_ge h1 h2
  have hH := bends_along hn
  have e2 : Spec.inner wi (plus wo (times (eta i) wi)) = Spec.inner wo wi + eta i := by rw [inner_plus, inner_self, h2, inner_swap wi wo]; ring
  have e3 : Spec.inner i.sn (plus wo (times (eta i) wi)) = Spec.inner wo i.sn + eta i * Spec.inner wi i.sn := by
    rw [inner_plus, inner_swap i.sn wo, inner_swap i.sn wi]
  rw [hH, inner_times] at e2 e3
  set q := Spec.inner wo n + eta i * Spec.inner wi n
  have hq : q < 0 := by
    by_contra hc
    nlinarith [hn.back]
  rw [← e3, inner_swap i.sn n]
  exact mul_pos_of_neg_of_neg (mul_neg_of_neg_of_pos hq hup) (by linarith)

/-- C100 refuted: light also passes between directions that no facet bends into each other, because the sides of the facet on which they lie are
never compared. -/
theorem c100_no_facet_but_light [HasInf ℝ] (kr kt : TextureOf ℝ (Spectrum ℝ)) (eta ru rv : TextureOf ℝ ℝ) {i : Interaction ℝ} (h : Smooth i)
    (hkr : Colour (kr i)) (hkt : Colour (kt i)) (hu : 0 < ru i) (hv : 0 < rv i) (heta : 1 < eta i) {wo wi : V3 ℝ} (h1 : sq wo = 1) (h2 : sq wi = 1)
    (z2 : Spec.inner wi i.sn < 0) (hside : ¬ SameSide i wo wi) (c : Chan) (hc : c.of (kt i) ≠ 0)
    (hsteep : 0 < Spec.inner wo i.sn + eta i * Spec.inner wi i.sn) (hsame : -1 < eta i * Spec.inner wo wi) :
    (¬ ∃ n, Bends (eta i) n wo wi) ∧ 0 < c.of ((glassMaterial kr kt eta ru rv i).f wo wi) := by
  refine ⟨fun hn => ?_, WrongSide.material_pos kr kt eta ru rv h hkr hkt hu hv heta h1 h2 (by nlinarith) z2 hside c hc (mul_pos hsteep (by linarith))⟩
  have := (c100_facet_exists heta h1 h2).1 hn
  linarith

/-! ## The hypotheses are met -/

/-- Light that goes straight down is bent by a horizontal facet. -/
theorem Demo.straight : Bends (3 / 2) ⟨0, 0, 1⟩ ⟨0, 0, 1⟩ ⟨0, 0, -1⟩ := by
  refine ⟨by norm_num [Spec.sq], by norm_num [Spec.inner], by norm_num [Spec.inner], ?_⟩
  ext <;> norm_num [tangential, times, Spec.inner]

/-- Light from 53 degrees is bent by a horizontal facet into glass of index 4/3: the sine 4/5 becomes 3/5. -/
theorem Demo.bent : Bends (4 / 3) ⟨0, 0, 1⟩ ⟨4 / 5, 0, 3 / 5⟩ ⟨-3 / 5, 0, -4 / 5⟩ := by
  refine ⟨by norm_num [Spec.sq], by norm_num [Spec.inner], by norm_num [Spec.inner], ?_⟩
  ext <;> norm_num [tangential, times, Spec.inner]

example [HasInf ℝ] (hinf : 1 ≤ (HasInf.infinity : ℝ)) :=
  c100_facet_passes_partial (fun _ => ⟨1, 1, 1⟩) (fun _ => ⟨1, 1, 1⟩) (fun _ => 4 / 3) (fun _ => 1 / 2) (fun _ => 1 / 3) Demo.flat_smooth
    (Demo.white_colour hinf) (Demo.white_colour hinf) (by norm_num) (by norm_num) (by norm_num) (wo := ⟨4 / 5, 0, 3 / 5⟩) (wi := ⟨-3 / 5, 0, -4 / 5⟩)
    (by norm_num [Spec.sq]) (by norm_num [Spec.sq]) (by norm_num [Spec.inner, Demo.flat]) (by norm_num [Spec.inner, Demo.flat])
    (by norm_num [SameSide, Spec.inner, Demo.flat]) .r (by norm_num [Chan.of]) Demo.bent (by norm_num [Spec.inner, Demo.flat])

/-- Seen from 37 degrees off the normal, light that comes from the same side, 16 degrees below the horizon. -/
example [HasInf ℝ] (hinf : 1 ≤ (HasInf.infinity : ℝ)) :=
  c100_no_facet_but_light (fun _ => ⟨1, 1, 1⟩) (fun _ => ⟨1, 1, 1⟩) (fun _ => 3 / 2) (fun _ => 1 / 2) (fun _ => 1 / 3) Demo.flat_smooth
    (Demo.white_colour hinf) (Demo.white_colour hinf) (by norm_num) (by norm_num) (by norm_num) (wo := ⟨3 / 5, 0, 4 / 5⟩) (wi := ⟨24 / 25, 0, -7 / 25⟩)
    (by norm_num [Spec.sq]) (by norm_num [Spec.sq]) (by norm_num [Spec.inner, Demo.flat])
    (by norm_num [SameSide, Spec.inner, Demo.flat]) .r (by norm_num [Chan.of]) (by norm_num [Spec.inner, Demo.flat]) (by norm_num [Spec.inner])
end PT
