import Verif.Props.RefractF32

/-!
# The direction smooth glass lets light through, in single precision (C54)
-/

namespace PT
open Spec Fl

namespace GlassF
open VecF NoPanic TriF ReflF RefrF

theorem pole_num : UpTo3 0 (⟨lit 0, lit 0, lit 1⟩ : V3 F32) ∧ UpTo3 0 (⟨lit 0, lit 0, ⊖(lit 1)⟩ : V3 F32) := by
  have z : UpTo 0 (lit 0 : F32) := upTo_lit (by omega) (by norm_num)
  have o : UpTo 0 (lit 1 : F32) := upTo_lit (by omega) (by norm_num)
  exact ⟨⟨z, z, o⟩, z, z, upTo_neg o⟩

/-- Refraction at the normal that is the pole `s` of the frame, `s = 1` or `s = -1`. -/
theorem at_pole [Libm F32] (hl : AccurateSqrt) {w n : V3 F32} {eta : F32} {s : ℝ} (hw : UpTo3 0 w) (hn : UpTo3 0 n) (he : UpTo 2 eta) (nx : (n.x.val : ℝ) = 0) (ny : (n.y.val : ℝ) = 0)
    (nz : (n.z.val : ℝ) = s) (hs : s * s = 1) (hS : (eta.val : ℝ) ^ 2 * max (1 - (w.z.val : ℝ) ^ 2) 0 < 1 - 1 / 2 ^ 13) :
    ∃ t, refract w n eta = some t ∧ Num t.x ∧ Num t.y ∧ Num t.z ∧
      |(t.x.val : ℝ) - -(w.x.val * eta.val)| ≤ 1 / 2 ^ 13 / √(1 - (eta.val : ℝ) ^ 2 * max (1 - (w.z.val : ℝ) ^ 2) 0) ∧
      |(t.y.val : ℝ) - -(w.y.val * eta.val)| ≤ 1 / 2 ^ 13 / √(1 - (eta.val : ℝ) ^ 2 * max (1 - (w.z.val : ℝ) ^ 2) 0) ∧
      |(t.z.val : ℝ) - -(s * √(1 - (eta.val : ℝ) ^ 2 * max (1 - (w.z.val : ℝ) ^ 2) 0))| ≤ 1 / 2 ^ 13 / √(1 - (eta.val : ℝ) ^ 2 * max (1 - (w.z.val : ℝ) ^ 2) 0) := by
  obtain ⟨h1, h2⟩ := c54_f32 hl hw hn he
  have dot : exactDot w n = s * w.z.val := by unfold exactDot; rw [nx, ny, nz]; ring
  have sine : exactSin2T w n eta = (eta.val : ℝ) ^ 2 * max (1 - (w.z.val : ℝ) ^ 2) 0 := by
    unfold exactSin2T
    rw [dot, mul_pow, pow_two s, hs, one_mul]
  rw [sine] at h1 h2
  rw [dot] at h2
  cases hr : refract w n eta with
  | none => exact absurd (h1 hr) (not_le.2 hS)
  | some t =>
    obtain ⟨-, h3⟩ := h2 t hr
    have h4 := h3 (hS.trans (by norm_num))
    generalize (1 / 2 ^ 13 / √(1 - (eta.val : ℝ) ^ 2 * max (1 - (w.z.val : ℝ) ^ 2) 0) : ℝ) = B at *
    generalize √(1 - (eta.val : ℝ) ^ 2 * max (1 - (w.z.val : ℝ) ^ 2) 0) = C at *
    obtain ⟨ax, bx⟩ := h4 .X
    obtain ⟨ay, b_y⟩ := h4 .Y
    obtain ⟨az, bz⟩ := h4 .Z
    simp only [V3.get] at ax ay az bx b_y bz
    rw [nx] at bx
    rw [ny] at b_y
    rw [nz] at bz
    refine ⟨t, rfl, ax, ay, az, ?_, ?_, ?_⟩
    · rwa [show -(w.x.val : ℝ) * eta.val + 0 * (s * w.z.val * eta.val - C) = -(w.x.val * eta.val) by ring] at bx
    · rwa [show -(w.y.val : ℝ) * eta.val + 0 * (s * w.z.val * eta.val - C) = -(w.y.val * eta.val) by ring] at b_y
    · rwa [show -(w.z.val : ℝ) * eta.val + s * (s * w.z.val * eta.val - C) = -(s * C) by linear_combination (w.z.val : ℝ) * eta.val * hs] at bz

end GlassF

open VecF NoPanic TriF ReflF RefrF GlassF in
/-- **C54** (smooth glass).  Light that meets smooth glass from the direction `wo`, clearly outside total reflection, goes on in the direction of Snell's law: with `eta` the
computed ratio of indices, the coordinates along the surface are turned around and multiplied by `eta`, the one across the surface is the refracted cosine on the other side, and
each is right up to `2 ^ -13` over that cosine.  The direction is strictly on the other side of the surface. -/
theorem c54_glass_f32 [Libm F32] (hl : AccurateSqrt) (T : Spectrum F32) (etaA etaB : F32) {wo : V3 F32} (sample : V2 F32) (hw : UpTo3 0 wo)
    (eta : F32) (he : eta = if wo.z.val > 0 then etaA /. etaB else etaB /. etaA) (hu : UpTo 2 eta) (S : ℝ) (hS : S = (eta.val : ℝ) ^ 2 * max (1 - (wo.z.val : ℝ) ^ 2) 0)
    (hlt : S < 1 - 1 / 2 ^ 13) :
    let wi := ((specularTransmission T etaA etaB).sampleF wo sample).1
    ((specularTransmission T etaA etaB).sampleF wo sample).2.2 = lit 1 ∧ Num wi.x ∧ Num wi.y ∧ Num wi.z ∧
    |(wi.x.val : ℝ) - -(wo.x.val * eta.val)| ≤ 1 / 2 ^ 13 / √(1 - S) ∧ |(wi.y.val : ℝ) - -(wo.y.val * eta.val)| ≤ 1 / 2 ^ 13 / √(1 - S) ∧
    |(wi.z.val : ℝ) - -((if wo.z.val > 0 then 1 else -1) * √(1 - S))| ≤ 1 / 2 ^ 13 / √(1 - S) ∧
    (if wo.z.val > 0 then wi.z.val < 0 else 0 < wi.z.val) := by
  intro wi
  have test := lt_ok zero_ok.1 hw.2.2.1
  rw [zero_ok.2] at test
  have z : ((lit 0 : F32).val : ℝ) = 0 := by rw [zero_ok.2]; simp
  have o : ((lit 1 : F32).val : ℝ) = 1 := by rw [Sgn.lit_one.2.1]; simp
  have o' : ((⊖(lit 1) : F32).val : ℝ) = -1 := by rw [(neg_ok upTo_one.1).2, Sgn.lit_one.2.1]; simp
  have C2 : (1 : ℝ) / 2 ^ 13 < 1 - S := by linarith
  have C0 : 0 < √(1 - S) := Real.sqrt_pos.2 (lt_trans (by norm_num) C2)
  have side : 1 / 2 ^ 13 / √(1 - S) < √(1 - S) := by
    rw [div_lt_iff₀ C0, ← pow_two, Real.sq_sqrt (le_trans (by norm_num) C2.le)]
    exact C2
  by_cases hz : wo.z.val > 0
  · rw [if_pos hz] at he
    obtain ⟨t, hr, nx, ny, nz, ex, ey, ez⟩ := at_pole hl (s := 1) hw pole_num.1 (eta := eta) hu z z o (by norm_num) (by rw [← hS]; exact hlt)
    rw [← hS] at ex ey ez
    have e : (specularTransmission T etaA etaB).sampleF wo sample = (t, ((T.mul ((Spectrum.of (lit 1)).sub (fresnelDielectric etaA etaB (cosTheta t)))).sdiv (absCosTheta t)).smul (etaA *. etaA) |>.sdiv (etaB *. etaB), lit 1) := by
      unfold specularTransmission
      have hc : (cosTheta wo >. lit 0) = true := test.2 hz
      have hc' : (wo.z >. lit 0) = true := test.2 hz
      simp only [hc, hc', if_true]
      rw [← he, hr]
    have ew : wi = t := congrArg Prod.fst e
    rw [ew, e, if_pos hz, if_pos hz]
    refine ⟨rfl, nx, ny, nz, ex, ey, ez, ?_⟩
    have : (t.z.val : ℝ) < 0 := by
      have := (abs_le.1 ez).2
      linarith
    exact_mod_cast this
  · rw [if_neg hz] at he
    obtain ⟨t, hr, nx, ny, nz, ex, ey, ez⟩ := at_pole hl (s := -1) hw pole_num.2 (eta := eta) hu z z o' (by norm_num) (by rw [← hS]; exact hlt)
    rw [← hS] at ex ey ez
    have e : (specularTransmission T etaA etaB).sampleF wo sample = (t, ((T.mul ((Spectrum.of (lit 1)).sub (fresnelDielectric etaA etaB (cosTheta t)))).sdiv (absCosTheta t)).smul (etaB *. etaB) |>.sdiv (etaA *. etaA), lit 1) := by
      unfold specularTransmission
      have hc : (cosTheta wo >. lit 0) = false := Bool.eq_false_iff.2 fun h => hz (test.1 h)
      have hc' : (wo.z >. lit 0) = false := Bool.eq_false_iff.2 fun h => hz (test.1 h)
      simp only [hc, hc', Bool.false_eq_true, if_false]
      rw [← he, hr]
    have ew : wi = t := congrArg Prod.fst e
    rw [ew, e, if_neg hz, if_neg hz]
    refine ⟨rfl, nx, ny, nz, ex, ey, ez, ?_⟩
    have : (0 : ℝ) < t.z.val := by
      have := (abs_le.1 ez).1
      linarith
    exact_mod_cast this

/-- Light from `(3/5, 0, 4/5)`, rounded, into glass of index 3/2. -/
example : UpTo3 0 (⟨f32 (3 / 5), f32 0, f32 (4 / 5)⟩ : V3 F32) ∧ UpTo 2 (f32 1 /. f32 (3 / 2)) ∧ (f32 (4 / 5)).val > 0 ∧
    ((f32 1 /. f32 (3 / 2)).val : ℝ) ^ 2 * max (1 - ((f32 (4 / 5)).val : ℝ) ^ 2) 0 < 1 - 1 / 2 ^ 13 := by
  have n : ∀ q : ℚ, |q| ≤ 2 ^ 0 → UpTo 0 (f32 q) := fun q h => NoPanic.upTo_ofVal (by omega) h _
  have e : (f32 1 /. f32 (3 / 2) : F32) = f32 (2 / 3) := by decide +kernel
  have v : (f32 (2 / 3)).val = 11184811 / 2 ^ 24 := by decide +kernel
  have v' : (f32 (4 / 5)).val = 13421773 / 2 ^ 24 := by decide +kernel
  rw [e, v, v']
  refine ⟨⟨n (3 / 5) (by norm_num [abs_of_pos]), n 0 (by norm_num), n (4 / 5) (by norm_num [abs_of_pos])⟩, NoPanic.upTo_ofVal (by omega) (by norm_num [abs_of_pos]) _, by norm_num, ?_⟩
  rw [max_eq_left (by norm_num)]
  norm_num

end PT
