import Verif.Props.RadianceF32

/-!
# Metals can reflect negative light in single precision (C67)

`c67_f32` leaves metals out, and has to: with a correctly rounded square root, a smooth metal whose index is that of its surroundings returns a small negative value.
-/

namespace PT
open Spec Fl

namespace Spec
/-- The square root is rounded correctly: if the exact root lies between two numbers that are rounded to the same value, it is that value. -/
def RoundedSqrt [Libm F32] : Prop := ∀ a q₁ q₂ m : ℚ, 0 ≤ q₁ → 0 ≤ q₂ → q₁ ^ 2 ≤ a → a ≤ q₂ ^ 2 →
  Rounding.rnd Binary32 q₁ = some m → Rounding.rnd Binary32 q₂ = some m → Libm.sqrt (.fin false a : F32) = .fin false m
end Spec

namespace Demo
/-- A direction that makes an angle of about 68 degrees with the normal. -/
def metalView : V3 F32 := ⟨f32 (9254 / 10000), lit 0, f32 (6357995 / 2 ^ 24)⟩

/-- A point of a surface in the plane `z = 0`. -/
def flatPoint : Interaction F32 := { Interaction.default with n := ⟨lit 0, lit 0, lit 1⟩, sn := ⟨lit 0, lit 0, lit 1⟩, dpdu := ⟨lit 1, lit 0, lit 0⟩ }

/-- A smooth metal with a reflectance of one, index one, and no absorption. -/
def clearMetal [Libm F32] : Material F32 :=
  metalMaterial (fun _ => Spectrum.of (lit 1)) (fun _ => Spectrum.of (lit 1)) (fun _ => Spectrum.of (lit 0)) (fun _ => lit 0) (fun _ => lit 0)
end Demo

namespace Metal
/-- The computation of one channel, with the two square roots taken out. -/
def c : F32 := clamp (Scalar.abs (f32 (6357995 / 2 ^ 24))) (⊖(lit 1)) (lit 1)
def c2 : F32 := c *. c
def s2 : F32 := lit 1 -. c2
def eta : F32 := lit 1 /. lit 1
def etaK : F32 := lit 0 /. lit 1
def t0 : F32 := eta *. eta -. etaK *. etaK -. s2
def arg1 : F32 := t0 *. t0 +. eta *. eta *. (etaK *. etaK) *. lit 4
def arg2 (ab : F32) : F32 := (ab +. t0) *. lit (1 / 2)
def value (ab a : F32) : F32 :=
  let t1 := ab +. c2
  let t2 := a *. c *. lit 2
  let rPerp := (t1 -. t2) /. (t1 +. t2)
  let t3 := ab *. c2 +. s2 *. s2
  let t4 := t2 *. s2
  let rParl := rPerp *. (t3 -. t4) /. (t3 +. t4)
  (rParl +. rPerp) *. lit (1 / 2)

theorem channel [Libm F32] : (fresnelConductor (Spectrum.of (lit 1)) (Spectrum.of (lit 1)) (Spectrum.of (lit 0)) (f32 (6357995 / 2 ^ 24)) : Spectrum F32).r =
    value (Libm.sqrt arg1) (Libm.sqrt (arg2 (Libm.sqrt arg1))) := rfl

theorem arg1_eq : arg1 = .fin false (1384143 / 67108864) := by decide +kernel
theorem arg2_eq : arg2 (.fin false (301183 / 2097152)) = .fin false (301183 / 2097152) := by decide +kernel
theorem value_neg : value (.fin false (301183 / 2097152)) (.fin false (6357995 / 16777216)) <. lit 0 := by decide +kernel

theorem reflected [Libm F32] (h : RoundedSqrt) :
    (fresnelConductor (Spectrum.of (lit 1)) (Spectrum.of (lit 1)) (Spectrum.of (lit 0)) (f32 (6357995 / 2 ^ 24)) : Spectrum F32).r =
      value (.fin false (301183 / 2097152)) (.fin false (6357995 / 16777216)) := by
  rw [channel, arg1_eq, h (1384143 / 67108864) (161696388465526 / 2 ^ 50) (161696388465527 / 2 ^ 50) (301183 / 2097152) (by norm_num) (by norm_num) (by norm_num)
    (by norm_num) (by decide +kernel) (by decide +kernel), arg2_eq,
    h (301183 / 2097152) (426677808849366 / 2 ^ 50) (426677808849367 / 2 ^ 50) (6357995 / 16777216) (by norm_num) (by norm_num) (by norm_num)
    (by norm_num) (by decide +kernel) (by decide +kernel)]
end Metal

/-- C67 is false of metals in single precision: with a correctly rounded square root the scattering function of a smooth metal of index one answers a request for a
sample with probability density one and a negative value. -/
theorem c67_metal_negative [Libm F32] (h : RoundedSqrt) :
    ∃ wi f flag, (Demo.clearMetal Demo.flatPoint).sampleF Demo.metalView ⟨lit 0, lit 0⟩ = some (wi, f, lit 1, flag) ∧ (f.r <. lit 0) = true := by
  have e1 : Demo.clearMetal Demo.flatPoint = (BSDF.new Demo.flatPoint).add (specularReflection
      ⟨clamp (lit 1) (lit 0) HasInf.infinity, clamp (lit 1) (lit 0) HasInf.infinity, clamp (lit 1) (lit 0) HasInf.infinity⟩
      (fresnelConductor (Spectrum.of (lit 1)) (Spectrum.of (lit 1)) (Spectrum.of (lit 0)))) := by
    unfold Demo.clearMetal metalMaterial
    dsimp only
    rw [if_pos (by decide +kernel)]
    rfl
  have e2 : toUsize (Scalar.floor ((lit 0 : F32) *. ofInt ((1 : Nat) : Int))) = 0 := by decide +kernel
  have e3 : ((f32 (6357995 / 2 ^ 24) : F32) ==. lit 0) = false := by decide +kernel
  have e4 : (Demo.metalView.dot ⟨lit 0, lit 0, lit 1⟩ : F32) = f32 (6357995 / 2 ^ 24) := by decide +kernel
  have e5 : ((lit 1 : F32) ==. lit 0) = false := by decide +kernel
  have e6 : (clamp (lit 1) (lit 0) HasInf.infinity *. Metal.value (.fin false (301183 / 2097152)) (.fin false (6357995 / 16777216)) /.
      Scalar.abs (f32 (6357995 / 2 ^ 24)) <. lit 0) = true := by decide +kernel
  rw [e1]
  generalize hb : BSDF.new Demo.flatPoint = b
  have hb0 : b.bxdfs = [] := by rw [← hb]; rfl
  have hsn : b.sn = ⟨lit 0, lit 0, lit 1⟩ := by rw [← hb]; rfl
  clear hb
  obtain ⟨bx, gn, sn, bs, bt⟩ := b
  dsimp only at hb0 hsn
  subst hb0
  subst hsn
  unfold BSDF.sampleF
  simp only [BSDF.add, List.nil_append, List.length_singleton, one_ne_zero, if_false, e2, List.getElem?_cons_zero, BSDF.worldToLocal, e3, e4,
    Bool.false_eq_true, specularReflection, e5, BxDF.hasFlag, cosTheta, absCosTheta, lt_self_iff_false, decide_false, Bool.and_false]
  refine ⟨_, _, _, rfl, ?_⟩
  show (clamp (lit 1) (lit 0) HasInf.infinity *. (fresnelConductor (Spectrum.of (lit 1)) (Spectrum.of (lit 1)) (Spectrum.of (lit 0)) (f32 (6357995 / 2 ^ 24))).r /.
      Scalar.abs (f32 (6357995 / 2 ^ 24)) <. lit 0) = true
  rw [Metal.reflected h]
  exact e6

namespace Demo
open Classical in
/-- A mathematical library with a correctly rounded square root. -/
noncomputable def exactSqrt : F32 → F32
  | .fin false a => if h : ∃ m q₁ q₂ : ℚ, 0 ≤ q₁ ∧ 0 ≤ q₂ ∧ q₁ ^ 2 ≤ a ∧ a ≤ q₂ ^ 2 ∧ Rounding.rnd Binary32 q₁ = some m ∧ Rounding.rnd Binary32 q₂ = some m
      then .fin false h.choose else .nan
  | x => x
noncomputable abbrev roundedLibm : Libm F32 := { roughLibm with sqrt := exactSqrt }

theorem roundedLibm_rounded : @RoundedSqrt roundedLibm := by
  intro a q₁ q₂ m h1 h2 h3 h4 h5 h6
  show exactSqrt (.fin false a) = _
  have h : ∃ m q₁ q₂ : ℚ, 0 ≤ q₁ ∧ 0 ≤ q₂ ∧ q₁ ^ 2 ≤ a ∧ a ≤ q₂ ^ 2 ∧ Rounding.rnd Binary32 q₁ = some m ∧ Rounding.rnd Binary32 q₂ = some m :=
    ⟨m, q₁, q₂, h1, h2, h3, h4, h5, h6⟩
  have e : exactSqrt (.fin false a) = .fin false h.choose := by
    exact dif_pos h
  rw [e]
  obtain ⟨p₁, p₂, g1, g2, g3, g4, g5, g6⟩ := h.choose_spec
  generalize h.choose = k at *
  have le1 : q₁ ≤ p₂ := by nlinarith [abs_le_of_sq_le_sq' (h3.trans g4) g2]
  have le2 : p₁ ≤ q₂ := by nlinarith [abs_le_of_sq_le_sq' (g3.trans h4) h2]
  obtain ⟨x, hx, hx'⟩ := Rounding.rnd_mono (φ := Binary32) _ _ _ h1 le1 g6
  obtain ⟨y, hy, hy'⟩ := Rounding.rnd_mono (φ := Binary32) _ _ _ g1 le2 h6
  rw [h5] at hx
  rw [g5] at hy
  cases hx; cases hy
  rw [le_antisymm hx' hy']
end Demo

/-- There is such a mathematical library, and with it the metal reflects negative light. -/
example : let := Demo.roundedLibm
    ∃ wi f flag, (Demo.clearMetal Demo.flatPoint).sampleF Demo.metalView ⟨lit 0, lit 0⟩ = some (wi, f, lit 1, flag) ∧ (f.r <. lit 0) = true :=
  @c67_metal_negative Demo.roundedLibm Demo.roundedLibm_rounded

end PT
