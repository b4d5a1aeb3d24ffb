import Verif.Props.Frame
import Verif.Props.ErrorBoundsSphere

/-!
# The poles of spheres have no shading frame (C74)

At the two points above and below the centre the tangent `dpdu` of the code is zero, and normalising it divides zero by zero.
-/

namespace PT
open Spec Fl

theorem nan_mul (x : F32) : (Fl.nan : F32) *. x = Fl.nan := by rw [f_mul]; cases x <;> rfl
theorem mul_nan (x : F32) : x *. (Fl.nan : F32) = Fl.nan := by rw [f_mul]; cases x <;> rfl
theorem nan_add (x : F32) : (Fl.nan : F32) +. x = Fl.nan := by rw [f_add]; cases x <;> rfl
theorem add_nan (x : F32) : x +. (Fl.nan : F32) = Fl.nan := by rw [f_add]; cases x <;> rfl
theorem nan_sub (x : F32) : (Fl.nan : F32) -. x = Fl.nan := by rw [f_sub]; cases x <;> rfl
theorem sub_nan (x : F32) : x -. (Fl.nan : F32) = Fl.nan := by rw [f_sub]; cases x <;> rfl

/-- C74, refuted at the poles of spheres: a ray straight down hits the unit sphere at its pole, and there every local direction becomes the
world direction `(NaN, NaN, NaN)`; so does every direction that any material samples there. -/
theorem c74_pole_refuted [Libm F32] [Libm F64] (h0 : Libm.sqrt (lit 0 : F32) = lit 0) (h1 : Libm.sqrt (lit 1 : F32) = lit 1)
    (h4 : Libm.sqrt (lit 4 : F64) = lit 2) (hpi : (Libm.pi : F32) = f32 (13176795 / 2 ^ 22)) (mat : Material F32) :
    ∃ i t, (Demo.ball mat 0).intersect (Demo.downRay 0) = some (i, t) ∧ (∀ v, (BSDF.new i).localToWorld v = ⟨Fl.nan, Fl.nan, Fl.nan⟩) ∧
      ∀ (b : BSDF F32), b.s = (BSDF.new i).s → b.t = (BSDF.new i).t → ∀ wo u r, b.sampleF wo u = some r → r.2.2.1 ≠ lit 0 →
        r.1 = ⟨Fl.nan, Fl.nan, Fl.nan⟩ := by
  have ho : (Demo.downRay 0).origin.add (Demo.ball mat 0).center.neg = ⟨f32 0, f32 0, f32 2⟩ := by
    change V3.add (⟨f32 0, f32 0, f32 (0 + 2)⟩ : V3 F32) (V3.neg ⟨f32 0, f32 0, f32 0⟩) = ⟨f32 0, f32 0, f32 2⟩
    exact v3_eq (by decide +kernel) (by decide +kernel) (by decide +kernel)
  obtain ⟨i, hi, hs, ht⟩ : ∃ i, (Demo.ball mat 0).intersect (Demo.downRay 0) = some (i, f32 1) ∧
      (BSDF.new i).s = ⟨Fl.nan, Fl.nan, Fl.nan⟩ ∧ (BSDF.new i).t = ⟨Fl.nan, Fl.nan, Fl.nan⟩ := by
    have hr := (Demo.ball_hit h1 h4 mat 0 ho).1
    have hp := Demo.ball_parameter h4 mat 0 ((Demo.downRay 0).origin.add (Demo.ball mat 0).center.neg) ho
    have e : ({ Demo.downRay 0 with origin := (Demo.ball mat 0).worldToLocal (Demo.downRay 0).origin } : Ray F32) =
      ⟨(Demo.downRay 0).origin.add (Demo.ball mat 0).center.neg, ⟨f32 0, f32 0, f32 (-1)⟩, f32 100⟩ := rfl
    unfold Sphere.intersect
    simp only [e, hp, Option.map_some]
    have hpos : (⟨(Demo.downRay 0).origin.add (Demo.ball mat 0).center.neg, ⟨f32 0, f32 0, f32 (-1)⟩, f32 100⟩ : Ray F32).position (f32 1) = ⟨f32 0, f32 0, f32 1⟩ := hr
    have hlen : (⟨f32 0, f32 0, f32 1⟩ : V3 F32).length = f32 1 := by
      unfold V3.length
      have : f32 0 *. f32 0 +. f32 0 *. f32 0 +. f32 1 *. f32 1 = lit 1 := by decide +kernel
      rw [this, h1]; rfl
    have hk : (⟨f32 0, f32 0, f32 1⟩ : V3 F32).smul ((Demo.ball mat 0).radius /. f32 1) = ⟨f32 0, f32 0, f32 1⟩ := by
      change (⟨f32 0, f32 0, f32 1⟩ : V3 F32).smul (f32 1 /. f32 1) = ⟨f32 0, f32 0, f32 1⟩
      exact v3_eq (by decide +kernel) (by decide +kernel) (by decide +kernel)
    have hdu : (Sphere.computePartialDerivative (⟨f32 0, f32 0, f32 1⟩ : V3 F32)).1 = ⟨⊖(lit 0), lit 0, lit 0⟩ := by
      unfold Sphere.computePartialDerivative
      dsimp only
      rw [hpi]
      exact v3_eq (by decide +kernel) (by decide +kernel) (by decide +kernel)
    have hnorm : (⟨⊖(lit 0), lit 0, lit 0⟩ : V3 F32).normalize = ⟨Fl.nan, Fl.nan, Fl.nan⟩ := by
      have hl : (⟨⊖(lit 0), lit 0, lit 0⟩ : V3 F32).length = lit 0 := by
        unfold V3.length
        have : (⊖(lit 0) *. ⊖(lit 0) +. lit 0 *. lit 0 +. lit 0 *. lit 0 : F32) = lit 0 := by decide +kernel
        rw [this, h0]
      unfold V3.normalize
      rw [hl]
      exact v3_eq (by decide +kernel) (by decide +kernel) (by decide +kernel)
    have hs : (BSDF.new ((Demo.ball mat 0).computeInteraction
        ⟨(Demo.downRay 0).origin.add (Demo.ball mat 0).center.neg, ⟨f32 0, f32 0, f32 (-1)⟩, f32 100⟩ (f32 1)).1).s = ⟨Fl.nan, Fl.nan, Fl.nan⟩ := by
      unfold BSDF.new Sphere.computeInteraction
      simp only [hpos, hlen, hk, hdu, hnorm]
    have ht : ∀ i : Interaction F32, (BSDF.new i).s = ⟨Fl.nan, Fl.nan, Fl.nan⟩ → (BSDF.new i).t = ⟨Fl.nan, Fl.nan, Fl.nan⟩ := by
      intro i h
      have : (BSDF.new i).t = i.sn.cross (BSDF.new i).s := rfl
      rw [this, h]
      unfold V3.cross
      simp only [mul_nan, nan_sub]
    exact ⟨_, rfl, hs, ht _ hs⟩
  refine ⟨i, _, hi, ?_, ?_⟩
  · intro v
    unfold BSDF.localToWorld
    rw [hs, ht]
    simp only [nan_mul, nan_add]
  · intro b hbs hbt wo u r hr hpdf
    have hw : ∀ v, b.localToWorld v = ⟨Fl.nan, Fl.nan, Fl.nan⟩ := by
      intro v
      unfold BSDF.localToWorld
      rw [hbs, hbt, hs, ht]
      simp only [nan_mul, nan_add]
    have hno : ∀ {r : V3 F32 × Spectrum F32 × F32 × Nat}, some BSDF.noSample = some r → r.2.2.1 ≠ lit 0 → False := by
      intro r h h'
      cases h
      exact h' rfl
    unfold BSDF.sampleF at hr
    dsimp only at hr
    split_ifs at hr
    · exact (hno hr hpdf).elim
    all_goals
      split at hr
      · cases hr
      · first
        | exact (hno hr hpdf).elim
        | (split_ifs at hr
           · exact (hno hr hpdf).elim
           all_goals
             cases hr
             exact hw _)
        | (cases hr
           exact hw _)

/-- Functions as required exist: the square root is exact at 0, 1 and 4. -/
example : ∃ (L : Libm F32) (M : Libm F64), L.sqrt (lit 0) = lit 0 ∧ L.sqrt (lit 1) = lit 1 ∧ M.sqrt (lit 4) = lit 2 ∧ L.pi = f32 (13176795 / 2 ^ 22) :=
  ⟨⟨id, id, id, id, id, fun _ y => y, id, id, id, fun _ y => y, f32 (13176795 / 2 ^ 22)⟩,
   ⟨fun x => if x = lit 4 then lit 2 else x, id, id, id, id, fun _ y => y, id, id, id, fun _ y => y, lit 3⟩, rfl, rfl, if_pos rfl, rfl⟩
end PT
