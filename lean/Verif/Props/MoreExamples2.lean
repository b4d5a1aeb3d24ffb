import Verif.Props.MoreExamples
import Verif.Props.HaltonIndex
import Verif.Props.Select
import Verif.Props.Wall

/-!
# Cases that meet the hypotheses of C21, C33, C61 and C94
-/

namespace PT
open Spec

/-- C33: a box with an infinite side and a point outside of it; the box grows by the point. -/
example : let b : BBox3 F32 := ⟨⟨f32 0, f32 0, .inf true⟩, ⟨f32 1, f32 1, f32 1⟩⟩
    let p : V3 F32 := ⟨f32 3, f32 (1 / 2), f32 0⟩
    NoNaN b ∧ NoNaN3 p ∧ ¬ PointInBox b p ∧ PointInBox (b.unionPoint p) p ∧ Contains (b.unionPoint p) b := by
  intro b p
  have hb : NoNaN b := ⟨fun a => by cases a <;> decide +kernel, fun a => by cases a <;> decide +kernel⟩
  have hp : NoNaN3 p := fun a => by cases a <;> decide +kernel
  obtain ⟨-, h1, h2, -⟩ := c33_union_point hb hp
  refine ⟨hb, hp, fun h => ?_, h2, h1⟩
  exact absurd (h .X).2 (by decide +kernel)

/-- C21: neighbouring pixels of a 640 × 480 image; the first sixteen samples of one and those of the other have different numbers. -/
example (m n : Nat) (hm : m < 16) (hn : n < 16) :
    Spec.sampleIndex (HaltonSampler.new 16 ⟨⟨0, 0⟩, ⟨640, 480⟩⟩) ⟨300, 200⟩ m ≠
      Spec.sampleIndex (HaltonSampler.new 16 ⟨⟨0, 0⟩, ⟨640, 480⟩⟩) ⟨301, 200⟩ n := by
  have hs : (HaltonSampler.new 16 ⟨⟨0, 0⟩, ⟨640, 480⟩⟩).sampleStride = 31104 := by decide +kernel
  refine c21_distinct_tall_partial 16 _ _ _ m n (by decide) (by decide) (by decide) (by decide) (by decide) (by decide) ?_ ?_ <;>
  · rw [hs]; omega

/-- C61: a surface of two components, and the largest single-precision number below one. -/
example (a b : BxDF F32) (n t : V3 F32) (wo : V3 F32) : let s : BSDF F32 := ⟨[a, b], n, n, t, t⟩
    (s.sampleF wo ⟨.fin false (1 - 1 / 2 ^ 24), f32 0⟩).isSome = true := by
  intro s
  exact c61_bsdf_never_panics s (by simp [s]) wo _ ⟨by norm_num, by decide +kernel⟩ (by decide +kernel) (by decide +kernel)

/-- C94: a corner two units away along a ray with the direction `-1/2`: the distance seen is 2, up to the error of the theorem. -/
example : let ray : Ray F32 := ⟨⟨f32 0, f32 0, f32 1⟩, ⟨f32 0, f32 0, f32 (-1 / 2)⟩, f32 10⟩
    |(seen ray .Z ⟨f32 0, f32 0, f32 0⟩).z.val - 2| ≤ 2 * (1 / 2 ^ 22) := by
  intro ray
  have n : ∀ q : ℚ, |q| ≤ 2 ^ 126 → Fl.Num (f32 q) := fun q h => Fl.lit_ok h
  have e0 : (f32 0).val = 0 := by decide +kernel
  have e1 : (f32 1).val = 1 := by decide +kernel
  have e2 : (f32 (-1 / 2)).val = -1 / 2 := by decide +kernel
  have h := (c94_depth ray .Z ⟨f32 0, f32 0, f32 0⟩ (n 0 (by norm_num)) (n 1 (by norm_num)) (n (-1 / 2) (by norm_num [abs_le]))
    (by change _ ≤ |(f32 (-1 / 2)).val|; rw [e2]; norm_num [abs_div]) (by change |(f32 (-1 / 2)).val| ≤ _; rw [e2]; norm_num [abs_div])
    (by change |(f32 0).val - (f32 1).val| ≤ _; rw [e0, e1]; norm_num)
    (by change _ ≤ |((f32 0).val - (f32 1).val) / (f32 (-1 / 2)).val|; rw [e0, e1, e2]; norm_num)).2
  change |_ - ((f32 0).val - (f32 1).val) / (f32 (-1 / 2)).val| ≤ |((f32 0).val - (f32 1).val) / (f32 (-1 / 2)).val| * _ at h
  rw [e0, e1, e2] at h
  norm_num at h ⊢
  exact h

end PT
