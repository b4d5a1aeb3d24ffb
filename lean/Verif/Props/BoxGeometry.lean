import Verif.Props.BBox
import Verif.Props.KdCost

/-!
# C79: what boxes answer
-/

namespace PT
open Spec Fl

namespace Spec
/-- The points of a box, coordinate by coordinate. -/
def PointOf (b : BBox3 ℝ) (p : V3 ℝ) : Prop := ∀ a, b.min.get a ≤ p.get a ∧ p.get a ≤ b.max.get a
/-- Squared distance of two points. -/
def dist2 (p q : V3 ℝ) : ℝ := (p.x - q.x) ^ 2 + (p.y - q.y) ^ 2 + (p.z - q.z) ^ 2
/-- The ball with centre `c` and radius `r ≥ 0` contains every point of the box. -/
def Encloses (c : V3 ℝ) (r : ℝ) (b : BBox3 ℝ) : Prop := 0 ≤ r ∧ ∀ p, PointOf b p → dist2 c p ≤ r ^ 2
/-- Area of the rectangle that is the face of the box across axis `a`. -/
def face (b : BBox3 ℝ) : Axis → ℝ
  | .X => (b.max.y - b.min.y) * (b.max.z - b.min.z)
  | .Y => (b.max.x - b.min.x) * (b.max.z - b.min.z)
  | .Z => (b.max.x - b.min.x) * (b.max.y - b.min.y)
end Spec

/-- C79, in floating-point arithmetic: a point is reported inside exactly if every coordinate lies between the corners'. -/
theorem c79_point_inside {φ K : Type} [Field K] [LinearOrder K] [IsStrictOrderedRing K] [FloorRing K] [Rounding φ K]
    (b : BBox3 (Fl φ K)) (p : V3 (Fl φ K)) : b.pointInside p = true ↔ PointInBox b p := by
  simp only [BBox3.pointInside, Bool.and_eq_true, PointInBox]
  constructor
  · rintro ⟨⟨⟨⟨⟨h1, h2⟩, h3⟩, h4⟩, h5⟩, h6⟩ (_ | _ | _)
    · exact ⟨h1, h2⟩
    · exact ⟨h3, h4⟩
    · exact ⟨h5, h6⟩
  · intro h
    have hx := h .X; have hy := h .Y; have hz := h .Z
    exact ⟨⟨⟨⟨⟨hx.1, hx.2⟩, hy.1⟩, hy.2⟩, hz.1⟩, hz.2⟩

/-- C79, in floating-point arithmetic: two boxes with ordered corners are reported to overlap exactly if they share a point; touching
counts. -/
theorem c79_overlaps {φ K : Type} [Field K] [LinearOrder K] [IsStrictOrderedRing K] [FloorRing K] [Rounding φ K]
    (b c : BBox3 (Fl φ K)) (hb : ∀ a, le (b.min.get a) (b.max.get a) = true) (hc : ∀ a, le (c.min.get a) (c.max.get a) = true) :
    b.overlaps c = true ↔ ∃ p, PointInBox b p ∧ PointInBox c p := by
  have hov : b.overlaps c = true ↔ ∀ a, le (c.min.get a) (b.max.get a) = true ∧ le (b.min.get a) (c.max.get a) = true := by
    simp only [BBox3.overlaps, Bool.and_eq_true]
    constructor
    · rintro ⟨⟨⟨⟨⟨h1, h2⟩, h3⟩, h4⟩, h5⟩, h6⟩ (_ | _ | _)
      · exact ⟨h1, h2⟩
      · exact ⟨h3, h4⟩
      · exact ⟨h5, h6⟩
    · intro h
      have hx := h .X; have hy := h .Y; have hz := h .Z
      exact ⟨⟨⟨⟨⟨hx.1, hx.2⟩, hy.1⟩, hy.2⟩, hz.1⟩, hz.2⟩
  rw [hov]
  constructor
  · intro h
    have hn : ∀ {x y : Fl φ K}, le x y = true → x ≠ nan := by
      intro x y h e; subst e; cases y <;> simp [Fl.le] at h
    have hf := fun a => fmax_facts (hn (hb a)) (hn (hc a))
    refine ⟨b.min.max c.min, fun a => ?_, fun a => ?_⟩ <;> rw [get_max]
    · refine ⟨(hf a).2.1, ?_⟩
      rcases (hf a).1 with e | e <;> rw [e]
      · exact hb a
      · exact (h a).1
    · refine ⟨(hf a).2.2.1, ?_⟩
      rcases (hf a).1 with e | e <;> rw [e]
      · exact (h a).2
      · exact hc a
  · rintro ⟨p, h1, h2⟩ a
    exact ⟨le_trans' (h2 a).1 (h1 a).2, le_trans' (h1 a).1 (h2 a).2⟩

/-- C79: the surface area is that of the six faces. -/
theorem c79_surface_area (b : BBox3 ℝ) : b.surfaceArea = 2 * face b .X + 2 * face b .Y + 2 * face b .Z := by
  simp only [BBox3.surfaceArea, BBox3.diagonal, V3.sub, face]
  real_ops
  ring

/-- C79: the extent axis exists and is a longest one. -/
theorem c79_max_extent (b : BBox3 ℝ) : ∃ a, b.maxExtent = some a ∧ ∀ a', b.max.get a' - b.min.get a' ≤ b.max.get a - b.min.get a := by
  obtain ⟨a, h⟩ := Option.ne_none_iff_exists'.1 (KdTree.maxExtent_real b)
  exact ⟨a, h, KdTree.maxExtent_longest h⟩

/-- C79: the bounding sphere contains the box, and no smaller sphere (whatever its centre) does. -/
theorem c79_bounding_sphere (b : BBox3 ℝ) (hb : ∀ a, b.min.get a ≤ b.max.get a) :
    Encloses b.boundingSphere.1 b.boundingSphere.2 b ∧ ∀ c r, Encloses c r b → b.boundingSphere.2 ≤ r := by
  have hx := hb .X; have hy := hb .Y; have hz := hb .Z
  simp only [V3.get] at hx hy hz
  have hin : b.pointInside ((b.min.add b.max).sdiv (lit 2)) = true := by
    simp only [BBox3.pointInside, V3.add, V3.sdiv, Bool.and_eq_true]
    real_ops
    refine ⟨⟨⟨⟨⟨?_, ?_⟩, ?_⟩, ?_⟩, ?_⟩, ?_⟩ <;> linarith
  have h1 : b.boundingSphere.1 = ⟨(b.min.x + b.max.x) / 2, (b.min.y + b.max.y) / 2, (b.min.z + b.max.z) / 2⟩ := by
    simp only [BBox3.boundingSphere, V3.add, V3.sdiv]
    real_ops
  have h2 : b.boundingSphere.2 = √(dist2 b.min b.max / 4) := by
    have : b.boundingSphere.2 = ((b.min.add b.max).sdiv (lit 2)).distance b.max := by
      simp only [BBox3.boundingSphere, hin, if_true]
    rw [this]
    simp only [V3.distance, V3.length, V3.sub, V3.add, V3.sdiv, dist2]
    real_ops
    congr 1; ring
  have h0 : 0 ≤ dist2 b.min b.max / 4 := by unfold dist2; positivity
  refine ⟨⟨by rw [h2]; exact Real.sqrt_nonneg _, fun p hp => ?_⟩, fun c r ⟨hr, hc⟩ => ?_⟩
  · rw [h1, h2, Real.sq_sqrt h0]
    have px := hp .X; have py := hp .Y; have pz := hp .Z
    simp only [V3.get] at px py pz
    simp only [dist2]
    nlinarith [mul_nonneg (sub_nonneg.2 px.1) (sub_nonneg.2 px.2), mul_nonneg (sub_nonneg.2 py.1) (sub_nonneg.2 py.2),
      mul_nonneg (sub_nonneg.2 pz.1) (sub_nonneg.2 pz.2)]
  · rw [h2]
    refine Real.sqrt_le_iff.2 ⟨hr, ?_⟩
    have a1 := hc b.min (fun a => ⟨le_rfl, hb a⟩)
    have a2 := hc b.max (fun a => ⟨hb a, le_rfl⟩)
    simp only [dist2] at *
    nlinarith [sq_nonneg (2 * c.x - b.min.x - b.max.x), sq_nonneg (2 * c.y - b.min.y - b.max.y), sq_nonneg (2 * c.z - b.min.z - b.max.z)]

/-- Two boxes of the example: the second touches the first in a face; the third is apart. -/
def Demo.boxA : BBox3 F32 := ⟨⟨lit 0, lit 0, lit 0⟩, ⟨lit 1, lit 2, lit 3⟩⟩
def Demo.boxB : BBox3 F32 := ⟨⟨lit 1, lit 1, lit 1⟩, ⟨lit 2, lit 2, lit 2⟩⟩
def Demo.boxC : BBox3 F32 := ⟨⟨lit 2, lit 1, lit 1⟩, ⟨lit 2, lit 2, lit 2⟩⟩

/-- Non-vacuity of C79: ordered boxes of both kinds. -/
example : (∀ a, le (Demo.boxA.min.get a) (Demo.boxA.max.get a) = true) ∧ (∀ a, le (Demo.boxB.min.get a) (Demo.boxB.max.get a) = true) ∧
    (∀ a, le (Demo.boxC.min.get a) (Demo.boxC.max.get a) = true) ∧
    Demo.boxA.overlaps Demo.boxB = true ∧ Demo.boxA.overlaps Demo.boxC = false := by
  refine ⟨?_, ?_, ?_, by decide +kernel, by decide +kernel⟩ <;> rintro (_ | _ | _) <;> decide +kernel

/-- Non-vacuity of C79: a box with three different sides. -/
example : ∀ a, (⟨⟨-1, 0, 2⟩, ⟨1, 3, 3⟩⟩ : BBox3 ℝ).min.get a ≤ (⟨⟨-1, 0, 2⟩, ⟨1, 3, 3⟩⟩ : BBox3 ℝ).max.get a := by
  rintro (_ | _ | _) <;> norm_num [V3.get]

end PT
