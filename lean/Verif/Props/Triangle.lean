import Verif.Lemmas.Triangle
import Verif.Props.Container

/-!
# Triangles: C38, C39, C40, C42, C43
-/

namespace PT
open Triangle

namespace Spec
/-- The point of the ray at parameter `t`. -/
def pointAt (ray : Ray ℝ) (t : ℝ) : V3 ℝ :=
  ⟨ray.origin.x + t * ray.direction.x, ray.origin.y + t * ray.direction.y, ray.origin.z + t * ray.direction.z⟩

/-- `b₀ p₀ + b₁ p₁ + b₂ p₂` -/
def mix (b0 b1 b2 : ℝ) (p0 p1 p2 : V3 ℝ) : V3 ℝ :=
  ⟨b0 * p0.x + b1 * p1.x + b2 * p2.x, b0 * p0.y + b1 * p1.y + b2 * p2.y, b0 * p0.z + b1 * p1.z + b2 * p2.z⟩

/-- Weights of a convex combination. -/
def Weights (b0 b1 b2 : ℝ) : Prop := 0 ≤ b0 ∧ 0 ≤ b1 ∧ 0 ≤ b2 ∧ b0 + b1 + b2 = 1

/-- Difference of points. -/
def diff (p q : V3 ℝ) : V3 ℝ := ⟨p.x - q.x, p.y - q.y, p.z - q.z⟩

/-- Vector product. -/
def vcross (u v : V3 ℝ) : V3 ℝ := ⟨u.y * v.z - u.z * v.y, u.z * v.x - u.x * v.z, u.x * v.y - u.y * v.x⟩

/-- A (not normalized) normal of the triangle's plane. -/
def planeNormal (s : Triangle ℝ) : V3 ℝ := vcross (diff s.v1 s.v0) (diff s.v2 s.v0)

/-- Axis along which the direction is longest. -/
def Dominant (d : V3 ℝ) (m : Axis) : Prop := ∀ a : Axis, |d.get a| ≤ |d.get m|

/-- A point in ray coordinates for the axis `m`: the origin is moved to 0 and the point is projected along the ray to the
plane of the two other axes; the third coordinate is the ray parameter. -/
noncomputable def rayCoord (ray : Ray ℝ) (m : Axis) (p : V3 ℝ) : V3 ℝ :=
  let q := diff p ray.origin
  let t := q.get m / ray.direction.get m
  ⟨q.get m.prev - t * ray.direction.get m.prev, q.get m.next - t * ray.direction.get m.next, t⟩

/-- Largest magnitude of three numbers. -/
noncomputable def maxAbs (a b c : ℝ) : ℝ := max (max |a| |b|) |c|

/-- Relative error of `n` roundings, `nε / (1 - nε)` with `ε = 2⁻²⁴`. -/
noncomputable def errFactor (n : ℝ) : ℝ := n * (1 / 2 ^ 24) / (1 - n * (1 / 2 ^ 24))

/-- The documented error threshold on the parameter ("ensure t > 0", shape_triangle.rs:117-134) with the three vertices
`a b c` in ray coordinates: the bound on the rounding error of the computed parameter, which is
`3 (errors of the products of edge function and depth) / |det|`. -/
noncomputable def errorThreshold (a b c : V3 ℝ) : ℝ :=
  let e0 := b.x * c.y - b.y * c.x
  let e1 := c.x * a.y - c.y * a.x
  let e2 := a.x * b.y - a.y * b.x
  let X := maxAbs a.x b.x c.x
  let Y := maxAbs a.y b.y c.y
  let Z := maxAbs a.z b.z c.z
  let E := maxAbs e0 e1 e2
  let dE := 2 * (errFactor 2 + 2 * errFactor 5) * X * Y
  3 * (2 * errFactor 3 * E + dE) * Z / |e0 + e1 + e2|
end Spec
open Spec

/-! ## Real-number facts about the test -/

theorem maxAbsAxis_real (d : V3 ℝ) : ∃ m, d.maxAbsAxis = some m ∧ Dominant d m := by
  unfold V3.maxAbsAxis V3.abs Dominant
  real_ops
  by_cases h1 : |d.y| ≤ |d.x| <;> by_cases h2 : |d.z| ≤ |d.x| <;> by_cases h3 : |d.z| ≤ |d.y| <;>
    simp only [h1, h2, h3, decide_true, decide_false]
  · exact ⟨.X, rfl, fun a => by cases a <;> simp [V3.get, h1, h2]⟩
  · exact ⟨.X, rfl, fun a => by cases a <;> simp [V3.get, h1, h2]⟩
  · exfalso; exact h2 (h3.trans h1)
  · exact ⟨.Z, rfl, fun a => by cases a <;> simp [V3.get] <;> linarith⟩
  · exact ⟨.Y, rfl, fun a => by cases a <;> simp [V3.get] <;> linarith⟩
  · exfalso; linarith
  · exact ⟨.Y, rfl, fun a => by cases a <;> simp [V3.get] <;> linarith⟩
  · exact ⟨.Z, rfl, fun a => by cases a <;> simp [V3.get] <;> linarith⟩

theorem dominant_ne {d : V3 ℝ} (hd : d ≠ V3.zero) {m : Axis} (h : Dominant d m) : d.get m ≠ 0 := by
  intro e
  apply hd
  unfold Dominant at h
  rw [e, abs_zero] at h
  have hx := abs_nonpos_iff.1 (h .X)
  have hy := abs_nonpos_iff.1 (h .Y)
  have hz := abs_nonpos_iff.1 (h .Z)
  simp only [V3.get] at hx hy hz
  ext <;> simp [V3.zero, r_lit, hx, hy, hz]

/-- Model's ray coordinates: third component is not yet divided by the direction. -/
theorem rc_real (ray : Ray ℝ) (m : Axis) (hm : ray.direction.get m ≠ 0) (p : V3 ℝ) :
    rc ray.origin ray.direction m p =
      ⟨(rayCoord ray m p).x, (rayCoord ray m p).y, (rayCoord ray m p).z * ray.direction.get m⟩ := by
  unfold rc shear rayCoord sxOf syOf V3.permute
  real_ops
  cases m <;> simp only [V3.get, V3.add, V3.neg, Axis.prev, Axis.next, diff] at * <;> real_ops <;>
    (ext <;> simp only [] <;> field_simp <;> ring)

/-- The stage in exact arithmetic from true ray coordinates. -/
theorem stage_real (s : Triangle ℝ) (ray : Ray ℝ) (m : Axis) (hm : ray.direction.get m ≠ 0) :
    let a := rayCoord ray m s.v0
    let b := rayCoord ray m s.v1
    let c := rayCoord ray m s.v2
    let g := stage s ray.origin ray.direction m
    g.e0 = b.x * c.y - b.y * c.x ∧ g.e1 = c.x * a.y - c.y * a.x ∧ g.e2 = a.x * b.y - a.y * b.x ∧
    g.ts = a.z * g.e0 + b.z * g.e1 + c.z * g.e2 ∧ g.det = g.e0 + g.e1 + g.e2 ∧ g.dt = errorThreshold a b c := by
  intro a b c g
  have hg : g = stageOf (rc ray.origin ray.direction m s.v0) (rc ray.origin ray.direction m s.v1)
    (rc ray.origin ray.direction m s.v2) (szOf ray.direction m) := rfl
  rw [rc_real ray m hm, rc_real ray m hm, rc_real ray m hm] at hg
  have hz : ∀ z : ℝ, z * ray.direction.get m * (1 / ray.direction.get m) = z := by intro z; field_simp
  rw [hg]
  unfold stageOf szOf Stage.det threshold errorThreshold
  real_ops
  simp only [hz]
  refine ⟨rfl, rfl, rfl, by trivial, by trivial, ?_⟩
  unfold gamma machineEpsilon epsilon V3.maxComponent V3.abs maxAbs errFactor
  real_ops
  push_cast
  ring

/-- The edge functions are the weights of the point of the ray in the triangle's plane. -/
theorem hit_mix (s : Triangle ℝ) (ray : Ray ℝ) (m : Axis) (hm : ray.direction.get m ≠ 0)
    (hdet : (stage s ray.origin ray.direction m).det ≠ 0) :
    let g := stage s ray.origin ray.direction m
    pointAt ray g.t = mix (g.e0 / g.det) (g.e1 / g.det) (g.e2 / g.det) s.v0 s.v1 s.v2 := by
  intro g
  have hg : g.t = g.ts / g.det := rfl
  obtain ⟨h0, h1, h2, hts, hdt, -⟩ := stage_real s ray m hm
  have eg : stage s ray.origin ray.direction m = g := rfl
  rw [eg] at h0 h1 h2 hts hdt hdet
  rw [hg]
  have hd' : g.e0 + g.e1 + g.e2 ≠ 0 := by rw [← hdt]; exact hdet
  -- in ray coordinates
  have kx : g.e0 * (rayCoord ray m s.v0).x + g.e1 * (rayCoord ray m s.v1).x + g.e2 * (rayCoord ray m s.v2).x = 0 := by
    rw [h0, h1, h2]; ring
  have ky : g.e0 * (rayCoord ray m s.v0).y + g.e1 * (rayCoord ray m s.v1).y + g.e2 * (rayCoord ray m s.v2).y = 0 := by
    rw [h0, h1, h2]; ring
  have kz := hts
  clear_value g
  clear eg
  clear h0 h1 h2
  have hz : ∀ p : V3 ℝ, (rayCoord ray m p).z * ray.direction.get m = p.get m - ray.origin.get m := by
    intro p; unfold rayCoord diff; cases m <;> simp only [V3.get] at * <;> field_simp
  have hx : ∀ p : V3 ℝ, (rayCoord ray m p).x = p.get m.prev - ray.origin.get m.prev - (rayCoord ray m p).z * ray.direction.get m.prev := by
    intro p; unfold rayCoord diff; cases m <;> simp only [V3.get, Axis.prev]
  have hy : ∀ p : V3 ℝ, (rayCoord ray m p).y = p.get m.next - ray.origin.get m.next - (rayCoord ray m p).z * ray.direction.get m.next := by
    intro p; unfold rayCoord diff; cases m <;> simp only [V3.get, Axis.next]
  simp only [hx] at kx
  simp only [hy] at ky
  have z0 := hz s.v0
  have z1 := hz s.v1
  have z2 := hz s.v2
  generalize (rayCoord ray m s.v0).z = c0 at *
  generalize (rayCoord ray m s.v1).z = c1 at *
  generalize (rayCoord ray m s.v2).z = c2 at *
  have kp : ray.origin.get m.prev * g.det + g.ts * ray.direction.get m.prev =
      g.e0 * s.v0.get m.prev + g.e1 * s.v1.get m.prev + g.e2 * s.v2.get m.prev := by
    rw [hdt, kz]; linear_combination (-1 : ℝ) * kx
  have kn : ray.origin.get m.next * g.det + g.ts * ray.direction.get m.next =
      g.e0 * s.v0.get m.next + g.e1 * s.v1.get m.next + g.e2 * s.v2.get m.next := by
    rw [hdt, kz]; linear_combination (-1 : ℝ) * ky
  have km : ray.origin.get m * g.det + g.ts * ray.direction.get m =
      g.e0 * s.v0.get m + g.e1 * s.v1.get m + g.e2 * s.v2.get m := by
    rw [hdt, kz]; linear_combination g.e0 * z0 + g.e1 * z1 + g.e2 * z2
  have all : ∀ a : Axis, ray.origin.get a * g.det + g.ts * ray.direction.get a =
      g.e0 * s.v0.get a + g.e1 * s.v1.get a + g.e2 * s.v2.get a := by
    intro a
    cases m <;> cases a <;> first | exact kp | exact kn | exact km
  have fin : ∀ a : Axis, ray.origin.get a + g.ts / g.det * ray.direction.get a =
      g.e0 / g.det * s.v0.get a + g.e1 / g.det * s.v1.get a + g.e2 / g.det * s.v2.get a := by
    intro a
    have := all a
    field_simp
    linarith
  ext
  · exact fin .X
  · exact fin .Y
  · exact fin .Z

/-- A point of the ray in the triangle determines the edge functions up to the factor `det`. -/
theorem mix_edges (s : Triangle ℝ) (ray : Ray ℝ) (m : Axis) (hm : ray.direction.get m ≠ 0) (b0 b1 b2 t : ℝ)
    (hsum : b0 + b1 + b2 = 1) (hp : pointAt ray t = mix b0 b1 b2 s.v0 s.v1 s.v2) :
    let g := stage s ray.origin ray.direction m
    g.e0 = b0 * g.det ∧ g.e1 = b1 * g.det ∧ g.e2 = b2 * g.det ∧ g.ts = t * g.det := by
  intro g
  obtain ⟨h0, h1, h2, hts, hdt, -⟩ := stage_real s ray m hm
  have eg : stage s ray.origin ray.direction m = g := rfl
  rw [eg] at h0 h1 h2 hts hdt
  have hz : ∀ p : V3 ℝ, (rayCoord ray m p).z * ray.direction.get m = p.get m - ray.origin.get m := by
    intro p; unfold rayCoord diff; cases m <;> simp only [V3.get] at * <;> field_simp
  have hx : ∀ p : V3 ℝ, (rayCoord ray m p).x = p.get m.prev - ray.origin.get m.prev - (rayCoord ray m p).z * ray.direction.get m.prev := by
    intro p; unfold rayCoord diff; cases m <;> simp only [V3.get, Axis.prev]
  have hy : ∀ p : V3 ℝ, (rayCoord ray m p).y = p.get m.next - ray.origin.get m.next - (rayCoord ray m p).z * ray.direction.get m.next := by
    intro p; unfold rayCoord diff; cases m <;> simp only [V3.get, Axis.next]
  have all : ∀ a : Axis, ray.origin.get a + t * ray.direction.get a = b0 * s.v0.get a + b1 * s.v1.get a + b2 * s.v2.get a := by
    intro a
    cases a
    · exact congrArg V3.x hp
    · exact congrArg V3.y hp
    · exact congrArg V3.z hp
  have kz : b0 * (rayCoord ray m s.v0).z + b1 * (rayCoord ray m s.v1).z + b2 * (rayCoord ray m s.v2).z = t := by
    have := all m
    have z0 := hz s.v0
    have z1 := hz s.v1
    have z2 := hz s.v2
    apply mul_right_cancel₀ hm
    linear_combination b0 * z0 + b1 * z1 + b2 * z2 - this - ray.origin.get m * hsum
  have kx : b0 * (rayCoord ray m s.v0).x + b1 * (rayCoord ray m s.v1).x + b2 * (rayCoord ray m s.v2).x = 0 := by
    rw [hx, hx, hx]
    linear_combination (-1 : ℝ) * all m.prev - ray.origin.get m.prev * hsum - ray.direction.get m.prev * kz
  have ky : b0 * (rayCoord ray m s.v0).y + b1 * (rayCoord ray m s.v1).y + b2 * (rayCoord ray m s.v2).y = 0 := by
    rw [hy, hy, hy]
    linear_combination (-1 : ℝ) * all m.next - ray.origin.get m.next * hsum - ray.direction.get m.next * kz
  clear_value g
  clear eg
  clear hz hx hy all
  generalize rayCoord ray m s.v0 = a at *
  generalize rayCoord ray m s.v1 = b at *
  generalize rayCoord ray m s.v2 = c at *
  have h01 : b0 * g.e1 = b1 * g.e0 := by rw [h0, h1]; linear_combination c.x * ky - c.y * kx
  have h12 : b1 * g.e2 = b2 * g.e1 := by rw [h1, h2]; linear_combination a.x * ky - a.y * kx
  have h20 : b2 * g.e0 = b0 * g.e2 := by rw [h0, h2]; linear_combination b.x * ky - b.y * kx
  have r0 : g.e0 = b0 * g.det := by rw [hdt]; linear_combination (-g.e0) * hsum - h01 + h20
  have r1 : g.e1 = b1 * g.det := by rw [hdt]; linear_combination (-g.e1) * hsum + h01 - h12
  have r2 : g.e2 = b2 * g.det := by rw [hdt]; linear_combination (-g.e2) * hsum + h12 - h20
  refine ⟨r0, r1, r2, ?_⟩
  rw [hts, ← kz]
  linear_combination a.z * r0 + b.z * r1 + c.z * r2

/-- `det` vanishes exactly when the ray is parallel to the triangle's plane. -/
theorem det_plane (s : Triangle ℝ) (ray : Ray ℝ) (m : Axis) (hm : ray.direction.get m ≠ 0) :
    (stage s ray.origin ray.direction m).det * ray.direction.get m = -Spec.inner (planeNormal s) ray.direction := by
  obtain ⟨h0, h1, h2, hts, hdt, -⟩ := stage_real s ray m hm
  rw [hdt, h0, h1, h2]
  unfold rayCoord planeNormal Spec.inner vcross diff
  cases m <;> simp only [V3.get, Axis.prev, Axis.next] at * <;> field_simp <;> ring

theorem rejects_false {s : Triangle ℝ} {o d : V3 ℝ} {m : Axis} {tm : ℝ} (h : (stage s o d m).rejects tm = false) :
    let g := stage s o d m
    ((0 ≤ g.e0 ∧ 0 ≤ g.e1 ∧ 0 ≤ g.e2) ∨ (g.e0 ≤ 0 ∧ g.e1 ≤ 0 ∧ g.e2 ≤ 0)) ∧ g.det ≠ 0 ∧
    (g.det < 0 → tm * g.det ≤ g.ts ∧ g.ts < 0) ∧ (0 < g.det → 0 < g.ts ∧ g.ts ≤ tm * g.det) ∧ g.dt < g.t := by
  intro g
  have eg : stage s o d m = g := rfl
  rw [eg] at h
  clear_value g
  unfold Stage.rejects at h
  simp only [Bool.or_eq_false_iff] at h
  obtain ⟨⟨⟨h1, h2⟩, h3⟩, h4⟩ := h
  refine ⟨?_, ?_, ?_, ?_, ?_⟩
  · unfold Stage.mixed at h1
    real_ops at h1
    simp only [Bool.and_eq_false_iff, Bool.or_eq_false_iff, decide_eq_false_iff_not, not_lt] at h1
    rcases h1 with h1 | h1
    · exact Or.inl ⟨h1.1.1, h1.1.2, h1.2⟩
    · exact Or.inr ⟨h1.1.1, h1.1.2, h1.2⟩
  · real_ops at h2; simpa using h2
  · unfold Stage.out at h3
    real_ops at h3
    simp only [Bool.and_eq_false_iff, Bool.or_eq_false_iff, decide_eq_false_iff_not, not_lt, not_le] at h3
    intro hneg
    exact h3.1.resolve_left (not_le.2 hneg)
  · unfold Stage.out at h3
    real_ops at h3
    simp only [Bool.and_eq_false_iff, Bool.or_eq_false_iff, decide_eq_false_iff_not, not_lt, not_le] at h3
    intro hneg
    exact h3.2.resolve_left (not_le.2 hneg)
  · real_ops at h4; simpa using h4

/-- C38, exact arithmetic: for every triangle and every ray with non-zero direction `Triangle::intersect` does not panic, and
if it reports an interaction `i` at parameter `t` then `0 < t ≤ t_max`, the reported point is the point of the ray at `t`, and
it is a convex combination of the vertices (whose weights also give the reported `uv`). -/
theorem c38_triangle_hit_real (s : Triangle ℝ) (ray : Ray ℝ) (hd : ray.direction ≠ V3.zero) :
    s.intersect ray ≠ none ∧ ∀ i t, s.intersect ray = some (some (i, t)) →
      0 < t ∧ t ≤ ray.tMax ∧ i.p = pointAt ray t ∧
      ∃ b0 b1 b2, Weights b0 b1 b2 ∧ i.p = mix b0 b1 b2 s.v0 s.v1 s.v2 ∧ i.uv = ⟨b1 + b2, b2⟩ := by
  obtain ⟨m, hm, hdom⟩ := maxAbsAxis_real ray.direction
  have hne := dominant_ne hd hdom
  have e := intersect_eq s ray.origin ray.direction ray.tMax
  rw [hm] at e
  change s.intersect ray = _ at e
  refine ⟨by rw [e]; simp, ?_⟩
  intro i t h
  rw [e] at h
  simp only [Option.map_some, Option.some.injEq] at h
  by_cases hr : (stage s ray.origin ray.direction m).rejects ray.tMax = true
  · rw [if_pos hr] at h; cases h
  rw [if_neg hr] at h
  have hr' := rejects_false (Bool.not_eq_true _ ▸ hr)
  have hmix := hit_mix s ray m hne hr'.2.1
  simp only [] at hr' hmix
  obtain ⟨-, -, -, -, hdt, -⟩ := stage_real s ray m hne
  generalize hg : stage s ray.origin ray.direction m = g at *
  obtain ⟨hsgn, hdet, hneg, hpos, -⟩ := hr'
  simp only [Option.some.injEq, Prod.mk.injEq] at h
  obtain ⟨hi, ht⟩ := h
  have ht' : t = g.ts / g.det := by rw [← ht]; rfl
  have hip : i.p = mix (g.e0 / g.det) (g.e1 / g.det) (g.e2 / g.det) s.v0 s.v1 s.v2 := by
    rw [← hi]
    unfold interactionAt mix V3.smul V3.add
    real_ops
    ext <;> ring
  have hw : Weights (g.e0 / g.det) (g.e1 / g.det) (g.e2 / g.det) := by
    have h1 : g.e0 / g.det + g.e1 / g.det + g.e2 / g.det = 1 := by
      rw [← add_div, ← add_div, ← hdt]; exact div_self hdet
    rcases hsgn with ⟨a, b, c⟩ | ⟨a, b, c⟩
    · have : 0 ≤ g.det := by rw [hdt]; positivity
      exact ⟨div_nonneg a this, div_nonneg b this, div_nonneg c this, h1⟩
    · have : g.det ≤ 0 := by rw [hdt]; linarith
      exact ⟨div_nonneg_of_nonpos a this, div_nonneg_of_nonpos b this, div_nonneg_of_nonpos c this, h1⟩
  refine ⟨?_, ?_, ?_, _, _, _, hw, hip, ?_⟩
  · rw [ht']
    rcases lt_or_gt_of_ne hdet with hl | hl
    · exact div_pos_of_neg_of_neg (hneg hl).2 hl
    · exact div_pos (hpos hl).1 hl
  · rw [ht']
    rcases lt_or_gt_of_ne hdet with hl | hl
    · rw [div_le_iff_of_neg hl]; exact (hneg hl).1
    · rw [div_le_iff₀ hl]; exact (hpos hl).2
  · rw [hip, ← hmix, ht]
  · rw [← hi]
    unfold interactionAt getUv
    real_ops
    ext <;> simp only [] <;> ring

theorem errorThreshold_nonneg (a b c : V3 ℝ) : 0 ≤ errorThreshold a b c := by
  unfold errorThreshold
  have h2 : (0 : ℝ) ≤ errFactor 2 := by norm_num [errFactor]
  have h3 : (0 : ℝ) ≤ errFactor 3 := by norm_num [errFactor]
  have h5 : (0 : ℝ) ≤ errFactor 5 := by norm_num [errFactor]
  have hm : ∀ x y z : ℝ, 0 ≤ maxAbs x y z := fun x y z => le_max_of_le_right (abs_nonneg z)
  have := hm a.x b.x c.x
  have := hm a.y b.y c.y
  have := hm a.z b.z c.z
  have := hm (b.x * c.y - b.y * c.x) (c.x * a.y - c.y * a.x) (a.x * b.y - a.y * b.x)
  positivity

/-- C39, exact arithmetic: if a ray that is not parallel to the triangle's plane meets the triangle (a convex combination of
the vertices) at a parameter `t` above the error threshold and at most `t_max`, then `Triangle::intersect` reports a hit with
exactly that parameter and at that point. -/
theorem c39_triangle_complete (s : Triangle ℝ) (ray : Ray ℝ) (b0 b1 b2 t : ℝ) (hw : Weights b0 b1 b2)
    (hp : pointAt ray t = mix b0 b1 b2 s.v0 s.v1 s.v2)
    (hpar : Spec.inner (planeNormal s) ray.direction ≠ 0)
    (hthr : ∀ m, Dominant ray.direction m → errorThreshold (rayCoord ray m s.v0) (rayCoord ray m s.v1) (rayCoord ray m s.v2) < t)
    (htm : t ≤ ray.tMax) :
    ∃ i, s.intersect ray = some (some (i, t)) ∧ i.p = pointAt ray t ∧ i.uv = ⟨b1 + b2, b2⟩ := by
  have hd : ray.direction ≠ V3.zero := by
    intro e; apply hpar; rw [e]; simp [Spec.inner, V3.zero, r_lit]
  obtain ⟨m, hm, hdom⟩ := maxAbsAxis_real ray.direction
  have hne := dominant_ne hd hdom
  have hdet : (stage s ray.origin ray.direction m).det ≠ 0 := by
    intro e
    have := det_plane s ray m hne
    rw [e, zero_mul] at this
    apply hpar; linarith
  obtain ⟨-, -, -, -, hdt, hthr'⟩ := stage_real s ray m hne
  have hthr'' := hthr m hdom
  have ht : 0 < t := lt_of_le_of_lt (errorThreshold_nonneg _ _ _) hthr''
  rw [← hthr'] at hthr''
  obtain ⟨h0, h1, h2, hts⟩ := mix_edges s ray m hne b0 b1 b2 t hw.2.2.2 hp
  have e := intersect_eq s ray.origin ray.direction ray.tMax
  rw [hm] at e
  change s.intersect ray = _ at e
  generalize hg : stage s ray.origin ray.direction m = g at *
  have hrej : g.rejects ray.tMax = false := by
    unfold Stage.rejects
    simp only [Bool.or_eq_false_iff]
    refine ⟨⟨⟨?_, ?_⟩, ?_⟩, ?_⟩
    · unfold Stage.mixed
      real_ops
      simp only [Bool.and_eq_false_iff, Bool.or_eq_false_iff, decide_eq_false_iff_not, not_lt]
      rw [h0, h1, h2]
      rcases lt_or_gt_of_ne hdet with hl | hl
      · right
        exact ⟨⟨mul_nonpos_of_nonneg_of_nonpos hw.1 hl.le, mul_nonpos_of_nonneg_of_nonpos hw.2.1 hl.le⟩,
          mul_nonpos_of_nonneg_of_nonpos hw.2.2.1 hl.le⟩
      · left
        exact ⟨⟨mul_nonneg hw.1 hl.le, mul_nonneg hw.2.1 hl.le⟩, mul_nonneg hw.2.2.1 hl.le⟩
    · real_ops; simpa using hdet
    · unfold Stage.out
      real_ops
      simp only [Bool.and_eq_false_iff, Bool.or_eq_false_iff, decide_eq_false_iff_not, not_lt, not_le]
      rw [hts]
      rcases lt_or_gt_of_ne hdet with hl | hl
      · exact ⟨Or.inr ⟨by nlinarith, by nlinarith⟩, Or.inl hl.le⟩
      · exact ⟨Or.inl hl.le, Or.inr ⟨by positivity, by nlinarith⟩⟩
    · have : g.t = t := by
        change g.ts / g.det = t
        rw [hts]; field_simp
      rw [this]
      real_ops
      simpa using hthr''
  simp only [Option.map_some] at e
  rw [hg] at e
  rw [if_neg (by rw [hrej]; simp)] at e
  have hgt : g.t = t := by
    change g.ts / g.det = t
    rw [hts]; field_simp
  have q0 : g.e0 /. g.det = b0 := by real_ops; rw [h0]; field_simp
  have q1 : g.e1 /. g.det = b1 := by real_ops; rw [h1]; field_simp
  have q2 : g.e2 /. g.det = b2 := by real_ops; rw [h2]; field_simp
  rw [hgt, q0, q1, q2] at e
  refine ⟨_, e, ?_, ?_⟩
  · rw [hp]
    unfold interactionAt mix V3.smul V3.add
    real_ops
    ext <;> ring
  · unfold interactionAt getUv
    real_ops
    ext <;> simp only [] <;> ring

/-- A triangle in the plane `z = 0` and a ray through it: the hypotheses of C39 hold (so a hit is reported, and C38 applies). -/
example (mat : Material ℝ) : ∃ i, (Triangle.mk ⟨0, 0, 0⟩ ⟨1, 0, 0⟩ ⟨0, 1, 0⟩ none false mat).intersect
    ⟨⟨1 / 4, 1 / 4, -1⟩, ⟨0, 0, 1⟩, 10⟩ = some (some (i, 1)) ∧ i.p = ⟨1 / 4, 1 / 4, 0⟩ ∧ i.uv = ⟨1 / 2, 1 / 4⟩ := by
  obtain ⟨i, h1, h2, h3⟩ := c39_triangle_complete (Triangle.mk ⟨0, 0, 0⟩ ⟨1, 0, 0⟩ ⟨0, 1, 0⟩ none false mat)
    ⟨⟨1 / 4, 1 / 4, -1⟩, ⟨0, 0, 1⟩, 10⟩ (1 / 2) (1 / 4) (1 / 4) 1 (by norm_num [Weights])
    (by unfold pointAt mix; ext <;> norm_num) (by norm_num [planeNormal, Spec.inner, vcross, diff])
    (by
      intro m hm
      have hz := hm .Z
      cases m
      · norm_num [V3.get] at hz
      · norm_num [V3.get] at hz
      · unfold errorThreshold rayCoord maxAbs errFactor diff
        simp only [V3.get, Axis.prev, Axis.next]
        norm_num [abs_of_pos, abs_of_neg, max_def]) (by norm_num)
  refine ⟨i, h1, ?_, ?_⟩
  · rw [h2]; unfold pointAt; ext <;> norm_num
  · rw [h3]; ext <;> norm_num

/-! ## C40 -/

/-- C40 for triangles, in any arithmetic (in particular IEEE floats with any math library): the two queries panic together,
and otherwise `intersect_p` is true exactly when `intersect` is `Some`. -/
theorem c40_triangle {α : Type} [Scalar α] [Libm α] (s : Triangle α) (ray : Ray α) :
    s.intersectP ray = (s.intersect ray).map Option.isSome := by
  have h1 := intersectP_eq s ray.origin ray.direction ray.tMax
  have h2 := intersect_eq s ray.origin ray.direction ray.tMax
  change s.intersectP ray = _ at h1
  change s.intersect ray = _ at h2
  rw [h1, h2, Option.map_map]
  congr 1
  funext m
  simp only [Function.comp_apply]
  by_cases h : (stage s ray.origin ray.direction m).rejects ray.tMax = true
  · rw [if_pos h, h]; rfl
  · rw [if_neg h]; simpa using h

/-- `max_abs_axis` does not panic for directions without NaN. -/
theorem maxAbsAxis_ne_none {φ K : Type} [Field K] [LinearOrder K] [IsStrictOrderedRing K] [FloorRing K] [Rounding φ K]
    {d : V3 (Fl φ K)} (hd : ∀ a, d.get a ≠ Fl.nan) : d.maxAbsAxis ≠ none := by
  unfold V3.maxAbsAxis V3.abs
  have habs : ∀ x : Fl φ K, x ≠ Fl.nan → Fl.abs x ≠ Fl.nan := by intro x h; cases x <;> simp_all [Fl.abs]
  have hx := habs _ (hd .X)
  have hy := habs _ (hd .Y)
  have hz := habs _ (hd .Z)
  simp only [V3.get] at hx hy hz
  simp only [Fl.f_le, Fl.f_abs]
  cases h1 : Fl.le (Fl.abs d.y) (Fl.abs d.x) <;> cases h2 : Fl.le (Fl.abs d.z) (Fl.abs d.x) <;>
    cases h3 : Fl.le (Fl.abs d.z) (Fl.abs d.y) <;> simp
  · exact absurd (Fl.le_trans' h2 (Fl.le_of_lt' ((Fl.not_le' hy hx).1 h1))) (by rw [h3]; simp)
  · exact absurd (Fl.le_trans' h3 h1) (by rw [h2]; simp)

/-- The two queries do answer, and agree, along every direction without NaN. -/
theorem c40_triangle_agrees {φ K : Type} [Field K] [LinearOrder K] [IsStrictOrderedRing K] [FloorRing K] [Rounding φ K]
    [Libm (Fl φ K)] (s : Triangle (Fl φ K)) (o d : V3 (Fl φ K)) (hd : ∀ a, d.get a ≠ Fl.nan) :
    AgreesAlong s.toShape o d := by
  intro tm
  have hm : d.maxAbsAxis ≠ none := maxAbsAxis_ne_none hd
  have h1 := intersectP_eq s o d tm
  have h2 := intersect_eq s o d tm
  cases h : d.maxAbsAxis with
  | none => exact absurd h hm
  | some m =>
    rw [h] at h1 h2
    refine ⟨_, h2, ?_⟩
    change s.intersectP ⟨o, d, tm⟩ = _
    rw [c40_triangle, h2]
    rfl

/-! ## C42 -/

namespace Spec
/-- `c v` -/
def scale (c : ℝ) (v : V3 ℝ) : V3 ℝ := ⟨c * v.x, c * v.y, c * v.z⟩
/-- The unit normal of the triangle's plane, turned around if the triangle's orientation is reversed. -/
noncomputable def orientedNormal (s : Triangle ℝ) : V3 ℝ :=
  scale ((if s.reverseOrientation then -1 else 1) / Real.sqrt (Spec.sq (planeNormal s))) (planeNormal s)
end Spec

/-- C42, exact arithmetic: for sample values in `[0,1]` the sampled point is a convex combination of the vertices, and the
sampled normal is the oriented unit normal of the triangle's plane; a hit of a triangle without vertex normals reports the same
normal. -/
theorem c42_triangle_sample (s : Triangle ℝ) (hs : planeNormal s ≠ V3.zero) :
    (∀ u : V2 ℝ, 0 ≤ u.x → u.x ≤ 1 → 0 ≤ u.y → u.y ≤ 1 →
      ∃ b0 b1 b2, Weights b0 b1 b2 ∧ (s.sample u).p = mix b0 b1 b2 s.v0 s.v1 s.v2) ∧
    (∀ u : V2 ℝ, (s.sample u).n = orientedNormal s) ∧
    (s.vertexNormals = none → ∀ ray i t, s.intersect ray = some (some (i, t)) → i.n = orientedNormal s ∧ i.sn = i.n) := by
  have hpn : (s.v1.sub s.v0).cross (s.v2.sub s.v0) = planeNormal s := by
    unfold planeNormal vcross diff V3.cross V3.sub; real_ops
  have hpn' : (s.v0.sub s.v2).cross (s.v1.sub s.v2) = planeNormal s := by
    unfold planeNormal vcross diff V3.cross V3.sub; real_ops; ext <;> simp only [] <;> ring
  have hl : 0 < Real.sqrt (Spec.sq (planeNormal s)) := Real.sqrt_pos.2 (sq_pos hs)
  have hnorm : (planeNormal s).normalize = scale (1 / Real.sqrt (Spec.sq (planeNormal s))) (planeNormal s) := by
    unfold V3.normalize scale
    rw [length_eq]
    real_ops
    ext <;> simp only [] <;> ring
  have hsq : Spec.sq (planeNormal s).normalize = 1 := sq_normalize hs
  refine ⟨?_, ?_, ?_⟩
  · intro u h1 h2 h3 h4
    have hs0 := Real.sqrt_nonneg u.x
    have hs1 : Real.sqrt u.x ≤ 1 := by rw [← Real.sqrt_one]; exact Real.sqrt_le_sqrt h2
    refine ⟨1 - Real.sqrt u.x, u.y * Real.sqrt u.x, Real.sqrt u.x - u.y * Real.sqrt u.x, ⟨by linarith, by positivity, by nlinarith, by ring⟩, ?_⟩
    unfold sample mix V3.smul V3.add
    real_ops
    ext <;> simp only [] <;> ring
  · intro u
    have : (s.sample u).n = if s.reverseOrientation then (planeNormal s).normalize.smul ⊖(lit 1) else (planeNormal s).normalize := by
      rw [← hpn]; rfl
    rw [this, hnorm]
    unfold orientedNormal scale V3.smul
    cases s.reverseOrientation
    · simp
    · real_ops; simp only [if_true]; ext <;> simp only [] <;> ring
  · intro hvn ray i t h
    have e := intersect_eq s ray.origin ray.direction ray.tMax
    change s.intersect ray = _ at e
    rw [e] at h
    obtain ⟨m, hm, -⟩ := maxAbsAxis_real ray.direction
    rw [hm] at h
    simp only [Option.map_some, Option.some.injEq] at h
    by_cases hr : (stage s ray.origin ray.direction m).rejects ray.tMax = true
    · rw [if_pos hr] at h; cases h
    rw [if_neg hr] at h
    simp only [Option.some.injEq, Prod.mk.injEq] at h
    rw [← h.1]
    unfold interactionAt shading
    simp only [hvn, hpn', hnorm]
    have hdot : ∀ c : ℝ, (scale (1 / Real.sqrt (Spec.sq (planeNormal s))) (planeNormal s)).dot
        ((scale (1 / Real.sqrt (Spec.sq (planeNormal s))) (planeNormal s)).smul c) = c := by
      intro c
      rw [← hnorm]
      have : ∀ v : V3 ℝ, v.dot (v.smul c) = c * Spec.sq v := by
        intro v; unfold V3.dot V3.smul Spec.sq; real_ops; ring
      rw [this, hsq, mul_one]
    have hdot1 : (scale (1 / Real.sqrt (Spec.sq (planeNormal s))) (planeNormal s)).dot
        (scale (1 / Real.sqrt (Spec.sq (planeNormal s))) (planeNormal s)) = 1 := by
      have := hdot 1
      unfold V3.smul at this
      real_ops at this
      simpa using this
    cases hro : s.reverseOrientation
    · simp only [Bool.false_eq_true, if_false, hdot1]
      real_ops
      norm_num
      unfold orientedNormal
      simp [hro]
    · simp only [if_true, hdot]
      real_ops
      norm_num
      unfold orientedNormal V3.smul scale
      simp only [hro, if_true]
      real_ops
      ext <;> simp only [] <;> ring

/-- A reversed triangle: the plane normal is not zero. -/
example (mat : Material ℝ) : planeNormal (Triangle.mk ⟨0, 0, 0⟩ ⟨1, 0, 0⟩ ⟨0, 1, 0⟩ none true mat) ≠ V3.zero ∧
    orientedNormal (Triangle.mk ⟨0, 0, 0⟩ ⟨1, 0, 0⟩ ⟨0, 1, 0⟩ none true mat) = ⟨0, 0, -1⟩ := by
  constructor
  · intro h
    have := congrArg V3.z h
    norm_num [planeNormal, vcross, diff, V3.zero, r_lit] at this
  · unfold orientedNormal planeNormal scale vcross diff Spec.sq
    ext <;> norm_num

/-! ## C43 -/

namespace Spec
/-- Every index of the triple is below `n`. -/
def Below (n : Nat) (x : Nat × Nat × Nat) : Prop := x.1 < n ∧ x.2.1 < n ∧ x.2.2 < n

/-- The mesh has usable normals: as many index triples as triangles at least. -/
def HasNormals (indices : List (Nat × Nat × Nat)) (normalIndices : Option (List (Nat × Nat × Nat))) : Prop :=
  indices.length ≤ (normalIndices.getD []).length

/-- All the indices that the mesh uses are in range. -/
def MeshOk {α : Type} (vertices : List (V3 α)) (indices : List (Nat × Nat × Nat)) (normals : Option (List (V3 α)))
    (normalIndices : Option (List (Nat × Nat × Nat))) : Prop :=
  (∀ x ∈ indices, Below vertices.length x) ∧
  (HasNormals indices normalIndices → ∀ x ∈ (normalIndices.getD []).take indices.length, Below (normals.getD []).length x)

/-- `l[i]` is `x` (in range). -/
def At {β : Type} (l : List β) (i : Nat) (x : β) : Prop := l[i]? = some x
end Spec

theorem mapM_range {β : Type} (f : Nat → Option β) (n : Nat) :
    (∃ ts, (List.range n).mapM f = some ts ∧ ts.length = n ∧ ∀ i, i < n → f i = ts[i]?) ∨
    ((List.range n).mapM f = none ∧ ∃ i, i < n ∧ f i = none) := by
  induction n with
  | zero => exact Or.inl ⟨[], rfl, rfl, by simp⟩
  | succ n ih =>
    rw [List.range_succ, List.mapM_append]
    rcases ih with ⟨ts, h, hl, hf⟩ | ⟨h, i, hi, hf⟩
    · cases hn : f n with
      | none => exact Or.inr ⟨by simp [h, hn], n, by omega, hn⟩
      | some x =>
        refine Or.inl ⟨ts ++ [x], by simp [h, hn], by simp [hl], ?_⟩
        intro i hi
        by_cases h1 : i < n
        · rw [hf i h1, List.getElem?_append_left (by omega)]
        · have : i = n := by omega
          subst this
          rw [hn, List.getElem?_append_right (by omega)]
          simp [hl]
    · exact Or.inr ⟨by simp [h], i, by omega, hf⟩

/-- C43: for all arrays, if all used indices are in range then `new_triangle_mesh` returns one triangle per index triple, in
order, with the indexed vertices, the indexed normals when there are enough normal index triples and none otherwise, not
reversed and with the given material; if some used index is out of range it panics. -/
theorem c43_mesh {α : Type} (vertices : List (V3 α)) (indices : List (Nat × Nat × Nat)) (normals : Option (List (V3 α)))
    (normalIndices : Option (List (Nat × Nat × Nat))) (mat : Material α) :
    (newTriangleMesh vertices indices normals normalIndices mat = none ↔ ¬ MeshOk vertices indices normals normalIndices) ∧
    ∀ ts, newTriangleMesh vertices indices normals normalIndices mat = some ts →
      ts.length = indices.length ∧
      ∀ i x s, At indices i x → At ts i s →
        At vertices x.1 s.v0 ∧ At vertices x.2.1 s.v1 ∧ At vertices x.2.2 s.v2 ∧
        s.reverseOrientation = false ∧ s.material = mat ∧
        (¬ HasNormals indices normalIndices → s.vertexNormals = none) ∧
        (HasNormals indices normalIndices → ∃ y n0 n1 n2, At (normalIndices.getD []) i y ∧ s.vertexNormals = some (n0, n1, n2) ∧
          At (normals.getD []) y.1 n0 ∧ At (normals.getD []) y.2.1 n1 ∧ At (normals.getD []) y.2.2 n2) := by
  unfold newTriangleMesh
  simp only []
  generalize hf : (fun i => _) = f
  have hstep : ∀ i x, At indices i x →
      (f i = none ∧ (¬ Below vertices.length x ∨ (HasNormals indices normalIndices ∧
          ∃ y, At (normalIndices.getD []) i y ∧ ¬ Below (normals.getD []).length y))) ∨
      (Below vertices.length x ∧ (HasNormals indices normalIndices → ∀ y, At (normalIndices.getD []) i y → Below (normals.getD []).length y) ∧
        ∃ s, f i = some s ∧ At vertices x.1 s.v0 ∧ At vertices x.2.1 s.v1 ∧ At vertices x.2.2 s.v2 ∧
        s.reverseOrientation = false ∧ s.material = mat ∧
        (¬ HasNormals indices normalIndices → s.vertexNormals = none) ∧
        (HasNormals indices normalIndices → ∃ y n0 n1 n2, At (normalIndices.getD []) i y ∧ s.vertexNormals = some (n0, n1, n2) ∧
          At (normals.getD []) y.1 n0 ∧ At (normals.getD []) y.2.1 n1 ∧ At (normals.getD []) y.2.2 n2)) := by
    intro i x hx
    have hi : i < indices.length := by
      unfold At at hx; exact (List.getElem?_eq_some_iff.1 hx).1
    unfold At at hx
    have get : ∀ {β : Type} (l : List β) (k : Nat), (l[k]? = none ∧ ¬ k < l.length) ∨ ∃ y, l[k]? = some y ∧ k < l.length := by
      intro β l k
      cases h : l[k]? with
      | none => exact Or.inl ⟨rfl, by simpa using h⟩
      | some y => exact Or.inr ⟨y, rfl, (List.getElem?_eq_some_iff.1 h).1⟩
    rw [← hf]
    simp only [hx, bind, Option.bind_some]
    rcases get vertices x.1 with ⟨e, l0⟩ | ⟨v0, e0, l0⟩
    · left; exact ⟨by simp [e], Or.inl fun h => l0 h.1⟩
    rcases get vertices x.2.1 with ⟨e, l1⟩ | ⟨v1, e1, l1⟩
    · left; exact ⟨by simp [e0, e], Or.inl fun h => l1 h.2.1⟩
    rcases get vertices x.2.2 with ⟨e, l2⟩ | ⟨v2, e2, l2⟩
    · left; exact ⟨by simp [e0, e1, e], Or.inl fun h => l2 h.2.2⟩
    simp only [e0, e1, e2, Option.bind_some]
    by_cases hn : HasNormals indices normalIndices
    · have hn' : (normalIndices.getD []).length ≥ indices.length := hn
      simp only [hn', if_true]
      rcases get (normalIndices.getD []) i with ⟨e, l⟩ | ⟨y, ey, ly⟩
      · omega
      simp only [ey, Option.bind_some]
      rcases get (normals.getD []) y.1 with ⟨e, m0⟩ | ⟨n0, f0, m0⟩
      · left; exact ⟨by simp [e], Or.inr ⟨hn, y, ey, fun h => m0 h.1⟩⟩
      rcases get (normals.getD []) y.2.1 with ⟨e, m1⟩ | ⟨n1, f1, m1⟩
      · left; exact ⟨by simp [f0, e], Or.inr ⟨hn, y, ey, fun h => m1 h.2.1⟩⟩
      rcases get (normals.getD []) y.2.2 with ⟨e, m2⟩ | ⟨n2, f2, m2⟩
      · left; exact ⟨by simp [f0, f1, e], Or.inr ⟨hn, y, ey, fun h => m2 h.2.2⟩⟩
      right
      refine ⟨⟨l0, l1, l2⟩, ?_, ⟨v0, v1, v2, some (n0, n1, n2), false, mat⟩, by simp [f0, f1, f2], e0, e1, e2, rfl, rfl,
        fun h => absurd hn h, fun _ => ⟨y, n0, n1, n2, ey, rfl, f0, f1, f2⟩⟩
      intro _ y' hy'
      unfold At at hy'
      rw [ey] at hy'
      cases hy'
      exact ⟨m0, m1, m2⟩
    · have hn' : ¬ (normalIndices.getD []).length ≥ indices.length := hn
      simp only [hn', if_false]
      right
      exact ⟨⟨l0, l1, l2⟩, fun h => absurd h hn, ⟨v0, v1, v2, none, false, mat⟩, rfl, e0, e1, e2, rfl, rfl, fun _ => rfl,
        fun h => absurd h hn⟩
  have hat : ∀ i, i < indices.length → ∃ x, At indices i x ∧ x ∈ indices := by
    intro i hi
    exact ⟨indices[i], List.getElem?_eq_getElem hi, List.getElem_mem hi⟩
  rcases mapM_range f indices.length with ⟨ts, h, hl, hts⟩ | ⟨h, i, hi, hfi⟩
  · rw [h]
    constructor
    · simp only [reduceCtorEq, false_iff, not_not]
      constructor
      · intro x hx
        obtain ⟨i, hi, rfl⟩ := List.getElem_of_mem hx
        have hx' : At indices i indices[i] := List.getElem?_eq_getElem hi
        rcases hstep i _ hx' with ⟨hn, _⟩ | ⟨hb, _⟩
        · rw [hts i hi] at hn
          simp at hn; omega
        · exact hb
      · intro hn y hy
        obtain ⟨i, hi, rfl⟩ := List.getElem_of_mem hy
        simp only [List.length_take] at hi
        have hi' : i < indices.length := by omega
        obtain ⟨x, hx, _⟩ := hat i hi'
        rcases hstep i x hx with ⟨hn, _⟩ | ⟨_, hb, _⟩
        · rw [hts i hi'] at hn
          simp at hn; omega
        · apply hb hn
          unfold At
          rw [List.getElem_take]
          exact List.getElem?_eq_getElem (by omega)
    · intro ts' e
      cases e
      refine ⟨hl, ?_⟩
      intro i x s hx hs
      have hi : i < indices.length := (List.getElem?_eq_some_iff.1 hx).1
      rcases hstep i x hx with ⟨hn, _⟩ | ⟨_, _, s', hs', rest⟩
      · rw [hts i hi, hs] at hn; cases hn
      · rw [hts i hi, hs] at hs'
        cases hs'
        exact rest
  · rw [h]
    refine ⟨?_, by simp⟩
    simp only [true_iff]
    rintro ⟨h1, h2⟩
    obtain ⟨x, hx, hmem⟩ := hat i hi
    rcases hstep i x hx with ⟨_, hb | ⟨hn, y, hy, hb⟩⟩ | ⟨_, _, s, hs, _⟩
    · exact hb (h1 x hmem)
    · apply hb
      apply h2 hn
      unfold At at hy
      rw [List.mem_iff_getElem?]
      exact ⟨i, by rw [List.getElem?_take_of_lt hi]; exact hy⟩
    · rw [hfi] at hs; cases hs

/-- A mesh of two triangles over four vertices is in range; with vertex 4 it is not. -/
example : MeshOk (α := ℚ) [⟨0, 0, 0⟩, ⟨1, 0, 0⟩, ⟨0, 1, 0⟩, ⟨1, 1, 0⟩] [(0, 1, 2), (1, 3, 2)] (some [⟨0, 0, 1⟩]) (some [(0, 0, 0), (0, 0, 0)]) ∧
    HasNormals [(0, 1, 2), (1, 3, 2)] (some [(0, 0, 0), (0, 0, 0)]) ∧
    ¬ MeshOk (α := ℚ) [⟨0, 0, 0⟩, ⟨1, 0, 0⟩, ⟨0, 1, 0⟩, ⟨1, 1, 0⟩] [(0, 1, 2), (1, 4, 2)] none none := by
  refine ⟨?_, ?_, ?_⟩
  · constructor <;> simp [Below]
  · simp [HasNormals]
  · intro h; have := h.1 (1, 4, 2) (by simp); simp [Below] at this

end PT
