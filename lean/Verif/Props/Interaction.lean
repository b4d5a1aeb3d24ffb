import Verif.Model.Interaction
import Verif.Props.Util
import Verif.Lemmas.FlMono
import Verif.Lemmas.Vec

/-! # Spawned rays (C44, C45) -/

namespace PT
open Spec

/-- The displacement that the code adds to a surface point for a ray towards `v`: `n (|n|·err)`, turned to `v`'s side
(in the arithmetic of the type). -/
def Spec.displacement {α : Type} [Scalar α] (i : Interaction α) (v : V3 α) (a : Axis) : α :=
  let o := i.n.get a *. (Scalar.abs i.n.x *. i.pErr.x +. Scalar.abs i.n.y *. i.pErr.y +. Scalar.abs i.n.z *. i.pErr.z)
  if i.n.dot v <. lit 0 then o *. ⊖(lit 1) else o

theorem offset_get {α : Type} [Scalar α] [HasNext α] (i : Interaction α) (v : V3 α) (a : Axis) :
    (i.offsetRayOrigin v).get a = Interaction.nudge (displacement i v a) (i.p.get a +. displacement i v a) := by
  simp only [Interaction.offsetRayOrigin, displacement, V3.abs, V3.dot, V3.smul, V3.add]
  by_cases h : (lit 0 >. i.n.x *. v.x +. i.n.y *. v.y +. i.n.z *. v.z) = true
  · cases a <;> simp only [h, V3.get, if_true]
  · cases a <;> simp only [h, V3.get] <;> rfl

/-- Adding a positive float does not go down. -/
theorem add_ge {x o : F32} (hx : x.IsFin) (hw : x.WF) (ho : Fl.lt (lit 0) o = true) :
    x +. o ≠ .nan ∧ (x +. o).WF ∧ Fl.le x (x +. o) = true := by
  rw [Fl.lit_zero] at ho
  obtain ⟨s, a, rfl⟩ := Fl.IsFin_iff.mp hx
  rw [Fl.f_add]
  cases o with
  | nan => simp [Fl.lt] at ho
  | inf t => cases t <;> simp [Fl.lt, Fl.add, Fl.le, Fl.WF] at ho ⊢
  | fin t b =>
    have hb : 0 < Fl.sgn t b := by
      have := Fl.lt_fin.mp ho; simpa [Fl.sgn] using this
    simp only [Fl.add]
    refine ⟨Fl.ofVal_ne_nan _ _, Fl.ofVal_WF _ _, ?_⟩
    have h1 := Fl.ofVal_mono (φ := Binary32) (show Fl.sgn s a ≤ Fl.sgn s a + Fl.sgn t b by linarith) false (s && t)
    rw [Fl.le_iff] at h1 ⊢
    refine ⟨by simp, h1.2.1, ?_⟩
    have := (Fl.ofVal_val (x := (Fl.fin s a : F32)) trivial hw false).1
    rw [← this]; exact h1.2.2

theorem add_le' {x o : F32} (hx : x.IsFin) (hw : x.WF) (ho : Fl.lt o (lit 0) = true) :
    x +. o ≠ .nan ∧ (x +. o).WF ∧ Fl.le (x +. o) x = true := by
  rw [Fl.lit_zero] at ho
  obtain ⟨s, a, rfl⟩ := Fl.IsFin_iff.mp hx
  rw [Fl.f_add]
  cases o with
  | nan => simp [Fl.lt] at ho
  | inf t => cases t <;> simp [Fl.lt, Fl.add, Fl.le, Fl.WF] at ho ⊢
  | fin t b =>
    have hb : Fl.sgn t b < 0 := by
      have := Fl.lt_fin.mp ho; simpa [Fl.sgn] using this
    simp only [Fl.add]
    refine ⟨Fl.ofVal_ne_nan _ _, Fl.ofVal_WF _ _, ?_⟩
    have h1 := Fl.ofVal_mono (φ := Binary32) (show Fl.sgn s a + Fl.sgn t b ≤ Fl.sgn s a by linarith) (s && t) false
    rw [Fl.le_iff] at h1 ⊢
    refine ⟨h1.1, by simp, ?_⟩
    have := (Fl.ofVal_val (x := (Fl.fin s a : F32)) trivial hw false).1
    rw [← this]; exact h1.2.2

/-- C44 in single precision: every coordinate of the spawned ray's origin with a non-zero displacement is strictly on the
displacement's side of the surface point, however small the displacement is compared with the coordinate; coordinates
with zero displacement do not move. -/
theorem c44_strictly_off (i : Interaction F32) (v : V3 F32) (a : Axis) (hf : (i.p.get a).IsFin) (hw : (i.p.get a).WF) :
    (Fl.lt (lit 0) (displacement i v a) = true → Fl.lt (i.p.get a) ((i.spawnRay v).origin.get a) = true) ∧
    (Fl.lt (displacement i v a) (lit 0) = true → Fl.lt ((i.spawnRay v).origin.get a) (i.p.get a) = true) ∧
    (Fl.eq (displacement i v a) (lit 0) = true → Fl.eq ((i.spawnRay v).origin.get a) (i.p.get a) = true) := by
  have hg : (i.spawnRay v).origin.get a = Interaction.nudge (displacement i v a) (i.p.get a +. displacement i v a) :=
    offset_get i v a
  rw [hg]
  generalize displacement i v a = o
  generalize i.p.get a = x at *
  refine ⟨?_, ?_, ?_⟩
  · intro ho
    obtain ⟨h1, h2, h3⟩ := add_ge hf hw ho
    have e : Interaction.nudge o (x +. o) = nextFloatUp (x +. o) := by
      simp only [Interaction.nudge, show (o >. lit 0) = true from ho, if_true]; rfl
    rw [e]
    by_cases hi : x +. o = .inf false
    · rw [hi, c70_fixed.1]
      obtain ⟨s, m, rfl⟩ := Fl.IsFin_iff.mp hf
      simp [Fl.lt]
    · obtain ⟨_, h5, _⟩ := c70_next_up (x +. o) h2 h1 hi
      rw [Fl.lt_iff] at h5 ⊢; rw [Fl.le_iff] at h3
      exact ⟨h3.1, h5.2.1, lt_of_le_of_lt h3.2.2 h5.2.2⟩
  · intro ho
    obtain ⟨h1, h2, h3⟩ := add_le' hf hw ho
    have e : Interaction.nudge o (x +. o) = nextFloatDown (x +. o) := by
      have : (o >. lit 0) = false := by
        rw [Bool.eq_false_iff]; intro hc
        have hc' : Fl.lt (lit 0) o = true := hc
        rw [Fl.lt_iff] at ho hc'; exact lt_asymm ho.2.2 hc'.2.2
      simp only [Interaction.nudge, this, show (o <. lit 0) = true from ho, if_true]; rfl
    rw [e]
    by_cases hi : x +. o = .inf true
    · rw [hi, c70_fixed.2]
      obtain ⟨s, m, rfl⟩ := Fl.IsFin_iff.mp hf
      simp [Fl.lt]
    · obtain ⟨_, h5, _⟩ := c70_next_down (x +. o) h2 h1 hi
      rw [Fl.lt_iff] at h5 ⊢; rw [Fl.le_iff] at h3
      exact ⟨h5.1, h3.2.1, lt_of_lt_of_le h5.2.2 h3.2.2⟩
  · intro ho
    have ho' := Fl.eq_iff.mp ho
    have e : Interaction.nudge o (x +. o) = x +. o := by
      have e1 : (o >. lit 0) = false := by
        rw [Bool.eq_false_iff]; intro hc
        have hc' : Fl.lt (lit 0) o = true := hc
        rw [Fl.lt_iff] at hc'; rw [ho'.2.2] at hc'; exact lt_irrefl _ hc'.2.2
      have e2 : (o <. lit 0) = false := by
        rw [Bool.eq_false_iff]; intro hc
        have hc' : Fl.lt o (lit 0) = true := hc
        rw [Fl.lt_iff] at hc'; rw [ho'.2.2] at hc'; exact lt_irrefl _ hc'.2.2
      simp only [Interaction.nudge, e1, e2]; rfl
    rw [e]
    rw [Fl.lit_zero] at ho
    obtain ⟨s, m, rfl⟩ := Fl.IsFin_iff.mp hf
    cases o with
    | nan => simp [Fl.eq] at ho
    | inf t => simp [Fl.eq] at ho
    | fin t b =>
      have hb : Fl.sgn t b = 0 := by simpa [Fl.eq, Fl.sgn] using ho
      have h1 := Fl.ofVal_val (x := (Fl.fin s m : F32)) trivial hw (s && t)
      rw [Fl.eq_iff, Fl.f_add]
      simp only [Fl.add, hb, add_zero]
      exact ⟨Fl.ofVal_ne_nan _ _, by simp, h1.1⟩

/-- The error bound is far below the coordinate's resolution: the sum is rounded back to the coordinate, and only the last
step moves it. -/
example : let i : Interaction F32 := ⟨⟨lit 1, lit 0, lit 0⟩, ⟨lit (1 / 2 ^ 100), lit 0, lit 0⟩, ⟨lit 0, lit 0⟩, ⟨lit 1, lit 0, lit 0⟩,
      V3.zero, V3.zero, V3.zero, V3.zero⟩
    (i.p.get .X).IsFin ∧ Fl.lt (lit 0) (displacement i ⟨lit 1, lit 1, lit 0⟩ .X) = true ∧
    i.p.x +. displacement i ⟨lit 1, lit 1, lit 0⟩ .X = i.p.x := by
  refine ⟨?_, by decide +kernel, by decide +kernel⟩
  show (lit 1 : F32).IsFin
  rw [show (lit 1 : F32) = .fin false 1 by decide +kernel]; trivial

/-- The number type's neighbour operations do not go the wrong way. -/
def Spec.OutwardNext (N : HasNext ℝ) : Prop := ∀ x, x ≤ N.up x ∧ N.down x ≤ x

/-- C44, exact arithmetic: the true surface point is anywhere in the error box around the computed one; the ray's origin
is on the ray's side of the tangent plane through it.  (Unit normal, non-negative error bounds; the neighbour operations
of `next_float_*` may be any that go outward.) -/
theorem c44_clears_error_box [HasInf ℝ] (N : HasNext ℝ) (hN : OutwardNext N) (i : Interaction ℝ) (v : V3 ℝ) (hn : sq i.n = 1)
    (q : V3 ℝ) (hx : |q.x - i.p.x| ≤ i.pErr.x) (hy : |q.y - i.p.y| ≤ i.pErr.y) (hz : |q.z - i.p.z| ≤ i.pErr.z) :
    (0 ≤ inner i.n v → 0 ≤ inner i.n ((i.spawnRay v).origin.sub q)) ∧
    (inner i.n v < 0 → inner i.n ((i.spawnRay v).origin.sub q) ≤ 0) := by
  have hd : inner i.n v = i.n.dot v := (dot_eq _ _).symm
  have hgx := offset_get i v .X
  have hgy := offset_get i v .Y
  have hgz := offset_get i v .Z
  have hs : (i.spawnRay v).origin = i.offsetRayOrigin v := rfl
  rw [hs]
  generalize i.offsetRayOrigin v = o at *
  simp only [V3.get, displacement, Interaction.nudge] at hgx hgy hgz
  real_ops at hgx; real_ops at hgy; real_ops at hgz
  rw [← hd] at hgx hgy hgz
  set D := |i.n.x| * i.pErr.x + |i.n.y| * i.pErr.y + |i.n.z| * i.pErr.z with hD
  have e1 : 0 ≤ i.pErr.x := le_trans (abs_nonneg _) hx
  have e2 : 0 ≤ i.pErr.y := le_trans (abs_nonneg _) hy
  have e3 : 0 ≤ i.pErr.z := le_trans (abs_nonneg _) hz
  have hD0 : 0 ≤ D := by positivity
  have key : ∀ (n c r o σ : ℝ), (σ = 1 ∨ σ = -1) → o = n * D * σ →
      (r = if 0 < o then HasNext.up (c + o) else if o < 0 then HasNext.down (c + o) else c + o) →
      n * (n * D) ≤ σ * (n * (r - c)) := by
    intro n c r o σ hσ ho hr
    have hσ2 : σ * σ = 1 := by rcases hσ with h | h <;> rw [h] <;> norm_num
    have hsum : 0 ≤ (σ * n) * (r - c - o) := by
      rcases lt_trichotomy 0 o with h | h | h
      · rw [if_pos h] at hr
        have h1 : c + o ≤ r := by rw [hr]; exact (hN _).1
        have h2 : 0 ≤ σ * n := by
          by_contra hc
          have : o = (σ * n) * D := by rw [ho]; ring
          have := mul_nonpos_of_nonpos_of_nonneg (not_le.mp hc).le hD0
          linarith
        exact mul_nonneg h2 (by linarith)
      · rw [← h] at hr ⊢
        simp at hr
        rw [hr]; simp
      · rw [if_neg (by linarith), if_pos h] at hr
        have h1 : r ≤ c + o := by rw [hr]; exact (hN _).2
        have h2 : σ * n ≤ 0 := by
          by_contra hc
          have : o = (σ * n) * D := by rw [ho]; ring
          have := mul_nonneg (not_le.mp hc).le hD0
          linarith
        exact mul_nonneg_of_nonpos_of_nonpos h2 (by linarith)
    have : σ * (n * (r - c)) = (σ * n) * (r - c - o) + (σ * σ) * (n * (n * D)) := by rw [ho]; ring
    rw [this, hσ2]; linarith
  have box : |inner i.n (q.sub i.p)| ≤ D := by
    simp only [inner, V3.sub]; real_ops
    calc |i.n.x * (q.x - i.p.x) + i.n.y * (q.y - i.p.y) + i.n.z * (q.z - i.p.z)|
        ≤ |i.n.x * (q.x - i.p.x)| + |i.n.y * (q.y - i.p.y)| + |i.n.z * (q.z - i.p.z)| := abs_add_three _ _ _
      _ ≤ D := by
        rw [abs_mul, abs_mul, abs_mul, hD]
        have := mul_le_mul_of_nonneg_left hx (abs_nonneg i.n.x)
        have := mul_le_mul_of_nonneg_left hy (abs_nonneg i.n.y)
        have := mul_le_mul_of_nonneg_left hz (abs_nonneg i.n.z)
        linarith
  have hsq : i.n.x * (i.n.x * D) + i.n.y * (i.n.y * D) + i.n.z * (i.n.z * D) = D := by
    simp only [Spec.sq] at hn; linear_combination D * hn
  simp only [inner, V3.sub] at box ⊢
  real_ops at box; real_ops
  have box' := abs_le.mp box
  constructor
  · intro hv
    have hv' : ¬ inner i.n v < 0 := not_lt.mpr hv
    simp only [hv', if_false] at hgx hgy hgz
    have k1 := key i.n.x i.p.x o.x _ 1 (Or.inl rfl) (by ring) hgx
    have k2 := key i.n.y i.p.y o.y _ 1 (Or.inl rfl) (by ring) hgy
    have k3 := key i.n.z i.p.z o.z _ 1 (Or.inl rfl) (by ring) hgz
    linarith [box'.1, box'.2]
  · intro hv
    have hv' : inner i.n v < 0 := hv
    simp only [hv', if_true] at hgx hgy hgz
    have k1 := key i.n.x i.p.x o.x _ (-1) (Or.inr rfl) (by ring) hgx
    have k2 := key i.n.y i.p.y o.y _ (-1) (Or.inr rfl) (by ring) hgy
    have k3 := key i.n.z i.p.z o.z _ (-1) (Or.inr rfl) (by ring) hgz
    linarith [box'.1, box'.2]

example : sq (⟨3 / 5, 0, 4 / 5⟩ : V3 ℝ) = 1 ∧ OutwardNext ⟨fun x => x + 1, fun x => x - 1⟩ := by
  refine ⟨by norm_num [Spec.sq], fun x => ⟨?_, ?_⟩⟩
  · show x ≤ x + 1; linarith
  · show x - 1 ≤ x; linarith

/-- C45: the ray from one surface point to another starts where a ray spawned towards it starts, is at the other point's
(offset) position at parameter 1, and its range ends at 0.9999, strictly before it; the points in the range are exactly
the points of the segment up to 99.99 % of the way. -/
theorem c45_shadow_ray [HasInf ℝ] (N : HasNext ℝ) (i j : Interaction ℝ) :
    (i.spawnRayTo j).origin = (i.spawnRay (j.p.sub i.p)).origin ∧
    (i.spawnRayTo j).position 1 = (j.spawnRay (i.p.sub j.p)).origin ∧
    (i.spawnRayTo j).tMax = 9999 / 10000 ∧
    ∀ t, (i.spawnRayTo j).position t =
      comb (1 - t) (i.spawnRay (j.p.sub i.p)).origin t (j.spawnRay (i.p.sub j.p)).origin := by
  have hneg : (j.p.sub i.p).neg = i.p.sub j.p := by
    ext <;> simp only [V3.sub, V3.neg] <;> real_ops <;> ring
  refine ⟨rfl, ?_, ?_, ?_⟩
  · simp only [Interaction.spawnRayTo, Interaction.spawnRay, Ray.position, hneg]
    ext <;> simp only [V3.add, V3.sub, V3.smul] <;> real_ops <;> ring
  · simp only [Interaction.spawnRayTo]; real_ops; norm_num
  · intro t
    simp only [Interaction.spawnRayTo, Interaction.spawnRay, Ray.position, hneg]
    ext <;> simp only [V3.add, V3.sub, V3.smul, comb] <;> real_ops <;> ring

/-- C45 in single precision: the range of a shadow ray is strictly below one. -/
theorem c45_range_f32 (i j : Interaction F32) : Fl.lt (i.spawnRayTo j).tMax (lit 1) = true ∧
    Fl.le (lit (9998 / 10000)) (i.spawnRayTo j).tMax = true := by
  constructor
  · show Fl.lt (lit 1 -. lit (1 / 10000)) (lit 1) = true
    decide +kernel
  · show Fl.le (lit (9998 / 10000)) (lit 1 -. lit (1 / 10000)) = true
    decide +kernel

end PT
