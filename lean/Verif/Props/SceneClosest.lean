import Verif.Props.ShapeContract

/-!
# Spheres and triangles in the containers: the closest-hit theorems (C27, C29) for the shapes of pt.rs

The container theorems assume a contract of the shapes (`LawfulAlong`, `HitsInBox`).  Here the contract is discharged for spheres
and triangles, so that the conclusion is about the geometry of the scene alone.
-/

namespace PT
open Fl Spec

namespace Spec
/-- The square root of the math library is exact on finite values. -/
def ExactSqrt [Libm XR] : Prop := ∀ (x : XR) (r : ℝ), Rel x r → 0 ≤ r → Rel (Libm.sqrt x) (Real.sqrt r)
/-- A sphere with finite centre and finite positive radius. -/
def FiniteSphere (s : Sphere XR) : Prop := Finite3 s.center ∧ s.radius.IsFin ∧ s.radius.WF ∧ 0 < s.radius.val
end Spec

section
variable [Libm XR]

theorem convert_exact (x : XR) : (convert x : XR) = x := by cases x <;> rfl

/-- The quadratic solver on finite values. -/
theorem quadratic_rel (hs : ExactSqrt) {a b c : XR} {a' b' c' : ℝ} (ha : Rel a a') (hb : Rel b b') (hc : Rel c c') (h0 : a' ≠ 0)
    {t0 t1 : XR} (h : quadratic a b c = some (t0, t1)) :
    (∃ t0' t1', quadratic a' b' c' = some (t0', t1') ∧ Rel t0 t0' ∧ Rel t1 t1' ∧ ¬ (b' = 0 ∧ c' = 0)) ∨
    (Rel t0 0 ∧ t1 = nan ∧ b' = 0 ∧ c' = 0) := by
  have z := Rel.lit 0
  have hD := (hb.mul hb).sub (((Rel.lit 4).mul ha).mul hc)
  unfold quadratic at h ⊢
  simp only [] at h ⊢
  rw [hD.lt z] at h
  by_cases hd : (b' *. b' -. PT.lit 4 *. a' *. c' <. PT.lit 0) = true
  · rw [if_pos hd] at h; cases h
  rw [if_neg hd] at h
  have hd' : 0 ≤ b' * b' - 4 * a' * c' := by real_ops at hd; exact not_lt.1 hd
  have hR : Rel (Libm.sqrt (b *. b -. PT.lit 4 *. a *. c)) (Libm.sqrt (b' *. b' -. PT.lit 4 *. a' *. c')) := by
    have := hs _ _ hD (by real_ops; exact hd')
    exact this
  have hq : Rel (if (b <. PT.lit 0) = true then (⊖(PT.lit (1 / 2))) *. (b -. Libm.sqrt (b *. b -. PT.lit 4 *. a *. c))
      else (⊖(PT.lit (1 / 2))) *. (b +. Libm.sqrt (b *. b -. PT.lit 4 *. a *. c)))
      (if (b' <. PT.lit 0) = true then (⊖(PT.lit (1 / 2))) *. (b' -. Libm.sqrt (b' *. b' -. PT.lit 4 *. a' *. c'))
      else (⊖(PT.lit (1 / 2))) *. (b' +. Libm.sqrt (b' *. b' -. PT.lit 4 *. a' *. c'))) := by
    rw [hb.lt z]
    split_ifs
    · exact (Rel.lit _).neg.mul (hb.sub hR)
    · exact (Rel.lit _).neg.mul (hb.add hR)
  generalize hqq : (if (b <. PT.lit 0) = true then (⊖(PT.lit (1 / 2))) *. (b -. Libm.sqrt (b *. b -. PT.lit 4 *. a *. c))
      else (⊖(PT.lit (1 / 2))) *. (b +. Libm.sqrt (b *. b -. PT.lit 4 *. a *. c))) = q at h hq
  generalize hqq' : (if (b' <. PT.lit 0) = true then (⊖(PT.lit (1 / 2))) *. (b' -. Libm.sqrt (b' *. b' -. PT.lit 4 *. a' *. c'))
      else (⊖(PT.lit (1 / 2))) *. (b' +. Libm.sqrt (b' *. b' -. PT.lit 4 *. a' *. c'))) = q' at hq
  have hq0 : q' = 0 ↔ b' = 0 ∧ c' = 0 := by
    rw [← hqq']
    real_ops
    have hs0 := Real.sqrt_nonneg (b' * b' - 4 * a' * c')
    constructor
    · intro e
      have hb0 : b' = 0 ∧ Real.sqrt (b' * b' - 4 * a' * c') = 0 := by
        split_ifs at e with hneg
        · have : b' - Real.sqrt (b' * b' - 4 * a' * c') = 0 := by simpa using e
          constructor <;> linarith
        · have : b' + Real.sqrt (b' * b' - 4 * a' * c') = 0 := by simpa using e
          constructor <;> linarith
      refine ⟨hb0.1, ?_⟩
      have := (Real.sqrt_eq_zero hd').1 hb0.2
      rw [hb0.1] at this
      have h4 : a' * c' = 0 := by linarith
      exact (mul_eq_zero.1 h4).resolve_left h0
    · rintro ⟨rfl, rfl⟩
      simp
  by_cases hq' : q' = 0
  · right
    obtain ⟨rfl, rfl⟩ := hq0.1 hq'
    subst hq'
    have e0 := hq.div ha h0
    have e1 : c /. q = nan := by
      obtain ⟨s, rfl⟩ := zero_of_val hc.fin hc.val
      obtain ⟨s', rfl⟩ := zero_of_val hq.fin hq.val
      simp [f_div, Fl.div]
    rw [e1, f_lt, lt_nan_left] at h
    simp only [Bool.false_eq_true, if_false, Option.some.injEq, Prod.mk.injEq] at h
    obtain ⟨rfl, rfl⟩ := h
    refine ⟨?_, rfl, rfl, rfl⟩
    have : (0 : ℝ) /. a' = 0 := by real_ops; simp
    rwa [this] at e0
  · left
    have e0 := hq.div ha h0
    have e1 := hc.div hq hq'
    rw [e1.lt e0] at h
    rw [if_neg hd]
    by_cases hsw : (c' /. q' <. q' /. a') = true
    · rw [if_pos hsw] at h ⊢
      simp only [Option.some.injEq, Prod.mk.injEq] at h
      obtain ⟨rfl, rfl⟩ := h
      exact ⟨_, _, rfl, e1, e0, fun hc => hq' (hq0.2 hc)⟩
    · rw [if_neg hsw] at h ⊢
      simp only [Option.some.injEq, Prod.mk.injEq] at h
      obtain ⟨rfl, rfl⟩ := h
      exact ⟨_, _, rfl, e0, e1, fun hc => hq' (hq0.2 hc)⟩

theorem quadratic_rel_none {a b c : XR} {a' b' c' : ℝ} (ha : Rel a a') (hb : Rel b b') (hc : Rel c c') (h : quadratic a b c = none) :
    quadratic a' b' c' = none := by
  have hD := ((hb.mul hb).sub (((Rel.lit 4).mul ha).mul hc)).lt (Rel.lit 0)
  unfold quadratic at h ⊢
  simp only [] at h ⊢
  rw [hD] at h
  by_cases hd : (b' *. b' -. PT.lit 4 *. a' *. c' <. PT.lit 0) = true
  · rw [if_pos hd]
  · rw [if_neg hd] at h
    split_ifs at h

/-- What a sphere reports in arithmetic without rounding (C36, with every range): a positive parameter below `t_max` at which the ray
is on the sphere. -/
theorem c36_sphere_hit_extended (hs : ExactSqrt) (s : Sphere XR) (hf : FiniteSphere s) (ray : Ray XR) (ho : Finite3 ray.origin)
    (hd : Finite3 ray.direction) (hn : NonZero ray.direction) (i : Interaction XR) (t : XR) (h : Reports s.toShape ray i t) :
    t.IsFin ∧ 0 < t.val ∧ lt t ray.tMax = true ∧
      OnSphere (numbers s.center) s.radius.val (pointAt ⟨numbers ray.origin, numbers ray.direction, t.val⟩ t.val) := by
  obtain ⟨fc, fr, wr, pr⟩ := hf
  have hsome : s.hasIntersection ⟨s.worldToLocal ray.origin, ray.direction, ray.tMax⟩ = some t := by
    have h' : (s.hasIntersection ⟨s.worldToLocal ray.origin, ray.direction, ray.tMax⟩).map
        (fun t => s.computeInteraction ⟨s.worldToLocal ray.origin, ray.direction, ray.tMax⟩ t) = some (i, t) := by
      have := h; unfold Reports at this; exact Option.some.inj this
    obtain ⟨u, hu, hu'⟩ := Option.map_eq_some_iff.1 h'
    have : u = t := congrArg Prod.snd hu'
    rw [hu, this]
  have hp : Rel3 (s.worldToLocal ray.origin) (V3.add (numbers ray.origin) (numbers s.center).neg) := ho.rel.add fc.rel.neg
  have hD := hd.rel
  have hr : Rel s.radius s.radius.val := .of_fin fr wr
  have ha := ((hD.x.mul hD.x).add (hD.y.mul hD.y)).add (hD.z.mul hD.z)
  have hb := (Rel.lit 2).mul (((hD.x.mul hp.x).add (hD.y.mul hp.y)).add (hD.z.mul hp.z))
  have hc := (((hp.x.mul hp.x).add (hp.y.mul hp.y)).add (hp.z.mul hp.z)).sub (hr.mul hr)
  have hnz : numbers ray.direction ≠ V3.zero := numbers_ne_zero hn
  have hpos := sq_pos hnz
  unfold Sphere.hasIntersection at hsome
  simp only [Widen.up, Widen.down, convert_exact] at hsome
  generalize hq : quadratic (ray.direction.x *. ray.direction.x +. ray.direction.y *. ray.direction.y +. ray.direction.z *. ray.direction.z)
    (PT.lit 2 *. (ray.direction.x *. (s.worldToLocal ray.origin).x +. ray.direction.y *. (s.worldToLocal ray.origin).y +.
      ray.direction.z *. (s.worldToLocal ray.origin).z))
    ((s.worldToLocal ray.origin).x *. (s.worldToLocal ray.origin).x +. (s.worldToLocal ray.origin).y *. (s.worldToLocal ray.origin).y +.
      (s.worldToLocal ray.origin).z *. (s.worldToLocal ray.origin).z -. s.radius *. s.radius) = q at hsome
  cases q with
  | none => cases hsome
  | some q =>
    obtain ⟨t0, t1⟩ := q
    simp only [f_lt, Bool.and_eq_true] at hsome
    have ha0 : (numbers ray.direction).x *. (numbers ray.direction).x +. (numbers ray.direction).y *. (numbers ray.direction).y +.
        (numbers ray.direction).z *. (numbers ray.direction).z ≠ 0 := by
      have e : Spec.sq (numbers ray.direction) ≠ 0 := hpos.ne'
      intro hc; apply e; rw [← hc]; unfold Spec.sq; real_ops; ring
    have hm : (t = t0 ∨ t = t1) ∧ lt (PT.lit 0) t = true ∧ lt t ray.tMax = true := by
      by_cases c0 : lt (PT.lit 0) t0 = true ∧ lt t0 ray.tMax = true
      · rw [if_pos c0] at hsome; cases hsome; exact ⟨Or.inl rfl, c0⟩
      · rw [if_neg c0] at hsome
        by_cases c1 : lt (PT.lit 0) t1 = true ∧ lt t1 ray.tMax = true
        · rw [if_pos c1] at hsome; cases hsome; exact ⟨Or.inr rfl, c1⟩
        · rw [if_neg c1] at hsome; cases hsome
    rcases quadratic_rel hs ha hb hc ha0 hq with ⟨t0', t1', hq', r0, r1, hnd⟩ | ⟨r0, rfl, -⟩
    · have hroot := (c72_quadratic _ _ _ ha0 hnd).2 t0' t1' hq'
      have ht : ∃ r, Rel t r ∧ (r = t0' ∨ r = t1') := by
        rcases hm.1 with rfl | rfl
        · exact ⟨_, r0, Or.inl rfl⟩
        · exact ⟨_, r1, Or.inr rfl⟩
      obtain ⟨r, hr', hor⟩ := ht
      refine ⟨hr'.fin, ?_, hm.2.2, ?_⟩
      · have := (lt_val (Rel.lit 0).fin hr'.fin).1 hm.2.1
        rwa [(Rel.lit 0).val, show (PT.lit 0 : ℝ) = 0 by real_ops] at this
      · rw [hr'.val]
        have hz := hroot.2 r
        have hz' : (r - t0') * (r - t1') = 0 := by
          rcases hor with rfl | rfl <;> simp
        unfold OnSphere pointAt
        simp only [V3.add, V3.neg] at hz
        real_ops at hz
        have hfin : ∀ A B C : ℝ, A * r ^ 2 + B * r + C = A * (r - t0') * (r - t1') → A * r ^ 2 + B * r + C = 0 := by
          intro A B C e; rw [e, mul_assoc, hz', mul_zero]
        have := hfin _ _ _ hz
        simp only [numbers] at this ⊢
        linear_combination this
    · exfalso
      rcases hm.1 with rfl | rfl
      · have := (lt_val (Rel.lit 0).fin r0.fin).1 hm.2.1
        rw [(Rel.lit 0).val, r0.val, show (PT.lit 0 : ℝ) = 0 by real_ops] at this
        exact lt_irrefl _ this
      · rw [lt_nan_right] at hm; exact absurd hm.2.1 (by simp)

/-- C37 with every range: if the ray is on the sphere at a positive parameter below `t_max`, the sphere reports a hit at this or a
smaller parameter. -/
theorem c37_sphere_complete_extended (hs : ExactSqrt) (s : Sphere XR) (hf : FiniteSphere s) (ray : Ray XR) (ho : Finite3 ray.origin)
    (hd : Finite3 ray.direction) (hn : NonZero ray.direction) (x : ℝ) (hx : 0 < x) (htm : lt (fin false x) ray.tMax = true)
    (hon : OnSphere (numbers s.center) s.radius.val (pointAt ⟨numbers ray.origin, numbers ray.direction, x⟩ x)) :
    ∃ i t, Reports s.toShape ray i t ∧ t.val ≤ x := by
  obtain ⟨fc, fr, wr, pr⟩ := hf
  suffices hsome : ∃ t, s.hasIntersection ⟨s.worldToLocal ray.origin, ray.direction, ray.tMax⟩ = some t ∧ t.val ≤ x by
    obtain ⟨t, h, hle⟩ := hsome
    refine ⟨(s.computeInteraction ⟨s.worldToLocal ray.origin, ray.direction, ray.tMax⟩ t).1, t, ?_, hle⟩
    unfold Reports
    change some ((s.hasIntersection ⟨s.worldToLocal ray.origin, ray.direction, ray.tMax⟩).map
      (fun t => s.computeInteraction ⟨s.worldToLocal ray.origin, ray.direction, ray.tMax⟩ t)) = _
    rw [h]
    rfl
  have hp : Rel3 (s.worldToLocal ray.origin) (V3.add (numbers ray.origin) (numbers s.center).neg) := ho.rel.add fc.rel.neg
  have hD := hd.rel
  have hr : Rel s.radius s.radius.val := .of_fin fr wr
  have ha := ((hD.x.mul hD.x).add (hD.y.mul hD.y)).add (hD.z.mul hD.z)
  have hb := (Rel.lit 2).mul (((hD.x.mul hp.x).add (hD.y.mul hp.y)).add (hD.z.mul hp.z))
  have hc := (((hp.x.mul hp.x).add (hp.y.mul hp.y)).add (hp.z.mul hp.z)).sub (hr.mul hr)
  have hnz : numbers ray.direction ≠ V3.zero := numbers_ne_zero hn
  have hpos := sq_pos hnz
  unfold Sphere.hasIntersection
  simp only [Widen.up, Widen.down, convert_exact]
  have ha0 : (numbers ray.direction).x *. (numbers ray.direction).x +. (numbers ray.direction).y *. (numbers ray.direction).y +.
      (numbers ray.direction).z *. (numbers ray.direction).z ≠ 0 := by
    have e : Spec.sq (numbers ray.direction) ≠ 0 := hpos.ne'
    intro hc; apply e; rw [← hc]; unfold Spec.sq; real_ops; ring
  -- the parameter is a root
  obtain ⟨A, hA⟩ : ∃ A, A = (numbers ray.direction).x *. (numbers ray.direction).x +. (numbers ray.direction).y *. (numbers ray.direction).y +.
      (numbers ray.direction).z *. (numbers ray.direction).z := ⟨_, rfl⟩
  obtain ⟨B, hB⟩ : ∃ B, B = PT.lit 2 *. ((numbers ray.direction).x *. (V3.add (numbers ray.origin) (numbers s.center).neg).x +.
      (numbers ray.direction).y *. (V3.add (numbers ray.origin) (numbers s.center).neg).y +.
      (numbers ray.direction).z *. (V3.add (numbers ray.origin) (numbers s.center).neg).z) := ⟨_, rfl⟩
  obtain ⟨C, hC⟩ : ∃ C, C = (V3.add (numbers ray.origin) (numbers s.center).neg).x *. (V3.add (numbers ray.origin) (numbers s.center).neg).x +.
      (V3.add (numbers ray.origin) (numbers s.center).neg).y *. (V3.add (numbers ray.origin) (numbers s.center).neg).y +.
      (V3.add (numbers ray.origin) (numbers s.center).neg).z *. (V3.add (numbers ray.origin) (numbers s.center).neg).z -.
      s.radius.val *. s.radius.val := ⟨_, rfl⟩
  have hroot : A * x ^ 2 + B * x + C = 0 := by
    rw [hA, hB, hC]
    unfold OnSphere pointAt at hon
    simp only [V3.add, V3.neg]
    real_ops
    simp only [numbers] at hon ⊢
    linear_combination hon
  rw [← hA] at ha ha0
  rw [← hB] at hb
  rw [← hC] at hc
  have hnd : ¬ (B = 0 ∧ C = 0) := by
    rintro ⟨rfl, rfl⟩
    have : A * x ^ 2 = 0 := by linarith
    rcases mul_eq_zero.1 this with h | h
    · exact ha0 h
    · exact hx.ne' (by simpa using h)
  cases hq : quadratic (ray.direction.x *. ray.direction.x +. ray.direction.y *. ray.direction.y +. ray.direction.z *. ray.direction.z)
    (PT.lit 2 *. (ray.direction.x *. (s.worldToLocal ray.origin).x +. ray.direction.y *. (s.worldToLocal ray.origin).y +.
      ray.direction.z *. (s.worldToLocal ray.origin).z))
    ((s.worldToLocal ray.origin).x *. (s.worldToLocal ray.origin).x +. (s.worldToLocal ray.origin).y *. (s.worldToLocal ray.origin).y +.
      (s.worldToLocal ray.origin).z *. (s.worldToLocal ray.origin).z -. s.radius *. s.radius) with
  | none =>
    exact absurd ⟨x, hroot⟩ ((c72_quadratic A B C ha0 hnd).1.1 (quadratic_rel_none ha hb hc hq))
  | some q =>
    obtain ⟨t0, t1⟩ := q
    simp only [f_lt, Bool.and_eq_true]
    rcases quadratic_rel hs ha hb hc ha0 hq with ⟨t0', t1', hq', r0, r1, -⟩ | ⟨-, -, hdeg⟩
    · obtain ⟨hle, hf⟩ := (c72_quadratic A B C ha0 hnd).2 t0' t1' hq'
      have hx' : x = t0' ∨ x = t1' := by
        have := hf x
        rw [hroot] at this
        rcases mul_eq_zero.1 this.symm with h | h
        · rcases mul_eq_zero.1 h with h | h
          · exact absurd h ha0
          · left; linarith
        · right; linarith
      have hlt : ∀ (t : XR) (r : ℝ), Fl.Rel t r → r = x → lt (PT.lit 0) t = true ∧ lt t ray.tMax = true := by
        rintro t r hr rfl
        constructor
        · rw [lt_val (Rel.lit 0).fin hr.fin, (Rel.lit 0).val, hr.val, show (PT.lit 0 : ℝ) = 0 by real_ops]; exact hx
        · rw [lt_iff, ← ev_fin_val hr.fin, hr.val]
          rw [lt_iff] at htm
          exact ⟨hr.fin.ne_nan, htm.2⟩
      by_cases c0 : lt (PT.lit 0) t0 = true ∧ lt t0 ray.tMax = true
      · rw [if_pos c0]
        refine ⟨t0, rfl, ?_⟩
        rw [r0.val]
        rcases hx' with rfl | rfl
        · exact le_rfl
        · exact hle
      · rw [if_neg c0]
        rcases hx' with rfl | rfl
        · exact absurd (hlt t0 x r0 rfl) c0
        · rw [if_pos (hlt t1 x r1 rfl)]
          exact ⟨t1, rfl, by rw [r1.val]⟩
    · exact absurd hdeg hnd

omit [Libm XR] in
/-- The box of a sphere. -/
theorem sphere_box (s : Sphere XR) (hf : FiniteSphere s) (a : Axis) :
    Rel (s.bbox.min.get a) ((numbers s.center).get a - s.radius.val) ∧ Rel (s.bbox.max.get a) ((numbers s.center).get a + s.radius.val) := by
  obtain ⟨fc, fr, wr, pr⟩ := hf
  have hr : Rel s.radius s.radius.val := .of_fin fr wr
  have hc := fc.rel
  have h1 : ∀ x : ℝ, Scalar.fmin (x -. s.radius.val) (x +. s.radius.val) = x - s.radius.val := by
    intro x; real_ops; exact min_eq_left (by linarith)
  have h2 : ∀ x : ℝ, Scalar.fmax (x +. s.radius.val) (x -. s.radius.val) = x + s.radius.val := by
    intro x; real_ops; exact max_eq_left (by linarith)
  have k : ∀ (x : XR) (x' : ℝ), Rel x x' → Rel (Scalar.fmin (x -. s.radius) (x +. s.radius)) (x' - s.radius.val) ∧
      Rel (Scalar.fmax (x +. s.radius) (x -. s.radius)) (x' + s.radius.val) := by
    intro x x' hx
    have a := (hx.sub hr).min (hx.add hr)
    have b := (hx.add hr).max (hx.sub hr)
    rw [h1] at a; rw [h2] at b
    exact ⟨a, b⟩
  cases a
  · exact k _ _ hc.x
  · exact k _ _ hc.y
  · exact k _ _ hc.z

omit [Libm XR] in
/-- The box of a triangle. -/
theorem triangle_box (s : Triangle XR) (hf : FiniteTriangle s) (a : Axis) :
    Rel (s.bbox.min.get a) (min (min ((numbers s.v0).get a) ((numbers s.v1).get a)) ((numbers s.v2).get a)) ∧
    Rel (s.bbox.max.get a) (max (max ((numbers s.v1).get a) ((numbers s.v0).get a)) ((numbers s.v2).get a)) := by
  obtain ⟨f0, f1, f2⟩ := hf
  have r0 := f0.rel
  have r1 := f1.rel
  have r2 := f2.rel
  cases a
  · exact ⟨(r0.x.min r1.x).min r2.x, (r1.x.max r0.x).max r2.x⟩
  · exact ⟨(r0.y.min r1.y).min r2.y, (r1.y.max r0.y).max r2.y⟩
  · exact ⟨(r0.z.min r1.z).min r2.z, (r1.z.max r0.z).max r2.z⟩

theorem sphere_in_box (hs : ExactSqrt) (s : Sphere XR) (hf : FiniteSphere s) (o d : V3 XR) (ho : Finite3 o) (hd : Finite3 d)
    (hn : NonZero d) : HitsInBox s.toShape o d := by
  intro tm i t h
  obtain ⟨h1, h2, h3, h4⟩ := c36_sphere_hit_extended hs s hf ⟨o, d, tm⟩ ho hd hn i t h
  refine ⟨h1, h2, ?_⟩
  intro a
  obtain ⟨b1, b2⟩ := sphere_box s hf a
  change (s.bbox.min.get a).val ≤ _ ∧ _ ≤ (s.bbox.max.get a).val
  rw [b1.val, b2.val]
  have hr := hf.2.2.2
  unfold OnSphere pointAt at h4
  simp only [numbers] at h4
  have key : ∀ x y z : ℝ, x ^ 2 + y ^ 2 + z ^ 2 = s.radius.val ^ 2 → (-s.radius.val ≤ x ∧ x ≤ s.radius.val) := by
    intro x y z e
    exact abs_le_of_sq_le_sq' (by nlinarith [sq_nonneg y, sq_nonneg z]) hr.le
  cases a
  · obtain ⟨p, q⟩ := key _ _ _ h4
    simp only [V3.get, numbers]
    constructor <;> linarith
  · obtain ⟨p, q⟩ := key _ _ _ (show _ + _ + _ = _ by rw [← h4]; ring :
      (o.y.val + t.val * d.y.val - s.center.y.val) ^ 2 + (o.x.val + t.val * d.x.val - s.center.x.val) ^ 2 +
        (o.z.val + t.val * d.z.val - s.center.z.val) ^ 2 = _)
    simp only [V3.get, numbers]
    constructor <;> linarith
  · obtain ⟨p, q⟩ := key _ _ _ (show _ + _ + _ = _ by rw [← h4]; ring :
      (o.z.val + t.val * d.z.val - s.center.z.val) ^ 2 + (o.x.val + t.val * d.x.val - s.center.x.val) ^ 2 +
        (o.y.val + t.val * d.y.val - s.center.y.val) ^ 2 = _)
    simp only [V3.get, numbers]
    constructor <;> linarith

theorem triangle_in_box (s : Triangle XR) (hf : FiniteTriangle s) (o d : V3 XR) (ho : Finite3 o) (hd : Finite3 d)
    (hn : NonZero d) : HitsInBox s.toShape o d := by
  intro tm i t h
  obtain ⟨h1, h2, h3, c0, c1, c2, hw, h4⟩ := c38_triangle_hit_extended s hf ⟨o, d, tm⟩ ho hd hn i t h
  refine ⟨h1, h2, ?_⟩
  intro a
  obtain ⟨b1, b2⟩ := triangle_box s hf a
  change (s.bbox.min.get a).val ≤ _ ∧ _ ≤ (s.bbox.max.get a).val
  rw [b1.val, b2.val]
  obtain ⟨w0, w1, w2, w3⟩ := hw
  have key : ∀ x y z : ℝ, min (min x y) z ≤ c0 * x + c1 * y + c2 * z ∧ c0 * x + c1 * y + c2 * z ≤ max (max y x) z := by
    intro x y z
    have l1 : min (min x y) z ≤ x := (min_le_left _ _).trans (min_le_left _ _)
    have l2 : min (min x y) z ≤ y := (min_le_left _ _).trans (min_le_right _ _)
    have l3 : min (min x y) z ≤ z := min_le_right _ _
    have u1 : x ≤ max (max y x) z := (le_max_right _ _).trans (le_max_left _ _)
    have u2 : y ≤ max (max y x) z := (le_max_left _ _).trans (le_max_left _ _)
    have u3 : z ≤ max (max y x) z := le_max_right _ _
    generalize min (min x y) z = m at *
    generalize max (max y x) z = M at *
    have e1 : m = c0 * m + c1 * m + c2 * m := by rw [← add_mul, ← add_mul, w3, one_mul]
    have e2 : M = c0 * M + c1 * M + c2 * M := by rw [← add_mul, ← add_mul, w3, one_mul]
    constructor
    · rw [e1]; gcongr
    · rw [e2]; gcongr
  have hx := congrArg V3.x h4
  have hy := congrArg V3.y h4
  have hz := congrArg V3.z h4
  simp only [pointAt, mix, numbers] at hx hy hz
  cases a <;> simp only [V3.get, numbers]
  · rw [hx]; exact key _ _ _
  · rw [hy]; exact key _ _ _
  · rw [hz]; exact key _ _ _

/-! ## Scenes of spheres and triangles -/

namespace Spec
/-- A shape of pt.rs. -/
inductive Prim where
  | sphere (s : Sphere XR)
  | triangle (s : Triangle XR)

/-- As an object of the container (at some address). -/
noncomputable def Prim.obj (p : Prim) (addr : Nat) : Obj XR :=
  match p with
  | .sphere s => ⟨addr, s.toShape⟩
  | .triangle s => ⟨addr, s.toShape⟩

/-- Finite coordinates, positive radius. -/
def Prim.Finite : Prim → Prop
  | .sphere s => FiniteSphere s
  | .triangle s => FiniteTriangle s

/-- The ray's point at `x` is on the surface. -/
def Prim.MeetsAt (p : Prim) (ray : Ray XR) (x : ℝ) : Prop :=
  match p with
  | .sphere s => OnSphere (numbers s.center) s.radius.val (pointAt ⟨numbers ray.origin, numbers ray.direction, x⟩ x)
  | .triangle s => ∃ b0 b1 b2, Weights b0 b1 b2 ∧
      pointAt ⟨numbers ray.origin, numbers ray.direction, x⟩ x = mix b0 b1 b2 (numbers s.v0) (numbers s.v1) (numbers s.v2)

/-- The exceptions of C39: the ray is parallel to the triangle, or the parameter is not above the documented error threshold. -/
def Prim.Excepted (p : Prim) (ray : Ray XR) (x : ℝ) : Prop :=
  match p with
  | .sphere _ => False
  | .triangle s => Spec.inner (planeNormal s.realized) (numbers ray.direction) = 0 ∨
      ∃ m, Dominant (numbers ray.direction) m ∧ x ≤ errorThreshold (rayCoord ⟨numbers ray.origin, numbers ray.direction, x⟩ m (numbers s.v0))
        (rayCoord ⟨numbers ray.origin, numbers ray.direction, x⟩ m (numbers s.v1))
        (rayCoord ⟨numbers ray.origin, numbers ray.direction, x⟩ m (numbers s.v2))

/-- The objects of a scene. -/
noncomputable def objects (ps : List (Prim × Nat)) : List (Obj XR) := ps.map fun p => p.1.obj p.2
end Spec

theorem prim_lawful (p : Prim) (hf : p.Finite) (addr : Nat) (o d : V3 XR) (ho : Finite3 o) (hd : Finite3 d) (hn : NonZero d) :
    LawfulAlong (p.obj addr).shape o d := by
  cases p with
  | sphere s => exact c41_sphere (fun _ => rfl) s o d
  | triangle s => exact c41_triangle_exact s hf o d ho hd hn

theorem prim_in_box (hs : ExactSqrt) (p : Prim) (hf : p.Finite) (addr : Nat) (o d : V3 XR) (ho : Finite3 o) (hd : Finite3 d) (hn : NonZero d) :
    HitsInBox (p.obj addr).shape o d := by
  cases p with
  | sphere s => exact sphere_in_box hs s hf o d ho hd hn
  | triangle s => exact triangle_in_box s hf o d ho hd hn

theorem prim_box (p : Prim) (hf : p.Finite) (addr : Nat) (a : Axis) :
    ((p.obj addr).shape.bbox.min.get a).IsFin ∧ ((p.obj addr).shape.bbox.max.get a).IsFin ∧
      Fl.le ((p.obj addr).shape.bbox.min.get a) ((p.obj addr).shape.bbox.max.get a) = true := by
  cases p with
  | sphere s =>
    obtain ⟨h1, h2⟩ := sphere_box s hf a
    refine ⟨h1.fin, h2.fin, ?_⟩
    change Fl.le (s.bbox.min.get a) (s.bbox.max.get a) = true
    rw [le_val h1.fin h2.fin, h1.val, h2.val]
    have := hf.2.2.2
    linarith
  | triangle s =>
    obtain ⟨h1, h2⟩ := triangle_box s hf a
    refine ⟨h1.fin, h2.fin, ?_⟩
    change Fl.le (s.bbox.min.get a) (s.bbox.max.get a) = true
    rw [le_val h1.fin h2.fin, h1.val, h2.val]
    exact (min_le_right _ _).trans (le_max_right _ _)

theorem prim_sound (hs : ExactSqrt) (p : Prim) (hf : p.Finite) (addr : Nat) (ray : Ray XR) (ho : Finite3 ray.origin)
    (hd : Finite3 ray.direction) (hn : NonZero ray.direction) (i : Interaction XR) (t : XR) (h : Reports (p.obj addr).shape ray i t) :
    0 < t.val ∧ p.MeetsAt ray t.val := by
  cases p with
  | sphere s =>
    obtain ⟨_, h2, _, h4⟩ := c36_sphere_hit_extended hs s hf ray ho hd hn i t h
    exact ⟨h2, h4⟩
  | triangle s =>
    obtain ⟨_, h2, _, h4⟩ := c38_triangle_hit_extended s hf ray ho hd hn i t h
    exact ⟨h2, h4⟩

theorem prim_complete (hs : ExactSqrt) (p : Prim) (hf : p.Finite) (addr : Nat) (ray : Ray XR) (ho : Finite3 ray.origin)
    (hd : Finite3 ray.direction) (hn : NonZero ray.direction) (x : ℝ) (hx : 0 < x) (htm : Fl.lt (fin false x) ray.tMax = true)
    (hm : p.MeetsAt ray x) (he : ¬ p.Excepted ray x) : ∃ i t, Reports (p.obj addr).shape ray i t ∧ t.val ≤ x := by
  cases p with
  | sphere s => exact c37_sphere_complete_extended hs s hf ray ho hd hn x hx htm hm
  | triangle s =>
    obtain ⟨b0, b1, b2, hw, hp⟩ := hm
    simp only [Prim.Excepted, not_or, not_exists, not_and, not_le] at he
    obtain ⟨i, t, hr, e⟩ := c39_triangle_complete_extended s hf ray ho hd hn b0 b1 b2 x hw hp he.1 he.2 (le_of_lt' htm)
    exact ⟨i, t, hr, e.le⟩

/-- C29 for scenes of spheres and triangles, in arithmetic without rounding.  Whatever the (finite) shapes, the maximal depth and the
ray with finite origin and non-zero direction and any range, unless the ray lies in a face plane of a shape's box (for which the claim is
false, `c29_refuted`): the k-d tree answers; if it answers with a hit, that hit is on the surface of a shape of the scene at a
parameter in front of the origin, and no shape is met by the ray at a smaller parameter; if it answers `None`, no shape is met by the ray within
the range.  (Both up to the exceptions of C39 for triangles.) -/
theorem c29_scene_partial (hs : ExactSqrt) (ps : List (Prim × Nat)) (hf : ∀ p ∈ ps, p.1.Finite) (maxDepth : Option Nat)
    (tree : KdTree XR) (hn : KdTree.new (objects ps) maxDepth = some tree) (ray : Ray XR) (ho : Finite3 ray.origin)
    (hd : Finite3 ray.direction) (hnz : NonZero ray.direction) (htm : ray.tMax ≠ nan) (hface : ¬ InFacePlane (objects ps) ray.origin ray.direction) :
    (∃ h p t, tree.intersect ray = some (some h) ∧ p ∈ ps ∧ h.obj = p.1.obj p.2 ∧ Reports h.obj.shape ray h.i t ∧
      0 < t.val ∧ p.1.MeetsAt ray t.val ∧
      ∀ q ∈ ps, ∀ x, 0 < x → Fl.lt (fin false x) ray.tMax = true → q.1.MeetsAt ray x → ¬ q.1.Excepted ray x → t.val ≤ x) ∨
    (tree.intersect ray = some none ∧
      ∀ q ∈ ps, ∀ x, 0 < x → Fl.lt (fin false x) ray.tMax = true → q.1.MeetsAt ray x → q.1.Excepted ray x) := by
  have hobj : ∀ s ∈ objects ps, ∃ p ∈ ps, s = p.1.obj p.2 := by
    intro s h
    simp only [objects, List.mem_map] at h
    obtain ⟨p, hp, rfl⟩ := h
    exact ⟨p, hp, rfl⟩
  have hmem : ∀ p ∈ ps, p.1.obj p.2 ∈ objects ps := by
    intro p hp
    simp only [objects, List.mem_map]
    exact ⟨p, hp, rfl⟩
  have hbox : FiniteBoxes (objects ps) := by
    intro s h a
    obtain ⟨p, hp, rfl⟩ := hobj s h
    exact prim_box p.1 (hf p hp) p.2 a
  have hl : ∀ s ∈ objects ps, LawfulAlong s.shape ray.origin ray.direction := by
    intro s h
    obtain ⟨p, hp, rfl⟩ := hobj s h
    exact prim_lawful p.1 (hf p hp) p.2 _ _ ho hd hnz
  have hin : ∀ s ∈ objects ps, HitsInBox s.shape ray.origin ray.direction := by
    intro s h
    obtain ⟨p, hp, rfl⟩ := hobj s h
    exact prim_in_box hs p.1 (hf p hp) p.2 _ _ ho hd hnz
  have hR : FinRay ray := fun a => ⟨(ho a).1, (hd a).1⟩
  obtain ⟨r, e, h1, h2⟩ := c29_kdtree_closest_partial (objects ps) hbox maxDepth tree hn ray hR htm hl hin hface
  cases r with
  | none =>
    right
    refine ⟨e, ?_⟩
    intro q hq x hx hlt hm
    by_contra he
    obtain ⟨i, t, hr, _⟩ := prim_complete hs q.1 (hf q hq) q.2 ray ho hd hnz x hx hlt hm he
    exact (h1.1 rfl) _ (hmem q hq) i t hr
  | some h =>
    left
    obtain ⟨hm, t, hr, hmin⟩ := h2 h rfl
    obtain ⟨p, hp, hpo⟩ := hobj h.obj hm
    have hr' : Reports (p.1.obj p.2).shape ray h.i t := by rw [← hpo]; exact hr
    obtain ⟨s1, s2⟩ := prim_sound hs p.1 (hf p hp) p.2 ray ho hd hnz h.i t hr'
    refine ⟨h, p, t, e, hp, hpo, hr, s1, s2, ?_⟩
    intro q hq x hx hlt hmq he
    obtain ⟨i, t', hr', hle⟩ := prim_complete hs q.1 (hf q hq) q.2 ray ho hd hnz x hx hlt hmq he
    have hmin' := hmin _ (hmem q hq) i t' hr'
    have f1 := (hin _ hm ray.tMax h.i t hr).1
    have f2 := (hin _ (hmem q hq) ray.tMax i t' hr').1
    exact ((le_val f1 f2).1 hmin').trans hle
end


/-! A concrete scene: a sphere and a triangle, and a ray that meets both (the sphere at parameters 1 and 3). -/

/-- The extended real with value `x`. -/
noncomputable def Spec.num (x : ℝ) : XR := Fl.fin (decide (x < 0)) |x|

theorem num_rel (x : ℝ) : Rel (num x) x := by
  refine ⟨trivial, ?_, abs_nonneg x, rfl⟩
  unfold num Fl.val sgn
  by_cases h : x < 0
  · simp [h, abs_of_neg h]
  · simp [h, abs_of_nonneg (not_lt.1 h)]

/-- A math library with an exact square root. -/
noncomputable def Demo.exactLibm : Libm XR where
  sqrt := fun x => num (Real.sqrt x.val)
  sin := id
  cos := id
  tan := id
  atan := id
  atan2 := fun x _ => x
  acos := id
  exp := id
  ln := id
  powf := fun x _ => x
  pi := num Real.pi

noncomputable def Demo.vec (x y z : ℝ) : V3 XR := ⟨num x, num y, num z⟩

theorem vec_finite (x y z : ℝ) : Finite3 (Demo.vec x y z) := by
  intro a; cases a <;> exact ⟨trivial, (num_rel _).wf⟩

/-- A sphere and a triangle. -/
noncomputable def Demo.prims : List (Prim × Nat) :=
  [(.sphere ⟨Demo.vec 2 4 4, num 3, fun _ => ⟨[], Demo.vec 0 0 1, Demo.vec 0 0 1, Demo.vec 1 0 0, Demo.vec 0 1 0⟩⟩, 0),
   (.triangle ⟨Demo.vec 20 0 0, Demo.vec 0 20 0, Demo.vec 0 0 20, none, false,
     fun _ => ⟨[], Demo.vec 0 0 1, Demo.vec 0 0 1, Demo.vec 1 0 0, Demo.vec 0 1 0⟩⟩, 1)]

example : ∃ (_ : Libm XR) (tree : KdTree XR) (ray : Ray XR), ExactSqrt ∧ (∀ p ∈ Demo.prims, p.1.Finite) ∧
    KdTree.new (objects Demo.prims) none = some tree ∧ Finite3 ray.origin ∧ Finite3 ray.direction ∧ NonZero ray.direction ∧
    ray.tMax ≠ nan ∧ ¬ InFacePlane (objects Demo.prims) ray.origin ray.direction ∧
    (∃ p ∈ Demo.prims, ∃ x, 0 < x ∧ Fl.lt (fin false x) ray.tMax = true ∧ p.1.MeetsAt ray x ∧ ¬ p.1.Excepted ray x) := by
  let L : Libm XR := Demo.exactLibm
  have hf : ∀ p ∈ Demo.prims, p.1.Finite := by
    intro p hp
    simp only [Demo.prims, List.mem_cons, List.not_mem_nil, or_false] at hp
    rcases hp with rfl | rfl
    · refine ⟨vec_finite _ _ _, trivial, (num_rel _).wf, ?_⟩
      rw [(num_rel 3).val]; norm_num
    · exact ⟨vec_finite _ _ _, vec_finite _ _ _, vec_finite _ _ _⟩
  have hbox : FiniteBoxes (objects Demo.prims) := by
    intro s h a
    simp only [objects, List.mem_map] at h
    obtain ⟨p, hp, rfl⟩ := h
    exact prim_box p.1 (hf p hp) p.2 a
  have hne : KdTree.new (objects Demo.prims) none ≠ none := by
    rw [Ne, KdTree.c28_build_total _ hbox]
    simp [objects, Demo.prims]
  obtain ⟨tree, ht⟩ := Option.ne_none_iff_exists'.1 hne
  refine ⟨L, tree, ⟨Demo.vec 0 0 0, Demo.vec 1 2 2, Fl.inf false⟩, ?_, hf, ht, vec_finite _ _ _, vec_finite _ _ _, ⟨.X, ?_⟩, by simp, ?_, ?_⟩
  · intro x r h _
    change Rel (num (Real.sqrt x.val)) _
    rw [h.val]
    exact num_rel _
  · change (num 1).val ≠ 0
    rw [(num_rel 1).val]; norm_num
  · rintro ⟨s, _, a, h, _⟩
    cases a
    · change (num 1).val = 0 at h; rw [(num_rel 1).val] at h; norm_num at h
    · change (num 2).val = 0 at h; rw [(num_rel 2).val] at h; norm_num at h
    · change (num 2).val = 0 at h; rw [(num_rel 2).val] at h; norm_num at h
  · refine ⟨_, List.mem_cons_self, 1, by norm_num, rfl, ?_, id⟩
    change OnSphere _ (num 3).val _
    unfold OnSphere pointAt numbers Demo.vec
    simp only [(num_rel _).val]
    norm_num

end PT
