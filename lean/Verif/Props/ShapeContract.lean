import Verif.Lemmas.FlWF
import Verif.Lemmas.Transfer
import Verif.Props.Sphere
import Verif.Props.KdClosest

/-!
# C41: the contract of shapes, in floating-point arithmetic
-/

namespace PT
open Fl Spec

section
variable {φ ψ K : Type} [Field K] [LinearOrder K] [IsStrictOrderedRing K] [FloorRing K] [Rounding φ K] [Rounding ψ K]

/-- The roots computed by `quadratic` are values of the format, and the second is not below the first. -/
theorem quadratic_ordered [Libm (Fl ψ K)] (a b c t0 t1 : Fl ψ K) (ha : a.WF) (hc : c.WF) (h : quadratic a b c = some (t0, t1)) :
    t0.WF ∧ t1.WF ∧ lt t1 t0 = false := by
  unfold quadratic at h
  simp only [] at h
  by_cases hd : (b *. b -. lit 4 *. a *. c <. lit 0) = true
  · rw [if_pos hd] at h; cases h
  rw [if_neg hd] at h
  have hq : ∀ q : Fl ψ K, (q = (⊖(PT.lit (1 / 2))) *. (b -. Libm.sqrt (b *. b -. lit 4 *. a *. c)) ∨
      q = (⊖(PT.lit (1 / 2))) *. (b +. Libm.sqrt (b *. b -. lit 4 *. a *. c))) → q.WF := by
    intro q hq
    rcases hq with rfl | rfl
    · exact mul_WF (neg_WF (lit_WF _)) (add_WF _ _)
    · exact mul_WF (neg_WF (lit_WF _)) (add_WF _ _)
  generalize hqq : (if (b <. lit 0) = true then (⊖(PT.lit (1 / 2))) *. (b -. Libm.sqrt (b *. b -. lit 4 *. a *. c))
    else (⊖(PT.lit (1 / 2))) *. (b +. Libm.sqrt (b *. b -. lit 4 *. a *. c))) = q at h
  have hqw : q.WF := by
    apply hq
    rw [← hqq]
    split_ifs
    · left; rfl
    · right; rfl
  have w0 : (q /. a).WF := div_WF hqw ha
  have w1 : (c /. q).WF := div_WF hc hqw
  by_cases hs : (q /. a >. c /. q) = true
  · rw [if_pos hs] at h
    simp only [Option.some.injEq, Prod.mk.injEq] at h
    obtain ⟨rfl, rfl⟩ := h
    exact ⟨w1, w0, lt_asymm' (le_of_lt' hs)⟩
  · rw [if_neg hs] at h
    simp only [Option.some.injEq, Prod.mk.injEq] at h
    obtain ⟨rfl, rfl⟩ := h
    exact ⟨w0, w1, Bool.not_eq_true _ ▸ hs⟩

/-- C41 for spheres: in every floating-point arithmetic (intermediate results in a wider format, casts that round, any `sqrt`), for
all spheres and lines, a sphere answers for every range, a reported parameter is within the range, and changing the range keeps or
removes the reported hit. -/
theorem c41_sphere [Libm (Fl φ K)] [Libm (Fl ψ K)] [Widen (Fl φ K) (Fl ψ K)] (hdown : ∀ x : Fl ψ K, Widen.down x = (convert x : Fl φ K))
    (s : Sphere (Fl φ K)) (o d : V3 (Fl φ K)) : LawfulAlong s.toShape o d := by
  -- the answer for all ranges at once
  have key : ∃ r : Option (Fl φ K × Fl φ K), (∀ t0 t1, r = some (t0, t1) → t0 ≠ nan → t1 ≠ nan → le t0 t1 = true) ∧
      ∀ tm, s.toShape.intersect ⟨o, d, tm⟩ = some ((r.bind fun p =>
        if lit 0 <. p.1 && p.1 <. tm then some p.1 else if lit 0 <. p.2 && p.2 <. tm then some p.2 else none).map
          fun t => ((s.computeInteraction ⟨s.worldToLocal o, d, tm⟩ t).1, t)) := by
    let up : Fl φ K → Fl ψ K := Widen.up
    let p := s.worldToLocal o
    let a := up d.x *. up d.x +. up d.y *. up d.y +. up d.z *. up d.z
    let b := lit 2 *. (up d.x *. up p.x +. up d.y *. up p.y +. up d.z *. up p.z)
    let c := up p.x *. up p.x +. up p.y *. up p.y +. up p.z *. up p.z -. up s.radius *. up s.radius
    refine ⟨(quadratic a b c).map fun q => (Widen.down q.1, Widen.down q.2), ?_, ?_⟩
    · intro t0 t1 h n0 n1
      simp only [Option.map_eq_some_iff] at h
      obtain ⟨⟨q0, q1⟩, hq, he⟩ := h
      simp only [Prod.mk.injEq, hdown] at he
      obtain ⟨rfl, rfl⟩ := he
      rw [Ne, convert_nan] at n0 n1
      obtain ⟨w0, w1, hlt⟩ := quadratic_ordered a b c q0 q1 (add_WF _ _) (add_WF _ _) hq
      exact convert_mono w0 w1 ((not_lt' n1 n0).1 hlt)
    · intro tm
      change some ((Sphere.hasIntersection s ⟨s.worldToLocal o, d, tm⟩).map _) = _
      congr 1
      unfold Sphere.hasIntersection
      simp only []
      cases hq : quadratic a b c with
      | none => rfl
      | some q => rfl
  obtain ⟨r, hord, hall⟩ := key
  have hrep : ∀ tm i t, Reports s.toShape ⟨o, d, tm⟩ i t ↔ ∃ t0 t1, r = some (t0, t1) ∧
      ((lt (PT.lit 0) t0 = true ∧ lt t0 tm = true ∧ t = t0) ∨
        (¬ (lt (PT.lit 0) t0 = true ∧ lt t0 tm = true) ∧ lt (PT.lit 0) t1 = true ∧ lt t1 tm = true ∧ t = t1)) ∧
      i = (s.computeInteraction ⟨s.worldToLocal o, d, PT.lit 0⟩ t).1 := by
    intro tm i t
    unfold Reports
    rw [hall]
    cases r with
    | none => simp
    | some q =>
      obtain ⟨t0, t1⟩ := q
      simp only [Option.bind_some, Option.some.injEq, Bool.and_eq_true, f_lt, Prod.mk.injEq]
      have hci : ∀ x, (s.computeInteraction ⟨s.worldToLocal o, d, tm⟩ x).1 = (s.computeInteraction ⟨s.worldToLocal o, d, PT.lit 0⟩ x).1 :=
        fun x => rfl
      by_cases h0 : lt (PT.lit 0) t0 = true ∧ lt t0 tm = true
      · rw [if_pos h0]
        simp only [Option.map_some, Option.some.injEq, Prod.mk.injEq, hci]
        constructor
        · rintro ⟨rfl, rfl⟩; exact ⟨_, _, ⟨rfl, rfl⟩, Or.inl ⟨h0.1, h0.2, rfl⟩, rfl⟩
        · rintro ⟨_, _, ⟨rfl, rfl⟩, ⟨_, _, rfl⟩ | ⟨h, _⟩, rfl⟩
          · exact ⟨rfl, rfl⟩
          · exact absurd h0 h
      · rw [if_neg h0]
        by_cases h1 : lt (PT.lit 0) t1 = true ∧ lt t1 tm = true
        · rw [if_pos h1]
          simp only [Option.map_some, Option.some.injEq, Prod.mk.injEq, hci]
          constructor
          · rintro ⟨rfl, rfl⟩; exact ⟨_, _, ⟨rfl, rfl⟩, Or.inr ⟨h0, h1.1, h1.2, rfl⟩, rfl⟩
          · rintro ⟨_, _, ⟨rfl, rfl⟩, ⟨a, b, rfl⟩ | ⟨h, _, _, rfl⟩, rfl⟩
            · exact absurd ⟨a, b⟩ h0
            · exact ⟨rfl, rfl⟩
        · rw [if_neg h1]
          simp only [Option.map_none, reduceCtorEq, false_iff]
          rintro ⟨_, _, ⟨rfl, rfl⟩, ⟨a, b, rfl⟩ | ⟨h, a, b, rfl⟩, rfl⟩
          · exact h0 ⟨a, b⟩
          · exact h1 ⟨a, b⟩
  refine ⟨?_, ?_, ?_, ?_⟩
  · intro tm; rw [hall]; simp
  · intro tm i t _ h
    obtain ⟨t0, t1, _, h | h, _⟩ := (hrep _ _ _).1 h
    · obtain ⟨_, a, rfl⟩ := h; exact le_of_lt' a
    · obtain ⟨_, _, a, rfl⟩ := h; exact le_of_lt' a
  · intro tm tm' i t h hle hlt
    obtain ⟨t0, t1, hr, h, hi⟩ := (hrep _ _ _).1 h
    refine (hrep _ _ _).2 ⟨t0, t1, hr, ?_, hi⟩
    rcases h with ⟨a, b, rfl⟩ | ⟨a, b, c, rfl⟩
    · exact Or.inl ⟨a, hlt, rfl⟩
    · exact Or.inr ⟨fun hc => a ⟨hc.1, lt_of_lt_of_le' hc.2 hle⟩, b, hlt, rfl⟩
  · intro tm tm' i t h hle
    obtain ⟨t0, t1, hr, h, hi⟩ := (hrep _ _ _).1 h
    refine (hrep _ _ _).2 ⟨t0, t1, hr, ?_, hi⟩
    rcases h with ⟨a, b, rfl⟩ | ⟨a, b, c, rfl⟩
    · exact Or.inl ⟨a, lt_of_lt_of_le' b hle, rfl⟩
    · refine Or.inr ⟨?_, b, lt_of_lt_of_le' c hle, rfl⟩
      rintro ⟨h0, _⟩
      apply a
      have n0 : t0 ≠ nan := (lt_iff.1 h0).2.1
      have n1 : t ≠ nan := (lt_iff.1 b).2.1
      exact ⟨h0, lt_of_le_of_lt' (hord t0 t hr n0 n1) c⟩
end

/-- C41 for spheres in `f32` with intermediate results in `f64`. -/
theorem c41_sphere_f32 [Libm F32] [Libm F64] (s : Sphere F32) (o d : V3 F32) : LawfulAlong s.toShape o d :=
  c41_sphere (fun _ => rfl) s o d


/-! ## Triangles -/

namespace Spec
/-- All coordinates are finite values. -/
def Finite3 (v : V3 XR) : Prop := ∀ a, (v.get a).IsFin ∧ (v.get a).WF
/-- The numbers. -/
noncomputable def numbers (v : V3 XR) : V3 ℝ := ⟨v.x.val, v.y.val, v.z.val⟩
/-- A triangle with finite vertices. -/
def FiniteTriangle (s : Triangle XR) : Prop := Finite3 s.v0 ∧ Finite3 s.v1 ∧ Finite3 s.v2
/-- Some component of the direction is not zero. -/
def NonZero (d : V3 XR) : Prop := ∃ a, (d.get a).val ≠ 0
end Spec

theorem Spec.Finite3.rel {v : V3 XR} (h : Finite3 v) : Rel3 v (numbers v) :=
  ⟨.of_fin (h .X).1 (h .X).2, .of_fin (h .Y).1 (h .Y).2, .of_fin (h .Z).1 (h .Z).2⟩

theorem numbers_ne_zero {d : V3 XR} (hn : NonZero d) : numbers d ≠ V3.zero := by
  obtain ⟨a, ha⟩ := hn
  intro e
  apply ha
  have : (d.get a).val = (numbers d).get a := by cases a <;> rfl
  rw [this, e]
  cases a <;> simp [V3.zero, V3.get, r_lit]

section
variable [Libm XR]

/-- The real triangle with the same vertices. -/
noncomputable def Triangle.realized (s : Triangle XR) : Triangle ℝ :=
  ⟨numbers s.v0, numbers s.v1, numbers s.v2, none, false, fun _ => ⟨[], ⟨0, 0, 0⟩, ⟨0, 0, 0⟩, ⟨0, 0, 0⟩, ⟨0, 0, 0⟩⟩⟩

open Triangle in
/-- What a triangle reports, for all ranges at once. -/
theorem triangle_reports (s : Triangle XR) (hs : FiniteTriangle s) (o d : V3 XR) (ho : Finite3 o) (hd : Finite3 d) (hn : NonZero d) :
    ∃ (i0 : Interaction XR) (t0 : XR) (r : ℝ) (hit : Prop), Rel t0 r ∧
      (∀ tm, s.toShape.intersect ⟨o, d, tm⟩ ≠ none) ∧
      (∀ tm i t, Reports s.toShape ⟨o, d, tm⟩ i t ↔ hit ∧ (tm = nan ∨ le t0 tm = true) ∧ i = i0 ∧ t = t0) ∧
      (hit → 0 < r ∧ ∃ b0 b1 b2, Weights b0 b1 b2 ∧
        pointAt ⟨numbers o, numbers d, r⟩ r = mix b0 b1 b2 (numbers s.v0) (numbers s.v1) (numbers s.v2)) ∧
      (∀ b0 b1 b2 x, Weights b0 b1 b2 →
        pointAt ⟨numbers o, numbers d, x⟩ x = mix b0 b1 b2 (numbers s.v0) (numbers s.v1) (numbers s.v2) →
        Spec.inner (planeNormal s.realized) (numbers d) ≠ 0 →
        (∀ m, Dominant (numbers d) m → errorThreshold (rayCoord ⟨numbers o, numbers d, x⟩ m (numbers s.v0))
          (rayCoord ⟨numbers o, numbers d, x⟩ m (numbers s.v1)) (rayCoord ⟨numbers o, numbers d, x⟩ m (numbers s.v2)) < x) → hit ∧ r = x) := by
  obtain ⟨m, hm, hdom⟩ := maxAbsAxis_real (numbers d)
  have hnz := numbers_ne_zero hn
  have hne := dominant_ne hnz hdom
  have hg := stage_rel (s' := s.realized) hs.1.rel hs.2.1.rel hs.2.2.rel ho.rel hd.rel m hne
  have hax : d.maxAbsAxis = some m := by rw [hd.rel.maxAbsAxis, hm]
  have hi : ∀ tm, s.intersect ⟨o, d, tm⟩ = _ := fun tm => intersect_eq s o d tm
  simp only [hax, Option.map_some] at hi
  generalize hG : stage s o d m = g at *
  generalize hG' : stage s.realized (numbers o) (numbers d) m = g' at *
  have hdet : g'.rejects g'.t = false → g'.det ≠ 0 := by
    intro h hz
    have : (g'.det ==. PT.lit 0) = true := by real_ops; exact hz
    unfold Stage.rejects at h
    simp [this] at h
  have hcomp : ∀ b0 b1 b2 x, Weights b0 b1 b2 →
        pointAt ⟨numbers o, numbers d, x⟩ x = mix b0 b1 b2 (numbers s.v0) (numbers s.v1) (numbers s.v2) →
        Spec.inner (planeNormal s.realized) (numbers d) ≠ 0 →
        (∀ m, Dominant (numbers d) m → errorThreshold (rayCoord ⟨numbers o, numbers d, x⟩ m (numbers s.v0))
          (rayCoord ⟨numbers o, numbers d, x⟩ m (numbers s.v1)) (rayCoord ⟨numbers o, numbers d, x⟩ m (numbers s.v2)) < x) →
        g'.rejects g'.t = false ∧ g'.t = x := by
    intro b0 b1 b2 x hw hp hin hth
    obtain ⟨i, hi', -, -⟩ := c39_triangle_complete s.realized ⟨numbers o, numbers d, x⟩ b0 b1 b2 x hw hp hin hth le_rfl
    have hx := intersect_eq s.realized (numbers o) (numbers d) x
    rw [hm, Option.map_some, hi'] at hx
    simp only [hG'] at hx
    cases hrej : g'.rejects x with
    | true => simp [hrej] at hx
    | false =>
      simp only [hrej, Bool.false_eq_true, if_false, Option.some.injEq, Prod.mk.injEq] at hx
      exact ⟨((rejects_real_iff g' x).1 hrej).1, hx.2.symm⟩
  by_cases hh : g'.rejects g'.t = false
  · have ht := hg.t (hdet hh)
    refine ⟨s.interactionAt d (g.e0 /. g.det) (g.e1 /. g.det) (g.e2 /. g.det), g.t, g'.t, True, ht, ?_, ?_, ?_, ?_⟩
    · intro tm
      change s.intersect _ ≠ none
      rw [hi]; simp
    · intro tm i t
      change s.intersect _ = _ ↔ _
      rw [hi]
      have hk := hg.rejects_iff tm
      have hle : Fl.le (Fl.fin false g'.t) tm = Fl.le g.t tm := by
        have := le_fin_val_left (x := tm) ht.fin
        rw [ht.val] at this
        exact Bool.eq_iff_iff.2 this
      rw [hle] at hk
      by_cases hr : g.rejects tm = true
      · rw [if_pos hr]
        have : ¬ (tm = nan ∨ Fl.le g.t tm = true) := by
          intro hc
          rw [hk.2 ⟨hh, hc⟩] at hr
          exact absurd hr (by simp)
        simp [this]
      · rw [if_neg hr]
        have hr' : g.rejects tm = false := by simpa using hr
        have := (hk.1 hr').2
        simp only [Option.some.injEq, Prod.mk.injEq, this, true_and]
        constructor
        · rintro ⟨rfl, rfl⟩; exact ⟨rfl, rfl⟩
        · rintro ⟨rfl, rfl⟩; exact ⟨rfl, rfl⟩
    · intro _
      have hc := c38_triangle_hit_real s.realized ⟨numbers o, numbers d, g'.t⟩ hnz
      have hx := intersect_eq s.realized (numbers o) (numbers d) g'.t
      rw [hm, Option.map_some] at hx
      simp only [hG', hh, Bool.false_eq_true, if_false] at hx
      obtain ⟨c1, c2, c3, b0, b1, b2, hw, c4, -⟩ := hc.2 _ _ hx
      exact ⟨c1, b0, b1, b2, hw, by rw [← c3, c4]; rfl⟩
    · intro b0 b1 b2 x h1 h2 h3 h4
      exact ⟨trivial, (hcomp b0 b1 b2 x h1 h2 h3 h4).2⟩
  · refine ⟨Interaction.default, PT.lit 0, PT.lit 0, False, Rel.lit 0, ?_, ?_, by simp, ?_⟩
    · intro tm
      change s.intersect _ ≠ none
      rw [hi]; simp
    · intro tm i t
      change s.intersect _ = _ ↔ _
      rw [hi]
      have hr : g.rejects tm = true := by
        cases hc : g.rejects tm with
        | true => rfl
        | false => exact absurd ((hg.rejects_iff tm).1 hc).1 hh
      rw [if_pos hr]
      simp
    · intro b0 b1 b2 x h1 h2 h3 h4
      exact absurd (hcomp b0 b1 b2 x h1 h2 h3 h4).1 hh

/-- A triangle whose coordinates are finite reports, in arithmetic without rounding and for every range (finite, infinite or NaN),
what it reports over the real numbers (C38): a positive parameter within the range at which the ray is at a convex combination of
the vertices. -/
theorem c38_triangle_hit_extended (s : Triangle XR) (hs : FiniteTriangle s) (ray : Ray XR) (ho : Finite3 ray.origin)
    (hd : Finite3 ray.direction) (hn : NonZero ray.direction) (i : Interaction XR) (t : XR) (h : Reports s.toShape ray i t) :
    t.IsFin ∧ 0 < t.val ∧ (ray.tMax = nan ∨ le t ray.tMax = true) ∧ ∃ b0 b1 b2, Weights b0 b1 b2 ∧
      pointAt ⟨numbers ray.origin, numbers ray.direction, t.val⟩ t.val = mix b0 b1 b2 (numbers s.v0) (numbers s.v1) (numbers s.v2) := by
  obtain ⟨i0, t0, r, hit, hr, h1, h2, h3, h4⟩ := triangle_reports s hs ray.origin ray.direction ho hd hn
  obtain ⟨a, b, c, rfl⟩ := (h2 ray.tMax i t).1 h
  obtain ⟨d, e⟩ := h3 a
  rw [hr.val]
  exact ⟨hr.fin, d, b, e⟩

/-- C39 with every range: a triangle met by the ray at a parameter above the documented error threshold and within the range is
reported with exactly that parameter. -/
theorem c39_triangle_complete_extended (s : Triangle XR) (hs : FiniteTriangle s) (ray : Ray XR) (ho : Finite3 ray.origin)
    (hd : Finite3 ray.direction) (hn : NonZero ray.direction) (b0 b1 b2 x : ℝ) (hw : Weights b0 b1 b2)
    (hp : pointAt ⟨numbers ray.origin, numbers ray.direction, x⟩ x = mix b0 b1 b2 (numbers s.v0) (numbers s.v1) (numbers s.v2))
    (hpar : Spec.inner (planeNormal s.realized) (numbers ray.direction) ≠ 0)
    (hthr : ∀ m, Dominant (numbers ray.direction) m →
      errorThreshold (rayCoord ⟨numbers ray.origin, numbers ray.direction, x⟩ m (numbers s.v0))
        (rayCoord ⟨numbers ray.origin, numbers ray.direction, x⟩ m (numbers s.v1))
        (rayCoord ⟨numbers ray.origin, numbers ray.direction, x⟩ m (numbers s.v2)) < x)
    (htm : le (fin false x) ray.tMax = true) : ∃ i t, Reports s.toShape ray i t ∧ t.val = x := by
  obtain ⟨i0, t0, r, hit, hr, h1, h2, h3, h4⟩ := triangle_reports s hs ray.origin ray.direction ho hd hn
  obtain ⟨a, rfl⟩ := h4 b0 b1 b2 x hw hp hpar hthr
  refine ⟨i0, t0, (h2 ray.tMax i0 t0).2 ⟨a, Or.inr ?_, rfl, rfl⟩, hr.val⟩
  rwa [← hr.val, le_fin_val_left hr.fin] at htm

/-- C41 for triangles, in arithmetic without rounding: for every triangle with finite vertices and every line with a finite origin and
a finite non-zero direction, the triangle answers for every range, a reported parameter is within the range, and changing the range
keeps or removes the reported hit. -/
theorem c41_triangle_exact (s : Triangle XR) (hs : FiniteTriangle s) (o d : V3 XR) (ho : Finite3 o) (hd : Finite3 d) (hn : NonZero d) :
    LawfulAlong s.toShape o d := by
  obtain ⟨i0, t0, r, hit, hr, h1, h2, h3, h4⟩ := triangle_reports s hs o d ho hd hn
  refine ⟨h1, ?_, ?_, ?_⟩
  · intro tm i t htm h
    obtain ⟨_, hc, _, rfl⟩ := (h2 tm i t).1 h
    exact hc.resolve_left htm
  · intro tm tm' i t h _ hlt
    obtain ⟨a, _, b, rfl⟩ := (h2 tm i t).1 h
    exact (h2 tm' i t).2 ⟨a, Or.inr (le_of_lt' hlt), b, rfl⟩
  · intro tm tm' i t h hle
    obtain ⟨a, hc, b, rfl⟩ := (h2 tm' i t).1 h
    have hnn : tm' ≠ nan := (le_iff.1 hle).1
    exact (h2 tm i t).2 ⟨a, Or.inr (le_trans' (hc.resolve_left hnn) hle), b, rfl⟩
end



/-! ## Triangles with rounding -/

section
variable {φ K : Type} [Field K] [LinearOrder K] [IsStrictOrderedRing K] [FloorRing K] [Rounding φ K]

theorem neg_neg' (a : Fl φ K) : Fl.neg (Fl.neg a) = a := by cases a <;> simp [Fl.neg]
theorem mul_neg' (a b : Fl φ K) : Fl.mul a (Fl.neg b) = Fl.neg (Fl.mul a b) := by
  cases a with
  | nan => cases b <;> rfl
  | inf s =>
    cases b with
    | nan => rfl
    | inf t => simp [Fl.mul, Fl.neg]
    | fin t y => by_cases h : y = 0 <;> simp [Fl.mul, Fl.neg, h]
  | fin s x =>
    cases b with
    | nan => rfl
    | inf t => by_cases h : x = 0 <;> simp [Fl.mul, Fl.neg, h]
    | fin t y =>
      simp only [Fl.mul, Fl.neg, ofMag]
      cases Rounding.rnd φ (x * y) <;> simp [Fl.neg]
theorem div_neg_neg (a b : Fl φ K) : Fl.div (Fl.neg a) (Fl.neg b) = Fl.div a b := by
  cases a with
  | nan => cases b <;> rfl
  | inf s => cases b <;> simp [Fl.div, Fl.neg]
  | fin s x =>
    cases b with
    | nan => rfl
    | inf t => simp [Fl.div, Fl.neg]
    | fin t y => simp [Fl.div, Fl.neg]
theorem lt_neg' (a b : Fl φ K) : Fl.lt (Fl.neg a) (Fl.neg b) = Fl.lt b a := by
  cases a with
  | nan => cases b <;> rfl
  | inf s => cases b with
    | nan => rfl
    | inf t => cases s <;> cases t <;> rfl
    | fin t y => cases s <;> rfl
  | fin s x => cases b with
    | nan => rfl
    | inf t => cases t <;> rfl
    | fin t y => cases s <;> cases t <;> simp [Fl.lt, Fl.neg, sgn, neg_lt, lt_neg]

theorem pos_cases {c : Fl φ K} (hc : c.WF) (h0 : lt (PT.lit 0) c = true) : c = inf false ∨ ∃ x, 0 < x ∧ c = fin false x := by
  have hz : (PT.lit 0 : Fl φ K) = fin false 0 := by rw [f_lit]; simp [Fl.lit, ofVal]
  rw [hz] at h0
  cases c with
  | nan => simp [lt] at h0
  | inf s => cases s <;> simp [lt] at h0; exact Or.inl rfl
  | fin s x =>
    cases s
    · exact Or.inr ⟨x, by simpa [lt, sgn] using h0, rfl⟩
    · exfalso; simp [lt, sgn] at h0; exact absurd h0 (not_lt.2 hc.1)

theorem lt_top (y : Fl φ K) : lt (inf false) y = false := by cases y <;> simp [lt]
theorem lt_bot (y : Fl φ K) : lt y (inf true) = false := by cases y <;> simp [lt]
theorem lt_grow {p q y : Fl φ K} (hl : le p q = true) (h : lt p y = false) : lt q y = false := by
  cases hc : lt q y with
  | false => rfl
  | true => rw [lt_of_le_of_lt' hl hc] at h; exact absurd h (by simp)

/-- A product with a positive factor keeps being at least `y` when the other factor grows. -/
theorem mul_grow {a b c y : Fl φ K} (ha : a.WF) (hb : b.WF) (hc : c.WF) (h0 : lt (PT.lit 0) c = true) (hle : le a b = true)
    (h : lt (mul a c) y = false) : lt (mul b c) y = false := by
  rcases pos_cases hc h0 with rfl | ⟨x, hx, rfl⟩
  · cases b with
    | nan => exact lt_nan_left _
    | inf t =>
      cases t
      · exact lt_top _
      · have : a = inf true := by cases a <;> simp_all [le]
        rwa [this] at h
    | fin t v =>
      by_cases hv : v = 0
      · simp only [mul, hv, if_true]; exact lt_nan_left _
      · cases t
        · simp only [mul, hv, if_false, Bool.false_xor]; exact lt_top _
        · have hm : mul a (inf false) = inf true := by
            cases a with
            | nan => simp [le] at hle
            | inf s => cases s <;> simp_all [le, mul]
            | fin s w =>
              have hv' : 0 < v := lt_of_le_of_ne hb.1 (Ne.symm hv)
              simp only [le, sgn, decide_eq_true_eq] at hle
              cases s
              · simp only [Bool.false_eq_true, if_false, if_true] at hle
                exact absurd ha.1 (not_le.2 (lt_of_le_of_lt hle (neg_lt_zero.2 hv')))
              · simp only [if_true, neg_le_neg_iff] at hle
                have : w ≠ 0 := (lt_of_lt_of_le hv' hle).ne'
                simp [mul, this]
          rw [hm] at h
          simpa [mul, hv] using h
  · cases b with
    | nan => exact lt_nan_left _
    | inf t =>
      cases t
      · simp only [mul, hx.ne', if_false, Bool.false_xor]; exact lt_top _
      · have : a = inf true := by cases a <;> simp_all [le]
        rwa [this] at h
    | fin t v =>
      obtain ⟨z2, e2⟩ := ofMag_ofVal (φ := φ) (mul_nonneg hb.1 hx.le) t
      cases a with
      | nan => simp [le] at hle
      | inf s =>
        cases s
        · simp [le] at hle
        · simp only [mul, hx.ne', if_false, Bool.xor_false] at h
          cases y with
          | nan => exact lt_nan_right _
          | inf u =>
            cases u
            · simp [lt] at h
            · exact lt_bot _
          | fin u w => simp [lt] at h
      | fin s w =>
        obtain ⟨z1, e1⟩ := ofMag_ofVal (φ := φ) (mul_nonneg ha.1 hx.le) s
        simp only [mul, Bool.xor_false, e1] at h
        simp only [mul, Bool.xor_false, e2]
        refine lt_grow (ofVal_mono ?_ _ _) h
        have hle' : sgn s w ≤ sgn t v := by simpa [le] using hle
        have := mul_le_mul_of_nonneg_right hle' hx.le
        have k : ∀ (s : Bool) (w : K), sgn s (w * x) = sgn s w * x := by intro s w; cases s <;> simp [sgn]
        rwa [k, k]

/-- If the rounded quotient is below `b`, the rounded product of `b` with the divisor is not below the dividend. -/
theorem mul_shrink {b c y : Fl φ K} (hb : b.WF) (hc : c.WF) (hy : y.WF) (h0 : lt (PT.lit 0) c = true) (h : lt (div y c) b = true) :
    lt (mul b c) y = false := by
  rcases pos_cases hc h0 with rfl | ⟨x, hx, rfl⟩
  · cases y with
    | nan => exact lt_nan_right _
    | inf s => simp [div, lt] at h
    | fin s w =>
      simp only [div] at h
      cases b with
      | nan => exact lt_nan_left _
      | inf t =>
        cases t
        · exact lt_top _
        · rw [lt_bot] at h; cases h
      | fin t v =>
        have h' : 0 < sgn t v := by
          simp only [lt, decide_eq_true_eq] at h
          refine lt_of_le_of_lt (le_of_eq ?_) h
          cases s <;> simp [sgn]
        cases t
        · have hv : v ≠ 0 := by rintro rfl; simp [sgn] at h'
          simp only [mul, hv, if_false, Bool.false_xor]; exact lt_top _
        · exfalso; simp [sgn] at h'; exact absurd h' (not_lt.2 hb.1)
  · cases y with
    | nan => exact lt_nan_right _
    | inf s =>
      cases s
      · simp only [div, Bool.false_xor] at h; rw [lt_top] at h; cases h
      · exact lt_bot _
    | fin s w =>
      cases b with
      | nan => exact lt_nan_left _
      | inf t =>
        cases t
        · simp only [mul, hx.ne', if_false, Bool.false_xor]; exact lt_top _
        · rw [lt_bot] at h; cases h
      | fin t v =>
        obtain ⟨z1, e1⟩ := ofMag_ofVal (φ := φ) (div_nonneg hy.1 hx.le) s
        obtain ⟨z2, e2⟩ := ofMag_ofVal (φ := φ) (mul_nonneg hb.1 hx.le) t
        simp only [div, hx.ne', if_false, Bool.xor_false, e1] at h
        simp only [mul, Bool.xor_false, e2]
        have k : ∀ (s : Bool) (w : K), sgn s (w * x) = sgn s w * x := by intro s w; cases s <;> simp [sgn]
        have k' : ∀ (s : Bool) (w : K), sgn s (w / x) = sgn s w / x := by intro s w; cases s <;> simp [sgn, neg_div]
        rw [k'] at h
        rw [k]
        have vb := ofVal_val (x := (fin t v : Fl φ K)) trivial hb false
        have vy := ofVal_val (x := (fin s w : Fl φ K)) trivial hy false
        change ev (ofVal (sgn t v) false : Fl φ K) = _ ∧ _ at vb
        change ev (ofVal (sgn s w) false : Fl φ K) = _ ∧ _ at vy
        cases hc : lt (ofVal (sgn t v * x) z2 : Fl φ K) (fin s w) with
        | false => rfl
        | true =>
          exfalso
          by_cases hge : sgn s w ≤ sgn t v * x
          · have m := ofVal_mono (φ := φ) hge false z2
            have m' : le (fin s w : Fl φ K) (ofVal (sgn t v * x) z2) = true := by
              rw [le_iff] at m ⊢; rw [vy.1] at m; exact ⟨by simp, m.2.1, m.2.2⟩
            rw [lt_asymm' m'] at hc; cases hc
          · have hlt : sgn t v ≤ sgn s w / x := by rw [le_div_iff₀ hx]; exact (not_le.1 hge).le
            have m := ofVal_mono (φ := φ) hlt false z1
            have m' : le (fin t v : Fl φ K) (ofVal (sgn s w / x) z1) = true := by
              rw [le_iff] at m ⊢; rw [vb.1] at m; exact ⟨by simp, m.2.1, m.2.2⟩
            rw [lt_asymm' m'] at h; cases h

open Triangle in
theorem out_change {g : Stage (Fl φ K)} (hd : g.det.WF) (hts : g.ts.WF) {tm tm' : Fl φ K} (w : tm.WF) (w' : tm'.WF)
    (hc : le tm' tm = true ∨ lt g.t tm = true) (h : g.out tm' = false) : g.out tm = false := by
  have key : ∀ c y : Fl φ K, c.WF → y.WF → lt (PT.lit 0) c = true → div y c = g.t → lt (mul tm' c) y = false → lt (mul tm c) y = false := by
    intro c y wc wy h0 e hl
    rcases hc with hc | hc
    · exact mul_grow w' w wc h0 hc hl
    · rw [← e] at hc; exact mul_shrink w wc wy h0 hc
  have hz : (PT.lit 0 : Fl φ K) = fin false 0 := by rw [f_lit]; simp [Fl.lit, ofVal]
  unfold Stage.out at h ⊢
  simp only [f_lt, f_le, f_mul] at h ⊢
  by_cases hp : lt (PT.lit 0) g.det = true
  · have hn : lt g.det (PT.lit 0) = false := lt_asymm' (le_of_lt' hp)
    simp only [hp, hn, Bool.false_and, Bool.false_or, Bool.true_and, Bool.or_eq_false_iff] at h ⊢
    exact ⟨h.1, key _ _ hd hts hp rfl h.2⟩
  · have hp' : lt (PT.lit 0) g.det = false := by simpa using hp
    by_cases hn : lt g.det (PT.lit 0) = true
    · simp only [hp', hn, Bool.false_and, Bool.or_false, Bool.true_and, Bool.or_eq_false_iff] at h ⊢
      refine ⟨?_, h.2⟩
      have h0 : lt (PT.lit 0) (Fl.neg g.det) = true := by
        have : lt (PT.lit 0) (Fl.neg g.det) = lt g.det (PT.lit 0) := by
          rw [hz, ← lt_neg' (Fl.neg g.det) _, neg_neg']
          cases g.det with
          | nan => rfl
          | inf s => rfl
          | fin s x => simp [lt, Fl.neg, sgn]
        rw [this]; exact hn
      have := key (Fl.neg g.det) (Fl.neg g.ts) (neg_WF hd) (neg_WF hts) h0 (div_neg_neg _ _) (by rw [mul_neg', lt_neg']; exact h.1)
      rwa [mul_neg', lt_neg'] at this
    · have hn' : lt g.det (PT.lit 0) = false := by simpa using hn
      simp [hp', hn']

open Triangle in
/-- C41 for triangles in floating-point arithmetic (any format, any math library), for all triangles, all lines whose direction has no
NaN, and all pairs of ranges: the triangle answers for every range; a reported hit is still reported when the range is lowered to a
value above the reported parameter, and when the range is raised (so no hit stays no hit when the range is lowered).
Missing, because false of the code (`c41_triangle_range_refuted`, `c41_triangle_overflow_refuted`): that the reported parameter is within the range. -/
theorem c41_triangle_partial [Libm (Fl φ K)] (s : Triangle (Fl φ K)) (o d : V3 (Fl φ K)) (hd : ∀ a, d.get a ≠ Fl.nan) :
    (∀ tm, s.toShape.intersect ⟨o, d, tm⟩ ≠ none) ∧
    (∀ tm tm' i t, tm.WF → tm'.WF → Reports s.toShape ⟨o, d, tm⟩ i t → lt t tm' = true → Reports s.toShape ⟨o, d, tm'⟩ i t) ∧
    (∀ tm tm' i t, tm.WF → tm'.WF → Reports s.toShape ⟨o, d, tm'⟩ i t → le tm' tm = true → Reports s.toShape ⟨o, d, tm⟩ i t) := by
  have hm : d.maxAbsAxis ≠ none := maxAbsAxis_ne_none hd
  obtain ⟨m, hm⟩ := Option.ne_none_iff_exists'.1 hm
  have hi : ∀ tm, s.toShape.intersect ⟨o, d, tm⟩ = _ := fun tm => intersect_eq s o d tm
  simp only [hm, Option.map_some] at hi
  have hdet : (stage s o d m).det.WF := add_WF _ _
  have hts : (stage s o d m).ts.WF := add_WF _ _
  generalize stage s o d m = g at *
  have hr : ∀ tm i t, Reports s.toShape ⟨o, d, tm⟩ i t ↔ g.rejects tm = false ∧
      i = s.interactionAt d (g.e0 /. g.det) (g.e1 /. g.det) (g.e2 /. g.det) ∧ t = g.t := by
    intro tm i t
    unfold Reports
    rw [hi]
    cases g.rejects tm
    · simp only [Bool.false_eq_true, if_false, Option.some.injEq, Prod.mk.injEq, true_and]
      constructor
      · rintro ⟨rfl, rfl⟩; exact ⟨rfl, rfl⟩
      · rintro ⟨rfl, rfl⟩; exact ⟨rfl, rfl⟩
    · simp
  have step : ∀ tm tm', tm.WF → tm'.WF → (le tm' tm = true ∨ lt g.t tm = true) → g.rejects tm' = false → g.rejects tm = false := by
    intro tm tm' w w' hc h
    unfold Stage.rejects at h ⊢
    simp only [Bool.or_eq_false_iff] at h ⊢
    exact ⟨⟨h.1.1, out_change hdet hts w w' hc h.1.2⟩, h.2⟩
  refine ⟨?_, ?_, ?_⟩
  · intro tm; rw [hi]; simp
  · intro tm tm' i t w w' h hlt
    obtain ⟨a, b, rfl⟩ := (hr _ _ _).1 h
    exact (hr _ _ _).2 ⟨step tm' tm w' w (Or.inr hlt) a, b, rfl⟩
  · intro tm tm' i t w w' h hle
    obtain ⟨a, b, rfl⟩ := (hr _ _ _).1 h
    exact (hr _ _ _).2 ⟨step tm tm' w w' (Or.inl hle) a, b, rfl⟩
end


/-! ## What goes wrong for triangles with rounding -/

namespace Spec
/-- The `f32` value with this number. -/
def f32 (q : ℚ) : F32 := Fl.ofVal q false
end Spec

/-- A triangle over the z axis, at height `12582907 / 2 ^ 23`. -/
def Demo.rangeTriangle (mat : Material F32) : Triangle F32 :=
  ⟨⟨f32 0, f32 0, f32 (12582907 / 2 ^ 23)⟩, ⟨f32 0, f32 1, f32 0⟩, ⟨f32 (3 / 2), f32 0, f32 0⟩, none, false, mat⟩
def Demo.zAxis : V3 F32 × V3 F32 := (⟨f32 0, f32 0, f32 0⟩, ⟨f32 0, f32 0, f32 1⟩)

open Triangle in
def Demo.rangeStage : Stage F32 :=
  stageOf (rc Demo.zAxis.1 Demo.zAxis.2 .Z ⟨f32 0, f32 0, f32 (12582907 / 2 ^ 23)⟩)
    (rc Demo.zAxis.1 Demo.zAxis.2 .Z ⟨f32 0, f32 1, f32 0⟩) (rc Demo.zAxis.1 Demo.zAxis.2 .Z ⟨f32 (3 / 2), f32 0, f32 0⟩) (szOf Demo.zAxis.2 .Z)

open Triangle in
theorem Demo.rangeStage_facts : (Demo.rangeStage).rejects (f32 (12582906 / 2 ^ 23)) = false ∧
    (Demo.rangeStage).t = f32 (12582907 / 2 ^ 23) ∧ Demo.zAxis.2.maxAbsAxis = some .Z := by
  decide +kernel


open Triangle in
/-- C41 is false of the code: with `f32` rounding a triangle reports a parameter above `t_max` (the test compares products that
round to the same value).  Here the ray runs along the z axis from the origin. -/
theorem c41_triangle_range_refuted [Libm F32] (mat : Material F32) :
    ∃ i t, Reports (Demo.rangeTriangle mat).toShape ⟨⟨f32 0, f32 0, f32 0⟩, ⟨f32 0, f32 0, f32 1⟩, f32 (12582906 / 2 ^ 23)⟩ i t ∧
      lt (f32 (12582906 / 2 ^ 23)) t = true := by
  obtain ⟨h1, h2, h3⟩ := Demo.rangeStage_facts
  have hi := intersect_eq (Demo.rangeTriangle mat) Demo.zAxis.1 Demo.zAxis.2 (f32 (12582906 / 2 ^ 23))
  rw [h3, Option.map_some] at hi
  have hg : stage (Demo.rangeTriangle mat) Demo.zAxis.1 Demo.zAxis.2 .Z = Demo.rangeStage := rfl
  simp only [hg, h1, Bool.false_eq_true, if_false] at hi
  refine ⟨_, _, hi, ?_⟩
  rw [h2]
  decide +kernel

/-- A triangle with large coordinates, far from the z axis. -/
def Demo.farTriangle (mat : Material F32) : Triangle F32 :=
  ⟨⟨f32 (2 ^ 100), f32 (2 ^ 100), f32 1⟩, ⟨f32 (2 ^ 101), f32 (2 ^ 100), f32 1⟩, ⟨f32 (2 ^ 100), f32 (2 ^ 101), f32 1⟩, none, false, mat⟩

open Triangle in
def Demo.farStage : Stage F32 :=
  stageOf (rc Demo.zAxis.1 Demo.zAxis.2 .Z ⟨f32 (2 ^ 100), f32 (2 ^ 100), f32 1⟩)
    (rc Demo.zAxis.1 Demo.zAxis.2 .Z ⟨f32 (2 ^ 101), f32 (2 ^ 100), f32 1⟩)
    (rc Demo.zAxis.1 Demo.zAxis.2 .Z ⟨f32 (2 ^ 100), f32 (2 ^ 101), f32 1⟩) (szOf Demo.zAxis.2 .Z)

open Triangle in
theorem Demo.farStage_facts : (Demo.farStage).rejects (f32 2) = false ∧ (Demo.farStage).t = Fl.nan := by
  decide +kernel

open Triangle in
/-- C41 is false of the code also for large coordinates: the products overflow, every test is false on NaN, and the triangle
reports a hit with the parameter NaN for a ray that passes far from it. -/
theorem c41_triangle_overflow_refuted [Libm F32] (mat : Material F32) :
    ∃ i, Reports (Demo.farTriangle mat).toShape ⟨⟨f32 0, f32 0, f32 0⟩, ⟨f32 0, f32 0, f32 1⟩, f32 2⟩ i Fl.nan := by
  obtain ⟨h1, h2⟩ := Demo.farStage_facts
  have hi := intersect_eq (Demo.farTriangle mat) Demo.zAxis.1 Demo.zAxis.2 (f32 2)
  rw [Demo.rangeStage_facts.2.2, Option.map_some] at hi
  have hg : stage (Demo.farTriangle mat) Demo.zAxis.1 Demo.zAxis.2 .Z = Demo.farStage := rfl
  simp only [hg, h1, h2, Bool.false_eq_true, if_false] at hi
  exact ⟨_, hi⟩

end PT
