import Verif.Lemmas.FlExact
import Verif.Model.Shape

/-!
# Bounding boxes: C33, C34, C35
-/

namespace PT
open Fl

/-! ## C33 -/

namespace Spec
variable {φ K : Type} [Field K] [LinearOrder K] [FloorRing K] [Rounding φ K]
/-- No coordinate is NaN. -/
def NoNaN3 (p : V3 (Fl φ K)) : Prop := ∀ a, p.get a ≠ Fl.nan
/-- No corner coordinate is NaN. -/
def NoNaN (b : BBox3 (Fl φ K)) : Prop := NoNaN3 b.min ∧ NoNaN3 b.max
/-- `b` contains `c` (comparisons of floats). -/
def Contains (b c : BBox3 (Fl φ K)) : Prop :=
  ∀ a, Fl.le (b.min.get a) (c.min.get a) = true ∧ Fl.le (c.max.get a) (b.max.get a) = true
/-- `p` is in `b`. -/
def PointInBox (b : BBox3 (Fl φ K)) (p : V3 (Fl φ K)) : Prop :=
  ∀ a, Fl.le (b.min.get a) (p.get a) = true ∧ Fl.le (p.get a) (b.max.get a) = true
end Spec
open Spec

section
variable {φ K : Type} [Field K] [LinearOrder K] [IsStrictOrderedRing K] [FloorRing K] [Rounding φ K]

theorem fmin_facts {a b : Fl φ K} (ha : a ≠ nan) (hb : b ≠ nan) :
    (fmin a b = a ∨ fmin a b = b) ∧ le (fmin a b) a = true ∧ le (fmin a b) b = true ∧ fmin a b ≠ nan := by
  unfold fmin
  simp only [isNaN_false.2 ha, isNaN_false.2 hb, Bool.false_eq_true, if_false]
  by_cases h : lt b a = true
  · simp only [h, if_true]; exact ⟨Or.inr trivial, le_of_lt' h, le_refl' hb, hb⟩
  · rw [if_neg h]; exact ⟨Or.inl rfl, le_refl' ha, (not_lt' hb ha).1 (by simpa using h), ha⟩

theorem fmax_facts {a b : Fl φ K} (ha : a ≠ nan) (hb : b ≠ nan) :
    (fmax a b = a ∨ fmax a b = b) ∧ le a (fmax a b) = true ∧ le b (fmax a b) = true ∧ fmax a b ≠ nan := by
  unfold fmax
  simp only [isNaN_false.2 ha, isNaN_false.2 hb, Bool.false_eq_true, if_false]
  by_cases h : lt a b = true
  · simp only [h, if_true]; exact ⟨Or.inr trivial, le_of_lt' h, le_refl' hb, hb⟩
  · rw [if_neg h]; exact ⟨Or.inl rfl, le_refl' ha, (not_lt' ha hb).1 (by simpa using h), ha⟩

theorem get_min (p q : V3 (Fl φ K)) (a : Axis) : (p.min q).get a = fmin (p.get a) (q.get a) := by cases a <;> rfl
theorem get_max (p q : V3 (Fl φ K)) (a : Axis) : (p.max q).get a = fmax (p.get a) (q.get a) := by cases a <;> rfl

theorem Spec.Contains.rfl' {b : BBox3 (Fl φ K)} (h : NoNaN b) : Contains b b := fun a => ⟨le_refl' (h.1 a), le_refl' (h.2 a)⟩
theorem Spec.Contains.trans {b c d : BBox3 (Fl φ K)} (h : Contains b c) (h' : Contains c d) : Contains b d :=
  fun a => ⟨le_trans' (h a).1 (h' a).1, le_trans' (h' a).2 (h a).2⟩

/-- C33, construction from two corners: the corners are ordered, both given points are in the box, and every face
goes through one of them. -/
theorem c33_new {p q : V3 (Fl φ K)} (hp : NoNaN3 p) (hq : NoNaN3 q) :
    NoNaN (BBox3.new p q) ∧ (∀ a, le ((BBox3.new p q).min.get a) ((BBox3.new p q).max.get a) = true) ∧
    PointInBox (BBox3.new p q) p ∧ PointInBox (BBox3.new p q) q ∧
    ∀ a, ((BBox3.new p q).min.get a = p.get a ∨ (BBox3.new p q).min.get a = q.get a) ∧
      ((BBox3.new p q).max.get a = p.get a ∨ (BBox3.new p q).max.get a = q.get a) := by
  have hmin : ∀ a, (BBox3.new p q).min.get a = fmin (p.get a) (q.get a) := get_min p q
  have hmax : ∀ a, (BBox3.new p q).max.get a = fmax (q.get a) (p.get a) := get_max q p
  have h1 := fun a => fmin_facts (hp a) (hq a)
  have h2 := fun a => fmax_facts (hq a) (hp a)
  refine ⟨⟨fun a => ?_, fun a => ?_⟩, fun a => ?_, fun a => ⟨?_, ?_⟩, fun a => ⟨?_, ?_⟩, fun a => ⟨?_, ?_⟩⟩ <;>
    simp only [hmin, hmax]
  · exact (h1 a).2.2.2
  · exact (h2 a).2.2.2
  · exact le_trans' (h1 a).2.1 (h2 a).2.2.1
  · exact (h1 a).2.1
  · exact (h2 a).2.2.1
  · exact (h1 a).2.2.1
  · exact (h2 a).2.1
  · exact (h1 a).1
  · exact (h2 a).1.symm

/-- C33, union: contains both boxes, and every face is a face of one of them. -/
theorem c33_union {b c : BBox3 (Fl φ K)} (hb : NoNaN b) (hc : NoNaN c) :
    NoNaN (b.union c) ∧ Contains (b.union c) b ∧ Contains (b.union c) c ∧
    ∀ a, ((b.union c).min.get a = b.min.get a ∨ (b.union c).min.get a = c.min.get a) ∧
      ((b.union c).max.get a = b.max.get a ∨ (b.union c).max.get a = c.max.get a) := by
  have hmin : ∀ a, (b.union c).min.get a = fmin (b.min.get a) (c.min.get a) := get_min _ _
  have hmax : ∀ a, (b.union c).max.get a = fmax (b.max.get a) (c.max.get a) := get_max _ _
  have h1 := fun a => fmin_facts (hb.1 a) (hc.1 a)
  have h2 := fun a => fmax_facts (hb.2 a) (hc.2 a)
  refine ⟨⟨fun a => ?_, fun a => ?_⟩, fun a => ⟨?_, ?_⟩, fun a => ⟨?_, ?_⟩, fun a => ⟨?_, ?_⟩⟩ <;>
    simp only [hmin, hmax]
  · exact (h1 a).2.2.2
  · exact (h2 a).2.2.2
  · exact (h1 a).2.1
  · exact (h2 a).2.1
  · exact (h1 a).2.2.1
  · exact (h2 a).2.2.1
  · exact (h1 a).1
  · exact (h2 a).1

/-- C33, union with a point. -/
theorem c33_union_point {b : BBox3 (Fl φ K)} {p : V3 (Fl φ K)} (hb : NoNaN b) (hp : NoNaN3 p) :
    NoNaN (b.unionPoint p) ∧ Contains (b.unionPoint p) b ∧
    (∀ a, le ((b.unionPoint p).min.get a) (p.get a) = true ∧ le (p.get a) ((b.unionPoint p).max.get a) = true) ∧
    ∀ a, ((b.unionPoint p).min.get a = b.min.get a ∨ (b.unionPoint p).min.get a = p.get a) ∧
      ((b.unionPoint p).max.get a = b.max.get a ∨ (b.unionPoint p).max.get a = p.get a) := by
  have h := c33_union (b := b) (c := ⟨p, p⟩) hb ⟨hp, hp⟩
  exact ⟨h.1, h.2.1, h.2.2.1, h.2.2.2⟩

theorem foldl_union (ss : List (Obj (Fl φ K))) : ∀ b : BBox3 (Fl φ K), NoNaN b → (∀ s ∈ ss, NoNaN s.shape.bbox) →
    NoNaN (ss.foldl (fun b s => b.union s.shape.bbox) b) ∧
    Contains (ss.foldl (fun b s => b.union s.shape.bbox) b) b ∧
    (∀ s ∈ ss, Contains (ss.foldl (fun b s => b.union s.shape.bbox) b) s.shape.bbox) ∧
    ∀ a, ((ss.foldl (fun b s => b.union s.shape.bbox) b).min.get a = b.min.get a ∨
        ∃ s ∈ ss, (ss.foldl (fun b s => b.union s.shape.bbox) b).min.get a = s.shape.bbox.min.get a) ∧
      ((ss.foldl (fun b s => b.union s.shape.bbox) b).max.get a = b.max.get a ∨
        ∃ s ∈ ss, (ss.foldl (fun b s => b.union s.shape.bbox) b).max.get a = s.shape.bbox.max.get a) := by
  induction ss with
  | nil => intro b hb _; exact ⟨hb, Contains.rfl' hb, by simp, fun a => ⟨Or.inl rfl, Or.inl rfl⟩⟩
  | cons s ss ih =>
    intro b hb hss
    obtain ⟨u1, u2, u3, u4⟩ := c33_union hb (hss s (by simp))
    obtain ⟨i1, i2, i3, i4⟩ := ih (b.union s.shape.bbox) u1 (fun t ht => hss t (by simp [ht]))
    simp only [List.foldl_cons]
    refine ⟨i1, Spec.Contains.trans i2 u2, ?_, fun a => ⟨?_, ?_⟩⟩
    · intro t ht
      rcases List.mem_cons.1 ht with rfl | ht
      · exact Spec.Contains.trans i2 u3
      · exact i3 t ht
    · rcases (i4 a).1 with h | ⟨t, ht, h⟩
      · rcases (u4 a).1 with h' | h'
        · exact Or.inl (h.trans h')
        · exact Or.inr ⟨s, by simp, h.trans h'⟩
      · exact Or.inr ⟨t, by simp [ht], h⟩
    · rcases (i4 a).2 with h | ⟨t, ht, h⟩
      · rcases (u4 a).2 with h' | h'
        · exact Or.inl (h.trans h')
        · exact Or.inr ⟨s, by simp, h.trans h'⟩
      · exact Or.inr ⟨t, by simp [ht], h⟩

/-- C33: the box of a list of shapes exists unless the list is empty, contains the box of every shape and is the smallest
such box (every face is a face of some shape's box). -/
theorem c33_bbox_of_shapes (ss : List (Obj (Fl φ K))) (hss : ∀ s ∈ ss, NoNaN s.shape.bbox) :
    (bboxOfShapes ss = none ↔ ss = []) ∧ ∀ b, bboxOfShapes ss = some b →
      NoNaN b ∧ (∀ s ∈ ss, Contains b s.shape.bbox) ∧
      ∀ a, (∃ s ∈ ss, b.min.get a = s.shape.bbox.min.get a) ∧ ∃ s ∈ ss, b.max.get a = s.shape.bbox.max.get a := by
  cases ss with
  | nil => simp [bboxOfShapes]
  | cons s ss =>
    refine ⟨by simp [bboxOfShapes], fun b hb => ?_⟩
    simp only [bboxOfShapes, Option.some.injEq] at hb
    subst hb
    obtain ⟨i1, i2, i3, i4⟩ := foldl_union ss s.shape.bbox (hss s (by simp)) (fun t ht => hss t (by simp [ht]))
    refine ⟨i1, ?_, fun a => ⟨?_, ?_⟩⟩
    · intro t ht
      rcases List.mem_cons.1 ht with rfl | ht
      · exact i2
      · exact i3 t ht
    · rcases (i4 a).1 with h | ⟨t, ht, h⟩
      · exact ⟨s, by simp, h⟩
      · exact ⟨t, by simp [ht], h⟩
    · rcases (i4 a).2 with h | ⟨t, ht, h⟩
      · exact ⟨s, by simp, h⟩
      · exact ⟨t, by simp [ht], h⟩
end

/-! ## C34 -/

section
variable {K : Type} [Field K] [LinearOrder K] [IsStrictOrderedRing K] [FloorRing K]

/-- The tolerance factor `1 + 2 γ(3)` of the box test. -/
theorem slabFactor : ∃ m : K, 1 ≤ m ∧ ((lit 1 +. lit 2 *. gamma (lit 3)) : Fl Exact K) = fin false m := by
  have hm : (machineEpsilon : Fl Exact K).IsFin ∧ (machineEpsilon : Fl Exact K).val = 1 / 2 ^ 24 := by
    unfold machineEpsilon epsilon
    obtain ⟨a, b⟩ := exact_mul (K := K) (exact_lit (1 / 2 ^ 23)).1 (exact_lit (1 / 2)).1
    refine ⟨a, b.trans ?_⟩
    rw [(exact_lit _).2, (exact_lit _).2]
    push_cast; norm_num
  have h3 := exact_mul (exact_lit (K := K) 3).1 hm.1
  have hd := exact_sub (exact_lit (K := K) 1).1 h3.1
  have hdv : (add (lit 1) (neg (mul (lit 3) machineEpsilon)) : Fl Exact K).val = 16777213 / 16777216 := by
    rw [hd.2, h3.2, hm.2, (exact_lit _).2, (exact_lit _).2]; push_cast; norm_num
  have hg := exact_div h3.1 hd.1 (by rw [hdv]; norm_num)
  have hgv : (gamma (lit 3) : Fl Exact K).IsFin ∧ (gamma (lit 3) : Fl Exact K).val = 3 / 16777213 := by
    refine ⟨hg.1, hg.2.trans ?_⟩
    rw [h3.2, hm.2, hdv, (exact_lit _).2]; push_cast; norm_num
  have h2 := exact_mul (exact_lit (K := K) 2).1 hgv.1
  have h1 := exact_add (exact_lit (K := K) 1).1 h2.1
  have hv : ((lit 1 +. lit 2 *. gamma (lit 3)) : Fl Exact K).val = 16777219 / 16777213 := by
    refine h1.2.trans ?_
    rw [h2.2, hgv.2, (exact_lit _).2, (exact_lit _).2]; push_cast; norm_num
  have hval : ((lit 1 +. lit 2 *. gamma (lit 3)) : Fl Exact K) = ofVal (16777219 / 16777213) false := by
    obtain ⟨zs, e⟩ := add_fin (exact_lit (K := K) 1).1 h2.1
    have : (lit 1 : Fl Exact K).val + (mul (lit 2) (gamma (lit 3)) : Fl Exact K).val = 16777219 / 16777213 := by
      rw [h2.2, hgv.2, (exact_lit _).2, (exact_lit _).2]; push_cast; norm_num
    refine e.trans ?_
    rw [this, ofVal_exact, ofVal_exact]
    have : (16777219 / 16777213 : K) ≠ 0 := by norm_num
    simp [this]
  refine ⟨16777219 / 16777213, by norm_num, hval.trans ?_⟩
  rw [ofVal_exact]
  have h1 : (16777219 / 16777213 : K) ≠ 0 := by norm_num
  have h2 : ¬ (16777219 / 16777213 : K) < 0 := by norm_num
  rw [if_neg h1, abs_of_nonneg (not_lt.1 h2)]
  simp only [h2, decide_false]

/-- One slab keeps every parameter that is inside the slab. -/
theorem slab_keeps (b : BBox3 (Fl Exact K)) (ray : Ray (Fl Exact K)) (a : Axis) (t : K) (ht : 0 ≤ t)
    (hlo : (b.min.get a).IsFin) (hhi : (b.max.get a).IsFin) (ho : (ray.origin.get a).IsFin)
    (hd : (ray.direction.get a).IsFin)
    (hz : ray.direction.get a = fin true 0 →
      (ray.origin.get a).val ≠ (b.min.get a).val ∧ (ray.origin.get a).val ≠ (b.max.get a).val)
    (h1 : (b.min.get a).val ≤ (ray.origin.get a).val + t * (ray.direction.get a).val)
    (h2 : (ray.origin.get a).val + t * (ray.direction.get a).val ≤ (b.max.get a).val)
    (T : Fl Exact K) (hT : T.IsFin) (hTv : T.val = t)
    (r : Fl Exact K × Fl Exact K) (hr1 : le r.1 T = true) (hr2 : le T r.2 = true) :
    ∃ r', b.slab ray a r = some r' ∧ le r'.1 T = true ∧ le T r'.2 = true := by
  obtain ⟨m, hm, hf⟩ := slabFactor (K := K)
  have hTn : T ≠ nan := hT.ne_nan
  -- it is enough that the (ordered) slab interval, if comparable, contains `T`
  have key : ∀ near far : Fl Exact K, (near = nan ∨ le near T = true) → (mul far (fin false m) = nan ∨ le T (mul far (fin false m)) = true) →
      (lt far near = true → False) →
      ∃ r', (let (tNear, tFar) := if near >. far then (far, near) else (near, far)
        let tFar := tFar *. fin false m
        let t0 := if tNear >. r.1 then tNear else r.1
        let t1 := if tFar <. r.2 then tFar else r.2
        if t0 >. t1 then none else some (t0, t1)) = some r' ∧ le r'.1 T = true ∧ le T r'.2 = true := by
    intro near far hn hf' hlt
    have hlt' : lt far near = false := by simpa using hlt
    simp only [f_lt, f_mul, hlt', Bool.false_eq_true, if_false]
    have e1 : le (if lt r.1 near = true then near else r.1) T = true := by
      by_cases h : lt r.1 near = true
      · rw [if_pos h]
        rcases hn with rfl | hn
        · rw [lt_nan_right] at h; cases h
        · exact hn
      · rw [if_neg h]; exact hr1
    have e2 : le T (if lt (mul far (fin false m)) r.2 = true then mul far (fin false m) else r.2) = true := by
      by_cases h : lt (mul far (fin false m)) r.2 = true
      · rw [if_pos h]
        rcases hf' with hf' | hf'
        · rw [hf', lt_nan_left] at h; cases h
        · exact hf'
      · rw [if_neg h]; exact hr2
    have e3 := lt_asymm' (le_trans' e1 e2)
    simp only [e3, Bool.false_eq_true, if_false]
    exact ⟨_, rfl, e1, e2⟩
  have keyS : ∀ near far : Fl Exact K, lt far near = true → le far T = true → le T (mul near (fin false m)) = true →
      ∃ r', (let (tNear, tFar) := if near >. far then (far, near) else (near, far)
        let tFar := tFar *. fin false m
        let t0 := if tNear >. r.1 then tNear else r.1
        let t1 := if tFar <. r.2 then tFar else r.2
        if t0 >. t1 then none else some (t0, t1)) = some r' ∧ le r'.1 T = true ∧ le T r'.2 = true := by
    intro near far hlt hn hf'
    have := key far near (Or.inr hn) (Or.inr hf') (fun h => by rw [lt_asymm' (le_of_lt' hlt)] at h; cases h)
    simpa only [f_lt, hlt, lt_asymm' (le_of_lt' hlt), if_true, Bool.false_eq_true, if_false] using this
  unfold BBox3.slab
  rw [hf]
  by_cases hd0 : (ray.direction.get a).val = 0
  · obtain ⟨s, hs⟩ := zero_of_val hd hd0
    simp only [f_sub, f_div]
    rw [hd0, mul_zero, add_zero] at h1 h2
    rw [hs, exact_sub_div_zero hlo ho, exact_sub_div_zero hhi ho]
    have hm0 : m ≠ 0 := by linarith
    cases s with
    | false =>
      apply key
      · by_cases h : (b.min.get a).val = (ray.origin.get a).val
        · left; rw [if_pos h]
        · right; rw [if_neg h, le_iff]
          have : (b.min.get a).val < (ray.origin.get a).val := lt_of_le_of_ne h1 h
          simp [this, hTn, ev]
      · by_cases h : (b.max.get a).val = (ray.origin.get a).val
        · left; rw [if_pos h]; rfl
        · right; rw [if_neg h]
          have : ¬ (b.max.get a).val < (ray.origin.get a).val := not_lt.2 h2
          obtain ⟨sT, xT, rfl⟩ := IsFin_iff.1 hT
          simp [this, mul, hm0, le]
      · by_cases h : (b.min.get a).val = (ray.origin.get a).val
        · rw [if_pos h, lt_nan_right]; simp
        · have h' : (b.min.get a).val < (ray.origin.get a).val := lt_of_le_of_ne h1 h
          rw [if_neg h]
          by_cases h2' : (b.max.get a).val = (ray.origin.get a).val
          · rw [if_pos h2', lt_nan_left]; simp
          · rw [if_neg h2']; simp [h', lt]
    | true =>
      obtain ⟨z1, z2⟩ := hz hs
      have l1 : (b.min.get a).val < (ray.origin.get a).val := lt_of_le_of_ne h1 (Ne.symm z1)
      have l2 : ¬ (b.max.get a).val < (ray.origin.get a).val := not_lt.2 h2
      rw [if_neg (Ne.symm z1), if_neg (Ne.symm z2)]
      simp only [l1, l2, decide_true, decide_false, Bool.xor_true, Bool.not_true, Bool.not_false]
      exact keyS (inf false) (inf true) rfl (by obtain ⟨sT, xT, rfl⟩ := IsFin_iff.1 hT; rfl)
        (by obtain ⟨sT, xT, rfl⟩ := IsFin_iff.1 hT; simp [mul, hm0, le])
  · simp only [f_sub, f_div]
    obtain ⟨n1, n2⟩ := exact_sub hlo ho
    obtain ⟨n3, n4⟩ := exact_sub hhi ho
    obtain ⟨n5, n6⟩ := exact_div n1 hd hd0
    obtain ⟨n7, n8⟩ := exact_div n3 hd hd0
    rw [n2] at n6; rw [n4] at n8
    generalize div (add (b.min.get a) (neg (ray.origin.get a))) (ray.direction.get a) = near at *
    generalize div (add (b.max.get a) (neg (ray.origin.get a))) (ray.direction.get a) = far at *
    generalize (b.min.get a).val = lo at *
    generalize (b.max.get a).val = hi at *
    generalize (ray.origin.get a).val = o at *
    generalize (ray.direction.get a).val = d at *
    have hmv : (fin false m : Fl Exact K).val = m := rfl
    have hmul : ∀ x : Fl Exact K, x.IsFin → t ≤ x.val → le T (mul x (fin false m)) = true := by
      intro x hx hxt
      obtain ⟨q1, q2⟩ := exact_mul hx (b := (fin false m : Fl Exact K)) trivial
      rw [le_val hT q1, hTv, q2, hmv]
      nlinarith
    rcases lt_or_gt_of_ne hd0 with hneg | hpos
    · have a1 : t ≤ near.val := by rw [n6, le_div_iff_of_neg hneg]; linarith
      have a2 : far.val ≤ t := by rw [n8, div_le_iff_of_neg hneg]; linarith
      by_cases hc : lt far near = true
      · exact keyS near far hc (by rw [le_val n7 hT, hTv]; exact a2) (hmul near n5 a1)
      · have hc' : near.val ≤ far.val := not_lt.1 (fun h => hc ((lt_val n7 n5).2 h))
        exact key near far (Or.inr (by rw [le_val n5 hT, hTv]; linarith))
          (Or.inr (hmul far n7 (by linarith))) hc
    · have a1 : near.val ≤ t := by rw [n6, div_le_iff₀ hpos]; linarith
      have a2 : t ≤ far.val := by rw [n8, le_div_iff₀ hpos]; linarith
      exact key near far (Or.inr (by rw [le_val n5 hT, hTv]; exact a1)) (Or.inr (hmul far n7 a2))
        (fun h => absurd ((lt_val n7 n5).1 h) (by linarith))

namespace Spec
/-- The point of the ray with parameter `t` is in the box (the numbers that the finite values stand for). -/
def RayInBox (b : BBox3 (Fl Exact K)) (ray : Ray (Fl Exact K)) (t : K) : Prop :=
  ∀ a, (b.min.get a).val ≤ (ray.origin.get a).val + t * (ray.direction.get a).val ∧
    (ray.origin.get a).val + t * (ray.direction.get a).val ≤ (b.max.get a).val
/-- All corner coordinates are finite numbers. -/
def FinBox (b : BBox3 (Fl Exact K)) : Prop := ∀ a, (b.min.get a).IsFin ∧ (b.max.get a).IsFin
/-- Origin and direction are finite; `t_max` is free. -/
def FinRay (ray : Ray (Fl Exact K)) : Prop := ∀ a, (ray.origin.get a).IsFin ∧ (ray.direction.get a).IsFin
/-- The exceptional case: a direction component that is *negative* zero while the origin is exactly on one of the two
faces of that axis. -/
def NegZeroOnFace (b : BBox3 (Fl Exact K)) (ray : Ray (Fl Exact K)) : Prop :=
  ∃ a, ray.direction.get a = fin true 0 ∧
    ((ray.origin.get a).val = (b.min.get a).val ∨ (ray.origin.get a).val = (b.max.get a).val)
end Spec

/-- C34 for all boxes and rays (zero direction components and infinite `t_max` included), in exact arithmetic with
infinities and NaN, except for `NegZeroOnFace`. Missing: that case, for which the claim is false (`c34_refuted`). -/
theorem c34_no_false_negatives_partial (b : BBox3 (Fl Exact K)) (ray : Ray (Fl Exact K)) (hb : FinBox b) (hr : FinRay ray)
    (hz : ¬ NegZeroOnFace b ray) (t : K) (h0 : 0 ≤ t) (htm : le (fin false t) ray.tMax = true) (hin : RayInBox b ray t) :
    ∃ t0 t1, b.intersect ray = some (t0, t1) ∧ le t0 (fin false t) = true ∧ le (fin false t) t1 = true := by
  have hz' : ∀ a, ray.direction.get a = fin true 0 →
      (ray.origin.get a).val ≠ (b.min.get a).val ∧ (ray.origin.get a).val ≠ (b.max.get a).val :=
    fun a h => ⟨fun e => hz ⟨a, h, Or.inl e⟩, fun e => hz ⟨a, h, Or.inr e⟩⟩
  have step := fun (a : Axis) (r : Fl Exact K × Fl Exact K) (h1 : le r.1 (fin false t) = true) (h2 : le (fin false t) r.2 = true) =>
    slab_keeps b ray a t h0 (hb a).1 (hb a).2 (hr a).1 (hr a).2 (hz' a) (hin a).1 (hin a).2 (fin false t) trivial rfl r h1 h2
  obtain ⟨r1, e1, p1, q1⟩ := step .X (lit 0, ray.tMax)
    (by rw [lit_zero, le_fin]; simpa [sgn] using h0) htm
  obtain ⟨r2, e2, p2, q2⟩ := step .Y r1 p1 q1
  obtain ⟨r3, e3, p3, q3⟩ := step .Z r2 p2 q2
  refine ⟨r3.1, r3.2, ?_, p3, q3⟩
  simp only [BBox3.intersect, Option.bind_eq_bind]
  rw [e1, Option.bind_some, e2, Option.bind_some, e3]

end

/-- A ray in the plane of a face, parallel to an axis, with infinite range: the hypotheses of
`c34_no_false_negatives_partial` hold (parameter 2). -/
example :
    let b : BBox3 XQ := ⟨⟨.fin false 0, .fin false 0, .fin false 0⟩, ⟨.fin false 1, .fin false 1, .fin false 1⟩⟩
    let ray : Ray XQ := ⟨⟨.fin false 0, .fin true 2, .fin false (1/2)⟩, ⟨.fin false 0, .fin false 1, .fin true 0⟩, .inf false⟩
    FinBox b ∧ FinRay ray ∧ ¬ NegZeroOnFace b ray ∧ le (.fin false 2) ray.tMax = true ∧ RayInBox b ray 2 := by
  refine ⟨fun a => by cases a <;> exact ⟨trivial, trivial⟩, fun a => by cases a <;> exact ⟨trivial, trivial⟩, ?_, rfl, ?_⟩
  · rintro ⟨a, h, h'⟩
    cases a <;> simp [V3.get] at h
    revert h'; simp only [V3.get, Fl.val, sgn]; norm_num
  · intro a; cases a <;> simp only [V3.get, Fl.val, sgn] <;> norm_num

/-- C34 is false in the exceptional case: a ray whose direction has `-0.0` as x component and whose origin is on the
lower x face misses the unit box although every parameter in [1, 2] is in it. -/
theorem c34_refuted : ∃ (b : BBox3 XQ) (ray : Ray XQ), FinBox b ∧ FinRay ray ∧ RayInBox b ray 1 ∧
    le (.fin false 1) ray.tMax = true ∧ b.intersect ray = none := by
  refine ⟨⟨⟨.fin false 0, .fin false 0, .fin false 0⟩, ⟨.fin false 1, .fin false 1, .fin false 1⟩⟩,
    ⟨⟨.fin false 0, .fin true 1, .fin false (1/2)⟩, ⟨.fin true 0, .fin false 1, .fin false 0⟩, .fin false 10⟩,
    fun a => by cases a <;> exact ⟨trivial, trivial⟩, fun a => by cases a <;> exact ⟨trivial, trivial⟩, ?_, by decide +kernel, by decide +kernel⟩
  intro a; cases a <;> simp only [V3.get, Fl.val, sgn] <;> norm_num

/-! ## C35 -/

namespace Spec
/-- `γ(3)` as a real number: 3 ε / (1 - 3 ε) with ε = 2^-24. -/
noncomputable def gamma3 : ℝ := 3 * 2⁻¹ ^ 24 / (1 - 3 * 2⁻¹ ^ 24)
/-- The parameters where the ray's line meets the two planes of an axis. -/
noncomputable def planeLo (b : BBox3 ℝ) (ray : Ray ℝ) (a : Axis) : ℝ := (b.min.get a - ray.origin.get a) / ray.direction.get a
noncomputable def planeHi (b : BBox3 ℝ) (ray : Ray ℝ) (a : Axis) : ℝ := (b.max.get a - ray.origin.get a) / ray.direction.get a
end Spec

theorem slab_real (b : BBox3 ℝ) (ray : Ray ℝ) (a : Axis) (r : ℝ × ℝ) :
    b.slab ray a r =
      if max r.1 (min (planeLo b ray a) (planeHi b ray a)) ≤ min r.2 (max (planeLo b ray a) (planeHi b ray a) * (1 + 2 * gamma3)) then
        some (max r.1 (min (planeLo b ray a) (planeHi b ray a)), min r.2 (max (planeLo b ray a) (planeHi b ray a) * (1 + 2 * gamma3)))
      else none := by
  have hg : (lit 1 +. lit 2 *. gamma (lit 3) : ℝ) = 1 + 2 * gamma3 := by
    unfold gamma machineEpsilon epsilon gamma3
    real_ops
    push_cast
    norm_num
  unfold BBox3.slab
  rw [hg]
  have e1 : (b.min.get a -. ray.origin.get a) /. ray.direction.get a = planeLo b ray a := rfl
  have e2 : (b.max.get a -. ray.origin.get a) /. ray.direction.get a = planeHi b ray a := rfl
  rw [e1, e2]
  generalize planeLo b ray a = lo
  generalize planeHi b ray a = hi
  have hpair : (if lo >. hi then (hi, lo) else (lo, hi)) = (min lo hi, max lo hi) := by
    real_ops
    by_cases h : hi < lo
    · simp [h, min_eq_right h.le, max_eq_left h.le]
    · simp [h, min_eq_left (not_lt.1 h), max_eq_right (not_lt.1 h)]
  dsimp only
  rw [hpair]
  generalize min lo hi = n
  generalize max lo hi = f
  simp only
  real_ops
  have t0 : (if r.1 < n then n else r.1) = max r.1 n := by
    by_cases h : r.1 < n
    · rw [if_pos h, max_eq_right h.le]
    · rw [if_neg h, max_eq_left (not_lt.1 h)]
  have t1 : (if f * (1 + 2 * gamma3) < r.2 then f * (1 + 2 * gamma3) else r.2) = min r.2 (f * (1 + 2 * gamma3)) := by
    by_cases h : f * (1 + 2 * gamma3) < r.2
    · rw [if_pos h, min_eq_right h.le]
    · rw [if_neg h, min_eq_left (not_lt.1 h)]
  rw [t0, t1]
  by_cases h : max r.1 n ≤ min r.2 (f * (1 + 2 * gamma3))
  · rw [if_neg (not_lt.2 h), if_pos h]
  · rw [if_pos (not_le.1 h), if_neg h]

/-- C35: for rays with non-zero direction components, the answer is `Some((t0, t1))` exactly when the interval of
parameters t with 0 ≤ t ≤ t_max that, for every axis, are not before the nearer plane and not beyond the farther plane times
`1 + 2γ(3)` is not empty, and then t0 and t1 are its end points. -/
theorem c35_box_test (b : BBox3 ℝ) (ray : Ray ℝ) (_hd : ∀ a, ray.direction.get a ≠ 0) :
    let S := {t : ℝ | 0 ≤ t ∧ t ≤ ray.tMax ∧ ∀ a, min (planeLo b ray a) (planeHi b ray a) ≤ t ∧
      t ≤ max (planeLo b ray a) (planeHi b ray a) * (1 + 2 * gamma3)}
    (∀ t0 t1, b.intersect ray = some (t0, t1) → t0 ≤ t1 ∧ S = Set.Icc t0 t1) ∧
    (b.intersect ray = none → S = ∅) := by
  intro S
  have hS : S = Set.Icc (max (max (max 0 (min (planeLo b ray .X) (planeHi b ray .X))) (min (planeLo b ray .Y) (planeHi b ray .Y)))
        (min (planeLo b ray .Z) (planeHi b ray .Z)))
      (min (min (min ray.tMax (max (planeLo b ray .X) (planeHi b ray .X) * (1 + 2 * gamma3)))
        (max (planeLo b ray .Y) (planeHi b ray .Y) * (1 + 2 * gamma3))) (max (planeLo b ray .Z) (planeHi b ray .Z) * (1 + 2 * gamma3))) := by
    ext t
    simp only [S, Set.mem_setOf_eq, Set.mem_Icc, sup_le_iff, le_inf_iff]
    constructor
    · rintro ⟨h0, h1, h⟩
      exact ⟨⟨⟨⟨h0, (h .X).1⟩, (h .Y).1⟩, (h .Z).1⟩, ⟨⟨h1, (h .X).2⟩, (h .Y).2⟩, (h .Z).2⟩
    · rintro ⟨⟨⟨⟨h0, hx⟩, hy⟩, hz⟩, ⟨⟨h1, hx'⟩, hy'⟩, hz'⟩
      exact ⟨h0, h1, fun a => by cases a <;> constructor <;> assumption⟩
  have h00 : (lit 0 : ℝ) = 0 := by real_ops
  unfold BBox3.intersect
  simp only [slab_real, h00, Option.bind_eq_bind]
  generalize min (planeLo b ray .X) (planeHi b ray .X) = nx at *
  generalize min (planeLo b ray .Y) (planeHi b ray .Y) = ny at *
  generalize min (planeLo b ray .Z) (planeHi b ray .Z) = nz at *
  generalize max (planeLo b ray .X) (planeHi b ray .X) * (1 + 2 * gamma3) = fx at *
  generalize max (planeLo b ray .Y) (planeHi b ray .Y) * (1 + 2 * gamma3) = fy at *
  generalize max (planeLo b ray .Z) (planeHi b ray .Z) * (1 + 2 * gamma3) = fz at *
  rw [hS]
  by_cases c1 : max 0 nx ≤ min ray.tMax fx
  · rw [if_pos c1, Option.bind_some]
    simp only
    by_cases c2 : max (max 0 nx) ny ≤ min (min ray.tMax fx) fy
    · rw [if_pos c2, Option.bind_some]
      simp only
      by_cases c3 : max (max (max 0 nx) ny) nz ≤ min (min (min ray.tMax fx) fy) fz
      · rw [if_pos c3]
        refine ⟨?_, by simp⟩
        rintro t0 t1 h
        simp only [Option.some.injEq, Prod.mk.injEq] at h
        rw [← h.1, ← h.2]; exact ⟨c3, rfl⟩
      · rw [if_neg c3]
        exact ⟨by simp, fun _ => Set.Icc_eq_empty c3⟩
    · rw [if_neg c2]
      refine ⟨by simp, fun _ => Set.Icc_eq_empty fun h => c2 ?_⟩
      exact (le_max_left _ _).trans (h.trans (min_le_left _ _))
  · rw [if_neg c1]
    refine ⟨by simp, fun _ => Set.Icc_eq_empty fun h => c1 ?_⟩
    exact (le_max_left _ _).trans ((le_max_left _ _).trans (h.trans ((min_le_left _ _).trans (min_le_left _ _))))

/-- A diagonal ray through the unit box is reported, with the interval [1, 2 (1 + 2γ(3))] cut at t_max. -/
example : (BBox3.intersect (⟨⟨0, 0, 0⟩, ⟨1, 1, 1⟩⟩ : BBox3 ℝ) ⟨⟨-1, -1, -1⟩, ⟨1, 1, 1⟩, 2⟩) = some (1, 2) := by
  have hg : 0 ≤ gamma3 := by unfold gamma3; norm_num
  simp only [BBox3.intersect, slab_real, planeLo, planeHi, V3.get, Option.bind_eq_bind]
  have h00 : (lit 0 : ℝ) = 0 := by real_ops
  rw [h00]
  norm_num
  have : (2 : ℝ) ≤ 2 * (1 + 2 * gamma3) := by nlinarith
  have h1 : (1 : ℝ) ≤ 2 * (1 + 2 * gamma3) := by linarith
  rw [min_eq_left this, if_pos h1, Option.bind_some]
  simp only
  rw [if_pos (by norm_num; exact h1), Option.bind_some]
  simp only
  rw [min_eq_left this, if_pos (by norm_num; exact h1)]
  norm_num [hg]

end PT
