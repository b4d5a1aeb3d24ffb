import Verif.Props.SameImageDemo
import Verif.Props.Wall

/-!
# What no ray meets does not change the picture (C114)
-/

namespace PT
open Spec

/-! ### Specification -/

namespace Spec
section
variable {α : Type} [Scalar α] [Libm α]

/-- The shape does not answer "no hit" to every question about the ray and about the same ray with another range. -/
def Notices (s : Shape α) (r : Ray α) : Prop :=
  ¬ ∀ tm, s.intersect ⟨r.origin, r.direction, tm⟩ = some none ∧ s.intersectP ⟨r.origin, r.direction, tm⟩ = some false

/-- The second sequence of calls of the builder is the first one with one shape more, added at any place. -/
def OneMore (hist hist' : List (BuilderCall α)) (addr : Nat) (s : Shape α) : Prop :=
  ∃ pre post, hist = pre ++ post ∧ hist' = pre ++ .shape addr s :: post

/-- The additional shape does not make the scene larger: the box for the lights and the box of the container stay the same. -/
def SameBoxes (hist hist' : List (BuilderCall α)) : Prop :=
  (built hist).sceneBBox = (built hist').sceneBBox ∧ bboxOfShapes (sceneShapes hist) = bboxOfShapes (sceneShapes hist')

/-- No lights but area lights. -/
def NoDistant (hist : List (BuilderCall α)) : Prop := ∀ addr l, BuilderCall.light addr l ∉ hist
end

/-- A triangle two corners of which are the same point. -/
def Collapsed {α : Type} (s : Triangle α) : Prop := s.v0 = s.v1 ∨ s.v1 = s.v2 ∨ s.v0 = s.v2

/-- The three corners are on one line. -/
def Flat (s : Triangle XR) : Prop := planeNormal s.realized = ⟨0, 0, 0⟩

/-- Numbers of at most a million (2²⁰). -/
def Small (v : V3 F32) : Prop := ∀ a, Fl.Num (v.get a) ∧ |(v.get a).val| ≤ 2 ^ 20

/-- A ray from a point with coordinates of at most a million in a direction that is not zero. -/
def SmallRay (r : Ray F32) : Prop := Small r.origin ∧ (∀ a, Fl.Num (r.direction.get a)) ∧ ∃ a, (r.direction.get a).val ≠ 0
end Spec

/-! ### Any arithmetic: the brute-force container -/

section
variable {α : Type} [Scalar α]

theorem closestHit_without (x : Obj α) (o d : V3 α) (hx : ∀ tm, x.shape.intersect ⟨o, d, tm⟩ = some none) :
    ∀ (l l' : List (Obj α)) (tm : α) (h : Option (Hit α)), closestHit (l ++ x :: l') ⟨o, d, tm⟩ h = closestHit (l ++ l') ⟨o, d, tm⟩ h := by
  intro l
  induction l with
  | nil =>
    intro l' tm h
    simp only [List.nil_append, closestHit, Obj.intersect, hx, Option.map_some, Option.elim, Option.bind_some]
    rfl
  | cons s l ih =>
    intro l' tm h
    simp only [List.cons_append, closestHit, Obj.intersect]
    cases s.shape.intersect ⟨o, d, tm⟩ with
    | none => rfl
    | some y =>
      cases y with
      | none => exact ih l' tm h
      | some z => exact ih l' z.2 _

theorem anyHit_without (x : Obj α) (ray : Ray α) (hx : x.shape.intersectP ray = some false) :
    ∀ (l l' : List (Obj α)), anyHit ray (l ++ x :: l') = anyHit ray (l ++ l') := by
  intro l
  induction l with
  | nil => intro l'; simp [anyHit, hx]
  | cons s l ih => intro l'; simp only [List.cons_append, anyHit, ih]

variable [Libm α]

theorem addedShapes_append (l l' : List (BuilderCall α)) : addedShapes (l ++ l') = addedShapes l ++ addedShapes l' := by
  induction l with
  | nil => rfl
  | cons c l ih => cases c <;> simp [addedShapes, ih]

theorem addedAreas_append (l l' : List (BuilderCall α)) : addedAreas (l ++ l') = addedAreas l ++ addedAreas l' := by
  induction l with
  | nil => rfl
  | cons c l ih => cases c <;> simp [addedAreas, ih]

theorem addedLights_append (box : BBox3 α) (l l' : List (BuilderCall α)) : addedLights box (l ++ l') = addedLights box l ++ addedLights box l' := by
  induction l with
  | nil => rfl
  | cons c l ih => cases c <;> simp [addedLights, ih]

theorem addedLights_none (box : BBox3 α) : ∀ (l : List (BuilderCall α)), NoDistant l → addedLights box l = [] := by
  intro l
  induction l with
  | nil => intro _; rfl
  | cons c l ih =>
    intro h
    cases c with
    | light addr f => exact absurd List.mem_cons_self (h addr f)
    | shape addr s => exact ih fun a f hm => h a f (List.mem_cons_of_mem _ hm)
    | area addr s => exact ih fun a f hm => h a f (List.mem_cons_of_mem _ hm)

/-- The lists of shapes, lights and area lights of the two scenes. -/
theorem oneMore_lists {hist hist' : List (BuilderCall α)} {addr : Nat} {s : Shape α} (h : OneMore hist hist' addr s) :
    (∃ l l', sceneShapes hist = l ++ l' ∧ sceneShapes hist' = l ++ ⟨addr, s⟩ :: l') ∧ addedAreas hist = addedAreas hist' ∧
    ∀ box, addedLights box hist = addedLights box hist' := by
  obtain ⟨pre, post, rfl, rfl⟩ := h
  have ha : addedAreas (pre ++ post) = addedAreas (pre ++ .shape addr s :: post) := by
    rw [addedAreas_append, addedAreas_append]; rfl
  refine ⟨⟨addedShapes pre, addedShapes post ++ asShapes (addedAreas (pre ++ post)), ?_, ?_⟩, ha, fun box => ?_⟩
  · rw [sceneShapes, addedShapes_append, List.append_assoc]
  · rw [sceneShapes, addedShapes_append, ← ha]
    simp [addedShapes]
  · rw [addedLights_append, addedLights_append]; rfl

theorem oneMore_lights {hist hist' : List (BuilderCall α)} {addr : Nat} {s : Shape α} (h : OneMore hist hist' addr s)
    (hb : (built hist).sceneBBox = (built hist').sceneBBox ∨ NoDistant hist) {mk mk' : List (Obj α) → Option (Container α)} {scene scene' : Scene α}
    (hsc : (built hist).construct mk = some scene) (hsc' : (built hist').construct mk' = some scene') : scene.lights = scene'.lights := by
  obtain ⟨-, h2, h3⟩ := oneMore_lists h
  obtain ⟨box, b1, hc, -⟩ := c65_construct hist mk
  obtain ⟨box', b1', hc', -⟩ := c65_construct hist' mk'
  rw [(hc scene hsc).1, (hc' scene' hsc').1, h2]
  congr 1
  rcases hb with hb | hb
  · rw [b1, b1'] at hb
    rw [h3, Option.some.inj hb]
  · rw [← h3 box', addedLights_none box _ hb, addedLights_none box' _ hb]

/-- The brute-force container with one shape more answers alike about every ray that the shape does not notice. -/
theorem oneMore_simple {hist hist' : List (BuilderCall α)} {addr : Nat} {s : Shape α} (h : OneMore hist hist' addr s) (hb : SameBoxes hist hist')
    {scene scene' : Scene α} (hsc : (built hist).construct (fun ss => (Simple.new ss).map Simple.toContainer) = some scene)
    (hsc' : (built hist').construct (fun ss => (Simple.new ss).map Simple.toContainer) = some scene') : SameAnswersExcept (Notices s) scene scene' := by
  obtain ⟨⟨l, l', e1, e2⟩, -, -⟩ := oneMore_lists h
  obtain ⟨_, _, hc, -⟩ := c65_construct hist (fun ss => (Simple.new ss).map Simple.toContainer)
  obtain ⟨_, _, hc', -⟩ := c65_construct hist' (fun ss => (Simple.new ss).map Simple.toContainer)
  have g := (hc scene hsc).2
  have g' := (hc' scene' hsc').2
  have hbox := hb.2
  rw [e1, e2] at hbox
  simp only [e1, e2, Simple.new, Option.map_map, Option.map_eq_some_iff] at g g'
  obtain ⟨b, hb1, g⟩ := g
  obtain ⟨b', hb1', g'⟩ := g'
  obtain rfl : b = b' := by rw [hb1, hb1'] at hbox; exact Option.some.inj hbox
  rintro ⟨o, d, tm⟩ hr
  simp only [Notices, not_not] at hr
  unfold Scene.intersect Scene.intersectP
  rw [← g, ← g']
  constructor
  · change Simple.intersect _ _ = Simple.intersect _ _
    unfold Simple.intersect
    simp only []
    rw [closestHit_without ⟨addr, s⟩ o d fun tm => (hr tm).1]
  · change Simple.intersectP _ _ = Simple.intersectP _ _
    unfold Simple.intersectP
    simp only []
    rw [anyHit_without ⟨addr, s⟩ _ (hr tm).2]

/-- **C114**, any arithmetic, brute-force container: a shape that does not make the scene larger and that no ray of any sample meets does not change the picture. -/
theorem c114_unmet [HasInf α] [HasNext α] {hist hist' : List (BuilderCall α)} {addr : Nat} {s : Shape α} (h : OneMore hist hist' addr s) (hb : SameBoxes hist hist')
    {scene scene' : Scene α} (hsc : (built hist).construct (fun ss => (Simple.new ss).map Simple.toContainer) = some scene)
    (hsc' : (built hist').construct (fun ss => (Simple.new ss).map Simple.toContainer) = some scene') (camera : PerspectiveCamera α)
    (res : V2 Int) (filt : Filter α) (spp : Nat) (hspp : spp < 2 ^ 32) (n : Nat) (file : Option (List UInt8)) :
    let film := Film.new res filt
    let sampler := HaltonSampler.new spp film.sampleBBox
    (∀ p, Spec.InBox film.sampleBBox p → ∀ i < max 1 spp, ¬ SampleTraces scene camera (Notices s) sampler p i) →
    ∀ k st, RReach (fun s b => renderTile HaltonSampler.ops (cameraRadiance scene camera) film s b) sampler (RState.init film n file) k st ↔
      RReach (fun s b => renderTile HaltonSampler.ops (cameraRadiance scene' camera) film s b) sampler (RState.init film n file) k st :=
  c105_same_answers (oneMore_lights h (.inl hb.1) hsc hsc') (oneMore_simple h hb hsc hsc') camera res filt spp hspp n file
end

/-! ### Single precision: collapsed triangles -/

section
open Fl Triangle

theorem ofVal_neg_val (x : ℚ) (a b : Bool) : (ofVal (-x) a : F32).val = -(ofVal x b : F32).val := by
  unfold ofVal
  by_cases h : x = 0
  · subst h; simp [val, sgn]
  · rcases lt_or_gt_of_ne h with h1 | h1
    · have h2 : ¬ -x < 0 := by linarith
      rw [if_neg (by simpa using h), if_neg h2, if_neg h, if_pos h1]
      cases Rounding.rnd Binary32 (-x) <;> simp [val, sgn]
    · have h2 : -x < 0 := by linarith
      rw [if_neg (by simpa using h), if_pos h2, if_neg h, if_neg (by linarith), neg_neg]
      cases Rounding.rnd Binary32 x <;> simp [val, sgn]

theorem mul_swap (a b : F32) : a *. b = b *. a := by
  rw [f_mul, f_mul]
  cases a <;> cases b <;> simp [Fl.mul, Bool.xor_comm, mul_comm]

theorem sub_swap {a b : F32} (ha : Num a) (hb : Num b) : (a -. b).val = -(b -. a).val := by
  obtain ⟨na, va⟩ := neg_ok ha
  obtain ⟨nb, vb⟩ := neg_ok hb
  obtain ⟨z, e⟩ := add_fin ha.fin nb.fin
  obtain ⟨z', e'⟩ := add_fin hb.fin na.fin
  change (Fl.add a (⊖b)).val = -(Fl.add b (⊖a)).val
  rw [e, e', vb, va, show a.val + -b.val = -(b.val + -a.val) by ring]
  exact ofVal_neg_val _ _ _

/-- The same edge in the two directions. -/
theorem edge_swap {a b : V3 F32} {X Y : ℚ} (na : Num a.x ∧ Num a.y) (nb : Num b.x ∧ Num b.y) (ha : |a.x.val| ≤ X ∧ |a.y.val| ≤ Y)
    (hb : |b.x.val| ≤ X ∧ |b.y.val| ≤ Y) (rX : X ≤ 2 ^ 30) (rY : Y ≤ 2 ^ 30) :
    (b.x *. a.y -. b.y *. a.x).val = -(a.x *. b.y -. a.y *. b.x).val := by
  have X0 : 0 ≤ X := (abs_nonneg _).trans ha.1
  have Y0 : 0 ≤ Y := (abs_nonneg _).trans ha.2
  have XY : X * Y ≤ 2 ^ 60 := by
    have : X * Y ≤ 2 ^ 30 * 2 ^ 30 := by gcongr
    linarith
  have h1 : |a.x.val * b.y.val| ≤ X * Y := by rw [abs_mul]; exact mul_le_mul ha.1 hb.2 (abs_nonneg _) X0
  have h2 : |a.y.val * b.x.val| ≤ X * Y := by rw [abs_mul, mul_comm]; exact mul_le_mul hb.1 ha.2 (abs_nonneg _) X0
  rw [mul_swap b.x a.y, mul_swap b.y a.x]
  exact sub_swap (mul_ok na.2 nb.1 (by linarith)).1 (mul_ok na.1 nb.2 (by linarith)).1

/-- Two opposite edge functions and one that is zero: the test rejects. -/
theorem collapsed_rejects {g : Stage F32} (tm : F32) (n0 : Num g.e0) (n1 : Num g.e1) (n2 : Num g.e2)
    (h : (g.e0.val = -g.e1.val ∧ g.e2.val = 0) ∨ (g.e1.val = -g.e2.val ∧ g.e0.val = 0) ∨ (g.e0.val = -g.e2.val ∧ g.e1.val = 0)) : g.rejects tm = true := by
  unfold Stage.rejects
  by_cases hz : g.e0.val = 0 ∧ g.e1.val = 0 ∧ g.e2.val = 0
  · obtain ⟨z0, z1, z2⟩ := hz
    have hd : (g.det ==. PT.lit 0) = true := by
      unfold Stage.det
      obtain ⟨m1, k1⟩ := add_ok n0 n1 (by rw [z0, z1]; norm_num)
      rw [z0, z1] at k1
      have v1 : (g.e0 +. g.e1).val = 0 := by simpa using k1
      obtain ⟨m2, k2⟩ := add_ok m1 n2 (by rw [v1, z2]; norm_num)
      rw [v1, z2] at k2
      rw [eq_ok m2 zero_ok.1, zero_ok.2]
      simpa using k2
    rw [hd]; simp
  · have : g.mixed = true := by
      unfold Stage.mixed
      rw [Bool.and_eq_true, Bool.or_eq_true, Bool.or_eq_true, Bool.or_eq_true, Bool.or_eq_true, lt_ok n0 zero_ok.1, lt_ok n1 zero_ok.1, lt_ok n2 zero_ok.1]
      change _ ∧ (((PT.lit 0 <. _) = true ∨ (PT.lit 0 <. _) = true) ∨ (PT.lit 0 <. _) = true)
      rw [lt_ok zero_ok.1 n0, lt_ok zero_ok.1 n1, lt_ok zero_ok.1 n2, zero_ok.2]
      rcases h with ⟨h, k⟩ | ⟨h, k⟩ | ⟨h, k⟩
      · rcases lt_trichotomy g.e0.val 0 with c | c | c
        · exact ⟨.inl (.inl c), .inl (.inr (by linarith))⟩
        · exact absurd ⟨c, by linarith, k⟩ hz
        · exact ⟨.inl (.inr (by linarith)), .inl (.inl c)⟩
      · rcases lt_trichotomy g.e1.val 0 with c | c | c
        · exact ⟨.inl (.inr c), .inr (by linarith)⟩
        · exact absurd ⟨k, c, by linarith⟩ hz
        · exact ⟨.inr (by linarith), .inl (.inr c)⟩
      · rcases lt_trichotomy g.e0.val 0 with c | c | c
        · exact ⟨.inl (.inl c), .inr (by linarith)⟩
        · exact absurd ⟨c, k, by linarith⟩ hz
        · exact ⟨.inr (by linarith), .inl (.inl c)⟩
    rw [this]; rfl

/-- The longest axis of the direction. -/
theorem longest_axis {d : V3 F32} (hd : ∀ a, Num (d.get a)) : ∃ m, d.maxAbsAxis = some m ∧ ∀ a, |(d.get a).val| ≤ |(d.get m).val| := by
  obtain ⟨nx, vx⟩ := abs_ok (hd .X)
  obtain ⟨ny, vy⟩ := abs_ok (hd .Y)
  obtain ⟨nz, vz⟩ := abs_ok (hd .Z)
  simp only [V3.get] at nx ny nz vx vy vz
  have e1 : (Scalar.abs d.x >=. Scalar.abs d.y) = decide (|d.y.val| ≤ |d.x.val|) := by
    rw [Bool.eq_iff_iff]; change (Scalar.abs d.y <=. Scalar.abs d.x) = true ↔ _; rw [le_ok ny nx, vx, vy]; simp
  have e2 : (Scalar.abs d.x >=. Scalar.abs d.z) = decide (|d.z.val| ≤ |d.x.val|) := by
    rw [Bool.eq_iff_iff]; change (Scalar.abs d.z <=. Scalar.abs d.x) = true ↔ _; rw [le_ok nz nx, vx, vz]; simp
  have e3 : (Scalar.abs d.y >=. Scalar.abs d.z) = decide (|d.z.val| ≤ |d.y.val|) := by
    rw [Bool.eq_iff_iff]; change (Scalar.abs d.z <=. Scalar.abs d.y) = true ↔ _; rw [le_ok nz ny, vy, vz]; simp
  unfold V3.maxAbsAxis V3.abs
  simp only [e1, e2, e3]
  by_cases h1 : |d.y.val| ≤ |d.x.val| <;> by_cases h2 : |d.z.val| ≤ |d.x.val| <;> by_cases h3 : |d.z.val| ≤ |d.y.val| <;>
    simp only [h1, h2, h3, decide_true, decide_false]
  all_goals first
    | exact ⟨_, rfl, fun a => by cases a <;> simp only [V3.get] <;> linarith⟩
    | (exfalso; linarith)

/-- What the ray sees of a small triangle stays small. -/
theorem seen_small {r : Ray F32} (hr : SmallRay r) {m : Axis} (hdom : ∀ a, |(r.direction.get a).val| ≤ |(r.direction.get m).val|) {p : V3 F32} (hp : Small p) :
    (Num (seen r m p).x ∧ Num (seen r m p).y) ∧ |(seen r m p).x.val| ≤ 2 ^ 23 ∧ |(seen r m p).y.val| ≤ 2 ^ 23 := by
  obtain ⟨ho, hd, a0, h0⟩ := hr
  have hm : (r.direction.get m).val ≠ 0 := by
    intro e
    have := hdom a0
    rw [e, abs_zero, abs_nonpos_iff] at this
    exact h0 this
  have hq : ∀ a, Num ((p.add r.origin.neg).get a) ∧ |((p.add r.origin.neg).get a).val| ≤ 2 ^ 21 + 1 := by
    intro a
    have e : (p.add r.origin.neg).get a = p.get a +. ⊖(r.origin.get a) := by cases a <;> rfl
    obtain ⟨n, v⟩ := neg_ok (ho a).1
    have hb : |(p.get a).val + (⊖(r.origin.get a)).val| ≤ 2 ^ 21 := by
      rw [v]
      refine (abs_add_le _ _).trans ?_
      rw [abs_neg]
      linarith [(hp a).2, (ho a).2]
    obtain ⟨k, err⟩ := add_ok (hp a).1 n (hb.trans (by norm_num))
    rw [e]
    refine ⟨k, ?_⟩
    have := abs_sub_abs_le_abs_sub (p.get a +. ⊖(r.origin.get a)).val ((p.get a).val + (⊖(r.origin.get a)).val)
    have h2 : |(p.get a).val + (⊖(r.origin.get a)).val| * ulpHalf ≤ 2 ^ 21 * ulpHalf := by gcongr
    simp only [ulpHalf] at *
    linarith
  have hs : ∀ a, Num (⊖(r.direction.get a) /. r.direction.get m) ∧ |(⊖(r.direction.get a) /. r.direction.get m).val| ≤ 1 + 1 / 2 ^ 20 := by
    intro a
    obtain ⟨n, v⟩ := neg_ok (hd a)
    have hb : |(⊖(r.direction.get a)).val / (r.direction.get m).val| ≤ 1 := by
      rw [v, abs_div, abs_neg]
      exact div_le_one_of_le₀ (hdom a) (abs_nonneg _)
    obtain ⟨k, err⟩ := div_ok n (hd m) hm (hb.trans (by norm_num))
    refine ⟨k, ?_⟩
    have := abs_sub_abs_le_abs_sub (⊖(r.direction.get a) /. r.direction.get m).val ((⊖(r.direction.get a)).val / (r.direction.get m).val)
    have h2 : |(⊖(r.direction.get a)).val / (r.direction.get m).val| * ulpHalf ≤ 1 * ulpHalf := by gcongr
    simp only [ulpHalf, tinyHalf] at *
    linarith
  have key : ∀ a, Num ((p.add r.origin.neg).get a +. (p.add r.origin.neg).get m *. (⊖(r.direction.get a) /. r.direction.get m)) ∧
      |((p.add r.origin.neg).get a +. (p.add r.origin.neg).get m *. (⊖(r.direction.get a) /. r.direction.get m)).val| ≤ 2 ^ 23 := by
    intro a
    obtain ⟨ns, bs⟩ : Num (⊖(r.direction.get a) /. r.direction.get m) ∧ |(⊖(r.direction.get a) /. r.direction.get m).val| ≤ 1 + 1 / 2 ^ 20 := hs a
    obtain ⟨nm, bm⟩ := hq m
    obtain ⟨na, ba⟩ := hq a
    generalize (p.add r.origin.neg).get a = q at *
    generalize (p.add r.origin.neg).get m = w at *
    generalize ⊖(r.direction.get a) /. r.direction.get m = s at *
    have hb : |w.val * s.val| ≤ (2 ^ 21 + 1) * (1 + 1 / 2 ^ 20) := by
      rw [abs_mul]; exact mul_le_mul bm bs (abs_nonneg _) (by norm_num)
    obtain ⟨k, err⟩ := mul_ok nm ns (hb.trans (by norm_num))
    have b1 : |(w *. s).val| ≤ 2 ^ 21 + 10 := by
      have := abs_sub_abs_le_abs_sub (w *. s).val (w.val * s.val)
      have h2 : |w.val * s.val| * ulpHalf ≤ (2 ^ 21 + 1) * (1 + 1 / 2 ^ 20) * ulpHalf := by gcongr
      simp only [ulpHalf, tinyHalf] at *
      linarith
    have b2 : |q.val + (w *. s).val| ≤ 2 ^ 22 + 11 := (abs_add_le _ _).trans (by linarith)
    obtain ⟨k', err'⟩ := add_ok na k (b2.trans (by norm_num))
    refine ⟨k', ?_⟩
    have := abs_sub_abs_le_abs_sub (q +. w *. s).val (q.val + (w *. s).val)
    have h2 : |q.val + (w *. s).val| * ulpHalf ≤ (2 ^ 22 + 11) * ulpHalf := by gcongr
    simp only [ulpHalf] at *
    linarith
  exact ⟨⟨(key m.prev).1, (key m.next).1⟩, (key m.prev).2, (key m.next).2⟩

/-- **C114**, single precision: a triangle two corners of which coincide is not met by any ray. -/
theorem c114_collapsed [Libm F32] (s : Triangle F32) (hs : Collapsed s) (h0 : Small s.v0) (h1 : Small s.v1) (h2 : Small s.v2) (r : Ray F32) (hr : SmallRay r) :
    ¬ Notices s.toShape r := by
  obtain ⟨m, hm, hdom⟩ := longest_axis hr.2.1
  obtain ⟨na, wa⟩ := seen_small hr hdom h0
  obtain ⟨nb, wb⟩ := seen_small hr hdom h1
  obtain ⟨nc, wc⟩ := seen_small hr hdom h2
  obtain ⟨o, d, t0⟩ := r
  simp only [seen_eq] at na nb nc wa wb wc
  have hX : (2 ^ 23 : ℚ) ≤ 2 ^ 30 := by norm_num
  obtain ⟨m0, -⟩ := edge_ok (a := rc o d m s.v1) (b := rc o d m s.v2) nb nc wb wc hX hX
  obtain ⟨m1, -⟩ := edge_ok (a := rc o d m s.v2) (b := rc o d m s.v0) nc na wc wa hX hX
  obtain ⟨m2, -⟩ := edge_ok (a := rc o d m s.v0) (b := rc o d m s.v1) na nb wa wb hX hX
  have w0 := edge_swap (a := rc o d m s.v1) (b := rc o d m s.v2) nb nc wb wc hX hX
  have w1 := edge_swap (a := rc o d m s.v2) (b := rc o d m s.v0) nc na wc wa hX hX
  have w2 := edge_swap (a := rc o d m s.v0) (b := rc o d m s.v1) na nb wa wb hX hX
  have hrej : ∀ tm, (stage s o d m).rejects tm = true := by
    intro tm
    refine collapsed_rejects tm m0 m1 m2 ?_
    unfold stage stageOf
    simp only []
    rcases hs with e | e | e
    · left
      rw [← e] at w0 w2 ⊢
      exact ⟨by linarith, by linarith⟩
    · right; left
      rw [← e] at w0 w1 ⊢
      exact ⟨by linarith, by linarith⟩
    · right; right
      rw [← e] at w1 w0 ⊢
      exact ⟨by linarith, by linarith⟩
  unfold Notices
  rw [not_not]
  intro tm
  change s.intersect ⟨o, d, tm⟩ = _ ∧ s.intersectP ⟨o, d, tm⟩ = _
  rw [intersect_eq, intersectP_eq]
  simp only [] at hm
  rw [hm]
  simp [hrej tm]

/-- **C114**, single precision, brute-force container: adding a triangle two corners of which coincide, inside the box of the scene, does not change the picture,
if all rays are `SmallRay`s. -/
theorem c114_collapsed_image [Libm F32] {hist hist' : List (BuilderCall F32)} {addr : Nat} (s : Triangle F32) (hs : Collapsed s)
    (h0 : Small s.v0) (h1 : Small s.v1) (h2 : Small s.v2) (h : OneMore hist hist' addr s.toShape) (hb : SameBoxes hist hist')
    {scene scene' : Scene F32} (hsc : (built hist).construct (fun ss => (Simple.new ss).map Simple.toContainer) = some scene)
    (hsc' : (built hist').construct (fun ss => (Simple.new ss).map Simple.toContainer) = some scene') (camera : PerspectiveCamera F32)
    (res : V2 Int) (filt : Filter F32) (spp : Nat) (hspp : spp < 2 ^ 32) (n : Nat) (file : Option (List UInt8)) :
    let film := Film.new res filt
    let sampler := HaltonSampler.new spp film.sampleBBox
    (∀ p, Spec.InBox film.sampleBBox p → ∀ i < max 1 spp, ¬ SampleTraces scene camera (fun r => ¬ SmallRay r) sampler p i) →
    ∀ k st, RReach (fun s b => renderTile HaltonSampler.ops (cameraRadiance scene camera) film s b) sampler (RState.init film n file) k st ↔
      RReach (fun s b => renderTile HaltonSampler.ops (cameraRadiance scene' camera) film s b) sampler (RState.init film n file) k st :=
  c105_same_answers (oneMore_lights h (.inl hb.1) hsc hsc')
    (fun r hr => oneMore_simple h hb hsc hsc' r (c114_collapsed s hs h0 h1 h2 r (not_not.1 hr))) camera res filt spp hspp n file
end

/-! ### Exact arithmetic: either container -/

section
variable [Libm XR]

/-- **C114**, exact arithmetic: a sphere or triangle does not notice a ray that passes it. -/
theorem c114_passed (hs : ExactSqrt) (p : Prim) (hp : p.Finite) (addr : Nat) (r : Ray XR) (ho : Finite3 r.origin) (hd : Finite3 r.direction) (hn : NonZero r.direction)
    (hmiss : ∀ x, 0 < x → ¬ p.MeetsAt r x) : ¬ Notices (p.obj addr).shape r := by
  obtain ⟨o, d, t0⟩ := r
  obtain ⟨hl, -, ha⟩ := likePrim_facts hs (likePrim_of p hp addr) ho hd hn
  unfold Notices
  rw [not_not]
  intro tm
  obtain ⟨x, e1, e2⟩ := ha tm
  cases x with
  | none => exact ⟨e1, e2⟩
  | some y =>
    exfalso
    obtain ⟨i, t⟩ := y
    cases p with
    | sphere q =>
      obtain ⟨-, h1, -, h2⟩ := c36_sphere_hit_extended hs q hp ⟨o, d, tm⟩ ho hd hn i t e1
      exact hmiss _ h1 h2
    | triangle q =>
      obtain ⟨-, h1, -, h2⟩ := c38_triangle_hit_extended q hp ⟨o, d, tm⟩ ho hd hn i t e1
      exact hmiss _ h1 h2

open Triangle in
/-- **C114**, exact arithmetic: no ray is noticed by a triangle the corners of which are on one line. -/
theorem c114_flat (s : Triangle XR) (hs : FiniteTriangle s) (hf : Flat s) (r : Ray XR) (ho : Finite3 r.origin) (hd : Finite3 r.direction)
    (hn : NonZero r.direction) : ¬ Notices s.toShape r := by
  obtain ⟨o, d, t0⟩ := r
  simp only [] at ho hd hn
  obtain ⟨m, hm, hdom⟩ := maxAbsAxis_real (numbers d)
  have hne := dominant_ne (numbers_ne_zero hn) hdom
  have hg := stage_rel (s' := s.realized) hs.1.rel hs.2.1.rel hs.2.2.rel ho.rel hd.rel m hne
  have hax : d.maxAbsAxis = some m := by rw [hd.rel.maxAbsAxis, hm]
  have hdet : (stage s.realized (numbers o) (numbers d) m).det = 0 := by
    have := det_plane s.realized ⟨numbers o, numbers d, 0⟩ m hne
    simp only [] at this
    rw [hf] at this
    simpa [Spec.inner, hne] using this
  have hrej : ∀ tm, (stage s o d m).rejects tm = true := by
    intro tm
    have : ((stage s o d m).det ==. PT.lit 0) = true := by
      rw [hg.det.eq (Fl.Rel.lit 0), hdet]; real_ops
    unfold Stage.rejects
    rw [this]; simp
  unfold Notices
  rw [not_not]
  intro tm
  change s.intersect ⟨o, d, tm⟩ = _ ∧ s.intersectP ⟨o, d, tm⟩ = _
  rw [intersect_eq, intersectP_eq, hax]
  simp [hrej tm]

theorem delicate_mono {ss ss' : List (Obj XR)} (h : ∀ s ∈ ss, s ∈ ss') {r : Ray XR} (hd : Delicate ss r) : Delicate ss' r := by
  rcases hd with h1 | ⟨s, h1, h2⟩ | ⟨s, h1, s', h2, h3⟩
  · exact .inl h1
  · exact .inr (.inl ⟨s, h s h1, h2⟩)
  · exact .inr (.inr ⟨s, h s h1, s', h s' h2, h3⟩)

/-- Containers with and without the shape answer alike about every ray that the shape does not notice. -/
theorem oneMore_exact (hs : ExactSqrt) {hist hist' : List (BuilderCall XR)} (hf : ∀ c ∈ hist', FiniteCall c) {addr : Nat} {s : Shape XR} (h : OneMore hist hist' addr s)
    {mk mk' : List (Obj XR) → Option (Container XR)} (hmk : LibraryContainer mk) (hmk' : LibraryContainer mk') {scene scene' : Scene XR}
    (hsc : (built hist).construct mk = some scene) (hsc' : (built hist').construct mk' = some scene') :
    SameAnswersExcept (fun r => Delicate (sceneShapes hist') r ∨ Notices s r) scene scene' := by
  obtain ⟨⟨l, l', e1, e2⟩, -, -⟩ := oneMore_lists h
  obtain ⟨_, _, hc, -⟩ := c65_construct hist mk
  obtain ⟨_, _, hc', -⟩ := c65_construct hist' mk'
  have g := (hc scene hsc).2
  have g' := (hc' scene' hsc').2
  have hp' := likePrim_scene hf
  rw [e1] at g
  rw [e2] at g' hp' ⊢
  have hsub : ∀ x ∈ l ++ l', x ∈ l ++ ⟨addr, s⟩ :: l' := by
    intro x hx
    simp only [List.mem_append, List.mem_cons] at hx ⊢
    tauto
  rintro r hr
  simp only [not_or] at hr
  obtain ⟨hd', hx⟩ := hr
  have hx' : ∀ i t, ¬ Reports s r i t := by
    intro i t hrep
    simp only [Notices, not_not] at hx
    have := (hx r.tMax).1
    unfold Reports at hrep
    rw [hrep] at this
    cases this
  have hd : ¬ Delicate (l ++ l') r := fun hd => hd' (delicate_mono hsub hd)
  have hp : ∀ x ∈ l ++ l', LikePrim x.shape := fun x hx => hp' x (hsub x hx)
  obtain ⟨a, a1, a2, a3, a4⟩ := finite_container_answers hs hp hmk g r hd
  obtain ⟨b, b1, b2, b3, b4⟩ := finite_container_answers hs hp' hmk' g' r hd'
  have hmem : ∀ x ∈ l ++ ⟨addr, s⟩ :: l', x ∈ l ++ l' ∨ x = ⟨addr, s⟩ := by
    intro x hx
    simp only [List.mem_append, List.mem_cons] at hx ⊢
    tauto
  have hno : NoHit (l ++ l') r ↔ NoHit (l ++ ⟨addr, s⟩ :: l') r := by
    constructor
    · intro hno x hx i t
      rcases hmem x hx with h | rfl
      · exact hno x h i t
      · exact hx' i t
    · exact fun hno x hx => hno x (hsub x hx)
  have hab : a = b := by
    cases a with
    | none => exact (b3.2 (hno.1 (a3.1 rfl))).symm
    | some u =>
      cases b with
      | none => have := a3.2 (hno.2 (b3.1 rfl)); cases this
      | some v =>
        obtain ⟨u1, t, u2, u3⟩ := a4 u rfl
        have hu : Closest (l ++ ⟨addr, s⟩ :: l') r u := by
          refine ⟨hsub _ u1, t, u2, fun x hx i t' hrep => ?_⟩
          rcases hmem x hx with h | rfl
          · exact u3 x h i t' hrep
          · exact absurd hrep (hx' i t')
        rw [closest_unique hs hp' (fun _ => Iff.rfl) hd' hu (b4 v rfl)]
  unfold Scene.intersect Scene.intersectP
  rw [a1, a2, b1, b2, hab]
  exact ⟨rfl, rfl⟩

/-- **C114**, exact arithmetic, either container: a sphere or triangle that no ray of any sample meets does not change the picture, if it does not make the
scene larger or there are no distant lights. -/
theorem c114_passed_image [HasNext XR] (hs : ExactSqrt) {hist hist' : List (BuilderCall XR)} (hf : ∀ c ∈ hist', FiniteCall c) {addr : Nat} (p : Prim) (hp : p.Finite)
    (h : OneMore hist hist' addr (p.obj addr).shape) (hb : (built hist).sceneBBox = (built hist').sceneBBox ∨ NoDistant hist)
    {mk mk' : List (Obj XR) → Option (Container XR)} (hmk : LibraryContainer mk) (hmk' : LibraryContainer mk') {scene scene' : Scene XR}
    (hsc : (built hist).construct mk = some scene) (hsc' : (built hist').construct mk' = some scene') (camera : PerspectiveCamera XR)
    (res : V2 Int) (filt : Filter XR) (spp : Nat) (hspp : spp < 2 ^ 32) (n : Nat) (file : Option (List UInt8)) :
    let film := Film.new res filt
    let sampler := HaltonSampler.new spp film.sampleBBox
    (∀ q, Spec.InBox film.sampleBBox q → ∀ i < max 1 spp,
      ¬ SampleTraces scene camera (fun r => Delicate (sceneShapes hist') r ∨ ∃ x, 0 < x ∧ p.MeetsAt r x) sampler q i) →
    ∀ k st, RReach (fun s b => renderTile HaltonSampler.ops (cameraRadiance scene camera) film s b) sampler (RState.init film n file) k st ↔
      RReach (fun s b => renderTile HaltonSampler.ops (cameraRadiance scene' camera) film s b) sampler (RState.init film n file) k st := by
  refine c105_same_answers (oneMore_lights h hb hsc hsc') (fun r hr => ?_) camera res filt spp hspp n file
  simp only [not_or, not_exists, not_and] at hr
  refine oneMore_exact hs hf h hmk hmk' hsc hsc' r ?_
  rintro (hd | hn)
  · exact hr.1 hd
  · have hd := hr.1
    simp only [Delicate, not_or, not_not] at hd
    obtain ⟨⟨ho, hdir, hnz, -⟩, -⟩ := hd
    exact c114_passed hs p hp addr r ho hdir hnz hr.2 hn

/-- **C114**, exact arithmetic, either container: a triangle the corners of which are on one line does not change the picture, if it does not make the scene
larger or there are no distant lights. -/
theorem c114_flat_image [HasNext XR] (hs : ExactSqrt) {hist hist' : List (BuilderCall XR)} (hf : ∀ c ∈ hist', FiniteCall c) {addr : Nat} (s : Triangle XR)
    (hp : FiniteTriangle s) (hflat : Flat s)
    (h : OneMore hist hist' addr s.toShape) (hb : (built hist).sceneBBox = (built hist').sceneBBox ∨ NoDistant hist)
    {mk mk' : List (Obj XR) → Option (Container XR)} (hmk : LibraryContainer mk) (hmk' : LibraryContainer mk') {scene scene' : Scene XR}
    (hsc : (built hist).construct mk = some scene) (hsc' : (built hist').construct mk' = some scene') (camera : PerspectiveCamera XR)
    (res : V2 Int) (filt : Filter XR) (spp : Nat) (hspp : spp < 2 ^ 32) (n : Nat) (file : Option (List UInt8)) :
    let film := Film.new res filt
    let sampler := HaltonSampler.new spp film.sampleBBox
    (∀ q, Spec.InBox film.sampleBBox q → ∀ i < max 1 spp, ¬ SampleTraces scene camera (Delicate (sceneShapes hist')) sampler q i) →
    ∀ k st, RReach (fun s b => renderTile HaltonSampler.ops (cameraRadiance scene camera) film s b) sampler (RState.init film n file) k st ↔
      RReach (fun s b => renderTile HaltonSampler.ops (cameraRadiance scene' camera) film s b) sampler (RState.init film n file) k st := by
  refine c105_same_answers (oneMore_lights h hb hsc hsc') (fun r hr => ?_) camera res filt spp hspp n file
  refine oneMore_exact hs hf h hmk hmk' hsc hsc' r ?_
  rintro (hd | hn)
  · exact hr hd
  · simp only [Delicate, not_or, not_not] at hr
    obtain ⟨⟨ho, hdir, hnz, -⟩, -⟩ := hr
    exact c114_flat s hp hflat r ho hdir hnz hn
end

end PT
