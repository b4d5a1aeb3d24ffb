import Verif.Props.TriangleWorld
import Verif.Props.TransformMeaning
import Verif.Props.MaterialsSpecular

/-!
# What a mirror shows (C85)

The mean radiance of C78 at a point of a mirror, compared with what is seen along the mirror direction.
-/

namespace PT
open MeasureTheory
open scoped ENNReal
open Spec

namespace Spec
variable [HasInf ℝ] [HasNext ℝ]
/-- What a light gives off along a ray, if it is the first thing that the ray meets. -/
noncomputable def shines (scene : Scene ℝ) (c : Chan) (ray : Ray ℝ) (light : LightObj ℝ) : ℝ≥0∞ :=
  match scene.intersect ray with
  | some (some h) => if h.obj.addr = light.addr then ENNReal.ofReal (c.of (h.obj.shape.l h.i ray.direction.neg)) else 0
  | _ => 0

/-- The lights that have an extent. -/
def extended (scene : Scene ℝ) : List (LightObj ℝ) := scene.lights.filter fun l => !l.light.isDelta
end Spec

section
variable [HasInf ℝ] [HasNext ℝ]

theorem mirror_f (kr : TextureOf ℝ (Spectrum ℝ)) (i : Interaction ℝ) (wo wi : V3 ℝ) (c : Chan) : c.of ((mirrorMaterial kr i).f wo wi) = 0 := by
  have h0 : c.of (Spectrum.zero : Spectrum ℝ) = 0 := by cases c <;> simp only [Chan.of, Spectrum.zero] <;> real_ops
  have h1 : c.of ((Spectrum.zero : Spectrum ℝ).add Spectrum.zero) = 0 := by
    cases c <;> simp only [Chan.of, Spectrum.zero, Spectrum.add] <;> real_ops <;> simp
  have key : ∀ (p : Prop) [Decidable p] (x y : Spectrum ℝ), c.of x = 0 → c.of y = 0 → c.of (if p then x else y) = 0 := by
    intro p _ x y hx hy
    split_ifs
    · exact hx
    · exact hy
  unfold mirrorMaterial BSDF.f
  dsimp only
  split
  · exact key _ _ _ h0 h0
  · refine key _ _ _ h0 ?_
    simp only [BSDF.add, BSDF.new, BSDF.sumF, List.nil_append, List.foldl_cons, List.foldl_nil]
    exact key _ _ _ h1 h0

theorem mirror_fromLight (scene : Scene ℝ) (c : Chan) (h : Hit ℝ) (kr : TextureOf ℝ (Spectrum ℝ)) (hm : h.obj.shape.material = mirrorMaterial kr)
    (light : LightObj ℝ) (u : V2 ℝ) : fromLight scene c h light u = 0 := by
  unfold fromLight
  dsimp only
  split
  · rfl
  · split_ifs
    · rw [hm, mirror_f]; simp
    · rw [hm, mirror_f]; simp
    · rfl

/-- C85, what the code computes: at a mirror the mean radiance is the mirror's colour times what comes in along the mirror direction — with the
emission of lights that are seen there counted once more. -/
theorem c85_mirror_partial (scene : Scene ℝ) (c : Chan) (n : Nat) (e : Bool) (ray : Ray ℝ) (h : Hit ℝ) (hh : scene.intersect ray = some (some h))
    (kr : TextureOf ℝ (Spectrum ℝ)) (hm : h.obj.shape.material = mirrorMaterial kr) (hs : Smooth h.i) (hk : Colour (kr h.i))
    (hb : ∃ c : Chan, c.of (kr h.i) ≠ 0) (hwo : Spec.inner h.i.wo h.i.sn ≠ 0) :
    let next := h.i.spawnRay (mirrored h.i.wo h.i.sn)
    incoming scene c (n + 1) e ray = (if e then ENNReal.ofReal (c.of (h.obj.shape.l h.i ray.direction.neg)) else 0) +
      ENNReal.ofReal (c.of (kr h.i)) * (incoming scene c n true next + ((extended scene).map (shines scene c next)).sum) := by
  intro next
  have hsample : ∀ u : V2 ℝ, Canonical u.x → ∃ f, (h.obj.shape.material h.i).sampleF h.i.wo u =
      some (mirrored h.i.wo h.i.sn, f, 1, REFLECTION ||| SPECULAR) ∧
      ∀ c : Chan, c.of f * |Spec.inner (mirrored h.i.wo h.i.sn) h.i.sn| = c.of (kr h.i) := by
    intro u hu
    rw [hm]
    exact c82_mirror kr hs hk hb hwo hu
  have hflag : (REFLECTION ||| SPECULAR) &&& SPECULAR ≠ 0 := by decide
  have hk0 := (hk c).1
  have hlight : ∀ light : LightObj ℝ, fromSource scene c h light =
      if light.light.isDelta then 0 else ENNReal.ofReal (c.of (kr h.i)) * shines scene c next light := by
    intro light
    unfold fromSource
    rw [show fromLight scene c h light = fun _ => 0 from funext (mirror_fromLight scene c h kr hm light), mean2_const, zero_add]
    split_ifs
    · rfl
    · rw [← mean2_const (ENNReal.ofReal (c.of (kr h.i)) * shines scene c next light)]
      apply mean2_congr
      intro u hu _
      obtain ⟨f, h1, h2⟩ := hsample u hu
      unfold fromSurface shines
      simp only [h1]
      change (match scene.intersect next with | some (some h') => _ | _ => _) = _ * (match scene.intersect next with | some (some h') => _ | _ => _)
      split
      · rename_i h' _
        by_cases ha : h'.obj.addr = light.addr
        · rw [if_pos ⟨one_pos, ha⟩, if_pos hflag, if_pos ha, h2, mul_one, div_one, ENNReal.ofReal_mul hk0]
          rfl
        · rw [if_neg (fun x => ha x.2), if_neg ha, mul_zero]
      · simp
  have hsum : (scene.lights.map fun light => fromSource scene c h light).sum =
      ENNReal.ofReal (c.of (kr h.i)) * ((extended scene).map (shines scene c next)).sum := by
    unfold extended
    induction scene.lights with
    | nil => simp
    | cons l ls ih =>
      rw [List.map_cons, List.sum_cons, ih, hlight l]
      by_cases hd : l.light.isDelta = true
      · simp [hd]
      · simp [hd, mul_add]
  rw [incoming]
  simp only [hh]
  rw [hsum, mul_add, add_assoc]
  congr 1
  rw [add_comm]
  congr 1
  rw [← mean2_const (ENNReal.ofReal (c.of (kr h.i)) * incoming scene c n true next)]
  apply mean2_congr
  intro u hu _
  obtain ⟨f, h1, h2⟩ := hsample u hu
  simp only [h1]
  rw [if_neg one_ne_zero, h2, div_one]
  rfl

/-- C85 where it holds: if no lamp is the first thing seen along the mirror direction, the mirror shows what comes in from there times its colour. -/
theorem c85_no_lamp_partial (scene : Scene ℝ) (c : Chan) (n : Nat) (e : Bool) (ray : Ray ℝ) (h : Hit ℝ) (hh : scene.intersect ray = some (some h))
    (kr : TextureOf ℝ (Spectrum ℝ)) (hm : h.obj.shape.material = mirrorMaterial kr) (hs : Smooth h.i) (hk : Colour (kr h.i))
    (hb : ∃ c : Chan, c.of (kr h.i) ≠ 0) (hwo : Spec.inner h.i.wo h.i.sn ≠ 0)
    (hno : ∀ h', scene.intersect (h.i.spawnRay (mirrored h.i.wo h.i.sn)) = some (some h') → ∀ l ∈ scene.lights, h'.obj.addr ≠ l.addr) :
    incoming scene c (n + 1) e ray = (if e then ENNReal.ofReal (c.of (h.obj.shape.l h.i ray.direction.neg)) else 0) +
      ENNReal.ofReal (c.of (kr h.i)) * incoming scene c n true (h.i.spawnRay (mirrored h.i.wo h.i.sn)) := by
  have := c85_mirror_partial scene c n e ray h hh kr hm hs hk hb hwo
  dsimp only at this
  rw [this]
  have hz : ((extended scene).map (shines scene c (h.i.spawnRay (mirrored h.i.wo h.i.sn)))).sum = 0 := by
    apply List.sum_eq_zero
    intro x hx
    obtain ⟨l, hl, rfl⟩ := List.mem_map.1 hx
    unfold shines
    split
    · rename_i h' he
      rw [if_neg (hno h' he l (List.mem_filter.1 hl).1)]
    · rfl
  rw [hz, add_zero]
end

/-! ### A lamp in a mirror -/

namespace Demo
/-- A mirror in the plane z = 0. -/
def lyingMirror (m : Material ℝ) : Triangle ℝ := ⟨⟨-10, -10, 0⟩, ⟨10, -10, 0⟩, ⟨0, 20, 0⟩, none, false, m⟩
/-- A lamp above it that shines downwards. -/
noncomputable def hangingLamp (m : Material ℝ) : Triangle ℝ := ⟨⟨5 / 2, 1 / 2, 2⟩, ⟨3 / 2, 1 / 2, 2⟩, ⟨2, 2, 2⟩, none, false, m⟩

theorem mirror_point (m : Material ℝ) (d : V3 ℝ) (b0 b1 b2 : ℝ) :
    let i := (lyingMirror m).interactionAt d b0 b1 b2
    i.n = ⟨0, 0, 1⟩ ∧ i.sn = ⟨0, 0, 1⟩ ∧ i.dpdu = ⟨20, 0, 0⟩ ∧ i.pErr.z = 0 ∧ i.wo = d.neg := by
  have hl : (V3.mk (0 : ℝ) 0 600).length = 600 := by
    rw [length_eq]; simp only [Spec.sq]
    rw [show (0 : ℝ) ^ 2 + 0 ^ 2 + 600 ^ 2 = 600 ^ 2 by norm_num, Real.sqrt_sq (by norm_num)]
  have hn : (((lyingMirror m).v0.sub (lyingMirror m).v2).cross ((lyingMirror m).v1.sub (lyingMirror m).v2)).normalize = ⟨0, 0, 1⟩ := by
    have e : ((lyingMirror m).v0.sub (lyingMirror m).v2).cross ((lyingMirror m).v1.sub (lyingMirror m).v2) = ⟨0, 0, 600⟩ := by
      simp only [lyingMirror, V3.sub, V3.cross]; real_ops; norm_num
    rw [e]; unfold V3.normalize; rw [hl]; real_ops; norm_num
  have hp : ((lyingMirror m).partials).1 = ⟨20, 0, 0⟩ := by
    simp only [Triangle.partials, Triangle.getUv, lyingMirror, V3.sub, V2.sub, V3.smul, V3.sdiv, epsilon]
    real_ops
    norm_num
  have hd : (V3.mk (0 : ℝ) 0 1).dot ⟨0, 0, 1⟩ = 1 := by simp only [V3.dot]; real_ops; norm_num
  simp only [Triangle.interactionAt, Triangle.shading]
  rw [hn]
  simp only [lyingMirror, Bool.false_eq_true, if_false] at hp ⊢
  rw [hd]
  refine ⟨?_, trivial, hp, ?_, trivial⟩
  · real_ops; norm_num
  · simp only [V3.smul, V3.abs, V3.add]; real_ops; norm_num

theorem lamp_point (m : Material ℝ) (d : V3 ℝ) (b0 b1 b2 : ℝ) : ((hangingLamp m).interactionAt d b0 b1 b2).n = ⟨0, 0, -1⟩ := by
  have hl : (V3.mk (0 : ℝ) 0 (-(3 / 2))).length = 3 / 2 := by
    rw [length_eq]; simp only [Spec.sq]
    rw [show (0 : ℝ) ^ 2 + 0 ^ 2 + (-(3 / 2)) ^ 2 = (3 / 2) ^ 2 by norm_num, Real.sqrt_sq (by norm_num)]
  have hn : (((hangingLamp m).v0.sub (hangingLamp m).v2).cross ((hangingLamp m).v1.sub (hangingLamp m).v2)).normalize = ⟨0, 0, -1⟩ := by
    have e : ((hangingLamp m).v0.sub (hangingLamp m).v2).cross ((hangingLamp m).v1.sub (hangingLamp m).v2) = ⟨0, 0, -(3 / 2)⟩ := by
      simp only [hangingLamp, V3.sub, V3.cross]; real_ops; norm_num
    rw [e]; unfold V3.normalize; rw [hl]; real_ops; norm_num
  have hd : (V3.mk (0 : ℝ) 0 (-1)).dot ⟨0, 0, -1⟩ = 1 := by simp only [V3.dot]; real_ops; norm_num
  simp only [Triangle.interactionAt, Triangle.shading]
  rw [hn]
  simp only [hangingLamp, Bool.false_eq_true, if_false]
  rw [hd]
  real_ops; norm_num
end Demo

/-- A triangle reports nothing if the ray does not reach its plane. -/
theorem triangle_out_of_reach (s : Triangle ℝ) (ray : Ray ℝ) (hd : ray.direction ≠ V3.zero) (n : V3 ℝ) (c : ℝ)
    (h0 : Spec.inner n s.v0 = c) (h1 : Spec.inner n s.v1 = c) (h2 : Spec.inner n s.v2 = c)
    (hmiss : ∀ t, 0 < t → t ≤ ray.tMax → Spec.inner n ray.origin + t * Spec.inner n ray.direction ≠ c) : s.intersect ray = some none := by
  obtain ⟨hne, hhit⟩ := c38_triangle_hit_real s ray hd
  cases h : s.intersect ray with
  | none => exact absurd h hne
  | some r =>
    cases r with
    | none => rfl
    | some x =>
      obtain ⟨i, t⟩ := x
      obtain ⟨a, b, hp, b0, b1, b2, hw, hm, -⟩ := hhit i t h
      exfalso
      apply hmiss t a b
      have e : Spec.inner n (pointAt ray t) = Spec.inner n ray.origin + t * Spec.inner n ray.direction := by
        unfold Spec.inner pointAt; simp only []; ring
      have e' : Spec.inner n (mix b0 b1 b2 s.v0 s.v1 s.v2) = c := by
        have : Spec.inner n (mix b0 b1 b2 s.v0 s.v1 s.v2) =
            b0 * Spec.inner n s.v0 + b1 * Spec.inner n s.v1 + b2 * Spec.inner n s.v2 := by
          unfold Spec.inner mix; simp only []; ring
        rw [this, h0, h1, h2, ← add_mul, ← add_mul, hw.2.2.2, one_mul]
      rw [← e, ← hp, hm, e']

theorem closest_first {a b : Obj ℝ} {ray : Ray ℝ} {i : Interaction ℝ} {t : ℝ} (ha : a.shape.intersect ray = some (some (i, t)))
    (hb : b.shape.intersect { ray with tMax := t } = some none) : (closestHit [a, b] ray none).map (·.2) = some (some ⟨i, a⟩) := by
  simp [closestHit, Obj.intersect, ha, hb]

theorem closest_second {a b : Obj ℝ} {ray : Ray ℝ} {i : Interaction ℝ} {t : ℝ} (ha : a.shape.intersect ray = some none)
    (hb : b.shape.intersect ray = some (some (i, t))) : (closestHit [a, b] ray none).map (·.2) = some (some ⟨i, b⟩) := by
  simp [closestHit, Obj.intersect, ha, hb]

namespace Demo
variable [HasInf ℝ]

/-- The builder calls: a mirror, and a lamp that reflects nothing. -/
noncomputable def lampAndMirror (k e : Spectrum ℝ) : List (BuilderCall ℝ) :=
  [.shape 0 (lyingMirror (mirrorMaterial fun _ => k)).toShape, .area 1 ⟨e, (hangingLamp (lambertianMaterial fun _ => ⟨0, 0, 0⟩)).toShape⟩]

/-- The scene they make. -/
noncomputable def lampScene (k e : Spectrum ℝ) : Scene ℝ :=
  ⟨[⟨1, (AreaLight.mk e (hangingLamp (lambertianMaterial fun _ => ⟨0, 0, 0⟩)).toShape).toLight⟩],
   Simple.toContainer ⟨[⟨0, (lyingMirror (mirrorMaterial fun _ => k)).toShape⟩,
     ⟨1, (AreaLight.mk e (hangingLamp (lambertianMaterial fun _ => ⟨0, 0, 0⟩)).toShape).toShape⟩], ⟨⟨-10, -10, 0⟩, ⟨10, 20, 2⟩⟩⟩⟩

theorem lampScene_built (k e : Spectrum ℝ) :
    (built (lampAndMirror k e)).construct (fun ss => (Simple.new ss).map Simple.toContainer) = some (lampScene k e) := by
  have e0 : ∀ m, (lyingMirror m).toShape.bbox = ⟨⟨-10, -10, 0⟩, ⟨10, 20, 0⟩⟩ := by
    intro m
    change (lyingMirror m).bbox = _
    unfold Triangle.bbox lyingMirror BBox3.new BBox3.unionPoint V3.min V3.max
    real_ops
    norm_num
  have e1 : ∀ m, (AreaLight.mk e (hangingLamp m).toShape).toShape.bbox = ⟨⟨3 / 2, 1 / 2, 2⟩, ⟨5 / 2, 2, 2⟩⟩ := by
    intro m
    change (hangingLamp m).bbox = _
    unfold Triangle.bbox hangingLamp BBox3.new BBox3.unionPoint V3.min V3.max
    real_ops
    norm_num
  have hu : (BBox3.mk ⟨-10, -10, 0⟩ ⟨10, 20, 0⟩ : BBox3 ℝ).union ⟨⟨3 / 2, 1 / 2, 2⟩, ⟨5 / 2, 2, 2⟩⟩ = ⟨⟨-10, -10, 0⟩, ⟨10, 20, 2⟩⟩ := by
    unfold BBox3.union V3.min V3.max
    real_ops
    norm_num
  simp only [lampAndMirror, lampScene, built, Builder.construct, Builder.sceneBBox, Builder.new, Builder.addShape, Builder.addAreaLight, List.nil_append,
    List.foldl_cons, List.foldl_nil, List.cons_append, List.isEmpty_cons, Bool.false_eq_true, if_false, Simple.new, bboxOfShapes, Option.map_some,
    Option.bind_eq_bind, Option.bind_some, List.map_nil, Option.pure_def, e0, e1, hu]

theorem lamp_box (k e : Spectrum ℝ) (ray : Ray ℝ) (hd : ∀ a, ray.direction.get a ≠ 0) (h1 : 1 ≤ ray.tMax)
    (hx : ∀ a : Axis, min (planeLo ⟨⟨-10, -10, 0⟩, ⟨10, 20, 2⟩⟩ ray a) (planeHi ⟨⟨-10, -10, 0⟩, ⟨10, 20, 2⟩⟩ ray a) ≤ 1 ∧
      1 ≤ max (planeLo ⟨⟨-10, -10, 0⟩, ⟨10, 20, 2⟩⟩ ray a) (planeHi ⟨⟨-10, -10, 0⟩, ⟨10, 20, 2⟩⟩ ray a)) :
    (lampScene k e).intersect ray = (closestHit [⟨0, (lyingMirror (mirrorMaterial fun _ => k)).toShape⟩,
     ⟨1, (AreaLight.mk e (hangingLamp (lambertianMaterial fun _ => ⟨0, 0, 0⟩)).toShape).toShape⟩] ray none).map (·.2) := by
  change Simple.intersect _ ray = _
  unfold Simple.intersect
  dsimp only
  cases hb : BBox3.intersect ⟨⟨-10, -10, 0⟩, ⟨10, 20, 2⟩⟩ ray with
  | some x => rfl
  | none =>
    exfalso
    have := (c35_box_test _ ray hd).2 hb
    have hmem : (1 : ℝ) ∈ (∅ : Set ℝ) := by
      rw [← this]
      refine ⟨by norm_num, h1, fun a => ⟨(hx a).1, (hx a).2.trans ?_⟩⟩
      have hg : 0 ≤ gamma3 := by unfold gamma3; norm_num
      have := (hx a).2
      nlinarith
    exact hmem

variable (k e : Spectrum ℝ) (hinf : (100 : ℝ) ≤ HasInf.infinity)
include hinf

/-- The camera ray meets the mirror at the origin. -/
theorem camera_hit : ∃ h : Hit ℝ, (lampScene k e).intersect ⟨⟨-2, -1, 2⟩, ⟨2 / 3, 1 / 3, -(2 / 3)⟩, HasInf.infinity⟩ = some (some h) ∧
    h.obj = ⟨0, (lyingMirror (mirrorMaterial fun _ => k)).toShape⟩ ∧ h.i.p = ⟨0, 0, 0⟩ ∧ h.i.n = ⟨0, 0, 1⟩ ∧ h.i.sn = ⟨0, 0, 1⟩ ∧
    h.i.dpdu = ⟨20, 0, 0⟩ ∧ h.i.pErr.z = 0 ∧ h.i.wo = ⟨-(2 / 3), -(1 / 3), 2 / 3⟩ := by
  have hd : (V3.mk (2 / 3 : ℝ) (1 / 3) (-(2 / 3))) ≠ V3.zero := by
    intro h; have := congrArg V3.x h; norm_num [V3.zero, r_lit] at this
  rw [lamp_box k e _ (by intro a; cases a <;> norm_num [V3.get]) (by dsimp only; linarith)
    (by intro a; cases a <;> norm_num [planeLo, planeHi, V3.get])]
  obtain ⟨i, hi, hp, -⟩ := c39_triangle_complete (lyingMirror (mirrorMaterial fun _ => k))
    ⟨⟨-2, -1, 2⟩, ⟨2 / 3, 1 / 3, -(2 / 3)⟩, HasInf.infinity⟩ (1 / 3) (1 / 3) (1 / 3) 3
    (by norm_num [Weights]) (by unfold pointAt mix lyingMirror; ext <;> norm_num)
    (by norm_num [planeNormal, Spec.inner, vcross, diff, lyingMirror])
    (by
      intro m hm
      have hz := hm .Z
      cases m
      · unfold errorThreshold rayCoord maxAbs errFactor diff lyingMirror
        simp only [V3.get, Axis.prev, Axis.next]
        norm_num [abs_of_pos, abs_of_neg, max_def]
      · norm_num [V3.get, abs_of_pos, abs_of_neg] at hz
      · unfold errorThreshold rayCoord maxAbs errFactor diff lyingMirror
        simp only [V3.get, Axis.prev, Axis.next]
        norm_num [abs_of_pos, abs_of_neg, max_def]) (by dsimp only; linarith)
  obtain ⟨b0, b1, b2, -, hib⟩ := hit_interactionAt _ _ hd hi
  have m1 := triangle_out_of_reach (hangingLamp (lambertianMaterial fun _ => ⟨0, 0, 0⟩)) ⟨⟨-2, -1, 2⟩, ⟨2 / 3, 1 / 3, -(2 / 3)⟩, 3⟩ hd ⟨0, 0, 1⟩ 2
    (by norm_num [Spec.inner, hangingLamp]) (by norm_num [Spec.inner, hangingLamp]) (by norm_num [Spec.inner, hangingLamp])
    (by intro t ht _ h; norm_num [Spec.inner] at h; linarith)
  refine ⟨⟨i, ⟨0, (lyingMirror (mirrorMaterial fun _ => k)).toShape⟩⟩, ?_, rfl, ?_, ?_⟩
  · have hi' : (lyingMirror (mirrorMaterial fun _ => k)).toShape.intersect ⟨⟨-2, -1, 2⟩, ⟨2 / 3, 1 / 3, -(2 / 3)⟩, HasInf.infinity⟩ = some (some (i, 3)) := hi
    have m1' : (AreaLight.mk e (hangingLamp (lambertianMaterial fun _ => ⟨0, 0, 0⟩)).toShape).toShape.intersect
      ⟨⟨-2, -1, 2⟩, ⟨2 / 3, 1 / 3, -(2 / 3)⟩, 3⟩ = some none := m1
    exact closest_first hi' m1'
  · rw [hp]; unfold pointAt; ext <;> norm_num
  · obtain ⟨q1, q2, q3, q4, q5⟩ := mirror_point (mirrorMaterial fun _ => k) ⟨2 / 3, 1 / 3, -(2 / 3)⟩ b0 b1 b2
    rw [← hib] at q1 q2 q3 q4 q5
    refine ⟨q1, q2, q3, q4, q5.trans ?_⟩
    unfold V3.neg; real_ops; norm_num

/-- The mirrored ray meets the lamp, on the side that shines. -/
theorem lamp_hit : ∃ h : Hit ℝ, (lampScene k e).intersect ⟨⟨0, 0, 0⟩, ⟨2 / 3, 1 / 3, 2 / 3⟩, HasInf.infinity⟩ = some (some h) ∧
    h.obj = ⟨1, (AreaLight.mk e (hangingLamp (lambertianMaterial fun _ => ⟨0, 0, 0⟩)).toShape).toShape⟩ ∧ h.i.n = ⟨0, 0, -1⟩ := by
  have hd : (V3.mk (2 / 3 : ℝ) (1 / 3) (2 / 3)) ≠ V3.zero := by
    intro h; have := congrArg V3.x h; norm_num [V3.zero, r_lit] at this
  rw [lamp_box k e _ (by intro a; cases a <;> norm_num [V3.get]) (by dsimp only; linarith)
    (by intro a; cases a <;> norm_num [planeLo, planeHi, V3.get])]
  obtain ⟨i, hi, hp, -⟩ := c39_triangle_complete (hangingLamp (lambertianMaterial fun _ => ⟨0, 0, 0⟩))
    ⟨⟨0, 0, 0⟩, ⟨2 / 3, 1 / 3, 2 / 3⟩, HasInf.infinity⟩ (1 / 3) (1 / 3) (1 / 3) 3
    (by norm_num [Weights]) (by unfold pointAt mix hangingLamp; ext <;> norm_num)
    (by norm_num [planeNormal, Spec.inner, vcross, diff, hangingLamp])
    (by
      intro m hm
      have hz := hm .Z
      cases m
      · unfold errorThreshold rayCoord maxAbs errFactor diff hangingLamp
        simp only [V3.get, Axis.prev, Axis.next]
        norm_num [abs_of_pos, abs_of_neg, max_def]
      · norm_num [V3.get, abs_of_pos, abs_of_neg] at hz
      · unfold errorThreshold rayCoord maxAbs errFactor diff hangingLamp
        simp only [V3.get, Axis.prev, Axis.next]
        norm_num [abs_of_pos, abs_of_neg, max_def]) (by dsimp only; linarith)
  obtain ⟨b0, b1, b2, -, hib⟩ := hit_interactionAt _ _ hd hi
  have m1 := triangle_out_of_reach (lyingMirror (mirrorMaterial fun _ => k)) ⟨⟨0, 0, 0⟩, ⟨2 / 3, 1 / 3, 2 / 3⟩, HasInf.infinity⟩ hd ⟨0, 0, 1⟩ 0
    (by norm_num [Spec.inner, lyingMirror]) (by norm_num [Spec.inner, lyingMirror]) (by norm_num [Spec.inner, lyingMirror])
    (by intro t ht _ h; norm_num [Spec.inner] at h; linarith)
  refine ⟨⟨i, ⟨1, (AreaLight.mk e (hangingLamp (lambertianMaterial fun _ => ⟨0, 0, 0⟩)).toShape).toShape⟩⟩, ?_, rfl, ?_⟩
  · have m1' : (lyingMirror (mirrorMaterial fun _ => k)).toShape.intersect ⟨⟨0, 0, 0⟩, ⟨2 / 3, 1 / 3, 2 / 3⟩, HasInf.infinity⟩ = some none := m1
    have hi' : (AreaLight.mk e (hangingLamp (lambertianMaterial fun _ => ⟨0, 0, 0⟩)).toShape).toShape.intersect
      ⟨⟨0, 0, 0⟩, ⟨2 / 3, 1 / 3, 2 / 3⟩, HasInf.infinity⟩ = some (some (i, 3)) := hi
    exact closest_second m1' hi'
  · rw [hib]; exact lamp_point _ _ b0 b1 b2
end Demo

section
variable [HasInf ℝ] [HasNext ℝ]

/-- At a surface that reflects nothing only its own emission is seen. -/
theorem dark_incoming (hinf : (0 : ℝ) ≤ HasInf.infinity) (scene : Scene ℝ) (c : Chan) (n : Nat) (ray : Ray ℝ) (h : Hit ℝ) (hh : scene.intersect ray = some (some h))
    (hm : h.obj.shape.material = lambertianMaterial fun _ => ⟨0, 0, 0⟩) :
    incoming scene c (n + 1) true ray = ENNReal.ofReal (c.of (h.obj.shape.l h.i ray.direction.neg)) := by
  have h0 : c.of (Spectrum.zero : Spectrum ℝ) = 0 := by cases c <;> simp only [Chan.of, Spectrum.zero] <;> real_ops
  have hb : ∀ i, lambertianMaterial (fun _ => (⟨0, 0, 0⟩ : Spectrum ℝ)) i = BSDF.new i := by
    intro i
    have hc : clampedTex (fun _ => (⟨0, 0, 0⟩ : Spectrum ℝ)) i = ⟨0, 0, 0⟩ :=
      colour_clamped (k := fun _ => (⟨0, 0, 0⟩ : Spectrum ℝ)) (by intro c; cases c <;> exact ⟨le_refl _, hinf⟩)
    have hb : (⟨0, 0, 0⟩ : Spectrum ℝ).isBlack = true := by unfold Spectrum.isBlack; real_ops; norm_num
    unfold lambertianMaterial
    simp only [hc, hb, if_true]
  have hs : ∀ i wo u, (lambertianMaterial (fun _ => (⟨0, 0, 0⟩ : Spectrum ℝ)) i).sampleF wo u = some BSDF.noSample := by
    intro i wo u; rw [hb]; rfl
  have hf : ∀ i wo wi, c.of ((lambertianMaterial (fun _ => (⟨0, 0, 0⟩ : Spectrum ℝ)) i).f wo wi) = 0 := by
    intro i wo wi; rw [hb]; unfold BSDF.f; dsimp only; split_ifs <;> exact h0
  have hl : ∀ light, fromSource scene c h light = 0 := by
    intro light
    have e1 : fromLight scene c h light = fun _ => 0 := by
      funext u
      unfold fromLight
      dsimp only
      split
      · rfl
      · split_ifs <;> first | rfl | (rw [hm, hf]; simp)
    have e2 : fromSurface scene c h light = fun _ => 0 := by
      funext u
      unfold fromSurface
      simp only [hm, hs, BSDF.noSample]
      split
      · rw [if_neg]; rintro ⟨x, -⟩; simp [r_lit] at x
      · rfl
    unfold fromSource
    rw [e1, e2, mean2_const]; simp
  rw [incoming]
  simp only [hh, hl, hm, hs, BSDF.noSample]
  simp [r_lit, mean2_const]

/-- C85 is false of the code.  A mirror of colour `k` shows a lamp that emits `e`: along the mirror direction the light `e` comes in, but the mean
radiance of the camera sample is twice `k e`. -/
theorem c85_mirror_refuted (hinf : (100 : ℝ) ≤ HasInf.infinity) (k e : Spectrum ℝ) (hk : Colour k) (hb : ∃ c : Chan, c.of k ≠ 0) (he : NonNeg e) :
    ∃ (hist : List (BuilderCall ℝ)) (scene : Scene ℝ) (camera : PerspectiveCamera ℝ) (pFilm : V2 ℝ) (h : Hit ℝ),
      (∀ c ∈ hist, TriangleCall c) ∧ (built hist).construct (fun ss => (Simple.new ss).map Simple.toContainer) = some scene ∧
      scene.intersect (camera.generateRay pFilm) = some (some h) ∧ h.obj.shape.material = mirrorMaterial (fun _ => k) ∧
      ∀ c : Chan, c.of (h.obj.shape.l h.i (camera.generateRay pFilm).direction.neg) = 0 ∧
        incoming scene c 64 true (h.i.spawnRay (mirrored h.i.wo h.i.sn)) = ENNReal.ofReal (c.of e) ∧
        mean (fun s => ENNReal.ofReal (c.of s)) (cameraRadiance scene camera pFilm) = 2 * (ENNReal.ofReal (c.of k) * ENNReal.ofReal (c.of e)) := by
  have htan : Real.tan (degrees 90 / 2) = 1 := by
    rw [show degrees 90 / 2 = Real.pi / 4 by unfold degrees; ring, Real.tan_pi_div_four]
  have hcr := c52_camera_ray (pos := ⟨-2, -1, 2⟩) (look := ⟨0, 0, 0⟩) (up := ⟨0, 0, 1⟩) (fov := 90) (n := 1) (f := 10)
    (wmin := ⟨-1, -1⟩) (wmax := ⟨1, 1⟩) (res := ⟨2, 2⟩)
    (by
      intro h; have := congrArg V3.x h
      simp only [vprod, V3.sub] at this; real_ops at this; norm_num at this)
    one_pos (by norm_num) (by rw [htan]; norm_num) (by norm_num) (by norm_num) (by norm_num) (by norm_num) ⟨1, 1⟩
  dsimp only at hcr
  set camera := PerspectiveCamera.new (Transform.lookAt ⟨-2, -1, 2⟩ ⟨0, 0, 0⟩ ⟨0, 0, 1⟩) (Transform.perspective (90 : ℝ) 1 10) ⟨-1, -1⟩ ⟨1, 1⟩ ⟨2, 2⟩ with hcam
  obtain ⟨h1, h2, h3, L, U, D, ⟨c1, hc1, hD⟩, -, -, hD1, -, c2, hc2, hdir⟩ := hcr
  have hs : screenPoint ⟨-1, -1⟩ ⟨1, 1⟩ ⟨2, 2⟩ ⟨1, 1⟩ = ⟨0, 0, 0⟩ := by unfold screenPoint; ext <;> norm_num
  rw [hs] at hdir
  have hray : camera.generateRay ⟨1, 1⟩ = ⟨⟨-2, -1, 2⟩, ⟨2 / 3, 1 / 3, -(2 / 3)⟩, HasInf.infinity⟩ := by
    have hdd : (camera.generateRay ⟨1, 1⟩).direction = ⟨c2 * c1 * 2, c2 * c1 * 1, -(c2 * c1 * 2)⟩ := by
      rw [hdir, hD]
      simp only [plus, times, V3.sub]; real_ops
      ext <;> simp <;> ring
    have hc : c2 * c1 = 1 / 3 := by
      rw [hdd] at h3
      simp only [Spec.sq] at h3
      have : 0 < c2 * c1 := mul_pos hc2 hc1
      nlinarith
    rw [hc] at hdd
    have : camera.generateRay ⟨1, 1⟩ = ⟨(camera.generateRay ⟨1, 1⟩).origin, (camera.generateRay ⟨1, 1⟩).direction, (camera.generateRay ⟨1, 1⟩).tMax⟩ := rfl
    rw [this, h1, h2, hdd]
    norm_num
  obtain ⟨h, hh, hobj, hp, hn, hsn, hdp, hpe, hwo⟩ := Demo.camera_hit k e hinf
  obtain ⟨h', hh', hobj', hn'⟩ := Demo.lamp_hit k e hinf
  have hlib : ∀ c ∈ Demo.lampAndMirror k e, TriangleCall c := by
    intro c hc
    simp only [Demo.lampAndMirror, List.mem_cons, List.not_mem_nil, or_false] at hc
    rcases hc with rfl | rfl
    · exact .triangle _ _ (.mirror _) ⟨fun i => .mirror _, fun n0 n1 n2 hn => by cases hn⟩
    · exact .area _ _ _ he (.lambertian _) ⟨fun i => .lambertian _, fun n0 n1 n2 hn => by cases hn⟩
  have hm : h.obj.shape.material = mirrorMaterial (fun _ => k) := by rw [hobj]; rfl
  have hnext : h.i.spawnRay (mirrored h.i.wo h.i.sn) = ⟨⟨0, 0, 0⟩, ⟨2 / 3, 1 / 3, 2 / 3⟩, HasInf.infinity⟩ := by
    have e1 : mirrored h.i.wo h.i.sn = ⟨2 / 3, 1 / 3, 2 / 3⟩ := by rw [hwo, hsn]; unfold mirrored Spec.inner; ext <;> norm_num
    have e2 : h.i.offsetRayOrigin ⟨2 / 3, 1 / 3, 2 / 3⟩ = ⟨0, 0, 0⟩ := by
      have e3 : (V3.mk (0 : ℝ) 0 1).abs.dot h.i.pErr = 0 := by simp only [V3.abs, V3.dot, hpe]; real_ops; norm_num
      unfold Interaction.offsetRayOrigin
      simp only [hn]
      rw [e3]
      simp only [hp, V3.smul, V3.dot, V3.add, Interaction.nudge]
      real_ops; norm_num
    unfold Interaction.spawnRay
    rw [e1, e2]
  have hemit : ∀ c : Chan, c.of (h'.obj.shape.l h'.i (V3.mk (2 / 3 : ℝ) (1 / 3) (2 / 3)).neg) = c.of e := by
    intro c
    rw [hobj']
    change c.of (AreaLight.emitted _ _ _) = _
    unfold AreaLight.emitted
    rw [if_pos]
    rw [hn']; simp only [V3.neg, V3.dot]; real_ops; norm_num
  have hzero : ∀ c : Chan, c.of (h.obj.shape.l h.i (camera.generateRay ⟨1, 1⟩).direction.neg) = 0 := by
    intro c
    rw [hobj]
    change c.of Spectrum.zero = 0
    cases c <;> simp only [Chan.of, Spectrum.zero] <;> real_ops
  have hin : ∀ c : Chan, incoming (Demo.lampScene k e) c 64 true (h.i.spawnRay (mirrored h.i.wo h.i.sn)) = ENNReal.ofReal (c.of e) := by
    intro c
    rw [hnext, dark_incoming (by linarith) (Demo.lampScene k e) c 63 _ h' hh' (by rw [hobj']; rfl), hemit]
  refine ⟨Demo.lampAndMirror k e, Demo.lampScene k e, camera, ⟨1, 1⟩, h, hlib, Demo.lampScene_built k e, by rw [hray]; exact hh, hm, fun c => ⟨hzero c, hin c, ?_⟩⟩
  rw [c78_triangle_world (by linarith) _ hlib .simple (Demo.lampScene_built k e) (by simp [Demo.lampAndMirror]) camera ⟨1, 1⟩ h3 c]
  have hsm : Smooth h.i := by
    refine ⟨by rw [hsn]; norm_num [Spec.sq], ?_, by rw [hsn, hdp]; norm_num [Spec.inner]⟩
    intro hz
    rw [hdp] at hz
    have := congrArg V3.x hz
    norm_num [V3.zero, r_lit] at this
  have key := c85_mirror_partial (Demo.lampScene k e) c 64 true (camera.generateRay ⟨1, 1⟩) h (by rw [hray]; exact hh) (fun _ => k) hm hsm hk hb
    (by rw [hwo, hsn]; norm_num [Spec.inner])
  dsimp only at key
  rw [key, hzero, hin]
  have hsh : (extended (Demo.lampScene k e)).map (shines (Demo.lampScene k e) c (h.i.spawnRay (mirrored h.i.wo h.i.sn))) = [ENNReal.ofReal (c.of e)] := by
    have : extended (Demo.lampScene k e) = (Demo.lampScene k e).lights := rfl
    rw [this]
    change [_] = [_]
    congr 1
    unfold shines
    rw [hnext]
    simp only [hh']
    rw [if_pos (by rw [hobj']), hemit]
  rw [hsh]
  simp only [List.sum_cons, List.sum_nil, add_zero, if_true, ENNReal.ofReal_zero, zero_add]
  ring

/-- With a half mirror and a lamp of radiance 3 the pixel shows 3 instead of 3/2. -/
example (hinf : (100 : ℝ) ≤ HasInf.infinity) : ∃ (scene : Scene ℝ) (camera : PerspectiveCamera ℝ) (pFilm : V2 ℝ),
    mean (fun s => ENNReal.ofReal (Chan.r.of s)) (cameraRadiance scene camera pFilm) = 3 := by
  obtain ⟨_, scene, camera, p, _, _, _, _, _, h⟩ := c85_mirror_refuted hinf ⟨1 / 2, 1 / 2, 1 / 2⟩ ⟨3, 2, 1⟩
    (by intro c; cases c <;> simp only [Chan.of] <;> constructor <;> linarith) ⟨.r, by norm_num [Chan.of]⟩ (by norm_num [NonNeg])
  refine ⟨scene, camera, p, (h .r).2.2.trans ?_⟩
  simp only [Chan.of]
  rw [← ENNReal.ofReal_mul (by norm_num), show (2 : ENNReal) = ENNReal.ofReal 2 by simp, ← ENNReal.ofReal_mul (by norm_num)]
  norm_num
end

end PT
