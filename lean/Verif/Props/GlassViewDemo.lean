import Verif.Props.GlassView
import Verif.Props.Lambert

/-!
# A pane of glass (concrete cases for C115)
-/

namespace PT
open Spec
open scoped ENNReal

namespace Demo
section
variable [HasInf ℝ]
/-- Clear material of index 4/3 (water). -/
noncomputable def clearWater : Material ℝ :=
  glassMaterial (fun _ => ⟨1, 1, 1⟩) (fun _ => ⟨1, 1 / 2, 1⟩) (fun _ => 4 / 3) (fun _ => 0) (fun _ => 0)
/-- The lower face of the pane, in the plane z = -4. -/
noncomputable def lowerFace (m : Material ℝ) : Triangle ℝ := ⟨⟨59 / 5, -(38 / 5), -4⟩, ⟨-(41 / 5), -(38 / 5), -4⟩, ⟨9 / 5, 112 / 5, -4⟩, none, false, m⟩
noncomputable def paneBox : BBox3 ℝ := ⟨⟨-10, -10, -4⟩, ⟨59 / 5, 112 / 5, 0⟩⟩
/-- Two parallel faces and a lamp far away. -/
noncomputable def pane (m : Material ℝ) : Scene ℝ :=
  ⟨[⟨7, distant ⟨3, 2, 1⟩ ⟨3, 0, -4⟩ paneBox⟩],
    (Simple.mk [⟨0, (lyingMirror m).toShape⟩, ⟨1, (lowerFace m).toShape⟩] paneBox).toContainer⟩
end

theorem lower_point (m : Material ℝ) (d : V3 ℝ) (b0 b1 b2 : ℝ) :
    let i := (lowerFace m).interactionAt d b0 b1 b2
    i.n = ⟨0, 0, -1⟩ ∧ i.sn = ⟨0, 0, -1⟩ ∧ i.dpdu = ⟨-20, 0, 0⟩ ∧ i.wo = d.neg := by
  have hl : (V3.mk (0 : ℝ) 0 (-600)).length = 600 := by
    rw [length_eq]; simp only [Spec.sq]
    rw [show (0 : ℝ) ^ 2 + 0 ^ 2 + (-600) ^ 2 = 600 ^ 2 by norm_num, Real.sqrt_sq (by norm_num)]
  have hn : (((lowerFace m).v0.sub (lowerFace m).v2).cross ((lowerFace m).v1.sub (lowerFace m).v2)).normalize = ⟨0, 0, -1⟩ := by
    have e : ((lowerFace m).v0.sub (lowerFace m).v2).cross ((lowerFace m).v1.sub (lowerFace m).v2) = ⟨0, 0, -600⟩ := by
      simp only [lowerFace, V3.sub, V3.cross]; real_ops; norm_num
    rw [e]; unfold V3.normalize; rw [hl]; real_ops; norm_num
  have hp : ((lowerFace m).partials).1 = ⟨-20, 0, 0⟩ := by
    simp only [Triangle.partials, Triangle.getUv, lowerFace, V3.sub, V2.sub, V3.smul, V3.sdiv, epsilon]
    real_ops
    norm_num
  have hd : (V3.mk (0 : ℝ) 0 (-1)).dot ⟨0, 0, -1⟩ = 1 := by simp only [V3.dot]; real_ops; norm_num
  simp only [Triangle.interactionAt, Triangle.shading]
  rw [hn]
  simp only [lowerFace, Bool.false_eq_true, if_false] at hp ⊢
  rw [hd]
  refine ⟨?_, trivial, hp, trivial⟩
  real_ops; norm_num

variable [HasInf ℝ] (m : Material ℝ)

theorem pane_box (ray : Ray ℝ) (t : ℝ) (hd : ∀ a, ray.direction.get a ≠ 0) (h0 : 0 ≤ t) (h1 : t ≤ ray.tMax)
    (hx : ∀ a : Axis, min (planeLo paneBox ray a) (planeHi paneBox ray a) ≤ t ∧ t ≤ max (planeLo paneBox ray a) (planeHi paneBox ray a)) :
    (pane m).intersect ray = (closestHit [⟨0, (lyingMirror m).toShape⟩, ⟨1, (lowerFace m).toShape⟩] ray none).map (·.2) := by
  change Simple.intersect _ ray = _
  unfold Simple.intersect
  dsimp only
  cases hb : BBox3.intersect paneBox ray with
  | some x => rfl
  | none =>
    exfalso
    have := (c35_box_test _ ray hd).2 hb
    have hmem : t ∈ (∅ : Set ℝ) := by
      rw [← this]
      refine ⟨h0, h1, fun a => ⟨(hx a).1, (hx a).2.trans ?_⟩⟩
      have hg : 0 ≤ gamma3 := by unfold gamma3; norm_num
      have := (hx a).2
      nlinarith
    exact hmem

variable (hinf : (100 : ℝ) ≤ HasInf.infinity)
include hinf

/-- A ray that meets the upper face at the origin. -/
theorem upper_hit : ∃ h : Hit ℝ, (pane m).intersect ⟨⟨-(12 / 5), -(16 / 5), 3⟩, ⟨12 / 25, 16 / 25, -(3 / 5)⟩, HasInf.infinity⟩ = some (some h) ∧
    h.obj = ⟨0, (lyingMirror m).toShape⟩ ∧ h.i.p = ⟨0, 0, 0⟩ ∧ h.i.n = ⟨0, 0, 1⟩ ∧ h.i.sn = ⟨0, 0, 1⟩ ∧
    h.i.dpdu = ⟨20, 0, 0⟩ ∧ h.i.pErr.z = 0 ∧ h.i.wo = ⟨-(12 / 25), -(16 / 25), 3 / 5⟩ := by
  have hd : (V3.mk (12 / 25 : ℝ) (16 / 25) (-(3 / 5))) ≠ V3.zero := by
    intro h; have := congrArg V3.x h; norm_num [V3.zero, r_lit] at this
  rw [pane_box m _ 5 (by intro a; cases a <;> norm_num [V3.get]) (by norm_num) (by dsimp only; linarith)
    (by intro a; cases a <;> norm_num [planeLo, planeHi, V3.get, paneBox])]
  obtain ⟨i, hi, hp, -⟩ := c39_triangle_complete (lyingMirror m)
    ⟨⟨-(12 / 5), -(16 / 5), 3⟩, ⟨12 / 25, 16 / 25, -(3 / 5)⟩, HasInf.infinity⟩ (1 / 3) (1 / 3) (1 / 3) 5
    (by norm_num [Weights]) (by unfold pointAt mix lyingMirror; ext <;> norm_num)
    (by norm_num [planeNormal, Spec.inner, vcross, diff, lyingMirror])
    (by
      intro ax hm
      have hz := hm .Y
      cases ax
      · norm_num [V3.get, abs_of_pos, abs_of_neg] at hz
      · unfold errorThreshold rayCoord maxAbs errFactor diff lyingMirror
        simp only [V3.get, Axis.prev, Axis.next]
        norm_num [abs_of_pos, abs_of_neg, max_def]
      · norm_num [V3.get, abs_of_pos, abs_of_neg] at hz) (by dsimp only; linarith)
  obtain ⟨b0, b1, b2, -, hib⟩ := hit_interactionAt _ _ hd hi
  have m1 := triangle_out_of_reach (lowerFace m) ⟨⟨-(12 / 5), -(16 / 5), 3⟩, ⟨12 / 25, 16 / 25, -(3 / 5)⟩, 5⟩ hd ⟨0, 0, 1⟩ (-4)
    (by norm_num [Spec.inner, lowerFace]) (by norm_num [Spec.inner, lowerFace]) (by norm_num [Spec.inner, lowerFace])
    (by intro t _ ht h; norm_num [Spec.inner] at h ht; linarith)
  refine ⟨⟨i, ⟨0, (lyingMirror m).toShape⟩⟩, ?_, rfl, ?_, ?_⟩
  · have hi' : (lyingMirror m).toShape.intersect ⟨⟨-(12 / 5), -(16 / 5), 3⟩, ⟨12 / 25, 16 / 25, -(3 / 5)⟩, HasInf.infinity⟩ = some (some (i, 5)) := hi
    have m1' : (lowerFace m).toShape.intersect ⟨⟨-(12 / 5), -(16 / 5), 3⟩, ⟨12 / 25, 16 / 25, -(3 / 5)⟩, 5⟩ = some none := m1
    exact closest_first hi' m1'
  · rw [hp]; unfold pointAt; ext <;> norm_num
  · obtain ⟨q1, q2, q3, q4, q5⟩ := mirror_point m ⟨12 / 25, 16 / 25, -(3 / 5)⟩ b0 b1 b2
    rw [← hib] at q1 q2 q3 q4 q5
    refine ⟨q1, q2, q3, q4, q5.trans ?_⟩
    unfold V3.neg; real_ops; norm_num

/-- The refracted ray meets the lower face. -/
theorem lower_hit : ∃ h : Hit ℝ, (pane m).intersect ⟨⟨0, 0, 0⟩, ⟨9 / 25, 12 / 25, -(4 / 5)⟩, HasInf.infinity⟩ = some (some h) ∧
    h.obj = ⟨1, (lowerFace m).toShape⟩ ∧ h.i.sn = ⟨0, 0, -1⟩ ∧
    h.i.dpdu = ⟨-20, 0, 0⟩ ∧ h.i.wo = ⟨-(9 / 25), -(12 / 25), 4 / 5⟩ := by
  have hd : (V3.mk (9 / 25 : ℝ) (12 / 25) (-(4 / 5))) ≠ V3.zero := by
    intro h; have := congrArg V3.x h; norm_num [V3.zero, r_lit] at this
  rw [pane_box m _ 5 (by intro a; cases a <;> norm_num [V3.get]) (by norm_num) (by dsimp only; linarith)
    (by intro a; cases a <;> norm_num [planeLo, planeHi, V3.get, paneBox])]
  obtain ⟨i, hi, hp, -⟩ := c39_triangle_complete (lowerFace m)
    ⟨⟨0, 0, 0⟩, ⟨9 / 25, 12 / 25, -(4 / 5)⟩, HasInf.infinity⟩ (1 / 3) (1 / 3) (1 / 3) 5
    (by norm_num [Weights]) (by unfold pointAt mix lowerFace; ext <;> norm_num)
    (by norm_num [planeNormal, Spec.inner, vcross, diff, lowerFace])
    (by
      intro ax hm
      have hz := hm .Z
      cases ax
      · norm_num [V3.get, abs_of_pos, abs_of_neg] at hz
      · norm_num [V3.get, abs_of_pos, abs_of_neg] at hz
      · unfold errorThreshold rayCoord maxAbs errFactor diff lowerFace
        simp only [V3.get, Axis.prev, Axis.next]
        norm_num [abs_of_pos, abs_of_neg, max_def]) (by dsimp only; linarith)
  obtain ⟨b0, b1, b2, -, hib⟩ := hit_interactionAt _ _ hd hi
  have m1 := triangle_out_of_reach (lyingMirror m) ⟨⟨0, 0, 0⟩, ⟨9 / 25, 12 / 25, -(4 / 5)⟩, HasInf.infinity⟩ hd ⟨0, 0, 1⟩ 0
    (by norm_num [Spec.inner, lyingMirror]) (by norm_num [Spec.inner, lyingMirror]) (by norm_num [Spec.inner, lyingMirror])
    (by intro t ht _ h; norm_num [Spec.inner] at h; linarith)
  refine ⟨⟨i, ⟨1, (lowerFace m).toShape⟩⟩, ?_, rfl, ?_⟩
  · have m1' : (lyingMirror m).toShape.intersect ⟨⟨0, 0, 0⟩, ⟨9 / 25, 12 / 25, -(4 / 5)⟩, HasInf.infinity⟩ = some none := m1
    have hi' : (lowerFace m).toShape.intersect ⟨⟨0, 0, 0⟩, ⟨9 / 25, 12 / 25, -(4 / 5)⟩, HasInf.infinity⟩ = some (some (i, 5)) := hi
    exact closest_second m1' hi'
  · obtain ⟨q1, q2, q3, q4⟩ := lower_point m ⟨9 / 25, 12 / 25, -(4 / 5)⟩ b0 b1 b2
    rw [← hib] at q1 q2 q3 q4
    refine ⟨q2, q3, q4.trans ?_⟩
    unfold V3.neg; real_ops; norm_num
end Demo

section
variable [HasInf ℝ] [HasNext ℝ]

/-- No lamp has an extent in that scene. -/
theorem pane_no_lamp (m : Material ℝ) (ray : Ray ℝ) : SeesNoLamp (Demo.pane m) ray := by
  intro h hh l hl
  have hl' : l.addr = 7 := by
    simp only [Demo.pane, List.mem_cons, List.not_mem_nil, or_false] at hl
    rw [hl]
  have hm : h.obj.addr = 0 ∨ h.obj.addr = 1 := by
    change Simple.intersect _ ray = _ at hh
    unfold Simple.intersect at hh
    dsimp only at hh
    split at hh
    · simp at hh
    · obtain ⟨⟨r', h'⟩, hx, hx2⟩ := Option.map_eq_some_iff.1 hh
      obtain rfl : h' = some h := hx2
      rcases closestHit_from _ _ _ _ _ hx with h0 | h0
      · cases h0
      · simp only [List.mem_cons, List.not_mem_nil, or_false] at h0
        rcases h0 with h0 | h0
        · exact .inl (by rw [h0])
        · exact .inr (by rw [h0])
  rw [hl']
  rcases hm with h | h <;> rw [h] <;> decide

omit [HasInf ℝ] [HasNext ℝ] in
/-- The share that water reflects at this angle. -/
theorem water_share : glassShare (4 / 3) (3 / 5) = 49 / 1250 := by
  have e : √((1 : ℝ) - (3 / 5) ^ 2) = 4 / 5 := by
    rw [show (1 : ℝ) - (3 / 5) ^ 2 = (4 / 5) ^ 2 by norm_num]; exact Real.sqrt_sq (by norm_num)
  have e2 : √((1 : ℝ) - (1 / (4 / 3)) ^ 2 * (1 - (3 / 5) ^ 2)) = 4 / 5 := by
    rw [show (1 : ℝ) - (1 / (4 / 3)) ^ 2 * (1 - (3 / 5) ^ 2) = (4 / 5) ^ 2 by norm_num]; exact Real.sqrt_sq (by norm_num)
  rw [glassShare, if_pos (by norm_num), boundary, e, e2, if_neg (by norm_num)]
  norm_num [Spec.fresnel]

/-- C115, the assumptions: water seen at Brewster's angle shows 49/1250 of the mirror image and 1201/1250 of what is below, in green half of it,
times 9/16. -/
example (hinf : (100 : ℝ) ≤ HasInf.infinity) (n : Nat) : ∃ h : Hit ℝ,
    incoming (Demo.pane Demo.clearWater) .g (n + 1) true ⟨⟨-(12 / 5), -(16 / 5), 3⟩, ⟨12 / 25, 16 / 25, -(3 / 5)⟩, HasInf.infinity⟩ =
      ENNReal.ofReal (49 / 1250) * incoming (Demo.pane Demo.clearWater) .g n true (h.i.spawnRay ⟨12 / 25, 16 / 25, 3 / 5⟩) +
      ENNReal.ofReal (1 / 2 * (1201 / 1250) * (9 / 16)) * incoming (Demo.pane Demo.clearWater) .g n true (h.i.spawnRay ⟨9 / 25, 12 / 25, -(4 / 5)⟩) := by
  obtain ⟨h, hh, hobj, hp, hn, hsn, hdp, hpe, hwo⟩ := Demo.upper_hit Demo.clearWater hinf
  refine ⟨h, ?_⟩
  have hsm : Smooth h.i := by
    refine ⟨by rw [hsn]; norm_num [Spec.sq], ?_, by rw [hsn, hdp]; norm_num [Spec.inner]⟩
    intro hz
    rw [hdp] at hz
    have := congrArg V3.x hz
    norm_num [V3.zero, r_lit] at this
  have hin : Spec.inner h.i.wo h.i.sn = 3 / 5 := by rw [hwo, hsn]; norm_num [Spec.inner]
  have key := (c115_glass (Demo.pane Demo.clearWater) .g n true _ h hh (fun _ => ⟨1, 1, 1⟩) (fun _ => ⟨1, 1 / 2, 1⟩) (fun _ => 4 / 3) (fun _ => 0) (fun _ => 0)
    (by rw [hobj]; rfl) hsm (by intro c; cases c <;> simp only [Chan.of] <;> constructor <;> linarith)
    (by intro c; cases c <;> simp only [Chan.of] <;> constructor <;> linarith) ⟨.r, by norm_num [Chan.of]⟩ ⟨.r, by norm_num [Chan.of]⟩ rfl rfl (by norm_num)
    (by rw [hwo]; norm_num [Spec.sq]) (by rw [hin]; norm_num) (pane_no_lamp _ _) ⟨9 / 25, 12 / 25, -(4 / 5)⟩ (pane_no_lamp _ _)).1
  rw [hin, water_share] at key
  simp only [nearIndex, farIndex] at key
  rw [if_pos (by norm_num), if_pos (by norm_num), if_pos trivial] at key
  have hmir : mirrored h.i.wo h.i.sn = ⟨12 / 25, 16 / 25, 3 / 5⟩ := by rw [hwo, hsn]; unfold mirrored Spec.inner; ext <;> norm_num
  rw [hmir] at key
  have hl : h.obj.shape.l h.i (V3.mk (12 / 25 : ℝ) (16 / 25) (-(3 / 5))).neg = Spectrum.zero := by rw [hobj]; rfl
  rw [key]
  · rw [hl]
    norm_num [Chan.of, Spectrum.zero, r_lit]
  · rw [hwo, hsn]
    refine ⟨by norm_num [Spec.sq], by norm_num [Spec.inner], ?_⟩
    norm_num [times, tangential, Spec.inner]

/-- C115, the assumptions for the plate: through both faces, (1201/1250)² of the light behind, in green a quarter of it. -/
example (hinf : (100 : ℝ) ≤ HasInf.infinity) (n : Nat) : ∃ h2 : Hit ℝ,
    ENNReal.ofReal (1 / 4 * (1201 / 1250) ^ 2) * incoming (Demo.pane Demo.clearWater) .g n true (h2.i.spawnRay ⟨12 / 25, 16 / 25, -(3 / 5)⟩) ≤
      incoming (Demo.pane Demo.clearWater) .g (n + 2) true ⟨⟨-(12 / 5), -(16 / 5), 3⟩, ⟨12 / 25, 16 / 25, -(3 / 5)⟩, HasInf.infinity⟩ := by
  obtain ⟨h, hh, hobj, hp, hn, hsn, hdp, hpe, hwo⟩ := Demo.upper_hit Demo.clearWater hinf
  obtain ⟨h2, hh2, hobj2, hsn2, hdp2, hwo2⟩ := Demo.lower_hit Demo.clearWater hinf
  refine ⟨h2, ?_⟩
  have hsm : Smooth h.i := by
    refine ⟨by rw [hsn]; norm_num [Spec.sq], ?_, by rw [hsn, hdp]; norm_num [Spec.inner]⟩
    intro hz
    rw [hdp] at hz
    have := congrArg V3.x hz
    norm_num [V3.zero, r_lit] at this
  have hsm2 : Smooth h2.i := by
    refine ⟨by rw [hsn2]; norm_num [Spec.sq], ?_, by rw [hsn2, hdp2]; norm_num [Spec.inner]⟩
    intro hz
    rw [hdp2] at hz
    have := congrArg V3.x hz
    norm_num [V3.zero, r_lit] at this
  have hin : Spec.inner h.i.wo h.i.sn = 3 / 5 := by rw [hwo, hsn]; norm_num [Spec.inner]
  have hnext : h.i.spawnRay ⟨9 / 25, 12 / 25, -(4 / 5)⟩ = ⟨⟨0, 0, 0⟩, ⟨9 / 25, 12 / 25, -(4 / 5)⟩, HasInf.infinity⟩ := by
    have e2 : h.i.offsetRayOrigin ⟨9 / 25, 12 / 25, -(4 / 5)⟩ = ⟨0, 0, 0⟩ := by
      have e3 : (V3.mk (0 : ℝ) 0 1).abs.dot h.i.pErr = 0 := by simp only [V3.abs, V3.dot, hpe]; real_ops; norm_num
      unfold Interaction.offsetRayOrigin
      simp only [hn]
      rw [e3]
      simp only [hp, V3.smul, V3.dot, V3.add, V3.neg, Interaction.nudge]
      real_ops; norm_num
    unfold Interaction.spawnRay
    rw [e2]
  have key := c115_plate (Demo.pane Demo.clearWater) .g n true _ h h2 ⟨9 / 25, 12 / 25, -(4 / 5)⟩ hh (fun _ => ⟨1, 1, 1⟩) (fun _ => ⟨1, 1 / 2, 1⟩) (fun _ => 4 / 3) (fun _ => 0) (fun _ => 0)
    (by rw [hobj]; rfl) hsm (by intro c; cases c <;> simp only [Chan.of] <;> constructor <;> linarith)
    (by intro c; cases c <;> simp only [Chan.of] <;> constructor <;> linarith) ⟨.r, by norm_num [Chan.of]⟩ ⟨.r, by norm_num [Chan.of]⟩ rfl rfl (by norm_num)
    (by rw [hwo]; norm_num [Spec.sq]) (by rw [hin]; norm_num)
    (by rw [hwo, hsn]
        refine ⟨by norm_num [Spec.sq], by norm_num [Spec.inner], ?_⟩
        norm_num [times, tangential, Spec.inner])
    (by rw [hnext]; exact hh2) (fun _ => ⟨1, 1, 1⟩) (fun _ => ⟨1, 1 / 2, 1⟩) (fun _ => 4 / 3) (fun _ => 0) (fun _ => 0)
    (by rw [hobj2]; rfl) hsm2 (by intro c; cases c <;> simp only [Chan.of] <;> constructor <;> linarith)
    (by intro c; cases c <;> simp only [Chan.of] <;> constructor <;> linarith) ⟨.r, by norm_num [Chan.of]⟩ ⟨.r, by norm_num [Chan.of]⟩ rfl rfl rfl
    (by rw [hsn, hsn2]; norm_num [times]) (by rw [hwo2]; norm_num [times])
  rw [hin, water_share] at key
  have ht : times (-1) h.i.wo = ⟨12 / 25, 16 / 25, -(3 / 5)⟩ := by rw [hwo]; norm_num [times]
  rw [ht] at key
  refine le_trans (le_of_eq ?_) key
  congr 2
  norm_num [Chan.of]

/-- C115, the assumptions for light that cannot get out: seen from below at this angle there is no refracted direction. -/
example : ¬ ∃ wi, Refracted (nearIndex (4 / 3) (-(3 / 5))) (farIndex (4 / 3) (-(3 / 5))) ⟨0, 0, 1⟩ ⟨12 / 25, 16 / 25, -(3 / 5)⟩ wi := by
  rintro ⟨wi, hw⟩
  simp only [nearIndex, farIndex] at hw
  rw [if_neg (by norm_num), if_neg (by norm_num)] at hw
  have := refracted_sine (by norm_num) one_pos (by norm_num [Spec.sq]) (by norm_num [Spec.sq]) hw
  rw [show (1 : ℝ) - Spec.inner ⟨12 / 25, 16 / 25, -(3 / 5)⟩ ⟨0, 0, 1⟩ ^ 2 = (4 / 5) ^ 2 by norm_num [Spec.inner], Real.sqrt_sq (by norm_num)] at this
  norm_num at this

/-- C115, the assumptions for metal, whatever its reflectance: half of what the mirror shows in green. -/
example (hinf : (100 : ℝ) ≤ HasInf.infinity) (n : Nat) (F : ℝ → ℝ) (hF : Conducts ⟨1 / 5, 3⟩ F) : ∃ (m : Material ℝ) (h : Hit ℝ),
    incoming (Demo.pane m) .g (n + 1) true ⟨⟨-(12 / 5), -(16 / 5), 3⟩, ⟨12 / 25, 16 / 25, -(3 / 5)⟩, HasInf.infinity⟩ =
      ENNReal.ofReal (1 / 2 * F (3 / 5)) * incoming (Demo.pane m) .g n true (h.i.spawnRay ⟨12 / 25, 16 / 25, 3 / 5⟩) := by
  let m := metalMaterial (fun _ => (⟨1, 1 / 2, 1⟩ : Spectrum ℝ)) (fun _ => ⟨1 / 5, 1 / 5, 1 / 5⟩) (fun _ => ⟨3, 3, 3⟩) (fun _ => 0) (fun _ => 0)
  obtain ⟨h, hh, hobj, hp, hn, hsn, hdp, hpe, hwo⟩ := Demo.upper_hit m hinf
  refine ⟨m, h, ?_⟩
  have hsm : Smooth h.i := by
    refine ⟨by rw [hsn]; norm_num [Spec.sq], ?_, by rw [hsn, hdp]; norm_num [Spec.inner]⟩
    intro hz
    rw [hdp] at hz
    have := congrArg V3.x hz
    norm_num [V3.zero, r_lit] at this
  have hin : Spec.inner h.i.wo h.i.sn = 3 / 5 := by rw [hwo, hsn]; norm_num [Spec.inner]
  have key := c115_metal (Demo.pane m) .g n true _ h hh (fun _ => ⟨1, 1 / 2, 1⟩) (fun _ => ⟨1 / 5, 1 / 5, 1 / 5⟩) (fun _ => ⟨3, 3, 3⟩) (fun _ => 0) (fun _ => 0)
    (by rw [hobj]; rfl) hsm (by intro c; cases c <;> simp only [Chan.of] <;> constructor <;> linarith) rfl rfl
    (by rw [hwo]; norm_num [Spec.sq]) (by rw [hin]; norm_num) F hF (pane_no_lamp _ _)
  have hmir : mirrored h.i.wo h.i.sn = ⟨12 / 25, 16 / 25, 3 / 5⟩ := by rw [hwo, hsn]; unfold mirrored Spec.inner; ext <;> norm_num
  have hl : h.obj.shape.l h.i (V3.mk (12 / 25 : ℝ) (16 / 25) (-(3 / 5))).neg = Spectrum.zero := by rw [hobj]; rfl
  rw [key, hmir, hin, if_pos rfl, hl, abs_of_pos (by norm_num)]
  norm_num [Chan.of, Spectrum.zero, r_lit]
end
end PT
