import Verif.Props.Unseen
import Verif.Props.NoPanicCamera

/-!
# Scenes that meet the hypotheses of C114
-/

namespace PT
open Spec

/-! ### Single precision -/

section
open Fl

/-- Every ray of the camera has a direction that is not zero. -/
theorem wide_rays [Libm F32] (hl : SaneLibm) (ht : Libm.tan (toRadians (lit 90) /. lit 2 : F32) = lit 1) (p : V2 F32) (hx : UpTo 24 p.x) (hy : UpTo 24 p.y) :
    SmallRay (Demo.wideCamera.generateRay p) := by
  obtain ⟨hrot, hwin, hcor, hflat, hdep⟩ := Demo.wideCamera_steady ht
  simp only [List.mem_cons, List.not_mem_nil, or_false, forall_eq_or_imp, forall_eq] at hrot hwin hcor hflat hdep
  obtain ⟨r00, r01, r02, r10, r11, r12, r20, r21, r22⟩ := hrot
  obtain ⟨w00, w01, w02, w10, w11, w12⟩ := hwin
  obtain ⟨c03, c13, c22, c32⟩ := hcor
  obtain ⟨f20, f21, f30, f31⟩ := hflat
  obtain ⟨⟨z1, z2⟩, d1, d2⟩ := hdep
  have hX := NoPanic.camera_row w00 w01 w02 c03 hx hy
  have hY := NoPanic.camera_row w10 w11 w12 c13 hx hy
  obtain ⟨Z1, Z2⟩ := NoPanic.flat_row f20 f21 c22.1 z1.1 hx.1 hy.1
  obtain ⟨W1, W2⟩ := NoPanic.flat_row f30 f31 c32.1 d1.1 hx.1 hy.1
  have hP : UpTo3 53 (Demo.wideCamera.rasterToCamera.apply pointTransform ⟨p.x, p.y, lit 0⟩) ∧
      1 / 2 ^ 50 ≤ |(Demo.wideCamera.rasterToCamera.apply pointTransform ⟨p.x, p.y, lit 0⟩).z.val| := by
    unfold Transform.apply pointTransform
    generalize Demo.wideCamera.rasterToCamera.m.m00 *. p.x +. Demo.wideCamera.rasterToCamera.m.m01 *. p.y +. Demo.wideCamera.rasterToCamera.m.m02 *. lit 0 +. Demo.wideCamera.rasterToCamera.m.m03 = X at *
    generalize Demo.wideCamera.rasterToCamera.m.m10 *. p.x +. Demo.wideCamera.rasterToCamera.m.m11 *. p.y +. Demo.wideCamera.rasterToCamera.m.m12 *. lit 0 +. Demo.wideCamera.rasterToCamera.m.m13 = Y at *
    generalize Demo.wideCamera.rasterToCamera.m.m20 *. p.x +. Demo.wideCamera.rasterToCamera.m.m21 *. p.y +. Demo.wideCamera.rasterToCamera.m.m22 *. lit 0 +. Demo.wideCamera.rasterToCamera.m.m23 = Z at *
    generalize Demo.wideCamera.rasterToCamera.m.m30 *. p.x +. Demo.wideCamera.rasterToCamera.m.m31 *. p.y +. Demo.wideCamera.rasterToCamera.m.m32 *. lit 0 +. Demo.wideCamera.rasterToCamera.m.m33 = W at *
    have hZ : UpTo 20 Z := ⟨Z1, by rw [Z2]; exact z1.2⟩
    have hW : UpTo 20 W := ⟨W1, by rw [W2]; exact d1.2⟩
    rw [← Z2] at z2
    rw [← W2] at d2
    simp only
    split_ifs
    · refine ⟨⟨NoPanic.UpTo.mono hX (by omega), NoPanic.UpTo.mono hY (by omega), NoPanic.UpTo.mono hZ (by omega)⟩, le_trans ?_ z2⟩
      norm_num
    · have hW0 : W.val ≠ 0 := by intro h; rw [h] at d2; norm_num at d2
      have key : ∀ q : F32, UpTo 37 q → UpTo 53 (q /. W) := fun q hq => NoPanic.upTo_div (by omega) hq.1 hW.1 hW0 (by
        have := hq.2
        norm_num at this d2 ⊢
        linarith)
      exact ⟨⟨key _ hX, key _ hY, key _ (NoPanic.UpTo.mono hZ (by omega))⟩, NoPanic.div_ge hZ hW z2 d2⟩
  have hn := NoPanic.normalize_upTo hl hP.1 (Or.inr (Or.inr hP.2))
  have hdir : (Demo.wideCamera.generateRay p).direction =
      vectorTransform (Demo.wideCamera.rasterToCamera.apply pointTransform ⟨p.x, p.y, lit 0⟩).normalize Demo.wideCamera.cameraToWorld.m Demo.wideCamera.cameraToWorld.mInv := rfl
  have horig : (Demo.wideCamera.generateRay p).origin = pointTransform ⟨lit 0, lit 0, lit 0⟩ (Transform.translate (lit 1) (lit 2) (lit 3) : Transform F32).m
      (Transform.translate (lit 1) (lit 2) (lit 3) : Transform F32).mInv := rfl
  have hnz : (Demo.wideCamera.rasterToCamera.apply pointTransform ⟨p.x, p.y, lit 0⟩).normalize.z.val ≠ 0 := by
    generalize Demo.wideCamera.rasterToCamera.apply pointTransform ⟨p.x, p.y, lit 0⟩ = v at hP hn
    obtain ⟨hv, hz⟩ := hP
    obtain ⟨s0, -, -, sz⟩ := NoPanic.sumsq_ge (by omega) hv
    have hS := NoPanic.upTo_sum3 (m := 53) (n := 53) (by omega) hv.1 hv.1 hv.2.1 hv.2.1 hv.2.2 hv.2.2
    obtain ⟨l1, l2, l3, l4⟩ := hl.sqrt _ hS.1 s0
    have hzz := NoPanic.square_ge hv.2.2 hz
    have hlen : Libm.sqrt (v.x *. v.x +. v.y *. v.y +. v.z *. v.z) = v.length := rfl
    rw [hlen] at l1 l2 l3 l4
    have hSb := (le_abs_self _).trans hS.2
    generalize (v.x *. v.x +. v.y *. v.y +. v.z *. v.z).val = S at s0 sz l3 l4 hSb
    have hb : v.length.val ≤ 2 ^ 55 := by
      by_contra hc
      push Not at hc
      have : (2 ^ 55 : ℚ) ^ 2 < v.length.val ^ 2 := pow_lt_pow_left₀ hc (by norm_num) (by norm_num)
      norm_num at this hSb
      linarith
    have hpos : 0 < v.length.val := by
      refine lt_of_le_of_ne l2 fun e => ?_
      rw [← e] at l4
      have h3 : (1 / 2 ^ 50 : ℚ) ^ 2 ≤ v.z.val ^ 2 := by rw [← sq_abs v.z.val]; exact pow_le_pow_left₀ (by positivity) hz 2
      norm_num at h3 l4
      linarith
    change (v.z /. v.length).val ≠ 0
    have hq : |v.z.val / v.length.val| = |v.z.val| / v.length.val := by rw [abs_div, abs_of_pos hpos]
    have hlow : 1 / 2 ^ 105 ≤ |v.z.val / v.length.val| := by
      rw [hq, le_div_iff₀ hpos]
      norm_num at hz hb ⊢
      linarith
    intro h0
    have hnum : Num (v.z /. v.length) := hn.2.2.1
    have herr := (div_err hv.2.2.1.wf l1.wf l1.fin hnum.fin).2.2
    rw [h0, zero_sub, abs_neg] at herr
    simp only [ulpHalf, tinyHalf] at herr
    norm_num at herr hlow
    linarith
  have hrow : ∀ x y z : F32, Num x → Num y → Num z → Num (lit 0 *. x +. lit 0 *. y +. lit 1 *. z) ∧ (lit 0 *. x +. lit 0 *. y +. lit 1 *. z).val = z.val := by
    intro x y z nx ny nz
    have h1 := NoPanic.zero_times zero_ok nx
    have h2 := NoPanic.zero_times zero_ok ny
    have h3 := NoPanic.zero_plus h1 h2.1
    have one : Num (lit 1 : F32) ∧ (lit 1 : F32).val = 1 := ⟨NoPanic.upTo_one.1, by decide +kernel⟩
    have h4 : Num (lit 1 *. z) ∧ (lit 1 *. z).val = z.val := by
      obtain ⟨zs, e⟩ := mul_val one.1 nz
      obtain ⟨-, k2, k3⟩ := ofVal_val nz.fin nz.wf zs
      rw [e, one.2, one_mul]
      exact ⟨⟨ofVal_WF _ _, k2⟩, k3⟩
    have h5 := NoPanic.zero_plus ⟨h3.1, h3.2.trans h2.2⟩ h4.1
    exact ⟨h5.1, h5.2.trans h4.2⟩
  refine ⟨?_, ?_, .Z, ?_⟩
  · rw [horig]
    have hc : [(1 : ℚ), 2, 3].all (fun x => NoPanic.check 20 (lit 1 *. lit 0 +. lit 0 *. lit 0 +. lit 0 *. lit 0 +. lit x)) = true ∧
        (pointTransform ⟨lit 0, lit 0, lit 0⟩ (Transform.translate (lit 1) (lit 2) (lit 3) : Transform F32).m
          (Transform.translate (lit 1) (lit 2) (lit 3) : Transform F32).mInv : V3 F32) = ⟨f32 1, f32 2, f32 3⟩ := by decide +kernel
    rw [hc.2]
    have k : NoPanic.check 20 (f32 1) = true ∧ NoPanic.check 20 (f32 2) = true ∧ NoPanic.check 20 (f32 3) = true := by decide +kernel
    intro a
    cases a
    · exact NoPanic.check_upTo k.1
    · exact NoPanic.check_upTo k.2.1
    · exact NoPanic.check_upTo k.2.2
  · rw [hdir]
    intro a
    cases a
    · exact (NoPanic.upTo_sum3 (by omega) r00 hn.1 r01 hn.2.1 r02 hn.2.2).1
    · exact (NoPanic.upTo_sum3 (by omega) r10 hn.1 r11 hn.2.1 r12 hn.2.2).1
    · exact (NoPanic.upTo_sum3 (by omega) r20 hn.1 r21 hn.2.1 r22 hn.2.2).1
  · rw [hdir]
    change (lit 0 *. _ +. lit 0 *. _ +. lit 1 *. _ : F32).val ≠ 0
    rw [(hrow _ _ _ hn.1.1 hn.2.1.1 hn.2.2.1).2]
    exact hnz

theorem get2d_sample {s s' : HaltonSampler} {u : V2 F32} (h : (HaltonSampler.ops : SamplerOps F32 _).get2d s = some (u, s')) : Sample32 u.x ∧ Sample32 u.y := by
  have dim : ∀ (i d : Nat) (x : F32), s.sampleDimension i d = some x → Sample32 x := by
    intro i d x hx
    have : ∃ k j, radicalInversePrime k j = some x := by
      unfold HaltonSampler.sampleDimension at hx
      split at hx <;> exact ⟨_, _, hx⟩
    obtain ⟨k, j, e⟩ := this
    simp only [radicalInversePrime, Option.map_eq_some_iff] at e
    obtain ⟨b, -, rfl⟩ := e
    exact sample32_radicalInverse b j
  simp only [HaltonSampler.ops, bind, pure] at h
  obtain ⟨x, hx, h⟩ := Option.bind_eq_some_iff.1 h
  obtain ⟨y, hy, h⟩ := Option.bind_eq_some_iff.1 h
  simp only [Option.some.injEq, Prod.mk.injEq] at h
  rw [← h.1]
  exact ⟨dim _ _ _ hx, dim _ _ _ hy⟩

namespace Demo
/-- A material that reflects nothing. -/
def soot32 : Material F32 := fun _ => ⟨[], ⟨f32 0, f32 0, f32 1⟩, ⟨f32 0, f32 0, f32 1⟩, ⟨f32 1, f32 0, f32 0⟩, ⟨f32 0, f32 1, f32 0⟩⟩
/-- A wall in front of the camera. -/
def sootWall : Triangle F32 := ⟨⟨f32 (-50), f32 (-50), f32 30⟩, ⟨f32 50, f32 (-50), f32 31⟩, ⟨f32 0, f32 50, f32 32⟩, none, false, soot32⟩
/-- A triangle between the camera and the wall's far end the first two corners of which are the same. -/
def needle : Triangle F32 := ⟨⟨f32 1, f32 2, f32 31⟩, ⟨f32 1, f32 2, f32 31⟩, ⟨f32 3, f32 4, f32 30⟩, none, false, soot32⟩
end Demo

theorem needle_small : Small Demo.needle.v0 ∧ Small Demo.needle.v1 ∧ Small Demo.needle.v2 := by
  have k : [(1 : ℚ), 2, 31, 3, 4, 30].all (fun x => NoPanic.check 20 (f32 x)) = true := by decide +kernel
  simp only [List.all_eq_true] at k
  have c := fun x (h : x ∈ [(1 : ℚ), 2, 31, 3, 4, 30]) => NoPanic.check_upTo (k x h)
  refine ⟨fun a => ?_, fun a => ?_, fun a => ?_⟩ <;> cases a
  exacts [c 1 (by simp), c 2 (by simp), c 31 (by simp), c 1 (by simp), c 2 (by simp), c 31 (by simp), c 3 (by simp), c 4 (by simp), c 30 (by simp)]

theorem needle_box : (BBox3.new (α := F32) ⟨f32 (-50), f32 (-50), f32 30⟩ ⟨f32 50, f32 (-50), f32 31⟩).unionPoint ⟨f32 0, f32 50, f32 32⟩ =
    ((BBox3.new (α := F32) ⟨f32 (-50), f32 (-50), f32 30⟩ ⟨f32 50, f32 (-50), f32 31⟩).unionPoint ⟨f32 0, f32 50, f32 32⟩).union
      ((BBox3.new (α := F32) ⟨f32 1, f32 2, f32 31⟩ ⟨f32 1, f32 2, f32 31⟩).unionPoint ⟨f32 3, f32 4, f32 30⟩) := by
  have k : ∀ a b : BBox3 F32, a.min.x = b.min.x → a.min.y = b.min.y → a.min.z = b.min.z → a.max.x = b.max.x → a.max.y = b.max.y → a.max.z = b.max.z → a = b := by
    rintro ⟨⟨_, _, _⟩, ⟨_, _, _⟩⟩ ⟨⟨_, _, _⟩, ⟨_, _, _⟩⟩ h1 h2 h3 h4 h5 h6
    simp only [] at h1 h2 h3 h4 h5 h6
    subst h1 h2 h3 h4 h5 h6
    rfl
  apply k <;> decide +kernel

/-- Everything asked for by `c114_collapsed_image` holds for a wall and a collapsed triangle, the library's perspective camera, a film of 640 by 480 pixels and any
number of samples. -/
example (e : V2 F32 → F32) (spp : Nat) :
    letI := Demo.roughLibm
    ∃ scene scene' : Scene F32, Collapsed Demo.needle ∧ Small Demo.needle.v0 ∧ Small Demo.needle.v1 ∧ Small Demo.needle.v2 ∧
      OneMore [.shape 0 Demo.sootWall.toShape] [.shape 0 Demo.sootWall.toShape, .shape 1 Demo.needle.toShape] 1 Demo.needle.toShape ∧
      SameBoxes [.shape 0 Demo.sootWall.toShape] [.shape 0 Demo.sootWall.toShape, .shape 1 Demo.needle.toShape] ∧
      (built [.shape 0 Demo.sootWall.toShape]).construct (fun ss => (Simple.new ss).map Simple.toContainer) = some scene ∧
      (built [.shape 0 Demo.sootWall.toShape, .shape 1 Demo.needle.toShape]).construct (fun ss => (Simple.new ss).map Simple.toContainer) = some scene' ∧
      let film := Film.new ⟨640, 480⟩ (⟨lit 2, e⟩ : Filter F32)
      ∀ p, Spec.InBox film.sampleBBox p → ∀ i, ¬ SampleTraces scene Demo.wideCamera (fun r => ¬ SmallRay r) (HaltonSampler.new spp film.sampleBBox) p i := by
  let _ := Demo.roughLibm
  have hbox : Demo.sootWall.toShape.bbox = Demo.sootWall.toShape.bbox.union Demo.needle.toShape.bbox := needle_box
  refine ⟨_, _, .inl rfl, needle_small.1, needle_small.2.1, needle_small.2.2, ⟨[.shape 0 Demo.sootWall.toShape], [], rfl, rfl⟩, ⟨?_, ?_⟩, rfl, rfl, ?_⟩
  · change some Demo.sootWall.toShape.bbox = some (Demo.sootWall.toShape.bbox.union Demo.needle.toShape.bbox)
    rw [← hbox]
  · change some Demo.sootWall.toShape.bbox = some (Demo.sootWall.toShape.bbox.union Demo.needle.toShape.bbox)
    rw [← hbox]
  · intro film p hp i ⟨pf, s, es, htr⟩
    have hR : FilmRange32 ⟨640, 480⟩ (⟨lit 2, e⟩ : Filter F32).radius := by
      have h : (lit (2 : ℚ) : F32).IsFin ∧ (lit (2 : ℚ) : F32).val = 2 := by
        have := ofInt_exact (n := 2) (by norm_num)
        simpa [ofInt] using this
      exact ⟨h.1, by rw [h.2]; norm_num, by rw [h.2]; norm_num, by norm_num, by norm_num, by norm_num, by norm_num, by norm_num⟩
    obtain ⟨t, ht, hpt⟩ := (c02_tiles_partition film.sampleBBox).2.2 p hp
    have hpp := NoPanic.tile_points ⟨640, 480⟩ (⟨lit 2, e⟩ : Filter F32) hR ht ((t.mem_toList p).2 hpt)
    have hpf : UpTo 24 pf.x ∧ UpTo 24 pf.y := by
      unfold getCameraSample at es
      simp only [Draw.run] at es
      cases hg : (HaltonSampler.ops : SamplerOps F32 _).get2d (sampleState (HaltonSampler.new spp film.sampleBBox) p i) with
      | none => rw [hg] at es; simp at es
      | some q =>
        rw [hg] at es
        simp only [Option.some.injEq, Prod.mk.injEq] at es
        obtain ⟨h1, h2⟩ := get2d_sample (s' := q.2) (u := q.1) hg
        rw [← es.1]
        exact ⟨NoPanic.film_point hpp.1 h1, NoPanic.film_point hpp.2 h2⟩
    refine only_camera_ray _ HaltonSampler.ops _ (by decide +kernel) rfl _ ?_ s htr (wide_rays Demo.roughLibm_sane rfl pf hpf.1 hpf.2)
    intro h hh
    have hm : h.obj ∈ [(⟨0, Demo.sootWall.toShape⟩ : Obj F32)] := by
      change Simple.intersect _ _ = _ at hh
      unfold Simple.intersect at hh
      split_ifs at hh
      · cases hh
      · simp only [Option.map_eq_some_iff] at hh
        obtain ⟨⟨r', x⟩, h1, h2⟩ := hh
        simp only [] at h2
        subst h2
        rcases closestHit_from _ _ _ _ _ h1 with h3 | h3
        · cases h3
        · exact h3
    simp only [List.mem_singleton] at hm
    rw [hm]
    rfl

/-- `c114_collapsed` applies to every ray of the camera. -/
example (p : V2 F32) (hx : UpTo 24 p.x) (hy : UpTo 24 p.y) :
    letI := Demo.roughLibm
    ¬ Notices Demo.needle.toShape (Demo.wideCamera.generateRay p) := by
  let _ := Demo.roughLibm
  exact c114_collapsed _ (.inl rfl) needle_small.1 needle_small.2.1 needle_small.2.2 _ (wide_rays Demo.roughLibm_sane rfl p hx hy)
end

/-! ### Exact arithmetic -/

section
open Fl

/-- The camera looks forward. -/
theorem eye_forward [Libm XR] (hs : ExactSqrt) {p : V2 XR} {p' : V2 ℝ} (hx : Rel p.x p'.x) (hy : Rel p.y p'.y) : 0 < (((Demo.eye XR).generateRay p).direction.get .Z).val := by
  letI : HasInf ℝ := ⟨0⟩
  obtain ⟨e1, e20, e21, e22, e23, e30, e31, e32, e33⟩ := eye_real
  have hz : (pointTransform ⟨p'.x, p'.y, PT.lit 0⟩ (Demo.eye ℝ).rasterToCamera.m (Demo.eye ℝ).rasterToCamera.mInv : V3 ℝ).z = 1 := by
    unfold pointTransform
    simp only [e20, e21, e22, e23, e30, e31, e32, e33]
    real_ops
    norm_num
  obtain ⟨h1, h2⟩ := generateRay_rel hs eye_rel.1 eye_rel.2 hx hy (by rw [e30, e31, e32, e33]; real_ops; norm_num) (by rw [e1]; real_ops; norm_num)
    (fun h => by rw [h] at hz; norm_num at hz)
  change 0 < (((Demo.eye XR).generateRay p).direction.z).val
  rw [h2.z.val]
  change 0 < (vectorTransform (V3.normalize (pointTransform ⟨p'.x, p'.y, PT.lit 0⟩ (Demo.eye ℝ).rasterToCamera.m (Demo.eye ℝ).rasterToCamera.mInv)) (Demo.eye ℝ).cameraToWorld.m
      (Demo.eye ℝ).cameraToWorld.mInv : V3 ℝ).z
  rw [e1]
  generalize pointTransform (⟨p'.x, p'.y, PT.lit 0⟩ : V3 ℝ) (Demo.eye ℝ).rasterToCamera.m (Demo.eye ℝ).rasterToCamera.mInv = q at hz
  unfold vectorTransform V3.normalize V3.length
  simp only [hz]
  real_ops
  have : 0 < Real.sqrt (q.x * q.x + q.y * q.y + 1 * 1) := Real.sqrt_pos.2 (by nlinarith [mul_self_nonneg q.x, mul_self_nonneg q.y])
  have h := div_pos one_pos this
  simpa using h

namespace Demo
/-- A ball behind the camera. -/
noncomputable def behind : Prim := .sphere ⟨Demo.vec 0 0 (-5), num 1, Demo.soot⟩
/-- A triangle across the view, the corners of which are on one line. -/
noncomputable def thread : Triangle XR := ⟨Demo.vec (-1) (-2) 3, Demo.vec 1 2 4, Demo.vec 3 6 5, none, false, Demo.soot⟩
end Demo

theorem behind_finite : Demo.behind.Finite := ⟨vec_finite _ _ _, trivial, (num_rel _).wf, by rw [(num_rel 1).val]; norm_num⟩
theorem thread_finite : FiniteTriangle Demo.thread := ⟨vec_finite _ _ _, vec_finite _ _ _, vec_finite _ _ _⟩

theorem vec_numbers (x y z : ℝ) : numbers (Demo.vec x y z) = ⟨x, y, z⟩ := by simp only [numbers, Demo.vec, (num_rel _).val]

theorem thread_flat : Flat Demo.thread := by
  have e : Demo.thread.realized.v0 = ⟨-1, -2, 3⟩ ∧ Demo.thread.realized.v1 = ⟨1, 2, 4⟩ ∧ Demo.thread.realized.v2 = ⟨3, 6, 5⟩ :=
    ⟨vec_numbers _ _ _, vec_numbers _ _ _, vec_numbers _ _ _⟩
  unfold Flat planeNormal vcross diff
  rw [e.1, e.2.1, e.2.2]
  norm_num

/-- No camera ray meets the ball. -/
theorem behind_missed [Libm XR] (hs : ExactSqrt) {p : V2 XR} {p' : V2 ℝ} (hx : Rel p.x p'.x) (hy : Rel p.y p'.y) (x : ℝ) (h0 : 0 < x) :
    ¬ Demo.behind.MeetsAt ((Demo.eye XR).generateRay p) x := by
  obtain ⟨ho, -, -⟩ := eye_rays hs hx hy
  have hf := eye_forward hs hx hy
  have hn : numbers ((Demo.eye XR).generateRay p).origin = ⟨0, 0, 0⟩ := by
    simp only [numbers]
    rw [ho.x.val, ho.y.val, ho.z.val]
  intro h
  change OnSphere (numbers (Demo.vec 0 0 (-5))) (num 1).val _ at h
  rw [vec_numbers, (num_rel 1).val] at h
  unfold OnSphere pointAt at h
  have h1 : (numbers ((Demo.eye XR).generateRay p).origin).z = 0 := by rw [hn]
  change 0 < ((Demo.eye XR).generateRay p).direction.z.val at hf
  have := mul_pos h0 hf
  have hz : (0 + x * ((Demo.eye XR).generateRay p).direction.z.val - (-5)) ^ 2 ≤ 1 ^ 2 := by
    rw [← h]
    change _ ≤ _ + ((numbers ((Demo.eye XR).generateRay p).origin).z + x * _ - (-5)) ^ 2
    rw [h1]
    exact le_add_of_nonneg_left (add_nonneg (sq_nonneg _) (sq_nonneg _))
  nlinarith [hz]

/-- With one shape more that does not notice the ray and whose box has no face through the origin, camera rays are still not delicate. -/
theorem eye_still [Libm XR] (hs : ExactSqrt) {p : V2 XR} {p' : V2 ℝ} (hx : Rel p.x p'.x) (hy : Rel p.y p'.y) (q : Prim)
    (hbox : ∀ a, ((q.obj 3).shape.bbox.min.get a).val ≠ 0 ∧ ((q.obj 3).shape.bbox.max.get a).val ≠ 0)
    (hq : ¬ Notices (q.obj 3).shape ((Demo.eye XR).generateRay p)) : ¬ Delicate (objects (Demo.sooty ++ [(q, 3)])) ((Demo.eye XR).generateRay p) := by
  have hnd := eye_not_delicate hs hx hy
  obtain ⟨ho, hd, hn⟩ := eye_rays hs hx hy
  have ho0 : ∀ a, (((Demo.eye XR).generateRay p).origin.get a).val = 0 := fun a => by rw [(ho.get a).val]; cases a <;> rfl
  have hrep : ∀ i t, ¬ Reports (q.obj 3).shape ((Demo.eye XR).generateRay p) i t := by
    intro i t hr
    simp only [Notices, not_not] at hq
    have := (hq ((Demo.eye XR).generateRay p).tMax).1
    unfold Reports at hr
    rw [hr] at this
    cases this
  have hmem : ∀ s ∈ objects (Demo.sooty ++ [(q, 3)]), s ∈ objects Demo.sooty ∨ s = q.obj 3 := by
    intro s h
    simp only [objects, List.map_append, List.map_cons, List.map_nil, List.mem_append, List.mem_singleton] at h
    exact h
  rintro (h | ⟨s, hm, a, h1, h⟩ | ⟨s, hm, s', hm', hne, i, t, i', t', r, r', e⟩)
  · exact hnd (.inl h)
  · rcases hmem s hm with hm | rfl
    · exact hnd (.inr (.inl ⟨s, hm, a, h1, h⟩))
    · rw [ho0 a] at h
      rcases h with h | h
      · exact (hbox a).1 h.symm
      · exact (hbox a).2 h.symm
  · rcases hmem s hm with hm | rfl
    · rcases hmem s' hm' with hm' | rfl
      · exact hnd (.inr (.inr ⟨s, hm, s', hm', hne, i, t, i', t', r, r', e⟩))
      · exact hrep _ _ r'
    · exact hrep _ _ r

theorem sooty_scene [Libm XR] (hs : ExactSqrt) (q : Prim) (hf : q.Finite)
    (hbox : ∀ a, ((q.obj 3).shape.bbox.min.get a).val ≠ 0 ∧ ((q.obj 3).shape.bbox.max.get a).val ≠ 0)
    (hq : ∀ (p : V2 XR) (p' : V2 ℝ), Rel p.x p'.x → Rel p.y p'.y → ¬ Notices (q.obj 3).shape ((Demo.eye XR).generateRay p))
    (kind : Ray XR → Prop) (hkind : ∀ (p : V2 XR) (p' : V2 ℝ), Rel p.x p'.x → Rel p.y p'.y → ¬ kind ((Demo.eye XR).generateRay p)) :
    ∃ (scene scene' : Scene XR) (mk mk' : List (Obj XR) → Option (Container XR)), LibraryContainer mk ∧ LibraryContainer mk' ∧
      (∀ c ∈ Demo.sootCalls (Demo.sooty ++ [(q, 3)]), FiniteCall c) ∧
      OneMore (Demo.sootCalls Demo.sooty) (Demo.sootCalls (Demo.sooty ++ [(q, 3)])) 3 (q.obj 3).shape ∧ NoDistant (Demo.sootCalls Demo.sooty) ∧
      (built (Demo.sootCalls Demo.sooty)).construct mk = some scene ∧ (built (Demo.sootCalls (Demo.sooty ++ [(q, 3)]))).construct mk' = some scene' ∧
      ∀ (_ : HasNext XR) (res : V2 Int) (filt : Filter XR) (spp : Nat) (p : V2 Int) (i : Nat),
        ¬ SampleTraces scene (Demo.eye XR) (fun r => Delicate (sceneShapes (Demo.sootCalls (Demo.sooty ++ [(q, 3)]))) r ∨ kind r)
          (HaltonSampler.new spp (Film.new res filt).sampleBBox) p i := by
  have hfin : ∀ p ∈ Demo.sooty ++ [(q, 3)], p.1.Finite := by
    intro p hp
    simp only [List.mem_append, List.mem_singleton] at hp
    rcases hp with hp | rfl
    · exact sooty_finite p hp
    · exact hf
  have hss : ∀ ps, sceneShapes (Demo.sootCalls ps) = objects ps := by
    intro ps
    obtain ⟨a1, a2, -⟩ := sootCalls_shapes ps
    rw [sceneShapes, a1, a2]; simp [asShapes]
  have hp' : ∀ s ∈ objects (Demo.sooty ++ [(q, 3)]), LikePrim s.shape := by
    intro s h
    simp only [objects, List.mem_map] at h
    obtain ⟨u, hu, rfl⟩ := h
    exact likePrim_of u.1 (hfin u hu) u.2
  obtain ⟨c, hc⟩ : ∃ c, Simple.new (objects Demo.sooty) = some c := by
    unfold Simple.new
    simp only [objects, Demo.sooty, List.map_cons, bboxOfShapes]
    exact ⟨_, rfl⟩
  obtain ⟨tree, ht⟩ : ∃ t, KdTree.new (objects (Demo.sooty ++ [(q, 3)])) none = some t := by
    refine Option.ne_none_iff_exists'.1 ?_
    rw [Ne, KdTree.c28_build_total _ (likePrim_box hp')]
    simp [objects, Demo.sooty]
  have build : ∀ (hist : List (BuilderCall XR)) (mk : List (Obj XR) → Option (Container XR)), mk (sceneShapes hist) ≠ none → ∃ scene, (built hist).construct mk = some scene := by
    intro hist mk h
    obtain ⟨-, -, -, h3⟩ := c65_construct hist mk
    exact Option.ne_none_iff_exists'.1 fun e => h (h3.1 e)
  obtain ⟨scene, hsc⟩ := build (Demo.sootCalls Demo.sooty) (fun ss => (Simple.new ss).map Simple.toContainer) (by rw [hss, hc]; simp)
  obtain ⟨scene', hsc'⟩ := build (Demo.sootCalls (Demo.sooty ++ [(q, 3)])) (fun ss => (KdTree.new ss none).map KdTree.toContainer) (by rw [hss, ht]; simp)
  refine ⟨scene, scene', _, _, .simple, .kdTree none, ?_, ⟨Demo.sootCalls Demo.sooty, [], by simp, by simp [Demo.sootCalls]⟩, ?_, hsc, hsc', ?_⟩
  · intro c hc
    simp only [Demo.sootCalls, List.mem_map] at hc
    obtain ⟨u, hu, rfl⟩ := hc
    exact .shape u.2 u.1 (hfin u hu)
  · intro addr l h
    simp [Demo.sootCalls] at h
  rintro _ res filt spp p i ⟨pf, s, e, htr⟩
  rw [hss] at htr
  have hpf : ∃ p' : V2 ℝ, Rel pf.x p'.x ∧ Rel pf.y p'.y := by
    unfold getCameraSample at e
    simp only [Draw.run] at e
    cases hg : (HaltonSampler.ops : SamplerOps XR _).get2d (sampleState (HaltonSampler.new spp (Film.new res filt).sampleBBox) p i) with
    | none => rw [hg] at e; simp at e
    | some q =>
      rw [hg] at e
      simp only [Option.some.injEq, Prod.mk.injEq] at e
      obtain ⟨u', hx, hy⟩ := get2d_finite (s' := q.2) (u := q.1) hg
      rw [← e.1]
      exact ⟨⟨_, _⟩, (Rel.lit _).add hx, (Rel.lit _).add hy⟩
  obtain ⟨p', hx, hy⟩ := hpf
  have hnd' := eye_still hs hx hy q hbox (hq pf p' hx hy)
  have hnd := eye_not_delicate hs hx hy
  obtain ⟨box, -, hcon, -⟩ := c65_construct (Demo.sootCalls Demo.sooty) (fun ss => (Simple.new ss).map Simple.toContainer)
  obtain ⟨l1, l2⟩ := hcon scene hsc
  obtain ⟨a1, a2, a3⟩ := sootCalls_shapes Demo.sooty
  have hor := only_camera_ray scene HaltonSampler.ops _ (by rw [(Rel.lit 0).eq (Rel.lit 0)]; real_ops) (by rw [l1, a3, a2]; rfl) _ ?_ s htr
  · rcases hor with h | h
    · exact hnd' h
    · exact hkind pf p' hx hy h
  intro h hh
  have hp : ∀ s ∈ objects Demo.sooty, LikePrim s.shape := by
    intro s h
    simp only [objects, List.mem_map] at h
    obtain ⟨q, hq, rfl⟩ := h
    exact likePrim_of q.1 (sooty_finite q hq) q.2
  rw [hss] at l2
  obtain ⟨r, e1, -, -, e4⟩ := finite_container_answers hs hp .simple l2 _ hnd
  have : r = some h := by
    have := e1.symm.trans hh
    exact Option.some.inj this
  obtain ⟨hm, -⟩ := e4 h this
  simp only [objects, List.mem_map, Demo.sooty, List.mem_cons, List.not_mem_nil, or_false] at hm
  obtain ⟨q, hq | hq | hq, e⟩ := hm <;> rw [← e, hq] <;> rfl

theorem exactLibm_sqrt : @ExactSqrt Demo.exactLibm := by
  intro x r h _
  change Rel (num (Real.sqrt x.val)) _
  rw [h.val]
  exact num_rel _

/-- Everything asked for by `c114_passed_image` holds for three shapes in the brute-force container, and the same with a ball behind the camera in a k-d tree. -/
example : letI : Libm XR := Demo.exactLibm
    ∃ (scene scene' : Scene XR) (mk mk' : List (Obj XR) → Option (Container XR)), ExactSqrt ∧ Demo.behind.Finite ∧ LibraryContainer mk ∧ LibraryContainer mk' ∧
      (∀ c ∈ Demo.sootCalls (Demo.sooty ++ [(Demo.behind, 3)]), FiniteCall c) ∧
      OneMore (Demo.sootCalls Demo.sooty) (Demo.sootCalls (Demo.sooty ++ [(Demo.behind, 3)])) 3 (Demo.behind.obj 3).shape ∧ NoDistant (Demo.sootCalls Demo.sooty) ∧
      (built (Demo.sootCalls Demo.sooty)).construct mk = some scene ∧ (built (Demo.sootCalls (Demo.sooty ++ [(Demo.behind, 3)]))).construct mk' = some scene' ∧
      ∀ (_ : HasNext XR) (res : V2 Int) (filt : Filter XR) (spp : Nat) (p : V2 Int) (i : Nat),
        ¬ SampleTraces scene (Demo.eye XR) (fun r => Delicate (sceneShapes (Demo.sootCalls (Demo.sooty ++ [(Demo.behind, 3)]))) r ∨ ∃ x, 0 < x ∧ Demo.behind.MeetsAt r x)
          (HaltonSampler.new spp (Film.new res filt).sampleBBox) p i := by
  let L : Libm XR := Demo.exactLibm
  have hs : ExactSqrt := exactLibm_sqrt
  have hmiss : ∀ (p : V2 XR) (p' : V2 ℝ), Rel p.x p'.x → Rel p.y p'.y → ¬ ∃ x, 0 < x ∧ Demo.behind.MeetsAt ((Demo.eye XR).generateRay p) x :=
    fun p p' hx hy ⟨x, h0, h⟩ => behind_missed hs hx hy x h0 h
  have hb : ∀ a, ((Demo.behind.obj 3).shape.bbox.min.get a).val ≠ 0 ∧ ((Demo.behind.obj 3).shape.bbox.max.get a).val ≠ 0 := by
    have h := fun a => sphere_box _ behind_finite a
    simp only [vec_numbers, (num_rel _).val] at h
    intro a
    refine ⟨fun e => ?_, fun e => ?_⟩
    · have := (h a).1.val.symm.trans e
      cases a <;> simp only [V3.get] at this <;> norm_num at this
    · have := (h a).2.val.symm.trans e
      cases a <;> simp only [V3.get] at this <;> norm_num at this
  obtain ⟨scene, scene', mk, mk', h1, h2, h3, h4, h5, h6, h7, h8⟩ := sooty_scene hs Demo.behind behind_finite hb (fun p p' hx hy => by
    obtain ⟨ho, hd, hn⟩ := eye_rays hs hx hy
    exact c114_passed hs Demo.behind behind_finite 3 _ (fun a => ⟨(ho.get a).fin, (ho.get a).wf⟩) hd hn fun x h0 h => hmiss p p' hx hy ⟨x, h0, h⟩)
    (fun r => ∃ x, 0 < x ∧ Demo.behind.MeetsAt r x) hmiss
  exact ⟨scene, scene', mk, mk', hs, behind_finite, h1, h2, h3, h4, h5, h6, h7, h8⟩

/-- The same for `c114_flat_image` and a flat triangle across the view. -/
example : letI : Libm XR := Demo.exactLibm
    ∃ (scene scene' : Scene XR) (mk mk' : List (Obj XR) → Option (Container XR)), ExactSqrt ∧ FiniteTriangle Demo.thread ∧ Flat Demo.thread ∧
      LibraryContainer mk ∧ LibraryContainer mk' ∧
      (∀ c ∈ Demo.sootCalls (Demo.sooty ++ [(.triangle Demo.thread, 3)]), FiniteCall c) ∧
      OneMore (Demo.sootCalls Demo.sooty) (Demo.sootCalls (Demo.sooty ++ [(.triangle Demo.thread, 3)])) 3 Demo.thread.toShape ∧ NoDistant (Demo.sootCalls Demo.sooty) ∧
      (built (Demo.sootCalls Demo.sooty)).construct mk = some scene ∧ (built (Demo.sootCalls (Demo.sooty ++ [(.triangle Demo.thread, 3)]))).construct mk' = some scene' ∧
      ∀ (_ : HasNext XR) (res : V2 Int) (filt : Filter XR) (spp : Nat) (p : V2 Int) (i : Nat),
        ¬ SampleTraces scene (Demo.eye XR) (fun r => Delicate (sceneShapes (Demo.sootCalls (Demo.sooty ++ [(.triangle Demo.thread, 3)]))) r ∨ False)
          (HaltonSampler.new spp (Film.new res filt).sampleBBox) p i := by
  let L : Libm XR := Demo.exactLibm
  have hs : ExactSqrt := exactLibm_sqrt
  have hb : ∀ a, (((Prim.triangle Demo.thread).obj 3).shape.bbox.min.get a).val ≠ 0 ∧ (((Prim.triangle Demo.thread).obj 3).shape.bbox.max.get a).val ≠ 0 := by
    have h := fun a => triangle_box _ thread_finite a
    simp only [Demo.thread, vec_numbers] at h
    intro a
    refine ⟨fun e => ?_, fun e => ?_⟩
    · have := (h a).1.val.symm.trans e
      cases a <;> simp only [V3.get] at this <;> norm_num at this
    · have := (h a).2.val.symm.trans e
      cases a <;> simp only [V3.get] at this <;> norm_num at this
  obtain ⟨scene, scene', mk, mk', h1, h2, h3, h4, h5, h6, h7, h8⟩ := sooty_scene hs (.triangle Demo.thread) thread_finite hb (fun p p' hx hy => by
    obtain ⟨ho, hd, hn⟩ := eye_rays hs hx hy
    exact c114_flat Demo.thread thread_finite thread_flat _ (fun a => ⟨(ho.get a).fin, (ho.get a).wf⟩) hd hn)
    (fun _ => False) (fun _ _ _ _ h => h)
  exact ⟨scene, scene', mk, mk', hs, thread_finite, thread_flat, h1, h2, h3, h4, h5, h6, h7, h8⟩
end

end PT
