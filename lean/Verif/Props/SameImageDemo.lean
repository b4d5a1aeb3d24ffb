import Verif.Props.SameImage

/-!
# A concrete case for C105: which rays a render of black shapes asks about

A camera, two spheres and a triangle.  The shapes reflect nothing, so that the only ray of a camera sample is the camera ray; it is finite, it starts on no face
of a bounding box, and the boxes are disjoint, so that it is not delicate.
-/

namespace PT
open Spec Fl

/-! ### Transforms and cameras on finite numbers -/

/-- The entries of the matrix are finite values of the numbers. -/
structure RelM (m : Matrix XR) (n : Matrix ℝ) : Prop where
  m00 : Rel m.m00 n.m00
  m01 : Rel m.m01 n.m01
  m02 : Rel m.m02 n.m02
  m03 : Rel m.m03 n.m03
  m10 : Rel m.m10 n.m10
  m11 : Rel m.m11 n.m11
  m12 : Rel m.m12 n.m12
  m13 : Rel m.m13 n.m13
  m20 : Rel m.m20 n.m20
  m21 : Rel m.m21 n.m21
  m22 : Rel m.m22 n.m22
  m23 : Rel m.m23 n.m23
  m30 : Rel m.m30 n.m30
  m31 : Rel m.m31 n.m31
  m32 : Rel m.m32 n.m32
  m33 : Rel m.m33 n.m33

theorem RelM.mul {a b : Matrix XR} {a' b' : Matrix ℝ} (h : RelM a a') (k : RelM b b') : RelM (a.mul b) (a'.mul b') := by
  obtain ⟨a1, a2, a3, a4, a5, a6, a7, a8, a9, a10, a11, a12, a13, a14, a15, a16⟩ := h
  obtain ⟨b1, b2, b3, b4, b5, b6, b7, b8, b9, b10, b11, b12, b13, b14, b15, b16⟩ := k
  constructor <;> exact Rel.add (Rel.add (Rel.add (Rel.mul (by assumption) (by assumption)) (Rel.mul (by assumption) (by assumption)))
    (Rel.mul (by assumption) (by assumption))) (Rel.mul (by assumption) (by assumption))

/-- Both matrices of the transform. -/
def RelT (t : Transform XR) (u : Transform ℝ) : Prop := RelM t.m u.m ∧ RelM t.mInv u.mInv

theorem RelT.mul {a b : Transform XR} {a' b' : Transform ℝ} (h : RelT a a') (k : RelT b b') : RelT (a.mul b) (a'.mul b') := ⟨h.1.mul k.1, k.2.mul h.2⟩
theorem RelT.inverse {a : Transform XR} {a' : Transform ℝ} (h : RelT a a') : RelT a.inverse a'.inverse := ⟨h.2, h.1⟩

theorem RelT.translate {x y z : XR} {x' y' z' : ℝ} (h : Rel x x') (i : Rel y y') (j : Rel z z') : RelT (Transform.translate x y z) (Transform.translate x' y' z') := by
  refine ⟨⟨.lit _, .lit _, .lit _, h, .lit _, .lit _, .lit _, i, .lit _, .lit _, .lit _, j, .lit _, .lit _, .lit _, .lit _⟩,
    ⟨.lit _, .lit _, .lit _, h.neg, .lit _, .lit _, .lit _, i.neg, .lit _, .lit _, .lit _, j.neg, .lit _, .lit _, .lit _, .lit _⟩⟩

theorem RelT.scale {x y z : XR} {x' y' z' : ℝ} (h : Rel x x') (i : Rel y y') (j : Rel z z') (hx : x' ≠ 0) (hy : y' ≠ 0) (hz : z' ≠ 0) :
    RelT (Transform.scale x y z) (Transform.scale x' y' z') := by
  refine ⟨⟨h, .lit _, .lit _, .lit _, .lit _, i, .lit _, .lit _, .lit _, .lit _, j, .lit _, .lit _, .lit _, .lit _, .lit _⟩,
    ⟨(Rel.lit 1).div h hx, .lit _, .lit _, .lit _, .lit _, (Rel.lit 1).div i hy, .lit _, .lit _, .lit _, .lit _, (Rel.lit 1).div j hz, .lit _, .lit _, .lit _, .lit _, .lit _⟩⟩

theorem vectorTransform_rel {v : V3 XR} {v' : V3 ℝ} {m i : Matrix XR} {m' i' : Matrix ℝ} (hv : Fl.Rel3 v v') (hm : RelM m m') :
    Fl.Rel3 (vectorTransform v m i) (vectorTransform v' m' i') :=
  ⟨((hm.m00.mul hv.x).add (hm.m01.mul hv.y)).add (hm.m02.mul hv.z), ((hm.m10.mul hv.x).add (hm.m11.mul hv.y)).add (hm.m12.mul hv.z),
    ((hm.m20.mul hv.x).add (hm.m21.mul hv.y)).add (hm.m22.mul hv.z)⟩

theorem pointTransform_rel {v : V3 XR} {v' : V3 ℝ} {m i : Matrix XR} {m' i' : Matrix ℝ} (hv : Fl.Rel3 v v') (hm : RelM m m')
    (hw : m'.m30 *. v'.x +. m'.m31 *. v'.y +. m'.m32 *. v'.z +. m'.m33 ≠ 0) : Fl.Rel3 (pointTransform v m i) (pointTransform v' m' i') := by
  have w := (((hm.m30.mul hv.x).add (hm.m31.mul hv.y)).add (hm.m32.mul hv.z)).add hm.m33
  have x := (((hm.m00.mul hv.x).add (hm.m01.mul hv.y)).add (hm.m02.mul hv.z)).add hm.m03
  have y := (((hm.m10.mul hv.x).add (hm.m11.mul hv.y)).add (hm.m12.mul hv.z)).add hm.m13
  have z := (((hm.m20.mul hv.x).add (hm.m21.mul hv.y)).add (hm.m22.mul hv.z)).add hm.m23
  unfold pointTransform
  simp only []
  rw [w.eq (Rel.lit 1)]
  split_ifs
  · exact ⟨x, y, z⟩
  · exact ⟨x.div w hw, y.div w hw, z.div w hw⟩

/-- Rays of a camera whose numbers are finite, in exact arithmetic: finite, with the origin and direction computed on the reals. -/
theorem generateRay_rel [Libm XR] (hs : ExactSqrt) {c : PerspectiveCamera XR} {c' : PerspectiveCamera ℝ} (h1 : RelT c.cameraToWorld c'.cameraToWorld)
    (h2 : RelT c.rasterToCamera c'.rasterToCamera) {p : V2 XR} {p' : V2 ℝ} (hx : Rel p.x p'.x) (hy : Rel p.y p'.y) [HasInf ℝ]
    (hw : c'.rasterToCamera.m.m30 *. p'.x +. c'.rasterToCamera.m.m31 *. p'.y +. c'.rasterToCamera.m.m32 *. PT.lit 0 +. c'.rasterToCamera.m.m33 ≠ 0)
    (hw' : c'.cameraToWorld.m.m30 *. PT.lit 0 +. c'.cameraToWorld.m.m31 *. PT.lit 0 +. c'.cameraToWorld.m.m32 *. PT.lit 0 +. c'.cameraToWorld.m.m33 ≠ 0)
    (hn : pointTransform ⟨p'.x, p'.y, PT.lit 0⟩ c'.rasterToCamera.m c'.rasterToCamera.mInv ≠ (⟨0, 0, 0⟩ : V3 ℝ)) :
    Fl.Rel3 (c.generateRay p).origin (c'.generateRay p').origin ∧ Fl.Rel3 (c.generateRay p).direction (c'.generateRay p').direction := by
  have hp := pointTransform_rel (i := c.rasterToCamera.mInv) (i' := c'.rasterToCamera.mInv) (Fl.Rel3.of hx hy (Rel.lit 0)) h2.1 hw
  refine ⟨pointTransform_rel (i := c.cameraToWorld.mInv) (i' := c'.cameraToWorld.mInv) (Fl.Rel3.of (Rel.lit 0) (Rel.lit 0) (Rel.lit 0)) h1.1 hw',
    vectorTransform_rel (i := c.cameraToWorld.mInv) (i' := c'.cameraToWorld.mInv) ?_ h1.1⟩
  generalize hq' : pointTransform (⟨p'.x, p'.y, PT.lit 0⟩ : V3 ℝ) c'.rasterToCamera.m c'.rasterToCamera.mInv = q' at hp hn
  generalize hq : pointTransform (⟨p.x, p.y, PT.lit 0⟩ : V3 XR) c.rasterToCamera.m c.rasterToCamera.mInv = q at hp
  change Fl.Rel3 (V3.normalize (pointTransform (⟨p.x, p.y, PT.lit 0⟩ : V3 XR) c.rasterToCamera.m c.rasterToCamera.mInv))
    (V3.normalize (pointTransform (⟨p'.x, p'.y, PT.lit 0⟩ : V3 ℝ) c'.rasterToCamera.m c'.rasterToCamera.mInv))
  rw [hq, hq']
  have hsum := ((hp.x.mul hp.x).add (hp.y.mul hp.y)).add (hp.z.mul hp.z)
  have hpos : 0 < q'.x *. q'.x +. q'.y *. q'.y +. q'.z *. q'.z := by
    real_ops
    by_contra hc
    have e1 : q'.x = 0 := by nlinarith [sq_nonneg q'.x, sq_nonneg q'.y, sq_nonneg q'.z]
    have e2 : q'.y = 0 := by nlinarith [sq_nonneg q'.x, sq_nonneg q'.y, sq_nonneg q'.z]
    have e3 : q'.z = 0 := by nlinarith [sq_nonneg q'.x, sq_nonneg q'.y, sq_nonneg q'.z]
    apply hn
    cases q'; simp_all
  have hl : Rel q.length q'.length := hs _ _ hsum hpos.le
  have hne : q'.length ≠ 0 := (Real.sqrt_pos.2 hpos).ne'
  exact ⟨hp.x.div hl hne, hp.y.div hl hne, hp.z.div hl hne⟩

/-! ### The numbers of the Halton sampler are finite -/

theorem ofNat_xr (n : Nat) : (ofInt (n : Int) : XR) = Fl.fin false (n : ℝ) := by
  have h : (PT.lit ((n : Int) : ℚ) : XR) = Fl.ofVal (((n : Int) : ℚ) : ℝ) false := rfl
  unfold ofInt
  rw [h]
  unfold Fl.ofVal
  by_cases h0 : n = 0
  · subst h0; simp
  · have h1 : (((n : Int) : ℚ) : ℝ) = n := by push_cast; rfl
    rw [h1, if_neg (by exact_mod_cast h0), if_neg (not_lt.2 (Nat.cast_nonneg n))]
    rfl

theorem radicalInverse_finite (b a : Nat) : ∃ r : ℝ, Rel (radicalInverse b a : XR) r := by
  unfold radicalInverse
  simp only []
  generalize radicalLoop b a 0 1 = q
  have h1 : Rel (oneMinusEpsilon : XR) (oneMinusEpsilon : ℝ) := (Rel.lit 1).sub (Rel.lit _)
  have hx : Rel (ofInt q.1 : XR) (ofInt q.1 : ℝ) := Rel.lit _
  have hn : Rel (ofInt q.2 : XR) (ofInt q.2 : ℝ) := Rel.lit _
  by_cases h0 : (ofInt q.2 : ℝ) = 0
  · -- the divisor has wrapped around to zero
    have h2 : q.2 = 0 := by real_ops at h0; exact_mod_cast h0
    refine ⟨oneMinusEpsilon, ?_⟩
    have : Scalar.fmin (oneMinusEpsilon : XR) (ofInt q.1 /. ofInt q.2) = oneMinusEpsilon := by
      obtain ⟨s, v, e⟩ := IsFin_iff.1 h1.fin
      rw [ofNat_xr, ofNat_xr, h2, e]
      change Fl.fmin (Fl.fin s v : XR) (Fl.div (Fl.fin false q.1) (Fl.fin false ((0 : ℕ) : ℝ))) = _
      unfold Fl.div
      by_cases hq : (q.1 : ℝ) = 0 <;> simp [hq, Fl.fmin, Fl.isNaN, Fl.lt]
    rw [this]; exact h1
  · exact ⟨_, h1.min (hx.div hn h0)⟩

theorem get2d_finite {s s' : HaltonSampler} {u : V2 XR} (h : (HaltonSampler.ops : SamplerOps XR _).get2d s = some (u, s')) : ∃ u' : V2 ℝ, Rel u.x u'.x ∧ Rel u.y u'.y := by
  have dim : ∀ (i d : Nat) (x : XR), s.sampleDimension i d = some x → ∃ r : ℝ, Rel x r := by
    intro i d x hx
    have : ∃ k j, radicalInversePrime k j = some x := by
      unfold HaltonSampler.sampleDimension at hx
      split at hx <;> exact ⟨_, _, hx⟩
    obtain ⟨k, j, e⟩ := this
    simp only [radicalInversePrime, Option.map_eq_some_iff] at e
    obtain ⟨b, -, rfl⟩ := e
    exact radicalInverse_finite b j
  simp only [HaltonSampler.ops, bind, pure] at h
  obtain ⟨x, hx, h⟩ := Option.bind_eq_some_iff.1 h
  obtain ⟨y, hy, h⟩ := Option.bind_eq_some_iff.1 h
  simp only [Option.some.injEq, Prod.mk.injEq] at h
  obtain ⟨x', hx'⟩ := dim _ _ _ hx
  obtain ⟨y', hy'⟩ := dim _ _ _ hy
  rw [← h.1]
  exact ⟨⟨x', y'⟩, hx', hy'⟩

/-! ### Shapes that reflect nothing -/

section
variable {α : Type} [Scalar α] [Libm α]

/-- In a scene without lights in which what is hit reflects nothing, a camera sample asks about the camera ray only. -/
theorem only_camera_ray [HasInf α] [HasNext α] {σ : Type} (scene : Scene α) (ops : SamplerOps α σ) (kind : Ray α → Prop) (hz : ((PT.lit 0 : α) ==. PT.lit 0) = true)
    (hlights : scene.lights = []) (ray : Ray α) (hb : ∀ h, scene.intersect ray = some (some h) → (h.obj.shape.material h.i).bxdfs = []) (s : σ)
    (h : Traces scene ops kind (li scene.lights ray) s) : kind ray := by
  rw [hlights] at h
  unfold li at h
  rw [liLoop] at h
  rcases h with h | ⟨x, e, h⟩
  · exact h
  · exfalso
    cases x with
    | none => simp [Prog.bind, Traces, pure] at h
    | some i =>
      have := hb i e
      simp [Prog.bind, Traces, pure, bind, uniformSampleOneLight, BSDF.sampleF, this, Prog.ofOption, MAX_BOUNCES, BSDF.noSample, hz] at h
end

/-! ### The concrete scene -/

/-- A material that reflects nothing. -/
noncomputable def Demo.soot : Material XR := fun _ => ⟨[], Demo.vec 0 0 1, Demo.vec 0 0 1, Demo.vec 1 0 0, Demo.vec 0 1 0⟩

/-- Two spheres and a triangle, one behind the other. -/
noncomputable def Demo.sooty : List (Prim × Nat) :=
  [(.sphere ⟨Demo.vec 0 0 5, num 1, Demo.soot⟩, 0), (.sphere ⟨Demo.vec 0 5 20, num 2, Demo.soot⟩, 1),
   (.triangle ⟨Demo.vec 50 50 30, Demo.vec (-50) 50 31, Demo.vec 50 (-50) 32, none, false, Demo.soot⟩, 2)]

/-- Added to the builder in this order. -/
noncomputable def Demo.sootCalls (ps : List (Prim × Nat)) [Libm XR] : List (BuilderCall XR) := ps.map fun p => .shape p.2 (p.1.obj p.2).shape

/-- A camera at the origin that looks along the third axis. -/
noncomputable def Demo.eye (α : Type) [Scalar α] : PerspectiveCamera α :=
  PerspectiveCamera.new (Transform.translate (PT.lit 0) (PT.lit 0) (PT.lit 0)) (Transform.translate (PT.lit 0) (PT.lit 0) (PT.lit (-1)))
    ⟨PT.lit (-1), PT.lit (-1)⟩ ⟨PT.lit 1, PT.lit 1⟩ ⟨1, 1⟩

theorem eye_real : (Demo.eye ℝ).cameraToWorld.m = ⟨1, 0, 0, 0, 0, 1, 0, 0, 0, 0, 1, 0, 0, 0, 0, 1⟩ ∧
    (Demo.eye ℝ).rasterToCamera.m.m20 = 0 ∧ (Demo.eye ℝ).rasterToCamera.m.m21 = 0 ∧ (Demo.eye ℝ).rasterToCamera.m.m22 = 1 ∧ (Demo.eye ℝ).rasterToCamera.m.m23 = 1 ∧
    (Demo.eye ℝ).rasterToCamera.m.m30 = 0 ∧ (Demo.eye ℝ).rasterToCamera.m.m31 = 0 ∧ (Demo.eye ℝ).rasterToCamera.m.m32 = 0 ∧ (Demo.eye ℝ).rasterToCamera.m.m33 = 1 := by
  simp only [Demo.eye, PerspectiveCamera.new, Transform.mul, Transform.inverse, Transform.translate, Transform.scale, Matrix.mul]
  real_ops
  norm_num

theorem eye_rel : RelT (Demo.eye XR).cameraToWorld (Demo.eye ℝ).cameraToWorld ∧ RelT (Demo.eye XR).rasterToCamera (Demo.eye ℝ).rasterToCamera := by
  refine ⟨.translate (.lit _) (.lit _) (.lit _), RelT.mul (RelT.inverse (.translate (.lit _) (.lit _) (.lit _))) (RelT.inverse (RelT.mul (RelT.mul
    (.scale (.lit _) (.lit _) (.lit _) ?_ ?_ ?_) (.scale ((Rel.lit 1).div ((Rel.lit _).sub (Rel.lit _)) ?_) ((Rel.lit 1).div ((Rel.lit _).sub (Rel.lit _)) ?_) (.lit _) ?_ ?_ ?_))
    (.translate (Rel.lit _).neg (Rel.lit _).neg (.lit _))))⟩ <;> real_ops <;> norm_num

theorem eye_rays [Libm XR] (hs : ExactSqrt) {p : V2 XR} {p' : V2 ℝ} (hx : Rel p.x p'.x) (hy : Rel p.y p'.y) :
    Fl.Rel3 ((Demo.eye XR).generateRay p).origin ⟨0, 0, 0⟩ ∧ Finite3 ((Demo.eye XR).generateRay p).direction ∧ NonZero ((Demo.eye XR).generateRay p).direction := by
  letI : HasInf ℝ := ⟨0⟩
  obtain ⟨e1, e20, e21, e22, e23, e30, e31, e32, e33⟩ := eye_real
  have hz : (pointTransform ⟨p'.x, p'.y, PT.lit 0⟩ (Demo.eye ℝ).rasterToCamera.m (Demo.eye ℝ).rasterToCamera.mInv : V3 ℝ).z = 1 := by
    unfold pointTransform
    simp only [e20, e21, e22, e23, e30, e31, e32, e33]
    real_ops
    norm_num
  obtain ⟨h1, h2⟩ := generateRay_rel hs eye_rel.1 eye_rel.2 hx hy (by rw [e30, e31, e32, e33]; real_ops; norm_num) (by rw [e1]; real_ops; norm_num)
    (fun h => by rw [h] at hz; norm_num at hz)
  refine ⟨?_, fun a => ⟨(h2.get a).fin, (h2.get a).wf⟩, .Z, ?_⟩
  · have : ((Demo.eye ℝ).generateRay p').origin = ⟨0, 0, 0⟩ := by
      change pointTransform V3.zero (Demo.eye ℝ).cameraToWorld.m (Demo.eye ℝ).cameraToWorld.mInv = _
      rw [e1]
      unfold pointTransform V3.zero
      real_ops
      norm_num
    rw [this] at h1
    exact h1
  · change (((Demo.eye XR).generateRay p).direction.z).val ≠ 0
    rw [h2.z.val]
    change (vectorTransform (V3.normalize (pointTransform ⟨p'.x, p'.y, PT.lit 0⟩ (Demo.eye ℝ).rasterToCamera.m (Demo.eye ℝ).rasterToCamera.mInv)) (Demo.eye ℝ).cameraToWorld.m
      (Demo.eye ℝ).cameraToWorld.mInv : V3 ℝ).z ≠ 0
    rw [e1]
    generalize pointTransform (⟨p'.x, p'.y, PT.lit 0⟩ : V3 ℝ) (Demo.eye ℝ).rasterToCamera.m (Demo.eye ℝ).rasterToCamera.mInv = q at hz
    unfold vectorTransform V3.normalize V3.length
    simp only [hz]
    real_ops
    have : 0 < Real.sqrt (q.x * q.x + q.y * q.y + 1 * 1) := Real.sqrt_pos.2 (by nlinarith [mul_self_nonneg q.x, mul_self_nonneg q.y])
    have h := (div_pos one_pos this).ne'
    simpa using h

theorem sooty_finite : ∀ p ∈ Demo.sooty, p.1.Finite := by
  intro p hp
  simp only [Demo.sooty, List.mem_cons, List.not_mem_nil, or_false] at hp
  rcases hp with rfl | rfl | rfl
  · exact ⟨vec_finite _ _ _, trivial, (num_rel _).wf, by rw [(num_rel 1).val]; norm_num⟩
  · exact ⟨vec_finite _ _ _, trivial, (num_rel _).wf, by rw [(num_rel 2).val]; norm_num⟩
  · exact ⟨vec_finite _ _ _, vec_finite _ _ _, vec_finite _ _ _⟩

/-- The boxes of the three shapes: the origin is in no face plane, and they are one behind the other. -/
theorem sooty_boxes [Libm XR] : ∀ p ∈ Demo.sooty, (∀ a, ((p.1.obj p.2).shape.bbox.min.get a).val ≠ 0 ∧ ((p.1.obj p.2).shape.bbox.max.get a).val ≠ 0) ∧
    (p.2 = 0 → ((p.1.obj p.2).shape.bbox.max.get .Z).val = 6) ∧
    (p.2 = 1 → ((p.1.obj p.2).shape.bbox.min.get .Z).val = 18 ∧ ((p.1.obj p.2).shape.bbox.max.get .Z).val = 22) ∧
    (p.2 = 2 → ((p.1.obj p.2).shape.bbox.min.get .Z).val = 30) ∧ p.2 < 3 := by
  intro p hp
  have hf := sooty_finite p hp
  simp only [Demo.sooty, List.mem_cons, List.not_mem_nil, or_false] at hp
  have nv : ∀ x y z : ℝ, numbers (Demo.vec x y z) = ⟨x, y, z⟩ := by
    intro x y z; simp only [numbers, Demo.vec, (num_rel _).val]
  rcases hp with rfl | rfl | rfl
  · have h := fun a => sphere_box _ hf a
    simp only [nv, (num_rel _).val] at h
    refine ⟨fun a => ?_, fun _ => ?_, by simp, by simp, by norm_num⟩
    · refine ⟨fun e => ?_, fun e => ?_⟩
      · have := (h a).1.val.symm.trans e
        cases a <;> simp only [V3.get] at this <;> norm_num at this
      · have := (h a).2.val.symm.trans e
        cases a <;> simp only [V3.get] at this <;> norm_num at this
    · refine (h .Z).2.val.trans ?_
      simp only [V3.get]; norm_num
  · have h := fun a => sphere_box _ hf a
    simp only [nv, (num_rel _).val] at h
    refine ⟨fun a => ?_, by simp, fun _ => ⟨?_, ?_⟩, by simp, by norm_num⟩
    · refine ⟨fun e => ?_, fun e => ?_⟩
      · have := (h a).1.val.symm.trans e
        cases a <;> simp only [V3.get] at this <;> norm_num at this
      · have := (h a).2.val.symm.trans e
        cases a <;> simp only [V3.get] at this <;> norm_num at this
    · refine (h .Z).1.val.trans ?_
      simp only [V3.get]; norm_num
    · refine (h .Z).2.val.trans ?_
      simp only [V3.get]; norm_num
  · have h := fun a => triangle_box _ hf a
    simp only [nv] at h
    refine ⟨fun a => ?_, by simp, by simp, fun _ => ?_, by norm_num⟩
    · refine ⟨fun e => ?_, fun e => ?_⟩
      · have := (h a).1.val.symm.trans e
        cases a <;> simp only [V3.get] at this <;> norm_num at this
      · have := (h a).2.val.symm.trans e
        cases a <;> simp only [V3.get] at this <;> norm_num at this
    · refine (h .Z).1.val.trans ?_
      simp only [V3.get]; norm_num

theorem sootCalls_shapes [Libm XR] (ps : List (Prim × Nat)) : addedShapes (Demo.sootCalls ps) = objects ps ∧ addedAreas (Demo.sootCalls ps) = [] ∧
    ∀ box, addedLights box (Demo.sootCalls ps) = [] := by
  induction ps with
  | nil => exact ⟨rfl, rfl, fun _ => rfl⟩
  | cons p ps ih =>
    obtain ⟨h1, h2, h3⟩ := ih
    have e : p.1.obj p.2 = ⟨p.2, (p.1.obj p.2).shape⟩ := by cases p with | mk q n => cases q <;> rfl
    exact ⟨by rw [objects, List.map_cons, ← objects, ← h1, e]; rfl, h2, h3⟩

/-- Rays of the camera are not delicate. -/
theorem eye_not_delicate [Libm XR] (hs : ExactSqrt) {p : V2 XR} {p' : V2 ℝ} (hx : Rel p.x p'.x) (hy : Rel p.y p'.y) :
    ¬ Delicate (objects Demo.sooty) ((Demo.eye XR).generateRay p) := by
  obtain ⟨ho, hd, hn⟩ := eye_rays hs hx hy
  have hor : Finite3 ((Demo.eye XR).generateRay p).origin := fun a => ⟨(ho.get a).fin, (ho.get a).wf⟩
  have ho0 : ∀ a, (((Demo.eye XR).generateRay p).origin.get a).val = 0 := fun a => by rw [(ho.get a).val]; cases a <;> rfl
  rintro (h | ⟨s, hm, a, -, h⟩ | ⟨s, hm, s', hm', hne, i, t, i', t', r, r', e⟩)
  · exact h ⟨hor, hd, hn, by change (Fl.inf false : XR) ≠ Fl.nan; simp⟩
  · simp only [objects, List.mem_map] at hm
    obtain ⟨q, hq, rfl⟩ := hm
    obtain ⟨b1, b2⟩ := (sooty_boxes q hq).1 a
    rw [ho0 a] at h
    rcases h with h | h
    · exact b1 h.symm
    · exact b2 h.symm
  · simp only [objects, List.mem_map] at hm hm'
    obtain ⟨q, hq, rfl⟩ := hm
    obtain ⟨q', hq', rfl⟩ := hm'
    have g := (prim_in_box hs q.1 (sooty_finite q hq) q.2 _ _ hor hd hn _ _ _ r).2.2 .Z
    have g' := (prim_in_box hs q'.1 (sooty_finite q' hq') q'.2 _ _ hor hd hn _ _ _ r').2.2 .Z
    rw [← e] at g'
    obtain ⟨-, k0, k1, k2, k3⟩ := sooty_boxes q hq
    obtain ⟨-, k0', k1', k2', k3'⟩ := sooty_boxes q' hq'
    have hdiff : q.2 ≠ q'.2 := by
      intro h
      apply hne
      simp only [Demo.sooty, List.mem_cons, List.not_mem_nil, or_false] at hq hq'
      rcases hq with rfl | rfl | rfl <;> rcases hq' with rfl | rfl | rfl <;> first | rfl | (simp at h)
    generalize (((Demo.eye XR).generateRay p).origin.get .Z).val + t.val * (((Demo.eye XR).generateRay p).direction.get .Z).val = z at g g'
    rcases (by omega : q.2 = 0 ∨ q.2 = 1 ∨ q.2 = 2) with h | h | h <;> rcases (by omega : q'.2 = 0 ∨ q'.2 = 1 ∨ q'.2 = 2) with h' | h' | h' <;>
      first | (exact absurd (h.trans h'.symm) hdiff) | skip
    · have := k0 h; have := (k1' h').1; linarith [g.2, g'.1]
    · have := k0 h; have := k2' h'; linarith [g.2, g'.1]
    · have := k0' h'; have := (k1 h).1; linarith [g.1, g'.2]
    · have := (k1 h).2; have := k2' h'; linarith [g.2, g'.1]
    · have := k0' h'; have := k2 h; linarith [g.1, g'.2]
    · have := (k1' h').2; have := k2 h; linarith [g.1, g'.2]

/-- Everything asked for by `c105_same_image` holds for the three shapes, once in one order and in the simple container and once in another order and in a k-d
tree, for every film and number of samples. -/
example : ∃ (_ : Libm XR) (scene scene' : Scene XR) (mk mk' : List (Obj XR) → Option (Container XR)), ExactSqrt ∧ LibraryContainer mk ∧ LibraryContainer mk' ∧
    (∀ c ∈ Demo.sootCalls Demo.sooty, FiniteCall c) ∧ SameButOrder (Demo.sootCalls Demo.sooty) (Demo.sootCalls Demo.sooty.reverse) ∧
    (built (Demo.sootCalls Demo.sooty)).construct mk = some scene ∧ (built (Demo.sootCalls Demo.sooty.reverse)).construct mk' = some scene' ∧
    ∀ (_ : HasNext XR) (res : V2 Int) (filt : Filter XR) (spp : Nat) (p : V2 Int) (i : Nat),
      ¬ SampleTraces scene (Demo.eye XR) (Delicate (sceneShapes (Demo.sootCalls Demo.sooty))) (HaltonSampler.new spp (Film.new res filt).sampleBBox) p i := by
  let L : Libm XR := Demo.exactLibm
  have hs : ExactSqrt := by
    intro x r h _
    change Rel (num (Real.sqrt x.val)) _
    rw [h.val]
    exact num_rel _
  have hf : ∀ c ∈ Demo.sootCalls Demo.sooty, FiniteCall c := by
    intro c hc
    simp only [Demo.sootCalls, List.mem_map] at hc
    obtain ⟨p, hp, rfl⟩ := hc
    exact .shape p.2 p.1 (sooty_finite p hp)
  have hso : SameButOrder (Demo.sootCalls Demo.sooty) (Demo.sootCalls Demo.sooty.reverse) := by
    obtain ⟨a1, a2, a3⟩ := sootCalls_shapes Demo.sooty
    obtain ⟨b1, b2, b3⟩ := sootCalls_shapes Demo.sooty.reverse
    refine ⟨fun box => by rw [a3, b3], by rw [a2, b2], ?_⟩
    rw [a1, b1, objects, objects, List.map_reverse]
    exact (List.reverse_perm _).symm
  have hss : sceneShapes (Demo.sootCalls Demo.sooty) = objects Demo.sooty := by
    obtain ⟨a1, a2, -⟩ := sootCalls_shapes Demo.sooty
    rw [sceneShapes, a1, a2]; simp [asShapes]
  have hss' : sceneShapes (Demo.sootCalls Demo.sooty.reverse) = objects Demo.sooty.reverse := by
    obtain ⟨a1, a2, -⟩ := sootCalls_shapes Demo.sooty.reverse
    rw [sceneShapes, a1, a2]; simp [asShapes]
  have hp' : ∀ s ∈ objects Demo.sooty.reverse, LikePrim s.shape := by
    intro s h
    simp only [objects, List.mem_map, List.mem_reverse] at h
    obtain ⟨q, hq, rfl⟩ := h
    exact likePrim_of q.1 (sooty_finite q hq) q.2
  obtain ⟨c, hc⟩ : ∃ c, Simple.new (objects Demo.sooty) = some c := by
    unfold Simple.new
    simp only [objects, Demo.sooty, List.map_cons, bboxOfShapes]
    exact ⟨_, rfl⟩
  obtain ⟨tree, ht⟩ : ∃ t, KdTree.new (objects Demo.sooty.reverse) none = some t := by
    refine Option.ne_none_iff_exists'.1 ?_
    rw [Ne, KdTree.c28_build_total _ (likePrim_box hp')]
    simp [objects, Demo.sooty]
  have build : ∀ (hist : List (BuilderCall XR)) (mk : List (Obj XR) → Option (Container XR)), mk (sceneShapes hist) ≠ none → ∃ scene, (built hist).construct mk = some scene := by
    intro hist mk h
    obtain ⟨-, -, -, h3⟩ := c65_construct hist mk
    exact Option.ne_none_iff_exists'.1 fun e => h (h3.1 e)
  obtain ⟨scene, hsc⟩ := build (Demo.sootCalls Demo.sooty) (fun ss => (Simple.new ss).map Simple.toContainer) (by rw [hss, hc]; simp)
  obtain ⟨scene', hsc'⟩ := build (Demo.sootCalls Demo.sooty.reverse) (fun ss => (KdTree.new ss none).map KdTree.toContainer) (by rw [hss', ht]; simp)
  refine ⟨L, scene, scene', _, _, hs, .simple, .kdTree none, hf, hso, hsc, hsc', ?_⟩
  rintro _ res filt spp p i ⟨pf, s, e, htr⟩
  rw [hss] at htr
  have hpf : ∃ p' : V2 ℝ, Rel pf.x p'.x ∧ Rel pf.y p'.y := by
    unfold getCameraSample at e
    simp only [Draw.run] at e
    cases hg : (HaltonSampler.ops : SamplerOps XR _).get2d (sampleState (HaltonSampler.new spp (Film.new res filt).sampleBBox) p i) with
    | none => rw [hg] at e; simp at e
    | some q =>
      rw [hg] at e
      simp only [Option.some.injEq, Prod.mk.injEq] at e
      obtain ⟨u', hx, hy⟩ := get2d_finite (s' := q.2) (u := q.1) hg
      rw [← e.1]
      exact ⟨⟨_, _⟩, (Rel.lit _).add hx, (Rel.lit _).add hy⟩
  obtain ⟨p', hx, hy⟩ := hpf
  have hnd := eye_not_delicate hs hx hy
  obtain ⟨box, -, hcon, -⟩ := c65_construct (Demo.sootCalls Demo.sooty) (fun ss => (Simple.new ss).map Simple.toContainer)
  obtain ⟨l1, l2⟩ := hcon scene hsc
  obtain ⟨a1, a2, a3⟩ := sootCalls_shapes Demo.sooty
  refine hnd (only_camera_ray scene HaltonSampler.ops _ (by rw [(Rel.lit 0).eq (Rel.lit 0)]; real_ops) (by rw [l1, a3, a2]; rfl) _ ?_ s htr)
  intro h hh
  have hp : ∀ s ∈ objects Demo.sooty, LikePrim s.shape := by
    intro s h
    simp only [objects, List.mem_map] at h
    obtain ⟨q, hq, rfl⟩ := h
    exact likePrim_of q.1 (sooty_finite q hq) q.2
  rw [hss] at l2
  obtain ⟨r, e1, -, -, e4⟩ := finite_container_answers hs hp .simple l2 _ hnd
  have : r = some h := by
    have := e1.symm.trans hh
    exact Option.some.inj this
  obtain ⟨hm, -⟩ := e4 h this
  simp only [objects, List.mem_map, Demo.sooty, List.mem_cons, List.not_mem_nil, or_false] at hm
  obtain ⟨q, hq | hq | hq, e⟩ := hm <;> rw [← e, hq] <;> rfl

/-- The hypotheses of `c105_scenes` with lights: a distant light, an area light and two spheres added in either order. -/
example : ∃ (_ : Libm XR) (hist hist' : List (BuilderCall XR)), ExactSqrt ∧ (∀ c ∈ hist, FiniteCall c) ∧ SameButOrder hist hist' ∧ addedShapes hist ≠ addedShapes hist' ∧
    addedAreas hist ≠ [] ∧ (∀ box, addedLights box hist ≠ []) ∧
    (∃ scene, (built hist).construct (fun ss => (Simple.new ss).map Simple.toContainer) = some scene) ∧
    ∃ scene, (built hist').construct (fun ss => (KdTree.new ss none).map KdTree.toContainer) = some scene := by
  let L : Libm XR := Demo.exactLibm
  let e : Spectrum XR := ⟨num 1, num 1, num 1⟩
  let A : Prim := .sphere ⟨Demo.vec 0 0 5, num 1, Demo.soot⟩
  let B : Prim := .sphere ⟨Demo.vec 0 5 20, num 2, Demo.soot⟩
  let C : Prim := .triangle ⟨Demo.vec 50 50 30, Demo.vec (-50) 50 31, Demo.vec 50 (-50) 32, none, false, Demo.soot⟩
  have fA : A.Finite := sooty_finite (A, 0) (by simp [Demo.sooty, A])
  have fB : B.Finite := sooty_finite (B, 1) (by simp [Demo.sooty, B])
  have fC : C.Finite := sooty_finite (C, 2) (by simp [Demo.sooty, C])
  let sun : BuilderCall XR := .light 7 fun box => ((DistantLight.new e (Demo.vec 0 1 0)).preProcess box).toLight
  let lamp : BuilderCall XR := .area 2 ⟨e, (C.obj 2).shape⟩
  let hist : List (BuilderCall XR) := [sun, .shape 0 (A.obj 0).shape, .shape 1 (B.obj 1).shape, lamp]
  let hist' : List (BuilderCall XR) := [.shape 1 (B.obj 1).shape, sun, lamp, .shape 0 (A.obj 0).shape]
  have hf : ∀ c ∈ hist, FiniteCall c := by
    intro c hc
    simp only [hist, List.mem_cons, List.not_mem_nil, or_false] at hc
    rcases hc with rfl | rfl | rfl | rfl
    · exact .distant _ _ _
    · exact .shape 0 A fA
    · exact .shape 1 B fB
    · exact .area 2 e C fC
  have hf' : ∀ c ∈ hist', FiniteCall c := by
    intro c hc
    refine hf c ?_
    simp only [hist, hist', List.mem_cons, List.not_mem_nil, or_false] at hc ⊢
    tauto
  have build : ∀ (hist : List (BuilderCall XR)) (mk : List (Obj XR) → Option (Container XR)), mk (sceneShapes hist) ≠ none → ∃ scene, (built hist).construct mk = some scene := by
    intro hist mk h
    obtain ⟨-, -, -, h3⟩ := c65_construct hist mk
    exact Option.ne_none_iff_exists'.1 fun e => h (h3.1 e)
  refine ⟨L, hist, hist', ?_, hf, ⟨fun _ => rfl, rfl, List.Perm.swap _ _ _⟩, ?_, by simp [hist, addedAreas, sun, lamp], fun box => by simp [hist, addedLights, sun], build _ _ ?_, build _ _ ?_⟩
  · intro x r h _
    change Rel (num (Real.sqrt x.val)) _
    rw [h.val]
    exact num_rel _
  · intro h
    have := congrArg (fun l => l.map Obj.addr) h
    simp [hist, hist', addedShapes, sun, lamp] at this
  · change (Simple.new (sceneShapes hist)).map _ ≠ none
    unfold Simple.new
    simp [sceneShapes, hist, addedShapes, sun, bboxOfShapes]
  · change (KdTree.new (sceneShapes hist') none).map _ ≠ none
    rw [Ne, Option.map_eq_none_iff, KdTree.c28_build_total _ (likePrim_box (likePrim_scene hf'))]
    simp [sceneShapes, hist', addedShapes]

end PT
