import Verif.Props.ManyLamps
import Verif.Props.Unseen
import Verif.Props.KdCost

/-!
# C118: what lies behind a matt face does not change its brightness

If nothing in the scene is in front of the plane of the face that the camera sees, then the face has exactly the brightness of Lambert's law, whatever else there is, in either
container.  In particular this is so for every face of a convex body.
-/

namespace PT
open scoped ENNReal
namespace Spec

/-- The call that adds a triangle to a scene, with the address it gets. -/
noncomputable def triangleCall [HasInf ℝ] (f : Nat × Triangle ℝ) : BuilderCall ℝ := .shape f.1 f.2.toShape
/-- The triangle in a scene. -/
noncomputable def triangleObj [HasInf ℝ] (f : Nat × Triangle ℝ) : Obj ℝ := ⟨f.1, f.2.toShape⟩

/-- All corners of the triangles are in the plane through `p` with the normal `n`, or on the side of it that is turned away from the direction `v`. -/
def AllBehind (tris : List (Nat × Triangle ℝ)) (p n v : V3 ℝ) : Prop :=
  ∀ f ∈ tris, ∀ x ∈ [f.2.v0, f.2.v1, f.2.v2], inner n v * inner n (diff x p) ≤ 0

/-- The triangles are faces of a convex body, with the corners in such an order that the normal of the plane points outward: no corner is outside of the plane of a face. -/
def ConvexBody (tris : List (Nat × Triangle ℝ)) : Prop :=
  ∀ f ∈ tris, ∀ g ∈ tris, ∀ x ∈ [g.2.v0, g.2.v1, g.2.v2], inner (planeNormal f.2) (diff x f.2.v0) ≤ 0

open Classical in
/-- Lambert's law for a lamp in front of the triangle, on the side its plane's normal points to: reflectance x light x cosine / pi, and nothing for a lamp behind it. -/
noncomputable def lambertFront (s : Triangle ℝ) (albedo : Spectrum ℝ) (d : FarLamp) : Spectrum ℝ :=
  if 0 < inner (planeNormal s) d.toward then lambert albedo d.colour (scale (1 / √(sq (planeNormal s))) (planeNormal s)) d.toward else ⟨0, 0, 0⟩
end Spec
open Spec

section
variable {α : Type} [Scalar α]

omit [Scalar α] in
theorem anyHit_blocks {ray : Ray α} : ∀ {ss : List (Obj α)}, anyHit ray ss = some true → ∃ s ∈ ss, s.shape.intersectP ray = some true := by
  intro ss
  induction ss with
  | nil => intro h; simp [anyHit] at h
  | cons s ss ih =>
    intro h
    simp only [anyHit] at h
    cases hs : s.shape.intersectP ray with
    | none => rw [hs] at h; simp at h
    | some b =>
      rw [hs] at h
      cases b with
      | true => exact ⟨s, List.mem_cons_self, hs⟩
      | false =>
        obtain ⟨x, hx, e⟩ := ih (by simpa using h)
        exact ⟨x, List.mem_cons_of_mem _ hx, e⟩

theorem loopP_blocks (nodes : List (Node α)) (ray : Ray α) (ss : List (Obj α)) (hsub : ∀ n ∈ nodes, ∀ s ∈ KdTree.leafShapes n, s ∈ ss) :
    ∀ (fuel i : Nat) (tMin tMax : α) (todos : List (KdTree.Todo α)), KdTree.loopP nodes ray fuel i tMin tMax todos = .value true →
      ∃ s ∈ ss, s.shape.intersectP ray = some true := by
  intro fuel
  induction fuel with
  | zero => intro i tMin tMax todos e; simp [KdTree.loopP] at e
  | succ fuel ih =>
    intro i tMin tMax todos e
    by_cases hc : (ray.tMax <. tMin) = true
    · rw [KdTree.loopP_done hc] at e; simp at e
    cases hn : nodes[i]? with
    | none => rw [KdTree.loopP_none hc hn] at e; cases e
    | some nd =>
      have hmem : nd ∈ nodes := List.mem_of_getElem? hn
      by_cases hsp : ∃ a t k, nd = .split a t k
      · obtain ⟨a, t, k, rfl⟩ := hsp
        rw [KdTree.loopP_split hc hn] at e
        exact ih _ _ _ _ e
      · rw [KdTree.loopP_leaf hc hn fun a t k h => hsp ⟨a, t, k, h⟩] at e
        cases hh : anyHit ray (KdTree.leafShapes nd) with
        | none => rw [hh] at e; cases e
        | some b =>
          rw [hh] at e
          cases b with
          | true =>
            obtain ⟨s, hs, es⟩ := anyHit_blocks hh
            exact ⟨s, hsub _ hmem _ hs, es⟩
          | false =>
            cases todos with
            | nil => simp [KdTree.popP] at e
            | cons td todos => exact ih _ _ _ _ (by simpa [KdTree.popP] using e)

/-- What a container of the library says is hidden is hidden by one of the shapes given to it. -/
theorem container_blocks [Libm α] {mk : List (Obj α) → Option (Container α)} (hmk : LibraryContainer mk) {ss : List (Obj α)} {c : Container α}
    (hc : mk ss = some c) (ray : Ray α) (hh : c.intersectP ray = some true) : ∃ s ∈ ss, s.shape.intersectP ray = some true := by
  cases hmk with
  | simple =>
    obtain ⟨s, hs, rfl⟩ := Option.map_eq_some_iff.1 hc
    obtain ⟨b, hb, rfl⟩ := Option.map_eq_some_iff.1 hs
    change Simple.intersectP _ _ = _ at hh
    unfold Simple.intersectP at hh
    split_ifs at hh
    · simp at hh
    · exact anyHit_blocks hh
  | kdTree depth =>
    obtain ⟨t, ht, rfl⟩ := Option.map_eq_some_iff.1 hc
    obtain ⟨-, T, hT, hB⟩ := KdTree.new_layout ht
    change KdTree.Run.toOption (t.runP ray t.nodes.length) = _ at hh
    have hv : t.runP ray t.nodes.length = .value true := by
      cases hr : t.runP ray t.nodes.length with
      | value b => rw [hr] at hh; simp only [KdTree.Run.toOption, Option.some.injEq] at hh; rw [hh]
      | panic => rw [hr] at hh; cases hh
      | more => rw [hr] at hh; cases hh
    unfold KdTree.runP at hv
    cases hb : t.bbox.intersect ray with
    | none => rw [hb] at hv; simp at hv
    | some tt =>
      rw [hb] at hv
      refine loopP_blocks t.nodes ray ss ?_ _ _ _ _ _ hv
      intro n hn s h1
      obtain ⟨k, hk, e⟩ := List.mem_iff_getElem.1 hn
      exact hB.stored_subset _ (KdTree.Layout.leaf_mem hT k (Nat.zero_le _) hk n (by rw [List.getElem?_eq_getElem hk, e]) _ h1)
end

/-- A triangle on one side of a plane is not hit by a ray that in its range is strictly on the other side. -/
theorem side_missed (s : Triangle ℝ) (p n : V3 ℝ) (k : ℝ) (hs : ∀ x ∈ [s.v0, s.v1, s.v2], k * inner n (diff x p) ≤ 0) (ray : Ray ℝ) (hd : ray.direction ≠ V3.zero)
    (h : ∀ t, 0 < t → t ≤ ray.tMax → 0 < k * inner n (diff (pointAt ray t) p)) : s.intersect ray = some none := by
  obtain ⟨h0, h1⟩ := c38_triangle_hit_real s ray hd
  rcases hi : s.intersect ray with _ | _ | ⟨i, t⟩
  · exact absurd hi h0
  · rfl
  · exfalso
    obtain ⟨ht, htm, hp, b0, b1, b2, ⟨w0, w1, w2, ws⟩, hm, -⟩ := h1 i t hi
    have hpos := h t ht htm
    rw [← hp, hm] at hpos
    have a0 := hs s.v0 (by simp)
    have a1 := hs s.v1 (by simp)
    have a2 := hs s.v2 (by simp)
    have e : k * inner n (diff (mix b0 b1 b2 s.v0 s.v1 s.v2) p) =
        b0 * (k * inner n (diff s.v0 p)) + b1 * (k * inner n (diff s.v1 p)) + b2 * (k * inner n (diff s.v2 p)) := by
      have e : b0 = 1 - b1 - b2 := by linarith
      subst e
      unfold Spec.inner diff mix
      ring
    rw [e] at hpos
    have := mul_nonneg w0 (neg_nonneg.2 a0)
    have := mul_nonneg w1 (neg_nonneg.2 a1)
    have := mul_nonneg w2 (neg_nonneg.2 a2)
    linarith

/-- A box of triangles one of which has an area is not a point. -/
theorem facets_radius [HasInf ℝ] (tris : List (Nat × Triangle ℝ)) {box : BBox3 ℝ} (hb : bboxOfShapes (tris.map triangleObj) = some box)
    (f : Nat × Triangle ℝ) (hf : f ∈ tris) (hs : planeNormal f.2 ≠ V3.zero) : 0 < radius box := by
  have key : ∀ (l : List (Obj ℝ)) (b b' : BBox3 ℝ), l.foldl (fun b s => b.union s.shape.bbox) b = b' →
      (∀ a, b'.min.get a ≤ b.min.get a ∧ b.max.get a ≤ b'.max.get a) ∧
      ∀ x ∈ l, ∀ a, b'.min.get a ≤ x.shape.bbox.min.get a ∧ x.shape.bbox.max.get a ≤ b'.max.get a := by
    intro l
    induction l with
    | nil => rintro b b' rfl; exact ⟨fun a => ⟨le_refl _, le_refl _⟩, by simp⟩
    | cons x l ih =>
      intro b b' e
      obtain ⟨i1, i2⟩ := ih _ _ e
      have hu : ∀ a, (b.union x.shape.bbox).min.get a = min (b.min.get a) (x.shape.bbox.min.get a) ∧
          (b.union x.shape.bbox).max.get a = max (b.max.get a) (x.shape.bbox.max.get a) := by
        intro a
        cases a <;> simp only [BBox3.union, V3.min, V3.max, V3.get] <;> real_ops <;> simp
      refine ⟨fun a => ?_, fun y hy a => ?_⟩
      · obtain ⟨j1, j2⟩ := i1 a
        rw [(hu a).1] at j1
        rw [(hu a).2] at j2
        exact ⟨j1.trans (min_le_left _ _), (le_max_left _ _).trans j2⟩
      · rcases List.mem_cons.1 hy with rfl | hy
        · obtain ⟨j1, j2⟩ := i1 a
          rw [(hu a).1] at j1
          rw [(hu a).2] at j2
          exact ⟨j1.trans (min_le_right _ _), (le_max_right _ _).trans j2⟩
        · exact i2 y hy a
  have hin : ∀ a, box.min.get a ≤ f.2.bbox.min.get a ∧ f.2.bbox.max.get a ≤ box.max.get a := by
    cases tris with
    | nil => cases hb
    | cons g tris =>
      simp only [List.map_cons, bboxOfShapes, Option.some.injEq] at hb
      obtain ⟨k1, k2⟩ := key _ _ _ hb
      rcases List.mem_cons.1 hf with rfl | hf
      · exact k1
      · exact k2 _ (List.mem_map.2 ⟨f, hf, rfl⟩)
  rcases (Real.sqrt_nonneg (Spec.sq (diff box.max box.min))).lt_or_eq with h | h
  · unfold radius; linarith
  · exfalso
    have h0 : Spec.sq (diff box.max box.min) ≤ 0 := Real.sqrt_eq_zero'.1 h.symm
    have hx := hin .X
    have hy := hin .Y
    have hz := hin .Z
    simp only [Triangle.bbox, BBox3.new, BBox3.unionPoint, V3.min, V3.max, V3.get] at hx hy hz
    real_ops at hx hy hz
    simp only [Spec.sq, diff] at h0
    have ex : box.max.x - box.min.x = 0 := by nlinarith [sq_nonneg (box.max.x - box.min.x), sq_nonneg (box.max.y - box.min.y), sq_nonneg (box.max.z - box.min.z)]
    have ey : box.max.y - box.min.y = 0 := by nlinarith [sq_nonneg (box.max.x - box.min.x), sq_nonneg (box.max.y - box.min.y), sq_nonneg (box.max.z - box.min.z)]
    have ez : box.max.z - box.min.z = 0 := by nlinarith [sq_nonneg (box.max.x - box.min.x), sq_nonneg (box.max.y - box.min.y), sq_nonneg (box.max.z - box.min.z)]
    simp only [le_min_iff, max_le_iff] at hx hy hz
    obtain ⟨⟨⟨x1, x2⟩, x3⟩, ⟨x4, x5⟩, x6⟩ := hx
    obtain ⟨⟨⟨y1, y2⟩, y3⟩, ⟨y4, y5⟩, y6⟩ := hy
    obtain ⟨⟨⟨z1, z2⟩, z3⟩, ⟨z4, z5⟩, z6⟩ := hz
    apply hs
    have e1 : f.2.v1 = f.2.v0 := by ext <;> linarith
    have e2 : f.2.v2 = f.2.v0 := by ext <;> linarith
    rw [planeNormal, e1, e2]
    unfold vcross diff V3.zero
    real_ops
    ext <;> simp only [] <;> norm_num

section
variable [HasInf ℝ] [HasNext ℝ] {scene : Scene ℝ}

/-- The scene that the builder makes of triangles and lamps. -/
theorem facets_scene (tris : List (Nat × Triangle ℝ)) (lamps : List FarLamp) {mk : List (Obj ℝ) → Option (Container ℝ)}
    (hsc : (built (tris.map triangleCall ++ lamps.map FarLamp.call)).construct mk = some scene) (hne : tris ≠ []) :
    ∃ box, bboxOfShapes (tris.map triangleObj) = some box ∧ scene.lights = lamps.map (FarLamp.ready box) ∧ mk (tris.map triangleObj) = some scene.shapes := by
  have hl : ∀ box : BBox3 ℝ, addedLights box (lamps.map FarLamp.call) = lamps.map (FarLamp.ready box) ∧ addedShapes (lamps.map FarLamp.call) = [] ∧
      addedAreas (lamps.map FarLamp.call) = [] := by
    intro box
    clear hsc
    induction lamps with
    | nil => exact ⟨rfl, rfl, rfl⟩
    | cons d l ih =>
      obtain ⟨i1, i2, i3⟩ := ih
      refine ⟨?_, ?_, ?_⟩
      · simp only [List.map_cons, FarLamp.call, addedLights] at i1 ⊢
        rw [i1]; rfl
      · simpa only [List.map_cons, FarLamp.call, addedShapes] using i2
      · simpa only [List.map_cons, FarLamp.call, addedAreas] using i3
  have ht : ∀ box : BBox3 ℝ, addedLights box (tris.map triangleCall) = [] ∧ addedShapes (tris.map triangleCall) = tris.map triangleObj ∧
      addedAreas (tris.map triangleCall) = [] := by
    intro box
    clear hsc hne
    induction tris with
    | nil => exact ⟨rfl, rfl, rfl⟩
    | cons d l ih =>
      obtain ⟨i1, i2, i3⟩ := ih
      refine ⟨?_, ?_, ?_⟩
      · simpa only [List.map_cons, triangleCall, addedLights] using i1
      · simp only [List.map_cons, triangleCall, addedShapes] at i2 ⊢
        rw [i2]; rfl
      · simpa only [List.map_cons, triangleCall, addedAreas] using i3
  obtain ⟨box, hb, hc, -⟩ := c65_construct (tris.map triangleCall ++ lamps.map FarLamp.call) mk
  obtain ⟨c1, c2⟩ := hc scene hsc
  obtain ⟨l1, l2, l3⟩ := hl box
  obtain ⟨t1, t2, t3⟩ := ht box
  obtain ⟨-, b2, b3⟩ := built_fields (tris.map triangleCall ++ lamps.map FarLamp.call) box
  refine ⟨box, ?_, ?_, ?_⟩
  · unfold Builder.sceneBBox at hb
    rw [b2, b3, addedShapes_append, addedAreas_append, t2, t3, l2, l3] at hb
    cases tris with
    | nil => exact absurd rfl hne
    | cons f l => simpa using hb
  · rw [c1, addedLights_append, addedAreas_append, t1, t3, l1, l3]
    simp [asLights]
  · rw [← c2]
    unfold sceneShapes
    rw [addedShapes_append, addedAreas_append, t2, t3, l2, l3]
    simp [asShapes]

/-- C118: a scene of triangles with the library's materials and any number of distant lamps, made by the builder, in either container.  The camera sees a flat matt triangle,
and no triangle has a corner in front of its plane, on the side the camera sees.  Then every sample is exactly Lambert's law for one of the lamps on that side, or black for
one of the others, multiplied by the number of lamps; and the mean of the samples is exactly the sum of Lambert's law over all lamps on that side. -/
theorem c118_nothing_in_front (hN : OutwardNext ‹HasNext ℝ›) (hinf : (0 : ℝ) ≤ HasInf.infinity) (tris : List (Nat × Triangle ℝ))
    (hlib : ∀ f ∈ tris, LibraryMaterial f.2.material ∧ LibraryTriangle f.2)
    (lamps : List FarLamp) (hne : lamps ≠ []) (hn : tris.length + lamps.length ≤ 2 ^ 64)
    (hw : ∀ d ∈ lamps, d.toward ≠ V3.zero) (hcol : ∀ d ∈ lamps, NonNeg d.colour)
    {mk : List (Obj ℝ) → Option (Container ℝ)} (hmk : LibraryContainer mk)
    (hsc : (built (tris.map triangleCall ++ lamps.map FarLamp.call)).construct mk = some scene)
    {box : BBox3 ℝ} (hbox : bboxOfShapes (tris.map triangleObj) = some box)
    (camera : PerspectiveCamera ℝ) (pFilm : V2 ℝ) (hd : UnitVec (camera.generateRay pFilm).direction)
    (h : Hit ℝ) (hh : scene.intersect (camera.generateRay pFilm) = some (some h))
    (a : Nat) (s : Triangle ℝ) (hobj : h.obj = triangleObj (a, s)) (hv : s.vertexNormals = none) (kd : TextureOf ℝ (Spectrum ℝ)) (hmat : s.material = lambertianMaterial kd)
    (hback : AllBehind tris h.i.p h.i.n h.i.wo)
    (hkd : ∀ c : Chan, 0 ≤ c.of (kd h.i) ∧ c.of (kd h.i) ≤ HasInf.infinity) (hlamp : ∀ d ∈ lamps, (lampRay h.i d.toward box).direction ≠ V3.zero) :
    (∀ {σ : Type} (ops : SamplerOps ℝ σ), Delivers Canonical ops → ∀ (st st' : σ) (l : Spectrum ℝ),
      (cameraRadiance scene camera pFilm).run ops st = some (l, st') →
      ∃ d ∈ lamps, ∀ c : Chan, c.of l = lamps.length * c.of (openLight h.i (kd h.i) d)) ∧
    ∀ c : Chan, mean (fun l => ENNReal.ofReal (c.of l)) (cameraRadiance scene camera pFilm) =
      ENNReal.ofReal (lamps.map fun d => c.of (openLight h.i (kd h.i) d)).sum := by
  have hcalls : ∀ x ∈ tris.map triangleCall ++ lamps.map FarLamp.call, TriangleCall x := by
    intro x hx
    rcases List.mem_append.1 hx with hx | hx
    · obtain ⟨f, hf, rfl⟩ := List.mem_map.1 hx
      exact .triangle _ f.2 (hlib f hf).1 (hlib f hf).2
    · obtain ⟨d, hdl, rfl⟩ := List.mem_map.1 hx
      exact .distant _ _ _ (hcol d hdl) (hw d hdl)
  have hne' : tris ≠ [] := by
    rintro rfl
    cases hbox
  obtain ⟨box', hb', hlights, hshapes⟩ := facets_scene tris lamps hsc hne'
  obtain rfl : box' = box := Option.some.inj (hb'.symm.trans hbox)
  have hordered : ∀ a, box'.min.get a ≤ box'.max.get a := by
    refine KdTree.bboxOfShapes_ok (fun x hx a => ?_) hbox
    obtain ⟨f, -, rfl⟩ := List.mem_map.1 hx
    exact triangle_bbox_ordered f.2 a
  have hans := (triangle_world hinf _ hcalls hmk hsc).2
  have hd0 := unit_ne_zero hd
  obtain ⟨hmem0, tm, t, hrep⟩ := container_reports hmk hshapes _ h hh
  obtain ⟨r', hr', hrep⟩ : ∃ r' : Ray ℝ, r'.direction = (camera.generateRay pFilm).direction ∧ Reports h.obj.shape r' h.i t :=
    ⟨⟨(camera.generateRay pFilm).origin, (camera.generateRay pFilm).direction, tm⟩, rfl, hrep⟩
  rw [← hr'] at hd0
  have hradius : 0 < radius box' := by
    obtain ⟨f, hf, e⟩ := List.mem_map.1 hmem0
    have hrep' := hrep
    rw [← e] at hrep'
    obtain ⟨-, ⟨c, -, hc⟩, -⟩ := madeOn_facts (s := f.2) (i := h.i) (Or.inl ⟨r', t, hd0, hrep'⟩)
    refine facets_radius tris hbox f hf fun hz => ?_
    obtain ⟨m1, -⟩ := madeOn_facts (s := f.2) (i := h.i) (Or.inl ⟨r', t, hd0, hrep'⟩)
    rw [hc, hz] at m1
    unfold Spec.sq scale V3.zero at m1
    real_ops at m1
    norm_num at m1
  rw [hobj] at hrep
  have hi' : s.intersect r' = some (some (h.i, t)) := hrep
  obtain ⟨g1, g2, g3⟩ := triangle_matt s hv _ hd0 h.i t hi'
  have hmade : MadeOn s h.i := Or.inl ⟨r', t, hd0, hi'⟩
  obtain ⟨m1, -, m3, -⟩ := madeOn_facts hmade
  have hps : inner h.i.dpdu.normalize h.i.n = 0 := by rw [g3]; exact g2
  have hm' : h.obj.shape.material = lambertianMaterial kd := by rw [hobj]; exact hmat
  have hd' : ∀ v, h.obj.shape.l h.i v = Spectrum.zero := fun v => by rw [hobj]; rfl
  have horigin : ∀ v, FacingSide h.i.n h.i.wo v → 0 ≤ inner h.i.n h.i.wo * inner h.i.n (diff (h.i.spawnRay v).origin h.i.p) := by
    intro v hf
    obtain ⟨o1, o2⟩ := origin_side ‹HasNext ℝ› hN h.i v m1 m3
    unfold FacingSide at hf
    rcases lt_trichotomy (inner h.i.n v) 0 with hx | hx | hx
    · exact mul_nonneg_of_nonpos_of_nonpos (by nlinarith) (o2 hx)
    · rw [hx, mul_zero] at hf; exact absurd hf (lt_irrefl _)
    · exact mul_nonneg (by nlinarith) (o1 hx.le)
  have hfree : ∀ v, v ≠ V3.zero → FacingSide h.i.n h.i.wo v → scene.intersect (h.i.spawnRay v) = some none := by
    intro v hv0 hf
    have hno := hans.hit (h.i.spawnRay v) (fun x => x)
    have ho := horigin v hf
    have hdir : (h.i.spawnRay v).direction = v := rfl
    generalize h.i.spawnRay v = r at hno ho hdir ⊢
    rcases hr : scene.intersect r with _ | _ | h'
    · exact absurd hr hno
    · rfl
    exfalso
    obtain ⟨hmem, tm', t', hrep'⟩ := container_reports hmk hshapes _ h' hr
    obtain ⟨f, hfm, e⟩ := List.mem_map.1 hmem
    rw [← e] at hrep'
    have h1 : f.2.intersect { r with tMax := tm' } = some (some (h'.i, t')) := hrep'
    have h2 : f.2.intersect { r with tMax := tm' } = some none := by
      refine side_missed f.2 h.i.p h.i.n (inner h.i.n h.i.wo) (hback f hfm) _ (by rw [hdir]; exact hv0) fun x hx _ => ?_
      have e : inner h.i.n h.i.wo * inner h.i.n (diff (pointAt { r with tMax := tm' } x) h.i.p) =
          inner h.i.n h.i.wo * inner h.i.n (diff r.origin h.i.p) + x * (inner h.i.n h.i.wo * inner h.i.n r.direction) := by
        unfold Spec.inner diff pointAt; ring
      rw [e, hdir]
      have := mul_pos hx hf
      linarith
    rw [h1] at h2
    cases h2
  have hopen : ∀ d ∈ lamps, lamplight scene h.i (kd h.i) box' d = openLight h.i (kd h.i) d := by
    intro d hdl
    unfold lamplight openLight
    by_cases hf : FacingSide h.i.n h.i.wo d.toward
    swap
    · rw [if_neg fun x => hf x.1, if_neg hf]
    rw [if_pos hf, if_pos]
    refine ⟨hf, ?_⟩
    have hno := hans.shadow (lampRay h.i d.toward box') (fun x => x)
    have hl0 := hlamp d hdl
    rcases hr : scene.intersectP (lampRay h.i d.toward box') with _ | _ | _
    · exact absurd hr hno
    · rfl
    exfalso
    obtain ⟨x, hx, ex⟩ := container_blocks hmk hshapes _ hr
    obtain ⟨f, hfm, rfl⟩ := List.mem_map.1 hx
    have hmiss : f.2.intersect (lampRay h.i d.toward box') = some none := by
      unfold lampRay at hl0 ⊢
      have hrad : 0 < 2 * radius box' / √(sq d.toward) := by
        have := Real.sqrt_pos.2 (sq_pos (hw d hdl))
        positivity
      have htgt : inner h.i.n h.i.wo * inner h.i.n (diff (along h.i.p (2 * radius box' / √(sq d.toward)) d.toward) h.i.p) =
          2 * radius box' / √(sq d.toward) * (inner h.i.n h.i.wo * inner h.i.n d.toward) := by rw [lamp_target]; ring
      generalize hj : ({ Interaction.default with p := along h.i.p (2 * radius box' / √(sq d.toward)) d.toward } : Interaction ℝ) = j at hl0 ⊢
      have hjp : j.p = along h.i.p (2 * radius box' / √(sq d.toward)) d.toward := by rw [← hj]
      obtain ⟨k1, k2, k3, -⟩ := c45_shadow_ray ‹HasNext ℝ› h.i j
      have q1 : pointAt (h.i.spawnRayTo j) 1 = j.p := by
        have : (j.spawnRay (h.i.p.sub j.p)).origin = j.p := by rw [← hj]; exact target_stays _ _
        rw [← this, ← k2]; unfold pointAt Ray.position V3.add V3.smul; real_ops; ext <;> simp only [] <;> ring
      have q0 : (h.i.spawnRay (j.p.sub h.i.p)).origin = pointAt (h.i.spawnRayTo j) 0 := by
        rw [← k1]; unfold pointAt; ext <;> simp only [] <;> ring
      have hend : 0 < inner h.i.n h.i.wo * inner h.i.n (diff j.p h.i.p) := by
        rw [hjp, htgt]; exact mul_pos hrad hf
      have hstart := horigin (j.p.sub h.i.p) hend
      rw [q0] at hstart
      rw [← q1] at hend
      refine side_missed f.2 h.i.p h.i.n (inner h.i.n h.i.wo) (hback f hfm) _ hl0 fun x hx hx1 => ?_
      rw [k3] at hx1
      generalize h.i.spawnRayTo j = r at hstart hend ⊢
      have e : inner h.i.n h.i.wo * inner h.i.n (diff (pointAt r x) h.i.p) =
          (1 - x) * (inner h.i.n h.i.wo * inner h.i.n (diff (pointAt r 0) h.i.p)) + x * (inner h.i.n h.i.wo * inner h.i.n (diff (pointAt r 1) h.i.p)) := by
        unfold Spec.inner diff pointAt; ring
      rw [e]
      have hx2 : 0 ≤ 1 - x := by norm_num at hx1 ⊢; linarith
      have := mul_nonneg hx2 hstart
      have := mul_pos hx hend
      linarith
    rw [show (triangleObj f).shape.intersectP (lampRay h.i d.toward box') = f.2.intersectP (lampRay h.i d.toward box') from rfl, c40_triangle, hmiss] at ex
    cases ex
  constructor
  · intro σ ops hops st st' l hrun
    obtain ⟨d, hdl, e⟩ := c117_sample lamps hne hw box' hordered hlights camera pFilm h hh kd hm' hkd hd' m1 g3.symm hps hfree ops hops st st' l hrun
    exact ⟨d, hdl, fun c => by rw [e c, hopen d hdl]⟩
  · intro c
    rw [c78_triangle_world hinf _ hcalls hmk hsc (by simp only [List.length_append, List.length_map]; omega) camera pFilm hd c,
      c117_incoming lamps hw (fun d hdl c => c.of_nonneg (hcol d hdl)) box' hordered hlights _ h hh kd hm' hkd hd' m1 g3.symm hps hfree 64 true c]
    congr 2
    exact List.map_congr_left fun d hdl => by rw [hopen d hdl]

/-- C118 for the faces of a convex body: where the camera, in front of the plane of a face, sees that face. -/
theorem c118_convex (hN : OutwardNext ‹HasNext ℝ›) (hinf : (0 : ℝ) ≤ HasInf.infinity) (tris : List (Nat × Triangle ℝ)) (hconvex : ConvexBody tris)
    (hlib : ∀ f ∈ tris, LibraryMaterial f.2.material ∧ LibraryTriangle f.2)
    (lamps : List FarLamp) (hne : lamps ≠ []) (hn : tris.length + lamps.length ≤ 2 ^ 64)
    (hw : ∀ d ∈ lamps, d.toward ≠ V3.zero) (hcol : ∀ d ∈ lamps, NonNeg d.colour)
    {mk : List (Obj ℝ) → Option (Container ℝ)} (hmk : LibraryContainer mk)
    (hsc : (built (tris.map triangleCall ++ lamps.map FarLamp.call)).construct mk = some scene)
    {box : BBox3 ℝ} (hbox : bboxOfShapes (tris.map triangleObj) = some box)
    (camera : PerspectiveCamera ℝ) (pFilm : V2 ℝ) (hd : UnitVec (camera.generateRay pFilm).direction)
    (h : Hit ℝ) (hh : scene.intersect (camera.generateRay pFilm) = some (some h))
    (f : Nat × Triangle ℝ) (hf : f ∈ tris) (hobj : h.obj = triangleObj f) (hv : f.2.vertexNormals = none)
    (hfront : 0 < inner (planeNormal f.2) (diff (camera.generateRay pFilm).origin f.2.v0))
    (kd : TextureOf ℝ (Spectrum ℝ)) (hmat : f.2.material = lambertianMaterial kd)
    (hkd : ∀ c : Chan, 0 ≤ c.of (kd h.i) ∧ c.of (kd h.i) ≤ HasInf.infinity) (hlamp : ∀ d ∈ lamps, (lampRay h.i d.toward box).direction ≠ V3.zero) :
    (∀ {σ : Type} (ops : SamplerOps ℝ σ), Delivers Canonical ops → ∀ (st st' : σ) (l : Spectrum ℝ),
      (cameraRadiance scene camera pFilm).run ops st = some (l, st') →
      ∃ d ∈ lamps, ∀ c : Chan, c.of l = lamps.length * c.of (lambertFront f.2 (kd h.i) d)) ∧
    ∀ c : Chan, mean (fun l => ENNReal.ofReal (c.of l)) (cameraRadiance scene camera pFilm) =
      ENNReal.ofReal (lamps.map fun d => c.of (lambertFront f.2 (kd h.i) d)).sum := by
  have hd0 := unit_ne_zero hd
  obtain ⟨box', -, -, hshapes⟩ := facets_scene tris lamps hsc (List.ne_nil_of_mem hf)
  obtain ⟨-, tm, t, hrep⟩ := container_reports hmk hshapes _ h hh
  obtain ⟨r', hro, hr', hrep⟩ : ∃ r' : Ray ℝ, r'.origin = (camera.generateRay pFilm).origin ∧ r'.direction = (camera.generateRay pFilm).direction ∧
    Reports h.obj.shape r' h.i t := ⟨⟨(camera.generateRay pFilm).origin, (camera.generateRay pFilm).direction, tm⟩, rfl, rfl, hrep⟩
  rw [← hr'] at hd0
  rw [hobj] at hrep
  have hi' : f.2.intersect r' = some (some (h.i, t)) := hrep
  obtain ⟨hn1, ⟨c, hc0, hcn⟩, -, hpl⟩ := madeOn_facts (s := f.2) (i := h.i) (Or.inl ⟨r', t, hd0, hi'⟩)
  obtain ⟨ht, -, hp, -⟩ := (c38_triangle_hit_real f.2 _ hd0).2 h.i t hi'
  have hwo : h.i.wo = (camera.generateRay pFilm).direction.neg := by
    obtain ⟨-, b0, b1, b2, -, -, hfl⟩ := triangle_hit_fields f.2 _ hd0 h.i t hi'
    rw [hfl, ← hr']; rfl
  have hside : 0 < inner (planeNormal f.2) h.i.wo := by
    have e : inner (planeNormal f.2) (diff (camera.generateRay pFilm).origin f.2.v0) = t * inner (planeNormal f.2) h.i.wo := by
      have : inner (planeNormal f.2) (diff (camera.generateRay pFilm).origin f.2.v0) = inner (planeNormal f.2) (diff h.i.p f.2.v0) + t * inner (planeNormal f.2) h.i.wo := by
        rw [hp, hwo, ← hro, ← hr']
        unfold Spec.inner diff pointAt V3.neg
        real_ops
        ring
      rw [this, hpl, zero_add]
    rw [e] at hfront
    exact pos_of_mul_pos_right (mul_comm t _ ▸ hfront) ht.le
  have hback : AllBehind tris h.i.p h.i.n h.i.wo := by
    intro g hg x hx
    have e1 : inner h.i.n h.i.wo = c * inner (planeNormal f.2) h.i.wo := by rw [hcn]; unfold Spec.inner scale; ring
    have e2 : inner h.i.n (diff x h.i.p) = c * inner (planeNormal f.2) (diff x f.2.v0) := by
      rw [hcn]
      unfold Spec.inner scale diff at *
      simp only [] at *
      linear_combination (-c) * hpl
    rw [e1, e2, show c * inner (planeNormal f.2) h.i.wo * (c * inner (planeNormal f.2) (diff x f.2.v0)) =
      c * c * inner (planeNormal f.2) h.i.wo * inner (planeNormal f.2) (diff x f.2.v0) by ring]
    exact mul_nonpos_of_nonneg_of_nonpos (mul_nonneg (mul_self_nonneg c) hside.le) (hconvex f hf g hg x hx)
  have hlight : ∀ d, openLight h.i (kd h.i) d = lambertFront f.2 (kd h.i) d := by
    intro d
    have e1 : inner h.i.n h.i.wo = c * inner (planeNormal f.2) h.i.wo := by rw [hcn]; unfold Spec.inner scale; ring
    have e2 : inner h.i.n d.toward = c * inner (planeNormal f.2) d.toward := by rw [hcn]; unfold Spec.inner scale; ring
    have hcc : 0 < c * c := mul_self_pos.2 hc0
    have hfs : FacingSide h.i.n h.i.wo d.toward ↔ 0 < inner (planeNormal f.2) d.toward := by
      unfold FacingSide
      rw [e1, e2, show c * inner (planeNormal f.2) h.i.wo * (c * inner (planeNormal f.2) d.toward) =
        c * c * inner (planeNormal f.2) h.i.wo * inner (planeNormal f.2) d.toward by ring]
      exact mul_pos_iff_of_pos_left (mul_pos hcc hside)
    have hsq : c ^ 2 * sq (planeNormal f.2) = 1 := by
      rw [← hn1, hcn]; unfold Spec.sq scale; ring
    have habs : |c| = 1 / √(sq (planeNormal f.2)) := by
      have hpos : 0 < sq (planeNormal f.2) := by
        by_contra hneg
        have := mul_nonneg (sq_nonneg c) (neg_nonneg.2 (not_lt.1 hneg))
        linarith
      have : sq (planeNormal f.2) = (1 / |c|) ^ 2 := by
        rw [one_div, inv_pow, sq_abs]
        field_simp
        linarith
      rw [this, Real.sqrt_sq (by positivity), one_div_one_div]
    have hcos : |inner h.i.n d.toward| = |inner (scale (1 / √(sq (planeNormal f.2))) (planeNormal f.2)) d.toward| := by
      have : inner (scale (1 / √(sq (planeNormal f.2))) (planeNormal f.2)) d.toward = |c| * inner (planeNormal f.2) d.toward := by
        rw [← habs]; unfold Spec.inner scale; ring
      rw [e2, this, abs_mul, abs_mul, abs_abs]
    unfold openLight lambertFront
    by_cases hff : FacingSide h.i.n h.i.wo d.toward
    · rw [if_pos hff, if_pos (hfs.1 hff)]
      unfold lambert
      rw [hcos]
    · rw [if_neg hff, if_neg fun x => hff (hfs.2 x)]
  simp only [← hlight]
  exact c118_nothing_in_front hN hinf tris hlib lamps hne hn hw hcol hmk hsc hbox camera pFilm hd h hh f.1 f.2 hobj hv kd hmat hback hkd hlamp
end
namespace Demo
/-- A tetrahedron with the corners (0, 0, 1), (8, 0, 1), (0, 12, 1) and (0, 0, 9), one face of which is a mirror and one shiny plastic. -/
noncomputable def tetrahedron [HasInf ℝ] : List (Nat × Triangle ℝ) :=
  [(1, ⟨⟨0, 0, 1⟩, ⟨0, 12, 1⟩, ⟨8, 0, 1⟩, none, false, lambertianMaterial (constantTexture ⟨1 / 2, 1 / 4, 0⟩)⟩),
   (2, ⟨⟨0, 0, 1⟩, ⟨8, 0, 1⟩, ⟨0, 0, 9⟩, none, false, lambertianMaterial (constantTexture ⟨1, 1, 1⟩)⟩),
   (3, ⟨⟨0, 0, 1⟩, ⟨0, 0, 9⟩, ⟨0, 12, 1⟩, none, true, mirrorMaterial (constantTexture ⟨1, 1, 1⟩)⟩),
   (4, ⟨⟨8, 0, 1⟩, ⟨0, 12, 1⟩, ⟨0, 0, 9⟩, none, false, plasticMaterial (fun _ => ⟨1, 0, 0⟩) (fun _ => ⟨0, 1, 0⟩) (fun _ => 1 / 10)⟩)]
/-- The box around it. -/
noncomputable def tetrahedronBox : BBox3 ℝ := ⟨⟨0, 0, 1⟩, ⟨8, 12, 9⟩⟩

theorem tetrahedron_convex [HasInf ℝ] : ConvexBody tetrahedron := by
  intro f hf g hg x hx
  simp only [tetrahedron, List.mem_cons, List.not_mem_nil, or_false] at hf hg
  rcases hf with rfl | rfl | rfl | rfl <;> rcases hg with rfl | rfl | rfl | rfl <;> simp only [List.mem_cons, List.not_mem_nil, or_false] at hx <;>
    rcases hx with rfl | rfl | rfl <;> norm_num [Spec.inner, planeNormal, vcross, diff]

theorem tetrahedron_box [HasInf ℝ] : bboxOfShapes (tetrahedron.map triangleObj) = some tetrahedronBox := by
  have h : ∀ f : Nat × Triangle ℝ, (triangleObj f).shape.bbox = f.2.bbox := fun _ => rfl
  simp only [tetrahedron, List.map_cons, List.map_nil, bboxOfShapes, List.foldl_cons, List.foldl_nil, h, tetrahedronBox, Option.some.injEq]
  unfold Triangle.bbox BBox3.new BBox3.unionPoint BBox3.union
  simp only [V3.min, V3.max]
  real_ops
  norm_num
end Demo

/-- C118, the assumptions: through the film position (1280/3, 120) the camera sees the front of the tetrahedron, in the light of the three lamps of C117.  Two of them are in
front of the face; the mean of the red channel is `1/2 · (3 · 4/5 + 5 · 3/5) / π`, as if there were no other faces. -/
example [HasInf ℝ] [HasNext ℝ] (hN : OutwardNext ‹HasNext ℝ›) (hinf : (100 : ℝ) ≤ HasInf.infinity) :
    ∃ scene, (built (Demo.tetrahedron.map triangleCall ++ Demo.threeLamps.map FarLamp.call)).construct (fun ss => (Simple.new ss).map Simple.toContainer) = some scene ∧
      mean (fun l => ENNReal.ofReal l.r) (cameraRadiance scene Demo.aheadView.camera ⟨1280 / 3, 120⟩) = ENNReal.ofReal (27 / 10 / Real.pi) := by
  obtain ⟨scene, hsc⟩ : ∃ scene, (built (Demo.tetrahedron.map triangleCall ++ Demo.threeLamps.map FarLamp.call)).construct
      (fun ss => (Simple.new ss).map Simple.toContainer) = some scene := ⟨_, rfl⟩
  refine ⟨scene, hsc, ?_⟩
  obtain ⟨box, hb, -, hshapes⟩ := facets_scene Demo.tetrahedron Demo.threeLamps hsc (by simp [Demo.tetrahedron])
  obtain rfl : Demo.tetrahedronBox = box := Option.some.inj (Demo.tetrahedron_box.symm.trans hb)
  have hcont : scene.shapes = (Simple.mk (Demo.tetrahedron.map triangleObj) Demo.tetrahedronBox).toContainer := by
    unfold Simple.new at hshapes
    rw [hb] at hshapes
    exact (Option.some.inj hshapes).symm
  obtain ⟨h1, h2, h3, c, hc, h4⟩ := ahead_rays ⟨1280 / 3, 120⟩
  obtain rfl : c = 6 / 7 := by
    have : Spec.sq (V3.mk (c * (1280 / 3 / 320 - 1)) (c * (1 - 120 / 240)) c) = 1 := h4 ▸ h3
    simp only [Spec.sq] at this
    nlinarith
  have hray : Demo.aheadView.camera.generateRay ⟨1280 / 3, 120⟩ = ⟨⟨0, 0, -5⟩, ⟨2 / 7, 3 / 7, 6 / 7⟩, HasInf.infinity⟩ := by
    revert h1 h2 h4
    generalize Demo.aheadView.camera.generateRay ⟨1280 / 3, 120⟩ = r
    rintro h1 h2 h4
    obtain ⟨o, d, t⟩ := r
    simp only at h1 h2 h4
    rw [h1, h2, h4]
    norm_num
  generalize hF : (⟨⟨0, 0, 1⟩, ⟨0, 12, 1⟩, ⟨8, 0, 1⟩, none, false, lambertianMaterial (constantTexture ⟨1 / 2, 1 / 4, 0⟩)⟩ : Triangle ℝ) = F
  have hmem : ((1, F) : Nat × Triangle ℝ) ∈ Demo.tetrahedron := by rw [← hF]; exact List.mem_cons_self
  have hpn : planeNormal F = ⟨0, 0, -96⟩ := by rw [← hF]; norm_num [planeNormal, vcross, diff]
  obtain ⟨i, hi, -, -⟩ := c39_triangle_complete F ⟨⟨0, 0, -5⟩, ⟨2 / 7, 3 / 7, 6 / 7⟩, HasInf.infinity⟩ (1 / 2) (1 / 4) (1 / 4) 7
    (by norm_num [Weights]) (by rw [← hF]; unfold pointAt mix; ext <;> norm_num)
    (by rw [hpn]; norm_num [Spec.inner])
    (by
      intro m hm
      have hz := hm .Z
      cases m
      · norm_num [V3.get, abs_of_pos, abs_of_neg] at hz
      · norm_num [V3.get, abs_of_pos, abs_of_neg] at hz
      · rw [← hF]
        unfold errorThreshold rayCoord maxAbs errFactor diff
        simp only [V3.get, Axis.prev, Axis.next]
        norm_num [abs_of_pos, abs_of_neg, max_def]) (by dsimp only; linarith)
  have hmiss : ∀ f ∈ Demo.tetrahedron.tail, f.2.intersect ⟨⟨0, 0, -5⟩, ⟨2 / 7, 3 / 7, 6 / 7⟩, 7⟩ = some none := by
    intro f hf
    have hd : (⟨2 / 7, 3 / 7, 6 / 7⟩ : V3 ℝ) ≠ V3.zero := by intro e; have := congrArg V3.x e; norm_num [V3.zero, r_lit] at this
    obtain ⟨a0, a1⟩ := c38_triangle_hit_real f.2 ⟨⟨0, 0, -5⟩, ⟨2 / 7, 3 / 7, 6 / 7⟩, 7⟩ hd
    rcases hr : f.2.intersect ⟨⟨0, 0, -5⟩, ⟨2 / 7, 3 / 7, 6 / 7⟩, 7⟩ with _ | _ | ⟨j, t⟩
    · exact absurd hr a0
    · rfl
    · exfalso
      obtain ⟨t0, t1, p1, b0, b1, b2, ⟨w0, w1, w2, w3⟩, p2, -⟩ := a1 j t hr
      rw [p1] at p2
      have ex := congrArg V3.x p2
      have ey := congrArg V3.y p2
      have ez := congrArg V3.z p2
      simp only [Demo.tetrahedron, List.tail_cons, List.mem_cons, List.not_mem_nil, or_false] at hf
      rcases hf with rfl | rfl | rfl <;> simp only [pointAt, mix] at ex ey ez t1 <;> norm_num at ex ey ez t1 <;> nlinarith
  have hh : scene.intersect (Demo.aheadView.camera.generateRay ⟨1280 / 3, 120⟩) = some (some ⟨i, triangleObj (1, F)⟩) := by
    unfold Scene.intersect
    rw [hray, hcont]
    change Simple.intersect _ _ = _
    unfold Simple.intersect
    dsimp only
    have hb : (BBox3.intersect Demo.tetrahedronBox (⟨⟨0, 0, -5⟩, ⟨2 / 7, 3 / 7, 6 / 7⟩, HasInf.infinity⟩ : Ray ℝ)) ≠ none := by
      intro hb
      have := (c35_box_test _ _ (by intro a; cases a <;> norm_num [V3.get, Demo.tetrahedronBox])).2 hb
      have hmem : (7 : ℝ) ∈ (∅ : Set ℝ) := by
        rw [← this]
        have hg : 0 ≤ gamma3 := by unfold gamma3; norm_num
        refine ⟨by norm_num, by dsimp only; linarith, fun a => ?_⟩
        cases a <;> norm_num [planeLo, planeHi, V3.get, Demo.tetrahedronBox] <;> nlinarith
      exact hmem
    rw [if_neg (by simpa using hb)]
    have key : ∀ (l : List (Nat × Triangle ℝ)) (r : Ray ℝ) (h0 : Option (Hit ℝ)), (∀ f ∈ l, f.2.intersect r = some none) →
        closestHit (l.map triangleObj) r h0 = some (r, h0) := by
      intro l
      induction l with
      | nil => intro r h0 _; rfl
      | cons f l ih =>
        intro r h0 hl
        have hf : (triangleObj f).shape.intersect r = some none := hl f List.mem_cons_self
        simp only [List.map_cons, closestHit, Obj.intersect, hf]
        exact ih r h0 fun g hg => hl g (List.mem_cons_of_mem _ hg)
    have hi' : (triangleObj (1, F)).shape.intersect ⟨⟨0, 0, -5⟩, ⟨2 / 7, 3 / 7, 6 / 7⟩, HasInf.infinity⟩ = some (some (i, 7)) := hi
    have hsplit : Demo.tetrahedron = (1, F) :: Demo.tetrahedron.tail := by rw [← hF]; rfl
    rw [hsplit, List.map_cons]
    simp only [closestHit, Obj.intersect, hi']
    exact congrArg (Option.map Prod.snd) (key _ _ _ hmiss)
  have hn : i.n = ⟨0, 0, -1⟩ := by
    have hs : Spec.sq (planeNormal F) = 96 ^ 2 := by rw [hpn]; norm_num [Spec.sq]
    rw [((c42_triangle_sample F (by rw [hpn]; intro e; have := congrArg V3.z e; norm_num [V3.zero, r_lit] at this)).2.2 (by rw [← hF]) _ _ _ hi).1,
      orientedNormal, hs, Real.sqrt_sq (by norm_num), hpn, ← hF]
    ext <;> norm_num [scale]
  have hlamp : ∀ d ∈ Demo.threeLamps, (lampRay i d.toward Demo.tetrahedronBox).direction ≠ V3.zero := by
    intro d hdl h0
    have hr : √(Spec.sq d.toward) = 5 ∧ 0 < d.toward.x := by
      simp only [Demo.threeLamps, List.mem_cons, List.not_mem_nil, or_false] at hdl
      rcases hdl with rfl | rfl | rfl <;> refine ⟨?_, by norm_num⟩ <;> rw [show (5 : ℝ) = √(5 ^ 2) by rw [Real.sqrt_sq (by norm_num)]] <;> congr 1 <;> norm_num [Spec.sq]
    have hx := congrArg V3.x h0
    unfold lampRay Interaction.spawnRayTo Interaction.offsetRayOrigin Interaction.nudge Interaction.default at hx
    dsimp only at hx
    rw [hn, hr.1] at hx
    simp only [V3.sub, V3.add, V3.smul, V3.abs, V3.dot, V3.zero, along] at hx
    real_ops at hx
    norm_num at hx
    have hrad : 0 < radius Demo.tetrahedronBox := by
      have : 0 < Real.sqrt (Spec.sq (diff Demo.tetrahedronBox.max Demo.tetrahedronBox.min)) := Real.sqrt_pos.2 (by norm_num [Spec.sq, diff, Demo.tetrahedronBox])
      unfold radius; positivity
    have := hr.2
    have hp : 0 < 2 * radius Demo.tetrahedronBox / 5 * d.toward.x := by positivity
    split_ifs at hx <;> norm_num at hx <;> first | linarith | (rcases hx with hx | hx <;> linarith)
  have hlib : ∀ f ∈ Demo.tetrahedron, LibraryMaterial f.2.material ∧ LibraryTriangle f.2 := by
    intro f hf
    simp only [Demo.tetrahedron, List.mem_cons, List.not_mem_nil, or_false] at hf
    rcases hf with rfl | rfl | rfl | rfl
    · exact ⟨.lambertian _, fun i => .lambertian _, fun n0 n1 n2 hn => by cases hn⟩
    · exact ⟨.lambertian _, fun i => .lambertian _, fun n0 n1 n2 hn => by cases hn⟩
    · exact ⟨.mirror _, fun i => .mirror _, fun n0 n1 n2 hn => by cases hn⟩
    · exact ⟨.plastic _ _ _, fun i => .plastic (fun _ => ⟨1, 0, 0⟩) (fun _ => ⟨0, 1, 0⟩) (fun _ => 1 / 10) (by norm_num), fun n0 n1 n2 hn => by cases hn⟩
  have key := (c118_convex hN (by linarith) Demo.tetrahedron Demo.tetrahedron_convex hlib Demo.threeLamps (by simp [Demo.threeLamps])
    (by norm_num [Demo.threeLamps, Demo.tetrahedron])
    (by
      intro d hdl e
      simp only [Demo.threeLamps, List.mem_cons, List.not_mem_nil, or_false] at hdl
      rcases hdl with rfl | rfl | rfl <;> have := congrArg V3.x e <;> norm_num [V3.zero, r_lit] at this)
    (by
      intro d hdl
      simp only [Demo.threeLamps, List.mem_cons, List.not_mem_nil, or_false] at hdl
      rcases hdl with rfl | rfl | rfl <;> refine ⟨?_, ?_, ?_⟩ <;> norm_num)
    .simple hsc hb Demo.aheadView.camera ⟨1280 / 3, 120⟩ h3 _ hh (1, F) hmem rfl (by rw [← hF])
    (by rw [hray, hpn, ← hF]; norm_num [Spec.inner, diff]) (constantTexture ⟨1 / 2, 1 / 4, 0⟩) (by rw [← hF])
    (by intro c; cases c <;> simp only [constantTexture, Chan.of] <;> constructor <;> first | (norm_num; done) | (norm_num; linarith) | linarith) hlamp).2 .r
  have s0 : √(Spec.sq (⟨0, 0, -96⟩ : V3 ℝ)) = 96 := by
    rw [show Spec.sq (⟨0, 0, -96⟩ : V3 ℝ) = 96 ^ 2 by norm_num [Spec.sq]]; exact Real.sqrt_sq (by norm_num)
  have s1 : √(Spec.sq (⟨3, 0, -4⟩ : V3 ℝ)) = 5 := by
    rw [show Spec.sq (⟨3, 0, -4⟩ : V3 ℝ) = 5 ^ 2 by norm_num [Spec.sq]]; exact Real.sqrt_sq (by norm_num)
  have s2 : √(Spec.sq (⟨4, 0, -3⟩ : V3 ℝ)) = 5 := by
    rw [show Spec.sq (⟨4, 0, -3⟩ : V3 ℝ) = 5 ^ 2 by norm_num [Spec.sq]]; exact Real.sqrt_sq (by norm_num)
  refine key.trans ?_
  congr 1
  simp only [Demo.threeLamps, List.map_cons, List.map_nil, List.sum_cons, List.sum_nil, lambertFront, hpn, s0]
  rw [if_pos (by norm_num [Spec.inner]), if_pos (by norm_num [Spec.inner]), if_neg (by norm_num [Spec.inner]), lambert_chan, lambert_chan, s1, s2]
  norm_num [Spec.inner, scale, constantTexture, Chan.of]
  ring
end PT
