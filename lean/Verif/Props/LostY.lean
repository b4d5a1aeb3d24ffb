import Verif.Props.NeverPanicsLib
import Verif.Props.ErrorBoundsSphere

/-!
# A scene of finite size whose rendering panics (C76)

A distant light puts the far end of its shadow rays two bounding radii away.  The radius is computed with squares, so it overflows when
the scene is larger than about 10^19; then the shadow ray of a light whose direction has `y = 0` goes to `(±∞, NaN, ±∞)`.
-/

namespace PT
open Spec Fl

namespace Spec
/-- What is needed of the square root: it is exact on small perfect squares, and infinity at infinity. -/
structure RootsExact [Libm F32] : Prop where
  squares : ∀ n : ℕ, n ≤ 16 → Libm.sqrt (lit ((n : ℚ) ^ 2) : F32) = lit (n : ℚ)
  infinity : Libm.sqrt (Fl.inf false : F32) = Fl.inf false
end Spec

namespace Demo
/-- White, matt. -/
def white [Libm F32] : Material F32 := lambertianMaterial fun _ => ⟨lit 1, lit 1, lit 1⟩
/-- A triangle in the plane `x = 1`. -/
def wall [Libm F32] : Triangle F32 := ⟨⟨f32 1, f32 (-1), f32 (-1)⟩, ⟨f32 1, f32 3, f32 (-1)⟩, ⟨f32 1, f32 (-1), f32 3⟩, none, false, white⟩
/-- A unit sphere far away. -/
def farBall [Libm F32] : Sphere F32 := ⟨⟨f32 0, f32 0, f32 (2 ^ 70)⟩, f32 1, white⟩
/-- The two shapes and a distant light. -/
def farScene [Libm F32] [Libm F64] : List (BuilderCall F32) :=
  [.shape 0 wall.toShape, .shape 1 farBall.toShape,
   .light 2 fun box => ((DistantLight.new ⟨lit 1, lit 1, lit 1⟩ ⟨lit (-3), lit 0, lit 4⟩).preProcess box).toLight]
/-- The ray from the origin along the x axis. -/
def xRay : Ray F32 := ⟨⟨f32 0, f32 0, f32 0⟩, ⟨f32 1, f32 0, f32 0⟩, Fl.inf false⟩

def farBox : BBox3 F32 := ⟨⟨f32 (-1), f32 (-1), f32 (-1)⟩, ⟨f32 1, f32 3, f32 (2 ^ 70)⟩⟩

open Triangle in
def wallStage : Stage F32 :=
  stageOf (rc xRay.origin xRay.direction .X ⟨f32 1, f32 (-1), f32 (-1)⟩) (rc xRay.origin xRay.direction .X ⟨f32 1, f32 3, f32 (-1)⟩)
    (rc xRay.origin xRay.direction .X ⟨f32 1, f32 (-1), f32 3⟩) (szOf xRay.direction .X)

open Triangle in
theorem wallStage_facts : wallStage.rejects (Fl.inf false) = false ∧ wallStage.t = f32 1 ∧ wallStage.e0 /. wallStage.det = f32 (1 / 2) ∧
    wallStage.e1 /. wallStage.det = f32 (1 / 4) ∧ wallStage.e2 /. wallStage.det = f32 (1 / 4) ∧ xRay.direction.maxAbsAxis = some .X := by decide +kernel

theorem wall_hit [Libm F32] : wall.intersect xRay = some (some (wall.interactionAt xRay.direction (f32 (1 / 2)) (f32 (1 / 4)) (f32 (1 / 4)), f32 1)) := by
  obtain ⟨h1, h2, h3, h4, h5, h6⟩ := wallStage_facts
  have hi := Triangle.intersect_eq wall xRay.origin xRay.direction (Fl.inf false)
  rw [h6, Option.map_some] at hi
  have hg : Triangle.stage wall xRay.origin xRay.direction .X = wallStage := rfl
  simp only [hg, h1, h2, h3, h4, h5, Bool.false_eq_true, if_false] at hi
  exact hi

theorem wall_point [Libm F32] (d : V3 F32) :
    (wall.interactionAt d (f32 (1 / 2)) (f32 (1 / 4)) (f32 (1 / 4))).p = ⟨f32 1, f32 0, f32 0⟩ := by
  change V3.add (V3.add (V3.smul (⟨f32 1, f32 (-1), f32 (-1)⟩ : V3 F32) (f32 (1 / 2))) (V3.smul (⟨f32 1, f32 3, f32 (-1)⟩ : V3 F32) (f32 (1 / 4))))
    (V3.smul (⟨f32 1, f32 (-1), f32 3⟩ : V3 F32) (f32 (1 / 4))) = _
  exact v3_eq (by decide +kernel) (by decide +kernel) (by decide +kernel)

theorem wall_error [Libm F32] (d : V3 F32) :
    (wall.interactionAt d (f32 (1 / 2)) (f32 (1 / 4)) (f32 (1 / 4))).pErr =
      ⟨f32 (7340035 / 17592186044416), f32 (2752513 / 4398046511104), f32 (2752513 / 4398046511104)⟩ := by
  change V3.smul (V3.add (V3.add (V3.abs (V3.smul (⟨f32 1, f32 (-1), f32 (-1)⟩ : V3 F32) (f32 (1 / 2)))) (V3.abs (V3.smul (⟨f32 1, f32 3, f32 (-1)⟩ : V3 F32) (f32 (1 / 4)))))
    (V3.abs (V3.smul (⟨f32 1, f32 (-1), f32 3⟩ : V3 F32) (f32 (1 / 4))))) (gamma (lit 7)) = _
  exact v3_eq (by decide +kernel) (by decide +kernel) (by decide +kernel)

theorem wall_normal [Libm F32] (hr : RootsExact) (d : V3 F32) :
    (wall.interactionAt d (f32 (1 / 2)) (f32 (1 / 4)) (f32 (1 / 4))).n = ⟨f32 1, f32 0, f32 0⟩ ∧
    (wall.interactionAt d (f32 (1 / 2)) (f32 (1 / 4)) (f32 (1 / 4))).sn = ⟨f32 1, f32 0, f32 0⟩ := by
  have hc : (wall.v0.sub wall.v2).cross (wall.v1.sub wall.v2) = ⟨f32 16, f32 0, f32 0⟩ := by
    change V3.cross (V3.sub (⟨f32 1, f32 (-1), f32 (-1)⟩ : V3 F32) ⟨f32 1, f32 (-1), f32 3⟩) (V3.sub (⟨f32 1, f32 3, f32 (-1)⟩ : V3 F32) ⟨f32 1, f32 (-1), f32 3⟩) = _
    exact v3_eq (by decide +kernel) (by decide +kernel) (by decide +kernel)
  have hl : (⟨f32 16, f32 0, f32 0⟩ : V3 F32).length = f32 16 := by
    unfold V3.length
    rw [show (f32 16 *. f32 16 +. f32 0 *. f32 0 +. f32 0 *. f32 0 : F32) = lit (((16 : ℕ) : ℚ) ^ 2) by decide +kernel, hr.squares 16 le_rfl]
    decide +kernel
  have hn : ((wall.v0.sub wall.v2).cross (wall.v1.sub wall.v2)).normalize = ⟨f32 1, f32 0, f32 0⟩ := by
    rw [hc]; unfold V3.normalize; rw [hl]
    exact v3_eq (by decide +kernel) (by decide +kernel) (by decide +kernel)
  have hd : ((⟨f32 1, f32 0, f32 0⟩ : V3 F32).dot ⟨f32 1, f32 0, f32 0⟩ <. lit 0) = false := by decide +kernel
  unfold Triangle.interactionAt
  simp only [Triangle.shading, show wall.vertexNormals = none from rfl, show wall.reverseOrientation = false from rfl, hn, hd, Bool.false_eq_true,
    if_false, and_self]

theorem far_missed [Libm F32] [Libm F64] (ray : Ray F32) (ho : ray.origin = xRay.origin) (hd : ray.direction = xRay.direction) :
    farBall.intersect ray = none := by
  obtain ⟨o, d, tm⟩ := ray
  dsimp only at ho hd
  subst ho hd
  unfold Sphere.intersect
  have hw : farBall.worldToLocal xRay.origin = ⟨f32 0, f32 0, f32 (-2 ^ 70)⟩ := by
    change V3.add (⟨f32 0, f32 0, f32 0⟩ : V3 F32) (V3.neg ⟨f32 0, f32 0, f32 (2 ^ 70)⟩) = _
    exact v3_eq (by decide +kernel) (by decide +kernel) (by decide +kernel)
  simp only [hw]
  have : farBall.hasIntersection (⟨⟨f32 0, f32 0, f32 (-2 ^ 70)⟩, xRay.direction, tm⟩ : Ray F32) = none := by
    unfold Sphere.hasIntersection
    dsimp only
    have e : ∀ {a b c : F64}, (b *. b -. lit 4 *. a *. c <. lit 0) = true → quadratic a b c = none := by
      intro a b c h
      unfold quadratic
      simp only [h, if_true]
    rw [e]
    change ((lit 2 *. ((Widen.up (f32 1) : F64) *. Widen.up (f32 0) +. Widen.up (f32 0) *. Widen.up (f32 0) +. Widen.up (f32 0) *. Widen.up (f32 (-2 ^ 70)))) *.
      (lit 2 *. ((Widen.up (f32 1) : F64) *. Widen.up (f32 0) +. Widen.up (f32 0) *. Widen.up (f32 0) +. Widen.up (f32 0) *. Widen.up (f32 (-2 ^ 70)))) -.
      lit 4 *. ((Widen.up (f32 1) : F64) *. Widen.up (f32 1) +. Widen.up (f32 0) *. Widen.up (f32 0) +. Widen.up (f32 0) *. Widen.up (f32 0)) *.
      ((Widen.up (f32 0) : F64) *. Widen.up (f32 0) +. Widen.up (f32 0) *. Widen.up (f32 0) +. Widen.up (f32 (-2 ^ 70)) *. Widen.up (f32 (-2 ^ 70)) -.
        Widen.up (f32 1) *. Widen.up (f32 1)) <. lit 0) = true
    decide +kernel
  rw [this]; rfl

/-- The box of the scene. -/
theorem far_box [Libm F32] [Libm F64] : wall.toShape.bbox.union farBall.toShape.bbox = farBox := by
  have e1 : wall.toShape.bbox = ⟨⟨f32 1, f32 (-1), f32 (-1)⟩, ⟨f32 1, f32 3, f32 3⟩⟩ := by
    change (BBox3.new (⟨f32 1, f32 (-1), f32 (-1)⟩ : V3 F32) ⟨f32 1, f32 3, f32 (-1)⟩).unionPoint ⟨f32 1, f32 (-1), f32 3⟩ = _
    unfold BBox3.new BBox3.unionPoint
    congr 1
    · exact v3_eq (by decide +kernel) (by decide +kernel) (by decide +kernel)
    · exact v3_eq (by decide +kernel) (by decide +kernel) (by decide +kernel)
  have e2 : farBall.toShape.bbox = ⟨⟨f32 (-1), f32 (-1), f32 (2 ^ 70)⟩, ⟨f32 1, f32 1, f32 (2 ^ 70)⟩⟩ := by
    change BBox3.new (⟨f32 0 -. f32 1, f32 0 -. f32 1, f32 (2 ^ 70) -. f32 1⟩ : V3 F32) ⟨f32 0 +. f32 1, f32 0 +. f32 1, f32 (2 ^ 70) +. f32 1⟩ = _
    unfold BBox3.new
    congr 1
    · exact v3_eq (by decide +kernel) (by decide +kernel) (by decide +kernel)
    · exact v3_eq (by decide +kernel) (by decide +kernel) (by decide +kernel)
  rw [e1, e2]
  unfold BBox3.union farBox
  congr 1
  · exact v3_eq (by decide +kernel) (by decide +kernel) (by decide +kernel)
  · exact v3_eq (by decide +kernel) (by decide +kernel) (by decide +kernel)

/-- Its bounding sphere has infinite radius. -/
theorem far_radius [Libm F32] (hr : RootsExact) : farBox.boundingSphere.2 = Fl.inf false := by
  unfold BBox3.boundingSphere
  dsimp only
  rw [if_pos (by decide +kernel)]
  unfold V3.distance V3.length
  rw [← hr.infinity]
  congr 1
  decide +kernel

/-- The light seen from the wall. -/
theorem far_light [Libm F32] (hr : RootsExact) (e : Spectrum F32) :
    (DistantLight.new e ⟨lit (-3), lit 0, lit 4⟩).wLight = ⟨f32 (-3 / 5), f32 0, f32 (4 / 5)⟩ := by
  have hl : (⟨lit (-3), lit 0, lit 4⟩ : V3 F32).length = lit 5 := by
    unfold V3.length
    rw [show (lit (-3) *. lit (-3) +. lit 0 *. lit 0 +. lit 4 *. lit 4 : F32) = lit (((5 : ℕ) : ℚ) ^ 2) by decide +kernel, hr.squares 5 (by norm_num)]
    decide +kernel
  change V3.normalize _ = _
  unfold V3.normalize
  rw [hl]
  exact v3_eq (by decide +kernel) (by decide +kernel) (by decide +kernel)

/-- The far end of the shadow ray. -/
theorem far_end : (⟨f32 1, f32 0, f32 0⟩ : V3 F32).add ((⟨f32 (-3 / 5), f32 0, f32 (4 / 5)⟩ : V3 F32).smul (lit 2 *. Fl.inf false)) =
    ⟨Fl.inf true, Fl.nan, Fl.inf false⟩ := by
  exact v3_eq (by decide +kernel) (by decide +kernel) (by decide +kernel)

/-- The shadow ray. -/
def lostRay : Ray F32 := ⟨⟨f32 (8388613 / 8388608), f32 0, f32 0⟩, ⟨Fl.inf true, Fl.nan, Fl.inf false⟩, lit 1 -. lit (1 / 10000)⟩

theorem far_shadow (i j : Interaction F32) (hp : i.p = ⟨f32 1, f32 0, f32 0⟩) (hn : i.n = ⟨f32 1, f32 0, f32 0⟩)
    (he : i.pErr = ⟨f32 (7340035 / 17592186044416), f32 (2752513 / 4398046511104), f32 (2752513 / 4398046511104)⟩)
    (hj : j.p = ⟨Fl.inf true, Fl.nan, Fl.inf false⟩) (hjn : j.n = V3.zero) (hje : j.pErr = V3.zero) : i.spawnRayTo j = lostRay := by
  unfold Interaction.spawnRayTo
  have h0 : j.p.sub i.p = ⟨Fl.inf true, Fl.nan, Fl.inf false⟩ := by
    rw [hj, hp]; exact v3_eq (by decide +kernel) (by decide +kernel) (by decide +kernel)
  have h1 : i.offsetRayOrigin ⟨Fl.inf true, Fl.nan, Fl.inf false⟩ = lostRay.origin := by
    unfold Interaction.offsetRayOrigin
    rw [hp, hn, he]
    exact v3_eq (by decide +kernel) (by decide +kernel) (by decide +kernel)
  have h2 : j.offsetRayOrigin (V3.neg ⟨Fl.inf true, Fl.nan, Fl.inf false⟩) = ⟨Fl.inf true, Fl.nan, Fl.inf false⟩ := by
    unfold Interaction.offsetRayOrigin
    rw [hj, hjn, hje]
    exact v3_eq (by decide +kernel) (by decide +kernel) (by decide +kernel)
  simp only [h0, h1, h2]
  unfold lostRay
  congr 1
  exact v3_eq (by decide +kernel) (by decide +kernel) (by decide +kernel)

theorem lostRay_lost : lostRay.direction.maxAbsAxis = none ∧ (farBox.intersect lostRay).isNone = false ∧ (farBox.intersect xRay).isNone = false := by
  decide +kernel
end Demo

namespace Demo
/-- What is reported where the ray meets the wall. -/
structure AtWall (i : Interaction F32) : Prop where
  p : i.p = ⟨f32 1, f32 0, f32 0⟩
  n : i.n = ⟨f32 1, f32 0, f32 0⟩
  sn : i.sn = ⟨f32 1, f32 0, f32 0⟩
  pErr : i.pErr = ⟨f32 (7340035 / 17592186044416), f32 (2752513 / 4398046511104), f32 (2752513 / 4398046511104)⟩
  wo : i.wo = xRay.direction.neg

def farShapes [Libm F32] [Libm F64] : Simple F32 := ⟨[⟨0, wall.toShape⟩, ⟨1, farBall.toShape⟩], farBox⟩

theorem wall_seen [Libm F32] (hr : RootsExact) : ∃ i, wall.toShape.intersect xRay = some (some (i, f32 1)) ∧ AtWall i := by
  obtain ⟨hn, hsn⟩ := wall_normal hr xRay.direction
  exact ⟨_, wall_hit, wall_point _, hn, hsn, wall_error _, rfl⟩

theorem farShapes_hit [Libm F32] [Libm F64] {i : Interaction F32} (h1 : wall.toShape.intersect xRay = some (some (i, f32 1))) :
    farShapes.intersect xRay = some (some ⟨i, ⟨0, wall.toShape⟩⟩) := by
  have l3 := lostRay_lost.2.2
  have h2 : ∀ t, farBall.toShape.intersect ⟨xRay.origin, xRay.direction, t⟩ = some none := by
    intro t
    have := far_missed ⟨xRay.origin, xRay.direction, t⟩ rfl rfl
    unfold Sphere.toShape Shape.withDefaults
    dsimp only
    rw [this]
  unfold Simple.intersect farShapes
  dsimp only
  rw [if_neg (by rw [l3]; decide)]
  simp only [closestHit, Obj.intersect, h1, h2, Option.map_some, Option.elim, Option.bind_some, Option.isSome_some, Option.isSome_none, if_true,
    Bool.false_eq_true, if_false]

theorem farShapes_panic [Libm F32] [Libm F64] : farShapes.intersectP lostRay = none := by
  have h : wall.toShape.intersectP lostRay = none := by
    unfold Triangle.toShape Shape.withDefaults Triangle.intersectP
    dsimp only
    rw [lostRay_lost.1]; rfl
  unfold Simple.intersectP farShapes
  dsimp only
  rw [if_neg (by rw [lostRay_lost.2.1]; decide)]
  simp only [anyHit, h, Option.bind_none]

theorem white_value [Libm F32] (hpi : (Libm.pi : F32) = f32 (13176795 / 2 ^ 22)) {i : Interaction F32} (h : AtWall i) :
    (((white i).f i.wo ⟨f32 (-3 / 5), f32 0, f32 (4 / 5)⟩).smul (Scalar.abs ((⟨f32 (-3 / 5), f32 0, f32 (4 / 5)⟩ : V3 F32).dot i.sn))).isBlack = false := by
  have hc : clampedTex (fun _ => (⟨lit 1, lit 1, lit 1⟩ : Spectrum F32)) i = ⟨lit 1, lit 1, lit 1⟩ := by
    unfold clampedTex; dsimp only
    decide +kernel
  have hb : (⟨lit 1, lit 1, lit 1⟩ : Spectrum F32).isBlack = false := by decide +kernel
  have hm : white i = (BSDF.new i).add (lambertianReflection ⟨lit 1, lit 1, lit 1⟩) := by
    unfold white lambertianMaterial
    simp only [hc, hb, Bool.false_eq_true, if_false]
  rw [hm, h.wo, h.sn]
  unfold BSDF.f BSDF.worldToLocal BSDF.add BSDF.new
  dsimp only
  rw [h.n, h.sn]
  simp only [List.nil_append, BSDF.sumF, List.foldl_cons, List.foldl_nil]
  have e1 : ((xRay.direction.neg).dot ⟨f32 1, f32 0, f32 0⟩ ==. lit 0) = false := by decide +kernel
  have e2 : ((⟨f32 (-3 / 5), f32 0, f32 (4 / 5)⟩ : V3 F32).dot ⟨f32 1, f32 0, f32 0⟩ *. (xRay.direction.neg).dot ⟨f32 1, f32 0, f32 0⟩ >. lit 0) = true := by
    decide +kernel
  have e3 : (lambertianReflection (⟨lit 1, lit 1, lit 1⟩ : Spectrum F32)).hasFlag REFLECTION = true := by
    unfold BxDF.hasFlag lambertianReflection; dsimp only; decide
  simp only [e1, e2, e3, Bool.false_eq_true, if_false, Bool.true_and, Bool.true_or, if_true]
  unfold lambertianReflection Lambertian.f
  dsimp only
  rw [hpi]
  decide +kernel

/-- The light of the scene. -/
def farLight [Libm F32] : DistantLight F32 := (DistantLight.new ⟨lit 1, lit 1, lit 1⟩ ⟨lit (-3), lit 0, lit 4⟩).preProcess farBox

theorem farLight_ray [Libm F32] (hr : RootsExact) {i : Interaction F32} (h : AtWall i) (u : V2 F32) : (farLight.sampleLi i u).vis.ray = lostRay := by
  have hw : farLight.wLight = ⟨f32 (-3 / 5), f32 0, f32 (4 / 5)⟩ := far_light hr ⟨lit 1, lit 1, lit 1⟩
  have hrad : farLight.worldRadius = Fl.inf false := far_radius hr
  unfold DistantLight.sampleLi VisibilityTester.ray
  dsimp only
  refine far_shadow _ _ h.p h.n h.pErr ?_ rfl rfl
  dsimp only
  rw [hw, hrad, h.p]
  exact far_end

def farWorld [Libm F32] [Libm F64] : Scene F32 := ⟨[⟨2, farLight.toLight⟩], farShapes.toContainer⟩

theorem farWorld_built [Libm F32] [Libm F64] :
    (built farScene).construct (fun ss => (Simple.new ss).map Simple.toContainer) = some farWorld := by
  unfold farWorld farShapes farLight
  simp only [farScene, built, Builder.construct, Builder.sceneBBox, Builder.new, Builder.addShape, Builder.addLight, List.nil_append,
    List.foldl_cons, List.foldl_nil, List.cons_append, List.isEmpty_cons, Bool.false_eq_true, if_false, Simple.new, bboxOfShapes, Option.map_some,
    Option.bind_eq_bind, Option.bind_some, List.map_nil, List.map_cons, Option.pure_def, far_box]
end Demo

/-- C76: the exception is reached in a scene of finite size.  A matt triangle near the camera, a unit sphere 2^70 away and a distant light of
direction (-3, 0, 4): every camera sample whose ray goes along the x axis panics, whatever the samples. -/
theorem c76_overflow_refuted [Libm F32] [Libm F64] (hr : RootsExact) (hpi : (Libm.pi : F32) = f32 (13176795 / 2 ^ 22)) :
    (∀ c ∈ Demo.farScene, LibraryCall c) ∧
    ∃ scene, (built Demo.farScene).construct (fun ss => (Simple.new ss).map Simple.toContainer) = some scene ∧
      ∀ (camera : PerspectiveCamera F32) (pFilm : V2 F32), camera.generateRay pFilm = Demo.xRay →
        ∀ {σ : Type} (ops : SamplerOps F32 σ) (s : σ), (cameraRadiance scene camera pFilm).run ops s = none := by
  constructor
  · intro c hc
    simp only [Demo.farScene, List.mem_cons, List.not_mem_nil, or_false] at hc
    rcases hc with rfl | rfl | rfl
    · exact .triangle _ _ (.lambertian _)
    · exact .sphere _ _ (.lambertian _)
    · exact .distant _ _ _
  refine ⟨Demo.farWorld, Demo.farWorld_built, ?_⟩
  intro camera pFilm hray σ ops s
  obtain ⟨i, hi, hw⟩ := Demo.wall_seen hr
  have hhit : Demo.farWorld.intersect Demo.xRay = some (some ⟨i, ⟨0, Demo.wall.toShape⟩⟩) := Demo.farShapes_hit hi
  have hocc : Demo.farWorld.intersectP Demo.lostRay = none := Demo.farShapes_panic
  have hlights : Demo.farWorld.lights = [⟨2, Demo.farLight.toLight⟩] := rfl
  have hray' := Demo.farLight_ray hr hw
  have hf : ∀ u, (((Demo.white i).f i.wo (Demo.farLight.sampleLi i u).wi).smul (Scalar.abs ((Demo.farLight.sampleLi i u).wi.dot i.sn))).isBlack = false := by
    intro u
    rw [show (Demo.farLight.sampleLi i u).wi = ⟨f32 (-3 / 5), f32 0, f32 (4 / 5)⟩ from Demo.far_light hr ⟨lit 1, lit 1, lit 1⟩]
    exact Demo.white_value hpi hw
  have hli : ∀ u, ((Demo.farLight.sampleLi i u).pdf >. lit 0 && !(Demo.farLight.sampleLi i u).li.isBlack) = true := by
    intro u
    unfold DistantLight.sampleLi
    dsimp only
    have : Demo.farLight.l = ⟨lit 1, lit 1, lit 1⟩ := rfl
    rw [this]
    decide +kernel
  have hmat : Demo.wall.toShape.material i = Demo.white i := rfl
  generalize Demo.farWorld = w at *
  obtain ⟨lights, shapes⟩ := w
  dsimp only at hlights
  subst hlights
  generalize Demo.farLight = light at *
  generalize Demo.wall.toShape = shape at *
  simp only [DistantLight.toLight] at hocc hhit ⊢
  unfold cameraRadiance
  rw [hray]
  unfold li
  unfold liLoop
  have hmin : ∀ n : ℕ, min n (1 - 1) = 0 := by intro n; simp
  simp only [Bind.bind, Prog.bind, Prog.run, hhit]
  rw [dif_neg (by decide)]
  simp only [hmat, uniformSampleOneLight, List.length_singleton, one_ne_zero, if_false, Bind.bind, Prog.bind, Prog.run, Draw.run, hmin, List.getElem?_cons_zero,
    Prog.ofOption, estimateDirect, directFromLight, hli, if_true, hf, Bool.not_false, hray', hocc]
  cases ops.get1d s with
  | none => rfl
  | some x =>
    dsimp only
    cases ops.get2d x.2 with
    | none => rfl
    | some y =>
      dsimp only
      cases ops.get2d y.2 with
      | none => rfl
      | some z => rfl

namespace Demo
/-- A camera at the origin that looks along the x axis through the middle of its only pixel. -/
def xCamera : PerspectiveCamera F32 :=
  .new (Transform.translate (f32 0) (f32 0) (f32 0)) (Transform.translate (f32 0) (f32 0) (f32 0)) ⟨f32 0, f32 (-1)⟩ ⟨f32 2, f32 1⟩ ⟨1, 1⟩
end Demo

/-- Such a camera exists. -/
example [Libm F32] (hr : RootsExact) : Demo.xCamera.generateRay ⟨f32 (1 / 2), f32 (1 / 2)⟩ = Demo.xRay := by
  have hp : Demo.xCamera.rasterToCamera.apply pointTransform ⟨f32 (1 / 2), f32 (1 / 2), lit 0⟩ = ⟨f32 1, f32 0, f32 0⟩ := by
    exact v3_eq (by decide +kernel) (by decide +kernel) (by decide +kernel)
  have hl : (⟨f32 1, f32 0, f32 0⟩ : V3 F32).length = f32 1 := by
    unfold V3.length
    rw [show (f32 1 *. f32 1 +. f32 0 *. f32 0 +. f32 0 *. f32 0 : F32) = lit (((1 : ℕ) : ℚ) ^ 2) by decide +kernel, hr.squares 1 (by norm_num)]
    decide +kernel
  have hn : (⟨f32 1, f32 0, f32 0⟩ : V3 F32).normalize = ⟨f32 1, f32 0, f32 0⟩ := by
    unfold V3.normalize
    rw [hl]
    exact v3_eq (by decide +kernel) (by decide +kernel) (by decide +kernel)
  unfold PerspectiveCamera.generateRay
  simp only [hp, hn]
  have ho : Demo.xCamera.cameraToWorld.apply rayTransform { Ray.default with direction := (⟨f32 1, f32 0, f32 0⟩ : V3 F32) } =
      ⟨pointTransform V3.zero Demo.xCamera.cameraToWorld.m Demo.xCamera.cameraToWorld.mInv,
       vectorTransform ⟨f32 1, f32 0, f32 0⟩ Demo.xCamera.cameraToWorld.m Demo.xCamera.cameraToWorld.mInv, Fl.inf false⟩ := rfl
  rw [ho]
  unfold Demo.xRay
  congr 1
  · exact v3_eq (by decide +kernel) (by decide +kernel) (by decide +kernel)
  · exact v3_eq (by decide +kernel) (by decide +kernel) (by decide +kernel)
/-- A square root as required exists. -/
example : ∃ L : Libm F32, @RootsExact L ∧ L.pi = f32 (13176795 / 2 ^ 22) := by
  let L : Libm F32 := ⟨fun x => ((List.range 17).find? fun n => decide ((lit ((n : ℚ) ^ 2) : F32) = x)).elim x fun n => lit (n : ℚ),
    id, id, id, id, fun _ y => y, id, id, id, fun _ y => y, f32 (13176795 / 2 ^ 22)⟩
  refine ⟨L, @RootsExact.mk L ?_ ?_, rfl⟩
  · intro n hn
    interval_cases n <;> decide +kernel
  · decide +kernel
end PT
