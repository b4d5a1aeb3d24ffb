import Verif.Props.ConvexMatt
import Verif.Props.Expected

/-!
# C118 for whole pixels

A pixel all over whose area the camera sees one face of a convex body has the colour of Lambert's law: exactly with one lamp, and on average with several.
-/

namespace PT
open scoped ENNReal
namespace Spec

/-- Through every film position that counts for the pixel `(x, y)` the camera, in front of the plane of the face `f`, sees that face, and no shadow ray there has length zero. -/
def SeesOnly [HasInf ℝ] [HasNext ℝ] (scene : Scene ℝ) (camera : PerspectiveCamera ℝ) (reach : ℝ) (box : BBox3 ℝ) (lamps : List FarLamp) (f : Nat × Triangle ℝ) (x y : Int) : Prop :=
  ∀ p : V2 ℝ, Within reach p x y →
    0 < inner (planeNormal f.2) (diff (camera.generateRay p).origin f.2.v0) ∧
    ∃ h, scene.intersect (camera.generateRay p) = some (some h) ∧ h.obj = triangleObj f ∧ ∀ d ∈ lamps, (lampRay h.i d.toward box).direction ≠ V3.zero
end Spec
open Spec

section
variable [HasInf ℝ] [HasNext ℝ] {scene : Scene ℝ}

/-- C118, the pixel, one lamp and the Halton sampler: a pixel all over whose area the camera sees one face, of one colour, of a convex body has exactly the colour of Lambert's
law, whatever the other faces are made of, whichever the container, and whatever the number of samples and threads. -/
theorem c118_pixel (hN : OutwardNext ‹HasNext ℝ›) (hinf : (0 : ℝ) ≤ HasInf.infinity) (tris : List (Nat × Triangle ℝ)) (hconvex : ConvexBody tris)
    (hlib : ∀ f ∈ tris, LibraryMaterial f.2.material ∧ LibraryTriangle f.2) (d : FarLamp) (hn : tris.length < 2 ^ 64) (hw : d.toward ≠ V3.zero) (hcol : NonNeg d.colour)
    {mk : List (Obj ℝ) → Option (Container ℝ)} (hmk : LibraryContainer mk)
    (hsc : (built (tris.map triangleCall ++ [d.call])).construct mk = some scene)
    {box : BBox3 ℝ} (hbox : bboxOfShapes (tris.map triangleObj) = some box)
    (camera : PerspectiveCamera ℝ) (hcam : ∀ p, UnitVec (camera.generateRay p).direction)
    (res : V2 Int) (filt : Filter ℝ) (hR : FilmRange res filt.radius) (hfilt : ∀ p, 0 ≤ filt.evaluate p) (spp : Nat) (hspp : spp < 2 ^ 32)
    (n : Nat) (hn1 : 1 ≤ n) (file : Option (List UInt8)) (m : Nat) (st : RState ℝ HaltonSampler)
    (hr : RReach (fun s b => renderTile HaltonSampler.ops (cameraRadiance scene camera) (Film.new res filt) s b)
      (HaltonSampler.new spp (Film.new res filt).sampleBBox) (RState.init (Film.new res filt) n file) m st) (hdone : st.main = .done)
    (f : Nat × Triangle ℝ) (hf : f ∈ tris) (hv : f.2.vertexNormals = none) (k : Spectrum ℝ)
    (hmat : f.2.material = lambertianMaterial (constantTexture k)) (hk : ∀ c : Chan, 0 ≤ c.of k ∧ c.of k ≤ HasInf.infinity)
    (x y : Int) (hi : Spec.InImage res x y) (hsee : SeesOnly scene camera filt.radius box [d] f x y) :
    ∀ c : Chan, c.of (st.sh.film.px x y).color = c.of (lambertFront f.2 k d) * (st.sh.film.px x y).weight := by
  intro c
  obtain ⟨h1, h2⟩ := (c103_between res filt hR hfilt (cameraRadiance scene camera) spp hspp n hn1 file m st hr hdone x y hi).2 c
      (c.of (lambertFront f.2 k d)) (c.of (lambertFront f.2 k d)) (by
    rintro q ⟨p, i, -, -, hc, -, hwi⟩
    obtain ⟨s1, s2, h3⟩ := cameraSample_light hc
    obtain ⟨hfr, h, hh, hobj, hl⟩ := hsee _ hwi
    obtain ⟨key, -⟩ := c118_convex hN hinf tris hconvex hlib [d] (by simp) (by simp only [List.length_cons, List.length_nil]; omega)
      (by simpa using hw) (by simpa using hcol) hmk hsc hbox camera q.1 (hcam _) h hh f hf hobj hv hfr _ hmat hk hl
    obtain ⟨d', hd', e⟩ := key HaltonSampler.ops halton_delivers _ _ _ h3
    obtain rfl : d' = d := by simpa using hd'
    rw [e c]
    simp only [List.length_cons, List.length_nil, constantTexture]
    norm_num)
  exact le_antisymm h2 h1

theorem overPixels_mul (ps : List (V2 Int)) (F : V2 ℝ → ℝ≥0∞) (a : ℝ≥0∞) (ha : a ≠ ⊤) : (overPixels ps fun p => F p * a) = overPixels ps F * a := by
  unfold overPixels
  induction ps with
  | nil => simp
  | cons p ps ih =>
    simp only [List.map_cons, List.sum_cons]
    rw [ih, add_mul]
    congr 1
    have := mean2_affine 0 a ha fun u => F ⟨p.x + u.x, p.y + u.y⟩
    simp only [zero_add] at this
    rw [mul_comm _ a, ← this]
    congr 1
    funext u
    rw [mul_comm]

/-- C118, the pixel, several lamps, the Gaussian filter, the random sampler and one thread: a pixel all over whose area the camera sees one face, of one colour, of a convex
body has on average the colour of Lambert's law, summed over the lamps, times its average weight. -/
theorem c118_mean_pixel (hN : OutwardNext ‹HasNext ℝ›) (hinf : (0 : ℝ) ≤ HasInf.infinity) (tris : List (Nat × Triangle ℝ)) (hconvex : ConvexBody tris)
    (hlib : ∀ f ∈ tris, LibraryMaterial f.2.material ∧ LibraryTriangle f.2)
    (lamps : List FarLamp) (hne : lamps ≠ []) (hn : tris.length + lamps.length ≤ 2 ^ 64)
    (hw : ∀ d ∈ lamps, d.toward ≠ V3.zero) (hcol : ∀ d ∈ lamps, NonNeg d.colour)
    {mk : List (Obj ℝ) → Option (Container ℝ)} (hmk : LibraryContainer mk)
    (hsc : (built (tris.map triangleCall ++ lamps.map FarLamp.call)).construct mk = some scene)
    {box : BBox3 ℝ} (hbox : bboxOfShapes (tris.map triangleObj) = some box)
    (camera : PerspectiveCamera ℝ) (hcam : ∀ p, UnitVec (camera.generateRay p).direction)
    (res : V2 Int) (radius alpha : ℝ) (hR : FilmRange res radius) (ha : 0 ≤ alpha) (spp : Nat) (hspp : spp < 2 ^ 32) :
    let filt := (GaussianFilter.new radius alpha).toFilter
    let film := Film.new res filt
    ∃ render : Draw ℝ (List (V2 ℝ × Spectrum ℝ)),
      (∀ {ρ : Type} (next : ρ → ℝ × ρ) (_ : ∀ g, Canonical (next g).1) (rng : ρ) (file : Option (List UInt8)) (k : Nat) (st : RState ℝ (RandomSampler ρ)),
        RReach (fun s b => renderTile (RandomSampler.ops next) (cameraRadiance scene camera) film s b) (RandomSampler.new spp rng) (RState.init film 1 file) k st →
        st.main = .done →
        ∃ l g, feed next render rng = some (l, g) ∧ ∀ x y, Spec.InImage res x y → st.sh.film.px x y = Spec.pixel filt l x y) ∧
      ∀ f ∈ tris, f.2.vertexNormals = none → ∀ k : Spectrum ℝ, f.2.material = lambertianMaterial (constantTexture k) →
        (∀ c : Chan, 0 ≤ c.of k ∧ c.of k ≤ HasInf.infinity) →
        ∀ x y, SeesOnly scene camera filt.radius box lamps f x y → ∀ c : Chan,
          mean (fun l => ENNReal.ofReal (c.of (Spec.pixel filt l x y).color)) render =
            mean (fun l => ENNReal.ofReal (Spec.pixel filt l x y).weight) render * ENNReal.ofReal (lamps.map fun d => c.of (lambertFront f.2 k d)).sum := by
  intro filt film
  have hcalls : ∀ x ∈ tris.map triangleCall ++ lamps.map FarLamp.call, TriangleCall x := by
    intro x hx
    rcases List.mem_append.1 hx with hx | hx
    · obtain ⟨f, hf, rfl⟩ := List.mem_map.1 hx
      exact .triangle _ f.2 (hlib f hf).1 (hlib f hf).2
    · obtain ⟨d, hdl, rfl⟩ := List.mem_map.1 hx
      exact .distant _ _ _ (hcol d hdl) (hw d hdl)
  have hlen : (tris.map triangleCall ++ lamps.map FarLamp.call).length ≤ 2 ^ 64 := by simp only [List.length_append, List.length_map]; omega
  obtain ⟨ps, -, -, render, r1, r2⟩ := c104_triangle_world hinf _ hcalls hmk hsc hlen camera hcam res radius alpha hR ha spp hspp
  refine ⟨render, r1, ?_⟩
  intro f hf hv k hmat hk x y hsee c
  obtain ⟨m1, m2⟩ := r2 x y
  refine (m1 c).trans ?_
  rw [m2, mul_assoc, ← overPixels_mul _ _ _ ENNReal.ofReal_ne_top]
  congr 2
  funext pos
  by_cases hwi : Within filt.radius pos x y
  · obtain ⟨hfr, h, hh, hobj, hl⟩ := hsee _ hwi
    congr 1
    rw [← c78_triangle_world hinf _ hcalls hmk hsc hlen camera pos (hcam pos) c]
    exact (c118_convex hN hinf tris hconvex hlib lamps hne hn hw hcol hmk hsc hbox camera pos (hcam pos) h hh f hf hobj hv hfr _ hmat hk hl).2 c
  · unfold countsFor
    rw [if_neg hwi, ENNReal.ofReal_zero, zero_mul, zero_mul]
end

namespace Demo
/-- The front of the tetrahedron. -/
noncomputable def tetraFront [HasInf ℝ] : Triangle ℝ := ⟨⟨0, 0, 1⟩, ⟨0, 12, 1⟩, ⟨8, 0, 1⟩, none, false, lambertianMaterial (constantTexture ⟨1 / 2, 1 / 4, 0⟩)⟩
end Demo

set_option maxHeartbeats 1000000 in
/-- Through every film position of the area around the pixel (426, 120) the camera sees the front of the tetrahedron. -/
theorem Demo.tetrahedron_seen [HasInf ℝ] [HasNext ℝ] (hinf : (100 : ℝ) ≤ HasInf.infinity) (p : V2 ℝ) (hx0 : 1 / 4 ≤ p.x / 320 - 1) (hx1 : p.x / 320 - 1 ≤ 2 / 5)
    (hy0 : 2 / 5 ≤ 1 - p.y / 240) (hy1 : 1 - p.y / 240 ≤ 3 / 5) :
    0 < inner (planeNormal Demo.tetraFront) (diff (Demo.aheadView.camera.generateRay p).origin Demo.tetraFront.v0) ∧
    ∃ h, (Simple.mk (Demo.tetrahedron.map triangleObj) Demo.tetrahedronBox).intersect (Demo.aheadView.camera.generateRay p) = some (some h) ∧
      h.obj = triangleObj (1, Demo.tetraFront) ∧ ∀ d ∈ Demo.threeLamps, (lampRay h.i d.toward Demo.tetrahedronBox).direction ≠ V3.zero := by
  obtain ⟨h1, h2, h3, c, hc, h4⟩ := ahead_rays p
  generalize hu : p.x / 320 - 1 = u at *
  generalize hv : 1 - p.y / 240 = v at *
  have hc1 : 1 / 2 ≤ c := by
    have : Spec.sq (V3.mk (c * u) (c * v) c) = 1 := h4 ▸ h3
    simp only [Spec.sq] at this
    have h5 : c * c * (u * u + v * v + 1) = 1 := by linarith
    have h6 : u * u + v * v + 1 ≤ 4 := by nlinarith
    nlinarith [mul_pos hc hc]
  have hray : Demo.aheadView.camera.generateRay p = ⟨⟨0, 0, -5⟩, ⟨c * u, c * v, c⟩, HasInf.infinity⟩ := by
    revert h1 h2 h4
    generalize Demo.aheadView.camera.generateRay p = r
    rintro h1 h2 h4
    obtain ⟨o, d, t⟩ := r
    simp only at h1 h2 h4
    rw [h1, h2, h4]
  have ht : 6 / c ≤ 12 := by rw [div_le_iff₀ hc]; linarith
  have ht0 : 0 < 6 / c := by positivity
  have hd : (⟨c * u, c * v, c⟩ : V3 ℝ) ≠ V3.zero := by
    intro e; have := congrArg V3.z e; simp only [V3.zero, r_lit] at this; norm_num at this; linarith
  obtain ⟨i, hi, -, -⟩ := c39_triangle_complete Demo.tetraFront ⟨⟨0, 0, -5⟩, ⟨c * u, c * v, c⟩, HasInf.infinity⟩ (1 - 3 / 4 * u - 1 / 2 * v) (1 / 2 * v) (3 / 4 * u) (6 / c)
    (by refine ⟨?_, ?_, ?_, ?_⟩ <;> linarith)
    (by unfold pointAt mix Demo.tetraFront; ext <;> dsimp only <;> field_simp <;> ring)
    (by
      have : inner (planeNormal Demo.tetraFront) (⟨c * u, c * v, c⟩ : V3 ℝ) = -(96 * c) := by
        unfold Spec.inner planeNormal vcross diff Demo.tetraFront; ring
      rw [this]; exact (neg_neg_of_pos (by positivity)).ne)
    (by
      intro m hm
      have hz := hm .Z
      have hcu : |c * u| < c := by rw [abs_of_nonneg (by positivity)]; nlinarith
      have hcv : |c * v| < c := by rw [abs_of_nonneg (by positivity)]; nlinarith
      cases m
      · simp only [V3.get, abs_of_pos hc] at hz; linarith
      · simp only [V3.get, abs_of_pos hc] at hz; linarith
      · have hsub : ∀ q : ℝ, q / c * c = q := fun q => div_mul_cancel₀ q hc.ne'
        have hs2 : ∀ q : ℝ, 6 / c * (c * q) = 6 * q := fun q => by field_simp
        have r0 : rayCoord ⟨⟨0, 0, -5⟩, ⟨c * u, c * v, c⟩, HasInf.infinity⟩ .Z Demo.tetraFront.v0 = ⟨-(6 * v), -(6 * u), 6 / c⟩ := by
          unfold rayCoord diff Demo.tetraFront
          simp only [V3.get, Axis.prev, Axis.next]
          norm_num [hs2]
        have r1 : rayCoord ⟨⟨0, 0, -5⟩, ⟨c * u, c * v, c⟩, HasInf.infinity⟩ .Z Demo.tetraFront.v1 = ⟨12 - 6 * v, -(6 * u), 6 / c⟩ := by
          unfold rayCoord diff Demo.tetraFront
          simp only [V3.get, Axis.prev, Axis.next]
          norm_num [hs2]
        have r2 : rayCoord ⟨⟨0, 0, -5⟩, ⟨c * u, c * v, c⟩, HasInf.infinity⟩ .Z Demo.tetraFront.v2 = ⟨-(6 * v), 8 - 6 * u, 6 / c⟩ := by
          unfold rayCoord diff Demo.tetraFront
          simp only [V3.get, Axis.prev, Axis.next]
          norm_num [hs2]
        have hmax : ∀ x y z k : ℝ, |x| ≤ k → |y| ≤ k → |z| ≤ k → maxAbs x y z ≤ k := fun x y z k a b d => max_le (max_le a b) d
        have hmax0 : ∀ x y z : ℝ, 0 ≤ maxAbs x y z := fun x y z => (abs_nonneg z).trans (le_max_right _ _)
        rw [r0, r1, r2]
        unfold errorThreshold
        simp only
        have e0 : (12 - 6 * v) * (8 - 6 * u) - -(6 * u) * -(6 * v) = 96 - 72 * u - 48 * v := by ring
        have e1 : -(6 * v) * -(6 * u) - (8 - 6 * u) * -(6 * v) = 48 * v := by ring
        have e2 : -(6 * v) * -(6 * u) - -(6 * u) * (12 - 6 * v) = 72 * u := by ring
        have e3 : |96 - 72 * u - 48 * v + 48 * v + 72 * u| = 96 := by
          rw [show 96 - 72 * u - 48 * v + 48 * v + 72 * u = 96 by ring]; norm_num
        rw [e0, e1, e2, e3]
        have b1 := hmax (96 - 72 * u - 48 * v) (48 * v) (72 * u) 96 (by rw [abs_le]; constructor <;> linarith) (by rw [abs_le]; constructor <;> linarith)
          (by rw [abs_le]; constructor <;> linarith)
        have b2 := hmax (-(6 * v)) (12 - 6 * v) (-(6 * v)) 12 (by rw [abs_le]; constructor <;> linarith) (by rw [abs_le]; constructor <;> linarith)
          (by rw [abs_le]; constructor <;> linarith)
        have b3 := hmax (-(6 * u)) (-(6 * u)) (8 - 6 * u) 8 (by rw [abs_le]; constructor <;> linarith) (by rw [abs_le]; constructor <;> linarith)
          (by rw [abs_le]; constructor <;> linarith)
        have b4 : maxAbs (6 / c) (6 / c) (6 / c) = 6 / c := by unfold maxAbs; rw [max_self, max_self, abs_of_pos ht0]
        have c1 := hmax0 (96 - 72 * u - 48 * v) (48 * v) (72 * u)
        have c2 := hmax0 (-(6 * v)) (12 - 6 * v) (-(6 * v))
        have c3 := hmax0 (-(6 * u)) (-(6 * u)) (8 - 6 * u)
        rw [b4]
        generalize maxAbs (96 - 72 * u - 48 * v) (48 * v) (72 * u) = E at b1 c1 ⊢
        generalize maxAbs (-(6 * v)) (12 - 6 * v) (-(6 * v)) = X at b2 c2 ⊢
        generalize maxAbs (-(6 * u)) (-(6 * u)) (8 - 6 * u) = Y at b3 c3 ⊢
        have hXY : X * Y ≤ 96 := by nlinarith
        have hXY0 : 0 ≤ X * Y := mul_nonneg c2 c3
        unfold errFactor
        norm_num
        rw [show ∀ a b d : ℝ, (a * d) / b = a / b * d from fun a b d => by ring]
        nlinarith) (by dsimp only; linarith)
  have hpn : planeNormal Demo.tetraFront = ⟨0, 0, -96⟩ := by norm_num [planeNormal, vcross, diff, Demo.tetraFront]
  have hmiss : ∀ f ∈ Demo.tetrahedron.tail, f.2.intersect ⟨⟨0, 0, -5⟩, ⟨c * u, c * v, c⟩, 6 / c⟩ = some none := by
    intro f hf
    obtain ⟨a0, a1⟩ := c38_triangle_hit_real f.2 ⟨⟨0, 0, -5⟩, ⟨c * u, c * v, c⟩, 6 / c⟩ hd
    rcases hr : f.2.intersect ⟨⟨0, 0, -5⟩, ⟨c * u, c * v, c⟩, 6 / c⟩ with _ | _ | ⟨j, t⟩
    · exact absurd hr a0
    · rfl
    · exfalso
      obtain ⟨t0, t1, p1, b0, b1, b2, ⟨w0, w1, w2, w3⟩, p2, -⟩ := a1 j t hr
      rw [p1] at p2
      have ex := congrArg V3.x p2
      have ey := congrArg V3.y p2
      have ez := congrArg V3.z p2
      have t2 : t * c ≤ 6 := by
        dsimp only at t1
        rwa [le_div_iff₀ hc] at t1
      simp only [pointAt] at ex ey ez
      have ex' : t * c * u = (mix b0 b1 b2 f.2.v0 f.2.v1 f.2.v2).x := by rw [← ex]; ring
      have ey' : t * c * v = (mix b0 b1 b2 f.2.v0 f.2.v1 f.2.v2).y := by rw [← ey]; ring
      clear ex ey p1 p2 hr a0 a1
      generalize t * c = s at *
      simp only [Demo.tetrahedron, List.tail_cons, List.mem_cons, List.not_mem_nil, or_false] at hf
      have hs0 : s = 6 := by
        rcases hf with rfl | rfl | rfl <;> simp only [mix] at ez <;> nlinarith
      subst hs0
      rcases hf with rfl | rfl | rfl <;> simp only [mix] at ex' ey' ez <;> nlinarith
  have hh : (Simple.mk (Demo.tetrahedron.map triangleObj) Demo.tetrahedronBox).intersect (Demo.aheadView.camera.generateRay p) = some (some ⟨i, triangleObj (1, Demo.tetraFront)⟩) := by
    rw [hray]
    unfold Simple.intersect
    dsimp only
    have hb : (BBox3.intersect Demo.tetrahedronBox (⟨⟨0, 0, -5⟩, ⟨c * u, c * v, c⟩, HasInf.infinity⟩ : Ray ℝ)) ≠ none := by
      intro hb
      have hcu : c * u ≠ 0 := by positivity
      have hcv : c * v ≠ 0 := by positivity
      have := (c35_box_test _ _ (by intro a; cases a; exacts [hcu, hcv, hc.ne'])).2 hb
      have hmem : (6 / c : ℝ) ∈ (∅ : Set ℝ) := by
        rw [← this]
        have hg : 0 ≤ gamma3 := by unfold gamma3; norm_num
        refine ⟨ht0.le, by dsimp only; linarith, fun a => ?_⟩
        have hu8 : 6 / c ≤ 8 / (c * u) := by rw [div_le_div_iff₀ hc (by positivity)]; nlinarith
        have hv12 : 6 / c ≤ 12 / (c * v) := by rw [div_le_div_iff₀ hc (by positivity)]; nlinarith
        have hx0 : 0 ≤ 8 / (c * u) := by positivity
        have hy0 : 0 ≤ 12 / (c * v) := by positivity
        cases a
        · simp only [planeLo, planeHi, V3.get, Demo.tetrahedronBox, sub_zero, zero_div, min_eq_left hx0, max_eq_right hx0]
          exact ⟨ht0.le, by nlinarith⟩
        · simp only [planeLo, planeHi, V3.get, Demo.tetrahedronBox, sub_zero, zero_div, min_eq_left hy0, max_eq_right hy0]
          exact ⟨ht0.le, by nlinarith⟩
        · simp only [planeLo, planeHi, V3.get, Demo.tetrahedronBox]
          rw [show (1 - -5 : ℝ) = 6 by norm_num, show (9 - -5 : ℝ) = 14 by norm_num]
          have h614 : 6 / c ≤ 14 / c := by gcongr; norm_num
          rw [min_eq_left h614, max_eq_right h614]
          exact ⟨le_refl _, by nlinarith⟩
      exact hmem
    rw [if_neg (by simpa using hb)]
    have key : ∀ (l : List (Nat × Triangle ℝ)) (r : Ray ℝ) (h0 : Option (Hit ℝ)), (∀ f ∈ l, f.2.intersect r = some none) →
        closestHit (l.map triangleObj) r h0 = some (r, h0) := by
      intro l
      induction l with
      | nil => intro r h0 _; rfl
      | cons f l ih =>
        intro r h0 hl
        have hf : (triangleObj f).shape.intersect r = some none := hl f List.mem_cons_self
        simp only [List.map_cons, closestHit, Obj.intersect, hf]
        exact ih r h0 fun g hg => hl g (List.mem_cons_of_mem _ hg)
    have hi' : (triangleObj (1, Demo.tetraFront)).shape.intersect ⟨⟨0, 0, -5⟩, ⟨c * u, c * v, c⟩, HasInf.infinity⟩ = some (some (i, 6 / c)) := hi
    have hsplit : Demo.tetrahedron = (1, Demo.tetraFront) :: Demo.tetrahedron.tail := rfl
    rw [hsplit, List.map_cons]
    simp only [closestHit, Obj.intersect, hi']
    exact congrArg (Option.map Prod.snd) (key _ _ _ hmiss)
  have hn : i.n = ⟨0, 0, -1⟩ := by
    have hs : Spec.sq (planeNormal Demo.tetraFront) = 96 ^ 2 := by rw [hpn]; norm_num [Spec.sq]
    rw [((c42_triangle_sample Demo.tetraFront (by rw [hpn]; intro e; have := congrArg V3.z e; norm_num [V3.zero, r_lit] at this)).2.2 rfl _ _ _ hi).1,
      orientedNormal, hs, Real.sqrt_sq (by norm_num), hpn, Demo.tetraFront]
    ext <;> norm_num [scale]
  have hlamp : ∀ d ∈ Demo.threeLamps, (lampRay i d.toward Demo.tetrahedronBox).direction ≠ V3.zero := by
    intro d hdl h0
    have hr : √(Spec.sq d.toward) = 5 ∧ 0 < d.toward.x := by
      simp only [Demo.threeLamps, List.mem_cons, List.not_mem_nil, or_false] at hdl
      rcases hdl with rfl | rfl | rfl <;> refine ⟨?_, by norm_num⟩ <;> rw [show (5 : ℝ) = √(5 ^ 2) by rw [Real.sqrt_sq (by norm_num)]] <;> congr 1 <;> norm_num [Spec.sq]
    have hx := congrArg V3.x h0
    unfold lampRay Interaction.spawnRayTo Interaction.offsetRayOrigin Interaction.nudge Interaction.default at hx
    dsimp only at hx
    rw [hn, hr.1] at hx
    simp only [V3.sub, V3.add, V3.smul, V3.abs, V3.dot, V3.zero, along] at hx
    real_ops at hx
    norm_num at hx
    have hrad : 0 < radius Demo.tetrahedronBox := by
      have : 0 < Real.sqrt (Spec.sq (diff Demo.tetrahedronBox.max Demo.tetrahedronBox.min)) := Real.sqrt_pos.2 (by norm_num [Spec.sq, diff, Demo.tetrahedronBox])
      unfold radius; positivity
    have := hr.2
    have hp : 0 < 2 * radius Demo.tetrahedronBox / 5 * d.toward.x := by positivity
    split_ifs at hx <;> norm_num at hx <;> first | linarith | (rcases hx with hx | hx <;> linarith)
  refine ⟨?_, _, hh, rfl, hlamp⟩
  rw [hpn, h1, Demo.tetraFront]
  norm_num [Spec.inner, diff]

theorem Demo.tetrahedron_library [HasInf ℝ] : ∀ f ∈ Demo.tetrahedron, LibraryMaterial f.2.material ∧ LibraryTriangle f.2 := by
  intro f hf
  simp only [Demo.tetrahedron, List.mem_cons, List.not_mem_nil, or_false] at hf
  rcases hf with rfl | rfl | rfl | rfl
  · exact ⟨.lambertian _, fun i => .lambertian _, fun n0 n1 n2 hn => by cases hn⟩
  · exact ⟨.lambertian _, fun i => .lambertian _, fun n0 n1 n2 hn => by cases hn⟩
  · exact ⟨.mirror _, fun i => .mirror _, fun n0 n1 n2 hn => by cases hn⟩
  · exact ⟨.plastic _ _ _, fun i => .plastic (fun _ => ⟨1, 0, 0⟩) (fun _ => ⟨0, 1, 0⟩) (fun _ => 1 / 10) (by norm_num), fun n0 n1 n2 hn => by cases hn⟩

/-- C118, the assumptions for the pixel: with a Gaussian filter of radius 2, the pixel (426, 120) of a picture of 640 × 480 pixels of the tetrahedron in the light of one lamp. -/
example [HasInf ℝ] [HasNext ℝ] (hN : OutwardNext ‹HasNext ℝ›) (hinf : (100 : ℝ) ≤ HasInf.infinity) (scene : Scene ℝ)
    (hsc : (built (Demo.tetrahedron.map triangleCall ++ [FarLamp.call ⟨7, ⟨3, 2, 1⟩, ⟨3, 0, -4⟩⟩])).construct (fun ss => (Simple.new ss).map Simple.toContainer) = some scene)
    (m : Nat) (st : RState ℝ HaltonSampler)
    (hr : RReach (fun s b => renderTile HaltonSampler.ops (cameraRadiance scene Demo.aheadView.camera)
      (Film.new ⟨640, 480⟩ (GaussianFilter.new 2 1).toFilter) s b)
      (HaltonSampler.new 16 (Film.new ⟨640, 480⟩ (GaussianFilter.new (2 : ℝ) 1).toFilter).sampleBBox)
      (RState.init (Film.new ⟨640, 480⟩ (GaussianFilter.new 2 1).toFilter) 4 none) m st) (hdone : st.main = .done) :
    (st.sh.film.px 426 120).color.r = 6 / 5 / Real.pi * (st.sh.film.px 426 120).weight := by
  obtain ⟨f1, -⟩ := c14_gaussian 2 1 (by norm_num) (by norm_num)
  obtain ⟨box, hb, -, hshapes⟩ := facets_scene Demo.tetrahedron [⟨7, ⟨3, 2, 1⟩, ⟨3, 0, -4⟩⟩] hsc (by simp [Demo.tetrahedron])
  obtain rfl : Demo.tetrahedronBox = box := Option.some.inj (Demo.tetrahedron_box.symm.trans hb)
  have hcont : scene.shapes = (Simple.mk (Demo.tetrahedron.map triangleObj) Demo.tetrahedronBox).toContainer := by
    unfold Simple.new at hshapes
    rw [hb] at hshapes
    exact (Option.some.inj hshapes).symm
  have key := c118_pixel hN (by linarith) Demo.tetrahedron Demo.tetrahedron_convex Demo.tetrahedron_library ⟨7, ⟨3, 2, 1⟩, ⟨3, 0, -4⟩⟩
    (by norm_num [Demo.tetrahedron]) (by intro e; have := congrArg V3.x e; norm_num [V3.zero, r_lit] at this) (by refine ⟨?_, ?_, ?_⟩ <;> norm_num)
    .simple hsc hb Demo.aheadView.camera (fun p => (ahead_rays p).2.2.1) ⟨640, 480⟩ (GaussianFilter.new 2 1).toFilter
    (show FilmRange ⟨640, 480⟩ 2 by constructor <;> norm_num) f1 16 (by norm_num) 4 (by norm_num) none m st hr hdone (1, Demo.tetraFront) List.mem_cons_self rfl
    ⟨1 / 2, 1 / 4, 0⟩ rfl (by intro c; cases c <;> simp only [Chan.of] <;> constructor <;> first | (norm_num; done) | (norm_num; linarith) | linarith)
    426 120 (by norm_num [Spec.InImage])
    (fun p hp => by
      have hp' : |((426 : ℤ) : ℝ) + 1 / 2 - p.x| ≤ 2 ∧ |((120 : ℤ) : ℝ) + 1 / 2 - p.y| ≤ 2 := hp
      push_cast at hp'
      rw [abs_le, abs_le] at hp'
      obtain ⟨⟨p1, p2⟩, p3, p4⟩ := hp'
      obtain ⟨q1, h, q2, q3, q4⟩ := Demo.tetrahedron_seen hinf p (by linarith) (by linarith) (by linarith) (by linarith)
      refine ⟨q1, h, ?_, q3, fun d hd => q4 d ?_⟩
      · unfold Scene.intersect
        rw [hcont]
        exact q2
      · rw [List.mem_singleton.1 hd]; exact List.mem_cons_self) .r
  have hpn : planeNormal Demo.tetraFront = ⟨0, 0, -96⟩ := by norm_num [planeNormal, vcross, diff, Demo.tetraFront]
  have s0 : √(Spec.sq (⟨0, 0, -96⟩ : V3 ℝ)) = 96 := by
    rw [show Spec.sq (⟨0, 0, -96⟩ : V3 ℝ) = 96 ^ 2 by norm_num [Spec.sq]]; exact Real.sqrt_sq (by norm_num)
  have s1 : √(Spec.sq (⟨3, 0, -4⟩ : V3 ℝ)) = 5 := by
    rw [show Spec.sq (⟨3, 0, -4⟩ : V3 ℝ) = 5 ^ 2 by norm_num [Spec.sq]]; exact Real.sqrt_sq (by norm_num)
  refine (show _ = _ from key).trans ?_
  congr 1
  simp only [lambertFront, hpn, s0]
  rw [if_pos (by norm_num [Spec.inner]), lambert_chan, s1]
  norm_num [Spec.inner, scale, Chan.of]
  ring

/-- C118, the assumptions for the mean: the same pixel in the light of the three lamps of C117, with the random sampler. -/
example [HasInf ℝ] [HasNext ℝ] (hN : OutwardNext ‹HasNext ℝ›) (hinf : (100 : ℝ) ≤ HasInf.infinity) (scene : Scene ℝ)
    (hsc : (built (Demo.tetrahedron.map triangleCall ++ Demo.threeLamps.map FarLamp.call)).construct (fun ss => (Simple.new ss).map Simple.toContainer) = some scene) :
    let filt := (GaussianFilter.new (2 : ℝ) 1).toFilter
    ∃ render : Draw ℝ (List (V2 ℝ × Spectrum ℝ)),
      mean (fun l => ENNReal.ofReal (Spec.pixel filt l 426 120).color.r) render =
        mean (fun l => ENNReal.ofReal (Spec.pixel filt l 426 120).weight) render * ENNReal.ofReal (27 / 10 / Real.pi) := by
  intro filt
  obtain ⟨box, hb, -, hshapes⟩ := facets_scene Demo.tetrahedron Demo.threeLamps hsc (by simp [Demo.tetrahedron])
  obtain rfl : Demo.tetrahedronBox = box := Option.some.inj (Demo.tetrahedron_box.symm.trans hb)
  have hcont : scene.shapes = (Simple.mk (Demo.tetrahedron.map triangleObj) Demo.tetrahedronBox).toContainer := by
    unfold Simple.new at hshapes
    rw [hb] at hshapes
    exact (Option.some.inj hshapes).symm
  obtain ⟨render, -, key⟩ := c118_mean_pixel hN (by linarith) Demo.tetrahedron Demo.tetrahedron_convex Demo.tetrahedron_library Demo.threeLamps (by simp [Demo.threeLamps])
    (by norm_num [Demo.threeLamps, Demo.tetrahedron])
    (by
      intro d hdl e
      simp only [Demo.threeLamps, List.mem_cons, List.not_mem_nil, or_false] at hdl
      rcases hdl with rfl | rfl | rfl <;> have := congrArg V3.x e <;> norm_num [V3.zero, r_lit] at this)
    (by
      intro d hdl
      simp only [Demo.threeLamps, List.mem_cons, List.not_mem_nil, or_false] at hdl
      rcases hdl with rfl | rfl | rfl <;> refine ⟨?_, ?_, ?_⟩ <;> norm_num)
    .simple hsc hb Demo.aheadView.camera (fun p => (ahead_rays p).2.2.1) ⟨640, 480⟩ 2 1 (by constructor <;> norm_num) (by norm_num) 16 (by norm_num)
  refine ⟨render, ?_⟩
  have key := key (1, Demo.tetraFront) List.mem_cons_self rfl ⟨1 / 2, 1 / 4, 0⟩ rfl
    (by intro c; cases c <;> simp only [Chan.of] <;> constructor <;> first | (norm_num; done) | (norm_num; linarith) | linarith) 426 120
    (fun p hp => by
      have hp' : |((426 : ℤ) : ℝ) + 1 / 2 - p.x| ≤ 2 ∧ |((120 : ℤ) : ℝ) + 1 / 2 - p.y| ≤ 2 := hp
      push_cast at hp'
      rw [abs_le, abs_le] at hp'
      obtain ⟨⟨p1, p2⟩, p3, p4⟩ := hp'
      obtain ⟨q1, h, q2, q3, q4⟩ := Demo.tetrahedron_seen hinf p (by linarith) (by linarith) (by linarith) (by linarith)
      refine ⟨q1, h, ?_, q3, q4⟩
      unfold Scene.intersect
      rw [hcont]
      exact q2) .r
  have hpn : planeNormal Demo.tetraFront = ⟨0, 0, -96⟩ := by norm_num [planeNormal, vcross, diff, Demo.tetraFront]
  have s0 : √(Spec.sq (⟨0, 0, -96⟩ : V3 ℝ)) = 96 := by
    rw [show Spec.sq (⟨0, 0, -96⟩ : V3 ℝ) = 96 ^ 2 by norm_num [Spec.sq]]; exact Real.sqrt_sq (by norm_num)
  have s1 : √(Spec.sq (⟨3, 0, -4⟩ : V3 ℝ)) = 5 := by
    rw [show Spec.sq (⟨3, 0, -4⟩ : V3 ℝ) = 5 ^ 2 by norm_num [Spec.sq]]; exact Real.sqrt_sq (by norm_num)
  have s2 : √(Spec.sq (⟨4, 0, -3⟩ : V3 ℝ)) = 5 := by
    rw [show Spec.sq (⟨4, 0, -3⟩ : V3 ℝ) = 5 ^ 2 by norm_num [Spec.sq]]; exact Real.sqrt_sq (by norm_num)
  refine key.trans ?_
  congr 2
  simp only [Demo.threeLamps, List.map_cons, List.map_nil, List.sum_cons, List.sum_nil, lambertFront, hpn, s0]
  rw [if_pos (by norm_num [Spec.inner]), if_pos (by norm_num [Spec.inner]), if_neg (by norm_num [Spec.inner]), lambert_chan, lambert_chan, s1, s2]
  norm_num [Spec.inner, scale, Chan.of]
  ring
end PT
