import Verif.Props.Picture
import Verif.Model.Integrator
import Verif.Model.RenderTile

/-!
# C116: what the numbers of a camera do not change

Resolution and screen window only choose which part of one and the same view is sampled, and how finely.
-/

namespace PT
open Spec

namespace Spec
/-- The second view looks from the same place in the same direction with the same side up. -/
structure View.SameStand (v w : View) : Prop where
  pos : w.pos = v.pos
  ahead : ∃ c > 0, w.forward = times c v.forward
  up : ∃ c > 0, ∃ a, w.up = plus (times c v.up) (times a v.forward)

/-- How far the film position `p` is to the right and above straight ahead, per unit of distance ahead. -/
noncomputable def View.slopes (v : View) (p : V2 ℝ) : V2 ℝ :=
  ⟨v.spread * (v.wmin.x + p.x / v.res.x * (v.wmax.x - v.wmin.x)), v.spread * (v.wmax.y - p.y / v.res.y * (v.wmax.y - v.wmin.y))⟩
end Spec

theorem unit_positive {u v : V3 ℝ} {c d : ℝ} (hc : 0 < c) (hd : 0 < d) (hu : Spec.sq u = 1) (hv : Spec.sq v = 1) (e : times c u = times d v) : u = v := by
  have h : c ^ 2 = d ^ 2 := by
    have := congrArg Spec.sq e
    simp only [times, Spec.sq] at this hu hv
    nlinarith
  have hcd : c = d := by
    rcases sq_eq_sq_iff_eq_or_eq_neg.1 h with h | h
    · exact h
    · linarith
  subst hcd
  simp only [times, V3.mk.injEq] at e
  ext
  · exact mul_left_cancel₀ hc.ne' e.1
  · exact mul_left_cancel₀ hc.ne' e.2.1
  · exact mul_left_cancel₀ hc.ne' e.2.2

section
variable [HasInf ℝ]

/-- C116: two cameras at the same place that see one and the same point through two film positions see everything alike through them. -/
theorem c116_one_point (v w : View) (hv : v.Proper) (hw : w.Proper) (hp : w.pos = v.pos) (p q : V2 ℝ) (P : V3 ℝ) (h1 : v.Sees p P) (h2 : w.Sees q P) :
    w.camera.generateRay q = v.camera.generateRay p := by
  have a := c52_camera_ray (pos := v.pos) (look := v.look) (up := v.up) (fov := v.fov) hv.up_ahead hv.near_pos
    hv.near_far (spread_pos hv).ne' hv.width hv.height hv.columns hv.rows p
  have b := c52_camera_ray (pos := w.pos) (look := w.look) (up := w.up) (fov := w.fov) hw.up_ahead hw.near_pos
    hw.near_far (spread_pos hw).ne' hw.width hw.height hw.columns hw.rows q
  obtain ⟨a1, a2, a3, -⟩ := a
  obtain ⟨b1, b2, b3, -⟩ := b
  obtain ⟨s, hs, e1⟩ := h1
  obtain ⟨t, ht, e2⟩ := h2
  change (v.camera.generateRay p).origin = _ at a1
  change (v.camera.generateRay p).tMax = _ at a2
  change Spec.sq (v.camera.generateRay p).direction = _ at a3
  change (w.camera.generateRay q).origin = _ at b1
  change (w.camera.generateRay q).tMax = _ at b2
  change Spec.sq (w.camera.generateRay q).direction = _ at b3
  have hd : (w.camera.generateRay q).direction = (v.camera.generateRay p).direction := by
    apply unit_positive ht hs b3 a3
    rw [a1] at e1
    rw [b1, hp] at e2
    rw [← e2] at e1
    simp only [plus, times, V3.mk.injEq, add_right_inj] at e1 ⊢
    exact ⟨e1.1.symm, e1.2.1.symm, e1.2.2.symm⟩
  have ext3 : ∀ r r' : Ray ℝ, r.origin = r'.origin → r.direction = r'.direction → r.tMax = r'.tMax → r = r' := by
    rintro ⟨o, d, t⟩ ⟨o', d', t'⟩ h1 h2 h3
    simp only at h1 h2 h3
    rw [h1, h2, h3]
  exact ext3 _ _ (b1.trans (hp.trans a1.symm)) hd (b2.trans a2.symm)

/-- C116: of a camera that stands in the same place the same way, the ray depends only on how far to the right and above it points. -/
theorem c116_same_ray (v w : View) (hv : v.Proper) (hw : w.Proper) (h : v.SameStand w) (p q : V2 ℝ) (hs : w.slopes q = v.slopes p) :
    w.camera.generateRay q = v.camera.generateRay p := by
  have a := c52_camera_ray (pos := v.pos) (look := v.look) (up := v.up) (fov := v.fov) hv.up_ahead hv.near_pos
    hv.near_far (spread_pos hv).ne' hv.width hv.height hv.columns hv.rows p
  have b := c52_camera_ray (pos := w.pos) (look := w.look) (up := w.up) (fov := w.fov) hw.up_ahead hw.near_pos
    hw.near_far (spread_pos hw).ne' hw.width hw.height hw.columns hw.rows q
  obtain ⟨a1, a2, a3, L, U, D, ⟨c1, hc1, e1⟩, ⟨c2, hc2, e2⟩, hU, hD1, hL1, c3, hc3, e3⟩ := a
  obtain ⟨b1, b2, b3, L', U', D', ⟨d1, hd1, f1⟩, ⟨d2, hd2, f2⟩, hU', hD1', hL1', d3, hd3, f3⟩ := b
  obtain ⟨hp, ⟨k, hk, ha⟩, ⟨m, hm, x, hx⟩⟩ := h
  have ha' : w.look.sub w.pos = times k (v.look.sub v.pos) := ha
  have hD : D' = D := by
    refine unit_positive (c := c1) (d := d1 * k) hc1 (mul_pos hd1 hk) hD1' hD1 ?_
    rw [f1, e1, ha']
    simp only [times]
    ext <;> simp <;> ring
  have hL : L' = L := by
    refine unit_positive (c := c2) (d := d2 * m * k) hc2 (mul_pos (mul_pos hd2 hm) hk) hL1' hL1 ?_
    rw [f2, e2, ha', hx]
    simp only [times, vprod, plus, View.forward]
    ext <;> simp <;> ring
  have hUU : U' = U := by rw [hU, hU', hD, hL]
  simp only [View.slopes, V2.mk.injEq] at hs
  have hdir : (w.camera.generateRay q).direction = (v.camera.generateRay p).direction := by
    refine unit_positive (c := c3) (d := d3) hc3 hd3 b3 a3 ?_
    have g3 : (v.camera.generateRay p).direction = _ := e3
    have k3 : (w.camera.generateRay q).direction = _ := f3
    rw [g3, k3, hD, hL, hUU]
    have s1 : Real.tan (degrees w.fov / 2) * (screenPoint w.wmin w.wmax w.res q).x = Real.tan (degrees v.fov / 2) * (screenPoint v.wmin v.wmax v.res p).x := hs.1
    have s2 : Real.tan (degrees w.fov / 2) * (screenPoint w.wmin w.wmax w.res q).y = Real.tan (degrees v.fov / 2) * (screenPoint v.wmin v.wmax v.res p).y := hs.2
    rw [s1, s2]
    simp only [times, plus]
    ext <;> simp <;> ring
  have ext3 : ∀ r r' : Ray ℝ, r.origin = r'.origin → r.direction = r'.direction → r.tMax = r'.tMax → r = r' := by
    rintro ⟨o, d, t⟩ ⟨o', d', t'⟩ h1 h2 h3
    simp only at h1 h2 h3
    rw [h1, h2, h3]
  exact ext3 _ _ (b1.trans (hp.trans a1.symm)) hdir (b2.trans a2.symm)

theorem sameStand_refl (v w : View) (h1 : w.pos = v.pos) (h2 : w.look = v.look) (h3 : w.up = v.up) : v.SameStand w := by
  refine ⟨h1, ⟨1, one_pos, ?_⟩, 1, one_pos, 0, ?_⟩
  · rw [View.forward, View.forward, h1, h2]; simp [times]
  · rw [h3]; simp [times, plus]

/-- C116, resolution: with `a` times the columns and `b` times the rows the same thing is seen `a` times as far to the right and `b` times as far down. -/
theorem c116_resolution (v : View) (hv : v.Proper) (a b : Nat) (ha : 0 < a) (hb : 0 < b) (p : V2 ℝ) :
    ({ v with res := ⟨a * v.res.x, b * v.res.y⟩ } : View).camera.generateRay ⟨a * p.x, b * p.y⟩ = v.camera.generateRay p := by
  have hx : (v.res.x : ℝ) ≠ 0 := by exact_mod_cast hv.columns.ne'
  have hy : (v.res.y : ℝ) ≠ 0 := by exact_mod_cast hv.rows.ne'
  have ha' : (a : ℝ) ≠ 0 := by exact_mod_cast ha.ne'
  have hb' : (b : ℝ) ≠ 0 := by exact_mod_cast hb.ne'
  have hw : View.Proper { v with res := ⟨a * v.res.x, b * v.res.y⟩ } :=
    ⟨hv.up_ahead, hv.near_pos, hv.near_far, hv.fov_pos, hv.fov_lt, hv.width, hv.height, Nat.mul_pos ha hv.columns, Nat.mul_pos hb hv.rows⟩
  refine c116_same_ray v { v with res := ⟨a * v.res.x, b * v.res.y⟩ } hv hw (sameStand_refl v _ rfl rfl rfl) p _ ?_
  simp only [View.slopes, View.spread, Nat.cast_mul]
  rw [mul_div_mul_left _ _ ha', mul_div_mul_left _ _ hb']

/-- C116, crop: a picture of the part of the window that belongs to the pixels from `(x0, y0)` to `(x1, y1)` (exclusive) is that part of the picture. -/
theorem c116_crop (v : View) (hv : v.Proper) (x0 y0 x1 y1 : Nat) (hx : x0 < x1) (hy : y0 < y1) (p : V2 ℝ) :
    let at' := screenPoint v.wmin v.wmax v.res
    ({ v with wmin := ⟨(at' ⟨x0, y1⟩).x, (at' ⟨x0, y1⟩).y⟩, wmax := ⟨(at' ⟨x1, y0⟩).x, (at' ⟨x1, y0⟩).y⟩, res := ⟨x1 - x0, y1 - y0⟩ } : View).camera.generateRay p =
      v.camera.generateRay ⟨x0 + p.x, y0 + p.y⟩ := by
  intro at'
  set w : View := { v with wmin := ⟨(at' ⟨x0, y1⟩).x, (at' ⟨x0, y1⟩).y⟩, wmax := ⟨(at' ⟨x1, y0⟩).x, (at' ⟨x1, y0⟩).y⟩, res := ⟨x1 - x0, y1 - y0⟩ } with hwdef
  have hrx : (0 : ℝ) < v.res.x := by exact_mod_cast hv.columns
  have hry : (0 : ℝ) < v.res.y := by exact_mod_cast hv.rows
  have hx' : (x0 : ℝ) < x1 := by exact_mod_cast hx
  have hy' : (y0 : ℝ) < y1 := by exact_mod_cast hy
  have hw := hv.width
  have hh := hv.height
  have ex : ((x1 - x0 : Nat) : ℝ) = x1 - x0 := by rw [Nat.cast_sub hx.le]
  have ey : ((y1 - y0 : Nat) : ℝ) = y1 - y0 := by rw [Nat.cast_sub hy.le]
  have w1 : w.wmin.x < w.wmax.x := by
    simp only [hwdef, at', screenPoint]
    have : (x0 : ℝ) / v.res.x < x1 / v.res.x := by gcongr
    nlinarith
  have w2 : w.wmin.y < w.wmax.y := by
    simp only [hwdef, at', screenPoint]
    have : (y0 : ℝ) / v.res.y < y1 / v.res.y := by gcongr
    nlinarith
  have hwp : w.Proper :=
    ⟨hv.up_ahead, hv.near_pos, hv.near_far, hv.fov_pos, hv.fov_lt, w1, w2, Nat.sub_pos_of_lt hx, Nat.sub_pos_of_lt hy⟩
  refine c116_same_ray v w hv hwp (sameStand_refl v w rfl rfl rfl) _ p ?_
  · have hdx : (x1 : ℝ) - x0 ≠ 0 := by linarith
    have hdy : (y1 : ℝ) - y0 ≠ 0 := by linarith
    simp only [View.slopes, View.spread, hwdef, at', screenPoint, ex, ey, V2.mk.injEq]
    constructor <;> field_simp <;> ring

/-- C116, zoom: a window `k` times as large with a field of view `k` times as narrow, measured by the tangent of half the angle, is the same picture. -/
theorem c116_zoom (v : View) (hv : v.Proper) (k fov : ℝ) (hk : 0 < k) (hf : 0 < fov ∧ fov < 180)
    (hz : k * Real.tan (degrees fov / 2) = Real.tan (degrees v.fov / 2)) (p : V2 ℝ) :
    ({ v with fov := fov, wmin := ⟨k * v.wmin.x, k * v.wmin.y⟩, wmax := ⟨k * v.wmax.x, k * v.wmax.y⟩ } : View).camera.generateRay p = v.camera.generateRay p := by
  have hw : View.Proper { v with fov := fov, wmin := ⟨k * v.wmin.x, k * v.wmin.y⟩, wmax := ⟨k * v.wmax.x, k * v.wmax.y⟩ } :=
    ⟨hv.up_ahead, hv.near_pos, hv.near_far, hf.1, hf.2, mul_lt_mul_of_pos_left hv.width hk, mul_lt_mul_of_pos_left hv.height hk, hv.columns, hv.rows⟩
  refine c116_same_ray v { v with fov := fov, wmin := ⟨k * v.wmin.x, k * v.wmin.y⟩, wmax := ⟨k * v.wmax.x, k * v.wmax.y⟩ } hv hw
    (sameStand_refl v _ rfl rfl rfl) p p ?_
  simp only [View.slopes, View.spread, V2.mk.injEq]
  rw [← hz]
  constructor <;> ring

/-- C116: how far away the point looked at is, how long the up direction is, how far it leans forwards, and where the near and far plane are has
no influence: every camera sample is computed in the same way, so the picture is the same. -/
theorem c116_indifferent [HasNext ℝ] (v w : View) (hv : v.Proper) (hw : w.Proper) (h : v.SameStand w) (hfov : w.fov = v.fov) (hmin : w.wmin = v.wmin)
    (hmax : w.wmax = v.wmax) (hres : w.res = v.res) (scene : Scene ℝ) :
    cameraRadiance scene w.camera = cameraRadiance scene v.camera ∧
    ∀ {σ : Type} (ops : SamplerOps ℝ σ) (film : Film ℝ) (s : σ) (box : BBox2i),
      renderTile ops (cameraRadiance scene w.camera) film s box = renderTile ops (cameraRadiance scene v.camera) film s box := by
  have key : cameraRadiance scene w.camera = cameraRadiance scene v.camera := by
    funext p
    unfold cameraRadiance
    rw [c116_same_ray v w hv hw h p p (by simp only [View.slopes, View.spread, hfov, hmin, hmax, hres])]
  exact ⟨key, fun ops film s box => by rw [key]⟩

/-! ### Concrete cases -/

namespace Demo
/-- A view from a hill, with a wide window. -/
noncomputable def hillView : View :=
  { pos := ⟨1, 2, 3⟩, look := ⟨3, 1, 7⟩, up := ⟨0, 1, 0⟩, fov := 90, near := 1 / 100, far := 1000, wmin := ⟨-(4 / 3), -1⟩, wmax := ⟨4 / 3, 1⟩, res := ⟨640, 480⟩ }
end Demo

omit [HasInf ℝ] in
theorem hill_proper : Demo.hillView.Proper := by
  refine ⟨?_, ?_, ?_, ?_, ?_, ?_, ?_, ?_, ?_⟩ <;> norm_num [Demo.hillView]
  simp only [View.forward, V3.sub, vprod]
  real_ops
  norm_num

/-- The middle of pixel (100, 50) of the picture is seen where four pixels meet in a picture of twice the resolution. -/
example : ({ Demo.hillView with res := ⟨1280, 960⟩ } : View).camera.generateRay ⟨201, 101⟩ = Demo.hillView.camera.generateRay ⟨201 / 2, 101 / 2⟩ := by
  have := c116_resolution Demo.hillView hill_proper 2 2 two_pos two_pos ⟨201 / 2, 101 / 2⟩
  norm_num [Demo.hillView] at this ⊢
  exact this

/-- The right upper quarter. -/
example (p : V2 ℝ) : ({ Demo.hillView with wmin := ⟨0, 0⟩, wmax := ⟨4 / 3, 1⟩, res := ⟨320, 240⟩ } : View).camera.generateRay p =
    Demo.hillView.camera.generateRay ⟨320 + p.x, p.y⟩ := by
  have := c116_crop Demo.hillView hill_proper 320 0 640 240 (by norm_num) (by norm_num) p
  norm_num [Demo.hillView, screenPoint] at this ⊢
  exact this

/-- A field of view of 60 degrees with a window √3 times as large. -/
example (p : V2 ℝ) : ({ Demo.hillView with fov := 60, wmin := ⟨√3 * -(4 / 3), √3 * -1⟩, wmax := ⟨√3 * (4 / 3), √3 * 1⟩ } : View).camera.generateRay p =
    Demo.hillView.camera.generateRay p := by
  refine c116_zoom Demo.hillView hill_proper (√3) 60 (by positivity) (by norm_num) ?_ p
  rw [show degrees 60 / 2 = Real.pi / 6 by unfold degrees; ring, show degrees Demo.hillView.fov / 2 = Real.pi / 4 by unfold degrees Demo.hillView; ring,
    Real.tan_pi_div_four, Real.tan_pi_div_six]
  have : √3 ≠ 0 := by positivity
  field_simp

/-- Looking at a point twice as far away, with an up direction that leans forwards and other near and far planes. -/
example [HasNext ℝ] (scene : Scene ℝ) :
    cameraRadiance scene ({ Demo.hillView with look := ⟨5, 0, 11⟩, up := ⟨2, 2, 4⟩, near := 1, far := 2 } : View).camera = cameraRadiance scene Demo.hillView.camera := by
  refine (c116_indifferent Demo.hillView { Demo.hillView with look := ⟨5, 0, 11⟩, up := ⟨2, 2, 4⟩, near := 1, far := 2 } hill_proper ?_ ⟨rfl, ⟨2, two_pos, ?_⟩, 3, three_pos, 1, ?_⟩ rfl rfl rfl rfl scene).1
  · refine ⟨?_, ?_, ?_, ?_, ?_, ?_, ?_, ?_, ?_⟩ <;> norm_num [Demo.hillView]
    simp only [View.forward, V3.sub, vprod]
    real_ops
    norm_num
  · simp only [View.forward, V3.sub, Demo.hillView, times]
    real_ops
    norm_num
  · simp only [View.forward, V3.sub, Demo.hillView, times, plus]
    real_ops
    norm_num

/-- The point looked at is seen in the middle of both the whole picture and the right upper quarter's lower left corner. -/
example : ({ Demo.hillView with wmin := ⟨0, 0⟩, wmax := ⟨4 / 3, 1⟩, res := ⟨320, 240⟩ } : View).camera.generateRay ⟨0, 240⟩ =
    Demo.hillView.camera.generateRay ⟨320, 240⟩ := by
  have hw : View.Proper { Demo.hillView with wmin := ⟨0, 0⟩, wmax := ⟨4 / 3, 1⟩, res := ⟨320, 240⟩ } := by
    refine ⟨hill_proper.up_ahead, ?_, ?_, ?_, ?_, ?_, ?_, ?_, ?_⟩ <;> norm_num [Demo.hillView]
  have hc := c109_centre Demo.hillView hill_proper rfl rfl
  have hdep : 0 < Demo.hillView.depth Demo.hillView.look := hc.1
  refine c116_one_point Demo.hillView _ hill_proper hw rfl _ _ Demo.hillView.look ?_ ?_
  · rw [c109_seen_at _ hill_proper]
    refine ⟨hdep, hc.2.symm ▸ ?_⟩
    norm_num [Demo.hillView]
  · rw [c109_seen_at _ hw]
    refine ⟨hdep, ?_⟩
    have h1 : ∀ v : View, coordAlong v.right (v.look.sub v.pos) = 0 := fun v => by
      simp only [coordAlong, sprod, View.right, View.forward, vprod]
      rw [div_eq_zero_iff]; left; ring
    have h2 : ∀ v : View, coordAlong v.top (v.look.sub v.pos) = 0 := fun v => by
      simp only [coordAlong, sprod, View.top, View.right, View.forward, vprod]
      rw [div_eq_zero_iff]; left; ring
    have e := h1 { Demo.hillView with wmin := ⟨0, 0⟩, wmax := ⟨4 / 3, 1⟩, res := ⟨320, 240⟩ }
    have e' := h2 { Demo.hillView with wmin := ⟨0, 0⟩, wmax := ⟨4 / 3, 1⟩, res := ⟨320, 240⟩ }
    simp only [View.project] at e e' ⊢
    rw [e, e']
    norm_num
end
end PT
