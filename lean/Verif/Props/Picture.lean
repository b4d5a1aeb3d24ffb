import Verif.Props.TransformMeaning

/-!
# C109: the picture is an upright perspective picture

Where a point of the scene appears in the picture of a camera placed by `look_at` with a `perspective` projection.
-/

namespace PT
namespace Spec

/-- The coordinate of `w` along the direction of `v`: the length of its orthogonal projection, with sign. -/
noncomputable def coordAlong (v w : V3 ℝ) : ℝ := sprod w v / √(sq v)

/-- What the user gives for a camera: eye, point looked at, up direction, field of view in degrees, near and far plane,
corners of the screen window, resolution. -/
structure View where
  pos : V3 ℝ
  look : V3 ℝ
  up : V3 ℝ
  fov : ℝ
  near : ℝ
  far : ℝ
  wmin : V2 ℝ
  wmax : V2 ℝ
  res : V2 Nat

namespace View
variable (v : View)

/-- Straight ahead. -/
noncomputable def forward : V3 ℝ := v.look.sub v.pos
/-- To the right-hand side of the picture. -/
noncomputable def right : V3 ℝ := vprod v.up v.forward
/-- To the top of the picture. -/
noncomputable def top : V3 ℝ := vprod v.forward v.right
/-- Half the height of a window from -1 to 1 at distance 1. -/
noncomputable def spread : ℝ := Real.tan (degrees v.fov / 2)

/-- The camera of the view (/repo/examples/helloworld.rs:25-32). -/
noncomputable def camera : PerspectiveCamera ℝ :=
  PerspectiveCamera.new (Transform.lookAt v.pos v.look v.up) (Transform.perspective v.fov v.near v.far) v.wmin v.wmax v.res

/-- A usable view. -/
structure Proper : Prop where
  up_ahead : vprod v.up v.forward ≠ ⟨0, 0, 0⟩
  near_pos : 0 < v.near
  near_far : v.near < v.far
  fov_pos : 0 < v.fov
  fov_lt : v.fov < 180
  width : v.wmin.x < v.wmax.x
  height : v.wmin.y < v.wmax.y
  columns : 0 < v.res.x
  rows : 0 < v.res.y

/-- The distance of a point from the eye, measured straight ahead. -/
noncomputable def depth (P : V3 ℝ) : ℝ := coordAlong v.forward (P.sub v.pos)

/-- Where a point appears: film position in pixels, counted from the left and from the top. -/
noncomputable def project (P : V3 ℝ) : V2 ℝ :=
  let x := coordAlong v.right (P.sub v.pos) / (v.spread * v.depth P)
  let y := coordAlong v.top (P.sub v.pos) / (v.spread * v.depth P)
  ⟨v.res.x * ((x - v.wmin.x) / (v.wmax.x - v.wmin.x)), v.res.y * ((v.wmax.y - y) / (v.wmax.y - v.wmin.y))⟩

/-- The ray of the film position `p` meets the point `P`. -/
def Sees [HasInf ℝ] (p : V2 ℝ) (P : V3 ℝ) : Prop :=
  ∃ t > 0, plus (v.camera.generateRay p).origin (times t (v.camera.generateRay p).direction) = P

end View
end Spec
open Spec

theorem coordinate_unit {u v : V3 ℝ} {c : ℝ} (hc : 0 < c) (e : u = times c v) (h : sq u = 1) (w : V3 ℝ) :
    coordAlong v w = sprod w u := by
  have h1 : c ^ 2 * sq v = 1 := by rw [← h, e]; simp only [times, Spec.sq]; ring
  have h2 : sq v = (1 / c) ^ 2 := by field_simp; linarith
  rw [coordAlong, h2, Real.sqrt_sq (by positivity), e]
  simp only [sprod, times]
  field_simp

theorem unit_unique {u v : V3 ℝ} {c : ℝ} (hc : 0 < c) (e : u = times c v) (h : sq u = 1) :
    0 < sq v ∧ c = 1 / √(sq v) := by
  have h1 : c ^ 2 * sq v = 1 := by rw [← h, e]; simp only [times, Spec.sq]; ring
  have h2 : sq v = (1 / c) ^ 2 := by field_simp; linarith
  refine ⟨by rw [h2]; positivity, ?_⟩
  rw [h2, Real.sqrt_sq (by positivity)]
  field_simp

theorem spread_pos {v : View} (hv : v.Proper) : 0 < v.spread := by
  obtain ⟨-, -, -, h1, h2, -, -, -, -⟩ := hv
  refine Real.tan_pos_of_pos_of_lt_pi_div_two ?_ ?_ <;> simp only [degrees] <;> nlinarith [Real.pi_pos]

/-- The axes of a view. -/
theorem view_axes [HasInf ℝ] {v : View} (hv : v.Proper) :
    ∃ L U D : V3 ℝ, U = vprod D L ∧ sq D = 1 ∧ sq L = 1 ∧ sprod D L = 0 ∧ sq U = 1 ∧
      (∀ w, coordAlong v.forward w = sprod w D) ∧ (∀ w, coordAlong v.right w = sprod w L) ∧
      (∀ w, coordAlong v.top w = sprod w U) ∧ (∃ a b, 0 < b ∧ v.up = plus (times a D) (times b U)) ∧
      ∀ p, (v.camera.generateRay p).origin = v.pos ∧ ∃ c > 0, (v.camera.generateRay p).direction =
        times c (plus D (plus (times (v.spread * (screenPoint v.wmin v.wmax v.res p).x) L)
          (times (v.spread * (screenPoint v.wmin v.wmax v.res p).y) U))) := by
  have hk := (spread_pos hv).ne'
  have key := fun p => c52_camera_ray (pos := v.pos) (look := v.look) (up := v.up) (fov := v.fov) hv.up_ahead hv.near_pos
    hv.near_far hk hv.width hv.height hv.columns hv.rows p
  obtain ⟨_, _, _, L, U, D, ⟨c1, hc1, e1⟩, ⟨c2, hc2, e2⟩, hU, hD1, hL1, -⟩ := key ⟨0, 0⟩
  obtain ⟨hF, hc1'⟩ := unit_unique hc1 e1 hD1
  obtain ⟨hR, hc2'⟩ := unit_unique hc2 e2 hL1
  have hdl : sprod D L = 0 := by
    rw [e1, e2]; simp only [sprod, times, vprod]; ring
  have hU1 : sq U = 1 := by
    have h1 := hD1; have h2 := hL1; have h3 := hdl
    rw [hU]
    simp only [Spec.sq, vprod, sprod] at h1 h2 h3 ⊢
    linear_combination (L.x ^ 2 + L.y ^ 2 + L.z ^ 2) * h1 + h2 - (D.x * L.x + D.y * L.y + D.z * L.z) * h3
  have eU : U = times (c1 * c2) v.top := by
    rw [hU, e1, e2]
    ext <;> simp only [View.top, View.right, View.forward, vprod, times] <;> ring
  refine ⟨L, U, D, hU, hD1, hL1, hdl, hU1, coordinate_unit hc1 e1 hD1, coordinate_unit hc2 e2 hL1,
    coordinate_unit (mul_pos hc1 hc2) eU hU1, ?_, fun p => ?_⟩
  · refine ⟨sprod (v.look.sub v.pos) v.up / (sq (v.look.sub v.pos) * c1), 1 / (sq (v.look.sub v.pos) * (c1 * c2)), by positivity, ?_⟩
    rw [eU, e1]
    have hF' := hF.ne'
    simp only [View.top, View.right, View.forward]
    generalize v.look.sub v.pos = F at *
    generalize v.up = u at *
    ext <;> simp only [plus, times, vprod, sprod] <;> field_simp <;> simp only [Spec.sq] <;> ring
  · obtain ⟨g1, _, _, L', U', D', ⟨d1, hd1, f1⟩, ⟨d2, hd2, f2⟩, hU', hD1', hL1', c, hc, e⟩ := key p
    have a1 := (unit_unique hd1 f1 hD1').2
    have a2 := (unit_unique hd2 f2 hL1').2
    have b1 : D' = D := by rw [f1, e1, a1, hc1']
    have b2 : L' = L := by rw [f2, e2, a2, hc2']
    refine ⟨g1, c, hc, ?_⟩
    rw [hU, ← b1, ← b2, ← hU']
    exact e

/-- Coordinates with respect to orthonormal axes. -/
theorem axes_expand {L U D : V3 ℝ} (hU : U = vprod D L) (hD : sq D = 1) (hL : sq L = 1) (hdl : sprod D L = 0) (w : V3 ℝ) :
    w = plus (times (sprod w D) D) (plus (times (sprod w L) L) (times (sprod w U) U)) := by
  subst hU
  simp only [Spec.sq, sprod] at hD hL hdl
  have det : D.x * (L.y * (vprod D L).z - L.z * (vprod D L).y) + D.y * (L.z * (vprod D L).x - L.x * (vprod D L).z)
      + D.z * (L.x * (vprod D L).y - L.y * (vprod D L).x) = 1 := by
    simp only [vprod]
    linear_combination (L.x ^ 2 + L.y ^ 2 + L.z ^ 2) * hD + hL - (D.x * L.x + D.y * L.y + D.z * L.z) * hdl
  have hU1 : (vprod D L).x ^ 2 + (vprod D L).y ^ 2 + (vprod D L).z ^ 2 = 1 := by
    simp only [vprod]
    linear_combination (L.x ^ 2 + L.y ^ 2 + L.z ^ 2) * hD + hL - (D.x * L.x + D.y * L.y + D.z * L.z) * hdl
  have hud : (vprod D L).x * D.x + (vprod D L).y * D.y + (vprod D L).z * D.z = 0 := by simp only [vprod]; ring
  have hul : (vprod D L).x * L.x + (vprod D L).y * L.y + (vprod D L).z * L.z = 0 := by simp only [vprod]; ring
  generalize vprod D L = U at *
  set e := plus (times (sprod w D) D) (plus (times (sprod w L) L) (times (sprod w U) U)) with he
  have k1 : (w.x - e.x) * D.x + (w.y - e.y) * D.y + (w.z - e.z) * D.z = 0 := by
    simp only [he, plus, times, sprod]
    linear_combination -(w.x * D.x + w.y * D.y + w.z * D.z) * hD - (w.x * L.x + w.y * L.y + w.z * L.z) * hdl
      - (w.x * U.x + w.y * U.y + w.z * U.z) * hud
  have k2 : (w.x - e.x) * L.x + (w.y - e.y) * L.y + (w.z - e.z) * L.z = 0 := by
    simp only [he, plus, times, sprod]
    linear_combination -(w.x * D.x + w.y * D.y + w.z * D.z) * hdl - (w.x * L.x + w.y * L.y + w.z * L.z) * hL
      - (w.x * U.x + w.y * U.y + w.z * U.z) * hul
  have k3 : (w.x - e.x) * U.x + (w.y - e.y) * U.y + (w.z - e.z) * U.z = 0 := by
    simp only [he, plus, times, sprod]
    linear_combination -(w.x * D.x + w.y * D.y + w.z * D.z) * hud - (w.x * L.x + w.y * L.y + w.z * L.z) * hul
      - (w.x * U.x + w.y * U.y + w.z * U.z) * hU1
  ext
  · linear_combination (w.x - e.x) * (-det) + (L.y * U.z - L.z * U.y) * k1 + (U.y * D.z - U.z * D.y) * k2 + (D.y * L.z - D.z * L.y) * k3
  · linear_combination (w.y - e.y) * (-det) + (L.z * U.x - L.x * U.z) * k1 + (U.z * D.x - U.x * D.z) * k2 + (D.z * L.x - D.x * L.z) * k3
  · linear_combination (w.z - e.z) * (-det) + (L.x * U.y - L.y * U.x) * k1 + (U.x * D.y - U.y * D.x) * k2 + (D.x * L.y - D.y * L.x) * k3

theorem project_iff {v : View} (hv : v.Proper) {a b d : ℝ} (hd : 0 < d) (p : V2 ℝ) :
    (a = d * (v.spread * (screenPoint v.wmin v.wmax v.res p).x) ∧ b = d * (v.spread * (screenPoint v.wmin v.wmax v.res p).y)) ↔
    p = ⟨v.res.x * ((a / (v.spread * d) - v.wmin.x) / (v.wmax.x - v.wmin.x)),
      v.res.y * ((v.wmax.y - b / (v.spread * d)) / (v.wmax.y - v.wmin.y))⟩ := by
  have hk := (spread_pos hv).ne'
  have hx : v.wmax.x - v.wmin.x ≠ 0 := by have := hv.width; linarith
  have hy : v.wmax.y - v.wmin.y ≠ 0 := by have := hv.height; linarith
  have rx : (v.res.x : ℝ) ≠ 0 := by have := hv.columns; positivity
  have ry : (v.res.y : ℝ) ≠ 0 := by have := hv.rows; positivity
  have hd' := hd.ne'
  obtain ⟨px, py⟩ := p
  simp only [screenPoint, V2.mk.injEq]
  refine and_congr ⟨fun e => ?_, fun e => ?_⟩ ⟨fun e => ?_, fun e => ?_⟩
  · rw [e]; field_simp; ring
  · rw [e]; field_simp; ring
  · rw [e]; field_simp; ring
  · rw [e]; field_simp; ring

/-- C109: the ray of the film position `p` meets the point `P` exactly if `P` lies in front of the eye and `p` is the perspective
projection of `P`. -/
theorem c109_seen_at [HasInf ℝ] (v : View) (hv : v.Proper) (p : V2 ℝ) (P : V3 ℝ) :
    v.Sees p P ↔ 0 < v.depth P ∧ p = v.project P := by
  obtain ⟨L, U, D, hU, hD, hL, hdl, hU1, cD, cL, cU, -, hray⟩ := view_axes hv
  obtain ⟨ho, c, hc, hdir⟩ := hray p
  simp only [View.Sees, View.depth, View.project, cD, cL, cU, ho, hdir]
  generalize hw : P.sub v.pos = w
  have hw' : P = plus v.pos w := by
    rw [← hw]; ext <;> simp only [plus, V3.sub, r_sub] <;> ring
  generalize hsx : v.spread * (screenPoint v.wmin v.wmax v.res p).x = sx
  generalize hsy : v.spread * (screenPoint v.wmin v.wmax v.res p).y = sy
  have hud : sprod D U = 0 := by rw [hU]; simp only [sprod, vprod]; ring
  have hul : sprod L U = 0 := by rw [hU]; simp only [sprod, vprod]; ring
  constructor
  · rintro ⟨t, ht, e⟩
    have e' : w = times (t * c) (plus D (plus (times sx L) (times sy U))) := by
      rw [hw'] at e
      have e1 := congrArg V3.x e
      have e2 := congrArg V3.y e
      have e3 := congrArg V3.z e
      simp only [plus, times] at e1 e2 e3
      ext <;> simp only [plus, times]
      · linear_combination -e1
      · linear_combination -e2
      · linear_combination -e3
    have hpos : 0 < t * c := mul_pos ht hc
    have w1 : sprod w D = t * c := by
      rw [e']; simp only [Spec.sq, sprod, plus, times] at hD hdl hud ⊢
      linear_combination t * c * (hD + sx * hdl + sy * hud)
    have w2 : sprod w L = t * c * sx := by
      rw [e']; simp only [Spec.sq, sprod, plus, times] at hL hdl hul ⊢
      linear_combination t * c * (hdl + sx * hL + sy * hul)
    have w3 : sprod w U = t * c * sy := by
      rw [e']; simp only [Spec.sq, sprod, plus, times] at hU1 hud hul ⊢
      linear_combination t * c * (hud + sx * hul + sy * hU1)
    rw [w1]
    refine ⟨hpos, (project_iff hv hpos p).1 ⟨?_, ?_⟩⟩
    · rw [w2, hsx]
    · rw [w3, hsy]
  · rintro ⟨hpos, e⟩
    obtain ⟨w2, w3⟩ := (project_iff hv hpos p).2 e
    rw [hsx] at w2
    rw [hsy] at w3
    refine ⟨sprod w D / c, div_pos hpos hc, ?_⟩
    have ex := axes_expand hU hD hL hdl w
    rw [w2, w3] at ex
    generalize sprod w D = d at ex
    have hc' := hc.ne'
    rw [hw', ex]
    ext <;> simp only [plus, times] <;> field_simp

/-- The distance of two equally deep points in the picture, across and down. -/
theorem project_diff [HasInf ℝ] {v : View} (hv : v.Proper) {P Q : V3 ℝ} (hP : 0 < v.depth P) (hQ : v.depth Q = v.depth P) :
    (v.project P).x - (v.project Q).x =
      v.res.x / ((v.wmax.x - v.wmin.x) * (v.spread * v.depth P)) * coordAlong v.right (P.sub Q) ∧
    (v.project Q).y - (v.project P).y =
      v.res.y / ((v.wmax.y - v.wmin.y) * (v.spread * v.depth P)) * coordAlong v.top (P.sub Q) := by
  have hk := (spread_pos hv).ne'
  have hx : v.wmax.x - v.wmin.x ≠ 0 := by have := hv.width; linarith
  have hy : v.wmax.y - v.wmin.y ≠ 0 := by have := hv.height; linarith
  have lin : ∀ u : V3 ℝ, coordAlong u (P.sub Q) = coordAlong u (P.sub v.pos) - coordAlong u (Q.sub v.pos) := by
    intro u
    simp only [coordAlong, sprod, V3.sub, r_sub]
    ring
  simp only [View.project, hQ, lin]
  have hd := hP.ne'
  constructor <;> field_simp <;> ring

theorem scale_pos {v : View} (hv : v.Proper) {d : ℝ} (hd : 0 < d) :
    0 < v.res.x / ((v.wmax.x - v.wmin.x) * (v.spread * d)) ∧ 0 < v.res.y / ((v.wmax.y - v.wmin.y) * (v.spread * d)) := by
  have hk := spread_pos hv
  have hx : 0 < v.wmax.x - v.wmin.x := by have := hv.width; linarith
  have hy : 0 < v.wmax.y - v.wmin.y := by have := hv.height; linarith
  have rx : (0 : ℝ) < v.res.x := by exact_mod_cast hv.columns
  have ry : (0 : ℝ) < v.res.y := by exact_mod_cast hv.rows
  exact ⟨by positivity, by positivity⟩

theorem right_sq_pos {v : View} (hv : v.Proper) : 0 < sq v.right := by
  have h := hv.up_ahead
  by_contra hn
  have h0 : sq v.right = 0 := le_antisymm (not_lt.mp hn) (by simp only [Spec.sq]; positivity)
  apply h
  simp only [View.right, Spec.sq] at h0
  generalize vprod v.up v.forward = r at *
  have hx : r.x = 0 := by nlinarith [sq_nonneg r.x, sq_nonneg r.y, sq_nonneg r.z]
  have hy : r.y = 0 := by nlinarith [sq_nonneg r.x, sq_nonneg r.y, sq_nonneg r.z]
  have hz : r.z = 0 := by nlinarith [sq_nonneg r.x, sq_nonneg r.y, sq_nonneg r.z]
  ext <;> assumption

/-- C109: for two points equally far ahead, the one farther up is nearer to the top of the picture, the one farther to the side
of `up × forward` is farther to the right. -/
theorem c109_upright [HasInf ℝ] (v : View) (hv : v.Proper) (P Q : V3 ℝ) (hP : 0 < v.depth P) (hQ : v.depth Q = v.depth P) :
    ((v.project P).y < (v.project Q).y ↔ 0 < sprod (P.sub Q) v.up) ∧
    ((v.project Q).x < (v.project P).x ↔ 0 < sprod (P.sub Q) v.right) := by
  obtain ⟨d1, d2⟩ := project_diff hv hP hQ
  obtain ⟨s1, s2⟩ := scale_pos hv hP
  obtain ⟨L, U, D, hU, hD, hL, hdl, hU1, cD, cL, cU, ⟨a, b, hb, hup⟩, -⟩ := view_axes hv
  have hdd : sprod (P.sub Q) D = 0 := by
    have := hQ
    simp only [View.depth, cD] at this
    simp only [sprod, V3.sub, r_sub] at this ⊢
    linarith
  constructor
  · rw [← sub_pos, d2, mul_pos_iff_of_pos_left s2, cU, hup]
    have : sprod (P.sub Q) (plus (times a D) (times b U)) = a * sprod (P.sub Q) D + b * sprod (P.sub Q) U := by
      simp only [sprod, plus, times]; ring
    rw [this, hdd, mul_zero, zero_add, mul_pos_iff_of_pos_left hb]
  · rw [← sub_pos, d1, mul_pos_iff_of_pos_left s1, coordAlong,
      div_pos_iff_of_pos_right (Real.sqrt_pos.mpr (right_sq_pos hv))]

/-- C109: no distortion.  If the screen window has the proportions of the picture, then distances between equally deep points are
shown at one scale in every direction, inversely proportional to the depth. -/
theorem c109_undistorted [HasInf ℝ] (v : View) (hv : v.Proper)
    (hs : v.res.x / (v.wmax.x - v.wmin.x) = v.res.y / (v.wmax.y - v.wmin.y))
    (P Q : V3 ℝ) (hP : 0 < v.depth P) (hQ : v.depth Q = v.depth P) :
    √(((v.project P).x - (v.project Q).x) ^ 2 + ((v.project P).y - (v.project Q).y) ^ 2) =
      v.res.y / ((v.wmax.y - v.wmin.y) * v.spread) * √(sq (P.sub Q)) / v.depth P := by
  obtain ⟨d1, d2⟩ := project_diff hv hP hQ
  obtain ⟨s1, s2⟩ := scale_pos hv hP
  obtain ⟨L, U, D, hU, hD, hL, hdl, hU1, cD, cL, cU, -, -⟩ := view_axes hv
  have hdd : sprod (P.sub Q) D = 0 := by
    have := hQ
    simp only [View.depth, cD] at this
    simp only [sprod, V3.sub, r_sub] at this ⊢
    linarith
  have ee : v.res.x / ((v.wmax.x - v.wmin.x) * (v.spread * v.depth P)) = v.res.y / ((v.wmax.y - v.wmin.y) * (v.spread * v.depth P)) := by
    rw [← div_div, hs, div_div]
  rw [ee, cL] at d1
  rw [cU] at d2
  have hsum : sq (P.sub Q) = sprod (P.sub Q) L ^ 2 + sprod (P.sub Q) U ^ 2 := by
    have ex := axes_expand hU hD hL hdl (P.sub Q)
    rw [hdd] at ex
    have hul : sprod L U = 0 := by rw [hU]; simp only [sprod, vprod]; ring
    generalize sprod (P.sub Q) L = a at *
    generalize sprod (P.sub Q) U = b at *
    rw [ex]
    simp only [Spec.sq, plus, times, sprod] at hL hU1 hul ⊢
    linear_combination a ^ 2 * hL + b ^ 2 * hU1 + 2 * a * b * hul
  generalize hm : v.res.y / ((v.wmax.y - v.wmin.y) * (v.spread * v.depth P)) = m at *
  have e1 : ((v.project P).x - (v.project Q).x) ^ 2 + ((v.project P).y - (v.project Q).y) ^ 2 = m ^ 2 * sq (P.sub Q) := by
    rw [d1, show (v.project P).y - (v.project Q).y = -(m * sprod (P.sub Q) U) by linarith, hsum]
    ring
  rw [e1, Real.sqrt_mul (by positivity), Real.sqrt_sq s2.le, ← hm]
  have hk := (spread_pos hv).ne'
  have hy : v.wmax.y - v.wmin.y ≠ 0 := by have := hv.height; linarith
  have hd := hP.ne'
  field_simp

/-- C109: the point looked at is in front of the eye and, for a window symmetric about the origin, in the middle of the picture. -/
theorem c109_centre [HasInf ℝ] (v : View) (hv : v.Proper) (hx : v.wmin.x = -v.wmax.x) (hy : v.wmin.y = -v.wmax.y) :
    0 < v.depth v.look ∧ v.project v.look = ⟨v.res.x / 2, v.res.y / 2⟩ := by
  have hF : 0 < sq v.forward := by
    by_contra hn
    have h0 : sq v.forward = 0 := le_antisymm (not_lt.mp hn) (by simp only [Spec.sq]; positivity)
    apply hv.up_ahead
    simp only [Spec.sq] at h0
    generalize v.forward = r at *
    have hx : r.x = 0 := by nlinarith [sq_nonneg r.x, sq_nonneg r.y, sq_nonneg r.z]
    have hy : r.y = 0 := by nlinarith [sq_nonneg r.x, sq_nonneg r.y, sq_nonneg r.z]
    have hz : r.z = 0 := by nlinarith [sq_nonneg r.x, sq_nonneg r.y, sq_nonneg r.z]
    ext <;> simp [vprod, hx, hy, hz]
  refine ⟨?_, ?_⟩
  · simp only [View.depth, coordAlong]
    refine div_pos ?_ (Real.sqrt_pos.mpr hF)
    simp only [Spec.sq, View.forward, sprod] at hF ⊢
    linarith
  · have r0 : coordAlong v.right (v.look.sub v.pos) = 0 := by
      simp only [coordAlong, View.right, View.forward, sprod, vprod]
      rw [div_eq_zero_iff]; left; ring
    have t0 : coordAlong v.top (v.look.sub v.pos) = 0 := by
      simp only [coordAlong, View.top, View.forward, sprod, vprod]
      rw [div_eq_zero_iff]; left; ring
    have h1 := hv.width
    have h2 := hv.height
    have h1' : v.wmax.x ≠ 0 := by rw [hx] at h1; intro e; rw [e] at h1; norm_num at h1
    have h2' : v.wmax.y ≠ 0 := by rw [hy] at h2; intro e; rw [e] at h2; norm_num at h2
    simp only [View.project, r0, t0, zero_div, hx, hy]
    rw [V2.mk.injEq]
    constructor
    · rw [show v.wmax.x - -v.wmax.x = 2 * v.wmax.x by ring, show (0 : ℝ) - -v.wmax.x = v.wmax.x by ring]; field_simp
    · rw [show v.wmax.y - -v.wmax.y = 2 * v.wmax.y by ring, sub_zero]; field_simp

/-- C109: what the picture shows.  A point in front of the eye appears inside the picture exactly if its directions across and up
lie between the edges of the window, scaled by the tangent of half the field of view and the depth. -/
theorem c109_in_picture [HasInf ℝ] (v : View) (hv : v.Proper) (P : V3 ℝ) (hP : 0 < v.depth P) :
    (0 ≤ (v.project P).x ∧ (v.project P).x ≤ v.res.x ∧ 0 ≤ (v.project P).y ∧ (v.project P).y ≤ v.res.y) ↔
    (v.spread * v.depth P * v.wmin.x ≤ coordAlong v.right (P.sub v.pos) ∧
      coordAlong v.right (P.sub v.pos) ≤ v.spread * v.depth P * v.wmax.x ∧
      coordAlong v.top (P.sub v.pos) ≤ v.spread * v.depth P * v.wmax.y ∧
      v.spread * v.depth P * v.wmin.y ≤ coordAlong v.top (P.sub v.pos)) := by
  have hkd : 0 < v.spread * v.depth P := mul_pos (spread_pos hv) hP
  have hx : 0 < v.wmax.x - v.wmin.x := by have := hv.width; linarith
  have hy : 0 < v.wmax.y - v.wmin.y := by have := hv.height; linarith
  have rx : (0 : ℝ) < v.res.x := by exact_mod_cast hv.columns
  have ry : (0 : ℝ) < v.res.y := by exact_mod_cast hv.rows
  simp only [View.project]
  generalize coordAlong v.right (P.sub v.pos) = a
  generalize coordAlong v.top (P.sub v.pos) = b
  generalize v.spread * v.depth P = m at *
  refine and_congr ?_ (and_congr ?_ (and_congr ?_ ?_))
  · rw [mul_nonneg_iff_of_pos_left rx, le_div_iff₀ hx, zero_mul, sub_nonneg, le_div_iff₀ hkd, mul_comm]
  · rw [mul_le_iff_le_one_right rx, div_le_one hx, sub_le_sub_iff_right, div_le_iff₀ hkd, mul_comm]
  · rw [mul_nonneg_iff_of_pos_left ry, le_div_iff₀ hy, zero_mul, sub_nonneg, div_le_iff₀ hkd, mul_comm]
  · rw [mul_le_iff_le_one_right ry, div_le_one hy, sub_le_sub_iff_left, le_div_iff₀ hkd, mul_comm]

/-- Non-vacuity of C109: the view of the library's example (helloworld.rs:9,25-32).  It is proper, its window is symmetric and has the
proportions of the picture; the points (1, 0, 1) and (0, 0, 0) are equally deep and the first is farther up. -/
noncomputable def Demo.helloView : View :=
  { pos := ⟨-10, -30, 10⟩, look := ⟨0, 0, 0⟩, up := ⟨0, 0, 1⟩, fov := 30, near := 1 / 100, far := 1000, wmin := ⟨-5 / 4, -1⟩,
    wmax := ⟨5 / 4, 1⟩, res := ⟨1600, 1280⟩ }

example : Demo.helloView.Proper ∧
    (Demo.helloView.res.x : ℝ) / (Demo.helloView.wmax.x - Demo.helloView.wmin.x) =
      Demo.helloView.res.y / (Demo.helloView.wmax.y - Demo.helloView.wmin.y) ∧
    Demo.helloView.wmin.x = -Demo.helloView.wmax.x ∧ Demo.helloView.wmin.y = -Demo.helloView.wmax.y ∧
    0 < Demo.helloView.depth ⟨1, 0, 1⟩ ∧ Demo.helloView.depth ⟨0, 0, 0⟩ = Demo.helloView.depth ⟨1, 0, 1⟩ ∧
    0 < sprod (V3.sub ⟨1, 0, 1⟩ ⟨0, 0, 0⟩) Demo.helloView.up := by
  refine ⟨⟨?_, ?_, ?_, ?_, ?_, ?_, ?_, ?_, ?_⟩, ?_, ?_, ?_, ?_, ?_, ?_⟩ <;>
    norm_num [Demo.helloView, vprod, View.forward, V3.sub, r_sub, View.depth, coordAlong, sprod, Spec.sq]

end PT
