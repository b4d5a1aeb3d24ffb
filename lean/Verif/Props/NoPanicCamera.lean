import Verif.Props.NoPanicF32
import Verif.Props.FilmF32
import Mathlib.Data.Int.Log

/-! # C76: renders in single precision that never panic, with conditions on the camera's matrices only -/

namespace PT
open Fl

namespace Spec
/-- A camera whose rotation is bounded and whose map from the film to camera space is a perspective one: all film points are mapped to one depth,
`m23 / m33`, which is neither tiny nor huge. -/
structure SteadyCamera (c : PerspectiveCamera F32) : Prop where
  rotation : ∀ x ∈ [c.cameraToWorld.m.m00, c.cameraToWorld.m.m01, c.cameraToWorld.m.m02, c.cameraToWorld.m.m10, c.cameraToWorld.m.m11,
    c.cameraToWorld.m.m12, c.cameraToWorld.m.m20, c.cameraToWorld.m.m21, c.cameraToWorld.m.m22], UpTo 50 x
  window : ∀ x ∈ [c.rasterToCamera.m.m00, c.rasterToCamera.m.m01, c.rasterToCamera.m.m02, c.rasterToCamera.m.m10, c.rasterToCamera.m.m11,
    c.rasterToCamera.m.m12], UpTo 10 x
  corner : ∀ x ∈ [c.rasterToCamera.m.m03, c.rasterToCamera.m.m13, c.rasterToCamera.m.m22, c.rasterToCamera.m.m32], UpTo 20 x
  flat : ∀ x ∈ [c.rasterToCamera.m.m20, c.rasterToCamera.m.m21, c.rasterToCamera.m.m30, c.rasterToCamera.m.m31], Num x ∧ x.val = 0
  depth : ∀ x ∈ [c.rasterToCamera.m.m23, c.rasterToCamera.m.m33], UpTo 20 x ∧ 1 / 2 ^ 10 ≤ |x.val|
end Spec
open Spec

namespace NoPanic

theorem zero_times {a b : F32} (ha : Num a ∧ a.val = 0) (hb : Num b) : Num (a *. b) ∧ (a *. b).val = 0 := by
  obtain ⟨zs, e⟩ := mul_val ha.1 hb
  have h := ofVal_repr (φ := Binary32) (x := (0 : ℚ)) (by simpa using repr_int (n := 0) (by norm_num)) zs
  rw [e, ha.2, zero_mul]
  exact ⟨⟨ofVal_WF _ _, h.1⟩, h.2⟩

theorem times_zero {a b : F32} (ha : Num a) (hb : Num b ∧ b.val = 0) : Num (a *. b) ∧ (a *. b).val = 0 := by
  obtain ⟨zs, e⟩ := mul_val ha hb.1
  have h := ofVal_repr (φ := Binary32) (x := (0 : ℚ)) (by simpa using repr_int (n := 0) (by norm_num)) zs
  rw [e, hb.2, mul_zero]
  exact ⟨⟨ofVal_WF _ _, h.1⟩, h.2⟩

theorem zero_plus {a b : F32} (ha : Num a ∧ a.val = 0) (hb : Num b) : Num (a +. b) ∧ (a +. b).val = b.val := by
  obtain ⟨zs, e⟩ := add_fin ha.1.fin hb.fin
  obtain ⟨h1, h2, h3⟩ := ofVal_val hb.fin hb.wf zs
  rw [f_add, e, ha.2, zero_add]
  exact ⟨⟨ofVal_WF _ _, h2⟩, h3⟩

/-- A row that starts with two zeros, applied to a point of depth zero, gives the last entry. -/
theorem flat_row {a b c d x y : F32} (ha : Num a ∧ a.val = 0) (hb : Num b ∧ b.val = 0) (hc : Num c) (hd : Num d) (hx : Num x) (hy : Num y) :
    Num (a *. x +. b *. y +. c *. lit 0 +. d) ∧ (a *. x +. b *. y +. c *. lit 0 +. d).val = d.val := by
  have h1 := zero_times ha hx
  have h2 := zero_times hb hy
  have h3 := times_zero hc zero_ok
  obtain ⟨a1, a2⟩ := zero_plus h1 h2.1
  obtain ⟨b1, b2⟩ := zero_plus ⟨a1, a2.trans h2.2⟩ h3.1
  exact zero_plus ⟨b1, b2.trans h3.2⟩ hd

theorem div_ge {a b : F32} (ha : UpTo 20 a) (hb : UpTo 20 b) (h1 : 1 / 2 ^ 10 ≤ |a.val|) (h2 : 1 / 2 ^ 10 ≤ |b.val|) : 1 / 2 ^ 50 ≤ |(a /. b).val| := by
  have hb0 : b.val ≠ 0 := by intro h; rw [h] at h2; norm_num at h2
  obtain ⟨zs, e⟩ := div_val ha.1 hb.1 hb0
  have hq : |a.val / b.val| ≤ 2 ^ 30 := by
    rw [abs_div, div_le_iff₀ (abs_pos.2 hb0)]
    have := ha.2
    norm_num at h2 this ⊢
    nlinarith
  have hq' : 1 / 2 ^ 30 ≤ |a.val / b.val| := by
    rw [abs_div, le_div_iff₀ (abs_pos.2 hb0)]
    have := hb.2
    norm_num at h1 this ⊢
    nlinarith
  have hf : (ofVal (a.val / b.val) zs : F32).IsFin := (upTo_ofVal (n := 30) (by omega) hq zs).1.fin
  have he := ofVal_err hf
  rw [e]
  have h3 := abs_sub_abs_le_abs_sub (a.val / b.val) (ofVal (a.val / b.val) zs : F32).val
  rw [abs_sub_comm] at h3
  generalize |a.val / b.val| = q at *
  generalize |(ofVal (a.val / b.val) zs : F32).val| = r at *
  unfold ulpHalf tinyHalf at he
  norm_num at he hq' ⊢
  linarith

theorem camera_row {a b c d x y : F32} (ha : UpTo 10 a) (hb : UpTo 10 b) (hc : UpTo 10 c) (hd : UpTo 20 d) (hx : UpTo 24 x) (hy : UpTo 24 y) :
    UpTo 37 (a *. x +. b *. y +. c *. lit 0 +. d) :=
  upTo_add (by omega) (upTo_sum3 (m := 10) (n := 24) (by omega) ha hx hb hy hc (upTo_zero 24 (by omega))) (UpTo.mono hd (by omega))

end NoPanic

section
variable [Libm F32]

/-- C76: no direction of a ray of such a camera loses its `y` coordinate, at any point of the film up to `2 ^ 24`. -/
theorem c76_camera_steady (hl : SaneLibm) (camera : PerspectiveCamera F32) (hc : SteadyCamera camera) (p : V2 F32) (hx : UpTo 24 p.x) (hy : UpTo 24 p.y) :
    ¬ LostY (camera.generateRay p).direction := by
  obtain ⟨hrot, hwin, hcor, hflat, hdep⟩ := hc
  simp only [List.mem_cons, List.not_mem_nil, or_false, forall_eq_or_imp, forall_eq] at hrot hwin hcor hflat hdep
  obtain ⟨r00, r01, r02, r10, r11, r12, r20, r21, r22⟩ := hrot
  obtain ⟨w00, w01, w02, w10, w11, w12⟩ := hwin
  obtain ⟨c03, c13, c22, c32⟩ := hcor
  obtain ⟨f20, f21, f30, f31⟩ := hflat
  obtain ⟨⟨z1, z2⟩, d1, d2⟩ := hdep
  have hX := NoPanic.camera_row w00 w01 w02 c03 hx hy
  have hY := NoPanic.camera_row w10 w11 w12 c13 hx hy
  obtain ⟨Z1, Z2⟩ := NoPanic.flat_row f20 f21 c22.1 z1.1 hx.1 hy.1
  obtain ⟨W1, W2⟩ := NoPanic.flat_row f30 f31 c32.1 d1.1 hx.1 hy.1
  have hP : UpTo3 53 (camera.rasterToCamera.apply pointTransform ⟨p.x, p.y, lit 0⟩) ∧ NotTiny (camera.rasterToCamera.apply pointTransform ⟨p.x, p.y, lit 0⟩) := by
    unfold Transform.apply pointTransform
    generalize camera.rasterToCamera.m.m00 *. p.x +. camera.rasterToCamera.m.m01 *. p.y +. camera.rasterToCamera.m.m02 *. lit 0 +. camera.rasterToCamera.m.m03 = X at *
    generalize camera.rasterToCamera.m.m10 *. p.x +. camera.rasterToCamera.m.m11 *. p.y +. camera.rasterToCamera.m.m12 *. lit 0 +. camera.rasterToCamera.m.m13 = Y at *
    generalize camera.rasterToCamera.m.m20 *. p.x +. camera.rasterToCamera.m.m21 *. p.y +. camera.rasterToCamera.m.m22 *. lit 0 +. camera.rasterToCamera.m.m23 = Z at *
    generalize camera.rasterToCamera.m.m30 *. p.x +. camera.rasterToCamera.m.m31 *. p.y +. camera.rasterToCamera.m.m32 *. lit 0 +. camera.rasterToCamera.m.m33 = W at *
    have hZ : UpTo 20 Z := ⟨Z1, by rw [Z2]; exact z1.2⟩
    have hW : UpTo 20 W := ⟨W1, by rw [W2]; exact d1.2⟩
    rw [← Z2] at z2
    rw [← W2] at d2
    simp only
    split_ifs
    · refine ⟨⟨NoPanic.UpTo.mono hX (by omega), NoPanic.UpTo.mono hY (by omega), NoPanic.UpTo.mono hZ (by omega)⟩, Or.inr (Or.inr (le_trans ?_ z2))⟩
      norm_num
    · have hW0 : W.val ≠ 0 := by intro h; rw [h] at d2; norm_num at d2
      have key : ∀ q : F32, UpTo 37 q → UpTo 53 (q /. W) := fun q hq => NoPanic.upTo_div (by omega) hq.1 hW.1 hW0 (by
        have := hq.2
        norm_num at this d2 ⊢
        linarith)
      exact ⟨⟨key _ hX, key _ hY, key _ (NoPanic.UpTo.mono hZ (by omega))⟩, Or.inr (Or.inr (NoPanic.div_ge hZ hW z2 d2))⟩
  have hn := NoPanic.normalize_upTo hl hP.1 hP.2
  apply NoPanic.not_lost_upTo (n := 50 + 1 + 2)
  exact ⟨NoPanic.upTo_sum3 (by omega) r00 hn.1 r01 hn.2.1 r02 hn.2.2, NoPanic.upTo_sum3 (by omega) r10 hn.1 r11 hn.2.1 r12 hn.2.2,
    NoPanic.upTo_sum3 (by omega) r20 hn.1 r21 hn.2.1 r22 hn.2.2⟩

end

namespace NoPanic
/-- The points of the tiles of a film. -/
theorem tile_points (res : V2 Int) (filt : Filter F32) (hR : FilmRange32 res filt.radius) {b : BBox2i} (hb : b ∈ (Film.new res filt).iter.toList)
    {p : V2 Int} (hp : p ∈ b.iter.toList) : |p.x| ≤ 2 ^ 23 ∧ |p.y| ≤ 2 ^ 23 := by
  obtain ⟨hf, h0, h1, x0, y0, x1, y1, -⟩ := hR
  unfold Film.iter at hb
  obtain ⟨i, j, hi0, hi, hj0, hj, rfl⟩ := (mem_tiles _ _).1 hb
  rw [tileAt_eq _ i j hi hj] at hp
  obtain ⟨lx, hx, ex1, ex2, ex3, ex4, ex5, -⟩ := sampleAxis hf h0 h1 x0 x1
  obtain ⟨ly, hy, ey1, ey2, ey3, ey4, ey5, -⟩ := sampleAxis hf h0 h1 y0 y1
  have hS : (Film.new res filt).sampleBBox = ⟨⟨⌊lx⌋, ⌊lx⌋⟩, ⟨⌈hx⌉, ⌈hy⌉⟩⟩ := by
    unfold Film.sampleBBox
    simp only [V2.add, V2.sub, V2.ssub, V2.sadd, V2.floor, V2.ceil, V2.toI, V2.ofI, halfPixel, Film.new]
    rw [ex1, ex2, ey2]
    have : ⌊lx⌋ = ⌊ly⌋ := by rw [← ex1, ey1]
    simp only [BBox2i.new, V2.imin, V2.imax, imin, imax, BBox2i.mk.injEq, V2.mk.injEq]
    refine ⟨⟨?_, ?_⟩, ?_, ?_⟩ <;> split_ifs <;> omega
  rw [hS] at hp hi hj
  rw [BBox2i.mem_toList] at hp
  simp only at hp
  exact ⟨abs_le.2 ⟨by omega, by omega⟩, abs_le.2 ⟨by omega, by omega⟩⟩

theorem film_point {n : Int} (hn : |n| ≤ 2 ^ 23) {u : F32} (hu : Sample32 u) : UpTo 24 ((ofInt n : F32) +. u) := by
  obtain ⟨h1, h2⟩ := ofInt_exact (n := n) (hn.trans (by norm_num))
  refine upTo_add (n := 23) (by omega) ⟨⟨?_, h1⟩, ?_⟩ (UpTo.mono (sample_num hu).1 (by omega))
  · exact ofVal_WF _ _
  · rw [h2]; exact_mod_cast hn
end NoPanic

section
variable [Libm F32] [Libm F64]

/-- C76: rendering a scene of matt triangles, matt spheres, distant lights and area lights on matt triangles with a perspective camera and the Halton sampler in
single precision, no thread panics in any schedule of any number of threads, and the render can be completed. -/
theorem c76_matt_render (hl : SaneLibm) (hist : List (BuilderCall F32)) (hlib : ∀ c ∈ hist, MattCall c)
    {mk : List (Obj F32) → Option (Container F32)} (hmk : LibraryContainer mk) {scene : Scene F32} (hsc : (built hist).construct mk = some scene)
    (camera : PerspectiveCamera F32) (hcam : SteadyCamera camera) (res : V2 Int) (filt : Filter F32) (hR : FilmRange32 res filt.radius)
    (sampler : HaltonSampler) (hspp : sampler.samplesPerPixel < 2 ^ 32) (n : Nat) (file : Option (List UInt8)) :
    let work := renderTile HaltonSampler.ops (cameraRadiance scene camera) (Film.new res filt)
    (∀ k st, RReach work sampler (RState.init (Film.new res filt) n file) k st → .panicked ∉ st.threads) ∧
    ∃ k st, RReach work sampler (RState.init (Film.new res filt) n file) k st ∧ st.main = .done :=
  c76_matt_f32 hl hist hlib hmk hsc camera res filt hR sampler hspp (fun b hb p hp u h1 h2 =>
    have h := NoPanic.tile_points res filt hR hb hp
    c76_camera_steady hl camera hcam _ (NoPanic.film_point h.1 h1) (NoPanic.film_point h.2 h2)) n file
end


/-! ### The hypotheses can be met -/

namespace NoPanic
def check (n : ℕ) : F32 → Bool
  | .fin _ a => decide (0 ≤ a) && decide (Rounding.rnd Binary32 a = some a) && decide (a ≤ 2 ^ n)
  | _ => false

theorem check_upTo {n : ℕ} {x : F32} (h : check n x = true) : UpTo n x := by
  match x, h with
  | .fin s a, h =>
    simp only [check, Bool.and_eq_true, decide_eq_true_eq] at h
    refine ⟨⟨⟨h.1.1, h.1.2⟩, trivial⟩, ?_⟩
    simp only [Fl.val]
    cases s <;> simpa [Fl.sgn, abs_of_nonneg h.1.1] using h.2

theorem zpow_repr {k : ℤ} (h0 : -74 ≤ k) (h1 : k ≤ 126) : Fl.Repr Binary32 ((2 : ℚ) ^ k) := by
  unfold Fl.Repr
  rw [abs_of_nonneg (by positivity)]
  obtain ⟨n, rfl⟩ : ∃ n : ℕ, k = (n : ℤ) - 127 := ⟨(k + 127).toNat, by omega⟩
  obtain ⟨k, hk, hv⟩ := sval_dyadic n (2 ^ 22) (by omega) (by norm_num)
  show Bin.rnd 23 149 0x7f800000 31 _ = _
  rw [Bin.rnd_some]
  have hval : ((2 : ℚ) ^ ((n : ℤ) - 127) * 2 ^ 149) = (sval 23 k : ℚ) := by
    rw [hv, zpow_sub₀ (by norm_num)]; push_cast; norm_num; ring
  rw [hval, ordRound_exact 23 31 k (by omega)]
  refine ⟨hk, ?_⟩
  rw [← hval]; field_simp

end NoPanic

namespace Demo
/-- A rough square root: a power of two. -/
noncomputable def roughSqrt : F32 → F32
  | .nan => .nan
  | .inf s => .inf s
  | .fin s a => if 0 < (Fl.fin s a : F32).val then Fl.ofVal (2 ^ Int.log 4 (2 * (Fl.fin s a : F32).val)) false else lit 0

/-- A mathematical library: the square root is a power of two, the sine and cosine are 0. -/
noncomputable abbrev roughLibm : Libm F32 :=
  ⟨roughSqrt, fun _ => lit 0, fun _ => lit 0, fun _ => lit 1, id,
    fun _ y => y, id, id, id, fun _ y => y, f32 (13176795 / 2 ^ 22)⟩

/-- It is sane. -/
theorem roughLibm_sane : @SaneLibm roughLibm := by
  refine @SaneLibm.mk roughLibm rfl rfl ?_ (fun _ _ => NoPanic.upTo_zero 0 (by omega)) (fun _ _ => NoPanic.upTo_zero 0 (by omega)) ?_
  · intro x hx h0
    have e : roughSqrt x = if 0 < x.val then Fl.ofVal (2 ^ Int.log 4 (2 * x.val)) false else lit 0 := by
      obtain ⟨s, a, rfl⟩ := Fl.IsFin_iff.1 hx.fin; rfl
    show Num (roughSqrt x) ∧ 0 ≤ (roughSqrt x).val ∧ (roughSqrt x).val ^ 2 ≤ 2 * x.val ∧ x.val ≤ 2 * (roughSqrt x).val ^ 2
    rw [e]
    show Num (if 0 < x.val then Fl.ofVal (2 ^ Int.log 4 (2 * x.val)) false else lit 0 : F32) ∧
      0 ≤ (if 0 < x.val then Fl.ofVal (2 ^ Int.log 4 (2 * x.val)) false else lit 0 : F32).val ∧
      (if 0 < x.val then Fl.ofVal (2 ^ Int.log 4 (2 * x.val)) false else lit 0 : F32).val ^ 2 ≤ 2 * x.val ∧
      x.val ≤ 2 * (if 0 < x.val then Fl.ofVal (2 ^ Int.log 4 (2 * x.val)) false else lit 0 : F32).val ^ 2
    rcases h0.lt_or_eq with h | h
    · rw [if_pos h]
      obtain ⟨r1, r2⟩ := NoPanic.val_range hx h
      have l1 := Int.zpow_log_le_self (b := 4) (by norm_num) (show 0 < 2 * x.val by linarith)
      have l2 := Int.lt_zpow_succ_log_self (b := 4) (by norm_num) (2 * x.val)
      have b1 : -74 ≤ Int.log 4 (2 * x.val) := by
        rw [← Int.zpow_le_iff_le_log (by norm_num) (by linarith)]
        norm_num at r1 ⊢; linarith
      have b2 : Int.log 4 (2 * x.val) < 65 := by
        rw [← Int.lt_zpow_iff_log_lt (by norm_num) (by linarith)]
        norm_num at r2 ⊢; linarith
      generalize Int.log 4 (2 * x.val) = k at *
      obtain ⟨v1, v2⟩ := Fl.ofVal_repr (NoPanic.zpow_repr b1 (by omega)) false
      have e4 : ((4 : ℕ) : ℚ) ^ k = ((2 : ℚ) ^ k) ^ 2 := by
        rw [← zpow_natCast, ← zpow_mul, mul_comm, zpow_mul]; norm_num
      rw [zpow_add_one₀ (by norm_num), e4] at l2
      rw [e4] at l1
      refine ⟨⟨Fl.ofVal_WF _ _, v1⟩, ?_, ?_, ?_⟩ <;> rw [v2]
      · positivity
      · exact l1
      · push_cast at l2; linarith
    · rw [if_neg (by rw [← h]; exact lt_irrefl _), zero_ok.2, ← h]
      exact ⟨zero_ok.1, by norm_num, by norm_num, by norm_num⟩
  · exact NoPanic.check_upTo (by decide +kernel)

theorem wall_checks : NoPanic.check 25 (f32 1) = true ∧ NoPanic.check 25 (f32 (-1)) = true ∧ NoPanic.check 25 (f32 3) = true := by decide +kernel

/-- The wall is a matt triangle of moderate size. -/
theorem wall_matt [Libm F32] : MattTriangle wall where
  v0 := ⟨NoPanic.check_upTo wall_checks.1, NoPanic.check_upTo wall_checks.2.1, NoPanic.check_upTo wall_checks.2.1⟩
  v1 := ⟨NoPanic.check_upTo wall_checks.1, NoPanic.check_upTo wall_checks.2.2, NoPanic.check_upTo wall_checks.2.1⟩
  v2 := ⟨NoPanic.check_upTo wall_checks.1, NoPanic.check_upTo wall_checks.2.1, NoPanic.check_upTo wall_checks.2.2⟩
  flat := rfl
  matt := ⟨_, rfl⟩
  normal := by
    have : (((⟨f32 1, f32 (-1), f32 (-1)⟩ : V3 F32).sub ⟨f32 1, f32 (-1), f32 3⟩).cross
      ((⟨f32 1, f32 3, f32 (-1)⟩ : V3 F32).sub ⟨f32 1, f32 (-1), f32 3⟩)).x.val = 16 := by decide +kernel
    left
    show 1 / 2 ^ 50 ≤ |(((⟨f32 1, f32 (-1), f32 (-1)⟩ : V3 F32).sub ⟨f32 1, f32 (-1), f32 3⟩).cross
      ((⟨f32 1, f32 3, f32 (-1)⟩ : V3 F32).sub ⟨f32 1, f32 (-1), f32 3⟩)).x.val|
    rw [this]; norm_num
  side := by
    have : (((⟨f32 1, f32 3, f32 (-1)⟩ : V3 F32).sub ⟨f32 1, f32 (-1), f32 (-1)⟩).cross
      ((⟨f32 1, f32 (-1), f32 3⟩ : V3 F32).sub ⟨f32 1, f32 (-1), f32 (-1)⟩)).x.val = 16 := by decide +kernel
    left
    show 1 / 2 ^ 50 ≤ |(((⟨f32 1, f32 3, f32 (-1)⟩ : V3 F32).sub ⟨f32 1, f32 (-1), f32 (-1)⟩).cross
      ((⟨f32 1, f32 (-1), f32 3⟩ : V3 F32).sub ⟨f32 1, f32 (-1), f32 (-1)⟩)).x.val|
    rw [this]; norm_num
  tangent := by
    have hc : (Scalar.abs (((lit 0 : F32) -. lit 1) *. (lit 0 -. lit 1) -. (lit 0 -. lit 1) *. (lit 1 -. lit 1)) <. epsilon) = false := by decide +kernel
    have hv : (((f32 (-1) -. f32 (-1)) *. (lit 0 -. lit 1) -. (f32 3 -. f32 (-1)) *. (lit 0 -. lit 1)) /.
      (((lit 0 : F32) -. lit 1) *. (lit 0 -. lit 1) -. (lit 0 -. lit 1) *. (lit 1 -. lit 1)) : F32).val = 4 := by decide +kernel
    right; left
    unfold Triangle.partials Triangle.getUv
    simp only [V2.sub, hc, Bool.false_eq_true, if_false]
    show 1 / 2 ^ 50 ≤ |(((f32 (-1) -. f32 (-1)) *. (lit 0 -. lit 1) -. (f32 3 -. f32 (-1)) *. (lit 0 -. lit 1)) /.
      (((lit 0 : F32) -. lit 1) *. (lit 0 -. lit 1) -. (lit 0 -. lit 1) *. (lit 1 -. lit 1)) : F32).val|
    rw [hv]; norm_num

/-- A perspective camera of the library with a view of 90 degrees. -/
def wideCamera [Libm F32] : PerspectiveCamera F32 :=
  .new (Transform.translate (lit 1) (lit 2) (lit 3)) (Transform.perspective (lit 90) (lit (1 / 100)) (lit 1000)) ⟨lit (-1), lit (-1)⟩ ⟨lit 1, lit 1⟩ ⟨640, 480⟩

/-- The camera's matrices, given the tangent of 45 degrees. -/
def wideRaster : Matrix F32 :=
  let p : Matrix F32 := ⟨lit 1, lit 0, lit 0, lit 0, lit 0, lit 1, lit 0, lit 0,
    lit 0, lit 0, lit 1000 /. (lit 1000 -. lit (1 / 100)), (⊖(lit 1000)) *. lit (1 / 100) /. (lit 1000 -. lit (1 / 100)), lit 0, lit 0, lit 1, lit 0⟩
  let cs : Transform F32 := (Transform.scale (lit 1 /. lit 1) (lit 1 /. lit 1) (lit 1)).mul (Transform.ofMatrix p)
  let sr : Transform F32 := ((Transform.scale (ofInt 640) (ofInt 480) (lit 1)).mul
      (Transform.scale (lit 1 /. (lit 1 -. lit (-1))) (lit 1 /. (lit (-1) -. lit 1)) (lit 1))).mul
      (Transform.translate (⊖(lit (-1))) (⊖(lit 1)) (lit 0))
  (cs.inverse.mul sr.inverse).m

theorem wideCamera_raster [Libm F32] (ht : Libm.tan (toRadians (lit 90) /. lit 2 : F32) = lit 1) : wideCamera.rasterToCamera.m = wideRaster := by
  unfold wideCamera PerspectiveCamera.new Transform.perspective
  rw [ht]
  rfl

theorem wideRaster_checks : ([wideRaster.m00, wideRaster.m01, wideRaster.m02, wideRaster.m10, wideRaster.m11, wideRaster.m12].all (NoPanic.check 10) &&
    [wideRaster.m03, wideRaster.m13, wideRaster.m22, wideRaster.m32, wideRaster.m23, wideRaster.m33].all (NoPanic.check 20) &&
    [wideRaster.m20, wideRaster.m21, wideRaster.m30, wideRaster.m31].all (fun x => NoPanic.check 0 x && decide (x.val = 0)) &&
    [wideRaster.m23, wideRaster.m33].all (fun x => decide (1 / 2 ^ 10 ≤ |x.val|))) = true := by decide +kernel

theorem wideCamera_steady [Libm F32] (ht : Libm.tan (toRadians (lit 90) /. lit 2 : F32) = lit 1) : SteadyCamera wideCamera := by
  have h := wideRaster_checks
  simp only [Bool.and_eq_true, List.all_eq_true, decide_eq_true_eq] at h
  obtain ⟨⟨⟨h1, h2⟩, h3⟩, h4⟩ := h
  have hr := wideCamera_raster ht
  refine ⟨?_, ?_, ?_, ?_, ?_⟩
  · intro x hx
    have : x = lit 0 ∨ x = lit 1 := by
      simp only [wideCamera, PerspectiveCamera.new, Transform.translate, List.mem_cons, List.not_mem_nil, or_false] at hx
      tauto
    rcases this with rfl | rfl
    · exact NoPanic.upTo_zero _ (by omega)
    · exact NoPanic.UpTo.mono NoPanic.upTo_one (by omega)
  · rw [hr]; exact fun x hx => NoPanic.check_upTo (h1 x hx)
  · rw [hr]; exact fun x hx => NoPanic.check_upTo (h2 x (by simp only [List.mem_cons, List.not_mem_nil, or_false] at hx ⊢; tauto))
  · rw [hr]; exact fun x hx => ⟨(NoPanic.check_upTo (h3 x hx).1).1, (h3 x hx).2⟩
  · rw [hr]; exact fun x hx => ⟨NoPanic.check_upTo (h2 x (by simp only [List.mem_cons, List.not_mem_nil, or_false] at hx ⊢; tauto)), h4 x hx⟩

/-- A ball. -/
def mattBall [Libm F32] : Sphere F32 := ⟨⟨lit 0, lit 0, lit 1⟩, lit 1, lambertianMaterial (constantTexture ⟨lit 1, lit 1, lit 1⟩)⟩

theorem ball0 : UpTo 20 (lit 0 : F32) := NoPanic.check_upTo (by decide +kernel)
theorem ball1 : UpTo 20 (lit 1 : F32) := NoPanic.check_upTo (by decide +kernel)

theorem mattBall_matt [Libm F32] : MattSphere mattBall where
  center := ⟨ball0, ball0, ball1⟩
  radius := ball1
  wide := by
    have : (lit 1 : F32).val = 1 := by decide +kernel
    show 1 / 2 ^ 20 ≤ (lit 1 : F32).val
    rw [this]; norm_num
  matt := ⟨_, rfl⟩

/-- The wall, a ball, an area light on the wall, and a distant light. -/
def mattScene [Libm F32] [Libm F64] : List (BuilderCall F32) :=
  [.shape 0 wall.toShape, .shape 3 mattBall.toShape, .area 1 ⟨⟨lit 1, lit 1, lit 1⟩, wall.toShape⟩,
   .light 2 fun box => ((DistantLight.new ⟨lit 1, lit 1, lit 1⟩ ⟨lit (-3), lit 0, lit 4⟩).preProcess box).toLight]

theorem mattScene_matt [Libm F32] [Libm F64] : ∀ c ∈ mattScene, MattCall c := by
  intro c hc
  simp only [mattScene, List.mem_cons, List.not_mem_nil, or_false] at hc
  rcases hc with rfl | rfl | rfl | rfl
  · exact .triangle _ _ wall_matt
  · exact .sphere _ _ mattBall_matt
  · exact .area _ _ _ wall_matt
  · refine .distant _ _ _ ⟨NoPanic.check_upTo (by decide +kernel), NoPanic.check_upTo (by decide +kernel), NoPanic.check_upTo (by decide +kernel)⟩ (Or.inl ?_)
    have : (lit (-3) : F32).val = -3 := by decide +kernel
    show 1 / 2 ^ 50 ≤ |(lit (-3) : F32).val|
    rw [this]; norm_num
end Demo

/-- All hypotheses of the theorem are met by a scene of a wall, a ball, an area light and a distant light, the library's perspective camera and a rough
mathematical library. -/
example [Libm F64] (sampler : HaltonSampler) (hspp : sampler.samplesPerPixel < 2 ^ 32) (e : V2 F32 → F32) (n : Nat) (file : Option (List UInt8)) :
    letI := Demo.roughLibm
    ∃ scene, (built Demo.mattScene).construct (fun ss => (Simple.new ss).map Simple.toContainer) = some scene ∧
      let film := Film.new ⟨640, 480⟩ (⟨lit 2, e⟩ : Filter F32)
      let work := renderTile HaltonSampler.ops (cameraRadiance scene Demo.wideCamera) film
      (∀ k st, RReach work sampler (RState.init film n file) k st → .panicked ∉ st.threads) ∧
      ∃ k st, RReach work sampler (RState.init film n file) k st ∧ st.main = .done := by
  let _ := Demo.roughLibm
  have hR : FilmRange32 ⟨640, 480⟩ (⟨lit 2, e⟩ : Filter F32).radius := by
    have h : (lit (2 : ℚ) : F32).IsFin ∧ (lit (2 : ℚ) : F32).val = 2 := by
      have := ofInt_exact (n := 2) (by norm_num)
      simpa [ofInt] using this
    exact ⟨h.1, by rw [h.2]; norm_num, by rw [h.2]; norm_num, by norm_num, by norm_num, by norm_num, by norm_num, by norm_num⟩
  refine ⟨_, rfl, ?_⟩
  exact c76_matt_render Demo.roughLibm_sane _ Demo.mattScene_matt .simple rfl _ (Demo.wideCamera_steady rfl) _ _ hR sampler hspp n file

end PT
