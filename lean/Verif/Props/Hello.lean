import Verif.Model.Hello
import Verif.Props.NoPanicCamera
import Verif.Props.Schedule
import Verif.Props.Output

/-! # C99: the example program /repo/examples/helloworld.rs renders its image -/

namespace PT
open Spec Fl

namespace Spec
/-- At the end of a run the output file starts with a well-formed image of this size; it is exactly the image if the old file was not longer. -/
def ImageWritten (w h : Int) (old new : Option (List UInt8)) : Prop :=
  ∃ (img : String) (px : List (Nat × Nat × Nat)) (content : List UInt8), Spec.IsPpm img w h px ∧ new = some content ∧
    img.toUTF8.toList <+: content ∧ ((old.getD []).length ≤ img.toUTF8.toList.length → content = img.toUTF8.toList)

/-- What a user expects of a run of `render`: no thread panics in any schedule; every schedule comes to an end, and at its end either the image is
written or the file could not be opened and is as it was; and there is a schedule in which the image is written. -/
structure Renders {α σ : Type} [Scalar α] [Libm α] (work : σ → BBox2i → Option (FilmTile α × σ)) (sampler : σ) (film : Film α) (n : Nat)
    (file : Option (List UInt8)) : Prop where
  noPanic : ∀ k st, RReach work sampler (RState.init film n file) k st → .panicked ∉ st.threads
  bounded : ∃ bound, ∀ k st, RReach work sampler (RState.init film n file) k st → k ≤ bound
  ends : ∀ k st, RReach work sampler (RState.init film n file) k st → (∀ st', ¬ RStep work sampler st st') →
    (st.main = .done ∧ ImageWritten film.resolution.x film.resolution.y file st.file) ∨ (st.main = .failed ∧ st.file = file)
  completes : ∃ k st, RReach work sampler (RState.init film n file) k st ∧ st.main = .done

/-- What is asked of the tangent of an angle between 7 and 29 degrees, and of π. -/
structure SaneTan [Libm F32] : Prop where
  pi : 3 ≤ (Libm.pi : F32).val
  tan : ∀ x : F32, Num x → 1 / 8 ≤ x.val → x.val ≤ 1 / 2 → Num (Libm.tan x) ∧ x.val ≤ (Libm.tan x).val ∧ (Libm.tan x).val ≤ 2 * x.val
end Spec

namespace Hello

section
variable {α : Type} [Scalar α] [Libm α] [HasInf α]
/-- The calls on the builder. -/
def calls {β : Type} [Scalar β] [Libm β] [Widen α β] (addr : Nat → Nat) : List (BuilderCall α) :=
  [.area (addr 0) ⟨Spectrum.of (lit (9 / 10)), light1.toShape⟩, .area (addr 1) ⟨Spectrum.of (lit (9 / 10)), light2.toShape⟩,
   .shape (addr 2) ball.toShape, .shape (addr 3) floor1.toShape, .shape (addr 4) floor2.toShape]

theorem scene_calls {β : Type} [Scalar β] [Libm β] [Widen α β] (addr : Nat → Nat) :
    scene (α := α) addr = (built (calls addr)).construct fun ss => (KdTree.new ss none).map KdTree.toContainer := rfl
end

/-! ### The triangles -/

/-- The tangent computed for a triangle. -/
def plainTangent (v0 v1 v2 : V3 F32) : V3 F32 :=
  (((v0.sub v2).smul ((lit 0 : F32) -. lit 1)).sub ((v1.sub v2).smul ((lit 0 : F32) -. lit 1))).sdiv
    (((lit 0 : F32) -. lit 1) *. (lit 0 -. lit 1) -. (lit 0 -. lit 1) *. (lit 1 -. lit 1))

theorem partials_plain [Libm F32] (t : Triangle F32) : t.partials.1 = plainTangent t.v0 t.v1 t.v2 := by
  have hc : (Scalar.abs (((lit 0 : F32) -. lit 1) *. (lit 0 -. lit 1) -. (lit 0 -. lit 1) *. (lit 1 -. lit 1)) <. epsilon) = false := by decide +kernel
  unfold Triangle.partials Triangle.getUv plainTangent
  simp only [V2.sub, hc, Bool.false_eq_true, if_false]

def big (v : V3 F32) : Bool := decide (1 / 2 ^ 50 ≤ |v.x.val|) || decide (1 / 2 ^ 50 ≤ |v.y.val|) || decide (1 / 2 ^ 50 ≤ |v.z.val|)
def checkPoint (v : V3 F32) : Bool := NoPanic.check 20 v.x && NoPanic.check 20 v.y && NoPanic.check 20 v.z
def checkTriangle (v0 v1 v2 : V3 F32) : Bool :=
  checkPoint v0 && checkPoint v1 && checkPoint v2 && big ((v0.sub v2).cross (v1.sub v2)) && big ((v1.sub v0).cross (v2.sub v0)) &&
    big (plainTangent v0 v1 v2)

theorem big_notTiny {v : V3 F32} (h : big v = true) : NotTiny v := by
  simp only [big, Bool.or_eq_true, decide_eq_true_eq] at h
  unfold NotTiny
  tauto

theorem checkPoint_upTo {v : V3 F32} (h : checkPoint v = true) : UpTo3 20 v := by
  simp only [checkPoint, Bool.and_eq_true] at h
  exact ⟨NoPanic.check_upTo h.1.1, NoPanic.check_upTo h.1.2, NoPanic.check_upTo h.2⟩

theorem checked_triangle [Libm F32] {v0 v1 v2 : V3 F32} (h : checkTriangle v0 v1 v2 = true) (r : Bool) (q : ℚ) :
    MattTriangle ⟨v0, v1, v2, none, r, matt q⟩ := by
  simp only [checkTriangle, Bool.and_eq_true] at h
  obtain ⟨⟨⟨⟨⟨h0, h1⟩, h2⟩, h3⟩, h4⟩, h5⟩ := h
  exact ⟨NoPanic.UpTo3.mono (checkPoint_upTo h0) (by omega), NoPanic.UpTo3.mono (checkPoint_upTo h1) (by omega),
    NoPanic.UpTo3.mono (checkPoint_upTo h2) (by omega), rfl, ⟨_, rfl⟩, big_notTiny h3, big_notTiny h4,
    by rw [partials_plain]; exact big_notTiny h5⟩

theorem light1_check : checkTriangle (point (-1) (-1) 3) (point 1 (-1) 3) (point 1 1 3) = true := by decide +kernel
theorem light2_check : checkTriangle (point 1 1 3) (point (-1) 1 3) (point (-1) (-1) 3) = true := by decide +kernel
theorem floor1_check : checkTriangle (point (-10) (-10) 0) (point 10 (-10) 0) (point 10 10 0) = true := by decide +kernel
theorem floor2_check : checkTriangle (point 10 10 0) (point (-10) 10 0) (point (-10) (-10) 0) = true := by decide +kernel
theorem ball_check : checkPoint (point 0 0 1) = true ∧ NoPanic.check 20 (lit 1 : F32) = true ∧ (lit 1 : F32).val = 1 := by decide +kernel

theorem ball_matt [Libm F32] : MattSphere (ball : Sphere F32) where
  center := checkPoint_upTo ball_check.1
  radius := NoPanic.check_upTo ball_check.2.1
  wide := by
    show 1 / 2 ^ 20 ≤ (lit 1 : F32).val
    rw [ball_check.2.2]; norm_num
  matt := ⟨_, rfl⟩

theorem calls_matt [Libm F32] [Libm F64] (addr : Nat → Nat) : ∀ c ∈ calls addr, MattCall c := by
  intro c hc
  simp only [calls, List.mem_cons, List.not_mem_nil, or_false] at hc
  rcases hc with rfl | rfl | rfl | rfl | rfl
  · exact .area _ _ _ (checked_triangle light1_check _ _)
  · exact .area _ _ _ (checked_triangle light2_check _ _)
  · exact .sphere _ _ ball_matt
  · exact .triangle _ _ (checked_triangle floor1_check _ _)
  · exact .triangle _ _ (checked_triangle floor2_check _ _)

/-! ### The camera -/

def IsZero (x : F32) : Prop := Num x ∧ x.val = 0

theorem IsZero.upTo {x : F32} (h : IsZero x) (n : ℕ) : UpTo n x := ⟨h.1, by rw [h.2, abs_zero]; positivity⟩

theorem upTo_row {m n : ℕ} (hn : m + n + 3 ≤ 126) {a b c d x y z w : F32} (ha : UpTo m a) (hb : UpTo m b) (hc : UpTo m c) (hd : UpTo m d)
    (hx : UpTo n x) (hy : UpTo n y) (hz : UpTo n z) (hw : UpTo n w) : UpTo (m + n + 3) (a *. x +. b *. y +. c *. z +. d *. w) :=
  NoPanic.upTo_add (by omega) (NoPanic.upTo_sum3 (by omega) ha hx hb hy hc hz) (NoPanic.UpTo.mono (NoPanic.upTo_mul (by omega) hd hw) (by omega))

theorem zero_mul' {a b : F32} (ha : IsZero a) (hb : Num b) : IsZero (a *. b) := NoPanic.zero_times ha hb
theorem mul_zero' {a b : F32} (ha : Num a) (hb : IsZero b) : IsZero (a *. b) := NoPanic.times_zero ha hb

theorem zero_row {p q r s : F32} (hp : IsZero p) (hq : IsZero q) (hr : IsZero r) (hs : Num s) : Num (p +. q +. r +. s) ∧ (p +. q +. r +. s).val = s.val := by
  obtain ⟨a1, a2⟩ := NoPanic.zero_plus hp hq.1
  obtain ⟨b1, b2⟩ := NoPanic.zero_plus ⟨a1, a2.trans hq.2⟩ hr.1
  exact NoPanic.zero_plus ⟨b1, b2.trans hr.2⟩ hs

/-- A perspective matrix times a matrix from the raster to the screen. -/
theorem steady_product {A R : Matrix F32}
    (a0 : ∀ x ∈ [A.m00, A.m01, A.m02, A.m03, A.m10, A.m11, A.m12, A.m13], UpTo 5 x)
    (az : ∀ x ∈ [A.m20, A.m21, A.m30, A.m31], IsZero x) (a2 : ∀ x ∈ [A.m22, A.m32], UpTo 10 x)
    (ad : ∀ x ∈ [A.m23, A.m33], UpTo 10 x ∧ 1 / 2 ^ 8 ≤ |x.val|)
    (r0 : ∀ x ∈ [R.m00, R.m01, R.m02, R.m03, R.m10, R.m11, R.m12, R.m13, R.m22, R.m32], UpTo 2 x)
    (rz : ∀ x ∈ [R.m20, R.m21, R.m23, R.m30, R.m31], IsZero x) (r1 : Num R.m33 ∧ R.m33.val = 1) :
    let M := A.mul R
    (∀ x ∈ [M.m00, M.m01, M.m02, M.m10, M.m11, M.m12], UpTo 10 x) ∧ (∀ x ∈ [M.m03, M.m13, M.m22, M.m32], UpTo 20 x) ∧
    (∀ x ∈ [M.m20, M.m21, M.m30, M.m31], Num x ∧ x.val = 0) ∧ (∀ x ∈ [M.m23, M.m33], UpTo 20 x ∧ 1 / 2 ^ 10 ≤ |x.val|) := by
  simp only [List.mem_cons, List.not_mem_nil, or_false, forall_eq_or_imp, forall_eq] at a0 az a2 ad r0 rz ⊢
  obtain ⟨a00, a01, a02, a03, a10, a11, a12, a13⟩ := a0
  obtain ⟨a20, a21, a30, a31⟩ := az
  obtain ⟨a22, a32⟩ := a2
  obtain ⟨⟨a23, d23⟩, a33, d33⟩ := ad
  obtain ⟨r00, r01, r02, r03, r10, r11, r12, r13, r22, r32⟩ := r0
  obtain ⟨r20, r21, r23, r30, r31⟩ := rz
  have r33 : UpTo 2 R.m33 := ⟨r1.1, by rw [r1.2]; norm_num⟩
  have row := @upTo_row 5 2 (by omega)
  have z : ∀ {x : F32}, IsZero x → UpTo 2 x := fun h => h.upTo 2
  have exact1 : ∀ {d : F32}, UpTo 10 d → Num (d *. R.m33) ∧ (d *. R.m33).val = d.val := by
    intro d hd
    obtain ⟨zs, e⟩ := mul_val hd.1 r1.1
    obtain ⟨h1, h2, h3⟩ := ofVal_val hd.1.fin hd.1.wf zs
    rw [e, r1.2, mul_one]
    exact ⟨⟨ofVal_WF _ _, h2⟩, h3⟩
  have last : ∀ {a b c d : F32}, IsZero a → IsZero b → UpTo 10 c → UpTo 10 d → 1 / 2 ^ 8 ≤ |d.val| →
      UpTo 20 (a *. R.m03 +. b *. R.m13 +. c *. R.m23 +. d *. R.m33) ∧ 1 / 2 ^ 10 ≤ |(a *. R.m03 +. b *. R.m13 +. c *. R.m23 +. d *. R.m33).val| := by
    intro a b c d ha hb hc hd h8
    obtain ⟨e1, e2⟩ := exact1 hd
    obtain ⟨h1, h2⟩ := zero_row (zero_mul' ha r03.1) (zero_mul' hb r13.1) (mul_zero' hc.1 r23) e1
    refine ⟨⟨h1, ?_⟩, ?_⟩ <;> rw [h2, e2]
    · exact hd.2.trans (by norm_num)
    · exact le_trans (by norm_num) h8
  have zero : ∀ {a b c d x y z w : F32}, IsZero a → IsZero b → Num c → Num d → Num x → Num y → IsZero z → IsZero w →
      Num (a *. x +. b *. y +. c *. z +. d *. w) ∧ (a *. x +. b *. y +. c *. z +. d *. w).val = 0 := by
    intro a b c d x y z w ha hb hc hd hx hy hz hw
    have hl := mul_zero' hd hw
    obtain ⟨h1, h2⟩ := zero_row (zero_mul' ha hx) (zero_mul' hb hy) (mul_zero' hc hz) hl.1
    exact ⟨h1, h2.trans hl.2⟩
  have wide : ∀ {a b c d : F32}, IsZero a → IsZero b → UpTo 10 c → UpTo 10 d → UpTo 20 (a *. R.m02 +. b *. R.m12 +. c *. R.m22 +. d *. R.m32) :=
    fun ha hb hc hd => NoPanic.UpTo.mono (upTo_row (m := 10) (n := 2) (by omega) (ha.upTo 10) (hb.upTo 10) hc hd r02 r12 r22 r32) (by omega)
  refine ⟨⟨?_, ?_, ?_, ?_, ?_, ?_⟩, ⟨?_, ?_, ?_, ?_⟩, ⟨?_, ?_, ?_, ?_⟩, ?_, ?_⟩
  · exact row a00 a01 a02 a03 r00 r10 (z r20) (z r30)
  · exact row a00 a01 a02 a03 r01 r11 (z r21) (z r31)
  · exact row a00 a01 a02 a03 r02 r12 r22 r32
  · exact row a10 a11 a12 a13 r00 r10 (z r20) (z r30)
  · exact row a10 a11 a12 a13 r01 r11 (z r21) (z r31)
  · exact row a10 a11 a12 a13 r02 r12 r22 r32
  · exact NoPanic.UpTo.mono (row a00 a01 a02 a03 r03 r13 (z r23) r33) (by omega)
  · exact NoPanic.UpTo.mono (row a10 a11 a12 a13 r03 r13 (z r23) r33) (by omega)
  · exact wide a20 a21 a22 a23
  · exact wide a30 a31 a32 a33
  · exact zero a20 a21 a22.1 a23.1 r00.1 r10.1 r20 r30
  · exact zero a20 a21 a22.1 a23.1 r01.1 r11.1 r21 r31
  · exact zero a30 a31 a32.1 a33.1 r00.1 r10.1 r20 r30
  · exact zero a30 a31 a32.1 a33.1 r01.1 r11.1 r21 r31
  · exact last a20 a21 a22 a23 d23
  · exact last a30 a31 a32 a33 d33

/-- The perspective matrix of the example, inverted. -/
def persp : Matrix F32 :=
  (Matrix.inverse ⟨lit 1, lit 0, lit 0, lit 0, lit 0, lit 1, lit 0, lit 0,
    lit 0, lit 0, lit 1000 /. (lit 1000 -. lit (1 / 100)), (⊖(lit 1000)) *. lit (1 / 100) /. (lit 1000 -. lit (1 / 100)), lit 0, lit 0, lit 1, lit 0⟩)

/-- The map from the raster to the screen of the example. -/
def raster : Matrix F32 :=
  (((Transform.scale (ofInt (1600 : Nat)) (ofInt (1280 : Nat)) (lit 1)).mul
      (Transform.scale (lit 1 /. (lit (5 / 4) -. lit (-5 / 4))) (lit 1 /. (lit (-1) -. lit 1)) (lit 1))).mul
      (Transform.translate (⊖(lit (-5 / 4))) (⊖(lit 1)) (lit 0))).mInv

/-- The scale by the tangent. -/
def zoom (t : F32) : Matrix F32 :=
  ⟨t, lit 0, lit 0, lit 0, lit 0, t, lit 0, lit 0, lit 0, lit 0, lit 1 /. lit 1, lit 0, lit 0, lit 0, lit 0, lit 1⟩

theorem camera_raster [Libm F32] : (camera : PerspectiveCamera F32).rasterToCamera.m =
    (persp.mul (zoom (lit 1 /. (lit 1 /. Libm.tan (toRadians (lit 30) /. lit 2))))).mul raster := rfl

def isZero (x : F32) : Bool := NoPanic.check 0 x && decide (x.val = 0)
theorem isZero_iff {x : F32} (h : isZero x = true) : IsZero x := by
  simp only [isZero, Bool.and_eq_true, decide_eq_true_eq] at h
  exact ⟨(NoPanic.check_upTo h.1).1, h.2⟩

theorem persp_checks : ([persp.m00, persp.m01, persp.m02, persp.m03, persp.m10, persp.m11, persp.m12, persp.m13].all (NoPanic.check 0) &&
    [persp.m20, persp.m21, persp.m30, persp.m31].all isZero && [persp.m22, persp.m23, persp.m32, persp.m33].all (NoPanic.check 7) &&
    [persp.m23, persp.m33].all (fun x => decide (1 / 2 ^ 8 ≤ |x.val|))) = true := by decide +kernel

theorem raster_checks : ([raster.m00, raster.m01, raster.m02, raster.m03, raster.m10, raster.m11, raster.m12, raster.m13, raster.m22, raster.m32].all (NoPanic.check 2) &&
    [raster.m20, raster.m21, raster.m23, raster.m30, raster.m31].all isZero && (NoPanic.check 0 raster.m33 && decide (raster.m33.val = 1))) = true := by
  decide +kernel

theorem unit_checks : isZero (lit 0 : F32) = true ∧ NoPanic.check 0 (lit 1 : F32) = true ∧ NoPanic.check 0 (lit 1 /. lit 1 : F32) = true := by decide +kernel


/-- Between two bounds. -/
def Btw (lo hi : ℚ) (x : F32) : Prop := Num x ∧ lo ≤ x.val ∧ x.val ≤ hi

theorem btw_ofVal {lo hi x : ℚ} (hlo : Fl.Repr Binary32 lo) (hhi : Fl.Repr Binary32 hi) (h1 : lo ≤ x) (h2 : x ≤ hi) (zs : Bool) :
    Btw lo hi (ofVal x zs : F32) :=
  let ⟨a, b, c⟩ := ofVal_between hlo hhi h1 h2 zs
  ⟨⟨ofVal_WF _ _, a⟩, b, c⟩

theorem btw_div {lo hi : ℚ} {a b : F32} (hlo : Fl.Repr Binary32 lo) (hhi : Fl.Repr Binary32 hi) (ha : Num a) (hb : Num b) (h0 : 0 < b.val)
    (h1 : lo * b.val ≤ a.val) (h2 : a.val ≤ hi * b.val) : Btw lo hi (a /. b) := by
  obtain ⟨zs, e⟩ := div_val ha hb h0.ne'
  rw [e]
  exact btw_ofVal hlo hhi (by rwa [le_div_iff₀ h0]) (by rwa [div_le_iff₀ h0]) zs

theorem btw_mul {lo hi : ℚ} {a b : F32} (hlo : Fl.Repr Binary32 lo) (hhi : Fl.Repr Binary32 hi) (ha : Num a) (hb : Num b)
    (h1 : lo ≤ a.val * b.val) (h2 : a.val * b.val ≤ hi) : Btw lo hi (a *. b) := by
  obtain ⟨zs, e⟩ := mul_val ha hb
  rw [e]
  exact btw_ofVal hlo hhi h1 h2 zs

theorem reprs : Fl.Repr Binary32 (1 / 8 : ℚ) ∧ Fl.Repr Binary32 (1 / 4 : ℚ) ∧ Fl.Repr Binary32 (1 / 2 : ℚ) ∧ Fl.Repr Binary32 (1 : ℚ) ∧ Fl.Repr Binary32 (2 : ℚ) ∧
    Fl.Repr Binary32 (8 : ℚ) ∧ Fl.Repr Binary32 (1 / 64 : ℚ) ∧ Fl.Repr Binary32 (1 / 32 : ℚ) ∧ Fl.Repr Binary32 (4 : ℚ) := by
  unfold Fl.Repr
  decide +kernel

theorem lits : (NoPanic.check 0 (lit 1 : F32) = true ∧ (lit 1 : F32).val = 1) ∧ (NoPanic.check 1 (lit 2 : F32) = true ∧ (lit 2 : F32).val = 2) ∧
    (NoPanic.check 5 (lit 30 : F32) = true ∧ (lit 30 : F32).val = 30) ∧ (NoPanic.check 8 (lit 180 : F32) = true ∧ (lit 180 : F32).val = 180) := by decide +kernel

theorem zoom_upTo [Libm F32] (hl : SaneLibm) (ht : SaneTan) : UpTo 1 (lit 1 /. (lit 1 /. Libm.tan (toRadians (lit 30) /. lit 2)) : F32) := by
  obtain ⟨r8, r4, r2, r1, s2, s8, r64, r32, s4⟩ := reprs
  obtain ⟨⟨o1, o2⟩, ⟨t1, t2⟩, ⟨a1, a2⟩, ⟨b1, b2⟩⟩ := lits
  replace o1 := (NoPanic.check_upTo o1).1
  replace t1 := (NoPanic.check_upTo t1).1
  replace a1 := (NoPanic.check_upTo a1).1
  replace b1 := (NoPanic.check_upTo b1).1
  obtain ⟨p1, p2⟩ := hl.pi
  have p3 := ht.pi
  have p4 := (le_abs_self _).trans p2
  have h1 : Btw (1 / 64) (1 / 32) (Libm.pi /. lit 180 : F32) :=
    btw_div r64 r32 p1 b1 (by rw [b2]; norm_num) (by rw [b2]; linarith) (by rw [b2]; linarith)
  have h2 : Btw (1 / 4) 1 (toRadians (lit 30) : F32) := btw_mul r4 r1 a1 h1.1 (by rw [a2]; linarith [h1.2.1]) (by rw [a2]; linarith [h1.2.2])
  have h3 : Btw (1 / 8) (1 / 2) (toRadians (lit 30) /. lit 2 : F32) :=
    btw_div r8 r2 h2.1 t1 (by rw [t2]; norm_num) (by rw [t2]; linarith [h2.2.1]) (by rw [t2]; linarith [h2.2.2])
  obtain ⟨n, lo, hi⟩ := ht.tan _ h3.1 h3.2.1 h3.2.2
  generalize (toRadians (lit 30) /. lit 2 : F32) = x at h3 n lo hi
  generalize Libm.tan x = t at n lo hi
  have l3 := h3.2.1
  have u3 := h3.2.2
  have h4 : Btw 1 8 (lit 1 /. t) := btw_div r1 s8 o1 n (by linarith) (by rw [o2]; linarith) (by rw [o2]; linarith)
  have h5 : Btw (1 / 8) 1 (lit 1 /. (lit 1 /. t)) := btw_div r8 r1 o1 h4.1 (by linarith [h4.2.1]) (by rw [o2]; linarith [h4.2.2]) (by rw [o2]; linarith [h4.2.1])
  exact ⟨h5.1, by rw [abs_of_nonneg (by linarith [h5.2.1])]; linarith [h5.2.2]⟩

theorem zoomed {t : F32} (ht : UpTo 1 t) :
    let A := persp.mul (zoom t)
    (∀ x ∈ [A.m00, A.m01, A.m02, A.m03, A.m10, A.m11, A.m12, A.m13], UpTo 5 x) ∧ (∀ x ∈ [A.m20, A.m21, A.m30, A.m31], IsZero x) ∧
    (∀ x ∈ [A.m22, A.m32], UpTo 10 x) ∧ (∀ x ∈ [A.m23, A.m33], UpTo 10 x ∧ 1 / 2 ^ 8 ≤ |x.val|) := by
  have h := persp_checks
  simp only [Bool.and_eq_true, List.all_eq_true, decide_eq_true_eq, List.mem_cons, List.not_mem_nil, or_false, forall_eq_or_imp, forall_eq] at h ⊢
  obtain ⟨⟨⟨⟨p00, p01, p02, p03, p10, p11, p12, p13⟩, p20, p21, p30, p31⟩, p22, p23, p32, p33⟩, d23, d33⟩ := h
  obtain ⟨u0, u1, u2⟩ := unit_checks
  have Z := isZero_iff u0
  have O := NoPanic.check_upTo u1
  have D := NoPanic.check_upTo u2
  have o2 := lits.1.2
  generalize persp = P at *
  have row : ∀ {a b c d x y z w : F32}, NoPanic.check 0 a = true → NoPanic.check 0 b = true → NoPanic.check 0 c = true → NoPanic.check 0 d = true →
      UpTo 1 x → UpTo 1 y → UpTo 1 z → UpTo 1 w → UpTo 5 (a *. x +. b *. y +. c *. z +. d *. w) := fun ha hb hc hd hx hy hz hw =>
    NoPanic.UpTo.mono (upTo_row (by omega) (NoPanic.check_upTo ha) (NoPanic.check_upTo hb) (NoPanic.check_upTo hc) (NoPanic.check_upTo hd) hx hy hz hw) (by omega)
  have zero : ∀ {a b c d x y z w : F32}, isZero a = true → isZero b = true → NoPanic.check 7 c = true → NoPanic.check 7 d = true → Num x → Num y → IsZero z → IsZero w →
      IsZero (a *. x +. b *. y +. c *. z +. d *. w) := by
    intro a b c d x y z w ha hb hc hd hx hy hz hw
    have hl := mul_zero' (NoPanic.check_upTo hd).1 hw
    obtain ⟨h1, h2⟩ := zero_row (zero_mul' (isZero_iff ha) hx) (zero_mul' (isZero_iff hb) hy) (mul_zero' (NoPanic.check_upTo hc).1 hz) hl.1
    exact ⟨h1, h2.trans hl.2⟩
  have wide : ∀ {a b c d : F32}, isZero a = true → isZero b = true → NoPanic.check 7 c = true → NoPanic.check 7 d = true →
      UpTo 10 (a *. lit 0 +. b *. lit 0 +. c *. (lit 1 /. lit 1) +. d *. lit 0) := fun ha hb hc hd =>
    upTo_row (m := 7) (n := 0) (by omega) ((isZero_iff ha).upTo 7) ((isZero_iff hb).upTo 7) (NoPanic.check_upTo hc) (NoPanic.check_upTo hd) (Z.upTo 0) (Z.upTo 0) D (Z.upTo 0)
  have last : ∀ {a b c d : F32}, isZero a = true → isZero b = true → NoPanic.check 7 c = true → NoPanic.check 7 d = true → 1 / 2 ^ 8 ≤ |d.val| →
      UpTo 10 (a *. lit 0 +. b *. lit 0 +. c *. lit 0 +. d *. lit 1) ∧ 1 / 2 ^ 8 ≤ |(a *. lit 0 +. b *. lit 0 +. c *. lit 0 +. d *. lit 1).val| := by
    intro a b c d ha hb hc hd h8
    replace hd := NoPanic.check_upTo hd
    obtain ⟨zs, e⟩ := mul_val hd.1 O.1
    obtain ⟨h1, h2, h3⟩ := ofVal_val hd.1.fin hd.1.wf zs
    rw [o2, mul_one] at e
    obtain ⟨g1, g2⟩ := zero_row (zero_mul' (isZero_iff ha) Z.1) (zero_mul' (isZero_iff hb) Z.1) (mul_zero' (NoPanic.check_upTo hc).1 Z) (s := d *. lit 1) (by rw [e]; exact ⟨ofVal_WF _ _, h2⟩)
    rw [e, h3] at g2
    rw [← e] at g2
    refine ⟨⟨g1, ?_⟩, ?_⟩ <;> rw [g2]
    · exact hd.2.trans (by norm_num)
    · exact h8
  have z1 := Z.upTo 1
  have o1 : UpTo 1 (lit 1 : F32) := NoPanic.UpTo.mono O (by omega)
  have q1 : UpTo 1 (lit 1 /. lit 1 : F32) := NoPanic.UpTo.mono D (by omega)
  refine ⟨⟨?_, ?_, ?_, ?_, ?_, ?_, ?_, ?_⟩, ⟨?_, ?_, ?_, ?_⟩, ⟨?_, ?_⟩, ?_, ?_⟩
  · exact row p00 p01 p02 p03 ht z1 z1 z1
  · exact row p00 p01 p02 p03 z1 ht z1 z1
  · exact row p00 p01 p02 p03 z1 z1 q1 z1
  · exact row p00 p01 p02 p03 z1 z1 z1 o1
  · exact row p10 p11 p12 p13 ht z1 z1 z1
  · exact row p10 p11 p12 p13 z1 ht z1 z1
  · exact row p10 p11 p12 p13 z1 z1 q1 z1
  · exact row p10 p11 p12 p13 z1 z1 z1 o1
  · exact zero p20 p21 p22 p23 ht.1 Z.1 Z Z
  · exact zero p20 p21 p22 p23 Z.1 ht.1 Z Z
  · exact zero p30 p31 p32 p33 ht.1 Z.1 Z Z
  · exact zero p30 p31 p32 p33 Z.1 ht.1 Z Z
  · exact wide p20 p21 p22 p23
  · exact wide p30 p31 p32 p33
  · exact last p20 p21 p22 p23 d23
  · exact last p30 p31 p32 p33 d33

/-! The place of the camera -/

/-- From the camera to the origin. -/
def ahead : V3 F32 := (V3.zero : V3 F32).sub (point (-10) (-30) 10)

theorem ahead_checks : (checkPoint ahead && big ahead && checkPoint (point 0 0 1 : V3 F32) && big (point 0 0 1 : V3 F32) && isZero (lit 0 : F32) && isZero (V3.zero : V3 F32).x) = true ∧
    ahead.y.val = 30 ∧ (lit 1 : F32).val = 1 ∧ (ahead.x *. ahead.x +. ahead.y *. ahead.y +. ahead.z *. ahead.z).val = 1100 ∧
    ((lit 0 : F32) *. lit 0 +. lit 0 *. lit 0 +. lit 1 *. lit 1).val = 1 ∧
    NoPanic.check 20 (ahead.x *. ahead.x +. ahead.y *. ahead.y +. ahead.z *. ahead.z) = true ∧ NoPanic.check 20 ((lit 0 : F32) *. lit 0 +. lit 0 *. lit 0 +. lit 1 *. lit 1) = true := by
  decide +kernel

theorem look [Libm F32] (hl : SaneLibm) :
    let d := ahead.normalize
    let left := ((point 0 0 1 : V3 F32).normalize.cross d).normalize
    UpTo3 1 d ∧ UpTo3 1 left ∧ UpTo3 3 (d.cross left) := by
  intro d left
  obtain ⟨h0, h1, h2, h3, h4, h5, h6⟩ := ahead_checks
  simp only [Bool.and_eq_true] at h0
  obtain ⟨⟨⟨⟨⟨c1, c2⟩, c3⟩, c4⟩, c5⟩, c6⟩ := h0
  obtain ⟨r8, r4, r2, r1, s2, s8, r64, r32, s4⟩ := reprs
  replace c1 := checkPoint_upTo c1
  replace c3 := checkPoint_upTo c3
  replace h5 := (NoPanic.check_upTo h5).1
  replace h6 := (NoPanic.check_upTo h6).1
  have hd : UpTo3 1 d := NoPanic.normalize_upTo hl (NoPanic.UpTo3.mono c1 (by omega)) (big_notTiny c2)
  have hu : UpTo3 1 (point 0 0 1 : V3 F32).normalize := NoPanic.normalize_upTo hl (NoPanic.UpTo3.mono c3 (by omega)) (big_notTiny c4)
  obtain ⟨l1, l2, l3, l4⟩ := hl.sqrt _ h5 (by rw [h3]; norm_num)
  obtain ⟨m1, m2, m3, m4⟩ := hl.sqrt _ h6 (by rw [h4]; norm_num)
  rw [h3] at l3 l4
  rw [h4] at m3 m4
  have root : ∀ {l lo hi : ℚ}, 0 ≤ l → 0 ≤ lo → 0 ≤ hi → lo ^ 2 ≤ l ^ 2 → l ^ 2 ≤ hi ^ 2 → lo ≤ l ∧ l ≤ hi := fun h a b c d =>
    ⟨(abs_le_of_sq_le_sq' c h).2, (abs_le_of_sq_le_sq' d b).2⟩
  obtain ⟨la, lb⟩ := root (lo := 20) (hi := 50) l2 (by norm_num) (by norm_num) (by linarith) (by linarith)
  obtain ⟨ma, mb⟩ := root (lo := 1 / 2) (hi := 3 / 2) m2 (by norm_num) (by norm_num) (by linarith) (by linarith)
  have hy : Btw (1 / 2) 2 d.y := by
    refine btw_div r2 s2 c1.2.1.1 l1 (lt_of_lt_of_le (by norm_num) la) ?_ ?_
    · rw [h1]; exact le_trans (mul_le_mul_of_nonneg_left lb (by norm_num)) (by norm_num)
    · rw [h1]; exact le_trans (by norm_num) (mul_le_mul_of_nonneg_left la (by norm_num))
  have hz : Btw (1 / 2) 2 (point 0 0 1 : V3 F32).normalize.z := by
    refine btw_div r2 s2 c3.2.2.1 m1 (lt_of_lt_of_le (by norm_num) ma) ?_ ?_
    · show _ ≤ (lit 1 : F32).val
      rw [h2]; exact le_trans (mul_le_mul_of_nonneg_left mb (by norm_num)) (by norm_num)
    · show (lit 1 : F32).val ≤ _
      rw [h2]; exact le_trans (by norm_num) (mul_le_mul_of_nonneg_left ma (by norm_num))
  have h0y : IsZero (point 0 0 1 : V3 F32).normalize.y := by
    have hpos : 0 < (Libm.sqrt ((lit 0 : F32) *. lit 0 +. lit 0 *. lit 0 +. lit 1 *. lit 1)).val := lt_of_lt_of_le (by norm_num) ma
    obtain ⟨n0, v0⟩ := isZero_iff c5
    obtain ⟨zs, e⟩ := div_val n0 m1 hpos.ne'
    show IsZero (lit 0 /. Libm.sqrt ((lit 0 : F32) *. lit 0 +. lit 0 *. lit 0 +. lit 1 *. lit 1))
    rw [e, v0, zero_div]
    have := btw_ofVal (lo := 0) (hi := 0) (by simpa using repr_int (n := 0) (by norm_num)) (by simpa using repr_int (n := 0) (by norm_num)) le_rfl le_rfl zs
    exact ⟨this.1, le_antisymm this.2.2 this.2.1⟩
  have hcross : NotTiny ((point 0 0 1 : V3 F32).normalize.cross d) := by
    left
    have hp : Btw (1 / 4) 4 ((point 0 0 1 : V3 F32).normalize.z *. d.y) :=
      btw_mul r4 s4 hz.1 hy.1 (by nlinarith [hz.2.1, hy.2.1]) (by nlinarith [hz.2.1, hy.2.1, hz.2.2, hy.2.2])
    have h1 := NoPanic.zero_plus (zero_mul' h0y hd.2.2.1) (b := ⊖((point 0 0 1 : V3 F32).normalize.z *. d.y)) (neg_ok hp.1).1
    rw [(neg_ok hp.1).2] at h1
    show _ ≤ |((point 0 0 1 : V3 F32).normalize.y *. d.z +. ⊖((point 0 0 1 : V3 F32).normalize.z *. d.y)).val|
    rw [h1.2, abs_neg, abs_of_nonneg (by linarith [hp.2.1])]
    exact le_trans (by norm_num) hp.2.1
  have hleft : UpTo3 1 left := NoPanic.normalize_upTo hl (NoPanic.UpTo3.mono (NoPanic.upTo3_cross (by omega) hu hd) (by omega)) hcross
  exact ⟨hd, hleft, NoPanic.upTo3_cross (by omega) hd hleft⟩

theorem camera_steady [Libm F32] (hl : SaneLibm) (ht : SaneTan) : SteadyCamera camera := by
  obtain ⟨z1, z2, z3, z4⟩ := zoomed (zoom_upTo hl ht)
  have hr := raster_checks
  simp only [Bool.and_eq_true, List.all_eq_true, decide_eq_true_eq] at hr
  obtain ⟨⟨r1, r2⟩, r3, r4⟩ := hr
  obtain ⟨s1, s2, s3, s4⟩ := steady_product z1 z2 z3 z4 (fun x hx => NoPanic.check_upTo (r1 x hx)) (fun x hx => isZero_iff (r2 x hx))
    ⟨(NoPanic.check_upTo r3).1, r4⟩
  rw [← camera_raster] at s1 s2 s3 s4
  refine ⟨?_, s1, s2, s3, s4⟩
  obtain ⟨l1, l2, l3⟩ := look hl
  have hm : (camera : PerspectiveCamera F32).cameraToWorld.m = (Transform.lookAt (point (-10) (-30) 10) V3.zero (point 0 0 1) : Transform F32).m := rfl
  rw [hm]
  intro x hx
  simp only [Transform.lookAt, List.mem_cons, List.not_mem_nil, or_false] at hx
  have w : ∀ {n : ℕ} {v : V3 F32}, n ≤ 50 → UpTo3 n v → UpTo 50 v.x ∧ UpTo 50 v.y ∧ UpTo 50 v.z := fun hn h => NoPanic.UpTo3.mono h hn
  obtain ⟨d1, d2, d3⟩ := w (by omega) l1
  obtain ⟨e1, e2, e3⟩ := w (by omega) l2
  obtain ⟨f1, f2, f3⟩ := w (by omega) l3
  rcases hx with rfl | rfl | rfl | rfl | rfl | rfl | rfl | rfl | rfl
  exacts [e1, f1, d1, e2, f2, d2, e3, f3, d3]


/-! ### The run -/

theorem film_range [Libm F32] : FilmRange32 ⟨1600, 1280⟩ (filter : Filter F32).radius := by
  have h : (lit (2 : ℚ) : F32).IsFin ∧ (lit (2 : ℚ) : F32).val = 2 := by
    have := ofInt_exact (n := 2) (by norm_num)
    simpa [ofInt] using this
  exact ⟨h.1, by show 0 ≤ (lit (2 : ℚ) : F32).val; rw [h.2]; norm_num, by show (lit (2 : ℚ) : F32).val ≤ _; rw [h.2]; norm_num,
    by norm_num, by norm_num, by norm_num, by norm_num, by norm_num⟩

/-- A render in which no thread panics and which can be completed is what the user expects. -/
theorem renders_of [Libm F32] {σ : Type} (ops : SamplerOps F32 σ) (radiance : V2 F32 → Draw F32 (Spectrum F32)) (res : V2 Int) (filt : Filter F32)
    (hR : FilmRange32 res filt.radius) (sampler : σ) (n : Nat) (file : Option (List UInt8))
    (h : let work := renderTile ops radiance (Film.new res filt)
      (∀ k st, RReach work sampler (RState.init (Film.new res filt) n file) k st → .panicked ∉ st.threads) ∧
      ∃ k st, RReach work sampler (RState.init (Film.new res filt) n file) k st ∧ st.main = .done) :
    Renders (renderTile ops radiance (Film.new res filt)) sampler (Film.new res filt) n file where
  noPanic := h.1
  bounded := ⟨_, c07_bounded _ sampler (Film.new res filt) n file (renderTile_bbox ops radiance res filt)⟩
  completes := h.2
  ends := by
    intro k st hr hend
    have hfin : st.main = .done ∨ st.main = .failed := by
      by_contra hc
      push Not at hc
      obtain ⟨st', hs⟩ := c07_never_stuck _ sampler (Film.new res filt) n file k st hr hc.1 hc.2
      exact hend st' hs
    obtain ⟨log, lost, base, hi⟩ := rinv_reach (R := fun _ => True) (fun _ _ _ _ _ _ => trivial) trivial hr
    have hm := hi.main
    unfold mainOk at hm
    rcases hfin with hd | hd
    · left
      rw [hd] at hm
      obtain ⟨h1, h2, h3, h4⟩ := hm
      have hpos : 0 ≤ res.x * res.y := mul_nonneg hR.x0.le hR.y0.le
      have inv0 : FilmInv res filt (Film.new res filt) := ⟨rfl, rfl, rfl, filmNew_sized res hpos hR.area filt⟩
      have hbase := hi.baseOk
      rw [← hi.filmFree h4] at hbase
      have inv := mergeLog_inv res hR.area filt (tilesFit_f32 res filt hR) log (Film.new res filt) st.sh.film inv0 (by
        rintro ⟨s, b, t⟩ he
        obtain ⟨-, s', e⟩ := hi.logOk _ he
        refine ⟨?_, renderTile_good ops radiance _ (mkFilterTable_ok filt) s b t s' e⟩
        have : b ∈ ((Film.new res filt).iter.toList : Multiset BBox2i) := by
          rw [hi.count]
          simp only [Multiset.mem_add]
          exact Or.inl (Or.inl (Or.inl (by simpa using ⟨s, t, he⟩)))
        simpa using this) hbase
      obtain ⟨px, w, -⟩ := c09_ppm_well_formed st.sh.film (by rw [inv.1]; exact hR.x0.le) (by rw [inv.1]; exact hR.y0.le) inv.2.2.2
      obtain ⟨p1, -, p3⟩ := c12_output_partial st.sh.film (file.getD [])
      rw [inv.1] at w
      exact ⟨hd, _, px, _, w, h3, p1, p3.2⟩
    · right
      rw [hd] at hm
      exact ⟨hd, hm⟩

end Hello
open Hello

section
variable [Libm F32] [Libm F64]

/-- C99: what `c76_matt_render` gives the user: for every scene of matt triangles and spheres, distant lights and area lights on matt triangles, every
schedule of every number of threads ends, without a panic of a worker thread, either with the image in the output file or, if this cannot be opened, with
the file as it was. -/
theorem c99_matt_render (hl : SaneLibm) (hist : List (BuilderCall F32)) (hlib : ∀ c ∈ hist, MattCall c)
    {mk : List (Obj F32) → Option (Container F32)} (hmk : LibraryContainer mk) {scene : Scene F32} (hsc : (built hist).construct mk = some scene)
    (camera : PerspectiveCamera F32) (hcam : SteadyCamera camera) (res : V2 Int) (filt : Filter F32) (hR : FilmRange32 res filt.radius)
    (sampler : HaltonSampler) (hspp : sampler.samplesPerPixel < 2 ^ 32) (n : Nat) (file : Option (List UInt8)) :
    Renders (renderTile HaltonSampler.ops (cameraRadiance scene camera) (Film.new res filt)) sampler (Film.new res filt) n file :=
  renders_of _ _ res filt hR sampler n file (c76_matt_render hl hist hlib hmk hsc camera hcam res filt hR sampler hspp n file)

/-- C99: the example program.  Wherever its objects are allocated, its scene is built without a panic, and every schedule of its render ends, without a
panic of a worker thread, either with a well-formed image of 1600 × 1280 pixels in the output file or, if this cannot be opened, with the file as it
was. -/
theorem c99_hello_f32 (hl : SaneLibm) (ht : SaneTan) (addr : Nat → Nat) :
    ∃ scene, Hello.scene (α := F32) (β := F64) addr = some scene ∧ ∀ file,
      Renders (renderTile HaltonSampler.ops (cameraRadiance scene Hello.camera) Hello.film) (Hello.sampler (α := F32)) Hello.film Hello.nThreads file := by
  have hm : ∀ c ∈ calls (α := F32) (β := F64) addr, MattCall c := calls_matt addr
  have hne : Hello.scene (α := F32) (β := F64) addr ≠ none := by
    rw [scene_calls, Ne, c65_panics_kdtree _ (NoPanic.matt_finite hl _ hm) none]
    rintro ⟨h, -⟩
    simp [calls, addedShapes] at h
  obtain ⟨scene, hs⟩ := Option.ne_none_iff_exists'.1 hne
  refine ⟨scene, hs, fun file => ?_⟩
  rw [scene_calls] at hs
  exact c99_matt_render hl _ hm (.kdTree none) hs _ (camera_steady hl ht) ⟨1600, 1280⟩ filter film_range _ (by show 500 < 2 ^ 32; norm_num) _ file
end

/-! ### The hypotheses can be met -/

namespace Demo
/-- The rough library, with the tangent of a small angle. -/
noncomputable abbrev smallLibm : Libm F32 := { roughLibm with tan := id }

theorem smallLibm_sane : @SaneLibm smallLibm :=
  @SaneLibm.mk smallLibm (@SaneLibm.sqrt_nan roughLibm roughLibm_sane) (@SaneLibm.sqrt_inf roughLibm roughLibm_sane) (@SaneLibm.sqrt roughLibm roughLibm_sane) (@SaneLibm.sin roughLibm roughLibm_sane) (@SaneLibm.cos roughLibm roughLibm_sane) (@SaneLibm.pi roughLibm roughLibm_sane)

theorem smallLibm_tan : @SaneTan smallLibm := by
  refine @SaneTan.mk smallLibm ?_ (fun x hx h1 h2 => ⟨hx, le_rfl, ?_⟩)
  · have : (3 : ℚ) ≤ (f32 (13176795 / 2 ^ 22)).val := by decide +kernel
    exact this
  · show x.val ≤ 2 * x.val
    linarith
end Demo

/-- The example program, with a rough mathematical library. -/
example [Libm F64] : letI := Demo.smallLibm
    ∃ scene, Hello.scene (α := F32) (β := F64) id = some scene ∧
      Renders (renderTile HaltonSampler.ops (cameraRadiance scene Hello.camera) Hello.film) (Hello.sampler (α := F32)) Hello.film Hello.nThreads none := by
  let _ := Demo.smallLibm
  obtain ⟨scene, h1, h2⟩ := c99_hello_f32 Demo.smallLibm_sane Demo.smallLibm_tan id
  exact ⟨scene, h1, h2 none⟩

/-- The sizes. -/
example [Libm F32] : (Hello.film : Film F32).resolution = ⟨1600, 1280⟩ ∧ (Hello.sampler (α := F32)).samplesPerPixel = 500 ∧ Hello.nThreads = 4 := ⟨rfl, rfl, rfl⟩
end PT
