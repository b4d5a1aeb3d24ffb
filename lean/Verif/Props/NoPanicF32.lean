import Verif.Props.LostY
import Verif.Props.BoxF32
import Verif.Lemmas.RelErr

/-!
# Scenes of matt triangles and spheres never panic in single precision (C76)

`c76_library_f32` leaves one way to panic: a traced direction that has lost its `y` coordinate.  Here: in a scene of matt triangles and
spheres, with distant lights and area lights on triangles, no path ever traces such a direction.
-/

namespace PT
open Spec Fl

namespace Spec
open Fl
/-- A number of absolute value at most `2 ^ n`, neither NaN nor infinite. -/
def UpTo (n : ℕ) (x : F32) : Prop := Num x ∧ |x.val| ≤ 2 ^ n

/-- The same for the three coordinates. -/
def UpTo3 (n : ℕ) (v : V3 F32) : Prop := UpTo n v.x ∧ UpTo n v.y ∧ UpTo n v.z

/-- Some coordinate is not tiny: at least `2 ^ -50` in absolute value. -/
def NotTiny (v : V3 F32) : Prop := 1 / 2 ^ 50 ≤ |v.x.val| ∨ 1 / 2 ^ 50 ≤ |v.y.val| ∨ 1 / 2 ^ 50 ≤ |v.z.val|

/-- What is asked of the mathematical library: finite results, sine and cosine in `[-1, 1]`, and a square root whose square is right within a factor
of two, infinite for infinity and NaN for NaN. -/
structure SaneLibm [Libm F32] : Prop where
  sqrt_nan : Libm.sqrt (nan : F32) = nan
  sqrt_inf : Libm.sqrt (inf false : F32) = inf false
  sqrt : ∀ x : F32, Num x → 0 ≤ x.val →
    Num (Libm.sqrt x) ∧ 0 ≤ (Libm.sqrt x).val ∧ (Libm.sqrt x).val ^ 2 ≤ 2 * x.val ∧ x.val ≤ 2 * (Libm.sqrt x).val ^ 2
  sin : ∀ x : F32, Num x → UpTo 0 (Libm.sin x)
  cos : ∀ x : F32, Num x → UpTo 0 (Libm.cos x)
  pi : UpTo 2 (Libm.pi : F32)

/-- A matt triangle without vertex normals, of coordinates up to `2 ^ 25`, and not so small or thin that the cross products and the tangent computed
from its vertices are tiny. -/
structure MattTriangle [Libm F32] (t : Triangle F32) : Prop where
  v0 : UpTo3 25 t.v0
  v1 : UpTo3 25 t.v1
  v2 : UpTo3 25 t.v2
  flat : t.vertexNormals = none
  matt : ∃ kd, t.material = lambertianMaterial kd
  normal : NotTiny ((t.v0.sub t.v2).cross (t.v1.sub t.v2))
  side : NotTiny ((t.v1.sub t.v0).cross (t.v2.sub t.v0))
  tangent : NotTiny t.partials.1

/-- A matt sphere with a centre of coordinates up to `2 ^ 20` and a radius between `2 ^ -20` and `2 ^ 20`. -/
structure MattSphere [Libm F32] (s : Sphere F32) : Prop where
  center : UpTo3 20 s.center
  radius : UpTo 20 s.radius
  wide : 1 / 2 ^ 20 ≤ s.radius.val
  matt : ∃ kd, s.material = lambertianMaterial kd

/-- A call of the scene builder: a distant light with a direction that is not tiny or huge, a matt triangle or sphere, or an area light on a matt
triangle. -/
inductive MattCall [Libm F32] [Libm F64] : BuilderCall F32 → Prop
  | distant (addr e w) : UpTo3 50 w → NotTiny w → MattCall (.light addr fun box => ((DistantLight.new e w).preProcess box).toLight)
  | triangle (addr) (t : Triangle F32) : MattTriangle t → MattCall (.shape addr t.toShape)
  | sphere (addr) (s : Sphere F32) : MattSphere s → MattCall (.shape addr s.toShape)
  | area (addr e) (t : Triangle F32) : MattTriangle t → MattCall (.area addr ⟨e, t.toShape⟩)
end Spec

namespace NoPanic

/-! ### Hits are hits of shapes -/

theorem closestHit_shape {α : Type} [Scalar α] : ∀ (ss : List (Obj α)) (r r' : Ray α) (h0 : Option (Hit α)) (h : Hit α),
    closestHit ss r h0 = some (r', some h) → h0 = some h ∨ ∃ ray t, h.obj.shape.intersect ray = some (some (h.i, t)) := by
  intro ss
  induction ss with
  | nil =>
    intro r r' h0 h e
    simp only [closestHit, Option.some.injEq, Prod.mk.injEq] at e
    exact Or.inl e.2
  | cons s ss ih =>
    intro r r' h0 h e
    simp only [closestHit, Obj.intersect] at e
    cases hs : s.shape.intersect r with
    | none => rw [hs] at e; cases e
    | some x =>
      rw [hs] at e
      cases x with
      | none => exact ih r r' h0 h e
      | some x =>
        rcases ih { r with tMax := x.2 } r' (some ⟨x.1, s⟩) h e with h1 | h1
        · right
          simp only [Option.some.injEq] at h1
          subst h1
          exact ⟨r, x.2, hs⟩
        · exact Or.inr h1

theorem loop_shape {α : Type} [Scalar α] (nodes : List (Node α)) : ∀ (fuel : Nat) (ray : Ray α) (h0 : Option (Hit α)) (i : Nat) (tMin tMax : α) (todos : List (KdTree.Todo α))
    (h : Hit α), KdTree.loop nodes fuel ray h0 i tMin tMax todos = .value (some h) → h0 = some h ∨ ∃ ray t, h.obj.shape.intersect ray = some (some (h.i, t)) := by
  intro fuel
  induction fuel with
  | zero => intro ray h0 i tMin tMax todos h e; cases e
  | succ fuel ih =>
    intro ray h0 i tMin tMax todos h
    have leaf : ∀ nd ∈ nodes, (match closestHit (KdTree.leafShapes nd) ray h0 with
        | none => .panic
        | some (ray, h) => match todos with
          | [] => .value h
          | td :: todos => KdTree.loop nodes fuel ray h td.node td.tMin td.tMax todos) = Run.value (some h) →
        h0 = some h ∨ ∃ ray t, h.obj.shape.intersect ray = some (some (h.i, t)) := by
      intro nd _ e'
      cases hc : closestHit (KdTree.leafShapes nd) ray h0 with
      | none => rw [hc] at e'; cases e'
      | some x =>
        obtain ⟨r1, h1⟩ := x
        rw [hc] at e'
        have hh : h1 = some h ∨ ∃ ray t, h.obj.shape.intersect ray = some (some (h.i, t)) := by
          cases todos with
          | nil => simp only [Run.value.injEq] at e'; exact Or.inl e'
          | cons td todos => exact ih _ _ _ _ _ _ _ e'
        rcases hh with rfl | hh
        · exact closestHit_shape _ _ _ _ _ hc
        · exact Or.inr hh
    intro e
    unfold KdTree.loop at e
    split_ifs at e
    · simp only [Run.value.injEq] at e; exact Or.inl e
    · cases hn : nodes[i]? with
      | none => rw [hn] at e; cases e
      | some nd =>
        rw [hn] at e
        have hmem : nd ∈ nodes := List.mem_of_getElem? hn
        cases nd with
        | split a t k => exact ih _ _ _ _ _ _ _ e
        | empty => exact leaf _ hmem e
        | shape s => exact leaf _ hmem e
        | shapes ss => exact leaf _ hmem e

/-! ### Bounds -/

theorem pow_repr {n : ℕ} (h : n ≤ 126) : Fl.Repr Binary32 ((2 : ℚ) ^ n) := by
  unfold Fl.Repr
  rw [abs_of_nonneg (by positivity)]
  obtain ⟨k, hk, hv⟩ := sval_dyadic (n + 127) (2 ^ 22) (by omega) (by norm_num)
  show Bin.rnd 23 149 0x7f800000 31 _ = _
  rw [Bin.rnd_some]
  have hval : ((2 : ℚ) ^ n * 2 ^ 149) = (sval 23 k : ℚ) := by rw [hv]; push_cast; ring
  rw [hval, ordRound_exact 23 31 k (by omega)]
  refine ⟨hk, ?_⟩
  rw [← hval]; field_simp

theorem upTo_ofVal {n : ℕ} (h : n ≤ 126) {x : ℚ} (hx : |x| ≤ 2 ^ n) (zs : Bool) : UpTo n (ofVal x zs : F32) := by
  obtain ⟨h1, h2⟩ := abs_le.1 hx
  obtain ⟨a, b, c⟩ := ofVal_between (repr_neg (pow_repr h)) (pow_repr h) h1 h2 zs
  exact ⟨⟨ofVal_WF _ _, a⟩, abs_le.2 ⟨b, c⟩⟩

theorem UpTo.mono {m n : ℕ} {x : F32} (h : UpTo m x) (hmn : m ≤ n) : UpTo n x :=
  ⟨h.1, h.2.trans (pow_le_pow_right₀ (by norm_num) hmn)⟩

theorem upTo_add {n : ℕ} {a b : F32} (hn : n + 1 ≤ 126) (ha : UpTo n a) (hb : UpTo n b) : UpTo (n + 1) (a +. b) := by
  obtain ⟨zs, e⟩ := add_fin ha.1.fin hb.1.fin
  rw [f_add, e]
  apply upTo_ofVal hn
  have := abs_add_le a.val b.val
  rw [pow_succ]; linarith [ha.2, hb.2]

theorem upTo_neg {n : ℕ} {a : F32} (ha : UpTo n a) : UpTo n (⊖a) := by
  obtain ⟨h1, h2⟩ := neg_ok ha.1
  exact ⟨h1, by rw [h2, abs_neg]; exact ha.2⟩

theorem upTo_sub {n : ℕ} {a b : F32} (hn : n + 1 ≤ 126) (ha : UpTo n a) (hb : UpTo n b) : UpTo (n + 1) (a -. b) :=
  upTo_add hn ha (upTo_neg hb)

theorem upTo_mul {m n : ℕ} {a b : F32} (hn : m + n ≤ 126) (ha : UpTo m a) (hb : UpTo n b) : UpTo (m + n) (a *. b) := by
  obtain ⟨zs, e⟩ := mul_val ha.1 hb.1
  rw [e]
  apply upTo_ofVal hn
  rw [abs_mul, pow_add]
  exact mul_le_mul ha.2 hb.2 (abs_nonneg _) (by positivity)

theorem upTo_abs {n : ℕ} {a : F32} (ha : UpTo n a) : UpTo n (Scalar.abs a) := by
  obtain ⟨h1, h2⟩ := abs_ok ha.1
  exact ⟨h1, by rw [h2, abs_abs]; exact ha.2⟩

theorem upTo_max {n : ℕ} {a b : F32} (ha : UpTo n a) (hb : UpTo n b) : UpTo n (Scalar.fmax a b) := by
  obtain ⟨h1, h2⟩ := max_ok ha.1 hb.1
  refine ⟨h1, ?_⟩
  rw [h2]
  rcases max_choice a.val b.val with h | h <;> rw [h]
  exacts [ha.2, hb.2]

theorem upTo_div {n : ℕ} {a b : F32} (hn : n ≤ 126) (ha : Num a) (hb : Num b) (h0 : b.val ≠ 0) (h : |a.val| ≤ 2 ^ n * |b.val|) :
    UpTo n (a /. b) := by
  obtain ⟨zs, e⟩ := div_val ha hb h0
  rw [e]
  apply upTo_ofVal hn
  rw [abs_div, div_le_iff₀ (abs_pos.2 h0)]
  exact h

theorem upTo_lit {n : ℕ} (hn : n ≤ 126) {q : ℚ} (h : |q| ≤ 2 ^ n) : UpTo n (PT.lit q : F32) := by
  rw [f_lit]; simpa using upTo_ofVal hn h false

theorem UpTo.ne_nan {n : ℕ} {x : F32} (h : UpTo n x) : x ≠ nan := by
  rintro rfl; exact h.1.fin

theorem UpTo3.mono {m n : ℕ} {v : V3 F32} (h : UpTo3 m v) (hmn : m ≤ n) : UpTo3 n v :=
  ⟨UpTo.mono h.1 hmn, UpTo.mono h.2.1 hmn, UpTo.mono h.2.2 hmn⟩

theorem upTo3_add {n : ℕ} {v w : V3 F32} (hn : n + 1 ≤ 126) (hv : UpTo3 n v) (hw : UpTo3 n w) : UpTo3 (n + 1) (v.add w) :=
  ⟨upTo_add hn hv.1 hw.1, upTo_add hn hv.2.1 hw.2.1, upTo_add hn hv.2.2 hw.2.2⟩
theorem upTo3_sub {n : ℕ} {v w : V3 F32} (hn : n + 1 ≤ 126) (hv : UpTo3 n v) (hw : UpTo3 n w) : UpTo3 (n + 1) (v.sub w) :=
  ⟨upTo_sub hn hv.1 hw.1, upTo_sub hn hv.2.1 hw.2.1, upTo_sub hn hv.2.2 hw.2.2⟩
theorem upTo3_neg {n : ℕ} {v : V3 F32} (hv : UpTo3 n v) : UpTo3 n v.neg := ⟨upTo_neg hv.1, upTo_neg hv.2.1, upTo_neg hv.2.2⟩
theorem upTo3_abs {n : ℕ} {v : V3 F32} (hv : UpTo3 n v) : UpTo3 n v.abs := ⟨upTo_abs hv.1, upTo_abs hv.2.1, upTo_abs hv.2.2⟩
theorem upTo3_smul {m n : ℕ} {v : V3 F32} {a : F32} (hn : m + n ≤ 126) (hv : UpTo3 m v) (ha : UpTo n a) : UpTo3 (m + n) (v.smul a) :=
  ⟨upTo_mul hn hv.1 ha, upTo_mul hn hv.2.1 ha, upTo_mul hn hv.2.2 ha⟩

theorem upTo_sum3 {m n : ℕ} {a b c d e f : F32} (hn : m + n + 2 ≤ 126) (ha : UpTo m a) (hb : UpTo n b) (hc : UpTo m c) (hd : UpTo n d)
    (he : UpTo m e) (hf : UpTo n f) : UpTo (m + n + 2) (a *. b +. c *. d +. e *. f) :=
  upTo_add (by omega) (upTo_add (by omega) (upTo_mul (by omega) ha hb) (upTo_mul (by omega) hc hd))
    (UpTo.mono (upTo_mul (by omega) he hf) (by omega))

theorem upTo_dot {m n : ℕ} {v w : V3 F32} (hn : m + n + 2 ≤ 126) (hv : UpTo3 m v) (hw : UpTo3 n w) : UpTo (m + n + 2) (v.dot w) :=
  upTo_sum3 hn hv.1 hw.1 hv.2.1 hw.2.1 hv.2.2 hw.2.2

theorem upTo3_cross {m n : ℕ} {v w : V3 F32} (hn : m + n + 1 ≤ 126) (hv : UpTo3 m v) (hw : UpTo3 n w) : UpTo3 (m + n + 1) (v.cross w) := by
  refine ⟨upTo_sub (by omega) ?_ ?_, upTo_sub (by omega) ?_ ?_, upTo_sub (by omega) ?_ ?_⟩ <;> apply upTo_mul (by omega)
  exacts [hv.2.1, hw.2.2, hv.2.2, hw.2.1, hv.2.2, hw.1, hv.1, hw.2.2, hv.1, hw.2.1, hv.2.1, hw.1]

/-- The next number up or down is at most the next power of two. -/
theorem upTo_next {n : ℕ} (hn : n + 1 ≤ 126) {x : F32} (hx : UpTo n x) : UpTo (n + 1) (nextFloatUp x) ∧ UpTo (n + 1) (nextFloatDown x) := by
  have hb := upTo_lit hn (q := 2 ^ (n + 1)) (by rw [abs_of_nonneg (by positivity)])
  have hv : (PT.lit ((2 : ℚ) ^ (n + 1)) : F32).val = 2 ^ (n + 1) := by
    rw [f_lit]; simpa using (ofVal_repr (pow_repr hn) false).2
  obtain ⟨h1, h2⟩ := abs_le.1 hx.2
  have hp : (2 : ℚ) ^ n < 2 ^ (n + 1) := pow_lt_pow_right₀ (by norm_num) (by omega)
  have ni : ∀ s, x ≠ inf s := by rintro s rfl; exact hx.1.fin
  obtain ⟨u1, u2, u3⟩ := c70_next_up x hx.1.wf (UpTo.ne_nan hx) (ni _)
  obtain ⟨d1, d2, d3⟩ := c70_next_down x hx.1.wf (UpTo.ne_nan hx) (ni _)
  have hneg := upTo_neg hb
  have hnv : (⊖(PT.lit ((2 : ℚ) ^ (n + 1)) : F32)).val = -2 ^ (n + 1) := by rw [(neg_ok hb.1).2, hv]
  constructor
  · have h3 := u3 _ hb.1.wf ((lt_val hx.1.fin hb.1.fin).2 (by rw [hv]; linarith))
    have hf : (nextFloatUp x).IsFin := by
      have hbf := hb.1.fin
      revert h3 u2 hbf
      generalize (PT.lit ((2 : ℚ) ^ (n + 1)) : F32) = y
      have hxf := hx.1.fin
      revert hxf
      cases nextFloatUp x with
      | nan => cases x <;> simp [Fl.lt]
      | inf s => cases s <;> cases x <;> cases y <;> simp [Fl.lt, Fl.le, IsFin]
      | fin s a => intros; trivial
    refine ⟨⟨u1, hf⟩, abs_le.2 ⟨?_, ?_⟩⟩
    · have := (lt_val hx.1.fin hf).1 u2; linarith
    · have := (le_val hf hb.1.fin).1 h3; rwa [hv] at this
  · have h3 := d3 _ hneg.1.wf ((lt_val hneg.1.fin hx.1.fin).2 (by rw [hnv]; linarith))
    have hf : (nextFloatDown x).IsFin := by
      have hbf := hneg.1.fin
      revert h3 d2 hbf
      generalize (⊖(PT.lit ((2 : ℚ) ^ (n + 1)) : F32)) = y
      have hxf := hx.1.fin
      revert hxf
      cases nextFloatDown x with
      | nan => cases x <;> simp [Fl.lt]
      | inf s => cases s <;> cases x <;> cases y <;> simp [Fl.lt, Fl.le, IsFin]
      | fin s a => intros; trivial
    refine ⟨⟨d1, hf⟩, abs_le.2 ⟨?_, ?_⟩⟩
    · have := (le_val hneg.1.fin hf).1 h3; rw [hnv] at this; linarith
    · have := (lt_val hf hx.1.fin).1 d2; linarith

/-! ### NaN -/

/-- All three coordinates are NaN. -/
def NaN3 (v : V3 F32) : Prop := v.x = nan ∧ v.y = nan ∧ v.z = nan

theorem add_nan_left (a : F32) : (nan : F32) +. a = nan := by cases a <;> rfl
theorem add_nan_right (a : F32) : a +. (nan : F32) = nan := by cases a <;> rfl
theorem mul_nan_right (a : F32) : a *. (nan : F32) = nan := by cases a <;> rfl
theorem mul_nan_left (a : F32) : (nan : F32) *. a = nan := by cases a <;> rfl
theorem sub_nan_left (a : F32) : (nan : F32) -. a = nan := add_nan_left _
theorem sub_nan_right (a : F32) : a -. (nan : F32) = nan := add_nan_right _
theorem next_nan : nextFloatUp (nan : F32) = nan ∧ nextFloatDown (nan : F32) = nan := by decide +kernel

theorem nan3_add_left {v : V3 F32} (h : NaN3 v) (w : V3 F32) : NaN3 (v.add w) := by
  obtain ⟨h1, h2, h3⟩ := h
  refine ⟨?_, ?_, ?_⟩ <;> simp only [V3.add, h1, h2, h3, add_nan_left]

theorem nan3_add_right {w : V3 F32} (h : NaN3 w) (v : V3 F32) : NaN3 (v.add w) := by
  obtain ⟨h1, h2, h3⟩ := h
  refine ⟨?_, ?_, ?_⟩ <;> simp only [V3.add, h1, h2, h3, add_nan_right]

theorem nan3_sub_right {w : V3 F32} (h : NaN3 w) (v : V3 F32) : NaN3 (v.sub w) := by
  obtain ⟨h1, h2, h3⟩ := h
  refine ⟨?_, ?_, ?_⟩ <;> simp only [V3.sub, h1, h2, h3, sub_nan_right]

theorem nan3_sub_left {v : V3 F32} (h : NaN3 v) (w : V3 F32) : NaN3 (v.sub w) := by
  obtain ⟨h1, h2, h3⟩ := h
  refine ⟨?_, ?_, ?_⟩ <;> simp only [V3.sub, h1, h2, h3, sub_nan_left]

theorem nan3_smul (v : V3 F32) : NaN3 (v.smul nan) := by
  refine ⟨?_, ?_, ?_⟩ <;> simp only [V3.smul, mul_nan_right]

theorem nudge_nan (o : F32) : Interaction.nudge o nan = nan := by
  unfold Interaction.nudge
  split_ifs
  exacts [next_nan.1, next_nan.2, rfl]

theorem not_lost_nan3 {d : V3 F32} (h : NaN3 d) : ¬ LostY d := fun hl => hl.2.1 h.1
theorem not_lost_upTo {n : ℕ} {d : V3 F32} (h : UpTo3 n d) : ¬ LostY d := fun hl => UpTo.ne_nan h.2.1 hl.1

/-! ### Shadow rays -/

/-- Moderate numbers. -/
def Fine (n : ℕ) (i : Interaction F32) : Prop := UpTo3 n i.p ∧ UpTo3 n i.pErr ∧ UpTo3 1 i.n

/-- What is needed of the point that a shadow ray leaves from or goes to: it is fine, or the end of the ray is NaN. -/
def Point (n : ℕ) (i : Interaction F32) : Prop := Fine n i ∨ ∀ v, NaN3 (i.offsetRayOrigin v)

theorem upTo_one : UpTo 0 (PT.lit 1 : F32) := upTo_lit (by omega) (by norm_num)
theorem upTo_zero (n : ℕ) (hn : n ≤ 126) : UpTo n (PT.lit 0 : F32) := upTo_lit hn (by simp)
theorem upTo3_zero (n : ℕ) (hn : n ≤ 126) : UpTo3 n (V3.zero : V3 F32) := ⟨upTo_zero n hn, upTo_zero n hn, upTo_zero n hn⟩

theorem upTo3_flip {n : ℕ} (hn : n ≤ 126) {v : V3 F32} (h : UpTo3 n v) (c : Bool) : UpTo3 n (if c then v.smul ⊖(PT.lit 1) else v) := by
  split_ifs
  · exact upTo3_smul (by omega) h (upTo_neg upTo_one)
  · exact h

theorem upTo_nudge {n : ℕ} (hn : n + 1 ≤ 126) {p : F32} (h : UpTo n p) (o : F32) : UpTo (n + 1) (Interaction.nudge o p) := by
  unfold Interaction.nudge
  split_ifs
  exacts [(upTo_next hn h).1, (upTo_next hn h).2, UpTo.mono h (by omega)]

theorem offset_upTo {n : ℕ} (hn : n ≤ 100) {i : Interaction F32} (hp : UpTo3 n i.p) (he : UpTo3 n i.pErr) (hnn : UpTo3 1 i.n) (v : V3 F32) :
    UpTo3 (n + 6) (i.offsetRayOrigin v) := by
  have hd : UpTo (1 + n + 2) (i.n.abs.dot i.pErr) := upTo_dot (by omega) (upTo3_abs hnn) he
  have ho := upTo3_flip (by omega) (upTo3_smul (by omega) hnn hd) (i.n.dot v <. lit 0)
  have hp' := upTo3_add (n := 1 + (1 + n + 2)) (by omega) (UpTo3.mono hp (by omega)) ho
  have key : UpTo3 (1 + (1 + n + 2) + 1 + 1) (i.offsetRayOrigin v) :=
    ⟨upTo_nudge (by omega) hp'.1 _, upTo_nudge (by omega) hp'.2.1 _, upTo_nudge (by omega) hp'.2.2 _⟩
  exact UpTo3.mono key (by omega)

theorem offset_nan {i : Interaction F32} (hp : NaN3 i.p) (v : V3 F32) : NaN3 (i.offsetRayOrigin v) := by
  obtain ⟨h1, h2, h3⟩ := hp
  refine ⟨?_, ?_, ?_⟩ <;> simp only [Interaction.offsetRayOrigin, V3.add, h1, h2, h3, add_nan_left, nudge_nan]

/-- The direction of a shadow ray has not lost its `y` coordinate. -/
theorem shadow_fine {n : ℕ} (hn : n ≤ 100) {i j : Interaction F32} (hi : Point n i) (hj : Fine n i → Point n j) : ¬ LostY (i.spawnRayTo j).direction := by
  change ¬ LostY ((j.offsetRayOrigin (j.p.sub i.p).neg).sub (i.offsetRayOrigin (j.p.sub i.p)))
  rcases hi with hp | hp
  · rcases hj hp with hq | hq
    · exact not_lost_upTo (upTo3_sub (by omega) (offset_upTo hn hq.1 hq.2.1 hq.2.2 _) (offset_upTo hn hp.1 hp.2.1 hp.2.2 _))
    · exact not_lost_nan3 (nan3_sub_left (hq _) _)
  · exact not_lost_nan3 (nan3_sub_right (hp _) _)

/-! ### Points of triangles -/

theorem gamma7_upTo : UpTo 0 (gamma (PT.lit 7) : F32) := by
  have h : (gamma (PT.lit 7) : F32) = ofVal (gamma (PT.lit 7) : F32).val false ∧ |(gamma (PT.lit 7) : F32).val| ≤ 2 ^ 0 := by decide +kernel
  rw [h.1]
  exact upTo_ofVal (by omega) h.2 _

/-- A combination of the vertices. -/
theorem point_upTo {m n : ℕ} {v0 v1 v2 : V3 F32} {b0 b1 b2 : F32} (hn : m + n + 2 ≤ 126) (h0 : UpTo3 m v0) (h1 : UpTo3 m v1) (h2 : UpTo3 m v2)
    (k0 : UpTo n b0) (k1 : UpTo n b1) (k2 : UpTo n b2) :
    UpTo3 (m + n + 2) (((v0.smul b0).add (v1.smul b1)).add (v2.smul b2)) ∧
    UpTo3 (m + n + 2) ((((v0.smul b0).abs.add (v1.smul b1).abs).add (v2.smul b2).abs).smul (gamma (PT.lit 7))) := by
  have e0 := upTo3_smul (by omega) h0 k0
  have e1 := upTo3_smul (by omega) h1 k1
  have e2 := upTo3_smul (by omega) h2 k2
  refine ⟨upTo3_add (by omega) (upTo3_add (by omega) e0 e1) (UpTo3.mono e2 (by omega)), ?_⟩
  exact upTo3_smul (n := 0) (by omega) (upTo3_add (by omega) (upTo3_add (by omega) (upTo3_abs e0) (upTo3_abs e1)) (UpTo3.mono (upTo3_abs e2) (by omega)))
    gamma7_upTo

theorem point_nan {v0 v1 v2 : V3 F32} {b0 b1 b2 : F32} (h : b0 = nan ∨ b1 = nan ∨ b2 = nan) :
    NaN3 (((v0.smul b0).add (v1.smul b1)).add (v2.smul b2)) := by
  rcases h with rfl | rfl | rfl
  · exact nan3_add_left (nan3_add_left (nan3_smul _) _) _
  · exact nan3_add_left (nan3_add_right (nan3_smul _) _) _
  · exact nan3_add_right (nan3_smul _) _

theorem wf_num {x : F32} (h : x.WF) : x = nan ∨ (∃ s, x = inf s) ∨ Num x := by
  cases x with
  | nan => exact Or.inl rfl
  | inf s => exact Or.inr (Or.inl ⟨s, rfl⟩)
  | fin s a => exact Or.inr (Or.inr ⟨h, trivial⟩)

theorem val_repr {x : F32} (h : Num x) : Fl.Repr Binary32 x.val := by
  obtain ⟨hw, hf⟩ := h
  cases x with
  | nan => cases hf
  | inf s => cases hf
  | fin s a =>
    unfold Fl.Repr
    have : |(fin s a : F32).val| = a := by cases s <;> simp [val, sgn, abs_of_nonneg hw.1]
    rw [this]; exact hw.2

/-- A sum of two numbers of the same sign is at least each, or infinite. -/
theorem add_ge {a b : F32} (ha : Num a) (hb : Num b) (h0 : 0 ≤ a.val) (h1 : 0 ≤ b.val) :
    (∃ s, a +. b = inf s) ∨ (Num (a +. b) ∧ a.val ≤ (a +. b).val ∧ b.val ≤ (a +. b).val) := by
  obtain ⟨zs, e⟩ := add_fin ha.fin hb.fin
  rw [f_add, e]
  have ma : le (ofVal a.val false : F32) (ofVal (a.val + b.val) zs) = true := ofVal_mono (by linarith) _ _
  have mb : le (ofVal b.val false : F32) (ofVal (a.val + b.val) zs) = true := ofVal_mono (by linarith) _ _
  obtain ⟨fa, va⟩ := ofVal_repr (val_repr ha) false
  obtain ⟨fb, vb⟩ := ofVal_repr (val_repr hb) false
  rcases wf_num (ofVal_WF (φ := Binary32) (a.val + b.val) zs) with h | h | h
  · exact absurd h (ofVal_ne_nan _ _)
  · exact Or.inl h
  · refine Or.inr ⟨h, ?_, ?_⟩
    · have := (le_val fa h.fin).1 ma; rwa [va] at this
    · have := (le_val fb h.fin).1 mb; rwa [vb] at this

theorem add_neg_neg (a b : F32) (ha : Num a) (hb : Num b) (h0 : a.val ≤ 0) (h1 : b.val ≤ 0) :
    (∃ s, a +. b = inf s) ∨ (Num (a +. b) ∧ (a +. b).val ≤ a.val ∧ (a +. b).val ≤ b.val) := by
  obtain ⟨zs, e⟩ := add_fin ha.fin hb.fin
  rw [f_add, e]
  have ma : le (ofVal (a.val + b.val) zs : F32) (ofVal a.val false) = true := ofVal_mono (by linarith) _ _
  have mb : le (ofVal (a.val + b.val) zs : F32) (ofVal b.val false) = true := ofVal_mono (by linarith) _ _
  obtain ⟨fa, va⟩ := ofVal_repr (val_repr ha) false
  obtain ⟨fb, vb⟩ := ofVal_repr (val_repr hb) false
  rcases wf_num (ofVal_WF (φ := Binary32) (a.val + b.val) zs) with h | h | h
  · exact absurd h (ofVal_ne_nan _ _)
  · exact Or.inl h
  · refine Or.inr ⟨h, ?_, ?_⟩
    · have := (le_val h.fin fa).1 ma; rwa [va] at this
    · have := (le_val h.fin fb).1 mb; rwa [vb] at this

theorem div_inf {a : F32} (ha : Num a) (s : Bool) : UpTo 0 (a /. inf s) := by
  obtain ⟨t, m, rfl⟩ := IsFin_iff.1 ha.fin
  have : ((fin t m : F32) /. inf s) = fin (t ^^ s) 0 := rfl
  rw [this]
  refine ⟨⟨⟨le_rfl, Rounding.rnd_zero⟩, trivial⟩, ?_⟩
  cases t <;> cases s <;> simp [val, sgn]

/-- Barycentric coordinates of a hit: all at most one, or one of them NaN. -/
theorem bary_fine {e0 e1 e2 : F32} (w0 : e0.WF) (w1 : e1.WF) (w2 : e2.WF)
    (hm : ((e0 <. lit 0 || e1 <. lit 0 || e2 <. lit 0) && (e0 >. lit 0 || e1 >. lit 0 || e2 >. lit 0)) = false)
    (hd : ((e0 +. e1 +. e2) ==. lit 0) = false) :
    (UpTo 0 (e0 /. (e0 +. e1 +. e2)) ∧ UpTo 0 (e1 /. (e0 +. e1 +. e2)) ∧ UpTo 0 (e2 /. (e0 +. e1 +. e2))) ∨
      (e0 /. (e0 +. e1 +. e2) = nan ∨ e1 /. (e0 +. e1 +. e2) = nan ∨ e2 /. (e0 +. e1 +. e2) = nan) := by
  have dn : ∀ a : F32, a /. (nan : F32) = nan := fun a => by cases a <;> rfl
  have ii : ∀ s t, (inf s : F32) /. inf t = nan := fun _ _ => rfl
  have iadd : ∀ (s : Bool) (a : F32), (∃ t, (inf s : F32) +. a = inf t) ∨ (inf s : F32) +. a = nan := by
    intro s a
    cases a with
    | nan => exact Or.inr rfl
    | inf t =>
      by_cases h : s = t
      · exact Or.inl ⟨s, by rw [f_add]; simp [add, h]⟩
      · exact Or.inr (by rw [f_add]; simp [add, h])
    | fin t b => exact Or.inl ⟨s, rfl⟩
  have addi : ∀ (s : Bool) (a : F32), (∃ t, a +. (inf s : F32) = inf t) ∨ a +. (inf s : F32) = nan := by
    intro s a
    cases a with
    | nan => exact Or.inr rfl
    | inf t =>
      by_cases h : t = s
      · exact Or.inl ⟨s, by rw [f_add]; simp [add, h]⟩
      · exact Or.inr (by rw [f_add]; simp [add, h])
    | fin t b => exact Or.inl ⟨s, rfl⟩
  rcases wf_num w0 with rfl | ⟨s, rfl⟩ | n0
  · right; left; rfl
  · right
    have : (∃ t, (inf s : F32) +. e1 +. e2 = inf t) ∨ (inf s : F32) +. e1 +. e2 = nan := by
      rcases iadd s e1 with ⟨t, h⟩ | h
      · rw [h]; exact iadd t e2
      · rw [h]; exact Or.inr (add_nan_left _)
    rcases this with ⟨t, h⟩ | h <;> rw [h]
    · exact Or.inl (ii _ _)
    · exact Or.inl (dn _)
  rcases wf_num w1 with rfl | ⟨s, rfl⟩ | n1
  · right; right; left; rfl
  · right
    have : (∃ t, e0 +. (inf s : F32) +. e2 = inf t) ∨ e0 +. (inf s : F32) +. e2 = nan := by
      rcases addi s e0 with ⟨t, h⟩ | h
      · rw [h]; exact iadd t e2
      · rw [h]; exact Or.inr (add_nan_left _)
    rcases this with ⟨t, h⟩ | h <;> rw [h]
    · exact Or.inr (Or.inl (ii _ _))
    · exact Or.inl (dn _)
  rcases wf_num w2 with rfl | ⟨s, rfl⟩ | n2
  · right; right; right; rfl
  · right
    rcases addi s (e0 +. e1) with ⟨t, h⟩ | h <;> rw [h]
    · exact Or.inr (Or.inr (ii _ _))
    · exact Or.inl (dn _)
  have hz := zero_ok
  have fin' : ∀ d : F32, Num d → (d ==. lit 0) = false → |e0.val| ≤ |d.val| → |e1.val| ≤ |d.val| → |e2.val| ≤ |d.val| →
      UpTo 0 (e0 /. d) ∧ UpTo 0 (e1 /. d) ∧ UpTo 0 (e2 /. d) := by
    intro d hd' hz' h0 h1 h2
    have hne : d.val ≠ 0 := fun h => by
      have := (eq_ok hd' hz.1).2 (by rw [h, hz.2])
      rw [hz'] at this; cases this
    exact ⟨upTo_div (by omega) n0 hd' hne (by simpa using h0), upTo_div (by omega) n1 hd' hne (by simpa using h1),
      upTo_div (by omega) n2 hd' hne (by simpa using h2)⟩
  have alli : ∀ s, UpTo 0 (e0 /. (inf s : F32)) ∧ UpTo 0 (e1 /. (inf s : F32)) ∧ UpTo 0 (e2 /. (inf s : F32)) :=
    fun s => ⟨div_inf n0 s, div_inf n1 s, div_inf n2 s⟩
  have lt0 : ∀ e : F32, Num e → ((e <. lit 0) = true ↔ e.val < 0) := fun e he => by rw [lt_ok he hz.1, hz.2]
  have gt0 : ∀ e : F32, Num e → ((e >. lit 0) = true ↔ 0 < e.val) := fun e he => by
    rw [show (e >. lit 0) = ((lit 0 : F32) <. e) from rfl, lt_ok hz.1 he, hz.2]
  have sign : (0 ≤ e0.val ∧ 0 ≤ e1.val ∧ 0 ≤ e2.val) ∨ (e0.val ≤ 0 ∧ e1.val ≤ 0 ∧ e2.val ≤ 0) := by
    have nlt : ∀ e : F32, Num e → (e <. lit 0) = false → 0 ≤ e.val := fun e he h => by
      by_contra hc
      rw [(lt0 e he).2 (not_le.1 hc)] at h; cases h
    have ngt : ∀ e : F32, Num e → (e >. lit 0) = false → e.val ≤ 0 := fun e he h => by
      by_contra hc
      rw [(gt0 e he).2 (not_le.1 hc)] at h; cases h
    rcases (Bool.and_eq_false_iff.1 hm) with h | h
    · obtain ⟨h, h2⟩ := Bool.or_eq_false_iff.1 h
      obtain ⟨h0, h1⟩ := Bool.or_eq_false_iff.1 h
      exact Or.inl ⟨nlt _ n0 h0, nlt _ n1 h1, nlt _ n2 h2⟩
    · obtain ⟨h, h2⟩ := Bool.or_eq_false_iff.1 h
      obtain ⟨h0, h1⟩ := Bool.or_eq_false_iff.1 h
      exact Or.inr ⟨ngt _ n0 h0, ngt _ n1 h1, ngt _ n2 h2⟩
  left
  rcases sign with ⟨p0, p1, p2⟩ | ⟨p0, p1, p2⟩
  · rcases add_ge n0 n1 p0 p1 with ⟨s, h⟩ | ⟨k, k0, k1⟩
    · have : e0 +. e1 +. e2 = inf s := by
        rw [h]; obtain ⟨t, m, rfl⟩ := IsFin_iff.1 n2.fin; rfl
      rw [this]; exact alli s
    · rcases add_ge k n2 (p0.trans k0) p2 with ⟨s, h⟩ | ⟨l, l0, l1⟩
      · rw [h]; exact alli s
      · refine fin' _ l hd ?_ ?_ ?_ <;> rw [abs_of_nonneg (by linarith), abs_of_nonneg (by linarith)] <;> linarith
  · rcases add_neg_neg _ _ n0 n1 p0 p1 with ⟨s, h⟩ | ⟨k, k0, k1⟩
    · have : e0 +. e1 +. e2 = inf s := by
        rw [h]; obtain ⟨t, m, rfl⟩ := IsFin_iff.1 n2.fin; rfl
      rw [this]; exact alli s
    · rcases add_neg_neg _ _ k n2 (by linarith) p2 with ⟨s, h⟩ | ⟨l, l0, l1⟩
      · rw [h]; exact alli s
      · refine fin' _ l hd ?_ ?_ ?_ <;> rw [abs_of_nonpos (by linarith), abs_of_nonpos (by linarith)] <;> linarith

theorem sqrt_upTo [Libm F32] (hl : SaneLibm) {n : ℕ} {x : F32} (hx : UpTo n x) (h0 : 0 ≤ x.val) : UpTo (n + 1) (Libm.sqrt x) := by
  obtain ⟨a, b, c, -⟩ := hl.sqrt x hx.1 h0
  refine ⟨a, ?_⟩
  rw [abs_of_nonneg b]
  have h1 : x.val ≤ 2 ^ n := (le_abs_self _).trans hx.2
  have h2 : (1 : ℚ) ≤ 2 ^ (n + 1) := one_le_pow₀ (by norm_num)
  rcases le_total (Libm.sqrt x).val 1 with h | h
  · linarith
  · rw [pow_succ]; nlinarith

theorem sq_nonneg' {n : ℕ} (hn : n + n ≤ 126) {x : F32} (hx : UpTo n x) : 0 ≤ (x *. x).val := by
  obtain ⟨zs, e⟩ := mul_val hx.1 hx.1
  rw [e]
  obtain ⟨-, b, -⟩ := ofVal_between (φ := Binary32) (lo := (0 : ℚ)) (hi := 2 ^ (n + n)) (x := x.val * x.val) (by simpa using repr_int (n := 0) (by norm_num)) (pow_repr hn) (mul_self_nonneg _)
    (by rw [← abs_mul_abs_self, pow_add]; exact mul_le_mul hx.2 hx.2 (abs_nonneg _) (by positivity)) zs
  exact b

theorem add_ge' {n : ℕ} (hn : n + 1 ≤ 126) {a b : F32} (ha : UpTo n a) (hb : UpTo n b) (h0 : 0 ≤ a.val) (h1 : 0 ≤ b.val) :
    a.val ≤ (a +. b).val ∧ b.val ≤ (a +. b).val := by
  rcases add_ge ha.1 hb.1 h0 h1 with ⟨s, h⟩ | ⟨-, h⟩
  · have := (upTo_add hn ha hb).1.fin
    rw [h] at this; cases this
  · exact h

/-- The sum of squares is at least each computed square. -/
theorem sumsq_ge {n : ℕ} (hn : n + n + 2 ≤ 126) {v : V3 F32} (hv : UpTo3 n v) :
    0 ≤ (v.x *. v.x +. v.y *. v.y +. v.z *. v.z).val ∧ (v.x *. v.x).val ≤ (v.x *. v.x +. v.y *. v.y +. v.z *. v.z).val ∧
    (v.y *. v.y).val ≤ (v.x *. v.x +. v.y *. v.y +. v.z *. v.z).val ∧ (v.z *. v.z).val ≤ (v.x *. v.x +. v.y *. v.y +. v.z *. v.z).val := by
  have x2 := upTo_mul (m := n) (n := n) (by omega) hv.1 hv.1
  have y2 := upTo_mul (m := n) (n := n) (by omega) hv.2.1 hv.2.1
  have z2 := upTo_mul (m := n) (n := n) (by omega) hv.2.2 hv.2.2
  have x0 := sq_nonneg' (by omega) hv.1
  have y0 := sq_nonneg' (by omega) hv.2.1
  have z0 := sq_nonneg' (by omega) hv.2.2
  obtain ⟨h1, h2⟩ := add_ge' (by omega) x2 y2 x0 y0
  obtain ⟨h3, h4⟩ := add_ge' (by omega) (upTo_add (by omega) x2 y2) (UpTo.mono z2 (by omega)) (x0.trans h1) z0
  exact ⟨z0.trans h4, h1.trans h3, h2.trans h3, h4⟩

theorem square_ge {x : F32} (hx : UpTo 53 x) (h : 1 / 2 ^ 50 ≤ |x.val|) : x.val ^ 2 ≤ 2 * (x *. x).val := by
  have hm := mul_err hx.1.wf hx.1.wf (upTo_mul (m := 53) (n := 53) (by omega) hx hx).1.fin
  have h2 : (1 / 2 ^ 50 : ℚ) ^ 2 ≤ x.val ^ 2 := by rw [← sq_abs x.val]; exact pow_le_pow_left₀ (by positivity) h 2
  rw [abs_of_nonneg (mul_self_nonneg x.val)] at hm
  have hm' := (abs_le.1 hm).1
  unfold ulpHalf tinyHalf at hm'
  norm_num at hm' h2
  nlinarith

/-- The range of the positive numbers of single precision. -/
theorem val_range {x : F32} (hx : Num x) (h : 0 < x.val) : 1 / 2 ^ 149 ≤ x.val ∧ x.val < 2 ^ 128 := by
  match x, hx, h with
  | .fin true a, hx, h =>
    have h1 : 0 ≤ a := hx.wf.1
    have h2 : (0 : ℚ) < -a := h
    linarith
  | .fin false a, hx, h =>
    have h1 : Bin.rnd 23 149 0x7f800000 31 a = some a := hx.wf.2
    have h2 : 0 < a := h
    obtain ⟨h3, h4⟩ := Bin.rnd_some.1 h1
    show 1 / 2 ^ 149 ≤ a ∧ a < 2 ^ 128
    generalize ordRound 23 31 (a * 2 ^ 149) = k at h3 h4
    have hk : 0 < k := by
      rcases Nat.eq_zero_or_pos k with rfl | hk
      · rw [sval_zero] at h4; simp at h4; rw [h4] at h2; exact absurd h2 (lt_irrefl _)
      · exact hk
    have s1 : sval 23 1 ≤ sval 23 k := (sval_strictMono 23).monotone hk
    have s2 : sval 23 k < sval 23 0x7f800000 := sval_strictMono 23 h3
    have e1 : sval 23 1 = 1 := by decide +kernel
    have e2 : sval 23 0x7f800000 = 2 ^ 128 * 2 ^ 149 := by decide +kernel
    rw [e1] at s1
    rw [e2] at s2
    have t1 : (1 : ℚ) ≤ sval 23 k := by exact_mod_cast s1
    have t2 : (sval 23 k : ℚ) < 2 ^ 128 * 2 ^ 149 := by exact_mod_cast s2
    rw [h4]
    exact ⟨div_le_div_of_nonneg_right t1 (by positivity), (div_lt_iff₀ (by positivity)).2 t2⟩

/-- A square is at most twice the computed square, up to half the smallest number. -/
theorem square_le {x : F32} (hx : Num x) (h : Num (x *. x)) {S : ℚ} (hS : (x *. x).val ≤ S) (h0 : 1 / 2 ^ 149 ≤ S) : x.val ^ 2 ≤ 2 * S := by
  have hm := mul_err hx.wf hx.wf h.fin
  rw [abs_of_nonneg (mul_self_nonneg x.val)] at hm
  have hm' := (abs_le.1 hm).1
  unfold ulpHalf tinyHalf at hm'
  norm_num at hm' h0
  nlinarith

/-- Normalizing a vector whose computed length is not zero gives coordinates of at most 2. -/
theorem normalize_pos [Libm F32] (hl : SaneLibm) {v : V3 F32} (hv : UpTo3 53 v) (hs : 0 < (v.x *. v.x +. v.y *. v.y +. v.z *. v.z).val) :
    UpTo3 1 v.normalize := by
  obtain ⟨s0, sx, sy, sz⟩ := sumsq_ge (by omega) hv
  have hS := upTo_sum3 (m := 53) (n := 53) (by omega) hv.1 hv.1 hv.2.1 hv.2.1 hv.2.2 hv.2.2
  obtain ⟨l1, l2, l3, l4⟩ := hl.sqrt _ hS.1 s0
  have hr := (val_range hS.1 hs).1
  have hlen : Libm.sqrt (v.x *. v.x +. v.y *. v.y +. v.z *. v.z) = v.length := rfl
  rw [hlen] at l1 l2 l3 l4
  generalize (v.x *. v.x +. v.y *. v.y +. v.z *. v.z).val = S at hs s0 sx sy sz l3 l4 hr
  have hpos : 0 < v.length.val := by
    rcases l2.lt_or_eq with h | h
    · exact h
    · rw [← h] at l4; norm_num at l4; linarith
  have key : ∀ x : F32, UpTo 53 x → (x *. x).val ≤ S → UpTo 1 (x /. v.length) := by
    intro x hx h1
    refine upTo_div (by omega) hx.1 l1 hpos.ne' ?_
    rw [abs_of_pos hpos, pow_one]
    rw [← abs_of_pos (show 0 < 2 * v.length.val by linarith)]
    apply sq_le_sq.1
    have := square_le hx.1 (upTo_mul (m := 53) (n := 53) (by omega) hx hx).1 h1 hr
    nlinarith
  exact ⟨key _ hv.1 sx, key _ hv.2.1 sy, key _ hv.2.2 sz⟩

/-- Normalizing a vector that is not tiny gives coordinates of at most 2. -/
theorem normalize_upTo [Libm F32] (hl : SaneLibm) {v : V3 F32} (hv : UpTo3 53 v) (hs : NotTiny v) : UpTo3 1 v.normalize := by
  obtain ⟨s0, sx, sy, sz⟩ := sumsq_ge (by omega) hv
  apply normalize_pos hl hv
  generalize (v.x *. v.x +. v.y *. v.y +. v.z *. v.z).val = S at s0 sx sy sz ⊢
  have key : ∀ x : F32, UpTo 53 x → (x *. x).val ≤ S → 1 / 2 ^ 50 ≤ |x.val| → 0 < S := fun x hx h1 h2 => by
    have := square_ge hx h2
    have h3 : (1 / 2 ^ 50 : ℚ) ^ 2 ≤ x.val ^ 2 := by rw [← sq_abs x.val]; exact pow_le_pow_left₀ (by positivity) h2 2
    norm_num at h3
    linarith
  rcases hs with h | h | h
  exacts [key _ hv.1 sx h, key _ hv.2.1 sy h, key _ hv.2.2 sz h]

/-- What is used of a triangle. -/
structure FineTriangle [Libm F32] (t : Triangle F32) : Prop where
  v0 : UpTo3 40 t.v0
  v1 : UpTo3 40 t.v1
  v2 : UpTo3 40 t.v2
  flat : t.vertexNormals = none
  matt : ∃ kd, t.material = lambertianMaterial kd
  normal : UpTo3 1 ((t.v0.sub t.v2).cross (t.v1.sub t.v2)).normalize
  side : UpTo3 1 ((t.v1.sub t.v0).cross (t.v2.sub t.v0)).normalize
  tangent : UpTo3 1 t.partials.1.normalize

theorem partials_upTo [Libm F32] {t : Triangle F32} (h0 : UpTo3 25 t.v0) (h1 : UpTo3 25 t.v1) (h2 : UpTo3 25 t.v2) : UpTo3 53 t.partials.1 := by
  have hc : (Scalar.abs (((lit 0 : F32) -. lit 1) *. (lit 0 -. lit 1) -. (lit 0 -. lit 1) *. (lit 1 -. lit 1)) <. epsilon) = false := by decide +kernel
  have hd : ((lit 0 : F32) -. lit 1) *. (lit 0 -. lit 1) -. (lit 0 -. lit 1) *. (lit 1 -. lit 1) = lit 1 := by decide +kernel
  have one : (lit 1 : F32).val = 1 := by decide +kernel
  have hk : UpTo 1 ((lit 0 : F32) -. lit 1) := upTo_sub (by omega) (upTo_zero 0 (by omega)) upTo_one
  unfold Triangle.partials Triangle.getUv
  simp only [V2.sub, hc, Bool.false_eq_true, if_false]
  rw [hd]
  have hv := upTo3_sub (n := 27) (by omega) (upTo3_smul (m := 26) (n := 1) (by omega) (upTo3_sub (by omega) h0 h2) hk)
    (upTo3_smul (m := 26) (n := 1) (by omega) (upTo3_sub (by omega) h1 h2) hk)
  have key : ∀ x : F32, UpTo 28 x → UpTo 53 (x /. lit 1) := fun x hx =>
    UpTo.mono (upTo_div (n := 28) (by omega) hx.1 upTo_one.1 (by rw [one]; norm_num) (by rw [one]; simpa using hx.2)) (by omega)
  exact ⟨key _ hv.1, key _ hv.2.1, key _ hv.2.2⟩

theorem fine_triangle [Libm F32] (hl : SaneLibm) {t : Triangle F32} (ht : MattTriangle t) : FineTriangle t where
  v0 := UpTo3.mono ht.v0 (by omega)
  v1 := UpTo3.mono ht.v1 (by omega)
  v2 := UpTo3.mono ht.v2 (by omega)
  flat := ht.flat
  matt := ht.matt
  normal := normalize_upTo hl (upTo3_cross (m := 26) (n := 26) (by omega) (upTo3_sub (by omega) ht.v0 ht.v2) (upTo3_sub (by omega) ht.v1 ht.v2)) ht.normal
  side := normalize_upTo hl (upTo3_cross (m := 26) (n := 26) (by omega) (upTo3_sub (by omega) ht.v1 ht.v0) (upTo3_sub (by omega) ht.v2 ht.v0)) ht.side
  tangent := normalize_upTo hl (partials_upTo ht.v0 ht.v1 ht.v2) ht.tangent

/-- What is needed of a hit. -/
structure GoodHit [Libm F32] (i : Interaction F32) : Prop where
  pt : Point 42 i
  frame : (UpTo3 1 i.sn ∧ UpTo3 1 i.dpdu.normalize) ∨ i.sn.x = nan ∨ i.dpdu.normalize.z = nan

theorem triangle_hit [Libm F32] {t : Triangle F32} (ht : FineTriangle t) {ray : Ray F32} {i : Interaction F32} {tt : F32}
    (h : t.intersect ray = some (some (i, tt))) : GoodHit i := by
  have e : t.intersect ray = _ := Triangle.intersect_eq t ray.origin ray.direction ray.tMax
  rw [e] at h
  obtain ⟨m, -, h⟩ := Option.map_eq_some_iff.1 h
  dsimp only at h
  split_ifs at h with hr
  simp only [Option.some.injEq, Prod.mk.injEq] at h
  obtain ⟨rfl, -⟩ := h
  have hw : (Triangle.stage t ray.origin ray.direction m).e0.WF ∧ (Triangle.stage t ray.origin ray.direction m).e1.WF ∧
      (Triangle.stage t ray.origin ray.direction m).e2.WF := ⟨add_WF _ _, add_WF _ _, add_WF _ _⟩
  generalize Triangle.stage t ray.origin ray.direction m = g at hr hw ⊢
  unfold Triangle.Stage.rejects Triangle.Stage.mixed Triangle.Stage.det at hr
  simp only [Bool.not_eq_true, Bool.or_eq_false_iff] at hr
  have hb := bary_fine hw.1 hw.2.1 hw.2.2 hr.1.1.1 hr.1.1.2
  change _ ∨ _ at hb
  unfold Triangle.Stage.det
  generalize g.e0 /. (g.e0 +. g.e1 +. g.e2) = b0 at hb ⊢
  generalize g.e1 /. (g.e0 +. g.e1 +. g.e2) = b1 at hb ⊢
  generalize g.e2 /. (g.e0 +. g.e1 +. g.e2) = b2 at hb ⊢
  unfold Triangle.interactionAt
  simp only [Triangle.shading, ht.flat]
  have hn := ht.normal
  generalize ((t.v0.sub t.v2).cross (t.v1.sub t.v2)).normalize = n at hn ⊢
  refine ⟨?_, Or.inl ⟨upTo3_flip (by omega) hn _, ht.tangent⟩⟩
  rcases hb with ⟨h0, h1, h2⟩ | hb
  · obtain ⟨a, b⟩ := point_upTo (by omega) ht.v0 ht.v1 ht.v2 h0 h1 h2
    exact Or.inl ⟨a, b, upTo3_flip (by omega) hn _⟩
  · exact Or.inr (offset_nan (point_nan hb))

theorem sample_num {x : F32} (h : Sample32 x) : UpTo 0 x ∧ 0 ≤ x.val := by
  obtain ⟨hw, h0, h1⟩ := h
  have e0 : (lit 0 : F32) = .fin false 0 := by decide +kernel
  have e1 : (lit 1 : F32) = .fin false 1 := by decide +kernel
  rw [e0] at h0; rw [e1] at h1
  cases x with
  | nan => cases h0
  | inf s => cases s <;> simp [Fl.le, Fl.lt] at h0 h1
  | fin s a =>
    simp only [Fl.le, Fl.lt, decide_eq_true_eq] at h0 h1
    have h0' : 0 ≤ (fin s a : F32).val := by simpa [val, sgn] using h0
    have h1' : (fin s a : F32).val < 1 := by simpa [val, sgn] using h1
    exact ⟨⟨⟨hw, trivial⟩, by rw [abs_of_nonneg h0']; simpa using h1'.le⟩, h0'⟩

theorem triangle_sample [Libm F32] (hl : SaneLibm) {t : Triangle F32} (ht : FineTriangle t) {u : V2 F32} (h1 : Sample32 u.x) (h2 : Sample32 u.y) :
    Point 46 (t.sample u) := by
  obtain ⟨hx, hx0⟩ := sample_num h1
  have hs := sqrt_upTo hl hx hx0
  have k0 : UpTo 2 (lit 1 -. Libm.sqrt u.x) := upTo_sub (by omega) (UpTo.mono upTo_one (by omega)) hs
  have k1 : UpTo 1 (u.y *. Libm.sqrt u.x) := upTo_mul (m := 0) (n := 1) (by omega) (sample_num h2).1 hs
  have k2 : UpTo 4 (lit 1 -. (lit 1 -. Libm.sqrt u.x) -. (u.y *. Libm.sqrt u.x)) :=
    upTo_sub (by omega) (upTo_sub (by omega) (UpTo.mono upTo_one (by omega)) k0) (UpTo.mono k1 (by omega))
  obtain ⟨a, b⟩ := point_upTo (n := 4) (by omega) ht.v0 ht.v1 ht.v2 (UpTo.mono k0 (by omega)) (UpTo.mono k1 (by omega)) k2
  exact Or.inl ⟨a, b, upTo3_flip (by omega) ht.side _⟩

theorem Point.mono {m n : ℕ} {i : Interaction F32} (h : Point m i) (hmn : m ≤ n) : Point n i :=
  h.imp (fun h => ⟨UpTo3.mono h.1 hmn, UpTo3.mono h.2.1 hmn, h.2.2⟩) id

/-! ### Scattering -/

theorem disk_upTo [Libm F32] (hl : SaneLibm) {u : V2 F32} (hx : UpTo 1 u.x) (hy : UpTo 1 u.y) :
    UpTo 3 (concentricSampleDisk u).x ∧ UpTo 3 (concentricSampleDisk u).y := by
  have two : UpTo 1 (lit 2 : F32) := upTo_lit (by omega) (by norm_num)
  have four : Num (lit 4 : F32) ∧ (lit 4 : F32).val = 4 := by
    refine ⟨lit_ok (by norm_num), by decide +kernel⟩
  have twov : (lit 2 : F32).val = 2 := by decide +kernel
  have p4 : UpTo 0 ((Libm.pi : F32) /. lit 4) := upTo_div (by omega) hl.pi.1 four.1 (by rw [four.2]; norm_num) (by
    rw [four.2]; have := hl.pi.2; norm_num at this ⊢; exact this)
  have p2 : UpTo 1 ((Libm.pi : F32) /. lit 2) := upTo_div (by omega) hl.pi.1 two.1 (by rw [twov]; norm_num) (by
    rw [twov]; have := hl.pi.2; norm_num at this ⊢; exact this)
  have g : ∀ x : F32, UpTo 1 x → UpTo 3 (x *. lit 2 +. ⊖(lit 1)) := fun x h =>
    upTo_add (by omega) (upTo_mul (by omega) h two) (UpTo.mono (upTo_neg upTo_one) (by omega))
  have hx' := g _ hx
  have hy' := g _ hy
  unfold concentricSampleDisk
  dsimp only
  generalize u.x *. lit 2 +. ⊖(lit 1) = a at hx' ⊢
  generalize u.y *. lit 2 +. ⊖(lit 1) = b at hy' ⊢
  have ha := abs_ok hx'.1
  have hb := abs_ok hy'.1
  have polar : ∀ theta r : F32, Num theta → UpTo 3 r → UpTo 3 (Libm.cos theta *. r) ∧ UpTo 3 (Libm.sin theta *. r) := fun theta r h1 h2 =>
    ⟨UpTo.mono (upTo_mul (by omega) (hl.cos _ h1) h2) (by omega), UpTo.mono (upTo_mul (by omega) (hl.sin _ h1) h2) (by omega)⟩
  split_ifs with hz hc
  · exact ⟨hx', hy'⟩
  · rw [show (Scalar.abs a >. Scalar.abs b) = (Scalar.abs b <. Scalar.abs a) from rfl, lt_ok hb.1 ha.1, ha.2, hb.2] at hc
    refine polar _ _ ?_ hx'
    exact (upTo_mul (m := 0) (n := 0) (by omega) p4 (upTo_div (by omega) hy'.1 hx'.1
      (fun h => by rw [h, abs_zero] at hc; exact absurd hc (not_lt.2 (abs_nonneg _))) (by simpa using hc.le))).1
  · rw [show (Scalar.abs a >. Scalar.abs b) = (Scalar.abs b <. Scalar.abs a) from rfl, lt_ok hb.1 ha.1, ha.2, hb.2, not_lt] at hc
    refine polar _ _ ?_ hy'
    have hne : b.val ≠ 0 := fun h => by
      apply hz
      rw [h, abs_zero] at hc
      rw [Bool.and_eq_true, eq_ok hx'.1 zero_ok.1, eq_ok hy'.1 zero_ok.1, zero_ok.2]
      exact ⟨abs_eq_zero.1 (le_antisymm hc (abs_nonneg _)), h⟩
    exact (upTo_sub (by omega) p2 (UpTo.mono (upTo_mul (m := 0) (n := 0) (by omega) p4 (upTo_div (by omega) hx'.1 hy'.1 hne (by simpa using hc))) (by omega))).1

theorem hemisphere_upTo [Libm F32] (hl : SaneLibm) {u : V2 F32} (hx : UpTo 1 u.x) (hy : UpTo 1 u.y) : UpTo3 9 (cosineSampleHemisphere u) := by
  obtain ⟨h1, h2⟩ := disk_upTo hl hx hy
  refine ⟨UpTo.mono h1 (by omega), UpTo.mono h2 (by omega), ?_⟩
  have hs : UpTo 8 (lit 1 -. (concentricSampleDisk u).x *. (concentricSampleDisk u).x -. (concentricSampleDisk u).y *. (concentricSampleDisk u).y) :=
    upTo_sub (by omega) (upTo_sub (by omega) (UpTo.mono upTo_one (by omega)) (upTo_mul (m := 3) (n := 3) (by omega) h1 h1))
      (UpTo.mono (upTo_mul (m := 3) (n := 3) (by omega) h2 h2) (by omega))
  refine sqrt_upTo hl (upTo_max hs (upTo_zero 8 (by omega))) ?_
  rw [(max_ok hs.1 zero_ok.1).2, zero_ok.2]
  exact le_max_right _ _

theorem matt_scatter [Libm F32] (hl : SaneLibm) {m : Material F32} (hm : ∃ kd, m = lambertianMaterial kd) {i : Interaction F32} (hi : GoodHit i)
    (wo : V3 F32) {u : V2 F32} (h1 : Sample32 u.x) (h2 : Sample32 u.y) {s} (hs : (m i).sampleF wo u = some s) : ¬ LostY s.1 := by
  obtain ⟨kd, rfl⟩ := hm
  have hno : ¬ LostY (BSDF.noSample (α := F32)).1 := not_lost_upTo (upTo3_zero 0 (by omega))
  unfold lambertianMaterial at hs
  dsimp only at hs
  split_ifs at hs
  · simp only [BSDF.sampleF, BSDF.new, List.length_nil, if_true, Option.some.injEq] at hs
    rw [← hs]; exact hno
  simp only [BSDF.sampleF, BSDF.new, BSDF.add, List.nil_append, List.length_singleton, one_ne_zero, if_false] at hs
  split at hs
  · cases hs
  next x hx' =>
    obtain ⟨hlt, rfl⟩ := List.getElem?_eq_some_iff.1 hx'
    have hk : toUsize (Scalar.floor (u.x *. ofInt ((1 : ℕ) : Int))) = 0 := by simpa using hlt
    simp only [hk, List.getElem_cons_zero] at hs
    split_ifs at hs
    · simp only [Option.some.injEq] at hs; rw [← hs]; exact hno
    · simp only [Option.some.injEq] at hs; rw [← hs]; exact hno
    all_goals
      simp only [Option.some.injEq] at hs
      rw [← hs]
      dsimp only
      have o1 : UpTo 0 (ofInt ((1 : ℕ) : Int) : F32) := upTo_lit (by omega) (by norm_num)
      have o0 : UpTo 0 (ofInt ((0 : ℕ) : Int) : F32) := upTo_lit (by omega) (by norm_num)
      have hx : UpTo 1 (u.x *. ofInt ((1 : ℕ) : Int) -. ofInt ((0 : ℕ) : Int)) := upTo_sub (by omega) (upTo_mul (m := 0) (n := 0) (by omega) (sample_num h1).1 o1) o0
      have hw := hemisphere_upTo hl (u := ⟨_, u.y⟩) hx (UpTo.mono (sample_num h2).1 (by omega))
      unfold BSDF.localToWorld lambertianReflection Lambertian.sampleF
      dsimp only
      generalize cosineSampleHemisphere (_ : V2 F32) = w at hw ⊢
      rcases hi.frame with ⟨hsn, htan⟩ | hnan
      on_goal 2 =>
        refine fun hlost => hlost.2.1 ?_
        rcases hnan with h | h
        · simp only [h, mul_nan_left, add_nan_right]
        · simp only [V3.cross, h, mul_nan_right, sub_nan_left, mul_nan_left, add_nan_right, add_nan_left]
      have ht := upTo3_cross (by omega) hsn htan
      apply not_lost_upTo (n := 3 + 9 + 2)
      have key : ∀ w : V3 F32, UpTo3 9 w → UpTo3 (3 + 9 + 2) (V3.mk
          (i.dpdu.normalize.x *. w.x +. (i.sn.cross i.dpdu.normalize).x *. w.y +. i.sn.x *. w.z)
          (i.dpdu.normalize.y *. w.x +. (i.sn.cross i.dpdu.normalize).y *. w.y +. i.sn.y *. w.z)
          (i.dpdu.normalize.z *. w.x +. (i.sn.cross i.dpdu.normalize).z *. w.y +. i.sn.z *. w.z)) := by
        intro w hw
        have a := UpTo3.mono htan (show 1 ≤ 3 by omega)
        have b := UpTo3.mono hsn (show 1 ≤ 3 by omega)
        exact ⟨upTo_sum3 (by omega) a.1 hw.1 ht.1 hw.2.1 b.1 hw.2.2, upTo_sum3 (by omega) a.2.1 hw.1 ht.2.1 hw.2.1 b.2.1 hw.2.2,
          upTo_sum3 (by omega) a.2.2 hw.1 ht.2.2 hw.2.1 b.2.2 hw.2.2⟩
      split_ifs
      · exact key ⟨w.x, w.y, w.z *. ⊖(lit 1)⟩ ⟨hw.1, hw.2.1, upTo_mul (n := 0) (by omega) hw.2.2 (upTo_neg upTo_one)⟩
      · exact key w hw

/-! ### Distant lights -/

/-- A box of moderate size with its corners in order. -/
def Box (n : ℕ) (b : BBox3 F32) : Prop := UpTo3 n b.min ∧ UpTo3 n b.max ∧ ∀ a, le (b.min.get a) (b.max.get a) = true

theorem upTo3_get {n : ℕ} {v : V3 F32} (h : UpTo3 n v) (a : Axis) : UpTo n (v.get a) := by cases a; exacts [h.1, h.2.1, h.2.2]

theorem upTo_min {n : ℕ} {a b : F32} (ha : UpTo n a) (hb : UpTo n b) : UpTo n (Scalar.fmin a b) := by
  rw [show (Scalar.fmin a b : F32) = Fl.fmin a b from rfl]
  unfold Fl.fmin
  split_ifs <;> assumption

theorem upTo3_min {n : ℕ} {a b : V3 F32} (ha : UpTo3 n a) (hb : UpTo3 n b) : UpTo3 n (a.min b) :=
  ⟨upTo_min ha.1 hb.1, upTo_min ha.2.1 hb.2.1, upTo_min ha.2.2 hb.2.2⟩
theorem upTo3_max {n : ℕ} {a b : V3 F32} (ha : UpTo3 n a) (hb : UpTo3 n b) : UpTo3 n (a.max b) :=
  ⟨upTo_max ha.1 hb.1, upTo_max ha.2.1 hb.2.1, upTo_max ha.2.2 hb.2.2⟩
theorem box_union {n : ℕ} {b c : BBox3 F32} (hb : Box n b) (hc : Box n c) : Box n (b.union c) :=
  ⟨upTo3_min hb.1 hc.1, upTo3_max hb.2.1 hc.2.1, fun a => by
    rw [show (b.union c).min = b.min.min c.min from rfl, show (b.union c).max = b.max.max c.max from rfl, get_min, get_max]
    exact le_trans' (fmin_facts (UpTo.ne_nan (upTo3_get hb.1 a)) (UpTo.ne_nan (upTo3_get hc.1 a))).2.1
      (le_trans' (hb.2.2 a) (fmax_facts (UpTo.ne_nan (upTo3_get hb.2.1 a)) (UpTo.ne_nan (upTo3_get hc.2.1 a))).2.1)⟩
theorem box_new {n : ℕ} {v w : V3 F32} (hv : UpTo3 n v) (hw : UpTo3 n w) : Box n (BBox3.new v w) :=
  ⟨upTo3_min hv hw, upTo3_max hw hv, fun a => (c33_new (fun a => UpTo.ne_nan (upTo3_get hv a)) (fun a => UpTo.ne_nan (upTo3_get hw a))).2.1 a⟩

theorem triangle_box [Libm F32] {t : Triangle F32} (ht : FineTriangle t) : Box 40 t.bbox := by
  have h := box_new ht.v0 ht.v1
  refine ⟨upTo3_min h.1 ht.v2, upTo3_max h.2.1 ht.v2, fun a => ?_⟩
  rw [show t.bbox.min = (BBox3.new t.v0 t.v1).min.min t.v2 from rfl, show t.bbox.max = (BBox3.new t.v0 t.v1).max.max t.v2 from rfl, get_min, get_max]
  exact le_trans' (fmin_facts (UpTo.ne_nan (upTo3_get h.1 a)) (UpTo.ne_nan (upTo3_get ht.v2 a))).2.1
    (le_trans' (h.2.2 a) (fmax_facts (UpTo.ne_nan (upTo3_get h.2.1 a)) (UpTo.ne_nan (upTo3_get ht.v2 a))).2.1)

theorem upTo_half {n : ℕ} (hn : n ≤ 126) {x : F32} (hx : UpTo n x) : UpTo n (x /. lit 2) := by
  have two : Num (lit 2 : F32) ∧ (lit 2 : F32).val = 2 := ⟨lit_ok (by norm_num), by decide +kernel⟩
  refine upTo_div hn hx.1 two.1 (by rw [two.2]; norm_num) ?_
  rw [two.2]
  have h1 := hx.2
  have h2 : (0 : ℚ) < 2 ^ n := by positivity
  norm_num; linarith

theorem length_upTo [Libm F32] (hl : SaneLibm) {n : ℕ} (hn : n + n + 2 ≤ 126) {v : V3 F32} (hv : UpTo3 n v) : UpTo (n + n + 3) v.length :=
  sqrt_upTo hl (upTo_sum3 hn hv.1 hv.1 hv.2.1 hv.2.1 hv.2.2 hv.2.2) (sumsq_ge hn hv).1

theorem radius_upTo [Libm F32] (hl : SaneLibm) {b : BBox3 F32} (hb : Box 40 b) : UpTo 87 b.boundingSphere.2 := by
  unfold BBox3.boundingSphere
  dsimp only
  split_ifs
  · have hs := upTo3_add (n := 40) (by omega) hb.1 hb.2.1
    have hc : UpTo3 41 ((b.min.add b.max).sdiv (lit 2)) := ⟨upTo_half (by omega) hs.1, upTo_half (by omega) hs.2.1, upTo_half (by omega) hs.2.2⟩
    unfold V3.distance
    first
      | exact length_upTo hl (n := 42) (by omega) (upTo3_sub (by omega) hc (UpTo3.mono hb.2.1 (by omega)))
      | exact length_upTo hl (n := 42) (by omega) (upTo3_sub (by omega) (UpTo3.mono hb.2.1 (by omega)) hc)
  · exact upTo_zero _ (by omega)

theorem distant_fine [Libm F32] (hl : SaneLibm) {b : BBox3 F32} (hb : Box 40 b) (e : Spectrum F32) {w : V3 F32} (hw : UpTo3 1 w.normalize)
    {i : Interaction F32} (hi : GoodHit i) (u : V2 F32) :
    ¬ LostY (((DistantLight.new e w).preProcess b).sampleLi i u).vis.ray.direction := by
  have hr := radius_upTo hl hb
  have two : UpTo 1 (lit 2 : F32) := upTo_lit (by omega) (by norm_num)
  rcases hi.pt with hp | hp
  · refine shadow_fine (n := 90) (by omega) (Point.mono (Or.inl hp) (by omega)) fun _ => Or.inl ⟨?_, upTo3_zero _ (by omega), upTo3_zero 1 (by omega)⟩
    exact upTo3_add (n := 89) (by omega) (UpTo3.mono hp.1 (by omega)) (upTo3_smul (m := 1) (n := 88) (by omega) hw (upTo_mul (m := 1) (n := 87) (by omega) two hr))
  · exact not_lost_nan3 (nan3_sub_right (hp _) _)

/-! ### Spheres -/

theorem square_up {x : F32} (hx : Num x) (h : Num (x *. x)) : (x *. x).val ≤ 3 * x.val ^ 2 := by
  rcases le_or_gt (x *. x).val 0 with h0 | h0
  · nlinarith [sq_nonneg x.val]
  · have hm := mul_err hx.wf hx.wf h.fin
    have hr := (val_range h h0).1
    rw [abs_of_nonneg (mul_self_nonneg x.val)] at hm
    have hm' := (abs_le.1 hm).2
    unfold ulpHalf tinyHalf at hm'
    norm_num at hm' hr
    nlinarith [sq_nonneg x.val]

theorem sum_up {a b : F32} (ha : Num a) (hb : Num b) (h : Num (a +. b)) (h0 : 0 ≤ a.val) (h1 : 0 ≤ b.val) : (a +. b).val ≤ 2 * (a.val + b.val) := by
  have hm := (abs_le.1 (add_err ha.wf hb.wf h.fin)).2
  rw [abs_of_nonneg (by linarith)] at hm
  unfold ulpHalf at hm
  norm_num at hm
  nlinarith

/-- A number at least zero, or infinite. -/
def NN (x : F32) : Prop := x = inf false ∨ (Num x ∧ 0 ≤ x.val)

theorem nn_add {a b : F32} (ha : NN a) (hb : NN b) : NN (a +. b) ∧ (Num (a +. b) → Num a ∧ Num b ∧ a.val ≤ (a +. b).val ∧ b.val ≤ (a +. b).val) := by
  rcases ha with rfl | ⟨na, ha⟩
  · have : (inf false : F32) +. b = inf false := by
      rcases hb with rfl | ⟨nb, -⟩
      · rfl
      · obtain ⟨t, m, rfl⟩ := IsFin_iff.1 nb.fin; rfl
    rw [this]
    exact ⟨Or.inl rfl, fun h => absurd h.fin id⟩
  rcases hb with rfl | ⟨nb, hb⟩
  · have : a +. (inf false : F32) = inf false := by obtain ⟨t, m, rfl⟩ := IsFin_iff.1 na.fin; rfl
    rw [this]
    exact ⟨Or.inl rfl, fun h => absurd h.fin id⟩
  rcases add_ge na nb ha hb with ⟨s, h⟩ | ⟨h1, h2, h3⟩
  · cases s with
    | false => rw [h]; exact ⟨Or.inl rfl, fun h => absurd h.fin id⟩
    | true =>
      exfalso
      obtain ⟨zs, e⟩ := add_fin na.fin nb.fin
      rw [f_add, e] at h
      have ma : le (ofVal a.val false : F32) (ofVal (a.val + b.val) zs) = true := ofVal_mono (by linarith) _ _
      obtain ⟨fa, va⟩ := ofVal_repr (val_repr na) false
      rw [h] at ma
      obtain ⟨t, m, e'⟩ := IsFin_iff.1 fa
      rw [e'] at ma; cases ma
  · exact ⟨Or.inr ⟨h1, ha.trans h2⟩, fun _ => ⟨na, nb, h2, h3⟩⟩

/-- The square of something that is not NaN. -/
theorem nn_square {x : F32} (h : x.WF) (hn : x ≠ nan) : NN (x *. x) ∧ (Num (x *. x) → Num x) := by
  cases x with
  | nan => exact absurd rfl hn
  | inf s =>
    have : (inf s : F32) *. inf s = inf false := by cases s <;> rfl
    rw [this]; exact ⟨Or.inl rfl, fun h => absurd h.fin id⟩
  | fin s a =>
    refine ⟨?_, fun _ => ⟨h, trivial⟩⟩
    have hw : ((fin s a : F32) *. fin s a).WF := mul_WF h h
    have e : ((fin s a : F32) *. fin s a) = ofMag false (a * a) := by
      show ofMag (s ^^ s) (a * a) = _
      rw [Bool.xor_self]
    rw [e] at hw ⊢
    unfold ofMag at hw ⊢
    split at hw
    · exact Or.inl rfl
    · exact Or.inr ⟨⟨hw, trivial⟩, hw.1⟩

theorem div_nan_right (a : F32) : a /. (nan : F32) = nan := by cases a <;> rfl

theorem zero_div_zero {a b : F32} (ha : Num a) (hb : Num b) (h0 : a.val = 0) (h1 : b.val = 0) : a /. b = nan := by
  obtain ⟨s, m, rfl⟩ := IsFin_iff.1 ha.fin
  obtain ⟨t, k, rfl⟩ := IsFin_iff.1 hb.fin
  have hm : m = 0 := by cases s <;> simpa [val, sgn] using h0
  have hk : k = 0 := by cases t <;> simpa [val, sgn] using h1
  subst hm hk
  rw [show ((fin s 0 : F32) /. fin t 0) = Fl.div (fin s 0) (fin t 0) from rfl]
  simp [Fl.div]

theorem mul_zero_val {a b : F32} (ha : Num a) (hb : Num b) (h : a.val * b.val = 0) : Num (a *. b) ∧ (a *. b).val = 0 := by
  obtain ⟨zs, e⟩ := mul_val ha hb
  rw [e, h]
  obtain ⟨f, v⟩ := ofVal_repr (φ := Binary32) (x := (0 : ℚ)) (by simpa using repr_int (n := 0) (by norm_num)) zs
  exact ⟨⟨ofVal_WF _ _, f⟩, v⟩

theorem add_zero_val {a b : F32} (ha : Num a) (hb : Num b) (h0 : a.val = 0) (h1 : b.val = 0) : Num (a +. b) ∧ (a +. b).val = 0 := by
  obtain ⟨zs, e⟩ := add_fin ha.fin hb.fin
  rw [f_add, e, h0, h1, add_zero]
  obtain ⟨f, v⟩ := ofVal_repr (φ := Binary32) (x := (0 : ℚ)) (by simpa using repr_int (n := 0) (by norm_num)) zs
  exact ⟨⟨ofVal_WF _ _, f⟩, v⟩

theorem mul_inf_cases {a : F32} (ha : Num a) (s : Bool) : a *. (inf s : F32) = nan ∨ ∃ t, a *. (inf s : F32) = inf t := by
  obtain ⟨t, m, rfl⟩ := IsFin_iff.1 ha.fin
  show (if m = 0 then nan else inf (t ^^ s) : F32) = nan ∨ ∃ u, (if m = 0 then nan else inf (t ^^ s) : F32) = inf u
  split_ifs
  · exact Or.inl rfl
  · exact Or.inr ⟨_, rfl⟩

section
variable [Libm F32]

theorem normalize_len_nan {v : V3 F32} (h : v.length = nan) : NaN3 v.normalize := by
  refine ⟨?_, ?_, ?_⟩
  · show v.x /. v.length = nan; rw [h, div_nan_right]
  · show v.y /. v.length = nan; rw [h, div_nan_right]
  · show v.z /. v.length = nan; rw [h, div_nan_right]

theorem length_nan (hl : SaneLibm) {v : V3 F32} (h : v.x = nan ∨ v.y = nan ∨ v.z = nan) : v.length = nan := by
  have : v.x *. v.x +. v.y *. v.y +. v.z *. v.z = nan := by
    rcases h with h | h | h <;> rw [h] <;> simp only [mul_nan_left, add_nan_left, add_nan_right]
  show Libm.sqrt (v.x *. v.x +. v.y *. v.y +. v.z *. v.z) = nan
  rw [this, hl.sqrt_nan]

theorem sqrt_zero' (hl : SaneLibm) {x : F32} (hx : Num x) (h : x.val = 0) : Num (Libm.sqrt x) ∧ (Libm.sqrt x).val = 0 := by
  obtain ⟨a, b, c, -⟩ := hl.sqrt x hx h.ge
  refine ⟨a, ?_⟩
  rw [h, mul_zero] at c
  exact pow_eq_zero_iff (two_ne_zero) |>.1 (le_antisymm c (sq_nonneg _))

theorem normalize_zero (hl : SaneLibm) {v : V3 F32} (hx : Num v.x ∧ v.x.val = 0) (hy : Num v.y ∧ v.y.val = 0) (hz : Num v.z ∧ v.z.val = 0) :
    NaN3 v.normalize := by
  have sx := mul_zero_val hx.1 hx.1 (by rw [hx.2, zero_mul])
  have sy := mul_zero_val hy.1 hy.1 (by rw [hy.2, zero_mul])
  have sz := mul_zero_val hz.1 hz.1 (by rw [hz.2, zero_mul])
  have s1 := add_zero_val sx.1 sy.1 sx.2 sy.2
  have s2 := add_zero_val s1.1 sz.1 s1.2 sz.2
  obtain ⟨a, b⟩ := sqrt_zero' hl s2.1 s2.2
  exact ⟨zero_div_zero hx.1 a hx.2 b, zero_div_zero hy.1 a hy.2 b, zero_div_zero hz.1 a hz.2 b⟩

theorem normalize_inf (hl : SaneLibm) {v : V3 F32} (hx : v.x = nan ∨ ∃ s, v.x = inf s) (hy : v.y = nan ∨ ∃ s, v.y = inf s)
    (hz : v.z = nan ∨ ∃ s, v.z = inf s) : NaN3 v.normalize := by
  rcases hx with hx | ⟨s, hx⟩
  · exact normalize_len_nan (length_nan hl (Or.inl hx))
  rcases hy with hy | ⟨t, hy⟩
  · exact normalize_len_nan (length_nan hl (Or.inr (Or.inl hy)))
  rcases hz with hz | ⟨u, hz⟩
  · exact normalize_len_nan (length_nan hl (Or.inr (Or.inr hz)))
  have : v.length = inf false := by
    show Libm.sqrt (v.x *. v.x +. v.y *. v.y +. v.z *. v.z) = _
    rw [hx, hy, hz]
    have : (inf s : F32) *. inf s +. inf t *. inf t +. inf u *. inf u = inf false := by cases s <;> cases t <;> cases u <;> rfl
    rw [this, hl.sqrt_inf]
  refine ⟨?_, ?_, ?_⟩
  · show v.x /. v.length = nan; rw [this, hx]; rfl
  · show v.y /. v.length = nan; rw [this, hy]; rfl
  · show v.z /. v.length = nan; rw [this, hz]; rfl

/-- A point moved onto a sphere of moderate radius: moderate and not tiny, or the normal is NaN. -/
theorem sphere_point (hl : SaneLibm) {p : V3 F32} (wx : p.x.WF) (wy : p.y.WF) (wz : p.z.WF) {r : F32} (hr : UpTo 20 r) (hw : 1 / 2 ^ 20 ≤ r.val) :
    (UpTo3 22 (p.smul (r /. p.length)) ∧ NotTiny (p.smul (r /. p.length))) ∨ NaN3 (p.smul (r /. p.length)).normalize := by
  by_cases hnan : p.x = nan ∨ p.y = nan ∨ p.z = nan
  · right
    rw [length_nan hl hnan, div_nan_right]
    exact normalize_len_nan (length_nan hl (Or.inl (mul_nan_right _)))
  push Not at hnan
  obtain ⟨cx, nx⟩ := nn_square wx hnan.1
  obtain ⟨cy, ny⟩ := nn_square wy hnan.2.1
  obtain ⟨cz, nz⟩ := nn_square wz hnan.2.2
  obtain ⟨c1, n1⟩ := nn_add cx cy
  obtain ⟨c2, n2⟩ := nn_add c1 cz
  have hlen : p.length = Libm.sqrt (p.x *. p.x +. p.y *. p.y +. p.z *. p.z) := rfl
  rcases c2 with hS | ⟨hS, hS0⟩
  · -- the sum of the squares overflows
    right
    rw [hlen, hS, hl.sqrt_inf]
    obtain ⟨t, m, rfl⟩ := IsFin_iff.1 hr.1.fin
    have hk : ((fin t m : F32) /. inf false) = fin (t ^^ false) 0 := rfl
    rw [hk]
    generalize (t ^^ false) = b
    have hk0 : Num (fin b 0 : F32) := ⟨⟨le_rfl, Rounding.rnd_zero⟩, trivial⟩
    have hv0 : (fin b 0 : F32).val = 0 := by cases b <;> simp [val, sgn]
    have key : ∀ x : F32, x.WF → x ≠ nan → x *. (fin b 0 : F32) = nan ∨ (Num (x *. (fin b 0 : F32)) ∧ (x *. (fin b 0 : F32)).val = 0) := by
      intro x hx hn
      rcases wf_num hx with h | ⟨s, rfl⟩ | h
      · exact absurd h hn
      · left
        rw [show ((inf s : F32) *. fin b 0) = Fl.mul (inf s) (fin b 0) from rfl]
        simp [Fl.mul]
      · exact Or.inr (mul_zero_val h hk0 (by rw [hv0, mul_zero]))
    rcases key _ wx hnan.1 with hx | hx
    · exact normalize_len_nan (length_nan hl (Or.inl hx))
    rcases key _ wy hnan.2.1 with hy | hy
    · exact normalize_len_nan (length_nan hl (Or.inr (Or.inl hy)))
    rcases key _ wz hnan.2.2 with hz | hz
    · exact normalize_len_nan (length_nan hl (Or.inr (Or.inr hz)))
    exact normalize_zero hl hx hy hz
  obtain ⟨m1, mz, g1, gz⟩ := n2 hS
  obtain ⟨mx, my, gx, gy⟩ := n1 m1
  have hx := nx mx
  have hy := ny my
  have hz := nz mz
  have r0 : 0 < r.val := lt_of_lt_of_le (by norm_num) hw
  have hrle : r.val ≤ 2 ^ 20 := (le_abs_self _).trans hr.2
  rcases hS0.lt_or_eq with hpos | hzero
  swap
  · -- the squares underflow
    right
    obtain ⟨a, b⟩ := sqrt_zero' hl hS hzero.symm
    rw [hlen]
    generalize Libm.sqrt (p.x *. p.x +. p.y *. p.y +. p.z *. p.z) = L at a b ⊢
    have hk : ∃ s, r /. L = inf s := by
      obtain ⟨t, m, rfl⟩ := IsFin_iff.1 hr.1.fin
      obtain ⟨u, k, rfl⟩ := IsFin_iff.1 a.fin
      have hk : k = 0 := by cases u <;> simpa [val, sgn] using b
      have hm : m ≠ 0 := by rintro rfl; cases t <;> simp [val, sgn] at r0
      subst hk
      refine ⟨t ^^ u, ?_⟩
      rw [show ((fin t m : F32) /. fin u 0) = Fl.div (fin t m) (fin u 0) from rfl]
      simp [Fl.div, hm]
    obtain ⟨s, hk⟩ := hk
    rw [hk]
    exact normalize_inf hl (mul_inf_cases hx s) (mul_inf_cases hy s) (mul_inf_cases hz s)
  left
  obtain ⟨l1, l2, l3, l4⟩ := hl.sqrt _ hS hS0
  rw [← hlen] at l1 l2 l3 l4
  obtain ⟨lo, hi⟩ := val_range hS hpos
  have u1 := sum_up mx my m1 (by rcases cx with h | h; · rw [h] at mx; exact absurd mx.fin id
                                 · exact h.2) (by
                                 rcases cy with h | h; · rw [h] at my; exact absurd my.fin id
                                 · exact h.2)
  have z0 : 0 ≤ (p.z *. p.z).val := by
    rcases cz with h | h
    · rw [h] at mz; exact absurd mz.fin id
    · exact h.2
  have s0 : 0 ≤ (p.x *. p.x +. p.y *. p.y).val := by
    rcases c1 with h | h
    · rw [h] at m1; exact absurd m1.fin id
    · exact h.2
  have u2 := sum_up m1 mz hS s0 z0
  have ux := square_up hx mx
  have uy := square_up hy my
  have uz := square_up hz mz
  have bx := square_le hx mx (gx.trans g1) lo
  have by' := square_le hy my (gy.trans g1) lo
  have bz := square_le hz mz gz lo
  generalize (p.x *. p.x +. p.y *. p.y +. p.z *. p.z).val = S at *
  have hL : 0 < p.length.val := by
    rcases l2.lt_or_eq with h | h
    · exact h
    · rw [← h] at l4; norm_num at l4; linarith
  have hLlo : 1 / 2 ^ 75 ≤ p.length.val := by
    by_contra hc
    push Not at hc
    have : p.length.val ^ 2 < (1 / 2 ^ 75) ^ 2 := pow_lt_pow_left₀ hc hL.le two_ne_zero
    norm_num at this lo; linarith
  have hLhi : p.length.val ≤ 2 ^ 65 := by
    by_contra hc
    push Not at hc
    have : ((2 : ℚ) ^ 65) ^ 2 < p.length.val ^ 2 := pow_lt_pow_left₀ hc (by positivity) two_ne_zero
    norm_num at this hi; linarith
  have hk : UpTo 96 (r /. p.length) := by
    refine upTo_div (by omega) hr.1 l1 hL.ne' ?_
    rw [abs_of_pos r0, abs_of_pos hL]
    norm_num at hLlo hrle ⊢; linarith
  obtain ⟨zs, hkv⟩ := div_val hr.1 l1 hL.ne'
  have herr : |(r /. p.length).val - r.val / p.length.val| ≤ |r.val / p.length.val| * ulpHalf + tinyHalf := by
    have := hk.1.fin
    rw [hkv] at this ⊢
    exact ofVal_err this
  have hq0 : 0 < r.val / p.length.val := div_pos r0 hL
  have hqlo : 1 / 2 ^ 85 ≤ r.val / p.length.val := by
    rw [le_div_iff₀ hL]; norm_num at hLhi hw ⊢; linarith
  rw [abs_of_pos hq0] at herr
  obtain ⟨e1, e2⟩ := abs_le.1 herr
  unfold ulpHalf tinyHalf at e1 e2
  have hq : r.val / p.length.val * p.length.val = r.val := div_mul_cancel₀ _ hL.ne'
  generalize r.val / p.length.val = Q at *
  have klo : Q / 2 ≤ (r /. p.length).val := by norm_num at e1 hqlo ⊢; linarith
  have khi : (r /. p.length).val ≤ 2 * Q := by norm_num at e2 hqlo ⊢; linarith
  have k0 : 0 < (r /. p.length).val := by linarith
  generalize r /. p.length = k at *
  have bound : ∀ x : F32, Num x → x.val ^ 2 ≤ 2 * S → UpTo 22 (x *. k) := by
    intro x hx' hb
    have h1 : |x.val| ≤ 2 * p.length.val := by
      rw [← abs_of_pos (show 0 < 2 * p.length.val by linarith)]
      apply sq_le_sq.1
      nlinarith
    obtain ⟨zs, e⟩ := mul_val hx' hk.1
    rw [e]
    apply upTo_ofVal (by omega)
    rw [abs_mul, abs_of_pos k0]
    have : |x.val| * k.val ≤ (2 * p.length.val) * (2 * Q) := mul_le_mul h1 khi k0.le (by linarith)
    have e4 : (2 * p.length.val) * (2 * Q) = 4 * r.val := by rw [← hq]; ring
    rw [e4] at this
    norm_num at hrle ⊢; linarith
  have tbx := bound _ hx bx
  have tby := bound _ hy by'
  have tbz := bound _ hz bz
  refine ⟨⟨tbx, tby, tbz⟩, ?_⟩
  have big : ∀ x : F32, Num x → UpTo 22 (x *. k) → p.length.val / 8 ≤ |x.val| → 1 / 2 ^ 50 ≤ |(x *. k).val| := by
    intro x hx' hb h8
    have hm := mul_err hx'.wf hk.1.wf hb.1.fin
    have h1 : r.val / 16 ≤ |x.val * k.val| := by
      rw [abs_mul, abs_of_pos k0]
      have : (p.length.val / 8) * (Q / 2) ≤ |x.val| * k.val := mul_le_mul h8 klo (by linarith) (abs_nonneg _)
      have e4 : (p.length.val / 8) * (Q / 2) = r.val / 16 := by rw [← hq]; ring
      rwa [e4] at this
    have h2 := abs_sub_abs_le_abs_sub (x.val * k.val) (x *. k).val
    rw [abs_sub_comm] at h2
    generalize |x.val * k.val| = A at *
    unfold ulpHalf tinyHalf at hm
    norm_num at hm h1 h2 hw ⊢
    linarith
  have hsum : S ≤ 12 * (p.x.val ^ 2 + p.y.val ^ 2 + p.z.val ^ 2) := by nlinarith [sq_nonneg p.z.val]
  have key : ∀ x : F32, |x.val| < p.length.val / 8 → x.val ^ 2 ≤ p.length.val ^ 2 / 64 := by
    intro x h
    rw [← sq_abs]
    have := pow_le_pow_left₀ (abs_nonneg _) h.le 2
    nlinarith
  rcases le_or_gt (p.length.val / 8) |p.x.val| with h | hx8
  · exact Or.inl (big _ hx tbx h)
  rcases le_or_gt (p.length.val / 8) |p.y.val| with h | hy8
  · exact Or.inr (Or.inl (big _ hy tby h))
  rcases le_or_gt (p.length.val / 8) |p.z.val| with h | hz8
  · exact Or.inr (Or.inr (big _ hz tbz h))
  exfalso
  have := key _ hx8
  have := key _ hy8
  have := key _ hz8
  nlinarith

omit [Libm F32] in
theorem offset_nan_normal {i : Interaction F32} (hn : NaN3 i.n) (v : V3 F32) : NaN3 (i.offsetRayOrigin v) := by
  obtain ⟨h1, h2, h3⟩ := hn
  have key : NaN3 (if i.n.dot v <. lit 0 then (i.n.smul (i.n.abs.dot i.pErr)).smul ⊖(lit 1) else i.n.smul (i.n.abs.dot i.pErr)) := by
    split_ifs <;> refine ⟨?_, ?_, ?_⟩ <;> simp only [V3.smul, h1, h2, h3, mul_nan_left]
  have hp := nan3_add_right key i.p
  refine ⟨?_, ?_, ?_⟩
  · show Interaction.nudge _ _ = nan; rw [hp.1, nudge_nan]
  · show Interaction.nudge _ _ = nan; rw [hp.2.1, nudge_nan]
  · show Interaction.nudge _ _ = nan; rw [hp.2.2, nudge_nan]

omit [Libm F32] in
theorem gamma5_upTo : UpTo 0 (gamma (PT.lit 5) : F32) := by
  have h : (gamma (PT.lit 5) : F32) = ofVal (gamma (PT.lit 5) : F32).val false ∧ |(gamma (PT.lit 5) : F32).val| ≤ 2 ^ 0 := by decide +kernel
  rw [h.1]
  exact upTo_ofVal (by omega) h.2 _

theorem sphere_hit [Libm F64] (hl : SaneLibm) {s : Sphere F32} (hs : MattSphere s) {ray : Ray F32} {i : Interaction F32} {t : F32}
    (h : s.intersect ray = some (i, t)) : GoodHit i := by
  unfold Sphere.intersect at h
  obtain ⟨tt, -, h⟩ := Option.map_eq_some_iff.1 h
  unfold Sphere.computeInteraction at h
  simp only [Prod.mk.injEq] at h
  obtain ⟨rfl, -⟩ := h
  generalize hp : ({ ray with origin := s.worldToLocal ray.origin } : Ray F32).position tt = p
  have wx : p.x.WF := by rw [← hp]; exact add_WF _ _
  have wy : p.y.WF := by rw [← hp]; exact add_WF _ _
  have wz : p.z.WF := by rw [← hp]; exact add_WF _ _
  have key := sphere_point hl wx wy wz hs.radius hs.wide
  generalize p.smul (s.radius /. p.length) = q at key ⊢
  rcases key with ⟨hq, hq'⟩ | hn
  swap
  · exact ⟨Or.inr (offset_nan_normal hn), Or.inr (Or.inl hn.1)⟩
  have hn := normalize_upTo hl (UpTo3.mono hq (by omega)) hq'
  refine ⟨Or.inl ⟨?_, ?_, hn⟩, ?_⟩
  · exact UpTo3.mono (upTo3_add (n := 22) (by omega) hq (UpTo3.mono hs.center (by omega))) (by omega)
  · exact UpTo3.mono (upTo3_smul (n := 0) (by omega) (upTo3_abs hq) gamma5_upTo) (by omega)
  · have two : UpTo 1 (lit 2 : F32) := upTo_lit (by omega) (by norm_num)
    have hd : UpTo3 25 (Sphere.computePartialDerivative q).1 :=
      ⟨upTo_mul (m := 3) (n := 22) (by omega) (upTo_mul (m := 1) (n := 2) (by omega) (upTo_neg two) hl.pi) hq.2.1,
        upTo_mul (m := 3) (n := 22) (by omega) (upTo_mul (m := 1) (n := 2) (by omega) two hl.pi) hq.1, upTo_zero _ (by omega)⟩
    have hz : (Sphere.computePartialDerivative q).1.z = lit 0 := rfl
    dsimp only
    generalize (Sphere.computePartialDerivative q).1 = d at hd hz ⊢
    have hS := upTo_sum3 (m := 25) (n := 25) (by omega) hd.1 hd.1 hd.2.1 hd.2.1 hd.2.2 hd.2.2
    rcases (sumsq_ge (by omega) hd).1.lt_or_eq with h | h
    · exact Or.inl ⟨hn, normalize_pos hl (UpTo3.mono hd (by omega)) h⟩
    · obtain ⟨a, b⟩ := sqrt_zero' hl hS.1 h.symm
      refine Or.inr (Or.inr ?_)
      show d.z /. d.length = nan
      rw [hz]
      exact zero_div_zero zero_ok.1 a zero_ok.2 b

theorem sphere_box [Libm F64] {s : Sphere F32} (hs : MattSphere s) : Box 40 s.bbox := by
  have sub : ∀ a : F32, UpTo 20 a → UpTo 40 (a -. s.radius) := fun a h => UpTo.mono (upTo_sub (by omega) h hs.radius) (by omega)
  have add : ∀ a : F32, UpTo 20 a → UpTo 40 (a +. s.radius) := fun a h => UpTo.mono (upTo_add (by omega) h hs.radius) (by omega)
  exact box_new ⟨sub _ hs.center.1, sub _ hs.center.2.1, sub _ hs.center.2.2⟩ ⟨add _ hs.center.1, add _ hs.center.2.1, add _ hs.center.2.2⟩

end

/-! ### Paths -/

/-- Every question asked, whatever the answers, is not bad. -/
def Avoids {β : Type} (scene : Scene F32) (U : F32 → Prop) (Bad : V3 F32 → Prop) (Q : β → Prop) : Prog F32 β → Prop
  | .ret b => Q b
  | .panic => True
  | .get1 k => ∀ x, U x → Avoids scene U Bad Q (k x)
  | .get2 k => ∀ x, U x.x → U x.y → Avoids scene U Bad Q (k x)
  | .hit _ r k => ¬ Bad r.direction ∧ ∀ x, scene.intersect r = some x → Avoids scene U Bad Q (k x)
  | .occluded r k => ¬ Bad r.direction ∧ ∀ x, scene.intersectP r = some x → Avoids scene U Bad Q (k x)
  | .scatter h k => Avoids scene U Bad Q (k (h.obj.shape.material h.i))

variable {β γ : Type} {scene : Scene F32} {U : F32 → Prop} {Bad : V3 F32 → Prop}

theorem Avoids.bind {Q : β → Prop} {R : γ → Prop} {p : Prog F32 β} {f : β → Prog F32 γ} (hp : Avoids scene U Bad Q p)
    (hf : ∀ x, Q x → Avoids scene U Bad R (f x)) : Avoids scene U Bad R (p.bind f) := by
  induction p with
  | ret x => exact hf x hp
  | panic => trivial
  | get1 k ih => exact fun x hx => ih x (hp x hx)
  | get2 k ih => exact fun x h1 h2 => ih x (hp x h1 h2)
  | hit y r k ih => exact ⟨hp.1, fun x hx => ih x (hp.2 x hx)⟩
  | occluded r k ih => exact ⟨hp.1, fun x hx => ih x (hp.2 x hx)⟩
  | scatter h k ih => exact ih _ hp

theorem Avoids.ofOption {o : Option β} : Avoids scene U Bad (fun x => o = some x) (Prog.ofOption o : Prog F32 β) := by
  cases o with
  | none => trivial
  | some x => exact rfl

theorem Avoids.ite {Q : β → Prop} {c : Prop} [Decidable c] {p q : Prog F32 β} (hp : c → Avoids scene U Bad Q p) (hq : ¬ c → Avoids scene U Bad Q q) :
    Avoids scene U Bad Q (if c then p else q) := by
  split_ifs with h
  · exact hp h
  · exact hq h

theorem Avoids.not_asks {Q : β → Prop} {p : Prog F32 β} (h : Avoids scene U Bad Q p) : ¬ Asks scene U Bad p := by
  induction p with
  | ret => exact id
  | panic => exact id
  | get1 k ih => rintro ⟨x, hx, h'⟩; exact ih x (h x hx) h'
  | get2 k ih => rintro ⟨x, h1, h2, h'⟩; exact ih x (h x h1 h2) h'
  | hit y r k ih => rintro (h' | ⟨x, hx, h'⟩); exacts [h.1 h', ih x (h.2 x hx) h']
  | occluded r k ih => rintro (h' | ⟨x, hx, h'⟩); exacts [h.1 h', ih x (h.2 x hx) h']
  | scatter r k ih => exact ih _ h

/-- What is needed of a scene. -/
structure Tame [Libm F32] (scene : Scene F32) (U : F32 → Prop) (Bad : V3 F32 → Prop) : Prop where
  scatter : ∀ ray h wo u s, scene.intersect ray = some (some h) → U u.x → U u.y → (h.obj.shape.material h.i).sampleF wo u = some s → ¬ Bad s.1
  light : ∀ ray h, scene.intersect ray = some (some h) → ∀ l ∈ scene.lights, ∀ u s, U u.x → U u.y → l.light.sampleLi h.i u = some s →
    ¬ Bad s.vis.ray.direction

variable [Libm F32]

theorem directFromLight_avoids (light : LightObj F32) (i : Interaction F32) (bsdf : BSDF F32) (u : V2 F32)
    (hl : ∀ s, light.light.sampleLi i u = some s → ¬ Bad s.vis.ray.direction) :
    Avoids scene U Bad (fun _ => True) (directFromLight light i bsdf u) := by
  unfold directFromLight
  refine Avoids.bind Avoids.ofOption fun s hs => ?_
  refine Avoids.ite (fun _ => ?_) fun _ => trivial
  refine Avoids.ite (fun _ => ?_) fun _ => trivial
  refine Avoids.bind (Q := fun _ => True) ⟨hl s hs, fun _ _ => trivial⟩ fun occ _ => ?_
  refine Avoids.ite (fun _ => ?_) fun _ => trivial
  exact Avoids.ite (fun _ => trivial) fun _ => trivial

theorem directFromBsdf_avoids (light : LightObj F32) (i : Interaction F32) (bsdf : BSDF F32) (u : V2 F32)
    (hb : ∀ s, bsdf.sampleF i.wo u = some s → ¬ Bad s.1) (ld : Spectrum F32) :
    Avoids scene U Bad (fun _ => True) (directFromBsdf light i bsdf u ld) := by
  unfold directFromBsdf
  refine Avoids.ite (fun _ => ?_) fun _ => trivial
  refine Avoids.bind Avoids.ofOption fun s hs => ?_
  have hs' := hb s hs
  obtain ⟨wi, f, p, flag⟩ := s
  dsimp only
  refine Avoids.ite (fun _ => ?_) fun _ => trivial
  refine Avoids.ite (fun _ => trivial) fun _ => ?_
  refine Avoids.bind (Q := fun _ => True) ⟨hs', fun _ _ => trivial⟩ fun x _ => ?_
  cases x <;> trivial

theorem oneLight_avoids (i : Interaction F32) (bsdf : BSDF F32)
    (hb : ∀ u : V2 F32, U u.x → U u.y → ∀ s, bsdf.sampleF i.wo u = some s → ¬ Bad s.1)
    (hl : ∀ l ∈ scene.lights, ∀ u s, U u.x → U u.y → l.light.sampleLi i u = some s → ¬ Bad s.vis.ray.direction) :
    Avoids scene U Bad (fun _ => True) (uniformSampleOneLight scene.lights i bsdf) := by
  unfold uniformSampleOneLight
  dsimp only
  split_ifs with h0
  · trivial
  refine Avoids.bind (Q := fun _ => True) (fun _ _ => trivial) fun u _ => ?_
  refine Avoids.bind Avoids.ofOption fun light hlt => ?_
  have hl' : light ∈ scene.lights := List.mem_of_getElem? hlt
  refine Avoids.bind (Q := fun _ => True) ?_ fun _ _ => trivial
  unfold estimateDirect
  refine Avoids.bind (Q := fun v => U v.x ∧ U v.y) (fun _ h1 h2 => ⟨h1, h2⟩) fun u hu => ?_
  refine Avoids.bind (Q := fun v => U v.x ∧ U v.y) (fun _ h1 h2 => ⟨h1, h2⟩) fun v hv => ?_
  exact Avoids.bind (directFromLight_avoids _ _ _ _ fun s hs => hl light hl' u s hu.1 hu.2 hs) fun ld _ =>
    directFromBsdf_avoids _ _ _ _ (hb v hv.1 hv.2) _

theorem liLoop_avoids (hs : Tame scene U Bad) (k : Nat) : ∀ (bounces : Nat) (ray : Ray F32) (l beta : Spectrum F32) (sb : Bool),
    ¬ Bad ray.direction → MAX_BOUNCES + 1 - bounces = k → Avoids scene U Bad (fun _ => True) (liLoop scene.lights bounces ray l beta sb) := by
  induction k using Nat.strong_induction_on with
  | _ k ih =>
    intro bounces ray l beta sb hd hk
    rw [liLoop]
    refine Avoids.bind (Q := fun x => scene.intersect ray = some x) ⟨hd, fun _ h => h⟩ fun x hx => ?_
    cases x with
    | none => trivial
    | some h =>
      dsimp only
      by_cases hb : bounces > MAX_BOUNCES
      · rw [dif_pos hb]; trivial
      rw [dif_neg hb]
      refine Avoids.bind (Q := fun b => b = h.obj.shape.material h.i) (show _ = _ from rfl) fun b hb' => ?_
      subst hb'
      refine Avoids.bind (oneLight_avoids _ _ (fun u h1 h2 s => hs.scatter ray h h.i.wo u s hx h1 h2) (fun l hl u s h1 h2 => hs.light ray h hx l hl u s h1 h2))
        fun ld _ => ?_
      refine Avoids.bind (Q := fun v => U v.x ∧ U v.y) (fun _ h1 h2 => ⟨h1, h2⟩) fun u hu => ?_
      refine Avoids.bind Avoids.ofOption fun s hs' => ?_
      have hw := hs.scatter ray h h.i.wo u s hx hu.1 hu.2 hs'
      obtain ⟨wi, f, p, flag⟩ := s
      dsimp only
      refine Avoids.ite (fun _ => trivial) fun _ => ?_
      refine Avoids.ite (fun _ => ?_) fun _ => ih (MAX_BOUNCES + 1 - (bounces + 1)) (by omega) _ _ _ _ _ hw rfl
      refine Avoids.bind (Q := fun _ => True) (fun _ _ => trivial) fun v _ => ?_
      cases roulette (scatterWeight beta f wi h.i.sn p) v with
      | none => trivial
      | some b => exact ih (MAX_BOUNCES + 1 - (bounces + 1)) (by omega) _ _ _ _ _ hw rfl

/-! ### Scenes -/

/-- A hit of a container is a hit of one of its shapes. -/
theorem container_shape {mk : List (Obj F32) → Option (Container F32)} (hmk : LibraryContainer mk) {ss : List (Obj F32)} {c : Container F32}
    (hc : mk ss = some c) (ray : Ray F32) (h : Hit F32) (hh : c.intersect ray = some (some h)) :
    ∃ ray t, h.obj.shape.intersect ray = some (some (h.i, t)) := by
  cases hmk with
  | simple =>
    obtain ⟨s, hs, rfl⟩ := Option.map_eq_some_iff.1 hc
    obtain ⟨-, tm, t, h1⟩ := simple_hit_from _ ray h hh
    exact ⟨_, t, h1⟩
  | kdTree depth =>
    obtain ⟨t, ht, rfl⟩ := Option.map_eq_some_iff.1 hc
    change KdTree.Run.toOption (t.run ray t.nodes.length) = _ at hh
    have hv : t.run ray t.nodes.length = .value (some h) := by
      cases hr : t.run ray t.nodes.length with
      | value b => rw [hr] at hh; simp only [KdTree.Run.toOption, Option.some.injEq] at hh; rw [hh]
      | panic => rw [hr] at hh; cases hh
      | more => rw [hr] at hh; cases hh
    unfold KdTree.run at hv
    cases hb : t.bbox.intersect ray with
    | none => rw [hb] at hv; cases hv
    | some tt =>
      rw [hb] at hv
      rcases loop_shape _ _ _ _ _ _ _ _ h hv with h1 | h1
      · cases h1
      · exact h1

variable [Libm F64]

theorem matt_library {c : BuilderCall F32} (h : MattCall c) : LibraryCall c := by
  cases h with
  | distant addr e w hw hw' => exact .distant addr e w
  | triangle addr t ht => obtain ⟨kd, hk⟩ := ht.matt; exact .triangle addr t (hk ▸ .lambertian kd)
  | sphere addr s hs => obtain ⟨kd, hk⟩ := hs.matt; exact .sphere addr s (hk ▸ .lambertian kd)
  | area addr e t ht => obtain ⟨kd, hk⟩ := ht.matt; exact .area addr e t (hk ▸ .lambertian kd)

theorem matt_shapes (hl : SaneLibm) : ∀ (hist : List (BuilderCall F32)), (∀ c ∈ hist, MattCall c) → ∀ s ∈ sceneShapes hist,
    (∀ ray i t, s.shape.intersect ray = some (some (i, t)) → GoodHit i) ∧ (∃ kd, s.shape.material = lambertianMaterial kd) ∧ Box 40 s.shape.bbox := by
  intro hist
  induction hist with
  | nil => intro _ s h; simp [sceneShapes, addedShapes, addedAreas, asShapes] at h
  | cons c hist ih =>
    intro hlib s h
    have hc := hlib c (by simp)
    have ht := ih (fun c hc => hlib c (by simp [hc])) s
    simp only [sceneShapes, List.mem_append] at ht
    cases hc with
    | distant addr e w => simp only [sceneShapes, List.mem_append] at h; exact ht h
    | triangle addr t hm =>
      simp only [sceneShapes, addedShapes, addedAreas, List.mem_append, List.mem_cons] at h
      rcases h with (rfl | h) | h
      · exact ⟨fun _ _ _ => triangle_hit (fine_triangle hl hm), hm.matt, triangle_box (fine_triangle hl hm)⟩
      · exact ht (Or.inl h)
      · exact ht (Or.inr h)
    | sphere addr t hm =>
      simp only [sceneShapes, addedShapes, addedAreas, List.mem_append, List.mem_cons] at h
      rcases h with (rfl | h) | h
      · refine ⟨fun ray i tt h => ?_, hm.matt, sphere_box hm⟩
        change some (t.intersect ray) = _ at h
        exact sphere_hit hl hm (Option.some.inj h)
      · exact ht (Or.inl h)
      · exact ht (Or.inr h)
    | area addr e t hm =>
      simp only [sceneShapes, addedShapes, addedAreas, asShapes, List.map_cons, List.mem_append, List.mem_cons] at h
      rcases h with h | rfl | h
      · exact ht (Or.inl h)
      · exact ⟨fun _ _ _ => triangle_hit (fine_triangle hl hm), hm.matt, triangle_box (fine_triangle hl hm)⟩
      · exact ht (Or.inr h)

theorem matt_box (hl : SaneLibm) (hist : List (BuilderCall F32)) (hlib : ∀ c ∈ hist, MattCall c) {box : BBox3 F32} (hb : (built hist).sceneBBox = some box) : Box 40 box := by
  obtain ⟨-, h2, h3⟩ := built_fields hist (BBox3.new V3.zero V3.zero)
  have hS : ∀ s ∈ sceneShapes hist, Box 40 s.shape.bbox := by
    intro s hs
    exact (matt_shapes hl hist hlib s hs).2.2
  have f1 : ∀ (l : List (Obj F32)) (b : BBox3 F32), (∀ s ∈ l, Box 40 s.shape.bbox) → Box 40 b → Box 40 (l.foldl (fun b s => b.union s.shape.bbox) b) := by
    intro l
    induction l with
    | nil => intro b _ h; exact h
    | cons s l ih => intro b hl h; exact ih _ (fun s hs => hl s (by simp [hs])) (box_union h (hl s (by simp)))
  have f2 : ∀ (l : List (Nat × AreaLight F32)) (b : BBox3 F32), (∀ s ∈ asShapes l, Box 40 s.shape.bbox) → Box 40 b →
      Box 40 (l.foldl (fun x a => x.union a.2.toShape.bbox) b) := by
    intro l
    induction l with
    | nil => intro b _ h; exact h
    | cons s l ih =>
      intro b hl h
      refine ih _ (fun s hs => hl s ?_) (box_union h (hl ⟨s.1, s.2.toShape⟩ ?_))
      · simp only [asShapes, List.map_cons, List.mem_cons] at hs ⊢; exact Or.inr hs
      · simp [asShapes]
  unfold Builder.sceneBBox at hb
  rw [h2, h3] at hb
  have hsh : ∀ s ∈ addedShapes hist, Box 40 s.shape.bbox := fun s hs => hS s (by simp [sceneShapes, hs])
  have har : ∀ s ∈ asShapes (addedAreas hist), Box 40 s.shape.bbox := fun s hs => hS s (by simp [sceneShapes, hs])
  cases hss : addedShapes hist with
  | nil =>
    rw [hss] at hb
    simp only [List.isEmpty_nil, if_true, Option.bind_eq_bind, Option.bind_some, Option.pure_def, Option.some.injEq] at hb
    rw [← hb]
    exact f2 _ _ har (box_new (upTo3_zero 40 (by omega)) (upTo3_zero 40 (by omega)))
  | cons s ss =>
    rw [hss] at hb hsh
    simp only [List.isEmpty_cons, Bool.false_eq_true, if_false, bboxOfShapes, Option.bind_eq_bind, Option.bind_some, Option.pure_def, Option.some.injEq] at hb
    rw [← hb]
    exact f2 _ _ har (f1 _ _ (fun s hs => hsh s (by simp [hs])) (hsh s (by simp)))

/-- The boxes of the shapes are finite and in order. -/
theorem matt_finite (hl : SaneLibm) (hist : List (BuilderCall F32)) (hlib : ∀ c ∈ hist, MattCall c) : FiniteBoxes (sceneShapes hist) := by
  intro s hs a
  obtain ⟨-, -, h1, h2, h3⟩ := matt_shapes hl hist hlib s hs
  exact ⟨(upTo3_get h1 a).1.fin, (upTo3_get h2 a).1.fin, h3 a⟩

theorem matt_tame (hl : SaneLibm) (hist : List (BuilderCall F32)) (hlib : ∀ c ∈ hist, MattCall c)
    {mk : List (Obj F32) → Option (Container F32)} (hmk : LibraryContainer mk) {scene : Scene F32} (hsc : (built hist).construct mk = some scene) :
    Tame scene Sample32 LostY := by
  obtain ⟨box, hbox, h, -⟩ := c65_construct hist mk
  obtain ⟨hll, hc⟩ := h scene hsc
  have hB := matt_box hl hist hlib hbox
  have good : ∀ ray h, scene.intersect ray = some (some h) → GoodHit h.i ∧ ∃ kd, h.obj.shape.material = lambertianMaterial kd := by
    intro ray h hh
    obtain ⟨h1, h2, -⟩ := matt_shapes hl hist hlib _ (container_hit_from hmk hc ray h hh)
    obtain ⟨r, tt, hr⟩ := container_shape hmk hc ray h hh
    exact ⟨h1 r _ tt hr, h2⟩
  refine ⟨fun ray h wo u s hh h1 h2 hs => ?_, fun ray h hh l hl' u s h1 h2 hs => ?_⟩
  · exact matt_scatter hl (good ray h hh).2 (good ray h hh).1 wo h1 h2 hs
  · have hg := (good ray h hh).1
    rw [hll] at hl'
    rcases List.mem_append.1 hl' with hm | hm
    · have key : ∀ hist : List (BuilderCall F32), (∀ c ∈ hist, MattCall c) → l ∈ addedLights box hist → ¬ LostY s.vis.ray.direction := by
        intro hist
        induction hist with
        | nil => intro _ h; simp [addedLights] at h
        | cons c hist ih =>
          intro hlib h
          have hc := hlib c (by simp)
          have ht := fun h => ih (fun c hc => hlib c (by simp [hc])) h
          cases hc with
          | distant addr e w hw hw' =>
            simp only [addedLights, List.mem_cons] at h
            rcases h with rfl | h
            · simp only [DistantLight.toLight, Option.some.injEq] at hs
              rw [← hs]
              exact distant_fine hl hB e (normalize_upTo hl (UpTo3.mono hw (by omega)) hw') hg u
            · exact ht h
          | triangle addr t hm => exact ht h
          | sphere addr t hm => exact ht h
          | area addr e t hm => exact ht h
      exact key hist hlib hm
    · have key : ∀ hist : List (BuilderCall F32), (∀ c ∈ hist, MattCall c) → l ∈ asLights (addedAreas hist) → ¬ LostY s.vis.ray.direction := by
        intro hist
        induction hist with
        | nil => intro _ h; simp [addedAreas, asLights] at h
        | cons c hist ih =>
          intro hlib h
          have hc := hlib c (by simp)
          have ht := fun h => ih (fun c hc => hlib c (by simp [hc])) h
          cases hc with
          | distant addr e w hw hw' => exact ht h
          | triangle addr t hm => exact ht h
          | sphere addr t hm => exact ht h
          | area addr e t hmt =>
            simp only [addedAreas, asLights, List.map_cons, List.mem_cons] at h
            rcases h with rfl | h
            · simp only [AreaLight.toLight, AreaLight.sampleLi, Triangle.toShape, Shape.withDefaults, Option.map_some, Option.some.injEq] at hs
              rw [← hs]
              exact shadow_fine (n := 46) (by omega) (Point.mono hg.pt (by omega)) fun _ => (triangle_sample hl (fine_triangle hl hmt) h1 h2)
            · exact ht h
      exact key hist hlib hm

end NoPanic

section
variable [Libm F32] [Libm F64]

/-- C76: in a scene of matt triangles and spheres, distant lights and area lights on matt triangles, in single precision, computing the radiance of a
camera sample does not panic, whatever the sample values in `[0, 1)` are, if the direction of the camera ray has not lost its `y` coordinate. -/
theorem c76_matt_radiance (hl : SaneLibm) (hist : List (BuilderCall F32)) (hlib : ∀ c ∈ hist, MattCall c)
    {mk : List (Obj F32) → Option (Container F32)} (hmk : LibraryContainer mk) {scene : Scene F32} (hsc : (built hist).construct mk = some scene)
    (camera : PerspectiveCamera F32) (pFilm : V2 F32) (hc : ¬ LostY (camera.generateRay pFilm).direction) :
    ¬ CanPanicIn Sample32 (cameraRadiance scene camera pFilm) := fun h =>
  (NoPanic.liLoop_avoids (NoPanic.matt_tame hl hist hlib hmk hsc) _ 0 _ _ _ _ hc rfl).not_asks
    (c76_library_radiance hist (fun c hc => NoPanic.matt_library (hlib c hc)) hmk hsc camera pFilm h)

/-- C76: rendering such a scene in single precision with the Halton sampler, no thread panics in any schedule of any number of threads, and the
render can be completed.  The only condition on directions is about the camera. -/
theorem c76_matt_f32 (hl : SaneLibm) (hist : List (BuilderCall F32)) (hlib : ∀ c ∈ hist, MattCall c)
    {mk : List (Obj F32) → Option (Container F32)} (hmk : LibraryContainer mk) {scene : Scene F32} (hsc : (built hist).construct mk = some scene)
    (camera : PerspectiveCamera F32) (res : V2 Int) (filt : Filter F32) (hR : FilmRange32 res filt.radius)
    (sampler : HaltonSampler) (hspp : sampler.samplesPerPixel < 2 ^ 32)
    (hcam : ∀ b ∈ (Film.new res filt).iter.toList, ∀ p ∈ b.iter.toList, ∀ u : V2 F32, Sample32 u.x → Sample32 u.y →
      ¬ LostY (camera.generateRay ((V2.ofI p).add u)).direction)
    (n : Nat) (file : Option (List UInt8)) :
    let work := renderTile HaltonSampler.ops (cameraRadiance scene camera) (Film.new res filt)
    (∀ k st, RReach work sampler (RState.init (Film.new res filt) n file) k st → .panicked ∉ st.threads) ∧
    ∃ k st, RReach work sampler (RState.init (Film.new res filt) n file) k st ∧ st.main = .done :=
  c76_library_f32 hist (fun c hc => NoPanic.matt_library (hlib c hc)) hmk hsc camera res filt hR sampler hspp
    (fun b hb p hp u h1 h2 => (NoPanic.liLoop_avoids (NoPanic.matt_tame hl hist hlib hmk hsc) _ 0 _ _ _ _ (hcam b hb p hp u h1 h2) rfl).not_asks) n file
end

end PT
