import Verif.Props.NormalizeF32

/-!
# Applying transforms in single precision (C121)
-/

namespace PT

namespace Spec

/-- The last row of the matrix is `0 0 0 1`, as for every translation, scaling, rotation and camera placement. -/
def LastRow (m : Matrix F32) : Prop := m.m30 = lit 0 ∧ m.m31 = lit 0 ∧ m.m32 = lit 0 ∧ m.m33 = lit 1

/-- The exact product of a row with a vector. -/
noncomputable def exactRow (a b c : F32) (v : V3 F32) : ℝ := a.val * v.x.val + b.val * v.y.val + c.val * v.z.val

/-- The sum of the sizes of the products. -/
noncomputable def sizeRow (a b c : F32) (v : V3 F32) : ℝ := |(a.val : ℝ) * v.x.val| + |(b.val : ℝ) * v.y.val| + |(c.val : ℝ) * v.z.val|

/-- No entry of the matrix is above `2 ^ n` in size. -/
def EntriesUpTo (n : ℕ) (m : Matrix F32) : Prop :=
  (UpTo n m.m00 ∧ UpTo n m.m01 ∧ UpTo n m.m02 ∧ UpTo n m.m03) ∧ (UpTo n m.m10 ∧ UpTo n m.m11 ∧ UpTo n m.m12 ∧ UpTo n m.m13) ∧
  (UpTo n m.m20 ∧ UpTo n m.m21 ∧ UpTo n m.m22 ∧ UpTo n m.m23)

end Spec

open Spec Fl

namespace TrF
open NoPanic VecF TriF

theorem row3 {a b c : F32} {v : V3 F32} (ha : UpTo 60 a) (hb : UpTo 60 b) (hc : UpTo 60 c) (hv : UpTo3 60 v) :
    Num (a *. v.x +. b *. v.y +. c *. v.z) ∧ |((a *. v.x +. b *. v.y +. c *. v.z).val : ℝ) - exactRow a b c v| ≤ sizeRow a b c v * (4 / 2 ^ 24) + 1 / 2 ^ 147 :=
  (c120_products (v := ⟨a, b, c⟩) (w := v) ⟨ha, hb, hc⟩ hv).1

theorem row3_upTo {n : ℕ} (hn : n ≤ 60) {a b c : F32} {v : V3 F32} (ha : UpTo n a) (hb : UpTo n b) (hc : UpTo n c) (hv : UpTo3 60 v) :
    UpTo (n + 62) (a *. v.x +. b *. v.y +. c *. v.z) :=
  UpTo.mono (upTo_dot (m := n) (n := 60) (v := ⟨a, b, c⟩) (w := v) (by omega) ⟨ha, hb, hc⟩ hv) (by omega)

theorem size_ge (a b c : F32) (v : V3 F32) : |exactRow a b c v| ≤ sizeRow a b c v :=
  (abs_add_le _ _).trans (add_le_add_left (abs_add_le _ _) _)

theorem size_nonneg (a b c : F32) (v : V3 F32) : 0 ≤ sizeRow a b c v := (abs_nonneg _).trans (size_ge a b c v)

theorem row4 {a b c d : F32} {v : V3 F32} (ha : UpTo 60 a) (hb : UpTo 60 b) (hc : UpTo 60 c) (hd : UpTo 60 d) (hv : UpTo3 60 v) :
    UpTo 123 (a *. v.x +. b *. v.y +. c *. v.z +. d) ∧
    |((a *. v.x +. b *. v.y +. c *. v.z +. d).val : ℝ) - (exactRow a b c v + d.val)| ≤ (sizeRow a b c v + |(d.val : ℝ)|) * (6 / 2 ^ 24) + 1 / 2 ^ 146 := by
  have h := row3 ha hb hc hv
  have u := row3_upTo (n := 60) le_rfl ha hb hc hv
  have u4 := upTo_add (by omega) u (UpTo.mono hd (by omega))
  refine ⟨u4, ?_⟩
  have z : |(d.val : ℝ) - d.val| ≤ 0 := by simp
  have g := add_near h.1 hd.1 u4.1 h.2 z (m := sizeRow a b c v + |(d.val : ℝ)|)
    ((abs_add_le _ _).trans (add_le_add_left (size_ge a b c v) _))
  refine g.trans ?_
  have s0 := size_nonneg a b c v
  have d0 := abs_nonneg (d.val : ℝ)
  generalize sizeRow a b c v = S at *
  generalize |(d.val : ℝ)| = D at *
  norm_num
  linarith

end TrF

open TrF NoPanic in
/-- **C121** (directions).  With matrix entries and coordinates up to `2 ^ 60`, each coordinate of a transformed direction is a number, and off from the exact product
of matrix and vector by at most `4` roundings of the sum of the sizes of its terms. -/
theorem c121_vector {t : Transform F32} (hm : EntriesUpTo 60 t.m) {v : V3 F32} (hv : UpTo3 60 v) :
    let r := t.apply vectorTransform v
    (Num r.x ∧ |(r.x.val : ℝ) - exactRow t.m.m00 t.m.m01 t.m.m02 v| ≤ sizeRow t.m.m00 t.m.m01 t.m.m02 v * (4 / 2 ^ 24) + 1 / 2 ^ 147) ∧
    (Num r.y ∧ |(r.y.val : ℝ) - exactRow t.m.m10 t.m.m11 t.m.m12 v| ≤ sizeRow t.m.m10 t.m.m11 t.m.m12 v * (4 / 2 ^ 24) + 1 / 2 ^ 147) ∧
    (Num r.z ∧ |(r.z.val : ℝ) - exactRow t.m.m20 t.m.m21 t.m.m22 v| ≤ sizeRow t.m.m20 t.m.m21 t.m.m22 v * (4 / 2 ^ 24) + 1 / 2 ^ 147) := by
  obtain ⟨⟨a, b, c, -⟩, ⟨a', b', c', -⟩, a'', b'', c'', -⟩ := hm
  exact ⟨row3 a b c hv, row3 a' b' c' hv, row3 a'' b'' c'' hv⟩

open TrF NoPanic in
/-- **C121** (normals).  Normals go through the columns of the inverse matrix, with the same error. -/
theorem c121_normal {t : Transform F32} (hm : EntriesUpTo 60 t.mInv) {v : V3 F32} (hv : UpTo3 60 v) :
    let r := t.apply normalTransform v
    (Num r.x ∧ |(r.x.val : ℝ) - exactRow t.mInv.m00 t.mInv.m10 t.mInv.m20 v| ≤ sizeRow t.mInv.m00 t.mInv.m10 t.mInv.m20 v * (4 / 2 ^ 24) + 1 / 2 ^ 147) ∧
    (Num r.y ∧ |(r.y.val : ℝ) - exactRow t.mInv.m01 t.mInv.m11 t.mInv.m21 v| ≤ sizeRow t.mInv.m01 t.mInv.m11 t.mInv.m21 v * (4 / 2 ^ 24) + 1 / 2 ^ 147) ∧
    (Num r.z ∧ |(r.z.val : ℝ) - exactRow t.mInv.m02 t.mInv.m12 t.mInv.m22 v| ≤ sizeRow t.mInv.m02 t.mInv.m12 t.mInv.m22 v * (4 / 2 ^ 24) + 1 / 2 ^ 147) := by
  obtain ⟨⟨a, b, c, -⟩, ⟨a', b', c', -⟩, a'', b'', c'', -⟩ := hm
  exact ⟨row3 a a' a'' hv, row3 b b' b'' hv, row3 c c' c'' hv⟩

namespace TrF
open NoPanic VecF TriF

theorem weight_one {m : Matrix F32} (h : LastRow m) {v : V3 F32} (hv : UpTo3 60 v) :
    (m.m30 *. v.x +. m.m31 *. v.y +. m.m32 *. v.z +. m.m33 ==. lit 1) = true := by
  obtain ⟨h0, h1, h2, h3⟩ := h
  rw [h0, h1, h2, h3]
  have z : UpTo 0 (lit 0 : F32) := upTo_lit (by omega) (by norm_num)
  have zv : (lit 0 : F32).val = 0 := by decide +kernel
  have ov : (lit 1 : F32).val = 1 := by decide +kernel
  have p : ∀ {x : F32}, UpTo 60 x → Num (lit 0 *. x) ∧ (lit 0 *. x : F32).val = 0 := by
    intro x hx
    have u := upTo_mul (m := 0) (n := 60) (by omega) z hx
    obtain ⟨zs, e⟩ := mul_val z.1 hx.1
    refine ⟨u.1, ?_⟩
    rw [e, zv, zero_mul]
    exact (ofVal_repr FrF.repr_zero zs).2
  have s : ∀ {x y : F32}, Num x → Num y → x.val = 0 → Fl.Repr Binary32 y.val → Num (x +. y) ∧ (x +. y).val = y.val := by
    intro x y hx hy h0 hr
    obtain ⟨zs, e⟩ := add_fin hx.fin hy.fin
    rw [f_add, e, h0, zero_add]
    exact ⟨⟨ofVal_WF _ _, (ofVal_repr hr zs).1⟩, (ofVal_repr hr zs).2⟩
  obtain ⟨n1, v1⟩ := p hv.1
  obtain ⟨n2, v2⟩ := p hv.2.1
  obtain ⟨n3, v3⟩ := p hv.2.2
  obtain ⟨n4, v4⟩ := s n1 n2 v1 (by rw [v2]; exact FrF.repr_zero)
  obtain ⟨n5, v5⟩ := s n4 n3 (v4.trans v2) (by rw [v3]; exact FrF.repr_zero)
  obtain ⟨n6, v6⟩ := s n5 (lit_ok (q := 1) (by norm_num)) (v5.trans v3) (by rw [ov]; simpa using pow_repr (n := 0) (by omega))
  exact (eq_ok n6 (lit_ok (q := 1) (by norm_num))).2 v6

end TrF

open TrF NoPanic in
/-- **C121** (points).  A matrix with last row `0 0 0 1` never makes the code divide: the computed homogeneous weight is exactly one.  Each coordinate of the
transformed point is a number, off from the exact one by at most `6` roundings of the sum of the sizes of its terms. -/
theorem c121_point {t : Transform F32} (hl : LastRow t.m) (hm : EntriesUpTo 60 t.m) {p : V3 F32} (hp : UpTo3 60 p) :
    let r := t.apply pointTransform p
    (Num r.x ∧ |(r.x.val : ℝ) - (exactRow t.m.m00 t.m.m01 t.m.m02 p + t.m.m03.val)| ≤ (sizeRow t.m.m00 t.m.m01 t.m.m02 p + |(t.m.m03.val : ℝ)|) * (6 / 2 ^ 24) + 1 / 2 ^ 146) ∧
    (Num r.y ∧ |(r.y.val : ℝ) - (exactRow t.m.m10 t.m.m11 t.m.m12 p + t.m.m13.val)| ≤ (sizeRow t.m.m10 t.m.m11 t.m.m12 p + |(t.m.m13.val : ℝ)|) * (6 / 2 ^ 24) + 1 / 2 ^ 146) ∧
    (Num r.z ∧ |(r.z.val : ℝ) - (exactRow t.m.m20 t.m.m21 t.m.m22 p + t.m.m23.val)| ≤ (sizeRow t.m.m20 t.m.m21 t.m.m22 p + |(t.m.m23.val : ℝ)|) * (6 / 2 ^ 24) + 1 / 2 ^ 146) := by
  obtain ⟨⟨a, b, c, d⟩, ⟨a', b', c', d'⟩, a'', b'', c'', d''⟩ := hm
  have e : t.apply pointTransform p = ⟨t.m.m00 *. p.x +. t.m.m01 *. p.y +. t.m.m02 *. p.z +. t.m.m03,
      t.m.m10 *. p.x +. t.m.m11 *. p.y +. t.m.m12 *. p.z +. t.m.m13, t.m.m20 *. p.x +. t.m.m21 *. p.y +. t.m.m22 *. p.z +. t.m.m23⟩ := if_pos (weight_one hl hp)
  rw [e]
  have r := row4 a b c d hp
  have r' := row4 a' b' c' d' hp
  have r'' := row4 a'' b'' c'' d'' hp
  exact ⟨⟨r.1.1, r.2⟩, ⟨r'.1.1, r'.2⟩, r''.1.1, r''.2⟩

open TrF NoPanic in
/-- **C121** (there and back).  Moving a point by `(x, y, z)` and back changes each coordinate by at most `2 ^ -19` of the sum of the sizes of coordinate and shift,
up to the smallest numbers. -/
theorem c121_translate_back {x y z : F32} (hx : UpTo 50 x) (hy : UpTo 50 y) (hz : UpTo 50 z) {p : V3 F32} (hp : UpTo3 50 p) :
    let t := Transform.translate x y z
    let r := t.inverseApply pointTransform (t.apply pointTransform p)
    (Num r.x ∧ |(r.x.val : ℝ) - p.x.val| ≤ (|(p.x.val : ℝ)| + |(x.val : ℝ)|) / 2 ^ 19 + 1 / 2 ^ 144) ∧
    (Num r.y ∧ |(r.y.val : ℝ) - p.y.val| ≤ (|(p.y.val : ℝ)| + |(y.val : ℝ)|) / 2 ^ 19 + 1 / 2 ^ 144) ∧
    (Num r.z ∧ |(r.z.val : ℝ) - p.z.val| ≤ (|(p.z.val : ℝ)| + |(z.val : ℝ)|) / 2 ^ 19 + 1 / 2 ^ 144) := by
  intro t r
  have l0 : UpTo 60 (lit 0 : F32) := upTo_lit (by omega) (by norm_num)
  have l1 : UpTo 60 (lit 1 : F32) := upTo_lit (by omega) (by norm_num)
  have zv : ((lit 0 : F32).val : ℝ) = 0 := by rw [zero_ok.2]; norm_num
  have ov : ((lit 1 : F32).val : ℝ) = 1 := by rw [show (lit 1 : F32).val = 1 by decide +kernel]; norm_num
  have m : ∀ {u : F32}, UpTo 50 u → UpTo 60 u := fun h => UpTo.mono h (by omega)
  have em : EntriesUpTo 60 t.m := ⟨⟨l1, l0, l0, m hx⟩, ⟨l0, l1, l0, m hy⟩, l0, l0, l1, m hz⟩
  have ei : EntriesUpTo 60 t.inverse.m := ⟨⟨l1, l0, l0, upTo_neg (m hx)⟩, ⟨l0, l1, l0, upTo_neg (m hy)⟩, l0, l0, l1, upTo_neg (m hz)⟩
  have hp' : UpTo3 60 p := UpTo3.mono hp (by omega)
  obtain ⟨⟨n1, e1⟩, ⟨n2, e2⟩, n3, e3⟩ := c121_point (t := t) ⟨rfl, rfl, rfl, rfl⟩ em hp'
  have rx : ∀ v : V3 F32, exactRow t.m.m00 t.m.m01 t.m.m02 v = v.x.val ∧ sizeRow t.m.m00 t.m.m01 t.m.m02 v = |(v.x.val : ℝ)| := fun v => by
    show (_ : ℝ) * _ + _ * _ + _ * _ = _ ∧ |(_ : ℝ) * _| + |_ * _| + |_ * _| = _
    simp [t, Transform.translate, zv, ov]
  have ry : ∀ v : V3 F32, exactRow t.m.m10 t.m.m11 t.m.m12 v = v.y.val ∧ sizeRow t.m.m10 t.m.m11 t.m.m12 v = |(v.y.val : ℝ)| := fun v => by
    show (_ : ℝ) * _ + _ * _ + _ * _ = _ ∧ |(_ : ℝ) * _| + |_ * _| + |_ * _| = _
    simp [t, Transform.translate, zv, ov]
  have rz : ∀ v : V3 F32, exactRow t.m.m20 t.m.m21 t.m.m22 v = v.z.val ∧ sizeRow t.m.m20 t.m.m21 t.m.m22 v = |(v.z.val : ℝ)| := fun v => by
    show (_ : ℝ) * _ + _ * _ + _ * _ = _ ∧ |(_ : ℝ) * _| + |_ * _| + |_ * _| = _
    simp [t, Transform.translate, zv, ov]
  rw [(rx p).1, (rx p).2] at e1
  rw [(ry p).1, (ry p).2] at e2
  rw [(rz p).1, (rz p).2] at e3
  -- the moved point is small enough to be moved back
  have c51 : ∀ {u : F32}, UpTo 50 u → |(u.val : ℝ)| ≤ 2 ^ 50 := fun h => by exact_mod_cast h.2
  have small : ∀ {q c d : F32}, Num q → UpTo 50 c → UpTo 50 d → |(q.val : ℝ) - (c.val + d.val)| ≤ (|(c.val : ℝ)| + |(d.val : ℝ)|) * (6 / 2 ^ 24) + 1 / 2 ^ 146 → UpTo 60 q := by
    intro q c d hq hc hd h
    refine ⟨hq, ?_⟩
    have : |(q.val : ℝ)| ≤ 2 ^ 60 := by
      have h1 := c51 hc
      have h2 := c51 hd
      have h3 : |(q.val : ℝ)| ≤ |(q.val : ℝ) - (c.val + d.val)| + (|(c.val : ℝ)| + |(d.val : ℝ)|) := by
        have := abs_add_le ((q.val : ℝ) - (c.val + d.val)) (c.val + d.val)
        rw [sub_add_cancel] at this
        linarith [abs_add_le (c.val : ℝ) d.val]
      generalize |(c.val : ℝ)| = C at *
      generalize |(d.val : ℝ)| = D at *
      norm_num at *
      linarith
    exact_mod_cast this
  have hq : UpTo3 60 (t.apply pointTransform p) := ⟨small n1 hp.1 hx e1, small n2 hp.2.1 hy e2, small n3 hp.2.2 hz e3⟩
  obtain ⟨⟨k1, f1⟩, ⟨k2, f2⟩, k3, f3⟩ := c121_point (t := t.inverse) ⟨rfl, rfl, rfl, rfl⟩ ei hq
  rw [show exactRow t.inverse.m.m00 t.inverse.m.m01 t.inverse.m.m02 _ = _ from (rx _).1, show sizeRow t.inverse.m.m00 t.inverse.m.m01 t.inverse.m.m02 _ = _ from (rx _).2] at f1
  rw [show exactRow t.inverse.m.m10 t.inverse.m.m11 t.inverse.m.m12 _ = _ from (ry _).1, show sizeRow t.inverse.m.m10 t.inverse.m.m11 t.inverse.m.m12 _ = _ from (ry _).2] at f2
  rw [show exactRow t.inverse.m.m20 t.inverse.m.m21 t.inverse.m.m22 _ = _ from (rz _).1, show sizeRow t.inverse.m.m20 t.inverse.m.m21 t.inverse.m.m22 _ = _ from (rz _).2] at f3
  have back : ∀ {q r c d : F32}, Num d → |(q.val : ℝ) - (c.val + d.val)| ≤ (|(c.val : ℝ)| + |(d.val : ℝ)|) * (6 / 2 ^ 24) + 1 / 2 ^ 146 →
      |(r.val : ℝ) - (q.val + (⊖d).val)| ≤ (|(q.val : ℝ)| + |((⊖d).val : ℝ)|) * (6 / 2 ^ 24) + 1 / 2 ^ 146 →
      |(r.val : ℝ) - c.val| ≤ (|(c.val : ℝ)| + |(d.val : ℝ)|) / 2 ^ 19 + 1 / 2 ^ 144 := by
    intro q r c d hd h h'
    rw [(neg_ok hd).2, Rat.cast_neg, abs_neg] at h'
    have h3 : |(q.val : ℝ)| ≤ |(q.val : ℝ) - (c.val + d.val)| + (|(c.val : ℝ)| + |(d.val : ℝ)|) := by
      have := abs_add_le ((q.val : ℝ) - (c.val + d.val)) (c.val + d.val)
      rw [sub_add_cancel] at this
      linarith [abs_add_le (c.val : ℝ) d.val]
    have h4 : |(r.val : ℝ) - c.val| ≤ |(r.val : ℝ) - (q.val + -d.val)| + |(q.val : ℝ) - (c.val + d.val)| := by
      have := abs_add_le ((r.val : ℝ) - (q.val + -d.val)) ((q.val : ℝ) - (c.val + d.val))
      rwa [show (r.val : ℝ) - (q.val + -d.val) + ((q.val : ℝ) - (c.val + d.val)) = r.val - c.val by ring] at this
    refine h4.trans ?_
    have c0 := abs_nonneg (c.val : ℝ)
    have d0 := abs_nonneg (d.val : ℝ)
    generalize |(c.val : ℝ)| = C at *
    generalize |(d.val : ℝ)| = D at *
    generalize |(q.val : ℝ) - (c.val + d.val)| = E at *
    generalize |(r.val : ℝ) - (q.val + -d.val)| = F at *
    generalize |(q.val : ℝ)| = Q at *
    clear h4
    norm_num at *
    linarith
  exact ⟨⟨k1, back hx.1 e1 f1⟩, ⟨k2, back hy.1 e2 f2⟩, k3, back hz.1 e3 f3⟩

/-- There and back is not exact: a point next to the origin is lost when it is moved by one. -/
theorem c121_back_not_exact :
    let t := Transform.translate (f32 1) (f32 0) (f32 0)
    let p : V3 F32 := ⟨f32 (1 / 2 ^ 30), f32 0, f32 0⟩
    (t.inverseApply pointTransform (t.apply pointTransform p)).x.val = 0 ∧ p.x.val = 1 / 2 ^ 30 := by
  decide +kernel

/-- A shear with a shift meets the conditions. -/
example : let m : Matrix F32 := ⟨lit 2, lit (1 / 3), lit 0, lit (-5), lit 0, lit 1, lit 0, lit 7, lit 1, lit 0, lit (1 / 10), lit 4, lit 0, lit 0, lit 0, lit 1⟩
    LastRow m ∧ EntriesUpTo 60 m ∧ UpTo3 50 (⟨lit (1 / 7), lit (-100), lit 3⟩ : V3 F32) := by
  have n : ∀ (k : ℕ) (q : ℚ), k ≤ 126 → |q| ≤ 2 ^ k → UpTo k (lit q : F32) := fun k q hk h => NoPanic.upTo_lit hk h
  refine ⟨⟨rfl, rfl, rfl, rfl⟩, ⟨⟨n 60 2 ?_ ?_, n 60 (1 / 3) ?_ ?_, n 60 0 ?_ ?_, n 60 (-5) ?_ ?_⟩, ⟨n 60 0 ?_ ?_, n 60 1 ?_ ?_, n 60 0 ?_ ?_, n 60 7 ?_ ?_⟩,
    n 60 1 ?_ ?_, n 60 0 ?_ ?_, n 60 (1 / 10) ?_ ?_, n 60 4 ?_ ?_⟩, n 50 (1 / 7) ?_ ?_, n 50 (-100) ?_ ?_, n 50 3 ?_ ?_⟩ <;> norm_num [abs_of_pos]

end PT
