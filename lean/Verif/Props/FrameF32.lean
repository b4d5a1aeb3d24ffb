import Verif.Props.TransformF32

/-!
# Shading frames in single precision (C122)
-/

namespace PT

namespace Spec

/-- The exact inner product of two vectors of numbers. -/
noncomputable def exactDot (v w : V3 F32) : ℝ := v.x.val * w.x.val + v.y.val * w.y.val + v.z.val * w.z.val

/-- A shading point whose normal has length one up to `2 ^ -20` in the square, whose tangent is neither tiny nor huge, and where both are perpendicular up to a part `e` of the
length of the tangent. -/
def SteadyFrame (e : ℝ) (i : Interaction F32) : Prop :=
  UpTo3 53 i.dpdu ∧ NotTiny i.dpdu ∧ UpTo3 1 i.sn ∧ |exactDot i.sn i.sn - 1| ≤ 1 / 2 ^ 20 ∧ |exactDot i.sn i.dpdu| ≤ e * exactLength i.dpdu

end Spec

open Spec Fl

namespace FrameF
open NoPanic VecF TriF TrF

/-- Into a frame that is nearly orthonormal and back, in exact arithmetic. -/
theorem ideal_near {nx ny nz sx sy sz vx vy vz a b c sv nv tv g : ℝ} (ha : a = nx * nx + ny * ny + nz * nz) (hb : b = sx * sx + sy * sy + sz * sz)
    (hc : c = nx * sx + ny * sy + nz * sz) (hsv : sv = vx * sx + vy * sy + vz * sz) (hnv : nv = vx * nx + vy * ny + vz * nz)
    (htv : tv = vx * (ny * sz - nz * sy) + vy * (nz * sx - nx * sz) + vz * (nx * sy - ny * sx))
    (v1 : |vx| ≤ 1) (n1 : |nx| ≤ 1001 / 1000) (s1 : |sx| ≤ 1001 / 1000) (sv3 : |sv| ≤ 301 / 100) (nv3 : |nv| ≤ 301 / 100)
    (a1 : |a - 1| ≤ 16 / 2 ^ 24) (b1 : |b - 1| ≤ 9 / 2 ^ 24) (c1 : |c| ≤ g) (g1 : g ≤ 1 / 10) :
    |sx * sv + (ny * sz - nz * sy) * tv + nx * nv - vx| ≤ 102 / 2 ^ 24 + 62 / 10 * g := by
  have e : sx * sv + (ny * sz - nz * sy) * tv + nx * nv - vx =
      ((a - 1) * b + (b - 1) - c * c) * vx + (-(b - 1)) * (nx * nv) + (-(a - 1)) * (sx * sv) + c * (nx * sv + sx * nv) := by
    subst ha hb hc hsv hnv htv; ring
  rw [e]
  clear e htv hsv hnv ha hb hc
  have g0 : 0 ≤ g := (abs_nonneg _).trans c1
  have b2 : |b| ≤ 1001 / 1000 := by
    have := abs_add_le (b - 1) 1
    rw [sub_add_cancel, abs_one] at this
    norm_num at *
    linarith
  have m : ∀ {x y p q : ℝ}, |x| ≤ p → |y| ≤ q → |x * y| ≤ p * q := fun {x y p q} hx hy => by
    rw [abs_mul]; exact mul_le_mul hx hy (abs_nonneg _) ((abs_nonneg _).trans hx)
  have k1 := m a1 b2
  have k2 := m c1 c1
  have k2' : g * g ≤ g * (1 / 10) := mul_le_mul_of_nonneg_left g1 g0
  have k3 : |(a - 1) * b + (b - 1) - c * c| ≤ 16 / 2 ^ 24 * (1001 / 1000) + 9 / 2 ^ 24 + g * (1 / 10) := by
    refine (abs_sub _ _).trans ?_
    have := abs_add_le ((a - 1) * b) (b - 1)
    linarith
  have k4 := m k3 v1
  have k5 := m (show |(-(b - 1))| ≤ 9 / 2 ^ 24 by rwa [abs_neg]) (m n1 nv3)
  have k6 := m (show |(-(a - 1))| ≤ 16 / 2 ^ 24 by rwa [abs_neg]) (m s1 sv3)
  have k7 := m c1 ((abs_add_le _ _).trans (add_le_add (m n1 sv3) (m s1 nv3)))
  have t1 := abs_add_le (((a - 1) * b + (b - 1) - c * c) * vx + (-(b - 1)) * (nx * nv) + (-(a - 1)) * (sx * sv)) (c * (nx * sv + sx * nv))
  have t2 := abs_add_le (((a - 1) * b + (b - 1) - c * c) * vx + (-(b - 1)) * (nx * nv)) ((-(a - 1)) * (sx * sv))
  have t3 := abs_add_le (((a - 1) * b + (b - 1) - c * c) * vx) ((-(b - 1)) * (nx * nv))
  refine t1.trans ?_
  generalize |((a - 1) * b + (b - 1) - c * c) * vx + (-(b - 1)) * (nx * nv) + (-(a - 1)) * (sx * sv)| = A at *
  generalize |((a - 1) * b + (b - 1) - c * c) * vx + (-(b - 1)) * (nx * nv)| = B at *
  generalize |((a - 1) * b + (b - 1) - c * c) * vx| = C at *
  generalize |(-(b - 1)) * (nx * nv)| = D at *
  generalize |(-(a - 1)) * (sx * sv)| = E at *
  generalize |c * (nx * sv + sx * nv)| = F at *
  clear k1 k2 k3 a1 b1 c1 b2 m
  norm_num at *
  linarith

/-- One coordinate of the way back, with all roundings. -/
theorem coord_near {si ti ni lx ly lz : F32} {T sv tv nv : ℝ} (us : UpTo 1 si) (ut : UpTo 1 ti) (un : UpTo 1 ni) (hx : UpTo 10 lx) (hy : UpTo 10 ly) (hz : UpTo 10 lz)
    (s1 : |(si.val : ℝ)| ≤ 1001 / 1000) (t1 : |(ti.val : ℝ)| ≤ 1002 / 1000) (n1 : |(ni.val : ℝ)| ≤ 1001 / 1000) (hT : |(ti.val : ℝ) - T| ≤ 61 / 10 / 2 ^ 24)
    (sv3 : |sv| ≤ 301 / 100) (tv3 : |tv| ≤ 301 / 100) (nv3 : |nv| ≤ 301 / 100) (ex : |(lx.val : ℝ) - sv| ≤ 122 / 10 / 2 ^ 24) (ey : |(ly.val : ℝ) - tv| ≤ 31 / 2 ^ 24)
    (ez : |(lz.val : ℝ) - nv| ≤ 122 / 10 / 2 ^ 24) :
    Num (si *. lx +. ti *. ly +. ni *. lz) ∧ |((si *. lx +. ti *. ly +. ni *. lz).val : ℝ) - (si.val * sv + T * tv + ni.val * nv)| ≤ 112 / 2 ^ 24 := by
  obtain ⟨n, h⟩ := row3 (v := ⟨lx, ly, lz⟩) (UpTo.mono us (by omega)) (UpTo.mono ut (by omega)) (UpTo.mono un (by omega))
    ⟨UpTo.mono hx (by omega), UpTo.mono hy (by omega), UpTo.mono hz (by omega)⟩
  refine ⟨n, ?_⟩
  have m : ∀ {x y p q : ℝ}, |x| ≤ p → |y| ≤ q → |x * y| ≤ p * q := fun {x y p q} hx hy => by
    rw [abs_mul]; exact mul_le_mul hx hy (abs_nonneg _) ((abs_nonneg _).trans hx)
  have near : ∀ {x y e : ℝ}, |x - y| ≤ e → |y| ≤ 301 / 100 → e ≤ 1 / 1000 → |x| ≤ 302 / 100 := fun {x y e} h h' he => by
    have := abs_add_le (x - y) y
    rw [sub_add_cancel] at this
    linarith
  have lx3 := near ex sv3 (by norm_num)
  have ly3 := near ey tv3 (by norm_num)
  have lz3 := near ez nv3 (by norm_num)
  have p1 := m s1 lx3
  have p2 := m t1 ly3
  have p3 := m n1 lz3
  have hsz : sizeRow si ti ni ⟨lx, ly, lz⟩ ≤ 91 / 10 := by
    show |(si.val : ℝ) * lx.val| + |(ti.val : ℝ) * ly.val| + |(ni.val : ℝ) * lz.val| ≤ 91 / 10
    linarith
  have d1 := m s1 ex
  have d2 := m t1 ey
  have d3 := m n1 ez
  have d4 := m hT tv3
  have e : ((si *. lx +. ti *. ly +. ni *. lz).val : ℝ) - (si.val * sv + T * tv + ni.val * nv) =
      (((si *. lx +. ti *. ly +. ni *. lz).val : ℝ) - exactRow si ti ni ⟨lx, ly, lz⟩) + (si.val * (lx.val - sv) + ti.val * (ly.val - tv) + ni.val * (lz.val - nv) + (ti.val - T) * tv) := by
    unfold exactRow; ring
  rw [e]
  have q1 := abs_add_le (((si *. lx +. ti *. ly +. ni *. lz).val : ℝ) - exactRow si ti ni ⟨lx, ly, lz⟩) (si.val * (lx.val - sv) + ti.val * (ly.val - tv) + ni.val * (lz.val - nv) + (ti.val - T) * tv)
  have q2 := abs_add_le ((si.val : ℝ) * (lx.val - sv) + ti.val * (ly.val - tv) + ni.val * (lz.val - nv)) ((ti.val - T) * tv)
  have q3 := abs_add_le ((si.val : ℝ) * (lx.val - sv) + ti.val * (ly.val - tv)) (ni.val * (lz.val - nv))
  have q4 := abs_add_le ((si.val : ℝ) * (lx.val - sv)) (ti.val * (ly.val - tv))
  refine q1.trans ?_
  generalize |((si *. lx +. ti *. ly +. ni *. lz).val : ℝ) - exactRow si ti ni ⟨lx, ly, lz⟩| = A at *
  generalize |(si.val : ℝ) * (lx.val - sv) + ti.val * (ly.val - tv) + ni.val * (lz.val - nv) + (ti.val - T) * tv| = B at *
  generalize |(si.val : ℝ) * (lx.val - sv) + ti.val * (ly.val - tv) + ni.val * (lz.val - nv)| = C at *
  generalize |(si.val : ℝ) * (lx.val - sv) + ti.val * (ly.val - tv)| = D at *
  generalize |(si.val : ℝ) * (lx.val - sv)| = E at *
  generalize |(ti.val : ℝ) * (ly.val - tv)| = F at *
  generalize |(ni.val : ℝ) * (lz.val - nv)| = G at *
  generalize |((ti.val : ℝ) - T) * tv| = H at *
  generalize sizeRow si ti ni ⟨lx, ly, lz⟩ = S at *
  clear m near lx3 ly3 lz3 p1 p2 p3 e sv3 tv3 nv3 ex ey ez hT s1 t1 n1
  norm_num at *
  linarith

theorem coord_le {x S : ℝ} (h : x * x ≤ S) (hS : S ≤ 1 + 1 / 1000) : |x| ≤ 1001 / 1000 := by
  rw [abs_le]; constructor <;> nlinarith

theorem dot3 {vx vy vz x y z K : ℝ} (h1 : |vx| ≤ 1) (h2 : |vy| ≤ 1) (h3 : |vz| ≤ 1) (hx : |x| ≤ K) (hy : |y| ≤ K) (hz : |z| ≤ K) :
    |vx * x| + |vy * y| + |vz * z| ≤ 3 * K ∧ |vx * x + vy * y + vz * z| ≤ 3 * K := by
  have m : ∀ {v x : ℝ}, |v| ≤ 1 → |x| ≤ K → |v * x| ≤ K := fun {v x} hv hx => by
    rw [abs_mul]
    calc |v| * |x| ≤ 1 * K := mul_le_mul hv hx (abs_nonneg _) (by norm_num)
      _ = K := one_mul _
  have a := m h1 hx
  have b := m h2 hy
  have c := m h3 hz
  have t := abs_add_le (vx * x + vy * y) (vz * z)
  have t' := abs_add_le (vx * x) (vy * y)
  exact ⟨by linarith, by linarith⟩

/-- What is known of the three axes of a computed frame. -/
structure Axes (s t n : V3 F32) (g : ℝ) : Prop where
  us : UpTo3 1 s
  ut : UpTo3 1 t
  un : UpTo3 1 n
  s2 : |(s.x.val : ℝ) * s.x.val + s.y.val * s.y.val + s.z.val * s.z.val - 1| ≤ 9 / 2 ^ 24
  n2 : |(n.x.val : ℝ) * n.x.val + n.y.val * n.y.val + n.z.val * n.z.val - 1| ≤ 16 / 2 ^ 24
  sn : |(n.x.val : ℝ) * s.x.val + n.y.val * s.y.val + n.z.val * s.z.val| ≤ g
  tx : |(t.x.val : ℝ) - (n.y.val * s.z.val - n.z.val * s.y.val)| ≤ 61 / 10 / 2 ^ 24
  ty : |(t.y.val : ℝ) - (n.z.val * s.x.val - n.x.val * s.z.val)| ≤ 61 / 10 / 2 ^ 24
  tz : |(t.z.val : ℝ) - (n.x.val * s.y.val - n.y.val * s.x.val)| ≤ 61 / 10 / 2 ^ 24

theorem unit_coords {x y z d : ℝ} (h : |x * x + y * y + z * z - 1| ≤ d) (hd : d ≤ 1 / 1000) : |x| ≤ 1001 / 1000 ∧ |y| ≤ 1001 / 1000 ∧ |z| ≤ 1001 / 1000 := by
  have := (abs_le.1 h).2
  have a := mul_self_nonneg x
  have b := mul_self_nonneg y
  have c := mul_self_nonneg z
  exact ⟨coord_le (S := x * x + y * y + z * z) (by linarith) (by linarith), coord_le (S := x * x + y * y + z * z) (by linarith) (by linarith),
    coord_le (S := x * x + y * y + z * z) (by linarith) (by linarith)⟩

/-- The coordinates of the cross product of nearly unit vectors. -/
theorem cross_coords {nx ny nz sx sy sz : ℝ} (hn : |nx * nx + ny * ny + nz * nz - 1| ≤ 16 / 2 ^ 24) (hs : |sx * sx + sy * sy + sz * sz - 1| ≤ 9 / 2 ^ 24) :
    |ny * sz - nz * sy| ≤ 1001 / 1000 ∧ |nz * sx - nx * sz| ≤ 1001 / 1000 ∧ |nx * sy - ny * sx| ≤ 1001 / 1000 := by
  have h1 := (abs_le.1 hn).2
  have h2 := (abs_le.1 hs).2
  have e : (ny * sz - nz * sy) * (ny * sz - nz * sy) + (nz * sx - nx * sz) * (nz * sx - nx * sz) + (nx * sy - ny * sx) * (nx * sy - ny * sx) =
      (nx * nx + ny * ny + nz * nz) * (sx * sx + sy * sy + sz * sz) - (nx * sx + ny * sy + nz * sz) * (nx * sx + ny * sy + nz * sz) := by ring
  have a0 : 0 ≤ nx * nx + ny * ny + nz * nz := by nlinarith [mul_self_nonneg nx, mul_self_nonneg ny, mul_self_nonneg nz]
  have le : (nx * nx + ny * ny + nz * nz) * (sx * sx + sy * sy + sz * sz) ≤ (1 + 16 / 2 ^ 24) * (1 + 9 / 2 ^ 24) := by
    apply mul_le_mul (by linarith) (by linarith) _ (by norm_num)
    nlinarith [mul_self_nonneg sx, mul_self_nonneg sy, mul_self_nonneg sz]
  have k := mul_self_nonneg (nx * sx + ny * sy + nz * sz)
  have a := mul_self_nonneg (ny * sz - nz * sy)
  have b := mul_self_nonneg (nz * sx - nx * sz)
  have c := mul_self_nonneg (nx * sy - ny * sx)
  have num : (1 + 16 / 2 ^ 24 : ℝ) * (1 + 9 / 2 ^ 24) ≤ 1 + 1 / 1000 := by norm_num
  exact ⟨coord_le (S := 1 + 1 / 1000) (by linarith) le_rfl, coord_le (S := 1 + 1 / 1000) (by linarith) le_rfl, coord_le (S := 1 + 1 / 1000) (by linarith) le_rfl⟩

theorem there_and_back {b : BSDF F32} {g : ℝ} (h : Axes b.s b.t b.sn g) (hg : g ≤ 1 / 10) {v : V3 F32} (hv : UpTo3 0 v) (a : Axis) :
    Num ((b.localToWorld (b.worldToLocal v)).get a) ∧ |(((b.localToWorld (b.worldToLocal v)).get a).val : ℝ) - (v.get a).val| ≤ 214 / 2 ^ 24 + 62 / 10 * g := by
  obtain ⟨us, ut, un, s2, n2, sn, tx, ty, tz⟩ := h
  have one : ∀ {r : F32}, UpTo 0 r → |(r.val : ℝ)| ≤ 1 := fun h => by
    have := h.2
    rw [pow_zero] at this
    exact_mod_cast this
  have v1 := one hv.1
  have v2 := one hv.2.1
  have v3 := one hv.2.2
  obtain ⟨sx1, sy1, sz1⟩ := unit_coords s2 (by norm_num)
  obtain ⟨nx1, ny1, nz1⟩ := unit_coords n2 (by norm_num)
  obtain ⟨cx1, cy1, cz1⟩ := cross_coords n2 s2
  have tb : ∀ {t c : ℝ}, |t - c| ≤ 61 / 10 / 2 ^ 24 → |c| ≤ 1001 / 1000 → |t| ≤ 1002 / 1000 := fun {t c} h h' => by
    have := abs_add_le (t - c) c
    rw [sub_add_cancel] at this
    exact this.trans ((add_le_add h h').trans (by norm_num))
  have tx1 := tb tx cx1
  have ty1 := tb ty cy1
  have tz1 := tb tz cz1
  obtain ⟨ds, ds'⟩ := dot3 v1 v2 v3 sx1 sy1 sz1
  obtain ⟨dt, dt'⟩ := dot3 v1 v2 v3 tx1 ty1 tz1
  obtain ⟨dn, dn'⟩ := dot3 v1 v2 v3 nx1 ny1 nz1
  obtain ⟨-, dc⟩ := dot3 v1 v2 v3 cx1 cy1 cz1
  obtain ⟨-, dd⟩ := dot3 v1 v2 v3 tx ty tz
  have m3 : ∀ {w : V3 F32} {k : ℕ}, k ≤ 60 → UpTo3 k w → UpTo3 60 w := fun hk h => UpTo3.mono h hk
  have lx := (c120_products (m3 (by omega) hv) (m3 (by omega) us)).1
  have ly := (c120_products (m3 (by omega) hv) (m3 (by omega) ut)).1
  have lz := (c120_products (m3 (by omega) hv) (m3 (by omega) un)).1
  have ul : ∀ {w : V3 F32}, UpTo3 1 w → UpTo 10 (v.dot w) := fun h => UpTo.mono (upTo_dot (m := 0) (n := 1) (by omega) hv h) (by omega)
  set sv : ℝ := v.x.val * b.s.x.val + v.y.val * b.s.y.val + v.z.val * b.s.z.val with hsv
  set nv : ℝ := v.x.val * b.sn.x.val + v.y.val * b.sn.y.val + v.z.val * b.sn.z.val with hnv
  set tv : ℝ := v.x.val * (b.sn.y.val * b.s.z.val - b.sn.z.val * b.s.y.val) + v.y.val * (b.sn.z.val * b.s.x.val - b.sn.x.val * b.s.z.val) +
    v.z.val * (b.sn.x.val * b.s.y.val - b.sn.y.val * b.s.x.val) with htv
  have fin : ∀ {S E : ℝ}, S ≤ 3 * (1002 / 1000) → E ≤ S * (4 / 2 ^ 24) + 1 / 2 ^ 147 → E ≤ 122 / 10 / 2 ^ 24 := fun {S E} h h' => by
    norm_num at *; linarith
  have ex := fin (ds.trans (by norm_num)) lx.2
  have ez := fin (dn.trans (by norm_num)) lz.2
  have ey0 := fin dt ly.2
  have ey : |((v.dot b.t).val : ℝ) - tv| ≤ 31 / 2 ^ 24 := by
    have e : ((v.dot b.t).val : ℝ) - tv = ((v.dot b.t).val - (v.x.val * b.t.x.val + v.y.val * b.t.y.val + v.z.val * b.t.z.val)) +
        (v.x.val * (b.t.x.val - (b.sn.y.val * b.s.z.val - b.sn.z.val * b.s.y.val)) + v.y.val * (b.t.y.val - (b.sn.z.val * b.s.x.val - b.sn.x.val * b.s.z.val)) +
          v.z.val * (b.t.z.val - (b.sn.x.val * b.s.y.val - b.sn.y.val * b.s.x.val))) := by rw [htv]; ring
    rw [e]
    exact (abs_add_le _ _).trans ((add_le_add ey0 dd).trans (by norm_num))
  have sv3 : |sv| ≤ 301 / 100 := ds'.trans (by norm_num)
  have nv3 : |nv| ≤ 301 / 100 := dn'.trans (by norm_num)
  have tv3 : |tv| ≤ 301 / 100 := dc.trans (by norm_num)
  have join : ∀ {r i w : ℝ}, |r - i| ≤ 112 / 2 ^ 24 → |i - w| ≤ 102 / 2 ^ 24 + 62 / 10 * g → |r - w| ≤ 214 / 2 ^ 24 + 62 / 10 * g := fun {r i w} h h' => by
    have := abs_add_le (r - i) (i - w)
    rw [sub_add_sub_cancel] at this
    linarith
  cases a
  · obtain ⟨n, h⟩ := coord_near us.1 ut.1 un.1 (ul us) (ul ut) (ul un) sx1 tx1 nx1 tx sv3 tv3 nv3 ex ey ez
    exact ⟨n, join h (ideal_near rfl rfl rfl hsv hnv htv v1 nx1 sx1 sv3 nv3 n2 s2 sn hg)⟩
  · obtain ⟨n, h⟩ := coord_near us.2.1 ut.2.1 un.2.1 (ul us) (ul ut) (ul un) sy1 ty1 ny1 ty sv3 tv3 nv3 ex ey ez
    exact ⟨n, join h (ideal_near (nx := b.sn.y.val) (ny := b.sn.z.val) (nz := b.sn.x.val) (sx := b.s.y.val) (sy := b.s.z.val) (sz := b.s.x.val)
      (vx := v.y.val) (vy := v.z.val) (vz := v.x.val) rfl rfl rfl (by rw [hsv]; ring) (by rw [hnv]; ring) (by rw [htv]; ring) v2 ny1 sy1 sv3 nv3
      (by convert n2 using 2; ring) (by convert s2 using 2; ring) (by convert sn using 2; ring) hg)⟩
  · obtain ⟨n, h⟩ := coord_near us.2.2 ut.2.2 un.2.2 (ul us) (ul ut) (ul un) sz1 tz1 nz1 tz sv3 tv3 nv3 ex ey ez
    exact ⟨n, join h (ideal_near (nx := b.sn.z.val) (ny := b.sn.x.val) (nz := b.sn.y.val) (sx := b.s.z.val) (sy := b.s.x.val) (sz := b.s.y.val)
      (vx := v.z.val) (vy := v.x.val) (vz := v.y.val) rfl rfl rfl (by rw [hsv]; ring) (by rw [hnv]; ring) (by rw [htv]; ring) v3 nz1 sz1 sv3 nv3
      (by convert n2 using 2; ring) (by convert s2 using 2; ring) (by convert sn using 2; ring) hg)⟩

/-- The tangent is perpendicular up to the rounding of its direction. -/
theorem perp {nx ny nz sx sy sz dx dy dz L e : ℝ} (l0 : 0 < L) (l2 : L ^ 2 = dx ^ 2 + dy ^ 2 + dz ^ 2) (nx1 : |nx| ≤ 1001 / 1000) (ny1 : |ny| ≤ 1001 / 1000) (nz1 : |nz| ≤ 1001 / 1000)
    (hx : |sx - dx / L| ≤ |dx / L| * (4 / 2 ^ 24) + 1 / 2 ^ 150) (hy : |sy - dy / L| ≤ |dy / L| * (4 / 2 ^ 24) + 1 / 2 ^ 150)
    (hz : |sz - dz / L| ≤ |dz / L| * (4 / 2 ^ 24) + 1 / 2 ^ 150) (hp : |nx * dx + ny * dy + nz * dz| ≤ e * L) :
    |nx * sx + ny * sy + nz * sz| ≤ e + 13 / 2 ^ 24 := by
  have m : ∀ {x y p q : ℝ}, |x| ≤ p → |y| ≤ q → |x * y| ≤ p * q := fun {x y p q} hx hy => by
    rw [abs_mul]; exact mul_le_mul hx hy (abs_nonneg _) ((abs_nonneg _).trans hx)
  have q : ∀ {x : ℝ}, x ^ 2 ≤ L ^ 2 → |x / L| ≤ 1 := fun {x} h => by
    rw [abs_div, abs_of_pos l0, div_le_one l0]
    exact abs_le_of_sq_le_sq h l0.le
  have r : ∀ {s d : ℝ}, |s - d| ≤ |d| * (4 / 2 ^ 24) + 1 / 2 ^ 150 → |d| ≤ 1 → |s - d| ≤ 41 / 10 / 2 ^ 24 := fun {s d} h h' => by
    refine h.trans ?_
    calc |d| * (4 / 2 ^ 24) + 1 / 2 ^ 150 ≤ 1 * (4 / 2 ^ 24) + 1 / 2 ^ 150 := by gcongr
      _ ≤ 41 / 10 / 2 ^ 24 := by norm_num
  have g1 := m nx1 (r hx (q (by linarith [sq_nonneg dy, sq_nonneg dz])))
  have g2 := m ny1 (r hy (q (by linarith [sq_nonneg dx, sq_nonneg dz])))
  have g3 := m nz1 (r hz (q (by linarith [sq_nonneg dx, sq_nonneg dy])))
  have hp' : |(nx * dx + ny * dy + nz * dz) / L| ≤ e := by
    rw [abs_div, abs_of_pos l0, div_le_iff₀ l0]; exact hp
  have e' : nx * sx + ny * sy + nz * sz = (nx * dx + ny * dy + nz * dz) / L + (nx * (sx - dx / L) + ny * (sy - dy / L) + nz * (sz - dz / L)) := by ring
  rw [e']
  refine (abs_add_le _ _).trans (add_le_add hp' ?_)
  exact (abs_add_le _ _).trans ((add_le_add ((abs_add_le _ _).trans (add_le_add g1 g2)) g3).trans (by norm_num))

/-- The frame that the code builds. -/
theorem new_axes [Libm F32] (hl : AccurateSqrt) {i : Interaction F32} {e : ℝ} (h : SteadyFrame e i) :
    Axes (BSDF.new i).s (BSDF.new i).t (BSDF.new i).sn (e + 13 / 2 ^ 24) := by
  obtain ⟨hd, ht, hn, n2, hp⟩ := h
  obtain ⟨-, hs, s2⟩ := c120_normalize hl hd ht
  obtain ⟨-, l0, -⟩ := length_near hl hd ht
  unfold exactDot at n2 hp
  have s2' : |(i.dpdu.normalize.x.val : ℝ) * i.dpdu.normalize.x.val + i.dpdu.normalize.y.val * i.dpdu.normalize.y.val + i.dpdu.normalize.z.val * i.dpdu.normalize.z.val - 1| ≤ 9 / 2 ^ 24 := by
    simpa only [pow_two] using s2
  have n2' : |(i.sn.x.val : ℝ) * i.sn.x.val + i.sn.y.val * i.sn.y.val + i.sn.z.val * i.sn.z.val - 1| ≤ 16 / 2 ^ 24 := n2.trans (by norm_num)
  obtain ⟨sx1, sy1, sz1⟩ := unit_coords s2' (by norm_num)
  obtain ⟨nx1, ny1, nz1⟩ := unit_coords n2' (by norm_num)
  have up : ∀ {r : F32}, Num r → |(r.val : ℝ)| ≤ 1001 / 1000 → UpTo 1 r := fun hr h => ⟨hr, by
    have : |(_ : ℝ)| ≤ ((2 ^ 1 : ℚ) : ℝ) := h.trans (by norm_num)
    exact_mod_cast this⟩
  have us : UpTo3 1 i.dpdu.normalize := ⟨up (hs .X).1 sx1, up (hs .Y).1 sy1, up (hs .Z).1 sz1⟩
  obtain ⟨-, ⟨c1, e1⟩, ⟨c2, e2⟩, c3, e3⟩ := c120_products (UpTo3.mono hn (show 1 ≤ 60 by omega)) (UpTo3.mono us (show 1 ≤ 60 by omega))
  have m : ∀ {x y p q : ℝ}, |x| ≤ p → |y| ≤ q → |x * y| ≤ p * q := fun {x y p q} hx hy => by
    rw [abs_mul]; exact mul_le_mul hx hy (abs_nonneg _) ((abs_nonneg _).trans hx)
  have fin : ∀ {S S' E : ℝ}, S ≤ 1001 / 1000 * (1001 / 1000) → S' ≤ 1001 / 1000 * (1001 / 1000) → E ≤ (S + S') * (3 / 2 ^ 24) + 1 / 2 ^ 147 → E ≤ 61 / 10 / 2 ^ 24 := fun {S S' E} h h' h'' => by
    norm_num at *; linarith
  have f1 := fin (m ny1 sz1) (m nz1 sy1) e1
  have f2 := fin (m nz1 sx1) (m nx1 sz1) e2
  have f3 := fin (m nx1 sy1) (m ny1 sx1) e3
  obtain ⟨k1, k2, k3⟩ := cross_coords n2' s2'
  have up' : ∀ {r : F32} {c : ℝ}, Num r → |(r.val : ℝ) - c| ≤ 61 / 10 / 2 ^ 24 → |c| ≤ 1001 / 1000 → UpTo 1 r := fun {r c} hr h h' => ⟨hr, by
    have : |(r.val : ℝ)| ≤ ((2 ^ 1 : ℚ) : ℝ) := by
      have t := abs_add_le ((r.val : ℝ) - c) c
      rw [sub_add_cancel] at t
      exact t.trans ((add_le_add h h').trans (by norm_num))
    exact_mod_cast this⟩
  refine ⟨us, ⟨up' c1 f1 k1, up' c2 f2 k2, up' c3 f3 k3⟩, hn, s2', n2', ?_, f1, f2, f3⟩
  exact perp l0 (by unfold exactLength; exact Real.sq_sqrt (by positivity)) nx1 ny1 nz1 (hs .X).2 (hs .Y).2 (hs .Z).2 hp

end FrameF

open FrameF NoPanic in
/-- **C122** (there and back).  Turning a direction into the shading frame and back, as the code does between a surface and its scattering functions, gives the same direction up to `2 ^ -15`
and seven times the angle by which normal and tangent are off perpendicular. -/
theorem c122_round_trip [Libm F32] (hl : AccurateSqrt) {i : Interaction F32} {e : ℝ} (he : e ≤ 1 / 16) (hi : SteadyFrame e i) (bs : List (BxDF F32)) {v : V3 F32} (hv : UpTo3 0 v) (a : Axis) :
    let b := { BSDF.new i with bxdfs := bs }
    Num ((b.localToWorld (b.worldToLocal v)).get a) ∧ |(((b.localToWorld (b.worldToLocal v)).get a).val : ℝ) - (v.get a).val| ≤ 1 / 2 ^ 15 + 7 * e := by
  have h := new_axes hl hi
  have e0 : 0 ≤ e := by
    obtain ⟨hd, ht, -, -, hp⟩ := hi
    obtain ⟨-, l0, -⟩ := VecF.length_near hl hd ht
    by_contra hc
    have := mul_neg_of_neg_of_pos (not_le.1 hc) l0
    linarith [abs_nonneg (exactDot i.sn i.dpdu)]
  obtain ⟨n, g⟩ := there_and_back (b := { BSDF.new i with bxdfs := bs }) h (by norm_num at *; linarith) hv a
  refine ⟨n, g.trans ?_⟩
  norm_num
  linarith

open FrameF NoPanic in
/-- **C122** (axes).  The axes of the computed frame have length one up to `2 ^ -20` in the square (the second one up to the perpendicularity of the input), the second axis is perpendicular
to the other two up to `2 ^ -19`, and the first is perpendicular to the normal up to the input's own angle and `2 ^ -20`. -/
theorem c122_axes [Libm F32] (hl : AccurateSqrt) {i : Interaction F32} {e : ℝ} (hi : SteadyFrame e i) :
    let b := BSDF.new i
    |exactDot b.s b.s - 1| ≤ 1 / 2 ^ 20 ∧ |exactDot b.sn b.s| ≤ e + 1 / 2 ^ 20 ∧ |exactDot b.t b.s| ≤ 1 / 2 ^ 19 ∧ |exactDot b.t b.sn| ≤ 1 / 2 ^ 19 := by
  obtain ⟨-, -, -, s2, n2, sn, tx, ty, tz⟩ := new_axes hl hi
  obtain ⟨sx1, sy1, sz1⟩ := unit_coords s2 (by norm_num)
  obtain ⟨nx1, ny1, nz1⟩ := unit_coords n2 (by norm_num)
  have m : ∀ {x y p q : ℝ}, |x| ≤ p → |y| ≤ q → |x * y| ≤ p * q := fun {x y p q} hx hy => by
    rw [abs_mul]; exact mul_le_mul hx hy (abs_nonneg _) ((abs_nonneg _).trans hx)
  have three : ∀ {x y z : ℝ}, |x| ≤ 61 / 10 / 2 ^ 24 * (1001 / 1000) → |y| ≤ 61 / 10 / 2 ^ 24 * (1001 / 1000) → |z| ≤ 61 / 10 / 2 ^ 24 * (1001 / 1000) → |x + y + z| ≤ 1 / 2 ^ 19 := fun hx hy hz =>
    (abs_add_le _ _).trans ((add_le_add ((abs_add_le _ _).trans (add_le_add hx hy)) hz).trans (by norm_num))
  refine ⟨s2.trans (by norm_num), sn.trans (by norm_num), ?_, ?_⟩
  · have := three (m tx sx1) (m ty sy1) (m tz sz1)
    convert this using 2
    unfold exactDot; ring
  · have := three (m tx nx1) (m ty ny1) (m tz nz1)
    convert this using 2
    unfold exactDot; ring

namespace Demo

/-- A shading point on a slanted surface: the normal is `(2/3, 1/3, 2/3)` and the tangent `(3, 0, -3)`, both rounded. -/
def slanted : Interaction F32 :=
  ⟨⟨f32 0, f32 0, f32 0⟩, ⟨f32 0, f32 0, f32 0⟩, ⟨f32 0, f32 0⟩, ⟨f32 (2 / 3), f32 (1 / 3), f32 (2 / 3)⟩, ⟨f32 (2 / 3), f32 (1 / 3), f32 (2 / 3)⟩, ⟨f32 3, f32 0, f32 (-3)⟩, ⟨f32 0, f32 1, f32 0⟩, ⟨f32 0, f32 0, f32 1⟩⟩

end Demo

/-- The conditions hold of the slanted point, with perpendicularity up to `2 ^ -20`. -/
example : letI := Demo.libm32
    AccurateSqrt ∧ SteadyFrame (1 / 2 ^ 20) Demo.slanted ∧ UpTo3 0 (⟨f32 (3 / 5), f32 (-1 / 7), f32 (4 / 5)⟩ : V3 F32) := by
  letI := Demo.libm32
  have n : ∀ (k : ℕ) (q : ℚ), k ≤ 126 → |q| ≤ 2 ^ k → UpTo k (f32 q) := fun k q hk h => NoPanic.upTo_ofVal hk h _
  have hd : UpTo3 53 Demo.slanted.dpdu := by
    have e : Demo.slanted.dpdu = ⟨f32 3, f32 0, f32 (-3)⟩ := by rw [Demo.slanted]
    rw [e]
    refine ⟨n 53 3 ?_ ?_, n 53 0 ?_ ?_, n 53 (-3) ?_ ?_⟩ <;> norm_num [abs_of_pos]
  have ht : NotTiny Demo.slanted.dpdu := Or.inl (by decide +kernel)
  refine ⟨Demo.libm32_accurate, ⟨hd, ht, ?_, ?_, ?_⟩, ?_⟩
  · refine ⟨n 1 (2 / 3) ?_ ?_, n 1 (1 / 3) ?_ ?_, n 1 (2 / 3) ?_ ?_⟩ <;> norm_num [abs_of_pos]
  · have h1 : Demo.slanted.sn.x.val = 11184811 / 2 ^ 24 := by decide +kernel
    have h2 : Demo.slanted.sn.y.val = 11184811 / 2 ^ 25 := by decide +kernel
    have h3 : Demo.slanted.sn.z.val = 11184811 / 2 ^ 24 := by decide +kernel
    unfold exactDot
    rw [h1, h2, h3, abs_le]
    norm_num
  · have h0 : exactDot Demo.slanted.sn Demo.slanted.dpdu = 0 := by
      have h1 : Demo.slanted.sn.x.val = 11184811 / 2 ^ 24 := by decide +kernel
      have h3 : Demo.slanted.sn.z.val = 11184811 / 2 ^ 24 := by decide +kernel
      have d1 : Demo.slanted.dpdu.x.val = 3 := by decide +kernel
      have d2 : Demo.slanted.dpdu.y.val = 0 := by decide +kernel
      have d3 : Demo.slanted.dpdu.z.val = -3 := by decide +kernel
      unfold exactDot
      rw [h1, h3, d1, d2, d3]
      norm_num
    rw [h0, abs_zero]
    exact mul_nonneg (by positivity) (Real.sqrt_nonneg _)
  · refine ⟨n 0 (3 / 5) ?_ ?_, n 0 (-1 / 7) ?_ ?_, n 0 (4 / 5) ?_ ?_⟩ <;> norm_num [abs_of_pos, abs_le]

end PT
