import Verif.Props.FrameTriangleF32

/-!
# Shading frames of triangles with vertex normals in single precision (C122)
-/

namespace PT

namespace Spec

/-- The normal the code interpolates from three vertex normals, before it is scaled to length one. -/
def mixedNormal (n0 n1 n2 : V3 F32) (b0 b1 b2 : F32) : V3 F32 := ((n0.smul b0).add (n1.smul b1)).add (n2.smul b2)

/-- Two vectors, neither tiny nor huge, that do not nearly point along the same line: the cosine of their angle is at most 99/100. -/
def Apart (m d : V3 F32) : Prop :=
  UpTo3 53 m ∧ NotTiny m ∧ UpTo3 53 d ∧ NotTiny d ∧ |exactDot m d| ≤ 99 / 100 * (exactLength m * exactLength d)

end Spec

open Spec Fl

namespace SmoothF
open NoPanic VecF TriF TrF FrameF

/-- A computed vector product is perpendicular to its second factor, and as long as it should be, up to rounding. -/
theorem cross_facts {a1 a2 a3 b1 b2 b3 p1 p2 p3 : ℝ} (ha1 : |a1| ≤ 1001 / 1000) (ha2 : |a2| ≤ 1001 / 1000) (ha3 : |a3| ≤ 1001 / 1000)
    (hb1 : |b1| ≤ 1001 / 1000) (hb2 : |b2| ≤ 1001 / 1000) (hb3 : |b3| ≤ 1001 / 1000)
    (h1 : |p1 - (a2 * b3 - a3 * b2)| ≤ 7 / 2 ^ 24) (h2 : |p2 - (a3 * b1 - a1 * b3)| ≤ 7 / 2 ^ 24) (h3 : |p3 - (a1 * b2 - a2 * b1)| ≤ 7 / 2 ^ 24) :
    |b1 * p1 + b2 * p2 + b3 * p3| ≤ 22 / 2 ^ 24 ∧
    (a1 * a1 + a2 * a2 + a3 * a3) * (b1 * b1 + b2 * b2 + b3 * b3) - (a1 * b1 + a2 * b2 + a3 * b3) ^ 2 - 100 / 2 ^ 24 ≤ p1 * p1 + p2 * p2 + p3 * p3 := by
  obtain ⟨E1, hE1⟩ : ∃ E, E = a2 * b3 - a3 * b2 := ⟨_, rfl⟩
  obtain ⟨E2, hE2⟩ : ∃ E, E = a3 * b1 - a1 * b3 := ⟨_, rfl⟩
  obtain ⟨E3, hE3⟩ : ∃ E, E = a1 * b2 - a2 * b1 := ⟨_, rfl⟩
  have size : ∀ {x y z w : ℝ}, |x| ≤ 1001 / 1000 → |y| ≤ 1001 / 1000 → |z| ≤ 1001 / 1000 → |w| ≤ 1001 / 1000 → |x * y - z * w| ≤ 201 / 100 := by
    intro x y z w hx hy hz hw
    refine (abs_sub _ _).trans ((add_le_add (mul_abs_le hx hy) (mul_abs_le hz hw)).trans (by norm_num))
  have s1 := size ha2 hb3 ha3 hb2
  have s2 := size ha3 hb1 ha1 hb3
  have s3 := size ha1 hb2 ha2 hb1
  rw [← hE1] at h1 s1
  rw [← hE2] at h2 s2
  rw [← hE3] at h3 s3
  have z : b1 * E1 + b2 * E2 + b3 * E3 = 0 := by rw [hE1, hE2, hE3]; ring
  have q : (a1 * a1 + a2 * a2 + a3 * a3) * (b1 * b1 + b2 * b2 + b3 * b3) - (a1 * b1 + a2 * b2 + a3 * b3) ^ 2 = E1 * E1 + E2 * E2 + E3 * E3 := by rw [hE1, hE2, hE3]; ring
  constructor
  · rw [show b1 * p1 + b2 * p2 + b3 * p3 = b1 * (p1 - E1) + b2 * (p2 - E2) + b3 * (p3 - E3) by linear_combination z]
    have m1 := mul_abs_le hb1 h1
    have m2 := mul_abs_le hb2 h2
    have m3 := mul_abs_le hb3 h3
    refine (abs_add_le _ _).trans ((add_le_add_left (abs_add_le _ _) _).trans ((add_le_add (add_le_add m1 m2) m3).trans (by norm_num)))
  · rw [q]
    have m1 := abs_le.1 (mul_abs_le s1 h1)
    have m2 := abs_le.1 (mul_abs_le s2 h2)
    have m3 := abs_le.1 (mul_abs_le s3 h3)
    have e : p1 * p1 + p2 * p2 + p3 * p3 = E1 * E1 + E2 * E2 + E3 * E3 + 2 * (E1 * (p1 - E1) + E2 * (p2 - E2) + E3 * (p3 - E3)) + ((p1 - E1) ^ 2 + (p2 - E2) ^ 2 + (p3 - E3) ^ 2) := by ring
    rw [e]
    have r : 0 ≤ (p1 - E1) ^ 2 + (p2 - E2) ^ 2 + (p3 - E3) ^ 2 := by positivity
    norm_num at m1 m2 m3 ⊢
    linarith [m1.1, m2.1, m3.1]

/-- What is used of a computed unit vector. -/
theorem unit_facts [Libm F32] (hl : AccurateSqrt) {v : V3 F32} (hv : UpTo3 53 v) (hs : NotTiny v) :
    UpTo3 1 v.normalize ∧ |exactDot v.normalize v.normalize - 1| ≤ 9 / 2 ^ 24 ∧ 0 < exactLength v ∧
    (|(v.normalize.x.val : ℝ)| ≤ 1001 / 1000 ∧ |(v.normalize.y.val : ℝ)| ≤ 1001 / 1000 ∧ |(v.normalize.z.val : ℝ)| ≤ 1001 / 1000) ∧
    ∀ a, |((v.normalize.get a).val : ℝ) - (v.get a).val / exactLength v| ≤ 5 / 2 ^ 24 ∧ |((v.get a).val : ℝ) / exactLength v| ≤ 1 := by
  obtain ⟨-, hn, n2⟩ := c120_normalize hl hv hs
  obtain ⟨-, l0, -⟩ := length_near hl hv hs
  have n2' : |exactDot v.normalize v.normalize - 1| ≤ 9 / 2 ^ 24 := by
    unfold exactDot
    simpa only [pow_two] using n2
  have u := unit_coords n2' (by norm_num)
  have up : ∀ {r : F32}, Num r → |(r.val : ℝ)| ≤ 1001 / 1000 → UpTo 1 r := fun hr h => ⟨hr, by
    have : |(_ : ℝ)| ≤ ((2 ^ 1 : ℚ) : ℝ) := h.trans (by norm_num)
    exact_mod_cast this⟩
  refine ⟨⟨up (hn .X).1 u.1, up (hn .Y).1 u.2.1, up (hn .Z).1 u.2.2⟩, n2', l0, u, fun a => ?_⟩
  have c : |((v.get a).val : ℝ) / exactLength v| ≤ 1 := by
    rw [abs_div, abs_of_pos l0, div_le_one l0]
    have := coord_le_length l0.le (exactLength_sq v)
    cases a
    exacts [this.1, this.2.1, this.2.2]
  refine ⟨(hn a).2.trans ?_, c⟩
  calc _ ≤ (1 : ℝ) * (4 / 2 ^ 24) + 1 / 2 ^ 150 := by gcongr
    _ ≤ 5 / 2 ^ 24 := by norm_num

/-- The inner product with a computed unit vector. -/
theorem dot_unit {x y z u v w X Y Z U V W : ℝ} (x5 : |x - X| ≤ 5 / 2 ^ 24) (y5 : |y - Y| ≤ 5 / 2 ^ 24) (z5 : |z - Z| ≤ 5 / 2 ^ 24) (u5 : |u - U| ≤ 5 / 2 ^ 24)
    (v5 : |v - V| ≤ 5 / 2 ^ 24) (w5 : |w - W| ≤ 5 / 2 ^ 24) (X1 : |X| ≤ 1) (Y1 : |Y| ≤ 1) (Z1 : |Z| ≤ 1) (u1 : |u| ≤ 1001 / 1000) (v1 : |v| ≤ 1001 / 1000) (w1 : |w| ≤ 1001 / 1000) :
    |(x * u + y * v + z * w) - (X * U + Y * V + Z * W)| ≤ 31 / 2 ^ 24 := by
  have term : ∀ {x u X U : ℝ}, |x - X| ≤ 5 / 2 ^ 24 → |u - U| ≤ 5 / 2 ^ 24 → |X| ≤ 1 → |u| ≤ 1001 / 1000 → |x * u - X * U| ≤ 101 / 10 / 2 ^ 24 := by
    intro x u X U h1 h2 h3 h4
    rw [show x * u - X * U = (x - X) * u + X * (u - U) by ring]
    exact (abs_add_le _ _).trans ((add_le_add (mul_abs_le h1 h4) (mul_abs_le h3 h2)).trans (by norm_num))
  rw [show (x * u + y * v + z * w) - (X * U + Y * V + Z * W) = (x * u - X * U) + (y * v - Y * V) + (z * w - Z * W) by ring]
  exact (abs_add_le _ _).trans ((add_le_add_left (abs_add_le _ _) _).trans ((add_le_add (add_le_add (term x5 u5 X1 u1) (term y5 v5 Y1 v1)) (term z5 w5 Z1 w1)).trans (by norm_num)))

/-- A computed vector product of two nearly unit vectors. -/
theorem cross_near {v w : V3 F32} (hv : UpTo3 1 v) (hw : UpTo3 1 w) (v1 : |(v.x.val : ℝ)| ≤ 1001 / 1000 ∧ |(v.y.val : ℝ)| ≤ 1001 / 1000 ∧ |(v.z.val : ℝ)| ≤ 1001 / 1000)
    (w1 : |(w.x.val : ℝ)| ≤ 1001 / 1000 ∧ |(w.y.val : ℝ)| ≤ 1001 / 1000 ∧ |(w.z.val : ℝ)| ≤ 1001 / 1000) :
    UpTo3 3 (v.cross w) ∧ |exactDot w (v.cross w)| ≤ 22 / 2 ^ 24 ∧ exactDot v v * exactDot w w - exactDot v w ^ 2 - 100 / 2 ^ 24 ≤ exactLength (v.cross w) ^ 2 := by
  obtain ⟨-, ⟨-, e1⟩, ⟨-, e2⟩, -, e3⟩ := c120_products (UpTo3.mono hv (show 1 ≤ 60 by omega)) (UpTo3.mono hw (show 1 ≤ 60 by omega))
  have b : ∀ {x y z t : ℝ}, |x| ≤ 1001 / 1000 → |y| ≤ 1001 / 1000 → |z| ≤ 1001 / 1000 → |t| ≤ 1001 / 1000 → (|x * y| + |z * t|) * (3 / 2 ^ 24) + 1 / 2 ^ 147 ≤ 7 / 2 ^ 24 := by
    intro x y z t hx hy hz ht
    calc _ ≤ (1001 / 1000 * (1001 / 1000) + 1001 / 1000 * (1001 / 1000) : ℝ) * (3 / 2 ^ 24) + 1 / 2 ^ 147 := by
          gcongr
          exacts [mul_abs_le hx hy, mul_abs_le hz ht]
      _ ≤ 7 / 2 ^ 24 := by norm_num
  obtain ⟨h1, h2⟩ := cross_facts v1.1 v1.2.1 v1.2.2 w1.1 w1.2.1 w1.2.2 (e1.trans (b v1.2.1 w1.2.2 v1.2.2 w1.2.1)) (e2.trans (b v1.2.2 w1.1 v1.1 w1.2.2)) (e3.trans (b v1.1 w1.2.1 v1.2.1 w1.1))
  refine ⟨upTo3_cross (m := 1) (n := 1) (by omega) hv hw, h1, ?_⟩
  rw [exactLength_sq]
  unfold exactDot
  rw [pow_two ((v.cross w).x.val : ℝ), pow_two ((v.cross w).y.val : ℝ), pow_two ((v.cross w).z.val : ℝ)]
  exact h2

/-- Normal and tangent from an interpolated normal `m` and the tangent `d` of the triangle. -/
theorem smooth_frame [Libm F32] (hl : AccurateSqrt) {m d : V3 F32} (h : Apart m d) :
    (0 : ℚ) < m.length.val ∧ Num m.length ∧ (0 : ℚ) < (d.normalize.cross m.normalize).length.val ∧ Num (d.normalize.cross m.normalize).length ∧
    UpTo3 1 m.normalize ∧ |exactDot m.normalize m.normalize - 1| ≤ 1 / 2 ^ 20 ∧
    UpTo3 53 ((d.normalize.cross m.normalize).normalize.cross m.normalize) ∧ NotTiny ((d.normalize.cross m.normalize).normalize.cross m.normalize) ∧
    |exactDot m.normalize ((d.normalize.cross m.normalize).normalize.cross m.normalize)| ≤ 1 / 2 ^ 19 * exactLength ((d.normalize.cross m.normalize).normalize.cross m.normalize) := by
  obtain ⟨hm, tm, hd, td, hang⟩ := h
  obtain ⟨um, m2, lm, m1, mn⟩ := unit_facts hl hm tm
  obtain ⟨ud, d2, ld, d1, dn⟩ := unit_facts hl hd td
  obtain ⟨nlm, -, elm⟩ := length_near hl hm tm
  -- the angle between the unit vectors
  have ang : |exactDot d.normalize m.normalize| ≤ 991 / 1000 := by
    have k := dot_unit (dn .X).1 (dn .Y).1 (dn .Z).1 (mn .X).1 (mn .Y).1 (mn .Z).1 (dn .X).2 (dn .Y).2 (dn .Z).2 m1.1 m1.2.1 m1.2.2
    have e : ((d.get .X).val : ℝ) / exactLength d * (((m.get .X).val : ℝ) / exactLength m) + ((d.get .Y).val : ℝ) / exactLength d * (((m.get .Y).val : ℝ) / exactLength m) +
        ((d.get .Z).val : ℝ) / exactLength d * (((m.get .Z).val : ℝ) / exactLength m) = exactDot m d / (exactLength m * exactLength d) := by
      unfold exactDot
      simp only [V3.get]
      field_simp
    rw [e] at k
    have k2 : |exactDot m d / (exactLength m * exactLength d)| ≤ 99 / 100 := by
      rw [abs_div, abs_of_pos (mul_pos lm ld), div_le_iff₀ (mul_pos lm ld)]
      exact hang
    have k3 : |exactDot d.normalize m.normalize - exactDot m d / (exactLength m * exactLength d)| ≤ 31 / 2 ^ 24 := k
    have := abs_add_le (exactDot d.normalize m.normalize - exactDot m d / (exactLength m * exactLength d)) (exactDot m d / (exactLength m * exactLength d))
    rw [sub_add_cancel] at this
    norm_num at k3
    linarith
  have a1 := abs_le.1 m2
  have a2 := abs_le.1 d2
  have prod : ∀ {s t : ℝ}, |s - 1| ≤ 9 / 2 ^ 24 → |t - 1| ≤ 9 / 2 ^ 24 → 1 - 19 / 2 ^ 24 ≤ s * t := by
    intro s t hs ht
    have := abs_le.1 (mul_abs_le hs ht)
    have h1 := abs_le.1 hs
    have h2 := abs_le.1 ht
    have e : s * t = (s - 1) * (t - 1) + (s - 1) + (t - 1) + 1 := by ring
    rw [e]
    norm_num at this h1 h2 ⊢
    linarith [this.1, h1.1, h2.1]
  -- the first product
  obtain ⟨uc, pc, lc⟩ := cross_near ud um d1 m1
  have lc' : (1 / 8 : ℝ) ≤ exactLength (d.normalize.cross m.normalize) := by
    refine le_of_sq_le_sq ?_ (exactLength_nonneg _)
    have p := prod d2 m2
    have q : exactDot d.normalize m.normalize ^ 2 ≤ (991 / 1000) ^ 2 := by
      rw [← sq_abs]; exact pow_le_pow_left₀ (abs_nonneg _) ang 2
    norm_num at p q lc ⊢
    linarith
  have tc : NotTiny (d.normalize.cross m.normalize) := long_notTiny (le_trans (by norm_num) lc')
  have uc' : UpTo3 53 (d.normalize.cross m.normalize) := UpTo3.mono uc (by omega)
  obtain ⟨nlc, -, elc⟩ := length_near hl uc' tc
  obtain ⟨uv, v2, lv, v1, vn⟩ := unit_facts hl uc' tc
  -- perpendicular to the normal
  have vp : |exactDot (d.normalize.cross m.normalize).normalize m.normalize| ≤ 1 / 1000 := by
    generalize d.normalize.cross m.normalize = c at *
    generalize m.normalize = n at *
    have e : exactDot c.normalize n = exactDot n c / exactLength c + ((n.x.val : ℝ) * (c.normalize.x.val - c.x.val / exactLength c) + n.y.val * (c.normalize.y.val - c.y.val / exactLength c) +
        n.z.val * (c.normalize.z.val - c.z.val / exactLength c)) := by
      unfold exactDot; ring
    have r1 : |exactDot n c / exactLength c| ≤ 22 / 2 ^ 24 * 8 := by
      rw [abs_div, abs_of_pos lv, div_le_iff₀ lv]
      calc |exactDot n c| ≤ 22 / 2 ^ 24 := pc
        _ = 22 / 2 ^ 24 * 8 * (1 / 8) := by norm_num
        _ ≤ 22 / 2 ^ 24 * 8 * exactLength c := by gcongr
    have t1 := mul_abs_le m1.1 (vn .X).1
    have t2 := mul_abs_le m1.2.1 (vn .Y).1
    have t3 := mul_abs_le m1.2.2 (vn .Z).1
    rw [e]
    refine (abs_add_le _ _).trans ((add_le_add r1 ((abs_add_le _ _).trans ((add_le_add_left (abs_add_le _ _) _).trans (add_le_add (add_le_add t1 t2) t3)))).trans (by norm_num))
  -- the second product
  obtain ⟨up, pp, lp⟩ := cross_near uv um v1 m1
  have lp' : (9 / 10 : ℝ) ≤ exactLength ((d.normalize.cross m.normalize).normalize.cross m.normalize) := by
    refine le_of_sq_le_sq ?_ (exactLength_nonneg _)
    have p := prod v2 m2
    have q : exactDot (d.normalize.cross m.normalize).normalize m.normalize ^ 2 ≤ (1 / 1000) ^ 2 := by
      rw [← sq_abs]; exact pow_le_pow_left₀ (abs_nonneg _) vp 2
    norm_num at p q lp ⊢
    linarith
  have pos : ∀ {x : F32} {l : ℝ}, 0 < l → |(x.val : ℝ) - l| ≤ l * (27 / 10 / 2 ^ 24) → (0 : ℚ) < x.val := by
    intro x l l0 h
    have := (abs_le.1 h).1
    have h' : (0 : ℝ) < x.val := by norm_num at this; linarith
    exact_mod_cast h'
  refine ⟨pos lm elm, nlm, pos lv elc, nlc, um, m2.trans (by norm_num), UpTo3.mono up (by omega), long_notTiny (le_trans (by norm_num) lp'), pp.trans ?_⟩
  calc (22 / 2 ^ 24 : ℝ) ≤ 1 / 2 ^ 19 * (9 / 10) := by norm_num
    _ ≤ _ := by gcongr

end SmoothF

open SmoothF FrameF NoPanic in
/-- **C122** (triangles with vertex normals).  Every hit that the code reports on such a triangle is the point with three weights; if the normal interpolated with them is neither
tiny nor within about eight degrees of the tangent of the triangle, then the reported normal and tangent are perpendicular up to `2 ^ -19`, and directions survive the way into
the shading frame and back up to `2 ^ -14`. -/
theorem c122_smooth_triangle [Libm F32] (hl : AccurateSqrt) (s : Triangle F32) (n0 n1 n2 : V3 F32) (hv : s.vertexNormals = some (n0, n1, n2)) (ray : Ray F32) (i : Interaction F32) (t : F32)
    (h : s.intersect ray = some (some (i, t))) :
    (∃ b0 b1 b2, i = s.interactionAt ray.direction b0 b1 b2) ∧
    ∀ b0 b1 b2, i = s.interactionAt ray.direction b0 b1 b2 → Apart (mixedNormal n0 n1 n2 b0 b1 b2) s.partials.1 →
      SteadyFrame (1 / 2 ^ 19) i ∧
      ∀ (bs : List (BxDF F32)) (v : V3 F32), UpTo3 0 v → ∀ a, let b := { BSDF.new i with bxdfs := bs }
        |(((b.localToWorld (b.worldToLocal v)).get a).val : ℝ) - (v.get a).val| ≤ 1 / 2 ^ 14 := by
  refine ⟨?_, fun b0 b1 b2 e ha => ?_⟩
  · obtain ⟨o, d, tm⟩ := ray
    rw [Triangle.intersect_eq] at h
    cases hm : d.maxAbsAxis with
    | none => rw [hm] at h; cases h
    | some m =>
      rw [hm] at h
      simp only [Option.map_some, Option.some.injEq] at h
      split_ifs at h
      simp only [Option.some.injEq, Prod.mk.injEq] at h
      exact ⟨_, _, _, h.1.symm⟩
  · have hi : SteadyFrame (1 / 2 ^ 19) i := by
      obtain ⟨l0, nl, c0, nc, hn, n2', hd, ht, hp⟩ := smooth_frame hl ha
      have z := zero_ok
      have t1 : ((mixedNormal n0 n1 n2 b0 b1 b2).length >=. lit 0) = true := (le_ok z.1 nl).2 (by rw [z.2]; exact l0.le)
      have t2 : ((s.partials.1.normalize.cross (mixedNormal n0 n1 n2 b0 b1 b2).normalize).length >. lit 0) = true := (lt_ok z.1 nc).2 (by rw [z.2]; exact c0)
      have sh : ∀ n e, s.shading b0 b1 b2 n s.partials.1 e = ((mixedNormal n0 n1 n2 b0 b1 b2).normalize,
          (s.partials.1.normalize.cross (mixedNormal n0 n1 n2 b0 b1 b2).normalize).normalize.cross (mixedNormal n0 n1 n2 b0 b1 b2).normalize,
          (s.partials.1.normalize.cross (mixedNormal n0 n1 n2 b0 b1 b2).normalize).normalize) := by
        intro n e
        unfold Triangle.shading
        rw [hv]
        change (if ((s.partials.1.normalize.cross (if ((mixedNormal n0 n1 n2 b0 b1 b2).length >=. lit 0) = true then (mixedNormal n0 n1 n2 b0 b1 b2).normalize else n)).length >. lit 0) = true
          then _ else _) = _
        simp only [t1, if_true]
        rw [if_pos t2]
        change ((if ((mixedNormal n0 n1 n2 b0 b1 b2).length >=. lit 0) = true then (mixedNormal n0 n1 n2 b0 b1 b2).normalize else n),
          (s.partials.1.normalize.cross (if ((mixedNormal n0 n1 n2 b0 b1 b2).length >=. lit 0) = true then (mixedNormal n0 n1 n2 b0 b1 b2).normalize else n)).normalize.cross
            (if ((mixedNormal n0 n1 n2 b0 b1 b2).length >=. lit 0) = true then (mixedNormal n0 n1 n2 b0 b1 b2).normalize else n),
          (s.partials.1.normalize.cross (if ((mixedNormal n0 n1 n2 b0 b1 b2).length >=. lit 0) = true then (mixedNormal n0 n1 n2 b0 b1 b2).normalize else n)).normalize) = _
        simp only [t1, if_true]
      obtain ⟨f1, f2, f3⟩ := flip_frame hn n2' hp s.reverseOrientation
      rw [e]
      unfold Triangle.interactionAt
      simp only [sh]
      exact ⟨hd, ht, f1, f2, f3⟩
    refine ⟨hi, fun bs v hv' a => ?_⟩
    exact (c122_round_trip hl (by norm_num) hi bs hv' a).2.trans (by norm_num)

namespace Demo

/-- A tile with three normals that lean away from each other. -/
def curvedTile (mat : Material F32) : Triangle F32 :=
  ⟨⟨f32 0, f32 0, f32 0⟩, ⟨f32 4, f32 0, f32 0⟩, ⟨f32 0, f32 4, f32 0⟩, some (⟨f32 0, f32 0, f32 1⟩, ⟨f32 (1 / 2), f32 0, f32 1⟩, ⟨f32 0, f32 (1 / 2), f32 1⟩), false, mat⟩

end Demo

/-- A ray meets the tile where the weights are 1/2, 1/4, 1/4, and the interpolated normal is far from the tangent. -/
example (mat : Material F32) : letI := Demo.libm32
    AccurateSqrt ∧ (∃ i t, (Demo.curvedTile mat).intersect ⟨⟨f32 1, f32 1, f32 4⟩, ⟨f32 0, f32 0, f32 (-1)⟩, f32 100⟩ = some (some (i, t)) ∧
      i = (Demo.curvedTile mat).interactionAt ⟨f32 0, f32 0, f32 (-1)⟩ (f32 (1 / 2)) (f32 (1 / 4)) (f32 (1 / 4))) ∧
    Apart (mixedNormal ⟨f32 0, f32 0, f32 1⟩ ⟨f32 (1 / 2), f32 0, f32 1⟩ ⟨f32 0, f32 (1 / 2), f32 1⟩ (f32 (1 / 2)) (f32 (1 / 4)) (f32 (1 / 4))) (Demo.curvedTile mat).partials.1 := by
  letI := Demo.libm32
  refine ⟨Demo.libm32_accurate, ?_, ?_⟩
  · have e := Triangle.intersect_eq (Demo.curvedTile mat) ⟨f32 1, f32 1, f32 4⟩ ⟨f32 0, f32 0, f32 (-1)⟩ (f32 100)
    have hm : (⟨f32 0, f32 0, f32 (-1)⟩ : V3 F32).maxAbsAxis = some .Z := by decide +kernel
    rw [hm] at e
    have hs : Triangle.stage (Demo.curvedTile mat) ⟨f32 1, f32 1, f32 4⟩ ⟨f32 0, f32 0, f32 (-1)⟩ .Z =
        Triangle.stageOf (Triangle.rc ⟨f32 1, f32 1, f32 4⟩ ⟨f32 0, f32 0, f32 (-1)⟩ .Z ⟨f32 0, f32 0, f32 0⟩) (Triangle.rc ⟨f32 1, f32 1, f32 4⟩ ⟨f32 0, f32 0, f32 (-1)⟩ .Z ⟨f32 4, f32 0, f32 0⟩)
        (Triangle.rc ⟨f32 1, f32 1, f32 4⟩ ⟨f32 0, f32 0, f32 (-1)⟩ .Z ⟨f32 0, f32 4, f32 0⟩) (Triangle.szOf ⟨f32 0, f32 0, f32 (-1)⟩ .Z) := rfl
    have hr : (Triangle.stage (Demo.curvedTile mat) ⟨f32 1, f32 1, f32 4⟩ ⟨f32 0, f32 0, f32 (-1)⟩ .Z).rejects (f32 100) = false := by
      rw [hs]; decide +kernel
    have h0 : (Triangle.stage (Demo.curvedTile mat) ⟨f32 1, f32 1, f32 4⟩ ⟨f32 0, f32 0, f32 (-1)⟩ .Z).e0 /. (Triangle.stage (Demo.curvedTile mat) ⟨f32 1, f32 1, f32 4⟩ ⟨f32 0, f32 0, f32 (-1)⟩ .Z).det = f32 (1 / 2) := by
      rw [hs]; decide +kernel
    have h1 : (Triangle.stage (Demo.curvedTile mat) ⟨f32 1, f32 1, f32 4⟩ ⟨f32 0, f32 0, f32 (-1)⟩ .Z).e1 /. (Triangle.stage (Demo.curvedTile mat) ⟨f32 1, f32 1, f32 4⟩ ⟨f32 0, f32 0, f32 (-1)⟩ .Z).det = f32 (1 / 4) := by
      rw [hs]; decide +kernel
    have h2 : (Triangle.stage (Demo.curvedTile mat) ⟨f32 1, f32 1, f32 4⟩ ⟨f32 0, f32 0, f32 (-1)⟩ .Z).e2 /. (Triangle.stage (Demo.curvedTile mat) ⟨f32 1, f32 1, f32 4⟩ ⟨f32 0, f32 0, f32 (-1)⟩ .Z).det = f32 (1 / 4) := by
      rw [hs]; decide +kernel
    simp only [Option.map_some, hr, Bool.false_eq_true, if_false, h0, h1, h2] at e
    exact ⟨_, _, e, rfl⟩
  · have e : (Demo.curvedTile mat).partials.1 = ⟨f32 4, f32 0, f32 0⟩ := by
      rw [FrameF.partials_f32]
      show (((V3.sub ⟨f32 0, f32 0, f32 0⟩ ⟨f32 0, f32 4, f32 0⟩).smul ⊖(lit 1)).sub ((V3.sub ⟨f32 4, f32 0, f32 0⟩ ⟨f32 0, f32 4, f32 0⟩).smul ⊖(lit 1))).sdiv (lit 1) = (⟨f32 4, f32 0, f32 0⟩ : V3 F32)
      decide +kernel
    have e' : mixedNormal ⟨f32 0, f32 0, f32 1⟩ ⟨f32 (1 / 2), f32 0, f32 1⟩ ⟨f32 0, f32 (1 / 2), f32 1⟩ (f32 (1 / 2)) (f32 (1 / 4)) (f32 (1 / 4)) = ⟨f32 (1 / 8), f32 (1 / 8), f32 1⟩ := by
      decide +kernel
    have n : ∀ q : ℚ, |q| ≤ 2 ^ 53 → UpTo 53 (f32 q) := fun q h => NoPanic.upTo_ofVal (by omega) h _
    have v0 : (f32 0).val = 0 := by decide +kernel
    have v1 : (f32 1).val = 1 := by decide +kernel
    have v4 : (f32 4).val = 4 := by decide +kernel
    have v8 : (f32 (1 / 8)).val = 1 / 8 := by decide +kernel
    rw [e, e']
    have l4 : exactLength ⟨f32 4, f32 0, f32 0⟩ = 4 := by
      unfold exactLength
      simp only [v0, v4]
      rw [show ((4 : ℚ) : ℝ) ^ 2 + ((0 : ℚ) : ℝ) ^ 2 + ((0 : ℚ) : ℝ) ^ 2 = 4 ^ 2 by norm_num]
      exact Real.sqrt_sq (by norm_num)
    have l1 : (1 : ℝ) ≤ exactLength ⟨f32 (1 / 8), f32 (1 / 8), f32 1⟩ := by
      unfold exactLength
      simp only [v1, v8]
      apply Real.le_sqrt_of_sq_le
      norm_num
    refine ⟨⟨n (1 / 8) (by norm_num [abs_of_pos]), n (1 / 8) (by norm_num [abs_of_pos]), n (1) (by norm_num [abs_of_pos])⟩, Or.inr (Or.inr ?_), ⟨n (4) (by norm_num [abs_of_pos]), n (0) (by norm_num [abs_of_pos]), n (0) (by norm_num [abs_of_pos])⟩, Or.inl ?_, ?_⟩
    · show 1 / 2 ^ 50 ≤ |(f32 1).val|
      rw [v1]; norm_num
    · show 1 / 2 ^ 50 ≤ |(f32 4).val|
      rw [v4]; norm_num [abs_of_pos]
    · unfold exactDot
      simp only [v0, v1, v4, v8]
      rw [l4]
      norm_num [abs_of_pos]
      linarith

end PT
