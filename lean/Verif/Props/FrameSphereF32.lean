import Verif.Props.FrameTriangleF32

/-!
# Shading frames of spheres in single precision (C122)
-/

namespace PT
open Spec Fl

namespace FrameF
open NoPanic VecF TriF

/-- The normal and the tangent of a sphere, both computed, are nearly perpendicular. -/
theorem round_perp {x y z nx ny nz dx dy w L D : ℝ} (w3 : 3 ≤ w) (L0 : 0 < L) (hL : L ^ 2 = x ^ 2 + y ^ 2 + z ^ 2) (D0 : 1 / 2 ^ 42 ≤ D) (hD : D ^ 2 = dx ^ 2 + dy ^ 2 + 0 ^ 2)
    (ex : |nx - x / L| ≤ |x / L| * (4 / 2 ^ 24) + 1 / 2 ^ 150) (ey : |ny - y / L| ≤ |y / L| * (4 / 2 ^ 24) + 1 / 2 ^ 150)
    (fx : |dx - -(2 * w * y)| ≤ 2 * w * |y| * (3 / 2 ^ 24) + 1 / 2 ^ 110) (fy : |dy - 2 * w * x| ≤ 2 * w * |x| * (3 / 2 ^ 24) + 1 / 2 ^ 110) :
    |nx * dx + ny * dy + nz * 0| ≤ 1 / 2 ^ 20 * D := by
  have Dp : 0 < D := lt_of_lt_of_le (by norm_num) D0
  obtain ⟨X1, Y1, -⟩ := coord_le_length L0.le hL
  obtain ⟨D1, D2, -⟩ := coord_le_length Dp.le hD
  have q : ∀ {m : ℝ}, |m| ≤ L → |m / L| ≤ 1 := fun {m} h => by rwa [abs_div, abs_of_pos L0, div_le_one L0]
  have r : ∀ {s d : ℝ}, |s - d| ≤ |d| * (4 / 2 ^ 24) + 1 / 2 ^ 150 → |d| ≤ 1 → |s - d| ≤ 41 / 10 / 2 ^ 24 := fun {s d} h h' => by
    refine h.trans ?_
    calc |d| * (4 / 2 ^ 24) + 1 / 2 ^ 150 ≤ 1 * (4 / 2 ^ 24) + 1 / 2 ^ 150 := by gcongr
      _ ≤ 41 / 10 / 2 ^ 24 := by norm_num
  have g : ∀ {d c u : ℝ}, |d - c| ≤ u * (3 / 2 ^ 24) + 1 / 2 ^ 110 → |c| = u → |d| ≤ D → |d - c| ≤ D * (35 / 10 / 2 ^ 24) := by
    intro d c u h hu hd
    have t := abs_add_le (c - d) d
    rw [sub_add_cancel, abs_sub_comm, hu] at t
    have u0 : 0 ≤ u := hu ▸ abs_nonneg c
    generalize |d - c| = E at *
    generalize |d| = F at *
    norm_num at *
    linarith
  have w0 : 0 ≤ 2 * w := by linarith
  have gx := g fx (by rw [abs_neg, abs_mul, abs_of_nonneg w0]) D1
  have gy := g fy (by rw [abs_mul, abs_of_nonneg w0]) D2
  have p1 := mul_abs_le (r ex (q X1)) D1
  have p2 := mul_abs_le (r ey (q Y1)) D2
  have p3 := mul_abs_le (q X1) gx
  have p4 := mul_abs_le (q Y1) gy
  have e : nx * dx + ny * dy + nz * 0 = (nx - x / L) * dx + (ny - y / L) * dy + (x / L * (dx - -(2 * w * y)) + y / L * (dy - 2 * w * x)) := by ring
  rw [e]
  have t := (abs_add_le _ _).trans (add_le_add ((abs_add_le _ _).trans (add_le_add p1 p2)) ((abs_add_le _ _).trans (add_le_add p3 p4)))
  refine t.trans ?_
  clear t e p1 p2 p3 p4 gx gy
  norm_num at *
  linarith

/-- One coordinate of the tangent. -/
theorem turn_near {c p y : F32} {k : ℝ} (hc : UpTo 1 c) (hp : UpTo 2 p) (hy : UpTo 30 y) (ck : |(c.val : ℝ)| = 2) (p3 : 3 ≤ (p.val : ℝ)) (hk : k = c.val * p.val) :
    UpTo 33 (c *. p *. y) ∧ |((c *. p *. y).val : ℝ) - k * y.val| ≤ 2 * p.val * |(y.val : ℝ)| * (3 / 2 ^ 24) + 1 / 2 ^ 110 := by
  have u1 := upTo_mul (m := 1) (n := 2) (by omega) hc hp
  have u2 := upTo_mul (m := 3) (n := 30) (by omega) u1 hy
  refine ⟨u2, ?_⟩
  have h1 := product_near (m := 1) (n := 2) (by omega) hc hp
  have h2 := product_near (m := 3) (n := 30) (by omega) u1 hy
  have y0 := abs_nonneg (y.val : ℝ)
  have yb : |(y.val : ℝ)| ≤ 2 ^ 30 := by
    have : |(y.val : ℝ)| ≤ ((2 ^ 30 : ℚ) : ℝ) := by exact_mod_cast hy.2
    push_cast at this
    exact this
  have pp : 0 < (p.val : ℝ) := by linarith
  have s1 : |(c.val : ℝ) * p.val| = 2 * p.val := by rw [abs_mul, ck, abs_of_pos pp]
  rw [s1] at h1
  rw [← hk] at h1 s1
  have h3 : |((c *. p).val : ℝ) * y.val - k * y.val| ≤ (2 * p.val / 2 ^ 24 + 1 / 2 ^ 150) * |(y.val : ℝ)| := by
    rw [← sub_mul, abs_mul]; exact mul_le_mul_of_nonneg_right h1 y0
  have h4 : |((c *. p).val : ℝ) * y.val| ≤ (2 * p.val / 2 ^ 24 + 1 / 2 ^ 150) * |(y.val : ℝ)| + 2 * p.val * |(y.val : ℝ)| := by
    have t := abs_add_le (((c *. p).val : ℝ) * y.val - k * y.val) (k * y.val)
    rw [sub_add_cancel, abs_mul k, s1] at t
    linarith
  have t := abs_add_le (((c *. p *. y).val : ℝ) - (c *. p).val * y.val) ((c *. p).val * y.val - k * y.val)
  rw [sub_add_sub_cancel] at t
  refine t.trans ((add_le_add h2 h3).trans ?_)
  clear t h2 h3
  have r1 : (2 * p.val / 2 ^ 24 + 1 / 2 ^ 150) * |(y.val : ℝ)| = p.val * |(y.val : ℝ)| * (2 / 2 ^ 24) + |(y.val : ℝ)| * (1 / 2 ^ 150) := by ring
  have r2 : 2 * p.val * |(y.val : ℝ)| * (3 / 2 ^ 24) = p.val * |(y.val : ℝ)| * (6 / 2 ^ 24) := by ring
  have r3 : 2 * p.val * |(y.val : ℝ)| = p.val * |(y.val : ℝ)| * 2 := by ring
  rw [r1, r3] at h4
  rw [r1, r2]
  have z : 0 ≤ p.val * |(y.val : ℝ)| := mul_nonneg pp.le y0
  generalize p.val * |(y.val : ℝ)| = Z at *
  generalize |(y.val : ℝ)| = Y at *
  generalize |((c *. p).val : ℝ) * y.val| = W at *
  clear r1 r2 r3 h1 s1 ck hk
  norm_num at *
  linarith

/-- The frame at a point of a sphere (in its own coordinates). -/
theorem round_frame [Libm F32] (hl : AccurateSqrt) (hp : UpTo 2 (Libm.pi : F32)) (p3 : 3 ≤ ((Libm.pi : F32).val : ℝ)) {q : V3 F32} (hq : UpTo3 30 q) {n d : V3 F32} (hn : n = q.normalize)
    (hd : d = (Sphere.computePartialDerivative q).1) (ht : 1 / 2 ^ 42 ≤ exactLength d) :
    UpTo3 53 d ∧ NotTiny d ∧ UpTo3 1 n ∧ |exactDot n n - 1| ≤ 1 / 2 ^ 20 ∧ |exactDot n d| ≤ 1 / 2 ^ 20 * exactLength d := by
  have two : UpTo 1 (lit 2 : F32) := upTo_lit (by omega) (by norm_num)
  have twov : (lit 2 : F32).val = 2 := by decide +kernel
  have mtwov : (⊖(lit 2) : F32).val = -2 := by decide +kernel
  obtain ⟨ux, ex⟩ := turn_near (c := ⊖(lit 2)) (upTo_neg two) hp hq.2.1 (by rw [mtwov]; norm_num) p3 rfl
  obtain ⟨uy, ey⟩ := turn_near two hp hq.1 (by rw [twov]; norm_num) p3 rfl
  have z0 : UpTo 53 (lit 0 : F32) := upTo_lit (by omega) (by norm_num)
  have dx : d.x = ⊖(lit 2) *. Libm.pi *. q.y := by rw [hd]; rfl
  have dy : d.y = lit 2 *. Libm.pi *. q.x := by rw [hd]; rfl
  have dz : d.z = lit 0 := by rw [hd]; rfl
  rw [← dx] at ux ex
  rw [← dy] at uy ey
  have dzv : (d.z.val : ℝ) = 0 := by rw [dz, zero_ok.2]; norm_num
  rw [mtwov] at ex
  rw [twov] at ey
  push_cast at ex ey
  have ud : UpTo3 53 d := ⟨UpTo.mono ux (by omega), UpTo.mono uy (by omega), dz ▸ z0⟩
  have nd : NotTiny d := long_notTiny (le_trans (by norm_num) ht)
  have ds := exactLength_sq d
  rw [dzv] at ds
  have p4 : ((Libm.pi : F32).val : ℝ) ≤ 4 := by
    have : |((Libm.pi : F32).val : ℝ)| ≤ ((2 ^ 2 : ℚ) : ℝ) := by exact_mod_cast hp.2
    push_cast at this
    linarith [le_abs_self ((Libm.pi : F32).val : ℝ)]
  -- the point is not tiny, since the tangent is not
  have nq : NotTiny q := by
    by_contra hc
    unfold NotTiny at hc
    push Not at hc
    obtain ⟨h1, h2, -⟩ := hc
    have c : ∀ {x : F32}, |x.val| < 1 / 2 ^ 50 → |(x.val : ℝ)| ≤ 1 / 2 ^ 50 := fun {x} h => by
      have : |(x.val : ℝ)| < ((1 / 2 ^ 50 : ℚ) : ℝ) := by exact_mod_cast h
      push_cast at this
      exact this.le
    have small : ∀ {e y k : ℝ}, |y| ≤ 1 / 2 ^ 50 → |k| ≤ 8 → |e - k * y| ≤ 2 * (Libm.pi : F32).val * |y| * (3 / 2 ^ 24) + 1 / 2 ^ 110 → e ^ 2 ≤ 1 / 2 ^ 90 := by
      intro e y k hy hk h
      have t := abs_add_le (e - k * y) (k * y)
      rw [sub_add_cancel] at t
      have m := mul_abs_le hk hy
      have m' : 2 * ((Libm.pi : F32).val : ℝ) * |y| ≤ 8 * (1 / 2 ^ 50) := mul_le_mul (by linarith) hy (abs_nonneg _) (by norm_num)
      have : |e| ≤ 1 / 2 ^ 46 := by
        generalize |e| = E at *
        generalize |e - k * y| = F at *
        generalize |k * y| = G at *
        generalize 2 * ((Libm.pi : F32).val : ℝ) * |y| = H at *
        clear hy hk ht ds
        norm_num at *
        linarith
      have k := pow_le_pow_left₀ (abs_nonneg _) this 2
      rw [sq_abs] at k
      exact k.trans (by norm_num)
    have k1 := small (c h2) (by rw [abs_mul, abs_neg, abs_of_pos (by norm_num : (0:ℝ) < 2), abs_of_pos (by linarith)]; linarith) ex
    have k2 := small (c h1) (by rw [abs_mul, abs_of_pos (by norm_num : (0:ℝ) < 2), abs_of_pos (by linarith)]; linarith) ey
    have k3 := pow_le_pow_left₀ (by norm_num) ht 2
    rw [ds] at k3
    clear ex ey small
    norm_num at *
    linarith
  have uq : UpTo3 53 q := UpTo3.mono hq (by omega)
  obtain ⟨-, hN, n2⟩ := c120_normalize hl uq nq
  obtain ⟨-, l0, -⟩ := length_near hl uq nq
  rw [← hn] at hN n2
  have n2' : |exactDot n n - 1| ≤ 9 / 2 ^ 24 := by
    unfold exactDot
    simpa only [pow_two] using n2
  obtain ⟨sx1, sy1, sz1⟩ := unit_coords n2' (by norm_num)
  have up : ∀ {r : F32}, Num r → |(r.val : ℝ)| ≤ 1001 / 1000 → UpTo 1 r := fun hr h => ⟨hr, by
    have : |(_ : ℝ)| ≤ ((2 ^ 1 : ℚ) : ℝ) := h.trans (by norm_num)
    exact_mod_cast this⟩
  refine ⟨ud, nd, ⟨up (hN .X).1 sx1, up (hN .Y).1 sy1, up (hN .Z).1 sz1⟩, n2'.trans (by norm_num), ?_⟩
  unfold exactDot
  rw [dzv]
  exact round_perp p3 l0 (exactLength_sq q) ht ds (hN .X).2 (hN .Y).2 (by rw [show -(2 * ((Libm.pi : F32).val : ℝ) * q.y.val) = -2 * (Libm.pi : F32).val * q.y.val by ring]; exact ex) ey

/-- The hit point, scaled to lie on the sphere, is not much larger than the sphere. -/
theorem pull_in [Libm F32] (hl : AccurateSqrt) {p : V3 F32} (hp : UpTo3 53 p) (ht : NotTiny p) {r : F32} (hr : UpTo 20 r) : UpTo3 30 (p.smul (r /. p.length)) := by
  obtain ⟨nl, l0, el⟩ := length_near hl hp ht
  have ls := exactLength_sq p
  obtain ⟨p1, p2, p3⟩ := coord_le_length l0.le ls
  have lb : exactLength p ≤ (p.length.val : ℝ) * (101 / 100) := by
    have := (abs_le.1 el).1
    norm_num at *
    linarith
  have tiny : 1 / 2 ^ 50 ≤ exactLength p := by
    have c : ∀ {x : F32}, 1 / 2 ^ 50 ≤ |x.val| → |(x.val : ℝ)| ≤ exactLength p → 1 / 2 ^ 50 ≤ exactLength p := fun {x} h h' => by
      have : ((1 / 2 ^ 50 : ℚ) : ℝ) ≤ |(x.val : ℝ)| := by exact_mod_cast h
      push_cast at this
      exact this.trans h'
    rcases ht with h | h | h
    · exact c h p1
    · exact c h p2
    · exact c h p3
  have lp : 0 < (p.length.val : ℝ) := by linarith
  have lt : 1 / 2 ^ 51 ≤ (p.length.val : ℝ) := by norm_num at *; linarith
  have lq : 0 < p.length.val := by exact_mod_cast lp
  have rb : |(r.val : ℝ)| ≤ 2 ^ 20 := by
    have : |(r.val : ℝ)| ≤ ((2 ^ 20 : ℚ) : ℝ) := by exact_mod_cast hr.2
    push_cast at this
    exact this
  have uf : UpTo 71 (r /. p.length) := upTo_div (by omega) hr.1 nl lq.ne' (by
    have : |(r.val : ℝ)| ≤ 2 ^ 71 * |(p.length.val : ℝ)| := by
      rw [abs_of_pos lp]
      refine rb.trans ?_
      calc (2 ^ 20 : ℝ) = 2 ^ 71 * (1 / 2 ^ 51) := by norm_num
        _ ≤ _ := by gcongr
    exact_mod_cast this)
  obtain ⟨-, -, he⟩ := div_err hr.1.wf nl.wf nl.fin uf.1.fin
  have he := cast_abs_le he
  unfold ulpHalf tinyHalf at he
  push_cast at he
  have fb : |((r /. p.length).val : ℝ)| * p.length.val ≤ 2 ^ 20 * (11 / 10) + p.length.val * (1 / 2 ^ 150) := by
    have t := abs_add_le (((r /. p.length).val : ℝ) - r.val / p.length.val) (r.val / p.length.val)
    rw [sub_add_cancel] at t
    have g : |(r.val : ℝ) / p.length.val| * p.length.val = |(r.val : ℝ)| := by
      rw [abs_div, abs_of_pos lp, div_mul_cancel₀ _ lp.ne']
    have k : |((r /. p.length).val : ℝ)| ≤ |(r.val : ℝ) / p.length.val| * (11 / 10) + 1 / 2 ^ 150 := by
      have := abs_nonneg ((r.val : ℝ) / p.length.val)
      generalize |(r.val : ℝ) / p.length.val| = G at *
      norm_num at *
      linarith
    calc _ ≤ (|(r.val : ℝ) / p.length.val| * (11 / 10) + 1 / 2 ^ 150) * p.length.val := mul_le_mul_of_nonneg_right k lp.le
      _ = |(r.val : ℝ) / p.length.val| * p.length.val * (11 / 10) + p.length.val * (1 / 2 ^ 150) := by ring
      _ ≤ _ := by rw [g]; linarith
  have lmax : (p.length.val : ℝ) ≤ 2 ^ 60 := by
    have c : ∀ {x : F32}, UpTo 53 x → (x.val : ℝ) ^ 2 ≤ 2 ^ 106 := fun {x} h => by
      have : |(x.val : ℝ)| ≤ ((2 ^ 53 : ℚ) : ℝ) := by exact_mod_cast h.2
      push_cast at this
      have k := pow_le_pow_left₀ (abs_nonneg _) this 2
      rw [sq_abs] at k
      exact k.trans (by norm_num)
    have : exactLength p ≤ 2 ^ 59 := le_of_sq_le_sq (by
      rw [ls]
      refine (add_le_add (add_le_add (c hp.1) (c hp.2.1)) (c hp.2.2)).trans ?_
      norm_num) (by norm_num)
    have := (abs_le.1 el).2
    clear fb he el ls
    norm_num at *
    linarith
  have one : ∀ {x : F32}, UpTo 53 x → |(x.val : ℝ)| ≤ exactLength p → UpTo 30 (x *. (r /. p.length)) := by
    intro x hx hxl
    obtain ⟨zs, e⟩ := mul_val hx.1 uf.1
    rw [e]
    refine upTo_ofVal (by omega) ?_ _
    have : |(x.val : ℝ) * (r /. p.length).val| ≤ 2 ^ 30 := by
      rw [abs_mul]
      have f0 := abs_nonneg ((r /. p.length).val : ℝ)
      calc |(x.val : ℝ)| * |((r /. p.length).val : ℝ)| ≤ (p.length.val * (101 / 100)) * |((r /. p.length).val : ℝ)| := mul_le_mul_of_nonneg_right (hxl.trans lb) f0
        _ = |((r /. p.length).val : ℝ)| * p.length.val * (101 / 100) := by ring
        _ ≤ (2 ^ 20 * (11 / 10) + p.length.val * (1 / 2 ^ 150)) * (101 / 100) := by gcongr
        _ ≤ (2 ^ 20 * (11 / 10) + 2 ^ 60 * (1 / 2 ^ 150)) * (101 / 100) := by gcongr
        _ ≤ 2 ^ 30 := by norm_num
    exact_mod_cast this
  exact ⟨one hp.1 p1, one hp.2.1 p2, one hp.2.2 p3⟩

end FrameF

open FrameF NoPanic in
/-- **C122** (spheres).  Every hit that the code reports on a sphere, away from its poles, where the tangent vanishes (C74), has normal and tangent perpendicular up to `2 ^ -20`, and directions survive the way into
its shading frame and back up to `2 ^ -14`. -/
theorem c122_sphere [Libm F32] [Libm F64] (hl : AccurateSqrt) (hp : UpTo 2 (Libm.pi : F32)) (p3 : 3 ≤ ((Libm.pi : F32).val : ℝ)) (s : Sphere F32) (ray : Ray F32) (i : Interaction F32) (t : F32)
    (h : s.intersect ray = some (i, t))
    (hr : UpTo 20 s.radius) (hq : UpTo3 53 (Ray.position { ray with origin := s.worldToLocal ray.origin } t)) (hq' : NotTiny (Ray.position { ray with origin := s.worldToLocal ray.origin } t)) (ht : 1 / 2 ^ 42 ≤ exactLength i.dpdu) :
    SteadyFrame (1 / 2 ^ 20) i ∧
    ∀ (bs : List (BxDF F32)) (v : V3 F32), UpTo3 0 v → ∀ a, let b := { BSDF.new i with bxdfs := bs }
      |(((b.localToWorld (b.worldToLocal v)).get a).val : ℝ) - (v.get a).val| ≤ 1 / 2 ^ 14 := by
  have hi : SteadyFrame (1 / 2 ^ 20) i := by
    unfold Sphere.intersect at h
    simp only [Option.map_eq_some_iff] at h
    obtain ⟨t', -, e⟩ := h
    unfold Sphere.computeInteraction at e
    rw [Prod.mk.injEq] at e
    obtain ⟨e1, e2⟩ := e
    subst e2
    subst e1
    exact round_frame hl hp p3 (pull_in hl hq hq' hr) rfl rfl ht
  refine ⟨hi, fun bs v hv' a => ?_⟩
  exact (c122_round_trip hl (by norm_num) hi bs hv' a).2.trans (by norm_num)

namespace Demo

/-- A ray that meets the unit ball from the side. -/
def sideRay : Ray F32 := ⟨⟨f32 2, f32 0, f32 0⟩, ⟨f32 (-1), f32 0, f32 0⟩, f32 100⟩

end Demo

/-- The unit ball, hit from the side, meets the conditions. -/
example [Libm F64] (h4 : Libm.sqrt (lit 4 : F64) = lit 2) (mat : Material F32) : letI := Demo.libm32
    AccurateSqrt ∧ UpTo 2 (Libm.pi : F32) ∧ 3 ≤ ((Libm.pi : F32).val : ℝ) ∧ ∃ i t, (Demo.ball mat 0).intersect Demo.sideRay = some (i, t) ∧ UpTo 20 (Demo.ball mat 0).radius ∧
      UpTo3 53 (Ray.position { Demo.sideRay with origin := (Demo.ball mat 0).worldToLocal Demo.sideRay.origin } t) ∧
      NotTiny (Ray.position { Demo.sideRay with origin := (Demo.ball mat 0).worldToLocal Demo.sideRay.origin } t) ∧ 1 / 2 ^ 42 ≤ exactLength i.dpdu := by
  letI := Demo.libm32
  have h1 : Libm.sqrt (lit 1 : F32) = lit 1 := by
    change Demo.sqrt32 (lit 1) = lit 1
    unfold Demo.sqrt32; rw [if_pos rfl]
  have n : ∀ (k : ℕ) (q : ℚ), k ≤ 126 → |q| ≤ 2 ^ k → UpTo k (lit q : F32) := fun k q hk h => NoPanic.upTo_lit hk h
  have hpi : (Libm.pi : F32) = lit 3 := rfl
  have pv : (lit 3 : F32).val = 3 := by decide +kernel
  have ho : ({ Demo.sideRay with origin := (Demo.ball mat 0).worldToLocal Demo.sideRay.origin } : Ray F32) = ⟨⟨f32 2, f32 0, f32 0⟩, ⟨f32 (-1), f32 0, f32 0⟩, f32 100⟩ := by
    change (⟨⟨f32 2 +. ⊖(f32 0), f32 0 +. ⊖(f32 0), f32 0 +. ⊖(f32 0)⟩, _, _⟩ : Ray F32) = _
    rw [show f32 2 +. ⊖(f32 0) = f32 2 by decide +kernel, show f32 0 +. ⊖(f32 0) = f32 0 by decide +kernel]
    rfl
  have hpos : (⟨⟨f32 2, f32 0, f32 0⟩, ⟨f32 (-1), f32 0, f32 0⟩, f32 100⟩ : Ray F32).position (f32 1) = ⟨f32 1, f32 0, f32 0⟩ := by
    change (⟨f32 2 +. f32 (-1) *. f32 1, f32 0 +. f32 0 *. f32 1, f32 0 +. f32 0 *. f32 1⟩ : V3 F32) = _
    rw [V3.mk.injEq]; refine ⟨?_, ?_, ?_⟩ <;> decide +kernel
  have hhit : (Demo.ball mat 0).hasIntersection ⟨⟨f32 2, f32 0, f32 0⟩, ⟨f32 (-1), f32 0, f32 0⟩, f32 100⟩ = some (f32 1) := by
    unfold Sphere.hasIntersection
    have ea : (Widen.up (f32 (-1)) : F64) *. Widen.up (f32 (-1)) +. Widen.up (f32 0) *. Widen.up (f32 0) +. Widen.up (f32 0) *. Widen.up (f32 0) = lit 1 := by
      decide +kernel
    have eb : (lit 2 : F64) *. ((Widen.up (f32 (-1)) : F64) *. Widen.up (f32 2) +. Widen.up (f32 0) *. Widen.up (f32 0) +. Widen.up (f32 0) *. Widen.up (f32 0)) =
        lit (-4) := by decide +kernel
    have ec : (Widen.up (f32 2) : F64) *. Widen.up (f32 2) +. Widen.up (f32 0) *. Widen.up (f32 0) +. Widen.up (f32 0) *. Widen.up (f32 0) -.
        Widen.up (f32 1) *. Widen.up (f32 1) = lit 3 := by decide +kernel
    simp only [Demo.ball, ea, eb, ec, Demo.ball_quadratic h4]
    decide +kernel
  have hlen : (⟨f32 1, f32 0, f32 0⟩ : V3 F32).length = f32 1 := by
    unfold V3.length
    have : f32 1 *. f32 1 +. f32 0 *. f32 0 +. f32 0 *. f32 0 = lit 1 := by decide +kernel
    rw [this, h1]; rfl
  refine ⟨Demo.libm32_accurate, n 2 3 (by omega) (by norm_num [abs_of_pos]), by rw [hpi, pv]; norm_num, ((Demo.ball mat 0).computeInteraction ⟨⟨f32 2, f32 0, f32 0⟩, ⟨f32 (-1), f32 0, f32 0⟩, f32 100⟩ (f32 1)).1, f32 1, ?_, n 20 1 (by omega) (by norm_num), ?_, ?_, ?_⟩
  · unfold Sphere.intersect
    rw [ho]
    simp only [hhit, Option.map_some]
    rfl
  · rw [ho, hpos]
    exact ⟨n 53 1 (by omega) (by norm_num), n 53 0 (by omega) (by norm_num), n 53 0 (by omega) (by norm_num)⟩
  · rw [ho, hpos]
    exact Or.inl (by decide +kernel)
  · have hy : (((Demo.ball mat 0).computeInteraction ⟨⟨f32 2, f32 0, f32 0⟩, ⟨f32 (-1), f32 0, f32 0⟩, f32 100⟩ (f32 1)).1.dpdu).y = lit 6 := by
      change lit 2 *. (lit 3 : F32) *. ((Ray.position (⟨⟨f32 2, f32 0, f32 0⟩, ⟨f32 (-1), f32 0, f32 0⟩, f32 100⟩ : Ray F32) (f32 1)).smul
        (f32 1 /. (Ray.position (⟨⟨f32 2, f32 0, f32 0⟩, ⟨f32 (-1), f32 0, f32 0⟩, f32 100⟩ : Ray F32) (f32 1)).length)).x = _
      rw [hpos, hlen]
      decide +kernel
    generalize ((Demo.ball mat 0).computeInteraction ⟨⟨f32 2, f32 0, f32 0⟩, ⟨f32 (-1), f32 0, f32 0⟩, f32 100⟩ (f32 1)).1.dpdu = d at *
    have k := (FrameF.coord_le_length (FrameF.exactLength_nonneg d) (FrameF.exactLength_sq d)).2.1
    rw [hy, show (lit 6 : F32).val = 6 by decide +kernel] at k
    refine le_trans ?_ k
    norm_num

end PT
