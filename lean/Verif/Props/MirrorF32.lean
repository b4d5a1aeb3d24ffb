import Verif.Props.FrameF32
import Verif.Props.ReflectF32

/-!
# The direction a mirror sends light in, in single precision (C53)
-/

namespace PT
open Spec Fl

namespace MirrorF
open NoPanic VecF TriF TrF FrameF

/-- Into the frame, mirrored there, and back. -/
theorem mirrored {b : BSDF F32} {g : ℝ} (h : Axes b.s b.t b.sn g) (hg : g ≤ 1 / 10) {v : V3 F32} (hv : UpTo3 0 v) (a : Axis) :
    Num ((b.localToWorld ⟨⊖(b.worldToLocal v).x, ⊖(b.worldToLocal v).y, (b.worldToLocal v).z⟩).get a) ∧
    |(((b.localToWorld ⟨⊖(b.worldToLocal v).x, ⊖(b.worldToLocal v).y, (b.worldToLocal v).z⟩).get a).val : ℝ) - (2 * exactDot v b.sn * (b.sn.get a).val - (v.get a).val)| ≤ 214 / 2 ^ 24 + 62 / 10 * g := by
  obtain ⟨us, ut, un, s2, n2, sn, tx, ty, tz⟩ := h
  have one : ∀ {r : F32}, UpTo 0 r → |(r.val : ℝ)| ≤ 1 := fun h => by
    have := h.2
    rw [pow_zero] at this
    exact_mod_cast this
  have v1 := one hv.1
  have v2 := one hv.2.1
  have v3 := one hv.2.2
  obtain ⟨sx1, sy1, sz1⟩ := unit_coords s2 (by norm_num)
  obtain ⟨nx1, ny1, nz1⟩ := unit_coords n2 (by norm_num)
  obtain ⟨cx1, cy1, cz1⟩ := cross_coords n2 s2
  have tb : ∀ {t c : ℝ}, |t - c| ≤ 61 / 10 / 2 ^ 24 → |c| ≤ 1001 / 1000 → |t| ≤ 1002 / 1000 := fun {t c} h h' => by
    have := abs_add_le (t - c) c
    rw [sub_add_cancel] at this
    exact this.trans ((add_le_add h h').trans (by norm_num))
  have tx1 := tb tx cx1
  have ty1 := tb ty cy1
  have tz1 := tb tz cz1
  obtain ⟨ds, ds'⟩ := dot3 v1 v2 v3 sx1 sy1 sz1
  obtain ⟨dt, dt'⟩ := dot3 v1 v2 v3 tx1 ty1 tz1
  obtain ⟨dn, dn'⟩ := dot3 v1 v2 v3 nx1 ny1 nz1
  obtain ⟨-, dc⟩ := dot3 v1 v2 v3 cx1 cy1 cz1
  obtain ⟨-, dd⟩ := dot3 v1 v2 v3 tx ty tz
  have m3 : ∀ {w : V3 F32} {k : ℕ}, k ≤ 60 → UpTo3 k w → UpTo3 60 w := fun hk h => UpTo3.mono h hk
  have lx := (c120_products (m3 (by omega) hv) (m3 (by omega) us)).1
  have ly := (c120_products (m3 (by omega) hv) (m3 (by omega) ut)).1
  have lz := (c120_products (m3 (by omega) hv) (m3 (by omega) un)).1
  have ul : ∀ {w : V3 F32}, UpTo3 1 w → UpTo 10 (v.dot w) := fun h => UpTo.mono (upTo_dot (m := 0) (n := 1) (by omega) hv h) (by omega)
  set sv : ℝ := v.x.val * b.s.x.val + v.y.val * b.s.y.val + v.z.val * b.s.z.val with hsv
  set nv : ℝ := v.x.val * b.sn.x.val + v.y.val * b.sn.y.val + v.z.val * b.sn.z.val with hnv
  set tv : ℝ := v.x.val * (b.sn.y.val * b.s.z.val - b.sn.z.val * b.s.y.val) + v.y.val * (b.sn.z.val * b.s.x.val - b.sn.x.val * b.s.z.val) +
    v.z.val * (b.sn.x.val * b.s.y.val - b.sn.y.val * b.s.x.val) with htv
  have fin : ∀ {S E : ℝ}, S ≤ 3 * (1002 / 1000) → E ≤ S * (4 / 2 ^ 24) + 1 / 2 ^ 147 → E ≤ 122 / 10 / 2 ^ 24 := fun {S E} h h' => by
    norm_num at *; linarith
  have ex := fin (ds.trans (by norm_num)) lx.2
  have ez := fin (dn.trans (by norm_num)) lz.2
  have ey0 := fin dt ly.2
  have ey : |((v.dot b.t).val : ℝ) - tv| ≤ 31 / 2 ^ 24 := by
    have e : ((v.dot b.t).val : ℝ) - tv = ((v.dot b.t).val - (v.x.val * b.t.x.val + v.y.val * b.t.y.val + v.z.val * b.t.z.val)) +
        (v.x.val * (b.t.x.val - (b.sn.y.val * b.s.z.val - b.sn.z.val * b.s.y.val)) + v.y.val * (b.t.y.val - (b.sn.z.val * b.s.x.val - b.sn.x.val * b.s.z.val)) +
          v.z.val * (b.t.z.val - (b.sn.x.val * b.s.y.val - b.sn.y.val * b.s.x.val))) := by rw [htv]; ring
    rw [e]
    exact (abs_add_le _ _).trans ((add_le_add ey0 dd).trans (by norm_num))
  have sv3 : |sv| ≤ 301 / 100 := ds'.trans (by norm_num)
  have nv3 : |nv| ≤ 301 / 100 := dn'.trans (by norm_num)
  have tv3 : |tv| ≤ 301 / 100 := dc.trans (by norm_num)
  have neg : ∀ {x : F32} {r e : ℝ}, Num x → |(x.val : ℝ) - r| ≤ e → |((⊖x).val : ℝ) - -r| ≤ e := fun {x r e} hx h => by
    rw [(neg_ok hx).2]
    push_cast
    rw [show -(x.val : ℝ) - -r = -(x.val - r) by ring, abs_neg]
    exact h
  have ex' := neg lx.1 ex
  have ey' := neg ly.1 ey
  have sv3' : |-sv| ≤ 301 / 100 := by rw [abs_neg]; exact sv3
  have tv3' : |-tv| ≤ 301 / 100 := by rw [abs_neg]; exact tv3
  have hdot : exactDot v b.sn = nv := rfl
  rw [hdot]
  have join : ∀ {r s c n w : ℝ}, |r - (s * -sv + c * -tv + n * nv)| ≤ 112 / 2 ^ 24 → |s * sv + c * tv + n * nv - w| ≤ 102 / 2 ^ 24 + 62 / 10 * g →
      |r - (2 * nv * n - w)| ≤ 214 / 2 ^ 24 + 62 / 10 * g := fun {r s c n w} h h' => by
    rw [show r - (2 * nv * n - w) = (r - (s * -sv + c * -tv + n * nv)) + -(s * sv + c * tv + n * nv - w) by ring]
    refine (abs_add_le _ _).trans ?_
    rw [abs_neg]
    linarith
  cases a
  · obtain ⟨n, h⟩ := coord_near us.1 ut.1 un.1 (upTo_neg (ul us)) (upTo_neg (ul ut)) (ul un) sx1 tx1 nx1 tx sv3' tv3' nv3 ex' ey' ez
    exact ⟨n, join h (ideal_near rfl rfl rfl hsv hnv htv v1 nx1 sx1 sv3 nv3 n2 s2 sn hg)⟩
  · obtain ⟨n, h⟩ := coord_near us.2.1 ut.2.1 un.2.1 (upTo_neg (ul us)) (upTo_neg (ul ut)) (ul un) sy1 ty1 ny1 ty sv3' tv3' nv3 ex' ey' ez
    exact ⟨n, join h (ideal_near (nx := b.sn.y.val) (ny := b.sn.z.val) (nz := b.sn.x.val) (sx := b.s.y.val) (sy := b.s.z.val) (sz := b.s.x.val)
      (vx := v.y.val) (vy := v.z.val) (vz := v.x.val) rfl rfl rfl (by rw [hsv]; ring) (by rw [hnv]; ring) (by rw [htv]; ring) v2 ny1 sy1 sv3 nv3
      (by convert n2 using 2; ring) (by convert s2 using 2; ring) (by convert sn using 2; ring) hg)⟩
  · obtain ⟨n, h⟩ := coord_near us.2.2 ut.2.2 un.2.2 (upTo_neg (ul us)) (upTo_neg (ul ut)) (ul un) sz1 tz1 nz1 tz sv3' tv3' nv3 ex' ey' ez
    exact ⟨n, join h (ideal_near (nx := b.sn.z.val) (ny := b.sn.x.val) (nz := b.sn.y.val) (sx := b.s.z.val) (sy := b.s.x.val) (sz := b.s.y.val)
      (vx := v.z.val) (vy := v.x.val) (vz := v.y.val) rfl rfl rfl (by rw [hsv]; ring) (by rw [hnv]; ring) (by rw [htv]; ring) v3 nz1 sz1 sv3 nv3
      (by convert n2 using 2; ring) (by convert s2 using 2; ring) (by convert sn using 2; ring) hg)⟩

end MirrorF

open MirrorF FrameF NoPanic in
/-- **C53** (mirrors).  At a shading point whose normal `n` and tangent are perpendicular up to `e`, light that comes from `v` to a mirror leaves in the direction
`2 (v · n) n - v`, up to `2 ^ -15 + 7 e` in each coordinate: the code turns `v` into the shading frame, mirrors it there and turns it back. -/
theorem c53_mirror_f32 [Libm F32] (hl : AccurateSqrt) {i : Interaction F32} {e : ℝ} (he : e ≤ 1 / 16) (hi : SteadyFrame e i) (r : Spectrum F32) (fr : Fresnel F32) (u : V2 F32)
    {v : V3 F32} (hv : UpTo3 0 v) (wi : V3 F32) (f : Spectrum F32) (p : F32) (flag : Nat)
    (h : ({ BSDF.new i with bxdfs := [specularReflection r fr] } : BSDF F32).sampleF v u = some (wi, f, p, flag)) (hp : p ≠ lit 0) (a : Axis) :
    Num (wi.get a) ∧ |((wi.get a).val : ℝ) - (2 * exactDot v i.sn * (i.sn.get a).val - (v.get a).val)| ≤ 1 / 2 ^ 15 + 7 * e := by
  have e0 : 0 ≤ e := by
    obtain ⟨hd, ht, -, -, hp⟩ := hi
    obtain ⟨-, l0, -⟩ := VecF.length_near hl hd ht
    by_contra hc
    have := mul_neg_of_neg_of_pos (not_le.1 hc) l0
    linarith [abs_nonneg (exactDot i.sn i.dpdu)]
  obtain ⟨n, g⟩ := mirrored (b := { BSDF.new i with bxdfs := [specularReflection r fr] }) (new_axes hl hi) (by norm_num at *; linarith) hv a
  have hw : wi = ({ BSDF.new i with bxdfs := [specularReflection r fr] } : BSDF F32).localToWorld ⟨⊖(({ BSDF.new i with bxdfs := [specularReflection r fr] } : BSDF F32).worldToLocal v).x,
      ⊖(({ BSDF.new i with bxdfs := [specularReflection r fr] } : BSDF F32).worldToLocal v).y, (({ BSDF.new i with bxdfs := [specularReflection r fr] } : BSDF F32).worldToLocal v).z⟩ := by
    unfold BSDF.sampleF at h
    simp only [List.length_singleton, one_ne_zero, if_false] at h
    split at h
    · cases h
    · rename_i x hx
      have hx' : x = specularReflection r fr := by
        have := List.mem_of_getElem? hx
        simpa using this
      subst hx'
      split at h
      · exact absurd (congrArg (fun q => q.2.2.1) (Option.some.inj h)).symm hp
      · split at h
        · exact absurd (congrArg (fun q => q.2.2.1) (Option.some.inj h)).symm hp
        · exact (congrArg (fun q => q.1) (Option.some.inj h)).symm
  rw [← hw] at n g
  refine ⟨n, g.trans ?_⟩
  norm_num
  linarith

/-- The hypotheses hold: a slanted frame, and a mirror that does send light on. -/
example : letI := Demo.libm32
    AccurateSqrt ∧ UpTo3 0 (⟨f32 (3 / 5), f32 (-1 / 7), f32 (4 / 5)⟩ : V3 F32) ∧
    ∃ wi f p flag, ({ BSDF.new Demo.slanted with bxdfs := [specularReflection ⟨f32 1, f32 1, f32 1⟩ (fun _ => ⟨f32 1, f32 1, f32 1⟩)] } : BSDF F32).sampleF
      ⟨f32 (3 / 5), f32 (-1 / 7), f32 (4 / 5)⟩ ⟨f32 (1 / 2), f32 (1 / 2)⟩ = some (wi, f, p, flag) ∧ p ≠ lit 0 := by
  letI := Demo.libm32
  have n : ∀ (k : ℕ) (q : ℚ), k ≤ 126 → |q| ≤ 2 ^ k → UpTo k (f32 q) := fun k q hk h => NoPanic.upTo_ofVal hk h _
  refine ⟨Demo.libm32_accurate, ?_, ?_⟩
  · refine ⟨n 0 (3 / 5) ?_ ?_, n 0 (-1 / 7) ?_ ?_, n 0 (4 / 5) ?_ ?_⟩ <;> norm_num [abs_of_pos, abs_le]
  · have h : ((({ BSDF.new Demo.slanted with bxdfs := [specularReflection ⟨f32 1, f32 1, f32 1⟩ (fun _ => ⟨f32 1, f32 1, f32 1⟩)] } : BSDF F32).sampleF
      ⟨f32 (3 / 5), f32 (-1 / 7), f32 (4 / 5)⟩ ⟨f32 (1 / 2), f32 (1 / 2)⟩).map (fun q => decide (q.2.2.1 = lit 1))) = some true := by
      decide +kernel
    obtain ⟨⟨wi, f, p, flag⟩, e, hq⟩ := Option.map_eq_some_iff.1 h
    refine ⟨wi, f, p, flag, e, ?_⟩
    rw [show p = lit 1 from of_decide_eq_true hq]
    decide +kernel

end PT
