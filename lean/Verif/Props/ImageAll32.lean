import Verif.Props.FilterF32
import Verif.Props.Noise

/-!
# Every sample counts, in single precision (C119, C03)

Which samples reach a pixel is computed twice in single precision: once when a tile's buffer is allocated, once for every sample.  For radii and
resolutions as they occur in practice the two agree, so that the samples that count for a pixel are all samples of the film whose footprint has it.
-/

namespace PT
open Fl

namespace Img
open Spec

/-! ### The footprint of a sample -/

/-- Multiples of 2⁻¹⁰ up to 2¹⁴ are exact in single precision. -/
theorem repr_grid {n : Int} (h : |n| ≤ 2 ^ 24) : Fl.Repr Binary32 ((n : ℚ) / 2 ^ 10) := by
  unfold Fl.Repr
  have e : |(n : ℚ) / 2 ^ 10| = (n.natAbs : ℚ) / 2 ^ 10 := by
    rw [abs_div, ← Int.cast_abs, Int.abs_eq_natAbs]; simp
  rw [e]
  have h' : n.natAbs ≤ 2 ^ 24 := by
    rw [Int.abs_eq_natAbs] at h; exact_mod_cast h
  have hk : ∃ k, k < 0x7f800000 ∧ sval 23 k = n.natAbs * 2 ^ 139 := by
    rcases Nat.lt_or_ge n.natAbs (2 ^ 24) with hlt | hge
    · exact sval_dyadic 139 _ (by omega) hlt
    · obtain ⟨k, hk, hv⟩ := sval_dyadic 140 (2 ^ 23) (by omega) (by norm_num)
      exact ⟨k, hk, by rw [hv, show n.natAbs = 2 ^ 24 by omega]; norm_num⟩
  obtain ⟨k, hk, hv⟩ := hk
  show Bin.rnd 23 149 0x7f800000 31 _ = _
  rw [Bin.rnd_some]
  have hval : ((n.natAbs : ℚ) / 2 ^ 10 * 2 ^ 149) = (sval 23 k : ℚ) := by rw [hv]; push_cast; ring
  rw [hval, ordRound_exact 23 31 k (by omega)]
  refine ⟨hk, ?_⟩
  rw [← hval]; field_simp

/-- A sum between two multiples of 2⁻¹⁰ stays between them. -/
theorem add_grid {a b : F32} (ha : a.IsFin) (hb : b.IsFin) {l u : Int} (hl : -2 ^ 24 ≤ l) (hu : u ≤ 2 ^ 24) (h1 : (l : ℚ) / 2 ^ 10 ≤ a.val + b.val)
    (h2 : a.val + b.val ≤ (u : ℚ) / 2 ^ 10) :
    (add a b).IsFin ∧ (add a b).WF ∧ (l : ℚ) / 2 ^ 10 ≤ (add a b).val ∧ (add a b).val ≤ (u : ℚ) / 2 ^ 10 := by
  have lu : l ≤ u := by
    have := h1.trans h2
    rw [div_le_div_iff_of_pos_right (by norm_num)] at this
    exact_mod_cast this
  obtain ⟨zs, e⟩ := add_fin ha hb
  have w : (add a b).WF := add_WF _ _
  rw [e] at w ⊢
  obtain ⟨g1, g2, g3⟩ := ofVal_between (φ := Binary32) (repr_grid (abs_le.2 ⟨by omega, by omega⟩)) (repr_grid (abs_le.2 ⟨by omega, by omega⟩)) h1 h2 zs
  exact ⟨g1, w, g2, g3⟩

/-- One axis: the pixels in the footprint of a sample are among those of the tile's buffer, and near the sample. -/
theorem axis {r : F32} (hf : r.IsFin) {j R : Int} (j0 : 0 ≤ j) (hr : r.val = j / 2 ^ 10) (hR : j ≤ R * 2 ^ 10) (hR7 : R ≤ 7) {c : F32} {n m M x : Int}
    (hm : -2 ^ 13 + 10 ≤ m) (hmn : m ≤ n) (hnM : n < M) (hM : M ≤ 2 ^ 13 - 10) (hc : c.IsFin ∧ (n : ℚ) ≤ c.val ∧ c.val ≤ n + 1)
    (h1 : toI32 (Scalar.ceil (c -. lit (1 / 2) -. r)) ≤ x) (h2 : x < wrapI32 (toI32 (Scalar.floor (c -. lit (1 / 2) +. r)) + 1)) :
    toI32 (Scalar.ceil ((ofInt m : F32) -. lit (1 / 2) -. r)) ≤ x ∧ x < toI32 (Scalar.floor ((ofInt M : F32) +. lit (1 / 2) +. r)) ∧ |n - x| ≤ R := by
  obtain ⟨hh, hhv⟩ := half_f32
  obtain ⟨k1, k2⟩ := Fl.neg_fin hh
  rw [hhv] at k2
  obtain ⟨r1, r2⟩ := Fl.neg_fin hf
  rw [hr] at r2
  obtain ⟨c1, c2, c3⟩ := hc
  obtain ⟨m1, m2⟩ := ofInt_exact (n := m) (abs_le.2 ⟨by omega, by omega⟩)
  obtain ⟨M1, M2⟩ := ofInt_exact (n := M) (abs_le.2 ⟨by omega, by omega⟩)
  -- the sample
  obtain ⟨a1, -, a3, a4⟩ := add_grid (l := n * 2 ^ 10 - 512) (u := n * 2 ^ 10 + 512) c1 k1 (by omega) (by omega) (by rw [k2]; push_cast; linarith) (by rw [k2]; push_cast; linarith)
  obtain ⟨b1, b2, b3, b4⟩ := add_grid (l := n * 2 ^ 10 - 512 - j) (u := n * 2 ^ 10 + 512 - j) a1 r1 (by omega) (by omega)
    (by rw [r2]; push_cast at a3 ⊢; linarith) (by rw [r2]; push_cast at a4 ⊢; linarith)
  obtain ⟨d1, d2, d3, d4⟩ := add_grid (l := n * 2 ^ 10 - 512 + j) (u := n * 2 ^ 10 + 512 + j) a1 hf (by omega) (by omega)
    (by rw [hr]; push_cast at a3 ⊢; linarith) (by rw [hr]; push_cast at a4 ⊢; linarith)
  -- the tile
  obtain ⟨e1, -, e3, e4⟩ := add_grid (l := m * 2 ^ 10 - 512) (u := m * 2 ^ 10 - 512) m1 k1 (by omega) (by omega) (by rw [k2, m2]; push_cast; linarith) (by rw [k2, m2]; push_cast; linarith)
  obtain ⟨f1, f2, f3, f4⟩ := add_grid (l := m * 2 ^ 10 - 512 - j) (u := m * 2 ^ 10 - 512 - j) e1 r1 (by omega) (by omega)
    (by rw [r2]; push_cast at e3 ⊢; linarith) (by rw [r2]; push_cast at e4 ⊢; linarith)
  obtain ⟨g1, -, g3, g4⟩ := add_grid (l := M * 2 ^ 10 + 512) (u := M * 2 ^ 10 + 512) M1 hh (by omega) (by omega) (by rw [hhv, M2]; push_cast; linarith) (by rw [hhv, M2]; push_cast; linarith)
  obtain ⟨i1, i2, i3, i4⟩ := add_grid (l := M * 2 ^ 10 + 512 + j) (u := M * 2 ^ 10 + 512 + j) g1 hf (by omega) (by omega)
    (by rw [hr]; push_cast at g3 ⊢; linarith) (by rw [hr]; push_cast at g4 ⊢; linarith)
  have wide : ∀ {v : ℚ} {l u : Int}, (l : ℚ) / 2 ^ 10 ≤ v → v ≤ (u : ℚ) / 2 ^ 10 → -2 ^ 24 ≤ l → u ≤ 2 ^ 24 → -2 ^ 24 ≤ v ∧ v ≤ 2 ^ 24 := by
    intro v l u h1 h2 h3 h4
    have h3' : (-2 ^ 24 : ℚ) ≤ l := by exact_mod_cast h3
    have h4' : (u : ℚ) ≤ 2 ^ 24 := by exact_mod_cast h4
    norm_num at *
    constructor <;> linarith
  change toI32 (Scalar.ceil (Fl.add (Fl.add c (Fl.neg (lit (1 / 2)))) (Fl.neg r))) ≤ x at h1
  change x < wrapI32 (toI32 (Scalar.floor (Fl.add (Fl.add c (Fl.neg (lit (1 / 2)))) r)) + 1) at h2
  change toI32 (Scalar.ceil (Fl.add (Fl.add (ofInt m : F32) (Fl.neg (lit (1 / 2)))) (Fl.neg r))) ≤ x ∧
    x < toI32 (Scalar.floor (Fl.add (Fl.add (ofInt M : F32) (lit (1 / 2))) r)) ∧ _
  obtain ⟨w1, w2⟩ := wide b3 b4 (by omega) (by omega)
  obtain ⟨w3, w4⟩ := wide d3 d4 (by omega) (by omega)
  obtain ⟨w5, w6⟩ := wide f3 f4 (by omega) (by omega)
  obtain ⟨w7, w8⟩ := wide i3 i4 (by omega) (by omega)
  rw [Fl.ceil_i32 b1 b2 w1 w2] at h1
  rw [Fl.floor_i32 d1 d2 w3 w4] at h2
  rw [Fl.ceil_i32 f1 f2 w5 w6, Fl.floor_i32 i1 i2 w7 w8]
  have lo : ((n * 2 ^ 10 - 512 - j : Int) : ℚ) / 2 ^ 10 ≤ x := b3.trans (Int.ceil_le.1 h1)
  rw [div_le_iff₀ (by norm_num)] at lo
  have lo : n * 2 ^ 10 - 512 - j ≤ x * 2 ^ 10 := by exact_mod_cast lo
  have f0 : -2 ^ 24 ≤ ⌊(Fl.add (Fl.add c (Fl.neg (lit (1 / 2)))) r).val⌋ := by rw [Int.le_floor]; push_cast; exact w3
  have f9 : ⌊(Fl.add (Fl.add c (Fl.neg (lit (1 / 2)))) r).val⌋ ≤ 2 ^ 24 := by
    have := (Int.floor_le (Fl.add (Fl.add c (Fl.neg (lit (1 / 2)))) r).val).trans w4
    exact_mod_cast this
  rw [wrapI32_of_mem (by omega) (by omega)] at h2
  have hi : (x : ℚ) ≤ ((n * 2 ^ 10 + 512 + j : Int) : ℚ) / 2 ^ 10 := (Int.le_floor.1 (by omega : x ≤ ⌊(Fl.add (Fl.add c (Fl.neg (lit (1 / 2)))) r).val⌋)).trans d4
  rw [le_div_iff₀ (by norm_num)] at hi
  have hi : x * 2 ^ 10 ≤ n * 2 ^ 10 + 512 + j := by exact_mod_cast hi
  refine ⟨?_, ?_, ?_⟩
  · rw [Int.ceil_le]
    refine f4.trans ?_
    rw [div_le_iff₀ (by norm_num)]
    have : m * 2 ^ 10 - 512 - j ≤ x * 2 ^ 10 := by omega
    exact_mod_cast this
  · have : x + 1 ≤ ⌊(Fl.add (Fl.add (ofInt M : F32) (lit (1 / 2))) r).val⌋ := by
      rw [Int.le_floor]
      refine le_trans ?_ i3
      rw [le_div_iff₀ (by norm_num)]
      have : (x + 1) * 2 ^ 10 ≤ M * 2 ^ 10 + 512 + j := by omega
      exact_mod_cast this
    omega
  · rw [abs_le]; omega

theorem run_fst {σ β γ : Type} (ops : SamplerOps F32 σ) (q : β) (d : Draw F32 γ) : ∀ (s : σ) {v : β × γ} {t : σ},
    (d.bind fun l => .ret (q, l)).run ops s = some (v, t) → v.1 = q := by
  induction d with
  | ret b =>
    intro s v t h
    simp only [Draw.bind, Draw.run, Option.some.injEq, Prod.mk.injEq] at h
    rw [← h.1]
  | panic => intro s v t h; simp [Draw.bind, Draw.run] at h
  | get1 k ih =>
    intro s v t h
    simp only [Draw.bind, Draw.run] at h
    split at h
    · cases h
    · exact ih _ _ h
  | get2 k ih =>
    intro s v t h
    simp only [Draw.bind, Draw.run] at h
    split at h
    · cases h
    · exact ih _ _ h

/-- A sampled pixel's samples lie in the pixel's square. -/
theorem sample_pos {radiance : V2 F32 → Draw F32 (Spectrum F32)} {s0 : HaltonSampler} {p : V2 Int} (hx : |p.x| < 2 ^ 24) (hy : |p.y| < 2 ^ 24) {i n : Nat}
    {s : V2 F32 × Spectrum F32} (h : s ∈ samplesFrom32 radiance s0 p i n) :
    (s.1.x.IsFin ∧ (p.x : ℚ) ≤ s.1.x.val ∧ s.1.x.val ≤ p.x + 1) ∧ (s.1.y.IsFin ∧ (p.y : ℚ) ≤ s.1.y.val ∧ s.1.y.val ≤ p.y + 1) := by
  unfold samplesFrom32 at h
  obtain ⟨k, -, h1⟩ := List.mem_filterMap.1 h
  have h2 := (Option.filter_eq_some_iff.1 h1).1
  unfold sample32 at h2
  obtain ⟨⟨s', t⟩, h3, e3⟩ := Option.map_eq_some_iff.1 h2
  have e3 : s' = s := e3
  subst e3
  clear h h1 h2
  unfold oneSample at h3
  rw [getCameraSample] at h3
  simp only [Draw.bind, Draw.run] at h3
  have key := c25_camera_sample_f32_partial p hx hy (sampleState s0 p k)
  rw [getCameraSample] at key
  simp only [Draw.run] at key
  cases hg : (HaltonSampler.ops : SamplerOps F32 _).get2d (sampleState s0 p k) with
  | none => rw [hg] at h3; simp at h3
  | some u =>
    obtain ⟨u, t1⟩ := u
    rw [hg] at h3 key
    simp only at h3 key
    have e : s'.1 = V2.add (V2.ofI p) u := run_fst _ _ _ t1 h3
    rw [e]
    exact key _ _ rfl

theorem samples_length (radiance : V2 F32 → Draw F32 (Spectrum F32)) (s0 : HaltonSampler) (p : V2 Int) (i n : Nat) :
    (samplesFrom32 radiance s0 p i n).length ≤ n := by
  unfold samplesFrom32
  exact (List.length_filterMap_le _ _).trans (by simp)

end Img

namespace Spec
/-- A film as it occurs in practice: at most 4096 pixels on a side, and a filter radius between 0 and 7 that is a multiple of 1/1024. -/
structure PlainFilm (res : V2 Int) (r : F32) (R : Int) : Prop where
  fin : r.IsFin
  grid : ∃ j : Int, 0 ≤ j ∧ j ≤ R * 2 ^ 10 ∧ r.val = j / 2 ^ 10
  small : R ≤ 7
  x0 : 0 < res.x
  y0 : 0 < res.y
  xle : res.x ≤ 2 ^ 12
  yle : res.y ≤ 2 ^ 12

/-- All valid samples taken for the film, `max(1, spp)` for each pixel of the sampled area, whose footprint contains the pixel `(x, y)`. -/
def reaching (film : Film F32) (radiance : V2 F32 → Draw F32 (Spectrum F32)) (spp : Nat) (x y : Int) : List (V2 F32 × Spectrum F32) :=
  (film.sampleBBox.iter.toList.flatMap fun p => samplesFrom32 radiance (HaltonSampler.new spp film.sampleBBox) p 0 (max 1 spp)).filter
    fun s => Covers film.filterRadius s.1 x y
end Spec

namespace Img
open Spec

theorem plain_range {res : V2 Int} {r : F32} {R : Int} (h : PlainFilm res r R) : FilmRange32 res r := by
  obtain ⟨j, j0, j1, hr⟩ := h.grid
  have j0' : (0 : ℚ) ≤ j := by exact_mod_cast j0
  have := h.small; have := h.xle; have := h.yle; have := h.x0; have := h.y0
  have j1' : (j : ℚ) ≤ 2 ^ 13 := by exact_mod_cast (by omega : j ≤ 2 ^ 13)
  refine ⟨h.fin, by rw [hr]; positivity, ?_, h.x0, h.y0, by omega, by omega, ?_⟩
  · rw [hr, div_le_iff₀ (by norm_num)]; exact j1'.trans (by norm_num)
  · calc res.x * res.y ≤ 2 ^ 12 * 2 ^ 12 := mul_le_mul h.xle h.yle h.y0.le (by norm_num)
      _ < 2 ^ 31 := by norm_num

/-- The sampled area of such a film. -/
theorem plain_box {res : V2 Int} (filt : Filter F32) {R : Int} (h : PlainFilm res filt.radius R) :
    let b := (Film.new res filt).sampleBBox;
    (-8 ≤ b.min.x ∧ -8 ≤ b.min.y) ∧ b.max.x ≤ 2 ^ 12 + 8 ∧ b.max.y ≤ 2 ^ 12 + 8 := by
  obtain ⟨hf, h0, h1, x0, y0, x1, y1, -⟩ := plain_range h
  obtain ⟨j, j0, j1, hr⟩ := h.grid
  have h7 : filt.radius.val ≤ 7 := by
    have := h.small
    have j1' : (j : ℚ) ≤ 7 * 2 ^ 10 := by exact_mod_cast (by omega : j ≤ 7 * 2 ^ 10)
    rw [hr, div_le_iff₀ (by norm_num)]; exact j1'
  obtain ⟨lx, hx, ex1, ex2, ex3, ex4, -, ex5, ex6⟩ := sampleAxis hf h0 h1 x0 x1
  obtain ⟨ly, hy, ey1, ey2, ey3, ey4, -, ey5, ey6⟩ := sampleAxis hf h0 h1 y0 y1
  have qx : (res.x : ℚ) ≤ 2 ^ 12 := by exact_mod_cast h.xle
  have qy : (res.y : ℚ) ≤ 2 ^ 12 := by exact_mod_cast h.yle
  have a1 : -8 ≤ ⌊lx⌋ := by rw [Int.le_floor]; exact ex5 (-8) (by norm_num) (by push_cast; linarith)
  have a2 : -8 ≤ ⌊ly⌋ := by rw [Int.le_floor]; exact ey5 (-8) (by norm_num) (by push_cast; linarith)
  have a3 : ⌈hx⌉ ≤ 2 ^ 12 + 8 := by rw [Int.ceil_le]; exact ex6 (2 ^ 12 + 8) (by norm_num) (by push_cast; linarith)
  have a4 : ⌈hy⌉ ≤ 2 ^ 12 + 8 := by rw [Int.ceil_le]; exact ey6 (2 ^ 12 + 8) (by norm_num) (by push_cast; linarith)
  have ey1' : ⌊lx⌋ = ⌊ly⌋ := by rw [← ex1, ey1]
  unfold Film.sampleBBox
  simp only [V2.add, V2.sub, V2.ssub, V2.sadd, V2.floor, V2.ceil, V2.toI, V2.ofI, halfPixel, Film.new]
  rw [ex1, ex2, ey2]
  simp only [BBox2i.new, V2.imin, V2.imax, imin, imax]
  refine ⟨⟨?_, ?_⟩, ?_, ?_⟩ <;> split_ifs <;> omega

/-- A position whose footprint has a pixel is in a tile whose buffer has it, and in a pixel nearby. -/
theorem reach_pos {res : V2 Int} (filt : Filter F32) {R : Int} (h : PlainFilm res filt.radius R) {x y : Int} (hi : Spec.InImage res x y) {b : BBox2i} {p : V2 Int}
    (hb : b ∈ (Film.new res filt).iter.toList) (hp : InBox b p) {pf : V2 F32}
    (px : pf.x.IsFin ∧ (p.x : ℚ) ≤ pf.x.val ∧ pf.x.val ≤ p.x + 1) (py : pf.y.IsFin ∧ (p.y : ℚ) ≤ pf.y.val ∧ pf.y.val ≤ p.y + 1)
    (hc : Covers (Film.new res filt).filterRadius pf x y) : InTile ((Film.new res filt).getFilmTile b) x y ∧ |p.x - x| ≤ R ∧ |p.y - y| ≤ R := by
  obtain ⟨⟨c1, c2⟩, c3, c4⟩ := plain_box filt h
  obtain ⟨b1, b2, -, -, b5⟩ := (c02_tiles_partition (Film.new res filt).sampleBBox).1 b hb
  obtain ⟨m1, m2, m3, m4⟩ := b5 b.min ⟨le_rfl, b1, le_rfl, b2⟩
  obtain ⟨M1, M2, M3, M4⟩ := b5 ⟨b.max.x - 1, b.max.y - 1⟩ ⟨by simp only; omega, by simp only; omega, by simp only; omega, by simp only; omega⟩
  simp only at M1 M2 M3 M4
  obtain ⟨q1, q2, q3, q4⟩ := hp
  obtain ⟨j, j0, j1, hr⟩ := h.grid
  obtain ⟨k1, k2, k3, k4⟩ := hc
  obtain ⟨t1, t2, t3⟩ := axis h.fin j0 hr j1 h.small (m := b.min.x) (M := b.max.x) (by omega) (by omega) (by omega) (by omega) px k1 k2
  obtain ⟨u1, u2, u3⟩ := axis h.fin j0 hr j1 h.small (m := b.min.y) (M := b.max.y) (by omega) (by omega) (by omega) (by omega) py k3 k4
  refine ⟨?_, t3, u3⟩
  obtain ⟨i1, i2, i3, i4⟩ := hi
  unfold InTile Film.getFilmTile FilmTile.new BBox2i.new
  simp only [V2.add, V2.sub, V2.ssub, V2.sadd, V2.floor, V2.ceil, V2.toI, V2.ofI, halfPixel, Film.new, V2.imin, V2.imax, imin, imax]
  refine ⟨?_, ?_, ?_, ?_⟩ <;> split_ifs <;> omega

/-- A pixel of a tile is not far from the image. -/
theorem tile_pixel_small {res : V2 Int} (filt : Filter F32) {R : Int} (h : PlainFilm res filt.radius R) {b : BBox2i} {p : V2 Int}
    (hb : b ∈ (Film.new res filt).iter.toList) (hp : InBox b p) : |p.x| ≤ 2 ^ 12 + 8 ∧ |p.y| ≤ 2 ^ 12 + 8 := by
  obtain ⟨⟨c1, c2⟩, c3, c4⟩ := plain_box filt h
  obtain ⟨m1, m2, m3, m4⟩ := ((c02_tiles_partition (Film.new res filt).sampleBBox).1 b hb).2.2.2.2 p hp
  rw [abs_le, abs_le]; omega

/-- The samples of a tile that reach a pixel. -/
theorem reach_tile {res : V2 Int} (filt : Filter F32) {R : Int} (h : PlainFilm res filt.radius R) {x y : Int} (hi : Spec.InImage res x y) {b : BBox2i} {p : V2 Int}
    (hb : b ∈ (Film.new res filt).iter.toList) (hp : InBox b p)
    {radiance : V2 F32 → Draw F32 (Spectrum F32)} {s0 : HaltonSampler} {i n : Nat} {s : V2 F32 × Spectrum F32} (hs : s ∈ samplesFrom32 radiance s0 p i n)
    (hc : Covers (Film.new res filt).filterRadius s.1 x y) : InTile ((Film.new res filt).getFilmTile b) x y ∧ |p.x - x| ≤ R ∧ |p.y - y| ≤ R := by
  obtain ⟨p1, p2⟩ := tile_pixel_small filt h hb hp
  obtain ⟨px, py⟩ := sample_pos (p1.trans_lt (by norm_num)) (p2.trans_lt (by norm_num)) hs
  exact reach_pos filt h hi hb hp px py hc

/-- The pixels of the tiles are the pixels of the sampled area. -/
theorem tiles_perm32 (film : Film F32) : (film.iter.toList.flatMap fun b => b.iter.toList).Perm film.sampleBBox.iter.toList := by
  have nd : ∀ b : BBox2i, b.iter.toList.Nodup := by
    intro b
    refine (b.pairwise_toList).imp ?_
    intro p q h e
    subst e
    rcases h with h | h <;> omega
  obtain ⟨h1, h2, h3⟩ := c02_tiles_partition film.sampleBBox
  rw [List.perm_ext_iff_of_nodup _ (nd _)]
  · intro p
    rw [List.mem_flatMap, BBox2i.mem_toList]
    constructor
    · rintro ⟨b, hb, hp⟩
      exact (h1 b hb).2.2.2.2 p ((b.mem_toList p).1 hp)
    · intro hp
      obtain ⟨b, hb, hp⟩ := h3 p hp
      exact ⟨b, hb, (b.mem_toList p).2 hp⟩
  · rw [List.nodup_flatMap]
    refine ⟨fun b _ => nd b, h2.imp ?_⟩
    intro b c h
    rw [Function.onFun, List.disjoint_left]
    intro p hp hq
    exact h p ⟨(b.mem_toList p).1 hp, (c.mem_toList p).1 hq⟩

theorem filter_flatMap_nil {β γ : Type} (P : β → Bool) (g : β → List γ) (l : List β) (h : ∀ b ∈ l, P b = false → g b = []) : (l.filter P).flatMap g = l.flatMap g := by
  induction l with
  | nil => rfl
  | cons b l ih =>
    have ih := ih fun c hc => h c (List.mem_cons_of_mem _ hc)
    cases hb : P b with
    | true => rw [List.filter_cons_of_pos hb, List.flatMap_cons, List.flatMap_cons, ih]
    | false => rw [List.filter_cons_of_neg (by simp [hb]), List.flatMap_cons, h b (List.mem_cons_self ..) hb, ih]; rfl

end Img

/-! ### All samples count -/

open Img in
/-- C119, which samples count: for films as they occur in practice the samples that count for a pixel of the image are all valid samples of the film whose
footprint contains it; none is lost because the tile that took it has no slot for the pixel. -/
theorem c119_all_samples {res : V2 Int} (filt : Filter F32) {R : Int} (h : Spec.PlainFilm res filt.radius R) (radiance : V2 F32 → Draw F32 (Spectrum F32)) (spp : Nat)
    (x y : Int) (hi : Spec.InImage res x y) :
    (Spec.counted (Film.new res filt) radiance spp x y).Perm (Spec.reaching (Film.new res filt) radiance spp x y) := by
  have e : Spec.counted (Film.new res filt) radiance spp x y = (Film.new res filt).iter.toList.flatMap (countedIn (Film.new res filt) radiance spp x y) := by
    rw [counted_eq]
    refine filter_flatMap_nil _ _ _ ?_
    intro b hb hn
    unfold countedIn
    rw [List.filter_eq_nil_iff]
    intro s hs hc
    obtain ⟨p, hp, hs⟩ := List.mem_flatMap.1 hs
    have := (reach_tile filt h hi hb ((b.mem_toList p).1 hp) hs (of_decide_eq_true hc)).1
    simp [this] at hn
  rw [e]
  unfold Spec.reaching countedIn
  rw [← List.filter_flatMap, ← List.flatMap_assoc]
  exact ((tiles_perm32 (Film.new res filt)).flatMap_right _).filter _

open Img in
/-- C119, how many samples count: those of the pixels within the filter's radius. -/
theorem c119_few {res : V2 Int} (filt : Filter F32) {R : Nat} (h : Spec.PlainFilm res filt.radius R) (radiance : V2 F32 → Draw F32 (Spectrum F32)) (spp : Nat)
    (x y : Int) (hi : Spec.InImage res x y) :
    (Spec.counted (Film.new res filt) radiance spp x y).length ≤ (2 * R + 1) ^ 2 * max 1 spp := by
  rw [(c119_all_samples filt h radiance spp x y hi).length_eq]
  unfold Spec.reaching
  rw [List.filter_flatMap, List.length_flatMap]
  set box := (Film.new res filt).sampleBBox
  set s0 := HaltonSampler.new spp box
  have nd : box.iter.toList.Nodup := by
    refine (box.pairwise_toList).imp ?_
    intro p q h e
    subst e
    rcases h with h | h <;> omega
  have key := near_few nd x y (R : Int) (by positivity) (C := ((max 1 spp : ℕ) : ℝ)) (by positivity)
    (v := fun p => (((Spec.samplesFrom32 radiance s0 p 0 (max 1 spp)).filter fun s => decide (Covers (Film.new res filt).filterRadius s.1 x y)).length : ℝ))
    (by
      intro p _
      exact_mod_cast (List.length_filter_le _ _).trans (samples_length radiance s0 p 0 (max 1 spp)))
    (by
      intro p hp hn
      obtain ⟨b, hb, hpb⟩ := (c02_tiles_partition box).2.2 p ((box.mem_toList p).1 hp)
      have : ((Spec.samplesFrom32 radiance s0 p 0 (max 1 spp)).filter fun s => decide (Covers (Film.new res filt).filterRadius s.1 x y)) = [] := by
        rw [List.filter_eq_nil_iff]
        intro s hs hc
        exact hn (reach_tile filt h hi hb hpb hs (of_decide_eq_true hc)).2
      rw [this]; simp)
  have cast : ∀ l : List (V2 Int), (((l.map fun p => ((Spec.samplesFrom32 radiance s0 p 0 (max 1 spp)).filter fun s => decide (Covers (Film.new res filt).filterRadius s.1 x y)).length).sum : ℕ) : ℝ) =
      (l.map fun p => (((Spec.samplesFrom32 radiance s0 p 0 (max 1 spp)).filter fun s => decide (Covers (Film.new res filt).filterRadius s.1 x y)).length : ℝ)).sum := by
    intro l; push_cast; rw [List.map_map]; rfl
  refine (Nat.cast_le (α := ℝ)).1 ?_
  rw [cast]
  refine key.trans (le_of_eq ?_)
  push_cast
  ring

/-! ### The footprint of a sample, against the exact one -/

namespace Img
open Spec

theorem err_grid {a b : F32} (ha : Num a) (hb : Num b) (h : |a.val + b.val| ≤ 2 ^ 13) : Num (a +. b) ∧ |(a +. b).val - (a.val + b.val)| ≤ 1 / 2 ^ 11 := by
  obtain ⟨n, e⟩ := add_ok ha hb (h.trans (by norm_num))
  refine ⟨n, e.trans ?_⟩
  calc |a.val + b.val| * ulpHalf ≤ 2 ^ 13 * ulpHalf := mul_le_mul_of_nonneg_right h (by unfold ulpHalf; norm_num)
    _ = 1 / 2 ^ 11 := by unfold ulpHalf; norm_num

/-- One axis of the footprint: up to 2⁻¹⁰ it is what exact arithmetic says. -/
theorem footprint_axis {r c : F32} (nr : Num r) (r0 : 0 ≤ r.val) (r7 : r.val ≤ 7) (nc : Num c) (hc : |c.val| ≤ 2 ^ 12 + 16) (x : Int) :
    (|(x : ℚ) + 1 / 2 - c.val| ≤ r.val - 1 / 2 ^ 10 →
      toI32 (Scalar.ceil (c -. lit (1 / 2) -. r)) ≤ x ∧ x < wrapI32 (toI32 (Scalar.floor (c -. lit (1 / 2) +. r)) + 1)) ∧
    (toI32 (Scalar.ceil (c -. lit (1 / 2) -. r)) ≤ x ∧ x < wrapI32 (toI32 (Scalar.floor (c -. lit (1 / 2) +. r)) + 1) →
      |(x : ℚ) + 1 / 2 - c.val| ≤ r.val + 1 / 2 ^ 10) := by
  obtain ⟨hh, hhv⟩ := half_f32
  have nh : Num (lit (1 / 2) : F32) := ⟨lit_WF _, hh⟩
  obtain ⟨c1, c2⟩ := abs_le.1 hc
  have nnh := neg_ok nh
  have nnr := neg_ok nr
  obtain ⟨n1, e1⟩ := err_grid nc nnh.1 (by rw [nnh.2, hhv]; norm_num at *; rw [abs_le]; constructor <;> linarith)
  rw [nnh.2, hhv] at e1
  obtain ⟨l1, l2⟩ := abs_le.1 e1
  obtain ⟨n2, e2⟩ := err_grid n1 nnr.1 (by rw [nnr.2]; norm_num at *; rw [abs_le]; constructor <;> linarith)
  rw [nnr.2] at e2
  obtain ⟨n3, e3⟩ := err_grid n1 nr (by norm_num at *; rw [abs_le]; constructor <;> linarith)
  obtain ⟨p1, p2⟩ := abs_le.1 e2
  obtain ⟨q1, q2⟩ := abs_le.1 e3
  change (|(x : ℚ) + 1 / 2 - c.val| ≤ r.val - 1 / 2 ^ 10 →
      toI32 (Scalar.ceil (c +. ⊖(lit (1 / 2) : F32) +. ⊖r)) ≤ x ∧ x < wrapI32 (toI32 (Scalar.floor (c +. ⊖(lit (1 / 2) : F32) +. r)) + 1)) ∧
    (toI32 (Scalar.ceil (c +. ⊖(lit (1 / 2) : F32) +. ⊖r)) ≤ x ∧ x < wrapI32 (toI32 (Scalar.floor (c +. ⊖(lit (1 / 2) : F32) +. r)) + 1) →
      |(x : ℚ) + 1 / 2 - c.val| ≤ r.val + 1 / 2 ^ 10)
  rw [Fl.ceil_i32 n2.fin n2.wf (by norm_num at *; linarith) (by norm_num at *; linarith), Fl.floor_i32 n3.fin n3.wf (by norm_num at *; linarith) (by norm_num at *; linarith)]
  generalize (c +. ⊖(lit (1 / 2) : F32)).val = A at *
  generalize (c +. ⊖(lit (1 / 2) : F32) +. ⊖r).val = L at *
  generalize (c +. ⊖(lit (1 / 2) : F32) +. r).val = U at *
  have f0 : -2 ^ 14 ≤ ⌊U⌋ := by rw [Int.le_floor]; push_cast; norm_num at *; linarith
  have f9 : ⌊U⌋ < 2 ^ 14 := by rw [Int.floor_lt]; push_cast; norm_num at *; linarith
  rw [wrapI32_of_mem (by omega) (by omega), Int.ceil_le, Int.lt_add_one_iff, Int.le_floor]
  constructor
  · intro h
    obtain ⟨h1, h2⟩ := abs_le.1 h
    constructor <;> (norm_num at *; linarith)
  · rintro ⟨h1, h2⟩
    rw [abs_le]
    constructor <;> (norm_num at *; linarith)

end Img

open Img in
/-- C03 in single precision: let `b` be a tile of the film and `t` its buffer in any state.  A sample at a position in a pixel of `b` changes only pixels whose
centre is within the filter radius, up to 2⁻¹⁰, in both axes, and all pixels of the image whose centre is within it by 2⁻¹⁰; the tile has a slot for every
pixel of the image that the sample is to change. -/
theorem c03_f32 {res : V2 Int} (filt : Filter F32) {R : Int} (h : Spec.PlainFilm res filt.radius R) (hw : filt.radius.WF) (b : BBox2i) (hb : b ∈ (Film.new res filt).iter.toList)
    (t : FilmTile F32) (ht : t.bbox = ((Film.new res filt).getFilmTile b).bbox) (htr : t.filterRadius = filt.radius) (htt : t.filterTable = mkFilterTable filt) (hts : t.Sized)
    (p : V2 Int) (hp : Spec.InBox b p) (pf : V2 F32) (nx : Num pf.x) (ny : Num pf.y) (px : (p.x : ℚ) ≤ pf.x.val ∧ pf.x.val ≤ p.x + 1)
    (py : (p.y : ℚ) ≤ pf.y.val ∧ pf.y.val ≤ p.y + 1) (s : Spectrum F32) :
    ∃ t', t.addSample pf s = some t' ∧ t'.bbox = t.bbox ∧ ∀ x y, Spec.InImage res x y →
      let near := fun d : ℚ => |(x : ℚ) + 1 / 2 - pf.x.val| ≤ d ∧ |(y : ℚ) + 1 / 2 - pf.y.val| ≤ d
      let w := Spec.weight32 (Film.new res filt) x y (pf, s)
      let more : Pixel F32 := ⟨⟨(t.px x y).color.r +. s.r *. w, (t.px x y).color.g +. s.g *. w, (t.px x y).color.b +. s.b *. w⟩, (t.px x y).weight +. w⟩
      (near (filt.radius.val - 1 / 2 ^ 10) → InTile t' x y ∧ t'.px x y = more) ∧
      (¬ near (filt.radius.val + 1 / 2 ^ 10) → InTile t' x y → t'.px x y = t.px x y) ∧
      (InTile t' x y → t'.px x y = more ∨ t'.px x y = t.px x y) := by
  obtain ⟨t', e1, e2, e3, e4, e5, e6⟩ := addSample_spec t (by rw [htt]; exact mkFilterTable_ok filt) hts pf s
  refine ⟨t', e1, e2, ?_⟩
  intro x y hi near w more
  obtain ⟨j, j0, j1, hr⟩ := h.grid
  have r0 : 0 ≤ filt.radius.val := by rw [hr]; exact div_nonneg (by exact_mod_cast j0) (by norm_num)
  have r7 : filt.radius.val ≤ 7 := by
    have := h.small
    have j1' : (j : ℚ) ≤ 7 * 2 ^ 10 := by exact_mod_cast (by omega : j ≤ 7 * 2 ^ 10)
    rw [hr, div_le_iff₀ (by norm_num)]; exact j1'
  have nr : Num filt.radius := ⟨hw, h.fin⟩
  obtain ⟨s1, s2⟩ := tile_pixel_small filt h hb hp
  have big : ∀ {n : Int} {c : ℚ}, |n| ≤ 2 ^ 12 + 8 → (n : ℚ) ≤ c ∧ c ≤ n + 1 → |c| ≤ 2 ^ 12 + 16 := by
    intro n c hn hc
    obtain ⟨a1, a2⟩ := abs_le.1 hn
    have a1' : (-(2 ^ 12 + 8) : ℚ) ≤ n := by exact_mod_cast a1
    have a2' : (n : ℚ) ≤ 2 ^ 12 + 8 := by exact_mod_cast a2
    rw [abs_le]; constructor <;> linarith [hc.1, hc.2]
  have fx := footprint_axis nr r0 r7 nx (big s1 px) x
  have fy := footprint_axis nr r0 r7 ny (big s2 py) y
  have cov : Covers filt.radius pf x y ↔ (toI32 (Scalar.ceil (pf.x -. lit (1 / 2) -. filt.radius)) ≤ x ∧ x < wrapI32 (toI32 (Scalar.floor (pf.x -. lit (1 / 2) +. filt.radius)) + 1)) ∧
      (toI32 (Scalar.ceil (pf.y -. lit (1 / 2) -. filt.radius)) ≤ y ∧ y < wrapI32 (toI32 (Scalar.floor (pf.y -. lit (1 / 2) +. filt.radius)) + 1)) := by
    rw [and_assoc]; rfl
  have tile : ∀ {u : FilmTile F32}, u.bbox = ((Film.new res filt).getFilmTile b).bbox → (InTile u x y ↔ InTile ((Film.new res filt).getFilmTile b) x y) := by
    intro u hu; unfold InTile; rw [hu]
  have hpx : InTile t x y → t'.px x y = if Covers filt.radius pf x y then more else t.px x y := by
    intro hin
    have := e6 x y hin
    unfold FilmTile.px
    rw [this, htr, htt]
    have hlt := tile_offset_lt hts hin
    have e : t.px x y = t.pixels[t.pixelOffset x y] := by unfold FilmTile.px; rw [List.getElem?_eq_getElem hlt]; rfl
    rw [List.getElem?_eq_getElem hlt]
    simp only [Option.map_some, Option.getD_some, more, e]
    rfl
  have it : InTile t' x y ↔ InTile t x y := by unfold InTile; rw [e2]
  refine ⟨?_, ?_, ?_⟩
  · rintro ⟨h1, h2⟩
    have hc := cov.2 ⟨fx.1 h1, fy.1 h2⟩
    have hin := (tile ht).2 (reach_pos filt h hi hb hp ⟨nx.fin, px.1, px.2⟩ ⟨ny.fin, py.1, py.2⟩ hc).1
    exact ⟨it.2 hin, by rw [hpx hin, if_pos hc]⟩
  · intro hn hin
    rw [hpx (it.1 hin), if_neg]
    intro hc
    exact hn ⟨fx.2 (cov.1 hc).1, fy.2 (cov.1 hc).2⟩
  · intro hin
    rw [hpx (it.1 hin)]
    split_ifs
    · exact Or.inl rfl
    · exact Or.inr rfl

/-! ### The file of a render with a Gaussian filter -/

namespace Spec
/-- The light of all valid samples of the film is of ordinary size, and every pixel of the image has a valid sample of its own. -/
structure PlainLight (film : Film F32) (radiance : V2 F32 → Draw F32 (Spectrum F32)) (spp : Nat) : Prop where
  size : ∀ p i s, InBox film.sampleBBox p → i < max 1 spp → sample32 radiance (HaltonSampler.new spp film.sampleBBox) p i = some s → validRadiance s.2 = true →
    (s.2.r.WF ∧ s.2.r.val ≤ 2 ^ 50) ∧ (s.2.g.WF ∧ s.2.g.val ≤ 2 ^ 50) ∧ (s.2.b.WF ∧ s.2.b.val ≤ 2 ^ 50)
  own : ∀ x y, InImage film.resolution x y → ∃ i s, i < max 1 spp ∧ sample32 radiance (HaltonSampler.new spp film.sampleBBox) ⟨x, y⟩ i = some s ∧ validRadiance s.2 = true

/-- The exact sum, over all valid samples whose footprint contains the pixel, of filter weight times light or of the filter weight. -/
def fullSum (film : Film F32) (radiance : V2 F32 → Draw F32 (Spectrum F32)) (spp : Nat) (x y : Int) (c : Entry) : ℚ :=
  ((reaching film radiance spp x y).map (share32 film x y c)).sum
end Spec

namespace Img
open Spec

theorem mem_samples {radiance : V2 F32 → Draw F32 (Spectrum F32)} {s0 : HaltonSampler} {p : V2 Int} {n : Nat} {s : V2 F32 × Spectrum F32} :
    s ∈ samplesFrom32 radiance s0 p 0 n ↔ ∃ i < n, sample32 radiance s0 p i = some s ∧ validRadiance s.2 = true := by
  unfold samplesFrom32
  rw [List.mem_filterMap]
  constructor
  · rintro ⟨i, hi, h⟩
    have := List.mem_range'.1 hi
    exact ⟨i, by omega, Option.filter_eq_some_iff.1 h⟩
  · rintro ⟨i, hi, h⟩
    exact ⟨i, List.mem_range'.2 ⟨i, hi, by omega⟩, Option.filter_eq_some_iff.2 h⟩

/-- With a radius of at least 1/2 a sample reaches the pixel it is taken in. -/
theorem own_axis {r : F32} (hf : r.IsFin) {j : Int} (j0 : 512 ≤ j) (hr : r.val = j / 2 ^ 10) (hR : j ≤ 7 * 2 ^ 10) {c : F32} {n : Int}
    (h0 : 0 ≤ n) (hn : n < 2 ^ 12) (hc : c.IsFin ∧ (n : ℚ) ≤ c.val ∧ c.val ≤ n + 1) :
    toI32 (Scalar.ceil (c -. lit (1 / 2) -. r)) ≤ n ∧ n < wrapI32 (toI32 (Scalar.floor (c -. lit (1 / 2) +. r)) + 1) := by
  obtain ⟨hh, hhv⟩ := half_f32
  obtain ⟨k1, k2⟩ := Fl.neg_fin hh
  rw [hhv] at k2
  obtain ⟨r1, r2⟩ := Fl.neg_fin hf
  rw [hr] at r2
  obtain ⟨c1, c2, c3⟩ := hc
  obtain ⟨a1, -, a3, a4⟩ := add_grid (l := n * 2 ^ 10 - 512) (u := n * 2 ^ 10 + 512) c1 k1 (by omega) (by omega) (by rw [k2]; push_cast; linarith) (by rw [k2]; push_cast; linarith)
  obtain ⟨b1, b2, b3, b4⟩ := add_grid (l := n * 2 ^ 10 - 512 - j) (u := n * 2 ^ 10 + 512 - j) a1 r1 (by omega) (by omega)
    (by rw [r2]; push_cast at a3 ⊢; linarith) (by rw [r2]; push_cast at a4 ⊢; linarith)
  obtain ⟨d1, d2, d3, d4⟩ := add_grid (l := n * 2 ^ 10 - 512 + j) (u := n * 2 ^ 10 + 512 + j) a1 hf (by omega) (by omega)
    (by rw [hr]; push_cast at a3 ⊢; linarith) (by rw [hr]; push_cast at a4 ⊢; linarith)
  have wide : ∀ {v : ℚ} {l u : Int}, (l : ℚ) / 2 ^ 10 ≤ v → v ≤ (u : ℚ) / 2 ^ 10 → -2 ^ 24 ≤ l → u ≤ 2 ^ 24 → -2 ^ 24 ≤ v ∧ v ≤ 2 ^ 24 := by
    intro v l u h1 h2 h3 h4
    have h3' : (-2 ^ 24 : ℚ) ≤ l := by exact_mod_cast h3
    have h4' : (u : ℚ) ≤ 2 ^ 24 := by exact_mod_cast h4
    norm_num at *
    constructor <;> linarith
  change toI32 (Scalar.ceil (Fl.add (Fl.add c (Fl.neg (lit (1 / 2)))) (Fl.neg r))) ≤ n ∧
    n < wrapI32 (toI32 (Scalar.floor (Fl.add (Fl.add c (Fl.neg (lit (1 / 2)))) r)) + 1)
  obtain ⟨w1, w2⟩ := wide b3 b4 (by omega) (by omega)
  obtain ⟨w3, w4⟩ := wide d3 d4 (by omega) (by omega)
  rw [Fl.ceil_i32 b1 b2 w1 w2, Fl.floor_i32 d1 d2 w3 w4]
  have f0 : n ≤ ⌊(Fl.add (Fl.add c (Fl.neg (lit (1 / 2)))) r).val⌋ := by
    rw [Int.le_floor]
    refine le_trans ?_ d3
    rw [le_div_iff₀ (by norm_num)]
    have : n * 2 ^ 10 ≤ n * 2 ^ 10 - 512 + j := by omega
    exact_mod_cast this
  have f9 : ⌊(Fl.add (Fl.add c (Fl.neg (lit (1 / 2)))) r).val⌋ ≤ 2 ^ 24 := by
    have := (Int.floor_le (Fl.add (Fl.add c (Fl.neg (lit (1 / 2)))) r).val).trans w4
    exact_mod_cast this
  rw [wrapI32_of_mem (by omega) (by omega)]
  refine ⟨?_, by omega⟩
  rw [Int.ceil_le]
  refine b4.trans ?_
  rw [div_le_iff₀ (by norm_num)]
  have : n * 2 ^ 10 + 512 - j ≤ n * 2 ^ 10 := by omega
  exact_mod_cast this

/-- The sampled area contains the image. -/
theorem image_sampled {res : V2 Int} (filt : Filter F32) {R : Int} (h : PlainFilm res filt.radius R) (hr : 1 / 2 ≤ filt.radius.val) {x y : Int} (hi : InImage res x y) :
    InBox (Film.new res filt).sampleBBox ⟨x, y⟩ := by
  obtain ⟨j, j0, j1, hrv⟩ := h.grid
  obtain ⟨hf, h0, h1, x0, y0, x1, y1, -⟩ := plain_range h
  have hx := h.xle; have hy := h.yle; have h7 := h.small
  have j5 : 512 ≤ j := by
    rw [hrv, le_div_iff₀ (by norm_num)] at hr
    norm_num at hr
    exact_mod_cast hr
  obtain ⟨hh, hhv⟩ := half_f32
  obtain ⟨k1, k2⟩ := Fl.neg_fin hh
  rw [hhv] at k2
  obtain ⟨r1, r2⟩ := Fl.neg_fin hf
  rw [hrv] at r2
  have z : (lit 0 : F32).IsFin ∧ (lit 0 : F32).val = 0 := by rw [Fl.lit_zero]; exact ⟨trivial, by simp [Fl.val, Fl.sgn]⟩
  have low : toI32 (Scalar.floor ((lit 0 : F32) +. lit (1 / 2) -. filt.radius)) ≤ 0 := by
    obtain ⟨a1, -, a3, a4⟩ := add_grid (l := 512) (u := 512) z.1 hh (by omega) (by omega) (by rw [z.2, hhv]; norm_num) (by rw [z.2, hhv]; norm_num)
    obtain ⟨b1, b2, b3, b4⟩ := add_grid (l := 512 - j) (u := 512 - j) a1 r1 (by omega) (by omega) (by rw [r2]; push_cast at a3 ⊢; linarith) (by rw [r2]; push_cast at a4 ⊢; linarith)
    change toI32 (Scalar.floor (Fl.add (Fl.add (lit 0 : F32) (lit (1 / 2))) (Fl.neg filt.radius))) ≤ 0
    have j1' : (j : ℚ) ≤ 7 * 2 ^ 10 := by exact_mod_cast (by omega : j ≤ 7 * 2 ^ 10)
    have j5' : (512 : ℚ) ≤ j := by exact_mod_cast j5
    push_cast at b3 b4
    rw [Fl.floor_i32 b1 b2 (by norm_num at *; linarith) (by norm_num at *; linarith)]
    have : ⌊(Fl.add (Fl.add (lit 0 : F32) (lit (1 / 2))) (Fl.neg filt.radius)).val⌋ < 1 := by
      rw [Int.floor_lt]; push_cast; norm_num at *; linarith
    omega
  have high : ∀ {n : Int}, 0 < n → n ≤ 2 ^ 12 → n ≤ toI32 (Scalar.ceil ((ofInt n : F32) -. lit (1 / 2) +. filt.radius)) := by
    intro n n0 n1
    obtain ⟨i1, i2⟩ := ofInt_exact (n := n) (abs_le.2 ⟨by omega, by omega⟩)
    obtain ⟨a1, -, a3, a4⟩ := add_grid (l := n * 2 ^ 10 - 512) (u := n * 2 ^ 10 - 512) i1 k1 (by omega) (by omega) (by rw [i2, k2]; push_cast; linarith) (by rw [i2, k2]; push_cast; linarith)
    obtain ⟨b1, b2, b3, b4⟩ := add_grid (l := n * 2 ^ 10 - 512 + j) (u := n * 2 ^ 10 - 512 + j) a1 hf (by omega) (by omega) (by rw [hrv]; push_cast at a3 ⊢; linarith) (by rw [hrv]; push_cast at a4 ⊢; linarith)
    change n ≤ toI32 (Scalar.ceil (Fl.add (Fl.add (ofInt n : F32) (Fl.neg (lit (1 / 2)))) filt.radius))
    have j1' : (j : ℚ) ≤ 7 * 2 ^ 10 := by exact_mod_cast (by omega : j ≤ 7 * 2 ^ 10)
    have j5' : (512 : ℚ) ≤ j := by exact_mod_cast j5
    have n0' : (0 : ℚ) ≤ n := by exact_mod_cast n0.le
    have n1' : (n : ℚ) ≤ 2 ^ 12 := by exact_mod_cast n1
    push_cast at b3 b4
    rw [Fl.ceil_i32 b1 b2 (by linarith) (by linarith)]
    have : n - 1 < ⌈(Fl.add (Fl.add (ofInt n : F32) (Fl.neg (lit (1 / 2)))) filt.radius).val⌉ := by
      rw [Int.lt_ceil]; push_cast; linarith
    omega
  have hx' := high x0 hx
  have hy' := high y0 hy
  obtain ⟨i1, i2, i3, i4⟩ := hi
  unfold InBox Film.sampleBBox
  simp only [V2.add, V2.sub, V2.ssub, V2.sadd, V2.floor, V2.ceil, V2.toI, V2.ofI, halfPixel, Film.new]
  simp only [BBox2i.new, V2.imin, V2.imax, imin, imax]
  refine ⟨?_, ?_, ?_, ?_⟩ <;> split_ifs <;> omega

/-- Every pixel of such a film is plain. -/
theorem plain_pixel {res : V2 Int} (filt : Filter F32) {R : Nat} (h : PlainFilm res filt.radius R) (hr : 1 / 2 ≤ filt.radius.val) (radiance : V2 F32 → Draw F32 (Spectrum F32)) (spp : Nat)
    (hs : (2 * R + 1) ^ 2 * max 1 spp ≤ 12500) (hl : PlainLight (Film.new res filt) radiance spp) (x y : Int) (hi : InImage res x y) :
    PlainPixel (Film.new res filt) radiance spp x y := by
  have hperm := c119_all_samples filt h radiance spp x y hi
  refine ⟨?_, (c119_few filt h radiance spp x y hi).trans hs, ?_⟩
  · intro hnil
    rw [hnil] at hperm
    have hnil := hperm.symm.eq_nil
    obtain ⟨i, s, hi', e, v⟩ := hl.own x y hi
    have hmem : s ∈ samplesFrom32 radiance (HaltonSampler.new spp (Film.new res filt).sampleBBox) ⟨x, y⟩ 0 (max 1 spp) := mem_samples.2 ⟨i, hi', e, v⟩
    obtain ⟨j, j0, j1, hrv⟩ := h.grid
    have hx := h.xle; have hy := h.yle; have h7 := h.small
    have j5 : 512 ≤ j := by
      rw [hrv, le_div_iff₀ (by norm_num)] at hr
      norm_num at hr
      exact_mod_cast hr
    obtain ⟨i1, i2, i3, i4⟩ := hi
    obtain ⟨px, py⟩ := sample_pos (p := ⟨x, y⟩) (abs_lt.2 ⟨by simp only; omega, by simp only; omega⟩) (abs_lt.2 ⟨by simp only; omega, by simp only; omega⟩) hmem
    have cx := own_axis h.fin j5 hrv (by omega) i1 (by omega) px
    have cy := own_axis h.fin j5 hrv (by omega) i3 (by omega) py
    have hc : Covers (Film.new res filt).filterRadius s.1 x y := ⟨cx.1, cx.2, cy.1, cy.2⟩
    have : s ∈ reaching (Film.new res filt) radiance spp x y := by
      unfold reaching
      exact List.mem_filter.2 ⟨List.mem_flatMap.2 ⟨⟨x, y⟩, (BBox2i.mem_toList _ _).2 (image_sampled filt h hr ⟨i1, i2, i3, i4⟩), hmem⟩, decide_eq_true hc⟩
    rw [hnil] at this
    cases this
  · intro s hs
    have hs := (hperm.mem_iff).1 hs
    unfold reaching at hs
    obtain ⟨p, hp, hs⟩ := List.mem_flatMap.1 (List.mem_filter.1 hs).1
    obtain ⟨i, hi', e, v⟩ := mem_samples.1 hs
    exact hl.size p i s ((BBox2i.mem_toList _ _).1 hp) hi' e v

end Img

open Img in
/-- C119 for renders as they are made: an image of at most 4096 × 4096 pixels, a Gaussian filter whose radius `r` is a multiple of 1/1024 between 1/2 and 7, with
`α r²` between 1/4 and 8, and at most 12500 samples in the pixels within the radius (for radius 2, 500 samples per pixel).  Whatever is rendered, with any
number of threads and in any schedule: the file is a plain PPM file, and each of its numbers is within 1 of `255 · srgb(colour) + 1/2`, where the colour is the
quotient of the exact sums over all valid samples whose footprint contains the pixel. -/
theorem c119_gaussian [Libm F32] (hp : Spec.PowfAccurate) (hm : Spec.PowfMonotone) (hx : Spec.ExpAccurate) (radius alpha : F32) (nr : Num radius) (na : Num alpha)
    (r0 : 1 / 2 ≤ radius.val) (p0 : 1 / 4 ≤ alpha.val * radius.val ^ 2) (p1 : alpha.val * radius.val ^ 2 ≤ 8) (res : V2 Int) (R : Nat) (h : Spec.PlainFilm res radius R)
    (radiance : V2 F32 → Draw F32 (Spectrum F32)) (spp n : Nat) (hs : (2 * R + 1) ^ 2 * max 1 spp ≤ 12500)
    (hl : Spec.PlainLight (Film.new res (GaussianFilter.new radius alpha).toFilter) radiance spp)
    (st : RState F32 HaltonSampler) (hr : Spec.Rendered (Film.new res (GaussianFilter.new radius alpha).toFilter) radiance spp n none st) :
    let sum := fun (x y : Int) (c : Spec.Entry) => (Spec.fullSum (Film.new res (GaussianFilter.new radius alpha).toFilter) radiance spp x y c : ℝ)
    let want := fun (x y : Int) (c : Spec.Entry) => 255 * Spec.srgb (min 1 (sum x y c / sum x y .weight)) + 1 / 2
    ∃ (text : String) (px : List (Nat × Nat × Nat)), st.file = some text.toUTF8.toList ∧ Spec.IsPpm text res.x res.y px ∧
      ∀ x y, Spec.InImage res x y → ∃ r g b : Nat, px[(y * res.x + x).toNat]? = some (r, g, b) ∧
        |(r : ℝ) - want x y .r| ≤ 1 ∧ |(g : ℝ) - want x y .g| ≤ 1 ∧ |(b : ℝ) - want x y .b| ≤ 1 := by
  intro sum want
  set filt := (GaussianFilter.new radius alpha).toFilter with hfilt
  have hrad : filt.radius = radius := rfl
  have h' : Spec.PlainFilm res filt.radius R := h
  have h7 : radius.val ≤ 7 := by
    obtain ⟨j, j0, j1, hrv⟩ := h.grid
    have := h.small
    have j1' : (j : ℚ) ≤ 7 * 2 ^ 10 := by exact_mod_cast (by omega : j ≤ 7 * 2 ^ 10)
    rw [hrv, div_le_iff₀ (by norm_num)]; exact j1'
  have a0 : alpha.val ≤ 32 := by
    by_contra hc
    have k1 : (1 / 4 : ℚ) ≤ radius.val ^ 2 := by nlinarith
    have k2 : alpha.val * (1 / 4) ≤ alpha.val * radius.val ^ 2 := mul_le_mul_of_nonneg_left k1 (by linarith)
    linarith
  have hP : Spec.PositiveFilter (Film.new res filt) :=
    c14_table_f32 hx radius alpha nr na (by linarith) (by norm_num at *; linarith) (by norm_num at *; linarith) p0 p1 res
  have hspp : spp < 2 ^ 32 := by
    have h1 : max 1 spp ≤ (2 * R + 1) ^ 2 * max 1 spp := Nat.le_mul_of_pos_left _ (by positivity)
    omega
  have key := c119_file hp hm res filt (plain_range h') h7 hP radiance spp n hspp st hr fun x y hi => plain_pixel filt h' r0 radiance spp hs hl x y hi
  obtain ⟨text, px, e1, e2, e3⟩ := key
  refine ⟨text, px, e1, e2, ?_⟩
  intro x y hi
  obtain ⟨r, g, b, e4, k1, k2, k3⟩ := e3 x y hi
  have es : ∀ c, Spec.exactSum (Film.new res filt) radiance spp x y c = Spec.fullSum (Film.new res filt) radiance spp x y c := by
    intro c
    unfold Spec.exactSum Spec.fullSum
    exact ((c119_all_samples filt h' radiance spp x y hi).map _).sum_eq
  simp only [es] at k1 k2 k3
  exact ⟨r, g, b, e4, k1, k2, k3⟩

/-! ### A case: the film of the example program -/

theorem Demo.hello_plain : Spec.PlainFilm ⟨1600, 1280⟩ (lit 2 : F32) 2 := by
  obtain ⟨n2, v2⟩ := Gauss.two_num
  exact ⟨n2.fin, ⟨2048, by norm_num, by norm_num, by rw [v2]; norm_num⟩, by norm_num, by norm_num, by norm_num, by norm_num, by norm_num⟩

open Img Spec in
/-- Everything has one colour: then the light is plain, whatever the film. -/
theorem Demo.dark_plain (film : Film F32) (spp : Nat) : Spec.PlainLight film (fun _ => .ret Demo.dark) spp := by
  constructor
  · intro p i s _ _ h _
    have e : s.2 = Demo.dark := by
      unfold sample32 oneSample at h
      obtain ⟨⟨s', t⟩, h3, e3⟩ := Option.map_eq_some_iff.1 h
      have e3 : s' = s := e3
      subst e3
      rw [getCameraSample] at h3
      simp only [Draw.bind, Draw.run] at h3
      split at h3
      · cases h3
      · simp only [Option.some.injEq, Prod.mk.injEq] at h3
        rw [← h3.1]
    have dark : ∀ c : F32, c = lit (20858214 / 2 ^ 33) → c.WF ∧ c.val ≤ 2 ^ 50 := by
      rintro c rfl
      refine ⟨Fl.lit_WF _, ?_⟩
      have : (lit (20858214 / 2 ^ 33) : F32) = .fin false (20858214 / 2 ^ 33) := by decide +kernel
      rw [this]; norm_num [Fl.val, Fl.sgn]
    rw [e]
    exact ⟨dark _ rfl, dark _ rfl, dark _ rfl⟩
  · intro x y _
    obtain ⟨s1, e1, -, -⟩ := Sched.cam_run (α := F32) (HaltonSampler.new spp film.sampleBBox) ⟨x, y⟩
    refine ⟨0, (Sched.posOf (HaltonSampler.new spp film.sampleBBox) ⟨x, y⟩, Demo.dark), by omega, ?_, Sched.valid13⟩
    unfold sample32
    have r : (oneSample (fun _ => .ret Demo.dark) ⟨x, y⟩).run HaltonSampler.ops (sampleState (HaltonSampler.new spp film.sampleBBox) ⟨x, y⟩ 0) =
        some ((Sched.posOf (HaltonSampler.new spp film.sampleBBox) ⟨x, y⟩, Demo.dark), s1) := by
      show (oneSample (fun _ => .ret Demo.dark) ⟨x, y⟩).run HaltonSampler.ops ((HaltonSampler.ops : SamplerOps F32 _).startPixel (HaltonSampler.new spp film.sampleBBox) ⟨x, y⟩) = _
      unfold oneSample
      simp only [getCameraSample, Draw.run, Draw.bind] at e1 ⊢
      split at e1
      · cases e1
      · simp only [Option.some.injEq, Prod.mk.injEq] at e1 ⊢
        rw [e1.1, e1.2]
        exact ⟨⟨rfl, trivial⟩, rfl⟩
    rw [r]; rfl

/-- C03, a case: the film of the example program, a sample in the middle of pixel (7, 7) and the first tile that has it. -/
example (b : BBox2i) (hb : b ∈ (Film.new ⟨1600, 1280⟩ Demo.gauss2).iter.toList) (hp : Spec.InBox b ⟨7, 7⟩) (pf : V2 F32) (nx : Num pf.x) (ny : Num pf.y)
    (ex : pf.x.val = 15 / 2) (ey : pf.y.val = 15 / 2) (s : Spectrum F32) :
    ∃ t', ((Film.new ⟨1600, 1280⟩ Demo.gauss2).getFilmTile b).addSample pf s = some t' ∧ InTile t' 8 7 := by
  obtain ⟨n2, v2⟩ := Gauss.two_num
  have hr : Demo.gauss2.radius = lit 2 := rfl
  have hpl : Spec.PlainFilm ⟨1600, 1280⟩ Demo.gauss2.radius 2 := Demo.hello_plain
  obtain ⟨t', e1, -, e3⟩ := c03_f32 Demo.gauss2 hpl n2.wf b hb _ rfl rfl rfl
    (getFilmTile_sized _ b (fits_of_inFilm (Film.new ⟨1600, 1280⟩ Demo.gauss2) (Img.plain_range hpl).area b (tilesFit_f32 _ _ (Img.plain_range hpl) b hb))) ⟨7, 7⟩ hp pf nx ny (by rw [ex]; norm_num) (by rw [ey]; norm_num) s
  refine ⟨t', e1, ((e3 8 7 ⟨by norm_num, by norm_num, by norm_num, by norm_num⟩).1 ?_).1⟩
  rw [hr, v2, ex, ey]; norm_num [abs_le]

/-- C119, how many samples count, a case: at most 12500 for any pixel of the example program's image, whatever is rendered. -/
example (radiance : V2 F32 → Draw F32 (Spectrum F32)) : (Spec.counted (Film.new ⟨1600, 1280⟩ Demo.gauss2) radiance 500 799 639).length ≤ 12500 :=
  (c119_few (R := 2) Demo.gauss2 Demo.hello_plain radiance 500 799 639 ⟨by norm_num, by norm_num, by norm_num, by norm_num⟩).trans (by norm_num)

/-- C119, which samples count, a case. -/
example (radiance : V2 F32 → Draw F32 (Spectrum F32)) : (Spec.counted (Film.new ⟨1600, 1280⟩ Demo.gauss2) radiance 500 15 16).Perm
    (Spec.reaching (Film.new ⟨1600, 1280⟩ Demo.gauss2) radiance 500 15 16) :=
  c119_all_samples (R := 2) Demo.gauss2 Demo.hello_plain radiance 500 15 16 ⟨by norm_num, by norm_num, by norm_num, by norm_num⟩

/-- C119, a case: 500 samples for each pixel, film and filter as in the example program. -/
example (n : Nat) (st : RState F32 HaltonSampler) (h : @Spec.Rendered F32 _ Demo.gaussLibm (Film.new ⟨1600, 1280⟩ Demo.gauss2) (fun _ => .ret Demo.dark) 500 n none st) :
    ∃ (text : String) (px : List (Nat × Nat × Nat)), st.file = some text.toUTF8.toList ∧ Spec.IsPpm text 1600 1280 px := by
  let := Demo.gaussLibm
  obtain ⟨n2, v2⟩ := Gauss.two_num
  obtain ⟨text, px, e1, e2, -⟩ := c119_gaussian (by exact Demo.fine_accurate) 
    ⟨@Spec.PowfMonotone.mono Demo.fineLibm Demo.fine_monotone, @Spec.PowfMonotone.wf Demo.fineLibm Demo.fine_monotone, @Spec.PowfMonotone.low Demo.fineLibm Demo.fine_monotone⟩
    Demo.exp_accurate (lit 2) (lit 2) n2 n2 (by rw [v2]; norm_num) (by rw [v2]; norm_num)
    (by rw [v2]; norm_num) ⟨1600, 1280⟩ 2 Demo.hello_plain (fun _ => .ret Demo.dark) 500 n (by norm_num) (Demo.dark_plain _ _) st h
  exact ⟨text, px, e1, e2⟩

end PT
