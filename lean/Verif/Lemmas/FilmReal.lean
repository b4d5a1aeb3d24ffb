import Verif.Lemmas.Film
import Mathlib.Tactic.Linarith
import Mathlib.Tactic.Positivity

namespace PT

theorem truncInt_intCast (n : Int) : truncInt (n : ℝ) = n := by
  unfold truncInt; split_ifs <;> simp

theorem satInt_of_mem {n lo hi : Int} (h1 : lo ≤ n) (h2 : n ≤ hi) : satInt n lo hi = n := by
  unfold satInt; split_ifs <;> omega

theorem toI32_int {n : Int} (h1 : -2 ^ 31 ≤ n) (h2 : n ≤ 2 ^ 31 - 1) : toI32 (n : ℝ) = n := by
  unfold toI32
  rw [r_toInt, truncInt_intCast, satInt_of_mem h1 h2]

theorem half_real : (lit (1 / 2 : ℚ) : ℝ) = 1 / 2 := by rw [r_lit]; norm_num

/-- Sizes for which no `i32` conversion saturates and no `i32` product (the area, a pixel's offset) wraps. -/
structure FilmRange (res : V2 Int) (r : ℝ) : Prop where
  rpos : 0 < r
  rle : r ≤ 2 ^ 29
  x0 : 0 < res.x
  y0 : 0 < res.y
  xle : res.x ≤ 2 ^ 29
  yle : res.y ≤ 2 ^ 29
  area : res.x * res.y < 2 ^ 31

section axis
variable {n : Int} {r : ℝ}

theorem sample_lo (hr0 : 0 < r) (hr : r ≤ 2 ^ 29) :
    toI32 (Scalar.floor ((lit 0 : ℝ) +. lit (1 / 2) -. r)) = ⌊1 / 2 - r⌋ := by
  real_ops
  have h1 : (⌊(1 / 2 - r : ℝ)⌋ : ℝ) ≤ 1 / 2 - r := Int.floor_le _
  have h2 : (1 / 2 - r : ℝ) < ⌊(1 / 2 - r : ℝ)⌋ + 1 := Int.lt_floor_add_one _
  have : ((0 : ℝ) + 1 / 2 - r) = 1 / 2 - r := by ring
  rw [this, toI32_int]
  · by_contra hc
    have : (⌊(1 / 2 - r : ℝ)⌋ : ℝ) ≤ -2 ^ 31 - 1 := by exact_mod_cast (by omega : ⌊(1 / 2 - r : ℝ)⌋ ≤ -2 ^ 31 - 1)
    linarith
  · by_contra hc
    have : (2 ^ 31 : ℝ) ≤ ⌊(1 / 2 - r : ℝ)⌋ := by exact_mod_cast (by omega : 2 ^ 31 ≤ ⌊(1 / 2 - r : ℝ)⌋)
    linarith

theorem ceil_range (a : ℝ) (h1 : -2 ^ 31 ≤ a) (h2 : a ≤ 2 ^ 31 - 1) : toI32 (Scalar.ceil a) = ⌈a⌉ := by
  real_ops
  apply toI32_int
  · have : (-2 ^ 31 : ℝ) ≤ ⌈a⌉ := h1.trans (Int.le_ceil a)
    exact_mod_cast this
  · rw [Int.ceil_le]; push_cast; linarith

theorem floor_range (a : ℝ) (h1 : -2 ^ 31 ≤ a) (h2 : a ≤ 2 ^ 31 - 1) : toI32 (Scalar.floor a) = ⌊a⌋ := by
  real_ops
  apply toI32_int
  · rw [Int.le_floor]; push_cast; linarith
  · have : (⌊a⌋ : ℝ) ≤ 2 ^ 31 - 1 := (Int.floor_le a).trans h2
    exact_mod_cast this
end axis

theorem sampleBBox_eq (film : Film ℝ) (h : FilmRange film.resolution film.filterRadius) :
    film.sampleBBox = ⟨⟨⌊1 / 2 - film.filterRadius⌋, ⌊1 / 2 - film.filterRadius⌋⟩,
      ⟨⌈(film.resolution.x : ℝ) - 1 / 2 + film.filterRadius⌉,
       ⌈(film.resolution.y : ℝ) - 1 / 2 + film.filterRadius⌉⟩⟩ := by
  obtain ⟨h1, h2, h3, h4, h5, h6⟩ := h
  have hx0 : (1 : ℝ) ≤ film.resolution.x := by exact_mod_cast h3
  have hy0 : (1 : ℝ) ≤ film.resolution.y := by exact_mod_cast h4
  have hx1 : (film.resolution.x : ℝ) ≤ 2 ^ 29 := by exact_mod_cast h5
  have hy1 : (film.resolution.y : ℝ) ≤ 2 ^ 29 := by exact_mod_cast h6
  have e1 : toI32 (Scalar.ceil ((ofInt film.resolution.x : ℝ) -. lit (1 / 2) +. film.filterRadius)) =
      ⌈(film.resolution.x : ℝ) - 1 / 2 + film.filterRadius⌉ := by
    rw [r_ofInt, half_real, r_sub, r_add]
    exact ceil_range _ (by linarith) (by linarith)
  have e2 : toI32 (Scalar.ceil ((ofInt film.resolution.y : ℝ) -. lit (1 / 2) +. film.filterRadius)) =
      ⌈(film.resolution.y : ℝ) - 1 / 2 + film.filterRadius⌉ := by
    rw [r_ofInt, half_real, r_sub, r_add]
    exact ceil_range _ (by linarith) (by linarith)
  have hf : ⌊1 / 2 - film.filterRadius⌋ ≤ 0 := by
    have : ⌊1 / 2 - film.filterRadius⌋ < 1 := by rw [Int.floor_lt]; push_cast; linarith
    omega
  have hcx : 0 < ⌈(film.resolution.x : ℝ) - 1 / 2 + film.filterRadius⌉ := by
    rw [Int.lt_ceil]; push_cast; linarith
  have hcy : 0 < ⌈(film.resolution.y : ℝ) - 1 / 2 + film.filterRadius⌉ := by
    rw [Int.lt_ceil]; push_cast; linarith
  unfold Film.sampleBBox
  simp only [V2.add, V2.sub, V2.ssub, V2.sadd, V2.floor, V2.ceil, V2.toI, V2.ofI, halfPixel]
  rw [sample_lo h1 h2, e1, e2]
  simp only [BBox2i.new, V2.imin, V2.imax, imin, imax, BBox2i.mk.injEq, V2.mk.injEq]
  refine ⟨⟨?_, ?_⟩, ?_, ?_⟩ <;> split_ifs <;> omega

/-- Geometry of a tile's pixel buffer. -/
theorem getFilmTile_bbox (film : Film ℝ) (h : FilmRange film.resolution film.filterRadius) {b : BBox2i}
    (hb : b ∈ film.iter.toList) : (film.getFilmTile b).bbox =
    ⟨⟨max ⌈(b.min.x : ℝ) - 1 / 2 - film.filterRadius⌉ 0, max ⌈(b.min.y : ℝ) - 1 / 2 - film.filterRadius⌉ 0⟩,
     ⟨min ⌊(b.max.x : ℝ) + 1 / 2 + film.filterRadius⌋ film.resolution.x,
      min ⌊(b.max.y : ℝ) + 1 / 2 + film.filterRadius⌋ film.resolution.y⟩⟩ := by
  have hS := sampleBBox_eq film h
  obtain ⟨h1, h2, h3, h4, h5, h6⟩ := h
  unfold Film.iter at hb
  obtain ⟨i, j, hi0, hi, hj0, hj, rfl⟩ := (mem_tiles _ _).1 hb
  rw [tileAt_eq _ i j hi hj]
  rw [hS] at hi hj ⊢
  simp only at hi hj ⊢
  set r := film.filterRadius with hr
  set sx : Int := ⌊1 / 2 - r⌋ with hsx
  set ex : Int := ⌈(film.resolution.x : ℝ) - 1 / 2 + r⌉ with hex
  set ey : Int := ⌈(film.resolution.y : ℝ) - 1 / 2 + r⌉ with hey
  have hx0 : (1 : ℝ) ≤ film.resolution.x := by exact_mod_cast h3
  have hy0 : (1 : ℝ) ≤ film.resolution.y := by exact_mod_cast h4
  have hx1 : (film.resolution.x : ℝ) ≤ 2 ^ 29 := by exact_mod_cast h5
  have hy1 : (film.resolution.y : ℝ) ≤ 2 ^ 29 := by exact_mod_cast h6
  have hs1 : (sx : ℝ) ≤ 1 / 2 - r := Int.floor_le _
  have hs2 : (1 / 2 - r : ℝ) < sx + 1 := Int.lt_floor_add_one _
  have hex2 : (ex : ℝ) < film.resolution.x - 1 / 2 + r + 1 := Int.ceil_lt_add_one _
  have hey2 : (ey : ℝ) < film.resolution.y - 1 / 2 + r + 1 := Int.ceil_lt_add_one _
  -- one axis
  have axis : ∀ (m M res e : Int), (1 : ℝ) ≤ res → (res : ℝ) ≤ 2 ^ 29 → (e : ℝ) < res - 1 / 2 + r + 1 →
      sx ≤ m → m < M → M ≤ e →
      toI32 (Scalar.ceil ((ofInt m : ℝ) -. lit (1 / 2) -. r)) = ⌈(m : ℝ) - 1 / 2 - r⌉ ∧
      toI32 (Scalar.floor ((ofInt M : ℝ) +. lit (1 / 2) +. r)) = ⌊(M : ℝ) + 1 / 2 + r⌋ ∧
      ⌈(m : ℝ) - 1 / 2 - r⌉ ≤ ⌊(M : ℝ) + 1 / 2 + r⌋ ∧ ⌈(m : ℝ) - 1 / 2 - r⌉ ≤ res ∧
      0 ≤ ⌊(M : ℝ) + 1 / 2 + r⌋ := by
    intro m M res e r1 r2 r3 a1 a2 a3
    have a1' : (sx : ℝ) ≤ m := by exact_mod_cast a1
    have a2' : (m : ℝ) + 1 ≤ M := by exact_mod_cast a2
    have a3' : (M : ℝ) ≤ e := by exact_mod_cast a3
    refine ⟨?_, ?_, ?_, ?_, ?_⟩
    · rw [r_ofInt, half_real, r_sub, r_sub]
      exact ceil_range _ (by linarith) (by linarith)
    · rw [r_ofInt, half_real, r_add, r_add]
      exact floor_range _ (by linarith) (by linarith)
    · rw [Int.ceil_le]
      have := Int.lt_floor_add_one ((M : ℝ) + 1 / 2 + r)
      linarith
    · rw [Int.ceil_le]; linarith
    · rw [Int.le_floor]; push_cast; linarith
  obtain ⟨ax1, ax2, ax3, ax4, ax5⟩ := axis (sx + i * 16) (min (sx + i * 16 + 16) ex) film.resolution.x ex
    hx0 hx1 hex2 (by omega) (by omega) (by omega)
  obtain ⟨ay1, ay2, ay3, ay4, ay5⟩ := axis (sx + j * 16) (min (sx + j * 16 + 16) ey) film.resolution.y ey
    hy0 hy1 hey2 (by omega) (by omega) (by omega)
  unfold Film.getFilmTile
  simp only [V2.add, V2.sub, V2.ssub, V2.sadd, V2.floor, V2.ceil, V2.toI, V2.ofI, halfPixel, FilmTile.new]
  rw [← hr, ax1, ax2, ay1, ay2]
  simp only [BBox2i.new, V2.imin, V2.imax, imin, imax, BBox2i.mk.injEq, V2.mk.injEq]
  refine ⟨⟨?_, ?_⟩, ?_, ?_⟩ <;> split_ifs <;> omega

/-- Bounds of a sample's footprint. -/
theorem covers_iff {r : ℝ} (h0 : 0 < r) (h1 : r ≤ 2 ^ 29) (pf : V2 ℝ) (hx1 : -2 ^ 30 ≤ pf.x)
    (hx2 : pf.x ≤ 2 ^ 30 + 1) (hy1 : -2 ^ 30 ≤ pf.y) (hy2 : pf.y ≤ 2 ^ 30 + 1) (x y : Int) :
    Covers r pf x y ↔ |(x : ℝ) + 1 / 2 - pf.x| ≤ r ∧ |(y : ℝ) + 1 / 2 - pf.y| ≤ r := by
  have lo : ∀ (p : ℝ) (x : Int), -2 ^ 30 ≤ p → p ≤ 2 ^ 30 + 1 →
      (toI32 (Scalar.ceil (p -. lit (1 / 2) -. r)) ≤ x ↔ p - 1 / 2 - r ≤ x) := by
    intro p x a b
    rw [half_real, r_sub, r_sub, ceil_range _ (by linarith) (by linarith), Int.ceil_le]
  have hi : ∀ (p : ℝ) (x : Int), -2 ^ 30 ≤ p → p ≤ 2 ^ 30 + 1 →
      (x < wrapI32 (toI32 (Scalar.floor (p -. lit (1 / 2) +. r)) + 1) ↔ (x : ℝ) ≤ p - 1 / 2 + r) := by
    intro p x a b
    rw [half_real, r_sub, r_add, floor_range _ (by linarith) (by linarith), wrapI32_of_mem]
    · rw [Int.lt_add_one_iff, Int.le_floor]
    · have : -2 ^ 31 ≤ ⌊p - 1 / 2 + r⌋ := by rw [Int.le_floor]; push_cast; linarith
      omega
    · have : ⌊p - 1 / 2 + r⌋ < 2 ^ 31 - 1 := by rw [Int.floor_lt]; push_cast; linarith
      omega
  unfold Covers rawMin rawMax
  simp only [V2.sub, V2.ssub, V2.sadd, V2.floor, V2.ceil, V2.toI, halfPixel]
  rw [lo pf.x x hx1 hx2, lo pf.y y hy1 hy2, hi pf.x x hx1 hx2, hi pf.y y hy1 hy2, abs_le, abs_le]
  constructor
  · rintro ⟨a, b, c, d⟩; refine ⟨⟨?_, ?_⟩, ?_, ?_⟩ <;> linarith
  · rintro ⟨⟨a, b⟩, c, d⟩; refine ⟨?_, ?_, ?_, ?_⟩ <;> linarith

end PT
