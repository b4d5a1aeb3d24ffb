import Verif.Lemmas.FilmReal
import Verif.Props.Iter

/-!
# The film: tiles, footprints, accumulation (C03, C04, C05)
-/

namespace PT

/-! ### Specification -/

/-- The pixel `(x, y)` belongs to an image of the given resolution. -/
def Spec.InImage (res : V2 Int) (x y : Int) : Prop := 0 ≤ x ∧ x < res.x ∧ 0 ≤ y ∧ y < res.y

/-- The centre of pixel `(x, y)` is within the filter radius of the film position, on both axes. -/
def Spec.Within (r : ℝ) (pf : V2 ℝ) (x y : Int) : Prop :=
  |(x : ℝ) + 1 / 2 - pf.x| ≤ r ∧ |(y : ℝ) + 1 / 2 - pf.y| ≤ r

/-- The radius `[0, r]` is cut into 16 cells; this is the centre of the cell containing the distance `d`
(a distance of exactly `r` belongs to the last cell). -/
noncomputable def Spec.cellCentre (r d : ℝ) : ℝ := ((min ⌊16 * d / r⌋ 15 : Int) + 1 / 2) * r / 16

/-- The filter weight that pixel `(x, y)` receives from a sample at `pf`. -/
noncomputable def Spec.weight (filt : Filter ℝ) (pf : V2 ℝ) (x y : Int) : ℝ :=
  filt.evaluate ⟨Spec.cellCentre filt.radius |(x : ℝ) + 1 / 2 - pf.x|,
    Spec.cellCentre filt.radius |(y : ℝ) + 1 / 2 - pf.y|⟩

/-- The film position lies in the (closed) region of a tile. -/
def Spec.PosIn (b : BBox2i) (pf : V2 ℝ) : Prop :=
  b.min.x ≤ pf.x ∧ pf.x ≤ b.max.x ∧ b.min.y ≤ pf.y ∧ pf.y ≤ b.max.y

/-! ### Lemmas connecting model and specification -/

theorem tableIndex_real {r p : ℝ} (hr : 0 < r) (x : Int) (h : |(x : ℝ) - p| ≤ r) :
    (tableIndex r p x : Int) = min ⌊16 * |(x : ℝ) - p| / r⌋ 15 := by
  unfold tableIndex toUsize
  have h16 : (ofInt (filterTableWidth : Int) : ℝ) = 16 := by rw [r_ofInt]; norm_num [filterTableWidth]
  rw [h16, r_ofInt, r_sub, r_div, r_mul, r_abs, r_floor, r_toInt, truncInt_intCast]
  have e : |((x : ℝ) - p) / r * 16| = 16 * |(x : ℝ) - p| / r := by
    rw [abs_mul, abs_div, abs_of_pos hr, abs_of_pos (by norm_num : (0 : ℝ) < 16)]; ring
  rw [e]
  have h0 : 0 ≤ ⌊16 * |(x : ℝ) - p| / r⌋ := by
    rw [Int.le_floor]; push_cast; positivity
  have h1 : ⌊16 * |(x : ℝ) - p| / r⌋ ≤ 16 := by
    have : 16 * |(x : ℝ) - p| / r ≤ 16 := by rw [div_le_iff₀ hr]; linarith
    have := (Int.floor_le (16 * |(x : ℝ) - p| / r)).trans this
    exact_mod_cast this
  rw [satInt_of_mem h0 (by omega)]
  simp only [filterTableWidth]
  change ((min _ _ : Nat) : Int) = _
  omega

theorem tableGet_mk (filt : Filter ℝ) {i j : Nat} (hi : i < 16) (hj : j < 16) :
    tableGet (mkFilterTable filt) i j =
      filt.evaluate ⟨((j : ℝ) + 1 / 2) * filt.radius / 16, ((i : ℝ) + 1 / 2) * filt.radius / 16⟩ := by
  have h16 : (ofInt (filterTableWidth : Int) : ℝ) = 16 := by rw [r_ofInt]; norm_num [filterTableWidth]
  simp only [tableGet, mkFilterTable, List.getElem?_map]
  rw [List.getElem?_range (by simpa [filterTableWidth] using hi)]
  simp only [Option.map_some, Option.getD_some, List.getElem?_map]
  rw [List.getElem?_range (by simpa [filterTableWidth] using hj)]
  simp only [Option.map_some, Option.getD_some, h16]
  simp only [r_ofInt, half_real, r_add, r_mul, r_div]
  norm_num

theorem sampleWeight_real (filt : Filter ℝ) (hr : 0 < filt.radius) (pf : V2 ℝ) (x y : Int)
    (h : Spec.Within filt.radius pf x y) :
    sampleWeight filt.radius (mkFilterTable filt) pf x y = Spec.weight filt pf x y := by
  have half : ∀ (p : ℝ) (x : Int), (x : ℝ) - (p - 1 / 2) = (x : ℝ) + 1 / 2 - p := by intros; ring
  have key : ∀ (p : ℝ) (x : Int), |(x : ℝ) + 1 / 2 - p| ≤ filt.radius →
      ((tableIndex filt.radius (p -. lit (1 / 2)) x : Nat) : ℝ) =
        ((min ⌊16 * |(x : ℝ) + 1 / 2 - p| / filt.radius⌋ 15 : Int) : ℝ) := by
    intro p x hp
    rw [half_real, r_sub]
    have := tableIndex_real hr (p := p - 1 / 2) x (by rw [half]; exact hp)
    rw [half] at this
    rw [← this]; simp
  unfold sampleWeight
  rw [tableGet_mk filt (tableIndex_lt ..) (tableIndex_lt ..)]
  simp only [V2.sub, halfPixel]
  rw [key pf.x x h.1, key pf.y y h.2]
  rfl

theorem posIn_range {film : Film ℝ} (h : FilmRange film.resolution film.filterRadius) {b : BBox2i}
    (hb : b ∈ film.iter.toList) {pf : V2 ℝ} (hp : Spec.PosIn b pf) :
    -2 ^ 30 ≤ pf.x ∧ pf.x ≤ 2 ^ 30 + 1 ∧ -2 ^ 30 ≤ pf.y ∧ pf.y ≤ 2 ^ 30 + 1 := by
  have hS := sampleBBox_eq film h
  obtain ⟨h1, h2, h3, h4, h5, h6⟩ := h
  obtain ⟨i, j, hi0, hi, hj0, hj, rfl⟩ := (mem_tiles _ _).1 hb
  rw [tileAt_eq _ i j hi hj] at hp
  rw [hS] at hi hj hp
  obtain ⟨p1, p2, p3, p4⟩ := hp
  simp only at hi hj p1 p2 p3 p4
  set r := film.filterRadius
  set sx : Int := ⌊1 / 2 - r⌋ with hsx
  have hx1 : (film.resolution.x : ℝ) ≤ 2 ^ 29 := by exact_mod_cast h5
  have hy1 : (film.resolution.y : ℝ) ≤ 2 ^ 29 := by exact_mod_cast h6
  have hs2 : (1 / 2 - r : ℝ) < sx + 1 := Int.lt_floor_add_one _
  have hex2 := Int.ceil_lt_add_one ((film.resolution.x : ℝ) - 1 / 2 + r)
  have hey2 := Int.ceil_lt_add_one ((film.resolution.y : ℝ) - 1 / 2 + r)
  have a1 : (sx : ℝ) ≤ (sx + i * 16 : Int) := by exact_mod_cast (by omega : sx ≤ sx + i * 16)
  have a2 : (sx : ℝ) ≤ (sx + j * 16 : Int) := by exact_mod_cast (by omega : sx ≤ sx + j * 16)
  have b1 : ((min (sx + i * 16 + 16) ⌈(film.resolution.x : ℝ) - 1 / 2 + r⌉ : Int) : ℝ) ≤
      ⌈(film.resolution.x : ℝ) - 1 / 2 + r⌉ := by exact_mod_cast min_le_right _ _
  have b2 : ((min (sx + j * 16 + 16) ⌈(film.resolution.y : ℝ) - 1 / 2 + r⌉ : Int) : ℝ) ≤
      ⌈(film.resolution.y : ℝ) - 1 / 2 + r⌉ := by exact_mod_cast min_le_right _ _
  refine ⟨?_, ?_, ?_, ?_⟩ <;> linarith

/-- Inside the image, the footprint of a sample taken in a tile never leaves the tile's buffer. -/
theorem within_inTile {film : Film ℝ} (h : FilmRange film.resolution film.filterRadius) {b : BBox2i}
    (hb : b ∈ film.iter.toList) {pf : V2 ℝ} (hp : Spec.PosIn b pf) {x y : Int}
    (hi : Spec.InImage film.resolution x y) (hw : Spec.Within film.filterRadius pf x y) :
    InTile (film.getFilmTile b) x y := by
  obtain ⟨⟨a1, a2⟩, a3, a4⟩ := And.intro (abs_le.1 hw.1) (abs_le.1 hw.2)
  obtain ⟨p1, p2, p3, p4⟩ := hp
  obtain ⟨i1, i2, i3, i4⟩ := hi
  unfold InTile
  rw [getFilmTile_bbox film h hb]
  simp only
  have c1 : ⌈(b.min.x : ℝ) - 1 / 2 - film.filterRadius⌉ ≤ x := by rw [Int.ceil_le]; linarith
  have c2 : ⌈(b.min.y : ℝ) - 1 / 2 - film.filterRadius⌉ ≤ y := by rw [Int.ceil_le]; linarith
  have c3 : x + 1 ≤ ⌊(b.max.x : ℝ) + 1 / 2 + film.filterRadius⌋ := by
    rw [Int.le_floor]; push_cast; linarith
  have c4 : y + 1 ≤ ⌊(b.max.y : ℝ) + 1 / 2 + film.filterRadius⌋ := by
    rw [Int.le_floor]; push_cast; linarith
  omega

theorem inTile_inFilm {film : Film ℝ} (h : FilmRange film.resolution film.filterRadius) {b : BBox2i}
    (hb : b ∈ film.iter.toList) {x y : Int} (hin : InTile (film.getFilmTile b) x y) :
    InFilm film x y := by
  unfold InTile at hin
  rw [getFilmTile_bbox film h hb] at hin
  unfold InFilm
  simp only at hin
  omega

/-! ### C03 -/

/-- C03.  Let `b` be a tile of the film and `t` the tile's buffer in any state.  A sample taken at a
position of `b` changes exactly the image pixels whose centre is within the filter radius, all of which
have a slot in the tile, and adds to them the filter's value at the centre of their table cell. -/
theorem c03_sample_footprint (res : V2 Int) (filt : Filter ℝ) (hR : FilmRange res filt.radius)
    (b : BBox2i) (hb : b ∈ (Film.new res filt).iter.toList)
    (t : FilmTile ℝ) (ht : t.bbox = ((Film.new res filt).getFilmTile b).bbox)
    (htr : t.filterRadius = filt.radius) (htt : t.filterTable = mkFilterTable filt) (hts : t.Sized)
    (pf : V2 ℝ) (hp : Spec.PosIn b pf) (s : Spectrum ℝ) :
    ∃ t', t.addSample pf s = some t' ∧ t'.bbox = t.bbox ∧
      ∀ x y, Spec.InImage res x y →
        (Spec.Within filt.radius pf x y →
          InTile t' x y ∧
          t'.px x y =
            ⟨⟨(t.px x y).color.r + s.r * Spec.weight filt pf x y,
              (t.px x y).color.g + s.g * Spec.weight filt pf x y,
              (t.px x y).color.b + s.b * Spec.weight filt pf x y⟩,
             (t.px x y).weight + Spec.weight filt pf x y⟩) ∧
        (¬ Spec.Within filt.radius pf x y → InTile t' x y → t'.px x y = t.px x y) := by
  obtain ⟨t', e1, e2, e3, e4, e5, e6⟩ := addSample_spec t (by rw [htt]; exact mkFilterTable_ok filt) hts pf s
  refine ⟨t', e1, e2, ?_⟩
  intro x y hi
  obtain ⟨q1, q2, q3, q4⟩ := posIn_range (film := Film.new res filt) hR hb hp
  have hcov := covers_iff hR.rpos hR.rle pf q1 q2 q3 q4 x y
  have hsome : InTile t x y → ∃ v, t.pixels[t.pixelOffset x y]? = some v := by
    intro hin
    have := tile_offset_lt hts hin
    exact ⟨t.pixels[t.pixelOffset x y], by simp [this]⟩
  constructor
  · intro hw
    have hin : InTile t x y := by
      have := within_inTile (film := Film.new res filt) hR hb hp hi hw
      unfold InTile at this ⊢; rw [ht]; exact this
    refine ⟨by unfold InTile at hin ⊢; rw [e2]; exact hin, ?_⟩
    obtain ⟨v, hv⟩ := hsome hin
    unfold FilmTile.px
    rw [e6 x y hin, hv, htr, htt]
    simp only [if_pos (hcov.2 hw), Option.map_some, Option.getD_some, Pixel.addSample, Spectrum.add, Spectrum.smul, r_add, r_mul]
    rw [sampleWeight_real filt hR.rpos pf x y hw]
  · intro hw hin'
    have hin : InTile t x y := by unfold InTile at hin' ⊢; rw [e2] at hin'; exact hin'
    obtain ⟨v, hv⟩ := hsome hin
    unfold FilmTile.px
    rw [e6 x y hin, hv, htr]
    simp only [if_neg (fun hc => hw (hcov.1 hc)), Option.map_some]

/-! ### C04 -/

/-- C04.  Whatever the number type, the tile region (if the pixels of its buffer can be counted in `i32`) and the sample
positions (NaN and infinities included), no sequence of `add_sample` calls on a tile of a film indexes out of bounds. -/
theorem c04_add_sample_never_panics {α : Type} [Scalar α] (res : V2 Int) (filt : Filter α) (b : BBox2i)
    (hb : Spec.Fits ((Film.new res filt).getFilmTile b).bbox) (samples : List (V2 α × Spectrum α)) :
    ∃ t', samples.foldlM (fun t s => t.addSample s.1 s.2) ((Film.new res filt).getFilmTile b) = some t' := by
  suffices H : ∀ (samples : List (V2 α × Spectrum α)) (t : FilmTile α), TableOK t.filterTable → t.Sized →
      ∃ t', samples.foldlM (fun t s => t.addSample s.1 s.2) t = some t' from
    H samples _ (mkFilterTable_ok filt) (getFilmTile_sized _ _ hb)
  intro samples
  induction samples with
  | nil => intro t _ _; exact ⟨t, rfl⟩
  | cons s l ih =>
    intro t h1 h2
    obtain ⟨t', e1, _, _, e4, e5, _⟩ := addSample_spec t h1 h2 s.1 s.2
    rw [List.foldlM_cons, e1]
    exact ih t' (by rw [e4]; exact h1) e5

/-- C04.  Distinct pixels of a tile use distinct slots of the tile's buffer, and all of them exist. -/
theorem c04_tile_slots {α : Type} [Scalar α] (res : V2 Int) (filt : Filter α) (b : BBox2i)
    (hb : Spec.Fits ((Film.new res filt).getFilmTile b).bbox) :
    let t := (Film.new res filt).getFilmTile b
    (∀ p, Spec.InBox t.bbox p → t.pixelOffset p.x p.y < t.pixels.length) ∧
    (∀ p q, Spec.InBox t.bbox p → Spec.InBox t.bbox q →
      t.pixelOffset p.x p.y = t.pixelOffset q.x q.y → p = q) := by
  intro t
  refine ⟨fun p hp => tile_offset_lt (getFilmTile_sized _ _ hb) hp, fun p q hp hq he => ?_⟩
  have := tile_offset_inj (t := t) hb hp hq he
  ext
  · exact this.1
  · exact this.2

/-- C04.  Distinct pixels of the image use distinct slots of the film's buffer, and all of them exist. -/
theorem c04_film_slots {α : Type} [Scalar α] (res : V2 Int) (h : 0 ≤ res.x * res.y) (ha : res.x * res.y < 2 ^ 31) (filt : Filter α) :
    let f := Film.new res filt
    (∀ p : V2 Int, Spec.InImage res p.x p.y → f.pixelOffset p < f.pixels.length) ∧
    (∀ p q : V2 Int, Spec.InImage res p.x p.y → Spec.InImage res q.x q.y →
      f.pixelOffset p = f.pixelOffset q → p = q) := by
  intro f
  exact ⟨fun p hp => film_offset_lt (filmNew_sized res h ha filt) hp,
    fun p q hp hq he => film_offset_inj (f := f) ha hp hq he⟩

/-- The bound on the area is needed: a film of 65536×65536 pixels has an empty buffer, because the `i32` product is 0, so
no pixel of it has a slot. -/
theorem c04_area_wraps {α : Type} [Scalar α] (filt : Filter α) :
    let f := Film.new ⟨65536, 65536⟩ filt
    f.pixels = [] ∧ ∀ p : V2 Int, ¬ f.pixelOffset p < f.pixels.length := by
  have : (Film.new ⟨65536, 65536⟩ filt).pixels = [] := by
    simp [Film.new, wrapI32, asUsize]
  exact ⟨this, fun p => by rw [this]; simp⟩

/-- The regions of tiles of a film in range, in particular, have few pixels. -/
theorem tile_fits {film : Film ℝ} (h : FilmRange film.resolution film.filterRadius) {b : BBox2i} (hb : b ∈ film.iter.toList) :
    Spec.Fits (film.getFilmTile b).bbox :=
  fits_of_inFilm film h.area b fun _ _ hin => inTile_inFilm h hb hin

/-- C04.  Merging a tile of the film, after any samples were added to it, never indexes out of bounds
(exact arithmetic for the tile geometry). -/
theorem c04_merge_never_panics (res : V2 Int) (filt : Filter ℝ) (hR : FilmRange res filt.radius)
    (film : Film ℝ) (hres : film.resolution = res) (hrad : film.filterRadius = filt.radius)
    (htab : film.filterTable = mkFilterTable filt) (hsz : film.Sized)
    (b : BBox2i) (hb : b ∈ film.iter.toList) (samples : List (V2 ℝ × Spectrum ℝ)) :
    ∃ t' f', samples.foldlM (fun t s => t.addSample s.1 s.2) (film.getFilmTile b) = some t' ∧
      film.mergeFilmTile t' = some f' := by
  have hF : FilmRange film.resolution film.filterRadius := by rw [hres, hrad]; exact hR
  suffices H : ∀ (samples : List (V2 ℝ × Spectrum ℝ)) (t : FilmTile ℝ), TableOK t.filterTable → t.Sized →
      t.bbox = (film.getFilmTile b).bbox →
      ∃ t', samples.foldlM (fun t s => t.addSample s.1 s.2) t = some t' ∧ t'.Sized ∧
        t'.bbox = (film.getFilmTile b).bbox by
    obtain ⟨t', h1, h2, h3⟩ := H samples (film.getFilmTile b)
      (by change TableOK film.filterTable; rw [htab]; exact mkFilterTable_ok filt) (getFilmTile_sized _ _ (tile_fits hF hb)) rfl
    obtain ⟨f', g1, _⟩ := mergeFilmTile_spec film hsz t' h2 (by
      intro x y hin
      apply inTile_inFilm hF hb
      unfold InTile at hin ⊢; rw [h3] at hin; exact hin)
    exact ⟨t', f', h1, g1⟩
  intro samples
  induction samples with
  | nil => intro t _ h h'; exact ⟨t, rfl, h, h'⟩
  | cons s l ih =>
    intro t h1 h2 h3
    obtain ⟨t', e1, e2, _, e4, e5, _⟩ := addSample_spec t h1 h2 s.1 s.2
    rw [List.foldlM_cons, e1]
    exact ih t' (by rw [e4]; exact h1) e5 (by rw [e2, h3])

/-! ### C05 -/

/-- One unit of work: a tile region and the samples (film position, radiance) taken in it. -/
structure Spec.Job where
  box : BBox2i
  samples : List (V2 ℝ × Spectrum ℝ)

/-- The work done for one tile: get the tile, add the samples, merge (integrator.rs:95, 106, 117). -/
noncomputable def runJob (film : Film ℝ) (j : Spec.Job) : Option (Film ℝ) := do
  let t ← j.samples.foldlM (fun t s => t.addSample s.1 s.2) (film.getFilmTile j.box)
  film.mergeFilmTile t

open Classical in
/-- What pixel `(x, y)` receives from a list of samples: weight sum. -/
noncomputable def Spec.weightSum (filt : Filter ℝ) (samples : List (V2 ℝ × Spectrum ℝ)) (x y : Int) : ℝ :=
  (samples.map fun s => if Spec.Within filt.radius s.1 x y then Spec.weight filt s.1 x y else 0).sum

open Classical in
/-- What pixel `(x, y)` receives from a list of samples: weighted sum of one colour channel. -/
noncomputable def Spec.colorSum (filt : Filter ℝ) (ch : Spectrum ℝ → ℝ) (samples : List (V2 ℝ × Spectrum ℝ))
    (x y : Int) : ℝ :=
  (samples.map fun s =>
    if Spec.Within filt.radius s.1 x y then ch s.2 * Spec.weight filt s.1 x y else 0).sum

/-- The pixel content prescribed by the sums. -/
noncomputable def Spec.pixel (filt : Filter ℝ) (samples : List (V2 ℝ × Spectrum ℝ)) (x y : Int) : Pixel ℝ :=
  ⟨⟨Spec.colorSum filt (·.r) samples x y, Spec.colorSum filt (·.g) samples x y,
    Spec.colorSum filt (·.b) samples x y⟩, Spec.weightSum filt samples x y⟩

theorem Spec.pixel_append (filt : Filter ℝ) (l m : List (V2 ℝ × Spectrum ℝ)) (x y : Int) :
    Spec.pixel filt (l ++ m) x y = (Spec.pixel filt l x y).merge (Spec.pixel filt m x y) := by
  simp [Spec.pixel, Spec.colorSum, Spec.weightSum, Pixel.merge, Spectrum.add, r_add]

theorem pixel_zero_real : (Pixel.zero : Pixel ℝ) = ⟨⟨0, 0, 0⟩, 0⟩ := by
  simp [Pixel.zero, Spectrum.zero, r_lit]

/-- All samples of a tile, seen by the image pixels. -/
theorem addSamples_spec (res : V2 Int) (filt : Filter ℝ) (hR : FilmRange res filt.radius)
    (b : BBox2i) (hb : b ∈ (Film.new res filt).iter.toList) (samples : List (V2 ℝ × Spectrum ℝ))
    (hs : ∀ s ∈ samples, Spec.PosIn b s.1) :
    ∀ (t : FilmTile ℝ) (_ : t.bbox = ((Film.new res filt).getFilmTile b).bbox)
      (_ : t.filterRadius = filt.radius) (_ : t.filterTable = mkFilterTable filt) (_ : t.Sized),
    ∃ t', samples.foldlM (fun t s => t.addSample s.1 s.2) t = some t' ∧ t'.bbox = t.bbox ∧ t'.Sized ∧
      ∀ x y, Spec.InImage res x y → InTile t' x y →
        t'.px x y = (t.px x y).merge (Spec.pixel filt samples x y) := by
  induction samples with
  | nil =>
    intro t h1 h2 h3 h4
    refine ⟨t, rfl, rfl, h4, ?_⟩
    intro x y _ _
    simp [Spec.pixel, Spec.colorSum, Spec.weightSum, Pixel.merge, Spectrum.add, r_add]
  | cons s l ih =>
    intro t h1 h2 h3 h4
    obtain ⟨t1, e1, e2, e3, e4, e5, _⟩ := addSample_spec t (by rw [h3]; exact mkFilterTable_ok filt) h4 s.1 s.2
    obtain ⟨t1', f1, f2, f3⟩ := c03_sample_footprint res filt hR b hb t h1 h2 h3 h4 s.1
      (hs s (List.mem_cons_self ..)) s.2
    rw [e1] at f1
    obtain rfl := Option.some.inj f1
    obtain ⟨t', g1, g2, g3, g4⟩ := ih (fun s' hs' => hs s' (List.mem_cons_of_mem _ hs')) t1 (by rw [e2, h1])
      (by rw [e3, h2]) (by rw [e4, h3]) e5
    refine ⟨t', ?_, by rw [g2, e2], g3, ?_⟩
    · rw [List.foldlM_cons, e1]; exact g1
    · intro x y hi hin
      rw [g4 x y hi hin]
      have hin1 : InTile t1 x y := by unfold InTile at hin ⊢; rw [g2] at hin; exact hin
      obtain ⟨k1, k2⟩ := f3 x y hi
      by_cases hw : Spec.Within filt.radius s.1 x y
      · rw [(k1 hw).2]
        simp [Spec.pixel, Spec.colorSum, Spec.weightSum, Pixel.merge, Spectrum.add, r_add, hw, add_assoc]
      · rw [k2 hw hin1]
        simp [Spec.pixel, Spec.colorSum, Spec.weightSum, Pixel.merge, Spectrum.add, r_add, hw]

/-- Samples of a tile do not concern image pixels outside the tile's buffer. -/
theorem pixel_outside (res : V2 Int) (filt : Filter ℝ) (hR : FilmRange res filt.radius)
    (b : BBox2i) (hb : b ∈ (Film.new res filt).iter.toList) (samples : List (V2 ℝ × Spectrum ℝ))
    (hs : ∀ s ∈ samples, Spec.PosIn b s.1) (x y : Int) (hi : Spec.InImage res x y)
    (hn : ¬ InTile ((Film.new res filt).getFilmTile b) x y) :
    Spec.pixel filt samples x y = ⟨⟨0, 0, 0⟩, 0⟩ := by
  have hz : ∀ s ∈ samples, ¬ Spec.Within filt.radius s.1 x y := fun s hm hw =>
    hn (within_inTile (film := Film.new res filt) hR hb (hs s hm) hi hw)
  have sum0 : ∀ (g : V2 ℝ × Spectrum ℝ → ℝ), (∀ s ∈ samples, g s = 0) → (samples.map g).sum = 0 := by
    intro g hg
    apply List.sum_eq_zero
    intro v hv
    obtain ⟨s, hs, rfl⟩ := List.mem_map.1 hv
    exact hg s hs
  simp only [Spec.pixel, Spec.colorSum, Spec.weightSum]
  rw [sum0 _ (fun s hm => if_neg (hz s hm)), sum0 _ (fun s hm => if_neg (hz s hm)),
    sum0 _ (fun s hm => if_neg (hz s hm)), sum0 _ (fun s hm => if_neg (hz s hm))]

/-- Film states that belong to this render. -/
def FilmInv {α : Type} [Scalar α] (res : V2 Int) (filt : Filter α) (film : Film α) : Prop :=
  film.resolution = res ∧ film.filterRadius = filt.radius ∧ film.filterTable = mkFilterTable filt ∧ film.Sized

/-- One job adds exactly its samples to every image pixel. -/
theorem runJob_spec (res : V2 Int) (filt : Filter ℝ) (hR : FilmRange res filt.radius) (film : Film ℝ)
    (hf : FilmInv res filt film) (j : Spec.Job) (hb : j.box ∈ (Film.new res filt).iter.toList)
    (hs : ∀ s ∈ j.samples, Spec.PosIn j.box s.1) :
    ∃ f', runJob film j = some f' ∧ FilmInv res filt f' ∧
      ∀ x y, Spec.InImage res x y → f'.px x y = (film.px x y).merge (Spec.pixel filt j.samples x y) := by
  obtain ⟨a1, a2, a3, a4⟩ := hf
  have htile : film.getFilmTile j.box = (Film.new res filt).getFilmTile j.box := by
    unfold Film.getFilmTile; rw [a1, a2, a3]; rfl
  obtain ⟨t', e1, e2, e3, e4⟩ := addSamples_spec res filt hR j.box hb j.samples hs
    ((Film.new res filt).getFilmTile j.box) rfl rfl rfl (getFilmTile_sized _ _ (tile_fits (film := Film.new res filt) hR hb))
  have hsub : ∀ x y, InTile t' x y → InFilm film x y := by
    intro x y hin
    have : InTile ((Film.new res filt).getFilmTile j.box) x y := by
      unfold InTile at hin ⊢; rw [e2] at hin; exact hin
    have := inTile_inFilm (film := Film.new res filt) hR hb this
    unfold InFilm at this ⊢; rw [a1]; exact this
  obtain ⟨f', g1, g2, g3, g4, g5, g6, g7⟩ := mergeFilmTile_spec film a4 t' e3 hsub
  refine ⟨f', ?_, ⟨by rw [g3, a1], by rw [g4, a2], by rw [g5, a3], g2⟩, ?_⟩
  · unfold runJob; rw [htile, e1]; exact g1
  · intro x y hi
    by_cases hin : InTile t' x y
    · rw [g6 x y hin, e4 x y hi hin, getFilmTile_at, pixel_zero_real]
      simp [Pixel.merge, Spectrum.add, r_add]
    · rw [g7 x y (by unfold InFilm; rw [a1]; exact hi) hin,
        pixel_outside res filt hR j.box hb j.samples hs x y hi
          (by unfold InTile at hin ⊢; rw [e2] at hin; exact hin)]
      simp [Pixel.merge, Spectrum.add, r_add]

/-- C05.  Whatever tiles are rendered, in whatever order, each image pixel ends up with the sum over all
samples taken of (weight × radiance) and the sum of the weights. -/
theorem c05_film_is_filtered_sum (res : V2 Int) (filt : Filter ℝ) (hR : FilmRange res filt.radius)
    (jobs : List Spec.Job) (hb : ∀ j ∈ jobs, j.box ∈ (Film.new res filt).iter.toList)
    (hs : ∀ j ∈ jobs, ∀ s ∈ j.samples, Spec.PosIn j.box s.1) :
    ∃ f', jobs.foldlM runJob (Film.new res filt) = some f' ∧
      ∀ x y, Spec.InImage res x y → f'.px x y = Spec.pixel filt (jobs.flatMap (·.samples)) x y := by
  have hpos : 0 ≤ res.x * res.y := Int.mul_nonneg hR.x0.le hR.y0.le
  suffices H : ∀ (jobs : List Spec.Job) (film : Film ℝ), FilmInv res filt film →
      (∀ j ∈ jobs, j.box ∈ (Film.new res filt).iter.toList) →
      (∀ j ∈ jobs, ∀ s ∈ j.samples, Spec.PosIn j.box s.1) →
      ∃ f', jobs.foldlM runJob film = some f' ∧ ∀ x y, Spec.InImage res x y →
        f'.px x y = (film.px x y).merge (Spec.pixel filt (jobs.flatMap (·.samples)) x y) by
    obtain ⟨f', e1, e2⟩ := H jobs (Film.new res filt) ⟨rfl, rfl, rfl, filmNew_sized res hpos hR.area filt⟩ hb hs
    refine ⟨f', e1, fun x y hi => ?_⟩
    rw [e2 x y hi]
    have hz : (Film.new res filt).px x y = Pixel.zero := by
      simp only [Film.px, Film.new]
      rw [List.getElem?_replicate]
      split_ifs <;> rfl
    rw [hz, pixel_zero_real]
    simp [Pixel.merge, Spectrum.add, r_add]
  intro jobs
  induction jobs with
  | nil =>
    intro film _ _ _
    refine ⟨film, rfl, fun x y _ => ?_⟩
    simp [Spec.pixel, Spec.colorSum, Spec.weightSum, Pixel.merge, Spectrum.add, r_add]
  | cons j jobs ih =>
    intro film hf hb hs
    obtain ⟨f1, e1, e2, e3⟩ := runJob_spec res filt hR film hf j (hb j (List.mem_cons_self ..))
      (hs j (List.mem_cons_self ..))
    obtain ⟨f', g1, g2⟩ := ih f1 e2 (fun j' h => hb j' (List.mem_cons_of_mem _ h))
      (fun j' h => hs j' (List.mem_cons_of_mem _ h))
    refine ⟨f', by rw [List.foldlM_cons, e1]; exact g1, fun x y hi => ?_⟩
    rw [g2 x y hi, e3 x y hi, List.flatMap_cons, Spec.pixel_append]
    simp [Pixel.merge, Spectrum.add, r_add, add_assoc]

/-- C05.  The result depends only on the multiset of samples: reordering tiles, or regrouping samples
between tiles, gives the same image. -/
theorem c05_order_independent (res : V2 Int) (filt : Filter ℝ) (hR : FilmRange res filt.radius)
    (jobs jobs' : List Spec.Job)
    (hb : ∀ j ∈ jobs, j.box ∈ (Film.new res filt).iter.toList)
    (hb' : ∀ j ∈ jobs', j.box ∈ (Film.new res filt).iter.toList)
    (hs : ∀ j ∈ jobs, ∀ s ∈ j.samples, Spec.PosIn j.box s.1)
    (hs' : ∀ j ∈ jobs', ∀ s ∈ j.samples, Spec.PosIn j.box s.1)
    (hperm : (jobs.flatMap (·.samples)).Perm (jobs'.flatMap (·.samples))) :
    ∃ f f', jobs.foldlM runJob (Film.new res filt) = some f ∧
      jobs'.foldlM runJob (Film.new res filt) = some f' ∧
      ∀ x y, Spec.InImage res x y → f.px x y = f'.px x y := by
  obtain ⟨f, e1, e2⟩ := c05_film_is_filtered_sum res filt hR jobs hb hs
  obtain ⟨f', e1', e2'⟩ := c05_film_is_filtered_sum res filt hR jobs' hb' hs'
  refine ⟨f, f', e1, e1', fun x y hi => ?_⟩
  rw [e2 x y hi, e2' x y hi]
  simp only [Spec.pixel, Spec.colorSum, Spec.weightSum]
  rw [(hperm.map _).sum_eq, (hperm.map _).sum_eq, (hperm.map _).sum_eq, (hperm.map _).sum_eq]

/-! ### Non-vacuity -/

/-- A box filter of radius 1/2 on a 20×3 film: the hypotheses hold, and a sample at (15.75, 0.5), next to
the border between the first two tiles, is within radius 1/2 of the pixels 15 (same tile). -/
example : FilmRange ⟨20, 3⟩ (1 / 2 : ℝ) := ⟨by norm_num, by norm_num, by norm_num, by norm_num, by norm_num, by norm_num, by norm_num⟩

example : (⟨⟨0, 0⟩, ⟨16, 3⟩⟩ : BBox2i) ∈ (Film.new ⟨20, 3⟩ (⟨1 / 2, fun _ => 1⟩ : Filter ℝ)).iter.toList := by
  unfold Film.iter
  rw [sampleBBox_eq _ ⟨by norm_num [Film.new], by norm_num [Film.new], by norm_num [Film.new], by norm_num [Film.new],
    by norm_num [Film.new], by norm_num [Film.new], by norm_num [Film.new]⟩, mem_tiles]
  refine ⟨0, 0, by norm_num, ?_, by norm_num, ?_, ?_⟩
  · norm_num [Film.new]
  · norm_num [Film.new]
  · rw [tileAt_eq _ _ _ (by norm_num [Film.new]) (by norm_num [Film.new])]
    norm_num [Film.new]

example : Spec.PosIn ⟨⟨0, 0⟩, ⟨16, 3⟩⟩ ⟨15.75, 0.5⟩ ∧ Spec.Within (1 / 2) ⟨15.75, 0.5⟩ 15 0 ∧
    ¬ Spec.Within (1 / 2) ⟨15.75, 0.5⟩ 16 0 := by
  refine ⟨⟨?_, ?_, ?_, ?_⟩, ⟨?_, ?_⟩, ?_⟩ <;> norm_num [Spec.Within, abs_le, abs_of_pos]

end PT
