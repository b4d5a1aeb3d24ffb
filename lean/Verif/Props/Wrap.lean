import Verif.Props.Iter
import Verif.Props.FilmF32

/-!
# The integer arithmetic of the iterators, with `i32` wrapping (C01, C02)

The iterators of the model (`BBox2iIter`, `FilmTileIter`) compute with unbounded integers.  Here the same code is transcribed with every `i32`
operation wrapping, as in a release build, and shown to give the same answers: always for the pixels of a box, and for the tiles of every
region whose corners are at most 2^30 in magnitude.
-/

namespace PT

/-! ### The code with wrapping arithmetic -/

/-- /repo/src/bbox.rs:187-200 with every `i32` operation wrapping, for at most `fuel` turns of the `loop`; `none` if the turns do not suffice. -/
def BBox2iIter.next32 (it : BBox2iIter) : Nat → Option (Option (V2 Int) × BBox2iIter)
  | 0 => none
  | fuel + 1 =>
    if it.max.y ≤ it.y then some (none, it)
    else if it.max.x ≤ it.x then BBox2iIter.next32 { it with x := it.minX, y := wrapI32 (it.y + 1) } fuel
    else some (some ⟨it.x, it.y⟩, { it with x := wrapI32 (it.x + 1) })

/-- /repo/src/bbox.rs:128-130 with wrapping differences. -/
def BBox2i.diagonal32 (b : BBox2i) : V2 Int := ⟨wrapI32 (b.max.x - b.min.x), wrapI32 (b.max.y - b.min.y)⟩

/-- /repo/src/film.rs:172-179 with every `i32` operation wrapping (the division by 16 cannot overflow). -/
def FilmTileIter.new32 (sampleBBox : BBox2i) : FilmTileIter :=
  let d := sampleBBox.diagonal32
  let n (d : Int) : Int := (wrapI32 (wrapI32 (d + tileSize) - 1)).tdiv tileSize
  { bbox := sampleBBox, nTiles := ⟨n d.x, n d.y⟩, i := ⟨0, 0⟩ }

/-- /repo/src/film.rs:184-199 with every `i32` operation wrapping, for at most `fuel` turns of the `loop`. -/
def FilmTileIter.next32 (it : FilmTileIter) : Nat → Option (Option BBox2i × FilmTileIter)
  | 0 => none
  | fuel + 1 =>
    if it.nTiles.y ≤ it.i.y then some (none, it)
    else if it.nTiles.x ≤ it.i.x then FilmTileIter.next32 { it with i := ⟨0, wrapI32 (it.i.y + 1)⟩ } fuel
    else
      let min : V2 Int := ⟨wrapI32 (it.bbox.min.x + wrapI32 (it.i.x * tileSize)), wrapI32 (it.bbox.min.y + wrapI32 (it.i.y * tileSize))⟩
      let max : V2 Int := (⟨wrapI32 (min.x + tileSize), wrapI32 (min.y + tileSize)⟩ : V2 Int).imin it.bbox.max
      some (some (BBox2i.new min max), { it with i := ⟨wrapI32 (it.i.x + 1), it.i.y⟩ })

/-! ### Specification -/

namespace Spec

/-- An `i32`. -/
def IsI32 (n : Int) : Prop := -2 ^ 31 ≤ n ∧ n < 2 ^ 31

/-- `Calls next s l s'`: calling `next` again and again from state `s` gives the answers `l` and leaves `s'`, when each call may take as many turns of
its loop as it needs. -/
inductive Calls {S A : Type} (next : S → Nat → Option (A × S)) : S → List A → S → Prop
  | nil (s) : Calls next s [] s
  | cons {s a s' l s''} (fuel : Nat) : next s fuel = some (a, s') → Calls next s' l s'' → Calls next s (a :: l) s''

/-- A box with ordered `i32` corners, less than 2^31 - 16 wide and high and not within 31 of the upper end of the `i32` range. -/
def TileRegion (b : BBox2i) : Prop :=
  (-2 ^ 31 ≤ b.min.x ∧ b.min.x ≤ b.max.x ∧ b.max.x < 2 ^ 31 - 31 ∧ b.max.x - b.min.x < 2 ^ 31 - 16) ∧
  (-2 ^ 31 ≤ b.min.y ∧ b.min.y ≤ b.max.y ∧ b.max.y < 2 ^ 31 - 31 ∧ b.max.y - b.min.y < 2 ^ 31 - 16)

/-- A list of tiles followed by `None`s only. -/
def ThenNone {A : Type} (items : List A) (answers : List (Option A)) : Prop :=
  ∃ k n, answers = (items.take k).map some ++ List.replicate n none ∧ (n ≠ 0 → items.length ≤ k)
end Spec
open Spec

theorem wrapI32_id {n : Int} (h : IsI32 n) : wrapI32 n = n := by
  obtain ⟨h1, h2⟩ := h
  unfold wrapI32; omega

/-! ### Pixels -/

theorem BBox2iIter.next32_eq (it : BBox2iIter) (h1 : IsI32 it.max.x) (h2 : IsI32 it.max.y) (h3 : IsI32 it.x) (h4 : IsI32 it.y) (h5 : IsI32 it.minX) :
    (∀ fuel r, it.next32 fuel = some r → r = it.next) ∧ ∃ fuel, it.next32 fuel = some it.next := by
  fun_induction BBox2iIter.next it with
  | case1 it h =>
    refine ⟨fun fuel r hr => ?_, 1, by simp [next32, h]⟩
    cases fuel with
    | zero => cases hr
    | succ n => simp [next32, h] at hr; exact hr.symm
  | case2 it h h' ih =>
    obtain ⟨a, f, b⟩ := ih h1 h2 h5 (by unfold IsI32 at *; simp only; omega) h5
    have e : wrapI32 (it.y + 1) = it.y + 1 := wrapI32_id (by unfold IsI32 at *; omega)
    refine ⟨fun fuel r hr => ?_, f + 1, by simp only [next32, h, h', if_true, if_false, e]; exact b⟩
    cases fuel with
    | zero => cases hr
    | succ n => simp only [next32, h, h', if_true, if_false, e] at hr; exact a n r hr
  | case3 it h h' =>
    have e : wrapI32 (it.x + 1) = it.x + 1 := wrapI32_id (by unfold IsI32 at *; omega)
    refine ⟨fun fuel r hr => ?_, 1, by simp [next32, h, h', e]⟩
    cases fuel with
    | zero => cases hr
    | succ n => simp [next32, h, h', e] at hr; exact hr.symm

/-! ### Tiles -/

/-- The state of the tile iterator is in the range where nothing wraps. -/
structure TileRange (it : FilmTileIter) : Prop where
  minx : -2 ^ 31 ≤ it.bbox.min.x
  miny : -2 ^ 31 ≤ it.bbox.min.y
  nx : it.nTiles.x ≤ 0 ∨ it.nTiles.x * 16 < 2 ^ 31 ∧ it.bbox.min.x + it.nTiles.x * 16 < 2 ^ 31 - 16
  ny : it.nTiles.y ≤ 0 ∨ it.nTiles.y * 16 < 2 ^ 31 ∧ it.bbox.min.y + it.nTiles.y * 16 < 2 ^ 31 - 16
  ix : 0 ≤ it.i.x
  iy : 0 ≤ it.i.y

theorem tdiv_bound (d : Int) (h : 0 ≤ d) : (d + 16 - 1).tdiv 16 * 16 ≤ d + 15 := by
  rw [Int.tdiv_eq_ediv_of_nonneg (by omega)]; omega

theorem FilmTileIter.new32_eq {b : BBox2i} (h : TileRegion b) : FilmTileIter.new32 b = FilmTileIter.new b ∧ TileRange (FilmTileIter.new b) := by
  obtain ⟨hx, hy⟩ := h
  have w : ∀ d : Int, 0 ≤ d → d < 2 ^ 31 - 16 → wrapI32 d = d ∧ wrapI32 (wrapI32 (d + tileSize) - 1) = d + tileSize - 1 := by
    intro d h h'
    unfold wrapI32 tileSize; omega
  have ex := w (b.max.x - b.min.x) (by omega) (by omega)
  have ey := w (b.max.y - b.min.y) (by omega) (by omega)
  refine ⟨?_, ?_⟩
  · unfold FilmTileIter.new32 FilmTileIter.new BBox2i.diagonal32 BBox2i.diagonal
    simp only [ex.1, ex.2, ey.1, ey.2]
  · have bx := tdiv_bound (b.max.x - b.min.x) (by omega)
    have bY := tdiv_bound (b.max.y - b.min.y) (by omega)
    refine ⟨hx.1, hy.1, .inr ?_, .inr ?_, le_refl _, le_refl _⟩
    · change (b.max.x - b.min.x + 16 - 1).tdiv 16 * 16 < 2 ^ 31 ∧ b.min.x + (b.max.x - b.min.x + 16 - 1).tdiv 16 * 16 < 2 ^ 31 - 16
      omega
    · change (b.max.y - b.min.y + 16 - 1).tdiv 16 * 16 < 2 ^ 31 ∧ b.min.y + (b.max.y - b.min.y + 16 - 1).tdiv 16 * 16 < 2 ^ 31 - 16
      omega

theorem FilmTileIter.next32_eq (it : FilmTileIter) (h : TileRange it) :
    (∀ fuel r, it.next32 fuel = some r → r = it.next) ∧ (∃ fuel, it.next32 fuel = some it.next) ∧ TileRange it.next.2 := by
  fun_induction FilmTileIter.next it with
  | case1 it h1 =>
    refine ⟨fun fuel r hr => ?_, ⟨1, by simp [next32, h1]⟩, h⟩
    cases fuel with
    | zero => cases hr
    | succ n => simp [next32, h1] at hr; exact hr.symm
  | case2 it h1 h2 ih =>
    obtain ⟨a, ⟨f, b⟩, c⟩ := ih ⟨h.minx, h.miny, h.nx, h.ny, le_refl _, by have := h.iy; simp only; omega⟩
    have e : wrapI32 (it.i.y + 1) = it.i.y + 1 := wrapI32_id (by
      obtain ⟨_, _, _, hy, _, _⟩ := h
      unfold IsI32; omega)
    refine ⟨fun fuel r hr => ?_, ⟨f + 1, by simp only [next32, h1, h2, if_true, if_false, e]; exact b⟩, c⟩
    cases fuel with
    | zero => cases hr
    | succ n => simp only [next32, h1, h2, if_true, if_false, e] at hr; exact a n r hr
  | case3 it h1 h2 min max =>
    have hx : IsI32 (it.i.x * 16) ∧ IsI32 (it.bbox.min.x + it.i.x * 16) ∧ IsI32 (it.bbox.min.x + it.i.x * 16 + 16) ∧ IsI32 (it.i.x + 1) := by
      obtain ⟨_, _, hx, _, _, _⟩ := h
      unfold IsI32; omega
    have hy : IsI32 (it.i.y * 16) ∧ IsI32 (it.bbox.min.y + it.i.y * 16) ∧ IsI32 (it.bbox.min.y + it.i.y * 16 + 16) := by
      obtain ⟨_, _, _, hy, _, _⟩ := h
      unfold IsI32; omega
    have e : it.next32 1 = some (some (BBox2i.new min max), { it with i := ⟨it.i.x + 1, it.i.y⟩ }) := by
      simp only [next32, h1, h2, if_false, tileSize, wrapI32_id hx.1, wrapI32_id hx.2.1, wrapI32_id hx.2.2.1, wrapI32_id hx.2.2.2,
        wrapI32_id hy.1, wrapI32_id hy.2.1, wrapI32_id hy.2.2]
      rfl
    refine ⟨fun fuel r hr => ?_, ⟨1, e⟩, ⟨h.minx, h.miny, h.nx, h.ny, by have := h.ix; simp only; omega, h.iy⟩⟩
    cases fuel with
    | zero => cases hr
    | succ n =>
      have : it.next32 (n + 1) = it.next32 1 := by simp only [next32, h1, h2, if_false]
      rw [this, e] at hr
      exact (Option.some.inj hr).symm

/-! ### Repeated calls -/

theorem calls_agree {S A : Type} (next : S → Option A × S) (next32 : S → Nat → Option (Option A × S)) (toList : S → List A) (I : S → Prop)
    (hI : ∀ s, I s → (∀ fuel r, next32 s fuel = some r → r = next s) ∧ (∃ fuel, next32 s fuel = some (next s)) ∧ I (next s).2)
    (h1 : ∀ s a s', next s = (some a, s') → toList s = a :: toList s') (h2 : ∀ s s', next s = (none, s') → toList s = [] ∧ toList s' = []) :
    ∀ s, I s → (∀ l s', Calls next32 s l s' → ThenNone (toList s) l) ∧ ∀ n, ∃ l s', Calls next32 s l s' ∧ l.length = n := by
  intro s hs
  constructor
  · intro l s' hc
    induction hc with
    | nil s => exact ⟨0, 0, rfl, fun h => absurd rfl h⟩
    | @cons s a s' l s'' fuel e _ ih =>
      obtain ⟨u, -, k⟩ := hI s hs
      have e' := u _ _ e
      rw [← e'] at k
      obtain ⟨m, n, q, z⟩ := ih k
      cases a with
      | none =>
        obtain ⟨t, t'⟩ := h2 s s' e'.symm
        rw [t'] at q
        exact ⟨m, n + 1, by rw [q, t]; simp [List.replicate_succ], fun _ => by rw [t]; simp⟩
      | some a =>
        rw [h1 s a s' e'.symm]
        exact ⟨m + 1, n, by rw [q]; simp, fun h => by have := z h; simp; omega⟩
  · intro n
    induction n generalizing s with
    | zero => exact ⟨[], s, .nil s, rfl⟩
    | succ n ih =>
      obtain ⟨-, ⟨f, e⟩, k⟩ := hI s hs
      obtain ⟨l, s', c, d⟩ := ih (next s).2 k
      exact ⟨(next s).1 :: l, s', .cons f e c, by simp [d]⟩

/-- C01 with the integer arithmetic of the machine: for every box with `i32` corners, however often `next` is called, with every `i32` operation
wrapping, every call returns, and the answers are the points of the box in order, followed by `None`s only. -/
theorem c01_wrapping (b : BBox2i) (h1 : IsI32 b.min.x) (h2 : IsI32 b.min.y) (h3 : IsI32 b.max.x) (h4 : IsI32 b.max.y) :
    (∀ answers it, Calls BBox2iIter.next32 b.iter answers it → ThenNone b.iter.toList answers) ∧
    ∀ n, ∃ answers it, Calls BBox2iIter.next32 b.iter answers it ∧ answers.length = n := by
  refine calls_agree BBox2iIter.next BBox2iIter.next32 BBox2iIter.toList
    (fun it => IsI32 it.max.x ∧ IsI32 it.max.y ∧ IsI32 it.x ∧ IsI32 it.y ∧ IsI32 it.minX) ?_ ?_ ?_ _ ⟨h3, h4, h1, h2, h1⟩
  · intro it ⟨a, b, c, d, e⟩
    obtain ⟨u, v⟩ := it.next32_eq a b c d e
    refine ⟨u, v, ?_⟩
    clear u v
    fun_induction BBox2iIter.next it with
    | case1 it h => exact ⟨a, b, c, d, e⟩
    | case2 it h h' ih => exact ih a b e (by unfold IsI32 at *; simp only; omega) e
    | case3 it h h' => exact ⟨a, b, by unfold IsI32 at *; simp only; omega, d, e⟩
  · intro it a it' h
    rw [BBox2iIter.toList]; split
    · next e => rw [e] at h; cases h
    · next e => rw [e] at h; cases h; rfl
  · intro it it' h
    have key : it'.next = (none, it') := by
      fun_induction BBox2iIter.next it with
      | case1 it h1 => cases h; rw [BBox2iIter.next]; simp [h1]
      | case2 it h1 h2 ih => exact ih h
      | case3 it h1 h2 => cases h
    constructor
    · rw [BBox2iIter.toList]; split
      · rfl
      · next e => rw [e] at h; cases h
    · rw [BBox2iIter.toList]; split
      · rfl
      · next e => rw [e] at key; cases key

/-- C02 with the integer arithmetic of the machine: for every region less than 2^31 - 16 wide and high that is not within 31 of the upper end of the
`i32` range, however often `next` is called, with every `i32` operation wrapping, every call returns, and the answers are the tiles of
`c02_tiles_partition` in order, followed by `None`s only. -/
theorem c02_wrapping (b : BBox2i) (h : TileRegion b) :
    (∀ answers it, Calls FilmTileIter.next32 (FilmTileIter.new32 b) answers it → ThenNone (FilmTileIter.new b).toList answers) ∧
    ∀ n, ∃ answers it, Calls FilmTileIter.next32 (FilmTileIter.new32 b) answers it ∧ answers.length = n := by
  obtain ⟨e, hr⟩ := FilmTileIter.new32_eq h
  rw [e]
  refine calls_agree FilmTileIter.next FilmTileIter.next32 FilmTileIter.toList TileRange (fun it h => it.next32_eq h) ?_ ?_ _ hr
  · intro it a it' h
    rw [FilmTileIter.toList]; split
    · next e => rw [e] at h; cases h
    · next e => rw [e] at h; cases h; rfl
  · intro it it' h
    have key : it'.next = (none, it') := by
      fun_induction FilmTileIter.next it with
      | case1 it h1 => cases h; rw [FilmTileIter.next]; simp [h1]
      | case2 it h1 h2 ih => exact ih h
      | case3 it h1 h2 => cases h
    constructor
    · rw [FilmTileIter.toList]; split
      · rfl
      · next e => rw [e] at h; cases h
    · rw [FilmTileIter.toList]; split
      · rfl
      · next e => rw [e] at key; cases key

/-- The sample region of every film of the sizes considered in C04 to C06 is such a region, in exact arithmetic … -/
theorem c02_film_region (res : V2 Int) (filt : Filter ℝ) (hR : FilmRange res filt.radius) : TileRegion (Film.new res filt).sampleBBox := by
  rw [sampleBBox_eq (Film.new res filt) hR]
  obtain ⟨h1, h2, h3, h4, h5, h6, -⟩ := hR
  have hx1 : (res.x : ℝ) ≤ 2 ^ 29 := by exact_mod_cast h5
  have hy1 : (res.y : ℝ) ≤ 2 ^ 29 := by exact_mod_cast h6
  have hx0 : (1 : ℝ) ≤ res.x := by exact_mod_cast h3
  have hy0 : (1 : ℝ) ≤ res.y := by exact_mod_cast h4
  have lo : -2 ^ 29 ≤ ⌊1 / 2 - filt.radius⌋ := by rw [Int.le_floor]; push_cast; linarith
  have lo' : ⌊1 / 2 - filt.radius⌋ ≤ 0 := by
    have : ⌊1 / 2 - filt.radius⌋ < 1 := by rw [Int.floor_lt]; push_cast; linarith
    omega
  have hi : ∀ n : Int, (1 : ℝ) ≤ n → (n : ℝ) ≤ 2 ^ 29 → 0 ≤ ⌈(n : ℝ) - 1 / 2 + filt.radius⌉ ∧ ⌈(n : ℝ) - 1 / 2 + filt.radius⌉ ≤ 2 ^ 30 := by
    intro n a b
    refine ⟨?_, ?_⟩
    · have : (-1 : Int) < ⌈(n : ℝ) - 1 / 2 + filt.radius⌉ := by rw [Int.lt_ceil]; push_cast; linarith
      omega
    · rw [Int.ceil_le]; push_cast; linarith
  have ex := hi res.x hx0 hx1
  have ey := hi res.y hy0 hy1
  unfold TileRegion
  simp only [Film.new]
  omega

/-- … and in single precision. -/
theorem c02_film_region_f32 (res : V2 Int) (filt : Filter F32) (hR : FilmRange32 res filt.radius) : TileRegion (Film.new res filt).sampleBBox := by
  obtain ⟨hf, h0, h1, x0, y0, x1, y1, -⟩ := hR
  obtain ⟨lx, hx, ex1, ex2, ex3, ex4, ex5, -⟩ := sampleAxis hf h0 h1 x0 x1
  obtain ⟨ly, hy, ey1, ey2, ey3, ey4, ey5, -⟩ := sampleAxis hf h0 h1 y0 y1
  have : ⌊lx⌋ = ⌊ly⌋ := by rw [← ex1, ey1]
  unfold TileRegion Film.sampleBBox
  simp only [V2.add, V2.sub, V2.ssub, V2.sadd, V2.floor, V2.ceil, V2.toI, V2.ofI, halfPixel, Film.new]
  rw [ex1, ex2, ey2]
  simp only [BBox2i.new, V2.imin, V2.imax, imin, imax]
  split_ifs <;> omega

/-- The limits are needed: the sample region of an image 1 pixel wide and 2^31 - 1 high with a filter of radius 2 is `[-2, 3) × [-2, 2^31 - 1)`; its
height wraps, and the iterator hands out no tile although the region is not empty. -/
theorem c02_wraps : ∃ b : BBox2i, (IsI32 b.min.x ∧ IsI32 b.min.y ∧ IsI32 b.max.x ∧ IsI32 b.max.y) ∧ InBox b ⟨0, 0⟩ ∧
    ((FilmTileIter.new32 b).next32 1).map Prod.fst = some none :=
  ⟨⟨⟨-2, -2⟩, ⟨3, 2 ^ 31 - 1⟩⟩, by unfold IsI32; decide, by unfold InBox; decide, by decide +kernel⟩

/-- Non-vacuity: a region of more than one tile, with negative corners. -/
example : TileRegion ⟨⟨-2, -2⟩, ⟨642, 482⟩⟩ := by unfold TileRegion; decide
example : ((FilmTileIter.new32 ⟨⟨-2, -2⟩, ⟨642, 482⟩⟩).next32 1).map Prod.fst = some (some ⟨⟨-2, -2⟩, ⟨14, 14⟩⟩) := by decide +kernel

end PT
