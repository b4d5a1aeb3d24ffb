import Verif.Model.Film
import Mathlib.Data.List.Nodup

namespace PT

theorem intRange_nil {a b : Int} (h : b ≤ a) : intRange a b = [] := by
  have : (b - a).toNat = 0 := by omega
  simp [intRange, this]

theorem intRange_cons {a b : Int} (h : a < b) : intRange a b = a :: intRange (a + 1) b := by
  obtain ⟨n, hn⟩ : ∃ n : Nat, (b - a).toNat = n + 1 := ⟨(b - a).toNat - 1, by omega⟩
  have hn' : (b - (a + 1)).toNat = n := by omega
  simp only [intRange, hn, hn', List.range_succ_eq_map, List.map_cons, List.map_map]
  simp only [Nat.cast_zero, add_zero, List.cons.injEq, true_and]
  apply List.map_congr_left
  intro i _
  simp; omega

@[simp] theorem mem_intRange {a b x : Int} : x ∈ intRange a b ↔ a ≤ x ∧ x < b := by
  simp only [intRange, List.mem_map, List.mem_range]
  constructor
  · rintro ⟨i, hi, rfl⟩; omega
  · rintro ⟨h1, h2⟩; exact ⟨(x - a).toNat, by omega, by omega⟩

theorem intRange_pairwise (a b : Int) : (intRange a b).Pairwise (· < ·) := by
  simp only [intRange, List.pairwise_map]
  exact List.pairwise_lt_range.imp (by intro i j h; omega)

theorem intRange_nodup (a b : Int) : (intRange a b).Nodup :=
  (intRange_pairwise a b).imp (by intro x y h; omega)

@[simp] theorem length_intRange (a b : Int) : (intRange a b).length = (b - a).toNat := by
  simp [intRange]

theorem getElem?_intRange {a b : Int} {i : Nat} (h : i < (b - a).toNat) :
    (intRange a b)[i]? = some (a + i) := by
  simp [intRange, h]

/-- One row of points. -/
def row (a b y : Int) : List (V2 Int) := (intRange a b).map fun x => ⟨x, y⟩

/-- The items still to come from an iterator state. -/
theorem BBox2iIter.toList_eq (it : BBox2iIter) : it.toList =
    if it.y < it.max.y then
      row it.x it.max.x it.y ++ (intRange (it.y + 1) it.max.y).flatMap (row it.minX it.max.x)
    else [] := by
  fun_induction BBox2iIter.toList it with
  | case1 it s h =>
    fun_induction BBox2iIter.next it with
    | case1 it h1 => rw [if_neg (by omega)]
    | case2 it h1 h2 ih =>
      have := ih h
      simp only at this
      rw [if_pos (by omega)]
      simp only [row, intRange_nil h2, List.map_nil, List.nil_append]
      by_cases h3 : it.y + 1 < it.max.y
      · rw [if_pos h3] at this
        rw [intRange_cons h3]
        simpa [row] using this
      · rw [intRange_nil (by omega)]; simp
    | case3 it h1 h2 => simp at h
  | case2 it p it' h ih =>
    rw [ih]
    clear ih
    fun_induction BBox2iIter.next it with
    | case1 it h1 => simp at h
    | case2 it h1 h2 ih =>
      have := ih h
      simp only at this
      rw [this]
      rw [if_pos (show it.y < it.max.y by omega)]
      simp only [row, intRange_nil h2, List.map_nil, List.nil_append]
      by_cases h3 : it.y + 1 < it.max.y
      · rw [if_pos h3, intRange_cons h3]; simp [row]
      · rw [if_neg h3, intRange_nil (a := it.y + 1) (by omega)]; simp
    | case3 it h1 h2 =>
      simp only [Prod.mk.injEq, Option.some.injEq] at h
      obtain ⟨rfl, rfl⟩ := h
      simp only
      rw [if_pos (by omega), if_pos (by omega), row, row, intRange_cons (a := it.x) (by omega)]
      simp

theorem BBox2i.toList_iter (b : BBox2i) : b.iter.toList =
    (intRange b.min.y b.max.y).flatMap (row b.min.x b.max.x) := by
  rw [BBox2iIter.toList_eq]
  by_cases h : b.min.y < b.max.y
  · rw [intRange_cons h]; exact if_pos h
  · rw [intRange_nil (a := b.min.y) (by omega)]; exact if_neg h

theorem BBox2i.mem_toList (b : BBox2i) (p : V2 Int) : p ∈ b.iter.toList ↔
    b.min.x ≤ p.x ∧ p.x < b.max.x ∧ b.min.y ≤ p.y ∧ p.y < b.max.y := by
  rw [BBox2i.toList_iter]
  simp only [List.mem_flatMap, row, List.mem_map, mem_intRange]
  constructor
  · rintro ⟨y, hy, x, hx, rfl⟩; exact ⟨hx.1, hx.2, hy.1, hy.2⟩
  · rintro ⟨h1, h2, h3, h4⟩; exact ⟨p.y, ⟨h3, h4⟩, p.x, ⟨h1, h2⟩, rfl⟩

theorem BBox2i.pairwise_toList (b : BBox2i) : b.iter.toList.Pairwise
    (fun p q => p.y < q.y ∨ p.y = q.y ∧ p.x < q.x) := by
  rw [BBox2i.toList_iter, List.pairwise_flatMap]
  constructor
  · intro y _
    simp only [row, List.pairwise_map]
    exact (intRange_pairwise _ _).imp (by intro a c h; right; simpa using h)
  · refine (intRange_pairwise _ _).imp ?_
    intro y y' h p hp q hq
    simp only [row, List.mem_map] at hp hq
    obtain ⟨_, _, rfl⟩ := hp
    obtain ⟨_, _, rfl⟩ := hq
    left; exact h

theorem BBox2i.nodup_toList (b : BBox2i) : b.iter.toList.Nodup :=
  (b.pairwise_toList).imp (by rintro p q h rfl; omega)

/-! ### Tiles -/

/-- The tile with grid coordinates `(i, j)`. -/
def tileAt (b : BBox2i) (i j : Int) : BBox2i :=
  let min : V2 Int := ⟨b.min.x + i * tileSize, b.min.y + j * tileSize⟩
  BBox2i.new min ((⟨min.x + tileSize, min.y + tileSize⟩ : V2 Int).imin b.max)

/-- One row of tiles. -/
def tileRow (b : BBox2i) (i n j : Int) : List BBox2i := (intRange i n).map fun i => tileAt b i j

theorem FilmTileIter.toList_eq (it : FilmTileIter) : it.toList =
    if it.i.y < it.nTiles.y then
      tileRow it.bbox it.i.x it.nTiles.x it.i.y ++
        (intRange (it.i.y + 1) it.nTiles.y).flatMap (tileRow it.bbox 0 it.nTiles.x)
    else [] := by
  fun_induction FilmTileIter.toList it with
  | case1 it s h =>
    fun_induction FilmTileIter.next it with
    | case1 it h1 => rw [if_neg (by omega)]
    | case2 it h1 h2 ih =>
      have := ih h
      simp only at this
      rw [if_pos (by omega)]
      simp only [tileRow, intRange_nil h2, List.map_nil, List.nil_append]
      by_cases h3 : it.i.y + 1 < it.nTiles.y
      · rw [if_pos h3] at this
        rw [intRange_cons h3]
        simpa [tileRow] using this
      · rw [intRange_nil (by omega)]; simp
    | case3 it h1 h2 => simp at h
  | case2 it p it' h ih =>
    rw [ih]
    clear ih
    fun_induction FilmTileIter.next it with
    | case1 it h1 => simp at h
    | case2 it h1 h2 ih =>
      have := ih h
      simp only at this
      rw [this]
      rw [if_pos (show it.i.y < it.nTiles.y by omega)]
      simp only [tileRow, intRange_nil h2, List.map_nil, List.nil_append]
      by_cases h3 : it.i.y + 1 < it.nTiles.y
      · rw [if_pos h3, intRange_cons h3]; simp [tileRow]
      · rw [if_neg h3, intRange_nil (a := it.i.y + 1) (by omega)]; simp
    | case3 it h1 h2 =>
      simp only [Prod.mk.injEq, Option.some.injEq] at h
      obtain ⟨rfl, rfl⟩ := h
      simp only
      rw [if_pos (by omega), if_pos (by omega), tileRow, tileRow,
        intRange_cons (a := it.i.x) (by omega)]
      rfl

theorem FilmTileIter.toList_new (b : BBox2i) : (FilmTileIter.new b).toList =
    (intRange 0 (FilmTileIter.new b).nTiles.y).flatMap
      (tileRow b 0 (FilmTileIter.new b).nTiles.x) := by
  rw [FilmTileIter.toList_eq]
  by_cases h : 0 < (FilmTileIter.new b).nTiles.y
  · rw [intRange_cons h]; exact if_pos h
  · rw [intRange_nil (a := 0) (by omega)]; exact if_neg h

/-- Number of tiles along an axis of length `d`. -/
theorem nTiles_spec (d : Int) : let n := (d + tileSize - 1).tdiv tileSize
    (∀ i, 0 ≤ i → (i < n ↔ i * 16 < d)) := by
  intro n i hi
  simp only [n, tileSize]
  by_cases hd : 0 ≤ d + 16 - 1
  · rw [Int.tdiv_eq_ediv_of_nonneg hd]; omega
  · have : (d + 16 - 1).tdiv 16 ≤ 0 := by
      have := Int.tdiv_nonneg (a := -(d + 16 - 1)) (b := 16) (by omega) (by omega)
      rw [Int.neg_tdiv] at this; omega
    omega

/-- A tile is a clipped 16×16 cell. -/
theorem tileAt_eq (b : BBox2i) (i j : Int) (hx : i * 16 < b.max.x - b.min.x)
    (hy : j * 16 < b.max.y - b.min.y) : tileAt b i j =
    ⟨⟨b.min.x + i * 16, b.min.y + j * 16⟩,
     ⟨min (b.min.x + i * 16 + 16) b.max.x, min (b.min.y + j * 16 + 16) b.max.y⟩⟩ := by
  simp only [tileAt, BBox2i.new, V2.imin, V2.imax, imin, imax, tileSize, BBox2i.mk.injEq, V2.mk.injEq]
  refine ⟨⟨?_, ?_⟩, ?_, ?_⟩ <;> split_ifs <;> omega

theorem mem_tiles (b t : BBox2i) : t ∈ (FilmTileIter.new b).toList ↔
    ∃ i j, 0 ≤ i ∧ i * 16 < b.max.x - b.min.x ∧ 0 ≤ j ∧ j * 16 < b.max.y - b.min.y ∧
      t = tileAt b i j := by
  rw [FilmTileIter.toList_new]
  simp only [List.mem_flatMap, tileRow, List.mem_map, mem_intRange, FilmTileIter.new, BBox2i.diagonal]
  constructor
  · rintro ⟨j, ⟨hj0, hj⟩, i, ⟨hi0, hi⟩, rfl⟩
    exact ⟨i, j, hi0, (nTiles_spec _ i hi0).1 hi, hj0, (nTiles_spec _ j hj0).1 hj, rfl⟩
  · rintro ⟨i, j, hi0, hi, hj0, hj, rfl⟩
    exact ⟨j, ⟨hj0, (nTiles_spec _ j hj0).2 hj⟩, i, ⟨hi0, (nTiles_spec _ i hi0).2 hi⟩, rfl⟩

end PT
