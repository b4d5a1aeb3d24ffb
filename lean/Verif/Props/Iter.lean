import Verif.Lemmas.Film
import Verif.Lemmas.Iter

/-!
# Iterating pixels and tiles (C01, C02)
-/

namespace PT

/-- Specification: the integer point `p` belongs to the half-open box `b`. -/
def Spec.InBox (b : BBox2i) (p : V2 Int) : Prop :=
  b.min.x ≤ p.x ∧ p.x < b.max.x ∧ b.min.y ≤ p.y ∧ p.y < b.max.y

/-- Specification: reading order, rows first. -/
def Spec.ReadingOrder (p q : V2 Int) : Prop := p.y < q.y ∨ (p.y = q.y ∧ p.x < q.x)

/-- Specification: an iterator is exhausted for good, however often it is called. -/
def Spec.Exhausted {S A : Type} (next : S → Option A × S) (s : S) : Prop :=
  ∀ n : Nat, (next ((fun s => (next s).2)^[n] s)).1 = none

/-- C01.  A `for` loop over `BBox2i::iter` visits exactly the points of the half-open box, in strictly
increasing reading order (hence each once). -/
theorem c01_pixel_iteration_exact (b : BBox2i) :
    (∀ p, p ∈ b.iter.toList ↔ Spec.InBox b p) ∧ b.iter.toList.Pairwise Spec.ReadingOrder :=
  ⟨b.mem_toList, b.pairwise_toList⟩

/-- C01, second half: once `next` has answered `None`, all further calls answer `None`. -/
theorem c01_none_is_final (it : BBox2iIter) (h : it.next.1 = none) :
    Spec.Exhausted BBox2iIter.next it.next.2 := by
  have key : ∀ it : BBox2iIter, it.next.1 = none → it.next.2.max.y ≤ it.next.2.y := by
    intro it
    fun_induction BBox2iIter.next it with
    | case1 it h1 => intro _; exact h1
    | case2 it h1 h2 ih => exact ih
    | case3 it h1 h2 => simp
  have fixed : ∀ s : BBox2iIter, s.max.y ≤ s.y → s.next = (none, s) := by
    intro s hs; rw [BBox2iIter.next]; simp [hs]
  intro n
  have hs := fixed _ (key it h)
  have : (fun s : BBox2iIter => s.next.2)^[n] it.next.2 = it.next.2 := by
    induction n with
    | zero => rfl
    | succ n ih => rw [Function.iterate_succ_apply', ih, hs]
  rw [this, hs]

/-- The number of points visited is the box's area (with ordered corners, if the area is an `i32`). -/
theorem c01_count (b : BBox2i) (hx : b.min.x ≤ b.max.x) (hy : b.min.y ≤ b.max.y) (hf : Spec.Fits b) :
    (b.iter.toList.length : Int) = b.area := by
  have hrow : ∀ y, (row b.min.x b.max.x y).length = (b.max.x - b.min.x).toNat := by
    intro y; simp [row]
  rw [BBox2i.toList_iter, List.length_flatMap]
  simp only [hrow, List.map_const', List.sum_replicate, length_intRange]
  rw [b.area_eq hx hy hf]
  simp only [smul_eq_mul, Nat.cast_mul, Int.toNat_of_nonneg (sub_nonneg.2 hx),
    Int.toNat_of_nonneg (sub_nonneg.2 hy)]
  ring

/-- Non-vacuity: the box [-1,1)×[5,7) is iterated as its four points. -/
example : (⟨⟨-1, 5⟩, ⟨1, 7⟩⟩ : BBox2i).iter.toList = [⟨-1, 5⟩, ⟨0, 5⟩, ⟨-1, 6⟩, ⟨0, 6⟩] := by
  rw [BBox2i.toList_iter]; decide
example : (⟨⟨0, 5⟩, ⟨0, 7⟩⟩ : BBox2i).iter.next.1 = none := by decide +kernel

/-- C02.  The tiles delivered by the film's tile iterator are non-empty, at most 16×16, inside the sample
region, pairwise disjoint, and cover it. -/
theorem c02_tiles_partition (b : BBox2i) :
    let ts := (FilmTileIter.new b).toList
    (∀ t ∈ ts, t.min.x < t.max.x ∧ t.min.y < t.max.y ∧ t.max.x - t.min.x ≤ 16 ∧
        t.max.y - t.min.y ≤ 16 ∧ ∀ p, Spec.InBox t p → Spec.InBox b p) ∧
    ts.Pairwise (fun t u => ∀ p, ¬ (Spec.InBox t p ∧ Spec.InBox u p)) ∧
    (∀ p, Spec.InBox b p → ∃ t ∈ ts, Spec.InBox t p) := by
  intro ts
  refine ⟨?_, ?_, ?_⟩
  · intro t ht
    obtain ⟨i, j, hi0, hi, hj0, hj, rfl⟩ := (mem_tiles b t).1 ht
    rw [tileAt_eq b i j hi hj]
    simp only [Spec.InBox]
    refine ⟨by omega, by omega, by omega, by omega, ?_⟩
    intro p; omega
  · simp only [ts, FilmTileIter.toList_new, List.pairwise_flatMap, tileRow, List.pairwise_map]
    have bx : ∀ i ∈ intRange 0 (FilmTileIter.new b).nTiles.x, 0 ≤ i ∧ i * 16 < b.max.x - b.min.x := by
      intro i hi
      rw [mem_intRange] at hi
      exact ⟨hi.1, (nTiles_spec _ i hi.1).1 hi.2⟩
    have bY : ∀ i ∈ intRange 0 (FilmTileIter.new b).nTiles.y, 0 ≤ i ∧ i * 16 < b.max.y - b.min.y := by
      intro i hi
      rw [mem_intRange] at hi
      exact ⟨hi.1, (nTiles_spec _ i hi.1).1 hi.2⟩
    constructor
    · intro j hj
      refine List.Pairwise.imp_of_mem ?_ (intRange_pairwise 0 _)
      intro i i' hi hi' hlt p
      rw [tileAt_eq b i j (bx i hi).2 (bY j hj).2, tileAt_eq b i' j (bx i' hi').2 (bY j hj).2]
      simp only [Spec.InBox]
      omega
    · refine List.Pairwise.imp_of_mem ?_ (intRange_pairwise 0 _)
      intro j j' hj hj' hlt t ht u hu p
      simp only [List.mem_map] at ht hu
      obtain ⟨i, hi, rfl⟩ := ht
      obtain ⟨i', hi', rfl⟩ := hu
      rw [tileAt_eq b i j (bx i hi).2 (bY j hj).2, tileAt_eq b i' j' (bx i' hi').2 (bY j' hj').2]
      simp only [Spec.InBox]
      omega
  · intro p hp
    simp only [Spec.InBox] at hp
    refine ⟨tileAt b ((p.x - b.min.x) / 16) ((p.y - b.min.y) / 16), ?_, ?_⟩
    · rw [mem_tiles]
      exact ⟨_, _, by omega, by omega, by omega, by omega, rfl⟩
    · rw [tileAt_eq b _ _ (by omega) (by omega)]
      simp only [Spec.InBox]
      omega

/-- Non-vacuity: a 20×17 region starting at (-2,-2) has four tiles, the last one 4×1. -/
example : (FilmTileIter.new ⟨⟨-2, -2⟩, ⟨18, 15⟩⟩).toList =
    [⟨⟨-2, -2⟩, ⟨14, 14⟩⟩, ⟨⟨14, -2⟩, ⟨18, 14⟩⟩, ⟨⟨-2, 14⟩, ⟨14, 15⟩⟩, ⟨⟨14, 14⟩, ⟨18, 15⟩⟩] := by
  rw [FilmTileIter.toList_new]; decide

end PT
