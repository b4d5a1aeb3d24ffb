import Verif.Model.Vector

/-!
# Integer boxes, /repo/src/bbox.rs:112-201

The area wraps like the `i32` product of the release build; the other `i32` sums and differences are
unbounded here (they wrap only for coordinates near the ends of the `i32` range).
-/

namespace PT

/-- /repo/src/bbox.rs:112-116 (at `i32`) -/
@[ext] structure BBox2i where
  min : V2 Int
  max : V2 Int
  deriving DecidableEq

namespace BBox2i
/-- /repo/src/bbox.rs:119-124 -/
def new (min max : V2 Int) : BBox2i := ⟨min.imin max, max.imax min⟩
/-- /repo/src/bbox.rs:128-130 -/
def diagonal (b : BBox2i) : V2 Int := ⟨b.max.x - b.min.x, b.max.y - b.min.y⟩
/-- /repo/src/bbox.rs:132-135 -/
def area (b : BBox2i) : Int := wrapI32 (b.diagonal.x * b.diagonal.y)
end BBox2i

/-- /repo/src/bbox.rs:167-172 -/
structure BBox2iIter where
  max : V2 Int
  minX : Int
  x : Int
  y : Int
  deriving DecidableEq

/-- /repo/src/bbox.rs:143-145, 175-182 -/
def BBox2i.iter (b : BBox2i) : BBox2iIter := ⟨b.max, b.min.x, b.min.x, b.min.y⟩

/-- /repo/src/bbox.rs:187-200; the `loop` is the recursive call.  Returns the item and the iterator
state left behind. -/
def BBox2iIter.next (it : BBox2iIter) : Option (V2 Int) × BBox2iIter :=
  if it.max.y ≤ it.y then (none, it)
  else if it.max.x ≤ it.x then
    BBox2iIter.next { it with x := it.minX, y := it.y + 1 }
  else (some ⟨it.x, it.y⟩, { it with x := it.x + 1 })
termination_by (it.max.y - it.y).toNat

/-- What `next` does to the state: the item lies ahead of the old state and just before the new one. -/
theorem BBox2iIter.next_some {it it' : BBox2iIter} {p : V2 Int} (h : it.next = (some p, it')) :
    it'.max = it.max ∧ it'.minX = it.minX ∧ p.x < it.max.x ∧ p.y < it.max.y ∧
      it'.x = p.x + 1 ∧ it'.y = p.y ∧ (p.y = it.y ∧ p.x = it.x ∨ it.y < p.y ∧ p.x = it.minX) := by
  fun_induction BBox2iIter.next it with
  | case1 it h1 => simp at h
  | case2 it h1 h2 ih =>
    have := ih h
    simp only at this
    obtain ⟨a, b, c, d, e, f, g⟩ := this
    refine ⟨a, b, c, d, e, f, ?_⟩
    omega
  | case3 it h1 h2 =>
    simp only [Prod.mk.injEq, Option.some.injEq] at h
    obtain ⟨rfl, rfl⟩ := h
    simp; omega

/-- The items produced by a `for` loop over the iterator (used at film.rs:213, integrator.rs:97). -/
def BBox2iIter.toList (it : BBox2iIter) : List (V2 Int) :=
  match h : it.next with
  | (none, _) => []
  | (some p, it') => p :: it'.toList
termination_by ((it.max.y - it.y).toNat, (it.max.x - it.x).toNat)
decreasing_by
  obtain ⟨a, _, c, d, e, f, g⟩ := BBox2iIter.next_some h
  rw [a]
  rcases g with ⟨g1, g2⟩ | ⟨g1, _⟩
  · rw [f, g1]; apply Prod.Lex.right; omega
  · apply Prod.Lex.left; omega

end PT
