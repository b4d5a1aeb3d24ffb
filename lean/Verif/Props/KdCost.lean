import Verif.Props.KdSah
import Verif.Props.Radiance

/-!
# C32 in exact arithmetic: the k-d tree is the one of the surface area heuristic
-/

namespace PT

namespace Spec
/-- The box cut at the plane `t`, lower part. -/
def lowerPart (b : BBox3 ℝ) (a : Axis) (t : ℝ) : BBox3 ℝ :=
  match a with
  | .X => ⟨b.min, ⟨t, b.max.y, b.max.z⟩⟩
  | .Y => ⟨b.min, ⟨b.max.x, t, b.max.z⟩⟩
  | .Z => ⟨b.min, ⟨b.max.x, b.max.y, t⟩⟩
/-- The box cut at the plane `t`, upper part. -/
def upperPart (b : BBox3 ℝ) (a : Axis) (t : ℝ) : BBox3 ℝ :=
  match a with
  | .X => ⟨⟨t, b.min.y, b.min.z⟩, b.max⟩
  | .Y => ⟨⟨b.min.x, t, b.min.z⟩, b.max⟩
  | .Z => ⟨⟨b.min.x, b.min.y, t⟩, b.max⟩
/-- Surface of a box. -/
noncomputable def surface (b : BBox3 ℝ) : ℝ :=
  2 * ((b.max.x - b.min.x) * (b.max.y - b.min.y) + (b.max.y - b.min.y) * (b.max.z - b.min.z) + (b.max.z - b.min.z) * (b.max.x - b.min.x))
/-- Extent of a box. -/
def extent (b : BBox3 ℝ) (a : Axis) : ℝ := b.max.get a - b.min.get a
/-- The expected price of a node cut at `t` into parts with `m` and `n` shapes: 1 for the node, 80 for each shape, weighted by the
probability (surface ratio) that a ray that meets the node meets the part, with half off for shapes if one part is empty. -/
noncomputable def price (b : BBox3 ℝ) (a : Axis) (t : ℝ) (m n : Nat) : ℝ :=
  1 + 80 * (if m = 0 ∨ n = 0 then 1 / 2 else 1) * (surface (lowerPart b a t) / surface b * m + surface (upperPart b a t) / surface b * n)
/-- Lower and upper face of the box of a shape. -/
def lowFace (a : Axis) (s : Obj ℝ) : ℝ := s.shape.bbox.min.get a
def highFace (a : Axis) (s : Obj ℝ) : ℝ := s.shape.bbox.max.get a
/-- The plane cuts the box. -/
def Cuts (b : BBox3 ℝ) (a : Axis) (t : ℝ) : Prop := b.min.get a < t ∧ t < b.max.get a
/-- No face of a shape cuts the box on this axis. -/
def NoFace (b : BBox3 ℝ) (ss : List (Obj ℝ)) (a : Axis) : Prop := ∀ s ∈ ss, ¬ Cuts b a (lowFace a s) ∧ ¬ Cuts b a (highFace a s)
/-- How many shapes satisfy `p`. -/
noncomputable def number (ss : List (Obj ℝ)) (p : Obj ℝ → Prop) : Nat := open Classical in ss.countP (fun s => decide (p s))

/-- The cut of a node by the surface area heuristic: the plane `t` on axis `a`, with shapes `B` going down and `A` up. -/
structure BestCut (b : BBox3 ℝ) (ss : List (Obj ℝ)) (a : Axis) (t : ℝ) (B A : List (Obj ℝ)) : Prop where
  /-- The plane goes through a face of a shape and cuts the box. -/
  face : ∃ s ∈ ss, t = lowFace a s ∨ t = highFace a s
  cuts : Cuts b a t
  /-- The axis is the longest one, or if no face cuts the box there, the next one, or the next. -/
  axis : ∃ a0, (∀ a', extent b a' ≤ extent b a0) ∧ (a = a0 ∨ NoFace b ss a0 ∧ (a = a0.next ∨ NoFace b ss a0.next ∧ a = a0.next.next))
  /-- Below go the shapes that begin below the plane, above those that end above it; shapes with a face in the plane may go either way. -/
  goBelow : ∀ s ∈ ss, lowFace a s < t → s ∈ B
  goAbove : ∀ s ∈ ss, t < highFace a s → s ∈ A
  below : ∀ s ∈ B, s ∈ ss ∧ lowFace a s ≤ t
  above : ∀ s ∈ A, s ∈ ss ∧ t ≤ highFace a s
  few : B.length ≤ ss.length ∧ A.length ≤ ss.length
  /-- No cut on this axis is cheaper: neither one through a lower face, nor one through an upper face. -/
  cheapestLow : ∀ s ∈ ss, Cuts b a (lowFace a s) → price b a t B.length A.length ≤
    price b a (lowFace a s) (number ss fun x => lowFace a x < lowFace a s) (number ss fun x => lowFace a s ≤ highFace a x)
  cheapestHigh : ∀ s ∈ ss, Cuts b a (highFace a s) → price b a t B.length A.length ≤
    price b a (highFace a s) (number ss fun x => lowFace a x ≤ highFace a s) (number ss fun x => highFace a s < highFace a x)

/-- A cut is not made if it is more than four times as expensive as testing all shapes and they are fewer than 16, or if it would
be the third one on the way from the root that does not pay. -/
def NotWorth (n : Nat) (bad : Nat) (p : ℝ) : Prop := 4 * (80 * n) < p ∧ n < 16 ∨ (80 * n < p ∧ bad = 2 ∨ p ≤ 80 * n ∧ bad = 3)

/-- The tree that the heuristic makes of the shapes in a box, with `bad` cuts so far that do not pay and at most `depth` levels. -/
inductive Heuristic : (depth : Nat) → List (Obj ℝ) → BBox3 ℝ → (bad : Nat) → KTree ℝ → Prop where
  | few : ss.length ≤ 8 → Heuristic depth ss b bad (.leaf ss)
  | deep : Heuristic 0 ss b bad (.leaf ss)
  | noFace : (∀ a, NoFace b ss a) → Heuristic depth ss b bad (.leaf ss)
  | notWorth : BestCut b ss a t B A → NotWorth ss.length bad (price b a t B.length A.length) → Heuristic depth ss b bad (.leaf ss)
  | node : 8 < ss.length → BestCut b ss a t B A → ¬ NotWorth ss.length bad (price b a t B.length A.length) →
      (bad' = if 80 * (ss.length : ℝ) < price b a t B.length A.length then bad + 1 else bad) →
      Heuristic depth B (lowerPart b a t) bad' l → Heuristic depth A (upperPart b a t) bad' r →
      Heuristic (depth + 1) ss b bad (.node a t l r)
end Spec
open Spec

namespace KdTree

theorem splitCost_price (b : BBox3 ℝ) (a : Axis) (t : ℝ) (m n : Nat) : splitCost b a t m n = price b a t m n := by
  have hb : (lit 1 -. (if (m == 0 || n == 0) = true then EMPTY_BONUS else lit 0) : ℝ) = if m = 0 ∨ n = 0 then 1 / 2 else 1 := by
    by_cases h : m = 0 ∨ n = 0
    · have h' : (m == 0 || n == 0) = true := by simpa using h
      rw [if_pos h, if_pos h', EMPTY_BONUS]; real_ops; norm_num
    · have h' : ¬ (m == 0 || n == 0) = true := by simpa using h
      rw [if_neg h, if_neg h']; real_ops; norm_num
  unfold splitCost price
  dsimp only
  rw [hb]
  generalize (if m = 0 ∨ n = 0 then (1 : ℝ) / 2 else 1) = q
  cases a <;> simp only [Axis.others, BBox3.surfaceArea, BBox3.diagonal, V3.sub, V3.get, surface, lowerPart, upperPart, TRAV_COST, ISECT_COST] <;>
    real_ops <;> push_cast <;> ring

/-! ### Sorting -/

/-- The order of the sort. -/
def EdgeLe (x y : BEdge ℝ) : Prop := x.t < y.t ∨ x.t = y.t ∧ (x.kind = .start ∨ y.kind = .stop)

theorem edgeLe_real (x y : BEdge ℝ) : (edgeCmp x y != .gt) = true ↔ EdgeLe x y := by
  unfold edgeCmp EdgeLe
  real_ops
  rcases lt_trichotomy x.t y.t with h | h | h
  · simp [h]
  · rcases hx : x.kind with _ | _ <;> rcases hy : y.kind with _ | _ <;> simp [h]
  · simp [h, h.ne', not_lt.2 h.le]

theorem sorted_real (a : Axis) (ss : List (Obj ℝ)) : (sortedEdges a ss).Pairwise EdgeLe := by
  have ht : Std.Total (fun x y : BEdge ℝ => (edgeCmp x y != .gt) = true) := ⟨fun x y => by
    rw [edgeLe_real, edgeLe_real]; unfold EdgeLe
    rcases lt_trichotomy x.t y.t with h | h | h
    · exact Or.inl (Or.inl h)
    · rcases hx : x.kind with _ | _
      · exact Or.inl (Or.inr ⟨h, Or.inl rfl⟩)
      · exact Or.inr (Or.inr ⟨h.symm, Or.inr rfl⟩)
    · exact Or.inr (Or.inl h)⟩
  have hr : IsTrans (BEdge ℝ) (fun x y : BEdge ℝ => (edgeCmp x y != .gt) = true) := ⟨fun x y z => by
    rw [edgeLe_real, edgeLe_real, edgeLe_real]; unfold EdgeLe
    rintro (h1 | ⟨h1, k1⟩) (h2 | ⟨h2, k2⟩)
    · exact Or.inl (h1.trans h2)
    · exact Or.inl (h2 ▸ h1)
    · exact Or.inl (h1 ▸ h2)
    · refine Or.inr ⟨h1.trans h2, ?_⟩
      rcases k1 with k1 | k1
      · exact Or.inl k1
      · rcases k2 with k2 | k2
        · rw [k1] at k2; cases k2
        · exact Or.inr k2⟩
  exact (List.pairwise_insertionSort _ _).imp fun {x y} h => (edgeLe_real x y).1 h

theorem mem_sorted_real {a : Axis} {ss : List (Obj ℝ)} {e : BEdge ℝ} : e ∈ sortedEdges a ss ↔
    ∃ s ∈ ss, e = ⟨.start, lowFace a s, s⟩ ∨ e = ⟨.stop, highFace a s, s⟩ := by
  rw [sortedEdges, (List.perm_insertionSort _ _).mem_iff]
  simp [edges, lowFace, highFace]

/-- Counting begins and ends among the sorted faces. -/
theorem count_sorted (a : Axis) (ss : List (Obj ℝ)) (p : BEdge ℝ → Bool) :
    (sortedEdges a ss).countP p = ss.countP (fun s => p ⟨.start, lowFace a s, s⟩) + ss.countP (fun s => p ⟨.stop, highFace a s, s⟩) := by
  rw [sortedEdges, (List.perm_insertionSort _ _).countP_eq]
  induction ss with
  | nil => rfl
  | cons s ss ih =>
    rw [edges, List.flatMap_cons, List.countP_append, ← edges, ih]
    simp only [List.countP_cons, List.countP_nil, lowFace, highFace]
    omega

/-! ### The scan along an axis -/

def starts (l : List (BEdge ℝ)) : Nat := l.countP fun e => e.kind = .start
def stops (l : List (BEdge ℝ)) : Nat := l.countP fun e => e.kind = .stop

/-- The price at the edge `k`. -/
noncomputable def priceAt (b : BBox3 ℝ) (a : Axis) (es : List (BEdge ℝ)) (k : Nat) (t : ℝ) : ℝ := price b a t (starts (es.take k)) (stops (es.drop (k + 1)))

theorem scan_price (b : BBox3 ℝ) (a : Axis) (es : List (BEdge ℝ)) : ∀ (suf pre : List (BEdge ℝ)) (best : Best ℝ), es = pre ++ suf →
    let r := scan b a suf pre.length (starts pre) (stops suf) best
    r.cost ≤ best.cost ∧
    (∀ k e, pre.length ≤ k → es[k]? = some e → Cuts b a e.t → r.cost ≤ priceAt b a es k e.t) ∧
    (r = best ∨ ∃ k e, es[k]? = some e ∧ Cuts b a e.t ∧ r.split = some (a, k) ∧ r.cost = priceAt b a es k e.t ∧ r.cost < best.cost) := by
  intro suf
  induction suf with
  | nil =>
    intro pre best he
    refine ⟨le_refl _, ?_, Or.inl rfl⟩
    intro k e hk h _
    rw [he, List.append_nil, List.getElem?_eq_none hk] at h; cases h
  | cons e suf ih =>
    intro pre best he
    have hes : es = (pre ++ [e]) ++ suf := by rw [he]; simp
    have hk : es[pre.length]? = some e := by rw [he]; simp
    have htake : es.take pre.length = pre := by rw [he]; simp
    have hdrop : es.drop (pre.length + 1) = suf := by
      rw [hes, show pre.length + 1 = (pre ++ [e]).length by simp]; simp
    have hna : (if e.kind = EdgeKind.stop then stops (e :: suf) - 1 else stops (e :: suf)) = stops suf := by
      unfold stops; rw [List.countP_cons]; by_cases h : e.kind = .stop <;> simp [h]
    have hnb : (if e.kind = EdgeKind.start then starts pre + 1 else starts pre) = starts (pre ++ [e]) := by
      unfold starts; rw [List.countP_append]; by_cases h : e.kind = .start <;> simp [h]
    have hp : priceAt b a es pre.length e.t = price b a e.t (starts pre) (stops suf) := by
      unfold priceAt; rw [htake, hdrop]
    intro r
    have hr : r = scan b a suf (pre ++ [e]).length (starts (pre ++ [e])) (stops suf)
        (if ((b.min.get a <. e.t) && (e.t <. b.max.get a)) = true then
          if (splitCost b a e.t (starts pre) (stops suf) <. best.cost) = true then ⟨splitCost b a e.t (starts pre) (stops suf), some (a, pre.length)⟩ else best
        else best) := by
      change scan b a (e :: suf) _ _ _ _ = _
      rw [scan, hna, hnb]; simp
    rw [splitCost_price] at hr
    have hcut : ((b.min.get a <. e.t) && (e.t <. b.max.get a)) = true ↔ Cuts b a e.t := by real_ops; simp [Cuts]
    generalize hbest : (if ((b.min.get a <. e.t) && (e.t <. b.max.get a)) = true then
          if (price b a e.t (starts pre) (stops suf) <. best.cost) = true then (⟨price b a e.t (starts pre) (stops suf), some (a, pre.length)⟩ : Best ℝ) else best
        else best) = best' at hr
    obtain ⟨i1, i2, i3⟩ := ih (pre ++ [e]) best' hes
    rw [← hr] at i1 i2 i3
    have hb1 : best'.cost ≤ best.cost ∧ (Cuts b a e.t → best'.cost ≤ priceAt b a es pre.length e.t) ∧
        (best' = best ∨ Cuts b a e.t ∧ best'.split = some (a, pre.length) ∧ best'.cost = priceAt b a es pre.length e.t ∧ best'.cost < best.cost) := by
      rw [← hbest, hp]
      by_cases hc : Cuts b a e.t
      · rw [if_pos (hcut.2 hc)]
        by_cases hl : price b a e.t (starts pre) (stops suf) < best.cost
        · rw [if_pos (by real_ops; simpa using hl)]
          exact ⟨hl.le, fun _ => le_refl _, Or.inr ⟨hc, rfl, rfl, hl⟩⟩
        · rw [if_neg (by real_ops; simpa using hl)]
          exact ⟨le_refl _, fun _ => not_lt.1 hl, Or.inl rfl⟩
      · rw [if_neg (fun h => hc (hcut.1 h))]
        exact ⟨le_refl _, fun h => absurd h hc, Or.inl rfl⟩
    obtain ⟨j1, j2, j3⟩ := hb1
    refine ⟨i1.trans j1, ?_, ?_⟩
    · intro k e' hk' he' hc
      rcases Nat.lt_or_ge pre.length k with h | h
      · exact i2 k e' (by simp; omega) he' hc
      · have : k = pre.length := by omega
        subst this
        rw [hk] at he'; cases he'
        exact i1.trans (j2 hc)
    · rcases i3 with i3 | ⟨k, e', h1, h2, h3, h4, h5⟩
      · rw [i3]
        rcases j3 with j3 | ⟨h1, h2, h3, h4⟩
        · exact Or.inl j3
        · exact Or.inr ⟨pre.length, e, hk, h1, h2, h3, h4⟩
      · exact Or.inr ⟨k, e', h1, h2, h3, h4, h5.trans_le j1⟩

theorem below_length (es : List (BEdge ℝ)) (k : Nat) : (below es k).length = starts (es.take k) := by
  simp [below, starts, List.countP_eq_length_filter]
theorem above_length (es : List (BEdge ℝ)) (k : Nat) : (above es k).length = stops (es.drop (k + 1)) := by
  simp [above, stops, List.countP_eq_length_filter]

/-! ### The prices at faces -/

open Classical in
theorem price_low (b : BBox3 ℝ) (a : Axis) (ss : List (Obj ℝ)) (s : Obj ℝ) (hs : s ∈ ss) : ∃ k e, (sortedEdges a ss)[k]? = some e ∧ e.t = lowFace a s ∧
    priceAt b a (sortedEdges a ss) k e.t = price b a (lowFace a s) (number ss fun x => lowFace a x < lowFace a s) (number ss fun x => lowFace a s ≤ highFace a x) := by
  have hsort := sorted_real a ss
  have hcount := count_sorted a ss
  have hmem : (⟨.start, lowFace a s, s⟩ : BEdge ℝ) ∈ sortedEdges a ss := mem_sorted_real.2 ⟨s, hs, Or.inl rfl⟩
  generalize sortedEdges a ss = es at *
  have hex : ∃ k : Nat, ∃ e : BEdge ℝ, es[k]? = some e ∧ e.t = lowFace a s ∧ e.kind = .start := by
    obtain ⟨k, hk, e⟩ := List.mem_iff_getElem.1 hmem
    exact ⟨k, _, by rw [List.getElem?_eq_getElem hk, e], rfl, rfl⟩
  obtain ⟨e, he, ht, hkind⟩ := Nat.find_spec hex
  have hmin := fun m hm => Nat.find_min hex (m := m) hm
  generalize Nat.find hex = k at *
  have hk : k < es.length := by
    by_contra hc
    rw [List.getElem?_eq_none (not_lt.1 hc)] at he; cases he
  have hek : es[k] = e := by rw [List.getElem?_eq_getElem hk] at he; exact Option.some.inj he
  have hsplit : es = es.take k ++ e :: es.drop (k + 1) := by rw [← hek, ← List.drop_eq_getElem_cons hk, List.take_append_drop]
  have hs' := hsort
  rw [hsplit, List.pairwise_append] at hs'
  obtain ⟨-, h2, h3⟩ := hs'
  rw [List.pairwise_cons] at h2
  have hpre : ∀ x ∈ es.take k, x.t < lowFace a s := by
    intro x hx
    have := h3 x hx e (by simp)
    rcases this with h | ⟨h, h4⟩
    · rw [← ht]; exact h
    · exfalso
      obtain ⟨m, hm, e1⟩ := List.mem_iff_getElem.1 hx
      rw [List.length_take] at hm
      refine hmin m (by omega) ⟨x, ?_, h.trans ht, ?_⟩
      · rw [List.getElem_take] at e1
        rw [List.getElem?_eq_getElem (by omega), e1]
      · rcases h4 with h4 | h4
        · exact h4
        · rw [hkind] at h4; cases h4
  have hpost : ∀ x ∈ es.drop (k + 1), lowFace a s ≤ x.t := by
    intro x hx
    rw [← ht]
    rcases h2.1 x hx with h | ⟨h, -⟩
    · exact h.le
    · exact h.le
  have n1 : starts (es.take k) = number ss fun x => lowFace a x < lowFace a s := by
    have h := hcount fun e => decide (e.kind = .start ∧ e.t < lowFace a s)
    rw [hsplit, List.countP_append, List.countP_cons] at h
    have z1 : (es.drop (k + 1)).countP (fun e => decide (e.kind = .start ∧ e.t < lowFace a s)) = 0 := by
      rw [List.countP_eq_zero]; intro x hx; simp; intro _; exact hpost x hx
    have z2 : (es.take k).countP (fun e => decide (e.kind = .start ∧ e.t < lowFace a s)) = starts (es.take k) := by
      unfold starts; refine List.countP_congr fun x hx => ?_; simp [hpre x hx]
    rw [z1, z2] at h
    simp [ht] at h
    exact h
  have n2 : stops (es.drop (k + 1)) = number ss fun x => lowFace a s ≤ highFace a x := by
    have h := hcount fun e => decide (e.kind = .stop ∧ lowFace a s ≤ e.t)
    rw [hsplit, List.countP_append, List.countP_cons] at h
    have z1 : (es.take k).countP (fun e => decide (e.kind = .stop ∧ lowFace a s ≤ e.t)) = 0 := by
      rw [List.countP_eq_zero]; intro x hx; simp; intro _; exact hpre x hx
    have z2 : (es.drop (k + 1)).countP (fun e => decide (e.kind = .stop ∧ lowFace a s ≤ e.t)) = stops (es.drop (k + 1)) := by
      unfold stops; refine List.countP_congr fun x hx => ?_; simp [hpost x hx]
    rw [z1, z2] at h
    simp [hkind] at h
    exact h
  exact ⟨k, e, he, ht, by rw [priceAt, n1, n2, ht]⟩

open Classical in
theorem price_high (b : BBox3 ℝ) (a : Axis) (ss : List (Obj ℝ)) (s : Obj ℝ) (hs : s ∈ ss) : ∃ k e, (sortedEdges a ss)[k]? = some e ∧ e.t = highFace a s ∧
    priceAt b a (sortedEdges a ss) k e.t = price b a (highFace a s) (number ss fun x => lowFace a x ≤ highFace a s) (number ss fun x => highFace a s < highFace a x) := by
  have hsort := sorted_real a ss
  have hcount := count_sorted a ss
  have hmem : (⟨.stop, highFace a s, s⟩ : BEdge ℝ) ∈ sortedEdges a ss := mem_sorted_real.2 ⟨s, hs, Or.inr rfl⟩
  generalize sortedEdges a ss = es at *
  have hex : ∃ k ∈ (Finset.range es.length).filter fun k => ∃ e : BEdge ℝ, es[k]? = some e ∧ e.t = highFace a s ∧ e.kind = .stop,
      ∀ m ∈ (Finset.range es.length).filter fun k => ∃ e : BEdge ℝ, es[k]? = some e ∧ e.t = highFace a s ∧ e.kind = .stop, m ≤ k := by
    refine Finset.exists_max_image _ id ?_
    obtain ⟨k, hk, e⟩ := List.mem_iff_getElem.1 hmem
    exact ⟨k, by simpa using ⟨hk, ⟨_, by rw [List.getElem?_eq_getElem hk, e], rfl, rfl⟩⟩⟩
  obtain ⟨k, hkm, hmax⟩ := hex
  simp only [Finset.mem_filter, Finset.mem_range] at hkm hmax
  obtain ⟨hk, e, he, ht, hkind⟩ := hkm
  have hek : es[k] = e := by rw [List.getElem?_eq_getElem hk] at he; exact Option.some.inj he
  have hsplit : es = es.take k ++ e :: es.drop (k + 1) := by rw [← hek, ← List.drop_eq_getElem_cons hk, List.take_append_drop]
  have hs' := hsort
  rw [hsplit, List.pairwise_append] at hs'
  obtain ⟨-, h2, h3⟩ := hs'
  rw [List.pairwise_cons] at h2
  have hpre : ∀ x ∈ es.take k, x.t ≤ highFace a s := by
    intro x hx
    rw [← ht]
    rcases h3 x hx e (by simp) with h | ⟨h, -⟩
    · exact h.le
    · exact h.le
  have hpost : ∀ x ∈ es.drop (k + 1), highFace a s < x.t := by
    intro x hx
    rcases h2.1 x hx with h | ⟨h, h4⟩
    · rw [← ht]; exact h
    · exfalso
      obtain ⟨m, hm, e1⟩ := List.mem_iff_getElem.1 hx
      rw [List.length_drop] at hm
      rw [List.getElem_drop] at e1
      have := hmax (k + 1 + m) ⟨by omega, x, by rw [List.getElem?_eq_getElem (by omega), e1], h.symm.trans ht, ?_⟩
      · omega
      · rcases h4 with h4 | h4
        · rw [hkind] at h4; cases h4
        · exact h4
  have n1 : starts (es.take k) = number ss fun x => lowFace a x ≤ highFace a s := by
    have h := hcount fun e => decide (e.kind = .start ∧ e.t ≤ highFace a s)
    rw [hsplit, List.countP_append, List.countP_cons] at h
    have z1 : (es.drop (k + 1)).countP (fun e => decide (e.kind = .start ∧ e.t ≤ highFace a s)) = 0 := by
      rw [List.countP_eq_zero]; intro x hx; simp; intro _; exact hpost x hx
    have z2 : (es.take k).countP (fun e => decide (e.kind = .start ∧ e.t ≤ highFace a s)) = starts (es.take k) := by
      unfold starts; refine List.countP_congr fun x hx => ?_; simp [hpre x hx]
    rw [z1, z2] at h
    simp [hkind] at h
    exact h
  have n2 : stops (es.drop (k + 1)) = number ss fun x => highFace a s < highFace a x := by
    have h := hcount fun e => decide (e.kind = .stop ∧ highFace a s < e.t)
    rw [hsplit, List.countP_append, List.countP_cons] at h
    have z1 : (es.take k).countP (fun e => decide (e.kind = .stop ∧ highFace a s < e.t)) = 0 := by
      rw [List.countP_eq_zero]; intro x hx; simp; intro _; exact hpre x hx
    have z2 : (es.drop (k + 1)).countP (fun e => decide (e.kind = .stop ∧ highFace a s < e.t)) = stops (es.drop (k + 1)) := by
      unfold stops; refine List.countP_congr fun x hx => ?_; simp [hpost x hx]
    rw [z1, z2] at h
    simp [ht] at h
    exact h
  exact ⟨k, e, he, ht, by rw [priceAt, n1, n2, ht]⟩

/-! ### One node -/

/-- The corners of a box are in order. -/
def BoxOk (b : BBox3 ℝ) : Prop := ∀ a, b.min.get a ≤ b.max.get a

theorem surface_nonneg {b : BBox3 ℝ} (hb : BoxOk b) : 0 ≤ surface b := by
  have hx := hb .X; have hy := hb .Y; have hz := hb .Z
  simp only [V3.get] at hx hy hz
  unfold surface
  have := mul_nonneg (sub_nonneg.2 hx) (sub_nonneg.2 hy)
  have := mul_nonneg (sub_nonneg.2 hy) (sub_nonneg.2 hz)
  have := mul_nonneg (sub_nonneg.2 hz) (sub_nonneg.2 hx)
  linarith

theorem lowerPart_ok {b : BBox3 ℝ} (hb : BoxOk b) {a : Axis} {t : ℝ} (h : Cuts b a t) : BoxOk (lowerPart b a t) := by
  obtain ⟨h1, h2⟩ := h
  intro a'
  have := hb a'
  cases a <;> cases a' <;> simp only [lowerPart, V3.get] at * <;> linarith

theorem upperPart_ok {b : BBox3 ℝ} (hb : BoxOk b) {a : Axis} {t : ℝ} (h : Cuts b a t) : BoxOk (upperPart b a t) := by
  obtain ⟨h1, h2⟩ := h
  intro a'
  have := hb a'
  cases a <;> cases a' <;> simp only [upperPart, V3.get] at * <;> linarith

theorem surface_mono {b c : BBox3 ℝ} (hb : BoxOk b) (h : ∀ a, extent b a ≤ extent c a) : surface b ≤ surface c := by
  have hx := hb .X; have hy := hb .Y; have hz := hb .Z
  have ex := h .X; have ey := h .Y; have ez := h .Z
  simp only [extent, V3.get] at *
  unfold surface
  have hx' := sub_nonneg.2 hx; have hy' := sub_nonneg.2 hy; have hz' := sub_nonneg.2 hz
  have := mul_le_mul ex ey hy' (hx'.trans ex)
  have := mul_le_mul ey ez hz' (hy'.trans ey)
  have := mul_le_mul ez ex hx' (hz'.trans ez)
  linarith

theorem price_lt_max {b : BBox3 ℝ} (hb : BoxOk b) {a : Axis} {t : ℝ} (h : Cuts b a t) {m n : Nat} (hm : m < 2 ^ 64) (hn : n < 2 ^ 64) :
    price b a t m n < FLOAT_MAX := by
  have l1 : surface (lowerPart b a t) / surface b ≤ 1 := by
    refine div_le_one_of_le₀ (surface_mono (lowerPart_ok hb h) ?_) (surface_nonneg hb)
    obtain ⟨h1, h2⟩ := h
    intro a'
    cases a <;> cases a' <;> simp only [lowerPart, extent, V3.get] at * <;> linarith
  have l2 : surface (upperPart b a t) / surface b ≤ 1 := by
    refine div_le_one_of_le₀ (surface_mono (upperPart_ok hb h) ?_) (surface_nonneg hb)
    obtain ⟨h1, h2⟩ := h
    intro a'
    cases a <;> cases a' <;> simp only [upperPart, extent, V3.get] at * <;> linarith
  have l1' : 0 ≤ surface (lowerPart b a t) / surface b := div_nonneg (surface_nonneg (lowerPart_ok hb h)) (surface_nonneg hb)
  have l2' : 0 ≤ surface (upperPart b a t) / surface b := div_nonneg (surface_nonneg (upperPart_ok hb h)) (surface_nonneg hb)
  have m' : (m : ℝ) < 2 ^ 64 := by exact_mod_cast hm
  have n' : (n : ℝ) < 2 ^ 64 := by exact_mod_cast hn
  have m0 : (0 : ℝ) ≤ m := Nat.cast_nonneg _
  have n0 : (0 : ℝ) ≤ n := Nat.cast_nonneg _
  have q : ∃ q : ℝ, q = (if m = 0 ∨ n = 0 then (1 : ℝ) / 2 else 1) ∧ 0 ≤ q ∧ q ≤ 1 := by
    refine ⟨_, rfl, ?_⟩
    split_ifs <;> norm_num
  obtain ⟨q, hq, q0, q1⟩ := q
  unfold price FLOAT_MAX
  rw [← hq, r_lit]
  have s1 : surface (lowerPart b a t) / surface b * m ≤ m := mul_le_of_le_one_left m0 l1
  have s2 : surface (upperPart b a t) / surface b * n ≤ n := mul_le_of_le_one_left n0 l2
  have s0 : 0 ≤ surface (lowerPart b a t) / surface b * m + surface (upperPart b a t) / surface b * n := by positivity
  have hz := add_le_add s1 s2
  generalize surface (lowerPart b a t) / surface b * m + surface (upperPart b a t) / surface b * n = z at *
  have : 80 * q * z ≤ 80 * z := by nlinarith
  have hbig : (1 : ℝ) + 80 * (2 ^ 64 + 2 ^ 64) < ((340282346638528859811704183484516925440 : ℚ) : ℝ) := by norm_num
  linarith

theorem stops_sorted (a : Axis) (ss : List (Obj ℝ)) : stops (sortedEdges a ss) = ss.length := by
  unfold stops; rw [count_sorted]; simp
theorem starts_sorted (a : Axis) (ss : List (Obj ℝ)) : starts (sortedEdges a ss) = ss.length := by
  unfold starts; rw [count_sorted]; simp

theorem below_le (a : Axis) (ss : List (Obj ℝ)) (k : Nat) : (below (sortedEdges a ss) k).length ≤ ss.length := by
  rw [below_length, ← starts_sorted a ss]
  exact List.Sublist.countP_le (List.take_sublist _ _)
theorem above_le (a : Axis) (ss : List (Obj ℝ)) (k : Nat) : (above (sortedEdges a ss) k).length ≤ ss.length := by
  rw [above_length, ← stops_sorted a ss]
  exact List.Sublist.countP_le (List.drop_sublist _ _)

/-- What the scan along one axis finds. -/
theorem axis_spec {b : BBox3 ℝ} (hb : BoxOk b) (a : Axis) {ss : List (Obj ℝ)} (hn : ss.length < 2 ^ 64) :
    let r := scan b a (sortedEdges a ss) 0 0 ss.length ⟨FLOAT_MAX, none⟩
    r = ⟨FLOAT_MAX, none⟩ ∧ NoFace b ss a ∨ ∃ k e, (sortedEdges a ss)[k]? = some e ∧ Cuts b a e.t ∧ r.split = some (a, k) ∧
      r.cost = price b a e.t (below (sortedEdges a ss) k).length (above (sortedEdges a ss) k).length ∧
      (∀ s ∈ ss, Cuts b a (lowFace a s) → r.cost ≤
        price b a (lowFace a s) (number ss fun x => lowFace a x < lowFace a s) (number ss fun x => lowFace a s ≤ highFace a x)) ∧
      (∀ s ∈ ss, Cuts b a (highFace a s) → r.cost ≤
        price b a (highFace a s) (number ss fun x => lowFace a x ≤ highFace a s) (number ss fun x => highFace a s < highFace a x)) := by
  intro r
  have h := scan_price b a (sortedEdges a ss) (sortedEdges a ss) [] ⟨FLOAT_MAX, none⟩ rfl
  rw [stops_sorted] at h
  change r.cost ≤ _ ∧ (∀ k e, 0 ≤ k → _ → _ → r.cost ≤ _) ∧ (r = _ ∨ _) at h
  obtain ⟨h1, h2, h3⟩ := h
  have hp : ∀ k t, priceAt b a (sortedEdges a ss) k t = price b a t (below (sortedEdges a ss) k).length (above (sortedEdges a ss) k).length := by
    intro k t; rw [priceAt, below_length, above_length]
  rcases h3 with h3 | ⟨k, e, k1, k2, k3, k4, k5⟩
  · left
    refine ⟨h3, fun s hs => ⟨fun hc => ?_, fun hc => ?_⟩⟩
    · obtain ⟨k, e, he, ht, -⟩ := price_low b a ss s hs
      rw [← ht] at hc
      have := h2 k e (Nat.zero_le _) he hc
      rw [h3, hp] at this
      exact absurd this (not_le.2 (price_lt_max hb hc ((below_le a ss k).trans_lt hn) ((above_le a ss k).trans_lt hn)))
    · obtain ⟨k, e, he, ht, -⟩ := price_high b a ss s hs
      rw [← ht] at hc
      have := h2 k e (Nat.zero_le _) he hc
      rw [h3, hp] at this
      exact absurd this (not_le.2 (price_lt_max hb hc ((below_le a ss k).trans_lt hn) ((above_le a ss k).trans_lt hn)))
  · right
    refine ⟨k, e, k1, k2, k3, k4.trans (hp _ _), fun s hs hc => ?_, fun s hs hc => ?_⟩
    · obtain ⟨k, e, he, ht, hpr⟩ := price_low b a ss s hs
      rw [← hpr]; rw [← ht] at hc
      exact h2 k e (Nat.zero_le _) he hc
    · obtain ⟨k, e, he, ht, hpr⟩ := price_high b a ss s hs
      rw [← hpr]; rw [← ht] at hc
      exact h2 k e (Nat.zero_le _) he hc

theorem maxExtent_longest {b : BBox3 ℝ} {a : Axis} (h : b.maxExtent = some a) : ∀ a', extent b a' ≤ extent b a := by
  unfold BBox3.maxExtent at h
  simp only [BBox3.diagonal, V3.sub] at h
  real_ops at h
  simp only [extent]
  intro a'
  split at h <;> cases h <;> simp_all <;> cases a' <;> simp only [V3.get] <;> linarith

/-- What is found for a node. -/
theorem tryAxes_price {b : BBox3 ℝ} (hb : BoxOk b) {ss : List (Obj ℝ)} (hn : ss.length < 2 ^ 64) {a0 : Axis} (h0 : b.maxExtent = some a0) :
    let r := tryAxes b ss 3 a0 ⟨FLOAT_MAX, none⟩
    r.split = none ∧ (∀ a, NoFace b ss a) ∨ ∃ a k e, (sortedEdges a ss)[k]? = some e ∧ r.split = some (a, k) ∧
      r.cost = price b a e.t (below (sortedEdges a ss) k).length (above (sortedEdges a ss) k).length ∧
      BestCut b ss a e.t (below (sortedEdges a ss) k) (above (sortedEdges a ss) k) := by
  have found : ∀ (a : Axis) (k : Nat) (e : BEdge ℝ) (r : Best ℝ), (sortedEdges a ss)[k]? = some e → Cuts b a e.t →
      r.cost = price b a e.t (below (sortedEdges a ss) k).length (above (sortedEdges a ss) k).length →
      (∀ s ∈ ss, Cuts b a (lowFace a s) → r.cost ≤
        price b a (lowFace a s) (number ss fun x => lowFace a x < lowFace a s) (number ss fun x => lowFace a s ≤ highFace a x)) →
      (∀ s ∈ ss, Cuts b a (highFace a s) → r.cost ≤
        price b a (highFace a s) (number ss fun x => lowFace a x ≤ highFace a s) (number ss fun x => highFace a s < highFace a x)) →
      (a = a0 ∨ NoFace b ss a0 ∧ (a = a0.next ∨ NoFace b ss a0.next ∧ a = a0.next.next)) →
      BestCut b ss a e.t (below (sortedEdges a ss) k) (above (sortedEdges a ss) k) := by
    intro a k e r he hc hr hlo hhi hax
    have hsort := sorted_real a ss
    have hmem := fun x => mem_sorted_real (a := a) (ss := ss) (e := x)
    have hbl := below_le a ss k
    have hal := above_le a ss k
    rw [hr] at hlo hhi
    generalize sortedEdges a ss = es at *
    have hk : k < es.length := by
      by_contra hc
      rw [List.getElem?_eq_none (not_lt.1 hc)] at he; cases he
    have hek : es[k] = e := by rw [List.getElem?_eq_getElem hk] at he; exact Option.some.inj he
    have hsplit : es = es.take k ++ e :: es.drop (k + 1) := by rw [← hek, ← List.drop_eq_getElem_cons hk, List.take_append_drop]
    have heIn : e ∈ es := by rw [← hek]; exact List.getElem_mem hk
    rw [hsplit, List.pairwise_append] at hsort
    obtain ⟨-, h2, h3⟩ := hsort
    rw [List.pairwise_cons] at h2
    have le_t : ∀ {x y}, EdgeLe x y → x.t ≤ y.t := by
      rintro x y (h | ⟨h, -⟩)
      · exact h.le
      · exact h.le
    have memB : ∀ s, s ∈ below es k ↔ ∃ x ∈ es.take k, x.kind = .start ∧ x.shape = s := by
      intro s; simp [below, and_assoc]
    have memA : ∀ s, s ∈ above es k ↔ ∃ x ∈ es.drop (k + 1), x.kind = .stop ∧ x.shape = s := by
      intro s; simp [above, and_assoc]
    refine ⟨?_, hc, ⟨a0, maxExtent_longest h0, hax⟩, ?_, ?_, ?_, ?_, ⟨hbl, hal⟩, hlo, hhi⟩
    · obtain ⟨s, hs, rfl | rfl⟩ := (hmem e).1 heIn
      · exact ⟨s, hs, Or.inl rfl⟩
      · exact ⟨s, hs, Or.inr rfl⟩
    · intro s hs hl
      rw [memB]
      have hx : (⟨.start, lowFace a s, s⟩ : BEdge ℝ) ∈ es := (hmem _).2 ⟨s, hs, Or.inl rfl⟩
      refine ⟨⟨.start, lowFace a s, s⟩, ?_, rfl, rfl⟩
      rw [hsplit] at hx
      rcases List.mem_append.1 hx with hx | hx
      · exact hx
      · exfalso
        rcases List.mem_cons.1 hx with hx | hx
        · rw [← hx] at hl; exact lt_irrefl _ hl
        · exact absurd hl (not_lt.2 (le_t (h2.1 _ hx)))
    · intro s hs hl
      rw [memA]
      have hx : (⟨.stop, highFace a s, s⟩ : BEdge ℝ) ∈ es := (hmem _).2 ⟨s, hs, Or.inr rfl⟩
      refine ⟨⟨.stop, highFace a s, s⟩, ?_, rfl, rfl⟩
      rw [hsplit] at hx
      rcases List.mem_append.1 hx with hx | hx
      · exact absurd hl (not_lt.2 (le_t (h3 _ hx e (by simp))))
      · rcases List.mem_cons.1 hx with hx | hx
        · rw [← hx] at hl; exact absurd hl (lt_irrefl _)
        · exact hx
    · intro s hs
      obtain ⟨x, hx, hk1, rfl⟩ := (memB s).1 hs
      have hle := le_t (h3 x hx e (by simp))
      obtain ⟨s, hs', rfl | rfl⟩ := (hmem x).1 (List.mem_of_mem_take hx)
      · exact ⟨hs', hle⟩
      · cases hk1
    · intro s hs
      obtain ⟨x, hx, hk1, rfl⟩ := (memA s).1 hs
      have hle := le_t (h2.1 x hx)
      obtain ⟨s, hs', rfl | rfl⟩ := (hmem x).1 (List.mem_of_mem_drop hx)
      · cases hk1
      · exact ⟨hs', hle⟩
  intro r
  have hr : r = tryAxes b ss 3 a0 ⟨FLOAT_MAX, none⟩ := rfl
  have isNone : (⟨FLOAT_MAX, none⟩ : Best ℝ).split.isNone = true := rfl
  rw [tryAxes] at hr
  rcases axis_spec hb a0 hn with ⟨e0, n0⟩ | ⟨k, e, h1, h2, h3, h4, h5, h6⟩
  · rw [e0, if_pos isNone, tryAxes] at hr
    rcases axis_spec hb a0.next hn with ⟨e1, n1⟩ | ⟨k, e, h1, h2, h3, h4, h5, h6⟩
    · rw [e1, if_pos isNone, tryAxes] at hr
      rcases axis_spec hb a0.next.next hn with ⟨e2, n2⟩ | ⟨k, e, h1, h2, h3, h4, h5, h6⟩
      · rw [e2, if_pos isNone, tryAxes] at hr
        left
        refine ⟨by rw [hr], fun a => ?_⟩
        cases a0 <;> cases a <;> simp only [Axis.next] at n0 n1 n2 <;> assumption
      · right
        rw [if_neg (by rw [h3]; simp)] at hr
        rw [hr]
        exact ⟨_, k, e, h1, h3, h4, found _ k e _ h1 h2 h4 h5 h6 (Or.inr ⟨n0, Or.inr ⟨n1, rfl⟩⟩)⟩
    · right
      rw [if_neg (by rw [h3]; simp)] at hr
      rw [hr]
      exact ⟨_, k, e, h1, h3, h4, found _ k e _ h1 h2 h4 h5 h6 (Or.inr ⟨n0, Or.inl rfl⟩)⟩
  · right
    rw [if_neg (by rw [h3]; simp)] at hr
    rw [hr]
    exact ⟨_, k, e, h1, h3, h4, found _ k e _ h1 h2 h4 h5 h6 (Or.inl rfl)⟩

theorem setAxis_lower (b : BBox3 ℝ) (a : Axis) (t : ℝ) : ({ b with max := setAxis b.max a t } : BBox3 ℝ) = lowerPart b a t := by
  cases a <;> rfl
theorem setAxis_upper (b : BBox3 ℝ) (a : Axis) (t : ℝ) : ({ b with min := setAxis b.min a t } : BBox3 ℝ) = upperPart b a t := by
  cases a <;> rfl

theorem Builds.heuristic {depth : Nat} {ss : List (Obj ℝ)} {b : BBox3 ℝ} {bad : Nat} {T : KTree ℝ}
    (h : Builds depth ss b bad T) (hb : BoxOk b) (hn : ss.length < 2 ^ 64) : Heuristic depth ss b bad T := by
  have gt : ∀ (x y : ℝ), (x >. y) = true ↔ y < x := by intro x y; real_ops
  have worth : ∀ (p : ℝ) (n bad : Nat), ((p >. lit 4 *. (ISECT_COST *. ofInt (n : Int)) : Bool) = true ∧ n < 16 ∨
      (if p >. ISECT_COST *. ofInt (n : Int) then bad + 1 else bad) = 3) ↔ NotWorth n bad p := by
    intro p n bad
    have e : (ISECT_COST *. ofInt (n : Int) : ℝ) = 80 * n := by rw [ISECT_COST]; real_ops; norm_num
    have e4 : (lit 4 *. (80 * (n : ℝ)) : ℝ) = 4 * (80 * n) := by real_ops
    rw [e, e4, gt]
    unfold NotWorth
    by_cases hp : 80 * (n : ℝ) < p
    · rw [if_pos ((gt _ _).2 hp)]
      have := not_le.2 hp
      simp only [hp, this, true_and, false_and, or_false]
      constructor <;> (rintro (h | h); exact Or.inl h; right; omega)
    · rw [if_neg (fun h => hp ((gt _ _).1 h))]
      have := not_lt.1 hp
      simp only [hp, this, true_and, false_and, false_or]
  induction h with
  | few h => exact .few h
  | deep => exact .deep
  | @stop depth ss b bad axis best hm hlen hbest hcase =>
    rcases tryAxes_price hb hn hm with ⟨-, h⟩ | ⟨a, k, e, h1, h2, h3, h4⟩
    · exact .noFace h
    · rw [← hbest] at h2 h3
      rw [worth, h3, h2] at hcase
      rcases hcase with hcase | hcase
      · cases hcase
      · exact .notWorth h4 hcase
  | @split depth ss b bad axis0 axis edge l r best e hm hlen hbest hs he hcase _ _ ih1 ih2 =>
    rcases tryAxes_price hb hn hm with ⟨h, -⟩ | ⟨a, k, e', h1, h2, h3, h4⟩
    · rw [← hbest, hs] at h; cases h
    · rw [← hbest] at h2 h3
      rw [hs] at h2; cases h2
      rw [he] at h1; cases h1
      rw [worth, h3] at hcase
      rw [setAxis_lower] at ih1
      rw [setAxis_upper] at ih2
      refine .node hlen h4 hcase ?_ (ih1 (lowerPart_ok hb h4.cuts) (h4.few.1.trans_lt hn)) (ih2 (upperPart_ok hb h4.cuts) (h4.few.2.trans_lt hn))
      rw [h3]
      have e : (ISECT_COST *. ofInt (ss.length : Int) : ℝ) = 80 * ss.length := by rw [ISECT_COST]; real_ops; norm_num
      rw [e]
      generalize price b axis _ _ _ = p
      by_cases hp : 80 * (ss.length : ℝ) < p
      · rw [if_pos hp, if_pos ((gt _ _).2 hp)]
      · rw [if_neg hp, if_neg (fun h => hp ((gt _ _).1 h))]

theorem bboxOfShapes_ok {ss : List (Obj ℝ)} (h : ∀ s ∈ ss, ∀ a, lowFace a s ≤ highFace a s) {b : BBox3 ℝ} (hb : bboxOfShapes ss = some b) : BoxOk b := by
  have key : ∀ (l : List (Obj ℝ)) (b : BBox3 ℝ), BoxOk b → BoxOk (l.foldl (fun b s => b.union s.shape.bbox) b) := by
    intro l
    induction l with
    | nil => exact fun b h => h
    | cons s l ih =>
      intro b hb
      refine ih _ fun a => ?_
      have := hb a
      cases a <;> simp only [BBox3.union, V3.min, V3.max, V3.get] at * <;> real_ops <;>
        exact (min_le_left _ _).trans (this.trans (le_max_left _ _))
  cases ss with
  | nil => cases hb
  | cons s ss =>
    simp only [bboxOfShapes, Option.some.injEq] at hb
    subst hb
    exact key ss _ fun a => h s (by simp) a

/-- C32, exact arithmetic: whatever the shapes (boxes with ordered corners), the tree is the one the surface area heuristic makes. -/
theorem c32_surface_area (ss : List (Obj ℝ)) (hss : ∀ s ∈ ss, ∀ a, lowFace a s ≤ highFace a s) (hn : ss.length < 2 ^ 64)
    (maxDepth : Option Nat) (tree : KdTree ℝ) (h : new ss maxDepth = some tree) :
    ∃ T, Layout tree.nodes 0 T tree.nodes.length ∧ Heuristic (maxDepth.getD (defaultDepth (α := ℝ) ss.length)) ss tree.bbox 0 T := by
  obtain ⟨hb, T, hT, hB⟩ := new_layout h
  exact ⟨T, hT, hB.heuristic (bboxOfShapes_ok hss hb) hn⟩

theorem maxExtent_real (b : BBox3 ℝ) : b.maxExtent ≠ none := by
  unfold BBox3.maxExtent
  dsimp only
  generalize b.diagonal.x = x
  generalize b.diagonal.y = y
  generalize b.diagonal.z = z
  intro h
  split at h <;> try cases h
  rename_i h1 h2 h3
  real_ops at h1 h2 h3
  by_cases c1 : y ≤ x <;> by_cases c2 : z ≤ x <;> by_cases c3 : z ≤ y <;> simp_all <;> linarith

theorem build_total_real : ∀ (depth : Nat) (nodes : List (Node ℝ)) (ss : List (Obj ℝ)) (b : BBox3 ℝ) (bad : Nat), build depth nodes ss b bad ≠ none := by
  intro depth
  induction depth with
  | zero => intro nodes ss b bad; simp [build]
  | succ depth ih =>
    intro nodes ss b bad
    rw [build]
    split_ifs
    · simp
    · cases hm : b.maxExtent with
      | none => exact absurd hm (maxExtent_real b)
      | some a0 =>
        rw [Option.bind_some]
        dsimp only
        generalize hb : tryAxes b ss 3 a0 ⟨FLOAT_MAX, none⟩ = best
        generalize (if (best.cost >. ISECT_COST *. ofInt ss.length) = true then bad + 1 else bad) = bad'
        cases hs : best.split with
        | none => simp
        | some p =>
          obtain ⟨a, k⟩ := p
          dsimp only
          split_ifs
          · simp
          · have hk := tryAxes_index b ss 3 a0 ⟨FLOAT_MAX, none⟩ a k rfl (by rw [hb, hs])
            rw [List.getElem?_eq_getElem hk, Option.bind_some]
            cases h1 : build depth (nodes ++ [Node.empty]) (below (sortedEdges a ss) k)
                { b with max := setAxis b.max a ((sortedEdges a ss)[k]).t } bad' with
            | none => exact absurd h1 (ih _ _ _ _)
            | some n1 => rw [Option.bind_some]; exact ih _ _ _ _

/-- Exact arithmetic: construction panics exactly when there are no shapes. -/
theorem c28_build_total_real (ss : List (Obj ℝ)) (maxDepth : Option Nat) : new ss maxDepth = none ↔ ss = [] := by
  constructor
  · intro h
    cases ss with
    | nil => rfl
    | cons s ss =>
      simp only [new, bboxOfShapes, Option.bind_some, Option.map_eq_none_iff] at h
      exact absurd h (build_total_real _ _ _ _ _)
  · rintro rfl; rfl

/-- Nine unit boxes in a row: the hypotheses hold, the tree is built and its root is split. -/
example (m : Material ℝ) :
    let ss : List (Obj ℝ) := [0, 2, 4, 6, 8, 10, 12, 14, 16].map fun x : ℝ =>
      ⟨0, Shape.withDefaults ⟨⟨x, 0, 0⟩, ⟨x + 1, 1, 1⟩⟩ 0 (fun _ => some false) (fun _ => some none) m (fun _ => none)⟩
    (∀ s ∈ ss, ∀ a, lowFace a s ≤ highFace a s) ∧ ss.length < 2 ^ 64 ∧ ∃ tree, new ss (some 3) = some tree ∧
      ∃ a t l r, Layout tree.nodes 0 (.node a t l r) tree.nodes.length := by
  intro ss
  have h1 : ∀ s ∈ ss, ∀ a, lowFace a s ≤ highFace a s := by
    intro s hs a
    obtain ⟨x, -, rfl⟩ := List.mem_map.1 hs
    cases a <;> simp [lowFace, highFace, V3.get, Shape.withDefaults]
  have h2 : ss.length < 2 ^ 64 := by simp [ss]
  refine ⟨h1, h2, ?_⟩
  cases ht : new ss (some 3) with
  | none => exact absurd ((c28_build_total_real ss _).1 ht) (by simp [ss])
  | some tree =>
    refine ⟨tree, rfl, ?_⟩
    obtain ⟨T, hT, hH⟩ := c32_surface_area ss h1 h2 (some 3) tree ht
    obtain ⟨hbb, -⟩ := new_layout ht
    have hbox : tree.bbox = ⟨⟨0, 0, 0⟩, ⟨17, 1, 1⟩⟩ := by
      simp only [ss, bboxOfShapes, List.map_cons, List.map_nil, List.foldl_cons, List.foldl_nil, BBox3.union, V3.min, V3.max, Shape.withDefaults, Option.some.injEq] at hbb
      real_ops at hbb
      rw [← hbb]; norm_num
    rw [hbox] at hH
    -- the cut at the lower face of the sixth box costs less than testing all shapes
    have hmem : (⟨0, Shape.withDefaults ⟨⟨10, 0, 0⟩, ⟨10 + 1, 1, 1⟩⟩ 0 (fun _ => some false) (fun _ => some none) m (fun _ => none)⟩ : Obj ℝ) ∈ ss := by
      simp [ss]
    have hcut : Cuts ⟨⟨0, 0, 0⟩, ⟨17, 1, 1⟩⟩ .X (10 : ℝ) := by constructor <;> norm_num [V3.get]
    cases hH with
    | few h => simp [ss] at h
    | noFace h => exact absurd hcut (h .X _ hmem).1
    | @notWorth _ _ a t B A _ _ hc hw =>
      exfalso
      have ha : a = .X := by
        obtain ⟨a0, hl, hax⟩ := hc.axis
        have : a0 = .X := by
          have := hl .X
          cases a0 <;> simp [extent, V3.get] at this <;> first | rfl | (norm_num at this)
        subst this
        rcases hax with h | ⟨h, -⟩
        · exact h
        · exact absurd hcut (h _ hmem).1
      subst ha
      have hp := hc.cheapestLow _ hmem hcut
      have n1 : number ss (fun x => lowFace .X x < 10) = 5 := by
        simp [number, ss, lowFace, V3.get, Shape.withDefaults, List.countP_cons]; norm_num
      have n2 : number ss (fun x => 10 ≤ highFace .X x) = 4 := by
        simp [number, ss, highFace, V3.get, Shape.withDefaults, List.countP_cons]; norm_num
      change _ ≤ price _ _ 10 (number ss fun x => lowFace .X x < 10) (number ss fun x => 10 ≤ highFace .X x) at hp
      rw [n1, n2] at hp
      have hv : price ⟨⟨0, 0, 0⟩, ⟨17, 1, 1⟩⟩ .X (10 : ℝ) 5 4 ≤ 400 := by
        norm_num [price, surface, lowerPart, upperPart]
      have hlen : (ss.length : ℝ) = 9 := by simp [ss]
      rcases hw with ⟨h, -⟩ | ⟨-, h⟩ | ⟨-, h⟩
      · rw [hlen] at h; linarith
      · cases h
      · cases h
    | node h3 hc hw hb hl hr => exact ⟨_, _, _, _, hT⟩
end KdTree
end PT
