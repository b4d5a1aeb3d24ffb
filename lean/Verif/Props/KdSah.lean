import Verif.Props.KdTree

/-!
# C32: where the k-d tree splits and where it stops
-/

namespace PT
open Fl Spec KdTree

namespace Spec
variable {φ K : Type} [Field K] [LinearOrder K] [FloorRing K] [Rounding φ K]

/-- `c` is the cost of splitting the node at a face `t` of some shape's box that is strictly inside the node's box; the `i`-th face
in sorted order sends the shapes that start before it below and those that end after it above. -/
def PlaneCost (box : BBox3 (Fl φ K)) (ss : List (Obj (Fl φ K))) (a : Axis) (i : Nat) (t c : Fl φ K) : Prop :=
  ∃ e, (sortedEdges a ss)[i]? = some e ∧ e.t = t ∧ Fl.lt (box.min.get a) t = true ∧ Fl.lt t (box.max.get a) = true ∧
    c = splitCost box a t (below (sortedEdges a ss) i).length (above (sortedEdges a ss) i).length
/-- No plane on this axis has a cost below `f32::MAX`. -/
def NoPlane (box : BBox3 (Fl φ K)) (ss : List (Obj (Fl φ K))) (a : Axis) : Prop :=
  ∀ i t c, PlaneCost box ss a i t c → ¬ Fl.lt c FLOAT_MAX = true
/-- The first axis with a usable plane, starting from the widest one. -/
def ChosenAxis (box : BBox3 (Fl φ K)) (ss : List (Obj (Fl φ K))) (a : Axis) : Prop :=
  ¬ NoPlane box ss a ∧ ∃ a0, box.maxExtent = some a0 ∧
    (a = a0 ∨ (a = a0.next ∧ NoPlane box ss a0) ∨ (a = a0.next.next ∧ NoPlane box ss a0 ∧ NoPlane box ss a0.next))
/-- A plane on the chosen axis, none on this axis is cheaper. -/
def CheapestPlane (box : BBox3 (Fl φ K)) (ss : List (Obj (Fl φ K))) (a : Axis) (i : Nat) (t c : Fl φ K) : Prop :=
  ChosenAxis box ss a ∧ PlaneCost box ss a i t c ∧ ∀ i' t' c', PlaneCost box ss a i' t' c' → ¬ Fl.lt c' c = true
/-- Cost of testing all the shapes. -/
def leafCost (ss : List (Obj (Fl φ K))) : Fl φ K := ISECT_COST *. ofInt ss.length

/-- The tree that greedy cost-based splitting gives: `depth` splits are still allowed, `bad` nodes above already cost more split
than unsplit. -/
inductive Greedy : (depth : Nat) → List (Obj (Fl φ K)) → BBox3 (Fl φ K) → (bad : Nat) → KTree (Fl φ K) → Prop where
  /-- at most 8 shapes -/
  | few {depth ss box bad} : ss.length ≤ 8 → Greedy depth ss box bad (.leaf ss)
  /-- the depth limit -/
  | deep {ss box bad} : Greedy 0 ss box bad (.leaf ss)
  /-- no usable plane on any axis -/
  | noPlane {depth ss box bad} : (∀ a, NoPlane box ss a) → Greedy (depth + 1) ss box bad (.leaf ss)
  /-- fewer than 16 shapes and the cheapest plane is more than 4 times as expensive as not splitting -/
  | dear {depth ss box bad a i t c} : ss.length < 16 → CheapestPlane box ss a i t c → Fl.lt (lit 4 *. leafCost ss) c = true →
      Greedy (depth + 1) ss box bad (.leaf ss)
  /-- the third node on the path where the cheapest plane is more expensive than not splitting -/
  | thirdBad {depth ss box bad a i t c} : CheapestPlane box ss a i t c → Fl.lt (leafCost ss) c = true → bad = 2 →
      Greedy (depth + 1) ss box bad (.leaf ss)
  /-- a split at the cheapest plane; the counter grows if it is more expensive than not splitting -/
  | split {depth ss box bad bad' a i t c l r} : 8 < ss.length → CheapestPlane box ss a i t c →
      ¬ (Fl.lt (lit 4 *. leafCost ss) c = true ∧ ss.length < 16) →
      bad' = (if Fl.lt (leafCost ss) c then bad + 1 else bad) → bad' ≤ 2 →
      Greedy depth (below (sortedEdges a ss) i) { box with max := setAxis box.max a t } bad' l →
      Greedy depth (above (sortedEdges a ss) i) { box with min := setAxis box.min a t } bad' r →
      Greedy (depth + 1) ss box bad (.node a t l r)
end Spec

namespace KdTree
variable {φ K : Type} [Field K] [LinearOrder K] [IsStrictOrderedRing K] [FloorRing K] [Rounding φ K]

theorem scan_spec (box : BBox3 (Fl φ K)) (axis : Axis) (es0 : List (BEdge (Fl φ K))) :
    ∀ (es : List (BEdge (Fl φ K))) (i : Nat) (nb na : Nat) (best : Best (Fl φ K)), es = es0.drop i →
    nb = (below es0 i).length → na = (es.filter fun e => e.kind = .stop).length →
    ∃ r, scan box axis es i nb na best = r ∧
      (∀ k e, i ≤ k → es0[k]? = some e → lt (box.min.get axis) e.t = true → lt e.t (box.max.get axis) = true →
        ¬ lt (splitCost box axis e.t (below es0 k).length (above es0 k).length) r.cost = true) ∧
      (r = best ∨ ∃ k e, es0[k]? = some e ∧ lt (box.min.get axis) e.t = true ∧ lt e.t (box.max.get axis) = true ∧
        r = ⟨splitCost box axis e.t (below es0 k).length (above es0 k).length, some (axis, k)⟩ ∧
        lt (splitCost box axis e.t (below es0 k).length (above es0 k).length) best.cost = true) := by
  intro es
  induction es with
  | nil =>
    intro i nb na best he _ _
    refine ⟨best, rfl, ?_, Or.inl rfl⟩
    intro k e hk hke
    have : es0.length ≤ i := List.drop_eq_nil_iff.1 he.symm
    rw [List.getElem?_eq_none (by omega)] at hke; cases hke
  | cons e es ih =>
    intro i nb na best he hnb hna
    have hi : i < es0.length := by
      by_contra hc
      rw [List.drop_eq_nil_iff.2 (not_lt.1 hc)] at he; cases he
    rw [List.drop_eq_getElem_cons hi] at he
    injection he with he1 he2
    have hei : es0[i]? = some e := by rw [List.getElem?_eq_getElem hi, ← he1]
    have hna' : (if e.kind = .stop then na - 1 else na) = (above es0 i).length := by
      unfold above
      rw [hna, List.length_map, ← he2, List.filter_cons]
      by_cases hk : e.kind = .stop <;> simp [hk]
    have hnb' : (if e.kind = .start then nb + 1 else nb) = (below es0 (i + 1)).length := by
      unfold below at hnb ⊢
      rw [hnb, List.length_map, List.length_map, List.take_succ, hei]
      by_cases hk : e.kind = .start <;> simp [hk]
    have hna'' : (if e.kind = .stop then na - 1 else na) = (es.filter fun e => e.kind = .stop).length := by
      rw [hna', above, List.length_map, he2]
    rw [scan]
    dsimp only
    rw [hnb']
    generalize hB : (if ((box.min.get axis <. e.t) && (e.t <. box.max.get axis)) = true then
        if (splitCost box axis e.t nb (if e.kind = .stop then na - 1 else na) <. best.cost) = true then
          (⟨splitCost box axis e.t nb (if e.kind = .stop then na - 1 else na), some (axis, i)⟩ : Best (Fl φ K)) else best
        else best) = best'
    obtain ⟨r, hr, h1, h2⟩ := ih (i + 1) _ _ best' he2 rfl hna''
    refine ⟨r, hr, ?_, ?_⟩
    all_goals rw [hna', hnb] at hB
    · intro k e' hk hke hlo hhi
      rcases Nat.lt_or_ge i k with hik | hik
      · exact h1 k e' hik hke hlo hhi
      · obtain rfl : k = i := by omega
        rw [hei] at hke; cases hke
        intro hc
        have hcond : ((box.min.get axis <. e.t) && (e.t <. box.max.get axis)) = true := by
          rw [Bool.and_eq_true]; exact ⟨hlo, hhi⟩
        rw [if_pos hcond] at hB
        have hirr : ∀ x : Fl φ K, ¬ lt x x = true := fun x h => lt_irrefl _ (lt_iff.1 h).2.2
        by_cases hlt : (splitCost box axis e.t (below es0 k).length (above es0 k).length <. best.cost) = true
        · rw [if_pos hlt] at hB
          subst hB
          rcases h2 with rfl | ⟨_, _, _, _, _, rfl, h⟩
          · exact hirr _ hc
          · exact hirr _ (lt_of_lt_of_le' h (le_of_lt' hc))
        · rw [if_neg hlt] at hB
          subst hB
          rcases h2 with rfl | ⟨_, _, _, _, _, rfl, h⟩
          · exact hlt hc
          · exact hlt (lt_of_lt_of_le' hc (le_of_lt' h))
    · by_cases hcond : ((box.min.get axis <. e.t) && (e.t <. box.max.get axis)) = true
      · rw [if_pos hcond] at hB
        by_cases hlt : (splitCost box axis e.t (below es0 i).length (above es0 i).length <. best.cost) = true
        · rw [if_pos hlt] at hB
          subst hB
          rw [Bool.and_eq_true] at hcond
          rcases h2 with rfl | ⟨k, e', a1, a2, a3, rfl, h⟩
          · exact Or.inr ⟨i, e, hei, hcond.1, hcond.2, rfl, hlt⟩
          · exact Or.inr ⟨k, e', a1, a2, a3, rfl, lt_of_lt_of_le' h (le_of_lt' hlt)⟩
        · rw [if_neg hlt] at hB; subst hB; exact h2
      · rw [if_neg hcond] at hB; subst hB; exact h2

theorem stops_count (axis : Axis) (ss : List (Obj (Fl φ K))) :
    ss.length = ((sortedEdges axis ss).filter fun e => e.kind = .stop).length := by
  have hp : (sortedEdges axis ss).Perm (edges axis ss) := List.perm_insertionSort _ _
  rw [(hp.filter _).length_eq]
  clear hp
  unfold edges
  induction ss with
  | nil => rfl
  | cons s ss ih => simpa using ih

/-- One axis. -/
theorem scan_axis (box : BBox3 (Fl φ K)) (ss : List (Obj (Fl φ K))) (axis : Axis) :
    let r := scan box axis (sortedEdges axis ss) 0 0 ss.length ⟨FLOAT_MAX, none⟩
    (r = ⟨FLOAT_MAX, none⟩ ∧ NoPlane box ss axis) ∨
    (∃ i t c, r = ⟨c, some (axis, i)⟩ ∧ PlaneCost box ss axis i t c ∧ ¬ NoPlane box ss axis ∧
      ∀ i' t' c', PlaneCost box ss axis i' t' c' → ¬ lt c' c = true) := by
  obtain ⟨r, hr, h1, h2⟩ := scan_spec box axis (sortedEdges axis ss) (sortedEdges axis ss) 0 0 ss.length ⟨FLOAT_MAX, none⟩ rfl
    (by simp [below]) (stops_count axis ss)
  have hall : ∀ i' t' c', PlaneCost box ss axis i' t' c' → ¬ lt c' r.cost = true := by
    rintro i' t' c' ⟨e, he, rfl, a, b, rfl⟩
    exact h1 i' e (Nat.zero_le _) he a b
  dsimp only
  rw [hr]
  rcases h2 with rfl | ⟨k, e, a1, a2, a3, rfl, a4⟩
  · exact Or.inl ⟨rfl, hall⟩
  · exact Or.inr ⟨k, e.t, _, rfl, ⟨e, a1, rfl, a2, a3, rfl⟩, fun h => h k e.t _ ⟨e, a1, rfl, a2, a3, rfl⟩ a4, hall⟩

theorem next3 (a : Axis) : ∀ b, b = a ∨ b = a.next ∨ b = a.next.next := by cases a <;> intro b <;> cases b <;> simp [Axis.next]

/-- All three axes. -/
theorem tryAxes_spec (box : BBox3 (Fl φ K)) (ss : List (Obj (Fl φ K))) (a0 : Axis) (h0 : box.maxExtent = some a0) :
    let r := tryAxes box ss 3 a0 ⟨FLOAT_MAX, none⟩
    (r.split = none ∧ ∀ a, NoPlane box ss a) ∨ (∃ a i t c, r = ⟨c, some (a, i)⟩ ∧ CheapestPlane box ss a i t c) := by
  dsimp only
  rcases scan_axis box ss a0 with ⟨e1, n1⟩ | ⟨i, t, c, e1, p1, m1, q1⟩
  · rcases scan_axis box ss a0.next with ⟨e2, n2⟩ | ⟨i, t, c, e2, p2, m2, q2⟩
    · rcases scan_axis box ss a0.next.next with ⟨e3, n3⟩ | ⟨i, t, c, e3, p3, m3, q3⟩
      · refine Or.inl ⟨?_, ?_⟩
        · simp [tryAxes, e1, e2, e3]
        · intro a; rcases next3 a0 a with rfl | rfl | rfl <;> assumption
      · exact Or.inr ⟨_, i, t, c, by simp [tryAxes, e1, e2, e3], ⟨m3, a0, h0, Or.inr (Or.inr ⟨rfl, n1, n2⟩)⟩, p3, q3⟩
    · exact Or.inr ⟨_, i, t, c, by simp [tryAxes, e1, e2], ⟨m2, a0, h0, Or.inr (Or.inl ⟨rfl, n1⟩)⟩, p2, q2⟩
  · exact Or.inr ⟨_, i, t, c, by simp [tryAxes, e1], ⟨m1, a0, h0, Or.inl rfl⟩, p1, q1⟩

theorem Builds.greedy {depth : Nat} {ss : List (Obj (Fl φ K))} {box : BBox3 (Fl φ K)} {bad : Nat} {T : KTree (Fl φ K)}
    (h : Builds depth ss box bad T) (hb : bad ≤ 2) : Greedy depth ss box bad T := by
  induction h with
  | few h => exact .few h
  | deep => exact .deep
  | @stop depth ss box bad axis best ha h8 hbest hr =>
    subst hbest
    rcases tryAxes_spec box ss axis ha with ⟨_, hn⟩ | ⟨a, i, t, c, e, hc⟩
    · exact .noPlane hn
    · rw [e] at hr
      rcases hr with hr | ⟨hr, h16⟩ | hr
      · cases hr
      · exact .dear h16 hc hr
      · dsimp only at hr
        by_cases hcost : (c >. ISECT_COST *. ofInt ss.length) = true
        · rw [if_pos hcost] at hr
          exact .thirdBad hc hcost (by omega)
        · rw [if_neg hcost] at hr; omega
  | @split depth ss box bad axis0 axis edge l r best e ha h8 hbest hs he hnot hl hr ih1 ih2 =>
    subst hbest
    rcases tryAxes_spec box ss axis0 ha with ⟨hn, _⟩ | ⟨a, i, t, c, e', hc⟩
    · rw [hn] at hs; cases hs
    · rw [e'] at hs hnot ih1 ih2
      simp only [Option.some.injEq, Prod.mk.injEq] at hs
      obtain ⟨rfl, rfl⟩ := hs
      dsimp only at hnot ih1 ih2
      obtain rfl : e.t = t := by
        obtain ⟨e'', h1, h2, _⟩ := hc.2.1
        rw [he] at h1; cases h1; exact h2
      generalize hb' : (if (c >. ISECT_COST *. ofInt ss.length) = true then bad + 1 else bad) = bad' at hnot ih1 ih2
      have hle : bad' ≤ 2 := by
        have h3 : bad' ≠ 3 := fun h => hnot (Or.inr h)
        have : bad' ≤ 3 := by rw [← hb']; split_ifs <;> omega
        omega
      exact .split h8 hc (fun h => hnot (Or.inl h)) hb'.symm hle (ih1 hle) (ih2 hle)

/-- C32: for all shapes (with any coordinates) and depth limits, the tree is the one of greedy cost-based splitting: no path has more
splits than the limit; a leaf above the limit with more than 8 shapes has no usable plane, or has fewer than 16 shapes and the cheapest
plane of the chosen axis costs more than 4 times as much as testing all of them, or is the third node on its path where splitting costs
more; every split is at a plane of least cost on the chosen axis. -/
theorem c32_greedy [Libm (Fl φ K)] (ss : List (Obj (Fl φ K))) (maxDepth : Option Nat)
    (tree : KdTree (Fl φ K)) (h : new ss maxDepth = some tree) :
    ∃ T, Layout tree.nodes 0 T tree.nodes.length ∧ T.depth ≤ maxDepth.getD (defaultDepth (α := Fl φ K) ss.length) ∧
      Greedy (maxDepth.getD (defaultDepth (α := Fl φ K) ss.length)) ss tree.bbox 0 T := by
  obtain ⟨_, T, hT, hB⟩ := new_layout h
  exact ⟨T, hT, hB.depth_le, hB.greedy (by omega)⟩
end KdTree
end PT
