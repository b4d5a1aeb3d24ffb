import Verif.Lemmas.KdBuild

/-!
# k-d tree: C28, C31, C32 (first part), C30
-/

namespace PT
open Fl Spec

/-! ## C28 -/

namespace Spec
variable {φ K : Type} [Field K] [LinearOrder K] [FloorRing K] [Rounding φ K]
/-- At every split of the tree, a stored shape that is missing on the lower side has its box on or above the plane, and
one that is missing on the upper side has its box on or below it. -/
def Separated : KTree (Fl φ K) → Prop
  | .leaf _ => True
  | .node a t l r =>
    (∀ s ∈ l.stored ++ r.stored,
      (s ∉ l.stored → Fl.le t (s.shape.bbox.min.get a) = true) ∧ (s ∉ r.stored → Fl.le (s.shape.bbox.max.get a) t = true)) ∧
    Separated l ∧ Separated r
/-- A plane through a face of the box of some shape. -/
def FaceOf (ss : List (Obj (Fl φ K))) (a : Axis) (t : Fl φ K) : Prop :=
  ∃ s ∈ ss, t = s.shape.bbox.min.get a ∨ t = s.shape.bbox.max.get a
/-- All boxes have finite, ordered corners. -/
def FiniteBoxes (ss : List (Obj (Fl φ K))) : Prop :=
  ∀ s ∈ ss, ∀ a, (s.shape.bbox.min.get a).IsFin ∧ (s.shape.bbox.max.get a).IsFin ∧
    Fl.le (s.shape.bbox.min.get a) (s.shape.bbox.max.get a) = true
end Spec

namespace KdTree
section
variable {φ K : Type} [Field K] [LinearOrder K] [IsStrictOrderedRing K] [FloorRing K] [Rounding φ K]

theorem Builds.facts {depth : Nat} {ss : List (Obj (Fl φ K))} {box : BBox3 (Fl φ K)} {bad : Nat} {T : KTree (Fl φ K)}
    (h : Builds depth ss box bad T) (hg : GoodBoxes ss) :
    (∀ s, s ∈ T.stored ↔ s ∈ ss) ∧ Separated T ∧ (∀ p ∈ T.splits, FaceOf ss p.1 p.2) ∧ T.depth ≤ depth := by
  induction h with
  | few _ => exact ⟨fun s => Iff.rfl, trivial, by simp [KTree.splits], Nat.zero_le _⟩
  | deep => exact ⟨fun s => Iff.rfl, trivial, by simp [KTree.splits], Nat.zero_le _⟩
  | stop _ _ _ _ _ => exact ⟨fun s => Iff.rfl, trivial, by simp [KTree.splits], Nat.zero_le _⟩
  | @split depth ss box bad axis0 axis edge l r best e _ _ _ _ he _ _ _ ih1 ih2 =>
    obtain ⟨c0, c1, c2, c3⟩ := classify hg he
    obtain ⟨m1, s1, f1, d1⟩ := ih1 (fun s hs => hg s (c1 s hs))
    obtain ⟨m2, s2, f2, d2⟩ := ih2 (fun s hs => hg s (c2 s hs))
    have hmem : ∀ s, s ∈ l.stored ++ r.stored ↔ s ∈ ss := by
      intro s
      rw [List.mem_append, m1, m2]
      exact ⟨fun h => h.elim (c1 s) (c2 s), fun h => (c3 s h).1⟩
    refine ⟨hmem, ⟨fun s hs => ?_, s1, s2⟩, ?_, ?_⟩
    · rw [hmem] at hs
      rw [m1, m2]
      exact (c3 s hs).2
    · intro p hp
      simp only [KTree.splits, List.cons_append, List.mem_cons, List.mem_append] at hp
      rcases hp with rfl | hp | hp
      · exact c0
      · obtain ⟨s, hs, h⟩ := f1 p hp; exact ⟨s, c1 s hs, h⟩
      · obtain ⟨s, hs, h⟩ := f2 p hp; exact ⟨s, c2 s hs, h⟩
    · simp only [KTree.depth]; omega

theorem new_layout {α : Type} [Scalar α] [Libm α] {ss : List (Obj α)} {maxDepth : Option Nat} {tree : KdTree α}
    (h : new ss maxDepth = some tree) :
    bboxOfShapes ss = some tree.bbox ∧ ∃ T, Layout tree.nodes 0 T tree.nodes.length ∧
      Builds (maxDepth.getD (defaultDepth (α := α) ss.length)) ss tree.bbox 0 T := by
  unfold new at h
  cases hb : bboxOfShapes ss with
  | none => rw [hb] at h; cases h
  | some b =>
    rw [hb, Option.bind_some] at h
    cases hn : build (maxDepth.getD (defaultDepth (α := α) ss.length)) [] ss b 0 with
    | none => rw [hn] at h; cases h
    | some nodes =>
      rw [hn] at h
      simp only [Option.map_some, Option.some.injEq] at h
      subst h
      obtain ⟨_, T, hT, hB⟩ := build_layout _ _ _ _ _ _ hn
      exact ⟨rfl, T, hT, hB⟩

/-- C28: whatever the shapes (boxes without NaN and with ordered corners), the depth limit, the outcomes of the cost
comparisons and the math library, the node array of a built tree is a tree `T` that stores exactly the given shapes in its leaves
and separates them at every split; the split planes are faces of the shapes' boxes. -/
theorem c28_build_complete [Libm (Fl φ K)] (ss : List (Obj (Fl φ K))) (hg : GoodBoxes ss) (maxDepth : Option Nat)
    (tree : KdTree (Fl φ K)) (h : new ss maxDepth = some tree) :
    ∃ T, Layout tree.nodes 0 T tree.nodes.length ∧ (∀ s, s ∈ T.stored ↔ s ∈ ss) ∧ Separated T ∧
      ∀ p ∈ T.splits, FaceOf ss p.1 p.2 := by
  obtain ⟨_, T, hT, hB⟩ := new_layout h
  obtain ⟨a, b, c, _⟩ := hB.facts hg
  exact ⟨T, hT, a, b, c⟩

theorem Builds.depth_le {α : Type} [Scalar α] {depth : Nat} {ss : List (Obj α)} {box : BBox3 α} {bad : Nat} {T : KTree α}
    (h : Builds depth ss box bad T) : T.depth ≤ depth := by
  induction h with
  | few _ => exact Nat.zero_le _
  | deep => exact Nat.zero_le _
  | stop _ _ _ _ _ => exact Nat.zero_le _
  | split _ _ _ _ _ _ _ _ _ _ ih1 ih2 => simp only [KTree.depth]; omega

/-! ### Construction does not panic -/

theorem scan_index {α : Type} [Scalar α] (box : BBox3 α) (axis : Axis) : ∀ (es : List (BEdge α)) (i nb na : Nat) (best : Best α)
    (a : Axis) (k : Nat), (scan box axis es i nb na best).split = some (a, k) →
    best.split = some (a, k) ∨ (a = axis ∧ i ≤ k ∧ k < i + es.length) := by
  intro es
  induction es with
  | nil => intro i nb na best a k h; exact Or.inl h
  | cons e es ih =>
    intro i nb na best a k h
    rw [scan] at h
    rcases ih _ _ _ _ a k h with h | ⟨h1, h2, h3⟩
    · generalize (if e.kind = EdgeKind.stop then na - 1 else na) = na' at h
      by_cases c1 : ((box.min.get axis <. e.t) && (e.t <. box.max.get axis)) = true
      · rw [if_pos c1] at h
        by_cases c2 : (splitCost box axis e.t nb na' <. best.cost) = true
        · rw [if_pos c2] at h
          simp only [Option.some.injEq, Prod.mk.injEq] at h
          right; exact ⟨h.1.symm, by omega, by simp; omega⟩
        · rw [if_neg c2] at h; exact Or.inl h
      · rw [if_neg c1] at h; exact Or.inl h
    · right; exact ⟨h1, by omega, by simp; omega⟩

theorem tryAxes_index {α : Type} [Scalar α] (box : BBox3 α) (ss : List (Obj α)) : ∀ (n : Nat) (axis : Axis) (best : Best α)
    (a : Axis) (k : Nat), best.split = none → (tryAxes box ss n axis best).split = some (a, k) →
    k < (sortedEdges a ss).length := by
  intro n
  induction n with
  | zero => intro axis best a k h0 h; rw [tryAxes, h0] at h; cases h
  | succ n ih =>
    intro axis best a k h0 h
    rw [tryAxes] at h
    split_ifs at h with c
    · exact ih _ _ a k (by simpa using c) h
    · rcases scan_index _ _ _ _ _ _ _ a k h with h | ⟨rfl, _, h3⟩
      · rw [h0] at h; cases h
      · simpa using h3

theorem sub_not_nan {a b : Fl φ K} (ha : a.IsFin) (hb : b.IsFin) : add a (neg b) ≠ nan := by
  obtain ⟨zs, h⟩ := add_fin ha (neg_fin hb).1
  rw [h]; exact ofVal_ne_nan _ _

theorem maxExtent_some {b : BBox3 (Fl φ K)} (h : ∀ a, (b.min.get a).IsFin ∧ (b.max.get a).IsFin) : b.maxExtent ≠ none := by
  have hn : ∀ a, b.diagonal.get a ≠ nan := by
    intro a
    have := sub_not_nan (h a).2 (h a).1
    cases a <;> exact this
  have hx := hn .X; have hy := hn .Y; have hz := hn .Z
  simp only [V3.get] at hx hy hz
  unfold BBox3.maxExtent
  dsimp only
  generalize b.diagonal.x = x at *
  generalize b.diagonal.y = y at *
  generalize b.diagonal.z = z at *
  simp only [f_le]
  cases h1 : le y x <;> cases h2 : le z x <;> cases h3 : le z y <;> simp
  · exact absurd h2 (by rw [lt_of_lt_of_le' ((not_le' hy hx).1 h1) (le_of_lt' ((not_le' hz hy).1 h3)) |> fun h => (not_le' hz hx).2 h]; simp)
  · exact absurd (le_trans' h3 h1) (by rw [h2]; simp)

theorem setAxis_get {α : Type} (v : V3 α) (a b : Axis) (x : α) : (setAxis v a x).get b = if a = b then x else v.get b := by
  cases a <;> cases b <;> rfl

/-- Building from finite boxes never panics. -/
theorem build_total : ∀ (depth : Nat) (nodes : List (Node (Fl φ K))) (ss : List (Obj (Fl φ K))) (box : BBox3 (Fl φ K)) (bad : Nat),
    FiniteBoxes ss → (∀ a, (box.min.get a).IsFin ∧ (box.max.get a).IsFin) → build depth nodes ss box bad ≠ none := by
  intro depth
  induction depth with
  | zero => intro nodes ss box bad _ _; simp [build]
  | succ depth ih =>
    intro nodes ss box bad hss hbox
    rw [build]
    split_ifs with h8
    · simp
    cases ha : box.maxExtent with
    | none => exact absurd ha (maxExtent_some hbox)
    | some axis0 =>
      rw [Option.bind_some]
      dsimp only
      generalize hb : tryAxes box ss 3 axis0 ⟨FLOAT_MAX, none⟩ = best
      cases hs : best.split with
      | none => simp
      | some sp =>
        obtain ⟨axis, edge⟩ := sp
        dsimp only
        generalize (if best.cost >. ISECT_COST *. ofInt ss.length then bad + 1 else bad) = bad'
        by_cases hc : ((best.cost >. lit 4 *. (ISECT_COST *. ofInt ss.length)) && decide (ss.length < MAX_SHAPES_IN_NODE * 2)
            || bad' == 3) = true
        · rw [if_pos hc]; simp
        rw [if_neg hc]
        have hk : edge < (sortedEdges axis ss).length := tryAxes_index box ss 3 axis0 _ axis edge rfl (by rw [hb]; exact hs)
        rw [List.getElem?_eq_getElem hk, Option.bind_some]
        have hg : GoodBoxes ss := fun s hs a => (hss s hs a).2.2
        obtain ⟨c0, c1, c2, _⟩ := classify hg (List.getElem?_eq_getElem hk)
        have ht : ((sortedEdges axis ss)[edge]).t.IsFin := by
          obtain ⟨s, hs, h | h⟩ := c0
          · rw [h]; exact (hss s hs axis).1
          · rw [h]; exact (hss s hs axis).2.1
        generalize (sortedEdges axis ss)[edge] = e at *
        cases h1 : build depth (nodes ++ [Node.empty]) (below (sortedEdges axis ss) edge)
                { box with max := setAxis box.max axis e.t } bad' with
        | none =>
          refine absurd h1 (ih _ _ _ _ (fun s hs => hss s (c1 s hs)) fun a => ⟨(hbox a).1, ?_⟩)
          dsimp only; rw [setAxis_get]; split_ifs
          · exact ht
          · exact (hbox a).2
        | some nodes1 =>
          rw [Option.bind_some]
          refine ih _ _ _ _ (fun s hs => hss s (c2 s hs)) fun a => ⟨?_, (hbox a).2⟩
          dsimp only; rw [setAxis_get]; split_ifs
          · exact ht
          · exact (hbox a).1

/-- C28, totality: construction panics exactly when there are no shapes (boxes finite with ordered corners). -/
theorem c28_build_total [Libm (Fl φ K)] (ss : List (Obj (Fl φ K))) (hss : FiniteBoxes ss) (maxDepth : Option Nat) :
    new ss maxDepth = none ↔ ss = [] := by
  have hg : GoodBoxes ss := fun s hs a => (hss s hs a).2.2
  obtain ⟨h1, h2⟩ := c33_bbox_of_shapes ss hg.noNaN
  constructor
  · intro h
    by_contra hne
    unfold new at h
    cases hb : bboxOfShapes ss with
    | none => exact hne (h1.1 hb)
    | some b =>
      rw [hb, Option.bind_some] at h
      obtain ⟨_, _, hf⟩ := h2 b hb
      have hbox : ∀ a, (b.min.get a).IsFin ∧ (b.max.get a).IsFin := by
        intro a
        obtain ⟨⟨s, hs, e⟩, ⟨s', hs', e'⟩⟩ := hf a
        rw [e, e']; exact ⟨(hss s hs a).1, (hss s' hs' a).2.1⟩
      have := build_total (maxDepth.getD (defaultDepth (α := Fl φ K) ss.length)) [] ss b 0 hss hbox
      cases hn : build (maxDepth.getD (defaultDepth (α := Fl φ K) ss.length)) [] ss b 0 with
      | none => exact this hn
      | some nodes => rw [hn] at h; cases h
  · rintro rfl; rfl
end

/-! ## C31 -/

section
variable {α : Type} [Scalar α]

theorem descend_cases (ray : Ray α) (axis : Axis) (t : α) (above i : Nat) (tMin tMax : α) (todos : List (Todo α)) :
    (∃ b, descend ray axis t above i tMin tMax todos = (i + 1, b, todos)) ∨
    (∃ b, descend ray axis t above i tMin tMax todos = (above, b, todos)) ∨
    (∃ b td, descend ray axis t above i tMin tMax todos = (i + 1, b, td :: todos) ∧ td.node = above) ∨
    (∃ b td, descend ray axis t above i tMin tMax todos = (above, b, td :: todos) ∧ td.node = i + 1) := by
  unfold descend
  dsimp only
  split_ifs <;> simp

/-- Popping the next stack entry. -/
def popP (nodes : List (Node α)) (ray : Ray α) (fuel : Nat) : List (Todo α) → Run Bool
  | [] => .value false
  | td :: todos => loopP nodes ray fuel td.node td.tMin td.tMax todos
/-- Popping the next stack entry. -/
def pop (nodes : List (Node α)) (ray : Ray α) (h : Option (Hit α)) (fuel : Nat) : List (Todo α) → Run (Option (Hit α))
  | [] => .value h
  | td :: todos => loop nodes fuel ray h td.node td.tMin td.tMax todos

theorem loopP_done {nodes : List (Node α)} {ray : Ray α} {fuel i : Nat} {tMin tMax : α} {todos : List (Todo α)}
    (h : (ray.tMax <. tMin) = true) : loopP nodes ray (fuel + 1) i tMin tMax todos = .value false := by
  simp [loopP, h]
theorem loop_done {nodes : List (Node α)} {ray : Ray α} {hh : Option (Hit α)} {fuel i : Nat} {tMin tMax : α} {todos : List (Todo α)}
    (h : (ray.tMax <. tMin) = true) : loop nodes (fuel + 1) ray hh i tMin tMax todos = .value hh := by
  simp [loop, h]
theorem loopP_none {nodes : List (Node α)} {ray : Ray α} {fuel i : Nat} {tMin tMax : α} {todos : List (Todo α)}
    (h : ¬ (ray.tMax <. tMin) = true) (hn : nodes[i]? = none) : loopP nodes ray (fuel + 1) i tMin tMax todos = .panic := by
  simp [loopP, h, hn]
theorem loop_none {nodes : List (Node α)} {ray : Ray α} {hh : Option (Hit α)} {fuel i : Nat} {tMin tMax : α} {todos : List (Todo α)}
    (h : ¬ (ray.tMax <. tMin) = true) (hn : nodes[i]? = none) : loop nodes (fuel + 1) ray hh i tMin tMax todos = .panic := by
  simp [loop, h, hn]
theorem loopP_split {nodes : List (Node α)} {ray : Ray α} {fuel i : Nat} {tMin tMax : α} {todos : List (Todo α)} {a t k}
    (h : ¬ (ray.tMax <. tMin) = true) (hn : nodes[i]? = some (.split a t k)) : loopP nodes ray (fuel + 1) i tMin tMax todos =
      loopP nodes ray fuel (descend ray a t k i tMin tMax todos).1 tMin (descend ray a t k i tMin tMax todos).2.1
        (descend ray a t k i tMin tMax todos).2.2 := by
  simp [loopP, h, hn]
theorem loop_split {nodes : List (Node α)} {ray : Ray α} {hh : Option (Hit α)} {fuel i : Nat} {tMin tMax : α} {todos : List (Todo α)} {a t k}
    (h : ¬ (ray.tMax <. tMin) = true) (hn : nodes[i]? = some (.split a t k)) : loop nodes (fuel + 1) ray hh i tMin tMax todos =
      loop nodes fuel ray hh (descend ray a t k i tMin tMax todos).1 tMin (descend ray a t k i tMin tMax todos).2.1
        (descend ray a t k i tMin tMax todos).2.2 := by
  simp [loop, h, hn]
theorem loopP_leaf {nodes : List (Node α)} {ray : Ray α} {fuel i : Nat} {tMin tMax : α} {todos : List (Todo α)} {nd : Node α}
    (h : ¬ (ray.tMax <. tMin) = true) (hn : nodes[i]? = some nd) (hs : ∀ a t k, nd ≠ .split a t k) :
    loopP nodes ray (fuel + 1) i tMin tMax todos = (anyHit ray (leafShapes nd)).elim .panic fun b =>
      if b then .value true else popP nodes ray fuel todos := by
  cases nd with
  | split a t k => exact absurd rfl (hs a t k)
  | empty | shape | shapes =>
    simp only [loopP, h, hn, if_false, Bool.false_eq_true]
    cases anyHit ray (leafShapes _) with
    | none => rfl
    | some b => cases b <;> cases todos <;> rfl
theorem loop_leaf {nodes : List (Node α)} {ray : Ray α} {hh : Option (Hit α)} {fuel i : Nat} {tMin tMax : α} {todos : List (Todo α)}
    {nd : Node α} (h : ¬ (ray.tMax <. tMin) = true) (hn : nodes[i]? = some nd) (hs : ∀ a t k, nd ≠ .split a t k) :
    loop nodes (fuel + 1) ray hh i tMin tMax todos = (closestHit (leafShapes nd) ray hh).elim .panic fun x =>
      pop nodes x.1 x.2 fuel todos := by
  cases nd with
  | split a t k => exact absurd rfl (hs a t k)
  | empty | shape | shapes =>
    simp only [loop, h, hn, if_false, Bool.false_eq_true]
    cases closestHit (leafShapes _) ray hh with
    | none => rfl
    | some b => cases todos <;> rfl

/-- The work that is still to be done: the trees of the stack entries. -/
inductive Pending (nodes : List (Node α)) : List (Todo α) → List (KTree α) → Prop where
  | nil : Pending nodes [] []
  | cons {td todos T Ts j} : Layout nodes td.node T j → Pending nodes todos Ts → Pending nodes (td :: todos) (T :: Ts)

/-- Total number of nodes of some trees. -/
def totalSize (Ts : List (KTree α)) : Nat := (Ts.map KTree.size).sum

/-- All shapes stored in the tree answer along the line. -/
def AnswersP (o d : V3 α) (s : Obj α) : Prop := ∀ tm, s.shape.intersectP ⟨o, d, tm⟩ ≠ none
def Answers (o d : V3 α) (s : Obj α) : Prop := ∀ tm, s.shape.intersect ⟨o, d, tm⟩ ≠ none

theorem anyHit_some {ray : Ray α} : ∀ {ss : List (Obj α)}, (∀ s ∈ ss, AnswersP ray.origin ray.direction s) → anyHit ray ss ≠ none := by
  intro ss
  induction ss with
  | nil => intro _; simp [anyHit]
  | cons s ss ih =>
    intro h
    cases hs : s.shape.intersectP ray with
    | none => exact absurd hs (h s (by simp) ray.tMax)
    | some b =>
      cases b with
      | true => simp [anyHit, hs]
      | false => simpa [anyHit, hs] using ih (fun s hs => h s (by simp [hs]))

theorem closestHit_some : ∀ {ss : List (Obj α)} {ray : Ray α} {h : Option (Hit α)},
    (∀ s ∈ ss, Answers ray.origin ray.direction s) →
    ∃ tm' h', closestHit ss ray h = some ({ ray with tMax := tm' }, h') := by
  intro ss
  induction ss with
  | nil => intro ray h _; exact ⟨ray.tMax, h, rfl⟩
  | cons s ss ih =>
    intro ray h ha
    rcases Obj.intersect_cases s ray (ha s (by simp) ray.tMax) with ⟨_, h'⟩ | ⟨i, t, _, h'⟩
    · obtain ⟨tm', h'', e⟩ := ih (ray := ray) (h := h) (fun s hs => ha s (by simp [hs]))
      exact ⟨tm', h'', by simp only [closestHit, h', Option.bind_some]; simpa using e⟩
    · obtain ⟨tm', h'', e⟩ := ih (ray := { ray with tMax := t }) (h := some ⟨i, s⟩) (fun s hs => ha s (by simp [hs]))
      exact ⟨tm', h'', by simp only [closestHit, h', Option.bind_some]; simpa using e⟩

/-- The traversal from any state whose pending work is laid out in the array returns a value, with any budget that is at least
the number of pending nodes, and the value does not depend on the budget. -/
theorem loopP_total (nodes : List (Node α)) (ray : Ray α) : ∀ (n fuel : Nat) (i j : Nat) (T : KTree α) (tMin tMax : α)
    (todos : List (Todo α)) (Ts : List (KTree α)), Layout nodes i T j → Pending nodes todos Ts →
    (∀ T' ∈ T :: Ts, ∀ s ∈ T'.stored, AnswersP ray.origin ray.direction s) →
    T.size + totalSize Ts ≤ n → n ≤ fuel →
    ∃ b, loopP nodes ray n i tMin tMax todos = .value b ∧ loopP nodes ray fuel i tMin tMax todos = .value b := by
  intro n
  induction n with
  | zero => intro fuel i j T _ _ _ Ts _ _ _ h _; have := T.size_pos; omega
  | succ n ih =>
    intro fuel i j T tMin tMax todos Ts hT hP hA hn hf
    obtain ⟨fuel, rfl⟩ : ∃ m, fuel = m + 1 := ⟨fuel - 1, by omega⟩
    by_cases hbr : (ray.tMax <. tMin) = true
    · exact ⟨_, loopP_done hbr, loopP_done hbr⟩
    cases hT with
    | @leaf _ ss hn' =>
      rw [loopP_leaf hbr hn' (newLeaf_not_split ss), loopP_leaf hbr hn' (newLeaf_not_split ss), leafShapes_newLeaf]
      have hA0 : ∀ s ∈ ss, AnswersP ray.origin ray.direction s := fun s hs => hA (.leaf ss) (by simp) s hs
      cases ha : anyHit ray ss with
      | none => exact absurd ha (anyHit_some hA0)
      | some b =>
        cases b with
        | true => exact ⟨true, rfl, rfl⟩
        | false =>
          cases hP with
          | nil => exact ⟨false, rfl, rfl⟩
          | @cons td todos T' Ts' j' hL hP' =>
            refine ih fuel td.node j' T' td.tMin td.tMax todos Ts' hL hP' (fun T'' h => hA T'' (by simp at h ⊢; tauto)) ?_ (by omega)
            simp only [totalSize, List.map_cons, List.sum_cons, KTree.size] at hn ⊢; omega
    | @node _ k _ axis t l r hn' hl hr =>
      rw [loopP_split hbr hn', loopP_split hbr hn']
      have hAl : ∀ s ∈ l.stored, AnswersP ray.origin ray.direction s :=
        fun s hs => hA (.node axis t l r) (by simp) s (by simp [KTree.stored, hs])
      have hAr : ∀ s ∈ r.stored, AnswersP ray.origin ray.direction s :=
        fun s hs => hA (.node axis t l r) (by simp) s (by simp [KTree.stored, hs])
      have hAt : ∀ T' ∈ Ts, ∀ s ∈ T'.stored, AnswersP ray.origin ray.direction s := fun T' h => hA T' (by simp [h])
      simp only [KTree.size] at hn
      rcases descend_cases ray axis t k i tMin tMax todos with ⟨b, e⟩ | ⟨b, e⟩ | ⟨b, td, e, he⟩ | ⟨b, td, e, he⟩ <;> rw [e]
      · exact ih fuel _ _ l _ _ _ Ts hl hP (List.forall_mem_cons.2 ⟨hAl, hAt⟩) (by omega) (by omega)
      · exact ih fuel _ _ r _ _ _ Ts hr hP (List.forall_mem_cons.2 ⟨hAr, hAt⟩) (by omega) (by omega)
      · refine ih fuel _ _ l _ _ _ (r :: Ts) hl (.cons (he ▸ hr) hP) (List.forall_mem_cons.2 ⟨hAl, List.forall_mem_cons.2 ⟨hAr, hAt⟩⟩) ?_ (by omega)
        simp only [totalSize, List.map_cons, List.sum_cons] at hn ⊢; omega
      · refine ih fuel _ _ r _ _ _ (l :: Ts) hr (.cons (he ▸ hl) hP) (List.forall_mem_cons.2 ⟨hAr, List.forall_mem_cons.2 ⟨hAl, hAt⟩⟩) ?_ (by omega)
        simp only [totalSize, List.map_cons, List.sum_cons] at hn ⊢; omega

theorem loop_total (nodes : List (Node α)) (o d : V3 α) : ∀ (n fuel : Nat) (tm : α) (h : Option (Hit α)) (i j : Nat) (T : KTree α)
    (tMin tMax : α) (todos : List (Todo α)) (Ts : List (KTree α)), Layout nodes i T j → Pending nodes todos Ts →
    (∀ T' ∈ T :: Ts, ∀ s ∈ T'.stored, Answers o d s) →
    T.size + totalSize Ts ≤ n → n ≤ fuel →
    ∃ b, loop nodes n ⟨o, d, tm⟩ h i tMin tMax todos = .value b ∧ loop nodes fuel ⟨o, d, tm⟩ h i tMin tMax todos = .value b := by
  intro n
  induction n with
  | zero => intro fuel tm h i j T _ _ _ Ts _ _ _ h _; have := T.size_pos; omega
  | succ n ih =>
    intro fuel tm h i j T tMin tMax todos Ts hT hP hA hn hf
    obtain ⟨fuel, rfl⟩ : ∃ m, fuel = m + 1 := ⟨fuel - 1, by omega⟩
    by_cases hbr : (tm <. tMin) = true
    · exact ⟨_, loop_done hbr, loop_done hbr⟩
    have hbr' : ¬ ((⟨o, d, tm⟩ : Ray α).tMax <. tMin) = true := hbr
    cases hT with
    | @leaf _ ss hn' =>
      rw [loop_leaf hbr' hn' (newLeaf_not_split ss), loop_leaf hbr' hn' (newLeaf_not_split ss), leafShapes_newLeaf]
      have hA0 : ∀ s ∈ ss, Answers o d s := fun s hs => hA (.leaf ss) (by simp) s hs
      obtain ⟨tm', h', e⟩ := closestHit_some (ray := ⟨o, d, tm⟩) (h := h) hA0
      rw [e]
      cases hP with
      | nil => exact ⟨_, rfl, rfl⟩
      | @cons td todos T' Ts' j' hL hP' =>
        refine ih fuel tm' h' td.node j' T' td.tMin td.tMax todos Ts' hL hP' (fun T'' h => hA T'' (by simp at h ⊢; tauto)) ?_ (by omega)
        simp only [totalSize, List.map_cons, List.sum_cons, KTree.size] at hn ⊢; omega
    | @node _ k _ axis t l r hn' hl hr =>
      rw [loop_split hbr' hn', loop_split hbr' hn']
      have hAl : ∀ s ∈ l.stored, Answers o d s :=
        fun s hs => hA (.node axis t l r) (by simp) s (by simp [KTree.stored, hs])
      have hAr : ∀ s ∈ r.stored, Answers o d s :=
        fun s hs => hA (.node axis t l r) (by simp) s (by simp [KTree.stored, hs])
      have hAt : ∀ T' ∈ Ts, ∀ s ∈ T'.stored, Answers o d s := fun T' h => hA T' (by simp [h])
      simp only [KTree.size] at hn
      rcases descend_cases ⟨o, d, tm⟩ axis t k i tMin tMax todos with ⟨b, e⟩ | ⟨b, e⟩ | ⟨b, td, e, he⟩ | ⟨b, td, e, he⟩ <;> rw [e]
      · exact ih fuel _ _ _ _ l _ _ _ Ts hl hP (List.forall_mem_cons.2 ⟨hAl, hAt⟩) (by omega) (by omega)
      · exact ih fuel _ _ _ _ r _ _ _ Ts hr hP (List.forall_mem_cons.2 ⟨hAr, hAt⟩) (by omega) (by omega)
      · refine ih fuel _ _ _ _ l _ _ _ (r :: Ts) hl (.cons (he ▸ hr) hP) (List.forall_mem_cons.2 ⟨hAl, List.forall_mem_cons.2 ⟨hAr, hAt⟩⟩) ?_ (by omega)
        simp only [totalSize, List.map_cons, List.sum_cons] at hn ⊢; omega
      · refine ih fuel _ _ _ _ r _ _ _ (l :: Ts) hr (.cons (he ▸ hl) hP) (List.forall_mem_cons.2 ⟨hAr, List.forall_mem_cons.2 ⟨hAl, hAt⟩⟩) ?_ (by omega)
        simp only [totalSize, List.map_cons, List.sum_cons] at hn ⊢; omega

theorem Builds.stored_subset {depth : Nat} {ss : List (Obj α)} {box : BBox3 α} {bad : Nat} {T : KTree α}
    (h : Builds depth ss box bad T) : ∀ s ∈ T.stored, s ∈ ss := by
  have hm : ∀ (axis : Axis) (ss : List (Obj α)), ∀ x ∈ sortedEdges axis ss, x.shape ∈ ss := by
    intro axis ss x hx
    have : x ∈ edges axis ss := (List.perm_insertionSort _ _).mem_iff.1 hx
    simp only [edges, List.mem_flatMap, List.mem_cons, List.not_mem_nil, or_false] at this
    obtain ⟨s, hs, rfl | rfl⟩ := this <;> exact hs
  induction h with
  | few _ => exact fun s hs => hs
  | deep => exact fun s hs => hs
  | stop _ _ _ _ _ => exact fun s hs => hs
  | @split depth ss box bad axis0 axis edge l r best e _ _ _ _ he _ _ _ ih1 ih2 =>
    intro s hs
    rw [KTree.stored, List.mem_append] at hs
    rcases hs with hs | hs
    · have := ih1 s hs
      simp only [KdTree.below, List.mem_map, List.mem_filter] at this
      obtain ⟨x, ⟨hx, _⟩, rfl⟩ := this
      exact hm _ _ x (List.mem_of_mem_take hx)
    · have := ih2 s hs
      simp only [KdTree.above, List.mem_map, List.mem_filter] at this
      obtain ⟨x, ⟨hx, _⟩, rfl⟩ := this
      exact hm _ _ x (List.mem_of_mem_drop hx)

/-- C31: in any arithmetic and with any math library, for every built tree and every ray (NaN and infinite components
included) whose line makes no shape panic, both traversals end with a value within as many steps as there are nodes — no index is out
of range and no `panic!()` is reached — and every larger step budget gives the same value. -/
theorem c31_traversal_terminates [Libm α] (ss : List (Obj α)) (maxDepth : Option Nat) (tree : KdTree α) (h : new ss maxDepth = some tree)
    (ray : Ray α) :
    ((∀ s ∈ ss, ∀ tm, s.shape.intersectP ⟨ray.origin, ray.direction, tm⟩ ≠ none) →
      ∃ b, tree.intersectP ray = some b ∧ ∀ fuel, tree.nodes.length ≤ fuel → tree.runP ray fuel = .value b) ∧
    ((∀ s ∈ ss, ∀ tm, s.shape.intersect ⟨ray.origin, ray.direction, tm⟩ ≠ none) →
      ∃ r, tree.intersect ray = some r ∧ ∀ fuel, tree.nodes.length ≤ fuel → tree.run ray fuel = .value r) := by
  obtain ⟨_, T, hT, hB⟩ := new_layout h
  have hsub := hB.stored_subset
  have hsz : T.size = tree.nodes.length := by have := hT.size_eq; omega
  constructor
  · intro hA
    unfold intersectP runP
    cases hb : tree.bbox.intersect ray with
    | none => exact ⟨false, rfl, fun _ _ => rfl⟩
    | some t =>
      have := fun fuel hf => loopP_total tree.nodes ray tree.nodes.length fuel 0 _ T t.1 t.2 [] [] hT .nil
        (List.forall_mem_cons.2 ⟨fun s hs => hA s (hsub s hs), by simp⟩) (by simp [totalSize, hsz]) hf
      obtain ⟨b, e, _⟩ := this _ le_rfl
      refine ⟨b, by simp [e, Run.toOption], fun fuel hf => ?_⟩
      obtain ⟨b', e', e''⟩ := this fuel hf
      rw [e] at e'; cases e'
      exact e''
  · intro hA
    unfold intersect run
    cases hb : tree.bbox.intersect ray with
    | none => exact ⟨none, rfl, fun _ _ => rfl⟩
    | some t =>
      have := fun fuel hf => loop_total tree.nodes ray.origin ray.direction tree.nodes.length fuel ray.tMax none 0 _ T t.1 t.2 [] [] hT .nil
        (List.forall_mem_cons.2 ⟨fun s hs => hA s (hsub s hs), by simp⟩) (by simp [totalSize, hsz]) hf
      obtain ⟨b, e, _⟩ := this _ le_rfl
      have e0 : loop tree.nodes tree.nodes.length ray none 0 t.1 t.2 [] = .value b := e
      refine ⟨b, by simp [e0, Run.toOption], fun fuel hf => ?_⟩
      obtain ⟨b', e', e''⟩ := this fuel hf
      rw [e] at e'; cases e'
      exact e''

/-! ## C30 -/

/-- The two traversals run in lock step until the first hit. -/
theorem loop_agree (nodes : List (Node α)) (o d : V3 α) (tm : α) : ∀ (fuel : Nat) (i : Nat) (tMin tMax : α) (todos : List (Todo α)),
    (∀ n ∈ nodes, ∀ s ∈ leafShapes n, AgreesAlong s.shape o d) →
    (loopP nodes ⟨o, d, tm⟩ fuel i tMin tMax todos = .value true ∧
      (∀ b, loop nodes fuel ⟨o, d, tm⟩ none i tMin tMax todos = .value b → b.isSome = true)) ∨
    (loopP nodes ⟨o, d, tm⟩ fuel i tMin tMax todos = .value false ∧ loop nodes fuel ⟨o, d, tm⟩ none i tMin tMax todos = .value none) ∨
    ((∀ b, loopP nodes ⟨o, d, tm⟩ fuel i tMin tMax todos ≠ .value b) ∧ ∀ b, loop nodes fuel ⟨o, d, tm⟩ none i tMin tMax todos ≠ .value b) := by
  -- a hit is never forgotten
  have keep : ∀ (fuel : Nat) (tm : α) (h : Hit α) (i : Nat) (tMin tMax : α) (todos : List (Todo α)),
      (∀ n ∈ nodes, ∀ s ∈ leafShapes n, AgreesAlong s.shape o d) →
      ∀ b, loop nodes fuel ⟨o, d, tm⟩ (some h) i tMin tMax todos = .value b → b.isSome = true := by
    intro fuel
    induction fuel with
    | zero => intro tm h i tMin tMax todos _ b hb; rw [loop] at hb; cases hb
    | succ fuel ih =>
      intro tm h i tMin tMax todos hA b hb
      by_cases hbr : ((⟨o, d, tm⟩ : Ray α).tMax <. tMin) = true
      · rw [loop_done hbr] at hb; cases hb; rfl
      cases hn : nodes[i]? with
      | none => rw [loop_none hbr hn] at hb; cases hb
      | some nd =>
        have hmem : nd ∈ nodes := List.mem_of_getElem? hn
        by_cases hs : ∃ a t k, nd = .split a t k
        · obtain ⟨a, t, k, rfl⟩ := hs
          rw [loop_split hbr hn] at hb
          exact ih _ _ _ _ _ _ hA b hb
        · push Not at hs
          rw [loop_leaf hbr hn hs] at hb
          obtain ⟨tm', h', e⟩ := (anyHit_closestHit o d (leafShapes nd) tm (hA nd hmem)).1 h
          rw [e] at hb
          cases todos with
          | nil => cases hb; rfl
          | cons td todos => exact ih _ _ _ _ _ _ hA b hb
  intro fuel
  induction fuel with
  | zero => intro i tMin tMax todos _; right; right; exact ⟨by simp [loopP], by simp [loop]⟩
  | succ fuel ih =>
    intro i tMin tMax todos hA
    by_cases hbr : ((⟨o, d, tm⟩ : Ray α).tMax <. tMin) = true
    · rw [loop_done hbr, loopP_done hbr]; right; left; exact ⟨rfl, rfl⟩
    cases hn : nodes[i]? with
    | none => rw [loop_none hbr hn, loopP_none hbr hn]; right; right; exact ⟨by simp, by simp⟩
    | some nd =>
      have hmem : nd ∈ nodes := List.mem_of_getElem? hn
      by_cases hs : ∃ a t k, nd = .split a t k
      · obtain ⟨a, t, k, rfl⟩ := hs
        rw [loop_split hbr hn, loopP_split hbr hn]
        exact ih _ _ _ _ hA
      push Not at hs
      rw [loop_leaf hbr hn hs, loopP_leaf hbr hn hs]
      rcases (anyHit_closestHit o d (leafShapes nd) tm (hA nd hmem)).2 with ⟨h1, h2⟩ | ⟨h1, h2⟩
      · rw [h1, h2 none]
        cases todos with
        | nil => right; left; exact ⟨rfl, rfl⟩
        | cons td todos => exact ih _ _ _ _ hA
      · obtain ⟨tm', h', h2⟩ := h2 none
        rw [h1, h2]
        left
        refine ⟨rfl, ?_⟩
        cases todos with
        | nil => intro b hb; cases hb; rfl
        | cons td todos => intro b hb; exact keep _ _ _ _ _ _ _ hA b hb

theorem Layout.leaf_mem {nodes : List (Node α)} {i j : Nat} {T : KTree α} (h : Layout nodes i T j) :
    ∀ k, i ≤ k → k < j → ∀ n, nodes[k]? = some n → ∀ s ∈ leafShapes n, s ∈ T.stored := by
  induction h with
  | @leaf i ss h =>
    intro k h1 h2 n hn s hs
    obtain rfl : k = i := by omega
    rw [h] at hn; cases hn
    rw [leafShapes_newLeaf] at hs; exact hs
  | @node i k j axis t l r h hl hr ih1 ih2 =>
    intro m h1 h2 n hn s hs
    have s1 := Layout.size_eq hl; have s2 := Layout.size_eq hr
    rw [KTree.stored, List.mem_append]
    by_cases hm : m = i
    · subst hm; rw [h] at hn; cases hn; simp [leafShapes] at hs
    · by_cases hk : m < k
      · exact Or.inl (ih1 m (by omega) hk n hn s hs)
      · exact Or.inr (ih2 m (by omega) h2 n hn s hs)

/-- C30 for the k-d tree, in any arithmetic: `intersect_p` answers true exactly when `intersect` returns a hit. -/
theorem c30_kdtree [Libm α] (ss : List (Obj α)) (maxDepth : Option Nat) (tree : KdTree α) (h : new ss maxDepth = some tree)
    (ray : Ray α) (ha : ∀ s ∈ ss, AgreesAlong s.shape ray.origin ray.direction) :
    ∃ r, tree.intersect ray = some r ∧ tree.intersectP ray = some r.isSome := by
  obtain ⟨_, T, hT, hB⟩ := new_layout h
  have hA : ∀ n ∈ tree.nodes, ∀ s ∈ leafShapes n, AgreesAlong s.shape ray.origin ray.direction := by
    intro n hn s hs
    obtain ⟨k, hk, e⟩ := List.mem_iff_getElem.1 hn
    exact ha s (hB.stored_subset s (Layout.leaf_mem hT k (Nat.zero_le _) hk n (by rw [List.getElem?_eq_getElem hk, e]) s hs))
  obtain ⟨hp, hi⟩ := c31_traversal_terminates ss maxDepth tree h ray
  obtain ⟨b, hb, hb'⟩ := hp (fun s hs tm => by obtain ⟨r, _, e⟩ := ha s hs tm; rw [e]; simp)
  obtain ⟨r, hr, hr'⟩ := hi (fun s hs tm => by obtain ⟨r, e, _⟩ := ha s hs tm; rw [e]; simp)
  refine ⟨r, hr, ?_⟩
  rw [hb]
  have h1 := hb' _ le_rfl
  have h2 := hr' _ le_rfl
  unfold runP at h1
  unfold run at h2
  cases hbb : tree.bbox.intersect ray with
  | none => rw [hbb] at h1 h2; cases h1; cases h2; rfl
  | some t =>
    rw [hbb] at h1 h2
    have h1' : loopP tree.nodes ⟨ray.origin, ray.direction, ray.tMax⟩ tree.nodes.length 0 t.1 t.2 [] = .value b := h1
    have h2' : loop tree.nodes tree.nodes.length ⟨ray.origin, ray.direction, ray.tMax⟩ none 0 t.1 t.2 [] = .value r := h2
    rcases loop_agree tree.nodes ray.origin ray.direction ray.tMax tree.nodes.length 0 t.1 t.2 [] hA with ⟨a, c⟩ | ⟨a, c⟩ | ⟨a, _⟩
    · rw [a] at h1'; cases h1'; rw [c r h2']
    · rw [a] at h1'; cases h1'; rw [c] at h2'; cases h2'; rfl
    · exact absurd h1' (a b)
end
end KdTree
end PT
