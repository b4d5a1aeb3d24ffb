import Verif.Props.Container
import Verif.Model.KdTree

/-!
# k-d tree construction: the tree stored in the node array
-/

namespace PT
open Fl Spec

/-- The tree that a node array represents. -/
inductive KTree (α : Type) where
  | leaf (ss : List (Obj α))
  | node (axis : Axis) (t : α) (below above : KTree α)

namespace KTree
variable {α : Type}
/-- The shapes stored in the leaves. -/
def stored : KTree α → List (Obj α)
  | leaf ss => ss
  | node _ _ l r => l.stored ++ r.stored
/-- The greatest number of splits on a path from the root. -/
def depth : KTree α → Nat
  | leaf _ => 0
  | node _ _ l r => 1 + max l.depth r.depth
/-- Number of nodes. -/
def size : KTree α → Nat
  | leaf _ => 1
  | node _ _ l r => 1 + l.size + r.size
/-- All splits `(axis, t)`. -/
def splits : KTree α → List (Axis × α)
  | leaf _ => []
  | node a t l r => (a, t) :: l.splits ++ r.splits
theorem size_pos (T : KTree α) : 0 < T.size := by cases T <;> simp [size] <;> omega
end KTree

/-- `T` is stored in the nodes with indices `i, …, j - 1`: the root at `i`, the lower child right after it, the upper
child at the index in the split node. -/
inductive Layout {α : Type} (nodes : List (Node α)) : Nat → KTree α → Nat → Prop where
  | leaf {i ss} : nodes[i]? = some (Node.newLeaf ss) → Layout nodes i (.leaf ss) (i + 1)
  | node {i k j axis t l r} : nodes[i]? = some (.split axis t k) → Layout nodes (i + 1) l k → Layout nodes k r j →
      Layout nodes i (.node axis t l r) j

namespace Layout
variable {α : Type} {nodes nodes' : List (Node α)}

theorem size_eq {i j : Nat} {T : KTree α} (h : Layout nodes i T j) : j = i + T.size := by
  induction h with
  | leaf _ => rfl
  | node _ _ _ ih1 ih2 => rw [ih2, ih1, KTree.size]; omega

theorem congr {i j : Nat} {T : KTree α} (h : Layout nodes i T j) (hc : ∀ k, i ≤ k → k < j → nodes'[k]? = nodes[k]?) :
    Layout nodes' i T j := by
  induction h with
  | leaf h => exact leaf (by rw [hc _ le_rfl (by omega)]; exact h)
  | @node i k j axis t l r h hl hr ih1 ih2 =>
    have s1 := hl.size_eq; have s2 := hr.size_eq
    have p1 := l.size_pos; have p2 := r.size_pos
    exact node (by rw [hc _ le_rfl (by omega)]; exact h)
      (ih1 fun k a b => hc k (by omega) (by omega)) (ih2 fun k a b => hc k (by omega) (by omega))
end Layout

theorem leafShapes_newLeaf {α : Type} (ss : List (Obj α)) : KdTree.leafShapes (Node.newLeaf ss) = ss := by
  match ss with
  | [] => rfl
  | [_] => rfl
  | _ :: _ :: _ => rfl

theorem newLeaf_not_split {α : Type} (ss : List (Obj α)) (a t k) : Node.newLeaf ss ≠ Node.split a t k := by
  match ss with
  | [] => simp [Node.newLeaf]
  | [_] => simp [Node.newLeaf]
  | _ :: _ :: _ => simp [Node.newLeaf]

namespace KdTree
section
variable {α : Type} [Scalar α]

/-- How the construction produces a tree from shapes, box, number of bad refinements and remaining depth. -/
inductive Builds : Nat → List (Obj α) → BBox3 α → Nat → KTree α → Prop where
  | few {depth ss box bad} : ss.length ≤ 8 → Builds depth ss box bad (.leaf ss)
  | deep {ss box bad} : Builds 0 ss box bad (.leaf ss)
  | stop {depth ss box bad axis} (best : Best α) : box.maxExtent = some axis → 8 < ss.length →
      best = tryAxes box ss 3 axis ⟨FLOAT_MAX, none⟩ →
      (best.split = none ∨ (best.cost >. lit 4 *. (ISECT_COST *. ofInt ss.length)) = true ∧ ss.length < 16 ∨
        (if best.cost >. ISECT_COST *. ofInt ss.length then bad + 1 else bad) = 3) →
      Builds (depth + 1) ss box bad (.leaf ss)
  | split {depth ss box bad axis0 axis edge l r} (best : Best α) (e : BEdge α) : box.maxExtent = some axis0 → 8 < ss.length →
      best = tryAxes box ss 3 axis0 ⟨FLOAT_MAX, none⟩ → best.split = some (axis, edge) →
      (sortedEdges axis ss)[edge]? = some e →
      ¬ ((best.cost >. lit 4 *. (ISECT_COST *. ofInt ss.length)) = true ∧ ss.length < 16 ∨
        (if best.cost >. ISECT_COST *. ofInt ss.length then bad + 1 else bad) = 3) →
      Builds depth (below (sortedEdges axis ss) edge) { box with max := setAxis box.max axis e.t }
        (if best.cost >. ISECT_COST *. ofInt ss.length then bad + 1 else bad) l →
      Builds depth (above (sortedEdges axis ss) edge) { box with min := setAxis box.min axis e.t }
        (if best.cost >. ISECT_COST *. ofInt ss.length then bad + 1 else bad) r →
      Builds (depth + 1) ss box bad (.node axis e.t l r)

theorem layout_leaf (nodes : List (Node α)) (ss : List (Obj α)) :
    Layout (nodes ++ [Node.newLeaf ss]) nodes.length (.leaf ss) (nodes ++ [Node.newLeaf ss]).length := by
  have : (nodes ++ [Node.newLeaf ss]).length = nodes.length + 1 := by simp
  rw [this]
  exact Layout.leaf (by simp)

/-- The node array after `build` is the old one followed by a tree. -/
theorem build_layout : ∀ (depth : Nat) (nodes nodes' : List (Node α)) (ss : List (Obj α)) (box : BBox3 α) (bad : Nat),
    build depth nodes ss box bad = some nodes' →
    nodes <+: nodes' ∧ ∃ T, Layout nodes' nodes.length T nodes'.length ∧ Builds depth ss box bad T := by
  intro depth
  induction depth with
  | zero =>
    intro nodes nodes' ss box bad h
    simp only [build, Option.some.injEq] at h
    subst h
    exact ⟨List.prefix_append _ _, .leaf ss, layout_leaf nodes ss, .deep⟩
  | succ depth ih =>
    intro nodes nodes' ss box bad h
    rw [build] at h
    have hleaf : ∀ {P : KTree α → Prop}, P (.leaf ss) → some (nodes ++ [Node.newLeaf ss]) = some nodes' →
        nodes <+: nodes' ∧ ∃ T, Layout nodes' nodes.length T nodes'.length ∧ P T := by
      intro P hP h
      simp only [Option.some.injEq] at h
      subst h
      exact ⟨List.prefix_append _ _, .leaf ss, layout_leaf nodes ss, hP⟩
    by_cases h8 : ss.length ≤ MAX_SHAPES_IN_NODE
    · rw [if_pos h8] at h
      exact hleaf (.few h8) h
    rw [if_neg h8] at h
    have h8' : 8 < ss.length := not_le.1 h8
    cases ha : box.maxExtent with
    | none => rw [ha] at h; cases h
    | some axis0 =>
      rw [ha, Option.bind_some] at h
      dsimp only at h
      generalize hb : tryAxes box ss 3 axis0 ⟨FLOAT_MAX, none⟩ = best at h
      cases hs : best.split with
      | none =>
        rw [hs] at h
        exact hleaf (.stop best ha h8' hb.symm (Or.inl hs)) h
      | some sp =>
        obtain ⟨axis, edge⟩ := sp
        rw [hs] at h
        dsimp only at h
        by_cases hc : ((best.cost >. lit 4 *. (ISECT_COST *. ofInt ss.length)) && decide (ss.length < MAX_SHAPES_IN_NODE * 2)
            || (if best.cost >. ISECT_COST *. ofInt ss.length then bad + 1 else bad) == 3) = true
        · rw [if_pos hc] at h
          refine hleaf (.stop best ha h8' hb.symm (Or.inr ?_)) h
          simp only [Bool.or_eq_true, Bool.and_eq_true, decide_eq_true_eq, beq_iff_eq] at hc
          exact hc
        · rw [if_neg hc] at h
          have hc' := hc
          simp only [Bool.or_eq_true, Bool.and_eq_true, decide_eq_true_eq, beq_iff_eq] at hc'
          cases he : (sortedEdges axis ss)[edge]? with
          | none => rw [he] at h; cases h
          | some e =>
            rw [he, Option.bind_some] at h
            cases h1 : build depth (nodes ++ [Node.empty]) (below (sortedEdges axis ss) edge)
                { box with max := setAxis box.max axis e.t }
                (if best.cost >. ISECT_COST *. ofInt ss.length then bad + 1 else bad) with
            | none => rw [h1] at h; cases h
            | some nodes1 =>
              rw [h1, Option.bind_some] at h
              obtain ⟨pre1, T1, lay1, b1⟩ := ih _ _ _ _ _ h1
              obtain ⟨pre2, T2, lay2, b2⟩ := ih _ _ _ _ _ h
              have hlen : nodes.length < nodes1.length := by
                have := pre1.length_le; simp at this; omega
              simp only [List.length_set] at lay2 pre2
              have hlen2 : nodes1.length ≤ nodes'.length := by simpa using pre2.length_le
              have get2 : ∀ k, k < nodes1.length → nodes'[k]? = (nodes1.set nodes.length (.split axis e.t nodes1.length))[k]? := by
                intro k hk
                obtain ⟨rest, rfl⟩ := pre2
                rw [List.getElem?_append_left (by simpa using hk)]
              refine ⟨?_, .node axis e.t T1 T2, ?_, .split best e ha h8' hb.symm hs he hc' b1 b2⟩
              · obtain ⟨r1, hr1⟩ := pre1
                obtain ⟨r2, hr2⟩ := pre2
                rw [← hr2, ← hr1]
                simp only [List.append_assoc, List.set_append_right _ _ le_rfl]
                exact List.prefix_append _ _
              · refine Layout.node (k := nodes1.length) ?_ ?_ lay2
                · rw [get2 _ hlen, List.getElem?_set_self hlen]
                · refine Layout.congr (nodes := nodes1) (by simpa using lay1) ?_
                  intro k hk1 hk2
                  rw [get2 k hk2, List.getElem?_set_ne (by omega)]
end

/-! ## Sorting and classifying the edges -/

section
variable {φ K : Type} [Field K] [LinearOrder K] [IsStrictOrderedRing K] [FloorRing K] [Rounding φ K]

/-- A total order on edges that agrees with the comparison of the code when no coordinate is NaN. -/
noncomputable def edgeLe (a b : BEdge (Fl φ K)) : Bool :=
  decide (ev a.t < ev b.t ∨ (ev a.t = ev b.t ∧ (a.kind = .start ∨ b.kind = .stop)))

theorem edgeLe_iff {a b : BEdge (Fl φ K)} :
    edgeLe a b = true ↔ (ev a.t < ev b.t ∨ (ev a.t = ev b.t ∧ (a.kind = .start ∨ b.kind = .stop))) := by
  simp [edgeLe]

theorem edgeLe_trans (a b c : BEdge (Fl φ K)) (h1 : edgeLe a b = true) (h2 : edgeLe b c = true) : edgeLe a c = true := by
  rw [edgeLe_iff] at *
  rcases h1 with h1 | ⟨h1, k1⟩ <;> rcases h2 with h2 | ⟨h2, k2⟩
  · exact Or.inl (h1.trans h2)
  · exact Or.inl (h2 ▸ h1)
  · exact Or.inl (h1 ▸ h2)
  · refine Or.inr ⟨h1.trans h2, ?_⟩
    rcases k1 with k1 | k1
    · exact Or.inl k1
    · rcases k2 with k2 | k2
      · rw [k1] at k2; cases k2
      · exact Or.inr k2

theorem edgeLe_total (a b : BEdge (Fl φ K)) : (edgeLe a b || edgeLe b a) = true := by
  rw [Bool.or_eq_true, edgeLe_iff, edgeLe_iff]
  rcases lt_trichotomy (ev a.t) (ev b.t) with h | h | h
  · exact Or.inl (Or.inl h)
  · rcases ha : a.kind with _ | _
    · exact Or.inl (Or.inr ⟨h, Or.inl rfl⟩)
    · exact Or.inr (Or.inr ⟨h.symm, Or.inr rfl⟩)
  · exact Or.inr (Or.inl h)

theorem edgeCmp_eq {a b : BEdge (Fl φ K)} (ha : a.t ≠ nan) (hb : b.t ≠ nan) : (edgeCmp a b != .gt) = edgeLe a b := by
  rw [Bool.eq_iff_iff, edgeLe_iff]
  unfold edgeCmp
  simp only [f_lt]
  by_cases h1 : lt a.t b.t = true
  · simp only [h1, if_true]
    exact ⟨fun _ => Or.inl (lt_iff.1 h1).2.2, fun _ => rfl⟩
  · rw [if_neg h1]
    have h1' : ¬ ev a.t < ev b.t := fun h => h1 (lt_iff.2 ⟨ha, hb, h⟩)
    by_cases h2 : lt b.t a.t = true
    · simp only [h2, if_true]
      have := (lt_iff.1 h2).2.2
      constructor
      · intro h; exact absurd h (by decide)
      · rintro (h | ⟨h, _⟩)
        · exact absurd h h1'
        · exact absurd this (by rw [h]; exact lt_irrefl _)
    · rw [if_neg h2]
      have h2' : ¬ ev b.t < ev a.t := fun h => h2 (lt_iff.2 ⟨hb, ha, h⟩)
      have he : ev a.t = ev b.t := le_antisymm (not_lt.1 h2') (not_lt.1 h1')
      rcases ha : a.kind with _ | _ <;> rcases hb : b.kind with _ | _ <;> simp [he]

/-- The boxes of all shapes have no NaN coordinate and ordered corners. -/
def GoodBoxes (ss : List (Obj (Fl φ K))) : Prop :=
  ∀ s ∈ ss, ∀ a, Fl.le (s.shape.bbox.min.get a) (s.shape.bbox.max.get a) = true

theorem GoodBoxes.noNaN {ss : List (Obj (Fl φ K))} (h : GoodBoxes ss) : ∀ s ∈ ss, NoNaN s.shape.bbox :=
  fun s hs => ⟨fun a => (le_iff.1 (h s hs a)).1, fun a => (le_iff.1 (h s hs a)).2.1⟩

theorem mem_edges {axis : Axis} {ss : List (Obj (Fl φ K))} {e : BEdge (Fl φ K)} : e ∈ edges axis ss ↔
    ∃ s ∈ ss, e = ⟨.start, s.shape.bbox.min.get axis, s⟩ ∨ e = ⟨.stop, s.shape.bbox.max.get axis, s⟩ := by
  simp [edges]

theorem mem_sortedEdges {axis : Axis} {ss : List (Obj (Fl φ K))} {e : BEdge (Fl φ K)} :
    e ∈ sortedEdges axis ss ↔ e ∈ edges axis ss := (List.perm_insertionSort _ _).mem_iff

theorem edges_not_nan {axis : Axis} {ss : List (Obj (Fl φ K))} (h : ∀ s ∈ ss, NoNaN s.shape.bbox) :
    ∀ e ∈ edges axis ss, e.t ≠ nan := by
  intro e he
  obtain ⟨s, hs, rfl | rfl⟩ := mem_edges.1 he
  · exact (h s hs).1 axis
  · exact (h s hs).2 axis

theorem sortedEdges_sorted {axis : Axis} {ss : List (Obj (Fl φ K))} (h : ∀ s ∈ ss, NoNaN s.shape.bbox) :
    (sortedEdges axis ss).Pairwise fun a b => edgeLe a b = true := by
  have hn := edges_not_nan (axis := axis) h
  have e : (sortedEdges axis ss) = (edges axis ss).insertionSort fun a b => edgeLe a b = true := by
    have := List.map_insertionSort (r := fun a b => (edgeCmp a b != .gt) = true) (s := fun a b => edgeLe a b = true) id (edges axis ss)
      (fun a ha b hb => by rw [edgeCmp_eq (hn a ha) (hn b hb)]; rfl)
    simpa [sortedEdges] using this
  rw [e]
  haveI : Std.Total (fun a b : BEdge (Fl φ K) => edgeLe a b = true) := ⟨fun a b => by simpa using edgeLe_total a b⟩
  haveI : IsTrans (BEdge (Fl φ K)) (fun a b => edgeLe a b = true) := ⟨edgeLe_trans⟩
  exact List.pairwise_insertionSort _ _

/-- Classification at a split: what is below, what is above, nothing is lost. -/
theorem classify {axis : Axis} {ss : List (Obj (Fl φ K))} (hg : GoodBoxes ss) {k : Nat} {e : BEdge (Fl φ K)}
    (he : (sortedEdges axis ss)[k]? = some e) :
    (∃ s ∈ ss, e.t = s.shape.bbox.min.get axis ∨ e.t = s.shape.bbox.max.get axis) ∧
    (∀ s ∈ below (sortedEdges axis ss) k, s ∈ ss) ∧ (∀ s ∈ above (sortedEdges axis ss) k, s ∈ ss) ∧
    ∀ s ∈ ss,
      (s ∈ below (sortedEdges axis ss) k ∨ s ∈ above (sortedEdges axis ss) k) ∧
      (s ∉ below (sortedEdges axis ss) k → le e.t (s.shape.bbox.min.get axis) = true) ∧
      (s ∉ above (sortedEdges axis ss) k → le (s.shape.bbox.max.get axis) e.t = true) := by
  have hsort := sortedEdges_sorted (axis := axis) hg.noNaN
  have hmem := fun x => mem_sortedEdges (axis := axis) (ss := ss) (e := x)
  have hnan : ∀ x ∈ sortedEdges axis ss, x.t ≠ nan := fun x hx => edges_not_nan hg.noNaN x ((hmem x).1 hx)
  generalize sortedEdges axis ss = es at *
  have hk : k < es.length := by
    by_contra hc
    rw [List.getElem?_eq_none (not_lt.1 hc)] at he; cases he
  have hek : es[k] = e := by rw [List.getElem?_eq_getElem hk] at he; exact Option.some.inj he
  have hdrop : es.drop k = e :: es.drop (k + 1) := by rw [← hek]; exact List.drop_eq_getElem_cons hk
  have hsplit : es = es.take k ++ e :: es.drop (k + 1) := by rw [← hdrop, List.take_append_drop]
  have heIn : e ∈ es := by rw [← hek]; exact List.getElem_mem hk
  rw [hsplit, List.pairwise_append] at hsort
  obtain ⟨_, h2, h3⟩ := hsort
  rw [List.pairwise_cons] at h2
  have hle_t : ∀ x y, x ∈ es → y ∈ es → edgeLe x y = true → le x.t y.t = true := by
    intro x y hx hy h
    rw [edgeLe_iff] at h
    rw [le_iff]
    refine ⟨hnan x hx, hnan y hy, ?_⟩
    rcases h with h | ⟨h, _⟩
    · exact h.le
    · exact h.le
  have memB : ∀ s, s ∈ below es k ↔ ∃ x ∈ es.take k, x.kind = .start ∧ x.shape = s := by
    intro s; simp [below, and_assoc]
  have memA : ∀ s, s ∈ above es k ↔ ∃ x ∈ es.drop (k + 1), x.kind = .stop ∧ x.shape = s := by
    intro s; simp [above, and_assoc]
  have inSs : ∀ x ∈ es, x.shape ∈ ss := by
    intro x hx
    obtain ⟨s, hs, rfl | rfl⟩ := mem_edges.1 ((hmem x).1 hx) <;> exact hs
  refine ⟨?_, ?_, ?_, ?_⟩
  · obtain ⟨s, hs, rfl | rfl⟩ := mem_edges.1 ((hmem e).1 heIn)
    · exact ⟨s, hs, Or.inl rfl⟩
    · exact ⟨s, hs, Or.inr rfl⟩
  · intro s hs
    obtain ⟨x, hx, _, rfl⟩ := (memB s).1 hs
    exact inSs x (List.mem_of_mem_take hx)
  · intro s hs
    obtain ⟨x, hx, _, rfl⟩ := (memA s).1 hs
    exact inSs x (List.mem_of_mem_drop hx)
  · intro s hs
    have hS : (⟨.start, s.shape.bbox.min.get axis, s⟩ : BEdge (Fl φ K)) ∈ es := (hmem _).2 (mem_edges.2 ⟨s, hs, Or.inl rfl⟩)
    have hE : (⟨.stop, s.shape.bbox.max.get axis, s⟩ : BEdge (Fl φ K)) ∈ es := (hmem _).2 (mem_edges.2 ⟨s, hs, Or.inr rfl⟩)
    generalize hSe : (⟨.start, s.shape.bbox.min.get axis, s⟩ : BEdge (Fl φ K)) = S at hS
    generalize hEe : (⟨.stop, s.shape.bbox.max.get axis, s⟩ : BEdge (Fl φ K)) = E at hE
    have kS : S.kind = .start := by rw [← hSe]
    have kE : E.kind = .stop := by rw [← hEe]
    have sS : S.shape = s := by rw [← hSe]
    have sE : E.shape = s := by rw [← hEe]
    have tS : S.t = s.shape.bbox.min.get axis := by rw [← hSe]
    have tE : E.t = s.shape.bbox.max.get axis := by rw [← hEe]
    have nb : s ∉ below es k → S = e ∨ S ∈ es.drop (k + 1) := by
      intro hn
      rw [hsplit, List.mem_append, List.mem_cons] at hS
      rcases hS with h | h
      · exact absurd ((memB s).2 ⟨S, h, kS, sS⟩) hn
      · exact h
    have na : s ∉ above es k → E ∈ es.take k ∨ E = e := by
      intro hn
      rw [hsplit, List.mem_append, List.mem_cons] at hE
      rcases hE with h | h | h
      · exact Or.inl h
      · exact Or.inr h
      · exact absurd ((memA s).2 ⟨E, h, kE, sE⟩) hn
    refine ⟨?_, ?_, ?_⟩
    · by_contra hcon
      rw [not_or] at hcon
      have hle := hg s hs axis
      have hES : edgeLe E S = true := by
        rcases nb hcon.1 with h | h <;> rcases na hcon.2 with h' | h'
        · rw [h]; exact h3 E h' e (by simp)
        · rw [h, ← h'] at kS; rw [kS] at kE; cases kE
        · exact h3 E h' S (by simp [h])
        · rw [h']; exact h2.1 S h
      rw [edgeLe_iff, tS, tE] at hES
      rw [le_iff] at hle
      rcases hES with h | ⟨_, h | h⟩
      · exact absurd h (not_lt.2 hle.2.2)
      · rw [kE] at h; cases h
      · rw [kS] at h; cases h
    · intro hn
      rw [← tS]
      rcases nb hn with h | h
      · rw [h]; exact le_refl' (hnan e heIn)
      · exact hle_t e S heIn hS (h2.1 S h)
    · intro hn
      rw [← tE]
      rcases na hn with h | h
      · exact hle_t E e hE heIn (h3 E h e (by simp))
      · rw [h]; exact le_refl' (hnan e heIn)

end
end KdTree
end PT
