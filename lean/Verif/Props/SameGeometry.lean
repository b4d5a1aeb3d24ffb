import Verif.Props.NeverPanicsLib

/-!
# Materials and lights do not change what is where (C89)

In any arithmetic, for both containers.
-/

namespace PT
open Spec

/-! ### Containers of shapes with the same geometry -/

section
variable {α : Type} [Scalar α]

/-- Changing objects by `f` does not change their geometry. -/
def SameGeometry (f : Obj α → Obj α) : Prop :=
  ∀ s, (f s).shape.bbox = s.shape.bbox ∧ (f s).shape.intersectP = s.shape.intersectP ∧ (f s).shape.intersect = s.shape.intersect

/-- The hit on the changed object. -/
def Hit.via (f : Obj α → Obj α) (h : Hit α) : Hit α := ⟨h.i, f h.obj⟩

variable {f : Obj α → Obj α} (hf : SameGeometry f)
include hf

theorem geo_bboxOfShapes (ss : List (Obj α)) : bboxOfShapes (ss.map f) = bboxOfShapes ss := by
  cases ss with
  | nil => rfl
  | cons s ss => simp only [List.map_cons, bboxOfShapes, (hf s).1, List.foldl_map, (hf _).1]

theorem geo_anyHit (ray : Ray α) (ss : List (Obj α)) : anyHit ray (ss.map f) = anyHit ray ss := by
  induction ss with
  | nil => rfl
  | cons s ss ih => simp only [List.map_cons, anyHit, (hf s).2.1, ih]

theorem geo_obj_intersect (s : Obj α) (ray : Ray α) : (f s).intersect ray = (s.intersect ray).map fun r => (r.1, r.2.map (Hit.via f)) := by
  unfold Obj.intersect
  rw [(hf s).2.2]
  cases s.shape.intersect ray with
  | none => rfl
  | some r => cases r <;> rfl

theorem geo_closestHit (ss : List (Obj α)) : ∀ (ray : Ray α) (h : Option (Hit α)),
    closestHit (ss.map f) ray (h.map (Hit.via f)) = (closestHit ss ray h).map fun r => (r.1, r.2.map (Hit.via f)) := by
  induction ss with
  | nil => intro ray h; rfl
  | cons s ss ih =>
    intro ray h
    simp only [List.map_cons, closestHit, geo_obj_intersect hf]
    cases s.intersect ray with
    | none => rfl
    | some r =>
      obtain ⟨r1, r2⟩ := r
      simp only [Option.map_some, Option.bind_some]
      cases r2 with
      | none => simpa using ih r1 h
      | some x => simpa using ih r1 (some x)

omit hf in
/-- The node with the changed objects. -/
def Node.via (f : Obj α → Obj α) : Node α → Node α
  | .split a t n => .split a t n
  | .empty => .empty
  | .shape s => .shape (f s)
  | .shapes ss => .shapes (ss.map f)

omit [Scalar α] hf in
theorem newLeaf_via (ss : List (Obj α)) : Node.newLeaf (ss.map f) = (Node.newLeaf ss).via f := by
  match ss with
  | [] => rfl
  | [_] => rfl
  | _ :: _ :: _ => rfl

omit hf in
/-- The edge of the changed object. -/
def BEdge.via (f : Obj α → Obj α) (e : BEdge α) : BEdge α := ⟨e.kind, e.t, f e.shape⟩

namespace KdTree
theorem edges_via (axis : Axis) (ss : List (Obj α)) : edges axis (ss.map f) = (edges axis ss).map (BEdge.via f) := by
  unfold edges
  induction ss with
  | nil => rfl
  | cons s ss ih => simp only [List.map_cons, List.flatMap_cons, List.map_append, ih, (hf s).1]; rfl

theorem sortedEdges_via (axis : Axis) (ss : List (Obj α)) : sortedEdges axis (ss.map f) = (sortedEdges axis ss).map (BEdge.via f) := by
  unfold sortedEdges
  rw [edges_via hf]
  exact (List.map_insertionSort _ _ (BEdge.via f) _ fun a _ b _ => Iff.rfl).symm

omit hf in
theorem scan_via (box : BBox3 α) (axis : Axis) : ∀ (es : List (BEdge α)) (i nB nA : Nat) (best : Best α),
    scan box axis (es.map (BEdge.via f)) i nB nA best = scan box axis es i nB nA best := by
  intro es
  induction es with
  | nil => intros; rfl
  | cons e es ih =>
    intro i nB nA best
    simp only [List.map_cons, scan, ih]
    rfl

theorem tryAxes_via (box : BBox3 α) (ss : List (Obj α)) : ∀ (k : Nat) (axis : Axis) (best : Best α),
    tryAxes box (ss.map f) k axis best = tryAxes box ss k axis best := by
  intro k
  induction k with
  | zero => intros; rfl
  | succ k ih =>
    intro axis best
    simp only [tryAxes, sortedEdges_via hf, scan_via, List.length_map, ih]

omit [Scalar α] hf in
theorem below_via (es : List (BEdge α)) (n : Nat) : below (es.map (BEdge.via f)) n = (below es n).map f := by
  unfold below
  rw [← List.map_take, List.filter_map, List.map_map, List.map_map]
  rfl

omit [Scalar α] hf in
theorem above_via (es : List (BEdge α)) (n : Nat) : above (es.map (BEdge.via f)) n = (above es n).map f := by
  unfold above
  rw [← List.map_drop, List.filter_map, List.map_map, List.map_map]
  rfl

theorem build_via : ∀ (depth : Nat) (nodes : List (Node α)) (ss : List (Obj α)) (box : BBox3 α) (bad : Nat),
    build depth (nodes.map (Node.via f)) (ss.map f) box bad = (build depth nodes ss box bad).map (List.map (Node.via f)) := by
  intro depth
  induction depth with
  | zero => intro nodes ss box bad; simp [build, newLeaf_via]
  | succ depth ih =>
    intro nodes ss box bad
    simp only [build, List.length_map, tryAxes_via hf, sortedEdges_via hf, newLeaf_via]
    split
    · simp
    cases box.maxExtent with
    | none => rfl
    | some axis =>
      simp only [Option.bind_some]
      generalize (if ((tryAxes box ss 3 axis ⟨FLOAT_MAX, none⟩).cost >. ISECT_COST *. ofInt ss.length) = true then bad + 1 else bad) = bad'
      generalize (tryAxes box ss 3 axis ⟨FLOAT_MAX, none⟩) = best
      split
      · simp
      rename_i axis edge _
      split
      · simp
      rw [List.getElem?_map]
      cases (sortedEdges axis ss)[edge]? with
      | none => rfl
      | some e =>
        simp only [Option.map_some, Option.bind_some, below_via, above_via]
        have h1 := ih (nodes ++ [.empty]) (below (sortedEdges axis ss) edge) { box with max := setAxis box.max axis e.t } bad'
        rw [List.map_append] at h1
        change ((build depth (nodes.map (Node.via f) ++ [.empty]) ((below (sortedEdges axis ss) edge).map f) { box with max := setAxis box.max axis e.t } bad').bind _) = _
        change build depth (nodes.map (Node.via f) ++ [.empty]) _ _ _ = _ at h1
        rw [h1]
        cases build depth (nodes ++ [.empty]) (below (sortedEdges axis ss) edge) { box with max := setAxis box.max axis e.t } bad' with
        | none => rfl
        | some ns =>
          simp only [Option.map_some, Option.bind_some, List.length_map]
          have h2 := ih (ns.set nodes.length (.split axis e.t ns.length)) (above (sortedEdges axis ss) edge) { box with min := setAxis box.min axis e.t } bad'
          rw [List.map_set] at h2
          exact h2

omit [Scalar α] hf in
theorem leafShapes_via (n : Node α) : leafShapes (n.via f) = (leafShapes n).map f := by cases n <;> rfl

theorem loopP_via (nodes : List (Node α)) (ray : Ray α) : ∀ (fuel i : Nat) (tMin tMax : α) (todos : List (Todo α)),
    loopP (nodes.map (Node.via f)) ray fuel i tMin tMax todos = loopP nodes ray fuel i tMin tMax todos := by
  intro fuel
  induction fuel with
  | zero => intros; rfl
  | succ fuel ih =>
    intro i tMin tMax todos
    simp only [loopP]
    split
    · rfl
    rw [List.getElem?_map]
    cases nodes[i]? with
    | none => rfl
    | some n =>
      cases n with
      | split a t k => exact ih _ _ _ _
      | empty => simp only [Option.map_some, Node.via, leafShapes, ih]
      | shape s =>
        have := geo_anyHit hf ray [s]
        simp only [List.map_cons, List.map_nil] at this
        simp only [Option.map_some, Node.via, leafShapes, this, ih]
      | shapes ss => simp only [Option.map_some, Node.via, leafShapes, geo_anyHit hf, ih]

theorem loop_via (nodes : List (Node α)) : ∀ (fuel : Nat) (ray : Ray α) (h : Option (Hit α)) (i : Nat) (tMin tMax : α) (todos : List (Todo α)),
    loop (nodes.map (Node.via f)) fuel ray (h.map (Hit.via f)) i tMin tMax todos =
      match loop nodes fuel ray h i tMin tMax todos with
      | .value b => .value (b.map (Hit.via f))
      | .panic => .panic
      | .more => .more := by
  intro fuel
  induction fuel with
  | zero => intros; rfl
  | succ fuel ih =>
    intro ray h i tMin tMax todos
    simp only [loop]
    split
    · rfl
    rw [List.getElem?_map]
    cases nodes[i]? with
    | none => rfl
    | some n =>
      have key : ∀ ss : List (Obj α), (match closestHit (ss.map f) ray (h.map (Hit.via f)) with
          | none => Run.panic
          | some (ray, h) =>
            match todos with
            | [] => .value h
            | td :: todos => loop (nodes.map (Node.via f)) fuel ray h td.node td.tMin td.tMax todos) =
          match (match closestHit ss ray h with
            | none => Run.panic
            | some (ray, h) =>
              match todos with
              | [] => .value h
              | td :: todos => loop nodes fuel ray h td.node td.tMin td.tMax todos) with
          | .value b => .value (b.map (Hit.via f))
          | .panic => .panic
          | .more => .more := by
        intro ss
        rw [geo_closestHit hf]
        cases closestHit ss ray h with
        | none => rfl
        | some r =>
          obtain ⟨r1, r2⟩ := r
          cases todos with
          | nil => rfl
          | cons td todos => exact ih _ _ _ _ _ _
      cases n with
      | split a t k => exact ih _ _ _ _ _ _
      | empty => exact key []
      | shape s => exact key [s]
      | shapes ss => exact key ss
end KdTree

variable [Libm α]

/-- A container of changed objects: the same questions are answered, with the changed objects in the answers. -/
theorem geo_container {mk : List (Obj α) → Option (Container α)} (hmk : LibraryContainer mk) (ss : List (Obj α)) :
    (mk (ss.map f)).isSome = (mk ss).isSome ∧ ∀ c c', mk ss = some c → mk (ss.map f) = some c' →
      ∀ ray, c'.intersectP ray = c.intersectP ray ∧ c'.intersect ray = (c.intersect ray).map (Option.map (Hit.via f)) := by
  cases hmk with
  | simple =>
    simp only [Simple.new, geo_bboxOfShapes hf]
    cases bboxOfShapes ss with
    | none => simp
    | some b =>
      simp only [Option.map_some, Option.isSome_some, Option.some.injEq, true_and]
      rintro c c' rfl rfl ray
      simp only [Simple.toContainer, Simple.intersectP, Simple.intersect, geo_anyHit hf]
      refine ⟨trivial, ?_⟩
      split
      · rfl
      · have := geo_closestHit hf ss ray none
        rw [Option.map_none] at this
        rw [this]
        simp only [Option.map_map]
        rfl
  | kdTree depth =>
    simp only [KdTree.new, geo_bboxOfShapes hf, List.length_map]
    cases bboxOfShapes ss with
    | none => simp
    | some b =>
      have hb := KdTree.build_via hf (depth.getD (KdTree.defaultDepth (α := α) ss.length)) [] ss b 0
      rw [List.map_nil] at hb
      simp only [Option.bind_some, hb]
      cases KdTree.build (depth.getD (KdTree.defaultDepth (α := α) ss.length)) [] ss b 0 with
      | none => simp
      | some ns =>
        simp only [Option.map_some, Option.isSome_some, Option.some.injEq, true_and]
        rintro c c' rfl rfl ray
        simp only [KdTree.toContainer, KdTree.intersectP, KdTree.intersect, KdTree.runP, KdTree.run, List.length_map]
        cases b.intersect ray with
        | none => exact ⟨rfl, rfl⟩
        | some t =>
          simp only [Option.elim_some, KdTree.loopP_via hf, true_and]
          have := KdTree.loop_via hf ns ns.length ray none 0 t.1 t.2 []
          rw [Option.map_none] at this
          rw [this]
          cases KdTree.loop ns ns.length ray none 0 t.1 t.2 [] <;> rfl
end

/-! ### C89 -/

namespace Spec
/-- Two calls of the scene builder with the same shape, but possibly different materials, colours of light, or distant lights. -/
inductive Redecorated {α β : Type} [Scalar α] [Libm α] [HasInf α] [Scalar β] [Libm β] [Widen α β] : BuilderCall α → BuilderCall α → Prop
  | light (addr l l') : Redecorated (.light addr l) (.light addr l')
  | sphere (addr) (s s' : Sphere α) : s'.center = s.center → s'.radius = s.radius → Redecorated (.shape addr s.toShape) (.shape addr s'.toShape)
  | triangle (addr) (t : Triangle α) (m : Material α) : Redecorated (.shape addr t.toShape) (.shape addr ({ t with material := m } : Triangle α).toShape)
  | areaSphere (addr e e') (s s' : Sphere α) : s'.center = s.center → s'.radius = s.radius →
      Redecorated (.area addr ⟨e, s.toShape⟩) (.area addr ⟨e', s'.toShape⟩)
  | areaTriangle (addr e e') (t : Triangle α) (m : Material α) :
      Redecorated (.area addr ⟨e, t.toShape⟩) (.area addr ⟨e', ({ t with material := m } : Triangle α).toShape⟩)
end Spec

section
variable {α β : Type} [Scalar α] [Libm α] [HasInf α] [Scalar β] [Libm β] [Widen α β]

/-- An object without its material and its light. -/
def bare (o : Obj α) : Obj α := ⟨o.addr, { o.shape with material := BSDF.new, l := fun _ _ => Spectrum.zero }⟩

omit [Libm α] [HasInf α] in
theorem bare_geometry [Libm α] : SameGeometry (bare (α := α)) := fun _ => ⟨rfl, rfl, rfl⟩

theorem redecorated_bare {hist hist' : List (BuilderCall α)} (h : List.Forall₂ Redecorated hist hist') :
    (addedShapes hist').map bare = (addedShapes hist).map bare ∧ (asShapes (addedAreas hist')).map bare = (asShapes (addedAreas hist)).map bare := by
  induction h with
  | nil => exact ⟨rfl, rfl⟩
  | cons h1 _ ih =>
    obtain ⟨i1, i2⟩ := ih
    have hs : ∀ (s s' : Sphere α), s'.center = s.center → s'.radius = s.radius → ∀ l,
        ({ s'.toShape with material := BSDF.new, l := l } : Shape α) = { s.toShape with material := BSDF.new, l := l } := by
      rintro ⟨c, r, m⟩ ⟨c', r', m'⟩ h1 h2 l
      cases h1; cases h2; rfl
    cases h1 with
    | light addr l l' => exact ⟨i1, i2⟩
    | sphere addr s s' h1 h2 =>
      refine ⟨?_, i2⟩
      simp only [addedShapes, List.map_cons, i1, bare, hs s s' h1 h2]
    | triangle addr t m => exact ⟨by simp only [addedShapes, List.map_cons, i1]; rfl, i2⟩
    | areaSphere addr e e' s s' h1 h2 =>
      refine ⟨i1, ?_⟩
      simp only [asShapes] at i2
      simp only [addedAreas, asShapes, List.map_cons, i2]
      congr 1
      have := hs s s' h1 h2 fun _ _ => Spectrum.zero
      exact congrArg (Obj.mk addr) this
    | areaTriangle addr e e' t m =>
      refine ⟨i1, ?_⟩
      simp only [asShapes] at i2
      simp only [addedAreas, asShapes, List.map_cons, i2]
      rfl

/-- C89: two scenes of the same shapes, with other materials, colours and lights: either both can be constructed or neither, and every
ray meets the same point of the same shape in both, and is blocked in both or in neither. -/
theorem c89_same_view {hist hist' : List (BuilderCall α)} (h : List.Forall₂ Redecorated hist hist')
    {mk : List (Obj α) → Option (Container α)} (hmk : LibraryContainer mk) :
    ((built hist).construct mk = none ↔ (built hist').construct mk = none) ∧
    ∀ scene scene', (built hist).construct mk = some scene → (built hist').construct mk = some scene' → ∀ ray,
      scene'.intersectP ray = scene.intersectP ray ∧
      (scene'.intersect ray).map (Option.map fun h => (h.i, h.obj.addr)) = (scene.intersect ray).map (Option.map fun h => (h.i, h.obj.addr)) := by
  obtain ⟨box, -, h1, h2⟩ := c65_construct hist mk
  obtain ⟨box', -, h1', h2'⟩ := c65_construct hist' mk
  have e : (sceneShapes hist').map bare = (sceneShapes hist).map bare := by
    obtain ⟨a, b⟩ := redecorated_bare h
    simp only [sceneShapes, List.map_append, a, b]
  obtain ⟨g1, g2⟩ := geo_container bare_geometry hmk (sceneShapes hist)
  obtain ⟨g1', g2'⟩ := geo_container bare_geometry hmk (sceneShapes hist')
  rw [e] at g1' g2'
  refine ⟨?_, fun scene scene' hs hs' ray => ?_⟩
  · rw [h2, h2', ← Option.not_isSome_iff_eq_none, ← Option.not_isSome_iff_eq_none, ← g1, ← g1']
  · obtain ⟨-, hc⟩ := h1 scene hs
    obtain ⟨-, hc'⟩ := h1' scene' hs'
    rw [hc] at g1
    obtain ⟨c0, hc0⟩ := Option.isSome_iff_exists.1 g1
    obtain ⟨a1, a2⟩ := g2 _ c0 hc hc0 ray
    obtain ⟨b1, b2⟩ := g2' _ c0 hc' hc0 ray
    refine ⟨b1.symm.trans a1, ?_⟩
    have := congrArg (Option.map (Option.map fun h : Hit α => (h.i, h.obj.addr))) (b2.symm.trans a2)
    simp only [Option.map_map, Function.comp_def, Hit.via, bare] at this
    exact this
end

/-- A grey ball and a red lamp, and a mirror ball and a blue lamp. -/
example [Libm F32] [Libm F64] (t : Triangle F32) (grey : TextureOf F32 (Spectrum F32)) : List.Forall₂ Redecorated
    [.shape 1 (Sphere.mk ⟨lit 0, lit 0, lit 3⟩ (lit 1) (lambertianMaterial grey)).toShape, .area 2 ⟨⟨lit 1, lit 0, lit 0⟩, t.toShape⟩]
    [.shape 1 (Sphere.mk ⟨lit 0, lit 0, lit 3⟩ (lit 1) (mirrorMaterial grey)).toShape,
     .area 2 ⟨⟨lit 0, lit 0, lit 1⟩, ({ t with material := mirrorMaterial grey } : Triangle F32).toShape⟩] :=
  .cons (.sphere _ _ _ rfl rfl) (.cons (.areaTriangle _ _ _ _ _) .nil)

end PT
