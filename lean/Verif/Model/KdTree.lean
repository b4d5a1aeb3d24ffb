import Verif.Model.Shape
import Mathlib.Data.List.Sort

/-!
# /repo/src/container_kdtree.rs

`Vec<Node>` is a list; indexing out of range is a panic (`none` / `Run.panic`).  The traversal loops
have a step budget, `Run.more` when it is used up; `Verif.Props.KdTree` proves that
on a built tree the budget given here is never used up, so the budget does not show.
-/

namespace PT
variable {α : Type} [Scalar α]

/-- /repo/src/container_kdtree.rs:12 -/
def MAX_SHAPES_IN_NODE : Nat := 8
/-- /repo/src/container_kdtree.rs:13 -/
def ISECT_COST : α := lit 80
/-- /repo/src/container_kdtree.rs:14 -/
def TRAV_COST : α := lit 1
/-- /repo/src/container_kdtree.rs:15 -/
def EMPTY_BONUS : α := lit (1 / 2)
/-- `f32::MAX`, /repo/src/common.rs:4 -/
def FLOAT_MAX : α := lit 340282346638528859811704183484516925440

/-- /repo/src/container_kdtree.rs:23-28 -/
inductive Node (α : Type) where
  | split (axis : Axis) (t : α) (above : Nat)
  | empty
  | shape (s : Obj α)
  | shapes (ss : List (Obj α))

/-- /repo/src/container_kdtree.rs:373-379 -/
def Node.newLeaf : List (Obj α) → Node α
  | [] => .empty
  | [s] => .shape s
  | ss => .shapes ss

/-- /repo/src/container_kdtree.rs:63-67 -/
inductive EdgeKind where
  | start | stop
  deriving DecidableEq

/-- /repo/src/container_kdtree.rs:51-55 -/
structure BEdge (α : Type) where
  kind : EdgeKind
  t : α
  shape : Obj α

namespace KdTree

/-- The pushes of /repo/src/container_kdtree.rs:95-99 -/
def edges (axis : Axis) (shapes : List (Obj α)) : List (BEdge α) :=
  shapes.flatMap fun s =>
    [⟨.start, s.shape.bbox.min.get axis, s⟩, ⟨.stop, s.shape.bbox.max.get axis, s⟩]

/-- The comparison of /repo/src/container_kdtree.rs:100-112 -/
def edgeCmp (a b : BEdge α) : Ordering :=
  if a.t <. b.t then .lt
  else if a.t >. b.t then .gt
  else match a.kind, b.kind with
    | .start, .stop => .lt
    | .stop, .start => .gt
    | _, _ => .eq

/-- `edges[axis]` after /repo/src/container_kdtree.rs:100-112.  `slice::sort_by` is a stable sort; so is
`List.insertionSort`, and all stable sorts agree.  (If the comparison is not a total order, i.e. with NaN coordinates, the order that Rust produces is
unspecified; theorems that depend on the order exclude it.) -/
def sortedEdges (axis : Axis) (shapes : List (Obj α)) : List (BEdge α) :=
  (edges axis shapes).insertionSort fun a b => (edgeCmp a b != .gt) = true

/-- The variables `best_cost`, and `best_axis` with `best_edge` (always set together),
/repo/src/container_kdtree.rs:83-85 -/
structure Best (α : Type) where
  cost : α
  split : Option (Axis × Nat)

/-- The cost of splitting at `t`, /repo/src/container_kdtree.rs:126-133 -/
def splitCost (box : BBox3 α) (axis : Axis) (t : α) (nBelow nAbove : Nat) : α :=
  let d := box.diagonal
  let totSa := box.surfaceArea
  let (axis1, axis2) := axis.others
  let belowSa := lit 2 *. (d.get axis1 *. d.get axis2 +. (d.get axis1 +. d.get axis2) *. (t -. box.min.get axis))
  let aboveSa := lit 2 *. (d.get axis1 *. d.get axis2 +. (d.get axis1 +. d.get axis2) *. (box.max.get axis -. t))
  let (pBelow, pAbove) := (belowSa /. totSa, aboveSa /. totSa)
  let emptyBonus := if nBelow == 0 || nAbove == 0 then EMPTY_BONUS else lit 0
  TRAV_COST +. ISECT_COST *. (lit 1 -. emptyBonus) *. (pBelow *. ofInt nBelow +. pAbove *. ofInt nAbove)

/-- The loop of /repo/src/container_kdtree.rs:117-144 from index `i` on. -/
def scan (box : BBox3 α) (axis : Axis) : List (BEdge α) → (i nBelow nAbove : Nat) → Best α → Best α
  | [], _, _, _, best => best
  | e :: es, i, nBelow, nAbove, best =>
    let nAbove := if e.kind = .stop then nAbove - 1 else nAbove
    let best :=
      if (box.min.get axis <. e.t) && (e.t <. box.max.get axis) then
        let cost := splitCost box axis e.t nBelow nAbove
        if cost <. best.cost then ⟨cost, some (axis, i)⟩ else best
      else best
    let nBelow := if e.kind = .start then nBelow + 1 else nBelow
    scan box axis es (i + 1) nBelow nAbove best

/-- The loop of /repo/src/container_kdtree.rs:94-151; the first argument counts the remaining rounds. -/
def tryAxes (box : BBox3 α) (shapes : List (Obj α)) : Nat → Axis → Best α → Best α
  | 0, _, best => best
  | k + 1, axis, best =>
    let best := scan box axis (sortedEdges axis shapes) 0 0 shapes.length best
    if best.split.isNone then tryAxes box shapes k axis.next best else best

/-- `shapes_below`, /repo/src/container_kdtree.rs:173-177 -/
def below (es : List (BEdge α)) (best : Nat) : List (Obj α) :=
  ((es.take best).filter fun e => e.kind = .start).map (·.shape)
/-- `shapes_above`, /repo/src/container_kdtree.rs:178-182 -/
def above (es : List (BEdge α)) (best : Nat) : List (Obj α) :=
  ((es.drop (best + 1)).filter fun e => e.kind = .stop).map (·.shape)

/-- `v[axis] = a`, /repo/src/vector_macro.rs:251-261 -/
def setAxis (v : V3 α) : Axis → α → V3 α
  | .X, a => { v with x := a }
  | .Y, a => { v with y := a }
  | .Z, a => { v with z := a }

/-- /repo/src/container_kdtree.rs:46-198; the result is `self.nodes` afterwards. -/
def build : (depth : Nat) → (nodes : List (Node α)) → (shapes : List (Obj α)) → (box : BBox3 α) → (bad : Nat) →
    Option (List (Node α))
  | 0, nodes, shapes, _, _ => some (nodes ++ [Node.newLeaf shapes])
  | depth + 1, nodes, shapes, box, bad =>
    if shapes.length ≤ MAX_SHAPES_IN_NODE then some (nodes ++ [Node.newLeaf shapes])
    else
      box.maxExtent.bind fun axis =>
        let oldCost := ISECT_COST *. ofInt shapes.length
        let best := tryAxes box shapes 3 axis ⟨FLOAT_MAX, none⟩
        let bad := if best.cost >. oldCost then bad + 1 else bad
        match best.split with
        | none => some (nodes ++ [Node.newLeaf shapes])
        | some (axis, edge) =>
          if ((best.cost >. lit 4 *. oldCost) && decide (shapes.length < MAX_SHAPES_IN_NODE * 2)) || bad == 3 then
            some (nodes ++ [Node.newLeaf shapes])
          else
            let es := sortedEdges axis shapes
            es[edge]?.bind fun e =>
              let t := e.t
              let i := nodes.length
              (build depth (nodes ++ [.empty]) (below es edge) { box with max := setAxis box.max axis t } bad).bind fun nodes =>
                build depth (nodes.set i (.split axis t nodes.length)) (above es edge)
                  { box with min := setAxis box.min axis t } bad

end KdTree

/-- /repo/src/container_kdtree.rs:18-21 -/
structure KdTree (α : Type) where
  bbox : BBox3 α
  nodes : List (Node α)

/-- Outcome of running a loop with a step budget: a result, a panic, or the budget used up. -/
inductive Run (β : Type) where
  | value (b : β)
  | panic
  | more

namespace KdTree

/-- The default depth, /repo/src/container_kdtree.rs:39 -/
def defaultDepth [Libm α] (n : Nat) : Nat :=
  toU32 (Scalar.round (lit 8 +. lit (13 / 10) *. (Libm.ln (ofInt n : α) /. Libm.ln (lit 2))))

/-- /repo/src/container_kdtree.rs:32-44; `none` is a panic (no shapes, or NaN extents). -/
def new [Libm α] (shapes : List (Obj α)) (maxDepth : Option Nat) : Option (KdTree α) :=
  (bboxOfShapes shapes).bind fun bbox =>
    (build (maxDepth.getD (defaultDepth (α := α) shapes.length)) [] shapes bbox 0).map fun nodes => ⟨bbox, nodes⟩

/-- /repo/src/container_kdtree.rs:207-218, 287-298 -/
structure Todo (α : Type) where
  node : Nat
  tMin : α
  tMax : α

/-- One descent through a split node, /repo/src/container_kdtree.rs:236-254 and 319-337 (the same text):
next node, new `t_max`, new stack (`Vec::push` is `::`). `t_min` does not change. -/
def descend (ray : Ray α) (axis : Axis) (t : α) (above i : Nat) (tMin tMax : α) (todos : List (Todo α)) :
    Nat × α × List (Todo α) :=
  let tSplit := (t -. ray.origin.get axis) /. ray.direction.get axis
  let (child1, child2) :=
    if (ray.origin.get axis <. t) || ((ray.origin.get axis ==. t) && (ray.direction.get axis <=. lit 0)) then
      (i + 1, above)
    else (above, i + 1)
  if (tSplit >. tMax) || (tSplit <=. lit 0) then (child1, tMax, todos)
  else if tSplit <. tMin then (child2, tMax, todos)
  else (child1, tSplit, ⟨child2, tSplit, tMax⟩ :: todos)

/-- The shapes tested at a leaf node, /repo/src/container_kdtree.rs:256-271, 339-356. -/
def leafShapes : Node α → List (Obj α)
  | .split _ _ _ => []
  | .empty => []
  | .shape s => [s]
  | .shapes ss => ss

/-- /repo/src/container_kdtree.rs:230-283 -/
def loopP (nodes : List (Node α)) (ray : Ray α) : (fuel : Nat) → (i : Nat) → (tMin tMax : α) → List (Todo α) → Run Bool
  | 0, _, _, _, _ => .more
  | fuel + 1, i, tMin, tMax, todos =>
    if ray.tMax <. tMin then .value false
    else
      match nodes[i]? with
      | none => .panic
      | some (.split axis t above) =>
        let d := descend ray axis t above i tMin tMax todos
        loopP nodes ray fuel d.1 tMin d.2.1 d.2.2
      | some leaf =>
        match anyHit ray (leafShapes leaf) with
        | none => .panic
        | some true => .value true
        | some false =>
          match todos with
          | [] => .value false
          | td :: todos => loopP nodes ray fuel td.node td.tMin td.tMax todos

/-- /repo/src/container_kdtree.rs:313-368 -/
def loop (nodes : List (Node α)) : (fuel : Nat) → Ray α → Option (Hit α) → (i : Nat) → (tMin tMax : α) → List (Todo α) →
    Run (Option (Hit α))
  | 0, _, _, _, _, _, _ => .more
  | fuel + 1, ray, h, i, tMin, tMax, todos =>
    if ray.tMax <. tMin then .value h
    else
      match nodes[i]? with
      | none => .panic
      | some (.split axis t above) =>
        let d := descend ray axis t above i tMin tMax todos
        loop nodes fuel ray h d.1 tMin d.2.1 d.2.2
      | some leaf =>
        match closestHit (leafShapes leaf) ray h with
        | none => .panic
        | some (ray, h) =>
          match todos with
          | [] => .value h
          | td :: todos => loop nodes fuel ray h td.node td.tMin td.tMax todos

/-- /repo/src/container_kdtree.rs:206-284 with a step budget. -/
def runP (tree : KdTree α) (ray : Ray α) (fuel : Nat) : Run Bool :=
  (tree.bbox.intersect ray).elim (.value false) fun t => loopP tree.nodes ray fuel 0 t.1 t.2 []

/-- /repo/src/container_kdtree.rs:286-369 with a step budget. -/
def run (tree : KdTree α) (ray : Ray α) (fuel : Nat) : Run (Option (Hit α)) :=
  (tree.bbox.intersect ray).elim (.value none) fun t => loop tree.nodes fuel ray none 0 t.1 t.2 []

/-- A run as a function result; `none` is a panic (or the budget used up, excluded by
`c31_traversal_terminates`). -/
def Run.toOption {β} : Run β → Option β
  | .value b => some b
  | _ => none

/-- /repo/src/container_kdtree.rs:206-284 -/
def intersectP (tree : KdTree α) (ray : Ray α) : Option Bool := Run.toOption (tree.runP ray tree.nodes.length)
/-- /repo/src/container_kdtree.rs:286-369 -/
def intersect (tree : KdTree α) (ray : Ray α) : Option (Option (Hit α)) := Run.toOption (tree.run ray tree.nodes.length)
/-- /repo/src/container_kdtree.rs:201-370 -/
def toContainer (tree : KdTree α) : Container α := ⟨tree.bbox, tree.intersectP, tree.intersect⟩

end KdTree
end PT
