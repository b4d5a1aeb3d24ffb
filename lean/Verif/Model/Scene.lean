import Verif.Model.Light

/-!
# /repo/src/scene.rs

The `Arc`s made by the builder are identified by the addresses of their contents; each `add` call makes a new one, so
`Arc::get_mut(..).unwrap()` (lines 75, 79) never panics.
-/

namespace PT
variable {α : Type} [Scalar α] [Libm α]

/-- /repo/src/scene.rs:11-14 -/
structure Scene (α : Type) where
  lights : List (LightObj α)
  shapes : Container α

namespace Scene
/-- /repo/src/scene.rs:28-30 -/
def intersectP (s : Scene α) (ray : Ray α) : Option Bool := s.shapes.intersectP ray
/-- /repo/src/scene.rs:32-34 -/
def intersect (s : Scene α) (ray : Ray α) : Option (Option (Hit α)) := s.shapes.intersect ray
end Scene

/-- /repo/src/scene.rs:37-41.  A light that has been added but not pre-processed is the function from the scene box to
the light it becomes. -/
structure Builder (α : Type) where
  lights : List (Nat × (BBox3 α → Light α))
  shapes : List (Obj α)
  areaLights : List (Nat × AreaLight α)

namespace Builder
/-- /repo/src/scene.rs:44-50 -/
def new : Builder α := ⟨[], [], []⟩
/-- /repo/src/scene.rs:52-54; `addr` is where the allocator puts it. -/
def addLight (b : Builder α) (addr : Nat) (l : BBox3 α → Light α) : Builder α := { b with lights := b.lights ++ [(addr, l)] }
/-- /repo/src/scene.rs:56-58 -/
def addShape (b : Builder α) (addr : Nat) (s : Shape α) : Builder α := { b with shapes := b.shapes ++ [⟨addr, s⟩] }
/-- /repo/src/scene.rs:60-62 -/
def addAreaLight (b : Builder α) (addr : Nat) (a : AreaLight α) : Builder α := { b with areaLights := b.areaLights ++ [(addr, a)] }

/-- The box computed at /repo/src/scene.rs:65-68; `none` is a panic. -/
def sceneBBox (b : Builder α) : Option (BBox3 α) := do
  let bbox ← if b.shapes.isEmpty then some (BBox3.new V3.zero V3.zero) else bboxOfShapes b.shapes
  pure (b.areaLights.foldl (fun x a => x.union a.2.toShape.bbox) bbox)

/-- /repo/src/scene.rs:64-91; `container` may panic. -/
def construct (b : Builder α) (container : List (Obj α) → Option (Container α)) : Option (Scene α) := do
  let bbox ← b.sceneBBox
  let lights : List (LightObj α) := b.lights.map fun l => ⟨l.1, l.2 bbox⟩
  let (lights, shapes) := b.areaLights.foldl (fun (acc : List (LightObj α) × List (Obj α)) a =>
    (acc.1 ++ [⟨a.1, a.2.toLight⟩], acc.2 ++ [⟨a.1, a.2.toShape⟩])) (lights, b.shapes)
  let c ← container shapes
  pure ⟨lights, c⟩
end Builder

end PT
