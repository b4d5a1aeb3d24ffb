import Verif.Props.KdClosest
import Verif.Props.KdSah

/-!
# The k-d tree theorems on concrete scenes
-/

namespace PT
open Fl Spec KdTree Demo

namespace Demo
/-- Some math library. -/
@[reducible] def libm : Libm XQ :=
  ⟨fun x => x, fun x => x, fun x => x, fun x => x, fun x => x, fun x _ => x, fun x => x, fun x => x, fun x => x, fun x _ => x, lit 3⟩

theorem plates_boxes (n : Nat) : FiniteBoxes (plates n) := by
  intro s hs a
  simp only [plates, List.mem_map] at hs
  obtain ⟨k, _, rfl⟩ := hs
  refine ⟨by cases a <;> trivial, by cases a <;> trivial, ?_⟩
  rw [le_val (by cases a <;> trivial) (by cases a <;> trivial)]
  cases a <;> simp [plate, Shape.withDefaults, V3.get, val, sgn]

theorem plates_lawful (n : Nat) (o d : V3 XQ) : ∀ s ∈ plates n, LawfulAlong s.shape o d ∧ AgreesAlong s.shape o d := by
  intro s hs
  simp only [plates, List.mem_map] at hs
  obtain ⟨k, _, rfl⟩ := hs
  exact ⟨plate_lawful k _ _, plate_agrees k _ _⟩

theorem plates_hits (n : Nat) : ∀ s ∈ plates n, HitsInBox s.shape up.origin up.direction := by
  intro s hs tm i t hr
  simp only [plates, List.mem_map] at hs
  obtain ⟨k, _, rfl⟩ := hs
  obtain ⟨_, _, rfl⟩ := (plate_reports _ _ _ _).1 hr
  refine ⟨trivial, ?_, ?_⟩
  · simp [val, sgn]; positivity
  · intro a
    cases a <;> simp [plate, Shape.withDefaults, up, V3.get, val, sgn] <;> norm_num

theorem plates_face (n : Nat) : ¬ InFacePlane (plates n) up.origin up.direction := by
  rintro ⟨s, hs, a, hd, ho⟩
  simp only [plates, List.mem_map] at hs
  obtain ⟨k, _, rfl⟩ := hs
  cases a <;> simp [plate, Shape.withDefaults, up, V3.get, val, sgn] at hd ho <;> norm_num at ho
end Demo

attribute [local instance] Demo.libm

/-- 20 plates: the hypotheses of C28–C32 hold, the built tree has several levels, and the ray finds the nearest plate. -/
example : ∃ tree, KdTree.new (plates 20) (some 5) = some tree ∧ FiniteBoxes (plates 20) ∧ GoodBoxes (plates 20) ∧ FinRay up ∧ up.tMax ≠ nan ∧
    (∀ s ∈ plates 20, LawfulAlong s.shape up.origin up.direction ∧ AgreesAlong s.shape up.origin up.direction) ∧
    (∀ s ∈ plates 20, HitsInBox s.shape up.origin up.direction) ∧ ¬ InFacePlane (plates 20) up.origin up.direction ∧
    tree.nodes.length = 9 ∧ (tree.intersect up).map (fun r => r.map fun h => h.obj.addr) = some (some 0) := by
  have hs : (KdTree.new (plates 20) (some 5)).isSome = true := by decide +kernel
  have hv : (KdTree.new (plates 20) (some 5)).map (fun tree => (tree.nodes.length, (tree.intersect up).map (fun r => r.map fun h => h.obj.addr)))
      = some (9, some (some 0)) := by decide +kernel
  obtain ⟨tree, ht⟩ := Option.isSome_iff_exists.1 hs
  rw [ht] at hv
  simp only [Option.map_some, Option.some.injEq, Prod.mk.injEq] at hv
  refine ⟨tree, ht, plates_boxes _, fun s hs a => (plates_boxes _ s hs a).2.2, ?_, by simp [up], plates_lawful _ _ _, plates_hits _,
    plates_face _, hv.1, hv.2⟩
  intro a; cases a <;> exact ⟨trivial, trivial⟩

namespace Demo
/-- A unit cube that rays are taken to hit at parameter 1. -/
def cube : Shape XQ :=
  Shape.withDefaults ⟨⟨.fin false 0, .fin false 0, .fin false 0⟩, ⟨.fin false 1, .fin false 1, .fin false 1⟩⟩ (.fin false 6)
    (fun ray => some (lt (.fin false 1) ray.tMax))
    (fun ray => some (if lt (.fin false 1) ray.tMax then some (Interaction.default, .fin false 1) else none))
    (fun i => ⟨[], i.n, i.n, i.dpdu, i.dpdv⟩) (fun _ => none)
/-- A ray in the plane of the lower x face of the cube that enters it at parameter 1; its x direction is `-0.0`. -/
def graze : Ray XQ := ⟨⟨.fin false 0, .fin true 1, .fin false (1/2)⟩, ⟨.fin true 0, .fin false 1, .fin false 0⟩, .inf false⟩

theorem cube_reports (ray : Ray XQ) (i : Interaction XQ) (t : XQ) :
    Reports cube ray i t ↔ lt t ray.tMax = true ∧ i = Interaction.default ∧ t = .fin false 1 := by
  unfold Reports cube Shape.withDefaults
  dsimp only
  constructor
  · intro h
    split_ifs at h with hc
    swap
    · simp at h
    simp only [Option.some.injEq, Prod.mk.injEq] at h
    obtain ⟨rfl, rfl⟩ := h
    exact ⟨hc, rfl, rfl⟩
  · rintro ⟨h, rfl, rfl⟩
    rw [if_pos h]
end Demo

/-- C29 is false without the restriction: one lawful cube, a ray with finite components that enters it, and both the tree
and the list of shapes answer that nothing is hit. -/
theorem c29_refuted : ∃ (ss : List (Obj XQ)) (tree : KdTree XQ) (c : Simple XQ) (ray : Ray XQ), KdTree.new ss (some 5) = some tree ∧
    Simple.new ss = some c ∧ FiniteBoxes ss ∧ FinRay ray ∧ ray.tMax ≠ nan ∧
    (∀ s ∈ ss, LawfulAlong s.shape ray.origin ray.direction ∧ HitsInBox s.shape ray.origin ray.direction) ∧
    ¬ NoHit ss ray ∧ (tree.intersect ray).map Option.isSome = some false ∧ (c.intersect ray).map Option.isSome = some false := by
  refine ⟨[⟨0, cube⟩], ⟨cube.bbox, [.shape ⟨0, cube⟩]⟩, ⟨[⟨0, cube⟩], cube.bbox⟩, graze, rfl, rfl, ?_, ?_, by simp [graze], ?_, ?_,
    by decide +kernel, by decide +kernel⟩
  · intro s hs a
    rw [List.mem_singleton] at hs
    subst hs
    refine ⟨by cases a <;> trivial, by cases a <;> trivial, ?_⟩
    rw [le_val (by cases a <;> trivial) (by cases a <;> trivial)]
    cases a <;> simp [cube, Shape.withDefaults, V3.get, val, sgn]
  · intro a; cases a <;> exact ⟨trivial, trivial⟩
  · intro s hs
    rw [List.mem_singleton] at hs
    subst hs
    refine ⟨⟨by intro tm; simp [cube, Shape.withDefaults], ?_, ?_, ?_⟩, ?_⟩
    · intro tm i t _ h; exact le_of_lt' ((cube_reports _ _ _).1 h).1
    · intro tm tm' i t h _ h'
      obtain ⟨_, a, b⟩ := (cube_reports _ _ _).1 h
      exact (cube_reports _ _ _).2 ⟨h', a, b⟩
    · intro tm tm' i t h h'
      obtain ⟨c, a, b⟩ := (cube_reports _ _ _).1 h
      exact (cube_reports _ _ _).2 ⟨lt_of_lt_of_le' c h', a, b⟩
    · intro tm i t h
      obtain ⟨c, a, rfl⟩ := (cube_reports _ _ _).1 h
      refine ⟨trivial, by simp [val, sgn], ?_⟩
      intro a
      cases a <;> simp [cube, Shape.withDefaults, graze, V3.get, val, sgn] <;> norm_num
  · intro h
    exact h ⟨0, cube⟩ (by simp) Interaction.default (.fin false 1) ((cube_reports _ _ _).2 ⟨rfl, rfl, rfl⟩)

end PT
