import Verif.Props.Transport

/-!
# Scenes of triangles built through the builder, in either container (C67, C78)
-/

namespace PT

namespace Spec
/-- A call of the scene builder for a scene of triangles: a distant light, a triangle, or an area light on a triangle, with the
library's materials and without negative light. -/
inductive TriangleCall [HasInf ℝ] : BuilderCall ℝ → Prop
  | distant (addr e w) : NonNeg e → w ≠ V3.zero → TriangleCall (.light addr fun box => ((DistantLight.new e w).preProcess box).toLight)
  | triangle (addr) (t : Triangle ℝ) : LibraryMaterial t.material → LibraryTriangle t → TriangleCall (.shape addr t.toShape)
  | area (addr e) (t : Triangle ℝ) : NonNeg e → LibraryMaterial t.material → LibraryTriangle t → TriangleCall (.area addr ⟨e, t.toShape⟩)
end Spec
open Spec

section
variable {α : Type} [Scalar α] [Libm α]

/-- What a container reports is what one of its shapes reports, for a ray with the same origin and direction. -/
def HitsFrom (ss : List (Obj α)) (ray : Ray α) (h : Hit α) : Prop :=
  h.obj ∈ ss ∧ ∃ tm t, Reports h.obj.shape { ray with tMax := tm } h.i t

omit [Libm α] in
theorem closestHit_reports (ray : Ray α) (h : Hit α) : ∀ (ss : List (Obj α)) (r r' : Ray α) (h0 : Option (Hit α)),
    r.origin = ray.origin → r.direction = ray.direction → closestHit ss r h0 = some (r', some h) → h0 = some h ∨ HitsFrom ss ray h := by
  intro ss
  induction ss with
  | nil =>
    intro r r' h0 _ _ e
    simp only [closestHit, Option.some.injEq, Prod.mk.injEq] at e
    exact Or.inl e.2
  | cons s ss ih =>
    intro r r' h0 ho hd e
    simp only [closestHit, Obj.intersect] at e
    cases hs : s.shape.intersect r with
    | none => rw [hs] at e; cases e
    | some x =>
      rw [hs] at e
      cases x with
      | none =>
        rcases ih r r' h0 ho hd e with h1 | h1
        · exact Or.inl h1
        · exact Or.inr ⟨by simp [h1.1], h1.2⟩
      | some x =>
        rcases ih { r with tMax := x.2 } r' (some ⟨x.1, s⟩) ho hd e with h1 | h1
        · right
          simp only [Option.some.injEq] at h1
          subst h1
          refine ⟨by simp, r.tMax, x.2, ?_⟩
          unfold Reports
          rw [← ho, ← hd]; exact hs
        · exact Or.inr ⟨by simp [h1.1], h1.2⟩

omit [Libm α] in
theorem closestHit_same (ss : List (Obj α)) : ∀ (r r' : Ray α) (h0 h : Option (Hit α)), closestHit ss r h0 = some (r', h) →
    r'.origin = r.origin ∧ r'.direction = r.direction := by
  induction ss with
  | nil =>
    intro r r' h0 h e
    simp only [closestHit, Option.some.injEq, Prod.mk.injEq] at e
    rw [e.1]; exact ⟨rfl, rfl⟩
  | cons s ss ih =>
    intro r r' h0 h e
    simp only [closestHit, Obj.intersect] at e
    cases hs : s.shape.intersect r with
    | none => rw [hs] at e; cases e
    | some x =>
      rw [hs] at e
      cases x with
      | none => exact ih r r' h0 h e
      | some x => exact ih { r with tMax := x.2 } r' (some ⟨x.1, s⟩) h e

omit [Libm α] in
theorem loop_reports (ray0 : Ray α) (h : Hit α) (ss : List (Obj α)) (nodes : List (Node α)) (hsub : ∀ n ∈ nodes, ∀ s ∈ KdTree.leafShapes n, s ∈ ss) :
    ∀ (fuel : Nat) (ray : Ray α) (h0 : Option (Hit α)) (i : Nat) (tMin tMax : α) (todos : List (KdTree.Todo α)),
    ray.origin = ray0.origin → ray.direction = ray0.direction →
    KdTree.loop nodes fuel ray h0 i tMin tMax todos = .value (some h) → h0 = some h ∨ HitsFrom ss ray0 h := by
  intro fuel
  induction fuel with
  | zero => intro ray h0 i tMin tMax todos _ _ e; cases e
  | succ fuel ih =>
    intro ray h0 i tMin tMax todos ho hd
    have leaf : ∀ nd ∈ nodes, (match closestHit (KdTree.leafShapes nd) ray h0 with
        | none => .panic
        | some (ray, h) => match todos with
          | [] => .value h
          | td :: todos => KdTree.loop nodes fuel ray h td.node td.tMin td.tMax todos) = Run.value (some h) →
        h0 = some h ∨ HitsFrom ss ray0 h := by
      intro nd hmem e'
      cases hc : closestHit (KdTree.leafShapes nd) ray h0 with
      | none => rw [hc] at e'; cases e'
      | some x =>
        obtain ⟨r1, h1⟩ := x
        rw [hc] at e'
        obtain ⟨so, sd⟩ := closestHit_same _ _ _ _ _ hc
        have hh : h1 = some h ∨ HitsFrom ss ray0 h := by
          cases todos with
          | nil => simp only [Run.value.injEq] at e'; exact Or.inl e'
          | cons td todos => exact ih _ _ _ _ _ _ (so.trans ho) (sd.trans hd) e'
        rcases hh with rfl | hh
        · rcases closestHit_reports ray0 h _ _ _ _ ho hd hc with h2 | h2
          · exact Or.inl h2
          · exact Or.inr ⟨hsub _ hmem _ h2.1, h2.2⟩
        · exact Or.inr hh
    intro e
    unfold KdTree.loop at e
    split_ifs at e
    · simp only [Run.value.injEq] at e; exact Or.inl e
    · cases hn : nodes[i]? with
      | none => rw [hn] at e; cases e
      | some nd =>
        rw [hn] at e
        have hmem : nd ∈ nodes := List.mem_of_getElem? hn
        cases nd with
        | split a t k => exact ih _ _ _ _ _ _ ho hd e
        | empty => exact leaf _ hmem e
        | shape s => exact leaf _ hmem e
        | shapes ss => exact leaf _ hmem e

/-- A hit reported by a container of the library is one that one of the shapes given to it reports. -/
theorem container_reports {mk : List (Obj α) → Option (Container α)} (hmk : LibraryContainer mk) {ss : List (Obj α)} {c : Container α}
    (hc : mk ss = some c) (ray : Ray α) (h : Hit α) (hh : c.intersect ray = some (some h)) : HitsFrom ss ray h := by
  cases hmk with
  | simple =>
    obtain ⟨s, hs, rfl⟩ := Option.map_eq_some_iff.1 hc
    obtain ⟨b, hb, rfl⟩ := Option.map_eq_some_iff.1 hs
    exact simple_hit_from _ ray h hh
  | kdTree depth =>
    obtain ⟨t, ht, rfl⟩ := Option.map_eq_some_iff.1 hc
    obtain ⟨-, T, hT, hB⟩ := KdTree.new_layout ht
    change KdTree.Run.toOption (t.run ray t.nodes.length) = _ at hh
    have hv : t.run ray t.nodes.length = .value (some h) := by
      cases hr : t.run ray t.nodes.length with
      | value b => rw [hr] at hh; simp only [KdTree.Run.toOption, Option.some.injEq] at hh; rw [hh]
      | panic => rw [hr] at hh; cases hh
      | more => rw [hr] at hh; cases hh
    unfold KdTree.run at hv
    cases hb : t.bbox.intersect ray with
    | none => rw [hb] at hv; cases hv
    | some tt =>
      rw [hb] at hv
      have hsub : ∀ n ∈ t.nodes, ∀ s ∈ KdTree.leafShapes n, s ∈ ss := by
        intro n hn s h1
        obtain ⟨k, hk, e⟩ := List.mem_iff_getElem.1 hn
        exact hB.stored_subset _ (KdTree.Layout.leaf_mem hT k (Nat.zero_le _) hk n (by rw [List.getElem?_eq_getElem hk, e]) _ h1)
      rcases loop_reports ray h ss t.nodes hsub _ _ _ _ _ _ _ rfl rfl hv with h1 | h1
      · cases h1
      · exact h1
end

section
variable [HasInf ℝ]

theorem triangle_call_library {c : BuilderCall ℝ} (h : TriangleCall c) : LibraryCall (β := ℝ) c := by
  cases h
  · exact .distant _ _ _
  · exact .triangle _ _ ‹_›
  · exact .area _ _ _ ‹_›

theorem triangle_calls_shapes : ∀ (hist : List (BuilderCall ℝ)), (∀ c ∈ hist, TriangleCall c) → ∀ s ∈ sceneShapes hist,
    ∃ t : Triangle ℝ, LibraryTriangle t ∧ (s.shape = t.toShape ∨ ∃ l, NonNeg l ∧ s.shape = (AreaLight.mk l t.toShape).toShape) := by
  intro hist
  induction hist with
  | nil => intro _ s h; simp [sceneShapes, addedShapes, addedAreas, asShapes] at h
  | cons c hist ih =>
    intro hlib s h
    have hc := hlib c (by simp)
    have ht := ih (fun c hc => hlib c (by simp [hc])) s
    simp only [sceneShapes, List.mem_append] at ht
    cases hc with
    | distant addr e w => simp only [sceneShapes, List.mem_append] at h; exact ht h
    | triangle addr t hm hT =>
      simp only [sceneShapes, addedShapes, addedAreas, List.mem_append, List.mem_cons] at h
      rcases h with (rfl | h) | h
      · exact ⟨t, hT, Or.inl rfl⟩
      · exact ht (Or.inl h)
      · exact ht (Or.inr h)
    | area addr e t he hm hT =>
      simp only [sceneShapes, addedShapes, addedAreas, asShapes, List.map_cons, List.mem_append, List.mem_cons] at h
      rcases h with h | rfl | h
      · exact ht (Or.inl h)
      · exact ⟨t, hT, Or.inr ⟨e, he, rfl⟩⟩
      · exact ht (Or.inr h)

theorem triangle_calls_lights (box : BBox3 ℝ) : ∀ (hist : List (BuilderCall ℝ)), (∀ c ∈ hist, TriangleCall c) →
    ∀ l ∈ addedLights box hist ++ asLights (addedAreas hist), (∃ e w box, NonNeg e ∧ w ≠ V3.zero ∧ l.light = distant e w box) ∨
      ∃ (e : Spectrum ℝ) (t : Triangle ℝ), NonNeg e ∧ l.light = (AreaLight.mk e t.toShape).toLight := by
  intro hist
  induction hist with
  | nil => intro _ s h; simp [addedLights, addedAreas, asLights] at h
  | cons c hist ih =>
    intro hlib l h
    have hc := hlib c (by simp)
    have ht := ih (fun c hc => hlib c (by simp [hc])) l
    simp only [List.mem_append] at ht
    cases hc with
    | distant addr e w he hw =>
      simp only [addedLights, addedAreas, List.mem_append, List.mem_cons] at h
      rcases h with (rfl | h) | h
      · exact Or.inl ⟨e, w, box, he, hw, rfl⟩
      · exact ht (Or.inl h)
      · exact ht (Or.inr h)
    | triangle addr t hm hT => simp only [List.mem_append] at h; exact ht h
    | area addr e t he hm hT =>
      simp only [addedLights, addedAreas, asLights, List.map_cons, List.mem_append, List.mem_cons] at h
      rcases h with h | rfl | h
      · exact ht (Or.inl h)
      · exact Or.inr ⟨e, t, he, rfl⟩
      · exact ht (Or.inr h)

theorem triangle_world (hinf : (0 : ℝ) ≤ HasInf.infinity) (hist : List (BuilderCall ℝ)) (hlib : ∀ c ∈ hist, TriangleCall c)
    {mk : List (Obj ℝ) → Option (Container ℝ)} (hmk : LibraryContainer mk) {scene : Scene ℝ} (hsc : (built hist).construct mk = some scene) :
    SceneContract (fun x : ℝ => 0 ≤ x) UnitVec Canonical scene ∧ SceneAnswers scene Canonical (fun _ => False) := by
  constructor
  · obtain ⟨box, -, h, -⟩ := c65_construct hist mk
    obtain ⟨hl, hc⟩ := h scene hsc
    refine triangles_contract hinf scene (sceneShapes hist) (fun ray h hh => container_reports hmk hc ray h hh) (triangle_calls_shapes hist hlib) ?_
    rw [hl]
    exact triangle_calls_lights box hist hlib
  · have hlib' := fun c hc => triangle_call_library (hlib c hc)
    exact library_scene_answers (fun b wo u hb h1 _ => bsdf_real_never_panics b wo u h1.1 h1.2 hb) hist hlib'
      (library_shapes_answer (fun d _ h => by obtain ⟨m, hm, -⟩ := maxAbsAxis_real d; rw [hm] at h; cases h) hist hlib') hmk hsc

variable [HasNext ℝ]

/-- C67 for every scene of triangles with the library's materials and lights, made by any history of builder calls, in a simple
container or a k-d tree of any depth, seen through a camera that casts unit directions: with sample values in `[0,1)` every channel
of the radiance is non-negative. -/
theorem c67_triangle_world (hinf : (0 : ℝ) ≤ HasInf.infinity) (hist : List (BuilderCall ℝ)) (hlib : ∀ c ∈ hist, TriangleCall c)
    {mk : List (Obj ℝ) → Option (Container ℝ)} (hmk : LibraryContainer mk) {scene : Scene ℝ} (hsc : (built hist).construct mk = some scene)
    (camera : PerspectiveCamera ℝ) (pFilm : V2 ℝ) (hd : UnitVec (camera.generateRay pFilm).direction)
    {σ : Type} (ops : SamplerOps ℝ σ) (hops : Delivers Canonical ops) (s s' : σ) (l : Spectrum ℝ)
    (h : (cameraRadiance scene camera pFilm).run ops s = some (l, s')) : NonNeg l :=
  c67_radiance c67_real_rule.1 c67_real_rule.2 (triangle_world hinf hist hlib hmk hsc).1 camera pFilm hd ops hops s s' l h

/-- C78 for every such scene: the mean radiance of a camera sample is the light that comes in along the camera ray. -/
theorem c78_triangle_world (hinf : (0 : ℝ) ≤ HasInf.infinity) (hist : List (BuilderCall ℝ)) (hlib : ∀ c ∈ hist, TriangleCall c)
    {mk : List (Obj ℝ) → Option (Container ℝ)} (hmk : LibraryContainer mk) {scene : Scene ℝ} (hsc : (built hist).construct mk = some scene)
    (hn : hist.length ≤ 2 ^ 64)
    (camera : PerspectiveCamera ℝ) (pFilm : V2 ℝ) (hd : UnitVec (camera.generateRay pFilm).direction) (c : Chan) :
    mean (fun s => ENNReal.ofReal (c.of s)) (cameraRadiance scene camera pFilm) = incoming scene c 65 true (camera.generateRay pFilm) := by
  obtain ⟨h1, h2⟩ := triangle_world hinf hist hlib hmk hsc
  refine c78_expected_radiance h2 h1 (le_trans ?_ hn) camera pFilm hd c
  obtain ⟨box, -, h, -⟩ := c65_construct hist mk
  rw [(h scene hsc).1]
  clear h h1 h2 hsc hn hlib
  induction hist with
  | nil => simp [addedLights, addedAreas, asLights]
  | cons c hist ih =>
    simp only [asLights, List.length_append, List.length_map] at ih
    cases c <;> simp only [addedLights, addedAreas, asLights, List.length_append, List.length_map, List.length_cons] <;> omega

/-- Such a scene: a distant light, a rough plastic triangle with vertex normals and an emitting diffuse one, in either container. -/
example : ∃ hist : List (BuilderCall ℝ), hist.length = 3 ∧ (∀ c ∈ hist, TriangleCall c) ∧
    (∃ scene, (built hist).construct (fun ss => (Simple.new ss).map Simple.toContainer) = some scene) ∧
    ∀ d, ∃ scene, (built hist).construct (fun ss => (KdTree.new ss d).map KdTree.toContainer) = some scene := by
  have h1 : LibraryTriangle (⟨⟨0, 0, 0⟩, ⟨1, 0, 0⟩, ⟨0, 1, 0⟩, some (⟨0, 0, 1⟩, ⟨1, 0, 1⟩, ⟨0, 1, 1⟩), false,
      plasticMaterial (fun _ => ⟨1, 0, 0⟩) (fun _ => ⟨0, 1, 0⟩) (fun _ => 1 / 10)⟩ : Triangle ℝ) := by
    refine ⟨fun i => .plastic (fun _ => ⟨1, 0, 0⟩) (fun _ => ⟨0, 1, 0⟩) (fun _ => 1 / 10) (by norm_num), ?_⟩
    rintro n0 n1 n2 hn b0 b1 b2 ⟨w0, w1, w2, w3⟩ e
    simp only [Option.some.injEq, Prod.mk.injEq] at hn
    obtain ⟨rfl, rfl, rfl⟩ := hn
    have := congrArg V3.z e
    simp only [mix, V3.zero, r_lit] at this
    norm_num at this
    linarith
  have h2 : LibraryTriangle (⟨⟨0, 0, 5⟩, ⟨1, 0, 5⟩, ⟨0, 1, 5⟩, none, true, lambertianMaterial fun _ => ⟨1 / 2, 1 / 2, 1 / 2⟩⟩ : Triangle ℝ) :=
    ⟨fun i => .lambertian _, fun n0 n1 n2 hn => by cases hn⟩
  refine ⟨[.light 0 fun box => ((DistantLight.new ⟨1, 1, 1⟩ ⟨0, 0, 1⟩).preProcess box).toLight,
    .shape 1 (Triangle.mk ⟨0, 0, 0⟩ ⟨1, 0, 0⟩ ⟨0, 1, 0⟩ (some (⟨0, 0, 1⟩, ⟨1, 0, 1⟩, ⟨0, 1, 1⟩)) false
      (plasticMaterial (fun _ => ⟨1, 0, 0⟩) (fun _ => ⟨0, 1, 0⟩) (fun _ => 1 / 10))).toShape,
    .area 2 ⟨⟨3, 2, 1⟩, (Triangle.mk ⟨0, 0, 5⟩ ⟨1, 0, 5⟩ ⟨0, 1, 5⟩ none true (lambertianMaterial fun _ => ⟨1 / 2, 1 / 2, 1 / 2⟩)).toShape⟩],
    rfl, ?_, ⟨_, rfl⟩, fun d => ?_⟩
  · intro c hc
    simp only [List.mem_cons, List.not_mem_nil, or_false] at hc
    rcases hc with rfl | rfl | rfl
    · refine .distant _ _ _ (by norm_num [NonNeg]) fun e => ?_
      have := congrArg V3.z e
      simp [V3.zero, r_lit] at this
    · exact .triangle _ _ (.plastic _ _ _) h1
    · exact .area _ _ _ (by norm_num [NonNeg]) (.lambertian _) h2
  · generalize hhist : ([_, _, _] : List (BuilderCall ℝ)) = hist
    cases hc : (built hist).construct fun ss => (KdTree.new ss d).map KdTree.toContainer with
    | some scene => exact ⟨scene, rfl⟩
    | none =>
      obtain ⟨box, -, -, h⟩ := c65_construct hist fun ss => (KdTree.new ss d).map KdTree.toContainer
      have h := h.1 hc
      subst hhist
      simp only [sceneShapes, addedShapes, addedAreas, asShapes, List.map_cons, List.map_nil, List.cons_append, List.nil_append,
        Option.map_eq_none_iff, KdTree.new, bboxOfShapes, Option.bind_some] at h
      cases hD : d.getD (KdTree.defaultDepth (α := ℝ) [_, _].length) with
      | zero => rw [hD] at h; cases h
      | succ k => rw [hD] at h; cases h
end
end PT
