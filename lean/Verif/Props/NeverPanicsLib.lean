import Verif.Props.NeverPanics
import Verif.Props.RadianceLib
import Verif.Props.Select
import Verif.Props.Lights
import Verif.Props.FilmF32
import Verif.Model.NextFloat

/-!
# What can make rendering panic: scenes made of the library's shapes, materials and lights (C76)
-/

namespace PT

namespace Spec
/-- The materials of the library, with any textures. -/
inductive LibraryMaterial {α : Type} [Scalar α] [Libm α] [HasInf α] : Material α → Prop
  | lambertian (kd) : LibraryMaterial (lambertianMaterial kd)
  | mirror (kr) : LibraryMaterial (mirrorMaterial kr)
  | metal (r eta k ru rv) : LibraryMaterial (metalMaterial r eta k ru rv)
  | glass (kr kt eta ru rv) : LibraryMaterial (glassMaterial kr kt eta ru rv)
  | plastic (kd ks rough) : LibraryMaterial (plasticMaterial kd ks rough)

/-- A call of the scene builder with objects of the library: a distant light, a sphere, a triangle, or an area light on a triangle. -/
inductive LibraryCall {α β : Type} [Scalar α] [Libm α] [HasInf α] [Scalar β] [Libm β] [Widen α β] : BuilderCall α → Prop
  | distant (addr e w) : LibraryCall (.light addr fun box => ((DistantLight.new e w).preProcess box).toLight)
  | sphere (addr) (s : Sphere α) : LibraryMaterial s.material → LibraryCall (.shape addr s.toShape)
  | triangle (addr) (t : Triangle α) : LibraryMaterial t.material → LibraryCall (.shape addr t.toShape)
  | area (addr e) (t : Triangle α) : LibraryMaterial t.material → LibraryCall (.area addr ⟨e, t.toShape⟩)

/-- The same without triangles. -/
inductive SphereCall {α β : Type} [Scalar α] [Libm α] [HasInf α] [Scalar β] [Libm β] [Widen α β] : BuilderCall α → Prop
  | distant (addr e w) : SphereCall (.light addr fun box => ((DistantLight.new e w).preProcess box).toLight)
  | sphere (addr) (s : Sphere α) : LibraryMaterial s.material → SphereCall (.shape addr s.toShape)

/-- Construction of a container: the simple one, or a k-d tree with any depth limit. -/
inductive LibraryContainer {α : Type} [Scalar α] [Libm α] : (List (Obj α) → Option (Container α)) → Prop
  | simple : LibraryContainer fun ss => (Simple.new ss).map Simple.toContainer
  | kdTree (depth) : LibraryContainer fun ss => (KdTree.new ss depth).map KdTree.toContainer

/-- A direction whose `y` coordinate, and only it, is NaN, with `|z| ≤ |x|`. -/
def LostY {φ K : Type} [Field K] [LinearOrder K] (d : V3 (Fl φ K)) : Prop :=
  d.y = Fl.nan ∧ d.x ≠ Fl.nan ∧ d.z ≠ Fl.nan ∧ Fl.le (Fl.abs d.z) (Fl.abs d.x) = true
end Spec
open Spec

/-! ### When triangles panic -/

section
variable {φ K : Type} [Field K] [LinearOrder K] [IsStrictOrderedRing K] [FloorRing K] [Rounding φ K]

theorem maxAbsAxis_none_iff (d : V3 (Fl φ K)) : d.maxAbsAxis = none ↔ LostY d := by
  have hx : Fl.abs d.x = Fl.nan ↔ d.x = Fl.nan := by cases d.x <;> simp [Fl.abs]
  have hy : Fl.abs d.y = Fl.nan ↔ d.y = Fl.nan := by cases d.y <;> simp [Fl.abs]
  have hz : Fl.abs d.z = Fl.nan ↔ d.z = Fl.nan := by cases d.z <;> simp [Fl.abs]
  unfold V3.maxAbsAxis V3.abs LostY
  simp only [Fl.f_le, Fl.f_abs, ne_eq, ← hx, ← hy, ← hz]
  generalize Fl.abs d.x = x
  generalize Fl.abs d.y = y
  generalize Fl.abs d.z = z
  by_cases ny : y = Fl.nan
  · subst ny
    rw [Fl.le_nan_left, Fl.le_nan_right]
    cases h2 : Fl.le z x with
    | false => simp
    | true =>
      simp only [true_and, ne_eq, and_true, true_iff]
      constructor <;> rintro rfl
      · rw [Fl.le_nan_right] at h2; cases h2
      · rw [Fl.le_nan_left] at h2; cases h2
  · simp only [ny, false_and, iff_false]
    intro h
    cases h1 : Fl.le y x <;> cases h2 : Fl.le z x <;> cases h3 : Fl.le z y <;> rw [h1, h2, h3] at h <;> simp at h
    · have nx : x ≠ Fl.nan := by rintro rfl; rw [Fl.le_nan_right] at h2; cases h2
      exact absurd (Fl.le_trans' h2 (Fl.le_of_lt' ((Fl.not_le' ny nx).1 h1))) (by rw [h3]; simp)
    · exact absurd (Fl.le_trans' h3 h1) (by rw [h2]; simp)

/-- C76: a query of a triangle panics exactly for the directions that have lost their `y` coordinate. -/
theorem c76_triangle_panics_iff [Libm (Fl φ K)] (t : Triangle (Fl φ K)) (ray : Ray (Fl φ K)) :
    (t.toShape.intersect ray = none ↔ LostY ray.direction) ∧ (t.toShape.intersectP ray = none ↔ LostY ray.direction) := by
  have h1 : t.toShape.intersect ray = _ := Triangle.intersect_eq t ray.origin ray.direction ray.tMax
  have h2 : t.toShape.intersectP ray = _ := Triangle.intersectP_eq t ray.origin ray.direction ray.tMax
  rw [h1, h2]
  simp only [Option.map_eq_none_iff, maxAbsAxis_none_iff, and_self]
end

/-! ### Scenes that answer -/

section
variable {α β : Type} [Scalar α] [Libm α] [HasInf α] [HasNext α] [Scalar β] [Libm β] [Widen α β]

omit [HasNext α] in
theorem library_two {m : Material α} (h : LibraryMaterial m) (i : Interaction α) : (m i).bxdfs.length ≤ 2 := by
  cases h
  · unfold lambertianMaterial; dsimp only; split_ifs <;> simp [BSDF.new, BSDF.add]
  · unfold mirrorMaterial; dsimp only; split_ifs <;> simp [BSDF.new, BSDF.add]
  · unfold metalMaterial; dsimp only; split_ifs <;> simp [BSDF.new, BSDF.add]
  · unfold glassMaterial; dsimp only; split_ifs <;> simp [BSDF.new, BSDF.add]
  · unfold plasticMaterial; dsimp only; split_ifs <;> simp [BSDF.new, BSDF.add]

omit [Libm α] [HasInf α] [HasNext α] in
theorem closestHit_from : ∀ (ss : List (Obj α)) (r r' : Ray α) (h0 : Option (Hit α)) (h : Hit α),
    closestHit ss r h0 = some (r', some h) → h0 = some h ∨ h.obj ∈ ss := by
  intro ss
  induction ss with
  | nil =>
    intro r r' h0 h e
    simp only [closestHit, Option.some.injEq, Prod.mk.injEq] at e
    exact Or.inl e.2
  | cons s ss ih =>
    intro r r' h0 h e
    simp only [closestHit, Obj.intersect] at e
    cases hs : s.shape.intersect r with
    | none => rw [hs] at e; cases e
    | some x =>
      rw [hs] at e
      cases x with
      | none => rcases ih r r' h0 h e with h1 | h1 <;> simp [h1]
      | some x =>
        rcases ih { r with tMax := x.2 } r' (some ⟨x.1, s⟩) h e with h1 | h1
        · right
          simp only [Option.some.injEq] at h1
          subst h1; simp
        · simp [h1]

omit [Libm α] [HasInf α] [HasNext α] in
theorem loop_from (nodes : List (Node α)) : ∀ (fuel : Nat) (ray : Ray α) (h0 : Option (Hit α)) (i : Nat) (tMin tMax : α) (todos : List (KdTree.Todo α)) (h : Hit α),
    KdTree.loop nodes fuel ray h0 i tMin tMax todos = .value (some h) → h0 = some h ∨ ∃ n ∈ nodes, h.obj ∈ KdTree.leafShapes n := by
  intro fuel
  induction fuel with
  | zero => intro ray h0 i tMin tMax todos h e; cases e
  | succ fuel ih =>
    intro ray h0 i tMin tMax todos h
    have leaf : ∀ nd ∈ nodes, (match closestHit (KdTree.leafShapes nd) ray h0 with
        | none => .panic
        | some (ray, h) => match todos with
          | [] => .value h
          | td :: todos => KdTree.loop nodes fuel ray h td.node td.tMin td.tMax todos) = Run.value (some h) →
        h0 = some h ∨ ∃ n ∈ nodes, h.obj ∈ KdTree.leafShapes n := by
      intro nd hmem e'
      cases hc : closestHit (KdTree.leafShapes nd) ray h0 with
      | none => rw [hc] at e'; cases e'
      | some x =>
        obtain ⟨r1, h1⟩ := x
        rw [hc] at e'
        have hh : h1 = some h ∨ ∃ n ∈ nodes, h.obj ∈ KdTree.leafShapes n := by
          cases todos with
          | nil => simp only [Run.value.injEq] at e'; exact Or.inl e'
          | cons td todos => exact ih _ _ _ _ _ _ _ e'
        rcases hh with rfl | hh
        · rcases closestHit_from _ _ _ _ _ hc with h2 | h2
          · exact Or.inl h2
          · exact Or.inr ⟨nd, hmem, h2⟩
        · exact Or.inr hh
    intro e
    unfold KdTree.loop at e
    split_ifs at e
    · simp only [Run.value.injEq] at e; exact Or.inl e
    · cases hn : nodes[i]? with
      | none => rw [hn] at e; cases e
      | some nd =>
        rw [hn] at e
        have hmem : nd ∈ nodes := List.mem_of_getElem? hn
        cases nd with
        | split a t k => exact ih _ _ _ _ _ _ _ e
        | empty => exact leaf _ hmem e
        | shape s => exact leaf _ hmem e
        | shapes ss => exact leaf _ hmem e

omit [HasInf α] [HasNext α] in
/-- The object of a hit is one of the objects given to the container. -/
theorem container_hit_from {mk : List (Obj α) → Option (Container α)} (hmk : LibraryContainer mk) {ss : List (Obj α)} {c : Container α}
    (hc : mk ss = some c) (ray : Ray α) (h : Hit α) (hh : c.intersect ray = some (some h)) : h.obj ∈ ss := by
  cases hmk with
  | simple =>
    obtain ⟨s, hs, rfl⟩ := Option.map_eq_some_iff.1 hc
    obtain ⟨b, hb, rfl⟩ := Option.map_eq_some_iff.1 hs
    exact (simple_hit_from _ ray h hh).1
  | kdTree depth =>
    obtain ⟨t, ht, rfl⟩ := Option.map_eq_some_iff.1 hc
    obtain ⟨-, T, hT, hB⟩ := KdTree.new_layout ht
    change KdTree.Run.toOption (t.run ray t.nodes.length) = _ at hh
    have hv : t.run ray t.nodes.length = .value (some h) := by
      cases hr : t.run ray t.nodes.length with
      | value b => rw [hr] at hh; simp only [KdTree.Run.toOption, Option.some.injEq] at hh; rw [hh]
      | panic => rw [hr] at hh; cases hh
      | more => rw [hr] at hh; cases hh
    unfold KdTree.run at hv
    cases hb : t.bbox.intersect ray with
    | none => rw [hb] at hv; cases hv
    | some tt =>
      rw [hb] at hv
      rcases loop_from _ _ _ _ _ _ _ _ h hv with h1 | ⟨n, hn, h1⟩
      · cases h1
      · obtain ⟨k, hk, e⟩ := List.mem_iff_getElem.1 hn
        exact hB.stored_subset _ (KdTree.Layout.leaf_mem hT k (Nat.zero_le _) hk n (by rw [List.getElem?_eq_getElem hk, e]) _ h1)

omit [HasInf α] [HasNext α] in
/-- A container answers if all its shapes do. -/
theorem container_answers {mk : List (Obj α) → Option (Container α)} (hmk : LibraryContainer mk) {ss : List (Obj α)} {c : Container α}
    (hc : mk ss = some c) (ray : Ray α)
    (ha : ∀ s ∈ ss, ∀ r : Ray α, r.direction = ray.direction → s.shape.intersect r ≠ none ∧ s.shape.intersectP r ≠ none) :
    c.intersect ray ≠ none ∧ c.intersectP ray ≠ none := by
  have h1 : ∀ s ∈ ss, KdTree.Answers ray.origin ray.direction s := fun s hs tm => (ha s hs ⟨ray.origin, ray.direction, tm⟩ rfl).1
  have h2 : ∀ s ∈ ss, KdTree.AnswersP ray.origin ray.direction s := fun s hs tm => (ha s hs ⟨ray.origin, ray.direction, tm⟩ rfl).2
  cases hmk with
  | simple =>
    obtain ⟨s, hs, rfl⟩ := Option.map_eq_some_iff.1 hc
    obtain ⟨b, hb, rfl⟩ := Option.map_eq_some_iff.1 hs
    constructor
    · change Simple.intersect _ ray ≠ none
      unfold Simple.intersect
      split_ifs
      · simp
      · obtain ⟨tm, h', e⟩ := KdTree.closestHit_some (ray := ray) (h := none) h1
        rw [e]; simp
    · change Simple.intersectP _ ray ≠ none
      unfold Simple.intersectP
      split_ifs
      · simp
      · exact KdTree.anyHit_some h2
  | kdTree depth =>
    obtain ⟨t, ht, rfl⟩ := Option.map_eq_some_iff.1 hc
    obtain ⟨hp, hi⟩ := KdTree.c31_traversal_terminates ss depth t ht ray
    obtain ⟨b, hb, -⟩ := hp h2
    obtain ⟨r, hr, -⟩ := hi h1
    constructor
    · change t.intersect ray ≠ none; rw [hr]; simp
    · change t.intersectP ray ≠ none; rw [hb]; simp

omit [HasNext α] in
theorem library_shape_cases : ∀ (hist : List (BuilderCall α)), (∀ c ∈ hist, LibraryCall c) → ∀ s ∈ sceneShapes hist,
    LibraryMaterial s.shape.material ∧ ((∃ sp : Sphere α, s.shape = sp.toShape) ∨
      ∃ t : Triangle α, s.shape.intersect = t.intersect ∧ s.shape.intersectP = t.intersectP) := by
  intro hist
  induction hist with
  | nil => intro _ s h; simp [sceneShapes, addedShapes, addedAreas, asShapes] at h
  | cons c hist ih =>
    intro hlib s h
    have hc := hlib c (by simp)
    have ht := ih (fun c hc => hlib c (by simp [hc])) s
    simp only [sceneShapes, List.mem_append] at ht
    cases hc with
    | distant addr e w => simp only [sceneShapes, List.mem_append] at h; exact ht h
    | sphere addr sp hm =>
      simp only [sceneShapes, addedShapes, addedAreas, List.mem_append, List.mem_cons] at h
      rcases h with (rfl | h) | h
      · exact ⟨hm, Or.inl ⟨sp, rfl⟩⟩
      · exact ht (Or.inl h)
      · exact ht (Or.inr h)
    | triangle addr t hm =>
      simp only [sceneShapes, addedShapes, addedAreas, List.mem_append, List.mem_cons] at h
      rcases h with (rfl | h) | h
      · exact ⟨hm, Or.inr ⟨t, rfl, rfl⟩⟩
      · exact ht (Or.inl h)
      · exact ht (Or.inr h)
    | area addr e t hm =>
      simp only [sceneShapes, addedShapes, addedAreas, asShapes, List.map_cons, List.mem_append, List.mem_cons] at h
      rcases h with h | rfl | h
      · exact ht (Or.inl h)
      · exact ⟨hm, Or.inr ⟨t, rfl, rfl⟩⟩
      · exact ht (Or.inr h)

omit [HasNext α] in
/-- A scene built of library objects answers, if its shapes do. -/
theorem library_scene_answers {U : α → Prop} {Bad : V3 α → Prop}
    (hsel : ∀ (b : BSDF α) wo (u : V2 α), b.bxdfs.length ≤ 2 → U u.x → U u.y → b.sampleF wo u ≠ none)
    (hist : List (BuilderCall α)) (hlib : ∀ c ∈ hist, LibraryCall c)
    (hans : ∀ s ∈ sceneShapes hist, ∀ r : Ray α, ¬ Bad r.direction → s.shape.intersect r ≠ none ∧ s.shape.intersectP r ≠ none)
    {mk : List (Obj α) → Option (Container α)} (hmk : LibraryContainer mk) {scene : Scene α} (hsc : (built hist).construct mk = some scene) :
    SceneAnswers scene U Bad := by
  obtain ⟨box, -, h, -⟩ := c65_construct hist mk
  obtain ⟨hl, hc⟩ := h scene hsc
  have hmat : ∀ s ∈ sceneShapes hist, LibraryMaterial s.shape.material := by
    exact fun s hs => (library_shape_cases hist hlib s hs).1
  refine ⟨?_, ?_, ?_, ?_⟩
  · intro ray hb
    exact (container_answers hmk hc ray fun s hs r hr => hans s hs r (by rw [hr]; exact hb)).1
  · intro ray hb
    exact (container_answers hmk hc ray fun s hs r hr => hans s hs r (by rw [hr]; exact hb)).2
  · intro ray h wo u hh h1 h2
    exact hsel _ wo u (library_two (hmat _ (container_hit_from hmk hc ray h hh)) _) h1 h2
  · intro l hl' i u
    rw [hl] at hl'
    rcases List.mem_append.1 hl' with hs | hs
    · have key : ∀ hist : List (BuilderCall α), (∀ c ∈ hist, LibraryCall c) → l ∈ addedLights box hist → l.light.sampleLi i u ≠ none := by
        intro hist
        induction hist with
        | nil => intro _ h; simp [addedLights] at h
        | cons c hist ih =>
          intro hlib h
          have hc := hlib c (by simp)
          have ht := fun h => ih (fun c hc => hlib c (by simp [hc])) h
          cases hc with
          | distant addr e w =>
            simp only [addedLights, List.mem_cons] at h
            rcases h with rfl | h
            · simp [DistantLight.toLight]
            · exact ht h
          | sphere addr sp hm => exact ht h
          | triangle addr t hm => exact ht h
          | area addr e t hm => exact ht h
      exact key hist hlib hs
    · have key : ∀ hist : List (BuilderCall α), (∀ c ∈ hist, LibraryCall c) → l ∈ asLights (addedAreas hist) → l.light.sampleLi i u ≠ none := by
        intro hist
        induction hist with
        | nil => intro _ h; simp [addedAreas, asLights] at h
        | cons c hist ih =>
          intro hlib h
          have hc := hlib c (by simp)
          have ht := fun h => ih (fun c hc => hlib c (by simp [hc])) h
          cases hc with
          | distant addr e w => exact ht h
          | sphere addr sp hm => exact ht h
          | triangle addr t hm => exact ht h
          | area addr e t hm =>
            simp only [addedAreas, asLights, List.map_cons, List.mem_cons] at h
            rcases h with rfl | h
            · simp [AreaLight.toLight, AreaLight.sampleLi, Triangle.toShape, Shape.withDefaults]
            · exact ht h
      exact key hist hlib hs

omit [HasNext α] in
/-- The shapes of a library scene answer unless a triangle cannot tell the largest coordinate. -/
theorem library_shapes_answer {Bad : V3 α → Prop} (hax : ∀ d : V3 α, ¬ Bad d → d.maxAbsAxis ≠ none)
    (hist : List (BuilderCall α)) (hlib : ∀ c ∈ hist, LibraryCall c) :
    ∀ s ∈ sceneShapes hist, ∀ r : Ray α, ¬ Bad r.direction → s.shape.intersect r ≠ none ∧ s.shape.intersectP r ≠ none := by
  have htri : ∀ (t : Triangle α) (r : Ray α), ¬ Bad r.direction → t.intersect r ≠ none ∧ t.intersectP r ≠ none := by
    intro t r hb
    have e1 : t.intersect r = _ := Triangle.intersect_eq t r.origin r.direction r.tMax
    have e2 : t.intersectP r = _ := Triangle.intersectP_eq t r.origin r.direction r.tMax
    rw [e1, e2]
    simp only [ne_eq, Option.map_eq_none_iff]
    exact ⟨hax _ hb, hax _ hb⟩
  intro s hs r hb
  rcases (library_shape_cases hist hlib s hs).2 with ⟨sp, e⟩ | ⟨t, e1, e2⟩
  · rw [e]; simp [Sphere.toShape, Shape.withDefaults]
  · rw [e1, e2]; exact htri t r hb

end

theorem asks_false {α β : Type} [Scalar α] {scene : Scene α} {U : α → Prop} {p : Prog α β} : ¬ Asks scene U (fun _ => False) p := by
  induction p with
  | ret => exact id
  | panic => exact id
  | get1 k ih => rintro ⟨x, -, h⟩; exact ih _ h
  | get2 k ih => rintro ⟨x, -, -, h⟩; exact ih _ h
  | hit w r k ih => rintro (h | ⟨x, -, h⟩); exacts [h, ih _ h]
  | occluded r k ih => rintro (h | ⟨x, -, h⟩); exacts [h, ih _ h]
  | scatter h k ih => exact ih _

/-! ### Single precision -/

namespace Spec
/-- A sample value: a number of the format, at least 0 and less than 1. -/
def Sample32 (x : F32) : Prop := x.WF ∧ Fl.le (lit 0) x = true ∧ Fl.lt x (lit 1) = true
end Spec

theorem sample32_radicalInverse (base a : Nat) : Sample32 (radicalInverse base a) := by
  obtain ⟨hf, h0, h1, hw⟩ := radicalInverse_range base a
  generalize (radicalInverse base a : F32) = x at hf h0 h1 hw
  have e0 : (lit 0 : F32) = .fin false 0 := by decide +kernel
  have e1 : (lit 1 : F32) = .fin false 1 := by decide +kernel
  cases x with
  | nan => cases hf
  | inf s => cases hf
  | fin s q =>
    refine ⟨hw, ?_, ?_⟩
    · rw [e0]; simpa [Fl.le, Fl.val, Fl.sgn] using h0
    · rw [e1]; simp only [Fl.lt, Fl.val, Fl.sgn] at h1 ⊢
      have : (1 : ℚ) - 1 / 2 ^ 23 < 1 := by norm_num
      simpa using lt_of_le_of_lt h1 this

section
variable [Libm F32] [Libm F64]

theorem library_scene_f32 (hist : List (BuilderCall F32)) (hlib : ∀ c ∈ hist, LibraryCall c)
    {mk : List (Obj F32) → Option (Container F32)} (hmk : LibraryContainer mk) {scene : Scene F32} (hsc : (built hist).construct mk = some scene) :
    SceneAnswers scene Sample32 LostY :=
  library_scene_answers
    (fun b wo u hb h1 _ h => by
      have := c61_bsdf_never_panics b (hb.trans (by norm_num)) wo u h1.1 h1.2.1 h1.2.2
      rw [h] at this; cases this)
    hist hlib (library_shapes_answer (fun d hd h => hd ((maxAbsAxis_none_iff d).1 h)) hist hlib) hmk hsc

/-- C76: computing the radiance of a camera sample in a scene of the library's shapes, materials and lights panics only if it
traces a ray whose direction has lost its `y` coordinate, whatever the sample values in `[0, 1)` are. -/
theorem c76_library_radiance (hist : List (BuilderCall F32)) (hlib : ∀ c ∈ hist, LibraryCall c)
    {mk : List (Obj F32) → Option (Container F32)} (hmk : LibraryContainer mk) {scene : Scene F32} (hsc : (built hist).construct mk = some scene)
    (camera : PerspectiveCamera F32) (pFilm : V2 F32) (h : CanPanicIn Sample32 (cameraRadiance scene camera pFilm)) :
    Asks scene Sample32 LostY (li scene.lights (camera.generateRay pFilm)) :=
  c76_radiance (library_scene_f32 hist hlib hmk hsc) camera pFilm h

/-- C76: the whole render, single precision, Halton sampler: no thread panics and the render can be completed, unless some path of
some pixel traces a ray whose direction has lost its `y` coordinate. -/
theorem c76_library_f32 (hist : List (BuilderCall F32)) (hlib : ∀ c ∈ hist, LibraryCall c)
    {mk : List (Obj F32) → Option (Container F32)} (hmk : LibraryContainer mk) {scene : Scene F32} (hsc : (built hist).construct mk = some scene)
    (camera : PerspectiveCamera F32) (res : V2 Int) (filt : Filter F32) (hR : FilmRange32 res filt.radius)
    (sampler : HaltonSampler) (hspp : sampler.samplesPerPixel < 2 ^ 32)
    (hq : ∀ b ∈ (Film.new res filt).iter.toList, ∀ p ∈ b.iter.toList, ∀ u : V2 F32, Sample32 u.x → Sample32 u.y →
      ¬ Asks scene Sample32 LostY (li scene.lights (camera.generateRay ((V2.ofI p).add u))))
    (n : Nat) (file : Option (List UInt8)) :
    let work := renderTile HaltonSampler.ops (cameraRadiance scene camera) (Film.new res filt)
    (∀ k st, RReach work sampler (RState.init (Film.new res filt) n file) k st → .panicked ∉ st.threads) ∧
    ∃ k st, RReach work sampler (RState.init (Film.new res filt) n file) k st ∧ st.main = .done :=
  c76_render (halton_serves sample32_radicalInverse _ hspp) (library_scene_f32 hist hlib hmk hsc) camera res filt hq
    (mul_nonneg hR.x0.le hR.y0.le) hR.area (tilesFit_f32 res filt hR) sampler rfl n file

/-- C76: the same with the random sampler, for any generator of values in `[0, 1)`. -/
theorem c76_library_f32_random (hist : List (BuilderCall F32)) (hlib : ∀ c ∈ hist, LibraryCall c)
    {mk : List (Obj F32) → Option (Container F32)} (hmk : LibraryContainer mk) {scene : Scene F32} (hsc : (built hist).construct mk = some scene)
    (camera : PerspectiveCamera F32) (res : V2 Int) (filt : Filter F32) (hR : FilmRange32 res filt.radius)
    {ρ : Type} (next : ρ → F32 × ρ) (hnext : ∀ r, Sample32 (next r).1)
    (sampler : RandomSampler ρ) (hspp : sampler.samplesPerPixel < 2 ^ 32)
    (hq : ∀ b ∈ (Film.new res filt).iter.toList, ∀ p ∈ b.iter.toList, ∀ u : V2 F32, Sample32 u.x → Sample32 u.y →
      ¬ Asks scene Sample32 LostY (li scene.lights (camera.generateRay ((V2.ofI p).add u))))
    (n : Nat) (file : Option (List UInt8)) :
    let work := renderTile (RandomSampler.ops next) (cameraRadiance scene camera) (Film.new res filt)
    (∀ k st, RReach work sampler (RState.init (Film.new res filt) n file) k st → .panicked ∉ st.threads) ∧
    ∃ k st, RReach work sampler (RState.init (Film.new res filt) n file) k st ∧ st.main = .done :=
  c76_render (random_serves next hnext _ hspp) (library_scene_f32 hist hlib hmk hsc) camera res filt hq
    (mul_nonneg hR.x0.le hR.y0.le) hR.area (tilesFit_f32 res filt hR) sampler rfl n file

/-- C76: without triangles, whatever the numbers in the scene and the camera are, NaN and infinity among them. -/
theorem c76_spheres_f32 (hist : List (BuilderCall F32)) (hlib : ∀ c ∈ hist, SphereCall c)
    {mk : List (Obj F32) → Option (Container F32)} (hmk : LibraryContainer mk) {scene : Scene F32} (hsc : (built hist).construct mk = some scene)
    (camera : PerspectiveCamera F32) (res : V2 Int) (filt : Filter F32) (hR : FilmRange32 res filt.radius)
    (sampler : HaltonSampler) (hspp : sampler.samplesPerPixel < 2 ^ 32) (n : Nat) (file : Option (List UInt8)) :
    let work := renderTile HaltonSampler.ops (cameraRadiance scene camera) (Film.new res filt)
    (∀ k st, RReach work sampler (RState.init (Film.new res filt) n file) k st → .panicked ∉ st.threads) ∧
    ∃ k st, RReach work sampler (RState.init (Film.new res filt) n file) k st ∧ st.main = .done := by
  have hlib' : ∀ c ∈ hist, LibraryCall c := fun c hc => by
    cases hlib c hc with
    | distant addr e w => exact .distant addr e w
    | sphere addr s hm => exact .sphere addr s hm
  have hans : ∀ s ∈ sceneShapes hist, ∀ r : Ray F32, ¬ False → s.shape.intersect r ≠ none ∧ s.shape.intersectP r ≠ none := by
    intro s hs r _
    have key : ∃ sp : Sphere F32, s.shape = sp.toShape := by
      clear hsc hlib'
      induction hist with
      | nil => simp [sceneShapes, addedShapes, addedAreas, asShapes] at hs
      | cons c hist ih =>
        have ht := ih (fun c hc => hlib c (by simp [hc]))
        cases hlib c (by simp) with
        | distant addr e w => exact ht hs
        | sphere addr sp hm =>
          simp only [sceneShapes, addedShapes, addedAreas, List.mem_append, List.mem_cons] at hs ht
          rcases hs with (rfl | h) | h
          · exact ⟨sp, rfl⟩
          · exact ht (Or.inl h)
          · exact ht (Or.inr h)
    obtain ⟨sp, e⟩ := key
    rw [e]; simp [Sphere.toShape, Shape.withDefaults]
  have hs : SceneAnswers scene Sample32 (fun _ => False) :=
    library_scene_answers
      (fun b wo u hb h1 _ h => by
        have := c61_bsdf_never_panics b (hb.trans (by norm_num)) wo u h1.1 h1.2.1 h1.2.2
        rw [h] at this; cases this)
      hist hlib' hans hmk hsc
  exact c76_render (halton_serves sample32_radicalInverse _ hspp) hs camera res filt
    (fun b _ p _ u _ _ h => asks_false h)
    (mul_nonneg hR.x0.le hR.y0.le) hR.area (tilesFit_f32 res filt hR) sampler rfl n file
end

/-- A triangle, a sphere, a distant light and an area light, in either container: the hypotheses of `c76_library_f32` that do not
mention rays hold. -/
example [Libm F32] [Libm F64] (kd : Interaction F32 → Spectrum F32) (r : Interaction F32 → F32) :
    let hist : List (BuilderCall F32) :=
      [.shape 1 (Triangle.mk ⟨lit 0, lit 0, lit 0⟩ ⟨lit 1, lit 0, lit 0⟩ ⟨lit 0, lit 1, lit 0⟩ none false (lambertianMaterial kd)).toShape,
       .shape 2 (Sphere.mk ⟨lit 0, lit 0, lit 3⟩ (lit 1) (plasticMaterial kd kd r)).toShape,
       .light 3 (fun box => ((DistantLight.new ⟨lit 1, lit 1, lit 1⟩ ⟨lit 0, lit 0, lit 1⟩).preProcess box).toLight),
       .area 4 ⟨⟨lit 5, lit 5, lit 5⟩, (Triangle.mk ⟨lit 0, lit 0, lit 9⟩ ⟨lit 1, lit 0, lit 9⟩ ⟨lit 0, lit 1, lit 9⟩ none true (mirrorMaterial kd)).toShape⟩]
    (∀ c ∈ hist, LibraryCall c) ∧ ∃ scene, (built hist).construct (fun ss => (Simple.new ss).map Simple.toContainer) = some scene := by
  intro hist
  constructor
  · intro c hc
    simp only [hist, List.mem_cons, List.not_mem_nil, or_false] at hc
    rcases hc with rfl | rfl | rfl | rfl
    · exact .triangle _ _ (.lambertian _)
    · exact .sphere _ _ (.plastic _ _ _)
    · exact .distant _ _ _
    · exact .area _ _ _ (.mirror _)
  · cases h : (built hist).construct (fun ss => (Simple.new ss).map Simple.toContainer) with
    | none => exact absurd ((c65_panics_simple hist).1 h).1 (by simp [hist, addedShapes])
    | some s => exact ⟨s, rfl⟩

/-- The hypothesis about rays: in a scene with a black triangle and no light, only camera rays are traced, so it is enough that
their directions have not lost their `y` coordinate. -/
example [Libm F32] [Libm F64] (t : Triangle F32) (hk : t.material = lambertianMaterial fun _ => ⟨lit 0, lit 0, lit 0⟩) (scene : Scene F32)
    (hsc : (built [.shape 1 t.toShape]).construct (fun ss => (Simple.new ss).map Simple.toContainer) = some scene)
    (camera : PerspectiveCamera F32) (pFilm : V2 F32) (hc : ¬ LostY (camera.generateRay pFilm).direction) :
    ¬ Asks scene Sample32 LostY (li scene.lights (camera.generateRay pFilm)) := by
  obtain ⟨box, -, h, -⟩ := c65_construct [.shape 1 t.toShape] (fun ss => (Simple.new ss).map Simple.toContainer)
  obtain ⟨hl, hcont⟩ := h scene hsc
  have hl : scene.lights = [] := hl
  have hm : ∀ h : Hit F32, scene.intersect (camera.generateRay pFilm) = some (some h) → (h.obj.shape.material h.i).bxdfs = [] := by
    intro h hh
    have hmem := container_hit_from .simple hcont _ h hh
    simp only [sceneShapes, addedShapes, addedAreas, asShapes, List.map_nil, List.append_nil, List.mem_singleton] at hmem
    rw [hmem]
    change (t.material h.i).bxdfs = []
    rw [hk]
    unfold lambertianMaterial
    have hb : (clampedTex (fun _ => (Spectrum.mk (lit 0) (lit 0) (lit 0) : Spectrum F32)) h.i).isBlack = true := by
      unfold clampedTex; dsimp only; decide +kernel
    simp [BSDF.new, hb]
  unfold li
  unfold liLoop
  simp only [Bind.bind, Prog.bind, Asks, not_or, not_exists, not_and]
  refine ⟨hc, fun x hx => ?_⟩
  cases x with
  | none => exact id
  | some h =>
    dsimp only
    rw [dif_neg (by decide)]
    have hz : ((lit 0 : F32) ==. lit 0) = true := by decide +kernel
    simp [Asks, hl, uniformSampleOneLight, Bind.bind, Pure.pure, Prog.bind, BSDF.sampleF, hm h hx, Prog.ofOption, BSDF.noSample, hz]

/-! ### Exact arithmetic -/

section
variable [HasInf ℝ] [HasNext ℝ]

omit [HasInf ℝ] [HasNext ℝ] in
theorem bsdf_real_never_panics (b : BSDF ℝ) (wo : V3 ℝ) (u : V2 ℝ) (h0 : 0 ≤ u.x) (h1 : u.x < 1) (hlen : b.bxdfs.length ≤ 2) : b.sampleF wo u ≠ none := by
  simp only [BSDF.sampleF]
  by_cases hn : b.bxdfs.length = 0
  · rw [if_pos hn]; simp
  · rw [if_neg hn]
    have hk : toUsize (Scalar.floor (u.x *. ofInt (b.bxdfs.length : Int))) < b.bxdfs.length := by
      have hp : (0 : ℝ) < b.bxdfs.length := by exact_mod_cast Nat.pos_of_ne_zero hn
      have hf0 : 0 ≤ ⌊u.x * (b.bxdfs.length : ℝ)⌋ := Int.floor_nonneg.2 (mul_nonneg h0 hp.le)
      have hf1 : ⌊u.x * (b.bxdfs.length : ℝ)⌋ < b.bxdfs.length := by
        rw [Int.floor_lt]; push_cast; nlinarith
      unfold toUsize
      rw [r_toInt]
      real_ops
      rw [truncInt_intCast]
      unfold satInt
      push_cast
      split_ifs <;> omega
    rw [List.getElem?_eq_getElem hk]
    simp only []
    split_ifs <;> simp

omit [HasInf ℝ] [HasNext ℝ] in
theorem radicalInverse_real_unit (base a : Nat) : 0 ≤ (radicalInverse base a : ℝ) ∧ (radicalInverse base a : ℝ) < 1 := by
  have e1 : (oneMinusEpsilon : ℝ) = 1 - 1 / 2 ^ 23 := by
    unfold oneMinusEpsilon epsilon; real_ops; norm_num
  unfold radicalInverse
  rw [e1]
  real_ops
  constructor
  · exact le_min (by norm_num) (by positivity)
  · exact lt_of_le_of_lt (min_le_left _ _) (by norm_num)

/-- C76, exact arithmetic: rendering a scene of the library's shapes, materials and lights never panics. -/
theorem c76_library_real (hist : List (BuilderCall ℝ)) (hlib : ∀ c ∈ hist, LibraryCall c)
    {mk : List (Obj ℝ) → Option (Container ℝ)} (hmk : LibraryContainer mk) {scene : Scene ℝ} (hsc : (built hist).construct mk = some scene)
    (camera : PerspectiveCamera ℝ) (res : V2 Int) (filt : Filter ℝ) (hR : FilmRange res filt.radius)
    (sampler : HaltonSampler) (hspp : sampler.samplesPerPixel < 2 ^ 32) (n : Nat) (file : Option (List UInt8)) :
    let work := renderTile HaltonSampler.ops (cameraRadiance scene camera) (Film.new res filt)
    (∀ k st, RReach work sampler (RState.init (Film.new res filt) n file) k st → .panicked ∉ st.threads) ∧
    ∃ k st, RReach work sampler (RState.init (Film.new res filt) n file) k st ∧ st.main = .done := by
  have hs : SceneAnswers scene (fun x : ℝ => 0 ≤ x ∧ x < 1) (fun _ => False) :=
    library_scene_answers (fun b wo u hb h1 _ => bsdf_real_never_panics b wo u h1.1 h1.2 hb) hist hlib
      (library_shapes_answer (fun d _ h => by obtain ⟨m, hm, -⟩ := maxAbsAxis_real d; rw [hm] at h; cases h) hist hlib) hmk hsc
  exact c76_render (halton_serves radicalInverse_real_unit _ hspp) hs camera res filt
    (fun b _ p _ u _ _ h => asks_false h)
    (mul_nonneg hR.x0.le hR.y0.le) hR.area (tilesFit_real res filt hR) sampler rfl n file
end

/-! ### Lights that cannot be sampled -/

/-- C76, refuted for area lights on spheres, which cannot be sampled: if all the lights of a scene are such, every camera sample
that hits anything panics, whatever the sampler is. -/
theorem c76_sphere_lights_panic {α β : Type} [Scalar α] [Libm α] [HasInf α] [HasNext α] [Scalar β] [Libm β] [Widen α β]
    (scene : Scene α) (hne : scene.lights ≠ [])
    (hl : ∀ l ∈ scene.lights, ∃ (e : Spectrum α) (s : Sphere α), l.light = (AreaLight.mk e s.toShape).toLight)
    (camera : PerspectiveCamera α) (pFilm : V2 α) (h : Hit α) (hh : scene.intersect (camera.generateRay pFilm) = some (some h))
    {σ : Type} (ops : SamplerOps α σ) (s : σ) : (cameraRadiance scene camera pFilm).run ops s = none := by
  have hlen : scene.lights.length ≠ 0 := by simpa using hne
  unfold cameraRadiance li
  unfold liLoop
  simp only [Bind.bind, Pure.pure, Prog.bind, Prog.run, hh]
  rw [dif_neg (by decide)]
  simp only [uniformSampleOneLight, Bind.bind, Pure.pure, Prog.bind, Prog.run, hlen, if_false, Draw.run]
  cases e : ops.get1d s with
  | none => rfl
  | some x =>
    have hi : min (toUsize (ofInt (scene.lights.length : Int) *. x.1)) (scene.lights.length - 1) < scene.lights.length := by omega
    obtain ⟨le, sp, hl⟩ := hl _ (List.getElem_mem hi)
    dsimp only
    rw [List.getElem?_eq_getElem hi]
    generalize scene.lights[min (toUsize (ofInt (scene.lights.length : Int) *. x.1)) (scene.lights.length - 1)] = lt at hl ⊢
    have hs : ∀ i u, lt.light.sampleLi i u = none := fun i u => by
      rw [hl]; simp [AreaLight.toLight, AreaLight.sampleLi, Sphere.toShape, Shape.withDefaults]
    simp only [estimateDirect, directFromLight, Prog.ofOption, hs, Bind.bind, Pure.pure, Prog.bind, Prog.run, Draw.run]
    cases ops.get2d x.2 with
    | none => rfl
    | some y =>
      dsimp only
      cases ops.get2d y.2 <;> rfl

/-- A scene whose only object is an area light on a sphere, seen by a camera. -/
example [HasInf ℝ] [HasNext ℝ] (hinf : (10 : ℝ) ≤ HasInf.infinity) (mat : Material ℝ) : ∃ (scene : Scene ℝ) (camera : PerspectiveCamera ℝ) (pFilm : V2 ℝ),
    (built [.area 1 ⟨⟨1, 1, 1⟩, (Sphere.mk ⟨0, 0, 0⟩ 1 mat).toShape⟩]).construct (fun ss => (Simple.new ss).map Simple.toContainer) = some scene ∧
    ∀ (σ : Type) (ops : SamplerOps ℝ σ) (s : σ), (cameraRadiance scene camera pFilm).run ops s = none := by
  let sp : Sphere ℝ := ⟨⟨0, 0, 0⟩, 1, mat⟩
  let o : Obj ℝ := ⟨1, (AreaLight.mk ⟨1, 1, 1⟩ sp.toShape).toShape⟩
  let c : Simple ℝ := ⟨[o], sp.bbox⟩
  let camera : PerspectiveCamera ℝ := ⟨.translate 0 0 0, .translate 0 0 2, .translate 0 0 0, .translate 0 0 0, .translate 0 0 0⟩
  let ray : Ray ℝ := ⟨⟨0, 0, 0⟩, ⟨2 / 3, 1 / 3, 2 / 3⟩, HasInf.infinity⟩
  have hray : camera.generateRay ⟨2, 1⟩ = ray := by
    have hs : Real.sqrt 9 = 3 := by rw [show (9 : ℝ) = 3 ^ 2 by norm_num, Real.sqrt_sq (by norm_num)]
    simp only [camera, ray, PerspectiveCamera.generateRay, Transform.apply, rayTransform, pointTransform, vectorTransform, Transform.translate,
      Ray.default, V3.normalize, V3.length, V3.sdiv, V3.zero]
    real_ops
    norm_num [hs]
  refine ⟨⟨[⟨1, (AreaLight.mk ⟨1, 1, 1⟩ sp.toShape).toLight⟩], c.toContainer⟩, camera, ⟨2, 1⟩, rfl, fun σ ops s => ?_⟩
  have hd : ray.direction ≠ V3.zero := by
    intro h
    have := congrArg V3.y h
    norm_num [ray, V3.zero, r_lit] at this
  obtain ⟨i, t, hi, -⟩ := c37_sphere_complete sp ray hd 1 (by norm_num) (show (1 : ℝ) < HasInf.infinity by linarith)
    (by norm_num [OnSphere, pointAt, ray, sp])
  have hb : sp.bbox = ⟨⟨-1, -1, -1⟩, ⟨1, 1, 1⟩⟩ := by
    simp only [sp, Sphere.bbox, BBox3.new, V3.min, V3.max]
    real_ops
    norm_num
  have hg : 0 ≤ gamma3 := by norm_num [gamma3]
  have hslab : ∀ (a : Axis) (r : ℝ × ℝ), r.1 = 0 → 0 ≤ r.2 → ∃ r', sp.bbox.slab ray a r = some r' ∧ r'.1 = 0 ∧ 0 ≤ r'.2 := by
    intro a r h1 h2
    have hlo : planeLo sp.bbox ray a ≤ 0 := by rw [hb]; cases a <;> norm_num [planeLo, ray, V3.get]
    have hhi : 0 ≤ planeHi sp.bbox ray a := by rw [hb]; cases a <;> norm_num [planeHi, ray, V3.get]
    have e1 : max r.1 (min (planeLo sp.bbox ray a) (planeHi sp.bbox ray a)) = 0 := by
      rw [h1]; exact max_eq_left ((min_le_left _ _).trans hlo)
    have e2 : 0 ≤ min r.2 (max (planeLo sp.bbox ray a) (planeHi sp.bbox ray a) * (1 + 2 * gamma3)) :=
      le_min h2 (mul_nonneg (hhi.trans (le_max_right _ _)) (by linarith))
    rw [slab_real, e1, if_pos e2]
    exact ⟨_, rfl, rfl, e2⟩
  have hbox : (sp.bbox.intersect ray).isNone = false := by
    unfold BBox3.intersect
    obtain ⟨r1, e1, a1, b1⟩ := hslab .X (lit 0, ray.tMax) (by simp [r_lit]) (show (0 : ℝ) ≤ HasInf.infinity by linarith)
    obtain ⟨r2, e2, a2, b2⟩ := hslab .Y r1 a1 b1
    obtain ⟨r3, e3, -, -⟩ := hslab .Z r2 a2 b2
    simp [e1, e2, e3]
  refine c76_sphere_lights_panic _ (by simp) ?_ camera ⟨2, 1⟩ ⟨i, o⟩ ?_ ops s
  · intro l hl
    simp only [List.mem_singleton] at hl
    subst hl
    exact ⟨_, _, rfl⟩
  · rw [hray]
    change c.intersect ray = _
    have ho : o.shape.intersect ray = some (some (i, t)) := congrArg some hi
    unfold Simple.intersect
    rw [show c.bbox = sp.bbox from rfl, hbox]
    simp only [c, closestHit, Obj.intersect, ho]
    rfl

end PT
