import Verif.Props.WholeImage
import Verif.Props.SceneClosest

/-!
# The container and the order of the shapes do not change the image (C105)
-/

namespace PT
open Spec

/-! ### Specification -/

namespace Spec
section
variable {α : Type} [Scalar α] [Libm α] {β σ : Type}

/-- Run with this sampler in this scene, the computation asks the scene about a ray of the given kind: whether something is hit by it, or whether
something is in its way. -/
def Traces (scene : Scene α) (ops : SamplerOps α σ) (kind : Ray α → Prop) : Prog α β → σ → Prop
  | .ret _, _ => False
  | .panic, _ => False
  | .get1 k, s => ∃ x s', ops.get1d s = some (x, s') ∧ Traces scene ops kind (k x) s'
  | .get2 k, s => ∃ x s', ops.get2d s = some (x, s') ∧ Traces scene ops kind (k x) s'
  | .hit _ r k, s => kind r ∨ ∃ x, scene.intersect r = some x ∧ Traces scene ops kind (k x) s
  | .occluded r k, s => kind r ∨ ∃ x, scene.intersectP r = some x ∧ Traces scene ops kind (k x) s
  | .scatter h k, s => Traces scene ops kind (k (h.obj.shape.material h.i)) s

/-- Sample number `i` of pixel `p`, taken with a Halton sampler made as `s0`, makes the integrator ask the scene about a ray of the given kind. -/
def SampleTraces [HasInf α] [HasNext α] (scene : Scene α) (camera : PerspectiveCamera α) (kind : Ray α → Prop) (s0 : HaltonSampler) (p : V2 Int) (i : Nat) : Prop :=
  ∃ pFilm s, (getCameraSample p).run HaltonSampler.ops (sampleState s0 p i) = some (pFilm, s) ∧
    Traces scene HaltonSampler.ops kind (li scene.lights (camera.generateRay pFilm)) s

/-- The two scenes give the same answers about every ray that is not of the given kind. -/
def SameAnswersExcept (kind : Ray α → Prop) (scene scene' : Scene α) : Prop :=
  ∀ r, ¬ kind r → scene.intersect r = scene'.intersect r ∧ scene.intersectP r = scene'.intersectP r
end
end Spec

namespace Spec
section
variable [Libm XR]

/-- A call of the scene builder: a distant light, or a sphere, a triangle or an area light with finite coordinates. -/
inductive FiniteCall : BuilderCall XR → Prop
  | distant (addr e w) : FiniteCall (.light addr fun box => ((DistantLight.new e w).preProcess box).toLight)
  | shape (addr) (p : Prim) : p.Finite → FiniteCall (.shape addr (p.obj addr).shape)
  | area (addr e) (p : Prim) : p.Finite → FiniteCall (.area addr ⟨e, (p.obj addr).shape⟩)

/-- Two different shapes are hit by the ray at the same parameter. -/
def Tie (ss : List (Obj XR)) (r : Ray XR) : Prop :=
  ∃ s ∈ ss, ∃ s' ∈ ss, s ≠ s' ∧ ∃ i t i' t', Reports s.shape r i t ∧ Reports s'.shape r i' t' ∧ t.val = t'.val

/-- The rays for which the answer may depend on the container: those with an origin or a direction that is not finite, with direction zero or a range that
is not a number; those that lie exactly in a face of the bounding box of a shape; and those that hit two different shapes at the same parameter. -/
def Delicate (ss : List (Obj XR)) (r : Ray XR) : Prop :=
  ¬ (Finite3 r.origin ∧ Finite3 r.direction ∧ NonZero r.direction ∧ r.tMax ≠ Fl.nan) ∨ InFacePlane ss r.origin r.direction ∨ Tie ss r

/-- The same scene but for the order in which the shapes were added. -/
structure SameButOrder (hist hist' : List (BuilderCall XR)) : Prop where
  lights : ∀ box, addedLights box hist = addedLights box hist'
  areas : addedAreas hist = addedAreas hist'
  shapes : (addedShapes hist).Perm (addedShapes hist')
end
end Spec

/-! ### Any arithmetic: scenes with the same answers give the same image -/

section
variable {α : Type} [Scalar α]

theorem run_same [Libm α] {β σ : Type} {scene scene' : Scene α} {kind : Ray α → Prop} (h : SameAnswersExcept kind scene scene') (ops : SamplerOps α σ)
    (p : Prog α β) : ∀ s, ¬ Traces scene ops kind p s → (p.run scene).run ops s = (p.run scene').run ops s := by
  induction p with
  | ret b => intro s _; rfl
  | panic => intro s _; rfl
  | get1 k ih =>
    intro s hs
    simp only [Prog.run, Draw.run]
    cases e : ops.get1d s with
    | none => rfl
    | some q => exact ih q.1 q.2 fun ha => hs ⟨q.1, q.2, e, ha⟩
  | get2 k ih =>
    intro s hs
    simp only [Prog.run, Draw.run]
    cases e : ops.get2d s with
    | none => rfl
    | some q => exact ih q.1 q.2 fun ha => hs ⟨q.1, q.2, e, ha⟩
  | hit w r k ih =>
    intro s hs
    simp only [Traces, not_or, not_exists, not_and] at hs
    simp only [Prog.run]
    rw [← (h r hs.1).1]
    cases e : scene.intersect r with
    | none => rfl
    | some q => exact ih q s (hs.2 q e)
  | occluded r k ih =>
    intro s hs
    simp only [Traces, not_or, not_exists, not_and] at hs
    simp only [Prog.run]
    rw [← (h r hs.1).2]
    cases e : scene.intersectP r with
    | none => rfl
    | some q => exact ih q s (hs.2 q e)
  | scatter i k ih => intro s hs; exact ih _ s hs

omit [Scalar α] in
theorem Draw.run_bind_congr {β γ σ : Type} (ops : SamplerOps α σ) (d : Draw α β) : ∀ (f g : β → Draw α γ) (s : σ),
    (∀ b s', d.run ops s = some (b, s') → (f b).run ops s' = (g b).run ops s') → (d.bind f).run ops s = (d.bind g).run ops s := by
  induction d with
  | ret b => intro f g s h; exact h b s rfl
  | panic => intro f g s h; rfl
  | get1 k ih =>
    intro f g s h
    simp only [Draw.bind, Draw.run]
    cases e : ops.get1d s with
    | none => rfl
    | some q => exact ih q.1 f g q.2 fun b s' hb => h b s' (by simp only [Draw.run, e]; exact hb)
  | get2 k ih =>
    intro f g s h
    simp only [Draw.bind, Draw.run]
    cases e : ops.get2d s with
    | none => rfl
    | some q => exact ih q.1 f g q.2 fun b s' hb => h b s' (by simp only [Draw.run, e]; exact hb)

theorem oneSample_same [Libm α] [HasInf α] [HasNext α] {scene scene' : Scene α} (hl : scene.lights = scene'.lights) {kind : Ray α → Prop}
    (h : SameAnswersExcept kind scene scene') (camera : PerspectiveCamera α) (s0 : HaltonSampler) (p : V2 Int) (i : Nat)
    (hs : ¬ SampleTraces scene camera kind s0 p i) :
    (oneSample (cameraRadiance scene camera) p).run HaltonSampler.ops (sampleState s0 p i) =
      (oneSample (cameraRadiance scene' camera) p).run HaltonSampler.ops (sampleState s0 p i) := by
  unfold oneSample
  refine Draw.run_bind_congr _ _ _ _ _ fun pf s' e => ?_
  have key : (cameraRadiance scene camera pf).run HaltonSampler.ops s' = (cameraRadiance scene' camera pf).run HaltonSampler.ops s' := by
    unfold cameraRadiance
    rw [← hl]
    exact run_same h HaltonSampler.ops _ s' fun ha => hs ⟨pf, s', e, ha⟩
  have run_bind : ∀ {β γ : Type} (d : Draw α β) (f : β → Draw α γ) (s : HaltonSampler),
      (d.bind f).run HaltonSampler.ops s = (d.run HaltonSampler.ops s).bind fun q => (f q.1).run HaltonSampler.ops q.2 := by
    intro β γ d f
    induction d with
    | ret b => intro s; rfl
    | panic => intro s; rfl
    | get1 k ih =>
      intro s
      simp only [Draw.bind, Draw.run]
      cases e : (HaltonSampler.ops : SamplerOps α _).get1d s with
      | none => rfl
      | some q => exact ih q.1 q.2
    | get2 k ih =>
      intro s
      simp only [Draw.bind, Draw.run]
      cases e : (HaltonSampler.ops : SamplerOps α _).get2d s with
      | none => rfl
      | some q => exact ih q.1 q.2
  rw [run_bind, run_bind, key]

/-- Drawing numbers changes nothing but the dimension, and the next sample starts at dimension zero. -/
theorem halton_next_of_run {β : Type} (d : Draw α β) : ∀ (s : HaltonSampler) (b : β) (s' : HaltonSampler),
    d.run HaltonSampler.ops s = some (b, s') → s'.startNextSample = s.startNextSample := by
  induction d with
  | ret b => intro s b' s' e; simp only [Draw.run, Option.some.injEq, Prod.mk.injEq] at e; rw [e.2]
  | panic => intro s b s' e; simp [Draw.run] at e
  | get1 k ih =>
    intro s b s' e
    simp only [Draw.run] at e
    cases hg : (HaltonSampler.ops : SamplerOps α _).get1d s with
    | none => rw [hg] at e; simp at e
    | some p =>
      rw [hg] at e
      rw [ih p.1 p.2 _ _ e]
      obtain ⟨x, t⟩ := p
      simp only [HaltonSampler.ops, bind, pure] at hg
      obtain ⟨y, _, hg⟩ := Option.bind_eq_some_iff.1 hg
      simp only [Option.some.injEq, Prod.mk.injEq] at hg
      rw [← hg.2]; rfl
  | get2 k ih =>
    intro s b s' e
    simp only [Draw.run] at e
    cases hg : (HaltonSampler.ops : SamplerOps α _).get2d s with
    | none => rw [hg] at e; simp at e
    | some p =>
      rw [hg] at e
      rw [ih p.1 p.2 _ _ e]
      obtain ⟨x, t⟩ := p
      simp only [HaltonSampler.ops, bind, pure] at hg
      obtain ⟨y, _, hg⟩ := Option.bind_eq_some_iff.1 hg
      obtain ⟨z, _, hg⟩ := Option.bind_eq_some_iff.1 hg
      simp only [Option.some.injEq, Prod.mk.injEq] at hg
      rw [← hg.2]; rfl

theorem takeSamples_same (rad rad' : V2 α → Draw α (Spectrum α)) (s0 : HaltonSampler) (p : V2 Int) : ∀ (n i : Nat) (t : FilmTile α),
    (∀ j, i ≤ j → j < i + n → (oneSample rad p).run HaltonSampler.ops (sampleState s0 p j) = (oneSample rad' p).run HaltonSampler.ops (sampleState s0 p j)) →
    Spec.takeSamples HaltonSampler.ops rad p n t (sampleState s0 p i) = Spec.takeSamples HaltonSampler.ops rad' p n t (sampleState s0 p i) := by
  intro n
  induction n with
  | zero => intro i t _; rfl
  | succ n ih =>
    intro i t h
    simp only [Spec.takeSamples, bind]
    rw [← h i (le_refl _) (by omega)]
    cases e : (oneSample rad p).run HaltonSampler.ops (sampleState s0 p i) with
    | none => rfl
    | some q =>
      obtain ⟨⟨pf, l⟩, s1⟩ := q
      simp only [Option.bind_some]
      cases addIfValid t pf l with
      | none => rfl
      | some t1 =>
        simp only [Option.bind_some]
        have e2 := halton_next_of_run _ _ _ _ e
        have e3 : (((HaltonSampler.ops : SamplerOps α _).startNextSample s1).2 : HaltonSampler) = sampleState s0 p (i + 1) := by
          change s1.startNextSample.2 = (sampleState s0 p i).startNextSample.2
          rw [e2]
        rw [e3]
        exact ih (i + 1) t1 fun j h1 h2 => h j (by omega) (by omega)

theorem foldlM_congr' {γ δ : Type} (f g : γ → δ → Option γ) (P : γ → Prop) : ∀ (l : List δ),
    (∀ a x, P a → x ∈ l → f a x = g a x) → (∀ a x b, P a → x ∈ l → f a x = some b → P b) → ∀ a, P a → l.foldlM f a = l.foldlM g a := by
  intro l
  induction l with
  | nil => intro _ _ a _; rfl
  | cons x l ih =>
    intro h1 h2 a ha
    simp only [List.foldlM_cons, bind]
    rw [← h1 a x ha List.mem_cons_self]
    cases e : f a x with
    | none => rfl
    | some b =>
      exact ih (fun a y hp hy => h1 a y hp (List.mem_cons_of_mem _ hy)) (fun a y b hp hy => h2 a y b hp (List.mem_cons_of_mem _ hy)) b (h2 a x b ha List.mem_cons_self e)

theorem renderTile_same (rad rad' : V2 α → Draw α (Spectrum α)) (film : Film α) (spp : Nat) (hspp : spp < 2 ^ 32) (box b : BBox2i)
    (h : ∀ p ∈ b.iter.toList, ∀ i < max 1 spp, (oneSample rad p).run HaltonSampler.ops (sampleState (HaltonSampler.new spp box) p i) =
      (oneSample rad' p).run HaltonSampler.ops (sampleState (HaltonSampler.new spp box) p i))
    (s : HaltonSampler) (hs : Spec.Hist α (HaltonSampler.new spp box) s) :
    renderTile HaltonSampler.ops rad film s b = renderTile HaltonSampler.ops rad' film s b := by
  unfold renderTile
  refine foldlM_congr' _ _ (fun acc => Spec.Hist α (HaltonSampler.new spp box) acc.2) _ ?_ ?_ _ hs
  · rintro ⟨t, s⟩ p hs hp
    have hi := hist_inv spp box s hs
    have hsp : s.samplesPerPixel = spp := hi.spp.trans rfl
    have hst : (HaltonSampler.ops : SamplerOps α _).startPixel s p = sampleState (HaltonSampler.new spp box) p 0 := by
      change s.startPixel p = (HaltonSampler.new spp box).startPixel p
      rw [startPixel_state hi p, startPixel_state (hist_inv (α := α) spp box _ .start) p]
    have e1 := halton_counting.pixel rad p t s (by rw [hsp]; exact hspp)
    have e2 := halton_counting.pixel rad' p t s (by rw [hsp]; exact hspp)
    refine e1.trans (Eq.trans ?_ e2.symm)
    rw [hst, hsp]
    exact takeSamples_same rad rad' _ p _ 0 t fun j _ hj => h p hp j (by omega)
  · rintro ⟨t, s⟩ p ⟨t', s'⟩ hs _ e
    exact hist_pixelLoop rad p _ _ _ _ _ (.startPixel _ _ hs) e

/-- The schedules are the same when the work is. -/
theorem rreach_same [Libm α] {σ : Type} {work work' : σ → BBox2i → Option (FilmTile α × σ)} {R : σ → Prop} {film : Film α} {n : Nat} {file : Option (List UInt8)}
    (hR : ∀ s b t s', R s → work s b = some (t, s') → R s') (hw : ∀ s b, R s → b ∈ film.iter.toList → work s b = work' s b)
    {sampler : σ} (h0 : R sampler) {k : Nat} {st : RState α σ} (hr : RReach work sampler (RState.init film n file) k st) :
    RReach work' sampler (RState.init film n file) k st := by
  induction hr with
  | zero => exact .zero
  | succ k st st' hr hs ih =>
    refine .succ k st st' ih ?_
    cases hs with
    | thread i pc pc' sh' hi hs =>
      refine .thread st i pc pc' sh' hi ?_
      obtain ⟨log, lost, base, hI⟩ := rinv_reach hR h0 hr
      cases pc with
      | wantIter | haveIter | wantFilm | finished | panicked => exact hs
      | gotTile s r => cases r <;> exact hs
      | merging s b t rest => cases rest <;> exact hs
      | rendering s b =>
      have hok : R s := hI.ok _ (List.mem_of_getElem? hi)
      have hb : b ∈ film.iter.toList := by
        have : b ∈ (film.iter.toList : Multiset BBox2i) := by
          rw [hI.count]
          refine Multiset.mem_add.2 (.inl (Multiset.mem_add.2 (.inl (Multiset.mem_add.2 (.inr ?_)))))
          have := List.single_le_sum (l := st.threads.map PC.box) (fun x _ => Multiset.zero_le x) (PC.box (.rendering s b))
            (List.mem_map.2 ⟨_, List.mem_of_getElem? hi, rfl⟩)
          exact Multiset.mem_of_le this (by simp [PC.box])
        simpa using this
      simp only [threadStep] at hs ⊢
      rw [← hw s b hok hb]
      exact hs
    | main _ hs => exact .main st st' hs
    | openFails hm => exact .openFails st hm

/-- C105, any arithmetic and any two scenes with the same lights: if no camera sample of the image makes the integrator ask about a ray for which the
scenes answer differently, then every state that the rendering of one scene reaches, with any number of threads and under any schedule, is reached
by the rendering of the other in as many steps: the same film, the same output file, the same panics. -/
theorem c105_same_answers [Libm α] [HasInf α] [HasNext α] {scene scene' : Scene α} (hl : scene.lights = scene'.lights) {kind : Ray α → Prop}
    (h : SameAnswersExcept kind scene scene') (camera : PerspectiveCamera α) (res : V2 Int) (filt : Filter α) (spp : Nat) (hspp : spp < 2 ^ 32)
    (n : Nat) (file : Option (List UInt8)) :
    let film := Film.new res filt
    let sampler := HaltonSampler.new spp film.sampleBBox
    (∀ p, Spec.InBox film.sampleBBox p → ∀ i < max 1 spp, ¬ SampleTraces scene camera kind sampler p i) →
    ∀ k st, RReach (fun s b => renderTile HaltonSampler.ops (cameraRadiance scene camera) film s b) sampler (RState.init film n file) k st ↔
      RReach (fun s b => renderTile HaltonSampler.ops (cameraRadiance scene' camera) film s b) sampler (RState.init film n file) k st := by
  intro film sampler hno k st
  have key : ∀ (s : HaltonSampler) (b : BBox2i), Spec.Hist α sampler s → b ∈ film.iter.toList →
      renderTile HaltonSampler.ops (cameraRadiance scene camera) film s b = renderTile HaltonSampler.ops (cameraRadiance scene' camera) film s b := by
    intro s b hs hb
    refine renderTile_same _ _ film spp hspp _ b (fun p hp i hi => ?_) s hs
    exact oneSample_same hl h camera _ p i (hno p (((c02_tiles_partition film.sampleBBox).1 b hb).2.2.2.2 p ((b.mem_toList p).1 hp)) i hi)
  constructor
  · exact rreach_same (R := Spec.Hist α sampler) (fun s b t s' hs e => hist_renderTile _ film s b t s' hs e) key .start
  · exact rreach_same (R := Spec.Hist α sampler) (fun s b t s' hs e => hist_renderTile _ film s b t s' hs e) (fun s b hs hb => (key s b hs hb).symm) .start

end

/-! ### Exact arithmetic: the containers answer alike -/

section
variable [Libm XR]

/-- The shape intersects like a finite sphere or triangle. -/
def LikePrim (s : Shape XR) : Prop :=
  ∃ p : Prim, p.Finite ∧ s.bbox = (p.obj 0).shape.bbox ∧ s.intersect = (p.obj 0).shape.intersect ∧ s.intersectP = (p.obj 0).shape.intersectP

theorem likePrim_of (p : Prim) (hf : p.Finite) (addr : Nat) : LikePrim (p.obj addr).shape := ⟨p, hf, by cases p <;> rfl, by cases p <;> rfl, by cases p <;> rfl⟩

theorem likePrim_added : ∀ (hist : List (BuilderCall XR)), (∀ c ∈ hist, FiniteCall c) →
    (∀ s ∈ addedShapes hist, LikePrim s.shape) ∧ ∀ a ∈ addedAreas hist, LikePrim a.2.shape
  | [], _ => ⟨by simp [addedShapes], by simp [addedAreas]⟩
  | c :: hist, h => by
    obtain ⟨h1, h2⟩ := likePrim_added hist fun c hc => h c (List.mem_cons_of_mem _ hc)
    cases h c List.mem_cons_self with
    | distant => exact ⟨h1, h2⟩
    | shape addr p hp =>
      refine ⟨fun s hs => ?_, h2⟩
      rcases List.mem_cons.1 hs with rfl | hs
      · exact likePrim_of p hp addr
      · exact h1 s hs
    | area addr e p hp =>
      refine ⟨h1, fun s hs => ?_⟩
      rcases List.mem_cons.1 hs with rfl | hs
      · exact likePrim_of p hp addr
      · exact h2 s hs

theorem likePrim_scene {hist : List (BuilderCall XR)} (h : ∀ c ∈ hist, FiniteCall c) : ∀ s ∈ sceneShapes hist, LikePrim s.shape := by
  obtain ⟨h1, h2⟩ := likePrim_added hist h
  intro s hs
  simp only [sceneShapes, List.mem_append] at hs
  rcases hs with hs | hs
  · exact h1 s hs
  · simp only [asShapes, List.mem_map] at hs
    obtain ⟨a, ha, rfl⟩ := hs
    exact h2 a ha

theorem likePrim_facts (hs : ExactSqrt) {s : Shape XR} (h : LikePrim s) {o d : V3 XR} (ho : Finite3 o) (hd : Finite3 d) (hn : NonZero d) :
    LawfulAlong s o d ∧ HitsInBox s o d ∧ AgreesAlong s o d := by
  obtain ⟨p, hf, e1, e2, e3⟩ := h
  have hl := prim_lawful p hf 0 o d ho hd hn
  have hb := prim_in_box hs p hf 0 o d ho hd hn
  have ha : AgreesAlong (p.obj 0).shape o d := by
    cases p with
    | sphere q => intro tm; exact ⟨_, (c40_sphere q ⟨o, d, tm⟩).1, (c40_sphere q ⟨o, d, tm⟩).2⟩
    | triangle q => exact c40_triangle_agrees q o d fun a e => by have := (hd a).1; rw [e] at this; exact this
  have hrep : ∀ r i t, Reports s r i t ↔ Reports (p.obj 0).shape r i t := by intro r i t; unfold Reports; rw [e2]
  refine ⟨⟨?_, ?_, ?_, ?_⟩, ?_, ?_⟩
  · intro tm; rw [e2]; exact hl.answers tm
  · intro tm i t h1 h2; exact hl.inRange tm i t h1 ((hrep _ _ _).1 h2)
  · intro tm tm' i t h1 h2 h3; exact (hrep _ _ _).2 (hl.shrink tm tm' i t ((hrep _ _ _).1 h1) h2 h3)
  · intro tm tm' i t h1 h2; exact (hrep _ _ _).2 (hl.grow tm tm' i t ((hrep _ _ _).1 h1) h2)
  · intro tm i t h1
    have := hb tm i t ((hrep _ _ _).1 h1)
    rw [e1]; exact this
  · intro tm; rw [e2, e3]; exact ha tm

theorem likePrim_box {ss : List (Obj XR)} (h : ∀ s ∈ ss, LikePrim s.shape) : FiniteBoxes ss := by
  intro s hs a
  obtain ⟨p, hf, e, -⟩ := h s hs
  rw [e]
  exact prim_box p hf 0 a

/-- Either container finds a closest hit, and its shadow test agrees. -/
theorem finite_container_answers (hs : ExactSqrt) {ss : List (Obj XR)} (hp : ∀ s ∈ ss, LikePrim s.shape) {mk : List (Obj XR) → Option (Container XR)} (hmk : LibraryContainer mk)
    {c : Container XR} (hc : mk ss = some c) (ray : Ray XR) (hd : ¬ Delicate ss ray) :
    ∃ r, c.intersect ray = some r ∧ c.intersectP ray = some r.isSome ∧ (r = none ↔ NoHit ss ray) ∧ ∀ h, r = some h → Closest ss ray h := by
  simp only [Delicate, not_or, not_not] at hd
  obtain ⟨⟨ho, hdir, hnz, htm⟩, hface, -⟩ := hd
  have hR : FinRay ray := fun a => ⟨(ho a).1, (hdir a).1⟩
  have hf := fun s (h : s ∈ ss) => likePrim_facts hs (hp s h) ho hdir hnz
  have hbox := likePrim_box hp
  cases hmk with
  | simple =>
    simp only [Option.map_eq_some_iff] at hc
    obtain ⟨c, hc, rfl⟩ := hc
    obtain ⟨r, e, -, g1, g2⟩ := c27_simple_closest ss c hc ray htm fun s h => (hf s h).1
    obtain ⟨r', e', e2⟩ := c30_simple ss c hc ray fun s h => (hf s h).2.2
    obtain rfl : r' = r := by rw [e] at e'; cases e'; rfl
    refine ⟨r', e, e2, ?_, g2⟩
    have hbb : bboxOfShapes ss = some c.bbox := by
      unfold Simple.new at hc
      cases hb : bboxOfShapes ss with
      | none => rw [hb] at hc; cases hc
      | some b => rw [hb] at hc; cases hc; rfl
    by_cases hm : c.bbox.intersect ray = none
    · have hno : NoHit ss ray := by
        intro s h i t hr
        obtain ⟨t0, t1, e, -⟩ := box_not_missed hbb hbox hR htm (fun s h => (hf s h).1) (fun s h => (hf s h).2.1) hface h hr
        rw [hm] at e; cases e
      refine ⟨fun _ => hno, fun _ => ?_⟩
      cases r' with
      | none => rfl
      | some h =>
        obtain ⟨h1, t, h2, -⟩ := g2 h rfl
        exact absurd h2 (hno _ h1 _ _)
    · exact g1 hm
  | kdTree depth =>
    simp only [Option.map_eq_some_iff] at hc
    obtain ⟨tree, hc, rfl⟩ := hc
    obtain ⟨r, e, g1, g2⟩ := c29_kdtree_closest_partial ss hbox depth tree hc ray hR htm (fun s h => (hf s h).1) (fun s h => (hf s h).2.1) hface
    obtain ⟨r', e', e2⟩ := KdTree.c30_kdtree ss depth tree hc ray fun s h => (hf s h).2.2
    obtain rfl : r' = r := by rw [e] at e'; cases e'; rfl
    exact ⟨r', e, e2, g1, g2⟩

/-- Without a tie the closest hit is determined by which shapes there are. -/
theorem closest_unique (hs : ExactSqrt) {ss ss' : List (Obj XR)} (hp : ∀ s ∈ ss, LikePrim s.shape) (hm : ∀ s, s ∈ ss ↔ s ∈ ss') {ray : Ray XR}
    (hd : ¬ Delicate ss ray) {h h' : Hit XR} (hc : Closest ss ray h) (hc' : Closest ss' ray h') : h = h' := by
  obtain ⟨m1, t, r1, c1⟩ := hc
  obtain ⟨m2, t', r2, c2⟩ := hc'
  simp only [Delicate, not_or, not_not] at hd
  obtain ⟨⟨ho, hdir, hnz, htm⟩, -, htie⟩ := hd
  have f1 := ((likePrim_facts hs (hp _ m1) ho hdir hnz).2.1 _ _ _ r1).1
  have f2 := ((likePrim_facts hs (hp _ ((hm _).2 m2)) ho hdir hnz).2.1 _ _ _ r2).1
  have e : t.val = t'.val :=
    le_antisymm ((Fl.le_val f1 f2).1 (c1 _ ((hm _).2 m2) _ _ r2)) ((Fl.le_val f2 f1).1 (c2 _ ((hm _).1 m1) _ _ r1))
  obtain ⟨i, o⟩ := h
  obtain ⟨i', o'⟩ := h'
  by_cases ho : o = o'
  · subst ho
    have : some (some (i, t)) = some (some (i', t')) := r1.symm.trans r2
    simp only [Option.some.injEq, Prod.mk.injEq] at this
    rw [this.1]
  · exact absurd ⟨o, m1, o', (hm _).2 m2, ho, i, t, i', t', r1, r2, e⟩ htie

theorem containers_agree (hs : ExactSqrt) {ss ss' : List (Obj XR)} (hp : ∀ s ∈ ss, LikePrim s.shape) (hm : ∀ s, s ∈ ss ↔ s ∈ ss')
    {mk mk' : List (Obj XR) → Option (Container XR)} (hmk : LibraryContainer mk) (hmk' : LibraryContainer mk')
    {c c' : Container XR} (hc : mk ss = some c) (hc' : mk' ss' = some c') (ray : Ray XR) (hd : ¬ Delicate ss ray) :
    c.intersect ray = c'.intersect ray ∧ c.intersectP ray = c'.intersectP ray := by
  have hd' : ¬ Delicate ss' ray := by
    rintro (h | ⟨s, h1, h2⟩ | ⟨s, h1, s', h2, h3⟩)
    · exact hd (.inl h)
    · exact hd (.inr (.inl ⟨s, (hm s).2 h1, h2⟩))
    · exact hd (.inr (.inr ⟨s, (hm s).2 h1, s', (hm s').2 h2, h3⟩))
  obtain ⟨r, e1, e2, e3, e4⟩ := finite_container_answers hs hp hmk hc ray hd
  obtain ⟨r', e1', e2', e3', e4'⟩ := finite_container_answers hs (fun s h => hp s ((hm s).2 h)) hmk' hc' ray hd'
  have : r = r' := by
    have hno : NoHit ss ray ↔ NoHit ss' ray := ⟨fun h s hs => h s ((hm s).2 hs), fun h s hs => h s ((hm s).1 hs)⟩
    cases r with
    | none => exact (e3'.2 (hno.1 (e3.1 rfl))).symm
    | some h =>
      cases r' with
      | none => have := e3.2 (hno.2 (e3'.1 rfl)); cases this
      | some h' => rw [closest_unique hs hp hm hd (e4 h rfl) (e4' h' rfl)]
  rw [e1, e2, e1', e2', this]
  exact ⟨rfl, rfl⟩

/-! ### The lights do not depend on the order of the shapes -/

theorem square_same {x y : XR} {r : ℝ} (h : Fl.Rel x r) (k : Fl.Rel y r) : x *. x = y *. y := by
  obtain ⟨sx, vx, rfl⟩ := Fl.IsFin_iff.1 h.fin
  obtain ⟨sy, vy, rfl⟩ := Fl.IsFin_iff.1 k.fin
  have abs_val : ∀ (s : Bool) (v : ℝ), 0 ≤ v → |(Fl.fin s v : XR).val| = v := by
    intro s v hv
    cases s <;> simp [Fl.val, Fl.sgn, abs_of_nonneg hv]
  have e1 := abs_val sx vx h.wf.1
  have e2 := abs_val sy vy k.wf.1
  rw [h.val] at e1
  rw [k.val] at e2
  change (Fl.ofMag (sx ^^ sx) (vx * vx) : XR) = Fl.ofMag (sy ^^ sy) (vy * vy)
  rw [Bool.xor_self, Bool.xor_self, ← e1, ← e2]

/-- Every component of the box is a finite number. -/
def FinBounds (b : BBox3 XR) : Prop := ∀ a, Fl.Rel (b.min.get a) (b.min.get a).val ∧ Fl.Rel (b.max.get a) (b.max.get a).val

theorem radius_same {b b' : BBox3 XR} (h : FinBounds b) (h' : FinBounds b')
    (e : ∀ a, (b.min.get a).val = (b'.min.get a).val ∧ (b.max.get a).val = (b'.max.get a).val) :
    b.boundingSphere.2 = b'.boundingSphere.2 := by
  have h'' : ∀ a, Fl.Rel (b'.min.get a) (b.min.get a).val ∧ Fl.Rel (b'.max.get a) (b.max.get a).val := by
    intro a; rw [(e a).1, (e a).2]; exact h' a
  have two : (PT.lit 2 : ℝ) ≠ 0 := by real_ops; norm_num
  have c := fun a => (((h a).1.add (h a).2).div (Fl.Rel.lit 2) two)
  have c' := fun a => (((h'' a).1.add (h'' a).2).div (Fl.Rel.lit 2) two)
  have hin : b.pointInside b.boundingSphere.1 = b'.pointInside b'.boundingSphere.1 := by
    unfold BBox3.pointInside
    have l := fun a => (h a).1.le (c a)
    have l' := fun a => (h'' a).1.le (c' a)
    have u := fun a => (c a).le (h a).2
    have u' := fun a => (c' a).le (h'' a).2
    have k1 := fun a => (l a).trans (l' a).symm
    have k2 := fun a => (u a).trans (u' a).symm
    have x1 := k1 .X; have x2 := k2 .X; have y1 := k1 .Y; have y2 := k2 .Y; have z1 := k1 .Z; have z2 := k2 .Z
    simp only [V3.get] at x1 x2 y1 y2 z1 z2
    simp only [BBox3.boundingSphere, V3.add, V3.sdiv]
    rw [x1, x2, y1, y2, z1, z2]
  have hd : b.boundingSphere.1.distance b.max = b'.boundingSphere.1.distance b'.max := by
    have k := fun a => square_same ((c a).sub (h a).2) ((c' a).sub (h'' a).2)
    have x := k .X; have y := k .Y; have z := k .Z
    simp only [V3.get] at x y z
    simp only [V3.distance, V3.length, BBox3.boundingSphere, V3.add, V3.sdiv, V3.sub]
    rw [x, y, z]
  change (if b.pointInside b.boundingSphere.1 then b.boundingSphere.1.distance b.max else PT.lit 0) =
    if b'.pointInside b'.boundingSphere.1 then b'.boundingSphere.1.distance b'.max else PT.lit 0
  rw [hin, hd]

theorem likePrim_bounds {s : Shape XR} (h : LikePrim s) : FinBounds s.bbox := by
  obtain ⟨p, hf, e, -⟩ := h
  rw [e]
  intro a
  cases p with
  | sphere q => obtain ⟨h1, h2⟩ := sphere_box q hf a; exact ⟨.of_fin h1.fin h1.wf, .of_fin h2.fin h2.wf⟩
  | triangle q => obtain ⟨h1, h2⟩ := triangle_box q hf a; exact ⟨.of_fin h1.fin h1.wf, .of_fin h2.fin h2.wf⟩

theorem bboxOfShapes_same {ss ss' : List (Obj XR)} (hp : ∀ s ∈ ss, LikePrim s.shape) (hm : ∀ s, s ∈ ss ↔ s ∈ ss') {b b' : BBox3 XR}
    (hb : bboxOfShapes ss = some b) (hb' : bboxOfShapes ss' = some b') :
    FinBounds b ∧ FinBounds b' ∧ ∀ a, (b.min.get a).val = (b'.min.get a).val ∧ (b.max.get a).val = (b'.max.get a).val := by
  have hg : KdTree.GoodBoxes ss := fun s hs a => (likePrim_box hp s hs a).2.2
  have hg' : KdTree.GoodBoxes ss' := fun s hs a => (likePrim_box hp s ((hm s).2 hs) a).2.2
  obtain ⟨-, hcon, hf⟩ := (c33_bbox_of_shapes ss hg.noNaN).2 b hb
  obtain ⟨-, hcon', hf'⟩ := (c33_bbox_of_shapes ss' hg'.noNaN).2 b' hb'
  have B : FinBounds b := by
    intro a
    obtain ⟨⟨s, hs, e⟩, ⟨s', hs', e'⟩⟩ := hf a
    rw [e, e']; exact ⟨(likePrim_bounds (hp s hs) a).1, (likePrim_bounds (hp s' hs') a).2⟩
  have B' : FinBounds b' := by
    intro a
    obtain ⟨⟨s, hs, e⟩, ⟨s', hs', e'⟩⟩ := hf' a
    rw [e, e']; exact ⟨(likePrim_bounds (hp s ((hm s).2 hs)) a).1, (likePrim_bounds (hp s' ((hm s').2 hs')) a).2⟩
  refine ⟨B, B', fun a => ?_⟩
  obtain ⟨⟨s, hs, e⟩, ⟨t, ht, f⟩⟩ := hf a
  obtain ⟨⟨s', hs', e'⟩, ⟨t', ht', f'⟩⟩ := hf' a
  have i1 := (hcon' s ((hm s).1 hs) a).1
  have i2 := (hcon s' ((hm s').2 hs') a).1
  have i3 := (hcon' t ((hm t).1 ht) a).2
  have i4 := (hcon t' ((hm t').2 ht') a).2
  rw [← e] at i1
  rw [← e'] at i2
  rw [← f] at i3
  rw [← f'] at i4
  exact ⟨le_antisymm ((Fl.le_val (B a).1.fin (B' a).1.fin).1 i2) ((Fl.le_val (B' a).1.fin (B a).1.fin).1 i1),
    le_antisymm ((Fl.le_val (B a).2.fin (B' a).2.fin).1 i3) ((Fl.le_val (B' a).2.fin (B a).2.fin).1 i4)⟩

theorem addedLights_same {b b' : BBox3 XR} (h : b.boundingSphere.2 = b'.boundingSphere.2) : ∀ (hist : List (BuilderCall XR)), (∀ c ∈ hist, FiniteCall c) →
    addedLights b hist = addedLights b' hist
  | [], _ => rfl
  | c :: hist, hf => by
    have ih := addedLights_same h hist fun c hc => hf c (List.mem_cons_of_mem _ hc)
    cases hf c List.mem_cons_self with
    | distant addr e w =>
      simp only [addedLights, ih, DistantLight.preProcess, DistantLight.toLight]
      congr 2
      unfold DistantLight.sampleLi
      simp only [h]
    | shape => exact ih
    | area => exact ih

theorem sceneBBox_eq {hist : List (BuilderCall XR)} (h : addedShapes hist ≠ []) : (built hist).sceneBBox = bboxOfShapes (sceneShapes hist) := by
  obtain ⟨-, h2, h3⟩ := built_fields hist (BBox3.new V3.zero V3.zero)
  unfold Builder.sceneBBox sceneShapes
  rw [h2, h3]
  cases e : addedShapes hist with
  | nil => exact absurd e h
  | cons s ss =>
    simp only [List.isEmpty_cons, bboxOfShapes, List.cons_append, asShapes, List.foldl_append, List.foldl_map]
    rfl

/-- C105, exact arithmetic, scenes of finite spheres, triangles, area lights and distant lights: two scenes made of the same objects, whatever the order in
which the shapes were added to the builder and whatever the containers (the simple one, or k-d trees of any depth), have the same lights and answer alike
about every ray that is not delicate. -/
theorem c105_scenes (hs : ExactSqrt) {hist hist' : List (BuilderCall XR)} (hf : ∀ c ∈ hist, FiniteCall c) (ho : SameButOrder hist hist')
    {mk mk' : List (Obj XR) → Option (Container XR)} (hmk : LibraryContainer mk) (hmk' : LibraryContainer mk') {scene scene' : Scene XR}
    (hsc : (built hist).construct mk = some scene) (hsc' : (built hist').construct mk' = some scene') :
    scene.lights = scene'.lights ∧ SameAnswersExcept (Delicate (sceneShapes hist)) scene scene' := by
  obtain ⟨box, hb, hc, -⟩ := c65_construct hist mk
  obtain ⟨box', hb', hc', -⟩ := c65_construct hist' mk'
  obtain ⟨l1, l2⟩ := hc scene hsc
  obtain ⟨l1', l2'⟩ := hc' scene' hsc'
  have hp := likePrim_scene hf
  have hm : ∀ s, s ∈ sceneShapes hist ↔ s ∈ sceneShapes hist' := by
    intro s; simp only [sceneShapes, List.mem_append, ho.areas, ho.shapes.mem_iff]
  refine ⟨?_, fun r hr => containers_agree hs hp hm hmk hmk' l2 l2' r hr⟩
  rw [l1, l1', ← ho.areas, ← ho.lights box']
  congr 1
  by_cases he : addedShapes hist = []
  · have he' : addedShapes hist' = [] := by have := ho.shapes; rw [he] at this; exact this.symm.eq_nil
    have : box = box' := by
      obtain ⟨-, h2, h3⟩ := built_fields hist box
      obtain ⟨-, h2', h3'⟩ := built_fields hist' box
      unfold Builder.sceneBBox at hb hb'
      rw [h2, h3, he, ho.areas] at hb
      rw [h2', h3', he'] at hb'
      rw [hb] at hb'
      exact Option.some.inj hb'
    rw [this]
  · have he' : addedShapes hist' ≠ [] := fun h => he (by have := ho.shapes; rw [h] at this; exact this.eq_nil)
    rw [sceneBBox_eq he] at hb
    rw [sceneBBox_eq he'] at hb'
    obtain ⟨b1, b2, b3⟩ := bboxOfShapes_same hp hm hb hb'
    exact addedLights_same (radius_same b1 b2 b3) hist hf

/-- C105: the image does not depend on the container or on the order in which the shapes were added.  In exact arithmetic, for every scene of finite spheres,
triangles, area lights and distant lights, every camera, film, filter, number of samples, number of threads and schedule: if no camera sample makes
the integrator ask about a delicate ray, the two renders reach the same states, and so write the same file. -/
theorem c105_same_image [HasNext XR] (hs : ExactSqrt) {hist hist' : List (BuilderCall XR)} (hf : ∀ c ∈ hist, FiniteCall c) (ho : SameButOrder hist hist')
    {mk mk' : List (Obj XR) → Option (Container XR)} (hmk : LibraryContainer mk) (hmk' : LibraryContainer mk') {scene scene' : Scene XR}
    (hsc : (built hist).construct mk = some scene) (hsc' : (built hist').construct mk' = some scene') (camera : PerspectiveCamera XR)
    (res : V2 Int) (filt : Filter XR) (spp : Nat) (hspp : spp < 2 ^ 32) (n : Nat) (file : Option (List UInt8)) :
    let film := Film.new res filt
    let sampler := HaltonSampler.new spp film.sampleBBox
    (∀ p, Spec.InBox film.sampleBBox p → ∀ i < max 1 spp, ¬ SampleTraces scene camera (Delicate (sceneShapes hist)) sampler p i) →
    ∀ k st, RReach (fun s b => renderTile HaltonSampler.ops (cameraRadiance scene camera) film s b) sampler (RState.init film n file) k st ↔
      RReach (fun s b => renderTile HaltonSampler.ops (cameraRadiance scene' camera) film s b) sampler (RState.init film n file) k st := by
  obtain ⟨h1, h2⟩ := c105_scenes hs hf ho hmk hmk' hsc hsc'
  exact c105_same_answers h1 h2 camera res filt spp hspp n file

end
end PT
