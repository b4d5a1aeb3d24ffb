import Verif.Props.Grey
import Verif.Props.RadianceLib
import Verif.Props.WholeImage
import Verif.Props.NoSelfHit
import Verif.Props.Picture

/-!
# Light comes from lamps only (C112)

A colour that no lamp has is nowhere in the picture, in single precision too and whatever the materials are; where the camera looks past everything the picture is
black; and who looks at a lamp sees at least its light.
-/

namespace PT
open Spec

/-! ### Specification -/

namespace Spec
/-- A notion of "no light" that arithmetic respects: zero is none, none and none is none, and none stays none when it is multiplied or divided by anything. -/
structure DarkRule {α : Type} [Scalar α] (None : α → Prop) : Prop where
  zero : None (lit 0)
  add : ∀ x y, None x → None y → None (x +. y)
  mul : ∀ x y, None x → None (x *. y)
  mul' : ∀ x y, None y → None (x *. y)
  div : ∀ x y, None x → None (x /. y)

/-- In floating point: zero, of either sign, or not a number. -/
def NoLight {φ K : Type} [Zero K] (x : Fl φ K) : Prop := x = .nan ∨ ∃ s, x = .fin s 0

/-- A call of the scene builder that adds no light of the given colour: a shape that does not emit it (its material may be anything), a light whose samples do not have
it, an area light whose colour does not have it. -/
inductive DarkCall {α : Type} [Scalar α] [Libm α] (None : α → Prop) (c : Channel) : BuilderCall α → Prop
  | light (addr l) : (∀ box i u s, (l box).sampleLi i u = some s → None (c.of s.li)) → DarkCall None c (.light addr l)
  | shape (addr) (s : Shape α) : (∀ i w, None (c.of (s.l i w))) → DarkCall None c (.shape addr s)
  | area (addr) (a : AreaLight α) : None (c.of a.l) → DarkCall None c (.area addr a)
end Spec

/-! ### Arithmetic -/

section
variable {α : Type} [Scalar α] {N : α → Prop} {c : Channel} (hN : DarkRule N)
include hN

theorem dark_zero : N (c.of (Spectrum.zero : Spectrum α)) := by cases c <;> exact hN.zero
theorem dark_add {s t : Spectrum α} (h1 : N (c.of s)) (h2 : N (c.of t)) : N (c.of (s.add t)) := by cases c <;> exact hN.add _ _ h1 h2
theorem dark_mul' {s t : Spectrum α} (h : N (c.of t)) : N (c.of (s.mul t)) := by cases c <;> exact hN.mul' _ _ h
theorem dark_smul {s : Spectrum α} (a : α) (h : N (c.of s)) : N (c.of (s.smul a)) := by cases c <;> exact hN.mul _ _ h
theorem dark_sdiv {s : Spectrum α} (a : α) (h : N (c.of s)) : N (c.of (s.sdiv a)) := by cases c <;> exact hN.div _ _ h
end

theorem dark_real : DarkRule (fun x : ℝ => x = 0) := by
  constructor
  · real_ops
  · rintro x y rfl rfl; real_ops; norm_num
  · rintro x y rfl; real_ops; norm_num
  · rintro x y rfl; real_ops; norm_num
  · rintro x y rfl; real_ops; norm_num

theorem dark_float {φ K : Type} [Field K] [LinearOrder K] [IsStrictOrderedRing K] [FloorRing K] [Rounding φ K] : DarkRule (NoLight : Fl φ K → Prop) := by
  have hsgn : ∀ s : Bool, Fl.sgn s (0 : K) = 0 := by intro s; cases s <;> simp [Fl.sgn]
  have hmag : ∀ s : Bool, NoLight (Fl.ofMag s 0 : Fl φ K) := fun s => Or.inr ⟨s, by simp [Fl.ofMag, Rounding.rnd_zero]⟩
  constructor
  · exact Or.inr ⟨false, by simp [Fl.f_lit, Fl.ofVal]⟩
  · intro x y hx hy
    rw [Fl.f_add]
    rcases hx with rfl | ⟨s, rfl⟩
    · exact Or.inl (by simp [Fl.add])
    · rcases hy with rfl | ⟨t, rfl⟩
      · exact Or.inl (by simp [Fl.add])
      · exact Or.inr ⟨s && t, by simp [Fl.add, hsgn, Fl.ofVal]⟩
  · intro x y hx
    rw [Fl.f_mul]
    rcases hx with rfl | ⟨s, rfl⟩
    · exact Or.inl (by simp [Fl.mul])
    · cases y with
      | nan => exact Or.inl (by simp [Fl.mul])
      | inf t => exact Or.inl (by simp [Fl.mul])
      | fin t b => simp only [Fl.mul, zero_mul]; exact hmag _
  · intro x y hy
    rw [Fl.f_mul]
    rcases hy with rfl | ⟨s, rfl⟩
    · cases x <;> exact Or.inl (by simp [Fl.mul])
    · cases x with
      | nan => exact Or.inl (by simp [Fl.mul])
      | inf t => exact Or.inl (by simp [Fl.mul])
      | fin t b => simp only [Fl.mul, mul_zero]; exact hmag _
  · intro x y hx
    rw [Fl.f_div]
    rcases hx with rfl | ⟨s, rfl⟩
    · exact Or.inl (by simp [Fl.div])
    · cases y with
      | nan => exact Or.inl (by simp [Fl.div])
      | inf t => exact Or.inr ⟨s ^^ t, by simp [Fl.div]⟩
      | fin t b =>
        simp only [Fl.div, zero_div]
        split_ifs
        · exact Or.inl rfl
        · exact hmag _

namespace Prog
theorem Yields.mono {α β : Type} {scene : Scene α} {U : α → Prop} {P Q : β → Prop} (h : ∀ x, P x → Q x) {p : Prog α β} (hp : p.Yields scene U P) :
    p.Yields scene U Q := by
  induction p with
  | ret x => exact h x hp
  | panic => trivial
  | get1 k ih => exact fun x hx => ih x (hp x hx)
  | get2 k ih => exact fun x h1 h2 => ih x (hp x h1 h2)
  | hit y r k ih => exact fun x hx => ih x (hp x hx)
  | occluded r k ih => exact fun x hx => ih x (hp x hx)
  | scatter h k ih => exact ih _ hp
end Prog

/-! ### Paths -/

section
variable {α : Type} [Scalar α] [Libm α] [HasInf α] [HasNext α] {N : α → Prop} {c : Channel} {scene : Scene α}
open Prog

/-- A scene without light of the colour. -/
structure DarkScene (N : α → Prop) (c : Channel) (scene : Scene α) : Prop where
  lights : ∀ l ∈ scene.lights, ∀ i u s, l.light.sampleLi i u = some s → N (c.of s.li)
  emits : ∀ ray h w, scene.shapes.intersect ray = some (some h) → N (c.of (h.obj.shape.l h.i w))

variable (hN : DarkRule N)
include hN

theorem dark_directFromLight {light : LightObj α} (hl : ∀ i u s, light.light.sampleLi i u = some s → N (c.of s.li)) (i : Interaction α) (bsdf : BSDF α)
    (u : V2 α) : (directFromLight light i bsdf u).Yields scene (fun _ => True) (fun s => N (c.of s)) := by
  unfold directFromLight
  refine Yields.bind (Q := fun s => light.light.sampleLi i u = some s) (fun s hs => ?_) (Yields.ofOption fun x h => h)
  have h1 := hl i u s hs
  refine Yields.ite (fun _ => ?_) fun _ => dark_zero hN
  refine Yields.ite (fun _ => ?_) fun _ => dark_zero hN
  refine Yields.bind (Q := fun _ => True) (fun occ _ => ?_) (fun _ _ => trivial)
  refine Yields.ite (fun _ => ?_) fun _ => dark_zero hN
  refine Yields.ite (fun _ => ?_) fun _ => ?_
  · exact dark_add hN (dark_zero hN) (dark_sdiv hN _ (dark_mul' hN h1))
  · exact dark_add hN (dark_zero hN) (dark_sdiv hN _ (dark_smul hN _ (dark_mul' hN h1)))

theorem dark_directFromBsdf (hsc : DarkScene N c scene) (light : LightObj α) (i : Interaction α) (bsdf : BSDF α) (u : V2 α)
    {ld : Spectrum α} (hld : N (c.of ld)) : (directFromBsdf light i bsdf u ld).Yields scene (fun _ => True) (fun s => N (c.of s)) := by
  unfold directFromBsdf
  refine Yields.ite (fun _ => ?_) fun _ => hld
  refine Yields.bind (Q := fun s => bsdf.sampleF i.wo u = some s) (fun s hs => ?_) (Yields.ofOption fun x h => h)
  obtain ⟨wi, f, p, flag⟩ := s
  dsimp only
  refine Yields.ite (fun _ => ?_) fun _ => hld
  refine Yields.ite (fun _ => hld) fun _ => ?_
  refine Yields.bind (Q := fun x => scene.shapes.intersect (i.spawnRay wi) = some x) (fun x hx => ?_) (fun x hx => hx)
  cases x with
  | none => exact hld
  | some h =>
    have hli : N (c.of (if h.obj.addr = light.addr then h.le wi.neg else Spectrum.zero)) := by
      split_ifs
      · exact hsc.emits _ h _ hx
      · exact dark_zero hN
    exact dark_add hN hld (dark_sdiv hN _ (dark_smul hN _ (dark_mul' hN hli)))

theorem dark_uniformSampleOneLight (hsc : DarkScene N c scene) (i : Interaction α) (bsdf : BSDF α) :
    (uniformSampleOneLight scene.lights i bsdf).Yields scene (fun _ => True) (fun s => N (c.of s)) := by
  unfold uniformSampleOneLight
  dsimp only
  refine Yields.ite (fun _ => dark_zero hN) fun _ => ?_
  refine Yields.bind (Q := fun _ => True) (fun u _ => ?_) (fun _ _ => trivial)
  refine Yields.bind (Q := fun l => l ∈ scene.lights) (fun light hl => ?_) (Yields.ofOption fun x h => List.mem_of_getElem? h)
  refine Yields.bind (Q := fun s => N (c.of s)) (fun ld hld => dark_smul hN _ hld) ?_
  unfold estimateDirect
  refine Yields.bind (Q := fun _ => True) (fun u _ => ?_) (fun _ _ _ => trivial)
  refine Yields.bind (Q := fun _ => True) (fun v _ => ?_) (fun _ _ _ => trivial)
  exact Yields.bind (Q := fun s => N (c.of s)) (fun ld hld => dark_directFromBsdf hN hsc light i bsdf v hld)
    (dark_directFromLight hN (fun i u s => hsc.lights light hl i u s) i bsdf u)

theorem dark_liLoop (hsc : DarkScene N c scene) (k : Nat) : ∀ (bounces : Nat) (ray : Ray α) (l beta : Spectrum α) (sb : Bool),
    MAX_BOUNCES + 1 - bounces = k → N (c.of l) → (liLoop scene.lights bounces ray l beta sb).Yields scene (fun _ => True) (fun s => N (c.of s)) := by
  induction k using Nat.strong_induction_on with
  | _ k ih =>
    intro bounces ray l beta sb hk hl
    rw [liLoop]
    refine Yields.bind (Q := fun x => scene.shapes.intersect ray = some x) (fun x hx => ?_) (fun x hx => hx)
    cases x with
    | none =>
      dsimp only
      split_ifs <;> exact hl
    | some h =>
      dsimp only
      generalize hl' : (if bounces = 0 ∨ sb = true then l.add (beta.mul (h.le ray.direction.neg)) else l) = l'
      have hl2 : N (c.of l') := by
        rw [← hl']
        split_ifs
        · exact dark_add hN hl (dark_mul' hN (hsc.emits ray h _ hx))
        · exact hl
      by_cases hb : bounces > MAX_BOUNCES
      · rw [dif_pos hb]; exact hl2
      rw [dif_neg hb]
      refine Yields.bind (Q := fun _ => True) (fun b _ => ?_) trivial
      refine Yields.bind (Q := fun s => N (c.of s)) (fun ld hld => ?_) (dark_uniformSampleOneLight hN hsc _ _)
      have hl3 : N (c.of (l'.add (beta.mul ld))) := dark_add hN hl2 (dark_mul' hN hld)
      refine Yields.bind (Q := fun _ => True) (fun u _ => ?_) (fun _ _ _ => trivial)
      refine Yields.bind (Q := fun _ => True) (fun s hs => ?_) (Yields.ofOption fun x h => trivial)
      obtain ⟨wi, f, p, flag⟩ := s
      dsimp only
      refine Yields.ite (fun _ => hl3) fun hc => ?_
      refine Yields.ite (fun _ => ?_) fun _ => ?_
      · refine Yields.bind (Q := fun _ => True) (fun v _ => ?_) (fun _ _ => trivial)
        unfold roulette
        dsimp only
        split_ifs
        · exact hl3
        · exact ih (MAX_BOUNCES + 1 - (bounces + 1)) (by omega) _ _ _ _ _ rfl hl3
      · exact ih (MAX_BOUNCES + 1 - (bounces + 1)) (by omega) _ _ _ _ _ rfl hl3

theorem dark_cameraRadiance (hsc : DarkScene N c scene) (camera : PerspectiveCamera α) (pFilm : V2 α) {σ : Type} (ops : SamplerOps α σ) (s s' : σ)
    (l : Spectrum α) (h : (cameraRadiance scene camera pFilm).run ops s = some (l, s')) : N (c.of l) :=
  Yields.run (U := fun _ => True) ⟨fun _ _ _ _ => trivial, fun _ _ _ _ => ⟨trivial, trivial⟩⟩ (dark_liLoop hN hsc _ 0 _ _ _ false rfl (dark_zero hN)) s l s' h
end

/-! ### Films -/

section
variable {α : Type} [Scalar α] {N : α → Prop} {c : Channel} {σ : Type} (hN : DarkRule N)
include hN

theorem dark_pixelLoop {ops : SamplerOps α σ} {radiance : V2 α → Draw α (Spectrum α)} (hr : ∀ p s l s', (radiance p).run ops s = some (l, s') → N (c.of l))
    (pixel : V2 Int) : ∀ (fuel : Nat) (t : FilmTile α) (s : σ) (t' : FilmTile α) (s' : σ), (∀ p ∈ t.pixels, N (c.of p.color)) →
    pixelLoop ops radiance pixel fuel t s = some (t', s') → ∀ p ∈ t'.pixels, N (c.of p.color) := by
  intro fuel
  induction fuel with
  | zero => intro t s t' s' _ e; simp [pixelLoop] at e
  | succ fuel ih =>
    intro t s t' s' h e
    simp only [pixelLoop, bind] at e
    obtain ⟨⟨⟨pf, l⟩, s1⟩, e0, e⟩ := Option.bind_eq_some_iff.1 e
    obtain ⟨t1, e1, e⟩ := Option.bind_eq_some_iff.1 e
    have hl : N (c.of l) := by
      unfold oneSample at e0
      rw [draw_bind_run] at e0
      obtain ⟨⟨pf', s2⟩, -, e0⟩ := Option.bind_eq_some_iff.1 e0
      rw [draw_bind_run] at e0
      obtain ⟨⟨l', s3⟩, el, e0⟩ := Option.bind_eq_some_iff.1 e0
      simp only [Draw.run, Option.some.injEq, Prod.mk.injEq] at e0
      obtain ⟨⟨-, rfl⟩, -⟩ := e0
      exact hr _ _ _ _ el
    have h1 : ∀ p ∈ t1.pixels, N (c.of p.color) := by
      unfold addIfValid at e1
      split_ifs at e1
      · exact (addSample_inv (fun p => N (c.of p.color)) (fun _ => True) (fun _ _ _ _ => trivial) h
          (fun p w hp _ => dark_add hN hp (dark_smul hN _ hl)) e1).2
      · cases e1; exact h
    split_ifs at e
    · exact ih t1 _ t' s' h1 e
    · cases e; exact h1

theorem dark_renderTile {ops : SamplerOps α σ} {radiance : V2 α → Draw α (Spectrum α)} (hr : ∀ p s l s', (radiance p).run ops s = some (l, s') → N (c.of l))
    (film : Film α) (s : σ) (b : BBox2i) (t : FilmTile α) (s' : σ) (e : renderTile ops radiance film s b = some (t, s')) :
    ∀ p ∈ t.pixels, N (c.of p.color) := by
  unfold renderTile at e
  refine foldlM_inv (fun acc : FilmTile α × σ => ∀ p ∈ acc.1.pixels, N (c.of p.color)) _ _ ?_ _ (t, s') ?_ e
  · rintro ⟨t1, s1⟩ p _ ⟨t2, s2⟩ h1 e1
    exact dark_pixelLoop hN hr p _ _ _ _ _ h1 e1
  · intro p hp
    obtain rfl := (List.mem_replicate.1 hp).2
    exact dark_zero hN

theorem dark_merge {film film' : Film α} {t : FilmTile α} (hf : ∀ p ∈ film.pixels, N (c.of p.color)) (ht : ∀ p ∈ t.pixels, N (c.of p.color))
    (e : film.mergeFilmTile t = some film') : (∀ p ∈ film'.pixels, N (c.of p.color)) ∧ film'.pixels.length = film.pixels.length ∧ film'.resolution = film.resolution := by
  unfold Film.mergeFilmTile at e
  refine foldlM_inv (fun f : Film α => (∀ p ∈ f.pixels, N (c.of p.color)) ∧ f.pixels.length = film.pixels.length ∧ f.resolution = film.resolution) _ _ ?_ _ _
    ⟨hf, rfl, rfl⟩ e
  intro f p _ f' ⟨h1, h2, h3⟩ e
  unfold Film.mergePixel at e
  simp only [bind, pure] at e
  obtain ⟨src, e1, e⟩ := Option.bind_eq_some_iff.1 e
  obtain ⟨px, e2, e⟩ := Option.bind_eq_some_iff.1 e
  cases e
  refine ⟨modifyAt_inv _ h1 (fun q hq => dark_add hN hq (ht src (List.mem_of_getElem? e1))) e2, ?_, h3⟩
  unfold modifyAt at e2
  split_ifs at e2
  cases e2
  simpa using h2
end

/-! ### Scenes -/

section
variable {α : Type} [Scalar α] [Libm α] [HasInf α] [HasNext α] {N : α → Prop} {c : Channel} (hN : DarkRule N)
include hN

omit [HasInf α] [HasNext α] in
theorem dark_shapes : ∀ (hist : List (BuilderCall α)), (∀ x ∈ hist, DarkCall N c x) →
    (∀ s ∈ sceneShapes hist, ∀ i w, N (c.of (s.shape.l i w))) ∧
    ∀ box, ∀ l ∈ addedLights box hist ++ asLights (addedAreas hist), ∀ i u s, l.light.sampleLi i u = some s → N (c.of s.li) := by
  intro hist hlib
  have he : ∀ (a : AreaLight α), N (c.of a.l) → ∀ i w, N (c.of (a.emitted i w)) := by
    intro a ha i w
    unfold AreaLight.emitted
    split
    · exact ha
    · exact dark_zero hN
  have e1 : ∀ hist : List (BuilderCall α), (∀ x ∈ hist, DarkCall N c x) → ∀ s ∈ addedShapes hist, ∀ i w, N (c.of (s.shape.l i w)) := by
    intro hist
    induction hist with
    | nil => intro _ s h; simp [addedShapes] at h
    | cons x hist ih =>
      intro hlib s h
      have ht := ih (fun c hc => hlib c (by simp [hc])) s
      cases hlib x (by simp) with
      | light => exact ht h
      | area => exact ht h
      | shape addr sh hs =>
        rcases List.mem_cons.1 h with rfl | h
        · exact hs
        · exact ht h
  have e2 : ∀ hist : List (BuilderCall α), (∀ x ∈ hist, DarkCall N c x) → ∀ a ∈ addedAreas hist, N (c.of a.2.l) := by
    intro hist
    induction hist with
    | nil => intro _ s h; simp [addedAreas] at h
    | cons x hist ih =>
      intro hlib s h
      have ht := ih (fun c hc => hlib c (by simp [hc])) s
      cases hlib x (by simp) with
      | light => exact ht h
      | shape => exact ht h
      | area addr a ha =>
        rcases List.mem_cons.1 h with rfl | h
        · exact ha
        · exact ht h
  have e3 : ∀ (box : BBox3 α) (hist : List (BuilderCall α)), (∀ x ∈ hist, DarkCall N c x) → ∀ l ∈ addedLights box hist, ∀ i u s,
      l.light.sampleLi i u = some s → N (c.of s.li) := by
    intro box hist
    induction hist with
    | nil => intro _ s h; simp [addedLights] at h
    | cons x hist ih =>
      intro hlib s h
      have ht := ih (fun c hc => hlib c (by simp [hc])) s
      cases hlib x (by simp) with
      | area => exact ht h
      | shape => exact ht h
      | light addr l hl =>
        rcases List.mem_cons.1 h with rfl | h
        · exact hl box
        · exact ht h
  constructor
  · intro s hs
    rcases List.mem_append.1 hs with hs | hs
    · exact e1 hist hlib s hs
    · obtain ⟨a, ha, rfl⟩ := List.mem_map.1 hs
      exact he a.2 (e2 hist hlib a ha)
  · intro box l hl
    rcases List.mem_append.1 hl with hl | hl
    · exact e3 box hist hlib l hl
    · obtain ⟨a, ha, rfl⟩ := List.mem_map.1 hl
      intro i u s hs
      obtain ⟨p, -, rfl⟩ := Option.map_eq_some_iff.1 hs
      exact he a.2 (e2 hist hlib a ha) _ _

omit [HasInf α] [HasNext α] in
theorem dark_scene (hist : List (BuilderCall α)) (hlib : ∀ x ∈ hist, DarkCall N c x)
    {mk : List (Obj α) → Option (Container α)} (hmk : LibraryContainer mk) {scene : Scene α} (hsc : (built hist).construct mk = some scene) :
    DarkScene N c scene := by
  obtain ⟨box, -, h, -⟩ := c65_construct hist mk
  obtain ⟨hl, hc⟩ := h scene hsc
  obtain ⟨hS, hL⟩ := dark_shapes hN hist hlib
  exact ⟨fun l hl' => hL box l (hl ▸ hl'), fun ray h w hh => hS _ (container_hit_from hmk hc ray h hh) _ _⟩

/-- C112, samples and film: if no lamp has a colour, then no camera sample and no pixel of the finished film has it: in any arithmetic, with any shapes, materials,
sampler, filter and schedule. -/
theorem c112_film (hist : List (BuilderCall α)) (hlib : ∀ x ∈ hist, DarkCall N c x)
    {mk : List (Obj α) → Option (Container α)} (hmk : LibraryContainer mk) {scene : Scene α} (hsc : (built hist).construct mk = some scene)
    (camera : PerspectiveCamera α) (res : V2 Int) (filt : Filter α) {σ : Type} (ops : SamplerOps α σ) (sampler : σ)
    (n : Nat) (hn : 1 ≤ n) (file : Option (List UInt8)) :
    (∀ pFilm s s' l, (cameraRadiance scene camera pFilm).run ops s = some (l, s') → N (c.of l)) ∧
    ∀ (k : Nat) (st : RState α σ), RReach (renderTile ops (cameraRadiance scene camera) (Film.new res filt)) sampler (RState.init (Film.new res filt) n file) k st →
      st.main = .done → (∀ p ∈ st.sh.film.pixels, N (c.of p.color)) ∧ st.sh.film.pixels.length = (Film.new res filt).pixels.length ∧ st.sh.film.resolution = res := by
  have hD := dark_scene hN hist hlib hmk hsc
  refine ⟨fun p s s' l h => dark_cameraRadiance hN hD camera p ops s s' l h, fun k st hr hdone => ?_⟩
  obtain ⟨log, -, h2, h3, -⟩ := c06_every_tile_once _ sampler _ n hn file k st hr hdone
  refine foldlM_inv (fun f : Film α => (∀ p ∈ f.pixels, N (c.of p.color)) ∧ f.pixels.length = (Film.new res filt).pixels.length ∧ f.resolution = res) _ _ ?_ _ _
    ⟨?_, rfl, rfl⟩ h3
  · rintro f e he f' ⟨a1, a2, a3⟩ e1
    obtain ⟨s', hw⟩ := h2 e he
    obtain ⟨b1, b2, b3⟩ := dark_merge hN a1
      (dark_renderTile hN (fun p s l s' h => dark_cameraRadiance hN hD camera p ops s s' l h) _ _ _ _ _ hw) e1
    exact ⟨b1, b2.trans a2, b3.trans a3⟩
  · intro p hp
    obtain rfl := (List.mem_replicate.1 hp).2
    exact dark_zero hN
end

/-! ### The image file -/

theorem dark_byte [Libm F32] (hpow : Libm.powf (.nan : F32) (lit 1 /. lit (24 / 10)) = .nan) (v w : F32) (h : NoLight v) : channelByte v w ≤ 1 := by
  have hd := dark_float.div v w h
  unfold channelByte
  generalize v /. w = x at hd
  rcases hd with rfl | ⟨s, rfl⟩
  · have e : gammaCorrect (.nan : F32) = .nan := by
      unfold gammaCorrect
      have h1 : ((.nan : F32) <=. lit (31308 / 10000000)) = false := by decide +kernel
      rw [if_neg (by rw [h1]; simp), hpow]
      decide +kernel
    rw [e]
    decide +kernel
  · have e : ((.fin s 0 : F32) <=. lit (31308 / 10000000)) = true := by revert s; decide +kernel
    unfold gammaCorrect
    rw [if_pos e]
    revert s
    decide +kernel

section
variable [Libm F32] [Libm F64] {c : Channel}

/-- C112, file: if no lamp has a colour, that colour is nowhere in the image file: its number is 0 or, as for black (C10), 1 in every pixel.  Single precision, any
shapes and materials, any sampler, filter and schedule.  The math library is only assumed to raise NaN to NaN. -/
theorem c112_file (hpow : Libm.powf (.nan : F32) (lit 1 /. lit (24 / 10)) = .nan)
    (hist : List (BuilderCall F32)) (hlib : ∀ x ∈ hist, DarkCall NoLight c x)
    {mk : List (Obj F32) → Option (Container F32)} (hmk : LibraryContainer mk) {scene : Scene F32} (hsc : (built hist).construct mk = some scene)
    (camera : PerspectiveCamera F32) (res : V2 Int) (hx : 0 < res.x) (hy : 0 ≤ res.y) (ha : res.x * res.y < 2 ^ 31) (filt : Filter F32)
    {σ : Type} (ops : SamplerOps F32 σ) (sampler : σ) (n : Nat) (hn : 1 ≤ n) (k : Nat) (st : RState F32 σ)
    (hr : RReach (renderTile ops (cameraRadiance scene camera) (Film.new res filt)) sampler (RState.init (Film.new res filt) n none) k st)
    (hdone : st.main = .done) :
    ∃ (text : String) (px : List (Nat × Nat × Nat)), st.file = some text.toUTF8.toList ∧ IsPpm text res.x res.y px ∧ ∀ q ∈ px, c.num q ≤ 1 := by
  obtain ⟨f1, f2, f3⟩ := (c112_film dark_float hist hlib hmk hsc camera res filt ops sampler n hn none).2 k st hr hdone
  obtain ⟨text, px, h1, h2, h3⟩ := file_channels _ sampler res hx hy ha filt n hn k st hr hdone f2 f3
  refine ⟨text, px, h1, h2, fun q hq => ?_⟩
  obtain ⟨p, hp, e⟩ := h3 q hq
  rw [e]
  exact dark_byte hpow _ _ (f1 p hp)

/-- C112: without lamps the image is black, whatever is in the scene. -/
theorem c112_no_lamps (hpow : Libm.powf (.nan : F32) (lit 1 /. lit (24 / 10)) = .nan)
    (hist : List (BuilderCall F32)) (hlib : ∀ x ∈ hist, ∃ addr s, x = .shape addr s ∧ ∀ i w, s.l i w = Spectrum.zero)
    {mk : List (Obj F32) → Option (Container F32)} (hmk : LibraryContainer mk) {scene : Scene F32} (hsc : (built hist).construct mk = some scene)
    (camera : PerspectiveCamera F32) (res : V2 Int) (hx : 0 < res.x) (hy : 0 ≤ res.y) (ha : res.x * res.y < 2 ^ 31) (filt : Filter F32)
    {σ : Type} (ops : SamplerOps F32 σ) (sampler : σ) (n : Nat) (hn : 1 ≤ n) (k : Nat) (st : RState F32 σ)
    (hr : RReach (renderTile ops (cameraRadiance scene camera) (Film.new res filt)) sampler (RState.init (Film.new res filt) n none) k st)
    (hdone : st.main = .done) :
    ∃ (text : String) (px : List (Nat × Nat × Nat)), st.file = some text.toUTF8.toList ∧ IsPpm text res.x res.y px ∧ ∀ q ∈ px, q.1 ≤ 1 ∧ q.2.1 ≤ 1 ∧ q.2.2 ≤ 1 := by
  have F : ∀ c : Channel, _ := fun c => (c112_film (c := c) dark_float hist (fun x hx => by
    obtain ⟨addr, s, rfl, h⟩ := hlib x hx
    exact .shape _ _ fun i w => by rw [h]; exact dark_zero dark_float) hmk hsc camera res filt ops sampler n hn none).2 k st hr hdone
  obtain ⟨-, f2, f3⟩ := F .red
  obtain ⟨text, px, h1, h2, h3⟩ := file_channels _ sampler res hx hy ha filt n hn k st hr hdone f2 f3
  refine ⟨text, px, h1, h2, fun q hq => ?_⟩
  obtain ⟨p, hp, e⟩ := h3 q hq
  have G : ∀ c : Channel, c.num q ≤ 1 := fun c => by rw [e]; exact dark_byte hpow _ _ ((F c).1 p hp)
  exact ⟨G .red, G .green, G .blue⟩
end

/-! ### Background -/

section
variable {α : Type} [Scalar α] [Libm α] [HasInf α] [HasNext α]

/-- C112, background: a camera ray that meets nothing brings exactly no light, in any arithmetic, whatever the lights of the scene and the sampler. -/
theorem c112_background (scene : Scene α) (camera : PerspectiveCamera α) (pFilm : V2 α) (hmiss : scene.shapes.intersect (camera.generateRay pFilm) = some none)
    {σ : Type} (ops : SamplerOps α σ) (s s' : σ) (l : Spectrum α) (h : (cameraRadiance scene camera pFilm).run ops s = some (l, s')) :
    l = Spectrum.zero := by
  refine Prog.Yields.run (U := fun _ => True) (Q := fun l => l = Spectrum.zero) ⟨fun _ _ _ _ => trivial, fun _ _ _ _ => ⟨trivial, trivial⟩⟩ ?_ s l s' h
  unfold li
  rw [liLoop]
  refine Prog.Yields.bind (Q := fun x => x = none) (fun x hx => ?_) (fun x hx => ?_)
  · subst hx
    dsimp only
    split_ifs <;> exact rfl
  · exact Option.some.inj (hx.symm.trans hmiss)
end

/-- C112, background of the picture: a pixel is black if the camera looks past everything all over the area the pixel's samples come from. -/
theorem c112_background_pixel [HasInf ℝ] [HasNext ℝ] (scene : Scene ℝ) (camera : PerspectiveCamera ℝ)
    (res : V2 Int) (filt : Filter ℝ) (hR : FilmRange res filt.radius) (hfilt : ∀ p, 0 ≤ filt.evaluate p) (spp : Nat) (hspp : spp < 2 ^ 32)
    (n : Nat) (hn : 1 ≤ n) (file : Option (List UInt8)) (k : Nat) (st : RState ℝ HaltonSampler)
    (hr : RReach (fun s b => renderTile HaltonSampler.ops (cameraRadiance scene camera) (Film.new res filt) s b)
      (HaltonSampler.new spp (Film.new res filt).sampleBBox) (RState.init (Film.new res filt) n file) k st) (hdone : st.main = .done)
    (x y : Int) (hi : Spec.InImage res x y) (hmiss : ∀ p : V2 ℝ, Within filt.radius p x y → scene.shapes.intersect (camera.generateRay p) = some none) :
    (st.sh.film.px x y).color = ⟨0, 0, 0⟩ := by
  have key : ∀ c : Chan, c.of (st.sh.film.px x y).color = 0 := by
    intro c
    obtain ⟨h1, h2⟩ := (c103_between res filt hR hfilt (cameraRadiance scene camera) spp hspp n hn file k st hr hdone x y hi).2 c 0 0 (by
      rintro s ⟨p, i, -, -, hc, -, hw⟩
      obtain ⟨s1, s2, h3⟩ := cameraSample_light hc
      rw [c112_background scene camera s.1 (hmiss _ hw) _ _ _ _ h3, c.of_zero]
      exact ⟨le_refl _, le_refl _⟩)
    rw [zero_mul] at h1 h2
    exact le_antisymm h2 h1
  have h1 := key .r
  have h2 := key .g
  have h3 := key .b
  revert h1 h2 h3
  generalize (st.sh.film.px x y).color = q
  intro h1 h2 h3
  obtain ⟨a, b, d⟩ := q
  simp only [Chan.of] at h1 h2 h3
  rw [h1, h2, h3]

/-! ### Lamps in view -/

section
variable [HasInf ℝ] [HasNext ℝ] {D : V3 ℝ → Prop} {U : ℝ → Prop} {scene : Scene ℝ}
open Prog

theorem chan_nonneg {s : Spectrum ℝ} (h : Channels (fun x : ℝ => 0 ≤ x) s) (c : Chan) : 0 ≤ c.of s := by
  cases c
  · exact h.1
  · exact h.2.1
  · exact h.2.2

/-- What has been gathered is kept, and the light of the first thing met is added when the path has just left the camera or a mirror. -/
theorem liLoop_atLeast (hsc : SceneContract (fun x : ℝ => 0 ≤ x) D U scene) (c : Chan) (k : Nat) :
    ∀ (bounces : Nat) (ray : Ray ℝ) (l beta : Spectrum ℝ) (sb : Bool), MAX_BOUNCES + 1 - bounces = k →
    D ray.direction → Channels (fun x : ℝ => 0 ≤ x) beta → (liLoop scene.lights bounces ray l beta sb).Yields scene U
      (fun s => c.of l ≤ c.of s ∧ ∀ h, scene.shapes.intersect ray = some (some h) → bounces = 0 ∨ sb = true →
        c.of l + c.of beta * c.of (h.le ray.direction.neg) ≤ c.of s) := by
  have hP := c67_real_rule.1
  have hpos := c67_real_rule.2
  induction k using Nat.strong_induction_on with
  | _ k ih =>
    intro bounces ray l beta sb hk hd hbeta
    rw [liLoop]
    refine Yields.bind (Q := fun x => scene.shapes.intersect ray = some x) (fun x hx => ?_) (fun x hx => hx)
    cases x with
    | none =>
      have : c.of l ≤ c.of l ∧ ∀ h, scene.shapes.intersect ray = some (some h) → bounces = 0 ∨ sb = true →
          c.of l + c.of beta * c.of (h.le ray.direction.neg) ≤ c.of l :=
        ⟨le_refl _, fun h hh => by rw [hx] at hh; simp at hh⟩
      dsimp only
      split_ifs <;> exact this
    | some h =>
      dsimp only
      generalize hl' : (if bounces = 0 ∨ sb = true then l.add (beta.mul (h.le ray.direction.neg)) else l) = l'
      have hle := hsc.emits ray h ray.direction.neg hd hx
      have hmulc : ∀ s t : Spectrum ℝ, c.of (s.mul t) = c.of s * c.of t := fun s t => by cases c <;> rfl
      have haddc : ∀ s t : Spectrum ℝ, c.of (s.add t) = c.of s + c.of t := fun s t => by cases c <;> rfl
      have hprod : 0 ≤ c.of beta * c.of (h.le ray.direction.neg) := mul_nonneg (chan_nonneg hbeta c) (chan_nonneg hle c)
      have weaken : ∀ s : Spectrum ℝ, c.of l' ≤ c.of s → c.of l ≤ c.of s ∧ ∀ h, scene.shapes.intersect ray = some (some h) → bounces = 0 ∨ sb = true →
          c.of l + c.of beta * c.of (h.le ray.direction.neg) ≤ c.of s := by
        intro s hs
        constructor
        · refine le_trans ?_ hs
          rw [← hl']
          split_ifs
          · rw [haddc, hmulc]; linarith
          · exact le_refl _
        · intro h2 hh hb
          rw [hx] at hh
          obtain rfl : h = h2 := by simpa using hh
          rw [if_pos hb] at hl'
          rw [← hl', haddc, hmulc] at hs
          exact hs
      refine Yields.mono (P := fun s => c.of l' ≤ c.of s) weaken ?_
      by_cases hb : bounces > MAX_BOUNCES
      · rw [dif_pos hb]; exact le_refl _
      rw [dif_neg hb]
      have hbs := hsc.scatters ray h hd hx
      have hwo := hsc.wo ray h hd hx
      refine Yields.bind (Q := fun b => b = h.obj.shape.material h.i) (fun b hb' => ?_) (show _ = _ from rfl)
      subst hb'
      refine Yields.bind (Q := Channels (fun x : ℝ => 0 ≤ x)) (fun ld hld => ?_) (uniformSampleOneLight_yields hP hsc hwo hbs hpos)
      have hl3 : c.of l' ≤ c.of (l'.add (beta.mul ld)) := by
        rw [haddc, hmulc]
        have := mul_nonneg (chan_nonneg hbeta c) (chan_nonneg hld c)
        linarith
      refine Yields.bind (Q := fun u => U u.x ∧ U u.y) (fun u hu => ?_) (fun _ h1 h2 => ⟨h1, h2⟩)
      refine Yields.bind (Q := fun s => (h.obj.shape.material h.i).sampleF h.i.wo u = some s) (fun s hs => ?_) (Yields.ofOption fun x h => h)
      obtain ⟨wi, f, p, flag⟩ := s
      dsimp only
      refine Yields.ite (fun _ => hl3) fun hc => ?_
      obtain ⟨h1, h2, hwi⟩ := hbs.sample _ u wi f p flag hwo hu.1 hu.2 hs (by intro e; apply hc; simp [e])
      have hbeta' : Channels (fun x : ℝ => 0 ≤ x) (scatterWeight beta f wi h.i.sn p) :=
        hP.mulS hbeta (hP.sdivS (hP.smulS h1 (hP.absDot _ _)) h2)
      refine Yields.ite (fun _ => ?_) fun _ => ?_
      · refine Yields.bind (Q := fun _ => True) (fun v _ => ?_) (fun _ _ => trivial)
        unfold roulette
        dsimp only
        split_ifs
        · exact hl3
        · refine Yields.mono (fun s hs => le_trans hl3 hs.1) (ih (MAX_BOUNCES + 1 - (bounces + 1)) (by omega) _ _ _ _ _ rfl hwi
            (hP.sdivS hbeta' (hP.fmin _ _ ?_ (hP.lit _ (by norm_num)))))
          unfold Spectrum.y
          exact hP.add _ _ (hP.add _ _ (hP.mul _ _ (hP.lit _ (by norm_num)) hbeta'.1) (hP.mul _ _ (hP.lit _ (by norm_num)) hbeta'.2.1))
            (hP.mul _ _ (hP.lit _ (by norm_num)) hbeta'.2.2)
      · exact Yields.mono (fun s hs => le_trans hl3 hs.1) (ih (MAX_BOUNCES + 1 - (bounces + 1)) (by omega) _ _ _ _ _ rfl hwi hbeta')

/-- C112, lamps in view: who looks at a lamp gets at least the light it emits towards the camera, in every sample. -/
theorem c112_lamp (hsc : SceneContract (fun x : ℝ => 0 ≤ x) D U scene) (camera : PerspectiveCamera ℝ) (pFilm : V2 ℝ)
    (hd : D (camera.generateRay pFilm).direction) (h : Hit ℝ) (hh : scene.shapes.intersect (camera.generateRay pFilm) = some (some h))
    {σ : Type} (ops : SamplerOps ℝ σ) (hops : Delivers U ops) (s s' : σ) (l : Spectrum ℝ)
    (e : (cameraRadiance scene camera pFilm).run ops s = some (l, s')) (c : Chan) :
    c.of (h.obj.shape.l h.i (camera.generateRay pFilm).direction.neg) ≤ c.of l := by
  have h1 := c67_real_rule.1.lit 1 (by norm_num)
  have := (Yields.run hops (liLoop_atLeast hsc c _ 0 _ _ _ _ rfl hd ⟨h1, h1, h1⟩) s l s' e).2 h hh (Or.inl rfl)
  rw [c.of_zero, c.of_one, zero_add, one_mul] at this
  exact this
end

/-- C112, lamps in the picture: if all over the area a pixel's samples come from the camera looks at things that emit at least so much light towards it,
the pixel is at least so bright. -/
theorem c112_lamp_pixel [HasInf ℝ] [HasNext ℝ] {D : V3 ℝ → Prop} {scene : Scene ℝ} (hsc : SceneContract (fun x : ℝ => 0 ≤ x) D Canonical scene)
    (camera : PerspectiveCamera ℝ) (hcam : ∀ p, D (camera.generateRay p).direction)
    (res : V2 Int) (filt : Filter ℝ) (hR : FilmRange res filt.radius) (hfilt : ∀ p, 0 ≤ filt.evaluate p) (spp : Nat) (hspp : spp < 2 ^ 32)
    (n : Nat) (hn : 1 ≤ n) (file : Option (List UInt8)) (k : Nat) (st : RState ℝ HaltonSampler)
    (hr : RReach (fun s b => renderTile HaltonSampler.ops (cameraRadiance scene camera) (Film.new res filt) s b)
      (HaltonSampler.new spp (Film.new res filt).sampleBBox) (RState.init (Film.new res filt) n file) k st) (hdone : st.main = .done)
    (x y : Int) (hi : Spec.InImage res x y) (c : Chan) (a : ℝ)
    (hlamp : ∀ p : V2 ℝ, Within filt.radius p x y → ∃ h, scene.shapes.intersect (camera.generateRay p) = some (some h) ∧
      a ≤ c.of (h.obj.shape.l h.i (camera.generateRay p).direction.neg)) :
    a * (st.sh.film.px x y).weight ≤ c.of (st.sh.film.px x y).color := by
  obtain ⟨ps, -, hps⟩ := exists_sampled res filt hR
  obtain ⟨b, hb⟩ : ∃ b : ℝ, ∀ s, Counts res filt (cameraRadiance scene camera) (HaltonSampler.new spp (Film.new res filt).sampleBBox) spp x y s → c.of s.2 ≤ b := by
    let L := ps.flatMap fun p => (List.range (max 1 spp)).flatMap fun i =>
      (cameraSample (cameraRadiance scene camera) (HaltonSampler.new spp (Film.new res filt).sampleBBox) p i).toList
    obtain ⟨b, hb⟩ := ((L.map fun s => c.of s.2).toFinset.finite_toSet).bddAbove
    refine ⟨b, fun s ⟨p, i, h1, h2, h3, _⟩ => hb ?_⟩
    simp only [List.coe_toFinset, Set.mem_ofPred_eq, List.mem_map]
    exact ⟨s, List.mem_flatMap.2 ⟨p, (hps p).2 h1, List.mem_flatMap.2 ⟨i, List.mem_range.2 h2, by rw [h3]; simp⟩⟩, rfl⟩
  refine ((c103_between res filt hR hfilt (cameraRadiance scene camera) spp hspp n hn file k st hr hdone x y hi).2 c a b fun s hs => ⟨?_, hb s hs⟩).1
  obtain ⟨p, i, -, -, hc, -, hw⟩ := hs
  obtain ⟨s1, s2, h3⟩ := cameraSample_light hc
  obtain ⟨h, hh, ha⟩ := hlamp _ hw
  exact ha.trans (c112_lamp hsc camera _ (hcam _) h hh HaltonSampler.ops halton_delivers _ _ _ h3 c)

/-! ### Examples -/

/-- Red light only: spheres of matt, mirror and rough metal material in the light of a red lamp far away.  The scene is without green and without blue light, is
rendered to the end, and so there is no green and no blue in the image file. -/
example [L : Libm F32] [Libm F64] (hpow : Libm.powf (.nan : F32) (lit 1 /. lit (24 / 10)) = .nan) (camera : PerspectiveCamera F32) (filt : Filter F32)
    (hR : FilmRange32 ⟨640, 480⟩ filt.radius) :
    let tex : ℚ → TextureOf F32 (Spectrum F32) := fun v _ => ⟨lit v, lit 1, lit (1 / 2)⟩
    let hist : List (BuilderCall F32) :=
      [.shape 1 (Sphere.mk ⟨lit 0, lit 0, lit 3⟩ (lit 1) (lambertianMaterial (tex (1 / 2)))).toShape,
       .shape 2 (Sphere.mk ⟨lit 3, lit 0, lit 3⟩ (lit 1) (mirrorMaterial (tex 1))).toShape,
       .shape 3 (Sphere.mk ⟨lit 6, lit 0, lit 3⟩ (lit 1) (metalMaterial (tex 1) (tex (1 / 5)) (tex 3) (fun _ => lit (1 / 10)) (fun _ => lit (1 / 10)))).toShape,
       .light 5 (fun box => ((DistantLight.new ⟨lit 1, lit 0, lit 0⟩ ⟨lit 0, lit 0, lit 1⟩).preProcess box).toLight)]
    (∀ x ∈ hist, DarkCall NoLight .green x ∧ DarkCall NoLight .blue x) ∧
    ∃ scene, (built hist).construct (fun ss => (Simple.new ss).map Simple.toContainer) = some scene ∧
      ∃ k st, RReach (renderTile HaltonSampler.ops (cameraRadiance scene camera) (Film.new ⟨640, 480⟩ filt)) (HaltonSampler.new 16 (Film.new ⟨640, 480⟩ filt).sampleBBox)
        (RState.init (Film.new ⟨640, 480⟩ filt) 4 none) k st ∧ st.main = .done ∧
        ∃ (text : String) (px : List (Nat × Nat × Nat)), st.file = some text.toUTF8.toList ∧ IsPpm text 640 480 px ∧ ∀ q ∈ px, q.2.1 ≤ 1 ∧ q.2.2 ≤ 1 := by
  intro tex hist
  have hz : ∀ c : Channel, NoLight (c.of (Spectrum.zero : Spectrum F32)) := fun c => dark_zero dark_float
  have hD : ∀ c : Channel, c ≠ .red → ∀ x ∈ hist, DarkCall NoLight c x := by
    intro c hc x hx
    simp only [hist, List.mem_cons, List.not_mem_nil, or_false] at hx
    rcases hx with rfl | rfl | rfl | rfl
    · exact .shape _ _ fun _ _ => hz c
    · exact .shape _ _ fun _ _ => hz c
    · exact .shape _ _ fun _ _ => hz c
    · refine .light _ _ fun box i u s hs => ?_
      cases Option.some.inj hs
      cases c with
      | red => exact absurd rfl hc
      | green => exact dark_float.zero
      | blue => exact dark_float.zero
  have hS : ∀ x ∈ hist, SphereCall x := by
    intro x hx
    simp only [hist, List.mem_cons, List.not_mem_nil, or_false] at hx
    rcases hx with rfl | rfl | rfl | rfl
    · exact .sphere _ _ (.lambertian _)
    · exact .sphere _ _ (.mirror _)
    · exact .sphere _ _ (.metal _ _ _ _ _)
    · exact .distant _ _ _
  refine ⟨fun x hx => ⟨hD .green (by simp) x hx, hD .blue (by simp) x hx⟩, ?_⟩
  cases h : (built hist).construct (fun ss => (Simple.new ss).map Simple.toContainer) with
  | none => exact absurd ((c65_panics_simple hist).1 h).1 (by simp [hist, addedShapes])
  | some scene =>
    obtain ⟨k, st, hr, hdone⟩ := (c76_spheres_f32 hist hS .simple h camera _ filt hR (HaltonSampler.new 16 (Film.new ⟨640, 480⟩ filt).sampleBBox)
      (by norm_num [HaltonSampler.new]) 4 none).2
    refine ⟨scene, rfl, k, st, hr, hdone, ?_⟩
    have F : ∀ c : Channel, c ≠ .red → _ := fun c hc =>
      (c112_film (c := c) dark_float hist (hD c hc) .simple h camera ⟨640, 480⟩ filt HaltonSampler.ops _ 4 (by norm_num) none).2 k st hr hdone
    obtain ⟨f1, f2, f3⟩ := F .green (by simp)
    obtain ⟨text, px, h1, h2, h3⟩ := file_channels _ _ ⟨640, 480⟩ (by norm_num) (by norm_num) (by norm_num) filt 4 (by norm_num) k st hr hdone f2 f3
    refine ⟨text, px, h1, h2, fun q hq => ?_⟩
    obtain ⟨p, hp, e⟩ := h3 q hq
    have G : ∀ c : Channel, c ≠ .red → c.num q ≤ 1 := fun c hc => by rw [e]; exact dark_byte hpow _ _ ((F c hc).1 p hp)
    exact ⟨G .green (by simp), G .blue (by simp)⟩

/-- The assumption about the math library, for a rough one. -/
example : (⟨id, id, id, id, id, fun _ y => y, id, id, id, fun x _ => x, lit 3⟩ : Libm F32).powf .nan (lit 1 /. lit (24 / 10)) = .nan := rfl

namespace Demo
/-- A view along the z axis. -/
noncomputable def aheadView : View :=
  { pos := ⟨0, 0, -5⟩, look := ⟨0, 0, 0⟩, up := ⟨0, 1, 0⟩, fov := 90, near := 1 / 100, far := 1000, wmin := ⟨-1, -1⟩, wmax := ⟨1, 1⟩, res := ⟨640, 480⟩ }

/-- A lamp across the z axis at the given place, shining towards smaller z. -/
noncomputable def acrossLamp [HasInf ℝ] (z : ℝ) : Triangle ℝ :=
  ⟨⟨0, 0, z⟩, ⟨8, 0, z⟩, ⟨0, 12, z⟩, none, true, lambertianMaterial fun _ => ⟨1 / 2, 1 / 2, 1 / 2⟩⟩

/-- Nothing but that lamp. -/
noncomputable def acrossScene [HasInf ℝ] (z : ℝ) : Scene ℝ :=
  ⟨[⟨2, (AreaLight.mk ⟨3, 2, 1⟩ (acrossLamp z).toShape).toLight⟩],
    (Simple.mk [⟨2, (AreaLight.mk ⟨3, 2, 1⟩ (acrossLamp z).toShape).toShape⟩] ⟨⟨0, 0, z⟩, ⟨8, 12, z⟩⟩).toContainer⟩
end Demo

theorem ahead_rays [HasInf ℝ] (p : V2 ℝ) : (Demo.aheadView.camera.generateRay p).origin = ⟨0, 0, -5⟩ ∧
    (Demo.aheadView.camera.generateRay p).tMax = HasInf.infinity ∧ UnitVec (Demo.aheadView.camera.generateRay p).direction ∧
    ∃ c > 0, (Demo.aheadView.camera.generateRay p).direction = ⟨c * (p.x / 320 - 1), c * (1 - p.y / 240), c⟩ := by
  have hk : Real.tan (degrees 90 / 2) = 1 := by
    rw [show degrees 90 / 2 = Real.pi / 4 by simp only [degrees]; ring, Real.tan_pi_div_four]
  obtain ⟨h1, h2, h3, L, U, D, ⟨a, ha, hD⟩, ⟨b, hb, hL⟩, hU, hD1, hL1, c, hc, hdir⟩ := c52_camera_ray (pos := ⟨0, 0, -5⟩) (look := ⟨0, 0, 0⟩) (up := ⟨0, 1, 0⟩)
    (fov := 90) (n := 1 / 100) (f := 1000) (wmin := ⟨-1, -1⟩) (wmax := ⟨1, 1⟩) (res := ⟨640, 480⟩)
    (by intro e; have := congrArg V3.x e; norm_num [vprod, V3.sub, r_sub] at this) (by norm_num) (by norm_num) (by rw [hk]; norm_num)
    (by norm_num) (by norm_num) (by norm_num) (by norm_num) p
  refine ⟨h1, h2, h3, c, hc, ?_⟩
  have eD : D = ⟨0, 0, 5 * a⟩ := by rw [hD]; ext <;> norm_num [times, V3.sub, r_sub] ; ring
  have eL : L = ⟨5 * b, 0, 0⟩ := by rw [hL]; ext <;> norm_num [times, vprod, V3.sub, r_sub]; ring
  rw [eD] at hD1
  rw [eL] at hL1
  have ea : 5 * a = 1 := by simp only [Spec.sq] at hD1; nlinarith
  have eb : 5 * b = 1 := by simp only [Spec.sq] at hL1; nlinarith
  rw [ea] at eD
  rw [eb] at eL
  refine (hdir : (Demo.aheadView.camera.generateRay p).direction = _).trans ?_
  rw [hk, hU, eD, eL]
  simp only [times, plus, vprod, screenPoint]
  ext <;> dsimp only <;> push_cast <;> ring

/-- C112, the assumptions on a lamp in view: through the film position (1280/3, 120) the camera sees the lamp, and gets at least its light. -/
example [HasInf ℝ] [HasNext ℝ] (hinf : (100 : ℝ) ≤ HasInf.infinity) {σ : Type} (ops : SamplerOps ℝ σ) (hops : Delivers Canonical ops) (s s' : σ) (l : Spectrum ℝ)
    (e : (cameraRadiance (Demo.acrossScene 1) Demo.aheadView.camera ⟨1280 / 3, 120⟩).run ops s = some (l, s')) : 3 ≤ l.r ∧ 2 ≤ l.g ∧ 1 ≤ l.b := by
  obtain ⟨h1, h2, h3, c, hc, h4⟩ := ahead_rays ⟨1280 / 3, 120⟩
  obtain rfl : c = 6 / 7 := by
    have : Spec.sq (V3.mk (c * (1280 / 3 / 320 - 1)) (c * (1 - 120 / 240)) c) = 1 := h4 ▸ h3
    simp only [Spec.sq] at this
    nlinarith
  have hray : Demo.aheadView.camera.generateRay ⟨1280 / 3, 120⟩ = ⟨⟨0, 0, -5⟩, ⟨2 / 7, 3 / 7, 6 / 7⟩, HasInf.infinity⟩ := by
    revert h1 h2 h4
    generalize Demo.aheadView.camera.generateRay ⟨1280 / 3, 120⟩ = r
    rintro h1 h2 h4
    obtain ⟨o, d, t⟩ := r
    simp only at h1 h2 h4
    rw [h1, h2, h4]
    norm_num
  have hlib : LibraryTriangle (Demo.acrossLamp 1) := ⟨fun i => .lambertian _, fun n0 n1 n2 hn => by cases hn⟩
  have hpos : NonNeg (⟨3, 2, 1⟩ : Spectrum ℝ) := by norm_num [NonNeg]
  have hT : TriangleScene (Demo.acrossScene 1) := by
    refine ⟨⟨_, rfl, fun x hx => ?_⟩, fun x hx => ?_⟩
    · obtain rfl := List.mem_singleton.1 hx
      exact ⟨_, hlib, Or.inr ⟨_, hpos, rfl⟩⟩
    · obtain rfl := List.mem_singleton.1 hx
      exact Or.inr ⟨_, _, hpos, rfl⟩
  obtain ⟨i, hi, -, -⟩ := c39_triangle_complete (Demo.acrossLamp 1) ⟨⟨0, 0, -5⟩, ⟨2 / 7, 3 / 7, 6 / 7⟩, HasInf.infinity⟩ (1 / 2) (1 / 4) (1 / 4) 7
    (by norm_num [Weights]) (by unfold pointAt mix Demo.acrossLamp; ext <;> norm_num)
    (by norm_num [planeNormal, Spec.inner, vcross, diff, Demo.acrossLamp])
    (by
      intro m hm
      have hz := hm .Z
      cases m
      · norm_num [V3.get, abs_of_pos, abs_of_neg] at hz
      · norm_num [V3.get, abs_of_pos, abs_of_neg] at hz
      · unfold errorThreshold rayCoord maxAbs errFactor diff Demo.acrossLamp
        simp only [V3.get, Axis.prev, Axis.next]
        norm_num [abs_of_pos, abs_of_neg, max_def]) (by dsimp only; linarith)
  have hn : i.n = ⟨0, 0, -1⟩ := by
    have hs : Spec.sq (planeNormal (Demo.acrossLamp 1)) = 96 ^ 2 := by norm_num [planeNormal, vcross, diff, Demo.acrossLamp, Spec.sq]
    rw [((c42_triangle_sample _ (by intro e; have := congrArg V3.z e; norm_num [planeNormal, vcross, diff, Demo.acrossLamp, V3.zero, r_lit] at this)).2.2 rfl _ _ _ hi).1,
      orientedNormal, hs, Real.sqrt_sq (by norm_num)]
    ext <;> norm_num [scale, planeNormal, vcross, diff, Demo.acrossLamp]
  let lamp : Obj ℝ := ⟨2, (AreaLight.mk ⟨3, 2, 1⟩ (Demo.acrossLamp 1).toShape).toShape⟩
  have hh : (Demo.acrossScene 1).shapes.intersect (Demo.aheadView.camera.generateRay ⟨1280 / 3, 120⟩) = some (some ⟨i, lamp⟩) := by
    rw [hray]
    change Simple.intersect _ _ = _
    unfold Simple.intersect
    dsimp only
    have hb : (BBox3.intersect ⟨⟨0, 0, 1⟩, ⟨8, 12, 1⟩⟩ (⟨⟨0, 0, -5⟩, ⟨2 / 7, 3 / 7, 6 / 7⟩, HasInf.infinity⟩ : Ray ℝ)) ≠ none := by
      intro hb
      have := (c35_box_test _ _ (by intro a; cases a <;> norm_num [V3.get])).2 hb
      have hmem : (7 : ℝ) ∈ (∅ : Set ℝ) := by
        rw [← this]
        have hg : 0 ≤ gamma3 := by unfold gamma3; norm_num
        refine ⟨by norm_num, by dsimp only; linarith, fun a => ?_⟩
        cases a <;> norm_num [planeLo, planeHi, V3.get] <;> nlinarith
      exact hmem
    rw [if_neg (by simpa using hb)]
    have hi' : (AreaLight.mk ⟨3, 2, 1⟩ (Demo.acrossLamp 1).toShape).toShape.intersect ⟨⟨0, 0, -5⟩, ⟨2 / 7, 3 / 7, 6 / 7⟩, HasInf.infinity⟩ = some (some (i, 7)) := hi
    simp only [closestHit, Obj.intersect, hi', lamp]
    rfl
  have key := fun c => c112_lamp (triangle_scene_contract (by linarith) _ hT) Demo.aheadView.camera ⟨1280 / 3, 120⟩ h3 ⟨i, lamp⟩ hh ops hops s s' l e c
  have hem : lamp.shape.l i (Demo.aheadView.camera.generateRay ⟨1280 / 3, 120⟩).direction.neg = ⟨3, 2, 1⟩ := by
    change AreaLight.emitted _ _ _ = _
    unfold AreaLight.emitted
    rw [hray, hn, if_pos]
    unfold V3.dot V3.neg
    real_ops
    norm_num
  dsimp only at key
  simp only [hem] at key
  exact ⟨key .r, key .g, key .b⟩

/-- C112, the assumptions on the background: the lamp is behind the camera, and every camera ray misses it, so the whole picture is black. -/
example [HasInf ℝ] (p : V2 ℝ) :
    (Demo.acrossScene (-10)).shapes.intersect (Demo.aheadView.camera.generateRay p) = some none := by
  obtain ⟨h1, h2, h3, c, hc, h4⟩ := ahead_rays p
  change Simple.intersect _ _ = _
  unfold Simple.intersect
  split_ifs
  · rfl
  have hm : (AreaLight.mk ⟨3, 2, 1⟩ (Demo.acrossLamp (-10)).toShape).toShape.intersect (Demo.aheadView.camera.generateRay p) = some none := by
    refine triangle_missed (Demo.acrossLamp (-10)) _ (unit_ne_zero h3) fun t ht _ hz => ?_
    rw [pointAt, h1, h4] at hz
    norm_num [planeNormal, vcross, diff, Demo.acrossLamp, Spec.inner] at hz
    nlinarith
  simp only [closestHit, Obj.intersect, hm]
  rfl

end PT
