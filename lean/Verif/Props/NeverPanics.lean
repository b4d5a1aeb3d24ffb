import Verif.Props.PathLength
import Verif.Props.RenderImage

/-!
# What can make rendering panic (C76)

The generic part: if every query whose direction is not in a set `Bad` is answered, if every surface can be sampled and every
light can be sampled, then a camera sample panics only after a query with a direction in `Bad`.
-/

namespace PT

namespace Spec
/-- Some values drawn, all of them in `U`, lead to a panic. -/
def CanPanicIn {α β : Type} (U : α → Prop) : Draw α β → Prop
  | .ret _ => False
  | .panic => True
  | .get1 k => ∃ x, U x ∧ CanPanicIn U (k x)
  | .get2 k => ∃ x, U x.x ∧ U x.y ∧ CanPanicIn U (k x)

/-- Some sample values in `U` lead the computation, run in the scene, to a query with a direction in `Bad`. -/
def Asks {α β : Type} [Scalar α] (scene : Scene α) (U : α → Prop) (Bad : V3 α → Prop) : Prog α β → Prop
  | .ret _ => False
  | .panic => False
  | .get1 k => ∃ x, U x ∧ Asks scene U Bad (k x)
  | .get2 k => ∃ x, U x.x ∧ U x.y ∧ Asks scene U Bad (k x)
  | .hit _ r k => Bad r.direction ∨ ∃ x, scene.intersect r = some x ∧ Asks scene U Bad (k x)
  | .occluded r k => Bad r.direction ∨ ∃ x, scene.intersectP r = some x ∧ Asks scene U Bad (k x)
  | .scatter h k => Asks scene U Bad (k (h.obj.shape.material h.i))

/-- What is asked of a scene: queries are answered unless their direction is bad, a scattering function made at a hit can be
sampled, and so can the lights. -/
structure SceneAnswers {α : Type} [Scalar α] [Libm α] (scene : Scene α) (U : α → Prop) (Bad : V3 α → Prop) : Prop where
  hit : ∀ ray, ¬ Bad ray.direction → scene.intersect ray ≠ none
  shadow : ∀ ray, ¬ Bad ray.direction → scene.intersectP ray ≠ none
  scatter : ∀ ray h wo u, scene.intersect ray = some (some h) → U u.x → U u.y → (h.obj.shape.material h.i).sampleF wo u ≠ none
  light : ∀ l ∈ scene.lights, ∀ i u, l.light.sampleLi i u ≠ none
end Spec
open Spec

/-- Every run with sample values in `U` either asks a bad question or gets to a result with `Q`. -/
def Prog.Safe {α β : Type} [Scalar α] (scene : Scene α) (U : α → Prop) (Bad : V3 α → Prop) (Q : β → Prop) : Prog α β → Prop
  | .ret b => Q b
  | .panic => False
  | .get1 k => ∀ x, U x → (k x).Safe scene U Bad Q
  | .get2 k => ∀ x, U x.x → U x.y → (k x).Safe scene U Bad Q
  | .hit _ r k => Bad r.direction ∨ ∃ x, scene.intersect r = some x ∧ (k x).Safe scene U Bad Q
  | .occluded r k => Bad r.direction ∨ ∃ x, scene.intersectP r = some x ∧ (k x).Safe scene U Bad Q
  | .scatter h k => (k (h.obj.shape.material h.i)).Safe scene U Bad Q

namespace Prog
variable {α β γ : Type} [Scalar α] {scene : Scene α} {U : α → Prop} {Bad : V3 α → Prop}

theorem Safe.bind {Q : β → Prop} {R : γ → Prop} {p : Prog α β} {f : β → Prog α γ} (hp : p.Safe scene U Bad Q)
    (hf : ∀ x, Q x → (f x).Safe scene U Bad R) : (p.bind f).Safe scene U Bad R := by
  induction p with
  | ret x => exact hf x hp
  | panic => exact hp.elim
  | get1 k ih => exact fun x hx => ih x (hp x hx)
  | get2 k ih => exact fun x h1 h2 => ih x (hp x h1 h2)
  | hit y r k ih =>
    rcases hp with hp | ⟨x, hx, hp⟩
    · exact Or.inl hp
    · exact Or.inr ⟨x, hx, ih x hp⟩
  | occluded r k ih =>
    rcases hp with hp | ⟨x, hx, hp⟩
    · exact Or.inl hp
    · exact Or.inr ⟨x, hx, ih x hp⟩
  | scatter h k ih => exact ih _ hp

theorem Safe.ofOption {o : Option β} (h : o ≠ none) : (Prog.ofOption o : Prog α β).Safe scene U Bad (fun x => o = some x) := by
  cases o with
  | none => exact absurd rfl h
  | some x => exact rfl

theorem Safe.ite {Q : β → Prop} {c : Prop} [Decidable c] {p q : Prog α β} (hp : c → p.Safe scene U Bad Q) (hq : ¬ c → q.Safe scene U Bad Q) :
    (if c then p else q).Safe scene U Bad Q := by
  split_ifs with h
  · exact hp h
  · exact hq h

/-- A safe computation can panic only after asking a bad question. -/
theorem Safe.asks {Q : β → Prop} {p : Prog α β} (h : p.Safe scene U Bad Q) (hc : CanPanicIn U (p.run scene)) : Asks scene U Bad p := by
  induction p with
  | ret => exact hc.elim
  | panic => exact h.elim
  | get1 k ih => obtain ⟨x, h1, h2⟩ := hc; exact ⟨x, h1, ih x (h x h1) h2⟩
  | get2 k ih => obtain ⟨x, h1, h2, h3⟩ := hc; exact ⟨x, h1, h2, ih x (h x h1 h2) h3⟩
  | hit y r k ih =>
    rcases h with h | ⟨x, hx, h⟩
    · exact Or.inl h
    · simp only [Prog.run, hx] at hc
      exact Or.inr ⟨x, hx, ih x h hc⟩
  | occluded r k ih =>
    rcases h with h | ⟨x, hx, h⟩
    · exact Or.inl h
    · simp only [Prog.run, hx] at hc
      exact Or.inr ⟨x, hx, ih x h hc⟩
  | scatter r k ih => exact ih _ h hc
end Prog

section
variable {α : Type} [Scalar α] [Libm α] [HasInf α] [HasNext α] {U : α → Prop} {Bad : V3 α → Prop} {scene : Scene α}
open Prog

omit [HasInf α] [HasNext α] in
theorem hit_safe (hs : SceneAnswers scene U Bad) (w : Why) (ray : Ray α) :
    (Prog.hit w ray .ret : Prog α (Option (Hit α))).Safe scene U Bad (fun x => scene.intersect ray = some x) := by
  by_cases hb : Bad ray.direction
  · exact Or.inl hb
  · obtain ⟨x, hx⟩ := Option.ne_none_iff_exists'.1 (hs.hit ray hb)
    exact Or.inr ⟨x, hx, hx⟩

omit [HasInf α] [HasNext α] in
theorem occluded_safe (hs : SceneAnswers scene U Bad) (ray : Ray α) :
    (Prog.occluded ray .ret : Prog α Bool).Safe scene U Bad (fun _ => True) := by
  by_cases hb : Bad ray.direction
  · exact Or.inl hb
  · obtain ⟨x, hx⟩ := Option.ne_none_iff_exists'.1 (hs.shadow ray hb)
    exact Or.inr ⟨x, hx, trivial⟩

omit [HasInf α] in
theorem directFromLight_safe (hs : SceneAnswers scene U Bad) {light : LightObj α} (hl : light ∈ scene.lights) (i : Interaction α)
    (bsdf : BSDF α) (u : V2 α) : (directFromLight light i bsdf u).Safe scene U Bad (fun _ => True) := by
  unfold directFromLight
  refine Safe.bind (Safe.ofOption (hs.light light hl i u)) fun s _ => ?_
  refine Safe.ite (fun _ => ?_) fun _ => trivial
  refine Safe.ite (fun _ => ?_) fun _ => trivial
  refine Safe.bind (occluded_safe hs _) fun occ _ => ?_
  refine Safe.ite (fun _ => ?_) fun _ => trivial
  exact Safe.ite (fun _ => trivial) fun _ => trivial

theorem directFromBsdf_safe (hs : SceneAnswers scene U Bad) (light : LightObj α) (i : Interaction α) (bsdf : BSDF α) (u : V2 α)
    (hb : bsdf.sampleF i.wo u ≠ none) (ld : Spectrum α) : (directFromBsdf light i bsdf u ld).Safe scene U Bad (fun _ => True) := by
  unfold directFromBsdf
  refine Safe.ite (fun _ => ?_) fun _ => trivial
  refine Safe.bind (Safe.ofOption hb) fun s _ => ?_
  obtain ⟨wi, f, p, flag⟩ := s
  dsimp only
  refine Safe.ite (fun _ => ?_) fun _ => trivial
  refine Safe.ite (fun _ => trivial) fun _ => ?_
  refine Safe.bind (hit_safe hs _ _) fun x _ => ?_
  cases x <;> trivial

theorem uniformSampleOneLight_safe (hs : SceneAnswers scene U Bad) (i : Interaction α) (bsdf : BSDF α)
    (hb : ∀ u : V2 α, U u.x → U u.y → bsdf.sampleF i.wo u ≠ none) :
    (uniformSampleOneLight scene.lights i bsdf).Safe scene U Bad (fun _ => True) := by
  unfold uniformSampleOneLight
  dsimp only
  split_ifs with h0
  · trivial
  refine Safe.bind (Q := fun _ => True) (fun _ _ => trivial) fun u _ => ?_
  have hlt : min (toUsize (ofInt (scene.lights.length : Int) *. u)) (scene.lights.length - 1) < scene.lights.length := by omega
  rw [List.getElem?_eq_getElem hlt]
  refine Safe.bind (Safe.ofOption (by simp)) fun light hl => ?_
  have hl' : light ∈ scene.lights := by cases hl; exact List.getElem_mem hlt
  refine Safe.bind (Q := fun _ => True) ?_ fun _ _ => trivial
  unfold estimateDirect
  refine Safe.bind (Q := fun _ => True) (fun _ _ _ => trivial) fun u _ => ?_
  refine Safe.bind (Q := fun v => U v.x ∧ U v.y) (fun _ h1 h2 => ⟨h1, h2⟩) fun v hv => ?_
  exact Safe.bind (directFromLight_safe hs hl' _ _ _) fun ld _ => directFromBsdf_safe hs _ _ _ _ (hb v hv.1 hv.2) _

theorem liLoop_safe (hs : SceneAnswers scene U Bad) (k : Nat) : ∀ (bounces : Nat) (ray : Ray α) (l beta : Spectrum α) (sb : Bool),
    MAX_BOUNCES + 1 - bounces = k → (liLoop scene.lights bounces ray l beta sb).Safe scene U Bad (fun _ => True) := by
  induction k using Nat.strong_induction_on with
  | _ k ih =>
    intro bounces ray l beta sb hk
    rw [liLoop]
    refine Safe.bind (hit_safe hs _ _) fun x hx => ?_
    cases x with
    | none => trivial
    | some h =>
      dsimp only
      by_cases hb : bounces > MAX_BOUNCES
      · rw [dif_pos hb]; trivial
      rw [dif_neg hb]
      have hsc := hs.scatter ray h h.i.wo
      refine Safe.bind (Q := fun b => b = h.obj.shape.material h.i) (show _ = _ from rfl) fun b hb' => ?_
      subst hb'
      refine Safe.bind (uniformSampleOneLight_safe hs _ _ fun u h1 h2 => hsc u hx h1 h2) fun ld _ => ?_
      refine Safe.bind (Q := fun v => U v.x ∧ U v.y) (fun _ h1 h2 => ⟨h1, h2⟩) fun u hu => ?_
      refine Safe.bind (Safe.ofOption (hsc u hx hu.1 hu.2)) fun s _ => ?_
      obtain ⟨wi, f, p, flag⟩ := s
      dsimp only
      refine Safe.ite (fun _ => trivial) fun _ => ?_
      refine Safe.ite (fun _ => ?_) fun _ => ih (MAX_BOUNCES + 1 - (bounces + 1)) (by omega) _ _ _ _ _ rfl
      refine Safe.bind (Q := fun _ => True) (fun _ _ => trivial) fun v _ => ?_
      cases roulette (scatterWeight beta f wi h.i.sn p) v with
      | none => trivial
      | some b => exact ih (MAX_BOUNCES + 1 - (bounces + 1)) (by omega) _ _ _ _ _ rfl

/-- C76: in a scene that answers, a camera sample can panic only if tracing its path asks a question with a bad direction. -/
theorem c76_radiance (hs : SceneAnswers scene U Bad) (camera : PerspectiveCamera α) (pFilm : V2 α)
    (h : CanPanicIn U (cameraRadiance scene camera pFilm)) : Asks scene U Bad (li scene.lights (camera.generateRay pFilm)) :=
  (liLoop_safe hs _ 0 _ _ _ _ rfl).asks h

/-! ### Samplers -/

/-- What is asked of a sampler: from a state that satisfies `R`, starting a pixel or the next sample makes it ready for a camera
sample, which leaves it in a state that satisfies `R`; and it takes `n` samples of each pixel. -/
structure Serves {σ : Type} (ops : SamplerOps α σ) (U : α → Prop) (R Ready : σ → Prop) (n : Nat) : Prop where
  start : ∀ s p, R s → Ready (ops.startPixel s p)
  next : ∀ s, R s → R (ops.startNextSample s).2 ∧ Ready (ops.startNextSample s).2
  run : ∀ (d : Draw α (V2 α × Spectrum α)) s, Ready s → d.AtMost 519 → ¬ CanPanicIn U d → d.run ops s ≠ none
  keeps : ∀ (d : Draw α (V2 α × Spectrum α)) s b s', R s → d.run ops s = some (b, s') → R s'
  ready : ∀ s, Ready s → R s
  pixel : ∀ (radiance : V2 α → Draw α (Spectrum α)) p t s, R s →
    pixelLoop ops radiance p (2 ^ 32) t (ops.startPixel s p) = Spec.takeSamples ops radiance p n t (ops.startPixel s p)

omit [Libm α] [HasInf α] [HasNext α] in
theorem sampleDimension_in (hU : ∀ b a, U (radicalInverse b a)) (s : HaltonSampler) (i d : Nat) (x : α)
    (h : s.sampleDimension i d = some x) : U x := by
  unfold HaltonSampler.sampleDimension radicalInversePrime at h
  split at h <;>
  · obtain ⟨b, _, rfl⟩ := Option.map_eq_some_iff.1 h
    exact hU _ _

omit [Libm α] [HasInf α] [HasNext α] in
theorem enough_bases_in {β : Type} (hU : ∀ b a, U (radicalInverse b a)) (p : Draw α β) : ∀ (n : Nat) (s : HaltonSampler), p.AtMost n →
    s.dimension + n ≤ 1024 → p.run HaltonSampler.ops s = none → CanPanicIn U p := by
  have hu : ∀ k, k < 2 ^ 32 → u32 k = k := fun k h => Nat.mod_eq_of_lt h
  induction p with
  | ret => intro n s _ _ h; cases h
  | panic => intros; trivial
  | get1 k ih =>
    intro n s hp hs h
    obtain ⟨x, hx⟩ := sampleDimension_isSome (α := α) s s.intervalSampleIndex s.dimension (by have := hp.1; omega)
    simp only [Draw.run, HaltonSampler.ops, hx, Bind.bind, Pure.pure, Option.bind_some] at h
    refine ⟨x, sampleDimension_in hU _ _ _ _ hx, ih x (n - 1) _ (hp.2 x) ?_ h⟩
    have := hp.1
    dsimp only
    rw [hu _ (by omega)]; omega
  | get2 k ih =>
    intro n s hp hs h
    have h1 := hp.1
    obtain ⟨x, hx⟩ := sampleDimension_isSome (α := α) s s.intervalSampleIndex s.dimension (by omega)
    obtain ⟨y, hy⟩ := sampleDimension_isSome (α := α) s s.intervalSampleIndex (u32 (s.dimension + 1)) (by rw [hu _ (by omega)]; omega)
    simp only [Draw.run, HaltonSampler.ops, hx, hy, Bind.bind, Pure.pure, Option.bind_some] at h
    refine ⟨⟨x, y⟩, sampleDimension_in hU _ _ _ _ hx, sampleDimension_in hU _ _ _ _ hy, ih _ (n - 2) _ (hp.2 _) ?_ h⟩
    dsimp only
    rw [hu _ (by omega)]; omega

omit [Libm α] [HasInf α] [HasNext α] in
theorem halton_serves (hU : ∀ b a, U (radicalInverse b a)) (spp : Nat) (hspp : spp < 2 ^ 32) :
    Serves (HaltonSampler.ops : SamplerOps α HaltonSampler) U (fun s => s.samplesPerPixel = spp)
      (fun s => s.samplesPerPixel = spp ∧ s.dimension = 0) (max 1 spp) := by
  have gi : ∀ s : HaltonSampler, s.getIndexForSample.2.samplesPerPixel = s.samplesPerPixel := by
    intro s; unfold HaltonSampler.getIndexForSample; simp only; split_ifs <;> rfl
  refine ⟨?_, ?_, ?_, fun d s b s' h e => ((halton_counting.run d s b s' e).2).trans h, fun s h => h.1, ?_⟩
  · intro s p h
    refine ⟨(gi _).trans h, ?_⟩
    simp only [HaltonSampler.ops, HaltonSampler.startPixel, HaltonSampler.getIndexForSample]; split_ifs <;> rfl
  · intro s h
    have h1 : s.startNextSample.2.samplesPerPixel = spp := (gi _).trans h
    refine ⟨h1, h1, ?_⟩
    simp only [HaltonSampler.ops, HaltonSampler.startNextSample, HaltonSampler.getIndexForSample]; split_ifs <;> rfl
  · intro d s h hd hc hr
    exact hc (enough_bases_in hU d 519 s hd (by rw [h.2]; omega) hr)
  · intro radiance p t s h
    have := c22_halton_sample_count radiance p t s (by rw [h]; exact hspp)
    rw [h] at this
    exact this

omit [Libm α] [HasInf α] [HasNext α] in
theorem random_serves {ρ : Type} (next : ρ → α × ρ) (hU : ∀ r, U (next r).1) (spp : Nat) (hspp : spp < 2 ^ 32) :
    Serves (RandomSampler.ops next) U (fun s => s.samplesPerPixel = spp) (fun s => s.samplesPerPixel = spp) (max 1 spp) := by
  refine ⟨fun s p h => h, fun s h => ⟨h, h⟩, ?_, fun d s b s' h e => (((random_counting next).run d s b s' e).2).trans h, fun s h => h, ?_⟩
  · intro d s h _ hc hr
    have key : ∀ (d : Draw α (V2 α × Spectrum α)) s, d.run (RandomSampler.ops next) s = none → CanPanicIn U d := by
      intro d
      induction d with
      | ret => intro s h; cases h
      | panic => intros; trivial
      | get1 k ih => intro s h; exact ⟨_, hU _, ih _ _ h⟩
      | get2 k ih => intro s h; exact ⟨_, hU _, hU _, ih _ _ h⟩
    exact hc (key d s hr)
  · intro radiance p t s h
    have := c22_random_sample_count next radiance p t s (by rw [h]; exact hspp)
    rw [h] at this
    exact this

/-! ### Tiles and images -/

omit [Libm α] [HasInf α] [HasNext α] in
theorem canPanicIn_sample (radiance : V2 α → Draw α (Spectrum α)) (pixel : V2 Int)
    (h : CanPanicIn U (oneSample radiance pixel)) : ∃ u : V2 α, U u.x ∧ U u.y ∧ CanPanicIn U (radiance ((V2.ofI pixel).add u)) := by
  have hb : ∀ (q : Draw α (Spectrum α)) (x : V2 α), CanPanicIn U (q.bind fun l => .ret (x, l)) → CanPanicIn U q := by
    intro q x
    induction q with
    | ret => exact id
    | panic => exact id
    | get1 k ih => rintro ⟨y, hu, hy⟩; exact ⟨y, hu, ih y hy⟩
    | get2 k ih => rintro ⟨y, hu, hv, hy⟩; exact ⟨y, hu, hv, ih y hy⟩
  obtain ⟨u, h1, h2, hu⟩ := h
  exact ⟨u, h1, h2, hb _ _ hu⟩

omit [Libm α] [HasInf α] [HasNext α] in
theorem takeSamples_total {σ : Type} {ops : SamplerOps α σ} {R Ready : σ → Prop} {m : Nat} (hsv : Serves ops U R Ready m)
    (radiance : V2 α → Draw α (Spectrum α)) (pixel : V2 Int) (hat : (oneSample radiance pixel).AtMost 519)
    (hc : ¬ CanPanicIn U (oneSample radiance pixel)) {film : Film α} {b : BBox2i} (hf : Spec.Fits (film.getFilmTile b).bbox) :
    ∀ (n : Nat) (t : FilmTile α) (s : σ), Ready s → TileGood film b t →
      ∃ t' s', Spec.takeSamples ops radiance pixel n t s = some (t', s') ∧ TileGood film b t' ∧ R s' := by
  intro n
  induction n with
  | zero => intro t s hs ht; exact ⟨t, s, rfl, ht, hsv.ready s hs⟩
  | succ n ih =>
    intro t s hs ht
    obtain ⟨⟨⟨pf, l⟩, s1⟩, h1⟩ := Option.ne_none_iff_exists'.1 (hsv.run _ s hs hat hc)
    have hR := hsv.keeps _ _ _ _ (hsv.ready s hs) h1
    obtain ⟨t1, h2, ht1⟩ := addIfValid_good hf ht pf l
    obtain ⟨t2, s2, h3, h4⟩ := ih t1 _ (hsv.next s1 hR).2 ht1
    refine ⟨t2, s2, ?_, h4⟩
    simp only [Spec.takeSamples, h1, Bind.bind, Option.bind_some, h2, h3]

omit [Libm α] [HasInf α] [HasNext α] in
theorem renderTile_keeps {σ : Type} {ops : SamplerOps α σ} {R Ready : σ → Prop} {m : Nat} (hsv : Serves ops U R Ready m)
    (radiance : V2 α → Draw α (Spectrum α)) (film : Film α) (s : σ) (b : BBox2i) (t : FilmTile α) (s' : σ) (hR : R s)
    (e : renderTile ops radiance film s b = some (t, s')) : R s' := by
  have key : ∀ (pixel : V2 Int) (fuel : Nat) (t : FilmTile α) (s : σ) (t' : FilmTile α) (s' : σ), R s →
      pixelLoop ops radiance pixel fuel t s = some (t', s') → R s' := by
    intro pixel fuel
    induction fuel with
    | zero => intro t s t' s' _ e; simp [pixelLoop] at e
    | succ fuel ih =>
      intro t s t' s' h e
      simp only [pixelLoop, Bind.bind] at e
      obtain ⟨⟨⟨pf, l⟩, s1⟩, e1, e⟩ := Option.bind_eq_some_iff.1 e
      obtain ⟨t1, _, e⟩ := Option.bind_eq_some_iff.1 e
      have h1 := (hsv.next s1 (hsv.keeps _ _ _ _ h e1)).1
      split_ifs at e
      · exact ih _ _ _ _ h1 e
      · cases e; exact h1
  unfold renderTile at e
  refine foldlM_inv (fun acc : FilmTile α × σ => R acc.2) _ _ ?_ _ (t, s') hR e
  rintro ⟨t1, s1⟩ p _ ⟨t2, s2⟩ h1 e1
  exact key p _ _ _ _ _ (hsv.ready _ (hsv.start _ _ h1)) e1

/-- Rendering a tile with a sampler that serves: no panic unless a camera sample can panic. -/
theorem renderTile_total {σ : Type} {ops : SamplerOps α σ} {R Ready : σ → Prop} {m : Nat} (hsv : Serves ops U R Ready m)
    (camera : PerspectiveCamera α) (film : Film α) (hT : TableOK film.filterTable) (b : BBox2i)
    (hc : ∀ p ∈ b.iter.toList, ∀ u : V2 α, U u.x → U u.y → ¬ CanPanicIn U (cameraRadiance scene camera ((V2.ofI p).add u)))
    (hf : Spec.Fits (film.getFilmTile b).bbox) (s : σ) (hs : R s) :
    ∃ t s', renderTile ops (cameraRadiance scene camera) film s b = some (t, s') ∧ TileGood film b t ∧ R s' := by
  unfold renderTile
  have key : ∀ (ps : List (V2 Int)) (t : FilmTile α) (s : σ), (∀ p ∈ ps, p ∈ b.iter.toList) → R s → TileGood film b t →
      ∃ t' s', ps.foldlM (fun (acc : FilmTile α × σ) pixel =>
        pixelLoop ops (cameraRadiance scene camera) pixel (2 ^ 32) acc.1 (ops.startPixel acc.2 pixel)) (t, s) = some (t', s') ∧
        TileGood film b t' ∧ R s' := by
    intro ps
    induction ps with
    | nil => intro t s _ hs ht; exact ⟨t, s, rfl, ht, hs⟩
    | cons p ps ih =>
      intro t s hps hs ht
      obtain ⟨t1, s1, h1, g1, r1⟩ := takeSamples_total hsv (cameraRadiance scene camera) p (c24_dimensions scene camera p)
        (fun h => let ⟨u, h1, h2, h3⟩ := canPanicIn_sample _ _ h; hc p (hps p (by simp)) u h1 h2 h3) hf m t _ (hsv.start s p hs) ht
      rw [List.foldlM_cons]
      dsimp only
      rw [hsv.pixel _ _ _ _ hs, h1]
      exact ih t1 s1 (fun q hq => hps q (by simp [hq])) r1 g1
  exact key _ _ _ (fun _ h => h) hs ⟨rfl, getFilmTile_sized _ _, hT⟩

/-- C76: with a sampler that serves, in a scene that answers, for a film whose tiles lie in the image: unless a camera ray for some
sample of some pixel leads to a question with a bad direction, no thread panics in any schedule of any number of threads, and the render can be completed. -/
theorem c76_render {σ : Type} {ops : SamplerOps α σ} {R Ready : σ → Prop} {m : Nat} (hsv : Serves ops U R Ready m)
    (hs : SceneAnswers scene U Bad) (camera : PerspectiveCamera α)
    (res : V2 Int) (filt : Filter α)
    (hq : ∀ b ∈ (Film.new res filt).iter.toList, ∀ p ∈ b.iter.toList, ∀ u : V2 α, U u.x → U u.y →
      ¬ Asks scene U Bad (li scene.lights (camera.generateRay ((V2.ofI p).add u))))
    (hpos : 0 ≤ res.x * res.y) (ha : res.x * res.y < 2 ^ 31) (hfit : Spec.TilesFit (Film.new res filt)) (sampler : σ) (h0 : R sampler)
    (n : Nat) (file : Option (List UInt8)) :
    let work := renderTile ops (cameraRadiance scene camera) (Film.new res filt)
    (∀ k st, RReach work sampler (RState.init (Film.new res filt) n file) k st → .panicked ∉ st.threads) ∧
    ∃ k st, RReach work sampler (RState.init (Film.new res filt) n file) k st ∧ st.main = .done := by
  intro work
  have total := fun b hb s hs' => renderTile_total hsv camera (Film.new res filt) (mkFilterTable_ok filt) b
    (fun p hp u h1 h2 h => hq b hb p hp u h1 h2 (c76_radiance hs camera _ h))
    (fits_of_inFilm (Film.new res filt) ha b (hfit b hb)) s hs'
  have hwork : ∀ s b, R s → b ∈ (Film.new res filt).iter.toList → ∃ t s', work s b = some (t, s') := fun s b hR hb =>
    let ⟨t, s', e, _⟩ := total b hb s hR
    ⟨t, s', e⟩
  have hgood : ∀ s b t s', R s → work s b = some (t, s') → TileGood (Film.new res filt) b t ∧ R s' := fun s b t s' hR e =>
    ⟨renderTile_good ops _ _ (mkFilterTable_ok filt) s b t s' e, renderTile_keeps hsv _ _ s b t s' hR e⟩
  exact ⟨fun k st hr => c08_no_other_panic res filt hpos ha hfit work R sampler h0 hwork hgood n file k st hr,
    c07_completes res filt hpos ha hfit work R sampler h0 hwork hgood n file⟩
end

end PT
