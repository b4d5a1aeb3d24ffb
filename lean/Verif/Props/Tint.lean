import Verif.Props.Grey
import Verif.Props.SameGeometry
import Verif.Props.Transport

/-!
# A brighter light gives a brighter image (C90)

If the colours of all the lights of a scene are multiplied, channel by channel, by positive numbers, then every camera sample and every
pixel is multiplied by the same numbers.  Exact arithmetic.
-/

namespace PT
open Spec

namespace Spec
/-- The same call of the scene builder, with the colour of the light multiplied by `t`. -/
inductive Tinted (t : Spectrum ℝ) : BuilderCall ℝ → BuilderCall ℝ → Prop
  | distant (addr e w) : Tinted t (.light addr fun box => ((DistantLight.new e w).preProcess box).toLight)
      (.light addr fun box => ((DistantLight.new (e.mul t) w).preProcess box).toLight)
  | shape (addr) (s : Shape ℝ) : (∀ i w, s.l i w = ⟨0, 0, 0⟩) → Tinted t (.shape addr s) (.shape addr s)
  | area (addr e) (s : Shape ℝ) : Tinted t (.area addr ⟨e, s⟩) (.area addr ⟨e.mul t, s⟩)
end Spec

namespace Draw
variable {α β γ : Type}
/-- Two computations that draw the same samples, and whose results are related. -/
def Rel (Q : β → γ → Prop) : Draw α β → Draw α γ → Prop
  | ret b, ret c => Q b c
  | panic, panic => True
  | get1 k, get1 k' => ∀ x, Rel Q (k x) (k' x)
  | get2 k, get2 k' => ∀ x, Rel Q (k x) (k' x)
  | _, _ => False

theorem Rel.bind {β' γ' : Type} {Q : β → γ → Prop} {Q' : β' → γ' → Prop} {f : β → Draw α β'} {f' : γ → Draw α γ'}
    (hf : ∀ b c, Q b c → Rel Q' (f b) (f' c)) : ∀ {d : Draw α β} {d' : Draw α γ}, Rel Q d d' → Rel Q' (d.bind f) (d'.bind f') := by
  intro d
  induction d with
  | ret b =>
    intro d' h
    cases d' with
    | ret c => exact hf b c h
    | _ => exact h.elim
  | panic =>
    intro d' h
    cases d' with
    | panic => trivial
    | _ => exact h.elim
  | get1 k ih =>
    intro d' h
    cases d' with
    | get1 k' => exact fun x => ih x (h x)
    | _ => exact h.elim
  | get2 k ih =>
    intro d' h
    cases d' with
    | get2 k' => exact fun x => ih x (h x)
    | _ => exact h.elim

theorem Rel.run {Q : β → γ → Prop} {σ : Type} (ops : SamplerOps α σ) : ∀ {d : Draw α β} {d' : Draw α γ}, Rel Q d d' → ∀ s,
    (d.run ops s = none ∧ d'.run ops s = none) ∨ ∃ b c s', d.run ops s = some (b, s') ∧ d'.run ops s = some (c, s') ∧ Q b c := by
  intro d
  induction d with
  | ret b =>
    intro d' h s
    cases d' with
    | ret c => exact Or.inr ⟨b, c, s, rfl, rfl, h⟩
    | _ => exact h.elim
  | panic =>
    intro d' h s
    cases d' with
    | panic => exact Or.inl ⟨rfl, rfl⟩
    | _ => exact h.elim
  | get1 k ih =>
    intro d' h s
    cases d' with
    | get1 k' =>
      simp only [Draw.run]
      cases ops.get1d s with
      | none => exact Or.inl ⟨rfl, rfl⟩
      | some x => exact ih x.1 (h x.1) x.2
    | _ => exact h.elim
  | get2 k ih =>
    intro d' h s
    cases d' with
    | get2 k' =>
      simp only [Draw.run]
      cases ops.get2d s with
      | none => exact Or.inl ⟨rfl, rfl⟩
      | some x => exact ih x.1 (h x.1) x.2
    | _ => exact h.elim
end Draw

section
variable {t : Spectrum ℝ}

/-- The object with its light multiplied. -/
noncomputable def tintObj (t : Spectrum ℝ) (o : Obj ℝ) : Obj ℝ := ⟨o.addr, { o.shape with l := fun i w => (o.shape.l i w).mul t }⟩
/-- The light multiplied. -/
noncomputable def tintLight (t : Spectrum ℝ) (l : LightObj ℝ) : LightObj ℝ :=
  ⟨l.addr, { l.light with sampleLi := fun i u => (l.light.sampleLi i u).map fun s => { s with li := s.li.mul t } }⟩

theorem tint_zero : (Spectrum.zero : Spectrum ℝ).mul t = Spectrum.zero := by
  ext <;> (simp only [Spectrum.mul, Spectrum.zero]; real_ops; simp)
theorem tint_add (a b : Spectrum ℝ) : (a.add b).mul t = (a.mul t).add (b.mul t) := by
  ext <;> exact add_mul _ _ _
theorem tint_mul (a b : Spectrum ℝ) : (a.mul b).mul t = a.mul (b.mul t) := by
  ext <;> exact mul_assoc _ _ _
theorem tint_smul (a : Spectrum ℝ) (k : ℝ) : (a.smul k).mul t = (a.mul t).smul k := by
  ext <;> exact mul_right_comm _ _ _
theorem tint_sdiv (a : Spectrum ℝ) (k : ℝ) : (a.sdiv k).mul t = (a.mul t).sdiv k := by
  ext <;> exact div_mul_eq_mul_div _ _ _
theorem tint_isBlack (hr : 0 < t.r) (hg : 0 < t.g) (hb : 0 < t.b) (a : Spectrum ℝ) : (a.mul t).isBlack = a.isBlack := by
  unfold Spectrum.isBlack Spectrum.mul
  real_ops
  simp [hr.ne', hg.ne', hb.ne']

variable [HasInf ℝ] [HasNext ℝ] {scene scene' : Scene ℝ}

/-- The scene with its lights multiplied. -/
structure TintScene (t : Spectrum ℝ) (scene scene' : Scene ℝ) : Prop where
  lights : scene'.lights = scene.lights.map (tintLight t)
  blocked : ∀ ray, scene'.intersectP ray = scene.intersectP ray
  hits : ∀ ray, scene'.intersect ray = (scene.intersect ray).map (Option.map (Hit.via (tintObj t)))
  pos : 0 < t.r ∧ 0 < t.g ∧ 0 < t.b

/-- The results of two programs in the two scenes. -/
def Runs (scene scene' : Scene ℝ) {β γ : Type} (Q : β → γ → Prop) (p : Prog ℝ β) (p' : Prog ℝ γ) : Prop := (p.run scene).Rel Q (p'.run scene')

/-- The second colour is the first multiplied. -/
def IsTint (t : Spectrum ℝ) (a b : Spectrum ℝ) : Prop := b = a.mul t

omit [HasInf ℝ] [HasNext ℝ] in
theorem Runs.bind {β γ β' γ' : Type} {Q : β → γ → Prop} {Q' : β' → γ' → Prop} {p : Prog ℝ β} {p' : Prog ℝ γ} {f : β → Prog ℝ β'} {f' : γ → Prog ℝ γ'}
    (h : Runs scene scene' Q p p') (hf : ∀ b c, Q b c → Runs scene scene' Q' (f b) (f' c)) : Runs scene scene' Q' (p.bind f) (p'.bind f') := by
  unfold Runs
  rw [run_bind, run_bind]
  exact Draw.Rel.bind hf h

omit [HasInf ℝ] [HasNext ℝ] in
theorem Runs.ofOption {β : Type} (o : Option β) : Runs scene scene' (fun b c => b = c ∧ o = some b) (Prog.ofOption o) (Prog.ofOption o) := by
  cases o with
  | none => trivial
  | some b => exact ⟨rfl, rfl⟩

theorem tint_directFromLight (hs : TintScene t scene scene') (light : LightObj ℝ) (i : Interaction ℝ) (bsdf : BSDF ℝ) (u : V2 ℝ) :
    Runs scene scene' (IsTint t) (directFromLight light i bsdf u) (directFromLight (tintLight t light) i bsdf u) := by
  unfold directFromLight
  refine Runs.bind (Q := fun s s' => s' = { s with li := s.li.mul t }) ?_ ?_
  · simp only [tintLight]
    cases light.light.sampleLi i u with
    | none => trivial
    | some s => exact rfl
  rintro s _ rfl
  dsimp only
  rw [tint_isBlack hs.pos.1 hs.pos.2.1 hs.pos.2.2]
  split
  swap
  · exact tint_zero.symm
  split
  swap
  · exact tint_zero.symm
  refine Runs.bind (Q := fun a b => a = b) ?_ ?_
  · unfold Runs
    simp only [Prog.run, Scene.intersectP]
    have := hs.blocked s.vis.ray
    unfold Scene.intersectP at this
    rw [this]
    cases scene.shapes.intersectP s.vis.ray with
    | none => trivial
    | some b => exact rfl
  rintro occ _ rfl
  split
  swap
  · exact tint_zero.symm
  have e1 : (tintLight t light).light.isDelta = light.light.isDelta := rfl
  rw [e1]
  by_cases hd : light.light.isDelta = true
  · rw [if_pos hd, if_pos hd]
    change _ = Spectrum.mul _ t
    rw [tint_add (t := t), tint_zero, tint_sdiv (t := t), tint_mul (t := t)]
  · rw [if_neg hd, if_neg hd]
    change _ = Spectrum.mul _ t
    rw [tint_add (t := t), tint_zero, tint_sdiv (t := t), tint_smul (t := t), tint_mul (t := t)]

theorem tint_directFromBsdf (hs : TintScene t scene scene') (light : LightObj ℝ) (i : Interaction ℝ) (bsdf : BSDF ℝ) (u : V2 ℝ) (ld : Spectrum ℝ) :
    Runs scene scene' (IsTint t) (directFromBsdf light i bsdf u ld) (directFromBsdf (tintLight t light) i bsdf u (ld.mul t)) := by
  unfold directFromBsdf
  have e1 : (tintLight t light).light.isDelta = light.light.isDelta := rfl
  have e2 : (tintLight t light).light.pdfLi = light.light.pdfLi := rfl
  have e3 : (tintLight t light).addr = light.addr := rfl
  rw [e1, e2, e3]
  split
  swap
  · exact rfl
  refine Runs.bind (Runs.ofOption _) ?_
  rintro ⟨wi, f, p, flag⟩ _ ⟨rfl, -⟩
  dsimp only
  split
  swap
  · exact rfl
  split
  · exact rfl
  refine Runs.bind (Q := fun a b => b = Option.map (Hit.via (tintObj t)) a) ?_ ?_
  · unfold Runs
    simp only [Prog.run]
    rw [hs.hits]
    cases scene.intersect (i.spawnRay wi) with
    | none => trivial
    | some b => exact rfl
  rintro h _ rfl
  cases h with
  | none => exact rfl
  | some h =>
    simp only [Option.map_some]
    change _ = Spectrum.mul _ t
    rw [tint_add (t := t), tint_sdiv (t := t), tint_smul (t := t) (k := ite _ _ _), tint_mul (t := t)]
    congr 4
    have e4 : (h.via (tintObj t)).obj.addr = h.obj.addr := rfl
    rw [e4]
    split
    · rfl
    · exact tint_zero.symm

theorem tint_uniformSampleOneLight (hs : TintScene t scene scene') (i : Interaction ℝ) (bsdf : BSDF ℝ) :
    Runs scene scene' (IsTint t) (uniformSampleOneLight scene.lights i bsdf) (uniformSampleOneLight scene'.lights i bsdf) := by
  unfold uniformSampleOneLight
  dsimp only
  rw [hs.lights, List.length_map]
  split
  · exact tint_zero.symm
  refine Runs.bind (Q := fun a b => a = b) (fun x => rfl) ?_
  rintro u _ rfl
  refine Runs.bind (Q := fun a b => b = tintLight t a) ?_ ?_
  · rw [List.getElem?_map]
    cases scene.lights[min (toUsize (ofInt (scene.lights.length : Int) *. u)) (scene.lights.length - 1)]? with
    | none => trivial
    | some l => exact rfl
  rintro light _ rfl
  refine Runs.bind (Q := IsTint t) ?_ ?_
  · unfold estimateDirect
    refine Runs.bind (Q := fun a b => a = b) (fun x => rfl) ?_
    rintro u _ rfl
    refine Runs.bind (Q := fun a b => a = b) (fun x => rfl) ?_
    rintro v _ rfl
    refine Runs.bind (tint_directFromLight hs light i bsdf u) ?_
    rintro ld _ rfl
    exact tint_directFromBsdf hs light i bsdf v ld
  · rintro ld _ rfl
    exact (tint_smul _ _).symm

theorem tint_liLoop (hs : TintScene t scene scene') (k : Nat) : ∀ (bounces : Nat) (ray : Ray ℝ) (l beta : Spectrum ℝ) (sb : Bool),
    MAX_BOUNCES + 1 - bounces = k →
    Runs scene scene' (IsTint t) (liLoop scene.lights bounces ray l beta sb) (liLoop scene'.lights bounces ray (l.mul t) beta sb) := by
  induction k using Nat.strong_induction_on with
  | _ k ih =>
    intro bounces ray l beta sb hk
    rw [liLoop, liLoop]
    refine Runs.bind (Q := fun a b => b = Option.map (Hit.via (tintObj t)) a) ?_ ?_
    · unfold Runs
      simp only [Prog.run]
      rw [hs.hits]
      cases scene.intersect ray with
      | none => trivial
      | some b => exact rfl
    rintro h _ rfl
    cases h with
    | none =>
      simp only [Option.map_none, ite_self]
      exact rfl
    | some h =>
      simp only [Option.map_some]
      have e : (if bounces = 0 ∨ sb = true then (l.mul t).add (beta.mul ((h.via (tintObj t)).le ray.direction.neg)) else l.mul t) =
          (if bounces = 0 ∨ sb = true then l.add (beta.mul (h.le ray.direction.neg)) else l).mul t := by
        split
        · rw [tint_add, tint_mul]; rfl
        · rfl
      rw [e]
      generalize (if bounces = 0 ∨ sb = true then l.add (beta.mul (h.le ray.direction.neg)) else l) = l'
      split
      · exact rfl
      refine Runs.bind (Q := fun a b => a = b) rfl ?_
      rintro bsdf _ rfl
      refine Runs.bind (tint_uniformSampleOneLight hs _ _) ?_
      rintro ld _ rfl
      rw [← tint_mul, ← tint_add]
      refine Runs.bind (Q := fun a b => a = b) (fun x => rfl) ?_
      rintro u _ rfl
      refine Runs.bind (Runs.ofOption _) ?_
      rintro ⟨wi, f, p, flag⟩ _ ⟨rfl, -⟩
      dsimp only
      split
      · exact rfl
      split
      · refine Runs.bind (Q := fun a b => a = b) (fun x => rfl) ?_
        rintro v _ rfl
        have e5 : (h.via (tintObj t)).i = h.i := rfl
        rw [e5]
        cases roulette (scatterWeight beta f wi h.i.sn p) v with
        | none => exact rfl
        | some beta' => exact ih (MAX_BOUNCES + 1 - (bounces + 1)) (by omega) _ _ _ _ _ rfl
      · exact ih (MAX_BOUNCES + 1 - (bounces + 1)) (by omega) _ _ _ _ _ rfl

theorem tint_cameraRadiance (hs : TintScene t scene scene') (camera : PerspectiveCamera ℝ) (pFilm : V2 ℝ) :
    (cameraRadiance scene camera pFilm).Rel (IsTint t) (cameraRadiance scene' camera pFilm) := by
  have := tint_liLoop hs _ 0 (camera.generateRay pFilm) Spectrum.zero (Spectrum.of (lit 1)) false rfl
  rw [tint_zero] at this
  exact this
end

/-! ### Scenes -/

section
variable {t : Spectrum ℝ}

theorem tinted_fields {hist hist' : List (BuilderCall ℝ)} (h : List.Forall₂ (Tinted t) hist hist') :
    addedShapes hist' = addedShapes hist ∧ addedShapes hist = (addedShapes hist).map (tintObj t) ∧
    addedAreas hist' = (addedAreas hist).map (fun a => (a.1, ⟨a.2.l.mul t, a.2.shape⟩)) ∧
    ∀ box, addedLights box hist' = (addedLights box hist).map (tintLight t) := by
  induction h with
  | nil => exact ⟨rfl, rfl, rfl, fun _ => rfl⟩
  | cons h1 _ ih =>
    obtain ⟨i1, i2, i3, i4⟩ := ih
    cases h1 with
    | distant addr e w => exact ⟨i1, i2, i3, fun box => by simp only [addedLights, List.map_cons, i4]; rfl⟩
    | shape addr s hs =>
      refine ⟨by simp only [addedShapes, i1], ?_, i3, i4⟩
      simp only [addedShapes, List.map_cons, ← i2]
      congr 1
      unfold tintObj
      congr 1
      have : (fun i w => (s.l i w).mul t) = s.l := by
        funext i w
        rw [hs]
        ext <;> (simp only [Spectrum.mul]; real_ops; simp)
      simp only [this]
    | area addr e s => exact ⟨i1, i2, by simp only [addedAreas, List.map_cons, i3], i4⟩

theorem tint_emitted (a : AreaLight ℝ) (i : Interaction ℝ) (w : V3 ℝ) : (AreaLight.mk (a.l.mul t) a.shape).emitted i w = (a.emitted i w).mul t := by
  unfold AreaLight.emitted
  split
  · rfl
  · exact tint_zero.symm

theorem tint_scene (ht : 0 < t.r ∧ 0 < t.g ∧ 0 < t.b) {hist hist' : List (BuilderCall ℝ)} (h : List.Forall₂ (Tinted t) hist hist')
    {mk : List (Obj ℝ) → Option (Container ℝ)} (hmk : LibraryContainer mk) {scene : Scene ℝ} (hsc : (built hist).construct mk = some scene) :
    ∃ scene', (built hist').construct mk = some scene' ∧ TintScene t scene scene' := by
  obtain ⟨f1, f2, f3, f4⟩ := tinted_fields h
  obtain ⟨box, hb, h1, -⟩ := c65_construct hist mk
  obtain ⟨box', hb', h1', h2'⟩ := c65_construct hist' mk
  obtain ⟨hl, hc⟩ := h1 scene hsc
  have ebox : box' = box := by
    obtain ⟨-, b2, b3⟩ := built_fields hist box
    obtain ⟨-, c2, c3⟩ := built_fields hist' box
    unfold Builder.sceneBBox at hb hb'
    rw [b2, b3] at hb
    rw [c2, c3, f1, f3] at hb'
    simp only [List.foldl_map] at hb'
    have := hb'.symm.trans hb
    simpa using this
  subst ebox
  have es : sceneShapes hist' = (sceneShapes hist).map (tintObj t) := by
    simp only [sceneShapes, List.map_append, ← f2, f1]
    congr 1
    simp only [asShapes, f3, List.map_map]
    apply List.map_congr_left
    intro a _
    simp only [Function.comp, tintObj]
    congr 1
    unfold AreaLight.toShape
    simp only [Shape.mk.injEq, true_and]
    funext i w
    exact tint_emitted _ _ _
  have hgeo : SameGeometry (tintObj t) := fun _ => ⟨rfl, rfl, rfl⟩
  obtain ⟨g1, g2⟩ := geo_container hgeo hmk (sceneShapes hist)
  rw [hc, ← es] at g1
  obtain ⟨c', hc'⟩ := Option.isSome_iff_exists.1 g1
  cases hn : (built hist').construct mk with
  | none => rw [h2', hc'] at hn; cases hn
  | some scene' =>
    obtain ⟨hl', hcc⟩ := h1' scene' hn
    have g := g2 scene.shapes scene'.shapes hc (by rw [← es]; exact hcc)
    refine ⟨scene', rfl, ⟨?_, fun ray => (g ray).1, fun ray => (g ray).2, ht⟩⟩
    rw [hl', hl, List.map_append, f4]
    congr 1
    simp only [asLights, f3, List.map_map]
    apply List.map_congr_left
    intro a _
    simp only [Function.comp, tintLight]
    congr 1
    unfold AreaLight.toLight
    simp only [Light.mk.injEq, true_and, and_true]
    funext i u
    unfold AreaLight.sampleLi
    simp only [Option.map_map]
    congr 1
    funext x
    simp only [Function.comp, tint_emitted]
end

/-! ### Films -/

section
variable {t : Spectrum ℝ}

/-- The pixel multiplied. -/
noncomputable def tintPixel (t : Spectrum ℝ) (p : Pixel ℝ) : Pixel ℝ := ⟨p.color.mul t, p.weight⟩
/-- The tile multiplied. -/
noncomputable def FilmTile.tint (t : Spectrum ℝ) (tile : FilmTile ℝ) : FilmTile ℝ := { tile with pixels := tile.pixels.map (tintPixel t) }

theorem foldlM_map_comm {β γ : Type} (m : β → β) (f g : β → γ → Option β) (h : ∀ b x, g (m b) x = (f b x).map m) (l : List γ) (b : β) :
    l.foldlM g (m b) = (l.foldlM f b).map m := by
  induction l generalizing b with
  | nil => rfl
  | cons x l ih =>
    simp only [List.foldlM_cons, bind]
    rw [h]
    cases f b x with
    | none => rfl
    | some c => exact ih c

theorem modifyAt_map {β : Type} (m : β → β) (f g : β → β) (h : ∀ b, g (m b) = m (f b)) (l : List β) (i : Nat) :
    modifyAt (l.map m) i g = (modifyAt l i f).map (List.map m) := by
  unfold modifyAt
  rw [List.length_map]
  split
  · simp only [Option.map_some, Option.some.injEq]
    apply List.ext_getElem?
    intro j
    simp only [List.getElem?_modify, List.getElem?_map]
    cases l[j]? with
    | none => simp
    | some b => by_cases e : i = j <;> simp [e, h]
  · rfl

/-- The loops of `add_sample`. -/
noncomputable def addLoops (mn mx : V2 Int) (i0 i1 : List Nat) (table : List (List ℝ)) (off : Int → Int → Nat) (l : Spectrum ℝ) (px : List (Pixel ℝ)) : Option (List (Pixel ℝ)) :=
  (intRange mn.y mx.y).foldlM (fun px y =>
    (intRange mn.x mx.x).foldlM (fun px x => do
      let j1 ← i1[asUsize (y - mn.y)]?
      let j0 ← i0[asUsize (x - mn.x)]?
      let row ← table[j1]?
      let weight ← row[j0]?
      modifyAt px (off x y) (fun p => p.addSample l weight)) px) px

theorem tint_addLoops (mn mx : V2 Int) (i0 i1 : List Nat) (table : List (List ℝ)) (off : Int → Int → Nat) (l : Spectrum ℝ) (px : List (Pixel ℝ)) :
    addLoops mn mx i0 i1 table off (l.mul t) (px.map (tintPixel t)) = (addLoops mn mx i0 i1 table off l px).map (List.map (tintPixel t)) := by
  unfold addLoops
  refine foldlM_map_comm (List.map (tintPixel t)) _ _ (fun px y => ?_) _ _
  refine foldlM_map_comm (List.map (tintPixel t)) _ _ (fun px x => ?_) _ _
  simp only [bind]
  cases i1[asUsize (y - mn.y)]? with
  | none => rfl
  | some j1 =>
    cases i0[asUsize (x - mn.x)]? with
    | none => rfl
    | some j0 =>
      simp only [Option.bind_some]
      cases table[j1]? with
      | none => rfl
      | some row =>
        simp only [Option.bind_some]
        cases row[j0]? with
        | none => rfl
        | some w =>
          simp only [Option.bind_some]
          apply modifyAt_map
          intro p
          simp only [Pixel.addSample, tintPixel, tint_add, tint_smul]

theorem addSample_loops (tile : FilmTile ℝ) (pf : V2 ℝ) : ∃ mn mx i0 i1, ∀ (l : Spectrum ℝ) (px : List (Pixel ℝ)),
    ({ tile with pixels := px } : FilmTile ℝ).addSample pf l =
      (addLoops mn mx i0 i1 tile.filterTable tile.pixelOffset l px).bind fun px => some { tile with pixels := px } := by
  let q := pf.sub halfPixel
  let mn := (q.ssub tile.filterRadius).ceil.toI.imax tile.bbox.min
  let top := (q.sadd tile.filterRadius).floor.toI
  let mx := (⟨wrapI32 (top.x + 1), wrapI32 (top.y + 1)⟩ : V2 Int).imin tile.bbox.max
  exact ⟨mn, mx, filterIndices tile.filterRadius q.x mn.x mx.x, filterIndices tile.filterRadius q.y mn.y mx.y, fun l px => rfl⟩

theorem tint_addSample (tile : FilmTile ℝ) (pf : V2 ℝ) (l : Spectrum ℝ) :
    (tile.tint t).addSample pf (l.mul t) = (tile.addSample pf l).map (FilmTile.tint t) := by
  obtain ⟨mn, mx, i0, i1, h⟩ := addSample_loops tile pf
  have h2 := h l tile.pixels
  change tile.addSample pf l = _ at h2
  unfold FilmTile.tint
  rw [h (l.mul t) (tile.pixels.map (tintPixel t)), h2, tint_addLoops]
  cases addLoops mn mx i0 i1 tile.filterTable tile.pixelOffset l tile.pixels <;> rfl

theorem tint_valid (ht : 0 < t.r ∧ 0 < t.g ∧ 0 < t.b) (l : Spectrum ℝ) : validRadiance (l.mul t) = validRadiance l := by
  unfold validRadiance Spectrum.any Spectrum.mul
  real_ops
  simp [mul_neg_iff, ht.1, ht.2.1, ht.2.2, not_lt.2 ht.1.le, not_lt.2 ht.2.1.le, not_lt.2 ht.2.2.le]

variable {σ : Type} {radiance radiance' : V2 ℝ → Draw ℝ (Spectrum ℝ)}

theorem tint_pixelLoop (ht : 0 < t.r ∧ 0 < t.g ∧ 0 < t.b) (hr : ∀ p, (radiance p).Rel (IsTint t) (radiance' p)) (ops : SamplerOps ℝ σ) (pixel : V2 Int) :
    ∀ (fuel : Nat) (tile : FilmTile ℝ) (s : σ), pixelLoop ops radiance' pixel fuel (tile.tint t) s =
      (pixelLoop ops radiance pixel fuel tile s).map fun r => (r.1.tint t, r.2) := by
  intro fuel
  induction fuel with
  | zero => intros; rfl
  | succ fuel ih =>
    intro tile s
    have h1 : (oneSample radiance pixel).Rel (fun a b => b = (a.1, a.2.mul t)) (oneSample radiance' pixel) := by
      unfold oneSample
      refine Draw.Rel.bind (Q := fun a b => a = b) ?_ (fun x => rfl)
      rintro p _ rfl
      refine Draw.Rel.bind ?_ (hr p)
      rintro l _ rfl
      exact rfl
    simp only [pixelLoop, bind]
    rcases h1.run ops s with ⟨e1, e2⟩ | ⟨⟨pf, l⟩, _, s', e1, e2, rfl⟩
    · rw [e1, e2]; rfl
    · rw [e1, e2]
      simp only [Option.bind_some, addIfValid, tint_valid ht]
      have key : ∀ o : Option (FilmTile ℝ),
          ((o.map (FilmTile.tint t)).bind fun tile => if (ops.startNextSample s').1 = true then pixelLoop ops radiance' pixel fuel tile (ops.startNextSample s').2
            else pure (tile, (ops.startNextSample s').2)) =
          (o.bind fun tile => if (ops.startNextSample s').1 = true then pixelLoop ops radiance pixel fuel tile (ops.startNextSample s').2
            else pure (tile, (ops.startNextSample s').2)).map fun r => (r.1.tint t, r.2) := by
        intro o
        cases o with
        | none => rfl
        | some tile =>
          simp only [Option.map_some, Option.bind_some]
          split
          · exact ih _ _
          · rfl
      split
      · rw [tint_addSample]; exact key _
      · exact key (some tile)

theorem tint_renderTile (ht : 0 < t.r ∧ 0 < t.g ∧ 0 < t.b) (hr : ∀ p, (radiance p).Rel (IsTint t) (radiance' p)) (ops : SamplerOps ℝ σ) (film : Film ℝ)
    (s : σ) (b : BBox2i) : renderTile ops radiance' film s b = (renderTile ops radiance film s b).map fun r => (r.1.tint t, r.2) := by
  unfold renderTile
  have e : (film.getFilmTile b).tint t = film.getFilmTile b := by
    unfold Film.getFilmTile FilmTile.new FilmTile.tint
    simp only [List.map_replicate]
    congr 2
    unfold tintPixel Pixel.zero
    congr 1
    exact tint_zero
  have := foldlM_map_comm (fun r : FilmTile ℝ × σ => (r.1.tint t, r.2))
    (fun acc pixel => pixelLoop ops radiance pixel (2 ^ 32) acc.1 (ops.startPixel acc.2 pixel))
    (fun acc pixel => pixelLoop ops radiance' pixel (2 ^ 32) acc.1 (ops.startPixel acc.2 pixel))
    (fun acc pixel => tint_pixelLoop ht hr ops pixel _ _ _) b.iter.toList (film.getFilmTile b, s)
  rw [e] at this
  exact this

theorem tint_haltonTile (ht : 0 < t.r ∧ 0 < t.g ∧ 0 < t.b) (hr : ∀ p, (radiance p).Rel (IsTint t) (radiance' p)) (res : V2 Int) (filt : Filter ℝ)
    (spp : Nat) (b : BBox2i) (x y : Int) :
    (InTile (haltonTile res filt radiance' spp b) x y ↔ InTile (haltonTile res filt radiance spp b) x y) ∧
    (haltonTile res filt radiance' spp b).px x y = tintPixel t ((haltonTile res filt radiance spp b).px x y) := by
  have e0 : ∀ film : Film ℝ, (film.getFilmTile b).tint t = film.getFilmTile b := by
    intro film
    unfold Film.getFilmTile FilmTile.new FilmTile.tint
    simp only [List.map_replicate]
    congr 2
    unfold tintPixel Pixel.zero
    congr 1
    exact tint_zero
  have e : haltonTile res filt radiance' spp b = (haltonTile res filt radiance spp b).tint t := by
    unfold haltonTile
    rw [tint_renderTile ht hr]
    cases renderTile HaltonSampler.ops radiance (Film.new res filt) (HaltonSampler.new spp (Film.new res filt).sampleBBox) b with
    | none => exact (e0 _).symm
    | some r => rfl
  rw [e]
  refine ⟨Iff.rfl, ?_⟩
  generalize haltonTile res filt radiance spp b = tile
  change (((tile.pixels.map (tintPixel t))[tile.pixelOffset x y]?).getD Pixel.zero) = _
  unfold FilmTile.px
  rw [List.getElem?_map]
  cases tile.pixels[tile.pixelOffset x y]? with
  | some p => rfl
  | none =>
    simp only [Option.map_none, Option.getD_none]
    unfold tintPixel Pixel.zero
    congr 1
    exact tint_zero.symm
end

/-! ### C90 -/

section
variable [HasInf ℝ] [HasNext ℝ]

/-- C90, camera samples: multiplying the colours of all lights multiplies the radiance of every camera sample, whatever the sampler; the sampler is
used in the same way. -/
theorem c90_radiance (t : Spectrum ℝ) (ht : 0 < t.r ∧ 0 < t.g ∧ 0 < t.b) {hist hist' : List (BuilderCall ℝ)} (h : List.Forall₂ (Tinted t) hist hist')
    {mk : List (Obj ℝ) → Option (Container ℝ)} (hmk : LibraryContainer mk) {scene scene' : Scene ℝ} (hsc : (built hist).construct mk = some scene)
    (hsc' : (built hist').construct mk = some scene') (camera : PerspectiveCamera ℝ) (pFilm : V2 ℝ) {σ : Type} (ops : SamplerOps ℝ σ) (s : σ) :
    (cameraRadiance scene' camera pFilm).run ops s = ((cameraRadiance scene camera pFilm).run ops s).map fun r => (r.1.mul t, r.2) := by
  obtain ⟨sc, e, hs⟩ := tint_scene ht h hmk hsc
  rw [hsc'] at e
  cases e
  rcases (tint_cameraRadiance hs camera pFilm).run ops s with ⟨e1, e2⟩ | ⟨l, _, s', e1, e2, rfl⟩
  · rw [e1, e2]; rfl
  · rw [e1, e2]; rfl

/-- C90, image: when both renders are complete, whatever the numbers of threads and the schedules, every pixel is multiplied. -/
theorem c90_image (t : Spectrum ℝ) (ht : 0 < t.r ∧ 0 < t.g ∧ 0 < t.b) {hist hist' : List (BuilderCall ℝ)} (h : List.Forall₂ (Tinted t) hist hist')
    {mk : List (Obj ℝ) → Option (Container ℝ)} (hmk : LibraryContainer mk) {scene scene' : Scene ℝ} (hsc : (built hist).construct mk = some scene)
    (hsc' : (built hist').construct mk = some scene') (camera : PerspectiveCamera ℝ) (res : V2 Int) (filt : Filter ℝ) (hR : FilmRange res filt.radius)
    (spp n n' : Nat) (hn : 1 ≤ n) (hn' : 1 ≤ n') (file file' : Option (List UInt8)) (k k' : Nat) (st st' : RState ℝ HaltonSampler) :
    let film := Film.new res filt
    let sampler := HaltonSampler.new spp film.sampleBBox
    RReach (fun s b => renderTile HaltonSampler.ops (cameraRadiance scene camera) film s b) sampler (RState.init film n file) k st → st.main = .done →
    RReach (fun s b => renderTile HaltonSampler.ops (cameraRadiance scene' camera) film s b) sampler (RState.init film n' file') k' st' → st'.main = .done →
    ∀ x y, Spec.InImage res x y →
      (st'.sh.film.px x y).color = (st.sh.film.px x y).color.mul t ∧ (st'.sh.film.px x y).weight = (st.sh.film.px x y).weight := by
  intro film sampler hr hd hr' hd' x y hi
  obtain ⟨sc, e, hs⟩ := tint_scene ht h hmk hsc
  rw [hsc'] at e
  cases e
  have hT := tint_haltonTile ht (tint_cameraRadiance hs camera) res filt spp
  have h0 : film.px x y = Pixel.zero := by
    unfold Film.px film Film.new
    simp only [List.getElem?_replicate]
    split <;> rfl
  have key : ∀ (comp : Pixel ℝ → ℝ) (c : ℝ), (∀ p q : Pixel ℝ, comp (p.merge q) = comp p + comp q) → comp Pixel.zero = 0 →
      (∀ p, comp (tintPixel t p) = comp p * c) → comp (st'.sh.film.px x y) = comp (st.sh.film.px x y) * c := by
    intro comp c hcomp hz hc
    rw [halton_pixel res filt hR _ spp n hn file k st hr hd comp hcomp x y hi,
      halton_pixel res filt hR _ spp n' hn' file' k' st' hr' hd' comp hcomp x y hi, h0, hz, zero_add, zero_add, ← List.sum_map_mul_right]
    congr 1
    apply List.map_congr_left
    intro b _
    obtain ⟨t1, t2⟩ := hT b x y
    by_cases hin : InTile (haltonTile res filt (cameraRadiance scene camera) spp b) x y
    · rw [if_pos hin, if_pos (t1.2 hin), t2, hc]
    · rw [if_neg hin, if_neg (fun hh => hin (t1.1 hh)), zero_mul]
  have hz : (Spectrum.zero : Spectrum ℝ).r = 0 ∧ (Spectrum.zero : Spectrum ℝ).g = 0 ∧ (Spectrum.zero : Spectrum ℝ).b = 0 := by
    simp [Spectrum.zero, r_lit]
  refine ⟨?_, ?_⟩
  · ext
    · exact key (fun p => p.color.r) t.r (fun p q => rfl) hz.1 (fun p => rfl)
    · exact key (fun p => p.color.g) t.g (fun p q => rfl) hz.2.1 (fun p => rfl)
    · exact key (fun p => p.color.b) t.b (fun p q => rfl) hz.2.2 (fun p => rfl)
  · have := key (fun p => p.weight) 1 (fun p q => rfl) (by simp [Pixel.zero, r_lit]) (fun p => (mul_one _).symm)
    rwa [mul_one] at this

/-- A lit room, and the same with the light twice as bright: both renders can be completed. -/
example (kd : TextureOf ℝ (Spectrum ℝ)) (tri : Triangle ℝ) (htri : tri.material = mirrorMaterial kd) (camera : PerspectiveCamera ℝ) (filt : Filter ℝ)
    (hR : FilmRange ⟨640, 480⟩ filt.radius) :
    let hist : Spectrum ℝ → List (BuilderCall ℝ) := fun e =>
      [.shape 1 (Sphere.mk ⟨0, 0, 3⟩ 1 (lambertianMaterial kd)).toShape, .area 2 ⟨e, tri.toShape⟩]
    List.Forall₂ (Tinted ⟨2, 2, 2⟩) (hist ⟨5, 4, 3⟩) (hist ((⟨5, 4, 3⟩ : Spectrum ℝ).mul ⟨2, 2, 2⟩)) ∧
    ∀ e, ∃ scene, (built (hist e)).construct (fun ss => (Simple.new ss).map Simple.toContainer) = some scene ∧
      ∃ k st, RReach (fun s b => renderTile HaltonSampler.ops (cameraRadiance scene camera) (Film.new ⟨640, 480⟩ filt) s b)
        (HaltonSampler.new 16 (Film.new ⟨640, 480⟩ filt).sampleBBox) (RState.init (Film.new ⟨640, 480⟩ filt) 4 none) k st ∧ st.main = .done := by
  intro hist
  refine ⟨.cons (.shape _ _ fun _ _ => ?_) (.cons (.area _ _ _) .nil), fun e => ?_⟩
  · simp [Sphere.toShape, Shape.withDefaults, Spectrum.zero, r_lit]
  · have hS : ∀ x ∈ hist e, LibraryCall x := by
      intro x hx
      simp only [hist, List.mem_cons, List.not_mem_nil, or_false] at hx
      rcases hx with rfl | rfl
      · exact .sphere _ _ (.lambertian _)
      · exact .area _ _ _ (by rw [htri]; exact .mirror _)
    cases h : (built (hist e)).construct (fun ss => (Simple.new ss).map Simple.toContainer) with
    | none => exact absurd ((c65_panics_simple (hist e)).1 h).1 (by simp [hist, addedShapes])
    | some scene =>
      exact ⟨scene, rfl, (c76_library_real (hist e) hS .simple h camera _ filt hR _ (by norm_num [HaltonSampler.new]) 4 none).2⟩
end

end PT
