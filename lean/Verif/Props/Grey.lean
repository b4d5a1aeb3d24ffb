import Verif.Props.NeverPanicsLib
import Verif.Props.Render
import Verif.Props.RenderImage
import Verif.Props.Pixel
import Verif.Props.Output

/-!
# Colour channels that agree in the scene agree in the image (C88)

In particular a scene without colours gives an image without colours: no step from texture to file tints.  In every arithmetic, single
precision with its rounding included, every schedule and every sampler.
-/

namespace PT
open Spec

namespace Spec
/-- A colour channel. -/
inductive Channel where
  | red | green | blue

/-- The value of a channel. -/
def Channel.of {α : Type} : Channel → Spectrum α → α
  | .red, s => s.r
  | .green, s => s.g
  | .blue, s => s.b

/-- Two channels of a colour agree. -/
def Same {α : Type} (c d : Channel) (s : Spectrum α) : Prop := c.of s = d.of s

/-- A material of the library, in all of whose colours the two channels agree. -/
inductive SameMaterial {α : Type} [Scalar α] [Libm α] [HasInf α] (c d : Channel) : Material α → Prop
  | lambertian (kd : TextureOf α (Spectrum α)) : (∀ i, Same c d (kd i)) → SameMaterial c d (lambertianMaterial kd)
  | mirror (kr : TextureOf α (Spectrum α)) : (∀ i, Same c d (kr i)) → SameMaterial c d (mirrorMaterial kr)
  | metal (r eta k : TextureOf α (Spectrum α)) (ru rv) : (∀ i, Same c d (r i)) → (∀ i, Same c d (eta i)) → (∀ i, Same c d (k i)) →
      SameMaterial c d (metalMaterial r eta k ru rv)
  | glass (kr kt : TextureOf α (Spectrum α)) (eta ru rv) : (∀ i, Same c d (kr i)) → (∀ i, Same c d (kt i)) →
      SameMaterial c d (glassMaterial kr kt eta ru rv)
  | plastic (kd ks : TextureOf α (Spectrum α)) (rough) : (∀ i, Same c d (kd i)) → (∀ i, Same c d (ks i)) →
      SameMaterial c d (plasticMaterial kd ks rough)

/-- A call of the scene builder with an object of the library in all of whose colours the two channels agree. -/
inductive SameCall {α β : Type} [Scalar α] [Libm α] [HasInf α] [Scalar β] [Libm β] [Widen α β] (c d : Channel) : BuilderCall α → Prop
  | distant (addr e w) : Same c d e → SameCall c d (.light addr fun box => ((DistantLight.new e w).preProcess box).toLight)
  | sphere (addr) (s : Sphere α) : SameMaterial c d s.material → SameCall c d (.shape addr s.toShape)
  | triangle (addr) (t : Triangle α) : SameMaterial c d t.material → SameCall c d (.shape addr t.toShape)
  | areaTriangle (addr e) (t : Triangle α) : Same c d e → SameMaterial c d t.material → SameCall c d (.area addr ⟨e, t.toShape⟩)
  | areaSphere (addr e) (s : Sphere α) : Same c d e → SameMaterial c d s.material → SameCall c d (.area addr ⟨e, s.toShape⟩)
end Spec

section
variable {α : Type} {c d : Channel}

theorem same_of (v : α) : Same c d (Spectrum.of v) := by cases c <;> cases d <;> rfl
theorem same_map {s : Spectrum α} {β : Type} (f : α → β) (h : Same c d s) : Same c d (s.map f) := by
  unfold Same at *
  have e : ∀ c : Channel, c.of (s.map f) = f (c.of s) := by intro c; cases c <;> rfl
  rw [e, e, h]

variable [Scalar α]
theorem same_zero : Same c d (Spectrum.zero : Spectrum α) := by cases c <;> cases d <;> rfl
theorem same_bin {s t u : Spectrum α} (op : α → α → α) (e : ∀ c : Channel, c.of u = op (c.of s) (c.of t)) (hs : Same c d s) (ht : Same c d t) : Same c d u := by
  unfold Same at *; rw [e, e, hs, ht]
theorem same_un {s u : Spectrum α} (op : α → α) (e : ∀ c : Channel, c.of u = op (c.of s)) (hs : Same c d s) : Same c d u := by
  unfold Same at *; rw [e, e, hs]
theorem same_add {s t : Spectrum α} : Same c d s → Same c d t → Same c d (s.add t) := same_bin (· +. ·) (by intro c; cases c <;> rfl)
theorem same_sub {s t : Spectrum α} : Same c d s → Same c d t → Same c d (s.sub t) := same_bin (· -. ·) (by intro c; cases c <;> rfl)
theorem same_mul {s t : Spectrum α} : Same c d s → Same c d t → Same c d (s.mul t) := same_bin (· *. ·) (by intro c; cases c <;> rfl)
theorem same_div {s t : Spectrum α} : Same c d s → Same c d t → Same c d (s.div t) := same_bin (· /. ·) (by intro c; cases c <;> rfl)
theorem same_sadd {s : Spectrum α} (a : α) : Same c d s → Same c d (s.sadd a) := same_un (· +. a) (by intro c; cases c <;> rfl)
theorem same_ssub {s : Spectrum α} (a : α) : Same c d s → Same c d (s.ssub a) := same_un (· -. a) (by intro c; cases c <;> rfl)
theorem same_smul {s : Spectrum α} (a : α) : Same c d s → Same c d (s.smul a) := same_un (· *. a) (by intro c; cases c <;> rfl)
theorem same_sdiv {s : Spectrum α} (a : α) : Same c d s → Same c d (s.sdiv a) := same_un (· /. a) (by intro c; cases c <;> rfl)
theorem same_neg {s : Spectrum α} : Same c d s → Same c d s.neg := same_un (⊖ ·) (by intro c; cases c <;> rfl)
theorem same_abs {s : Spectrum α} : Same c d s → Same c d s.abs := same_un Scalar.abs (by intro c; cases c <;> rfl)
theorem same_clamp {s : Spectrum α} (lo hi : α) : Same c d s → Same c d (s.clamp lo hi) := same_un (PT.clamp · lo hi) (by intro c; cases c <;> rfl)
variable [Libm α]
theorem same_sqrt {s : Spectrum α} : Same c d s → Same c d s.sqrt := same_un Libm.sqrt (by intro c; cases c <;> rfl)

theorem same_frConductor {cosI : α} {etaI etaT k : Spectrum α} (h1 : Same c d etaI) (h2 : Same c d etaT) (h3 : Same c d k) :
    Same c d (frConductor cosI etaI etaT k) := by
  unfold frConductor
  dsimp only
  repeat first
    | exact same_div h2 h1 | exact same_div h3 h1
    | apply same_smul | apply same_sadd | apply same_ssub | apply same_sqrt | apply same_add | apply same_sub | apply same_mul | apply same_div
end

/-! ### Scattering -/

section
variable {α : Type} [Scalar α] [Libm α] {c d : Channel}

/-- A component. -/
structure SameComp (c d : Channel) (x : BxDF α) : Prop where
  f : ∀ wo wi, Same c d (x.f wo wi)
  sample : ∀ wo u, Same c d (x.sampleF wo u).2.1

/-- A scattering function. -/
structure SameBsdf (c d : Channel) (b : BSDF α) : Prop where
  f : ∀ wo wi, Same c d (b.f wo wi)
  sample : ∀ wo u r, b.sampleF wo u = some r → Same c d r.2.1

theorem same_lambertian {r : Spectrum α} (h : Same c d r) : SameComp c d (lambertianReflection r) :=
  ⟨fun _ _ => same_sdiv _ h, fun _ _ => same_sdiv _ h⟩

theorem same_specularReflection {r : Spectrum α} (h : Same c d r) {fr : Fresnel α} (hf : ∀ x, Same c d (fr x)) : SameComp c d (specularReflection r fr) :=
  ⟨fun _ _ => same_zero, fun _ _ => same_sdiv _ (same_mul h (hf _))⟩

theorem same_specularTransmission {t : Spectrum α} (h : Same c d t) (a b : α) : SameComp c d (specularTransmission t a b) := by
  refine ⟨fun _ _ => same_zero, fun wo u => ?_⟩
  unfold specularTransmission
  dsimp only
  split
  · exact same_zero
  · exact same_sdiv _ (same_smul _ (same_sdiv _ (same_mul h (same_sub (same_of _) (same_of _)))))

theorem same_microfacetReflection {r : Spectrum α} (h : Same c d r) (m : Microfacet α) {fr : Fresnel α} (hf : ∀ x, Same c d (fr x)) :
    SameComp c d (microfacetReflection r m fr) := by
  have key : ∀ wo wi, Same c d (MicrofacetReflection.f r m fr wo wi) := by
    intro wo wi
    unfold MicrofacetReflection.f
    dsimp only
    split_ifs
    · exact same_zero
    · exact same_zero
    · exact same_sdiv _ (same_mul (same_smul _ (same_smul _ h)) (hf _))
  refine ⟨key, fun wo u => ?_⟩
  change Same c d (MicrofacetReflection.sampleF r m fr wo u).2.1
  unfold MicrofacetReflection.sampleF
  dsimp only
  split_ifs
  · exact same_zero
  · exact same_zero
  · exact key _ _

theorem same_microfacetTransmission {t : Spectrum α} (h : Same c d t) (a b : α) (m : Microfacet α) : SameComp c d (microfacetTransmission t a b m) := by
  have key : ∀ wo wi, Same c d (MicrofacetTransmission.f t a b m wo wi) := by
    intro wo wi
    unfold MicrofacetTransmission.f
    dsimp only
    split
    · exact same_zero
    split
    · exact same_zero
    exact same_abs (same_sdiv _ (same_smul _ (same_smul _ (same_mul (same_smul _ (same_smul _ h)) (same_sadd _ (same_neg (same_of _)))))))
  refine ⟨key, fun wo u => ?_⟩
  change Same c d (MicrofacetTransmission.sampleF t a b m wo u).2.1
  unfold MicrofacetTransmission.sampleF
  dsimp only
  split
  · exact same_zero
  split
  · exact same_zero
  · exact key _ _

theorem same_sumF (bs : List (BxDF α)) (h : ∀ x ∈ bs, SameComp c d x) (r : Bool) (wo wi : V3 α) : Same c d (BSDF.sumF bs r wo wi) := by
  unfold BSDF.sumF
  have key : ∀ (bs : List (BxDF α)) (s : Spectrum α), (∀ x ∈ bs, SameComp c d x) → Same c d s →
      Same c d (bs.foldl (fun f b => if (r && b.hasFlag REFLECTION) || (!r && b.hasFlag TRANSMISSION) then f.add (b.f wo wi) else f) s) := by
    intro bs
    induction bs with
    | nil => intro s _ hs; exact hs
    | cons x bs ih =>
      intro s hx hs
      rw [List.foldl_cons]
      refine ih _ (fun y hy => hx y (by simp [hy])) ?_
      split
      · exact same_add hs ((hx x (by simp)).f wo wi)
      · exact hs
  exact key bs _ h same_zero

theorem same_bsdf (b : BSDF α) (h : ∀ x ∈ b.bxdfs, SameComp c d x) : SameBsdf c d b := by
  refine ⟨fun wo wi => ?_, fun wo u r e => ?_⟩
  · unfold BSDF.f
    dsimp only
    split
    · exact same_zero
    · exact same_sumF _ h _ _ _
  · unfold BSDF.sampleF at e
    dsimp only at e
    split at e
    · cases e; exact same_zero
    split at e
    · cases e
    rename_i x hx
    split at e
    · cases e; exact same_zero
    split at e
    · cases e; exact same_zero
    cases e
    dsimp only
    split
    · exact same_sumF _ h _ _ _
    · exact (h x (List.mem_of_getElem? hx)).sample _ _

variable [HasInf α]
theorem same_material {m : Material α} (h : SameMaterial c d m) (i : Interaction α) : SameBsdf c d (m i) := by
  apply same_bsdf
  have hcl : ∀ {k : TextureOf α (Spectrum α)}, (∀ i, Same c d (k i)) → Same c d (clampedTex k i) := fun hk => same_clamp _ _ (hk i)
  have hnil : ∀ x ∈ (BSDF.new i).bxdfs, SameComp c d x := by intro x hx; simp [BSDF.new] at hx
  have hadd : ∀ (b : BSDF α) (y : BxDF α), (∀ x ∈ b.bxdfs, SameComp c d x) → SameComp c d y → ∀ x ∈ (b.add y).bxdfs, SameComp c d x := by
    intro b y hb hy x hx
    simp only [BSDF.add, List.mem_append, List.mem_singleton] at hx
    rcases hx with hx | rfl
    · exact hb x hx
    · exact hy
  have hdi : ∀ a b x, Same c d (fresnelDielectric a b x : Spectrum α) := fun _ _ _ => same_of _
  cases h with
  | lambertian kd h =>
    unfold lambertianMaterial
    dsimp only
    split
    · exact hnil
    · exact hadd _ _ hnil (same_lambertian (hcl h))
  | mirror kr h =>
    unfold mirrorMaterial
    dsimp only
    split
    · exact hnil
    · exact hadd _ _ hnil (same_specularReflection (hcl h) fun _ => same_of _)
  | metal r eta k ru rv h1 h2 h3 =>
    unfold metalMaterial
    dsimp only
    split
    · exact hadd _ _ hnil (same_specularReflection (hcl h1) fun _ => same_frConductor (same_of _) (h2 i) (h3 i))
    · exact hadd _ _ hnil (same_microfacetReflection (hcl h1) _ fun _ => same_frConductor (same_of _) (h2 i) (h3 i))
  | glass kr kt eta ru rv h1 h2 =>
    unfold glassMaterial
    dsimp only
    split
    · have hb : ∀ x ∈ (if (clampedTex kr i).isBlack = true then BSDF.new i else (BSDF.new i).add (specularReflection (clampedTex kr i) (fresnelDielectric (lit 1) (eta i)))).bxdfs,
          SameComp c d x := by
        split
        · exact hnil
        · exact hadd _ _ hnil (same_specularReflection (hcl h1) (hdi _ _))
      split
      · exact hb
      · exact hadd _ _ hb (same_specularTransmission (hcl h2) _ _)
    · have hb : ∀ x ∈ (if (clampedTex kr i).isBlack = true then BSDF.new i else (BSDF.new i).add (microfacetReflection (clampedTex kr i) ⟨ru i, rv i⟩ (fresnelDielectric (lit 1) (eta i)))).bxdfs,
          SameComp c d x := by
        split
        · exact hnil
        · exact hadd _ _ hnil (same_microfacetReflection (hcl h1) _ (hdi _ _))
      split
      · exact hb
      · exact hadd _ _ hb (same_microfacetTransmission (hcl h2) _ _ _)
  | plastic kd ks rough h1 h2 =>
    unfold plasticMaterial
    dsimp only
    have hb : ∀ x ∈ (if (clampedTex kd i).isBlack = true then BSDF.new i else (BSDF.new i).add (lambertianReflection (clampedTex kd i))).bxdfs, SameComp c d x := by
      split
      · exact hnil
      · exact hadd _ _ hnil (same_lambertian (hcl h1))
    split
    · exact hb
    · split
      · exact hadd _ _ hb (same_specularReflection (hcl h2) (hdi _ _))
      · exact hadd _ _ hb (same_microfacetReflection (hcl h2) _ (hdi _ _))
end

/-! ### Paths -/

section
variable {α : Type} [Scalar α] [Libm α] [HasInf α] [HasNext α] {c d : Channel} {scene : Scene α}
open Prog

/-- A scene. -/
structure SameScene (c d : Channel) (scene : Scene α) : Prop where
  lights : ∀ l ∈ scene.lights, ∀ i u s, l.light.sampleLi i u = some s → Same c d s.li
  emits : ∀ ray h w, scene.shapes.intersect ray = some (some h) → Same c d (h.obj.shape.l h.i w)
  scatters : ∀ ray h, scene.shapes.intersect ray = some (some h) → SameBsdf c d (h.obj.shape.material h.i)

theorem same_directFromLight {light : LightObj α} (hl : ∀ i u s, light.light.sampleLi i u = some s → Same c d s.li) (i : Interaction α) {bsdf : BSDF α}
    (hb : SameBsdf c d bsdf) (u : V2 α) : (directFromLight light i bsdf u).Yields scene (fun _ => True) (Same c d) := by
  unfold directFromLight
  refine Yields.bind (Q := fun s => light.light.sampleLi i u = some s) (fun s hs => ?_) (Yields.ofOption fun x h => h)
  have h1 := hl i u s hs
  have hf : Same c d ((bsdf.f i.wo s.wi).smul (Scalar.abs (s.wi.dot i.sn))) := same_smul _ (hb.f _ _)
  refine Yields.ite (fun _ => ?_) fun _ => same_zero
  refine Yields.ite (fun _ => ?_) fun _ => same_zero
  refine Yields.bind (Q := fun _ => True) (fun occ _ => ?_) (fun _ _ => trivial)
  refine Yields.ite (fun _ => ?_) fun _ => same_zero
  refine Yields.ite (fun _ => ?_) fun _ => ?_
  · exact same_add same_zero (same_sdiv _ (same_mul hf h1))
  · exact same_add same_zero (same_sdiv _ (same_smul _ (same_mul hf h1)))

theorem same_directFromBsdf (hsc : SameScene c d scene) (light : LightObj α) (i : Interaction α) {bsdf : BSDF α} (hb : SameBsdf c d bsdf) (u : V2 α)
    {ld : Spectrum α} (hld : Same c d ld) : (directFromBsdf light i bsdf u ld).Yields scene (fun _ => True) (Same c d) := by
  unfold directFromBsdf
  refine Yields.ite (fun _ => ?_) fun _ => hld
  refine Yields.bind (Q := fun s => bsdf.sampleF i.wo u = some s) (fun s hs => ?_) (Yields.ofOption fun x h => h)
  obtain ⟨wi, f, p, flag⟩ := s
  dsimp only
  have hf : Same c d (f.smul (Scalar.abs (wi.dot i.sn))) := same_smul _ (hb.sample _ _ _ hs)
  refine Yields.ite (fun _ => ?_) fun _ => hld
  refine Yields.ite (fun _ => hld) fun _ => ?_
  refine Yields.bind (Q := fun x => scene.shapes.intersect (i.spawnRay wi) = some x) (fun x hx => ?_) (fun x hx => hx)
  cases x with
  | none => exact hld
  | some h =>
    have hli : Same c d (if h.obj.addr = light.addr then h.le wi.neg else Spectrum.zero) := by
      split_ifs
      · exact hsc.emits _ h _ hx
      · exact same_zero
    exact same_add hld (same_sdiv _ (same_smul _ (same_mul hf hli)))

theorem same_uniformSampleOneLight (hsc : SameScene c d scene) (i : Interaction α) {bsdf : BSDF α} (hb : SameBsdf c d bsdf) :
    (uniformSampleOneLight scene.lights i bsdf).Yields scene (fun _ => True) (Same c d) := by
  unfold uniformSampleOneLight
  dsimp only
  refine Yields.ite (fun _ => same_zero) fun _ => ?_
  refine Yields.bind (Q := fun _ => True) (fun u _ => ?_) (fun _ _ => trivial)
  refine Yields.bind (Q := fun l => l ∈ scene.lights) (fun light hl => ?_) (Yields.ofOption fun x h => List.mem_of_getElem? h)
  refine Yields.bind (Q := Same c d) (fun ld hld => same_smul _ hld) ?_
  unfold estimateDirect
  refine Yields.bind (Q := fun _ => True) (fun u _ => ?_) (fun _ _ _ => trivial)
  refine Yields.bind (Q := fun _ => True) (fun v _ => ?_) (fun _ _ _ => trivial)
  exact Yields.bind (Q := Same c d) (fun ld hld => same_directFromBsdf hsc light i hb v hld)
    (same_directFromLight (fun i u s => hsc.lights light hl i u s) i hb u)

theorem same_liLoop (hsc : SameScene c d scene) (k : Nat) : ∀ (bounces : Nat) (ray : Ray α) (l beta : Spectrum α) (sb : Bool),
    MAX_BOUNCES + 1 - bounces = k → Same c d l → Same c d beta → (liLoop scene.lights bounces ray l beta sb).Yields scene (fun _ => True) (Same c d) := by
  induction k using Nat.strong_induction_on with
  | _ k ih =>
    intro bounces ray l beta sb hk hl hbeta
    rw [liLoop]
    refine Yields.bind (Q := fun x => scene.shapes.intersect ray = some x) (fun x hx => ?_) (fun x hx => hx)
    cases x with
    | none =>
      dsimp only
      split_ifs <;> exact hl
    | some h =>
      dsimp only
      generalize hl' : (if bounces = 0 ∨ sb = true then l.add (beta.mul (h.le ray.direction.neg)) else l) = l'
      have hl2 : Same c d l' := by
        rw [← hl']
        split_ifs
        · exact same_add hl (same_mul hbeta (hsc.emits ray h _ hx))
        · exact hl
      by_cases hb : bounces > MAX_BOUNCES
      · rw [dif_pos hb]; exact hl2
      rw [dif_neg hb]
      have hbs := hsc.scatters ray h hx
      refine Yields.bind (Q := fun b => b = h.obj.shape.material h.i) (fun b hb' => ?_) (show _ = _ from rfl)
      subst hb'
      refine Yields.bind (Q := Same c d) (fun ld hld => ?_) (same_uniformSampleOneLight hsc _ hbs)
      have hl3 := same_add hl2 (same_mul hbeta hld)
      refine Yields.bind (Q := fun _ => True) (fun u _ => ?_) (fun _ _ _ => trivial)
      refine Yields.bind (Q := fun s => (h.obj.shape.material h.i).sampleF h.i.wo u = some s) (fun s hs => ?_) (Yields.ofOption fun x h => h)
      obtain ⟨wi, f, p, flag⟩ := s
      dsimp only
      refine Yields.ite (fun _ => hl3) fun hc => ?_
      have hbeta' : Same c d (scatterWeight beta f wi h.i.sn p) := same_mul hbeta (same_sdiv _ (same_smul _ (hbs.sample _ _ _ hs)))
      refine Yields.ite (fun _ => ?_) fun _ => ?_
      · refine Yields.bind (Q := fun _ => True) (fun v _ => ?_) (fun _ _ => trivial)
        unfold roulette
        dsimp only
        split_ifs
        · exact hl3
        · exact ih (MAX_BOUNCES + 1 - (bounces + 1)) (by omega) _ _ _ _ _ rfl hl3 (same_sdiv _ hbeta')
      · exact ih (MAX_BOUNCES + 1 - (bounces + 1)) (by omega) _ _ _ _ _ rfl hl3 hbeta'

/-- The radiance of a camera sample. -/
theorem same_cameraRadiance (hsc : SameScene c d scene) (camera : PerspectiveCamera α) (pFilm : V2 α) {σ : Type} (ops : SamplerOps α σ) (s s' : σ)
    (l : Spectrum α) (h : (cameraRadiance scene camera pFilm).run ops s = some (l, s')) : Same c d l :=
  Yields.run (U := fun _ => True) ⟨fun _ _ _ _ => trivial, fun _ _ _ _ => ⟨trivial, trivial⟩⟩ (same_liLoop hsc _ 0 _ _ _ false rfl same_zero (same_of _)) s l s' h
end

/-! ### Films -/

section
variable {α : Type} [Scalar α] {c d : Channel} {σ : Type}

theorem draw_bind_run {α β γ σ : Type} (ops : SamplerOps α σ) (p : Draw α β) (f : β → Draw α γ) (s : σ) :
    (p.bind f).run ops s = (p.run ops s).bind fun r => (f r.1).run ops r.2 := by
  induction p generalizing s with
  | ret b => rfl
  | panic => rfl
  | get1 k ih =>
    simp only [Draw.bind, Draw.run]
    cases ops.get1d s with
    | none => rfl
    | some x => exact ih x.1 x.2
  | get2 k ih =>
    simp only [Draw.bind, Draw.run]
    cases ops.get2d s with
    | none => rfl
    | some x => exact ih x.1 x.2

theorem same_pixelLoop {ops : SamplerOps α σ} {radiance : V2 α → Draw α (Spectrum α)} (hr : ∀ p s l s', (radiance p).run ops s = some (l, s') → Same c d l)
    (pixel : V2 Int) : ∀ (fuel : Nat) (t : FilmTile α) (s : σ) (t' : FilmTile α) (s' : σ), (∀ p ∈ t.pixels, Same c d p.color) →
    pixelLoop ops radiance pixel fuel t s = some (t', s') → ∀ p ∈ t'.pixels, Same c d p.color := by
  intro fuel
  induction fuel with
  | zero => intro t s t' s' _ e; simp [pixelLoop] at e
  | succ fuel ih =>
    intro t s t' s' h e
    simp only [pixelLoop, bind] at e
    obtain ⟨⟨⟨pf, l⟩, s1⟩, e0, e⟩ := Option.bind_eq_some_iff.1 e
    obtain ⟨t1, e1, e⟩ := Option.bind_eq_some_iff.1 e
    have hl : Same c d l := by
      unfold oneSample at e0
      rw [draw_bind_run] at e0
      obtain ⟨⟨pf', s2⟩, -, e0⟩ := Option.bind_eq_some_iff.1 e0
      rw [draw_bind_run] at e0
      obtain ⟨⟨l', s3⟩, el, e0⟩ := Option.bind_eq_some_iff.1 e0
      simp only [Draw.run, Option.some.injEq, Prod.mk.injEq] at e0
      obtain ⟨⟨-, rfl⟩, -⟩ := e0
      exact hr _ _ _ _ el
    have h1 : ∀ p ∈ t1.pixels, Same c d p.color := by
      unfold addIfValid at e1
      split_ifs at e1
      · exact (addSample_inv (fun p => Same c d p.color) (fun _ => True) (fun _ _ _ _ => trivial) h
          (fun p w hp _ => same_add hp (same_smul _ hl)) e1).2
      · cases e1; exact h
    split_ifs at e
    · exact ih t1 _ t' s' h1 e
    · cases e; exact h1

theorem same_renderTile {ops : SamplerOps α σ} {radiance : V2 α → Draw α (Spectrum α)} (hr : ∀ p s l s', (radiance p).run ops s = some (l, s') → Same c d l)
    (film : Film α) (s : σ) (b : BBox2i) (t : FilmTile α) (s' : σ) (e : renderTile ops radiance film s b = some (t, s')) :
    ∀ p ∈ t.pixels, Same c d p.color := by
  unfold renderTile at e
  refine foldlM_inv (fun acc : FilmTile α × σ => ∀ p ∈ acc.1.pixels, Same c d p.color) _ _ ?_ _ (t, s') ?_ e
  · rintro ⟨t1, s1⟩ p _ ⟨t2, s2⟩ h1 e1
    exact same_pixelLoop hr p _ _ _ _ _ h1 e1
  · intro p hp
    obtain rfl := (List.mem_replicate.1 hp).2
    exact same_zero

theorem same_merge {film film' : Film α} {t : FilmTile α} (hf : ∀ p ∈ film.pixels, Same c d p.color) (ht : ∀ p ∈ t.pixels, Same c d p.color)
    (e : film.mergeFilmTile t = some film') : (∀ p ∈ film'.pixels, Same c d p.color) ∧ film'.pixels.length = film.pixels.length ∧ film'.resolution = film.resolution := by
  unfold Film.mergeFilmTile at e
  refine foldlM_inv (fun f : Film α => (∀ p ∈ f.pixels, Same c d p.color) ∧ f.pixels.length = film.pixels.length ∧ f.resolution = film.resolution) _ _ ?_ _ _
    ⟨hf, rfl, rfl⟩ e
  intro f p _ f' ⟨h1, h2, h3⟩ e
  unfold Film.mergePixel at e
  simp only [bind, pure] at e
  obtain ⟨src, e1, e⟩ := Option.bind_eq_some_iff.1 e
  obtain ⟨px, e2, e⟩ := Option.bind_eq_some_iff.1 e
  cases e
  refine ⟨modifyAt_inv _ h1 (fun q hq => same_add hq (ht src (List.mem_of_getElem? e1))) e2, ?_, h3⟩
  unfold modifyAt at e2
  split_ifs at e2
  cases e2
  simpa using h2
end

/-! ### Scenes of the library -/

section
variable {α β : Type} [Scalar α] [Libm α] [HasInf α] [HasNext α] [Scalar β] [Libm β] [Widen α β] {c d : Channel}

omit [HasNext α] in
theorem same_shapes : ∀ (hist : List (BuilderCall α)), (∀ x ∈ hist, SameCall c d x) → ∀ s ∈ sceneShapes hist,
    SameMaterial c d s.shape.material ∧ ∀ i w, Same c d (s.shape.l i w) := by
  intro hist
  induction hist with
  | nil => intro _ s h; simp [sceneShapes, addedShapes, addedAreas, asShapes] at h
  | cons x hist ih =>
    intro hlib s h
    have hx := hlib x (by simp)
    have ht := ih (fun c hc => hlib c (by simp [hc])) s
    simp only [sceneShapes, List.mem_append] at ht
    have he : ∀ (e : Spectrum α) (sh : Shape α), Same c d e → ∀ i w, Same c d ((AreaLight.mk e sh).emitted i w) := by
      intro e sh he i w
      unfold AreaLight.emitted
      split
      · exact he
      · exact same_zero
    cases hx with
    | distant addr e w => simp only [sceneShapes, List.mem_append] at h; exact ht h
    | sphere addr sp hm =>
      simp only [sceneShapes, addedShapes, addedAreas, List.mem_append, List.mem_cons] at h
      rcases h with (rfl | h) | h
      · exact ⟨hm, fun _ _ => same_zero⟩
      · exact ht (Or.inl h)
      · exact ht (Or.inr h)
    | triangle addr t hm =>
      simp only [sceneShapes, addedShapes, addedAreas, List.mem_append, List.mem_cons] at h
      rcases h with (rfl | h) | h
      · exact ⟨hm, fun _ _ => same_zero⟩
      · exact ht (Or.inl h)
      · exact ht (Or.inr h)
    | areaTriangle addr e t h1 hm =>
      simp only [sceneShapes, addedShapes, addedAreas, asShapes, List.map_cons, List.mem_append, List.mem_cons] at h
      rcases h with h | rfl | h
      · exact ht (Or.inl h)
      · exact ⟨hm, he e _ h1⟩
      · exact ht (Or.inr h)
    | areaSphere addr e t h1 hm =>
      simp only [sceneShapes, addedShapes, addedAreas, asShapes, List.map_cons, List.mem_append, List.mem_cons] at h
      rcases h with h | rfl | h
      · exact ht (Or.inl h)
      · exact ⟨hm, he e _ h1⟩
      · exact ht (Or.inr h)

omit [HasNext α] in
theorem same_lights (box : BBox3 α) : ∀ (hist : List (BuilderCall α)), (∀ x ∈ hist, SameCall c d x) → ∀ l ∈ addedLights box hist ++ asLights (addedAreas hist),
    ∀ i u s, l.light.sampleLi i u = some s → Same c d s.li := by
  intro hist
  induction hist with
  | nil => intro _ s h; simp [addedLights, addedAreas, asLights] at h
  | cons x hist ih =>
    intro hlib l h
    have hx := hlib x (by simp)
    have ht := ih (fun c hc => hlib c (by simp [hc])) l
    simp only [List.mem_append] at ht
    have he : ∀ (e : Spectrum α) (sh : Shape α), Same c d e → ∀ i u s, (AreaLight.mk e sh).sampleLi i u = some s → Same c d s.li := by
      intro e sh he i u s hs
      obtain ⟨p, -, rfl⟩ := Option.map_eq_some_iff.1 hs
      dsimp only
      unfold AreaLight.emitted
      split
      · exact he
      · exact same_zero
    cases hx with
    | distant addr e w he' =>
      simp only [addedLights, addedAreas, List.mem_append, List.mem_cons] at h
      rcases h with (rfl | h) | h
      · intro i u s hs
        cases hs
        exact he'
      · exact ht (Or.inl h)
      · exact ht (Or.inr h)
    | sphere addr sp hm => exact ht (List.mem_append.1 h)
    | triangle addr t hm => exact ht (List.mem_append.1 h)
    | areaTriangle addr e t h1 hm =>
      simp only [addedLights, addedAreas, asLights, List.map_cons, List.mem_append, List.mem_cons] at h
      rcases h with h | rfl | h
      · exact ht (Or.inl h)
      · exact he e t.toShape h1
      · exact ht (Or.inr h)
    | areaSphere addr e t h1 hm =>
      simp only [addedLights, addedAreas, asLights, List.map_cons, List.mem_append, List.mem_cons] at h
      rcases h with h | rfl | h
      · exact ht (Or.inl h)
      · exact he e t.toShape h1
      · exact ht (Or.inr h)

omit [HasNext α] in
theorem same_scene (hist : List (BuilderCall α)) (hlib : ∀ x ∈ hist, SameCall c d x)
    {mk : List (Obj α) → Option (Container α)} (hmk : LibraryContainer mk) {scene : Scene α} (hsc : (built hist).construct mk = some scene) :
    SameScene c d scene := by
  obtain ⟨box, -, h, -⟩ := c65_construct hist mk
  obtain ⟨hl, hc⟩ := h scene hsc
  have hS := same_shapes hist hlib
  refine ⟨fun l hl' => same_lights box hist hlib l (hl ▸ hl'), fun ray h w hh => ?_, fun ray h hh => ?_⟩
  · exact (hS _ (container_hit_from hmk hc ray h hh)).2 _ _
  · exact same_material (hS _ (container_hit_from hmk hc ray h hh)).1 _

/-- C88, camera samples: if two colour channels agree in all the textures and lights of a scene of library objects, then they agree in
the radiance computed for any camera sample, in any arithmetic, with any sampler. -/
theorem c88_radiance (hist : List (BuilderCall α)) (hlib : ∀ x ∈ hist, SameCall c d x)
    {mk : List (Obj α) → Option (Container α)} (hmk : LibraryContainer mk) {scene : Scene α} (hsc : (built hist).construct mk = some scene)
    (camera : PerspectiveCamera α) (pFilm : V2 α) {σ : Type} (ops : SamplerOps α σ) (s s' : σ) (l : Spectrum α)
    (h : (cameraRadiance scene camera pFilm).run ops s = some (l, s')) : c.of l = d.of l :=
  same_cameraRadiance (same_scene hist hlib hmk hsc) camera pFilm ops s s' l h

/-- C88, film: then they agree in every pixel of the film when `render` returns, whatever the schedule of its threads. -/
theorem c88_film (hist : List (BuilderCall α)) (hlib : ∀ x ∈ hist, SameCall c d x)
    {mk : List (Obj α) → Option (Container α)} (hmk : LibraryContainer mk) {scene : Scene α} (hsc : (built hist).construct mk = some scene)
    (camera : PerspectiveCamera α) (res : V2 Int) (filt : Filter α) {σ : Type} (ops : SamplerOps α σ) (sampler : σ)
    (n : Nat) (hn : 1 ≤ n) (file : Option (List UInt8)) (k : Nat) (st : RState α σ)
    (hr : RReach (renderTile ops (cameraRadiance scene camera) (Film.new res filt)) sampler (RState.init (Film.new res filt) n file) k st)
    (hdone : st.main = .done) :
    (∀ p ∈ st.sh.film.pixels, c.of p.color = d.of p.color) ∧ st.sh.film.pixels.length = (Film.new res filt).pixels.length ∧ st.sh.film.resolution = res := by
  obtain ⟨log, -, h2, h3, -⟩ := c06_every_tile_once _ sampler _ n hn file k st hr hdone
  refine foldlM_inv (fun f : Film α => (∀ p ∈ f.pixels, Same c d p.color) ∧ f.pixels.length = (Film.new res filt).pixels.length ∧ f.resolution = res) _ _ ?_ _ _
    ⟨?_, rfl, rfl⟩ h3
  · rintro f e he f' ⟨a1, a2, a3⟩ e1
    obtain ⟨s', hw⟩ := h2 e he
    obtain ⟨b1, b2, b3⟩ := same_merge a1
      (same_renderTile (fun p s l s' h => same_cameraRadiance (same_scene hist hlib hmk hsc) camera p ops s s' l h) _ _ _ _ _ hw) e1
    exact ⟨b1, b2.trans a2, b3.trans a3⟩
  · intro p hp
    obtain rfl := (List.mem_replicate.1 hp).2
    exact same_zero
end

/-! ### The file -/

namespace Spec
/-- The value of a channel in a line of the file. -/
def Channel.num : Channel → Nat × Nat × Nat → Nat
  | .red, q => q.1
  | .green, q => q.2.1
  | .blue, q => q.2.2
end Spec

section
variable [Libm F32] [Libm F64] {c d : Channel}

omit [Libm F64] in
theorem file_channels (work : σ → BBox2i → Option (FilmTile F32 × σ)) (sampler : σ) (res : V2 Int) (hx : 0 < res.x) (hy : 0 ≤ res.y)
    (ha : res.x * res.y < 2 ^ 31) (filt : Filter F32) (n : Nat) (hn : 1 ≤ n) (k : Nat) (st : RState F32 σ)
    (hr : RReach work sampler (RState.init (Film.new res filt) n none) k st) (hdone : st.main = .done)
    (f2 : st.sh.film.pixels.length = (Film.new res filt).pixels.length) (f3 : st.sh.film.resolution = res) :
    ∃ (text : String) (px : List (Nat × Nat × Nat)), st.file = some text.toUTF8.toList ∧ IsPpm text res.x res.y px ∧
      ∀ q ∈ px, ∃ p ∈ st.sh.film.pixels, ∀ c : Channel, c.num q = channelByte (c.of p.color) p.weight := by
  obtain ⟨log, -, -, -, e, -⟩ := c06_every_tile_once _ sampler _ n hn none k st hr hdone
  have hsz := filmNew_sized res (mul_nonneg hx.le hy) ha filt
  have hsz' : st.sh.film.Sized := ⟨by rw [f3]; exact ha, by rw [f2, f3]; exact hsz.2⟩
  obtain ⟨px, h1, h2⟩ := c09_ppm_well_formed st.sh.film (by rw [f3]; exact hx.le) (by rw [f3]; exact hy) hsz'
  rw [f3] at h1 h2
  refine ⟨st.sh.film.writeImagePpm, px, ?_, h1, fun q hq => ?_⟩
  · rw [e]; simp [outputFile, overwriteFile]
  · obtain ⟨m, hm, rfl⟩ := List.mem_iff_getElem.1 hq
    have hm' : (m : Int) < res.x * res.y := by rw [← h1.2.1]; exact_mod_cast hm
    have hdiv := Int.emod_add_mul_ediv (m : Int) res.x
    obtain ⟨p, hp, hq'⟩ := h2 (m % res.x) (m / res.x) (Int.emod_nonneg _ hx.ne') (Int.emod_lt_of_pos _ hx)
      (Int.ediv_nonneg (by positivity) hx.le) (Int.ediv_lt_of_lt_mul hx (by rw [mul_comm]; exact hm'))
    rw [show (m : Int) / res.x * res.x + m % res.x = m by rw [mul_comm]; omega, Int.toNat_natCast, List.getElem?_eq_getElem hm, Option.some.injEq] at hq'
    rw [hq']
    exact ⟨p, List.mem_of_getElem? hp, fun c => by cases c <;> rfl⟩

/-- C88, file: if two colour channels agree in all the textures and lights of a scene of library objects, then the image file consists of
lines in which the two numbers agree, single precision, whatever the schedule, the sampler and the camera. -/
theorem c88_file (hist : List (BuilderCall F32)) (hlib : ∀ x ∈ hist, SameCall c d x)
    {mk : List (Obj F32) → Option (Container F32)} (hmk : LibraryContainer mk) {scene : Scene F32} (hsc : (built hist).construct mk = some scene)
    (camera : PerspectiveCamera F32) (res : V2 Int) (hx : 0 < res.x) (hy : 0 ≤ res.y) (ha : res.x * res.y < 2 ^ 31) (filt : Filter F32)
    {σ : Type} (ops : SamplerOps F32 σ) (sampler : σ) (n : Nat) (hn : 1 ≤ n) (k : Nat) (st : RState F32 σ)
    (hr : RReach (renderTile ops (cameraRadiance scene camera) (Film.new res filt)) sampler (RState.init (Film.new res filt) n none) k st)
    (hdone : st.main = .done) :
    ∃ (text : String) (px : List (Nat × Nat × Nat)), st.file = some text.toUTF8.toList ∧ IsPpm text res.x res.y px ∧ ∀ q ∈ px, c.num q = d.num q := by
  obtain ⟨f1, f2, f3⟩ := c88_film hist hlib hmk hsc camera res filt ops sampler n hn none k st hr hdone
  obtain ⟨text, px, h1, h2, h3⟩ := file_channels _ sampler res hx hy ha filt n hn k st hr hdone f2 f3
  refine ⟨text, px, h1, h2, fun q hq => ?_⟩
  obtain ⟨p, hp, e⟩ := h3 q hq
  rw [e, e, f1 p hp]

/-- C88: the image of a scene without colours is without colours. -/
theorem c88_grey_image (hist : List (BuilderCall F32)) (hlib : ∀ x ∈ hist, ∀ c d, SameCall c d x)
    {mk : List (Obj F32) → Option (Container F32)} (hmk : LibraryContainer mk) {scene : Scene F32} (hsc : (built hist).construct mk = some scene)
    (camera : PerspectiveCamera F32) (res : V2 Int) (hx : 0 < res.x) (hy : 0 ≤ res.y) (ha : res.x * res.y < 2 ^ 31) (filt : Filter F32)
    {σ : Type} (ops : SamplerOps F32 σ) (sampler : σ) (n : Nat) (hn : 1 ≤ n) (k : Nat) (st : RState F32 σ)
    (hr : RReach (renderTile ops (cameraRadiance scene camera) (Film.new res filt)) sampler (RState.init (Film.new res filt) n none) k st)
    (hdone : st.main = .done) :
    ∃ (text : String) (greys : List Nat), st.file = some text.toUTF8.toList ∧ IsPpm text res.x res.y (greys.map fun v => (v, v, v)) := by
  have F := fun c d => c88_film (c := c) (d := d) hist (fun x hx => hlib x hx _ _) hmk hsc camera res filt ops sampler n hn none k st hr hdone
  obtain ⟨f1, f2, f3⟩ := F .red .green
  obtain ⟨text, px, h1, h2, h3⟩ := file_channels _ sampler res hx hy ha filt n hn k st hr hdone f2 f3
  refine ⟨text, px.map Prod.fst, h1, ?_⟩
  rw [List.map_map, List.map_congr_left (g := id), List.map_id]
  · exact h2
  · intro q hq
    obtain ⟨p, hp, e⟩ := h3 q hq
    have e1 := (e .red).trans ((congrArg (channelByte · p.weight) (f1 p hp)).trans (e .green).symm)
    have e2 := (e .red).trans ((congrArg (channelByte · p.weight) ((F .red .blue).1 p hp)).trans (e .blue).symm)
    obtain ⟨r, g, b⟩ := q
    change r = g at e1
    change r = b at e2
    subst e1; subst e2
    rfl
end

/-- A scene without colours that is rendered to the end: a matt sphere, a mirror sphere, a gold-like rough sphere and a glass sphere in white light. -/
example [Libm F32] [Libm F64] (camera : PerspectiveCamera F32) (filt : Filter F32) (hR : FilmRange32 ⟨640, 480⟩ filt.radius) (file : Option (List UInt8)) :
    let grey : ℚ → TextureOf F32 (Spectrum F32) := fun v _ => ⟨lit v, lit v, lit v⟩
    let hist : List (BuilderCall F32) :=
      [.shape 1 (Sphere.mk ⟨lit 0, lit 0, lit 3⟩ (lit 1) (lambertianMaterial (grey (1 / 2)))).toShape,
       .shape 2 (Sphere.mk ⟨lit 3, lit 0, lit 3⟩ (lit 1) (mirrorMaterial (grey 1))).toShape,
       .shape 3 (Sphere.mk ⟨lit 6, lit 0, lit 3⟩ (lit 1) (metalMaterial (grey 1) (grey (1 / 5)) (grey 3) (fun _ => lit (1 / 10)) (fun _ => lit (1 / 10)))).toShape,
       .shape 4 (Sphere.mk ⟨lit 9, lit 0, lit 3⟩ (lit 1) (glassMaterial (grey 1) (grey 1) (fun _ => lit (3 / 2)) (fun _ => lit 0) (fun _ => lit 0))).toShape,
       .light 5 (fun box => ((DistantLight.new ⟨lit 1, lit 1, lit 1⟩ ⟨lit 0, lit 0, lit 1⟩).preProcess box).toLight)]
    (∀ x ∈ hist, ∀ c d, SameCall c d x) ∧ ∃ scene, (built hist).construct (fun ss => (Simple.new ss).map Simple.toContainer) = some scene ∧
      ∃ k st, RReach (renderTile HaltonSampler.ops (cameraRadiance scene camera) (Film.new ⟨640, 480⟩ filt)) (HaltonSampler.new 16 (Film.new ⟨640, 480⟩ filt).sampleBBox)
        (RState.init (Film.new ⟨640, 480⟩ filt) 4 none) k st ∧ st.main = .done := by
  intro grey hist
  have hg : ∀ (c d : Channel) v i, Same c d (grey v i) := fun c d v i => by cases c <;> cases d <;> rfl
  refine ⟨?_, ?_⟩
  · intro x hx c d
    simp only [hist, List.mem_cons, List.not_mem_nil, or_false] at hx
    rcases hx with rfl | rfl | rfl | rfl | rfl
    · exact .sphere _ _ (.lambertian _ (hg c d _))
    · exact .sphere _ _ (.mirror _ (hg c d _))
    · exact .sphere _ _ (.metal _ _ _ _ _ (hg c d _) (hg c d _) (hg c d _))
    · exact .sphere _ _ (.glass (grey 1) (grey 1) (fun _ => lit (3 / 2)) (fun _ => lit 0) (fun _ => lit 0) (hg c d _) (hg c d _))
    · exact .distant _ _ _ (same_of _)
  · have hS : ∀ x ∈ hist, SphereCall x := by
      intro x hx
      simp only [hist, List.mem_cons, List.not_mem_nil, or_false] at hx
      rcases hx with rfl | rfl | rfl | rfl | rfl
      · exact .sphere _ _ (.lambertian _)
      · exact .sphere _ _ (.mirror _)
      · exact .sphere _ _ (.metal _ _ _ _ _)
      · exact .sphere _ _ (.glass (grey 1) (grey 1) (fun _ => lit (3 / 2)) (fun _ => lit 0) (fun _ => lit 0))
      · exact .distant _ _ _
    cases h : (built hist).construct (fun ss => (Simple.new ss).map Simple.toContainer) with
    | none => exact absurd ((c65_panics_simple hist).1 h).1 (by simp [hist, addedShapes])
    | some scene =>
      exact ⟨scene, rfl, (c76_spheres_f32 hist hS .simple h camera _ filt hR _ (by norm_num [HaltonSampler.new]) 4 none).2⟩

/-- Channels that differ: a red light is not without colour. -/
example : ¬ Same .red .green (⟨lit 1, lit 0, lit 0⟩ : Spectrum F32) := by
  intro h
  exact absurd h (by simp only [Same, Channel.of]; decide +kernel)

end PT
