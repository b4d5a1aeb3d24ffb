import Verif.Props.Lambert
import Verif.Props.TriangleWorld

/-!
# C117: a matt surface in the light of several distant lamps

Each sample shows the light of one lamp, as many times as there are lamps; on average all of them are seen, each as Lambert's law says.
-/

namespace PT
open scoped ENNReal
namespace Spec

/-- A lamp far away: where the builder puts it, its colour and the direction in which it is. -/
structure FarLamp where
  addr : Nat
  colour : Spectrum ℝ
  toward : V3 ℝ

/-- The call that adds the lamp to a scene. -/
noncomputable def FarLamp.call (d : FarLamp) : BuilderCall ℝ := .light d.addr fun box => ((DistantLight.new d.colour d.toward).preProcess box).toLight

/-- The lamp in a scene with this box. -/
noncomputable def FarLamp.ready (box : BBox3 ℝ) (d : FarLamp) : LightObj ℝ := ⟨d.addr, distant d.colour d.toward box⟩

open Classical in
/-- What a lamp gives at a point of a matt surface of colour `albedo`: Lambert's law if it is on the viewer's side and not hidden, and nothing otherwise. -/
noncomputable def lamplight [HasNext ℝ] (scene : Scene ℝ) (i : Interaction ℝ) (albedo : Spectrum ℝ) (box : BBox3 ℝ) (d : FarLamp) : Spectrum ℝ :=
  if FacingSide i.n i.wo d.toward ∧ scene.intersectP (lampRay i d.toward box) = some false then lambert albedo d.colour i.n d.toward else ⟨0, 0, 0⟩

open Classical in
/-- The same where nothing hides a lamp. -/
noncomputable def openLight (i : Interaction ℝ) (albedo : Spectrum ℝ) (d : FarLamp) : Spectrum ℝ :=
  if FacingSide i.n i.wo d.toward then lambert albedo d.colour i.n d.toward else ⟨0, 0, 0⟩
end Spec
open Spec

theorem inner_comm' (v w : V3 ℝ) : inner v w = inner w v := by unfold Spec.inner; ring

theorem lambert_chan (a e : Spectrum ℝ) (n w : V3 ℝ) (c : Chan) : c.of (lambert a e n w) = c.of a / Real.pi * (|inner n w| / √(sq w)) * c.of e := by
  cases c <;> simp only [lambert, Chan.of] <;> ring

section
variable [HasInf ℝ] [HasNext ℝ] {scene : Scene ℝ}
open Prog

theorem lamplight_chan (i : Interaction ℝ) (albedo : Spectrum ℝ) (box : BBox3 ℝ) (d : FarLamp) (c : Chan) :
    ((FacingSide i.n i.wo d.toward ∧ scene.intersectP (lampRay i d.toward box) = some false) ∧
      c.of (lamplight scene i albedo box d) = c.of albedo / Real.pi * (|inner i.n d.toward| / √(sq d.toward)) * c.of d.colour) ∨
    (¬ (FacingSide i.n i.wo d.toward ∧ scene.intersectP (lampRay i d.toward box) = some false) ∧ c.of (lamplight scene i albedo box d) = 0) := by
  classical
  unfold lamplight
  split_ifs with h
  · exact Or.inl ⟨h, lambert_chan _ _ _ _ _⟩
  · exact Or.inr ⟨h, by cases c <;> rfl⟩

theorem facing_unit (n v : V3 ℝ) {w : V3 ℝ} (hw : w ≠ V3.zero) : FacingSide n v (scale (1 / √(sq w)) w) ↔ FacingSide n v w := by
  have hsq : 0 < √(sq w) := Real.sqrt_pos.2 (sq_pos hw)
  have e1 : inner n (scale (1 / √(sq w)) w) = 1 / √(sq w) * inner n w := by unfold Spec.inner scale; ring
  unfold FacingSide
  rw [e1, show inner n v * (1 / √(sq w) * inner n w) = 1 / √(sq w) * (inner n v * inner n w) by ring]
  exact mul_pos_iff_of_pos_left (by positivity)

/-- What the surface scatters towards the viewer of the light of a lamp that it is turned to. -/
theorem matt_lamp_scatter (kd : TextureOf ℝ (Spectrum ℝ)) (i : Interaction ℝ) (hkd : ∀ c : Chan, 0 ≤ c.of (kd i) ∧ c.of (kd i) ≤ HasInf.infinity) (hsn : i.sn = i.n)
    {w : V3 ℝ} (hw : w ≠ V3.zero) (c : Chan) :
    (FacingSide i.n i.wo w → c.of ((lambertianMaterial kd i).f i.wo (scale (1 / √(sq w)) w)) * |inner (scale (1 / √(sq w)) w) i.sn| =
      c.of (kd i) / Real.pi * (|inner i.n w| / √(sq w))) ∧
    (¬ FacingSide i.n i.wo w → c.of ((lambertianMaterial kd i).f i.wo (scale (1 / √(sq w)) w)) = 0) := by
  have hsq : 0 < √(sq w) := Real.sqrt_pos.2 (sq_pos hw)
  refine ⟨fun hf => ?_, fun hf => matt_back kd i _ _ (fun hs => hf ((facing_unit _ _ hw).1 hs)) c⟩
  rw [matt_front kd i hsn.symm _ _ ((facing_unit _ _ hw).2 hf), clampedTex_self kd i hkd c, hsn]
  have e1 : inner (scale (1 / √(sq w)) w) i.n = inner i.n w / √(sq w) := by unfold Spec.inner scale; ring
  rw [e1, abs_div, abs_of_pos hsq]

/-- One look at a lamp. -/
theorem lamp_yields (box : BBox3 ℝ) (hbox : ∀ a, box.min.get a ≤ box.max.get a) (d : FarLamp) (hw : d.toward ≠ V3.zero) (i : Interaction ℝ)
    (kd : TextureOf ℝ (Spectrum ℝ)) (hkd : ∀ c : Chan, 0 ≤ c.of (kd i) ∧ c.of (kd i) ≤ HasInf.infinity) (hsn : i.sn = i.n) (u : V2 ℝ) :
    (directFromLight (d.ready box) i (lambertianMaterial kd i) u).Yields scene Canonical (fun s => ∀ c : Chan, c.of s = c.of (lamplight scene i (kd i) box d)) := by
  have hD := lamplight_chan (scene := scene) i (kd i) box d
  have hsc := fun c => matt_lamp_scatter kd i hkd hsn hw c
  have hz0 : ∀ c : Chan, c.of ((lambertianMaterial kd i).f i.wo (scale (1 / √(sq d.toward)) d.toward)) * |inner (scale (1 / √(sq d.toward)) d.toward) i.sn| = 0 →
      c.of (lamplight scene i (kd i) box d) = 0 := by
    intro c hc
    rcases hD c with ⟨a1, a2⟩ | ⟨-, a2⟩
    · rw [a2, ← (hsc c).1 a1.1, hc, zero_mul]
    · exact a2
  unfold directFromLight
  refine Yields.bind (Q := fun s => s = ⟨scale (1 / √(sq d.toward)) d.toward, d.colour, 1,
    ⟨i, { Interaction.default with p := along i.p (2 * radius box / √(sq d.toward)) d.toward }⟩⟩) (fun s hs => ?_)
    (Yields.ofOption fun x hx => by
      have := distant_sample d.colour d.toward hw box hbox i u
      exact (Option.some.inj (this.symm.trans hx)).symm)
  subst hs
  have hzero : (∀ c : Chan, c.of (lamplight scene i (kd i) box d) = 0) → ∀ c : Chan, c.of (Spectrum.zero : Spectrum ℝ) = c.of (lamplight scene i (kd i) box d) :=
    fun hz c => by rw [hz c, Chan.of_zero]
  refine Yields.ite (fun hc => ?_) fun hc => hzero fun c => ?_
  swap
  · have hb : d.colour.isBlack = true := by
      by_contra hb
      apply hc
      simp only [Bool.not_eq_true] at hb
      simp only [hb, Bool.not_false, Bool.and_true]
      real_ops; norm_num
    rcases hD c with ⟨-, a3⟩ | ⟨-, a2⟩
    · rw [a3, black_chan hb c, mul_zero]
    · exact a2
  refine Yields.ite (fun hc => ?_) fun hc => hzero fun c => ?_
  swap
  · have hb : (((lambertianMaterial kd i).f i.wo (scale (1 / √(sq d.toward)) d.toward)).smul
      (Scalar.abs ((scale (1 / √(sq d.toward)) d.toward).dot i.sn))).isBlack = true := by simpa using hc
    have := black_chan hb c
    rw [Chan.of_smul, inner_eq_dot, inner_comm'] at this
    real_ops at this
    exact hz0 c this
  refine Yields.bind (Q := fun x => scene.intersectP (lampRay i d.toward box) = some x) (fun occ ho => ?_) (fun x hx => hx)
  refine Yields.ite (fun hc => ?_) fun hc => hzero fun c => ?_
  swap
  · have : occ = true := by simpa using hc
    subst this
    rcases hD c with ⟨a1, -⟩ | ⟨-, a2⟩
    · rw [ho] at a1; simp at a1
    · exact a2
  have hocc : occ = false := by simpa using hc
  subst hocc
  refine Yields.ite (fun hd => ?_) fun hd => absurd rfl hd
  intro c
  rw [Chan.of_add, Chan.of_zero, zero_add, Chan.of_sdiv, Chan.of_mul, Chan.of_smul, div_one, inner_eq_dot, inner_comm']
  real_ops
  rcases hD c with ⟨a1, a3⟩ | ⟨a1, a2⟩
  · rw [(hsc c).1 a1.1, a3]
  · rw [(hsc c).2 fun hf => a1 ⟨hf, ho⟩, a2, zero_mul, zero_mul]

/-- A direction sampled at the surface leads to nothing. -/
theorem matt_free (h : Hit ℝ) (hsn : h.i.sn = h.i.n) (h1 : sq h.i.n = 1) (hps : inner h.i.dpdu.normalize h.i.n = 0)
    (hfree : ∀ v, v ≠ V3.zero → FacingSide h.i.n h.i.wo v → scene.intersect (h.i.spawnRay v) = some none) (kd : TextureOf ℝ (Spectrum ℝ)) (u : V2 ℝ)
    (hu : Canonical u.x) (hv : Canonical u.y) (wi : V3 ℝ) (f : Spectrum ℝ) (p : ℝ) (flag : Nat) (hs : (lambertianMaterial kd h.i).sampleF h.i.wo u = some (wi, f, p, flag))
    (hp0 : p ≠ 0) : scene.intersect (h.i.spawnRay wi) = some none := by
  have hs1 := matt_sample_side kd h.i (by rw [hsn]; exact h1) (by rw [hsn]; exact hps) h.i.wo u hu hv wi f p flag hs hp0
  rw [hsn] at hs1
  refine hfree wi ?_ hs1
  rintro rfl
  unfold FacingSide at hs1
  have : inner h.i.n V3.zero = 0 := by unfold Spec.inner V3.zero; real_ops; norm_num
  rw [this, mul_zero] at hs1
  exact lt_irrefl _ hs1

/-- C117, samples: the camera sees a matt surface that does not shine, all lamps are far away, and from the surface point nothing else is to be seen on the viewer's side.
Then every sample is exactly the light of one of the lamps, multiplied by the number of lamps, whatever numbers the sampler delivers. -/
theorem c117_sample (lamps : List FarLamp) (hne : lamps ≠ []) (hw : ∀ d ∈ lamps, d.toward ≠ V3.zero) (box : BBox3 ℝ) (hbox : ∀ a, box.min.get a ≤ box.max.get a)
    (hlights : scene.lights = lamps.map (FarLamp.ready box)) (camera : PerspectiveCamera ℝ) (pFilm : V2 ℝ)
    (h : Hit ℝ) (hh : scene.intersect (camera.generateRay pFilm) = some (some h))
    (kd : TextureOf ℝ (Spectrum ℝ)) (hmat : h.obj.shape.material = lambertianMaterial kd)
    (hkd : ∀ c : Chan, 0 ≤ c.of (kd h.i) ∧ c.of (kd h.i) ≤ HasInf.infinity) (hdark : ∀ v, h.obj.shape.l h.i v = Spectrum.zero)
    (h1 : sq h.i.n = 1) (hsn : h.i.sn = h.i.n) (hps : inner h.i.dpdu.normalize h.i.n = 0)
    (hfree : ∀ v, v ≠ V3.zero → FacingSide h.i.n h.i.wo v → scene.intersect (h.i.spawnRay v) = some none)
    {σ : Type} (ops : SamplerOps ℝ σ) (hops : Delivers Canonical ops) (s s' : σ) (l : Spectrum ℝ)
    (hrun : (cameraRadiance scene camera pFilm).run ops s = some (l, s')) :
    ∃ d ∈ lamps, ∀ c : Chan, c.of l = lamps.length * c.of (lamplight scene h.i (kd h.i) box d) := by
  have hone : (uniformSampleOneLight scene.lights h.i (lambertianMaterial kd h.i)).Yields scene Canonical
      (fun s => ∃ d ∈ lamps, ∀ c : Chan, c.of s = lamps.length * c.of (lamplight scene h.i (kd h.i) box d)) := by
    unfold uniformSampleOneLight
    rw [hlights]
    dsimp only
    refine Yields.ite (fun h0 => absurd (by simpa using h0) hne) fun _ => ?_
    refine Yields.bind (Q := fun _ => True) (fun u _ => ?_) (fun _ _ => trivial)
    refine Yields.bind (Q := fun l => ∃ d ∈ lamps, l = d.ready box) (fun light hl => ?_) (Yields.ofOption fun x hx => by
      obtain ⟨d, hd, e⟩ := List.mem_map.1 (List.mem_of_getElem? hx)
      exact ⟨d, hd, e.symm⟩)
    obtain ⟨d, hd, rfl⟩ := hl
    refine Yields.bind (Q := fun s => ∀ c : Chan, c.of s = c.of (lamplight scene h.i (kd h.i) box d)) (fun ld hld => ?_) ?_
    · refine ⟨d, hd, fun c => ?_⟩
      rw [Chan.of_smul, hld c, List.length_map, mul_comm]
      real_ops
      norm_num
    · unfold estimateDirect
      refine Yields.bind (Q := fun u => Canonical u.x ∧ Canonical u.y) (fun u hu => ?_) (fun _ a b => ⟨a, b⟩)
      refine Yields.bind (Q := fun u => Canonical u.x ∧ Canonical u.y) (fun v hv => ?_) (fun _ a b => ⟨a, b⟩)
      refine Yields.bind (Q := fun s => ∀ c : Chan, c.of s = c.of (lamplight scene h.i (kd h.i) box d)) (fun ld hld => ?_)
        (lamp_yields box hbox d (hw d hd) h.i kd hkd hsn u)
      unfold directFromBsdf
      refine Yields.ite (fun hd => ?_) fun _ => hld
      have : (d.ready box).light.isDelta = true := rfl
      rw [this] at hd
      simp at hd
  have hloop : (liLoop scene.lights 0 (camera.generateRay pFilm) Spectrum.zero (Spectrum.of (lit 1)) false).Yields scene Canonical
      (fun s => ∃ d ∈ lamps, ∀ c : Chan, c.of s = lamps.length * c.of (lamplight scene h.i (kd h.i) box d)) := by
    rw [liLoop]
    refine Yields.bind (Q := fun x => x = some h) (fun x hx => ?_) (fun x hx => Option.some.inj (hx.symm.trans hh))
    subst hx
    dsimp only
    rw [if_pos (Or.inl rfl), dif_neg (by decide)]
    have hle : h.le (camera.generateRay pFilm).direction.neg = Spectrum.zero := hdark _
    rw [hle]
    have hl0 : ∀ c : Chan, c.of ((Spectrum.zero : Spectrum ℝ).add ((Spectrum.of (lit 1)).mul Spectrum.zero)) = 0 := by
      intro c
      rw [Chan.of_add, Chan.of_mul, Chan.of_zero, mul_zero, add_zero]
    generalize (Spectrum.zero : Spectrum ℝ).add ((Spectrum.of (lit 1)).mul Spectrum.zero) = l0 at hl0
    refine Yields.bind (Q := fun b => b = lambertianMaterial kd h.i) (fun b hb => ?_) (show _ = _ by rw [hmat])
    subst hb
    refine Yields.bind (Q := fun s => ∃ d ∈ lamps, ∀ c : Chan, c.of s = lamps.length * c.of (lamplight scene h.i (kd h.i) box d)) (fun ld hld => ?_) hone
    have hl3 : ∃ d ∈ lamps, ∀ c : Chan, c.of (l0.add ((Spectrum.of (lit 1)).mul ld)) = lamps.length * c.of (lamplight scene h.i (kd h.i) box d) := by
      obtain ⟨d, hd, hld⟩ := hld
      refine ⟨d, hd, fun c => ?_⟩
      rw [Chan.of_add, Chan.of_mul, c.of_one, hl0 c, hld c, zero_add, one_mul]
    refine Yields.bind (Q := fun u => Canonical u.x ∧ Canonical u.y) (fun u hu => ?_) (fun _ a b => ⟨a, b⟩)
    refine Yields.bind (Q := fun s => (lambertianMaterial kd h.i).sampleF h.i.wo u = some s) (fun s hs => ?_) (Yields.ofOption fun x h => h)
    obtain ⟨wi, f, p, flag⟩ := s
    dsimp only
    refine Yields.ite (fun _ => hl3) fun hc => ?_
    have hp0 : p ≠ 0 := by
      intro h0
      apply hc
      rw [h0]
      real_ops
      simp
    have hmiss := matt_free h hsn h1 hps hfree kd u hu.1 hu.2 wi f p flag hs hp0
    rw [if_neg (by norm_num)]
    rw [liLoop]
    refine Yields.bind (Q := fun x => x = none) (fun x hx => ?_) (fun x hx => Option.some.inj (hx.symm.trans hmiss))
    subst hx
    dsimp only
    split_ifs <;> exact hl3
  exact Yields.run hops hloop s l s' hrun
/-! ### The mean -/

/-- The light of a lamp in the light transport recursion. -/
theorem lamp_source (box : BBox3 ℝ) (hbox : ∀ a, box.min.get a ≤ box.max.get a) (d : FarLamp) (hw : d.toward ≠ V3.zero) (h : Hit ℝ)
    (kd : TextureOf ℝ (Spectrum ℝ)) (hmat : h.obj.shape.material = lambertianMaterial kd)
    (hkd : ∀ c : Chan, 0 ≤ c.of (kd h.i) ∧ c.of (kd h.i) ≤ HasInf.infinity) (hsn : h.i.sn = h.i.n) (c : Chan) :
    fromSource scene c h (d.ready box) = ENNReal.ofReal (c.of (lamplight scene h.i (kd h.i) box d)) := by
  unfold fromSource
  rw [if_pos (show (d.ready box).light.isDelta = true from rfl), add_zero]
  have key : ∀ u, fromLight scene c h (d.ready box) u = ENNReal.ofReal (c.of (lamplight scene h.i (kd h.i) box d)) := by
    intro u
    unfold fromLight
    rw [hmat]
    have hs : (d.ready box).light.sampleLi h.i u = _ := distant_sample d.colour d.toward hw box hbox h.i u
    rw [hs]
    dsimp only
    rw [if_pos (show (d.ready box).light.isDelta = true from rfl), mul_one, div_one]
    have hray : (VisibilityTester.mk h.i { (Interaction.default : Interaction ℝ) with p := along h.i.p (2 * radius box / √(sq d.toward)) d.toward }).ray
        = lampRay h.i d.toward box := rfl
    rw [hray]
    rcases lamplight_chan (scene := scene) h.i (kd h.i) box d c with ⟨a1, a2⟩ | ⟨a1, a2⟩
    · rw [if_pos ⟨one_pos, a1.2⟩, (matt_lamp_scatter kd h.i hkd hsn hw c).1 a1.1, a2]
    · rw [a2, ENNReal.ofReal_zero]
      split_ifs with h2
      · rw [(matt_lamp_scatter kd h.i hkd hsn hw c).2 fun hf => a1 ⟨hf, h2.2⟩, zero_mul, zero_mul, ENNReal.ofReal_zero]
      · rfl
  rw [show fromLight scene c h (d.ready box) = fun _ => _ from funext key, mean2_const]

theorem lamplight_nonneg (i : Interaction ℝ) (albedo : Spectrum ℝ) (ha : ∀ c : Chan, 0 ≤ c.of albedo) (box : BBox3 ℝ) (d : FarLamp) (hc : ∀ c : Chan, 0 ≤ c.of d.colour)
    (c : Chan) : 0 ≤ c.of (lamplight scene i albedo box d) := by
  rcases lamplight_chan (scene := scene) i albedo box d c with ⟨-, a2⟩ | ⟨-, a2⟩
  · rw [a2]
    have := ha c
    have := hc c
    have := Real.pi_pos
    positivity
  · rw [a2]

theorem ofReal_list_sum {β : Type} (f : β → ℝ) : ∀ l : List β, (∀ x ∈ l, 0 ≤ f x) → (l.map fun x => ENNReal.ofReal (f x)).sum = ENNReal.ofReal (l.map f).sum
  | [], _ => by simp
  | x :: l, h => by
    have hl := fun y hy => h y (List.mem_cons_of_mem _ hy)
    rw [List.map_cons, List.sum_cons, List.map_cons, List.sum_cons, ofReal_list_sum f l hl, ENNReal.ofReal_add (h x List.mem_cons_self)]
    exact List.sum_nonneg fun y hy => by
      obtain ⟨z, hz, rfl⟩ := List.mem_map.1 hy
      exact hl z hz

/-- C117, the mean: under the same conditions the light that comes in along the ray, in the light transport recursion of C78, is the sum over the lamps of what each of
them gives alone. -/
theorem c117_incoming (lamps : List FarLamp) (hw : ∀ d ∈ lamps, d.toward ≠ V3.zero) (hcol : ∀ d ∈ lamps, ∀ c : Chan, 0 ≤ c.of d.colour)
    (box : BBox3 ℝ) (hbox : ∀ a, box.min.get a ≤ box.max.get a) (hlights : scene.lights = lamps.map (FarLamp.ready box)) (ray : Ray ℝ)
    (h : Hit ℝ) (hh : scene.intersect ray = some (some h))
    (kd : TextureOf ℝ (Spectrum ℝ)) (hmat : h.obj.shape.material = lambertianMaterial kd)
    (hkd : ∀ c : Chan, 0 ≤ c.of (kd h.i) ∧ c.of (kd h.i) ≤ HasInf.infinity) (hdark : ∀ v, h.obj.shape.l h.i v = Spectrum.zero)
    (h1 : sq h.i.n = 1) (hsn : h.i.sn = h.i.n) (hps : inner h.i.dpdu.normalize h.i.n = 0)
    (hfree : ∀ v, v ≠ V3.zero → FacingSide h.i.n h.i.wo v → scene.intersect (h.i.spawnRay v) = some none) (n : Nat) (e : Bool) (c : Chan) :
    incoming scene c (n + 1) e ray = ENNReal.ofReal (lamps.map fun d => c.of (lamplight scene h.i (kd h.i) box d)).sum := by
  unfold incoming
  rw [hh]
  dsimp only
  rw [hdark, c.of_zero, ENNReal.ofReal_zero, ite_self, zero_add]
  refine (congrArg₂ (· + ·) rfl (?_ : _ = (0 : ℝ≥0∞))).trans ?_
  · rw [hmat]
    refine (mean2_congr (G := fun _ => 0) fun u hu hv => ?_).trans (mean2_const 0)
    cases hs : (lambertianMaterial kd h.i).sampleF h.i.wo u with
    | none => rfl
    | some x =>
      obtain ⟨wi, f, p, flag⟩ := x
      dsimp only
      split_ifs with hp0
      · rfl
      · have hmiss := matt_free h hsn h1 hps hfree kd u hu hv wi f p flag hs hp0
        have : ∀ b, incoming scene c n b (h.i.spawnRay wi) = 0 := by
          intro b
          cases n <;> (unfold incoming; rw [hmiss])
        rw [this, mul_zero]
  rw [add_zero, hlights, List.map_map]
  rw [← ofReal_list_sum _ _ fun d hd => lamplight_nonneg _ _ (fun c => (hkd c).1) _ _ (hcol d hd) c]
  congr 1
  refine List.map_congr_left fun d hd => ?_
  exact lamp_source box hbox d (hw d hd) h kd hmat hkd hsn c

/-! ### One matt triangle and several lamps -/

/-- The scene that the builder makes of a triangle and lamps. -/
theorem lamps_scene (s : Triangle ℝ) (a : Nat) (lamps : List FarLamp)
    (hsc : (built (.shape a s.toShape :: lamps.map FarLamp.call)).construct (fun ss => (Simple.new ss).map Simple.toContainer) = some scene) :
    scene.lights = lamps.map (FarLamp.ready s.bbox) ∧ scene.shapes = (Simple.mk [⟨a, s.toShape⟩] s.bbox).toContainer := by
  have hl : ∀ box : BBox3 ℝ, addedLights box (lamps.map FarLamp.call) = lamps.map (FarLamp.ready box) ∧ addedShapes (lamps.map FarLamp.call) = [] ∧
      addedAreas (lamps.map FarLamp.call) = [] := by
    intro box
    clear hsc
    induction lamps with
    | nil => exact ⟨rfl, rfl, rfl⟩
    | cons d l ih =>
      obtain ⟨i1, i2, i3⟩ := ih
      refine ⟨?_, ?_, ?_⟩
      · simp only [List.map_cons, FarLamp.call, addedLights] at i1 ⊢
        rw [i1]; rfl
      · simpa only [List.map_cons, FarLamp.call, addedShapes] using i2
      · simpa only [List.map_cons, FarLamp.call, addedAreas] using i3
  obtain ⟨box, hb, hc, -⟩ := c65_construct (.shape a s.toShape :: lamps.map FarLamp.call) (fun ss => (Simple.new ss).map Simple.toContainer)
  obtain ⟨c1, c2⟩ := hc scene hsc
  obtain ⟨l1, l2, l3⟩ := hl box
  obtain ⟨-, b2, b3⟩ := built_fields (.shape a s.toShape :: lamps.map FarLamp.call) box
  have hbox : box = s.bbox := by
    unfold Builder.sceneBBox at hb
    rw [b2, b3] at hb
    simp only [addedShapes, addedAreas, l2, l3] at hb
    exact (Option.some.inj hb).symm
  subst hbox
  constructor
  · rw [c1]
    simp only [addedLights, addedAreas, l1, l3, asLights, List.map_nil, List.append_nil]
  · simp only [sceneShapes, addedShapes, addedAreas, l2, l3, asShapes, List.map_nil, List.append_nil] at c2
    exact (Option.some.inj c2).symm

theorem triangle_bbox_ordered (s : Triangle ℝ) (a : Axis) : s.bbox.min.get a ≤ s.bbox.max.get a := by
  unfold Triangle.bbox BBox3.new BBox3.unionPoint
  cases a <;> simp only [V3.get, V3.min, V3.max] <;> real_ops <;> simp

/-- C117, a world with one matt triangle and any number of distant lamps, made by the builder: where the camera sees the triangle, every sample is exactly Lambert's law for
one of the lamps on the side the camera sees, or black for one of the others, multiplied by the number of lamps; and the mean of the samples is exactly the sum of Lambert's
law over all lamps on the side the camera sees. -/
theorem c117_triangle (hN : OutwardNext ‹HasNext ℝ›) (hinf : (0 : ℝ) ≤ HasInf.infinity) (s : Triangle ℝ) (hv : s.vertexNormals = none) (kd : TextureOf ℝ (Spectrum ℝ))
    (hmat : s.material = lambertianMaterial kd) (a : Nat) (lamps : List FarLamp) (hne : lamps ≠ []) (hn : lamps.length < 2 ^ 64)
    (hw : ∀ d ∈ lamps, d.toward ≠ V3.zero) (hcol : ∀ d ∈ lamps, NonNeg d.colour)
    (hsc : (built (.shape a s.toShape :: lamps.map FarLamp.call)).construct (fun ss => (Simple.new ss).map Simple.toContainer) = some scene)
    (camera : PerspectiveCamera ℝ) (pFilm : V2 ℝ) (hd : UnitVec (camera.generateRay pFilm).direction)
    (h : Hit ℝ) (hh : scene.intersect (camera.generateRay pFilm) = some (some h))
    (hkd : ∀ c : Chan, 0 ≤ c.of (kd h.i) ∧ c.of (kd h.i) ≤ HasInf.infinity) (hlamp : ∀ d ∈ lamps, (lampRay h.i d.toward s.bbox).direction ≠ V3.zero) :
    (∀ {σ : Type} (ops : SamplerOps ℝ σ), Delivers Canonical ops → ∀ (st st' : σ) (l : Spectrum ℝ),
      (cameraRadiance scene camera pFilm).run ops st = some (l, st') →
      ∃ d ∈ lamps, ∀ c : Chan, c.of l = lamps.length * c.of (openLight h.i (kd h.i) d)) ∧
    ∀ c : Chan, mean (fun l => ENNReal.ofReal (c.of l)) (cameraRadiance scene camera pFilm) =
      ENNReal.ofReal (lamps.map fun d => c.of (openLight h.i (kd h.i) d)).sum := by
  obtain ⟨hlights, hshapes⟩ := lamps_scene s a lamps hsc
  have hd0 := unit_ne_zero hd
  have hh' : (Simple.mk [⟨a, s.toShape⟩] s.bbox).intersect (camera.generateRay pFilm) = some (some h) := by
    have := hh
    unfold Scene.intersect at this
    rw [hshapes] at this
    exact this
  obtain ⟨hobj, t, hi⟩ := lone_hit hh'
  have hi' : s.intersect (camera.generateRay pFilm) = some (some (h.i, t)) := hi
  obtain ⟨g1, g2, g3⟩ := triangle_matt s hv _ hd0 h.i t hi'
  have hmade : MadeOn s h.i := Or.inl ⟨_, t, hd0, hi'⟩
  obtain ⟨m1, -⟩ := madeOn_facts hmade
  have hopen : ∀ d ∈ lamps, lamplight scene h.i (kd h.i) s.bbox d = openLight h.i (kd h.i) d := by
    intro d hdl
    have hsplit : scene.intersectP (lampRay h.i d.toward s.bbox) = some false := by
      unfold Scene.intersectP
      rw [hshapes]
      exact lone_unhidden (x := ⟨a, s.toShape⟩) s.bbox (triangle_unshaded hN s h.i hmade d.toward s.bbox (hlamp d hdl))
    unfold lamplight openLight
    rw [hsplit]
    by_cases hf : FacingSide h.i.n h.i.wo d.toward
    · rw [if_pos ⟨hf, rfl⟩, if_pos hf]
    · rw [if_neg fun x => hf x.1, if_neg hf]
  have hps : inner h.i.dpdu.normalize h.i.n = 0 := by rw [g3]; exact g2
  have hm' : h.obj.shape.material = lambertianMaterial kd := by rw [hobj]; exact hmat
  have hd' : ∀ v, h.obj.shape.l h.i v = Spectrum.zero := fun v => by rw [hobj]; rfl
  have hf' : ∀ v, v ≠ V3.zero → FacingSide h.i.n h.i.wo v → scene.intersect (h.i.spawnRay v) = some none := fun v hv0 _ => by
    unfold Scene.intersect
    rw [hshapes]
    have hmiss := (c107_triangle ‹HasNext ℝ› hN s h.i hmade v hv0).1
    generalize h.i.spawnRay v = r at hmiss ⊢
    refine lone_missed (x := ⟨a, s.toShape⟩) s.bbox ?_
    change s.intersect r = some none
    exact hmiss
  constructor
  · intro σ ops hops st st' l hrun
    obtain ⟨d, hdl, e⟩ := c117_sample lamps hne hw s.bbox (triangle_bbox_ordered s) hlights camera pFilm h hh kd hm' hkd hd' m1 g3.symm hps hf' ops hops st st' l hrun
    exact ⟨d, hdl, fun c => by rw [e c, hopen d hdl]⟩
  · intro c
    have hlib : ∀ x ∈ (.shape a s.toShape :: lamps.map FarLamp.call : List (BuilderCall ℝ)), TriangleCall x := by
      intro x hx
      rcases List.mem_cons.1 hx with rfl | hx
      · refine .triangle _ s (hmat ▸ .lambertian kd) ⟨fun i => hmat ▸ .lambertian kd, fun n0 n1 n2 e => ?_⟩
        rw [hv] at e; cases e
      · obtain ⟨d, hdl, rfl⟩ := List.mem_map.1 hx
        exact .distant _ _ _ (hcol d hdl) (hw d hdl)
    rw [c78_triangle_world hinf _ hlib .simple hsc (by simp only [List.length_cons, List.length_map]; omega) camera pFilm hd c,
      c117_incoming lamps hw (fun d hdl c => c.of_nonneg (hcol d hdl)) s.bbox (triangle_bbox_ordered s) hlights _ h hh kd hm' hkd hd' m1 g3.symm hps hf' 64 true c]
    congr 2
    exact List.map_congr_left fun d hdl => by rw [hopen d hdl]
end

namespace Demo
/-- Three lamps: two in front of the wall of C113 and one behind it. -/
noncomputable def threeLamps : List FarLamp := [⟨7, ⟨3, 2, 1⟩, ⟨3, 0, -4⟩⟩, ⟨8, ⟨5, 5, 5⟩, ⟨4, 0, -3⟩⟩, ⟨9, ⟨9, 9, 9⟩, ⟨3, 0, 4⟩⟩]
end Demo

/-- C117, the assumptions: through the film position (1280/3, 120) the camera sees the wall with three lamps; the mean of the red channel is
`1/2 · (3 · 4/5 + 5 · 3/5) / π`, and every sample is three times one of the three terms. -/
example [HasInf ℝ] [HasNext ℝ] (hN : OutwardNext ‹HasNext ℝ›) (hinf : (100 : ℝ) ≤ HasInf.infinity) :
    ∃ scene, (built (.shape 2 Demo.mattWall.toShape :: Demo.threeLamps.map FarLamp.call)).construct (fun ss => (Simple.new ss).map Simple.toContainer) = some scene ∧
      mean (fun l => ENNReal.ofReal l.r) (cameraRadiance scene Demo.aheadView.camera ⟨1280 / 3, 120⟩) = ENNReal.ofReal (27 / 10 / Real.pi) ∧
      ∀ {σ : Type} (ops : SamplerOps ℝ σ), Delivers Canonical ops → ∀ (st st' : σ) (l : Spectrum ℝ),
        (cameraRadiance scene Demo.aheadView.camera ⟨1280 / 3, 120⟩).run ops st = some (l, st') →
        l.r = 3 * (6 / 5 / Real.pi) ∨ l.r = 3 * (3 / 2 / Real.pi) ∨ l.r = 0 := by
  obtain ⟨scene, hsc⟩ : ∃ scene, (built (.shape 2 Demo.mattWall.toShape :: Demo.threeLamps.map FarLamp.call)).construct
      (fun ss => (Simple.new ss).map Simple.toContainer) = some scene := ⟨_, rfl⟩
  refine ⟨scene, hsc, ?_⟩
  have hbox : Demo.mattWall.bbox = Demo.mattWallBox := by
    unfold Triangle.bbox BBox3.new BBox3.unionPoint Demo.mattWallBox Demo.mattWall
    simp only [V3.min, V3.max]
    real_ops
    norm_num
  obtain ⟨-, hshapes⟩ := lamps_scene Demo.mattWall 2 Demo.threeLamps hsc
  obtain ⟨-, -, h3, -⟩ := ahead_rays ⟨1280 / 3, 120⟩
  obtain ⟨hd, h, hh, -, hf⟩ := Demo.mattWall_seen hinf ⟨1280 / 3, 120⟩ (by norm_num) (by norm_num) (by norm_num) (by norm_num)
  have hh2 : scene.intersect (Demo.aheadView.camera.generateRay ⟨1280 / 3, 120⟩) = some (some h) := by
    unfold Scene.intersect
    rw [hshapes, hbox]
    exact hh
  have hn : h.i.n = ⟨0, 0, -1⟩ ∧ h.i.n = orientedNormal Demo.mattWall := by
    obtain ⟨-, t, hi⟩ := lone_hit (x := ⟨2, Demo.mattWall.toShape⟩) (box := Demo.mattWallBox) hh
    have hs : Spec.sq (planeNormal Demo.mattWall) = 96 ^ 2 := by norm_num [planeNormal, vcross, diff, Demo.mattWall, Spec.sq]
    have e := ((c42_triangle_sample Demo.mattWall (by intro e; have := congrArg V3.z e; norm_num [planeNormal, vcross, diff, Demo.mattWall, V3.zero, r_lit] at this)).2.2 rfl _ _ _ hi).1
    refine ⟨?_, e⟩
    rw [e, orientedNormal, hs, Real.sqrt_sq (by norm_num)]
    ext <;> norm_num [scale, planeNormal, vcross, diff, Demo.mattWall]
  have hlamp : ∀ d ∈ Demo.threeLamps, (lampRay h.i d.toward Demo.mattWall.bbox).direction ≠ V3.zero := by
    intro d hdl h0
    have hr : √(Spec.sq d.toward) = 5 ∧ 0 < d.toward.x := by
      simp only [Demo.threeLamps, List.mem_cons, List.not_mem_nil, or_false] at hdl
      rcases hdl with rfl | rfl | rfl <;> refine ⟨?_, by norm_num⟩ <;> rw [show (5 : ℝ) = √(5 ^ 2) by rw [Real.sqrt_sq (by norm_num)]] <;> congr 1 <;> norm_num [Spec.sq]
    rw [hbox] at h0
    have hx := congrArg V3.x h0
    unfold lampRay Interaction.spawnRayTo Interaction.offsetRayOrigin Interaction.nudge Interaction.default at hx
    dsimp only at hx
    rw [hn.1, hr.1] at hx
    simp only [V3.sub, V3.add, V3.smul, V3.abs, V3.dot, V3.zero, along] at hx
    real_ops at hx
    norm_num at hx
    have hrad : 0 < radius Demo.mattWallBox := by
      have : 0 < Real.sqrt (Spec.sq (diff Demo.mattWallBox.max Demo.mattWallBox.min)) := Real.sqrt_pos.2 (by norm_num [Spec.sq, diff, Demo.mattWallBox])
      unfold radius; positivity
    have := hr.2
    have hp : 0 < 2 * radius Demo.mattWallBox / 5 * d.toward.x := by positivity
    split_ifs at hx <;> norm_num at hx <;> first | linarith | (rcases hx with hx | hx <;> linarith)
  have hwo : h.i.wo.z < 0 := by
    rw [← hn.2, hn.1] at hf
    norm_num [FacingSide, Spec.inner] at hf
    linarith
  have key := c117_triangle hN (by linarith) Demo.mattWall rfl _ rfl 2 Demo.threeLamps (by simp [Demo.threeLamps]) (by norm_num [Demo.threeLamps])
    (by
      intro d hdl e
      simp only [Demo.threeLamps, List.mem_cons, List.not_mem_nil, or_false] at hdl
      rcases hdl with rfl | rfl | rfl <;> have := congrArg V3.x e <;> norm_num [V3.zero, r_lit] at this)
    (by
      intro d hdl
      simp only [Demo.threeLamps, List.mem_cons, List.not_mem_nil, or_false] at hdl
      rcases hdl with rfl | rfl | rfl <;> refine ⟨?_, ?_, ?_⟩ <;> norm_num)
    hsc Demo.aheadView.camera ⟨1280 / 3, 120⟩ h3 h hh2
    (by intro c; cases c <;> simp only [constantTexture, Chan.of] <;> constructor <;> first | (norm_num; done) | (norm_num; linarith) | linarith) hlamp
  have s1 : √(Spec.sq (⟨3, 0, -4⟩ : V3 ℝ)) = 5 := by
    rw [show Spec.sq (⟨3, 0, -4⟩ : V3 ℝ) = 5 ^ 2 by norm_num [Spec.sq]]; exact Real.sqrt_sq (by norm_num)
  have s2 : √(Spec.sq (⟨4, 0, -3⟩ : V3 ℝ)) = 5 := by
    rw [show Spec.sq (⟨4, 0, -3⟩ : V3 ℝ) = 5 ^ 2 by norm_num [Spec.sq]]; exact Real.sqrt_sq (by norm_num)
  have v1 : Chan.r.of (openLight h.i (constantTexture ⟨1 / 2, 1 / 4, 0⟩ h.i) ⟨7, ⟨3, 2, 1⟩, ⟨3, 0, -4⟩⟩) = 6 / 5 / Real.pi := by
    unfold openLight
    rw [if_pos (by rw [hn.1]; norm_num [FacingSide, Spec.inner]; linarith), lambert_chan, hn.1]
    dsimp only
    rw [s1]
    norm_num [Spec.inner, constantTexture, Chan.of]
    ring
  have v2 : Chan.r.of (openLight h.i (constantTexture ⟨1 / 2, 1 / 4, 0⟩ h.i) ⟨8, ⟨5, 5, 5⟩, ⟨4, 0, -3⟩⟩) = 3 / 2 / Real.pi := by
    unfold openLight
    rw [if_pos (by rw [hn.1]; norm_num [FacingSide, Spec.inner]; linarith), lambert_chan, hn.1]
    dsimp only
    rw [s2]
    norm_num [Spec.inner, constantTexture, Chan.of]
    ring
  have v3 : Chan.r.of (openLight h.i (constantTexture ⟨1 / 2, 1 / 4, 0⟩ h.i) ⟨9, ⟨9, 9, 9⟩, ⟨3, 0, 4⟩⟩) = 0 := by
    unfold openLight
    rw [if_neg (by rw [hn.1]; norm_num [FacingSide, Spec.inner]; linarith)]
    rfl
  constructor
  · refine (key.2 .r).trans ?_
    congr 1
    simp only [Demo.threeLamps, List.map_cons, List.map_nil, List.sum_cons, List.sum_nil]
    rw [v1, v2, v3]
    ring
  · intro σ ops hops st st' l hl
    obtain ⟨d, hdl, e⟩ := key.1 ops hops st st' l hl
    have e' : l.r = Demo.threeLamps.length * Chan.r.of (openLight h.i (constantTexture ⟨1 / 2, 1 / 4, 0⟩ h.i) d) := e .r
    have hlen : (Demo.threeLamps.length : ℝ) = 3 := by norm_num [Demo.threeLamps]
    rw [hlen] at e'
    simp only [Demo.threeLamps, List.mem_cons, List.not_mem_nil, or_false] at hdl
    rcases hdl with rfl | rfl | rfl
    · exact Or.inl (by rw [e', v1])
    · exact Or.inr (Or.inl (by rw [e', v2]))
    · exact Or.inr (Or.inr (by rw [e', v3, mul_zero]))
end PT
