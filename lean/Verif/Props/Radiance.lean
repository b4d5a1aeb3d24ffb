import Verif.Model.Integrator
import Verif.Props.Bsdf
import Verif.Lemmas.Fl
import Mathlib.MeasureTheory.Integral.IntervalIntegral.Basic

/-!
# The values computed by the path integrator (C67, C68)
-/

namespace PT

namespace Spec
/-- `P` is a notion of "non-negative" that the arithmetic respects. -/
structure SignRule {α : Type} [Scalar α] (P : α → Prop) : Prop where
  lit : ∀ q : ℚ, 0 ≤ q → P (PT.lit q)
  add : ∀ x y, P x → P y → P (x +. y)
  mul : ∀ x y, P x → P y → P (x *. y)
  div : ∀ x y, P x → P y → P (x /. y)
  square : ∀ x y : α, P ((x *. y) *. (x *. y))
  absDot : ∀ u v : V3 α, P (Scalar.abs (u.dot v))
  fmin : ∀ x y, P x → P y → P (Scalar.fmin x y)

/-- Every channel satisfies `P`. -/
def Channels {α : Type} (P : α → Prop) (s : Spectrum α) : Prop := P s.r ∧ P s.g ∧ P s.b

/-- What is asked of a scattering function, for directions in `D` and sample values in `U`. -/
structure BsdfContract {α : Type} [Scalar α] (P : α → Prop) (D : V3 α → Prop) (U : α → Prop) (b : BSDF α) : Prop where
  f : ∀ wo wi, D wo → D wi → Channels P (b.f wo wi)
  sample : ∀ wo u wi f p flag, D wo → U u.x → U u.y → b.sampleF wo u = some (wi, f, p, flag) → ¬ (p ==. lit 0) = true →
    Channels P f ∧ P p ∧ D wi

/-- What is asked of a light. -/
structure LightContract {α : Type} [Scalar α] (P : α → Prop) (D : V3 α → Prop) (U : α → Prop) (light : Light α) : Prop where
  sample : ∀ i u s, U u.x → U u.y → light.sampleLi i u = some s → (s.pdf >. lit 0) = true → s.li.isBlack = false →
    Channels P s.li ∧ P s.pdf ∧ D s.wi

/-- What is asked of a scene: its lights keep their contract, and so does every surface that a ray with a direction in `D` can hit. -/
structure SceneContract {α : Type} [Scalar α] [Libm α] (P : α → Prop) (D : V3 α → Prop) (U : α → Prop) (scene : Scene α) : Prop where
  lights : ∀ l ∈ scene.lights, LightContract P D U l.light
  emits : ∀ ray h w, D ray.direction → scene.intersect ray = some (some h) → Channels P (h.obj.shape.l h.i w)
  wo : ∀ ray h, D ray.direction → scene.intersect ray = some (some h) → D h.i.wo
  scatters : ∀ ray h, D ray.direction → scene.intersect ray = some (some h) → BsdfContract P D U (h.obj.shape.material h.i)

/-- A sampler that only delivers values in `U`. -/
def Delivers {α σ : Type} (U : α → Prop) (ops : SamplerOps α σ) : Prop :=
  (∀ s x s', ops.get1d s = some (x, s') → U x) ∧ ∀ s x s', ops.get2d s = some (x, s') → U x.x ∧ U x.y
end Spec
open Spec

/-- Whatever sample values in `U` are drawn, a run in the scene that returns, returns a value with `Q`. -/
def Prog.Yields {α β : Type} (scene : Scene α) (U : α → Prop) (Q : β → Prop) : Prog α β → Prop
  | .ret b => Q b
  | .panic => True
  | .get1 k => ∀ x, U x → (k x).Yields scene U Q
  | .get2 k => ∀ x, U x.x → U x.y → (k x).Yields scene U Q
  | .hit _ r k => ∀ x, scene.shapes.intersect r = some x → (k x).Yields scene U Q
  | .occluded r k => ∀ x, scene.shapes.intersectP r = some x → (k x).Yields scene U Q
  | .scatter h k => (k (h.obj.shape.material h.i)).Yields scene U Q

namespace Prog
variable {α β γ : Type} {scene : Scene α} {U : α → Prop}

theorem Yields.bind {Q : β → Prop} {R : γ → Prop} {p : Prog α β} {f : β → Prog α γ} (hf : ∀ x, Q x → (f x).Yields scene U R)
    (hp : p.Yields scene U Q) : (p.bind f).Yields scene U R := by
  induction p with
  | ret x => exact hf x hp
  | panic => trivial
  | get1 k ih => exact fun x hx => ih x (hp x hx)
  | get2 k ih => exact fun x h1 h2 => ih x (hp x h1 h2)
  | hit y r k ih => exact fun x hx => ih x (hp x hx)
  | occluded r k ih => exact fun x hx => ih x (hp x hx)
  | scatter h k ih => exact ih _ hp

theorem Yields.ofOption {Q : β → Prop} {o : Option β} (h : ∀ x, o = some x → Q x) : (Prog.ofOption o : Prog α β).Yields scene U Q := by
  cases o with
  | none => trivial
  | some x => exact h x rfl

theorem Yields.ite {Q : β → Prop} {c : Prop} [Decidable c] {p q : Prog α β} (hp : c → p.Yields scene U Q) (hq : ¬ c → q.Yields scene U Q) :
    (if c then p else q).Yields scene U Q := by
  split_ifs with h
  · exact hp h
  · exact hq h

theorem Yields.run [Scalar α] [Libm α] {σ : Type} {ops : SamplerOps α σ} (hops : Delivers U ops) {Q : β → Prop} {p : Prog α β}
    (h : p.Yields scene U Q) : ∀ s b s', (p.run scene).run ops s = some (b, s') → Q b := by
  induction p with
  | ret x =>
    intro s b s' e
    simp only [Prog.run, Draw.run, Option.some.injEq, Prod.mk.injEq] at e
    rw [← e.1]; exact h
  | panic => intro s b s' e; simp [Prog.run, Draw.run] at e
  | get1 k ih =>
    intro s b s' e
    simp only [Prog.run, Draw.run] at e
    cases hg : ops.get1d s with
    | none => rw [hg] at e; cases e
    | some x => rw [hg] at e; exact ih x.1 (h x.1 (hops.1 s x.1 x.2 hg)) _ _ _ e
  | get2 k ih =>
    intro s b s' e
    simp only [Prog.run, Draw.run] at e
    cases hg : ops.get2d s with
    | none => rw [hg] at e; cases e
    | some x =>
      rw [hg] at e
      have := hops.2 s x.1 x.2 hg
      exact ih x.1 (h x.1 this.1 this.2) _ _ _ e
  | hit y r k ih =>
    intro s b s' e
    simp only [Prog.run, Scene.intersect] at e
    cases hg : scene.shapes.intersect r with
    | none => rw [hg] at e; simp [Draw.run] at e
    | some x => rw [hg] at e; exact ih x (h x hg) _ _ _ e
  | occluded r k ih =>
    intro s b s' e
    simp only [Prog.run, Scene.intersectP] at e
    cases hg : scene.shapes.intersectP r with
    | none => rw [hg] at e; simp [Draw.run] at e
    | some x => rw [hg] at e; exact ih x (h x hg) _ _ _ e
  | scatter h' k ih => intro s b s' e; exact ih _ h _ _ _ e
end Prog

section
variable {α : Type} [Scalar α] {P : α → Prop}

theorem Spec.SignRule.zeroS (hP : SignRule P) : Channels P Spectrum.zero :=
  have h := hP.lit 0 le_rfl
  ⟨h, h, h⟩
theorem Spec.SignRule.addS (hP : SignRule P) {s t : Spectrum α} (hs : Channels P s) (ht : Channels P t) : Channels P (s.add t) :=
  ⟨hP.add _ _ hs.1 ht.1, hP.add _ _ hs.2.1 ht.2.1, hP.add _ _ hs.2.2 ht.2.2⟩
theorem Spec.SignRule.mulS (hP : SignRule P) {s t : Spectrum α} (hs : Channels P s) (ht : Channels P t) : Channels P (s.mul t) :=
  ⟨hP.mul _ _ hs.1 ht.1, hP.mul _ _ hs.2.1 ht.2.1, hP.mul _ _ hs.2.2 ht.2.2⟩
theorem Spec.SignRule.smulS (hP : SignRule P) {s : Spectrum α} {a : α} (hs : Channels P s) (ha : P a) : Channels P (s.smul a) :=
  ⟨hP.mul _ _ hs.1 ha, hP.mul _ _ hs.2.1 ha, hP.mul _ _ hs.2.2 ha⟩
theorem Spec.SignRule.sdivS (hP : SignRule P) {s : Spectrum α} {a : α} (hs : Channels P s) (ha : P a) : Channels P (s.sdiv a) :=
  ⟨hP.div _ _ hs.1 ha, hP.div _ _ hs.2.1 ha, hP.div _ _ hs.2.2 ha⟩
theorem Spec.SignRule.power (hP : SignRule P) (n m : Nat) (x y : α) : P (powerHeuristic n x m y) :=
  hP.div _ _ (hP.square _ _) (hP.add _ _ (hP.square _ _) (hP.square _ _))
theorem Spec.SignRule.nat (hP : SignRule P) (n : Nat) : P (ofInt (n : Int)) := hP.lit _ (by exact_mod_cast Nat.zero_le n)
end

section
variable {α : Type} [Scalar α] [Libm α] [HasInf α] [HasNext α] {P : α → Prop} {D : V3 α → Prop} {U : α → Prop} {scene : Scene α}
open Prog

theorem directFromLight_yields (hP : SignRule P) {light : LightObj α} (hl : LightContract P D U light.light) {i : Interaction α}
    (hwo : D i.wo) {bsdf : BSDF α} (hb : BsdfContract P D U bsdf) {u : V2 α} (hu : U u.x) (hv : U u.y) :
    (directFromLight light i bsdf u).Yields scene U (Channels P) := by
  unfold directFromLight
  refine Yields.bind (Q := fun s => light.light.sampleLi i u = some s) (fun s hs => ?_) (Yields.ofOption fun x h => h)
  refine Yields.ite (fun hc => ?_) fun _ => hP.zeroS
  simp only [Bool.and_eq_true, Bool.not_eq_true'] at hc
  obtain ⟨h1, h2, hwi⟩ := hl.sample i u s hu hv hs hc.1 hc.2
  have hf := hP.smulS (hb.f i.wo s.wi hwo hwi) (hP.absDot s.wi i.sn)
  refine Yields.ite (fun _ => ?_) fun _ => hP.zeroS
  refine Yields.bind (Q := fun _ => True) (fun occ _ => ?_) (fun _ _ => trivial)
  refine Yields.ite (fun _ => ?_) fun _ => hP.zeroS
  refine Yields.ite (fun _ => ?_) fun _ => ?_
  · exact hP.addS hP.zeroS (hP.sdivS (hP.mulS hf h1) h2)
  · exact hP.addS hP.zeroS (hP.sdivS (hP.smulS (hP.mulS hf h1) (hP.power _ _ _ _)) h2)

theorem directFromBsdf_yields (hP : SignRule P) (hsc : SceneContract P D U scene) (light : LightObj α) {i : Interaction α}
    (hwo : D i.wo) {bsdf : BSDF α} (hb : BsdfContract P D U bsdf) {u : V2 α} (hu : U u.x) (hv : U u.y) {ld : Spectrum α}
    (hld : Channels P ld) (hpos : ∀ x : α, (x >. lit 0) = true → ¬ (x ==. lit 0) = true) :
    (directFromBsdf light i bsdf u ld).Yields scene U (Channels P) := by
  unfold directFromBsdf
  refine Yields.ite (fun _ => ?_) fun _ => hld
  refine Yields.bind (Q := fun s => bsdf.sampleF i.wo u = some s) (fun s hs => ?_) (Yields.ofOption fun x h => h)
  obtain ⟨wi, f, p, flag⟩ := s
  dsimp only
  refine Yields.ite (fun hc => ?_) fun _ => hld
  simp only [Bool.and_eq_true] at hc
  obtain ⟨h1, h2, hwi⟩ := hb.sample i.wo u wi f p flag hwo hu hv hs (hpos p hc.1)
  have hf := hP.smulS h1 (hP.absDot wi i.sn)
  refine Yields.ite (fun _ => hld) fun _ => ?_
  refine Yields.bind (Q := fun x => scene.shapes.intersect (i.spawnRay wi) = some x) (fun x hx => ?_) (fun x hx => hx)
  cases x with
  | none => exact hld
  | some h =>
    have he := hsc.emits (i.spawnRay wi) h wi.neg hwi hx
    have hli : Channels P (if h.obj.addr = light.addr then h.le wi.neg else Spectrum.zero) := by
      split_ifs
      · exact he
      · exact hP.zeroS
    have hw : ∀ c : Bool, P (if c = true then powerHeuristic 1 p 1 (light.light.pdfLi i wi) else lit 1) := by
      intro c
      split_ifs
      · exact hP.power _ _ _ _
      · exact hP.lit 1 (by norm_num)
    exact hP.addS hld (hP.sdivS (hP.smulS (hP.mulS hf hli) (hw _)) h2)

theorem uniformSampleOneLight_yields (hP : SignRule P) (hsc : SceneContract P D U scene) {i : Interaction α}
    (hwo : D i.wo) {bsdf : BSDF α} (hb : BsdfContract P D U bsdf) (hpos : ∀ x : α, (x >. lit 0) = true → ¬ (x ==. lit 0) = true) :
    (uniformSampleOneLight scene.lights i bsdf).Yields scene U (Channels P) := by
  unfold uniformSampleOneLight
  dsimp only
  refine Yields.ite (fun _ => hP.zeroS) fun _ => ?_
  refine Yields.bind (Q := fun _ => True) (fun u _ => ?_) (fun _ _ => trivial)
  refine Yields.bind (Q := fun l => l ∈ scene.lights) (fun light hl => ?_) (Yields.ofOption fun x h => List.mem_of_getElem? h)
  refine Yields.bind (Q := Channels P) (fun ld hld => hP.smulS hld (hP.nat _)) ?_
  unfold estimateDirect
  refine Yields.bind (Q := fun u => U u.x ∧ U u.y) (fun u hu => ?_) (fun _ h1 h2 => ⟨h1, h2⟩)
  refine Yields.bind (Q := fun u => U u.x ∧ U u.y) (fun v hv => ?_) (fun _ h1 h2 => ⟨h1, h2⟩)
  exact Yields.bind (Q := Channels P) (fun ld hld => directFromBsdf_yields hP hsc light hwo hb hv.1 hv.2 hld hpos)
    (directFromLight_yields hP (hsc.lights light hl) hwo hb hu.1 hu.2)

theorem liLoop_yields (hP : SignRule P) (hsc : SceneContract P D U scene) (hpos : ∀ x : α, (x >. lit 0) = true → ¬ (x ==. lit 0) = true)
    (k : Nat) : ∀ (bounces : Nat) (ray : Ray α) (l beta : Spectrum α) (sb : Bool), MAX_BOUNCES + 1 - bounces = k →
    D ray.direction → Channels P l → Channels P beta → (liLoop scene.lights bounces ray l beta sb).Yields scene U (Channels P) := by
  induction k using Nat.strong_induction_on with
  | _ k ih =>
    intro bounces ray l beta sb hk hd hl hbeta
    rw [liLoop]
    refine Yields.bind (Q := fun x => scene.shapes.intersect ray = some x) (fun x hx => ?_) (fun x hx => hx)
    cases x with
    | none =>
      dsimp only
      split_ifs <;> exact hl
    | some h =>
      dsimp only
      generalize hl' : (if bounces = 0 ∨ sb = true then l.add (beta.mul (h.le ray.direction.neg)) else l) = l'
      have hl2 : Channels P l' := by
        rw [← hl']
        split_ifs
        · exact hP.addS hl (hP.mulS hbeta (hsc.emits ray h _ hd hx))
        · exact hl
      by_cases hb : bounces > MAX_BOUNCES
      · rw [dif_pos hb]; exact hl2
      rw [dif_neg hb]
      have hbs := hsc.scatters ray h hd hx
      have hwo := hsc.wo ray h hd hx
      refine Yields.bind (Q := fun b => b = h.obj.shape.material h.i) (fun b hb' => ?_) (show _ = _ from rfl)
      subst hb'
      refine Yields.bind (Q := Channels P) (fun ld hld => ?_) (uniformSampleOneLight_yields hP hsc hwo hbs hpos)
      have hl3 := hP.addS hl2 (hP.mulS hbeta hld)
      refine Yields.bind (Q := fun u => U u.x ∧ U u.y) (fun u hu => ?_) (fun _ h1 h2 => ⟨h1, h2⟩)
      refine Yields.bind (Q := fun s => (h.obj.shape.material h.i).sampleF h.i.wo u = some s) (fun s hs => ?_) (Yields.ofOption fun x h => h)
      obtain ⟨wi, f, p, flag⟩ := s
      dsimp only
      refine Yields.ite (fun _ => hl3) fun hc => ?_
      obtain ⟨h1, h2, hwi⟩ := hbs.sample _ u wi f p flag hwo hu.1 hu.2 hs (by intro e; apply hc; simp [e])
      have hbeta' : Channels P (scatterWeight beta f wi h.i.sn p) :=
        hP.mulS hbeta (hP.sdivS (hP.smulS h1 (hP.absDot _ _)) h2)
      refine Yields.ite (fun _ => ?_) fun _ => ?_
      · refine Yields.bind (Q := fun _ => True) (fun v _ => ?_) (fun _ _ => trivial)
        unfold roulette
        dsimp only
        split_ifs
        · exact hl3
        · refine ih (MAX_BOUNCES + 1 - (bounces + 1)) (by omega) _ _ _ _ _ rfl hwi hl3 (hP.sdivS hbeta' (hP.fmin _ _ ?_ (hP.lit _ (by norm_num))))
          unfold Spectrum.y
          exact hP.add _ _ (hP.add _ _ (hP.mul _ _ (hP.lit _ (by norm_num)) hbeta'.1) (hP.mul _ _ (hP.lit _ (by norm_num)) hbeta'.2.1))
            (hP.mul _ _ (hP.lit _ (by norm_num)) hbeta'.2.2)
      · exact ih (MAX_BOUNCES + 1 - (bounces + 1)) (by omega) _ _ _ _ _ rfl hwi hl3 hbeta'

/-- C67: in any arithmetic, for any notion of "non-negative" that the arithmetic respects: if the scene keeps its contract and the
sampler delivers admissible values, the radiance computed for a camera ray is non-negative in every channel. -/
theorem c67_radiance (hP : SignRule P) (hpos : ∀ x : α, (x >. lit 0) = true → ¬ (x ==. lit 0) = true) (hsc : SceneContract P D U scene)
    (camera : PerspectiveCamera α) (pFilm : V2 α) (hd : D (camera.generateRay pFilm).direction)
    {σ : Type} (ops : SamplerOps α σ) (hops : Delivers U ops) (s s' : σ) (l : Spectrum α)
    (h : (cameraRadiance scene camera pFilm).run ops s = some (l, s')) : Channels P l := by
  have h1 := hP.lit 1 (by norm_num)
  exact (liLoop_yields hP hsc hpos _ 0 _ _ _ _ rfl hd hP.zeroS ⟨h1, h1, h1⟩).run hops s l s' h
end

/-- The real numbers `≥ 0`. -/
theorem c67_real_rule : SignRule (fun x : ℝ => 0 ≤ x) ∧ ∀ x : ℝ, (x >. lit 0) = true → ¬ (x ==. lit 0) = true := by
  refine ⟨⟨?_, ?_, ?_, ?_, ?_, ?_, ?_⟩, ?_⟩
  · intro q hq; rw [r_lit]; exact_mod_cast hq
  · intro x y hx hy; real_ops; exact add_nonneg hx hy
  · intro x y hx hy; real_ops; exact mul_nonneg hx hy
  · intro x y hx hy; real_ops; exact div_nonneg hx hy
  · intro x y; real_ops; exact mul_self_nonneg _
  · intro u v; real_ops; exact abs_nonneg _
  · intro x y hx hy; real_ops; exact le_min hx hy
  · intro x hx; real_ops at hx ⊢; norm_num at hx ⊢; exact hx.ne'

namespace Spec
/-- A float that is NaN or has no minus sign. -/
def NoMinus {φ K : Type} [Zero K] [LE K] : Fl φ K → Prop
  | .nan => True
  | .inf s => s = false
  | .fin s a => s = false ∧ 0 ≤ a
end Spec

section
variable {φ K : Type} [Field K] [LinearOrder K] [IsStrictOrderedRing K] [FloorRing K] [Rounding φ K]
open Fl

theorem ofVal_noMinus {x : K} (h : 0 ≤ x) : NoMinus (ofVal x false : Fl φ K) := by
  unfold ofVal
  split_ifs with h0 h1
  · exact ⟨rfl, le_rfl⟩
  · exact absurd h (not_le.2 h1)
  · cases hr : Rounding.rnd φ x with
    | none => rfl
    | some m => exact ⟨rfl, Rounding.rnd_nonneg _ _ h hr⟩

theorem ofMag_noMinus {x : K} (h : 0 ≤ x) : NoMinus (ofMag false x : Fl φ K) := by
  unfold ofMag
  cases hr : Rounding.rnd φ x with
  | none => rfl
  | some m => exact ⟨rfl, Rounding.rnd_nonneg _ _ h hr⟩

theorem abs_add_noMinus (x y : Fl φ K) : NoMinus (Fl.abs (Fl.add x y)) := by
  have hv : ∀ (v : K) (z : Bool), NoMinus (Fl.abs (ofVal v z : Fl φ K)) := by
    intro v z
    unfold ofVal
    split_ifs with h0 h1
    · exact ⟨rfl, le_rfl⟩
    · cases hr : Rounding.rnd φ (-v) with
      | none => rfl
      | some m => exact ⟨rfl, Rounding.rnd_nonneg _ _ (by linarith) hr⟩
    · cases hr : Rounding.rnd φ v with
      | none => rfl
      | some m => exact ⟨rfl, Rounding.rnd_nonneg _ _ (not_lt.1 h1) hr⟩
  cases x <;> cases y <;> simp only [Fl.add] <;> try trivial
  · split_ifs <;> trivial
  · exact hv _ _

/-- Floats of any format: NaN or no minus sign. -/
theorem c67_float_rule : SignRule (NoMinus : Fl φ K → Prop) ∧ ∀ x : Fl φ K, (x >. lit 0) = true → ¬ (x ==. lit 0) = true := by
  refine ⟨⟨?_, ?_, ?_, ?_, ?_, ?_, ?_⟩, ?_⟩
  · intro q hq; rw [f_lit]; exact ofVal_noMinus (by exact_mod_cast hq)
  · intro x y hx hy
    rw [f_add]
    cases x with
    | nan => trivial
    | inf s =>
      obtain rfl : s = false := hx
      cases y with
      | nan => trivial
      | inf t => obtain rfl : t = false := hy; rfl
      | fin t b => rfl
    | fin s a =>
      obtain ⟨rfl, ha⟩ := hx
      cases y with
      | nan => trivial
      | inf t => exact hy
      | fin t b =>
        obtain ⟨rfl, hb⟩ := hy
        exact ofVal_noMinus (add_nonneg ha hb)
  · intro x y hx hy
    rw [f_mul]
    cases x with
    | nan => trivial
    | inf s =>
      obtain rfl : s = false := hx
      cases y with
      | nan => trivial
      | inf t => obtain rfl : t = false := hy; rfl
      | fin t b => obtain ⟨rfl, hb⟩ := hy; simp only [mul]; split_ifs <;> trivial
    | fin s a =>
      obtain ⟨rfl, ha⟩ := hx
      cases y with
      | nan => trivial
      | inf t => obtain rfl : t = false := hy; simp only [mul]; split_ifs <;> trivial
      | fin t b =>
        obtain ⟨rfl, hb⟩ := hy
        exact ofMag_noMinus (mul_nonneg ha hb)
  · intro x y hx hy
    rw [f_div]
    cases x with
    | nan => trivial
    | inf s =>
      obtain rfl : s = false := hx
      cases y with
      | nan => trivial
      | inf t => trivial
      | fin t b => obtain ⟨rfl, hb⟩ := hy; rfl
    | fin s a =>
      obtain ⟨rfl, ha⟩ := hx
      cases y with
      | nan => trivial
      | inf t => obtain rfl : t = false := hy; exact ⟨rfl, le_rfl⟩
      | fin t b =>
        obtain ⟨rfl, hb⟩ := hy
        simp only [div]
        split_ifs
        · trivial
        · rfl
        · exact ofMag_noMinus (div_nonneg ha hb)
  · intro x y
    rw [f_mul]
    generalize (x *. y : Fl φ K) = z
    cases z with
    | nan => trivial
    | inf s => cases s <;> rfl
    | fin s a =>
      have : (mul (fin s a) (fin s a) : Fl φ K) = ofMag false (a * a) := by cases s <;> rfl
      rw [this]; exact ofMag_noMinus (mul_self_nonneg a)
  · intro u v; exact abs_add_noMinus _ _
  · intro x y hx hy
    rw [f_min]; unfold Fl.fmin
    split_ifs <;> assumption
  · intro x hx he
    change Fl.lt (lit 0) x = true at hx
    rw [f_eq] at he
    rw [lit_zero] at hx he
    cases x with
    | nan => cases he
    | inf s => cases he
    | fin s a =>
      simp only [Fl.lt, Fl.eq, decide_eq_true_eq] at hx he
      rw [he] at hx; simp [sgn] at hx
end

/-! ### C68 -/

open MeasureTheory intervalIntegral in
/-- C68, exact arithmetic: for a path weight of positive luminance, the weight after the roulette (0 if the path ends), averaged
over a roulette variable uniform in `[0,1]`, is the weight before, in every channel. -/
theorem c68_roulette (beta : Spectrum ℝ) (hy : 0 < beta.y) (c : Spectrum ℝ → ℝ) (hc : c = Spectrum.r ∨ c = Spectrum.g ∨ c = Spectrum.b) :
    ∫ u in (0 : ℝ)..1, ((roulette beta u).elim 0 c) = c beta := by
  have hq : 0 < min beta.y (95 / 100) := lt_min hy (by norm_num)
  have hq1 : min beta.y (95 / 100) ≤ 1 := (min_le_right _ _).trans (by norm_num)
  have e : ∀ u, (roulette beta u).elim 0 c = if min beta.y (95 / 100) < u then 0 else c beta / min beta.y (95 / 100) := by
    intro u
    unfold roulette
    have hf : Scalar.fmin beta.y (lit (95 / 100)) = min beta.y (95 / 100) := by real_ops
    dsimp only
    rw [hf]
    by_cases h : min beta.y (95 / 100) < u
    · rw [if_pos h, if_pos (by real_ops; simpa using h)]; rfl
    · rw [if_neg h, if_neg (by real_ops; simpa using h)]
      rcases hc with rfl | rfl | rfl <;> rfl
  simp only [e]
  generalize min beta.y (95 / 100) = q at *
  have h1 : ∫ u in (0 : ℝ)..q, (if q < u then 0 else c beta / q) = c beta := by
    have : ∫ u in (0 : ℝ)..q, (if q < u then 0 else c beta / q) = ∫ u in (0 : ℝ)..q, c beta / q := by
      apply intervalIntegral.integral_congr
      intro u hu
      rw [Set.uIcc_of_le hq.le] at hu
      simp only
      rw [if_neg (not_lt.2 hu.2)]
    rw [this, intervalIntegral.integral_const]
    simp only [sub_zero, smul_eq_mul]
    field_simp
  have h2 : ∫ u in q..1, (if q < u then 0 else c beta / q) = 0 := by
    rw [intervalIntegral.integral_of_le hq1]
    apply MeasureTheory.setIntegral_eq_zero_of_forall_eq_zero
    intro u hu
    rw [if_pos hu.1]
  have i1 : IntervalIntegrable (fun u => if q < u then 0 else c beta / q) volume 0 q := by
    refine (intervalIntegrable_const (c := c beta / q)).congr ?_
    intro u hu
    rw [Set.uIoc_of_le hq.le] at hu
    simp only
    rw [if_neg (not_lt.2 hu.2)]
  have i2 : IntervalIntegrable (fun u => if q < u then 0 else c beta / q) volume q 1 := by
    refine (intervalIntegrable_const (c := (0 : ℝ))).congr ?_
    intro u hu
    rw [Set.uIoc_of_le hq1] at hu
    simp only
    rw [if_pos hu.1]
  rw [← intervalIntegral.integral_add_adjacent_intervals i1 i2, h1, h2, add_zero]

/-- A weight of positive luminance. -/
example : (0 : ℝ) < (Spectrum.mk 1 (1 / 2) 0).y := by unfold Spectrum.y; real_ops; norm_num

end PT
