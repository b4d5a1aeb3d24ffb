import Verif.Props.RadianceLib
import Verif.Props.NeverPanicsLib
import Mathlib.MeasureTheory.Integral.Lebesgue.Add

/-!
# The expected radiance (C78)

The radiance computed for a camera sample is a random variable of the sample values drawn.  Its mean, over independent sample values
uniform in `[0,1)`, is shown to be the value of the recursive light transport equation that is stated in the small specification
below, which has no loop, no accumulated path weight, no Russian roulette and no random choice of a light.
-/

namespace PT
open MeasureTheory
open scoped ENNReal

namespace Spec
/-- A colour channel. -/
inductive Chan where
  | r | g | b

/-- The value of a channel. -/
def Chan.of : Chan → Spectrum ℝ → ℝ
  | .r, s => s.r
  | .g, s => s.g
  | .b, s => s.b

/-- The mean over a number uniform in `[0,1)`. -/
noncomputable def mean1 (F : ℝ → ℝ≥0∞) : ℝ≥0∞ := ∫⁻ x in Set.Ico (0 : ℝ) 1, F x

/-- The mean over a point uniform in `[0,1)²`. -/
noncomputable def mean2 (F : V2 ℝ → ℝ≥0∞) : ℝ≥0∞ := mean1 fun x => mean1 fun y => F ⟨x, y⟩

/-- The mean of a non-negative function of the result of a computation, when all sample values drawn are independent and uniform in
`[0,1)` (a panic counts 0). -/
noncomputable def mean {β : Type} (value : β → ℝ≥0∞) : Draw ℝ β → ℝ≥0∞
  | .ret b => value b
  | .panic => 0
  | .get1 k => mean1 fun x => mean value (k x)
  | .get2 k => mean2 fun x => mean value (k x)

/-- The weight of a strategy of density `p` against one of density `q`. -/
noncomputable def share (p q : ℝ) : ℝ := p ^ 2 / (p ^ 2 + q ^ 2)

section
variable [HasInf ℝ] [HasNext ℝ] (scene : Scene ℝ) (c : Chan) (h : Hit ℝ) (light : LightObj ℝ)

/-- Light that reaches the hit point from the point `u` of a light, and is scattered towards the viewer. -/
noncomputable def fromLight (u : V2 ℝ) : ℝ≥0∞ :=
  let bsdf := h.obj.shape.material h.i
  match light.light.sampleLi h.i u with
  | none => 0
  | some s =>
    if 0 < s.pdf ∧ scene.intersectP s.vis.ray = some false then
      ENNReal.ofReal (c.of (bsdf.f h.i.wo s.wi) * |Spec.inner s.wi h.i.sn| * c.of s.li *
        (if light.light.isDelta then 1 else share s.pdf (bsdf.pdf h.i.wo s.wi)) / s.pdf)
    else 0

/-- The same light, found by following the direction that the surface chooses for `u`. -/
noncomputable def fromSurface (u : V2 ℝ) : ℝ≥0∞ :=
  let bsdf := h.obj.shape.material h.i
  match bsdf.sampleF h.i.wo u with
  | none => 0
  | some (wi, f, pdf, flag) =>
    match scene.intersect (h.i.spawnRay wi) with
    | some (some h') =>
      if 0 < pdf ∧ h'.obj.addr = light.addr then
        ENNReal.ofReal (c.of f * |Spec.inner wi h.i.sn| * c.of (h'.obj.shape.l h'.i wi.neg) *
          (if flag &&& SPECULAR ≠ 0 then 1 else if light.light.pdfLi h.i wi = 0 then 0 else share pdf (light.light.pdfLi h.i wi)) / pdf)
      else 0
    | _ => 0

/-- The light of one light source scattered towards the viewer at a hit point: the two strategies are added; a source without
extent is never found by chance. -/
noncomputable def fromSource : ℝ≥0∞ :=
  mean2 (fromLight scene c h light) + if light.light.isDelta then 0 else mean2 (fromSurface scene c h light)

/-- The light that comes in along a ray from paths with at most `n` further scatterings: what is emitted at the hit point (if it is
to be counted), the light of all sources scattered there, and the light that comes in along a direction chosen by the surface,
weighted by reflectance times cosine over density.  Emission at the next point counts if the choice was specular. -/
noncomputable def incoming : (n : Nat) → (emission : Bool) → Ray ℝ → ℝ≥0∞
  | 0, e, ray =>
    match scene.intersect ray with
    | some (some h) => if e then ENNReal.ofReal (c.of (h.obj.shape.l h.i ray.direction.neg)) else 0
    | _ => 0
  | n + 1, e, ray =>
    match scene.intersect ray with
    | some (some h) =>
      (if e then ENNReal.ofReal (c.of (h.obj.shape.l h.i ray.direction.neg)) else 0)
        + (scene.lights.map fun light => fromSource scene c h light).sum
        + mean2 fun u => match (h.obj.shape.material h.i).sampleF h.i.wo u with
          | none => 0
          | some (wi, f, pdf, flag) =>
            if pdf = 0 then 0
            else ENNReal.ofReal (c.of f * |Spec.inner wi h.i.sn| / pdf) * incoming n (flag &&& SPECULAR != 0) (h.i.spawnRay wi)
    | _ => 0
end
end Spec
open Spec

/-! ### Means -/

/-- Every run with sample values in `[0,1)` returns, with a value that satisfies `Q`. -/
def Draw.Total {β : Type} (Q : β → Prop) : Draw ℝ β → Prop
  | .ret b => Q b
  | .panic => False
  | .get1 k => ∀ x, Canonical x → (k x).Total Q
  | .get2 k => ∀ x, Canonical x.x → Canonical x.y → (k x).Total Q

theorem mean1_congr {F G : ℝ → ℝ≥0∞} (h : ∀ x, Canonical x → F x = G x) : mean1 F = mean1 G :=
  setLIntegral_congr_fun measurableSet_Ico fun x hx => h x hx

theorem mean2_congr {F G : V2 ℝ → ℝ≥0∞} (h : ∀ x, Canonical x.x → Canonical x.y → F x = G x) : mean2 F = mean2 G :=
  mean1_congr fun x hx => mean1_congr fun y hy => h ⟨x, y⟩ hx hy

theorem mean1_const (a : ℝ≥0∞) : mean1 (fun _ => a) = a := by
  unfold mean1
  rw [setLIntegral_const]
  simp

theorem mean2_const (a : ℝ≥0∞) : mean2 (fun _ => a) = a := by
  unfold mean2
  simp only [mean1_const]

theorem mean1_affine (a t : ℝ≥0∞) (ht : t ≠ ∞) (F : ℝ → ℝ≥0∞) : mean1 (fun x => a + t * F x) = a + t * mean1 F := by
  unfold mean1
  rw [lintegral_add_left measurable_const, lintegral_const_mul' _ _ ht, setLIntegral_const]
  simp

theorem mean2_affine (a t : ℝ≥0∞) (ht : t ≠ ∞) (F : V2 ℝ → ℝ≥0∞) : mean2 (fun x => a + t * F x) = a + t * mean2 F := by
  unfold mean2
  simp only [mean1_affine _ _ ht]

theorem mean_affine {β : Type} {Q : β → Prop} {g g' : β → ℝ≥0∞} (a t : ℝ≥0∞) (ht : t ≠ ∞) (hg : ∀ b, Q b → g b = a + t * g' b)
    (d : Draw ℝ β) (hd : d.Total Q) : mean g d = a + t * mean g' d := by
  induction d with
  | ret b => exact hg b hd
  | panic => exact hd.elim
  | get1 k ih =>
    simp only [mean]
    rw [← mean1_affine _ _ ht]
    exact mean1_congr fun x hx => ih x (hd x hx)
  | get2 k ih =>
    simp only [mean]
    rw [← mean2_affine _ _ ht]
    exact mean2_congr fun x hx hy => ih x (hd x hx hy)

theorem mean_bind {β γ : Type} (g : γ → ℝ≥0∞) (d : Draw ℝ β) (f : β → Draw ℝ γ) : mean g (d.bind f) = mean (fun b => mean g (f b)) d := by
  induction d with
  | ret b => rfl
  | panic => rfl
  | get1 k ih => simp only [Draw.bind, mean, ih]
  | get2 k ih => simp only [Draw.bind, mean, ih]

theorem run_bind {β γ : Type} (scene : Scene ℝ) (p : Prog ℝ β) (f : β → Prog ℝ γ) :
    (p.bind f).run scene = (p.run scene).bind fun b => (f b).run scene := by
  induction p with
  | ret b => rfl
  | panic => rfl
  | get1 k ih => simp only [Prog.bind, Prog.run, Draw.bind, ih]
  | get2 k ih => simp only [Prog.bind, Prog.run, Draw.bind, ih]
  | hit y r k ih =>
    simp only [Prog.bind, Prog.run]
    cases scene.intersect r with
    | none => rfl
    | some x => exact ih x
  | occluded r k ih =>
    simp only [Prog.bind, Prog.run]
    cases scene.intersectP r with
    | none => rfl
    | some x => exact ih x
  | scatter h k ih => simp only [Prog.bind, Prog.run, ih]

theorem total_of_safe {β : Type} {scene : Scene ℝ} {Q : β → Prop} {p : Prog ℝ β}
    (h1 : p.Safe scene Canonical (fun _ => False) (fun _ => True)) (h2 : p.Yields scene Canonical Q) : (p.run scene).Total Q := by
  induction p with
  | ret b => exact h2
  | panic => exact h1.elim
  | get1 k ih => exact fun x hx => ih x (h1 x hx) (h2 x hx)
  | get2 k ih => exact fun x hx hy => ih x (h1 x hx hy) (h2 x hx hy)
  | hit y r k ih =>
    rcases h1 with h1 | ⟨x, hx, h1⟩
    · exact h1.elim
    · simp only [Prog.run, hx]; exact ih x h1 (h2 x hx)
  | occluded r k ih =>
    rcases h1 with h1 | ⟨x, hx, h1⟩
    · exact h1.elim
    · simp only [Prog.run, hx]; exact ih x h1 (h2 x hx)
  | scatter h k ih => exact ih _ h1 h2

/-! ### Channels -/

namespace Spec.Chan
variable (c : Chan) (s t : Spectrum ℝ)
theorem of_add : c.of (s.add t) = c.of s + c.of t := by cases c <;> rfl
theorem of_mul : c.of (s.mul t) = c.of s * c.of t := by cases c <;> rfl
theorem of_smul (a : ℝ) : c.of (s.smul a) = c.of s * a := by cases c <;> rfl
theorem of_sdiv (a : ℝ) : c.of (s.sdiv a) = c.of s / a := by cases c <;> rfl
theorem of_zero : c.of Spectrum.zero = 0 := by cases c <;> simp [of, Spectrum.zero, r_lit]
theorem of_one : c.of (Spectrum.of (lit 1)) = 1 := by cases c <;> simp [of, Spectrum.of, r_lit]
variable {s}
theorem of_nonneg (h : Channels (fun x : ℝ => 0 ≤ x) s) : 0 ≤ c.of s := by
  cases c
  · exact h.1
  · exact h.2.1
  · exact h.2.2
theorem of_black (h : s.isBlack = true) : c.of s = 0 := by
  simp only [Spectrum.isBlack, Bool.and_eq_true] at h
  real_ops at h
  norm_num at h
  cases c
  · exact h.1.1
  · exact h.1.2
  · exact h.2
end Spec.Chan

/-! ### One light -/

section
variable [HasInf ℝ] [HasNext ℝ] {D : V3 ℝ → Prop} {scene : Scene ℝ}

local notation "NN" => (fun x : ℝ => 0 ≤ x)

theorem power_share (p q : ℝ) : powerHeuristic 1 p 1 q = share p q := by
  unfold powerHeuristic share
  real_ops
  norm_num
  ring_nf

theorem directFromLight_run (hs : SceneAnswers scene Canonical (fun _ => False)) (hsc : SceneContract NN D Canonical scene)
    {light : LightObj ℝ} (hl : light ∈ scene.lights) {ray : Ray ℝ} {h : Hit ℝ} (hd : D ray.direction)
    (hh : scene.intersect ray = some (some h)) (u : V2 ℝ) (hu : Canonical u.x) (hv : Canonical u.y) :
    ∃ s, (directFromLight light h.i (h.obj.shape.material h.i) u).run scene = .ret s ∧ Channels NN s ∧
      ∀ c : Chan, ENNReal.ofReal (c.of s) = fromLight scene c h light u := by
  have hyd := directFromLight_yields (scene := scene) c67_real_rule.1 (hsc.lights light hl) (hsc.wo ray h hd hh) (hsc.scatters ray h hd hh) hu hv
  suffices hx : ∃ s, (directFromLight light h.i (h.obj.shape.material h.i) u).run scene = .ret s ∧
      ∀ c : Chan, ENNReal.ofReal (c.of s) = fromLight scene c h light u by
    obtain ⟨s, h1, h2⟩ := hx
    have ht := total_of_safe (directFromLight_safe hs hl h.i (h.obj.shape.material h.i) u) hyd
    rw [h1] at ht
    exact ⟨s, h1, ht, h2⟩
  obtain ⟨smp, hsmp⟩ := Option.ne_none_iff_exists'.1 (hs.light light hl h.i u)
  unfold directFromLight fromLight
  rw [hsmp]
  dsimp only [Prog.ofOption, Bind.bind, Prog.bind]
  obtain ⟨occ, hocc⟩ := Option.ne_none_iff_exists'.1 (hs.shadow smp.vis.ray (fun x => x))
  rw [hocc]
  by_cases hp : 0 < smp.pdf
  swap
  · rw [if_neg (by real_ops; simp; intro h0; exact absurd (by simpa using h0) hp)]
    refine ⟨_, rfl, fun c => ?_⟩
    rw [if_neg (by simp [hp]), c.of_zero, ENNReal.ofReal_zero]
  by_cases hb : smp.li.isBlack = true
  · rw [if_neg (by simp [hb])]
    refine ⟨_, rfl, fun c => ?_⟩
    rw [c.of_zero, c.of_black hb]
    simp
  rw [if_pos (by real_ops; simp [hb]; simpa using hp)]
  have habs : Scalar.abs (smp.wi.dot h.i.sn) = |Spec.inner smp.wi h.i.sn| := by
    simp only [Spec.inner, V3.dot]; real_ops
  by_cases hf : (((h.obj.shape.material h.i).f h.i.wo smp.wi).smul (Scalar.abs (smp.wi.dot h.i.sn))).isBlack = true
  · rw [if_neg (by simp [hf])]
    refine ⟨_, rfl, fun c => ?_⟩
    have := c.of_black hf
    rw [c.of_smul, habs] at this
    rw [c.of_zero, this]
    simp
  rw [if_pos (by simp [hf])]
  rw [Prog.run, hocc]
  dsimp only
  cases occ with
  | true =>
    refine ⟨_, rfl, fun c => ?_⟩
    rw [c.of_zero]; simp
  | false =>
    simp only [Bool.not_false, if_true]
    cases hdl : light.light.isDelta with
    | true =>
      refine ⟨_, rfl, fun c => ?_⟩
      rw [if_pos ⟨hp, trivial⟩, c.of_add, c.of_sdiv, c.of_mul, c.of_smul, c.of_zero, habs]
      simp
    | false =>
      refine ⟨_, rfl, fun c => ?_⟩
      rw [if_pos ⟨hp, trivial⟩, c.of_add, c.of_sdiv, c.of_smul, c.of_mul, c.of_smul, c.of_zero, habs, power_share]
      simp

theorem directFromBsdf_run (hs : SceneAnswers scene Canonical (fun _ => False)) (hsc : SceneContract NN D Canonical scene)
    (light : LightObj ℝ) (hdl : light.light.isDelta = false) {ray : Ray ℝ} {h : Hit ℝ} (hd : D ray.direction)
    (hh : scene.intersect ray = some (some h)) (u : V2 ℝ) (hu : Canonical u.x) (hv : Canonical u.y) (ld : Spectrum ℝ) (hld : Channels NN ld) :
    ∃ s, (directFromBsdf light h.i (h.obj.shape.material h.i) u ld).run scene = .ret s ∧ Channels NN s ∧
      ∀ c : Chan, ENNReal.ofReal (c.of s) = ENNReal.ofReal (c.of ld) + fromSurface scene c h light u := by
  have hbs := hsc.scatters ray h hd hh
  have hyd := directFromBsdf_yields c67_real_rule.1 hsc light (hsc.wo ray h hd hh) hbs hu hv hld c67_real_rule.2
  have hne := hs.scatter ray h h.i.wo u hh hu hv
  suffices hx : ∃ s, (directFromBsdf light h.i (h.obj.shape.material h.i) u ld).run scene = .ret s ∧
      ∀ c : Chan, ENNReal.ofReal (c.of s) = ENNReal.ofReal (c.of ld) + fromSurface scene c h light u by
    obtain ⟨s, h1, h2⟩ := hx
    have ht := total_of_safe (directFromBsdf_safe hs light h.i (h.obj.shape.material h.i) u hne ld) hyd
    rw [h1] at ht
    exact ⟨s, h1, ht, h2⟩
  obtain ⟨⟨wi, f, pdf, flag⟩, hsmp⟩ := Option.ne_none_iff_exists'.1 hne
  unfold directFromBsdf fromSurface
  dsimp only
  rw [hsmp, hdl]
  simp only [Bool.not_false, if_true]
  dsimp only [Prog.ofOption, Bind.bind, Prog.bind]
  obtain ⟨x, hx⟩ := Option.ne_none_iff_exists'.1 (hs.hit (h.i.spawnRay wi) (fun x => x))
  have habs : Scalar.abs (wi.dot h.i.sn) = |Spec.inner wi h.i.sn| := by
    simp only [Spec.inner, V3.dot]; real_ops
  by_cases hp : 0 < pdf
  swap
  · rw [if_neg (by real_ops; simp; intro h0; exact absurd (by simpa using h0) hp)]
    refine ⟨_, rfl, fun c => ?_⟩
    rw [hx]
    rcases x with _ | h'
    · simp
    · simp [hp]
  by_cases hf : (f.smul (Scalar.abs (wi.dot h.i.sn))).isBlack = true
  · rw [if_neg (by simp [hf])]
    refine ⟨_, rfl, fun c => ?_⟩
    have := c.of_black hf
    rw [c.of_smul, habs] at this
    rw [hx]
    rcases x with _ | h'
    · simp
    · simp [this]
  rw [if_pos (by simp only [Bool.and_eq_true, Bool.not_eq_true']; exact ⟨by real_ops; simpa using hp, by simpa using hf⟩)]
  have hz : (light.light.pdfLi h.i wi ==. lit 0) = decide (light.light.pdfLi h.i wi = 0) := by
    real_ops
  rw [hz]
  by_cases hsp : flag &&& SPECULAR = 0
  · by_cases hlp : light.light.pdfLi h.i wi = 0
    · rw [if_pos (by simp [hsp, hlp])]
      refine ⟨_, rfl, fun c => ?_⟩
      rw [hx]
      rcases x with _ | h'
      · simp
      · simp [hsp, hlp]
    · rw [if_neg (by simp [hsp, hlp])]
      rw [Prog.run, hx]
      rcases x with _ | h'
      · exact ⟨_, rfl, fun c => by simp⟩
      · refine ⟨_, rfl, fun c => ?_⟩
        obtain ⟨h1, h2, hwi⟩ := hbs.sample _ u wi f pdf flag (hsc.wo ray h hd hh) hu hv hsmp (c67_real_rule.2 pdf (by real_ops; simpa using hp))
        have he := hsc.emits _ h' wi.neg hwi hx
        rw [c.of_add, c.of_sdiv, c.of_smul, c.of_mul, c.of_smul, habs]
        by_cases ha : h'.obj.addr = light.addr
        · have hn : 0 ≤ share pdf (light.light.pdfLi h.i wi) := by unfold share; positivity
          have h1c := c.of_nonneg h1
          have hec := c.of_nonneg he
          rw [if_pos ha, ENNReal.ofReal_add (c.of_nonneg hld) (by simp only [hsp]; simp only [Hit.le, power_share]; simp; positivity)]
          simp [hp, ha, hsp, hlp, Hit.le, power_share]
        · rw [if_neg ha, c.of_zero]
          simp [ha]
  · rw [if_neg (by simp [hsp])]
    rw [Prog.run, hx]
    rcases x with _ | h'
    · exact ⟨_, rfl, fun c => by simp⟩
    · refine ⟨_, rfl, fun c => ?_⟩
      obtain ⟨h1, h2, hwi⟩ := hbs.sample _ u wi f pdf flag (hsc.wo ray h hd hh) hu hv hsmp (c67_real_rule.2 pdf (by real_ops; simpa using hp))
      have he := hsc.emits _ h' wi.neg hwi hx
      rw [c.of_add, c.of_sdiv, c.of_smul, c.of_mul, c.of_smul, habs]
      by_cases ha : h'.obj.addr = light.addr
      · have h1c := c.of_nonneg h1
        have hec := c.of_nonneg he
        rw [if_pos ha, ENNReal.ofReal_add (c.of_nonneg hld) (by simp [hsp, Hit.le, r_lit]; positivity)]
        simp [hp, ha, hsp, Hit.le, r_lit]
      · rw [if_neg ha, c.of_zero]
        simp [ha]

theorem mean2_add (F G : V2 ℝ → ℝ≥0∞) : (mean2 fun u => mean2 fun v => F u + G v) = mean2 F + mean2 G := by
  have h1 : ∀ u, (mean2 fun v => F u + G v) = F u + mean2 G := by
    intro u
    have := mean2_affine (F u) 1 (by simp) G
    simpa using this
  simp only [h1]
  have := mean2_affine (mean2 G) 1 (by simp) F
  simp only [one_mul] at this
  rw [add_comm (mean2 F), ← this]
  simp only [add_comm]

/-- What one light contributes on average. -/
theorem estimateDirect_mean (hs : SceneAnswers scene Canonical (fun _ => False)) (hsc : SceneContract NN D Canonical scene)
    {light : LightObj ℝ} (hl : light ∈ scene.lights) {ray : Ray ℝ} {h : Hit ℝ} (hd : D ray.direction)
    (hh : scene.intersect ray = some (some h)) (c : Chan) :
    mean (fun s => ENNReal.ofReal (c.of s)) ((estimateDirect light h.i (h.obj.shape.material h.i)).run scene) = fromSource scene c h light := by
  have e : mean (fun s => ENNReal.ofReal (c.of s)) ((estimateDirect light h.i (h.obj.shape.material h.i)).run scene)
      = mean2 fun u => mean2 fun v => mean (fun s => ENNReal.ofReal (c.of s))
          (((directFromLight light h.i (h.obj.shape.material h.i) u).bind
            (directFromBsdf light h.i (h.obj.shape.material h.i) v)).run scene) := rfl
  rw [e]
  unfold fromSource
  cases hdl : light.light.isDelta with
  | true =>
    simp only [if_true, add_zero]
    refine mean2_congr fun u hu hv => ?_
    rw [← mean2_const (fromLight scene c h light u)]
    refine mean2_congr fun v _ _ => ?_
    obtain ⟨s, h1, h2, h3⟩ := directFromLight_run hs hsc hl hd hh u hu hv
    rw [run_bind, h1]
    dsimp only [Draw.bind]
    unfold directFromBsdf
    rw [hdl]
    exact h3 c
  | false =>
    simp only [Bool.false_eq_true, if_false]
    rw [← mean2_add]
    refine mean2_congr fun u hu hv => mean2_congr fun v hu' hv' => ?_
    obtain ⟨s, h1, h2, h3⟩ := directFromLight_run hs hsc hl hd hh u hu hv
    obtain ⟨s', h4, h5, h6⟩ := directFromBsdf_run hs hsc light hdl hd hh v hu' hv' s h2
    rw [run_bind, h1]
    dsimp only [Draw.bind]
    rw [h4]
    simp only [mean]
    rw [h6 c, h3 c]

/-! ### One of the lights -/

/-- The mean of a function of the index of the cell of `[0,1)` that a uniform number falls into. -/
theorem mean1_cells (n : Nat) (hn : n ≠ 0) (F : Nat → ℝ≥0∞) : (mean1 fun u => (n : ℝ≥0∞) * F ⌊(n : ℝ) * u⌋₊) = ∑ i ∈ Finset.range n, F i := by
  have hn0 : (0 : ℝ) < n := by exact_mod_cast Nat.pos_of_ne_zero hn
  have hc : ∀ u, Canonical u → (n : ℝ≥0∞) * F ⌊(n : ℝ) * u⌋₊
      = ∑ i ∈ Finset.range n, (Set.Ico ((i : ℝ) / n) ((i + 1 : ℝ) / n)).indicator (fun _ => (n : ℝ≥0∞) * F i) u := by
    intro u hu
    have hk : ⌊(n : ℝ) * u⌋₊ < n := by
      rw [Nat.floor_lt (mul_nonneg hn0.le hu.1)]
      nlinarith [hu.2]
    have hmem : ∀ i : ℕ, u ∈ Set.Ico ((i : ℝ) / n) ((i + 1 : ℝ) / n) ↔ ⌊(n : ℝ) * u⌋₊ = i := by
      intro i
      rw [Set.mem_Ico, div_le_iff₀ hn0, lt_div_iff₀ hn0, Nat.floor_eq_iff (mul_nonneg hn0.le hu.1), mul_comm u]
    rw [Finset.sum_eq_single_of_mem _ (Finset.mem_range.2 hk)]
    · rw [Set.indicator_of_mem ((hmem _).2 rfl)]
    · intro j _ hj
      rw [Set.indicator_of_notMem]
      rw [hmem]; exact fun e => hj e.symm
  rw [mean1_congr hc]
  unfold mean1
  rw [lintegral_finset_sum _ (fun i _ => measurable_const.indicator measurableSet_Ico)]
  refine Finset.sum_congr rfl fun i hi => ?_
  have hi' := Finset.mem_range.1 hi
  rw [lintegral_indicator measurableSet_Ico, setLIntegral_const, Measure.restrict_apply measurableSet_Ico]
  have hsub : Set.Ico ((i : ℝ) / n) ((i + 1 : ℝ) / n) ∩ Set.Ico 0 1 = Set.Ico ((i : ℝ) / n) ((i + 1 : ℝ) / n) := by
    apply Set.inter_eq_left.2
    apply Set.Ico_subset_Ico
    · positivity
    · rw [div_le_one hn0]; exact_mod_cast hi'
  rw [hsub, Real.volume_Ico]
  have : ((i + 1 : ℝ) / n) - (i : ℝ) / n = (n : ℝ)⁻¹ := by field_simp; ring
  rw [this, mul_assoc, mul_comm (F i), ← mul_assoc]
  rw [ENNReal.ofReal_inv_of_pos hn0, ENNReal.ofReal_natCast, ENNReal.mul_inv_cancel (by exact_mod_cast hn) (by simp), one_mul]

theorem toUsize_real (n : Nat) (hn : n ≤ 2 ^ 64) (u : ℝ) (hu : Canonical u) : toUsize (ofInt (n : Int) *. u) = ⌊(n : ℝ) * u⌋₊ := by
  have h0 : (0 : ℝ) ≤ n * u := mul_nonneg (by positivity) hu.1
  have e : (ofInt (n : Int) : ℝ) *. u = n * u := by real_ops; norm_num
  simp only [toUsize]
  rw [e, r_toInt]
  have ht : truncInt ((n : ℝ) * u) = ⌊(n : ℝ) * u⌋ := by
    simp only [truncInt]; rw [if_neg (not_lt.2 h0)]
  have h1 : (0 : ℤ) ≤ ⌊(n : ℝ) * u⌋ := Int.floor_nonneg.2 h0
  have h2 : ⌊(n : ℝ) * u⌋ ≤ 2 ^ 64 - 1 := by
    rcases Nat.eq_zero_or_pos n with rfl | hp
    · simp
    · have : ⌊(n : ℝ) * u⌋ < n := by
        rw [Int.floor_lt]
        have : (0 : ℝ) < n := by exact_mod_cast hp
        push_cast
        nlinarith [hu.2]
      have : (n : ℤ) ≤ 2 ^ 64 := by exact_mod_cast hn
      omega
  rw [ht, satInt_of_mem h1 h2]
  rfl

theorem uniformSampleOneLight_mean (hs : SceneAnswers scene Canonical (fun _ => False)) (hsc : SceneContract NN D Canonical scene)
    (hn : scene.lights.length ≤ 2 ^ 64) {ray : Ray ℝ} {h : Hit ℝ} (hd : D ray.direction)
    (hh : scene.intersect ray = some (some h)) (c : Chan) :
    mean (fun s => ENNReal.ofReal (c.of s)) ((uniformSampleOneLight scene.lights h.i (h.obj.shape.material h.i)).run scene)
      = (scene.lights.map fun light => fromSource scene c h light).sum := by
  unfold uniformSampleOneLight
  dsimp only
  split_ifs with h0
  · have : scene.lights = [] := by simpa using h0
    rw [this]
    simp only [List.map_nil, List.sum_nil]
    change ENNReal.ofReal (c.of Spectrum.zero) = 0
    rw [c.of_zero, ENNReal.ofReal_zero]
  · have hsum : (scene.lights.map fun light => fromSource scene c h light).sum
        = ∑ i ∈ Finset.range scene.lights.length, (scene.lights[i]?.elim 0 fun light => fromSource scene c h light) := by
      rw [Finset.sum_range, ← Fin.sum_univ_fun_getElem]
      exact Finset.sum_congr rfl fun i _ => by simp
    rw [hsum, ← mean1_cells _ h0]
    dsimp only [Bind.bind, Prog.bind, Prog.run]
    simp only [mean]
    refine mean1_congr fun u hu => ?_
    rw [toUsize_real _ hn u hu]
    have hk : ⌊(scene.lights.length : ℝ) * u⌋₊ < scene.lights.length := by
      have hn0 : (0 : ℝ) < scene.lights.length := by exact_mod_cast Nat.pos_of_ne_zero h0
      rw [Nat.floor_lt (mul_nonneg hn0.le hu.1)]
      nlinarith [hu.2]
    rw [min_eq_left (by omega), List.getElem?_eq_getElem hk]
    have hl : scene.lights[⌊(scene.lights.length : ℝ) * u⌋₊] ∈ scene.lights := List.getElem_mem hk
    generalize scene.lights[⌊(scene.lights.length : ℝ) * u⌋₊] = light at hl
    dsimp only [Prog.ofOption, Prog.bind, Option.elim_some]
    rw [run_bind, mean_bind]
    have hb := hsc.scatters ray h hd hh
    have hwo := hsc.wo ray h hd hh
    have hyd : (estimateDirect light h.i (h.obj.shape.material h.i)).Yields scene Canonical (Channels NN) := by
      unfold estimateDirect
      refine Prog.Yields.bind (Q := fun u => Canonical u.x ∧ Canonical u.y) (fun u hu => ?_) (fun _ h1 h2 => ⟨h1, h2⟩)
      refine Prog.Yields.bind (Q := fun u => Canonical u.x ∧ Canonical u.y) (fun v hv => ?_) (fun _ h1 h2 => ⟨h1, h2⟩)
      exact Prog.Yields.bind (Q := Channels NN) (fun ld hld => directFromBsdf_yields c67_real_rule.1 hsc light hwo hb hv.1 hv.2 hld c67_real_rule.2)
        (directFromLight_yields c67_real_rule.1 (hsc.lights light hl) hwo hb hu.1 hu.2)
    have hsafe : (estimateDirect light h.i (h.obj.shape.material h.i)).Safe scene Canonical (fun _ => False) (fun _ => True) := by
      intro u hu hv v hu' hv'
      exact Prog.Safe.bind (Q := fun _ => True) (p := directFromLight light h.i (h.obj.shape.material h.i) u)
        (f := directFromBsdf light h.i (h.obj.shape.material h.i) v) (directFromLight_safe hs hl _ _ _)
        fun ld _ => directFromBsdf_safe hs _ _ _ _ (hs.scatter ray h _ _ hh hu' hv') _
    rw [mean_affine 0 (scene.lights.length : ℝ≥0∞) (by simp) _ _ (total_of_safe hsafe hyd) (g' := fun s => ENNReal.ofReal (c.of s)),
      estimateDirect_mean hs hsc hl hd hh c, zero_add]
    intro ld hld
    change ENNReal.ofReal (c.of (ld.smul (ofInt (scene.lights.length : Int)))) = _
    rw [c.of_smul, ENNReal.ofReal_mul (c.of_nonneg hld), zero_add, mul_comm]
    congr 1
    have : (ofInt (scene.lights.length : Int) : ℝ) = (scene.lights.length : ℝ) := by
      rw [r_ofInt]; norm_num
    rw [this, ENNReal.ofReal_natCast]


/-! ### The path -/

/-- The mean over the roulette of a path that goes on, divided by the probability, with value `t * X`, is that of a path that always
goes on. -/
theorem mean1_roulette (a X : ℝ≥0∞) (t q : ℝ) (hq : 0 ≤ q) (hq1 : q ≤ 1) (ht : 0 ≤ t) (hz : q = 0 → t = 0) :
    (mean1 fun v => if q < v then a else a + ENNReal.ofReal (t / q) * X) = a + ENNReal.ofReal t * X := by
  have e : ∀ v, Canonical v → (if q < v then a else a + ENNReal.ofReal (t / q) * X)
      = a + 1 * (Set.Iic q).indicator (fun _ => ENNReal.ofReal (t / q) * X) v := by
    intro v _
    by_cases h : q < v
    · rw [if_pos h, Set.indicator_of_notMem (by simpa using h)]; simp
    · rw [if_neg h, Set.indicator_of_mem (by simpa using h)]; simp
  rw [mean1_congr e, mean1_affine _ _ (by simp), one_mul]
  congr 1
  unfold mean1
  rw [lintegral_indicator measurableSet_Iic, setLIntegral_const, Measure.restrict_apply measurableSet_Iic]
  rcases hq.lt_or_eq with hpos | h0
  · have hv : volume (Set.Iic q ∩ Set.Ico (0 : ℝ) 1) = ENNReal.ofReal q := by
      rcases hq1.lt_or_eq with h1 | h1
      · have : Set.Iic q ∩ Set.Ico (0 : ℝ) 1 = Set.Icc 0 q := by
          ext x; simp only [Set.mem_inter_iff, Set.mem_Iic, Set.mem_Ico, Set.mem_Icc]
          constructor
          · rintro ⟨h2, h3, h4⟩; exact ⟨h3, h2⟩
          · rintro ⟨h2, h3⟩; exact ⟨h3, h2, by linarith⟩
        rw [this, Real.volume_Icc, sub_zero]
      · have : Set.Iic q ∩ Set.Ico (0 : ℝ) 1 = Set.Ico 0 1 := by
          apply Set.inter_eq_right.2
          intro x hx; rw [Set.mem_Iic, h1]; exact hx.2.le
        rw [this, Real.volume_Ico, sub_zero, h1]
    rw [hv, mul_comm, ← mul_assoc, ← ENNReal.ofReal_mul hq]
    congr 2
    field_simp
  · rw [hz h0.symm, ← h0]; simp

theorem liLoop_mean (hs : SceneAnswers scene Canonical (fun _ => False)) (hsc : SceneContract NN D Canonical scene)
    (hn : scene.lights.length ≤ 2 ^ 64) (c : Chan) (k : Nat) : ∀ (bounces : Nat) (ray : Ray ℝ) (l beta : Spectrum ℝ) (sb : Bool),
    bounces + k = MAX_BOUNCES + 1 → D ray.direction → Channels NN l → Channels NN beta →
    mean (fun s => ENNReal.ofReal (c.of s)) ((liLoop scene.lights bounces ray l beta sb).run scene)
      = ENNReal.ofReal (c.of l) + ENNReal.ofReal (c.of beta) * incoming scene c k (decide (bounces = 0) || sb) ray := by
  have hP := c67_real_rule.1
  induction k with
  | zero =>
    intro bounces ray l beta sb hk hd hl hbeta
    obtain ⟨x, hx⟩ := Option.ne_none_iff_exists'.1 (hs.hit ray (fun x => x))
    rw [liLoop]
    dsimp only [Bind.bind, Prog.bind]
    rw [Prog.run, hx]
    unfold incoming
    rw [hx]
    dsimp only
    cases x with
    | none =>
      dsimp only
      simp [mean, Prog.run, Pure.pure]
    | some h =>
      dsimp only
      have he := hsc.emits ray h ray.direction.neg hd hx
      rw [dif_pos (by omega)]
      by_cases hc : bounces = 0 ∨ sb = true
      · rw [if_pos hc, if_pos (by simpa using hc)]
        change ENNReal.ofReal (c.of _) = _
        rw [Hit.le, c.of_add, c.of_mul, ENNReal.ofReal_add (c.of_nonneg hl) (mul_nonneg (c.of_nonneg hbeta) (c.of_nonneg he)),
          ENNReal.ofReal_mul (c.of_nonneg hbeta)]
      · rw [if_neg hc, if_neg (by simpa using hc)]
        simp [mean, Prog.run, Pure.pure]
  | succ k ih =>
    intro bounces ray l beta sb hk hd hl hbeta
    obtain ⟨x, hx⟩ := Option.ne_none_iff_exists'.1 (hs.hit ray (fun x => x))
    rw [liLoop]
    dsimp only [Bind.bind, Prog.bind]
    rw [Prog.run, hx]
    unfold incoming
    rw [hx]
    dsimp only
    cases x with
    | none =>
      dsimp only
      simp [mean, Prog.run, Pure.pure]
    | some h =>
      dsimp only
      have he := hsc.emits ray h ray.direction.neg hd hx
      generalize hl' : (if bounces = 0 ∨ sb = true then l.add (beta.mul (h.le ray.direction.neg)) else l) = l'
      have hl2 : Channels NN l' := by
        rw [← hl']
        split_ifs
        · exact hP.addS hl (hP.mulS hbeta he)
        · exact hl
      have hl'' : ENNReal.ofReal (c.of l') = ENNReal.ofReal (c.of l) + ENNReal.ofReal (c.of beta) *
          (if (decide (bounces = 0) || sb) = true then ENNReal.ofReal (c.of (h.obj.shape.l h.i ray.direction.neg)) else 0) := by
        rw [← hl']
        by_cases hc : bounces = 0 ∨ sb = true
        · rw [if_pos hc, if_pos (by simpa using hc)]
          rw [Hit.le, c.of_add, c.of_mul, ENNReal.ofReal_add (c.of_nonneg hl) (mul_nonneg (c.of_nonneg hbeta) (c.of_nonneg he)),
            ENNReal.ofReal_mul (c.of_nonneg hbeta)]
        · rw [if_neg hc, if_neg (by simpa using hc)]; simp
      rw [dif_neg (by omega)]
      have hbs := hsc.scatters ray h hd hx
      have hwo := hsc.wo ray h hd hx
      dsimp only [Prog.run]
      rw [run_bind, mean_bind]
      generalize hS : (mean2 fun u => match (h.obj.shape.material h.i).sampleF h.i.wo u with
          | none => 0
          | some (wi, f, pdf, flag) =>
            if pdf = 0 then 0
            else ENNReal.ofReal (c.of f * |Spec.inner wi h.i.sn| / pdf) * incoming scene c k (flag &&& SPECULAR != 0) (h.i.spawnRay wi)) = S
      have hyd := uniformSampleOneLight_yields hP hsc hwo hbs c67_real_rule.2
      have hsafe := uniformSampleOneLight_safe hs h.i (h.obj.shape.material h.i) (fun u h1 h2 => hs.scatter ray h _ u hx h1 h2)
      have htot := total_of_safe hsafe hyd
      rw [mean_affine (Q := Channels NN) (g' := fun s => ENNReal.ofReal (c.of s)) (ENNReal.ofReal (c.of l') + ENNReal.ofReal (c.of beta) * S)
        (ENNReal.ofReal (c.of beta)) (by simp) _ _ htot, uniformSampleOneLight_mean hs hsc hn hd hx c, hl'']
      · ring
      intro ld hld
      have hl3 := hP.addS hl2 (hP.mulS hbeta hld)
      have hl3' : ENNReal.ofReal (c.of (l'.add (beta.mul ld))) = ENNReal.ofReal (c.of l') + ENNReal.ofReal (c.of beta) * ENNReal.ofReal (c.of ld) := by
        rw [c.of_add, c.of_mul, ENNReal.ofReal_add (c.of_nonneg hl2) (mul_nonneg (c.of_nonneg hbeta) (c.of_nonneg hld)),
          ENNReal.ofReal_mul (c.of_nonneg hbeta)]
      have hgoal : ENNReal.ofReal (c.of l') + ENNReal.ofReal (c.of beta) * S + ENNReal.ofReal (c.of beta) * ENNReal.ofReal (c.of ld)
          = ENNReal.ofReal (c.of (l'.add (beta.mul ld))) + ENNReal.ofReal (c.of beta) * S := by rw [hl3']; ring
      rw [hgoal, ← hS, ← mean2_affine _ _ (by simp)]
      rw [Prog.run, mean]
      refine mean2_congr fun u hu hv => ?_
      obtain ⟨⟨wi, f, pdf, flag⟩, hsmp⟩ := Option.ne_none_iff_exists'.1 (hs.scatter ray h h.i.wo u hx hu hv)
      rw [hsmp]
      dsimp only [Prog.ofOption, Prog.bind]
      have hz : (pdf ==. lit 0) = decide (pdf = 0) := by real_ops
      rw [hz]
      by_cases hp0 : pdf = 0
      · rw [if_pos (by simp [hp0]), if_pos hp0]
        simp [mean, Prog.run, Pure.pure]
      rw [if_neg hp0]
      by_cases hf : f.isBlack = true
      · rw [if_pos (by simp [hf]), c.of_black hf]
        simp [mean, Prog.run, Pure.pure]
      rw [if_neg (by simp [hp0, hf])]
      obtain ⟨h1, h2, hwi⟩ := hbs.sample _ u wi f pdf flag hwo hu hv hsmp (by rw [hz]; simpa using hp0)
      have hbeta' : Channels NN (scatterWeight beta f wi h.i.sn pdf) := hP.mulS hbeta (hP.sdivS (hP.smulS h1 (hP.absDot _ _)) h2)
      have hw : c.of (scatterWeight beta f wi h.i.sn pdf) = c.of beta * (c.of f * |Spec.inner wi h.i.sn| / pdf) := by
        unfold scatterWeight
        rw [c.of_mul, c.of_sdiv, c.of_smul]
        simp only [Spec.inner, V3.dot]; real_ops
      have hgo : ENNReal.ofReal (c.of beta) * (ENNReal.ofReal (c.of f * |Spec.inner wi h.i.sn| / pdf) * incoming scene c k (flag &&& SPECULAR != 0) (h.i.spawnRay wi))
          = ENNReal.ofReal (c.of (scatterWeight beta f wi h.i.sn pdf)) * incoming scene c k (flag &&& SPECULAR != 0) (h.i.spawnRay wi) := by
        rw [hw, ENNReal.ofReal_mul (c.of_nonneg hbeta), mul_assoc]
      rw [hgo]
      generalize scatterWeight beta f wi h.i.sn pdf = beta' at *
      by_cases hb3 : bounces + 1 > 3
      · rw [if_pos hb3]
        dsimp only [Prog.run]
        simp only [mean]
        have hy : 0 ≤ beta'.y := by
          unfold Spectrum.y; real_ops
          have := hbeta'.1; have := hbeta'.2.1; have := hbeta'.2.2
          positivity
        have hq : Scalar.fmin beta'.y (lit (95 / 100)) = min beta'.y (95 / 100) := by real_ops
        have hq0 : 0 ≤ min beta'.y (95 / 100) := le_min hy (by norm_num)
        rw [← mean1_roulette (ENNReal.ofReal (c.of (l'.add (beta.mul ld)))) (incoming scene c k (flag &&& SPECULAR != 0) (h.i.spawnRay wi))
          (c.of beta') (min beta'.y (95 / 100)) hq0 ((min_le_right _ _).trans (by norm_num)) (c.of_nonneg hbeta')]
        · refine mean1_congr fun v _ => ?_
          unfold roulette
          dsimp only
          rw [hq]
          by_cases hv : min beta'.y (95 / 100) < v
          · rw [if_pos hv, if_pos (by real_ops; simpa using hv)]
            rfl
          · rw [if_neg hv, if_neg (by real_ops; simpa using hv)]
            dsimp only
            rw [ih (bounces + 1) _ _ _ _ (by omega) hwi hl3 (hP.sdivS hbeta' hq0), c.of_sdiv]
            simp
        · intro h0
          have hy0 : beta'.y = 0 := by
            rcases min_choice beta'.y (95 / 100 : ℝ) with e | e <;> rw [e] at h0
            · exact h0
            · norm_num at h0
          unfold Spectrum.y at hy0
          real_ops at hy0
          have a1 := hbeta'.1; have a2 := hbeta'.2.1; have a3 := hbeta'.2.2
          norm_num at hy0
          cases c <;> simp only [Chan.of] <;> nlinarith
      · rw [if_neg hb3, ih (bounces + 1) _ _ _ _ (by omega) hwi hl3 hbeta']
        simp

/-- C78: the mean radiance of a camera sample, over independent uniform sample values, is the light that comes in along the camera
ray according to the light transport recursion with at most 65 scatterings. -/
theorem c78_expected_radiance (hs : SceneAnswers scene Canonical (fun _ => False)) (hsc : SceneContract NN D Canonical scene)
    (hn : scene.lights.length ≤ 2 ^ 64) (camera : PerspectiveCamera ℝ) (pFilm : V2 ℝ) (hd : D (camera.generateRay pFilm).direction) (c : Chan) :
    mean (fun s => ENNReal.ofReal (c.of s)) (cameraRadiance scene camera pFilm) = incoming scene c 65 true (camera.generateRay pFilm) := by
  unfold cameraRadiance li
  have h1 := c67_real_rule.1.lit 1 (by norm_num)
  rw [liLoop_mean hs hsc hn c 65 0 _ _ _ _ rfl hd c67_real_rule.1.zeroS ⟨h1, h1, h1⟩, c.of_zero, c.of_one]
  simp

end
end PT
