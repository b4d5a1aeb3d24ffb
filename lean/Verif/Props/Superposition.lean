import Verif.Props.Tint
import Verif.Props.TriangleWorld
import Verif.Props.TransformMeaning

/-!
# The light of several lamps adds up (C101)

A scene in which every lamp has the sum of two colours gives, sample by sample, the sum of what the two scenes give.  So an image of a room
with several lamps is the sum of the images in which one lamp at a time is lit and the others are black.  Exact arithmetic.
-/

namespace PT
open Spec

namespace Spec
/-- A piece of a scene: a lamp whose colour is still to be chosen, or a shape that does not shine. -/
inductive Fixture where
  /-- a distant light from the direction `w` -/
  | sun (addr : Nat) (w : V3 ℝ)
  /-- a shape -/
  | thing (addr : Nat) (s : Shape ℝ)
  /-- a shining shape -/
  | panel (addr : Nat) (s : Shape ℝ)

/-- The call of the scene builder that adds the piece; `e` is the colour if it is a lamp. -/
noncomputable def Fixture.call [HasInf ℝ] (e : Spectrum ℝ) : Fixture → BuilderCall ℝ
  | .sun addr w => .light addr fun box => ((DistantLight.new e w).preProcess box).toLight
  | .thing addr s => .shape addr s
  | .panel addr s => .area addr ⟨e, s⟩

/-- The pieces that can be made with the library. -/
inductive LibraryFixture [HasInf ℝ] : Fixture → Prop
  | sun (addr w) : LibraryFixture (.sun addr w)
  | sphere (addr) (s : Sphere ℝ) : LibraryMaterial s.material → LibraryFixture (.thing addr (s.toShape (β := ℝ)))
  | triangle (addr) (t : Triangle ℝ) : LibraryMaterial t.material → LibraryFixture (.thing addr t.toShape)
  | panel (addr) (t : Triangle ℝ) : LibraryMaterial t.material → LibraryFixture (.panel addr t.toShape)

/-- The same without spheres, with reflectances and roughnesses that make sense (`LibraryTriangle`) and directions that are not zero. -/
inductive TriangleFixture [HasInf ℝ] : Fixture → Prop
  | sun (addr w) : w ≠ V3.zero → TriangleFixture (.sun addr w)
  | triangle (addr) (t : Triangle ℝ) : LibraryMaterial t.material → LibraryTriangle t → TriangleFixture (.thing addr t.toShape)
  | panel (addr) (t : Triangle ℝ) : LibraryMaterial t.material → LibraryTriangle t → TriangleFixture (.panel addr t.toShape)

/-- The calls of the scene builder for a list of pieces, if the `k`-th piece, counted from 0, has the colour `colour k`. -/
noncomputable def furnished [HasInf ℝ] (fs : List Fixture) (colour : Nat → Spectrum ℝ) : List (BuilderCall ℝ) :=
  fs.zipIdx.map fun f => f.1.call (colour f.2)
end Spec

namespace Draw
variable {α β γ δ : Type}
/-- Three computations that draw the same samples, and whose results are related. -/
def Rel3 (Q : β → γ → δ → Prop) : Draw α β → Draw α γ → Draw α δ → Prop
  | ret b, ret c, ret d => Q b c d
  | panic, panic, panic => True
  | get1 k, get1 k', get1 k'' => ∀ x, Rel3 Q (k x) (k' x) (k'' x)
  | get2 k, get2 k', get2 k'' => ∀ x, Rel3 Q (k x) (k' x) (k'' x)
  | _, _, _ => False

theorem Rel3.bind {β' γ' δ' : Type} {Q : β → γ → δ → Prop} {Q' : β' → γ' → δ' → Prop} {f : β → Draw α β'} {f' : γ → Draw α γ'} {f'' : δ → Draw α δ'}
    (hf : ∀ b c d, Q b c d → Rel3 Q' (f b) (f' c) (f'' d)) :
    ∀ {d : Draw α β} {d' : Draw α γ} {d'' : Draw α δ}, Rel3 Q d d' d'' → Rel3 Q' (d.bind f) (d'.bind f') (d''.bind f'') := by
  intro d
  induction d with
  | ret b =>
    intro d' d'' h
    cases d' <;> cases d'' <;> first | exact h.elim | exact hf _ _ _ h
  | panic =>
    intro d' d'' h
    cases d' <;> cases d'' <;> first | exact h.elim | trivial
  | get1 k ih =>
    intro d' d'' h
    cases d' <;> cases d'' <;> first | exact h.elim | exact fun x => ih x (h x)
  | get2 k ih =>
    intro d' d'' h
    cases d' <;> cases d'' <;> first | exact h.elim | exact fun x => ih x (h x)

theorem Rel3.run {σ : Type} {Q : β → γ → δ → Prop} (ops : SamplerOps α σ) :
    ∀ {d : Draw α β} {d' : Draw α γ} {d'' : Draw α δ}, Rel3 Q d d' d'' → ∀ s,
    (d.run ops s = none ∧ d'.run ops s = none ∧ d''.run ops s = none) ∨
    ∃ b c e s', d.run ops s = some (b, s') ∧ d'.run ops s = some (c, s') ∧ d''.run ops s = some (e, s') ∧ Q b c e := by
  intro d
  induction d with
  | ret b =>
    intro d' d'' h s
    cases d' <;> cases d'' <;> first | exact h.elim | exact Or.inr ⟨_, _, _, s, rfl, rfl, rfl, h⟩
  | panic =>
    intro d' d'' h s
    cases d' <;> cases d'' <;> first | exact h.elim | exact Or.inl ⟨rfl, rfl, rfl⟩
  | get1 k ih =>
    intro d' d'' h s
    cases d' with
    | get1 k' =>
      cases d'' with
      | get1 k'' =>
        simp only [Draw.run]
        cases ops.get1d s with
        | none => exact Or.inl ⟨rfl, rfl, rfl⟩
        | some x => exact ih x.1 (h x.1) x.2
      | _ => exact h.elim
    | _ => cases d'' <;> exact h.elim
  | get2 k ih =>
    intro d' d'' h s
    cases d' with
    | get2 k' =>
      cases d'' with
      | get2 k'' =>
        simp only [Draw.run]
        cases ops.get2d s with
        | none => exact Or.inl ⟨rfl, rfl, rfl⟩
        | some x => exact ih x.1 (h x.1) x.2
      | _ => exact h.elim
    | _ => cases d'' <;> exact h.elim
end Draw

/-! ### Programs -/

section
variable {scene scene1 scene2 : Scene ℝ}

/-- The first colour is the sum of the others. -/
def IsSum (a b c : Spectrum ℝ) : Prop := a = b.add c

/-- The results of three programs in the three scenes. -/
def Runs3 (scene scene1 scene2 : Scene ℝ) {β γ δ : Type} (Q : β → γ → δ → Prop) (p : Prog ℝ β) (p1 : Prog ℝ γ) (p2 : Prog ℝ δ) : Prop :=
  (p.run scene).Rel3 Q (p1.run scene1) (p2.run scene2)

theorem Runs3.bind {β γ δ β' γ' δ' : Type} {Q : β → γ → δ → Prop} {Q' : β' → γ' → δ' → Prop} {p : Prog ℝ β} {p1 : Prog ℝ γ} {p2 : Prog ℝ δ}
    {f : β → Prog ℝ β'} {f1 : γ → Prog ℝ γ'} {f2 : δ → Prog ℝ δ'}
    (h : Runs3 scene scene1 scene2 Q p p1 p2) (hf : ∀ b c d, Q b c d → Runs3 scene scene1 scene2 Q' (f b) (f1 c) (f2 d)) :
    Runs3 scene scene1 scene2 Q' (p.bind f) (p1.bind f1) (p2.bind f2) := by
  unfold Runs3
  rw [run_bind, run_bind, run_bind]
  exact Draw.Rel3.bind hf h

theorem Runs3.ofOption {β : Type} (o : Option β) :
    Runs3 scene scene1 scene2 (fun b c d => b = c ∧ b = d) (Prog.ofOption o) (Prog.ofOption o) (Prog.ofOption o) := by
  cases o with
  | none => trivial
  | some b => exact ⟨rfl, rfl⟩

/-- Samples of a light that differ only in its colour. -/
def SamplesAdd : Option (LightSample ℝ) → Option (LightSample ℝ) → Option (LightSample ℝ) → Prop
  | none, none, none => True
  | some s, some s1, some s2 => (s1.wi = s.wi ∧ s1.pdf = s.pdf ∧ s1.vis = s.vis) ∧ (s2.wi = s.wi ∧ s2.pdf = s.pdf ∧ s2.vis = s.vis) ∧ IsSum s.li s1.li s2.li
  | _, _, _ => False

/-- Lights that differ only in their colours. -/
structure LightsAdd (l l1 l2 : LightObj ℝ) : Prop where
  addr : l1.addr = l.addr ∧ l2.addr = l.addr
  delta : l1.light.isDelta = l.light.isDelta ∧ l2.light.isDelta = l.light.isDelta
  pdf : l1.light.pdfLi = l.light.pdfLi ∧ l2.light.pdfLi = l.light.pdfLi
  samples : ∀ i u, SamplesAdd (l.light.sampleLi i u) (l1.light.sampleLi i u) (l2.light.sampleLi i u)

/-- Hits that differ only in the colour of the shape. -/
structure HitAdds (h h1 h2 : Hit ℝ) : Prop where
  i : h1.i = h.i ∧ h2.i = h.i
  addr : h1.obj.addr = h.obj.addr ∧ h2.obj.addr = h.obj.addr
  material : h1.obj.shape.material = h.obj.shape.material ∧ h2.obj.shape.material = h.obj.shape.material
  le : ∀ w, IsSum (h.le w) (h1.le w) (h2.le w)

/-- Answers that differ only in the colour of the shape. -/
def HitsAdd : Option (Hit ℝ) → Option (Hit ℝ) → Option (Hit ℝ) → Prop
  | none, none, none => True
  | some h, some h1, some h2 => HitAdds h h1 h2
  | _, _, _ => False

/-- Scenes that differ only in the colours of the lamps. -/
structure ScenesAdd (scene scene1 scene2 : Scene ℝ) : Prop where
  lights : ∃ l : List (LightObj ℝ × LightObj ℝ × LightObj ℝ), (∀ x ∈ l, LightsAdd x.1 x.2.1 x.2.2) ∧
    scene.lights = l.map (·.1) ∧ scene1.lights = l.map (·.2.1) ∧ scene2.lights = l.map (·.2.2)
  blocked : ∀ ray, ∃ b, scene.intersectP ray = some b ∧ scene1.intersectP ray = some b ∧ scene2.intersectP ray = some b
  hits : ∀ ray, (scene.intersect ray = none ∧ scene1.intersect ray = none ∧ scene2.intersect ray = none) ∨
    ∃ h h1 h2, scene.intersect ray = some h ∧ scene1.intersect ray = some h1 ∧ scene2.intersect ray = some h2 ∧ HitsAdd h h1 h2

variable [HasInf ℝ] [HasNext ℝ]

omit [HasInf ℝ] [HasNext ℝ] in
theorem black_eq {s : Spectrum ℝ} (h : s.isBlack = true) : s = ⟨0, 0, 0⟩ := by
  unfold Spectrum.isBlack at h
  real_ops at h
  simp only [Bool.and_eq_true, decide_eq_true_eq] at h
  ext
  · exact h.1.1
  · exact h.1.2
  · exact h.2

/-- By what the colour of a light sample is multiplied. -/
noncomputable def lightFactor (b delta : Bool) (i : Interaction ℝ) (bsdf : BSDF ℝ) (wi : V3 ℝ) (pdf : ℝ) : Spectrum ℝ :=
  let f := (bsdf.f i.wo wi).smul (Scalar.abs (wi.dot i.sn))
  if 0 < pdf ∧ b = false then
    if delta = true then f.sdiv pdf else (f.smul (powerHeuristic 1 pdf 1 (bsdf.pdf i.wo wi))).sdiv pdf
  else ⟨0, 0, 0⟩

theorem directFromLight_eq (sc : Scene ℝ) (hb : ∀ ray, ∃ b, sc.intersectP ray = some b) (light : LightObj ℝ) (i : Interaction ℝ) (bsdf : BSDF ℝ) (u : V2 ℝ) :
    (directFromLight light i bsdf u).run sc = match light.light.sampleLi i u with
      | none => .panic
      | some s => .ret ((lightFactor ((sc.intersectP s.vis.ray).getD true) light.light.isDelta i bsdf s.wi s.pdf).mul s.li) := by
  unfold directFromLight
  simp only [bind]
  rw [run_bind]
  cases light.light.sampleLi i u with
  | none => rfl
  | some s =>
    have e0 : (Prog.ofOption (some s) : Prog ℝ (LightSample ℝ)).run sc = .ret s := rfl
    rw [e0]
    simp only [Draw.bind]
    have hz : ∀ a : Spectrum ℝ, (⟨0, 0, 0⟩ : Spectrum ℝ).mul a = Spectrum.zero := by
      intro a; ext <;> (simp only [Spectrum.mul, Spectrum.zero]; real_ops; simp)
    have hz' : ∀ a : Spectrum ℝ, a.mul (⟨0, 0, 0⟩ : Spectrum ℝ) = Spectrum.zero := by
      intro a; ext <;> (simp only [Spectrum.mul, Spectrum.zero]; real_ops; simp)
    have hpd : (s.pdf >. lit 0) = true ↔ 0 < s.pdf := by real_ops
    by_cases hp : 0 < s.pdf
    swap
    · have : (s.pdf >. lit 0) = false := by rw [Bool.eq_false_iff, ne_eq, hpd]; exact hp
      simp only [this, Bool.false_and, Bool.false_eq_true, if_false, lightFactor, hp, false_and, hz]
      rfl
    rw [hpd.2 hp, Bool.true_and]
    by_cases hl : s.li.isBlack = true
    · rw [hl]
      simp only [Bool.not_true, Bool.false_eq_true, if_false]
      rw [black_eq hl, hz']
      rfl
    rw [Bool.not_eq_true] at hl
    simp only [hl, Bool.not_false, if_true]
    by_cases hf : ((bsdf.f i.wo s.wi).smul (Scalar.abs (s.wi.dot i.sn))).isBlack = true
    · simp only [hf, Bool.not_true, Bool.false_eq_true, if_false]
      have e := black_eq hf
      unfold lightFactor
      simp only [e]
      have e1 : (⟨0, 0, 0⟩ : Spectrum ℝ).sdiv s.pdf = ⟨0, 0, 0⟩ := by ext <;> exact zero_div _
      have e2 : ∀ k : ℝ, (⟨0, 0, 0⟩ : Spectrum ℝ).smul k = ⟨0, 0, 0⟩ := by intro k; ext <;> exact zero_mul _
      rw [e2, e1]
      simp only [ite_self, hz]
      rfl
    rw [Bool.not_eq_true] at hf
    simp only [hf, Bool.not_false, if_true]
    rw [run_bind]
    obtain ⟨b, hb⟩ := hb s.vis.ray
    simp only [Prog.run, hb, Draw.bind, Option.getD_some]
    cases b with
    | true =>
      simp only [Bool.not_true, Bool.false_eq_true, if_false, lightFactor, reduceCtorEq, and_false, hz]
      rfl
    | false =>
      simp only [Bool.not_false, if_true, lightFactor, hp, and_self]
      split
      · simp only [pure, Prog.run, Draw.ret.injEq]
        ext <;> (simp only [Spectrum.add, Spectrum.mul, Spectrum.zero, Spectrum.sdiv]; real_ops; ring)
      · simp only [pure, Prog.run, Draw.ret.injEq]
        ext <;> (simp only [Spectrum.add, Spectrum.mul, Spectrum.zero, Spectrum.sdiv, Spectrum.smul]; real_ops; ring)

omit [HasInf ℝ] [HasNext ℝ] in
theorem sum_mul (a : Spectrum ℝ) {x y z : Spectrum ℝ} (h : IsSum x y z) : IsSum (a.mul x) (a.mul y) (a.mul z) := by
  unfold IsSum at *
  rw [h]
  ext <;> exact mul_add _ _ _
omit [HasInf ℝ] [HasNext ℝ] in
theorem sum_smul (k : ℝ) {x y z : Spectrum ℝ} (h : IsSum x y z) : IsSum (x.smul k) (y.smul k) (z.smul k) := by
  unfold IsSum at *
  rw [h]
  ext <;> exact add_mul _ _ _
omit [HasInf ℝ] [HasNext ℝ] in
theorem sum_sdiv (k : ℝ) {x y z : Spectrum ℝ} (h : IsSum x y z) : IsSum (x.sdiv k) (y.sdiv k) (z.sdiv k) := by
  unfold IsSum at *
  rw [h]
  ext <;> exact add_div _ _ _
omit [HasInf ℝ] [HasNext ℝ] in
theorem sum_add {x y z x' y' z' : Spectrum ℝ} (h : IsSum x y z) (h' : IsSum x' y' z') : IsSum (x.add x') (y.add y') (z.add z') := by
  unfold IsSum at *
  rw [h, h']
  ext <;> exact add_add_add_comm _ _ _ _
omit [HasInf ℝ] [HasNext ℝ] in
theorem sum_zero : IsSum Spectrum.zero Spectrum.zero Spectrum.zero := by
  unfold IsSum
  ext <;> (simp only [Spectrum.zero, Spectrum.add]; real_ops; simp)

theorem sum_directFromLight (hs : ScenesAdd scene scene1 scene2) {l l1 l2 : LightObj ℝ} (hl : LightsAdd l l1 l2) (i : Interaction ℝ) (bsdf : BSDF ℝ) (u : V2 ℝ) :
    Runs3 scene scene1 scene2 IsSum (directFromLight l i bsdf u) (directFromLight l1 i bsdf u) (directFromLight l2 i bsdf u) := by
  unfold Runs3
  rw [directFromLight_eq scene (fun r => let ⟨b, h, _⟩ := hs.blocked r; ⟨b, h⟩), directFromLight_eq scene1 (fun r => let ⟨b, _, h, _⟩ := hs.blocked r; ⟨b, h⟩),
    directFromLight_eq scene2 (fun r => let ⟨b, _, _, h⟩ := hs.blocked r; ⟨b, h⟩)]
  have h := hl.samples i u
  revert h
  cases l.light.sampleLi i u <;> cases l1.light.sampleLi i u <;> cases l2.light.sampleLi i u <;> intro h <;> try exact h.elim
  · trivial
  · rename_i s s1 s2
    obtain ⟨⟨a1, a2, a3⟩, ⟨b1, b2, b3⟩, hli⟩ := h
    obtain ⟨b, e, e1, e2⟩ := hs.blocked s.vis.ray
    simp only [a1, a2, a3, b1, b2, b3, e, e1, e2, hl.delta.1, hl.delta.2]
    exact sum_mul _ hli

omit [HasInf ℝ] [HasNext ℝ] in
theorem sum_hit (hs : ScenesAdd scene scene1 scene2) (w : Why) (ray : Ray ℝ) :
    Runs3 scene scene1 scene2 HitsAdd (Prog.hit w ray .ret) (Prog.hit w ray .ret) (Prog.hit w ray .ret) := by
  unfold Runs3
  simp only [Prog.run]
  rcases hs.hits ray with ⟨e, e1, e2⟩ | ⟨h, h1, h2, e, e1, e2, hh⟩ <;> rw [e, e1, e2]
  · trivial
  · exact hh

theorem sum_directFromBsdf (hs : ScenesAdd scene scene1 scene2) {l l1 l2 : LightObj ℝ} (hl : LightsAdd l l1 l2) (i : Interaction ℝ) (bsdf : BSDF ℝ) (u : V2 ℝ)
    {ld ld1 ld2 : Spectrum ℝ} (hld : IsSum ld ld1 ld2) :
    Runs3 scene scene1 scene2 IsSum (directFromBsdf l i bsdf u ld) (directFromBsdf l1 i bsdf u ld1) (directFromBsdf l2 i bsdf u ld2) := by
  unfold directFromBsdf
  rw [hl.delta.1, hl.delta.2, hl.pdf.1, hl.pdf.2, hl.addr.1, hl.addr.2]
  split
  swap
  · exact hld
  refine Runs3.bind (Runs3.ofOption _) ?_
  rintro ⟨wi, f, p, flag⟩ _ _ ⟨rfl, rfl⟩
  dsimp only
  split
  swap
  · exact hld
  split
  · exact hld
  refine Runs3.bind (sum_hit hs .light (i.spawnRay wi)) ?_
  intro h h1 h2 hh
  cases h <;> cases h1 <;> cases h2 <;> try exact hh.elim
  · exact hld
  · rename_i h h1 h2
    have hh : HitAdds h h1 h2 := hh
    refine sum_add hld (sum_sdiv _ (sum_smul _ (sum_mul _ ?_)))
    rw [hh.addr.1, hh.addr.2]
    split
    · exact hh.le _
    · exact sum_zero

theorem sum_uniformSampleOneLight (hs : ScenesAdd scene scene1 scene2) (i : Interaction ℝ) (bsdf : BSDF ℝ) :
    Runs3 scene scene1 scene2 IsSum (uniformSampleOneLight scene.lights i bsdf) (uniformSampleOneLight scene1.lights i bsdf)
      (uniformSampleOneLight scene2.lights i bsdf) := by
  obtain ⟨L, hL, e, e1, e2⟩ := hs.lights
  unfold uniformSampleOneLight
  dsimp only
  rw [e, e1, e2]
  simp only [List.length_map]
  split
  · exact sum_zero
  refine Runs3.bind (Q := fun a b c => a = b ∧ a = c) (fun x => ⟨rfl, rfl⟩) ?_
  rintro u _ _ ⟨rfl, rfl⟩
  refine Runs3.bind (Q := LightsAdd) ?_ ?_
  · simp only [List.getElem?_map]
    cases hk : L[min (toUsize (ofInt (L.length : Int) *. u)) (L.length - 1)]? with
    | none => trivial
    | some x => exact hL x (List.mem_of_getElem? hk)
  intro l l1 l2 hl
  refine Runs3.bind (Q := IsSum) ?_ ?_
  · unfold estimateDirect
    refine Runs3.bind (Q := fun a b c => a = b ∧ a = c) (fun x => ⟨rfl, rfl⟩) ?_
    rintro u _ _ ⟨rfl, rfl⟩
    refine Runs3.bind (Q := fun a b c => a = b ∧ a = c) (fun x => ⟨rfl, rfl⟩) ?_
    rintro v _ _ ⟨rfl, rfl⟩
    refine Runs3.bind (sum_directFromLight hs hl i bsdf u) ?_
    intro ld ld1 ld2 hld
    exact sum_directFromBsdf hs hl i bsdf v hld
  · intro ld ld1 ld2 hld
    exact sum_smul _ hld

theorem sum_liLoop (hs : ScenesAdd scene scene1 scene2) (k : Nat) : ∀ (bounces : Nat) (ray : Ray ℝ) (l l1 l2 beta : Spectrum ℝ) (sb : Bool),
    MAX_BOUNCES + 1 - bounces = k → IsSum l l1 l2 →
    Runs3 scene scene1 scene2 IsSum (liLoop scene.lights bounces ray l beta sb) (liLoop scene1.lights bounces ray l1 beta sb)
      (liLoop scene2.lights bounces ray l2 beta sb) := by
  induction k using Nat.strong_induction_on with
  | _ k ih =>
    intro bounces ray l l1 l2 beta sb hk hl
    rw [liLoop, liLoop, liLoop]
    refine Runs3.bind (sum_hit hs .path ray) ?_
    intro h h1 h2 hh
    cases h <;> cases h1 <;> cases h2 <;> try exact hh.elim
    · simp only [ite_self]
      exact hl
    · rename_i h h1 h2
      have hh : HitAdds h h1 h2 := hh
      dsimp only
      have e : IsSum (if bounces = 0 ∨ sb = true then l.add (beta.mul (h.le ray.direction.neg)) else l)
          (if bounces = 0 ∨ sb = true then l1.add (beta.mul (h1.le ray.direction.neg)) else l1)
          (if bounces = 0 ∨ sb = true then l2.add (beta.mul (h2.le ray.direction.neg)) else l2) := by
        split
        · exact sum_add hl (sum_mul _ (hh.le _))
        · exact hl
      revert e
      generalize (if bounces = 0 ∨ sb = true then l.add (beta.mul (h.le ray.direction.neg)) else l) = k
      generalize (if bounces = 0 ∨ sb = true then l1.add (beta.mul (h1.le ray.direction.neg)) else l1) = k1
      generalize (if bounces = 0 ∨ sb = true then l2.add (beta.mul (h2.le ray.direction.neg)) else l2) = k2
      intro e
      rw [hh.i.1, hh.i.2]
      split
      · exact e
      refine Runs3.bind (Q := fun a b c => a = b ∧ a = c) ?_ ?_
      · change _ = _ ∧ _ = _
        rw [hh.i.1, hh.i.2, hh.material.1, hh.material.2]
        exact ⟨rfl, rfl⟩
      rintro bsdf _ _ ⟨rfl, rfl⟩
      refine Runs3.bind (sum_uniformSampleOneLight hs _ _) ?_
      intro ld ld1 ld2 hld
      have e' := sum_add e (sum_mul beta hld)
      refine Runs3.bind (Q := fun a b c => a = b ∧ a = c) (fun x => ⟨rfl, rfl⟩) ?_
      rintro u _ _ ⟨rfl, rfl⟩
      refine Runs3.bind (Runs3.ofOption _) ?_
      rintro ⟨wi, f, p, flag⟩ _ _ ⟨rfl, rfl⟩
      dsimp only
      split
      · exact e'
      split
      · refine Runs3.bind (Q := fun a b c => a = b ∧ a = c) (fun x => ⟨rfl, rfl⟩) ?_
        rintro v _ _ ⟨rfl, rfl⟩
        cases roulette (scatterWeight beta f wi h.i.sn p) v with
        | none => exact e'
        | some beta' => exact ih (MAX_BOUNCES + 1 - (bounces + 1)) (by omega) _ _ _ _ _ _ _ rfl e'
      · exact ih (MAX_BOUNCES + 1 - (bounces + 1)) (by omega) _ _ _ _ _ _ _ rfl e'

theorem sum_cameraRadiance (hs : ScenesAdd scene scene1 scene2) (camera : PerspectiveCamera ℝ) (pFilm : V2 ℝ) :
    (cameraRadiance scene camera pFilm).Rel3 IsSum (cameraRadiance scene1 camera pFilm) (cameraRadiance scene2 camera pFilm) :=
  sum_liLoop hs _ 0 (camera.generateRay pFilm) Spectrum.zero Spectrum.zero Spectrum.zero (Spectrum.of (lit 1)) false rfl sum_zero
end

/-! ### Scenes -/

section
variable [HasInf ℝ]

/-- The shapes among the pieces, with the address and the number of the colour packed into the address. -/
def thingsOf : List (Fixture × Nat) → List (Obj ℝ)
  | [] => []
  | (.thing a s, _) :: l => ⟨Nat.pair a 0, s⟩ :: thingsOf l
  | _ :: l => thingsOf l
/-- The shining shapes among the pieces. -/
def panelsOf : List (Fixture × Nat) → List (Nat × Shape ℝ × Nat)
  | [] => []
  | (.panel a s, k) :: l => (a, s, k) :: panelsOf l
  | _ :: l => panelsOf l
/-- The distant lights among the pieces. -/
def sunsOf : List (Fixture × Nat) → List (Fixture × Nat)
  | [] => []
  | (.sun a w, k) :: l => (.sun a w, k) :: sunsOf l
  | _ :: l => sunsOf l

/-- The object of the scene. -/
noncomputable def recolour (c : Nat → Spectrum ℝ) (o : Obj ℝ) : Obj ℝ :=
  ⟨o.addr.unpair.1, { o.shape with l := fun i w => match o.addr.unpair.2 with
    | 0 => Spectrum.zero
    | k + 1 => (AreaLight.mk (c k) o.shape).emitted i w }⟩

/-- The lamp of the scene. -/
noncomputable def lampOf (c : Nat → Spectrum ℝ) (box : BBox3 ℝ) : Fixture × Nat → LightObj ℝ
  | (.sun a w, k) => ⟨a, ((DistantLight.new (c k) w).preProcess box).toLight⟩
  | (.thing a s, k) => ⟨a, (AreaLight.mk (c k) s).toLight⟩
  | (.panel a s, k) => ⟨a, (AreaLight.mk (c k) s).toLight⟩

theorem furnished_fields (c : Nat → Spectrum ℝ) (L : List (Fixture × Nat)) (hd : ∀ a s k, (Fixture.thing a s, k) ∈ L → ∀ i w, s.l i w = Spectrum.zero) :
    addedShapes (L.map fun f => f.1.call (c f.2)) = (thingsOf L).map (recolour c) ∧
    addedAreas (L.map fun f => f.1.call (c f.2)) = (panelsOf L).map (fun x => (x.1, ⟨c x.2.2, x.2.1⟩)) ∧
    ∀ box, addedLights box (L.map fun f => f.1.call (c f.2)) = (sunsOf L).map (lampOf c box) := by
  induction L with
  | nil => exact ⟨rfl, rfl, fun _ => rfl⟩
  | cons f L ih =>
    obtain ⟨i1, i2, i3⟩ := ih fun a s k h => hd a s k (List.mem_cons_of_mem _ h)
    obtain ⟨f, k⟩ := f
    cases f with
    | sun a w =>
      refine ⟨i1, i2, fun box => ?_⟩
      exact congrArg (_ :: ·) (i3 box)
    | thing a s =>
      refine ⟨?_, i2, i3⟩
      refine congrArg₂ (· :: ·) ?_ i1
      unfold recolour
      simp only [Nat.unpair_pair]
      congr 1
      have : s.l = fun _ _ => Spectrum.zero := by funext i w; exact hd a s k (by simp) i w
      rw [← this]
    | panel a s =>
      refine ⟨i1, ?_, i3⟩
      exact congrArg (_ :: ·) i2

theorem furnished_scene (fs : List Fixture) (hd : ∀ a s, Fixture.thing a s ∈ fs → ∀ i w, s.l i w = Spectrum.zero)
    {mk : List (Obj ℝ) → Option (Container ℝ)} (hmk : LibraryContainer mk) (c0 : Nat → Spectrum ℝ) (hsome : ∃ sc, (built (furnished fs c0)).construct mk = some sc) :
    (∃ (M : List (Fixture × Nat)) (box : BBox3 ℝ) (base : Container ℝ), ∀ (c : Nat → Spectrum ℝ) (scene : Scene ℝ),
      (built (furnished fs c)).construct mk = some scene →
      scene.lights = M.map (lampOf c box) ∧ (∀ ray, scene.intersectP ray = base.intersectP ray) ∧
      ∀ ray, scene.intersect ray = (base.intersect ray).map (Option.map (Hit.via (recolour c)))) ∧
    ∀ c, ∃ scene, (built (furnished fs c)).construct mk = some scene := by
  have hf := fun c => furnished_fields c fs.zipIdx fun a s k h => hd a s (by
    have := List.fst_mem_of_mem_zipIdx h
    exact this)
  obtain ⟨box, hb, -, -⟩ := c65_construct (furnished fs c0) mk
  have hgeo : ∀ c, SameGeometry (recolour c) := fun c _ => ⟨rfl, rfl, rfl⟩
  have es : ∀ c, sceneShapes (furnished fs c) = (thingsOf fs.zipIdx ++ (panelsOf fs.zipIdx).map fun x => (⟨Nat.pair x.1 (x.2.2 + 1), x.2.1⟩ : Obj ℝ)).map (recolour c) := by
    intro c
    obtain ⟨f1, f2, -⟩ := hf c
    unfold furnished sceneShapes
    rw [f1, f2, List.map_append]
    congr 1
    simp only [asShapes, List.map_map]
    apply List.map_congr_left
    intro x _
    simp only [Function.comp, recolour, Nat.unpair_pair]
    rfl
  obtain ⟨sc, hsc⟩ := hsome
  have hbase : ∃ base, mk (thingsOf fs.zipIdx ++ (panelsOf fs.zipIdx).map fun x => (⟨Nat.pair x.1 (x.2.2 + 1), x.2.1⟩ : Obj ℝ)) = some base := by
    obtain ⟨_, -, h1, -⟩ := c65_construct (furnished fs c0) mk
    obtain ⟨-, hc⟩ := h1 sc hsc
    obtain ⟨g1, -⟩ := geo_container (hgeo c0) hmk (thingsOf fs.zipIdx ++ (panelsOf fs.zipIdx).map fun x => (⟨Nat.pair x.1 (x.2.2 + 1), x.2.1⟩ : Obj ℝ))
    rw [← es, hc] at g1
    exact Option.isSome_iff_exists.1 g1.symm
  obtain ⟨base, hbase⟩ := hbase
  refine ⟨⟨sunsOf fs.zipIdx ++ (panelsOf fs.zipIdx).map (fun x => (.panel x.1 x.2.1, x.2.2)), box, base, fun c scene hc => ?_⟩, fun c => ?_⟩
  swap
  · cases hn : (built (furnished fs c)).construct mk with
    | some scene => exact ⟨scene, rfl⟩
    | none =>
      obtain ⟨_, -, -, h1⟩ := c65_construct (furnished fs c) mk
      obtain ⟨g1, -⟩ := geo_container (hgeo c) hmk (thingsOf fs.zipIdx ++ (panelsOf fs.zipIdx).map fun x => (⟨Nat.pair x.1 (x.2.2 + 1), x.2.1⟩ : Obj ℝ))
      rw [← es, h1.1 hn, hbase] at g1
      cases g1
  obtain ⟨box', hb', h1, -⟩ := c65_construct (furnished fs c) mk
  obtain ⟨hl, hcc⟩ := h1 scene hc
  obtain ⟨f1, f2, f3⟩ := hf c
  obtain ⟨k1, k2, k3⟩ := hf c0
  have ebox : box' = box := by
    obtain ⟨-, b2, b3⟩ := built_fields (furnished fs c) box
    obtain ⟨-, c2, c3⟩ := built_fields (furnished fs c0) box
    unfold Builder.sceneBBox at hb hb'
    unfold furnished at *
    rw [b2, b3, f1, f2] at hb'
    rw [c2, c3, k1, k2] at hb
    simp only [List.foldl_map, List.isEmpty_map, geo_bboxOfShapes (hgeo _)] at hb hb'
    have := hb'.symm.trans hb
    simpa using this
  subst ebox
  obtain ⟨-, g2⟩ := geo_container (hgeo c) hmk (thingsOf fs.zipIdx ++ (panelsOf fs.zipIdx).map fun x => (⟨Nat.pair x.1 (x.2.2 + 1), x.2.1⟩ : Obj ℝ))
  have g := g2 base scene.shapes hbase (by rw [← es]; exact hcc)
  refine ⟨?_, fun ray => (g ray).1, fun ray => (g ray).2⟩
  unfold furnished at hl
  rw [hl, f3, f2, List.map_append]
  congr 1
  simp only [asLights, List.map_map]
  rfl

theorem sum_emitted {e e1 e2 : Spectrum ℝ} (h : IsSum e e1 e2) (s : Shape ℝ) (i : Interaction ℝ) (w : V3 ℝ) :
    IsSum ((AreaLight.mk e s).emitted i w) ((AreaLight.mk e1 s).emitted i w) ((AreaLight.mk e2 s).emitted i w) := by
  unfold AreaLight.emitted
  split
  · exact h
  · exact sum_zero

theorem sum_lamp {c c1 c2 : Nat → Spectrum ℝ} (hc : ∀ k, IsSum (c k) (c1 k) (c2 k)) (box : BBox3 ℝ) (x : Fixture × Nat) :
    LightsAdd (lampOf c box x) (lampOf c1 box x) (lampOf c2 box x) := by
  have hA : ∀ a (s : Shape ℝ) k, LightsAdd ⟨a, (AreaLight.mk (c k) s).toLight⟩ ⟨a, (AreaLight.mk (c1 k) s).toLight⟩ ⟨a, (AreaLight.mk (c2 k) s).toLight⟩ := by
    intro a s k
    refine ⟨⟨rfl, rfl⟩, ⟨rfl, rfl⟩, ⟨rfl, rfl⟩, fun i u => ?_⟩
    simp only [AreaLight.toLight, AreaLight.sampleLi]
    cases s.sampleRef i u with
    | none => trivial
    | some p => exact ⟨⟨rfl, rfl, rfl⟩, ⟨rfl, rfl, rfl⟩, sum_emitted (hc k) s _ _⟩
  obtain ⟨f, k⟩ := x
  cases f with
  | sun a w => exact ⟨⟨rfl, rfl⟩, ⟨rfl, rfl⟩, ⟨rfl, rfl⟩, fun i u => ⟨⟨rfl, rfl, rfl⟩, ⟨rfl, rfl, rfl⟩, hc k⟩⟩
  | thing a s => exact hA a s k
  | panel a s => exact hA a s k

theorem mem_furnished {fs : List Fixture} {c : Nat → Spectrum ℝ} {x : BuilderCall ℝ} (h : x ∈ furnished fs c) : ∃ k, ∃ f ∈ fs, Fixture.call (c k) f = x := by
  unfold furnished at h
  obtain ⟨⟨f, k⟩, h', rfl⟩ := List.mem_map.1 h
  have hm := List.fst_mem_of_mem_zipIdx h'
  exact ⟨k, f, hm, rfl⟩

theorem library_dark {fs : List Fixture} (hlib : ∀ f ∈ fs, LibraryFixture f) : ∀ a s, Fixture.thing a s ∈ fs → ∀ i w, s.l i w = Spectrum.zero := by
  intro a s hm i w
  cases hlib _ hm <;> rfl

theorem library_calls {fs : List Fixture} (hlib : ∀ f ∈ fs, LibraryFixture f) (c : Nat → Spectrum ℝ) : ∀ x ∈ furnished fs c, LibraryCall x := by
  intro x hx
  obtain ⟨k, f, hf, rfl⟩ := mem_furnished hx
  cases hlib f hf with
  | sun a w => exact .distant _ _ _
  | sphere a s h => exact .sphere _ _ h
  | triangle a t h => exact .triangle _ _ h
  | panel a t h => exact .area _ _ _ h

theorem triangle_library {f : Fixture} (h : TriangleFixture f) : LibraryFixture f := by
  cases h with
  | sun a w => exact .sun _ _
  | triangle a t h => exact .triangle _ _ h
  | panel a t h => exact .panel _ _ h

theorem triangle_calls {fs : List Fixture} (hlib : ∀ f ∈ fs, TriangleFixture f) {c : Nat → Spectrum ℝ} (hc : ∀ k, NonNeg (c k)) :
    ∀ x ∈ furnished fs c, TriangleCall x := by
  intro x hx
  obtain ⟨k, f, hf, rfl⟩ := mem_furnished hx
  cases hlib f hf with
  | sun a w h => exact .distant _ _ _ (hc k) h
  | triangle a t h h' => exact .triangle _ _ h h'
  | panel a t h h' => exact .area _ _ _ (hc k) h h'

theorem sum_scene (fs : List Fixture) {c c1 c2 : Nat → Spectrum ℝ} (hc : ∀ k, IsSum (c k) (c1 k) (c2 k))
    (hlib : ∀ f ∈ fs, LibraryFixture f)
    {mk : List (Obj ℝ) → Option (Container ℝ)} (hmk : LibraryContainer mk) {scene scene1 scene2 : Scene ℝ} (h : (built (furnished fs c)).construct mk = some scene)
    (h1 : (built (furnished fs c1)).construct mk = some scene1) (h2 : (built (furnished fs c2)).construct mk = some scene2) :
    ScenesAdd scene scene1 scene2 := by
  have hd := library_dark hlib
  obtain ⟨⟨M, box, base, hM⟩, -⟩ := furnished_scene fs hd hmk c ⟨scene, h⟩
  obtain ⟨a1, a2, a3⟩ := hM c scene h
  obtain ⟨b1, b2, b3⟩ := hM c1 scene1 h1
  obtain ⟨d1, d2, d3⟩ := hM c2 scene2 h2
  have hbl : ∀ ray, ∃ b, scene.intersectP ray = some b := by
    intro ray
    have hans := library_shapes_answer (Bad := fun _ => False) (fun d _ h => by obtain ⟨m, hm, -⟩ := maxAbsAxis_real d; rw [hm] at h; cases h) _ (library_calls hlib c)
    obtain ⟨_, -, hh, -⟩ := c65_construct (furnished fs c) mk
    obtain ⟨-, hcc⟩ := hh scene h
    exact Option.ne_none_iff_exists'.1 (container_answers hmk hcc ray fun s hs r _ => hans s hs r id).2
  refine ⟨⟨M.map fun x => (lampOf c box x, lampOf c1 box x, lampOf c2 box x), ?_, ?_, ?_, ?_⟩, ?_, ?_⟩
  · intro x hx
    obtain ⟨y, -, rfl⟩ := List.mem_map.1 hx
    exact sum_lamp hc box y
  · rw [a1, List.map_map]; rfl
  · rw [b1, List.map_map]; rfl
  · rw [d1, List.map_map]; rfl
  · intro ray
    obtain ⟨b, hb⟩ := hbl ray
    exact ⟨b, hb, by rw [b2, ← a2, hb], by rw [d2, ← a2, hb]⟩
  · intro ray
    rw [a3, b3, d3]
    cases base.intersect ray with
    | none => exact Or.inl ⟨rfl, rfl, rfl⟩
    | some o =>
      refine Or.inr ⟨_, _, _, rfl, rfl, rfl, ?_⟩
      cases o with
      | none => trivial
      | some hit =>
        refine ⟨⟨rfl, rfl⟩, ⟨rfl, rfl⟩, ⟨rfl, rfl⟩, fun w => ?_⟩
        unfold Hit.le Hit.via recolour
        dsimp only
        split
        · exact sum_zero
        · exact sum_emitted (hc _) _ _ _
end

/-! ### Films -/

section
/-- Optional values that are all missing or all there and related. -/
def OptRel3 {β : Type} (R : β → β → β → Prop) : Option β → Option β → Option β → Prop
  | none, none, none => True
  | some b, some c, some d => R b c d
  | _, _, _ => False

theorem OptRel3.bind {β γ : Type} {R : β → β → β → Prop} {Q : γ → γ → γ → Prop} {f f1 f2 : β → Option γ} (hf : ∀ b c d, R b c d → OptRel3 Q (f b) (f1 c) (f2 d)) :
    ∀ {o o1 o2 : Option β}, OptRel3 R o o1 o2 → OptRel3 Q (o.bind f) (o1.bind f1) (o2.bind f2) := by
  intro o o1 o2 h
  cases o <;> cases o1 <;> cases o2 <;> first | exact h.elim | trivial | exact hf _ _ _ h

theorem foldlM_rel3 {β γ : Type} {R : β → β → β → Prop} {f f1 f2 : β → γ → Option β}
    (h : ∀ b c d x, R b c d → OptRel3 R (f b x) (f1 c x) (f2 d x)) (l : List γ) :
    ∀ b c d, R b c d → OptRel3 R (l.foldlM f b) (l.foldlM f1 c) (l.foldlM f2 d) := by
  induction l with
  | nil => exact fun b c d hb => hb
  | cons x l ih =>
    intro b c d hb
    simp only [List.foldlM_cons]
    exact OptRel3.bind ih (h b c d x hb)

/-- The colours add up, the weights are the same. -/
def PixelAdds (p p1 p2 : Pixel ℝ) : Prop := IsSum p.color p1.color p2.color ∧ p1.weight = p.weight ∧ p2.weight = p.weight
/-- The same for all pixels. -/
def PixelsAdd (px px1 px2 : List (Pixel ℝ)) : Prop :=
  px1.length = px.length ∧ px2.length = px.length ∧ ∀ j : Nat, PixelAdds (px[j]?.getD Pixel.zero) (px1[j]?.getD Pixel.zero) (px2[j]?.getD Pixel.zero)
/-- The same for tiles. -/
def TilesAdd (t t1 t2 : FilmTile ℝ) : Prop := t1 = { t with pixels := t1.pixels } ∧ t2 = { t with pixels := t2.pixels } ∧ PixelsAdd t.pixels t1.pixels t2.pixels

theorem sum_modifyAt {px px1 px2 : List (Pixel ℝ)} (h : PixelsAdd px px1 px2) (j : Nat) {f f1 f2 : Pixel ℝ → Pixel ℝ}
    (hf : ∀ p p1 p2, PixelAdds p p1 p2 → PixelAdds (f p) (f1 p1) (f2 p2)) :
    OptRel3 PixelsAdd (modifyAt px j f) (modifyAt px1 j f1) (modifyAt px2 j f2) := by
  obtain ⟨h1, h2, h3⟩ := h
  unfold modifyAt
  rw [h1, h2]
  split
  · refine ⟨by simp [h1], by simp [h2], fun i => ?_⟩
    have hi := h3 i
    simp only [List.getElem?_modify]
    by_cases hij : j = i
    · subst hij
      have a0 : px[j]? = some px[j] := List.getElem?_eq_getElem (by assumption)
      have a1 : px1[j]? = some px1[j] := List.getElem?_eq_getElem (by omega)
      have a2 : px2[j]? = some px2[j] := List.getElem?_eq_getElem (by omega)
      rw [a0, a1, a2] at hi ⊢
      simpa using hf _ _ _ hi
    · simpa [hij] using hi
  · trivial

theorem sum_addLoops (mn mx : V2 Int) (i0 i1 : List Nat) (table : List (List ℝ)) (off : Int → Int → Nat) {l l1 l2 : Spectrum ℝ} (hl : IsSum l l1 l2)
    {px px1 px2 : List (Pixel ℝ)} (h : PixelsAdd px px1 px2) :
    OptRel3 PixelsAdd (addLoops mn mx i0 i1 table off l px) (addLoops mn mx i0 i1 table off l1 px1) (addLoops mn mx i0 i1 table off l2 px2) := by
  unfold addLoops
  refine foldlM_rel3 (fun px px1 px2 y h => ?_) _ _ _ _ h
  refine foldlM_rel3 (fun px px1 px2 x h => ?_) _ _ _ _ h
  simp only [bind]
  cases i1[asUsize (y - mn.y)]? with
  | none => trivial
  | some j1 =>
    cases i0[asUsize (x - mn.x)]? with
    | none => trivial
    | some j0 =>
      simp only [Option.bind_some]
      cases table[j1]? with
      | none => trivial
      | some row =>
        simp only [Option.bind_some]
        cases row[j0]? with
        | none => trivial
        | some w =>
          simp only [Option.bind_some]
          refine sum_modifyAt h _ fun p p1 p2 hp => ⟨?_, ?_, ?_⟩
          · exact sum_add hp.1 (sum_smul _ hl)
          · simp only [Pixel.addSample, hp.2.1]
          · simp only [Pixel.addSample, hp.2.2]

theorem sum_addSample {t t1 t2 : FilmTile ℝ} (h : TilesAdd t t1 t2) (pf : V2 ℝ) {l l1 l2 : Spectrum ℝ} (hl : IsSum l l1 l2) :
    OptRel3 TilesAdd (t.addSample pf l) (t1.addSample pf l1) (t2.addSample pf l2) := by
  obtain ⟨mn, mx, i0, i1, e⟩ := addSample_loops t pf
  have e0 := e l t.pixels
  change t.addSample pf l = _ at e0
  rw [h.1, h.2.1, e0, e l1, e l2]
  refine OptRel3.bind (fun b c d hb => ?_) (sum_addLoops mn mx i0 i1 _ _ hl h.2.2)
  exact ⟨rfl, rfl, hb⟩

theorem draw_run_bind {σ β γ : Type} (ops : SamplerOps ℝ σ) (d : Draw ℝ β) (f : β → Draw ℝ γ) : ∀ s,
    (d.bind f).run ops s = (d.run ops s).bind fun x => (f x.1).run ops x.2 := by
  induction d with
  | ret b => intro s; rfl
  | panic => intro s; rfl
  | get1 k ih =>
    intro s
    simp only [Draw.bind, Draw.run]
    cases ops.get1d s with
    | none => rfl
    | some x => exact ih x.1 x.2
  | get2 k ih =>
    intro s
    simp only [Draw.bind, Draw.run]
    cases ops.get2d s with
    | none => rfl
    | some x => exact ih x.1 x.2

theorem nonneg_valid {l : Spectrum ℝ} (h : NonNeg l) : validRadiance l = true := by
  obtain ⟨h1, h2, h3⟩ := h
  unfold validRadiance Spectrum.any
  real_ops
  simp [not_lt.2 h1, not_lt.2 h2, not_lt.2 h3]

variable {σ : Type} {radiance radiance1 radiance2 : V2 ℝ → Draw ℝ (Spectrum ℝ)}

theorem sum_pixelLoop (hr : ∀ p, (radiance p).Rel3 IsSum (radiance1 p) (radiance2 p)) (ops : SamplerOps ℝ σ)
    (hn1 : ∀ p s l s', (radiance1 p).run ops s = some (l, s') → NonNeg l) (hn2 : ∀ p s l s', (radiance2 p).run ops s = some (l, s') → NonNeg l) (pixel : V2 Int) :
    ∀ (fuel : Nat) (t t1 t2 : FilmTile ℝ) (s : σ), TilesAdd t t1 t2 →
      OptRel3 (fun a b c => TilesAdd a.1 b.1 c.1 ∧ b.2 = a.2 ∧ c.2 = a.2)
        (pixelLoop ops radiance pixel fuel t s) (pixelLoop ops radiance1 pixel fuel t1 s) (pixelLoop ops radiance2 pixel fuel t2 s) := by
  intro fuel
  induction fuel with
  | zero => intros; trivial
  | succ fuel ih =>
    intro t t1 t2 s ht
    have hrun : ∀ rad : V2 ℝ → Draw ℝ (Spectrum ℝ), (oneSample rad pixel).run ops s = (ops.get2d s).bind fun x =>
        ((rad ((V2.ofI pixel).add x.1)).run ops x.2).map fun y => (((V2.ofI pixel).add x.1, y.1), y.2) := by
      intro rad
      simp only [oneSample, getCameraSample, Draw.bind, Draw.run]
      cases ops.get2d s with
      | none => rfl
      | some x =>
        simp only [Option.bind_some]
        rw [draw_run_bind]
        cases (rad ((V2.ofI pixel).add x.1)).run ops x.2 <;> rfl
    simp only [pixelLoop, bind]
    rw [hrun, hrun, hrun]
    cases ops.get2d s with
    | none => trivial
    | some x =>
      simp only [Option.bind_some]
      rcases (hr ((V2.ofI pixel).add x.1)).run ops x.2 with ⟨e, e1, e2⟩ | ⟨l, l1, l2, s', e, e1, e2, hl⟩
      · rw [e, e1, e2]; trivial
      · have v1 := hn1 _ _ _ _ e1
        have v2 := hn2 _ _ _ _ e2
        have v : NonNeg l := by
          rw [show l = l1.add l2 from hl]
          exact ⟨add_nonneg v1.1 v2.1, add_nonneg v1.2.1 v2.2.1, add_nonneg v1.2.2 v2.2.2⟩
        rw [e, e1, e2]
        simp only [Option.map_some, Option.bind_some, addIfValid, nonneg_valid v, nonneg_valid v1, nonneg_valid v2, if_true]
        refine OptRel3.bind (fun a b c h => ?_) (sum_addSample ht _ hl)
        split
        · exact ih _ _ _ _ h
        · exact ⟨h, rfl, rfl⟩

theorem tilesAdd_new (film : Film ℝ) (b : BBox2i) : TilesAdd (film.getFilmTile b) (film.getFilmTile b) (film.getFilmTile b) := by
  refine ⟨rfl, rfl, rfl, rfl, fun j => ?_⟩
  have : (film.getFilmTile b).pixels[j]?.getD Pixel.zero = Pixel.zero := by
    simp only [Film.getFilmTile, FilmTile.new, List.getElem?_replicate]
    split <;> rfl
  rw [this]
  exact ⟨sum_zero, rfl, rfl⟩

theorem renderTile_fuel (ops : SamplerOps ℝ σ) (film : Film ℝ) (s : σ) (b : BBox2i) : ∃ fuel, ∀ rad : V2 ℝ → Draw ℝ (Spectrum ℝ),
    renderTile ops rad film s b = b.iter.toList.foldlM (fun (acc : FilmTile ℝ × σ) pixel =>
      pixelLoop ops rad pixel fuel acc.1 (ops.startPixel acc.2 pixel)) (film.getFilmTile b, s) := ⟨_, fun _ => rfl⟩

theorem sum_renderTile (hr : ∀ p, (radiance p).Rel3 IsSum (radiance1 p) (radiance2 p)) (ops : SamplerOps ℝ σ)
    (hn1 : ∀ p s l s', (radiance1 p).run ops s = some (l, s') → NonNeg l) (hn2 : ∀ p s l s', (radiance2 p).run ops s = some (l, s') → NonNeg l)
    (film : Film ℝ) (s : σ) (b : BBox2i) :
    OptRel3 (fun a b c => TilesAdd a.1 b.1 c.1 ∧ b.2 = a.2 ∧ c.2 = a.2)
      (renderTile ops radiance film s b) (renderTile ops radiance1 film s b) (renderTile ops radiance2 film s b) := by
  obtain ⟨fuel, e⟩ := renderTile_fuel ops film s b
  rw [e, e, e]
  refine foldlM_rel3 (fun a b c pixel h => ?_) _ _ _ _ ⟨tilesAdd_new film b, rfl, rfl⟩
  rw [h.2.1, h.2.2]
  exact sum_pixelLoop hr ops hn1 hn2 pixel _ _ _ _ _ h.1

theorem tilesAdd_getD {t t1 t2 : FilmTile ℝ} (ht : TilesAdd t t1 t2) {o o1 o2 : Option (FilmTile ℝ × σ)}
    (h : OptRel3 (fun a b c => TilesAdd a.1 b.1 c.1 ∧ b.2 = a.2 ∧ c.2 = a.2) o o1 o2) :
    TilesAdd ((o.map Prod.fst).getD t) ((o1.map Prod.fst).getD t1) ((o2.map Prod.fst).getD t2) := by
  cases o <;> cases o1 <;> cases o2 <;> first | exact h.elim | exact ht | exact h.1

theorem tilesAdd_px {t t1 t2 : FilmTile ℝ} (key : TilesAdd t t1 t2) (x y : Int) :
    (InTile t1 x y ↔ InTile t x y) ∧ (InTile t2 x y ↔ InTile t x y) ∧ PixelAdds (t.px x y) (t1.px x y) (t2.px x y) := by
  obtain ⟨e1, e2, -, -, h⟩ := key
  have b1 : t1.bbox = t.bbox := by rw [e1]
  have b2 : t2.bbox = t.bbox := by rw [e2]
  refine ⟨by unfold InTile; rw [b1], by unfold InTile; rw [b2], ?_⟩
  have o1 : t1.pixelOffset = t.pixelOffset := by rw [e1]; rfl
  have o2 : t2.pixelOffset = t.pixelOffset := by rw [e2]; rfl
  unfold FilmTile.px
  rw [o1, o2]
  exact h _

theorem sum_haltonTile (hr : ∀ p, (radiance p).Rel3 IsSum (radiance1 p) (radiance2 p))
    (hn1 : ∀ p s l s', (radiance1 p).run HaltonSampler.ops s = some (l, s') → NonNeg l)
    (hn2 : ∀ p s l s', (radiance2 p).run HaltonSampler.ops s = some (l, s') → NonNeg l)
    (res : V2 Int) (filt : Filter ℝ) (spp : Nat) (b : BBox2i) (x y : Int) :
    (InTile (haltonTile res filt radiance1 spp b) x y ↔ InTile (haltonTile res filt radiance spp b) x y) ∧
    (InTile (haltonTile res filt radiance2 spp b) x y ↔ InTile (haltonTile res filt radiance spp b) x y) ∧
    PixelAdds ((haltonTile res filt radiance spp b).px x y) ((haltonTile res filt radiance1 spp b).px x y) ((haltonTile res filt radiance2 spp b).px x y) := by
  unfold haltonTile
  exact tilesAdd_px (tilesAdd_getD (tilesAdd_new _ _) (sum_renderTile hr HaltonSampler.ops hn1 hn2 (Film.new res filt) (HaltonSampler.new spp (Film.new res filt).sampleBBox) b)) x y
end

/-! ### C101 -/

namespace Spec
/-- Only the `k`-th piece has its colour, the others are black. -/
noncomputable def only (colour : Nat → Spectrum ℝ) (k : Nat) : Nat → Spectrum ℝ := fun j => if j = k then colour j else ⟨0, 0, 0⟩
end Spec

section
variable [HasInf ℝ] [HasNext ℝ]

/-- C101, camera samples: if every lamp has the sum of two colours, then so has every camera sample, whatever the sampler; the three renderings use the
sampler in the same way, and either all of them panic or none. -/
theorem c101_radiance (fs : List Fixture) (hlib : ∀ f ∈ fs, LibraryFixture f) (c1 c2 : Nat → Spectrum ℝ)
    {mk : List (Obj ℝ) → Option (Container ℝ)} (hmk : LibraryContainer mk) {scene scene1 scene2 : Scene ℝ}
    (h : (built (furnished fs fun k => (c1 k).add (c2 k))).construct mk = some scene)
    (h1 : (built (furnished fs c1)).construct mk = some scene1) (h2 : (built (furnished fs c2)).construct mk = some scene2)
    (camera : PerspectiveCamera ℝ) (pFilm : V2 ℝ) {σ : Type} (ops : SamplerOps ℝ σ) (s : σ) :
    ((cameraRadiance scene camera pFilm).run ops s = none ∧ (cameraRadiance scene1 camera pFilm).run ops s = none ∧
      (cameraRadiance scene2 camera pFilm).run ops s = none) ∨
    ∃ l1 l2 s', (cameraRadiance scene1 camera pFilm).run ops s = some (l1, s') ∧ (cameraRadiance scene2 camera pFilm).run ops s = some (l2, s') ∧
      (cameraRadiance scene camera pFilm).run ops s = some (l1.add l2, s') := by
  have hs := sum_scene fs (c := fun k => (c1 k).add (c2 k)) (fun k => rfl) hlib hmk h h1 h2
  rcases (sum_cameraRadiance hs camera pFilm).run ops s with e | ⟨l, l1, l2, s', e, e1, e2, hl⟩
  · exact Or.inl e
  · exact Or.inr ⟨l1, l2, s', e1, e2, by rw [e, show l = l1.add l2 from hl]⟩

omit [HasInf ℝ] [HasNext ℝ] in
/-- The Halton sampler delivers numbers in `[0, 1)`. -/
theorem halton_delivers : Delivers Canonical (HaltonSampler.ops : SamplerOps ℝ HaltonSampler) := by
  have hdim : ∀ (s : HaltonSampler) i d (x : ℝ), s.sampleDimension i d = some x → Canonical x := by
    intro s i d x h
    have hp : ∀ k a, (radicalInversePrime k a : Option ℝ) = some x → Canonical x := by
      intro k a h
      unfold radicalInversePrime at h
      obtain ⟨b, -, rfl⟩ := Option.map_eq_some_iff.1 h
      exact radicalInverse_real_unit b a
    unfold HaltonSampler.sampleDimension at h
    split at h <;> exact hp _ _ h
  constructor
  · intro s x s' h
    simp only [HaltonSampler.ops, bind, Option.bind_eq_some_iff, pure, Option.some.injEq, Prod.mk.injEq] at h
    obtain ⟨y, h1, rfl, -⟩ := h
    exact hdim _ _ _ _ h1
  · intro s x s' h
    simp only [HaltonSampler.ops, bind, Option.bind_eq_some_iff, pure, Option.some.injEq, Prod.mk.injEq] at h
    obtain ⟨y, h1, z, h2, rfl, -⟩ := h
    exact ⟨hdim _ _ _ _ h1, hdim _ _ _ _ h2⟩

/-- C101, image: the colour of every pixel is the sum of its colours in the two images, and the weight is the same, when the renders are complete,
whatever the numbers of threads and the schedules. -/
theorem c101_image (hinf : (0 : ℝ) ≤ HasInf.infinity) (fs : List Fixture) (hlib : ∀ f ∈ fs, TriangleFixture f) (c1 c2 : Nat → Spectrum ℝ)
    (hc1 : ∀ k, NonNeg (c1 k)) (hc2 : ∀ k, NonNeg (c2 k))
    {mk : List (Obj ℝ) → Option (Container ℝ)} (hmk : LibraryContainer mk) {scene scene1 scene2 : Scene ℝ}
    (h : (built (furnished fs fun k => (c1 k).add (c2 k))).construct mk = some scene)
    (h1 : (built (furnished fs c1)).construct mk = some scene1) (h2 : (built (furnished fs c2)).construct mk = some scene2)
    (camera : PerspectiveCamera ℝ) (hcam : ∀ p, UnitVec (camera.generateRay p).direction) (res : V2 Int) (filt : Filter ℝ) (hR : FilmRange res filt.radius)
    (spp n n1 n2 : Nat) (hn : 1 ≤ n) (hn1 : 1 ≤ n1) (hn2 : 1 ≤ n2) (file file1 file2 : Option (List UInt8)) (k k1 k2 : Nat)
    (st st1 st2 : RState ℝ HaltonSampler) :
    let film := Film.new res filt
    let sampler := HaltonSampler.new spp film.sampleBBox
    RReach (fun s b => renderTile HaltonSampler.ops (cameraRadiance scene camera) film s b) sampler (RState.init film n file) k st → st.main = .done →
    RReach (fun s b => renderTile HaltonSampler.ops (cameraRadiance scene1 camera) film s b) sampler (RState.init film n1 file1) k1 st1 → st1.main = .done →
    RReach (fun s b => renderTile HaltonSampler.ops (cameraRadiance scene2 camera) film s b) sampler (RState.init film n2 file2) k2 st2 → st2.main = .done →
    ∀ x y, Spec.InImage res x y →
      (st.sh.film.px x y).color = (st1.sh.film.px x y).color.add (st2.sh.film.px x y).color ∧
      (st1.sh.film.px x y).weight = (st.sh.film.px x y).weight ∧ (st2.sh.film.px x y).weight = (st.sh.film.px x y).weight := by
  intro film sampler hr hd hr1 hd1 hr2 hd2 x y hi
  have hs := sum_scene fs (c := fun k => (c1 k).add (c2 k)) (fun k => rfl) (fun f hf => triangle_library (hlib f hf)) hmk h h1 h2
  have hdel := halton_delivers
  have v1 := fun p s l s' => c67_triangle_world hinf _ (triangle_calls hlib hc1) hmk h1 camera p (hcam p) HaltonSampler.ops hdel s s' l
  have v2 := fun p s l s' => c67_triangle_world hinf _ (triangle_calls hlib hc2) hmk h2 camera p (hcam p) HaltonSampler.ops hdel s s' l
  have hT := sum_haltonTile (sum_cameraRadiance hs camera) v1 v2 res filt spp
  have h0 : film.px x y = Pixel.zero := by
    unfold Film.px film Film.new
    simp only [List.getElem?_replicate]
    split <;> rfl
  have key : ∀ comp : Pixel ℝ → ℝ, (∀ p q : Pixel ℝ, comp (p.merge q) = comp p + comp q) → comp Pixel.zero = 0 →
      comp (st.sh.film.px x y) = ((Film.new res filt).iter.toList.map fun b =>
        open Classical in if InTile (haltonTile res filt (cameraRadiance scene camera) spp b) x y then
          comp ((haltonTile res filt (cameraRadiance scene camera) spp b).px x y) else 0).sum ∧
      comp (st1.sh.film.px x y) = ((Film.new res filt).iter.toList.map fun b =>
        open Classical in if InTile (haltonTile res filt (cameraRadiance scene camera) spp b) x y then
          comp ((haltonTile res filt (cameraRadiance scene1 camera) spp b).px x y) else 0).sum ∧
      comp (st2.sh.film.px x y) = ((Film.new res filt).iter.toList.map fun b =>
        open Classical in if InTile (haltonTile res filt (cameraRadiance scene camera) spp b) x y then
          comp ((haltonTile res filt (cameraRadiance scene2 camera) spp b).px x y) else 0).sum := by
    intro comp hcomp hz
    rw [halton_pixel res filt hR _ spp n hn file k st hr hd comp hcomp x y hi,
      halton_pixel res filt hR _ spp n1 hn1 file1 k1 st1 hr1 hd1 comp hcomp x y hi,
      halton_pixel res filt hR _ spp n2 hn2 file2 k2 st2 hr2 hd2 comp hcomp x y hi, h0, hz, zero_add, zero_add, zero_add]
    refine ⟨rfl, ?_, ?_⟩
    · congr 1
      apply List.map_congr_left
      intro b _
      by_cases hin : InTile (haltonTile res filt (cameraRadiance scene camera) spp b) x y
      · rw [if_pos hin, if_pos ((hT b x y).1.2 hin)]
      · rw [if_neg hin, if_neg fun hh => hin ((hT b x y).1.1 hh)]
    · congr 1
      apply List.map_congr_left
      intro b _
      by_cases hin : InTile (haltonTile res filt (cameraRadiance scene camera) spp b) x y
      · rw [if_pos hin, if_pos ((hT b x y).2.1.2 hin)]
      · rw [if_neg hin, if_neg fun hh => hin ((hT b x y).2.1.1 hh)]
  have hz : (Spectrum.zero : Spectrum ℝ).r = 0 ∧ (Spectrum.zero : Spectrum ℝ).g = 0 ∧ (Spectrum.zero : Spectrum ℝ).b = 0 := by
    simp [Spectrum.zero, r_lit]
  have hcol : ∀ comp : Pixel ℝ → ℝ, (∀ p q : Pixel ℝ, comp (p.merge q) = comp p + comp q) → comp Pixel.zero = 0 →
      (∀ p p1 p2, PixelAdds p p1 p2 → comp p = comp p1 + comp p2) → comp (st.sh.film.px x y) = comp (st1.sh.film.px x y) + comp (st2.sh.film.px x y) := by
    intro comp hcomp hz hadd
    obtain ⟨e, e1, e2⟩ := key comp hcomp hz
    rw [e, e1, e2, ← List.sum_map_add]
    congr 1
    apply List.map_congr_left
    intro b _
    split
    · exact hadd _ _ _ (hT b x y).2.2
    · rw [add_zero]
  have hw := key (fun p => p.weight) (fun p q => rfl) (by simp [Pixel.zero, r_lit])
  refine ⟨?_, ?_, ?_⟩
  · ext
    · exact hcol (fun p => p.color.r) (fun p q => rfl) hz.1 fun p p1 p2 hp => congrArg Spectrum.r hp.1
    · exact hcol (fun p => p.color.g) (fun p q => rfl) hz.2.1 fun p p1 p2 hp => congrArg Spectrum.g hp.1
    · exact hcol (fun p => p.color.b) (fun p q => rfl) hz.2.2 fun p p1 p2 hp => congrArg Spectrum.b hp.1
  · rw [hw.1, hw.2.1]
    congr 1
    apply List.map_congr_left
    intro b _
    simp only [(hT b x y).2.2.2.1]
  · rw [hw.1, hw.2.2]
    congr 1
    apply List.map_congr_left
    intro b _
    simp only [(hT b x y).2.2.2.2]

/-! ### One lamp at a time -/

/-- The first `m` pieces have their colours, the others are black. -/
noncomputable def firstFew (c : Nat → Spectrum ℝ) (m : Nat) : Nat → Spectrum ℝ := fun j => if j < m then c j else ⟨0, 0, 0⟩

omit [HasInf ℝ] [HasNext ℝ] in
theorem firstFew_succ (c : Nat → Spectrum ℝ) (m : Nat) : firstFew c (m + 1) = fun k => (firstFew c m k).add (only c m k) := by
  funext k
  unfold firstFew only
  rcases lt_trichotomy k m with h | rfl | h
  · rw [if_pos (by omega), if_pos h, if_neg h.ne]
    ext <;> exact (add_zero _).symm
  · rw [if_pos (by omega), if_neg (lt_irrefl _), if_pos rfl]
    ext <;> exact (zero_add _).symm
  · rw [if_neg (by omega), if_neg (by omega), if_neg h.ne']
    ext <;> exact (add_zero _).symm

omit [HasInf ℝ] [HasNext ℝ] in
theorem firstFew_zero (c : Nat → Spectrum ℝ) : firstFew c 0 = fun k => (firstFew c 0 k).add (firstFew c 0 k) := by
  funext k
  unfold firstFew
  simp only [Nat.not_lt_zero, if_false]
  ext <;> exact (add_zero _).symm

omit [HasNext ℝ] in
theorem firstFew_all (fs : List Fixture) (c : Nat → Spectrum ℝ) : furnished fs (firstFew c fs.length) = furnished fs c := by
  unfold furnished
  apply List.map_congr_left
  rintro ⟨f, k⟩ h
  have : k < fs.length := by
    have := List.snd_lt_of_mem_zipIdx h
    simpa using this
  unfold firstFew
  simp only [this, if_true]

/-- C101, one lamp at a time, camera samples: if the camera sample does not panic, it does not panic when only the `k`-th lamp is lit, either, and
it is the sum of what the lamps give alone. -/
theorem c101_radiance_one_by_one (fs : List Fixture) (hlib : ∀ f ∈ fs, LibraryFixture f) (c : Nat → Spectrum ℝ)
    {mk : List (Obj ℝ) → Option (Container ℝ)} (hmk : LibraryContainer mk) {scene : Scene ℝ} (h : (built (furnished fs c)).construct mk = some scene)
    (alone : Nat → Scene ℝ) (ha : ∀ k, (built (furnished fs (only c k))).construct mk = some (alone k))
    (camera : PerspectiveCamera ℝ) (pFilm : V2 ℝ) {σ : Type} (ops : SamplerOps ℝ σ) (s s' : σ) (l : Spectrum ℝ)
    (hl : (cameraRadiance scene camera pFilm).run ops s = some (l, s')) :
    ∃ part : Nat → Spectrum ℝ, (∀ k < fs.length, (cameraRadiance (alone k) camera pFilm).run ops s = some (part k, s')) ∧
      ∀ ch : Chan, ch.of l = ∑ k ∈ Finset.range fs.length, ch.of (part k) := by
  obtain ⟨-, hall⟩ := furnished_scene fs (library_dark hlib) hmk c ⟨scene, h⟩
  choose sc hsc using hall
  have key : ∀ m l s', (cameraRadiance (sc (firstFew c m)) camera pFilm).run ops s = some (l, s') →
      ∃ part : Nat → Spectrum ℝ, (∀ k < m, (cameraRadiance (alone k) camera pFilm).run ops s = some (part k, s')) ∧
        ∀ ch : Chan, ch.of l = ∑ k ∈ Finset.range m, ch.of (part k) := by
    intro m
    induction m with
    | zero =>
      intro l s' hl
      refine ⟨fun _ => l, fun k hk => absurd hk (Nat.not_lt_zero _), fun ch => ?_⟩
      have h0 := hsc (firstFew c 0)
      rcases c101_radiance fs hlib _ _ hmk (by rw [← firstFew_zero]; exact h0) h0 h0 camera pFilm ops s with ⟨e, -⟩ | ⟨l1, l2, s1, e1, e2, e3⟩
      · rw [hl] at e; cases e
      · rw [hl] at e1 e2 e3
        cases e1; cases e2
        have e4 : l = l.add l := congrArg Prod.fst (Option.some.inj e3)
        have e5 : ch.of l = ch.of l + ch.of l := by
          have := congrArg ch.of e4
          rwa [Chan.of_add] at this
        rw [Finset.range_zero, Finset.sum_empty]
        linarith
    | succ m ih =>
      intro l s' hl
      have h0 := hsc (firstFew c (m + 1))
      rcases c101_radiance fs hlib _ _ hmk (by rw [← firstFew_succ]; exact h0) (hsc (firstFew c m)) (ha m) camera pFilm ops s with
        ⟨e, -⟩ | ⟨l1, l2, s1, e1, e2, e3⟩
      · rw [hl] at e; cases e
      · rw [hl] at e3
        cases e3
        obtain ⟨part, p1, p2⟩ := ih l1 _ e1
        refine ⟨fun k => if k = m then l2 else part k, fun k hk => ?_, fun ch => ?_⟩
        · by_cases hkm : k = m
          · subst hkm; simp only [if_true]; exact e2
          · simp only [hkm, if_false]; exact p1 k (by omega)
        · rw [Chan.of_add, p2 ch, Finset.sum_range_succ]
          simp only [if_true]
          congr 1
          apply Finset.sum_congr rfl
          intro k hk
          have : k ≠ m := (Finset.mem_range.1 hk).ne
          simp only [this, if_false]
  refine key fs.length l s' ?_
  have e := hsc (firstFew c fs.length)
  rw [firstFew_all, h] at e
  rw [← Option.some.inj e]
  exact hl

/-- C101, one lamp at a time, image: the colour of every pixel is the sum of its colours in the images in which one lamp at a time is lit. -/
theorem c101_image_one_by_one (hinf : (0 : ℝ) ≤ HasInf.infinity) (fs : List Fixture) (hlib : ∀ f ∈ fs, TriangleFixture f) (c : Nat → Spectrum ℝ)
    (hc : ∀ k, NonNeg (c k)) {mk : List (Obj ℝ) → Option (Container ℝ)} (hmk : LibraryContainer mk) {scene : Scene ℝ}
    (h : (built (furnished fs c)).construct mk = some scene)
    (alone : Nat → Scene ℝ) (ha : ∀ k, (built (furnished fs (only c k))).construct mk = some (alone k))
    (camera : PerspectiveCamera ℝ) (hcam : ∀ p, UnitVec (camera.generateRay p).direction) (res : V2 Int) (filt : Filter ℝ) (hR : FilmRange res filt.radius)
    (spp : Nat) (hspp : spp < 2 ^ 32) (n : Nat) (hn : 1 ≤ n) (file : Option (List UInt8)) (steps : Nat) (st : RState ℝ HaltonSampler)
    (n' : Nat → Nat) (hn' : ∀ k, 1 ≤ n' k) (file' : Nat → Option (List UInt8)) (steps' : Nat → Nat) (st' : Nat → RState ℝ HaltonSampler) :
    let film := Film.new res filt
    let sampler := HaltonSampler.new spp film.sampleBBox
    RReach (fun s b => renderTile HaltonSampler.ops (cameraRadiance scene camera) film s b) sampler (RState.init film n file) steps st → st.main = .done →
    (∀ k, RReach (fun s b => renderTile HaltonSampler.ops (cameraRadiance (alone k) camera) film s b) sampler (RState.init film (n' k) (file' k))
      (steps' k) (st' k) ∧ (st' k).main = .done) →
    ∀ x y, Spec.InImage res x y → ∀ ch : Chan,
      ch.of (st.sh.film.px x y).color = ∑ k ∈ Finset.range fs.length, ch.of ((st' k).sh.film.px x y).color := by
  intro film sampler hr hd hr' x y hi ch
  have hL : ∀ f ∈ fs, LibraryFixture f := fun f hf => triangle_library (hlib f hf)
  obtain ⟨-, hall⟩ := furnished_scene fs (library_dark hL) hmk c ⟨scene, h⟩
  choose sc hsc using hall
  have hz : NonNeg (⟨0, 0, 0⟩ : Spectrum ℝ) := ⟨le_refl _, le_refl _, le_refl _⟩
  have hf : ∀ m k, NonNeg (firstFew c m k) := by
    intro m k; unfold firstFew; split
    · exact hc k
    · exact hz
  have ho : ∀ m k, NonNeg (only c m k) := by
    intro m k; unfold only; split
    · exact hc k
    · exact hz
  have hdone : ∀ m, ∃ k st, RReach (fun s b => renderTile HaltonSampler.ops (cameraRadiance (sc (firstFew c m)) camera) film s b) sampler
      (RState.init film 1 none) k st ∧ st.main = .done := by
    intro m
    exact (c76_library_real _ (library_calls hL _) hmk (hsc (firstFew c m)) camera res filt hR sampler hspp 1 none).2
  have key : ∀ m n (_ : 1 ≤ n) file steps st, RReach (fun s b => renderTile HaltonSampler.ops (cameraRadiance (sc (firstFew c m)) camera) film s b) sampler
      (RState.init film n file) steps st → st.main = .done → ch.of (st.sh.film.px x y).color = ∑ k ∈ Finset.range m, ch.of ((st' k).sh.film.px x y).color := by
    intro m
    induction m with
    | zero =>
      intro n hn file steps st hr hd
      have h0 := hsc (firstFew c 0)
      have := (c101_image hinf fs hlib _ _ (hf 0) (hf 0) hmk (by rw [← firstFew_zero]; exact h0) h0 h0 camera hcam res filt hR spp n n n hn hn hn
        file file file steps steps steps st st st hr hd hr hd hr hd x y hi).1
      have e5 : ch.of (st.sh.film.px x y).color = ch.of (st.sh.film.px x y).color + ch.of (st.sh.film.px x y).color := by
        have := congrArg ch.of this
        rwa [Chan.of_add] at this
      rw [Finset.range_zero, Finset.sum_empty]
      linarith
    | succ m ih =>
      intro n hn file steps st hr hd
      obtain ⟨k1, st1, hr1, hd1⟩ := hdone m
      have := (c101_image hinf fs hlib _ _ (hf m) (ho m) hmk (by rw [← firstFew_succ]; exact hsc (firstFew c (m + 1))) (hsc (firstFew c m)) (ha m)
        camera hcam res filt hR spp n 1 (n' m) hn (le_refl _) (hn' m) file none (file' m) steps k1 (steps' m) st st1 (st' m) hr hd hr1 hd1
        (hr' m).1 (hr' m).2 x y hi).1
      rw [this, Chan.of_add, Finset.sum_range_succ, ih 1 (le_refl _) none k1 st1 hr1 hd1]
  refine key fs.length n hn file steps st ?_ hd
  have e := hsc (firstFew c fs.length)
  rw [firstFew_all, h] at e
  rw [← Option.some.inj e]
  exact hr

/-- A room with a sun, a plastic triangle and a shining one: the pieces are as required, the scene can be built whatever the colours are, the camera's rays
are unit vectors, and the renders can be completed. -/
example (filt : Filter ℝ) (hR : FilmRange ⟨640, 480⟩ filt.radius) : ∃ (fs : List Fixture) (camera : PerspectiveCamera ℝ),
    fs.length = 3 ∧ (∀ f ∈ fs, TriangleFixture f) ∧ (∀ p, UnitVec (camera.generateRay p).direction) ∧
    ∀ c, ∃ scene, (built (furnished fs c)).construct (fun ss => (Simple.new ss).map Simple.toContainer) = some scene ∧
      ∃ k st, RReach (fun s b => renderTile HaltonSampler.ops (cameraRadiance scene camera) (Film.new ⟨640, 480⟩ filt) s b)
        (HaltonSampler.new 16 (Film.new ⟨640, 480⟩ filt).sampleBBox) (RState.init (Film.new ⟨640, 480⟩ filt) 4 none) k st ∧ st.main = .done := by
  have h1 : LibraryTriangle (⟨⟨0, 0, 0⟩, ⟨1, 0, 0⟩, ⟨0, 1, 0⟩, none, false,
      plasticMaterial (fun _ => ⟨1, 0, 0⟩) (fun _ => ⟨0, 1, 0⟩) (fun _ => 1 / 10)⟩ : Triangle ℝ) :=
    ⟨fun i => .plastic (fun _ => ⟨1, 0, 0⟩) (fun _ => ⟨0, 1, 0⟩) (fun _ => 1 / 10) (by norm_num), fun n0 n1 n2 hn => by cases hn⟩
  have h2 : LibraryTriangle (⟨⟨0, 0, 5⟩, ⟨1, 0, 5⟩, ⟨0, 1, 5⟩, none, true, lambertianMaterial fun _ => ⟨1 / 2, 1 / 2, 1 / 2⟩⟩ : Triangle ℝ) :=
    ⟨fun i => .lambertian _, fun n0 n1 n2 hn => by cases hn⟩
  have hT : ∀ f ∈ [Fixture.sun 0 ⟨0, 0, 1⟩,
      .thing 1 (Triangle.mk ⟨0, 0, 0⟩ ⟨1, 0, 0⟩ ⟨0, 1, 0⟩ none false (plasticMaterial (fun _ => ⟨1, 0, 0⟩) (fun _ => ⟨0, 1, 0⟩) (fun _ => 1 / 10))).toShape,
      .panel 2 (Triangle.mk ⟨0, 0, 5⟩ ⟨1, 0, 5⟩ ⟨0, 1, 5⟩ none true (lambertianMaterial fun _ => ⟨1 / 2, 1 / 2, 1 / 2⟩)).toShape], TriangleFixture f := by
    intro f hf
    simp only [List.mem_cons, List.not_mem_nil, or_false] at hf
    rcases hf with rfl | rfl | rfl
    · refine .sun _ _ fun e => ?_
      have := congrArg V3.z e
      simp [V3.zero, r_lit] at this
    · exact .triangle _ _ (.plastic _ _ _) h1
    · exact .panel _ _ (.lambertian _) h2
  refine ⟨_, PerspectiveCamera.new (Transform.lookAt ⟨0, 0, -5⟩ ⟨0, 0, 0⟩ ⟨0, 1, 0⟩) (Transform.perspective 90 (1 / 100) 1000) ⟨-1, -1⟩ ⟨1, 1⟩ ⟨640, 480⟩,
    rfl, hT, fun p => ?_, fun c => ⟨_, rfl, (c76_library_real _ (library_calls (fun f hf => triangle_library (hT f hf)) c) .simple rfl _ _ filt hR _
      (by norm_num [HaltonSampler.new]) 4 none).2⟩⟩
  refine (c52_camera_ray ?_ (by norm_num) (by norm_num) ?_ (by norm_num) (by norm_num) (by norm_num) (by norm_num) p).2.2.1
  · intro e
    have := congrArg V3.x e
    norm_num [vprod, V3.sub, r_sub] at this
  · refine (Real.tan_pos_of_pos_of_lt_pi_div_two ?_ ?_).ne' <;> simp only [degrees] <;> nlinarith [Real.pi_pos]
end

end PT
