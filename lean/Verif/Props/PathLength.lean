import Verif.Model.Integrator
import Verif.Model.RenderTile
import Verif.Props.Halton
import Mathlib.NumberTheory.PrimeCounting

/-!
# How much work one camera sample can take (C24, C66)

The bounds hold for every answer the scene can give and every value the sampler can deliver.
-/

namespace PT

/-- The kinds of steps a program can take. -/
inductive Spec.Op where
  | get1 | get2 | hit (w : Why) | occluded | scatter

open Spec

/-- Whatever the answers are, the steps of a run have total weight at most `n`. -/
def Prog.AtMost {α β : Type} (w : Op → Nat) : Prog α β → Nat → Prop
  | .ret _, _ => True
  | .panic, _ => True
  | .get1 k, n => w .get1 ≤ n ∧ ∀ x, (k x).AtMost w (n - w .get1)
  | .get2 k, n => w .get2 ≤ n ∧ ∀ x, (k x).AtMost w (n - w .get2)
  | .hit y _ k, n => w (.hit y) ≤ n ∧ ∀ x, (k x).AtMost w (n - w (.hit y))
  | .occluded _ k, n => w .occluded ≤ n ∧ ∀ x, (k x).AtMost w (n - w .occluded)
  | .scatter _ k, n => w .scatter ≤ n ∧ ∀ x, (k x).AtMost w (n - w .scatter)

namespace Prog
variable {α β γ : Type} {w : Op → Nat}

theorem AtMost.mono {p : Prog α β} : ∀ {m n : Nat}, m ≤ n → p.AtMost w m → p.AtMost w n := by
  induction p with
  | ret => intros; trivial
  | panic => intros; trivial
  | get1 k ih => intro m n h hp; exact ⟨hp.1.trans h, fun x => ih x (by omega) (hp.2 x)⟩
  | get2 k ih => intro m n h hp; exact ⟨hp.1.trans h, fun x => ih x (by omega) (hp.2 x)⟩
  | hit y r k ih => intro m n h hp; exact ⟨hp.1.trans h, fun x => ih x (by omega) (hp.2 x)⟩
  | occluded r k ih => intro m n h hp; exact ⟨hp.1.trans h, fun x => ih x (by omega) (hp.2 x)⟩
  | scatter r k ih => intro m n h hp; exact ⟨hp.1.trans h, fun x => ih x (by omega) (hp.2 x)⟩

theorem AtMost.bind {p : Prog α β} {f : β → Prog α γ} {b : Nat} (hf : ∀ x, (f x).AtMost w b) :
    ∀ {a : Nat}, p.AtMost w a → (p.bind f).AtMost w (a + b) := by
  have aux : ∀ x a : Nat, x ≤ a → a + b - x = a - x + b := fun x a h => by omega
  induction p with
  | ret x => intro a _; exact (hf x).mono (by omega)
  | panic => intros; trivial
  | get1 k ih => intro a hp; exact ⟨hp.1.trans (Nat.le_add_right _ _), fun x => by rw [aux _ _ hp.1]; exact ih x (hp.2 x)⟩
  | get2 k ih => intro a hp; exact ⟨hp.1.trans (Nat.le_add_right _ _), fun x => by rw [aux _ _ hp.1]; exact ih x (hp.2 x)⟩
  | hit y r k ih => intro a hp; exact ⟨hp.1.trans (Nat.le_add_right _ _), fun x => by rw [aux _ _ hp.1]; exact ih x (hp.2 x)⟩
  | occluded r k ih => intro a hp; exact ⟨hp.1.trans (Nat.le_add_right _ _), fun x => by rw [aux _ _ hp.1]; exact ih x (hp.2 x)⟩
  | scatter r k ih => intro a hp; exact ⟨hp.1.trans (Nat.le_add_right _ _), fun x => by rw [aux _ _ hp.1]; exact ih x (hp.2 x)⟩

theorem AtMost.bind' {p : Prog α β} {f : β → Prog α γ} {a b n : Nat} (hp : p.AtMost w a) (hf : ∀ x, (f x).AtMost w b) (h : a + b ≤ n) :
    (p >>= f).AtMost w n := (AtMost.bind hf hp).mono h

theorem AtMost.ofOption (o : Option β) (n : Nat) : (ofOption o : Prog α β).AtMost w n := by cases o <;> trivial

theorem AtMost.pure (x : β) (n : Nat) : (Pure.pure x : Prog α β).AtMost w n := trivial

theorem AtMost.ite {c : Prop} [Decidable c] {p q : Prog α β} {n : Nat} (hp : c → p.AtMost w n) (hq : ¬ c → q.AtMost w n) :
    (if c then p else q).AtMost w n := by
  split_ifs with h
  · exact hp h
  · exact hq h

end Prog

section
variable {α : Type} [Scalar α] [Libm α] [HasInf α] [HasNext α] (w : Op → Nat)
open Prog

theorem directFromLight_atMost (light : LightObj α) (i : Interaction α) (bsdf : BSDF α) (u : V2 α) :
    (directFromLight light i bsdf u).AtMost w (w .occluded) := by
  unfold directFromLight
  refine AtMost.bind' (a := 0) (b := w .occluded) (AtMost.ofOption _ _) (fun s => ?_) (by omega)
  refine AtMost.ite (fun _ => ?_) fun _ => AtMost.pure _ _
  refine AtMost.ite (fun _ => ?_) fun _ => AtMost.pure _ _
  refine AtMost.bind' (a := w .occluded) (b := 0) ⟨le_rfl, fun x => trivial⟩ (fun s => ?_) (by omega)
  refine AtMost.ite (fun _ => ?_) fun _ => AtMost.pure _ _
  exact AtMost.ite (fun _ => AtMost.pure _ _) fun _ => AtMost.pure _ _

theorem directFromBsdf_atMost (light : LightObj α) (i : Interaction α) (bsdf : BSDF α) (u : V2 α) (ld : Spectrum α) :
    (directFromBsdf light i bsdf u ld).AtMost w (w (.hit .light)) := by
  unfold directFromBsdf
  refine AtMost.ite (fun _ => ?_) fun _ => AtMost.pure _ _
  refine AtMost.bind' (a := 0) (b := w (.hit .light)) (AtMost.ofOption _ _) (fun s => ?_) (by omega)
  refine AtMost.ite (fun _ => ?_) fun _ => AtMost.pure _ _
  refine AtMost.ite (fun _ => AtMost.pure _ _) fun _ => ?_
  refine AtMost.bind' (a := w (.hit .light)) (b := 0) ⟨le_rfl, fun x => trivial⟩ (fun s => ?_) (by omega)
  cases s <;> exact AtMost.pure _ _

theorem estimateDirect_atMost (light : LightObj α) (i : Interaction α) (bsdf : BSDF α) :
    (estimateDirect light i bsdf).AtMost w (2 * w .get2 + w .occluded + w (.hit .light)) := by
  unfold estimateDirect
  refine AtMost.bind' (a := w .get2) (b := w .get2 + w .occluded + w (.hit .light)) ⟨le_rfl, fun x => trivial⟩ (fun s => ?_) (by omega)
  refine AtMost.bind' (a := w .get2) (b := w .occluded + w (.hit .light)) ⟨le_rfl, fun x => trivial⟩ (fun s => ?_) (by omega)
  exact AtMost.bind' (directFromLight_atMost w _ _ _ _) (fun s => directFromBsdf_atMost w _ _ _ _ _) le_rfl

theorem uniformSampleOneLight_atMost (lights : List (LightObj α)) (i : Interaction α) (bsdf : BSDF α) :
    (uniformSampleOneLight lights i bsdf).AtMost w (w .get1 + 2 * w .get2 + w .occluded + w (.hit .light)) := by
  unfold uniformSampleOneLight
  dsimp only
  split_ifs
  · exact AtMost.pure _ _
  refine AtMost.bind' (a := w .get1) (b := 2 * w .get2 + w .occluded + w (.hit .light)) ⟨le_rfl, fun x => trivial⟩ (fun s => ?_) (by omega)
  refine AtMost.bind' (a := 0) (b := 2 * w .get2 + w .occluded + w (.hit .light)) (AtMost.ofOption _ _) (fun s => ?_) (by omega)
  exact AtMost.bind' (a := 2 * w .get2 + w .occluded + w (.hit .light)) (b := 0) (estimateDirect_atMost w _ _ _) (fun s => AtMost.pure _ _) (by omega)

/-- The weight of one pass through the loop, without the roulette. -/
def passWeight : Nat := w (.hit .path) + w .scatter + w .get1 + 3 * w .get2 + w .occluded + w (.hit .light)

theorem liLoop_atMost (lights : List (LightObj α)) (k : Nat) : ∀ (bounces : Nat) (ray : Ray α) (l beta : Spectrum α) (sb : Bool),
    bounces + k = 65 →
    (liLoop lights bounces ray l beta sb).AtMost w (k * passWeight w + (k - (3 - bounces)) * w .get1 + w (.hit .path)) := by
  induction k with
  | zero =>
    intro bounces ray l beta sb hb
    rw [liLoop]
    refine AtMost.bind' (a := w (.hit .path)) (b := 0) ⟨le_rfl, fun x => trivial⟩ (fun s => ?_) (by omega)
    cases s with
    | none => exact AtMost.pure _ _
    | some h =>
      dsimp only
      rw [dif_pos (show bounces > MAX_BOUNCES by simp only [MAX_BOUNCES]; omega)]
      exact AtMost.pure _ _
  | succ k ih =>
    intro bounces ray l beta sb hb
    rw [liLoop]
    set N := k * passWeight w + (k - (3 - (bounces + 1))) * w .get1 + w (.hit .path) with hN
    set R := (if bounces + 1 > 3 then w .get1 else 0) with hR
    have hRle : R + N + passWeight w ≤ (k + 1) * passWeight w + (k + 1 - (3 - bounces)) * w .get1 + w (.hit .path) := by
      rw [hN, hR]
      split_ifs with h3
      · have : k + 1 - (3 - bounces) = k - (3 - (bounces + 1)) + 1 := by omega
        rw [this]; ring_nf; omega
      · have : k + 1 - (3 - bounces) ≥ k - (3 - (bounces + 1)) := by omega
        have := Nat.mul_le_mul_right (w .get1) this
        have e : (k + 1) * passWeight w = k * passWeight w + passWeight w := by ring
        omega
    have hpw : passWeight w = w (.hit .path) + w .scatter + w .get1 + 3 * w .get2 + w .occluded + w (.hit .light) := rfl
    refine AtMost.bind' (a := w (.hit .path)) (b := R + N + w .scatter + w .get1 + 3 * w .get2 + w .occluded + w (.hit .light))
      ⟨le_rfl, fun x => trivial⟩ (fun s => ?_) (by omega)
    cases s with
    | none => exact AtMost.pure _ _
    | some h =>
      dsimp only
      rw [dif_neg (show ¬ bounces > MAX_BOUNCES by simp only [MAX_BOUNCES]; omega)]
      refine AtMost.bind' (a := w .scatter) (b := R + N + w .get1 + 3 * w .get2 + w .occluded + w (.hit .light))
        ⟨le_rfl, fun x => trivial⟩ (fun s => ?_) (by omega)
      refine AtMost.bind' (a := w .get1 + 2 * w .get2 + w .occluded + w (.hit .light)) (b := R + N + w .get2)
        (uniformSampleOneLight_atMost w _ _ _) (fun s => ?_) (by omega)
      refine AtMost.bind' (a := w .get2) (b := R + N) ⟨le_rfl, fun x => trivial⟩ (fun s => ?_) (by omega)
      refine AtMost.bind' (a := 0) (b := R + N) (AtMost.ofOption _ _) (fun s => ?_) (by omega)
      refine AtMost.ite (fun _ => AtMost.pure _ _) fun _ => ?_
      refine AtMost.ite (fun h2 => ?_) fun _ => (ih _ _ _ _ _ (by omega)).mono (by omega)
      rw [if_pos h2] at hR
      refine AtMost.bind' (a := w .get1) (b := N) ⟨le_rfl, fun x => trivial⟩ (fun v => ?_) (by omega)
      cases roulette (scatterWeight beta s.2.1 s.1 h.i.sn s.2.2.1) v with
      | none => exact AtMost.pure _ _
      | some b => exact ih _ _ _ _ _ (by omega)

end

/-! ### C66 -/

namespace Spec
/-- Counts the closest-hit queries that extend the path. -/
def pathQueries : Op → Nat
  | .hit .path => 1
  | _ => 0
/-- Counts the closest-hit queries that look for a light. -/
def lightQueries : Op → Nat
  | .hit .light => 1
  | _ => 0
/-- Counts the occlusion queries. -/
def shadowQueries : Op → Nat
  | .occluded => 1
  | _ => 0
/-- Counts the scattering functions made. -/
def scatterings : Op → Nat
  | .scatter => 1
  | _ => 0
/-- Counts the sample coordinates drawn. -/
def dimensions : Op → Nat
  | .get1 => 1
  | .get2 => 2
  | _ => 0
end Spec

section
variable {α : Type} [Scalar α] [Libm α] [HasInf α] [HasNext α]

/-- C66: for all lights and rays, whatever the scene answers and the sampler delivers, tracing a path asks at most 66 times
for its next vertex, makes at most 65 scattering functions, and estimates direct light with at most 65 shadow rays and 65
searches for a light. -/
theorem c66_path_terminates (lights : List (LightObj α)) (ray : Ray α) :
    (li lights ray).AtMost pathQueries 66 ∧ (li lights ray).AtMost scatterings 65 ∧
    (li lights ray).AtMost shadowQueries 65 ∧ (li lights ray).AtMost lightQueries 65 :=
  ⟨liLoop_atMost pathQueries lights 65 0 ray _ _ _ rfl, liLoop_atMost scatterings lights 65 0 ray _ _ _ rfl,
   liLoop_atMost shadowQueries lights 65 0 ray _ _ _ rfl, liLoop_atMost lightQueries lights 65 0 ray _ _ _ rfl⟩

end

/-! The bounds are reached: some answers make the path that long. -/

/-- Some answers lead to the result `b` with steps of total weight `n`. -/
def Spec.Finishes {α β : Type} (w : Op → Nat) : Prog α β → Nat → β → Prop
  | .ret b, n, b' => b = b' ∧ n = 0
  | .panic, _, _ => False
  | .get1 k, n, b => ∃ x m, n = w .get1 + m ∧ Finishes w (k x) m b
  | .get2 k, n, b => ∃ x m, n = w .get2 + m ∧ Finishes w (k x) m b
  | .hit y _ k, n, b => ∃ x m, n = w (.hit y) + m ∧ Finishes w (k x) m b
  | .occluded _ k, n, b => ∃ x m, n = w .occluded + m ∧ Finishes w (k x) m b
  | .scatter _ k, n, b => ∃ x m, n = w .scatter + m ∧ Finishes w (k x) m b

namespace Demo
/-- A light that is always black. -/
noncomputable def blackLight : LightObj ℝ := ⟨0, ⟨true, fun i _ => some ⟨⟨0, 0, 1⟩, Spectrum.zero, 0, ⟨i, i⟩⟩, fun _ _ => 0⟩⟩
/-- A scattering function that always scatters along its normal. -/
noncomputable def sky : BSDF ℝ :=
  ⟨[⟨DIFFUSE, fun _ _ => Spectrum.of 1, fun _ _ => (⟨0, 0, 1⟩, Spectrum.of 1, 1), fun _ _ => 1⟩], ⟨0, 0, 1⟩, ⟨0, 0, 1⟩, ⟨1, 0, 0⟩, ⟨0, 1, 0⟩⟩
/-- A hit with normal and outgoing direction along `z`. -/
noncomputable def skyHit : Hit ℝ :=
  ⟨{ Interaction.default with sn := ⟨0, 0, 1⟩, wo := ⟨0, 0, 1⟩ }, ⟨0, Shape.withDefaults (BBox3.new V3.zero V3.zero) 0 (fun _ => none) (fun _ => none) (fun _ => sky) (fun _ => none)⟩⟩

theorem sky_sampleF : sky.sampleF ⟨0, 0, 1⟩ ⟨0, 0⟩ = some (⟨0, 0, 1⟩, Spectrum.of 1, 1, DIFFUSE) := by
  simp only [BSDF.sampleF, sky, List.length_singleton, BSDF.worldToLocal, BSDF.localToWorld, V3.dot]
  real_ops
  have h0 : Scalar.toInt (0 : ℝ) 0 18446744073709551615 = 0 := by simp [Scalar.toInt, truncInt, satInt]
  simp [toUsize, BxDF.hasFlag, SPECULAR, DIFFUSE, h0]
end Demo

theorem Finishes.bind {α β γ : Type} {w : Op → Nat} {p : Prog α β} {f : β → Prog α γ} {m : Nat} {b : β} {c : γ}
    (hf : Finishes w (f b) m c) : ∀ {n : Nat}, Finishes w p n b → Finishes w (p >>= f) (n + m) c := by
  induction p with
  | ret x => rintro n ⟨rfl, rfl⟩; rw [Nat.zero_add]; exact hf
  | panic => intro n h; exact h.elim
  | get1 k ih => rintro n ⟨x, j, rfl, h⟩; exact ⟨x, j + m, by omega, ih x h⟩
  | get2 k ih => rintro n ⟨x, j, rfl, h⟩; exact ⟨x, j + m, by omega, ih x h⟩
  | hit y r k ih => rintro n ⟨x, j, rfl, h⟩; exact ⟨x, j + m, by omega, ih x h⟩
  | occluded r k ih => rintro n ⟨x, j, rfl, h⟩; exact ⟨x, j + m, by omega, ih x h⟩
  | scatter r k ih => rintro n ⟨x, j, rfl, h⟩; exact ⟨x, j + m, by omega, ih x h⟩

theorem Finishes.bind' {α β γ : Type} {w : Op → Nat} {p : Prog α β} {f : β → Prog α γ} {n m k : Nat} {b : β} {c : γ}
    (hp : Finishes w p n b) (hf : Finishes w (f b) m c) (h : n + m = k) : Finishes w (p >>= f) k c := h ▸ Finishes.bind hf hp

theorem uniform_finishes [HasInf ℝ] [HasNext ℝ] (w : Op → Nat) (i : Interaction ℝ) (bsdf : BSDF ℝ) :
    ∃ b, Finishes w (uniformSampleOneLight [Demo.blackLight] i bsdf) (w .get1 + 2 * w .get2) b := by
  refine ⟨(Spectrum.zero : Spectrum ℝ).smul (ofInt 1), ?_⟩
  unfold uniformSampleOneLight
  dsimp only [List.length_singleton]
  rw [if_neg (by omega)]
  refine Finishes.bind' (n := w .get1) (m := 2 * w .get2) (b := 0) ⟨0, 0, rfl, rfl, rfl⟩ ?_ rfl
  rw [show min (toUsize (ofInt ((1 : ℕ) : ℤ) *. (0 : ℝ))) (1 - 1) = 0 by omega]
  refine Finishes.bind' (n := 0) (m := 2 * w .get2) (b := Demo.blackLight) ⟨rfl, rfl⟩ ?_ (by omega)
  refine Finishes.bind' (n := 2 * w .get2) (m := 0) (b := Spectrum.zero) ?_ ⟨rfl, rfl⟩ (by omega)
  unfold estimateDirect
  refine Finishes.bind' (n := w .get2) (m := w .get2) (b := ⟨0, 0⟩) ⟨_, 0, rfl, rfl, rfl⟩ ?_ (by omega)
  refine Finishes.bind' (n := w .get2) (m := 0) (b := ⟨0, 0⟩) ⟨_, 0, rfl, rfl, rfl⟩ ?_ (by omega)
  refine Finishes.bind' (n := 0) (m := 0) (b := Spectrum.zero) ?_ ?_ (by omega)
  · unfold directFromLight
    refine Finishes.bind' (n := 0) (m := 0) (b := ⟨⟨0, 0, 1⟩, Spectrum.zero, 0, ⟨i, i⟩⟩) ⟨rfl, rfl⟩ ?_ rfl
    have : ¬ ((0 : ℝ) >. lit 0 && !(Spectrum.zero : Spectrum ℝ).isBlack) = true := by real_ops; simp
    rw [if_neg this]
    exact ⟨rfl, rfl⟩
  · exact ⟨rfl, rfl⟩

theorem liLoop_finishes [HasInf ℝ] [HasNext ℝ] (w : Op → Nat) (k : Nat) : ∀ (bounces : Nat) (ray : Ray ℝ) (l beta : Spectrum ℝ) (sb : Bool),
    bounces + k = 65 → 0 < beta.r → 0 < beta.g → 0 < beta.b →
    ∃ b, Finishes w (liLoop [Demo.blackLight] bounces ray l beta sb)
      (k * (w (.hit .path) + w .scatter + w .get1 + 3 * w .get2) + (k - (3 - bounces)) * w .get1 + w (.hit .path)) b := by
  induction k with
  | zero =>
    intro bounces ray l beta sb hb _ _ _
    rw [liLoop]
    exact ⟨_, none, 0, by simp, rfl, rfl⟩
  | succ k ih =>
    intro bounces ray l beta sb hb h1 h2 h3
    rw [liLoop]
    have hm : ¬ bounces > MAX_BOUNCES := by simp only [MAX_BOUNCES]; omega
    obtain ⟨ld, hld⟩ := uniform_finishes w Demo.skyHit.i Demo.sky
    set B := scatterWeight beta (Spectrum.of 1) ⟨0, 0, 1⟩ Demo.skyHit.i.sn 1 with hB
    have eB : B = beta := by
      rw [hB]; simp only [scatterWeight, Demo.skyHit, Spectrum.of, Spectrum.mul, Spectrum.smul, Spectrum.sdiv, V3.dot]; real_ops
      simp
    set N := k * (w (.hit .path) + w .scatter + w .get1 + 3 * w .get2) + (k - (3 - (bounces + 1))) * w .get1 + w (.hit .path) with hN
    have key : ∀ (l : Spectrum ℝ) ray, ∃ b, Finishes w (if bounces + 1 > 3 then do
          let v ← Prog.get1 .ret
          match roulette B v with
          | none => pure l
          | some beta => liLoop [Demo.blackLight] (bounces + 1) ray l beta (DIFFUSE &&& SPECULAR != 0)
        else liLoop [Demo.blackLight] (bounces + 1) ray l B (DIFFUSE &&& SPECULAR != 0)) ((if bounces + 1 > 3 then w .get1 else 0) + N) b := by
      intro l ray
      split_ifs with h
      · have hy : 0 < beta.y := by
          simp only [Spectrum.y]; real_ops; push_cast; positivity
        have hq : 0 < min beta.y (95 / 100) := lt_min hy (by norm_num)
        have hr : roulette B 0 = some (beta.sdiv (min beta.y (95 / 100))) := by
          rw [eB]
          simp only [roulette]; real_ops
          simp only [not_lt.2 hq.le, if_false]
        obtain ⟨b, hb'⟩ := ih (bounces + 1) ray l (beta.sdiv (min beta.y (95 / 100))) (DIFFUSE &&& SPECULAR != 0) (by omega)
          (by simp only [Spectrum.sdiv]; real_ops; positivity) (by simp only [Spectrum.sdiv]; real_ops; positivity)
          (by simp only [Spectrum.sdiv]; real_ops; positivity)
        refine ⟨b, Finishes.bind' (n := w .get1) (b := 0) ⟨0, 0, rfl, rfl, rfl⟩ ?_ rfl⟩
        rw [hr]
        exact hb'
      · rw [eB, Nat.zero_add]
        exact ih _ _ _ _ _ (by omega) h1 h2 h3
    have hsum : (k + 1) * (w (.hit .path) + w .scatter + w .get1 + 3 * w .get2) + (k + 1 - (3 - bounces)) * w .get1 + w (.hit .path) =
        w (.hit .path) + (w .scatter + ((w .get1 + 2 * w .get2) + (w .get2 + ((if bounces + 1 > 3 then w .get1 else 0) + N)))) := by
      rw [hN]
      split_ifs with h
      · rw [show k + 1 - (3 - bounces) = k - (3 - (bounces + 1)) + 1 by omega]; ring
      · rw [show k + 1 - (3 - bounces) = k - (3 - (bounces + 1)) by omega]; ring
    rw [hsum]
    set l' := (if bounces = 0 ∨ sb = true then l.add (beta.mul (Demo.skyHit.le ray.direction.neg)) else l).add (beta.mul ld) with hl'
    obtain ⟨b, hb'⟩ := key l' (Demo.skyHit.i.spawnRay ⟨0, 0, 1⟩)
    refine ⟨b, Finishes.bind' (n := w (.hit .path)) (b := some Demo.skyHit) ⟨_, 0, rfl, rfl, rfl⟩ ?_ rfl⟩
    dsimp only
    rw [dif_neg hm]
    refine Finishes.bind' (n := w .scatter) (b := Demo.sky) ⟨_, 0, rfl, rfl, rfl⟩ ?_ rfl
    refine Finishes.bind' hld ?_ rfl
    refine Finishes.bind' (n := w .get2) (b := ⟨0, 0⟩) ⟨_, 0, rfl, rfl, rfl⟩ ?_ rfl
    have hs : Demo.sky.sampleF Demo.skyHit.i.wo ⟨0, 0⟩ = some (⟨0, 0, 1⟩, Spectrum.of 1, 1, DIFFUSE) := Demo.sky_sampleF
    rw [hs]
    refine Finishes.bind' (n := 0) (b := (⟨0, 0, 1⟩, Spectrum.of 1, 1, DIFFUSE)) ⟨rfl, rfl⟩ ?_ (Nat.zero_add _)
    have hne : ¬ (((1 : ℝ) ==. lit 0) || (Spectrum.of (1 : ℝ)).isBlack) = true := by
      simp only [Spectrum.isBlack, Spectrum.of]; real_ops; simp
    rw [if_neg hne]
    dsimp only
    rw [hB, hl'] at hb'
    convert hb' using 6
    rename_i v; cases roulette (scatterWeight beta (Spectrum.of 1) { x := 0, y := 0, z := 1 } Demo.skyHit.i.sn 1) v <;> rfl

/-- The bounds of C66 and C24 cannot be improved: with a light in the scene some path makes 66 queries, 65 scattering functions
and draws 517 coordinates. -/
theorem c66_bounds_reached [HasInf ℝ] [HasNext ℝ] (ray : Ray ℝ) :
    (∃ b, Finishes pathQueries (li [Demo.blackLight] ray) 66 b) ∧ (∃ b, Finishes scatterings (li [Demo.blackLight] ray) 65 b) ∧
    (∃ b, Finishes dimensions (li [Demo.blackLight] ray) 517 b) := by
  have h := fun w => liLoop_finishes w 65 0 ray Spectrum.zero (Spectrum.of (lit 1)) false rfl
    (by simp [Spectrum.of]; real_ops; norm_num) (by simp [Spectrum.of]; real_ops; norm_num) (by simp [Spectrum.of]; real_ops; norm_num)
  exact ⟨h pathQueries, h scatterings, h dimensions⟩

section
variable {α : Type} [Scalar α] [Libm α] [HasInf α] [HasNext α]

/-! ### C24 -/

theorem run_atMost {β : Type} (scene : Scene α) (p : Prog α β) : ∀ n, p.AtMost dimensions n → (p.run scene).AtMost n := by
  induction p with
  | ret => intros; trivial
  | panic => intros; trivial
  | get1 k ih => intro n h; exact ⟨h.1, fun x => ih x _ (h.2 x)⟩
  | get2 k ih => intro n h; exact ⟨h.1, fun x => ih x _ (h.2 x)⟩
  | hit y r k ih =>
    intro n h
    simp only [Prog.run]
    cases scene.intersect r with
    | none => trivial
    | some x => exact ih x _ (h.2 x)
  | occluded r k ih =>
    intro n h
    simp only [Prog.run]
    cases scene.intersectP r with
    | none => trivial
    | some x => exact ih x _ (h.2 x)
  | scatter r k ih => intro n h; exact ih _ _ (h.2 _)

theorem Draw.AtMost.bind {β γ : Type} {p : Draw α β} {f : β → Draw α γ} {b : Nat} (hf : ∀ x, (f x).AtMost b) :
    ∀ {a : Nat}, p.AtMost a → (p.bind f).AtMost (a + b) := by
  have mono : ∀ (q : Draw α γ) (m n : Nat), m ≤ n → q.AtMost m → q.AtMost n := by
    intro q
    induction q with
    | ret => intros; trivial
    | panic => intros; trivial
    | get1 k ih => intro m n h hp; exact ⟨hp.1.trans h, fun x => ih x _ _ (by omega) (hp.2 x)⟩
    | get2 k ih => intro m n h hp; exact ⟨hp.1.trans h, fun x => ih x _ _ (by omega) (hp.2 x)⟩
  induction p with
  | ret x => intro a _; exact mono _ _ _ (by omega) (hf x)
  | panic => intros; trivial
  | get1 k ih =>
    intro a hp
    refine ⟨hp.1.trans (Nat.le_add_right _ _), fun x => ?_⟩
    have := ih x (hp.2 x)
    rwa [show a + b - 1 = a - 1 + b by have := hp.1; omega]
  | get2 k ih =>
    intro a hp
    refine ⟨hp.1.trans (Nat.le_add_right _ _), fun x => ?_⟩
    have := ih x (hp.2 x)
    rwa [show a + b - 2 = a - 2 + b by have := hp.1; omega]

/-- C24: one camera sample (the position on the film and the radiance along the ray) draws at most 519 coordinates,
for every scene, camera and pixel and whatever values are drawn. -/
theorem c24_dimensions (scene : Scene α) (camera : PerspectiveCamera α) (pixel : V2 Int) :
    (oneSample (cameraRadiance scene camera) pixel).AtMost 519 := by
  refine ⟨by omega, fun u => ?_⟩
  have h := run_atMost scene _ _ (liLoop_atMost dimensions scene.lights 65 0 (camera.generateRay ((V2.ofI pixel).add u))
    Spectrum.zero (Spectrum.of (lit 1)) false rfl)
  exact Draw.AtMost.bind (f := fun l => .ret (((V2.ofI pixel).add u : V2 α), l)) (b := 0) (fun _ => trivial) h

end

/-- Some values drawn lead to a panic. -/
def Spec.CanPanic {α β : Type} : Draw α β → Prop
  | .ret _ => False
  | .panic => True
  | .get1 k => ∃ x, CanPanic (k x)
  | .get2 k => ∃ x, CanPanic (k x)

theorem sampleDimension_isSome {α : Type} [Scalar α] (s : HaltonSampler) (i d : Nat) (h : d < 1024) :
    ∃ x : α, s.sampleDimension i d = some x := by
  have e : ∀ d a, d < 1024 → ∃ x : α, radicalInversePrime d a = some x := by
    intro d a h
    unfold radicalInversePrime
    rw [List.getElem?_eq_getElem (by rw [haltonBases_length]; exact h)]
    exact ⟨_, rfl⟩
  unfold HaltonSampler.sampleDimension
  split <;> exact e _ _ h

/-- C24: a computation that draws at most `n` coordinates, started with the Halton sampler at a dimension that leaves `n` of
the 1024 bases, can fail only if it panics itself. -/
theorem c24_enough_bases {α β : Type} [Scalar α] (p : Draw α β) : ∀ (n : Nat) (s : HaltonSampler), p.AtMost n →
    s.dimension + n ≤ 1024 → p.run HaltonSampler.ops s = none → CanPanic p := by
  have hu : ∀ k, k < 2 ^ 32 → u32 k = k := fun k h => Nat.mod_eq_of_lt h
  induction p with
  | ret => intro n s _ _ h; cases h
  | panic => intros; trivial
  | get1 k ih =>
    intro n s hp hs h
    obtain ⟨x, hx⟩ := sampleDimension_isSome (α := α) s s.intervalSampleIndex s.dimension (by have := hp.1; omega)
    simp only [Draw.run, HaltonSampler.ops, hx, bind, pure, Option.bind_some] at h
    refine ⟨x, ih x (n - 1) _ (hp.2 x) ?_ h⟩
    have := hp.1
    dsimp only
    rw [hu _ (by omega)]; omega
  | get2 k ih =>
    intro n s hp hs h
    have h1 := hp.1
    obtain ⟨x, hx⟩ := sampleDimension_isSome (α := α) s s.intervalSampleIndex s.dimension (by omega)
    obtain ⟨y, hy⟩ := sampleDimension_isSome (α := α) s s.intervalSampleIndex (u32 (s.dimension + 1)) (by rw [hu _ (by omega)]; omega)
    simp only [Draw.run, HaltonSampler.ops, hx, hy, bind, pure, Option.bind_some] at h
    refine ⟨⟨x, y⟩, ih _ (n - 2) _ (hp.2 _) ?_ h⟩
    dsimp only
    rw [hu _ (by omega)]; omega

/-- C24: rendering one sample with the Halton sampler, started on a pixel or advanced to the next sample, never runs out of
bases: it fails only if the radiance computation itself panics for some sample values. -/
theorem c24_halton_never_exhausted {α : Type} [Scalar α] [Libm α] [HasInf α] [HasNext α] (scene : Scene α)
    (camera : PerspectiveCamera α) (pixel p : V2 Int) (s : HaltonSampler)
    (h : (oneSample (cameraRadiance scene camera) pixel).run HaltonSampler.ops (s.startPixel p) = none ∨
      (oneSample (cameraRadiance scene camera) pixel).run HaltonSampler.ops s.startNextSample.2 = none) :
    ∃ pFilm, CanPanic (cameraRadiance scene camera pFilm) := by
  have d1 : (s.startPixel p).dimension = 0 := by
    simp only [HaltonSampler.startPixel, HaltonSampler.getIndexForSample]; split_ifs <;> rfl
  have d2 : s.startNextSample.2.dimension = 0 := by
    simp only [HaltonSampler.startNextSample, HaltonSampler.getIndexForSample]; split_ifs <;> rfl
  have hb : ∀ q : Draw α (Spectrum α), ∀ x : V2 α, CanPanic (q.bind fun l => .ret (x, l)) → CanPanic q := by
    intro q x
    induction q with
    | ret => exact id
    | panic => exact id
    | get1 k ih => rintro ⟨y, hy⟩; exact ⟨y, ih y hy⟩
    | get2 k ih => rintro ⟨y, hy⟩; exact ⟨y, ih y hy⟩
  have key : CanPanic (oneSample (cameraRadiance scene camera) pixel) := by
    rcases h with h | h
    · exact c24_enough_bases _ 519 _ (c24_dimensions scene camera pixel) (by rw [d1]; omega) h
    · exact c24_enough_bases _ 519 _ (c24_dimensions scene camera pixel) (by rw [d2]; omega) h
  obtain ⟨u, hu⟩ := key
  exact ⟨_, hb _ _ hu⟩

/-! The bases. -/

/-- Trial division. -/
def trial (n : Nat) : Bool := decide (2 ≤ n) && (List.range 91).all fun m => decide (m < 2) || decide (n ≤ m) || decide (n % m ≠ 0)

theorem trial_iff (n : Nat) (h : n < 8281) : trial n = true ↔ n.Prime := by
  unfold trial
  simp only [Bool.and_eq_true, decide_eq_true_eq, List.all_eq_true, List.mem_range, Bool.or_eq_true]
  constructor
  · rintro ⟨h2, hd⟩
    by_contra hp
    refine hp (Nat.prime_def_le_sqrt.2 ⟨h2, fun m hm hs hdvd => ?_⟩)
    have hsq : Nat.sqrt n < 91 := Nat.sqrt_lt'.2 (by omega)
    have hlt : Nat.sqrt n < n := Nat.sqrt_lt_self h2
    rcases hd m (by omega) with (h' | h') | h'
    · omega
    · omega
    · exact h' (Nat.mod_eq_zero_of_dvd hdvd)
  · intro hp
    refine ⟨hp.two_le, fun m hm => ?_⟩
    by_cases h1 : m < 2
    · exact Or.inl (Or.inl h1)
    by_cases h2 : n ≤ m
    · exact Or.inl (Or.inr h2)
    refine Or.inr fun h0 => ?_
    rcases (Nat.dvd_prime hp).1 (Nat.dvd_of_mod_eq_zero h0) with e | e <;> omega

theorem filter_range_nth (p : Nat → Prop) [DecidablePred p] : ∀ (N i x : Nat), ((List.range N).filter (fun n => decide (p n)))[i]? = some x → Nat.nth p i = x := by
  intro N
  induction N with
  | zero => intro i x h; simp at h
  | succ N ih =>
    intro i x h
    rw [List.range_succ, List.filter_append] at h
    rw [List.getElem?_append] at h
    split_ifs at h with hi
    · exact ih i x h
    · by_cases hp : p N
      · simp only [List.filter_cons, hp, decide_true, if_true, List.filter_nil] at h
        have hl : ((List.range N).filter fun n => decide (p n)).length = Nat.count p N := by
          rw [Nat.count_eq_card_filter_range]; rfl
        rw [List.getElem?_singleton] at h
        split_ifs at h with h0
        cases h
        rw [show i = Nat.count p N by omega]
        exact Nat.nth_count hp
      · simp [hp] at h

theorem haltonBases_eq : haltonBases = (List.range 8162).filter trial := by decide +kernel

/-- C24: the bases of the Halton sampler are the first 1024 primes, in order. -/
theorem c24_bases : haltonBases = (List.range 1024).map (Nat.nth Nat.Prime) := by
  have e : haltonBases = (List.range 8162).filter (fun n => decide n.Prime) := by
    rw [haltonBases_eq]
    apply List.filter_congr
    intro n hn
    rw [Bool.eq_iff_iff, trial_iff n (by have := List.mem_range.1 hn; omega), decide_eq_true_eq]
  apply List.ext_getElem?
  intro i
  rw [List.getElem?_map]
  by_cases hi : i < 1024
  · rw [List.getElem?_range hi]
    obtain ⟨x, hx⟩ : ∃ x, haltonBases[i]? = some x := ⟨_, List.getElem?_eq_getElem (by rw [haltonBases_length]; exact hi)⟩
    have hx' := hx
    rw [e] at hx'
    rw [hx, Option.map_some, filter_range_nth Nat.Prime _ _ _ hx']
  · have h1 : haltonBases[i]? = none := List.getElem?_eq_none_iff.2 (by rw [haltonBases_length]; omega)
    have h2 : (List.range 1024)[i]? = none := List.getElem?_eq_none_iff.2 (by rw [List.length_range]; omega)
    rw [h1, h2, Option.map_none]

end PT
