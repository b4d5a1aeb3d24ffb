import Verif.Lemmas.Fl
import Verif.Lemmas.FilmReal
import Verif.Model.RenderTile

/-!
# Pixels are never poisoned, the Gaussian filter (C13, C14)
-/

namespace PT

/-! ### C13 -/

section C13
variable {φ K : Type} [Field K] [LinearOrder K] [IsStrictOrderedRing K] [FloorRing K] [Rounding φ K]

/-- All channels are neither NaN nor negative. -/
def Spec.CleanColor (c : Spectrum (Fl φ K)) : Prop := c.r.NN ∧ c.g.NN ∧ c.b.NN
/-- Colour sum and weight sum of a pixel are neither NaN nor negative. -/
def Spec.CleanPixel (p : Pixel (Fl φ K)) : Prop := Spec.CleanColor p.color ∧ p.weight.NN

/-- A tile buffer that can arise for region `box` of a film: the empty tile, after any number of
radiance values (all floats, checked by the renderer) at any positions. -/
inductive Spec.TileReach (film : Film (Fl φ K)) (box : BBox2i) : FilmTile (Fl φ K) → Prop
  | start : Spec.TileReach film box (film.getFilmTile box)
  | sample (t t' pf l) : Spec.TileReach film box t → l.r.WF → l.g.WF → l.b.WF →
      addIfValid t pf l = some t' → Spec.TileReach film box t'

/-- A film that can arise: the new film after merging any pixels of any such tiles in any order. -/
inductive Spec.FilmReach (res : V2 Int) (filt : Filter (Fl φ K)) : Film (Fl φ K) → Prop
  | start : Spec.FilmReach res filt (Film.new res filt)
  | merge (f f' box t p) : Spec.FilmReach res filt f → Spec.TileReach (Film.new res filt) box t →
      f.mergePixel t p = some f' → Spec.FilmReach res filt f'

theorem validRadiance_iff (l : Spectrum (Fl φ K)) (hr : l.r.WF) (hg : l.g.WF) (hb : l.b.WF) :
    validRadiance l = true ↔ l.r.FinNN ∧ l.g.FinNN ∧ l.b.FinNN := by
  have key : ∀ x : Fl φ K, x.WF → ((Scalar.isNaN x || Scalar.isInf x || (x <. lit 0)) = false ↔ x.FinNN) := by
    intro x hx
    rw [Fl.f_isNaN, Fl.f_isInf, Fl.f_lt, Fl.lit_zero]
    cases x with
    | nan => simp [Fl.isNaN, Fl.FinNN, Fl.IsFin]
    | inf s => simp [Fl.isNaN, Fl.isInf, Fl.FinNN, Fl.IsFin]
    | fin s a =>
      simp only [Fl.isNaN, Fl.isInf, Fl.FinNN, Fl.IsFin, Fl.NN, Fl.lt, Bool.false_or, true_and,
        decide_eq_false_iff_not, not_lt]
      simp only [Fl.sgn, Bool.false_eq_true, if_false]
      exact ⟨fun h => ⟨hx.1, h⟩, fun h => h.2⟩
  unfold validRadiance Spectrum.any
  rw [Bool.not_eq_true', Bool.or_eq_false_iff, Bool.or_eq_false_iff, key _ hr, key _ hg, key _ hb, and_assoc]

theorem foldlM_inv {s γ : Type} (I : s → Prop) (f : s → γ → Option s) : ∀ (l : List γ)
    (_ : ∀ a, ∀ b ∈ l, ∀ a', I a → f a b = some a' → I a') (a a' : s), I a → l.foldlM f a = some a' → I a'
  | [], _, a, a', h, e => by cases e; exact h
  | b :: l, hf, a, a', h, e => by
    rw [List.foldlM_cons] at e
    cases h1 : f a b with
    | none => rw [h1] at e; cases e
    | some a1 =>
      rw [h1] at e
      exact foldlM_inv I f l (fun a b hb => hf a b (List.mem_cons_of_mem _ hb)) a1 a'
        (hf a b (List.mem_cons_self ..) a1 h h1) e

theorem modifyAt_inv {β : Type} (P : β → Prop) {l l' : List β} {i : Nat} {f : β → β}
    (hl : ∀ b ∈ l, P b) (hf : ∀ b, P b → P (f b)) (e : modifyAt l i f = some l') : ∀ b ∈ l', P b := by
  unfold modifyAt at e
  split_ifs at e with h
  cases e
  intro b hb
  obtain ⟨j, hj⟩ := List.mem_iff_getElem?.1 hb
  rw [List.getElem?_modify] at hj
  cases hq : l[j]? with
  | none => rw [hq] at hj; simp at hj
  | some v =>
    have hv := hl v (List.mem_iff_getElem?.2 ⟨j, hq⟩)
    rw [hq] at hj
    change some _ = some b at hj; rw [Option.some.injEq] at hj
    split_ifs at hj
    · rw [← hj]; exact hf v hv
    · rw [← hj]; exact hv

theorem addSample_inv {α : Type} [Scalar α] (P : Pixel α → Prop) (W : α → Prop) {t t' : FilmTile α} {pf : V2 α}
    {l : Spectrum α} (ht : ∀ r ∈ t.filterTable, ∀ w ∈ r, W w) (hp : ∀ p ∈ t.pixels, P p)
    (hstep : ∀ p w, P p → W w → P (p.addSample l w)) (e : t.addSample pf l = some t') :
    t'.filterTable = t.filterTable ∧ ∀ p ∈ t'.pixels, P p := by
  unfold FilmTile.addSample at e
  simp only [bind, pure] at e
  obtain ⟨px, e1, e2⟩ := Option.bind_eq_some_iff.1 e
  cases e2
  refine ⟨rfl, ?_⟩
  refine foldlM_inv (fun px => ∀ p ∈ px, P p) _ _ ?_ _ _ hp e1
  intro px y _ px' hpx epx
  refine foldlM_inv (fun px => ∀ p ∈ px, P p) _ _ ?_ _ _ hpx epx
  intro px x _ px' hpx epx
  obtain ⟨i1, _, epx⟩ := Option.bind_eq_some_iff.1 epx
  obtain ⟨i0, _, epx⟩ := Option.bind_eq_some_iff.1 epx
  obtain ⟨r, hr, epx⟩ := Option.bind_eq_some_iff.1 epx
  obtain ⟨w, hw, epx⟩ := Option.bind_eq_some_iff.1 epx
  exact modifyAt_inv P hpx
    (fun p hp => hstep p w hp (ht r (List.mem_of_getElem? hr) w (List.mem_of_getElem? hw))) epx

theorem tileReach_clean (film : Film (Fl φ K)) (box : BBox2i)
    (ht : ∀ r ∈ film.filterTable, ∀ w ∈ r, w.FinNN) (t : FilmTile (Fl φ K)) (h : Spec.TileReach film box t) :
    t.filterTable = film.filterTable ∧ ∀ p ∈ t.pixels, Spec.CleanPixel p := by
  induction h with
  | start =>
    refine ⟨rfl, ?_⟩
    intro p hp
    obtain rfl := (List.mem_replicate.1 hp).2
    exact ⟨⟨Fl.zero_NN, Fl.zero_NN, Fl.zero_NN⟩, Fl.zero_NN⟩
  | sample t t' pf l _ hr hg hb e ih =>
    unfold addIfValid at e
    split_ifs at e with hv
    · obtain ⟨v1, v2, v3⟩ := (validRadiance_iff l hr hg hb).1 hv
      obtain ⟨a, b⟩ := addSample_inv Spec.CleanPixel Fl.FinNN (by rw [ih.1]; exact ht) ih.2 (by
        intro p w hp hw
        exact ⟨⟨Fl.add_NN hp.1.1 (Fl.mul_NN v1 hw), Fl.add_NN hp.1.2.1 (Fl.mul_NN v2 hw),
          Fl.add_NN hp.1.2.2 (Fl.mul_NN v3 hw)⟩, Fl.add_NN hp.2 hw.2⟩) e
      exact ⟨a.trans ih.1, b⟩
    · cases e; exact ih

/-- C13.  Only finite non-negative radiance reaches the film. -/
theorem c13_only_valid_radiance (t : FilmTile (Fl φ K)) (pf : V2 (Fl φ K)) (l : Spectrum (Fl φ K))
    (hr : l.r.WF) (hg : l.g.WF) (hb : l.b.WF) :
    (l.r.FinNN ∧ l.g.FinNN ∧ l.b.FinNN → addIfValid t pf l = t.addSample pf l) ∧
    (¬ (l.r.FinNN ∧ l.g.FinNN ∧ l.b.FinNN) → addIfValid t pf l = some t) := by
  rw [← validRadiance_iff l hr hg hb]
  unfold addIfValid
  exact ⟨fun h => if_pos h, fun h => if_neg h⟩

/-- C13.  In floating-point arithmetic with any rounding (overflow to infinity included), if the filter's
table weights are finite and non-negative, no pixel of any film that can arise is NaN or negative. -/
theorem c13_film_never_poisoned (res : V2 Int) (filt : Filter (Fl φ K))
    (ht : ∀ r ∈ (Film.new res filt).filterTable, ∀ w ∈ r, w.FinNN)
    (film : Film (Fl φ K)) (h : Spec.FilmReach res filt film) : ∀ p ∈ film.pixels, Spec.CleanPixel p := by
  induction h with
  | start =>
    intro p hp
    obtain rfl := (List.mem_replicate.1 hp).2
    exact ⟨⟨Fl.zero_NN, Fl.zero_NN, Fl.zero_NN⟩, Fl.zero_NN⟩
  | merge f f' box t p _ htile e ih =>
    have hc := (tileReach_clean _ box ht t htile).2
    unfold Film.mergePixel at e
    simp only [bind, pure] at e
    obtain ⟨src, h1, e⟩ := Option.bind_eq_some_iff.1 e
    obtain ⟨px, h2, e⟩ := Option.bind_eq_some_iff.1 e
    cases e
    have hs := hc src (List.mem_of_getElem? h1)
    exact modifyAt_inv Spec.CleanPixel ih (fun d hd =>
      ⟨⟨Fl.add_NN hd.1.1 hs.1.1, Fl.add_NN hd.1.2.1 hs.1.2.1, Fl.add_NN hd.1.2.2 hs.1.2.2⟩,
        Fl.add_NN hd.2 hs.2⟩) h2

end C13

/-- A box filter of height 1 has finite non-negative table weights in single precision, and a NaN
radiance is skipped. -/
example : ∀ r ∈ (Film.new ⟨4, 4⟩ (⟨lit 2, fun _ => lit 1⟩ : Filter F32)).filterTable, ∀ w ∈ r, w.FinNN := by
  intro r hr w hw
  simp only [Film.new, mkFilterTable, List.mem_map] at hr
  obtain ⟨y, _, rfl⟩ := hr
  obtain ⟨x, _, rfl⟩ := List.mem_map.1 hw
  have h : (lit 1 : F32) = Fl.fin false 1 := by decide +kernel
  change (lit 1 : F32).FinNN
  rw [h]
  exact ⟨trivial, by norm_num, by norm_num [Fl.sgn]⟩

example : validRadiance (⟨lit 1, Fl.nan, lit 2⟩ : Spectrum F32) = false ∧
    validRadiance (⟨lit 1, lit (-1), lit 2⟩ : Spectrum F32) = false ∧
    validRadiance (⟨lit 1, Fl.inf false, lit 2⟩ : Spectrum F32) = false ∧
    validRadiance (⟨lit 1, lit 0, lit 2⟩ : Spectrum F32) = true := by decide +kernel

/-! ### C14 -/

/-- C14.  For `alpha ≥ 0` and `radius ≥ 0` the Gaussian filter is non-negative, symmetric in both axes,
zero outside (and on the border of) the square of its radius, positive inside it when `alpha > 0`,
and non-increasing in the distance along each axis. -/
theorem c14_gaussian (radius alpha : ℝ) (ha : 0 ≤ alpha) (hr : 0 ≤ radius) :
    let f := (GaussianFilter.new radius alpha).evaluate
    (∀ p, 0 ≤ f p) ∧
    (∀ x y, f ⟨-x, y⟩ = f ⟨x, y⟩ ∧ f ⟨x, -y⟩ = f ⟨x, y⟩) ∧
    (∀ x y, radius ≤ |x| ∨ radius ≤ |y| → f ⟨x, y⟩ = 0) ∧
    (∀ x y, 0 < alpha → |x| < radius → |y| < radius → 0 < f ⟨x, y⟩) ∧
    (∀ x x' y y', |x| ≤ |x'| → |y| ≤ |y'| → f ⟨x', y'⟩ ≤ f ⟨x, y⟩) := by
  intro f
  set g : ℝ → ℝ := fun d => max (Real.exp (-alpha * d * d) - Real.exp (-alpha * (radius * radius))) 0 with hg
  have hf : ∀ p, f p = g p.x * g p.y := by
    intro p
    simp only [f, GaussianFilter.evaluate, GaussianFilter.gaussian, GaussianFilter.new, g]
    real_ops
  have g0 : ∀ d, 0 ≤ g d := fun d => le_max_right _ _
  have gs : ∀ d, g (-d) = g d := by intro d; simp [g]
  have gm : ∀ d e, |d| ≤ |e| → g e ≤ g d := by
    intro d e h
    have h2 : d * d ≤ e * e := by have := mul_self_le_mul_self (abs_nonneg d) h; rwa [abs_mul_abs_self, abs_mul_abs_self] at this
    apply max_le_max _ le_rfl
    apply sub_le_sub_right
    apply Real.exp_le_exp.2
    nlinarith
  have gz : ∀ d, radius ≤ |d| → g d = 0 := by
    intro d h
    have h2 : radius * radius ≤ d * d := by
      have := mul_self_le_mul_self hr h; rwa [abs_mul_abs_self] at this
    apply max_eq_right
    rw [sub_nonpos]
    apply Real.exp_le_exp.2
    nlinarith
  have gp : ∀ d, 0 < alpha → |d| < radius → 0 < g d := by
    intro d h0 h
    have h2 : d * d < radius * radius := by
      have := mul_self_lt_mul_self (abs_nonneg d) h; rwa [abs_mul_abs_self] at this
    apply lt_max_of_lt_left
    rw [sub_pos]
    apply Real.exp_lt_exp.2
    nlinarith
  refine ⟨?_, ?_, ?_, ?_, ?_⟩
  · intro p; rw [hf]; exact mul_nonneg (g0 _) (g0 _)
  · intro x y; constructor <;> rw [hf, hf] <;> simp [gs]
  · intro x y h; rw [hf]
    rcases h with h | h
    · simp [gz x h]
    · simp [gz y h]
  · intro x y h0 hx hy; rw [hf]; exact mul_pos (gp x h0 hx) (gp y h0 hy)
  · intro x x' y y' hx hy
    rw [hf, hf]
    exact mul_le_mul (gm _ _ hx) (gm _ _ hy) (g0 _) (g0 _)

/-- Radius 2, alpha 2: a point inside the square has positive weight. -/
example : 0 < (GaussianFilter.new (2 : ℝ) 2).evaluate ⟨1, -1⟩ :=
  (c14_gaussian 2 2 (by norm_num) (by norm_num)).2.2.2.1 1 (-1) (by norm_num) (by norm_num) (by norm_num)

end PT
