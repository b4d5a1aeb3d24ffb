import Verif.Props.WholeImage

/-!
# With random numbers the image is right on average (C104)

One thread renders and merges the tiles in turn, so a render with the random sampler and one thread is one computation that draws from one stream of
numbers.  If these are independent and uniform, the mean of each pixel is the filtered mean of the light that comes in along the camera rays.
-/

namespace PT
open Spec
open scoped ENNReal

/-! ### Specification -/

namespace Spec
/-- Render a tile and merge it. -/
def renderAndMerge {α σ : Type} [Scalar α] (work : σ → BBox2i → Option (FilmTile α × σ)) (acc : Film α × σ) (b : BBox2i) : Option (Film α × σ) := do
  let (t, s) ← work acc.2 b
  let film ← acc.1.mergeFilmTile t
  pure (film, s)

/-- A computation that takes its numbers from a generator, one after the other. -/
def feed {α β ρ : Type} (next : ρ → α × ρ) : Draw α β → ρ → Option (β × ρ)
  | .ret b, g => some (b, g)
  | .panic, _ => none
  | .get1 k, g => feed next (k (next g).1) (next g).2
  | .get2 k, g => feed next (k ⟨(next g).1, (next (next g).2).1⟩) (next (next g).2).2

/-- `n` camera samples of a pixel, one after the other. -/
def samplesIn {α : Type} [Scalar α] (radiance : V2 α → Draw α (Spectrum α)) (p : V2 Int) : Nat → Draw α (List (V2 α × Spectrum α))
  | 0 => .ret []
  | n + 1 => (oneSample radiance p).bind fun q => (samplesIn radiance p n).bind fun l => .ret (q :: l)

/-- `n` camera samples of each of the pixels, one pixel after the other. -/
def samplesInAll {α : Type} [Scalar α] (radiance : V2 α → Draw α (Spectrum α)) (n : Nat) : List (V2 Int) → Draw α (List (V2 α × Spectrum α))
  | [] => .ret []
  | p :: ps => (samplesIn radiance p n).bind fun l => (samplesInAll radiance n ps).bind fun m => .ret (l ++ m)
end Spec

/-! ### One thread -/

section one
variable {α σ : Type} [Scalar α] [Libm α] (work : σ → BBox2i → Option (FilmTile α × σ)) (film0 : Film α) (sampler : σ)

/-- What the only thread has done when it is at a point of its program. -/
def InTurn (sh : Shared α) (pc : PC α σ) : Prop :=
  ∃ done F s, done.foldlM (renderAndMerge work) (film0, sampler) = some (F, s) ∧
    match pc with
    | .wantIter s' | .haveIter s' => s' = s ∧ sh.film = F ∧ film0.iter.toList = done ++ sh.iter.toList
    | .gotTile s' none => s' = s ∧ sh.film = F ∧ film0.iter.toList = done
    | .gotTile s' (some b) | .rendering s' b => s' = s ∧ sh.film = F ∧ film0.iter.toList = done ++ b :: sh.iter.toList
    | .wantFilm s' b t => work s b = some (t, s') ∧ sh.film = F ∧ film0.iter.toList = done ++ b :: sh.iter.toList
    | .merging s' b t rest => work s b = some (t, s') ∧ film0.iter.toList = done ++ b :: sh.iter.toList ∧
        ∃ d, t.bbox.iter.toList = d ++ rest ∧ d.foldlM (fun f p => f.mergePixel t p) F = some sh.film
    | .finished => sh.film = F ∧ film0.iter.toList = done
    | .panicked => True

theorem inTurn_step {i : Nat} {sh sh' : Shared α} {pc pc' : PC α σ} (h : InTurn work film0 sampler sh pc) (hs : threadStep work i sh pc = some (sh', pc')) :
    InTurn work film0 sampler sh' pc' := by
  obtain ⟨done, F, s, hd, h⟩ := h
  cases pc with
  | wantIter s' =>
    simp only [threadStep] at hs
    split_ifs at hs
    simp only [Option.some.injEq, Prod.mk.injEq] at hs
    obtain ⟨rfl, rfl⟩ := hs
    exact ⟨done, F, s, hd, h⟩
  | haveIter s' =>
    simp only [threadStep, Option.some.injEq, Prod.mk.injEq] at hs
    obtain ⟨rfl, rfl⟩ := hs
    obtain ⟨h1, h2, h3⟩ := h
    refine ⟨done, F, s, hd, ?_⟩
    cases hn : sh.iter.next.1 with
    | none => exact ⟨h1, h2, by rw [h3, (FilmTileIter.toList_none hn).1, List.append_nil]⟩
    | some b => exact ⟨h1, h2, by rw [h3, FilmTileIter.toList_some hn]⟩
  | gotTile s' r =>
    cases r with
    | none =>
      simp only [threadStep, Option.some.injEq, Prod.mk.injEq] at hs
      obtain ⟨rfl, rfl⟩ := hs
      exact ⟨done, F, s, hd, h.2⟩
    | some b =>
      simp only [threadStep, Option.some.injEq, Prod.mk.injEq] at hs
      obtain ⟨rfl, rfl⟩ := hs
      exact ⟨done, F, s, hd, h⟩
  | rendering s' b =>
    obtain ⟨rfl, h2, h3⟩ := h
    cases hw : work s' b with
    | none =>
      simp only [threadStep, hw, Option.some.injEq, Prod.mk.injEq] at hs
      obtain ⟨rfl, rfl⟩ := hs
      exact ⟨done, F, s', hd, trivial⟩
    | some r =>
      simp only [threadStep, hw, Option.some.injEq, Prod.mk.injEq] at hs
      obtain ⟨rfl, rfl⟩ := hs
      exact ⟨done, F, s', hd, hw, h2, h3⟩
  | wantFilm s' b t =>
    obtain ⟨h1, h2, h3⟩ := h
    simp only [threadStep] at hs
    split at hs
    · simp only [Option.some.injEq, Prod.mk.injEq] at hs
      obtain ⟨rfl, rfl⟩ := hs
      exact ⟨done, F, s, hd, h1, h3, [], rfl, by rw [h2]; rfl⟩
    · cases hs
    · simp only [Option.some.injEq, Prod.mk.injEq] at hs
      obtain ⟨rfl, rfl⟩ := hs
      exact ⟨done, F, s, hd, trivial⟩
  | merging s' b t rest =>
    obtain ⟨h1, h2, d, h3, h4⟩ := h
    cases rest with
    | nil =>
      simp only [threadStep, Option.some.injEq, Prod.mk.injEq] at hs
      obtain ⟨rfl, rfl⟩ := hs
      refine ⟨done ++ [b], sh.film, s', ?_, rfl, rfl, by rw [h2, List.append_assoc]; rfl⟩
      rw [List.append_nil] at h3
      rw [List.foldlM_append, hd]
      simp only [bind, Option.bind_some, List.foldlM_cons, List.foldlM_nil, renderAndMerge, h1, Film.mergeFilmTile, h3, h4, pure]
    | cons p rest =>
      simp only [threadStep] at hs
      split at hs
      · simp only [Option.some.injEq, Prod.mk.injEq] at hs
        obtain ⟨rfl, rfl⟩ := hs
        exact ⟨done, F, s, hd, trivial⟩
      · rename_i film hf
        simp only [Option.some.injEq, Prod.mk.injEq] at hs
        obtain ⟨rfl, rfl⟩ := hs
        refine ⟨done, F, s, hd, h1, h2, d ++ [p], by rw [h3, List.append_assoc]; rfl, ?_⟩
        rw [List.foldlM_append, h4]
        simp only [bind, Option.bind_some, List.foldlM_cons, List.foldlM_nil, hf, pure]
  | finished => simp [threadStep] at hs
  | panicked => simp [threadStep] at hs

theorem inTurn_reach (file : Option (List UInt8)) {k : Nat} {st : RState α σ} (hr : RReach work sampler (RState.init film0 1 file) k st) :
    (st.threads = [] ∧ st.sh.film = film0 ∧ st.sh.iter = film0.iter) ∨ ∃ pc, st.threads = [pc] ∧ InTurn work film0 sampler st.sh pc := by
  induction hr with
  | zero => exact Or.inl ⟨rfl, rfl, rfl⟩
  | succ k st st' hr hstep ih =>
    obtain ⟨log, lost, base, h⟩ := rinv_reach (work := work) (R := fun _ => True) (fun _ _ _ _ _ _ => trivial) trivial hr
    have hmain := h.main
    cases hstep with
    | openFails => exact ih
    | main _ hs =>
      unfold mainStep at hs
      cases he : st.main with
      | spawning k =>
        unfold mainOk at hmain
        rw [he] at hmain hs
        cases k with
        | zero => simp only [Option.some.injEq] at hs; subst hs; exact ih
        | succ k =>
          simp only [Option.some.injEq] at hs
          subst hs
          have : st.threads = [] := List.length_eq_zero_iff.1 (by have := hmain.1; omega)
          rcases ih with ⟨-, h1, h2⟩ | ⟨pc, h1, -⟩
          · exact Or.inr ⟨.wantIter sampler, by rw [this]; rfl, [], film0, sampler, rfl, rfl, h1, by rw [h2]; rfl⟩
          · rw [h1] at this; cases this
      | joining i =>
        rw [he] at hs; dsimp only at hs
        split at hs <;> simp only [Option.some.injEq, reduceCtorEq] at hs <;> subst hs <;> exact ih
      | opening => rw [he] at hs; simp only [Option.some.injEq] at hs; subst hs; exact ih
      | writing =>
        rw [he] at hs; dsimp only at hs
        split at hs <;> simp only [Option.some.injEq, reduceCtorEq] at hs <;> subst hs <;> exact ih
      | done => rw [he] at hs; simp at hs
      | failed => rw [he] at hs; simp at hs
    | thread i pc pc' sh' hi hs =>
      rcases ih with ⟨h1, -⟩ | ⟨pc1, h1, h2⟩
      · rw [h1] at hi; simp at hi
      · rw [h1] at hi
        have hi0 : i = 0 := by
          have := (List.getElem?_eq_some_iff.1 hi).1
          simp at this; omega
        subst hi0
        simp only [List.getElem?_cons_zero, Option.some.injEq] at hi
        subst hi
        exact Or.inr ⟨pc', by simp only [h1, List.set_cons_zero], inTurn_step work film0 sampler h2 hs⟩

/-- C104, one thread: when a render with one thread has completed, the film is the one obtained by rendering and merging the tiles in turn, each with the sampler
as the one before left it.  For any arithmetic and any sampler. -/
theorem c104_one_thread (file : Option (List UInt8)) (k : Nat) (st : RState α σ) (hr : RReach work sampler (RState.init film0 1 file) k st)
    (hdone : st.main = .done) : ∃ s, film0.iter.toList.foldlM (renderAndMerge work) (film0, sampler) = some (st.sh.film, s) := by
  obtain ⟨log, lost, base, h⟩ := rinv_reach (work := work) (R := fun _ => True) (fun _ _ _ _ _ _ => trivial) trivial hr
  have hm := h.main
  unfold mainOk at hm; rw [hdone] at hm
  obtain ⟨h1, h2, -, -⟩ := hm
  rcases inTurn_reach work film0 sampler file hr with ⟨h3, -⟩ | ⟨pc, h3, done, F, s, h4, h5⟩
  · rw [h3] at h1; cases h1
  · have := h2 pc (by rw [h3]; exact List.mem_singleton.2 rfl)
    subst this
    obtain ⟨h6, h7⟩ := h5
    rw [← h7, ← h6] at h4
    exact ⟨s, h4⟩
end one

/-! ### The samples of a render with one thread -/

section random
variable {ρ : Type} (next : ρ → ℝ × ρ)

theorem run_feed {β : Type} (d : Draw ℝ β) : ∀ s : RandomSampler ρ,
    d.run (RandomSampler.ops next) s = (feed next d s.rng).map fun r => (r.1, { s with rng := r.2 }) := by
  induction d with
  | ret b => intro s; rfl
  | panic => intro s; rfl
  | get1 k ih => intro s; simp only [Draw.run, RandomSampler.ops, feed]; exact ih _ _
  | get2 k ih => intro s; simp only [Draw.run, RandomSampler.ops, feed]; exact ih _ _

theorem feed_bind {β γ : Type} (d : Draw ℝ β) (f : β → Draw ℝ γ) : ∀ g : ρ, feed next (d.bind f) g = (feed next d g).bind fun r => feed next (f r.1) r.2 := by
  induction d with
  | ret b => intro g; rfl
  | panic => intro g; rfl
  | get1 k ih => intro g; simp only [Draw.bind, feed]; exact ih _ _
  | get2 k ih => intro g; simp only [Draw.bind, feed]; exact ih _ _

variable (radiance : V2 ℝ → Draw ℝ (Spectrum ℝ))

theorem takeSamples_feed (p : V2 Int) : ∀ (n : Nat) (t : FilmTile ℝ) (s : RandomSampler ρ) (t' : FilmTile ℝ) (s' : RandomSampler ρ),
    Spec.takeSamples (RandomSampler.ops next) radiance p n t s = some (t', s') → s'.samplesPerPixel = s.samplesPerPixel ∧
      ∃ l, feed next (samplesIn radiance p n) s.rng = some (l, s'.rng) ∧ (∀ q ∈ l, TakenIn (RandomSampler.ops next) radiance p q) ∧
        (usables l).foldlM (fun t s => t.addSample s.1 s.2) t = some t' := by
  intro n
  induction n with
  | zero =>
    intro t s t' s' e
    simp only [Spec.takeSamples, Option.some.injEq, Prod.mk.injEq] at e
    obtain ⟨rfl, rfl⟩ := e
    exact ⟨rfl, [], rfl, by simp, rfl⟩
  | succ n ih =>
    intro t s t' s' e
    simp only [Spec.takeSamples, bind] at e
    obtain ⟨⟨⟨pf, l⟩, s1⟩, e1, e⟩ := Option.bind_eq_some_iff.1 e
    obtain ⟨t1, e2, e⟩ := Option.bind_eq_some_iff.1 e
    have e1' := e1
    rw [run_feed] at e1'
    obtain ⟨⟨r, g⟩, e3, e4⟩ := Option.map_eq_some_iff.1 e1'
    simp only [Prod.mk.injEq] at e4
    obtain ⟨rfl, rfl⟩ := e4
    obtain ⟨k1, m, k2, k3, k4⟩ := ih t1 _ t' s' e
    refine ⟨k1, (pf, l) :: m, ?_, ?_, ?_⟩
    · rw [samplesIn, feed_bind, e3]
      simp only [Option.bind_some]
      rw [feed_bind, show g = (((RandomSampler.ops next).startNextSample { s with rng := g }).2).rng from rfl, k2]
      rfl
    · intro q hq
      rcases List.mem_cons.1 hq with rfl | hq
      · exact ⟨s, _, e1⟩
      · exact k3 q hq
    · unfold usables at k4 ⊢
      unfold addIfValid at e2
      by_cases hu : Usable l
      · rw [if_pos ((valid_iff_usable l).2 hu)] at e2
        rw [List.filter_cons_of_pos (by simpa using hu), List.foldlM_cons, e2]
        exact k4
      · rw [if_neg (fun h => hu ((valid_iff_usable l).1 h))] at e2
        cases e2
        rw [List.filter_cons_of_neg (by simpa using hu)]
        exact k4

theorem foldPixels_feed {n : Nat} (hn : n < 2 ^ 32) : ∀ (ps : List (V2 Int)) (t : FilmTile ℝ) (s : RandomSampler ρ) (t' : FilmTile ℝ) (s' : RandomSampler ρ),
    s.samplesPerPixel = n →
    ps.foldlM (fun (acc : FilmTile ℝ × RandomSampler ρ) pixel =>
      pixelLoop (RandomSampler.ops next) radiance pixel (2 ^ 32) acc.1 ((RandomSampler.ops next).startPixel acc.2 pixel)) (t, s) = some (t', s') →
    s'.samplesPerPixel = n ∧ ∃ l, feed next (samplesInAll radiance (max 1 n) ps) s.rng = some (l, s'.rng) ∧
      (∀ q ∈ l, ∃ p ∈ ps, TakenIn (RandomSampler.ops next) radiance p q) ∧ (usables l).foldlM (fun t s => t.addSample s.1 s.2) t = some t' := by
  intro ps
  induction ps with
  | nil =>
    intro t s t' s' hs e
    simp only [List.foldlM_nil] at e
    cases e
    exact ⟨hs, [], rfl, by simp, rfl⟩
  | cons p ps ih =>
    intro t s t' s' hs e
    rw [List.foldlM_cons] at e
    obtain ⟨⟨t1, s1⟩, e1, e⟩ := Option.bind_eq_some_iff.1 e
    simp only at e1
    rw [(random_counting next).pixel radiance p t s (by rw [hs]; exact hn), hs] at e1
    obtain ⟨k1, l, k2, k3, k4⟩ := takeSamples_feed next radiance p (max 1 n) t _ t1 s1 e1
    obtain ⟨i1, m, i2, i3, i4⟩ := ih t1 s1 t' s' (by rw [k1]; exact hs) e
    refine ⟨i1, l ++ m, ?_, ?_, ?_⟩
    · rw [samplesInAll, feed_bind, show s.rng = ((RandomSampler.ops next).startPixel s p).rng from rfl, k2]
      simp only [Option.bind_some]
      rw [feed_bind, i2]
      rfl
    · intro q hq
      rcases List.mem_append.1 hq with hq | hq
      · exact ⟨p, List.mem_cons_self .., k3 q hq⟩
      · obtain ⟨p', hp', h⟩ := i3 q hq
        exact ⟨p', List.mem_cons_of_mem _ hp', h⟩
    · rw [usables_append, List.foldlM_append, k4]
      exact i4

theorem samplesInAll_append (n : Nat) (g : ρ) : ∀ (ps qs : List (V2 Int)),
    feed next (samplesInAll radiance n (ps ++ qs)) g =
      (feed next (samplesInAll radiance n ps) g).bind fun r => (feed next (samplesInAll radiance n qs) r.2).map fun r' => (r.1 ++ r'.1, r'.2) := by
  intro ps
  induction ps generalizing g with
  | nil => intro qs; simp [samplesInAll, feed]
  | cons p ps ih =>
    intro qs
    simp only [List.cons_append, samplesInAll, feed_bind]
    cases feed next (samplesIn radiance p n) g with
    | none => rfl
    | some r =>
      simp only [Option.bind_some, ih]
      cases feed next (samplesInAll radiance n ps) r.2 with
      | none => rfl
      | some r2 =>
        simp only [Option.bind_some, feed]
        cases feed next (samplesInAll radiance n qs) r2.2 with
        | none => rfl
        | some r3 => simp [List.append_assoc]

theorem tiles_feed (hnext : ∀ g, Canonical (next g).1) (res : V2 Int) (filt : Filter ℝ) (hR : FilmRange res filt.radius) {n : Nat} (hn : n < 2 ^ 32) :
    ∀ (bs : List BBox2i) (_ : ∀ b ∈ bs, b ∈ (Film.new res filt).iter.toList) (F F' : Film ℝ) (s s' : RandomSampler ρ), FilmInv res filt F → s.samplesPerPixel = n →
    bs.foldlM (renderAndMerge fun s b => renderTile (RandomSampler.ops next) radiance (Film.new res filt) s b) (F, s) = some (F', s') →
    ∃ l, feed next (samplesInAll radiance (max 1 n) (bs.flatMap fun b => b.iter.toList)) s.rng = some (l, s'.rng) ∧
      ∀ x y, Spec.InImage res x y → F'.px x y = (F.px x y).merge (Spec.pixel filt (usables l) x y) := by
  intro bs
  induction bs with
  | nil =>
    intro _ F F' s s' _ _ e
    simp only [List.foldlM_nil] at e
    cases e
    refine ⟨[], rfl, fun x y _ => ?_⟩
    simp [usables, Spec.pixel, Spec.colorSum, Spec.weightSum, Pixel.merge, Spectrum.add, r_add]
  | cons b bs ih =>
    intro hbs F F' s s' hF hs e
    rw [List.foldlM_cons] at e
    obtain ⟨⟨F1, s1⟩, e1, e⟩ := Option.bind_eq_some_iff.1 e
    simp only [renderAndMerge, bind] at e1
    obtain ⟨⟨t, s2⟩, e2, e1⟩ := Option.bind_eq_some_iff.1 e1
    obtain ⟨F2, e3, e1⟩ := Option.bind_eq_some_iff.1 e1
    cases e1
    obtain ⟨k1, l, k2, k3, k4⟩ := foldPixels_feed next radiance hn b.iter.toList _ s t s2 hs e2
    have hb := hbs b (List.mem_cons_self ..)
    have hops : ∀ (s : RandomSampler ρ) u s', (RandomSampler.ops next).get2d s = some (u, s') → (0 ≤ u.x ∧ u.x < 1) ∧ (0 ≤ u.y ∧ u.y < 1) := by
      intro s u s' e
      simp only [RandomSampler.ops, Option.some.injEq, Prod.mk.injEq] at e
      rw [← e.1]
      exact ⟨hnext _, hnext _⟩
    have hpos : ∀ q ∈ usables l, Spec.PosIn b q.1 := by
      intro q hq
      obtain ⟨p, hp, s3, s4, e4⟩ := k3 q (List.mem_of_mem_filter hq)
      unfold oneSample at e4
      rw [draw_run_bind] at e4
      obtain ⟨⟨pf, s5⟩, e5, e4⟩ := Option.bind_eq_some_iff.1 e4
      rw [draw_run_bind] at e4
      obtain ⟨⟨l5, s6⟩, e6, e4⟩ := Option.bind_eq_some_iff.1 e4
      simp only [Draw.run, Option.some.injEq, Prod.mk.injEq] at e4
      obtain ⟨⟨g1, g2⟩, g3, g4⟩ := c25_camera_sample_in_pixel _ hops p _ s5 pf e5
      obtain ⟨a1, a2, a3, a4⟩ := (b.mem_toList p).1 hp
      have b1 : (b.min.x : ℝ) ≤ p.x := by exact_mod_cast a1
      have b2 : (p.x : ℝ) + 1 ≤ b.max.x := by exact_mod_cast a2
      have b3 : (b.min.y : ℝ) ≤ p.y := by exact_mod_cast a3
      have b4 : (p.y : ℝ) + 1 ≤ b.max.y := by exact_mod_cast a4
      rw [← e4.1]
      exact ⟨by simp only; linarith, by simp only; linarith, by simp only; linarith, by simp only; linarith⟩
    obtain ⟨F3, j1, j2, j3⟩ := runJob_spec res filt hR F hF ⟨b, usables l⟩ hb hpos
    have htile : F.getFilmTile b = (Film.new res filt).getFilmTile b := by
      unfold Film.getFilmTile; rw [hF.1, hF.2.1, hF.2.2.1]; rfl
    have : F3 = F1 := by
      simp only [runJob, htile, k4, bind, Option.bind_some, e3, Option.some.injEq] at j1
      exact j1.symm
    subst this
    obtain ⟨m, i1, i2⟩ := ih (fun b' hb' => hbs b' (List.mem_cons_of_mem _ hb')) F3 F' s2 s' j2 k1 e
    refine ⟨l ++ m, ?_, fun x y hi => ?_⟩
    · rw [List.flatMap_cons, samplesInAll_append, k2]
      simp only [Option.bind_some, i1, Option.map_some]
    · rw [i2 x y hi, j3 x y hi, usables_append, Spec.pixel_append]
      simp only [Pixel.merge, Spectrum.add, r_add, add_assoc]

/-- C104, the samples: with the random sampler and one thread the image is the filtered sum of `max(1, spp)` samples for each sampled pixel, all computed from one
stream of numbers, one after the other, in an order that depends on the film only. -/
theorem c104_one_stream (res : V2 Int) (filt : Filter ℝ) (hR : FilmRange res filt.radius) :
    let film := Film.new res filt
    ∃ ps : List (V2 Int), ps.Nodup ∧ (∀ p, p ∈ ps ↔ Sampled res filt.radius p) ∧
      ∀ {ρ : Type} (next : ρ → ℝ × ρ) (_ : ∀ g, Canonical (next g).1) (radiance : V2 ℝ → Draw ℝ (Spectrum ℝ)) (sampler : RandomSampler ρ)
        (_ : sampler.samplesPerPixel < 2 ^ 32) (file : Option (List UInt8)) (k : Nat) (st : RState ℝ (RandomSampler ρ)),
        RReach (fun s b => renderTile (RandomSampler.ops next) radiance film s b) sampler (RState.init film 1 file) k st → st.main = .done →
        ∃ l g, feed next (samplesInAll radiance (max 1 sampler.samplesPerPixel) ps) sampler.rng = some (l, g) ∧
          ∀ x y, Spec.InImage res x y → st.sh.film.px x y = Spec.pixel filt (usables l) x y := by
  intro film
  have hperm := tiles_perm film
  refine ⟨film.iter.toList.flatMap fun b => b.iter.toList, hperm.nodup_iff.2 (pixels_nodup _), fun p => ?_, ?_⟩
  · rw [hperm.mem_iff, BBox2i.mem_toList]; exact sampled_iff res filt hR p
  intro ρ next hnext radiance sampler hspp file k st hr hd
  obtain ⟨s, h⟩ := c104_one_thread _ film sampler file k st hr hd
  have hpos : 0 ≤ res.x * res.y := Int.mul_nonneg hR.x0.le hR.y0.le
  obtain ⟨l, h1, h2⟩ := tiles_feed next radiance hnext res filt hR hspp film.iter.toList (fun b hb => hb) film st.sh.film sampler s
    ⟨rfl, rfl, rfl, filmNew_sized res hpos hR.area filt⟩ rfl h
  refine ⟨l, _, h1, fun x y hi => ?_⟩
  have h0 : film.px x y = Pixel.zero := by
    unfold Film.px film Film.new
    simp only [List.getElem?_replicate]
    split <;> rfl
  rw [h2 x y hi, h0, pixel_zero_real]
  simp [Pixel.merge, Spectrum.add, r_add]
end random

/-! ### Means of sums -/

section means

theorem Total.bind {β γ : Type} {Q : β → Prop} {R : γ → Prop} {f : β → Draw ℝ γ} (hf : ∀ b, Q b → (f b).Total R) (d : Draw ℝ β) (hd : d.Total Q) :
    (d.bind f).Total R := by
  induction d with
  | ret b => exact hf b hd
  | panic => exact hd.elim
  | get1 k ih => exact fun x hx => ih x (hd x hx)
  | get2 k ih => exact fun x hx hy => ih x (hd x hx hy)

theorem mean_congr {β : Type} {Q : β → Prop} {g g' : β → ℝ≥0∞} (h : ∀ b, Q b → g b = g' b) (d : Draw ℝ β) (hd : d.Total Q) : mean g d = mean g' d := by
  rw [mean_affine (Q := Q) (g' := g') 0 1 ENNReal.one_ne_top (fun b hb => by rw [h b hb]; simp) d hd]; simp

theorem mean_add_const {β : Type} {Q : β → Prop} (a : ℝ≥0∞) (g : β → ℝ≥0∞) (d : Draw ℝ β) (hd : d.Total Q) : mean (fun b => a + g b) d = a + mean g d := by
  rw [mean_affine (Q := Q) (g' := g) a 1 ENNReal.one_ne_top (fun b hb => by simp) d hd]; simp

variable {radiance : V2 ℝ → Draw ℝ (Spectrum ℝ)}

theorem samplesIn_total {Q : V2 ℝ × Spectrum ℝ → Prop} {p : V2 Int} (h : (oneSample radiance p).Total Q) : ∀ n, (samplesIn radiance p n).Total (fun l => ∀ q ∈ l, Q q)
  | 0 => by intro q hq; cases hq
  | n + 1 => by
    refine Total.bind (fun q hq => Total.bind (fun l hl => ?_) _ (samplesIn_total h n)) _ h
    intro q' hq'
    rcases List.mem_cons.1 hq' with rfl | hq'
    · exact hq
    · exact hl q' hq'

theorem samplesInAll_total {Q : V2 ℝ × Spectrum ℝ → Prop} (h : ∀ p, (oneSample radiance p).Total Q) (n : Nat) :
    ∀ ps, (samplesInAll radiance n ps).Total (fun l => ∀ q ∈ l, Q q)
  | [] => by intro q hq; cases hq
  | p :: ps => by
    refine Total.bind (fun l hl => Total.bind (fun m hm => ?_) _ (samplesInAll_total h n ps)) _ (samplesIn_total (h p) n)
    intro q hq
    rcases List.mem_append.1 hq with hq | hq
    · exact hl q hq
    · exact hm q hq

variable {f : V2 ℝ × Spectrum ℝ → ℝ≥0∞} {Q : V2 ℝ × Spectrum ℝ → Prop}

theorem samplesIn_mean {p : V2 Int} (h : (oneSample radiance p).Total Q) : ∀ n,
    mean (fun l => (l.map f).sum) (samplesIn radiance p n) = n * mean f (oneSample radiance p)
  | 0 => by simp [samplesIn, mean]
  | n + 1 => by
    rw [samplesIn, mean_bind]
    have : ∀ q, mean (fun l => (l.map f).sum) ((samplesIn radiance p n).bind fun l => .ret (q :: l)) = f q + n * mean f (oneSample radiance p) := by
      intro q
      rw [mean_bind]
      simp only [mean, List.map_cons, List.sum_cons]
      rw [mean_add_const (f q) _ _ (samplesIn_total h n), samplesIn_mean h n]
    simp only [this]
    rw [show (fun q => f q + n * mean f (oneSample radiance p)) = fun q => n * mean f (oneSample radiance p) + f q from funext fun q => add_comm _ _,
      mean_add_const _ _ _ h]
    push_cast
    ring

theorem samplesInAll_mean (h : ∀ p, (oneSample radiance p).Total Q) (n : Nat) : ∀ ps,
    mean (fun l => (l.map f).sum) (samplesInAll radiance n ps) = (ps.map fun p => n * mean f (oneSample radiance p)).sum
  | [] => by simp [samplesInAll, mean]
  | p :: ps => by
    rw [samplesInAll, mean_bind]
    have : ∀ l, mean (fun l => (l.map f).sum) ((samplesInAll radiance n ps).bind fun m => .ret (l ++ m)) =
        (ps.map fun p => n * mean f (oneSample radiance p)).sum + (l.map f).sum := by
      intro l
      rw [mean_bind]
      simp only [mean, List.map_append, List.sum_append]
      rw [mean_add_const _ _ _ (samplesInAll_total h n ps), samplesInAll_mean h n ps, add_comm]
    simp only [this]
    rw [mean_add_const _ _ _ (samplesIn_total (h p) n), samplesIn_mean (h p) n, List.map_cons, List.sum_cons, add_comm]

theorem usables_all {l : List (V2 ℝ × Spectrum ℝ)} (h : ∀ q ∈ l, Usable q.2) : usables l = l := by
  unfold usables
  rw [List.filter_eq_self]
  intro q hq
  simpa using h q hq

theorem ofReal_sum (F : V2 ℝ × Spectrum ℝ → ℝ) : ∀ l : List (V2 ℝ × Spectrum ℝ), (∀ q ∈ l, 0 ≤ F q) →
    0 ≤ (l.map F).sum ∧ ENNReal.ofReal (l.map F).sum = (l.map fun q => ENNReal.ofReal (F q)).sum
  | [], _ => by simp
  | q :: l, h => by
    obtain ⟨h1, h2⟩ := ofReal_sum F l fun q hq => h q (List.mem_cons_of_mem _ hq)
    have h0 := h q (List.mem_cons_self ..)
    simp only [List.map_cons, List.sum_cons]
    exact ⟨add_nonneg h0 h1, by rw [ENNReal.ofReal_add h0 h1, h2]⟩

theorem oneSample_total (hrad : ∀ pFilm, (radiance pFilm).Total Usable) (p : V2 Int) : (oneSample radiance p).Total (fun q => Usable q.2) := by
  intro u hx hy
  exact Total.bind (Q := Usable) (R := fun q : V2 ℝ × Spectrum ℝ => Usable q.2) (f := fun l => .ret (_, l)) (fun l hl => hl) _ (hrad _)

end means

namespace Spec
open Classical in
/-- The weight with which light at a film position counts for the pixel `(x, y)`. -/
noncomputable def countsFor (filt : Filter ℝ) (x y : Int) (pos : V2 ℝ) : ℝ≥0∞ :=
  ENNReal.ofReal (if Within filt.radius pos x y then weight filt pos x y else 0)

/-- The sum over pixels of the mean of a function of the film position over the pixel. -/
noncomputable def overPixels (ps : List (V2 Int)) (F : V2 ℝ → ℝ≥0∞) : ℝ≥0∞ := (ps.map fun p => mean2 fun u => F ⟨p.x + u.x, p.y + u.y⟩).sum
end Spec

section
variable {radiance : V2 ℝ → Draw ℝ (Spectrum ℝ)}

theorem oneSample_mean (f : V2 ℝ × Spectrum ℝ → ℝ≥0∞) (p : V2 Int) :
    mean f (oneSample radiance p) = mean2 fun u => mean (fun l => f (⟨p.x + u.x, p.y + u.y⟩, l)) (radiance ⟨p.x + u.x, p.y + u.y⟩) := by
  unfold oneSample getCameraSample
  simp only [Draw.bind, mean, mean_bind]
  refine mean2_congr fun u _ _ => ?_
  have : (V2.ofI p).add u = (⟨p.x + u.x, p.y + u.y⟩ : V2 ℝ) := by simp [V2.ofI, V2.add, r_add, r_ofInt]
  rw [this]

/-- C104, the mean: if no run of the radiance program fails or returns a negative channel and the filter is nowhere negative, the mean colour that a pixel gets from
`n` samples of each pixel of a list is `n` times the sum over these pixels of the mean radiance at the positions of the pixel, weighted with the filter; its mean
weight is `n` times the same sum of the filter weights alone. -/
theorem c104_mean_pixel (filt : Filter ℝ) (hfilt : ∀ p, 0 ≤ filt.evaluate p) (hrad : ∀ pFilm, (radiance pFilm).Total Usable) (n : Nat) (ps : List (V2 Int)) (x y : Int) :
    (∀ c : Chan, mean (fun l => ENNReal.ofReal (c.of (Spec.pixel filt (usables l) x y).color)) (samplesInAll radiance n ps) =
      n * overPixels ps fun pos => countsFor filt x y pos * mean (fun l => ENNReal.ofReal (c.of l)) (radiance pos)) ∧
    mean (fun l => ENNReal.ofReal (Spec.pixel filt (usables l) x y).weight) (samplesInAll radiance n ps) = n * overPixels ps (countsFor filt x y) := by
  have hT := oneSample_total hrad
  have hW : ∀ q, 0 ≤ Spec.weight filt q x y := fun q => hfilt _
  constructor
  · intro c
    have e : ∀ l : List (V2 ℝ × Spectrum ℝ), (∀ q ∈ l, Usable q.2) → ENNReal.ofReal (c.of (Spec.pixel filt (usables l) x y).color) =
        (l.map fun q => countsFor filt x y q.1 * ENNReal.ofReal (c.of q.2)).sum := by
      intro l hl
      rw [usables_all hl, pixel_chan]
      unfold Spec.colorSum
      rw [(ofReal_sum _ l fun q hq => ?_).2]
      · refine congrArg List.sum (List.map_congr_left fun q hq => ?_)
        unfold countsFor
        have h0 := c.of_nonneg (hl q hq)
        split_ifs with hw
        · rw [mul_comm, ENNReal.ofReal_mul (hW _)]
        · simp
      · have h0 := c.of_nonneg (hl q hq)
        split_ifs
        · exact mul_nonneg h0 (hW _)
        · exact le_rfl
    rw [mean_congr e _ (samplesInAll_total hT n ps), samplesInAll_mean hT, overPixels, ← List.sum_map_mul_left]
    refine congrArg List.sum (List.map_congr_left fun p _ => ?_)
    rw [oneSample_mean]
    congr 1
    refine mean2_congr fun u _ _ => ?_
    rw [mean_affine (Q := Usable) (g' := fun l => ENNReal.ofReal (c.of l)) 0 (countsFor filt x y ⟨p.x + u.x, p.y + u.y⟩) ENNReal.ofReal_ne_top (fun l _ => by simp) _ (hrad _)]
    simp
  · have e : ∀ l : List (V2 ℝ × Spectrum ℝ), (∀ q ∈ l, Usable q.2) → ENNReal.ofReal (Spec.pixel filt (usables l) x y).weight =
        (l.map fun q => countsFor filt x y q.1).sum := by
      intro l hl
      rw [usables_all hl]
      simp only [Spec.pixel, Spec.weightSum]
      rw [(ofReal_sum _ l fun q hq => ?_).2]
      · rfl
      · split_ifs
        · exact hW _
        · exact le_rfl
    rw [mean_congr e _ (samplesInAll_total hT n ps), samplesInAll_mean hT, overPixels, ← List.sum_map_mul_left]
    refine congrArg List.sum (List.map_congr_left fun p _ => ?_)
    rw [oneSample_mean]
    congr 1
    refine mean2_congr fun u _ _ => ?_
    rw [mean_affine (Q := Usable) (g' := fun l => 0) (countsFor filt x y ⟨p.x + u.x, p.y + u.y⟩) 0 (by simp) (fun l _ => by simp) _ (hrad _)]
    simp
end

/-! ### Scenes of triangles -/

section
variable [HasInf ℝ] [HasNext ℝ]

theorem cameraRadiance_total {D : V3 ℝ → Prop} {scene : Scene ℝ} (hs : SceneAnswers scene Canonical (fun _ => False))
    (hsc : SceneContract (fun x : ℝ => 0 ≤ x) D Canonical scene) (camera : PerspectiveCamera ℝ) (pFilm : V2 ℝ) (hd : D (camera.generateRay pFilm).direction) :
    (cameraRadiance scene camera pFilm).Total Usable := by
  have h1 := c67_real_rule.1.lit 1 (by norm_num)
  exact total_of_safe (liLoop_safe hs _ 0 _ _ _ _ rfl)
    (liLoop_yields c67_real_rule.1 hsc c67_real_rule.2 _ 0 _ _ _ _ rfl hd c67_real_rule.1.zeroS ⟨h1, h1, h1⟩)

/-- C104: a scene of triangles, distant and area lights, the Gaussian filter, the random sampler and one thread, in exact arithmetic.  There is one computation that
yields the camera samples of the whole image, such that every completed render gives in every pixel the filtered sum of the samples it computes from the numbers of the
generator; and over independent uniform numbers the mean colour of the pixel is `max(1, spp)` times the filtered light that comes in along the camera rays, and its
mean weight as many times the filter weight. -/
theorem c104_triangle_world (hinf : (0 : ℝ) ≤ HasInf.infinity) (hist : List (BuilderCall ℝ)) (hlib : ∀ c ∈ hist, TriangleCall c)
    {mk : List (Obj ℝ) → Option (Container ℝ)} (hmk : LibraryContainer mk) {scene : Scene ℝ} (hsc : (built hist).construct mk = some scene)
    (hlen : hist.length ≤ 2 ^ 64) (camera : PerspectiveCamera ℝ) (hcam : ∀ p, UnitVec (camera.generateRay p).direction)
    (res : V2 Int) (radius alpha : ℝ) (hR : FilmRange res radius) (ha : 0 ≤ alpha) (spp : Nat) (hspp : spp < 2 ^ 32) :
    let filt := (GaussianFilter.new radius alpha).toFilter
    let film := Film.new res filt
    ∃ ps : List (V2 Int), ps.Nodup ∧ (∀ p, p ∈ ps ↔ Sampled res radius p) ∧
      ∃ render : Draw ℝ (List (V2 ℝ × Spectrum ℝ)),
        (∀ {ρ : Type} (next : ρ → ℝ × ρ) (_ : ∀ g, Canonical (next g).1) (rng : ρ) (file : Option (List UInt8)) (k : Nat) (st : RState ℝ (RandomSampler ρ)),
          RReach (fun s b => renderTile (RandomSampler.ops next) (cameraRadiance scene camera) film s b) (RandomSampler.new spp rng) (RState.init film 1 file) k st →
          st.main = .done →
          ∃ l g, feed next render rng = some (l, g) ∧ ∀ x y, Spec.InImage res x y → st.sh.film.px x y = Spec.pixel filt l x y) ∧
        ∀ x y,
          (∀ c : Chan, mean (fun l => ENNReal.ofReal (c.of (Spec.pixel filt l x y).color)) render =
            (max 1 spp : Nat) * overPixels ps fun pos => countsFor filt x y pos * incoming scene c 65 true (camera.generateRay pos)) ∧
          mean (fun l => ENNReal.ofReal (Spec.pixel filt l x y).weight) render = (max 1 spp : Nat) * overPixels ps (countsFor filt x y) := by
  intro filt film
  obtain ⟨h1, h2⟩ := triangle_world hinf hist hlib hmk hsc
  obtain ⟨f1, -⟩ := c14_gaussian radius alpha ha hR.rpos.le
  obtain ⟨ps, p1, p2, p3⟩ := c104_one_stream res filt hR
  refine ⟨ps, p1, p2, (samplesInAll (cameraRadiance scene camera) (max 1 spp) ps).bind fun l => .ret (usables l), ?_, fun x y => ?_⟩
  · intro ρ next hnext rng file k st hr hd
    obtain ⟨l, g, e1, e2⟩ := p3 next hnext (cameraRadiance scene camera) (RandomSampler.new spp rng) hspp file k st hr hd
    refine ⟨usables l, g, ?_, e2⟩
    rw [feed_bind]
    have : feed next (samplesInAll (cameraRadiance scene camera) (max 1 spp) ps) rng = some (l, g) := e1
    rw [this]; rfl
  · obtain ⟨m1, m2⟩ := c104_mean_pixel filt f1 (fun p => cameraRadiance_total h2 h1 camera p (hcam p)) (max 1 spp) ps x y
    constructor
    · intro c
      rw [mean_bind]
      simp only [mean]
      rw [m1 c]
      simp only [c78_triangle_world hinf hist hlib hmk hsc hlen camera _ (hcam _) c]
    · rw [mean_bind]
      simp only [mean]
      exact m2

/-- C76 and C104, exact arithmetic: with the random sampler too, rendering a scene of the library's shapes, materials and lights never panics and can be completed,
whatever the generator is. -/
theorem c76_library_real_random (hist : List (BuilderCall ℝ)) (hlib : ∀ c ∈ hist, LibraryCall c)
    {mk : List (Obj ℝ) → Option (Container ℝ)} (hmk : LibraryContainer mk) {scene : Scene ℝ} (hsc : (built hist).construct mk = some scene)
    (camera : PerspectiveCamera ℝ) (res : V2 Int) (filt : Filter ℝ) (hR : FilmRange res filt.radius)
    {ρ : Type} (next : ρ → ℝ × ρ) (hnext : ∀ r, Canonical (next r).1)
    (sampler : RandomSampler ρ) (hspp : sampler.samplesPerPixel < 2 ^ 32) (n : Nat) (file : Option (List UInt8)) :
    let work := renderTile (RandomSampler.ops next) (cameraRadiance scene camera) (Film.new res filt)
    (∀ k st, RReach work sampler (RState.init (Film.new res filt) n file) k st → .panicked ∉ st.threads) ∧
    ∃ k st, RReach work sampler (RState.init (Film.new res filt) n file) k st ∧ st.main = .done := by
  have hs : SceneAnswers scene (fun x : ℝ => 0 ≤ x ∧ x < 1) (fun _ => False) :=
    library_scene_answers (fun b wo u hb h1 _ => bsdf_real_never_panics b wo u h1.1 h1.2 hb) hist hlib
      (library_shapes_answer (fun d _ h => by obtain ⟨m, hm, -⟩ := maxAbsAxis_real d; rw [hm] at h; cases h) hist hlib) hmk hsc
  exact c76_render (random_serves next hnext _ hspp) hs camera res filt
    (fun b _ p _ u _ _ h => asks_false h)
    (mul_nonneg hR.x0.le hR.y0.le) hR.area (tilesFit_real res filt hR) sampler rfl n file

/-- A triangle that emits light, seen by a camera: for every generator the render of 640 × 480 pixels can be completed, and its pixels are then those of the computation
with the stated means. -/
example (hinf : (0 : ℝ) ≤ HasInf.infinity) : ∃ (scene : Scene ℝ) (camera : PerspectiveCamera ℝ),
    let filt := (GaussianFilter.new (2 : ℝ) 2).toFilter
    let film := Film.new ⟨640, 480⟩ filt
    scene.lights.length = 1 ∧ ∃ render : Draw ℝ (List (V2 ℝ × Spectrum ℝ)),
    (∀ (next : Nat → ℝ × Nat) (_ : ∀ g, Canonical (next g).1) (rng : Nat), ∃ k st l g,
      RReach (fun s b => renderTile (RandomSampler.ops next) (cameraRadiance scene camera) film s b) (RandomSampler.new 16 rng) (RState.init film 1 none) k st ∧
      st.main = .done ∧ feed next render rng = some (l, g) ∧ ∀ x y, Spec.InImage ⟨640, 480⟩ x y → st.sh.film.px x y = Spec.pixel filt l x y) ∧
    ∃ ps : List (V2 Int), ∀ x y, mean (fun l => ENNReal.ofReal (Spec.pixel filt l x y).weight) render = 16 * overPixels ps (countsFor filt x y) := by
  let t : Triangle ℝ := ⟨⟨0, 0, 5⟩, ⟨1, 0, 5⟩, ⟨0, 1, 5⟩, none, true, lambertianMaterial fun _ => ⟨1 / 2, 1 / 2, 1 / 2⟩⟩
  have h2 : LibraryTriangle t := ⟨fun i => .lambertian _, fun n0 n1 n2 hn => by cases hn⟩
  have hR : FilmRange ⟨640, 480⟩ 2 := by constructor <;> norm_num
  obtain ⟨camera, hcam⟩ : ∃ camera : PerspectiveCamera ℝ, ∀ p, UnitVec (camera.generateRay p).direction := by
    refine ⟨PerspectiveCamera.new (Transform.lookAt ⟨0, 0, -5⟩ ⟨0, 0, 0⟩ ⟨0, 1, 0⟩) (Transform.perspective 90 (1 / 100) 1000) ⟨-1, -1⟩ ⟨1, 1⟩
      ⟨640, 480⟩, fun p => ?_⟩
    refine (c52_camera_ray ?_ (by norm_num) (by norm_num) ?_ (by norm_num) (by norm_num) (by norm_num) (by norm_num) p).2.2.1
    · intro e
      have := congrArg V3.x e
      norm_num [vprod, V3.sub, r_sub] at this
    · refine (Real.tan_pos_of_pos_of_lt_pi_div_two ?_ ?_).ne' <;> simp only [degrees] <;> nlinarith [Real.pi_pos]
  have hl : ∀ c ∈ [BuilderCall.area 2 ⟨⟨3, 2, 1⟩, t.toShape⟩], TriangleCall c := by
    intro c hc
    obtain rfl := List.mem_singleton.1 hc
    exact .area _ _ _ (by norm_num [NonNeg]) (.lambertian _) h2
  obtain ⟨scene, hsc⟩ : ∃ scene, (built [BuilderCall.area 2 ⟨⟨3, 2, 1⟩, t.toShape⟩]).construct (fun ss => (Simple.new ss).map Simple.toContainer) = some scene :=
    ⟨_, rfl⟩
  have hll : ∀ c ∈ [BuilderCall.area 2 ⟨⟨3, 2, 1⟩, t.toShape⟩], LibraryCall c := by
    intro c hc
    obtain rfl := List.mem_singleton.1 hc
    exact .area _ _ _ (.lambertian _)
  obtain ⟨ps, -, -, render, h3, h4⟩ := c104_triangle_world hinf _ hl .simple hsc (by simp) _ hcam ⟨640, 480⟩ 2 2 hR (by norm_num) 16 (by norm_num)
  refine ⟨scene, camera, ?_, render, fun next hnext rng => ?_, ps, fun x y => (h4 x y).2⟩
  · obtain ⟨box, -, h, -⟩ := c65_construct [BuilderCall.area 2 ⟨⟨3, 2, 1⟩, t.toShape⟩] (fun ss => (Simple.new ss).map Simple.toContainer)
    rw [(h scene hsc).1]
    rfl
  · obtain ⟨k, st, hr, hd⟩ := (c76_library_real_random _ hll .simple hsc _ ⟨640, 480⟩ (GaussianFilter.new (2 : ℝ) 2).toFilter hR next hnext
      (RandomSampler.new 16 rng) (by norm_num [RandomSampler.new]) 1 none).2
    obtain ⟨l, g, e1, e2⟩ := h3 next hnext rng none k st hr hd
    exact ⟨k, st, l, g, hr, hd, e1, e2⟩
end

end PT
