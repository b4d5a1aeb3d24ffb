import Verif.Lemmas.Render
import Verif.Lemmas.FilmReal
import Verif.Model.RenderTile
import Verif.Props.Sampler
import Verif.Props.Film

/-!
# The multi-threaded renderer (C06, C07, C08)
-/

namespace PT
variable {α : Type} [Scalar α] [Libm α] {σ : Type}

/-- C06.  For every schedule, every thread count `n ≥ 1` and every tile renderer: when `render` has returned, there is a
list of finished pieces of work — each a sampler state, a tile box and the tile that rendering this
box with this sampler state gave — whose boxes are exactly the tiles of the film, each once; the film is the result of
merging these tiles, whole, one after the other; the file holds this film; all threads have
finished and no lock is held. -/
theorem c06_every_tile_once (work : σ → BBox2i → Option (FilmTile α × σ)) (sampler : σ) (film : Film α) (n : Nat)
    (hn : 1 ≤ n) (file : Option (List UInt8)) (k : Nat) (st : RState α σ)
    (hr : RReach work sampler (RState.init film n file) k st) (hdone : st.main = .done) :
    ∃ log : List (σ × BBox2i × FilmTile α),
      (log.map (fun e => e.2.1)).Perm film.iter.toList ∧
      (∀ e ∈ log, ∃ s', work e.1 e.2.1 = some (e.2.2, s')) ∧
      log.foldlM (fun f e => f.mergeFilmTile e.2.2) film = some st.sh.film ∧
      st.file = some (outputFile (file.getD []) st.sh.film) ∧
      (∀ pc ∈ st.threads, pc = .finished) ∧ st.threads.length = n ∧
      st.sh.iterLock = none ∧ st.sh.filmLock = .free := by
  obtain ⟨log, lost, base, h⟩ := rinv_reach (R := fun _ => True) (fun _ _ _ _ _ _ => trivial) trivial hr
  have hm := h.main
  unfold mainOk at hm; rw [hdone] at hm
  obtain ⟨h1, h2, h3, h4⟩ := hm
  have hbox : (st.threads.map PC.box).sum = 0 := by
    apply List.sum_eq_zero
    intro x hx
    obtain ⟨pc, hp, rfl⟩ := List.mem_map.1 hx
    rw [h2 pc hp]; rfl
  have hlost : lost = 0 := h.lost0 fun hc => by have := h2 _ hc; simp at this
  have hne : st.threads ≠ [] := by intro hc; rw [hc] at h1; simp at h1; omega
  obtain ⟨pc, hpc⟩ := List.exists_mem_of_ne_nil _ hne
  have hend : st.sh.iter.toList = [] := h.over pc hpc (by rw [h2 pc hpc]; trivial)
  have hcount := h.count
  rw [hbox, hlost, hend] at hcount
  simp only [Multiset.coe_nil, add_zero] at hcount
  refine ⟨log, (Multiset.coe_eq_coe.1 hcount).symm, fun e he => (h.logOk e he).2, ?_, h3, h2, h1, ?_, h4⟩
  · rw [h.filmFree h4]; exact h.baseOk
  · by_contra hc
    obtain ⟨i, hi⟩ := Option.ne_none_iff_exists'.1 hc
    obtain ⟨pc, hp, hh⟩ := (h.iterHeld i).1 hi
    rw [h2 pc (List.mem_of_getElem? hp)] at hh; exact hh

/-! ### C07 -/

/-- C07, no deadlock: in every reachable state in which `render` has neither returned nor panicked, some thread can
take a step. -/
theorem c07_never_stuck (work : σ → BBox2i → Option (FilmTile α × σ)) (sampler : σ) (film : Film α) (n : Nat)
    (file : Option (List UInt8)) (k : Nat) (st : RState α σ)
    (hr : RReach work sampler (RState.init film n file) k st) (h1 : st.main ≠ .done) (h2 : st.main ≠ .failed) :
    ∃ st', RStep work sampler st st' := by
  obtain ⟨log, lost, base, h⟩ := rinv_reach (R := fun _ => True) (fun _ _ _ _ _ _ => trivial) trivial hr
  -- a thread that holds a lock can always move
  have iterMoves : ∀ i, st.sh.iterLock = some i → ∃ st', RStep work sampler st st' := by
    intro i hi
    obtain ⟨pc, hp, hh⟩ := (h.iterHeld i).1 hi
    cases pc with
    | haveIter s => exact ⟨_, .thread st i _ _ _ hp rfl⟩
    | gotTile s r => cases r <;> exact ⟨_, .thread st i _ _ _ hp rfl⟩
    | _ => exact hh.elim
  have filmMoves : ∀ i, st.sh.filmLock = .held i → ∃ st', RStep work sampler st st' := by
    intro i hi
    obtain ⟨s, b, t, rest, hp⟩ := (h.filmHeld i).1 hi
    cases rest with
    | nil => exact ⟨_, .thread st i _ _ _ hp rfl⟩
    | cons p rest =>
      cases hm : st.sh.film.mergePixel t p with
      | none => exact ⟨_, .thread st i _ _ _ hp (by simp only [threadStep, hm]; rfl)⟩
      | some f => exact ⟨_, .thread st i _ _ _ hp (by simp only [threadStep, hm]; rfl)⟩
  have hm := h.main
  unfold mainOk at hm
  cases he : st.main with
  | spawning k => cases k <;> exact ⟨_, .main st _ (by simp only [mainStep, he]; rfl)⟩
  | joining i =>
    cases ht : st.threads[i]? with
    | none => exact ⟨_, .main st _ (by simp only [mainStep, he, ht]; rfl)⟩
    | some pc =>
      cases pc with
      | finished => exact ⟨_, .main st _ (by simp only [mainStep, he, ht]; rfl)⟩
      | panicked => exact ⟨_, .main st _ (by simp only [mainStep, he, ht]; rfl)⟩
      | wantIter s =>
        cases hl : st.sh.iterLock with
        | none => exact ⟨_, .thread st i _ _ _ ht (by simp only [threadStep, hl, if_true]; rfl)⟩
        | some j => exact iterMoves j hl
      | haveIter s => exact ⟨_, .thread st i _ _ _ ht rfl⟩
      | gotTile s r => cases r <;> exact ⟨_, .thread st i _ _ _ ht rfl⟩
      | rendering s b =>
        cases hw : work s b with
        | none => exact ⟨_, .thread st i _ _ _ ht (by simp only [threadStep, hw]; rfl)⟩
        | some r => exact ⟨_, .thread st i _ _ _ ht (by simp only [threadStep, hw]; rfl)⟩
      | wantFilm s b t =>
        cases hl : st.sh.filmLock with
        | free => exact ⟨_, .thread st i _ _ _ ht (by simp only [threadStep, hl]; rfl)⟩
        | held j => exact filmMoves j hl
        | poisoned => exact ⟨_, .thread st i _ _ _ ht (by simp only [threadStep, hl]; rfl)⟩
      | merging s b t rest => exact filmMoves i ((h.filmHeld i).2 ⟨_, _, _, _, ht⟩)
  | opening => exact ⟨_, .main st _ (by simp only [mainStep, he]; rfl)⟩
  | writing =>
    cases hl : st.sh.filmLock with
    | free => exact ⟨_, .main st _ (by simp only [mainStep, he, hl]; rfl)⟩
    | held j => exact filmMoves j hl
    | poisoned => exact ⟨_, .main st _ (by simp only [mainStep, he, hl]; rfl)⟩
  | done => exact absurd he h1
  | failed => exact absurd he h2

/-- Number of pixels of the film tile for a box. -/
def tilePixels (film : Film α) (b : BBox2i) : Nat := (film.getFilmTile b).bbox.iter.toList.length

/-- Steps a thread still has to make for what it has in hand, and to end. -/
def PC.steps (film : Film α) : PC α σ → Nat
  | .wantIter _ => 3
  | .haveIter _ => 2
  | .gotTile _ none => 1
  | .gotTile _ (some b) => tilePixels film b + 7
  | .rendering _ b => tilePixels film b + 6
  | .wantFilm _ b _ => tilePixels film b + 5
  | .merging _ _ _ rest => rest.length + 4
  | .finished => 0
  | .panicked => 0

def MainPC.steps (n : Nat) : MainPC → Nat
  | .spawning k => 4 * k + n + 4
  | .joining i => (n - i) + 3
  | .opening => 2
  | .writing => 1
  | .done => 0
  | .failed => 0

/-- The total of all work still to be done. -/
def RState.steps (film : Film α) (n : Nat) (st : RState α σ) : Nat :=
  st.main.steps n + (st.threads.map (PC.steps film)).sum + (st.sh.iter.toList.map fun b => tilePixels film b + 6).sum

theorem step_decreases_of {work : σ → BBox2i → Option (FilmTile α × σ)} {sampler : σ} {film : Film α} {n : Nat}
    {file : Option (List UInt8)} {R : σ → Prop} (hR0 : R sampler)
    (hR : ∀ s b t s', R s → work s b = some (t, s') → R s')
    (hwork : ∀ s b t s', R s → work s b = some (t, s') → t.bbox = (film.getFilmTile b).bbox)
    {k : Nat} {st st' : RState α σ} (hr : RReach work sampler (RState.init film n file) k st)
    (hs : RStep work sampler st st') : st'.steps film n < st.steps film n := by
  obtain ⟨log, lost, base, h⟩ := rinv_reach (R := R) hR hR0 hr
  cases hs with
  | openFails hm => simp only [RState.steps, hm, MainPC.steps]; omega
  | main _ hs =>
    have hm := h.main
    unfold mainOk at hm
    unfold mainStep at hs
    cases he : st.main with
    | spawning k =>
      rw [he] at hs
      cases k with
      | zero => simp only [Option.some.injEq] at hs; subst hs; simp only [RState.steps, he, MainPC.steps]; omega
      | succ k =>
        simp only [Option.some.injEq] at hs; subst hs
        simp only [RState.steps, he, MainPC.steps, List.map_append, List.map_cons, List.map_nil, List.sum_append,
          List.sum_cons, List.sum_nil, PC.steps]
        omega
    | joining i =>
      rw [he] at hs hm
      dsimp only at hs hm
      cases ht : st.threads[i]? with
      | none =>
        rw [ht] at hs; simp only [Option.some.injEq] at hs; subst hs
        simp only [RState.steps, he, MainPC.steps]; omega
      | some pc =>
        have hlt : i < n := by
          rw [← hm.1]
          by_contra hc; rw [List.getElem?_eq_none (by omega)] at ht; simp at ht
        rw [ht] at hs
        cases pc <;> simp only [Option.some.injEq, reduceCtorEq] at hs <;> subst hs <;>
          simp only [RState.steps, he, MainPC.steps] <;> omega
    | opening =>
      rw [he] at hs; simp only [Option.some.injEq] at hs; subst hs
      simp only [RState.steps, he, MainPC.steps]; omega
    | writing =>
      rw [he] at hs; dsimp only at hs
      cases hl : st.sh.filmLock with
      | free => rw [hl] at hs; simp only [Option.some.injEq] at hs; subst hs; simp only [RState.steps, he, MainPC.steps]; omega
      | held k => rw [hl] at hs; simp at hs
      | poisoned => rw [hl] at hs; simp only [Option.some.injEq] at hs; subst hs; simp only [RState.steps, he, MainPC.steps]; omega
    | done => rw [he] at hs; simp at hs
    | failed => rw [he] at hs; simp at hs
  | thread i pc pc' sh' hi hs =>
    have hsum := sum_set (PC.steps film) st.threads i pc pc' hi
    have hok := h.ok pc (List.mem_of_getElem? hi)
    simp only [RState.steps]
    -- every step lowers the thread's own count, except that fetching a tile moves the tile's work to the thread
    suffices H : pc'.steps film + (sh'.iter.toList.map fun b => tilePixels film b + 6).sum <
        pc.steps film + (st.sh.iter.toList.map fun b => tilePixels film b + 6).sum by omega
    cases pc with
    | wantIter s =>
      simp only [threadStep] at hs
      split_ifs at hs
      simp only [Option.some.injEq, Prod.mk.injEq] at hs
      obtain ⟨rfl, rfl⟩ := hs
      simp only [PC.steps]; omega
    | haveIter s =>
      simp only [threadStep, Option.some.injEq, Prod.mk.injEq] at hs
      obtain ⟨rfl, rfl⟩ := hs
      cases hn : st.sh.iter.next.1 with
      | none =>
        rw [(FilmTileIter.toList_none hn).1, (FilmTileIter.toList_none hn).2]
        simp only [PC.steps]; omega
      | some b =>
        rw [FilmTileIter.toList_some hn]
        simp only [PC.steps, List.map_cons, List.sum_cons]; omega
    | gotTile s r =>
      cases r <;> simp only [threadStep, Option.some.injEq, Prod.mk.injEq] at hs <;> obtain ⟨rfl, rfl⟩ := hs <;>
        simp only [PC.steps] <;> omega
    | rendering s b =>
      simp only [threadStep] at hs
      cases hw : work s b with
      | none =>
        rw [hw] at hs; simp only [Option.some.injEq, Prod.mk.injEq] at hs; obtain ⟨rfl, rfl⟩ := hs
        simp only [PC.steps]; omega
      | some r =>
        rw [hw] at hs; simp only [Option.some.injEq, Prod.mk.injEq] at hs; obtain ⟨rfl, rfl⟩ := hs
        simp only [PC.steps]; omega
    | wantFilm s b t =>
      obtain ⟨-, s0, hr0, hw⟩ := hok
      simp only [threadStep] at hs
      cases hl : st.sh.filmLock with
      | held k => rw [hl] at hs; simp at hs
      | poisoned =>
        rw [hl] at hs; simp only [Option.some.injEq, Prod.mk.injEq] at hs; obtain ⟨rfl, rfl⟩ := hs
        simp only [PC.steps]; omega
      | free =>
        rw [hl] at hs; simp only [Option.some.injEq, Prod.mk.injEq] at hs; obtain ⟨rfl, rfl⟩ := hs
        simp only [PC.steps, tilePixels, hwork _ _ _ _ hr0 hw]; omega
    | merging s b t rest =>
      cases rest with
      | nil =>
        simp only [threadStep, Option.some.injEq, Prod.mk.injEq] at hs
        obtain ⟨rfl, rfl⟩ := hs
        simp only [PC.steps, List.length_nil]; omega
      | cons p rest =>
        simp only [threadStep] at hs
        cases hm : st.sh.film.mergePixel t p with
        | none =>
          rw [hm] at hs; simp only [Option.some.injEq, Prod.mk.injEq] at hs; obtain ⟨rfl, rfl⟩ := hs
          simp only [PC.steps]; omega
        | some f =>
          rw [hm] at hs; simp only [Option.some.injEq, Prod.mk.injEq] at hs; obtain ⟨rfl, rfl⟩ := hs
          simp only [PC.steps, List.length_cons]; omega
    | finished => simp [threadStep] at hs
    | panicked => simp [threadStep] at hs

theorem step_decreases {work : σ → BBox2i → Option (FilmTile α × σ)} {sampler : σ} {film : Film α} {n : Nat}
    {file : Option (List UInt8)}
    (hwork : ∀ s b t s', work s b = some (t, s') → t.bbox = (film.getFilmTile b).bbox)
    {k : Nat} {st st' : RState α σ} (hr : RReach work sampler (RState.init film n file) k st)
    (hs : RStep work sampler st st') : st'.steps film n < st.steps film n :=
  step_decreases_of (R := fun _ => True) trivial (fun _ _ _ _ _ _ => trivial) (fun s b t s' _ => hwork s b t s') hr hs

/-- C07, termination: no schedule makes more steps than `5n + 4` plus, for each tile, its number of film pixels plus 6.
(The hypothesis says that rendering a tile gives a tile of the size the film prescribes; see
`renderTile_bbox`.)  Together with `c07_never_stuck`: every schedule ends with `render` having returned
or panicked. -/
theorem c07_bounded (work : σ → BBox2i → Option (FilmTile α × σ)) (sampler : σ) (film : Film α) (n : Nat)
    (file : Option (List UInt8))
    (hwork : ∀ s b t s', work s b = some (t, s') → t.bbox = (film.getFilmTile b).bbox)
    (k : Nat) (st : RState α σ) (hr : RReach work sampler (RState.init film n file) k st) :
    k ≤ 5 * n + 4 + (film.iter.toList.map fun b => (film.getFilmTile b).bbox.iter.toList.length + 6).sum := by
  suffices H : k + st.steps film n ≤ (RState.init film n file : RState α σ).steps film n by
    have : (RState.init film n file : RState α σ).steps film n =
        5 * n + 4 + (film.iter.toList.map fun b => tilePixels film b + 6).sum := by
      simp only [RState.init, RState.steps, MainPC.steps, List.map_nil, List.sum_nil]; omega
    simp only [tilePixels] at this
    omega
  induction hr with
  | zero => simp
  | succ k st st' hr hs ih =>
    have := step_decreases hwork hr hs
    omega

/-! ### C08 -/

/-- C08.  In every reachable state in which some worker thread has panicked, the output file is untouched (it is what it
was before `render`, not even created) and `render` has not returned; this remains so in every later
state. -/
theorem c08_no_image_after_panic (work : σ → BBox2i → Option (FilmTile α × σ)) (sampler : σ) (film : Film α) (n : Nat)
    (file : Option (List UInt8)) (k : Nat) (st : RState α σ)
    (hr : RReach work sampler (RState.init film n file) k st) (hp : .panicked ∈ st.threads) :
    st.file = file ∧ st.main ≠ .done ∧ st.main ≠ .writing ∧ st.main ≠ .opening ∧
    ∀ st', RStep work sampler st st' → .panicked ∈ st'.threads := by
  obtain ⟨log, lost, base, h⟩ := rinv_reach (R := fun _ => True) (fun _ _ _ _ _ _ => trivial) trivial hr
  have hm := h.main
  unfold mainOk at hm
  have hno : ¬ ∀ pc ∈ st.threads, pc = .finished := fun hc => by have := hc _ hp; simp at this
  have later : ∀ st', RStep work sampler st st' → .panicked ∈ st'.threads := by
    intro st' hs
    cases hs with
    | thread i pc pc' sh' hi hs =>
      refine mem_set_of_ne hi hp ?_ _
      rintro rfl; simp [threadStep] at hs
    | openFails => exact hp
    | main _ hs =>
      unfold mainStep at hs
      cases he : st.main with
      | spawning k => cases k <;> rw [he] at hs <;> simp only [Option.some.injEq] at hs <;> subst hs <;> simp [hp]
      | joining i =>
        rw [he] at hs; dsimp only at hs
        split at hs <;> simp only [Option.some.injEq, reduceCtorEq] at hs <;> subst hs <;> exact hp
      | opening => rw [he] at hs; simp only [Option.some.injEq] at hs; subst hs; exact hp
      | writing =>
        rw [he] at hs; dsimp only at hs
        split at hs <;> simp only [Option.some.injEq, reduceCtorEq] at hs <;> subst hs <;> exact hp
      | done => rw [he] at hs; simp at hs
      | failed => rw [he] at hs; simp at hs
  cases he : st.main with
  | spawning k => rw [he] at hm; exact ⟨hm.2, by simp, by simp, by simp, later⟩
  | joining i => rw [he] at hm; exact ⟨hm.2.2, by simp, by simp, by simp, later⟩
  | opening => rw [he] at hm; exact absurd hm.2.1 hno
  | writing => rw [he] at hm; exact absurd hm.2.1 hno
  | done => rw [he] at hm; exact absurd hm.2.1 hno
  | failed => rw [he] at hm; exact ⟨hm, by simp, by simp, by simp, later⟩

end PT
