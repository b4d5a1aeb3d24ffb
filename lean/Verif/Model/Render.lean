import Verif.Model.Film
import Verif.Model.Output

/-!
# The multi-threaded driver, /repo/src/integrator.rs:41-82

A transition system.  Each thread is a program counter; a step of the system is one step of
one thread, chosen arbitrarily.  The two mutexes are explicit; the merge of a tile under the
film's mutex goes pixel by pixel.

The rendering of one tile (integrator.rs:94-115, `Verif.Model.RenderTile`) touches no shared
mutable state, so it is one step here: a function `work` of the thread's sampler and the tile's box,
with `none` for a panic.  Std semantics used: a panic while a mutex is held poisons it; `lock().unwrap()` on a poisoned
mutex panics; `join().unwrap()` on a panicked thread panics.  Not modelled: failure to spawn a
thread.
-/

namespace PT
variable {α : Type} [Scalar α] {σ : Type}

/-- State of the mutex around the film's pixels (/repo/src/film.rs:22). -/
inductive FilmLock where
  | free | held (tid : Nat) | poisoned
  deriving DecidableEq

/-- What the threads share: the tile iterator with its mutex (/repo/src/integrator.rs:42; `iter.next` cannot
panic, so this one is never poisoned) and the film with its mutex. -/
structure Shared (α : Type) where
  iter : FilmTileIter
  iterLock : Option Nat
  film : Film α
  filmLock : FilmLock

/-- Where a worker thread is, /repo/src/integrator.rs:52-68 and 117, /repo/src/film.rs:79-84. -/
inductive PC (α σ : Type) where
  /-- before `film_tile_iter.lock()` (line 61) -/
  | wantIter (s : σ)
  /-- holding the iterator's lock, before `iter.next()` (line 62) -/
  | haveIter (s : σ)
  /-- after `iter.next()`, the guard not yet dropped (line 63) -/
  | gotTile (s : σ) (r : Option BBox2i)
  /-- inside `integrator.render` (line 64), up to line 115 -/
  | rendering (s : σ) (b : BBox2i)
  /-- before `self.pixels.lock()` (film.rs:80) -/
  | wantFilm (s : σ) (b : BBox2i) (t : FilmTile α)
  /-- holding the film's lock, with these pixels still to merge (film.rs:81-83) -/
  | merging (s : σ) (b : BBox2i) (t : FilmTile α) (rest : List (V2 Int))
  | finished
  | panicked

/-- One step of worker thread `tid`; `none` when it is blocked or has ended. -/
def threadStep (work : σ → BBox2i → Option (FilmTile α × σ)) (tid : Nat) (sh : Shared α) :
    PC α σ → Option (Shared α × PC α σ)
  | .wantIter s =>
    if sh.iterLock = none then some ({ sh with iterLock := some tid }, .haveIter s) else none
  | .haveIter s => some ({ sh with iter := sh.iter.next.2 }, .gotTile s sh.iter.next.1)
  | .gotTile _ none => some ({ sh with iterLock := none }, .finished)
  | .gotTile s (some b) => some ({ sh with iterLock := none }, .rendering s b)
  | .rendering s b =>
    match work s b with
    | none => some (sh, .panicked)
    | some (t, s') => some (sh, .wantFilm s' b t)
  | .wantFilm s b t =>
    match sh.filmLock with
    | .free => some ({ sh with filmLock := .held tid }, .merging s b t t.bbox.iter.toList)
    | .held _ => none
    | .poisoned => some (sh, .panicked)
  | .merging s _ _ [] => some ({ sh with filmLock := .free }, .wantIter s)
  | .merging s b t (p :: rest) =>
    match sh.film.mergePixel t p with
    | none => some ({ sh with filmLock := .poisoned }, .panicked)
    | some film => some ({ sh with film }, .merging s b t rest)
  | .finished => none
  | .panicked => none

/-- Where the main thread is, /repo/src/integrator.rs:41-82. -/
inductive MainPC where
  /-- in the loop of lines 45-70, with so many threads still to spawn -/
  | spawning (k : Nat)
  /-- line 72, joining thread `i` -/
  | joining (i : Nat)
  /-- before opening the file (lines 74-80) -/
  | opening
  /-- before `write_image_ppm` (line 81) -/
  | writing
  /-- `render` has returned -/
  | done
  /-- `render` has panicked -/
  | failed
  deriving DecidableEq

/-- The whole state; `file` is `output.ppm` (`none`: does not exist). -/
structure RState (α σ : Type) where
  main : MainPC
  sh : Shared α
  threads : List (PC α σ)
  file : Option (List UInt8)

/-- One step of the main thread; `none` when blocked or ended. -/
def mainStep [Libm α] (sampler : σ) (st : RState α σ) : Option (RState α σ) :=
  match st.main with
  | .spawning (k + 1) => some { st with main := .spawning k, threads := st.threads ++ [.wantIter sampler] }
  | .spawning 0 => some { st with main := .joining 0 }
  | .joining i =>
    match st.threads[i]? with
    | none => some { st with main := .opening }
    | some .finished => some { st with main := .joining (i + 1) }
    | some .panicked => some { st with main := .failed }
    | some _ => none
  | .opening => some { st with main := .writing, file := some (st.file.getD []) }
  | .writing =>
    match st.sh.filmLock with
    | .free => some { st with main := .done, file := some (outputFile (st.file.getD []) st.sh.film) }
    | .held _ => none
    | .poisoned => some { st with main := .failed }
  | .done => none
  | .failed => none

/-- One step of the system: of some worker thread, of the main thread, or the file cannot be opened
(`open(..).unwrap()` panics). -/
inductive RStep [Libm α] (work : σ → BBox2i → Option (FilmTile α × σ)) (sampler : σ) : RState α σ → RState α σ → Prop
  | thread (st : RState α σ) (i : Nat) (pc pc' : PC α σ) (sh' : Shared α) (h : st.threads[i]? = some pc)
      (hs : threadStep work i st.sh pc = some (sh', pc')) :
      RStep work sampler st { st with sh := sh', threads := st.threads.set i pc' }
  | main (st st' : RState α σ) (hs : mainStep sampler st = some st') : RStep work sampler st st'
  | openFails (st : RState α σ) (h : st.main = .opening) : RStep work sampler st { st with main := .failed }

/-- The state in which `render(max_threads)` starts, /repo/src/integrator.rs:41-44. -/
def RState.init (film : Film α) (maxThreads : Nat) (file : Option (List UInt8)) : RState α σ :=
  { main := .spawning maxThreads
    sh := { iter := film.iter, iterLock := none, film, filmLock := .free }
    threads := [], file }

/-- The states reached by `n` steps of any schedule. -/
inductive RReach [Libm α] (work : σ → BBox2i → Option (FilmTile α × σ)) (sampler : σ) (st0 : RState α σ) :
    Nat → RState α σ → Prop
  | zero : RReach work sampler st0 0 st0
  | succ (n st st') : RReach work sampler st0 n st → RStep work sampler st st' → RReach work sampler st0 (n + 1) st'

end PT
