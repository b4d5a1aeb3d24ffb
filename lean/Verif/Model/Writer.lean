import Verif.Model.Output

/-!
# Writing the image through a buffer, /repo/src/integrator.rs:74-81, /repo/src/film.rs:87-106

`Model/Render` takes the writing of the file as one step.  Here it is taken apart: the file is opened, `write_image_ppm` hands its pieces to a
`BufWriter`, which passes them on with calls of `write` that the operating system may answer with less than asked, with an interruption or with
an error, and at the end of the function the `BufWriter` is dropped.  `BufWriter` is part of the standard library and not of the repository;
what is written here is its documented behaviour (`write_all`, `flush_buf`, `drop`).
-/

namespace PT

/-- The pieces that `write_image_ppm` writes with one `write_all` each, /repo/src/film.rs:90-105. -/
def Film.ppmPieces {α : Type} [Scalar α] [Libm α] (film : Film α) : List (List UInt8) :=
  ("P3\n" ++ toString film.resolution.x ++ " " ++ toString film.resolution.y ++ "\n255\n").toUTF8.toList ::
    film.pixels.map fun p =>
      let c := p.color.map (fun c => channelByte c p.weight)
      (toString c.r ++ " " ++ toString c.g ++ " " ++ toString c.b ++ "\n").toUTF8.toList

/-- Capacity of `BufWriter::new` (/repo/src/integrator.rs:74; 8 KiB in the standard library). -/
def bufCapacity : Nat := 8192

/-- Answers of the operating system; an answer of 0 bytes counts as `failed` (std: `ErrorKind::WriteZero`). -/
inductive Sys where
  | wrote (k : Nat)
  | interrupted
  | failed
  deriving DecidableEq

/-- Where the function is, /repo/src/integrator.rs:74-82. -/
inductive WPhase where
  /-- `OpenOptions::open` -/
  | opening
  /-- in `write_image_ppm`, before a `write_all` or at its end -/
  | writing
  /-- the next piece does not fit: `flush_buf` -/
  | flushing
  /-- the piece is not shorter than the buffer and is written directly -/
  | direct
  /-- the `BufWriter` is dropped because the function ends (`ok`) or because of a panic -/
  | closing (ok : Bool)
  /-- `render` has returned (`ok`) or panicked -/
  | done (ok : Bool)
  deriving DecidableEq

/-- `file` is `output.ppm` (`none`: does not exist), `pos` the offset at which the next byte goes. -/
structure WState where
  phase : WPhase
  file : Option (List UInt8)
  pos : Nat
  buf : List UInt8
  todo : List (List UInt8)

/-- Effect of writing `data` at offset `pos` (POSIX; `pos` is never beyond the end here). -/
def writeAt (file : List UInt8) (pos : Nat) (data : List UInt8) : List UInt8 :=
  file.take pos ++ data ++ file.drop (pos + data.length)

/-- One step.  The label is the answer of the operating system, or `none` for a step of the program alone.
/repo/src/integrator.rs:74-81, /repo/src/film.rs:91, 99-104 -/
inductive WStep (cap : Nat) : WState → Option Sys → WState → Prop
  | openFails (s : WState) (h : s.phase = .opening) : WStep cap s (some .failed) { s with phase := .done false }
  | opens (s : WState) (h : s.phase = .opening) : WStep cap s none { s with phase := .writing, file := some (s.file.getD []) }
  | put (s : WState) (c : List UInt8) (cs : List (List UInt8)) (h : s.phase = .writing) (ht : s.todo = c :: cs) (hc : c.length < cap)
      (hf : s.buf.length + c.length ≤ cap) : WStep cap s none { s with buf := s.buf ++ c, todo := cs }
  | full (s : WState) (c : List UInt8) (cs : List (List UInt8)) (h : s.phase = .writing) (ht : s.todo = c :: cs)
      (hf : cap ≤ c.length ∨ cap < s.buf.length + c.length) : WStep cap s none { s with phase := .flushing }
  | wrote (s : WState) (k : Nat) (h : s.phase = .flushing ∨ ∃ ok, s.phase = .closing ok) (h1 : 1 ≤ k) (hk : k ≤ s.buf.length) :
      WStep cap s (some (.wrote k)) { s with file := some (writeAt (s.file.getD []) s.pos (s.buf.take k)), pos := s.pos + k, buf := s.buf.drop k }
  | interrupted (s : WState) (h : s.phase = .flushing ∨ ∃ ok, s.phase = .closing ok) (hb : s.buf ≠ []) : WStep cap s (some .interrupted) s
  | flushFails (s : WState) (h : s.phase = .flushing) (hb : s.buf ≠ []) : WStep cap s (some .failed) { s with phase := .closing false }
  | flushed (s : WState) (c : List UInt8) (cs : List (List UInt8)) (h : s.phase = .flushing) (hb : s.buf = []) (ht : s.todo = c :: cs)
      (hc : c.length < cap) : WStep cap s none { s with phase := .writing, buf := c, todo := cs }
  | large (s : WState) (c : List UInt8) (cs : List (List UInt8)) (h : s.phase = .flushing) (hb : s.buf = []) (ht : s.todo = c :: cs)
      (hc : cap ≤ c.length) : WStep cap s none { s with phase := .direct }
  | directWrote (s : WState) (c : List UInt8) (cs : List (List UInt8)) (k : Nat) (h : s.phase = .direct) (ht : s.todo = c :: cs) (h1 : 1 ≤ k)
      (hk : k ≤ c.length) :
      WStep cap s (some (.wrote k)) { s with file := some (writeAt (s.file.getD []) s.pos (c.take k)), pos := s.pos + k, todo := c.drop k :: cs }
  | directInterrupted (s : WState) (c : List UInt8) (cs : List (List UInt8)) (h : s.phase = .direct) (ht : s.todo = c :: cs) (hb : c ≠ []) :
      WStep cap s (some .interrupted) s
  | directFails (s : WState) (c : List UInt8) (cs : List (List UInt8)) (h : s.phase = .direct) (ht : s.todo = c :: cs) (hb : c ≠ []) :
      WStep cap s (some .failed) { s with phase := .closing false }
  | directDone (s : WState) (cs : List (List UInt8)) (h : s.phase = .direct) (ht : s.todo = [] :: cs) :
      WStep cap s none { s with phase := .writing, todo := cs }
  | written (s : WState) (h : s.phase = .writing) (ht : s.todo = []) : WStep cap s none { s with phase := .closing true }
  /-- errors while dropping are ignored (std: `let _r = self.flush_buf();`) -/
  | closeFails (s : WState) (ok : Bool) (h : s.phase = .closing ok) (hb : s.buf ≠ []) : WStep cap s (some .failed) { s with phase := .done ok }
  | closed (s : WState) (ok : Bool) (h : s.phase = .closing ok) (hb : s.buf = []) : WStep cap s none { s with phase := .done ok }

/-- The state before /repo/src/integrator.rs:74; `old` is the file before. -/
def WState.init {α : Type} [Scalar α] [Libm α] (film : Film α) (old : Option (List UInt8)) : WState :=
  { phase := .opening, file := old, pos := 0, buf := [], todo := film.ppmPieces }

/-- The states reached with the answers `l` (in order), for all behaviours of the operating system. -/
inductive WReach (cap : Nat) (s0 : WState) : List (Option Sys) → WState → Prop
  | nil : WReach cap s0 [] s0
  | snoc (l : List (Option Sys)) (e : Option Sys) (s s' : WState) : WReach cap s0 l s → WStep cap s e s' → WReach cap s0 (l ++ [e]) s'

end PT
