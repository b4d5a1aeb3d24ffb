import Verif.Model.Writer
import Verif.Props.Output

/-!
# Crashes and errors while the image is written: C92, C93
-/

namespace PT

namespace Spec
/-- The bytes of the image. -/
def imageBytes {α : Type} [Scalar α] [Libm α] (film : Film α) : List UInt8 := film.writeImagePpm.toUTF8.toList

/-- The first `k` bytes of the image, then what was in the file before. -/
def firstBytes (k : Nat) (image old : List UInt8) : List UInt8 := image.take k ++ old.drop k
end Spec
open Spec

/-! ## Bytes of strings -/

theorem ByteArray_toList_loop (b : ByteArray) (i : Nat) (r : List UInt8) : ByteArray.toList.loop b i r = r.reverse ++ b.data.toList.drop i := by
  fun_induction ByteArray.toList.loop b i r with
  | case1 i r h ih =>
    rw [ih, List.reverse_cons, List.append_assoc]
    congr 1
    have h' : i < b.data.toList.length := by simpa using h
    rw [List.drop_eq_getElem_cons h']
    simp only [List.singleton_append, List.cons.injEq, and_true]
    have : b.get! i = b.data[i]! := rfl
    rw [this, getElem!_pos b.data i (by simpa using h)]
    simp
  | case2 i r h =>
    have h' : b.data.toList.length ≤ i := by simpa using h
    rw [List.drop_eq_nil_of_le h', List.append_nil]

theorem ByteArray_toList (b : ByteArray) : b.toList = b.data.toList := by
  rw [ByteArray.toList, ByteArray_toList_loop]; simp

theorem utf8_append (s t : String) : (s ++ t).toUTF8.toList = s.toUTF8.toList ++ t.toUTF8.toList := by
  rw [ByteArray_toList, ByteArray_toList, ByteArray_toList]
  change (s ++ t).toByteArray.data.toList = _
  rw [String.toByteArray_append, ByteArray.toList_data_append]
  rfl

/-- The pieces together are the image. -/
theorem pieces_flatten {α : Type} [Scalar α] [Libm α] (film : Film α) : film.ppmPieces.flatten = imageBytes film := by
  unfold Film.ppmPieces imageBytes Film.writeImagePpm
  rw [List.flatten_cons]
  generalize ("P3\n" ++ toString film.resolution.x ++ " " ++ toString film.resolution.y ++ "\n255\n") = s
  induction film.pixels generalizing s with
  | nil => simp
  | cons p l ih =>
    simp only [List.foldl_cons, ← ih, List.map_cons, List.flatten_cons, utf8_append, List.append_assoc]

/-! ## The invariant -/

/-- What holds at every moment: the image is split into what is in the file, what is in the buffer and what is to come. -/
structure Written (cap : Nat) (image : List UInt8) (old : Option (List UInt8)) (s : WState) : Prop where
  pos : s.pos ≤ image.length
  fits : s.buf.length ≤ cap
  file : (s.file = some (firstBytes s.pos image (old.getD []))) ∨ (s.file = old ∧ s.pos = 0 ∧ (s.phase = .opening ∨ s.phase = .done false))
  next : s.buf <+: image.drop s.pos
  all : (s.phase ≠ .closing false ∧ s.phase ≠ .done false) → image.drop s.pos = s.buf ++ s.todo.flatten
  last : (s.phase = .closing true ∨ s.phase = .done true) → s.todo = []
  empty : s.phase = .direct → s.buf = []
  opening : s.phase = .opening → s.buf = []

theorem writeAt_first {image old data : List UInt8} {p : Nat} (hp : p ≤ image.length) (hd : data <+: image.drop p) :
    writeAt (firstBytes p image old) p data = firstBytes (p + data.length) image old := by
  obtain ⟨t, ht⟩ := hd
  unfold writeAt firstBytes
  have e1 : (image.take p ++ old.drop p).take p = image.take p := by
    rw [List.take_append_of_le_length (by simp [hp]), List.take_take, min_self]
  have e2 : (image.take p ++ old.drop p).drop (p + data.length) = old.drop (p + data.length) := by
    rw [List.drop_append, List.drop_eq_nil_of_le (by simp), List.nil_append, List.drop_drop]
    congr 1
    simp [hp]
  rw [e1, e2, List.take_add, ← ht]
  simp

theorem drop_after {image buf rest : List UInt8} {p k : Nat} (h : image.drop p = buf ++ rest) (hk : k ≤ buf.length) :
    image.drop (p + k) = buf.drop k ++ rest := by
  rw [← List.drop_drop, h, List.drop_append_of_le_length hk]

theorem written_step {cap : Nat} {image : List UInt8} {old : Option (List UInt8)} {s s' : WState} {e : Option Sys} (hi : Written cap image old s)
    (h : WStep cap s e s') : Written cap image old s' := by
  have filed : s.phase ≠ .opening → s.phase ≠ .done false → s.file = some (firstBytes s.pos image (old.getD [])) := by
    intro h1 h2
    rcases hi.file with h | ⟨-, -, h | h⟩
    · exact h
    · exact absurd h h1
    · exact absurd h h2
  cases h with
  | openFails h =>
    exact ⟨hi.pos, hi.fits, by rcases hi.file with g | g; exacts [Or.inl g, Or.inr ⟨g.1, g.2.1, Or.inr rfl⟩], hi.next, by simp, by simp, by simp, by simp⟩
  | opens h =>
    have ha := hi.all (by simp [h])
    refine ⟨hi.pos, hi.fits, Or.inl ?_, hi.next, fun _ => ha, by simp, by simp, by simp⟩
    rcases hi.file with g | ⟨g1, g2, -⟩
    · simp [g]
    · simp [g1, g2, firstBytes]
  | put c cs h ht hc hf =>
    have ha := hi.all (by simp [h])
    rw [ht] at ha
    refine ⟨hi.pos, by simpa using hf, Or.inl (filed (by simp [h]) (by simp [h])), ?_, fun _ => ?_, by simp [h], by simp [h], by simp [h]⟩
    · rw [ha]; exact ⟨cs.flatten, by simp⟩
    · simpa using ha
  | full c cs h ht hf =>
    exact ⟨hi.pos, hi.fits, Or.inl (filed (by simp [h]) (by simp [h])), hi.next, fun _ => hi.all (by simp [h]), by simp, by simp, by simp⟩
  | wrote k h h1 hk =>
    have hf := filed (by rcases h with h | ⟨ok, h⟩ <;> simp [h]) (by rcases h with h | ⟨ok, h⟩ <;> simp [h])
    obtain ⟨t, ht⟩ := hi.next
    have hl : s.pos + k ≤ image.length := by
      have := congrArg List.length ht
      simp at this
      have := hi.pos
      omega
    refine ⟨hl, by simp; have := hi.fits; omega, Or.inl ?_, ⟨t, ?_⟩, fun g => ?_, hi.last, fun g => ?_, fun g => ?_⟩
    · simp only [hf, Option.getD_some]
      rw [writeAt_first hi.pos ⟨s.buf.drop k ++ t, by rw [← List.append_assoc, List.take_append_drop, ht]⟩]
      simp [hk]
    · exact (drop_after ht.symm hk).symm
    · exact drop_after (hi.all g) hk
    · rcases h with h | ⟨ok, h⟩ <;> simp [h] at g
    · rcases h with h | ⟨ok, h⟩ <;> simp [h] at g
  | interrupted h hb => exact hi
  | flushFails h hb =>
    exact ⟨hi.pos, hi.fits, Or.inl (filed (by simp [h]) (by simp [h])), hi.next, by simp, by simp, by simp, by simp⟩
  | flushed c cs h hb ht hc =>
    have ha := hi.all (by simp [h])
    rw [hb, ht] at ha
    refine ⟨hi.pos, hc.le, Or.inl (filed (by simp [h]) (by simp [h])), ?_, fun _ => ?_, by simp, by simp, by simp⟩
    · rw [ha]; exact ⟨cs.flatten, by simp⟩
    · simpa using ha
  | large c cs h hb ht hc =>
    exact ⟨hi.pos, hi.fits, Or.inl (filed (by simp [h]) (by simp [h])), hi.next, fun _ => hi.all (by simp [h]), by simp, fun _ => hb, by simp⟩
  | directWrote c cs k h ht h1 hk =>
    have hf := filed (by simp [h]) (by simp [h])
    have ha := hi.all (by simp [h])
    have hb := hi.empty h
    rw [hb, ht, List.nil_append, List.flatten_cons] at ha
    have hl : s.pos + k ≤ image.length := by
      have := congrArg List.length ha
      simp at this
      have := hi.pos
      omega
    refine ⟨hl, hi.fits, Or.inl ?_, by simp [hb], fun _ => ?_, by simp [h], fun _ => hb, by simp [h]⟩
    · simp only [hf, Option.getD_some]
      rw [writeAt_first hi.pos ⟨c.drop k ++ cs.flatten, by rw [← List.append_assoc, List.take_append_drop, ha]⟩]
      simp [hk]
    · simp only [hb, List.nil_append, List.flatten_cons]
      exact drop_after ha hk
  | directInterrupted c cs h ht hb => exact hi
  | directFails c cs h ht hb =>
    exact ⟨hi.pos, hi.fits, Or.inl (filed (by simp [h]) (by simp [h])), hi.next, by simp, by simp, by simp, by simp⟩
  | directDone cs h ht =>
    have ha := hi.all (by simp [h])
    rw [ht] at ha
    exact ⟨hi.pos, hi.fits, Or.inl (filed (by simp [h]) (by simp [h])), hi.next, fun _ => by simpa using ha, by simp, by simp, by simp⟩
  | written h ht =>
    exact ⟨hi.pos, hi.fits, Or.inl (filed (by simp [h]) (by simp [h])), hi.next, fun _ => hi.all (by simp [h]), fun _ => ht, by simp, by simp⟩
  | closeFails ok h hb =>
    refine ⟨hi.pos, hi.fits, Or.inl (filed (by simp [h]) (by simp [h])), hi.next, fun g => ?_, fun g => ?_, by simp, by simp⟩
    · cases ok
      · simp at g
      · exact hi.all (by simp [h])
    · cases ok
      · simp at g
      · exact hi.last (Or.inl h)
  | closed ok h hb =>
    refine ⟨hi.pos, hi.fits, Or.inl (filed (by simp [h]) (by simp [h])), hi.next, fun g => ?_, fun g => ?_, by simp, by simp⟩
    · cases ok
      · simp at g
      · exact hi.all (by simp [h])
    · cases ok
      · simp at g
      · exact hi.last (Or.inl h)

theorem written_reach {α : Type} [Scalar α] [Libm α] {film : Film α} {cap : Nat} {old : Option (List UInt8)} {l : List (Option Sys)} {s : WState}
    (h : WReach cap (WState.init film old) l s) : Written cap (imageBytes film) old s := by
  induction h with
  | nil =>
    refine ⟨Nat.zero_le _, Nat.zero_le _, Or.inr ⟨rfl, rfl, Or.inl rfl⟩, List.nil_prefix, fun _ => ?_, by simp [WState.init], by simp [WState.init], fun _ => rfl⟩
    simp [WState.init, pieces_flatten]
  | snoc l e s s' _ hs ih => exact written_step ih hs

/-! ## C92 -/

/-- **C92.**  At every moment of the writing, and so after a crash at any point, after every write error, and at the end, `output.ppm` is as it
was before or consists of the first bytes of the image followed by the rest of what was in it before. -/
theorem c92_crash_point {α : Type} [Scalar α] [Libm α] (film : Film α) (cap : Nat) (old : Option (List UInt8)) (l : List (Option Sys)) (s : WState)
    (h : WReach cap (WState.init film old) l s) :
    s.file = old ∨ ∃ k ≤ (imageBytes film).length, s.file = some (firstBytes k (imageBytes film) (old.getD [])) := by
  have w := written_reach h
  rcases w.file with g | ⟨g, -⟩
  · exact Or.inr ⟨s.pos, w.pos, g⟩
  · exact Or.inl g

/-! ## C93 -/

theorem no_failure {cap : Nat} {s0 : WState} (h0 : s0.phase = .opening) {l : List (Option Sys)} {s : WState} (h : WReach cap s0 l s)
    (hl : some Sys.failed ∉ l) : s.phase ≠ .done false ∧ s.phase ≠ .closing false ∧ (s.phase = .done true → s.buf = []) := by
  induction h with
  | nil => simp [h0]
  | snoc l e s s' _ hs ih =>
    obtain ⟨i1, i2, i3⟩ := ih (fun h => hl (List.mem_append_left _ h))
    have he : e ≠ some Sys.failed := fun h => hl (List.mem_append_right _ (by simp [h]))
    cases hs with
    | openFails h => exact absurd rfl he
    | opens h => simp
    | put c cs h ht hc hf => simp [h]
    | full c cs h ht hf => simp
    | wrote k h h1 hk =>
      refine ⟨i1, i2, fun g => ?_⟩
      rcases h with h | ⟨ok, h⟩ <;> simp [h] at g
    | interrupted h hb => exact ⟨i1, i2, i3⟩
    | flushFails h hb => exact absurd rfl he
    | flushed c cs h hb ht hc => simp
    | large c cs h hb ht hc => simp
    | directWrote c cs k h ht h1 hk => simp [h]
    | directInterrupted c cs h ht hb => exact ⟨i1, i2, i3⟩
    | directFails c cs h ht hb => exact absurd rfl he
    | directDone cs h ht => simp
    | written h ht => simp
    | closeFails ok h hb => exact absurd rfl he
    | closed ok h hb =>
      cases ok
      · exact absurd h i2
      · simp [hb]

/-- **C93** (partial: see `c93_silent_loss_refuted`).  If `render` returns, at most the last 8192 bytes of the image are missing in the file, and none
if no call of the operating system failed; then the file is what one undivided write would have made of it.  If `render` panics here, some call
has failed. -/
theorem c93_returned_partial {α : Type} [Scalar α] [Libm α] (film : Film α) (old : Option (List UInt8)) (l : List (Option Sys)) (s : WState)
    (h : WReach bufCapacity (WState.init film old) l s) :
    (s.phase = .done true → ∃ k ≤ (imageBytes film).length, (imageBytes film).length ≤ k + 8192 ∧
      s.file = some (firstBytes k (imageBytes film) (old.getD []))) ∧
    (s.phase = .done true → some Sys.failed ∉ l → s.file = some (outputFile (old.getD []) film)) ∧
    (s.phase = .done false → some Sys.failed ∈ l) := by
  have w := written_reach h
  have f : s.phase = .done true → s.file = some (firstBytes s.pos (imageBytes film) (old.getD [])) := by
    intro g
    rcases w.file with k | ⟨-, -, k | k⟩
    · exact k
    · rw [g] at k; cases k
    · rw [g] at k; cases k
  refine ⟨fun g => ⟨s.pos, w.pos, ?_, f g⟩, fun g hl => ?_, fun g => ?_⟩
  · have ha := w.all (by simp [g])
    rw [w.last (Or.inr g)] at ha
    have := congrArg List.length ha
    simp at this
    have := w.fits
    unfold bufCapacity at this
    omega
  · have hb := (no_failure rfl h hl).2.2 g
    have ha := w.all (by simp [g])
    rw [w.last (Or.inr g), hb] at ha
    have hp : (imageBytes film).length ≤ s.pos := by simpa using ha
    rw [f g]
    have e : s.pos = (imageBytes film).length := le_antisymm w.pos hp
    rw [e]
    unfold firstBytes outputFile overwriteFile
    rw [List.take_length]
    rfl
  · by_contra hc
    exact (no_failure rfl h hc).1 g

/-! ### Termination -/

/-- Steps still possible without interruptions. -/
def WState.fuel (s : WState) : Nat :=
  2 * s.buf.length + (s.todo.map fun c => 2 * c.length + 8).sum +
    match s.phase with | .opening => 5 | .writing => 4 | .flushing => 3 | .direct => 2 | .closing _ => 1 | .done _ => 0

theorem todo_left {cap : Nat} {s0 : WState} (h0 : s0.phase = .opening) {l : List (Option Sys)} {s : WState} (h : WReach cap s0 l s) :
    s.phase = .flushing ∨ s.phase = .direct → s.todo ≠ [] := by
  induction h with
  | nil => simp [h0]
  | snoc l e s s' _ hs ih =>
    cases hs with
    | openFails h => simp
    | opens h => simp
    | put c cs h ht hc hf => simp [h]
    | full c cs h ht hf => simp [ht]
    | wrote k h h1 hk => exact ih
    | interrupted h hb => exact ih
    | flushFails h hb => simp
    | flushed c cs h hb ht hc => simp
    | large c cs h hb ht hc => simp [ht]
    | directWrote c cs k h ht h1 hk => simp
    | directInterrupted c cs h ht hb => exact ih
    | directFails c cs h ht hb => simp
    | directDone cs h ht => simp
    | written h ht => simp
    | closeFails ok h hb => simp
    | closed ok h hb => simp

theorem fuel_step {cap : Nat} {s s' : WState} {e : Option Sys} (h : WStep cap s e s') : (e = some .interrupted ∧ s' = s) ∨ (e ≠ some .interrupted ∧ s'.fuel < s.fuel) := by
  cases h with
  | openFails h => right; simp [WState.fuel, h]
  | opens h => right; simp [WState.fuel, h]
  | put c cs h ht hc hf => right; simp [WState.fuel, h, ht]; omega
  | full c cs h ht hf => right; simp [WState.fuel, h]
  | wrote k h h1 hk => right; simp [WState.fuel]; omega
  | interrupted h hb => left; simp
  | flushFails h hb => right; simp [WState.fuel, h]
  | flushed c cs h hb ht hc => right; simp [WState.fuel, h, ht, hb]; omega
  | large c cs h hb ht hc => right; simp [WState.fuel, h]
  | directWrote c cs k h ht h1 hk => right; simp [WState.fuel, h, ht]; omega
  | directInterrupted c cs h ht hb => left; simp
  | directFails c cs h ht hb => right; simp [WState.fuel, h]
  | directDone cs h ht => right; simp [WState.fuel, h, ht]; omega
  | written h ht => right; simp [WState.fuel, h]
  | closeFails ok h hb => right; simp [WState.fuel, h]
  | closed ok h hb => right; simp [WState.fuel, h]

theorem fuel_pieces (cs : List (List UInt8)) : (cs.map fun c => 2 * c.length + 8).sum = 2 * cs.flatten.length + 8 * cs.length := by
  induction cs with
  | nil => rfl
  | cons c cs ih => simp only [List.map_cons, List.sum_cons, ih, List.flatten_cons, List.length_append, List.length_cons]; ring

/-- **C93** (writing ends).  Writing never gets stuck before its end, and the number of its steps, apart from interruptions, is bounded by the size
of the image: so it ends unless the operating system interrupts it for ever. -/
theorem c93_finishes {α : Type} [Scalar α] [Libm α] (film : Film α) (old : Option (List UInt8)) (l : List (Option Sys)) (s : WState)
    (h : WReach bufCapacity (WState.init film old) l s) :
    ((∀ ok, s.phase ≠ .done ok) → ∃ e s', e ≠ some .interrupted ∧ e ≠ some .failed ∧ WStep bufCapacity s e s') ∧
    (l.filter (· ≠ some .interrupted)).length ≤ 2 * (imageBytes film).length + 8 * film.pixels.length + 13 := by
  constructor
  · intro hp
    have ht := todo_left rfl h
    cases hph : s.phase with
    | opening => exact ⟨_, _, by simp, by simp, .opens s hph⟩
    | writing =>
      cases hc : s.todo with
      | nil => exact ⟨_, _, by simp, by simp, .written s hph hc⟩
      | cons c cs =>
        by_cases h1 : c.length < bufCapacity ∧ s.buf.length + c.length ≤ bufCapacity
        · exact ⟨_, _, by simp, by simp, .put s c cs hph hc h1.1 h1.2⟩
        · exact ⟨_, _, by simp, by simp, .full s c cs hph hc (by omega)⟩
    | flushing =>
      cases hb : s.buf with
      | cons b bs => exact ⟨_, _, by simp, by simp, .wrote s 1 (Or.inl hph) le_rfl (by simp [hb])⟩
      | nil =>
        cases hc : s.todo with
        | nil => exact absurd hc (ht (Or.inl hph))
        | cons c cs =>
          by_cases h1 : c.length < bufCapacity
          · exact ⟨_, _, by simp, by simp, .flushed s c cs hph hb hc h1⟩
          · exact ⟨_, _, by simp, by simp, .large s c cs hph hb hc (by omega)⟩
    | direct =>
      cases hc : s.todo with
      | nil => exact absurd hc (ht (Or.inr hph))
      | cons c cs =>
        cases c with
        | nil => exact ⟨_, _, by simp, by simp, .directDone s cs hph hc⟩
        | cons b bs => exact ⟨_, _, by simp, by simp, .directWrote s _ cs 1 hph hc le_rfl (by simp)⟩
    | closing ok =>
      cases hb : s.buf with
      | cons b bs => exact ⟨_, _, by simp, by simp, .wrote s 1 (Or.inr ⟨ok, hph⟩) le_rfl (by simp [hb])⟩
      | nil => exact ⟨_, _, by simp, by simp, .closed s ok hph hb⟩
    | done ok => exact absurd hph (hp ok)
  · have key : (l.filter (· ≠ some .interrupted)).length + s.fuel ≤ (WState.init film old).fuel := by
      induction h with
      | nil => simp
      | snoc l e s s' _ hs ih =>
        rcases fuel_step hs with ⟨rfl, rfl⟩ | ⟨h1, h2⟩
        · simpa using ih
        · rw [List.filter_append, List.length_append]
          have : ([e].filter (· ≠ some Sys.interrupted)).length ≤ 1 := List.length_filter_le _ _
          omega
    have e : (WState.init film old).fuel = 2 * (imageBytes film).length + 8 * film.ppmPieces.length + 5 := by
      simp only [WState.fuel, WState.init, fuel_pieces, pieces_flatten, List.length_nil]; omega
    have e2 : film.ppmPieces.length = film.pixels.length + 1 := by simp [Film.ppmPieces]
    omega

/-! ### Errors that nobody hears of -/

theorem puts_all {cap : Nat} {s0 : WState} (cs : List (List UInt8)) : ∀ {l : List (Option Sys)} {s : WState}, WReach cap s0 l s → s.phase = .writing →
    s.todo = cs → s.buf.length + cs.flatten.length < cap →
    ∃ l' s', WReach cap s0 l' s' ∧ s'.phase = .writing ∧ s'.todo = [] ∧ s'.buf = s.buf ++ cs.flatten ∧ s'.file = s.file := by
  induction cs with
  | nil => intro l s h h1 h2 _; exact ⟨l, s, h, h1, h2, by simp, rfl⟩
  | cons c cs ih =>
    intro l s h h1 h2 h3
    rw [List.flatten_cons, List.length_append] at h3
    have st := WReach.snoc l _ s _ h (.put s c cs h1 h2 (by omega) (by omega))
    obtain ⟨l', s', g1, g2, g3, g4, g5⟩ := ih st h1 rfl (by simp only [List.length_append]; omega)
    exact ⟨l', s', g1, g2, g3, by simpa using g4, g5⟩

/-- Every image that fits into the buffer can be lost. -/
theorem loses {α : Type} [Scalar α] [Libm α] (film : Film α) (old : Option (List UInt8)) (h : (imageBytes film).length < bufCapacity) (h0 : imageBytes film ≠ []) :
    ∃ l s, WReach bufCapacity (WState.init film old) l s ∧ s.phase = .done true ∧ s.file = some (old.getD []) := by
  have r1 := WReach.snoc [] _ _ _ (WReach.nil (cap := bufCapacity) (s0 := WState.init film old)) (.opens _ rfl)
  obtain ⟨l, s, r2, p2, t2, b2, f2⟩ := puts_all film.ppmPieces r1 rfl rfl (by rw [pieces_flatten]; simpa [WState.init] using h)
  have r3 := WReach.snoc _ _ _ _ r2 (.written s p2 t2)
  have r4 := WReach.snoc _ _ _ _ r3 (.closeFails _ true rfl (by
    simp only [b2, WState.init, List.nil_append, pieces_flatten]; exact h0))
  exact ⟨_, _, r4, rfl, f2⟩

theorem small_digits : ∀ n < 601, (toString n).toUTF8.size ≤ 3 := by decide +kernel
theorem smaller_digits : ∀ n < 256, (toString n).toUTF8.size ≤ 3 := fun n h => small_digits n (by omega)

theorem length_toList (s : String) : s.toUTF8.toList.length = s.toUTF8.size := by
  rw [ByteArray_toList]; simp

/-- The full statement of C93 fails: whatever the image, if it has at most 600 pixels the operating system may refuse to store it (say because
the disk is full) and `render` returns as if all were well, with nothing written. -/
theorem c93_silent_loss_refuted [Libm F32] (film : Film F32) (old : Option (List UInt8)) (hx : 0 ≤ film.resolution.x ∧ film.resolution.x ≤ 600)
    (hy : 0 ≤ film.resolution.y ∧ film.resolution.y ≤ 600) (hp : film.pixels.length ≤ 600) :
    ∃ l s, WReach bufCapacity (WState.init film old) l s ∧ s.phase = .done true ∧ s.file = some (old.getD []) := by
  have hd : ∀ z : Int, 0 ≤ z ∧ z ≤ 600 → (toString z).toUTF8.toList.length ≤ 3 := by
    intro z ⟨h1, h2⟩
    obtain ⟨n, rfl⟩ := Int.eq_ofNat_of_zero_le h1
    rw [length_toList]
    exact small_digits n (by omega)
  have hb : ∀ c w : F32, (toString (channelByte c w)).toUTF8.toList.length ≤ 3 := by
    intro c w
    rw [length_toList]
    have : channelByte c w ≤ 255 := clamp_round_byte _
    exact small_digits _ (by omega)
  have hlen : (imageBytes film).length ≤ 20 + 12 * film.pixels.length := by
    rw [← pieces_flatten]
    unfold Film.ppmPieces
    rw [List.flatten_cons, List.length_append]
    have h1 : ("P3\n" ++ toString film.resolution.x ++ " " ++ toString film.resolution.y ++ "\n255\n").toUTF8.toList.length ≤ 20 := by
      simp only [utf8_append, List.length_append]
      have := hd _ hx
      have := hd _ hy
      have : "P3\n".toUTF8.toList.length = 3 := by decide +kernel
      have : " ".toUTF8.toList.length = 1 := by decide +kernel
      have : "\n255\n".toUTF8.toList.length = 5 := by decide +kernel
      omega
    have h2 : ∀ ps : List (Pixel F32), (ps.map fun p =>
        let c := p.color.map (fun c => channelByte c p.weight)
        (toString c.r ++ " " ++ toString c.g ++ " " ++ toString c.b ++ "\n").toUTF8.toList).flatten.length ≤ 12 * ps.length := by
      intro ps
      induction ps with
      | nil => simp
      | cons p ps ih =>
        rw [List.map_cons, List.flatten_cons, List.length_append, List.length_cons]
        have : (toString (p.color.map (fun c => channelByte c p.weight)).r ++ " " ++ toString (p.color.map (fun c => channelByte c p.weight)).g ++ " " ++
            toString (p.color.map (fun c => channelByte c p.weight)).b ++ "\n").toUTF8.toList.length ≤ 12 := by
          simp only [utf8_append, List.length_append]
          have := hb p.color.r p.weight
          have := hb p.color.g p.weight
          have := hb p.color.b p.weight
          have : " ".toUTF8.toList.length = 1 := by decide +kernel
          have : "\n".toUTF8.toList.length = 1 := by decide +kernel
          simp only [Spectrum.map]
          omega
        simp only [] at ih ⊢
        omega
    have := h2 film.pixels
    simp only [] at this ⊢
    omega
  apply loses
  · unfold bufCapacity; omega
  · intro h
    have := congrArg List.length h
    rw [← pieces_flatten] at this
    unfold Film.ppmPieces at this
    simp only [utf8_append, List.flatten_cons, List.length_append, List.length_nil] at this
    have : "P3\n".toUTF8.toList.length = 3 := by decide +kernel
    omega

namespace Demo
/-- A film of one black pixel. -/
def blackFilm : Film F32 := ⟨⟨1, 1⟩, lit 1, [], [⟨Spectrum.zero, lit 1⟩]⟩

/-- The hypotheses of `c93_silent_loss_refuted` are met. -/
example [Libm F32] : ∃ l s, WReach bufCapacity (WState.init blackFilm none) l s ∧ s.phase = .done true ∧ s.file = some [] :=
  c93_silent_loss_refuted blackFilm none (by decide) (by decide) (by decide)

/-- A crash in the middle: of an image of two pieces over a longer file, three bytes have been written. -/
example : ∃ l s, WReach 4 ⟨.opening, some [9, 9, 9, 9, 9, 9], 0, [], [[1, 2, 3], [4, 5]]⟩ l s ∧ s.file = some [1, 2, 3, 9, 9, 9] ∧ s.phase = .flushing := by
  have r1 := WReach.snoc [] _ _ _ (WReach.nil (cap := 4) (s0 := ⟨.opening, some [9, 9, 9, 9, 9, 9], 0, [], [[1, 2, 3], [4, 5]]⟩)) (.opens _ rfl)
  have r2 := WReach.snoc _ _ _ _ r1 (.put _ [1, 2, 3] [[4, 5]] rfl rfl (by decide) (by decide))
  have r3 := WReach.snoc _ _ _ _ r2 (.full _ [4, 5] [] rfl rfl (by decide))
  have r4 := WReach.snoc _ _ _ _ r3 (.wrote _ 2 (Or.inl rfl) (by decide) (by decide))
  have r5 := WReach.snoc _ _ _ _ r4 (.wrote _ 1 (Or.inl rfl) (by decide) (by decide))
  exact ⟨_, _, r5, rfl, rfl⟩
end Demo

end PT
