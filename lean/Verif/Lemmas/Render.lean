import Verif.Model.Render
import Verif.Lemmas.Iter
import Mathlib.Algebra.BigOperators.Group.List.Basic
import Mathlib.Algebra.Order.Group.Multiset

/-! # Invariants of the render system -/

namespace PT

/-- Replacing one summand. -/
theorem sum_set {β M : Type} [AddCommMonoid M] (f : β → M) : ∀ (l : List β) (i : Nat) (a b : β), l[i]? = some a →
    ((l.set i b).map f).sum + f a = (l.map f).sum + f b
  | [], i, a, b, h => by simp at h
  | x :: l, 0, a, b, h => by
    simp only [List.getElem?_cons_zero, Option.some.injEq] at h
    subst h
    simp only [List.set_cons_zero, List.map_cons, List.sum_cons]
    abel
  | x :: l, i + 1, a, b, h => by
    simp only [List.getElem?_cons_succ] at h
    have := sum_set f l i a b h
    simp only [List.set_cons_succ, List.map_cons, List.sum_cons]
    rw [add_assoc, this, add_assoc]

theorem FilmTileIter.toList_none {it : FilmTileIter} (h : it.next.1 = none) :
    it.toList = [] ∧ it.next.2.toList = [] := by
  have key : ∀ it : FilmTileIter, it.next.1 = none → it.next.2.nTiles.y ≤ it.next.2.i.y := by
    intro it
    fun_induction FilmTileIter.next it with
    | case1 it h1 => intro _; exact h1
    | case2 it h1 h2 ih => exact ih
    | case3 it h1 h2 => simp
  have fixed : ∀ s : FilmTileIter, s.nTiles.y ≤ s.i.y → s.next = (none, s) := by
    intro s hs; rw [FilmTileIter.next, if_pos hs]
  have nil : ∀ s : FilmTileIter, s.next.1 = none → s.toList = [] := by
    intro s hs
    unfold FilmTileIter.toList
    split
    · rfl
    · rename_i t it' e; rw [e] at hs; simp at hs
  exact ⟨nil _ h, nil _ (by rw [fixed _ (key _ h)])⟩

theorem FilmTileIter.toList_some {it : FilmTileIter} {b : BBox2i} (h : it.next.1 = some b) :
    it.toList = b :: it.next.2.toList := by
  conv_lhs => unfold FilmTileIter.toList
  split
  · rename_i it' e; rw [e] at h; simp at h
  · rename_i t it' e; rw [e] at h ⊢; simp at h; rw [h]

variable {α : Type} [Scalar α] {σ : Type}

/-- The box a thread is responsible for. -/
def PC.box : PC α σ → Multiset BBox2i
  | .gotTile _ (some b) => {b}
  | .rendering _ b => {b}
  | .wantFilm _ b _ => {b}
  | .merging _ b _ _ => {b}
  | _ => 0

def PC.HoldsIter : PC α σ → Prop
  | .haveIter _ => True
  | .gotTile _ _ => True
  | _ => False

def PC.Over : PC α σ → Prop
  | .gotTile _ none => True
  | .finished => True
  | _ => False

/-- Facts about the local variables; `R` is any invariant of the samplers. -/
def PC.Ok (work : σ → BBox2i → Option (FilmTile α × σ)) (R : σ → Prop) : PC α σ → Prop
  | .wantIter s => R s
  | .haveIter s => R s
  | .gotTile s _ => R s
  | .rendering s _ => R s
  | .wantFilm s b t => R s ∧ ∃ s0, R s0 ∧ work s0 b = some (t, s)
  | .merging s b t _ => R s ∧ ∃ s0, R s0 ∧ work s0 b = some (t, s)
  | _ => True

/-- A finished piece of work: the sampler it started with, the box, the resulting tile. -/
abbrev LogEntry (α σ : Type) := σ × BBox2i × FilmTile α

/-- Merging the tiles of a log one after the other. -/
def mergeLog (film : Film α) (log : List (LogEntry α σ)) : Option (Film α) :=
  log.foldlM (fun f e => f.mergeFilmTile e.2.2) film

def mainOk (n : Nat) (file0 : Option (List UInt8)) [Libm α] (st : RState α σ) : Prop :=
  match st.main with
  | .spawning k => st.threads.length + k = n ∧ st.file = file0
  | .joining i => st.threads.length = n ∧ (∀ j < i, st.threads[j]? = some .finished) ∧ st.file = file0
  | .opening => st.threads.length = n ∧ (∀ pc ∈ st.threads, pc = .finished) ∧ st.file = file0
  | .writing => st.threads.length = n ∧ (∀ pc ∈ st.threads, pc = .finished) ∧ st.file = some (file0.getD [])
  | .done => st.threads.length = n ∧ (∀ pc ∈ st.threads, pc = .finished) ∧
      st.file = some (outputFile (file0.getD []) st.sh.film) ∧ st.sh.filmLock = .free
  | .failed => st.file = file0

structure RInv [Libm α] (work : σ → BBox2i → Option (FilmTile α × σ)) (R : σ → Prop) (film0 : Film α) (n : Nat)
    (file0 : Option (List UInt8)) (log : List (LogEntry α σ)) (lost : Multiset BBox2i) (base : Film α)
    (st : RState α σ) : Prop where
  ok : ∀ pc ∈ st.threads, pc.Ok work R
  logOk : ∀ e ∈ log, R e.1 ∧ ∃ s', work e.1 e.2.1 = some (e.2.2, s')
  count : (film0.iter.toList : Multiset BBox2i) =
    (log.map (·.2.1) : List BBox2i) + (st.threads.map PC.box).sum + (st.sh.iter.toList : Multiset BBox2i) + lost
  lost0 : .panicked ∉ st.threads → lost = 0
  baseOk : mergeLog film0 log = some base
  filmFree : st.sh.filmLock = .free → st.sh.film = base
  filmHeld : ∀ i, st.sh.filmLock = .held i ↔ ∃ s b t rest, st.threads[i]? = some (.merging s b t rest)
  mergeOk : ∀ (i : Nat) (s : σ) (b : BBox2i) (t : FilmTile α) (rest : List (V2 Int)),
    st.threads[i]? = some (.merging s b t rest) →
    ∃ done, t.bbox.iter.toList = done ++ rest ∧ done.foldlM (fun f p => f.mergePixel t p) base = some st.sh.film
  poisoned : st.sh.filmLock = .poisoned → .panicked ∈ st.threads
  iterHeld : ∀ i, st.sh.iterLock = some i ↔ ∃ pc, st.threads[i]? = some pc ∧ pc.HoldsIter
  over : ∀ pc ∈ st.threads, pc.Over → st.sh.iter.toList = []
  main : mainOk n file0 st

theorem rinv_init [Libm α] (work : σ → BBox2i → Option (FilmTile α × σ)) (R : σ → Prop) (film0 : Film α) (n : Nat)
    (file0 : Option (List UInt8)) : RInv work R film0 n file0 [] 0 film0 (RState.init film0 n file0) := by
  constructor
  · intro pc h; simp [RState.init] at h
  · intro e h; simp at h
  · simp [RState.init]
  · intro _; rfl
  · rfl
  · intro _; rfl
  · intro i; simp [RState.init]
  · intro i s b t rest h; simp [RState.init] at h
  · intro h; simp [RState.init] at h
  · intro i; simp [RState.init]
  · intro pc h; simp [RState.init] at h
  · exact ⟨by simp [RState.init], rfl⟩

theorem mem_set_imp {β : Type} {l : List β} {i : Nat} {a x : β} (h : x ∈ l.set i a) : x ∈ l ∨ x = a :=
  List.mem_or_eq_of_mem_set h

theorem get_set {β : Type} {l : List β} {i : Nat} {a : β} (h : l[i]? = some a) (b : β) (j : Nat) :
    (l.set i b)[j]? = if i = j then some b else l[j]? := by
  rw [List.getElem?_set]
  have : i < l.length := by
    by_contra hc; rw [List.getElem?_eq_none (by omega)] at h; simp at h
  simp [this]

/-- `panicked` stays in the list when another thread moves. -/
theorem mem_set_of_ne {β : Type} {l : List β} {i : Nat} {a x : β} (h : l[i]? = some a) (hx : x ∈ l) (hne : x ≠ a) (b : β) :
    x ∈ l.set i b := by
  obtain ⟨j, hj⟩ := List.getElem?_of_mem hx
  have : i ≠ j := by rintro rfl; rw [h] at hj; simp at hj; exact hne hj.symm
  apply List.mem_of_getElem? (i := j)
  rw [get_set h, if_neg this, hj]

section
variable [Libm α] {work : σ → BBox2i → Option (FilmTile α × σ)} {R : σ → Prop} {film0 : Film α} {n : Nat}
  {file0 : Option (List UInt8)}

/-- A thread that is neither finished nor panicked can move without disturbing the main thread's facts, unless the
main thread has passed the joins (then there is no such thread). -/
theorem mainOk_thread {st : RState α σ} {i : Nat} {pc pc' : PC α σ} {sh' : Shared α} (h : mainOk n file0 st)
    (hi : st.threads[i]? = some pc) (h1 : pc ≠ .finished) :
    mainOk n file0 { st with sh := sh', threads := st.threads.set i pc' } := by
  have hmem := List.mem_of_getElem? hi
  unfold mainOk at h ⊢
  cases hm : st.main with
  | spawning k => simp only [hm] at h ⊢; simpa using h
  | joining k =>
    simp only [hm] at h ⊢
    obtain ⟨a, b, c⟩ := h
    refine ⟨by simpa using a, fun j hj => ?_, c⟩
    rw [get_set hi]
    split_ifs with e
    · subst e; rw [b i hj] at hi; simp at hi; exact absurd hi.symm h1
    · exact b j hj
  | opening => simp only [hm] at h; exact absurd (h.2.1 _ hmem) h1
  | writing => simp only [hm] at h; exact absurd (h.2.1 _ hmem) h1
  | done => simp only [hm] at h; exact absurd (h.2.1 _ hmem) h1
  | failed => simp only [hm] at h ⊢; exact h

variable (hR : ∀ s b t s', R s → work s b = some (t, s') → R s')

open Classical in
include hR in
theorem rinv_thread {st : RState α σ} {log : List (LogEntry α σ)} {lost : Multiset BBox2i} {base : Film α}
    (h : RInv work R film0 n file0 log lost base st) {i : Nat} {pc pc' : PC α σ} {sh' : Shared α}
    (hi : st.threads[i]? = some pc) (hs : threadStep work i st.sh pc = some (sh', pc')) :
    ∃ log' lost' base', RInv work R film0 n file0 log' lost' base' { st with sh := sh', threads := st.threads.set i pc' } := by
  have hmem := List.mem_of_getElem? hi
  have hok := h.ok pc hmem
  have hmain : ∀ pc' sh', pc ≠ .finished → mainOk n file0 { st with sh := sh', threads := st.threads.set i pc' } :=
    fun pc' sh' h1 => mainOk_thread h.main hi h1
  have hsum := fun pc' => sum_set PC.box st.threads i pc pc' hi
  have hset := fun pc' => get_set hi pc'
  have hpan : ∀ pc', pc ≠ .panicked → (.panicked ∉ st.threads.set i pc' → .panicked ∉ st.threads) :=
    fun pc' h1 h2 h3 => h2 (mem_set_of_ne hi h3 (Ne.symm h1) pc')
  cases pc with
  | wantIter s =>
    simp only [threadStep] at hs
    split_ifs at hs with hl
    simp only [Option.some.injEq, Prod.mk.injEq] at hs
    obtain ⟨rfl, rfl⟩ := hs
    refine ⟨log, lost, base, ?_⟩
    constructor
    · intro p hp; rcases mem_set_imp hp with hp | rfl
      · exact h.ok p hp
      · exact hok
    · exact h.logOk
    · have := hsum (.haveIter s); simp only [PC.box, add_zero] at this
      simp only [this]; exact h.count
    · exact fun hp => h.lost0 (hpan _ (by simp) hp)
    · exact h.baseOk
    · exact h.filmFree
    · intro j
      simp only [hset]
      rw [h.filmHeld j]
      by_cases e : i = j
      · subst e; simp [hi]
      · simp [e]
    · intro j s' b t rest hj
      simp only [hset] at hj
      split_ifs at hj
      · simp at hj
      · exact h.mergeOk j s' b t rest hj
    · exact fun hp => mem_set_of_ne hi (h.poisoned hp) (by simp) _
    · intro j
      simp only [hset, Option.some.injEq]
      by_cases e : i = j
      · subst e; simp [PC.HoldsIter]
      · simp only [e, if_false]
        have := h.iterHeld j
        rw [hl] at this
        simp only [reduceCtorEq, false_iff] at this
        exact ⟨fun e' => absurd e' id, fun hc => absurd hc this⟩
    · intro p hp ho; rcases mem_set_imp hp with hp | rfl
      · exact h.over p hp ho
      · exact ho.elim
    · exact hmain _ _ (by simp)
  | haveIter s =>
    simp only [threadStep, Option.some.injEq, Prod.mk.injEq] at hs
    obtain ⟨rfl, rfl⟩ := hs
    have hheld : st.sh.iterLock = some i := (h.iterHeld i).2 ⟨_, hi, trivial⟩
    have hnil : st.sh.iter.toList = [] → st.sh.iter.next.2.toList = [] := by
      intro e
      cases hn : st.sh.iter.next.1 with
      | none => exact (FilmTileIter.toList_none hn).2
      | some b => rw [FilmTileIter.toList_some hn] at e; simp at e
    refine ⟨log, lost, base, ?_⟩
    constructor
    · intro p hp; rcases mem_set_imp hp with hp | rfl
      · exact h.ok p hp
      · exact hok
    · exact h.logOk
    · rw [h.count]
      cases hn : st.sh.iter.next.1 with
      | none =>
        have := hsum (.gotTile s none); simp only [PC.box, add_zero] at this
        simp only [this]
        rw [(FilmTileIter.toList_none hn).1, (FilmTileIter.toList_none hn).2]
      | some b =>
        have := hsum (.gotTile s (some b)); simp only [PC.box, add_zero] at this
        simp only [this]
        rw [FilmTileIter.toList_some hn, ← Multiset.cons_coe, ← Multiset.singleton_add]
        abel
    · exact fun hp => h.lost0 (hpan _ (by simp) hp)
    · exact h.baseOk
    · exact h.filmFree
    · intro j
      simp only [hset]
      rw [h.filmHeld j]
      by_cases e : i = j
      · subst e; simp [hi]
      · simp [e]
    · intro j s' b t rest hj
      simp only [hset] at hj
      split_ifs at hj
      · simp at hj
      · exact h.mergeOk j s' b t rest hj
    · exact fun hp => mem_set_of_ne hi (h.poisoned hp) (by simp) _
    · intro j
      simp only [hset]
      by_cases e : i = j
      · subst e; simp [PC.HoldsIter, hheld]
      · simp only [e, if_false]; exact h.iterHeld j
    · intro p hp ho; rcases mem_set_imp hp with hp | rfl
      · exact hnil (h.over p hp ho)
      · cases hn : st.sh.iter.next.1 with
        | none => exact (FilmTileIter.toList_none hn).2
        | some b => rw [hn] at ho; exact ho.elim
    · exact hmain _ _ (by simp)
  | gotTile s r =>
    have hheld : st.sh.iterLock = some i := (h.iterHeld i).2 ⟨_, hi, trivial⟩
    obtain ⟨rfl, hpc', hov, hbox⟩ : sh' = { st.sh with iterLock := none } ∧ pc'.Ok work R ∧
        (pc'.Over → r = none) ∧ pc'.box = (PC.gotTile s r : PC α σ).box ∧
        ¬ pc'.HoldsIter ∧ (∀ s b t rest, pc' ≠ .merging s b t rest) := by
      cases r <;> simp only [threadStep, Option.some.injEq, Prod.mk.injEq] at hs <;> obtain ⟨rfl, rfl⟩ := hs
      · exact ⟨rfl, trivial, fun _ => rfl, rfl, id, by simp⟩
      · exact ⟨rfl, hok, fun ho => ho.elim, rfl, id, by simp⟩
    obtain ⟨hbox, hni, hnm⟩ := hbox
    refine ⟨log, lost, base, ?_⟩
    constructor
    · intro p hp; rcases mem_set_imp hp with hp | rfl
      · exact h.ok p hp
      · exact hpc'
    · exact h.logOk
    · rw [h.count]
      have := hsum pc'
      rw [hbox] at this
      simp only [add_right_cancel this]
    · exact fun hp => h.lost0 (hpan _ (by simp) hp)
    · exact h.baseOk
    · exact h.filmFree
    · intro j
      simp only [hset]
      rw [h.filmHeld j]
      by_cases e : i = j
      · subst e
        simp only [hi, if_true, Option.some.injEq]
        constructor
        · rintro ⟨_, _, _, _, e⟩; simp at e
        · rintro ⟨a, b, c, d, e⟩; exact absurd e (hnm a b c d)
      · simp [e]
    · intro j s' b t rest hj
      simp only [hset] at hj
      split_ifs at hj
      · simp only [Option.some.injEq] at hj; exact absurd hj (hnm _ _ _ _)
      · exact h.mergeOk j s' b t rest hj
    · exact fun hp => mem_set_of_ne hi (h.poisoned hp) (by simp) _
    · intro j
      simp only [hset, reduceCtorEq, false_iff]
      by_cases e : i = j
      · subst e; simp only [if_true, Option.some.injEq]
        rintro ⟨p, rfl, hp⟩; exact hni hp
      · simp only [e, if_false]
        intro hc
        have := (h.iterHeld j).2 hc
        rw [hheld] at this; simp at this; exact e this
    · intro p hp ho; rcases mem_set_imp hp with hp | rfl
      · exact h.over p hp ho
      · have := hov ho; subst this; exact h.over _ hmem trivial
    · exact hmain _ _ (by simp)
  | rendering s b =>
    obtain ⟨rfl, hpc', hmer⟩ : sh' = st.sh ∧ pc'.Ok work R ∧ ¬ pc'.HoldsIter ∧ ¬ pc'.Over ∧
        (∀ s b t rest, pc' ≠ .merging s b t rest) ∧ (pc' = .panicked ∨ pc'.box = {b}) := by
      simp only [threadStep] at hs
      cases hw : work s b with
      | none =>
        rw [hw] at hs; simp only [Option.some.injEq, Prod.mk.injEq] at hs; obtain ⟨rfl, rfl⟩ := hs
        exact ⟨rfl, trivial, id, id, by simp, Or.inl rfl⟩
      | some r =>
        obtain ⟨t, s'⟩ := r
        rw [hw] at hs; simp only [Option.some.injEq, Prod.mk.injEq] at hs; obtain ⟨rfl, rfl⟩ := hs
        exact ⟨rfl, ⟨hR _ _ _ _ hok hw, s, hok, hw⟩, id, id, by simp, Or.inr rfl⟩
    obtain ⟨hni, hno, hnm, hbox⟩ := hmer
    refine ⟨log, lost + (if pc' = .panicked then {b} else 0), base, ?_⟩
    constructor
    · intro p hp; rcases mem_set_imp hp with hp | rfl
      · exact h.ok p hp
      · exact hpc'
    · exact h.logOk
    · rw [h.count]
      have hs' := hsum pc'
      have hb0 : (PC.rendering s b : PC α σ).box = {b} := rfl
      rw [hb0] at hs'
      by_cases hp : pc' = .panicked
      · simp only [hp, if_true]
        have hb1 : pc'.box = 0 := by rw [hp]; rfl
        rw [hb1, add_zero] at hs'
        rw [← hp, ← hs']; abel
      · simp only [hp, if_false, add_zero]
        rcases hbox with hb | hb
        · exact absurd hb hp
        · rw [hb] at hs'; rw [add_right_cancel hs']
    · intro hp
      have hne : pc' ≠ .panicked := by
        rintro rfl
        exact hp (List.mem_of_getElem? (i := i) (by rw [hset]; simp))
      simp only [hne, if_false, add_zero]
      exact h.lost0 (hpan _ (by simp) hp)
    · exact h.baseOk
    · exact h.filmFree
    · intro j
      simp only [hset]
      rw [h.filmHeld j]
      by_cases e : i = j
      · subst e
        simp only [hi, if_true, Option.some.injEq]
        constructor
        · rintro ⟨_, _, _, _, e⟩; simp at e
        · rintro ⟨a, b, c, d, e⟩; exact absurd e (hnm a b c d)
      · simp [e]
    · intro j s' b t rest hj
      simp only [hset] at hj
      split_ifs at hj
      · simp only [Option.some.injEq] at hj; exact absurd hj (hnm _ _ _ _)
      · exact h.mergeOk j s' b t rest hj
    · exact fun hp => mem_set_of_ne hi (h.poisoned hp) (by simp) _
    · intro j
      simp only [hset]
      rw [h.iterHeld j]
      by_cases e : i = j
      · subst e
        simp only [hi, if_true, Option.some.injEq, exists_eq_left']
        exact ⟨fun hc => hc.elim, fun hc => absurd hc hni⟩
      · simp [e]
    · intro p hp ho; rcases mem_set_imp hp with hp | rfl
      · exact h.over p hp ho
      · exact absurd ho hno
    · exact hmain _ _ (by simp)
  | wantFilm s b t =>
    simp only [threadStep] at hs
    cases hl : st.sh.filmLock with
    | held k => rw [hl] at hs; simp at hs
    | poisoned =>
      rw [hl] at hs; simp only [Option.some.injEq, Prod.mk.injEq] at hs; obtain ⟨rfl, rfl⟩ := hs
      refine ⟨log, lost + {b}, base, ?_⟩
      constructor
      · intro p hp; rcases mem_set_imp hp with hp | rfl
        · exact h.ok p hp
        · trivial
      · exact h.logOk
      · rw [h.count]
        have hs' := hsum .panicked
        simp only [PC.box, add_zero] at hs'
        rw [← hs']; abel
      · intro hp; exact absurd (List.mem_of_getElem? (i := i) (by rw [hset]; simp)) hp
      · exact h.baseOk
      · exact h.filmFree
      · intro j
        simp only [hset]
        rw [h.filmHeld j]
        by_cases e : i = j
        · subst e; simp [hi]
        · simp [e]
      · intro j s' b t rest hj
        simp only [hset] at hj
        split_ifs at hj
        · simp at hj
        · exact h.mergeOk j s' b t rest hj
      · exact fun hp => mem_set_of_ne hi (h.poisoned hp) (by simp) _
      · intro j
        simp only [hset]
        rw [h.iterHeld j]
        by_cases e : i = j
        · subst e; simp [hi, PC.HoldsIter]
        · simp [e]
      · intro p hp ho; rcases mem_set_imp hp with hp | rfl
        · exact h.over p hp ho
        · exact ho.elim
      · exact hmain _ _ (by simp)
    | free =>
      rw [hl] at hs; simp only [Option.some.injEq, Prod.mk.injEq] at hs; obtain ⟨rfl, rfl⟩ := hs
      refine ⟨log, lost, base, ?_⟩
      have nomerge : ∀ j : Nat, ¬ ∃ s b t rest, st.threads[j]? = some (PC.merging s b t rest : PC α σ) := by
        intro j; rw [← h.filmHeld j, hl]; simp
      constructor
      · intro p hp; rcases mem_set_imp hp with hp | rfl
        · exact h.ok p hp
        · exact hok
      · exact h.logOk
      · rw [h.count]
        have hs' := hsum (.merging s b t t.bbox.iter.toList)
        simp only [PC.box] at hs'
        simp only [add_right_cancel hs']
      · exact fun hp => h.lost0 (hpan _ (by simp) hp)
      · exact h.baseOk
      · intro hc; simp at hc
      · intro j
        simp only [hset, FilmLock.held.injEq]
        by_cases e : i = j
        · subst e; simp
        · simp only [e, if_false, false_iff]; exact nomerge j
      · intro j s' b' t' rest hj
        simp only [hset] at hj
        split_ifs at hj
        · simp only [Option.some.injEq, PC.merging.injEq] at hj
          obtain ⟨rfl, rfl, rfl, rfl⟩ := hj
          exact ⟨[], rfl, by simp only [List.foldlM_nil, h.filmFree hl]; rfl⟩
        · exact absurd ⟨_, _, _, _, hj⟩ (nomerge j)
      · intro hc; simp at hc
      · intro j
        simp only [hset]
        rw [h.iterHeld j]
        by_cases e : i = j
        · subst e; simp [hi, PC.HoldsIter]
        · simp [e]
      · intro p hp ho; rcases mem_set_imp hp with hp | rfl
        · exact h.over p hp ho
        · exact ho.elim
      · exact hmain _ _ (by simp)
  | merging s b t rest =>
    have hheld : st.sh.filmLock = .held i := (h.filmHeld i).2 ⟨_, _, _, _, hi⟩
    have uniq : ∀ j : Nat, i ≠ j → ¬ ∃ s b t rest, st.threads[j]? = some (PC.merging s b t rest : PC α σ) := by
      intro j e hc
      have := (h.filmHeld j).2 hc
      rw [hheld] at this; simp at this; exact e this
    obtain ⟨dn, hdn, hfold⟩ := h.mergeOk i s b t rest hi
    cases rest with
    | nil =>
      simp only [threadStep, Option.some.injEq, Prod.mk.injEq] at hs
      obtain ⟨rfl, rfl⟩ := hs
      obtain ⟨hRs, s0, hR0, hw⟩ := hok
      refine ⟨log ++ [(s0, b, t)], lost, st.sh.film, ?_⟩
      rw [List.append_nil] at hdn
      constructor
      · intro p hp; rcases mem_set_imp hp with hp | rfl
        · exact h.ok p hp
        · exact hRs
      · intro e he
        rcases List.mem_append.1 he with he | he
        · exact h.logOk e he
        · simp only [List.mem_singleton] at he; subst he; exact ⟨hR0, s, hw⟩
      · rw [h.count]
        have hs' := hsum (.wantIter s)
        simp only [PC.box, add_zero] at hs'
        rw [← hs', List.map_append, ← Multiset.coe_add]
        simp only [List.map_cons, List.map_nil, Multiset.coe_singleton]
        abel
      · exact fun hp => h.lost0 (hpan _ (by simp) hp)
      · unfold mergeLog
        rw [List.foldlM_append]
        have := h.baseOk; unfold mergeLog at this
        rw [this]
        simp only [List.foldlM_cons, List.foldlM_nil, Option.bind_eq_bind, Option.bind_some, bind_pure]
        unfold Film.mergeFilmTile
        rw [hdn]; exact hfold
      · intro _; rfl
      · intro j
        simp only [hset, reduceCtorEq, false_iff]
        by_cases e : i = j
        · subst e; simp
        · simp only [e, if_false]; exact uniq j e
      · intro j s' b' t' rest hj
        simp only [hset] at hj
        split_ifs at hj with e
        · simp at hj
        · exact absurd ⟨_, _, _, _, hj⟩ (uniq j e)
      · intro hc; simp at hc
      · intro j
        simp only [hset]
        rw [h.iterHeld j]
        by_cases e : i = j
        · subst e; simp [hi, PC.HoldsIter]
        · simp [e]
      · intro p hp ho; rcases mem_set_imp hp with hp | rfl
        · exact h.over p hp ho
        · exact ho.elim
      · exact hmain _ _ (by simp)
    | cons p rest =>
      simp only [threadStep] at hs
      cases hm : st.sh.film.mergePixel t p with
      | none =>
        rw [hm] at hs; simp only [Option.some.injEq, Prod.mk.injEq] at hs; obtain ⟨rfl, rfl⟩ := hs
        refine ⟨log, lost + {b}, base, ?_⟩
        constructor
        · intro p hp; rcases mem_set_imp hp with hp | rfl
          · exact h.ok p hp
          · trivial
        · exact h.logOk
        · rw [h.count]
          have hs' := hsum .panicked
          simp only [PC.box, add_zero] at hs'
          rw [← hs']; abel
        · intro hp; exact absurd (List.mem_of_getElem? (i := i) (by rw [hset]; simp)) hp
        · exact h.baseOk
        · intro hc; simp at hc
        · intro j
          simp only [hset, reduceCtorEq, false_iff]
          by_cases e : i = j
          · subst e; simp
          · simp only [e, if_false]; exact uniq j e
        · intro j s' b' t' rest hj
          simp only [hset] at hj
          split_ifs at hj with e
          · simp at hj
          · exact absurd ⟨_, _, _, _, hj⟩ (uniq j e)
        · intro _; exact List.mem_of_getElem? (i := i) (by rw [hset]; simp)
        · intro j
          simp only [hset]
          rw [h.iterHeld j]
          by_cases e : i = j
          · subst e; simp [hi, PC.HoldsIter]
          · simp [e]
        · intro p hp ho; rcases mem_set_imp hp with hp | rfl
          · exact h.over p hp ho
          · exact ho.elim
        · exact hmain _ _ (by simp)
      | some f =>
        rw [hm] at hs; simp only [Option.some.injEq, Prod.mk.injEq] at hs; obtain ⟨rfl, rfl⟩ := hs
        refine ⟨log, lost, base, ?_⟩
        constructor
        · intro p hp; rcases mem_set_imp hp with hp | rfl
          · exact h.ok p hp
          · exact hok
        · exact h.logOk
        · rw [h.count]
          have hs' := hsum (.merging s b t rest)
          simp only [PC.box] at hs'
          simp only [add_right_cancel hs']
        · exact fun hp => h.lost0 (hpan _ (by simp) hp)
        · exact h.baseOk
        · intro hc; rw [hheld] at hc; simp at hc
        · intro j
          simp only [hset]
          rw [h.filmHeld j]
          by_cases e : i = j
          · subst e; simp [hi]
          · simp [e]
        · intro j s' b' t' rest' hj
          simp only [hset] at hj
          split_ifs at hj with e
          · simp only [Option.some.injEq, PC.merging.injEq] at hj
            obtain ⟨rfl, rfl, rfl, rfl⟩ := hj
            refine ⟨dn ++ [p], by simp [hdn], ?_⟩
            rw [List.foldlM_append, hfold]
            simp [hm]
          · exact absurd ⟨_, _, _, _, hj⟩ (uniq j e)
        · exact fun hp => mem_set_of_ne hi (h.poisoned hp) (by simp) _
        · intro j
          simp only [hset]
          rw [h.iterHeld j]
          by_cases e : i = j
          · subst e; simp [hi, PC.HoldsIter]
          · simp [e]
        · intro p hp ho; rcases mem_set_imp hp with hp | rfl
          · exact h.over p hp ho
          · exact ho.elim
        · exact hmain _ _ (by simp)
  | finished => simp [threadStep] at hs
  | panicked => simp [threadStep] at hs

omit hR in
theorem rinv_main {sampler : σ} (h0 : R sampler) {st st' : RState α σ} {log : List (LogEntry α σ)} {lost : Multiset BBox2i}
    {base : Film α} (h : RInv work R film0 n file0 log lost base st) (hs : mainStep sampler st = some st') :
    RInv work R film0 n file0 log lost base st' := by
  have hmain := h.main
  unfold mainStep at hs
  unfold mainOk at hmain
  -- only the main thread's own facts change
  have same : ∀ (m : MainPC) (f : Option (List UInt8)), mainOk n file0 { st with main := m, file := f } →
      RInv work R film0 n file0 log lost base { st with main := m, file := f } := fun m f hm =>
    ⟨h.ok, h.logOk, h.count, h.lost0, h.baseOk, h.filmFree, h.filmHeld, h.mergeOk, h.poisoned, h.iterHeld, h.over, hm⟩
  cases hm : st.main with
  | spawning k =>
    rw [hm] at hs
    simp only [hm] at hmain
    cases k with
    | zero =>
      simp only [Option.some.injEq] at hs; subst hs
      exact same (.joining 0) st.file ⟨by simpa using hmain.1, fun j hj => by omega, hmain.2⟩
    | succ k =>
      simp only [Option.some.injEq] at hs; subst hs
      have hg : ∀ j pc, (st.threads ++ [PC.wantIter sampler])[j]? = some pc ↔
          st.threads[j]? = some pc ∨ (j = st.threads.length ∧ pc = .wantIter sampler) := by
        intro j pc
        rw [List.getElem?_append]
        split_ifs with hj
        · constructor
          · exact Or.inl
          · rintro (h | h)
            · exact h
            · omega
        · rw [List.getElem?_eq_none (by omega : st.threads.length ≤ j)]
          rcases Nat.eq_or_lt_of_le (Nat.le_of_not_lt hj) with e | e
          · subst e; simp [eq_comm]
          · rw [List.getElem?_eq_none (by simp; omega)]
            simp; omega
      constructor
      · intro pc hp
        rcases List.mem_append.1 hp with hp | hp
        · exact h.ok pc hp
        · simp only [List.mem_singleton] at hp; subst hp; exact h0
      · exact h.logOk
      · simp only [List.map_append, List.map_cons, List.map_nil, List.sum_append, List.sum_cons, List.sum_nil, PC.box, add_zero]
        exact h.count
      · intro hp; exact h.lost0 (fun hc => hp (List.mem_append_left _ hc))
      · exact h.baseOk
      · exact h.filmFree
      · intro i; rw [h.filmHeld i]; simp only [hg]; simp
      · intro i s b t rest hi
        rcases (hg _ _).1 hi with hi | hi
        · exact h.mergeOk i s b t rest hi
        · simp at hi
      · intro hp; exact List.mem_append_left _ (h.poisoned hp)
      · intro i; rw [h.iterHeld i]; simp only [hg]
        constructor
        · rintro ⟨pc, a, b⟩; exact ⟨pc, Or.inl a, b⟩
        · rintro ⟨pc, a | a, b⟩
          · exact ⟨pc, a, b⟩
          · rw [a.2] at b; exact b.elim
      · intro pc hp ho
        rcases List.mem_append.1 hp with hp | hp
        · exact h.over pc hp ho
        · simp only [List.mem_singleton] at hp; subst hp; exact ho.elim
      · refine ⟨?_, hmain.2⟩
        simp only [List.length_append, List.length_cons, List.length_nil]; omega
  | joining i =>
    rw [hm] at hs
    simp only [hm] at hmain
    dsimp only at hs
    obtain ⟨a, b, c⟩ := hmain
    cases ht : st.threads[i]? with
    | none =>
      rw [ht] at hs; simp only [Option.some.injEq] at hs; subst hs
      refine same .opening st.file ⟨a, fun pc hp => ?_, c⟩
      obtain ⟨j, hj⟩ := List.getElem?_of_mem (l := st.threads) hp
      have hl : i ≥ st.threads.length := by
        by_contra hc; rw [List.getElem?_eq_getElem (by omega)] at ht; simp at ht
      have hj' : j < st.threads.length := by
        by_contra hc; rw [List.getElem?_eq_none (by omega)] at hj; simp at hj
      rw [b j (by omega)] at hj; simp at hj; exact hj.symm
    | some pc =>
      rw [ht] at hs
      cases pc <;> simp only [Option.some.injEq, reduceCtorEq] at hs <;> subst hs
      · refine same (.joining (i + 1)) st.file ⟨a, fun j hj => ?_, c⟩
        rcases Nat.lt_or_ge j i with e | e
        · exact b j e
        · rw [show j = i by omega]; exact ht
      · exact same .failed st.file c
  | opening =>
    rw [hm] at hs
    simp only [hm, Option.some.injEq] at hmain hs
    subst hs
    obtain ⟨a, b, c⟩ := hmain
    exact same .writing _ ⟨a, b, by rw [c]⟩
  | writing =>
    rw [hm] at hs
    simp only [hm] at hmain
    dsimp only at hs
    obtain ⟨a, b, c⟩ := hmain
    cases hl : st.sh.filmLock with
    | free =>
      rw [hl] at hs; simp only [Option.some.injEq] at hs; subst hs
      exact same .done _ ⟨a, b, by rw [c]; rfl, hl⟩
    | held k => rw [hl] at hs; simp at hs
    | poisoned => exact absurd (b _ (h.poisoned hl)) (by simp)
  | done => rw [hm] at hs; simp at hs
  | failed => rw [hm] at hs; simp at hs

include hR in
/-- The invariant holds in every reachable state. -/
theorem rinv_reach {sampler : σ} (h0 : R sampler) {k : Nat} {st : RState α σ}
    (hr : RReach work sampler (RState.init film0 n file0) k st) :
    ∃ log lost base, RInv work R film0 n file0 log lost base st := by
  induction hr with
  | zero => exact ⟨_, _, _, rinv_init work R film0 n file0⟩
  | succ k st st' _ hs ih =>
    obtain ⟨log, lost, base, h⟩ := ih
    cases hs with
    | thread i pc pc' sh' hi hs => exact rinv_thread hR h hi hs
    | main _ hs => exact ⟨_, _, _, rinv_main h0 h hs⟩
    | openFails hm =>
      refine ⟨log, lost, base, h.ok, h.logOk, h.count, h.lost0, h.baseOk, h.filmFree, h.filmHeld, h.mergeOk,
        h.poisoned, h.iterHeld, h.over, ?_⟩
      have := h.main; unfold mainOk at this; rw [hm] at this
      exact this.2.2

end
end PT
