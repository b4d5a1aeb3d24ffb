import Verif.Props.Schedule

/-!
# Schedules that give every order of merging (C98)

For every order of the tiles there is a schedule of the threads that merges the tiles in this order.
-/

namespace PT
namespace Sched

section run
variable {α : Type} [Scalar α] [Libm α] {σ : Type} {work : σ → BBox2i → Option (FilmTile α × σ)} {sampler : σ}

/-- A state in which no lock is held. -/
def at_ (m : MainPC) (it : FilmTileIter) (film : Film α) (ts : List (PC α σ)) (f : Option (List UInt8)) : RState α σ :=
  ⟨m, ⟨it, none, film, .free⟩, ts, f⟩

/-- Any number of steps. -/
abbrev Steps (work : σ → BBox2i → Option (FilmTile α × σ)) (sampler : σ) : RState α σ → RState α σ → Prop :=
  Relation.ReflTransGen (RStep work sampler)

theorem reach_of_steps {st0 st : RState α σ} (h : Steps work sampler st0 st) : ∃ k, RReach work sampler st0 k st := by
  induction h with
  | refl => exact ⟨0, .zero⟩
  | tail _ hs ih => obtain ⟨k, hk⟩ := ih; exact ⟨k + 1, .succ _ _ _ hk hs⟩

/-- One step of the thread between `pre` and `suf`. -/
theorem step_at (m : MainPC) (sh sh' : Shared α) (f : Option (List UInt8)) (pre suf : List (PC α σ)) (pc pc' : PC α σ)
    (hs : threadStep work pre.length sh pc = some (sh', pc')) :
    Steps work sampler ⟨m, sh, pre ++ pc :: suf, f⟩ ⟨m, sh', pre ++ pc' :: suf, f⟩ := by
  have := RStep.thread (work := work) (sampler := sampler) ⟨m, sh, pre ++ pc :: suf, f⟩ pre.length pc pc' sh' (by simp) hs
  simp only [List.set_append_right _ _ (le_refl pre.length), Nat.sub_self, List.set_cons_zero] at this
  exact .single this

/-- A thread takes the next tile. -/
theorem take_tile (m : MainPC) (it it' : FilmTileIter) (film : Film α) (f : Option (List UInt8)) (pre suf : List (PC α σ)) (s : σ) (b : BBox2i)
    (h : it.next = (some b, it')) :
    Steps work sampler (at_ m it film (pre ++ .wantIter s :: suf) f) (at_ m it' film (pre ++ .rendering s b :: suf) f) := by
  refine (step_at m _ ⟨it, some pre.length, film, .free⟩ f pre suf _ (.haveIter s) rfl).trans ?_
  refine (step_at m _ ⟨it', some pre.length, film, .free⟩ f pre suf _ (.gotTile s (some b)) ?_).trans ?_
  · simp only [threadStep, h]
  · exact step_at m _ _ f pre suf _ _ rfl

/-- A thread finds no more tiles. -/
theorem take_none (m : MainPC) (it it' : FilmTileIter) (film : Film α) (f : Option (List UInt8)) (pre suf : List (PC α σ)) (s : σ)
    (h : it.next = (none, it')) :
    Steps work sampler (at_ m it film (pre ++ .wantIter s :: suf) f) (at_ m it' film (pre ++ .finished :: suf) f) := by
  refine (step_at m _ ⟨it, some pre.length, film, .free⟩ f pre suf _ (.haveIter s) rfl).trans ?_
  refine (step_at m _ ⟨it', some pre.length, film, .free⟩ f pre suf _ (.gotTile s none) ?_).trans ?_
  · simp only [threadStep, h]
  · exact step_at m _ _ f pre suf _ _ rfl

theorem merge_rest (m : MainPC) (it : FilmTileIter) (f : Option (List UInt8)) (pre suf : List (PC α σ)) (s : σ) (b : BBox2i) (t : FilmTile α) :
    ∀ (rest : List (V2 Int)) (film film' : Film α), rest.foldlM (fun film p => film.mergePixel t p) film = some film' →
      Steps work sampler ⟨m, ⟨it, none, film, .held pre.length⟩, pre ++ .merging s b t rest :: suf, f⟩
        (at_ m it film' (pre ++ .wantIter s :: suf) f) := by
  intro rest
  induction rest with
  | nil =>
    intro film film' h
    simp only [List.foldlM_nil] at h; cases h
    exact step_at m _ _ f pre suf _ _ rfl
  | cons p rest ih =>
    intro film film' h
    rw [List.foldlM_cons] at h
    obtain ⟨f1, h1, h2⟩ := Option.bind_eq_some_iff.1 h
    refine (step_at m _ ⟨it, none, f1, .held pre.length⟩ f pre suf _ (.merging s b t rest) ?_).trans (ih f1 film' h2)
    simp only [threadStep, h1]

/-- A thread renders its tile and merges it. -/
theorem put_tile (m : MainPC) (it : FilmTileIter) (film film' : Film α) (f : Option (List UInt8)) (pre suf : List (PC α σ)) (s s' : σ)
    (b : BBox2i) (t : FilmTile α) (hw : work s b = some (t, s')) (hm : film.mergeFilmTile t = some film') :
    Steps work sampler (at_ m it film (pre ++ .rendering s b :: suf) f) (at_ m it film' (pre ++ .wantIter s' :: suf) f) := by
  refine (step_at m _ ⟨it, none, film, .free⟩ f pre suf _ (.wantFilm s' b t) ?_).trans ?_
  · simp only [threadStep, hw]
  refine (step_at m _ ⟨it, none, film, .held pre.length⟩ f pre suf _ (.merging s' b t t.bbox.iter.toList) rfl).trans ?_
  exact merge_rest m it f pre suf s' b t _ film film' hm

theorem spawn (film : Film α) (it : FilmTileIter) (f : Option (List UInt8)) : ∀ (n : Nat) (ts : List (PC α σ)),
    Steps work sampler (at_ (.spawning n) it film ts f) (at_ (.joining 0) it film (ts ++ List.replicate n (.wantIter sampler)) f) := by
  intro n
  induction n with
  | zero =>
    intro ts
    have : RStep work sampler (at_ (.spawning 0) it film ts f) (at_ (.joining 0) it film ts f) := .main _ _ rfl
    simpa using Relation.ReflTransGen.single this
  | succ n ih =>
    intro ts
    have : RStep work sampler (at_ (.spawning (n + 1)) it film ts f) (at_ (.spawning n) it film (ts ++ [.wantIter sampler]) f) := .main _ _ rfl
    have h2 := ih (ts ++ [.wantIter sampler])
    rw [List.append_assoc, List.singleton_append, ← List.replicate_succ] at h2
    exact (Relation.ReflTransGen.single this).trans h2

/-- Joining all threads and writing the image. -/
theorem join_write (film : Film α) (it : FilmTileIter) (f : Option (List UInt8)) (ts : List (PC α σ)) (hts : ∀ pc ∈ ts, pc = .finished) :
    Steps work sampler (at_ (.joining 0) it film ts f) (at_ .done it film ts (some (outputFile (f.getD []) film))) := by
  have join : ∀ (k i : Nat), i + k = ts.length → Steps work sampler (at_ (.joining i) it film ts f) (at_ (.joining ts.length) it film ts f) := by
    intro k
    induction k with
    | zero => intro i h; rw [Nat.add_zero] at h; rw [h]
    | succ k ih =>
      intro i h
      have hi : i < ts.length := by omega
      have e : ts[i]? = some .finished := by rw [List.getElem?_eq_getElem hi, hts _ (List.getElem_mem hi)]
      have : RStep work sampler (at_ (.joining i) it film ts f) (at_ (.joining (i + 1)) it film ts f) := by
        refine .main _ _ ?_
        simp only [mainStep, at_, e]
      exact (Relation.ReflTransGen.single this).trans (ih (i + 1) (by omega))
  refine (join ts.length 0 (by omega)).trans ?_
  have h1 : RStep work sampler (at_ (.joining ts.length) it film ts f) (at_ .opening it film ts f) := by
    refine .main _ _ ?_
    simp [mainStep, at_]
  have h2 : RStep work sampler (at_ .opening it film ts f) (at_ .writing it film ts (some (f.getD []))) := .main _ _ rfl
  have h3 : RStep work sampler (at_ .writing it film ts (some (f.getD []))) (at_ .done it film ts (some (outputFile (f.getD []) film))) :=
    .main _ _ rfl
  exact ((Relation.ReflTransGen.single h1).trans (.single h2)).trans (.single h3)

theorem next_of_cons {it : FilmTileIter} {b : BBox2i} {l : List BBox2i} (h : it.toList = b :: l) :
    ∃ it', it.next = (some b, it') ∧ it'.toList = l := by
  unfold FilmTileIter.toList at h
  split at h
  · cases h
  · rename_i b' it' e
    cases h
    exact ⟨_, e, rfl⟩

theorem next_of_nil {it : FilmTileIter} (h : it.toList = []) : ∃ it', it.next = (none, it') ∧ it'.toList = [] := by
  have h1 : it.next.1 = none := by
    cases e : it.next.1 with
    | none => rfl
    | some b => have := FilmTileIter.toList_some e; rw [h] at this; cases this
  refine ⟨it.next.2, Prod.ext h1 rfl, (FilmTileIter.toList_none h1).2⟩

/-- Every thread takes one tile. -/
theorem take_all (m : MainPC) (film : Film α) (f : Option (List UInt8)) (s : σ) (suf : List (PC α σ)) :
    ∀ (l : List BBox2i) (it : FilmTileIter) (pre : List (PC α σ)), it.toList = l → ∃ it', it'.toList = [] ∧
      Steps work sampler (at_ m it film (pre ++ (List.replicate l.length (.wantIter s) ++ suf)) f)
        (at_ m it' film (pre ++ (l.map (.rendering s) ++ suf)) f) := by
  intro l
  induction l with
  | nil => intro it pre h; exact ⟨it, h, .refl⟩
  | cons b l ih =>
    intro it pre h
    obtain ⟨it1, e1, e2⟩ := next_of_cons h
    obtain ⟨it', h1, h2⟩ := ih it1 (pre ++ [.rendering s b]) e2
    refine ⟨it', h1, ?_⟩
    have := take_tile (work := work) (sampler := sampler) m it it1 film f pre (List.replicate l.length (.wantIter s) ++ suf) s b e1
    simp only [List.append_assoc, List.singleton_append] at h2
    exact this.trans h2

/-- Every thread finds that there is nothing more to do. -/
theorem finish_all (m : MainPC) (film : Film α) (f : Option (List UInt8)) :
    ∀ (ts pre : List (PC α σ)) (it : FilmTileIter), it.toList = [] → (∀ pc ∈ ts, ∃ s, pc = .wantIter s) →
      ∃ it', Steps work sampler (at_ m it film (pre ++ ts) f) (at_ m it' film (pre ++ ts.map fun _ => .finished) f) := by
  intro ts
  induction ts with
  | nil => intro pre it _ _; exact ⟨it, .refl⟩
  | cons pc ts ih =>
    intro pre it hit h
    obtain ⟨it1, e1, e2⟩ := next_of_nil hit
    obtain ⟨s, rfl⟩ := h pc (List.mem_cons_self ..)
    have h1 := take_none (work := work) (sampler := sampler) m it it1 film f pre ts s e1
    obtain ⟨it', h2⟩ := ih (pre ++ [.finished]) it1 e2 (fun pc hp => h pc (List.mem_cons_of_mem _ hp))
    simp only [List.append_assoc, List.singleton_append] at h2
    exact ⟨it', h1.trans h2⟩

/-- The tile a thread has still to render. -/
def boxOf : PC α σ → Option BBox2i
  | .rendering _ b => some b
  | _ => none

/-- The threads merge their tiles in the given order. -/
theorem put_all (m : MainPC) (it : FilmTileIter) (f : Option (List UInt8)) (s : σ) (tile : BBox2i → FilmTile α)
    (hw : ∀ b, (∃ s', work s b = some (tile b, s')) ∨ work s b = none) :
    ∀ (order : List BBox2i) (film film' : Film α) (ts : List (PC α σ)),
      (∀ b ∈ order, (work s b).isSome) →
      (ts.filterMap boxOf).Perm order → (∀ pc ∈ ts, (∃ b, pc = .rendering s b) ∨ ∃ s, pc = .wantIter s) →
      order.foldlM (fun film b => film.mergeFilmTile (tile b)) film = some film' →
      ∃ ts', ts'.length = ts.length ∧ (∀ pc ∈ ts', ∃ s, pc = .wantIter s) ∧
        Steps work sampler (at_ m it film ts f) (at_ m it film' ts' f) := by
  intro order
  induction order with
  | nil =>
    intro film film' ts _ hp hts h
    simp only [List.foldlM_nil] at h; cases h
    refine ⟨ts, rfl, ?_, .refl⟩
    intro pc hpc
    rcases hts pc hpc with ⟨b, rfl⟩ | h
    · have : b ∈ ts.filterMap boxOf := List.mem_filterMap.2 ⟨_, hpc, rfl⟩
      rw [List.perm_nil.1 hp] at this
      cases this
    · exact h
  | cons b order ih =>
    intro film film' ts hs hp hts h
    rw [List.foldlM_cons] at h
    obtain ⟨f1, h1, h2⟩ := Option.bind_eq_some_iff.1 h
    have hb : b ∈ ts.filterMap boxOf := hp.mem_iff.2 (List.mem_cons_self ..)
    obtain ⟨pc, hpc, eb⟩ := List.mem_filterMap.1 hb
    have epc : pc = .rendering s b := by
      rcases hts pc hpc with ⟨b', rfl⟩ | ⟨_, rfl⟩
      · cases eb; rfl
      · cases eb
    subst epc
    obtain ⟨pre, suf, rfl⟩ := List.append_of_mem hpc
    obtain ⟨s', hw'⟩ : ∃ s', work s b = some (tile b, s') := by
      rcases hw b with h | h
      · exact h
      · have := hs b (List.mem_cons_self ..); rw [h] at this; simp at this
    have st1 := put_tile (work := work) (sampler := sampler) m it film f1 f pre suf s s' b (tile b) hw' h1
    have hp' : ((pre ++ .wantIter s' :: suf).filterMap boxOf).Perm order := by
      rw [List.filterMap_append, List.filterMap_cons_some (show boxOf (PC.rendering s b : PC α σ) = some b from rfl)] at hp
      rw [List.filterMap_append, List.filterMap_cons_none (show boxOf (PC.wantIter s' : PC α σ) = none from rfl)]
      exact List.Perm.cons_inv (List.perm_middle.symm.trans hp)
    obtain ⟨ts', g1, g2, g3⟩ := ih f1 film' (pre ++ .wantIter s' :: suf) (fun b hb => hs b (List.mem_cons_of_mem _ hb)) hp' (by
      intro pc hpc
      simp only [List.mem_append, List.mem_cons] at hpc
      rcases hpc with h | rfl | h
      · exact hts pc (by simp [h])
      · exact .inr ⟨_, rfl⟩
      · exact hts pc (by simp [h])) h2
    exact ⟨ts', by rw [g1]; simp, g2, st1.trans g3⟩

end run

theorem mergeAll {α : Type} [Scalar α] (res : V2 Int) (ha : res.x * res.y < 2 ^ 31) (filt : Filter α) (hfit : Spec.TilesFit (Film.new res filt))
    (tile : BBox2i → FilmTile α) : ∀ (order : List BBox2i) (film : Film α), FilmInv res filt film →
    (∀ b ∈ order, b ∈ (Film.new res filt).iter.toList ∧ TileGood (Film.new res filt) b (tile b)) →
    ∃ film', order.foldlM (fun film b => film.mergeFilmTile (tile b)) film = some film' := by
  intro order
  induction order with
  | nil => intro film _ _; exact ⟨film, rfl⟩
  | cons b order ih =>
    intro film h hb
    obtain ⟨h1, h2⟩ := hb b (List.mem_cons_self ..)
    obtain ⟨f1, e1, i1⟩ := mergeFilmTile_fit res ha filt hfit film h b h1 (tile b) h2
    obtain ⟨f2, e2⟩ := ih f1 i1 (fun b hb' => hb b (List.mem_cons_of_mem _ hb'))
    exact ⟨f2, by rw [List.foldlM_cons, e1]; exact e2⟩

end Sched
open Sched

/-- Every order of merging occurs: for every order of the tiles of the film there is a complete render whose pixels are those of the tiles,
merged in this order. -/
theorem c98_every_order {α : Type} [Scalar α] [Libm α] (res : V2 Int) (hpos : 0 ≤ res.x * res.y) (ha : res.x * res.y < 2 ^ 31) (filt : Filter α)
    (hfit : Spec.TilesFit (Film.new res filt)) (radiance : V2 α → Draw α (Spectrum α)) (spp : Nat) (file : Option (List UInt8))
    (hw : ∀ b ∈ (Film.new res filt).iter.toList,
      (renderTile HaltonSampler.ops radiance (Film.new res filt) (HaltonSampler.new spp (Film.new res filt).sampleBBox) b).isSome)
    (order : List BBox2i) (hp : order.Perm (Film.new res filt).iter.toList) :
    ∃ n st, Spec.Rendered (Film.new res filt) radiance spp n file st ∧ ∀ x y, Spec.InImage res x y →
      st.sh.film.px x y = ((order.filter fun b => InTile ((Film.new res filt).getFilmTile b) x y).map fun b =>
        (Spec.tileOf (Film.new res filt) radiance spp b).px x y).foldl Pixel.merge Pixel.zero := by
  obtain ⟨film, hfilm⟩ : ∃ film, film = Film.new res filt := ⟨_, rfl⟩
  obtain ⟨s, hs⟩ : ∃ s, s = HaltonSampler.new spp film.sampleBBox := ⟨_, rfl⟩
  obtain ⟨work, hwork⟩ : ∃ work, work = fun s b => renderTile HaltonSampler.ops radiance film s b := ⟨_, rfl⟩
  have tileEq : ∀ b, (∃ s', work s b = some (Spec.tileOf film radiance spp b, s')) ∨ work s b = none := by
    intro b
    subst hwork hs
    unfold Spec.tileOf
    cases e : renderTile HaltonSampler.ops radiance film (HaltonSampler.new spp film.sampleBBox) b with
    | none => exact .inr e
    | some r => exact .inl ⟨r.2, e⟩
  have good : ∀ b ∈ order, b ∈ (Film.new res filt).iter.toList ∧ TileGood (Film.new res filt) b (Spec.tileOf film radiance spp b) := by
    intro b hb
    have hb' := hp.mem_iff.1 hb
    refine ⟨hb', ?_⟩
    rcases tileEq b with ⟨s', e⟩ | e
    · subst hwork hfilm
      exact renderTile_good _ _ _ (mkFilterTable_ok filt) _ _ _ _ e
    · have := hw b hb'
      subst hwork hfilm hs
      simp only at e
      rw [e] at this; simp at this
  have inv0 : FilmInv res filt film := by subst hfilm; exact ⟨rfl, rfl, rfl, filmNew_sized res hpos ha filt⟩
  obtain ⟨film', hfold⟩ := mergeAll res ha filt hfit (Spec.tileOf film radiance spp) order film inv0 good
  obtain ⟨it', hit, st1⟩ := take_all (work := work) (sampler := s) (.joining 0) film file s [.wantIter s] film.iter.toList film.iter [] rfl
  obtain ⟨ts', g1, g2, g3⟩ := put_all (work := work) (sampler := s) (.joining 0) it' file s (Spec.tileOf film radiance spp) tileEq order film film'
    (film.iter.toList.map (.rendering s) ++ [.wantIter s])
    (by
      intro b hb
      have := hw b (hp.mem_iff.1 hb)
      subst hwork hfilm hs
      exact this)
    (by
      rw [List.filterMap_append, List.filterMap_map]
      have : (boxOf ∘ (PC.rendering s : BBox2i → PC α HaltonSampler)) = some := rfl
      rw [this]
      subst hfilm
      simpa [show boxOf (PC.wantIter s : PC α HaltonSampler) = none from rfl] using hp.symm)
    (by
      intro pc hpc
      simp only [List.mem_append, List.mem_map, List.mem_singleton] at hpc
      rcases hpc with ⟨b, _, rfl⟩ | rfl
      · exact .inl ⟨b, rfl⟩
      · exact .inr ⟨s, rfl⟩)
    hfold
  obtain ⟨it2, st3⟩ := finish_all (work := work) (sampler := s) (.joining 0) film' file ts' [] it' hit g2
  have st4 := join_write (work := work) (sampler := s) film' it2 file (ts'.map fun _ => .finished) (by
    intro pc hpc; obtain ⟨_, _, rfl⟩ := List.mem_map.1 hpc; rfl)
  have st0 := spawn (work := work) (sampler := s) film film.iter file (film.iter.toList.length + 1) []
  rw [List.nil_append, List.replicate_succ'] at st0
  have all := (((st0.trans st1).trans g3).trans st3).trans st4
  refine ⟨film.iter.toList.length + 1, at_ .done it2 film' (ts'.map fun _ => .finished) (some (outputFile (file.getD []) film')), ⟨by omega, ?_, rfl⟩, ?_⟩
  · subst hwork hfilm hs
    exact reach_of_steps all
  · intro x y hi
    show film'.px x y = _
    have key := (mergeLog_fold (σ := HaltonSampler) res ha filt hfit x y hi (order.map fun b => (s, b, Spec.tileOf film radiance spp b)) film film' inv0 (by
      intro e he
      obtain ⟨b, hb, rfl⟩ := List.mem_map.1 he
      exact good b hb) (by unfold mergeLog; rw [List.foldlM_map]; exact hfold)).2
    rw [key, hfilm, new_px_zero, List.filter_map, List.map_map]
    rfl

end PT
