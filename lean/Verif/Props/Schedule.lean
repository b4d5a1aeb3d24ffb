import Verif.Props.RenderImage
import Verif.Props.FilmF32
import Verif.Lemmas.FlWF
import Verif.Lemmas.RelErr
import Verif.Lemmas.FlOk

/-!
# The image and the schedule, in single precision (C98)

In exact arithmetic the image does not depend on the schedule (`c06_schedule_independent`).  In single precision the order in
which the tiles are merged can matter, because addition rounds.  Here: where it cannot matter, and how much it can matter.
-/

namespace PT

/-! ### Specification -/

instance {α : Type} (t : FilmTile α) (x y : Int) : Decidable (InTile t x y) := by unfold InTile; infer_instance

/-- The tiles of the film whose buffers have this pixel. -/
def Spec.tilesAt {α : Type} [Scalar α] (film : Film α) (x y : Int) : List BBox2i :=
  film.iter.toList.filter fun b => InTile (film.getFilmTile b) x y

/-- What the Halton sampler gives for a tile (it does not depend on what was rendered before). -/
def Spec.tileOf {α : Type} [Scalar α] (film : Film α) (radiance : V2 α → Draw α (Spectrum α)) (spp : Nat) (b : BBox2i) : FilmTile α :=
  ((renderTile HaltonSampler.ops radiance film (HaltonSampler.new spp film.sampleBBox) b).map Prod.fst).getD (film.getFilmTile b)

/-- A complete run of `render` with `n ≥ 1` threads and the Halton sampler, in any schedule, that ends in `st`. -/
structure Spec.Rendered {α : Type} [Scalar α] [Libm α] (film : Film α) (radiance : V2 α → Draw α (Spectrum α)) (spp n : Nat)
    (file : Option (List UInt8)) (st : RState α HaltonSampler) : Prop where
  threads : 1 ≤ n
  run : ∃ k, RReach (fun s b => renderTile HaltonSampler.ops radiance film s b) (HaltonSampler.new spp film.sampleBBox)
    (RState.init film n file) k st
  done : st.main = .done

/-- The four numbers of a pixel. -/
inductive Spec.Entry where
  | r | g | b | weight

/-- Reads one of them. -/
def Spec.Entry.of {α : Type} : Spec.Entry → Pixel α → α
  | .r, p => p.color.r
  | .g, p => p.color.g
  | .b, p => p.color.b
  | .weight, p => p.weight

namespace Sched

section generic
variable {α : Type} [Scalar α]

theorem entry_merge (c : Spec.Entry) (p q : Pixel α) : c.of (p.merge q) = c.of p +. c.of q := by cases c <;> rfl

theorem entry_ext {p q : Pixel α} (h : ∀ c : Spec.Entry, c.of p = c.of q) : p = q := by
  have h1 := h .r; have h2 := h .g; have h3 := h .b; have h4 := h .weight
  ext
  · exact h1
  · exact h2
  · exact h3
  · exact h4

/-- The pixel after merging the tiles of a log. -/
theorem mergeLog_fold {σ : Type} (res : V2 Int) (ha : res.x * res.y < 2 ^ 31) (filt : Filter α) (hfit : Spec.TilesFit (Film.new res filt))
    (x y : Int) (hi : Spec.InImage res x y) :
    ∀ (log : List (LogEntry α σ)) (film film' : Film α), FilmInv res filt film →
      (∀ e ∈ log, e.2.1 ∈ (Film.new res filt).iter.toList ∧ TileGood (Film.new res filt) e.2.1 e.2.2) →
      mergeLog film log = some film' →
      FilmInv res filt film' ∧ film'.px x y =
        ((log.filter fun e => InTile ((Film.new res filt).getFilmTile e.2.1) x y).map fun e => e.2.2.px x y).foldl Pixel.merge (film.px x y) := by
  intro log
  induction log with
  | nil =>
    intro film film' h _ e
    simp only [mergeLog, List.foldlM_nil] at e; cases e
    exact ⟨h, rfl⟩
  | cons e log ih =>
    intro film film' h hlog he
    obtain ⟨hb, hg⟩ := hlog e (List.mem_cons_self ..)
    unfold mergeLog at he
    rw [List.foldlM_cons] at he
    obtain ⟨f1, g1, g2, g3, g4, g5, g6, g7⟩ := mergeFilmTile_spec film h.2.2.2 e.2.2
      (hg.sized (fits_of_inFilm (Film.new res filt) ha e.2.1 (hfit e.2.1 hb))) (by
        intro x y hin
        have := hfit e.2.1 hb x y (by unfold InTile at hin ⊢; rw [← hg.bbox]; exact hin)
        unfold InFilm at this ⊢; rw [h.1]; exact this)
    rw [g1] at he
    obtain ⟨i1, i2⟩ := ih f1 film' ⟨g3.trans h.1, g4.trans h.2.1, g5.trans h.2.2.1, g2⟩
      (fun e' h' => hlog e' (List.mem_cons_of_mem _ h')) he
    refine ⟨i1, ?_⟩
    have same : InTile e.2.2 x y ↔ InTile ((Film.new res filt).getFilmTile e.2.1) x y := by unfold InTile; rw [hg.bbox]
    by_cases hin : InTile ((Film.new res filt).getFilmTile e.2.1) x y
    · rw [List.filter_cons_of_pos (by simpa using hin), List.map_cons, List.foldl_cons, i2, g6 x y (same.2 hin)]
    · rw [List.filter_cons_of_neg (by simpa using hin), i2, g7 x y (by unfold InFilm; rw [h.1]; exact hi) (fun hc => hin (same.1 hc))]

theorem new_px_zero (res : V2 Int) (filt : Filter α) (x y : Int) : (Film.new res filt).px x y = Pixel.zero := by
  unfold Film.px Film.new
  simp only [List.getElem?_replicate]
  split_ifs <;> rfl

/-- The pixel after a complete render: the pixels of the tiles, merged in some order. -/
theorem rendered_pixel [Libm α] (res : V2 Int) (hpos : 0 ≤ res.x * res.y) (ha : res.x * res.y < 2 ^ 31) (filt : Filter α) (hfit : Spec.TilesFit (Film.new res filt))
    (radiance : V2 α → Draw α (Spectrum α)) (spp n : Nat) (file : Option (List UInt8)) (st : RState α HaltonSampler)
    (h : Spec.Rendered (Film.new res filt) radiance spp n file st) :
    FilmInv res filt st.sh.film ∧ st.file = some (outputFile (file.getD []) st.sh.film) ∧
    ∀ x y, Spec.InImage res x y → ∃ order : List BBox2i, order.Perm (Spec.tilesAt (Film.new res filt) x y) ∧
      st.sh.film.px x y = (order.map fun b => (Spec.tileOf (Film.new res filt) radiance spp b).px x y).foldl Pixel.merge Pixel.zero := by
  obtain ⟨hn, ⟨k, hr⟩, hdone⟩ := h
  obtain ⟨log, lost, base, h⟩ := rinv_reach (R := Spec.Hist α (HaltonSampler.new spp (Film.new res filt).sampleBBox))
    (fun s b t s' hs e => hist_renderTile radiance (Film.new res filt) s b t s' hs e) .start hr
  have hm := h.main
  unfold mainOk at hm; rw [hdone] at hm
  obtain ⟨h1, h2, h3, h4⟩ := hm
  have hbox : (st.threads.map PC.box).sum = 0 := by
    apply List.sum_eq_zero
    intro x hx
    obtain ⟨pc, hp, rfl⟩ := List.mem_map.1 hx
    rw [h2 pc hp]; rfl
  have hlost : lost = 0 := h.lost0 fun hc => by have := h2 _ hc; simp at this
  have hne : st.threads ≠ [] := by intro hc; rw [hc] at h1; simp at h1; omega
  obtain ⟨pc, hpc⟩ := List.exists_mem_of_ne_nil _ hne
  have hend : st.sh.iter.toList = [] := h.over pc hpc (by rw [h2 pc hpc]; trivial)
  have hcount := h.count
  rw [hbox, hlost, hend] at hcount
  simp only [Multiset.coe_nil, add_zero] at hcount
  have p1 := (Multiset.coe_eq_coe.1 hcount).symm
  have p2 := h.logOk
  have p3 : mergeLog (Film.new res filt) log = some st.sh.film := by rw [h.filmFree h4]; exact h.baseOk
  have tile : ∀ e ∈ log, e.2.2 = Spec.tileOf (Film.new res filt) radiance spp e.2.1 := by
    rintro ⟨s, b, t⟩ he
    obtain ⟨hs, s', e⟩ := p2 _ he
    have := renderTile_halton spp (Film.new res filt).sampleBBox radiance (Film.new res filt) s _ hs .start b
    have e' : (renderTile HaltonSampler.ops radiance (Film.new res filt) s b).map Prod.fst = some t := by
      rw [e]; rfl
    simp only [Spec.tileOf, ← this, e', Option.getD_some]
  have good : ∀ e ∈ log, e.2.1 ∈ (Film.new res filt).iter.toList ∧ TileGood (Film.new res filt) e.2.1 e.2.2 := by
    intro e he
    obtain ⟨_, s', hw⟩ := p2 e he
    exact ⟨p1.mem_iff.1 (List.mem_map.2 ⟨e, he, rfl⟩), renderTile_good _ _ _ (mkFilterTable_ok filt) _ _ _ _ hw⟩
  have inv0 : FilmInv res filt (Film.new res filt) := ⟨rfl, rfl, rfl, filmNew_sized res hpos ha filt⟩
  have inv1 := mergeLog_inv res ha filt hfit log _ _ inv0 good p3
  refine ⟨inv1, h3, fun x y hi => ?_⟩
  obtain ⟨-, q⟩ := mergeLog_fold res ha filt hfit x y hi log (Film.new res filt) _ inv0 good p3
  refine ⟨(log.filter fun e => InTile ((Film.new res filt).getFilmTile e.2.1) x y).map (·.2.1), ?_, ?_⟩
  · have := p1.filter (fun b => decide (InTile ((Film.new res filt).getFilmTile b) x y))
    rw [List.filter_map] at this
    exact this
  · rw [q, new_px_zero, List.map_map]
    congr 1
    apply List.map_congr_left
    intro e he
    simp only [Function.comp]
    rw [← tile e (List.mem_filter.1 he).1]

theorem modifyAt_all {Q : Pixel α → Prop} {l l' : List (Pixel α)} {i : Nat} {f : Pixel α → Pixel α} (h : ∀ p ∈ l, Q p)
    (hf : ∀ p, Q (f p)) (e : modifyAt l i f = some l') : ∀ p ∈ l', Q p := by
  unfold modifyAt at e
  split_ifs at e
  cases e
  intro p hp
  rw [List.mem_iff_getElem?] at hp
  obtain ⟨j, hj⟩ := hp
  rw [List.getElem?_modify] at hj
  cases hl : l[j]? with
  | none => rw [hl] at hj; simp at hj
  | some q =>
    rw [hl] at hj
    simp only [Option.map_eq_map, Option.map_some, Option.some.injEq] at hj
    split_ifs at hj
    · rw [← hj]; exact hf q
    · rw [← hj]; exact h q (List.mem_of_getElem? hl)

theorem addSample_all {Q : Pixel α → Prop} (hadd : ∀ p s w, Q (Pixel.addSample p s w)) {t t' : FilmTile α} {pf : V2 α}
    {l : Spectrum α} (h : ∀ p ∈ t.pixels, Q p) (e : t.addSample pf l = some t') : ∀ p ∈ t'.pixels, Q p := by
  unfold FilmTile.addSample at e
  obtain ⟨px, e1, e2⟩ := Option.bind_eq_some_iff.1 e
  cases e2
  refine foldlM_inv (fun px : List (Pixel α) => ∀ p ∈ px, Q p) _ _ ?_ _ _ h e1
  intro px y _ px' h1 e1
  refine foldlM_inv (fun px : List (Pixel α) => ∀ p ∈ px, Q p) _ _ ?_ _ _ h1 e1
  intro px x _ px' h1 e1
  obtain ⟨_, -, e1⟩ := Option.bind_eq_some_iff.1 e1
  obtain ⟨_, -, e1⟩ := Option.bind_eq_some_iff.1 e1
  obtain ⟨_, -, e1⟩ := Option.bind_eq_some_iff.1 e1
  obtain ⟨_, -, e1⟩ := Option.bind_eq_some_iff.1 e1
  exact modifyAt_all h1 (fun p => hadd _ _ _) e1

theorem pixelLoop_all {σ : Type} {Q : Pixel α → Prop} (hadd : ∀ p s w, Q (Pixel.addSample p s w)) (ops : SamplerOps α σ)
    (radiance : V2 α → Draw α (Spectrum α)) (pixel : V2 Int) : ∀ (fuel : Nat) (t : FilmTile α) (s : σ) (t' : FilmTile α) (s' : σ),
    (∀ p ∈ t.pixels, Q p) → pixelLoop ops radiance pixel fuel t s = some (t', s') → ∀ p ∈ t'.pixels, Q p := by
  intro fuel
  induction fuel with
  | zero => intro t s t' s' _ e; simp [pixelLoop] at e
  | succ fuel ih =>
    intro t s t' s' h e
    simp only [pixelLoop, bind] at e
    obtain ⟨⟨⟨pf, l⟩, s1⟩, _, e⟩ := Option.bind_eq_some_iff.1 e
    obtain ⟨t1, e1, e⟩ := Option.bind_eq_some_iff.1 e
    have h1 : ∀ p ∈ t1.pixels, Q p := by
      unfold addIfValid at e1
      split_ifs at e1
      · exact addSample_all hadd h e1
      · cases e1; exact h
    split_ifs at e
    · exact ih _ _ _ _ h1 e
    · cases e; exact h1

/-- Every pixel of a tile is zero or the result of an addition. -/
theorem tileOf_all {Q : Pixel α → Prop} (h0 : Q Pixel.zero) (hadd : ∀ p s w, Q (Pixel.addSample p s w)) (film : Film α)
    (radiance : V2 α → Draw α (Spectrum α)) (spp : Nat) (b : BBox2i) (x y : Int) : Q ((Spec.tileOf film radiance spp b).px x y) := by
  have zero : ∀ p ∈ (film.getFilmTile b).pixels, Q p := by
    intro p hp
    unfold Film.getFilmTile FilmTile.new at hp
    rw [List.eq_of_mem_replicate hp]; exact h0
  have all : ∀ p ∈ (Spec.tileOf film radiance spp b).pixels, Q p := by
    unfold Spec.tileOf
    cases e : renderTile HaltonSampler.ops radiance film (HaltonSampler.new spp film.sampleBBox) b with
    | none => exact zero
    | some r =>
      obtain ⟨t, s'⟩ := r
      unfold renderTile at e
      refine foldlM_inv (fun acc : FilmTile α × HaltonSampler => ∀ p ∈ acc.1.pixels, Q p) _ _ ?_ _ (t, s') zero e
      rintro ⟨t1, s1⟩ p _ ⟨t2, s2⟩ h1 e1
      exact pixelLoop_all hadd _ radiance p _ _ _ _ _ h1 e1
  unfold FilmTile.px
  cases e : (Spec.tileOf film radiance spp b).pixels[(Spec.tileOf film radiance spp b).pixelOffset x y]? with
  | none => exact h0
  | some p => exact all p (List.mem_of_getElem? e)

end generic

/-! ### Two tiles -/

/-- Two numbers added to zero, in either order. -/
theorem zero_add_add {a b : F32} (ha : a.WF) (hb : b.WF) : (lit 0 : F32) +. a +. b = (lit 0 : F32) +. b +. a := by
  have z : ∀ x : F32, x.WF → (lit 0 : F32) +. x = (match x with | .fin s m => if m = 0 then .fin false 0 else .fin s m | y => y) := by
    intro x hx
    rw [Fl.lit_zero]
    cases x with
    | nan => rfl
    | inf s => rfl
    | fin s m =>
      show Fl.ofVal (Fl.sgn false 0 + Fl.sgn s m) (false && s) = _
      simp only [Fl.sgn, Bool.false_eq_true, if_false, zero_add, Bool.false_and]
      unfold Fl.ofVal
      have h0 : 0 ≤ m := hx.1
      have hr := hx.2
      by_cases hm : m = 0
      · subst hm; cases s <;> simp
      · have hp : 0 < m := lt_of_le_of_ne h0 (Ne.symm hm)
        cases s
        · simp [hm, not_lt.2 h0, hr]
        · simp [hm, hp, hr]
  rw [z a ha, z b hb]
  cases a with
  | nan => cases b <;> first | rfl | (simp only; split_ifs <;> rfl)
  | inf s =>
    cases b with
    | nan => rfl
    | inf t =>
      show (if s = t then _ else _) = (if t = s then _ else _)
      by_cases h : s = t
      · subst h; rfl
      · rw [if_neg h, if_neg (Ne.symm h)]
    | fin t m => simp only; split_ifs <;> rfl
  | fin s m =>
    cases b with
    | nan => simp only; split_ifs <;> rfl
    | inf t => simp only; split_ifs <;> rfl
    | fin t k =>
      have key : ∀ (s t : Bool) (m k : ℚ), (Fl.fin s m : F32) +. .fin t k = (Fl.fin t k : F32) +. .fin s m := by
        intro s t m k
        show Fl.ofVal _ _ = Fl.ofVal _ _
        rw [add_comm, Bool.and_comm]
      by_cases hm : m = 0 <;> by_cases hk : k = 0
      · subst hm hk
        show Fl.add _ _ = Fl.add _ _
        cases s <;> cases t <;> simp [Fl.add, Fl.sgn, Fl.ofVal]
      · subst hm
        show Fl.add _ _ = Fl.add _ _
        simp only [if_true, if_neg hk, Fl.add]
        rw [add_comm]
        have : (Fl.sgn t k : ℚ) + Fl.sgn s 0 = Fl.sgn t k + Fl.sgn false 0 := by cases s <;> simp [Fl.sgn]
        have ne : (Fl.sgn t k : ℚ) + Fl.sgn false 0 ≠ 0 := by cases t <;> simp [Fl.sgn, hk]
        rw [this]
        unfold Fl.ofVal
        rw [if_neg ne, if_neg ne]
      · subst hk
        show Fl.add _ _ = Fl.add _ _
        simp only [if_true, if_neg hm, Fl.add]
        rw [add_comm]
        have : (Fl.sgn t 0 : ℚ) + Fl.sgn s m = Fl.sgn false 0 + Fl.sgn s m := by cases t <;> simp [Fl.sgn]
        have ne : (Fl.sgn false 0 : ℚ) + Fl.sgn s m ≠ 0 := by cases s <;> simp [Fl.sgn, hm]
        rw [this]
        unfold Fl.ofVal
        rw [if_neg ne, if_neg ne]
      · simp only [if_neg hm, if_neg hk]
        exact key s t m k

/-- All four numbers are floats (results of operations). -/
def EntriesWF (p : Pixel F32) : Prop := ∀ c : Spec.Entry, (c.of p).WF

theorem tile_WF (film : Film F32) (radiance : V2 F32 → Draw F32 (Spectrum F32)) (spp : Nat) (b : BBox2i) (x y : Int) :
    EntriesWF ((Spec.tileOf film radiance spp b).px x y) := by
  apply tileOf_all (Q := EntriesWF)
  · intro c; cases c <;> exact Fl.lit_WF 0
  · intro p s w c; cases c <;> exact Fl.add_WF _ _

theorem entry_zero (c : Spec.Entry) : c.of (Pixel.zero : Pixel F32) = lit 0 := by cases c <;> rfl

/-- At most two pixels merged into a fresh one, in either order. -/
theorem two_orders (f : BBox2i → Pixel F32) (hf : ∀ b, EntriesWF (f b)) (l l' : List BBox2i) (hp : l.Perm l') (hl : l.length ≤ 2) :
    (l.map f).foldl Pixel.merge Pixel.zero = (l'.map f).foldl Pixel.merge Pixel.zero := by
  match l, hl with
  | [], _ => rw [List.nil_perm.1 hp]
  | [a], _ => rw [List.singleton_perm.1 hp]
  | [a, b], _ =>
    have hlen := hp.length_eq
    match l', hlen with
    | [c, d], _ =>
      have : (c = a ∧ d = b) ∨ (c = b ∧ d = a) := by
        have hc : c ∈ [a, b] := hp.mem_iff.2 (by simp)
        simp only [List.mem_cons, List.not_mem_nil, or_false] at hc
        rcases hc with rfl | rfl
        · left; refine ⟨rfl, ?_⟩
          have := (List.perm_cons c).1 hp
          exact (List.singleton_perm_singleton.1 this).symm
        · right; refine ⟨rfl, ?_⟩
          have := (List.Perm.swap a c []).trans hp
          have := (List.perm_cons c).1 this
          exact (List.singleton_perm_singleton.1 this).symm
      rcases this with ⟨rfl, rfl⟩ | ⟨rfl, rfl⟩
      · rfl
      · apply entry_ext
        intro e
        simp only [List.map_cons, List.map_nil, List.foldl_cons, List.foldl_nil, entry_merge, entry_zero]
        exact zero_add_add (hf _ e) (hf _ e)

end Sched
open Sched

section
variable [Libm F32]

/-- C98, in part: a pixel that at most two tiles have in their buffers gets the same value, to the last bit, in any two renders,
whatever the numbers of threads and the schedules. -/
theorem c98_two_tiles_partial (res : V2 Int) (filt : Filter F32) (hR : FilmRange32 res filt.radius)
    (radiance : V2 F32 → Draw F32 (Spectrum F32)) (spp n n' : Nat) (file file' : Option (List UInt8)) (st st' : RState F32 HaltonSampler)
    (h : Spec.Rendered (Film.new res filt) radiance spp n file st) (h' : Spec.Rendered (Film.new res filt) radiance spp n' file' st')
    (x y : Int) (hi : Spec.InImage res x y) (h2 : (Spec.tilesAt (Film.new res filt) x y).length ≤ 2) :
    st.sh.film.px x y = st'.sh.film.px x y := by
  have hpos : 0 ≤ res.x * res.y := Int.mul_nonneg hR.x0.le hR.y0.le
  have hfit := tilesFit_f32 res filt hR
  obtain ⟨o, p, e⟩ := (rendered_pixel res hpos hR.area filt hfit radiance spp n file st h).2.2 x y hi
  obtain ⟨o', p', e'⟩ := (rendered_pixel res hpos hR.area filt hfit radiance spp n' file' st' h').2.2 x y hi
  rw [e, e']
  exact two_orders (fun b => (Spec.tileOf (Film.new res filt) radiance spp b).px x y)
    (fun b => tile_WF _ _ _ _ _ _) o o' (p.trans p'.symm) (by rw [p.length_eq]; exact h2)

/-- C98, in part: if this holds of every pixel, the two image files are the same, byte by byte. -/
theorem c98_same_file_partial (res : V2 Int) (filt : Filter F32) (hR : FilmRange32 res filt.radius)
    (radiance : V2 F32 → Draw F32 (Spectrum F32)) (spp n n' : Nat) (file : Option (List UInt8)) (st st' : RState F32 HaltonSampler)
    (h : Spec.Rendered (Film.new res filt) radiance spp n file st) (h' : Spec.Rendered (Film.new res filt) radiance spp n' file st')
    (h2 : ∀ x y, Spec.InImage res x y → (Spec.tilesAt (Film.new res filt) x y).length ≤ 2) : st.file = st'.file := by
  have hpos : 0 ≤ res.x * res.y := Int.mul_nonneg hR.x0.le hR.y0.le
  have hfit := tilesFit_f32 res filt hR
  obtain ⟨i1, f1, -⟩ := rendered_pixel res hpos hR.area filt hfit radiance spp n file st h
  obtain ⟨i2, f2, -⟩ := rendered_pixel res hpos hR.area filt hfit radiance spp n' file st' h'
  have key : st.sh.film.pixels = st'.sh.film.pixels := by
    have l1 := i1.2.2.2.2
    have l2 := i2.2.2.2.2
    rw [i1.1] at l1; rw [i2.1] at l2
    apply List.ext_getElem (by rw [l1, l2])
    intro k hk hk'
    rw [l1] at hk
    have rx := hR.x0
    have ry := hR.y0
    have hkr : (k : Int) < res.x * res.y := by omega
    have hx1 := Int.emod_nonneg (k : Int) rx.ne'
    have hx2 := Int.emod_lt_of_pos (k : Int) rx
    have hy1 : 0 ≤ (k : Int) / res.x := Int.ediv_nonneg (by omega) rx.le
    have hy2 : (k : Int) / res.x < res.y := Int.ediv_lt_of_lt_mul rx (by rw [mul_comm]; exact hkr)
    have hdm := Int.mul_ediv_add_emod (k : Int) res.x
    have off : ∀ f : Film F32, f.resolution = res → f.Sized → f.pixelOffset ⟨(k : Int) % res.x, (k : Int) / res.x⟩ = k := by
      intro f hf hs
      rw [film_offset_eq hs.1 (by unfold InFilm; rw [hf]; exact ⟨hx1, hx2, hy1, hy2⟩), hf]
      simp only
      omega
    have := c98_two_tiles_partial res filt hR radiance spp n n' file file st st' h h' ((k : Int) % res.x) ((k : Int) / res.x)
      ⟨hx1, hx2, hy1, hy2⟩ (h2 _ _ ⟨hx1, hx2, hy1, hy2⟩)
    unfold Film.px at this
    rw [off _ i1.1 i1.2.2.2, off _ i2.1 i2.2.2.2] at this
    rw [List.getElem?_eq_getElem (by rw [l1]; exact hk), List.getElem?_eq_getElem (by rw [l2]; exact hk)] at this
    simpa using this
  have e : st.sh.film = st'.sh.film := by
    have a := i1.1.trans i2.1.symm
    have b := i1.2.1.trans i2.2.1.symm
    have c := i1.2.2.1.trans i2.2.2.1.symm
    cases hA : st.sh.film; cases hB : st'.sh.film
    rw [hA, hB] at a b c key
    simp only at a b c key
    subst a b c key; rfl
  rw [f1, f2, e]


/-! ### How many tiles have a pixel -/

end

namespace Sched

/-- One axis of a tile's buffer: it reaches at most `ρ` pixels over the tile's border. -/
theorem buffer_axis {r : F32} (hf : r.IsFin) (h0 : 0 ≤ r.val) {ρ : Int} (hρ : r.val ≤ ρ) (hρ' : ρ ≤ 2 ^ 20) {m M : Int}
    (m1 : -2 ^ 22 ≤ m) (m2 : m ≤ 2 ^ 22 + 2 ^ 21) (M1 : -2 ^ 22 ≤ M) (M2 : M ≤ 2 ^ 22 + 2 ^ 21) :
    (m - ρ ≤ toI32 (Scalar.ceil ((ofInt m : F32) -. lit (1 / 2) -. r)) ∧ toI32 (Scalar.ceil ((ofInt m : F32) -. lit (1 / 2) -. r)) ≤ m) ∧
    toI32 (Scalar.floor ((ofInt M : F32) +. lit (1 / 2) +. r)) ≤ M + ρ ∧ M ≤ toI32 (Scalar.floor ((ofInt M : F32) +. lit (1 / 2) +. r)) := by
  obtain ⟨hh, hhv⟩ := half_f32
  obtain ⟨k1, k2⟩ := Fl.neg_fin hh
  rw [hhv] at k2
  obtain ⟨r1, r2⟩ := Fl.neg_fin hf
  have m1' : (-2 ^ 22 : ℚ) ≤ m := by exact_mod_cast m1
  have m2' : (m : ℚ) ≤ 2 ^ 22 + 2 ^ 21 := by exact_mod_cast m2
  have M1' : (-2 ^ 22 : ℚ) ≤ M := by exact_mod_cast M1
  have M2' : (M : ℚ) ≤ 2 ^ 22 + 2 ^ 21 := by exact_mod_cast M2
  have ρ1 : (ρ : ℚ) ≤ 2 ^ 20 := by exact_mod_cast hρ'
  have ρ0 : 0 ≤ ρ := by exact_mod_cast h0.trans hρ
  obtain ⟨i1, i2⟩ := ofInt_exact (n := m) (abs_le.2 ⟨by omega, by omega⟩)
  obtain ⟨j1, j2⟩ := ofInt_exact (n := M) (abs_le.2 ⟨by omega, by omega⟩)
  constructor
  · obtain ⟨b1, -, -, -, -, -, b2⟩ := Fl.add_range i1 k1 (by rw [i2, k2]; linarith) (by rw [i2, k2]; linarith)
    have b2 := b2 (2 * m - 1) (abs_le.2 ⟨by omega, by omega⟩) (by rw [i2, k2]; push_cast; ring)
    obtain ⟨d1, d2, d3, d4, d5, -, -⟩ := Fl.add_range b1 r1 (by rw [b2, r2]; push_cast; linarith) (by rw [b2, r2]; push_cast; linarith)
    change m - ρ ≤ toI32 (Scalar.ceil (Fl.add (Fl.add (ofInt m : F32) (Fl.neg (lit (1 / 2)))) (Fl.neg r))) ∧
      toI32 (Scalar.ceil (Fl.add (Fl.add (ofInt m : F32) (Fl.neg (lit (1 / 2)))) (Fl.neg r))) ≤ m
    rw [Fl.ceil_i32 d1 d2 d3 d4]
    have hle : ((2 * (m - ρ) - 1 : Int) : ℚ) / 2 ≤ (Fl.add (Fl.add (ofInt m : F32) (Fl.neg (lit (1 / 2)))) (Fl.neg r)).val := by
      obtain ⟨zs, e⟩ := Fl.add_fin b1 r1
      rw [e]
      have lo : Fl.Repr Binary32 (((2 * (m - ρ) - 1 : Int) : ℚ) / 2) := repr_half (abs_le.2 ⟨by omega, by omega⟩)
      exact (Fl.ofVal_between (φ := Binary32) lo repr_hi (by rw [b2, r2]; push_cast; linarith) (by rw [b2, r2]; push_cast; linarith) zs).2.1
    have : m - ρ - 1 < ⌈(Fl.add (Fl.add (ofInt m : F32) (Fl.neg (lit (1 / 2)))) (Fl.neg r)).val⌉ := by
      rw [Int.lt_ceil]; push_cast at hle ⊢; linarith
    refine ⟨by omega, ?_⟩
    rw [Int.ceil_le]
    exact d5 m (abs_le.2 ⟨by omega, by omega⟩) (by rw [b2, r2]; push_cast; linarith)
  · obtain ⟨b1, -, -, -, -, -, b2⟩ := Fl.add_range j1 hh (by rw [j2, hhv]; linarith) (by rw [j2, hhv]; linarith)
    have b2 := b2 (2 * M + 1) (abs_le.2 ⟨by omega, by omega⟩) (by rw [j2, hhv]; push_cast; ring)
    obtain ⟨d1, d2, d3, d4, -, d6, -⟩ := Fl.add_range b1 hf (by rw [b2]; push_cast; linarith) (by rw [b2]; push_cast; linarith)
    change toI32 (Scalar.floor (Fl.add (Fl.add (ofInt M : F32) (lit (1 / 2))) r)) ≤ M + ρ ∧
      M ≤ toI32 (Scalar.floor (Fl.add (Fl.add (ofInt M : F32) (lit (1 / 2))) r))
    rw [Fl.floor_i32 d1 d2 d3 d4]
    have hle : (Fl.add (Fl.add (ofInt M : F32) (lit (1 / 2))) r).val ≤ ((2 * (M + ρ) + 1 : Int) : ℚ) / 2 := by
      obtain ⟨zs, e⟩ := Fl.add_fin b1 hf
      rw [e]
      have hi : Fl.Repr Binary32 (((2 * (M + ρ) + 1 : Int) : ℚ) / 2) := repr_half (abs_le.2 ⟨by omega, by omega⟩)
      exact (Fl.ofVal_between (φ := Binary32) repr_lo hi (by rw [b2]; push_cast; linarith) (by rw [b2]; push_cast; linarith) zs).2.2
    have : ⌊(Fl.add (Fl.add (ofInt M : F32) (lit (1 / 2))) r).val⌋ < M + ρ + 1 := by
      rw [Int.floor_lt]; push_cast at hle ⊢; linarith
    refine ⟨by omega, ?_⟩
    rw [Int.le_floor]
    exact d6 M (abs_le.2 ⟨by omega, by omega⟩) (by rw [b2]; push_cast; linarith)

/-- A tile that has a pixel is not far from it. -/
theorem tile_near (res : V2 Int) (filt : Filter F32) (hR : FilmRange32 res filt.radius) {ρ : Int} (hρ : filt.radius.val ≤ ρ) (hρ' : ρ ≤ 2 ^ 20)
    {x y : Int} {b : BBox2i} (hb : b ∈ Spec.tilesAt (Film.new res filt) x y) :
    ∃ i j, b = tileAt (Film.new res filt).sampleBBox i j ∧
      -ρ ≤ x - (Film.new res filt).sampleBBox.min.x - 16 * i ∧ x - (Film.new res filt).sampleBBox.min.x - 16 * i < 16 + ρ ∧
      -ρ ≤ y - (Film.new res filt).sampleBBox.min.y - 16 * j ∧ y - (Film.new res filt).sampleBBox.min.y - 16 * j < 16 + ρ := by
  obtain ⟨hb, hin⟩ := List.mem_filter.1 hb
  simp only [decide_eq_true_eq] at hin
  obtain ⟨hf, h0, h1, x0, y0, x1, y1, -⟩ := hR
  unfold Film.iter at hb
  obtain ⟨i, j, hi0, hi, hj0, hj, rfl⟩ := (mem_tiles _ _).1 hb
  refine ⟨i, j, rfl, ?_⟩
  rw [tileAt_eq _ i j hi hj] at hin
  obtain ⟨lx, hx, ex1, ex2, ex3, ex4, -, -, ex6⟩ := sampleAxis hf h0 h1 x0 x1
  obtain ⟨ly, hy, ey1, ey2, ey3, ey4, -, -, ey6⟩ := sampleAxis hf h0 h1 y0 y1
  have qx : (res.x : ℚ) ≤ 2 ^ 22 := by exact_mod_cast x1
  have qy : (res.y : ℚ) ≤ 2 ^ 22 := by exact_mod_cast y1
  have ex5 : ⌈hx⌉ ≤ 2 ^ 22 + 2 ^ 21 := by rw [Int.ceil_le]; exact ex6 _ (by norm_num) (by push_cast; linarith)
  have ey5 : ⌈hy⌉ ≤ 2 ^ 22 + 2 ^ 21 := by rw [Int.ceil_le]; exact ey6 _ (by norm_num) (by push_cast; linarith)
  have hS : (Film.new res filt).sampleBBox = ⟨⟨⌊lx⌋, ⌊lx⌋⟩, ⟨⌈hx⌉, ⌈hy⌉⟩⟩ := by
    unfold Film.sampleBBox
    simp only [V2.add, V2.sub, V2.ssub, V2.sadd, V2.floor, V2.ceil, V2.toI, V2.ofI, halfPixel, Film.new]
    rw [ex1, ex2, ey2]
    have : ⌊lx⌋ = ⌊ly⌋ := by rw [← ex1, ey1]
    simp only [BBox2i.new, V2.imin, V2.imax, imin, imax, BBox2i.mk.injEq, V2.mk.injEq]
    refine ⟨⟨?_, ?_⟩, ?_, ?_⟩ <;> split_ifs <;> omega
  have ey1' : ⌊lx⌋ = ⌊ly⌋ := by rw [← ex1, ey1]
  rw [hS] at hin hi hj ⊢
  simp only at hin hi hj ⊢
  obtain ⟨⟨tx1, tx3⟩, tx2, tx4⟩ := buffer_axis (m := ⌊lx⌋ + i * 16) (M := min (⌊lx⌋ + i * 16 + 16) ⌈hx⌉) hf h0 hρ hρ'
    (by omega) (by omega) (by omega) (by omega)
  obtain ⟨⟨ty1, ty3⟩, ty2, ty4⟩ := buffer_axis (m := ⌊lx⌋ + j * 16) (M := min (⌊lx⌋ + j * 16 + 16) ⌈hy⌉) hf h0 hρ hρ'
    (by omega) (by omega) (by omega) (by omega)
  obtain ⟨ux1, ux2⟩ := tileAxis (m := ⌊lx⌋ + i * 16) (M := min (⌊lx⌋ + i * 16 + 16) ⌈hx⌉) hf h0 h1 x0 x1
    (by rw [ex1]; omega) (by omega) (by rw [ex2]; omega)
  obtain ⟨uy1, uy2⟩ := tileAxis (m := ⌊lx⌋ + j * 16) (M := min (⌊lx⌋ + j * 16 + 16) ⌈hy⌉) hf h0 h1 y0 y1
    (by rw [ey1]; omega) (by omega) (by rw [ey2]; omega)
  have hρ0 : 0 ≤ ρ := by exact_mod_cast h0.trans hρ
  unfold InTile Film.getFilmTile at hin
  simp only [V2.add, V2.sub, V2.ssub, V2.sadd, V2.floor, V2.ceil, V2.toI, V2.ofI, halfPixel, FilmTile.new, Film.new,
    BBox2i.new, V2.imin, V2.imax, imin, imax] at hin
  split_ifs at hin <;> omega

theorem tiles_nodup (film : Film F32) : film.iter.toList.Nodup := by
  obtain ⟨h1, h2, -⟩ := c02_tiles_partition film.sampleBBox
  refine List.Pairwise.imp_of_mem (fun {a b} ha _ h => ?_) h2
  rintro rfl
  obtain ⟨a1, a2, -⟩ := h1 a ha
  exact h a.min ⟨⟨le_refl _, a1, le_refl _, a2⟩, ⟨le_refl _, a1, le_refl _, a2⟩⟩

theorem tiles_count (film : Film F32) (x y : Int) (I J : Finset Int)
    (h : ∀ b ∈ Spec.tilesAt film x y, ∃ i ∈ I, ∃ j ∈ J, b = tileAt film.sampleBBox i j) :
    (Spec.tilesAt film x y).length ≤ I.card * J.card := by
  have nd : (Spec.tilesAt film x y).Nodup := (tiles_nodup film).filter _
  have inj : (Spec.tilesAt film x y).map id ⊆ ((I ×ˢ J).toList.map fun q => tileAt film.sampleBBox q.1 q.2) := by
    intro b hb
    rw [List.map_id] at hb
    obtain ⟨i, hi, j, hj, e⟩ := h b hb
    exact List.mem_map.2 ⟨(i, j), Finset.mem_toList.2 (Finset.mem_product.2 ⟨hi, hj⟩), e.symm⟩
  rw [List.map_id] at inj
  have := (List.subperm_of_subset nd inj).length_le
  rw [List.length_map, Finset.length_toList, Finset.card_product] at this
  exact this

end Sched
open Sched

/-- With a filter radius of at most 7 no pixel is in the buffers of more than four tiles. -/
theorem c98_four_tiles (res : V2 Int) (filt : Filter F32) (hR : FilmRange32 res filt.radius) (h7 : filt.radius.val ≤ 7) (x y : Int) :
    (Spec.tilesAt (Film.new res filt) x y).length ≤ 4 := by
  obtain ⟨u, hu⟩ : ∃ u, u = x - (Film.new res filt).sampleBBox.min.x := ⟨_, rfl⟩
  obtain ⟨v, hv⟩ : ∃ v, v = y - (Film.new res filt).sampleBBox.min.y := ⟨_, rfl⟩
  refine (tiles_count _ x y {(u + 7) / 16 - 1, (u + 7) / 16} {(v + 7) / 16 - 1, (v + 7) / 16} ?_).trans ?_
  · intro b hb
    obtain ⟨i, j, e, a1, a2, a3, a4⟩ := tile_near res filt hR (ρ := 7) (by exact_mod_cast h7) (by norm_num) hb
    rw [← hu] at a1 a2; rw [← hv] at a3 a4
    refine ⟨i, ?_, j, ?_, e⟩ <;> simp only [Finset.mem_insert, Finset.mem_singleton] <;> omega
  · have := Finset.card_le_two (a := (u + 7) / 16 - 1) (b := (u + 7) / 16)
    have := Finset.card_le_two (a := (v + 7) / 16 - 1) (b := (v + 7) / 16)
    nlinarith

/-- A pixel farther than the filter radius from the borders between two columns of tiles (or between two rows) is in the buffers of at
most two tiles.  So only pixels near a corner of four tiles can differ between two renders. -/
theorem c98_off_corners (res : V2 Int) (filt : Filter F32) (hR : FilmRange32 res filt.radius) (ρ : Int) (hρ : filt.radius.val ≤ ρ) (h7 : ρ ≤ 7)
    (x y : Int)
    (h : (let u := (x - (Film.new res filt).sampleBBox.min.x) % 16; ρ ≤ u ∧ u < 16 - ρ) ∨
         (let v := (y - (Film.new res filt).sampleBBox.min.y) % 16; ρ ≤ v ∧ v < 16 - ρ)) :
    (Spec.tilesAt (Film.new res filt) x y).length ≤ 2 := by
  simp only at h
  obtain ⟨u, hu⟩ : ∃ u, u = x - (Film.new res filt).sampleBBox.min.x := ⟨_, rfl⟩
  obtain ⟨v, hv⟩ : ∃ v, v = y - (Film.new res filt).sampleBBox.min.y := ⟨_, rfl⟩
  rw [← hu, ← hv] at h
  have ρ0 : 0 ≤ ρ := by exact_mod_cast hR.rpos.trans hρ
  rcases h with h | h
  · refine (tiles_count _ x y {u / 16} {(v + 7) / 16 - 1, (v + 7) / 16} ?_).trans ?_
    · intro b hb
      obtain ⟨i, j, e, a1, a2, a3, a4⟩ := tile_near res filt hR hρ (by omega) hb
      rw [← hu] at a1 a2; rw [← hv] at a3 a4
      refine ⟨i, ?_, j, ?_, e⟩ <;> simp only [Finset.mem_insert, Finset.mem_singleton] <;> omega
    · have := Finset.card_le_two (a := (v + 7) / 16 - 1) (b := (v + 7) / 16)
      rw [Finset.card_singleton]; omega
  · refine (tiles_count _ x y {(u + 7) / 16 - 1, (u + 7) / 16} {v / 16} ?_).trans ?_
    · intro b hb
      obtain ⟨i, j, e, a1, a2, a3, a4⟩ := tile_near res filt hR hρ (by omega) hb
      rw [← hu] at a1 a2; rw [← hv] at a3 a4
      refine ⟨i, ?_, j, ?_, e⟩ <;> simp only [Finset.mem_insert, Finset.mem_singleton] <;> omega
    · have := Finset.card_le_two (a := (u + 7) / 16 - 1) (b := (u + 7) / 16)
      rw [Finset.card_singleton]; omega

/-! ### How much the order matters -/

namespace Sched

theorem zero_val : (lit 0 : F32).IsFin ∧ (lit 0 : F32).val = 0 := by
  rw [Fl.lit_zero]; exact ⟨trivial, by simp [Fl.val, Fl.sgn]⟩

/-- Rounded sums of non-negative numbers. -/
theorem sum_err (f : BBox2i → F32) : ∀ (l : List BBox2i) (a : F32) (A : ℚ) (m : ℕ), a.WF → a.IsFin → 0 ≤ A →
    A * (1 - 1 / 2 ^ 24) ^ m ≤ a.val → a.val ≤ A * (1 + 1 / 2 ^ 24) ^ m →
    (∀ b ∈ l, (f b).WF ∧ (f b).IsFin ∧ 0 ≤ (f b).val) → (A + (l.map fun b => (f b).val).sum) * (1 + 1 / 2 ^ 24) ^ (m + l.length) ≤ 2 ^ 126 →
    let r := (l.map f).foldl (fun p q => p +. q) a
    r.IsFin ∧ (A + (l.map fun b => (f b).val).sum) * (1 - 1 / 2 ^ 24) ^ (m + l.length) ≤ r.val ∧
      r.val ≤ (A + (l.map fun b => (f b).val).sum) * (1 + 1 / 2 ^ 24) ^ (m + l.length) := by
  intro l
  induction l with
  | nil => intro a A m wa fa _ h1 h2 _ _; simp only [List.map_nil, List.sum_nil, add_zero, List.length_nil, List.foldl_nil]; exact ⟨fa, h1, h2⟩
  | cons b l ih =>
    intro a A m wa fa hA h1 h2 hb hs
    obtain ⟨wb, fb, b0⟩ := hb b (List.mem_cons_self ..)
    have rest : ∀ b ∈ l, (f b).WF ∧ (f b).IsFin ∧ 0 ≤ (f b).val := fun b h => hb b (List.mem_cons_of_mem _ h)
    have hsum : 0 ≤ (l.map fun b => (f b).val).sum := by
      apply List.sum_nonneg
      intro q hq
      obtain ⟨b, hb, rfl⟩ := List.mem_map.1 hq
      exact (rest b hb).2.2
    simp only [List.map_cons, List.sum_cons, List.foldl_cons, List.length_cons] at hs ⊢
    have e1 : A + ((f b).val + (l.map fun b => (f b).val).sum) = A + (f b).val + (l.map fun b => (f b).val).sum := by ring
    have e2 : m + (l.length + 1) = m + 1 + l.length := by ring
    rw [e1, e2] at hs ⊢
    have a0 : 0 ≤ a.val := le_trans (mul_nonneg hA (pow_nonneg (by norm_num) _)) h1
    have up1 : (1 : ℚ) ≤ (1 + 1 / 2 ^ 24) ^ m := one_le_pow₀ (by norm_num)
    have dn1 : ((1 : ℚ) - 1 / 2 ^ 24) ^ m ≤ 1 := pow_le_one₀ (by norm_num) (by norm_num)
    have dn0 : (0 : ℚ) ≤ ((1 : ℚ) - 1 / 2 ^ 24) ^ m := pow_nonneg (by norm_num) _
    have s1 : a.val + (f b).val ≤ (A + (f b).val) * (1 + 1 / 2 ^ 24) ^ m := by nlinarith
    have s2 : (A + (f b).val) * (1 - 1 / 2 ^ 24) ^ m ≤ a.val + (f b).val := by nlinarith
    have big : a.val + (f b).val ≤ 2 ^ 126 := by
      refine s1.trans (le_trans ?_ hs)
      have p : (0 : ℚ) ≤ A + (f b).val := by linarith
      have q : ((1 : ℚ) + 1 / 2 ^ 24) ^ m ≤ (1 + 1 / 2 ^ 24) ^ (m + 1 + l.length) := pow_le_pow_right₀ (by norm_num) (by omega)
      calc _ ≤ (A + (f b).val) * (1 + 1 / 2 ^ 24) ^ (m + 1 + l.length) := mul_le_mul_of_nonneg_left q p
        _ ≤ _ := mul_le_mul_of_nonneg_right (by linarith) (by positivity)
    obtain ⟨n1, -⟩ := Fl.add_ok ⟨wa, fa⟩ ⟨wb, fb⟩ (by rw [abs_of_nonneg (by linarith)]; exact big)
    have hf : (a +. f b).IsFin := n1.fin
    have he := Fl.add_err wa wb hf
    rw [abs_of_nonneg (show 0 ≤ a.val + (f b).val by linarith)] at he
    have hu : ulpHalf = 1 / 2 ^ 24 := rfl
    rw [hu] at he
    have he' := abs_le.1 he
    refine ih (a +. f b) (A + (f b).val) (m + 1) (Fl.add_WF _ _) hf (by linarith) ?_ ?_ rest hs
    · rw [pow_succ, ← mul_assoc]
      calc _ ≤ (a.val + (f b).val) * (1 - 1 / 2 ^ 24) := mul_le_mul_of_nonneg_right s2 (by norm_num)
        _ ≤ _ := by linarith [he'.1]
    · rw [pow_succ, ← mul_assoc]
      calc (a +. f b).val ≤ (a.val + (f b).val) * (1 + 1 / 2 ^ 24) := by linarith [he'.2]
        _ ≤ _ := mul_le_mul_of_nonneg_right s1 (by norm_num)

theorem entry_fold (c : Spec.Entry) (l : List (Pixel F32)) : ∀ p : Pixel F32,
    c.of (l.foldl Pixel.merge p) = (l.map c.of).foldl (fun p q => p +. q) (c.of p) := by
  induction l with
  | nil => intro p; rfl
  | cons q l ih => intro p; rw [List.foldl_cons, ih, entry_merge]; rfl

end Sched
open Sched

section
variable [Libm F32]

/-- C98, in part: in every pixel of every render, each of the four numbers of the pixel is the exact sum of what the tiles have there,
up to one rounding (a relative error of 2⁻²⁴) per tile that has this pixel.  So two renders differ by at most twice as much: with
a filter radius of at most 7, by eight units of 2⁻²⁴. -/
theorem c98_close_partial (res : V2 Int) (filt : Filter F32) (hR : FilmRange32 res filt.radius)
    (radiance : V2 F32 → Draw F32 (Spectrum F32)) (spp n : Nat) (file : Option (List UInt8)) (st : RState F32 HaltonSampler)
    (h : Spec.Rendered (Film.new res filt) radiance spp n file st) (x y : Int) (hi : Spec.InImage res x y) (c : Spec.Entry) :
    let tiles := Spec.tilesAt (Film.new res filt) x y
    let part := fun b => c.of ((Spec.tileOf (Film.new res filt) radiance spp b).px x y)
    let sum := (tiles.map fun b => (part b).val).sum
    (∀ b ∈ tiles, (part b).IsFin ∧ 0 ≤ (part b).val) → tiles.length ≤ 4 → sum ≤ 2 ^ 125 →
    (c.of (st.sh.film.px x y)).IsFin ∧
    sum * (1 - 1 / 2 ^ 24) ^ 4 ≤ (c.of (st.sh.film.px x y)).val ∧
    (c.of (st.sh.film.px x y)).val ≤ sum * (1 + 1 / 2 ^ 24) ^ 4 := by
  intro tiles part sum hfin hlen hsum
  have hpos : 0 ≤ res.x * res.y := Int.mul_nonneg hR.x0.le hR.y0.le
  have hfit := tilesFit_f32 res filt hR
  obtain ⟨o, p, e⟩ := (rendered_pixel res hpos hR.area filt hfit radiance spp n file st h).2.2 x y hi
  have hs : (o.map fun b => (part b).val).sum = sum := (p.map _).sum_eq
  have s0 : 0 ≤ sum := by
    apply List.sum_nonneg
    intro q hq
    obtain ⟨b, hb, rfl⟩ := List.mem_map.1 hq
    exact (hfin b hb).2
  have ol : o.length ≤ 4 := by rw [p.length_eq]; exact hlen
  have up : ((1 : ℚ) + 1 / 2 ^ 24) ^ (0 + o.length) ≤ (1 + 1 / 2 ^ 24) ^ 4 := pow_le_pow_right₀ (by norm_num) (by omega)
  have dn : ((1 : ℚ) - 1 / 2 ^ 24) ^ 4 ≤ (1 - 1 / 2 ^ 24) ^ (0 + o.length) := pow_le_pow_of_le_one (by norm_num) (by norm_num) (by omega)
  have key := sum_err part o (lit 0) 0 0 (Fl.lit_WF 0) zero_val.1 le_rfl (by rw [zero_val.2]; norm_num) (by rw [zero_val.2]; norm_num)
    (fun b hb => ⟨tile_WF _ _ _ _ _ _ c, hfin b (p.mem_iff.1 hb)⟩)
    (by
      rw [hs, zero_add]
      calc sum * (1 + 1 / 2 ^ 24) ^ (0 + o.length) ≤ sum * (1 + 1 / 2 ^ 24) ^ 4 := mul_le_mul_of_nonneg_left up s0
        _ ≤ 2 ^ 125 * 2 := mul_le_mul hsum (by norm_num) (by positivity) (by positivity)
        _ ≤ 2 ^ 126 := by norm_num)
  have e' : c.of (st.sh.film.px x y) = (o.map part).foldl (fun p q => p +. q) (lit 0) := by
    rw [e, entry_fold, entry_zero, List.map_map]; rfl
  rw [e']
  simp only [hs, zero_add (sum)] at key
  exact ⟨key.1, (mul_le_mul_of_nonneg_left (by simpa using dn) s0).trans key.2.1,
    key.2.2.trans (mul_le_mul_of_nonneg_left (by simpa using up) s0)⟩

end
end PT
