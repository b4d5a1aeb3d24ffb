import Verif.Lemmas.Iter

namespace PT

section fold
variable {β γ : Type}

theorem modifyAt_some {l : List β} {i : Nat} (f : β → β) (h : i < l.length) :
    modifyAt l i f = some (l.modify i f) := by simp [modifyAt, h]

/-- Folding in-bounds updates: never fails, keeps the length, and each slot sees exactly the
updates addressed to it, in order. -/
theorem foldlM_modifyAt (off : γ → Nat) (f : γ → β → β) : ∀ (l : List γ) (px : List β),
    (∀ q ∈ l, off q < px.length) →
    ∃ px', l.foldlM (fun px q => modifyAt px (off q) (f q)) px = some px' ∧
      px'.length = px.length ∧
      ∀ i : Nat, px'[i]? = (px[i]?).map
        (fun v => l.foldl (fun v q => if off q = i then f q v else v) v)
  | [], px, _ => ⟨px, rfl, rfl, by intro i; simp⟩
  | q :: l, px, h => by
    obtain ⟨px', h1, h2, h3⟩ := foldlM_modifyAt off f l (px.modify (off q) (f q)) (by
      intro q' hq'; rw [List.length_modify]; exact h q' (List.mem_cons_of_mem _ hq'))
    refine ⟨px', ?_, by simpa using h2, ?_⟩
    · rw [List.foldlM_cons, modifyAt_some _ (h q (List.mem_cons_self ..))]; exact h1
    · intro i
      rw [h3 i, List.getElem?_modify]
      cases px[i]? with
      | none => simp
      | some v => simp only [Option.map_some, List.foldl_cons]; split_ifs <;> rfl

theorem foldlM_congr_mem {s : Type} (f g : s → γ → Option s) : ∀ (l : List γ) (a : s),
    (∀ q ∈ l, ∀ b, f b q = g b q) → l.foldlM f a = l.foldlM g a
  | [], _, _ => rfl
  | q :: l, a, h => by
    rw [List.foldlM_cons, List.foldlM_cons, h q (List.mem_cons_self ..)]
    congr 1; funext b
    exact foldlM_congr_mem f g l b (fun q' hq' => h q' (List.mem_cons_of_mem _ hq'))

theorem foldlM_flatMap_eq {s δ : Type} (g : δ → List γ) (f : s → γ → Option s) :
    ∀ (l : List δ) (a : s), l.foldlM (fun a d => (g d).foldlM f a) a = (l.flatMap g).foldlM f a
  | [], _ => rfl
  | d :: l, a => by
    rw [List.foldlM_cons, List.flatMap_cons, List.foldlM_append]
    congr 1; funext b; exact foldlM_flatMap_eq g f l b

/-- When at most one element addresses slot `i`, the fold is a single conditional update. -/
theorem foldl_single (off : γ → Nat) (f : γ → β → β) (i : Nat) (q₀ : γ) : ∀ (l : List γ) (v : β),
    l.Nodup → q₀ ∈ l → off q₀ = i → (∀ q ∈ l, off q = i → q = q₀) →
    l.foldl (fun v q => if off q = i then f q v else v) v = f q₀ v := by
  have none : ∀ (l : List γ) (v : β), (∀ q ∈ l, off q ≠ i) →
      l.foldl (fun v q => if off q = i then f q v else v) v = v := by
    intro l
    induction l with
    | nil => intros; rfl
    | cons q l ih =>
      intro v h
      rw [List.foldl_cons, if_neg (h q (List.mem_cons_self ..))]
      exact ih v (fun q' hq' => h q' (List.mem_cons_of_mem _ hq'))
  intro l
  induction l with
  | nil => intro v _ h; simp at h
  | cons q l ih =>
    intro v hn hm ho hu
    rw [List.foldl_cons]
    rw [List.nodup_cons] at hn
    by_cases hq : off q = i
    · have : q = q₀ := hu q (List.mem_cons_self ..) hq
      subst this
      rw [if_pos hq]
      apply none
      intro q' hq' ho'
      have := hu q' (List.mem_cons_of_mem _ hq') ho'
      subst this
      exact hn.1 hq'
    · rw [if_neg hq]
      apply ih v hn.2 _ ho (fun q' hq' => hu q' (List.mem_cons_of_mem _ hq'))
      rcases List.mem_cons.1 hm with h | h
      · subst h; exact absurd ho hq
      · exact h

theorem foldl_none (off : γ → Nat) (f : γ → β → β) (i : Nat) : ∀ (l : List γ) (v : β),
    (∀ q ∈ l, off q ≠ i) → l.foldl (fun v q => if off q = i then f q v else v) v = v
  | [], _, _ => rfl
  | q :: l, v, h => by
    rw [List.foldl_cons, if_neg (h q (List.mem_cons_self ..))]
    exact foldl_none off f i l v (fun q' hq' => h q' (List.mem_cons_of_mem _ hq'))
end fold

/-! ### offsets -/

theorem asUsize_of_nonneg {n : Int} (h : 0 ≤ n) : asUsize n = n.toNat := by simp [asUsize, h]

/-- Row-major offsets are in range and injective on the rectangle. -/
theorem offset_lt {w h x y : Int} (hx0 : 0 ≤ x) (hx : x < w) (hy0 : 0 ≤ y) (hy : y < h) :
    0 ≤ w * y + x ∧ w * y + x < w * h := by
  have h1 : w * y ≤ w * (h - 1) := Int.mul_le_mul_of_nonneg_left (by omega) (by omega)
  have h2 : 0 ≤ w * y := Int.mul_nonneg (by omega) hy0
  constructor
  · omega
  · rw [Int.mul_sub] at h1; omega

theorem offset_inj {w x y x' y' : Int} (hx0 : 0 ≤ x) (hx : x < w) (hx0' : 0 ≤ x') (hx' : x' < w)
    (h : w * y + x = w * y' + x') : x = x' ∧ y = y' := by
  have hw : 0 < w := by omega
  have e1 : (w * y + x) / w = y := by
    rw [Int.add_comm, Int.add_mul_ediv_left _ _ (by omega), Int.ediv_eq_zero_of_lt hx0 hx]; omega
  have e2 : (w * y' + x') / w = y' := by
    rw [Int.add_comm, Int.add_mul_ediv_left _ _ (by omega), Int.ediv_eq_zero_of_lt hx0' hx']; omega
  have : y = y' := by rw [← e1, ← e2, h]
  subst this
  exact ⟨by omega, rfl⟩

theorem wrapI32_of_mem {n : Int} (h1 : -2 ^ 31 ≤ n) (h2 : n < 2 ^ 31) : wrapI32 n = n := by
  unfold wrapI32; omega

/-- The number of pixels of the box is an `i32`. -/
def Spec.Fits (b : BBox2i) : Prop := (b.max.x - b.min.x) * (b.max.y - b.min.y) < 2 ^ 31

variable {α : Type} [Scalar α]

/-- The point is in the tile's buffer. -/
def InTile (t : FilmTile α) (x y : Int) : Prop :=
  t.bbox.min.x ≤ x ∧ x < t.bbox.max.x ∧ t.bbox.min.y ≤ y ∧ y < t.bbox.max.y

/-- Tile buffers have the right size. -/
def FilmTile.Sized (t : FilmTile α) : Prop :=
  t.bbox.min.x ≤ t.bbox.max.x ∧ t.bbox.min.y ≤ t.bbox.max.y ∧ Spec.Fits t.bbox ∧
    t.pixels.length = ((t.bbox.max.x - t.bbox.min.x) * (t.bbox.max.y - t.bbox.min.y)).toNat

/-- A 16×16 table. -/
def TableOK (t : List (List α)) : Prop := t.length = 16 ∧ ∀ r ∈ t, r.length = 16

theorem tile_offset_eq {t : FilmTile α} (hf : Spec.Fits t.bbox) {x y : Int} (h : InTile t x y) :
    t.pixelOffset x y = ((t.bbox.max.x - t.bbox.min.x) * (y - t.bbox.min.y) + (x - t.bbox.min.x)).toNat := by
  obtain ⟨h1, h2, h3, h4⟩ := h
  have := offset_lt (w := t.bbox.max.x - t.bbox.min.x) (h := t.bbox.max.y - t.bbox.min.y)
    (x := x - t.bbox.min.x) (y := y - t.bbox.min.y) (by omega) (by omega) (by omega) (by omega)
  unfold Spec.Fits at hf
  simp only [FilmTile.pixelOffset]
  rw [wrapI32_of_mem (by omega) (by omega), asUsize_of_nonneg this.1]

theorem tile_offset_lt {t : FilmTile α} (hs : t.Sized) {x y : Int} (h : InTile t x y) :
    t.pixelOffset x y < t.pixels.length := by
  obtain ⟨_, _, hf, hl⟩ := hs
  rw [tile_offset_eq hf h, hl]
  obtain ⟨h1, h2, h3, h4⟩ := h
  have := offset_lt (w := t.bbox.max.x - t.bbox.min.x) (h := t.bbox.max.y - t.bbox.min.y)
    (x := x - t.bbox.min.x) (y := y - t.bbox.min.y) (by omega) (by omega) (by omega) (by omega)
  omega

theorem tile_offset_inj {t : FilmTile α} (hf : Spec.Fits t.bbox) {x y x' y' : Int} (h : InTile t x y) (h' : InTile t x' y')
    (e : t.pixelOffset x y = t.pixelOffset x' y') : x = x' ∧ y = y' := by
  rw [tile_offset_eq hf h, tile_offset_eq hf h'] at e
  obtain ⟨h1, h2, h3, h4⟩ := h
  obtain ⟨h1', h2', h3', h4'⟩ := h'
  have b := offset_lt (w := t.bbox.max.x - t.bbox.min.x) (h := t.bbox.max.y - t.bbox.min.y)
    (x := x - t.bbox.min.x) (y := y - t.bbox.min.y) (by omega) (by omega) (by omega) (by omega)
  have b' := offset_lt (w := t.bbox.max.x - t.bbox.min.x) (h := t.bbox.max.y - t.bbox.min.y)
    (x := x' - t.bbox.min.x) (y := y' - t.bbox.min.y) (by omega) (by omega) (by omega) (by omega)
  have := offset_inj (w := t.bbox.max.x - t.bbox.min.x) (x := x - t.bbox.min.x)
    (x' := x' - t.bbox.min.x) (y := y - t.bbox.min.y) (y' := y' - t.bbox.min.y)
    (by omega) (by omega) (by omega) (by omega) (by omega)
  omega

/-- Table index for one axis. -/
def tableIndex (radius pFilm : α) (p : Int) : Nat :=
  Nat.min (toUsize (Scalar.floor (Scalar.abs
      ((ofInt p -. pFilm) /. radius *. ofInt filterTableWidth)))) (filterTableWidth - 1)

theorem tableIndex_lt (r p : α) (x : Int) : tableIndex r p x < 16 := by
  have : tableIndex r p x ≤ 15 := Nat.min_le_right _ _
  omega

/-- Table entry, with a default that is never used for a 16×16 table and indices below 16. -/
def tableGet (t : List (List α)) (i j : Nat) : α := (((t[i]?).getD [])[j]?).getD (lit 0)

theorem table_bind {t : List (List α)} (ht : TableOK t) {i j : Nat} (hi : i < 16) (hj : j < 16) :
    (do let row ← t[i]?; row[j]?) = some (tableGet t i j) := by
  have hi' : i < t.length := by rw [ht.1]; exact hi
  have hj' : j < t[i].length := by rw [ht.2 _ (List.getElem_mem hi')]; exact hj
  simp [tableGet, hi', hj']

/-- Unclipped lower pixel bounds of a sample. -/
def rawMin (radius : α) (pFilm : V2 α) : V2 Int := ((pFilm.sub halfPixel).ssub radius).ceil.toI
/-- Unclipped upper pixel bounds of a sample. -/
def rawMax (radius : α) (pFilm : V2 α) : V2 Int :=
  let m := ((pFilm.sub halfPixel).sadd radius).floor.toI
  ⟨wrapI32 (m.x + 1), wrapI32 (m.y + 1)⟩

/-- The pixel is in the sample's footprint. -/
def Covers (radius : α) (pFilm : V2 α) (x y : Int) : Prop :=
  (rawMin radius pFilm).x ≤ x ∧ x < (rawMax radius pFilm).x ∧
  (rawMin radius pFilm).y ≤ y ∧ y < (rawMax radius pFilm).y

instance (radius : α) (pFilm : V2 α) (x y : Int) : Decidable (Covers radius pFilm x y) := by
  unfold Covers; infer_instance

/-- The weight used for a pixel. -/
def sampleWeight (radius : α) (table : List (List α)) (pFilm : V2 α) (x y : Int) : α :=
  tableGet table (tableIndex radius (pFilm.sub halfPixel).y y) (tableIndex radius (pFilm.sub halfPixel).x x)

theorem imax_le {a b c : Int} : imax a b ≤ c ↔ a ≤ c ∧ b ≤ c := by unfold imax; split_ifs <;> omega
theorem lt_imin {a b c : Int} : c < imin a b ↔ c < a ∧ c < b := by unfold imin; split_ifs <;> omega

theorem filterIndices_get {r p : α} {a b x : Int} (h1 : a ≤ x) (h2 : x < b) :
    (filterIndices r p a b)[asUsize (x - a)]? = some (tableIndex r p x) := by
  rw [asUsize_of_nonneg (by omega)]
  unfold filterIndices
  rw [List.getElem?_map, getElem?_intRange (by omega)]
  have : a + ((x - a).toNat : Int) = x := by omega
  simp only [Option.map_some, this]
  rfl

/-- What `add_sample` does, for every number type and every position. -/
theorem addSample_spec (t : FilmTile α) (ht : TableOK t.filterTable) (hs : t.Sized)
    (pFilm : V2 α) (s : Spectrum α) :
    ∃ t', t.addSample pFilm s = some t' ∧ t'.bbox = t.bbox ∧ t'.filterRadius = t.filterRadius ∧
      t'.filterTable = t.filterTable ∧ t'.Sized ∧
      ∀ x y, InTile t x y → t'.pixels[t'.pixelOffset x y]? = (t.pixels[t.pixelOffset x y]?).map (fun v =>
        if Covers t.filterRadius pFilm x y then
          v.addSample s (sampleWeight t.filterRadius t.filterTable pFilm x y) else v) := by
  set mn : V2 Int := (rawMin t.filterRadius pFilm).imax t.bbox.min with hmn
  set mx : V2 Int := (rawMax t.filterRadius pFilm).imin t.bbox.max with hmx
  let pts : List (V2 Int) := (intRange mn.y mx.y).flatMap (row mn.x mx.x)
  have hpts : ∀ q : V2 Int, q ∈ pts ↔ mn.x ≤ q.x ∧ q.x < mx.x ∧ mn.y ≤ q.y ∧ q.y < mx.y := by
    intro q
    simp only [pts, List.mem_flatMap, row, List.mem_map, mem_intRange]
    constructor
    · rintro ⟨y, hy, x, hx, rfl⟩; exact ⟨hx.1, hx.2, hy.1, hy.2⟩
    · rintro ⟨h1, h2, h3, h4⟩; exact ⟨q.y, ⟨h3, h4⟩, q.x, ⟨h1, h2⟩, rfl⟩
  have hptsIn : ∀ q ∈ pts, InTile t q.x q.y := by
    intro q hq
    rw [hpts] at hq
    simp only [hmn, hmx, V2.imax, V2.imin, imax_le, lt_imin] at hq
    exact ⟨hq.1.2, hq.2.1.2, hq.2.2.1.2, hq.2.2.2.2⟩
  have hnodup : pts.Nodup := by
    have := (⟨mn, mx⟩ : BBox2i).nodup_toList
    rwa [BBox2i.toList_iter] at this
  obtain ⟨px', e1, e2, e3⟩ := foldlM_modifyAt (fun q : V2 Int => t.pixelOffset q.x q.y)
    (fun q (v : Pixel α) => v.addSample s (sampleWeight t.filterRadius t.filterTable pFilm q.x q.y))
    pts t.pixels (fun q hq => tile_offset_lt hs (hptsIn q hq))
  refine ⟨{ t with pixels := px' }, ?_, rfl, rfl, rfl, ?_, ?_⟩
  · unfold FilmTile.addSample
    simp only
    have key : (intRange mn.y mx.y).foldlM (fun px y =>
        (intRange mn.x mx.x).foldlM (fun px x => do
          let i1 ← (filterIndices t.filterRadius (pFilm.sub halfPixel).y mn.y mx.y)[asUsize (y - mn.y)]?
          let i0 ← (filterIndices t.filterRadius (pFilm.sub halfPixel).x mn.x mx.x)[asUsize (x - mn.x)]?
          let row ← t.filterTable[i1]?
          let weight ← row[i0]?
          modifyAt px (t.pixelOffset x y) (fun p => p.addSample s weight)) px) t.pixels = some px' := by
      rw [← e1]
      have hrow : ∀ (y : Int) (px : List (Pixel α)),
          (row mn.x mx.x y).foldlM (fun px (q : V2 Int) => modifyAt px (t.pixelOffset q.x q.y)
            (fun v => v.addSample s (sampleWeight t.filterRadius t.filterTable pFilm q.x q.y))) px =
          (intRange mn.x mx.x).foldlM (fun px x => modifyAt px (t.pixelOffset x y)
            (fun v => v.addSample s (sampleWeight t.filterRadius t.filterTable pFilm x y))) px := by
        intro y px
        rw [row, List.foldlM_map]
      rw [← foldlM_flatMap_eq]
      refine foldlM_congr_mem _ _ _ _ ?_
      intro y hy px
      rw [hrow]
      refine foldlM_congr_mem _ _ _ _ ?_
      intro x hx px
      rw [mem_intRange] at hx hy
      rw [filterIndices_get hy.1 hy.2, filterIndices_get hx.1 hx.2]
      have hb := table_bind ht (tableIndex_lt t.filterRadius (pFilm.sub halfPixel).y y)
        (tableIndex_lt t.filterRadius (pFilm.sub halfPixel).x x)
      simp only [bind, Option.bind_some, Option.bind] at hb ⊢
      revert hb
      cases t.filterTable[tableIndex t.filterRadius (pFilm.sub halfPixel).y y]? with
      | none => simp
      | some r =>
        simp only
        cases r[tableIndex t.filterRadius (pFilm.sub halfPixel).x x]? with
        | none => simp
        | some w =>
          simp only [Option.some.injEq]
          intro hb; rw [hb]; rfl
    have key' := key
    rw [hmn, hmx] at key'
    unfold rawMin rawMax at key'
    simp only [bind, pure] at key' ⊢
    rw [key']
    rfl
  · exact ⟨hs.1, hs.2.1, by rw [e2]; exact hs.2.2⟩
  · intro x y hin
    have ho : FilmTile.pixelOffset { t with pixels := px' } x y = t.pixelOffset x y := rfl
    rw [ho, e3]
    congr 1
    funext v
    by_cases hc : Covers t.filterRadius pFilm x y
    · rw [if_pos hc]
      have hmem : (⟨x, y⟩ : V2 Int) ∈ pts := by
        rw [hpts]
        simp only [hmn, hmx, V2.imax, V2.imin, imax_le, lt_imin]
        obtain ⟨c1, c2, c3, c4⟩ := hc
        obtain ⟨i1, i2, i3, i4⟩ := hin
        exact ⟨⟨c1, i1⟩, ⟨c2, i2⟩, ⟨c3, i3⟩, c4, i4⟩
      refine foldl_single (fun q : V2 Int => t.pixelOffset q.x q.y)
        (fun q (v : Pixel α) => v.addSample s (sampleWeight t.filterRadius t.filterTable pFilm q.x q.y))
        (t.pixelOffset x y) ⟨x, y⟩ pts v hnodup hmem rfl ?_
      intro q hq he
      have := tile_offset_inj hs.2.2.1 (hptsIn q hq) hin he
      ext
      · exact this.1
      · exact this.2
    · rw [if_neg hc]
      refine foldl_none (fun q : V2 Int => t.pixelOffset q.x q.y)
        (fun q (v : Pixel α) => v.addSample s (sampleWeight t.filterRadius t.filterTable pFilm q.x q.y))
        (t.pixelOffset x y) pts v ?_
      intro q hq he
      have hh := tile_offset_inj hs.2.2.1 (hptsIn q hq) hin he
      apply hc
      have := (hpts q).1 hq
      simp only [hmn, hmx, V2.imax, V2.imin, imax_le, lt_imin] at this
      rw [hh.1, hh.2] at this
      exact ⟨this.1.1, this.2.1.1, this.2.2.1.1, this.2.2.2.1⟩

/-! ### merging -/

/-- The pixel belongs to the image. -/
def InFilm (f : Film α) (x y : Int) : Prop :=
  0 ≤ x ∧ x < f.resolution.x ∧ 0 ≤ y ∧ y < f.resolution.y

/-- The film's buffer has the right size. -/
def Film.Sized (f : Film α) : Prop :=
  f.resolution.x * f.resolution.y < 2 ^ 31 ∧ f.pixels.length = (f.resolution.x * f.resolution.y).toNat

theorem film_offset_eq {f : Film α} (ha : f.resolution.x * f.resolution.y < 2 ^ 31) {p : V2 Int} (h : InFilm f p.x p.y) :
    f.pixelOffset p = (f.resolution.x * p.y + p.x).toNat := by
  obtain ⟨h1, h2, h3, h4⟩ := h
  have := offset_lt h1 h2 h3 h4
  rw [Film.pixelOffset, wrapI32_of_mem (by omega) (by omega), asUsize_of_nonneg this.1]

theorem film_offset_lt {f : Film α} (hs : f.Sized) {p : V2 Int} (h : InFilm f p.x p.y) :
    f.pixelOffset p < f.pixels.length := by
  rw [film_offset_eq hs.1 h, hs.2]
  obtain ⟨h1, h2, h3, h4⟩ := h
  have := offset_lt h1 h2 h3 h4
  omega

theorem film_offset_inj {f : Film α} (ha : f.resolution.x * f.resolution.y < 2 ^ 31) {p q : V2 Int} (h : InFilm f p.x p.y)
    (h' : InFilm f q.x q.y) (e : f.pixelOffset p = f.pixelOffset q) : p = q := by
  rw [film_offset_eq ha h, film_offset_eq ha h'] at e
  obtain ⟨h1, h2, h3, h4⟩ := h
  obtain ⟨h1', h2', h3', h4'⟩ := h'
  have b := offset_lt h1 h2 h3 h4
  have b' := offset_lt h1' h2' h3' h4'
  have := offset_inj (y := p.y) (y' := q.y) h1 h2 h1' h2' (by omega)
  ext
  · exact this.1
  · exact this.2

/-- Value of the tile's slot for a pixel (default never used inside the tile). -/
def FilmTile.px (t : FilmTile α) (x y : Int) : Pixel α := (t.pixels[t.pixelOffset x y]?).getD Pixel.zero
/-- Value of the film's slot for a pixel (default never used inside the image). -/
def Film.px (f : Film α) (x y : Int) : Pixel α := (f.pixels[f.pixelOffset ⟨x, y⟩]?).getD Pixel.zero

/-- Merging some pixels of a tile (the loop of `merge_film_tile` over any duplicate-free list). -/
theorem mergePixels_spec (t : FilmTile α) (hs : t.Sized) (l : List (V2 Int)) (hn : l.Nodup)
    (f : Film α) (hf : f.Sized) (hlt : ∀ p ∈ l, InTile t p.x p.y) (hlf : ∀ p ∈ l, InFilm f p.x p.y) :
    ∃ f', l.foldlM (fun film p => film.mergePixel t p) f = some f' ∧ f'.Sized ∧
      f'.resolution = f.resolution ∧ f'.filterRadius = f.filterRadius ∧
      f'.filterTable = f.filterTable ∧
      ∀ x y, InFilm f x y → f'.px x y = if (⟨x, y⟩ : V2 Int) ∈ l then (f.px x y).merge (t.px x y)
        else f.px x y := by
  induction l generalizing f with
  | nil => exact ⟨f, rfl, hf, rfl, rfl, rfl, by intro x y _; simp⟩
  | cons p l ih =>
    rw [List.nodup_cons] at hn
    have ht := tile_offset_lt hs (hlt p (List.mem_cons_self ..))
    have hp := hlf p (List.mem_cons_self ..)
    have hfo := film_offset_lt hf hp
    let f1 : Film α := { f with pixels := f.pixels.modify (f.pixelOffset p) (fun d => d.merge (t.px p.x p.y)) }
    have hstep : f.mergePixel t p = some f1 := by
      unfold Film.mergePixel
      have hsrc : t.pixels[t.pixelOffset p.x p.y]? = some (t.px p.x p.y) := by
        simp [FilmTile.px, ht]
      simp only [hsrc, bind, Option.bind_some, pure]
      rw [modifyAt_some _ hfo]
      rfl
    have hf1 : f1.Sized := by
      simp only [Film.Sized, f1, List.length_modify]; exact hf
    obtain ⟨f', g1, g2, g3, g4, g5, g6⟩ := ih hn.2 f1 hf1
      (fun q hq => hlt q (List.mem_cons_of_mem _ hq)) (fun q hq => hlf q (List.mem_cons_of_mem _ hq))
    refine ⟨f', ?_, g2, g3, g4, g5, ?_⟩
    · rw [List.foldlM_cons, hstep]; exact g1
    · intro x y hin
      rw [g6 x y hin]
      have hat : f1.px x y = if (⟨x, y⟩ : V2 Int) = p then (f.px x y).merge (t.px x y) else f.px x y := by
        have hxo := film_offset_lt hf (p := ⟨x, y⟩) hin
        have e0 : f1.pixelOffset ⟨x, y⟩ = f.pixelOffset ⟨x, y⟩ := rfl
        unfold Film.px
        rw [e0]
        simp only [f1, List.getElem?_modify]
        by_cases he : (⟨x, y⟩ : V2 Int) = p
        · subst he; simp [hxo]
        · have : f.pixelOffset p ≠ f.pixelOffset ⟨x, y⟩ := fun h => he (film_offset_inj hf.1 hin hp h.symm)
          simp [this, he]
      rw [hat]
      by_cases he : (⟨x, y⟩ : V2 Int) = p
      · have hnl : (⟨x, y⟩ : V2 Int) ∉ l := by rw [he]; exact hn.1
        rw [if_neg hnl, if_pos he, if_pos (by rw [he]; exact List.mem_cons_self ..)]
      · simp only [List.mem_cons, he, false_or, if_false]

theorem mergeFilmTile_spec (f : Film α) (hf : f.Sized) (t : FilmTile α) (hs : t.Sized)
    (hsub : ∀ x y, InTile t x y → InFilm f x y) :
    ∃ f', f.mergeFilmTile t = some f' ∧ f'.Sized ∧ f'.resolution = f.resolution ∧
      f'.filterRadius = f.filterRadius ∧ f'.filterTable = f.filterTable ∧
      (∀ x y, InTile t x y → f'.px x y = (f.px x y).merge (t.px x y)) ∧
      (∀ x y, InFilm f x y → ¬ InTile t x y → f'.px x y = f.px x y) := by
  obtain ⟨f', g1, g2, g3, g4, g5, g6⟩ := mergePixels_spec t hs t.bbox.iter.toList t.bbox.nodup_toList f hf
    (fun p hp => (t.bbox.mem_toList p).1 hp) (fun p hp => hsub _ _ ((t.bbox.mem_toList p).1 hp))
  refine ⟨f', g1, g2, g3, g4, g5, ?_, ?_⟩
  · intro x y h
    rw [g6 x y (hsub x y h), if_pos ((t.bbox.mem_toList ⟨x, y⟩).2 h)]
  · intro x y h hn
    rw [g6 x y h, if_neg (fun hm => hn ((t.bbox.mem_toList ⟨x, y⟩).1 hm))]

/-! ### construction -/

theorem mkFilterTable_ok (f : Filter α) : TableOK (mkFilterTable f) := by
  constructor
  · simp [mkFilterTable, filterTableWidth]
  · intro r hr
    simp only [mkFilterTable, List.mem_map] at hr
    obtain ⟨y, _, rfl⟩ := hr
    simp [filterTableWidth]

theorem filmNew_sized (res : V2 Int) (h : 0 ≤ res.x * res.y) (ha : res.x * res.y < 2 ^ 31) (f : Filter α) : (Film.new res f).Sized := by
  refine ⟨ha, ?_⟩
  simp only [Film.new, List.length_replicate]
  rw [wrapI32_of_mem (by omega) ha, asUsize_of_nonneg h]

theorem BBox2i.new_ordered (a b : V2 Int) :
    (BBox2i.new a b).min.x ≤ (BBox2i.new a b).max.x ∧ (BBox2i.new a b).min.y ≤ (BBox2i.new a b).max.y := by
  simp only [BBox2i.new, V2.imin, V2.imax, imin, imax]
  constructor <;> split_ifs <;> omega

theorem BBox2i.area_eq (b : BBox2i) (hx : b.min.x ≤ b.max.x) (hy : b.min.y ≤ b.max.y) (hf : Spec.Fits b) :
    b.area = (b.max.x - b.min.x) * (b.max.y - b.min.y) := by
  have : 0 ≤ (b.max.x - b.min.x) * (b.max.y - b.min.y) := Int.mul_nonneg (by omega) (by omega)
  unfold Spec.Fits at hf
  unfold BBox2i.area BBox2i.diagonal
  exact wrapI32_of_mem (by dsimp only; omega) hf

theorem tileNew_sized (b : BBox2i) (hx : b.min.x ≤ b.max.x) (hy : b.min.y ≤ b.max.y) (hf : Spec.Fits b) (r : α)
    (tab : List (List α)) : (FilmTile.new b r tab).Sized := by
  refine ⟨hx, hy, hf, ?_⟩
  have : 0 ≤ (b.max.x - b.min.x) * (b.max.y - b.min.y) := Int.mul_nonneg (by omega) (by omega)
  simp only [FilmTile.new, List.length_replicate]
  rw [b.area_eq hx hy hf, asUsize_of_nonneg this]

theorem getFilmTile_ordered (f : Film α) (b : BBox2i) :
    (f.getFilmTile b).bbox.min.x ≤ (f.getFilmTile b).bbox.max.x ∧ (f.getFilmTile b).bbox.min.y ≤ (f.getFilmTile b).bbox.max.y :=
  BBox2i.new_ordered _ _

theorem getFilmTile_sized (f : Film α) (b : BBox2i) (hf : Spec.Fits (f.getFilmTile b).bbox) : (f.getFilmTile b).Sized :=
  tileNew_sized _ (getFilmTile_ordered f b).1 (getFilmTile_ordered f b).2 hf _ _

/-- A tile whose pixels are pixels of the image has no more of them than the image. -/
theorem fits_of_inFilm (f : Film α) (ha : f.resolution.x * f.resolution.y < 2 ^ 31) (b : BBox2i)
    (h : ∀ x y, InTile (f.getFilmTile b) x y → InFilm f x y) : Spec.Fits (f.getFilmTile b).bbox := by
  obtain ⟨o1, o2⟩ := getFilmTile_ordered f b
  unfold Spec.Fits
  unfold InTile InFilm at h
  generalize (f.getFilmTile b).bbox = t at *
  rcases o1.eq_or_lt with e | l1
  · rw [e]; simp
  rcases o2.eq_or_lt with e | l2
  · rw [e]; simp
  have h1 := h t.min.x t.min.y ⟨le_rfl, l1, le_rfl, l2⟩
  have h2 := h (t.max.x - 1) (t.max.y - 1) ⟨by omega, by omega, by omega, by omega⟩
  calc (t.max.x - t.min.x) * (t.max.y - t.min.y) ≤ f.resolution.x * f.resolution.y :=
        Int.mul_le_mul (by omega) (by omega) (by omega) (by omega)
    _ < 2 ^ 31 := ha

theorem getFilmTile_at (f : Film α) (b : BBox2i) (x y : Int) : (f.getFilmTile b).px x y = Pixel.zero := by
  simp only [FilmTile.px, Film.getFilmTile, FilmTile.new]
  rw [List.getElem?_replicate]
  split_ifs <;> rfl

end PT
