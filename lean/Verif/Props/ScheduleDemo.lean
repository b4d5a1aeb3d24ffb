import Verif.Props.ScheduleRun
import Verif.Props.PpmUnique
import Verif.Props.Writer

/-!
# Two renders of one scene that differ (C98)

A concrete scene and two schedules that give different image files.
-/

namespace PT
namespace Sched

section generic
variable {α : Type} [Scalar α]

/-- The film position of the first sample of a pixel. -/
def posOf (s0 : HaltonSampler) (p : V2 Int) : V2 α :=
  (((getCameraSample p : Draw α _).run HaltonSampler.ops ((HaltonSampler.ops : SamplerOps α _).startPixel s0 p)).map Prod.fst).getD ⟨lit 0, lit 0⟩

theorem cam_run (s : HaltonSampler) (p : V2 Int) :
    ∃ s1, (getCameraSample p : Draw α _).run HaltonSampler.ops ((HaltonSampler.ops : SamplerOps α _).startPixel s p) = some (posOf s p, s1) ∧
      s1.currentPixelSampleIndex = 0 ∧ s1.samplesPerPixel = s.samplesPerPixel := by
  unfold posOf
  have hd : ((HaltonSampler.ops : SamplerOps α _).startPixel s p).dimension = 0 := by
    show (s.startPixel p).dimension = 0
    unfold HaltonSampler.startPixel HaltonSampler.getIndexForSample
    simp only; split_ifs <;> rfl
  have hi : ((HaltonSampler.ops : SamplerOps α _).startPixel s p).currentPixelSampleIndex = 0 := by
    show (s.startPixel p).currentPixelSampleIndex = 0
    unfold HaltonSampler.startPixel HaltonSampler.getIndexForSample
    simp only; split_ifs <;> rfl
  have hp : ((HaltonSampler.ops : SamplerOps α _).startPixel s p).samplesPerPixel = s.samplesPerPixel := by
    show (s.startPixel p).samplesPerPixel = s.samplesPerPixel
    unfold HaltonSampler.startPixel HaltonSampler.getIndexForSample
    simp only; split_ifs <;> rfl
  generalize (HaltonSampler.ops : SamplerOps α _).startPixel s p = s2 at hd hi hp
  obtain ⟨u, hu⟩ : ∃ u : V2 α, (HaltonSampler.ops : SamplerOps α _).get2d s2 = some (u, { s2 with dimension := u32 (s2.dimension + 2) }) := by
    simp only [HaltonSampler.ops]
    rw [hd]
    exact ⟨_, rfl⟩
  simp only [getCameraSample, Draw.run, hu]
  exact ⟨_, rfl, hi, hp⟩

/-- One sample per pixel, the same radiance everywhere: what a pixel of the tile gets from one pixel of the film. -/
theorem pixelLoop_const (L : Spectrum α) (hL : validRadiance L = true) {film : Film α} {b : BBox2i} (hf : Spec.Fits (film.getFilmTile b).bbox)
    (s : HaltonSampler) (h1 : s.samplesPerPixel = 1) (p : V2 Int) (t : FilmTile α) (ht : TileGood film b t) :
    ∃ t' s', pixelLoop HaltonSampler.ops (fun _ => .ret L) p (2 ^ 32) t ((HaltonSampler.ops : SamplerOps α _).startPixel s p) = some (t', s') ∧
      TileGood film b t' ∧ t'.filterRadius = t.filterRadius ∧ t'.filterTable = t.filterTable ∧
      ∀ x y, InTile t x y → t'.px x y = if Covers t.filterRadius (posOf s p) x y then
        (t.px x y).addSample L (sampleWeight t.filterRadius t.filterTable (posOf s p) x y) else t.px x y := by
  obtain ⟨s1, e1, e2, e3⟩ := cam_run (α := α) s p
  obtain ⟨t', a1, a2, a3, a4, a5, a6⟩ := addSample_spec t ht.table (ht.sized hf) (posOf s p) L
  obtain ⟨s', hs'⟩ : ∃ s', (HaltonSampler.ops : SamplerOps α _).startNextSample s1 = (false, s') := by
    show ∃ s', s1.startNextSample = (false, s')
    unfold HaltonSampler.startNextSample HaltonSampler.getIndexForSample
    refine ⟨_, Prod.ext ?_ rfl⟩
    simp only
    rw [e2]
    split_ifs <;> simp [e3, h1, u32]
  refine ⟨t', s', ?_, ⟨a2.trans ht.bbox, fun _ => a5, by rw [a4]; exact ht.table⟩, a3, a4, ?_⟩
  · have e : (2 ^ 32 : Nat) = 4294967295 + 1 := by norm_num
    rw [e, pixelLoop]
    have r : (oneSample (fun _ => .ret L) p).run HaltonSampler.ops ((HaltonSampler.ops : SamplerOps α _).startPixel s p) = some ((posOf s p, L), s1) := by
      unfold oneSample
      simp only [getCameraSample, Draw.run, Draw.bind] at e1 ⊢
      split at e1
      · cases e1
      · simp only [Option.some.injEq, Prod.mk.injEq] at e1 ⊢
        rw [e1.1, e1.2]
        exact ⟨⟨rfl, trivial⟩, rfl⟩
    simp only [r, bind, Option.bind_some, addIfValid, hL, if_true, a1, hs']
    rfl
  · intro x y hin
    have := a6 x y hin
    unfold FilmTile.px
    rw [this]
    have hlt := tile_offset_lt (ht.sized hf) hin
    rw [List.getElem?_eq_getElem hlt]
    simp only [Option.map_some, Option.getD_some]

/-- A whole tile. -/
theorem tile_const (L : Spectrum α) (hL : validRadiance L = true) (film : Film α) (hT : TableOK film.filterTable) (b : BBox2i)
    (hf : Spec.Fits (film.getFilmTile b).bbox) : ∃ t s', renderTile HaltonSampler.ops (fun _ => .ret L) film (HaltonSampler.new 1 film.sampleBBox) b = some (t, s') ∧
      ∀ x y, InTile (film.getFilmTile b) x y → t.px x y = (b.iter.toList.filter fun p => Covers film.filterRadius (posOf (HaltonSampler.new 1 film.sampleBBox) p) x y).foldl
        (fun v p => v.addSample L (sampleWeight film.filterRadius film.filterTable (posOf (HaltonSampler.new 1 film.sampleBBox) p) x y)) Pixel.zero := by
  obtain ⟨s0, hs0⟩ : ∃ s0, s0 = HaltonSampler.new 1 film.sampleBBox := ⟨_, rfl⟩
  have key : ∀ (l : List (V2 Int)) (t : FilmTile α) (s : HaltonSampler), TileGood film b t → t.filterRadius = film.filterRadius → t.filterTable = film.filterTable →
      Spec.Hist α s0 s → ∃ t' s', l.foldlM (fun (acc : FilmTile α × HaltonSampler) pixel =>
        pixelLoop HaltonSampler.ops (fun _ => .ret L) pixel (2 ^ 32) acc.1 ((HaltonSampler.ops : SamplerOps α _).startPixel acc.2 pixel)) (t, s) = some (t', s') ∧
        ∀ x y, InTile (film.getFilmTile b) x y → t'.px x y = (l.filter fun p => Covers film.filterRadius (posOf s0 p) x y).foldl
          (fun v p => v.addSample L (sampleWeight film.filterRadius film.filterTable (posOf s0 p) x y)) (t.px x y) := by
    intro l
    induction l with
    | nil => intro t s _ _ _ _; exact ⟨t, s, rfl, fun x y _ => rfl⟩
    | cons p l ih =>
      intro t s ht hr htab hs
      have same : (HaltonSampler.ops : SamplerOps α _).startPixel s p = (HaltonSampler.ops : SamplerOps α _).startPixel s0 p := by
        subst hs0
        exact (c23_history_independent 1 film.sampleBBox s _ hs .start p (Draw.ret () : Draw α Unit)).1
      obtain ⟨t1, s1, e1, e2, e3, e4, e5⟩ := pixelLoop_const L hL hf s0 (by rw [hs0]; rfl) p t ht
      rw [← same] at e1
      obtain ⟨t', s', g1, g2⟩ := ih t1 s1 e2 (e3.trans hr) (e4.trans htab) (hist_pixelLoop _ p _ _ _ _ _ (.startPixel _ _ hs) e1)
      refine ⟨t', s', ?_, ?_⟩
      · rw [List.foldlM_cons]
        simp only [e1]
        exact g1
      · intro x y hin
        have := e5 x y (by unfold InTile at hin ⊢; rw [ht.bbox]; exact hin)
        rw [hr, htab] at this
        rw [g2 x y hin, this]
        by_cases hc : Covers film.filterRadius (posOf s0 p) x y
        · rw [if_pos hc, List.filter_cons_of_pos (by simpa using hc), List.foldl_cons]
        · rw [if_neg hc, List.filter_cons_of_neg (by simpa using hc)]
  rw [← hs0]
  obtain ⟨t, s', h1, h2⟩ := key b.iter.toList (film.getFilmTile b) s0 ⟨rfl, getFilmTile_sized _ _, hT⟩ rfl rfl .start
  refine ⟨t, s', h1, ?_⟩
  intro x y hin
  rw [h2 x y hin]
  congr 1
  unfold FilmTile.px Film.getFilmTile FilmTile.new
  simp only [List.getElem?_replicate]
  split_ifs <;> rfl

end generic

/-- A sample covers only pixels within the filter's radius. -/
theorem covers_near {q : V2 F32} {p : V2 Int} {x y : Int} (hp : |p.x| ≤ 2 ^ 20 ∧ |p.y| ≤ 2 ^ 20)
    (hx : q.x.IsFin ∧ (p.x : ℚ) ≤ q.x.val ∧ q.x.val ≤ p.x + 1) (hy : q.y.IsFin ∧ (p.y : ℚ) ≤ q.y.val ∧ q.y.val ≤ p.y + 1)
    (h : Covers (lit 2 : F32) q x y) : x ≤ p.x + 2 ∧ y ≤ p.y + 2 := by
  have two : (lit 2 : F32).IsFin ∧ (lit 2 : F32).val = 2 := by
    have : (lit 2 : F32) = .fin false 2 := by decide +kernel
    rw [this]; exact ⟨trivial, by norm_num [Fl.val, Fl.sgn]⟩
  obtain ⟨hh, hhv⟩ := half_f32
  obtain ⟨k1, k2⟩ := Fl.neg_fin hh
  rw [hhv] at k2
  have axis : ∀ (c : F32) (n m : Int), |n| ≤ 2 ^ 20 → (c.IsFin ∧ (n : ℚ) ≤ c.val ∧ c.val ≤ n + 1) →
      m < wrapI32 (toI32 (Scalar.floor (c -. lit (1 / 2) +. lit 2)) + 1) → m ≤ n + 2 := by
    intro c n m hn ⟨c1, c2, c3⟩ hm
    obtain ⟨n1, n2⟩ := abs_le.1 hn
    have n1' : (-2 ^ 20 : ℚ) ≤ n := by exact_mod_cast n1
    have n2' : (n : ℚ) ≤ 2 ^ 20 := by exact_mod_cast n2
    obtain ⟨b1, b2, b3, b4, b5, b6, -⟩ := Fl.add_range c1 k1 (by rw [k2]; linarith) (by rw [k2]; linarith)
    have u1 : (Fl.add c (Fl.neg (lit (1 / 2)))).val ≤ (n : ℚ) + 1 / 2 := by
      obtain ⟨zs, e⟩ := Fl.add_fin c1 k1
      rw [e]
      have hi : Fl.Repr Binary32 (((2 * n + 1 : Int) : ℚ) / 2) := repr_half (abs_le.2 ⟨by omega, by omega⟩)
      have : (Fl.ofVal (φ := Binary32) (c.val + (Fl.neg (lit (1 / 2) : F32)).val) zs).val ≤ ((2 * n + 1 : Int) : ℚ) / 2 :=
        (Fl.ofVal_between (φ := Binary32) repr_lo hi (by rw [k2]; linarith) (by rw [k2]; push_cast; linarith) zs).2.2
      push_cast at this; linarith
    have u0 : (n : ℚ) - 1 ≤ (Fl.add c (Fl.neg (lit (1 / 2)))).val := by
      have := b6 (n - 1) (abs_le.2 ⟨by omega, by omega⟩) (by rw [k2]; push_cast; linarith)
      push_cast at this; exact this
    obtain ⟨d1, d2, d3, d4, d5, d6, -⟩ := Fl.add_range b1 two.1 (by rw [two.2]; linarith) (by rw [two.2]; linarith)
    have v1 : (Fl.add (Fl.add c (Fl.neg (lit (1 / 2)))) (lit 2)).val ≤ (n : ℚ) + 5 / 2 := by
      obtain ⟨zs, e⟩ := Fl.add_fin b1 two.1
      rw [e]
      have hi : Fl.Repr Binary32 (((2 * n + 5 : Int) : ℚ) / 2) := repr_half (abs_le.2 ⟨by omega, by omega⟩)
      have : (Fl.ofVal (φ := Binary32) ((Fl.add c (Fl.neg (lit (1 / 2) : F32))).val + (lit 2 : F32).val) zs).val ≤ ((2 * n + 5 : Int) : ℚ) / 2 :=
        (Fl.ofVal_between (φ := Binary32) repr_lo hi (by rw [two.2]; linarith) (by rw [two.2]; push_cast; linarith) zs).2.2
      push_cast at this; linarith
    have v0 := d6 (n + 1) (abs_le.2 ⟨by omega, by omega⟩) (by rw [two.2]; push_cast; linarith)
    change m < wrapI32 (toI32 (Scalar.floor (Fl.add (Fl.add c (Fl.neg (lit (1 / 2)))) (lit 2))) + 1) at hm
    rw [Fl.floor_i32 d1 d2 d3 d4] at hm
    have f1 : ⌊(Fl.add (Fl.add c (Fl.neg (lit (1 / 2)))) (lit 2)).val⌋ < n + 3 := by
      rw [Int.floor_lt]; push_cast; linarith
    have f0 : n + 1 ≤ ⌊(Fl.add (Fl.add c (Fl.neg (lit (1 / 2)))) (lit 2)).val⌋ := by rw [Int.le_floor]; exact v0
    rw [wrapI32_of_mem (by omega) (by omega)] at hm
    omega
  obtain ⟨-, h2, -, h4⟩ := h
  exact ⟨axis q.x p.x x hp.1 hx h2, axis q.y p.y y hp.2 hy h4⟩

end Sched
open Sched

/-! ### The scene -/

/-- A filter of radius 2 that weighs all samples equally. -/
def Demo.flatFilter : Filter F32 := ⟨lit 2, fun _ => lit 1⟩

/-- The radiance, 20858214 / 2³³ (about 0.0024), everywhere and in all three colours. -/
def Demo.dark : Spectrum F32 := ⟨lit (20858214 / 2 ^ 33), lit (20858214 / 2 ^ 33), lit (20858214 / 2 ^ 33)⟩

namespace Sched

/-- The film of 13 × 13 pixels. -/
abbrev film13 : Film F32 := Film.new ⟨13, 13⟩ Demo.flatFilter

/-- The sampler all threads start with. -/
def start13 : HaltonSampler := ⟨1, ⟨0, 0⟩, 0, 0, 0, ⟨32, 27⟩, ⟨5, 3⟩, 864, ⟨0, 0⟩, 0, ⟨13, 11⟩⟩

theorem box13 : film13.sampleBBox = ⟨⟨-2, -2⟩, ⟨15, 15⟩⟩ := by decide +kernel

theorem new13 : HaltonSampler.new 1 film13.sampleBBox = start13 := by rw [box13]; decide +kernel

theorem range13 : FilmRange32 ⟨13, 13⟩ Demo.flatFilter.radius := by
  have : Demo.flatFilter.radius = .fin false 2 := by decide +kernel
  rw [this]
  exact ⟨trivial, by norm_num [Fl.val, Fl.sgn], by norm_num [Fl.val, Fl.sgn], by norm_num, by norm_num, by norm_num, by norm_num, by norm_num⟩

theorem tiles13 : film13.iter.toList = [⟨⟨-2, -2⟩, ⟨14, 14⟩⟩, ⟨⟨14, -2⟩, ⟨15, 14⟩⟩, ⟨⟨-2, 14⟩, ⟨14, 15⟩⟩, ⟨⟨14, 14⟩, ⟨15, 15⟩⟩] := by
  show (FilmTileIter.new film13.sampleBBox).toList = _
  rw [box13, FilmTileIter.toList_new]; decide +kernel

/-- The sample of a pixel covers pixel (12, 12) only if the pixel is near. -/
theorem near13 (p : V2 Int) (hp : |p.x| ≤ 2 ^ 20 ∧ |p.y| ≤ 2 ^ 20) (h : Covers (lit 2 : F32) (posOf start13 p) 12 12) : 10 ≤ p.x ∧ 10 ≤ p.y := by
  obtain ⟨s1, e, -⟩ := cam_run (α := F32) start13 p
  obtain ⟨h1, h2⟩ := c25_camera_sample_f32_partial p (by omega) (by omega) _ _ _ e
  have := covers_near hp h1 h2 h
  omega

/-- How many samples of a tile cover pixel (12, 12), given the positions of those near it. -/
theorem count13 (b : BBox2i) (table : List (V2 Int × ℚ × ℚ)) (n : Nat) (hb : -2 ≤ b.min.x ∧ -2 ≤ b.min.y ∧ b.max.x ≤ 15 ∧ b.max.y ≤ 15)
    (h1 : (((intRange b.min.y b.max.y).flatMap (row b.min.x b.max.x)).filter fun p => 10 ≤ p.x ∧ 10 ≤ p.y) = table.map (·.1))
    (h2 : ∀ e ∈ table, (posOf start13 e.1 : V2 F32) = ⟨.fin false e.2.1, .fin false e.2.2⟩)
    (h3 : table.countP (fun e => Covers (lit 2 : F32) ⟨.fin false e.2.1, .fin false e.2.2⟩ 12 12) = n) :
    b.iter.toList.countP (fun p => Covers (lit 2 : F32) (posOf start13 p) 12 12) = n := by
  have e3 : (table.map (·.1)).countP (fun p => Covers (lit 2 : F32) (posOf start13 p) 12 12) = n := by
    rw [List.countP_map, ← h3]
    apply List.countP_congr
    intro e he
    simp only [Function.comp, h2 e he]
  rw [BBox2i.toList_iter, ← e3, ← h1, List.countP_filter]
  apply List.countP_congr
  intro p hp
  simp only [List.mem_flatMap, row, List.mem_map, mem_intRange] at hp
  obtain ⟨y, hy, x, hx, rfl⟩ := hp
  by_cases hc : Covers (lit 2 : F32) (posOf start13 ⟨x, y⟩) 12 12
  · have := near13 ⟨x, y⟩ ⟨abs_le.2 ⟨by simp only; omega, by simp only; omega⟩, abs_le.2 ⟨by simp only; omega, by simp only; omega⟩⟩ hc
    simp only [hc, decide_true, Bool.true_and]
    simpa using this
  · simp [hc]

/-- Pixels near (12, 12) and the positions of their samples. -/
def near13_0 : List (V2 Int × ℚ × ℚ) :=
  [(⟨10, 10⟩, 43/4, 5475897/524288), (⟨11, 10⟩, 369/32, 11262483/1048576), (⟨12, 10⟩, 203/16, 5553569/524288), (⟨13, 10⟩, 13, 10), (⟨10, 11⟩, 341/32, 6097275/524288), (⟨11, 11⟩, 177/16, 2893293/262144), (⟨12, 11⟩, 97/8, 12349895/1048576), (⟨13, 11⟩, 425/32, 11728517/1048576), (⟨10, 12⟩, 329/32, 6563309/524288), (⟨11, 12⟩, 93/8, 12815929/1048576), (⟨12, 12⟩, 25/2, 13281963/1048576), (⟨13, 12⟩, 223/16, 1582573/131072), (⟨10, 13⟩, 169/16, 14369375/1048576), (⟨11, 13⟩, 381/32, 13644433/1048576), (⟨12, 13⟩, 409/32, 14524719/1048576), (⟨13, 13⟩, 107/8, 7107015/524288)]

theorem pos13_0 : ∀ e ∈ near13_0, (posOf start13 e.1 : V2 F32) = ⟨.fin false e.2.1, .fin false e.2.2⟩ := by decide +kernel

theorem covers13_0 : near13_0.countP (fun e => Covers (lit 2 : F32) ⟨.fin false e.2.1, .fin false e.2.2⟩ 12 12) = 13 := by decide +kernel

theorem list13_0 : (((intRange (-2) (14)).flatMap (row (-2) (14))).filter fun p => 10 ≤ p.x ∧ 10 ≤ p.y) = near13_0.map (·.1) := by decide +kernel

theorem count13_0 (b : BBox2i) (hb : b = ⟨⟨-2, -2⟩, ⟨14, 14⟩⟩) :
    b.iter.toList.countP (fun p => Covers (lit 2 : F32) (posOf start13 p) 12 12) = 13 := by
  refine count13 b near13_0 13 ?_ ?_ pos13_0 covers13_0
  · rw [hb]; norm_num
  · rw [hb]; exact list13_0

/-- Pixels near (12, 12) and the positions of their samples. -/
def near13_1 : List (V2 Int × ℚ × ℚ) :=
  [(⟨14, 10⟩, 453/32, 10796449/1048576), (⟨14, 11⟩, 237/16, 6019603/524288), (⟨14, 12⟩, 225/16, 12971273/1048576), (⟨14, 13⟩, 459/32, 14110467/1048576)]

theorem pos13_1 : ∀ e ∈ near13_1, (posOf start13 e.1 : V2 F32) = ⟨.fin false e.2.1, .fin false e.2.2⟩ := by decide +kernel

theorem covers13_1 : near13_1.countP (fun e => Covers (lit 2 : F32) ⟨.fin false e.2.1, .fin false e.2.2⟩ 12 12) = 2 := by decide +kernel

theorem list13_1 : (((intRange (-2) (14)).flatMap (row (14) (15))).filter fun p => 10 ≤ p.x ∧ 10 ≤ p.y) = near13_1.map (·.1) := by decide +kernel

theorem count13_1 (b : BBox2i) (hb : b = ⟨⟨14, -2⟩, ⟨15, 14⟩⟩) :
    b.iter.toList.countP (fun p => Covers (lit 2 : F32) (posOf start13 p) 12 12) = 2 := by
  refine count13 b near13_1 2 ?_ ?_ pos13_1 covers13_1
  · rw [hb]; norm_num
  · rw [hb]; exact list13_1

/-- Pixels near (12, 12) and the positions of their samples. -/
def near13_2 : List (V2 Int × ℚ × ℚ) :=
  [(⟨10, 14⟩, 10, 14), (⟨11, 14⟩, 183/16, 7650721/524288), (⟨12, 14⟩, 197/16, 14835409/1048576), (⟨13, 14⟩, 419/32, 15042535/1048576)]

theorem pos13_2 : ∀ e ∈ near13_2, (posOf start13 e.1 : V2 F32) = ⟨.fin false e.2.1, .fin false e.2.2⟩ := by decide +kernel

theorem covers13_2 : near13_2.countP (fun e => Covers (lit 2 : F32) ⟨.fin false e.2.1, .fin false e.2.2⟩ 12 12) = 2 := by decide +kernel

theorem list13_2 : (((intRange (14) (15)).flatMap (row (-2) (14))).filter fun p => 10 ≤ p.x ∧ 10 ≤ p.y) = near13_2.map (·.1) := by decide +kernel

theorem count13_2 (b : BBox2i) (hb : b = ⟨⟨-2, 14⟩, ⟨14, 15⟩⟩) :
    b.iter.toList.countP (fun p => Covers (lit 2 : F32) (posOf start13 p) 12 12) = 2 := by
  refine count13 b near13_2 2 ?_ ?_ pos13_2 covers13_2
  · rw [hb]; norm_num
  · rw [hb]; exact list13_2

/-- Pixels near (12, 12) and the positions of their samples. -/
def near13_3 : List (V2 Int × ℚ × ℚ) :=
  [(⟨14, 14⟩, 465/32, 15456787/1048576)]

theorem pos13_3 : ∀ e ∈ near13_3, (posOf start13 e.1 : V2 F32) = ⟨.fin false e.2.1, .fin false e.2.2⟩ := by decide +kernel

theorem covers13_3 : near13_3.countP (fun e => Covers (lit 2 : F32) ⟨.fin false e.2.1, .fin false e.2.2⟩ 12 12) = 0 := by decide +kernel

theorem list13_3 : (((intRange (14) (15)).flatMap (row (14) (15))).filter fun p => 10 ≤ p.x ∧ 10 ≤ p.y) = near13_3.map (·.1) := by decide +kernel

theorem count13_3 (b : BBox2i) (hb : b = ⟨⟨14, 14⟩, ⟨15, 15⟩⟩) :
    b.iter.toList.countP (fun p => Covers (lit 2 : F32) (posOf start13 p) 12 12) = 0 := by
  refine count13 b near13_3 0 ?_ ?_ pos13_3 covers13_3
  · rw [hb]; norm_num
  · rw [hb]; exact list13_3

/-- A pixel after `n` samples. -/
def after : Nat → Pixel F32
  | 0 => Pixel.zero
  | n + 1 => (after n).addSample Demo.dark (lit 1)

theorem foldl_after (l : List (V2 Int)) : l.foldl (fun v _ => v.addSample Demo.dark (lit 1)) Pixel.zero = after l.length := by
  have key : ∀ (l : List (V2 Int)) (n : Nat), l.foldl (fun v _ => v.addSample Demo.dark (lit 1)) (after n) = after (n + l.length) := by
    intro l
    induction l with
    | nil => intro n; rfl
    | cons p l ih =>
      intro n
      rw [List.foldl_cons, show (after n).addSample Demo.dark (lit 1) = after (n + 1) from rfl, ih (n + 1), List.length_cons]
      congr 1; omega
  have := key l 0
  rw [Nat.zero_add] at this
  exact this

theorem weight13 (q : V2 F32) : sampleWeight film13.filterRadius film13.filterTable q 12 12 = (lit 1 : F32) := by
  unfold sampleWeight tableGet
  have e : film13.filterTable = List.replicate 16 (List.replicate 16 (lit 1)) := by decide +kernel
  rw [e, List.getElem?_replicate, if_pos (tableIndex_lt _ _ _), Option.getD_some, List.getElem?_replicate, if_pos (tableIndex_lt _ _ _)]
  rfl

theorem fits13 (b : BBox2i) (hb : b ∈ film13.iter.toList) : Spec.Fits (film13.getFilmTile b).bbox :=
  fits_of_inFilm film13 range13.area b (tilesFit_f32 _ _ range13 b hb)

theorem valid13 : validRadiance Demo.dark = true := by decide +kernel

theorem some13 (b : BBox2i) (hb : b ∈ film13.iter.toList) :
    (renderTile HaltonSampler.ops (fun _ => .ret Demo.dark) film13 (HaltonSampler.new 1 film13.sampleBBox) b).isSome := by
  obtain ⟨t, s', e, -⟩ := tile_const Demo.dark valid13 film13 (mkFilterTable_ok _) b (fits13 b hb)
  rw [e]; rfl

theorem tile13 (b : BBox2i) (hb : b ∈ film13.iter.toList) (hin : InTile (film13.getFilmTile b) 12 12) (n : Nat)
    (hn : b.iter.toList.countP (fun p => Covers (lit 2 : F32) (posOf start13 p) 12 12) = n) :
    (Spec.tileOf film13 (fun _ => .ret Demo.dark) 1 b).px 12 12 = after n := by
  obtain ⟨t, s', e, h⟩ := tile_const Demo.dark valid13 film13 (mkFilterTable_ok _) b (fits13 b hb)
  have : Spec.tileOf film13 (fun _ => .ret Demo.dark) 1 b = t := by
    unfold Spec.tileOf; rw [e]; rfl
  rw [this, h 12 12 hin, new13]
  simp only [weight13]
  rw [foldl_after, ← hn, List.countP_eq_length_filter]
  rfl

theorem in13 : ∀ b ∈ film13.iter.toList, InTile (film13.getFilmTile b) 12 12 := by
  rw [tiles13]; decide +kernel


theorem orders13 :
    let p := [after 13, after 2, after 2, after 0].foldl Pixel.merge Pixel.zero
    let q := [after 2, after 2, after 0, after 13].foldl Pixel.merge Pixel.zero
    (p.color.r /. p.weight = .fin false (10429106 / 2 ^ 32) ∧ p.color.g = p.color.r ∧ p.color.b = p.color.r) ∧
    q.color.r /. q.weight = .fin false (10429107 / 2 ^ 32) ∧ q.color.g = q.color.r ∧ q.color.b = q.color.r := by
  decide +kernel

/-- The bytes written for the two colours; both are in the linear part of the gamma curve, so no math library is involved. -/
theorem bytes13 [Libm F32] (c w : F32) :
    (c /. w = .fin false (10429106 / 2 ^ 32) → channelByte c w = 8) ∧ (c /. w = .fin false (10429107 / 2 ^ 32) → channelByte c w = 9) := by
  constructor
  · intro h
    have hl : ((.fin false (10429106 / 2 ^ 32) : F32) <=. lit (31308 / 10000000)) = true := by decide +kernel
    unfold channelByte gammaCorrect
    rw [h, if_pos hl]
    decide +kernel
  · intro h
    have hl : ((.fin false (10429107 / 2 ^ 32) : F32) <=. lit (31308 / 10000000)) = true := by decide +kernel
    unfold channelByte gammaCorrect
    rw [h, if_pos hl]
    decide +kernel

theorem utf8_inj {s t : String} (h : s.toUTF8.toList = t.toUTF8.toList) : s = t := by
  rw [ByteArray_toList, ByteArray_toList] at h
  apply String.toByteArray_inj.1
  have : s.toUTF8.data = t.toUTF8.data := Array.toList_inj.1 h
  exact ByteArray.ext this

/-- A render that merges the tiles in the given order, and the file it leaves. -/
theorem render13 [Libm F32] (order : List BBox2i) (hp : order.Perm film13.iter.toList) :
    ∃ n st text px, Spec.Rendered film13 (fun _ => .ret Demo.dark) 1 n none st ∧ st.file = some text.toUTF8.toList ∧ Spec.IsPpm text 13 13 px ∧
      let p := (order.map fun b => (Spec.tileOf film13 (fun _ => .ret Demo.dark) 1 b).px 12 12).foldl Pixel.merge Pixel.zero
      px[168]? = some (channelByte p.color.r p.weight, channelByte p.color.g p.weight, channelByte p.color.b p.weight) := by
  obtain ⟨n, st, h, hpx⟩ := c98_every_order ⟨13, 13⟩ (by norm_num) (by norm_num) Demo.flatFilter (tilesFit_f32 _ _ range13) (fun _ => .ret Demo.dark) 1 none
    (fun b hb => some13 b hb) order hp
  obtain ⟨inv, hfile, -⟩ := rendered_pixel ⟨13, 13⟩ (by norm_num) (by norm_num) Demo.flatFilter (tilesFit_f32 _ _ range13) (fun _ => .ret Demo.dark) 1 n none st h
  obtain ⟨px, w, hb⟩ := c09_ppm_well_formed st.sh.film (by rw [inv.1]; norm_num) (by rw [inv.1]; norm_num) inv.2.2.2
  refine ⟨n, st, st.sh.film.writeImagePpm, px, h, ?_, ?_, ?_⟩
  · rw [hfile]
    unfold outputFile overwriteFile
    simp
  · rw [inv.1] at w; exact w
  · intro p
    obtain ⟨q, hq, e⟩ := hb 12 12 (by norm_num) (by rw [inv.1]; norm_num) (by norm_num) (by rw [inv.1]; norm_num)
    have hpq : p = q := by
      have h1 := hpx 12 12 ⟨by norm_num, by norm_num, by norm_num, by norm_num⟩
      have h2 : st.sh.film.px 12 12 = q := by unfold Film.px; rw [hq]; rfl
      rw [← h2, h1]
      have : (order.filter fun b => InTile (film13.getFilmTile b) 12 12) = order := by
        rw [List.filter_eq_self]
        intro b hb
        simpa using in13 b (hp.mem_iff.1 hb)
      rw [this]
    rw [hpq]
    rw [inv.1] at e
    exact e

end Sched

/-- C98 is false of the code.  A film of 13 × 13 pixels, a filter of radius 2, one sample per pixel of the Halton sampler, the same radiance
for all samples: there are two complete renders, each with an empty directory to start with, that leave different files.  Pixel (12, 12) is
written as `8 8 8` by one and as `9 9 9` by the other. -/
theorem c98_refuted_schedule [Libm F32] : ∃ (n n' : Nat) (st st' : RState F32 HaltonSampler) (text text' : String) (px px' : List (Nat × Nat × Nat)),
    Spec.Rendered (Film.new ⟨13, 13⟩ Demo.flatFilter) (fun _ => .ret Demo.dark) 1 n none st ∧
    Spec.Rendered (Film.new ⟨13, 13⟩ Demo.flatFilter) (fun _ => .ret Demo.dark) 1 n' none st' ∧
    st.file = some text.toUTF8.toList ∧ Spec.IsPpm text 13 13 px ∧ px[12 * 13 + 12]? = some (8, 8, 8) ∧
    st'.file = some text'.toUTF8.toList ∧ Spec.IsPpm text' 13 13 px' ∧ px'[12 * 13 + 12]? = some (9, 9, 9) ∧ st.file ≠ st'.file := by
  have h0 := tile13 ⟨⟨-2, -2⟩, ⟨14, 14⟩⟩ (by rw [tiles13]; simp) (in13 _ (by rw [tiles13]; simp)) 13 (count13_0 _ rfl)
  have h1 := tile13 ⟨⟨14, -2⟩, ⟨15, 14⟩⟩ (by rw [tiles13]; simp) (in13 _ (by rw [tiles13]; simp)) 2 (count13_1 _ rfl)
  have h2 := tile13 ⟨⟨-2, 14⟩, ⟨14, 15⟩⟩ (by rw [tiles13]; simp) (in13 _ (by rw [tiles13]; simp)) 2 (count13_2 _ rfl)
  have h3 := tile13 ⟨⟨14, 14⟩, ⟨15, 15⟩⟩ (by rw [tiles13]; simp) (in13 _ (by rw [tiles13]; simp)) 0 (count13_3 _ rfl)
  obtain ⟨⟨o1, o2, o3⟩, o4, o5, o6⟩ := orders13
  obtain ⟨n, st, text, px, a1, a2, a3, a4⟩ := render13 [⟨⟨-2, -2⟩, ⟨14, 14⟩⟩, ⟨⟨14, -2⟩, ⟨15, 14⟩⟩, ⟨⟨-2, 14⟩, ⟨14, 15⟩⟩, ⟨⟨14, 14⟩, ⟨15, 15⟩⟩] (by rw [tiles13])
  obtain ⟨n', st', text', px', b1, b2, b3, b4⟩ := render13 [⟨⟨14, -2⟩, ⟨15, 14⟩⟩, ⟨⟨-2, 14⟩, ⟨14, 15⟩⟩, ⟨⟨14, 14⟩, ⟨15, 15⟩⟩, ⟨⟨-2, -2⟩, ⟨14, 14⟩⟩] (by
    rw [tiles13]; exact (List.perm_append_comm (l₁ := [_, _, _]) (l₂ := [_])))
  simp only [List.map_cons, List.map_nil, h0, h1, h2, h3] at a4 b4
  rw [o2, o3, (bytes13 _ _).1 o1] at a4
  rw [o5, o6, (bytes13 _ _).2 o4] at b4
  refine ⟨n, n', st, st', text, text', px, px', a1, b1, a2, a3, a4, b2, b3, b4, ?_⟩
  intro hc
  rw [a2, b2, Option.some.injEq] at hc
  have := utf8_inj hc
  subst this
  obtain ⟨-, -, e⟩ := c09_unambiguous _ _ _ _ _ _ _ a3 b3
  rw [e, b4] at a4
  simp at a4

/-- Away from the corners: pixel (5, 5) of this film is in the buffers of at most two tiles. -/
example : (Spec.tilesAt (Film.new ⟨13, 13⟩ Demo.flatFilter) 5 5).length ≤ 2 := by
  refine c98_off_corners ⟨13, 13⟩ Demo.flatFilter range13 2 ?_ (by norm_num) 5 5 (.inl ?_)
  · have : Demo.flatFilter.radius = .fin false 2 := by decide +kernel
    rw [this]; norm_num [Fl.val, Fl.sgn]
  · have := box13
    simp only [film13] at this
    rw [this]; decide

/-- The hypotheses of `c98_close_partial` are met at pixel (12, 12) of this film. -/
example : ∀ b ∈ Spec.tilesAt film13 12 12,
    (Spec.Entry.weight.of ((Spec.tileOf film13 (fun _ => .ret Demo.dark) 1 b).px 12 12)).IsFin ∧
    0 ≤ (Spec.Entry.weight.of ((Spec.tileOf film13 (fun _ => .ret Demo.dark) 1 b).px 12 12)).val := by
  intro b hb
  have hb := (List.mem_filter.1 hb).1
  have hb' := hb
  rw [tiles13] at hb'
  have key : ∀ n ∈ [13, 2, 0], (Spec.Entry.weight.of (after n)) = .fin false n := by decide +kernel
  have fin : ∀ n ∈ [13, 2, 0], (Spec.Entry.weight.of (after n)).IsFin ∧ 0 ≤ (Spec.Entry.weight.of (after n)).val := by
    intro n hn
    rw [key n hn]
    exact ⟨trivial, by simp [Fl.val, Fl.sgn]⟩
  simp only [List.mem_cons, List.not_mem_nil, or_false] at hb'
  rcases hb' with e | e | e | e
  · rw [tile13 b hb (in13 b hb) 13 (count13_0 b e)]; exact fin 13 (by simp)
  · rw [tile13 b hb (in13 b hb) 2 (count13_1 b e)]; exact fin 2 (by simp)
  · rw [tile13 b hb (in13 b hb) 2 (count13_2 b e)]; exact fin 2 (by simp)
  · rw [tile13 b hb (in13 b hb) 0 (count13_3 b e)]; exact fin 0 (by simp)

end PT
