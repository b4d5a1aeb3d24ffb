import Verif.Props.RenderImage
import Verif.Lemmas.FlMono
import Verif.Lemmas.FlExact

/-!
# The film in single precision (C03, C04)

In single precision the borders of the tiles' buffers are rounded.  They stay inside the image all the same.
-/

namespace PT

/-- Half integers up to 2^23 are exact in single precision. -/
theorem repr_half {n : Int} (h : |n| ≤ 2 ^ 24) : Fl.Repr Binary32 ((n : ℚ) / 2) := by
  unfold Fl.Repr
  have e : |(n : ℚ) / 2| = (n.natAbs : ℚ) / 2 := by
    rw [abs_div, ← Int.cast_abs, Int.abs_eq_natAbs]; simp
  rw [e]
  have h' : n.natAbs ≤ 2 ^ 24 := by
    rw [Int.abs_eq_natAbs] at h; exact_mod_cast h
  have hk : ∃ k, k < 0x7f800000 ∧ sval 23 k = n.natAbs * 2 ^ 148 := by
    rcases Nat.lt_or_ge n.natAbs (2 ^ 24) with hlt | hge
    · exact sval_dyadic 148 _ (by omega) hlt
    · obtain ⟨k, hk, hv⟩ := sval_dyadic 149 (2 ^ 23) (by omega) (by norm_num)
      exact ⟨k, hk, by rw [hv, show n.natAbs = 2 ^ 24 by omega]; norm_num⟩
  obtain ⟨k, hk, hv⟩ := hk
  show Bin.rnd 23 149 0x7f800000 31 _ = _
  rw [Bin.rnd_some]
  have hval : ((n.natAbs : ℚ) / 2 * 2 ^ 149) = (sval 23 k : ℚ) := by rw [hv]; push_cast; ring
  rw [hval, ordRound_exact 23 31 k (by omega)]
  refine ⟨hk, ?_⟩
  rw [← hval]; field_simp

theorem repr_lo : Fl.Repr Binary32 (-2 ^ 24 : ℚ) := by
  have h := repr_int (n := -2 ^ 24) (by norm_num); push_cast at h; exact h

theorem repr_hi : Fl.Repr Binary32 (2 ^ 24 : ℚ) := by
  have h := repr_int (n := 2 ^ 24) (by norm_num); push_cast at h; exact h

namespace Fl

theorem floor_val {x : F32} (hf : x.IsFin) (hw : x.WF) : (Scalar.floor x : F32).IsFin ∧ (Scalar.floor x : F32).val = ⌊x.val⌋ := by
  obtain ⟨s, a, rfl⟩ := IsFin_iff.1 hf
  refine ⟨trivial, ?_⟩
  have ha : 0 ≤ a := hw.1
  show sgn s (((⌊sgn s a⌋).natAbs : ℚ)) = ⌊sgn s a⌋
  cases s
  · simp only [sgn, Bool.false_eq_true, if_false]
    have : 0 ≤ ⌊a⌋ := Int.floor_nonneg.2 ha
    rw [Nat.cast_natAbs, abs_of_nonneg this]
  · simp only [sgn, if_true]
    have : ⌊-a⌋ ≤ 0 := by
      have : ⌊-a⌋ < 1 := by rw [Int.floor_lt]; push_cast; linarith
      omega
    rw [Nat.cast_natAbs, abs_of_nonpos this]; push_cast; ring

theorem ceil_val {x : F32} (hf : x.IsFin) (hw : x.WF) : (Scalar.ceil x : F32).IsFin ∧ (Scalar.ceil x : F32).val = ⌈x.val⌉ := by
  obtain ⟨s, a, rfl⟩ := IsFin_iff.1 hf
  refine ⟨trivial, ?_⟩
  have ha : 0 ≤ a := hw.1
  show sgn s (((⌈sgn s a⌉).natAbs : ℚ)) = ⌈sgn s a⌉
  cases s
  · simp only [sgn, Bool.false_eq_true, if_false]
    have : 0 ≤ ⌈a⌉ := Int.ceil_nonneg ha
    rw [Nat.cast_natAbs, abs_of_nonneg this]
  · simp only [sgn, if_true]
    have : ⌈-a⌉ ≤ 0 := by rw [Int.ceil_le]; push_cast; linarith
    rw [Nat.cast_natAbs, abs_of_nonpos this]; push_cast; ring

theorem toI32_val {x : F32} (hf : x.IsFin) {n : Int} (hv : x.val = n) (h : |n| ≤ 2 ^ 24) : toI32 x = n := by
  obtain ⟨s, a, rfl⟩ := IsFin_iff.1 hf
  change sgn s a = n at hv
  show satInt (truncInt (sgn s a)) _ _ = n
  rw [hv]
  have : truncInt (n : ℚ) = n := by unfold truncInt; split_ifs <;> simp
  rw [this]
  obtain ⟨h1, h2⟩ := abs_le.1 h
  exact satInt_of_mem (by norm_num at h1 ⊢; omega) (by norm_num at h2 ⊢; omega)

theorem floor_i32 {x : F32} (hf : x.IsFin) (hw : x.WF) (h1 : -2 ^ 24 ≤ x.val) (h2 : x.val ≤ 2 ^ 24) :
    toI32 (Scalar.floor x) = ⌊x.val⌋ := by
  obtain ⟨a, b⟩ := floor_val hf hw
  refine toI32_val a b (abs_le.2 ⟨?_, ?_⟩)
  · rw [Int.le_floor]; push_cast; exact h1
  · have := (Int.floor_le x.val).trans h2
    exact_mod_cast this

theorem ceil_i32 {x : F32} (hf : x.IsFin) (hw : x.WF) (h1 : -2 ^ 24 ≤ x.val) (h2 : x.val ≤ 2 ^ 24) :
    toI32 (Scalar.ceil x) = ⌈x.val⌉ := by
  obtain ⟨a, b⟩ := ceil_val hf hw
  refine toI32_val a b (abs_le.2 ⟨?_, ?_⟩)
  · have := h1.trans (Int.le_ceil x.val)
    exact_mod_cast this
  · rw [Int.ceil_le]; push_cast; exact h2

/-- The single precision sum of finite values whose exact sum is at most 2^24 in size. -/
theorem add_range {a b : F32} (ha : a.IsFin) (hb : b.IsFin) (h1 : -2 ^ 24 ≤ a.val + b.val) (h2 : a.val + b.val ≤ 2 ^ 24) :
    (add a b).IsFin ∧ (add a b).WF ∧ -2 ^ 24 ≤ (add a b).val ∧ (add a b).val ≤ 2 ^ 24 ∧
    (∀ n : Int, |n| ≤ 2 ^ 24 → a.val + b.val ≤ n → (add a b).val ≤ n) ∧
    (∀ n : Int, |n| ≤ 2 ^ 24 → n ≤ a.val + b.val → n ≤ (add a b).val) ∧
    (∀ n : Int, |n| ≤ 2 ^ 24 → a.val + b.val = (n : ℚ) / 2 → (add a b).val = (n : ℚ) / 2) := by
  obtain ⟨zs, e⟩ := add_fin ha hb
  have lo : Fl.Repr Binary32 (-2 ^ 24 : ℚ) := repr_lo
  have hi : Fl.Repr Binary32 (2 ^ 24 : ℚ) := repr_hi
  obtain ⟨g1, g2, g3⟩ := ofVal_between (φ := Binary32) lo hi h1 h2 zs
  rw [e]
  refine ⟨g1, ofVal_WF _ _, g2, g3, ?_, ?_, ?_⟩
  · intro n hn hle
    exact (ofVal_between (φ := Binary32) lo (repr_int hn) h1 hle zs).2.2
  · intro n hn hle
    exact (ofVal_between (φ := Binary32) (repr_int hn) hi hle h2 zs).2.1
  · intro n hn he
    rw [he]; exact (ofVal_repr (repr_half hn) zs).2

end Fl

/-- Sizes for which single precision holds every half pixel. -/
structure FilmRange32 (res : V2 Int) (r : F32) : Prop where
  fin : r.IsFin
  rpos : 0 ≤ r.val
  rle : r.val ≤ 2 ^ 21
  x0 : 0 < res.x
  y0 : 0 < res.y
  xle : res.x ≤ 2 ^ 22
  yle : res.y ≤ 2 ^ 22
  area : res.x * res.y < 2 ^ 31

theorem half_f32 : (lit (1 / 2 : ℚ) : F32).IsFin ∧ (lit (1 / 2 : ℚ) : F32).val = 1 / 2 := by
  rw [Fl.f_lit]
  have := repr_half (n := 1) (by norm_num)
  have h := Fl.ofVal_repr this false
  norm_num at h ⊢
  exact h

/-- One axis of the sample box. -/
theorem sampleAxis {r : F32} (hf : r.IsFin) (h0 : 0 ≤ r.val) (h1 : r.val ≤ 2 ^ 21) {n : Int} (n0 : 0 < n) (n1 : n ≤ 2 ^ 22) :
    ∃ lo hi : ℚ, toI32 (Scalar.floor ((lit 0 : F32) +. lit (1 / 2) -. r)) = ⌊lo⌋ ∧
      toI32 (Scalar.ceil ((ofInt n : F32) -. lit (1 / 2) +. r)) = ⌈hi⌉ ∧ ⌊lo⌋ < ⌈hi⌉ ∧ -2 ^ 22 ≤ ⌊lo⌋ ∧ ⌈hi⌉ ≤ 2 ^ 23 - 1 ∧
      (∀ m : Int, |m| ≤ 2 ^ 24 → (m : ℚ) ≤ 1 / 2 - r.val → m ≤ lo) ∧
      (∀ m : Int, |m| ≤ 2 ^ 24 → n - 1 / 2 + r.val ≤ (m : ℚ) → hi ≤ m) := by
  obtain ⟨hh, hhv⟩ := half_f32
  have z : (lit 0 : F32).IsFin ∧ (lit 0 : F32).val = 0 := by rw [Fl.lit_zero]; exact ⟨trivial, by simp [Fl.val, Fl.sgn]⟩
  have n0' : (1 : ℚ) ≤ n := by exact_mod_cast n0
  have n1' : (n : ℚ) ≤ 2 ^ 22 := by exact_mod_cast n1
  obtain ⟨i1, i2⟩ := ofInt_exact (n := n) (abs_le.2 ⟨by omega, by omega⟩)
  -- 0 + 1/2
  obtain ⟨a1, -, -, -, -, -, a2⟩ := Fl.add_range z.1 hh (by rw [z.2, hhv]; norm_num) (by rw [z.2, hhv]; norm_num)
  have a2 := a2 1 (by norm_num) (by rw [z.2, hhv]; norm_num)
  -- n - 1/2
  obtain ⟨k1, k2⟩ := Fl.neg_fin hh
  rw [hhv] at k2
  obtain ⟨b1, -, -, -, -, -, b2⟩ := Fl.add_range i1 k1 (by rw [i2, k2]; linarith) (by rw [i2, k2]; linarith)
  have b2 := b2 (2 * n - 1) (abs_le.2 ⟨by omega, by omega⟩) (by rw [i2, k2]; push_cast; ring)
  obtain ⟨r1, r2⟩ := Fl.neg_fin hf
  -- - r, + r
  obtain ⟨c1, c2, c3, c4, c5, c6, -⟩ := Fl.add_range a1 r1 (by rw [a2, r2]; push_cast; linarith) (by rw [a2, r2]; push_cast; linarith)
  obtain ⟨d1, d2, d3, d4, d5, d6, -⟩ := Fl.add_range b1 hf (by rw [b2]; push_cast; linarith) (by rw [b2]; push_cast; linarith)
  rw [a2, r2] at c5 c6
  rw [b2] at d5 d6
  refine ⟨_, _, Fl.floor_i32 c1 c2 c3 c4, Fl.ceil_i32 d1 d2 d3 d4, ?_, ?_, ?_, ?_, ?_⟩
  · have e1 := c5 1 (by norm_num) (by push_cast; linarith)
    have e2 := d6 0 (by norm_num) (by push_cast; linarith)
    -- the lower corner is at most 0 and the upper corner at least 1
    have f1 : ⌊(Fl.add (Fl.add (lit 0 : F32) (lit (1 / 2))) (Fl.neg r)).val⌋ ≤ 0 := by
      by_contra hc
      have h1' : (1 : ℚ) ≤ (Fl.add (Fl.add (lit 0 : F32) (lit (1 / 2))) (Fl.neg r)).val := by
        have h1 : (1 : Int) ≤ ⌊(Fl.add (Fl.add (lit 0 : F32) (lit (1 / 2))) (Fl.neg r)).val⌋ := by omega
        have h1 := Int.le_floor.1 h1
        push_cast at h1; exact h1
      have hle : (Fl.add (Fl.add (lit 0 : F32) (lit (1 / 2))) (Fl.neg r)).val ≤ 1 / 2 := by
        obtain ⟨zs, e⟩ := Fl.add_fin a1 r1
        rw [e]
        have lo : Fl.Repr Binary32 (-2 ^ 24 : ℚ) := repr_lo
        have hi : Fl.Repr Binary32 (1 / 2 : ℚ) := by simpa using repr_half (n := 1) (by norm_num)
        exact (Fl.ofVal_between (φ := Binary32) lo hi (by rw [a2, r2]; push_cast; linarith) (by rw [a2, r2]; push_cast; linarith) zs).2.2
      linarith
    have f2 : 0 < ⌈(Fl.add (Fl.add (ofInt n : F32) (Fl.neg (lit (1 / 2)))) r).val⌉ := by
      rw [Int.lt_ceil]
      have hle : 1 / 2 ≤ (Fl.add (Fl.add (ofInt n : F32) (Fl.neg (lit (1 / 2)))) r).val := by
        obtain ⟨zs, e⟩ := Fl.add_fin b1 hf
        rw [e]
        have lo : Fl.Repr Binary32 (1 / 2 : ℚ) := by simpa using repr_half (n := 1) (by norm_num)
        have hi : Fl.Repr Binary32 (2 ^ 24 : ℚ) := repr_hi
        exact (Fl.ofVal_between (φ := Binary32) lo hi (by rw [b2]; push_cast; linarith) (by rw [b2]; push_cast; linarith) zs).2.1
      push_cast; linarith
    exact lt_of_le_of_lt f1 f2
  · rw [Int.le_floor]
    exact c6 (-2 ^ 22) (by norm_num) (by push_cast; linarith)
  · rw [Int.ceil_le]
    exact d5 (2 ^ 23 - 1) (by norm_num) (by push_cast; linarith)
  · intro m hm hle
    exact c6 m hm (by push_cast; linarith)
  · intro m hm hle
    exact d5 m hm (by push_cast; linarith)

/-- One axis of a tile's buffer. -/
theorem tileAxis {r : F32} (hf : r.IsFin) (h0 : 0 ≤ r.val) (h1 : r.val ≤ 2 ^ 21) {n m M : Int} (n0 : 0 < n) (n1 : n ≤ 2 ^ 22)
    (hm : toI32 (Scalar.floor ((lit 0 : F32) +. lit (1 / 2) -. r)) ≤ m) (hM : m < M)
    (hMe : M ≤ toI32 (Scalar.ceil ((ofInt n : F32) -. lit (1 / 2) +. r))) :
    toI32 (Scalar.ceil ((ofInt m : F32) -. lit (1 / 2) -. r)) ≤ n ∧
    0 ≤ toI32 (Scalar.floor ((ofInt M : F32) +. lit (1 / 2) +. r)) := by
  obtain ⟨lo, hi, e1, e2, -, e3, e4, e5, e6⟩ := sampleAxis hf h0 h1 n0 n1
  rw [e1] at hm
  rw [e2] at hMe
  obtain ⟨hh, hhv⟩ := half_f32
  obtain ⟨k1, k2⟩ := Fl.neg_fin hh
  rw [hhv] at k2
  obtain ⟨r1, r2⟩ := Fl.neg_fin hf
  have bm1 : (-2 ^ 22 : ℚ) ≤ m := by exact_mod_cast (e3.trans hm)
  have bm2 : (m : ℚ) + 1 ≤ 2 ^ 23 := by exact_mod_cast (by omega : m + 1 ≤ 2 ^ 23)
  have bM1 : (-2 ^ 22 : ℚ) + 1 ≤ M := by exact_mod_cast (by omega : -2 ^ 22 + 1 ≤ M)
  have bM2 : (M : ℚ) ≤ 2 ^ 23 := by exact_mod_cast (by omega : M ≤ 2 ^ 23)
  have n1' : (n : ℚ) ≤ 2 ^ 22 := by exact_mod_cast n1
  have n0' : (1 : ℚ) ≤ n := by exact_mod_cast n0
  obtain ⟨i1, i2⟩ := ofInt_exact (n := m) (abs_le.2 ⟨by omega, by omega⟩)
  obtain ⟨j1, j2⟩ := ofInt_exact (n := M) (abs_le.2 ⟨by omega, by omega⟩)
  constructor
  · -- m - 1/2 is exact
    obtain ⟨b1, -, -, -, -, -, b2⟩ := Fl.add_range i1 k1 (by rw [i2, k2]; linarith) (by rw [i2, k2]; linarith)
    have b2 := b2 (2 * m - 1) (abs_le.2 ⟨by omega, by omega⟩) (by rw [i2, k2]; push_cast; ring)
    obtain ⟨d1, d2, d3, d4, d5, d6, -⟩ := Fl.add_range b1 r1 (by rw [b2, r2]; push_cast; linarith) (by rw [b2, r2]; push_cast; linarith)
    show toI32 (Scalar.ceil (Fl.add (Fl.add (ofInt m : F32) (Fl.neg (lit (1 / 2)))) (Fl.neg r))) ≤ n
    rw [Fl.ceil_i32 d1 d2 d3 d4, Int.ceil_le]
    rw [b2, r2] at d5
    by_cases hc : (m : ℚ) - 1 / 2 - r.val ≤ n
    · exact d5 n (abs_le.2 ⟨by omega, by omega⟩) (by push_cast; linarith)
    · exfalso
      have := e6 (m - 1) (abs_le.2 ⟨by omega, by omega⟩) (by push_cast; linarith)
      have h2 : ⌈hi⌉ ≤ m - 1 := by rw [Int.ceil_le]; exact this
      omega
  · obtain ⟨b1, -, -, -, -, -, b2⟩ := Fl.add_range j1 hh (by rw [j2, hhv]; linarith) (by rw [j2, hhv]; linarith)
    have b2 := b2 (2 * M + 1) (abs_le.2 ⟨by omega, by omega⟩) (by rw [j2, hhv]; push_cast; ring)
    obtain ⟨d1, d2, d3, d4, d5, d6, -⟩ := Fl.add_range b1 hf (by rw [b2]; push_cast; linarith) (by rw [b2]; push_cast; linarith)
    show 0 ≤ toI32 (Scalar.floor (Fl.add (Fl.add (ofInt M : F32) (lit (1 / 2))) r))
    rw [Fl.floor_i32 d1 d2 d3 d4, Int.le_floor]
    rw [b2] at d6
    by_cases hc : 0 ≤ (M : ℚ) + 1 / 2 + r.val
    · exact d6 0 (by norm_num) (by push_cast; linarith)
    · exfalso
      have := e5 (M + 1) (abs_le.2 ⟨by omega, by omega⟩) (by push_cast; linarith)
      have h2 : M + 1 ≤ ⌊lo⌋ := by rw [Int.le_floor]; exact this
      omega

/-- In single precision too the buffer of every tile lies in the image: whatever the filter radius and the rounding of its
border, merging a tile never indexes outside the film's pixels. -/
theorem tilesFit_f32 (res : V2 Int) (filt : Filter F32) (hR : FilmRange32 res filt.radius) : Spec.TilesFit (Film.new res filt) := by
  intro b hb x y hin
  obtain ⟨hf, h0, h1, x0, y0, x1, y1, -⟩ := hR
  unfold Film.iter at hb
  obtain ⟨i, j, hi0, hi, hj0, hj, rfl⟩ := (mem_tiles _ _).1 hb
  rw [tileAt_eq _ i j hi hj] at hin
  obtain ⟨lx, hx, ex1, ex2, ex3, -⟩ := sampleAxis hf h0 h1 x0 x1
  obtain ⟨ly, hy, ey1, ey2, ey3, -⟩ := sampleAxis hf h0 h1 y0 y1
  have hS : (Film.new res filt).sampleBBox = ⟨⟨⌊lx⌋, ⌊lx⌋⟩, ⟨⌈hx⌉, ⌈hy⌉⟩⟩ := by
    unfold Film.sampleBBox
    simp only [V2.add, V2.sub, V2.ssub, V2.sadd, V2.floor, V2.ceil, V2.toI, V2.ofI, halfPixel, Film.new]
    rw [ex1, ex2, ey2]
    have : ⌊lx⌋ = ⌊ly⌋ := by rw [← ex1, ey1]
    simp only [BBox2i.new, V2.imin, V2.imax, imin, imax, BBox2i.mk.injEq, V2.mk.injEq]
    refine ⟨⟨?_, ?_⟩, ?_, ?_⟩ <;> split_ifs <;> omega
  rw [hS] at hin hi hj
  simp only at hin hi hj
  have ey1' : ⌊lx⌋ = ⌊ly⌋ := by rw [← ex1, ey1]
  obtain ⟨tx1, tx2⟩ := tileAxis (m := ⌊lx⌋ + i * 16) (M := min (⌊lx⌋ + i * 16 + 16) ⌈hx⌉) hf h0 h1 x0 x1
    (by rw [ex1]; omega) (by omega) (by rw [ex2]; omega)
  obtain ⟨ty1, ty2⟩ := tileAxis (m := ⌊lx⌋ + j * 16) (M := min (⌊lx⌋ + j * 16 + 16) ⌈hy⌉) hf h0 h1 y0 y1
    (by rw [ey1]; omega) (by omega) (by rw [ey2]; omega)
  unfold InTile Film.getFilmTile at hin
  simp only [V2.add, V2.sub, V2.ssub, V2.sadd, V2.floor, V2.ceil, V2.toI, V2.ofI, halfPixel, FilmTile.new, Film.new,
    BBox2i.new, V2.imin, V2.imax, imin, imax] at hin
  unfold InFilm
  simp only [Film.new]
  split_ifs at hin <;> omega

/-- C04 in single precision.  Merging a tile of the film, after any samples were added to it (at any positions, also NaN and
infinite ones), never indexes out of bounds, in any state the film can have during a render (`FilmInv`, which every merge
keeps): the rounded borders of the tile never leave the image. -/
theorem c04_merge_never_panics_f32 (res : V2 Int) (filt : Filter F32) (hR : FilmRange32 res filt.radius) :
    FilmInv res filt (Film.new res filt) ∧
    ∀ film, FilmInv res filt film → ∀ b ∈ film.iter.toList, ∀ samples : List (V2 F32 × Spectrum F32),
      ∃ t' f', samples.foldlM (fun t s => t.addSample s.1 s.2) (film.getFilmTile b) = some t' ∧
        film.mergeFilmTile t' = some f' ∧ FilmInv res filt f' := by
  refine ⟨⟨rfl, rfl, rfl, filmNew_sized res (Int.mul_nonneg hR.x0.le hR.y0.le) hR.area filt⟩, ?_⟩
  intro film h b hb samples
  have htile : film.getFilmTile b = (Film.new res filt).getFilmTile b := by
    unfold Film.getFilmTile; rw [h.1, h.2.1, h.2.2.1]; rfl
  have hb' : b ∈ (Film.new res filt).iter.toList := by
    have e1 : film.iter = (Film.new res filt).iter := by
      unfold Film.iter Film.sampleBBox; rw [h.1, h.2.1]; rfl
    rw [← e1]; exact hb
  suffices H : ∀ (samples : List (V2 F32 × Spectrum F32)) (t : FilmTile F32), TileGood (Film.new res filt) b t →
      ∃ t', samples.foldlM (fun t s => t.addSample s.1 s.2) t = some t' ∧ TileGood (Film.new res filt) b t' by
    obtain ⟨t', h1, h2⟩ := H samples (film.getFilmTile b)
      (by rw [htile]; exact ⟨rfl, getFilmTile_sized _ _, mkFilterTable_ok filt⟩)
    obtain ⟨f', g1, g2⟩ := mergeFilmTile_fit res hR.area filt (tilesFit_f32 res filt hR) film h b hb' t' h2
    exact ⟨t', f', h1, g1, g2⟩
  intro samples
  induction samples with
  | nil => intro t h; exact ⟨t, rfl, h⟩
  | cons s l ih =>
    intro t h
    obtain ⟨t', e1, e2⟩ := addSample_good (fits_of_inFilm _ hR.area b (tilesFit_f32 res filt hR b hb')) h s.1 s.2
    rw [List.foldlM_cons, e1]
    exact ih t' e2

/-- A 640×480 film and a filter of radius 2 are in range. -/
example (e : V2 F32 → F32) : FilmRange32 ⟨640, 480⟩ (⟨lit 2, e⟩ : Filter F32).radius := by
  have h : (lit (2 : ℚ) : F32).IsFin ∧ (lit (2 : ℚ) : F32).val = 2 := by
    have := ofInt_exact (n := 2) (by norm_num)
    simpa [ofInt] using this
  exact ⟨h.1, by rw [h.2]; norm_num, by rw [h.2]; norm_num, by norm_num, by norm_num, by norm_num, by norm_num, by norm_num⟩

end PT
