import Verif.Lemmas.HaltonIndex

/-!
# Pixels and global sample indices (C20, C21, C23)
-/

namespace PT

/-! ### Histories and C23 -/

/-- All states a sampler constructed as `s0` can be in: any calls, in any order, any number. -/
inductive Spec.Hist (α : Type) [Scalar α] (s0 : HaltonSampler) : HaltonSampler → Prop
  | start : Spec.Hist α s0 s0
  | startPixel (s p) : Spec.Hist α s0 s → Spec.Hist α s0 ((HaltonSampler.ops : SamplerOps α _).startPixel s p)
  | startNext (s) : Spec.Hist α s0 s → Spec.Hist α s0 ((HaltonSampler.ops : SamplerOps α _).startNextSample s).2
  | get1d (s s' x) : Spec.Hist α s0 s → (HaltonSampler.ops : SamplerOps α _).get1d s = some (x, s') →
      Spec.Hist α s0 s'
  | get2d (s s' x) : Spec.Hist α s0 s → (HaltonSampler.ops : SamplerOps α _).get2d s = some (x, s') →
      Spec.Hist α s0 s'

/-- What never changes, and the consistency of the cached offset. -/
structure HistInv (s0 s : HaltonSampler) : Prop where
  spp : s.samplesPerPixel = s0.samplesPerPixel
  scale : s.baseScale = s0.baseScale
  exp : s.baseExp = s0.baseExp
  stride : s.sampleStride = s0.sampleStride
  inv : s.mulInverse = s0.mulInverse
  cache : s.offsetForCurrentPixel = { s0 with currentPixel := s.pixelForOffset }.computeOffset

theorem computeOffset_congr {s s' : HaltonSampler} (h1 : s.baseScale = s'.baseScale) (h2 : s.baseExp = s'.baseExp)
    (h3 : s.sampleStride = s'.sampleStride) (h4 : s.mulInverse = s'.mulInverse)
    (h5 : s.currentPixel = s'.currentPixel) : s.computeOffset = s'.computeOffset := by
  unfold HaltonSampler.computeOffset; rw [h1, h2, h3, h4, h5]

theorem getIndex_inv {s0 s : HaltonSampler} (h : HistInv s0 s) :
    HistInv s0 s.getIndexForSample.2 ∧
    s.getIndexForSample.2 = { s with
      offsetForCurrentPixel := { s0 with currentPixel := s.currentPixel }.computeOffset
      pixelForOffset := s.currentPixel } ∧
    s.getIndexForSample.1 = u32 ({ s0 with currentPixel := s.currentPixel }.computeOffset +
      u32 (s.currentPixelSampleIndex * s0.sampleStride)) := by
  have hc : s.computeOffset = { s0 with currentPixel := s.currentPixel }.computeOffset :=
    computeOffset_congr h.scale h.exp h.stride h.inv rfl
  have hst : s.getIndexForSample.2 = { s with
      offsetForCurrentPixel := { s0 with currentPixel := s.currentPixel }.computeOffset
      pixelForOffset := s.currentPixel } := by
    unfold HaltonSampler.getIndexForSample
    simp only
    split_ifs with hp
    · rw [hc]
    · push Not at hp
      rw [← hp, ← h.cache]
      cases s; simp only [HaltonSampler.mk.injEq] at hp ⊢
      exact ⟨trivial, hp.symm, trivial, trivial, trivial, trivial, trivial, trivial, trivial, trivial, trivial⟩
  have hi : s.getIndexForSample.1 = u32 (s.getIndexForSample.2.offsetForCurrentPixel +
      u32 (s.getIndexForSample.2.currentPixelSampleIndex * s.getIndexForSample.2.sampleStride)) := rfl
  refine ⟨?_, hst, ?_⟩
  · rw [hst]; exact ⟨h.spp, h.scale, h.exp, h.stride, h.inv, rfl⟩
  · rw [hi, hst]; simp only [h.stride]

theorem hist_inv {α : Type} [Scalar α] (spp : Nat) (box : BBox2i) (s : HaltonSampler)
    (h : Spec.Hist α (HaltonSampler.new spp box) s) : HistInv (HaltonSampler.new spp box) s := by
  induction h with
  | start =>
    refine ⟨rfl, rfl, rfl, rfl, rfl, ?_⟩
    obtain ⟨j, k, hp, _⟩ := new_params spp box
    have hz : ∀ b n, Spec.rev b n 0 = 0 := by
      intro b n; induction n with
      | zero => rfl
      | succ n ih => simp [Spec.rev, ih]
    have hpm : posMod 0 128 = 0 := by decide
    have e := computeOffset_eq (s := { HaltonSampler.new spp box with currentPixel := (HaltonSampler.new spp box).pixelForOffset })
      ⟨hp.sx, hp.sy, hp.ex, hp.ey, hp.hx, hp.hy, hp.stride, hp.inv0, hp.inv1⟩
    rw [e]
    have h0 : (HaltonSampler.new spp box).pixelForOffset = ⟨0, 0⟩ := rfl
    simp only [h0, hpm, hz]
    simp [HaltonSampler.new]
  | startPixel s p _ ih =>
    have h' : HistInv (HaltonSampler.new spp box)
        { s with currentPixel := p, currentPixelSampleIndex := 0, dimension := 0 } :=
      ⟨ih.spp, ih.scale, ih.exp, ih.stride, ih.inv, ih.cache⟩
    have := (getIndex_inv h').1
    exact ⟨this.spp, this.scale, this.exp, this.stride, this.inv, this.cache⟩
  | startNext s _ ih =>
    have h' : HistInv (HaltonSampler.new spp box)
        { s with currentPixelSampleIndex := u32 (s.currentPixelSampleIndex + 1), dimension := 0 } :=
      ⟨ih.spp, ih.scale, ih.exp, ih.stride, ih.inv, ih.cache⟩
    have := (getIndex_inv h').1
    exact ⟨this.spp, this.scale, this.exp, this.stride, this.inv, this.cache⟩
  | get1d s s' x _ e ih =>
    simp only [HaltonSampler.ops, bind, pure] at e
    obtain ⟨y, _, e⟩ := Option.bind_eq_some_iff.1 e
    simp only [Option.some.injEq, Prod.mk.injEq] at e
    rw [← e.2]
    exact ⟨ih.spp, ih.scale, ih.exp, ih.stride, ih.inv, ih.cache⟩
  | get2d s s' x _ e ih =>
    simp only [HaltonSampler.ops, bind, pure] at e
    obtain ⟨y, _, e⟩ := Option.bind_eq_some_iff.1 e
    obtain ⟨z, _, e⟩ := Option.bind_eq_some_iff.1 e
    simp only [Option.some.injEq, Prod.mk.injEq] at e
    rw [← e.2]
    exact ⟨ih.spp, ih.scale, ih.exp, ih.stride, ih.inv, ih.cache⟩

/-- State after `start_pixel(p)`. -/
theorem startPixel_state {s0 s : HaltonSampler} (h : HistInv s0 s) (p : V2 Int) :
    s.startPixel p =
      { s0 with
        currentPixel := p, currentPixelSampleIndex := 0, dimension := 0
        offsetForCurrentPixel := { s0 with currentPixel := p }.computeOffset
        pixelForOffset := p
        intervalSampleIndex := u32 { s0 with currentPixel := p }.computeOffset } := by
  have h' : HistInv s0 { s with currentPixel := p, currentPixelSampleIndex := 0, dimension := 0 } :=
    ⟨h.spp, h.scale, h.exp, h.stride, h.inv, h.cache⟩
  obtain ⟨_, a, b⟩ := getIndex_inv h'
  unfold HaltonSampler.startPixel
  simp only
  rw [a, b]
  simp only [Nat.zero_mul]
  ext <;> simp [h.spp, h.scale, h.exp, h.stride, h.inv, u32]

/-- C23.  Two samplers made with the same parameters, after arbitrary different histories, are in the same
state after `start_pixel(p)`; so everything they deliver from then on is the same, whatever program
draws from them. -/
theorem c23_history_independent {α β : Type} [Scalar α] (spp : Nat) (box : BBox2i) (s s' : HaltonSampler)
    (h : Spec.Hist α (HaltonSampler.new spp box) s) (h' : Spec.Hist α (HaltonSampler.new spp box) s')
    (p : V2 Int) (prog : Draw α β) :
    (HaltonSampler.ops : SamplerOps α _).startPixel s p = (HaltonSampler.ops : SamplerOps α _).startPixel s' p ∧
    prog.run HaltonSampler.ops ((HaltonSampler.ops : SamplerOps α _).startPixel s p) =
      prog.run HaltonSampler.ops ((HaltonSampler.ops : SamplerOps α _).startPixel s' p) := by
  have e : (HaltonSampler.ops : SamplerOps α _).startPixel s p = (HaltonSampler.ops : SamplerOps α _).startPixel s' p := by
    show s.startPixel p = s'.startPixel p
    rw [startPixel_state (hist_inv spp box s h) p, startPixel_state (hist_inv spp box s' h') p]
  exact ⟨e, by rw [e]⟩

/-- Two genuinely different histories: a fresh sampler and one that has worked on another pixel. -/
example : Spec.Hist ℝ (HaltonSampler.new 4 ⟨⟨0, 0⟩, ⟨10, 10⟩⟩)
    ((HaltonSampler.ops : SamplerOps ℝ _).startNextSample
      ((HaltonSampler.ops : SamplerOps ℝ _).startPixel (HaltonSampler.new 4 ⟨⟨0, 0⟩, ⟨10, 10⟩⟩) ⟨3, 5⟩)).2 :=
  .startNext _ (.startPixel _ _ .start)

/-! ### C20 -/

/-- The state at sample number `n` of pixel `p`: `start_pixel(p)`, then `n` times `start_next_sample`. -/
def Spec.sampleState (s : HaltonSampler) (p : V2 Int) : Nat → HaltonSampler
  | 0 => s.startPixel p
  | n + 1 => (Spec.sampleState s p n).startNextSample.2

/-- The global Halton index used for sample number `n` of pixel `p`. -/
def Spec.sampleIndex (s : HaltonSampler) (p : V2 Int) (n : Nat) : Nat := (Spec.sampleState s p n).intervalSampleIndex

theorem sampleState_spec {s0 s : HaltonSampler} (h : HistInv s0 s) (p : V2 Int) (n : Nat) (hn : n < 2 ^ 32) :
    Spec.sampleState s p n =
      { s0 with
        currentPixel := p, currentPixelSampleIndex := n, dimension := 0
        offsetForCurrentPixel := { s0 with currentPixel := p }.computeOffset
        pixelForOffset := p
        intervalSampleIndex := u32 ({ s0 with currentPixel := p }.computeOffset + u32 (n * s0.sampleStride)) } := by
  induction n with
  | zero => rw [Spec.sampleState, startPixel_state h p]; simp [u32]
  | succ n ih =>
    rw [Spec.sampleState, ih (by omega)]
    have h' : HistInv s0
      { s0 with
        currentPixel := p, currentPixelSampleIndex := u32 (n + 1), dimension := 0
        offsetForCurrentPixel := { s0 with currentPixel := p }.computeOffset
        pixelForOffset := p
        intervalSampleIndex := u32 ({ s0 with currentPixel := p }.computeOffset + u32 (n * s0.sampleStride)) } :=
      ⟨rfl, rfl, rfl, rfl, rfl, rfl⟩
    obtain ⟨_, a, b⟩ := getIndex_inv h'
    unfold HaltonSampler.startNextSample
    simp only at a b ⊢
    rw [a, b]
    simp only [u32_of_lt hn]

theorem sampleIndex_spec {s0 s : HaltonSampler} (h : HistInv s0 s) (p : V2 Int) (n : Nat) (hn : n < 2 ^ 32) :
    Spec.sampleIndex s p n = u32 ({ s0 with currentPixel := p }.computeOffset + u32 (n * s0.sampleStride)) := by
  unfold Spec.sampleIndex; rw [sampleState_spec h p n hn]

/-- The base-`b` radical inverse of an index. -/
noncomputable def Spec.radical (b i : Nat) : ℝ := Spec.mirror b (Nat.digits b i)

theorem radical_step (b : Nat) (hb : 2 ≤ b) (a : Nat) :
    Spec.radical b a = ((a % b : Nat) + Spec.radical b (a / b)) / b := by
  unfold Spec.radical
  rcases Nat.eq_zero_or_pos a with rfl | h
  · simp [Spec.mirror]
  · rw [Nat.digits_def' (by omega) h]; rfl

theorem radical_range (b : Nat) (hb : 2 ≤ b) (a : Nat) : 0 ≤ Spec.radical b a ∧ Spec.radical b a < 1 := by
  induction a using Nat.strong_induction_on with
  | _ a ih =>
    rcases Nat.eq_zero_or_pos a with rfl | h
    · simp [Spec.radical, Spec.mirror]
    · rw [radical_step b hb]
      obtain ⟨h1, h2⟩ := ih (a / b) (Nat.div_lt_self h hb)
      have hb' : (0 : ℝ) < b := by positivity
      have hm : ((a % b : Nat) : ℝ) + 1 ≤ b := by exact_mod_cast Nat.mod_lt a (by omega : 0 < b)
      exact ⟨by positivity, by rw [div_lt_one hb']; linarith⟩

/-- The cell of `b^e` cells in which the radical inverse falls is the digit reversal. -/
theorem radical_cell (b : Nat) (hb : 2 ≤ b) (e : Nat) : ∀ a,
    (b : ℝ) ^ e * Spec.radical b a = (Spec.rev b e a : ℝ) + Spec.radical b (a / b ^ e) := by
  have hb' : (b : ℝ) ≠ 0 := by positivity
  induction e with
  | zero => intro a; simp [Spec.rev]
  | succ e ih =>
    intro a
    have := ih (a / b)
    rw [radical_step b hb a, pow_succ]
    have e1 : (b : ℝ) ^ e * b * (((a % b : Nat) + Spec.radical b (a / b)) / b) =
        (b : ℝ) ^ e * (a % b : Nat) + (b : ℝ) ^ e * Spec.radical b (a / b) := by field_simp
    rw [e1, this, Nat.div_div_eq_div_mul, show b * b ^ e = b ^ e * b by ring]
    simp only [Spec.rev]; push_cast; rw [pow_succ]; ring

theorem radical_floor (b : Nat) (hb : 2 ≤ b) (e a : Nat) : ⌊(b : ℝ) ^ e * Spec.radical b a⌋ = (Spec.rev b e a : Int) := by
  rw [radical_cell b hb e a, Int.floor_eq_iff]
  obtain ⟨h1, h2⟩ := radical_range b hb (a / b ^ e)
  constructor
  · push_cast; linarith
  · push_cast; linarith

/-- The no-overflow condition under which sample number `n` is considered: the index fits in `u32`. -/
theorem index_no_overflow {s0 : HaltonSampler} {j k n : Nat} (h : HaltonParams s0 j k) (p : V2 Int)
    (hn : (n + 1) * s0.sampleStride ≤ 2 ^ 32) (s : HaltonSampler) (hs : HistInv s0 s) (hn' : n < 2 ^ 32) :
    Spec.sampleIndex s p n = { s0 with currentPixel := p }.computeOffset + n * s0.sampleStride ∧
    { s0 with currentPixel := p }.computeOffset < s0.sampleStride := by
  have h' : HaltonParams { s0 with currentPixel := p } j k :=
    ⟨h.sx, h.sy, h.ex, h.ey, h.hx, h.hy, h.stride, h.inv0, h.inv1⟩
  have hlt := (computeOffset_residues h').1
  rw [← h.stride] at hlt
  rw [Nat.add_mul, Nat.one_mul] at hn
  refine ⟨?_, hlt⟩
  have hpos : 0 < s0.sampleStride := by rw [h.stride]; positivity
  rw [sampleIndex_spec hs p n hn', u32_of_lt (by omega : n * s0.sampleStride < 2 ^ 32), u32_of_lt (by omega)]

theorem rev_of_modEq (b : Nat) (hb : 2 ≤ b) (e i c : Nat)
    (h : (i : Int) ≡ (Spec.rev b e c : Int) [ZMOD (b ^ e : Nat)]) : Spec.rev b e i = c % b ^ e := by
  have h' : i % b ^ e = Spec.rev b e c % b ^ e := Int.natCast_modEq_iff.1 h
  rw [← rev_mod b hb e i, h', rev_mod b hb, rev_rev b hb]

/-- What holds of C20: for every sampling region, pixel and sample number (as long as the index fits in 32
bits), the sample's Halton point falls in the pixel's column of the sampling tile or in the pixel's
row.  The tile has `2^j × 3^k` cells and covers the region (at most 128 wide); which axis is right
depends only on the tile size. -/
theorem c20_one_axis_partial (spp : Nat) (box : BBox2i) (p : V2 Int) (n : Nat)
    (hn : (n + 1) * (HaltonSampler.new spp box).sampleStride ≤ 2 ^ 32) :
    ∃ j k : Nat, imin box.diagonal.x 128 ≤ ((2 ^ j : Nat) : Int) ∧ imin box.diagonal.y 128 ≤ ((3 ^ k : Nat) : Int) ∧
      let I := Spec.sampleIndex (HaltonSampler.new spp box) p n
      (⌊(2 : ℝ) ^ j * Spec.radical 2 I⌋ = p.x % 128 % ((2 ^ j : Nat) : Int) ∨
       ⌊(3 : ℝ) ^ k * Spec.radical 3 I⌋ = p.y % 128 % ((3 ^ k : Nat) : Int)) := by
  obtain ⟨j, k, hp, hx, hy⟩ := new_params spp box
  refine ⟨j, k, hx, hy, ?_⟩
  have hpos : 0 < (HaltonSampler.new spp box).sampleStride := by rw [hp.stride]; positivity
  have hn' : n < 2 ^ 32 := by
    have : (n + 1) * 1 ≤ (n + 1) * (HaltonSampler.new spp box).sampleStride := Nat.mul_le_mul_left _ hpos
    omega
  obtain ⟨e1, e2⟩ := index_no_overflow hp p hn _ (hist_inv (α := ℝ) spp box _ .start) hn'
  have h' : HaltonParams { HaltonSampler.new spp box with currentPixel := p } j k :=
    ⟨hp.sx, hp.sy, hp.ex, hp.ey, hp.hx, hp.hy, hp.stride, hp.inv0, hp.inv1⟩
  obtain ⟨_, r1, r2⟩ := computeOffset_residues h'
  have hc : Nat.Coprime (3 ^ k) (2 ^ j) := Nat.Coprime.pow _ _ (by decide)
  intro I
  have hI : (I : Int) = ({ HaltonSampler.new spp box with currentPixel := p }.computeOffset : Int) +
      n * (2 ^ j * 3 ^ k : Nat) := by
    simp only [I]; rw [e1, hp.stride]; push_cast; ring
  rcases not_both_negative (3 ^ k) (2 ^ j) hc with h | h
  · left
    rw [show ((2 : ℝ) = ((2 : Nat) : ℝ)) by norm_num, radical_floor 2 le_rfl]
    rw [if_pos h] at r1
    have hz : (n * (2 ^ j * 3 ^ k : Nat) : Int) ≡ 0 [ZMOD (2 ^ j : Nat)] :=
      Int.modEq_zero_iff_dvd.2 ⟨(n * 3 ^ k : Nat), by push_cast; ring⟩
    have hm : (I : Int) ≡ (Spec.rev 2 j (posMod p.x 128) : Int) [ZMOD (2 ^ j : Nat)] := by
      rw [hI]; simpa using r1.add hz
    rw [rev_of_modEq 2 le_rfl j I _ hm]
    push_cast
    rw [posMod_eq _ _ (by norm_num)]
  · right
    rw [show ((3 : ℝ) = ((3 : Nat) : ℝ)) by norm_num, radical_floor 3 (by norm_num)]
    rw [if_pos h] at r2
    have hz : (n * (2 ^ j * 3 ^ k : Nat) : Int) ≡ 0 [ZMOD (3 ^ k : Nat)] :=
      Int.modEq_zero_iff_dvd.2 ⟨(n * 2 ^ j : Nat), by push_cast; ring⟩
    have hm : (I : Int) ≡ (Spec.rev 3 k (posMod p.y 128) : Int) [ZMOD (3 ^ k : Nat)] := by
      rw [hI]; simpa using r2.add hz
    rw [rev_of_modEq 3 (by norm_num) k I _ hm]
    push_cast
    rw [posMod_eq _ _ (by norm_num)]

/-- C20 is false of the code.  For a 4 × 9 region (tile 4 × 9), sample 0 of pixel (0, 1) has the Halton index 24,
which lies in row 2 instead of row 1 … -/
theorem c20_refuted : ∃ (box : BBox2i) (p : V2 Int),
    let s := HaltonSampler.new 1 box
    (0 ≤ p.x ∧ p.x < box.diagonal.x ∧ 0 ≤ p.y ∧ p.y < box.diagonal.y) ∧
    (s.baseScale = ⟨4, 9⟩) ∧
    ⌊(9 : ℝ) * Spec.radical 3 (Spec.sampleIndex s p 0)⌋ ≠ p.y := by
  refine ⟨⟨⟨0, 0⟩, ⟨4, 9⟩⟩, ⟨0, 1⟩, ?_⟩
  intro s
  have hs : s = { samplesPerPixel := 1, currentPixel := ⟨0, 0⟩, currentPixelSampleIndex := 0, dimension := 0, intervalSampleIndex := 0, baseScale := ⟨4, 9⟩, baseExp := ⟨2, 2⟩, sampleStride := 36, pixelForOffset := ⟨0, 0⟩, offsetForCurrentPixel := 0, mulInverse := ⟨1, 2⟩ } := by
    have h0 : scaleLoop 2 4 1 0 = (4, 2) := by repeat (first | rfl | (rw [scaleLoop]; norm_num))
    have h1 : scaleLoop 3 9 1 0 = (9, 2) := by repeat (first | rfl | (rw [scaleLoop]; norm_num))
    have m0 : multiplicativeInverse 9 4 = 1 := by
      unfold multiplicativeInverse; rw [← egcdF_eq 5 9 4 (by norm_num)]; decide +kernel
    have m1 : multiplicativeInverse 4 9 = 2 := by
      unfold multiplicativeInverse; rw [← egcdF_eq 10 4 9 (by norm_num)]; decide +kernel
    have e0 : (imin (BBox2i.diagonal ⟨⟨0, 0⟩, ⟨4, 9⟩⟩).x kMaxResolution).toNat = 4 := by decide
    have e1 : (imin (BBox2i.diagonal ⟨⟨0, 0⟩, ⟨4, 9⟩⟩).y kMaxResolution).toNat = 9 := by decide
    simp only [s, HaltonSampler.new, e0, e1, h0, h1, m0, m1]
    rfl
  refine ⟨by simp [BBox2i.diagonal], by rw [hs], ?_⟩
  have hi : Spec.sampleIndex s ⟨0, 1⟩ 0 = 24 := by rw [hs]; decide +kernel
  rw [hi, show (9 : ℝ) = ((3 : Nat) : ℝ) ^ 2 by norm_num, radical_floor 3 (by norm_num)]
  decide

/-! ### C21 -/

/-- What holds of C21: two pixels whose column or row in the sampling tile differ (the pixel coordinates
modulo 128 and then modulo the tile size) never use the same index, for any sample numbers whose indices fit
in 32 bits. -/
theorem c21_distinct_partial (spp : Nat) (box : BBox2i) (p q : V2 Int) (m n : Nat)
    (hm : (m + 1) * (HaltonSampler.new spp box).sampleStride ≤ 2 ^ 32)
    (hn : (n + 1) * (HaltonSampler.new spp box).sampleStride ≤ 2 ^ 32)
    (hpq : p.x % 128 % ((HaltonSampler.new spp box).baseScale.x : Int) ≠ q.x % 128 % ((HaltonSampler.new spp box).baseScale.x : Int) ∨
      p.y % 128 % ((HaltonSampler.new spp box).baseScale.y : Int) ≠ q.y % 128 % ((HaltonSampler.new spp box).baseScale.y : Int)) :
    Spec.sampleIndex (HaltonSampler.new spp box) p m ≠ Spec.sampleIndex (HaltonSampler.new spp box) q n := by
  obtain ⟨j, k, hp, -, -⟩ := new_params spp box
  have hpos : 0 < (HaltonSampler.new spp box).sampleStride := by rw [hp.stride]; positivity
  have lt32 : ∀ n, (n + 1) * (HaltonSampler.new spp box).sampleStride ≤ 2 ^ 32 → n < 2 ^ 32 := by
    intro n hn
    have : (n + 1) * 1 ≤ (n + 1) * (HaltonSampler.new spp box).sampleStride := Nat.mul_le_mul_left _ hpos
    omega
  obtain ⟨e1, l1⟩ := index_no_overflow hp p hm _ (hist_inv (α := ℝ) spp box _ .start) (lt32 m hm)
  obtain ⟨e2, l2⟩ := index_no_overflow hp q hn _ (hist_inv (α := ℝ) spp box _ .start) (lt32 n hn)
  intro he
  rw [e1, e2] at he
  have hoff : { HaltonSampler.new spp box with currentPixel := p }.computeOffset =
      { HaltonSampler.new spp box with currentPixel := q }.computeOffset := by
    have := congrArg (· % (HaltonSampler.new spp box).sampleStride) he
    simpa [Nat.add_mul_mod_self_right, Nat.mod_eq_of_lt l1, Nat.mod_eq_of_lt l2] using this
  have hP : ∀ p, HaltonParams { HaltonSampler.new spp box with currentPixel := p } j k := fun p =>
    ⟨hp.sx, hp.sy, hp.ex, hp.ey, hp.hx, hp.hy, hp.stride, hp.inv0, hp.inv1⟩
  obtain ⟨_, r1, r2⟩ := computeOffset_residues (hP p)
  obtain ⟨_, s1, s2⟩ := computeOffset_residues (hP q)
  rw [hoff] at r1 r2
  have key : ∀ (b e : Nat) (hb : 2 ≤ b) (c : Prop) [Decidable c] (x y : Int) (o : Int),
      o ≡ (if c then (Spec.rev b e (posMod x 128) : Int) else -(Spec.rev b e (posMod x 128) : Int)) [ZMOD (b ^ e : Nat)] →
      o ≡ (if c then (Spec.rev b e (posMod y 128) : Int) else -(Spec.rev b e (posMod y 128) : Int)) [ZMOD (b ^ e : Nat)] →
      x % 128 % ((b ^ e : Nat) : Int) = y % 128 % ((b ^ e : Nat) : Int) := by
    intro b e hb c _ x y o h1 h2
    have h3 : (Spec.rev b e (posMod x 128) : Int) ≡ (Spec.rev b e (posMod y 128) : Int) [ZMOD (b ^ e : Nat)] := by
      have := h1.symm.trans h2
      split_ifs at this with hc
      · exact this
      · simpa using this.neg
    have h4 := rev_of_modEq b hb e _ _ h3
    rw [rev_rev b hb] at h4
    have h5 : ((posMod x 128 % b ^ e : Nat) : Int) = ((posMod y 128 % b ^ e : Nat) : Int) := by rw [h4]
    push_cast at h5
    rw [posMod_eq _ _ (by norm_num), posMod_eq _ _ (by norm_num)] at h5
    push_cast; exact h5
  rw [hp.sx, hp.sy] at hpq
  rcases hpq with h | h
  · exact h (key 2 j le_rfl _ p.x q.x _ r1 s1)
  · exact h (key 3 k (by norm_num) _ p.y q.y _ r2 s2)

/-- C21 holds in full when the region is more than 81 pixels high: two different pixels of the region that are
less than 128 apart on both axes never share an index. -/
theorem c21_distinct_tall_partial (spp : Nat) (box : BBox2i) (p q : V2 Int) (m n : Nat)
    (hbox : 81 < box.diagonal.y)
    (hpb : box.min.x ≤ p.x ∧ p.x < box.max.x) (hqb : box.min.x ≤ q.x ∧ q.x < box.max.x)
    (hne : p ≠ q) (hdx : |p.x - q.x| < 128) (hdy : |p.y - q.y| < 128)
    (hm : (m + 1) * (HaltonSampler.new spp box).sampleStride ≤ 2 ^ 32)
    (hn : (n + 1) * (HaltonSampler.new spp box).sampleStride ≤ 2 ^ 32) :
    Spec.sampleIndex (HaltonSampler.new spp box) p m ≠ Spec.sampleIndex (HaltonSampler.new spp box) q n := by
  apply c21_distinct_partial spp box p q m n hm hn
  obtain ⟨j, k, hp, hx, hy⟩ := new_params spp box
  rw [hp.sx, hp.sy]
  by_contra hcon
  push Not at hcon
  obtain ⟨c1, c2⟩ := hcon
  apply hne
  have hd : ∃ d, 128 = 2 ^ j * d := by
    have hj : j ≤ 7 := by
      by_contra hj
      have h8 : 2 ^ 8 ≤ 2 ^ j := Nat.pow_le_pow_right (by omega) (by omega)
      have := hp.hx; omega
    exact ⟨2 ^ (7 - j), by rw [← pow_add, Nat.add_sub_cancel' hj]; norm_num⟩
  obtain ⟨d, hd⟩ := hd
  have hk : 243 ≤ 3 ^ k := by
    have h5 : 5 ≤ k := by
      by_contra hk
      have h4 : 3 ^ k ≤ 3 ^ 4 := Nat.pow_le_pow_right (by omega) (by omega)
      have : imin box.diagonal.y 128 > 81 := by unfold imin; split_ifs <;> omega
      have h4' : ((3 ^ k : Nat) : Int) ≤ 81 := by exact_mod_cast h4
      omega
    calc 243 = 3 ^ 5 := by norm_num
      _ ≤ 3 ^ k := Nat.pow_le_pow_right (by omega) h5
  have ey : p.y = q.y := by
    have h1 := Int.emod_nonneg p.y (by norm_num : (128 : Int) ≠ 0)
    have h2 := Int.emod_lt_of_pos p.y (by norm_num : (0 : Int) < 128)
    have h3 := Int.emod_nonneg q.y (by norm_num : (128 : Int) ≠ 0)
    have h4 := Int.emod_lt_of_pos q.y (by norm_num : (0 : Int) < 128)
    have h5 : (243 : Int) ≤ ((3 ^ k : Nat) : Int) := by exact_mod_cast hk
    rw [Int.emod_eq_of_lt h1 (by omega), Int.emod_eq_of_lt h3 (by omega)] at c2
    rw [abs_lt] at hdy
    omega
  have ex : p.x = q.x := by
    have hdvd : ((2 ^ j : Nat) : Int) ∣ 128 := ⟨d, by exact_mod_cast hd⟩
    rw [Int.emod_emod_of_dvd _ hdvd, Int.emod_emod_of_dvd _ hdvd] at c1
    have h1 : ((2 ^ j : Nat) : Int) ∣ p.x - q.x := Int.ModEq.dvd (Int.ModEq.symm c1)
    have hpos : (0 : Int) < ((2 ^ j : Nat) : Int) := by positivity
    have hlt : |p.x - q.x| < ((2 ^ j : Nat) : Int) := by
      have hd' : box.diagonal.x = box.max.x - box.min.x := rfl
      unfold imin at hx
      split_ifs at hx
      · rw [abs_lt]; constructor <;> omega
      · omega
    have := Int.eq_zero_of_abs_lt_dvd h1 hlt
    omega
  ext
  · exact ex
  · exact ey

/-- C21 is false of the code for smaller regions: in a region of 2 columns and 27 rows starting at row -2
(which is what a filter of radius 2 gives for a 23 pixel high image), rows -2 and 18 use the same index. -/
theorem c21_refuted : ∃ (box : BBox2i) (p q : V2 Int), p ≠ q ∧ |p.x - q.x| < 128 ∧ |p.y - q.y| < 128 ∧
    (box.min.x ≤ p.x ∧ p.x < box.max.x ∧ box.min.y ≤ p.y ∧ p.y < box.max.y) ∧
    (box.min.x ≤ q.x ∧ q.x < box.max.x ∧ box.min.y ≤ q.y ∧ q.y < box.max.y) ∧
    Spec.sampleIndex (HaltonSampler.new 1 box) p 0 = Spec.sampleIndex (HaltonSampler.new 1 box) q 0 := by
  refine ⟨⟨⟨0, -2⟩, ⟨2, 25⟩⟩, ⟨0, -2⟩, ⟨0, 18⟩, by decide, by decide, by decide, by decide, by decide, ?_⟩
  have hs : HaltonSampler.new 1 ⟨⟨0, -2⟩, ⟨2, 25⟩⟩ = { samplesPerPixel := 1, currentPixel := ⟨0, 0⟩, currentPixelSampleIndex := 0, dimension := 0, intervalSampleIndex := 0, baseScale := ⟨2, 27⟩, baseExp := ⟨1, 3⟩, sampleStride := 54, pixelForOffset := ⟨0, 0⟩, offsetForCurrentPixel := 0, mulInverse := ⟨1, 13⟩ } := by
    have h0 : scaleLoop 2 2 1 0 = (2, 1) := by repeat (first | rfl | (rw [scaleLoop]; norm_num))
    have h1 : scaleLoop 3 27 1 0 = (27, 3) := by repeat (first | rfl | (rw [scaleLoop]; norm_num))
    have m0 : multiplicativeInverse 27 2 = 1 := by
      unfold multiplicativeInverse; rw [← egcdF_eq 3 27 2 (by norm_num)]; decide +kernel
    have m1 : multiplicativeInverse 2 27 = 13 := by
      unfold multiplicativeInverse; rw [← egcdF_eq 28 2 27 (by norm_num)]; decide +kernel
    have e0 : (imin (BBox2i.diagonal ⟨⟨0, -2⟩, ⟨2, 25⟩⟩).x kMaxResolution).toNat = 2 := by decide
    have e1 : (imin (BBox2i.diagonal ⟨⟨0, -2⟩, ⟨2, 25⟩⟩).y kMaxResolution).toNat = 27 := by decide
    simp only [HaltonSampler.new, e0, e1, h0, h1, m0, m1]
    rfl
  rw [hs]
  decide +kernel

end PT
