import Verif.Props.ScheduleDemo
import Verif.Props.OutputF32

/-!
# Two renders of one scene differ by at most one in every number of the file (C98, in part)
-/

namespace PT
open Fl

/-- The sRGB curve does not change much when its argument changes by a small factor. -/
theorem srgb_close {V v : ℝ} (hV0 : 0 ≤ V) (hV1 : V ≤ 1) (hv1 : v ≤ 1) (hv : |v - V| ≤ 1 / 2 ^ 18 * V) : |Spec.srgb v - Spec.srgb V| ≤ 2 / 10 ^ 5 := by
  obtain ⟨v1, v2⟩ := abs_le.1 hv
  have v0 : 0 ≤ v := by norm_num at v1; linarith
  unfold Spec.srgb
  by_cases hv' : v ≤ 0.0031308
  · rw [if_pos hv']
    split_ifs with hV
    · rw [abs_le]; constructor <;> (norm_num at *; linarith)
    · obtain ⟨p1, p2⟩ := srgb_switch (v := V) (by linarith) (by norm_num at *; linarith)
      rw [abs_le]; constructor <;> (norm_num at *; linarith)
  · rw [if_neg hv']
    split_ifs with hV
    · obtain ⟨p1, p2⟩ := srgb_switch (v := v) (by norm_num at *; linarith) (by norm_num at *; linarith)
      rw [abs_le]; constructor <;> (norm_num at *; linarith)
    · have hrel := rpow_rel (a := V) (b := v) (d := 1 / 2 ^ 18) (p := 1 / 2.4) (by linarith) (by norm_num) (by norm_num) (by norm_num) (by norm_num) hv
      have hVp : V ^ (1 / 2.4 : ℝ) ≤ 1 := Real.rpow_le_one hV0 hV1 (by norm_num)
      have hVp0 : 0 ≤ V ^ (1 / 2.4 : ℝ) := Real.rpow_nonneg hV0 _
      obtain ⟨r1, r2⟩ := abs_le.1 hrel
      generalize V ^ (1 / 2.4 : ℝ) = X at *
      generalize v ^ (1 / 2.4 : ℝ) = Y at *
      rw [abs_le]; constructor <;> (norm_num at *; linarith)

/-- Sums with small relative errors give a quotient with a small relative error. -/
theorem quotient_close {c w C W : ℝ} (hC : 0 ≤ C) (hW : 0 < W) (c1 : C * (1 - 1 / 2 ^ 24) ^ 4 ≤ c) (c2 : c ≤ C * (1 + 1 / 2 ^ 24) ^ 4)
    (w1 : W * (1 - 1 / 2 ^ 24) ^ 4 ≤ w) (w2 : w ≤ W * (1 + 1 / 2 ^ 24) ^ 4) : |c / w - C / W| ≤ 1 / 2 ^ 18 * (C / W) := by
  have w0 : 0 < w := lt_of_lt_of_le (mul_pos hW (by norm_num)) w1
  have e : C = C / W * W := by field_simp
  have hq : 0 ≤ C / W := div_nonneg hC hW.le
  generalize C / W = q at *
  subst e
  have k1 : q * W * (1 + 1 / 2 ^ 24) ^ 4 ≤ q * (1 + 1 / 2 ^ 18) * (W * (1 - 1 / 2 ^ 24) ^ 4) := by
    have := mul_nonneg hq hW.le
    nlinarith
  have k2 : q * (1 - 1 / 2 ^ 18) * (W * (1 + 1 / 2 ^ 24) ^ 4) ≤ q * W * (1 - 1 / 2 ^ 24) ^ 4 := by
    have := mul_nonneg hq hW.le
    nlinarith
  have u : c / w ≤ q * (1 + 1 / 2 ^ 18) := by
    rw [div_le_iff₀ w0]
    exact c2.trans (k1.trans (mul_le_mul_of_nonneg_left w1 (mul_nonneg hq (by norm_num))))
  have l : q * (1 - 1 / 2 ^ 18) ≤ c / w := by
    rw [le_div_iff₀ w0]
    exact (mul_le_mul_of_nonneg_left w2 (mul_nonneg hq (by norm_num))).trans (k2.trans c1)
  rw [abs_le]; constructor <;> linarith

/-- The byte written for sums that are nearly exact. -/
theorem byte_close [Libm F32] (hp : Spec.PowfAccurate) (hm : Spec.PowfMonotone) {c w : F32} (nc : Num c) (nw : Num w) {C W : ℚ} (hC : 0 ≤ C) (hW : 0 < W)
    (c1 : C * (1 - 1 / 2 ^ 24) ^ 4 ≤ c.val) (c2 : c.val ≤ C * (1 + 1 / 2 ^ 24) ^ 4)
    (w1 : W * (1 - 1 / 2 ^ 24) ^ 4 ≤ w.val) (w2 : w.val ≤ W * (1 + 1 / 2 ^ 24) ^ 4) :
    -0.02 ≤ (channelByte c w : ℝ) - 255 * Spec.srgb (min 1 ((C : ℝ) / W)) ∧ (channelByte c w : ℝ) - 255 * Spec.srgb (min 1 ((C : ℝ) / W)) ≤ 1.02 := by
  have w0 : 0 < w.val := lt_of_lt_of_le (mul_pos hW (by norm_num)) w1
  have c0 : 0 ≤ c.val := le_trans (mul_nonneg hC (by norm_num)) c1
  have hC' : (0 : ℝ) ≤ C := by exact_mod_cast hC
  have hW' : (0 : ℝ) < W := by exact_mod_cast hW
  have w0' : (0 : ℝ) < w.val := by exact_mod_cast w0
  have c0' : (0 : ℝ) ≤ c.val := by exact_mod_cast c0
  have q : |(c.val : ℝ) / w.val - (C : ℝ) / W| ≤ 1 / 2 ^ 18 * ((C : ℝ) / W) :=
    quotient_close hC' hW' (by have := (Rat.cast_le (K := ℝ)).2 c1; push_cast at this; exact this) (by have := (Rat.cast_le (K := ℝ)).2 c2; push_cast at this; exact this)
      (by have := (Rat.cast_le (K := ℝ)).2 w1; push_cast at this; exact this) (by have := (Rat.cast_le (K := ℝ)).2 w2; push_cast at this; exact this)
  have V0 : 0 ≤ (C : ℝ) / W := div_nonneg hC' hW'.le
  obtain ⟨q1, q2⟩ := abs_le.1 q
  have hs : |Spec.srgb (min 1 ((c.val : ℝ) / w.val)) - Spec.srgb (min 1 ((C : ℝ) / W))| ≤ 2 / 10 ^ 5 := by
    refine srgb_close (le_min zero_le_one V0) (min_le_left _ _) (min_le_left _ _) ?_
    rcases le_total 1 ((C : ℝ) / W) with h1 | h1 <;> rcases le_total 1 ((c.val : ℝ) / w.val) with h2 | h2
    · rw [min_eq_left h1, min_eq_left h2]; norm_num
    · rw [min_eq_left h1, min_eq_right h2, abs_le]; constructor <;> (norm_num at *; linarith)
    · rw [min_eq_right h1, min_eq_left h2, abs_le]; constructor <;> (norm_num at *; linarith)
    · rw [min_eq_right h1, min_eq_right h2]; exact q
  obtain ⟨s1, s2⟩ := abs_le.1 hs
  obtain ⟨b1, b2⟩ := c10_f32_partial hp c w nc nw w0 c0
  rcases le_total c.val w.val with h | h
  · have h' : (c.val : ℝ) / w.val ≤ 1 := (div_le_one w0').2 (by exact_mod_cast h)
    obtain ⟨b3, b4⟩ := b1 h
    rw [min_eq_right h'] at s1 s2
    constructor <;> (norm_num at *; linarith)
  · have h' : 1 ≤ (c.val : ℝ) / w.val := (one_le_div w0').2 (by exact_mod_cast h)
    rw [b2 hm h]
    rw [min_eq_left h', show Spec.srgb 1 = 1 by norm_num [Spec.srgb]] at s1 s2
    push_cast
    constructor <;> (norm_num at *; linarith)

namespace Spec
/-- What the tiles have of one of the four numbers of a pixel, added up exactly. -/
noncomputable def tileSum (film : Film F32) (radiance : V2 F32 → Draw F32 (Spectrum F32)) (spp : Nat) (x y : Int) (c : Entry) : ℚ :=
  ((tilesAt film x y).map fun b => (c.of ((tileOf film radiance spp b).px x y)).val).sum

/-- The pixel has ordinary contents in all tiles: finite, not negative, with a positive total weight and no overflow. -/
structure Ordinary (film : Film F32) (radiance : V2 F32 → Draw F32 (Spectrum F32)) (spp : Nat) (x y : Int) : Prop where
  parts : ∀ c : Entry, ∀ b ∈ tilesAt film x y, (c.of ((tileOf film radiance spp b).px x y)).IsFin ∧ 0 ≤ (c.of ((tileOf film radiance spp b).px x y)).val
  small : ∀ c : Entry, tileSum film radiance spp x y c ≤ 2 ^ 125
  weight : 0 < tileSum film radiance spp x y .weight

/-- The number written for one of the colours of a pixel. -/
def written [Libm F32] (film : Film F32) (x y : Int) (c : Entry) : Nat := channelByte (c.of (film.px x y)) (film.px x y).weight
end Spec

open Sched in
/-- C98, in part: in any render, whatever the number of threads and the schedule, each number written for an ordinary pixel is at most 1.02 above and 0.02 below 255
times the gamma-corrected colour computed exactly from what the tiles have there. -/
theorem c98_written_partial [Libm F32] (hp : Spec.PowfAccurate) (hm : Spec.PowfMonotone) (res : V2 Int) (filt : Filter F32) (hR : FilmRange32 res filt.radius)
    (h7 : filt.radius.val ≤ 7) (radiance : V2 F32 → Draw F32 (Spectrum F32)) (spp n : Nat) (file : Option (List UInt8)) (st : RState F32 HaltonSampler)
    (h : Spec.Rendered (Film.new res filt) radiance spp n file st) (x y : Int) (hi : Spec.InImage res x y)
    (ho : Spec.Ordinary (Film.new res filt) radiance spp x y) (c : Spec.Entry) :
    let want := 255 * Spec.srgb (min 1 ((Spec.tileSum (Film.new res filt) radiance spp x y c : ℝ) / Spec.tileSum (Film.new res filt) radiance spp x y .weight))
    want - 0.02 ≤ (Spec.written st.sh.film x y c : ℝ) ∧ (Spec.written st.sh.film x y c : ℝ) ≤ want + 1.02 := by
  intro want
  have four := c98_four_tiles res filt hR h7 x y
  have one := fun c => c98_close_partial res filt hR radiance spp n file st h x y hi c (ho.parts c) four (ho.small c)
  have nonneg : ∀ c, 0 ≤ Spec.tileSum (Film.new res filt) radiance spp x y c := by
    intro c
    apply List.sum_nonneg
    intro q hq
    obtain ⟨b, hb, rfl⟩ := List.mem_map.1 hq
    exact (ho.parts c b hb).2
  have wf : ∀ c : Spec.Entry, (c.of (st.sh.film.px x y)).WF := by
    intro c
    obtain ⟨o, -, e⟩ := (rendered_pixel res (Int.mul_nonneg hR.x0.le hR.y0.le) hR.area filt (tilesFit_f32 res filt hR) radiance spp n file st h).2.2 x y hi
    rw [e, entry_fold, entry_zero]
    have : ∀ (l : List F32) (a : F32), a.WF → (l.foldl (fun p q => p +. q) a).WF := by
      intro l
      induction l with
      | nil => intro a ha; exact ha
      | cons b l ih => intro a _; exact ih _ (Fl.add_WF _ _)
    exact this _ _ (Fl.lit_WF 0)
  obtain ⟨cf, c1, c2⟩ := one c
  obtain ⟨wfin, w1, w2⟩ := one .weight
  obtain ⟨k1, k2⟩ := byte_close hp hm ⟨wf c, cf⟩ ⟨wf .weight, wfin⟩ (nonneg c) ho.weight c1 c2 w1 w2
  exact ⟨by rw [sub_le_iff_le_add, ← sub_le_iff_le_add']; linarith [show want - (Spec.written st.sh.film x y c : ℝ) ≤ 0.02 from by rw [neg_le_sub_iff_le_add] at k1; exact sub_le_iff_le_add'.2 k1], sub_le_iff_le_add'.1 k2⟩

/-- C98, in part: two renders, with any numbers of threads and any schedules, differ by at most one in every number written for an ordinary pixel. -/
theorem c98_off_by_one_partial [Libm F32] (hp : Spec.PowfAccurate) (hm : Spec.PowfMonotone) (res : V2 Int) (filt : Filter F32) (hR : FilmRange32 res filt.radius)
    (h7 : filt.radius.val ≤ 7) (radiance : V2 F32 → Draw F32 (Spectrum F32)) (spp n n' : Nat) (file file' : Option (List UInt8)) (st st' : RState F32 HaltonSampler)
    (h : Spec.Rendered (Film.new res filt) radiance spp n file st) (h' : Spec.Rendered (Film.new res filt) radiance spp n' file' st')
    (x y : Int) (hi : Spec.InImage res x y) (ho : Spec.Ordinary (Film.new res filt) radiance spp x y) (c : Spec.Entry) :
    Spec.written st.sh.film x y c ≤ Spec.written st'.sh.film x y c + 1 := by
  obtain ⟨-, a⟩ := c98_written_partial hp hm res filt hR h7 radiance spp n file st h x y hi ho c
  obtain ⟨b, -⟩ := c98_written_partial hp hm res filt hR h7 radiance spp n' file' st' h' x y hi ho c
  have : (Spec.written st.sh.film x y c : ℝ) < ((Spec.written st'.sh.film x y c + 2 : ℕ) : ℝ) := by
    push_cast
    norm_num at a b ⊢
    linarith
  have : Spec.written st.sh.film x y c < Spec.written st'.sh.film x y c + 2 := by exact_mod_cast this
  omega

open Sched in
/-- C98, in part: if all pixels are ordinary, the image files of any two renders into new files have the same size and differ by at most one in every number. -/
theorem c98_files_off_by_one_partial [Libm F32] (hp : Spec.PowfAccurate) (hm : Spec.PowfMonotone) (res : V2 Int) (filt : Filter F32) (hR : FilmRange32 res filt.radius)
    (h7 : filt.radius.val ≤ 7) (radiance : V2 F32 → Draw F32 (Spectrum F32)) (spp n n' : Nat) (st st' : RState F32 HaltonSampler)
    (h : Spec.Rendered (Film.new res filt) radiance spp n none st) (h' : Spec.Rendered (Film.new res filt) radiance spp n' none st')
    (ho : ∀ x y, Spec.InImage res x y → Spec.Ordinary (Film.new res filt) radiance spp x y) :
    ∃ (text text' : String) (px px' : List (Nat × Nat × Nat)),
      st.file = some text.toUTF8.toList ∧ Spec.IsPpm text res.x res.y px ∧
      st'.file = some text'.toUTF8.toList ∧ Spec.IsPpm text' res.x res.y px' ∧
      ∀ (k : Nat) (p p' : Nat × Nat × Nat), px[k]? = some p → px'[k]? = some p' →
        (p.1 ≤ p'.1 + 1 ∧ p'.1 ≤ p.1 + 1) ∧ (p.2.1 ≤ p'.2.1 + 1 ∧ p'.2.1 ≤ p.2.1 + 1) ∧ (p.2.2 ≤ p'.2.2 + 1 ∧ p'.2.2 ≤ p.2.2 + 1) := by
  have hpos : 0 ≤ res.x * res.y := Int.mul_nonneg hR.x0.le hR.y0.le
  have hfit := tilesFit_f32 res filt hR
  have out : ∀ (n : Nat) (st : RState F32 HaltonSampler), Spec.Rendered (Film.new res filt) radiance spp n none st →
      ∃ (text : String) (px : List (Nat × Nat × Nat)), st.file = some text.toUTF8.toList ∧ Spec.IsPpm text res.x res.y px ∧
      ∀ x y, Spec.InImage res x y → px[(y * res.x + x).toNat]? =
        some (Spec.written st.sh.film x y .r, Spec.written st.sh.film x y .g, Spec.written st.sh.film x y .b) := by
    intro n st h
    obtain ⟨inv, hfile, -⟩ := rendered_pixel res hpos hR.area filt hfit radiance spp n none st h
    obtain ⟨px, w, hb⟩ := c09_ppm_well_formed st.sh.film (by rw [inv.1]; exact hR.x0.le) (by rw [inv.1]; exact hR.y0.le) inv.2.2.2
    refine ⟨st.sh.film.writeImagePpm, px, ?_, ?_, ?_⟩
    · rw [hfile]
      unfold outputFile overwriteFile
      simp
    · rw [inv.1] at w; exact w
    · intro x y hi
      obtain ⟨q, hq, e⟩ := hb x y hi.1 (by rw [inv.1]; exact hi.2.1) hi.2.2.1 (by rw [inv.1]; exact hi.2.2.2)
      have h2 : st.sh.film.px x y = q := by unfold Film.px; rw [hq]; rfl
      rw [inv.1] at e
      rw [e]
      simp only [Spec.written, h2, Spec.Entry.of]
  obtain ⟨text, px, a1, a2, a3⟩ := out n st h
  obtain ⟨text', px', b1, b2, b3⟩ := out n' st' h'
  refine ⟨text, text', px, px', a1, a2, b1, b2, ?_⟩
  intro k p p' e e'
  have hk : k < px.length := by
    by_contra hc
    rw [List.getElem?_eq_none (by omega)] at e; cases e
  have hkr : (k : Int) < res.x * res.y := by have := a2.2.1; omega
  have rx := hR.x0
  have hx1 := Int.emod_nonneg (k : Int) rx.ne'
  have hx2 := Int.emod_lt_of_pos (k : Int) rx
  have hy1 : 0 ≤ (k : Int) / res.x := Int.ediv_nonneg (by omega) rx.le
  have hy2 : (k : Int) / res.x < res.y := Int.ediv_lt_of_lt_mul rx (by rw [mul_comm]; exact hkr)
  have hdm := Int.mul_ediv_add_emod (k : Int) res.x
  have hi : Spec.InImage res ((k : Int) % res.x) ((k : Int) / res.x) := ⟨hx1, hx2, hy1, hy2⟩
  have hidx : ((k : Int) / res.x * res.x + (k : Int) % res.x).toNat = k := by rw [mul_comm, hdm]; simp
  have ea := a3 _ _ hi
  have eb := b3 _ _ hi
  rw [hidx] at ea eb
  rw [ea] at e; rw [eb] at e'
  cases e; cases e'
  have key := fun c => c98_off_by_one_partial hp hm res filt hR h7 radiance spp n n' none none st st' h h' _ _ hi (ho _ _ hi) c
  have key' := fun c => c98_off_by_one_partial hp hm res filt hR h7 radiance spp n' n none none st' st h' h _ _ hi (ho _ _ hi) c
  exact ⟨⟨key .r, key' .r⟩, ⟨key .g, key' .g⟩, key .b, key' .b⟩

/-! ### A case: the scene of `c98_refuted_schedule` -/

namespace Sched

/-- Every pixel's own sample covers it. -/
theorem own_covered {q : V2 F32} {p : V2 Int} (hp : |p.x| ≤ 2 ^ 20 ∧ |p.y| ≤ 2 ^ 20)
    (hx : q.x.IsFin ∧ (p.x : ℚ) ≤ q.x.val ∧ q.x.val ≤ p.x + 1) (hy : q.y.IsFin ∧ (p.y : ℚ) ≤ q.y.val ∧ q.y.val ≤ p.y + 1) :
    Covers (lit 2 : F32) q p.x p.y := by
  have two : (lit 2 : F32).IsFin ∧ (lit 2 : F32).val = 2 := by
    have : (lit 2 : F32) = .fin false 2 := by decide +kernel
    rw [this]; exact ⟨trivial, by norm_num [Fl.val, Fl.sgn]⟩
  obtain ⟨hh, hhv⟩ := half_f32
  obtain ⟨k1, k2⟩ := Fl.neg_fin hh
  rw [hhv] at k2
  obtain ⟨m1, m2⟩ := Fl.neg_fin two.1
  rw [two.2] at m2
  have axis : ∀ (c : F32) (n : Int), |n| ≤ 2 ^ 20 → (c.IsFin ∧ (n : ℚ) ≤ c.val ∧ c.val ≤ n + 1) →
      toI32 (Scalar.ceil (c -. lit (1 / 2) -. lit 2)) ≤ n ∧ n < wrapI32 (toI32 (Scalar.floor (c -. lit (1 / 2) +. lit 2)) + 1) := by
    intro c n hn ⟨c1, c2, c3⟩
    obtain ⟨n1, n2⟩ := abs_le.1 hn
    have n1' : (-2 ^ 20 : ℚ) ≤ n := by exact_mod_cast n1
    have n2' : (n : ℚ) ≤ 2 ^ 20 := by exact_mod_cast n2
    obtain ⟨b1, b2, b3, b4, b5, b6, -⟩ := Fl.add_range c1 k1 (by rw [k2]; linarith) (by rw [k2]; linarith)
    have u0 : (n : ℚ) - 1 ≤ (Fl.add c (Fl.neg (lit (1 / 2)))).val := by
      have := b6 (n - 1) (abs_le.2 ⟨by omega, by omega⟩) (by rw [k2]; push_cast; linarith)
      push_cast at this; exact this
    have u1 : (Fl.add c (Fl.neg (lit (1 / 2)))).val ≤ (n : ℚ) + 1 := by
      have := b5 (n + 1) (abs_le.2 ⟨by omega, by omega⟩) (by rw [k2]; push_cast; linarith)
      push_cast at this; exact this
    obtain ⟨d1, d2, d3, d4, d5, d6, -⟩ := Fl.add_range b1 two.1 (by rw [two.2]; linarith) (by rw [two.2]; linarith)
    obtain ⟨f1, f2, f3, f4, f5, f6, -⟩ := Fl.add_range b1 m1 (by rw [m2]; linarith) (by rw [m2]; linarith)
    have v0 := d6 (n + 1) (abs_le.2 ⟨by omega, by omega⟩) (by rw [two.2]; push_cast; linarith)
    have v1 := d5 (n + 3) (abs_le.2 ⟨by omega, by omega⟩) (by rw [two.2]; push_cast; linarith)
    have w0 := f5 (n - 1) (abs_le.2 ⟨by omega, by omega⟩) (by rw [m2]; push_cast; linarith)
    change toI32 (Scalar.ceil (Fl.add (Fl.add c (Fl.neg (lit (1 / 2)))) (Fl.neg (lit 2)))) ≤ n ∧
      n < wrapI32 (toI32 (Scalar.floor (Fl.add (Fl.add c (Fl.neg (lit (1 / 2)))) (lit 2))) + 1)
    rw [Fl.floor_i32 d1 d2 d3 d4, Fl.ceil_i32 f1 f2 f3 f4]
    have g0 : n + 1 ≤ ⌊(Fl.add (Fl.add c (Fl.neg (lit (1 / 2)))) (lit 2)).val⌋ := by rw [Int.le_floor]; exact v0
    have g1 : ⌊(Fl.add (Fl.add c (Fl.neg (lit (1 / 2)))) (lit 2)).val⌋ ≤ n + 3 := by
      have := (Int.floor_le _).trans v1
      exact_mod_cast this
    have g2 : ⌈(Fl.add (Fl.add c (Fl.neg (lit (1 / 2)))) (Fl.neg (lit 2))).val⌉ ≤ n - 1 := by rw [Int.ceil_le]; exact w0
    rw [wrapI32_of_mem (by omega) (by omega)]
    omega
  obtain ⟨h1, h2⟩ := axis q.x p.x hp.1 hx
  obtain ⟨h3, h4⟩ := axis q.y p.y hp.2 hy
  exact ⟨h1, h2, h3, h4⟩

theorem own13 (x y : Int) (hi : Spec.InImage ⟨13, 13⟩ x y) : Covers (lit 2 : F32) (posOf start13 ⟨x, y⟩) x y := by
  obtain ⟨i1, i2, i3, i4⟩ := hi
  simp only at i2 i4
  have hp : |(⟨x, y⟩ : V2 Int).x| ≤ 2 ^ 20 ∧ |(⟨x, y⟩ : V2 Int).y| ≤ 2 ^ 20 := ⟨abs_le.2 ⟨by simp only; omega, by simp only; omega⟩, abs_le.2 ⟨by simp only; omega, by simp only; omega⟩⟩
  obtain ⟨s1, e, -⟩ := cam_run (α := F32) start13 ⟨x, y⟩
  obtain ⟨h1, h2⟩ := c25_camera_sample_f32_partial ⟨x, y⟩ (by have := hp.1; omega) (by have := hp.2; omega) _ _ _ e
  exact own_covered hp h1 h2

theorem first13 : (film13.getFilmTile ⟨⟨-2, -2⟩, ⟨14, 14⟩⟩).bbox = ⟨⟨0, 0⟩, ⟨13, 13⟩⟩ := by decide +kernel

theorem weight13_all (q : V2 F32) (x y : Int) : sampleWeight film13.filterRadius film13.filterTable q x y = (lit 1 : F32) := by
  unfold sampleWeight tableGet
  have e : film13.filterTable = List.replicate 16 (List.replicate 16 (lit 1)) := by decide +kernel
  rw [e, List.getElem?_replicate, if_pos (tableIndex_lt _ _ _), Option.getD_some, List.getElem?_replicate, if_pos (tableIndex_lt _ _ _)]
  rfl

theorem tile13_all (b : BBox2i) (hb : b ∈ film13.iter.toList) (x y : Int) (hin : InTile (film13.getFilmTile b) x y) :
    (Spec.tileOf film13 (fun _ => .ret Demo.dark) 1 b).px x y = after (b.iter.toList.countP (fun p => Covers (lit 2 : F32) (posOf start13 p) x y)) := by
  obtain ⟨t, s', e, h⟩ := tile_const Demo.dark valid13 film13 (mkFilterTable_ok _) b (fits13 b hb)
  have : Spec.tileOf film13 (fun _ => .ret Demo.dark) 1 b = t := by
    unfold Spec.tileOf; rw [e]; rfl
  rw [this, h x y hin, new13]
  simp only [weight13_all]
  rw [foldl_after, List.countP_eq_length_filter]
  rfl

theorem count13_le (b : BBox2i) (hb : b ∈ film13.iter.toList) (P : V2 Int → Bool) : b.iter.toList.countP P ≤ 256 := by
  refine List.countP_le_length.trans ?_
  rw [tiles13] at hb
  simp only [List.mem_cons, List.not_mem_nil, or_false] at hb
  rcases hb with rfl | rfl | rfl | rfl <;> (rw [BBox2i.toList_iter]; simp [row, intRange, Function.comp_def])

/-- A pixel after `n` samples has four finite numbers between 0 and `n`, and the weight `n`. -/
theorem after_ok : ∀ n : ℕ, n ≤ 256 → (∀ c : Spec.Entry, Num (c.of (after n)) ∧ 0 ≤ (c.of (after n)).val ∧ (c.of (after n)).val ≤ n) ∧ (after n).weight.val = n := by
  intro n
  induction n with
  | zero =>
    intro _
    have hz : ∀ c : Spec.Entry, Num (c.of (after 0)) ∧ (c.of (after 0)).val = 0 := by
      intro c
      have : c.of (after 0) = lit 0 := by cases c <;> rfl
      rw [this]; exact ⟨⟨Fl.lit_WF 0, zero_val.1⟩, zero_val.2⟩
    refine ⟨fun c => ⟨(hz c).1, (hz c).2.ge, by rw [(hz c).2]; simp⟩, ?_⟩
    have := (hz .weight).2
    simpa [Spec.Entry.of] using this
  | succ n ih =>
    intro hn
    obtain ⟨ih1, ih2⟩ := ih (by omega)
    have n1 : Num (lit 1 : F32) ∧ (lit 1 : F32).val = 1 := one_ok
    have d : Num ((lit (20858214 / 2 ^ 33) : F32) *. lit 1) ∧ ((lit (20858214 / 2 ^ 33) : F32) *. lit 1).val = 20858214 / 2 ^ 33 := by
      have e : (lit (20858214 / 2 ^ 33) : F32) *. lit 1 = .fin false (20858214 / 2 ^ 33) := by decide +kernel
      refine ⟨⟨Fl.mul_WF (Fl.lit_WF _) (Fl.lit_WF _), ?_⟩, ?_⟩
      · rw [e]; trivial
      · rw [e]; norm_num [Fl.val, Fl.sgn]
    have rep : Fl.Repr Binary32 ((n : ℚ) + 1) := by
      have := repr_int (n := (n : Int) + 1) (abs_le.2 ⟨by omega, by omega⟩)
      push_cast at this; exact this
    have nq : (0 : ℚ) ≤ n := by positivity
    have colour : ∀ c : Spec.Entry, c.of (after (n + 1)) = c.of (after n) +. ((lit (20858214 / 2 ^ 33) : F32) *. lit 1) →
        Num (c.of (after (n + 1))) ∧ 0 ≤ (c.of (after (n + 1))).val ∧ (c.of (after (n + 1))).val ≤ ((n + 1 : ℕ) : ℚ) := by
      intro c e
      obtain ⟨a1, a2, a3⟩ := ih1 c
      rw [e]
      have := add_stays a1 d.1 repr_zero rep (by rw [d.2]; linarith [show (0 : ℚ) ≤ 20858214 / 2 ^ 33 by norm_num])
        (by rw [d.2]; linarith [show (20858214 / 2 ^ 33 : ℚ) ≤ 1 by norm_num])
      push_cast; exact this
    have hw : (after (n + 1)).weight = (after n).weight +. lit 1 := rfl
    have w : Num (after (n + 1)).weight ∧ (n : ℚ) + 1 ≤ (after (n + 1)).weight.val ∧ (after (n + 1)).weight.val ≤ (n : ℚ) + 1 := by
      rw [hw]
      exact add_stays (ih1 .weight).1 n1.1 rep rep (by rw [n1.2]; exact (congrArg (· + 1) ih2).ge) (by rw [n1.2]; exact (congrArg (· + 1) ih2).le)
    refine ⟨?_, ?_⟩
    · intro c
      cases c with
      | r => exact colour .r rfl
      | g => exact colour .g rfl
      | b => exact colour .b rfl
      | weight => exact ⟨w.1, by have := w.2.1; simp only [Spec.Entry.of]; linarith, by have := w.2.2; simp only [Spec.Entry.of]; push_cast; linarith⟩
    · push_cast; exact le_antisymm w.2.2 w.2.1

theorem ordinary13 (x y : Int) (hi : Spec.InImage ⟨13, 13⟩ x y) : Spec.Ordinary film13 (fun _ => .ret Demo.dark) 1 x y := by
  have mem : ∀ b ∈ Spec.tilesAt film13 x y, b ∈ film13.iter.toList ∧ InTile (film13.getFilmTile b) x y := by
    intro b hb
    obtain ⟨h1, h2⟩ := List.mem_filter.1 hb
    exact ⟨h1, by simpa using h2⟩
  have bd : ∀ c : Spec.Entry, ∀ b ∈ Spec.tilesAt film13 x y, (c.of ((Spec.tileOf film13 (fun _ => .ret Demo.dark) 1 b).px x y)).IsFin ∧
      0 ≤ (c.of ((Spec.tileOf film13 (fun _ => .ret Demo.dark) 1 b).px x y)).val ∧ (c.of ((Spec.tileOf film13 (fun _ => .ret Demo.dark) 1 b).px x y)).val ≤ 256 := by
    intro c b hb
    obtain ⟨h1, h2⟩ := mem b hb
    rw [tile13_all b h1 x y h2]
    have hc := count13_le b h1 (fun p => Covers (lit 2 : F32) (posOf start13 p) x y)
    obtain ⟨a1, a2, a3⟩ := (after_ok _ hc).1 c
    exact ⟨a1.fin, a2, a3.trans (by exact_mod_cast hc)⟩
  have len : (Spec.tilesAt film13 x y).length ≤ 4 := by
    refine (List.length_filter_le _ _).trans ?_
    rw [tiles13]; rfl
  refine ⟨fun c b hb => ⟨(bd c b hb).1, (bd c b hb).2.1⟩, ?_, ?_⟩
  · intro c
    unfold Spec.tileSum
    have := List.sum_le_card_nsmul ((Spec.tilesAt film13 x y).map fun b => (c.of ((Spec.tileOf film13 (fun _ => .ret Demo.dark) 1 b).px x y)).val) 256 (by
      intro q hq
      obtain ⟨b, hb, rfl⟩ := List.mem_map.1 hq
      exact (bd c b hb).2.2)
    rw [List.length_map, nsmul_eq_mul] at this
    have l' : ((Spec.tilesAt film13 x y).length : ℚ) ≤ 4 := by exact_mod_cast len
    refine this.trans ?_
    have : ((Spec.tilesAt film13 x y).length : ℚ) * 256 ≤ 4 * 256 := mul_le_mul_of_nonneg_right l' (by norm_num)
    exact this.trans (by norm_num)
  · have h1 := own13 x y hi
    have h2 : InTile (film13.getFilmTile ⟨⟨-2, -2⟩, ⟨14, 14⟩⟩) x y := by
      unfold InTile; rw [first13]; exact hi
    have hb : (⟨⟨-2, -2⟩, ⟨14, 14⟩⟩ : BBox2i) ∈ film13.iter.toList := by rw [tiles13]; simp
    have hmem : (⟨⟨-2, -2⟩, ⟨14, 14⟩⟩ : BBox2i) ∈ Spec.tilesAt film13 x y := List.mem_filter.2 ⟨hb, by simpa using h2⟩
    have pos : 1 ≤ (⟨⟨-2, -2⟩, ⟨14, 14⟩⟩ : BBox2i).iter.toList.countP (fun p => Covers (lit 2 : F32) (posOf start13 p) x y) := by
      refine List.countP_pos_iff.2 ⟨⟨x, y⟩, (BBox2i.mem_toList _ _).2 ?_, by simpa using h1⟩
      have := hi.1; have := hi.2.1; have := hi.2.2.1; have := hi.2.2.2
      simp only at *
      omega
    have hc := count13_le _ hb (fun p => Covers (lit 2 : F32) (posOf start13 p) x y)
    unfold Spec.tileSum
    refine lt_of_lt_of_le ?_ (List.single_le_sum (fun q hq => ?_) _ (List.mem_map.2 ⟨_, hmem, rfl⟩))
    · rw [tile13_all _ hb x y h2]
      have := (after_ok _ hc).2
      simp only [Spec.Entry.of]
      rw [this]
      exact_mod_cast pos
    · obtain ⟨b, hb, rfl⟩ := List.mem_map.1 hq
      exact (bd .weight b hb).2.1
end Sched

/-- With a math library as assumed, all renders of this scene differ by at most one in every number, and some do. -/
example (n n' : Nat) (st st' : RState F32 HaltonSampler)
    (h : @Spec.Rendered F32 _ Demo.fineLibm (Film.new ⟨13, 13⟩ Demo.flatFilter) (fun _ => .ret Demo.dark) 1 n none st)
    (h' : @Spec.Rendered F32 _ Demo.fineLibm (Film.new ⟨13, 13⟩ Demo.flatFilter) (fun _ => .ret Demo.dark) 1 n' none st') :
    @Spec.written Demo.fineLibm st.sh.film 12 12 .r ≤ @Spec.written Demo.fineLibm st'.sh.film 12 12 .r + 1 := by
  have h7 : Demo.flatFilter.radius.val ≤ 7 := by
    have : Demo.flatFilter.radius = .fin false 2 := by decide +kernel
    rw [this]; norm_num [Fl.val, Fl.sgn]
  have hi : Spec.InImage ⟨13, 13⟩ 12 12 := ⟨by norm_num, by norm_num, by norm_num, by norm_num⟩
  exact @c98_off_by_one_partial Demo.fineLibm Demo.fine_accurate Demo.fine_monotone ⟨13, 13⟩ Demo.flatFilter Sched.range13 h7 _ 1 n n' none none st st' h h' 12 12 hi
    (Sched.ordinary13 12 12 hi) .r

example : ∀ x y, Spec.InImage ⟨13, 13⟩ x y → Spec.Ordinary (Film.new ⟨13, 13⟩ Demo.flatFilter) (fun _ => .ret Demo.dark) 1 x y := Sched.ordinary13
end PT
