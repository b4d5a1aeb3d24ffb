import Verif.Props.Expected
import Verif.Props.NoFireflies

/-!
# More samples, less noise (C111)

How far a pixel is from its expected value when the random numbers are independent and take finitely many values with equal probability, as those of a
generator of machine numbers do.
-/

namespace PT
open Spec

/-! ### Specification -/

namespace Spec
/-- The average of a function over a list of numbers. -/
noncomputable def average (vs : List ℝ) (f : ℝ → ℝ) : ℝ := (vs.map f).sum / vs.length

/-- The expected value of a result, when the numbers drawn are independent and each of the values `vs` is equally likely. -/
noncomputable def expected {β : Type} (vs : List ℝ) (value : β → ℝ) : Draw ℝ β → ℝ
  | .ret b => value b
  | .panic => 0
  | .get1 k => average vs fun x => expected vs value (k x)
  | .get2 k => average vs fun x => average vs fun y => expected vs value (k ⟨x, y⟩)

open Classical in
/-- The probability of an event. -/
noncomputable def chance {β : Type} (vs : List ℝ) (event : β → Prop) (d : Draw ℝ β) : ℝ := expected vs (fun b => if event b then 1 else 0) d

/-- Numbers in `[0, 1)`, at least one. -/
structure Values (vs : List ℝ) : Prop where
  some : vs ≠ []
  canonical : ∀ v ∈ vs, Canonical v

/-- The expected picture: expected colour by expected weight of the pixel, with one sample in each of the pixels `ps`. -/
noncomputable def expectedPixel (vs : List ℝ) (filt : Filter ℝ) (radiance : V2 ℝ → Draw ℝ (Spectrum ℝ)) (ps : List (V2 Int)) (x y : Int) (c : Chan) : ℝ :=
  expected vs (fun l => c.of (Spec.pixel filt (usables l) x y).color) (samplesInAll radiance 1 ps) /
    expected vs (fun l => (Spec.pixel filt (usables l) x y).weight) (samplesInAll radiance 1 ps)
end Spec

/-! ### Expected values -/

section
variable {vs : List ℝ}

theorem average_congr {f g : ℝ → ℝ} (h : ∀ v ∈ vs, f v = g v) : average vs f = average vs g := by
  unfold average; rw [List.map_congr_left h]

theorem average_add (f g : ℝ → ℝ) : average vs (fun v => f v + g v) = average vs f + average vs g := by
  unfold average; rw [List.sum_map_add, add_div]

theorem average_mul (a : ℝ) (f : ℝ → ℝ) : average vs (fun v => a * f v) = a * average vs f := by
  unfold average; rw [List.sum_map_mul_left, mul_div_assoc]

theorem average_const (h : vs ≠ []) (a : ℝ) : average vs (fun _ => a) = a := by
  unfold average
  have : (vs.length : ℝ) ≠ 0 := by simpa using h
  rw [List.map_const', List.sum_replicate, nsmul_eq_mul]
  field_simp

theorem average_mono {f g : ℝ → ℝ} (h : ∀ v ∈ vs, f v ≤ g v) : average vs f ≤ average vs g := by
  unfold average
  exact div_le_div_of_nonneg_right (List.sum_le_sum h) (Nat.cast_nonneg _)

variable {β γ δ : Type}

theorem expected_bind (g : γ → ℝ) (f : β → Draw ℝ γ) (d : Draw ℝ β) : expected vs g (d.bind f) = expected vs (fun b => expected vs g (f b)) d := by
  induction d with
  | ret b => rfl
  | panic => rfl
  | get1 k ih => exact average_congr fun v _ => ih v
  | get2 k ih => exact average_congr fun v _ => average_congr fun w _ => ih ⟨v, w⟩

theorem expected_add (f g : β → ℝ) (d : Draw ℝ β) : expected vs (fun b => f b + g b) d = expected vs f d + expected vs g d := by
  induction d with
  | ret b => rfl
  | panic => simp [expected]
  | get1 k ih => simp only [expected, ih, average_add]
  | get2 k ih => simp only [expected, ih, average_add]

theorem expected_mul (a : ℝ) (f : β → ℝ) (d : Draw ℝ β) : expected vs (fun b => a * f b) d = a * expected vs f d := by
  induction d with
  | ret b => rfl
  | panic => simp [expected]
  | get1 k ih => simp only [expected, ih, average_mul]
  | get2 k ih => simp only [expected, ih, average_mul]

variable (hv : Values vs) {Q : β → Prop}
include hv

theorem expected_const (a : ℝ) (d : Draw ℝ β) (hd : d.Total Q) : expected vs (fun _ => a) d = a := by
  induction d with
  | ret b => rfl
  | panic => exact hd.elim
  | get1 k ih =>
    rw [expected, average_congr fun v m => ih v (hd v (hv.canonical v m)), average_const hv.some]
  | get2 k ih =>
    rw [expected, average_congr fun v m => (average_congr fun w n => ih ⟨v, w⟩ (hd ⟨v, w⟩ (hv.canonical v m) (hv.canonical w n))).trans
      (average_const hv.some a), average_const hv.some]

theorem expected_mono {f g : β → ℝ} (h : ∀ b, Q b → f b ≤ g b) (d : Draw ℝ β) (hd : d.Total Q) : expected vs f d ≤ expected vs g d := by
  induction d with
  | ret b => exact h b hd
  | panic => exact hd.elim
  | get1 k ih => exact average_mono fun v m => ih v (hd v (hv.canonical v m))
  | get2 k ih => exact average_mono fun v m => average_mono fun w n => ih ⟨v, w⟩ (hd ⟨v, w⟩ (hv.canonical v m) (hv.canonical w n))

theorem expected_congr {f g : β → ℝ} (h : ∀ b, Q b → f b = g b) (d : Draw ℝ β) (hd : d.Total Q) : expected vs f d = expected vs g d :=
  le_antisymm (expected_mono hv (fun b hb => (h b hb).le) d hd) (expected_mono hv (fun b hb => (h b hb).ge) d hd)

/-- Two independent parts of a result: the expected values add up, and so do the expected squares if one part is zero on average. -/
theorem expected_pair {R : γ → Prop} {d : Draw ℝ β} {e : Draw ℝ γ} (hd : d.Total Q) (he : e.Total R) {A : β → ℝ} {B : γ → ℝ} {h : β → γ → δ} {S : δ → ℝ}
    (hS : ∀ a b, S (h a b) = A a + B b) :
    expected vs S (d.bind fun a => e.bind fun b => .ret (h a b)) = expected vs A d + expected vs B e ∧
    (expected vs B e = 0 →
      expected vs (fun s => S s ^ 2) (d.bind fun a => e.bind fun b => .ret (h a b)) = expected vs (fun a => A a ^ 2) d + expected vs (fun b => B b ^ 2) e) := by
  simp only [expected_bind, expected, hS]
  constructor
  · have : ∀ a, expected vs (fun b => A a + B b) e = A a + expected vs B e := by
      intro a
      rw [expected_add, expected_const hv _ _ he]
    simp only [this]
    rw [expected_add, expected_const hv _ _ hd]
  · intro h0
    have : ∀ a, expected vs (fun b => (A a + B b) ^ 2) e = A a ^ 2 + expected vs (fun b => B b ^ 2) e := by
      intro a
      have e1 : (fun b => (A a + B b) ^ 2) = fun b => A a ^ 2 + (2 * A a * B b + B b ^ 2) := by funext b; ring
      rw [e1, expected_add, expected_const hv _ _ he, expected_add, expected_mul, h0, mul_zero, zero_add]
    simp only [this]
    rw [expected_add, expected_const hv _ _ hd]

variable {radiance : V2 ℝ → Draw ℝ (Spectrum ℝ)} {Q : V2 ℝ × Spectrum ℝ → Prop} (F : V2 ℝ × Spectrum ℝ → ℝ)

/-- Mean and variance of one sample. -/
noncomputable def sampleMean (vs : List ℝ) (radiance : V2 ℝ → Draw ℝ (Spectrum ℝ)) (F : V2 ℝ × Spectrum ℝ → ℝ) (p : V2 Int) : ℝ :=
  expected vs F (oneSample radiance p)
noncomputable def sampleVar (vs : List ℝ) (radiance : V2 ℝ → Draw ℝ (Spectrum ℝ)) (F : V2 ℝ × Spectrum ℝ → ℝ) (p : V2 Int) : ℝ :=
  expected vs (fun q => (F q - sampleMean vs radiance F p) ^ 2) (oneSample radiance p)

theorem samplesIn_moments {p : V2 Int} (h : (oneSample radiance p).Total Q) : ∀ n : Nat,
    expected vs (fun l => (l.map F).sum) (samplesIn radiance p n) = n * sampleMean vs radiance F p ∧
    expected vs (fun l => ((l.map F).sum - n * sampleMean vs radiance F p) ^ 2) (samplesIn radiance p n) = n * sampleVar vs radiance F p
  | 0 => by simp [samplesIn, expected]
  | n + 1 => by
    obtain ⟨i1, i2⟩ := samplesIn_moments h n
    have hT := samplesIn_total h n
    set m := sampleMean vs radiance F p
    have j1 : expected vs (fun l => (l.map F).sum - n * m) (samplesIn radiance p n) = 0 := by
      have : (fun l : List (V2 ℝ × Spectrum ℝ) => (l.map F).sum - n * m) = fun l => (l.map F).sum + -(n * m) := by funext l; ring
      rw [this, expected_add, expected_const hv _ _ hT, i1]; ring
    obtain ⟨a1, -⟩ := expected_pair hv h hT (A := F) (B := fun l => (l.map F).sum) (h := fun q l => q :: l) (S := fun l => (l.map F).sum)
      (fun q l => by simp)
    obtain ⟨-, a2⟩ := expected_pair hv h hT (A := fun q => F q - m) (B := fun l => (l.map F).sum - n * m) (h := fun q l => q :: l)
      (S := fun l => (l.map F).sum - (n + 1 : Nat) * m) (fun q l => by simp only [List.map_cons, List.sum_cons]; push_cast; ring)
    constructor
    · rw [samplesIn, a1, i1]; push_cast; simp only [m, sampleMean]; ring
    · rw [samplesIn, a2 j1, i2]; push_cast; simp only [sampleVar, m]; ring

theorem samplesInAll_moments (h : ∀ p, (oneSample radiance p).Total Q) (n : Nat) : ∀ ps : List (V2 Int),
    expected vs (fun l => (l.map F).sum) (samplesInAll radiance n ps) = n * (ps.map (sampleMean vs radiance F)).sum ∧
    expected vs (fun l => ((l.map F).sum - n * (ps.map (sampleMean vs radiance F)).sum) ^ 2) (samplesInAll radiance n ps) =
      n * (ps.map (sampleVar vs radiance F)).sum
  | [] => by simp [samplesInAll, expected]
  | p :: ps => by
    obtain ⟨i1, i2⟩ := samplesInAll_moments h n ps
    obtain ⟨k1, k2⟩ := samplesIn_moments hv F (h p) n
    have hT := samplesIn_total (h p) n
    have hTA := samplesInAll_total h n ps
    set m := (ps.map (sampleMean vs radiance F)).sum
    have j1 : expected vs (fun l => (l.map F).sum - n * m) (samplesInAll radiance n ps) = 0 := by
      have : (fun l : List (V2 ℝ × Spectrum ℝ) => (l.map F).sum - n * m) = fun l => (l.map F).sum + -(n * m) := by funext l; ring
      rw [this, expected_add, expected_const hv _ _ hTA, i1]; ring
    obtain ⟨a1, -⟩ := expected_pair hv hT hTA (A := fun l => (l.map F).sum) (B := fun l => (l.map F).sum) (h := fun l m => l ++ m) (S := fun l => (l.map F).sum)
      (fun q l => by simp)
    obtain ⟨-, a2⟩ := expected_pair hv hT hTA (A := fun l => (l.map F).sum - n * sampleMean vs radiance F p) (B := fun l => (l.map F).sum - n * m)
      (h := fun l m => l ++ m) (S := fun l => (l.map F).sum - n * (sampleMean vs radiance F p + m))
      (fun q l => by simp only [List.map_append, List.sum_append]; ring)
    simp only [List.map_cons, List.sum_cons]
    constructor
    · rw [samplesInAll, a1, i1, k1]; ring
    · rw [samplesInAll, a2 j1, i2, k2]; ring

omit hv in
theorem oneSample_pos {R : Spectrum ℝ → Prop} (hrad : ∀ pos, (radiance pos).Total R) (p : V2 Int) :
    (oneSample radiance p).Total fun q => (((p.x : ℝ) ≤ q.1.x ∧ q.1.x < (p.x : ℝ) + 1) ∧ (p.y : ℝ) ≤ q.1.y ∧ q.1.y < (p.y : ℝ) + 1) ∧ R q.2 := by
  intro u hx hy
  refine Total.bind (Q := R) (fun l hl => ?_) _ (hrad _)
  have : (V2.ofI p).add u = (⟨p.x + u.x, p.y + u.y⟩ : V2 ℝ) := by simp [V2.ofI, V2.add, r_add, r_ofInt]
  obtain ⟨x1, x2⟩ := hx
  obtain ⟨y1, y2⟩ := hy
  rw [this]
  exact ⟨⟨⟨by simpa using x1, by simpa using x2⟩, by simpa using y1, by simpa using y2⟩, hl⟩

omit hv in
theorem Total.mono {β : Type} {Q R : β → Prop} (h : ∀ b, Q b → R b) {d : Draw ℝ β} (hd : d.Total Q) : d.Total R := by
  induction d with
  | ret b => exact h b hd
  | panic => exact hd
  | get1 k ih => exact fun x hx => ih x (hd x hx)
  | get2 k ih => exact fun x hx hy => ih x (hd x hx hy)

omit hv in
theorem Total.and {β : Type} {Q R : β → Prop} {d : Draw ℝ β} (h1 : d.Total Q) (h2 : d.Total R) : d.Total fun b => Q b ∧ R b := by
  induction d with
  | ret b => exact ⟨h1, h2⟩
  | panic => exact h1
  | get1 k ih => exact fun x hx => ih x (h1 x hx) (h2 x hx)
  | get2 k ih => exact fun x hx hy => ih x (h1 x hx hy) (h2 x hx hy)

omit hv in
/-- A list of samples has at least the weight that its samples have. -/
theorem samplesIn_atLeast {G : V2 ℝ × Spectrum ℝ → ℝ} {w : ℝ} {p : V2 Int} (h : (oneSample radiance p).Total fun q => w ≤ G q) : ∀ n : Nat,
    (samplesIn radiance p n).Total fun l => n * w ≤ (l.map G).sum
  | 0 => by simp [samplesIn, Draw.Total]
  | n + 1 => Total.bind (fun q hq => Total.bind (fun l hl => by
      simp only [Draw.Total, List.map_cons, List.sum_cons]; push_cast; linarith) _ (samplesIn_atLeast h n)) _ h

omit hv in
theorem samplesInAll_atLeast {G : V2 ℝ × Spectrum ℝ → ℝ} {w : V2 Int → ℝ} (h : ∀ p, (oneSample radiance p).Total fun q => w p ≤ G q) (n : Nat) :
    ∀ ps, (samplesInAll radiance n ps).Total fun l => n * (ps.map w).sum ≤ (l.map G).sum
  | [] => by simp [samplesInAll, Draw.Total]
  | p :: ps => Total.bind (fun l hl => Total.bind (fun m hm => by
      simp only [Draw.Total, List.map_cons, List.sum_cons, List.map_append, List.sum_append] at *; linarith) _ (samplesInAll_atLeast h n ps)) _ (samplesIn_atLeast (h p) n)

/-- The variance is at most the mean square. -/
theorem sampleVar_le {p : V2 Int} (h : (oneSample radiance p).Total Q) {b : ℝ} (hb : ∀ q, Q q → F q ^ 2 ≤ b) : sampleVar vs radiance F p ≤ b := by
  unfold sampleVar
  set m := sampleMean vs radiance F p with hm
  have e : (fun q => (F q - m) ^ 2) = fun q => F q ^ 2 + (-2 * m * F q + m ^ 2) := by funext q; ring
  rw [e, expected_add, expected_add, expected_mul, expected_const hv _ _ h]
  have : expected vs F (oneSample radiance p) = m := rfl
  rw [this]
  have h2 := (expected_mono hv hb _ h).trans (expected_const hv b _ h).le
  nlinarith [sq_nonneg m]

theorem sampleVar_zero {p : V2 Int} (h : (oneSample radiance p).Total Q) (hb : ∀ q, Q q → F q = 0) : sampleVar vs radiance F p ≤ 0 :=
  sampleVar_le hv F h (b := 0) fun q hq => by rw [hb q hq]; norm_num
end

/-! ### Pixels -/

section
variable {vs : List ℝ} (hv : Values vs) {radiance : V2 ℝ → Draw ℝ (Spectrum ℝ)} (filt : Filter ℝ)

open Classical in
/-- What a sample adds to the weight and to a colour channel of the pixel. -/
noncomputable def shareOf (filt : Filter ℝ) (x y : Int) (q : V2 ℝ × Spectrum ℝ) : ℝ := if Spec.Within filt.radius q.1 x y then Spec.weight filt q.1 x y else 0

theorem pixel_shares {l : List (V2 ℝ × Spectrum ℝ)} (hl : ∀ q ∈ l, Usable q.2) (x y : Int) (c : Chan) :
    (Spec.pixel filt (usables l) x y).weight = (l.map (shareOf filt x y)).sum ∧
    c.of (Spec.pixel filt (usables l) x y).color = (l.map fun q => shareOf filt x y q * c.of q.2).sum := by
  rw [usables_all hl]
  refine ⟨rfl, ?_⟩
  rw [pixel_chan, Spec.colorSum]
  refine congrArg List.sum (List.map_congr_left fun q _ => ?_)
  unfold shareOf
  split_ifs <;> ring

/-- The pixels whose samples can reach a pixel are few. -/
theorem near_few {ps : List (V2 Int)} (hnd : ps.Nodup) (x y R : Int) (hR : 0 ≤ R) {C : ℝ} (hC : 0 ≤ C) {v : V2 Int → ℝ}
    (h1 : ∀ p ∈ ps, v p ≤ C) (h2 : ∀ p ∈ ps, ¬ (|p.x - x| ≤ R ∧ |p.y - y| ≤ R) → v p ≤ 0) : (ps.map v).sum ≤ (2 * R + 1 : ℝ) ^ 2 * C := by
  classical
  have e : ∀ ps : List (V2 Int), (∀ p ∈ ps, v p ≤ C) → (∀ p ∈ ps, ¬ (|p.x - x| ≤ R ∧ |p.y - y| ≤ R) → v p ≤ 0) →
      (ps.map v).sum ≤ (ps.filter fun p => decide (|p.x - x| ≤ R ∧ |p.y - y| ≤ R)).length * C := by
    intro ps
    induction ps with
    | nil => intro _ _; simp
    | cons p ps ih =>
      intro h1 h2
      have := ih (fun q hq => h1 q (List.mem_cons_of_mem _ hq)) fun q hq => h2 q (List.mem_cons_of_mem _ hq)
      have a1 := h1 p (List.mem_cons_self ..)
      have a2 := h2 p (List.mem_cons_self ..)
      by_cases hp : |p.x - x| ≤ R ∧ |p.y - y| ≤ R
      · rw [List.filter_cons_of_pos (by simpa using hp)]
        simp only [List.map_cons, List.sum_cons, List.length_cons]
        push_cast
        linarith
      · rw [List.filter_cons_of_neg (by simpa using hp)]
        simp only [List.map_cons, List.sum_cons]
        linarith [a2 hp]
  refine (e ps h1 h2).trans (mul_le_mul_of_nonneg_right ?_ hC)
  set near := ps.filter fun p => decide (|p.x - x| ≤ R ∧ |p.y - y| ≤ R)
  have hn : (near.map fun p => (p.x, p.y)).Nodup := by
    refine (hnd.filter _).map fun p q h => ?_
    cases p; cases q
    simpa using h
  have hsub : (near.map fun p => (p.x, p.y)).toFinset ⊆ Finset.Icc (x - R) (x + R) ×ˢ Finset.Icc (y - R) (y + R) := by
    intro q hq
    simp only [near, List.mem_toFinset, List.mem_map, List.mem_filter, decide_eq_true_eq] at hq
    obtain ⟨p, ⟨-, h1, h2⟩, rfl⟩ := hq
    rw [abs_le] at h1 h2
    simp only [Finset.mem_product, Finset.mem_Icc]
    omega
  have hc := Finset.card_le_card hsub
  rw [List.toFinset_card_of_nodup hn, List.length_map, Finset.card_product, Int.card_Icc, Int.card_Icc] at hc
  have : ((near.length : Int) : ℝ) ≤ (((2 * R + 1) ^ 2 : Int) : ℝ) := by
    refine Int.cast_le.2 ?_
    have e1 : ((x + R + 1 - (x - R)).toNat : Int) = 2 * R + 1 := by omega
    have e2 : ((y + R + 1 - (y - R)).toNat : Int) = 2 * R + 1 := by omega
    calc (near.length : Int) ≤ (((x + R + 1 - (x - R)).toNat * (y + R + 1 - (y - R)).toNat : Nat) : Int) := by exact_mod_cast hc
      _ = (2 * R + 1) ^ 2 := by push_cast [e1, e2]; ring
  push_cast at this
  exact this

include hv

/-- C111, the noise of one pixel: with independent numbers the expected colour and weight that a pixel gets grow in proportion to the number of
samples, and so do their variances.  The noise, relative to the value, falls with the square root of the number of samples. -/
theorem c111_variance (hrad : ∀ pFilm, (radiance pFilm).Total Usable) (n : Nat) (ps : List (V2 Int)) (x y : Int) :
    let colour := fun (c : Chan) (l : List (V2 ℝ × Spectrum ℝ)) => c.of (Spec.pixel filt (usables l) x y).color
    let weight := fun (l : List (V2 ℝ × Spectrum ℝ)) => (Spec.pixel filt (usables l) x y).weight
    let mean := fun (value : List (V2 ℝ × Spectrum ℝ) → ℝ) (n : Nat) => expected vs value (samplesInAll radiance n ps)
    let variance := fun (value : List (V2 ℝ × Spectrum ℝ) → ℝ) (n : Nat) => expected vs (fun l => (value l - mean value n) ^ 2) (samplesInAll radiance n ps)
    (∀ c, mean (colour c) n = n * mean (colour c) 1 ∧ variance (colour c) n = n * variance (colour c) 1) ∧
    mean weight n = n * mean weight 1 ∧ variance weight n = n * variance weight 1 := by
  intro colour weight mean variance
  have hT := oneSample_total hrad
  have key : ∀ (value : List (V2 ℝ × Spectrum ℝ) → ℝ) (F : V2 ℝ × Spectrum ℝ → ℝ), (∀ l, (∀ q ∈ l, Usable q.2) → value l = (l.map F).sum) →
      mean value n = n * mean value 1 ∧ variance value n = n * variance value 1 := by
    intro value F h
    have m : ∀ k, mean value k = k * (ps.map (sampleMean vs radiance F)).sum := fun k =>
      (expected_congr hv h _ (samplesInAll_total hT k ps)).trans (samplesInAll_moments hv F hT k ps).1
    have v : ∀ k, variance value k = k * (ps.map (sampleVar vs radiance F)).sum := fun k => by
      refine (expected_congr hv (fun l hl => ?_) _ (samplesInAll_total hT k ps)).trans (samplesInAll_moments hv F hT k ps).2
      rw [h l hl, m k]
    rw [m n, m 1, v n, v 1]
    push_cast
    exact ⟨by ring, by ring⟩
  exact ⟨fun c => key _ _ fun l hl => (pixel_shares filt hl x y c).2, key _ _ fun l hl => (pixel_shares filt hl x y .r).1⟩

/-- C111, convergence: light between zero and `B` in every channel, a filter with values between zero and `w₁`, at least `w₀` for the samples of the
pixel itself.  The expected value is between zero and `B` too, and the probability that a channel of the pixel is off its expected value by `ε` or more is at most a constant divided by the number of samples
per pixel and by the square of `ε`. -/
theorem c111_converges {B w₀ w₁ : ℝ} (hw₀ : 0 < w₀) (hB : 0 ≤ B) (hrad : ∀ pFilm, (radiance pFilm).Total fun l => ∀ c : Chan, 0 ≤ c.of l ∧ c.of l ≤ B)
    (hr : 0 < filt.radius) (x y : Int) (hpos : ∀ p, 0 ≤ filt.evaluate p) (hle : ∀ pos, Spec.weight filt pos x y ≤ w₁)
    (hge : ∀ pos : V2 ℝ, (x : ℝ) ≤ pos.x → pos.x < (x : ℝ) + 1 → (y : ℝ) ≤ pos.y → pos.y < (y : ℝ) + 1 → Spec.Within filt.radius pos x y ∧ w₀ ≤ Spec.weight filt pos x y)
    {ps : List (V2 Int)} (hnd : ps.Nodup) (hmem : ⟨x, y⟩ ∈ ps) (c : Chan) {ε : ℝ} (hε : 0 < ε) (n : Nat) (hn : 1 ≤ n) :
    (0 ≤ expectedPixel vs filt radiance ps x y c ∧ expectedPixel vs filt radiance ps x y c ≤ B) ∧ chance vs (fun l => ε ≤ |c.of (Spec.pixel filt (usables l) x y).color / (Spec.pixel filt (usables l) x y).weight - expectedPixel vs filt radiance ps x y c|)
      (samplesInAll radiance n ps) ≤ (2 * ⌊filt.radius + 1 / 2⌋ + 1) ^ 2 * (w₁ / w₀) ^ 2 * B ^ 2 / (n * ε ^ 2) := by
  have hrad' : ∀ pFilm, (radiance pFilm).Total Usable := fun p => Total.mono (fun l h => ⟨(h .r).1, (h .g).1, (h .b).1⟩) (hrad p)
  have hP := oneSample_pos hrad
  have hT : ∀ p, (oneSample radiance p).Total fun q => ∀ c : Chan, 0 ≤ c.of q.2 ∧ c.of q.2 ≤ B := fun p => Total.mono (fun q h => h.2) (hP p)
  have hU : ∀ q : V2 ℝ × Spectrum ℝ, (∀ c : Chan, 0 ≤ c.of q.2 ∧ c.of q.2 ≤ B) → Usable q.2 := fun q h => ⟨(h .r).1, (h .g).1, (h .b).1⟩
  have hw₁ : 0 ≤ w₁ := (hpos _).trans (hle ⟨0, 0⟩)
  have hs0 : ∀ q, 0 ≤ shareOf filt x y q := by
    intro q; unfold shareOf; split_ifs; exacts [hpos _, le_rfl]
  have hs1 : ∀ q, shareOf filt x y q ≤ w₁ := by
    intro q; unfold shareOf; split_ifs; exacts [hle _, hw₁]
  set L := expectedPixel vs filt radiance ps x y c with hL
  set X : V2 ℝ × Spectrum ℝ → ℝ := fun q => shareOf filt x y q * (c.of q.2 - L) with hX
  have hsum : ∀ l : List (V2 ℝ × Spectrum ℝ), (l.map X).sum = (l.map fun q => shareOf filt x y q * c.of q.2).sum + -L * (l.map (shareOf filt x y)).sum := by
    intro l
    rw [← List.sum_map_mul_left, ← List.sum_map_add]
    refine congrArg List.sum (List.map_congr_left fun q _ => ?_)
    simp only [hX]; ring
  -- the weight
  classical
  have hwt : ∀ k : Nat, (samplesInAll radiance k ps).Total fun l => k * w₀ ≤ (l.map (shareOf filt x y)).sum := by
    intro k
    refine Total.mono (fun l h => ?_) (samplesInAll_atLeast (G := shareOf filt x y) (w := fun p => if p = ⟨x, y⟩ then w₀ else 0) (fun p => Total.mono (fun q hq => ?_) (hP p)) k ps)
    · refine le_trans (mul_le_mul_of_nonneg_left ?_ (Nat.cast_nonneg k)) h
      refine List.single_le_sum ?_ w₀ ?_
      · intro v hv
        obtain ⟨p, -, rfl⟩ := List.mem_map.1 hv
        split_ifs
        exacts [hw₀.le, le_rfl]
      · exact List.mem_map.2 ⟨_, hmem, if_pos rfl⟩
    · split_ifs with h
      · subst h
        obtain ⟨⟨⟨a1, a2⟩, a3, a4⟩, -⟩ := hq
        obtain ⟨b1, b2⟩ := hge q.1 a1 a2 a3 a4
        unfold shareOf
        rw [if_pos b1]
        exact b2
      · exact hs0 q
  have hTA : ∀ k : Nat, (samplesInAll radiance k ps).Total fun l => (k * w₀ ≤ (l.map (shareOf filt x y)).sum) ∧ ∀ q ∈ l, ∀ c : Chan, 0 ≤ c.of q.2 ∧ c.of q.2 ≤ B :=
    fun k => Total.and (hwt k) (samplesInAll_total hT k ps)
  -- the expected value
  set E := expected vs (fun l => (l.map (shareOf filt x y)).sum) (samplesInAll radiance 1 ps) with hE
  set C := expected vs (fun l => (l.map fun q => shareOf filt x y q * c.of q.2).sum) (samplesInAll radiance 1 ps) with hC
  have hLE : L = C / E := by
    rw [hL, expectedPixel]
    congr 1
    · exact expected_congr hv (fun l hl => (pixel_shares filt (fun q hq => hU q (hl.2 q hq)) x y c).2) _ (hTA 1)
    · exact expected_congr hv (fun l hl => (pixel_shares filt (fun q hq => hU q (hl.2 q hq)) x y c).1) _ (hTA 1)
  have hE0 : 0 < E := by
    refine hw₀.trans_le ?_
    rw [← expected_const hv w₀ _ (hTA 1)]
    exact expected_mono hv (fun l hl => by simpa using hl.1) _ (hTA 1)
  have hC0 : 0 ≤ C := by
    rw [← expected_const hv 0 _ (hTA 1)]
    refine expected_mono hv (fun l hl => List.sum_nonneg fun v hv => ?_) _ (hTA 1)
    obtain ⟨q, hq, rfl⟩ := List.mem_map.1 hv
    exact mul_nonneg (hs0 q) (hl.2 q hq c).1
  have hC1 : C ≤ B * E := by
    rw [hE, ← expected_mul]
    refine expected_mono hv (fun l hl => ?_) _ (hTA 1)
    rw [← List.sum_map_mul_left]
    refine List.sum_le_sum fun q hq => ?_
    rw [mul_comm B]
    exact mul_le_mul_of_nonneg_left (hl.2 q hq c).2 (hs0 q)
  have hL0 : 0 ≤ L := by rw [hLE]; exact div_nonneg hC0 hE0.le
  have hL1 : L ≤ B := by rw [hLE, div_le_iff₀ hE0]; exact hC1
  -- the deviations
  have hm : (ps.map (sampleMean vs radiance X)).sum = 0 := by
    have h1 := (samplesInAll_moments hv X hT 1 ps).1
    rw [funext hsum, expected_add, expected_mul, ← hE, ← hC] at h1
    push_cast at h1
    rw [one_mul] at h1
    rw [← h1, hLE]
    field_simp
    ring
  have hvar := (samplesInAll_moments hv X hT n ps).2
  rw [hm] at hvar
  simp only [mul_zero, sub_zero] at hvar
  have hX2 : ∀ q : V2 ℝ × Spectrum ℝ, (∀ c : Chan, 0 ≤ c.of q.2 ∧ c.of q.2 ≤ B) → X q ^ 2 ≤ (w₁ * B) ^ 2 := by
    intro q hq
    obtain ⟨c1, c2⟩ := hq c
    have hd : |c.of q.2 - L| ≤ B := by rw [abs_le]; constructor <;> linarith
    rw [← sq_abs (X q)]
    refine pow_le_pow_left₀ (abs_nonneg _) ?_ 2
    rw [hX, abs_mul, abs_of_nonneg (hs0 q)]
    exact mul_le_mul (hs1 q) hd (abs_nonneg _) hw₁
  have hsumV : (ps.map (sampleVar vs radiance X)).sum ≤ (2 * (⌊filt.radius + 1 / 2⌋ : Int) + 1 : ℝ) ^ 2 * (w₁ * B) ^ 2 := by
    refine near_few hnd x y _ (Int.floor_nonneg.2 (by linarith)) (sq_nonneg _) (fun p _ => sampleVar_le hv X (hT p) hX2) fun p _ hfar => ?_
    refine sampleVar_zero hv X (hP p) fun q hq => ?_
    obtain ⟨⟨⟨a1, a2⟩, a3, a4⟩, -⟩ := hq
    have : ¬ Spec.Within filt.radius q.1 x y := by
      rintro ⟨b1, b2⟩
      rw [abs_le] at b1 b2
      refine hfar ⟨abs_le.2 ⟨?_, ?_⟩, abs_le.2 ⟨?_, ?_⟩⟩
      · have : x - p.x ≤ ⌊filt.radius + 1 / 2⌋ := by rw [Int.le_floor]; push_cast; linarith
        omega
      · rw [Int.le_floor]; push_cast; linarith
      · have : y - p.y ≤ ⌊filt.radius + 1 / 2⌋ := by rw [Int.le_floor]; push_cast; linarith
        omega
      · rw [Int.le_floor]; push_cast; linarith
    simp only [hX, shareOf, if_neg this, zero_mul]
  -- Chebyshev
  have hn0 : (0 : ℝ) < n := by exact_mod_cast hn
  have hD : 0 < ε * (n * w₀) := by positivity
  have hcheb : chance vs (fun l => ε ≤ |c.of (Spec.pixel filt (usables l) x y).color / (Spec.pixel filt (usables l) x y).weight - L|) (samplesInAll radiance n ps) ≤
      expected vs (fun l => 1 / (ε * (n * w₀)) ^ 2 * (l.map X).sum ^ 2) (samplesInAll radiance n ps) := by
    refine expected_mono hv (fun l hl => ?_) _ (hTA n)
    obtain ⟨e1, e2⟩ := pixel_shares filt (fun q hq => hU q (hl.2 q hq)) x y c
    split_ifs with h
    · beta_reduce at h
      rw [e1, e2] at h
      have hW : 0 < (l.map (shareOf filt x y)).sum := lt_of_lt_of_le (by positivity) hl.1
      have e : (l.map fun q => shareOf filt x y q * c.of q.2).sum / (l.map (shareOf filt x y)).sum - L = (l.map X).sum / (l.map (shareOf filt x y)).sum := by
        rw [hsum]; field_simp; ring
      rw [e, abs_div, abs_of_pos hW, le_div_iff₀ hW] at h
      have h2 : ε * (n * w₀) ≤ |(l.map X).sum| := (mul_le_mul_of_nonneg_left hl.1 hε.le).trans h
      rw [one_div, inv_mul_eq_div, le_div_iff₀ (by positivity), one_mul, ← sq_abs (l.map X).sum]
      exact pow_le_pow_left₀ hD.le h2 2
    · positivity
  refine ⟨⟨hL0, hL1⟩, hcheb.trans ?_⟩
  rw [expected_mul, hvar]
  have := mul_le_mul_of_nonneg_left hsumV hn0.le
  have h3 := mul_le_mul_of_nonneg_left this (by positivity : 0 ≤ 1 / (ε * (n * w₀)) ^ 2)
  refine h3.trans (le_of_eq ?_)
  field_simp
end

/-! ### The Gaussian filter and matt scenes -/

theorem cellCentre_mono {r d e : ℝ} (hr : 0 < r) (hd : 0 ≤ d) (h : d ≤ e) : 0 ≤ Spec.cellCentre r d ∧ Spec.cellCentre r d ≤ Spec.cellCentre r e := by
  unfold Spec.cellCentre
  have h0 : 0 ≤ ⌊16 * d / r⌋ := by rw [Int.le_floor]; push_cast; positivity
  have h1 : (0 : ℝ) ≤ (min ⌊16 * d / r⌋ 15 : Int) := by exact_mod_cast le_min h0 (by norm_num)
  have h2 : ((min ⌊16 * d / r⌋ 15 : Int) : ℝ) ≤ (min ⌊16 * e / r⌋ 15 : Int) := by
    refine Int.cast_le.2 (min_le_min_right _ (Int.floor_mono ?_))
    gcongr
  exact ⟨by positivity, by gcongr⟩

/-- The greatest and the smallest weight the Gaussian filter gives to a pixel's own samples, up to the cells of the weight table. -/
theorem gaussian_weights {radius alpha : ℝ} (hr : 1 / 2 ≤ radius) (ha : 0 < alpha) (x y : Int) :
    let filt := (GaussianFilter.new radius alpha).toFilter
    let edge := Spec.cellCentre radius (1 / 2)
    0 < filt.evaluate ⟨edge, edge⟩ ∧ (∀ pos, Spec.weight filt pos x y ≤ filt.evaluate ⟨0, 0⟩) ∧
    ∀ pos : V2 ℝ, (x : ℝ) ≤ pos.x → pos.x < (x : ℝ) + 1 → (y : ℝ) ≤ pos.y → pos.y < (y : ℝ) + 1 →
      Spec.Within filt.radius pos x y ∧ filt.evaluate ⟨edge, edge⟩ ≤ Spec.weight filt pos x y := by
  intro filt edge
  have hr0 : 0 < radius := by linarith
  obtain ⟨-, -, -, f4, f5⟩ := c14_gaussian radius alpha ha.le hr0.le
  have he := cellCentre_lt hr0 (by norm_num : (0 : ℝ) ≤ 1 / 2)
  refine ⟨f4 _ _ ha he he, fun pos => f5 _ _ _ _ (by simp) (by simp), fun pos a1 a2 a3 a4 => ?_⟩
  have b1 : |(x : ℝ) + 1 / 2 - pos.x| ≤ 1 / 2 := by rw [abs_le]; constructor <;> linarith
  have b2 : |(y : ℝ) + 1 / 2 - pos.y| ≤ 1 / 2 := by rw [abs_le]; constructor <;> linarith
  refine ⟨⟨b1.trans hr, b2.trans hr⟩, ?_⟩
  have key : ∀ d : ℝ, 0 ≤ d → d ≤ 1 / 2 → |Spec.cellCentre radius d| ≤ |edge| := by
    intro d h0 h1
    obtain ⟨c1, c2⟩ := cellCentre_mono hr0 h0 h1
    rw [abs_of_nonneg c1, abs_of_nonneg (c1.trans c2)]
    exact c2
  exact f5 _ _ _ _ (key _ (abs_nonneg _) b1) (key _ (abs_nonneg _) b2)

section
variable [HasInf ℝ] [HasNext ℝ]

theorem matt_library {ρ M : ℝ} {c : BuilderCall ℝ} (h : MattSceneCall ρ M c) : LibraryCall c := by
  have mat : ∀ m : Material ℝ, Matt ρ m → LibraryMaterial m := by
    rintro m ⟨kd, rfl, -⟩
    exact .lambertian _
  cases h with
  | distant => exact .distant _ _ _
  | sphere _ s _ h => exact .sphere _ s (mat _ h)
  | triangle _ t _ h => exact .triangle _ t (mat _ h)
  | area _ _ t _ _ h => exact .area _ _ t (mat _ h)

/-- In a matt scene every run of the radiance program succeeds, and no channel is negative or above 14 times `brightest`. -/
theorem matt_total {ρ M : ℝ} (h0 : 0 ≤ ρ) (hρ : ρ ≤ 1) (hM : 0 ≤ M) (hinf : (0 : ℝ) ≤ HasInf.infinity)
    (hist : List (BuilderCall ℝ)) (hlib : ∀ c ∈ hist, MattSceneCall ρ M c)
    {mk : List (Obj ℝ) → Option (Container ℝ)} (hmk : LibraryContainer mk) {scene : Scene ℝ} (hsc : (built hist).construct mk = some scene)
    (camera : PerspectiveCamera ℝ) (pFilm : V2 ℝ) (hd : (camera.generateRay pFilm).direction ≠ V3.zero) :
    (cameraRadiance scene camera pFilm).Total fun l => ∀ c : Chan, 0 ≤ c.of l ∧ c.of l ≤ 14 * brightest ρ M scene.lights.length := by
  obtain ⟨h1, h2⟩ := matt_world hM hist hlib hmk hsc
  have hs : SceneAnswers scene (fun x : ℝ => 0 ≤ x ∧ x < 1) (fun _ => False) :=
    library_scene_answers (fun b wo u hb h1 _ => bsdf_real_never_panics b wo u h1.1 h1.2 hb) hist (fun c hc => matt_library (hlib c hc))
      (library_shapes_answer (fun d _ h => by obtain ⟨m, hm, -⟩ := maxAbsAxis_real d; rw [hm] at h; cases h) hist (fun c hc => matt_library (hlib c hc))) hmk hsc
  have hz : ∀ c : Chan, 0 ≤ c.of (Spectrum.zero : Spectrum ℝ) := fun c => by rw [Chan.of_zero]
  have hone : ∀ c : Chan, 0 ≤ c.of (Spectrum.of (lit 1) : Spectrum ℝ) := fun c => by rw [Chan.of_one]; norm_num
  have hy0 : (Spectrum.zero : Spectrum ℝ).y ≤ 0 := by rw [lum_eq]; simp only [Spectrum.zero]; real_ops; norm_num
  have hy1 : (Spectrum.of (lit 1) : Spectrum ℝ).y ≤ 1 := by rw [lum_eq]; simp only [Spectrum.of]; real_ops; norm_num
  have := total_of_safe (liLoop_safe hs _ 0 _ _ _ _ rfl) (liLoop_matt h0 hρ hM hinf h1 h2 65 0 (camera.generateRay pFilm) _ _ false 0 1 rfl hd rfl le_rfl hz hone hy0 hy1)
  refine Total.mono (fun l hl c => ⟨hl.1 c, (chan_le_lum ⟨hl.1 .r, hl.1 .g, hl.1 .b⟩ c).trans ?_⟩) this
  refine mul_le_mul_of_nonneg_left (hl.2.trans (le_of_eq ?_)) (by norm_num)
  rw [if_pos rfl, brightest]
  ring

/-- C111: a scene of matt spheres, matt triangles, shining triangles and distant lights, the Gaussian filter, the random sampler and one thread, in exact arithmetic.  For
every number of samples per pixel there is one computation whose result the finished picture shows, for every generator.  When the numbers it draws are independent and
uniform on a list of values, every channel of every pixel has an expected value, the same for all numbers of samples, and the probability of missing it by `ε` or more is
at most a constant divided by the number of samples and by `ε²`. -/
theorem c111_matt_world {ρ M : ℝ} (h0 : 0 ≤ ρ) (hρ : ρ ≤ 1) (hM : 0 ≤ M) (hinf : (0 : ℝ) ≤ HasInf.infinity)
    (hist : List (BuilderCall ℝ)) (hlib : ∀ c ∈ hist, MattSceneCall ρ M c)
    {mk : List (Obj ℝ) → Option (Container ℝ)} (hmk : LibraryContainer mk) {scene : Scene ℝ} (hsc : (built hist).construct mk = some scene)
    (camera : PerspectiveCamera ℝ) (hcam : ∀ p, (camera.generateRay p).direction ≠ V3.zero)
    (res : V2 Int) (radius alpha : ℝ) (hR : FilmRange res radius) (hr : 1 / 2 ≤ radius) (ha : 0 < alpha) :
    let filt := (GaussianFilter.new radius alpha).toFilter
    let film := Film.new res filt
    let edge := Spec.cellCentre radius (1 / 2)
    ∃ render : Nat → Draw ℝ (List (V2 ℝ × Spectrum ℝ)),
      (∀ (spp : Nat) (_ : spp < 2 ^ 32) {ρ : Type} (next : ρ → ℝ × ρ) (_ : ∀ g, Canonical (next g).1) (rng : ρ) (file : Option (List UInt8)) (k : Nat)
        (st : RState ℝ (RandomSampler ρ)),
        RReach (fun s b => renderTile (RandomSampler.ops next) (cameraRadiance scene camera) film s b) (RandomSampler.new spp rng) (RState.init film 1 file) k st →
        st.main = .done →
        ∃ l g, feed next (render spp) rng = some (l, g) ∧ ∀ x y, Spec.InImage res x y → st.sh.film.px x y = Spec.pixel filt l x y) ∧
      ∀ vs, Values vs → ∀ x y, Spec.InImage res x y → ∀ c : Chan, ∃ light, (0 ≤ light ∧ light ≤ 14 * brightest ρ M scene.lights.length) ∧
        ∀ (spp : Nat) (ε : ℝ), 0 < ε →
          chance vs (fun l => ε ≤ |c.of (Spec.pixel filt l x y).color / (Spec.pixel filt l x y).weight - light|) (render spp) ≤
            (2 * ⌊radius + 1 / 2⌋ + 1) ^ 2 * (filt.evaluate ⟨0, 0⟩ / filt.evaluate ⟨edge, edge⟩) ^ 2 * (14 * brightest ρ M scene.lights.length) ^ 2 /
              ((max 1 spp : Nat) * ε ^ 2) := by
  intro filt film edge
  obtain ⟨ps, p1, p2, p3⟩ := c104_one_stream res filt hR
  have hT : ∀ p, (cameraRadiance scene camera p).Total fun l => ∀ c : Chan, 0 ≤ c.of l ∧ c.of l ≤ 14 * brightest ρ M scene.lights.length :=
    fun p => matt_total h0 hρ hM hinf hist hlib hmk hsc camera p (hcam p)
  have hB : 0 ≤ 14 * brightest ρ M scene.lights.length := by
    unfold brightest
    have : 0 ≤ ∑ j ∈ Finset.range 65, growth ρ ^ j := Finset.sum_nonneg fun j _ => by
      have := one_le_growth ρ
      positivity
    positivity
  obtain ⟨f1, -⟩ := c14_gaussian radius alpha ha.le hR.rpos.le
  refine ⟨fun spp => (samplesInAll (cameraRadiance scene camera) (max 1 spp) ps).bind fun l => .ret (usables l), ?_, fun vs hvs x y hi c => ?_⟩
  · intro spp hspp ρ next hnext rng file k st hr hd
    obtain ⟨l, g, e1, e2⟩ := p3 next hnext (cameraRadiance scene camera) (RandomSampler.new spp rng) hspp file k st hr hd
    refine ⟨usables l, g, ?_, e2⟩
    rw [feed_bind]
    have : feed next (samplesInAll (cameraRadiance scene camera) (max 1 spp) ps) rng = some (l, g) := e1
    rw [this]; rfl
  · obtain ⟨g1, g2, g3⟩ := gaussian_weights hr ha x y
    have hmem : (⟨x, y⟩ : V2 Int) ∈ ps := by
      rw [p2]
      obtain ⟨a1, a2, a3, a4⟩ := hi
      have b1 : ⌊1 / 2 - radius⌋ ≤ 0 := by
        have : ⌊1 / 2 - radius⌋ < 1 := by rw [Int.floor_lt]; push_cast; linarith
        omega
      have b2 : ∀ m : Int, m ≤ ⌈(m : ℝ) - 1 / 2 + radius⌉ := by
        intro m
        have := Int.ceil_mono (show (m : ℝ) ≤ (m : ℝ) - 1 / 2 + radius by linarith)
        rwa [Int.ceil_intCast] at this
      have b3 := b2 res.x
      have b4 := b2 res.y
      refine ⟨⟨?_, ?_⟩, ?_, ?_⟩
      · exact b1.trans a1
      · exact a2.trans_le b3
      · exact b1.trans a3
      · exact a4.trans_le b4
    have key := fun (n : Nat) (hn : 1 ≤ n) (ε : ℝ) (hε : 0 < ε) => c111_converges hvs filt g1 hB hT hR.rpos x y f1 g2 g3 p1 hmem c hε n hn
    refine ⟨expectedPixel vs filt (cameraRadiance scene camera) ps x y c, (key 1 le_rfl 1 one_pos).1, fun spp ε hε => ?_⟩
    refine le_trans (le_of_eq ?_) (key (max 1 spp) (le_max_left _ _) ε hε).2
    unfold chance
    rw [expected_bind]
    rfl

/-- The numbers of a generator of multiples of 2⁻²⁴. -/
theorem dyadic_values : Values ((List.range (2 ^ 24)).map fun k : Nat => (k : ℝ) / 2 ^ 24) := by
  refine ⟨by simp, fun v hv => ?_⟩
  obtain ⟨k, hk, rfl⟩ := List.mem_map.1 hv
  have hk' : (k : ℝ) < 2 ^ 24 := by exact_mod_cast List.mem_range.1 hk
  exact ⟨by positivity, by rw [div_lt_one (by positivity)]; exact hk'⟩

/-- A matt ball on a matt floor under a shining triangle and a distant light, 640×480 pixels, numbers that are multiples of 2⁻²⁴: such pictures can be completed, and for
every pixel and every channel there are a number and a constant so that the probability of missing the number by `ε` or more is at most the constant divided by `n ε²`
after `n` samples per pixel. -/
example (hinf : (0 : ℝ) ≤ HasInf.infinity) : ∃ (scene : Scene ℝ) (camera : PerspectiveCamera ℝ),
    let filt := (GaussianFilter.new (2 : ℝ) 2).toFilter
    let film := Film.new ⟨640, 480⟩ filt
    scene.lights.length = 2 ∧ ∃ render : Nat → Draw ℝ (List (V2 ℝ × Spectrum ℝ)),
    (∀ (next : Nat → ℝ × Nat) (_ : ∀ g, Canonical (next g).1) (rng spp : Nat), spp < 2 ^ 32 → ∃ k st l g,
      RReach (fun s b => renderTile (RandomSampler.ops next) (cameraRadiance scene camera) film s b) (RandomSampler.new spp rng) (RState.init film 1 none) k st ∧
      st.main = .done ∧ feed next (render spp) rng = some (l, g) ∧ ∀ x y, Spec.InImage ⟨640, 480⟩ x y → st.sh.film.px x y = Spec.pixel filt l x y) ∧
    ∀ x y, Spec.InImage ⟨640, 480⟩ x y → ∀ c : Chan, ∃ light K, ∀ (spp : Nat) (ε : ℝ), 0 < ε →
      chance ((List.range (2 ^ 24)).map fun k : Nat => (k : ℝ) / 2 ^ 24)
        (fun l => ε ≤ |c.of (Spec.pixel filt l x y).color / (Spec.pixel filt l x y).weight - light|) (render spp) ≤ K / ((max 1 spp : Nat) * ε ^ 2) := by
  let grey : Material ℝ := lambertianMaterial fun _ => ⟨1 / 2, 1 / 2, 1 / 2⟩
  let ball : Sphere ℝ := ⟨⟨0, 0, 0⟩, 1, grey⟩
  let floor : Triangle ℝ := ⟨⟨-9, -1, -9⟩, ⟨9, -1, -9⟩, ⟨0, -1, 9⟩, none, false, grey⟩
  let lamp : Triangle ℝ := ⟨⟨0, 5, 0⟩, ⟨1, 5, 0⟩, ⟨0, 5, 1⟩, none, true, grey⟩
  let hist : List (BuilderCall ℝ) := [.light 0 fun box => ((DistantLight.new ⟨3, 2, 1⟩ ⟨0, 1, 1⟩).preProcess box).toLight, .shape 1 ball.toShape,
    .shape 2 floor.toShape, .area 3 ⟨⟨20, 20, 10⟩, lamp.toShape⟩]
  have hgrey : Matt (1 / 2) grey := ⟨_, rfl, fun _ => ⟨le_rfl, le_rfl, le_rfl⟩⟩
  have hl : ∀ c ∈ hist, MattSceneCall (1 / 2) 20 c := by
    intro c hc
    simp only [hist, List.mem_cons, List.not_mem_nil, or_false] at hc
    rcases hc with rfl | rfl | rfl | rfl
    · exact .distant _ _ _ (by norm_num [Within3, NonNeg])
    · exact .sphere _ ball (by norm_num [ball]) hgrey
    · exact .triangle _ floor rfl hgrey
    · exact .area _ _ lamp (by norm_num [Within3, NonNeg]) rfl hgrey
  have hR : FilmRange ⟨640, 480⟩ 2 := by constructor <;> norm_num
  obtain ⟨camera, hcam⟩ : ∃ camera : PerspectiveCamera ℝ, ∀ p, (camera.generateRay p).direction ≠ V3.zero := by
    refine ⟨PerspectiveCamera.new (Transform.lookAt ⟨0, 0, -5⟩ ⟨0, 0, 0⟩ ⟨0, 1, 0⟩) (Transform.perspective 90 (1 / 100) 1000) ⟨-1, -1⟩ ⟨1, 1⟩
      ⟨640, 480⟩, fun p => unit_ne_zero ?_⟩
    refine (c52_camera_ray ?_ (by norm_num) (by norm_num) ?_ (by norm_num) (by norm_num) (by norm_num) (by norm_num) p).2.2.1
    · intro e
      have := congrArg V3.x e
      norm_num [vprod, V3.sub, r_sub] at this
    · refine (Real.tan_pos_of_pos_of_lt_pi_div_two ?_ ?_).ne' <;> simp only [degrees] <;> nlinarith [Real.pi_pos]
  obtain ⟨scene, hsc⟩ : ∃ scene, (built hist).construct (fun ss => (Simple.new ss).map Simple.toContainer) = some scene := ⟨_, rfl⟩
  have hlen : scene.lights.length = 2 := by
    obtain ⟨box, -, h, -⟩ := c65_construct hist (fun ss => (Simple.new ss).map Simple.toContainer)
    rw [(h scene hsc).1]
    rfl
  obtain ⟨render, r1, r2⟩ := c111_matt_world (by norm_num) (by norm_num) (by norm_num) hinf _ hl .simple hsc _ hcam ⟨640, 480⟩ 2 2 hR (by norm_num) (by norm_num)
  refine ⟨scene, camera, hlen, render, fun next hnext rng spp hspp => ?_, fun x y hi c => ?_⟩
  · obtain ⟨k, st, hr, hd⟩ := (c76_library_real_random _ (fun c hc => matt_library (hl c hc)) .simple hsc _ ⟨640, 480⟩ (GaussianFilter.new (2 : ℝ) 2).toFilter hR next hnext
      (RandomSampler.new spp rng) hspp 1 none).2
    obtain ⟨l, g, e1, e2⟩ := r1 spp hspp next hnext rng none k st hr hd
    exact ⟨k, st, l, g, hr, hd, e1, e2⟩
  · obtain ⟨light, -, h⟩ := r2 _ dyadic_values x y hi c
    exact ⟨light, _, h⟩
end

end PT
