import Verif.Props.Watertight
import Verif.Props.BoxF32
import Verif.Props.Container

/-!
# Things in front hide things behind: C94
-/

namespace PT
open Fl Triangle Spec

/-! ## Reported distances lie between the distances of the corners -/

theorem det_near {e0 e1 e2 d1 det : ℚ} (h0 : 0 ≤ e0) (h1 : 0 ≤ e1) (h2 : 0 ≤ e2) (hd1 : |d1 - (e0 + e1)| ≤ |e0 + e1| * ulpHalf)
    (hdet : |det - (d1 + e2)| ≤ |d1 + e2| * ulpHalf) :
    (e0 + e1 + e2) * (1 - 3 * ulpHalf) ≤ det ∧ det ≤ (e0 + e1 + e2) * (1 + 3 * ulpHalf) := by
  rw [abs_of_nonneg (by linarith : 0 ≤ e0 + e1), abs_le] at hd1
  have : 0 ≤ d1 := by simp only [ulpHalf] at hd1; linarith
  rw [abs_of_nonneg (by linarith : 0 ≤ d1 + e2), abs_le] at hdet
  simp only [ulpHalf] at *
  constructor <;> linarith

theorem ts_near {e0 e1 e2 z0 z1 z2 p0 p1 p2 s ts Z Z' : ℚ} (h0 : 0 ≤ e0) (h1 : 0 ≤ e1) (h2 : 0 ≤ e2) (hS : 1 / 2 ^ 106 ≤ e0 + e1 + e2)
    (a0 : Z ≤ z0) (a1 : Z ≤ z1) (a2 : Z ≤ z2) (b0 : z0 ≤ Z') (b1 : z1 ≤ Z') (b2 : z2 ≤ Z') (hZ : 1 / 2 ^ 20 ≤ Z)
    (k0 : |p0 - z0 * e0| ≤ |z0 * e0| * ulpHalf + tinyHalf) (k1 : |p1 - z1 * e1| ≤ |z1 * e1| * ulpHalf + tinyHalf)
    (k2 : |p2 - z2 * e2| ≤ |z2 * e2| * ulpHalf + tinyHalf) (hs : |s - (p0 + p1)| ≤ |p0 + p1| * ulpHalf)
    (hts : |ts - (s + p2)| ≤ |s + p2| * ulpHalf) :
    Z * (e0 + e1 + e2) * (1 - 8 * ulpHalf) ≤ ts ∧ ts ≤ Z' * (e0 + e1 + e2) * (1 + 8 * ulpHalf) := by
  have hZ0 : 0 < Z := lt_of_lt_of_le (by norm_num) hZ
  have n0 : 0 ≤ z0 * e0 := mul_nonneg (by linarith) h0
  have n1 : 0 ≤ z1 * e1 := mul_nonneg (by linarith) h1
  have n2 : 0 ≤ z2 * e2 := mul_nonneg (by linarith) h2
  have l0 : Z * e0 ≤ z0 * e0 := by gcongr
  have l1 : Z * e1 ≤ z1 * e1 := by gcongr
  have l2 : Z * e2 ≤ z2 * e2 := by gcongr
  have u0 : z0 * e0 ≤ Z' * e0 := by gcongr
  have u1 : z1 * e1 ≤ Z' * e1 := by gcongr
  have u2 : z2 * e2 ≤ Z' * e2 := by gcongr
  have hZS : 1 / 2 ^ 126 ≤ Z * (e0 + e1 + e2) := by
    have : (1 / 2 ^ 20 : ℚ) * (1 / 2 ^ 106) ≤ Z * (e0 + e1 + e2) := by gcongr
    linarith
  rw [abs_of_nonneg n0, abs_le] at k0
  rw [abs_of_nonneg n1, abs_le] at k1
  rw [abs_of_nonneg n2, abs_le] at k2
  have q01 : |p0 + p1| ≤ (z0 * e0 + z1 * e1) * (1 + ulpHalf) + 2 * tinyHalf := by
    rw [abs_le]; simp only [ulpHalf, tinyHalf] at *; constructor <;> linarith
  have hs' : |p0 + p1| * ulpHalf ≤ ((z0 * e0 + z1 * e1) * (1 + ulpHalf) + 2 * tinyHalf) * ulpHalf := by gcongr
  have hs'' := abs_le.1 (hs.trans hs')
  have q2 : |s + p2| ≤ (z0 * e0 + z1 * e1 + z2 * e2) * (1 + 3 * ulpHalf) + 4 * tinyHalf := by
    rw [abs_le]; simp only [ulpHalf, tinyHalf] at *; constructor <;> linarith
  have ht' : |s + p2| * ulpHalf ≤ ((z0 * e0 + z1 * e1 + z2 * e2) * (1 + 3 * ulpHalf) + 4 * tinyHalf) * ulpHalf := by gcongr
  have ht'' := abs_le.1 (hts.trans ht')
  have e1' : Z * (e0 + e1 + e2) = Z * e0 + Z * e1 + Z * e2 := by ring
  have e2' : Z' * (e0 + e1 + e2) = Z' * e0 + Z' * e1 + Z' * e2 := by ring
  rw [e1'] at hZS
  rw [e1', e2']
  simp only [ulpHalf, tinyHalf] at *
  constructor
  · linarith
  · linarith

/-- Relative error of a reported distance. -/
def slack : ℚ := 1 / 2 ^ 19

theorem t_near {S det ts t Z Z' : ℚ} (hS : 0 < S) (hZ : 1 / 2 ^ 20 ≤ Z) (hZZ : Z ≤ Z') (d1 : S * (1 - 3 * ulpHalf) ≤ det) (d2 : det ≤ S * (1 + 3 * ulpHalf))
    (t1 : Z * S * (1 - 8 * ulpHalf) ≤ ts) (t2 : ts ≤ Z' * S * (1 + 8 * ulpHalf)) (ht : |t - ts / det| ≤ |ts / det| * ulpHalf + tinyHalf) :
    0 < det ∧ 0 < ts ∧ Z * (1 - slack) * det ≤ ts ∧ ts ≤ Z' * (1 + slack) * det ∧ Z * (1 - slack) ≤ t ∧ t ≤ Z' * (1 + slack) := by
  have hZ0 : 0 < Z := lt_of_lt_of_le (by norm_num) hZ
  have Z'0 : 0 < Z' := by linarith
  have hd : 0 < det := lt_of_lt_of_le (mul_pos hS (by norm_num [ulpHalf])) d1
  have hts : 0 < ts := lt_of_lt_of_le (mul_pos (mul_pos hZ0 hS) (by norm_num [ulpHalf])) t1
  have r1 : Z * (1 - 12 * ulpHalf) ≤ ts / det := by
    rw [le_div_iff₀ hd]
    have : Z * det ≤ Z * (S * (1 + 3 * ulpHalf)) := by gcongr
    have p := mul_pos hZ0 hS
    simp only [ulpHalf] at *
    linarith
  have r2 : ts / det ≤ Z' * (1 + 12 * ulpHalf) := by
    rw [div_le_iff₀ hd]
    have : Z' * (S * (1 - 3 * ulpHalf)) ≤ Z' * det := by gcongr
    have p := mul_pos Z'0 hS
    simp only [ulpHalf] at *
    linarith
  rw [abs_of_pos (div_pos hts hd), abs_le] at ht
  refine ⟨hd, hts, ?_, ?_, ?_, ?_⟩
  · rw [← le_div_iff₀ hd]; refine le_trans ?_ r1; simp only [ulpHalf, slack]; linarith
  · rw [← div_le_iff₀ hd]; refine r2.trans ?_; simp only [ulpHalf, slack]; linarith
  · simp only [ulpHalf, tinyHalf, slack] at *; linarith [ht.1]
  · simp only [ulpHalf, tinyHalf, slack] at *; linarith [ht.2]

/-- Two signs in the three edge functions and the tests of the program. -/
theorem signs_of_not_mixed {e0 e1 e2 : F32} (m0 : Num e0) (m1 : Num e1) (m2 : Num e2)
    (h : ((e0 <. lit 0 || e1 <. lit 0 || e2 <. lit 0) && (e0 >. lit 0 || e1 >. lit 0 || e2 >. lit 0)) = false) :
    ∃ sg : ℚ, (sg = 1 ∨ sg = -1) ∧ 0 ≤ sg * e0.val ∧ 0 ≤ sg * e1.val ∧ 0 ≤ sg * e2.val := by
  have nz := zero_ok
  have l : ∀ {e : F32}, Num e → ((e <. lit 0) = false ↔ 0 ≤ e.val) := by
    intro e he; rw [← Bool.not_eq_true, lt_ok he nz.1, nz.2, not_lt]
  have g : ∀ {e : F32}, Num e → ((lit 0 <. e) = false ↔ e.val ≤ 0) := by
    intro e he; rw [← Bool.not_eq_true, lt_ok nz.1 he, nz.2, not_lt]
  rw [Bool.and_eq_false_iff] at h
  rcases h with h | h
  · simp only [Bool.or_eq_false_iff] at h
    exact ⟨1, Or.inl rfl, by rw [one_mul]; exact (l m0).1 h.1.1, by rw [one_mul]; exact (l m1).1 h.1.2, by rw [one_mul]; exact (l m2).1 h.2⟩
  · simp only [Bool.or_eq_false_iff] at h
    refine ⟨-1, Or.inr rfl, ?_, ?_, ?_⟩
    · linarith [(g m0).1 h.1.1]
    · linarith [(g m1).1 h.1.2]
    · linarith [(g m2).1 h.2]

/-- What the tests say about a hit that is not rejected. -/
theorem stage_range {e0 e1 e2 za zb zc dt tm : F32} {Z Z' : ℚ} (m0 : Num e0) (m1 : Num e1) (m2 : Num e2)
    (B0 : |e0.val| ≤ 2 ^ 62) (B1 : |e1.val| ≤ 2 ^ 62) (B2 : |e2.val| ≤ 2 ^ 62) (nz : Num za) (nz' : Num zb) (nz'' : Num zc)
    (la : Z ≤ za.val) (lb : Z ≤ zb.val) (lc : Z ≤ zc.val) (ua : za.val ≤ Z') (ub : zb.val ≤ Z') (uc : zc.val ≤ Z') (rZ : 1 / 2 ^ 20 ≤ Z)
    (rZ' : Z' ≤ 2 ^ 60) (hS : |e0.val| + |e1.val| + |e2.val| = 0 ∨ 1 / 2 ^ 106 ≤ |e0.val| + |e1.val| + |e2.val|)
    (acc : (⟨e0, e1, e2, za *. e0 +. zb *. e1 +. zc *. e2, dt⟩ : Stage F32).rejects tm = false) :
    Num (Stage.t ⟨e0, e1, e2, za *. e0 +. zb *. e1 +. zc *. e2, dt⟩) ∧
    Z * (1 - slack) ≤ (Stage.t ⟨e0, e1, e2, za *. e0 +. zb *. e1 +. zc *. e2, dt⟩).val ∧
    (Stage.t ⟨e0, e1, e2, za *. e0 +. zb *. e1 +. zc *. e2, dt⟩).val ≤ Z' * (1 + slack) ∧
    (Num tm → 0 ≤ tm.val → Z * (1 - slack) ≤ tm.val * (1 + slack)) := by
  unfold Stage.rejects at acc
  simp only [Bool.or_eq_false_iff] at acc
  obtain ⟨⟨⟨acc1, acc2⟩, acc3⟩, -⟩ := acc
  obtain ⟨sg, hs, f0, f1, f2⟩ := signs_of_not_mixed m0 m1 m2 acc1
  have hsg : |sg| = 1 := by rcases hs with rfl | rfl <;> norm_num
  have absS : ∀ x : ℚ, 0 ≤ sg * x → |x| = sg * x := by
    intro x h
    have := abs_of_nonneg h
    rwa [abs_mul, hsg, one_mul] at this
  unfold Stage.out at acc3
  unfold Stage.t
  unfold Stage.det at acc2 acc3 ⊢
  simp only [] at acc2 acc3 ⊢
  rw [absS _ f0, absS _ f1, absS _ f2] at hS
  rw [absS _ f0] at B0
  rw [absS _ f1] at B1
  rw [absS _ f2] at B2
  have Z0 : 0 < Z := lt_of_lt_of_le (by norm_num) rZ
  have hZZ : Z ≤ Z' := la.trans ua
  have Z'0 : 0 < Z' := lt_of_lt_of_le Z0 hZZ
  -- determinant
  obtain ⟨n3, d1⟩ := add_ok m0 m1 (by have := abs_add_le e0.val e1.val; rw [absS _ f0, absS _ f1] at this; linarith)
  have B3 : |(e0 +. e1).val| ≤ 2 ^ 64 := by
    have := abs_sub_abs_le_abs_sub (e0 +. e1).val (e0.val + e1.val)
    have := abs_add_le e0.val e1.val
    rw [absS _ f0, absS _ f1] at this
    simp only [ulpHalf] at d1; linarith
  obtain ⟨nd, d2⟩ := add_ok n3 m2 (by have := abs_add_le (e0 +. e1).val e2.val; rw [absS _ f2] at this; linarith)
  generalize e0 +. e1 = d01 at *
  generalize d01 +. e2 = det at *
  have d1' := flip (c := 0) hs (by simpa using d1)
  have d2' := flip (c := 0) hs (by simpa using d2)
  rw [mul_add, add_zero] at d1' d2'
  obtain ⟨dl, du⟩ := det_near f0 f1 f2 d1' d2'
  have hdet0 : det.val ≠ 0 := by
    intro h
    have : (det ==. lit 0) = true := by rw [eq_ok nd zero_ok.1, zero_ok.2]; exact h
    rw [this] at acc2; cases acc2
  replace hS : 1 / 2 ^ 106 ≤ sg * e0.val + sg * e1.val + sg * e2.val := by
    rcases hS with h | h
    · exfalso
      rw [h, zero_mul] at dl du
      have : sg * det.val = 0 := le_antisymm du dl
      rcases mul_eq_zero.1 this with h | h
      · rw [h] at hsg; norm_num at hsg
      · exact hdet0 h
    · exact h
  -- scaled distance
  have bz : ∀ {z e : F32}, Z ≤ z.val → z.val ≤ Z' → 0 ≤ sg * e.val → sg * e.val ≤ 2 ^ 62 → |z.val * e.val| ≤ 2 ^ 122 := by
    intro z e h1 h2 h3 h4
    rw [abs_mul, absS _ h3, abs_of_pos (by linarith)]
    have : z.val * (sg * e.val) ≤ 2 ^ 60 * 2 ^ 62 := by
      apply mul_le_mul _ h4 h3 (by norm_num); linarith
    linarith
  have bp : ∀ {p x : ℚ}, |x| ≤ 2 ^ 122 → |p - x| ≤ |x| * ulpHalf + tinyHalf → |p| ≤ 2 ^ 123 := by
    intro p x h1 h2
    have := abs_sub_abs_le_abs_sub p x
    simp only [ulpHalf, tinyHalf] at h2; linarith
  have c0 := bz la ua f0 B0
  have c1 := bz lb ub f1 B1
  have c2 := bz lc uc f2 B2
  obtain ⟨w0, v0⟩ := mul_ok nz m0 (c0.trans (by norm_num))
  obtain ⟨w1, v1⟩ := mul_ok nz' m1 (c1.trans (by norm_num))
  obtain ⟨w2, v2⟩ := mul_ok nz'' m2 (c2.trans (by norm_num))
  have x0 := bp c0 v0
  have x1 := bp c1 v1
  have x2 := bp c2 v2
  obtain ⟨w3, v3⟩ := add_ok w0 w1 (by have := abs_add_le (za *. e0).val (zb *. e1).val; linarith)
  have x3 : |(za *. e0 +. zb *. e1).val| ≤ 2 ^ 125 := by
    have := abs_sub_abs_le_abs_sub (za *. e0 +. zb *. e1).val ((za *. e0).val + (zb *. e1).val)
    have := abs_add_le (za *. e0).val (zb *. e1).val
    simp only [ulpHalf] at v3; linarith
  obtain ⟨w4, v4⟩ := add_ok w3 w2 (by have := abs_add_le (za *. e0 +. zb *. e1).val (zc *. e2).val; linarith)
  generalize za *. e0 = r0 at *
  generalize zb *. e1 = r1 at *
  generalize zc *. e2 = r2 at *
  generalize r0 +. r1 = r01 at *
  generalize r01 +. r2 = ts at *
  have v0' := flip hs v0
  have v1' := flip hs v1
  have v2' := flip hs v2
  have v3' := flip (c := 0) hs (by simpa using v3)
  have v4' := flip (c := 0) hs (by simpa using v4)
  rw [mul_left_comm] at v0' v1' v2'
  rw [mul_add, add_zero] at v3' v4'
  obtain ⟨tl, tu⟩ := ts_near f0 f1 f2 hS la lb lc ua ub uc rZ v0' v1' v2' v3' v4'
  generalize sg * e0.val + sg * e1.val + sg * e2.val = S at *
  have S0 : 0 < S := lt_of_lt_of_le (by norm_num) hS
  have inv : sg * sg = 1 := by rcases hs with rfl | rfl <;> norm_num
  have qts : ts.val / det.val = (sg * ts.val) / (sg * det.val) := by
    rw [mul_div_mul_left _ _ (by intro h; rw [h] at inv; norm_num at inv)]
  -- a first bound, so that the division does not overflow
  obtain ⟨det0, ts0, k1, k2, -, -⟩ := t_near (t := sg * ts.val / (sg * det.val)) S0 rZ hZZ dl du tl tu
    (by rw [sub_self, abs_zero]; simp only [ulpHalf, tinyHalf]; positivity)
  obtain ⟨nt, et⟩ := div_ok w4 nd hdet0 (by
    rw [qts, abs_of_pos (div_pos ts0 det0)]
    have : sg * ts.val / (sg * det.val) ≤ Z' * (1 + slack) := by rw [div_le_iff₀ det0]; exact k2
    simp only [slack] at this
    linarith)
  rw [qts] at et
  obtain ⟨-, -, -, -, t1, t2⟩ := t_near S0 rZ hZZ dl du tl tu et
  refine ⟨nt, t1, t2, ?_⟩
  intro ntm tm0
  by_contra hc
  push Not at hc
  -- then the product is below the scaled distance
  have lim : tm.val * (1 + slack) * (sg * det.val) < sg * ts.val := lt_of_lt_of_le (by gcongr) k1
  have x0 : 0 ≤ tm.val * (sg * det.val) := mul_nonneg tm0 det0.le
  have ts1 : 1 / 2 ^ 127 ≤ sg * ts.val := by
    have : (1 / 2 ^ 20 : ℚ) * (1 / 2 ^ 106) ≤ Z * S := by gcongr
    simp only [ulpHalf] at tl
    linarith
  have ts2 : sg * ts.val ≤ 2 ^ 126 := by
    have h := abs_sub_abs_le_abs_sub ts.val (r01.val + r2.val)
    have h' := abs_add_le r01.val r2.val
    have h3 := le_abs_self (sg * ts.val)
    rw [abs_mul, hsg, one_mul] at h3
    simp only [ulpHalf] at v4; linarith
  have ex : tm.val * (1 + slack) * (sg * det.val) = tm.val * (sg * det.val) * (1 + slack) := by ring
  rw [ex] at lim
  have ax : |tm.val * det.val| = tm.val * (sg * det.val) := by
    rw [abs_mul, abs_of_nonneg tm0, absS _ det0.le]
  obtain ⟨np, ep⟩ := mul_ok ntm nd (by rw [ax]; simp only [slack] at lim; linarith)
  have ep' := flip hs ep
  rw [mul_left_comm, abs_of_nonneg x0, abs_le] at ep'
  have below : sg * (tm *. det).val < sg * ts.val := by
    simp only [slack, ulpHalf, tinyHalf] at *; linarith [ep'.2]
  rw [Bool.or_eq_false_iff, Bool.and_eq_false_iff, Bool.and_eq_false_iff] at acc3
  rcases hs with rfl | rfl
  · rw [one_mul, one_mul] at below
    rw [one_mul] at det0
    rcases acc3.2 with h | h
    · have : (lit 0 <. det) = true := by rw [lt_ok zero_ok.1 nd, zero_ok.2]; exact det0
      rw [this] at h; cases h
    · rw [Bool.or_eq_false_iff] at h
      rw [(lt_ok np w4).2 below] at h; cases h.2
  · have below' : ts.val < (tm *. det).val := by linarith
    rcases acc3.1 with h | h
    · have : (det <. lit 0) = true := by rw [lt_ok nd zero_ok.1, zero_ok.2]; linarith
      rw [this] at h; cases h
    · rw [Bool.or_eq_false_iff] at h
      rw [(lt_ok w4 np).2 below'] at h; cases h.1

/-! ## Edge functions are zero or not tiny -/

/-- A number that is not small is a multiple of its last bit. -/
theorem grid_of_repr' {a : ℚ} (h : Rounding.rnd Binary32 a = some a) (ha : 1 / 2 ^ 81 ≤ a) : ∃ m : ℤ, a = m / 2 ^ 104 := by
  have h' : Bin.rnd 23 149 0x7f800000 31 a = some a := h
  rw [Bin.rnd_some] at h'
  generalize ordRound 23 31 (a * 2 ^ 149) = k at h'
  obtain ⟨-, h'⟩ := h'
  have big : 2 ^ 68 ≤ sval 23 k := by
    rw [h', div_le_div_iff₀ (by positivity) (by positivity), one_mul] at ha
    have : ((2 ^ 68 : ℕ) : ℚ) * 2 ^ 81 ≤ (sval 23 k : ℚ) * 2 ^ 81 := by
      refine le_trans ?_ ha; norm_num
    exact_mod_cast le_of_mul_le_mul_right this (by positivity)
  unfold sval at big h'
  split_ifs at big h' with hk
  · exfalso; have : (2 : ℕ) ^ 23 < 2 ^ 68 := by norm_num
    omega
  · have hm : k % 2 ^ 23 < 2 ^ 23 := Nat.mod_lt _ (by positivity)
    have he : 45 ≤ k / 2 ^ 23 - 1 := by
      by_contra hc
      have h1 : 2 ^ (k / 2 ^ 23 - 1) ≤ 2 ^ 44 := Nat.pow_le_pow_right (by norm_num) (by omega)
      have h2 : (2 ^ 23 + k % 2 ^ 23) * 2 ^ (k / 2 ^ 23 - 1) < 2 ^ 24 * 2 ^ 44 := by
        have : 2 ^ 23 + k % 2 ^ 23 < 2 ^ 24 := by omega
        exact Nat.mul_lt_mul_of_lt_of_le this h1 (by positivity)
      rw [← pow_add] at h2
      omega
    obtain ⟨j, hj⟩ := Nat.exists_eq_add_of_le he
    rw [hj] at h'
    clear big he hj
    generalize k % 2 ^ 23 = r at *
    refine ⟨((2 ^ 23 + r) * 2 ^ j : ℕ), ?_⟩
    rw [h', pow_add]
    push_cast
    rw [div_eq_div_iff (by positivity) (by positivity)]
    ring

theorem coarse_val {a : F32} (n : Num a) (h : a.val = 0 ∨ 1 / 2 ^ 81 ≤ |a.val|) : ∃ m : ℤ, a.val = m / 2 ^ 104 := by
  rcases h with h | h
  · exact ⟨0, by rw [h]; simp⟩
  · obtain ⟨s, m, rfl⟩ := IsFin_iff.1 n.fin
    have m0 := n.wf.1
    have e : |(fin s m : F32).val| = m := by
      cases s
      · simp only [val, sgn, Bool.false_eq_true, if_false]; exact abs_of_nonneg m0
      · simp only [val, sgn, if_true]; rw [abs_neg]; exact abs_of_nonneg m0
    rw [e] at h
    obtain ⟨k, hk⟩ := grid_of_repr' n.wf.2 h
    cases s
    · exact ⟨k, by simp only [val, sgn, Bool.false_eq_true, if_false]; exact hk⟩
    · exact ⟨-k, by simp only [val, sgn, if_true]; rw [hk]; push_cast; ring⟩

namespace Spec
/-- Zero, or not tiny. -/
def Coarse (x : ℚ) : Prop := x = 0 ∨ 1 / 2 ^ 40 ≤ |x|
end Spec

theorem coarse_mul {a b : F32} (ha : Num a) (hb : Num b) (ca : Coarse a.val) (cb : Coarse b.val) (h : |a.val * b.val| ≤ 2 ^ 126) :
    (a *. b).val = 0 ∨ 1 / 2 ^ 81 ≤ |(a *. b).val| := by
  obtain ⟨zs, e⟩ := mul_val ha hb
  by_cases h0 : a.val * b.val = 0
  · left; rw [e, h0]; unfold ofVal; cases zs <;> simp [val, sgn]
  · right
    obtain ⟨a0, b0⟩ := mul_ne_zero_iff.1 h0
    have h1 := ca.resolve_left a0
    have h2 := cb.resolve_left b0
    have h3 : (1 / 2 ^ 40 : ℚ) * (1 / 2 ^ 40) ≤ |a.val * b.val| := by rw [abs_mul]; gcongr
    have k := (mul_ok ha hb h).2
    have k' := abs_sub_abs_le_abs_sub (a.val * b.val) (a *. b).val
    rw [abs_sub_comm] at k'
    simp only [ulpHalf, tinyHalf] at k
    linarith

theorem coarse_edge {a b : V3 F32} (na : Num a.x ∧ Num a.y) (nb : Num b.x ∧ Num b.y) (ca : Coarse a.x.val ∧ Coarse a.y.val) (cb : Coarse b.x.val ∧ Coarse b.y.val)
    (ha : |a.x.val| ≤ 2 ^ 30 ∧ |a.y.val| ≤ 2 ^ 30) (hb : |b.x.val| ≤ 2 ^ 30 ∧ |b.y.val| ≤ 2 ^ 30) :
    let e := a.x *. b.y -. a.y *. b.x
    e.val = 0 ∨ 1 / 2 ^ 106 ≤ |e.val| := by
  intro e
  have h1 : |a.x.val * b.y.val| ≤ 2 ^ 60 := by
    rw [abs_mul]; exact (mul_le_mul ha.1 hb.2 (abs_nonneg _) (by norm_num)).trans (by norm_num)
  have h2 : |a.y.val * b.x.val| ≤ 2 ^ 60 := by
    rw [abs_mul]; exact (mul_le_mul ha.2 hb.1 (abs_nonneg _) (by norm_num)).trans (by norm_num)
  obtain ⟨n1, k1⟩ := mul_ok na.1 nb.2 (h1.trans (by norm_num))
  obtain ⟨n2, k2⟩ := mul_ok na.2 nb.1 (h2.trans (by norm_num))
  obtain ⟨p, hp⟩ := coarse_val n1 (coarse_mul na.1 nb.2 ca.1 cb.2 (h1.trans (by norm_num)))
  obtain ⟨q, hq⟩ := coarse_val n2 (coarse_mul na.2 nb.1 ca.2 cb.1 (h2.trans (by norm_num)))
  have b1 := abs_sub_abs_le_abs_sub (a.x *. b.y).val (a.x.val * b.y.val)
  have b2 := abs_sub_abs_le_abs_sub (a.y *. b.x).val (a.y.val * b.x.val)
  have b3 := abs_sub (a.x *. b.y).val (a.y *. b.x).val
  obtain ⟨n3, k3⟩ := sub_ok n1 n2 (by simp only [ulpHalf, tinyHalf] at k1 k2; linarith)
  have hd : (a.x *. b.y).val - (a.y *. b.x).val = ((p - q : ℤ) : ℚ) / 2 ^ 104 := by rw [hp, hq]; push_cast; ring
  change |e.val - _| ≤ _ at k3
  rw [hd] at k3
  by_cases hpq : p - q = 0
  · left
    rw [hpq] at k3
    simpa using k3
  · right
    have h3 : (1 : ℚ) ≤ |((p - q : ℤ) : ℚ)| := by exact_mod_cast Int.one_le_abs hpq
    have h4 : (1 / 2 ^ 104 : ℚ) ≤ |((p - q : ℤ) : ℚ) / 2 ^ 104| := by
      rw [abs_div, abs_of_pos (show (0 : ℚ) < 2 ^ 104 by positivity)]; gcongr
    have k' := abs_sub_abs_le_abs_sub (((p - q : ℤ) : ℚ) / 2 ^ 104) e.val
    rw [abs_sub_comm] at k'
    simp only [ulpHalf] at k3
    linarith

/-! ## C94 -/

namespace Spec
/-- A triangle whose corners, as seen from the ray, are at distances between `Z` and `Z'`.  Coordinates are numbers of ordinary size. -/
structure Between (Z Z' : ℚ) (a b c : V3 F32) : Prop where
  number : ∀ p ∈ [a, b, c], Num p.x ∧ Num p.y ∧ Num p.z
  wide : ∀ p ∈ [a, b, c], |p.x.val| ≤ 2 ^ 30 ∧ |p.y.val| ≤ 2 ^ 30
  coarse : ∀ p ∈ [a, b, c], Coarse p.x.val ∧ Coarse p.y.val
  deep : ∀ p ∈ [a, b, c], Z ≤ p.z.val ∧ p.z.val ≤ Z'
  range : 1 / 2 ^ 20 ≤ Z ∧ Z' ≤ 2 ^ 60
end Spec

theorem stageOf_range {a b c : V3 F32} {sz tm : F32} {Z Z' : ℚ} (hp : Between Z Z' ⟨a.x, a.y, a.z *. sz⟩ ⟨b.x, b.y, b.z *. sz⟩ ⟨c.x, c.y, c.z *. sz⟩)
    (acc : (stageOf a b c sz).rejects tm = false) :
    Num (stageOf a b c sz).t ∧ Z * (1 - slack) ≤ (stageOf a b c sz).t.val ∧ (stageOf a b c sz).t.val ≤ Z' * (1 + slack) ∧
      (Num tm → 0 ≤ tm.val → Z * (1 - slack) ≤ tm.val * (1 + slack)) := by
  obtain ⟨nx, ny, nz⟩ := hp.number _ (List.mem_cons_self)
  obtain ⟨nx', ny', nz'⟩ := hp.number _ (List.mem_cons_of_mem _ List.mem_cons_self)
  obtain ⟨nx'', ny'', nz''⟩ := hp.number _ (List.mem_cons_of_mem _ (List.mem_cons_of_mem _ List.mem_cons_self))
  have wa := hp.wide _ (List.mem_cons_self)
  have wb := hp.wide _ (List.mem_cons_of_mem _ List.mem_cons_self)
  have wc := hp.wide _ (List.mem_cons_of_mem _ (List.mem_cons_of_mem _ List.mem_cons_self))
  have ga := hp.coarse _ (List.mem_cons_self)
  have gb := hp.coarse _ (List.mem_cons_of_mem _ List.mem_cons_self)
  have gc := hp.coarse _ (List.mem_cons_of_mem _ (List.mem_cons_of_mem _ List.mem_cons_self))
  obtain ⟨la, ua⟩ := hp.deep _ (List.mem_cons_self)
  obtain ⟨lb, ub⟩ := hp.deep _ (List.mem_cons_of_mem _ List.mem_cons_self)
  obtain ⟨lc, uc⟩ := hp.deep _ (List.mem_cons_of_mem _ (List.mem_cons_of_mem _ List.mem_cons_self))
  obtain ⟨rZ, rZ'⟩ := hp.range
  clear hp
  simp only [] at nx ny nz nx' ny' nz' nx'' ny'' nz'' wa wb wc ga gb gc la ua lb ub lc uc
  obtain ⟨m0, -, B0, -, -⟩ := edge_ok (a := b) (b := c) ⟨nx', ny'⟩ ⟨nx'', ny''⟩ wb wc le_rfl le_rfl
  obtain ⟨m1, -, B1, -, -⟩ := edge_ok (a := c) (b := a) ⟨nx'', ny''⟩ ⟨nx, ny⟩ wc wa le_rfl le_rfl
  obtain ⟨m2, -, B2, -, -⟩ := edge_ok (a := a) (b := b) ⟨nx, ny⟩ ⟨nx', ny'⟩ wa wb le_rfl le_rfl
  have c0 := coarse_edge (a := b) (b := c) ⟨nx', ny'⟩ ⟨nx'', ny''⟩ gb gc wb wc
  have c1 := coarse_edge (a := c) (b := a) ⟨nx'', ny''⟩ ⟨nx, ny⟩ gc ga wc wa
  have c2 := coarse_edge (a := a) (b := b) ⟨nx, ny⟩ ⟨nx', ny'⟩ ga gb wa wb
  unfold stageOf at acc ⊢
  simp only [] at acc c0 c1 c2 ⊢
  generalize b.x *. c.y -. b.y *. c.x = e0 at *
  generalize c.x *. a.y -. c.y *. a.x = e1 at *
  generalize a.x *. b.y -. a.y *. b.x = e2 at *
  refine stage_range m0 m1 m2 (B0.trans (by norm_num)) (B1.trans (by norm_num)) (B2.trans (by norm_num)) nz nz' nz'' la lb lc ua ub uc rZ rZ' ?_ acc
  have p0 := abs_nonneg e0.val
  have p1 := abs_nonneg e1.val
  have p2 := abs_nonneg e2.val
  rcases c0 with c0 | c0
  · rcases c1 with c1 | c1
    · rcases c2 with c2 | c2
      · left; rw [c0, c1, c2]; norm_num
      · right; linarith
    · right; linarith
  · right; linarith

theorem seen_eq (o d : V3 F32) (tm : F32) (m : Axis) (p : V3 F32) :
    seen ⟨o, d, tm⟩ m p = ⟨(rc o d m p).x, (rc o d m p).y, (rc o d m p).z *. szOf d m⟩ := rfl

/-- What a hit says about the tests. -/
theorem hit_stage [Libm F32] {s : Triangle F32} {o d : V3 F32} {tm : F32} {m : Axis} (hm : d.maxAbsAxis = some m) {i : Interaction F32} {t : F32}
    (h : s.intersect ⟨o, d, tm⟩ = some (some (i, t))) : (stage s o d m).rejects tm = false ∧ t = (stage s o d m).t := by
  rw [intersect_eq, hm] at h
  simp only [Option.map_some] at h
  split_ifs at h with hr
  · cases h
  · simp only [Option.some.injEq, Prod.mk.injEq] at h
    exact ⟨by simpa using hr, h.2.symm⟩

/-- **C94**: a hit on a triangle is reported at a distance between the distances of its nearest and its farthest corner, up to a relative
error of 2⁻¹⁹, however thin the triangle is and however obliquely the ray meets it. -/
theorem c94_distance [Libm F32] (s : Triangle F32) (ray : Ray F32) (m : Axis) (hm : ray.direction.maxAbsAxis = some m) {Z Z' : ℚ}
    (hb : Between Z Z' (seen ray m s.v0) (seen ray m s.v1) (seen ray m s.v2)) (i : Interaction F32) (t : F32)
    (h : s.intersect ray = some (some (i, t))) : Num t ∧ Z * (1 - 1 / 2 ^ 19) ≤ t.val ∧ t.val ≤ Z' * (1 + 1 / 2 ^ 19) := by
  obtain ⟨o, d, tm⟩ := ray
  simp only [seen_eq] at hb hm
  obtain ⟨acc, rfl⟩ := hit_stage hm h
  obtain ⟨h1, h2, h3, -⟩ := stageOf_range hb acc
  exact ⟨h1, h2, h3⟩

/-- **C94**: a triangle all of whose corners are beyond the end of the ray, by a relative 2⁻¹⁸, is not hit. -/
theorem c94_limit [Libm F32] (s : Triangle F32) (ray : Ray F32) (m : Axis) (hm : ray.direction.maxAbsAxis = some m) {Z Z' : ℚ}
    (hb : Between Z Z' (seen ray m s.v0) (seen ray m s.v1) (seen ray m s.v2)) (nt : Num ray.tMax) (t0 : 0 ≤ ray.tMax.val)
    (short : ray.tMax.val ≤ Z * (1 - 1 / 2 ^ 18)) : s.intersect ray = some none ∧ s.intersectP ray = some false := by
  obtain ⟨o, d, tm⟩ := ray
  simp only [seen_eq] at hb hm nt t0 short
  have hr : (stage s o d m).rejects tm = true := by
    rw [← Bool.not_eq_false]
    intro acc
    obtain ⟨-, -, -, h⟩ := stageOf_range hb acc
    have h := h nt t0
    have hZ : 0 < Z := lt_of_lt_of_le (by norm_num) hb.range.1
    simp only [slack] at h
    linarith
  rw [intersect_eq, intersectP_eq, hm]
  simp [hr]

/-- Products and sums keep their sign. -/
theorem sum_sign {e0 e1 e2 za zb zc : F32} {sg : ℚ} (hs : sg = 1 ∨ sg = -1) (m0 : Num e0) (m1 : Num e1) (m2 : Num e2)
    (B0 : |e0.val| ≤ 2 ^ 62) (B1 : |e1.val| ≤ 2 ^ 62) (B2 : |e2.val| ≤ 2 ^ 62) (na : Num za) (nb : Num zb) (nc : Num zc)
    (ra : |za.val| ≤ 2 ^ 60) (rb : |zb.val| ≤ 2 ^ 60) (rc : |zc.val| ≤ 2 ^ 60)
    (h0 : 0 ≤ sg * e0.val) (h1 : 0 ≤ sg * e1.val) (h2 : 0 ≤ sg * e2.val) (la : za.val ≤ 0) (lb : zb.val ≤ 0) (lc : zc.val ≤ 0) :
    Num (za *. e0 +. zb *. e1 +. zc *. e2) ∧ sg * (za *. e0 +. zb *. e1 +. zc *. e2).val ≤ 0 ∧
    Num (e0 +. e1 +. e2) ∧ 0 ≤ sg * (e0 +. e1 +. e2).val := by
  have one : ∀ {z e : F32}, Num z → Num e → |z.val| ≤ 2 ^ 60 → |e.val| ≤ 2 ^ 62 → 0 ≤ sg * e.val → z.val ≤ 0 →
      Num (z *. e) ∧ |(z *. e).val| ≤ 2 ^ 123 ∧ sg * (z *. e).val ≤ 0 := by
    intro z e nz ne bz be he hz
    have hb : |z.val * e.val| ≤ 2 ^ 122 := by
      rw [abs_mul]; exact (mul_le_mul bz be (abs_nonneg _) (by norm_num)).trans (by norm_num)
    obtain ⟨n, k⟩ := mul_ok nz ne (hb.trans (by norm_num))
    refine ⟨n, ?_, ?_⟩
    · have := abs_sub_abs_le_abs_sub (z *. e).val (z.val * e.val)
      simp only [ulpHalf, tinyHalf] at k; linarith
    · obtain ⟨zs, ev⟩ := mul_val nz ne
      have hle : sg * (z.val * e.val) ≤ 0 := by
        rw [mul_left_comm]; exact mul_nonpos_of_nonpos_of_nonneg hz he
      have zz : ∀ b, (ofVal 0 b : F32).IsFin ∧ (ofVal 0 b : F32).val = 0 := by
        intro b; unfold ofVal; cases b <;> simp [IsFin, val, sgn]
      have nf := n.fin
      rw [ev] at nf ⊢
      rcases hs with rfl | rfl
      · have := (le_val nf (zz false).1).1 (ofVal_mono (by linarith) _ _)
        rw [(zz false).2] at this; linarith
      · have := (le_val (zz false).1 nf).1 (ofVal_mono (by linarith) _ _)
        rw [(zz false).2] at this; linarith
  have sum : ∀ {p q : F32} {c : ℚ}, Num p → Num q → |p.val| ≤ c → |q.val| ≤ c → c ≤ 2 ^ 124 →
      Num (p +. q) ∧ |(p +. q).val| ≤ 4 * c ∧ (sg * p.val ≤ 0 → sg * q.val ≤ 0 → sg * (p +. q).val ≤ 0) ∧
      (0 ≤ sg * p.val → 0 ≤ sg * q.val → 0 ≤ sg * (p +. q).val) := by
    intro p q c np nq bp bq hc
    have h := abs_add_le p.val q.val
    obtain ⟨n, k⟩ := add_ok np nq (by linarith)
    have k' := flip (c := 0) hs (by simpa using k)
    rw [add_zero] at k'
    refine ⟨n, ?_, ?_, ?_⟩
    · have := abs_sub_abs_le_abs_sub (p +. q).val (p.val + q.val)
      simp only [ulpHalf] at k
      have := abs_nonneg (p.val + q.val)
      linarith
    · intro hp hq
      rw [mul_add, abs_of_nonpos (by linarith : sg * p.val + sg * q.val ≤ 0), abs_le] at k'
      simp only [ulpHalf] at k'; linarith [k'.2]
    · intro hp hq
      rw [mul_add, abs_of_nonneg (by linarith : 0 ≤ sg * p.val + sg * q.val), abs_le] at k'
      simp only [ulpHalf] at k'; linarith [k'.1]
  obtain ⟨w0, b0, s0⟩ := one na m0 ra B0 h0 la
  obtain ⟨w1, b1, s1⟩ := one nb m1 rb B1 h1 lb
  obtain ⟨w2, b2, s2⟩ := one nc m2 rc B2 h2 lc
  have mul_add' : (2 : ℚ) ^ 123 ≤ 2 ^ 124 := by norm_num
  obtain ⟨w3, b3, s3, -⟩ := sum w0 w1 b0 b1 mul_add'
  have e1' := abs_add_le (za *. e0 +. zb *. e1).val (zc *. e2).val
  obtain ⟨k1, k2, -, k4⟩ := sum m0 m1 B0 B1 (by norm_num)
  obtain ⟨j1, j2, -, j4⟩ := sum k1 m2 k2 (B2.trans (by norm_num)) (by norm_num)
  have b01 : |(za *. e0 +. zb *. e1).val| ≤ 2 ^ 124 + 2 ^ 110 := by
    have h := abs_add_le (za *. e0).val (zb *. e1).val
    have k := (add_ok w0 w1 (by linarith)).2
    have := abs_sub_abs_le_abs_sub (za *. e0 +. zb *. e1).val ((za *. e0).val + (zb *. e1).val)
    simp only [ulpHalf] at k
    linarith
  obtain ⟨n, k⟩ := add_ok w3 w2 (by linarith)
  refine ⟨n, ?_, j1, j4 (k4 h0 h1) h2⟩
  have k' := flip (c := 0) hs (by simpa using k)
  rw [add_zero, mul_add, abs_of_nonpos (by linarith [s3 s0 s1] : sg * (za *. e0 +. zb *. e1).val + sg * (zc *. e2).val ≤ 0), abs_le] at k'
  simp only [ulpHalf] at k'
  linarith [k'.2, s3 s0 s1]

/-- **C94**: a triangle that is not in front of the origin of the ray is not hit. -/
theorem c94_behind [Libm F32] (s : Triangle F32) (ray : Ray F32) (m : Axis) (hm : ray.direction.maxAbsAxis = some m)
    (number : ∀ p ∈ [s.v0, s.v1, s.v2], Num (seen ray m p).x ∧ Num (seen ray m p).y ∧ Num (seen ray m p).z)
    (wide : ∀ p ∈ [s.v0, s.v1, s.v2], |(seen ray m p).x.val| ≤ 2 ^ 30 ∧ |(seen ray m p).y.val| ≤ 2 ^ 30 ∧ |(seen ray m p).z.val| ≤ 2 ^ 60)
    (back : ∀ p ∈ [s.v0, s.v1, s.v2], (seen ray m p).z.val ≤ 0) : s.intersect ray = some none ∧ s.intersectP ray = some false := by
  obtain ⟨o, d, tm⟩ := ray
  obtain ⟨nx, ny, nz⟩ := number _ (List.mem_cons_self)
  obtain ⟨nx', ny', nz'⟩ := number _ (List.mem_cons_of_mem _ List.mem_cons_self)
  obtain ⟨nx'', ny'', nz''⟩ := number _ (List.mem_cons_of_mem _ (List.mem_cons_of_mem _ List.mem_cons_self))
  obtain ⟨wa, wa', wa''⟩ := wide _ (List.mem_cons_self)
  obtain ⟨wb, wb', wb''⟩ := wide _ (List.mem_cons_of_mem _ List.mem_cons_self)
  obtain ⟨wc, wc', wc''⟩ := wide _ (List.mem_cons_of_mem _ (List.mem_cons_of_mem _ List.mem_cons_self))
  have la := back _ (List.mem_cons_self)
  have lb := back _ (List.mem_cons_of_mem _ List.mem_cons_self)
  have lc := back _ (List.mem_cons_of_mem _ (List.mem_cons_of_mem _ List.mem_cons_self))
  clear number wide back
  simp only [seen_eq] at *
  have hr : (stage s o d m).rejects tm = true := by
    rw [← Bool.not_eq_false]
    intro acc
    unfold stage at acc
    generalize rc o d m s.v0 = a at *
    generalize rc o d m s.v1 = b at *
    generalize rc o d m s.v2 = c at *
    generalize szOf d m = sz at *
    obtain ⟨m0, -, B0, -, -⟩ := edge_ok (a := b) (b := c) ⟨nx', ny'⟩ ⟨nx'', ny''⟩ ⟨wb, wb'⟩ ⟨wc, wc'⟩ le_rfl le_rfl
    obtain ⟨m1, -, B1, -, -⟩ := edge_ok (a := c) (b := a) ⟨nx'', ny''⟩ ⟨nx, ny⟩ ⟨wc, wc'⟩ ⟨wa, wa'⟩ le_rfl le_rfl
    obtain ⟨m2, -, B2, -, -⟩ := edge_ok (a := a) (b := b) ⟨nx, ny⟩ ⟨nx', ny'⟩ ⟨wa, wa'⟩ ⟨wb, wb'⟩ le_rfl le_rfl
    unfold stageOf Stage.rejects at acc
    simp only [Bool.or_eq_false_iff] at acc
    obtain ⟨⟨⟨acc1, acc2⟩, acc3⟩, -⟩ := acc
    unfold Stage.mixed at acc1
    unfold Stage.out at acc3
    unfold Stage.det at acc2 acc3
    simp only [] at acc1 acc2 acc3
    generalize b.x *. c.y -. b.y *. c.x = e0 at *
    generalize c.x *. a.y -. c.y *. a.x = e1 at *
    generalize a.x *. b.y -. a.y *. b.x = e2 at *
    obtain ⟨sg, hs, f0, f1, f2⟩ := signs_of_not_mixed m0 m1 m2 acc1
    obtain ⟨nts, sts, nd, sd⟩ := sum_sign hs m0 m1 m2 (B0.trans (by norm_num)) (B1.trans (by norm_num)) (B2.trans (by norm_num)) nz nz' nz''
      wa'' wb'' wc'' f0 f1 f2 la lb lc
    generalize a.z *. sz *. e0 +. b.z *. sz *. e1 +. c.z *. sz *. e2 = ts at *
    generalize e0 +. e1 +. e2 = det at *
    have hd : det.val ≠ 0 := by
      intro h
      rw [(eq_ok nd zero_ok.1).2 (by rw [zero_ok.2]; exact h)] at acc2; cases acc2
    rw [Bool.or_eq_false_iff, Bool.and_eq_false_iff, Bool.and_eq_false_iff] at acc3
    rcases hs with rfl | rfl
    · have h1 : 0 < det.val := lt_of_le_of_ne (by linarith) (Ne.symm hd)
      rcases acc3.2 with h | h
      · rw [(lt_ok zero_ok.1 nd).2 (by rw [zero_ok.2]; exact h1)] at h; cases h
      · rw [(le_ok nts zero_ok.1).2 (by rw [zero_ok.2]; linarith)] at h; cases h
    · have h1 : det.val < 0 := lt_of_le_of_ne (by linarith) hd
      rcases acc3.1 with h | h
      · rw [(lt_ok nd zero_ok.1).2 (by rw [zero_ok.2]; exact h1)] at h; cases h
      · rw [(le_ok zero_ok.1 nts).2 (by rw [zero_ok.2]; linarith), Bool.or_true] at h; cases h
  rw [intersect_eq, intersectP_eq, hm]
  simp [hr]

theorem depth_core {q r z N d D : ℚ} (hd : d ≠ 0) (hD : D = N / d) (hq : |q - N| ≤ |N| * ulpHalf) (hr : |r - 1 / d| ≤ |1 / d| * ulpHalf + tinyHalf)
    (hz : |z - q * r| ≤ |q * r| * ulpHalf + tinyHalf) (h1 : |d| ≤ 2 ^ 60) (h2 : D = 0 ∨ 1 / 2 ^ 100 ≤ |D|) (hN : |N| ≤ 2 ^ 60) : |z - D| ≤ |D| * (1 / 2 ^ 22) + if D = 0 then tinyHalf else 0 := by
  have hr' : |r - 1 / d| ≤ |1 / d| * (ulpHalf + 1 / 2 ^ 90) := by
    have : (1 / 2 ^ 60 : ℚ) ≤ |1 / d| := by
      rw [abs_div, abs_one, div_le_div_iff₀ (by positivity) (abs_pos.2 hd)]; linarith
    simp only [ulpHalf, tinyHalf] at hr ⊢; linarith
  have prod : |q * r - D| ≤ |D| * (2 * ulpHalf + 1 / 2 ^ 40) := by
    have e : q * r - D = (q - N) * r + N * (r - 1 / d) := by rw [hD]; field_simp; ring
    have r1 : |r| ≤ |1 / d| * (1 + 1 / 2 ^ 20) := by
      have := abs_sub_abs_le_abs_sub r (1 / d)
      have := abs_nonneg (1 / d)
      simp only [ulpHalf] at hr'; linarith
    have a1 : |(q - N) * r| ≤ |N| * ulpHalf * (|1 / d| * (1 + 1 / 2 ^ 20)) := by
      rw [abs_mul]; exact mul_le_mul hq r1 (abs_nonneg _) (mul_nonneg (abs_nonneg _) (by norm_num [ulpHalf]))
    have a2 : |N * (r - 1 / d)| ≤ |N| * (|1 / d| * (ulpHalf + 1 / 2 ^ 90)) := by
      rw [abs_mul]; gcongr
    have a3 : |N| * |1 / d| = |D| := by rw [← abs_mul, hD]; congr 1; ring
    rw [e]
    have := abs_add_le ((q - N) * r) (N * (r - 1 / d))
    have b1 : |N| * ulpHalf * (|1 / d| * (1 + 1 / 2 ^ 20)) = |D| * (ulpHalf * (1 + 1 / 2 ^ 20)) := by rw [← a3]; ring
    have b2 : |N| * (|1 / d| * (ulpHalf + 1 / 2 ^ 90)) = |D| * (ulpHalf + 1 / 2 ^ 90) := by rw [← a3]; ring
    have := abs_nonneg D
    rw [b1] at a1; rw [b2] at a2
    simp only [ulpHalf] at *
    linarith
  have qr : |q * r| ≤ |D| * (1 + 1 / 2 ^ 20) := by
    have := abs_sub_abs_le_abs_sub (q * r) D
    have := abs_nonneg D
    simp only [ulpHalf] at prod; linarith
  have tri := abs_sub_le z (q * r) D
  split_ifs with h0
  · rw [h0] at prod qr tri ⊢
    simp only [ulpHalf, tinyHalf, abs_zero, zero_mul] at *; linarith
  · have := h2.resolve_left h0
    simp only [ulpHalf, tinyHalf] at *; linarith

/-- **C94**: the distance of a corner as seen from the ray is its distance along the longest axis of the direction, up to a relative error
of 2⁻²². -/
theorem c94_depth (ray : Ray F32) (m : Axis) (p : V3 F32) (np : Num (p.get m)) (no : Num (ray.origin.get m)) (nd : Num (ray.direction.get m))
    (hd : 1 / 2 ^ 60 ≤ |(ray.direction.get m).val|) (hd' : |(ray.direction.get m).val| ≤ 2 ^ 60)
    (hN : |(p.get m).val - (ray.origin.get m).val| ≤ 2 ^ 60)
    (hD : 1 / 2 ^ 100 ≤ |((p.get m).val - (ray.origin.get m).val) / (ray.direction.get m).val|) :
    Num (seen ray m p).z ∧ |(seen ray m p).z.val - ((p.get m).val - (ray.origin.get m).val) / (ray.direction.get m).val| ≤
      |((p.get m).val - (ray.origin.get m).val) / (ray.direction.get m).val| * (1 / 2 ^ 22) := by
  have e : (seen ray m p).z = (p.get m +. ⊖(ray.origin.get m)) *. (lit 1 /. ray.direction.get m) := by
    cases m <;> rfl
  rw [e]
  generalize p.get m = x at *
  generalize ray.origin.get m = o at *
  generalize ray.direction.get m = d at *
  have d0 : d.val ≠ 0 := by intro h; rw [h] at hd; norm_num at hd
  obtain ⟨n1, v1⟩ := neg_ok no
  obtain ⟨nq, kq⟩ := add_ok np n1 (by rw [v1, ← sub_eq_add_neg]; linarith)
  rw [v1, ← sub_eq_add_neg] at kq
  obtain ⟨nl, vl⟩ : Num (PT.lit 1 : F32) ∧ (PT.lit 1 : F32).val = 1 := by simpa using lit_int (n := 1) (by norm_num)
  have i1 : |(1 : ℚ) / d.val| ≤ 2 ^ 60 := by
    rw [abs_div, abs_one, div_le_iff₀ (abs_pos.2 d0)]; linarith
  obtain ⟨nr, kr⟩ := div_ok nl nd d0 (by rw [vl]; linarith)
  rw [vl] at kr
  have bq : |(x +. ⊖o).val| ≤ 2 ^ 61 := by
    have := abs_sub_abs_le_abs_sub (x +. ⊖o).val (x.val - o.val)
    simp only [ulpHalf] at kq; linarith
  have br : |(lit 1 /. d : F32).val| ≤ 2 ^ 61 := by
    have := abs_sub_abs_le_abs_sub (lit 1 /. d : F32).val (1 / d.val)
    simp only [ulpHalf, tinyHalf] at kr; linarith
  obtain ⟨nz, kz⟩ := mul_ok nq nr (by
    rw [abs_mul]
    exact (mul_le_mul bq br (abs_nonneg _) (by norm_num)).trans (by norm_num))
  refine ⟨nz, ?_⟩
  have D0 : (x.val - o.val) / d.val ≠ 0 := by intro h; rw [h] at hD; norm_num at hD
  have := depth_core d0 rfl kq kr kz hd' (Or.inr hD) hN
  rwa [if_neg D0, add_zero] at this

/-! ## C96: rays that pass a triangle -/

/-- **C96**: if the ray is on the inner side of one edge of a triangle and on the outer side of another, both by more than the rounding error
(about 2⁻²¹ of the product of the extents), then the triangle is not hit. -/
theorem c96_clear_miss [Libm F32] (s : Triangle F32) (ray : Ray F32) (m : Axis) (hm : ray.direction.maxAbsAxis = some m) {X Y : ℚ}
    (number : ∀ p ∈ [s.v0, s.v1, s.v2], Num (seen ray m p).x ∧ Num (seen ray m p).y)
    (wide : ∀ p ∈ [s.v0, s.v1, s.v2], |(seen ray m p).x.val| ≤ X ∧ |(seen ray m p).y.val| ≤ Y) (hX : X ≤ 2 ^ 30) (hY : Y ≤ 2 ^ 30)
    (inner : ∃ k ∈ [turn (seen ray m s.v0) (seen ray m s.v1), turn (seen ray m s.v1) (seen ray m s.v2), turn (seen ray m s.v2) (seen ray m s.v0)],
      1 / 2 ^ 21 * (X * Y) + 1 / 2 ^ 140 ≤ k)
    (outer : ∃ k ∈ [turn (seen ray m s.v0) (seen ray m s.v1), turn (seen ray m s.v1) (seen ray m s.v2), turn (seen ray m s.v2) (seen ray m s.v0)],
      k ≤ -(1 / 2 ^ 21 * (X * Y) + 1 / 2 ^ 140)) : s.intersect ray = some none ∧ s.intersectP ray = some false := by
  obtain ⟨o, d, tm⟩ := ray
  obtain ⟨na, wa⟩ := And.intro (number _ (List.mem_cons_self)) (wide _ (List.mem_cons_self))
  obtain ⟨nb, wb⟩ := And.intro (number _ (List.mem_cons_of_mem _ List.mem_cons_self)) (wide _ (List.mem_cons_of_mem _ List.mem_cons_self))
  obtain ⟨nc, wc⟩ := And.intro (number _ (List.mem_cons_of_mem _ (List.mem_cons_of_mem _ List.mem_cons_self)))
    (wide _ (List.mem_cons_of_mem _ (List.mem_cons_of_mem _ List.mem_cons_self)))
  clear number wide
  have X0 : 0 ≤ X := (abs_nonneg _).trans wa.1
  have Y0 : 0 ≤ Y := (abs_nonneg _).trans wa.2
  have XY : 0 ≤ X * Y := mul_nonneg X0 Y0
  obtain ⟨m0, k0, -, -, -⟩ := edge_ok nb nc wb wc hX hY
  obtain ⟨m1, k1, -, -, -⟩ := edge_ok nc na wc wa hX hY
  obtain ⟨m2, k2, -, -, -⟩ := edge_ok na nb wa wb hX hY
  rw [abs_le] at k0 k1 k2
  have hr : (stage s o d m).rejects tm = true := by
    have : (stage s o d m).mixed = true := by
      unfold stage Stage.mixed stageOf
      simp only [seen_eq] at *
      rw [Bool.and_eq_true, Bool.or_eq_true, Bool.or_eq_true, Bool.or_eq_true, Bool.or_eq_true, lt_ok m0 zero_ok.1, lt_ok m1 zero_ok.1, lt_ok m2 zero_ok.1]
      change _ ∧ (((lit 0 <. _) = true ∨ (lit 0 <. _) = true) ∨ (lit 0 <. _) = true)
      rw [lt_ok zero_ok.1 m0, lt_ok zero_ok.1 m1, lt_ok zero_ok.1 m2, zero_ok.2]
      simp only [List.mem_cons, List.not_mem_nil, or_false] at inner outer
      simp only [ulpHalf, tinyHalf] at k0 k1 k2
      constructor
      · obtain ⟨k, h | h | h, hk⟩ := outer
        · right; linarith [k2.2]
        · left; left; linarith [k0.2]
        · left; right; linarith [k1.2]
      · obtain ⟨k, h | h | h, hk⟩ := inner
        · right; linarith [k2.1]
        · left; left; linarith [k0.1]
        · left; right; linarith [k1.1]
    unfold Stage.rejects
    rw [this]; rfl
  rw [intersect_eq, intersectP_eq]
  simp only [] at hm
  rw [hm]
  simp [hr]

/-! ## C95: what is in front hides what is behind -/

namespace Spec
/-- Nothing is reported nearer than `B` along the line, nor beyond the range of the ray. -/
structure Beyond (B : ℚ) (s : Shape F32) (o d : V3 F32) : Prop where
  answers : ∀ tm, s.intersect ⟨o, d, tm⟩ ≠ none ∧ s.intersectP ⟨o, d, tm⟩ ≠ none
  far : ∀ tm i t, Reports s ⟨o, d, tm⟩ i t → AtLeast t B
  inRange : ∀ tm i t, Reports s ⟨o, d, tm⟩ i t → Num tm → 0 ≤ tm.val → B ≤ tm.val
end Spec

/-- **C95**: triangles all of whose corners are farther than `B` are beyond `B`. -/
theorem c95_triangle_beyond [Libm F32] (s : Triangle F32) (o d : V3 F32) (m : Axis) (hm : d.maxAbsAxis = some m) {B Z Z' : ℚ} (hB : B * (1 + 1 / 2 ^ 17) ≤ Z) (B0 : 0 ≤ B)
    (hb : ∀ tm, Between Z Z' (seen ⟨o, d, tm⟩ m s.v0) (seen ⟨o, d, tm⟩ m s.v1) (seen ⟨o, d, tm⟩ m s.v2)) : Beyond B s.toShape o d := by
  refine ⟨?_, ?_, ?_⟩
  · intro tm
    change s.intersect ⟨o, d, tm⟩ ≠ none ∧ s.intersectP ⟨o, d, tm⟩ ≠ none
    rw [intersect_eq, intersectP_eq, hm]
    simp
  · intro tm i t h
    obtain ⟨n, h1, -⟩ := c94_distance s ⟨o, d, tm⟩ m hm (hb tm) i t h
    refine Or.inr ⟨n, ?_⟩
    have := (hb tm).range.1
    linarith
  · intro tm i t h nt t0
    by_contra hc
    push Not at hc
    have := (hb tm).range.1
    have := (c94_limit s ⟨o, d, tm⟩ m hm (hb tm) nt t0 (by simp only []; linarith)).1
    unfold Reports at h
    change s.intersect _ = _ at h
    rw [this] at h; cases h

/-- The loop over the shapes ends with a hit in front. -/
theorem front_wins {o d : V3 F32} (front : Obj F32 → Prop) {A B : ℚ} (hAB : A < B) {N : ℚ} (hN : N ≤ B) :
    ∀ (ss : List (Obj F32)) (tm : F32) (h : Option (Hit F32)),
    (∀ x ∈ ss, (front x ∧ ∀ tm, x.shape.intersect ⟨o, d, tm⟩ ≠ none ∧ ∀ i t, Reports x.shape ⟨o, d, tm⟩ i t → Num t ∧ 0 ≤ t.val ∧ t.val ≤ A) ∨
      Beyond B x.shape o d) →
    ((AtLeast tm N ∧ ∃ x ∈ ss, front x ∧ ∀ tm, AtLeast tm N → ∃ i t, Reports x.shape ⟨o, d, tm⟩ i t ∧ (Num t ∧ 0 ≤ t.val ∧ t.val ≤ A)) ∨
      (Num tm ∧ 0 ≤ tm.val ∧ tm.val ≤ A ∧ ∃ i y, h = some ⟨i, y⟩ ∧ front y)) →
    ∃ r i y, closestHit ss ⟨o, d, tm⟩ h = some (r, some ⟨i, y⟩) ∧ front y := by
  intro ss
  induction ss with
  | nil =>
    intro tm h _ hd
    rcases hd with ⟨-, x, hx, -⟩ | ⟨-, -, -, i, y, rfl, hy⟩
    · cases hx
    · exact ⟨_, i, y, rfl, hy⟩
  | cons x ss ih =>
    intro tm h hall hst
    have hx := hall x List.mem_cons_self
    have hall' : ∀ y ∈ ss, _ := fun y hy => hall y (List.mem_cons_of_mem _ hy)
    have ans : x.shape.intersect ⟨o, d, tm⟩ ≠ none := by
      rcases hx with ⟨-, hx⟩ | hx
      · exact (hx tm).1
      · exact (hx.answers tm).1
    rcases Obj.intersect_cases x ⟨o, d, tm⟩ ans with ⟨e1, e2⟩ | ⟨i, t, e1, e2⟩
    · simp only [closestHit, e2, Option.bind_some, Option.isSome_none, Bool.false_eq_true, if_false]
      apply ih tm h hall'
      rcases hst with ⟨ht, y, hy, hf, hcov⟩ | hst
      · rcases List.mem_cons.1 hy with rfl | hy
        · exfalso
          obtain ⟨i, t, hr, -⟩ := hcov tm ht
          unfold Reports at hr; rw [e1] at hr; cases hr
        · exact Or.inl ⟨ht, y, hy, hf, hcov⟩
      · exact Or.inr hst
    · simp only [closestHit, e2, Option.bind_some, Option.isSome_some, if_true]
      apply ih t _ hall'
      rcases hx with ⟨hf, hx⟩ | hx
      · obtain ⟨n, t0, hA⟩ := (hx tm).2 i t e1
        exact Or.inr ⟨n, t0, hA, i, x, rfl, hf⟩
      · have hfar := hx.far tm i t e1
        rcases hst with ⟨ht, y, hy, hf, hcov⟩ | ⟨nt, t0, hA, -⟩
        · rcases List.mem_cons.1 hy with rfl | hy
          · obtain ⟨i', t', hr, hh⟩ := hcov tm ht
            unfold Reports at hr e1; rw [e1] at hr
            simp only [Option.some.injEq, Prod.mk.injEq] at hr
            obtain ⟨rfl, rfl⟩ := hr
            exact Or.inr ⟨hh.1, hh.2.1, hh.2.2, _, _, rfl, hf⟩
          · exact Or.inl ⟨hfar.mono hN, y, hy, hf, hcov⟩
        · exact absurd (hx.inRange tm i t e1 nt t0) (not_le.2 (by linarith))

theorem anyHit_of {ray : Ray F32} : ∀ ss : List (Obj F32), (∀ x ∈ ss, x.shape.intersectP ray ≠ none) → (∃ x ∈ ss, x.shape.intersectP ray = some true) →
    anyHit ray ss = some true := by
  intro ss
  induction ss with
  | nil => rintro _ ⟨x, hx, -⟩; cases hx
  | cons x ss ih =>
    intro h ⟨y, hy, e⟩
    unfold anyHit
    cases hx : x.shape.intersectP ray with
    | none => exact absurd hx (h x List.mem_cons_self)
    | some b =>
      cases b with
      | true => rfl
      | false =>
        rcases List.mem_cons.1 hy with rfl | hy
        · rw [hx] at e; cases e
        · exact ih (fun z hz => h z (List.mem_cons_of_mem _ hz)) ⟨y, hy, e⟩

/-- **C95**: what is in front hides what is behind.  A scene, in any order, consists of triangles in front, between the distances `Z` and `Z'` as
seen from the ray, and of other shapes beyond 1.03 `Z'`.  The ray goes through one of the triangles in front, which is not a sliver, and its
line enters the box of the scene.  Then the hit is on a triangle in front, and the ray is found to be blocked. -/
theorem c95_front_hides [Libm F32] (ss : List (Obj F32)) (c : Simple F32) (hc : Simple.new ss = some c) (ray : Ray F32) (m : Axis)
    (hm : ray.direction.maxAbsAxis = some m) {X Y Z Z' : ℚ} (front : Obj F32 → Prop)
    (hfront : ∀ x ∈ ss, front x → ∃ s : Triangle F32, x.shape = s.toShape ∧ Between Z Z' (seen ray m s.v0) (seen ray m s.v1) (seen ray m s.v2))
    (hback : ∀ x ∈ ss, ¬ front x → Beyond (103 / 100 * Z') x.shape ray.origin ray.direction)
    (covered : ∃ x ∈ ss, front x ∧ ∃ s : Triangle F32, x.shape = s.toShape ∧
      Plain X Y Z Z' (seen ray m s.v0) (seen ray m s.v1) (seen ray m s.v2) ∧ Through (seen ray m s.v0) (seen ray m s.v1) (seen ray m s.v2))
    (far : Reaches ray (51 / 50 * Z'))
    (hs : Sized c.bbox ray) (hz : ¬ NegZeroFace c.bbox ray) (t : ℚ) (ht : t = 0 ∨ (1 / 2 ^ 100 ≤ t ∧ t ≤ 2 ^ 120))
    (hin : RayPointInBox c.bbox ray t) (htm : AtLeast ray.tMax (t * (1 + 1 / 2 ^ 22))) :
    (∃ h, c.intersect ray = some (some h) ∧ front h.obj) ∧ c.intersectP ray = some true := by
  obtain ⟨t0, t1, hbox, -, -⟩ := c34_f32_partial c.bbox ray hs hz t ht hin htm
  have hcs : c.shapes = ss := by
    unfold Simple.new at hc
    cases hb : bboxOfShapes ss with
    | none => rw [hb] at hc; cases hc
    | some b => rw [hb] at hc; cases hc; rfl
  obtain ⟨y, hy, fy, s, es, plain, through⟩ := covered
  obtain ⟨s', es', hbet'⟩ := hfront y hy fy
  have Z0 : 1 / 2 ^ 20 ≤ Z := hbet'.range.1
  have ZZ : Z ≤ Z' := ((hbet'.deep _ List.mem_cons_self).1).trans (hbet'.deep _ List.mem_cons_self).2
  have Z'0 : 0 < Z' := lt_of_lt_of_le (by norm_num) (Z0.trans ZZ)
  obtain ⟨o, d, tm⟩ := ray
  have tri_ans : ∀ (s : Triangle F32) tm, s.intersect ⟨o, d, tm⟩ ≠ none ∧ s.intersectP ⟨o, d, tm⟩ ≠ none := by
    intro s tm
    simp only [] at hm
    rw [intersect_eq, intersectP_eq, hm]; simp
  have fr : ∀ x ∈ ss, front x → ∀ tm, x.shape.intersect ⟨o, d, tm⟩ ≠ none ∧ ∀ i t, Reports x.shape ⟨o, d, tm⟩ i t →
      Num t ∧ 0 ≤ t.val ∧ t.val ≤ Z' * (1 + 1 / 2 ^ 19) := by
    intro x hx hf tm'
    obtain ⟨s, e, hb⟩ := hfront x hx hf
    rw [e]
    refine ⟨(tri_ans s tm').1, ?_⟩
    intro i t h
    obtain ⟨n, h1, h2⟩ := c94_distance s ⟨o, d, tm'⟩ m hm hb i t h
    exact ⟨n, by linarith, h2⟩
  constructor
  · have key := front_wins (o := o) (d := d) front (A := Z' * (1 + 1 / 2 ^ 19)) (B := 103 / 100 * Z') (by linarith) (N := 51 / 50 * Z') (by linarith) ss tm none
      (by
        intro x hx
        by_cases hf : front x
        · exact Or.inl ⟨hf, fr x hx hf⟩
        · exact Or.inr (hback x hx hf))
      (Or.inl ⟨far, y, hy, fy, by
        intro tm' htm'
        obtain ⟨⟨i, t, hh⟩, -⟩ := c91_triangle_partial s ⟨o, d, tm'⟩ m hm plain through htm'
        have hh' : Reports y.shape ⟨o, d, tm'⟩ i t := by rw [es]; exact hh
        exact ⟨i, t, hh', (fr y hy fy tm').2 i t hh'⟩⟩)
    obtain ⟨r, i, z, e, hz⟩ := key
    refine ⟨⟨i, z⟩, ?_, hz⟩
    unfold Simple.intersect
    rw [hcs, hbox, e]; rfl
  · unfold Simple.intersectP
    rw [hcs, hbox]
    simp only [Option.isNone_some, Bool.false_eq_true, if_false]
    apply anyHit_of
    · intro x hx
      by_cases hf : front x
      · obtain ⟨s, e, -⟩ := hfront x hx hf
        rw [e]; exact (tri_ans s tm).2
      · exact ((hback x hx hf).answers tm).2
    · exact ⟨y, hy, by rw [es]; exact (c91_triangle_partial s ⟨o, d, tm⟩ m hm plain through far).2⟩

/-! ## Examples -/

namespace Demo
/-- A triangle behind the square of C91, at four times its distance. -/
def far0 : V3 F32 := ⟨f32 0, f32 0, f32 16⟩
def far1 : V3 F32 := ⟨f32 16, f32 0, f32 16⟩
def far2 : V3 F32 := ⟨f32 16, f32 32, f32 16⟩

def nearTri [Libm F32] (mat : Material F32) : Triangle F32 := ⟨corner0, corner3, corner2, none, false, mat⟩
def farTri [Libm F32] (mat : Material F32) : Triangle F32 := ⟨far0, far1, far2, none, false, mat⟩

theorem far_seen : seen slant .Z far0 = ⟨f32 (-8), f32 (-4), f32 4⟩ ∧ seen slant .Z far1 = ⟨f32 (-8), f32 12, f32 4⟩ ∧
    seen slant .Z far2 = ⟨f32 24, f32 12, f32 4⟩ := by decide +kernel

theorem far_nums : (Num (f32 (-8)) ∧ (f32 (-8)).val = -8) ∧ (Num (f32 (-4)) ∧ (f32 (-4)).val = -4) ∧ (Num (f32 4) ∧ (f32 4).val = 4) ∧
    (Num (f32 12) ∧ (f32 12).val = 12) ∧ (Num (f32 24) ∧ (f32 24).val = 24) ∧ (Num (f32 16) ∧ (f32 16).val = 16) ∧
    (Num (f32 32) ∧ (f32 32).val = 32) ∧ (Num (f32 8) ∧ (f32 8).val = 8) ∧ (Num (f32 2) ∧ (f32 2).val = 2) ∧ (Num (f32 0) ∧ (f32 0).val = 0) := by
  refine ⟨?_, ?_, ?_, ?_, ?_, ?_, ?_, ?_, ?_, ?_⟩
  · simpa using int_ok (n := -8) (by norm_num)
  · simpa using int_ok (n := -4) (by norm_num)
  · simpa using int_ok (n := 4) (by norm_num)
  · simpa using int_ok (n := 12) (by norm_num)
  · simpa using int_ok (n := 24) (by norm_num)
  · simpa using int_ok (n := 16) (by norm_num)
  · simpa using int_ok (n := 32) (by norm_num)
  · simpa using int_ok (n := 8) (by norm_num)
  · simpa using int_ok (n := 2) (by norm_num)
  · simpa using int_ok (n := 0) (by norm_num)

theorem far_between (tm : F32) : Between 4 4 (seen ⟨slant.origin, slant.direction, tm⟩ .Z far0) (seen ⟨slant.origin, slant.direction, tm⟩ .Z far1)
    (seen ⟨slant.origin, slant.direction, tm⟩ .Z far2) := by
  obtain ⟨c0, c1, c2⟩ := far_seen
  obtain ⟨⟨n1, v1⟩, ⟨n2, v2⟩, ⟨n3, v3⟩, ⟨n4, v4⟩, ⟨n5, v5⟩, -⟩ := far_nums
  change Between 4 4 (seen slant .Z far0) (seen slant .Z far1) (seen slant .Z far2)
  rw [c0, c1, c2]
  refine ⟨?_, ?_, ?_, ?_, ?_⟩
  · simp [n1, n2, n3, n4, n5]
  · simp [v1, v2, v3, v4, v5]; norm_num
  · unfold Coarse; simp [v1, v2, v3, v4, v5]; norm_num
  · simp [v3]
  · norm_num

theorem near_between : Between 1 1 (seen slant .Z corner0) (seen slant .Z corner3) (seen slant .Z corner2) := by
  obtain ⟨c0, c1, c2, c3⟩ := corners_seen
  obtain ⟨⟨n1, v1⟩, ⟨n2, v2⟩, ⟨n3, v3⟩, ⟨n4, v4⟩, ⟨n5, v5⟩⟩ := demo_nums
  rw [c0, c2, c3]
  refine ⟨?_, ?_, ?_, ?_, ?_⟩
  · simp [n1, n2, n3, n4, n5]
  · simp [v1, v2, v3, v4, v5]; norm_num
  · unfold Coarse; simp [v1, v2, v3, v4, v5]; norm_num
  · simp [v3]
  · norm_num

theorem near_plain : Plain 6 6 1 1 (seen slant .Z corner0) (seen slant .Z corner3) (seen slant .Z corner2) ∧
    Through (seen slant .Z corner0) (seen slant .Z corner3) (seen slant .Z corner2) := by
  obtain ⟨c0, c1, c2, c3⟩ := corners_seen
  obtain ⟨⟨n1, v1⟩, ⟨n2, v2⟩, ⟨n3, v3⟩, ⟨n4, v4⟩, ⟨n5, v5⟩⟩ := demo_nums
  rw [c0, c2, c3]
  refine ⟨⟨?_, ?_, ?_, ?_, ?_⟩, ?_⟩
  · simp [n1, n2, n3, n4, n5]
  · simp [v1, v2, v3, v4, v5]; norm_num
  · simp [v3]
  · unfold turn; simp only [v1, v2, v3, v4, v5]; norm_num
  · unfold turn; simp only [v1, v2, v3, v4, v5]; norm_num
  · left; unfold turn; simp only [v1, v2, v3, v4, v5]; norm_num

/-- The box of the two triangles. -/
def bothBox : BBox3 F32 := ⟨⟨f32 0, f32 0, f32 4⟩, ⟨f32 16, f32 32, f32 16⟩⟩
theorem bothBox_eq [Libm F32] (mat : Material F32) : (farTri mat).bbox.union (nearTri mat).bbox = bothBox := by
  change ((BBox3.new far0 far1).unionPoint far2).union ((BBox3.new corner0 corner3).unionPoint corner2) = bothBox
  have h : (((BBox3.new far0 far1).unionPoint far2).union ((BBox3.new corner0 corner3).unionPoint corner2)).min = bothBox.min ∧
      (((BBox3.new far0 far1).unionPoint far2).union ((BBox3.new corner0 corner3).unionPoint corner2)).max = bothBox.max := by decide +kernel
  generalize ((BBox3.new far0 far1).unionPoint far2).union ((BBox3.new corner0 corner3).unionPoint corner2) = b at h
  obtain ⟨l, u⟩ := b
  obtain ⟨h1, h2⟩ := h
  simp only [] at h1 h2
  rw [h1, h2]

/-- A triangle behind another one, tested first: the other one is reported. -/
example [Libm F32] (mat : Material F32) : ∃ c, Simple.new [⟨0, (farTri mat).toShape⟩, ⟨1, (nearTri mat).toShape⟩] = some c ∧
    (∃ h, c.intersect slant = some (some h) ∧ h.obj.addr = 1) ∧ c.intersectP slant = some true := by
  obtain ⟨⟨-, -⟩, ⟨-, -⟩, ⟨n4, v4⟩, -, -, ⟨n16, v16⟩, ⟨n32, v32⟩, -, ⟨n2, v2⟩, ⟨n0, v0⟩⟩ := far_nums
  obtain ⟨-, -, ⟨n1, v1⟩, -⟩ := demo_nums
  have hb : Simple.new [⟨0, (farTri mat).toShape⟩, ⟨1, (nearTri mat).toShape⟩] =
      some ⟨[⟨0, (farTri mat).toShape⟩, ⟨1, (nearTri mat).toShape⟩], bothBox⟩ := by
    rw [← bothBox_eq mat]; rfl
  refine ⟨_, hb, ?_⟩
  refine c95_front_hides _ _ hb slant .Z (by decide +kernel) (X := 6) (Y := 6) (Z := 1) (Z' := 1) (fun x => x.addr = 1) ?_ ?_ ?_ (Or.inl rfl) ?_ ?_ 1
    (by norm_num) ?_ (Or.inl rfl)
  · intro x hx h1
    simp only [List.mem_cons, List.not_mem_nil, or_false] at hx
    rcases hx with rfl | rfl
    · simp at h1
    · exact ⟨nearTri mat, rfl, near_between⟩
  · intro x hx h1
    simp only [List.mem_cons, List.not_mem_nil, or_false] at hx
    rcases hx with rfl | rfl
    · exact c95_triangle_beyond (farTri mat) _ _ .Z (by decide +kernel) (Z := 4) (Z' := 4) (by norm_num) (by norm_num) far_between
    · simp at h1
  · exact ⟨_, List.mem_cons_of_mem _ List.mem_cons_self, rfl, nearTri mat, rfl, near_plain⟩
  · intro a
    cases a <;> simp [bothBox, slant, V3.get, n0, n1, n2, n4, n16, n32, v0, v1, v2, v4, v16, v32] <;> norm_num
  · rintro ⟨a, h, -⟩
    revert h
    cases a <;> decide +kernel
  · intro a
    cases a <;> simp [bothBox, slant, V3.get, v0, v1, v2, v4, v16, v32] <;> norm_num

/-- The same ray backwards does not meet the triangle behind it. -/
def backwards : Ray F32 := ⟨⟨f32 0, f32 0, f32 0⟩, ⟨f32 (-1), f32 (-2), f32 (-4)⟩, Fl.inf false⟩

theorem back_seen : seen backwards .Z far0 = ⟨f32 (-8), f32 (-4), f32 (-4)⟩ ∧ seen backwards .Z far1 = ⟨f32 (-8), f32 12, f32 (-4)⟩ ∧
    seen backwards .Z far2 = ⟨f32 24, f32 12, f32 (-4)⟩ := by decide +kernel

example [Libm F32] (mat : Material F32) : (farTri mat).intersect backwards = some none ∧ (farTri mat).intersectP backwards = some false := by
  obtain ⟨c0, c1, c2⟩ := back_seen
  obtain ⟨⟨n1, v1⟩, ⟨n2, v2⟩, ⟨n3, v3⟩, ⟨n4, v4⟩, ⟨n5, v5⟩, -⟩ := far_nums
  apply c94_behind (farTri mat) backwards .Z (by decide +kernel)
  · simp [farTri, c0, c1, c2, n1, n2, n3, n4, n5]
  · simp [farTri, c0, c1, c2, v1, v2, v3, v4, v5]; norm_num
  · simp [farTri, c0, c1, c2, v2]

/-- The distance of the triangle behind, if it is the only one. -/
example [Libm F32] (mat : Material F32) (i : Interaction F32) (t : F32) (h : (farTri mat).intersect slant = some (some (i, t))) :
    4 * (1 - 1 / 2 ^ 19) ≤ t.val ∧ t.val ≤ 4 * (1 + 1 / 2 ^ 19) :=
  (c94_distance (farTri mat) slant .Z (by decide +kernel) (far_between _) i t h).2

/-- It is indeed hit, so the example before is not empty. -/
example [Libm F32] (mat : Material F32) : ∃ i t, (farTri mat).intersect slant = some (some (i, t)) := by
  obtain ⟨c0, c1, c2⟩ := far_seen
  obtain ⟨⟨n1, v1⟩, ⟨n2, v2⟩, ⟨n3, v3⟩, ⟨n4, v4⟩, ⟨n5, v5⟩, -⟩ := far_nums
  refine (c91_triangle_partial (farTri mat) slant .Z (by decide +kernel) (X := 24) (Y := 12) (Z := 4) (Z' := 4) ?_ ?_ (Or.inl rfl)).1
  · change Plain 24 12 4 4 (seen slant .Z far0) (seen slant .Z far1) (seen slant .Z far2)
    rw [c0, c1, c2]
    refine ⟨?_, ?_, ?_, ?_, ?_⟩
    · simp [n1, n2, n3, n4, n5]
    · simp [v1, v2, v3, v4, v5]; norm_num
    · simp [v3]
    · unfold turn; simp only [v1, v2, v3, v4, v5]; norm_num
    · unfold turn; simp only [v1, v2, v3, v4, v5]; norm_num
  · change Through (seen slant .Z far0) (seen slant .Z far1) (seen slant .Z far2)
    rw [c0, c1, c2]
    right; unfold turn; simp only [v1, v2, v3, v4, v5]; norm_num

/-- A ray that ends before the triangle. -/
example [Libm F32] (mat : Material F32) : (farTri mat).intersect ⟨slant.origin, slant.direction, f32 3⟩ = some none := by
  obtain ⟨-, -, -, ⟨n3, v3⟩, -⟩ := demo_nums
  exact (c94_limit (farTri mat) ⟨slant.origin, slant.direction, f32 3⟩ .Z (by decide +kernel) (far_between _) n3 (by simp only [v3]; norm_num)
    (by simp only [v3]; norm_num)).1

/-- A ray along the axis misses the square around the slanted one. -/
def sideways : Ray F32 := ⟨⟨f32 (-8), f32 0, f32 0⟩, ⟨f32 1, f32 2, f32 4⟩, Fl.inf false⟩
theorem side_seen : seen sideways .Z corner0 = ⟨f32 (-2), f32 7, f32 1⟩ ∧ seen sideways .Z corner3 = ⟨f32 6, f32 7, f32 1⟩ ∧
    seen sideways .Z corner2 = ⟨f32 6, f32 11, f32 1⟩ := by decide +kernel

example [Libm F32] (mat : Material F32) : (nearTri mat).intersect sideways = some none := by
  obtain ⟨c0, c1, c2⟩ := side_seen
  obtain ⟨⟨n1, v1⟩, -, -, -, ⟨n5, v5⟩⟩ := demo_nums
  obtain ⟨n7, v7⟩ : Num (f32 7) ∧ (f32 7).val = 7 := by simpa using int_ok (n := 7) (by norm_num)
  obtain ⟨n11, v11⟩ : Num (f32 11) ∧ (f32 11).val = 11 := by simpa using int_ok (n := 11) (by norm_num)
  refine (c96_clear_miss (nearTri mat) sideways .Z (by decide +kernel) (X := 6) (Y := 11) ?_ ?_ (by norm_num) (by norm_num) ?_ ?_).1
  · simp [nearTri, c0, c1, c2, n1, n5, n7, n11]
  · simp [nearTri, c0, c1, c2, v1, v5, v7, v11]; norm_num
  · simp only [nearTri, c0, c1, c2, turn, v1, v5, v7, v11]
    exact ⟨_, List.mem_cons_of_mem _ List.mem_cons_self, by norm_num⟩
  · simp only [nearTri, c0, c1, c2, turn, v1, v5, v7, v11]
    exact ⟨_, List.mem_cons_self, by norm_num⟩
end Demo

end PT
