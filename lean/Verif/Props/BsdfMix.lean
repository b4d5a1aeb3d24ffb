import Verif.Props.Bsdf
import Mathlib.Algebra.BigOperators.Intervals

/-! # Mixtures of scattering components (C60), exact arithmetic -/

namespace PT
open Spec

/-- The shading frame is orthonormal. -/
def Spec.Frame (b : BSDF ℝ) : Prop :=
  sq b.s = 1 ∧ sq b.t = 1 ∧ sq b.sn = 1 ∧ inner b.s b.t = 0 ∧ inner b.s b.sn = 0 ∧ inner b.t b.sn = 0

/-- A component is a mirror-like one. -/
def Spec.Specular (x : BxDF ℝ) : Prop := x.flag &&& SPECULAR ≠ 0

/-- A component's `sample_f` agrees with its own `f` and `pdf` (for canonical samples). -/
def Spec.SelfConsistent (x : BxDF ℝ) : Prop :=
  ∀ (wo : V3 ℝ) (u : V2 ℝ) (wi : V3 ℝ) (f : Spectrum ℝ) (p : ℝ), wo.z ≠ 0 → (0 ≤ u.x ∧ u.x < 1) → (0 ≤ u.y ∧ u.y < 1) →
    x.sampleF wo u = (wi, f, p) → p ≠ 0 → f = x.f wo wi ∧ p = x.pdf wo wi

/-- The component is of the kind (reflection or transmission) that matches the sides of the two directions with respect
to the geometric normal. -/
def Spec.Matches (b : BSDF ℝ) (x : BxDF ℝ) (wo wi : V3 ℝ) : Prop :=
  (0 < inner wi b.gn * inner wo b.gn ∧ x.flag &&& REFLECTION ≠ 0) ∨
  (¬ 0 < inner wi b.gn * inner wo b.gn ∧ x.flag &&& TRANSMISSION ≠ 0)

theorem hasFlag_iff (x : BxDF ℝ) {t : Nat} (k : ℕ) (ht : t = 2 ^ k) : x.hasFlag t = true ↔ x.flag &&& t ≠ 0 := by
  subst ht
  simp only [BxDF.hasFlag, beq_iff_eq, Nat.and_comm (2 ^ k)]
  rcases hb : Nat.testBit x.flag k with _ | _
  · have : x.flag &&& 2 ^ k = 0 := by
      apply Nat.eq_of_testBit_eq; intro i
      rw [Nat.testBit_and, Nat.testBit_two_pow]
      by_cases h : k = i
      · subst h; simp [hb]
      · simp [h]
    rw [this]
    have := Nat.two_pow_pos k
    simp; omega
  · have : x.flag &&& 2 ^ k = 2 ^ k := by
      apply Nat.eq_of_testBit_eq; intro i
      rw [Nat.testBit_and, Nat.testBit_two_pow]
      by_cases h : k = i
      · subst h; simp [hb]
      · simp [h]
    rw [this]
    have := Nat.two_pow_pos k
    simp

/-- The frame's two changes of coordinates are inverse to each other. -/
theorem frame_inverse (b : BSDF ℝ) (h : Frame b) (v : V3 ℝ) : b.worldToLocal (b.localToWorld v) = v := by
  obtain ⟨h1, h2, h3, h4, h5, h6⟩ := h
  simp only [BSDF.worldToLocal, BSDF.localToWorld, V3.dot]; real_ops
  simp only [Spec.sq, inner] at *
  ext <;> simp only []
  · linear_combination v.x * h1 + v.y * h4 + v.z * h5
  · linear_combination v.x * h4 + v.y * h2 + v.z * h6
  · linear_combination v.x * h5 + v.y * h6 + v.z * h3

theorem foldl_add_eq {γ : Type} (l : List γ) (g : γ → ℝ) (p : ℝ) : l.foldl (fun p i => p + g i) p = p + (l.map g).sum := by
  induction l generalizing p with
  | nil => simp
  | cons a l ih => simp only [List.foldl_cons, List.map_cons, List.sum_cons]; rw [ih]; ring

theorem sum_getElem {γ : Type} (l : List γ) (g : γ → ℝ) :
    (l.map g).sum = ∑ i ∈ Finset.range l.length, (l[i]?).elim 0 g := by
  induction l with
  | nil => simp
  | cons a l ih => rw [List.length_cons, Finset.sum_range_succ']; simp [ih]; ring

theorem foldl_skip {γ : Type} (l : List γ) (g : γ → ℝ) (k : ℕ) (x : γ) (hx : l[k]? = some x) :
    (List.range l.length).foldl (fun p i => if i = k then p else (l[i]?).elim p (fun y => p + g y)) (g x) = (l.map g).sum := by
  have hk : k < l.length := by
    by_contra h; rw [List.getElem?_eq_none (not_lt.mp h)] at hx; simp at hx
  have e : ∀ (p : ℝ) (i : ℕ), (if i = k then p else (l[i]?).elim p (fun y => p + g y)) =
      p + (if i = k then 0 else (l[i]?).elim 0 g) := by
    intro p i; split_ifs with h
    · simp
    · cases l[i]? <;> simp
  simp only [e]
  rw [foldl_add_eq, sum_getElem l g]
  have : ((List.range l.length).map (fun i => if i = k then 0 else (l[i]?).elim 0 g)).sum =
      ∑ i ∈ Finset.range l.length, (if i = k then 0 else (l[i]?).elim 0 g) := by
    rw [Finset.sum_range, ← List.sum_ofFn]; congr 1
    apply List.ext_getElem
    · simp
    · intro i h1 h2
      have hi : i < l.length := by simpa using h1
      simp [hi]
  rw [this, ← Finset.add_sum_erase _ _ (Finset.mem_range.mpr hk), ← Finset.add_sum_erase (Finset.range l.length)
    (fun i => (l[i]?).elim 0 g) (Finset.mem_range.mpr hk)]
  simp only [if_true, hx, zero_add]
  congr 1
  apply Finset.sum_congr rfl
  intro i hi
  rw [if_neg (Finset.ne_of_mem_erase hi)]

/-- Facts about a successful draw. -/
theorem sampleF_cases (b : BSDF ℝ) (hn : b.bxdfs.length < 2 ^ 64) (wo : V3 ℝ) (u : V2 ℝ) (hu : 0 ≤ u.x ∧ u.x < 1)
    (hv : 0 ≤ u.y ∧ u.y < 1) (wi : V3 ℝ) (f : Spectrum ℝ) (p : ℝ) (flag : Nat)
    (h : b.sampleF wo u = some (wi, f, p, flag)) (hp : p ≠ 0) :
    ∃ (k : ℕ) (x : BxDF ℝ) (u' : V2 ℝ) (w : V3 ℝ) (f0 : Spectrum ℝ) (p0 : ℝ),
      b.bxdfs[k]? = some x ∧ (0 ≤ u'.x ∧ u'.x < 1) ∧ u'.y = u.y ∧ u.x * b.bxdfs.length = k + u'.x ∧
      (b.worldToLocal wo).z ≠ 0 ∧ x.sampleF (b.worldToLocal wo) u' = (w, f0, p0) ∧ p0 ≠ 0 ∧ wi = b.localToWorld w ∧ flag = x.flag ∧
      ((x.flag &&& SPECULAR = 0 ∧ 1 < b.bxdfs.length ∧
          f = BSDF.sumF b.bxdfs (decide (0 < inner wi b.gn * inner wo b.gn)) (b.worldToLocal wo) w ∧
          p = ((List.range b.bxdfs.length).foldl (fun q i => if i = k then q else
            (b.bxdfs[i]?).elim q (fun y => q + y.pdf (b.worldToLocal wo) w)) p0) / b.bxdfs.length) ∨
        ((x.flag &&& SPECULAR ≠ 0 ∨ b.bxdfs.length = 1) ∧ f = f0 ∧ p = p0 / b.bxdfs.length)) := by
  unfold BSDF.sampleF at h
  simp only [] at h
  by_cases h0 : b.bxdfs.length = 0
  · rw [if_pos h0] at h
    simp only [BSDF.noSample, Option.some.injEq, Prod.mk.injEq] at h
    exact absurd h.2.2.1.symm (by rw [r_lit]; simpa using hp)
  · rw [if_neg h0] at h
    set n := b.bxdfs.length with hnd
    have hnpos : 0 < n := Nat.pos_of_ne_zero h0
    set kf := u.x * (n : ℝ) with hkf
    have hkf0 : 0 ≤ kf := by have := hu.1; positivity
    have hkfn : kf < n := by
      rw [hkf]; have : (0 : ℝ) < n := by exact_mod_cast hnpos
      nlinarith [hu.2]
    have hfl0 : 0 ≤ ⌊kf⌋ := Int.floor_nonneg.mpr hkf0
    have hfl1 : ⌊kf⌋ < n := by rw [Int.floor_lt]; exact_mod_cast hkfn
    have hk : toUsize (Scalar.floor (u.x *. ofInt (n : ℤ))) = ⌊kf⌋.toNat := by
      simp only [toUsize]; real_ops
      rw [Int.cast_natCast, ← hkf]
      have : truncInt ((⌊kf⌋ : ℤ) : ℝ) = ⌊kf⌋ := by
        simp only [truncInt]; rw [if_neg (by simpa using hfl0)]; simp
      rw [this]; simp only [satInt]
      rw [if_neg (by omega), if_neg (by omega)]
    set k := ⌊kf⌋.toNat with hkd
    have hkr : ((k : ℕ) : ℝ) = ⌊kf⌋ := by
      rw [hkd]; have : ((⌊kf⌋.toNat : ℕ) : ℤ) = ⌊kf⌋ := Int.toNat_of_nonneg hfl0
      exact_mod_cast congrArg (Int.cast : ℤ → ℝ) this
    rw [hk] at h
    cases hx : b.bxdfs[k]? with
    | none => rw [hx] at h; simp at h
    | some x =>
      rw [hx] at h
      simp only [] at h
      real_ops at h
      by_cases h1 : (b.worldToLocal wo).z = 0
      · rw [if_pos h1] at h
        simp only [BSDF.noSample, Option.some.injEq, Prod.mk.injEq] at h
        exact absurd h.2.2.1.symm (by rw [r_lit]; simpa using hp)
      · rw [if_neg h1, Int.cast_natCast, Int.cast_natCast, ← hkf] at h
        cases hs : x.sampleF (b.worldToLocal wo) ⟨kf - k, u.y⟩ with
        | mk w rest =>
          obtain ⟨f0, p0⟩ := rest
          obtain ⟨xfl, xf, xsf, xp⟩ := x
          dsimp only at hs h
          simp only [hs] at h
          set x : BxDF ℝ := ⟨xfl, xf, xsf, xp⟩ with hxd
          by_cases h2 : p0 = 0
          · rw [if_pos h2] at h
            simp only [BSDF.noSample, Option.some.injEq, Prod.mk.injEq] at h
            exact absurd h.2.2.1.symm (by rw [r_lit]; simpa using hp)
          · rw [if_neg h2] at h
            refine ⟨k, x, ⟨kf - k, u.y⟩, w, f0, p0, hx, ⟨?_, ?_⟩, rfl, by simp only []; ring, h1, hs, h2, ?_⟩
            · simp only []; rw [hkr]; exact sub_nonneg.mpr (Int.floor_le kf)
            · simp only []; rw [hkr]; linarith [Int.lt_floor_add_one kf]
            · have hflag := hasFlag_iff x (t := SPECULAR) 4 rfl
              simp only [Option.some.injEq, Prod.mk.injEq] at h
              obtain ⟨e1, e2, e3, e4⟩ := h
              refine ⟨e1.symm, e4.symm, ?_⟩
              by_cases hsp : x.flag &&& SPECULAR = 0
              · have hff : x.hasFlag SPECULAR = false := by
                  rw [← Bool.not_eq_true, hflag]; simpa using hsp
                by_cases hn1 : 1 < n
                · left
                  simp only [hff, hn1, Bool.not_false, decide_true, Bool.and_self, if_true] at e2 e3
                  refine ⟨hsp, hn1, ?_, ?_⟩
                  · rw [← e2, e1]; simp only [dot_eq]
                  · rw [← e3]
                · right
                  simp only [hff, hn1, decide_false, Bool.and_false, Bool.false_eq_true, if_false] at e2 e3
                  have : n = 1 := by omega
                  refine ⟨Or.inr this, e2.symm, ?_⟩
                  rw [← e3, this]; simp
              · right
                have hff : x.hasFlag SPECULAR = true := hflag.mpr hsp
                simp only [hff, Bool.not_true, Bool.false_and, Bool.false_eq_true, if_false] at e2 e3
                refine ⟨Or.inl hsp, e2.symm, ?_⟩
                rw [← e3]
                split_ifs with hn1
                · rfl
                · have : n = 1 := by omega
                  rw [this]; simp

/-- C60: a non-specular pick: the returned pdf is the pdf method's value for the returned direction; the returned value
is the value method's, for a mixture of several components, and for a single component whose kind matches the sides of
the two directions with respect to the geometric normal. -/
theorem c60_sample_consistent (b : BSDF ℝ) (hn : b.bxdfs.length < 2 ^ 64) (hf : Frame b)
    (hc : ∀ x ∈ b.bxdfs, ¬ Specular x → SelfConsistent x) (wo : V3 ℝ) (u : V2 ℝ) (hu : 0 ≤ u.x ∧ u.x < 1)
    (hv : 0 ≤ u.y ∧ u.y < 1) (wi : V3 ℝ) (f : Spectrum ℝ) (p : ℝ) (flag : Nat)
    (h : b.sampleF wo u = some (wi, f, p, flag)) (hp : p ≠ 0) (hflag : flag &&& SPECULAR = 0) :
    p = b.pdf wo wi ∧ (1 < b.bxdfs.length → f = b.f wo wi) ∧ ((∀ x ∈ b.bxdfs, Matches b x wo wi) → f = b.f wo wi) := by
  obtain ⟨k, x, u', w, f0, p0, hx, hu', hv', _, hz, hs, hp0, hwi, hfl, hcase⟩ := sampleF_cases b hn wo u hu hv wi f p flag h hp
  have hmem : x ∈ b.bxdfs := List.mem_of_getElem? hx
  have hns : x.flag &&& SPECULAR = 0 := by rw [← hfl]; exact hflag
  obtain ⟨c1, c2⟩ := hc x hmem (by simp only [Specular, hns]; simp) (b.worldToLocal wo) u' w f0 p0 hz hu' (by rw [hv']; exact hv) hs hp0
  have hloc : b.worldToLocal wi = w := by rw [hwi]; exact frame_inverse b hf w
  have hpos : b.bxdfs.length ≠ 0 := by
    intro h0; rw [List.eq_nil_of_length_eq_zero h0] at hmem; simp at hmem
  have hpdf : b.pdf wo wi = ((b.bxdfs.map (fun y => y.pdf (b.worldToLocal wo) w)).sum) / b.bxdfs.length := by
    simp only [BSDF.pdf]; real_ops
    rw [if_neg hpos, if_neg hz, hloc, foldl_add_eq]; simp
  have hval : b.f wo wi = BSDF.sumF b.bxdfs (decide (0 < inner wi b.gn * inner wo b.gn)) (b.worldToLocal wo) w := by
    simp only [BSDF.f]; real_ops
    rw [if_neg hz, hloc, dot_eq, dot_eq]
  have hR := fun y : BxDF ℝ => hasFlag_iff y (t := REFLECTION) 0 rfl
  have hT := fun y : BxDF ℝ => hasFlag_iff y (t := TRANSMISSION) 1 rfl
  rcases hcase with ⟨_, h1, e1, e2⟩ | ⟨h1, e1, e2⟩
  · refine ⟨?_, fun _ => by rw [hval, e1], fun _ => by rw [hval, e1]⟩
    rw [hpdf, e2, c2, foldl_skip b.bxdfs (fun y => y.pdf (b.worldToLocal wo) w) k x hx]
  · have hlen : b.bxdfs.length = 1 := by
      rcases h1 with h1 | h1
      · exact absurd hns h1
      · exact h1
    obtain ⟨y, hy⟩ := List.length_eq_one_iff.mp hlen
    have hxy : x = y := by rw [hy] at hmem; simpa using hmem
    subst hxy
    refine ⟨?_, fun h => by omega, ?_⟩
    · rw [hpdf, e2, c2, hy]; simp
    · intro hm
      rw [hval, e1, c1, hy]
      simp only [BSDF.sumF, List.foldl_cons, List.foldl_nil]
      rw [if_pos]
      · ext <;> simp [Spectrum.add, Spectrum.zero, r_add, r_lit]
      · rcases hm x hmem with ⟨m1, m2⟩ | ⟨m1, m2⟩
        · rw [(hR x).mpr m2]; simp [m1]
        · rw [(hT x).mpr m2]; simp [m1]

/-- C60: a specular pick: the direction and value are the component's own and the pdf is the component's divided by the
number of components. -/
theorem c60_specular_pick (b : BSDF ℝ) (hn : b.bxdfs.length < 2 ^ 64) (wo : V3 ℝ) (u : V2 ℝ) (hu : 0 ≤ u.x ∧ u.x < 1)
    (hv : 0 ≤ u.y ∧ u.y < 1) (wi : V3 ℝ) (f : Spectrum ℝ) (p : ℝ) (flag : Nat)
    (h : b.sampleF wo u = some (wi, f, p, flag)) (hp : p ≠ 0) (hflag : flag &&& SPECULAR ≠ 0) :
    ∃ x ∈ b.bxdfs, x.flag = flag ∧ ∃ (u' : V2 ℝ) (w : V3 ℝ) (p0 : ℝ), (0 ≤ u'.x ∧ u'.x < 1) ∧ u'.y = u.y ∧
      x.sampleF (b.worldToLocal wo) u' = (w, f, p0) ∧ wi = b.localToWorld w ∧ p = p0 / b.bxdfs.length := by
  obtain ⟨k, x, u', w, f0, p0, hx, hu', hv', _, hz, hs, hp0, hwi, hfl, hcase⟩ := sampleF_cases b hn wo u hu hv wi f p flag h hp
  refine ⟨x, List.mem_of_getElem? hx, hfl.symm, u', w, p0, hu', hv', ?_, hwi, ?_⟩
  · rcases hcase with ⟨h1, _⟩ | ⟨_, e1, _⟩
    · rw [hfl] at hflag; exact absurd h1 hflag
    · rw [e1]; exact hs
  · rcases hcase with ⟨h1, _⟩ | ⟨_, _, e2⟩
    · rw [hfl] at hflag; exact absurd h1 hflag
    · exact e2

/-! The components of the code are self-consistent. -/

theorem selfConsistent_lambertian (r : Spectrum ℝ) : SelfConsistent (lambertianReflection r) := by
  intro wo u wi f p hz hu hv h _
  obtain ⟨_, _, _, h4, h5, _⟩ := c57_lambertian_sample r wo hz u ⟨hu.1, hu.2.le⟩ ⟨hv.1, hv.2.le⟩ wi f p h
  exact ⟨h5, h4⟩

theorem spherical_unit {t2 phi : ℝ} (ht : 0 ≤ t2) :
    sq (V3.fromSphericalDirection (Real.sqrt (max (1 - 1 / Real.sqrt (1 + t2) * (1 / Real.sqrt (1 + t2))) 0)) (1 / Real.sqrt (1 + t2)) phi) = 1 ∧
    0 < 1 / Real.sqrt (1 + t2) := by
  have h1 : 0 < Real.sqrt (1 + t2) := Real.sqrt_pos.mpr (by linarith)
  have h2 : Real.sqrt (1 + t2) ^ 2 = 1 + t2 := Real.sq_sqrt (by linarith)
  have h3 : 0 ≤ 1 - 1 / Real.sqrt (1 + t2) * (1 / Real.sqrt (1 + t2)) := by
    have : 1 / Real.sqrt (1 + t2) * (1 / Real.sqrt (1 + t2)) = 1 / (1 + t2) := by
      rw [div_mul_div_comm, one_mul, Real.mul_self_sqrt (by linarith)]
    rw [this, sub_nonneg, div_le_one (by linarith)]; linarith
  refine ⟨?_, by positivity⟩
  rw [max_eq_left h3]
  have h4 := Real.sq_sqrt h3
  generalize Real.sqrt (1 - 1 / Real.sqrt (1 + t2) * (1 / Real.sqrt (1 + t2))) = s at *
  generalize 1 / Real.sqrt (1 + t2) = c at *
  simp only [V3.fromSphericalDirection, Spec.sq]; real_ops
  have := Real.sin_sq_add_cos_sq phi
  linear_combination h4 + s ^ 2 * this

/-- The sampled microfacet normal is a unit vector strictly in `wo`'s hemisphere. -/
theorem sampleWh_spec {m : Microfacet ℝ} (hx : 0 < m.ax) (hy : 0 < m.ay) {wo : V3 ℝ} (hz : wo.z ≠ 0) {u : V2 ℝ} (hu : 0 ≤ u.x ∧ u.x < 1) :
    sq (m.sampleWh wo u) = 1 ∧ 0 < (m.sampleWh wo u).z * wo.z := by
  have key : ∀ t2 phi : ℝ, 0 ≤ t2 →
      let wh := V3.fromSphericalDirection (Real.sqrt (max (1 - 1 / Real.sqrt (1 + t2) * (1 / Real.sqrt (1 + t2))) 0)) (1 / Real.sqrt (1 + t2)) phi
      let w := if (!sameHemisphere wo wh) = true then wh.smul (-1) else wh
      sq w = 1 ∧ 0 < w.z * wo.z := by
    intro t2 phi ht wh w
    obtain ⟨h1, h2⟩ := spherical_unit (phi := phi) ht
    have hwz : wh.z = 1 / Real.sqrt (1 + t2) := rfl
    have h1' : sq wh = 1 := h1
    simp only [w, sameHemisphere]; real_ops
    by_cases hh : 0 < wo.z * wh.z
    · simp only [hh, decide_true, Bool.not_true, Bool.false_eq_true, if_false]
      exact ⟨h1', by linarith⟩
    · simp only [hh, decide_false, Bool.not_false, if_true]
      refine ⟨?_, ?_⟩
      · simp only [V3.smul, Spec.sq] at *; real_ops; linarith
      · simp only [V3.smul]; real_ops
        have hpos : 0 < wh.z := by rw [hwz]; exact h2
        have : wo.z < 0 := by
          rcases lt_or_gt_of_ne hz with h | h
          · exact h
          · exact absurd (mul_pos h hpos) hh
        nlinarith
  have h1u : 0 < 1 - u.x := by linarith [hu.2]
  have h0u := hu.1
  simp only [Microfacet.sampleWh]
  real_ops
  by_cases h1 : m.ax = m.ay
  · simp only [h1, if_true]
    exact key _ _ (by positivity)
  · simp only [h1, if_false]
    generalize (if 1 / 2 < u.y then _ else _) = phi
    exact key _ _ (by have := mul_self_nonneg (Real.cos phi); have := mul_self_nonneg (Real.sin phi); positivity)

theorem normalize_pos_smul {w : V3 ℝ} (hw : sq w = 1) {c : ℝ} (hc : 0 < c) : (w.smul c).normalize = w := by
  have hl : (w.smul c).length = c := by
    rw [length_eq]
    have : sq (w.smul c) = c ^ 2 := by simp only [V3.smul, Spec.sq] at *; real_ops; linear_combination c ^ 2 * hw
    rw [this, Real.sqrt_sq hc.le]
  ext <;> simp only [V3.normalize, hl] <;> simp only [V3.smul] <;> real_ops <;> field_simp

theorem selfConsistent_microfacetReflection (r : Spectrum ℝ) {m : Microfacet ℝ} (hx : 0 < m.ax) (hy : 0 < m.ay) (fr : Fresnel ℝ) :
    SelfConsistent (microfacetReflection r m fr) := by
  intro wo u wi f p hz hu hv h hp
  obtain ⟨g1, g2⟩ := sampleWh_spec hx hy hz hu
  simp only [microfacetReflection, MicrofacetReflection.sampleF] at h
  generalize m.sampleWh wo u = wh at *
  real_ops at h
  rw [if_neg hz] at h
  by_cases hh : sameHemisphere wo (reflect wo wh) = true
  · simp only [hh, Bool.not_true, Bool.false_eq_true, if_false, Prod.mk.injEq] at h
    obtain ⟨e1, e2, e3⟩ := h
    subst e1
    refine ⟨e2.symm, ?_⟩
    have hpos : 0 < inner wo wh := by
      simp only [sameHemisphere] at hh; real_ops at hh
      rw [reflect_eq] at hh
      simp only [comb] at hh
      have h2 : 0 < wo.z * wo.z := mul_self_pos.mpr hz
      by_contra hc
      have : inner wo wh * (wh.z * wo.z) ≤ 0 := mul_nonpos_of_nonpos_of_nonneg (not_lt.mp hc) g2.le
      nlinarith
    have hsum : (wo.add (reflect wo wh)).normalize = wh := by
      have : wo.add (reflect wo wh) = wh.smul (2 * inner wo wh) := by
        rw [reflect_eq]; ext <;> simp only [V3.add, V3.smul, comb] <;> real_ops <;> ring
      rw [this]; exact normalize_pos_smul g1 (by linarith)
    simp only [microfacetReflection, MicrofacetReflection.pdf]
    rw [hh, hsum]; simp only [Bool.not_true, Bool.false_eq_true, if_false]
    real_ops; exact e3.symm
  · simp only [hh, Bool.not_false, if_true, noLocalSample, Prod.mk.injEq] at h
    exact absurd h.2.2.symm (by rw [r_lit]; simpa using hp)

theorem selfConsistent_microfacetTransmission (t : Spectrum ℝ) (ea eb : ℝ) (m : Microfacet ℝ) :
    SelfConsistent (microfacetTransmission t ea eb m) := by
  intro wo u wi f p hz hu hv h hp
  simp only [microfacetTransmission, MicrofacetTransmission.sampleF] at h
  real_ops at h
  rw [if_neg hz] at h
  cases hr : refract wo (m.sampleWh wo u) (if 0 < cosTheta wo then ea / eb else eb / ea) with
  | none =>
    rw [hr] at h; simp only [noLocalSample, Prod.mk.injEq] at h
    exact absurd h.2.2.symm (by rw [r_lit]; simpa using hp)
  | some w =>
    rw [hr] at h; simp only [Prod.mk.injEq] at h
    obtain ⟨e1, e2, e3⟩ := h
    subst e1
    exact ⟨e2.symm, e3.symm⟩

theorem specular_not (r : Spectrum ℝ) (fr : Fresnel ℝ) (t : Spectrum ℝ) (a b : ℝ) :
    Specular (specularReflection r fr) ∧ Specular (specularTransmission t a b) := by
  constructor <;> simp [Specular, specularReflection, specularTransmission, REFLECTION, TRANSMISSION, SPECULAR]

/-- The shading frame of `BSDF::new` is orthonormal when the shading normal is a unit vector and the tangent is
non-zero and perpendicular to it. -/
theorem c60_frame (i : Interaction ℝ) (hn : sq i.sn = 1) (ht : i.dpdu ≠ V3.zero) (hp : inner i.dpdu i.sn = 0) :
    Frame (BSDF.new i) := by
  have h1 := sq_normalize ht
  have h2 : inner i.dpdu.normalize i.sn = 0 := by
    have hl := (length_pos ht).ne'
    simp only [V3.normalize, inner] at *; real_ops
    field_simp; linarith
  simp only [Frame, BSDF.new]
  generalize i.dpdu.normalize = s at *
  generalize i.sn = n at *
  refine ⟨h1, ?_, hn, ?_, h2, ?_⟩
  · simp only [V3.cross, Spec.sq, inner] at *; real_ops
    linear_combination hn * (s.x ^ 2 + s.y ^ 2 + s.z ^ 2) + h1 - h2 * (s.x * n.x + s.y * n.y + s.z * n.z)
  · simp only [V3.cross, inner] at *; real_ops; ring
  · simp only [V3.cross, inner] at *; real_ops; ring

/-- Every component that the materials of the code put into a BSDF is specular or self-consistent, provided roughness
textures are positive (or, for specular surfaces, all zero). -/
theorem c60_material_components [HasInf ℝ] (i : Interaction ℝ) (kd ks kr kt eta3 k3 : TextureOf ℝ (Spectrum ℝ))
    (eta ru rv : TextureOf ℝ ℝ) (hr : (ru i = 0 ∧ rv i = 0) ∨ (0 < ru i ∧ 0 < rv i)) (x : BxDF ℝ)
    (hx : x ∈ (lambertianMaterial kd i).bxdfs ∨ x ∈ (mirrorMaterial kr i).bxdfs ∨ x ∈ (metalMaterial kr eta3 k3 ru rv i).bxdfs ∨
      x ∈ (glassMaterial kr kt eta ru rv i).bxdfs ∨ x ∈ (plasticMaterial kd ks ru i).bxdfs) :
    Specular x ∨ SelfConsistent x := by
  have sr := fun r f => (specular_not r f (Spectrum.of 0) 0 0).1
  have st := fun t a b => (specular_not (Spectrum.of 0) fresnelNoOp t a b).2
  have mr : ∀ r f, ¬(ru i = 0 ∧ rv i = 0) → SelfConsistent (microfacetReflection r ⟨ru i, rv i⟩ f) := by
    intro r f h; rcases hr with h' | h'
    · exact absurd h' h
    · exact selfConsistent_microfacetReflection r h'.1 h'.2 f
  have mr' : ∀ r f, ¬(ru i = 0) → SelfConsistent (microfacetReflection r ⟨ru i, ru i⟩ f) := by
    intro r f h; rcases hr with h' | h'
    · exact absurd h'.1 h
    · exact selfConsistent_microfacetReflection r h'.1 h'.1 f
  rcases hx with hx | hx | hx | hx | hx
  · simp only [lambertianMaterial] at hx
    split_ifs at hx
    · simp [BSDF.new] at hx
    · simp only [BSDF.new, BSDF.add, List.nil_append, List.mem_singleton] at hx
      rw [hx]; exact Or.inr (selfConsistent_lambertian _)
  · simp only [mirrorMaterial] at hx
    split_ifs at hx
    · simp [BSDF.new] at hx
    · simp only [BSDF.new, BSDF.add, List.nil_append, List.mem_singleton] at hx
      rw [hx]; exact Or.inl (sr _ _)
  · simp only [metalMaterial] at hx; real_ops at hx
    split_ifs at hx with h
    · simp only [BSDF.new, BSDF.add, List.nil_append, List.mem_singleton] at hx
      rw [hx]; exact Or.inl (sr _ _)
    · simp only [BSDF.new, BSDF.add, List.nil_append, List.mem_singleton] at hx
      rw [hx]; exact Or.inr (mr _ _ (by simpa using h))
  · simp only [glassMaterial] at hx; real_ops at hx
    split_ifs at hx with h
    all_goals simp only [BSDF.new, BSDF.add, List.nil_append, List.mem_singleton, List.cons_append, List.mem_cons, List.not_mem_nil, or_false] at hx
    · rw [hx]; exact Or.inl (sr _ _)
    · rw [hx]; exact Or.inl (st _ _ _)
    · rcases hx with hx | hx
      · rw [hx]; exact Or.inl (sr _ _)
      · rw [hx]; exact Or.inl (st _ _ _)
    · rw [hx]; exact Or.inr (mr _ _ (by simpa using h))
    · rw [hx]; exact Or.inr (selfConsistent_microfacetTransmission _ _ _ _)
    · rcases hx with hx | hx
      · rw [hx]; exact Or.inr (mr _ _ (by simpa using h))
      · rw [hx]; exact Or.inr (selfConsistent_microfacetTransmission _ _ _ _)
  · have hx' : x = lambertianReflection (clampedTex kd i) ∨
        x = specularReflection (clampedTex ks i) (fresnelDielectric (3 / 2) 1) ∨
        (x = microfacetReflection (clampedTex ks i) ⟨ru i, ru i⟩ (fresnelDielectric (3 / 2) 1) ∧ ¬ru i = 0) := by
      simp only [plasticMaterial] at hx; real_ops at hx
      split_ifs at hx
      all_goals simp [BSDF.new, BSDF.add] at hx
      all_goals simp [*]
      all_goals aesop
    rcases hx' with h | h | ⟨h, h0⟩
    · rw [h]; exact Or.inr (selfConsistent_lambertian _)
    · rw [h]; exact Or.inl (sr _ _)
    · rw [h]; exact Or.inr (mr' _ _ h0)

theorem material_length [HasInf ℝ] (i : Interaction ℝ) (kd ks kr kt eta3 k3 : TextureOf ℝ (Spectrum ℝ)) (eta ru rv : TextureOf ℝ ℝ)
    (b : BSDF ℝ)
    (hb : b = lambertianMaterial kd i ∨ b = mirrorMaterial kr i ∨ b = metalMaterial kr eta3 k3 ru rv i ∨
      b = glassMaterial kr kt eta ru rv i ∨ b = plasticMaterial kd ks ru i) :
    b.bxdfs.length ≤ 2 ∧ b.s = i.dpdu.normalize ∧ b.t = i.sn.cross i.dpdu.normalize ∧ b.sn = i.sn ∧ b.gn = i.n := by
  rcases hb with hb | hb | hb | hb | hb <;> subst hb
  · simp only [lambertianMaterial]; split_ifs <;> simp [BSDF.new, BSDF.add]
  · simp only [mirrorMaterial]; split_ifs <;> simp [BSDF.new, BSDF.add]
  · simp only [metalMaterial]; split_ifs <;> simp [BSDF.new, BSDF.add]
  · simp only [glassMaterial]; split_ifs <;> simp [BSDF.new, BSDF.add]
  · simp only [plasticMaterial]; split_ifs <;> simp [BSDF.new, BSDF.add]

/-- C60 for the materials of the code, on a surface with a unit shading normal and a perpendicular tangent. -/
theorem c60_materials [HasInf ℝ] (i : Interaction ℝ) (hn : sq i.sn = 1) (ht : i.dpdu ≠ V3.zero) (hp : inner i.dpdu i.sn = 0)
    (kd ks kr kt eta3 k3 : TextureOf ℝ (Spectrum ℝ)) (eta ru rv : TextureOf ℝ ℝ)
    (hr : (ru i = 0 ∧ rv i = 0) ∨ (0 < ru i ∧ 0 < rv i)) (b : BSDF ℝ)
    (hb : b = lambertianMaterial kd i ∨ b = mirrorMaterial kr i ∨ b = metalMaterial kr eta3 k3 ru rv i ∨
      b = glassMaterial kr kt eta ru rv i ∨ b = plasticMaterial kd ks ru i) (wo : V3 ℝ) (u : V2 ℝ) (hu : 0 ≤ u.x ∧ u.x < 1)
    (hv : 0 ≤ u.y ∧ u.y < 1) (wi : V3 ℝ) (f : Spectrum ℝ) (p : ℝ) (flag : Nat)
    (h : b.sampleF wo u = some (wi, f, p, flag)) (hp : p ≠ 0) (hflag : flag &&& SPECULAR = 0) :
    p = b.pdf wo wi ∧ (1 < b.bxdfs.length → f = b.f wo wi) ∧ ((∀ x ∈ b.bxdfs, Matches b x wo wi) → f = b.f wo wi) := by
  obtain ⟨h1, h2, h3, h4, h5⟩ := material_length i kd ks kr kt eta3 k3 eta ru rv b hb
  have hf : Frame b := by
    have := c60_frame i hn ht ‹_›
    simp only [Frame, BSDF.new] at this
    simp only [Frame, h2, h3, h4]; exact this
  refine c60_sample_consistent b (by omega) hf ?_ wo u hu hv wi f p flag h hp hflag
  intro x hx hs
  refine (c60_material_components i kd ks kr kt eta3 k3 eta ru rv hr x ?_).resolve_left hs
  rcases hb with hb | hb | hb | hb | hb <;> subst hb <;> simp [hx]

/-- What the restriction to matching sides excludes: a single diffuse component on a surface whose geometric and shading
normals differ. The sampled direction is above the shading normal's horizon but below the geometric one; `sample_f`
returns the component's value, `f` returns black. -/
theorem c60_single_component_mismatch :
    ∃ (b : BSDF ℝ) (wo wi : V3 ℝ) (u : V2 ℝ) (f : Spectrum ℝ) (p : ℝ) (flag : Nat), Frame b ∧ sq b.gn = 1 ∧
      (∀ x ∈ b.bxdfs, SelfConsistent x) ∧ (0 ≤ u.x ∧ u.x < 1) ∧ (0 ≤ u.y ∧ u.y < 1) ∧
      b.sampleF wo u = some (wi, f, p, flag) ∧ p ≠ 0 ∧ flag &&& SPECULAR = 0 ∧ f ≠ b.f wo wi := by
  have hs : Real.sqrt (9 / 25) = 3 / 5 := by
    rw [show (9 / 25 : ℝ) = (3 / 5) ^ 2 by norm_num, Real.sqrt_sq (by norm_num)]
  have hd : concentricSampleDisk (⟨1 / 10, 1 / 2⟩ : V2 ℝ) = ⟨-4 / 5, 0⟩ := by
    simp only [concentricSampleDisk]; real_ops
    norm_num
  have hl : ∀ x : V2 ℝ, x = ⟨1 / 10, 1 / 2⟩ →
      (lambertianReflection (⟨1, 1, 1⟩ : Spectrum ℝ)).sampleF ⟨0, 0, 1⟩ x =
      (⟨-4 / 5, 0, 3 / 5⟩, ⟨1 / Real.pi, 1 / Real.pi, 1 / Real.pi⟩, 3 / 5 / Real.pi) := by
    intro x hx; subst hx
    simp only [lambertianReflection, Lambertian.sampleF, Lambertian.f, Lambertian.pdf, cosineSampleHemisphere, hd, sameHemisphere,
      absCosTheta, Spectrum.sdiv]
    real_ops
    norm_num [hs]
  have hpi := Real.pi_pos
  refine ⟨⟨[lambertianReflection ⟨1, 1, 1⟩], ⟨4 / 5, 0, 3 / 5⟩, ⟨0, 0, 1⟩, ⟨1, 0, 0⟩, ⟨0, 1, 0⟩⟩, ⟨0, 0, 1⟩, ⟨-4 / 5, 0, 3 / 5⟩,
    ⟨1 / 10, 1 / 2⟩, ⟨1 / Real.pi, 1 / Real.pi, 1 / Real.pi⟩, 3 / 5 / Real.pi, (lambertianReflection (⟨1, 1, 1⟩ : Spectrum ℝ)).flag,
    ?_, ?_, ?_, ?_, ?_, ?_, ?_, ?_, ?_⟩
  · norm_num [Frame, Spec.sq, inner]
  · norm_num [Spec.sq]
  · intro x hx
    simp only [List.mem_singleton] at hx
    rw [hx]; exact selfConsistent_lambertian _
  · norm_num
  · norm_num
  · have hk : toUsize (Scalar.floor ((1 / 10 : ℝ) *. ofInt (1 : ℕ))) = 0 := by
      simp only [toUsize]; real_ops; norm_num; simp [satInt, truncInt]
    have hl := hl _ rfl
    generalize lambertianReflection (⟨1, 1, 1⟩ : Spectrum ℝ) = x at hl ⊢
    obtain ⟨xfl, xf, xsf, xp⟩ := x
    dsimp only at hl
    simp only [BSDF.sampleF, List.length_singleton, hk]
    simp only [List.getElem?_cons_zero, BSDF.worldToLocal, V3.dot]
    real_ops
    norm_num at hl ⊢
    simp only [hl]
    have : ¬ (3 / 5 / Real.pi = 0) := by positivity
    simp only [this, if_false, BSDF.localToWorld]
    real_ops
    norm_num
  · positivity
  · simp [lambertianReflection, REFLECTION, DIFFUSE, SPECULAR]
  · simp only [BSDF.f, BSDF.sumF, V3.dot, BSDF.worldToLocal, List.foldl_cons, List.foldl_nil]
    real_ops
    have e1 : (lambertianReflection (⟨1, 1, 1⟩ : Spectrum ℝ)).hasFlag TRANSMISSION = false := by
      simp [lambertianReflection, BxDF.hasFlag, REFLECTION, DIFFUSE, TRANSMISSION]
    rw [e1]
    norm_num
    intro h
    have := congrArg Spectrum.r h
    simp [Spectrum.zero, r_lit] at this

end PT
