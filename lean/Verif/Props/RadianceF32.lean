import Verif.Props.Dark
import Verif.Props.Hello
import Verif.Props.NoPanicCamera
import Verif.Lemmas.FlOk

/-!
# No negative light in single precision (C67)

`c67_float_rule` says which notion of "not negative" single precision respects, and `c67_radiance` reduces the claim to a contract of the scene.  Here the contract is
proved for the library's own scenes: spheres and triangles, either container, with matt, mirror, smooth plastic and smooth glass surfaces.
-/

namespace PT
open Spec Fl

/-! ### Specification -/

namespace Spec
/-- A value of the format that is NaN, `+∞`, or a number `≥ 0` (a zero may have a minus sign). -/
def NotBelow (x : F32) : Prop := x = .nan ∨ x = .inf false ∨ (Num x ∧ 0 ≤ x.val)

/-- What is asked of the mathematical library: π is a positive number; a square root is never negative (it may be NaN, or a zero with a minus sign). -/
structure SignedLibm [Libm F32] : Prop where
  pi : Num (Libm.pi : F32) ∧ 0 < (Libm.pi : F32).val
  sqrt : ∀ x : F32, x.WF → NotBelow (Libm.sqrt x)

/-- A texture whose channels are any values of the format, positive or negative, except the zero with a minus sign. -/
def Texture32 (k : TextureOf F32 (Spectrum F32)) : Prop := ∀ i, Channels (fun x => x.WF ∧ x ≠ .fin true 0) (k i)

/-- The materials without rough surfaces. -/
inductive SmoothMaterial [Libm F32] : Material F32 → Prop
  | matt (kd) : Texture32 kd → SmoothMaterial (lambertianMaterial kd)
  | mirror (kr) : Texture32 kr → SmoothMaterial (mirrorMaterial kr)
  | plastic (kd ks rough) : Texture32 kd → Texture32 ks → (∀ i, (rough i ==. lit 0) = true) → SmoothMaterial (plasticMaterial kd ks rough)
  | glass (kr kt eta ru rv) : Texture32 kr → Texture32 kt → (∀ i, NotBelow (eta i)) → (∀ i, (ru i ==. lit 0) = true) → (∀ i, (rv i ==. lit 0) = true) →
      SmoothMaterial (glassMaterial kr kt eta ru rv)

/-- The builder calls of a scene of smooth surfaces, whose lamps have colours without a minus sign. -/
inductive SmoothCall [Libm F32] [Libm F64] : BuilderCall F32 → Prop
  | distant (addr e w) : Channels NoMinus e → SmoothCall (.light addr fun box => ((DistantLight.new e w).preProcess box).toLight)
  | sphere (addr) (s : Sphere F32) : SmoothMaterial s.material → SmoothCall (.shape addr (s.toShape (β := F64)))
  | triangle (addr) (t : Triangle F32) : SmoothMaterial t.material → SmoothCall (.shape addr t.toShape)
  | lamp (addr e) (t : Triangle F32) : Channels NoMinus e → SmoothMaterial t.material → SmoothCall (.area addr ⟨e, t.toShape⟩)
  | ball (addr e) (s : Sphere F32) : Channels NoMinus e → SmoothMaterial s.material → SmoothCall (.area addr ⟨e, s.toShape (β := F64)⟩)
end Spec

/-! ### Arithmetic -/

namespace Sgn

/-- "Not negative" as the integrator needs it. -/
abbrev NM : F32 → Prop := NoMinus

theorem rule : SignRule NM := c67_float_rule.1

theorem self_mul (x : F32) : NM (x *. x) := by
  rw [f_mul]
  cases x with
  | nan => trivial
  | inf s => cases s <;> rfl
  | fin s a =>
    have : (mul (fin s a) (fin s a) : F32) = ofMag false (a * a) := by cases s <;> rfl
    rw [this]
    exact ofMag_noMinus (mul_self_nonneg a)

theorem abs_nm {x : F32} (h : x.WF) : NM (Scalar.abs x) := by
  rw [f_abs]
  cases x with
  | nan => trivial
  | inf s => rfl
  | fin s a => exact ⟨rfl, h.1⟩

theorem notBelow_wf {x : F32} (h : NotBelow x) : x.WF := by
  rcases h with rfl | rfl | h
  · trivial
  · trivial
  · exact h.1.wf

theorem pos_nm {x : F32} (hw : x.WF) (h : (x >. lit 0) = true) : NM x := by
  rw [f_lt, lit_zero] at h
  cases x with
  | nan => trivial
  | inf s => cases s <;> simp [lt] at h; rfl
  | fin s a =>
    refine ⟨?_, hw.1⟩
    cases s with
    | false => rfl
    | true =>
      have := hw.1
      simp [lt, sgn] at h
      linarith

theorem num_pos_nm {x : F32} (h : Num x ∧ 0 < x.val) : NM x := by
  obtain ⟨s, a, rfl⟩ := IsFin_iff.1 h.1.fin
  refine ⟨?_, h.1.wf.1⟩
  cases s with
  | false => rfl
  | true =>
    have h1 := h.1.wf.1
    have h2 := h.2
    simp [val, sgn] at h2
    linarith

theorem fmax_WF {a b : F32} (ha : a.WF) (hb : b.WF) : (Scalar.fmax a b).WF := by
  rw [f_max, fmax]
  split_ifs <;> assumption

theorem clamp_nm {x : F32} (h : x.WF ∧ x ≠ .fin true 0) : NM (clamp x (lit 0) HasInf.infinity) := by
  unfold clamp
  rw [f_lt, f_lt, lit_zero]
  change NM (if lt x (fin false 0) = true then fin false 0 else if lt (inf false) x = true then inf false else x)
  cases x with
  | nan => trivial
  | inf s => cases s <;> simp [lt, NM, NoMinus]
  | fin s a =>
    have h0 := h.1.1
    cases s with
    | false =>
      split_ifs
      · exact ⟨rfl, le_rfl⟩
      · rfl
      · exact ⟨rfl, h0⟩
    | true =>
      have h1 : a ≠ 0 := by rintro rfl; exact h.2 rfl
      have h2 : lt (fin true a : F32) (fin false 0) = true := by
        have : 0 < a := lt_of_le_of_ne h0 h1.symm
        simp [lt, sgn, this]
      rw [if_pos h2]
      exact ⟨rfl, le_rfl⟩

theorem clamped {k : TextureOf F32 (Spectrum F32)} (h : Texture32 k) (i : Interaction F32) : Channels NM (clampedTex k i) :=
  ⟨clamp_nm (h i).1, clamp_nm (h i).2.1, clamp_nm (h i).2.2⟩

/-! ### The Fresnel term of smooth glass is at most one -/

theorem up_mul {x y : F32} (hx : NotBelow x) (hy : NotBelow y) : NotBelow (x *. y) := by
  have key : ∀ {z : F32}, Num z → 0 ≤ z.val → NotBelow (mul (inf false) z) ∧ NotBelow (mul z (inf false)) := by
    intro z hz h0
    obtain ⟨s, a, rfl⟩ := IsFin_iff.1 hz.fin
    have ha := hz.wf.1
    by_cases h : a = 0
    · subst h; constructor <;> (simp only [mul, if_true]; exact Or.inl rfl)
    · obtain rfl : s = false := by
        cases s with
        | false => rfl
        | true =>
          simp [val, sgn] at h0
          exact absurd (le_antisymm h0 ha) h
      constructor <;> (simp only [mul, if_neg h]; exact Or.inr (Or.inl rfl))
  rcases hx with rfl | rfl | ⟨hx, hx0⟩
  · exact Or.inl rfl
  · rcases hy with rfl | rfl | ⟨hy, hy0⟩
    · exact Or.inl rfl
    · exact Or.inr (Or.inl rfl)
    · exact (key hy hy0).1
  · rcases hy with rfl | rfl | ⟨hy, hy0⟩
    · obtain ⟨s, a, rfl⟩ := IsFin_iff.1 hx.fin; exact Or.inl rfl
    · exact (key hx hx0).2
    · obtain ⟨zs, e⟩ := mul_val hx hy
      rw [e]
      have h0 := mul_nonneg hx0 hy0
      rcases h0.lt_or_eq with h | h
      · unfold ofVal
        rw [if_neg h.ne', if_neg (not_lt.2 h0)]
        cases hr : Rounding.rnd Binary32 (x.val * y.val) with
        | none => exact Or.inr (Or.inl rfl)
        | some m =>
          have e2 : (fin false m : F32) = ofVal (x.val * y.val) false := by
            unfold ofVal; rw [if_neg h.ne', if_neg (not_lt.2 h0), hr]
          refine Or.inr (Or.inr ⟨⟨by show (fin false m : F32).WF; rw [e2]; exact ofVal_WF _ _, trivial⟩, ?_⟩)
          exact Rounding.rnd_nonneg _ _ h0 hr
      · rw [← h]
        refine Or.inr (Or.inr ⟨ofVal_ok (by norm_num) zs, ?_⟩)
        simp [ofVal, val, sgn]

/-- NaN, or a number of magnitude at most one. -/
def Small (x : F32) : Prop := x = .nan ∨ (Num x ∧ |x.val| ≤ 1)

theorem repr_one : Fl.Repr Binary32 (1 : ℚ) := by simpa using repr_int (n := 1) (by norm_num)

theorem repr_num {x : F32} (h : Num x) : Fl.Repr Binary32 x.val := by
  obtain ⟨s, a, rfl⟩ := IsFin_iff.1 h.fin
  have := h.wf
  unfold Fl.Repr
  have e : |(fin s a : F32).val| = a := by cases s <;> simp [val, sgn, abs_of_nonneg this.1]
  rw [e]
  exact this.2

theorem ofVal_small {v : ℚ} (h : |v| ≤ 1) (zs : Bool) : Num (ofVal v zs : F32) ∧ |(ofVal v zs : F32).val| ≤ 1 := by
  have h' := abs_le.1 h
  obtain ⟨h1, h2, h3⟩ := ofVal_between (repr_neg repr_one) repr_one h'.1 h'.2 zs
  exact ⟨⟨ofVal_WF _ _, h1⟩, abs_le.2 ⟨h2, h3⟩⟩

theorem quotient_small {x y : F32} (hx : NotBelow x) (hy : NotBelow y) : Small ((x -. y) /. (x +. y)) := by
  rcases hx with rfl | rfl | ⟨hx, hx0⟩
  · exact Or.inl rfl
  · rcases hy with rfl | rfl | ⟨hy, hy0⟩
    · exact Or.inl rfl
    · exact Or.inl rfl
    · obtain ⟨s, a, rfl⟩ := IsFin_iff.1 hy.fin; exact Or.inl rfl
  · rcases hy with rfl | rfl | ⟨hy, hy0⟩
    · obtain ⟨s, a, rfl⟩ := IsFin_iff.1 hx.fin; exact Or.inl rfl
    · obtain ⟨s, a, rfl⟩ := IsFin_iff.1 hx.fin; exact Or.inl rfl
    · obtain ⟨z1, e1⟩ := add_fin hx.fin hy.fin
      obtain ⟨z2, e2⟩ := add_fin hx.fin (neg_ok hy).1.fin
      have vn : (⊖y).val = -y.val := (neg_ok hy).2
      rw [f_neg] at vn e2
      rw [vn] at e2
      rw [f_sub, f_add, e1, e2]
      have hn : Num (ofVal (x.val + -y.val) z2 : F32) := by
        rcases le_total y.val x.val with h | h
        · exact ⟨ofVal_WF _ _, (ofVal_between (repr_neg (repr_num hx)) (repr_num hx) (by linarith) (by linarith) z2).1⟩
        · exact ⟨ofVal_WF _ _, (ofVal_between (repr_neg (repr_num hy)) (repr_num hy) (by linarith) (by linarith) z2).1⟩
      by_cases hf : (ofVal (x.val + y.val) z1 : F32).IsFin
      · have hd : Num (ofVal (x.val + y.val) z1 : F32) := ⟨ofVal_WF _ _, hf⟩
        have m1 := (le_val hn.fin hd.fin).1 (ofVal_mono (φ := Binary32) (show x.val + -y.val ≤ x.val + y.val by linarith) z2 z1)
        have hnn : (ofVal (-(x.val + y.val)) z1 : F32).IsFin ∧ (ofVal (-(x.val + y.val)) z1 : F32).val = -(ofVal (x.val + y.val) z1 : F32).val := by
          have h0 : 0 ≤ x.val + y.val := by linarith
          rcases h0.lt_or_eq with h | h
          · unfold ofVal at hf ⊢
            rw [if_neg h.ne', if_neg (not_lt.2 h0)] at hf ⊢
            rw [if_neg (by linarith), if_pos (by linarith), neg_neg]
            cases hr : Rounding.rnd Binary32 (x.val + y.val) with
            | none => rw [hr] at hf; exact absurd hf (by simp [IsFin])
            | some m => exact ⟨trivial, by simp [val, sgn]⟩
          · rw [← h]; simp [ofVal, val, sgn, IsFin]
        have m2 := (le_val hnn.1 hn.fin).1 (ofVal_mono (φ := Binary32) (show -(x.val + y.val) ≤ x.val + -y.val by linarith) z1 z2)
        rw [hnn.2] at m2
        generalize (ofVal (x.val + y.val) z1 : F32) = d at *
        generalize (ofVal (x.val + -y.val) z2 : F32) = n at *
        have hnd : |n.val| ≤ d.val := abs_le.2 ⟨m2, m1⟩
        by_cases hz : d.val = 0
        · have hz' : n.val = 0 := by rw [hz] at hnd; exact abs_eq_zero.1 (le_antisymm hnd (abs_nonneg _))
          obtain ⟨s, a, rfl⟩ := IsFin_iff.1 hn.fin
          obtain ⟨t, b, rfl⟩ := IsFin_iff.1 hd.fin
          have ha : a = 0 := by cases s <;> simpa [val, sgn] using hz'
          have hb : b = 0 := by cases t <;> simpa [val, sgn] using hz
          subst ha; subst hb
          exact Or.inl (by simp [f_div, div])
        · right
          have hq : |n.val / d.val| ≤ 1 := by
            rw [abs_div]
            exact div_le_one_of_le₀ (hnd.trans (le_abs_self _)) (abs_nonneg _)
          obtain ⟨s, a, rfl⟩ := IsFin_iff.1 hn.fin
          obtain ⟨t, b, rfl⟩ := IsFin_iff.1 hd.fin
          have hk : b ≠ 0 := by rintro rfl; apply hz; cases t <;> simp [val, sgn]
          have e0 : (fin s a /. fin t b : F32) = ofMag (s ^^ t) (a / b) := by simp [f_div, div, hk]
          obtain ⟨zs, e⟩ := ofMag_ofVal (φ := Binary32) (div_nonneg hn.wf.1 hd.wf.1 : 0 ≤ a / b) (s ^^ t)
          rw [e0, e, sgn_xor_div]
          exact ofVal_small hq zs
      · have hi : ∃ t, (ofVal (x.val + y.val) z1 : F32) = inf t := by
          generalize he : (ofVal (x.val + y.val) z1 : F32) = w at hf
          cases w with
          | nan => exact absurd he (ofVal_ne_nan _ _)
          | inf t => exact ⟨t, rfl⟩
          | fin s a => exact absurd trivial hf
        obtain ⟨t, ht⟩ := hi
        rw [ht]
        obtain ⟨s, a, e⟩ := IsFin_iff.1 hn.fin
        rw [e]
        right
        refine ⟨⟨⟨le_rfl, Rounding.rnd_zero⟩, trivial⟩, ?_⟩
        change |(fin (s ^^ t) 0 : F32).val| ≤ 1
        simp [val, sgn]

/-- NaN, or a number between zero and one. -/
def Part (x : F32) : Prop := x = .nan ∨ (Num x ∧ 0 ≤ x.val ∧ x.val ≤ 1)

theorem half_sum {p q : F32} (hp : Small p) (hq : Small q) : Part ((p *. p +. q *. q) /. lit 2) := by
  rcases hp with rfl | ⟨hp, hp1⟩
  · exact Or.inl rfl
  rcases hq with rfl | ⟨hq, hq1⟩
  · left
    obtain ⟨z, e⟩ := mul_val hp hp
    rw [e]
    generalize (ofVal (p.val * p.val) z : F32) = w
    cases w <;> rfl
  right
  have sq : ∀ {p : F32}, Num p → |p.val| ≤ 1 → Num (p *. p) ∧ 0 ≤ (p *. p).val ∧ (p *. p).val ≤ 1 := by
    intro p hp h
    obtain ⟨z, e⟩ := mul_val hp hp
    have h1 : p.val * p.val ≤ 1 := by have := abs_le.1 h; nlinarith
    obtain ⟨b1, b2, b3⟩ := ofVal_between (φ := Binary32) (by simpa using repr_int (n := 0) (by norm_num)) repr_one (mul_self_nonneg p.val) h1 z
    rw [e]
    exact ⟨⟨ofVal_WF _ _, b1⟩, b2, b3⟩
  obtain ⟨n1, l1, u1⟩ := sq hp hp1
  obtain ⟨n2, l2, u2⟩ := sq hq hq1
  generalize p *. p = a at *
  generalize q *. q = b at *
  obtain ⟨z, e⟩ := add_fin n1.fin n2.fin
  obtain ⟨b1, b2, b3⟩ := ofVal_between (φ := Binary32) (by simpa using repr_int (n := 0) (by norm_num)) (by simpa using repr_int (n := 2) (by norm_num))
    (add_nonneg l1 l2) (show a.val + b.val ≤ 2 by linarith) z
  rw [f_add, e]
  have n3 : Num (ofVal (a.val + b.val) z : F32) := ⟨ofVal_WF _ _, b1⟩
  generalize (ofVal (a.val + b.val) z : F32) = d at *
  have n4 : Num (lit 2 : F32) := lit_ok (by norm_num)
  have v4 : (lit 2 : F32).val = 2 := by
    have := (ofInt_exact (n := 2) (by norm_num)).2
    simpa [ofInt] using this
  generalize (lit 2 : F32) = two at *
  obtain ⟨s, m, rfl⟩ := IsFin_iff.1 n3.fin
  obtain ⟨t, k, rfl⟩ := IsFin_iff.1 n4.fin
  have hk : k ≠ 0 := by rintro rfl; cases t <;> simp [val, sgn] at v4
  have e0 : (fin s m /. fin t k : F32) = ofMag (s ^^ t) (m / k) := by simp [f_div, div, hk]
  obtain ⟨zs, e⟩ := ofMag_ofVal (φ := Binary32) (div_nonneg n3.wf.1 n4.wf.1 : 0 ≤ m / k) (s ^^ t)
  have e3 : sgn (s ^^ t) (m / k) = (fin s m : F32).val / (fin t k : F32).val := sgn_xor_div _ _ _ _
  rw [e0, e, e3, v4]
  obtain ⟨c1, c2, c3⟩ := ofVal_between (φ := Binary32) (by simpa using repr_int (n := 0) (by norm_num)) repr_one
    (show 0 ≤ (fin s m : F32).val / 2 by linarith) (show (fin s m : F32).val / 2 ≤ 1 by linarith) zs
  exact ⟨⟨ofVal_WF _ _, c1⟩, c2, c3⟩

theorem lit_one : Num (lit 1 : F32) ∧ (lit 1 : F32).val = 1 ∧ ∃ a, (lit 1 : F32) = fin false a := by
  have v : (lit 1 : F32).val = 1 := by
    have := (ofInt_exact (n := 1) (by norm_num)).2
    simpa [ofInt] using this
  refine ⟨lit_ok (by norm_num), v, ?_⟩
  have h := rule.lit 1 (by norm_num)
  have n : Num (lit 1 : F32) := lit_ok (by norm_num)
  generalize (lit 1 : F32) = o at *
  obtain ⟨s, a, rfl⟩ := IsFin_iff.1 n.fin
  exact ⟨a, by rw [h.1]⟩

theorem one_sub_nm {x : F32} (h : Part x) : NM (lit 1 -. x) := by
  rcases h with rfl | ⟨hx, h0, h1⟩
  · obtain ⟨a, e⟩ := lit_one.2.2
    rw [e]; trivial
  · have v := lit_one.2.1
    obtain ⟨a, e⟩ := lit_one.2.2
    rw [e] at v ⊢
    obtain ⟨s, b, rfl⟩ := IsFin_iff.1 hx.fin
    change NM (ofVal (sgn false a + sgn (!s) b) (false && !s))
    rw [Bool.false_and]
    apply ofVal_noMinus
    have e2 : sgn (!s) b = -(fin s b : F32).val := by cases s <;> simp [val, sgn]
    have e3 : sgn false a = (1 : ℚ) := v
    rw [e2, e3]
    linarith

variable [Libm F32] (hm : SignedLibm)
include hm

theorem fresnel_part {c a b : F32} (hc : c.WF) (ha : NotBelow a) (hb : NotBelow b) : Part (frDielectric c a b) := by
  have one : Part (lit 1 : F32) := Or.inr ⟨lit_one.1, by rw [lit_one.2.1]; norm_num, by rw [lit_one.2.1]⟩
  have main : ∀ {x a b : F32}, NotBelow x → NotBelow a → NotBelow b →
      Part (let sinI := Libm.sqrt (Scalar.fmax (lit 1 -. x *. x) (lit 0))
        let sinT := (a /. b) *. sinI
        if sinT >=. lit 1 then lit 1
        else
          let cosT := Libm.sqrt (Scalar.fmax (lit 1 -. sinT *. sinT) (lit 0))
          let rParl := (b *. x -. a *. cosT) /. (b *. x +. a *. cosT)
          let rPerp := (a *. x -. b *. cosT) /. (a *. x +. b *. cosT)
          (rParl *. rParl +. rPerp *. rPerp) /. lit 2) := by
    intro x a b hx ha hb
    dsimp only
    split_ifs
    · exact one
    · have hcos := hm.sqrt (Scalar.fmax (lit 1 -. ((a /. b) *. Libm.sqrt (Scalar.fmax (lit 1 -. x *. x) (lit 0))) *.
        ((a /. b) *. Libm.sqrt (Scalar.fmax (lit 1 -. x *. x) (lit 0)))) (lit 0)) (fmax_WF (add_WF _ _) (lit_WF _))
      exact half_sum (quotient_small (up_mul hb hx) (up_mul ha hcos)) (quotient_small (up_mul ha hx) (up_mul hb hcos))
  have hcl : clamp c (⊖(lit 1)) (lit 1) = .nan ∨ (Num (clamp c (⊖(lit 1)) (lit 1))) := by
    unfold clamp
    cases c with
    | nan => left; obtain ⟨a, e⟩ := lit_one.2.2; rw [e]; rfl
    | inf s =>
      right
      obtain ⟨a, e⟩ := lit_one.2.2
      have n1 := lit_one.1
      have n2 := (neg_ok n1).1
      cases s
      · have h1 : ((inf false : F32) <. ⊖(lit 1)) = false := by rw [e]; rfl
        have h2 : ((inf false : F32) >. lit 1) = true := by rw [e]; rfl
        rw [if_neg (by rw [h1]; simp), if_pos h2]; exact n1
      · have h1 : ((inf true : F32) <. ⊖(lit 1)) = true := by rw [e]; rfl
        rw [if_pos h1]; exact n2
    | fin s a =>
      right
      split_ifs
      · exact (neg_ok lit_one.1).1
      · exact lit_one.1
      · exact ⟨hc, trivial⟩
  unfold frDielectric
  dsimp only
  by_cases h : (clamp c (⊖(lit 1)) (lit 1) >. lit 0) = true
  · rw [if_pos h]
    refine main ?_ ha hb
    rcases hcl with e | n
    · exact Or.inl e
    · exact Or.inr (Or.inr ⟨n, by have := (lt_ok zero_ok.1 n).1 h; rw [zero_ok.2] at this; exact this.le⟩)
  · rw [if_neg h]
    refine main ?_ hb ha
    rcases hcl with e | n
    · left; rw [e]; rfl
    · have hle : (clamp c (⊖(lit 1)) (lit 1)).val ≤ 0 := by
        rw [lt_ok zero_ok.1 n, zero_ok.2] at h
        exact not_lt.1 h
      generalize clamp c (⊖(lit 1)) (lit 1) = w at *
      obtain ⟨n1, v1⟩ := neg_ok lit_one.1
      rw [lit_one.2.1] at v1
      obtain ⟨z, e⟩ := mul_val n n1
      rw [v1] at e
      rw [e, mul_neg_one, ← (neg_ok n).2]
      obtain ⟨h1, h2, h3⟩ := ofVal_val (neg_ok n).1.fin (neg_ok n).1.wf z
      refine Or.inr (Or.inr ⟨⟨ofVal_WF _ _, h2⟩, ?_⟩)
      rw [h3, (neg_ok n).2]; linarith

/-! ### Components -/

omit hm in
/-- A component of a scattering function that computes nothing negative, for local directions whose third coordinate is a value of the format. -/
structure Signed (x : BxDF F32) : Prop where
  f : ∀ wo wi, Channels NM (x.f wo wi)
  sample : ∀ wo u, wo.z.WF → Channels NM (x.sampleF wo u).2.1 ∧ NM (x.sampleF wo u).2.2 ∧ (x.sampleF wo u).1.z.WF
  pdf : ∀ wo wi, wi.z.WF → NM (x.pdf wo wi)

theorem lambertian {r : Spectrum F32} (hr : Channels NM r) : Signed (lambertianReflection r) := by
  have hpi := num_pos_nm hm.pi
  have hp : ∀ wo wi : V3 F32, wi.z.WF → NM (Lambertian.pdf wo wi) := by
    intro wo wi h
    unfold Lambertian.pdf
    split_ifs
    · exact rule.div _ _ (abs_nm h) hpi
    · exact rule.lit 0 le_rfl
  have hf := rule.sdivS hr hpi
  refine ⟨fun _ _ => hf, fun wo u _ => ?_, hp⟩
  have hz : (cosineSampleHemisphere u : V3 F32).z.WF := notBelow_wf (hm.sqrt _ (fmax_WF (add_WF _ _) (lit_WF _)))
  have hz2 : (if wo.z <. lit 0 then (⟨(cosineSampleHemisphere u).x, (cosineSampleHemisphere u).y, (cosineSampleHemisphere u).z *. ⊖(lit 1)⟩ : V3 F32)
      else cosineSampleHemisphere u).z.WF := by
    split_ifs
    · exact mul_WF hz (neg_WF (lit_WF 1))
    · exact hz
  exact ⟨hf, hp _ _ hz2, hz2⟩

omit hm [Libm F32] in
theorem mirror {r : Spectrum F32} {F : Fresnel F32} (hr : Channels NM r) (hF : ∀ c, Channels NM (F c)) : Signed (specularReflection r F) :=
  ⟨fun _ _ => rule.zeroS, fun _ _ h => ⟨rule.sdivS (rule.mulS hr (hF _)) (abs_nm h), rule.lit 1 (by norm_num), h⟩, fun _ _ _ => rule.lit 0 le_rfl⟩

omit hm in
theorem fresnel_nm (a b c : F32) : Channels NM (fresnelDielectric a b c) := by
  have : NM (frDielectric c a b) := by
    unfold frDielectric
    dsimp only
    split_ifs <;>
      first
      | exact rule.lit 1 (by norm_num)
      | exact rule.div _ _ (rule.add _ _ (self_mul _) (self_mul _)) (rule.lit 2 (by norm_num))
  exact ⟨this, this, this⟩

theorem transmission {t : Spectrum F32} {a b : F32} (ht : Channels NM t) (ha : NotBelow a) (hb : NotBelow b) : Signed (specularTransmission t a b) := by
  refine ⟨fun _ _ => rule.zeroS, fun wo u _ => ?_, fun _ _ _ => rule.lit 0 le_rfl⟩
  unfold specularTransmission
  dsimp only
  generalize (if (cosTheta wo >. lit 0) = true then (a, b) else (b, a)) = e
  obtain ⟨p, q⟩ := e
  dsimp only
  generalize (if (wo.z >. lit 0) = true then (⟨lit 0, lit 0, lit 1⟩ : V3 F32) else ⟨lit 0, lit 0, ⊖(lit 1)⟩) = n
  cases hr : refract wo n (p /. q) with
  | none => exact ⟨rule.zeroS, rule.lit 0 le_rfl, lit_WF 0⟩
  | some wi =>
    have hz : wi.z.WF := by
      unfold refract at hr
      dsimp only at hr
      split_ifs at hr
      cases hr
      exact add_WF _ _
    have hF : NM (lit 1 -. frDielectric wi.z a b) := one_sub_nm (fresnel_part hm hz ha hb)
    exact ⟨rule.sdivS (rule.smulS (rule.sdivS (rule.mulS ht ⟨hF, hF, hF⟩) (abs_nm hz)) (self_mul _)) (self_mul _), rule.lit 1 (by norm_num), hz⟩

omit hm [Libm F32] in
theorem sumF_nm {bs : List (BxDF F32)} (h : ∀ x ∈ bs, Signed x) (r : Bool) (wo wi : V3 F32) : Channels NM (BSDF.sumF bs r wo wi) := by
  unfold BSDF.sumF
  refine List.foldlRecOn (motive := Channels NM) bs _ rule.zeroS fun f hf x hx => ?_
  split_ifs
  · exact rule.addS hf ((h x hx).f wo wi)
  · exact hf

omit hm [Libm F32] in
theorem bsdf_contract {b : BSDF F32} (h : ∀ x ∈ b.bxdfs, Signed x) : BsdfContract NM (fun _ => True) (fun _ => True) b := by
  have hw : ∀ v : V3 F32, (b.worldToLocal v).z.WF := fun v => add_WF _ _
  constructor
  · intro wo wi _ _
    unfold BSDF.f
    dsimp only
    split_ifs
    · exact rule.zeroS
    · exact sumF_nm h _ _ _
  · intro wo u wi f p flag _ _ _ hs _
    have hno : ∀ {wi f p flag}, some BSDF.noSample = some ((wi, f, p, flag) : V3 F32 × Spectrum F32 × F32 × Nat) → Channels NM f ∧ NM p ∧ True := by
      rintro wi f p flag ⟨⟩
      exact ⟨rule.zeroS, rule.lit 0 le_rfl, trivial⟩
    unfold BSDF.sampleF at hs
    dsimp only at hs
    by_cases h0 : b.bxdfs.length = 0
    · rw [if_pos h0] at hs; exact hno hs
    rw [if_neg h0] at hs
    generalize toUsize (Scalar.floor (u.x *. ofInt (b.bxdfs.length : Int))) = k at hs
    cases hk : b.bxdfs[k]? with
    | none => rw [hk] at hs; cases hs
    | some x =>
      rw [hk] at hs
      dsimp only at hs
      by_cases h1 : ((b.worldToLocal wo).z ==. lit 0) = true
      · rw [if_pos h1] at hs; exact hno hs
      rw [if_neg h1] at hs
      by_cases h2 : ((x.sampleF (b.worldToLocal wo) ⟨u.x *. ofInt (b.bxdfs.length : Int) -. ofInt k, u.y⟩).2.2 ==. lit 0) = true
      · rw [if_pos h2] at hs; exact hno hs
      rw [if_neg h2] at hs
      have hx := h x (List.mem_of_getElem? hk)
      obtain ⟨s1, s2, s3⟩ := hx.sample (b.worldToLocal wo) ⟨u.x *. ofInt (b.bxdfs.length : Int) -. ofInt k, u.y⟩ (hw wo)
      have hpdf : ∀ r : V3 F32 × Spectrum F32 × F32, NM r.2.2 → r.1.z.WF → NM ((List.range b.bxdfs.length).foldl (fun p i =>
          if i = k then p else (b.bxdfs[i]?).elim p (fun y => p +. y.pdf (b.worldToLocal wo) r.1)) r.2.2) := by
        intro r s2 s3
        refine List.foldlRecOn (motive := NM) _ _ s2 fun p hp i _ => ?_
        split_ifs
        · exact hp
        · cases hi : b.bxdfs[i]? with
          | none => exact hp
          | some y => exact rule.add _ _ hp ((h y (List.mem_of_getElem? hi)).pdf _ _ s3)
      have hn : NM (ofInt (b.bxdfs.length : Int)) := rule.nat _
      simp only [Option.some.injEq, Prod.mk.injEq] at hs
      obtain ⟨-, rfl, rfl, -⟩ := hs
      refine ⟨?_, ?_, trivial⟩
      · split_ifs
        · exact sumF_nm h _ _ _
        · exact s1
      · split_ifs <;>
          first
          | exact rule.div _ _ (hpdf _ s2 s3) hn
          | exact rule.div _ _ s2 hn
          | exact hpdf _ s2 s3
          | exact s2

theorem material_contract {m : Material F32} (h : SmoothMaterial m) (i : Interaction F32) : BsdfContract NM (fun _ => True) (fun _ => True) (m i) := by
  apply bsdf_contract
  have hone : NotBelow (lit 1 : F32) := Or.inr (Or.inr ⟨lit_one.1, by rw [lit_one.2.1]; norm_num⟩)
  have grow : ∀ {b : BSDF F32} {x : BxDF F32}, (∀ y ∈ b.bxdfs, Signed y) → Signed x → ∀ y ∈ (b.add x).bxdfs, Signed y := by
    intro b x hb hx y hy
    rcases List.mem_append.1 hy with hy | hy
    · exact hb y hy
    · rw [List.mem_singleton.1 hy]; exact hx
  have nil : ∀ y ∈ (BSDF.new i).bxdfs, Signed y := by intro y hy; cases hy
  cases h with
  | matt kd h1 =>
    unfold lambertianMaterial
    dsimp only
    split_ifs
    · exact nil
    · exact grow nil (lambertian hm (clamped h1 i))
  | mirror kr h1 =>
    unfold mirrorMaterial
    dsimp only
    split_ifs
    · exact nil
    · have h := rule.lit 1 (by norm_num)
      exact grow nil (mirror (clamped h1 i) fun _ => ⟨h, h, h⟩)
  | plastic kd ks rough h1 h2 h3 =>
    unfold plasticMaterial
    dsimp only
    have hb : ∀ y ∈ (if (clampedTex kd i).isBlack = true then BSDF.new i else (BSDF.new i).add (lambertianReflection (clampedTex kd i))).bxdfs, Signed y := by
      split_ifs
      · exact nil
      · exact grow nil (lambertian hm (clamped h1 i))
    generalize (if (clampedTex kd i).isBlack = true then BSDF.new i else (BSDF.new i).add (lambertianReflection (clampedTex kd i))) = b at *
    rw [if_pos (h3 i)]
    split_ifs
    · exact hb
    · exact grow hb (mirror (clamped h2 i) (fresnel_nm _ _))
  | glass kr kt eta ru rv h1 h2 h3 h4 h5 =>
    unfold glassMaterial
    dsimp only
    rw [if_pos (by rw [h4 i, h5 i]; rfl)]
    have hb : ∀ y ∈ (if (clampedTex kr i).isBlack = true then BSDF.new i
        else (BSDF.new i).add (specularReflection (clampedTex kr i) (fresnelDielectric (lit 1) (eta i)))).bxdfs, Signed y := by
      split_ifs
      · exact nil
      · exact grow nil (mirror (clamped h1 i) (fresnel_nm _ _))
    generalize (if (clampedTex kr i).isBlack = true then BSDF.new i
        else (BSDF.new i).add (specularReflection (clampedTex kr i) (fresnelDielectric (lit 1) (eta i)))) = b at *
    split_ifs
    · exact hb
    · exact grow hb (transmission hm (clamped h2 i) hone (h3 i))

/-! ### Scenes -/

omit hm [Libm F32] in
theorem emitted_nm {a : AreaLight F32} (h : Channels NM a.l) (i : Interaction F32) (w : V3 F32) : Channels NM (a.emitted i w) := by
  unfold AreaLight.emitted
  split
  · exact h
  · exact rule.zeroS

theorem area_light {t : Triangle F32} {e : Spectrum F32} (h : Channels NM e) :
    LightContract NM (fun _ => True) (fun _ => True) (AreaLight.mk e t.toShape).toLight := by
  refine ⟨fun i u s _ _ hs hp _ => ?_⟩
  change (AreaLight.mk e t.toShape).sampleLi i u = some s at hs
  unfold AreaLight.sampleLi at hs
  obtain ⟨p, -, rfl⟩ := Option.map_eq_some_iff.1 hs
  refine ⟨emitted_nm h _ _, pos_nm ?_ hp, trivial⟩
  change (lit 1 /. t.area : F32).WF
  exact div_WF (lit_WF 1) (mul_WF (lit_WF _) (notBelow_wf (hm.sqrt _ (add_WF _ _))))

omit hm in
theorem ball_light [Libm F64] {s : Sphere F32} {e : Spectrum F32} :
    LightContract NM (fun _ => True) (fun _ => True) (AreaLight.mk e (s.toShape (β := F64))).toLight :=
  ⟨fun i u s _ _ hs _ _ => by cases hs⟩

theorem scene_contract [Libm F64] (hist : List (BuilderCall F32)) (hlib : ∀ x ∈ hist, SmoothCall x)
    {mk : List (Obj F32) → Option (Container F32)} (hmk : LibraryContainer mk) {scene : Scene F32} (hsc : (built hist).construct mk = some scene) :
    SceneContract NM (fun _ => True) (fun _ => True) scene := by
  obtain ⟨box, -, h, -⟩ := c65_construct hist mk
  obtain ⟨hl, hc⟩ := h scene hsc
  have e1 : ∀ hist : List (BuilderCall F32), (∀ x ∈ hist, SmoothCall x) → ∀ s ∈ addedShapes hist,
      (∀ i w, Channels NM (s.shape.l i w)) ∧ SmoothMaterial s.shape.material := by
    intro hist
    induction hist with
    | nil => intro _ s h; simp [addedShapes] at h
    | cons x hist ih =>
      intro hlib s h
      have ht := ih (fun c hc => hlib c (by simp [hc])) s
      cases hlib x (by simp) with
      | distant => exact ht h
      | lamp => exact ht h
      | ball => exact ht h
      | sphere addr sh hs =>
        rcases List.mem_cons.1 h with rfl | h
        · exact ⟨fun _ _ => rule.zeroS, hs⟩
        · exact ht h
      | triangle addr sh hs =>
        rcases List.mem_cons.1 h with rfl | h
        · exact ⟨fun _ _ => rule.zeroS, hs⟩
        · exact ht h
  have e2 : ∀ hist : List (BuilderCall F32), (∀ x ∈ hist, SmoothCall x) → ∀ a ∈ addedAreas hist,
      Channels NM a.2.l ∧ SmoothMaterial a.2.shape.material ∧ LightContract NM (fun _ => True) (fun _ => True) a.2.toLight := by
    intro hist
    induction hist with
    | nil => intro _ s h; simp [addedAreas] at h
    | cons x hist ih =>
      intro hlib s h
      have ht := ih (fun c hc => hlib c (by simp [hc])) s
      cases hlib x (by simp) with
      | distant => exact ht h
      | sphere => exact ht h
      | triangle => exact ht h
      | lamp addr e t he hmat =>
        rcases List.mem_cons.1 h with rfl | h
        · exact ⟨he, hmat, area_light hm he⟩
        · exact ht h
      | ball addr e t he hmat =>
        rcases List.mem_cons.1 h with rfl | h
        · exact ⟨he, hmat, ball_light⟩
        · exact ht h
  have e3 : ∀ hist : List (BuilderCall F32), (∀ x ∈ hist, SmoothCall x) → ∀ l ∈ addedLights box hist,
      LightContract NM (fun _ => True) (fun _ => True) l.light := by
    intro hist
    induction hist with
    | nil => intro _ s h; simp [addedLights] at h
    | cons x hist ih =>
      intro hlib s h
      have ht := ih (fun c hc => hlib c (by simp [hc])) s
      cases hlib x (by simp) with
      | lamp => exact ht h
      | ball => exact ht h
      | sphere => exact ht h
      | triangle => exact ht h
      | distant addr e w he =>
        rcases List.mem_cons.1 h with rfl | h
        · refine ⟨fun i u s _ _ hs _ _ => ?_⟩
          cases hs
          exact ⟨he, rule.lit 1 (by norm_num), trivial⟩
        · exact ht h
  have eS : ∀ s ∈ sceneShapes hist, (∀ i w, Channels NM (s.shape.l i w)) ∧ SmoothMaterial s.shape.material := by
    intro s hs
    rcases List.mem_append.1 hs with hs | hs
    · exact e1 hist hlib s hs
    · obtain ⟨a, ha, rfl⟩ := List.mem_map.1 hs
      exact ⟨emitted_nm (e2 hist hlib a ha).1, (e2 hist hlib a ha).2.1⟩
  refine ⟨fun l hl' => ?_, fun ray h w _ hh => (eS _ (container_hit_from hmk hc ray h hh)).1 _ _, fun _ _ _ _ => trivial,
    fun ray h _ hh => material_contract hm (eS _ (container_hit_from hmk hc ray h hh)).2 _⟩
  rw [hl] at hl'
  rcases List.mem_append.1 hl' with hl' | hl'
  · exact e3 hist hlib l hl'
  · obtain ⟨a, ha, rfl⟩ := List.mem_map.1 hl'
    exact (e2 hist hlib a ha).2.2

end Sgn

/-- C67, single precision: in every scene that any history of builder calls makes of spheres and triangles with matt, mirror, smooth plastic and smooth glass surfaces
and lamps whose colours have no minus sign, with either container, any camera and any sampler (its values may even be outside `[0,1)`): a radiance that is computed is,
in every channel, NaN or without a minus sign.  Of the mathematical library only the sign of π and of square roots is used. -/
theorem c67_f32 [Libm F32] [Libm F64] [HasNext F32] (hm : SignedLibm) (hist : List (BuilderCall F32)) (hlib : ∀ x ∈ hist, SmoothCall x)
    {mk : List (Obj F32) → Option (Container F32)} (hmk : LibraryContainer mk) {scene : Scene F32} (hsc : (built hist).construct mk = some scene)
    (camera : PerspectiveCamera F32) (pFilm : V2 F32) {σ : Type} (ops : SamplerOps F32 σ) (s s' : σ) (l : Spectrum F32)
    (h : (cameraRadiance scene camera pFilm).run ops s = some (l, s')) : Channels NoMinus l :=
  c67_radiance Sgn.rule c67_float_rule.2 (Sgn.scene_contract hm hist hlib hmk hsc) camera pFilm trivial ops ⟨fun _ _ _ _ => trivial, fun _ _ _ _ => ⟨trivial, trivial⟩⟩
    s s' l h

/-! ### The hypotheses are met -/

namespace Demo
/-- A mathematical library: the square root is a power of two, and NaN for `-∞`. -/
noncomputable def signedSqrt : F32 → F32
  | .inf true => .nan
  | x => roughSqrt x
noncomputable abbrev signedLibm : Libm F32 := { roughLibm with sqrt := signedSqrt }

theorem signedLibm_signed : @SignedLibm signedLibm := by
  refine @SignedLibm.mk signedLibm ⟨?_, ?_⟩ ?_
  · exact (NoPanic.check_upTo (n := 2) (x := f32 (13176795 / 2 ^ 22)) (by decide +kernel)).1
  · show 0 < (f32 (13176795 / 2 ^ 22) : F32).val
    decide +kernel
  · intro x hx
    show NotBelow (signedSqrt x)
    cases x with
    | nan => exact Or.inl rfl
    | inf s => cases s
               · exact Or.inr (Or.inl rfl)
               · exact Or.inl rfl
    | fin s a =>
      show NotBelow (if 0 < (Fl.fin s a : F32).val then Fl.ofVal (2 ^ Int.log 4 (2 * (Fl.fin s a : F32).val)) false else lit 0)
      split_ifs with h
      · have hp : (0 : ℚ) ≤ 2 ^ Int.log 4 (2 * (Fl.fin s a : F32).val) := by positivity
        have hw : (Fl.ofVal (2 ^ Int.log 4 (2 * (Fl.fin s a : F32).val)) false : F32).WF := Fl.ofVal_WF _ _
        have hn := ofVal_noMinus (φ := Binary32) hp
        generalize (Fl.ofVal (2 ^ Int.log 4 (2 * (Fl.fin s a : F32).val)) false : F32) = r at *
        cases r with
        | nan => exact Or.inl rfl
        | inf t => exact Or.inr (Or.inl (by rw [show t = false from hn]))
        | fin t b =>
          refine Or.inr (Or.inr ⟨⟨hw, trivial⟩, ?_⟩)
          obtain ⟨rfl, hb⟩ := hn
          simpa [Fl.val, Fl.sgn] using hb
      · exact Or.inr (Or.inr ⟨zero_ok.1, zero_ok.2.ge⟩)

theorem grey32 {q : ℚ} (h : 0 ≤ q) : Texture32 (constantTexture (Spectrum.of (lit q))) := by
  have : (lit q : F32).WF ∧ (lit q : F32) ≠ .fin true 0 := by
    refine ⟨Fl.lit_WF q, fun e => ?_⟩
    have hn := Sgn.rule.lit q h
    rw [e] at hn
    exact absurd hn.1 (by simp)
  exact fun _ => ⟨this, this, this⟩

/-- A pane of glass and a mirror ball beside the scene of the example program. -/
def fragile [Libm F32] [Libm F64] : List (BuilderCall F32) :=
  .shape 7 (Triangle.toShape ⟨Hello.point (-1) 0 0, Hello.point 1 0 0, Hello.point 0 0 2, none, false,
      glassMaterial (constantTexture (Spectrum.of (lit (1 / 2)))) (constantTexture (Spectrum.of (lit 1))) (fun _ => lit (3 / 2)) (fun _ => lit 0) (fun _ => lit 0)⟩) ::
  .shape 8 (Sphere.toShape (β := F64) ⟨Hello.point 3 0 1, lit 1, mirrorMaterial (constantTexture (Spectrum.of (lit (9 / 10))))⟩) :: Hello.calls (β := F64) id

theorem fragile_smooth [Libm F32] [Libm F64] : ∀ x ∈ fragile, SmoothCall x := by
  intro x hx
  have hz : ((lit 0 : F32) ==. lit 0) = true := by decide +kernel
  have he : Channels NoMinus (Spectrum.of (lit (9 / 10)) : Spectrum F32) := by
    have := Sgn.rule.lit (9 / 10) (by norm_num)
    exact ⟨this, this, this⟩
  simp only [fragile, Hello.calls, List.mem_cons, List.not_mem_nil, or_false] at hx
  rcases hx with rfl | rfl | rfl | rfl | rfl | rfl | rfl
  · exact .triangle _ _ (.glass _ _ _ _ _ (grey32 (by norm_num)) (grey32 (by norm_num))
      (fun _ => Or.inr (Or.inr ⟨lit_ok (by norm_num), by show 0 ≤ (lit (3 / 2) : F32).val; decide +kernel⟩)) (fun _ => hz) (fun _ => hz))
  · exact .sphere _ _ (.mirror _ (grey32 (by norm_num)))
  · exact .lamp _ _ _ he (.matt _ (grey32 (q := 0) le_rfl))
  · exact .lamp _ _ _ he (.matt _ (grey32 (q := 0) le_rfl))
  · exact .sphere _ _ (.matt _ (grey32 (q := 1) (by norm_num)))
  · exact .triangle _ _ (.matt _ (grey32 (q := 1 / 2) (by norm_num)))
  · exact .triangle _ _ (.matt _ (grey32 (q := 1 / 2) (by norm_num)))
end Demo

/-- The scene of the example program with a pane of glass and a mirror ball, the simple container, any camera and sampler: the scene exists, and no radiance has a
channel with a minus sign. -/
example [Libm F64] [HasNext F32] (camera : PerspectiveCamera F32) (pFilm : V2 F32) (ops : SamplerOps F32 HaltonSampler) :
    let := Demo.signedLibm
    ∃ scene, (built Demo.fragile).construct (fun ss => (Simple.new ss).map Simple.toContainer) = some scene ∧
      ∀ s s' l, (cameraRadiance scene camera pFilm).run ops s = some (l, s') → Channels NoMinus l := by
  intro lib
  obtain ⟨scene, hs⟩ : ∃ scene, (built Demo.fragile).construct (fun ss => (Simple.new ss).map Simple.toContainer) = some scene := by
    cases h : (built Demo.fragile).construct (fun ss => (Simple.new ss).map Simple.toContainer) with
    | some scene => exact ⟨scene, rfl⟩
    | none => exact absurd ((c65_panics_simple Demo.fragile).1 h).1 (by simp [Demo.fragile, addedShapes])
  exact ⟨scene, hs, fun s s' l h => c67_f32 Demo.signedLibm_signed _ Demo.fragile_smooth .simple hs camera pFilm ops s s' l h⟩

/-- The hypothesis on textures matters: a reflectance of minus zero makes a matt surface scatter minus zero. -/
example [Libm F32] (hm : SignedLibm) (wo wi : V3 F32) :
    ¬ Channels NoMinus ((lambertianReflection ⟨.fin true 0, lit 0, lit 0⟩).f wo wi) := by
  intro h
  have h1 := h.1
  change NoMinus ((.fin true 0 : F32) /. Libm.pi) at h1
  obtain ⟨n, hp⟩ := hm.pi
  generalize (Libm.pi : F32) = p at *
  obtain ⟨s, a, rfl⟩ := Fl.IsFin_iff.1 n.fin
  have ha : a ≠ 0 := by rintro rfl; cases s <;> simp [Fl.val, Fl.sgn] at hp
  have hs : s = false := (Sgn.num_pos_nm ⟨n, hp⟩).1
  subst hs
  simp [Fl.f_div, Fl.div, ha, Fl.ofMag, Rounding.rnd_zero, NoMinus] at h1

end PT
