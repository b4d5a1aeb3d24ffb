import Verif.Lemmas.FlExact
import Verif.Model.Sphere

/-! # Values produced by the operations are values of the format; conversions are monotone -/

namespace PT.Fl
variable {φ ψ K : Type} [Field K] [LinearOrder K] [IsStrictOrderedRing K] [FloorRing K] [Rounding φ K] [Rounding ψ K]

theorem neg_WF {a : Fl φ K} (h : a.WF) : (neg a).WF := by cases a <;> exact h
theorem add_WF (a b : Fl φ K) : (add a b).WF := by
  cases a <;> cases b <;> simp only [add] <;> first | trivial | exact ofVal_WF _ _ | skip
  split_ifs <;> trivial
theorem lit_WF (q : ℚ) : (PT.lit q : Fl φ K).WF := ofVal_WF _ _
theorem mul_WF {a b : Fl φ K} (ha : a.WF) (hb : b.WF) : (mul a b).WF := by
  cases a <;> cases b <;> simp only [mul] <;> first | trivial | skip
  · split_ifs <;> trivial
  · split_ifs <;> trivial
  · exact ofMag_WF (mul_nonneg ha.1 hb.1) _
theorem div_WF {a b : Fl φ K} (ha : a.WF) (hb : b.WF) : (div a b).WF := by
  cases a <;> cases b <;> simp only [div] <;> first | trivial | skip
  · exact ⟨le_rfl, Rounding.rnd_zero⟩
  · split_ifs <;> first | trivial | exact ofMag_WF (div_nonneg ha.1 hb.1) _

theorem ofMag_ofVal {x : K} (h0 : 0 ≤ x) (s : Bool) : ∃ zs, (ofMag s x : Fl φ K) = ofVal (sgn s x) zs := by
  rcases h0.lt_or_eq with h | rfl
  · exact ⟨false, ofMag_eq_ofVal h s false⟩
  · exact ⟨s, by simp [ofMag, ofVal, sgn, Rounding.rnd_zero]⟩

theorem convert_WF {a : Fl ψ K} (h : a.WF) : (convert a : Fl φ K).WF := by
  cases a with
  | nan => trivial
  | inf s => trivial
  | fin s a => exact ofMag_WF h.1 _

theorem convert_nan {a : Fl ψ K} : (convert a : Fl φ K) = nan ↔ a = nan := by
  cases a with
  | nan => simp [convert]
  | inf s => simp [convert]
  | fin s a => simp [convert, ofMag_ne_nan]

theorem le_inf {a : Fl φ K} (h : a ≠ nan) : le a (inf false) = true := by
  cases a with
  | nan => exact absurd rfl h
  | inf s => cases s <;> rfl
  | fin s a => rfl
theorem inf_le {a : Fl φ K} (h : a ≠ nan) : le (inf true) a = true := by
  cases a with
  | nan => exact absurd rfl h
  | inf s => cases s <;> rfl
  | fin s a => rfl

/-- Conversion of floats is monotone. -/
theorem convert_mono {a b : Fl ψ K} (ha : a.WF) (hb : b.WF) (h : le a b = true) : le (convert a : Fl φ K) (convert b) = true := by
  cases a with
  | nan => simp [le] at h
  | inf s =>
    cases s
    · cases b with
      | nan => simp [le] at h
      | inf t => cases t <;> simp [le] at h; rfl
      | fin t b => simp [le] at h
    · apply inf_le
      rw [Ne, convert_nan]
      rintro rfl; simp [le] at h
  | fin s a =>
    cases b with
    | nan => simp [le] at h
    | inf t =>
      cases t
      · exact le_inf (by rw [Ne, convert_nan]; simp)
      · simp [le] at h
    | fin t b =>
      obtain ⟨z1, e1⟩ := ofMag_ofVal (φ := φ) ha.1 s
      obtain ⟨z2, e2⟩ := ofMag_ofVal (φ := φ) hb.1 t
      simp only [convert, e1, e2]
      exact ofVal_mono (le_fin.1 h) _ _

end PT.Fl
