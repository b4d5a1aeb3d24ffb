import Verif.Lemmas.Binary
import Mathlib.Order.WithBot

/-!
# Order and sign lemmas for `Fl`
-/

namespace PT
namespace Fl
variable {φ K : Type} [Field K] [LinearOrder K]

/-- Position of a value on the extended line (only meaningful for non-NaN values). -/
def ev : Fl φ K → WithBot (WithTop K)
  | nan => ⊥
  | inf s => if s then ⊥ else (⊤ : WithTop K)
  | fin s a => ((sgn s a : K) : WithTop K)

theorem lt_iff {a b : Fl φ K} : lt a b = true ↔ a ≠ nan ∧ b ≠ nan ∧ ev a < ev b := by
  cases a with
  | nan => simp [lt]
  | inf s => cases b with
    | nan => simp [lt]
    | inf t => cases s <;> cases t <;> simp [lt, ev]
    | fin t b =>
      cases s
      · simp [lt, ev]
      · simp [lt, ev, WithBot.bot_lt_coe]
  | fin s a => cases b with
    | nan => simp [lt]
    | inf t =>
      cases t
      · simp [lt, ev]; exact WithBot.coe_lt_coe.2 (WithTop.coe_lt_top _)
      · simp [lt, ev]
    | fin t b => simp [lt, ev]

theorem le_iff {a b : Fl φ K} : le a b = true ↔ a ≠ nan ∧ b ≠ nan ∧ ev a ≤ ev b := by
  cases a with
  | nan => simp [le]
  | inf s => cases b with
    | nan => simp [le]
    | inf t => cases s <;> cases t <;> simp [le, ev]
    | fin t b =>
      cases s
      · simp [le, ev]
      · simp [le, ev]
  | fin s a => cases b with
    | nan => simp [le]
    | inf t =>
      cases t
      · simp [le, ev]
      · simp [le, ev]
    | fin t b => simp [le, ev]

theorem eq_iff {a b : Fl φ K} : eq a b = true ↔ a ≠ nan ∧ b ≠ nan ∧ ev a = ev b := by
  cases a with
  | nan => simp [eq]
  | inf s => cases b with
    | nan => simp [eq]
    | inf t => cases s <;> cases t <;> simp [eq, ev]
    | fin t b =>
      cases s
      · simp [eq, ev]
      · simp [eq, ev]
  | fin s a => cases b with
    | nan => simp [eq]
    | inf t =>
      cases t
      · simp [eq, ev]
      · simp [eq, ev]
    | fin t b => simp [eq, ev]

theorem isNaN_iff {a : Fl φ K} : a.isNaN = true ↔ a = nan := by cases a <;> simp [isNaN]
theorem isNaN_false {a : Fl φ K} : a.isNaN = false ↔ a ≠ nan := by cases a <;> simp [isNaN]

section ops
variable [FloorRing K] [Rounding φ K]
theorem f_add (a b : Fl φ K) : a +. b = add a b := rfl
theorem f_sub (a b : Fl φ K) : a -. b = add a (neg b) := rfl
theorem f_mul (a b : Fl φ K) : a *. b = mul a b := rfl
theorem f_div (a b : Fl φ K) : a /. b = div a b := rfl
theorem f_neg (a : Fl φ K) : ⊖a = neg a := rfl
theorem f_lt (a b : Fl φ K) : (a <. b) = lt a b := rfl
theorem f_le (a b : Fl φ K) : (a <=. b) = le a b := rfl
theorem f_eq (a b : Fl φ K) : (a ==. b) = eq a b := rfl
theorem f_min (a b : Fl φ K) : Scalar.fmin a b = fmin a b := rfl
theorem f_max (a b : Fl φ K) : Scalar.fmax a b = fmax a b := rfl
theorem f_abs (a : Fl φ K) : Scalar.abs a = abs a := rfl
theorem f_isNaN (a : Fl φ K) : Scalar.isNaN a = isNaN a := rfl
theorem f_isInf (a : Fl φ K) : Scalar.isInf a = isInf a := rfl
theorem f_lit (q : ℚ) : (PT.lit q : Fl φ K) = ofVal (q : K) false := rfl

theorem lit_zero : (PT.lit 0 : Fl φ K) = fin false 0 := by simp [f_lit, ofVal]

/-- A literal that the format represents exactly. -/
theorem lit_exact {q : ℚ} (h0 : 0 < (q : K)) (h : Rounding.rnd φ (q : K) = some (q : K)) :
    (PT.lit q : Fl φ K) = fin false (q : K) := by
  rw [f_lit]; unfold ofVal
  rw [if_neg h0.ne', if_neg (not_lt.2 h0.le), h]

end ops

/-- The comparison of finite values. -/
theorem le_fin {s t : Bool} {a b : K} : le (fin s a : Fl φ K) (fin t b) = true ↔ sgn s a ≤ sgn t b := by
  simp [le]
theorem lt_fin {s t : Bool} {a b : K} : lt (fin s a : Fl φ K) (fin t b) = true ↔ sgn s a < sgn t b := by
  simp [lt]

end Fl
end PT

namespace PT
namespace Fl
variable {φ K : Type} [Field K] [LinearOrder K] [IsStrictOrderedRing K]

/-- Neither NaN nor negative (−0 and +∞ are allowed). -/
def NN : Fl φ K → Prop
  | nan => False
  | inf s => s = false
  | fin s a => 0 ≤ a ∧ 0 ≤ sgn s a

/-- Finite and not negative. -/
def FinNN (x : Fl φ K) : Prop := x.IsFin ∧ x.NN

theorem sgn_nonneg {s : Bool} {a : K} (h : 0 ≤ a) (h' : 0 ≤ sgn s a) : s = false ∨ a = 0 := by
  cases s
  · exact Or.inl rfl
  · right; simp only [sgn, if_true] at h'; linarith

variable [FloorRing K] [Rounding φ K]

theorem ofVal_NN {x : K} (h : 0 ≤ x) (zs : Bool) : (ofVal x zs : Fl φ K).NN := by
  unfold ofVal
  split_ifs with h0 h1
  · exact ⟨le_rfl, by cases zs <;> simp [sgn]⟩
  · exact absurd h (not_le.2 h1)
  · cases hr : Rounding.rnd φ x with
    | none => rfl
    | some m => exact ⟨Rounding.rnd_nonneg _ _ h hr, Rounding.rnd_nonneg _ _ h hr⟩

theorem ofMag_NN {x : K} (h : 0 ≤ x) {s : Bool} (hs : s = false ∨ x = 0) : (ofMag s x : Fl φ K).NN := by
  unfold ofMag
  rcases hs with rfl | rfl
  · cases hr : Rounding.rnd φ x with
    | none => rfl
    | some m => exact ⟨Rounding.rnd_nonneg _ _ h hr, Rounding.rnd_nonneg _ _ h hr⟩
  · rw [Rounding.rnd_zero]; exact ⟨le_rfl, by cases s <;> simp [sgn]⟩

theorem add_NN {a b : Fl φ K} (ha : a.NN) (hb : b.NN) : (add a b).NN := by
  cases a with
  | nan => exact ha.elim
  | inf s =>
    obtain rfl : s = false := ha
    cases b with
    | nan => exact hb.elim
    | inf t => obtain rfl : t = false := hb; rfl
    | fin t b => rfl
  | fin s a => cases b with
    | nan => exact hb.elim
    | inf t => obtain rfl : t = false := hb; rfl
    | fin t b => exact ofVal_NN (add_nonneg ha.2 hb.2) _

theorem mul_NN {a b : Fl φ K} (ha : a.FinNN) (hb : b.FinNN) : (mul a b).NN := by
  obtain ⟨ha, ha'⟩ := ha
  obtain ⟨hb, hb'⟩ := hb
  cases a with
  | nan => exact ha.elim
  | inf s => exact ha.elim
  | fin s a => cases b with
    | nan => exact hb.elim
    | inf t => exact hb.elim
    | fin t b =>
      refine ofMag_NN (mul_nonneg ha'.1 hb'.1) ?_
      rcases sgn_nonneg ha'.1 ha'.2 with rfl | h0
      · rcases sgn_nonneg hb'.1 hb'.2 with rfl | h0
        · exact Or.inl rfl
        · right; rw [h0, mul_zero]
      · right; rw [h0, zero_mul]

theorem zero_NN : (PT.lit 0 : Fl φ K).NN := by rw [lit_zero]; exact ⟨le_rfl, by simp [sgn]⟩

end Fl
end PT
