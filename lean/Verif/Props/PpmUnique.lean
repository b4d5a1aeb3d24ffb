import Verif.Props.Output
import Std.Data.String.ToNat
import Std.Data.String.ToInt

/-!
# A PPM file can be read back (C09)

The text of the file determines the size of the image and every pixel.
-/

namespace PT
namespace Ppm

/-- Two texts that agree after a first part without `c`. -/
theorem split_at {c : Char} : ∀ {a a' r r' : List Char}, c ∉ a → c ∉ a' → a ++ c :: r = a' ++ c :: r' → a = a' ∧ r = r' := by
  intro a
  induction a with
  | nil =>
    intro a' r r' _ h' e
    cases a' with
    | nil => simp only [List.nil_append, List.cons.injEq, true_and] at e; exact ⟨rfl, e⟩
    | cons d a' =>
      simp only [List.nil_append, List.cons_append, List.cons.injEq] at e
      exact absurd (by rw [e.1]; exact List.mem_cons_self ..) h'
  | cons d a ih =>
    intro a' r r' h h' e
    cases a' with
    | nil =>
      simp only [List.nil_append, List.cons_append, List.cons.injEq] at e
      exact absurd (by rw [← e.1]; exact List.mem_cons_self ..) h
    | cons d' a' =>
      simp only [List.cons_append, List.cons.injEq] at e
      obtain ⟨i1, i2⟩ := ih (fun hc => h (List.mem_cons_of_mem _ hc)) (fun hc => h' (List.mem_cons_of_mem _ hc)) e.2
      exact ⟨by rw [e.1, i1], i2⟩

theorem digits_only {c : Char} (hc : c.isDigit = false) (n : Nat) : c ∉ (toString n).toList := by
  intro h
  have : c ∈ Nat.toDigits 10 n := by simpa using h
  have := Nat.isDigit_of_mem_toDigits (by norm_num) (by norm_num) this
  rw [hc] at this; cases this

theorem int_only {c : Char} (hc : c.isDigit = false) (hm : c ≠ '-') (n : Int) : c ∉ (toString n).toList := by
  cases n with
  | ofNat m => exact digits_only hc m
  | negSucc m =>
    show c ∉ ("-" ++ toString (m + 1)).toList
    rw [String.toList_append]
    intro h
    rcases List.mem_append.1 h with h | h
    · simp at h; exact hm h
    · exact digits_only hc _ h

theorem nat_toString_inj {m n : Nat} (h : (toString m).toList = (toString n).toList) : m = n :=
  Nat.repr_injective (String.toList_inj.1 h)

theorem int_toString_inj {m n : Int} (h : (toString m).toList = (toString n).toList) : m = n :=
  Int.repr_injective (String.toList_inj.1 h)

theorem line_toList (p : Nat × Nat × Nat) (r : List Char) : (Spec.ppmLine p).toList ++ r =
    (toString p.1).toList ++ ' ' :: ((toString p.2.1).toList ++ ' ' :: ((toString p.2.2).toList ++ '\n' :: r)) := by
  unfold Spec.ppmLine
  simp [String.toList_append]

theorem lines_inj : ∀ {l l' : List (Nat × Nat × Nat)}, (String.join (l.map Spec.ppmLine)).toList = (String.join (l'.map Spec.ppmLine)).toList → l = l' := by
  have ne : ∀ (p : Nat × Nat × Nat) (l : List (Nat × Nat × Nat)), (String.join ((p :: l).map Spec.ppmLine)).toList ≠ (String.join ([].map Spec.ppmLine)).toList := by
    intro p l h
    rw [List.map_cons, String.join_cons, String.toList_append, line_toList] at h
    simp [String.join] at h
  intro l
  induction l with
  | nil =>
    intro l' h
    cases l' with
    | nil => rfl
    | cons p l' => exact absurd h.symm (ne p l')
  | cons p l ih =>
    intro l' h
    cases l' with
    | nil => exact absurd h (ne p l)
    | cons p' l' =>
      rw [List.map_cons, List.map_cons, String.join_cons, String.join_cons, String.toList_append, String.toList_append, line_toList, line_toList] at h
      obtain ⟨e1, h⟩ := split_at (digits_only (by decide) _) (digits_only (by decide) _) h
      obtain ⟨e2, h⟩ := split_at (digits_only (by decide) _) (digits_only (by decide) _) h
      obtain ⟨e3, h⟩ := split_at (digits_only (by decide) _) (digits_only (by decide) _) h
      have : p = p' := Prod.ext (nat_toString_inj e1) (Prod.ext (nat_toString_inj e2) (nat_toString_inj e3))
      rw [this, ih h]

end Ppm
open Ppm

/-- C09, reading back: the text of the file determines the width, the height and every pixel. -/
theorem c09_unambiguous (s : String) (w h w' h' : Int) (px px' : List (Nat × Nat × Nat))
    (e : Spec.IsPpm s w h px) (e' : Spec.IsPpm s w' h' px') : w = w' ∧ h = h' ∧ px = px' := by
  have key := congrArg String.toList (e.1.symm.trans e'.1)
  simp only [String.toList_append, List.append_assoc, List.append_cancel_left_eq] at key
  have sp : (" " : String).toList = [' '] := rfl
  have nl : ("\n255\n" : String).toList = '\n' :: ['2', '5', '5', '\n'] := rfl
  rw [sp, nl] at key
  simp only [List.cons_append, List.nil_append] at key
  obtain ⟨e1, key⟩ := split_at (int_only (by decide) (by decide) _) (int_only (by decide) (by decide) _) key
  obtain ⟨e2, key⟩ := split_at (int_only (by decide) (by decide) _) (int_only (by decide) (by decide) _) key
  simp only [List.cons.injEq, true_and] at key
  exact ⟨int_toString_inj e1, int_toString_inj e2, lines_inj key⟩

/-- Two files that differ only in where the digits are. -/
example : Spec.IsPpm "P3\n1 1\n255\n1 23 4\n" 1 1 [(1, 23, 4)] ∧ Spec.IsPpm "P3\n1 1\n255\n12 3 4\n" 1 1 [(12, 3, 4)] := by
  refine ⟨⟨by decide +kernel, rfl, by decide⟩, ⟨by decide +kernel, rfl, by decide⟩⟩

end PT
