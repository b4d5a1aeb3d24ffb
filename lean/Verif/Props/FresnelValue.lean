import Verif.Props.Scattering
import Mathlib.Analysis.SpecialFunctions.Pow.Complex

/-!
# The value of the conductor reflectance (C55)

The textbook reflectance of a plane wave at a medium of complex refractive index.
-/

namespace PT

namespace Spec
/-- The reflectance of unpolarized light at cosine `c`, on a medium of complex relative index `n`, where `w` is the normal component of the
transmitted wave vector: the mean of the squared moduli of the two Fresnel amplitudes. -/
noncomputable def waveReflectance (c : ℝ) (n w : ℂ) : ℝ :=
  (Complex.normSq ((c - w) / (c + w)) + Complex.normSq ((n ^ 2 * c - w) / (n ^ 2 * c + w))) / 2
/-- `w` is the normal component of the transmitted wave vector (in units of the incident one): the tangential component `sin θ` is kept, the
total is `n`, and the wave goes into the medium. -/
def Transmitted (c : ℝ) (n w : ℂ) : Prop := w ^ 2 + ((1 - c ^ 2 : ℝ) : ℂ) = n ^ 2 ∧ 0 ≤ w.re
end Spec
open Spec

/-- There always is such a wave. -/
theorem transmitted_exists (c : ℝ) (n : ℂ) : ∃ w, Transmitted c n w := by
  obtain ⟨w, hw⟩ : ∃ w : ℂ, w ^ 2 = n ^ 2 - ((1 - c ^ 2 : ℝ) : ℂ) :=
    ⟨(n ^ 2 - ((1 - c ^ 2 : ℝ) : ℂ)) ^ ((2 : ℕ) : ℂ)⁻¹, Complex.cpow_nat_inv_pow _ two_ne_zero⟩
  by_cases h : 0 ≤ w.re
  · exact ⟨w, by rw [hw]; ring, h⟩
  · exact ⟨-w, by rw [neg_sq, hw]; ring, by simp only [Complex.neg_re]; linarith⟩

theorem condChannel_value {c ni nt k : ℝ} (w : ℂ) (hw : Transmitted c ⟨nt / ni, k / ni⟩ w) :
    condChannel c ni nt k = waveReflectance c ⟨nt / ni, k / ni⟩ w := by
  obtain ⟨h1, h2⟩ := hw
  obtain ⟨a, b⟩ := w
  simp only [] at h2
  have hre := congrArg Complex.re h1
  have him := congrArg Complex.im h1
  simp only [pow_two, Complex.add_re, Complex.mul_re, Complex.ofReal_re, Complex.add_im, Complex.mul_im, Complex.ofReal_im] at hre him
  set e := nt / ni
  set q := k / ni
  have hab : Real.sqrt ((e * e - q * q - (1 - c * c)) * (e * e - q * q - (1 - c * c)) + e * e * (q * q) * 4) = a ^ 2 + b ^ 2 := by
    rw [show (e * e - q * q - (1 - c * c)) * (e * e - q * q - (1 - c * c)) + e * e * (q * q) * 4 = (a ^ 2 + b ^ 2) ^ 2 by
      have : e * q = a * b := by linarith
      have h3 : e * e - q * q - (1 - c * c) = a * a - b * b := by linarith
      rw [h3, show e * e * (q * q) = (e * q) ^ 2 by ring, this]; ring]
    exact Real.sqrt_sq (by positivity)
  have ha : Real.sqrt ((a ^ 2 + b ^ 2 + (e * e - q * q - (1 - c * c))) * (1 / 2)) = a := by
    rw [show (a ^ 2 + b ^ 2 + (e * e - q * q - (1 - c * c))) * (1 / 2) = a ^ 2 by linarith]
    exact Real.sqrt_sq h2
  simp only [condChannel]
  rw [hab, ha]
  have f1 : (⟨e, q⟩ : ℂ) ^ 2 * c - ⟨a, b⟩ = (⟨a, b⟩ - c) * (c * ⟨a, b⟩ - ((1 - c ^ 2 : ℝ) : ℂ)) := by
    rw [← h1]; push_cast; ring
  have f2 : (⟨e, q⟩ : ℂ) ^ 2 * c + ⟨a, b⟩ = (⟨a, b⟩ + c) * (c * ⟨a, b⟩ + ((1 - c ^ 2 : ℝ) : ℂ)) := by
    rw [← h1]; push_cast; ring
  have n1 : Complex.normSq ((c : ℂ) - ⟨a, b⟩) = a ^ 2 + b ^ 2 + c * c - a * c * 2 := by
    simp [Complex.normSq_apply]; ring
  have n2 : Complex.normSq ((c : ℂ) + ⟨a, b⟩) = a ^ 2 + b ^ 2 + c * c + a * c * 2 := by
    simp [Complex.normSq_apply]; ring
  have n3 : Complex.normSq ((c : ℂ) * ⟨a, b⟩ - ((1 - c ^ 2 : ℝ) : ℂ)) =
      (a ^ 2 + b ^ 2) * (c * c) + (1 - c * c) * (1 - c * c) - a * c * 2 * (1 - c * c) := by
    simp only [Complex.normSq_apply, Complex.sub_re, Complex.sub_im, Complex.mul_re, Complex.mul_im, Complex.ofReal_re, Complex.ofReal_im]; ring
  have n4 : Complex.normSq ((c : ℂ) * ⟨a, b⟩ + ((1 - c ^ 2 : ℝ) : ℂ)) =
      (a ^ 2 + b ^ 2) * (c * c) + (1 - c * c) * (1 - c * c) + a * c * 2 * (1 - c * c) := by
    simp only [Complex.normSq_apply, Complex.add_re, Complex.add_im, Complex.mul_re, Complex.mul_im, Complex.ofReal_re, Complex.ofReal_im]; ring
  unfold waveReflectance
  have n5 : Complex.normSq ((⟨a, b⟩ : ℂ) - c) = a ^ 2 + b ^ 2 + c * c - a * c * 2 := by rw [← n1, ← Complex.normSq_neg, neg_sub]
  have n6 : Complex.normSq ((⟨a, b⟩ : ℂ) + c) = a ^ 2 + b ^ 2 + c * c + a * c * 2 := by rw [← n2, add_comm]
  rw [f1, f2, Complex.normSq_div, Complex.normSq_div, map_mul, map_mul, n1, n2, n3, n4, n5, n6, mul_div_mul_comm, mul_div_assoc]
  ring

/-- C55: each channel of the conductor reflectance is the textbook value for the complex index `(nt + i k) / ni`. -/
theorem c55_conductor_value {c : ℝ} (hc : |c| ≤ 1) (ni nt k : Spectrum ℝ) (w₁ w₂ w₃ : ℂ)
    (h₁ : Transmitted |c| ⟨nt.r / ni.r, k.r / ni.r⟩ w₁) (h₂ : Transmitted |c| ⟨nt.g / ni.g, k.g / ni.g⟩ w₂)
    (h₃ : Transmitted |c| ⟨nt.b / ni.b, k.b / ni.b⟩ w₃) :
    fresnelConductor ni nt k c = ⟨waveReflectance |c| ⟨nt.r / ni.r, k.r / ni.r⟩ w₁, waveReflectance |c| ⟨nt.g / ni.g, k.g / ni.g⟩ w₂,
      waveReflectance |c| ⟨nt.b / ni.b, k.b / ni.b⟩ w₃⟩ := by
  rw [fresnelConductor_channels, min_eq_left hc, condChannel_value w₁ h₁, condChannel_value w₂ h₂, condChannel_value w₃ h₃]

/-- The hypotheses can be met for every index and angle. -/
example (c : ℝ) (ni nt k : Spectrum ℝ) : ∃ w₁ w₂ w₃, Transmitted |c| ⟨nt.r / ni.r, k.r / ni.r⟩ w₁ ∧
    Transmitted |c| ⟨nt.g / ni.g, k.g / ni.g⟩ w₂ ∧ Transmitted |c| ⟨nt.b / ni.b, k.b / ni.b⟩ w₃ :=
  ⟨_, _, _, (transmitted_exists _ _).choose_spec, (transmitted_exists _ _).choose_spec, (transmitted_exists _ _).choose_spec⟩

/-- C55: without absorption, and when the wave gets through, a conductor reflects like the dielectric of the same index. -/
theorem c55_conductor_without_absorption (ci ct ni nt : ℝ) (hi : 0 < ni) (ht : 0 < nt) (hci : 0 < ci) (hci1 : ci ≤ 1) (hct : 0 < ct)
    (hct1 : ct ≤ 1) (snell : ni ^ 2 * (1 - ci ^ 2) = nt ^ 2 * (1 - ct ^ 2)) :
    fresnelConductor (Spectrum.of ni) (Spectrum.of nt) (Spectrum.of 0) ci = fresnelDielectric ni nt ci := by
  have hw : Transmitted |ci| ⟨nt / ni, 0 / ni⟩ (((nt / ni * ct : ℝ)) : ℂ) := by
    refine ⟨?_, by rw [Complex.ofReal_re]; positivity⟩
    rw [zero_div, show (⟨nt / ni, 0⟩ : ℂ) = ((nt / ni : ℝ) : ℂ) from rfl, ← Complex.ofReal_pow, ← Complex.ofReal_pow, ← Complex.ofReal_add]
    congr 1
    rw [abs_of_pos hci]
    field_simp
    linarith
  have hv : waveReflectance |ci| ⟨nt / ni, 0 / ni⟩ (((nt / ni * ct : ℝ)) : ℂ) = frDielectric ci ni nt := by
    rw [(c55_dielectric_value ci ct ni nt hi ht hci hci1 hct hct1 snell).1, abs_of_pos hci]
    unfold waveReflectance Spec.fresnel
    rw [zero_div, show (⟨nt / ni, 0⟩ : ℂ) = ((nt / ni : ℝ) : ℂ) from rfl]
    simp only [← Complex.ofReal_pow, ← Complex.ofReal_mul, ← Complex.ofReal_sub, ← Complex.ofReal_add, ← Complex.ofReal_div, Complex.normSq_ofReal]
    have e1 : (ci - nt / ni * ct) / (ci + nt / ni * ct) = (ni * ci - nt * ct) / (ni * ci + nt * ct) := by
      have : ci + nt / ni * ct ≠ 0 := by positivity
      have : ni * ci + nt * ct ≠ 0 := by positivity
      rw [div_eq_div_iff (by assumption) (by assumption)]; field_simp
    have e2 : ((nt / ni) ^ 2 * ci - nt / ni * ct) / ((nt / ni) ^ 2 * ci + nt / ni * ct) = (nt * ci - ni * ct) / (nt * ci + ni * ct) := by
      have : (nt / ni) ^ 2 * ci + nt / ni * ct ≠ 0 := by positivity
      have : nt * ci + ni * ct ≠ 0 := by positivity
      rw [div_eq_div_iff (by assumption) (by assumption)]; field_simp
    rw [e1, e2]
    ring
  rw [c55_conductor_value (by rwa [abs_of_pos hci]) (Spectrum.of ni) (Spectrum.of nt) (Spectrum.of 0) _ _ _ hw hw hw]
  simp only [fresnelDielectric, Spectrum.of, hv]

/-- Air to a medium of index 4/3 at sine 4/5. -/
example : (1 : ℝ) ^ 2 * (1 - (3 / 5) ^ 2) = (4 / 3) ^ 2 * (1 - (4 / 5) ^ 2) := by norm_num

end PT
