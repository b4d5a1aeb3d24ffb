import Verif.Props.ChoiceF32
import Verif.Props.BsdfMix
import Verif.Lemmas.FlWF

/-!
# Which component or light is chosen, in terms of what is called (C61)

The theorems of `LightChoice` and `ChoiceF32` are about the formulas for the index; here the functions that use them are spoken about.
-/

namespace PT
open Spec

section
variable {α : Type} [Scalar α] [Libm α] [HasInf α] [HasNext α]

/-- The light asked, by its index. -/
theorem light_index (lights : List (LightObj α)) (h : lights ≠ []) (i : Interaction α) (bsdf : BSDF α) :
    ∃ pick : α → LightObj α, (∀ u (k : Nat) (hk : k < lights.length), min (toUsize (ofInt (lights.length : Int) *. u)) (lights.length - 1) = k → pick u = lights[k]) ∧
      uniformSampleOneLight lights i bsdf = (Prog.get1 .ret).bind fun u => (estimateDirect (pick u) i bsdf).bind fun ld => .ret (ld.smul (ofInt (lights.length : Int))) := by
  have h0 : lights.length ≠ 0 := by simpa using h
  have hlt : ∀ u : α, min (toUsize (ofInt (lights.length : Int) *. u)) (lights.length - 1) < lights.length := fun u =>
    (min_le_right _ _).trans_lt (by omega)
  refine ⟨fun u => lights[min (toUsize (ofInt (lights.length : Int) *. u)) (lights.length - 1)]'(hlt u), ?_, ?_⟩
  · intro u k hk e
    simp only [e]
  · unfold uniformSampleOneLight
    simp only [h0, if_false]
    have hget : ∀ u : α, lights[min (toUsize (ofInt (lights.length : Int) *. u)) (lights.length - 1)]? =
        some (lights[min (toUsize (ofInt (lights.length : Int) *. u)) (lights.length - 1)]'(hlt u)) := fun u => List.getElem?_eq_getElem (hlt u)
    simp only [hget]
    rfl

end

section
variable {α : Type} [Scalar α]

/-- A sample of a BSDF, by the index of the component. -/
theorem bsdf_index (b : BSDF α) (wo : V3 α) (u : V2 α) (k : Nat) (hk : k < b.bxdfs.length) (e : toUsize (Scalar.floor (u.x *. ofInt b.bxdfs.length)) = k) :
    let d := b.bxdfs[k].sampleF (b.worldToLocal wo) ⟨u.x *. ofInt b.bxdfs.length -. ofInt k, u.y⟩
    b.sampleF wo u = some BSDF.noSample ∨ ∃ f p, b.sampleF wo u = some (b.localToWorld d.1, f, p, b.bxdfs[k].flag) := by
  intro d
  unfold BSDF.sampleF
  simp only []
  rw [if_neg (by omega), e, List.getElem?_eq_getElem hk]
  simp only []
  split_ifs
  · exact Or.inl rfl
  · exact Or.inl rfl
  · exact Or.inr ⟨_, _, rfl⟩
  · exact Or.inr ⟨_, _, rfl⟩
  · exact Or.inr ⟨_, _, rfl⟩
  · exact Or.inr ⟨_, _, rfl⟩
end

/-- C61 for lights, exact arithmetic: of `n` lights number `k` (counted from 0) is asked for the sampler's numbers from `k / n` up to, not including,
`(k + 1) / n`, and its answer is multiplied by `n`. -/
theorem c61_light_each [HasInf ℝ] [HasNext ℝ] (lights : List (LightObj ℝ)) (h : lights ≠ []) (hn : lights.length ≤ 2 ^ 64) (i : Interaction ℝ) (bsdf : BSDF ℝ) :
    ∃ pick : ℝ → LightObj ℝ,
      (∀ u, Canonical u → ∀ (k : Nat) (hk : k < lights.length), (k : ℝ) / lights.length ≤ u → u < (k + 1 : ℝ) / lights.length → pick u = lights[k]) ∧
      uniformSampleOneLight lights i bsdf = (Prog.get1 .ret).bind fun u => (estimateDirect (pick u) i bsdf).bind fun ld => .ret (ld.smul lights.length) := by
  obtain ⟨pick, h1, h2⟩ := light_index lights h i bsdf
  have hpos : 0 < lights.length := List.length_pos_of_ne_nil h
  refine ⟨pick, fun u hu k hk h3 h4 => h1 u k hk ((c61_light_share lights.length k hpos hn hk u hu).2 ⟨h3, h4⟩), ?_⟩
  rw [h2]
  have : (ofInt (lights.length : Int) : ℝ) = lights.length := by real_ops; norm_num
  rw [this]

/-- Two lights: below 1/2 the first is asked. -/
example [HasInf ℝ] [HasNext ℝ] (a b : LightObj ℝ) (i : Interaction ℝ) (bsdf : BSDF ℝ) : ∃ pick : ℝ → LightObj ℝ, pick (1 / 4) = a ∧ pick (3 / 4) = b ∧
    uniformSampleOneLight [a, b] i bsdf = (Prog.get1 .ret).bind fun u => (estimateDirect (pick u) i bsdf).bind fun ld => .ret (ld.smul 2) := by
  obtain ⟨pick, h1, h2⟩ := c61_light_each [a, b] (by simp) (by simp) i bsdf
  refine ⟨pick, h1 (1 / 4) ⟨by norm_num, by norm_num⟩ 0 (by simp) (by norm_num) (by norm_num), h1 (3 / 4) ⟨by norm_num, by norm_num⟩ 1 (by simp) (by norm_num) (by norm_num), ?_⟩
  simpa using h2

/-- C61 for lights in single precision: of `n` lights number `k` is asked for every sample from `k / n` up to `(k + 1) / n` less one step of 2⁻²⁴, and (up to
2²³ lights) for at least one of the 2²⁴ equally spaced samples of a random generator. -/
theorem c61_light_each_f32 [Libm F32] (lights : List (LightObj F32)) (h : lights ≠ []) (hn : lights.length ≤ 2 ^ 23) (i : Interaction F32) (bsdf : BSDF F32) :
    ∃ pick : F32 → LightObj F32,
      (∀ u : F32, u.WF → Fl.le (lit 0) u = true → Fl.lt u (lit 1) = true → ∀ (k : Nat) (hk : k < lights.length),
        (k : ℚ) / lights.length ≤ u.val → u.val + 1 / 2 ^ 24 ≤ (k + 1 : ℚ) / lights.length → pick u = lights[k]) ∧
      (∀ (k : Nat) (hk : k < lights.length), ∃ m : Nat, m < 2 ^ 24 ∧ ∃ u : F32, u.WF ∧ u.val = (m : ℚ) / 2 ^ 24 ∧ pick u = lights[k]) ∧
      uniformSampleOneLight lights i bsdf = (Prog.get1 .ret).bind fun u => (estimateDirect (pick u) i bsdf).bind fun ld => .ret (ld.smul (ofInt (lights.length : Int))) := by
  obtain ⟨pick, h1, h2⟩ := light_index lights h i bsdf
  have hpos : 0 < lights.length := List.length_pos_of_ne_nil h
  refine ⟨pick, ?_, ?_, h2⟩
  · intro u hw h0 hu1 k hk h3 h4
    exact h1 u k hk ((c61_share_f32 lights.length k hpos (hn.trans (by norm_num)) hk u hw h0 hu1).1 ⟨h3, h4⟩).2
  · intro k hk
    obtain ⟨m, hm, x, hx, hv, -, e⟩ := c61_none_left_out lights.length k hpos hn hk
    exact ⟨m, hm, x, hx, hv, h1 x k hk e⟩

/-- Three lights in single precision: each of them is asked for some sample. -/
example [Libm F32] (a b c : LightObj F32) (i : Interaction F32) (bsdf : BSDF F32) : ∃ pick : F32 → LightObj F32, (∃ u, pick u = c) ∧
    uniformSampleOneLight [a, b, c] i bsdf = (Prog.get1 .ret).bind fun u => (estimateDirect (pick u) i bsdf).bind fun ld => .ret (ld.smul (ofInt 3)) := by
  obtain ⟨pick, -, h1, h2⟩ := c61_light_each_f32 [a, b, c] (by simp) (by simp) i bsdf
  obtain ⟨m, -, u, -, -, e⟩ := h1 2 (by simp)
  exact ⟨pick, ⟨u, e⟩, h2⟩

/-- C61 for components, exact arithmetic: of `n` components number `k` draws the direction for the samples from `k / n` up to, not including, `(k + 1) / n`, from
the part of the sample that is left, `n u - k`, which runs over `[0, 1)`. -/
theorem c61_component_each (b : BSDF ℝ) (hn : b.bxdfs.length < 2 ^ 64) (wo : V3 ℝ) (u : V2 ℝ) (hu : 0 ≤ u.x ∧ u.x < 1) (k : Nat) (hk : k < b.bxdfs.length)
    (h0 : (k : ℝ) / b.bxdfs.length ≤ u.x) (h1 : u.x < (k + 1 : ℝ) / b.bxdfs.length) :
    let d := b.bxdfs[k].sampleF (b.worldToLocal wo) ⟨u.x * b.bxdfs.length - k, u.y⟩
    b.sampleF wo u = some BSDF.noSample ∨ ∃ f p, b.sampleF wo u = some (b.localToWorld d.1, f, p, b.bxdfs[k].flag) := by
  intro d
  have hpos : (0 : ℝ) < b.bxdfs.length := by exact_mod_cast (by omega : 0 < b.bxdfs.length)
  have e : toUsize (Scalar.floor (u.x *. ofInt b.bxdfs.length)) = k := by
    have e1 : u.x *. ofInt b.bxdfs.length = u.x * b.bxdfs.length := by real_ops; norm_num
    rw [e1]
    have hf : ⌊u.x * (b.bxdfs.length : ℝ)⌋ = (k : Int) := by
      rw [Int.floor_eq_iff]
      rw [div_le_iff₀ hpos] at h0
      rw [lt_div_iff₀ hpos] at h1
      push_cast
      exact ⟨h0, h1⟩
    have e2 : Scalar.floor (u.x * (b.bxdfs.length : ℝ)) = (k : ℝ) := by
      show ((⌊u.x * (b.bxdfs.length : ℝ)⌋ : Int) : ℝ) = k
      rw [hf]; norm_num
    rw [e2]
    simp only [toUsize]
    rw [r_toInt]
    have ht : truncInt (k : ℝ) = k := by
      simp only [truncInt]; rw [if_neg (not_lt.2 (by positivity))]; simp
    rw [ht, satInt_of_mem (by positivity) (by omega)]
    simp
  have key := bsdf_index b wo u k hk e
  have e3 : (u.x *. ofInt b.bxdfs.length -. ofInt k : ℝ) = u.x * b.bxdfs.length - k := by real_ops; norm_num
  rw [e3] at key
  exact key

/-- C61 for components in single precision: of `n` components number `k` draws the direction for every sample from `k / n` up to `(k + 1) / n` less one step of
2⁻²⁴, from a sample that is again in `[0, 1)`. -/
theorem c61_component_each_f32 (b : BSDF F32) (hn : b.bxdfs.length ≤ 2 ^ 24) (wo : V3 F32) (u : V2 F32) (hw : u.x.WF) (hu0 : Fl.le (lit 0) u.x = true)
    (hu1 : Fl.lt u.x (lit 1) = true) (k : Nat) (hk : k < b.bxdfs.length) (h0 : (k : ℚ) / b.bxdfs.length ≤ u.x.val)
    (h1 : u.x.val + 1 / 2 ^ 24 ≤ (k + 1 : ℚ) / b.bxdfs.length) :
    ∃ v : F32, Fl.le (lit 0) v = true ∧ Fl.lt v (lit 1) = true ∧
      let d := b.bxdfs[k].sampleF (b.worldToLocal wo) ⟨v, u.y⟩
      (b.sampleF wo u = some BSDF.noSample ∨ ∃ f p, b.sampleF wo u = some (b.localToWorld d.1, f, p, b.bxdfs[k].flag)) := by
  have e := ((c61_share_f32 b.bxdfs.length k (by omega) hn hk u.x hw hu0 hu1).1 ⟨h0, h1⟩).1
  obtain ⟨-, c1, c2⟩ := c61_select u.x hw hu0 hu1 b.bxdfs.length (by omega) hn
  rw [e] at c1 c2
  exact ⟨_, c1, c2, bsdf_index b wo u k hk e⟩

/-- A case: two components and a sample in the second half; the second component gets the sample that is left. -/
example (x y : BxDF ℝ) (b : BSDF ℝ) (hb : b.bxdfs = [x, y]) (wo : V3 ℝ) :
    b.sampleF wo ⟨3 / 4, 1 / 3⟩ = some BSDF.noSample ∨ ∃ f p, b.sampleF wo ⟨3 / 4, 1 / 3⟩ = some (b.localToWorld (y.sampleF (b.worldToLocal wo) ⟨1 / 2, 1 / 3⟩).1, f, p, y.flag) := by
  have key := c61_component_each b (by rw [hb]; norm_num) wo ⟨3 / 4, 1 / 3⟩ ⟨by norm_num, by norm_num⟩ 1 (by rw [hb]; norm_num) (by rw [hb]; norm_num) (by rw [hb]; norm_num)
  simp only [hb] at key
  norm_num at key ⊢
  exact key

/-- A case in single precision: 1/4 chooses the first of two components. -/
example (x y : BxDF F32) (b : BSDF F32) (hb : b.bxdfs = [x, y]) (wo : V3 F32) : ∃ v : F32,
    b.sampleF wo ⟨.fin false (1 / 4), lit 0⟩ = some BSDF.noSample ∨
      ∃ f p, b.sampleF wo ⟨.fin false (1 / 4), lit 0⟩ = some (b.localToWorld (x.sampleF (b.worldToLocal wo) ⟨v, lit 0⟩).1, f, p, x.flag) := by
  have w : (lit (1 / 4) : F32) = .fin false (1 / 4) := by decide +kernel
  have hq : (Fl.fin false (1 / 4) : F32).val = 1 / 4 := by norm_num [Fl.val, Fl.sgn]
  obtain ⟨v, -, -, key⟩ := c61_component_each_f32 b (by rw [hb]; norm_num) wo ⟨.fin false (1 / 4), lit 0⟩ (by rw [← w]; exact Fl.lit_WF _) (by decide +kernel) (by decide +kernel) 0
    (by rw [hb]; norm_num) (by rw [hb, hq]; norm_num) (by rw [hb, hq]; norm_num)
  simp only [hb] at key
  exact ⟨v, key⟩

end PT
