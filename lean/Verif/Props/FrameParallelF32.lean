import Verif.Props.SystemF32

/-!
# Shading frames where the interpolated normal is along the tangent, in single precision (C122)
-/

namespace PT
open Spec Fl

open SmoothF FrameF NoPanic SystF in
/-- **C122** (triangles with vertex normals, the other branch).  Where the interpolated normal is so close to the line of the tangent that the computed product of the two
vanishes, the code makes up a tangent; it is perpendicular to the normal up to `2 ^ -19`, and directions survive the way into the shading frame and back up to `2 ^ -14`. -/
theorem c122_parallel_triangle [Libm F32] (hl : AccurateSqrt) (s : Triangle F32) (n0 n1 n2 : V3 F32) (hv : s.vertexNormals = some (n0, n1, n2)) (direction : V3 F32) (b0 b1 b2 : F32)
    (hm : UpTo3 53 (mixedNormal n0 n1 n2 b0 b1 b2)) (ht : NotTiny (mixedNormal n0 n1 n2 b0 b1 b2))
    (hp : ((s.partials.1.normalize.cross (mixedNormal n0 n1 n2 b0 b1 b2).normalize).length >. lit 0) = false) :
    SteadyFrame (1 / 2 ^ 19) (s.interactionAt direction b0 b1 b2) ∧
    ∀ (bs : List (BxDF F32)) (v : V3 F32), UpTo3 0 v → ∀ a, let b := { BSDF.new (s.interactionAt direction b0 b1 b2) with bxdfs := bs }
      |(((b.localToWorld (b.worldToLocal v)).get a).val : ℝ) - (v.get a).val| ≤ 1 / 2 ^ 14 := by
  have hi : SteadyFrame (1 / 2 ^ 19) (s.interactionAt direction b0 b1 b2) := by
    obtain ⟨u, m2, l0, -, -⟩ := unit_facts hl hm ht
    obtain ⟨nl, -, el⟩ := VecF.length_near hl hm ht
    have z := zero_ok
    have lpos : (0 : ℚ) ≤ (mixedNormal n0 n1 n2 b0 b1 b2).length.val := by
      have := (abs_le.1 el).1
      have h' : (0 : ℝ) ≤ (mixedNormal n0 n1 n2 b0 b1 b2).length.val := by norm_num at this; linarith
      exact_mod_cast h'
    have t1 : ((mixedNormal n0 n1 n2 b0 b1 b2).length >=. lit 0) = true := (le_ok z.1 nl).2 (by rw [z.2]; exact lpos)
    have sh : ∀ n e, s.shading b0 b1 b2 n s.partials.1 e = ((mixedNormal n0 n1 n2 b0 b1 b2).normalize,
        (mixedNormal n0 n1 n2 b0 b1 b2).normalize.constructCoordinateSystem.1, (mixedNormal n0 n1 n2 b0 b1 b2).normalize.constructCoordinateSystem.2) := by
      intro n e
      unfold Triangle.shading
      rw [hv]
      change (if ((s.partials.1.normalize.cross (if ((mixedNormal n0 n1 n2 b0 b1 b2).length >=. lit 0) = true then (mixedNormal n0 n1 n2 b0 b1 b2).normalize else n)).length >. lit 0) = true
        then _ else ((if ((mixedNormal n0 n1 n2 b0 b1 b2).length >=. lit 0) = true then (mixedNormal n0 n1 n2 b0 b1 b2).normalize else n),
          (if ((mixedNormal n0 n1 n2 b0 b1 b2).length >=. lit 0) = true then (mixedNormal n0 n1 n2 b0 b1 b2).normalize else n).constructCoordinateSystem.1,
          (if ((mixedNormal n0 n1 n2 b0 b1 b2).length >=. lit 0) = true then (mixedNormal n0 n1 n2 b0 b1 b2).normalize else n).constructCoordinateSystem.2)) = _
      simp only [t1, if_true]
      rw [if_neg (by rw [hp]; exact Bool.false_ne_true)]
    have m2' : |exactDot (mixedNormal n0 n1 n2 b0 b1 b2).normalize (mixedNormal n0 n1 n2 b0 b1 b2).normalize - 1| ≤ 1 / 2 ^ 20 := m2.trans (by norm_num)
    obtain ⟨u1, a1, p1⟩ := first hl u (m2.trans (by norm_num))
    generalize hd : (mixedNormal n0 n1 n2 b0 b1 b2).normalize.constructCoordinateSystem.1 = d at *
    have ld : (1 / 2 : ℝ) ≤ exactLength d := by
      refine le_of_sq_le_sq ?_ (exactLength_nonneg _)
      rw [exactLength_sq]
      have := (abs_le.1 a1).1
      unfold exactDot at this
      norm_num at this ⊢
      linarith
    have p1' : |exactDot (mixedNormal n0 n1 n2 b0 b1 b2).normalize d| ≤ 1 / 2 ^ 19 * exactLength d := by
      refine p1.trans ?_
      calc (16 / 2 ^ 24 : ℝ) = 1 / 2 ^ 19 * (1 / 2) := by norm_num
        _ ≤ _ := by gcongr
    obtain ⟨f1, f2, f3⟩ := flip_frame u m2' p1' s.reverseOrientation
    unfold Triangle.interactionAt
    simp only [sh]
    exact ⟨UpTo3.mono u1 (by omega), long_notTiny (le_trans (by norm_num) ld), f1, f2, f3⟩
  refine ⟨hi, fun bs v hv' a => ?_⟩
  exact (c122_round_trip hl (by norm_num) hi bs hv' a).2.trans (by norm_num)

namespace Demo
open NoPanic VecF SmoothF

theorem zero_over {L : F32} (h : Num L) (h0 : L.val ≠ 0) : Num (f32 0 /. L) ∧ (f32 0 /. L).val = 0 := by
  have z : f32 0 = .fin false 0 := by decide +kernel
  obtain ⟨s, m, rfl⟩ := IsFin_iff.1 h.fin
  have hm : m ≠ 0 := by rintro rfl; exact h0 (by cases s <;> simp [val, sgn])
  have r : Rounding.rnd Binary32 (0 : ℚ) = some 0 := by decide +kernel
  have e : (f32 0 /. (.fin s m : F32)) = .fin s 0 := by
    rw [z]
    show Fl.div _ _ = _
    simp [Fl.div, hm, Fl.ofMag, r]
  rw [e]
  exact ⟨⟨⟨le_rfl, r⟩, trivial⟩, by cases s <;> simp [val, sgn]⟩

theorem product_zero {a b : F32} (ha : Num a) (hb : Num b) (h : a.val = 0 ∨ b.val = 0) : Num (a *. b) ∧ (a *. b).val = 0 := by
  have p : a.val * b.val = 0 := by rcases h with h | h <;> rw [h] <;> simp
  have n := (mul_ok ha hb (by rw [p]; norm_num)).1
  refine ⟨n, ?_⟩
  obtain ⟨zs, e⟩ := mul_val ha hb
  rw [e, p]
  cases zs <;> simp [ofVal, val, sgn]

theorem minus_zero {a b : F32} (ha : Num a) (hb : Num b) (h : a.val = 0) (h' : b.val = 0) : Num (a -. b) ∧ (a -. b).val = 0 :=
  NoPanic.add_zero_val ha (neg_ok hb).1 h ((neg_ok hb).2.trans (by rw [h', neg_zero]))

/-- Two vectors along the first axis have a computed product of length zero. -/
theorem axis_cross [Libm F32] (hl : AccurateSqrt) {v w : V3 F32} (hv : Num v.x ∧ Num v.y ∧ Num v.z) (hw : Num w.x ∧ Num w.y ∧ Num w.z) (v0 : v.y.val = 0 ∧ v.z.val = 0) (w0 : w.y.val = 0 ∧ w.z.val = 0) :
    ((v.cross w).length >. lit 0) = false := by
  have sub0 : ∀ {a b c d : F32}, Num a → Num b → Num c → Num d → (a.val = 0 ∨ b.val = 0) → (c.val = 0 ∨ d.val = 0) → Num (a *. b -. c *. d) ∧ (a *. b -. c *. d).val = 0 :=
    fun ha hb hc hd h h' => minus_zero (product_zero ha hb h).1 (product_zero hc hd h').1 (product_zero ha hb h).2 (product_zero hc hd h').2
  obtain ⟨nx, x0⟩ : Num (v.cross w).x ∧ (v.cross w).x.val = 0 := sub0 hv.2.1 hw.2.2 hv.2.2 hw.2.1 (.inl v0.1) (.inl v0.2)
  obtain ⟨ny, y0⟩ : Num (v.cross w).y ∧ (v.cross w).y.val = 0 := sub0 hv.2.2 hw.1 hv.1 hw.2.2 (.inl v0.2) (.inr w0.2)
  obtain ⟨nz, z0⟩ : Num (v.cross w).z ∧ (v.cross w).z.val = 0 := sub0 hv.1 hw.2.1 hv.2.1 hw.1 (.inr w0.1) (.inl v0.1)
  generalize v.cross w = c at *
  obtain ⟨a1, a2⟩ := product_zero nx nx (.inl x0)
  obtain ⟨b1, b2⟩ := product_zero ny ny (.inl y0)
  obtain ⟨c1, c2⟩ := product_zero nz nz (.inl z0)
  obtain ⟨d1, d2⟩ := NoPanic.add_zero_val a1 b1 a2 b2
  obtain ⟨e1, e2⟩ := NoPanic.add_zero_val d1 c1 d2 c2
  obtain ⟨f1, f2, f3⟩ := hl _ e1.wf e1.fin (by rw [e2])
  rw [e2] at f3
  have g : ((Libm.sqrt (c.x *. c.x +. c.y *. c.y +. c.z *. c.z)).val : ℝ) = 0 := by simpa using f3
  have g' : (Libm.sqrt (c.x *. c.x +. c.y *. c.y +. c.z *. c.z)).val = 0 := by exact_mod_cast g
  apply Bool.eq_false_iff.2
  intro h
  have := (lt_ok zero_ok.1 ⟨f1, f2⟩).1 h
  rw [zero_ok.2, g'] at this
  exact lt_irrefl _ this

end Demo

open NoPanic VecF SmoothF in
/-- A triangle with its first edge and all its normals along the first axis. -/
example [Libm F32] (hl : AccurateSqrt) (mat : Material F32) :
    let s : Triangle F32 := ⟨⟨f32 0, f32 0, f32 0⟩, ⟨f32 4, f32 0, f32 0⟩, ⟨f32 0, f32 4, f32 0⟩, some (⟨f32 1, f32 0, f32 0⟩, ⟨f32 1, f32 0, f32 0⟩, ⟨f32 1, f32 0, f32 0⟩), false, mat⟩
    let m := mixedNormal ⟨f32 1, f32 0, f32 0⟩ ⟨f32 1, f32 0, f32 0⟩ ⟨f32 1, f32 0, f32 0⟩ (f32 (1 / 2)) (f32 (1 / 4)) (f32 (1 / 4))
    UpTo3 53 m ∧ NotTiny m ∧ ((s.partials.1.normalize.cross m.normalize).length >. lit 0) = false := by
  intro s m
  have e : s.partials.1 = ⟨f32 4, f32 0, f32 0⟩ := by
    rw [FrameF.partials_f32]
    show (((V3.sub ⟨f32 0, f32 0, f32 0⟩ ⟨f32 0, f32 4, f32 0⟩).smul ⊖(lit 1)).sub ((V3.sub ⟨f32 4, f32 0, f32 0⟩ ⟨f32 0, f32 4, f32 0⟩).smul ⊖(lit 1))).sdiv (lit 1) = (⟨f32 4, f32 0, f32 0⟩ : V3 F32)
    decide +kernel
  have e' : m = ⟨f32 1, f32 0, f32 0⟩ := by
    show mixedNormal ⟨f32 1, f32 0, f32 0⟩ ⟨f32 1, f32 0, f32 0⟩ ⟨f32 1, f32 0, f32 0⟩ (f32 (1 / 2)) (f32 (1 / 4)) (f32 (1 / 4)) = _
    decide +kernel
  rw [e, e']
  have n : ∀ q : ℚ, |q| ≤ 2 ^ 53 → UpTo 53 (f32 q) := fun q h => NoPanic.upTo_ofVal (by omega) h _
  have v1 : (f32 1).val = 1 := by decide +kernel
  have v4 : (f32 4).val = 4 := by decide +kernel
  have um : UpTo3 53 (⟨f32 1, f32 0, f32 0⟩ : V3 F32) := ⟨n 1 (by norm_num), n 0 (by norm_num), n 0 (by norm_num)⟩
  have ud : UpTo3 53 (⟨f32 4, f32 0, f32 0⟩ : V3 F32) := ⟨n 4 (by norm_num [abs_of_pos]), n 0 (by norm_num), n 0 (by norm_num)⟩
  have tm : NotTiny (⟨f32 1, f32 0, f32 0⟩ : V3 F32) := Or.inl (by show 1 / 2 ^ 50 ≤ |(f32 1).val|; rw [v1]; norm_num)
  have td : NotTiny (⟨f32 4, f32 0, f32 0⟩ : V3 F32) := Or.inl (by show 1 / 2 ^ 50 ≤ |(f32 4).val|; rw [v4]; norm_num [abs_of_pos])
  refine ⟨um, tm, ?_⟩
  have pos : ∀ {v : V3 F32}, UpTo3 53 v → NotTiny v → Num v.length ∧ v.length.val ≠ 0 := fun {v} hv ht => by
    obtain ⟨nl, l0, el⟩ := length_near hl hv ht
    refine ⟨nl, fun h => ?_⟩
    rw [h] at el
    have := (abs_le.1 el).1
    norm_num at this
    linarith
  obtain ⟨nm, m0⟩ := pos um tm
  obtain ⟨nd, d0⟩ := pos ud td
  obtain ⟨am, -⟩ := unit_facts hl um tm
  obtain ⟨ad, -⟩ := unit_facts hl ud td
  exact Demo.axis_cross hl ⟨ad.1.1, ad.2.1.1, ad.2.2.1⟩ ⟨am.1.1, am.2.1.1, am.2.2.1⟩ ⟨(Demo.zero_over nd d0).2, (Demo.zero_over nd d0).2⟩ ⟨(Demo.zero_over nm m0).2, (Demo.zero_over nm m0).2⟩

end PT
