import Verif.Props.KdClosest
import Verif.Props.Wall

/-!
# The k-d tree in single precision (C97)

In which order and how precisely the split planes are met is computed with rounding errors.  Rounding is monotone, and that is enough: if the
ray is computed to enter and leave the box of a shape in the right order then the shape is tested, unless the search ends before.
-/

namespace PT
open Fl Spec KdTree Triangle

namespace Spec
/-- Where the ray meets an axis plane, as computed. -/
def planeAt (o d : V3 F32) (a : Axis) (p : F32) : F32 := (p -. o.get a) /. d.get a
/-- As computed, the ray is in the box at the parameter `t`. -/
structure Crosses (b : BBox3 F32) (o d : V3 F32) (t : F32) : Prop where
  num : Num t
  pos : 0 < t.val
  forward : ∀ a, 0 < (d.get a).val → (planeAt o d a (b.min.get a) <=. t) = true ∧ (t <=. planeAt o d a (b.max.get a)) = true
  backward : ∀ a, (d.get a).val < 0 → (planeAt o d a (b.max.get a) <=. t) = true ∧ (t <=. planeAt o d a (b.min.get a)) = true
  along : ∀ a, (d.get a).val = 0 → (b.min.get a).val < (o.get a).val ∧ (o.get a).val < (b.max.get a).val
/-- All boxes have ordered corners; boxes and ray are of moderate size; and the ray is not both parallel to and exactly in the plane of a face. -/
structure Moderate (ss : List (Obj F32)) (o d : V3 F32) : Prop where
  ray : ∀ a, Num (o.get a) ∧ Num (d.get a) ∧ |(d.get a).val| ≤ 3 / 2
  boxes : ∀ s ∈ ss, ∀ a, Num (s.shape.bbox.min.get a) ∧ Num (s.shape.bbox.max.get a) ∧ (s.shape.bbox.min.get a).val ≤ (s.shape.bbox.max.get a).val
  sized : ∀ s ∈ ss, ∀ a, |(s.shape.bbox.min.get a).val - (o.get a).val| ≤ 2 ^ 126 ∧ |(s.shape.bbox.max.get a).val - (o.get a).val| ≤ 2 ^ 126
  clear : ∀ s ∈ ss, ∀ a, (d.get a).val = 0 → (o.get a).val ≠ (s.shape.bbox.min.get a).val ∧ (o.get a).val ≠ (s.shape.bbox.max.get a).val
end Spec

namespace Kd32

/-! ### One plane -/

/-- A plane that the tests can be made with. -/
structure Plane (o d : V3 F32) (a : Axis) (p : F32) : Prop where
  num : Num p
  sized : |p.val - (o.get a).val| ≤ 2 ^ 126
  clear : (d.get a).val = 0 → (o.get a).val ≠ p.val

theorem sub_mono {x y o : F32} (nx : Num x) (ny : Num y) (no : Num o) (sx : |x.val - o.val| ≤ 2 ^ 126) (sy : |y.val - o.val| ≤ 2 ^ 126)
    (h : x.val ≤ y.val) : (x -. o).val ≤ (y -. o).val := by
  have n1 := (sub_ok nx no sx).1
  have n2 := (sub_ok ny no sy).1
  obtain ⟨z1, e1⟩ := add_fin nx.fin (neg_fin no.fin).1
  obtain ⟨z2, e2⟩ := add_fin ny.fin (neg_fin no.fin).1
  have hn := (neg_fin no.fin).2
  rw [f_sub] at n1 n2 ⊢
  rw [f_sub]
  have m := ofVal_mono (φ := Binary32) (x := x.val + (neg o).val) (y := y.val + (neg o).val) (by linarith) z1 z2
  rw [← e1, ← e2] at m
  exact (le_val n1.fin n2.fin).1 m

theorem sub_sign {x o : F32} (nx : Num x) (no : Num o) (sx : |x.val - o.val| ≤ 2 ^ 126) :
    (x.val ≤ o.val → (x -. o).val ≤ 0) ∧ (o.val ≤ x.val → 0 ≤ (x -. o).val) ∧ (o.val < x.val → 1 / 2 ^ 149 ≤ (x -. o).val) ∧
    (x.val < o.val → (x -. o).val ≤ -(1 / 2 ^ 149)) := by
  obtain ⟨n, e⟩ := sub_ok nx no sx
  obtain ⟨m, hm⟩ := val_grid n.wf
  generalize (x -. o).val = y at *
  have p : (0 : ℚ) < 2 ^ 149 := by positivity
  have up : 0 < y → 1 / 2 ^ 149 ≤ y := by
    intro h
    rw [hm] at h ⊢
    have : (0 : ℚ) < m := by rwa [lt_div_iff₀ p, zero_mul] at h
    have : (1 : ℤ) ≤ m := by exact_mod_cast this
    have : (1 : ℚ) ≤ m := by exact_mod_cast this
    gcongr
  have down : y < 0 → y ≤ -(1 / 2 ^ 149) := by
    intro h
    rw [hm] at h ⊢
    have : (m : ℚ) < 0 := by rwa [div_lt_iff₀ p, zero_mul] at h
    have : m ≤ -1 := by
      have : m < 0 := by exact_mod_cast this
      omega
    have : (m : ℚ) ≤ -1 := by exact_mod_cast this
    rw [← neg_div]
    gcongr
  rw [abs_le] at e
  refine ⟨fun h => ?_, fun h => ?_, fun h => up ?_, fun h => down ?_⟩
  · rw [abs_of_nonpos (by linarith)] at e; simp only [ulpHalf] at e; linarith [e.2]
  · rw [abs_of_nonneg (by linarith)] at e; simp only [ulpHalf] at e; linarith [e.1]
  · rw [abs_of_pos (by linarith)] at e; simp only [ulpHalf] at e; linarith [e.1]
  · rw [abs_of_neg (by linarith)] at e; simp only [ulpHalf] at e; linarith [e.2]

section
variable {o d : V3 F32} {a : Axis}

theorem planeAt_val (no : Num (o.get a)) (nd : Num (d.get a)) (h0 : (d.get a).val ≠ 0) {p : F32} (hp : Plane o d a p) :
    ∃ zs, planeAt o d a p = ofVal ((p -. o.get a).val / (d.get a).val) zs := div_val (sub_ok hp.num no hp.sized).1 nd h0

theorem planeAt_ne_nan (no : Num (o.get a)) (nd : Num (d.get a)) {p : F32} (hp : Plane o d a p) : planeAt o d a p ≠ nan := by
  by_cases h0 : (d.get a).val = 0
  · have hc := hp.clear h0
    unfold planeAt
    obtain ⟨s, m, hd⟩ := IsFin_iff.1 nd.fin
    rw [hd] at h0 ⊢
    have hm : m = 0 := by cases s <;> simpa [val, sgn] using h0
    subst hm
    obtain ⟨-, h2, h3⟩ := sub_div_zero hp.num no hp.sized s
    rcases lt_or_gt_of_ne hc with h | h
    · rw [h3 h]; simp
    · rw [h2 h]; simp
  · obtain ⟨zs, e⟩ := planeAt_val no nd h0 hp
    rw [e]; exact ofVal_ne_nan _ _

theorem planeAt_flat (no : Num (o.get a)) (nd : Num (d.get a)) (h0 : (d.get a).val = 0) {p : F32} (hp : Plane o d a p) :
    ∃ s, planeAt o d a p = inf s := by
  have hc := hp.clear h0
  unfold planeAt
  obtain ⟨s, m, hd⟩ := IsFin_iff.1 nd.fin
  rw [hd] at h0 ⊢
  have hm : m = 0 := by cases s <;> simpa [val, sgn] using h0
  subst hm
  obtain ⟨-, h2, h3⟩ := sub_div_zero hp.num no hp.sized s
  rcases lt_or_gt_of_ne hc with h | h
  · exact ⟨_, h3 h⟩
  · exact ⟨_, h2 h⟩

theorem planeAt_mono (no : Num (o.get a)) (nd : Num (d.get a)) {p q : F32} (hp : Plane o d a p) (hq : Plane o d a q) (h : p.val ≤ q.val)
    (h0 : 0 < (d.get a).val) : le (planeAt o d a p) (planeAt o d a q) = true := by
  obtain ⟨z1, e1⟩ := planeAt_val no nd h0.ne' hp
  obtain ⟨z2, e2⟩ := planeAt_val no nd h0.ne' hq
  rw [e1, e2]
  apply ofVal_mono
  have := sub_mono hp.num hq.num no hp.sized hq.sized h
  gcongr

theorem planeAt_anti (no : Num (o.get a)) (nd : Num (d.get a)) {p q : F32} (hp : Plane o d a p) (hq : Plane o d a q) (h : p.val ≤ q.val)
    (h0 : (d.get a).val < 0) : le (planeAt o d a q) (planeAt o d a p) = true := by
  obtain ⟨z1, e1⟩ := planeAt_val no nd h0.ne hp
  obtain ⟨z2, e2⟩ := planeAt_val no nd h0.ne hq
  rw [e1, e2]
  apply ofVal_mono
  have := sub_mono hp.num hq.num no hp.sized hq.sized h
  exact div_le_div_of_nonpos_of_le h0.le this

theorem le_zero_of_atMost {x : F32} (h : AtMost x 0) : le x (lit 0) = true := by
  rcases h with rfl | ⟨n, h⟩
  · rw [lit_zero]; rfl
  · rw [le_val n.fin zero_ok.1.fin, zero_ok.2]; exact h

theorem not_le_zero_of_atLeast {x : F32} {q : ℚ} (q0 : 0 < q) (h : AtLeast x q) : ¬ le x (lit 0) = true := by
  rcases h with rfl | ⟨n, h⟩
  · rw [lit_zero]; decide
  · rw [le_val n.fin zero_ok.1.fin, zero_ok.2]; linarith

theorem planeAt_neg (no : Num (o.get a)) (nd : Num (d.get a)) {p : F32} (hp : Plane o d a p)
    (h : (0 < (d.get a).val ∧ p.val ≤ (o.get a).val) ∨ ((d.get a).val < 0 ∧ (o.get a).val ≤ p.val)) : le (planeAt o d a p) (lit 0) = true := by
  obtain ⟨s1, s2, -, -⟩ := sub_sign hp.num no hp.sized
  have h0 : (d.get a).val ≠ 0 := by rcases h with h | h; exacts [h.1.ne', h.1.ne]
  obtain ⟨zs, e⟩ := planeAt_val no nd h0 hp
  apply le_zero_of_atMost
  rw [e]
  refine ofVal_atMost (q := 0) ?_ (ofVal_ok (by norm_num) _) ?_ zs
  · rcases h with ⟨h1, h2⟩ | ⟨h1, h2⟩
    · exact div_nonpos_of_nonpos_of_nonneg (s1 h2) h1.le
    · exact div_nonpos_of_nonneg_of_nonpos (s2 h2) h1.le
  · simp [ofVal, val, sgn]

theorem tiny_rounds : (ofVal (2 / 3 / 2 ^ 149) false : F32) = fin false (1 / 2 ^ 149) := by decide +kernel

theorem planeAt_pos (no : Num (o.get a)) (nd : Num (d.get a)) (hd : |(d.get a).val| ≤ 3 / 2) {p : F32} (hp : Plane o d a p)
    (h : (0 < (d.get a).val ∧ (o.get a).val < p.val) ∨ ((d.get a).val < 0 ∧ p.val < (o.get a).val)) : ¬ le (planeAt o d a p) (lit 0) = true := by
  obtain ⟨-, -, s1, s2⟩ := sub_sign hp.num no hp.sized
  have h0 : (d.get a).val ≠ 0 := by rcases h with h | h; exacts [h.1.ne', h.1.ne]
  obtain ⟨zs, e⟩ := planeAt_val no nd h0 hp
  rw [abs_le] at hd
  refine not_le_zero_of_atLeast (q := 1 / 2 ^ 149) (by positivity) ?_
  rw [e]
  refine ofVal_atLeast (q := 2 / 3 / 2 ^ 149) ?_ ?_ ?_ zs
  · rcases h with ⟨h1, h2⟩ | ⟨h1, h2⟩
    · rw [le_div_iff₀ h1]
      refine le_trans ?_ (s1 h2)
      have : (2 : ℚ) / 3 / 2 ^ 149 * (d.get a).val ≤ 2 / 3 / 2 ^ 149 * (3 / 2) := by gcongr; exact hd.2
      refine this.trans (by norm_num)
    · rw [le_div_iff_of_neg h1]
      refine (s2 h2).trans ?_
      have : (2 : ℚ) / 3 / 2 ^ 149 * (-(3 / 2)) ≤ 2 / 3 / 2 ^ 149 * (d.get a).val := by gcongr; exact hd.1
      refine le_trans (by norm_num) this
  · exact ofVal_ok (by norm_num) _
  · rw [tiny_rounds]; simp [val, sgn]
end

/-! ### One split -/

/-- The side of the plane where the ray starts, as decided by the code. -/
def nearLow (o d : V3 F32) (a : Axis) (p : F32) : Bool := (o.get a <. p) || ((o.get a ==. p) && (d.get a <=. lit 0))

theorem nearLow_iff {o d : V3 F32} {a : Axis} {p : F32} (ho : Num (o.get a)) (hd : Num (d.get a)) (hp : Num p) :
    nearLow o d a p = true ↔ ((o.get a).val < p.val ∨ (o.get a).val = p.val ∧ (d.get a).val ≤ 0) := by
  unfold nearLow
  rw [Bool.or_eq_true, Bool.and_eq_true, lt_ok ho hp, eq_ok ho hp, le_ok hd zero_ok.1, zero_ok.2]

/-- On which side of a split a shape is stored that is crossed at `t`. -/
theorem split_sides {ss : List (Obj F32)} {o d : V3 F32} (hm : Moderate ss o d) {a : Axis} {p : F32} (hp : Plane o d a p)
    {l r : KTree F32} (hsep : Separated (.node a p l r)) (s : Obj F32) (hss : s ∈ ss) (hs : s ∈ l.stored ++ r.stored) (t : F32)
    (hc : Crosses s.shape.bbox o d t) :
    (s ∉ (if nearLow o d a p then l else r).stored → le (planeAt o d a p) t = true ∧ ¬ le (planeAt o d a p) (lit 0) = true) ∧
    (s ∉ (if nearLow o d a p then r else l).stored → ¬ le (planeAt o d a p) (lit 0) = true → le t (planeAt o d a p) = true) := by
  obtain ⟨no, nd, hd⟩ := hm.ray a
  obtain ⟨nl, nh, hlh⟩ := hm.boxes s hss a
  obtain ⟨sl, sh⟩ := hm.sized s hss a
  have pl : Plane o d a (s.shape.bbox.min.get a) := ⟨nl, sl, fun h => (hm.clear s hss a h).1⟩
  have ph : Plane o d a (s.shape.bbox.max.get a) := ⟨nh, sh, fun h => (hm.clear s hss a h).2⟩
  obtain ⟨hS1, hS2⟩ := hsep.1 s hs
  rw [le_val hp.num.fin nl.fin] at hS1
  rw [le_val nh.fin hp.num.fin] at hS2
  have tpos : ¬ le t (lit 0) = true := not_le_zero_of_atLeast hc.pos (Or.inr ⟨hc.num, le_rfl⟩)
  have c1 := hc.forward a
  have c2 := hc.backward a
  have c3 := hc.along a
  rw [f_le, f_le] at c1 c2
  generalize s.shape.bbox.min.get a = lo at *
  generalize s.shape.bbox.max.get a = hi at *
  by_cases hn : nearLow o d a p = true
  · simp only [hn, if_true]
    rw [nearLow_iff no nd hp.num] at hn
    have hop : (o.get a).val ≤ p.val := by rcases hn with h | h; exacts [h.le, h.1.le]
    constructor
    · intro h
      have h := hS1 h
      rcases lt_trichotomy (d.get a).val 0 with h0 | h0 | h0
      · exact absurd (le_trans' (c2 h0).2 (planeAt_neg no nd pl (Or.inr ⟨h0, hop.trans h⟩))) tpos
      · linarith [c3 h0]
      · have hlt : (o.get a).val < p.val := by rcases hn with h | h; exacts [h, absurd h.2 (not_le.2 h0)]
        exact ⟨le_trans' (planeAt_mono no nd hp pl h h0) (c1 h0).1, planeAt_pos no nd hd hp (Or.inl ⟨h0, hlt⟩)⟩
    · intro h hz
      have h := hS2 h
      rcases lt_trichotomy (d.get a).val 0 with h0 | h0 | h0
      · exact absurd (planeAt_neg no nd hp (Or.inr ⟨h0, hop⟩)) hz
      · obtain ⟨sg, e⟩ := planeAt_flat no nd h0 hp
        rw [e] at hz ⊢
        obtain ⟨ts, tx, rfl⟩ := IsFin_iff.1 hc.num.fin
        cases sg with
        | false => rfl
        | true => exact absurd (by rw [lit_zero]; rfl) hz
      · exact le_trans' (c1 h0).2 (planeAt_mono no nd ph hp h h0)
  · rw [if_neg hn, if_neg hn]
    rw [nearLow_iff no nd hp.num] at hn
    push Not at hn
    obtain ⟨hpo, hn⟩ := hn
    constructor
    · intro h
      have h := hS2 h
      rcases lt_trichotomy (d.get a).val 0 with h0 | h0 | h0
      · have hlt : p.val < (o.get a).val := lt_of_le_of_ne hpo fun e => absurd (hn e.symm) (not_lt.2 h0.le)
        exact ⟨le_trans' (planeAt_anti no nd ph hp h h0) (c2 h0).1, planeAt_pos no nd hd hp (Or.inr ⟨h0, hlt⟩)⟩
      · linarith [c3 h0]
      · exact absurd (le_trans' (c1 h0).2 (planeAt_neg no nd ph (Or.inl ⟨h0, h.trans hpo⟩))) tpos
    · intro h hz
      have h := hS1 h
      rcases lt_trichotomy (d.get a).val 0 with h0 | h0 | h0
      · exact le_trans' (c2 h0).2 (planeAt_anti no nd hp pl h h0)
      · obtain ⟨sg, e⟩ := planeAt_flat no nd h0 hp
        rw [e] at hz ⊢
        obtain ⟨ts, tx, rfl⟩ := IsFin_iff.1 hc.num.fin
        cases sg with
        | false => rfl
        | true => exact absurd (by rw [lit_zero]; rfl) hz
      · exact absurd (planeAt_neg no nd hp (Or.inl ⟨h0, hpo⟩)) hz

/-! ### The traversal -/

/-- A part of the tree that is still to be visited, with its parameter interval. -/
structure Region where
  T : KTree F32
  a : F32
  b : F32

/-- Intervals in order: a₁ ≤ b₁ ≤ a₂ ≤ b₂ ≤ … -/
def Chain : List Region → Prop
  | [] => True
  | [x] => le x.a x.b = true
  | x :: y :: rs => le x.a x.b = true ∧ le x.b y.a = true ∧ Chain (y :: rs)

theorem Chain.tail {x : Region} {rs : List Region} (h : Chain (x :: rs)) : Chain rs := by
  cases rs with
  | nil => trivial
  | cons y rs => exact h.2.2

theorem Chain.first {x : Region} {rs : List Region} (h : Chain (x :: rs)) : le x.a x.b = true := by
  cases rs with
  | nil => exact h
  | cons y rs => exact h.1

theorem Chain.least : ∀ {rs : List Region} {x : Region}, Chain (x :: rs) → ∀ y ∈ x :: rs, le x.a y.a = true := by
  intro rs
  induction rs with
  | nil => intro x h y hy; rw [List.mem_singleton] at hy; subst hy; exact le_refl' (le_iff.1 h.first).1
  | cons z rs ih =>
    intro x h y hy
    rcases List.mem_cons.1 hy with rfl | hy
    · exact le_refl' (le_iff.1 h.first).1
    · exact le_trans' h.1 (le_trans' h.2.1 (ih h.2.2 y hy))

theorem Chain.replace {x : Region} {rs : List Region} (h : Chain (x :: rs)) (T : KTree F32) : Chain (⟨T, x.a, x.b⟩ :: rs) := by
  cases rs with
  | nil => exact h
  | cons y rs => exact h

theorem Chain.cut {x : Region} {rs : List Region} (h : Chain (x :: rs)) {m : F32} (h1 : le x.a m = true) (h2 : le m x.b = true)
    (T T' : KTree F32) : Chain (⟨T, x.a, m⟩ :: ⟨T', m, x.b⟩ :: rs) := by
  have hm := le_refl' (le_iff.1 h1).2.1
  cases rs with
  | nil => exact ⟨h1, hm, h2⟩
  | cons y rs => exact ⟨h1, hm, h2, h.2⟩

/-- The stack entries and their regions. -/
inductive Stack (nodes : List (Node F32)) : List (Todo F32) → List Region → Prop where
  | nil : Stack nodes [] []
  | cons {td todos T rs j} : Layout nodes td.node T j → Stack nodes todos rs → Stack nodes (td :: todos) (⟨T, td.tMin, td.tMax⟩ :: rs)

/-- Nodes of all the regions. -/
def work (rs : List Region) : Nat := (rs.map fun r => r.T.size).sum

/-- The facts about a (sub)tree that traversal needs. -/
structure Good (ss : List (Obj F32)) (o d : V3 F32) (T : KTree F32) : Prop where
  sep : Separated T
  sub : ∀ s ∈ T.stored, s ∈ ss
  planes : ∀ p ∈ T.splits, Plane o d p.1 p.2

theorem Good.low {ss : List (Obj F32)} {o d : V3 F32} {a p} {l r : KTree F32} (h : Good ss o d (.node a p l r)) : Good ss o d l :=
  ⟨h.sep.2.1, fun s hs => h.sub s (by simp [KTree.stored, hs]), fun q hq => h.planes q (by simp [KTree.splits, hq])⟩
theorem Good.up {ss : List (Obj F32)} {o d : V3 F32} {a p} {l r : KTree F32} (h : Good ss o d (.node a p l r)) : Good ss o d r :=
  ⟨h.sep.2.2, fun s hs => h.sub s (by simp [KTree.stored, hs]), fun q hq => h.planes q (by simp [KTree.splits, hq])⟩

/-- The shape is stored in the region, and `t` is in its interval. -/
def Holds (x : Region) (s : Obj F32) (t : F32) : Prop := s ∈ x.T.stored ∧ le x.a t = true ∧ le t x.b = true

/-- One step down the tree. -/
theorem step_down (nodes : List (Node F32)) (ss : List (Obj F32)) (o d : V3 F32) (hm : Moderate ss o d) (tm : F32) {i k j : Nat} {axis : Axis} {p : F32}
    {l r : KTree F32} (hl : Layout nodes (i + 1) l k) (hr : Layout nodes k r j) (hg : Good ss o d (.node axis p l r)) {a b : F32} {todos : List (Todo F32)}
    {rs : List Region} (hS : Stack nodes todos rs) (hC : Chain (⟨.node axis p l r, a, b⟩ :: rs)) :
    ∃ (y : Region) (new : List Region) (iy jy : Nat) (tds : List (Todo F32)),
      descend ⟨o, d, tm⟩ axis p k i a b todos = (iy, y.b, tds) ∧ y.a = a ∧ Layout nodes iy y.T jy ∧ Stack nodes tds (new ++ rs) ∧
      (∀ z ∈ y :: new, Good ss o d z.T) ∧ work (y :: new) < work [⟨.node axis p l r, a, b⟩] ∧ Chain (y :: (new ++ rs)) ∧
      ∀ s ∈ ss, ∀ t, Crosses s.shape.bbox o d t → Holds ⟨.node axis p l r, a, b⟩ s t → ∃ z ∈ y :: new, Holds z s t := by
  have hpl := hg.planes (axis, p) (by simp [KTree.splits])
  dsimp only at hpl
  obtain ⟨no, nd, -⟩ := hm.ray axis
  have hnn := planeAt_ne_nan no nd hpl
  have hside := fun s hss t hc hs => split_sides hm hpl hg.sep s hss hs t hc
  have hmem : ∀ s, s ∈ l.stored ++ r.stored →
      (s ∈ (if nearLow o d axis p then l else r).stored ∨ s ∈ (if nearLow o d axis p then r else l).stored) := by
    intro s hs
    rw [List.mem_append] at hs
    by_cases hc : nearLow o d axis p = true
    · simp only [hc, if_true]; exact hs
    · rw [if_neg hc, if_neg hc]; exact hs.symm
  have hnear : ∃ j', Layout nodes (if nearLow o d axis p then i + 1 else k) (if nearLow o d axis p then l else r) j' := by
    by_cases hc : nearLow o d axis p = true
    · simp only [hc, if_true]; exact ⟨_, hl⟩
    · rw [if_neg hc, if_neg hc]; exact ⟨_, hr⟩
  have hfar : ∃ j', Layout nodes (if nearLow o d axis p then k else i + 1) (if nearLow o d axis p then r else l) j' := by
    by_cases hc : nearLow o d axis p = true
    · simp only [hc, if_true]; exact ⟨_, hr⟩
    · rw [if_neg hc, if_neg hc]; exact ⟨_, hl⟩
  have gnear : Good ss o d (if nearLow o d axis p then l else r) := by
    by_cases hc : nearLow o d axis p = true
    · simp only [hc, if_true]; exact hg.low
    · rw [if_neg hc]; exact hg.up
  have gfar : Good ss o d (if nearLow o d axis p then r else l) := by
    by_cases hc : nearLow o d axis p = true
    · simp only [hc, if_true]; exact hg.up
    · rw [if_neg hc]; exact hg.low
  have hsize : (if nearLow o d axis p then l else r).size + (if nearLow o d axis p then r else l).size = l.size + r.size := by
    by_cases hc : nearLow o d axis p = true
    · simp only [hc, if_true]
    · rw [if_neg hc, if_neg hc]; omega
  have hdesc : descend ⟨o, d, tm⟩ axis p k i a b todos =
      if ((planeAt o d axis p >. b) || (planeAt o d axis p <=. lit 0)) = true then ((if nearLow o d axis p then i + 1 else k), b, todos)
      else if (planeAt o d axis p <. a) = true then ((if nearLow o d axis p then k else i + 1), b, todos)
      else ((if nearLow o d axis p then i + 1 else k), planeAt o d axis p,
        ⟨(if nearLow o d axis p then k else i + 1), planeAt o d axis p, b⟩ :: todos) := by
    unfold descend nearLow planeAt
    dsimp only
    by_cases hc : ((o.get axis <. p) || ((o.get axis ==. p) && (d.get axis <=. lit 0))) = true
    · simp only [hc, if_true]
    · simp only [hc]; rfl
  rw [hdesc]
  generalize planeAt o d axis p = tS at *
  generalize (if nearLow o d axis p = true then l else r) = near at *
  generalize (if nearLow o d axis p = true then r else l) = far at *
  generalize (if nearLow o d axis p = true then i + 1 else k) = inear at *
  generalize (if nearLow o d axis p = true then k else i + 1) = ifar at *
  obtain ⟨jn, hnear⟩ := hnear
  obtain ⟨jf, hfar⟩ := hfar
  have hpn := near.size_pos; have hpf' := far.size_pos
  have hab := hC.first
  have han := (le_iff.1 hab).1
  have hbn := (le_iff.1 hab).2.1
  dsimp only at hab han hbn
  by_cases hA : ((tS >. b) || (tS <=. lit 0)) = true
  · rw [if_pos hA]
    refine ⟨⟨near, a, b⟩, [], inear, jn, todos, rfl, rfl, hnear, hS, by simpa using gnear, ?_, hC.replace near, ?_⟩
    · simp only [work, List.map_cons, List.map_nil, List.sum_cons, List.sum_nil, KTree.size]; omega
    · rintro s hss t hc ⟨hst, hat, htb⟩
      refine ⟨_, List.mem_cons_self, ?_, hat, htb⟩
      by_contra hn'
      obtain ⟨h1, h2⟩ := (hside s hss t hc hst).1 hn'
      rw [Bool.or_eq_true] at hA
      rcases hA with hA | hA
      · have : lt b t = true := lt_of_lt_of_le' hA h1
        rw [lt_asymm' htb] at this; cases this
      · exact h2 hA
  · rw [if_neg hA]
    rw [Bool.or_eq_true, not_or] at hA
    obtain ⟨hA1, hA2⟩ := hA
    have hSb : le tS b = true := (not_lt' hbn hnn).1 (Bool.not_eq_true _ ▸ hA1)
    by_cases hB : (tS <. a) = true
    · rw [if_pos hB]
      refine ⟨⟨far, a, b⟩, [], ifar, jf, todos, rfl, rfl, hfar, hS, by simpa using gfar, ?_, hC.replace far, ?_⟩
      · simp only [work, List.map_cons, List.map_nil, List.sum_cons, List.sum_nil, KTree.size]; omega
      · rintro s hss t hc ⟨hst, hat, htb⟩
        refine ⟨_, List.mem_cons_self, ?_, hat, htb⟩
        by_contra hn'
        have h1 := (hside s hss t hc hst).2 hn' hA2
        have : lt tS t = true := lt_of_lt_of_le' hB hat
        rw [lt_asymm' h1] at this; cases this
    · rw [if_neg hB]
      have haS : le a tS = true := (not_lt' hnn han).1 (Bool.not_eq_true _ ▸ hB)
      refine ⟨⟨near, a, tS⟩, [⟨far, tS, b⟩], inear, jn, ⟨ifar, tS, b⟩ :: todos, rfl, rfl, hnear, .cons hfar hS, ?_, ?_, hC.cut haS hSb near far, ?_⟩
      · simp only [List.mem_cons, List.not_mem_nil, or_false]
        rintro z (rfl | rfl)
        exacts [gnear, gfar]
      · simp only [work, List.map_cons, List.map_nil, List.sum_cons, List.sum_nil, KTree.size]; omega
      · rintro s hss t hc ⟨hst, hat, htb⟩
        have htn : t ≠ nan := (le_iff.1 hat).2.1
        obtain ⟨hN, hF⟩ := hside s hss t hc hst
        by_cases hsn : s ∈ near.stored
        · by_cases hts : le t tS = true
          · exact ⟨_, List.mem_cons_self, hsn, hat, hts⟩
          · have hsf : s ∈ far.stored := by
              by_contra hn'
              exact hts (hF hn' hA2)
            exact ⟨⟨far, tS, b⟩, by simp, hsf, le_of_lt' ((not_le' htn hnn).1 (by simpa using hts)), htb⟩
        · have hsf : s ∈ far.stored := (hmem s hst).resolve_left hsn
          exact ⟨⟨far, tS, b⟩, by simp, hsf, (hN hsn).1, htb⟩

theorem closestHit_append : ∀ (xs ys : List (Obj F32)) (ray : Ray F32) (h : Option (Hit F32)),
    closestHit (xs ++ ys) ray h = (closestHit xs ray h).bind fun r => closestHit ys r.1 r.2 := by
  intro xs
  induction xs with
  | nil => intro ys ray h; rfl
  | cons x xs ih =>
    intro ys ray h
    simp only [List.cons_append, closestHit]
    cases x.intersect ray with
    | none => rfl
    | some r => exact ih ys _ _

/-- The traversal tests some shapes, in some order; a shape that is not tested is beyond the end of the ray at the end. -/
theorem loop_visits (nodes : List (Node F32)) (ss : List (Obj F32)) (o d : V3 F32) (hm : Moderate ss o d) (ha : ∀ s ∈ ss, Answers o d s) :
    ∀ (fuel : Nat) (tm : F32) (h : Option (Hit F32)) (i j : Nat) (x : Region) (todos : List (Todo F32)) (rs : List Region),
      Layout nodes i x.T j → Stack nodes todos rs → (∀ y ∈ x :: rs, Good ss o d y.T) → work (x :: rs) ≤ fuel → Chain (x :: rs) →
      ∃ vs tm' h', (∀ s ∈ vs, s ∈ ss) ∧ closestHit vs ⟨o, d, tm⟩ h = some (⟨o, d, tm'⟩, h') ∧
        loop nodes fuel ⟨o, d, tm⟩ h i x.a x.b todos = .value h' ∧
        ∀ s ∈ ss, ∀ t, Crosses s.shape.bbox o d t → (∃ y ∈ x :: rs, Holds y s t) → s ∈ vs ∨ lt tm' t = true := by
  intro fuel
  induction fuel with
  | zero =>
    intro tm h i j x todos rs _ _ _ hw
    have := x.T.size_pos
    simp only [work, List.map_cons, List.sum_cons] at hw
    omega
  | succ fuel ih =>
    intro tm h i j x todos rs hL hS hG hw hC
    by_cases hbr : ((⟨o, d, tm⟩ : Ray F32).tMax <. x.a) = true
    · refine ⟨[], tm, h, by simp, rfl, loop_done hbr, ?_⟩
      rintro s hs t hc ⟨y, hy, -, hya, -⟩
      exact Or.inr (lt_of_lt_of_le' hbr (le_trans' (hC.least y hy) hya))
    obtain ⟨T, a, b⟩ := x
    cases hL with
    | @leaf _ ls hn =>
      rw [loop_leaf hbr hn (newLeaf_not_split ls), leafShapes_newLeaf]
      have hsub : ∀ s ∈ ls, s ∈ ss := (hG ⟨.leaf ls, a, b⟩ List.mem_cons_self).sub
      obtain ⟨tm1, h1, e⟩ := closestHit_some (ss := ls) (ray := ⟨o, d, tm⟩) (h := h) (fun s hs => ha s (hsub s hs))
      rw [e]
      simp only [Option.elim_some]
      cases hS with
      | nil =>
        refine ⟨ls, tm1, h1, hsub, e, rfl, ?_⟩
        rintro s hs t hc ⟨y, hy, hh⟩
        rw [List.mem_singleton] at hy
        subst hy
        exact Or.inl hh.1
      | @cons td todos T' rs' j' hL' hS' =>
        obtain ⟨vs, tm', h', v1, v2, v3, v4⟩ := ih tm1 h1 td.node j' ⟨T', td.tMin, td.tMax⟩ todos rs' hL' hS'
          (fun y hy => hG y (List.mem_cons_of_mem _ hy)) (by simp only [work, List.map_cons, List.sum_cons, KTree.size] at hw ⊢; omega) hC.tail
        refine ⟨ls ++ vs, tm', h', ?_, ?_, v3, ?_⟩
        · intro s hs
          exact (List.mem_append.1 hs).elim (hsub s) (v1 s)
        · rw [closestHit_append, e]; exact v2
        · rintro s hs t hc ⟨y, hy, hh⟩
          rcases List.mem_cons.1 hy with rfl | hy
          · exact Or.inl (List.mem_append_left _ hh.1)
          · exact (v4 s hs t hc ⟨y, hy, hh⟩).imp_left (List.mem_append_right _)
    | @node _ k _ axis p l r hn hll hlr =>
      obtain ⟨y, new, iy, jy, tds, e1, e2, e3, e4, e5, e6, e7, e8⟩ :=
        step_down nodes ss o d hm tm hll hlr (hG _ List.mem_cons_self) hS hC
      rw [loop_split hbr hn, e1]
      obtain ⟨vs, tm', h', v1, v2, v3, v4⟩ := ih tm h iy jy y tds (new ++ rs) e3 e4
        (by
          intro z hz
          rw [← List.cons_append] at hz
          rcases List.mem_append.1 hz with hz | hz
          · exact e5 z hz
          · exact hG z (List.mem_cons_of_mem _ hz))
        (by
          simp only [work, List.map_cons, List.map_nil, List.sum_cons, List.sum_nil, List.map_append, List.sum_append] at hw e6 ⊢
          omega) e7
      refine ⟨vs, tm', h', v1, v2, by rw [e2] at v3; exact v3, ?_⟩
      rintro s hs t hc ⟨z, hz, hh⟩
      apply v4 s hs t hc
      rcases List.mem_cons.1 hz with rfl | hz
      · obtain ⟨z, hz, hh⟩ := e8 s hs t hc hh
        exact ⟨z, by rw [← List.cons_append]; exact List.mem_append_left _ hz, hh⟩
      · exact ⟨z, List.mem_cons_of_mem _ (List.mem_append_right _ hz), hh⟩

theorem anyHit_append : ∀ (xs ys : List (Obj F32)) (ray : Ray F32),
    anyHit ray (xs ++ ys) = (anyHit ray xs).bind fun b => if b then some true else anyHit ray ys := by
  intro xs
  induction xs with
  | nil => intro ys ray; rfl
  | cons x xs ih =>
    intro ys ray
    simp only [List.cons_append, anyHit]
    cases x.shape.intersectP ray with
    | none => rfl
    | some b =>
      cases b with
      | true => rfl
      | false => exact ih ys ray

theorem anyHit_true {ray : Ray F32} : ∀ {ss : List (Obj F32)}, anyHit ray ss = some true → ∃ s ∈ ss, s.shape.intersectP ray = some true := by
  intro ss
  induction ss with
  | nil => intro h; simp [anyHit] at h
  | cons x xs ih =>
    intro h
    unfold anyHit at h
    cases e : x.shape.intersectP ray with
    | none => rw [e] at h; cases h
    | some b =>
      cases b with
      | true => exact ⟨x, List.mem_cons_self, e⟩
      | false =>
        rw [e] at h
        obtain ⟨s, hs, h⟩ := ih h
        exact ⟨s, List.mem_cons_of_mem _ hs, h⟩

theorem anyHit_false {ray : Ray F32} : ∀ {ss : List (Obj F32)}, anyHit ray ss = some false → ∀ s ∈ ss, s.shape.intersectP ray = some false := by
  intro ss
  induction ss with
  | nil => intro _ s hs; cases hs
  | cons x xs ih =>
    intro h
    unfold anyHit at h
    cases e : x.shape.intersectP ray with
    | none => rw [e] at h; cases h
    | some b =>
      cases b with
      | true => rw [e] at h; cases h
      | false =>
        rw [e] at h
        intro s hs
        rcases List.mem_cons.1 hs with rfl | hs
        · exact e
        · exact ih h s hs

/-- The same for the shadow test. -/
theorem loopP_visits (nodes : List (Node F32)) (ss : List (Obj F32)) (o d : V3 F32) (hm : Moderate ss o d) (ha : ∀ s ∈ ss, AnswersP o d s) (tm : F32) :
    ∀ (fuel : Nat) (i j : Nat) (x : Region) (todos : List (Todo F32)) (rs : List Region),
      Layout nodes i x.T j → Stack nodes todos rs → (∀ y ∈ x :: rs, Good ss o d y.T) → work (x :: rs) ≤ fuel → Chain (x :: rs) →
      ∃ vs b, (∀ s ∈ vs, s ∈ ss) ∧ anyHit ⟨o, d, tm⟩ vs = some b ∧ loopP nodes ⟨o, d, tm⟩ fuel i x.a x.b todos = .value b ∧
        (b = true ∨ ∀ s ∈ ss, ∀ t, Crosses s.shape.bbox o d t → (∃ y ∈ x :: rs, Holds y s t) → s ∈ vs ∨ lt tm t = true) := by
  intro fuel
  induction fuel with
  | zero =>
    intro i j x todos rs _ _ _ hw
    have := x.T.size_pos
    simp only [work, List.map_cons, List.sum_cons] at hw
    omega
  | succ fuel ih =>
    intro i j x todos rs hL hS hG hw hC
    by_cases hbr : ((⟨o, d, tm⟩ : Ray F32).tMax <. x.a) = true
    · refine ⟨[], false, by simp, rfl, loopP_done hbr, Or.inr ?_⟩
      rintro s hs t hc ⟨y, hy, -, hya, -⟩
      exact Or.inr (lt_of_lt_of_le' hbr (le_trans' (hC.least y hy) hya))
    obtain ⟨T, a, b⟩ := x
    cases hL with
    | @leaf _ ls hn =>
      rw [loopP_leaf hbr hn (newLeaf_not_split ls), leafShapes_newLeaf]
      have hsub : ∀ s ∈ ls, s ∈ ss := (hG ⟨.leaf ls, a, b⟩ List.mem_cons_self).sub
      have e := anyHit_some (ss := ls) (ray := ⟨o, d, tm⟩) (fun s hs => ha s (hsub s hs))
      cases e1 : anyHit ⟨o, d, tm⟩ ls with
      | none => exact absurd e1 e
      | some b1 =>
        simp only [Option.elim_some]
        cases b1 with
        | true => exact ⟨ls, true, hsub, e1, rfl, Or.inl rfl⟩
        | false =>
          simp only [Bool.false_eq_true, if_false]
          cases hS with
          | nil =>
            refine ⟨ls, false, hsub, e1, rfl, Or.inr ?_⟩
            rintro s hs t hc ⟨y, hy, hh⟩
            rw [List.mem_singleton] at hy
            subst hy
            exact Or.inl hh.1
          | @cons td todos T' rs' j' hL' hS' =>
            obtain ⟨vs, b', v1, v2, v3, v4⟩ := ih td.node j' ⟨T', td.tMin, td.tMax⟩ todos rs' hL' hS'
              (fun y hy => hG y (List.mem_cons_of_mem _ hy)) (by simp only [work, List.map_cons, List.sum_cons, KTree.size] at hw ⊢; omega) hC.tail
            refine ⟨ls ++ vs, b', ?_, ?_, v3, v4.imp_right ?_⟩
            · intro s hs
              exact (List.mem_append.1 hs).elim (hsub s) (v1 s)
            · rw [anyHit_append, e1]; exact v2
            · rintro v4 s hs t hc ⟨y, hy, hh⟩
              rcases List.mem_cons.1 hy with rfl | hy
              · exact Or.inl (List.mem_append_left _ hh.1)
              · exact (v4 s hs t hc ⟨y, hy, hh⟩).imp_left (List.mem_append_right _)
    | @node _ k _ axis p l r hn hll hlr =>
      obtain ⟨y, new, iy, jy, tds, e1, e2, e3, e4, e5, e6, e7, e8⟩ :=
        step_down nodes ss o d hm tm hll hlr (hG _ List.mem_cons_self) hS hC
      rw [loopP_split hbr hn, e1]
      obtain ⟨vs, b', v1, v2, v3, v4⟩ := ih iy jy y tds (new ++ rs) e3 e4
        (by
          intro z hz
          rw [← List.cons_append] at hz
          rcases List.mem_append.1 hz with hz | hz
          · exact e5 z hz
          · exact hG z (List.mem_cons_of_mem _ hz))
        (by
          simp only [work, List.map_cons, List.map_nil, List.sum_cons, List.sum_nil, List.map_append, List.sum_append] at hw e6 ⊢
          omega) e7
      refine ⟨vs, b', v1, v2, by rw [e2] at v3; exact v3, v4.imp_right ?_⟩
      rintro v4 s hs t hc ⟨z, hz, hh⟩
      apply v4 s hs t hc
      rcases List.mem_cons.1 hz with rfl | hz
      · obtain ⟨z, hz, hh⟩ := e8 s hs t hc hh
        exact ⟨z, by rw [← List.cons_append]; exact List.mem_append_left _ hz, hh⟩
      · exact ⟨z, List.mem_cons_of_mem _ (List.mem_append_right _ hz), hh⟩

/-! ### The box of the scene -/

theorem slab_order {b : BBox3 (F32)} {ray : Ray (F32)} {a : Axis} {r r' : F32 × F32}
    (h1 : r.1 ≠ nan) (h2 : r.2 ≠ nan) (h : b.slab ray a r = some r') : le r'.1 r'.2 = true := by
  unfold BBox3.slab at h
  dsimp only at h
  generalize (if (((b.min.get a -. ray.origin.get a) /. ray.direction.get a) >. ((b.max.get a -. ray.origin.get a) /. ray.direction.get a)) = true
    then (((b.max.get a -. ray.origin.get a) /. ray.direction.get a), ((b.min.get a -. ray.origin.get a) /. ray.direction.get a))
    else (((b.min.get a -. ray.origin.get a) /. ray.direction.get a), ((b.max.get a -. ray.origin.get a) /. ray.direction.get a))) = nf at h
  obtain ⟨n, f⟩ := nf
  dsimp only at h
  generalize f *. (lit 1 +. lit 2 *. gamma (lit 3)) = f' at h
  have e1 : (if (n >. r.1) = true then n else r.1) ≠ nan := by
    by_cases hc : (n >. r.1) = true
    · rw [if_pos hc]; exact (lt_iff.1 hc).2.1
    · rw [if_neg hc]; exact h1
  have e2 : (if (f' <. r.2) = true then f' else r.2) ≠ nan := by
    by_cases hc : (f' <. r.2) = true
    · rw [if_pos hc]; exact (lt_iff.1 hc).1
    · rw [if_neg hc]; exact h2
  generalize (if (n >. r.1) = true then n else r.1) = t0 at *
  generalize (if (f' <. r.2) = true then f' else r.2) = t1 at *
  by_cases hc : (t0 >. t1) = true
  · rw [if_pos hc] at h; cases h
  · rw [if_neg hc] at h; cases h
    exact (not_lt' e2 e1).1 (Bool.not_eq_true _ ▸ hc)

theorem bbox_interval {b : BBox3 (F32)} {ray : Ray (F32)} (h : ray.tMax ≠ nan) {t : F32 × F32}
    (hb : b.intersect ray = some t) : le t.1 t.2 = true := by
  simp only [BBox3.intersect, Option.bind_eq_bind] at hb
  cases h1 : b.slab ray .X (lit 0, ray.tMax) with
  | none => rw [h1] at hb; cases hb
  | some t1 =>
    have o1 := slab_order (r := (lit 0, ray.tMax)) (by rw [lit_zero]; simp) h h1
    rw [h1, Option.bind_some] at hb
    cases h2 : b.slab ray .Y t1 with
    | none => rw [h2] at hb; cases hb
    | some t2 =>
      have o2 := slab_order (le_iff.1 o1).1 (le_iff.1 o1).2.1 h2
      rw [h2, Option.bind_some] at hb
      exact slab_order (le_iff.1 o2).1 (le_iff.1 o2).2.1 hb


theorem slab_in {p q near far : F32} {t : F32} {r : F32 × F32} (hr1 : le r.1 t = true) (hr2 : le t r.2 = true)
    (e : (if p >. q then (q, p) else (p, q)) = (near, far)) (hn : le near t = true) (hf : le t (far *. (lit 1 +. lit 2 *. gamma (lit 3))) = true) :
    ∃ r', (let (tNear, tFar) := if p >. q then (q, p) else (p, q)
        let tFar := tFar *. (lit 1 +. lit 2 *. gamma (lit 3))
        let t0 := if tNear >. r.1 then tNear else r.1
        let t1 := if tFar <. r.2 then tFar else r.2
        if t0 >. t1 then none else some (t0, t1)) = some r' ∧ le r'.1 t = true ∧ le t r'.2 = true := by
  rw [e]
  simp only []
  generalize far *. (lit 1 +. lit 2 *. gamma (lit 3)) = far' at *
  have a1 : le (if near >. r.1 then near else r.1) t = true := by split_ifs; exacts [hn, hr1]
  have a2 : le t (if far' <. r.2 then far' else r.2) = true := by split_ifs; exacts [hf, hr2]
  have a3 := lt_asymm' (le_trans' a1 a2)
  rw [← f_lt] at a3
  simp only [a3, Bool.false_eq_true, if_false]
  exact ⟨_, rfl, a1, a2⟩

/-- Widening does not lower a bound. -/
theorem widen_up {x t : F32} (nt : Num t) (t0 : 0 < t.val) (wx : x.WF) (h : le t x = true) :
    le t (x *. (lit 1 +. lit 2 *. gamma (lit 3))) = true := by
  obtain ⟨e, n⟩ := widen_val
  cases x with
  | nan => cases t <;> simp [le] at h
  | inf s =>
    cases s with
    | true => obtain ⟨ts, tx, rfl⟩ := IsFin_iff.1 nt.fin; simp [le] at h
    | false =>
      have : (inf false : F32) *. (lit 1 +. lit 2 *. gamma (lit 3)) = inf false := by
        rw [e]; simp [f_mul, mul]; norm_num
      rw [this]; exact h
  | fin s y =>
    have nx : Num (fin s y : F32) := ⟨wx, trivial⟩
    obtain ⟨zs, e'⟩ := mul_val nx n
    have ev : (lit 1 +. lit 2 *. gamma (lit 3) : F32).val = 1 + 6 / 2 ^ 24 := by rw [e]; rfl
    rw [e', ev]
    rw [le_val nt.fin nx.fin] at h
    have k : t.val ≤ (fin s y : F32).val * (1 + 6 / 2 ^ 24) := by nlinarith
    have m := ofVal_mono (φ := Binary32) k false zs
    obtain ⟨-, h1, h2⟩ := ofVal_val nt.fin nt.wf false
    refine le_trans' ?_ m
    rw [le_val nt.fin h1, h2]

theorem box_in {b : BBox3 F32} {o d : V3 F32} (hm : ∀ a, Num (o.get a) ∧ Num (d.get a)) (hl : ∀ a, Plane o d a (b.min.get a))
    (hh : ∀ a, Plane o d a (b.max.get a)) {t tm : F32} (hc : Crosses b o d t) (ht : le t tm = true) :
    ∃ t0 t1, b.intersect ⟨o, d, tm⟩ = some (t0, t1) ∧ le t0 t = true ∧ le t t1 = true := by
  have step : ∀ (a : Axis) (r : F32 × F32), le r.1 t = true → le t r.2 = true →
      ∃ r', b.slab ⟨o, d, tm⟩ a r = some r' ∧ le r'.1 t = true ∧ le t r'.2 = true := by
    intro a r h1 h2
    obtain ⟨no, nd⟩ := hm a
    have w : ∀ p, (planeAt o d a p).WF := fun p => div_WF (add_WF _ _) nd.wf
    have c1 := hc.forward a
    have c2 := hc.backward a
    have c3 := hc.along a
    rw [f_le, f_le] at c1 c2
    unfold BBox3.slab
    change ∃ r', (let (tNear, tFar) := if planeAt o d a (b.min.get a) >. planeAt o d a (b.max.get a) then
        (planeAt o d a (b.max.get a), planeAt o d a (b.min.get a)) else (planeAt o d a (b.min.get a), planeAt o d a (b.max.get a))
        let tFar := tFar *. (lit 1 +. lit 2 *. gamma (lit 3))
        let t0 := if tNear >. r.1 then tNear else r.1
        let t1 := if tFar <. r.2 then tFar else r.2
        if t0 >. t1 then none else some (t0, t1)) = some r' ∧ le r'.1 t = true ∧ le t r'.2 = true
    rcases lt_trichotomy (d.get a).val 0 with h0 | h0 | h0
    · obtain ⟨k1, k2⟩ := c2 h0
      by_cases hgt : (planeAt o d a (b.min.get a) >. planeAt o d a (b.max.get a)) = true
      · exact slab_in h1 h2 (by rw [if_pos hgt]) k1 (widen_up hc.num hc.pos (w _) k2)
      · have := (not_lt' (le_iff.1 k1).1 (le_iff.1 k2).2.1).1 (Bool.not_eq_true _ ▸ hgt)
        exact slab_in h1 h2 (by rw [if_neg hgt]) (le_trans' this k1) (widen_up hc.num hc.pos (w _) (le_trans' k2 this))
    · obtain ⟨k1, k2⟩ := c3 h0
      obtain ⟨s, m, hd⟩ := IsFin_iff.1 nd.fin
      have hm0 : m = 0 := by rw [hd] at h0; cases s <;> simpa [val, sgn] using h0
      subst hm0
      obtain ⟨-, a2, -⟩ := sub_div_zero (hl a).num no (hl a).sized s
      obtain ⟨-, -, b3⟩ := sub_div_zero (hh a).num no (hh a).sized s
      have e1 : planeAt o d a (b.min.get a) = inf (!s) := by unfold planeAt; rw [hd]; exact a2 k1
      have e2 : planeAt o d a (b.max.get a) = inf s := by unfold planeAt; rw [hd]; exact b3 k2
      rw [e1, e2]
      have tinf : le (inf true) t = true ∧ le t (inf false) = true := by
        obtain ⟨ts, tx, rfl⟩ := IsFin_iff.1 hc.num.fin; exact ⟨rfl, rfl⟩
      have hw := widen_up (x := inf false) hc.num hc.pos trivial tinf.2
      cases s with
      | true => exact slab_in (p := inf false) (q := inf true) h1 h2 rfl tinf.1 hw
      | false => exact slab_in (p := inf true) (q := inf false) h1 h2 rfl tinf.1 hw
    · obtain ⟨k1, k2⟩ := c1 h0
      have hgt : ¬ (planeAt o d a (b.min.get a) >. planeAt o d a (b.max.get a)) = true := by
        rw [f_lt, lt_asymm' (le_trans' k1 k2)]; simp
      exact slab_in h1 h2 (by rw [if_neg hgt]) k1 (widen_up hc.num hc.pos (w _) k2)
  have z : le (lit 0) t = true := by rw [le_val zero_ok.1.fin hc.num.fin, zero_ok.2]; exact hc.pos.le
  obtain ⟨r1, e1, p1, q1⟩ := step .X (lit 0, tm) z ht
  obtain ⟨r2, e2, p2, q2⟩ := step .Y r1 p1 q1
  obtain ⟨r3, e3, p3, q3⟩ := step .Z r2 p2 q2
  refine ⟨r3.1, r3.2, ?_, p3, q3⟩
  simp only [BBox3.intersect, Option.bind_eq_bind]
  rw [e1, Option.bind_some, e2, Option.bind_some, e3]

/-- A larger box is crossed too. -/
theorem crosses_larger {b c : BBox3 F32} {o d : V3 F32} (hm : ∀ a, Num (o.get a) ∧ Num (d.get a)) (hl : ∀ a, Plane o d a (b.min.get a))
    (hh : ∀ a, Plane o d a (b.max.get a)) (gl : ∀ a, Plane o d a (c.min.get a)) (gh : ∀ a, Plane o d a (c.max.get a))
    (hb : ∀ a, (c.min.get a).val ≤ (b.min.get a).val ∧ (b.max.get a).val ≤ (c.max.get a).val) {t : F32} (hc : Crosses b o d t) : Crosses c o d t := by
  refine ⟨hc.num, hc.pos, fun a h => ?_, fun a h => ?_, fun a h => ?_⟩
  · obtain ⟨k1, k2⟩ := hc.forward a h
    obtain ⟨no, nd⟩ := hm a
    exact ⟨le_trans' (planeAt_mono no nd (gl a) (hl a) (hb a).1 h) k1, le_trans' k2 (planeAt_mono no nd (hh a) (gh a) (hb a).2 h)⟩
  · obtain ⟨k1, k2⟩ := hc.backward a h
    obtain ⟨no, nd⟩ := hm a
    exact ⟨le_trans' (planeAt_anti no nd (hh a) (gh a) (hb a).2 h) k1, le_trans' k2 (planeAt_anti no nd (gl a) (hl a) (hb a).1 h)⟩
  · obtain ⟨k1, k2⟩ := hc.along a h
    exact ⟨lt_of_le_of_lt (hb a).1 k1, lt_of_lt_of_le k2 (hb a).2⟩

theorem good_boxes {ss : List (Obj F32)} {o d : V3 F32} (hm : Moderate ss o d) : GoodBoxes ss := by
  intro s hs a
  obtain ⟨n1, n2, h⟩ := hm.boxes s hs a
  exact (le_val n1.fin n2.fin).2 h

theorem face_plane {ss : List (Obj F32)} {o d : V3 F32} (hm : Moderate ss o d) {a : Axis} {p : F32} (h : FaceOf ss a p) : Plane o d a p := by
  obtain ⟨s, hs, rfl | rfl⟩ := h
  · exact ⟨(hm.boxes s hs a).1, (hm.sized s hs a).1, fun h => (hm.clear s hs a h).1⟩
  · exact ⟨(hm.boxes s hs a).2.1, (hm.sized s hs a).2, fun h => (hm.clear s hs a h).2⟩

/-- The box of the scene is crossed where the box of a shape is. -/
theorem scene_box {ss : List (Obj F32)} {o d : V3 F32} (hm : Moderate ss o d) {b : BBox3 F32} (hb : bboxOfShapes ss = some b)
    {s : Obj F32} (hs : s ∈ ss) {t tm : F32} (hc : Crosses s.shape.bbox o d t) (ht : le t tm = true) :
    ∃ t0 t1, b.intersect ⟨o, d, tm⟩ = some (t0, t1) ∧ le t0 t = true ∧ le t t1 = true := by
  obtain ⟨_, h2⟩ := c33_bbox_of_shapes ss (good_boxes hm).noNaN
  obtain ⟨_, hcon, hf⟩ := h2 b hb
  have gl : ∀ a, Plane o d a (b.min.get a) := fun a => face_plane hm (by
    obtain ⟨⟨s, hs, e⟩, -⟩ := hf a
    exact ⟨s, hs, Or.inl e⟩)
  have gh : ∀ a, Plane o d a (b.max.get a) := fun a => face_plane hm (by
    obtain ⟨-, ⟨s, hs, e⟩⟩ := hf a
    exact ⟨s, hs, Or.inr e⟩)
  have hl : ∀ a, Plane o d a (s.shape.bbox.min.get a) := fun a => face_plane hm ⟨s, hs, Or.inl rfl⟩
  have hh : ∀ a, Plane o d a (s.shape.bbox.max.get a) := fun a => face_plane hm ⟨s, hs, Or.inr rfl⟩
  have hr : ∀ a, Num (o.get a) ∧ Num (d.get a) := fun a => ⟨(hm.ray a).1, (hm.ray a).2.1⟩
  refine box_in hr gl gh (crosses_larger hr hl hh gl gh (fun a => ?_) hc) ht
  obtain ⟨c1, c2⟩ := hcon s hs a
  exact ⟨(le_val (gl a).num.fin (hl a).num.fin).1 c1, (le_val (hh a).num.fin (gh a).num.fin).1 c2⟩

end Kd32

/-- **C97**: the answer of the tree is the one obtained by testing some of the shapes in some order, and every shape whose box the ray
crosses within its range is among them, except those that it crosses only beyond the hit. -/
theorem c97_tests_crossed [Libm F32] (ss : List (Obj F32)) (maxDepth : Option Nat) (tree : KdTree F32) (hn : KdTree.new ss maxDepth = some tree)
    (ray : Ray F32) (hm : Moderate ss ray.origin ray.direction) (htm : ray.tMax ≠ nan) (ha : ∀ s ∈ ss, ∀ tm, s.shape.intersect { ray with tMax := tm } ≠ none) :
    ∃ vs tm' h', (∀ s ∈ vs, s ∈ ss) ∧ closestHit vs ray none = some ({ ray with tMax := tm' }, h') ∧ tree.intersect ray = some h' ∧
      ∀ s ∈ ss, ∀ t, Crosses s.shape.bbox ray.origin ray.direction t → (t <=. ray.tMax) = true → s ∈ vs ∨ (tm' <. t) = true := by
  obtain ⟨hbb, T, hT, hB⟩ := new_layout hn
  obtain ⟨hmem, hsep, hplanes, _⟩ := hB.facts (Kd32.good_boxes hm)
  have hbox := fun s (hs : s ∈ ss) t hc ht => Kd32.scene_box (s := s) (t := t) (tm := ray.tMax) hm hbb hs hc ht
  unfold KdTree.intersect KdTree.run
  obtain ⟨o, d, tm⟩ := ray
  dsimp only at *
  cases hb : tree.bbox.intersect ⟨o, d, tm⟩ with
  | none =>
    refine ⟨[], tm, none, by simp, rfl, rfl, fun s hs t hc ht => ?_⟩
    obtain ⟨t0, t1, e, _⟩ := hbox s hs t hc ht
    rw [hb] at e; cases e
  | some t =>
    obtain ⟨vs, tm', h', v1, v2, v3, v4⟩ := Kd32.loop_visits tree.nodes ss o d hm ha tree.nodes.length tm none 0 _ ⟨T, t.1, t.2⟩ [] []
      hT .nil (by simpa using ⟨hsep, fun s hs => (hmem s).1 hs, fun p hp => Kd32.face_plane hm (hplanes p hp)⟩)
      (by simp [Kd32.work]; have := hT.size_eq; omega) (Kd32.bbox_interval htm hb)
    refine ⟨vs, tm', h', v1, v2, by simp only [Option.elim_some]; rw [v3]; rfl, fun s hs t' hc ht => v4 s hs t' hc ?_⟩
    obtain ⟨t0, t1, e, a1, a2⟩ := hbox s hs t' hc ht
    rw [hb] at e; cases e
    exact ⟨_, List.mem_cons_self, (hmem s).2 hs, a1, a2⟩

/-- **C97** for the shadow test: if the tree reports that nothing is hit then every shape whose box the ray crosses within its range was tested,
and reported nothing. -/
theorem c97_blocked [Libm F32] (ss : List (Obj F32)) (maxDepth : Option Nat) (tree : KdTree F32) (hn : KdTree.new ss maxDepth = some tree)
    (ray : Ray F32) (hm : Moderate ss ray.origin ray.direction) (htm : ray.tMax ≠ nan)
    (ha : ∀ s ∈ ss, ∀ tm, s.shape.intersectP { ray with tMax := tm } ≠ none) :
    (tree.intersectP ray = some true ∧ ∃ s ∈ ss, s.shape.intersectP ray = some true) ∨
    (tree.intersectP ray = some false ∧ ∀ s ∈ ss, ∀ t, Crosses s.shape.bbox ray.origin ray.direction t → (t <=. ray.tMax) = true →
      s.shape.intersectP ray = some false) := by
  obtain ⟨hbb, T, hT, hB⟩ := new_layout hn
  obtain ⟨hmem, hsep, hplanes, _⟩ := hB.facts (Kd32.good_boxes hm)
  have hbox := fun s (hs : s ∈ ss) t hc ht => Kd32.scene_box (s := s) (t := t) (tm := ray.tMax) hm hbb hs hc ht
  unfold KdTree.intersectP KdTree.runP
  obtain ⟨o, d, tm⟩ := ray
  dsimp only at *
  cases hb : tree.bbox.intersect ⟨o, d, tm⟩ with
  | none =>
    refine Or.inr ⟨rfl, fun s hs t hc ht => ?_⟩
    obtain ⟨t0, t1, e, _⟩ := hbox s hs t hc ht
    rw [hb] at e; cases e
  | some t =>
    obtain ⟨vs, b, v1, v2, v3, v4⟩ := Kd32.loopP_visits tree.nodes ss o d hm ha tm tree.nodes.length 0 _ ⟨T, t.1, t.2⟩ [] []
      hT .nil (by simpa using ⟨hsep, fun s hs => (hmem s).1 hs, fun p hp => Kd32.face_plane hm (hplanes p hp)⟩)
      (by simp [Kd32.work]; have := hT.size_eq; omega) (Kd32.bbox_interval htm hb)
    simp only [Option.elim_some]
    rw [v3]
    cases b with
    | true =>
      obtain ⟨s, hs, e⟩ := Kd32.anyHit_true v2
      exact Or.inl ⟨rfl, s, v1 s hs, e⟩
    | false =>
      refine Or.inr ⟨rfl, fun s hs t' hc ht => ?_⟩
      obtain ⟨t0, t1, e, a1, a2⟩ := hbox s hs t' hc ht
      rw [hb] at e; cases e
      rcases v4 with v4 | v4
      · cases v4
      · rcases v4 s hs t' hc ⟨_, List.mem_cons_self, (hmem s).2 hs, a1, a2⟩ with h | h
        · exact Kd32.anyHit_false v2 s h
        · rw [f_le] at ht; rw [lt_asymm' ht] at h; cases h

/-! ### In terms of exact geometry -/

namespace Spec
/-- The exact line is between the two faces of one axis, a little before and a little after `t`. -/
def WithinSlab (b : BBox3 F32) (o d : V3 F32) (t : ℚ) (a : Axis) : Prop :=
  ∀ u ∈ [t * (1 - 1 / 2 ^ 20), t * (1 + 1 / 2 ^ 20)],
    (b.min.get a).val ≤ (o.get a).val + u * (d.get a).val ∧ (o.get a).val + u * (d.get a).val ≤ (b.max.get a).val
/-- The exact line goes through the box at `t`, not grazing an edge; the box may be flat. -/
def PassesThrough (b : BBox3 F32) (o d : V3 F32) (t : ℚ) : Prop :=
  (∀ a, WithinSlab b o d t a) ∨
  ∃ m, b.min.get m = b.max.get m ∧ (d.get m).val ≠ 0 ∧ (o.get m).val + t * (d.get m).val = (b.min.get m).val ∧ ∀ a, a ≠ m → WithinSlab b o d t a
end Spec

theorem Kd32.slab_crossed {b : BBox3 F32} {o d : V3 F32} {t : ℚ} {x : F32} (t1 : 1 / 2 ^ 90 ≤ t) (t2 : t ≤ 2 ^ 110) (nx : Num x)
    (hx : |x.val - t| ≤ t * (1 / 2 ^ 22)) {a : Axis} (no : Num (o.get a)) (nd : Num (d.get a)) (hl : Kd32.Plane o d a (b.min.get a))
    (hh : Kd32.Plane o d a (b.max.get a)) (h : WithinSlab b o d t a) :
    (0 < (d.get a).val → (planeAt o d a (b.min.get a) <=. x) = true ∧ (x <=. planeAt o d a (b.max.get a)) = true) ∧
    ((d.get a).val < 0 → (planeAt o d a (b.max.get a) <=. x) = true ∧ (x <=. planeAt o d a (b.min.get a)) = true) ∧
    ((d.get a).val = 0 → (b.min.get a).val < (o.get a).val ∧ (o.get a).val < (b.max.get a).val) := by
  obtain ⟨l1, l2⟩ := h _ List.mem_cons_self
  obtain ⟨u1, u2⟩ := h _ (List.mem_cons_of_mem _ List.mem_cons_self)
  rw [abs_le] at hx
  have t0 : 0 < t := lt_of_lt_of_le (by positivity) t1
  have near : ∀ p, Kd32.Plane o d a p → (d.get a).val ≠ 0 → (p.val - (o.get a).val) / (d.get a).val ≤ t * (1 - 1 / 2 ^ 20) →
      (planeAt o d a p <=. x) = true := by
    intro p hp h0 h
    have := near_ok hp.num no nd hp.sized h0 (t := t * (1 - 1 / 2 ^ 20)) (Or.inr ⟨by linarith, by linarith⟩) h
    rcases this with e | ⟨n, e⟩
    · unfold planeAt; rw [e]; obtain ⟨s, y, rfl⟩ := IsFin_iff.1 nx.fin; rfl
    · unfold planeAt; rw [le_ok n nx]
      refine e.trans ?_
      simp only [mid, ulpHalf]; linarith
  have far : ∀ p, Kd32.Plane o d a p → (d.get a).val ≠ 0 → t * (1 + 1 / 2 ^ 20) ≤ (p.val - (o.get a).val) / (d.get a).val →
      (x <=. planeAt o d a p) = true := by
    intro p hp h0 h
    have := far_ok hp.num no nd hp.sized h0 (t := t * (1 + 1 / 2 ^ 20)) (Or.inr ⟨by linarith, by linarith⟩) h
    rw [if_neg (by positivity)] at this
    rcases this with e | ⟨n, e⟩
    · unfold planeAt; rw [e]; obtain ⟨s, y, rfl⟩ := IsFin_iff.1 nx.fin; rfl
    · unfold planeAt; rw [le_ok nx n]
      refine le_trans ?_ e
      simp only [ulpHalf]; linarith
  refine ⟨fun h0 => ⟨near _ hl h0.ne' ?_, far _ hh h0.ne' ?_⟩, fun h0 => ⟨near _ hh h0.ne ?_, far _ hl h0.ne ?_⟩, fun h0 => ?_⟩
  · rw [div_le_iff₀ h0]; linarith
  · rw [le_div_iff₀ h0]; linarith
  · rw [div_le_iff_of_neg h0]; linarith
  · rw [le_div_iff_of_neg h0]; linarith
  · rw [h0, mul_zero, add_zero] at l1 l2
    exact ⟨lt_of_le_of_ne l1 (Ne.symm (hl.clear h0)), lt_of_le_of_ne l2 (hh.clear h0)⟩

/-- **C97**: a line that goes through a box, without grazing an edge of it, is computed to cross it, at the right place. -/
theorem c97_passes_through {ss : List (Obj F32)} {o d : V3 F32} (hm : Moderate ss o d) {s : Obj F32} (hs : s ∈ ss) {t : ℚ}
    (t1 : 1 / 2 ^ 90 ≤ t) (t2 : t ≤ 2 ^ 110) (h : PassesThrough s.shape.bbox o d t) :
    ∃ x, Crosses s.shape.bbox o d x ∧ |x.val - t| ≤ t * (1 / 2 ^ 22) := by
  have hl : ∀ a, Kd32.Plane o d a (s.shape.bbox.min.get a) := fun a => Kd32.face_plane hm ⟨s, hs, Or.inl rfl⟩
  have hh : ∀ a, Kd32.Plane o d a (s.shape.bbox.max.get a) := fun a => Kd32.face_plane hm ⟨s, hs, Or.inr rfl⟩
  have t0 : 0 < t := lt_of_lt_of_le (by positivity) t1
  rcases h with h | ⟨m, e, dm, hp, h⟩
  · have nx : Num (ofVal t false : F32) := ofVal_ok (by rw [abs_of_pos t0]; linarith) _
    have hx : |(ofVal t false : F32).val - t| ≤ t * (1 / 2 ^ 22) := by
      refine (ofVal_err nx.fin).trans ?_
      rw [abs_of_pos t0]
      simp only [ulpHalf, tinyHalf]; linarith
    refine ⟨_, ⟨nx, ?_, fun a => ?_, fun a => ?_, fun a => ?_⟩, hx⟩
    · rw [abs_le] at hx; linarith
    · exact (Kd32.slab_crossed t1 t2 nx hx (hm.ray a).1 (hm.ray a).2.1 (hl a) (hh a) (h a)).1
    · exact (Kd32.slab_crossed t1 t2 nx hx (hm.ray a).1 (hm.ray a).2.1 (hl a) (hh a) (h a)).2.1
    · exact (Kd32.slab_crossed t1 t2 nx hx (hm.ray a).1 (hm.ray a).2.1 (hl a) (hh a) (h a)).2.2
  · have hq : ((s.shape.bbox.min.get m).val - (o.get m).val) / (d.get m).val = t := by
      rw [div_eq_iff dm]; linarith
    have k1 := near_ok (hl m).num (hm.ray m).1 (hm.ray m).2.1 (hl m).sized dm (Or.inr ⟨by linarith, by linarith⟩) hq.le
    have k2 := far_ok (hl m).num (hm.ray m).1 (hm.ray m).2.1 (hl m).sized dm (Or.inr ⟨by linarith, by linarith⟩) hq.ge
    rw [if_neg t0.ne'] at k2
    change AtMost (planeAt o d m (s.shape.bbox.min.get m)) _ at k1
    change AtLeast (planeAt o d m (s.shape.bbox.min.get m)) _ at k2
    have nx : Num (planeAt o d m (s.shape.bbox.min.get m)) := by
      rcases k1 with k1 | k1
      · rw [k1] at k2; rcases k2 with k2 | ⟨k2, -⟩
        · cases k2
        · exact absurd k2.fin (by simp [IsFin])
      · exact k1.1
    have v1 : (planeAt o d m (s.shape.bbox.min.get m)).val ≤ mid t := by
      rcases k1 with k1 | k1
      · rw [k1] at nx; exact absurd nx.fin (by simp [IsFin])
      · exact k1.2
    have v2 : t * (1 - 201 / 100 * ulpHalf) ≤ (planeAt o d m (s.shape.bbox.min.get m)).val := by
      rcases k2 with k2 | k2
      · rw [k2] at nx; exact absurd nx.fin (by simp [IsFin])
      · exact k2.2
    have hx : |(planeAt o d m (s.shape.bbox.min.get m)).val - t| ≤ t * (1 / 2 ^ 22) := by
      simp only [mid, ulpHalf] at v1 v2
      rw [abs_le]; constructor <;> linarith
    have self : (planeAt o d m (s.shape.bbox.min.get m) <=. planeAt o d m (s.shape.bbox.min.get m)) = true := le_refl' nx.fin.ne_nan
    refine ⟨_, ⟨nx, ?_, fun a => ?_, fun a => ?_, fun a => ?_⟩, hx⟩
    · rw [abs_le] at hx; linarith
    · by_cases ham : a = m
      · subst ham; intro _; rw [← e]; exact ⟨self, self⟩
      · exact (Kd32.slab_crossed t1 t2 nx hx (hm.ray a).1 (hm.ray a).2.1 (hl a) (hh a) (h a ham)).1
    · by_cases ham : a = m
      · subst ham; intro _; rw [← e]; exact ⟨self, self⟩
      · exact (Kd32.slab_crossed t1 t2 nx hx (hm.ray a).1 (hm.ray a).2.1 (hl a) (hh a) (h a ham)).2.1
    · by_cases ham : a = m
      · subst ham; intro h0; exact absurd h0 dm
      · exact (Kd32.slab_crossed t1 t2 nx hx (hm.ray a).1 (hm.ray a).2.1 (hl a) (hh a) (h a ham)).2.2

/-! ### What is in front hides what is behind -/

/-- The loop over some of the shapes ends with a hit in front, or has not come to the shape `y`. -/
theorem Kd32.front_keeps {o d : V3 F32} (front : Obj F32 → Prop) {A B : ℚ} (hAB : A < B) {N : ℚ} (hN : N ≤ B) (y : Obj F32)
    (hcov : ∀ tm, AtLeast tm N → ∃ i t, Reports y.shape ⟨o, d, tm⟩ i t ∧ (Num t ∧ 0 ≤ t.val ∧ t.val ≤ A)) :
    ∀ (vs : List (Obj F32)) (tm : F32) (h : Option (Hit F32)),
    (∀ x ∈ vs, (front x ∧ ∀ tm, x.shape.intersect ⟨o, d, tm⟩ ≠ none ∧ ∀ i t, Reports x.shape ⟨o, d, tm⟩ i t → Num t ∧ 0 ≤ t.val ∧ t.val ≤ A) ∨
      Beyond B x.shape o d) → AtLeast tm N →
    ∃ r h', closestHit vs ⟨o, d, tm⟩ h = some (r, h') ∧ ((AtLeast r.tMax N ∧ y ∉ vs) ∨ ∃ i x, h' = some ⟨i, x⟩ ∧ front x) := by
  intro vs
  induction vs with
  | nil => intro tm h _ hst; exact ⟨_, h, rfl, Or.inl ⟨hst, by simp⟩⟩
  | cons x vs ih =>
    intro tm h hall ht
    have hx := hall x List.mem_cons_self
    have hall' : ∀ y ∈ vs, _ := fun y hy => hall y (List.mem_cons_of_mem _ hy)
    have ans : x.shape.intersect ⟨o, d, tm⟩ ≠ none := by
      rcases hx with ⟨-, hx⟩ | hx
      · exact (hx tm).1
      · exact (hx.answers tm).1
    rcases Obj.intersect_cases x ⟨o, d, tm⟩ ans with ⟨e1, e2⟩ | ⟨i, t, e1, e2⟩
    · simp only [closestHit, e2, Option.bind_some, Option.isSome_none, Bool.false_eq_true, if_false]
      have hyx : y ≠ x := by
        rintro rfl
        obtain ⟨i, t, hr, -⟩ := hcov tm ht
        unfold Reports at hr; rw [e1] at hr; cases hr
      obtain ⟨r, h', k1, k2⟩ := ih tm h hall' ht
      refine ⟨r, h', k1, k2.imp_left ?_⟩
      rintro ⟨k, kn⟩
      exact ⟨k, by simp [hyx, kn]⟩
    · simp only [closestHit, e2, Option.bind_some, Option.isSome_some, if_true]
      rcases hx with ⟨hf, hx⟩ | hx
      · obtain ⟨n, t0, hA⟩ := (hx tm).2 i t e1
        obtain ⟨r, i', z, k1, k2⟩ := front_wins front hAB hN vs t (some ⟨i, x⟩) hall' (Or.inr ⟨n, t0, hA, i, x, rfl, hf⟩)
        exact ⟨r, _, k1, Or.inr ⟨i', z, rfl, k2⟩⟩
      · have hfar := hx.far tm i t e1
        have hyx : y ≠ x := by
          rintro rfl
          obtain ⟨i', t', hr, n, -, hA⟩ := hcov tm ht
          rcases hx.far tm i' t' hr with rfl | ⟨-, h⟩
          · exact absurd n.fin (by simp [IsFin])
          · linarith
        obtain ⟨r, h', k1, k2⟩ := ih t (some ⟨i, x⟩) hall' (hfar.mono hN)
        refine ⟨r, h', k1, k2.imp_left ?_⟩
        rintro ⟨k, kn⟩
        exact ⟨k, by simp [hyx, kn]⟩

/-- **C97**, and C95 for scenes in a k-d tree: what is in front hides what is behind.  The scene consists of triangles in front, between the
distances `Z` and `Z'` as seen from the ray, and of other shapes beyond 1.03 `Z'`.  The ray goes through one of the triangles in front, which is not a
sliver, and through its box without grazing an edge of the box.  Then the hit is on a triangle in front, and the ray is found to be blocked. -/
theorem c97_front_hides [Libm F32] (ss : List (Obj F32)) (maxDepth : Option Nat) (tree : KdTree F32) (hn : KdTree.new ss maxDepth = some tree)
    (ray : Ray F32) (hmod : Moderate ss ray.origin ray.direction) (m : Axis)
    (hm : ray.direction.maxAbsAxis = some m) {X Y Z Z' : ℚ} (front : Obj F32 → Prop)
    (hfront : ∀ x ∈ ss, front x → ∃ s : Triangle F32, x.shape = s.toShape ∧ Between Z Z' (seen ray m s.v0) (seen ray m s.v1) (seen ray m s.v2))
    (hback : ∀ x ∈ ss, ¬ front x → Beyond (103 / 100 * Z') x.shape ray.origin ray.direction)
    (t : ℚ) (t1 : 1 / 2 ^ 90 ≤ t) (t2 : t ≤ Z')
    (covered : ∃ x ∈ ss, front x ∧ PassesThrough x.shape.bbox ray.origin ray.direction t ∧ ∃ s : Triangle F32, x.shape = s.toShape ∧
      Plain X Y Z Z' (seen ray m s.v0) (seen ray m s.v1) (seen ray m s.v2) ∧ Through (seen ray m s.v0) (seen ray m s.v1) (seen ray m s.v2))
    (far : Reaches ray (51 / 50 * Z')) :
    (∃ h, tree.intersect ray = some (some h) ∧ front h.obj) ∧ tree.intersectP ray = some true := by
  obtain ⟨y, hy, fy, pass, s, es, plain, through⟩ := covered
  obtain ⟨s', es', hbet'⟩ := hfront y hy fy
  have Z0 : 1 / 2 ^ 20 ≤ Z := hbet'.range.1
  have Z1 : Z' ≤ 2 ^ 60 := hbet'.range.2
  have ZZ : Z ≤ Z' := ((hbet'.deep _ List.mem_cons_self).1).trans (hbet'.deep _ List.mem_cons_self).2
  have Z'0 : 0 < Z' := lt_of_lt_of_le (by norm_num) (Z0.trans ZZ)
  have far' : AtLeast ray.tMax (51 / 50 * Z') := far
  have htm : ray.tMax ≠ nan := atLeast_ne_nan far'
  obtain ⟨x, cx, hx⟩ := c97_passes_through hmod hy t1 (t2.trans (Z1.trans (by norm_num))) pass
  have xN : x.val ≤ 51 / 50 * Z' := by rw [abs_le] at hx; linarith
  have below : ∀ z : F32, AtLeast z (51 / 50 * Z') → (z <. x) = false := fun z hz => not_gt (Or.inr ⟨cx.num, le_rfl⟩) hz xN
  have inr : (x <=. ray.tMax) = true := (not_lt' htm cx.num.fin.ne_nan).1 (below _ far')
  obtain ⟨o, d, tm⟩ := ray
  have tri_ans : ∀ (s : Triangle F32) tm, s.intersect ⟨o, d, tm⟩ ≠ none ∧ s.intersectP ⟨o, d, tm⟩ ≠ none := by
    intro s tm
    simp only [] at hm
    rw [intersect_eq, intersectP_eq, hm]; simp
  have ans : ∀ z ∈ ss, ∀ tm, z.shape.intersect ⟨o, d, tm⟩ ≠ none ∧ z.shape.intersectP ⟨o, d, tm⟩ ≠ none := by
    intro z hz tm
    by_cases hf : front z
    · obtain ⟨s, e, -⟩ := hfront z hz hf
      rw [e]; exact tri_ans s tm
    · exact (hback z hz hf).answers tm
  have fr : ∀ x ∈ ss, front x → ∀ tm, x.shape.intersect ⟨o, d, tm⟩ ≠ none ∧ ∀ i t, Reports x.shape ⟨o, d, tm⟩ i t →
      Num t ∧ 0 ≤ t.val ∧ t.val ≤ Z' * (1 + 1 / 2 ^ 19) := by
    intro x hx hf tm'
    obtain ⟨s, e, hb⟩ := hfront x hx hf
    rw [e]
    refine ⟨(tri_ans s tm').1, ?_⟩
    intro i t h
    obtain ⟨n, h1, h2⟩ := c94_distance s ⟨o, d, tm'⟩ m hm hb i t h
    exact ⟨n, by linarith, h2⟩
  constructor
  · obtain ⟨vs, tm', h', v1, v2, v3, v4⟩ := c97_tests_crossed ss maxDepth tree hn ⟨o, d, tm⟩ hmod htm (fun s hs tm => (ans s hs tm).1)
    obtain ⟨r, h'', k1, k2⟩ := Kd32.front_keeps (o := o) (d := d) front (A := Z' * (1 + 1 / 2 ^ 19)) (B := 103 / 100 * Z') (by linarith)
      (N := 51 / 50 * Z') (by linarith) y
      (by
        intro tm' htm'
        obtain ⟨⟨i, t, hh⟩, -⟩ := c91_triangle_partial s ⟨o, d, tm'⟩ m hm plain through htm'
        have hh' : Reports y.shape ⟨o, d, tm'⟩ i t := by rw [es]; exact hh
        exact ⟨i, t, hh', (fr y hy fy tm').2 i t hh'⟩) vs tm none
      (by
        intro x hx
        by_cases hf : front x
        · exact Or.inl ⟨hf, fr x (v1 x hx) hf⟩
        · exact Or.inr (hback x (v1 x hx) hf)) far
    rw [k1] at v2
    simp only [Option.some.injEq, Prod.mk.injEq] at v2
    obtain ⟨rfl, rfl⟩ := v2
    rcases k2 with ⟨k, kn⟩ | ⟨i, z, rfl, hz⟩
    · exfalso
      rcases v4 y hy x cx inr with h | h
      · exact kn h
      · rw [below _ k] at h; cases h
    · exact ⟨⟨i, z⟩, v3, hz⟩
  · rcases c97_blocked ss maxDepth tree hn ⟨o, d, tm⟩ hmod htm (fun s hs tm => (ans s hs tm).2) with ⟨h, -⟩ | ⟨-, h⟩
    · exact h
    · have h1 := h y hy x cx inr
      rw [es] at h1
      have h2 := (c91_triangle_partial s ⟨o, d, tm⟩ m hm plain through far).2
      change s.intersectP _ = _ at h1
      rw [h2] at h1; cases h1

/-! ### Example -/

namespace Demo
/-- The ray of C91, more slowly. -/
def slow : Ray F32 := ⟨⟨f32 0, f32 0, f32 0⟩, ⟨f32 (1 / 4), f32 (1 / 2), f32 1⟩, Fl.inf false⟩

theorem slow_seen : seen slow .Z far0 = ⟨f32 (-8), f32 (-4), f32 16⟩ ∧ seen slow .Z far1 = ⟨f32 (-8), f32 12, f32 16⟩ ∧
    seen slow .Z far2 = ⟨f32 24, f32 12, f32 16⟩ ∧ seen slow .Z corner0 = ⟨f32 (-2), f32 (-1), f32 4⟩ ∧
    seen slow .Z corner2 = ⟨f32 6, f32 3, f32 4⟩ ∧ seen slow .Z corner3 = ⟨f32 6, f32 (-1), f32 4⟩ := by decide +kernel

theorem slow_dir : (Num (f32 (1 / 4)) ∧ (f32 (1 / 4)).val = 1 / 4) ∧ (Num (f32 (1 / 2)) ∧ (f32 (1 / 2)).val = 1 / 2) := by
  have e1 : f32 (1 / 4) = fin false (1 / 4) := by decide +kernel
  have e2 : f32 (1 / 2) = fin false (1 / 2) := by decide +kernel
  exact ⟨⟨lit_ok (q := 1 / 4) (by norm_num [abs_of_pos]), by rw [e1]; rfl⟩, ⟨lit_ok (q := 1 / 2) (by norm_num [abs_of_pos]), by rw [e2]; rfl⟩⟩

theorem nearTriBox [Libm F32] (mat : Material F32) : (nearTri mat).bbox.min = ⟨f32 0, f32 0, f32 4⟩ ∧ (nearTri mat).bbox.max = ⟨f32 4, f32 8, f32 4⟩ := by
  change ((BBox3.new corner0 corner3).unionPoint corner2).min = _ ∧ ((BBox3.new corner0 corner3).unionPoint corner2).max = _
  decide +kernel
theorem farTriBox [Libm F32] (mat : Material F32) : (farTri mat).bbox.min = ⟨f32 0, f32 0, f32 16⟩ ∧ (farTri mat).bbox.max = ⟨f32 16, f32 32, f32 16⟩ := by
  change ((BBox3.new far0 far1).unionPoint far2).min = _ ∧ ((BBox3.new far0 far1).unionPoint far2).max = _
  decide +kernel

/-- A triangle, and any number of triangles behind it. -/
def crowd [Libm F32] (mat : Material F32) (n : ℕ) : List (Obj F32) :=
  (List.range n).map (fun k => ⟨k + 1, (farTri mat).toShape⟩) ++ [⟨0, (nearTri mat).toShape⟩]

theorem crowd_mem [Libm F32] {mat : Material F32} {n : ℕ} {x : Obj F32} (h : x ∈ crowd mat n) :
    (x.shape = (nearTri mat).toShape ∧ x.addr = 0) ∨ (x.shape = (farTri mat).toShape ∧ x.addr ≠ 0) := by
  simp only [crowd, List.mem_append, List.mem_map, List.mem_range, List.mem_singleton] at h
  rcases h with ⟨k, -, rfl⟩ | rfl
  · exact Or.inr ⟨rfl, by simp⟩
  · exact Or.inl ⟨rfl, rfl⟩

theorem crowd_moderate [Libm F32] (mat : Material F32) (n : ℕ) : Moderate (crowd mat n) slow.origin slow.direction := by
  obtain ⟨-, -, ⟨n4, v4⟩, -, -, ⟨n16, v16⟩, ⟨n32, v32⟩, ⟨n8, v8⟩, ⟨n2, v2⟩, ⟨n0, v0⟩⟩ := far_nums
  obtain ⟨⟨m4, w4⟩, ⟨m2, w2⟩⟩ := slow_dir
  obtain ⟨-, -, ⟨n1, v1⟩, -⟩ := demo_nums
  obtain ⟨b1, b2⟩ := nearTriBox mat
  obtain ⟨b3, b4⟩ := farTriBox mat
  refine ⟨?_, ?_, ?_, ?_⟩
  · intro a
    cases a <;> simp only [slow, V3.get]
    · exact ⟨n0, m4, by rw [w4]; norm_num [abs_of_pos]⟩
    · exact ⟨n0, m2, by rw [w2]; norm_num [abs_of_pos]⟩
    · exact ⟨n0, n1, by rw [v1]; norm_num⟩
  · intro x hx a
    rcases crowd_mem hx with ⟨e, -⟩ | ⟨e, -⟩ <;> rw [e]
    · change Num ((nearTri mat).bbox.min.get a) ∧ Num ((nearTri mat).bbox.max.get a) ∧ ((nearTri mat).bbox.min.get a).val ≤ ((nearTri mat).bbox.max.get a).val
      rw [b1, b2]
      cases a <;> simp [V3.get, n0, n4, n8, v0, v4, v8]
    · change Num ((farTri mat).bbox.min.get a) ∧ Num ((farTri mat).bbox.max.get a) ∧ ((farTri mat).bbox.min.get a).val ≤ ((farTri mat).bbox.max.get a).val
      rw [b3, b4]
      cases a <;> simp [V3.get, n0, n16, n32, v0, v16, v32]
  · intro x hx a
    rcases crowd_mem hx with ⟨e, -⟩ | ⟨e, -⟩ <;> rw [e]
    · change |((nearTri mat).bbox.min.get a).val - _| ≤ _ ∧ |((nearTri mat).bbox.max.get a).val - _| ≤ _
      rw [b1, b2]
      cases a <;> simp [V3.get, slow, v0, v4, v8] <;> norm_num
    · change |((farTri mat).bbox.min.get a).val - _| ≤ _ ∧ |((farTri mat).bbox.max.get a).val - _| ≤ _
      rw [b3, b4]
      cases a <;> simp [V3.get, slow, v0, v16, v32] <;> norm_num
  · intro x hx a h
    cases a <;> simp only [slow, V3.get] at h
    · rw [w4] at h; norm_num at h
    · rw [w2] at h; norm_num at h
    · rw [v1] at h; norm_num at h

theorem slow_far (tm : F32) : Between 16 16 (seen ⟨slow.origin, slow.direction, tm⟩ .Z far0) (seen ⟨slow.origin, slow.direction, tm⟩ .Z far1)
    (seen ⟨slow.origin, slow.direction, tm⟩ .Z far2) := by
  obtain ⟨⟨n8', v8'⟩, ⟨n4', v4'⟩, ⟨n4, v4⟩, ⟨n12, v12⟩, ⟨n24, v24⟩, ⟨n16, v16⟩, -⟩ := far_nums
  obtain ⟨c0, c1, c2, -⟩ := slow_seen
  change Between 16 16 (seen slow .Z far0) (seen slow .Z far1) (seen slow .Z far2)
  rw [c0, c1, c2]
  refine ⟨?_, ?_, ?_, ?_, by norm_num⟩
  · simp [n8', n4', n12, n24, n16]
  · simp [v8', v4', v12, v24]; norm_num
  · unfold Coarse; simp [v8', v4', v12, v24]; norm_num
  · simp [v16]

theorem slow_near : Between 4 4 (seen slow .Z corner0) (seen slow .Z corner3) (seen slow .Z corner2) := by
  obtain ⟨-, -, ⟨n4, v4⟩, -⟩ := far_nums
  obtain ⟨⟨n2', v2'⟩, ⟨n1', v1'⟩, ⟨n1, v1⟩, ⟨n3, v3⟩, ⟨n6, v6⟩⟩ := demo_nums
  obtain ⟨-, -, -, c3, c4, c5⟩ := slow_seen
  rw [c3, c4, c5]
  refine ⟨?_, ?_, ?_, ?_, by norm_num⟩
  · simp [n2', n1', n4, n6, n3]
  · simp [v2', v1', v6, v3]; norm_num
  · unfold Coarse; simp [v2', v1', v6, v3]; norm_num
  · simp [v4]

theorem slow_through : Plain 6 6 4 4 (seen slow .Z corner0) (seen slow .Z corner3) (seen slow .Z corner2) ∧
    Through (seen slow .Z corner0) (seen slow .Z corner3) (seen slow .Z corner2) := by
  obtain ⟨-, -, ⟨n4, v4⟩, -⟩ := far_nums
  obtain ⟨⟨n2', v2'⟩, ⟨n1', v1'⟩, ⟨n1, v1⟩, ⟨n3, v3⟩, ⟨n6, v6⟩⟩ := demo_nums
  obtain ⟨-, -, -, c3, c4, c5⟩ := slow_seen
  rw [c3, c4, c5]
  refine ⟨⟨?_, ?_, ?_, ?_, ?_⟩, ?_⟩
  · simp [n1', n2', n3, n4, n6]
  · simp [v1', v2', v3, v6]; norm_num
  · simp [v4]
  · unfold turn; simp only [v1', v2', v3, v6]; norm_num
  · unfold turn; simp only [v1', v2', v3, v6]; norm_num
  · left; unfold turn; simp only [v1', v2', v3, v6]; norm_num

theorem slow_box [Libm F32] (mat : Material F32) : PassesThrough (nearTri mat).bbox slow.origin slow.direction 4 := by
  obtain ⟨-, -, ⟨n4, v4⟩, -, -, -, -, ⟨n8, v8⟩, -, ⟨n0, v0⟩⟩ := far_nums
  obtain ⟨-, -, ⟨n1, v1⟩, -⟩ := demo_nums
  obtain ⟨⟨-, w4⟩, ⟨-, w2⟩⟩ := slow_dir
  obtain ⟨b1, b2⟩ := nearTriBox mat
  refine Or.inr ⟨.Z, ?_, ?_, ?_, ?_⟩
  · simp only [b1, b2, V3.get]
  · simp only [slow, V3.get, v1]; norm_num
  · rw [b1]; simp only [slow, V3.get, v0, v1, v4]; norm_num
  · intro a ha u hu
    rw [b1, b2]
    simp only [List.mem_cons, List.not_mem_nil, or_false] at hu
    cases a
    · simp only [slow, V3.get, v0, v4, w4]
      rcases hu with rfl | rfl <;> norm_num
    · simp only [slow, V3.get, v0, v8, w2]
      rcases hu with rfl | rfl <;> norm_num
    · exact absurd rfl ha

/-- In a tree with any number of triangles behind it, the triangle in front is hit. -/
example [Libm F32] (mat : Material F32) (n : ℕ) (maxDepth : Option ℕ) : ∃ tree, KdTree.new (crowd mat n) maxDepth = some tree ∧
    (∃ h, tree.intersect slow = some (some h) ∧ h.obj.addr = 0) ∧ tree.intersectP slow = some true := by
  have hm := crowd_moderate mat n
  cases hn : KdTree.new (crowd mat n) maxDepth with
  | none =>
    have := (KdTree.c28_build_total (crowd mat n) (fun s hs a => ⟨(hm.boxes s hs a).1.fin, (hm.boxes s hs a).2.1.fin, Kd32.good_boxes hm s hs a⟩) maxDepth).1 hn
    simp [crowd] at this
  | some tree =>
    refine ⟨tree, rfl, ?_⟩
    refine c97_front_hides _ _ _ hn slow hm .Z (by decide +kernel) (X := 6) (Y := 6) (Z := 4) (Z' := 4) (fun x => x.addr = 0) ?_ ?_ 4
      (by norm_num) (by norm_num) ?_ (Or.inl rfl)
    · intro x hx h0
      rcases crowd_mem hx with ⟨e, -⟩ | ⟨-, e⟩
      · refine ⟨nearTri mat, e, ?_⟩
        exact slow_near
      · exact absurd h0 e
    · intro x hx h0
      rcases crowd_mem hx with ⟨-, e⟩ | ⟨e, -⟩
      · exact absurd e h0
      · rw [e]
        exact c95_triangle_beyond (farTri mat) _ _ .Z (by decide +kernel) (Z := 16) (Z' := 16) (by norm_num) (by norm_num) slow_far
    · exact ⟨⟨0, (nearTri mat).toShape⟩, by simp [crowd], rfl, slow_box mat, nearTri mat, rfl, slow_through⟩
end Demo

end PT
