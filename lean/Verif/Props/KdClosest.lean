import Verif.Props.KdTree

/-!
# C29: the k-d tree returns a closest hit
-/

namespace PT
open Fl Spec KdTree

namespace Spec
variable {K : Type} [Field K] [LinearOrder K] [FloorRing K]
/-- What a shape reports along the line is in front of the origin and inside the shape's box. -/
def HitsInBox (s : Shape (Fl Exact K)) (o d : V3 (Fl Exact K)) : Prop :=
  ∀ tm i t, Reports s ⟨o, d, tm⟩ i t → t.IsFin ∧ 0 < t.val ∧ RayInBox s.bbox ⟨o, d, tm⟩ t.val
/-- The line is parallel to an axis plane and lies exactly in a face of the box of some shape. -/
def InFacePlane (ss : List (Obj (Fl Exact K))) (o d : V3 (Fl Exact K)) : Prop :=
  ∃ s ∈ ss, ∃ a, (d.get a).val = 0 ∧
    ((o.get a).val = (s.shape.bbox.min.get a).val ∨ (o.get a).val = (s.shape.bbox.max.get a).val)
end Spec

section
variable {K : Type} [Field K] [LinearOrder K] [IsStrictOrderedRing K] [FloorRing K]

theorem ev_fin_val {t : Fl Exact K} (h : t.IsFin) : ev (fin false t.val : Fl Exact K) = ev t := by
  obtain ⟨s, x, rfl⟩ := IsFin_iff.1 h
  have a := (le_val (a := (fin false (fin s x : Fl Exact K).val)) (b := (fin s x : Fl Exact K)) trivial trivial).2 (by simp [val, sgn])
  have b := (le_val (b := (fin false (fin s x : Fl Exact K).val)) (a := (fin s x : Fl Exact K)) trivial trivial).2 (by simp [val, sgn])
  exact le_antisymm (le_iff.1 a).2.2 (le_iff.1 b).2.2

theorem le_fin_val_left {t x : Fl Exact K} (h : t.IsFin) : le (fin false t.val : Fl Exact K) x = true ↔ le t x = true := by
  rw [le_iff, le_iff, ev_fin_val h]; simp [h.ne_nan]
theorem le_fin_val_right {t x : Fl Exact K} (h : t.IsFin) : le x (fin false t.val : Fl Exact K) = true ↔ le x t = true := by
  rw [le_iff, le_iff, ev_fin_val h]; simp [h.ne_nan]

theorem eq_val {a b : Fl Exact K} (ha : a.IsFin) (hb : b.IsFin) : eq a b = true ↔ a.val = b.val := by
  have h1 := le_val ha hb; have h2 := le_val hb ha
  rw [le_iff] at h1 h2
  rw [eq_iff]
  constructor
  · intro h; exact le_antisymm (h1.1 ⟨h.1, h.2.1, h.2.2.le⟩) (h2.1 ⟨h.2.1, h.1, h.2.2.ge⟩)
  · intro h; exact ⟨ha.ne_nan, hb.ne_nan, le_antisymm (h1.2 h.le).2.2 (h2.2 h.ge).2.2⟩

/-! ### Geometry of one split -/

theorem geoN_low {o p d t : K} (h : o < p ∨ o = p ∧ d ≤ 0) (hg : d = 0 → o ≠ p) (ht : 0 < t) (hp : p ≤ o + t * d) :
    d ≠ 0 ∧ 0 < (p - o) / d ∧ (p - o) / d ≤ t := by
  have hop : o < p := by
    rcases h with h | ⟨h, hd⟩
    · exact h
    · exfalso
      subst h
      have hd0 : d < 0 := lt_of_le_of_ne hd (fun e => hg e rfl)
      nlinarith [mul_neg_of_pos_of_neg ht hd0]
  have hd : 0 < d := by
    by_contra hc
    nlinarith [mul_nonneg ht.le (sub_nonneg.2 (not_lt.1 hc))]
  exact ⟨hd.ne', div_pos (by linarith) hd, by rw [div_le_iff₀ hd]; linarith⟩

theorem geoN_up {o p d t : K} (h : ¬ (o < p ∨ o = p ∧ d ≤ 0)) (ht : 0 < t) (hp : o + t * d ≤ p) :
    d ≠ 0 ∧ 0 < (p - o) / d ∧ (p - o) / d ≤ t := by
  push Not at h
  obtain ⟨h1, h2⟩ := h
  have hpo : p < o := by
    rcases lt_or_eq_of_le h1 with h | h
    · exact h
    · exfalso
      have := h2 h.symm
      nlinarith [mul_pos ht this]
  have hd : d < 0 := by
    by_contra hc
    nlinarith [mul_nonneg ht.le (not_lt.1 hc)]
  exact ⟨hd.ne, div_pos_of_neg_of_neg (by linarith) hd, by rw [div_le_iff_of_neg hd]; linarith⟩

theorem geoF_low {o p d t : K} (h : o < p ∨ o = p ∧ d ≤ 0) (hd : d ≠ 0) (hs : 0 < (p - o) / d) (hp : o + t * d ≤ p) :
    t ≤ (p - o) / d := by
  have hop : o < p := by
    rcases h with h | ⟨h, _⟩
    · exact h
    · rw [h, sub_self, zero_div] at hs; exact absurd hs (lt_irrefl _)
  have hd : 0 < d := by
    by_contra hc
    have : d < 0 := lt_of_le_of_ne (not_lt.1 hc) hd
    exact absurd hs (not_lt.2 (div_nonpos_of_nonneg_of_nonpos (by linarith) this.le))
  rw [le_div_iff₀ hd]; linarith

theorem geoF_up {o p d t : K} (h : ¬ (o < p ∨ o = p ∧ d ≤ 0)) (hd : d ≠ 0) (hs : 0 < (p - o) / d) (hp : p ≤ o + t * d) :
    t ≤ (p - o) / d := by
  push Not at h
  have hd : d < 0 := by
    by_contra hc
    have : 0 ≤ d := not_lt.1 hc
    exact absurd hs (not_lt.2 (div_nonpos_of_nonpos_of_nonneg (by linarith [h.1]) this))
  rw [le_div_iff_of_neg hd]; linarith

/-- The side of the plane where the ray starts, as decided by the code. -/
def nearLow (o d : V3 (Fl Exact K)) (a : Axis) (p : Fl Exact K) : Bool := (o.get a <. p) || ((o.get a ==. p) && (d.get a <=. lit 0))

theorem nearLow_iff {o d : V3 (Fl Exact K)} {a : Axis} {p : Fl Exact K} (ho : (o.get a).IsFin) (hd : (d.get a).IsFin) (hp : p.IsFin) :
    nearLow o d a p = true ↔ ((o.get a).val < p.val ∨ (o.get a).val = p.val ∧ (d.get a).val ≤ 0) := by
  unfold nearLow
  rw [Bool.or_eq_true, Bool.and_eq_true, f_lt, f_eq, f_le, lt_val ho hp, eq_val ho hp, le_val hd (exact_lit 0).1, (exact_lit 0).2]
  simp

/-- Where the shapes of a hit are relative to the split. -/
theorem split_sides {o d : V3 (Fl Exact K)} {a : Axis} {p : Fl Exact K} (ho : (o.get a).IsFin) (hd : (d.get a).IsFin) (hp : p.IsFin)
    (hg : (d.get a).val = 0 → (o.get a).val ≠ p.val) {l r : KTree (Fl Exact K)} (hsep : Separated (.node a p l r)) :
    let tS := (p -. o.get a) /. d.get a
    let near := if nearLow o d a p then l else r
    let far := if nearLow o d a p then r else l
    tS ≠ nan ∧ ∀ (s : Obj (Fl Exact K)) (t : Fl Exact K) (tm : Fl Exact K), s ∈ l.stored ++ r.stored → t.IsFin → 0 < t.val →
      (s.shape.bbox.min.get a).IsFin → (s.shape.bbox.max.get a).IsFin → RayInBox s.shape.bbox ⟨o, d, tm⟩ t.val →
      (s ∉ near.stored → le tS t = true ∧ ¬ le tS (lit 0) = true) ∧ (s ∉ far.stored → ¬ le tS (lit 0) = true → le t tS = true) := by
  dsimp only
  rw [f_sub, f_div]
  have key : (div (add p (neg (o.get a))) (d.get a)) ≠ nan ∧
      ((d.get a).val ≠ 0 → (div (add p (neg (o.get a))) (d.get a)).IsFin ∧
        (div (add p (neg (o.get a))) (d.get a)).val = (p.val - (o.get a).val) / (d.get a).val) ∧
      ((d.get a).val = 0 → ∃ s, div (add p (neg (o.get a))) (d.get a) = inf s) := by
    obtain ⟨n1, n2⟩ := exact_sub hp ho
    by_cases h0 : (d.get a).val = 0
    · obtain ⟨sg, hz⟩ := zero_of_val hd h0
      have : div (add p (neg (o.get a))) (d.get a) = inf (decide (p.val < (o.get a).val) ^^ sg) := by
        rw [hz, exact_sub_div_zero hp ho, if_neg (Ne.symm (hg h0))]
      rw [this]
      exact ⟨by simp, fun h => absurd h0 h, fun _ => ⟨_, rfl⟩⟩
    · obtain ⟨n3, n4⟩ := exact_div n1 hd h0
      rw [n2] at n4
      exact ⟨n3.ne_nan, fun _ => ⟨n3, n4⟩, fun h => absurd h h0⟩
  obtain ⟨k1, k2, k3⟩ := key
  generalize div (add p (neg (o.get a))) (d.get a) = tS at *
  refine ⟨k1, ?_⟩
  intro s t tm hs ht ht0 hlo hhi hin
  obtain ⟨hin1, hin2⟩ := hin a
  dsimp only at hin1 hin2
  obtain ⟨hS1, hS2⟩ := hsep.1 s hs
  rw [le_val hp hlo] at hS1
  rw [le_val hhi hp] at hS2
  have h0 : ∀ x : Fl Exact K, x.IsFin → (le x (lit 0) = true ↔ x.val ≤ 0) := by
    intro x hx; rw [le_val hx (exact_lit 0).1, (exact_lit 0).2]; simp
  have fin0 : ∀ {x : K}, ((d.get a).val ≠ 0 ∧ 0 < (p.val - (o.get a).val) / (d.get a).val ∧ (p.val - (o.get a).val) / (d.get a).val ≤ x) →
      x = t.val → le tS t = true ∧ ¬ le tS (lit 0) = true := by
    rintro x ⟨h1, h2, h3⟩ rfl
    obtain ⟨q1, q2⟩ := k2 h1
    rw [le_val q1 ht, h0 _ q1, q2]
    exact ⟨h3, not_le.2 h2⟩
  have finF : ((d.get a).val ≠ 0 → 0 < (p.val - (o.get a).val) / (d.get a).val → t.val ≤ (p.val - (o.get a).val) / (d.get a).val) →
      ¬ le tS (lit 0) = true → le t tS = true := by
    intro h hn
    by_cases hd0 : (d.get a).val = 0
    · obtain ⟨sg, rfl⟩ := k3 hd0
      have : ∀ sg : Bool, ¬ le (inf sg : Fl Exact K) (lit 0) = true → sg = false := by
        intro sg h
        cases sg with
        | false => rfl
        | true => exact absurd (by rw [lit_zero]; rfl) h
      rw [this sg hn]
      obtain ⟨sT, xT, rfl⟩ := IsFin_iff.1 ht
      rfl
    · obtain ⟨q1, q2⟩ := k2 hd0
      rw [h0 _ q1, q2, not_le] at hn
      rw [le_val ht q1, q2]
      exact h hd0 hn
  by_cases hc : nearLow o d a p = true
  · simp only [hc, if_true]
    have hc' := (nearLow_iff ho hd hp).1 hc
    refine ⟨fun hn => fin0 (geoN_low hc' hg ht0 ((hS1 hn).trans hin1)) rfl, fun hn => finF fun h1 h2 => geoF_low hc' h1 h2 ?_⟩
    exact hin2.trans (hS2 hn)
  · rw [if_neg hc, if_neg hc]
    have hc' := mt (nearLow_iff ho hd hp).2 hc
    refine ⟨fun hn => fin0 (geoN_up hc' ht0 (hin2.trans (hS2 hn))) rfl, fun hn => finF fun h1 h2 => geoF_up hc' h1 h2 ?_⟩
    exact (hS1 hn).trans hin1

/-! ### The traversal -/

/-- A part of the tree that is still to be visited, with its parameter interval. -/
structure Region (K : Type) [Field K] [LinearOrder K] [FloorRing K] where
  T : KTree (Fl Exact K)
  a : Fl Exact K
  b : Fl Exact K

/-- Intervals in order: a₁ ≤ b₁ ≤ a₂ ≤ b₂ ≤ … -/
def Chain : List (Region K) → Prop
  | [] => True
  | [x] => le x.a x.b = true
  | x :: y :: rs => le x.a x.b = true ∧ le x.b y.a = true ∧ Chain (y :: rs)

theorem Chain.tail {x : Region K} {rs : List (Region K)} (h : Chain (x :: rs)) : Chain rs := by
  cases rs with
  | nil => trivial
  | cons y rs => exact h.2.2

theorem Chain.first {x : Region K} {rs : List (Region K)} (h : Chain (x :: rs)) : le x.a x.b = true := by
  cases rs with
  | nil => exact h
  | cons y rs => exact h.1

theorem Chain.least : ∀ {rs : List (Region K)} {x : Region K}, Chain (x :: rs) → ∀ y ∈ x :: rs, le x.a y.a = true := by
  intro rs
  induction rs with
  | nil => intro x h y hy; rw [List.mem_singleton] at hy; subst hy; exact le_refl' (le_iff.1 h.first).1
  | cons z rs ih =>
    intro x h y hy
    rcases List.mem_cons.1 hy with rfl | hy
    · exact le_refl' (le_iff.1 h.first).1
    · exact le_trans' h.1 (le_trans' h.2.1 (ih h.2.2 y hy))

/-- The same interval, another tree. -/
theorem Chain.replace {x : Region K} {rs : List (Region K)} (h : Chain (x :: rs)) (T : KTree (Fl Exact K)) : Chain (⟨T, x.a, x.b⟩ :: rs) := by
  cases rs with
  | nil => exact h
  | cons y rs => exact h

/-- An interval cut in two. -/
theorem Chain.cut {x : Region K} {rs : List (Region K)} (h : Chain (x :: rs)) {m : Fl Exact K} (h1 : le x.a m = true) (h2 : le m x.b = true)
    (T T' : KTree (Fl Exact K)) : Chain (⟨T, x.a, m⟩ :: ⟨T', m, x.b⟩ :: rs) := by
  have hm := le_refl' (le_iff.1 h1).2.1
  cases rs with
  | nil => exact ⟨h1, hm, h2⟩
  | cons y rs => exact ⟨h1, hm, h2, h.2⟩

/-- The stack entries and their regions. -/
inductive Stack (nodes : List (Node (Fl Exact K))) : List (Todo (Fl Exact K)) → List (Region K) → Prop where
  | nil : Stack nodes [] []
  | cons {td todos T rs j} : Layout nodes td.node T j → Stack nodes todos rs → Stack nodes (td :: todos) (⟨T, td.tMin, td.tMax⟩ :: rs)

/-- Nodes of all the regions. -/
def work (rs : List (Region K)) : Nat := (rs.map fun r => r.T.size).sum

/-- The hit needs no further search: it is not closer than the current one (and outside the range if there is none). -/
def Done (h : Option (Hit (Fl Exact K))) (tm t : Fl Exact K) : Prop := (h = none → lt tm t = true) ∧ (h ≠ none → le tm t = true)

theorem Done.le {h : Option (Hit (Fl Exact K))} {tm t : Fl Exact K} (hd : Done h tm t) : Fl.le tm t = true := by
  cases h with
  | none => exact le_of_lt' (hd.1 rfl)
  | some x => exact hd.2 (by simp)

/-- Every hit of the original ray is either done or in a region that is still to be visited. -/
def Covered (ss : List (Obj (Fl Exact K))) (R : Ray (Fl Exact K)) (h : Option (Hit (Fl Exact K))) (tm : Fl Exact K)
    (rs : List (Region K)) : Prop :=
  ∀ s ∈ ss, ∀ i t, Reports s.shape R i t → Done h tm t ∨ ∃ x ∈ rs, s ∈ x.T.stored ∧ le x.a t = true ∧ le t x.b = true

/-- The current hit is reported by a shape for the original ray, at the current range. -/
def Tracked (ss : List (Obj (Fl Exact K))) (R : Ray (Fl Exact K)) (h : Option (Hit (Fl Exact K))) (tm : Fl Exact K) : Prop :=
  le tm R.tMax = true ∧ ((h = none ∧ tm = R.tMax) ∨ ∃ hh, h = some hh ∧ hh.obj ∈ ss ∧ Reports hh.obj.shape R hh.i tm)

/-- The facts about a (sub)tree that traversal needs. -/
structure Good (ss : List (Obj (Fl Exact K))) (o d : V3 (Fl Exact K)) (T : KTree (Fl Exact K)) : Prop where
  sep : Separated T
  sub : ∀ s ∈ T.stored, s ∈ ss
  planes : ∀ p ∈ T.splits, p.2.IsFin ∧ ((d.get p.1).val = 0 → (o.get p.1).val ≠ p.2.val)

theorem Good.low {ss : List (Obj (Fl Exact K))} {o d : V3 (Fl Exact K)} {a p} {l r : KTree (Fl Exact K)}
    (h : Good ss o d (.node a p l r)) : Good ss o d l :=
  ⟨h.sep.2.1, fun s hs => h.sub s (by simp [KTree.stored, hs]), fun q hq => h.planes q (by simp [KTree.splits, hq])⟩
theorem Good.up {ss : List (Obj (Fl Exact K))} {o d : V3 (Fl Exact K)} {a p} {l r : KTree (Fl Exact K)}
    (h : Good ss o d (.node a p l r)) : Good ss o d r :=
  ⟨h.sep.2.2, fun s hs => h.sub s (by simp [KTree.stored, hs]), fun q hq => h.planes q (by simp [KTree.splits, hq])⟩

theorem loop_closest (nodes : List (Node (Fl Exact K))) (ss : List (Obj (Fl Exact K))) (R : Ray (Fl Exact K)) (hR : FinRay R)
    (htm : R.tMax ≠ nan) (hbox : FiniteBoxes ss) (hl : ∀ s ∈ ss, LawfulAlong s.shape R.origin R.direction)
    (hin : ∀ s ∈ ss, HitsInBox s.shape R.origin R.direction) :
    ∀ (fuel : Nat) (tm : Fl Exact K) (h : Option (Hit (Fl Exact K))) (i j : Nat) (x : Region K) (todos : List (Todo (Fl Exact K)))
      (rs : List (Region K)), Layout nodes i x.T j → Stack nodes todos rs → (∀ y ∈ x :: rs, Good ss R.origin R.direction y.T) →
      work (x :: rs) ≤ fuel → Chain (x :: rs) → Tracked ss R h tm → Covered ss R h tm (x :: rs) →
      ∃ tm' h', loop nodes fuel ⟨R.origin, R.direction, tm⟩ h i x.a x.b todos = .value h' ∧ Tracked ss R h' tm' ∧ Covered ss R h' tm' [] := by
  intro fuel
  induction fuel with
  | zero =>
    intro tm h i j x todos rs _ _ _ hw
    have := x.T.size_pos
    simp only [work, List.map_cons, List.sum_cons] at hw
    omega
  | succ fuel ih =>
    intro tm h i j x todos rs hL hS hG hw hC hT hCov
    by_cases hbr : ((⟨R.origin, R.direction, tm⟩ : Ray (Fl Exact K)).tMax <. x.a) = true
    · refine ⟨tm, h, loop_done hbr, hT, fun s hs i t hr => Or.inl ?_⟩
      rcases hCov s hs i t hr with hd | ⟨y, hy, _, hya, _⟩
      · exact hd
      · have : lt tm t = true := lt_of_lt_of_le' hbr (le_trans' (hC.least y hy) hya)
        exact ⟨fun _ => this, fun _ => le_of_lt' this⟩
    obtain ⟨T, a, b⟩ := x
    cases hL with
    | @leaf _ ls hn =>
      rw [loop_leaf hbr hn (newLeaf_not_split ls), leafShapes_newLeaf]
      have hsub : ∀ s ∈ ls, s ∈ ss := (hG ⟨.leaf ls, a, b⟩ (List.mem_cons_self ..)).sub
      have htmn : tm ≠ nan := (le_iff.1 hT.1).1
      obtain ⟨tm', h', e, l1, l2, l3⟩ := closestHit_spec R.origin R.direction ls tm h htmn (fun s hs => hl s (hsub s hs))
      rw [e]
      simp only [Option.elim_some]
      have hT' : Tracked ss R h' tm' := by
        refine ⟨le_trans' l1 hT.1, ?_⟩
        rcases l3 with ⟨rfl, rfl, _⟩ | ⟨s, hs, i', rfl, hr⟩
        · exact hT.2
        · exact Or.inr ⟨_, rfl, hsub s hs, (hl s (hsub s hs)).grow _ _ _ _ hr hT.1⟩
      have hCov' : Covered ss R h' tm' rs := by
        intro s hs i' t hr
        have done : Done h tm t → Done h' tm' t := by
          intro hd
          rcases l3 with ⟨rfl, rfl, _⟩ | ⟨s, hs, i', rfl, hr⟩
          · exact hd
          · exact ⟨by simp, fun _ => le_trans' l1 hd.le⟩
        rcases hCov s hs i' t hr with hd | ⟨y, hy, hys, hya, hyb⟩
        · exact Or.inl (done hd)
        · rcases List.mem_cons.1 hy with rfl | hy
          · -- a hit in this leaf
            have htn : t ≠ nan := (le_iff.1 hya).2.1
            refine Or.inl ?_
            rcases hT.2 with ⟨rfl, rfl⟩ | ⟨hh, rfl, _, _⟩
            · have hr' : Reports s.shape ⟨R.origin, R.direction, R.tMax⟩ i' t := hr
              rcases l3 with ⟨_, _, hno⟩ | ⟨_, _, _, rfl, _⟩
              · exact absurd hr' (hno s hys i' t)
              · exact ⟨by simp, fun _ => l2 s hys i' t hr'⟩
            · have hsome : h' ≠ none := by
                rcases l3 with ⟨rfl, _, _⟩ | ⟨_, _, _, rfl, _⟩ <;> simp
              refine ⟨fun h => absurd h hsome, fun _ => ?_⟩
              by_cases hlt : lt t tm = true
              · exact l2 s hys i' t ((hl s hs).shrink _ _ _ _ hr hT.1 hlt)
              · exact le_trans' l1 ((not_lt' htn htmn).1 (by simpa using hlt))
          · exact Or.inr ⟨y, hy, hys, hya, hyb⟩
      cases hS with
      | nil => exact ⟨tm', h', rfl, hT', hCov'⟩
      | @cons td todos T' rs' j' hL' hS' =>
        refine ih tm' h' td.node j' ⟨T', td.tMin, td.tMax⟩ todos rs' hL' hS' (fun y hy => hG y (List.mem_cons_of_mem _ hy)) ?_ hC.tail hT' hCov'
        simp only [work, List.map_cons, List.sum_cons, KTree.size] at hw ⊢; omega
    | @node _ k _ axis p l r hn hll hlr =>
      rw [loop_split hbr hn]
      have hgood := hG _ (List.mem_cons_self ..)
      obtain ⟨hpf, hpg⟩ := hgood.planes (axis, p) (by simp [KTree.splits])
      dsimp only at hpf hpg hgood
      obtain ⟨hnn, hside⟩ := split_sides (hR axis).1 (hR axis).2 hpf hpg hgood.sep
      -- the hits of this node
      have hit : ∀ s ∈ ss, ∀ i' t, Reports s.shape R i' t → s ∈ l.stored ++ r.stored →
          (s ∉ (if nearLow R.origin R.direction axis p then l else r).stored →
            le ((p -. R.origin.get axis) /. R.direction.get axis) t = true ∧
            ¬ le ((p -. R.origin.get axis) /. R.direction.get axis) (lit 0) = true) ∧
          (s ∉ (if nearLow R.origin R.direction axis p then r else l).stored →
            ¬ le ((p -. R.origin.get axis) /. R.direction.get axis) (lit 0) = true →
            le t ((p -. R.origin.get axis) /. R.direction.get axis) = true) := by
        intro s hs i' t hr hst
        obtain ⟨q1, q2, q3⟩ := hin s hs R.tMax i' t hr
        exact hside s t R.tMax hst q1 q2 (hbox s hs axis).1 (hbox s hs axis).2.1 q3
      have hmem : ∀ s, s ∈ l.stored ++ r.stored →
          (s ∈ (if nearLow R.origin R.direction axis p then l else r).stored ∨
           s ∈ (if nearLow R.origin R.direction axis p then r else l).stored) := by
        intro s hs
        rw [List.mem_append] at hs
        by_cases hc : nearLow R.origin R.direction axis p = true
        · simp only [hc, if_true]; exact hs
        · rw [if_neg hc, if_neg hc]; exact hs.symm
      -- the two children
      have hnear : ∃ j', Layout nodes (if nearLow R.origin R.direction axis p then i + 1 else k)
          (if nearLow R.origin R.direction axis p then l else r) j' := by
        by_cases hc : nearLow R.origin R.direction axis p = true
        · simp only [hc, if_true]; exact ⟨_, hll⟩
        · rw [if_neg hc, if_neg hc]; exact ⟨_, hlr⟩
      have hfar : ∃ j', Layout nodes (if nearLow R.origin R.direction axis p then k else i + 1)
          (if nearLow R.origin R.direction axis p then r else l) j' := by
        by_cases hc : nearLow R.origin R.direction axis p = true
        · simp only [hc, if_true]; exact ⟨_, hlr⟩
        · rw [if_neg hc, if_neg hc]; exact ⟨_, hll⟩
      have gnear : Good ss R.origin R.direction (if nearLow R.origin R.direction axis p then l else r) := by
        by_cases hc : nearLow R.origin R.direction axis p = true
        · simp only [hc, if_true]; exact hgood.low
        · rw [if_neg hc]; exact hgood.up
      have gfar : Good ss R.origin R.direction (if nearLow R.origin R.direction axis p then r else l) := by
        by_cases hc : nearLow R.origin R.direction axis p = true
        · simp only [hc, if_true]; exact hgood.up
        · rw [if_neg hc]; exact hgood.low
      have hsize : (if nearLow R.origin R.direction axis p then l else r).size + (if nearLow R.origin R.direction axis p then r else l).size
          = l.size + r.size := by
        by_cases hc : nearLow R.origin R.direction axis p = true
        · simp only [hc, if_true]
        · rw [if_neg hc, if_neg hc]; omega
      have hdesc : descend ⟨R.origin, R.direction, tm⟩ axis p k i a b todos =
          if (((p -. R.origin.get axis) /. R.direction.get axis >. b) || ((p -. R.origin.get axis) /. R.direction.get axis <=. lit 0)) = true then
            ((if nearLow R.origin R.direction axis p then i + 1 else k), b, todos)
          else if ((p -. R.origin.get axis) /. R.direction.get axis <. a) = true then
            ((if nearLow R.origin R.direction axis p then k else i + 1), b, todos)
          else ((if nearLow R.origin R.direction axis p then i + 1 else k), (p -. R.origin.get axis) /. R.direction.get axis,
            ⟨(if nearLow R.origin R.direction axis p then k else i + 1), (p -. R.origin.get axis) /. R.direction.get axis, b⟩ :: todos) := by
        unfold descend nearLow
        dsimp only
        by_cases hc : ((R.origin.get axis <. p) || ((R.origin.get axis ==. p) && (R.direction.get axis <=. lit 0))) = true
        · simp only [hc, if_true]
        · simp only [hc]; rfl
      rw [hdesc]
      generalize ((p -. R.origin.get axis) /. R.direction.get axis) = tS at *
      generalize (if nearLow R.origin R.direction axis p = true then l else r) = near at *
      generalize (if nearLow R.origin R.direction axis p = true then r else l) = far at *
      generalize (if nearLow R.origin R.direction axis p = true then i + 1 else k) = inear at *
      generalize (if nearLow R.origin R.direction axis p = true then k else i + 1) = ifar at *
      obtain ⟨jn, hnear⟩ := hnear
      obtain ⟨jf, hfar⟩ := hfar
      have hpn := near.size_pos; have hpf' := far.size_pos
      have hab := hC.first
      have han := (le_iff.1 hab).1
      have hbn := (le_iff.1 hab).2.1
      have hGrs : ∀ y ∈ rs, Good ss R.origin R.direction y.T := fun y hy => hG y (List.mem_cons_of_mem _ hy)
      simp only [work, List.map_cons, List.sum_cons, KTree.size] at hw
      dsimp only at hab han hbn
      -- coverage of the hits in this node by its children
      have cov : ∀ (rs' : List (Region K)), (∀ y ∈ rs, y ∈ rs') →
          (∀ s ∈ ss, ∀ i' t, Reports s.shape R i' t → s ∈ l.stored ++ r.stored → le a t = true → le t b = true →
            ∃ y ∈ rs', s ∈ y.T.stored ∧ le y.a t = true ∧ le t y.b = true) → Covered ss R h tm rs' := by
        intro rs' hsub hnew s hs i' t hr
        rcases hCov s hs i' t hr with hd | ⟨y, hy, hys, hya, hyb⟩
        · exact Or.inl hd
        · rcases List.mem_cons.1 hy with rfl | hy
          · exact Or.inr (hnew s hs i' t hr hys hya hyb)
          · exact Or.inr ⟨y, hsub y hy, hys, hya, hyb⟩
      by_cases hA : ((tS >. b) || (tS <=. lit 0)) = true
      · rw [if_pos hA]
        refine ih tm h inear jn ⟨near, a, b⟩ todos rs hnear hS (List.forall_mem_cons.2 ⟨gnear, hGrs⟩) ?_ (hC.replace near) hT ?_
        · simp only [work, List.map_cons, List.sum_cons]; omega
        · refine cov _ (fun y hy => List.mem_cons_of_mem _ hy) fun s hs i' t hr hst hat htb => ⟨⟨near, a, b⟩, by simp, ?_, hat, htb⟩
          by_contra hn'
          obtain ⟨h1, h2⟩ := (hit s hs i' t hr hst).1 hn'
          rw [Bool.or_eq_true] at hA
          rcases hA with hA | hA
          · have : lt b t = true := lt_of_lt_of_le' hA h1
            rw [lt_asymm' htb] at this; cases this
          · exact h2 hA
      · rw [if_neg hA]
        rw [Bool.or_eq_true, not_or] at hA
        obtain ⟨hA1, hA2⟩ := hA
        have hSb : le tS b = true := (not_lt' hbn hnn).1 (Bool.not_eq_true _ ▸ hA1)
        by_cases hB : (tS <. a) = true
        · rw [if_pos hB]
          refine ih tm h ifar jf ⟨far, a, b⟩ todos rs hfar hS (List.forall_mem_cons.2 ⟨gfar, hGrs⟩) ?_ (hC.replace far) hT ?_
          · simp only [work, List.map_cons, List.sum_cons]; omega
          · refine cov _ (fun y hy => List.mem_cons_of_mem _ hy) fun s hs i' t hr hst hat htb => ⟨⟨far, a, b⟩, by simp, ?_, hat, htb⟩
            by_contra hn'
            have h1 := (hit s hs i' t hr hst).2 hn' hA2
            have : lt tS t = true := lt_of_lt_of_le' hB hat
            rw [lt_asymm' h1] at this; cases this
        · rw [if_neg hB]
          have haS : le a tS = true := (not_lt' hnn han).1 (Bool.not_eq_true _ ▸ hB)
          refine ih tm h inear jn ⟨near, a, tS⟩ (⟨ifar, tS, b⟩ :: todos) (⟨far, tS, b⟩ :: rs) hnear (.cons hfar hS)
            (List.forall_mem_cons.2 ⟨gnear, List.forall_mem_cons.2 ⟨gfar, hGrs⟩⟩) ?_ (hC.cut haS hSb near far) hT ?_
          · simp only [work, List.map_cons, List.sum_cons]; omega
          · refine cov _ (fun y hy => by simp [hy]) fun s hs i' t hr hst hat htb => ?_
            have htn : t ≠ nan := (le_iff.1 hat).2.1
            obtain ⟨hN, hF⟩ := hit s hs i' t hr hst
            by_cases hsn : s ∈ near.stored
            · by_cases hts : le t tS = true
              · exact ⟨⟨near, a, tS⟩, by simp, hsn, hat, hts⟩
              · have hsf : s ∈ far.stored := by
                  by_contra hn'
                  exact hts (hF hn' hA2)
                exact ⟨⟨far, tS, b⟩, by simp, hsf, le_of_lt' ((not_le' htn hnn).1 (by simpa using hts)), htb⟩
            · have hsf : s ∈ far.stored := (hmem s hst).resolve_left hsn
              exact ⟨⟨far, tS, b⟩, by simp, hsf, (hN hsn).1, htb⟩

theorem slab_order {b : BBox3 (Fl Exact K)} {ray : Ray (Fl Exact K)} {a : Axis} {r r' : Fl Exact K × Fl Exact K}
    (h1 : r.1 ≠ nan) (h2 : r.2 ≠ nan) (h : b.slab ray a r = some r') : le r'.1 r'.2 = true := by
  unfold BBox3.slab at h
  dsimp only at h
  generalize (if (((b.min.get a -. ray.origin.get a) /. ray.direction.get a) >. ((b.max.get a -. ray.origin.get a) /. ray.direction.get a)) = true
    then (((b.max.get a -. ray.origin.get a) /. ray.direction.get a), ((b.min.get a -. ray.origin.get a) /. ray.direction.get a))
    else (((b.min.get a -. ray.origin.get a) /. ray.direction.get a), ((b.max.get a -. ray.origin.get a) /. ray.direction.get a))) = nf at h
  obtain ⟨n, f⟩ := nf
  dsimp only at h
  generalize f *. (lit 1 +. lit 2 *. gamma (lit 3)) = f' at h
  have e1 : (if (n >. r.1) = true then n else r.1) ≠ nan := by
    by_cases hc : (n >. r.1) = true
    · rw [if_pos hc]; exact (lt_iff.1 hc).2.1
    · rw [if_neg hc]; exact h1
  have e2 : (if (f' <. r.2) = true then f' else r.2) ≠ nan := by
    by_cases hc : (f' <. r.2) = true
    · rw [if_pos hc]; exact (lt_iff.1 hc).1
    · rw [if_neg hc]; exact h2
  generalize (if (n >. r.1) = true then n else r.1) = t0 at *
  generalize (if (f' <. r.2) = true then f' else r.2) = t1 at *
  by_cases hc : (t0 >. t1) = true
  · rw [if_pos hc] at h; cases h
  · rw [if_neg hc] at h; cases h
    exact (not_lt' e2 e1).1 (Bool.not_eq_true _ ▸ hc)

theorem bbox_interval {b : BBox3 (Fl Exact K)} {ray : Ray (Fl Exact K)} (h : ray.tMax ≠ nan) {t : Fl Exact K × Fl Exact K}
    (hb : b.intersect ray = some t) : le t.1 t.2 = true := by
  simp only [BBox3.intersect, Option.bind_eq_bind] at hb
  cases h1 : b.slab ray .X (lit 0, ray.tMax) with
  | none => rw [h1] at hb; cases hb
  | some t1 =>
    have o1 := slab_order (r := (lit 0, ray.tMax)) (exact_lit 0).1.ne_nan h h1
    rw [h1, Option.bind_some] at hb
    cases h2 : b.slab ray .Y t1 with
    | none => rw [h2] at hb; cases hb
    | some t2 =>
      have o2 := slab_order (le_iff.1 o1).1 (le_iff.1 o1).2.1 h2
      rw [h2, Option.bind_some] at hb
      exact slab_order (le_iff.1 o2).1 (le_iff.1 o2).2.1 hb

/-- The container box test passes for every ray that hits some shape. -/
theorem box_not_missed {ss : List (Obj (Fl Exact K))} {b : BBox3 (Fl Exact K)} (hb : bboxOfShapes ss = some b) (hbox : FiniteBoxes ss)
    {R : Ray (Fl Exact K)} (hR : FinRay R) (htm : R.tMax ≠ nan) (hl : ∀ s ∈ ss, LawfulAlong s.shape R.origin R.direction)
    (hin : ∀ s ∈ ss, HitsInBox s.shape R.origin R.direction) (hface : ¬ InFacePlane ss R.origin R.direction)
    {s : Obj (Fl Exact K)} (hs : s ∈ ss) {i t} (hr : Reports s.shape R i t) :
    ∃ t0 t1, b.intersect R = some (t0, t1) ∧ le t0 t = true ∧ le t t1 = true := by
  have hg : GoodBoxes ss := fun s hs a => (hbox s hs a).2.2
  obtain ⟨_, h2⟩ := c33_bbox_of_shapes ss hg.noNaN
  obtain ⟨_, hcon, hf⟩ := h2 b hb
  obtain ⟨q1, q2, q3⟩ := hin s hs R.tMax i t hr
  have hfb : FinBox b := by
    intro a
    obtain ⟨⟨s, hs, e⟩, ⟨s', hs', e'⟩⟩ := hf a
    rw [e, e']; exact ⟨(hbox s hs a).1, (hbox s' hs' a).2.1⟩
  have hz : ¬ NegZeroOnFace b R := by
    rintro ⟨a, hd, ho⟩
    obtain ⟨⟨s, hs, e⟩, ⟨s', hs', e'⟩⟩ := hf a
    rw [e, e'] at ho
    have hd0 : (R.direction.get a).val = 0 := by rw [hd]; simp [val, sgn]
    rcases ho with ho | ho
    · exact hface ⟨s, hs, a, hd0, Or.inl ho⟩
    · exact hface ⟨s', hs', a, hd0, Or.inr ho⟩
  have hinb : RayInBox b R t.val := by
    intro a
    obtain ⟨c1, c2⟩ := hcon s hs a
    rw [le_val (hfb a).1 (hbox s hs a).1] at c1
    rw [le_val (hbox s hs a).2.1 (hfb a).2] at c2
    exact ⟨c1.trans (q3 a).1, (q3 a).2.trans c2⟩
  obtain ⟨t0, t1, e, a1, a2⟩ := c34_no_false_negatives_partial b R hfb hR hz t.val q2.le
    ((le_fin_val_left q1).2 ((hl s hs).inRange R.tMax i t htm hr)) hinb
  exact ⟨t0, t1, e, (le_fin_val_right q1).1 a1, (le_fin_val_left q1).1 a2⟩

/-- C29 in arithmetic without rounding (with signed zeros, infinities and NaN): for every scene of lawful shapes with finite boxes,
every depth limit and every ray with finite origin and direction (zero components and infinite `t_max` included), `KdTree::intersect`
answers, the answer is `None` exactly when no shape reports a hit, and a returned hit is a closest one.
Missing: rays that are parallel to an axis plane and lie exactly in a face of some shape's box, for which the claim is false
(`c29_refuted`), and rounding. -/
theorem c29_kdtree_closest_partial [Libm (Fl Exact K)] (ss : List (Obj (Fl Exact K))) (hbox : FiniteBoxes ss) (maxDepth : Option Nat)
    (tree : KdTree (Fl Exact K)) (hn : KdTree.new ss maxDepth = some tree) (ray : Ray (Fl Exact K)) (hR : FinRay ray)
    (htm : ray.tMax ≠ nan) (hl : ∀ s ∈ ss, LawfulAlong s.shape ray.origin ray.direction)
    (hin : ∀ s ∈ ss, HitsInBox s.shape ray.origin ray.direction) (hface : ¬ InFacePlane ss ray.origin ray.direction) :
    ∃ r, tree.intersect ray = some r ∧ (r = none ↔ NoHit ss ray) ∧ ∀ h, r = some h → Closest ss ray h := by
  have hg : GoodBoxes ss := fun s hs a => (hbox s hs a).2.2
  obtain ⟨hbb, T, hT, hB⟩ := new_layout hn
  obtain ⟨hmem, hsep, hplanes, _⟩ := hB.facts hg
  have hmiss := fun s (hs : s ∈ ss) i t (hr : Reports s.shape ray i t) => box_not_missed hbb hbox hR htm hl hin hface hs hr
  unfold KdTree.intersect KdTree.run
  cases hb : tree.bbox.intersect ray with
  | none =>
    refine ⟨none, rfl, ⟨fun _ s hs i t hr => ?_, fun _ => rfl⟩, by simp⟩
    obtain ⟨t0, t1, e, _⟩ := hmiss s hs i t hr
    rw [hb] at e; cases e
  | some t =>
    have hgood : Good ss ray.origin ray.direction T := by
      refine ⟨hsep, fun s hs => (hmem s).1 hs, ?_⟩
      intro p hp
      obtain ⟨s, hs, h | h⟩ := hplanes p hp
      · rw [h]; exact ⟨(hbox s hs _).1, fun hd ho => hface ⟨s, hs, _, hd, Or.inl ho⟩⟩
      · rw [h]; exact ⟨(hbox s hs _).2.1, fun hd ho => hface ⟨s, hs, _, hd, Or.inr ho⟩⟩
    obtain ⟨tm', h', e, hT', hC'⟩ := loop_closest tree.nodes ss ray hR htm hbox hl hin tree.nodes.length ray.tMax none 0 _ ⟨T, t.1, t.2⟩ [] []
      hT .nil (by simpa using hgood) (by simp [work]; have := hT.size_eq; omega) (bbox_interval htm hb)
      ⟨le_refl' htm, Or.inl ⟨rfl, rfl⟩⟩
      (by
        intro s hs i' t' hr
        obtain ⟨t0, t1, e, a1, a2⟩ := hmiss s hs i' t' hr
        rw [hb] at e; cases e
        exact Or.inr ⟨⟨T, t0, t1⟩, by simp, (hmem s).2 hs, a1, a2⟩)
    have e' : loop tree.nodes tree.nodes.length ray none 0 t.1 t.2 [] = .value h' := e
    have hC : ∀ s ∈ ss, ∀ i t, Reports s.shape ray i t → Done h' tm' t := by
      intro s hs i t hr
      rcases hC' s hs i t hr with hd | ⟨y, hy, _⟩
      · exact hd
      · cases hy
    refine ⟨h', by simp [e', Run.toOption], ⟨?_, ?_⟩, ?_⟩
    · rintro rfl s hs i t hr
      have h1 := (hC s hs i t hr).1 rfl
      rcases hT'.2 with ⟨_, rfl⟩ | ⟨_, h, _⟩
      · rw [lt_asymm' ((hl s hs).inRange _ _ _ htm hr)] at h1; cases h1
      · cases h
    · intro hno
      rcases hT'.2 with ⟨h, _⟩ | ⟨hh, _, hm, hr⟩
      · exact h
      · exact absurd hr (hno _ hm _ _)
    · intro h hh
      subst hh
      rcases hT'.2 with ⟨h, _⟩ | ⟨hh, h, hm, hr⟩
      · cases h
      · cases h
        exact ⟨hm, tm', hr, fun s hs i t hr => (hC s hs i t hr).2 (by simp)⟩

/-- C29 as stated: the same answer as testing every shape (`Simple`): both find nothing, or both report a hit with the same
parameter. -/
theorem c29_same_as_simple_partial [Libm (Fl Exact K)] (ss : List (Obj (Fl Exact K))) (hbox : FiniteBoxes ss) (maxDepth : Option Nat)
    (tree : KdTree (Fl Exact K)) (hn : KdTree.new ss maxDepth = some tree) (c : Simple (Fl Exact K)) (hc : Simple.new ss = some c)
    (ray : Ray (Fl Exact K)) (hR : FinRay ray)
    (htm : ray.tMax ≠ nan) (hl : ∀ s ∈ ss, LawfulAlong s.shape ray.origin ray.direction)
    (hin : ∀ s ∈ ss, HitsInBox s.shape ray.origin ray.direction) (hface : ¬ InFacePlane ss ray.origin ray.direction) :
    (tree.intersect ray = some none ∧ c.intersect ray = some none ∧ NoHit ss ray) ∨
    ∃ h h' t t', tree.intersect ray = some (some h) ∧ c.intersect ray = some (some h') ∧
      h.obj ∈ ss ∧ h'.obj ∈ ss ∧ Reports h.obj.shape ray h.i t ∧ Reports h'.obj.shape ray h'.i t' ∧ t.val = t'.val := by
  obtain ⟨r, e, h1, h2⟩ := c29_kdtree_closest_partial ss hbox maxDepth tree hn ray hR htm hl hin hface
  obtain ⟨r', e', g0, g1, g2⟩ := c27_simple_closest ss c hc ray htm hl
  have hbb : bboxOfShapes ss = some c.bbox := by
    unfold Simple.new at hc
    cases hb : bboxOfShapes ss with
    | none => rw [hb] at hc; cases hc
    | some b => rw [hb] at hc; cases hc; rfl
  cases r with
  | none =>
    have hno := h1.1 rfl
    refine Or.inl ⟨e, ?_, hno⟩
    rw [e']
    cases r' with
    | none => rfl
    | some h' =>
      obtain ⟨hm, t, hr, _⟩ := g2 h' rfl
      exact absurd hr (hno _ hm _ _)
  | some h =>
    obtain ⟨hm, t, hr, hmin⟩ := h2 h rfl
    have hhit : c.bbox.intersect ray ≠ none := by
      obtain ⟨t0, t1, e, _⟩ := box_not_missed hbb hbox hR htm hl hin hface hm hr
      rw [e]; simp
    cases r' with
    | none => exact absurd hr ((g1 hhit).1 rfl _ hm _ _)
    | some h' =>
      obtain ⟨hm', t', hr', hmin'⟩ := g2 h' rfl
      refine Or.inr ⟨h, h', t, t', e, e', hm, hm', hr, hr', ?_⟩
      have a1 := hmin _ hm' _ _ hr'
      have a2 := hmin' _ hm _ _ hr
      have f1 := (hin _ hm _ _ _ hr).1
      have f2 := (hin _ hm' _ _ _ hr').1
      exact le_antisymm ((le_val f1 f2).1 a1) ((le_val f2 f1).1 a2)
end
end PT
