import Verif.Props.BBox

/-!
# Brute-force container: C27 and the contract of shapes
-/

namespace PT
open Fl

namespace Spec
variable {φ K : Type} [Field K] [LinearOrder K] [FloorRing K] [Rounding φ K]

/-- The shape reports interaction `i` at parameter `t` for the ray. -/
def Reports {α : Type} (s : Shape α) (ray : Ray α) (i : Interaction α) (t : α) : Prop := s.intersect ray = some (some (i, t))

/-- The contract a shape obeys along one line (see C41 for the shapes of pt.rs): it answers for every
range, what it reports is within the range, and changing the range keeps or removes the reported hit. -/
structure LawfulAlong (s : Shape (Fl φ K)) (o d : V3 (Fl φ K)) : Prop where
  answers : ∀ tm, s.intersect ⟨o, d, tm⟩ ≠ none
  inRange : ∀ tm i t, tm ≠ Fl.nan → Reports s ⟨o, d, tm⟩ i t → Fl.le t tm = true
  shrink : ∀ tm tm' i t, Reports s ⟨o, d, tm⟩ i t → Fl.le tm' tm = true → Fl.lt t tm' = true → Reports s ⟨o, d, tm'⟩ i t
  grow : ∀ tm tm' i t, Reports s ⟨o, d, tm'⟩ i t → Fl.le tm' tm = true → Reports s ⟨o, d, tm⟩ i t

/-- `h` is a closest hit of the ray among the shapes: a shape of the list reports it, and no shape reports a smaller
parameter. -/
def Closest (ss : List (Obj (Fl φ K))) (ray : Ray (Fl φ K)) (h : Hit (Fl φ K)) : Prop :=
  h.obj ∈ ss ∧ ∃ t, Reports h.obj.shape ray h.i t ∧
    ∀ s ∈ ss, ∀ i t', Reports s.shape ray i t' → Fl.le t t' = true

/-- No shape reports a hit. -/
def NoHit (ss : List (Obj (Fl φ K))) (ray : Ray (Fl φ K)) : Prop := ∀ s ∈ ss, ∀ i t, ¬ Reports s.shape ray i t
end Spec
open Spec

section
variable {φ K : Type} [Field K] [LinearOrder K] [IsStrictOrderedRing K] [FloorRing K] [Rounding φ K]

theorem Obj.intersect_cases {α : Type} [Scalar α] (s : Obj α) (ray : Ray α) (h : s.shape.intersect ray ≠ none) :
    (s.shape.intersect ray = some none ∧ s.intersect ray = some (ray, none)) ∨
    ∃ i t, Reports s.shape ray i t ∧ s.intersect ray = some ({ ray with tMax := t }, some ⟨i, s⟩) := by
  unfold Obj.intersect Reports
  cases hs : s.shape.intersect ray with
  | none => exact absurd hs h
  | some r =>
    cases r with
    | none => left; exact ⟨rfl, rfl⟩
    | some x => right; exact ⟨x.1, x.2, rfl, rfl⟩

/-- What the loop over a list of shapes computes. -/
theorem closestHit_spec (o d : V3 (Fl φ K)) : ∀ (ss : List (Obj (Fl φ K))) (tm : Fl φ K) (h : Option (Hit (Fl φ K))),
    tm ≠ nan → (∀ s ∈ ss, LawfulAlong s.shape o d) →
    ∃ tm' h', closestHit ss ⟨o, d, tm⟩ h = some (⟨o, d, tm'⟩, h') ∧ le tm' tm = true ∧
      (∀ s ∈ ss, ∀ i t, Reports s.shape ⟨o, d, tm⟩ i t → le tm' t = true) ∧
      ((h' = h ∧ tm' = tm ∧ NoHit ss ⟨o, d, tm⟩) ∨
        ∃ s ∈ ss, ∃ i, h' = some ⟨i, s⟩ ∧ Reports s.shape ⟨o, d, tm⟩ i tm') := by
  intro ss
  induction ss with
  | nil =>
    intro tm h htm _
    exact ⟨tm, h, rfl, le_refl' htm, by simp, Or.inl ⟨rfl, rfl, by simp [NoHit]⟩⟩
  | cons s ss ih =>
    intro tm h htm hl
    have hls := hl s (by simp)
    rcases Obj.intersect_cases s ⟨o, d, tm⟩ (hls.answers tm) with ⟨hs, hs'⟩ | ⟨i, t, hs, hs'⟩
    · obtain ⟨tm', h', e, l1, l2, l3⟩ := ih tm h htm (fun s hs => hl s (by simp [hs]))
      refine ⟨tm', h', ?_, l1, ?_, ?_⟩
      · simp only [closestHit, hs', Option.bind_some, Option.isSome_none, Bool.false_eq_true, if_false]; exact e
      · intro s' hs'' i t hr
        rcases List.mem_cons.1 hs'' with rfl | hm
        · unfold Reports at hr; rw [hs] at hr; simp at hr
        · exact l2 s' hm i t hr
      · rcases l3 with ⟨a, b, c⟩ | ⟨s', hm, i, a, b⟩
        · refine Or.inl ⟨a, b, ?_⟩
          intro s' hs'' i t hr
          rcases List.mem_cons.1 hs'' with rfl | hm
          · unfold Reports at hr; rw [hs] at hr; simp at hr
          · exact c s' hm i t hr
        · exact Or.inr ⟨s', by simp [hm], i, a, b⟩
    · have hle := hls.inRange tm i t htm hs
      have htn : t ≠ nan := (le_iff.1 hle).1
      obtain ⟨tm', h', e, l1, l2, l3⟩ := ih t (some ⟨i, s⟩) htn (fun s hs => hl s (by simp [hs]))
      refine ⟨tm', h', ?_, le_trans' l1 hle, ?_, ?_⟩
      · simp only [closestHit, hs', Option.bind_some, Option.isSome_some, if_true]; exact e
      · intro s' hs'' i' t' hr
        rcases List.mem_cons.1 hs'' with rfl | hm
        · unfold Reports at hr hs; rw [hs] at hr
          simp only [Option.some.injEq, Prod.mk.injEq] at hr
          rw [← hr.2]; exact l1
        · have ht'n : t' ≠ nan := (le_iff.1 ((hl s' (by simp [hm])).inRange _ _ _ htm hr)).1
          by_cases hc : lt t' t = true
          · exact l2 s' hm i' t' ((hl s' (by simp [hm])).shrink _ _ _ _ hr hle hc)
          · exact le_trans' l1 ((not_lt' ht'n htn).1 (by simpa using hc))
      · rcases l3 with ⟨a, b, _⟩ | ⟨s', hm, i', a, b⟩
        · exact Or.inr ⟨s, by simp, i, a, by rw [b]; exact hs⟩
        · exact Or.inr ⟨s', by simp [hm], i', a, (hl s' (by simp [hm])).grow _ _ _ _ b hle⟩

/-- C27: for every list of shapes that obey the contract and every ray (`t_max` not NaN), `Simple::intersect` answers;
if the ray misses the container's box the answer is `None`, otherwise it is `None` exactly when no shape reports a hit, and
a returned hit is a closest one (reported by a shape of the list, with the smallest parameter). -/
theorem c27_simple_closest (ss : List (Obj (Fl φ K))) (c : Simple (Fl φ K)) (hc : Simple.new ss = some c)
    (ray : Ray (Fl φ K)) (htm : ray.tMax ≠ nan) (hl : ∀ s ∈ ss, LawfulAlong s.shape ray.origin ray.direction) :
    ∃ r, c.intersect ray = some r ∧
      (c.bbox.intersect ray = none → r = none) ∧
      (c.bbox.intersect ray ≠ none → (r = none ↔ NoHit ss ray)) ∧
      ∀ h, r = some h → Closest ss ray h := by
  have hcs : c.shapes = ss := by
    unfold Simple.new at hc
    cases hb : bboxOfShapes ss with
    | none => rw [hb] at hc; cases hc
    | some b => rw [hb] at hc; cases hc; rfl
  unfold Simple.intersect
  rw [hcs]
  cases hb : c.bbox.intersect ray with
  | none => exact ⟨none, rfl, by simp, by simp, by simp⟩
  | some t =>
    obtain ⟨tm', h', e, l1, l2, l3⟩ := closestHit_spec ray.origin ray.direction ss ray.tMax none htm hl
    have e' : closestHit ss ray none = some (⟨ray.origin, ray.direction, tm'⟩, h') := e
    refine ⟨h', by simp [e'], by simp, fun _ => ?_, ?_⟩
    · rcases l3 with ⟨a, _, b⟩ | ⟨s, hm, i, a, b⟩
      · exact ⟨fun _ => b, fun _ => a⟩
      · constructor
        · intro hn; rw [hn] at a; cases a
        · intro hn; exact absurd b (hn s hm i tm')
    · intro h hh
      rcases l3 with ⟨a, _, b⟩ | ⟨s, hm, i, a, b⟩
      · rw [hh] at a; cases a
      · rw [hh] at a; cases a
        exact ⟨hm, tm', b, l2⟩
end

/-! ## C30 -/

namespace Spec
/-- Along one line the shape's two queries answer and agree. -/
def AgreesAlong {α : Type} (s : Shape α) (o d : V3 α) : Prop :=
  ∀ tm, ∃ r, s.intersect ⟨o, d, tm⟩ = some r ∧ s.intersectP ⟨o, d, tm⟩ = some r.isSome
end Spec

section
variable {α : Type} [Scalar α]

/-- The two loops over a list of shapes: `anyHit` answers whether `closestHit` started without a hit finds one; and
`closestHit` never forgets a hit. -/
theorem anyHit_closestHit (o d : V3 α) : ∀ (ss : List (Obj α)) (tm : α), (∀ s ∈ ss, AgreesAlong s.shape o d) →
    (∀ h : Hit α, ∃ tm' h', closestHit ss ⟨o, d, tm⟩ (some h) = some (⟨o, d, tm'⟩, some h')) ∧
    ((anyHit ⟨o, d, tm⟩ ss = some false ∧ ∀ h, closestHit ss ⟨o, d, tm⟩ h = some (⟨o, d, tm⟩, h)) ∨
     (anyHit ⟨o, d, tm⟩ ss = some true ∧ ∀ h, ∃ tm' h', closestHit ss ⟨o, d, tm⟩ h = some (⟨o, d, tm'⟩, some h'))) := by
  intro ss
  induction ss with
  | nil => intro tm _; exact ⟨fun h => ⟨tm, h, rfl⟩, Or.inl ⟨rfl, fun _ => rfl⟩⟩
  | cons s ss ih =>
    intro tm ha
    have ih' := fun tm => ih tm (fun s hs => ha s (by simp [hs]))
    obtain ⟨r, h1, h2⟩ := ha s (by simp) tm
    cases r with
    | none =>
      have e : ∀ h, closestHit (s :: ss) ⟨o, d, tm⟩ h = closestHit ss ⟨o, d, tm⟩ h := by
        intro h; simp [closestHit, Obj.intersect, h1]
      have e2 : anyHit ⟨o, d, tm⟩ (s :: ss) = anyHit ⟨o, d, tm⟩ ss := by simp [anyHit, h2]
      simp only [e, e2]; exact ih' tm
    | some x =>
      have e : ∀ h, closestHit (s :: ss) ⟨o, d, tm⟩ h = closestHit ss ⟨o, d, x.2⟩ (some ⟨x.1, s⟩) := by
        intro h; simp [closestHit, Obj.intersect, h1]
      have e2 : anyHit ⟨o, d, tm⟩ (s :: ss) = some true := by simp [anyHit, h2]
      have := (ih' x.2).1 ⟨x.1, s⟩
      simp only [e, e2]
      exact ⟨fun _ => this, Or.inr ⟨trivial, fun _ => this⟩⟩

/-- C30 for the brute-force container, in any arithmetic: `intersect_p` answers true exactly when `intersect` returns a hit. -/
theorem c30_simple (ss : List (Obj α)) (c : Simple α) (hc : Simple.new ss = some c) (ray : Ray α)
    (ha : ∀ s ∈ ss, AgreesAlong s.shape ray.origin ray.direction) :
    ∃ r, c.intersect ray = some r ∧ c.intersectP ray = some r.isSome := by
  have hcs : c.shapes = ss := by
    unfold Simple.new at hc
    cases hb : bboxOfShapes ss with
    | none => rw [hb] at hc; cases hc
    | some b => rw [hb] at hc; cases hc; rfl
  unfold Simple.intersect Simple.intersectP
  rw [hcs]
  cases hb : c.bbox.intersect ray with
  | none => exact ⟨none, rfl, rfl⟩
  | some t =>
    rcases (anyHit_closestHit ray.origin ray.direction ss ray.tMax ha).2 with ⟨h1, h2⟩ | ⟨h1, h2⟩
    · have h2' : closestHit ss ray none = _ := h2 none
      have h1' : anyHit ray ss = _ := h1
      exact ⟨none, by simp [h2'], by simp [h1']⟩
    · obtain ⟨tm', h', h2⟩ := h2 none
      have h2' : closestHit ss ray none = _ := h2
      have h1' : anyHit ray ss = _ := h1
      exact ⟨some h', by simp [h2'], by simp [h1']⟩
end

/-! ### A concrete lawful shape -/

namespace Demo
/-- A square plate at height `z` that rays coming from height `-1` along the z axis hit at parameter `z + 1`. -/
def plate (z : Nat) : Shape XQ :=
  let t : XQ := .fin false (z + 1)
  let hit (ray : Ray XQ) := lt t ray.tMax
  Shape.withDefaults ⟨⟨.fin false 0, .fin false 0, .fin false z⟩, ⟨.fin false 1, .fin false 1, .fin false z⟩⟩ (.fin false 1)
    (fun ray => some (hit ray)) (fun ray => some (if hit ray then some (Interaction.default, t) else none))
    (fun i => ⟨[], i.n, i.n, i.dpdu, i.dpdv⟩) (fun _ => none)
/-- Some plates. -/
def plates (n : Nat) : List (Obj XQ) := (List.range n).reverse.map fun k => ⟨k, plate k⟩
/-- A ray up through the middle of the plates. -/
def up : Ray XQ := ⟨⟨.fin false (1/2), .fin false (1/2), .fin true 1⟩, ⟨.fin false 0, .fin false 0, .fin false 1⟩, .inf false⟩

theorem plate_reports (z : Nat) (ray : Ray XQ) (i : Interaction XQ) (t : XQ) :
    Reports (plate z) ray i t ↔ lt t ray.tMax = true ∧ i = Interaction.default ∧ t = .fin false (z + 1) := by
  unfold Reports plate Shape.withDefaults
  dsimp only
  constructor
  · intro h
    split_ifs at h with hc
    swap
    · simp at h
    simp only [Option.some.injEq, Prod.mk.injEq] at h
    obtain ⟨rfl, rfl⟩ := h
    exact ⟨hc, rfl, rfl⟩
  · rintro ⟨h, rfl, rfl⟩
    rw [if_pos h]

theorem plate_lawful (z : Nat) (o d : V3 XQ) : LawfulAlong (plate z) o d where
  answers := by intro tm; simp [plate, Shape.withDefaults]
  inRange := by intro tm i t _ h; exact le_of_lt' ((plate_reports _ _ _ _).1 h).1
  shrink := by
    intro tm tm' i t h _ h'
    obtain ⟨_, a, b⟩ := (plate_reports _ _ _ _).1 h
    exact (plate_reports _ _ _ _).2 ⟨h', a, b⟩
  grow := by
    intro tm tm' i t h h'
    obtain ⟨c, a, b⟩ := (plate_reports _ _ _ _).1 h
    exact (plate_reports _ _ _ _).2 ⟨lt_of_lt_of_le' c h', a, b⟩

theorem plate_agrees (z : Nat) (o d : V3 XQ) : AgreesAlong (plate z) o d := by
  intro tm
  refine ⟨_, rfl, ?_⟩
  simp only [plate, Shape.withDefaults]
  split_ifs with h <;> simp [h]
end Demo
open Demo

/-- Five plates, listed from the farthest: the hypotheses of `c27_simple_closest` and `c30_simple` hold, the box is hit and the
nearest plate (address 0) is reported. -/
example : ∃ c, Simple.new (plates 5) = some c ∧ up.tMax ≠ nan ∧
    (∀ s ∈ plates 5, LawfulAlong s.shape up.origin up.direction ∧ AgreesAlong s.shape up.origin up.direction) ∧
    (c.bbox.intersect up).isSome = true ∧ (c.intersect up).map (fun r => r.map fun h => h.obj.addr) = some (some 0) ∧
    c.intersectP up = some true := by
  refine ⟨_, rfl, by simp [up], ?_, by decide +kernel, by decide +kernel, by decide +kernel⟩
  intro s hs
  simp only [plates, List.mem_map] at hs
  obtain ⟨k, _, rfl⟩ := hs
  exact ⟨plate_lawful k _ _, plate_agrees k _ _⟩

/-- C33 on five plates: the common box is the unit square from height 0 to 4. -/
example : (bboxOfShapes (plates 5)).map (fun b => (b.min, b.max)) =
      some (⟨.fin false 0, .fin false 0, .fin false 0⟩, ⟨.fin false 1, .fin false 1, .fin false 4⟩) ∧
    ∀ s ∈ plates 5, NoNaN s.shape.bbox := by
  refine ⟨by decide +kernel, ?_⟩
  intro s hs
  simp only [plates, List.mem_map] at hs
  obtain ⟨k, _, rfl⟩ := hs
  exact ⟨fun a => by cases a <;> simp [plate, Shape.withDefaults, V3.get], fun a => by cases a <;> simp [plate, Shape.withDefaults, V3.get]⟩

end PT
