import Verif.Lemmas.Sweep.Kinetic
import Verif.Lemmas.Sweep.Cuts
import Mathlib.Data.List.Chain
import Mathlib.Data.List.Pairwise

/-! The order of the pieces on the sweep line. -/

set_option linter.unusedSectionVars false

namespace Orient.sweepLine

variable {K : Type} [Field K] [LinearOrder K] [IsStrictOrderedRing K]

/-! ### searching in a sorted list -/

/-- The elements of the list are less than the event. -/
def AllBelow (context : Context K) (s : State K) (i : Nat) (l : List Nat) : Prop :=
  ∀ n ∈ l, lt context s i n = false ∧ lt context s n i = true

theorem contains_split {context : Context K} {s : State K} {i : Nat} {l₁ l₂ : List Nat}
    (h : AllBelow context s i l₁) : contains context s i (l₁ ++ i :: l₂) = true := by
  induction l₁ with
  | nil => simp [contains, lt_irrefl]
  | cons n l ih =>
    obtain ⟨h1, h2⟩ := h n (List.mem_cons_self ..)
    simp only [List.cons_append, contains, h1, h2, Bool.false_eq_true, if_false, if_true]
    exact ih fun m hm => h m (List.mem_cons_of_mem _ hm)

theorem remove_split {context : Context K} {s : State K} {i : Nat} {l₁ l₂ : List Nat}
    (h : AllBelow context s i l₁) : remove context s i (l₁ ++ i :: l₂) = l₁ ++ l₂ := by
  induction l₁ with
  | nil => simp [remove, lt_irrefl]
  | cons n l ih =>
    obtain ⟨h1, h2⟩ := h n (List.mem_cons_self ..)
    simp only [List.cons_append, remove, h1, h2, Bool.false_eq_true, if_false, if_true]
    rw [ih fun m hm => h m (List.mem_cons_of_mem _ hm)]

theorem above_split {context : Context K} {s : State K} {i : Nat} {l₁ l₂ : List Nat}
    (h : AllBelow context s i l₁) : above context s i (l₁ ++ i :: l₂) = l₂.head? := by
  induction l₁ with
  | nil => simp [above, lt_irrefl]
  | cons n l ih =>
    obtain ⟨h1, h2⟩ := h n (List.mem_cons_self ..)
    simp only [List.cons_append, above, h1, h2, Bool.false_eq_true, if_false, if_true]
    rw [ih fun m hm => h m (List.mem_cons_of_mem _ hm)]

theorem belowFrom_split {context : Context K} {s : State K} {i : Nat} {l₁ l₂ : List Nat}
    (h : AllBelow context s i l₁) (prev : Option Nat) :
    belowFrom context s i prev (l₁ ++ i :: l₂) = l₁.getLast?.or prev := by
  induction l₁ generalizing prev with
  | nil => simp [belowFrom, lt_irrefl]
  | cons n l ih =>
    obtain ⟨h1, h2⟩ := h n (List.mem_cons_self ..)
    simp only [List.cons_append, belowFrom, h1, h2, Bool.false_eq_true, if_false, if_true]
    rw [ih (fun m hm => h m (List.mem_cons_of_mem _ hm))]
    cases l with
    | nil => simp
    | cons m l => simp [List.getLast?_cons]

theorem below_split {context : Context K} {s : State K} {i : Nat} {l₁ l₂ : List Nat}
    (h : AllBelow context s i l₁) : below context s i (l₁ ++ i :: l₂) = l₁.getLast? := by
  rw [below, belowFrom_split h, Option.or_none]

/-- A new event is put between the less and the greater ones. -/
theorem add_split {context : Context K} {s : State K} {i : Nat} {line : List Nat}
    (h : ∀ n ∈ line, lt context s i n = true ∨ lt context s n i = true) :
    ∃ l₁ l₂, line = l₁ ++ l₂ ∧ add context s i line = l₁ ++ i :: l₂ ∧ AllBelow context s i l₁ ∧
      ∀ a ∈ l₂.head?, lt context s i a = true := by
  induction line with
  | nil => exact ⟨[], [], rfl, rfl, by simp [AllBelow], by simp⟩
  | cons n line ih =>
    simp only [add]
    by_cases h1 : lt context s i n = true
    · exact ⟨[], n :: line, rfl, by simp [h1], by simp [AllBelow], by simpa using h1⟩
    · have h2 := (h n (List.mem_cons_self ..)).resolve_left h1
      obtain ⟨l₁, l₂, e1, e2, e3, e4⟩ := ih fun m hm => h m (List.mem_cons_of_mem _ hm)
      refine ⟨n :: l₁, l₂, by rw [e1]; rfl, ?_, ?_, e4⟩
      · rw [if_neg h1, if_pos h2, e2]; rfl
      · intro m hm
        rcases List.mem_cons.mp hm with rfl | hm
        · exact ⟨by simpa using h1, h2⟩
        · exact e3 m hm

end Orient.sweepLine

namespace Orient.State

variable {K : Type} [Field K] [LinearOrder K] [IsStrictOrderedRing K]

open Segment

/-- The inclination respects the order of all the points the sweep can meet. -/
structure Clock (ε : K) (P : Finset (Point K)) (s : State K) : Prop where
  wf : s.WF
  points : BreakPoints s P
  mono : ∀ p ∈ P, ∀ q ∈ P, p < q → p.time ε < q.time ε

section

variable {ε : K} {P : Finset (Point K)} {s : State K} (c : Clock ε P s)

include c

theorem Clock.lt_iff {p q : Point K} (hp : p ∈ P) (hq : q ∈ P) :
    p.time ε < q.time ε ↔ p < q := by
  refine ⟨fun h => ?_, c.mono p hp q hq⟩
  rcases lt_trichotomy p q with e | e | e
  · exact e
  · rw [e] at h; exact absurd h (lt_irrefl _)
  · exact absurd (c.mono q hq p hp e) h.asymm

theorem Clock.le_iff {p q : Point K} (hp : p ∈ P) (hq : q ∈ P) :
    p.time ε ≤ q.time ε ↔ p ≤ q := by
  rw [← not_lt, c.lt_iff hq hp, not_lt]

theorem Clock.eq_iff {p q : Point K} (hp : p ∈ P) (hq : q ∈ P) :
    p.time ε = q.time ε ↔ p = q := by
  rw [le_antisymm_iff, c.le_iff hp hq, c.le_iff hq hp, ← le_antisymm_iff]

theorem Clock.times {i : Nat} (hi : i < s.nextLeft) :
    (s.seg i).start.time ε < (s.seg i).finish.time ε :=
  c.mono _ (c.points.start i hi) _ (c.points.finish i hi) (c.wf.lt i hi)

theorem Clock.same_iff {i j : Nat} (hi : i < s.nextLeft) (hj : j < s.nextLeft) :
    Same ε (s.seg i) (s.seg j) ↔ (s.seg i).Collinear (s.seg j) := by
  have h1 := c.times hi
  have h2 := c.times hj
  have pos : (s.seg i).finish.time ε - (s.seg i).start.time ε ≠ 0 := by linarith
  have key : ∀ q, Orient.cross (s.seg i).start (s.seg i).finish q = 0 ↔
      q.y = (s.seg i).height ε (q.time ε) := by
    intro q
    rw [cross_eq_height h1, mul_eq_zero, or_iff_right pos, sub_eq_zero]
  constructor
  · intro h
    refine ⟨(key _).mpr ?_, (key _).mpr ?_⟩
    · rw [h.at, height_start]
    · rw [h.at, height_finish h2]
  · rintro ⟨h3, h4⟩
    exact same_of_endpoints h2 ((key _).mp h3) ((key _).mp h4)

/-- A common point of two pieces which are not on a line is one of the known points. -/
theorem Clock.mem {i j : Nat} (hi : i < s.nextLeft) (hj : j < s.nextLeft)
    (hn : ¬ Same ε (s.seg i) (s.seg j)) {x : Point K} (hx : x ∈ (s.seg i).pts)
    (hx' : x ∈ (s.seg j).pts) : x ∈ P :=
  c.points.common i hi j hj (fun h => hn ((c.same_iff hi hj).mpr h)) x hx hx'

/-- A point at the height of a piece between its ends is on it. -/
theorem Clock.mem_pts {i : Nat} (hi : i < s.nextLeft) {x : Point K} (hx : x ∈ P)
    (h1 : (s.lefts i).start ≤ x) (h2 : x ≤ s.leftEnd i)
    (hy : x.y = (s.seg i).height ε (x.time ε)) : x ∈ (s.seg i).pts :=
  (mem_pts_iff_height (c.times hi) x).mpr ⟨(c.le_iff (c.points.start i hi) hx).mpr h1,
    (c.le_iff hx (c.points.finish i hi)).mpr h2, hy⟩

theorem Clock.height {i : Nat} (hi : i < s.nextLeft) {x : Point K} (hx : x ∈ (s.seg i).pts) :
    x.y = (s.seg i).height ε (x.time ε) := ((mem_pts_iff_height (c.times hi) x).mp hx).2.2

theorem Clock.start_le {i : Nat} (hi : i < s.nextLeft) {x : Point K} (hx : x ∈ (s.seg i).pts) :
    (s.lefts i).start ≤ x := c.wf.lo_seg hi ▸ lo_le hx

theorem Clock.le_end {i : Nat} (hi : i < s.nextLeft) {x : Point K} (hx : x ∈ (s.seg i).pts) :
    x ≤ s.leftEnd i := c.wf.hi_seg hi ▸ le_hi hx

/-- Two pieces on different lines with the same height at some time of theirs have a common point. -/
theorem Clock.common {i j : Nat} (hi : i < s.nextLeft) (hj : j < s.nextLeft)
    (hn : ¬ Same ε (s.seg i) (s.seg j)) {t : K} (hi1 : (s.lefts i).start.time ε ≤ t)
    (hi2 : t ≤ (s.leftEnd i).time ε) (hj1 : (s.lefts j).start.time ε ≤ t)
    (hj2 : t ≤ (s.leftEnd j).time ε)
    (h : (s.seg i).height ε t = (s.seg j).height ε t) :
    ∃ x ∈ P, x.time ε = t ∧ x ∈ (s.seg i).pts ∧ x ∈ (s.seg j).pts := by
  have m1 := pointAt_mem (c.times hi) hi1 hi2
  have e : (s.seg j).pointAt ε t = (s.seg i).pointAt ε t := by
    unfold pointAt; rw [h]
  have m2 := pointAt_mem (c.times hj) hj1 hj2
  rw [e] at m2
  exact ⟨_, c.mem hi hj hn m1 m2, pointAt_time _ _, m1, m2⟩

end

theorem Clock.elems {ε : K} {P : Finset (Point K)} {s s' : State K} (c : Clock ε P s)
    (h : Elems s s') : Clock ε P s' :=
  ⟨h.wf c.wf, (h.potential c.wf c.points).1, c.mono⟩

theorem Clock.pop {ε : K} {P : Finset (Point K)} {s : State K} (c : Clock ε P s) (e : Ev) :
    Clock ε P (eventsQueue.popped s e) :=
  ⟨pop_wf c.wf e, ⟨c.points.start, c.points.finish, c.points.common⟩, c.mono⟩

/-- Divided pieces stay on their lines. -/
theorem Clock.same {ε : K} {P : Finset (Point K)} {s s' : State K} (c : Clock ε P s)
    (h : Elems s s') {i : Nat} (hi : i < s.nextLeft) : Same ε (s.seg i) (s'.seg i) := by
  have hs := h.runs.seg_subset c.wf hi
  exact same_of_subset (c.times hi) ((c.elems h).times (lt_of_lt_of_le hi h.nextLeft_le.1))
    (hs (start_mem _)) (hs (finish_mem _))

/-! ### relations between pieces -/

/-- Pieces on a line, the first one of the test operand and the second one of the goal operand. -/
def Cls (ε : K) (s : State K) (i j : Nat) : Prop :=
  Same ε (s.seg i) (s.seg j) ∧ (s.lefts i).fromTest = true ∧ (s.lefts j).fromTest = false

/-- The order on the sweep line immediately after the time. -/
def Aft (ε : K) (s : State K) (t : K) (i j : Nat) : Prop :=
  Cls ε s i j ∨ After ε t (s.seg i) (s.seg j)

/-- The order on the sweep line immediately before the time. -/
def Bef (ε : K) (s : State K) (t : K) (i j : Nat) : Prop :=
  Cls ε s i j ∨ Before ε t (s.seg i) (s.seg j)

theorem Aft.strict {ε t : K} {s : State K} {i j k : Nat} (h : Aft ε s t i j) (h' : Aft ε s t j k) :
    After ε t (s.seg i) (s.seg k) := by
  rcases h with ⟨h, h1, h2⟩ | h <;> rcases h' with ⟨h', h1', h2'⟩ | h'
  · rw [h1'] at h2; cases h2
  · exact h'.congr h.symm (.refl _)
  · exact h.congr (.refl _) h'
  · exact h.trans h'

theorem Aft.trans {ε t : K} {s : State K} {i j k : Nat} (h : Aft ε s t i j) (h' : Aft ε s t j k) :
    Aft ε s t i k := .inr (h.strict h')

theorem Bef.strict {ε t : K} {s : State K} {i j k : Nat} (h : Bef ε s t i j) (h' : Bef ε s t j k) :
    Before ε t (s.seg i) (s.seg k) := by
  rcases h with ⟨h, h1, h2⟩ | h <;> rcases h' with ⟨h', h1', h2'⟩ | h'
  · rw [h1'] at h2; cases h2
  · exact h'.congr h.symm (.refl _)
  · exact h.congr (.refl _) h'
  · exact h.trans h'

theorem Bef.trans {ε t : K} {s : State K} {i j k : Nat} (h : Bef ε s t i j) (h' : Bef ε s t j k) :
    Bef ε s t i k := .inr (h.strict h')

theorem Aft.height_le {ε t : K} {s : State K} {i j : Nat} (h : Aft ε s t i j) :
    (s.seg i).height ε t ≤ (s.seg j).height ε t := by
  rcases h with ⟨h, -⟩ | h | ⟨h, -⟩
  · exact (h.at t).le
  · exact h.le
  · exact h.le

theorem Bef.height_le {ε t : K} {s : State K} {i j : Nat} (h : Bef ε s t i j) :
    (s.seg i).height ε t ≤ (s.seg j).height ε t := by
  rcases h with ⟨h, -⟩ | h | ⟨h, -⟩
  · exact (h.at t).le
  · exact h.le
  · exact h.le

section

variable {ε : K} {P : Finset (Point K)} {s s' : State K} (c : Clock ε P s) (h : Elems s s')
  {i j : Nat} (hi : i < s.nextLeft) (hj : j < s.nextLeft)

include c h hi hj

theorem Clock.same_congr : Same ε (s'.seg i) (s'.seg j) ↔ Same ε (s.seg i) (s.seg j) :=
  ⟨fun hs => ((c.same h hi).trans hs).trans (c.same h hj).symm,
    fun hs => ((c.same h hi).symm.trans hs).trans (c.same h hj)⟩

theorem Clock.cls (hc : Cls ε s i j) : Cls ε s' i j :=
  ⟨(c.same_congr h hi hj).mpr hc.1, (h.evStart c.wf (e := .left i) hi).2.trans hc.2.1,
    (h.evStart c.wf (e := .left j) hj).2.trans hc.2.2⟩

theorem Clock.aft {t : K} (ha : Aft ε s t i j) : Aft ε s' t i j :=
  ha.imp (c.cls h hi hj) fun ha => ha.congr (c.same h hi) (c.same h hj)

theorem Clock.bef {t : K} (ha : Bef ε s t i j) : Bef ε s' t i j :=
  ha.imp (c.cls h hi hj) fun ha => ha.congr (c.same h hi) (c.same h hj)

end

/-- The order used by the comparison of the sweep line. -/
def Key (ε : K) (s : State K) (i j : Nat) : Prop :=
  Aft ε s (max ((s.lefts i).start.time ε) ((s.lefts j).start.time ε)) i j

/-- How the comparison of the sweep line sees two pieces which exist at the same time. -/
theorem Clock.lt_of_key {ε : K} {P : Finset (Point K)} {s : State K} (c : Clock ε P s)
    {context : Context K} (hc : context.Exact) {i j : Nat} (hi : i < s.nextLeft)
    (hj : j < s.nextLeft) (hij : i ≠ j) (h1 : (s.lefts j).start ≤ s.leftEnd i)
    (h2 : (s.lefts i).start ≤ s.leftEnd j) (hk : Key ε s i j) :
    sweepLine.lt context s i j = true ∧ sweepLine.lt context s j i = false := by
  have Pi := c.points.start i hi
  have Pj := c.points.start j hj
  have Qi := c.points.finish i hi
  have Qj := c.points.finish j hj
  have e1 := sweepLine.lt_iff hc (ε := ε) hij (c.times hi) (c.times hj) ((c.le_iff Pj Qi).mpr h1)
    ((c.le_iff Pi Qj).mpr h2) (c.eq_iff Pj Qi).mp (c.eq_iff Pi Qj).mp
  have e2 := sweepLine.lt_iff hc (ε := ε) hij.symm (c.times hj) (c.times hi)
    ((c.le_iff Pi Qj).mpr h2) ((c.le_iff Pj Qi).mpr h1) (c.eq_iff Pi Qj).mp (c.eq_iff Pj Qi).mp
  rw [max_comm] at e2
  rw [e1, ← Bool.not_eq_true, e2]
  rcases hk with ⟨k1, k2, k3⟩ | hk
  · refine ⟨.inl ⟨k1, k2⟩, ?_⟩
    rintro (⟨-, h⟩ | h)
    · rw [k3] at h; cases h
    · exact h.not_same k1.symm
  · refine ⟨.inr hk, ?_⟩
    rintro (⟨h, -⟩ | h)
    · exact hk.not_same h.symm
    · exact hk.not_symm h

theorem Clock.key_of_lt {ε : K} {P : Finset (Point K)} {s : State K} (c : Clock ε P s)
    {context : Context K} (hc : context.Exact) {i j : Nat} (hi : i < s.nextLeft)
    (hj : j < s.nextLeft) (hij : i ≠ j) (h1 : (s.lefts j).start ≤ s.leftEnd i)
    (h2 : (s.lefts i).start ≤ s.leftEnd j)
    (hf : Same ε (s.seg i) (s.seg j) → (s.lefts i).fromTest ≠ (s.lefts j).fromTest)
    (h : sweepLine.lt context s i j = true) : Key ε s i j := by
  by_cases hs : Same ε (s.seg i) (s.seg j)
  · cases hfi : (s.lefts i).fromTest with
    | true =>
      refine .inl ⟨hs, hfi, ?_⟩
      have := hf hs
      rw [hfi] at this
      simpa using this.symm
    | false =>
      have hfj : (s.lefts j).fromTest = true := by
        have := hf hs
        rw [hfi] at this
        simpa using this.symm
      have := (c.lt_of_key hc hj hi hij.symm h2 h1 (.inl ⟨hs.symm, hfj, hfi⟩)).2
      rw [h] at this; cases this
  · rcases after_total (t := max ((s.lefts i).start.time ε) ((s.lefts j).start.time ε)) hs
      with h' | h'
    · exact .inr h'
    · have := (c.lt_of_key hc hj hi hij.symm h2 h1 (.inr (by rw [max_comm]; exact h'))).2
      rw [h] at this; cases this

theorem Clock.lt_total {ε : K} {P : Finset (Point K)} {s : State K} (c : Clock ε P s)
    {context : Context K} (hc : context.Exact) {i j : Nat} (hi : i < s.nextLeft)
    (hj : j < s.nextLeft) (hij : i ≠ j) (h1 : (s.lefts j).start ≤ s.leftEnd i)
    (h2 : (s.lefts i).start ≤ s.leftEnd j)
    (hf : Same ε (s.seg i) (s.seg j) → (s.lefts i).fromTest ≠ (s.lefts j).fromTest) :
    sweepLine.lt context s i j = true ∨ sweepLine.lt context s j i = true := by
  by_cases hs : Same ε (s.seg i) (s.seg j)
  · cases hfi : (s.lefts i).fromTest with
    | true =>
      refine .inl (c.lt_of_key hc hi hj hij h1 h2 (.inl ⟨hs, hfi, ?_⟩)).1
      have := hf hs
      rw [hfi] at this
      simpa using this.symm
    | false =>
      refine .inr (c.lt_of_key hc hj hi hij.symm h2 h1 (.inl ⟨hs.symm, ?_, hfi⟩)).1
      have := hf hs
      rw [hfi] at this
      simpa using this.symm
  · rcases after_total (t := max ((s.lefts i).start.time ε) ((s.lefts j).start.time ε)) hs
      with h' | h'
    · exact .inl (c.lt_of_key hc hi hj hij h1 h2 (.inr h')).1
    · exact .inr (c.lt_of_key hc hj hi hij.symm h2 h1 (.inr (by rw [max_comm]; exact h'))).1

end Orient.State
