import Verif.Lemmas.Sweep.Run

/-! What holds at every moment of a sweep, whatever the input is. -/

set_option linter.unusedSectionVars false

namespace Orient.eventsQueue

variable {K : Type} [Field K] [LinearOrder K] [IsStrictOrderedRing K]

open Segment State

theorem least_mem (context : Context K) (s : State K) (best : Ev) (l : List Ev) :
    least context s best l ∈ best :: l := by
  induction l generalizing best with
  | nil => simp [least]
  | cons e l ih =>
    rw [least]
    rcases List.mem_cons.mp (ih (if keyLt context s e best then e else best)) with h | h
    · rw [h]; split <;> simp
    · exact List.mem_cons_of_mem _ (List.mem_cons_of_mem _ h)

theorem peek?_mem {context : Context K} {s : State K} {e : Ev} (h : peek? context s = some e) :
    e ∈ s.queue := by
  unfold peek? at h
  split at h
  · cases h
  · next hq =>
    simp only [Option.some.injEq] at h
    rw [hq, ← h]; exact least_mem ..

theorem keyLt_start (context : Context K) (s : State K) {e e' : Ev} (h : keyLt context s e e' = true) :
    s.evStart e ≤ s.evStart e' := by
  by_cases hne : s.evStart e = s.evStart e'
  · exact hne.le
  · rw [keyLt_of_ne context s hne, decide_eq_true_eq] at h
    exact h.le

theorem keyLt_of_lt (context : Context K) (s : State K) {e e' : Ev}
    (h : s.evStart e < s.evStart e') : keyLt context s e e' = true := by
  rw [keyLt_of_ne context s h.ne, decide_eq_true_eq]; exact h

/-- The preferred event starts first. -/
theorem least_le (context : Context K) (s : State K) (best : Ev) (l : List Ev) :
    ∀ e ∈ best :: l, s.evStart (least context s best l) ≤ s.evStart e := by
  induction l generalizing best with
  | nil => simp [least]
  | cons e l ih =>
    intro x hx
    rw [least]
    have ih := ih (if keyLt context s e best then e else best)
    have h1 : s.evStart (if keyLt context s e best then e else best) ≤ s.evStart e := by
      split
      · exact le_rfl
      · next hn =>
        by_contra hlt
        exact hn (keyLt_of_lt context s (not_le.mp hlt))
    have h2 : s.evStart (if keyLt context s e best then e else best) ≤ s.evStart best := by
      split
      · next hk => exact keyLt_start context s hk
      · exact le_rfl
    have h0 := ih _ (List.mem_cons_self ..)
    rcases List.mem_cons.mp hx with rfl | hx
    · exact h0.trans h2
    · rcases List.mem_cons.mp hx with rfl | hx
      · exact h0.trans h1
      · exact ih x (List.mem_cons_of_mem _ hx)

theorem peek?_le {context : Context K} {s : State K} {e : Ev} (h : peek? context s = some e) :
    ∀ e' ∈ s.queue, s.evStart e ≤ s.evStart e' := by
  unfold peek? at h
  split at h
  · cases h
  · next hq =>
    simp only [Option.some.injEq] at h
    rw [hq, ← h]; exact least_le context s _ _

theorem peek?_none {context : Context K} {s : State K} (h : peek? context s = none) :
    s.queue = [] := by
  unfold peek? at h
  split at h
  · assumption
  · cases h

/-- The state without an event in the queue. -/
def popped (s : State K) (e : Ev) : State K := { s with queue := s.queue.erase e }

/-- The invariant of the loop. -/
structure Inv (c : Config K) : Prop where
  wf : c.s.WF
  line : LineOK c.s c.line
  group : ∀ p, c.start = some p → GroupOK c.s p c.group
  empty : c.start = none → c.group = []

theorem Inv.groupOK {c : Config K} (h : Inv c) : ∃ p, GroupOK c.s p c.group := by
  cases hs : c.start with
  | none => exact ⟨⟨0, 0⟩, by rw [h.empty hs]; simp [GroupOK]⟩
  | some p => exact ⟨p, h.group p hs⟩

/-- The parts of an iteration. -/
structure Iteration (linear : Bool) (context : Context K) (stopX : K) (c : Config K) (e : Ev)
    (ems : List (Emitted K)) (t : State K) (start : Option (Point K)) (group : List Ev) : Prop where
  peek : peek? context c.s = some e
  le : (c.s.evStart e).x ≤ stopX
  closed : (some (c.s.evStart e) = c.start ∧ ems = [] ∧ t = popped c.s e ∧ start = c.start ∧
      group = c.group ++ [e]) ∨
    (some (c.s.evStart e) ≠ c.start ∧ ems = (closeGroup linear context (popped c.s e) c.group).1 ∧
      t = (closeGroup linear context (popped c.s e) c.group).2 ∧ start = some (t.evStart e) ∧
      group = [e])

theorem sweepStep_some {linear : Bool} {context : Context K} {stopX : K} {c : Config K}
    {ems : List (Emitted K)} {r : Py (Config K)}
    (h : sweepStep linear context stopX c = some (ems, r)) :
    ∃ e t start group, Iteration linear context stopX c e ems t start group ∧
      r = (handle linear context t c.line e).map fun q => ⟨q.1, q.2, start, group⟩ := by
  unfold sweepStep at h
  split at h
  · cases h
  · next e hp =>
    split at h
    · cases h
    · next hx =>
      simp only [Option.some.injEq, Prod.mk.injEq] at h
      obtain ⟨rfl, rfl⟩ := h
      by_cases hs : some (c.s.evStart e) = c.start
      · refine ⟨e, popped c.s e, c.start, c.group ++ [e], ⟨hp, not_lt.mp hx, .inl ⟨hs, ?_, rfl, rfl, rfl⟩⟩, ?_⟩
        · have hs' : some (State.evStart (popped c.s e) e) = c.start := hs
          simp only [popped] at hs'
          simp [hs']
        · have hs' : some (State.evStart (popped c.s e) e) = c.start := hs
          simp only [popped] at hs'
          simp [hs', popped]
      · have hs' : ¬ some (State.evStart (popped c.s e) e) = c.start := hs
        simp only [popped] at hs'
        refine ⟨e, _, _, [e], ⟨hp, not_lt.mp hx, .inr ⟨hs, ?_, rfl, rfl, rfl⟩⟩, ?_⟩
        · simp [hs', popped]
        · simp [hs', popped]

theorem Iteration.rels {linear : Bool} {context : Context K} {stopX : K} {c : Config K} {e : Ev}
    {ems : List (Emitted K)} {t : State K} {start : Option (Point K)} {group : List Ev}
    (h : Iteration linear context stopX c e ems t start group) (hi : Inv c) :
    Rels (popped c.s e) t := by
  rcases h.closed with ⟨-, -, rfl, -⟩ | ⟨-, -, rfl, -⟩
  · exact .refl _
  · obtain ⟨p, hp⟩ := hi.groupOK
    exact (closeGroup_spec linear context (pop_wf hi.wf e)
      (show GroupOK (popped c.s e) p c.group from hp)).1

theorem Iteration.runs {linear : Bool} {context : Context K} {stopX : K} {c : Config K} {e : Ev}
    {ems : List (Emitted K)} {t : State K} {start : Option (Point K)} {group : List Ev}
    (h : Iteration linear context stopX c e ems t start group) (hi : Inv c) : Runs c.s t :=
  ((Runs.refl _).pop e (peek?_mem h.peek)).trans (h.rels hi).elems.runs

theorem Iteration.valid {linear : Bool} {context : Context K} {stopX : K} {c : Config K} {e : Ev}
    {ems : List (Emitted K)} {t : State K} {start : Option (Point K)} {group : List Ev}
    (h : Iteration linear context stopX c e ems t start group) (hi : Inv c) : t.Valid e :=
  (h.runs hi).valid (hi.wf.valid_of_mem (peek?_mem h.peek))

theorem Iteration.notMem {linear : Bool} {context : Context K} {stopX : K} {c : Config K} {e : Ev}
    {ems : List (Emitted K)} {t : State K} {start : Option (Point K)} {group : List Ev}
    (h : Iteration linear context stopX c e ems t start group) (hi : Inv c) : e ∉ t.queue := by
  refine Elems.not_mem (h.rels hi).elems ?_ ?_
  · exact hi.wf.valid_of_mem (peek?_mem h.peek)
  · exact fun hm => (List.Nodup.mem_erase_iff hi.wf.nodup).mp hm |>.1 rfl

theorem Iteration.notLine {linear : Bool} {context : Context K} {stopX : K} {c : Config K} {e : Ev}
    {ems : List (Emitted K)} {t : State K} {start : Option (Point K)} {group : List Ev}
    (h : Iteration linear context stopX c e ems t start group) (hi : Inv c) :
    ∀ i, e = .left i → i ∉ c.line := by
  rintro i rfl hm
  exact hi.line.notMem i hm (peek?_mem h.peek)

theorem Iteration.groupOK {linear : Bool} {context : Context K} {stopX : K} {c : Config K} {e : Ev}
    {ems : List (Emitted K)} {t : State K} {start : Option (Point K)} {group : List Ev}
    (h : Iteration linear context stopX c e ems t start group) (hi : Inv c) :
    start = some (c.s.evStart e) ∧ GroupOK t (c.s.evStart e) group := by
  have hv := hi.wf.valid_of_mem (peek?_mem h.peek)
  have he := (h.runs hi).evStart hi.wf hv
  rcases h.closed with ⟨h1, -, rfl, h2, h3⟩ | ⟨-, -, -, h2, h3⟩
  · refine ⟨h2.trans h1.symm, fun x hx => ?_⟩
    rw [h3, List.mem_append] at hx
    rcases hx with hx | hx
    · exact hi.group _ h1.symm x hx
    · rw [List.mem_singleton] at hx
      subst hx
      exact ⟨hv, rfl⟩
  · refine ⟨by rw [h2, he.1], fun x hx => ?_⟩
    rw [h3, List.mem_singleton] at hx
    subst hx
    exact ⟨h.valid hi, he.1⟩

/-- How an iteration ends. -/
def StepOutcome (c : Config K) : Py (Config K) → Prop
  | .ok d => Inv d ∧ ∃ e ∈ c.s.queue, Elems (popped c.s e) d.s
  | .error e => e = .valueError ∧ ∃ t, Runs c.s t ∧ Clash t

/-- One iteration keeps the invariant; exactly one event is popped, everything else is divisions and
assignments to flags; an error means that two pieces of one operand overlap. -/
theorem sweepStep_spec {linear : Bool} {context : Context K} (hc : context.Exact) {stopX : K}
    {c : Config K} (hi : Inv c) {ems : List (Emitted K)} {r : Py (Config K)}
    (h : sweepStep linear context stopX c = some (ems, r)) :
    StepOutcome c r := by
  obtain ⟨e, t, start, group, it, rfl⟩ := sweepStep_some h
  have hw := (it.runs hi).wf hi.wf
  have hl := hi.line.of_runs (it.runs hi)
  obtain ⟨h1, h2⟩ := handle_spec linear hc hw hl (it.valid hi) (it.notLine hi)
  obtain ⟨g1, g2⟩ := it.groupOK hi
  cases hr : handle linear context t c.line e with
  | error err =>
    rw [hr] at h1
    obtain ⟨h3, u, hu⟩ := h1
    exact ⟨h3, u, (it.runs hi).trans hu.1.runs, hu.2⟩
  | ok q =>
    rw [hr] at h1 h2
    have h1 : Elems t q.1 := h1
    have h2 := h2 q rfl
    refine ⟨⟨h1.wf hw, ?_, ?_, ?_⟩, e, peek?_mem it.peek, (it.rels hi).elems.trans h1⟩
    · simp only [h2]
      refine LineOK.of_elems ?_ h1
      cases e with
      | left i => exact hl.add (it.valid hi) (it.notMem hi) (it.notLine hi i rfl)
      | right r =>
        simp only [lineAfter]
        split
        · exact hl.sublist (sweepLine.remove_sublist ..)
        · exact hl
    · intro p hp
      simp only [g1, Option.some.injEq] at hp
      exact hp ▸ g2.of_elems hw h1
    · intro hn
      simp [g1] at hn

theorem Reaches.inv {linear : Bool} {context : Context K} (hc : context.Exact) {stopX : K}
    {c d : Config K} {ems : List (Emitted K)} (h : Reaches linear context stopX c ems d)
    (hi : Inv c) : Inv d ∧ Runs c.s d.s := by
  induction h with
  | refl => exact ⟨hi, .refl _⟩
  | tail _ h2 ih =>
    obtain ⟨h3, e, he, h4⟩ := sweepStep_spec hc ih.1 h2
    exact ⟨h3, (ih.2.pop e he).trans h4.runs⟩

end Orient.eventsQueue
