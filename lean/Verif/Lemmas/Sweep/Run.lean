import Verif.Lemmas.Sweep.Detect

/-! The loop of a sweep as a sequence of steps. -/

set_option linter.unusedSectionVars false

namespace Orient.sweepLine

variable {K : Type} [Field K] [LinearOrder K] [IsStrictOrderedRing K]

/-! ### what holds for the sweep line whatever the comparison is -/

theorem mem_of_mem_add {context : Context K} {s : State K} {i j : Nat} {line : List Nat}
    (h : j ∈ add context s i line) : j = i ∨ j ∈ line := by
  induction line with
  | nil => simpa [add] using h
  | cons n line ih =>
    simp only [add] at h
    split_ifs at h
    · simpa using h
    · rcases List.mem_cons.mp h with rfl | h
      · exact .inr (List.mem_cons_self ..)
      · rcases ih h with h | h
        · exact .inl h
        · exact .inr (List.mem_cons_of_mem _ h)
    · exact .inr h

theorem nodup_add {context : Context K} {s : State K} {i : Nat} {line : List Nat}
    (h : line.Nodup) (hi : i ∉ line) : (add context s i line).Nodup := by
  induction line with
  | nil => simp [add]
  | cons n line ih =>
    rw [List.nodup_cons] at h
    simp only [List.mem_cons, not_or] at hi
    simp only [add]
    split_ifs
    · simp only [List.nodup_cons, List.mem_cons, not_or]
      exact ⟨hi, h⟩
    · rw [List.nodup_cons]
      refine ⟨fun hm => ?_, ih h.2 hi.2⟩
      rcases mem_of_mem_add hm with rfl | hm
      · exact hi.1 rfl
      · exact h.1 hm
    · rw [List.nodup_cons]; exact h

theorem remove_sublist (context : Context K) (s : State K) (i : Nat) (line : List Nat) :
    (remove context s i line).Sublist line := by
  induction line with
  | nil => simp [remove]
  | cons n line ih =>
    simp only [remove]
    split_ifs
    · exact List.Sublist.refl _
    · exact ih.cons_cons n
    · exact List.sublist_cons_self _ _

/-- The comparison never puts an event before itself. -/
theorem lt_irrefl (context : Context K) (s : State K) (i : Nat) : lt context s i i = false := by
  simp [lt]

theorem above_mem {context : Context K} {s : State K} {i a : Nat} {line : List Nat}
    (h : above context s i line = some a) : ∃ l₁ n l₂, line = l₁ ++ n :: a :: l₂ := by
  induction line with
  | nil => simp [above] at h
  | cons n line ih =>
    simp only [above] at h
    split_ifs at h
    · obtain ⟨l₁, m, l₂, rfl⟩ := ih h
      exact ⟨n :: l₁, m, l₂, rfl⟩
    · cases line with
      | nil => simp at h
      | cons b line =>
        simp only [List.head?_cons, Option.some.injEq] at h
        subst h
        exact ⟨[], n, line, rfl⟩

theorem belowFrom_mem {context : Context K} {s : State K} {i b : Nat} {prev : Option Nat}
    {line : List Nat} (h : belowFrom context s i prev line = some b) :
    prev = some b ∨ b ∈ line := by
  induction line generalizing prev with
  | nil => simp [belowFrom] at h
  | cons n line ih =>
    simp only [belowFrom] at h
    split_ifs at h
    · rcases ih h with h | h
      · exact .inr (by simp only [Option.some.injEq] at h; simp [h])
      · exact .inr (List.mem_cons_of_mem _ h)
    · exact .inl h

theorem below_mem {context : Context K} {s : State K} {i b : Nat} {line : List Nat}
    (h : below context s i line = some b) : b ∈ line := by
  rcases belowFrom_mem h with h | h
  · cases h
  · exact h

theorem above_mem' {context : Context K} {s : State K} {i a : Nat} {line : List Nat}
    (h : above context s i line = some a) : a ∈ line := by
  obtain ⟨l₁, n, l₂, rfl⟩ := above_mem h
  simp

/-- The neighbours of an event are different. -/
theorem neighbours_split {context : Context K} {s : State K} {i a b : Nat} {line : List Nat}
    {prev : Option Nat} (ha : above context s i line = some a)
    (hb : belowFrom context s i prev line = some b) :
    (prev = some b ∧ ∃ n l₂, line = n :: a :: l₂) ∨
      ∃ l₁ n l₂, line = l₁ ++ b :: n :: a :: l₂ := by
  induction line generalizing prev with
  | nil => simp [above] at ha
  | cons n line ih =>
    simp only [above] at ha
    simp only [belowFrom] at hb
    split_ifs at ha hb
    · rcases ih ha hb with ⟨h1, m, l₂, rfl⟩ | ⟨l₁, m, l₂, rfl⟩
      · simp only [Option.some.injEq] at h1
        subst h1
        exact .inr ⟨[], m, l₂, rfl⟩
      · exact .inr ⟨n :: l₁, m, l₂, rfl⟩
    · cases line with
      | nil => simp at ha
      | cons c line =>
        simp only [List.head?_cons, Option.some.injEq] at ha
        subst ha
        exact .inl ⟨hb, n, line, rfl⟩

theorem neighbours_ne {context : Context K} {s : State K} {i a b : Nat} {line : List Nat}
    (hl : line.Nodup) (ha : above context s i line = some a)
    (hb : below context s i line = some b) : a ≠ b := by
  rcases neighbours_split ha hb with ⟨h, -⟩ | ⟨l₁, n, l₂, rfl⟩
  · cases h
  · rintro rfl
    have := (List.nodup_append.mp hl).2.1
    simp at this

theorem above_add {context : Context K} {s : State K} {i a : Nat} {line : List Nat}
    (hi : i ∉ line) (h : above context s i (add context s i line) = some a) : a ∈ line := by
  induction line with
  | nil => simp [add, above, lt_irrefl] at h
  | cons n line ih =>
    simp only [List.mem_cons, not_or] at hi
    simp only [add] at h
    split_ifs at h with h1 h2
    · simp only [above, lt_irrefl, Bool.false_eq_true, if_false, List.head?_cons,
        Option.some.injEq] at h
      simp [h]
    · simp only [above, h1, h2, Bool.false_eq_true, if_false, if_true] at h
      exact List.mem_cons_of_mem _ (ih hi.2 h)
    · simp only [above, h1, h2, Bool.false_eq_true, if_false] at h
      exact List.mem_cons_of_mem _ (List.mem_of_mem_head? h)

theorem belowFrom_add {context : Context K} {s : State K} {i b : Nat} {line : List Nat}
    {prev : Option Nat} (hi : i ∉ line)
    (h : belowFrom context s i prev (add context s i line) = some b) : prev = some b ∨ b ∈ line := by
  induction line generalizing prev with
  | nil =>
    simp only [add, belowFrom, lt_irrefl, Bool.false_eq_true, if_false] at h
    exact .inl h
  | cons n line ih =>
    simp only [List.mem_cons, not_or] at hi
    simp only [add] at h
    split_ifs at h with h1 h2
    · simp only [belowFrom, lt_irrefl, Bool.false_eq_true, if_false] at h
      exact .inl h
    · simp only [belowFrom, h1, h2, Bool.false_eq_true, if_false, if_true] at h
      rcases ih hi.2 h with h | h
      · simp only [Option.some.injEq] at h
        exact .inr (by simp [h])
      · exact .inr (List.mem_cons_of_mem _ h)
    · simp only [belowFrom, h1, h2, Bool.false_eq_true, if_false] at h
      exact .inl h

theorem below_add {context : Context K} {s : State K} {i b : Nat} {line : List Nat}
    (hi : i ∉ line) (h : below context s i (add context s i line) = some b) : b ∈ line := by
  rcases belowFrom_add hi h with h | h
  · cases h
  · exact h

end Orient.sweepLine

namespace Orient.eventsQueue

variable {K : Type} [Field K] [LinearOrder K] [IsStrictOrderedRing K]

open Segment State

/-! ### handling an event -/

/-- The body of the loop for either kind of queue. -/
def handle (linear : Bool) (context : Context K) (s : State K) (line : List Nat) (event : Ev) :
    Py (State K × List Nat) :=
  if linear then handleLinear context s line event else handleCompound context s line event

/-- An overlap of two pieces of one operand. -/
def Clash (t : State K) : Prop :=
  ∃ a b, a < t.nextLeft ∧ b < t.nextLeft ∧ a ≠ b ∧ (t.lefts b).fromTest = (t.lefts a).fromTest ∧
    ((t.seg a).pts ∩ (t.seg b).pts).Nontrivial

/-- The outcome of a computation that changes the heap and may find a clash. -/
def Outcome {α : Type} (s : State K) (state : α → State K) : Py α → Prop
  | .ok r => Elems s (state r)
  | .error e => e = .valueError ∧ ∃ t, Elems s t ∧ Clash t

theorem Outcome.trans {α : Type} {s t : State K} {state : α → State K} {r : Py α}
    (h : Elems s t) (h' : Outcome t state r) : Outcome s state r := by
  cases r with
  | ok r => exact h.trans h'
  | error e => exact ⟨h'.1, h'.2.imp fun _ hu => ⟨h.trans hu.1, hu.2⟩⟩

theorem detectLinear_outcome {context : Context K} (hc : context.Exact) {s : State K}
    (h : s.WF) {a b : Nat} (ha : a < s.nextLeft) (hb : b < s.nextLeft) (hab : a ≠ b) :
    Outcome s id (detectIntersectionLinear context s a b) := by
  have := detectIntersectionLinear_spec hc h ha hb
  revert this
  cases detectIntersectionLinear context s a b with
  | ok s' => exact id
  | error e => exact fun h => ⟨h.1, s, .refl s, a, b, ha, hb, hab, h.2⟩

theorem detectCompound_outcome {context : Context K} (hc : context.Exact) {s : State K}
    (h : s.WF) {a b : Nat} (ha : a < s.nextLeft) (hb : b < s.nextLeft) (hab : a ≠ b) :
    Outcome s Prod.fst (detectIntersectionCompound context s a b) := by
  have := detectIntersectionCompound_spec hc h ha hb
  revert this
  cases detectIntersectionCompound context s a b with
  | ok s' => exact id
  | error e => exact fun h => ⟨h.1, s, .refl s, a, b, ha, hb, hab, h.2⟩

/-- The elements of the sweep line are different allocated events which are not queued. -/
structure LineOK (s : State K) (line : List Nat) : Prop where
  nodup : line.Nodup
  lt : ∀ i ∈ line, i < s.nextLeft
  notMem : ∀ i ∈ line, Ev.left i ∉ s.queue

theorem Elem.not_mem {s s' : State K} (h : Elem s s') {e : Ev} (he : s.Valid e)
    (hq : e ∉ s.queue) : e ∉ s'.queue := by
  cases h with
  | flags h _ => rw [h.queue]; exact hq
  | relation h => rw [h.shape.queue]; exact hq
  | divide i p hi hp _ =>
    simp only [State.divide, List.mem_cons, not_or]
    refine ⟨?_, ?_, hq⟩
    · rintro rfl; exact lt_irrefl _ he
    · rintro rfl; exact lt_irrefl _ he

theorem Elems.not_mem {s s' : State K} (h : Elems s s') {e : Ev} (he : s.Valid e)
    (hq : e ∉ s.queue) : e ∉ s'.queue := by
  induction h with
  | refl => exact hq
  | tail h1 h2 ih => exact Elem.not_mem h2 (h1.valid he) ih

theorem Runs.not_mem {s s' : State K} (h : Runs s s') {e : Ev} (he : s.Valid e)
    (hq : e ∉ s.queue) : e ∉ s'.queue := by
  induction h with
  | refl => exact hq
  | elem h1 h2 ih => exact Elem.not_mem h2 (h1.valid he) ih
  | pop e' _ _ ih => exact fun hm => ih (List.mem_of_mem_erase hm)

theorem LineOK.of_runs {s s' : State K} {line : List Nat} (hl : LineOK s line) (h : Runs s s') :
    LineOK s' line :=
  ⟨hl.nodup, fun i hi => lt_of_lt_of_le (hl.lt i hi) h.nextLeft_le.1,
    fun i hi => Runs.not_mem h (e := .left i) (hl.lt i hi) (hl.notMem i hi)⟩

theorem LineOK.of_elems {s s' : State K} {line : List Nat} (hl : LineOK s line) (h : Elems s s') :
    LineOK s' line := hl.of_runs h.runs

theorem LineOK.sublist {s : State K} {line line' : List Nat} (hl : LineOK s line)
    (h : line'.Sublist line) : LineOK s line' :=
  ⟨hl.nodup.sublist h, fun i hi => hl.lt i (h.subset hi), fun i hi => hl.notMem i (h.subset hi)⟩

theorem LineOK.add {context : Context K} {s : State K} {line : List Nat} (hl : LineOK s line)
    {i : Nat} (hi : i < s.nextLeft) (hq : Ev.left i ∉ s.queue) (hm : i ∉ line) :
    LineOK s (sweepLine.add context s i line) :=
  ⟨sweepLine.nodup_add hl.nodup hm,
    fun j hj => by rcases sweepLine.mem_of_mem_add hj with rfl | hj; exacts [hi, hl.lt j hj],
    fun j hj => by rcases sweepLine.mem_of_mem_add hj with rfl | hj; exacts [hq, hl.notMem j hj]⟩

/-- The line after an event has been handled. -/
def lineAfter (context : Context K) (s : State K) (line : List Nat) : Ev → List Nat
  | .left i => sweepLine.add context s i line
  | .right r =>
    if sweepLine.contains context s (s.rights r).left line
    then sweepLine.remove context s (s.rights r).left line else line

/-- `checkAbove` of the linear queue. -/
def checkAboveLinear (context : Context K) (s : State K) (event : Nat) (aboveEvent : Option Nat) :
    Py (State K) :=
  match aboveEvent with
  | some aboveEvent => detectIntersectionLinear context s event aboveEvent
  | none => .ok s

/-- `checkBelow` of the linear queue. -/
def checkBelowLinear (context : Context K) (s : State K) (belowEvent : Option Nat) (event : Nat) :
    Py (State K) :=
  match belowEvent with
  | some belowEvent => detectIntersectionLinear context s belowEvent event
  | none => .ok s

theorem handleLinear_left (context : Context K) (s : State K) (line : List Nat) (i : Nat) :
    handleLinear context s line (.left i) =
      (checkAboveLinear context s i
          (sweepLine.above context s i (sweepLine.add context s i line))).bind fun s₁ =>
        (checkBelowLinear context s₁
          (sweepLine.below context s i (sweepLine.add context s i line)) i).bind fun s₂ =>
            .ok (s₂, sweepLine.add context s i line) := by
  simp only [handleLinear, checkAboveLinear, checkBelowLinear]
  cases sweepLine.above context s i (sweepLine.add context s i line) <;>
    cases sweepLine.below context s i (sweepLine.add context s i line) <;> rfl

theorem checkAboveLinear_outcome {context : Context K} (hc : context.Exact) {s : State K} (h : s.WF)
    {i : Nat} (hi : i < s.nextLeft) {above : Option Nat}
    (ha : ∀ a, above = some a → a < s.nextLeft ∧ a ≠ i) :
    Outcome s id (checkAboveLinear context s i above) := by
  cases above with
  | none => exact Elems.refl s
  | some a => exact detectLinear_outcome hc h hi (ha a rfl).1 (ha a rfl).2.symm

theorem checkBelowLinear_outcome {context : Context K} (hc : context.Exact) {s : State K} (h : s.WF)
    {i : Nat} (hi : i < s.nextLeft) {below : Option Nat}
    (hb : ∀ b, below = some b → b < s.nextLeft ∧ b ≠ i) :
    Outcome s id (checkBelowLinear context s below i) := by
  cases below with
  | none => exact Elems.refl s
  | some b => exact detectLinear_outcome hc h (hb b rfl).1 hi (hb b rfl).2

theorem handleLinear_spec {context : Context K} (hc : context.Exact) {s : State K} (h : s.WF)
    {line : List Nat} (hl : LineOK s line) {event : Ev} (hv : s.Valid event)
    (hm : ∀ i, event = .left i → i ∉ line) :
    Outcome s Prod.fst (handleLinear context s line event) ∧
    ∀ r, handleLinear context s line event = .ok r → r.2 = lineAfter context s line event := by
  cases event with
  | left i =>
    have hi : i < s.nextLeft := hv
    have him := hm i rfl
    rw [handleLinear_left]
    set line' := sweepLine.add context s i line with hline'
    have first : Outcome s id (checkAboveLinear context s i (sweepLine.above context s i line')) := by
      refine checkAboveLinear_outcome hc h hi fun a ha => ?_
      have ha' := sweepLine.above_add him ha
      exact ⟨hl.lt a ha', fun e => him (e ▸ ha')⟩
    cases hr1 : checkAboveLinear context s i (sweepLine.above context s i line') with
    | error e => rw [hr1] at first; exact ⟨first, fun r hr => by simp [Except.bind] at hr⟩
    | ok s1 =>
      rw [hr1] at first
      have first : Elems s s1 := first
      have second : Outcome s1 id (checkBelowLinear context s1
          (sweepLine.below context s i line') i) := by
        refine checkBelowLinear_outcome hc (first.wf h) (lt_of_lt_of_le hi first.nextLeft_le.1)
          fun b hb => ?_
        have hb' := sweepLine.below_add him hb
        exact ⟨lt_of_lt_of_le (hl.lt b hb') first.nextLeft_le.1, fun e => him (e ▸ hb')⟩
      simp only [Except.bind]
      cases hr2 : checkBelowLinear context s1 (sweepLine.below context s i line') i with
      | error e => rw [hr2] at second; exact ⟨second.trans first, fun r hr => by simp at hr⟩
      | ok s2 =>
        rw [hr2] at second
        refine ⟨first.trans second, fun r hr => ?_⟩
        simp only [Except.ok.injEq] at hr
        rw [← hr]; rfl
  | right r =>
    simp only [handleLinear, bind, Except.bind, pure, Except.pure, lineAfter]
    set i := (s.rights r).left
    split_ifs with hcon
    · cases ha : sweepLine.above context s i line with
      | none => exact ⟨Elems.refl s, fun r hr => by simp only [Except.ok.injEq] at hr; rw [← hr]⟩
      | some a =>
        cases hb : sweepLine.below context s i line with
        | none => exact ⟨Elems.refl s, fun r hr => by simp only [Except.ok.injEq] at hr; rw [← hr]⟩
        | some b =>
          have := detectLinear_outcome hc h (hl.lt b (sweepLine.below_mem hb))
            (hl.lt a (sweepLine.above_mem' ha)) (sweepLine.neighbours_ne hl.nodup ha hb).symm
          simp only
          cases hd : detectIntersectionLinear context s b a with
          | error e => rw [hd] at this; exact ⟨this, fun r hr => by simp at hr⟩
          | ok s1 =>
            rw [hd] at this
            exact ⟨this, fun r hr => by simp only [Except.ok.injEq] at hr; rw [← hr]⟩
    · exact ⟨Elems.refl s, fun r hr => by simp only [Except.ok.injEq] at hr; rw [← hr]⟩

theorem computePosition_elems (s : State K) (below : Option Nat) (i : Nat) :
    Elems s (computePosition s below i) :=
  (Elem.flags (computePosition_elem s below i).1 (computePosition_elem s below i).2).elems

theorem checkAbove_outcome {context : Context K} (hc : context.Exact) {s : State K} (h : s.WF)
    {i : Nat} (hi : i < s.nextLeft) {above : Option Nat}
    (ha : ∀ a, above = some a → a < s.nextLeft ∧ a ≠ i) :
    Outcome s id (checkAbove context s i above) := by
  cases above with
  | none => exact Elems.refl s
  | some a =>
    have := detectCompound_outcome hc h hi (ha a rfl).1 (ha a rfl).2.symm
    simp only [checkAbove, bind, Except.bind, pure, Except.pure]
    cases hd : detectIntersectionCompound context s i a with
    | error e => rw [hd] at this; exact this
    | ok r =>
      rw [hd] at this
      have : Elems s r.1 := this
      change Elems s _
      simp only [id]
      split
      · exact this.trans (computePosition_elems _ _ _)
      · exact this

theorem checkBelow_outcome {context : Context K} (hc : context.Exact) {s : State K} (h : s.WF)
    {line : List Nat} {i : Nat} (hi : i < s.nextLeft) {below : Option Nat}
    (hb : ∀ b, below = some b → b < s.nextLeft ∧ b ≠ i) :
    Outcome s id (checkBelow context s line below i) := by
  cases below with
  | none => exact Elems.refl s
  | some b =>
    have := detectCompound_outcome hc h (hb b rfl).1 hi (hb b rfl).2
    simp only [checkBelow, bind, Except.bind, pure, Except.pure]
    cases hd : detectIntersectionCompound context s b i with
    | error e => rw [hd] at this; exact this
    | ok r =>
      rw [hd] at this
      have : Elems s r.1 := this
      change Elems s _
      simp only [id]
      split
      · exact this.trans (computePosition_elems _ _ _)
      · exact this

theorem handleCompound_spec {context : Context K} (hc : context.Exact) {s : State K} (h : s.WF)
    {line : List Nat} (hl : LineOK s line) {event : Ev} (hv : s.Valid event)
    (hm : ∀ i, event = .left i → i ∉ line) :
    Outcome s Prod.fst (handleCompound context s line event) ∧
    ∀ r, handleCompound context s line event = .ok r → r.2 = lineAfter context s line event := by
  cases event with
  | left i =>
    have hi : i < s.nextLeft := hv
    have him := hm i rfl
    simp only [handleCompound, bind, Except.bind, pure, Except.pure]
    set line' := sweepLine.add context s i line with hline'
    have e0 := computePosition_elems s (sweepLine.below context s i line') i
    set s0 := computePosition s (sweepLine.below context s i line') i
    have first : Outcome s0 id (checkAbove context s0 i (sweepLine.above context s i line')) := by
      refine checkAbove_outcome hc (e0.wf h) (lt_of_lt_of_le hi e0.nextLeft_le.1) fun a ha => ?_
      have ha' := sweepLine.above_add him ha
      exact ⟨lt_of_lt_of_le (hl.lt a ha') e0.nextLeft_le.1, fun e => him (e ▸ ha')⟩
    cases hr1 : checkAbove context s0 i (sweepLine.above context s i line') with
    | error e => rw [hr1] at first; exact ⟨first.trans e0, fun r hr => by simp at hr⟩
    | ok s1 =>
      rw [hr1] at first
      have first : Elems s s1 := e0.trans first
      have second : Outcome s1 id (checkBelow context s1 line'
          (sweepLine.below context s i line') i) := by
        refine checkBelow_outcome hc (first.wf h) (lt_of_lt_of_le hi first.nextLeft_le.1)
          fun b hb => ?_
        have hb' := sweepLine.below_add him hb
        exact ⟨lt_of_lt_of_le (hl.lt b hb') first.nextLeft_le.1, fun e => him (e ▸ hb')⟩
      simp only
      cases hr2 : checkBelow context s1 line' (sweepLine.below context s i line') i with
      | error e => rw [hr2] at second; exact ⟨second.trans first, fun r hr => by simp at hr⟩
      | ok s2 =>
        rw [hr2] at second
        refine ⟨first.trans second, fun r hr => ?_⟩
        simp only [Except.ok.injEq] at hr
        rw [← hr]; rfl
  | right r =>
    simp only [handleCompound, bind, Except.bind, pure, Except.pure, lineAfter]
    set i := (s.rights r).left
    split_ifs with hcon
    · cases ha : sweepLine.above context s i line with
      | none => exact ⟨Elems.refl s, fun r hr => by simp only [Except.ok.injEq] at hr; rw [← hr]⟩
      | some a =>
        cases hb : sweepLine.below context s i line with
        | none => exact ⟨Elems.refl s, fun r hr => by simp only [Except.ok.injEq] at hr; rw [← hr]⟩
        | some b =>
          have := detectCompound_outcome hc h (hl.lt b (sweepLine.below_mem hb))
            (hl.lt a (sweepLine.above_mem' ha)) (sweepLine.neighbours_ne hl.nodup ha hb).symm
          simp only
          cases hd : detectIntersectionCompound context s b a with
          | error e => rw [hd] at this; exact ⟨this, fun r hr => by simp at hr⟩
          | ok s1 =>
            rw [hd] at this
            exact ⟨this, fun r hr => by simp only [Except.ok.injEq] at hr; rw [← hr]⟩
    · exact ⟨Elems.refl s, fun r hr => by simp only [Except.ok.injEq] at hr; rw [← hr]⟩

theorem handle_spec (linear : Bool) {context : Context K} (hc : context.Exact) {s : State K}
    (h : s.WF) {line : List Nat} (hl : LineOK s line) {event : Ev} (hv : s.Valid event)
    (hm : ∀ i, event = .left i → i ∉ line) :
    Outcome s Prod.fst (handle linear context s line event) ∧
    ∀ r, handle linear context s line event = .ok r → r.2 = lineAfter context s line event := by
  cases linear
  · exact handleCompound_spec hc h hl hv hm
  · exact handleLinear_spec hc h hl hv hm

/-! ### closing a group -/

/-- Any number of justified changes of relations. -/
inductive Rels : State K → State K → Prop
  | refl (s : State K) : Rels s s
  | tail {s t u : State K} : Rels s t → RelationsJustified t u → Rels s u

theorem Rels.trans {s t u : State K} (h : Rels s t) (h' : Rels t u) : Rels s u := by
  induction h' with
  | refl => exact h
  | tail _ h2 ih => exact ih.tail h2

theorem Rels.elems {s t : State K} (h : Rels s t) : Elems s t := by
  induction h with
  | refl => exact .refl _
  | tail _ h2 ih => exact ih.tail (.relation h2)

theorem Rels.shape {s t : State K} (h : Rels s t) : SameShape s t := by
  induction h with
  | refl => exact .refl _
  | tail _ h2 ih => exact sameShape_trans ih h2.shape

theorem SameShape.leftOf {s t : State K} (h : SameShape s t) (e : Ev) : t.leftOf e = s.leftOf e := by
  cases e with
  | left i => rfl
  | right r => simp only [State.leftOf, h.rights]

theorem SameShape.evStart {s t : State K} (h : SameShape s t) (e : Ev) :
    t.evStart e = s.evStart e := by
  cases e with
  | left i => exact h.start i
  | right r => simp only [State.evStart, h.rights]

theorem SameShape.valid {s t : State K} (h : SameShape s t) {e : Ev} (he : s.Valid e) :
    t.Valid e := by
  cases e with
  | left i => exact (show i < t.nextLeft from h.nextLeft ▸ he)
  | right r => exact (show r < t.nextRight from h.nextRight ▸ he)

theorem SegmentsRelation.max_eq_overlap {a b : SegmentsRelation} (h : a.max b = .overlap) :
    a = .overlap ∨ b = .overlap := by
  unfold SegmentsRelation.max at h
  split at h
  · exact .inr h
  · exact .inl h

/-- Assigning relations to two events of different operands with a common point. -/
theorem setBoth_justified {s : State K} {i j : Nat} (hi : i < s.nextLeft) (hj : j < s.nextLeft)
    (hij : (s.lefts j).fromTest ≠ (s.lefts i).fromTest)
    (hne : ((s.seg i).pts ∩ (s.seg j).pts).Nonempty)
    {f : SegmentsRelation → SegmentsRelation}
    (hf : ∀ r, f r = .overlap → r = .overlap ∨ s.seg i = s.seg j) :
    RelationsJustified s ((s.setLeft i (fun e => { e with relation := f e.relation })).setLeft j
      (fun e => { e with relation := f e.relation })) := by
  have hne' : i ≠ j := by rintro rfl; exact hij rfl
  refine ⟨sameShape_trans
    (sameShape_setLeft s i (fun e => { e with relation := f e.relation })
      fun e => ⟨rfl, rfl, rfl, rfl, rfl⟩)
    (sameShape_setLeft _ j (fun e => { e with relation := f e.relation })
      fun e => ⟨rfl, rfl, rfl, rfl, rfl⟩), fun k => ?_⟩
  simp only [setLeft]
  by_cases hki : k = i
  · subst hki
    rw [if_neg hne', if_pos rfl]
    by_cases ho : (s.lefts k).relation = .overlap ∧ f (s.lefts k).relation = .overlap
    · exact .inl (ho.2.trans ho.1.symm)
    · refine .inr ⟨hi, j, hj, hij, hne, fun e => ?_⟩
      rcases hf _ e with h | h
      · exact absurd ⟨h, e⟩ ho
      · exact h
  · by_cases hkj : k = j
    · subst hkj
      rw [if_pos rfl, if_neg hki]
      by_cases ho : (s.lefts k).relation = .overlap ∧ f (s.lefts k).relation = .overlap
      · exact .inl (ho.2.trans ho.1.symm)
      · refine .inr ⟨hj, i, hi, hij.symm, Set.inter_comm _ _ ▸ hne, fun e => ?_⟩
        rcases hf _ e with h | h
        · exact absurd ⟨h, e⟩ ho
        · exact h.symm
    · rw [if_neg hkj, if_neg hki]
      exact .inl rfl

/-- The events of a group are allocated and start at one point. -/
def GroupOK (s : State K) (p : Point K) (group : List Ev) : Prop :=
  ∀ e ∈ group, s.Valid e ∧ s.evStart e = p

theorem GroupOK.of_elems {s s' : State K} {p : Point K} {group : List Ev} (h : s.WF)
    (hg : GroupOK s p group) (he : Elems s s') : GroupOK s' p group := fun e hm =>
  ⟨he.valid (hg e hm).1, ((he.evStart h (hg e hm).1).1).trans (hg e hm).2⟩

theorem GroupOK.common {s : State K} {p : Point K} {group : List Ev} (h : s.WF)
    (hg : GroupOK s p group) {e e' : Ev} (he : e ∈ group) (he' : e' ∈ group) :
    ((s.seg (s.leftOf e)).pts ∩ (s.seg (s.leftOf e')).pts).Nonempty :=
  ⟨p, (hg e he).2 ▸ (h.evStart_endpoint (hg e he).1).mem,
    (hg e' he').2 ▸ (h.evStart_endpoint (hg e' he').1).mem⟩

theorem completePair_rels {s : State K} (h : s.WF) {p : Point K} {group : List Ev}
    (hg : GroupOK s p group) {e e' : Ev} (he : e ∈ group) (he' : e' ∈ group) :
    Rels s (completePair s e e') := by
  unfold completePair
  simp only
  split_ifs with h1 h2
  · exact .refl s
  · refine (Rels.refl s).tail (setBoth_justified (h.leftOf_lt (hg e he).1) (h.leftOf_lt (hg e' he').1)
      h1 (hg.common h he he') (f := fun _ => .overlap) fun r _ => .inr ?_)
    exact Segment.ext h2.1 h2.2
  all_goals
    refine (Rels.refl s).tail (setBoth_justified (h.leftOf_lt (hg e he).1) (h.leftOf_lt (hg e' he').1)
      h1 (hg.common h he he') (f := fun r => r.max _) fun r hr => .inl ?_)
    rcases SegmentsRelation.max_eq_overlap hr with hr | hr
    · exact hr
    · cases hr

theorem foldl_completePair_rels {s : State K} (h : s.WF) {p : Point K} {group : List Ev}
    (hg : GroupOK s p group) {e : Ev} (he : e ∈ group) {l : List Ev} (hl : ∀ e' ∈ l, e' ∈ group) :
    Rels s (l.foldl (fun s second => completePair s e second) s) := by
  induction l generalizing s with
  | nil => exact .refl s
  | cons e' l ih =>
    have h1 := completePair_rels h hg he (hl e' (List.mem_cons_self ..))
    exact h1.trans (ih (h1.elems.wf h) (hg.of_elems h h1.elems)
      fun x hx => hl x (List.mem_cons_of_mem _ hx))

/-- What is emitted for an event of the group: its left event, in some state of the process. -/
def EmittedFor (s s' : State K) (e : Ev) (em : Emitted K) : Prop :=
  ∃ t, Rels s t ∧ Rels t s' ∧ em = emit t (s.leftOf e)

theorem completeEventsRelations_spec {s : State K} (h : s.WF) {p : Point K} {group : List Ev}
    (hg : GroupOK s p group) :
    Rels s (completeEventsRelations s group).2 ∧
    (∀ em ∈ (completeEventsRelations s group).1, ∃ e ∈ group,
      EmittedFor s (completeEventsRelations s group).2 e em) ∧
    (∀ e ∈ group, ∃ em ∈ (completeEventsRelations s group).1,
      EmittedFor s (completeEventsRelations s group).2 e em) := by
  induction group generalizing s with
  | nil => exact ⟨.refl s, by simp [completeEventsRelations], by simp⟩
  | cons e group ih =>
    have h1 := foldl_completePair_rels h hg (List.mem_cons_self ..)
      (l := group) (fun x hx => List.mem_cons_of_mem _ hx)
    simp only [completeEventsRelations]
    set t := group.foldl (fun s second => completePair s e second) s
    have hg' : GroupOK t p group := fun x hm =>
      hg.of_elems h h1.elems x (List.mem_cons_of_mem _ hm)
    obtain ⟨i1, i2, i3⟩ := ih (h1.elems.wf h) hg'
    have hl : ∀ x, t.leftOf x = s.leftOf x := SameShape.leftOf h1.shape
    refine ⟨h1.trans i1, ?_, ?_⟩
    · intro em hem
      rcases List.mem_cons.mp hem with rfl | hem
      · exact ⟨e, List.mem_cons_self .., t, h1, i1, by rw [hl]⟩
      · obtain ⟨x, hx, u, u1, u2, u3⟩ := i2 em hem
        exact ⟨x, List.mem_cons_of_mem _ hx, u, h1.trans u1, u2, by rw [u3, hl]⟩
    · intro x hx
      rcases List.mem_cons.mp hx with rfl | hx
      · exact ⟨_, List.mem_cons_self .., t, h1, i1, by rw [hl]⟩
      · obtain ⟨em, hem, u, u1, u2, u3⟩ := i3 x hx
        exact ⟨em, List.mem_cons_of_mem _ hem, u, h1.trans u1, u2, by rw [u3, hl]⟩

/-- Raising the relations of a group with events of both operands. -/
theorem foldl_raise_rels {s : State K} (h : s.WF) {p : Point K} {group : List Ev}
    (hg : GroupOK s p group) (hb : ∀ b, ∃ e ∈ group, s.evFromTest e = b) {l : List Ev}
    (hl : ∀ e ∈ l, e ∈ group) :
    Rels s (l.foldl (fun s event => s.raiseRelation (s.leftOf event) .cross) s) := by
  induction l generalizing s with
  | nil => exact .refl s
  | cons e l ih =>
    have he := hl e (List.mem_cons_self ..)
    have h1 : Rels s (s.raiseRelation (s.leftOf e) .cross) := by
      refine (Rels.refl s).tail ⟨sameShape_setLeft s _
        (fun e => { e with relation := e.relation.max .cross }) fun e => ⟨rfl, rfl, rfl, rfl, rfl⟩,
        fun k => ?_⟩
      simp only [raiseRelation, setLeft]
      by_cases hk : k = s.leftOf e
      · obtain ⟨e', he', hft⟩ := hb (!s.evFromTest e)
        rw [if_pos hk]
        by_cases ho : (s.lefts k).relation = .overlap
        · left; rw [ho]; rfl
        · right
          refine ⟨hk ▸ h.leftOf_lt (hg e he).1, s.leftOf e', h.leftOf_lt (hg e' he').1, ?_, ?_, ?_⟩
          · rw [hk]
            change s.evFromTest e' ≠ s.evFromTest e
            rw [hft]; simp
          · rw [hk]; exact hg.common h he he'
          · intro hr
            rcases SegmentsRelation.max_eq_overlap hr with hr | hr
            · exact absurd hr ho
            · cases hr
      · rw [if_neg hk]; exact .inl rfl
    refine h1.trans (ih (h1.elems.wf h) (hg.of_elems h h1.elems) (fun b => ?_)
      fun x hx => hl x (List.mem_cons_of_mem _ hx))
    obtain ⟨e', he', hft⟩ := hb b
    exact ⟨e', he', (h1.elems.evStart h (hg e' he').1).2.trans hft⟩

theorem detectCrossingAngles_rels (context : Context K) {s : State K} (h : s.WF) {p : Point K}
    {group : List Ev} (hg : GroupOK s p group) : Rels s (detectCrossingAngles context s group) := by
  unfold detectCrossingAngles
  simp only
  split
  · exact .refl s
  · next hn =>
    push Not at hn
    have hb : ∀ b, ∃ e ∈ group, s.evFromTest e = b := by
      intro b
      cases b with
      | true =>
        have : 0 < (group.filter (fun event => s.evFromTest event)).length := by
          have := hn.2.1; omega
        obtain ⟨e, he⟩ := List.exists_mem_of_length_pos this
        rw [List.mem_filter] at he
        exact ⟨e, he⟩
      | false =>
        by_contra hall
        push Not at hall
        have : group.filter (fun event => s.evFromTest event) = group :=
          List.filter_eq_self.mpr fun e he => by simpa using hall e he
        have h2 := hn.2.2
        rw [this] at h2
        omega
    split
    · split
      · exact .refl s
      · exact foldl_raise_rels h hg hb (fun e he => he)
    · exact .refl s

theorem closeGroup_spec (linear : Bool) (context : Context K) {s : State K} (h : s.WF) {p : Point K}
    {group : List Ev} (hg : GroupOK s p group) :
    Rels s (closeGroup linear context s group).2 ∧
    (∀ em ∈ (closeGroup linear context s group).1, ∃ e ∈ group,
      EmittedFor s (closeGroup linear context s group).2 e em) ∧
    (∀ e ∈ group, ∃ em ∈ (closeGroup linear context s group).1,
      EmittedFor s (closeGroup linear context s group).2 e em) := by
  unfold closeGroup
  have h1 : Rels s (if linear = true then detectCrossingAngles context s group else s) := by
    split
    · exact detectCrossingAngles_rels context h hg
    · exact .refl s
  set t := if linear = true then detectCrossingAngles context s group else s
  obtain ⟨i1, i2, i3⟩ := completeEventsRelations_spec (h1.elems.wf h) (hg.of_elems h h1.elems)
  have hl : ∀ x, t.leftOf x = s.leftOf x := SameShape.leftOf h1.shape
  have key : ∀ u e em, EmittedFor t u e em → EmittedFor s u e em := by
    rintro u e em ⟨v, v1, v2, v3⟩
    exact ⟨v, h1.trans v1, v2, by rw [v3, hl]⟩
  exact ⟨h1.trans i1, fun em hem => (i2 em hem).imp fun e he => ⟨he.1, key _ _ _ he.2⟩,
    fun e he => (i3 e he).imp fun em hem => ⟨hem.1, key _ _ _ hem.2⟩⟩

/-! ### the loop -/

/-- The local variables of the loop. -/
structure Config (K : Type) where
  s : State K
  line : List Nat
  start : Option (Point K)
  group : List Ev

/-- One iteration: `none` if the loop ends, otherwise what is emitted and the next configuration. -/
def sweepStep (linear : Bool) (context : Context K) (stopX : K) (c : Config K) :
    Option (List (Emitted K) × Py (Config K)) :=
  match peek? context c.s with
  | none => none
  | some event =>
    if (c.s.evStart event).x > stopX then none
    else
      let s := { c.s with queue := c.s.queue.erase event }
      let sameStart := decide (some (s.evStart event) = c.start)
      let closed := if sameStart then ([], s) else closeGroup linear context s c.group
      let group := if sameStart then c.group ++ [event] else [event]
      let start := if sameStart then c.start else some (closed.2.evStart event)
      some (closed.1, (handle linear context closed.2 c.line event).map
        fun r => ⟨r.1, r.2, start, group⟩)

theorem sweepLoop_succ (linear : Bool) (context : Context K) (stopX : K) (fuel : Nat)
    (c : Config K) :
    sweepLoop linear context stopX (fuel + 1) c.s c.line c.start c.group =
      match sweepStep linear context stopX c with
      | none =>
        ((closeGroup linear context c.s c.group).1, .ok (closeGroup linear context c.s c.group).2)
      | some (ems, .error e) => (ems, .error e)
      | some (ems, .ok c') =>
        (ems ++ (sweepLoop linear context stopX fuel c'.s c'.line c'.start c'.group).1,
          (sweepLoop linear context stopX fuel c'.s c'.line c'.start c'.group).2) := by
  rw [sweepLoop, sweepStep]
  cases peek? context c.s with
  | none => rfl
  | some event =>
    simp only
    split
    · rfl
    · simp only [handle]
      split <;> rename_i hr <;> rw [hr] <;> rfl

/-- Configurations which a sweep goes through, with everything emitted on the way. -/
inductive Reaches (linear : Bool) (context : Context K) (stopX : K) (c : Config K) :
    List (Emitted K) → Config K → Prop
  | refl : Reaches linear context stopX c [] c
  | tail {ems ems' : List (Emitted K)} {d d' : Config K} : Reaches linear context stopX c ems d →
      sweepStep linear context stopX d = some (ems', .ok d') →
      Reaches linear context stopX c (ems ++ ems') d'

/-- How a sweep can end. -/
theorem sweepLoop_ends (linear : Bool) (context : Context K) (stopX : K) (fuel : Nat)
    (c₀ : Config K) (ems : List (Emitted K)) (c : Config K)
    (hr : Reaches linear context stopX c₀ ems c)
    (out : List (Emitted K) × Py (State K))
    (hout : sweepLoop linear context stopX fuel c.s c.line c.start c.group = out) :
    (∃ ems' d, Reaches linear context stopX c₀ ems' d ∧
      sweepStep linear context stopX d = none ∧
      ems ++ out.1 = ems' ++ (closeGroup linear context d.s d.group).1 ∧
      out.2 = .ok (closeGroup linear context d.s d.group).2) ∨
    (∃ ems' ems'' d e, Reaches linear context stopX c₀ ems' d ∧
      sweepStep linear context stopX d = some (ems'', .error e) ∧
      ems ++ out.1 = ems' ++ ems'' ∧ out.2 = .error e) ∨
    out.2 = .error .outOfFuel := by
  induction fuel generalizing c ems out with
  | zero => right; right; rw [← hout]; rfl
  | succ fuel ih =>
    rw [sweepLoop_succ] at hout
    split at hout
    · next hs => exact .inl ⟨ems, c, hr, hs, by rw [← hout], by rw [← hout]⟩
    · next hs => exact .inr (.inl ⟨ems, _, c, _, hr, hs, by rw [← hout], by rw [← hout]⟩)
    · next ems' c' hs =>
      have := ih (ems ++ ems') c' (hr.tail hs) _ rfl
      rw [← hout]
      simpa only [List.append_assoc] using this

end Orient.eventsQueue
