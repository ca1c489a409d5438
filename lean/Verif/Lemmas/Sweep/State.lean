import Verif.Model.Event
import Verif.Spec.Linear
import Verif.Lemmas.Germ
import Verif.Lemmas.Crossed

/-! The heap of events: well-formedness and elementary changes. -/

set_option linter.unusedSectionVars false

namespace Orient.State

variable {K : Type} [Field K] [LinearOrder K] [IsStrictOrderedRing K]

open Segment

/-- References are mutual, segments have different endpoints in the right order, the queue holds
different references to allocated events. -/
structure WF (s : State K) : Prop where
  leftRight : ∀ i < s.nextLeft, (s.lefts i).right < s.nextRight ∧
    (s.rights (s.lefts i).right).left = i
  rightLeft : ∀ r < s.nextRight, (s.rights r).left < s.nextLeft ∧
    (s.lefts (s.rights r).left).right = r
  lt : ∀ i < s.nextLeft, (s.lefts i).start < s.leftEnd i
  queueLeft : ∀ i, Ev.left i ∈ s.queue → i < s.nextLeft
  queueRight : ∀ r, Ev.right r ∈ s.queue → r < s.nextRight
  nodup : s.queue.Nodup

/-- The event is allocated. -/
def Valid (s : State K) : Ev → Prop
  | .left i => i < s.nextLeft
  | .right r => r < s.nextRight

theorem WF.valid_of_mem {s : State K} (h : s.WF) {e : Ev} (he : e ∈ s.queue) : s.Valid e := by
  cases e with
  | left i => exact h.queueLeft i he
  | right r => exact h.queueRight r he

theorem WF.leftOf_lt {s : State K} (h : s.WF) {e : Ev} (he : s.Valid e) : s.leftOf e < s.nextLeft := by
  cases e with
  | left i => exact he
  | right r => exact (h.rightLeft r he).1

theorem WF.nondegenerate {s : State K} (h : s.WF) {i : Nat} (hi : i < s.nextLeft) :
    (s.seg i).Nondegenerate := (h.lt i hi).ne

theorem WF.lo_seg {s : State K} (h : s.WF) {i : Nat} (hi : i < s.nextLeft) :
    (s.seg i).lo = (s.lefts i).start := min_eq_left (h.lt i hi).le

theorem WF.hi_seg {s : State K} (h : s.WF) {i : Nat} (hi : i < s.nextLeft) :
    (s.seg i).hi = s.leftEnd i := max_eq_right (h.lt i hi).le

/-- The start of a right event is the end of its left event. -/
theorem WF.leftEnd_left {s : State K} (h : s.WF) {r : Nat} (hr : r < s.nextRight) :
    s.leftEnd (s.rights r).left = (s.rights r).start := by
  unfold leftEnd
  rw [(h.rightLeft r hr).2]

theorem WF.evStart_endpoint {s : State K} (h : s.WF) {e : Ev} (he : s.Valid e) :
    (s.seg (s.leftOf e)).IsEndpoint (s.evStart e) := by
  cases e with
  | left i => exact .inl rfl
  | right r => exact .inr (h.leftEnd_left he).symm

/-- An inner point is strictly between the endpoints. -/
theorem WF.inner_iff {s : State K} (h : s.WF) {i : Nat} (hi : i < s.nextLeft) {p : Point K} :
    (s.seg i).Inner p ↔ p ∈ (s.seg i).pts ∧ (s.lefts i).start < p ∧ p < s.leftEnd i := by
  unfold Inner
  rw [isEndpoint_iff, h.lo_seg hi, h.hi_seg hi]
  constructor
  · rintro ⟨hp, hn⟩
    push Not at hn
    have h1 := lo_le hp
    have h2 := le_hi hp
    rw [h.lo_seg hi] at h1
    rw [h.hi_seg hi] at h2
    exact ⟨hp, lt_of_le_of_ne h1 hn.1.symm, lt_of_le_of_ne h2 hn.2⟩
  · rintro ⟨hp, h1, h2⟩
    refine ⟨hp, ?_⟩
    rintro (rfl | rfl)
    · exact lt_irrefl _ h1
    · exact lt_irrefl _ h2

/-! ### division -/

section divide

variable {s : State K} (h : s.WF) {i : Nat} (hi : i < s.nextLeft) (p : Point K)

include h hi

theorem divide_lefts_new : (s.divide i p).lefts s.nextLeft =
    { s.lefts i with
      start := p
      overlapKind := .none
      otherInteriorToLeft := false } := by
  simp [divide]

theorem divide_lefts_self : (s.divide i p).lefts i = { s.lefts i with right := s.nextRight } := by
  simp [divide, hi.ne]

theorem divide_lefts_other {j : Nat} (hj : j < s.nextLeft) (hij : j ≠ i) :
    (s.divide i p).lefts j = s.lefts j := by
  simp [divide, hj.ne, hij]

theorem divide_rights_new : (s.divide i p).rights s.nextRight =
    { start := p, left := i, originalStart := (s.rights (s.lefts i).right).originalStart } := by
  simp [divide]

theorem divide_rights_self : (s.divide i p).rights (s.lefts i).right =
    { s.rights (s.lefts i).right with left := s.nextLeft } := by
  simp [divide, ((h.leftRight i hi).1).ne]

theorem divide_rights_other {r : Nat} (hr : r < s.nextRight) (hne : r ≠ (s.lefts i).right) :
    (s.divide i p).rights r = s.rights r := by
  simp [divide, hr.ne, hne]

theorem divide_start {j : Nat} (hj : j < s.nextLeft) :
    ((s.divide i p).lefts j).start = (s.lefts j).start := by
  by_cases hij : j = i
  · subst hij; rw [divide_lefts_self h hi p]
  · rw [divide_lefts_other h hi p hj hij]

theorem divide_right_start {r : Nat} (hr : r < s.nextRight) :
    ((s.divide i p).rights r).start = (s.rights r).start := by
  by_cases hne : r = (s.lefts i).right
  · subst hne; rw [divide_rights_self h hi p]
  · rw [divide_rights_other h hi p hr hne]

theorem divide_leftEnd_self : (s.divide i p).leftEnd i = p := by
  unfold leftEnd
  rw [divide_lefts_self h hi p]
  simp only
  rw [divide_rights_new h hi p]

theorem divide_leftEnd_new : (s.divide i p).leftEnd s.nextLeft = s.leftEnd i := by
  unfold leftEnd
  rw [divide_lefts_new h hi p]
  simp only
  rw [divide_rights_self h hi p]

theorem divide_leftEnd_other {j : Nat} (hj : j < s.nextLeft) (hij : j ≠ i) :
    (s.divide i p).leftEnd j = s.leftEnd j := by
  unfold leftEnd
  rw [divide_lefts_other h hi p hj hij]
  exact divide_right_start h hi p (h.leftRight j hj).1

theorem divide_seg_self : (s.divide i p).seg i = ⟨(s.lefts i).start, p⟩ := by
  unfold seg
  rw [divide_start h hi p hi, divide_leftEnd_self h hi p]

theorem divide_seg_new : (s.divide i p).seg s.nextLeft = ⟨p, s.leftEnd i⟩ := by
  unfold seg
  rw [divide_lefts_new h hi p, divide_leftEnd_new h hi p]

theorem divide_seg_other {j : Nat} (hj : j < s.nextLeft) (hij : j ≠ i) :
    (s.divide i p).seg j = s.seg j := by
  unfold seg
  rw [divide_start h hi p hj, divide_leftEnd_other h hi p hj hij]

theorem divide_fromTest {j : Nat} (hj : j < s.nextLeft) :
    ((s.divide i p).lefts j).fromTest = (s.lefts j).fromTest := by
  by_cases hij : j = i
  · subst hij; rw [divide_lefts_self h hi p]
  · rw [divide_lefts_other h hi p hj hij]

theorem divide_relation {j : Nat} (hj : j < s.nextLeft) :
    ((s.divide i p).lefts j).relation = (s.lefts j).relation := by
  by_cases hij : j = i
  · subst hij; rw [divide_lefts_self h hi p]
  · rw [divide_lefts_other h hi p hj hij]

theorem divide_wf (hp : (s.seg i).Inner p) : (s.divide i p).WF := by
  obtain ⟨-, h1, h2⟩ := (h.inner_iff hi).mp hp
  have hr := h.leftRight i hi
  refine ⟨?_, ?_, ?_, ?_, ?_, ?_⟩
  · intro j hj
    simp only [divide] at hj
    rcases Nat.lt_succ_iff_lt_or_eq.mp hj with hj | rfl
    · by_cases hij : j = i
      · subst hij
        rw [divide_lefts_self h hi p]
        simp only
        rw [divide_rights_new h hi p]
        exact ⟨by simp [divide], rfl⟩
      · rw [divide_lefts_other h hi p hj hij]
        have hj' := h.leftRight j hj
        rw [divide_rights_other h hi p hj'.1]
        · exact ⟨by simp only [divide]; omega, hj'.2⟩
        · intro e
          rw [e, hr.2] at hj'
          exact hij hj'.2.symm
    · rw [divide_lefts_new h hi p]
      simp only
      rw [divide_rights_self h hi p]
      exact ⟨by simp only [divide]; omega, rfl⟩
  · intro r hr'
    simp only [divide] at hr'
    rcases Nat.lt_succ_iff_lt_or_eq.mp hr' with hr' | rfl
    · by_cases hne : r = (s.lefts i).right
      · subst hne
        rw [divide_rights_self h hi p]
        simp only
        rw [divide_lefts_new h hi p]
        exact ⟨by simp [divide], rfl⟩
      · rw [divide_rights_other h hi p hr' hne]
        have hr2 := h.rightLeft r hr'
        rw [divide_lefts_other h hi p hr2.1]
        · exact ⟨by simp only [divide]; omega, hr2.2⟩
        · intro e
          rw [e] at hr2
          exact hne hr2.2.symm
    · rw [divide_rights_new h hi p]
      simp only
      rw [divide_lefts_self h hi p]
      exact ⟨by simp only [divide]; omega, rfl⟩
  · intro j hj
    simp only [divide] at hj
    rcases Nat.lt_succ_iff_lt_or_eq.mp hj with hj | rfl
    · rw [divide_start h hi p hj]
      by_cases hij : j = i
      · subst hij; rw [divide_leftEnd_self h hi p]; exact h1
      · rw [divide_leftEnd_other h hi p hj hij]; exact h.lt j hj
    · rw [divide_lefts_new h hi p, divide_leftEnd_new h hi p]
      exact h2
  · intro j hj
    simp only [divide, List.mem_cons, reduceCtorEq, false_or, Ev.left.injEq] at hj
    simp only [divide]
    rcases hj with rfl | hj
    · omega
    · have := h.queueLeft j hj; omega
  · intro j hj
    simp only [divide, List.mem_cons, reduceCtorEq, false_or, Ev.right.injEq] at hj
    simp only [divide]
    rcases hj with rfl | hj
    · omega
    · have := h.queueRight j hj; omega
  · simp only [divide, List.nodup_cons, List.mem_cons, reduceCtorEq, false_or]
    refine ⟨fun hm => ?_, fun hm => ?_, h.nodup⟩
    · have := h.queueRight _ hm; omega
    · have := h.queueLeft _ hm; omega

end divide

/-! ### elementary changes -/

/-- Only flags of left events differ. -/
structure SameShape (s s' : State K) : Prop where
  rights : s'.rights = s.rights
  nextLeft : s'.nextLeft = s.nextLeft
  nextRight : s'.nextRight = s.nextRight
  queue : s'.queue = s.queue
  start : ∀ i, (s'.lefts i).start = (s.lefts i).start
  right : ∀ i, (s'.lefts i).right = (s.lefts i).right
  originalStart : ∀ i, (s'.lefts i).originalStart = (s.lefts i).originalStart
  fromTest : ∀ i, (s'.lefts i).fromTest = (s.lefts i).fromTest
  interiorToLeft : ∀ i, (s'.lefts i).interiorToLeft = (s.lefts i).interiorToLeft

theorem SameShape.refl (s : State K) : SameShape s s :=
  ⟨rfl, rfl, rfl, rfl, fun _ => rfl, fun _ => rfl, fun _ => rfl, fun _ => rfl, fun _ => rfl⟩

theorem SameShape.leftEnd {s s' : State K} (h : SameShape s s') (i : Nat) :
    s'.leftEnd i = s.leftEnd i := by
  unfold State.leftEnd; rw [h.rights, h.right]

theorem SameShape.seg {s s' : State K} (h : SameShape s s') (i : Nat) : s'.seg i = s.seg i := by
  unfold State.seg; rw [h.start, h.leftEnd]

theorem SameShape.wf {s s' : State K} (h : SameShape s s') (hw : s.WF) : s'.WF := by
  refine ⟨?_, ?_, ?_, ?_, ?_, ?_⟩
  · intro i hi
    rw [h.nextLeft] at hi
    rw [h.right, h.rights, h.nextRight]
    exact hw.leftRight i hi
  · intro r hr
    rw [h.nextRight] at hr
    rw [h.rights, h.right, h.nextLeft]
    exact hw.rightLeft r hr
  · intro i hi
    rw [h.nextLeft] at hi
    rw [h.start, h.leftEnd]
    exact hw.lt i hi
  · rw [h.queue, h.nextLeft]; exact hw.queueLeft
  · rw [h.queue, h.nextRight]; exact hw.queueRight
  · rw [h.queue]; exact hw.nodup

theorem sameShape_setLeft (s : State K) (i : Nat) (f : LeftEvent K → LeftEvent K)
    (hf : ∀ e, (f e).start = e.start ∧ (f e).right = e.right ∧ (f e).originalStart = e.originalStart ∧
      (f e).fromTest = e.fromTest ∧ (f e).interiorToLeft = e.interiorToLeft) :
    SameShape s (s.setLeft i f) := by
  refine ⟨rfl, rfl, rfl, rfl, ?_, ?_, ?_, ?_, ?_⟩ <;> intro j <;> simp only [setLeft] <;> split
  all_goals first | rfl | simp [hf]

/-- The changes of relations are justified: OVERLAP is given to a segment equal to one of the other
operand, TOUCH and CROSS if there is a common point. -/
structure RelationsJustified (s s' : State K) : Prop where
  shape : SameShape s s'
  relation : ∀ i, (s'.lefts i).relation = (s.lefts i).relation ∨
    (i < s.nextLeft ∧ ∃ j < s.nextLeft, (s.lefts j).fromTest ≠ (s.lefts i).fromTest ∧
      ((s.seg i).pts ∩ (s.seg j).pts).Nonempty ∧
      ((s'.lefts i).relation = .overlap → s.seg i = s.seg j))

/-- An elementary change of the heap; nothing is popped. -/
inductive Elem (s : State K) : State K → Prop
  | flags {s' : State K} (h : SameShape s s')
      (hr : ∀ i, (s'.lefts i).relation = (s.lefts i).relation) : Elem s s'
  | relation {s' : State K} (h : RelationsJustified s s') : Elem s s'
  | divide (i : Nat) (p : Point K) (hi : i < s.nextLeft) (hp : (s.seg i).Inner p)
      (hj : ∃ j < s.nextLeft, p ∈ (s.seg j).pts ∧
        (¬ (s.seg i).Collinear (s.seg j) ∨ (s.seg j).IsEndpoint p)) : Elem s (s.divide i p)

theorem pop_wf {s : State K} (h : s.WF) (e : Ev) : ({ s with queue := s.queue.erase e } : State K).WF :=
  ⟨h.leftRight, h.rightLeft, h.lt, fun i hi => h.queueLeft i (List.mem_of_mem_erase hi),
    fun i hi => h.queueRight i (List.mem_of_mem_erase hi), h.nodup.erase e⟩

theorem Elem.wf {s s' : State K} (h : Elem s s') (hw : s.WF) : s'.WF := by
  cases h with
  | flags h _ => exact h.wf hw
  | relation h => exact h.shape.wf hw
  | divide i p hi hp _ => exact divide_wf hw hi p hp

/-- Any number of elementary changes. -/
inductive Elems : State K → State K → Prop
  | refl (s : State K) : Elems s s
  | tail {s t u : State K} : Elems s t → Elem t u → Elems s u

theorem Elems.trans {s t u : State K} (h : Elems s t) (h' : Elems t u) : Elems s u := by
  induction h' with
  | refl => exact h
  | tail _ h2 ih => exact ih.tail h2

theorem Elem.elems {s t : State K} (h : Elem s t) : Elems s t := (Elems.refl s).tail h

theorem Elems.wf {s s' : State K} (h : Elems s s') (hw : s.WF) : s'.WF := by
  induction h with
  | refl => exact hw
  | tail _ h2 ih => exact h2.wf ih

theorem Elem.nextLeft_le {s s' : State K} (h : Elem s s') :
    s.nextLeft ≤ s'.nextLeft ∧ s.nextRight ≤ s'.nextRight := by
  cases h with
  | flags h _ => rw [h.nextLeft, h.nextRight]; exact ⟨le_rfl, le_rfl⟩
  | relation h => rw [h.shape.nextLeft, h.shape.nextRight]; exact ⟨le_rfl, le_rfl⟩
  | divide i p hi hp _ => simp [State.divide]

theorem Elems.nextLeft_le {s s' : State K} (h : Elems s s') :
    s.nextLeft ≤ s'.nextLeft ∧ s.nextRight ≤ s'.nextRight := by
  induction h with
  | refl => exact ⟨le_rfl, le_rfl⟩
  | tail _ h2 ih => exact ⟨ih.1.trans h2.nextLeft_le.1, ih.2.trans h2.nextLeft_le.2⟩

theorem Elems.valid {s s' : State K} (h : Elems s s') {e : Ev} (he : s.Valid e) : s'.Valid e := by
  cases e with
  | left i => exact lt_of_lt_of_le he h.nextLeft_le.1
  | right r => exact lt_of_lt_of_le he h.nextLeft_le.2

/-- What allocated events never lose. -/
theorem Elem.evStart {s s' : State K} (h : Elem s s') (hw : s.WF) {e : Ev} (he : s.Valid e) :
    s'.evStart e = s.evStart e ∧ s'.evFromTest e = s.evFromTest e := by
  cases h with
  | flags h _ =>
    cases e <;> simp only [State.evStart, evFromTest, leftOf, h.rights, h.start, h.fromTest, and_self]
  | relation h =>
    cases e <;> simp only [State.evStart, evFromTest, leftOf, h.shape.rights, h.shape.start,
      h.shape.fromTest, and_self]
  | divide i p hi hp _ =>
    cases e with
    | left j => exact ⟨divide_start hw hi p he, divide_fromTest hw hi p he⟩
    | right r =>
      refine ⟨divide_right_start hw hi p he, ?_⟩
      simp only [evFromTest, leftOf]
      by_cases hne : r = (s.lefts i).right
      · subst hne
        rw [divide_rights_self hw hi p]
        simp only
        rw [divide_lefts_new hw hi p, (hw.leftRight i hi).2]
      · rw [divide_rights_other hw hi p he hne, divide_fromTest hw hi p (hw.rightLeft r he).1]

theorem Elems.evStart {s s' : State K} (h : Elems s s') (hw : s.WF) {e : Ev} (he : s.Valid e) :
    s'.evStart e = s.evStart e ∧ s'.evFromTest e = s.evFromTest e := by
  induction h with
  | refl => exact ⟨rfl, rfl⟩
  | tail h1 h2 ih =>
    have := h2.evStart (h1.wf hw) (h1.valid he)
    exact ⟨this.1.trans ih.1, this.2.trans ih.2⟩

theorem Elem.evOriginalStart {s s' : State K} (h : Elem s s') (hw : s.WF) {e : Ev} (he : s.Valid e) :
    s'.evOriginalStart e = s.evOriginalStart e := by
  cases h with
  | flags h _ => cases e <;> simp only [State.evOriginalStart, h.rights, h.originalStart]
  | relation h => cases e <;> simp only [State.evOriginalStart, h.shape.rights, h.shape.originalStart]
  | divide i p hi hp _ =>
    cases e with
    | left j =>
      have he : j < s.nextLeft := he
      simp only [State.evOriginalStart, State.divide, he.ne, if_false]
      split <;> rfl
    | right r =>
      have he : r < s.nextRight := he
      simp only [State.evOriginalStart, State.divide, he.ne, if_false]
      split <;> rfl

theorem Elems.evOriginalStart {s s' : State K} (h : Elems s s') (hw : s.WF) {e : Ev}
    (he : s.Valid e) : s'.evOriginalStart e = s.evOriginalStart e := by
  induction h with
  | refl => rfl
  | tail h1 h2 ih => exact (h2.evOriginalStart (h1.wf hw) (h1.valid he)).trans ih

/-- No queued event is lost and new events are queued. -/
theorem Elem.queue {s s' : State K} (h : Elem s s') :
    (∀ e ∈ s.queue, e ∈ s'.queue) ∧ ∀ e, s'.Valid e → s.Valid e ∨ e ∈ s'.queue := by
  cases h with
  | flags h _ =>
    rw [h.queue]
    refine ⟨fun e he => he, fun e he => .inl ?_⟩
    cases e with
    | left i => exact (show i < s.nextLeft from h.nextLeft ▸ he)
    | right i => exact (show i < s.nextRight from h.nextRight ▸ he)
  | relation h =>
    rw [h.shape.queue]
    refine ⟨fun e he => he, fun e he => .inl ?_⟩
    cases e with
    | left i => exact (show i < s.nextLeft from h.shape.nextLeft ▸ he)
    | right i => exact (show i < s.nextRight from h.shape.nextRight ▸ he)
  | divide i p hi hp _ =>
    refine ⟨fun e he => List.mem_cons_of_mem _ (List.mem_cons_of_mem _ he), fun e he => ?_⟩
    cases e with
    | left j =>
      rcases Nat.lt_succ_iff_lt_or_eq.mp (show j < s.nextLeft + 1 from he) with h | rfl
      · exact .inl h
      · exact .inr (by simp [State.divide])
    | right j =>
      rcases Nat.lt_succ_iff_lt_or_eq.mp (show j < s.nextRight + 1 from he) with h | rfl
      · exact .inl h
      · exact .inr (by simp [State.divide])

theorem Elems.queue {s s' : State K} (h : Elems s s') :
    (∀ e ∈ s.queue, e ∈ s'.queue) ∧ ∀ e, s'.Valid e → s.Valid e ∨ e ∈ s'.queue := by
  induction h with
  | refl => exact ⟨fun e he => he, fun e he => .inl he⟩
  | tail _ h2 ih =>
    refine ⟨fun e he => h2.queue.1 e (ih.1 e he), fun e he => ?_⟩
    rcases h2.queue.2 e he with h | h
    · exact (ih.2 e h).imp id (h2.queue.1 e)
    · exact .inr h

/-- Elementary changes of the heap and removals from the queue. -/
inductive Runs : State K → State K → Prop
  | refl (s : State K) : Runs s s
  | elem {s t u : State K} : Runs s t → Elem t u → Runs s u
  | pop {s t : State K} (e : Ev) : Runs s t → e ∈ t.queue →
      Runs s { t with queue := t.queue.erase e }

theorem Runs.trans {s t u : State K} (h : Runs s t) (h' : Runs t u) : Runs s u := by
  induction h' with
  | refl => exact h
  | elem _ h2 ih => exact ih.elem h2
  | pop e _ he ih => exact ih.pop e he

theorem Elems.runs {s t : State K} (h : Elems s t) : Runs s t := by
  induction h with
  | refl => exact .refl _
  | tail _ h2 ih => exact ih.elem h2

theorem Runs.wf {s s' : State K} (h : Runs s s') (hw : s.WF) : s'.WF := by
  induction h with
  | refl => exact hw
  | elem _ h2 ih => exact h2.wf ih
  | pop e _ _ ih => exact pop_wf ih e

theorem Runs.nextLeft_le {s s' : State K} (h : Runs s s') :
    s.nextLeft ≤ s'.nextLeft ∧ s.nextRight ≤ s'.nextRight := by
  induction h with
  | refl => exact ⟨le_rfl, le_rfl⟩
  | elem _ h2 ih => exact ⟨ih.1.trans h2.nextLeft_le.1, ih.2.trans h2.nextLeft_le.2⟩
  | pop e _ _ ih => exact ih

theorem Runs.valid {s s' : State K} (h : Runs s s') {e : Ev} (he : s.Valid e) : s'.Valid e := by
  cases e with
  | left i => exact lt_of_lt_of_le he h.nextLeft_le.1
  | right r => exact lt_of_lt_of_le he h.nextLeft_le.2

theorem Runs.evStart {s s' : State K} (h : Runs s s') (hw : s.WF) {e : Ev} (he : s.Valid e) :
    s'.evStart e = s.evStart e ∧ s'.evFromTest e = s.evFromTest e := by
  induction h with
  | refl => exact ⟨rfl, rfl⟩
  | elem h1 h2 ih =>
    have := h2.evStart (h1.wf hw) (h1.valid he)
    exact ⟨this.1.trans ih.1, this.2.trans ih.2⟩
  | pop e' _ _ ih => exact ih

end Orient.State
